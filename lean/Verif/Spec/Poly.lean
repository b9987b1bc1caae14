import Mathlib.Data.Real.Basic
import Mathlib.LinearAlgebra.Span.Basic
import Mathlib.Analysis.Convex.Hull

/-!
# Specification vocabulary: plane polynomials and triangles

Nothing in this file refers to the model.
-/

namespace SP.Spec

/-- Real polynomials in two variables of total degree at most `d`, as functions on the plane:
linear combinations of the monomials `x ^ i * y ^ j` with `i + j ≤ d`. -/
def PolyLE (d : ℕ) : Submodule ℝ (ℝ × ℝ → ℝ) :=
  Submodule.span ℝ {f | ∃ i j : ℕ, i + j ≤ d ∧ f = fun p => p.1 ^ i * p.2 ^ j}

/-- The closed triangle with corners `A`, `B`, `C`. -/
def triangle (A B C : ℝ × ℝ) : Set (ℝ × ℝ) := convexHull ℝ {A, B, C}

/-- Twice the signed area of the triangle `A B C`; positive iff the corners run
counter-clockwise. -/
def signedArea2 (A B C : ℝ × ℝ) : ℝ := (B.1 - A.1) * (C.2 - A.2) - (C.1 - A.1) * (B.2 - A.2)

/-- The point with barycentric coordinates `(a, b, c)`. -/
def baryPoint (A B C : ℝ × ℝ) (a b c : ℝ) : ℝ × ℝ :=
  (a * A.1 + b * B.1 + c * C.1, a * A.2 + b * B.2 + c * C.2)

end SP.Spec
