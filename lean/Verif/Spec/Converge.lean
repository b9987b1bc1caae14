import Verif.Spec.Fem
import Mathlib.Analysis.Calculus.ContDiff.Basic
import Mathlib.Analysis.Real.Sqrt

/-!
# Specification vocabulary: the boundary value problems behind the warping analysis, and fine meshes

The problems are stated without nodes and shape functions: the fields that are compared with the solution are all the continuous
ones that are smooth on every element, and the solution is a smooth function on the plane.
-/

namespace SP.Spec

variable {n : ℕ}

/-- `q` is a virtual displacement: smooth on every element, and continuous from element to element. -/
structure TestField (els : List (Tri6 n)) (q : Tri6 n → ℝ × ℝ → ℝ) : Prop where
  smooth : ∀ t ∈ els, ContDiff ℝ 1 (q t)
  agree : ∀ a ∈ els, ∀ b ∈ els, ∀ p ∈ elemRegion a.coords ∩ elemRegion b.coords, q a p = q b p

/-- `u` is the warping function of the section under unit twist about the origin: the shear stresses of twist and warping do no work
on any virtual displacement along the axis. -/
structure TorsionSolution (els : List (Tri6 n)) (u : ℝ × ℝ → ℝ) : Prop where
  smooth : ContDiff ℝ 1 u
  weak : ∀ q, TestField els q → wInt els (fun t p => (dX u p - p.2) * dX (q t) p + (dY u p + p.1) * dY (q t) p) = 0

/-- `u` is the warping function of the section in bending whose direct stress grows along the axis at the rate `g`: on every
virtual displacement the shear stresses do the work of that growth. -/
structure ShearSolution (els : List (Tri6 n)) (g u : ℝ × ℝ → ℝ) : Prop where
  smooth : ContDiff ℝ 1 u
  weak : ∀ q, TestField els q → wInt els (fun t p => dX u p * dX (q t) p + dY u p * dY (q t) p) = wInt els fun t p => q t p * g p

/-- The energy of the shear stresses of the warping function `u`. -/
noncomputable def gradEnergy (els : List (Tri6 n)) (u : ℝ × ℝ → ℝ) : ℝ := wInt els fun _ p => dX u p ^ 2 + dY u p ^ 2

/-- On every element `u` has second order expansions with a remainder of at most `M` times the third power of the distance (for a
three times differentiable function `M` is bounded by its third derivatives). -/
def Expands (els : List (Tri6 n)) (u : ℝ × ℝ → ℝ) (M : ℝ) : Prop :=
  ∀ t ∈ els, ∀ p ∈ elemRegion t.coords, ∃ a b c : ℝ, ∀ z ∈ elemRegion t.coords,
    |u z - (u p + dX u p * (z.1 - p.1) + dY u p * (z.2 - p.2) + a * (z.1 - p.1) ^ 2 + b * ((z.1 - p.1) * (z.2 - p.2))
      + c * (z.2 - p.2) ^ 2)| ≤ M * √((z.1 - p.1) ^ 2 + (z.2 - p.2) ^ 2) ^ 3

/-- No element is larger than `h`, and the square of the size of an element is at most `κ` times twice its area (a minimum angle). -/
def FineMesh (els : List (Tri6 n)) (h κ : ℝ) : Prop :=
  ∀ t ∈ els, ∃ d, d ≤ h ∧ d ^ 2 ≤ κ * elemDet t.coords ∧
    ∀ p ∈ elemRegion t.coords, ∀ z ∈ elemRegion t.coords, √((z.1 - p.1) ^ 2 + (z.2 - p.2) ^ 2) ≤ d

end SP.Spec
