import Verif.Spec.Poly
import Verif.Model.Bisect
import Verif.Model.Plastic
import Verif.Spec.Beam
import Mathlib.MeasureTheory.Integral.Bochner.Set
import Mathlib.MeasureTheory.Measure.Lebesgue.Basic
import Mathlib.MeasureTheory.Constructions.BorelSpace.Basic
import Mathlib.Analysis.Convex.Segment

/-!
# Specification vocabulary: polygons as plane regions, lines, and what is assumed of shapely

Only data types (`PolyOps`, `PGeom`) are taken from the model.
-/

namespace SP.Spec

open MeasureTheory

/-- Signed height of `q` over the line through `p` with direction `v`: measured upwards, or to the right
if the line is vertical. -/
noncomputable def height (p v q : ℝ × ℝ) : ℝ :=
  if v.1 = 0 then q.1 - p.1 else q.2 - (p.2 + (q.1 - p.1) * v.2 / v.1)

/-- What is assumed of shapely, when the polygon `P` stands for the plane region `reg P`. -/
structure ShapelyOk {P : Type*} (ops : PolyOps P) (reg : P → Set (ℝ × ℝ)) : Prop where
  measurable : ∀ p, MeasurableSet (reg p)
  /-- regions lie within their bounds -/
  inBounds : ∀ p, ∀ q ∈ reg p, (ops.bounds p).1 ≤ q.1 ∧ q.1 ≤ (ops.bounds p).2.1 ∧
    (ops.bounds p).2.2.1 ≤ q.2 ∧ q.2 ≤ (ops.bounds p).2.2.2
  area : ∀ p, ops.area p = volume.real (reg p)
  centroid : ∀ p, volume.real (reg p) * (ops.centroid p).1 = ∫ q in reg p, q.1
  centroid' : ∀ p, volume.real (reg p) * (ops.centroid p).2 = ∫ q in reg p, q.2
  /-- the representative point is a point inside of the polygon -/
  rep : ∀ p, ops.rep p ∈ interior (reg p)
  /-- a segment that spans the polygon cuts it into pieces that lie on one side of the line each,
  overlap at most in null sets, and fill the polygon up to a null set -/
  split : ∀ p a b, a ≠ b → (∀ q ∈ reg p, signedArea2 a b q = 0 → q ∈ segment ℝ a b) →
    ∃ pieces : List P, ops.split p (a, b) = pieces.map some ∧
      (∀ s ∈ pieces, (∀ q ∈ reg s, 0 ≤ signedArea2 a b q) ∨ (∀ q ∈ reg s, signedArea2 a b q ≤ 0)) ∧
      pieces.Pairwise (fun s t => volume (reg s ∩ reg t) = 0) ∧
      reg p =ᵐ[volume] {q | ∃ s ∈ pieces, q ∈ reg s}

/-- Total yield force of the parts of a section within `S`. -/
noncomputable def yieldForce {P : Type*} (reg : P → Set (ℝ × ℝ)) (geoms : List (PGeom P))
    (S : Set (ℝ × ℝ)) : ℝ :=
  (geoms.map fun g => g.material.yieldStrength * volume.real (reg g.poly ∩ S)).sum

/-- Integral of `f` over the section weighted by the yield strength. -/
noncomputable def yieldInt {P : Type*} (reg : P → Set (ℝ × ℝ)) (geoms : List (PGeom P))
    (f : ℝ × ℝ → ℝ) : ℝ :=
  (geoms.map fun g => g.material.yieldStrength * ∫ q in reg g.poly, f q).sum

/-- Coordinate perpendicular to a bending axis. -/
noncomputable def axisCoord (phi : ℝ) (q : ℝ × ℝ) : Axis → ℝ
  | .xx => q.2
  | .yy => q.1
  | .a11 => rotY phi q.1 q.2
  | .a22 => rotX phi q.1 q.2

/-- What is assumed of `brentq`: for a continuous function with a change of sign over the bracket it
returns without exception, and if it reports convergence the root is within `tol` of a zero, and so is
the point where it evaluated the function last of the root.  (With the code's tolerances
`tol x = 1e-6 + 1e-6 * |x|`.) -/
def RootFinder (tol : ℝ → ℝ) (br : Brentq) : Prop :=
  ∀ (f : ℝ → Except PyErr ℝ) (g : ℝ → ℝ) (a b : ℝ), a < b → (∀ x, f x = .ok (g x)) →
    ContinuousOn g (Set.Icc a b) → g a * g b < 0 →
    ∃ r, br f a b = .ok r ∧ (r.converged →
      (∃ z ∈ Set.Icc a b, g z = 0 ∧ |r.root - z| ≤ tol r.root) ∧ |r.last - r.root| ≤ tol r.root)

end SP.Spec
