import Verif.Model.SetOps
import Verif.Spec.Shapes
import Mathlib.MeasureTheory.Measure.Lebesgue.Basic
import Mathlib.MeasureTheory.Constructions.BorelSpace.Basic

/-!
# Specification vocabulary for the set operators

Only data types (`Poly`, `Overlay`, `Shape`, `Geometry`) are taken from the model.  A polygon `p` stands for
the plane region `reg p`.
-/

namespace SP.Spec

open MeasureTheory

/-- The polygons among what shapely returned; lines and points have no area and are left out. -/
def overlayPolys : Overlay → List Poly
  | .polygon p => [p]
  | .multi ps => ps
  | .collection items => items.filterMap id
  | .lineOrPoint => []
  | .other => []

/-- The region covered by some polygons. -/
def covered (reg : Poly → Set (ℝ × ℝ)) (ps : List Poly) : Set (ℝ × ℝ) := {q | ∃ p ∈ ps, q ∈ reg p}

/-- The region occupied by a geometry or compound. -/
def occupied (reg : Poly → Set (ℝ × ℝ)) (s : Shape) : Set (ℝ × ℝ) := {q | ∃ g ∈ s.parts, q ∈ reg g.poly}

/-- The region of a geometry or compound that is made of the material `m`. -/
def madeOf (reg : Poly → Set (ℝ × ℝ)) (s : Shape) (m : Material) : Set (ℝ × ℝ) :=
  {q | ∃ g ∈ s.parts, g.material = m ∧ q ∈ reg g.poly}

/-- Shapely's result is right: up to a null set it describes the region `S`, it is of a class the library accepts,
and its vertices have no more than `tol` decimals (polygons may be empty, but do not shrink to the origin). -/
structure Describes (reg : Poly → Set (ℝ × ℝ)) (tol : ℕ) (o : Overlay) (S : Set (ℝ × ℝ)) : Prop where
  usable : o ≠ .other
  region : covered reg (overlayPolys o) =ᵐ[volume] S
  grid : ∀ p ∈ overlayPolys o, p = ⟨[], []⟩ ∨
    (∀ r ∈ p.exterior :: p.interiors, ∀ v ∈ r, OnGrid tol v.1 ∧ OnGrid tol v.2) ∧ ∃ v ∈ p.exterior, v ≠ (0, 0)

end SP.Spec
