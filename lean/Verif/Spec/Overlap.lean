import Mathlib.MeasureTheory.Measure.Lebesgue.Basic
import Verif.Model.SetOps

/-!
# Specification of overlapping regions
-/

namespace SP.Spec

open MeasureTheory

/-- The areas that shapely reports for the polygons and for their union are those of the regions they fill. -/
structure ExactAreas (region : Poly → Set (ℝ × ℝ)) (unionArea : List Poly → ℝ) (lop : List Poly) : Prop where
  measurable : ∀ p ∈ lop, MeasurableSet (region p)
  bounded : ∀ p ∈ lop, volume (region p) ≠ ⊤
  area : ∀ p ∈ lop, p.area = (volume (region p)).toReal
  union : unionArea lop = (volume (⋃ p ∈ lop, region p)).toReal

/-- The area that two regions have in common. -/
noncomputable def common (r s : Set (ℝ × ℝ)) : ℝ := (volume (r ∩ s)).toReal

/-- The area of a list of polygons, counting what several of them cover several times. -/
noncomputable def countedArea (region : Poly → Set (ℝ × ℝ)) (lop : List Poly) : ℝ :=
  (lop.map fun p => (volume (region p)).toReal).sum

end SP.Spec
