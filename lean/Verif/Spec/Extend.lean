import Verif.Spec.Field

/-!
# Specification vocabulary: one section is part of another
-/

namespace SP.Spec

open MeasureTheory

/-- Wherever the first section has material, so has the second, and the value of `prop` for its material there is at least
as large.  Nothing is said about the meshes. -/
def Below {n m : ℕ} (prop : Material → ℝ) (els : List (Tri6 n)) (els' : List (Tri6 m)) : Prop :=
  ∃ E E', IsField els prop E ∧ IsField els' prop E' ∧
    ∀ᵐ p : ℝ × ℝ, p ∈ region els → p ∈ region els' ∧ E p ≤ E' p

/-- Every element of the first mesh lies within an element of the second that is at least as stiff; neither mesh overlaps
itself. -/
structure FitsInto {n m : ℕ} (els : List (Tri6 n)) (els' : List (Tri6 m)) : Prop where
  once : NoOverlap els
  once' : NoOverlap els'
  inside : ∀ t ∈ els, ∃ t' ∈ els', elemRegion t.coords ⊆ elemRegion t'.coords ∧
    t.material.elasticModulus ≤ t'.material.elasticModulus

end SP.Spec
