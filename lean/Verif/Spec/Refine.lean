import Verif.Spec.Field
import Mathlib.Analysis.Convex.Segment

/-!
# Specification vocabulary: refinement of a mesh
-/

namespace SP.Spec

open MeasureTheory

/-- Two different elements have at most corners and whole edges in common: a common point lies between two common nodes,
and the node half way between these is common as well (or the point is a common node itself).  `pos` gives the places
of the nodes. -/
def ConformingMesh {n : ℕ} (pos : Fin n → ℝ × ℝ) (els : List (Tri6 n)) : Prop :=
  ∀ a ∈ els, ∀ b ∈ els, a ≠ b → ∀ p ∈ elemRegion a.coords ∩ elemRegion b.coords,
    ∃ i j m, (∀ k ∈ [i, j, m], k ∈ Set.range a.nodeIds ∧ k ∈ Set.range b.nodeIds) ∧
      pos m = ((pos i).1 / 2 + (pos j).1 / 2, (pos i).2 / 2 + (pos j).2 / 2) ∧ p ∈ segment ℝ (pos i) (pos j)

/-- The second mesh refines the first: both cover the same region once, and every element of the second lies within an
element of the first of the same material. -/
structure Refines {n m : ℕ} (els : List (Tri6 n)) (els' : List (Tri6 m)) : Prop where
  once : NoOverlap els
  once' : NoOverlap els'
  same : region els =ᵐ[volume] region els'
  inside : ∀ t' ∈ els', ∃ t ∈ els, elemRegion t'.coords ⊆ elemRegion t.coords ∧ t'.material = t.material

end SP.Spec
