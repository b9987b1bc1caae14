import Verif.Spec.Converge
import Verif.Spec.Refine

/-!
# Specification vocabulary: bodies, and meshes of a body
-/

namespace SP.Spec

open MeasureTheory

/-- `els` is a mesh of the body that occupies `Ω` and has the material `mat p` at `p`: the elements cover `Ω` once, and carry its
materials (up to sets of measure zero, such as edges). -/
structure MeshOf {n : ℕ} (Ω : Set (ℝ × ℝ)) (mat : ℝ × ℝ → Material) (els : List (Tri6 n)) : Prop where
  once : NoOverlap els
  covers : region els =ᵐ[volume] Ω
  material : ∀ t ∈ els, ∀ᵐ p, p ∈ elemRegion t.coords → mat p = t.material

end SP.Spec
