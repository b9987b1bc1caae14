import Verif.Spec.Mesh
import Verif.Model.Section

/-!
# Specification vocabulary: what is assumed of the mesher

Only data types (`MeshData`, `GeomIn`) are taken from the model.
-/

namespace SP.Spec

/-- The six-node order of the `triangle` program (its `-o2` switch): three corners in
counter-clockwise order, then the midpoints of the edges opposite to corner 0, 1 and 2. -/
structure MesherTri {n : ℕ} (v : Fin n → ℝ × ℝ) (t : Fin 6 → Fin n) : Prop where
  mid3x : (v (t 3)).1 = ((v (t 1)).1 + (v (t 2)).1) / 2
  mid3y : (v (t 3)).2 = ((v (t 1)).2 + (v (t 2)).2) / 2
  mid4x : (v (t 4)).1 = ((v (t 0)).1 + (v (t 2)).1) / 2
  mid4y : (v (t 4)).2 = ((v (t 0)).2 + (v (t 2)).2) / 2
  mid5x : (v (t 5)).1 = ((v (t 0)).1 + (v (t 1)).1) / 2
  mid5y : (v (t 5)).2 = ((v (t 0)).2 + (v (t 1)).2) / 2
  ccw : 0 < signedArea2 (v (t 0)) (v (t 1)) (v (t 2))

/-- All triangles of a mesh follow the mesher's convention. -/
def GoodMesh (m : MeshData) : Prop := ∀ t ∈ m.triangles, MesherTri m.vertices t

end SP.Spec
