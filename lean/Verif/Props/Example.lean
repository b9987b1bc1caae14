import Verif.Lemmas.Init

/-!
# A concrete section used in the non-vacuity examples

The rectangle `[0, 2] × [0, 1]`, cut along a diagonal into two triangles of different materials.
-/

namespace SP

open Spec

/-- Concrete of the example. -/
noncomputable def exConcrete : Material := ⟨"concrete", 30, 1 / 5, 2, 1, "grey"⟩
/-- Steel of the example. -/
noncomputable def exSteel : Material := ⟨"steel", 200, 3 / 10, 5, 3, "red"⟩

/-- Node coordinates of the example. -/
noncomputable def exV : Fin 9 → ℝ × ℝ :=
  ![(0, 0), (2, 0), (2, 1), (0, 1), (1, 0), (2, 1 / 2), (1, 1 / 2), (1, 1), (0, 1 / 2)]
/-- First triangle in the mesher's node order. -/
def exR0 : Fin 6 → Fin 9 := ![0, 1, 2, 5, 6, 4]
/-- Second triangle in the mesher's node order. -/
def exR1 : Fin 6 → Fin 9 := ![0, 2, 3, 7, 8, 6]

/-- Mesh of the example, in the mesher's node order. -/
noncomputable def exMesh : MeshData := ⟨9, exV, [exR0, exR1], [0, 1]⟩

/-- Geometry of the example. -/
noncomputable def exGeom : GeomIn := ⟨[⟨0, exConcrete⟩, ⟨1, exSteel⟩], some exMesh⟩

theorem exMesh_good : GoodMesh exMesh := by
  intro (t : Fin 6 → Fin 9) ht
  have ht : t = exR0 ∨ t = exR1 := by
    have h : t ∈ ([exR0, exR1] : List (Fin 6 → Fin 9)) := ht
    simpa using h
  show MesherTri exV t
  rcases ht with rfl | rfl <;> constructor <;> simp [exV, exR0, exR1, signedArea2]

/-- First element of the example. -/
noncomputable def exT0 : Tri6 9 :=
  ⟨0, gather exV ![0, 1, 2, 4, 5, 6], ![0, 1, 2, 4, 5, 6], exConcrete⟩
/-- Second element of the example. -/
noncomputable def exT1 : Tri6 9 :=
  ⟨1, gather exV ![0, 2, 3, 6, 7, 8], ![0, 2, 3, 6, 7, 8], exSteel⟩

theorem exConcrete_ne : exConcrete ≠ exSteel := by
  intro h; have := congrArg Material.name h; simp [exConcrete, exSteel] at this

/-- The section of the example. -/
noncomputable def exSection : Section where
  numNodes := 9
  meshNodes := exV
  materials := exGeom.materials
  elements := [exT0, exT1]
  groups := [⟨⟨0, exConcrete⟩, [exT0]⟩, ⟨⟨1, exSteel⟩, [exT1]⟩]

theorem exGroupMats : groupMaterials exGeom.materials = [⟨0, exConcrete⟩, ⟨1, exSteel⟩] := by
  have := exConcrete_ne
  simp [groupMaterials, exGeom, List.zipIdx, this]

theorem exSection_init : Section.init exGeom = .ok exSection := by
  have hmx : exMesh.attributes.max? = some 1 := by simp [exMesh, List.max?]
  have h0 : mkElement exGeom.materials exMesh exR0 0 = .ok (exT0, ⟨0, exConcrete⟩) := by
    simp [mkElement, exMesh, exGeom, exT0, reorder, exR0]
  have h1 : mkElement exGeom.materials exMesh exR1 1 = .ok (exT1, ⟨1, exSteel⟩) := by
    simp [mkElement, exMesh, exGeom, exT1, reorder, exR1]
  have hM : exMesh.triangles.zipIdx.mapM (fun p => mkElement exGeom.materials exMesh p.1 p.2)
      = .ok [(exT0, ⟨0, exConcrete⟩), (exT1, ⟨1, exSteel⟩)] := by
    rw [mapM_ok_forall₂]
    exact .cons h0 (.cons h1 .nil)
  have hl : exGeom.materials.length = 1 + 1 := rfl
  have hg := exGroupMats
  unfold Section.init
  simp only [show exGeom.mesh = some exMesh from rfl, hmx, hl, ne_eq, not_true_eq_false, if_false,
    hM, hg]
  simp [addToGroup, exSection]
  exact ⟨rfl, HEq.rfl, HEq.rfl, HEq.rfl⟩

theorem exSection_good : GoodSection exSection := init_good exSection_init rfl exMesh_good

/-! ### The same rectangle without materials -/

/-- Mesh of the non-composite example: one region. -/
noncomputable def exPlainMesh : MeshData := ⟨9, exV, [exR0, exR1], [0, 0]⟩
/-- Geometry of the non-composite example. -/
noncomputable def exPlainGeom : GeomIn := ⟨[⟨0, defaultMaterial⟩], some exPlainMesh⟩

/-- First element of the non-composite example. -/
noncomputable def exP0 : Tri6 9 := { exT0 with material := defaultMaterial }
/-- Second element of the non-composite example. -/
noncomputable def exP1 : Tri6 9 := { exT1 with material := defaultMaterial }

/-- The non-composite section. -/
noncomputable def exPlain : Section where
  numNodes := 9
  meshNodes := exV
  materials := exPlainGeom.materials
  elements := [exP0, exP1]
  groups := [⟨⟨0, defaultMaterial⟩, [exP0, exP1]⟩]

theorem exPlain_init : Section.init exPlainGeom = .ok exPlain := by
  have hmx : exPlainMesh.attributes.max? = some 0 := by simp [exPlainMesh, List.max?]
  have h0 : mkElement exPlainGeom.materials exPlainMesh exR0 0 = .ok (exP0, ⟨0, defaultMaterial⟩) := by
    simp [mkElement, exPlainMesh, exPlainGeom, exP0, exT0, reorder, exR0]
  have h1 : mkElement exPlainGeom.materials exPlainMesh exR1 1 = .ok (exP1, ⟨0, defaultMaterial⟩) := by
    simp [mkElement, exPlainMesh, exPlainGeom, exP1, exT1, reorder, exR1]
  have hM : exPlainMesh.triangles.zipIdx.mapM
      (fun p => mkElement exPlainGeom.materials exPlainMesh p.1 p.2)
      = .ok [(exP0, ⟨0, defaultMaterial⟩), (exP1, ⟨0, defaultMaterial⟩)] := by
    rw [mapM_ok_forall₂]
    exact .cons h0 (.cons h1 .nil)
  have hl : exPlainGeom.materials.length = 0 + 1 := rfl
  have hg : groupMaterials exPlainGeom.materials = [⟨0, defaultMaterial⟩] := by
    simp [groupMaterials, exPlainGeom, List.zipIdx]
  unfold Section.init
  simp only [show exPlainGeom.mesh = some exPlainMesh from rfl, hmx, hl, ne_eq, not_true_eq_false,
    if_false, hM, hg]
  simp [addToGroup, exPlain]
  exact ⟨rfl, HEq.rfl, HEq.rfl, HEq.rfl⟩

theorem exPlainMesh_good : GoodMesh exPlainMesh := exMesh_good

theorem exPlain_good : GoodSection exPlain := init_good exPlain_init rfl exPlainMesh_good

theorem exPlain_not_composite : ¬ isComposite exPlain.materials := by
  simp [isComposite, exPlain, exPlainGeom]

end SP
