import Verif.Spec.Import
import Verif.Props.Rigid
import Verif.Lemmas.Init

/-!
# C98: imports from files
-/

namespace SP

open Spec

/-- The parts are the given polygons, one for one and in order, up to rounding to twelve decimals, with the default material. -/
def ImportOf (parts : List Geometry) (polys : List Poly) : Prop :=
  List.Forall₂ (fun g p => g.material = defaultMaterial ∧ g.assigned = none ∧
    (Spread 12 p.exterior → NearRings 12 (g.poly.exterior :: g.poly.interiors) (p.exterior :: p.interiors))) parts polys

theorem import_one (ops : GeomOps) (p : Poly) : ImportOf [mkGeometry ops p defaultMaterial none 12] [p] :=
  .cons ⟨rfl, rfl, (C37_facets ops p defaultMaterial none 12).1⟩ .nil

theorem import_many (ops : GeomOps) (ps : List Poly) : ∃ c, compoundOfPolys ops ps = .ok c ∧ CBuilt ops c ∧ ImportOf c.geoms ps := by
  obtain ⟨c, h1, h2, h3⟩ := mkCompound_built ops (gs := ps.map fun p => mkGeometry ops p defaultMaterial none 12) fun g hg => by
    obtain ⟨p, -, rfl⟩ := List.mem_map.1 hg
    exact mk_built ..
  refine ⟨c, h1, h3, ?_⟩
  rw [h2, ImportOf, List.forall₂_map_left_iff, List.forall₂_same]
  exact fun p _ => ⟨rfl, rfl, (C37_facets ops p defaultMaterial none 12).1⟩

/-- **C98** `Geometry.from_3dm` succeeds exactly for one polygon and then returns it; otherwise it raises `RuntimeError`. -/
theorem C98_from_3dm (ops : GeomOps) (found : List Poly) :
    (found.length = 1 → ∃ g, from3dm ops found = .ok g ∧ Built ops g ∧ ImportOf [g] found) ∧
    (found.length ≠ 1 → from3dm ops found = .error .runtimeError) := by
  constructor
  · intro h
    obtain ⟨p, rfl⟩ := List.length_eq_one_iff.1 h
    exact ⟨_, by simp [from3dm, loadRhino], mk_built .., import_one ops p⟩
  · intro h
    match found with
    | [] => simp [from3dm, loadRhino]
    | [p] => simp at h
    | p :: q :: l => simp [from3dm, loadRhino]

/-- **C98** `CompoundGeometry.from_3dm` returns all polygons of the file, and raises `RuntimeError` exactly if there are none. -/
theorem C98_compound_from_3dm (ops : GeomOps) (found : List Poly) :
    (found ≠ [] → ∃ c, compoundFrom3dm ops found = .ok c ∧ CBuilt ops c ∧ ImportOf c.geoms found) ∧
    (found = [] → compoundFrom3dm ops found = .error .runtimeError) := by
  constructor
  · intro h
    obtain ⟨c, h1, h2, h3⟩ := import_many ops found
    refine ⟨c, ?_, h2, h3⟩
    rw [compoundFrom3dm, loadRhino, if_neg (by simpa using h)]
    exact h1
  · rintro rfl
    simp [compoundFrom3dm, loadRhino]

/-- **C98** `from_dxf` returns all polygons of the file, and raises `ValueError` exactly if there is no file and `RuntimeError` exactly if
nothing or something other than a polygon has been found in it. -/
theorem C98_from_dxf (ops : GeomOps) (fileExists : Bool) (found : List (Option Poly)) :
    (fileExists = false → loadDxf ops fileExists found = .error .valueError) ∧
    (fileExists = true → (found = [] ∨ none ∈ found) → loadDxf ops fileExists found = .error .runtimeError) ∧
    (fileExists = true → ∀ ps : List Poly, ps ≠ [] → found = ps.map some →
      ∃ a, loadDxf ops fileExists found = .ok a ∧ ImportOf (partsOf a) ps ∧ ((∃ g, a = .single g) ↔ ps.length = 1)) := by
  refine ⟨?_, ?_, ?_⟩
  · rintro rfl
    simp [loadDxf]
  · rintro rfl (rfl | hn)
    · simp [loadDxf]
    · have hm : found.mapM dxfPolygon = .error .runtimeError := by
        induction found with
        | nil => simp at hn
        | cons o l ih =>
          rw [List.mapM_cons]
          cases o with
          | none => rfl
          | some p =>
            have := ih (by simpa using hn)
            simp only [this]
            rfl
      have h0 : found.length ≠ 0 := by
        rintro h
        rw [List.length_eq_zero_iff.1 h] at hn
        simp at hn
      simp only [loadDxf, Bool.not_true, Bool.false_eq_true, if_false, if_neg h0, hm]
  · rintro rfl ps h0 rfl
    have hm : (ps.map some).mapM dxfPolygon = .ok ps := by
      rw [mapM_ok_forall₂, List.forall₂_map_left_iff, List.forall₂_same]
      exact fun _ _ => rfl
    have h1 : (ps.map some).length ≠ 0 := by simpa using h0
    simp only [loadDxf, Bool.not_true, Bool.false_eq_true, if_false, if_neg h1, hm]
    match ps, h0 with
    | [p], _ => exact ⟨_, rfl, import_one ops p, by simp⟩
    | p :: q :: l, _ =>
      obtain ⟨c, c1, -, c3⟩ := import_many ops (p :: q :: l)
      refine ⟨.compound c, ?_, c3, by simp⟩
      change (match compoundOfPolys ops (p :: q :: l) with
        | Except.error e => Except.error e
        | Except.ok c => Except.ok (AnyGeometry.compound c)) = _
      rw [c1]

/-- **C98** for an encoded surface: a single polygon is returned, and `RuntimeError` is raised if there is none.  Missing, and false by
`C98_encoding_violated`: a result or an error that accounts for all polygons. -/
theorem C98_encoding_partial (ops : GeomOps) (found : List Poly) :
    (found.length = 1 → ∃ g, fromRhinoEncoding ops found = .ok g ∧ Built ops g ∧ ImportOf [g] found) ∧
    (found = [] → fromRhinoEncoding ops found = .error .runtimeError) := by
  constructor
  · intro h
    obtain ⟨p, rfl⟩ := List.length_eq_one_iff.1 h
    exact ⟨_, by simp [fromRhinoEncoding, loadRhino], mk_built .., import_one ops p⟩
  · rintro rfl
    simp [fromRhinoEncoding, loadRhino]

/-- **C98** is violated by `from_rhino_encoding`: of two or more polygons all but the first are dropped without an error. -/
theorem C98_encoding_violated (ops : GeomOps) (p q : Poly) (l : List Poly) :
    ∃ g, fromRhinoEncoding ops (p :: q :: l) = .ok g ∧ ImportOf [g] [p] ∧ ¬ ImportOf [g] (p :: q :: l) := by
  refine ⟨_, by simp [fromRhinoEncoding, loadRhino], import_one ops p, fun h => ?_⟩
  have := h.length_eq
  simp at this

/-- The hypotheses of `C98_from_dxf` are met by a file with two squares. -/
example (ops : GeomOps) : ∃ a, loadDxf ops true [some ⟨[(0, 0), (1, 0), (1, 1), (0, 1)], []⟩, some ⟨[(2, 0), (3, 0), (3, 1), (2, 1)], []⟩] = .ok a ∧
    (partsOf a).length = 2 ∧ Spread 12 [((0 : ℝ), (0 : ℝ)), (1, 0), (1, 1), (0, 1)] := by
  obtain ⟨a, h1, h2, -⟩ := (C98_from_dxf ops true _).2.2 rfl
    [⟨[(0, 0), (1, 0), (1, 1), (0, 1)], []⟩, ⟨[(2, 0), (3, 0), (3, 1), (2, 1)], []⟩] (by simp) rfl
  refine ⟨a, h1, h2.length_eq, ?_⟩
  refine ⟨(0, 0), by simp, (1, 1), by simp, ?_⟩
  norm_num

end SP
