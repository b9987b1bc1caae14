import Verif.Props.Extend
import Verif.Props.RefineExample

/-!
# A triangle as part of a rectangle

The lower right half of the rectangle `[0, 2] × [0, 1]`, of a softer material.
-/

namespace SP

open Spec MeasureTheory

/-- A material that is softer, lighter and weaker than the default one. -/
noncomputable def exSoft : Material := ⟨"soft", 1 / 2, 0, 1 / 2, 1 / 2, "grey"⟩

/-- The nodes of the triangle. -/
noncomputable def exHalfV : Fin 6 → ℝ × ℝ := ![(0, 0), (2, 0), (2, 1), (1, 0), (2, 1 / 2), (1, 1 / 2)]

noncomputable def exH0 : Tri6 6 := ⟨0, gather exHalfV id, id, exSoft⟩

/-- The triangle as a section. -/
noncomputable def exHalf : Section where
  numNodes := 6
  meshNodes := exHalfV
  materials := [⟨0, exSoft⟩]
  elements := [exH0]
  groups := [⟨⟨0, exSoft⟩, [exH0]⟩]

theorem exH0_coords : exH0.coords = exP0.coords := by
  simp only [exH0, exP0, exT0, gather, Coords.mk.injEq, funext_iff]
  constructor <;> intro k <;> fin_cases k <;> rfl

theorem exHalf_physical : Physical exHalf.elements := by
  have h0 := exPlain_good.proper exP0 (List.mem_cons_self ..)
  refine ⟨by simp [exHalf], ?_, ?_⟩ <;> intro (t : Tri6 6) ht <;>
    · obtain rfl : t = exH0 := List.mem_singleton.1 ht
      first
        | (rw [exH0_coords]; exact h0)
        | norm_num [exH0, exSoft]

theorem exHalf_good : GoodSection exHalf :=
  ⟨exHalf_physical.proper, fun (t : Tri6 6) ht => by
    obtain rfl : t = exH0 := List.mem_singleton.1 ht
    rfl⟩

theorem exHalf_grouped : Grouped exHalf := by
  refine ⟨List.pairwise_singleton _ _, by simp [exHalf], ?_⟩
  intro (g : MaterialGroup 6) hg
  obtain rfl : g = ⟨⟨0, exSoft⟩, [exH0]⟩ := List.mem_singleton.1 hg
  intro (t : Tri6 6) ht
  obtain rfl : t = exH0 := List.mem_singleton.1 ht
  rfl

theorem exHalf_linked (cx cy : ℝ) : ConnectedMesh (exHalf.elements.map fun t => t.shiftBy cx cy) :=
  fun i j => .single ⟨exH0.shiftBy cx cy, List.mem_singleton.2 rfl, i, j, rfl, rfl⟩

theorem exHalf_once : NoOverlap exHalf.elements := List.pairwise_singleton _ _

theorem exHalf_below {prop : Material → ℝ} (h : prop exSoft ≤ prop defaultMaterial) :
    Below prop exHalf.elements exPlain.elements := by
  refine ⟨fun _ => prop exSoft, fun _ => prop defaultMaterial, fun (t : Tri6 6) ht => .of_forall fun p _ => ?_,
    fun (t : Tri6 9) ht => .of_forall fun p _ => ?_, .of_forall fun p hp => ⟨?_, h⟩⟩
  · obtain rfl : t = exH0 := List.mem_singleton.1 ht
    rfl
  · have ht : t ∈ [exP0, exP1] := ht
    simp only [List.mem_cons, List.not_mem_nil, or_false] at ht
    rcases ht with rfl | rfl <;> rfl
  · obtain ⟨(t : Tri6 6), ht, h⟩ := hp
    obtain rfl : t = exH0 := List.mem_singleton.1 ht
    rw [exH0_coords] at h
    exact ⟨exP0, List.mem_cons_self .., h⟩

theorem exHalf_within : FitsInto exHalf.elements exPlain.elements :=
  ⟨exHalf_once, exFine_refines.once, fun (t : Tri6 6) ht => by
    obtain rfl : t = exH0 := List.mem_singleton.1 ht
    refine ⟨exP0, List.mem_cons_self .., by rw [exH0_coords], ?_⟩
    norm_num [exH0, exP0, exSoft, defaultMaterial]⟩

/-- The triangle and the rectangle meet all hypotheses on elastic properties. -/
example : ∃ (r r' : GeomResults) (w : WarpResults exHalf.numNodes) (w' : WarpResults exPlain.numNodes),
    exHalf.warping exactSolvers .direct r = .ok w ∧ exPlain.warping exactSolvers .direct r' = .ok w' ∧
    r.sums.area ≤ r'.sums.area ∧ r.sums.mass ≤ r'.sums.mass ∧ r.cent.i22 ≤ r'.cent.i22 ∧ w.j ≤ w'.j := by
  obtain ⟨r, hr⟩ := geometricAnalysis_ok exHalf (by simp [exHalf])
  obtain ⟨r', hr'⟩ := geometricAnalysis_ok exPlain (by simp [exPlain])
  obtain ⟨w, hw, h1, -⟩ := exact_warping exHalf r exHalf_good exHalf_physical hr (exHalf_linked r.cx r.cy)
  obtain ⟨w', hw', h1', -⟩ := exact_warping exPlain r' exPlain_good exPlain_physical hr' (exPlain_linked r'.cx r'.cy)
  have hno' : NoOverlap exPlain.elements := exFine_refines.once
  have hI := C81_second_moments exHalf exPlain r r' exHalf_physical exPlain_physical exHalf_once hno'
    (exHalf_below (by norm_num [exSoft, defaultMaterial])) hr hr'
  refine ⟨r, r', w, w', hw, hw', hI.1, ?_, hI.2.2.2.2.2.2, ?_⟩
  · refine C81_mass exHalf exPlain r r' exHalf_physical.proper exPlain_physical.proper exHalf_once hno' ?_
      (exHalf_below (by norm_num [exSoft, defaultMaterial])) hr hr'
    intro (t : Tri6 9) ht
    have ht : t ∈ [exP0, exP1] := ht
    simp only [List.mem_cons, List.not_mem_nil, or_false] at ht
    rcases ht with rfl | rfl <;> norm_num [exP0, exP1, defaultMaterial]
  · exact C81_torsion exHalf exPlain r r' exHalf_good exPlain_good exHalf_physical exPlain_physical exPlain_conforming
      exHalf_within hr hr' _ _ _ _ w w' hw hw' h1 h1'

/-- The triangle and the rectangle meet all hypotheses on plastic moments. -/
example : ∃ (env env' : Env Body) (st : Store env.sec.numNodes) (st' : Store env'.sec.numNodes) (S S' : ℝ),
    env.sec = exHalf ∧ env'.sec = exPlain ∧
    (env.plasticAnalysis.run.run st).2.val (axisFields .xx).2.1 = some S ∧
    (env'.plasticAnalysis.run.run st').2.val (axisFields .xx).2.1 = some S' ∧ S ≤ S' := by
  obtain ⟨env, r, st, he, h, hok⟩ := ex_plastic_setup exHalf exHalf_good exHalf_physical exHalf_grouped
    (fun (g : MaterialGroup 6) hg => by
      obtain rfl : g = ⟨⟨0, exSoft⟩, [exH0]⟩ := List.mem_singleton.1 hg
      norm_num [exSoft])
    (fun (t : Tri6 6) ht => by
      obtain rfl : t = exH0 := List.mem_singleton.1 ht
      exact ⟨_, List.mem_singleton.2 rfl, rfl⟩) (by simp [exHalf])
  obtain ⟨env', r', st', he', h', hok'⟩ := ex_plastic_setup exPlain exPlain_good exPlain_physical exPlain_grouped
    (fun (g : MaterialGroup 9) hg => by
      obtain rfl : g = ⟨⟨0, defaultMaterial⟩, [exP0, exP1]⟩ := List.mem_singleton.1 hg
      norm_num [defaultMaterial])
    (fun (t : Tri6 9) ht => by
      have ht : t ∈ [exP0, exP1] := ht
      simp only [List.mem_cons, List.not_mem_nil, or_false] at ht
      rcases ht with rfl | rfl <;> exact ⟨_, List.mem_singleton.2 rfl, rfl⟩) (by simp [exPlain])
  obtain ⟨d, S, d', S', -, h2, -, h4, h5⟩ := C81_plastic env env' h h' hok hok' (by rw [he]; exact exHalf_once)
    (by rw [he']; exact exFine_refines.once)
    (by rw [he, he']; exact exHalf_below (by norm_num [exSoft, defaultMaterial])) .xx (.inl rfl)
  exact ⟨env, env', st, st', S, S', he, he', h2, h4, by simpa using h5⟩

end SP
