import Verif.Props.ShearShapes
import Verif.Props.RectExample

/-!
# C91: the rectangle 2 × 1 meets the hypotheses
-/

namespace SP

open Spec MeasureTheory Set

theorem exPlain_covers : region exPlain.elements =ᵐ[volume] Ioo (0 : ℝ) (0 + 2) ×ˢ Ioo (0 : ℝ) (0 + 1) := by
  filter_upwards [rect_ae_inside ⟨0, 2, 0, 1⟩] with p hp
  refine propext ⟨?_, ?_⟩
  · rintro ⟨(t : Tri6 9), ht, h⟩
    have ht : t ∈ [exP0, exP1] := ht
    rw [List.mem_cons, List.mem_singleton] at ht
    rw [zero_add, zero_add]
    refine hp ?_
    rcases ht with rfl | rfl
    · obtain ⟨g1, g2, g3⟩ := exP0_mem.1 h
      exact ⟨by linarith, by linarith, by linarith, by linarith⟩
    · obtain ⟨g1, g2, g3⟩ := exP1_mem.1 h
      exact ⟨by linarith, by linarith, by linarith, by linarith⟩
  · intro h
    rw [zero_add, zero_add] at h
    exact exPlain_region h.1 h.2

/-- The rectangle 2 × 1 in two triangles: its shear areas lie between 5/3 and 2, in all directions.  There is a shear flow, and
its energy is what the theorems say. The hypotheses of the theorem about I-sections are met by the I-section without flanges. -/
example : ∃ (r : GeomResults) (w : WarpResults exPlain.numNodes), exPlain.geometricAnalysis = .ok r ∧
    exPlain.warping exactSolvers .direct r = .ok w ∧
    (∀ a ∈ [w.areas.sx, w.areas.sy, w.areas.s11, w.areas.s22], 5 / 3 ≤ a ∧ a ≤ 2) ∧
    (∃ fx fy, ShearFlow exPlain.elements (strainRate r.cx r.cy r.cent.ixxC r.cent.iyyC r.cent.ixyC 3 4) fx fy ∧
      ∫ p, fx p = 3 ∧ ∫ p, fy p = 4) ∧
    (1 / 6) ^ 2 ≤ w.areas.sy * (1 / 60) := by
  obtain ⟨r, hr⟩ := geometricAnalysis_ok exPlain (by simp [exPlain])
  obtain ⟨w, hw, -, h1, h2⟩ := exact_warping exPlain r exPlain_good exPlain_physical hr (exPlain_linked r.cx r.cy)
  have hnu : isComposite exPlain.materials → r.nuEff = 0 := fun h => absurd h exPlain_not_composite
  refine ⟨r, w, hr, hw, fun a ha => ?_, ?_, ?_⟩
  · have := C91_rectangle exPlain_good exPlain_physical exPlain_conforming exFine_refines.1 hr _ _ w hw hnu two_pos one_pos one_pos
      exPlain_covers exPlain_unit h1 h2 a ha
    norm_num at this
    exact this
  · have hs : Slices exPlain.elements (0 + 2 / 2) 0 (0 + 1) (fun _ => 2 / 2) (fun _ => 1) :=
      ⟨by norm_num, by rw [← rect_sliced]; exact exPlain_covers,
        fun t ht => Filter.Eventually.of_forall fun _ _ => (exPlain_unit t ht).symm⟩
    have hh : Tame (fun _ : ℝ => (2 : ℝ) / 2) (2 / 2) (2 / 2) := tame_const (by norm_num)
    obtain ⟨hx, hxy, -, -, -, h0⟩ := slices_moments hr exPlain_physical exFine_refines.1 hs hh
    obtain ⟨-, -, p1, p2, -⟩ := C09_positive hr exPlain_physical
    obtain ⟨N, -, hf⟩ := slices_flow hs hh (tame_const one_pos) p1.ne' p2.ne' h0 3 4
    have hz : strainRate (0 + 2 / 2) r.cy r.cent.ixxC r.cent.iyyC 0 3 4 =
        strainRate r.cx r.cy r.cent.ixxC r.cent.iyyC r.cent.ixyC 3 4 := by rw [hx, hxy]
    rw [hz] at hf
    exact ⟨_, _, hf, C91_resultant exPlain r exPlain_good exPlain_physical exPlain_conforming exFine_refines.1 hr hf⟩
  · have hI : region exPlain.elements =ᵐ[volume] iShape 1 2 (1 / 4) 2 := by
      refine exPlain_covers.trans (Filter.Eventually.of_forall fun p => propext ?_)
      change p ∈ Ioo (0 : ℝ) (0 + 2) ×ˢ Ioo (0 : ℝ) (0 + 1) ↔ p ∈ iShape 1 2 (1 / 4) 2
      simp only [iShape, mem_prod, mem_Ioo, mem_ofPred_eq, zero_add]
      constructor
      · rintro ⟨⟨g1, g2⟩, g3, g4⟩
        exact ⟨⟨g1, g2, g3, g4⟩, Or.inr (Or.inr ⟨by linarith, by linarith⟩)⟩
      · rintro ⟨⟨g1, g2, g3, g4⟩, -⟩
        exact ⟨⟨g1, g2⟩, g3, g4⟩
    obtain ⟨a1, -, -, a4⟩ := C91_i_section exPlain_good exPlain_physical exPlain_conforming exFine_refines.1 hr _ _ w hw hnu
      (by norm_num) (by norm_num) two_pos le_rfl one_pos hI exPlain_unit h1 h2
    norm_num [a1] at a4
    linarith

/-- The same rectangle as a section of layers. -/
example : ∃ (r : GeomResults) (w : WarpResults exPlain.numNodes), exPlain.geometricAnalysis = .ok r ∧
    exPlain.warping exactSolvers .direct r = .ok w ∧ 5 / 6 * r.sums.ea ≤ w.areas.sx := by
  obtain ⟨r, hr⟩ := geometricAnalysis_ok exPlain (by simp [exPlain])
  obtain ⟨w, hw, -, h1, h2⟩ := exact_warping exPlain r exPlain_good exPlain_physical hr (exPlain_linked r.cx r.cy)
  exact ⟨r, w, hr, hw, (C91_layered exPlain_good exPlain_physical exPlain_conforming exFine_refines.1 hr _ _ w hw
    (fun h => absurd h exPlain_not_composite) two_pos (by norm_num) exPlain_covers
    (fun t ht => Filter.Eventually.of_forall fun _ _ => (exPlain_unit t ht).symm) (tame_const one_pos) h1 h2).1⟩

end SP
