import Verif.Props.TorsionRects
import Verif.Props.TorsionShapes

/-!
# Lower bounds for the torsion constant of a rectangle

The rectangle `[0, 2] × [0, 1]` in two triangles meets the hypotheses of the bounds.
-/

namespace SP

open Spec MeasureTheory Set

theorem exPlain_region {p : ℝ × ℝ} (hx : p.1 ∈ Ioo (0 : ℝ) 2) (hy : p.2 ∈ Ioo (0 : ℝ) 1) : p ∈ region exPlain.elements := by
  rcases le_total p.1 (2 * p.2) with h | h
  · exact ⟨exP1, List.mem_cons_of_mem _ (List.mem_cons_self ..), exP1_mem.2 ⟨hx.1.le, h, hy.2.le⟩⟩
  · exact ⟨exP0, List.mem_cons_self .., exP0_mem.2 ⟨hy.1.le, h, hx.2.le⟩⟩

theorem exPlain_unit : ∀ t ∈ exPlain.elements, t.material.elasticModulus = 1 := by
  intro (t : Tri6 9) ht
  have ht : t ∈ [exP0, exP1] := ht
  simp only [List.mem_cons, List.not_mem_nil, or_false] at ht
  rcases ht with rfl | rfl <;> norm_num [exP0, exP1, exT0, exT1, defaultMaterial]

/-- The torsion constant of the rectangle 2 × 1 is at least 4/9 and at least that of the inscribed disc, the one of two
squares side by side is at least 5/18. The exact value is about 0.457. -/
example : ∃ (r : GeomResults) (w : WarpResults exPlain.numNodes), exPlain.geometricAnalysis = .ok r ∧
    exPlain.warping exactSolvers .direct r = .ok w ∧ 4 / 9 ≤ w.j ∧ Real.pi / 32 ≤ w.j ∧ 5 / 18 ≤ w.j := by
  obtain ⟨r, hr⟩ := geometricAnalysis_ok exPlain (by simp [exPlain])
  obtain ⟨w, hw, h1, -, -⟩ := exact_warping exPlain r exPlain_good exPlain_physical hr (exPlain_linked r.cx r.cy)
  refine ⟨r, w, hr, hw, ?_, ?_, ?_⟩
  · have := C87_rectangles exPlain r exPlain_good exPlain_physical exPlain_conforming exFine_refines.1 hr _ _ w hw h1
      (S := {()}) (x0 := fun _ => 0) (x1 := fun _ => 2) (y0 := fun _ => 0) (y1 := fun _ => 1) (e0 := fun _ => 1)
      (by norm_num) (by norm_num) (fun i _ j _ h => absurd rfl h) (fun _ _ p hp => exPlain_region hp.1 hp.2) (fun _ _ => one_pos)
      (fun t ht _ _ _ => (exPlain_unit t ht).ge)
    norm_num at this
    linarith
  · have := C87_ring exPlain r exPlain_good exPlain_physical exPlain_conforming exFine_refines.1 hr _ _ w hw h1
      (x0 := 1) (y0 := 1 / 2) (ri := 0) (ro := 1 / 2) (e0 := 1) le_rfl (by norm_num)
      (fun p _ hp => exPlain_region ⟨by nlinarith [sq_nonneg (p.2 - 1 / 2)], by nlinarith [sq_nonneg (p.2 - 1 / 2)]⟩
        ⟨by nlinarith [sq_nonneg (p.1 - 1)], by nlinarith [sq_nonneg (p.1 - 1)]⟩) one_pos
      (fun t ht _ => (exPlain_unit t ht).ge)
    refine le_trans (le_of_eq ?_) this
    ring
  · have := C87_rectangles exPlain r exPlain_good exPlain_physical exPlain_conforming exFine_refines.1 hr _ _ w hw h1
      (S := Finset.univ) (x0 := ![0, 1]) (x1 := ![1, 2]) (y0 := ![0, 0]) (y1 := ![1, 1]) (e0 := fun _ => 1)
      (by simp [Fin.forall_fin_two]) (by simp [Fin.forall_fin_two])
      (by
        have h01 : Disjoint (Ioo (0 : ℝ) 1 ×ˢ Ioo (0 : ℝ) 1) (Ioo (1 : ℝ) 2 ×ˢ Ioo (0 : ℝ) 1) :=
          Set.disjoint_left.2 fun p h h' => absurd h.1.2 (not_lt.2 h'.1.1.le)
        intro i _ j _ hij
        fin_cases i <;> fin_cases j
        · exact absurd rfl hij
        · exact h01
        · exact h01.symm
        · exact absurd rfl hij)
      (by
        intro i _ p hp
        fin_cases i
        · exact exPlain_region ⟨hp.1.1, lt_trans hp.1.2 (by simp)⟩ hp.2
        · exact exPlain_region ⟨lt_trans (by simp) hp.1.1, hp.1.2⟩ hp.2) (fun _ _ => one_pos)
      (fun t ht _ _ _ => (exPlain_unit t ht).ge)
    simp [Fin.sum_univ_two] at this
    norm_num at this
    linarith

/-- A stress function on the rectangle that is not constant. -/
example : ∃ ψ : ℝ × ℝ → ℝ, StressFunction exPlain.elements ψ ∧ 0 < ψ (1, 1 / 2) := by
  have ho : ∀ {p : ℝ × ℝ}, p ∉ boxAt 1 (1 / 2) 1 (1 / 2) → _ := fun hp =>
    boxHill_out (e := 1 / 8) (by norm_num) (by norm_num) (by norm_num) hp
  refine ⟨boxHill (1 / 8) 1 (1 / 2) 1 (1 / 2), ⟨contDiff_boxHill, ?_, ?_⟩, ?_⟩
  · refine HasCompactSupport.intro (K := Icc (1 - 1) (1 + 1) ×ˢ Icc (1 / 2 - 1 / 2) (1 / 2 + 1 / 2))
      (isCompact_Icc.prod isCompact_Icc) fun p hp => ?_
    exact (ho fun h => hp (boxAt_subset _ _ _ _ h)).1
  · intro p hp
    have := ho fun h => hp (exPlain_region (by have := h.1; norm_num at this; exact this) (by have := h.2; norm_num at this; exact this))
    exact this.2
  · have hm : ((1, 1 / 2) : ℝ × ℝ) ∈ boxAt 1 (1 / 2) 1 (1 / 2) := by
      rw [mem_boxAt (by norm_num) (by norm_num)]; norm_num
    have := boxHill_ge (e := 1 / 8) (by norm_num) (by norm_num) (by norm_num) hm
    norm_num at this
    linarith

end SP
