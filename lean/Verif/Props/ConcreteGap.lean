import Verif.Props.ConcreteCores
import Mathlib.Tactic.NormNum

/-!
# C50: examples for the walls, and the gap in the double lift core
-/

namespace SP
open Spec

/-! Walls with 12 mm bars at 200 mm and 30 mm of cover satisfy the hypotheses of the theorems. -/

example := C50_rectangular_wall_partial 1000 180 12 200 30 true (by norm_num) (by norm_num) (by norm_num) (by norm_num)
example := C50_cee_wall_double_partial 2000 1500 200 150 12 200 30 (by norm_num) (by norm_num) (by norm_num)
  (by norm_num) (by norm_num) (by norm_num)
example := C50_cee_wall_single_partial 2000 1500 200 150 12 200 30 (by norm_num) (by norm_num) (by norm_num)
  (by norm_num) (by norm_num) (by norm_num)
example := C50_tee_wall_double_partial 1200 2000 180 150 12 200 30 (by norm_num) (by norm_num) (by norm_num)
  (by norm_num) (by norm_num) (by norm_num)
example := C50_tee_wall_single_partial 1200 2000 180 150 12 200 30 (by norm_num) (by norm_num) (by norm_num)
  (by norm_num) (by norm_num) (by norm_num)
example := C50_single_lift_core_double_partial 2200 2600 180 200 1000 12 200 30 (by norm_num) (by norm_num)
  (by norm_num) (by norm_num) (by norm_num) (by norm_num) (by norm_num)
example := C50_single_lift_core_single_partial 2200 2600 180 200 1000 12 200 30 (by norm_num) (by norm_num)
  (by norm_num) (by norm_num) (by norm_num) (by norm_num) (by norm_num)
example := C50_stairwell_double_partial 5000 2500 180 200 1000 12 200 30 (by norm_num) (by norm_num)
  (by norm_num) (by norm_num) (by norm_num) (by norm_num) (by norm_num)
example := C50_stairwell_single_partial 5000 2500 180 200 1000 12 200 30 (by norm_num) (by norm_num)
  (by norm_num) (by norm_num) (by norm_num) (by norm_num) (by norm_num)
example := C50_double_lift_core_a_double_partial 3200 2200 180 200 900 600 12 200 30 220 (by norm_num) (by norm_num)
  (by norm_num) (by norm_num) (by norm_num) (by norm_num) (by norm_num) (by norm_num) (by norm_num)
example := C50_double_lift_core_a_single_partial 3200 2200 180 200 900 600 12 200 30 220 (by norm_num) (by norm_num)
  (by norm_num) (by norm_num) (by norm_num) (by norm_num) (by norm_num) (by norm_num) (by norm_num)
example := C50_double_lift_core_b_double_partial 3488 2200 200 200 200 900 12 200 30 272 744 (by norm_num)
  (by norm_num) (by norm_num) (by norm_num) (by norm_num) (by norm_num) (by norm_num) (by norm_num) (by norm_num)
  (by norm_num) (by norm_num)
example := C50_double_lift_core_b_single_partial 3488 2200 200 200 200 900 12 200 30 272 744 (by norm_num)
  (by norm_num) (by norm_num) (by norm_num) (by norm_num) (by norm_num) (by norm_num) (by norm_num) (by norm_num)
  (by norm_num)

theorem gapsOf_one {s l : ℝ} (h : l / s = 1) : gapsOf s l = 1 := by
  unfold gapsOf
  rw [h, Int.ceil_one]
  rfl

/-- **C50 is violated by `double_lift_core_b` with two layers**: on the inner face of the wall between the doors, for a
requested maximum spacing of 200, two neighbouring bars are 272 apart: one at the edge of the door opening, at 1408, and
the one of the central wall, at 1680, with none in between. -/
theorem C50_double_lift_core_b_violated :
    ∃ ps, doubleLiftCoreBBars 3488 2200 200 200 200 900 12 200 30 true = .ok ps ∧
      (2036, 1408) ∈ ps ∧ (2036, 1680) ∈ ps ∧ (∀ p ∈ ps, p.1 = 2036 → ¬ (1408 < p.2 ∧ p.2 < 1680)) ∧
      ¬ Column ps 200 2036 1408 1680 := by
  have main : ∃ ps, doubleLiftCoreBBars 3488 2200 200 200 200 900 12 200 30 true = .ok ps ∧
      (2036, 1408) ∈ ps ∧ (2036, 1680) ∈ ps ∧ (∀ p ∈ ps, p.1 = 2036 → ¬ (1408 < p.2 ∧ p.2 < 1680)) := by
    unfold doubleLiftCoreBBars
    rw [if_neg (by norm_num)]
    simp only [if_true]
    have hs : (0 : ℝ) < 200 := by norm_num
    repeat rw [wallRun_ok hs (by norm_num)]
    refine ⟨_, rfl, ?_, ?_, ?_⟩
    · refine List.mem_append_right _ ?_
      rw [mem_colAt]
      refine ⟨by norm_num, List.mem_append_left _ ?_⟩
      rw [gapsOf_one (by norm_num)]
      simp [runOf, initOf, List.range_succ]
      norm_num
    · simp only [List.mem_append, mem_gridXY]
      left; left; left; left; left; left; right
      refine ⟨?_, ?_⟩
      · have := run_stop (s := 200) (l := 2200 - 2 * 200 + 2 * 30 + 12) (start := 200 - 30 - 1 / 2 * 12)
          (stop := 2200 - 200 + 30 + 1 / 2 * 12) hs (by norm_num) (by norm_num)
        convert this using 1
        norm_num
      · simp only [List.mem_cons]
        right; left
        norm_num
    · simp only [List.forall_mem_append, and_assoc]
      refine ⟨forall_gridXY (within_run (by norm_num)) ?_, forall_gridXY (within_run (by norm_num)) ?_,
        forall_col (within_run (by norm_num)).inner ?_,
        forall_col2 (within_run (by norm_num)).inner (within_run (by norm_num)).inner ?_ ?_,
        forall_col_inner (within_run (by norm_num)) (within_run (by norm_num)) ?_ ?_,
        forall_col_inner (within_run (by norm_num)) (within_run (by norm_num)) ?_ ?_,
        forall_col (within_run (by norm_num)) ?_, ?_⟩
      · simp only [List.forall_mem_cons, List.not_mem_nil, false_implies, implies_true, and_true]
        constructor <;> intro x _ _ _ h <;> norm_num at h
      · simp only [List.forall_mem_cons, List.not_mem_nil, false_implies, implies_true, and_true]
        refine ⟨?_, ?_, ?_, ?_⟩ <;> intro x _ _ _ h <;> norm_num at h
      · intro y _ _ h; norm_num at h
      · intro y _ _ h; norm_num at h
      · intro y _ _ h; norm_num at h
      · intro y _ _ h; norm_num at h
      · intro y _ _ h; norm_num at h
      · intro y _ h1 _ h; simp only at h; linarith
      · intro y h1 _ _ h; simp only at h; linarith
      · intro y _ _ h; norm_num at h
      · intro p hp _ h
        rw [mem_colAt, List.mem_append] at hp
        rw [gapsOf_one (by norm_num)] at hp
        rcases hp.2 with hp | hp
        · simp [runOf, initOf, List.range_succ] at hp
          rw [hp] at h
          norm_num at h
        · simp [runOf, tailOf, List.range_succ] at hp
          rw [hp] at h
          norm_num at h
  obtain ⟨ps, e, h1, h2, h3⟩ := main
  refine ⟨ps, e, h1, h2, h3, ?_⟩
  intro h
  obtain ⟨v, hv, h4, h5, h6⟩ := h.2.2 1408 le_rfl (by norm_num)
  exact h3 (2036, v) hv rfl ⟨h4, by simp only; linarith⟩

end SP
