import Mathlib.Analysis.SpecialFunctions.SmoothTransition
import Mathlib.MeasureTheory.Integral.IntervalIntegral.FundThmCalculus
import Mathlib.Analysis.Calculus.ContDiff.Basic
import Mathlib.Analysis.Calculus.Deriv.MeanValue

/-!
# Smooth approximations of `max u 0` and of `min (max u 0) c`
-/

namespace SP

open Set intervalIntegral

/-- A smooth function that is zero for `u ≤ 0` and within `e` of `max u 0`. -/
noncomputable def soft (e u : ℝ) : ℝ := ∫ v in (0 : ℝ)..u, Real.smoothTransition (v / e)

theorem continuous_st (e : ℝ) : Continuous fun v : ℝ => Real.smoothTransition (v / e) := by
  have := Real.smoothTransition.continuous
  fun_prop

theorem hasDerivAt_soft (e u : ℝ) : HasDerivAt (soft e) (Real.smoothTransition (u / e)) u :=
  integral_hasDerivAt_right ((continuous_st e).intervalIntegrable _ _)
    (continuous_st e).aestronglyMeasurable.stronglyMeasurableAtFilter (continuous_st e).continuousAt

theorem contDiff_soft (e : ℝ) : ContDiff ℝ 2 (soft e) := by
  rw [show (2 : WithTop ℕ∞) = 1 + 1 by norm_num, contDiff_succ_iff_deriv]
  refine ⟨fun u => (hasDerivAt_soft e u).differentiableAt, by simp, ?_⟩
  rw [show deriv (soft e) = fun u => Real.smoothTransition (u / e) from funext fun u => (hasDerivAt_soft e u).deriv]
  have := Real.smoothTransition.contDiff (n := 1)
  fun_prop

theorem soft_mono (e : ℝ) : Monotone (soft e) :=
  monotone_of_deriv_nonneg (fun u => (hasDerivAt_soft e u).differentiableAt) fun u => by
    rw [(hasDerivAt_soft e u).deriv]; exact Real.smoothTransition.nonneg _

theorem soft_zero {e : ℝ} (he : 0 < e) {u : ℝ} (hu : u ≤ 0) : soft e u = 0 := by
  rw [soft, integral_symm, integral_zero_ae, neg_zero]
  refine Filter.Eventually.of_forall fun v hv => ?_
  rw [uIoc_of_le hu] at hv
  exact Real.smoothTransition.zero_of_nonpos (div_nonpos_of_nonpos_of_nonneg hv.2 he.le)

theorem soft_nonneg {e : ℝ} (he : 0 < e) (u : ℝ) : 0 ≤ soft e u := by
  rcases le_total u 0 with h | h
  · rw [soft_zero he h]
  · rw [← soft_zero he le_rfl]; exact soft_mono e h

theorem soft_le {e u : ℝ} (hu : 0 ≤ u) : soft e u ≤ u := by
  have h := integral_mono (μ := MeasureTheory.volume) hu ((continuous_st e).intervalIntegrable 0 u)
    (intervalIntegrable_const (c := (1 : ℝ))) fun v => Real.smoothTransition.le_one _
  simpa [soft] using h

theorem soft_ge {e : ℝ} (he : 0 < e) (u : ℝ) : u - e ≤ soft e u := by
  rcases le_total u e with h | h
  · linarith [soft_nonneg he u]
  · have h1 : soft e u = soft e e + ∫ v in e..u, Real.smoothTransition (v / e) :=
      (integral_add_adjacent_intervals ((continuous_st e).intervalIntegrable _ _)
        ((continuous_st e).intervalIntegrable _ _)).symm
    have h2 : ∫ v in e..u, Real.smoothTransition (v / e) = ∫ _ in e..u, (1 : ℝ) := by
      refine integral_congr fun v hv => ?_
      rw [uIcc_of_le h] at hv
      exact Real.smoothTransition.one_of_one_le ((one_le_div he).2 hv.1)
    rw [h1, h2]
    simp
    linarith [soft_nonneg he e]

/-- A smooth function within `2 e` of `min (max u 0) c`, level for `u ≤ 0` and for `c ≤ u`. -/
noncomputable def plateau (e c u : ℝ) : ℝ := soft e (soft e c) - soft e (soft e c - soft e u)

theorem hasDerivAt_plateau (e c u : ℝ) : HasDerivAt (plateau e c)
    (Real.smoothTransition ((soft e c - soft e u) / e) * Real.smoothTransition (u / e)) u := by
  have h1 : HasDerivAt (fun u => soft e c - soft e u) (-Real.smoothTransition (u / e)) u :=
    (hasDerivAt_soft e u).const_sub _
  have h2 := ((hasDerivAt_soft e (soft e c - soft e u)).comp u h1).const_sub (soft e (soft e c))
  refine h2.congr_deriv ?_
  ring

theorem contDiff_plateau (e c : ℝ) : ContDiff ℝ 2 (plateau e c) := by
  have h := contDiff_soft e
  unfold plateau
  exact contDiff_const.sub (h.comp (contDiff_const.sub h))

theorem plateau_slope {e c : ℝ} (he : 0 < e) (u : ℝ) :
    0 ≤ Real.smoothTransition ((soft e c - soft e u) / e) * Real.smoothTransition (u / e) ∧
    Real.smoothTransition ((soft e c - soft e u) / e) * Real.smoothTransition (u / e) ≤ 1 ∧
    (u ≤ 0 ∨ c ≤ u → Real.smoothTransition ((soft e c - soft e u) / e) * Real.smoothTransition (u / e) = 0) := by
  refine ⟨mul_nonneg (Real.smoothTransition.nonneg _) (Real.smoothTransition.nonneg _),
    mul_le_one₀ (Real.smoothTransition.le_one _) (Real.smoothTransition.nonneg _) (Real.smoothTransition.le_one _), ?_⟩
  rintro (h | h)
  · rw [Real.smoothTransition.zero_of_nonpos (div_nonpos_of_nonpos_of_nonneg h he.le), mul_zero]
  · rw [Real.smoothTransition.zero_of_nonpos (x := (soft e c - soft e u) / e), zero_mul]
    exact div_nonpos_of_nonpos_of_nonneg (by linarith [soft_mono e h]) he.le

theorem plateau_zero {e c u : ℝ} (he : 0 < e) (hu : u ≤ 0) : plateau e c u = 0 := by
  rw [plateau, soft_zero he hu, sub_zero, sub_self]

theorem plateau_nonneg {e c : ℝ} (he : 0 < e) (u : ℝ) : 0 ≤ plateau e c u := by
  rw [plateau, sub_nonneg]
  exact soft_mono e (by linarith [soft_nonneg he u])

theorem plateau_ge {e c u : ℝ} (he : 0 < e) : min u c - 2 * e ≤ plateau e c u := by
  have h1 := soft_ge he c
  have h2 := soft_ge he (soft e c)
  have h3 := soft_ge he u
  rw [plateau]
  rcases le_total u c with h | h
  · have h4 := soft_le (e := e) (u := soft e c - soft e u) (by linarith [soft_mono e h])
    rw [min_eq_left h]
    linarith
  · rw [soft_zero he (u := soft e c - soft e u) (by linarith [soft_mono e h]), min_eq_right h]
    linarith

end SP
