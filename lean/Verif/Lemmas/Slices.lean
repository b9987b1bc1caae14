import Verif.Lemmas.Rects
import Verif.Spec.Slices
import Mathlib.MeasureTheory.Integral.IntervalIntegral.FundThmCalculus
import Mathlib.MeasureTheory.Group.Integral

/-!
# Sections symmetric about a vertical axis, slice by slice
-/

namespace SP

open Spec MeasureTheory Set

variable {n : ℕ} {els : List (Tri6 n)} {xm y0 y1 : ℝ} {h e : ℝ → ℝ}

theorem measurable_sliced (hm : Measurable h) : MeasurableSet (sliced xm y0 y1 h) := by
  refine MeasurableSet.inter (s₁ := {p : ℝ × ℝ | y0 < p.2 ∧ p.2 < y1}) ?_ ?_
  · exact measurableSet_Ioo.preimage measurable_snd
  · exact measurableSet_lt (continuous_abs.measurable.comp (measurable_fst.sub_const xm)) (hm.comp measurable_snd)

/-- An integral over the slices. -/
theorem sliced_integral (hm : Measurable h) (hy : y0 ≤ y1) (h0 : ∀ y, 0 ≤ h y) {F : ℝ → ℝ → ℝ}
    (hF : IntegrableOn (fun p : ℝ × ℝ => F p.2 (p.1 - xm)) (sliced xm y0 y1 h)) :
    ∫ p in sliced xm y0 y1 h, F p.2 (p.1 - xm) = ∫ y in y0..y1, ∫ u in (-h y)..(h y), F y u := by
  have hms := measurable_sliced (xm := xm) (y0 := y0) (y1 := y1) hm
  rw [← integral_indicator hms, Measure.volume_eq_prod,
    integral_prod_symm _ (by rw [← Measure.volume_eq_prod]; exact (integrable_indicator_iff hms).2 hF),
    intervalIntegral.integral_of_le hy, integral_Ioc_eq_integral_Ioo, ← integral_indicator measurableSet_Ioo]
  congr 1
  funext y
  by_cases hyI : y ∈ Ioo y0 y1
  · rw [indicator_of_mem hyI, intervalIntegral.integral_of_le (by have := h0 y; linarith), integral_Ioc_eq_integral_Ioo,
      ← integral_indicator measurableSet_Ioo, ← integral_sub_right_eq_self ((Ioo (-h y) (h y)).indicator (F y)) xm]
    congr 1
    funext x
    by_cases hx : |x - xm| < h y
    · rw [indicator_of_mem (show (x, y) ∈ sliced xm y0 y1 h from ⟨hyI, hx⟩), indicator_of_mem (by rwa [mem_Ioo, ← abs_lt])]
    · rw [indicator_of_notMem (fun hc : (x, y) ∈ sliced xm y0 y1 h => hx hc.2),
        indicator_of_notMem (by rwa [mem_Ioo, ← abs_lt])]
  · rw [indicator_of_notMem hyI]
    refine integral_eq_zero_of_ae (Filter.Eventually.of_forall fun x => ?_)
    exact indicator_of_notMem (fun hc : (x, y) ∈ sliced xm y0 y1 h => hyI hc.1) _

/-! ### The flow in the wings -/

/-- Across a slice of half-width `H` with a spine of half-width `k`: grows over the spine and falls over the wings. -/
noncomputable def wing (k H x : ℝ) : ℝ := max 0 (min (x * (H / k - 1)) (H - x)) - max 0 (min (-x * (H / k - 1)) (H + x))

noncomputable def wing' (k H x : ℝ) : ℝ := if |x| < k then H / k - 1 else if |x| < H then -1 else 0

/-- Across a slice of half-width `H`: a parabola. -/
noncomputable def parab (H x : ℝ) : ℝ := max (H ^ 2 - x ^ 2) 0

noncomputable def parab' (H x : ℝ) : ℝ := if |x| < H then -2 * x else 0

theorem ratio_le {k H x : ℝ} (hk : 0 < k) (hH : k ≤ H) (hx : x ≤ k) : x * (H / k) ≤ H := by
  calc x * (H / k) ≤ k * (H / k) := mul_le_mul_of_nonneg_right hx (div_nonneg (by linarith) hk.le)
    _ = H := by field_simp

theorem wing_spine {k H x : ℝ} (hk : 0 < k) (hH : k ≤ H) (hx : |x| ≤ k) : wing k H x = x * (H / k - 1) := by
  obtain ⟨h1, h2⟩ := abs_le.1 hx
  have hr : 0 ≤ H / k - 1 := by rw [sub_nonneg, le_div_iff₀ hk]; linarith
  have r1 := ratio_le hk hH h2
  have r2 := ratio_le hk hH (show -x ≤ k by linarith)
  rw [wing]
  rcases le_total 0 x with h0 | h0
  · rw [min_eq_left (by linarith), max_eq_right (mul_nonneg h0 hr), max_eq_left, sub_zero]
    exact (min_le_left _ _).trans (by nlinarith)
  · rw [max_eq_left, min_eq_left (by linarith), max_eq_right (mul_nonneg (by linarith) hr)]
    · ring
    · exact (min_le_left _ _).trans (by nlinarith)

theorem wing_right {k H x : ℝ} (hk : 0 < k) (h1 : k ≤ x) (h2 : x ≤ H) : wing k H x = H - x := by
  have hr : 0 ≤ H / k - 1 := by rw [sub_nonneg, le_div_iff₀ hk]; linarith
  have e : H = k * (H / k) := by field_simp
  rw [wing, min_eq_right, max_eq_right (by linarith), max_eq_left, sub_zero]
  · exact (min_le_left _ _).trans (by nlinarith)
  · have : k * (H / k) ≤ x * (H / k) := mul_le_mul_of_nonneg_right h1 (div_nonneg (by linarith) hk.le)
    linarith

theorem wing_odd (k H x : ℝ) : wing k H (-x) = -wing k H x := by
  simp only [wing, neg_neg, sub_neg_eq_add]
  rw [← sub_eq_add_neg]
  ring

theorem wing_left {k H x : ℝ} (hk : 0 < k) (h1 : x ≤ -k) (h2 : -H ≤ x) : wing k H x = -H - x := by
  have := wing_right (k := k) (H := H) (x := -x) hk (by linarith) (by linarith)
  rw [wing_odd] at this
  linarith

theorem wing_out {k H x : ℝ} (hk : 0 < k) (hH : k ≤ H) (hx : H ≤ |x|) : wing k H x = 0 := by
  have key : ∀ x, H ≤ x → wing k H x = 0 := by
    intro x hx
    have hr : 0 ≤ H / k - 1 := by rw [sub_nonneg, le_div_iff₀ hk]; linarith
    rw [wing, max_eq_left ((min_le_right _ _).trans (by linarith)), max_eq_left ((min_le_left _ _).trans (by nlinarith)), sub_zero]
  rcases le_total 0 x with h0 | h0
  · rw [abs_of_nonneg h0] at hx; exact key x hx
  · rw [abs_of_nonpos h0] at hx
    have := key (-x) hx
    rw [wing_odd] at this
    linarith

theorem continuous_wing (k H : ℝ) : Continuous (wing k H) := by unfold wing; fun_prop

theorem abs_wing_le {k H x : ℝ} (hk : 0 < k) (hH : k ≤ H) : |wing k H x| ≤ H := by
  rcases le_or_gt |x| k with h1 | h1
  · rw [wing_spine hk hH h1, abs_mul, abs_of_nonneg (a := H / k - 1) (by rw [sub_nonneg, le_div_iff₀ hk]; linarith)]
    have e : k * (H / k - 1) = H - k := by field_simp
    have : 0 ≤ H / k - 1 := by rw [sub_nonneg, le_div_iff₀ hk]; linarith
    nlinarith [mul_le_mul_of_nonneg_right h1 this]
  · rcases le_or_gt H |x| with h2 | h2
    · rw [wing_out hk hH h2, abs_zero]; linarith
    · rcases le_total 0 x with h0 | h0
      · rw [abs_of_nonneg h0] at h1 h2
        rw [wing_right hk h1.le h2.le, abs_of_nonneg (by linarith)]; linarith
      · rw [abs_of_nonpos h0] at h1 h2
        rw [wing_left hk (by linarith) (by linarith), abs_of_nonpos (by linarith)]; linarith

theorem hasDerivAt_wing {k H x : ℝ} (hk : 0 < k) (hH : k ≤ H) (hx1 : |x| ≠ k) (hx2 : |x| ≠ H) :
    HasDerivAt (wing k H) (wing' k H x) x := by
  have near : ∀ {P : ℝ → Prop}, IsOpen {z | P z} → P x → ∀ᶠ z in nhds x, P z := fun ho hp => ho.mem_nhds hp
  have cabs : Continuous fun z : ℝ => |z| := continuous_abs
  rcases lt_or_gt_of_ne hx1 with h1 | h1
  · rw [wing', if_pos h1]
    have hd : HasDerivAt (fun z : ℝ => z * (H / k - 1)) (H / k - 1) x := by
      simpa using (hasDerivAt_id x).mul_const (H / k - 1)
    refine hd.congr_of_eventuallyEq ?_
    filter_upwards [near (isOpen_lt cabs continuous_const) h1] with z hz
    exact wing_spine hk hH (le_of_lt hz)
  · rw [wing', if_neg (not_lt.2 h1.le)]
    rcases lt_or_gt_of_ne hx2 with h2 | h2
    · rw [if_pos h2]
      rcases le_total 0 x with h0 | h0
      · rw [abs_of_nonneg h0] at h1 h2
        have hd : HasDerivAt (fun z : ℝ => H - z) (-1) x := by simpa using (hasDerivAt_id x).const_sub H
        refine hd.congr_of_eventuallyEq ?_
        filter_upwards [isOpen_Ioo.mem_nhds (⟨h1, h2⟩ : x ∈ Ioo k H)] with z hz
        exact wing_right hk hz.1.le hz.2.le
      · rw [abs_of_nonpos h0] at h1 h2
        have hd : HasDerivAt (fun z : ℝ => -H - z) (-1) x := by simpa using (hasDerivAt_id x).const_sub (-H)
        refine hd.congr_of_eventuallyEq ?_
        filter_upwards [isOpen_Ioo.mem_nhds (⟨by linarith, by linarith⟩ : x ∈ Ioo (-H) (-k))] with z hz
        exact wing_left hk hz.2.le hz.1.le
    · rw [if_neg (not_lt.2 h2.le)]
      refine (hasDerivAt_const x (0 : ℝ)).congr_of_eventuallyEq ?_
      filter_upwards [near (isOpen_lt continuous_const cabs) h2] with z hz
      exact wing_out hk hH (le_of_lt hz)

theorem parab_in {H x : ℝ} (hx : |x| ≤ H) : parab H x = H ^ 2 - x ^ 2 := by
  refine max_eq_left ?_
  have := sq_le_sq' (by have := neg_abs_le x; linarith) (le_trans (le_abs_self x) hx)
  linarith

theorem parab_out {H x : ℝ} (hH : 0 ≤ H) (hx : H ≤ |x|) : parab H x = 0 := by
  refine max_eq_right ?_
  have := pow_le_pow_left₀ hH hx 2
  rw [sq_abs] at this
  linarith

theorem continuous_parab (H : ℝ) : Continuous (parab H) := by unfold parab; fun_prop

theorem hasDerivAt_parab {H x : ℝ} (hH : 0 ≤ H) (hx : |x| ≠ H) : HasDerivAt (parab H) (parab' H x) x := by
  have cabs : Continuous fun z : ℝ => |z| := continuous_abs
  rcases lt_or_gt_of_ne hx with h1 | h1
  · rw [parab', if_pos h1]
    have hd : HasDerivAt (fun z : ℝ => H ^ 2 - z ^ 2) (-2 * x) x := by
      refine ((hasDerivAt_pow 2 x).const_sub (H ^ 2)).congr_deriv ?_
      simp
    refine hd.congr_of_eventuallyEq ?_
    filter_upwards [(isOpen_lt cabs continuous_const).mem_nhds h1] with z hz
    exact parab_in (le_of_lt hz)
  · rw [parab', if_neg (not_lt.2 h1.le)]
    refine (hasDerivAt_const x (0 : ℝ)).congr_of_eventuallyEq ?_
    filter_upwards [(isOpen_lt continuous_const cabs).mem_nhds h1] with z hz
    exact parab_out hH (le_of_lt hz)

theorem abs_parab_le {H x : ℝ} : |parab H x| ≤ H ^ 2 := by
  rw [parab, abs_of_nonneg (le_max_right _ _)]
  exact max_le (by nlinarith [sq_nonneg x]) (sq_nonneg H)

/-- The squares of both, over the slice. -/
theorem slice_energy {k H : ℝ} (hk : 0 < k) (hH : k ≤ H) (a b : ℝ) :
    ∫ x in (-H)..H, (a * parab H x + b * wing k H x) ^ 2 = a ^ 2 * (16 / 15 * H ^ 5) + b ^ 2 * (2 / 3 * (H - k) ^ 2 * H) := by
  have hH0 : 0 < H := by linarith
  have hc : Continuous fun x => (a * parab H x + b * wing k H x) ^ 2 :=
    ((continuous_const.mul (continuous_parab H)).add (continuous_const.mul (continuous_wing k H))).pow 2
  have hi : ∀ u v : ℝ, IntervalIntegrable (fun x => (a * parab H x + b * wing k H x) ^ 2) volume u v :=
    fun u v => hc.intervalIntegrable u v
  rw [← intervalIntegral.integral_add_adjacent_intervals (hi (-H) (-k)) (hi (-k) H),
    ← intervalIntegral.integral_add_adjacent_intervals (hi (-k) k) (hi k H)]
  have e1 : ∫ x in (-H)..(-k), (a * parab H x + b * wing k H x) ^ 2 =
      ∫ x in (-H)..(-k), (a * (H ^ 2 - x ^ 2) + b * (-H - x)) ^ 2 := by
    refine intervalIntegral.integral_congr fun x hx => ?_
    rw [uIcc_of_le (by linarith)] at hx
    have hx' : |x| ≤ H := abs_le.2 ⟨hx.1, by linarith [hx.2]⟩
    simp only [parab_in hx', wing_left hk hx.2 hx.1]
  have e2 : ∫ x in (-k)..k, (a * parab H x + b * wing k H x) ^ 2 =
      ∫ x in (-k)..k, (a * (H ^ 2 - x ^ 2) + b * (x * (H / k - 1))) ^ 2 := by
    refine intervalIntegral.integral_congr fun x hx => ?_
    rw [uIcc_of_le (by linarith)] at hx
    have hx' : |x| ≤ H := abs_le.2 ⟨by linarith [hx.1], by linarith [hx.2]⟩
    simp only [parab_in hx', wing_spine hk hH (abs_le.2 hx)]
  have e3 : ∫ x in k..H, (a * parab H x + b * wing k H x) ^ 2 =
      ∫ x in k..H, (a * (H ^ 2 - x ^ 2) + b * (H - x)) ^ 2 := by
    refine intervalIntegral.integral_congr fun x hx => ?_
    rw [uIcc_of_le hH] at hx
    have hx' : |x| ≤ H := abs_le.2 ⟨by linarith [hx.1], hx.2⟩
    simp only [parab_in hx', wing_right hk hx.1 hx.2]
  have key : ∀ (p0 p1 p2 u v : ℝ), ∫ x in u..v, (p0 + p1 * x + p2 * x ^ 2) ^ 2 =
      (p0 ^ 2 * v + p0 * p1 * v ^ 2 + (p1 ^ 2 + 2 * p0 * p2) * v ^ 3 / 3 + p1 * p2 * v ^ 4 / 2 + p2 ^ 2 * v ^ 5 / 5) -
      (p0 ^ 2 * u + p0 * p1 * u ^ 2 + (p1 ^ 2 + 2 * p0 * p2) * u ^ 3 / 3 + p1 * p2 * u ^ 4 / 2 + p2 ^ 2 * u ^ 5 / 5) := by
    intro p0 p1 p2 u v
    refine intervalIntegral.integral_eq_sub_of_hasDerivAt (f := fun x => p0 ^ 2 * x + p0 * p1 * x ^ 2 +
      (p1 ^ 2 + 2 * p0 * p2) * x ^ 3 / 3 + p1 * p2 * x ^ 4 / 2 + p2 ^ 2 * x ^ 5 / 5) (fun x _ => ?_)
      (Continuous.intervalIntegrable (by fun_prop) _ _)
    have h1 := (hasDerivAt_id x).const_mul (p0 ^ 2)
    have h2 := (hasDerivAt_pow 2 x).const_mul (p0 * p1)
    have h3 := ((hasDerivAt_pow 3 x).const_mul (p1 ^ 2 + 2 * p0 * p2)).div_const 3
    have h4 := ((hasDerivAt_pow 4 x).const_mul (p1 * p2)).div_const 2
    have h5 := ((hasDerivAt_pow 5 x).const_mul (p2 ^ 2)).div_const 5
    refine ((((h1.add h2).add h3).add h4).add h5).congr_deriv ?_
    norm_num
    ring
  have f1 : ∀ x : ℝ, (a * (H ^ 2 - x ^ 2) + b * (-H - x)) ^ 2 = ((a * H ^ 2 - b * H) + (-b) * x + (-a) * x ^ 2) ^ 2 := fun x => by ring
  have f2 : ∀ x : ℝ, (a * (H ^ 2 - x ^ 2) + b * (x * (H / k - 1))) ^ 2 =
    (a * H ^ 2 + (b * (H / k - 1)) * x + (-a) * x ^ 2) ^ 2 := fun x => by ring
  have f3 : ∀ x : ℝ, (a * (H ^ 2 - x ^ 2) + b * (H - x)) ^ 2 = ((a * H ^ 2 + b * H) + (-b) * x + (-a) * x ^ 2) ^ 2 := fun x => by ring
  rw [e1, e2, e3]
  simp only [f1, f2, f3]
  rw [key, key, key]
  field_simp
  ring

end SP
