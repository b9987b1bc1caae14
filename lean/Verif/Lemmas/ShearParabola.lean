import Verif.Spec.ShearParabola
import Verif.Props.StressLimit
import Verif.Props.ShearShapes
import Mathlib.MeasureTheory.Integral.IntervalIntegral.AbsolutelyContinuousFun

/-!
# The parabola of shear stresses solves Saint-Venant's problem of flexure for a rectangle
-/

namespace SP

open Spec MeasureTheory Set Topology Filter

variable {n : ℕ} {els : List (Tri6 n)} {x0 y0 b d e : ℝ}

theorem hasDeriv_rectShear (A h m y : ℝ) : HasDerivAt (rectShear A h m) (-(12 / (A * h ^ 2)) * (y - m)) y := by
  have h0 : HasDerivAt (fun y : ℝ => 2 * (y - m) / h) (2 * 1 / h) y := (((hasDerivAt_id y).sub_const m).const_mul 2).div_const h
  refine (((h0.pow 2).const_sub 1).const_mul (3 / (2 * A))).congr_deriv ?_
  simp only [Nat.cast_ofNat, Nat.add_one_sub_one, pow_one]
  by_cases hA : A = 0
  · simp [hA]
  by_cases hh : h = 0
  · simp [hh]
  field_simp
  ring

/-- Integration by parts along a fibre. -/
theorem fibre_parts {A h o : ℝ} (hh : 0 < h) {g : ℝ → ℝ} {G : ℝ} (hG : 0 ≤ G)
    (hg : ∀ y ∈ Icc o (o + h), ∀ z ∈ Icc o (o + h), |g z - g y| ≤ G * |z - y|) :
    ∫ y in Ioo o (o + h), rectShear A h (o + h / 2) y * deriv g y = ∫ y in Ioo o (o + h), 12 / (A * h ^ 2) * (y - (o + h / 2)) * g y := by
  have hle : o ≤ o + h := by linarith
  rw [← integral_Ioc_eq_integral_Ioo, ← intervalIntegral.integral_of_le hle, ← integral_Ioc_eq_integral_Ioo,
    ← intervalIntegral.integral_of_le hle]
  have ac : AbsolutelyContinuousOnInterval g o (o + h) := by
    refine LipschitzOnWith.absolutelyContinuousOnInterval (K := ⟨G, hG⟩) (LipschitzOnWith.of_dist_le_mul fun y hy z hz => ?_)
    rw [uIcc_of_le hle] at hy hz
    rw [Real.dist_eq, Real.dist_eq]
    exact hg z hz y hy
  have aq : AbsolutelyContinuousOnInterval (rectShear A h (o + h / 2)) o (o + h) := by
    refine ContDiffOn.absolutelyContinuousOnInterval (ContDiff.contDiffOn ?_)
    unfold rectShear
    fun_prop
  rw [aq.integral_mul_deriv_eq_deriv_mul ac]
  have q0 : rectShear A h (o + h / 2) o = 0 := by
    unfold rectShear; field_simp; ring
  have q1 : rectShear A h (o + h / 2) (o + h) = 0 := by
    unfold rectShear; field_simp; ring
  rw [q0, q1, zero_mul, zero_mul, sub_zero, zero_sub, ← intervalIntegral.integral_neg]
  refine intervalIntegral.integral_congr fun y _ => ?_
  simp only [(hasDeriv_rectShear A h (o + h / 2) y).deriv]
  ring

theorem rect_sub (hR : region els =ᵐ[volume] Ioo x0 (x0 + b) ×ˢ Ioo y0 (y0 + d)) (hb : 0 < b) (hd : 0 < d) :
    Icc x0 (x0 + b) ×ˢ Icc y0 (y0 + d) ⊆ region els := by
  have hO : IsOpen (Ioo x0 (x0 + b) ×ˢ Ioo y0 (y0 + d) \ region els) := (isOpen_Ioo.prod isOpen_Ioo).sdiff (isClosed_region els)
  have h0 : Ioo x0 (x0 + b) ×ˢ Ioo y0 (y0 + d) \ region els = ∅ := by
    refine (hO.measure_eq_zero_iff volume).1 ?_
    exact ae_le_set.1 hR.symm.le
  have h1 : Ioo x0 (x0 + b) ×ˢ Ioo y0 (y0 + d) ⊆ region els := sdiff_eq_empty.1 h0
  have h2 := closure_minimal h1 (isClosed_region els)
  rwa [closure_prod_eq, closure_Ioo (by linarith), closure_Ioo (by linarith)] at h2

/-- A displacement is Lipschitz continuous along the fibres of a rectangle. -/
theorem disp_fibres (hR : region els =ᵐ[volume] Ioo x0 (x0 + b) ×ˢ Ioo y0 (y0 + d)) (hb : 0 < b) (hd : 0 < d) {v : ℝ × ℝ → ℝ}
    (hv : Displacement (region els) v) : ∃ G, 0 ≤ G ∧
      (∀ x ∈ Icc x0 (x0 + b), ∀ y ∈ Icc y0 (y0 + d), ∀ z ∈ Icc y0 (y0 + d), |v (x, z) - v (x, y)| ≤ G * |z - y|) ∧
      ∀ y ∈ Icc y0 (y0 + d), ∀ x ∈ Icc x0 (x0 + b), ∀ z ∈ Icc x0 (x0 + b), |v (z, y) - v (x, y)| ≤ G * |z - x| := by
  obtain ⟨G, hG⟩ := hv.lipschitz
  have hs := rect_sub hR hb hd
  have hc : Convex ℝ (Icc x0 (x0 + b) ×ˢ Icc y0 (y0 + d)) := (convex_Icc _ _).prod (convex_Icc _ _)
  have key : ∀ p ∈ Icc x0 (x0 + b) ×ˢ Icc y0 (y0 + d), ∀ q ∈ Icc x0 (x0 + b) ×ˢ Icc y0 (y0 + d),
      |v q - v p| ≤ |G| * (|q.1 - p.1| + |q.2 - p.2|) := fun p hp q hq =>
    (hG p q fun z hz => hs (hc.add_smul_sub_mem hp hq hz)).trans (mul_le_mul_of_nonneg_right (le_abs_self _) (by positivity))
  refine ⟨|G|, abs_nonneg _, fun x hx y hy z hz => ?_, fun y hy x hx z hz => ?_⟩
  · simpa using key (x, y) ⟨hx, hy⟩ (x, z) ⟨hx, hz⟩
  · simpa using key (x, y) ⟨hx, hy⟩ (z, y) ⟨hz, hy⟩

theorem int_rectShear {A h o : ℝ} (hA : A ≠ 0) (hh : 0 < h) : ∫ y in Ioo o (o + h), rectShear A h (o + h / 2) y = h / A := by
  have hle : o ≤ o + h := by linarith
  rw [← integral_Ioc_eq_integral_Ioo, ← intervalIntegral.integral_of_le hle,
    intervalIntegral.integral_eq_sub_of_hasDerivAt
      (f := fun y => 3 / (2 * A) * ((y - (o + h / 2)) - 4 * (y - (o + h / 2)) ^ 3 / (3 * h ^ 2))) (fun y _ => ?_)
      (Continuous.intervalIntegrable (by unfold rectShear; fun_prop) _ _)]
  · field_simp
    ring
  · have h0 : HasDerivAt (fun y : ℝ => y - (o + h / 2)) 1 y := (hasDerivAt_id y).sub_const _
    refine ((h0.sub (((h0.pow 3).const_mul 4).div_const (3 * h ^ 2))).const_mul (3 / (2 * A))).congr_deriv ?_
    unfold rectShear
    simp only [Nat.cast_ofNat, Nat.add_one_sub_one]
    field_simp
    ring

/-- A smooth function is a displacement. -/
theorem smooth_displacement {w : ℝ × ℝ → ℝ} (hw : ContDiff ℝ 1 w) (els : List (Tri6 n)) : Displacement (region els) w := by
  obtain ⟨r, hr⟩ := (region_compact els).isBounded.subset_closedBall (0 : ℝ × ℝ)
  obtain ⟨K, hK⟩ := hw.contDiffOn.exists_lipschitzOnWith (by decide) (convex_closedBall (0 : ℝ × ℝ) r) (isCompact_closedBall _ _)
  refine ⟨⟨K, fun p q hpq => ?_⟩, ae_of_all _ fun p _ => hw.differentiable (by decide) p⟩
  have hp : p ∈ region els := by simpa using hpq 0 ⟨le_rfl, zero_le_one⟩
  have hq : q ∈ region els := by simpa using hpq 1 ⟨zero_le_one, le_rfl⟩
  have := hK.dist_le_mul q (hr hq) p (hr hp)
  rw [Real.dist_eq] at this
  refine this.trans (mul_le_mul_of_nonneg_left ?_ K.2)
  rw [Prod.dist_eq, Real.dist_eq, Real.dist_eq]
  exact max_le (le_add_of_nonneg_right (abs_nonneg _)) (le_add_of_nonneg_left (abs_nonneg _))

theorem exact_compatible {w : ℝ × ℝ → ℝ} (hw : Displacement (region els) w) {g : ℝ × ℝ → ℝ × ℝ} (h : ∀ p, g p = (dX w p, dY w p)) :
    Compatible (region els) g := by
  intro ε hε
  refine ⟨w, hw, ?_, ?_⟩
  · simp [h, SquareInt]
  · simpa [h, sizeSq] using hε.le

theorem rect_fubini (hR : region els =ᵐ[volume] Ioo x0 (x0 + b) ×ˢ Ioo y0 (y0 + d)) {f : ℝ × ℝ → ℝ}
    (hf : IntegrableOn f (region els)) : (∫ p in region els, f p = ∫ x in Ioo x0 (x0 + b), ∫ y in Ioo y0 (y0 + d), f (x, y)) ∧
      ∫ p in region els, f p = ∫ y in Ioo y0 (y0 + d), ∫ x in Ioo x0 (x0 + b), f (x, y) := by
  have h1 := hf.congr_set_ae hR.symm
  rw [setIntegral_congr_set hR, Measure.volume_eq_prod] at *
  refine ⟨setIntegral_prod _ h1, ?_⟩
  rw [← Measure.prod_restrict]
  refine integral_prod_symm _ ?_
  rw [Measure.prod_restrict]
  exact h1

theorem cont_rectShear (A h m : ℝ) : Continuous (rectShear A h m) := by
  unfold rectShear
  fun_prop

/-- Shear along `y`. -/
theorem flexure_y (hR : region els =ᵐ[volume] Ioo x0 (x0 + b) ×ˢ Ioo y0 (y0 + d)) (hb : 0 < b) (hd : 0 < d) (he : 0 < e)
    (sq : GradSquare (region els)) : SaintVenantFlexure (region els) (fun _ => e) (x0 + b / 2, y0 + d / 2) 0 0 (1 / (e * (b * d ^ 3 / 12)))
      (0, 1) fun p => (0, rectShear (b * d) d (y0 + d / 2) p.2) := by
  have mq : MemLp (fun p : ℝ × ℝ => rectShear (b * d) d (y0 + d / 2) p.2) 2 (volume.restrict (region els)) :=
    memLp_cont ((cont_rectShear _ _ _).comp continuous_snd) els
  refine ⟨fun v hv => ?_, ⟨by simp, ?_⟩, ?_⟩
  · obtain ⟨s0, -, s2⟩ := sq v hv
    obtain ⟨G, hG, hg, -⟩ := disp_fibres hR hb hd hv
    have i1 : IntegrableOn (fun p => rectShear (b * d) d (y0 + d / 2) p.2 * dY v p) (region els) := mq.integrable_mul s2
    have i2 : IntegrableOn (fun p => 12 / (b * d * d ^ 2) * (p.2 - (y0 + d / 2)) * v p) (region els) :=
      (memLp_cont (g := fun p => 12 / (b * d * d ^ 2) * (p.2 - (y0 + d / 2))) (by fun_prop) els).integrable_mul s0
    have e1 : ∫ p in region els, (0 : ℝ) * dX v p + rectShear (b * d) d (y0 + d / 2) p.2 * dY v p
        = ∫ p in region els, rectShear (b * d) d (y0 + d / 2) p.2 * dY v p := by simp
    have e2 : ∫ p in region els, e * (0 * (p.1 - (x0 + b / 2)) + 1 / (e * (b * d ^ 3 / 12)) * (p.2 - (y0 + d / 2))) * v p
        = ∫ p in region els, 12 / (b * d * d ^ 2) * (p.2 - (y0 + d / 2)) * v p :=
      integral_congr_ae (ae_of_all _ fun p => by simp only; field_simp; ring)
    refine e1.trans (Eq.trans ?_ e2.symm)
    rw [(rect_fubini hR i1).1, (rect_fubini hR i2).1]
    refine setIntegral_congr_fun measurableSet_Ioo fun x hx => ?_
    exact fibre_parts hd hG (hg x (Ioo_subset_Icc_self hx))
  · have i1 : IntegrableOn (fun p : ℝ × ℝ => rectShear (b * d) d (y0 + d / 2) p.2) (region els) :=
      ((cont_rectShear _ _ _).comp continuous_snd).continuousOn.integrableOn_compact (region_compact els)
    refine (rect_fubini hR i1).1.trans ?_
    simp only [int_rectShear (mul_pos hb hd).ne' hd]
    rw [setIntegral_const]
    simp [hb.le]
    field_simp
  · refine exact_compatible (w := fun p => 2 / e * (3 / (2 * (b * d)) * ((p.2 - (y0 + d / 2)) - 4 * (p.2 - (y0 + d / 2)) ^ 3 / (3 * d ^ 2))))
      (smooth_displacement (by fun_prop) els) fun p => ?_
    have h0 : HasDerivAt (fun y : ℝ => y - (y0 + d / 2)) 1 p.2 := (hasDerivAt_id p.2).sub_const _
    have h1 := ((h0.sub (((h0.pow 3).const_mul 4).div_const (3 * d ^ 2))).const_mul (3 / (2 * (b * d)))).const_mul (2 / e)
    refine Prod.ext ?_ ?_
    · simp [dX]
    · simp only [dY]
      refine Eq.trans ?_ (HasDerivAt.deriv h1).symm
      unfold rectShear
      simp only [Nat.cast_ofNat, Nat.add_one_sub_one]
      field_simp
      ring

/-- Shear along `x`. -/
theorem flexure_x (hR : region els =ᵐ[volume] Ioo x0 (x0 + b) ×ˢ Ioo y0 (y0 + d)) (hb : 0 < b) (hd : 0 < d) (he : 0 < e)
    (sq : GradSquare (region els)) : SaintVenantFlexure (region els) (fun _ => e) (x0 + b / 2, y0 + d / 2) 0 (1 / (e * (d * b ^ 3 / 12))) 0
      (1, 0) fun p => (rectShear (b * d) b (x0 + b / 2) p.1, 0) := by
  have mq : MemLp (fun p : ℝ × ℝ => rectShear (b * d) b (x0 + b / 2) p.1) 2 (volume.restrict (region els)) :=
    memLp_cont ((cont_rectShear _ _ _).comp continuous_fst) els
  refine ⟨fun v hv => ?_, ⟨?_, by simp⟩, ?_⟩
  · obtain ⟨s0, s1, -⟩ := sq v hv
    obtain ⟨G, hG, -, hg⟩ := disp_fibres hR hb hd hv
    have i1 : IntegrableOn (fun p => rectShear (b * d) b (x0 + b / 2) p.1 * dX v p) (region els) := mq.integrable_mul s1
    have i2 : IntegrableOn (fun p => 12 / (b * d * b ^ 2) * (p.1 - (x0 + b / 2)) * v p) (region els) :=
      (memLp_cont (g := fun p => 12 / (b * d * b ^ 2) * (p.1 - (x0 + b / 2))) (by fun_prop) els).integrable_mul s0
    have e1 : ∫ p in region els, rectShear (b * d) b (x0 + b / 2) p.1 * dX v p + (0 : ℝ) * dY v p
        = ∫ p in region els, rectShear (b * d) b (x0 + b / 2) p.1 * dX v p := by simp
    have e2 : ∫ p in region els, e * (1 / (e * (d * b ^ 3 / 12)) * (p.1 - (x0 + b / 2)) + 0 * (p.2 - (y0 + d / 2))) * v p
        = ∫ p in region els, 12 / (b * d * b ^ 2) * (p.1 - (x0 + b / 2)) * v p :=
      integral_congr_ae (ae_of_all _ fun p => by simp only; field_simp; ring)
    refine e1.trans (Eq.trans ?_ e2.symm)
    rw [(rect_fubini hR i1).2, (rect_fubini hR i2).2]
    refine setIntegral_congr_fun measurableSet_Ioo fun y hy => ?_
    exact fibre_parts hb hG (hg y (Ioo_subset_Icc_self hy))
  · have i1 : IntegrableOn (fun p : ℝ × ℝ => rectShear (b * d) b (x0 + b / 2) p.1) (region els) :=
      ((cont_rectShear _ _ _).comp continuous_fst).continuousOn.integrableOn_compact (region_compact els)
    refine (rect_fubini hR i1).2.trans ?_
    simp only [int_rectShear (mul_pos hb hd).ne' hb]
    rw [setIntegral_const]
    simp [hd.le]
    field_simp
  · refine exact_compatible (w := fun p => 2 / e * (3 / (2 * (b * d)) * ((p.1 - (x0 + b / 2)) - 4 * (p.1 - (x0 + b / 2)) ^ 3 / (3 * b ^ 2))))
      (smooth_displacement (by fun_prop) els) fun p => ?_
    have h0 : HasDerivAt (fun x : ℝ => x - (x0 + b / 2)) 1 p.1 := (hasDerivAt_id p.1).sub_const _
    have h1 := ((h0.sub (((h0.pow 3).const_mul 4).div_const (3 * b ^ 2))).const_mul (3 / (2 * (b * d)))).const_mul (2 / e)
    refine Prod.ext ?_ ?_
    · simp only [dX]
      refine Eq.trans ?_ (HasDerivAt.deriv h1).symm
      unfold rectShear
      simp only [Nat.cast_ofNat, Nat.add_one_sub_one]
      field_simp
      ring
    · simp [dY]

theorem sq_rectShear {A h o : ℝ} (hA : A ≠ 0) (hh : 0 < h) : ∫ y in Ioo o (o + h), rectShear A h (o + h / 2) y ^ 2 = 6 / 5 * h / A ^ 2 := by
  have hle : o ≤ o + h := by linarith
  rw [← integral_Ioc_eq_integral_Ioo, ← intervalIntegral.integral_of_le hle,
    intervalIntegral.integral_eq_sub_of_hasDerivAt
      (f := fun y => (3 / (2 * A)) ^ 2 * ((y - (o + h / 2)) - 8 * (y - (o + h / 2)) ^ 3 / (3 * h ^ 2)
        + 16 * (y - (o + h / 2)) ^ 5 / (5 * h ^ 4))) (fun y _ => ?_)
      (Continuous.intervalIntegrable (by unfold rectShear; fun_prop) _ _)]
  · field_simp
    ring
  · have h0 : HasDerivAt (fun y : ℝ => y - (o + h / 2)) 1 y := (hasDerivAt_id y).sub_const _
    refine (((h0.sub (((h0.pow 3).const_mul 8).div_const (3 * h ^ 2))).add (((h0.pow 5).const_mul 16).div_const (5 * h ^ 4))).const_mul
      ((3 / (2 * A)) ^ 2)).congr_deriv ?_
    unfold rectShear
    simp only [Nat.cast_ofNat, Nat.add_one_sub_one]
    field_simp
    ring

/-- The mean squares of the two parabolas. -/
theorem sizes_rectShear (hR : region els =ᵐ[volume] Ioo x0 (x0 + b) ×ˢ Ioo y0 (y0 + d)) (hb : 0 < b) (hd : 0 < d) :
    sizeSq (region els) (fun p => (rectShear (b * d) b (x0 + b / 2) p.1, 0)) = 6 / (5 * (b * d)) ∧
    sizeSq (region els) (fun p => (0, rectShear (b * d) d (y0 + d / 2) p.2)) = 6 / (5 * (b * d)) := by
  have c1 : Continuous fun p : ℝ × ℝ => rectShear (b * d) b (x0 + b / 2) p.1 ^ 2 := ((cont_rectShear _ _ _).comp continuous_fst).pow 2
  have c2 : Continuous fun p : ℝ × ℝ => rectShear (b * d) d (y0 + d / 2) p.2 ^ 2 := ((cont_rectShear _ _ _).comp continuous_snd).pow 2
  constructor
  · simp only [sizeSq, ne_eq, OfNat.ofNat_ne_zero, not_false_eq_true, zero_pow, add_zero]
    rw [(rect_fubini hR (c1.continuousOn.integrableOn_compact (region_compact els))).2]
    simp only [sq_rectShear (mul_pos hb hd).ne' hb]
    rw [setIntegral_const]
    simp [hd.le]
    field_simp
  · simp only [sizeSq, ne_eq, OfNat.ofNat_ne_zero, not_false_eq_true, zero_pow, zero_add]
    rw [(rect_fubini hR (c2.continuousOn.integrableOn_compact (region_compact els))).1]
    simp only [sq_rectShear (mul_pos hb hd).ne' hd]
    rw [setIntegral_const]
    simp [hb.le]
    field_simp

end SP
