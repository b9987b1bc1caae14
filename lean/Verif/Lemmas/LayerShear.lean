import Verif.Spec.LayerShear
import Verif.Lemmas.ShearParabola

/-!
# The shear stresses of a layered rectangle solve Saint-Venant's problem of flexure
-/

namespace SP

open Spec MeasureTheory Set Topology Filter

variable {n : ℕ} {els : List (Tri6 n)} {x0 y0 y1 b m M c : ℝ} {e : ℝ → ℝ}

theorem tame_bound (he : Tame e m M) (y : ℝ) : |e y| ≤ M := by
  rw [abs_of_pos (he.pos.trans_le (he.low y))]
  exact he.high y

theorem tame_interval (he : Tame e m M) {g : ℝ → ℝ} (hg : Continuous g) (p q : ℝ) :
    IntervalIntegrable (fun y => e y * g y) volume p q :=
  ⟨Integrable.bdd_mul (c := M) (hg.intervalIntegrable p q).1 he.measurable.aestronglyMeasurable (ae_of_all _ fun y => tame_bound he y),
    Integrable.bdd_mul (c := M) (hg.intervalIntegrable p q).2 he.measurable.aestronglyMeasurable (ae_of_all _ fun y => tame_bound he y)⟩

/-- The first moment of the part below. -/
noncomputable def below (e : ℝ → ℝ) (y0 c y : ℝ) : ℝ := ∫ η in y0..y, e η * (η - c)

theorem below_cont (he : Tame e m M) : Continuous (below e y0 c) :=
  intervalIntegral.continuous_primitive (fun p q => tame_interval he (by fun_prop) p q) y0

theorem below_deriv (he : Tame e m M) : ∃ N : Set ℝ, N.Countable ∧ ∀ y ∉ N, ContinuousAt e y ∧
    HasDerivAt (below e y0 c) (e y * (y - c)) y := by
  obtain ⟨N, hN, hc⟩ := he.jumps
  refine ⟨N, hN, fun y hy => ⟨hc y hy, ?_⟩⟩
  refine intervalIntegral.integral_hasDerivAt_right (tame_interval he (by fun_prop) _ _) ?_ ((hc y hy).mul (by fun_prop))
  exact (he.measurable.mul (by fun_prop)).stronglyMeasurable.stronglyMeasurableAtFilter

/-- A primitive of a locally bounded function is Lipschitz continuous on an interval. -/
theorem primitive_lipschitz {f : ℝ → ℝ} {B p q : ℝ} (hi : ∀ y z, IntervalIntegrable f volume y z) (hB : ∀ y ∈ Icc p q, |f y| ≤ B) {o y z : ℝ}
    (hy : y ∈ Icc p q) (hz : z ∈ Icc p q) : |(∫ t in o..z, f t) - ∫ t in o..y, f t| ≤ B * |z - y| := by
  rw [intervalIntegral.integral_interval_sub_left (hi _ _) (hi _ _)]
  refine intervalIntegral.norm_integral_le_of_norm_le_const (f := f) (C := B) fun t ht => hB t ?_
  exact (uIcc_subset_Icc hy hz) (uIoc_subset_uIcc ht)

theorem below_ac (he : Tame e m M) (hy : y0 ≤ y1) : AbsolutelyContinuousOnInterval (below e y0 c) y0 y1 := by
  have hM : 0 ≤ M := (abs_nonneg _).trans (tame_bound he 0)
  have hB : ∀ y ∈ Icc y0 y1, |e y * (y - c)| ≤ M * (|y0 - c| + |y1 - c|) := fun y h => by
    rw [abs_mul]
    refine mul_le_mul (tame_bound he y) ?_ (abs_nonneg _) hM
    rcases abs_cases (y - c) with h1 | h1 <;> rcases abs_cases (y0 - c) with h2 | h2 <;> rcases abs_cases (y1 - c) with h3 | h3 <;>
      linarith [h.1, h.2]
  refine LipschitzOnWith.absolutelyContinuousOnInterval (K := ⟨M * (|y0 - c| + |y1 - c|), by positivity⟩)
    (LipschitzOnWith.of_dist_le_mul fun y hy' z hz => ?_)
  rw [uIcc_of_le hy] at hy' hz
  rw [Real.dist_eq, Real.dist_eq]
  exact primitive_lipschitz (fun p q => tame_interval he (by fun_prop) p q) hB hz hy'

/-- Integration by parts along a fibre across the layers. -/
theorem layer_parts (he : Tame e m M) (hy : y0 < y1) (h0 : ∫ η in y0..y1, e η * (η - c) = 0) {g : ℝ → ℝ} {G : ℝ} (hG : 0 ≤ G)
    (hg : ∀ y ∈ Icc y0 y1, ∀ z ∈ Icc y0 y1, |g z - g y| ≤ G * |z - y|) :
    ∫ y in Ioo y0 y1, -below e y0 c y * deriv g y = ∫ y in Ioo y0 y1, e y * (y - c) * g y := by
  rw [← integral_Ioc_eq_integral_Ioo, ← intervalIntegral.integral_of_le hy.le, ← integral_Ioc_eq_integral_Ioo,
    ← intervalIntegral.integral_of_le hy.le]
  have ac : AbsolutelyContinuousOnInterval g y0 y1 := by
    refine LipschitzOnWith.absolutelyContinuousOnInterval (K := ⟨G, hG⟩) (LipschitzOnWith.of_dist_le_mul fun y hy' z hz => ?_)
    rw [uIcc_of_le hy.le] at hy' hz
    rw [Real.dist_eq, Real.dist_eq]
    exact hg z hz y hy'
  have h1 := (below_ac (c := c) he hy.le).integral_mul_deriv_eq_deriv_mul ac
  have e0 : below e y0 c y0 = 0 := by simp [below]
  have e1 : below e y0 c y1 = 0 := h0
  rw [e0, e1, zero_mul, zero_mul, sub_zero, zero_sub] at h1
  simp only [neg_mul]
  rw [intervalIntegral.integral_neg, h1, neg_neg]
  obtain ⟨N, hN, hd⟩ := below_deriv (y0 := y0) (c := c) he
  refine intervalIntegral.integral_congr_ae ?_
  filter_upwards [hN.ae_notMem volume] with y hyN _
  rw [(hd y hyN).2.deriv]

theorem int_tame_pos (he : Tame e m M) (hy : y0 < y1) : 0 < ∫ η in y0..y1, e η := by
  refine intervalIntegral.intervalIntegral_pos_of_pos (by simpa using tame_interval he continuous_one y0 y1)
    (fun y => he.pos.trans_le (he.low y)) hy

/-- The first moment about the neutral axis vanishes. -/
theorem axis_zero (he : Tame e m M) (hy : y0 < y1) : ∫ η in y0..y1, e η * (η - layerAxis e y0 y1) = 0 := by
  have e1 : ∫ η in y0..y1, e η * (η - layerAxis e y0 y1) = (∫ η in y0..y1, e η * η) - ∫ η in y0..y1, e η * layerAxis e y0 y1 := by
    rw [← intervalIntegral.integral_sub (tame_interval he (g := fun y => y) continuous_id _ _) (tame_interval he continuous_const _ _)]
    exact intervalIntegral.integral_congr fun y _ => by ring
  rw [e1, intervalIntegral.integral_mul_const, layerAxis, mul_div_cancel₀ _ (int_tame_pos he hy).ne', sub_self]

/-- The neutral axis is the only such height. -/
theorem axis_unique (he : Tame e m M) (hy : y0 < y1) (hc : ∫ η in y0..y1, e η * (η - c) = 0) : c = layerAxis e y0 y1 := by
  have e1 : ∫ η in y0..y1, e η * (η - c) = (∫ η in y0..y1, e η * η) - ∫ η in y0..y1, e η * c := by
    rw [← intervalIntegral.integral_sub (tame_interval he (g := fun y => y) continuous_id _ _) (tame_interval he continuous_const _ _)]
    exact intervalIntegral.integral_congr fun y _ => by ring
  rw [e1, intervalIntegral.integral_mul_const, sub_eq_zero] at hc
  rw [layerAxis, hc, mul_div_cancel_left₀ _ (int_tame_pos he hy).ne']

theorem across_eq (he : Tame e m M) (hy : y0 < y1) (b y : ℝ) : acrossShear e y0 y1 b y =
    -below e y0 (layerAxis e y0 y1) y * (b / ((∫ η in y0..y1, b * (e η * (η - layerAxis e y0 y1) ^ 2)) * b)) := by
  have hi : ∀ p q, IntervalIntegrable (fun y => e y * (y - layerAxis e y0 y1)) volume p q := fun p q => tame_interval he (by fun_prop) p q
  have := intervalIntegral.integral_add_adjacent_intervals (hi y0 y) (hi y y1)
  rw [axis_zero he hy] at this
  rw [acrossShear, intervalIntegral.integral_const_mul, below]
  rw [show (∫ η in y..y1, e η * (η - layerAxis e y0 y1)) = -∫ η in y0..y, e η * (η - layerAxis e y0 y1) by linarith]
  ring

theorem across_cont (he : Tame e m M) (hy : y0 < y1) (b : ℝ) : Continuous (acrossShear e y0 y1 b) := by
  rw [show acrossShear e y0 y1 b = _ from funext (across_eq he hy b)]
  exact ((below_cont he).neg).mul_const _

theorem tame_memLp (he : Tame e m M) {g : ℝ × ℝ → ℝ} (hg : MemLp g 2 (volume.restrict (region els))) :
    MemLp (fun p => e p.2 * g p) 2 (volume.restrict (region els)) := by
  refine hg.of_le_mul (c := M) ((he.measurable.comp measurable_snd).aestronglyMeasurable.mul hg.1) (ae_of_all _ fun p => ?_)
  rw [norm_mul]
  exact mul_le_mul_of_nonneg_right (tame_bound he p.2) (norm_nonneg _)

theorem along_memLp (he : Tame e m M) (b xm : ℝ) : MemLp (alongShear e y0 y1 b xm) 2 (volume.restrict (region els)) := by
  have := tame_memLp (els := els) he (memLp_cont (g := fun p => 1 / (∫ η in y0..y1, e η) * rectShear b b xm p.1)
    (continuous_const.mul ((cont_rectShear _ _ _).comp continuous_fst)) els)
  refine this.congr_norm ?_ (ae_of_all _ fun p => ?_)
  · unfold alongShear
    exact ((((he.measurable.comp measurable_snd).div_const _).mul
      ((cont_rectShear _ _ _).comp continuous_fst).measurable)).aestronglyMeasurable
  · congr 1
    simp only [alongShear]
    ring

theorem second_pos (he : Tame e m M) (hy : y0 < y1) : 0 < ∫ η in y0..y1, e η * (η - c) ^ 2 := by
  have h1 : ∫ η in y0..y1, m * (η - c) ^ 2 ≤ ∫ η in y0..y1, e η * (η - c) ^ 2 :=
    intervalIntegral.integral_mono_on hy.le (Continuous.intervalIntegrable (by fun_prop) _ _) (tame_interval he (by fun_prop) _ _)
      fun y _ => mul_le_mul_of_nonneg_right (he.low y) (sq_nonneg _)
  refine lt_of_lt_of_le ?_ h1
  rw [intervalIntegral.integral_const_mul, int_square]
  have : 0 < y1 - y0 := by linarith
  refine mul_pos he.pos ?_
  have h2 : (y1 - c) ^ 3 - (y0 - c) ^ 3 = (y1 - y0) * ((y1 - y0) ^ 2 / 4 + 3 * ((y1 + y0) / 2 - c) ^ 2) := by ring
  rw [h2]
  positivity

theorem exact_compatible_ae {w : ℝ × ℝ → ℝ} (hw : Displacement (region els) w) {g : ℝ × ℝ → ℝ × ℝ}
    (h : ∀ᵐ p ∂volume.restrict (region els), g p = (dX w p, dY w p)) : Compatible (region els) g := by
  have h0 : ∀ᵐ p ∂volume.restrict (region els), (dX w p, dY w p) - g p = 0 := h.mono fun p hp => by rw [hp, sub_self]
  intro ε hε
  refine ⟨w, hw, ⟨?_, ?_⟩, ?_⟩
  · exact (memLp_congr_ae (h0.mono fun p hp => by simp only [hp]; rfl)).2 (MemLp.zero (ε := ℝ))
  · exact (memLp_congr_ae (h0.mono fun p hp => by simp only [hp]; rfl)).2 (MemLp.zero (ε := ℝ))
  · rw [sizeSq, integral_congr_ae (g := fun _ => (0 : ℝ)) (h0.mono fun p hp => by simp [hp])]
    simpa using hε.le

theorem snd_ae {N : Set ℝ} (hN : N.Countable) : ∀ᵐ p : ℝ × ℝ, p.2 ∉ N := by
  rw [Measure.volume_eq_prod]
  exact Measure.quasiMeasurePreserving_snd.ae (hN.ae_notMem volume)

/-- Shear across the layers. -/
theorem flexure_across {d : ℝ} (hR : region els =ᵐ[volume] Ioo x0 (x0 + b) ×ˢ Ioo y0 (y0 + d)) (hb : 0 < b) (hd : 0 < d) (he : Tame e m M)
    (sq : GradSquare (region els)) : SaintVenantFlexure (region els) (fun p => e p.2) (x0 + b / 2, layerAxis e y0 (y0 + d)) 0 0
      (1 / ∫ η in y0..y0 + d, b * (e η * (η - layerAxis e y0 (y0 + d)) ^ 2)) (0, 1) fun p => (0, acrossShear e y0 (y0 + d) b p.2) := by
  have hy : y0 < y0 + d := by linarith
  set c := layerAxis e y0 (y0 + d) with hc
  have h0 := axis_zero he hy
  rw [← hc] at h0
  set K := ∫ η in y0..y0 + d, b * (e η * (η - c) ^ 2) with hK
  have hK1 : K = b * ∫ η in y0..y0 + d, e η * (η - c) ^ 2 := intervalIntegral.integral_const_mul _ _
  have hKp : 0 < K := by rw [hK1]; exact mul_pos hb (second_pos he hy)
  have eq : ∀ y, acrossShear e y0 (y0 + d) b y = -below e y0 c y * (1 / K) := fun y => by
    rw [across_eq he hy, ← hc, ← hK]
    field_simp
  have mq : MemLp (fun p : ℝ × ℝ => acrossShear e y0 (y0 + d) b p.2) 2 (volume.restrict (region els)) :=
    memLp_cont ((across_cont he hy b).comp continuous_snd) els
  refine ⟨fun v hv => ?_, ⟨by simp, ?_⟩, ?_⟩
  · obtain ⟨s0, -, s2⟩ := sq v hv
    obtain ⟨G, hG, hg, -⟩ := disp_fibres hR hb hd hv
    have i1 : IntegrableOn (fun p => acrossShear e y0 (y0 + d) b p.2 * dY v p) (region els) := mq.integrable_mul s2
    have i2 : IntegrableOn (fun p => e p.2 * (1 / K * (p.2 - c)) * v p) (region els) :=
      (tame_memLp he (memLp_cont (g := fun p => 1 / K * (p.2 - c)) (by fun_prop) els)).integrable_mul s0
    have e1 : ∫ p in region els, (0 : ℝ) * dX v p + acrossShear e y0 (y0 + d) b p.2 * dY v p
        = ∫ p in region els, acrossShear e y0 (y0 + d) b p.2 * dY v p := by simp
    have e2 : ∫ p in region els, e p.2 * (0 * (p.1 - (x0 + b / 2)) + 1 / K * (p.2 - c)) * v p
        = ∫ p in region els, e p.2 * (1 / K * (p.2 - c)) * v p :=
      integral_congr_ae (ae_of_all _ fun p => by simp only; ring)
    refine e1.trans (Eq.trans ?_ e2.symm)
    rw [(rect_fubini hR i1).1, (rect_fubini hR i2).1]
    refine setIntegral_congr_fun measurableSet_Ioo fun x hx => ?_
    have := layer_parts he hy h0 hG (hg x (Ioo_subset_Icc_self hx))
    calc ∫ y in Ioo y0 (y0 + d), acrossShear e y0 (y0 + d) b y * dY v (x, y)
        = 1 / K * ∫ y in Ioo y0 (y0 + d), -below e y0 c y * deriv (fun y => v (x, y)) y := by
          rw [← integral_const_mul]
          refine setIntegral_congr_fun measurableSet_Ioo fun y _ => ?_
          simp only [eq, dY]
          ring
      _ = _ := by
          rw [this, ← integral_const_mul]
          exact setIntegral_congr_fun measurableSet_Ioo fun y _ => by ring
  · have i1 : IntegrableOn (fun p : ℝ × ℝ => acrossShear e y0 (y0 + d) b p.2) (region els) :=
      ((across_cont he hy b).comp continuous_snd).continuousOn.integrableOn_compact (region_compact els)
    refine (rect_fubini hR i1).1.trans ?_
    have h1 : ∫ y in Ioo y0 (y0 + d), acrossShear e y0 (y0 + d) b y = 1 / b := by
      have := layer_parts he hy h0 zero_le_one (g := fun y => y - c) (fun y _ z _ => by simp)
      have hd1 : ∀ y, deriv (fun y : ℝ => y - c) y = 1 := fun y => by simp
      simp only [hd1, mul_one] at this
      simp only [eq]
      rw [integral_mul_const, this, ← integral_Ioc_eq_integral_Ioo, ← intervalIntegral.integral_of_le hy.le, hK1]
      have e3 : ∫ y in y0..y0 + d, e y * (y - c) * (y - c) = ∫ η in y0..y0 + d, e η * (η - c) ^ 2 :=
        intervalIntegral.integral_congr fun y _ => by ring
      rw [e3]
      have := (second_pos (c := c) he hy).ne'
      field_simp
    simp only [h1]
    rw [setIntegral_const]
    simp [hb.le]
    field_simp
  · set f : ℝ → ℝ := fun y => 2 * acrossShear e y0 (y0 + d) b y / e y with hf
    have qc := across_cont he hy b
    have hi : ∀ p q, IntervalIntegrable f volume p q := fun p q => by
      have h1 : ∀ y, f y = (e y)⁻¹ * (2 * acrossShear e y0 (y0 + d) b y) := fun y => by simp only [hf]; ring
      have h2 : ∀ y, ‖(e y)⁻¹‖ ≤ m⁻¹ := fun y => by
        rw [norm_inv, Real.norm_eq_abs, abs_of_pos (he.pos.trans_le (he.low y))]
        exact inv_anti₀ he.pos (he.low y)
      rw [show f = _ from funext h1]
      have h3 := (continuous_const.mul qc : Continuous fun y => 2 * acrossShear e y0 (y0 + d) b y).intervalIntegrable (μ := volume) p q
      exact ⟨Integrable.bdd_mul (c := m⁻¹) h3.1 he.measurable.inv.aestronglyMeasurable (ae_of_all _ h2),
        Integrable.bdd_mul (c := m⁻¹) h3.2 he.measurable.inv.aestronglyMeasurable (ae_of_all _ h2)⟩
    obtain ⟨N, hN, hcN⟩ := he.jumps
    have hder : ∀ y ∉ N, HasDerivAt (fun z => ∫ t in y0..z, f t) (f y) y := fun y hyN => by
      refine intervalIntegral.integral_hasDerivAt_right (hi _ _) ?_ ?_
      · exact ((measurable_const.mul qc.measurable).div he.measurable).stronglyMeasurable.stronglyMeasurableAtFilter
      · exact (continuousAt_const.mul qc.continuousAt).div (hcN y hyN) (he.pos.trans_le (he.low y)).ne'
    have hw : Displacement (region els) fun p => ∫ t in y0..p.2, f t := by
      refine ⟨?_, (snd_ae hN).mono fun p hp _ => ?_⟩
      · obtain ⟨ρ, hρ⟩ := (region_compact els).isBounded.subset_closedBall (0 : ℝ × ℝ)
        obtain ⟨B, hB⟩ := isCompact_Icc.exists_bound_of_continuousOn (s := Icc (-ρ) ρ) (continuous_const.mul qc : Continuous fun y =>
          2 * acrossShear e y0 (y0 + d) b y).continuousOn
        have hsnd : ∀ p ∈ region els, p.2 ∈ Icc (-ρ) ρ := fun p hp => by
          have := hρ hp
          rw [mem_closedBall_zero_iff, Prod.norm_def] at this
          exact abs_le.1 ((le_max_right _ _).trans this)
        refine ⟨B / m, fun p q hpq => ?_⟩
        have hp : p ∈ region els := by simpa using hpq 0 ⟨le_rfl, zero_le_one⟩
        have hq : q ∈ region els := by simpa using hpq 1 ⟨zero_le_one, le_rfl⟩
        have hB0 : 0 ≤ B := (norm_nonneg _).trans (hB _ (hsnd p hp))
        refine (primitive_lipschitz hi (B := B / m) (fun y hy' => ?_) (hsnd p hp) (hsnd q hq)).trans
          (mul_le_mul_of_nonneg_left (le_add_of_nonneg_left (abs_nonneg _)) (div_nonneg hB0 he.pos.le))
        rw [hf, abs_div, abs_of_pos (he.pos.trans_le (he.low y))]
        exact div_le_div₀ hB0 (hB y hy') he.pos (he.low y)
      · exact (hder p.2 hp).differentiableAt.comp p differentiableAt_snd
    refine exact_compatible_ae hw (ae_restrict_of_ae ((snd_ae hN).mono fun p hp => ?_))
    refine Prod.ext ?_ ?_
    · simp [dX]
    · simp only [dY]
      rw [(hder p.2 hp).deriv]
      simp only [hf]
      ring

/-- Shear along the layers. -/
theorem flexure_along {d : ℝ} (hR : region els =ᵐ[volume] Ioo x0 (x0 + b) ×ˢ Ioo y0 (y0 + d)) (hb : 0 < b) (hd : 0 < d) (he : Tame e m M)
    (sq : GradSquare (region els)) : SaintVenantFlexure (region els) (fun p => e p.2) (x0 + b / 2, c) 0
      (1 / (b ^ 3 / 12 * ∫ η in y0..y0 + d, e η)) 0 (1, 0) fun p => (alongShear e y0 (y0 + d) b (x0 + b / 2) p, 0) := by
  have hy : y0 < y0 + d := by linarith
  have hQ := int_tame_pos he hy
  have mq := along_memLp (els := els) (y0 := y0) (y1 := y0 + d) he b (x0 + b / 2)
  have hsh : ∀ p, alongShear e y0 (y0 + d) b (x0 + b / 2) p = e p.2 / (∫ η in y0..y0 + d, e η) * rectShear b b (x0 + b / 2) p.1 := fun p => rfl
  set Q := ∫ η in y0..y0 + d, e η with hQ'
  refine ⟨fun v hv => ?_, ⟨?_, by simp⟩, ?_⟩
  · obtain ⟨s0, s1, -⟩ := sq v hv
    obtain ⟨G, hG, -, hg⟩ := disp_fibres hR hb hd hv
    have i1 : IntegrableOn (fun p => alongShear e y0 (y0 + d) b (x0 + b / 2) p * dX v p) (region els) := mq.integrable_mul s1
    have i2 : IntegrableOn (fun p => e p.2 * (12 / (b * b ^ 2) / Q * (p.1 - (x0 + b / 2))) * v p) (region els) :=
      (tame_memLp he (memLp_cont (g := fun p => 12 / (b * b ^ 2) / Q * (p.1 - (x0 + b / 2))) (by fun_prop) els)).integrable_mul s0
    have e1 : ∫ p in region els, alongShear e y0 (y0 + d) b (x0 + b / 2) p * dX v p + (0 : ℝ) * dY v p
        = ∫ p in region els, alongShear e y0 (y0 + d) b (x0 + b / 2) p * dX v p := by simp
    have e2 : ∫ p in region els, e p.2 * (1 / (b ^ 3 / 12 * Q) * (p.1 - (x0 + b / 2)) + 0 * (p.2 - c)) * v p
        = ∫ p in region els, e p.2 * (12 / (b * b ^ 2) / Q * (p.1 - (x0 + b / 2))) * v p :=
      integral_congr_ae (ae_of_all _ fun p => by simp only; field_simp; ring)
    refine e1.trans (Eq.trans ?_ e2.symm)
    rw [(rect_fubini hR i1).2, (rect_fubini hR i2).2]
    refine setIntegral_congr_fun measurableSet_Ioo fun y hy' => ?_
    have := fibre_parts (A := b) hb hG (hg y (Ioo_subset_Icc_self hy'))
    calc ∫ x in Ioo x0 (x0 + b), alongShear e y0 (y0 + d) b (x0 + b / 2) (x, y) * dX v (x, y)
        = e y / Q * ∫ x in Ioo x0 (x0 + b), rectShear b b (x0 + b / 2) x * deriv (fun x => v (x, y)) x := by
          rw [← integral_const_mul]
          refine setIntegral_congr_fun measurableSet_Ioo fun x _ => ?_
          simp only [hsh, dX]
          ring
      _ = _ := by
          rw [this, ← integral_const_mul]
          exact setIntegral_congr_fun measurableSet_Ioo fun x _ => by ring
  · have i1 : IntegrableOn (alongShear e y0 (y0 + d) b (x0 + b / 2)) (region els) := by
      have hfin : IsFiniteMeasure (volume.restrict (region els)) := ⟨by
        rw [Measure.restrict_apply_univ]; exact (region_compact els).measure_lt_top⟩
      exact mq.integrable (by norm_num)
    refine (rect_fubini hR i1).2.trans ?_
    have h1 : ∀ y, ∫ x in Ioo x0 (x0 + b), alongShear e y0 (y0 + d) b (x0 + b / 2) (x, y) = e y / Q := fun y => by
      simp only [hsh]
      rw [integral_const_mul, int_rectShear hb.ne' hb, div_self hb.ne', mul_one]
    simp only [h1]
    rw [integral_div, ← integral_Ioc_eq_integral_Ioo, ← intervalIntegral.integral_of_le hy.le, ← hQ', div_self hQ.ne']
  · refine exact_compatible (w := fun p => 2 / Q * (3 / (2 * b) * ((p.1 - (x0 + b / 2)) - 4 * (p.1 - (x0 + b / 2)) ^ 3 / (3 * b ^ 2))))
      (smooth_displacement (by fun_prop) els) fun p => ?_
    have h0 : HasDerivAt (fun x : ℝ => x - (x0 + b / 2)) 1 p.1 := (hasDerivAt_id p.1).sub_const _
    have h1 := ((h0.sub (((h0.pow 3).const_mul 4).div_const (3 * b ^ 2))).const_mul (3 / (2 * b))).const_mul (2 / Q)
    have hep : e p.2 ≠ 0 := (he.pos.trans_le (he.low p.2)).ne'
    refine Prod.ext ?_ ?_
    · simp only [dX]
      refine Eq.trans ?_ (HasDerivAt.deriv h1).symm
      rw [hsh]
      unfold rectShear
      simp only [Nat.cast_ofNat, Nat.add_one_sub_one]
      field_simp
      ring
    · simp [dY]

/-- Only the moduli almost everywhere matter. -/
theorem flexure_congr {R : Set (ℝ × ℝ)} {E E' : ℝ × ℝ → ℝ} {p₀ V : ℝ × ℝ} {ν k l : ℝ} {τ : ℝ × ℝ → ℝ × ℝ}
    (hE : ∀ᵐ p ∂volume.restrict R, E p = E' p) (h : SaintVenantFlexure R E p₀ ν k l V τ) : SaintVenantFlexure R E' p₀ ν k l V τ := by
  refine ⟨fun v hv => (h.equilibrium v hv).trans (integral_congr_ae (hE.mono fun p hp => by simp only [hp])), h.resultant, fun ε hε => ?_⟩
  obtain ⟨w, w1, w2, w3⟩ := h.compatible ε hε
  refine ⟨w, w1, ⟨(memLp_congr_ae (hE.mono fun p hp => ?_)).1 w2.1, (memLp_congr_ae (hE.mono fun p hp => ?_)).1 w2.2⟩,
    le_trans (le_of_eq (integral_congr_ae (hE.mono fun p hp => ?_))) w3⟩ <;> simp only [hp]

end SP
