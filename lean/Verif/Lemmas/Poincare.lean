import Mathlib.MeasureTheory.Integral.IntervalIntegral.AbsolutelyContinuousFun
import Mathlib.MeasureTheory.Integral.Average
import Mathlib.Topology.Connected.Clopen
import Verif.Lemmas.Body

/-!
# Fields on connected bodies

The Poincaré inequality for fields on the meshes of a connected body, with a constant that depends on the body only.
-/

namespace SP

open Spec MeasureTheory Set Filter Topology

/-! ### The unit square -/

theorem ftc_sq {g h : ℝ → ℝ} {G : ℝ} (hg : ∀ x ∈ Icc (0 : ℝ) 1, ∀ y ∈ Icc (0 : ℝ) 1, |g y - g x| ≤ G * |y - x|)
    (hh : ∀ᵐ s, s ∈ Icc (0 : ℝ) 1 → HasDerivAt g (h s) s) {x y : ℝ} (hx : x ∈ Icc (0 : ℝ) 1) (hy : y ∈ Icc (0 : ℝ) 1) :
    (g y - g x) ^ 2 ≤ ∫ s in Icc (0 : ℝ) 1, h s ^ 2 := by
  have hL : LipschitzOnWith (Real.toNNReal G) g (Icc 0 1) := by
    refine LipschitzOnWith.of_dist_le_mul fun a ha b hb => ?_
    rw [Real.dist_eq, Real.dist_eq]
    exact (hg b hb a ha).trans (mul_le_mul_of_nonneg_right (le_max_left _ _) (abs_nonneg _))
  have hae : ∀ᵐ s, s ∈ Icc (0 : ℝ) 1 → deriv g s = h s := hh.mono fun s hs hm => (hs hm).deriv
  have hbd : ∀ s ∈ Ioo (0 : ℝ) 1, ‖deriv g s‖ ≤ Real.toNNReal G := fun s hs =>
    norm_deriv_le_of_lipschitzOn (Icc_mem_nhds hs.1 hs.2) hL
  have hm : Measurable (deriv g) := measurable_deriv g
  have i1 : IntegrableOn (deriv g) (Icc 0 1) := by
    rw [integrableOn_Icc_iff_integrableOn_Ioo]
    exact Measure.integrableOn_of_bounded (by simp) hm.aestronglyMeasurable ((ae_restrict_iff' measurableSet_Ioo).2 (Eventually.of_forall hbd))
  have i2 : IntegrableOn (fun s => deriv g s ^ 2) (Icc 0 1) := by
    rw [integrableOn_Icc_iff_integrableOn_Ioo]
    refine Measure.integrableOn_of_bounded (M := (Real.toNNReal G : ℝ) ^ 2) (by simp) (hm.pow_const 2).aestronglyMeasurable
      ((ae_restrict_iff' measurableSet_Ioo).2 (Eventually.of_forall fun s hs => ?_))
    rw [norm_pow]
    exact pow_le_pow_left₀ (norm_nonneg _) (hbd s hs) 2
  have e0 : ∫ s in Icc (0 : ℝ) 1, h s ^ 2 = ∫ s in Icc (0 : ℝ) 1, deriv g s ^ 2 :=
    setIntegral_congr_ae measurableSet_Icc (hae.mono fun s hs hm => by rw [hs hm])
  rw [e0]
  wlog hxy : x ≤ y generalizing x y
  · have := this hy hx (le_of_not_ge hxy)
    rwa [show (g y - g x) ^ 2 = (g x - g y) ^ 2 by ring]
  have hsub : Icc x y ⊆ Icc 0 1 := Icc_subset_Icc hx.1 hy.2
  have hac : AbsolutelyContinuousOnInterval g x y :=
    (hL.mono (by rw [uIcc_of_le hxy]; exact hsub)).absolutelyContinuousOnInterval
  have e1 : ∫ s in Icc x y, deriv g s = g y - g x := by
    rw [integral_Icc_eq_integral_Ioc, ← intervalIntegral.integral_of_le hxy]
    exact hac.integral_deriv_eq_sub
  set I := g y - g x
  have p : 0 ≤ ∫ s in Icc x y, (deriv g s - I) ^ 2 := integral_nonneg fun s => sq_nonneg _
  have e2 : ∫ s in Icc x y, (deriv g s - I) ^ 2 = (∫ s in Icc x y, deriv g s ^ 2) - 2 * I * I + I ^ 2 * (y - x) := by
    have j1 : IntegrableOn (fun s => 2 * I * deriv g s) (Icc x y) := (i1.mono_set hsub).const_mul _
    have j2 : IntegrableOn (fun s => deriv g s ^ 2) (Icc x y) := i2.mono_set hsub
    have j3 : IntegrableOn (fun s => deriv g s ^ 2 - 2 * I * deriv g s) (Icc x y) := j2.sub j1
    have : (fun s => (deriv g s - I) ^ 2) = fun s => (deriv g s ^ 2 - 2 * I * deriv g s) + I ^ 2 := by funext s; ring
    rw [this, integral_add j3 (integrable_const _), integral_sub j2 j1, integral_const_mul, e1]
    simp [hxy]
    ring
  have e3 : ∫ s in Icc x y, deriv g s ^ 2 ≤ ∫ s in Icc (0 : ℝ) 1, deriv g s ^ 2 :=
    setIntegral_mono_set i2 (Eventually.of_forall fun s => sq_nonneg _) hsub.eventuallyLE
  have := hx.1
  have := hy.2
  nlinarith [sq_nonneg I]

/-- The square of the gradient. -/
noncomputable def gradSq (F : ℝ × ℝ → ℝ) (p : ℝ × ℝ) : ℝ := fderiv ℝ F p (1, 0) ^ 2 + fderiv ℝ F p (0, 1) ^ 2

/-- A function on the unit square is nearly a constant if its gradient is small. -/
theorem square_mean {f : ℝ × ℝ → ℝ} {G : ℝ}
    (hl : ∀ a ∈ Icc (0 : ℝ) 1 ×ˢ Icc (0 : ℝ) 1, ∀ b ∈ Icc (0 : ℝ) 1 ×ˢ Icc (0 : ℝ) 1, |f b - f a| ≤ G * (|b.1 - a.1| + |b.2 - a.2|))
    (hd : ∀ᵐ p, p ∈ Icc (0 : ℝ) 1 ×ˢ Icc (0 : ℝ) 1 → DifferentiableAt ℝ f p)
    (hi : IntegrableOn (gradSq f) (Icc (0 : ℝ) 1 ×ˢ Icc (0 : ℝ) 1)) :
    ∃ m, ∫ p in Icc (0 : ℝ) 1 ×ˢ Icc (0 : ℝ) 1, (f p - m) ^ 2 ≤ 2 * ∫ p in Icc (0 : ℝ) 1 ×ˢ Icc (0 : ℝ) 1, gradSq f p := by
  set μ : Measure ℝ := volume.restrict (Icc 0 1) with hμ
  have hprob : IsProbabilityMeasure μ := ⟨by simp [hμ]⟩
  have hS : (volume : Measure (ℝ × ℝ)).restrict (Icc (0 : ℝ) 1 ×ˢ Icc (0 : ℝ) 1) = μ.prod μ := by
    rw [hμ, Measure.prod_restrict, Measure.volume_eq_prod]
  have hms : MeasurableSet (Icc (0 : ℝ) 1 ×ˢ Icc (0 : ℝ) 1) := measurableSet_Icc.prod measurableSet_Icc
  have hd' : ∀ᵐ p ∂μ.prod μ, DifferentiableAt ℝ f p := by rw [← hS]; exact (ae_restrict_iff' hms).2 hd
  have hmem : ∀ᵐ s ∂μ, s ∈ Icc (0 : ℝ) 1 := ae_restrict_mem measurableSet_Icc
  -- lines along the axes
  have d1 : ∀ᵐ t ∂μ, ∀ᵐ s ∂μ, DifferentiableAt ℝ f (s, t) :=
    Measure.ae_ae_of_ae_prod (Measure.measurePreserving_swap.quasiMeasurePreserving.ae hd')
  have d2 : ∀ᵐ s ∂μ, ∀ᵐ t ∂μ, DifferentiableAt ℝ f (s, t) := Measure.ae_ae_of_ae_prod hd'
  have l1 : ∀ t ∈ Icc (0 : ℝ) 1, (∀ᵐ s ∂μ, DifferentiableAt ℝ f (s, t)) → ∀ x ∈ Icc (0 : ℝ) 1, ∀ y ∈ Icc (0 : ℝ) 1,
      (f (y, t) - f (x, t)) ^ 2 ≤ ∫ s, fderiv ℝ f (s, t) (1, 0) ^ 2 ∂μ := by
    intro t ht hdt x hx y hy
    refine ftc_sq (g := fun s => f (s, t)) (G := G) (fun a ha b hb => ?_) ?_ hx hy
    · simpa using hl (a, t) ⟨ha, ht⟩ (b, t) ⟨hb, ht⟩
    · filter_upwards [(ae_restrict_iff' measurableSet_Icc).1 hdt] with s hs hm
      exact (hs hm).hasFDerivAt.comp_hasDerivAt s ((hasDerivAt_id s).prodMk (hasDerivAt_const s t))
  have l2 : ∀ s ∈ Icc (0 : ℝ) 1, (∀ᵐ t ∂μ, DifferentiableAt ℝ f (s, t)) → ∀ x ∈ Icc (0 : ℝ) 1, ∀ y ∈ Icc (0 : ℝ) 1,
      (f (s, y) - f (s, x)) ^ 2 ≤ ∫ t, fderiv ℝ f (s, t) (0, 1) ^ 2 ∂μ := by
    intro s hs hdt x hx y hy
    refine ftc_sq (g := fun t => f (s, t)) (G := G) (fun a ha b hb => ?_) ?_ hx hy
    · simpa using hl (s, a) ⟨hs, ha⟩ (s, b) ⟨hs, hb⟩
    · filter_upwards [(ae_restrict_iff' measurableSet_Icc).1 hdt] with t ht hm
      exact (ht hm).hasFDerivAt.comp_hasDerivAt t ((hasDerivAt_const t s).prodMk (hasDerivAt_id t))
  -- the integrals of the squares
  have hi' : Integrable (gradSq f) (μ.prod μ) := by rw [← hS]; exact hi
  have i1 : Integrable (fun p => fderiv ℝ f p (1, 0) ^ 2) (μ.prod μ) := by
    refine hi'.mono' ((measurable_fderiv_apply_const ℝ f (1, 0)).pow_const 2).aestronglyMeasurable (Eventually.of_forall fun p => ?_)
    rw [Real.norm_of_nonneg (sq_nonneg _)]
    exact le_add_of_nonneg_right (sq_nonneg _)
  have i2 : Integrable (fun p => fderiv ℝ f p (0, 1) ^ 2) (μ.prod μ) := by
    refine hi'.mono' ((measurable_fderiv_apply_const ℝ f (0, 1)).pow_const 2).aestronglyMeasurable (Eventually.of_forall fun p => ?_)
    rw [Real.norm_of_nonneg (sq_nonneg _)]
    exact le_add_of_nonneg_left (sq_nonneg _)
  obtain ⟨s0, hs0, hB⟩ := exists_notMem_null_le_integral (μ := μ) i2.integral_prod_left (ae_iff.1 (hmem.and d2))
  simp only [mem_ofPred_eq, not_not] at hs0
  rw [← integral_prod _ i2] at hB
  set B := ∫ t, fderiv ℝ f (s0, t) (0, 1) ^ 2 ∂μ with hBdef
  have h0 : (0 : ℝ) ∈ Icc (0 : ℝ) 1 := by simp
  refine ⟨f (s0, 0), ?_⟩
  rw [hS]
  have hcont : ContinuousOn f (Icc (0 : ℝ) 1 ×ˢ Icc (0 : ℝ) 1) := by
    refine (LipschitzOnWith.of_dist_le_mul (K := Real.toNNReal (2 * |G|)) fun a ha b hb => ?_).continuousOn
    rw [Real.dist_eq, Real.coe_toNNReal _ (by positivity)]
    refine (hl b hb a ha).trans ?_
    have k1 : |a.1 - b.1| ≤ dist a b := by rw [← Real.dist_eq]; exact le_max_left _ _
    have k2 : |a.2 - b.2| ≤ dist a b := by rw [← Real.dist_eq]; exact le_max_right _ _
    have := mul_le_mul_of_nonneg_right (le_abs_self G) (add_nonneg (abs_nonneg (a.1 - b.1)) (abs_nonneg (a.2 - b.2)))
    nlinarith [abs_nonneg G]
  have i3 : Integrable (fun p => (f p - f (s0, 0)) ^ 2) (μ.prod μ) := by
    rw [← hS]
    exact ((hcont.sub continuousOn_const).pow 2).integrableOn_compact (isCompact_Icc.prod isCompact_Icc)
  have iA : Integrable (fun t => ∫ s, fderiv ℝ f (s, t) (1, 0) ^ 2 ∂μ) μ := i1.integral_prod_right
  have i4 : Integrable (fun p : ℝ × ℝ => 2 * (∫ s, fderiv ℝ f (s, p.2) (1, 0) ^ 2 ∂μ) + 2 * B) (μ.prod μ) :=
    ((iA.comp_snd μ).const_mul 2).add (integrable_const _)
  have hle : ∀ᵐ p ∂μ.prod μ, (f p - f (s0, 0)) ^ 2 ≤ 2 * (∫ s, fderiv ℝ f (s, p.2) (1, 0) ^ 2 ∂μ) + 2 * B := by
    have a1 : ∀ᵐ p ∂μ.prod μ, p.2 ∈ Icc (0 : ℝ) 1 ∧ ∀ᵐ s ∂μ, DifferentiableAt ℝ f (s, p.2) :=
      Measure.quasiMeasurePreserving_snd.ae (hmem.and d1)
    have a2 : ∀ᵐ p ∂μ.prod μ, p.1 ∈ Icc (0 : ℝ) 1 := Measure.quasiMeasurePreserving_fst.ae hmem
    filter_upwards [a1, a2] with p h1 h2
    have k1 := l1 p.2 h1.1 h1.2 s0 hs0.1 p.1 h2
    have k2 := l2 s0 hs0.1 hs0.2 0 h0 p.2 h1.1
    have : (f p - f (s0, 0)) = (f (p.1, p.2) - f (s0, p.2)) + (f (s0, p.2) - f (s0, 0)) := by ring
    rw [this]
    nlinarith [sq_nonneg ((f (p.1, p.2) - f (s0, p.2)) - (f (s0, p.2) - f (s0, 0)))]
  refine (integral_mono_ae i3 i4 hle).trans ?_
  have e1 : ∫ p : ℝ × ℝ, (2 * (∫ s, fderiv ℝ f (s, p.2) (1, 0) ^ 2 ∂μ) + 2 * B) ∂μ.prod μ =
      2 * (∫ p, fderiv ℝ f p (1, 0) ^ 2 ∂μ.prod μ) + 2 * B := by
    rw [integral_add ((iA.comp_snd μ).const_mul 2) (integrable_const _), integral_const_mul,
      integral_fun_snd (fun t => ∫ s, fderiv ℝ f (s, t) (1, 0) ^ 2 ∂μ), integral_prod_symm _ i1]
    simp
  have e2 : ∫ p, gradSq f p ∂μ.prod μ = (∫ p, fderiv ℝ f p (1, 0) ^ 2 ∂μ.prod μ) + ∫ p, fderiv ℝ f p (0, 1) ^ 2 ∂μ.prod μ :=
    integral_add i1 i2
  rw [e1, e2]
  linarith

/-! ### Parallelograms -/

/-- A function on `R` as fields on meshes are: it is Lipschitz continuous along the segments in `R` and differentiable at almost all
points, with a bounded gradient. -/
structure SoftField (R : Set (ℝ × ℝ)) (F : ℝ × ℝ → ℝ) : Prop where
  lip : ∃ G, ∀ a b : ℝ × ℝ, (∀ z ∈ Icc (0 : ℝ) 1, a + z • (b - a) ∈ R) → |F b - F a| ≤ G * (|b.1 - a.1| + |b.2 - a.2|)
  diff : ∀ᵐ p, p ∈ R → DifferentiableAt ℝ F p
  grad : IntegrableOn (gradSq F) R
  meas : AEStronglyMeasurable F (volume.restrict R)
  bdd : ∃ B, ∀ p ∈ R, |F p| ≤ B

/-- There is a number that `F` is close to on both `A` and `B`, for all functions `F` on `R` with a small gradient. -/
def Tied (R A B : Set (ℝ × ℝ)) : Prop := ∃ C, 0 ≤ C ∧ ∀ F, SoftField R F →
  ∃ m, (∫ p in A, (F p - m) ^ 2) + ∫ p in B, (F p - m) ^ 2 ≤ C * ∫ p in R, gradSq F p

/-- The point with the coordinates `z` in the frame `u`, `v` at `o`. -/
def inFrame (o u v z : ℝ × ℝ) : ℝ × ℝ := (o.1 + (z.1 * u.1 + z.2 * v.1), o.2 + (z.1 * u.2 + z.2 * v.2))

theorem inFrame_measure {o u v : ℝ × ℝ} (h : u.1 * v.2 - u.2 * v.1 ≠ 0) : MeasurableEmbedding (inFrame o u v) ∧
    ∃ c > 0, Measure.map (inFrame o u v) volume = ENNReal.ofReal c • volume := by
  let L : ℝ × ℝ →ₗ[ℝ] ℝ × ℝ :=
    { toFun := fun z => (z.1 * u.1 + z.2 * v.1, z.1 * u.2 + z.2 * v.2)
      map_add' := fun a b => by ext <;> simp <;> ring
      map_smul' := fun a b => by ext <;> simp <;> ring }
  have hinj : Function.Injective L := by
    rw [← LinearMap.ker_eq_bot, LinearMap.ker_eq_bot']
    intro z hz
    have h1 : z.1 * u.1 + z.2 * v.1 = 0 := congrArg Prod.fst hz
    have h2 : z.1 * u.2 + z.2 * v.2 = 0 := congrArg Prod.snd hz
    have e1 : z.1 * (u.1 * v.2 - u.2 * v.1) = 0 := by linear_combination v.2 * h1 - v.1 * h2
    have e2 : z.2 * (u.1 * v.2 - u.2 * v.1) = 0 := by linear_combination u.1 * h2 - u.2 * h1
    exact Prod.ext ((mul_eq_zero.1 e1).resolve_right h) ((mul_eq_zero.1 e2).resolve_right h)
  have hdet : LinearMap.det L ≠ 0 := (LinearEquiv.isUnit_det' (LinearEquiv.ofInjectiveEndo L hinj)).ne_zero
  have hmap : (inFrame o u v) = (fun p => o + p) ∘ L := by
    funext z
    ext <;> simp [inFrame, L]
  have hcont : Continuous (inFrame o u v) := by unfold inFrame; fun_prop
  have hcL : Continuous L := by
    change Continuous fun z : ℝ × ℝ => (z.1 * u.1 + z.2 * v.1, z.1 * u.2 + z.2 * v.2)
    fun_prop
  refine ⟨hcont.measurableEmbedding ?_, |(LinearMap.det L)⁻¹|, abs_pos.2 (inv_ne_zero hdet), ?_⟩
  · rw [hmap]
    exact (add_right_injective o).comp hinj
  · rw [hmap, ← Measure.map_map (by fun_prop) hcL.measurable, Measure.map_linearMap_addHaar_eq_smul_addHaar _ hdet,
      Measure.map_smul, map_add_left_eq_self]

theorem inFrame_fderiv {F : ℝ × ℝ → ℝ} {o u v z : ℝ × ℝ} (h : DifferentiableAt ℝ F (inFrame o u v z)) :
    DifferentiableAt ℝ (F ∘ inFrame o u v) z ∧ gradSq (F ∘ inFrame o u v) z ≤
      (u.1 ^ 2 + u.2 ^ 2 + v.1 ^ 2 + v.2 ^ 2) * gradSq F (inFrame o u v z) := by
  have hd : DifferentiableAt ℝ (inFrame o u v) z := by unfold inFrame; fun_prop
  refine ⟨h.comp z hd, ?_⟩
  have k1 : fderiv ℝ (inFrame o u v) z (1, 0) = u := by
    have : HasDerivAt (fun s => inFrame o u v (s, z.2)) (fderiv ℝ (inFrame o u v) z (1, 0)) z.1 :=
      HasFDerivAt.comp_hasDerivAt z.1 (f := fun s => (s, z.2)) hd.hasFDerivAt ((hasDerivAt_id z.1).prodMk (hasDerivAt_const z.1 z.2))
    refine this.unique ?_
    unfold inFrame
    refine HasDerivAt.prodMk ?_ ?_
    · simpa using (((hasDerivAt_id z.1).mul_const u.1).add_const (z.2 * v.1)).const_add o.1
    · simpa using (((hasDerivAt_id z.1).mul_const u.2).add_const (z.2 * v.2)).const_add o.2
  have k2 : fderiv ℝ (inFrame o u v) z (0, 1) = v := by
    have : HasDerivAt (fun s => inFrame o u v (z.1, s)) (fderiv ℝ (inFrame o u v) z (0, 1)) z.2 :=
      HasFDerivAt.comp_hasDerivAt z.2 (f := fun s => (z.1, s)) hd.hasFDerivAt ((hasDerivAt_const z.2 z.1).prodMk (hasDerivAt_id z.2))
    refine this.unique ?_
    unfold inFrame
    refine HasDerivAt.prodMk ?_ ?_
    · simpa using (((hasDerivAt_id z.2).mul_const v.1).const_add (z.1 * u.1)).const_add o.1
    · simpa using (((hasDerivAt_id z.2).mul_const v.2).const_add (z.1 * u.2)).const_add o.2
  have lin : ∀ w : ℝ × ℝ, fderiv ℝ F (inFrame o u v z) w =
      w.1 * fderiv ℝ F (inFrame o u v z) (1, 0) + w.2 * fderiv ℝ F (inFrame o u v z) (0, 1) := by
    intro w
    have : w = w.1 • ((1, 0) : ℝ × ℝ) + w.2 • ((0, 1) : ℝ × ℝ) := by ext <;> simp
    conv_lhs => rw [this, map_add, map_smul, map_smul]
    rfl
  rw [gradSq, gradSq, fderiv_comp z h hd, ContinuousLinearMap.comp_apply, ContinuousLinearMap.comp_apply, k1, k2, lin u, lin v]
  set a := fderiv ℝ F (inFrame o u v z) (1, 0)
  set b := fderiv ℝ F (inFrame o u v z) (0, 1)
  nlinarith [sq_nonneg (u.1 * b - u.2 * a), sq_nonneg (v.1 * b - v.2 * a)]

/-- A parallelogram is tied to itself. -/
theorem tied_frame {R : Set (ℝ × ℝ)} {o u v : ℝ × ℝ} (h : u.1 * v.2 - u.2 * v.1 ≠ 0)
    (hR : inFrame o u v '' (Icc (0 : ℝ) 1 ×ˢ Icc (0 : ℝ) 1) ⊆ R) :
    Tied R (inFrame o u v '' (Icc (0 : ℝ) 1 ×ˢ Icc (0 : ℝ) 1)) (inFrame o u v '' (Icc (0 : ℝ) 1 ×ˢ Icc (0 : ℝ) 1)) := by
  obtain ⟨hem, c, hc, hmap⟩ := inFrame_measure (o := o) h
  set S := Icc (0 : ℝ) 1 ×ˢ Icc (0 : ℝ) 1 with hS
  set P := inFrame o u v '' S with hP
  have hSm : MeasurableSet S := measurableSet_Icc.prod measurableSet_Icc
  have hpre : inFrame o u v ⁻¹' P = S := hem.injective.preimage_image S
  have hint : ∀ g : ℝ × ℝ → ℝ, ∫ z in S, g (inFrame o u v z) = c * ∫ p in P, g p := by
    intro g
    have := hem.setIntegral_map (μ := volume) g P
    rw [hpre, hmap, Measure.restrict_smul, integral_smul_measure, ENNReal.toReal_ofReal hc.le] at this
    exact this.symm
  have hq : Measure.QuasiMeasurePreserving (inFrame o u v) := ⟨hem.measurable, by
    rw [hmap]; exact Measure.smul_absolutelyContinuous⟩
  set K := u.1 ^ 2 + u.2 ^ 2 + v.1 ^ 2 + v.2 ^ 2 with hK
  have hK0 : 0 ≤ K := by positivity
  refine ⟨4 * K, by positivity, fun F hF => ?_⟩
  obtain ⟨G, hG⟩ := hF.lip
  have hd : ∀ᵐ z, z ∈ S → DifferentiableAt ℝ F (inFrame o u v z) :=
    (hq.ae hF.diff).mono fun z hz hm => hz (hR ⟨z, hm, rfl⟩)
  have hgi : IntegrableOn (fun z => gradSq F (inFrame o u v z)) S := by
    have h1 : IntegrableOn (gradSq F) P := hF.grad.mono_set hR
    have h2 : IntegrableOn (gradSq F) P (Measure.map (inFrame o u v) volume) := by
      rw [hmap, IntegrableOn, Measure.restrict_smul]
      exact h1.smul_measure ENNReal.ofReal_ne_top
    have := (hem.integrableOn_map_iff).1 h2
    rwa [hpre] at this
  have hle : ∀ᵐ z, z ∈ S → gradSq (F ∘ inFrame o u v) z ≤ K * gradSq F (inFrame o u v z) :=
    hd.mono fun z hz hm => (inFrame_fderiv (hz hm)).2
  have hgm : Measurable (gradSq (F ∘ inFrame o u v)) :=
    ((measurable_fderiv_apply_const ℝ _ (1, 0)).pow_const 2).add ((measurable_fderiv_apply_const ℝ _ (0, 1)).pow_const 2)
  have hg0 : ∀ (F : ℝ × ℝ → ℝ) p, 0 ≤ gradSq F p := fun F p => add_nonneg (sq_nonneg _) (sq_nonneg _)
  have hi : IntegrableOn (gradSq (F ∘ inFrame o u v)) S := by
    refine (hgi.const_mul K).mono' hgm.aestronglyMeasurable ((ae_restrict_iff' hSm).2 (hle.mono fun z hz hm => ?_))
    rw [Real.norm_of_nonneg (hg0 _ _)]
    exact hz hm
  have hG0 : ∃ G', 0 ≤ G' ∧ ∀ a ∈ S, ∀ b ∈ S, |(F ∘ inFrame o u v) b - (F ∘ inFrame o u v) a| ≤ G' * (|b.1 - a.1| + |b.2 - a.2|) := by
    refine ⟨|G| * (|u.1| + |v.1| + |u.2| + |v.2|), by positivity, fun a ha b hb => ?_⟩
    refine (hG _ _ fun z hz => hR ⟨a + z • (b - a), ?_, ?_⟩).trans ?_
    · exact ((convex_Icc 0 1).prod (convex_Icc 0 1)).add_smul_sub_mem ha hb hz
    · ext <;> simp [inFrame] <;> ring
    · refine (mul_le_mul_of_nonneg_right (le_abs_self G) (by positivity)).trans ?_
      rw [mul_assoc]
      refine mul_le_mul_of_nonneg_left ?_ (abs_nonneg _)
      have e1 : (inFrame o u v b).1 - (inFrame o u v a).1 = (b.1 - a.1) * u.1 + (b.2 - a.2) * v.1 := by simp only [inFrame]; ring
      have e2 : (inFrame o u v b).2 - (inFrame o u v a).2 = (b.1 - a.1) * u.2 + (b.2 - a.2) * v.2 := by simp only [inFrame]; ring
      rw [e1, e2]
      have a1 := abs_add_le ((b.1 - a.1) * u.1) ((b.2 - a.2) * v.1)
      have a2 := abs_add_le ((b.1 - a.1) * u.2) ((b.2 - a.2) * v.2)
      rw [abs_mul, abs_mul] at a1 a2
      nlinarith [mul_nonneg (abs_nonneg u.1) (abs_nonneg (b.2 - a.2)), mul_nonneg (abs_nonneg u.2) (abs_nonneg (b.2 - a.2)),
        mul_nonneg (abs_nonneg v.1) (abs_nonneg (b.1 - a.1)), mul_nonneg (abs_nonneg v.2) (abs_nonneg (b.1 - a.1))]
  obtain ⟨G', -, hG'⟩ := hG0
  obtain ⟨m, hm⟩ := square_mean hG' (hd.mono fun z hz hmz => (inFrame_fderiv (hz hmz)).1) hi
  refine ⟨m, ?_⟩
  have e1 := hint fun p => (F p - m) ^ 2
  have e2 := hint (gradSq F)
  have e3 : ∫ z in S, gradSq (F ∘ inFrame o u v) z ≤ ∫ z in S, K * gradSq F (inFrame o u v z) :=
    setIntegral_mono_ae_restrict hi (hgi.const_mul K) ((ae_restrict_iff' hSm).2 hle)
  rw [integral_const_mul, e2] at e3
  change ∫ z in S, (F (inFrame o u v z) - m) ^ 2 ≤ _ at hm
  rw [e1] at hm
  have e4 : ∫ p in P, gradSq F p ≤ ∫ p in R, gradSq F p :=
    setIntegral_mono_set hF.grad (Eventually.of_forall fun p => hg0 F p) hR.eventuallyLE
  have e5 : ∫ p in P, (F p - m) ^ 2 ≤ 2 * K * ∫ p in P, gradSq F p := by
    refine le_of_mul_le_mul_left ?_ hc
    calc _ ≤ _ := hm
      _ ≤ 2 * (K * (c * ∫ p in P, gradSq F p)) := by linarith
      _ = _ := by ring
  nlinarith [mul_le_mul_of_nonneg_left e4 hK0]

end SP
