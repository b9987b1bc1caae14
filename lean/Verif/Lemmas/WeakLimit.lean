import Verif.Lemmas.StressL2
import Verif.Lemmas.StressFunction
import Verif.Spec.SaintVenant
import Mathlib.Analysis.Calculus.MeanValue
import Mathlib.MeasureTheory.Integral.DominatedConvergence

/-!
# Interpolation of smooth functions and limits of products
-/

namespace SP

open Spec MeasureTheory Set Topology Filter

variable {n : ℕ}

/-! ### Products of square integrable functions -/

section
variable {α : Type*} [MeasurableSpace α] {μ : Measure α} {f g : α → ℝ}

theorem mul_int (hf : MemLp f 2 μ) (hg : MemLp g 2 μ) : Integrable (fun a => f a * g a) μ := by
  exact hf.integrable_mul hg

/-- Cauchy's inequality. -/
theorem cs_int (hf : MemLp f 2 μ) (hg : MemLp g 2 μ) : (∫ a, f a * g a ∂μ) ^ 2 ≤ (∫ a, f a ^ 2 ∂μ) * ∫ a, g a ^ 2 ∂μ := by
  have i1 := memLp_sq_int hf
  have i2 := memLp_sq_int hg
  have i3 := mul_int hf hg
  have key : ∀ k : ℝ, 0 ≤ (∫ a, g a ^ 2 ∂μ) * (k * k) + 2 * (∫ a, f a * g a ∂μ) * k + ∫ a, f a ^ 2 ∂μ := fun k => by
    have h0 : 0 ≤ ∫ a, (f a + k * g a) ^ 2 ∂μ := integral_nonneg fun a => sq_nonneg _
    have e : ∫ a, (f a + k * g a) ^ 2 ∂μ = ∫ a, (f a ^ 2 + (2 * k * (f a * g a) + k ^ 2 * g a ^ 2)) ∂μ :=
      integral_congr_ae (ae_of_all _ fun a => by simp only; ring)
    rw [e] at h0
    have e2 : ∫ a, (f a ^ 2 + (2 * k * (f a * g a) + k ^ 2 * g a ^ 2)) ∂μ
        = (∫ a, f a ^ 2 ∂μ) + (2 * k * (∫ a, f a * g a ∂μ) + k ^ 2 * ∫ a, g a ^ 2 ∂μ) := by
      refine (integral_add i1 ((i3.const_mul _).add (i2.const_mul _))).trans ?_
      congr 1
      refine (integral_add (i3.const_mul _) (i2.const_mul _)).trans ?_
      rw [integral_const_mul, integral_const_mul]
    rw [e2] at h0
    linarith
  have h := discrim_le_zero key
  rw [discrim] at h
  nlinarith

theorem cs_sqrt (hf : MemLp f 2 μ) (hg : MemLp g 2 μ) : |∫ a, f a * g a ∂μ| ≤ √((∫ a, f a ^ 2 ∂μ) * ∫ a, g a ^ 2 ∂μ) :=
  Real.abs_le_sqrt (cs_int hf hg)

/-- Integrals of products converge if the factors converge in mean square. -/
theorem tendsto_mul_int {ι : Type*} {l : Filter ι} {F H : ι → α → ℝ} {F₀ H₀ : α → ℝ} (hF : ∀ i, MemLp (F i) 2 μ) (hH : ∀ i, MemLp (H i) 2 μ)
    (hF₀ : MemLp F₀ 2 μ) (hH₀ : MemLp H₀ 2 μ) (lF : Tendsto (fun i => ∫ a, (F i a - F₀ a) ^ 2 ∂μ) l (𝓝 0))
    (lH : Tendsto (fun i => ∫ a, (H i a - H₀ a) ^ 2 ∂μ) l (𝓝 0)) :
    Tendsto (fun i => ∫ a, F i a * H i a ∂μ) l (𝓝 (∫ a, F₀ a * H₀ a ∂μ)) := by
  rw [tendsto_iff_norm_sub_tendsto_zero]
  have lim : Tendsto (fun i => √((∫ a, (F i a - F₀ a) ^ 2 ∂μ) * ∫ a, (H i a - H₀ a) ^ 2 ∂μ)
      + (√((∫ a, (F i a - F₀ a) ^ 2 ∂μ) * ∫ a, H₀ a ^ 2 ∂μ) + √((∫ a, F₀ a ^ 2 ∂μ) * ∫ a, (H i a - H₀ a) ^ 2 ∂μ))) l
      (𝓝 (√(0 * 0) + (√(0 * ∫ a, H₀ a ^ 2 ∂μ) + √((∫ a, F₀ a ^ 2 ∂μ) * 0)))) :=
    (lF.mul lH).sqrt.add ((lF.mul_const _).sqrt.add (lH.const_mul _).sqrt)
  rw [zero_mul, zero_mul, mul_zero, Real.sqrt_zero, add_zero, add_zero] at lim
  refine squeeze_zero (fun i => norm_nonneg _) (fun i => ?_) lim
  have dF := (hF i).sub hF₀
  have dH := (hH i).sub hH₀
  have e : (∫ a, F i a * H i a ∂μ) - ∫ a, F₀ a * H₀ a ∂μ = (∫ a, (F i a - F₀ a) * (H i a - H₀ a) ∂μ)
      + ((∫ a, (F i a - F₀ a) * H₀ a ∂μ) + ∫ a, F₀ a * (H i a - H₀ a) ∂μ) := by
    have j1 : Integrable (fun a => (F i a - F₀ a) * (H i a - H₀ a)) μ := mul_int dF dH
    have j2 : Integrable (fun a => (F i a - F₀ a) * H₀ a) μ := mul_int dF hH₀
    have j3 : Integrable (fun a => F₀ a * (H i a - H₀ a)) μ := mul_int hF₀ dH
    rw [← integral_sub (mul_int (hF i) (hH i)) (mul_int hF₀ hH₀), ← integral_add j2 j3]
    refine Eq.trans ?_ (integral_add j1 (j2.add j3))
    exact integral_congr_ae (ae_of_all _ fun a => by simp only; ring)
  rw [e, Real.norm_eq_abs]
  refine (abs_add_le _ _).trans (add_le_add (cs_sqrt dF dH) ((abs_add_le _ _).trans (add_le_add (cs_sqrt dF hH₀) (cs_sqrt hF₀ dH))))

end

/-! ### Interpolation of displacements -/

theorem dX_at {v : ℝ × ℝ → ℝ} {p : ℝ × ℝ} (h : DifferentiableAt ℝ v p) : dX v p = fderiv ℝ v p (1, 0) := by
  have h1 : HasDerivAt (fun x : ℝ => (x, p.2)) ((1 : ℝ), (0 : ℝ)) p.1 := (hasDerivAt_id p.1).prodMk (hasDerivAt_const _ _)
  exact (HasFDerivAt.comp_hasDerivAt (f := fun x : ℝ => (x, p.2)) p.1 h.hasFDerivAt h1).deriv

theorem dY_at {v : ℝ × ℝ → ℝ} {p : ℝ × ℝ} (h : DifferentiableAt ℝ v p) : dY v p = fderiv ℝ v p (0, 1) := by
  have h1 : HasDerivAt (fun y : ℝ => (p.1, y)) ((0 : ℝ), (1 : ℝ)) p.2 := (hasDerivAt_const _ _).prodMk (hasDerivAt_id p.2)
  exact (HasFDerivAt.comp_hasDerivAt (f := fun y : ℝ => (p.1, y)) p.2 h.hasFDerivAt h1).deriv

/-- The quadratic interpolant of a displacement on an element: its values are close and its gradient is bounded. -/
theorem disp_bound {R : Set (ℝ × ℝ)} {v : ℝ × ℝ → ℝ} {G : ℝ} (hG : 0 ≤ G)
    (hl : ∀ a b : ℝ × ℝ, (∀ z ∈ Icc (0 : ℝ) 1, a + z • (b - a) ∈ R) → |v b - v a| ≤ G * (|b.1 - a.1| + |b.2 - a.2|)) {c : Coords}
    (hc : Proper c) (hsub : elemRegion c ⊆ R) {κ d : ℝ} (hd : d ^ 2 ≤ κ * elemDet c)
    (hdd : ∀ p ∈ elemRegion c, ∀ z ∈ elemRegion c, √((z.1 - p.1) ^ 2 + (z.2 - p.2) ^ 2) ≤ d) {w : ℝ × ℝ → ℝ}
    (hw : Interpolates c (fun k => v (c.x k, c.y k)) w) {p : ℝ × ℝ} (hp : p ∈ elemRegion c) :
    |w p - v p| ≤ 12 * G * d ∧ |dX w p| ≤ 42 * κ * G ∧ |dY w p| ≤ 42 * κ * G := by
  have lip : ∀ a ∈ elemRegion c, ∀ b ∈ elemRegion c, |v b - v a| ≤ G * (|b.1 - a.1| + |b.2 - a.2|) := fun a ha b hb =>
    hl a b fun z hz => hsub ((convex_elemRegion c).add_smul_sub_mem ha hb hz)
  refine ⟨?_, quad_grad_lipschitz hc hw.1 hG hd hdd (fun i => ?_) hp⟩
  · obtain ⟨a0, a1, a2, a3, a4, a5, rfl⟩ := polyLE2_quad hw.1
    have hq : ∀ q, quad (a0 - v p) a1 a2 a3 a4 a5 q = quad a0 a1 a2 a3 a4 a5 q - v p := fun q => by simp only [quad]; ring
    have := quad_val hc.1 (f := quad (a0 - v p) a1 a2 a3 a4 a5) (quad_mem _ _ _ _ _ _) (δ := G * (d + d)) (fun i => by
      rw [hq, hw.2 i]
      have hi := node_mem hc.1 i
      obtain ⟨c1, c2⟩ := coord_le (hdd p hp _ hi)
      exact (lip p hp _ hi).trans (mul_le_mul_of_nonneg_left (add_le_add c1 c2) hG)) hp
    rw [hq] at this
    linarith
  · rw [hw.2 i, hw.2 0]
    exact lip _ (node_mem hc.1 0) _ (node_mem hc.1 i)

/-- Where the displacement is differentiable, the gradients of the interpolants on small elements are close. -/
theorem disp_grad {v : ℝ × ℝ → ℝ} {p : ℝ × ℝ} (hv : DifferentiableAt ℝ v p) (κ : ℝ) {η : ℝ} (hη : 0 < η) :
    ∃ δ > 0, ∀ c : Coords, Proper c → ∀ d ≤ δ, d ^ 2 ≤ κ * elemDet c →
      (∀ p ∈ elemRegion c, ∀ z ∈ elemRegion c, √((z.1 - p.1) ^ 2 + (z.2 - p.2) ^ 2) ≤ d) → ∀ w,
      Interpolates c (fun k => v (c.x k, c.y k)) w → p ∈ elemRegion c → |dX w p - dX v p| ≤ η ∧ |dY w p - dY v p| ≤ η := by
  set K := 21 * |κ| + 6 with hK
  have hK0 : 0 < K := by positivity
  set η1 := η / K with hη1
  have h1 : 0 < η1 := div_pos hη hK0
  obtain ⟨δ0, hδ0, hb⟩ := Metric.eventually_nhds_iff.1 (hv.hasFDerivAt.isLittleO.def h1)
  refine ⟨δ0 / 2, by positivity, fun c hc d d1 d2 d3 w hw hpm => ?_⟩
  have hd0 : 0 ≤ d := (Real.sqrt_nonneg _).trans (d3 p hpm p hpm)
  have hnorm : ∀ q ∈ elemRegion c, ‖q - p‖ ≤ d := fun q hq => by
    obtain ⟨c1, c2⟩ := coord_le (d3 p hpm q hq)
    exact max_le c1 c2
  have hrem : ∀ q ∈ elemRegion c, |v q - v p - fderiv ℝ v p (q - p)| ≤ η1 * d := fun q hq => by
    have := hb (y := q) (by rw [dist_eq_norm]; linarith [hnorm q hq])
    exact this.trans (mul_le_mul_of_nonneg_left (hnorm q hq) h1.le)
  have hlin : ∀ q : ℝ × ℝ, fderiv ℝ v p (q - p) = dX v p * (q.1 - p.1) + dY v p * (q.2 - p.2) := fun q => by
    have : q - p = (q.1 - p.1) • ((1 : ℝ), (0 : ℝ)) + (q.2 - p.2) • ((0 : ℝ), (1 : ℝ)) := by ext <;> simp
    rw [this, map_add, map_smul, map_smul, dX_at hv, dY_at hv]
    simp only [smul_eq_mul]
    ring
  obtain ⟨hwp, hwn⟩ := hw
  obtain ⟨a0, a1, a2, a3, a4, a5, rfl⟩ := polyLE2_quad hwp
  set b0 := a0 - (v p - dX v p * p.1 - dY v p * p.2) with hb0
  have hq : ∀ q, quad b0 (a1 - dX v p) (a2 - dY v p) a3 a4 a5 q = quad a0 a1 a2 a3 a4 a5 q - v p - fderiv ℝ v p (q - p) := fun q => by
    rw [hlin]; simp only [quad, hb0]; ring
  have hnode : ∀ i, |quad b0 (a1 - dX v p) (a2 - dY v p) a3 a4 a5 (c.x i, c.y i)| ≤ η1 * d := fun i => by
    rw [hq, hwn i]
    exact hrem _ (node_mem hc.1 i)
  have hη1K : η1 * K = η := by rw [hη1]; field_simp
  have hgr : 21 * (η1 * d * d) / elemDet c ≤ η := by
    rw [div_le_iff₀ hc.2]
    have e1 : η1 * d ^ 2 ≤ η1 * (|κ| * elemDet c) := mul_le_mul_of_nonneg_left
      (d2.trans (mul_le_mul_of_nonneg_right (le_abs_self κ) hc.2.le)) h1.le
    have e2 : η1 * (21 * |κ|) * elemDet c ≤ η1 * K * elemDet c := mul_le_mul_of_nonneg_right
      (mul_le_mul_of_nonneg_left (by rw [hK]; linarith) h1.le) hc.2.le
    rw [hη1K] at e2
    nlinarith
  obtain ⟨g1, g2⟩ := quad_grad hc d3 hnode hpm
  constructor
  · rw [quad_dX]
    refine (le_of_eq (congrArg abs ?_)).trans (g1.trans hgr)
    ring
  · rw [quad_dY]
    refine (le_of_eq (congrArg abs ?_)).trans (g2.trans hgr)
    ring

/-- Bounded functions that converge almost everywhere on a set of finite measure converge in mean square. -/
theorem bounded_limit {R : Set (ℝ × ℝ)} (hR : volume R ≠ ⊤) {D : ℕ → ℝ × ℝ → ℝ} {g : ℝ × ℝ → ℝ} {C : ℝ}
    (mD : ∀ i, MemLp (D i) 2 (volume.restrict R)) (bD : ∀ᶠ i in atTop, ∀ᵐ p ∂volume.restrict R, |D i p| ≤ C)
    (lim : ∀ᵐ p ∂volume.restrict R, Tendsto (fun i => D i p) atTop (𝓝 (g p))) :
    MemLp g 2 (volume.restrict R) ∧ Tendsto (fun i => ∫ p in R, (D i p - g p) ^ 2) atTop (𝓝 0) := by
  have : IsFiniteMeasure (volume.restrict R) := ⟨by rw [Measure.restrict_apply_univ]; exact lt_top_iff_ne_top.2 hR⟩
  obtain ⟨N, hN⟩ := eventually_atTop.1 bD
  have all : ∀ᵐ p ∂volume.restrict R, ∀ i ≥ N, |D i p| ≤ C := ae_all_iff.2 fun i => by
    by_cases hi : i ≥ N
    · filter_upwards [hN i hi] with p hp _ using hp
    · exact ae_of_all _ fun p h => absurd h hi
  have mg : AEStronglyMeasurable g (volume.restrict R) := aestronglyMeasurable_of_tendsto_ae atTop (fun i => (mD i).1) lim
  have bg : ∀ᵐ p ∂volume.restrict R, |g p| ≤ C := by
    filter_upwards [all, lim] with p h1 h2
    exact le_of_tendsto h2.abs (eventually_atTop.2 ⟨N, h1⟩)
  refine ⟨MemLp.of_bound mg C bg, ?_⟩
  have key := tendsto_integral_filter_of_dominated_convergence (μ := volume.restrict R) (F := fun i p => (D i p - g p) ^ 2)
    (f := fun _ => (0 : ℝ)) (l := atTop) (fun _ => (2 * C) ^ 2)
    (Eventually.of_forall fun i => ((mD i).1.sub mg).pow 2) (eventually_atTop.2 ⟨N, fun i hi => by
      filter_upwards [all, bg] with p h1 h2
      rw [Real.norm_eq_abs, abs_pow]
      have := h1 i hi
      exact pow_le_pow_left₀ (abs_nonneg _) ((abs_sub _ _).trans (by linarith)) 2⟩) (integrable_const _) (by
      filter_upwards [lim] with p hp
      have := (hp.sub_const (g p)).pow 2
      simpa using this)
  simpa using key

/-! ### The limit of weak solutions solves the weak equation -/

section
variable {els : List (Tri6 n)} {Ω : Set (ℝ × ℝ)} {mat : ℝ × ℝ → Material}

/-- Weighted integrals of fields as integrals over the body. -/
theorem wInt_glue (h : NiceMesh Ω mat els) {f : Tri6 n → ℝ × ℝ → ℝ} (hf : ∀ t ∈ els, Continuous (f t)) {F : ℝ × ℝ → ℝ}
    (hF : SameField els f F) : wInt els f = ∫ p in region els, (mat p).elasticModulus * F p := by
  have := (glue_integral h.mesh.once (f := fun t p => t.material.elasticModulus * f t p) (F := fun p => (mat p).elasticModulus * F p)
    (fun t ht => (hf t ht).const_mul _) fun t ht => by
      filter_upwards [hF t ht, h.mesh.material t ht] with p p1 p2 hp
      rw [p1 hp, p2 hp]).2
  rw [← this, wInt]
  simp only [integral_const_mul]

/-- Pointwise small differences are small in mean square. -/
theorem same_near {m : ℕ} {els' : List (Tri6 m)} (h : NiceMesh Ω mat els) (h' : NiceMesh Ω mat els') {f : Tri6 m → ℝ × ℝ → ℝ}
    {F g : ℝ × ℝ → ℝ} (hF : SameField els' f F) {η : ℝ}
    (hf : ∀ t ∈ els', ∀ p ∈ elemRegion t.coords, |f t p - g p| ≤ η) :
    ∫ p in region els, (F p - g p) ^ 2 ≤ η ^ 2 * volume.real (region els) := by
  have hae : ∀ᵐ p, p ∈ region els → (F p - g p) ^ 2 ≤ η ^ 2 := by
    have ae : ∀ᵐ p, ∀ t ∈ els', p ∈ elemRegion t.coords → F p = f t p := (ae_ball_iff (List.finite_toSet els').countable).2 hF
    filter_upwards [ae] with p hp hpm
    rw [← h.region_eq h'] at hpm
    obtain ⟨t, ht, hpt⟩ := hpm
    rw [hp t ht hpt]
    exact sq_le_sq.2 ((hf t ht p hpt).trans (le_abs_self η))
  have hfin : volume (region els) ≠ ⊤ := (region_compact els).measure_lt_top.ne
  have h2 := integral_mono_of_nonneg (μ := volume.restrict (region els)) (f := fun p => (F p - g p) ^ 2) (g := fun _ => η ^ 2)
    (ae_of_all _ fun p => sq_nonneg _) (integrableOn_const hfin) ((ae_restrict_iff' (isClosed_region els).measurableSet).2 hae)
  refine h2.trans (le_of_eq ?_)
  rw [setIntegral_const, smul_eq_mul, mul_comm]

theorem weak_limit_seq {m : ℕ → ℕ} {M : ∀ i, List (Tri6 (m i))} (h : NiceMesh Ω mat els)
    (hM : ∀ i, NiceMesh Ω mat (M i)) {κ : ℝ} (fine : ∀ δ > 0, ∀ᶠ i in atTop, FineMesh (M i) δ κ) {b : ℝ}
    (hE : AEStronglyMeasurable (fun p => (mat p).elasticModulus) (volume.restrict (region els)))
    (hb : ∀ᵐ p ∂volume.restrict (region els), |(mat p).elasticModulus| ≤ b) {l : ℝ × ℝ → ℝ × ℝ × ℝ} (hl : Continuous l)
    {u : ∀ i, Fin (m i) → ℝ} {q : ∀ i, Tri6 (m i) → ℝ × ℝ → ℝ} (hq : ∀ i, WeakSol l (M i) (u i) (q i)) {F1 F2 : ℕ → ℝ × ℝ → ℝ} {G1 G2 : ℝ × ℝ → ℝ}
    (f1 : ∀ i, MemLp (F1 i) 2 (volume.restrict (region els))) (f2 : ∀ i, MemLp (F2 i) 2 (volume.restrict (region els)))
    (g1 : MemLp G1 2 (volume.restrict (region els))) (g2 : MemLp G2 2 (volume.restrict (region els)))
    (s1 : ∀ i, SameField (M i) (fun t => dX (q i t)) (F1 i)) (s2 : ∀ i, SameField (M i) (fun t => dY (q i t)) (F2 i))
    (l1 : Tendsto (fun i => ∫ p in region els, (F1 i p - G1 p) ^ 2) atTop (𝓝 0))
    (l2 : Tendsto (fun i => ∫ p in region els, (F2 i p - G2 p) ^ 2) atTop (𝓝 0)) {v : ℝ × ℝ → ℝ} (hv : Displacement (region els) v) :
    (MemLp v 2 (volume.restrict (region els)) ∧ MemLp (dX v) 2 (volume.restrict (region els)) ∧ MemLp (dY v) 2 (volume.restrict (region els))) ∧
    (∫ p in region els, (mat p).elasticModulus * G1 p * dX v p) + (∫ p in region els, (mat p).elasticModulus * G2 p * dY v p)
      = (∫ p in region els, (mat p).elasticModulus * (l p).1 * v p) + ((∫ p in region els, (mat p).elasticModulus * (l p).2.1 * dX v p)
        + ∫ p in region els, (mat p).elasticModulus * (l p).2.2 * dY v p) := by
  choose pos hpos using fun i => (hM i).conforming
  choose w hw using fun i => exists_feField (hM i).proper fun k => v (pos i k)
  have hwi : ∀ i, ∀ t ∈ M i, Interpolates t.coords (fun k => v (t.coords.x k, t.coords.y k)) (w i t) := fun i t ht => by
    refine ⟨(hw i t ht).1, fun k => ?_⟩
    rw [(hw i t ht).2 k]
    simp only [(hpos i).2 t ht k]
  have c0 : ∀ i, ∀ t ∈ M i, Continuous (w i t) := fun i t ht => PolyLE.continuous (hw i t ht).1
  have c1 : ∀ i, ∀ t ∈ M i, Continuous (dX (w i t)) := fun i t ht => PolyLE.continuous (dX_mem (hw i t ht).1)
  have c2 : ∀ i, ∀ t ∈ M i, Continuous (dY (w i t)) := fun i t ht => PolyLE.continuous (dY_mem (hw i t ht).1)
  choose D0 m0 e0 using fun i => glue_memLp (hM i).mesh.once (c0 i)
  choose D1 m1 e1 using fun i => glue_memLp (hM i).mesh.once (c1 i)
  choose D2 m2 e2 using fun i => glue_memLp (hM i).mesh.once (c2 i)
  have hreg : ∀ i, region (M i) = region els := fun i => h.region_eq (hM i)
  simp only [hreg] at m0 m1 m2
  set R := region els with hR
  set E := fun p => (mat p).elasticModulus with hEd
  have hfin : volume R ≠ ⊤ := (region_compact els).measure_lt_top.ne
  obtain ⟨⟨G₀, hG₀⟩, hdiff⟩ := hv
  have hlip : ∀ a b : ℝ × ℝ, (∀ z ∈ Icc (0 : ℝ) 1, a + z • (b - a) ∈ R) → |v b - v a| ≤ |G₀| * (|b.1 - a.1| + |b.2 - a.2|) := fun a b hab =>
    (hG₀ a b hab).trans (mul_le_mul_of_nonneg_right (le_abs_self _) (by positivity))
  -- the interpolants converge
  have conv : ∀ {D : ℕ → ℝ × ℝ → ℝ} {g : ℝ × ℝ → ℝ} {f : ∀ i, Tri6 (m i) → ℝ × ℝ → ℝ}, (∀ i, SameField (M i) (f i) (D i)) →
      (∀ η > 0, ∀ᶠ i in atTop, ∀ t ∈ M i, ∀ p ∈ elemRegion t.coords, |f i t p - g p| ≤ η) →
      Tendsto (fun i => ∫ p in R, (D i p - g p) ^ 2) atTop (𝓝 0) := by
    intro D g f hD hf
    rw [Metric.tendsto_nhds]
    intro ε hε
    have hV : 0 ≤ volume.real R := measureReal_nonneg
    set η := √(ε / (volume.real R + 1) / 2) with hη
    have hη0 : 0 < η := Real.sqrt_pos.2 (by positivity)
    filter_upwards [hf η hη0] with i hi
    have k := same_near h (hM i) (hD i) hi
    rw [Real.dist_eq, sub_zero, abs_of_nonneg (integral_nonneg fun p => sq_nonneg _)]
    refine k.trans_lt ?_
    rw [hη, Real.sq_sqrt (by positivity)]
    have : ε / (volume.real R + 1) / 2 * (volume.real R + 1) = ε / 2 := by field_simp
    have h5 : 0 < ε / (volume.real R + 1) / 2 := by positivity
    nlinarith
  have bnd : ∀ δ > 0, ∀ᶠ i in atTop, ∀ t ∈ M i, ∀ p ∈ elemRegion t.coords,
      |w i t p - v p| ≤ 12 * |G₀| * δ ∧ |dX (w i t) p| ≤ 42 * κ * |G₀| ∧ |dY (w i t) p| ≤ 42 * κ * |G₀| := fun δ hδ => by
    filter_upwards [fine δ hδ] with i hi t ht p hp
    obtain ⟨d, d1, d2, d3⟩ := hi t ht
    have k := disp_bound (abs_nonneg G₀) hlip ((hM i).proper t ht) (fun q hq => (hreg i).le ⟨t, ht, hq⟩) d2 d3 (hwi i t ht) hp
    exact ⟨k.1.trans (mul_le_mul_of_nonneg_left d1 (by positivity)), k.2⟩
  have near : ∀ η > 0, ∀ᶠ i in atTop, ∀ t ∈ M i, ∀ p ∈ elemRegion t.coords, |w i t p - v p| ≤ η := fun η hη => by
    filter_upwards [bnd (η / (12 * |G₀| + 1)) (by positivity)] with i hi t ht p hp
    refine (hi t ht p hp).1.trans ?_
    rw [mul_div_assoc', div_le_iff₀ (by positivity)]
    nlinarith [abs_nonneg G₀]
  have L0 := conv e0 (g := v) near
  have inEl : ∀ {D : ℕ → ℝ × ℝ → ℝ} {f : ∀ i, Tri6 (m i) → ℝ × ℝ → ℝ}, (∀ i, SameField (M i) (f i) (D i)) →
      ∀ᵐ p ∂volume.restrict R, p ∈ R ∧ ∀ i, ∃ t ∈ M i, p ∈ elemRegion t.coords ∧ D i p = f i t p := fun {D f} hD => by
    have ae : ∀ᵐ p, ∀ i, ∀ t ∈ M i, p ∈ elemRegion t.coords → D i p = f i t p :=
      ae_all_iff.2 fun i => (ae_ball_iff (List.finite_toSet (M i)).countable).2 (hD i)
    refine (ae_restrict_iff' (isClosed_region els).measurableSet).2 ?_
    filter_upwards [ae] with p hp hpm
    refine ⟨hpm, fun i => ?_⟩
    have hpi : p ∈ region (M i) := by rw [hreg i]; exact hpm
    obtain ⟨t, ht, hpt⟩ := hpi
    exact ⟨t, ht, hpt, hp i t ht hpt⟩
  have hdR : ∀ᵐ p ∂volume.restrict R, DifferentiableAt ℝ v p := (ae_restrict_iff' (isClosed_region els).measurableSet).2 hdiff
  have gr : ∀ p, DifferentiableAt ℝ v p → ∀ η > 0, ∀ᶠ i in atTop, ∀ t ∈ M i, p ∈ elemRegion t.coords →
      |dX (w i t) p - dX v p| ≤ η ∧ |dY (w i t) p - dY v p| ≤ η := fun p hp η hη => by
    obtain ⟨δ, hδ, k⟩ := disp_grad hp κ hη
    filter_upwards [fine δ hδ] with i hi t ht hpt
    obtain ⟨d, d1, d2, d3⟩ := hi t ht
    exact k _ ((hM i).proper t ht) d d1 d2 d3 _ (hwi i t ht) hpt
  obtain ⟨mv1, L1⟩ := bounded_limit hfin (g := dX v) (C := 42 * κ * |G₀|) m1 (by
      filter_upwards [bnd 1 one_pos] with i hi
      filter_upwards [inEl e1] with p hp
      obtain ⟨t, ht, hpt, e⟩ := hp.2 i
      rw [e]
      exact (hi t ht p hpt).2.1) (by
      filter_upwards [inEl e1, hdR] with p hp hd
      rw [Metric.tendsto_nhds]
      intro ε hε
      filter_upwards [gr p hd (ε / 2) (by positivity)] with i hi
      obtain ⟨t, ht, hpt, e⟩ := hp.2 i
      rw [e, Real.dist_eq]
      linarith [(hi t ht hpt).1])
  obtain ⟨mv2, L2⟩ := bounded_limit hfin (g := dY v) (C := 42 * κ * |G₀|) m2 (by
      filter_upwards [bnd 1 one_pos] with i hi
      filter_upwards [inEl e2] with p hp
      obtain ⟨t, ht, hpt, e⟩ := hp.2 i
      rw [e]
      exact (hi t ht p hpt).2.2) (by
      filter_upwards [inEl e2, hdR] with p hp hd
      rw [Metric.tendsto_nhds]
      intro ε hε
      filter_upwards [gr p hd (ε / 2) (by positivity)] with i hi
      obtain ⟨t, ht, hpt, e⟩ := hp.2 i
      rw [e, Real.dist_eq]
      linarith [(hi t ht hpt).2])
  have mv : MemLp v 2 (volume.restrict R) := by
    have : IsFiniteMeasure (volume.restrict R) := ⟨by rw [Measure.restrict_apply_univ]; exact lt_top_iff_ne_top.2 hfin⟩
    have ms : AEStronglyMeasurable v (volume.restrict R) := aestronglyMeasurable_of_tendsto_ae atTop (fun i => (m0 i).1) (by
      filter_upwards [inEl e0] with p hp
      rw [Metric.tendsto_nhds]
      intro ε hε
      filter_upwards [near (ε / 2) (by positivity)] with i hi
      obtain ⟨t, ht, hpt, e⟩ := hp.2 i
      rw [e, Real.dist_eq]
      linarith [hi t ht p hpt])
    obtain ⟨i, hi⟩ := (near 1 one_pos).exists
    have k : MemLp (fun p => D0 i p - v p) 2 (volume.restrict R) := MemLp.of_bound ((m0 i).1.sub ms) 1 (by
      filter_upwards [inEl e0] with p hp
      obtain ⟨t, ht, hpt, e⟩ := hp.2 i
      rw [e]
      exact hi t ht p hpt)
    refine (memLp_congr_ae (ae_of_all _ fun p => ?_)).1 ((m0 i).sub k)
    simp
  have z : MemLp (fun _ : ℝ × ℝ => (0 : ℝ)) 2 (volume.restrict R) := MemLp.zero
  have mE : ∀ {F : ℝ × ℝ → ℝ}, MemLp F 2 (volume.restrict R) → MemLp (fun p => E p * F p) 2 (volume.restrict R) := fun hF => by
    refine (scaled_memLp hE hb hF z 1).congr_norm (hE.mul hF.1) (ae_of_all _ fun p => ?_)
    simp [scaled, E]
  have lE : ∀ {F : ℕ → ℝ × ℝ → ℝ} {G : ℝ × ℝ → ℝ}, (∀ i, MemLp (F i) 2 (volume.restrict R)) → MemLp G 2 (volume.restrict R) →
      Tendsto (fun i => ∫ p in R, (F i p - G p) ^ 2) atTop (𝓝 0) → Tendsto (fun i => ∫ p in R, (E p * F i p - E p * G p) ^ 2) atTop (𝓝 0) := by
    intro F G hF hG hlim
    have up := hlim.const_mul (2 * b ^ 2 * 1 ^ 2)
    rw [mul_zero] at up
    refine squeeze_zero (fun i => integral_nonneg fun p => sq_nonneg _) (fun i => ?_) up
    have := scaled_near hE hb (hF i) hG z 1 1
    simpa [scaled] using this
  have const : ∀ {F : ℝ × ℝ → ℝ}, Tendsto (fun _ : ℕ => ∫ p in R, (F p - F p) ^ 2) atTop (𝓝 0) := fun {F} => by simp
  have ml1 : MemLp (fun p => (l p).1) 2 (volume.restrict R) := memLp_cont (by fun_prop) els
  have ml2 : MemLp (fun p => (l p).2.1) 2 (volume.restrict R) := memLp_cont (by fun_prop) els
  have ml3 : MemLp (fun p => (l p).2.2) 2 (volume.restrict R) := memLp_cont (by fun_prop) els
  have T1 := tendsto_mul_int (fun i => mE (f1 i)) m1 (mE g1) mv1 (lE f1 g1 l1) L1
  have T2 := tendsto_mul_int (fun i => mE (f2 i)) m2 (mE g2) mv2 (lE f2 g2 l2) L2
  have U0 := tendsto_mul_int (fun _ : ℕ => mE ml1) m0 (mE ml1) mv const L0
  have U1 := tendsto_mul_int (fun _ : ℕ => mE ml2) m1 (mE ml2) mv1 const L1
  have U2 := tendsto_mul_int (fun _ : ℕ => mE ml3) m2 (mE ml3) mv2 const L2
  refine ⟨⟨mv, mv1, mv2⟩, ?_⟩
  refine tendsto_nhds_unique (T1.add T2) ((U0.add (U1.add U2)).congr fun i => ?_)
  have k1 : ∀ t ∈ M i, Continuous (dX (q i t)) := fun t ht => PolyLE.continuous (dX_mem ((hq i).field t ht).1)
  have k2 : ∀ t ∈ M i, Continuous (dY (q i t)) := fun t ht => PolyLE.continuous (dY_mem ((hq i).field t ht).1)
  have hweak := (hq i).weak _ _ (hw i)
  rw [dirichlet, loadOn, wInt_glue (hM i) (F := fun p => F1 i p * D1 i p + F2 i p * D2 i p), wInt_glue (hM i)
    (F := fun p => (l p).1 * D0 i p + ((l p).2.1 * D1 i p + (l p).2.2 * D2 i p)), hreg i] at hweak
  · have j1 := mul_int (mE (f1 i)) (m1 i)
    have j2 := mul_int (mE (f2 i)) (m2 i)
    have i0 := mul_int (mE ml1) (m0 i)
    have i1 := mul_int (mE ml2) (m1 i)
    have i2 := mul_int (mE ml3) (m2 i)
    rw [← integral_add j1 j2, ← integral_add i1 i2]
    refine (integral_add i0 (i1.add i2)).symm.trans (Eq.trans ?_ (hweak.symm.trans ?_))
    · exact integral_congr_ae (ae_of_all _ fun p => by simp only [E, Pi.add_apply]; ring)
    · exact integral_congr_ae (ae_of_all _ fun p => by simp only [E]; ring)
  · intro t ht
    have := c0 i t ht
    have := c1 i t ht
    have := c2 i t ht
    unfold alongField loadAt
    fun_prop
  · intro t ht
    filter_upwards [e0 i t ht, e1 i t ht, e2 i t ht] with p p0 p1 p2 hp
    rw [p0 hp, p1 hp, p2 hp]
    rfl
  · intro t ht
    have := c1 i t ht
    have := c2 i t ht
    have := k1 t ht
    have := k2 t ht
    fun_prop
  · intro t ht
    filter_upwards [s1 i t ht, s2 i t ht, e1 i t ht, e2 i t ht] with p p0 p1 p2 p3 hp
    rw [p0 hp, p1 hp, p2 hp, p3 hp]
    ring

/-- Displacements and their gradients are square integrable over a meshed body with arbitrarily fine meshes, and gradients of weak solutions
on ever finer meshes converge to a solution of the weak equation, with all displacements as test functions. -/
theorem weak_limit {ι : Type*} {L : Filter ι} [L.NeBot] [L.IsCountablyGenerated] {m : ι → ℕ} {M : ∀ i, List (Tri6 (m i))} (h : NiceMesh Ω mat els)
    (hM : ∀ i, NiceMesh Ω mat (M i)) {κ : ℝ} (fine : ∀ δ > 0, ∀ᶠ i in L, FineMesh (M i) δ κ) {b : ℝ}
    (hE : AEStronglyMeasurable (fun p => (mat p).elasticModulus) (volume.restrict (region els)))
    (hb : ∀ᵐ p ∂volume.restrict (region els), |(mat p).elasticModulus| ≤ b) {l : ℝ × ℝ → ℝ × ℝ × ℝ} (hl : Continuous l)
    {u : ∀ i, Fin (m i) → ℝ} {q : ∀ i, Tri6 (m i) → ℝ × ℝ → ℝ} (hq : ∀ i, WeakSol l (M i) (u i) (q i)) {F1 F2 : ι → ℝ × ℝ → ℝ} {G1 G2 : ℝ × ℝ → ℝ}
    (f1 : ∀ i, MemLp (F1 i) 2 (volume.restrict (region els))) (f2 : ∀ i, MemLp (F2 i) 2 (volume.restrict (region els)))
    (g1 : MemLp G1 2 (volume.restrict (region els))) (g2 : MemLp G2 2 (volume.restrict (region els)))
    (s1 : ∀ i, SameField (M i) (fun t => dX (q i t)) (F1 i)) (s2 : ∀ i, SameField (M i) (fun t => dY (q i t)) (F2 i))
    (l1 : Tendsto (fun i => ∫ p in region els, (F1 i p - G1 p) ^ 2) L (𝓝 0))
    (l2 : Tendsto (fun i => ∫ p in region els, (F2 i p - G2 p) ^ 2) L (𝓝 0)) {v : ℝ × ℝ → ℝ} (hv : Displacement (region els) v) :
    (MemLp v 2 (volume.restrict (region els)) ∧ MemLp (dX v) 2 (volume.restrict (region els)) ∧ MemLp (dY v) 2 (volume.restrict (region els))) ∧
    (∫ p in region els, (mat p).elasticModulus * G1 p * dX v p) + (∫ p in region els, (mat p).elasticModulus * G2 p * dY v p)
      = (∫ p in region els, (mat p).elasticModulus * (l p).1 * v p) + ((∫ p in region els, (mat p).elasticModulus * (l p).2.1 * dX v p)
        + ∫ p in region els, (mat p).elasticModulus * (l p).2.2 * dY v p) := by
  obtain ⟨x, hx⟩ := exists_seq_tendsto L
  exact weak_limit_seq h (fun i => hM (x i)) (fun δ hδ => hx.eventually (fine δ hδ)) hE hb hl (fun i => hq (x i)) (fun i => f1 (x i))
    (fun i => f2 (x i)) g1 g2 (fun i => s1 (x i)) (fun i => s2 (x i)) (l1.comp hx) (l2.comp hx) hv

/-! ### The limits of the gradients are gradients of a displacement -/

theorem soft_grad {q : Tri6 n → ℝ × ℝ → ℝ} {F : ℝ × ℝ → ℝ} (hF : ∀ t ∈ els, ∀ p ∈ elemRegion t.coords, F p = q t p) :
    SameField els (fun t => dX (q t)) (dX F) ∧ SameField els (fun t => dY (q t)) (dY F) := by
  have hin : ∀ t : Tri6 n, ∀ᵐ p, p ∈ elemRegion t.coords → p ∈ interior (elemRegion t.coords) := fun t => by
    have h0 := (convex_elemRegion t.coords).addHaar_frontier volume
    rw [measure_eq_zero_iff_ae_notMem] at h0
    filter_upwards [h0] with p hp hpm
    by_contra hcon
    exact hp (by rw [(isCompact_elemRegion t.coords).isClosed.frontier_eq]; exact ⟨hpm, hcon⟩)
  have hloc : ∀ t ∈ els, ∀ p ∈ interior (elemRegion t.coords), F =ᶠ[𝓝 p] q t := fun t ht p hp =>
    Filter.eventuallyEq_of_mem (isOpen_interior.mem_nhds hp) fun z hz => hF t ht z (interior_subset hz)
  constructor
  · intro t ht
    filter_upwards [hin t] with p hp hpm
    have hc : Tendsto (fun x : ℝ => (x, p.2)) (𝓝 p.1) (𝓝 p) := (by fun_prop : Continuous fun x : ℝ => (x, p.2)).tendsto' _ _ rfl
    exact ((hloc t ht p (hp hpm)).comp_tendsto hc).deriv_eq
  · intro t ht
    filter_upwards [hin t] with p hp hpm
    have hc : Tendsto (fun y : ℝ => (p.1, y)) (𝓝 p.2) (𝓝 p) := (by fun_prop : Continuous fun y : ℝ => (p.1, y)).tendsto' _ _ rfl
    exact ((hloc t ht p (hp hpm)).comp_tendsto hc).deriv_eq

theorem same_ae {m : ℕ} {els' : List (Tri6 m)} (h : NiceMesh Ω mat els) (h' : NiceMesh Ω mat els') {f : Tri6 m → ℝ × ℝ → ℝ} {F G : ℝ × ℝ → ℝ}
    (hF : SameField els' f F) (hG : SameField els' f G) : ∀ᵐ p ∂volume.restrict (region els), F p = G p := by
  refine (ae_restrict_iff' (isClosed_region els).measurableSet).2 ?_
  have a1 : ∀ᵐ p, ∀ t ∈ els', p ∈ elemRegion t.coords → F p = f t p := (ae_ball_iff (List.finite_toSet els').countable).2 hF
  have a2 : ∀ᵐ p, ∀ t ∈ els', p ∈ elemRegion t.coords → G p = f t p := (ae_ball_iff (List.finite_toSet els').countable).2 hG
  filter_upwards [a1, a2] with p p1 p2 hp
  rw [← h.region_eq h'] at hp
  obtain ⟨t, ht, hpt⟩ := hp
  rw [p1 t ht hpt, p2 t ht hpt]

theorem grad_compatible {ι : Type*} {L : Filter ι} [L.NeBot] {m : ι → ℕ} {M : ∀ i, List (Tri6 (m i))} (h : NiceMesh Ω mat els)
    (hM : ∀ i, NiceMesh Ω mat (M i)) {u : ∀ i, Fin (m i) → ℝ} {q : ∀ i, Tri6 (m i) → ℝ × ℝ → ℝ} (hq : ∀ i, FEField (M i) (u i) (q i))
    {F1 F2 : ι → ℝ × ℝ → ℝ} {G1 G2 : ℝ × ℝ → ℝ}
    (f1 : ∀ i, MemLp (F1 i) 2 (volume.restrict (region els))) (f2 : ∀ i, MemLp (F2 i) 2 (volume.restrict (region els)))
    (g1 : MemLp G1 2 (volume.restrict (region els))) (g2 : MemLp G2 2 (volume.restrict (region els)))
    (s1 : ∀ i, SameField (M i) (fun t => dX (q i t)) (F1 i)) (s2 : ∀ i, SameField (M i) (fun t => dY (q i t)) (F2 i))
    (l1 : Tendsto (fun i => ∫ p in region els, (F1 i p - G1 p) ^ 2) L (𝓝 0))
    (l2 : Tendsto (fun i => ∫ p in region els, (F2 i p - G2 p) ^ 2) L (𝓝 0)) (k : ℝ) {g : ℝ × ℝ → ℝ × ℝ}
    (hg : ∀ᵐ p ∂volume.restrict (region els), g p = (k * G1 p, k * G2 p)) : Compatible (region els) g := by
  intro ε hε
  have lim : Tendsto (fun i => k ^ 2 * (∫ p in region els, (F1 i p - G1 p) ^ 2) + k ^ 2 * ∫ p in region els, (F2 i p - G2 p) ^ 2) L
      (𝓝 (k ^ 2 * 0 + k ^ 2 * 0)) := (l1.const_mul _).add (l2.const_mul _)
  rw [mul_zero, add_zero] at lim
  obtain ⟨i, hi⟩ := (lim.eventually_lt_const hε).exists
  obtain ⟨F, soft, hF, -⟩ := field_soft (hM i) (hq i)
  obtain ⟨d1, d2⟩ := soft_grad hF
  have dx : ∀ p, dX (fun z => k * F z) p = k * dX F p := fun p => by simp [dX]
  have dy : ∀ p, dY (fun z => k * F z) p = k * dY F p := fun p => by simp [dY]
  have e1 : ∀ᵐ p ∂volume.restrict (region els), k * (F1 i p - G1 p) = dX (fun z => k * F z) p - (g p).1 := by
    filter_upwards [hg, same_ae h (hM i) (s1 i) d1] with p p1 p2
    rw [dx, p1, p2]; ring
  have e2 : ∀ᵐ p ∂volume.restrict (region els), k * (F2 i p - G2 p) = dY (fun z => k * F z) p - (g p).2 := by
    filter_upwards [hg, same_ae h (hM i) (s2 i) d2] with p p1 p2
    rw [dy, p1, p2]; ring
  have m1 : MemLp (fun p => k * (F1 i p - G1 p)) 2 (volume.restrict (region els)) := ((f1 i).sub g1).const_mul k
  have m2 : MemLp (fun p => k * (F2 i p - G2 p)) 2 (volume.restrict (region els)) := ((f2 i).sub g2).const_mul k
  refine ⟨fun z => k * F z, ⟨?_, ?_⟩, ⟨(memLp_congr_ae e1).1 m1, (memLp_congr_ae e2).1 m2⟩, ?_⟩
  · obtain ⟨G, hG⟩ := soft.lip
    refine ⟨|k| * G, fun a b hab => ?_⟩
    rw [h.region_eq (hM i)] at hG
    rw [← mul_sub, abs_mul, mul_assoc]
    exact mul_le_mul_of_nonneg_left (hG a b hab) (abs_nonneg _)
  · have := soft.diff
    rw [h.region_eq (hM i)] at this
    filter_upwards [this] with p hp hpm
    exact (hp hpm).const_mul k
  · refine (le_of_eq ?_).trans hi.le
    have : sizeSq (region els) (fun p => (dX (fun z => k * F z) p, dY (fun z => k * F z) p) - g p)
        = ∫ p in region els, (k ^ 2 * (F1 i p - G1 p) ^ 2 + k ^ 2 * (F2 i p - G2 p) ^ 2) := by
      refine integral_congr_ae ?_
      filter_upwards [e1, e2] with p p1 p2
      simp only [Prod.fst_sub, Prod.snd_sub]
      rw [← p1, ← p2]
      ring
    rw [this]
    refine (integral_add ((sq_int_sub (f1 i) g1).const_mul _) ((sq_int_sub (f2 i) g2).const_mul _)).trans ?_
    rw [integral_const_mul, integral_const_mul]

/-! ### Limits of weighted integrals of the gradients -/

theorem moment_limit {ι : Type*} {L : Filter ι} {m : ι → ℕ} {M : ∀ i, List (Tri6 (m i))} (h : NiceMesh Ω mat els)
    (hM : ∀ i, NiceMesh Ω mat (M i)) {b : ℝ}
    (hE : AEStronglyMeasurable (fun p => (mat p).elasticModulus) (volume.restrict (region els)))
    (hb : ∀ᵐ p ∂volume.restrict (region els), |(mat p).elasticModulus| ≤ b) {f : ∀ i, Tri6 (m i) → ℝ × ℝ → ℝ}
    (hf : ∀ i, ∀ t ∈ M i, Continuous (f i t)) {F : ι → ℝ × ℝ → ℝ} {G : ℝ × ℝ → ℝ}
    (mF : ∀ i, MemLp (F i) 2 (volume.restrict (region els))) (mG : MemLp G 2 (volume.restrict (region els)))
    (sF : ∀ i, SameField (M i) (f i) (F i)) (lF : Tendsto (fun i => ∫ p in region els, (F i p - G p) ^ 2) L (𝓝 0))
    {g : ℝ × ℝ → ℝ} (hg : Continuous g) :
    Tendsto (fun i => wInt (M i) fun t p => g p * f i t p) L (𝓝 (∫ p in region els, (mat p).elasticModulus * g p * G p)) := by
  have z : MemLp (fun _ : ℝ × ℝ => (0 : ℝ)) 2 (volume.restrict (region els)) := MemLp.zero
  have mg : MemLp g 2 (volume.restrict (region els)) := memLp_cont hg els
  have mE : MemLp (fun p => (mat p).elasticModulus * g p) 2 (volume.restrict (region els)) := by
    refine (scaled_memLp hE hb mg z 1).congr_norm (hE.mul mg.1) (ae_of_all _ fun p => ?_)
    simp [scaled]
  have T := tendsto_mul_int (fun _ : ι => mE) mF mE mG (by simpa using tendsto_const_nhds) lF
  refine T.congr fun i => ?_
  rw [wInt_glue (hM i) (f := fun t p => g p * f i t p) (F := fun p => g p * F i p) (fun t ht => hg.mul (hf i t ht)) fun t ht => by
    filter_upwards [sF i t ht] with p p1 hp
    rw [p1 hp], h.region_eq (hM i)]
  exact integral_congr_ae (ae_of_all _ fun p => by simp only; ring)

/-! ### Saint-Venant's theory from the limits -/

section
variable {E G1 G2 ρ1 ρ2 : ℝ × ℝ → ℝ} {b : ℝ}

theorem weighted_int (hE : AEStronglyMeasurable E (volume.restrict (region els))) (hb : ∀ᵐ p ∂volume.restrict (region els), |E p| ≤ b)
    {f g : ℝ × ℝ → ℝ} (hf : MemLp f 2 (volume.restrict (region els))) (hg : MemLp g 2 (volume.restrict (region els))) :
    Integrable (fun p => E p * f p * g p) (volume.restrict (region els)) := by
  refine mul_int (f := fun p => E p * f p) ?_ hg
  refine (scaled_memLp hE hb hf MemLp.zero 1).congr_norm (hE.mul hf.1) (ae_of_all _ fun p => ?_)
  simp [scaled]

/-- The work of the limits of the stresses. -/
theorem stress_work (hE : AEStronglyMeasurable E (volume.restrict (region els))) (hb : ∀ᵐ p ∂volume.restrict (region els), |E p| ≤ b)
    (hG1 : MemLp G1 2 (volume.restrict (region els))) (hG2 : MemLp G2 2 (volume.restrict (region els)))
    (hρ1 : MemLp ρ1 2 (volume.restrict (region els))) (hρ2 : MemLp ρ2 2 (volume.restrict (region els))) (k : ℝ) {g1 g2 : ℝ × ℝ → ℝ}
    (m1 : MemLp g1 2 (volume.restrict (region els))) (m2 : MemLp g2 2 (volume.restrict (region els))) :
    ∫ p in region els, scaled E k G1 ρ1 p * g1 p + scaled E k G2 ρ2 p * g2 p
      = k * (((∫ p in region els, E p * G1 p * g1 p) + ∫ p in region els, E p * G2 p * g2 p)
        + ((∫ p in region els, E p * ρ1 p * g1 p) + ∫ p in region els, E p * ρ2 p * g2 p)) := by
  have i1 := weighted_int hE hb hG1 m1
  have i2 := weighted_int hE hb hG2 m2
  have i3 := weighted_int hE hb hρ1 m1
  have i4 := weighted_int hE hb hρ2 m2
  rw [← integral_add i1 i2, ← integral_add i3 i4]
  have : ∫ p in region els, ((E p * G1 p * g1 p + E p * G2 p * g2 p) + (E p * ρ1 p * g1 p + E p * ρ2 p * g2 p))
      = (∫ p in region els, (E p * G1 p * g1 p + E p * G2 p * g2 p)) + ∫ p in region els, (E p * ρ1 p * g1 p + E p * ρ2 p * g2 p) :=
    integral_add (i1.add i2) (i3.add i4)
  rw [← this, ← integral_const_mul]
  exact integral_congr_ae (ae_of_all _ fun p => by simp only [scaled]; ring)

theorem torsion_saint_venant (hE : AEStronglyMeasurable E (volume.restrict (region els)))
    (hb : ∀ᵐ p ∂volume.restrict (region els), |E p| ≤ b) (hpos : ∀ᵐ p ∂volume.restrict (region els), 0 < E p)
    (hG1 : MemLp G1 2 (volume.restrict (region els))) (hG2 : MemLp G2 2 (volume.restrict (region els)))
    (sq : ∀ v, Displacement (region els) v → MemLp (dX v) 2 (volume.restrict (region els)) ∧ MemLp (dY v) 2 (volume.restrict (region els)))
    (weak : ∀ v, Displacement (region els) v → (∫ p in region els, E p * G1 p * dX v p) + (∫ p in region els, E p * G2 p * dY v p)
      = (∫ p in region els, E p * 0 * v p) + ((∫ p in region els, E p * p.2 * dX v p) + ∫ p in region els, E p * -p.1 * dY v p))
    {J : ℝ} (hJ : J ≠ 0) (mom : (∫ p in region els, E p * p.2 * p.2) + (∫ p in region els, E p * p.1 * p.1)
      - (∫ p in region els, E p * p.2 * G1 p) + (∫ p in region els, E p * p.1 * G2 p) = J)
    (comp : ∀ (k : ℝ) (g : ℝ × ℝ → ℝ × ℝ), (∀ᵐ p ∂volume.restrict (region els), g p = (k * G1 p, k * G2 p)) → Compatible (region els) g) :
    SaintVenantTorsion (region els) E 0 (1 / J) fun p => (scaled E (1 / J) G1 (fun p => -p.2) p, scaled E (1 / J) G2 (fun p => p.1) p) := by
  have r1 : MemLp (fun p : ℝ × ℝ => -p.2) 2 (volume.restrict (region els)) := memLp_cont (by fun_prop) els
  have r2 : MemLp (fun p : ℝ × ℝ => p.1) 2 (volume.restrict (region els)) := memLp_cont (by fun_prop) els
  refine ⟨fun v hv => ?_, ?_, comp (1 / J) _ ?_⟩
  · refine (stress_work hE hb hG1 hG2 r1 r2 (1 / J) (sq v hv).1 (sq v hv).2).trans ?_
    rw [weak v hv]
    have e1 : ∫ p in region els, E p * -p.2 * dX v p = -∫ p in region els, E p * p.2 * dX v p := by
      rw [← integral_neg]; exact integral_congr_ae (ae_of_all _ fun p => by simp only; ring)
    have e2 : ∫ p in region els, E p * -p.1 * dY v p = -∫ p in region els, E p * p.1 * dY v p := by
      rw [← integral_neg]; exact integral_congr_ae (ae_of_all _ fun p => by simp only; ring)
    rw [e1, e2]
    simp only [mul_zero, zero_mul, integral_zero]
    ring
  · have e0 := stress_work hE hb hG1 hG2 r1 r2 (1 / J) (g1 := fun p => -p.2) (g2 := fun p => p.1) r1 r2
    have e1 : ∫ p in region els, (p.1 - (0 : ℝ × ℝ).1) * scaled E (1 / J) G2 (fun p => p.1) p
        - (p.2 - (0 : ℝ × ℝ).2) * scaled E (1 / J) G1 (fun p => -p.2) p
        = ∫ p in region els, scaled E (1 / J) G1 (fun p => -p.2) p * -p.2 + scaled E (1 / J) G2 (fun p => p.1) p * p.1 :=
      integral_congr_ae (ae_of_all _ fun p => by simp only [Prod.fst_zero, Prod.snd_zero]; ring)
    refine e1.trans (e0.trans ?_)
    have e2 : ∫ p in region els, E p * G1 p * -p.2 = -∫ p in region els, E p * p.2 * G1 p := by
      rw [← integral_neg]; exact integral_congr_ae (ae_of_all _ fun p => by simp only; ring)
    have e3 : ∫ p in region els, E p * G2 p * p.1 = ∫ p in region els, E p * p.1 * G2 p :=
      integral_congr_ae (ae_of_all _ fun p => by simp only; ring)
    have e4 : ∫ p in region els, E p * -p.2 * -p.2 = ∫ p in region els, E p * p.2 * p.2 :=
      integral_congr_ae (ae_of_all _ fun p => by simp only; ring)
    rw [e2, e3, e4, one_div, inv_mul_eq_div, div_eq_one_iff_eq hJ, ← mom]
    ring
  · filter_upwards [hpos] with p hp
    simp only [scaled, Prod.fst_zero, Prod.snd_zero, Prod.mk.injEq]
    constructor <;> field_simp <;> ring

theorem flexure_saint_venant (hE : AEStronglyMeasurable E (volume.restrict (region els)))
    (hb : ∀ᵐ p ∂volume.restrict (region els), |E p| ≤ b) (hpos : ∀ᵐ p ∂volume.restrict (region els), 0 < E p)
    (hG1 : MemLp G1 2 (volume.restrict (region els))) (hG2 : MemLp G2 2 (volume.restrict (region els)))
    {ν α β D ixx iyy ixy : ℝ} (hν : 1 + ν ≠ 0) (hD : D ≠ 0) {l : ℝ × ℝ → ℝ × ℝ × ℝ} (hlc : Continuous l)
    (hl : ∀ p, l p = (2 * (1 + ν) * D * (α * p.1 + β * p.2), ν / 2 * D * (α * (p.1 ^ 2 - p.2 ^ 2) + 2 * β * (p.1 * p.2)),
      ν / 2 * D * (2 * α * (p.1 * p.2) - β * (p.1 ^ 2 - p.2 ^ 2))))
    (sq : ∀ v, Displacement (region els) v → MemLp (dX v) 2 (volume.restrict (region els)) ∧ MemLp (dY v) 2 (volume.restrict (region els)))
    (weak : ∀ v, Displacement (region els) v → (∫ p in region els, E p * G1 p * dX v p) + (∫ p in region els, E p * G2 p * dY v p)
      = (∫ p in region els, E p * (l p).1 * v p) + ((∫ p in region els, E p * (l p).2.1 * dX v p) + ∫ p in region els, E p * (l p).2.2 * dY v p))
    (mxx : ∫ p in region els, E p * p.2 * p.2 = ixx) (myy : ∫ p in region els, E p * p.1 * p.1 = iyy)
    (mxy : ∫ p in region els, E p * p.1 * p.2 = ixy)
    (comp : ∀ (k : ℝ) (g : ℝ × ℝ → ℝ × ℝ), (∀ᵐ p ∂volume.restrict (region els), g p = (k * G1 p, k * G2 p)) → Compatible (region els) g) :
    SaintVenantFlexure (region els) E 0 ν α β (α * iyy + β * ixy, α * ixy + β * ixx) fun p =>
      (scaled E (1 / (2 * (1 + ν) * D)) G1 (fun p => -(l p).2.1) p, scaled E (1 / (2 * (1 + ν) * D)) G2 (fun p => -(l p).2.2) p) := by
  have r1 : MemLp (fun p : ℝ × ℝ => -(l p).2.1) 2 (volume.restrict (region els)) := memLp_cont (by fun_prop) els
  have r2 : MemLp (fun p : ℝ × ℝ => -(l p).2.2) 2 (volume.restrict (region els)) := memLp_cont (by fun_prop) els
  have hk : 2 * (1 + ν) * D ≠ 0 := mul_ne_zero (mul_ne_zero two_ne_zero hν) hD
  have eq : ∀ v, Displacement (region els) v →
      ∫ p in region els, scaled E (1 / (2 * (1 + ν) * D)) G1 (fun p => -(l p).2.1) p * dX v p
        + scaled E (1 / (2 * (1 + ν) * D)) G2 (fun p => -(l p).2.2) p * dY v p
      = ∫ p in region els, E p * (α * p.1 + β * p.2) * v p := by
    intro v hv
    rw [stress_work hE hb hG1 hG2 r1 r2 (1 / (2 * (1 + ν) * D)) (sq v hv).1 (sq v hv).2, weak v hv]
    have e1 : ∫ p in region els, E p * -(l p).2.1 * dX v p = -∫ p in region els, E p * (l p).2.1 * dX v p := by
      rw [← integral_neg]; exact integral_congr_ae (ae_of_all _ fun p => by simp only; ring)
    have e2 : ∫ p in region els, E p * -(l p).2.2 * dY v p = -∫ p in region els, E p * (l p).2.2 * dY v p := by
      rw [← integral_neg]; exact integral_congr_ae (ae_of_all _ fun p => by simp only; ring)
    rw [e1, e2]
    have e3 : ∫ p in region els, E p * (l p).1 * v p = 2 * (1 + ν) * D * ∫ p in region els, E p * (α * p.1 + β * p.2) * v p := by
      rw [← integral_const_mul]
      exact integral_congr_ae (ae_of_all _ fun p => by simp only [hl p]; ring)
    rw [e3]
    field_simp
    ring
  have m1 : MemLp (fun p : ℝ × ℝ => p.1) 2 (volume.restrict (region els)) := memLp_cont (by fun_prop) els
  have m2 : MemLp (fun p : ℝ × ℝ => p.2) 2 (volume.restrict (region els)) := memLp_cont (by fun_prop) els
  refine ⟨fun v hv => ?_, ⟨?_, ?_⟩, comp (1 / D) _ ?_⟩
  · simpa using eq v hv
  · have h := eq Prod.fst ⟨⟨1, fun a b _ => by simp⟩, ae_of_all _ fun p _ => differentiableAt_fst⟩
    have d1 : dX Prod.fst = fun _ => 1 := by funext p; simp [dX]
    have d2 : dY Prod.fst = fun _ => 0 := by funext p; simp [dY]
    simp only [d1, d2, mul_one, mul_zero, add_zero] at h
    refine h.trans ?_
    have i1 := weighted_int hE hb m1 m1
    have i2 := weighted_int hE hb m1 m2
    change _ = α * iyy + β * ixy
    rw [← myy, ← mxy, ← integral_const_mul, ← integral_const_mul]
    refine Eq.trans ?_ (integral_add (i1.const_mul _) (i2.const_mul _))
    exact integral_congr_ae (ae_of_all _ fun p => by simp only; ring)
  · have h := eq Prod.snd ⟨⟨1, fun a b _ => by simp⟩, ae_of_all _ fun p _ => differentiableAt_snd⟩
    have d1 : dX Prod.snd = fun _ => 0 := by funext p; simp [dX]
    have d2 : dY Prod.snd = fun _ => 1 := by funext p; simp [dY]
    simp only [d1, d2, mul_one, mul_zero, zero_add] at h
    refine h.trans ?_
    have i1 := weighted_int hE hb m2 m2
    have i2 := weighted_int hE hb m1 m2
    change _ = α * ixy + β * ixx
    rw [← mxx, ← mxy, ← integral_const_mul, ← integral_const_mul]
    refine Eq.trans ?_ (integral_add (i2.const_mul _) (i1.const_mul _))
    exact integral_congr_ae (ae_of_all _ fun p => by simp only; ring)
  · filter_upwards [hpos] with p hp
    simp only [scaled, hl p, Prod.fst_zero, Prod.snd_zero, Prod.mk.injEq]
    constructor <;> field_simp <;> ring

end

end

end SP
