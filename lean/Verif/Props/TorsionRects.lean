import Verif.Props.TorsionShapes

/-!
# C87: sections that contain rectangles
-/

namespace SP

open Spec MeasureTheory Set

/-- The open rectangle with centre `(cx, cy)` and half sides `a` and `b`. -/
def boxAt (cx cy a b : ℝ) : Set (ℝ × ℝ) := Ioo (cx - a) (cx + a) ×ˢ Ioo (cy - b) (cy + b)

theorem mem_boxAt {cx cy a b : ℝ} {p : ℝ × ℝ} (ha : 0 < a) (hb : 0 < b) :
    p ∈ boxAt cx cy a b ↔ 0 < a ^ 2 - (p.1 - cx) ^ 2 ∧ 0 < b ^ 2 - (p.2 - cy) ^ 2 := by
  simp only [boxAt, mem_prod, mem_Ioo, sub_pos, sq_lt_sq, abs_of_pos ha, abs_of_pos hb, abs_lt]
  constructor
  · rintro ⟨⟨h1, h2⟩, h3, h4⟩
    exact ⟨⟨by linarith, by linarith⟩, by linarith, by linarith⟩
  · rintro ⟨⟨h1, h2⟩, h3, h4⟩
    exact ⟨⟨by linarith, by linarith⟩, by linarith, by linarith⟩

theorem measurable_boxAt (cx cy a b : ℝ) : MeasurableSet (boxAt cx cy a b) := measurableSet_Ioo.prod measurableSet_Ioo

theorem boxAt_subset (cx cy a b : ℝ) : boxAt cx cy a b ⊆ Icc (cx - a) (cx + a) ×ˢ Icc (cy - b) (cy + b) :=
  prod_mono Ioo_subset_Icc_self Ioo_subset_Icc_self

theorem boxAt_int (cx cy a b : ℝ) {f : ℝ × ℝ → ℝ} (hf : Continuous f) : IntegrableOn f (boxAt cx cy a b) :=
  (hf.continuousOn.integrableOn_compact (isCompact_Icc.prod isCompact_Icc)).mono_set (boxAt_subset cx cy a b)

theorem boxAt_integral {cx cy a b : ℝ} (ha : 0 ≤ a) (hb : 0 ≤ b) (f g : ℝ → ℝ) :
    ∫ p in boxAt cx cy a b, f (p.1 - cx) * g (p.2 - cy) = (∫ x in -a..a, f x) * ∫ y in -b..b, g y := by
  rw [boxAt, Measure.volume_eq_prod,
    setIntegral_prod_mul (μ := volume) (ν := volume) (fun x => f (x - cx)) (fun y => g (y - cy)),
    ← integral_Ioc_eq_integral_Ioo, ← integral_Ioc_eq_integral_Ioo, ← intervalIntegral.integral_of_le (by linarith),
    ← intervalIntegral.integral_of_le (by linarith), intervalIntegral.integral_comp_sub_right,
    intervalIntegral.integral_comp_sub_right]
  congr 2 <;> ring_nf

theorem int_sq (a : ℝ) : ∫ x in -a..a, x ^ 2 = 2 * a ^ 3 / 3 := by
  rw [integral_pow]; norm_num; ring

theorem int_bump (a : ℝ) : ∫ x in -a..a, (a ^ 2 - x ^ 2) = 4 * a ^ 3 / 3 := by
  rw [intervalIntegral.integral_sub (by simp) ((by fun_prop : Continuous fun x : ℝ => x ^ 2).intervalIntegrable _ _),
    int_sq]
  simp
  ring

theorem int_bump_sq (a : ℝ) : ∫ x in -a..a, (a ^ 2 - x ^ 2) ^ 2 = 16 * a ^ 5 / 15 := by
  have e : ∀ x : ℝ, (a ^ 2 - x ^ 2) ^ 2 = a ^ 4 - (2 * a ^ 2 * x ^ 2 - x ^ 4) := fun x => by ring
  simp only [e]
  rw [intervalIntegral.integral_sub (by simp) ((by fun_prop : Continuous fun x : ℝ => 2 * a ^ 2 * x ^ 2 - x ^ 4).intervalIntegrable _ _),
    intervalIntegral.integral_sub ((by fun_prop : Continuous fun x : ℝ => 2 * a ^ 2 * x ^ 2).intervalIntegrable _ _)
      ((by fun_prop : Continuous fun x : ℝ => x ^ 4).intervalIntegrable _ _), intervalIntegral.integral_const_mul, int_sq, integral_pow]
  simp
  norm_num
  ring

/-- Volume of the hill over a rectangle. -/
theorem boxAt_volume {cx cy a b : ℝ} (ha : 0 ≤ a) (hb : 0 ≤ b) :
    ∫ p in boxAt cx cy a b, (a ^ 2 - (p.1 - cx) ^ 2) * (b ^ 2 - (p.2 - cy) ^ 2) = 16 / 9 * (a ^ 3 * b ^ 3) := by
  rw [boxAt_integral ha hb (fun x => a ^ 2 - x ^ 2) (fun y => b ^ 2 - y ^ 2), int_bump, int_bump]
  ring

/-- Squared slope of the hill over a rectangle. -/
theorem box_slope {cx cy a b : ℝ} (ha : 0 ≤ a) (hb : 0 ≤ b) :
    ∫ p in boxAt cx cy a b, (4 * ((p.1 - cx) ^ 2 * (b ^ 2 - (p.2 - cy) ^ 2) ^ 2) +
      4 * ((a ^ 2 - (p.1 - cx) ^ 2) ^ 2 * (p.2 - cy) ^ 2)) = 128 / 45 * (a ^ 3 * b ^ 3 * (a ^ 2 + b ^ 2)) := by
  rw [integral_add (boxAt_int _ _ _ _ (by fun_prop)) (boxAt_int _ _ _ _ (by fun_prop)), integral_const_mul, integral_const_mul,
    boxAt_integral ha hb (fun x => x ^ 2) (fun y => (b ^ 2 - y ^ 2) ^ 2),
    boxAt_integral ha hb (fun x => (a ^ 2 - x ^ 2) ^ 2) (fun y => y ^ 2), int_sq, int_sq, int_bump_sq, int_bump_sq]
  ring

/-- The smooth hill over a rectangle. -/
noncomputable def boxHill (e cx cy a b : ℝ) (p : ℝ × ℝ) : ℝ :=
  soft e (a ^ 2 - (p.1 - cx) ^ 2) * soft e (b ^ 2 - (p.2 - cy) ^ 2)

section
variable {e cx cy a b : ℝ}

theorem contDiff_boxHill : ContDiff ℝ 2 (boxHill e cx cy a b) := by
  have h := contDiff_soft e
  unfold boxHill
  exact (h.comp (by fun_prop : ContDiff ℝ 2 fun p : ℝ × ℝ => a ^ 2 - (p.1 - cx) ^ 2)).mul
    (h.comp (by fun_prop : ContDiff ℝ 2 fun p : ℝ × ℝ => b ^ 2 - (p.2 - cy) ^ 2))

theorem boxHill_dX (p : ℝ × ℝ) : dX (boxHill e cx cy a b) p =
    Real.smoothTransition ((a ^ 2 - (p.1 - cx) ^ 2) / e) * (-2 * (p.1 - cx)) * soft e (b ^ 2 - (p.2 - cy) ^ 2) := by
  have h1 : HasDerivAt (fun x : ℝ => a ^ 2 - (x - cx) ^ 2) (-2 * (p.1 - cx)) p.1 := by
    refine ((((hasDerivAt_id p.1).sub_const cx).pow 2).const_sub (a ^ 2)).congr_deriv ?_
    simp
  have h2 := HasDerivAt.comp p.1 (h₂ := soft e) (h := fun x : ℝ => a ^ 2 - (x - cx) ^ 2) (hasDerivAt_soft e _) h1
  exact (h2.mul_const (soft e (b ^ 2 - (p.2 - cy) ^ 2))).deriv

theorem boxHill_dY (p : ℝ × ℝ) : dY (boxHill e cx cy a b) p =
    soft e (a ^ 2 - (p.1 - cx) ^ 2) * (Real.smoothTransition ((b ^ 2 - (p.2 - cy) ^ 2) / e) * (-2 * (p.2 - cy))) := by
  have h1 : HasDerivAt (fun y : ℝ => b ^ 2 - (y - cy) ^ 2) (-2 * (p.2 - cy)) p.2 := by
    refine ((((hasDerivAt_id p.2).sub_const cy).pow 2).const_sub (b ^ 2)).congr_deriv ?_
    simp
  have h2 := HasDerivAt.comp p.2 (h₂ := soft e) (h := fun y : ℝ => b ^ 2 - (y - cy) ^ 2) (hasDerivAt_soft e _) h1
  exact (h2.const_mul (soft e (a ^ 2 - (p.1 - cx) ^ 2))).deriv

theorem boxHill_out (he : 0 < e) (ha : 0 < a) (hb : 0 < b) {p : ℝ × ℝ} (hp : p ∉ boxAt cx cy a b) :
    boxHill e cx cy a b p = 0 ∧ dX (boxHill e cx cy a b) p = 0 ∧ dY (boxHill e cx cy a b) p = 0 := by
  rw [boxHill_dX, boxHill_dY, boxHill]
  rw [mem_boxAt ha hb, not_and_or, not_lt, not_lt] at hp
  rcases hp with h | h
  · rw [soft_zero he h, Real.smoothTransition.zero_of_nonpos (div_nonpos_of_nonpos_of_nonneg h he.le)]
    simp
  · rw [soft_zero he h, Real.smoothTransition.zero_of_nonpos (div_nonpos_of_nonpos_of_nonneg h he.le)]
    simp

theorem boxHill_slope (he : 0 < e) (ha : 0 < a) (hb : 0 < b) {p : ℝ × ℝ} (hp : p ∈ boxAt cx cy a b) :
    dX (boxHill e cx cy a b) p ^ 2 + dY (boxHill e cx cy a b) p ^ 2 ≤
      4 * ((p.1 - cx) ^ 2 * (b ^ 2 - (p.2 - cy) ^ 2) ^ 2) + 4 * ((a ^ 2 - (p.1 - cx) ^ 2) ^ 2 * (p.2 - cy) ^ 2) := by
  obtain ⟨h1, h2⟩ := (mem_boxAt ha hb).1 hp
  rw [boxHill_dX, boxHill_dY]
  have s1 := soft_le (e := e) h1.le
  have s2 := soft_le (e := e) h2.le
  have s3 := soft_nonneg he (a ^ 2 - (p.1 - cx) ^ 2)
  have s4 := soft_nonneg he (b ^ 2 - (p.2 - cy) ^ 2)
  have t1 := Real.smoothTransition.nonneg ((a ^ 2 - (p.1 - cx) ^ 2) / e)
  have t2 := Real.smoothTransition.le_one ((a ^ 2 - (p.1 - cx) ^ 2) / e)
  have t3 := Real.smoothTransition.nonneg ((b ^ 2 - (p.2 - cy) ^ 2) / e)
  have t4 := Real.smoothTransition.le_one ((b ^ 2 - (p.2 - cy) ^ 2) / e)
  generalize Real.smoothTransition ((a ^ 2 - (p.1 - cx) ^ 2) / e) = u at *
  generalize Real.smoothTransition ((b ^ 2 - (p.2 - cy) ^ 2) / e) = v at *
  generalize soft e (a ^ 2 - (p.1 - cx) ^ 2) = f at *
  generalize soft e (b ^ 2 - (p.2 - cy) ^ 2) = g at *
  generalize a ^ 2 - (p.1 - cx) ^ 2 = F at *
  generalize b ^ 2 - (p.2 - cy) ^ 2 = G at *
  generalize p.1 - cx = x at *
  generalize p.2 - cy = y at *
  have k1 : u ^ 2 * g ^ 2 ≤ 1 * G ^ 2 :=
    mul_le_mul (pow_le_one₀ t1 t2) (pow_le_pow_left₀ s4 s2 2) (sq_nonneg _) zero_le_one
  have k2 : f ^ 2 * v ^ 2 ≤ F ^ 2 * 1 :=
    mul_le_mul (pow_le_pow_left₀ s3 s1 2) (pow_le_one₀ t3 t4) (sq_nonneg _) (sq_nonneg _)
  nlinarith [mul_le_mul_of_nonneg_left k1 (sq_nonneg x), mul_le_mul_of_nonneg_left k2 (sq_nonneg y)]

theorem boxHill_nonneg (he : 0 < e) (p : ℝ × ℝ) : 0 ≤ boxHill e cx cy a b p :=
  mul_nonneg (soft_nonneg he _) (soft_nonneg he _)

theorem boxHill_ge (he : 0 < e) (ha : 0 < a) (hb : 0 < b) {p : ℝ × ℝ} (hp : p ∈ boxAt cx cy a b) :
    (a ^ 2 - (p.1 - cx) ^ 2) * (b ^ 2 - (p.2 - cy) ^ 2) - e * (a ^ 2 + b ^ 2) ≤ boxHill e cx cy a b p := by
  obtain ⟨h1, h2⟩ := (mem_boxAt ha hb).1 hp
  rw [boxHill]
  have s1 := soft_le (e := e) h1.le
  have s2 := soft_le (e := e) h2.le
  have s3 := soft_ge he (a ^ 2 - (p.1 - cx) ^ 2)
  have s4 := soft_ge he (b ^ 2 - (p.2 - cy) ^ 2)
  have s5 := soft_nonneg he (b ^ 2 - (p.2 - cy) ^ 2)
  have q1 : a ^ 2 - (p.1 - cx) ^ 2 ≤ a ^ 2 := by nlinarith [sq_nonneg (p.1 - cx)]
  have q2 : b ^ 2 - (p.2 - cy) ^ 2 ≤ b ^ 2 := by nlinarith [sq_nonneg (p.2 - cy)]
  generalize soft e (a ^ 2 - (p.1 - cx) ^ 2) = f at *
  generalize soft e (b ^ 2 - (p.2 - cy) ^ 2) = g at *
  generalize a ^ 2 - (p.1 - cx) ^ 2 = F at *
  generalize b ^ 2 - (p.2 - cy) ^ 2 = G at *
  have e1 : F * (G - g) ≤ F * e := mul_le_mul_of_nonneg_left (by linarith) h1.le
  have e2 : g * (F - f) ≤ g * e := mul_le_mul_of_nonneg_left (by linarith) s5
  have e3 : F * e ≤ a ^ 2 * e := mul_le_mul_of_nonneg_right q1 he.le
  have e4 : g * e ≤ b ^ 2 * e := mul_le_mul_of_nonneg_right (by linarith) he.le
  nlinarith

end

variable {ι : Type*}

theorem dX_sum (S : Finset ι) {f : ι → ℝ × ℝ → ℝ} (k : ι → ℝ) (hf : ∀ i ∈ S, Differentiable ℝ (f i)) (p : ℝ × ℝ) :
    dX (fun p => ∑ i ∈ S, k i * f i p) p = ∑ i ∈ S, k i * dX (f i) p :=
  (HasDerivAt.fun_sum fun i hi => (hasDerivAt_dX (hf i hi) p).const_mul (k i)).deriv

theorem dY_sum (S : Finset ι) {f : ι → ℝ × ℝ → ℝ} (k : ι → ℝ) (hf : ∀ i ∈ S, Differentiable ℝ (f i)) (p : ℝ × ℝ) :
    dY (fun p => ∑ i ∈ S, k i * f i p) p = ∑ i ∈ S, k i * dY (f i) p :=
  (HasDerivAt.fun_sum fun i hi => (hasDerivAt_dY (hf i hi) p).const_mul (k i)).deriv

/-- Rectangles given by centres and half sides. -/
theorem boxes_bound (s : Section) (r : GeomResults) (hg : GoodSection s) (h : Physical s.elements)
    (hc : ConformingMesh s.meshNodes s.elements) (hno : NoOverlap s.elements) (hr : s.geometricAnalysis = .ok r)
    (sv : Solvers) (ty : SolverType) (w : WarpResults s.numNodes) (hw : s.warping sv ty r = .ok w)
    (hex : SolvesBordered (assembleTorsion (s.elements.map fun t => t.shiftBy r.cx r.cy)).1
      (assembleTorsion (s.elements.map fun t => t.shiftBy r.cx r.cy)).2 w.omega)
    {S : Finset ι} {cx cy a b e0 : ι → ℝ} (ha : ∀ i ∈ S, 0 < a i) (hb : ∀ i ∈ S, 0 < b i)
    (hdis : ∀ i ∈ S, ∀ j ∈ S, i ≠ j → Disjoint (boxAt (cx i) (cy i) (a i) (b i)) (boxAt (cx j) (cy j) (a j) (b j)))
    (hin : ∀ i ∈ S, boxAt (cx i) (cy i) (a i) (b i) ⊆ region s.elements) (he : ∀ i ∈ S, 0 < e0 i)
    (hE : ∀ t ∈ s.elements, ∀ i ∈ S, (elemRegion t.coords ∩ boxAt (cx i) (cy i) (a i) (b i)).Nonempty →
      e0 i ≤ t.material.elasticModulus) :
    ∑ i ∈ S, e0 i * (40 / 9 * (a i ^ 3 * b i ^ 3 / (a i ^ 2 + b i ^ 2))) ≤ w.j := by
  have hj := (C19_torsion_constant s r hg h hr sv ty w hw hex).2.2.1
  set B : ι → Set (ℝ × ℝ) := fun i => boxAt (cx i) (cy i) (a i) (b i) with hB
  set k : ι → ℝ := fun i => e0 i / (a i ^ 2 + b i ^ 2) with hk
  have hab : ∀ i ∈ S, 0 < a i ^ 2 + b i ^ 2 := fun i hi => by have := ha i hi; positivity
  have hk0 : ∀ i ∈ S, 0 < k i := fun i hi => div_pos (he i hi) (hab i hi)
  set Q := ∑ i ∈ S, e0 i * (a i ^ 3 * b i ^ 3 / (a i ^ 2 + b i ^ 2)) with hQ
  have hQ0 : 0 ≤ Q := Finset.sum_nonneg fun i hi => by
    have := ha i hi
    have := hb i hi
    have := he i hi
    positivity
  set K : Set (ℝ × ℝ) := ⋃ i ∈ S, B i with hK
  have hBm : ∀ i, MeasurableSet (B i) := fun i => measurable_boxAt _ _ _ _
  have hKm : MeasurableSet K := S.measurableSet_biUnion fun i _ => hBm i
  set g : ι → ℝ × ℝ → ℝ := fun i p => 4 * ((p.1 - cx i) ^ 2 * (b i ^ 2 - (p.2 - cy i) ^ 2) ^ 2) +
    4 * ((a i ^ 2 - (p.1 - cx i) ^ 2) ^ 2 * (p.2 - cy i) ^ 2) with hgdef
  have hgc : ∀ i, Continuous (g i) := fun i => by simp only [hgdef]; fun_prop
  set G : ℝ × ℝ → ℝ := fun p => ∑ i ∈ S, (B i).indicator (fun p => k i ^ 2 / e0 i * g i p) p with hG
  have hgi : ∀ i ∈ S, Integrable ((B i).indicator fun p => k i ^ 2 / e0 i * g i p) := fun i _ =>
    (integrable_indicator_iff (hBm i)).2 (boxAt_int _ _ _ _ (continuous_const.mul (hgc i)))
  have hGi : Integrable G := integrable_finsetSum S hgi
  have hGint : ∫ p in K, G p = 128 / 45 * Q := by
    rw [setIntegral_eq_integral_of_forall_compl_eq_zero, integral_finsetSum S hgi, hQ, Finset.mul_sum]
    · refine Finset.sum_congr rfl fun i hi => ?_
      rw [integral_indicator (hBm i), integral_const_mul, box_slope (ha i hi).le (hb i hi).le]
      have := (hab i hi).ne'
      have := (he i hi).ne'
      simp only [hk]
      field_simp
    · intro p hp
      refine Finset.sum_eq_zero fun i hi => indicator_of_notMem (fun h => hp ?_) _
      exact mem_biUnion hi h
  set u : ι → ℝ × ℝ → ℝ := fun i p => (a i ^ 2 - (p.1 - cx i) ^ 2) * (b i ^ 2 - (p.2 - cy i) ^ 2) with hu
  have huc : ∀ i, Continuous (u i) := fun i => by simp only [hu]; fun_prop
  have key : 1 * (2 * (16 / 9 * Q)) ^ 2 ≤ w.j * (128 / 45 * Q) := by
    refine bound_limit (V := ∑ i ∈ S, e0 i * volume.real (B i)) (by positivity) (by positivity) fun e hepos hnn => ?_
    have hdiff : ∀ i ∈ S, Differentiable ℝ (boxHill e (cx i) (cy i) (a i) (b i)) := fun i _ =>
      contDiff_boxHill.differentiable (by norm_num)
    set ψ : ℝ × ℝ → ℝ := fun p => ∑ i ∈ S, k i * boxHill e (cx i) (cy i) (a i) (b i) p with hψd
    have hsm : ContDiff ℝ 2 ψ := ContDiff.sum fun i _ => contDiff_const.mul contDiff_boxHill
    have hzero : ∀ p ∉ K, ∀ i ∈ S, p ∉ B i := fun p hp i hi h => hp (mem_biUnion hi h)
    have hoff : ∀ p ∉ K, dX ψ p = 0 ∧ dY ψ p = 0 := by
      intro p hp
      rw [hψd, dX_sum S k hdiff, dY_sum S k hdiff]
      refine ⟨Finset.sum_eq_zero fun i hi => ?_, Finset.sum_eq_zero fun i hi => ?_⟩
      · rw [(boxHill_out hepos (ha i hi) (hb i hi) (hzero p hp i hi)).2.1, mul_zero]
      · rw [(boxHill_out hepos (ha i hi) (hb i hi) (hzero p hp i hi)).2.2, mul_zero]
    have hcs : HasCompactSupport ψ := by
      refine HasCompactSupport.intro (K := ⋃ i ∈ S, Icc (cx i - a i) (cx i + a i) ×ˢ Icc (cy i - b i) (cy i + b i))
        (S.finite_toSet.isCompact_biUnion fun i _ => isCompact_Icc.prod isCompact_Icc) fun p hp => ?_
      refine Finset.sum_eq_zero fun i hi => ?_
      rw [(boxHill_out hepos (ha i hi) (hb i hi) fun h => hp (mem_biUnion hi (boxAt_subset _ _ _ _ h))).1, mul_zero]
    have hother : ∀ i ∈ S, ∀ p ∈ B i, ∀ j ∈ S, j ≠ i → p ∉ B j := fun i hi p hp j hj hji h =>
      Set.disjoint_left.1 (hdis j hj i hi hji) h hp
    have hKr : K ⊆ region s.elements := iUnion₂_subset hin
    have hψ : StressFunction s.elements ψ := ⟨hsm, hcs, fun p hp => hoff p fun hK => hp (hKr hK)⟩
    have k1 := C87_stress_function s r hg h hc hno hr sv ty w hw hex hψ
    have k2 := slopeEnergy_le_field hno h (hsm.of_le one_le_two) hKm hKr hGi.integrableOn (fun t ht p hp hpt => by
        obtain ⟨i, hi, hpi⟩ := mem_iUnion₂.1 hp
        rw [hψd, dX_sum S k hdiff, dY_sum S k hdiff, hG]
        simp only
        rw [Finset.sum_eq_single_of_mem i hi fun j hj hji => by
            rw [(boxHill_out hepos (ha j hj) (hb j hj) (hother i hi p hpi j hj hji)).2.1, mul_zero],
          Finset.sum_eq_single_of_mem i hi fun j hj hji => by
            rw [(boxHill_out hepos (ha j hj) (hb j hj) (hother i hi p hpi j hj hji)).2.2, mul_zero],
          Finset.sum_eq_single_of_mem i hi fun j hj hji => indicator_of_notMem (hother i hi p hpi j hj hji) _,
          indicator_of_mem hpi, mul_pow, mul_pow, ← mul_add]
        refine (mul_le_mul_of_nonneg_left (boxHill_slope hepos (ha i hi) (hb i hi) hpi) (sq_nonneg _)).trans ?_
        have hg0 : 0 ≤ g i p := by simp only [hgdef]; positivity
        have hz : t.material.elasticModulus * (k i ^ 2 / e0 i * g i p) = t.material.elasticModulus / e0 i * (k i ^ 2 * g i p) := by
          ring
        rw [hz]
        refine le_mul_of_one_le_left (mul_nonneg (sq_nonneg _) hg0) ((one_le_div (he i hi)).2 ?_)
        exact hE t ht i hi ⟨p, hpt, hpi⟩) hoff
    rw [hGint] at k2
    have k3 : 16 / 9 * Q - e * ∑ i ∈ S, e0 i * volume.real (B i) ≤ ∫ p, ψ p := by
      have hi1 : ∀ i ∈ S, Integrable ((B i).indicator fun p => k i * u i p - e * e0 i) := fun i _ =>
        (integrable_indicator_iff (hBm i)).2 (boxAt_int _ _ _ _ ((continuous_const.mul (huc i)).sub continuous_const))
      have e1 : 16 / 9 * Q - e * ∑ i ∈ S, e0 i * volume.real (B i) = ∫ p, ∑ i ∈ S, (B i).indicator (fun p => k i * u i p - e * e0 i) p := by
        rw [integral_finsetSum S hi1, hQ, Finset.mul_sum, Finset.mul_sum, ← Finset.sum_sub_distrib]
        refine Finset.sum_congr rfl fun i hi => ?_
        have hc1 : IntegrableOn (fun p => k i * u i p) (B i) := boxAt_int _ _ _ _ (continuous_const.mul (huc i))
        have hc2 : IntegrableOn (fun _ : ℝ × ℝ => e * e0 i) (B i) := boxAt_int _ _ _ _ continuous_const
        rw [integral_indicator (hBm i), integral_sub hc1 hc2, integral_const_mul, setIntegral_const,
          boxAt_volume (ha i hi).le (hb i hi).le]
        have := (hab i hi).ne'
        simp only [hk, smul_eq_mul]
        field_simp
      rw [e1]
      refine integral_mono (integrable_finsetSum S hi1) (hsm.continuous.integrable_of_hasCompactSupport hcs) fun p => ?_
      refine Finset.sum_le_sum fun i hi => ?_
      by_cases hp : p ∈ B i
      · rw [indicator_of_mem hp]
        have h1 := mul_le_mul_of_nonneg_left (boxHill_ge hepos (ha i hi) (hb i hi) hp) (hk0 i hi).le
        have h2 : k i * (a i ^ 2 + b i ^ 2) = e0 i := div_mul_cancel₀ _ (hab i hi).ne'
        refine le_trans (le_of_eq ?_) h1
        simp only [hu]
        linear_combination e * h2
      · rw [indicator_of_notMem hp]
        exact mul_nonneg (hk0 i hi).le (boxHill_nonneg hepos _)
    rw [one_mul]
    calc (2 * (16 / 9 * Q - e * ∑ i ∈ S, e0 i * volume.real (B i))) ^ 2
        ≤ (2 * ∫ p, ψ p) ^ 2 := pow_le_pow_left₀ (by linarith) (by linarith) 2
      _ ≤ w.j * slopeEnergy s.elements ψ := k1
      _ ≤ _ := mul_le_mul_of_nonneg_left k2 hj.le
  have hsum : ∑ i ∈ S, e0 i * (40 / 9 * (a i ^ 3 * b i ^ 3 / (a i ^ 2 + b i ^ 2))) = 40 / 9 * Q := by
    rw [hQ, Finset.mul_sum]
    exact Finset.sum_congr rfl fun i _ => by ring
  rw [hsum]
  rcases hQ0.eq_or_lt with h0 | h0
  · rw [← h0]; simpa using hj.le
  · refine le_of_mul_le_mul_right ?_ (by positivity : 0 < 128 / 45 * Q)
    calc 40 / 9 * Q * (128 / 45 * Q) = 1 * (2 * (16 / 9 * Q)) ^ 2 := by ring
      _ ≤ _ := key

/-- **C87** A section that contains rectangles side by side, of materials of modulus at least `e0 i` in rectangle `i`, has at
least the sum of `e0 i · 5/18 w³ h³ / (w² + h²)` over the rectangles as torsion constant. -/
theorem C87_rectangles (s : Section) (r : GeomResults) (hg : GoodSection s) (h : Physical s.elements)
    (hc : ConformingMesh s.meshNodes s.elements) (hno : NoOverlap s.elements) (hr : s.geometricAnalysis = .ok r)
    (sv : Solvers) (ty : SolverType) (w : WarpResults s.numNodes) (hw : s.warping sv ty r = .ok w)
    (hex : SolvesBordered (assembleTorsion (s.elements.map fun t => t.shiftBy r.cx r.cy)).1
      (assembleTorsion (s.elements.map fun t => t.shiftBy r.cx r.cy)).2 w.omega)
    {S : Finset ι} {x0 x1 y0 y1 e0 : ι → ℝ} (hx : ∀ i ∈ S, x0 i < x1 i) (hy : ∀ i ∈ S, y0 i < y1 i)
    (hdis : ∀ i ∈ S, ∀ j ∈ S, i ≠ j → Disjoint (Ioo (x0 i) (x1 i) ×ˢ Ioo (y0 i) (y1 i)) (Ioo (x0 j) (x1 j) ×ˢ Ioo (y0 j) (y1 j)))
    (hin : ∀ i ∈ S, Ioo (x0 i) (x1 i) ×ˢ Ioo (y0 i) (y1 i) ⊆ region s.elements) (he : ∀ i ∈ S, 0 < e0 i)
    (hE : ∀ t ∈ s.elements, ∀ i ∈ S, (elemRegion t.coords ∩ Ioo (x0 i) (x1 i) ×ˢ Ioo (y0 i) (y1 i)).Nonempty →
      e0 i ≤ t.material.elasticModulus) :
    ∑ i ∈ S, e0 i * (5 / 18 * ((x1 i - x0 i) ^ 3 * (y1 i - y0 i) ^ 3 / ((x1 i - x0 i) ^ 2 + (y1 i - y0 i) ^ 2))) ≤ w.j := by
  have hbox : ∀ i, boxAt ((x0 i + x1 i) / 2) ((y0 i + y1 i) / 2) ((x1 i - x0 i) / 2) ((y1 i - y0 i) / 2) =
      Ioo (x0 i) (x1 i) ×ˢ Ioo (y0 i) (y1 i) := by
    intro i
    rw [boxAt]
    congr 2 <;> ring
  have key := boxes_bound s r hg h hc hno hr sv ty w hw hex (S := S) (cx := fun i => (x0 i + x1 i) / 2)
    (cy := fun i => (y0 i + y1 i) / 2) (a := fun i => (x1 i - x0 i) / 2) (b := fun i => (y1 i - y0 i) / 2) (e0 := e0)
    (fun i hi => by have := hx i hi; linarith) (fun i hi => by have := hy i hi; linarith)
    (by simp only [hbox]; exact hdis) (by simp only [hbox]; exact hin) he (by simp only [hbox]; exact hE)
  refine le_trans (le_of_eq ?_) key
  refine Finset.sum_congr rfl fun i hi => ?_
  congr 1
  have h1 : 0 < x1 i - x0 i := by linarith [hx i hi]
  have h2 : 0 < y1 i - y0 i := by linarith [hy i hi]
  generalize x1 i - x0 i = u at *
  generalize y1 i - y0 i = v at *
  field_simp
  ring

end SP
