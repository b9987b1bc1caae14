import Verif.Lemmas.Slices
import Verif.Props.ShearFlow
import Verif.Props.Inertia

/-!
# C91: shear areas of sections that are symmetric about a vertical axis
-/

namespace SP

open Spec MeasureTheory Set

variable {n : ℕ} {s : Section} {r : GeomResults} {xm y0 y1 k K m M : ℝ} {h e : ℝ → ℝ}

theorem inner_poly (c0 c1 c2 H : ℝ) : ∫ u in (-H)..H, (c0 + c1 * u + c2 * u ^ 2) = 2 * c0 * H + 2 / 3 * c2 * H ^ 3 := by
  rw [intervalIntegral.integral_eq_sub_of_hasDerivAt (f := fun x => c0 * x + c1 * x ^ 2 / 2 + c2 * x ^ 3 / 3) (fun x _ => ?_)
    (Continuous.intervalIntegrable (by fun_prop) _ _)]
  · ring
  · have h1 := (hasDerivAt_id x).const_mul c0
    have h2 := ((hasDerivAt_pow 2 x).const_mul c1).div_const 2
    have h3 := ((hasDerivAt_pow 3 x).const_mul c2).div_const 3
    refine ((h1.add h2).add h3).congr_deriv ?_
    norm_num
    ring

theorem slices_sum (hs : Slices s.elements xm y0 y1 h e) (hh : Tame h k K) (hno : NoOverlap s.elements) {f : ℝ × ℝ → ℝ}
    (hf : Continuous f) {c0 c1 c2 : ℝ → ℝ} (hc : ∀ p : ℝ × ℝ, f p = c0 p.2 + c1 p.2 * (p.1 - xm) + c2 p.2 * (p.1 - xm) ^ 2) :
    ∫ p in region s.elements, e p.2 * f p = ∫ y in y0..y1, e y * (2 * c0 y * h y + 2 / 3 * c2 y * h y ^ 3) := by
  have hi := (sum_integral hno hs.modulus hf).1
  rw [setIntegral_congr_set hs.covers]
  have hi' := hi.congr_set_ae hs.covers.symm
  have e1 : (fun p : ℝ × ℝ => e p.2 * f p) = fun p =>
      (fun y u => e y * (c0 y + c1 y * u + c2 y * u ^ 2)) p.2 (p.1 - xm) := by
    funext p; simp only [hc p]
  rw [e1] at hi' ⊢
  rw [sliced_integral hh.measurable hs.order.le (fun y => hh.pos.le.trans (hh.low y))
    (F := fun y u => e y * (c0 y + c1 y * u + c2 y * u ^ 2)) hi']
  refine intervalIntegral.integral_congr fun y _ => ?_
  rw [intervalIntegral.integral_const_mul, inner_poly]

/-- The centroid and the second moments, slice by slice. -/
theorem slices_moments (hr : s.geometricAnalysis = .ok r) (hP : Physical s.elements) (hno : NoOverlap s.elements)
    (hs : Slices s.elements xm y0 y1 h e) (hh : Tame h k K) :
    r.cx = xm ∧ r.cent.ixyC = 0 ∧ r.sums.ea = ∫ y in y0..y1, 2 * (e y * h y) ∧
    r.cent.ixxC = ∫ y in y0..y1, 2 * (e y * (y - r.cy) ^ 2 * h y) ∧
    r.cent.iyyC = ∫ y in y0..y1, 2 / 3 * (e y * h y ^ 3) ∧
    ∫ y in y0..y1, e y * (y - r.cy) * h y = 0 := by
  obtain ⟨-, p2, -⟩ := C09_positive hr hP
  obtain ⟨G, hG⟩ := exists_field hno fun m => m.elasticModulus / (2 * (1 + m.poissonsRatio))
  obtain ⟨ρ, hρ⟩ := exists_field hno Material.density
  obtain ⟨-, -, a3, -, a5, a6, -⟩ := C01_exact hr hP.proper hno hs.modulus hG hρ
  have hea : ∫ p in region s.elements, e p.2 ≠ 0 := by rw [← a3]; exact p2.ne'
  obtain ⟨b1, b2, b3, b4, b5⟩ := C01_centroidal hr hP.proper hno hs.modulus hea
  have c1 : Continuous fun _ : ℝ × ℝ => (1 : ℝ) := continuous_const
  have i0 : IntegrableOn (fun p : ℝ × ℝ => e p.2 * 1) (region s.elements) := (sum_integral hno hs.modulus c1).1
  have i1 := (sum_integral hno hs.modulus continuous_fst).1
  have i2 := (sum_integral hno hs.modulus continuous_snd).1
  simp only [mul_one] at i0
  -- the axis
  have ex : ∫ p in region s.elements, e p.2 * (p.1 - xm) = 0 := by
    rw [slices_sum hs hh hno (by fun_prop) (c0 := fun _ => 0) (c1 := fun _ => 1) (c2 := fun _ => 0) (fun p => by ring)]
    simp
  have hcx : r.cx = xm := by
    have e2 : ∫ p in region s.elements, e p.2 * (p.1 - xm) =
        (∫ p in region s.elements, e p.2 * p.1) - xm * ∫ p in region s.elements, e p.2 := by
      rw [← integral_const_mul, ← integral_sub i1 (i0.const_mul xm)]
      refine integral_congr_ae (Filter.Eventually.of_forall fun p => ?_)
      simp only
      ring
    rw [ex] at e2
    rw [b1, div_eq_iff hea]
    linarith
  refine ⟨hcx, ?_, ?_, ?_, ?_, ?_⟩
  · rw [b5, hcx, slices_sum hs hh hno (by fun_prop) (c0 := fun _ => 0) (c1 := fun y => y - r.cy) (c2 := fun _ => 0)
      (fun p => by ring)]
    simp
  · rw [a3]
    have := slices_sum hs hh hno c1 (c0 := fun _ => 1) (c1 := fun _ => 0) (c2 := fun _ => 0) (fun p => by ring)
    simp only [mul_one] at this
    rw [this]
    exact intervalIntegral.integral_congr fun y _ => by ring
  · rw [b3, slices_sum hs hh hno (by fun_prop) (c0 := fun y => (y - r.cy) ^ 2) (c1 := fun _ => 0) (c2 := fun _ => 0)
      (fun p => by ring)]
    exact intervalIntegral.integral_congr fun y _ => by ring
  · rw [b4, hcx, slices_sum hs hh hno (by fun_prop) (c0 := fun _ => 0) (c1 := fun _ => 0) (c2 := fun _ => 1)
      (fun p => by ring)]
    exact intervalIntegral.integral_congr fun y _ => by ring
  · have e2 : ∫ p in region s.elements, e p.2 * (p.2 - r.cy) = 0 := by
      have : ∫ p in region s.elements, e p.2 * (p.2 - r.cy) =
          (∫ p in region s.elements, e p.2 * p.2) - r.cy * ∫ p in region s.elements, e p.2 := by
        rw [← integral_const_mul, ← integral_sub i2 (i0.const_mul r.cy)]
        refine integral_congr_ae (Filter.Eventually.of_forall fun p => ?_)
        simp only
        ring
      rw [this, b2]
      field_simp
      ring
    rw [slices_sum hs hh hno (by fun_prop) (c0 := fun y => y - r.cy) (c1 := fun _ => 0) (c2 := fun _ => 0)
      (fun p => by ring)] at e2
    have e3 : ∫ y in y0..y1, e y * (2 * (y - r.cy) * h y + 2 / 3 * 0 * h y ^ 3) =
        2 * ∫ y in y0..y1, e y * (y - r.cy) * h y := by
      rw [← intervalIntegral.integral_const_mul]
      exact intervalIntegral.integral_congr fun y _ => by ring
    rw [e3] at e2
    linarith

/-! ### The flow along the spine -/

/-- The first moment of the slices below `y`. -/
noncomputable def belowMoment (y0 y1 cy : ℝ) (h e : ℝ → ℝ) (y : ℝ) : ℝ :=
  ∫ η in y0..y, (Ioo y0 y1).indicator (fun η => e η * (η - cy) * h η) η

theorem below_integrand (hh : Tame h k K) (he : Tame e m M) (cy : ℝ) :
    Measurable ((Ioo y0 y1).indicator fun η => e η * (η - cy) * h η) ∧
    (∀ η, |(Ioo y0 y1).indicator (fun η => e η * (η - cy) * h η) η| ≤ M * (|y0 - cy| + |y1 - cy|) * K) ∧
    ∃ N : Set ℝ, N.Countable ∧ ∀ y ∉ N, ContinuousAt ((Ioo y0 y1).indicator fun η => e η * (η - cy) * h η) y := by
  refine ⟨?_, fun η => ?_, ?_⟩
  · exact ((he.measurable.mul (measurable_id.sub_const cy)).mul hh.measurable).indicator measurableSet_Ioo
  · have hM : 0 ≤ M := (he.pos.le.trans (he.low 0)).trans (he.high 0)
    have hK : 0 ≤ K := (hh.pos.le.trans (hh.low 0)).trans (hh.high 0)
    have hpos : 0 ≤ M * (|y0 - cy| + |y1 - cy|) * K := by positivity
    by_cases hη : η ∈ Ioo y0 y1
    · rw [indicator_of_mem hη, abs_mul, abs_mul]
      have h1 : |η - cy| ≤ |y0 - cy| + |y1 - cy| := by
        rw [abs_le]
        constructor
        · have := neg_abs_le (y0 - cy); have := abs_nonneg (y1 - cy); linarith [hη.1]
        · have := le_abs_self (y1 - cy); have := abs_nonneg (y0 - cy); linarith [hη.2]
      have h2 : |e η| ≤ M := by rw [abs_of_nonneg (he.pos.le.trans (he.low η))]; exact he.high η
      have h3 : |h η| ≤ K := by rw [abs_of_nonneg (hh.pos.le.trans (hh.low η))]; exact hh.high η
      gcongr
    · rw [indicator_of_notMem hη, abs_zero]; exact hpos
  · obtain ⟨N1, c1, j1⟩ := hh.jumps
    obtain ⟨N2, c2, j2⟩ := he.jumps
    refine ⟨N1 ∪ N2 ∪ {y0, y1}, (c1.union c2).union (Set.toFinite _).countable, fun y hy => ?_⟩
    simp only [mem_union, mem_insert_iff, mem_singleton_iff, not_or] at hy
    obtain ⟨⟨n1, n2⟩, n3, n4⟩ := hy
    have hc : ContinuousAt (fun η => e η * (η - cy) * h η) y :=
      ((j2 y n2).mul (continuous_id.sub continuous_const).continuousAt).mul (j1 y n1)
    by_cases hy : y ∈ Ioo y0 y1
    · refine hc.congr ?_
      filter_upwards [isOpen_Ioo.mem_nhds hy] with z hz
      rw [indicator_of_mem hz]
    · have hz : ∀ᶠ z in nhds y, (Ioo y0 y1).indicator (fun η => e η * (η - cy) * h η) z = 0 := by
        have : y ∈ (Icc y0 y1)ᶜ := fun hc => hy ⟨lt_of_le_of_ne hc.1 (Ne.symm n3), lt_of_le_of_ne hc.2 n4⟩
        filter_upwards [isClosed_Icc.isOpen_compl.mem_nhds this] with z hz
        exact indicator_of_notMem (fun hc => hz (Ioo_subset_Icc_self hc)) _
      exact continuousAt_const.congr (Filter.EventuallyEq.symm hz)

theorem bounded_interval {f : ℝ → ℝ} {C : ℝ} (hm : Measurable f) (hb : ∀ y, |f y| ≤ C) (a b : ℝ) :
    IntervalIntegrable f volume a b := by
  rw [intervalIntegrable_iff]
  exact Measure.integrableOn_of_bounded (M := C) (by simp [uIoc]) hm.aestronglyMeasurable
    (Filter.Eventually.of_forall fun p => by rw [Real.norm_eq_abs]; exact hb p)

theorem belowMoment_facts (hh : Tame h k K) (he : Tame e m M) {cy : ℝ} (hy : y0 < y1)
    (h0 : ∫ y in y0..y1, e y * (y - cy) * h y = 0) :
    Continuous (belowMoment y0 y1 cy h e) ∧ (∀ y ∉ Ioo y0 y1, belowMoment y0 y1 cy h e y = 0) ∧
    (∀ y ∈ Icc y0 y1, belowMoment y0 y1 cy h e y = ∫ η in y0..y, e η * (η - cy) * h η) ∧
    (∃ C, ∀ y, |belowMoment y0 y1 cy h e y| ≤ C) ∧
    ∃ N : Set ℝ, N.Countable ∧ ∀ y ∉ N, HasDerivAt (belowMoment y0 y1 cy h e)
      ((Ioo y0 y1).indicator (fun η => e η * (η - cy) * h η) y) y := by
  obtain ⟨hm, hb, N, hN, hc⟩ := below_integrand (y0 := y0) (y1 := y1) hh he cy
  have hint := bounded_interval hm hb
  have hcont : Continuous (belowMoment y0 y1 cy h e) := intervalIntegral.continuous_primitive hint y0
  have hin : ∀ y ∈ Icc y0 y1, belowMoment y0 y1 cy h e y = ∫ η in y0..y, e η * (η - cy) * h η := by
    intro y hyI
    rw [belowMoment, intervalIntegral.integral_of_le hyI.1, intervalIntegral.integral_of_le hyI.1, integral_Ioc_eq_integral_Ioo,
      integral_Ioc_eq_integral_Ioo]
    refine setIntegral_congr_fun measurableSet_Ioo fun η hη => ?_
    exact indicator_of_mem (show η ∈ Ioo y0 y1 from ⟨hη.1, hη.2.trans_le hyI.2⟩) _
  have hout : ∀ y ∉ Ioo y0 y1, belowMoment y0 y1 cy h e y = 0 := by
    intro y hyI
    rcases le_or_gt y y0 with h1 | h1
    · rw [belowMoment, intervalIntegral.integral_symm, intervalIntegral.integral_of_le h1, neg_eq_zero]
      refine setIntegral_eq_zero_of_forall_eq_zero fun η hη => ?_
      exact indicator_of_notMem (fun hc => absurd hη.2 (not_le.2 hc.1)) _
    · have h2 : y1 ≤ y := by
        by_contra hcon
        exact hyI ⟨h1, not_le.1 hcon⟩
      have e1 : belowMoment y0 y1 cy h e y1 = 0 := by rw [hin y1 ⟨hy.le, le_rfl⟩, h0]
      have e2 : belowMoment y0 y1 cy h e y = belowMoment y0 y1 cy h e y1 +
          ∫ η in y1..y, (Ioo y0 y1).indicator (fun η => e η * (η - cy) * h η) η :=
        (intervalIntegral.integral_add_adjacent_intervals (hint _ _) (hint _ _)).symm
      rw [e2, e1, zero_add, intervalIntegral.integral_of_le h2]
      refine setIntegral_eq_zero_of_forall_eq_zero fun η hη => ?_
      exact indicator_of_notMem (fun hc => absurd hη.1 (not_lt.2 hc.2.le)) _
  refine ⟨hcont, hout, hin, ?_, N, hN, fun y hyN => ?_⟩
  · have hcs : HasCompactSupport (belowMoment y0 y1 cy h e) :=
      HasCompactSupport.intro (isCompact_Icc (a := y0) (b := y1)) fun y hyI => hout y fun hc => hyI (Ioo_subset_Icc_self hc)
    obtain ⟨C, hC⟩ := hcs.exists_bound_of_continuous hcont
    exact ⟨C, fun y => by have := hC y; rwa [Real.norm_eq_abs] at this⟩
  · exact intervalIntegral.integral_hasDerivAt_right (hint _ _)
      (hm.stronglyMeasurable.stronglyMeasurableAtFilter) (hc y hyN)

/-! ### The flow -/

/-- Across the slices: the parabola of a force along `x`, and the flow from the wings to the spine of a force along `y`. -/
noncomputable def crossFlow (k xm cy ca cb : ℝ) (h e : ℝ → ℝ) (G : Set ℝ) (p : ℝ × ℝ) : ℝ :=
  G.indicator e p.2 * (ca * parab (h p.2) (p.1 - xm) + cb * (p.2 - cy) * wing k (h p.2) (p.1 - xm))

noncomputable def crossFlow' (k xm cy ca cb : ℝ) (h e : ℝ → ℝ) (G : Set ℝ) (p : ℝ × ℝ) : ℝ :=
  G.indicator e p.2 * (ca * parab' (h p.2) (p.1 - xm) + cb * (p.2 - cy) * wing' k (h p.2) (p.1 - xm))

/-- Along the spine. -/
noncomputable def spineFlow (k xm c : ℝ) (b : ℝ → ℝ) (p : ℝ × ℝ) : ℝ := if |p.1 - xm| < k then c * b p.2 else 0

theorem mem_of_nhds {els : List (Tri6 n)} {S : Set (ℝ × ℝ)} (hS : region els =ᵐ[volume] S) {p : ℝ × ℝ} (hp : S ∈ nhds p) :
    p ∈ region els := by
  by_contra hcon
  have h1 : (region els)ᶜ ∩ S ∈ nhds p := Filter.inter_mem ((isClosed_region els).isOpen_compl.mem_nhds hcon) hp
  have h2 : 0 < volume ((region els)ᶜ ∩ S) := Measure.measure_pos_of_mem_nhds _ h1
  have h3 : volume ((region els)ᶜ ∩ S) = 0 := by
    have := (ae_eq_set.1 hS).2
    rwa [Set.sdiff_eq, inter_comm] at this
  exact h2.ne' h3

theorem slice_mem (hs : Slices s.elements xm y0 y1 h e) {p : ℝ × ℝ} (hy : p.2 ∈ Ioo y0 y1) (hc : ContinuousAt h p.2)
    (hp : |p.1 - xm| < h p.2) : p ∈ region s.elements := by
  refine mem_of_nhds hs.covers ?_
  have h1 : ∀ᶠ q : ℝ × ℝ in nhds p, q.2 ∈ Ioo y0 y1 := continuous_snd.continuousAt.eventually_mem (isOpen_Ioo.mem_nhds hy)
  have h2 : ∀ᶠ q : ℝ × ℝ in nhds p, |q.1 - xm| < h q.2 :=
    ContinuousAt.eventually_lt (by fun_prop) (ContinuousAt.comp (f := Prod.snd) hc continuous_snd.continuousAt) hp
  filter_upwards [h1, h2] with q a b
  exact ⟨a, b⟩

theorem spine_mem (hs : Slices s.elements xm y0 y1 h e) (hh : Tame h k K) {p : ℝ × ℝ} (hy : p.2 ∈ Ioo y0 y1)
    (hp : |p.1 - xm| < k) : p ∈ region s.elements := by
  refine mem_of_nhds hs.covers ?_
  have h1 : ∀ᶠ q : ℝ × ℝ in nhds p, q.2 ∈ Ioo y0 y1 := continuous_snd.continuousAt.eventually_mem (isOpen_Ioo.mem_nhds hy)
  have h2 : ∀ᶠ q : ℝ × ℝ in nhds p, |q.1 - xm| < k :=
    ContinuousAt.eventually_lt (by fun_prop) continuousAt_const hp
  filter_upwards [h1, h2] with q a b
  exact ⟨a, b.trans_le (hh.low _)⟩

theorem countable_snd {N : Set ℝ} (hN : N.Countable) : ∀ᵐ p : ℝ × ℝ, p.2 ∉ N := by
  have h0 : volume N = 0 := hN.measure_zero volume
  have : ∀ᵐ y : ℝ, y ∉ N := by rw [ae_iff]; simpa using h0
  exact Measure.quasiMeasurePreserving_snd.ae this

theorem measurable_cut {c : ℝ × ℝ → ℝ} (hc : Measurable c) {f g : ℝ × ℝ → ℝ} (hf : Measurable f) (hg : Measurable g) :
    Measurable fun p : ℝ × ℝ => if |p.1 - xm| < c p then f p else g p :=
  Measurable.ite (measurableSet_lt (continuous_abs.measurable.comp (measurable_fst.sub_const xm)) hc) hf hg

theorem slices_flow (hs : Slices s.elements xm y0 y1 h e) (hh : Tame h k K) (he : Tame e m M) {cy I1 I2 : ℝ}
    (hI1 : I1 ≠ 0) (hI2 : I2 ≠ 0) (h0 : ∫ y in y0..y1, e y * (y - cy) * h y = 0) (c d : ℝ) :
    ∃ N : Set ℝ, N.Countable ∧ ShearFlow s.elements (strainRate xm cy I1 I2 0 c d)
      (crossFlow k xm cy (c / (2 * I2)) (d / I1) h e (Ioo y0 y1 \ N))
      (spineFlow k xm (-(d / (k * I1))) (belowMoment y0 y1 cy h e)) := by
  obtain ⟨N, hN, hcN⟩ := hh.jumps
  obtain ⟨bc, bout, -, ⟨C, hC⟩, Nb, hNb, bd⟩ := belowMoment_facts hh he hs.order h0
  obtain ⟨βm, βb, -⟩ := below_integrand (y0 := y0) (y1 := y1) hh he cy
  have hk := hh.pos
  have hM : 0 ≤ M := (he.pos.le.trans (he.low 0)).trans (he.high 0)
  have hK : 0 ≤ K := (hh.pos.le.trans (hh.low 0)).trans (hh.high 0)
  have hGm : MeasurableSet (Ioo y0 y1 \ N) := measurableSet_Ioo.diff hN.measurableSet
  have me : Measurable fun p : ℝ × ℝ => (Ioo y0 y1 \ N).indicator e p.2 := (he.measurable.indicator hGm).comp measurable_snd
  have mh : Measurable fun p : ℝ × ℝ => h p.2 := hh.measurable.comp measurable_snd
  have mu : Measurable fun p : ℝ × ℝ => p.1 - xm := measurable_fst.sub_const xm
  have my : Measurable fun p : ℝ × ℝ => p.2 - cy := measurable_snd.sub_const cy
  have hH : ∀ y, k ≤ h y := hh.low
  have hfac : ∀ y, |(Ioo y0 y1 \ N).indicator e y * (y - cy)| ≤ M * (|y0 - cy| + |y1 - cy|) := by
    intro y
    by_cases hy : y ∈ Ioo y0 y1 \ N
    · rw [indicator_of_mem hy, abs_mul]
      have h1 : |y - cy| ≤ |y0 - cy| + |y1 - cy| := by
        rw [abs_le]
        constructor
        · have := neg_abs_le (y0 - cy); have := abs_nonneg (y1 - cy); linarith [hy.1.1]
        · have := le_abs_self (y1 - cy); have := abs_nonneg (y0 - cy); linarith [hy.1.2]
      have h2 : |e y| ≤ M := by rw [abs_of_nonneg (he.pos.le.trans (he.low y))]; exact he.high y
      gcongr
    · rw [indicator_of_notMem hy, zero_mul, abs_zero]; positivity
  have hfe : ∀ y, |(Ioo y0 y1 \ N).indicator e y| ≤ M := by
    intro y
    by_cases hy : y ∈ Ioo y0 y1 \ N
    · rw [indicator_of_mem hy, abs_of_nonneg (he.pos.le.trans (he.low y))]; exact he.high y
    · rw [indicator_of_notMem hy, abs_zero]; exact hM
  have bound : ∀ {ca cb P W : ℝ} {y u v : ℝ}, |u| ≤ P → |v| ≤ W →
      |(Ioo y0 y1 \ N).indicator e y * (ca * u + cb * (y - cy) * v)| ≤
        |ca| * (M * P) + |cb| * (M * (|y0 - cy| + |y1 - cy|) * W) := by
    intro ca cb P W y u v hu hv
    have e1 : (Ioo y0 y1 \ N).indicator e y * (ca * u + cb * (y - cy) * v) =
        ca * ((Ioo y0 y1 \ N).indicator e y * u) + cb * ((Ioo y0 y1 \ N).indicator e y * (y - cy) * v) := by ring
    rw [e1]
    refine (abs_add_le _ _).trans ?_
    simp only [abs_mul] at hfac ⊢
    have h1 := hfac y
    have h2 := hfe y
    have h3 : 0 ≤ M * (|y0 - cy| + |y1 - cy|) := by positivity
    gcongr
  refine ⟨N, hN, ?_, ⟨?_, ?_⟩, ?_, ?_⟩
  · -- nothing outside
    intro p hp
    constructor
    · by_cases hy : p.2 ∈ Ioo y0 y1 \ N
      · have h1 : h p.2 ≤ |p.1 - xm| := by
          by_contra hcon
          exact hp (slice_mem hs hy.1 (hcN _ hy.2) (not_le.1 hcon))
        rw [crossFlow, parab_out (hk.le.trans (hH _)) h1, wing_out hk (hH _) h1]
        ring
      · rw [crossFlow, indicator_of_notMem hy, zero_mul]
    · by_cases hx : |p.1 - xm| < k
      · have hy : p.2 ∉ Ioo y0 y1 := fun hy => hp (spine_mem hs hh hy hx)
        rw [spineFlow, if_pos hx, bout _ hy, mul_zero]
      · rw [spineFlow, if_neg hx]
  · unfold crossFlow parab wing
    refine me.mul ((Measurable.const_mul ?_ _).add ((my.const_mul _).mul ?_))
    · exact ((mh.pow_const 2).sub (mu.pow_const 2)).max measurable_const
    · refine Measurable.sub (measurable_const.max (Measurable.min ?_ (mh.sub mu)))
        (measurable_const.max (Measurable.min ?_ (mh.add mu)))
      · exact mu.mul ((mh.div_const k).sub_const 1)
      · exact mu.neg.mul ((mh.div_const k).sub_const 1)
  · exact measurable_cut measurable_const ((bc.measurable.comp measurable_snd).const_mul _) measurable_const
  · refine ⟨max (|c / (2 * I2)| * (M * K ^ 2) + |d / I1| * (M * (|y0 - cy| + |y1 - cy|) * K)) (|-(d / (k * I1))| * C),
      fun p => ⟨?_, ?_⟩⟩
    · refine (bound ?_ ?_).trans (le_max_left _ _)
      · refine abs_parab_le.trans ?_
        exact pow_le_pow_left₀ (hk.le.trans (hH _)) (hh.high _) 2
      · exact (abs_wing_le hk (hH _)).trans (hh.high _)
    · refine le_trans ?_ (le_max_right _ _)
      have hC0 : 0 ≤ C := (abs_nonneg _).trans (hC 0)
      unfold spineFlow
      split
      · rw [abs_mul]; exact mul_le_mul_of_nonneg_left (hC _) (abs_nonneg _)
      · rw [abs_zero]; positivity
  · have hfin : volume (region s.elements) ≠ ⊤ := by
      have : region s.elements = ⋃ t ∈ {t | t ∈ s.elements}, elemRegion t.coords := by ext p; simp [region]
      rw [this]
      exact ((List.finite_toSet s.elements).isCompact_biUnion fun t _ => isCompact_elemRegion _).measure_lt_top.ne
    refine ⟨crossFlow' k xm cy (c / (2 * I2)) (d / I1) h e (Ioo y0 y1 \ N),
      spineFlow k xm (-(d / (k * I1))) ((Ioo y0 y1).indicator fun η => e η * (η - cy) * h η), ?_, ?_, ?_, ?_, ?_⟩
    · refine Measure.integrableOn_of_bounded (M := |c / (2 * I2)| * (M * (2 * K)) +
        |d / I1| * (M * (|y0 - cy| + |y1 - cy|) * (K / k + 1))) hfin ?_ ?_
      · refine Measurable.aestronglyMeasurable ?_
        unfold crossFlow' parab' wing'
        refine me.mul ((Measurable.const_mul ?_ _).add ((my.const_mul _).mul ?_))
        · exact measurable_cut mh (mu.const_mul _) measurable_const
        · exact measurable_cut measurable_const ((mh.div_const k).sub_const 1)
            (measurable_cut mh measurable_const measurable_const)
      · refine Filter.Eventually.of_forall fun p => ?_
        rw [Real.norm_eq_abs]
        have hKk : 0 ≤ K / k := by positivity
        refine bound ?_ ?_
        · unfold parab'
          split
          · rename_i hu
            rw [abs_mul, abs_neg, abs_two]
            have := hh.high p.2
            linarith
          · rw [abs_zero]; positivity
        · unfold wing'
          split
          · have h1 : h p.2 / k ≤ K / k := div_le_div_of_nonneg_right (hh.high _) hk.le
            have h2 : 0 ≤ h p.2 / k := div_nonneg (hk.le.trans (hH _)) hk.le
            rw [abs_le]
            constructor <;> linarith
          · split
            · rw [abs_neg, abs_one]; linarith
            · rw [abs_zero]; linarith
    · refine Measure.integrableOn_of_bounded (M := |-(d / (k * I1))| * (M * (|y0 - cy| + |y1 - cy|) * K)) hfin ?_ ?_
      · exact (measurable_cut measurable_const ((βm.comp measurable_snd).const_mul _) measurable_const).aestronglyMeasurable
      · refine Filter.Eventually.of_forall fun p => ?_
        rw [Real.norm_eq_abs]
        unfold spineFlow
        split
        · rw [abs_mul]; exact mul_le_mul_of_nonneg_left (βb _) (abs_nonneg _)
        · rw [abs_zero]; positivity
    · refine Filter.Eventually.of_forall fun y => ?_
      have cp := (continuous_parab (h y)).comp (continuous_id.sub (continuous_const (y := xm)))
      have cw := (continuous_wing k (h y)).comp (continuous_id.sub (continuous_const (y := xm)))
      refine ⟨?_, {xm - k, xm + k, xm - h y, xm + h y}, (Set.toFinite _).countable, fun x hx => ?_⟩
      · have := (continuous_const (y := (Ioo y0 y1 \ N).indicator e y)).mul (((continuous_const (y := c / (2 * I2))).mul cp).add
          ((continuous_const (y := d / I1 * (y - cy))).mul cw))
        exact this
      · simp only [mem_insert_iff, mem_singleton_iff, not_or] at hx
        obtain ⟨x1, x2, x3, x4⟩ := hx
        have ne : ∀ {a : ℝ}, 0 < a → x ≠ xm - a → x ≠ xm + a → |x - xm| ≠ a := by
          intro a ha n1 n2 hcon
          rcases abs_choice (x - xm) with hc | hc <;> rw [hc] at hcon
          · exact n2 (by linarith)
          · exact n1 (by linarith)
        have hH0 : 0 < h y := hk.trans_le (hH y)
        have d1 : HasDerivAt (fun x => parab (h y) (x - xm)) (parab' (h y) (x - xm)) x :=
          (hasDerivAt_parab hH0.le (ne hH0 x3 x4)).comp_sub_const x xm
        have d2 : HasDerivAt (fun x => wing k (h y) (x - xm)) (wing' k (h y) (x - xm)) x :=
          (hasDerivAt_wing hk (hH y) (ne hk x1 x2) (ne hH0 x3 x4)).comp_sub_const x xm
        exact ((d1.const_mul (c / (2 * I2))).add (d2.const_mul (d / I1 * (y - cy)))).const_mul ((Ioo y0 y1 \ N).indicator e y)
    · refine Filter.Eventually.of_forall fun x => ?_
      by_cases hx : |x - xm| < k
      · refine ⟨?_, Nb, hNb, fun y hy => ?_⟩
        · simp only [spineFlow, if_pos hx]
          exact continuous_const.mul bc
        · simp only [spineFlow, if_pos hx]
          exact (bd y hy).const_mul _
      · refine ⟨?_, ∅, countable_empty, fun y _ => ?_⟩
        · simp only [spineFlow, if_neg hx]
          exact continuous_const
        · simp only [spineFlow, if_neg hx]
          exact hasDerivAt_const _ _
    · intro t ht
      filter_upwards [hs.modulus t ht, hs.covers, countable_snd hN] with p h1 h2 h3 hp
      have hS : p ∈ sliced xm y0 y1 h := by
        have : (p ∈ region s.elements) = (p ∈ sliced xm y0 y1 h) := h2
        rw [← this]
        exact ⟨t, ht, hp⟩
      rw [← h1 hp]
      have hG : p.2 ∈ Ioo y0 y1 \ N := ⟨hS.1, h3⟩
      have hI : p.2 ∈ Ioo y0 y1 := hS.1
      rw [crossFlow', indicator_of_mem hG, parab', if_pos hS.2, wing', spineFlow, indicator_of_mem hI, if_pos hS.2, strainRate]
      split
      · field_simp
        ring
      · field_simp
        ring

/-! ### Its energy -/

theorem box_energy {k H v : ℝ} (hk : 0 < k) (hH : k ≤ H) : ∫ u in (-H)..H, (if |u| < k then v else 0) ^ 2 = 2 * k * v ^ 2 := by
  have e1 : (fun u : ℝ => (if |u| < k then v else 0) ^ 2) = (Ioo (-k) k).indicator fun _ => v ^ 2 := by
    funext u
    by_cases hu : |u| < k
    · rw [if_pos hu, indicator_of_mem (show u ∈ Ioo (-k) k from abs_lt.1 hu)]
    · rw [if_neg hu, indicator_of_notMem (fun hc : u ∈ Ioo (-k) k => hu (abs_lt.2 hc))]
      norm_num
  rw [e1, intervalIntegral.integral_of_le (by linarith), setIntegral_indicator measurableSet_Ioo]
  have e2 : Ioc (-H) H ∩ Ioo (-k) k = Ioo (-k) k :=
    inter_eq_right.2 fun u hu => ⟨by linarith [hu.1], by linarith [hu.2]⟩
  rw [e2, setIntegral_const, smul_eq_mul, measureReal_def, Real.volume_Ioo, ENNReal.toReal_ofReal (by linarith)]
  ring

theorem slices_energy (hs : Slices s.elements xm y0 y1 h e) (hh : Tame h k K) (he : Tame e m M) (hno : NoOverlap s.elements)
    {g : ℝ × ℝ → ℝ} {cy ca cb cs : ℝ} {b : ℝ → ℝ} {N : Set ℝ} (hN : N.Countable)
    (hf : ShearFlow s.elements g (crossFlow k xm cy ca cb h e (Ioo y0 y1 \ N)) (spineFlow k xm cs b)) :
    flowEnergy s.elements (crossFlow k xm cy ca cb h e (Ioo y0 y1 \ N)) (spineFlow k xm cs b) =
      ∫ y in y0..y1, (e y * (ca ^ 2 * (16 / 15 * h y ^ 5) + (cb * (y - cy)) ^ 2 * (2 / 3 * (h y - k) ^ 2 * h y)) +
        2 * k * (cs * b y) ^ 2 / e y) := by
  obtain ⟨i1, i2⟩ := flow_integrable hf
  obtain ⟨B, hB⟩ := hf.bounded
  obtain ⟨m1, m2⟩ := hf.measurable
  have hfin : volume (region s.elements) ≠ ⊤ := by
    have : region s.elements = ⋃ t ∈ {t | t ∈ s.elements}, elemRegion t.coords := by ext p; simp [region]
    rw [this]
    exact ((List.finite_toSet s.elements).isCompact_biUnion fun t _ => isCompact_elemRegion _).measure_lt_top.ne
  set fx := crossFlow k xm cy ca cb h e (Ioo y0 y1 \ N) with hfx
  set fy := spineFlow k xm cs b with hfy
  have hpos : ∀ y, 0 < e y := fun y => he.pos.trans_le (he.low y)
  have hgi : Integrable fun p : ℝ × ℝ => 1 / e p.2 * (fx p ^ 2 + fy p ^ 2) := by
    have h1 : IntegrableOn (fun p : ℝ × ℝ => 1 / e p.2 * (fx p ^ 2 + fy p ^ 2)) (region s.elements) := by
      refine Measure.integrableOn_of_bounded (M := 1 / m * (B ^ 2 + B ^ 2)) hfin ?_ (Filter.Eventually.of_forall fun p => ?_)
      · exact (((measurable_const.div (he.measurable.comp measurable_snd))).mul
          ((m1.pow_const 2).add (m2.pow_const 2))).aestronglyMeasurable
      · have a1 : fx p ^ 2 ≤ B ^ 2 := sq_le_sq' (by have := (hB p).1; have := neg_abs_le (fx p); linarith)
          ((le_abs_self _).trans (hB p).1)
        have a2 : fy p ^ 2 ≤ B ^ 2 := sq_le_sq' (by have := (hB p).2; have := neg_abs_le (fy p); linarith)
          ((le_abs_self _).trans (hB p).2)
        have a3 : 1 / e p.2 ≤ 1 / m := one_div_le_one_div_of_le he.pos (he.low _)
        have a4 := hpos p.2
        have a5 := he.pos
        rw [Real.norm_eq_abs, abs_of_nonneg (by positivity)]
        gcongr
    refine (integrableOn_iff_integrable_of_support_subset fun p hp => ?_).1 h1
    by_contra hcon
    obtain ⟨z1, z2⟩ := hf.outside p hcon
    exact hp (by simp only [z1, z2]; ring)
  have e1 : flowEnergy s.elements fx fy = ∫ p in region s.elements, 1 / e p.2 * (fx p ^ 2 + fy p ^ 2) := by
    rw [parts_integrable hno hgi, flowEnergy]
    congr 1
    refine List.map_congr_left fun t ht => ?_
    rw [← integral_const_mul]
    refine setIntegral_congr_ae (isCompact_elemRegion _).measurableSet ?_
    filter_upwards [hs.modulus t ht] with p hp hpt
    rw [hp hpt]
  let F : ℝ → ℝ → ℝ := fun y u => 1 / e y * ((e y * (ca * parab (h y) u + cb * (y - cy) * wing k (h y) u)) ^ 2 +
    (if |u| < k then cs * b y else 0) ^ 2)
  have hms := measurable_sliced (xm := xm) (y0 := y0) (y1 := y1) hh.measurable
  have e2 : ∀ᵐ p : ℝ × ℝ, p ∈ sliced xm y0 y1 h → 1 / e p.2 * (fx p ^ 2 + fy p ^ 2) = F p.2 (p.1 - xm) := by
    filter_upwards [countable_snd hN] with p hpN hp
    have hG : p.2 ∈ Ioo y0 y1 \ N := ⟨hp.1, hpN⟩
    rw [hfx, hfy, crossFlow, indicator_of_mem hG, spineFlow]
  have hFi : IntegrableOn (fun p : ℝ × ℝ => F p.2 (p.1 - xm)) (sliced xm y0 y1 h) :=
    (integrableOn_congr_fun_ae ((ae_restrict_iff' hms).2 e2)).1 hgi.integrableOn
  rw [e1, setIntegral_congr_set hs.covers, setIntegral_congr_ae hms e2,
    sliced_integral hh.measurable hs.order.le (fun y => hh.pos.le.trans (hh.low y)) hFi]
  refine intervalIntegral.integral_congr fun y _ => ?_
  have hk := hh.pos
  have hH := hh.low y
  have hc : Continuous fun u => (ca * parab (h y) u + cb * (y - cy) * wing k (h y) u) ^ 2 :=
    ((continuous_const.mul (continuous_parab (h y))).add (continuous_const.mul (continuous_wing k (h y)))).pow 2
  have j1 : IntervalIntegrable (fun u => e y * (ca * parab (h y) u + cb * (y - cy) * wing k (h y) u) ^ 2) volume (-h y) (h y) :=
    (continuous_const.mul hc).intervalIntegrable _ _
  have j2 : IntervalIntegrable (fun u => 1 / e y * (if |u| < k then cs * b y else 0) ^ 2) volume (-h y) (h y) := by
    refine bounded_interval (C := |1 / e y * (cs * b y) ^ 2|) ?_ ?_ _ _
    · exact ((Measurable.ite (measurableSet_lt continuous_abs.measurable measurable_const) measurable_const
        measurable_const).pow_const 2).const_mul _
    · intro u
      split
      · exact le_rfl
      · rw [zero_pow two_ne_zero, mul_zero, abs_zero]; exact abs_nonneg _
  have e3 : ∀ u, F y u = e y * (ca * parab (h y) u + cb * (y - cy) * wing k (h y) u) ^ 2 +
      1 / e y * (if |u| < k then cs * b y else 0) ^ 2 := by
    intro u
    have := (hpos y).ne'
    simp only [F]
    field_simp
  simp only [e3]
  rw [intervalIntegral.integral_add j1 j2, intervalIntegral.integral_const_mul, intervalIntegral.integral_const_mul,
    slice_energy hk hH, box_energy hk hH]
  ring

/-- The energy of the flow for the force `(c, d)`: the two directions do not mix. -/
theorem slices_energy_split (hs : Slices s.elements xm y0 y1 h e) (hh : Tame h k K) (he : Tame e m M) {cy I1 I2 : ℝ}
    (hI1 : I1 ≠ 0) (hI2 : I2 ≠ 0) (h0 : ∫ y in y0..y1, e y * (y - cy) * h y = 0) (c d : ℝ) :
    ∫ y in y0..y1, (e y * ((c / (2 * I2)) ^ 2 * (16 / 15 * h y ^ 5) +
        (d / I1 * (y - cy)) ^ 2 * (2 / 3 * (h y - k) ^ 2 * h y)) +
        2 * k * (-(d / (k * I1)) * belowMoment y0 y1 cy h e y) ^ 2 / e y) =
      c ^ 2 * ((∫ y in y0..y1, 4 / 15 * (e y * h y ^ 5)) / I2 ^ 2) +
      d ^ 2 * ((∫ y in y0..y1, ((∫ η in y0..y, 2 * (e η * (η - cy) * h η)) ^ 2 / (2 * k * e y) +
        2 / 3 * (e y * (y - cy) ^ 2 * (h y - k) ^ 2 * h y))) / I1 ^ 2) := by
  have hk := hh.pos
  have hpos : ∀ y, 0 < e y := fun y => he.pos.trans_le (he.low y)
  have hH0 : ∀ y, 0 < h y := fun y => hk.trans_le (hh.low y)
  obtain ⟨bc, -, bin, -⟩ := belowMoment_facts hh he hs.order h0
  have j1 : IntervalIntegrable (fun y => 4 / 15 * (e y * h y ^ 5)) volume y0 y1 := by
    refine bounded_interval (f := fun y => 4 / 15 * (e y * h y ^ 5)) (C := 4 / 15 * (M * K ^ 5)) 
      ((he.measurable.mul (hh.measurable.pow_const 5)).const_mul _) (fun y => ?_) _ _
    have b1 := hpos y
    have b2 := hH0 y
    rw [abs_of_nonneg (by positivity)]
    have a1 := he.high y
    have a2 := hh.high y
    have a5 : 0 ≤ M := (hpos y).le.trans a1
    gcongr
  have j2 : IntervalIntegrable (fun y => 1 / (2 * k * e y) * (2 * belowMoment y0 y1 cy h e y) ^ 2) volume y0 y1 := by
    refine IntervalIntegrable.mul_continuousOn ?_ ((continuous_const.mul bc).pow 2).continuousOn
    refine bounded_interval (f := fun y => 1 / (2 * k * e y)) (C := 1 / (2 * k * m)) (measurable_const.div (he.measurable.const_mul _)) (fun y => ?_) _ _
    have b1 := hpos y
    have b2 := he.pos
    rw [abs_of_nonneg (by positivity)]
    have a1 := he.low y
    gcongr
  have j3 : IntervalIntegrable (fun y => e y * (h y - k) ^ 2 * h y * (2 / 3 * (y - cy) ^ 2)) volume y0 y1 := by
    refine IntervalIntegrable.mul_continuousOn ?_ (by fun_prop)
    refine bounded_interval (f := fun y => e y * (h y - k) ^ 2 * h y) (C := M * K ^ 2 * K)
      ((he.measurable.mul ((hh.measurable.sub_const k).pow_const 2)).mul hh.measurable)
      (fun y => ?_) _ _
    have b1 := hpos y
    have b2 := hH0 y
    rw [abs_of_nonneg (by positivity)]
    have a1 := he.high y
    have a2 := hh.high y
    have a3 : 0 ≤ h y - k := by linarith [hh.low y]
    have a4 : h y - k ≤ K := by linarith
    have a5 : 0 ≤ M := (hpos y).le.trans a1
    gcongr
  have e1 : ∫ y in y0..y1, ((∫ η in y0..y, 2 * (e η * (η - cy) * h η)) ^ 2 / (2 * k * e y) +
        2 / 3 * (e y * (y - cy) ^ 2 * (h y - k) ^ 2 * h y)) =
      ∫ y in y0..y1, (1 / (2 * k * e y) * (2 * belowMoment y0 y1 cy h e y) ^ 2 + e y * (h y - k) ^ 2 * h y * (2 / 3 * (y - cy) ^ 2)) := by
    refine intervalIntegral.integral_congr fun y hy => ?_
    rw [uIcc_of_le hs.order.le] at hy
    rw [intervalIntegral.integral_const_mul, ← bin y hy]
    ring
  have e2 : ∀ P : ℝ, c ^ 2 * (P / I2 ^ 2) = c ^ 2 / I2 ^ 2 * P := fun P => by ring
  have e3 : ∀ P : ℝ, d ^ 2 * (P / I1 ^ 2) = d ^ 2 / I1 ^ 2 * P := fun P => by ring
  rw [e1, e2, e3, ← intervalIntegral.integral_const_mul, ← intervalIntegral.integral_const_mul,
    ← intervalIntegral.integral_add (j1.const_mul _) ((j2.add j3).const_mul _)]
  refine intervalIntegral.integral_congr fun y _ => ?_
  have := (hpos y).ne'
  field_simp
  ring

/-! ### The shear areas -/

/-- **C91** for a section that is symmetric about a vertical axis, with a spine of half-width `k` through its whole height:
its centroid is on the axis, the product of inertia vanishes, and the shear areas along `x` and `y`, and along the principal
axes, are at least what the elementary theory of shear in beams gives from the half-widths `h y` and the moduli `e y`.  The shear
area along `y` is governed by the first moment `S y` of the part of the section below `y`. -/
theorem C91_symmetric (hg : GoodSection s) (hP : Physical s.elements) (hc : ConformingMesh s.meshNodes s.elements)
    (hno : NoOverlap s.elements) (hr : s.geometricAnalysis = .ok r) (sv : Solvers) (ty : SolverType)
    (w : WarpResults s.numNodes) (hw : s.warping sv ty r = .ok w) (hnu : isComposite s.materials → r.nuEff = 0)
    (hs : Slices s.elements xm y0 y1 h e) (hh : Tame h k K) (he : Tame e m M) :
    let A := (assembleTorsion (s.elements.map fun t => t.shiftBy r.cx r.cy)).1
    let f := assembleShearLoad (s.elements.map fun t => t.shiftBy r.cx r.cy) (warpIn s.materials r)
    let φ := r.cent.phi * Real.pi / 180
    let S := fun y => ∫ η in y0..y, 2 * (e η * (η - r.cy) * h η)
    let X := ∫ y in y0..y1, 4 / 15 * (e y * h y ^ 5)
    let Y := ∫ y in y0..y1, (S y ^ 2 / (2 * k * e y) + 2 / 3 * (e y * (y - r.cy) ^ 2 * (h y - k) ^ 2 * h y))
    SolvesBordered A f.1 w.psi → SolvesBordered A f.2 w.phiS →
    r.cx = xm ∧ r.cent.ixyC = 0 ∧
    r.cent.iyyC ^ 2 ≤ w.areas.sx * X ∧
    r.cent.ixxC ^ 2 ≤ w.areas.sy * Y ∧
    1 ≤ w.areas.s11 * (Real.cos φ ^ 2 * (X / r.cent.iyyC ^ 2) + Real.sin φ ^ 2 * (Y / r.cent.ixxC ^ 2)) ∧
    1 ≤ w.areas.s22 * (Real.sin φ ^ 2 * (X / r.cent.iyyC ^ 2) + Real.cos φ ^ 2 * (Y / r.cent.ixxC ^ 2)) := by
  intro A f φ S X Y h1 h2
  obtain ⟨-, -, p1, p2, -⟩ := C09_positive hr hP
  obtain ⟨hx, hxy, -, -, -, h0⟩ := slices_moments hr hP hno hs hh
  have key : ∀ c d, ∃ fx fy, ShearFlow s.elements (strainRate r.cx r.cy r.cent.ixxC r.cent.iyyC r.cent.ixyC c d) fx fy ∧
      flowEnergy s.elements fx fy = c ^ 2 * (X / r.cent.iyyC ^ 2) + d ^ 2 * (Y / r.cent.ixxC ^ 2) := by
    intro c d
    obtain ⟨N, hN, hf⟩ := slices_flow hs hh he p1.ne' p2.ne' h0 c d
    refine ⟨_, _, by rw [hx, hxy]; exact hf, ?_⟩
    rw [slices_energy hs hh he hno hN hf, slices_energy_split hs hh he p1.ne' p2.ne' h0 c d]
  obtain ⟨f1, g1, k1, l1⟩ := key 1 0
  obtain ⟨f2, g2, k2, l2⟩ := key 0 1
  obtain ⟨f3, g3, k3, l3⟩ := key (Real.cos φ) (Real.sin φ)
  obtain ⟨f4, g4, k4, l4⟩ := key (-Real.sin φ) (Real.cos φ)
  have q1 := (C91_shear_flow s r hg hP hc hno hr sv ty w hw hnu h1 h2).1 k1
  have q2 := (C91_shear_flow s r hg hP hc hno hr sv ty w hw hnu h1 h2).2.1 k2
  have q3 := (C91_shear_flow s r hg hP hc hno hr sv ty w hw hnu h1 h2).2.2.1 k3
  have q4 := (C91_shear_flow s r hg hP hc hno hr sv ty w hw hnu h1 h2).2.2.2 k4
  rw [l1] at q1
  rw [l2] at q2
  rw [l3] at q3
  rw [l4, neg_sq] at q4
  refine ⟨hx, hxy, ?_, ?_, q3, q4⟩
  · have : w.areas.sx * (1 ^ 2 * (X / r.cent.iyyC ^ 2) + 0 ^ 2 * (Y / r.cent.ixxC ^ 2)) = w.areas.sx * X / r.cent.iyyC ^ 2 := by ring
    rw [this, le_div_iff₀ (by positivity), one_mul] at q1
    exact q1
  · have : w.areas.sy * (0 ^ 2 * (X / r.cent.iyyC ^ 2) + 1 ^ 2 * (Y / r.cent.ixxC ^ 2)) = w.areas.sy * Y / r.cent.ixxC ^ 2 := by ring
    rw [this, le_div_iff₀ (by positivity), one_mul] at q2
    exact q2

end SP
