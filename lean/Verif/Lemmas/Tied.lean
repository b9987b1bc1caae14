import Verif.Lemmas.Poincare
import Verif.Lemmas.Rects

/-!
# Fields on connected bodies: from parallelograms to the body
-/

namespace SP

open Spec MeasureTheory Set Filter Topology

variable {R A B B' C : Set (ℝ × ℝ)} {F : ℝ × ℝ → ℝ}

/-! ### Sets with a common part -/

theorem soft_integrable (hR : IsCompact R) (hF : SoftField R F) (h : A ⊆ R) (m : ℝ) : IntegrableOn (fun p => (F p - m) ^ 2) A := by
  obtain ⟨K, hK⟩ := hF.bdd
  have h1 : IntegrableOn (fun p => (F p - m) ^ 2) R := by
    have : IsFiniteMeasure (volume.restrict R) := ⟨by simpa using hR.measure_lt_top⟩
    refine Integrable.of_bound ?_ ((K + |m|) ^ 2) ?_
    · exact (hF.meas.sub aestronglyMeasurable_const).pow 2
    · refine (ae_restrict_iff' hR.measurableSet).2 (Eventually.of_forall fun p hp => ?_)
      rw [norm_pow]
      refine pow_le_pow_left₀ (norm_nonneg _) ((norm_sub_le _ _).trans ?_) 2
      exact add_le_add (hK p hp) le_rfl
  exact h1.mono_set h

theorem sq_mono (hR : IsCompact R) (hF : SoftField R F) (h : A ⊆ B) (hB : B ⊆ R) (m : ℝ) :
    ∫ p in A, (F p - m) ^ 2 ≤ ∫ p in B, (F p - m) ^ 2 :=
  setIntegral_mono_set (soft_integrable hR hF hB m) (Eventually.of_forall fun _ => sq_nonneg _) h.eventuallyLE

theorem sq_change (hR : IsCompact R) (hF : SoftField R F) (h : A ⊆ R) (m m' : ℝ) :
    ∫ p in A, (F p - m) ^ 2 ≤ 2 * (∫ p in A, (F p - m') ^ 2) + 2 * (m - m') ^ 2 * volume.real A := by
  have hfin : volume A ≠ ⊤ := (measure_lt_top_of_subset h hR.measure_lt_top.ne).ne
  have i1 := soft_integrable hR hF h m
  have i2 := soft_integrable hR hF h m'
  have i3 : IntegrableOn (fun _ : ℝ × ℝ => 2 * (m - m') ^ 2) A := integrableOn_const hfin
  have key := setIntegral_mono i1 ((i2.const_mul 2).add i3) fun p => by
    change (F p - m) ^ 2 ≤ 2 * (F p - m') ^ 2 + 2 * (m - m') ^ 2
    nlinarith [sq_nonneg ((F p - m') + (m - m'))]
  refine key.trans (le_of_eq ?_)
  have e : (∫ p in A, ((fun p : ℝ × ℝ => 2 * (F p - m') ^ 2) + fun _ : ℝ × ℝ => 2 * (m - m') ^ 2 : ℝ × ℝ → ℝ) p) =
      (∫ p in A, 2 * (F p - m') ^ 2) + ∫ _ in A, 2 * (m - m') ^ 2 := integral_add (i2.const_mul 2) i3
  rw [e, integral_const_mul, setIntegral_const]
  simp only [smul_eq_mul]
  ring

theorem mean_close (hR : IsCompact R) (hF : SoftField R F) (h : A ⊆ R) (m m' : ℝ) :
    (m - m') ^ 2 * volume.real A ≤ 2 * (∫ p in A, (F p - m) ^ 2) + 2 * ∫ p in A, (F p - m') ^ 2 := by
  have hfin : volume A ≠ ⊤ := (measure_lt_top_of_subset h hR.measure_lt_top.ne).ne
  have i1 := soft_integrable hR hF h m
  have i2 := soft_integrable hR hF h m'
  have i3 : IntegrableOn (fun _ : ℝ × ℝ => (m - m') ^ 2) A := integrableOn_const hfin
  have key := setIntegral_mono i3 ((i1.const_mul 2).add (i2.const_mul 2)) fun p => by
    change (m - m') ^ 2 ≤ 2 * (F p - m) ^ 2 + 2 * (F p - m') ^ 2
    nlinarith [sq_nonneg ((F p - m') + (F p - m))]
  have e : (∫ p in A, ((fun p : ℝ × ℝ => 2 * (F p - m) ^ 2) + fun p : ℝ × ℝ => 2 * (F p - m') ^ 2 : ℝ × ℝ → ℝ) p) =
      (∫ p in A, 2 * (F p - m) ^ 2) + ∫ p in A, 2 * (F p - m') ^ 2 := integral_add (i1.const_mul 2) (i2.const_mul 2)
  rw [e, integral_const_mul, integral_const_mul, setIntegral_const] at key
  simpa [mul_comm] using key

theorem Tied.symm (h : Tied R A B) : Tied R B A := by
  obtain ⟨C, hC, h⟩ := h
  exact ⟨C, hC, fun F hF => let ⟨m, hm⟩ := h F hF; ⟨m, by rwa [add_comm]⟩⟩

theorem Tied.mono (hR : IsCompact R) (h : Tied R A B) (hA : A ⊆ R) (hB : B ⊆ R) {A' B' : Set (ℝ × ℝ)} (hA' : A' ⊆ A) (hB' : B' ⊆ B) :
    Tied R A' B' := by
  obtain ⟨C, hC, h⟩ := h
  exact ⟨C, hC, fun F hF => let ⟨m, hm⟩ := h F hF; ⟨m, (add_le_add (sq_mono hR hF hA' hA m) (sq_mono hR hF hB' hB m)).trans hm⟩⟩

theorem sq_nonneg_int (A : Set (ℝ × ℝ)) (F : ℝ × ℝ → ℝ) (m : ℝ) : 0 ≤ ∫ p in A, (F p - m) ^ 2 :=
  integral_nonneg fun _ => sq_nonneg _

/-- Two ties with a common part. -/
theorem tied_join (hR : IsCompact R) (h1 : Tied R A B) (h2 : Tied R B' C) (hB : B ⊆ R) (hB' : B' ⊆ R) (hC : C ⊆ R)
    (hpos : volume (B ∩ B') ≠ 0) : ∃ K, 0 ≤ K ∧ ∀ F, SoftField R F → ∃ m,
      (∫ p in A, (F p - m) ^ 2) + (∫ p in B, (F p - m) ^ 2) + ∫ p in C, (F p - m) ^ 2 ≤ K * ∫ p in R, gradSq F p := by
  obtain ⟨C1, k1, h1⟩ := h1
  obtain ⟨C2, k2, h2⟩ := h2
  have hv : 0 < volume.real (B ∩ B') := by
    refine (measureReal_nonneg).lt_of_ne fun h => hpos ?_
    have := (measureReal_eq_zero_iff (measure_lt_top_of_subset (inter_subset_left.trans hB) hR.measure_lt_top.ne).ne).1 h.symm
    exact this
  set v := volume.real (B ∩ B')
  refine ⟨C1 + 2 * C2 + 4 * (C1 + C2) / v * volume.real C, by positivity, fun F hF => ?_⟩
  obtain ⟨m1, e1⟩ := h1 F hF
  obtain ⟨m2, e2⟩ := h2 F hF
  set D := ∫ p in R, gradSq F p
  refine ⟨m1, ?_⟩
  have a1 := sq_mono hR hF (inter_subset_left : B ∩ B' ⊆ B) hB m1
  have a2 := sq_mono hR hF (inter_subset_right : B ∩ B' ⊆ B') hB' m2
  have a3 := mean_close hR hF (inter_subset_left.trans hB : B ∩ B' ⊆ R) m1 m2
  have a4 := sq_change hR hF hC m1 m2
  have n1 := sq_nonneg_int A F m1
  have n2 := sq_nonneg_int C F m2
  have b1 : (m1 - m2) ^ 2 ≤ 2 * (C1 + C2) / v * D := by
    rw [div_mul_eq_mul_div, le_div_iff₀ hv]
    nlinarith [sq_nonneg_int B' F m2]
  have b2 := mul_le_mul_of_nonneg_right b1 (measureReal_nonneg (μ := volume) (s := C))
  have b3 : (C1 + 2 * C2 + 4 * (C1 + C2) / v * volume.real C) * D =
      C1 * D + 2 * (C2 * D) + 2 * (2 * (C1 + C2) / v * D * volume.real C) := by ring
  rw [b3]
  nlinarith [sq_nonneg_int B' F m2]

theorem tied_trans (hR : IsCompact R) (h1 : Tied R A B) (h2 : Tied R B' C) (hB : B ⊆ R) (hB' : B' ⊆ R) (hC : C ⊆ R)
    (_hCm : MeasurableSet C) (hpos : volume (B ∩ B') ≠ 0) : Tied R A C := by
  obtain ⟨K, hK, h⟩ := tied_join hR h1 h2 hB hB' hC hpos
  exact ⟨K, hK, fun F hF => let ⟨m, hm⟩ := h F hF; ⟨m, by linarith [sq_nonneg_int B F m]⟩⟩

theorem tied_union (hR : IsCompact R) (h1 : Tied R A B) (h2 : Tied R A C) (hA : A ⊆ R) (hB : B ⊆ R) (hC : C ⊆ R)
    (hCm : MeasurableSet C) (hpos : volume A ≠ 0) : Tied R A (B ∪ C) := by
  obtain ⟨K, hK, h⟩ := tied_join hR h1.symm h2 hA hA hC (by rwa [inter_self])
  refine ⟨K, hK, fun F hF => ?_⟩
  obtain ⟨m, hm⟩ := h F hF
  refine ⟨m, ?_⟩
  have i : IntegrableOn (fun p => (F p - m) ^ 2) B := soft_integrable hR hF hB m
  have e : ∫ p in B ∪ C, (F p - m) ^ 2 ≤ (∫ p in B, (F p - m) ^ 2) + ∫ p in C, (F p - m) ^ 2 := by
    have e1 : ∫ p in B ∪ C, (F p - m) ^ 2 = (∫ p in B \ C, (F p - m) ^ 2) + ∫ p in C, (F p - m) ^ 2 := by
      rw [← sdiff_union_self]
      exact setIntegral_union disjoint_sdiff_left hCm (i.mono_set sdiff_subset) (soft_integrable hR hF hC m)
    rw [e1]
    exact add_le_add (sq_mono hR hF sdiff_subset hB m) le_rfl
  linarith

/-! ### Squares and triangles -/

theorem closedBall_frame (p : ℝ × ℝ) {r : ℝ} (hr : 0 < r) :
    inFrame (p.1 - r, p.2 - r) (2 * r, 0) (0, 2 * r) '' (Icc (0 : ℝ) 1 ×ˢ Icc (0 : ℝ) 1) = Metric.closedBall p r := by
  ext z
  rw [← closedBall_prod_same, mem_prod, Real.closedBall_eq_Icc, Real.closedBall_eq_Icc]
  constructor
  · rintro ⟨w, ⟨⟨h1, h2⟩, h3, h4⟩, rfl⟩
    simp only [inFrame, mul_zero, add_zero, zero_add]
    exact ⟨⟨by nlinarith, by nlinarith⟩, by nlinarith, by nlinarith⟩
  · rintro ⟨⟨h1, h2⟩, h3, h4⟩
    refine ⟨((z.1 - p.1 + r) / (2 * r), (z.2 - p.2 + r) / (2 * r)), ⟨⟨?_, ?_⟩, ?_, ?_⟩, ?_⟩
    · exact div_nonneg (by linarith) (by linarith)
    · rw [div_le_one (by linarith)]; linarith
    · exact div_nonneg (by linarith) (by linarith)
    · rw [div_le_one (by linarith)]; linarith
    · ext <;> simp only [inFrame, mul_zero, add_zero, zero_add] <;> field_simp <;> ring

theorem tied_ball {p : ℝ × ℝ} {r : ℝ} (hr : 0 < r) (h : Metric.closedBall p r ⊆ R) :
    Tied R (Metric.closedBall p r) (Metric.closedBall p r) := by
  rw [← closedBall_frame p hr] at h ⊢
  exact tied_frame (by simp; exact hr.ne') h

/-- The squares around points near each other. -/
theorem tied_near (hR : IsCompact R) {x y : ℝ × ℝ} {r r' : ℝ} (hr : 0 < r) (hr' : 0 < r') (h : Metric.closedBall x r ⊆ R)
    (h' : Metric.closedBall y r' ⊆ R) (hy : y ∈ Metric.ball x r) : Tied R (Metric.closedBall x r) (Metric.closedBall y r') := by
  refine tied_trans hR (tied_ball hr h) (tied_ball hr' h') h h' h' Metric.isClosed_closedBall.measurableSet ?_
  have ho : IsOpen (Metric.ball x r ∩ Metric.ball y r') := Metric.isOpen_ball.inter Metric.isOpen_ball
  have hpos := ho.measure_pos volume ⟨y, hy, Metric.mem_ball_self hr'⟩
  exact (hpos.trans_le (measure_mono (inter_subset_inter Metric.ball_subset_closedBall Metric.ball_subset_closedBall))).ne'

theorem tied_connected (hR : IsCompact R) (hc : IsPreconnected (interior R)) {x y : ℝ × ℝ} {r r' : ℝ} (hr : 0 < r) (hr' : 0 < r')
    (h : Metric.closedBall x r ⊆ R) (h' : Metric.closedBall y r' ⊆ R) : Tied R (Metric.closedBall x r) (Metric.closedBall y r') := by
  have ex : ∀ x ∈ interior R, ∃ r > 0, Metric.closedBall x r ⊆ R := fun x hx => by
    obtain ⟨r, hr, h⟩ := Metric.isOpen_iff.1 isOpen_interior x hx
    exact ⟨r / 2, half_pos hr, (Metric.closedBall_subset_ball (half_lt_self hr)).trans (h.trans interior_subset)⟩
  have hin : ∀ {x : ℝ × ℝ} {r : ℝ}, 0 < r → Metric.closedBall x r ⊆ R → x ∈ interior R := fun {x r} hr h =>
    mem_interior.2 ⟨Metric.ball x r, Metric.ball_subset_closedBall.trans h, Metric.isOpen_ball, Metric.mem_ball_self hr⟩
  let P : ℝ × ℝ → ℝ × ℝ → Prop := fun x y => ∀ r r', 0 < r → 0 < r' → Metric.closedBall x r ⊆ R → Metric.closedBall y r' ⊆ R →
    Tied R (Metric.closedBall x r) (Metric.closedBall y r')
  have join : ∀ {x y z : ℝ × ℝ} {r s t : ℝ}, 0 < s → Metric.closedBall y s ⊆ R → Metric.closedBall z t ⊆ R →
      Tied R (Metric.closedBall x r) (Metric.closedBall y s) → Tied R (Metric.closedBall y s) (Metric.closedBall z t) →
      Tied R (Metric.closedBall x r) (Metric.closedBall z t) := fun {x y z r s t} hs hy hz h1 h2 => by
    refine tied_trans hR h1 h2 hy hy hz Metric.isClosed_closedBall.measurableSet ?_
    rw [inter_self]
    exact (Metric.measure_closedBall_pos volume y hs).ne'
  have key : P x y := by
    refine hc.induction₂' P (fun x hx => ?_) (fun x y z _ hy _ h1 h2 r r' hr hr' hx hz => ?_) (hin hr h) (hin hr' h')
    · obtain ⟨r0, hr0, h0⟩ := ex x hx
      filter_upwards [mem_nhdsWithin_of_mem_nhds (Metric.ball_mem_nhds x hr0)] with y hy
      have near : P x y := fun r r' hr hr' hx hy' =>
        join hr0 h0 hy' (tied_near hR hr hr0 hx h0 (Metric.mem_ball_self hr)) (tied_near hR hr0 hr' h0 hy' hy)
      exact ⟨near, fun r r' hr hr' h1 h2 => (near r' r hr' hr h2 h1).symm⟩
    · obtain ⟨s, hs, h3⟩ := ex y hy
      exact join hs h3 hz (h1 r s hr hs hx h3) (h2 s r' hs hr' h3 hz)
  exact key r r' hr hr' h h'

/-- The parallelogram at the corner `P` of a triangle, up to the middle of the opposite edge. -/
def cornerPara (P Q S : ℝ × ℝ) : Set (ℝ × ℝ) :=
  inFrame P ((Q.1 - P.1) / 2, (Q.2 - P.2) / 2) ((S.1 - P.1) / 2, (S.2 - P.2) / 2) '' (Icc (0 : ℝ) 1 ×ˢ Icc (0 : ℝ) 1)

theorem mem_triangle {P Q S p : ℝ × ℝ} {α β γ : ℝ} (h1 : 0 ≤ α) (h2 : 0 ≤ β) (h3 : 0 ≤ γ) (h4 : α + β + γ = 1)
    (e1 : p.1 = α * P.1 + β * Q.1 + γ * S.1) (e2 : p.2 = α * P.2 + β * Q.2 + γ * S.2) : p ∈ triangle P Q S := by
  have hcv : Convex ℝ (triangle P Q S) := convex_convexHull ℝ _
  have m0 : P ∈ triangle P Q S := subset_convexHull ℝ _ (by simp)
  have m1 : Q ∈ triangle P Q S := subset_convexHull ℝ _ (by simp)
  have m2 : S ∈ triangle P Q S := subset_convexHull ℝ _ (by simp)
  have := hcv.sum_mem (t := Finset.univ) (w := ![α, β, γ]) (z := ![P, Q, S])
    (by intro i _; fin_cases i <;> simpa) (by simp [Fin.sum_univ_three, h4]) (by intro i _; fin_cases i <;> simpa)
  refine (congrArg (· ∈ triangle P Q S) ?_).mp this
  ext <;> simp [Fin.sum_univ_three, e1, e2]

theorem para_subset (P Q S : ℝ × ℝ) : cornerPara P Q S ⊆ triangle P Q S := by
  rintro _ ⟨z, ⟨⟨h1, h2⟩, h3, h4⟩, rfl⟩
  refine mem_triangle (α := 1 - z.1 / 2 - z.2 / 2) (β := z.1 / 2) (γ := z.2 / 2) (by linarith) (by linarith) (by linarith) (by ring) ?_ ?_ <;>
    simp only [inFrame] <;> ring

theorem mem_para {P Q S p : ℝ × ℝ} {α β γ : ℝ} (h2 : 0 ≤ β) (h3 : 0 ≤ γ) (h4 : α + β + γ = 1) (h5 : β ≤ 1 / 2) (h6 : γ ≤ 1 / 2)
    (e1 : p.1 = α * P.1 + β * Q.1 + γ * S.1) (e2 : p.2 = α * P.2 + β * Q.2 + γ * S.2) : p ∈ cornerPara P Q S := by
  refine ⟨(2 * β, 2 * γ), ⟨⟨by linarith, by linarith⟩, by linarith, by linarith⟩, ?_⟩
  have hα : α = 1 - β - γ := by linarith
  ext
  · simp only [inFrame, e1, hα]; ring
  · simp only [inFrame, e2, hα]; ring

theorem frame_measurable {o u v : ℝ × ℝ} (h : u.1 * v.2 - u.2 * v.1 ≠ 0) :
    MeasurableSet (inFrame o u v '' (Icc (0 : ℝ) 1 ×ˢ Icc (0 : ℝ) 1)) ∧ volume (inFrame o u v '' (Icc (0 : ℝ) 1 ×ˢ Icc (0 : ℝ) 1)) ≠ 0 := by
  obtain ⟨hem, c, hc, hmap⟩ := inFrame_measure (o := o) h
  have hm := hem.measurableSet_image.2 (measurableSet_Icc.prod measurableSet_Icc : MeasurableSet (Icc (0 : ℝ) 1 ×ˢ Icc (0 : ℝ) 1))
  refine ⟨hm, fun h0 => ?_⟩
  have := hem.map_apply volume (inFrame o u v '' (Icc (0 : ℝ) 1 ×ˢ Icc (0 : ℝ) 1))
  rw [hem.injective.preimage_image, hmap, Measure.smul_apply, h0, Measure.volume_eq_prod, Measure.prod_prod] at this
  simp at this

/-- A triangle is tied to itself: it is the union of three parallelograms that meet in the middle. -/
theorem tied_elem (hR : IsCompact R) {c : Coords} (hp : Proper c) (h : elemRegion c ⊆ R) : Tied R (elemRegion c) (elemRegion c) := by
  have hdet : signedArea2 (cornerA c) (cornerB c) (cornerC c) ≠ 0 := hp.2.ne'
  change triangle (cornerA c) (cornerB c) (cornerC c) ⊆ R at h
  change Tied R (triangle (cornerA c) (cornerB c) (cornerC c)) (triangle (cornerA c) (cornerB c) (cornerC c))
  generalize cornerA c = P at *
  generalize cornerB c = Q at *
  generalize cornerC c = S at *
  rw [signedArea2] at hdet
  have t1 : triangle Q S P = triangle P Q S := by
    unfold triangle; congr 1; ext; simp only [mem_insert_iff, mem_singleton_iff]; tauto
  have t2 : triangle S P Q = triangle P Q S := by
    unfold triangle; congr 1; ext; simp only [mem_insert_iff, mem_singleton_iff]; tauto
  have s0 := para_subset P Q S
  have s1 := para_subset Q S P
  have s2 := para_subset S P Q
  rw [t1] at s1
  rw [t2] at s2
  have d0 : (Q.1 - P.1) / 2 * ((S.2 - P.2) / 2) - (Q.2 - P.2) / 2 * ((S.1 - P.1) / 2) ≠ 0 := fun e => hdet (by linear_combination 4 * e)
  have d1 : (S.1 - Q.1) / 2 * ((P.2 - Q.2) / 2) - (S.2 - Q.2) / 2 * ((P.1 - Q.1) / 2) ≠ 0 := fun e => hdet (by linear_combination 4 * e)
  have d2 : (P.1 - S.1) / 2 * ((Q.2 - S.2) / 2) - (P.2 - S.2) / 2 * ((Q.1 - S.1) / 2) ≠ 0 := fun e => hdet (by linear_combination 4 * e)
  have k0 : Tied R (cornerPara P Q S) (cornerPara P Q S) := tied_frame d0 (s0.trans h)
  have k1 : Tied R (cornerPara Q S P) (cornerPara Q S P) := tied_frame d1 (s1.trans h)
  have k2 : Tied R (cornerPara S P Q) (cornerPara S P Q) := tied_frame d2 (s2.trans h)
  have m0 : MeasurableSet (cornerPara P Q S) ∧ volume (cornerPara P Q S) ≠ 0 := frame_measurable d0
  have m1 : MeasurableSet (cornerPara Q S P) ∧ volume (cornerPara Q S P) ≠ 0 := frame_measurable d1
  have m2 : MeasurableSet (cornerPara S P Q) ∧ volume (cornerPara S P Q) ≠ 0 := frame_measurable d2
  -- the middle
  set M := inFrame ((P.1 + Q.1 + S.1) / 3, (P.2 + Q.2 + S.2) / 3) ((Q.1 - P.1) / 12, (Q.2 - P.2) / 12) ((S.1 - P.1) / 12, (S.2 - P.2) / 12)
    '' (Icc (0 : ℝ) 1 ×ˢ Icc (0 : ℝ) 1) with hM
  have hMv : volume M ≠ 0 := (frame_measurable (o := ((P.1 + Q.1 + S.1) / 3, (P.2 + Q.2 + S.2) / 3)) (fun e => hdet (by
    simp only at e; linear_combination 144 * e))).2
  have mid : M ⊆ cornerPara P Q S ∧ M ⊆ cornerPara Q S P ∧ M ⊆ cornerPara S P Q := by
    refine ⟨?_, ?_, ?_⟩ <;> rintro _ ⟨z, ⟨⟨h1, h2⟩, h3, h4⟩, rfl⟩
    · refine mem_para (α := 1 / 3 - z.1 / 12 - z.2 / 12) (β := 1 / 3 + z.1 / 12) (γ := 1 / 3 + z.2 / 12) (by linarith) (by linarith)
        (by ring) (by linarith) (by linarith) ?_ ?_ <;> simp only [inFrame] <;> ring
    · refine mem_para (γ := 1 / 3 - z.1 / 12 - z.2 / 12) (α := 1 / 3 + z.1 / 12) (β := 1 / 3 + z.2 / 12) (by linarith) (by linarith)
        (by ring) (by linarith) (by linarith) ?_ ?_ <;> simp only [inFrame] <;> ring
    · refine mem_para (β := 1 / 3 - z.1 / 12 - z.2 / 12) (γ := 1 / 3 + z.1 / 12) (α := 1 / 3 + z.2 / 12) (by linarith) (by linarith)
        (by ring) (by linarith) (by linarith) ?_ ?_ <;> simp only [inFrame] <;> ring
  have pos : ∀ {A B : Set (ℝ × ℝ)}, M ⊆ A → M ⊆ B → volume (A ∩ B) ≠ 0 := fun ha hb h0 =>
    hMv (measure_mono_null (subset_inter ha hb) h0)
  have k01 := tied_trans hR k0 k1 (s0.trans h) (s1.trans h) (s1.trans h) m1.1 (pos mid.1 mid.2.1)
  have k02 := tied_trans hR k0 k2 (s0.trans h) (s2.trans h) (s2.trans h) m2.1 (pos mid.1 mid.2.2)
  have k := tied_union hR (tied_union hR k0 k01 (s0.trans h) (s0.trans h) (s1.trans h) m1.1 m0.2) k02 (s0.trans h)
    (union_subset (s0.trans h) (s1.trans h)) (s2.trans h) m2.1 m0.2
  have cover : triangle P Q S ⊆ cornerPara P Q S ∪ cornerPara Q S P ∪ cornerPara S P Q := by
    intro p hpm
    obtain ⟨α, β, γ, hα, hβ, hγ, h1, e1, e2⟩ := tri_coords hpm
    by_cases hb : β ≤ 1 / 2
    · by_cases hc : γ ≤ 1 / 2
      · exact Or.inl (Or.inl (mem_para hβ hγ h1 hb hc e1 e2))
      · exact Or.inr (mem_para (α := γ) (β := α) (γ := β) hα hβ (by linarith) (by linarith) hb (by rw [e1]; ring) (by rw [e2]; ring))
    · exact Or.inl (Or.inr (mem_para (α := β) (β := γ) (γ := α) hγ hα (by linarith) (by linarith) (by linarith) (by rw [e1]; ring)
        (by rw [e2]; ring)))
  have hall : cornerPara P Q S ∪ cornerPara Q S P ∪ cornerPara S P Q ⊆ R := union_subset (union_subset (s0.trans h) (s1.trans h)) (s2.trans h)
  have hm := (m0.1.union m1.1).union m2.1
  refine (tied_trans hR k.symm k (s0.trans h) (s0.trans h) hall hm ?_).mono hR hall hall cover cover
  rw [inter_self]
  exact m0.2

/-! ### The body -/

/-- **The Poincaré inequality** for a body whose interior is connected. -/
theorem body_tied {n : ℕ} {els : List (Tri6 n)} (hp : ∀ t ∈ els, Proper t.coords) (hc : IsPreconnected (interior (region els))) :
    Tied (region els) (region els) (region els) := by
  have hcomp : IsCompact (region els) := by
    have : region els = ⋃ t ∈ {t | t ∈ els}, elemRegion t.coords := by ext p; simp [region]
    rw [this]
    exact (List.finite_toSet els).isCompact_biUnion fun t _ => isCompact_elemRegion _
  have sub : ∀ t ∈ els, elemRegion t.coords ⊆ region els := fun t ht p hp => ⟨t, ht, hp⟩
  have meas : ∀ t : Tri6 n, MeasurableSet (elemRegion t.coords) := fun t => (isCompact_elemRegion _).measurableSet
  -- an element and a square in it
  have sq : ∀ t ∈ els, ∃ p r, 0 < r ∧ Metric.closedBall p r ⊆ elemRegion t.coords ∧
      Tied (region els) (elemRegion t.coords) (Metric.closedBall p r) := by
    intro t ht
    obtain ⟨p, hpt⟩ := elem_interior_nonempty (hp t ht)
    obtain ⟨r, hr, h⟩ := Metric.isOpen_iff.1 isOpen_interior p hpt
    have hb : Metric.closedBall p (r / 2) ⊆ elemRegion t.coords :=
      (Metric.closedBall_subset_ball (half_lt_self hr)).trans (h.trans interior_subset)
    exact ⟨p, r / 2, half_pos hr, hb, (tied_elem hcomp (hp t ht) (sub t ht)).mono hcomp (sub t ht) (sub t ht) subset_rfl hb⟩
  have pair : ∀ s ∈ els, ∀ t ∈ els, Tied (region els) (elemRegion s.coords) (elemRegion t.coords) := by
    intro s hs t ht
    obtain ⟨p, r, hr, hb, k1⟩ := sq s hs
    obtain ⟨p', r', hr', hb', k2⟩ := sq t ht
    have k3 := tied_connected hcomp hc hr hr' (hb.trans (sub s hs)) (hb'.trans (sub t ht))
    have k4 := tied_trans hcomp k1 k3 (hb.trans (sub s hs)) (hb.trans (sub s hs)) (hb'.trans (sub t ht))
      Metric.isClosed_closedBall.measurableSet (by rw [inter_self]; exact (Metric.measure_closedBall_pos volume p hr).ne')
    exact tied_trans hcomp k4 k2.symm (hb'.trans (sub t ht)) (hb'.trans (sub t ht)) (sub t ht) (meas t)
      (by rw [inter_self]; exact (Metric.measure_closedBall_pos volume p' hr').ne')
  cases els with
  | nil => exact ⟨0, le_rfl, fun F _ => ⟨0, by simp [region_nil]⟩⟩
  | cons t0 els =>
    have h0 : t0 ∈ t0 :: els := List.mem_cons_self
    have hv : volume (elemRegion t0.coords) ≠ 0 := volume_elem (hp t0 h0)
    have all : ∀ l : List (Tri6 n), (∀ t ∈ l, t ∈ t0 :: els) →
        Tied (region (t0 :: els)) (elemRegion t0.coords) (region l) ∧ region l ⊆ region (t0 :: els) := by
      intro l
      induction l with
      | nil => exact fun _ => ⟨by
          rw [region_nil]; exact (pair t0 h0 t0 h0).mono hcomp (sub t0 h0) (sub t0 h0) subset_rfl (empty_subset _), by simp [region_nil]⟩
      | cons t l ih =>
        intro h
        obtain ⟨i1, i2⟩ := ih fun u hu => h u (List.mem_cons_of_mem _ hu)
        have ht := h t List.mem_cons_self
        rw [region_cons t l, union_comm]
        exact ⟨tied_union hcomp i1 (pair t0 h0 t ht) (sub t0 h0) i2 (sub t ht) (meas t) hv, union_subset i2 (sub t ht)⟩
    have k := (all (t0 :: els) fun t ht => ht).1
    refine tied_trans hcomp k.symm k (sub t0 h0) (sub t0 h0) subset_rfl hcomp.measurableSet ?_
    rw [inter_self]
    exact hv

end SP
