import Verif.Lemmas.StressFunction
import Verif.Lemmas.Soft
import Verif.Props.Torsion
import Verif.Props.RefineExample

/-!
# C87: the torsion constant is at least what any stress function supports
-/

namespace SP

open Spec MeasureTheory Set

variable {n : ℕ} {els : List (Tri6 n)} {ψ : ℝ × ℝ → ℝ}

theorem dX_move (cx cy : ℝ) (p : ℝ × ℝ) : dX (fun p => ψ (p + (cx, cy))) p = dX ψ (p + (cx, cy)) :=
  deriv_comp_add_const (fun x => ψ (x, p.2 + cy)) cx p.1

theorem dY_move (cx cy : ℝ) (p : ℝ × ℝ) : dY (fun p => ψ (p + (cx, cy))) p = dY ψ (p + (cx, cy)) :=
  deriv_comp_add_const (fun y => ψ (p.1 + cx, y)) cy p.2

theorem stressFunction_shift (h : StressFunction els ψ) (cx cy : ℝ) :
    StressFunction (shifted els cx cy) fun p => ψ (p + (cx, cy)) := by
  refine ⟨h.smooth.comp (contDiff_id.add contDiff_const), ?_, fun p hp => ?_⟩
  · exact h.compact.comp_homeomorph (Homeomorph.addRight (cx, cy))
  · rw [dX_move, dY_move]
    rw [region_shift] at hp
    exact h.level _ hp

theorem slopeEnergy_shift (cx cy : ℝ) :
    slopeEnergy (shifted els cx cy) (fun p => ψ (p + (cx, cy))) = slopeEnergy els ψ := by
  rw [slopeEnergy, shifted, List.map_map, slopeEnergy]
  refine congrArg List.sum (List.map_congr_left fun t _ => ?_)
  have e : elemRegion (t.shiftBy cx cy).coords = (fun p => p + (cx, cy)) ⁻¹' elemRegion t.coords := by
    ext p; exact mem_region_shift
  simp only [Function.comp_apply, dX_move, dY_move, e]
  rw [(measurePreserving_add_right volume (cx, cy)).setIntegral_preimage_emb
    (Homeomorph.addRight (cx, cy)).measurableEmbedding (fun p => dX ψ p ^ 2 + dY ψ p ^ 2)]
  rfl

/-- **C87** For every stress function the reported torsion constant is at least the square of twice the volume under it,
divided by its squared slope, whatever the mesh. -/
theorem C87_stress_function (s : Section) (r : GeomResults) (hg : GoodSection s) (h : Physical s.elements)
    (hc : ConformingMesh s.meshNodes s.elements) (hno : NoOverlap s.elements) (hr : s.geometricAnalysis = .ok r)
    (sv : Solvers) (ty : SolverType) (w : WarpResults s.numNodes) (hw : s.warping sv ty r = .ok w)
    (hex : SolvesBordered (assembleTorsion (s.elements.map fun t => t.shiftBy r.cx r.cy)).1
      (assembleTorsion (s.elements.map fun t => t.shiftBy r.cx r.cy)).2 w.omega) (hψ : StressFunction s.elements ψ) :
    (2 * ∫ p, ψ p) ^ 2 ≤ w.j * slopeEnergy s.elements ψ := by
  obtain ⟨a1, -⟩ := C19_torsion_constant s r hg h hr sv ty w hw hex
  obtain ⟨q, hq⟩ := exists_feField (shifted_proper h.proper r.cx r.cy) w.omega
  have key := twist_lower (conforming_shift hc r.cx r.cy)
    (by
      intro t ht k
      obtain ⟨t, ht', rfl⟩ := List.mem_map.1 ht
      simp [Tri6.shiftBy, Coords.shift, hg.coords t ht', gather])
    (shifted_physical h r.cx r.cy) (noOverlap_shift hno r.cx r.cy) hq (stressFunction_shift hψ r.cx r.cy)
  rw [slopeEnergy_shift, integral_add_right_eq_self ψ] at key
  rw [a1 q hq]
  exact key

/-! ### Hills -/

/-- The slope of a stress function that slopes only on `K`. -/
theorem slopeEnergy_le (hno : NoOverlap els) (h : Physical els) (hψ : ContDiff ℝ 1 ψ) {K : Set (ℝ × ℝ)} (hK : MeasurableSet K)
    (hKr : K ⊆ region els) {G : ℝ × ℝ → ℝ} (hG : IntegrableOn G K)
    (hs : ∀ p ∈ K, dX ψ p ^ 2 + dY ψ p ^ 2 ≤ G p) (h0 : ∀ p ∉ K, dX ψ p = 0 ∧ dY ψ p = 0) {e0 : ℝ}
    (hE : ∀ t ∈ els, (elemRegion t.coords ∩ K).Nonempty → e0 ≤ t.material.elasticModulus) :
    e0 * slopeEnergy els ψ ≤ ∫ p in K, G p := by
  have cX := continuous_dX hψ
  have cY := continuous_dY hψ
  have hc : Continuous fun p => dX ψ p ^ 2 + dY ψ p ^ 2 := by fun_prop
  have h0' : ∀ p ∉ K, dX ψ p ^ 2 + dY ψ p ^ 2 = 0 := fun p hp => by rw [(h0 p hp).1, (h0 p hp).2]; ring
  have h1 : e0 * slopeEnergy els ψ ≤ (els.map fun t => ∫ p in elemRegion t.coords, dX ψ p ^ 2 + dY ψ p ^ 2).sum := by
    rw [slopeEnergy, ← List.sum_map_mul_left]
    refine List.sum_le_sum fun t ht => ?_
    by_cases hne : (elemRegion t.coords ∩ K).Nonempty
    · have hpos : 0 ≤ ∫ p in elemRegion t.coords, dX ψ p ^ 2 + dY ψ p ^ 2 :=
        integral_nonneg fun p => add_nonneg (sq_nonneg _) (sq_nonneg _)
      rw [← mul_assoc]
      refine mul_le_of_le_one_left hpos ?_
      rw [mul_one_div, div_le_one (h.modulus t ht)]
      exact hE t ht hne
    · rw [Set.not_nonempty_iff_eq_empty] at hne
      have : ∫ p in elemRegion t.coords, dX ψ p ^ 2 + dY ψ p ^ 2 = 0 := by
        refine setIntegral_eq_zero_of_forall_eq_zero fun p hp => h0' p fun hpK => ?_
        have : p ∈ elemRegion t.coords ∩ K := ⟨hp, hpK⟩
        rw [hne] at this
        exact this
      rw [this]
      simp
  have h2 := (integral_parts hno MeasurableSet.univ hc).2
  simp only [univ_inter] at h2
  rw [← h2] at h1
  refine h1.trans ?_
  have h3 : ∫ p in region els, dX ψ p ^ 2 + dY ψ p ^ 2 = ∫ p in K, dX ψ p ^ 2 + dY ψ p ^ 2 :=
    setIntegral_eq_of_subset_of_forall_sdiff_eq_zero (measurable_region els) hKr fun p hp => h0' p hp.2
  rw [h3]
  have hi : IntegrableOn (fun p => dX ψ p ^ 2 + dY ψ p ^ 2) K := by
    have := (integral_parts hno hK hc).1
    rwa [inter_eq_left.2 hKr] at this
  exact setIntegral_mono_on hi hG hK hs

theorem parts_integrable (hno : NoOverlap els) {g : ℝ × ℝ → ℝ} (hg : Integrable g) :
    ∫ p in region els, g p = (els.map fun t => ∫ p in elemRegion t.coords, g p).sum := by
  induction els with
  | nil => simp [region_nil]
  | cons t els ih =>
    obtain ⟨h1, h2⟩ := List.pairwise_cons.1 hno
    rw [region_cons, setIntegral_union₀ ?_ (measurable_region els).nullMeasurableSet hg.integrableOn hg.integrableOn,
      ih h2, List.map_cons, List.sum_cons]
    refine measure_mono_null (t := ⋃ u ∈ {u | u ∈ els}, elemRegion t.coords ∩ elemRegion u.coords) ?_ ?_
    · rintro p ⟨h, u, hu, hpu⟩
      simp only [Set.mem_iUnion]
      exact ⟨u, hu, h, hpu⟩
    · rw [measure_biUnion_null_iff (List.finite_toSet els).countable]
      exact fun u hu => h1 u hu

/-- The slope of a stress function that slopes only on `K`, the modulus being different from place to place. -/
theorem slopeEnergy_le_field (hno : NoOverlap els) (h : Physical els) (hψ : ContDiff ℝ 1 ψ) {K : Set (ℝ × ℝ)}
    (hK : MeasurableSet K) (hKr : K ⊆ region els) {G : ℝ × ℝ → ℝ} (hG : IntegrableOn G K)
    (hs : ∀ t ∈ els, ∀ p ∈ K, p ∈ elemRegion t.coords → dX ψ p ^ 2 + dY ψ p ^ 2 ≤ t.material.elasticModulus * G p)
    (h0 : ∀ p ∉ K, dX ψ p = 0 ∧ dY ψ p = 0) :
    slopeEnergy els ψ ≤ ∫ p in K, G p := by
  have cX := continuous_dX hψ
  have cY := continuous_dY hψ
  have hc : Continuous fun p => dX ψ p ^ 2 + dY ψ p ^ 2 := by fun_prop
  have hGi : Integrable (K.indicator G) := (integrable_indicator_iff hK).2 hG
  rw [← integral_indicator hK, ← setIntegral_eq_integral_of_forall_compl_eq_zero (s := region els)
    fun p hp => indicator_of_notMem (fun hpK => hp (hKr hpK)) _, parts_integrable hno hGi, slopeEnergy]
  refine List.sum_le_sum fun t ht => ?_
  rw [← integral_const_mul]
  refine setIntegral_mono_on (hc.const_mul _ |>.continuousOn.integrableOn_compact (isCompact_elemRegion _)) hGi.integrableOn
    (measurable_elemRegion _) fun p hp => ?_
  by_cases hpK : p ∈ K
  · rw [indicator_of_mem hpK, one_div, inv_mul_le_iff₀ (h.modulus t ht)]
    exact hs t ht p hpK hp
  · rw [indicator_of_notMem hpK, (h0 p hpK).1, (h0 p hpK).2]
    simp

/-- A bound that holds up to arbitrarily small errors. -/
theorem bound_limit {P V D e0 j : ℝ} (hP : 0 ≤ P) (hD : 0 ≤ j * D)
    (h : ∀ e, 0 < e → 0 ≤ P - e * V → e0 * (2 * (P - e * V)) ^ 2 ≤ j * D) : e0 * (2 * P) ^ 2 ≤ j * D := by
  rcases hP.eq_or_lt with h0 | h0
  · rw [← h0]; simpa using hD
  have ht : Filter.Tendsto (fun e : ℝ => e0 * (2 * (P - e * V)) ^ 2) (nhdsWithin 0 (Ioi 0)) (nhds (e0 * (2 * (P - 0 * V)) ^ 2)) := by
    have : Continuous fun e : ℝ => e0 * (2 * (P - e * V)) ^ 2 := by fun_prop
    exact (this.tendsto 0).mono_left nhdsWithin_le_nhds
  rw [zero_mul, sub_zero] at ht
  refine le_of_tendsto ht ?_
  have h1 : ∀ᶠ e : ℝ in nhdsWithin 0 (Ioi 0), 0 < P - e * V := by
    have hc : Continuous fun e : ℝ => P - e * V := by fun_prop
    have : ∀ᶠ e : ℝ in nhds 0, 0 < P - e * V := hc.continuousAt.eventually (lt_mem_nhds (by simpa using h0))
    exact this.filter_mono nhdsWithin_le_nhds
  filter_upwards [h1, self_mem_nhdsWithin] with e he1 he2
  exact h e he2 he1.le

theorem dX_comp {f : ℝ → ℝ} {f' : ℝ} {v : ℝ × ℝ → ℝ} {p : ℝ × ℝ} (hv : Differentiable ℝ v) (hf : HasDerivAt f f' (v p)) :
    dX (fun p => f (v p)) p = f' * dX v p := by
  have h1 := hasDerivAt_dX hv p
  exact (HasDerivAt.comp p.1 (h₂ := f) (h := fun x => v (x, p.2)) hf h1).deriv

theorem dY_comp {f : ℝ → ℝ} {f' : ℝ} {v : ℝ × ℝ → ℝ} {p : ℝ × ℝ} (hv : Differentiable ℝ v) (hf : HasDerivAt f f' (v p)) :
    dY (fun p => f (v p)) p = f' * dY v p := by
  have h1 := hasDerivAt_dY hv p
  exact (HasDerivAt.comp p.2 (h₂ := f) (h := fun y => v (p.1, y)) hf h1).deriv

/-- **C87** The same for hills that are smooth only where they slope: the part of any smooth function between the levels `0`
and `c`, if the section has material where the function is between these levels, of modulus at least `e0`. -/
theorem C87_hill (s : Section) (r : GeomResults) (hg : GoodSection s) (h : Physical s.elements)
    (hc : ConformingMesh s.meshNodes s.elements) (hno : NoOverlap s.elements) (hr : s.geometricAnalysis = .ok r)
    (sv : Solvers) (ty : SolverType) (w : WarpResults s.numNodes) (hw : s.warping sv ty r = .ok w)
    (hex : SolvesBordered (assembleTorsion (s.elements.map fun t => t.shiftBy r.cx r.cy)).1
      (assembleTorsion (s.elements.map fun t => t.shiftBy r.cx r.cy)).2 w.omega)
    {v : ℝ × ℝ → ℝ} {c e0 : ℝ} (hv : ContDiff ℝ 2 v) (hb : Bornology.IsBounded {p | 0 < v p}) (hc0 : 0 ≤ c)
    (hin : ∀ p, 0 < v p → v p < c → p ∈ region s.elements) (he : 0 < e0)
    (hE : ∀ t ∈ s.elements, (elemRegion t.coords ∩ {p | 0 < v p ∧ v p < c}).Nonempty → e0 ≤ t.material.elasticModulus) :
    e0 * (2 * ∫ p, min (max (v p) 0) c) ^ 2 ≤ w.j * ∫ p in {p | 0 < v p ∧ v p < c}, dX v p ^ 2 + dY v p ^ 2 := by
  have hj := (C19_torsion_constant s r hg h hr sv ty w hw hex).2.2.1
  have hv1 : ContDiff ℝ 1 v := hv.of_le one_le_two
  have hvd : Differentiable ℝ v := hv1.differentiable (by norm_num)
  have hvc : Continuous v := hv.continuous
  have cX := continuous_dX hv1
  have cY := continuous_dY hv1
  have cG : Continuous fun p => dX v p ^ 2 + dY v p ^ 2 := by fun_prop
  set K : Set (ℝ × ℝ) := {p | 0 < v p ∧ v p < c} with hKdef
  set A : Set (ℝ × ℝ) := {p | 0 < v p} with hAdef
  have hKm : MeasurableSet K := ((isOpen_lt continuous_const hvc).inter (isOpen_lt hvc continuous_const)).measurableSet
  have hAm : MeasurableSet A := (isOpen_lt continuous_const hvc).measurableSet
  have hcl : IsCompact (closure A) := hb.isCompact_closure
  have hGK : IntegrableOn (fun p => dX v p ^ 2 + dY v p ^ 2) K :=
    (cG.continuousOn.integrableOn_compact hcl).mono_set fun p hp => subset_closure hp.1
  have hP0 : 0 ≤ ∫ p, min (max (v p) 0) c := integral_nonneg fun p => le_min (le_max_right _ _) hc0
  have hmin : Continuous fun p => min (max (v p) 0) c := (hvc.max continuous_const).min continuous_const
  have hzero : ∀ p ∉ A, min (max (v p) 0) c = 0 := fun p hp => by
    rw [max_eq_right (not_lt.1 hp), min_eq_left hc0]
  have hminI : Integrable fun p => min (max (v p) 0) c := by
    refine hmin.integrable_of_hasCompactSupport (HasCompactSupport.intro hcl fun p hp => hzero p fun h => hp (subset_closure h))
  have hAfin : volume A ≠ ⊤ := (hb.measure_lt_top).ne
  refine bound_limit (V := 2 * volume.real A) hP0
    (mul_nonneg hj.le (setIntegral_nonneg hKm fun p _ => add_nonneg (sq_nonneg _) (sq_nonneg _))) fun e hepos hnn => ?_
  have hd : ∀ p, dX (fun p => plateau e c (v p)) p = _ ∧ dY (fun p => plateau e c (v p)) p = _ := fun p =>
    ⟨dX_comp hvd (hasDerivAt_plateau e c (v p)), dY_comp hvd (hasDerivAt_plateau e c (v p))⟩
  have hoff : ∀ p ∉ K, dX (fun p => plateau e c (v p)) p = 0 ∧ dY (fun p => plateau e c (v p)) p = 0 := by
    intro p hp
    have hp' : v p ≤ 0 ∨ c ≤ v p := by
      by_contra hcon
      push Not at hcon
      exact hp hcon
    rw [(hd p).1, (hd p).2, (plateau_slope hepos (v p)).2.2 hp']
    simp
  have hsm : ContDiff ℝ 2 fun p => plateau e c (v p) := (contDiff_plateau e c).comp hv
  have hcs : HasCompactSupport fun p => plateau e c (v p) :=
    HasCompactSupport.intro hcl fun p hp => plateau_zero hepos (not_lt.1 fun h => hp (subset_closure h))
  have hψ : StressFunction s.elements fun p => plateau e c (v p) :=
    ⟨hsm, hcs, fun p hp => hoff p fun hK => hp (hin p hK.1 hK.2)⟩
  have k1 := C87_stress_function s r hg h hc hno hr sv ty w hw hex hψ
  have k2 := slopeEnergy_le hno h (hsm.of_le one_le_two) hKm (fun p hp => hin p hp.1 hp.2) hGK
    (fun p _ => by
      obtain ⟨s1, s2, -⟩ := plateau_slope (c := c) hepos (v p)
      rw [(hd p).1, (hd p).2]
      generalize Real.smoothTransition _ * Real.smoothTransition _ = z at s1 s2
      rw [mul_pow, mul_pow, ← mul_add]
      exact mul_le_of_le_one_left (add_nonneg (sq_nonneg _) (sq_nonneg _)) (pow_le_one₀ s1 s2)) hoff hE
  have k3 : (∫ p, min (max (v p) 0) c) - e * (2 * volume.real A) ≤ ∫ p, plateau e c (v p) := by
    have hind : Integrable (A.indicator fun _ => 2 * e) := (integrable_indicator_iff hAm).2 (integrableOn_const hAfin)
    have : (∫ p, min (max (v p) 0) c) - e * (2 * volume.real A) =
        ∫ p, (min (max (v p) 0) c - A.indicator (fun _ => 2 * e) p) := by
      rw [integral_sub hminI hind, integral_indicator hAm, setIntegral_const, smul_eq_mul]
      ring
    rw [this]
    refine integral_mono (hminI.sub hind) (hsm.continuous.integrable_of_hasCompactSupport hcs) fun p => ?_
    by_cases hp : p ∈ A
    · have := plateau_ge (c := c) (u := v p) hepos
      have hp0 : 0 < v p := hp
      simp only [indicator_of_mem hp, max_eq_left hp0.le]
      exact this
    · simp only [indicator_of_notMem hp, hzero p hp, sub_zero]
      exact plateau_nonneg hepos _
  calc e0 * (2 * ((∫ p, min (max (v p) 0) c) - e * (2 * volume.real A))) ^ 2
      ≤ e0 * (2 * ∫ p, plateau e c (v p)) ^ 2 := by
        refine mul_le_mul_of_nonneg_left (pow_le_pow_left₀ (by linarith) (by linarith) 2) he.le
    _ ≤ e0 * (w.j * slopeEnergy s.elements fun p => plateau e c (v p)) := mul_le_mul_of_nonneg_left k1 he.le
    _ = w.j * (e0 * slopeEnergy s.elements fun p => plateau e c (v p)) := by ring
    _ ≤ _ := mul_le_mul_of_nonneg_left k2 hj.le

end SP
