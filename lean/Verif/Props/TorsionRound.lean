import Verif.Props.TorsionShapes
import Verif.Props.TorsionBound
import Verif.Props.OutlineRound

/-!
# C90: the torsion constant of round sections
-/

namespace SP

open Spec MeasureTheory Set

/-! ### Sections that contain an ellipse -/

theorem integral_stretch (f : ℝ × ℝ → ℝ) {a b : ℝ} (ha : 0 < a) (hb : 0 < b) :
    ∫ p : ℝ × ℝ, f (p.1 / a, p.2 / b) = a * b * ∫ p, f p := by
  have h1 : (∫ p : ℝ × ℝ, f (p.1 / a, p.2 / b)) = ∫ p : ℝ × ℝ, f p ∂(Measure.map (fun p : ℝ × ℝ => (p.1 / a, p.2 / b)) volume) := by
    have he : MeasurableEmbedding fun p : ℝ × ℝ => (p.1 / a, p.2 / b) :=
      ((Homeomorph.mulRight₀ a⁻¹ (inv_ne_zero ha.ne')).prodCongr (Homeomorph.mulRight₀ b⁻¹ (inv_ne_zero hb.ne'))).measurableEmbedding
    rw [he.integral_map]
  have h2 : Measure.map (fun p : ℝ × ℝ => (p.1 / a, p.2 / b)) volume = ENNReal.ofReal (a * b) • (volume : Measure (ℝ × ℝ)) := by
    have : (fun p : ℝ × ℝ => (p.1 / a, p.2 / b)) = Prod.map (fun x => x * a⁻¹) (fun x => x * b⁻¹) := by
      funext p; simp [div_eq_mul_inv, Prod.map]
    rw [this, Measure.volume_eq_prod, ← Measure.map_prod_map _ _ (measurable_mul_const _) (measurable_mul_const _),
      Real.map_volume_mul_right (inv_ne_zero ha.ne'), Real.map_volume_mul_right (inv_ne_zero hb.ne'), inv_inv, inv_inv,
      Measure.prod_smul_left, Measure.prod_smul_right, smul_smul, abs_of_pos ha, abs_of_pos hb, ENNReal.ofReal_mul ha.le]
  rw [h1, h2, integral_smul_measure, ENNReal.toReal_ofReal (by positivity), smul_eq_mul]

theorem ellipse_dX (x0 y0 a b : ℝ) (p : ℝ × ℝ) :
    dX (fun p : ℝ × ℝ => 1 - (((p.1 - x0) / a) ^ 2 + ((p.2 - y0) / b) ^ 2)) p = -2 * ((p.1 - x0) / a) / a := by
  have h : HasDerivAt (fun x : ℝ => 1 - (((x - x0) / a) ^ 2 + ((p.2 - y0) / b) ^ 2)) (-2 * ((p.1 - x0) / a) / a) p.1 := by
    have h1 := ((((hasDerivAt_id p.1).sub_const x0).div_const a).pow 2).add_const (((p.2 - y0) / b) ^ 2)
    refine (h1.const_sub 1).congr_deriv ?_
    simp
    ring
  exact h.deriv

theorem ellipse_dY (x0 y0 a b : ℝ) (p : ℝ × ℝ) :
    dY (fun p : ℝ × ℝ => 1 - (((p.1 - x0) / a) ^ 2 + ((p.2 - y0) / b) ^ 2)) p = -2 * ((p.2 - y0) / b) / b := by
  have h : HasDerivAt (fun y : ℝ => 1 - (((p.1 - x0) / a) ^ 2 + ((y - y0) / b) ^ 2)) (-2 * ((p.2 - y0) / b) / b) p.2 := by
    have h1 := ((((hasDerivAt_id p.2).sub_const y0).div_const b).pow 2).const_add (((p.1 - x0) / a) ^ 2)
    refine (h1.const_sub 1).congr_deriv ?_
    simp
    ring
  exact h.deriv

/-- The second moments of the unit disc. -/
theorem disc_moments : (∫ p : ℝ × ℝ in {p | p.1 ^ 2 + p.2 ^ 2 < 1}, p.1 ^ 2) = Real.pi / 4 ∧
    (∫ p : ℝ × ℝ in {p | p.1 ^ 2 + p.2 ^ 2 < 1}, p.2 ^ 2) = Real.pi / 4 := by
  have hc : Continuous fun p : ℝ × ℝ => p.1 ^ 2 + p.2 ^ 2 := by fun_prop
  have ho : IsOpen {p : ℝ × ℝ | p.1 ^ 2 + p.2 ^ 2 < 1} := isOpen_lt hc continuous_const
  have hb : Bornology.IsBounded {p : ℝ × ℝ | p.1 ^ 2 + p.2 ^ 2 < 1} := by
    refine (Metric.isBounded_closedBall (x := ((0, 0) : ℝ × ℝ)) (r := 1)).subset fun p hp => ?_
    have hp' : p.1 ^ 2 + p.2 ^ 2 < 1 := hp
    rw [Metric.mem_closedBall, Prod.dist_eq, max_le_iff, Real.dist_eq, Real.dist_eq]
    exact ⟨abs_le_of_sq_le_sq (by nlinarith [sq_nonneg p.2]) zero_le_one, abs_le_of_sq_le_sq (by nlinarith [sq_nonneg p.1]) zero_le_one⟩
  have hi : ∀ f : ℝ × ℝ → ℝ, Continuous f → IntegrableOn f {p : ℝ × ℝ | p.1 ^ 2 + p.2 ^ 2 < 1} := fun f hf =>
    (hf.continuousOn.integrableOn_compact hb.isCompact_closure).mono_set subset_closure
  have hsw : (∫ p : ℝ × ℝ in {p | p.1 ^ 2 + p.2 ^ 2 < 1}, p.1 ^ 2) = ∫ p : ℝ × ℝ in {p | p.1 ^ 2 + p.2 ^ 2 < 1}, p.2 ^ 2 := by
    rw [← integral_indicator ho.measurableSet, ← integral_indicator ho.measurableSet, Measure.volume_eq_prod, ← integral_prod_swap]
    congr 1
    funext p
    simp only [indicator, Prod.fst_swap, Prod.snd_swap, Set.mem_ofPred_eq, add_comm]
  have hs := ring_slope (ri := 0) (ro := 1) le_rfl one_pos
  have e : ({p : ℝ × ℝ | 0 < 1 ^ 2 - (p.1 ^ 2 + p.2 ^ 2) ∧ 1 ^ 2 - (p.1 ^ 2 + p.2 ^ 2) < 1 ^ 2 - 0 ^ 2} : Set (ℝ × ℝ))
      =ᵐ[volume] {p : ℝ × ℝ | p.1 ^ 2 + p.2 ^ 2 < 1} := by
    have h0 : ∀ᵐ p : ℝ × ℝ, p ≠ (0, 0) := by simp [ae_iff]
    filter_upwards [h0] with p hp
    refine propext ⟨fun h => ?_, fun h => ?_⟩
    · have h1 : 0 < (1 : ℝ) ^ 2 - (p.1 ^ 2 + p.2 ^ 2) := h.1
      show p.1 ^ 2 + p.2 ^ 2 < 1
      linarith
    · have h1 : p.1 ^ 2 + p.2 ^ 2 < 1 := h
      have h2 : 0 < p.1 ^ 2 + p.2 ^ 2 := by
        by_contra hcon
        have a1 := sq_nonneg p.1
        have a2 := sq_nonneg p.2
        exact hp (Prod.ext (pow_eq_zero_iff two_ne_zero |>.1 (by linarith)) (pow_eq_zero_iff two_ne_zero |>.1 (by linarith)))
      exact ⟨by linarith, by linarith⟩
  rw [setIntegral_congr_set e, integral_const_mul, integral_add (hi _ (by fun_prop)) (hi _ (by fun_prop)), hsw] at hs
  rw [hsw]
  constructor <;> linarith

/-- **C90** A section that contains an ellipse of a material of modulus at least `e0` has at least the torsion constant of the
ellipse. -/
theorem C90_contains_ellipse (s : Section) (r : GeomResults) (hg : GoodSection s) (h : Physical s.elements)
    (hc : ConformingMesh s.meshNodes s.elements) (hno : NoOverlap s.elements) (hr : s.geometricAnalysis = .ok r)
    (sv : Solvers) (ty : SolverType) (w : WarpResults s.numNodes) (hw : s.warping sv ty r = .ok w)
    (hex : SolvesBordered (assembleTorsion (s.elements.map fun t => t.shiftBy r.cx r.cy)).1
      (assembleTorsion (s.elements.map fun t => t.shiftBy r.cx r.cy)).2 w.omega)
    {x0 y0 a b e0 : ℝ} (ha : 0 < a) (hb : 0 < b)
    (hin : ∀ p : ℝ × ℝ, ((p.1 - x0) / a) ^ 2 + ((p.2 - y0) / b) ^ 2 < 1 → p ∈ region s.elements) (he : 0 < e0)
    (hE : ∀ t ∈ s.elements, (∃ p ∈ elemRegion t.coords, ((p.1 - x0) / a) ^ 2 + ((p.2 - y0) / b) ^ 2 < 1) →
      e0 ≤ t.material.elasticModulus) :
    e0 * (Real.pi * a ^ 3 * b ^ 3 / (a ^ 2 + b ^ 2)) ≤ w.j := by
  set v : ℝ × ℝ → ℝ := fun p => 1 - (((p.1 - x0) / a) ^ 2 + ((p.2 - y0) / b) ^ 2) with hv
  have hbd : Bornology.IsBounded {p : ℝ × ℝ | 0 < v p} := by
    refine (Metric.isBounded_closedBall (x := ((x0, y0) : ℝ × ℝ)) (r := a + b)).subset fun p hp => ?_
    have hp' : 0 < 1 - (((p.1 - x0) / a) ^ 2 + ((p.2 - y0) / b) ^ 2) := hp
    rw [Metric.mem_closedBall, Prod.dist_eq, max_le_iff, Real.dist_eq, Real.dist_eq]
    have h1 : |(p.1 - x0) / a| ≤ 1 := abs_le_of_sq_le_sq (by nlinarith [sq_nonneg ((p.2 - y0) / b)]) zero_le_one
    have h2 : |(p.2 - y0) / b| ≤ 1 := abs_le_of_sq_le_sq (by nlinarith [sq_nonneg ((p.1 - x0) / a)]) zero_le_one
    rw [abs_div, abs_of_pos ha, div_le_one ha] at h1
    rw [abs_div, abs_of_pos hb, div_le_one hb] at h2
    exact ⟨by linarith, by linarith⟩
  have key := C87_hill s r hg h hc hno hr sv ty w hw hex (v := v) (c := 2) (e0 := e0) (by rw [hv]; fun_prop)
    hbd (by norm_num) (fun p h1 _ => hin p (by have : 0 < 1 - (((p.1 - x0) / a) ^ 2 + ((p.2 - y0) / b) ^ 2) := h1; linarith)) he
    (fun t ht ⟨p, hp1, hp2, _⟩ => hE t ht ⟨p, hp1, by
      have : 0 < 1 - (((p.1 - x0) / a) ^ 2 + ((p.2 - y0) / b) ^ 2) := hp2
      linarith⟩)
  have e1 : ∫ p : ℝ × ℝ, min (max (v p) 0) 2 = a * b * (Real.pi / 2) := by
    have h1 : (∫ p : ℝ × ℝ, min (max (v p) 0) 2) = ∫ p : ℝ × ℝ, min (max (1 - ((p.1 / a) ^ 2 + (p.2 / b) ^ 2)) 0) 2 :=
      integral_sub_right_eq_self (fun p : ℝ × ℝ => min (max (1 - ((p.1 / a) ^ 2 + (p.2 / b) ^ 2)) 0) 2) (x0, y0)
    rw [h1, integral_stretch (fun p : ℝ × ℝ => min (max (1 - (p.1 ^ 2 + p.2 ^ 2)) 0) 2) ha hb]
    have h2 := ring_volume (ri := 0) (ro := 1) le_rfl one_pos
    have h3 : ∀ p : ℝ × ℝ, min (max (1 - (p.1 ^ 2 + p.2 ^ 2)) 0) 2 = min (max ((1 : ℝ) ^ 2 - (p.1 ^ 2 + p.2 ^ 2)) 0) (1 ^ 2 - 0 ^ 2) := by
      intro p
      have : max (1 - (p.1 ^ 2 + p.2 ^ 2)) 0 ≤ 1 := max_le (by nlinarith [sq_nonneg p.1, sq_nonneg p.2]) zero_le_one
      rw [one_pow, zero_pow two_ne_zero, sub_zero, min_eq_left (by linarith), min_eq_left this]
    simp only [h3]
    rw [h2]
    ring
  have e2 : ∫ p : ℝ × ℝ in {p | 0 < v p ∧ v p < 2}, ((-2 * ((p.1 - x0) / a) / a) ^ 2 + (-2 * ((p.2 - y0) / b) / b) ^ 2) =
      a * b * (Real.pi / a ^ 2 + Real.pi / b ^ 2) := by
    have hset : {p : ℝ × ℝ | 0 < v p ∧ v p < 2} = {p | ((p.1 - x0) / a) ^ 2 + ((p.2 - y0) / b) ^ 2 < 1} := by
      ext p
      show (0 < 1 - (((p.1 - x0) / a) ^ 2 + ((p.2 - y0) / b) ^ 2) ∧ 1 - (((p.1 - x0) / a) ^ 2 + ((p.2 - y0) / b) ^ 2) < 2) ↔
        ((p.1 - x0) / a) ^ 2 + ((p.2 - y0) / b) ^ 2 < 1
      exact ⟨fun h => by linarith [h.1], fun h => ⟨by linarith, by nlinarith [sq_nonneg ((p.1 - x0) / a), sq_nonneg ((p.2 - y0) / b)]⟩⟩
    have hc1 : Continuous fun p : ℝ × ℝ => ((p.1 - x0) / a) ^ 2 + ((p.2 - y0) / b) ^ 2 := by fun_prop
    have hm1 : MeasurableSet {p : ℝ × ℝ | ((p.1 - x0) / a) ^ 2 + ((p.2 - y0) / b) ^ 2 < 1} := (isOpen_lt hc1 continuous_const).measurableSet
    have hc2 : Continuous fun p : ℝ × ℝ => p.1 ^ 2 + p.2 ^ 2 := by fun_prop
    have ho2 : IsOpen {p : ℝ × ℝ | p.1 ^ 2 + p.2 ^ 2 < 1} := isOpen_lt hc2 continuous_const
    rw [hset, ← integral_indicator hm1]
    set g : ℝ × ℝ → ℝ := indicator {p : ℝ × ℝ | p.1 ^ 2 + p.2 ^ 2 < 1} fun p => 4 / a ^ 2 * p.1 ^ 2 + 4 / b ^ 2 * p.2 ^ 2 with hgdef
    have hI : (indicator {p : ℝ × ℝ | ((p.1 - x0) / a) ^ 2 + ((p.2 - y0) / b) ^ 2 < 1}
        fun p => (-2 * ((p.1 - x0) / a) / a) ^ 2 + (-2 * ((p.2 - y0) / b) / b) ^ 2)
        = fun p : ℝ × ℝ => (fun q : ℝ × ℝ => g (q.1 / a, q.2 / b)) (p - (x0, y0)) := by
      funext p
      simp only [hgdef, indicator, Set.mem_ofPred_eq, Prod.fst_sub, Prod.snd_sub]
      split_ifs
      · ring
      · rfl
    rw [hI, integral_sub_right_eq_self (fun q : ℝ × ℝ => g (q.1 / a, q.2 / b)), integral_stretch g ha hb, hgdef,
      integral_indicator ho2.measurableSet]
    have hbb : Bornology.IsBounded {p : ℝ × ℝ | p.1 ^ 2 + p.2 ^ 2 < 1} := by
      refine (Metric.isBounded_closedBall (x := ((0, 0) : ℝ × ℝ)) (r := 1)).subset fun p hp => ?_
      have hp' : p.1 ^ 2 + p.2 ^ 2 < 1 := hp
      rw [Metric.mem_closedBall, Prod.dist_eq, max_le_iff, Real.dist_eq, Real.dist_eq]
      exact ⟨abs_le_of_sq_le_sq (by nlinarith [sq_nonneg p.2]) zero_le_one, abs_le_of_sq_le_sq (by nlinarith [sq_nonneg p.1]) zero_le_one⟩
    have hi : ∀ f : ℝ × ℝ → ℝ, Continuous f → IntegrableOn f {p : ℝ × ℝ | p.1 ^ 2 + p.2 ^ 2 < 1} := fun f hf =>
      (hf.continuousOn.integrableOn_compact hbb.isCompact_closure).mono_set subset_closure
    rw [integral_add (hi _ (by fun_prop)) (hi _ (by fun_prop)), integral_const_mul, integral_const_mul, disc_moments.1, disc_moments.2]
    ring
  simp only [hv, ellipse_dX, ellipse_dY] at key
  simp only [hv] at e1 e2
  rw [e1, e2] at key
  have hpi := Real.pi_pos
  have hpos : 0 < a * b * (Real.pi / a ^ 2 + Real.pi / b ^ 2) := by positivity
  refine le_of_mul_le_mul_right ?_ hpos
  refine le_trans (le_of_eq ?_) key
  field_simp
  ring

/-! ### The polygons of round sections -/

/-- The ellipse whose axes are those of the polygon times `cos (π / n)` lies within the polygon. -/
theorem ellipse_inside {dx dy : ℝ} (hx : 0 < dx) (hy : 0 < dy) {n : ℕ} (hn : 3 ≤ n) :
    ∀ᵐ p : ℝ × ℝ, (p.1 / (dx / 2)) ^ 2 + (p.2 / (dy / 2)) ^ 2 < Real.cos (Real.pi / n) ^ 2 →
      winding (closedEdges (ellipsePts dx dy n)) p ≠ 0 := by
  obtain ⟨m, rfl⟩ : ∃ m, n = m + 1 := ⟨n - 1, by omega⟩
  have c1 := ellipse_convex hx hy hn
  rw [Nat.add_sub_cancel] at c1
  have hn' : ((m + 1 : ℕ) : ℝ) ≠ 0 := by exact_mod_cast (by omega : m + 1 ≠ 0)
  have hwrap : ellipsePt dx dy (m + 1) (m + 1) = ellipsePt dx dy (m + 1) 0 := by
    rw [ellipsePt, ellipsePt, mul_div_assoc, div_self hn']; simp
  have hsin := sin_pi_pos hn (j := 1) (by omega) (by omega)
  rw [Nat.cast_one, mul_one] at hsin
  have hcos : 0 < Real.cos (Real.pi / (m + 1 : ℕ)) := by
    have hn3 : (3 : ℝ) ≤ ((m + 1 : ℕ) : ℝ) := by exact_mod_cast hn
    refine Real.cos_pos_of_mem_Ioo ⟨by have := Real.pi_pos; have : 0 < Real.pi / ((m + 1 : ℕ) : ℝ) := by positivity
                                       linarith, ?_⟩
    rw [div_lt_div_iff₀ (by linarith) two_pos]
    nlinarith [Real.pi_pos]
  filter_upwards [convex_generic c1 (by omega)] with p g1 hp
  rw [ellipsePts_eq, closedEdges_range]
  have side : ∀ k : ℕ, 0 < signedArea2 (ellipsePt dx dy (m + 1) k) (ellipsePt dx dy (m + 1) (k + 1)) p := by
    intro k
    set β := Real.pi / ((m + 1 : ℕ) : ℝ) with hβ
    set μ := 2 * Real.pi * k / (m + 1 : ℕ) + β with hμ
    have e1 : 2 * Real.pi * (k : ℝ) / (m + 1 : ℕ) = μ - β := by rw [hμ]; ring
    have e2 : 2 * Real.pi * ((k + 1 : ℕ) : ℝ) / (m + 1 : ℕ) = μ + β := by rw [hμ, hβ]; push_cast; ring
    clear_value μ β
    have e : signedArea2 (ellipsePt dx dy (m + 1) k) (ellipsePt dx dy (m + 1) (k + 1)) p
        = dx / 2 * (dy / 2) * (2 * Real.sin β) * (Real.cos β - (p.1 / (dx / 2) * Real.cos μ + p.2 / (dy / 2) * Real.sin μ)) := by
      simp only [signedArea2, ellipsePt]
      rw [e1, e2, Real.cos_sub, Real.sin_sub, Real.cos_add, Real.sin_add]
      have h1 := Real.sin_sq_add_cos_sq μ
      field_simp
      linear_combination (2 * dx * dy * Real.sin β * Real.cos β) * h1
    rw [e]
    refine mul_pos (by positivity) (sub_pos.2 ?_)
    have hs := Real.sin_sq_add_cos_sq μ
    refine lt_of_pow_lt_pow_left₀ 2 hcos.le (lt_of_le_of_lt ?_ hp)
    nlinarith [sq_nonneg (p.1 / (dx / 2) * Real.sin μ - p.2 / (dy / 2) * Real.cos μ)]
  rcases convex_winding c1 g1 with ⟨-, hz | ⟨k, -, hs⟩ | hs⟩ | ⟨hw, -⟩
  · omega
  · exact absurd hs (not_lt.2 (side k).le)
  · have := side m
    rw [hwrap] at this
    exact absurd hs (not_lt.2 this.le)
  · rw [hw]; exact one_ne_zero

/-- The polygon lies within its circle. -/
theorem circle_outside {d : ℝ} (hd : 0 < d) {n : ℕ} (hn : 3 ≤ n) :
    ∀ᵐ p : ℝ × ℝ, (d / 2) ^ 2 < p.1 ^ 2 + p.2 ^ 2 → winding (closedEdges (ellipsePts d d n)) p = 0 := by
  obtain ⟨m, rfl⟩ : ∃ m, n = m + 1 := ⟨n - 1, by omega⟩
  have c1 := ellipse_convex hd hd hn
  rw [Nat.add_sub_cancel] at c1
  filter_upwards [convex_generic c1 (by omega)] with p g1 hp
  rw [ellipsePts_eq, closedEdges_range]
  rcases convex_winding c1 g1 with ⟨hw, -⟩ | ⟨-, hw⟩
  · exact hw
  · exfalso
    have h0 : 0 ≤ √(p.1 ^ 2 + p.2 ^ 2) := Real.sqrt_nonneg _
    have hsq : √(p.1 ^ 2 + p.2 ^ 2) ^ 2 = p.1 ^ 2 + p.2 ^ 2 := Real.sq_sqrt (by positivity)
    have h1 : d / 2 < √(p.1 ^ 2 + p.2 ^ 2) := Real.lt_sqrt_of_sq_lt hp
    have := hw (d / 2 * √(p.1 ^ 2 + p.2 ^ 2)) (-p.1) (-p.2) fun i _ => by
      simp only [ellipsePt]
      set θ := 2 * Real.pi * (i : ℝ) / ((m + 1 : ℕ) : ℝ)
      have hs := Real.sin_sq_add_cos_sq θ
      have h2 : p.1 * Real.cos θ + p.2 * Real.sin θ ≤ √(p.1 ^ 2 + p.2 ^ 2) := by
        refine Real.le_sqrt_of_sq_le ?_
        nlinarith [sq_nonneg (p.1 * Real.sin θ - p.2 * Real.cos θ)]
      nlinarith
    nlinarith

theorem cos_pos_n {n : ℕ} (hn : 3 ≤ n) : 0 < Real.cos (Real.pi / n) := by
  have hn3 : (3 : ℝ) ≤ n := by exact_mod_cast hn
  have hpi := Real.pi_pos
  refine Real.cos_pos_of_mem_Ioo ⟨by have : 0 < Real.pi / n := by positivity
                                     linarith, ?_⟩
  rw [div_lt_div_iff₀ (by linarith) two_pos]
  nlinarith [Real.pi_pos]

/-- A mesh that covers almost all of an open set covers the open set. -/
theorem open_sub_region {n : ℕ} {els : List (Tri6 n)} {U : Set (ℝ × ℝ)} (hU : IsOpen U) (h : ∀ᵐ p, p ∈ U → p ∈ region els) :
    U ⊆ region els := by
  have ho : IsOpen (U \ region els) := hU.sdiff (isClosed_region els)
  refine sdiff_eq_empty.1 (ho.measure_eq_zero_iff volume |>.1 (ae_le_set.1 h))

/-- **C90** The torsion constant of `elliptical_section(d_x, d_y, n)` and, with `d_x = d_y`, of `circular_section(d, n)`: at least
the one of the ellipse with its axes times `cos (π / n)`, and less than the one of the ellipse. -/
theorem C90_ellipse (s : Section) (r : GeomResults) (hg : GoodSection s) (h : Physical s.elements)
    (hc : ConformingMesh s.meshNodes s.elements) (hno : NoOverlap s.elements) (hr : s.geometricAnalysis = .ok r)
    (sv : Solvers) (ty : SolverType) (w : WarpResults s.numNodes) (hw : s.warping sv ty r = .ok w)
    (hex : SolvesBordered (assembleTorsion (s.elements.map fun t => t.shiftBy r.cx r.cy)).1
      (assembleTorsion (s.elements.map fun t => t.shiftBy r.cx r.cy)).2 w.omega)
    {e a b : ℝ} (he : 0 < e) (hE : ∀ t ∈ s.elements, t.material.elasticModulus = e) (ha : 0 < a) (hb : 0 < b) {n : ℕ} (hn : 3 ≤ n)
    (hreg : region s.elements =ᵐ[volume] polyRegion ⟨ellipsePts (2 * a) (2 * b) n, []⟩) :
    e * (Real.pi * a ^ 3 * b ^ 3 / (a ^ 2 + b ^ 2)) * Real.cos (Real.pi / n) ^ 4 ≤ w.j ∧
    w.j < e * (Real.pi * a ^ 3 * b ^ 3 / (a ^ 2 + b ^ 2)) := by
  have hcos := cos_pos_n hn
  set c := Real.cos (Real.pi / n) with hcdef
  have h2a : 2 * a / 2 = a := by ring
  have h2b : 2 * b / 2 = b := by ring
  constructor
  · have hcont : Continuous fun p : ℝ × ℝ => (p.1 / a) ^ 2 + (p.2 / b) ^ 2 := by fun_prop
    have hin : {p : ℝ × ℝ | (p.1 / a) ^ 2 + (p.2 / b) ^ 2 < c ^ 2} ⊆ region s.elements := by
      refine open_sub_region (isOpen_lt hcont continuous_const) ?_
      filter_upwards [ellipse_inside (show 0 < 2 * a by linarith) (show 0 < 2 * b by linarith) hn, hreg.mem_iff] with p h1 h2 hp
      rw [h2a, h2b] at h1
      exact h2.2 ⟨h1 hp, by simp⟩
    have key := C90_contains_ellipse s r hg h hc hno hr sv ty w hw hex (x0 := 0) (y0 := 0) (a := a * c) (b := b * c) (e0 := e)
      (by positivity) (by positivity) (fun p hp => hin (by
        show (p.1 / a) ^ 2 + (p.2 / b) ^ 2 < c ^ 2
        have e1 : (p.1 / a) ^ 2 + (p.2 / b) ^ 2 = (((p.1 - 0) / (a * c)) ^ 2 + ((p.2 - 0) / (b * c)) ^ 2) * c ^ 2 := by
          field_simp
          ring
        rw [e1]
        have hc2 : 0 < c ^ 2 := by positivity
        nlinarith)) he (fun t ht _ => (hE t ht).ge)
    refine le_trans (le_of_eq ?_) key
    field_simp
  · obtain ⟨-, -, -, i1, i2, i3⟩ := C89_ellipse hr h hno hE (show 0 < 2 * a by linarith) (show 0 < 2 * b by linarith) hn hreg
    obtain ⟨-, b2, -⟩ := C82_torsion_bound s r hg h hr sv ty w hw hex
    rw [h2a, h2b] at i1 i2
    rw [i1, i2, i3] at b2
    have hf := (C89_factors.1 n hn).2
    have hs := sin_pos_n hn
    have hn' : (0 : ℝ) < n := by exact_mod_cast (by omega : 0 < n)
    have hc2 : 0 < 2 + Real.cos (2 * Real.pi / n) := by linarith [Real.neg_one_le_cos (2 * Real.pi / n)]
    set f := n * Real.sin (2 * Real.pi / n) * (2 + Real.cos (2 * Real.pi / n)) / 24 with hfdef
    have hf0 : 0 < f := by rw [hfdef]; positivity
    refine lt_of_le_of_lt b2 ?_
    have e1 : 4 * (e * (f * a * b ^ 3) * (e * (f * a ^ 3 * b)) - 0 ^ 2) / (e * (f * a * b ^ 3) + e * (f * a ^ 3 * b))
        = f * (4 * e * a ^ 3 * b ^ 3 / (a ^ 2 + b ^ 2)) := by
      field_simp
      ring
    rw [e1]
    have : f * (4 * e * a ^ 3 * b ^ 3 / (a ^ 2 + b ^ 2)) < Real.pi / 4 * (4 * e * a ^ 3 * b ^ 3 / (a ^ 2 + b ^ 2)) :=
      mul_lt_mul_of_pos_right hf (by positivity)
    refine lt_of_lt_of_eq this ?_
    field_simp

/-- **C90** The torsion constant of `circular_hollow_section(d, t, n)`: less than the one of the circular ring, and at least the
one of the ring whose outer radius is that of the circle inscribed in the polygon. -/
theorem C90_hollow (s : Section) (r : GeomResults) (hg : GoodSection s) (h : Physical s.elements)
    (hc : ConformingMesh s.meshNodes s.elements) (hno : NoOverlap s.elements) (hr : s.geometricAnalysis = .ok r)
    (sv : Solvers) (ty : SolverType) (w : WarpResults s.numNodes) (hw : s.warping sv ty r = .ok w)
    (hex : SolvesBordered (assembleTorsion (s.elements.map fun t => t.shiftBy r.cx r.cy)).1
      (assembleTorsion (s.elements.map fun t => t.shiftBy r.cx r.cy)).2 w.omega)
    {e d t : ℝ} (he : 0 < e) (hE : ∀ t ∈ s.elements, t.material.elasticModulus = e) (ht : 0 < t) (hd : 2 * t < d) {n : ℕ} (hn : 3 ≤ n)
    (hreg : region s.elements =ᵐ[volume] polyRegion ⟨ellipsePts d d n, [ellipsePts (2 * (d / 2 - t)) (2 * (d / 2 - t)) n]⟩) :
    e * (Real.pi / 2) * ((d / 2 * Real.cos (Real.pi / n)) ^ 4 - (d / 2 - t) ^ 4) ≤ w.j ∧
    w.j < e * (Real.pi / 2) * ((d / 2) ^ 4 - (d / 2 - t) ^ 4) := by
  have hcos := cos_pos_n hn
  have hpi := Real.pi_pos
  have hd0 : 0 < d := by linarith
  have hi0 : 0 < d / 2 - t := by linarith
  set c := Real.cos (Real.pi / n) with hcdef
  have h2i : 2 * (d / 2 - t) / 2 = d / 2 - t := by ring
  constructor
  · rcases le_or_gt (d / 2 * c) (d / 2 - t) with hle | hlt
    · have h4 : (d / 2 * c) ^ 4 ≤ (d / 2 - t) ^ 4 := pow_le_pow_left₀ (by positivity) hle 4
      have hj := (C19_torsion_constant s r hg h hr sv ty w hw hex).2.2.1
      refine le_trans ?_ hj.le
      exact mul_nonpos_of_nonneg_of_nonpos (by positivity) (by linarith)
    · have hcont : Continuous fun p : ℝ × ℝ => p.1 ^ 2 + p.2 ^ 2 := by fun_prop
      have hin : {p : ℝ × ℝ | (d / 2 - t) ^ 2 < p.1 ^ 2 + p.2 ^ 2} ∩ {p : ℝ × ℝ | p.1 ^ 2 + p.2 ^ 2 < (d / 2 * c) ^ 2} ⊆ region s.elements := by
        refine open_sub_region ((isOpen_lt continuous_const hcont).inter (isOpen_lt hcont continuous_const)) ?_
        filter_upwards [ellipse_inside hd0 hd0 hn, circle_outside (show 0 < 2 * (d / 2 - t) by linarith) hn, hreg.mem_iff] with p h1 h2 h3 hp
        rw [h2i] at h2
        have hp2 : p.1 ^ 2 + p.2 ^ 2 < (d / 2 * c) ^ 2 := hp.2
        refine h3.2 ⟨h1 ?_, ?_⟩
        · have e1 : (p.1 / (d / 2)) ^ 2 + (p.2 / (d / 2)) ^ 2 = (p.1 ^ 2 + p.2 ^ 2) / (d / 2) ^ 2 := by ring
          rw [e1, div_lt_iff₀ (by positivity)]
          linarith [mul_pow (d / 2) c 2]
        · intro ring hring
          rw [List.mem_singleton] at hring
          rw [hring]
          exact h2 hp.1
      have key := C87_ring s r hg h hc hno hr sv ty w hw hex (x0 := 0) (y0 := 0) (e0 := e) hi0.le hlt
        (fun p h1 h2 => hin ⟨by simpa using h1, by simpa using h2⟩) he (fun t ht _ => (hE t ht).ge)
      refine le_trans (le_of_eq ?_) key
      ring
  · obtain ⟨-, -, -, i1, i2, i3⟩ := C89_hollow hr h hno hE ht hd hn hreg
    obtain ⟨-, b2, -⟩ := C82_torsion_bound s r hg h hr sv ty w hw hex
    rw [i1, i2, i3] at b2
    have hf := (C89_factors.1 n hn).2
    have hs := sin_pos_n hn
    have hn' : (0 : ℝ) < n := by exact_mod_cast (by omega : 0 < n)
    have hc2 : 0 < 2 + Real.cos (2 * Real.pi / n) := by linarith [Real.neg_one_le_cos (2 * Real.pi / n)]
    set f := n * Real.sin (2 * Real.pi / n) * (2 + Real.cos (2 * Real.pi / n)) / 24 with hfdef
    have hf0 : 0 < f := by rw [hfdef]; positivity
    have hD : 0 < (d / 2) ^ 4 - (d / 2 - t) ^ 4 := sub_pos.2 (pow_lt_pow_left₀ (by linarith) hi0.le (by norm_num))
    set D := (d / 2) ^ 4 - (d / 2 - t) ^ 4
    refine lt_of_le_of_lt b2 ?_
    have e1 : 4 * (e * (f * D) * (e * (f * D)) - 0 ^ 2) / (e * (f * D) + e * (f * D)) = f * (2 * e * D) := by
      field_simp
      ring
    rw [e1]
    have : f * (2 * e * D) < Real.pi / 4 * (2 * e * D) := mul_lt_mul_of_pos_right hf (by positivity)
    refine lt_of_lt_of_eq this ?_
    ring

/-- **C90** The bounds meet as the number of points grows. -/
theorem C90_limit : Filter.Tendsto (fun n : ℕ => Real.cos (Real.pi / n)) Filter.atTop (nhds 1) := by
  have := (Real.continuous_cos.tendsto 0).comp (tendsto_const_div_atTop_nhds_zero_nat Real.pi)
  rwa [Real.cos_zero] at this

end SP
