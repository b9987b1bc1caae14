import Verif.Lemmas.Converge
import Verif.Lemmas.Soft
import Verif.Props.StressFunction
import Mathlib.MeasureTheory.Integral.DominatedConvergence

/-!
# A warping function from a stress function (Prandtl)

If the stresses of a warping function are the derivatives of a smooth hill that is zero on the edge of the section and positive
inside, then the warping function solves the torsion problem of the section.
-/

namespace SP

open Spec MeasureTheory Set

variable {n : ℕ} {els : List (Tri6 n)} {u ψ : ℝ × ℝ → ℝ} {q : Tri6 n → ℝ × ℝ → ℝ}

theorem list_sub {α : Type*} (f g : α → ℝ) : ∀ l : List α, (l.map fun a => f a - g a).sum = (l.map f).sum - (l.map g).sum
  | [] => by simp
  | a :: l => by
    rw [List.map_cons, List.map_cons, List.map_cons, List.sum_cons, List.sum_cons, List.sum_cons, list_sub f g l]
    ring

/-- The hill above the level `e`, softened, and nothing outside the section. -/
noncomputable def lowered (els : List (Tri6 n)) (ψ : ℝ × ℝ → ℝ) (e : ℝ) : ℝ × ℝ → ℝ := by
  classical
  exact fun p => if p ∈ region els then soft e (ψ p - e) else 0

theorem closed_region (els : List (Tri6 n)) : IsClosed (region els) := by
  classical
  rw [region_eq_pieces]
  exact isClosed_biUnion_finset fun t _ => (isCompact_elemRegion _).isClosed

/-- Near a point of the edge, and outside, the lowered hill is zero; elsewhere it is the softened hill. -/
theorem lowered_near (hψ : Continuous ψ) (h0 : ∀ p ∈ frontier (region els), ψ p = 0) {e : ℝ} (he : 0 < e) (p : ℝ × ℝ) :
    (lowered els ψ e =ᶠ[nhds p] fun p => soft e (ψ p - e)) ∨ (lowered els ψ e =ᶠ[nhds p] fun _ => 0) ∧ (p ∈ region els → ψ p = 0) := by
  by_cases hi : p ∈ interior (region els)
  · left
    filter_upwards [isOpen_interior.mem_nhds hi] with z hz
    simp [lowered, interior_subset hz]
  · right
    by_cases hr : p ∈ region els
    · have hz := h0 p ⟨subset_closure hr, hi⟩
      refine ⟨?_, fun _ => hz⟩
      have : ∀ᶠ z in nhds p, ψ z < e := hψ.continuousAt.eventually (gt_mem_nhds (by rw [hz]; exact he))
      filter_upwards [this] with z hz
      simp only [lowered]
      split_ifs
      · exact soft_zero he (by linarith)
      · rfl
    · refine ⟨?_, fun h => absurd h hr⟩
      filter_upwards [(closed_region els).isOpen_compl.mem_nhds hr] with z hz
      simp only [lowered, if_neg (show z ∉ region els from hz)]

theorem contDiff_lowered (hψ : ContDiff ℝ 2 ψ) (h0 : ∀ p ∈ frontier (region els), ψ p = 0) {e : ℝ} (he : 0 < e) :
    ContDiff ℝ 2 (lowered els ψ e) := by
  rw [contDiff_iff_contDiffAt]
  intro p
  rcases lowered_near hψ.continuous h0 he p with h | ⟨h, -⟩
  · exact ((contDiff_soft e).comp (hψ.sub contDiff_const)).contDiffAt.congr_of_eventuallyEq h
  · exact contDiffAt_const.congr_of_eventuallyEq h

theorem dX_near {f g : ℝ × ℝ → ℝ} {p : ℝ × ℝ} (h : f =ᶠ[nhds p] g) : dX f p = dX g p := by
  have hc : ContinuousAt (fun x : ℝ => (x, p.2)) p.1 := by fun_prop
  exact Filter.EventuallyEq.deriv_eq (hc.eventually h)

theorem dY_near {f g : ℝ × ℝ → ℝ} {p : ℝ × ℝ} (h : f =ᶠ[nhds p] g) : dY f p = dY g p := by
  have hc : ContinuousAt (fun y : ℝ => (p.1, y)) p.2 := by fun_prop
  exact Filter.EventuallyEq.deriv_eq (hc.eventually h)

theorem lowered_slope (hψ : ContDiff ℝ 2 ψ) (h0 : ∀ p ∈ frontier (region els), ψ p = 0) {e : ℝ} (he : 0 < e) {p : ℝ × ℝ}
    (hp : p ∈ region els) :
    dX (lowered els ψ e) p = Real.smoothTransition ((ψ p - e) / e) * dX ψ p ∧
    dY (lowered els ψ e) p = Real.smoothTransition ((ψ p - e) / e) * dY ψ p := by
  have hd : Differentiable ℝ ψ := hψ.differentiable (by norm_num)
  rcases lowered_near hψ.continuous h0 he p with h | ⟨h, hz⟩
  · have hf : HasDerivAt (fun u => soft e (u - e)) (Real.smoothTransition ((ψ p - e) / e)) (ψ p) := by
      have h1 : HasDerivAt (fun u : ℝ => u - e) 1 (ψ p) := (hasDerivAt_id' (ψ p)).sub_const e
      exact ((hasDerivAt_soft e (ψ p - e)).comp (ψ p) h1).congr_deriv (mul_one _)
    exact ⟨(dX_near h).trans (dX_comp hd hf), (dY_near h).trans (dY_comp hd hf)⟩
  · rw [dX_near h, dY_near h, hz hp, Real.smoothTransition.zero_of_nonpos]
    · simp [dX, dY]
    · exact div_nonpos_of_nonpos_of_nonneg (by linarith) he.le

/-- The stresses of a smooth hill that is zero on the edge do no work on a virtual displacement. -/
theorem hill_work (hp : ∀ t ∈ els, Proper t.coords) (hno : NoOverlap els) (hψ : ContDiff ℝ 2 ψ)
    (h0 : ∀ p ∈ frontier (region els), ψ p = 0) (hpos : ∀ᵐ p, p ∈ region els → 0 < ψ p) (hq : TestField els q) :
    (els.map fun t => ∫ p in elemRegion t.coords, dY ψ p * dX (q t) p - dX ψ p * dY (q t) p).sum = 0 := by
  have hψ1 : ContDiff ℝ 1 ψ := hψ.of_le one_le_two
  have cX := continuous_dX hψ1
  have cY := continuous_dY hψ1
  have zero : ∀ e > 0, (els.map fun t => ∫ p in elemRegion t.coords,
      Real.smoothTransition ((ψ p - e) / e) * (dY ψ p * dX (q t) p - dX ψ p * dY (q t) p)).sum = 0 := by
    intro e he
    set G := lowered els ψ e with hG
    have hGs := contDiff_lowered hψ h0 he
    have out : ∀ p ∉ region els, dX G p = 0 ∧ dY G p = 0 := by
      intro p hpr
      have : G =ᶠ[nhds p] fun _ => 0 := by
        filter_upwards [(closed_region els).isOpen_compl.mem_nhds hpr] with z hz
        simp only [hG, lowered, if_neg (show z ∉ region els from hz)]
      rw [dX_near this, dY_near this]
      simp [dX, dY]
    have p1 := (test_parts hp hno hq (contDiff_dY hGs) fun p hpr => (out p hpr).2).1
    have p2 := (test_parts hp hno hq (contDiff_dX hGs) fun p hpr => (out p hpr).1).2
    refine Eq.trans ?_ ((congrArg₂ (fun a b : ℝ => a - b) p1 p2).trans (sub_zero 0))
    rw [← list_sub]
    refine congrArg List.sum (List.map_congr_left fun t ht => ?_)
    have q1 := hq.smooth t ht
    have c1 := continuous_dX q1
    have c2 := continuous_dY q1
    have c0 := q1.continuous
    have g1 := continuous_dX (hGs.of_le one_le_two)
    have g2 := continuous_dY (hGs.of_le one_le_two)
    have g3 := continuous_dX (contDiff_dY hGs)
    have g4 := continuous_dY (contDiff_dX hGs)
    rw [← integral_sub (elem_int (by fun_prop) _) (elem_int (by fun_prop) _)]
    refine setIntegral_congr_fun (measurable_elemRegion _) fun p hpt => ?_
    obtain ⟨e1, e2⟩ := lowered_slope hψ h0 he (p := p) ⟨t, ht, hpt⟩
    rw [mixed_eq hGs, e1, e2]
    ring
  have lim : Filter.Tendsto (fun m : ℕ => (els.map fun t => ∫ p in elemRegion t.coords,
      Real.smoothTransition ((ψ p - 1 / ((m : ℝ) + 1)) / (1 / ((m : ℝ) + 1))) * (dY ψ p * dX (q t) p - dX ψ p * dY (q t) p)).sum)
      Filter.atTop (nhds (els.map fun t => ∫ p in elemRegion t.coords, dY ψ p * dX (q t) p - dX ψ p * dY (q t) p).sum) := by
    refine tendsto_list_sum _ fun t ht => ?_
    have q1 := hq.smooth t ht
    have c1 := continuous_dX q1
    have c2 := continuous_dY q1
    have cψ := hψ.continuous
    have cF : Continuous fun p => dY ψ p * dX (q t) p - dX ψ p * dY (q t) p := by fun_prop
    refine tendsto_integral_of_dominated_convergence (fun p => |dY ψ p * dX (q t) p - dX ψ p * dY (q t) p|) (fun m => ?_)
      (elem_int cF.abs _) (fun m => Filter.Eventually.of_forall fun p => ?_) ?_
    · have := Real.smoothTransition.continuous
      exact Continuous.aestronglyMeasurable (by fun_prop)
    · rw [Real.norm_eq_abs, abs_mul, abs_of_nonneg (Real.smoothTransition.nonneg _)]
      exact mul_le_of_le_one_left (abs_nonneg _) (Real.smoothTransition.le_one _)
    · rw [ae_restrict_iff' (measurable_elemRegion _)]
      filter_upwards [hpos] with p hp hpt
      have hp0 := hp ⟨t, ht, hpt⟩
      refine tendsto_const_nhds.congr' ?_
      have : Filter.Tendsto (fun m : ℕ => 1 / ((m : ℝ) + 1)) Filter.atTop (nhds 0) := tendsto_one_div_add_atTop_nhds_zero_nat
      filter_upwards [this.eventually (gt_mem_nhds (show 0 < ψ p / 2 by linarith))] with m hm
      have hm0 : 0 < 1 / ((m : ℝ) + 1) := by positivity
      rw [Real.smoothTransition.one_of_one_le, one_mul]
      rw [one_le_div hm0]
      linarith
  refine tendsto_nhds_unique lim ?_
  simp only [zero _ (show (0 : ℝ) < 1 / ((_ : ℕ) + 1) by positivity)]
  exact tendsto_const_nhds

/-- **Prandtl's criterion**, for a section of one modulus without holes. -/
theorem torsionSolution_of_prandtl (hp : ∀ t ∈ els, Proper t.coords) (hno : NoOverlap els) {E : ℝ}
    (hE : ∀ t ∈ els, t.material.elasticModulus = E) (hu : ContDiff ℝ 1 u) (hψ : ContDiff ℝ 2 ψ)
    (h0 : ∀ p ∈ frontier (region els), ψ p = 0) (hpos : ∀ᵐ p, p ∈ region els → 0 < ψ p)
    (h1 : ∀ p, dX u p - p.2 = dY ψ p) (h2 : ∀ p, dY u p + p.1 = - dX ψ p) : TorsionSolution els u := by
  refine ⟨hu, fun q hq => ?_⟩
  have k := hill_work hp hno hψ h0 hpos hq
  rw [wInt]
  have : (els.map fun t => t.material.elasticModulus * ∫ p in elemRegion t.coords,
      (dX u p - p.2) * dX (q t) p + (dY u p + p.1) * dY (q t) p) = els.map fun t =>
      E * ∫ p in elemRegion t.coords, dY ψ p * dX (q t) p - dX ψ p * dY (q t) p := by
    refine List.map_congr_left fun t ht => ?_
    rw [hE t ht]
    congr 1
    refine setIntegral_congr_fun (measurable_elemRegion _) fun p hpt => ?_
    simp only [h1, h2]
    ring
  rw [this, List.sum_map_mul_left, k, mul_zero]

end SP
