import Verif.Lemmas.QuadError
import Verif.Props.WarpMoment

/-!
# C56: the error of the second warping moment and of the warping constant

The rule is not exact (`C56_violated`); its error is at most a multiple of the square of the size of the elements.
-/

namespace SP

open Spec MeasureTheory Set

/-- No element has two points more than `h` apart. -/
def ElementsWithin {n : ℕ} (els : List (Tri6 n)) (h : ℝ) : Prop :=
  ∀ t ∈ els, ∀ p ∈ elemRegion t.coords, ∀ z ∈ elemRegion t.coords, √((z.1 - p.1) ^ 2 + (z.2 - p.2) ^ 2) ≤ h

/-- **C56** for every mesh and every nodal field: the second warping moment that the code computes differs from the integral of the squared
field by at most `192 h²` times the integral of its squared gradient, if no element is larger than `h`.  In particular it is never more
negative than that. -/
theorem C56_error_partial {n : ℕ} {els : List (Tri6 n)} (hp : ∀ t ∈ els, Proper t.coords)
    (hE : ∀ t ∈ els, 0 < t.material.elasticModulus) (w : WarpIn) (omega : Fin n → ℝ) (q : Tri6 n → ℝ × ℝ → ℝ) (hq : FEField els omega q)
    {h : ℝ} (hh : ElementsWithin els h) :
    |(scWarpingIntegrals els w omega).iOmega - wInt els (fun t p => q t p ^ 2)|
      ≤ 192 * h ^ 2 * wInt els (fun t p => dX (q t) p ^ 2 + dY (q t) p ^ 2) ∧
    -(192 * h ^ 2 * wInt els (fun t p => dX (q t) p ^ 2 + dY (q t) p ^ 2)) ≤ (scWarpingIntegrals els w omega).iOmega := by
  have key : |(scWarpingIntegrals els w omega).iOmega - wInt els (fun t p => q t p ^ 2)|
      ≤ 192 * h ^ 2 * wInt els (fun t p => dX (q t) p ^ 2 + dY (q t) p ^ 2) := by
    have e : (scWarpingIntegrals els w omega).iOmega = ruleSum els fun t p => q t p ^ 2 := by
      rw [iOmega_sum, ruleSum]
      refine congrArg List.sum (List.map_congr_left fun t ht => rule_elem (hp t ht) fun gp hb => ?_)
      exact congrArg (· ^ 2) (interp_val (hp t ht) hb (hq t ht))
    rw [e, ← wInt_smul]
    refine abs_sum_sub els _ _ _ fun t ht => ?_
    rw [← mul_sub, abs_mul, abs_of_pos (hE t ht)]
    refine mul_le_mul_of_nonneg_left ?_ (hE t ht).le
    rw [integral_const_mul]
    have := rule_sq (hp t ht) (hq t ht).1 (hh t ht)
    simpa only [← pow_two] using this
  refine ⟨key, ?_⟩
  have h0 : 0 ≤ wInt els (fun t p => q t p ^ 2) := wInt_nonneg hE fun _ _ _ => sq_nonneg _
  linarith [(abs_le.1 key).1]

/-- **C56** for the analysis: if the torsion system is solved exactly and no element is larger than `h`, the reported warping constant
differs from the one with exact integrals by at most `192 h² (ixx + iyy - j)`. -/
theorem C56_analysis_partial (s : Section) (r : GeomResults) (hg : GoodSection s) (hP : Physical s.elements)
    (hr : s.geometricAnalysis = .ok r) (sv : Solvers) (ty : SolverType) (w : WarpResults s.numNodes) (hw : s.warping sv ty r = .ok w)
    {h : ℝ} (hh : ElementsWithin s.elements h) :
    let els := s.elements.map fun t => t.shiftBy r.cx r.cy
    SolvesBordered (assembleTorsion els).1 (assembleTorsion els).2 w.omega → ∀ q, FEField els w.omega q →
      |w.gamma - (wInt els (fun t p => q t p ^ 2) - wInt els q ^ 2 / wInt els (fun _ _ => 1)
        - w.sc.ySe * wInt els (fun t p => p.1 * q t p) + w.sc.xSe * wInt els (fun t p => p.2 * q t p))|
      ≤ 192 * h ^ 2 * (r.cent.ixxC + r.cent.iyyC - w.j) := by
  intro els hex q hq
  have hS := centroidalSetup hg hP hr
  obtain ⟨m1, m2, m3, -⟩ := C56_moments_partial hS.physical.proper hS.physical.modulus (warpIn s.materials r) w.omega q hq
  obtain ⟨-, -, -, -, -, -, hga, -⟩ := warping_ok hw
  have hh' : ElementsWithin els h := by
    intro t ht p hp z hz
    obtain ⟨u, hu, rfl⟩ := List.mem_map.1 ht
    rw [elemRegion_shiftBy] at hp hz
    simpa using hh u hu _ hp _ hz
  obtain ⟨k, -⟩ := C56_error_partial hS.physical.proper hS.physical.modulus (warpIn s.materials r) w.omega q hq hh'
  have hD : wInt els (fun t p => dX (q t) p ^ 2 + dY (q t) p ^ 2) = r.cent.ixxC + r.cent.iyyC - w.j := by
    have e0 : wInt els (fun t p => dX (q t) p ^ 2 + dY (q t) p ^ 2) = dirichlet els q q :=
      wInt_congr fun t _ p => by ring
    obtain ⟨g1, -⟩ := C19_torsion_constant s r hg hP hr sv ty w hw hex
    have e1 := g1 q hq
    have e2 := twistEnergy_eq hS.physical.proper hS.distinct hq
    obtain ⟨-, -, -, hj, -⟩ := warping_ok hw
    obtain ⟨-, -, i3, i4, -⟩ := wInt_moments hS.physical.proper
    have i3' := hS.ixx
    have i4' := hS.iyy
    simp only [warpIn] at hj
    change w.j = r.cent.ixxC + r.cent.iyyC - dotN w.omega (assembleTorsion els).2 at hj
    change twistEnergy els q = dirichlet els q q - 2 * dotN w.omega (assembleTorsion els).2 + _ at e2
    rw [e0]
    rw [← i3, ← i4, i3', i4'] at e2
    change w.j = twistEnergy els q at e1
    linarith
  rw [hD] at k
  have e : w.gamma - (wInt els (fun t p => q t p ^ 2) - wInt els q ^ 2 / wInt els (fun _ _ => 1)
        - w.sc.ySe * wInt els (fun t p => p.1 * q t p) + w.sc.xSe * wInt els (fun t p => p.2 * q t p))
      = (scWarpingIntegrals els (warpIn s.materials r) w.omega).iOmega - wInt els (fun t p => q t p ^ 2) := by
    rw [hga, warpingConstant]
    have h1 : wInt els q = 0 := by
      obtain ⟨μ, hμ⟩ := hex
      exact (C17_solution hS.physical hS.distinct _ _ μ (load_sum hS.physical.proper hS.distinct) hμ).2.2 q hq
    have m1' : (scWarpingIntegrals els (warpIn s.materials r) w.omega).qOmega = wInt els q := m1
    have m2' : (scWarpingIntegrals els (warpIn s.materials r) w.omega).iXomega = wInt els (fun t p => p.1 * q t p) := m2
    have m3' : (scWarpingIntegrals els (warpIn s.materials r) w.omega).iYomega = wInt els (fun t p => p.2 * q t p) := m3
    change _ - (scWarpingIntegrals els (warpIn s.materials r) w.omega).qOmega ^ 2 / _ - w.sc.ySe * (scWarpingIntegrals els (warpIn s.materials r) w.omega).iXomega
      + w.sc.xSe * (scWarpingIntegrals els (warpIn s.materials r) w.omega).iYomega - _ = _
    rw [m1', m2', m3', h1]
    ring
  rw [e]
  exact k

/-- Every mesh has a largest element. -/
theorem exists_within {n : ℕ} (els : List (Tri6 n)) : ∃ h, ElementsWithin els h := by
  obtain ⟨c, hc⟩ := Metric.isBounded_iff.1 (region_compact els).isBounded
  refine ⟨2 * c, fun t ht p hp z hz => ?_⟩
  have hd := hc (show z ∈ region els from ⟨t, ht, hz⟩) (show p ∈ region els from ⟨t, ht, hp⟩)
  have h0 : 0 ≤ c := dist_nonneg.trans hd
  rw [Prod.dist_eq, max_le_iff, Real.dist_eq, Real.dist_eq] at hd
  refine Real.sqrt_le_iff.2 ⟨by linarith, ?_⟩
  have h1 := sq_le_sq' (by linarith [neg_abs_le (z.1 - p.1)]) ((le_abs_self _).trans hd.1)
  have h2 := sq_le_sq' (by linarith [neg_abs_le (z.2 - p.2)]) ((le_abs_self _).trans hd.2)
  nlinarith

/-- The hypotheses are met by the triangle of `C56_violated`. -/
example : ∃ r w h q, triSection.geometricAnalysis = .ok r ∧ triSection.warping exactSolvers .direct r = .ok w ∧
    ElementsWithin triSection.elements h ∧ FEField (triSection.elements.map fun t => t.shiftBy r.cx r.cy) w.omega q ∧
    SolvesBordered (assembleTorsion (triSection.elements.map fun t => t.shiftBy r.cx r.cy)).1
      (assembleTorsion (triSection.elements.map fun t => t.shiftBy r.cx r.cy)).2 w.omega := by
  obtain ⟨r, hr⟩ := geometricAnalysis_ok triSection (by simp [triSection])
  obtain ⟨w, hw, h1, -, -⟩ := exact_warping triSection r triSection_good triSection_physical hr (tri_linked r.cx r.cy)
  obtain ⟨h, hh⟩ := exists_within triSection.elements
  obtain ⟨q, hq⟩ := exists_feField (centroidalSetup triSection_good triSection_physical hr).physical.proper w.omega
  exact ⟨r, w, h, q, hr, hw, hh, hq, h1⟩

end SP
