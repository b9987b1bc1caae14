import Verif.Props.StressFunction
import Mathlib.Analysis.SpecialFunctions.PolarCoord
import Mathlib.Analysis.SpecialFunctions.Integrals.Basic

/-!
# C87: sections that contain a ring, a disc or rectangles
-/

namespace SP

open Spec MeasureTheory Set

/-! ### Rings -/

/-- Integral of a function of the distance from the origin. -/
theorem integral_radial (f : ℝ → ℝ) :
    ∫ p : ℝ × ℝ, f (p.1 ^ 2 + p.2 ^ 2) = 2 * Real.pi * ∫ r in Ioi (0 : ℝ), r * f (r ^ 2) := by
  rw [← integral_comp_polarCoord_symm fun p : ℝ × ℝ => f (p.1 ^ 2 + p.2 ^ 2)]
  have e : ∀ p : ℝ × ℝ, p.1 • f ((polarCoord.symm p).1 ^ 2 + (polarCoord.symm p).2 ^ 2) = (p.1 * f (p.1 ^ 2)) * 1 := by
    intro p
    have h : (polarCoord.symm p).1 ^ 2 + (polarCoord.symm p).2 ^ 2 = p.1 ^ 2 := by
      simp only [polarCoord_symm_apply]
      have := Real.sin_sq_add_cos_sq p.2
      linear_combination p.1 ^ 2 * this
    rw [h, smul_eq_mul, mul_one]
  simp only [e]
  rw [polarCoord_target, Measure.volume_eq_prod,
    setIntegral_prod_mul (μ := volume) (ν := volume) (fun r : ℝ => r * f (r ^ 2)) (fun _ => (1 : ℝ))]
  simp only [setIntegral_const, smul_eq_mul, mul_one, measureReal_def, Real.volume_Ioo]
  rw [ENNReal.toReal_ofReal (by linarith [Real.pi_pos])]
  ring

theorem ring_volume {ri ro : ℝ} (h0 : 0 ≤ ri) (h : ri < ro) :
    ∫ p : ℝ × ℝ, min (max (ro ^ 2 - (p.1 ^ 2 + p.2 ^ 2)) 0) (ro ^ 2 - ri ^ 2) = Real.pi / 2 * (ro ^ 4 - ri ^ 4) := by
  rw [integral_radial fun x => min (max (ro ^ 2 - x) 0) (ro ^ 2 - ri ^ 2)]
  have hz : ∀ x ∈ Ioi (0 : ℝ) \ Ioc 0 ro, x * min (max (ro ^ 2 - x ^ 2) 0) (ro ^ 2 - ri ^ 2) = 0 := by
    rintro x ⟨h1, h2⟩
    have h3 : ro < x := by
      by_contra hcon
      exact h2 ⟨h1, not_lt.1 hcon⟩
    rw [max_eq_right (by nlinarith), min_eq_left (by nlinarith), mul_zero]
  rw [setIntegral_eq_of_subset_of_forall_sdiff_eq_zero measurableSet_Ioi Ioc_subset_Ioi_self hz,
    ← intervalIntegral.integral_of_le (by linarith)]
  have hc : Continuous fun x : ℝ => x * min (max (ro ^ 2 - x ^ 2) 0) (ro ^ 2 - ri ^ 2) := by fun_prop
  rw [← intervalIntegral.integral_add_adjacent_intervals (hc.intervalIntegrable 0 ri) (hc.intervalIntegrable ri ro)]
  have e1 : ∫ x in (0 : ℝ)..ri, x * min (max (ro ^ 2 - x ^ 2) 0) (ro ^ 2 - ri ^ 2) = ∫ x in (0 : ℝ)..ri, x * (ro ^ 2 - ri ^ 2) := by
    refine intervalIntegral.integral_congr fun x hx => ?_
    rw [uIcc_of_le h0] at hx
    rw [max_eq_left (by nlinarith [hx.1, hx.2]), min_eq_right (by nlinarith [hx.1, hx.2])]
  have e2 : ∫ x in ri..ro, x * min (max (ro ^ 2 - x ^ 2) 0) (ro ^ 2 - ri ^ 2) = ∫ x in ri..ro, (ro ^ 2 * x - x ^ 3) := by
    refine intervalIntegral.integral_congr fun x hx => ?_
    rw [uIcc_of_le h.le] at hx
    rw [max_eq_left (by nlinarith [hx.1, hx.2]), min_eq_left (by nlinarith [hx.1, hx.2])]
    ring
  rw [e1, e2, intervalIntegral.integral_mul_const, integral_id, intervalIntegral.integral_sub (by fun_prop |> Continuous.intervalIntegrable |> fun h => h _ _)
    ((by fun_prop : Continuous fun x : ℝ => x ^ 3).intervalIntegrable _ _), intervalIntegral.integral_const_mul, integral_id, integral_pow]
  norm_num
  ring

theorem ring_open {ri ro : ℝ} :
    IsOpen {p : ℝ × ℝ | 0 < ro ^ 2 - (p.1 ^ 2 + p.2 ^ 2) ∧ ro ^ 2 - (p.1 ^ 2 + p.2 ^ 2) < ro ^ 2 - ri ^ 2} := by
  have hc : Continuous fun p : ℝ × ℝ => ro ^ 2 - (p.1 ^ 2 + p.2 ^ 2) := by fun_prop
  exact (isOpen_lt continuous_const hc).inter (isOpen_lt hc continuous_const)

theorem ring_slope {ri ro : ℝ} (h0 : 0 ≤ ri) (h : ri < ro) :
    ∫ p : ℝ × ℝ in {p | 0 < ro ^ 2 - (p.1 ^ 2 + p.2 ^ 2) ∧ ro ^ 2 - (p.1 ^ 2 + p.2 ^ 2) < ro ^ 2 - ri ^ 2},
      4 * (p.1 ^ 2 + p.2 ^ 2) = 2 * Real.pi * (ro ^ 4 - ri ^ 4) := by
  have hm : MeasurableSet {p : ℝ × ℝ | 0 < ro ^ 2 - (p.1 ^ 2 + p.2 ^ 2) ∧ ro ^ 2 - (p.1 ^ 2 + p.2 ^ 2) < ro ^ 2 - ri ^ 2} :=
    ring_open.measurableSet
  rw [← integral_indicator hm]
  have e : (fun p : ℝ × ℝ => indicator {p : ℝ × ℝ | 0 < ro ^ 2 - (p.1 ^ 2 + p.2 ^ 2) ∧
      ro ^ 2 - (p.1 ^ 2 + p.2 ^ 2) < ro ^ 2 - ri ^ 2} (fun p => 4 * (p.1 ^ 2 + p.2 ^ 2)) p) =
      fun p => (fun x => indicator {x | 0 < ro ^ 2 - x ∧ ro ^ 2 - x < ro ^ 2 - ri ^ 2} (fun x => 4 * x) x) (p.1 ^ 2 + p.2 ^ 2) := by
    funext p
    rfl
  rw [e, integral_radial]
  congr 1
  have e2 : ∀ x ∈ Ioi (0 : ℝ), x * indicator {x | 0 < ro ^ 2 - x ∧ ro ^ 2 - x < ro ^ 2 - ri ^ 2} (fun x => 4 * x) (x ^ 2) =
      indicator (Ioo ri ro) (fun x => 4 * x ^ 3) x := by
    intro x hx
    have hx0 : 0 < x := hx
    by_cases hxi : x ∈ Ioo ri ro
    · rw [indicator_of_mem hxi, indicator_of_mem]
      · ring
      · exact ⟨by nlinarith [hxi.1, hxi.2], by nlinarith [hxi.1, hxi.2]⟩
    · rw [indicator_of_notMem hxi, indicator_of_notMem, mul_zero]
      rintro ⟨h1, h2⟩
      refine hxi ⟨?_, ?_⟩
      · nlinarith
      · nlinarith
  rw [setIntegral_congr_fun measurableSet_Ioi e2, setIntegral_indicator measurableSet_Ioo,
    inter_eq_right.2 (fun x hx => mem_Ioi.2 (lt_of_le_of_lt h0 hx.1)), ← integral_Ioc_eq_integral_Ioo,
    ← intervalIntegral.integral_of_le h.le, intervalIntegral.integral_const_mul, integral_pow]
  norm_num
  ring

theorem ring_dX (x0 y0 ro : ℝ) (p : ℝ × ℝ) :
    dX (fun p : ℝ × ℝ => ro ^ 2 - ((p.1 - x0) ^ 2 + (p.2 - y0) ^ 2)) p = -2 * (p.1 - x0) := by
  have h : HasDerivAt (fun x : ℝ => ro ^ 2 - ((x - x0) ^ 2 + (p.2 - y0) ^ 2)) (-2 * (p.1 - x0)) p.1 := by
    have h1 := (((hasDerivAt_id p.1).sub_const x0).pow 2).add_const ((p.2 - y0) ^ 2)
    refine (h1.const_sub (ro ^ 2)).congr_deriv ?_
    simp
  exact h.deriv

theorem ring_dY (x0 y0 ro : ℝ) (p : ℝ × ℝ) :
    dY (fun p : ℝ × ℝ => ro ^ 2 - ((p.1 - x0) ^ 2 + (p.2 - y0) ^ 2)) p = -2 * (p.2 - y0) := by
  have h : HasDerivAt (fun y : ℝ => ro ^ 2 - ((p.1 - x0) ^ 2 + (y - y0) ^ 2)) (-2 * (p.2 - y0)) p.2 := by
    have h1 := (((hasDerivAt_id p.2).sub_const y0).pow 2).const_add ((p.1 - x0) ^ 2)
    refine (h1.const_sub (ro ^ 2)).congr_deriv ?_
    simp
  exact h.deriv

/-- **C87** A section that contains a ring (a disc if `ri = 0`) of a material of modulus at least `e0` has at least the
torsion constant of the ring. -/
theorem C87_ring (s : Section) (r : GeomResults) (hg : GoodSection s) (h : Physical s.elements)
    (hc : ConformingMesh s.meshNodes s.elements) (hno : NoOverlap s.elements) (hr : s.geometricAnalysis = .ok r)
    (sv : Solvers) (ty : SolverType) (w : WarpResults s.numNodes) (hw : s.warping sv ty r = .ok w)
    (hex : SolvesBordered (assembleTorsion (s.elements.map fun t => t.shiftBy r.cx r.cy)).1
      (assembleTorsion (s.elements.map fun t => t.shiftBy r.cx r.cy)).2 w.omega)
    {x0 y0 ri ro e0 : ℝ} (h0 : 0 ≤ ri) (hro : ri < ro)
    (hin : ∀ p : ℝ × ℝ, ri ^ 2 < (p.1 - x0) ^ 2 + (p.2 - y0) ^ 2 → (p.1 - x0) ^ 2 + (p.2 - y0) ^ 2 < ro ^ 2 →
      p ∈ region s.elements) (he : 0 < e0)
    (hE : ∀ t ∈ s.elements, (∃ p ∈ elemRegion t.coords, ri ^ 2 < (p.1 - x0) ^ 2 + (p.2 - y0) ^ 2 ∧
      (p.1 - x0) ^ 2 + (p.2 - y0) ^ 2 < ro ^ 2) → e0 ≤ t.material.elasticModulus) :
    e0 * (Real.pi / 2 * (ro ^ 4 - ri ^ 4)) ≤ w.j := by
  have hΔ : 0 < ro ^ 4 - ri ^ 4 := by
    have : ri ^ 4 < ro ^ 4 := pow_lt_pow_left₀ hro h0 (by norm_num)
    linarith
  have hb : Bornology.IsBounded {p : ℝ × ℝ | 0 < ro ^ 2 - ((p.1 - x0) ^ 2 + (p.2 - y0) ^ 2)} := by
    refine (Metric.isBounded_closedBall (x := ((x0, y0) : ℝ × ℝ)) (r := ro)).subset fun p hp => ?_
    have hp' : 0 < ro ^ 2 - ((p.1 - x0) ^ 2 + (p.2 - y0) ^ 2) := hp
    have hro0 : 0 ≤ ro := by linarith
    rw [Metric.mem_closedBall, Prod.dist_eq, max_le_iff, Real.dist_eq, Real.dist_eq]
    exact ⟨abs_le_of_sq_le_sq (by nlinarith [sq_nonneg (p.2 - y0)]) hro0,
      abs_le_of_sq_le_sq (by nlinarith [sq_nonneg (p.1 - x0)]) hro0⟩
  have key := C87_hill s r hg h hc hno hr sv ty w hw hex
    (v := fun p : ℝ × ℝ => ro ^ 2 - ((p.1 - x0) ^ 2 + (p.2 - y0) ^ 2)) (c := ro ^ 2 - ri ^ 2) (e0 := e0) (by fun_prop)
    hb (by nlinarith) (fun p h1 h2 => hin p (by linarith) (by linarith)) he
    (fun t ht ⟨p, hp1, hp2, hp3⟩ => hE t ht ⟨p, hp1, by linarith, by linarith⟩)
  have e1 : ∫ p : ℝ × ℝ, min (max (ro ^ 2 - ((p.1 - x0) ^ 2 + (p.2 - y0) ^ 2)) 0) (ro ^ 2 - ri ^ 2) =
      Real.pi / 2 * (ro ^ 4 - ri ^ 4) := by
    rw [← ring_volume h0 hro]
    exact integral_sub_right_eq_self (fun p : ℝ × ℝ => min (max (ro ^ 2 - (p.1 ^ 2 + p.2 ^ 2)) 0) (ro ^ 2 - ri ^ 2)) (x0, y0)
  have e2 : ∫ p : ℝ × ℝ in {p | 0 < ro ^ 2 - ((p.1 - x0) ^ 2 + (p.2 - y0) ^ 2) ∧
      ro ^ 2 - ((p.1 - x0) ^ 2 + (p.2 - y0) ^ 2) < ro ^ 2 - ri ^ 2}, ((-2 * (p.1 - x0)) ^ 2 + (-2 * (p.2 - y0)) ^ 2) =
      2 * Real.pi * (ro ^ 4 - ri ^ 4) := by
    rw [← ring_slope h0 hro, ← (measurePreserving_sub_right volume ((x0, y0) : ℝ × ℝ)).setIntegral_preimage_emb
      (Homeomorph.subRight ((x0, y0) : ℝ × ℝ)).measurableEmbedding (fun p : ℝ × ℝ => 4 * (p.1 ^ 2 + p.2 ^ 2))]
    refine setIntegral_congr_fun (by
      exact (ring_open (ri := ri) (ro := ro)).measurableSet.preimage (Homeomorph.subRight ((x0, y0) : ℝ × ℝ)).measurable) fun p _ => ?_
    simp only [Prod.fst_sub, Prod.snd_sub]
    ring
  simp only [ring_dX, ring_dY] at key
  rw [e1, e2] at key
  have hpi := Real.pi_pos
  have : 0 < 2 * Real.pi * (ro ^ 4 - ri ^ 4) := by positivity
  refine le_of_mul_le_mul_right ?_ this
  calc e0 * (Real.pi / 2 * (ro ^ 4 - ri ^ 4)) * (2 * Real.pi * (ro ^ 4 - ri ^ 4))
      = e0 * (2 * (Real.pi / 2 * (ro ^ 4 - ri ^ 4))) ^ 2 := by ring
    _ ≤ _ := key

end SP
