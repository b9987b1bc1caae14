import Verif.Props.ConvergeExample
import Verif.Lemmas.Prandtl
import Verif.Props.Exact
import Verif.Props.PlasticExample

/-!
# C92: the equilateral triangle

The warping function and the stress function of the equilateral triangle are polynomials of degree three, so the constant in the
convergence of the torsion constant to `√3/80 a⁴` is explicit.
-/

namespace SP

open Spec MeasureTheory Set

variable {n : ℕ} {els : List (Tri6 n)} {H b x0 y0 E : ℝ}

/-- The corners: height `H` along the first axis, half of the side `b` along the second, centroid `(x0, y0)`. -/
noncomputable def eqA (H x0 y0 : ℝ) : ℝ × ℝ := (x0 + 2 * H / 3, y0)
noncomputable def eqB (H b x0 y0 : ℝ) : ℝ × ℝ := (x0 - H / 3, y0 + b)
noncomputable def eqC (H b x0 y0 : ℝ) : ℝ × ℝ := (x0 - H / 3, y0 - b)

/-- The warping function under twist about the origin. -/
noncomputable def eqWarp (H x0 y0 : ℝ) (p : ℝ × ℝ) : ℝ :=
  ((p.2 - y0) ^ 3 - 3 * (p.1 - x0) ^ 2 * (p.2 - y0)) / (2 * H) + y0 * p.1 - x0 * p.2

/-- The stress function: the product of the distances from the three sides. -/
noncomputable def eqHill (H x0 y0 : ℝ) (p : ℝ × ℝ) : ℝ :=
  (p.1 - x0 + H / 3) * ((2 * H / 3 - (p.1 - x0)) ^ 2 - 3 * (p.2 - y0) ^ 2) / (2 * H)

theorem eqWarp_grad (p : ℝ × ℝ) :
    dX (eqWarp H x0 y0) p = -6 * (p.1 - x0) * (p.2 - y0) / (2 * H) + y0 ∧
    dY (eqWarp H x0 y0) p = (3 * (p.2 - y0) ^ 2 - 3 * (p.1 - x0) ^ 2) / (2 * H) - x0 := by
  constructor
  · have h0 : HasDerivAt (fun x : ℝ => x - x0) 1 p.1 := (hasDerivAt_id p.1).sub_const x0
    have h1 := (((((h0.pow 2).const_mul 3).mul_const (p.2 - y0)).const_sub ((p.2 - y0) ^ 3)).div_const (2 * H)).add
      ((hasDerivAt_id p.1).const_mul y0) |>.sub_const (x0 * p.2)
    refine (HasDerivAt.deriv h1).trans ?_
    simp
    ring
  · have h0 : HasDerivAt (fun x : ℝ => x - y0) 1 p.2 := (hasDerivAt_id p.2).sub_const y0
    have h1 := ((((h0.pow 3).sub (h0.const_mul (3 * (p.1 - x0) ^ 2))).div_const (2 * H)).add_const (y0 * p.1)).sub
      ((hasDerivAt_id p.2).const_mul x0)
    refine (HasDerivAt.deriv h1).trans ?_
    simp

theorem eqHill_grad (hH : H ≠ 0) (p : ℝ × ℝ) :
    dX (eqHill H x0 y0) p = -(p.1 - x0) + 3 / (2 * H) * ((p.1 - x0) ^ 2 - (p.2 - y0) ^ 2) ∧
    dY (eqHill H x0 y0) p = -(p.2 - y0) - 3 / H * ((p.1 - x0) * (p.2 - y0)) := by
  constructor
  · have h0 : HasDerivAt (fun x : ℝ => x - x0) 1 p.1 := (hasDerivAt_id p.1).sub_const x0
    have h1 := ((h0.add_const (H / 3)).mul (((h0.const_sub (2 * H / 3)).pow 2).sub_const (3 * (p.2 - y0) ^ 2))).div_const (2 * H)
    refine (HasDerivAt.deriv h1).trans ?_
    simp
    field_simp
    ring
  · have h0 : HasDerivAt (fun x : ℝ => x - y0) 1 p.2 := (hasDerivAt_id p.2).sub_const y0
    have h1 := ((((h0.pow 2).const_mul 3).const_sub ((2 * H / 3 - (p.1 - x0)) ^ 2)).const_mul (p.1 - x0 + H / 3)).div_const (2 * H)
    refine (HasDerivAt.deriv h1).trans ?_
    simp
    field_simp
    ring

theorem eqWarp_smooth : ContDiff ℝ 2 (eqWarp H x0 y0) := by
  unfold eqWarp
  fun_prop

theorem eqHill_smooth : ContDiff ℝ 2 (eqHill H x0 y0) := by
  unfold eqHill
  fun_prop

theorem eq_cross : cross2 (eqA H x0 y0) (eqB H b x0 y0) (eqC H b x0 y0) = 2 * H * b := by
  simp only [cross2, eqA, eqB, eqC]
  ring

/-- The triangle by its three sides. -/
theorem eq_mem (hH : 0 < H) (hb : 0 < b) {p : ℝ × ℝ} :
    p ∈ triangle (eqA H x0 y0) (eqB H b x0 y0) (eqC H b x0 y0) ↔
      0 ≤ p.1 - x0 + H / 3 ∧ 0 ≤ b * (2 * H / 3 - (p.1 - x0)) + H * (p.2 - y0) ∧
      0 ≤ b * (2 * H / 3 - (p.1 - x0)) - H * (p.2 - y0) := by
  rw [mem_tri_iff (by rw [eq_cross]; positivity)]
  have e1 : cross2 p (eqB H b x0 y0) (eqC H b x0 y0) = 2 * b * (p.1 - x0 + H / 3) := by
    simp only [cross2, eqB, eqC]; ring
  have e2 : cross2 (eqA H x0 y0) p (eqC H b x0 y0) = b * (2 * H / 3 - (p.1 - x0)) + H * (p.2 - y0) := by
    simp only [cross2, eqA, eqC]; ring
  have e3 : cross2 (eqA H x0 y0) (eqB H b x0 y0) p = b * (2 * H / 3 - (p.1 - x0)) - H * (p.2 - y0) := by
    simp only [cross2, eqA, eqB]; ring
  rw [e1, e2, e3, mul_nonneg_iff_of_pos_left (by positivity)]

theorem eqHill_eq (hH : H ≠ 0) (hb : 3 * b ^ 2 = H ^ 2) (p : ℝ × ℝ) : 2 * H * b ^ 2 * eqHill H x0 y0 p =
    (p.1 - x0 + H / 3) * ((b * (2 * H / 3 - (p.1 - x0)) + H * (p.2 - y0)) * (b * (2 * H / 3 - (p.1 - x0)) - H * (p.2 - y0))) := by
  have e : 2 * H * eqHill H x0 y0 p = (p.1 - x0 + H / 3) * ((2 * H / 3 - (p.1 - x0)) ^ 2 - 3 * (p.2 - y0) ^ 2) := by
    simp only [eqHill]; field_simp
  linear_combination b ^ 2 * e - (p.1 - x0 + H / 3) * (p.2 - y0) ^ 2 * hb

theorem eqHill_frontier (hH : 0 < H) (hb0 : 0 < b) (hb : 3 * b ^ 2 = H ^ 2) {p : ℝ × ℝ}
    (hp : p ∈ frontier (triangle (eqA H x0 y0) (eqB H b x0 y0) (eqC H b x0 y0))) : eqHill H x0 y0 p = 0 := by
  have hcl : IsClosed (triangle (eqA H x0 y0) (eqB H b x0 y0) (eqC H b x0 y0)) :=
    (Set.toFinite _).isClosed_convexHull ℝ
  obtain ⟨h1, h2, h3⟩ := (eq_mem hH hb0).1 (hcl.frontier_subset hp)
  by_contra hne
  have k := eqHill_eq (x0 := x0) (y0 := y0) hH.ne' hb p
  have hne' : 2 * H * b ^ 2 * eqHill H x0 y0 p ≠ 0 := mul_ne_zero (by positivity) hne
  rw [k] at hne'
  have g1 := lt_of_le_of_ne h1 (Ne.symm (left_ne_zero_of_mul hne'))
  have g2 := lt_of_le_of_ne h2 (Ne.symm (left_ne_zero_of_mul (right_ne_zero_of_mul hne')))
  have g3 := lt_of_le_of_ne h3 (Ne.symm (right_ne_zero_of_mul (right_ne_zero_of_mul hne')))
  refine hp.2 (mem_interior.2 ⟨{z | 0 < z.1 - x0 + H / 3 ∧ 0 < b * (2 * H / 3 - (z.1 - x0)) + H * (z.2 - y0) ∧
      0 < b * (2 * H / 3 - (z.1 - x0)) - H * (z.2 - y0)}, ?_, ?_, g1, g2, g3⟩)
  · rintro z ⟨a1, a2, a3⟩
    exact (eq_mem hH hb0).2 ⟨a1.le, a2.le, a3.le⟩
  · have c1 : Continuous fun z : ℝ × ℝ => z.1 - x0 + H / 3 := by fun_prop
    have c2 : Continuous fun z : ℝ × ℝ => b * (2 * H / 3 - (z.1 - x0)) + H * (z.2 - y0) := by fun_prop
    have c3 : Continuous fun z : ℝ × ℝ => b * (2 * H / 3 - (z.1 - x0)) - H * (z.2 - y0) := by fun_prop
    exact (isOpen_lt continuous_const c1).inter ((isOpen_lt continuous_const c2).inter (isOpen_lt continuous_const c3))

theorem eqHill_pos (hH : 0 < H) (hb0 : 0 < b) (hb : 3 * b ^ 2 = H ^ 2) :
    ∀ᵐ p, p ∈ triangle (eqA H x0 y0) (eqB H b x0 y0) (eqC H b x0 y0) → 0 < eqHill H x0 y0 p := by
  have off : ∀ A B : ℝ × ℝ, A ≠ B → ∀ᵐ p : ℝ × ℝ, signedArea2 A B p ≠ 0 := fun A B h => by
    have := signedArea_null h
    rwa [← compl_mem_ae_iff] at this
  have d1 : eqB H b x0 y0 ≠ eqC H b x0 y0 := fun h => by
    have := congrArg Prod.snd h; simp only [eqB, eqC] at this; linarith
  have d2 : eqC H b x0 y0 ≠ eqA H x0 y0 := fun h => by
    have := congrArg Prod.fst h; simp only [eqA, eqC] at this; linarith
  have d3 : eqA H x0 y0 ≠ eqB H b x0 y0 := fun h => by
    have := congrArg Prod.fst h; simp only [eqA, eqB] at this; linarith
  filter_upwards [off _ _ d1, off _ _ d2, off _ _ d3] with p n1 n2 n3 hp
  obtain ⟨h1, h2, h3⟩ := (eq_mem hH hb0).1 hp
  have g1 : 0 < p.1 - x0 + H / 3 := lt_of_le_of_ne h1 fun h => n1 (by
    simp only [signedArea2, eqB, eqC]; linear_combination -2 * b * h)
  have g2 : 0 < b * (2 * H / 3 - (p.1 - x0)) + H * (p.2 - y0) := lt_of_le_of_ne h2 fun h => n2 (by
    simp only [signedArea2, eqA, eqC]; linear_combination -h)
  have g3 : 0 < b * (2 * H / 3 - (p.1 - x0)) - H * (p.2 - y0) := lt_of_le_of_ne h3 fun h => n3 (by
    simp only [signedArea2, eqA, eqB]; linear_combination -h)
  have k := eqHill_eq (x0 := x0) (y0 := y0) hH.ne' hb p
  have : 0 < 2 * H * b ^ 2 * eqHill H x0 y0 p := by rw [k]; positivity
  exact pos_of_mul_pos_right this (by positivity)

/-- The warping function solves the torsion problem of any mesh of the triangle. -/
theorem eq_solution (hp : ∀ t ∈ els, Proper t.coords) (hno : NoOverlap els) (hE : ∀ t ∈ els, t.material.elasticModulus = E)
    (hH : 0 < H) (hb0 : 0 < b) (hb : 3 * b ^ 2 = H ^ 2)
    (hR : region els = triangle (eqA H x0 y0) (eqB H b x0 y0) (eqC H b x0 y0)) : TorsionSolution els (eqWarp H x0 y0) := by
  refine torsionSolution_of_prandtl (ψ := eqHill H x0 y0) hp hno hE (eqWarp_smooth.of_le one_le_two) eqHill_smooth ?_ ?_ ?_ ?_
  · rw [hR]; exact fun p hp => eqHill_frontier hH hb0 hb hp
  · rw [hR]; exact eqHill_pos hH hb0 hb
  · intro p
    rw [(eqWarp_grad p).1, (eqHill_grad hH.ne' p).2]
    field_simp
    ring
  · intro p
    rw [(eqWarp_grad p).2, (eqHill_grad hH.ne' p).1]
    field_simp
    ring

theorem eqWarp_expands (hH : 0 < H) : Expands els (eqWarp H x0 y0) (1 / (2 * H)) := by
  intro t _ p _
  refine ⟨-3 * (p.2 - y0) / (2 * H), -6 * (p.1 - x0) / (2 * H), 3 * (p.2 - y0) / (2 * H), fun z _ => ?_⟩
  rw [(eqWarp_grad p).1, (eqWarp_grad p).2]
  set x := z.1 - p.1 with hx
  set y := z.2 - p.2 with hy
  have e : eqWarp H x0 y0 z - (eqWarp H x0 y0 p + (-6 * (p.1 - x0) * (p.2 - y0) / (2 * H) + y0) * x +
      ((3 * (p.2 - y0) ^ 2 - 3 * (p.1 - x0) ^ 2) / (2 * H) - x0) * y + -3 * (p.2 - y0) / (2 * H) * x ^ 2 +
      -6 * (p.1 - x0) / (2 * H) * (x * y) + 3 * (p.2 - y0) / (2 * H) * y ^ 2) = 1 / (2 * H) * (y ^ 3 - 3 * x ^ 2 * y) := by
    have z1 : z.1 = p.1 + x := by rw [hx]; ring
    have z2 : z.2 = p.2 + y := by rw [hy]; ring
    simp only [eqWarp, z1, z2]
    field_simp
    ring
  rw [e, abs_mul, abs_of_pos (by positivity : 0 < 1 / (2 * H))]
  refine mul_le_mul_of_nonneg_left ?_ (by positivity)
  refine abs_le_of_sq_le_sq ?_ (by positivity)
  have : (√(x ^ 2 + y ^ 2) ^ 3) ^ 2 = (x ^ 2 + y ^ 2) ^ 3 := by
    rw [← pow_mul, mul_comm, pow_mul, Real.sq_sqrt (by positivity)]
  rw [this]
  nlinarith [sq_nonneg (x ^ 3 - 3 * x * y ^ 2)]

theorem eq_integral (hH : 0 < H) (hb0 : 0 < b) (hb : 3 * b ^ 2 = H ^ 2) :
    ∫ p in triangle (eqA H x0 y0) (eqB H b x0 y0) (eqC H b x0 y0), dY (eqHill H x0 y0) p ^ 2 + dX (eqHill H x0 y0) p ^ 2 =
      H ^ 3 * b / 15 := by
  have h1 := continuous_dX (eqHill_smooth (H := H) (x0 := x0) (y0 := y0) |>.of_le one_le_two)
  have h2 := continuous_dY (eqHill_smooth (H := H) (x0 := x0) (y0 := y0) |>.of_le one_le_two)
  rw [Spec.triangle, integral_triangle (by rw [eq_cross]; positivity) _ (by fun_prop), eq_cross, abs_of_pos (by positivity)]
  have inner : ∀ s : ℝ, ∫ t in (0 : ℝ)..(1 - s),
      (dY (eqHill H x0 y0) (triMap (eqA H x0 y0) (eqB H b x0 y0) (eqC H b x0 y0) (s, t)) ^ 2 +
        dX (eqHill H x0 y0) (triMap (eqA H x0 y0) (eqB H b x0 y0) (eqC H b x0 y0) (s, t)) ^ 2) =
      H ^ 2 * (2 * (1 - s) ^ 3 - 14 / 3 * (1 - s) ^ 4 + 14 / 5 * (1 - s) ^ 5) := by
    intro s
    set α := (1 - s) / 2 * (3 * s - 1) with hα
    have d : ∀ t ∈ uIcc 0 (1 - s), HasDerivAt (fun t : ℝ => H ^ 2 * ((s ^ 2 * (2 * t - (1 - s)) ^ 3 + α ^ 2 * (2 * t - (1 - s)) +
        α / 3 * (2 * t - (1 - s)) ^ 3 + 1 / 20 * (2 * t - (1 - s)) ^ 5) / 2))
        (dY (eqHill H x0 y0) (triMap (eqA H x0 y0) (eqB H b x0 y0) (eqC H b x0 y0) (s, t)) ^ 2 +
        dX (eqHill H x0 y0) (triMap (eqA H x0 y0) (eqB H b x0 y0) (eqC H b x0 y0) (s, t)) ^ 2) t := by
      intro t _
      have hv : HasDerivAt (fun t : ℝ => 2 * t - (1 - s)) 2 t := by
        simpa using ((hasDerivAt_id' t).const_mul 2).sub_const (1 - s)
      have hF := ((((((hv.pow 3).const_mul (s ^ 2)).add (hv.const_mul (α ^ 2))).add ((hv.pow 3).const_mul (α / 3))).add
        ((hv.pow 5).const_mul (1 / 20))).div_const 2).const_mul (H ^ 2)
      refine hF.congr_deriv ?_
      rw [(eqHill_grad hH.ne' _).1, (eqHill_grad hH.ne' _).2]
      have hX : (triMap (eqA H x0 y0) (eqB H b x0 y0) (eqC H b x0 y0) (s, t)).1 - x0 = H * (s - 1 / 3) := by
        simp only [triMap, eqA, eqB, eqC]; ring
      have hY : (triMap (eqA H x0 y0) (eqB H b x0 y0) (eqC H b x0 y0) (s, t)).2 - y0 = b * (2 * t - (1 - s)) := by
        simp only [triMap, eqA, eqB, eqC]; ring
      rw [hX, hY]
      set v := 2 * t - (1 - s)
      have e1 : -(b * v) - 3 / H * (H * (s - 1 / 3) * (b * v)) = -(3 * s * (b * v)) := by field_simp; ring
      have e2 : -(H * (s - 1 / 3)) + 3 / (2 * H) * ((H * (s - 1 / 3)) ^ 2 - (b * v) ^ 2) = -(H * (α + v ^ 2 / 2)) := by
        have : (b * v) ^ 2 = H ^ 2 * v ^ 2 / 3 := by rw [mul_pow]; linear_combination v ^ 2 / 3 * hb
        rw [this, hα]
        field_simp
        ring
      rw [e1, e2]
      push_cast
      linear_combination (-3 * s ^ 2 * v ^ 2) * hb
    rw [intervalIntegral.integral_eq_sub_of_hasDerivAt d]
    · rw [hα]; ring
    · refine Continuous.intervalIntegrable ?_ _ _
      have h3 : Continuous fun t : ℝ => triMap (eqA H x0 y0) (eqB H b x0 y0) (eqC H b x0 y0) (s, t) := by
        unfold triMap; fun_prop
      exact ((h2.comp h3).pow 2).add ((h1.comp h3).pow 2)
  simp only [inner]
  have d2 : ∀ s ∈ uIcc (0 : ℝ) 1, HasDerivAt (fun s : ℝ => -(H ^ 2 * ((1 - s) ^ 4 / 2 - 14 / 15 * (1 - s) ^ 5 + 7 / 15 * (1 - s) ^ 6)))
      (H ^ 2 * (2 * (1 - s) ^ 3 - 14 / 3 * (1 - s) ^ 4 + 14 / 5 * (1 - s) ^ 5)) s := by
    intro s _
    have hv : HasDerivAt (fun s : ℝ => 1 - s) (-1) s := by simpa using (hasDerivAt_id' s).const_sub 1
    refine ((((((hv.pow 4).div_const 2).sub ((hv.pow 5).const_mul (14 / 15))).add ((hv.pow 6).const_mul (7 / 15))).const_mul
      (H ^ 2)).neg).congr_deriv ?_
    push_cast
    ring
  rw [intervalIntegral.integral_eq_sub_of_hasDerivAt d2 (Continuous.intervalIntegrable (by fun_prop) _ _)]
  ring

/-- The torsion constant of the exact warping function. -/
theorem eq_energy (hno : NoOverlap els) (hE : ∀ t ∈ els, t.material.elasticModulus = E) (hH : 0 < H) (hb0 : 0 < b)
    (hb : 3 * b ^ 2 = H ^ 2) (hR : region els = triangle (eqA H x0 y0) (eqB H b x0 y0) (eqC H b x0 y0)) :
    twistEnergy els (fun _ => eqWarp H x0 y0) = E * (H ^ 3 * b / 15) := by
  have h1 := continuous_dX (eqHill_smooth (H := H) (x0 := x0) (y0 := y0) |>.of_le one_le_two)
  have h2 := continuous_dY (eqHill_smooth (H := H) (x0 := x0) (y0 := y0) |>.of_le one_le_two)
  have hc : Continuous fun p => dY (eqHill H x0 y0) p ^ 2 + dX (eqHill H x0 y0) p ^ 2 := by fun_prop
  have hf : IsField els Material.elasticModulus fun _ => E := fun t ht => Filter.Eventually.of_forall fun _ _ => (hE t ht).symm
  have key := (sum_integral hno hf hc).2
  rw [← eq_integral (x0 := x0) (y0 := y0) hH hb0 hb, ← hR, ← integral_const_mul, ← key, twistEnergy, wInt]
  refine congrArg List.sum (List.map_congr_left fun t _ => ?_)
  rw [mul_comm]
  congr 1
  refine setIntegral_congr_fun (measurable_elemRegion _) fun p _ => ?_
  rw [(eqWarp_grad p).1, (eqWarp_grad p).2, (eqHill_grad hH.ne' p).1, (eqHill_grad hH.ne' p).2]
  field_simp
  ring

/-- **C92** The equilateral triangle with side `a`: the torsion constant is at least `√3/80 a⁴` (times the modulus) on every mesh, and
exceeds that by at most a constant times the fourth power of the element size. -/
theorem C92_triangle {s : Section} {r : GeomResults} (hg : GoodSection s) (hP : Physical s.elements)
    (hc : ConformingMesh s.meshNodes s.elements) (hno : NoOverlap s.elements) (hr : s.geometricAnalysis = .ok r) (sv : Solvers)
    (ty : SolverType) (w : WarpResults s.numNodes) (hw : s.warping sv ty r = .ok w)
    (hex : SolvesBordered (assembleTorsion (s.elements.map fun t => t.shiftBy r.cx r.cy)).1
      (assembleTorsion (s.elements.map fun t => t.shiftBy r.cx r.cy)).2 w.omega) {a : ℝ} (ha : 0 < a)
    (hR : region s.elements = triangle (x0 + √3 / 3 * a, y0) (x0 - √3 / 6 * a, y0 + a / 2) (x0 - √3 / 6 * a, y0 - a / 2))
    (hE : ∀ t ∈ s.elements, t.material.elasticModulus = E) {h κ : ℝ} (hf : FineMesh s.elements h κ) :
    E * (√3 / 80 * a ^ 4) ≤ w.j ∧ w.j ≤ E * (√3 / 80 * a ^ 4) + E * (√3 * (147 / 2) * (κ * h ^ 2) ^ 2) := by
  have h3 : √3 ^ 2 = 3 := Real.sq_sqrt (by norm_num)
  have h30 : 0 < √3 := by positivity
  have hH : 0 < √3 / 2 * a := by positivity
  have hb0 : 0 < a / 2 := by positivity
  have hb : 3 * (a / 2) ^ 2 = (√3 / 2 * a) ^ 2 := by linear_combination -(a ^ 2 / 4) * h3
  have eA : (x0 + √3 / 3 * a, y0) = eqA (√3 / 2 * a) x0 y0 := by rw [eqA]; congr 1; ring
  have eB : (x0 - √3 / 6 * a, y0 + a / 2) = eqB (√3 / 2 * a) (a / 2) x0 y0 := by rw [eqB]; congr 1; ring
  have eC : (x0 - √3 / 6 * a, y0 - a / 2) = eqC (√3 / 2 * a) (a / 2) x0 y0 := by rw [eqC]; congr 1; ring
  rw [eA, eB, eC] at hR
  obtain ⟨k1, k2⟩ := C92_torsion s r hg hP hc hr sv ty w hw hex (eq_solution hP.proper hno hE hH hb0 hb hR) (by positivity)
    (eqWarp_expands hH) hf
  have hea : r.sums.ea = E * (√3 / 4 * a ^ 2) := by
    have hf : IsField s.elements Material.elasticModulus fun _ => E :=
      fun t ht => Filter.Eventually.of_forall fun _ _ => (hE t ht).symm
    obtain ⟨hs, -⟩ := geom_ok hr
    rw [hs, (sums_fields hP.proper).2.2.1]
    have := (sum_integral hno hf (continuous_const (y := (1 : ℝ)))).2
    simp only [mul_one] at this
    rw [this, hR, Spec.triangle, integral_triangle (by rw [eq_cross]; positivity) _ continuous_const, eq_cross,
      abs_of_pos (by positivity)]
    have hin : ∀ s : ℝ, ∫ _t in (0 : ℝ)..(1 - s), E = (1 - s) * E := fun s => by simp
    simp only [hin]
    have d2 : ∀ s ∈ uIcc (0 : ℝ) 1, HasDerivAt (fun s : ℝ => -((1 - s) ^ 2 / 2 * E)) ((1 - s) * E) s := by
      intro s _
      have hv : HasDerivAt (fun s : ℝ => 1 - s) (-1) s := by simpa using (hasDerivAt_id' s).const_sub 1
      refine ((((hv.pow 2).div_const 2).mul_const E).neg).congr_deriv ?_
      push_cast
      ring
    rw [intervalIntegral.integral_eq_sub_of_hasDerivAt d2 (Continuous.intervalIntegrable (by fun_prop) _ _)]
    ring
  rw [eq_energy hno hE hH hb0 hb hR, hea] at k2
  rw [eq_energy hno hE hH hb0 hb hR] at k1
  have e1 : E * ((√3 / 2 * a) ^ 3 * (a / 2) / 15) = E * (√3 / 80 * a ^ 4) := by
    linear_combination (E * a ^ 4 * √3 / 240) * h3
  have e2 : 882 * (κ * (1 / (2 * (√3 / 2 * a))) * h ^ 2) ^ 2 * (E * (√3 / 4 * a ^ 2)) = E * (√3 * (147 / 2) * (κ * h ^ 2) ^ 2) := by
    field_simp
    linear_combination (-588 * κ ^ 2 * h ^ 4 * E) * h3
  rw [e1] at k1 k2
  rw [e2] at k2
  exact ⟨k1, k2⟩

/-- A triangle with side `2 √3` as a single element. -/
noncomputable def exEqV : Fin 6 → ℝ × ℝ := ![(2, 0), (-1, √3), (-1, -√3), (1 / 2, √3 / 2), (-1, 0), (1 / 2, -√3 / 2)]

noncomputable def exE0 : Tri6 6 := ⟨0, gather exEqV id, id, defaultMaterial⟩

noncomputable def exEq : Section where
  numNodes := 6
  meshNodes := exEqV
  materials := [⟨0, defaultMaterial⟩]
  elements := [exE0]
  groups := [⟨⟨0, defaultMaterial⟩, [exE0]⟩]

/-- The single element meets the hypotheses; its torsion constant lies above the exact value `9 √3 / 5`. -/
example : ∃ (r : GeomResults) (w : WarpResults exEq.numNodes) (h κ : ℝ), exEq.geometricAnalysis = .ok r ∧
    exEq.warping exactSolvers .direct r = .ok w ∧ FineMesh exEq.elements h κ ∧ 9 * √3 / 5 ≤ w.j ∧
    w.j ≤ 9 * √3 / 5 + √3 * (147 / 2) * (κ * h ^ 2) ^ 2 := by
  have h3 : √3 ^ 2 = 3 := Real.sq_sqrt (by norm_num)
  have h30 : 0 < √3 := by positivity
  have mem : ∀ t ∈ exEq.elements, t = exE0 := fun (t : Tri6 6) ht => List.mem_singleton.1 ht
  have hd : elemDet exE0.coords = 6 * √3 := by
    simp [elemDet, signedArea2, cornerA, cornerB, cornerC, exE0, gather, exEqV]; ring
  have hpr : Proper exE0.coords := by
    refine ⟨?_, by rw [hd]; positivity⟩
    simp only [Straight, exE0, gather, exEqV]
    refine ⟨?_, ?_, ?_, ?_, ?_, ?_⟩ <;> simp <;> ring
  have hP : Physical exEq.elements := by
    refine ⟨by simp [exEq], fun t ht => by rw [mem t ht]; exact hpr, fun t ht => ?_⟩
    rw [mem t ht]; norm_num [exE0, defaultMaterial]
  have hg : GoodSection exEq := ⟨hP.proper, fun t ht => by rw [mem t ht]; rfl⟩
  have hc : ConformingMesh exEq.meshNodes exEq.elements := fun a ha b hb hab => absurd ((mem a ha).trans (mem b hb).symm) hab
  have hno : NoOverlap exEq.elements := List.pairwise_singleton _ _
  have hreg : elemRegion exE0.coords =
      triangle (0 + √3 / 3 * (2 * √3), 0) (0 - √3 / 6 * (2 * √3), 0 + 2 * √3 / 2) (0 - √3 / 6 * (2 * √3), 0 - 2 * √3 / 2) := by
    have e1 : √3 / 3 * (2 * √3) = 2 := by linear_combination 2 / 3 * h3
    have e2 : √3 / 6 * (2 * √3) = 1 := by linear_combination 1 / 3 * h3
    rw [e1, e2, elemRegion]
    simp [cornerA, cornerB, cornerC, exE0, gather, exEqV]
  have hR : region exEq.elements =
      triangle (0 + √3 / 3 * (2 * √3), 0) (0 - √3 / 6 * (2 * √3), 0 + 2 * √3 / 2) (0 - √3 / 6 * (2 * √3), 0 - 2 * √3 / 2) := by
    rw [← hreg]
    ext p
    constructor
    · rintro ⟨t, ht, h⟩
      rwa [mem t ht] at h
    · exact fun h => ⟨exE0, List.mem_singleton.2 rfl, h⟩
  have box : ∀ p ∈ elemRegion exE0.coords, -1 ≤ p.1 ∧ p.1 ≤ 2 ∧ -√3 ≤ p.2 ∧ p.2 ≤ √3 := by
    intro p hp
    obtain ⟨s, t, hs, ht, hst, g1, g2⟩ := mem_tri.1 hp
    simp [cornerA, cornerB, cornerC, exE0, gather, exEqV] at g1 g2
    refine ⟨by rw [g1]; linarith, by rw [g1]; linarith, ?_, ?_⟩
    · rw [g2]; nlinarith [mul_nonneg hs h30.le, mul_nonneg ht h30.le]
    · rw [g2]; nlinarith [mul_nonneg hs h30.le, mul_nonneg ht h30.le]
  have hf : FineMesh exEq.elements √21 (21 / 10) := by
    intro t ht
    rw [mem t ht]
    refine ⟨√21, le_rfl, ?_, fun p hp z hz => Real.sqrt_le_sqrt ?_⟩
    · rw [Real.sq_sqrt (by norm_num), hd]
      nlinarith
    · obtain ⟨a1, a2, a3, a4⟩ := box p hp
      obtain ⟨b1, b2, b3, b4⟩ := box z hz
      have c1 : (z.1 - p.1) ^ 2 ≤ 3 ^ 2 := sq_le_sq' (by linarith) (by linarith)
      have c2 : (z.2 - p.2) ^ 2 ≤ (2 * √3) ^ 2 := sq_le_sq' (by linarith) (by linarith)
      nlinarith
  obtain ⟨r, hr⟩ := geometricAnalysis_ok exEq (by simp [exEq])
  obtain ⟨w, hw, h1, -⟩ := exact_warping exEq r hg hP hr
    fun i j => .single ⟨exE0.shiftBy r.cx r.cy, List.mem_singleton.2 rfl, i, j, rfl, rfl⟩
  obtain ⟨k1, k2⟩ := C92_triangle (x0 := 0) (y0 := 0) (E := 1) hg hP hc hno hr _ _ w hw h1 (a := 2 * √3) (by positivity) hR
    (fun t ht => by rw [mem t ht]; norm_num [exE0, defaultMaterial]) hf
  have e : 1 * (√3 / 80 * (2 * √3) ^ 4) = 9 * √3 / 5 := by linear_combination (√3 * (√3 ^ 2 + 3) / 5) * h3
  rw [e] at k1 k2
  rw [one_mul] at k2
  exact ⟨r, w, √21, 21 / 10, hr, hw, hf, k1, k2⟩

end SP
