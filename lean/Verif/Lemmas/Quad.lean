import Verif.Model.Fea
import Verif.Spec.Poly
import Verif.Lemmas.TriInt
import Mathlib.MeasureTheory.Integral.IntervalIntegral.IntegrationByParts
import Mathlib.Analysis.SpecialFunctions.Integrals.Basic
import Mathlib.Tactic.IntervalCases
import Mathlib.Tactic.NormNum.NatFactorial

/-!
# Exactness of the quadrature rules
-/

namespace SP

open MeasureTheory Set Spec

/-! ### Polynomials -/

theorem PolyLE.continuous {d : ℕ} {f : ℝ × ℝ → ℝ} (hf : f ∈ PolyLE d) : Continuous f := by
  induction hf using Submodule.span_induction with
  | mem f h => obtain ⟨i, j, -, rfl⟩ := h; fun_prop
  | zero => exact continuous_const
  | add f g _ _ hf hg => exact hf.add hg
  | smul a f _ hf => exact hf.const_smul a

theorem PolyLE.mono {d e : ℕ} (h : d ≤ e) : PolyLE d ≤ PolyLE e :=
  Submodule.span_mono (by rintro f ⟨i, j, hij, rfl⟩; exact ⟨i, j, hij.trans h, rfl⟩)

theorem PolyLE.mul {d e : ℕ} {f g : ℝ × ℝ → ℝ} (hf : f ∈ PolyLE d) (hg : g ∈ PolyLE e) :
    f * g ∈ PolyLE (d + e) := by
  induction hf using Submodule.span_induction with
  | mem f h =>
    obtain ⟨i, j, hij, rfl⟩ := h
    induction hg using Submodule.span_induction with
    | mem g h =>
      obtain ⟨k, l, hkl, rfl⟩ := h
      refine Submodule.subset_span ⟨i + k, j + l, by omega, ?_⟩
      funext p
      simp only [Pi.mul_apply]
      ring
    | zero => simp
    | add f g _ _ hf hg => rw [mul_add]; exact Submodule.add_mem _ hf hg
    | smul a f _ hf => rw [mul_smul_comm]; exact Submodule.smul_mem _ _ hf
  | zero => simp
  | add f g _ _ hf hg => rw [add_mul]; exact Submodule.add_mem _ hf hg
  | smul a f _ hf => rw [smul_mul_assoc]; exact Submodule.smul_mem _ _ hf

theorem PolyLE.const (d : ℕ) (a : ℝ) : (fun _ => a) ∈ PolyLE d := by
  have : (fun p : ℝ × ℝ => p.1 ^ 0 * p.2 ^ 0) ∈ PolyLE d :=
    Submodule.subset_span ⟨0, 0, by omega, rfl⟩
  convert Submodule.smul_mem _ a this using 1
  funext p; simp

theorem PolyLE.fst : (fun p : ℝ × ℝ => p.1) ∈ PolyLE 1 :=
  Submodule.subset_span ⟨1, 0, by omega, by funext p; simp⟩

theorem PolyLE.snd : (fun p : ℝ × ℝ => p.2) ∈ PolyLE 1 :=
  Submodule.subset_span ⟨0, 1, by omega, by funext p; simp⟩

theorem PolyLE.affine (a b c : ℝ) : (fun p : ℝ × ℝ => a + p.1 * b + p.2 * c) ∈ PolyLE 1 := by
  have h1 := PolyLE.const 1 a
  have h2 := Submodule.smul_mem _ b PolyLE.fst
  have h3 := Submodule.smul_mem _ c PolyLE.snd
  convert Submodule.add_mem _ (Submodule.add_mem _ h1 h2) h3 using 1
  funext p
  simp only [Pi.add_apply, Pi.smul_apply, smul_eq_mul]
  ring

theorem PolyLE.pow {d : ℕ} {f : ℝ × ℝ → ℝ} (hf : f ∈ PolyLE d) (k : ℕ) : f ^ k ∈ PolyLE (k * d) := by
  induction k with
  | zero =>
    rw [pow_zero, Nat.zero_mul]
    exact PolyLE.const 0 1
  | succ k ih =>
    rw [pow_succ]
    convert PolyLE.mul ih hf using 1
    ring_nf

/-- Affine substitution does not raise the degree. -/
theorem PolyLE.comp_triMap {d : ℕ} {f : ℝ × ℝ → ℝ} (hf : f ∈ PolyLE d) (A B C : ℝ × ℝ) :
    (fun q => f (triMap A B C q)) ∈ PolyLE d := by
  induction hf using Submodule.span_induction with
  | mem f h =>
    obtain ⟨i, j, hij, rfl⟩ := h
    have h1 := PolyLE.pow (PolyLE.affine C.1 (A.1 - C.1) (B.1 - C.1)) i
    have h2 := PolyLE.pow (PolyLE.affine C.2 (A.2 - C.2) (B.2 - C.2)) j
    exact PolyLE.mono (e := d) (by omega) (PolyLE.mul h1 h2)
  | zero => exact Submodule.zero_mem _
  | add f g _ _ hf hg => exact Submodule.add_mem _ hf hg
  | smul a f _ hf => exact Submodule.smul_mem _ a hf

/-! ### Monomials on the unit triangle -/

theorem beta_int (a b : ℕ) :
    ∫ s in (0 : ℝ)..1, s ^ a * (1 - s) ^ b
      = (a.factorial * b.factorial : ℝ) / (a + b + 1).factorial := by
  induction b generalizing a with
  | zero =>
    simp only [pow_zero, mul_one, integral_pow, one_pow, Nat.factorial_zero, Nat.cast_one,
      add_zero, Nat.factorial_succ]
    have : (a.factorial : ℝ) ≠ 0 := by exact_mod_cast a.factorial_ne_zero
    push_cast
    field_simp
    simp
  | succ b ih =>
    have h := intervalIntegral.integral_mul_deriv_eq_deriv_mul (a := (0 : ℝ)) (b := 1)
      (u := fun s => (1 - s) ^ (b + 1)) (v := fun s => s ^ (a + 1) / (a + 1))
      (u' := fun s => -((b + 1) * (1 - s) ^ b)) (v' := fun s => s ^ a)
      (fun s _ => by
        have := ((hasDerivAt_id s).const_sub 1).pow (b + 1)
        refine HasDerivAt.congr_deriv (f := fun s => (1 - s) ^ (b + 1)) this ?_
        simp)
      (fun s _ => by
        have := (hasDerivAt_pow (a + 1) s).div_const ((a : ℝ) + 1)
        convert this using 1
        have : (a : ℝ) + 1 ≠ 0 := by positivity
        simp
        field_simp)
      (by apply Continuous.intervalIntegrable; fun_prop)
      (by apply Continuous.intervalIntegrable; fun_prop)
    have e1 : ∫ s in (0 : ℝ)..1, s ^ a * (1 - s) ^ (b + 1)
        = ∫ s in (0 : ℝ)..1, (1 - s) ^ (b + 1) * s ^ a := by
      congr 1; funext s; ring
    have e2 : ∫ s in (0 : ℝ)..1, -((b + 1) * (1 - s) ^ b) * (s ^ (a + 1) / (a + 1))
        = -((b + 1) / (a + 1)) * ∫ s in (0 : ℝ)..1, s ^ (a + 1) * (1 - s) ^ b := by
      rw [← intervalIntegral.integral_const_mul]
      congr 1; funext s; ring
    rw [e1, h, e2, ih (a + 1)]
    have : (a : ℝ) + 1 ≠ 0 := by positivity
    have hf : ((a + 1 + b + 1).factorial : ℝ) ≠ 0 := by exact_mod_cast Nat.factorial_ne_zero _
    have h3 : a + (b + 1) + 1 = a + 1 + b + 1 := by ring
    rw [h3, Nat.factorial_succ a, Nat.factorial_succ b]
    push_cast
    simp
    field_simp

theorem integral_stdTri_monomial (i j : ℕ) :
    ∫ q in stdTri, (q.1 ^ i * q.2 ^ j : ℝ)
      = (i.factorial * j.factorial : ℝ) / (i + j + 2).factorial := by
  rw [integral_stdTri (fun q => q.1 ^ i * q.2 ^ j) (by fun_prop)]
  have : ∀ s : ℝ, ∫ t in (0 : ℝ)..(1 - s), s ^ i * t ^ j
      = (1 / (j + 1)) * (s ^ i * (1 - s) ^ (j + 1)) := by
    intro s
    rw [intervalIntegral.integral_const_mul, integral_pow]
    simp
    ring
  simp only [this]
  rw [intervalIntegral.integral_const_mul, beta_int]
  have h3 : i + (j + 1) + 1 = i + j + 2 := by ring
  have h0 : (j : ℝ) + 1 ≠ 0 := by positivity
  rw [h3, Nat.factorial_succ j]
  push_cast
  field_simp

/-! ### Rules -/

/-- A list of Gauss points integrates all polynomials of degree `≤ d` on the unit triangle. -/
def ExactStd (d : ℕ) (gps : List GaussPt) : Prop :=
  ∀ i j : ℕ, i + j ≤ d →
    (gps.map fun gp => gp.w * (gp.eta ^ i * gp.xi ^ j)).sum
      = 2 * ((i.factorial * j.factorial : ℝ) / (i + j + 2).factorial)

theorem ExactStd.poly {d : ℕ} {gps : List GaussPt} (h : ExactStd d gps) {f : ℝ × ℝ → ℝ}
    (hf : f ∈ PolyLE d) :
    ∫ q in stdTri, f q = 1 / 2 * (gps.map fun gp => gp.w * f (gp.eta, gp.xi)).sum := by
  induction hf using Submodule.span_induction with
  | mem f hm =>
    obtain ⟨i, j, hij, rfl⟩ := hm
    rw [integral_stdTri_monomial, h i j hij]
    ring
  | zero => simp
  | add f g hf' hg' hf hg =>
    have cf := (PolyLE.continuous hf').continuousOn.integrableOn_compact (μ := volume) isCompact_stdTri
    have cg := (PolyLE.continuous hg').continuousOn.integrableOn_compact (μ := volume) isCompact_stdTri
    simp only [Pi.add_apply, mul_add, List.sum_map_add]
    rw [integral_add cf cg, hf, hg]
  | smul a f _ hf =>
    simp only [Pi.smul_apply, smul_eq_mul, integral_const_mul, hf]
    have : (gps.map fun gp => gp.w * (a * f (gp.eta, gp.xi)))
        = (gps.map fun gp => a * (gp.w * f (gp.eta, gp.xi))) := by
      congr 1; funext gp; ring
    rw [this, List.sum_map_mul_left]
    ring

theorem ExactStd.triangle {d : ℕ} {gps : List GaussPt} (h : ExactStd d gps) {f : ℝ × ℝ → ℝ}
    (hf : f ∈ PolyLE d) {A B C : ℝ × ℝ} (hD : cross2 A B C ≠ 0) :
    ∫ p in convexHull ℝ {A, B, C}, f p
      = |cross2 A B C| / 2
        * (gps.map fun gp => gp.w * f (triMap A B C (gp.eta, gp.xi))).sum := by
  rw [integral_triangle hD f (PolyLE.continuous hf)]
  have hc := PolyLE.comp_triMap hf A B C
  have := integral_stdTri _ (PolyLE.continuous hc)
  rw [← this, h.poly hc]
  ring

theorem exact_gauss1 : ExactStd 1 gauss1 := by
  intro i j hij
  have hi : i ≤ 1 := by omega
  have hj : j ≤ 1 := by omega
  interval_cases i <;> interval_cases j <;> first | omega | (simp [gauss1, Nat.factorial]; done) | (simp [gauss1, Nat.factorial]; norm_num)

theorem exact_gauss3 : ExactStd 2 gauss3 := by
  intro i j hij
  have hi : i ≤ 2 := by omega
  have hj : j ≤ 2 := by omega
  interval_cases i <;> interval_cases j <;> first | omega | (simp [gauss3, Nat.factorial]; done) | (simp [gauss3, Nat.factorial]; norm_num)

theorem exact_gauss4 : ExactStd 3 gauss4 := by
  intro i j hij
  have hi : i ≤ 3 := by omega
  have hj : j ≤ 3 := by omega
  interval_cases i <;> interval_cases j <;> first | omega | (simp [gauss4, Nat.factorial]; done) | (simp [gauss4, Nat.factorial]; norm_num)

/-! ### The six point rule: arithmetic in `ℚ(√10, √(38 - 44√(2/5)))` -/

/-- `√10`. -/
noncomputable def r10 : ℝ := √10
/-- `√(38 - 44 √(2/5))`. -/
noncomputable def q38 : ℝ := √(38 - 44 * √(2 / 5))

theorem r10_sq : r10 ^ 2 = 10 := Real.sq_sqrt (by norm_num)
theorem r10_nonneg : 0 ≤ r10 := Real.sqrt_nonneg _
theorem r10_lt : r10 < 3.1623 := by
  rw [r10, Real.sqrt_lt' (by norm_num)]; norm_num
theorem r10_gt : 3.1622 < r10 := by
  rw [r10, Real.lt_sqrt (by norm_num)]; norm_num

theorem sqrt_two_fifth : √(2 / 5) = r10 / 5 := by
  rw [Real.sqrt_eq_iff_mul_self_eq (by norm_num) (by have := r10_nonneg; positivity)]
  have := r10_sq
  linear_combination -this / 25

theorem q38_sq : q38 ^ 2 = 38 - 44 / 5 * r10 := by
  rw [q38, sqrt_two_fifth, Real.sq_sqrt (by have := r10_lt; linarith)]
  ring
theorem q38_nonneg : 0 ≤ q38 := Real.sqrt_nonneg _

theorem p_eq : √(213125 - 53320 * √10) = q38 * (45 / 2 * r10 - 5) := by
  have hr := r10_gt
  have hq := q38_nonneg
  have h2 := q38_sq
  have h3 := r10_sq
  rw [Real.sqrt_eq_iff_mul_self_eq (by rw [← r10]; have := r10_lt; linarith)
    (mul_nonneg hq (by linarith))]
  rw [← r10]
  have : q38 * (45 / 2 * r10 - 5) * (q38 * (45 / 2 * r10 - 5))
    = q38 ^ 2 * (45 / 2 * r10 - 5) ^ 2 := by ring
  rw [this, h2]
  linear_combination -(19237.5 + 1980 - 4455 * r10) * h3

theorem g1_eq : g1 = 1 / 18 * (8 - r10 + q38) := rfl
theorem g2_eq : g2 = 1 / 18 * (8 - r10 - q38) := rfl
theorem w1_eq : w1 = (620 + q38 * (45 / 2 * r10 - 5)) / 3720 := by rw [w1, p_eq]
theorem w2_eq : w2 = (620 - q38 * (45 / 2 * r10 - 5)) / 3720 := by rw [w2, p_eq]

theorem exact_gauss6 : ExactStd 4 gauss6 := by
  intro i j hij
  have hi : i ≤ 4 := by omega
  have hj : j ≤ 4 := by omega
  have h2 := q38_sq
  have h3 := r10_sq
  interval_cases i <;> interval_cases j <;> first | omega | skip
  all_goals
    simp [gauss6, gauss6pt, Nat.factorial, g1_eq, g2_eq, w1_eq, w2_eq]
    generalize q38 = q at *
    generalize r10 = r at *
    grind

end SP
