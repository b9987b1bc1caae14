import Verif.Lemmas.StressFunction
import Verif.Spec.Converge

/-!
# Interpolation of smooth functions and the best approximation property
-/

namespace SP

open Spec MeasureTheory Set

variable {n : ℕ} {els : List (Tri6 n)} {x : Fin n → ℝ} {q v : Tri6 n → ℝ × ℝ → ℝ} {u g : ℝ × ℝ → ℝ}

/-! ### The gradient of an interpolant -/

theorem tri_coords {A B C p : ℝ × ℝ} (h : p ∈ triangle A B C) : ∃ α β γ : ℝ, 0 ≤ α ∧ 0 ≤ β ∧ 0 ≤ γ ∧ α + β + γ = 1 ∧
    p.1 = α * A.1 + β * B.1 + γ * C.1 ∧ p.2 = α * A.2 + β * B.2 + γ * C.2 := by
  rw [triangle, convexHull_insert (Set.insert_nonempty _ _), mem_convexJoin] at h
  obtain ⟨a, ha, z, hz, hp⟩ := h
  rw [convexHull_pair] at hz
  rw [mem_singleton_iff] at ha
  subst ha
  obtain ⟨s, t, hs, ht, hst, rfl⟩ := hz
  obtain ⟨m, k, hm, hk, hmk, rfl⟩ := hp
  refine ⟨m, k * s, k * t, hm, by positivity, by positivity, by linear_combination hmk + k * hst, ?_, ?_⟩ <;>
    simp <;> ring

/-- Six terms, each the product of a value of at most `δ` and the slope of a shape function. -/
theorem six_terms {α β γ ea eb ec h δ r0 r1 r2 r3 r4 r5 : ℝ} (hα : 0 ≤ α) (hβ : 0 ≤ β) (hγ : 0 ≤ γ) (h1 : α + β + γ = 1)
    (ha : |ea| ≤ h) (hb : |eb| ≤ h) (hc : |ec| ≤ h) (k0 : |r0| ≤ δ) (k1 : |r1| ≤ δ) (k2 : |r2| ≤ δ) (k3 : |r3| ≤ δ)
    (k4 : |r4| ≤ δ) (k5 : |r5| ≤ δ) :
    |r0 * ((4 * α - 1) * ea) + r1 * ((4 * β - 1) * eb) + r2 * ((4 * γ - 1) * ec) + r3 * (4 * (α * eb + β * ea))
      + r4 * (4 * (β * ec + γ * eb)) + r5 * (4 * (α * ec + γ * ea))| ≤ 21 * (δ * h) := by
  have hδ : 0 ≤ δ := (abs_nonneg _).trans k0
  have hh : 0 ≤ h := (abs_nonneg _).trans ha
  have m : ∀ {r w k : ℝ}, |r| ≤ δ → |w| ≤ k → |r * w| ≤ δ * k := fun {r w k} h1 h2 => by
    rw [abs_mul]; exact mul_le_mul h1 h2 (abs_nonneg _) hδ
  have corner : ∀ {l e : ℝ}, 0 ≤ l → l ≤ 1 → |e| ≤ h → |(4 * l - 1) * e| ≤ 3 * h := fun {l e} h0 h1 he => by
    rw [abs_mul]
    exact mul_le_mul (abs_le.2 ⟨by linarith, by linarith⟩) he (abs_nonneg _) (by norm_num)
  have mid : ∀ {l k e f : ℝ}, 0 ≤ l → 0 ≤ k → l + k ≤ 1 → |e| ≤ h → |f| ≤ h → |4 * (l * e + k * f)| ≤ 4 * h :=
    fun {l k e f} h0 h1 h2 he hf => by
    rw [abs_mul, abs_of_pos (by norm_num : (0 : ℝ) < 4)]
    have e1 : |l * e| ≤ l * h := by rw [abs_mul, abs_of_nonneg h0]; exact mul_le_mul_of_nonneg_left he h0
    have e2 : |k * f| ≤ k * h := by rw [abs_mul, abs_of_nonneg h1]; exact mul_le_mul_of_nonneg_left hf h1
    have e3 : (l + k) * h ≤ 1 * h := mul_le_mul_of_nonneg_right h2 hh
    have e4 := abs_add_le (l * e) (k * f)
    linarith
  have t0 := m k0 (corner hα (by linarith) ha)
  have t1 := m k1 (corner hβ (by linarith) hb)
  have t2 := m k2 (corner hγ (by linarith) hc)
  have t3 := m k3 (mid hα hβ (by linarith) hb ha)
  have t4 := m k4 (mid hβ hγ (by linarith) hc hb)
  have t5 := m k5 (mid hα hγ (by linarith) hc ha)
  rw [abs_le] at *
  constructor <;> linarith [t0.1, t0.2, t1.1, t1.2, t2.1, t2.2, t3.1, t3.2, t4.1, t4.2, t5.1, t5.2]

theorem corner_mem (c : Coords) : cornerA c ∈ elemRegion c ∧ cornerB c ∈ elemRegion c ∧ cornerC c ∈ elemRegion c :=
  ⟨subset_convexHull ℝ _ (by simp), subset_convexHull ℝ _ (by simp), subset_convexHull ℝ _ (by simp)⟩

theorem coord_le {a b h : ℝ} (hh : √(a ^ 2 + b ^ 2) ≤ h) : |a| ≤ h ∧ |b| ≤ h :=
  ⟨(Real.abs_le_sqrt (by nlinarith [sq_nonneg b])).trans hh, (Real.abs_le_sqrt (by nlinarith [sq_nonneg a])).trans hh⟩

/-- A quadratic polynomial whose nodal values are at most `δ` has gradients of at most `21 δ h / D` on the triangle. -/
theorem quad_grad {c : Coords} (hp : Proper c) {a0 a1 a2 a3 a4 a5 δ h : ℝ}
    (hh : ∀ p ∈ elemRegion c, ∀ z ∈ elemRegion c, √((z.1 - p.1) ^ 2 + (z.2 - p.2) ^ 2) ≤ h)
    (hn : ∀ i, |quad a0 a1 a2 a3 a4 a5 (c.x i, c.y i)| ≤ δ) {p : ℝ × ℝ} (hpm : p ∈ elemRegion c) :
    |a1 + 2 * a3 * p.1 + a4 * p.2| ≤ 21 * (δ * h) / elemDet c ∧ |a2 + a4 * p.1 + 2 * a5 * p.2| ≤ 21 * (δ * h) / elemDet c := by
  obtain ⟨α, β, γ, hα, hβ, hγ, h1, e1, e2⟩ := tri_coords hpm
  obtain ⟨mA, mB, mC⟩ := corner_mem c
  obtain ⟨⟨h3, h4, h5, h6, h7, h8⟩, hD⟩ := hp
  have hdd : elemDet c = (c.x 1 - c.x 0) * (c.y 2 - c.y 0) - (c.x 2 - c.x 0) * (c.y 1 - c.y 0) := rfl
  obtain ⟨bc1, bc2⟩ := coord_le (hh _ mC _ mB)
  obtain ⟨ca1, ca2⟩ := coord_le (hh _ mA _ mC)
  obtain ⟨ab1, ab2⟩ := coord_le (hh _ mB _ mA)
  have hγ' : γ = 1 - α - β := by linarith
  simp only [cornerA, cornerB, cornerC] at *
  constructor
  · rw [le_div_iff₀ hD, ← abs_of_pos hD, ← abs_mul]
    refine le_of_eq_of_le ?_ (six_terms hα hβ hγ h1 bc2 ca2 ab2 (hn 0) (hn 1) (hn 2) (hn 3) (hn 4) (hn 5))
    congr 1
    rw [hdd, e1, e2, hγ']
    simp only [quad, h3, h4, h5, h6, h7, h8]
    ring
  · rw [abs_sub_comm] at bc1 ca1 ab1
    rw [le_div_iff₀ hD, ← abs_of_pos hD, ← abs_mul]
    refine le_of_eq_of_le ?_ (six_terms hα hβ hγ h1 bc1 ca1 ab1 (hn 0) (hn 1) (hn 2) (hn 3) (hn 4) (hn 5))
    congr 1
    rw [hdd, e1, e2, hγ']
    simp only [quad, h3, h4, h5, h6, h7, h8]
    ring

/-- The gradient of the interpolant of a function differs from the gradient of the function by at most `21 M κ h²`. -/
theorem interp_grad {t : Tri6 n} (ht : t ∈ els) (hp : Proper t.coords) {M h κ : ℝ} (hM : 0 ≤ M) (hf : FineMesh els h κ)
    (hu : Expands els u M) {w : ℝ × ℝ → ℝ} (hw : Interpolates t.coords (fun k => u (t.coords.x k, t.coords.y k)) w)
    {p : ℝ × ℝ} (hpm : p ∈ elemRegion t.coords) :
    |dX u p - dX w p| ≤ 21 * κ * M * h ^ 2 ∧ |dY u p - dY w p| ≤ 21 * κ * M * h ^ 2 := by
  obtain ⟨d, hdh, hdk, hdd⟩ := hf t ht
  obtain ⟨a, b, c, hT⟩ := hu t ht p hpm
  have hd0 : 0 ≤ d := (Real.sqrt_nonneg _).trans (hdd p hpm p hpm)
  have hD := hp.2
  have hκ : 0 ≤ κ := by
    by_contra hcon
    push Not at hcon
    nlinarith [mul_neg_of_neg_of_pos hcon hD, sq_nonneg d]
  obtain ⟨hw1, hw2⟩ := hw
  obtain ⟨a0, a1, a2, a3, a4, a5, rfl⟩ := polyLE2_quad hw1
  rw [quad_dX, quad_dY]
  set ux := dX u p
  set uy := dY u p
  have key := quad_grad hp (a0 := a0 - (u p - ux * p.1 - uy * p.2 + a * p.1 ^ 2 + b * (p.1 * p.2) + c * p.2 ^ 2))
    (a1 := a1 - (ux - 2 * a * p.1 - b * p.2)) (a2 := a2 - (uy - b * p.1 - 2 * c * p.2)) (a3 := a3 - a) (a4 := a4 - b)
    (a5 := a5 - c) (δ := M * d ^ 3) hdd (fun i => ?_) hpm
  · have hb : 21 * (M * d ^ 3 * d) / elemDet t.coords ≤ 21 * κ * M * h ^ 2 := by
      rw [div_le_iff₀ hD]
      have h1 : d ^ 2 * d ^ 2 ≤ h ^ 2 * (κ * elemDet t.coords) := by
        refine mul_le_mul ?_ hdk (by positivity) (by positivity)
        exact pow_le_pow_left₀ hd0 hdh 2
      nlinarith [mul_le_mul_of_nonneg_left h1 hM]
    refine ⟨?_, ?_⟩
    · rw [abs_sub_comm]
      refine le_trans (le_of_eq ?_) (key.1.trans hb)
      congr 1; ring
    · rw [abs_sub_comm]
      refine le_trans (le_of_eq ?_) (key.2.trans hb)
      congr 1; ring
  · have hm := node_mem hp.1 i
    have h1 := hT _ hm
    have h2 := mul_le_mul_of_nonneg_left (pow_le_pow_left₀ (Real.sqrt_nonneg _) (hdd p hpm _ hm) 3) hM
    refine le_trans (le_of_eq ?_) (h1.trans h2)
    congr 1
    have h3 := hw2 i
    simp only at h3
    rw [← h3]
    simp only [quad]
    ring

/-! ### The best approximation property -/

/-- Products of smooth fields. -/
theorem grad_cont (hq : TestField els q) (hv : TestField els v) {t : Tri6 n} (ht : t ∈ els) :
    Continuous fun p => dX (q t) p * dX (v t) p + dY (q t) p * dY (v t) p :=
  ((continuous_dX (hq.smooth t ht)).mul (continuous_dX (hv.smooth t ht))).add
    ((continuous_dY (hq.smooth t ht)).mul (continuous_dY (hv.smooth t ht)))

/-- The energy of the difference of `q` and `D` times `v`. -/
theorem gap_eq (hq : TestField els q) (hv : TestField els v) (D : ℝ) :
    wInt els (fun t p => (dX (q t) p - D * dX (v t) p) ^ 2 + (dY (q t) p - D * dY (v t) p) ^ 2) =
      D ^ 2 * dirichlet els v v + (-2 * D * dirichlet els q v + dirichlet els q q) := by
  simp only [dirichlet, wInt, ← List.sum_map_mul_left, ← List.sum_map_add]
  refine congrArg List.sum (List.map_congr_left fun t ht => ?_)
  have e := elem_int3 (grad_cont hv hv ht) (grad_cont hq hv ht) (grad_cont hq hq ht) (D ^ 2) (-2 * D) t.coords
  rw [← sub_eq_zero]
  have e2 : ∫ p in elemRegion t.coords, ((dX (q t) p - D * dX (v t) p) ^ 2 + (dY (q t) p - D * dY (v t) p) ^ 2) =
      ∫ p in elemRegion t.coords, D ^ 2 * (dX (v t) p * dX (v t) p + dY (v t) p * dY (v t) p) +
        (-2 * D * (dX (q t) p * dX (v t) p + dY (q t) p * dY (v t) p) + (dX (q t) p * dX (q t) p + dY (q t) p * dY (q t) p)) := by
    congr 1; funext p; ring
  rw [e2, e]
  ring

theorem gap_nonneg (hE : ∀ t ∈ els, 0 < t.material.elasticModulus) (D : ℝ) :
    0 ≤ wInt els (fun t p => (dX (q t) p - D * dX (v t) p) ^ 2 + (dY (q t) p - D * dY (v t) p) ^ 2) :=
  wInt_nonneg hE fun _ _ _ => add_nonneg (sq_nonneg _) (sq_nonneg _)

/-- The energy of a solution on a subspace is at most that of the solution, and falls short of it by at most the energy of the
difference of the solution and any field of the subspace. -/
theorem best_approx (hE : ∀ t ∈ els, 0 < t.material.elasticModulus) (hu : ContDiff ℝ 1 u) (hq : TestField els q)
    (hv : TestField els v) {D : ℝ} (e1 : dirichlet els q q = D * dirichlet els (fun _ => u) q)
    (e2 : dirichlet els q v = D * dirichlet els (fun _ => u) v) :
    dirichlet els q q ≤ D ^ 2 * dirichlet els (fun _ => u) (fun _ => u) ∧
    D ^ 2 * (dirichlet els (fun _ => u) (fun _ => u) -
      wInt els fun t p => (dX u p - dX (v t) p) ^ 2 + (dY u p - dY (v t) p) ^ 2) ≤ dirichlet els q q := by
  have hU : TestField els fun _ => u := smooth_test hu
  have g1 := gap_eq hq hU D
  have g2 := gap_eq hq hv D
  have g3 := gap_eq hU hv 1
  simp only [one_mul, one_pow, mul_one] at g3
  have p1 := gap_nonneg (q := q) (v := fun _ => u) hE D
  have p2 := gap_nonneg (q := q) (v := v) hE D
  rw [g1, dirichlet_symm q] at p1
  rw [g2, e2] at p2
  constructor
  · linarith
  · rw [g3]
    linear_combination p2

/-- The energy of the error of the interpolant. -/
theorem interp_energy (hp : ∀ t ∈ els, Proper t.coords) (hE : ∀ t ∈ els, 0 < t.material.elasticModulus)
    {M h κ : ℝ} (hM : 0 ≤ M) (hf : FineMesh els h κ) (hs : ContDiff ℝ 1 u) (hu : Expands els u M)
    (hv : ∀ t ∈ els, Interpolates t.coords (fun k => u (t.coords.x k, t.coords.y k)) (v t)) :
    wInt els (fun t p => (dX u p - dX (v t) p) ^ 2 + (dY u p - dY (v t) p) ^ 2) ≤
      2 * (21 * κ * M * h ^ 2) ^ 2 * (geomSums els).ea := by
  rw [← wInt_one hp, ← wInt_smul]
  refine List.sum_le_sum fun t ht => mul_le_mul_of_nonneg_left ?_ (hE t ht).le
  have hq1 : ContDiff ℝ 1 (v t) := (contDiff_quad (hv t ht).1).of_le (by norm_num)
  have c1 := continuous_dX hs
  have c2 := continuous_dY hs
  have c3 := continuous_dX hq1
  have c4 := continuous_dY hq1
  refine setIntegral_mono_on (elem_int (by fun_prop) _) (elem_int (by fun_prop) _) (isCompact_elemRegion _).isClosed.measurableSet
    fun p hpm => ?_
  obtain ⟨h1, h2⟩ := interp_grad ht (hp t ht) hM hf hu (hv t ht) hpm
  have := sq_le_sq' (abs_le.1 h1).1 (abs_le.1 h1).2
  have := sq_le_sq' (abs_le.1 h2).1 (abs_le.1 h2).2
  linarith

end SP
