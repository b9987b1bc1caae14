import Verif.Lemmas.Shift

/-!
# Bilinear forms of the assembled torsion system
-/

namespace SP

open Spec MeasureTheory

variable {n : ℕ} {t : Tri6 n} {els : List (Tri6 n)} {x y : Fin n → ℝ} {q r : Tri6 n → ℝ × ℝ → ℝ}

theorem feField_const (els : List (Tri6 n)) (a : ℝ) : FEField els (fun _ => a) (fun _ _ => a) :=
  fun _ _ => ⟨PolyLE.const 2 a, fun _ => rfl⟩

theorem feField_add (hq : FEField els x q) (hr : FEField els y r) :
    FEField els (fun i => x i + y i) (fun t p => q t p + r t p) :=
  fun t ht => ⟨Submodule.add_mem _ (hq t ht).1 (hr t ht).1,
    fun i => by simp only [(hq t ht).2 i, (hr t ht).2 i]⟩

theorem feField_smul (a : ℝ) (hq : FEField els x q) :
    FEField els (fun i => a * x i) (fun t p => a * q t p) :=
  fun t ht => ⟨Submodule.smul_mem _ a (hq t ht).1, fun i => by simp only [(hq t ht).2 i]⟩

theorem dX_const (a : ℝ) (p : ℝ × ℝ) : dX (fun _ => a) p = 0 := by simp [dX]
theorem dY_const (a : ℝ) (p : ℝ × ℝ) : dY (fun _ => a) p = 0 := by simp [dY]

theorem dX_add_smul {f g : ℝ × ℝ → ℝ} (hf : f ∈ PolyLE 2) (hg : g ∈ PolyLE 2) (a : ℝ) (p : ℝ × ℝ) :
    dX (fun p => f p + a * g p) p = dX f p + a * dX g p := by
  obtain ⟨a0, a1, a2, a3, a4, a5, rfl⟩ := polyLE2_quad hf
  obtain ⟨b0, b1, b2, b3, b4, b5, rfl⟩ := polyLE2_quad hg
  have : (fun p => quad a0 a1 a2 a3 a4 a5 p + a * quad b0 b1 b2 b3 b4 b5 p)
      = quad (a0 + a * b0) (a1 + a * b1) (a2 + a * b2) (a3 + a * b3) (a4 + a * b4) (a5 + a * b5) := by
    funext p; simp only [quad]; ring
  rw [this, quad_dX, quad_dX, quad_dX]; ring

theorem dY_add_smul {f g : ℝ × ℝ → ℝ} (hf : f ∈ PolyLE 2) (hg : g ∈ PolyLE 2) (a : ℝ) (p : ℝ × ℝ) :
    dY (fun p => f p + a * g p) p = dY f p + a * dY g p := by
  obtain ⟨a0, a1, a2, a3, a4, a5, rfl⟩ := polyLE2_quad hf
  obtain ⟨b0, b1, b2, b3, b4, b5, rfl⟩ := polyLE2_quad hg
  have : (fun p => quad a0 a1 a2 a3 a4 a5 p + a * quad b0 b1 b2 b3 b4 b5 p)
      = quad (a0 + a * b0) (a1 + a * b1) (a2 + a * b2) (a3 + a * b3) (a4 + a * b4) (a5 + a * b5) := by
    funext p; simp only [quad]; ring
  rw [this, quad_dY, quad_dY, quad_dY]; ring

/-- Dirichlet form. -/
noncomputable def dirichlet (els : List (Tri6 n)) (q r : Tri6 n → ℝ × ℝ → ℝ) : ℝ :=
  wInt els fun t p => dX (q t) p * dX (r t) p + dY (q t) p * dY (r t) p

theorem stiff_dirichlet (hp : ∀ t ∈ els, Proper t.coords) (hq : FEField els x q)
    (hr : FEField els y r) : ∑ i, ∑ j, x i * stiff els i j * y j = dirichlet els q r := by
  rw [stiff_form, dirichlet, wInt]
  exact congrArg List.sum (List.map_congr_left fun t ht => kEl_form (hp t ht) (hq t ht) (hr t ht))

theorem load_form (hp : ∀ t ∈ els, Proper t.coords) (hd : DistinctNodes els) (hq : FEField els x q) :
    dotN x (assembleTorsion els).2 = wInt els fun t p => dX (q t) p * p.2 - dY (q t) p * p.1 := by
  rw [torsion_load, dot_assemble hd, wInt]
  exact congrArg List.sum (List.map_congr_left fun t ht => fEl_form (hp t ht) (hq t ht))

theorem constr_form (hp : ∀ t ∈ els, Proper t.coords) (hd : DistinctNodes els)
    (hq : FEField els x q) : dotN x (assembleVec els Tri6.cEl) = wInt els q := by
  rw [dot_assemble hd, wInt]
  exact congrArg List.sum (List.map_congr_left fun t ht => cEl_form (hp t ht) (hq t ht))

theorem stiff_symm (els : List (Tri6 n)) (i j : Fin n) : stiff els i j = stiff els j i := by
  unfold stiff
  refine congrArg List.sum (List.map_congr_left fun t _ => ?_)
  rw [Finset.sum_comm]
  refine Finset.sum_congr rfl fun a _ => Finset.sum_congr rfl fun b _ => ?_
  have hk : t.kEl b a = t.kEl a b := by
    simp only [Tri6.kEl]
    congr 1
    funext gp
    ring
  rw [hk]
  exact if_congr And.comm rfl rfl

theorem stiff_one (hp : ∀ t ∈ els, Proper t.coords) (i : Fin n) : ∑ j, stiff els i j = 0 := by
  obtain ⟨q, hq⟩ := exists_feField hp (fun k => if k = i then 1 else 0)
  have h := stiff_dirichlet hp hq (feField_const els 1)
  simp only [ite_mul, one_mul, zero_mul, mul_one, Finset.sum_ite_irrel, Finset.sum_const_zero,
    Finset.sum_ite_eq', Finset.mem_univ, if_true] at h
  rw [h, dirichlet, wInt]
  refine List.sum_eq_zero fun v hv => ?_
  obtain ⟨t, -, rfl⟩ := List.mem_map.1 hv
  simp [dX_const, dY_const]

theorem load_sum (hp : ∀ t ∈ els, Proper t.coords) (hd : DistinctNodes els) :
    ∑ i, (assembleTorsion els).2 i = 0 := by
  have h := load_form hp hd (feField_const els 1)
  simp only [dotN, one_mul] at h
  rw [h, wInt]
  refine List.sum_eq_zero fun v hv => ?_
  obtain ⟨t, -, rfl⟩ := List.mem_map.1 hv
  simp [dX_const, dY_const]

theorem constr_sum (hp : ∀ t ∈ els, Proper t.coords) (hd : DistinctNodes els) :
    ∑ i, assembleVec els Tri6.cEl i = (geomSums els).ea := by
  have h := constr_form hp hd (feField_const els 1)
  simp only [dotN, one_mul] at h
  rw [h, wInt_one hp]

/-! ### The bordered system, row by row -/

theorem klg_mulVec (els : List (Tri6 n)) (u : Fin (n + 1) → ℝ) (b : Fin n → ℝ) (β : ℝ) :
    (assembleTorsion els).1.mulVec u = Fin.snoc (α := fun _ => ℝ) b β ↔
      (∀ i, ∑ j, stiff els i j * u (Fin.castSucc j) + assembleVec els Tri6.cEl i * u (Fin.last n)
        = b i) ∧ ∑ j, assembleVec els Tri6.cEl j * u (Fin.castSucc j) = β := by
  rw [funext_iff, Fin.forall_fin_succ']
  simp only [Matrix.mulVec, dotProduct, Fin.sum_univ_castSucc, klg_block, klg_col, klg_row, klg_corner,
    Fin.snoc_castSucc, Fin.snoc_last, zero_mul, add_zero]

/-- The multiplier of an exact solution vanishes for a load with zero sum. -/
theorem multiplier_zero (hp : ∀ t ∈ els, Proper t.coords) (hd : DistinctNodes els)
    (hea : (geomSums els).ea ≠ 0) {u : Fin (n + 1) → ℝ} {b : Fin n → ℝ} (hb : ∑ i, b i = 0)
    (h : ∀ i, ∑ j, stiff els i j * u (Fin.castSucc j)
      + assembleVec els Tri6.cEl i * u (Fin.last n) = b i) : u (Fin.last n) = 0 := by
  have hs : ∑ i, (∑ j, stiff els i j * u (Fin.castSucc j)
      + assembleVec els Tri6.cEl i * u (Fin.last n)) = 0 := by
    rw [Finset.sum_congr rfl fun i _ => h i, hb]
  rw [Finset.sum_add_distrib, ← Finset.sum_mul, constr_sum hp hd, Finset.sum_comm] at hs
  have hz : ∑ j, ∑ i, stiff els i j * u (Fin.castSucc j) = 0 := by
    refine Finset.sum_eq_zero fun j _ => ?_
    rw [← Finset.sum_mul]
    simp only [fun i => stiff_symm els i j]
    rw [stiff_one hp, zero_mul]
  rw [hz, zero_add] at hs
  exact (mul_eq_zero.1 hs).resolve_left hea

/-- `K u = b` in weak form. -/
theorem weak_form (h : ∀ i, ∑ j, stiff els i j * y j = x i) (v : Fin n → ℝ) :
    ∑ i, ∑ j, v i * stiff els i j * y j = dotN v x := by
  refine Finset.sum_congr rfl fun i _ => ?_
  rw [← h i, Finset.mul_sum]
  exact Finset.sum_congr rfl fun j _ => by ring

/-! ### Definiteness on one element -/

theorem affine_coeff {f : ℝ × ℝ → ℝ} (hf : f ∈ PolyLE 1) : ∃ a b c, ∀ p, f p = a + b * p.1 + c * p.2 := by
  induction hf using Submodule.span_induction with
  | mem f h =>
    obtain ⟨i, j, hij, rfl⟩ := h
    have hi : i ≤ 1 := by omega
    have hj : j ≤ 1 := by omega
    interval_cases i <;> interval_cases j <;> first | omega | skip
    · exact ⟨1, 0, 0, by intro p; simp⟩
    · exact ⟨0, 0, 1, by intro p; simp⟩
    · exact ⟨0, 1, 0, by intro p; simp⟩
  | zero => exact ⟨0, 0, 0, by intro p; simp⟩
  | add f g _ _ hf hg =>
    obtain ⟨a, b, c, h⟩ := hf
    obtain ⟨a', b', c', h'⟩ := hg
    exact ⟨a + a', b + b', c + c', by intro p; simp only [Pi.add_apply, h, h']; ring⟩
  | smul k f _ hf =>
    obtain ⟨a, b, c, h⟩ := hf
    exact ⟨k * a, k * b, k * c, by intro p; simp only [Pi.smul_apply, smul_eq_mul, h]; ring⟩

theorem affine_zero_of {a b d : ℝ} {p1 p2 p3 q1 q2 q3 : ℝ} (e1 : a + b * p1 + d * q1 = 0)
    (e2 : a + b * p2 + d * q2 = 0) (e3 : a + b * p3 + d * q3 = 0)
    (hne : (p2 - p1) * (q3 - q1) - (p3 - p1) * (q2 - q1) ≠ 0) : a = 0 ∧ b = 0 ∧ d = 0 := by
  have hb : b * ((p2 - p1) * (q3 - q1) - (p3 - p1) * (q2 - q1)) = 0 := by
    linear_combination (e2 - e1) * (q3 - q1) - (e3 - e1) * (q2 - q1)
  have hdd : d * ((p2 - p1) * (q3 - q1) - (p3 - p1) * (q2 - q1)) = 0 := by
    linear_combination (e3 - e1) * (p2 - p1) - (e2 - e1) * (p3 - p1)
  have hb' := (mul_eq_zero.1 hb).resolve_right hne
  have hd' := (mul_eq_zero.1 hdd).resolve_right hne
  subst hb' hd'
  exact ⟨by linarith, rfl, rfl⟩

theorem sq6 {u1 u2 u3 v1 v2 v3 : ℝ} (e : 1 / 3 * (u1 * u1 + v1 * v1) + (1 / 3 * (u2 * u2 + v2 * v2)
    + (1 / 3 * (u3 * u3 + v3 * v3) + 0)) = 0) :
    (u1 = 0 ∧ u2 = 0 ∧ u3 = 0) ∧ v1 = 0 ∧ v2 = 0 ∧ v3 = 0 := by
  have h1 := mul_self_nonneg u1
  have h2 := mul_self_nonneg u2
  have h3 := mul_self_nonneg u3
  have h4 := mul_self_nonneg v1
  have h5 := mul_self_nonneg v2
  have h6 := mul_self_nonneg v3
  refine ⟨⟨?_, ?_, ?_⟩, ?_, ?_, ?_⟩ <;> refine mul_self_eq_zero.1 ?_ <;> linarith

/-- Two affine functions whose squares integrate to zero over a proper element vanish. -/
theorem affine_sq_zero {c : Coords} (hp : Proper c) {f g : ℝ × ℝ → ℝ} (hf : f ∈ PolyLE 1)
    (hg : g ∈ PolyLE 1) (h : ∫ p in elemRegion c, (f p * f p + g p * g p) = 0) :
    ∀ p, f p = 0 ∧ g p = 0 := by
  obtain ⟨a, b, d, hf'⟩ := affine_coeff hf
  obtain ⟨a', b', d', hg'⟩ := affine_coeff hg
  have hm : (fun p => f p * f p + g p * g p) ∈ PolyLE 2 :=
    Submodule.add_mem _ (poly_mul2 hf hf) (poly_mul2 hg hg)
  have hD : cross2 (cornerA c) (cornerB c) (cornerC c) = elemDet c := rfl
  have h3 := exact_gauss3.triangle hm (A := cornerA c) (B := cornerB c) (C := cornerC c)
    (by rw [hD]; exact hp.2.ne')
  rw [hD] at h3
  have h4 : ∫ p in convexHull ℝ {cornerA c, cornerB c, cornerC c}, (f p * f p + g p * g p) = 0 := h
  rw [h4, abs_of_pos hp.2] at h3
  have h5 := (mul_eq_zero.1 h3.symm).resolve_left (half_pos hp.2).ne'
  simp only [gauss3, List.map_cons, List.map_nil, List.sum_cons, List.sum_nil, triMap, hf', hg',
    cornerA, cornerB, cornerC] at h5
  have hd := hp.2
  simp only [elemDet, signedArea2, cornerA, cornerB, cornerC] at hd
  generalize c.x 0 = X0 at *
  generalize c.x 1 = X1 at *
  generalize c.x 2 = X2 at *
  generalize c.y 0 = Y0 at *
  generalize c.y 1 = Y1 at *
  generalize c.y 2 = Y2 at *
  obtain ⟨⟨u1, u2, u3⟩, v1, v2, v3⟩ := sq6 h5
  obtain ⟨za, zb, zd⟩ := affine_zero_of u1 u2 u3 (fun hz => hd.ne' (by linear_combination 4 * hz))
  obtain ⟨za', zb', zd'⟩ := affine_zero_of v1 v2 v3 (fun hz => hd.ne' (by linear_combination 4 * hz))
  intro p
  rw [hf', hg', za, zb, zd, za', zb', zd']
  simp

theorem list_sum_zero {l : List ℝ} (h : ∀ v ∈ l, 0 ≤ v) (hs : l.sum = 0) : ∀ v ∈ l, v = 0 := by
  induction l with
  | nil => intro v hv; cases hv
  | cons a l ih =>
    rw [List.sum_cons] at hs
    have h1 := h a (List.mem_cons_self ..)
    have h2 := List.sum_nonneg fun v hv => h v (List.mem_cons_of_mem _ hv)
    intro v hv
    rcases List.mem_cons.1 hv with rfl | hv
    · linarith
    · exact ih (fun v hv => h v (List.mem_cons_of_mem _ hv)) (by linarith) v hv

theorem wInt_zero_elem (hE : ∀ t ∈ els, 0 < t.material.elasticModulus) {f : Tri6 n → ℝ × ℝ → ℝ}
    (hf : ∀ t ∈ els, ∀ p, 0 ≤ f t p) (h : wInt els f = 0) :
    ∀ t ∈ els, ∫ p in elemRegion t.coords, f t p = 0 := by
  intro t ht
  have hnn : ∀ v ∈ els.map (fun t => t.material.elasticModulus * ∫ p in elemRegion t.coords, f t p),
      0 ≤ v := by
    intro v hv
    obtain ⟨t, ht, rfl⟩ := List.mem_map.1 hv
    exact mul_nonneg (hE t ht).le (integral_nonneg fun p => hf t ht p)
  have := list_sum_zero hnn h _ (List.mem_map.2 ⟨t, ht, rfl⟩)
  exact (mul_eq_zero.1 this).resolve_left (hE t ht).ne'

/-- A field without energy is constant on every element. -/
theorem energy_zero (hp : ∀ t ∈ els, Proper t.coords) (hE : ∀ t ∈ els, 0 < t.material.elasticModulus)
    (hq : FEField els x q) (h : dirichlet els q q = 0) :
    ∀ t ∈ els, ∀ k l, x (t.nodeIds k) = x (t.nodeIds l) := by
  intro t ht k l
  have h0 := wInt_zero_elem hE (fun t _ p => add_nonneg (mul_self_nonneg _) (mul_self_nonneg _)) h t ht
  have h1 := affine_sq_zero (hp t ht) (dX_mem (hq t ht).1) (dY_mem (hq t ht).1) h0
  obtain ⟨hq1, hq2⟩ := hq t ht
  obtain ⟨a0, a1, a2, a3, a4, a5, hqq⟩ := polyLE2_quad hq1
  rw [hqq] at h1 hq2
  simp only [quad_dX, quad_dY] at h1
  have z1 := h1 (0, 0)
  have z2 := h1 (1, 0)
  have z3 := h1 (0, 1)
  simp at z1 z2 z3
  obtain ⟨z11, z12⟩ := z1
  subst z11 z12
  simp at z2 z3
  obtain ⟨z21, z22⟩ := z2
  obtain ⟨z31, z32⟩ := z3
  subst z21 z22 z32
  have e1 := hq2 k
  have e2 := hq2 l
  simp only [quad] at e1 e2
  linarith

end SP
