import Verif.Spec.Fem
import Verif.Lemmas.ElemGeom
import Verif.Lemmas.Integrals
import Verif.Props.Shape
import Verif.Model.Warping

/-!
# Quadratic fields on elements, and element arrays as integrals
-/

namespace SP

open Spec MeasureTheory

/-! ### Quadratic polynomials -/

/-- Coefficient form of a quadratic polynomial. -/
def quad (a0 a1 a2 a3 a4 a5 : ℝ) (p : ℝ × ℝ) : ℝ :=
  a0 + a1 * p.1 + a2 * p.2 + a3 * p.1 ^ 2 + a4 * (p.1 * p.2) + a5 * p.2 ^ 2

theorem polyLE2_quad {q : ℝ × ℝ → ℝ} (hq : q ∈ PolyLE 2) :
    ∃ a0 a1 a2 a3 a4 a5, q = quad a0 a1 a2 a3 a4 a5 := by
  induction hq using Submodule.span_induction with
  | mem f h =>
    obtain ⟨i, j, hij, rfl⟩ := h
    have hi : i ≤ 2 := by omega
    have hj : j ≤ 2 := by omega
    interval_cases i <;> interval_cases j <;> first | omega | skip
    · exact ⟨1, 0, 0, 0, 0, 0, by funext p; simp [quad]⟩
    · exact ⟨0, 0, 1, 0, 0, 0, by funext p; simp [quad]⟩
    · exact ⟨0, 0, 0, 0, 0, 1, by funext p; simp [quad]⟩
    · exact ⟨0, 1, 0, 0, 0, 0, by funext p; simp [quad]⟩
    · exact ⟨0, 0, 0, 0, 1, 0, by funext p; simp [quad]⟩
    · exact ⟨0, 0, 0, 1, 0, 0, by funext p; simp [quad]⟩
  | zero => exact ⟨0, 0, 0, 0, 0, 0, by funext p; simp [quad]⟩
  | add f g _ _ hf hg =>
    obtain ⟨a0, a1, a2, a3, a4, a5, rfl⟩ := hf
    obtain ⟨b0, b1, b2, b3, b4, b5, rfl⟩ := hg
    exact ⟨a0 + b0, a1 + b1, a2 + b2, a3 + b3, a4 + b4, a5 + b5, by
      funext p; simp only [quad, Pi.add_apply]; ring⟩
  | smul k f _ hf =>
    obtain ⟨a0, a1, a2, a3, a4, a5, rfl⟩ := hf
    exact ⟨k * a0, k * a1, k * a2, k * a3, k * a4, k * a5, by
      funext p; simp only [quad, Pi.smul_apply, smul_eq_mul]; ring⟩

theorem quad_dX (a0 a1 a2 a3 a4 a5 : ℝ) (p : ℝ × ℝ) :
    dX (quad a0 a1 a2 a3 a4 a5) p = a1 + 2 * a3 * p.1 + a4 * p.2 := by
  have h : HasDerivAt (fun x => quad a0 a1 a2 a3 a4 a5 (x, p.2)) (a1 + 2 * a3 * p.1 + a4 * p.2) p.1 := by
    have h1 := (hasDerivAt_id p.1).const_mul a1
    have h2 := ((hasDerivAt_id p.1).pow 2).const_mul a3
    have h3 := ((hasDerivAt_id p.1).mul_const p.2).const_mul a4
    have h := ((((h1.const_add a0).add_const (a2 * p.2)).add h2).add h3).add_const (a5 * p.2 ^ 2)
    refine (h.congr_deriv ?_)
    simp; ring
  exact h.deriv

theorem quad_dY (a0 a1 a2 a3 a4 a5 : ℝ) (p : ℝ × ℝ) :
    dY (quad a0 a1 a2 a3 a4 a5) p = a2 + a4 * p.1 + 2 * a5 * p.2 := by
  have h : HasDerivAt (fun y => quad a0 a1 a2 a3 a4 a5 (p.1, y)) (a2 + a4 * p.1 + 2 * a5 * p.2) p.2 := by
    have h1 := (hasDerivAt_id p.2).const_mul a2
    have h2 := ((hasDerivAt_id p.2).pow 2).const_mul a5
    have h3 := ((hasDerivAt_id p.2).const_mul p.1).const_mul a4
    have h := (((h1.const_add (a0 + a1 * p.1)).add_const (a3 * p.1 ^ 2)).add h3).add h2
    refine (h.congr_deriv ?_)
    simp; ring
  exact h.deriv

theorem polyLE_affine (a b c : ℝ) : (fun p : ℝ × ℝ => a + b * p.1 + c * p.2) ∈ PolyLE 1 := by
  have := PolyLE.affine a b c
  convert this using 2
  ring

theorem dX_mem {q : ℝ × ℝ → ℝ} (hq : q ∈ PolyLE 2) : dX q ∈ PolyLE 1 := by
  obtain ⟨a0, a1, a2, a3, a4, a5, rfl⟩ := polyLE2_quad hq
  rw [funext (quad_dX a0 a1 a2 a3 a4 a5)]
  exact polyLE_affine a1 (2 * a3) a4

theorem dY_mem {q : ℝ × ℝ → ℝ} (hq : q ∈ PolyLE 2) : dY q ∈ PolyLE 1 := by
  obtain ⟨a0, a1, a2, a3, a4, a5, rfl⟩ := polyLE2_quad hq
  rw [funext (quad_dY a0 a1 a2 a3 a4 a5)]
  exact polyLE_affine a2 a4 (2 * a5)

theorem poly_mul2 {f g : ℝ × ℝ → ℝ} (hf : f ∈ PolyLE 1) (hg : g ∈ PolyLE 1) :
    (fun p => f p * g p) ∈ PolyLE 2 :=
  PolyLE.mono (show 1 + 1 ≤ 2 by omega) (PolyLE.mul hf hg)

theorem poly_sq2 {f : ℝ × ℝ → ℝ} (hf : f ∈ PolyLE 1) :
    (fun p => f p * (2 * f p - 1)) ∈ PolyLE 2 := by
  have h : (fun p => 2 * f p - 1) ∈ PolyLE 1 := by
    have h2 := Submodule.smul_mem _ (2 : ℝ) hf
    have h3 := PolyLE.const 1 1
    exact Submodule.sub_mem _ h2 h3
  exact poly_mul2 hf h

theorem exists_bary {c : Coords} (hp : Proper c) :
    ∃ l0 l1 l2 : ℝ × ℝ → ℝ, l0 ∈ PolyLE 1 ∧ l1 ∈ PolyLE 1 ∧ l2 ∈ PolyLE 1 ∧
      ∀ i, l0 (c.x i, c.y i) = (localNode i).1 ∧ l1 (c.x i, c.y i) = (localNode i).2.1 ∧
        l2 (c.x i, c.y i) = (localNode i).2.2 := by
  have hd := hp.2.ne'
  refine ⟨fun p => ((c.x 1 * c.y 2 - c.x 2 * c.y 1) / elemDet c)
      + (c.y 1 - c.y 2) / elemDet c * p.1 + (c.x 2 - c.x 1) / elemDet c * p.2,
    fun p => ((c.x 2 * c.y 0 - c.x 0 * c.y 2) / elemDet c)
      + (c.y 2 - c.y 0) / elemDet c * p.1 + (c.x 0 - c.x 2) / elemDet c * p.2,
    fun p => ((c.x 0 * c.y 1 - c.x 1 * c.y 0) / elemDet c)
      + (c.y 0 - c.y 1) / elemDet c * p.1 + (c.x 1 - c.x 0) / elemDet c * p.2,
    polyLE_affine _ _ _, polyLE_affine _ _ _, polyLE_affine _ _ _, ?_⟩
  obtain ⟨⟨h3, h4, h5, h6, h7, h8⟩, -⟩ := hp
  have hdd : elemDet c = (c.x 1 - c.x 0) * (c.y 2 - c.y 0) - (c.x 2 - c.x 0) * (c.y 1 - c.y 0) := rfl
  intro i
  fin_cases i <;> simp only [localNode] <;> refine ⟨?_, ?_, ?_⟩ <;>
    simp [h3, h4, h5, h6, h7, h8] <;> field_simp <;> rw [hdd] <;> ring

/-- Every nodal vector has an interpolant on a proper element. -/
theorem exists_interpolates {c : Coords} (hp : Proper c) (u : Fin 6 → ℝ) :
    ∃ q, Interpolates c u q := by
  obtain ⟨l0, l1, l2, m0, m1, m2, e⟩ := exists_bary hp
  refine ⟨u 0 • (fun p => l0 p * (2 * l0 p - 1)) + u 1 • (fun p => l1 p * (2 * l1 p - 1))
          + u 2 • (fun p => l2 p * (2 * l2 p - 1)) + (4 * u 3) • (fun p => l0 p * l1 p)
          + (4 * u 4) • (fun p => l1 p * l2 p) + (4 * u 5) • (fun p => l0 p * l2 p), ?_, fun i => ?_⟩
  · exact Submodule.add_mem _ (Submodule.add_mem _ (Submodule.add_mem _ (Submodule.add_mem _
      (Submodule.add_mem _ (Submodule.smul_mem _ _ (poly_sq2 m0)) (Submodule.smul_mem _ _ (poly_sq2 m1)))
      (Submodule.smul_mem _ _ (poly_sq2 m2))) (Submodule.smul_mem _ _ (poly_mul2 m0 m1)))
      (Submodule.smul_mem _ _ (poly_mul2 m1 m2))) (Submodule.smul_mem _ _ (poly_mul2 m0 m2))
  · obtain ⟨e0, e1, e2⟩ := e i
    simp only [Pi.add_apply, Pi.smul_apply, smul_eq_mul, e0, e1, e2]
    fin_cases i <;> simp [localNode] <;> ring

theorem exists_feField {n : ℕ} {els : List (Tri6 n)} (hp : ∀ t ∈ els, Proper t.coords)
    (u : Fin n → ℝ) : ∃ q, FEField els u q := by
  classical
  have h : ∀ t : Tri6 n, ∃ q, t ∈ els → Interpolates t.coords (fun k => u (t.nodeIds k)) q := by
    intro t
    by_cases ht : t ∈ els
    · obtain ⟨q, hq⟩ := exists_interpolates (hp t ht) (fun k => u (t.nodeIds k))
      exact ⟨q, fun _ => hq⟩
    · exact ⟨fun _ => 0, fun h => absurd h ht⟩
  choose q hq using h
  exact ⟨q, fun t ht => hq t ht⟩

variable {c : Coords} {gp : GaussPt} {u v : Fin 6 → ℝ} {q r : ℝ × ℝ → ℝ}

theorem localPos_eq (c : Coords) (gp : GaussPt) : localPos c gp = (posX c gp, posY c gp) := by
  simp [posX, posY, localPos, baryPoint, cornerA, cornerB, cornerC]

/-- Interpolated values. -/
theorem interp_val (hp : Proper c) (hb : gp.Bary) (hq : Interpolates c u q) :
    dot6 (shapeFunction c gp).n u = q (posX c gp, posY c gp) := by
  have h := C04_value c hp.1 gp hb q hq.1
  rw [localPos_eq] at h
  rw [← h, dot6]
  refine Finset.sum_congr rfl fun i _ => ?_
  rw [nodePos, hq.2 i, mul_comm]

theorem interp_dX (hp : Proper c) (hb : gp.Bary) (hq : Interpolates c u q) :
    dot6 (shapeFunction c gp).bx u = dX q (posX c gp, posY c gp) := by
  have h := (C04_gradient c hp.1 hp.2.ne' gp hb q hq.1).1
  rw [localPos_eq] at h
  rw [dX, h.deriv, dot6]
  exact Finset.sum_congr rfl fun i _ => by rw [nodePos, hq.2 i]

theorem interp_dY (hp : Proper c) (hb : gp.Bary) (hq : Interpolates c u q) :
    dot6 (shapeFunction c gp).by' u = dY q (posX c gp, posY c gp) := by
  have h := (C04_gradient c hp.1 hp.2.ne' gp hb q hq.1).2
  rw [localPos_eq] at h
  rw [dY, h.deriv, dot6]
  exact Finset.sum_congr rfl fun i _ => by rw [nodePos, hq.2 i]

/-! ### Quadrature over elements -/

variable {n : ℕ} {t : Tri6 n} {els : List (Tri6 n)}

theorem eWeight_eq (hp : Proper t.coords) (hb : gp.Bary) :
    t.eWeight gp = t.material.elasticModulus * (gp.w * (elemDet t.coords / 2)) := by
  rw [Tri6.eWeight, sf_j hp.1 hb]; ring

/-- The four point rule with modulus weight is exact for integrands of degree three. -/
theorem elem_quad (hp : Proper t.coords) {f : ℝ × ℝ → ℝ} (hf : f ∈ PolyLE 3) {g : GaussPt → ℝ}
    (hg : ∀ gp, gp.Bary → g gp = f (posX t.coords gp, posY t.coords gp)) :
    accum gauss4 (fun gp => t.eWeight gp * g gp)
      = t.material.elasticModulus * ∫ p in elemRegion t.coords, f p := by
  rw [← accum_gauss4_integral hp hf, accum_eq_sum, accum_eq_sum, ← List.sum_map_mul_left]
  refine congrArg List.sum (List.map_congr_left fun gp h => ?_)
  have hb := gauss4_bary gp h
  rw [eWeight_eq hp hb, hg gp hb]
  ring

theorem sum_elem_quad (hp : ∀ t ∈ els, Proper t.coords) {f : Tri6 n → ℝ × ℝ → ℝ}
    (hf : ∀ t ∈ els, f t ∈ PolyLE 3) {g : Tri6 n → GaussPt → ℝ}
    (hg : ∀ t ∈ els, ∀ gp, gp.Bary → g t gp = f t (posX t.coords gp, posY t.coords gp)) :
    (els.map fun t => accum gauss4 (fun gp => t.eWeight gp * g t gp)).sum = wInt els f := by
  rw [wInt]
  exact congrArg List.sum (List.map_congr_left fun t ht => elem_quad (hp t ht) (hf t ht) (hg t ht))

/-! ### `wInt` is linear and monotone -/

theorem integrable_poly (c : Coords) {d : ℕ} {f : ℝ × ℝ → ℝ} (hf : f ∈ PolyLE d) :
    IntegrableOn f (elemRegion c) :=
  (PolyLE.continuous hf).continuousOn.integrableOn_compact (isCompact_elemRegion c)

theorem wInt_congr {f g : Tri6 n → ℝ × ℝ → ℝ} (h : ∀ t ∈ els, ∀ p, f t p = g t p) :
    wInt els f = wInt els g := by
  refine congrArg List.sum (List.map_congr_left fun t ht => ?_)
  rw [funext (h t ht)]

theorem wInt_add {d : ℕ} {f g : Tri6 n → ℝ × ℝ → ℝ} (hf : ∀ t ∈ els, f t ∈ PolyLE d)
    (hg : ∀ t ∈ els, g t ∈ PolyLE d) :
    wInt els (fun t p => f t p + g t p) = wInt els f + wInt els g := by
  rw [wInt, wInt, wInt, ← List.sum_map_add]
  refine congrArg List.sum (List.map_congr_left fun t ht => ?_)
  rw [integral_add (integrable_poly _ (hf t ht)) (integrable_poly _ (hg t ht)), mul_add]

theorem wInt_smul (k : ℝ) (f : Tri6 n → ℝ × ℝ → ℝ) :
    wInt els (fun t p => k * f t p) = k * wInt els f := by
  rw [wInt, wInt, ← List.sum_map_mul_left]
  refine congrArg List.sum (List.map_congr_left fun t ht => ?_)
  rw [integral_const_mul]; ring

theorem wInt_nonneg (hE : ∀ t ∈ els, 0 < t.material.elasticModulus) {f : Tri6 n → ℝ × ℝ → ℝ}
    (hf : ∀ t ∈ els, ∀ p, 0 ≤ f t p) : 0 ≤ wInt els f := by
  refine List.sum_nonneg fun x hx => ?_
  obtain ⟨t, ht, rfl⟩ := List.mem_map.1 hx
  exact mul_nonneg (hE t ht).le (integral_nonneg fun p => hf t ht p)

/-! ### Element arrays as integrals -/

/-- The bilinear form of one element. -/
theorem kEl_form (hp : Proper t.coords) (hq : Interpolates t.coords u q)
    (hr : Interpolates t.coords v r) :
    ∑ a, ∑ b, u a * t.kEl a b * v b
      = t.material.elasticModulus * ∫ p in elemRegion t.coords, (dX q p * dX r p + dY q p * dY r p) := by
  have hm : (fun p => dX q p * dX r p + dY q p * dY r p) ∈ PolyLE 3 :=
    PolyLE.mono (by omega) (Submodule.add_mem _ (PolyLE.mul (dX_mem hq.1) (dX_mem hr.1))
      (PolyLE.mul (dY_mem hq.1) (dY_mem hr.1)))
  have h := elem_quad (t := t) hp hm (g := fun gp =>
      dot6 (shapeFunction t.coords gp).bx u * dot6 (shapeFunction t.coords gp).bx v
      + dot6 (shapeFunction t.coords gp).by' u * dot6 (shapeFunction t.coords gp).by' v)
    (fun gp hb => by
      simp only [interp_dX hp hb hq, interp_dX hp hb hr, interp_dY hp hb hq, interp_dY hp hb hr])
  rw [← h]
  simp only [Tri6.kEl, accum_gauss4, dot6, Fin.sum_univ_six]
  ring

/-- The torsion load of one element. -/
theorem fEl_form (hp : Proper t.coords) (hq : Interpolates t.coords u q) :
    dot6 u t.fEl
      = t.material.elasticModulus * ∫ p in elemRegion t.coords, (dX q p * p.2 - dY q p * p.1) := by
  have hm : (fun p : ℝ × ℝ => dX q p * p.2 - dY q p * p.1) ∈ PolyLE 3 :=
    PolyLE.mono (by omega) (Submodule.sub_mem _ (PolyLE.mul (dX_mem hq.1) PolyLE.snd)
      (PolyLE.mul (dY_mem hq.1) PolyLE.fst))
  have h := elem_quad (t := t) hp hm (g := fun gp =>
      dot6 (shapeFunction t.coords gp).bx u * (shapeFunction t.coords gp).ny
      - dot6 (shapeFunction t.coords gp).by' u * (shapeFunction t.coords gp).nx)
    (fun gp hb => by
      simp only [interp_dX hp hb hq, interp_dY hp hb hq, sf_nx hp.1 hb, sf_ny hp.1 hb])
  rw [← h]
  simp only [Tri6.fEl, accum_gauss4, dot6, Fin.sum_univ_six]
  ring

/-- The constraint vector of one element. -/
theorem cEl_form (hp : Proper t.coords) (hq : Interpolates t.coords u q) :
    dot6 u t.cEl = t.material.elasticModulus * ∫ p in elemRegion t.coords, q p := by
  have h := elem_quad (t := t) hp (PolyLE.mono (by omega) hq.1)
    (g := fun gp => dot6 (shapeFunction t.coords gp).n u) (fun gp hb => interp_val hp hb hq)
  rw [← h]
  simp only [Tri6.cEl, accum_gauss4, dot6, Fin.sum_univ_six]
  ring

end SP
