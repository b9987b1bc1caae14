import Verif.Lemmas.Quad
import Verif.Spec.Mesh
import Mathlib.Tactic.FinCases

/-!
# Straight-sided elements: closed forms of the shape function data
-/

namespace SP

open Spec Matrix

theorem accum_eq_sum {α M : Type*} [AddCommMonoid M] (xs : List α) (f : α → M) :
    accum xs f = (xs.map f).sum := by
  have : ∀ (a : M), xs.foldl (fun acc x => acc + f x) a = a + (xs.map f).sum := by
    induction xs with
    | nil => intro a; simp
    | cons x xs ih => intro a; simp [ih, add_assoc]
  simp [accum, this]

/-- Barycentric rows. -/
def GaussPt.Bary (gp : GaussPt) : Prop := gp.eta + gp.xi + gp.zeta = 1

theorem gauss4_bary : ∀ gp ∈ gauss4, gp.Bary := by
  intro gp h
  simp only [gauss4, List.mem_cons, List.not_mem_nil, or_false] at h
  rcases h with rfl | rfl | rfl | rfl <;> simp [GaussPt.Bary] <;> norm_num

theorem gauss6pt_bary (i : Fin 6) : (gauss6pt i).Bary := by
  fin_cases i <;> simp [GaussPt.Bary, gauss6pt] <;> ring

/-- Global position of the Gauss point. -/
def posX (c : Coords) (gp : GaussPt) : ℝ := gp.eta * c.x 0 + gp.xi * c.x 1 + gp.zeta * c.x 2
def posY (c : Coords) (gp : GaussPt) : ℝ := gp.eta * c.y 0 + gp.xi * c.y 1 + gp.zeta * c.y 2

variable {c : Coords} {gp : GaussPt}

theorem sf_nx (hs : Straight c) (hb : gp.Bary) : (shapeFunction c gp).nx = posX c gp := by
  obtain ⟨h3, h4, h5, -, -, -⟩ := hs
  have hz : gp.zeta = 1 - gp.eta - gp.xi := by unfold GaussPt.Bary at hb; linarith
  simp only [shapeFunction, posX, Fin.sum_univ_six, shapeN]
  simp [h3, h4, h5, hz]
  ring

theorem sf_ny (hs : Straight c) (hb : gp.Bary) : (shapeFunction c gp).ny = posY c gp := by
  obtain ⟨-, -, -, h3, h4, h5⟩ := hs
  have hz : gp.zeta = 1 - gp.eta - gp.xi := by unfold GaussPt.Bary at hb; linarith
  simp only [shapeFunction, posY, Fin.sum_univ_six, shapeN]
  simp [h3, h4, h5, hz]
  ring

/-- The Jacobian matrix of a straight-sided element. -/
theorem jMat_straight (hs : Straight c) (hb : gp.Bary) :
    jMat c gp.eta gp.xi gp.zeta =
      !![1, c.x 0 + 2 * posX c gp, c.y 0 + 2 * posY c gp;
         1, c.x 1 + 2 * posX c gp, c.y 1 + 2 * posY c gp;
         1, c.x 2 + 2 * posX c gp, c.y 2 + 2 * posY c gp] := by
  obtain ⟨h3, h4, h5, h6, h7, h8⟩ := hs
  have hz : gp.zeta = 1 - gp.eta - gp.xi := by unfold GaussPt.Bary at hb; linarith
  ext i j
  fin_cases i <;> fin_cases j <;>
    simp [jMat, bIso, Fin.sum_univ_six, posX, posY, h3, h4, h5, h6, h7, h8, hz] <;> ring

theorem jMat_det (hs : Straight c) (hb : gp.Bary) :
    (jMat c gp.eta gp.xi gp.zeta).det = elemDet c := by
  rw [jMat_straight hs hb, Matrix.det_fin_three]
  simp [elemDet, signedArea2, cornerA, cornerB, cornerC]
  ring

theorem sf_j (hs : Straight c) (hb : gp.Bary) : (shapeFunction c gp).j = elemDet c / 2 := by
  simp only [shapeFunction, jMat_det hs hb]
  norm_num
  ring

theorem jMat_inv (hs : Straight c) (hb : gp.Bary) (hd : elemDet c ≠ 0) (k : Fin 3) :
    (jMat c gp.eta gp.xi gp.zeta)⁻¹ 1 k
        = ![c.y 1 - c.y 2, c.y 2 - c.y 0, c.y 0 - c.y 1] k / elemDet c ∧
    (jMat c gp.eta gp.xi gp.zeta)⁻¹ 2 k
        = ![c.x 2 - c.x 1, c.x 0 - c.x 2, c.x 1 - c.x 0] k / elemDet c := by
  rw [Matrix.inv_def, jMat_det hs hb, Ring.inverse_eq_inv', jMat_straight hs hb,
    Matrix.adjugate_fin_three]
  constructor <;> fin_cases k <;> simp <;> field_simp <;> ring

theorem sf_bx (hs : Straight c) (hb : gp.Bary) (hd : elemDet c ≠ 0) (i : Fin 6) :
    (shapeFunction c gp).bx i =
      ((c.y 1 - c.y 2) * bIso gp.eta gp.xi gp.zeta 0 i
        + (c.y 2 - c.y 0) * bIso gp.eta gp.xi gp.zeta 1 i
        + (c.y 0 - c.y 1) * bIso gp.eta gp.xi gp.zeta 2 i) / elemDet c := by
  have hj : (0.5 : ℝ) * elemDet c ≠ 0 := by positivity
  simp only [shapeFunction, jMat_det hs hb, hj, ne_eq, not_false_eq_true, if_true,
    Matrix.mul_apply, Fin.sum_univ_three, (jMat_inv hs hb hd _).1]
  simp
  ring

theorem sf_by (hs : Straight c) (hb : gp.Bary) (hd : elemDet c ≠ 0) (i : Fin 6) :
    (shapeFunction c gp).by' i =
      ((c.x 2 - c.x 1) * bIso gp.eta gp.xi gp.zeta 0 i
        + (c.x 0 - c.x 2) * bIso gp.eta gp.xi gp.zeta 1 i
        + (c.x 1 - c.x 0) * bIso gp.eta gp.xi gp.zeta 2 i) / elemDet c := by
  have hj : (0.5 : ℝ) * elemDet c ≠ 0 := by positivity
  simp only [shapeFunction, jMat_det hs hb, hj, ne_eq, not_false_eq_true, if_true,
    Matrix.mul_apply, Fin.sum_univ_three, (jMat_inv hs hb hd _).2]
  simp
  ring

/-- `Σ` over the four point rule, as a plain sum. -/
theorem accum_gauss4 (f : GaussPt → ℝ) :
    accum gauss4 f = f ⟨-27 / 48, 1 / 3, 1 / 3, 1 / 3⟩ + f ⟨25 / 48, 0.6, 0.2, 0.2⟩
      + f ⟨25 / 48, 0.2, 0.6, 0.2⟩ + f ⟨25 / 48, 0.2, 0.2, 0.6⟩ := by
  simp [accum_eq_sum, gauss4]
  ring

theorem accum_gauss4_congr {f g : GaussPt → ℝ} (h : ∀ gp ∈ gauss4, f gp = g gp) :
    accum gauss4 f = accum gauss4 g := by
  rw [accum_eq_sum, accum_eq_sum, List.map_congr_left h]

/-- Quadrature of a degree 3 polynomial over a proper element is its integral. -/
theorem accum_gauss4_integral (hp : Proper c) {f : ℝ × ℝ → ℝ} (hf : f ∈ PolyLE 3) :
    accum gauss4 (fun gp => gp.w * (elemDet c / 2) * f (posX c gp, posY c gp))
      = ∫ p in elemRegion c, f p := by
  have hD : cross2 (cornerA c) (cornerB c) (cornerC c) ≠ 0 := ne_of_gt hp.2
  have h := exact_gauss4.triangle hf hD
  have hD' : cross2 (cornerA c) (cornerB c) (cornerC c) = elemDet c := rfl
  rw [elemRegion, Spec.triangle, h, hD', abs_of_pos hp.2, accum_eq_sum, ← List.sum_map_mul_left]
  congr 1
  apply List.map_congr_left
  intro gp hgp
  have hz : gp.zeta = 1 - gp.eta - gp.xi := by
    have := gauss4_bary gp hgp; unfold GaussPt.Bary at this; linarith
  have : triMap (cornerA c) (cornerB c) (cornerC c) (gp.eta, gp.xi) = (posX c gp, posY c gp) := by
    ext <;> simp [triMap, cornerA, cornerB, cornerC, posX, posY, hz] <;> ring
  rw [this]
  ring

end SP
