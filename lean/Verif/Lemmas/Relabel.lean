import Verif.Spec.Relabel
import Verif.Lemmas.Similar

/-!
# Elements with renumbered nodes, other starting corners, and reflected
-/

namespace SP

open Spec

variable {n n' : ℕ} {ex ey : ℤˣ} {tx ty : ℝ} {σ : Fin n → Fin n'}

/-- The Gauss point with permuted barycentric coordinates. -/
def GaussPt.perm (π : Equiv.Perm (Fin 3)) (gp : GaussPt) : GaussPt :=
  ⟨gp.w, ![gp.eta, gp.xi, gp.zeta] (π 0), ![gp.eta, gp.xi, gp.zeta] (π 1), ![gp.eta, gp.xi, gp.zeta] (π 2)⟩

/-- To prove something for all permutations of three things, check the six cases. -/
theorem perm3 {P : Equiv.Perm (Fin 3) → Prop}
    (h : ∀ π : Equiv.Perm (Fin 3), (π 0 = 0 ∧ π 1 = 1 ∧ π 2 = 2) ∨ (π 0 = 0 ∧ π 1 = 2 ∧ π 2 = 1) ∨
      (π 0 = 1 ∧ π 1 = 0 ∧ π 2 = 2) ∨ (π 0 = 1 ∧ π 1 = 2 ∧ π 2 = 0) ∨
      (π 0 = 2 ∧ π 1 = 0 ∧ π 2 = 1) ∨ (π 0 = 2 ∧ π 1 = 1 ∧ π 2 = 0) → P π) : ∀ π, P π := by
  intro π
  apply h
  revert π
  decide

theorem six_bijective : ∀ π, Function.Bijective (sixNodes π) := by
  apply perm3
  intro π h
  rw [← Finite.injective_iff_bijective]
  rcases h with ⟨a, b, c⟩ | ⟨a, b, c⟩ | ⟨a, b, c⟩ | ⟨a, b, c⟩ | ⟨a, b, c⟩ | ⟨a, b, c⟩ <;>
    simp only [sixNodes, a, b, c] <;> decide

theorem shapeN_perm (gp : GaussPt) : ∀ (π : Equiv.Perm (Fin 3)) k,
    shapeN (gp.perm π).eta (gp.perm π).xi (gp.perm π).zeta k = shapeN gp.eta gp.xi gp.zeta (sixNodes π k) := by
  apply perm3
  intro π h k
  rcases h with ⟨a, b, c⟩ | ⟨a, b, c⟩ | ⟨a, b, c⟩ | ⟨a, b, c⟩ | ⟨a, b, c⟩ | ⟨a, b, c⟩ <;>
    fin_cases k <;> simp [sixNodes, cornerNode, oppositeNode, GaussPt.perm, shapeN, a, b, c] <;> ring

theorem bIso_perm (gp : GaussPt) : ∀ (π : Equiv.Perm (Fin 3)) i k,
    bIso (gp.perm π).eta (gp.perm π).xi (gp.perm π).zeta i k = bIso gp.eta gp.xi gp.zeta (π i) (sixNodes π k) := by
  apply perm3
  intro π h i k
  rcases h with ⟨a, b, c⟩ | ⟨a, b, c⟩ | ⟨a, b, c⟩ | ⟨a, b, c⟩ | ⟨a, b, c⟩ | ⟨a, b, c⟩ <;>
    fin_cases i <;> fin_cases k <;> simp [sixNodes, cornerNode, oppositeNode, GaussPt.perm, bIso, a, b, c]

theorem accum_gauss4_perm (f : GaussPt → ℝ) : ∀ π, accum gauss4 f = accum gauss4 fun gp => f (gp.perm π) := by
  apply perm3
  intro π h
  rw [accum_eq_sum, accum_eq_sum]
  rcases h with ⟨a, b, c⟩ | ⟨a, b, c⟩ | ⟨a, b, c⟩ | ⟨a, b, c⟩ | ⟨a, b, c⟩ | ⟨a, b, c⟩ <;>
    simp [gauss4, GaussPt.perm, a, b, c] <;> ring

theorem accum_gauss6_perm (f : GaussPt → ℝ) : ∀ π, accum gauss6 f = accum gauss6 fun gp => f (gp.perm π) := by
  apply perm3
  intro π h
  rw [accum_eq_sum, accum_eq_sum]
  rcases h with ⟨a, b, c⟩ | ⟨a, b, c⟩ | ⟨a, b, c⟩ | ⟨a, b, c⟩ | ⟨a, b, c⟩ | ⟨a, b, c⟩ <;>
    simp [gauss6, gauss6pt, List.ofFn_succ, GaussPt.perm, a, b, c] <;> ring

theorem sum_six (π : Equiv.Perm (Fin 3)) (f : Fin 6 → ℝ) : ∑ k, f (sixNodes π k) = ∑ k, f k :=
  (six_bijective π).sum_comp f

theorem dot6_six (π : Equiv.Perm (Fin 3)) (x y : Fin 6 → ℝ) :
    dot6 (fun k => x (sixNodes π k)) (fun k => y (sixNodes π k)) = dot6 x y := sum_six π fun k => x k * y k

/-- Signs as real numbers. -/
abbrev rs (e : ℤˣ) : ℝ := ((e : ℤ) : ℝ)

theorem rs_sq (e : ℤˣ) : rs e * rs e = 1 := by
  rcases Int.units_eq_one_or e with h | h <;> simp [rs, h]

theorem rs_cases (e : ℤˣ) : rs e = 1 ∨ rs e = -1 := by
  rcases Int.units_eq_one_or e with h | h <;> simp [rs, h]

/-- The shape functions of the image. -/
theorem shape_perm {π : Equiv.Perm (Fin 3)} (hπ : Equiv.Perm.sign π = ex * ey) {c c' : Coords}
    (hx : ∀ k, c'.x k = rs ex * c.x (sixNodes π k)) (hy : ∀ k, c'.y k = rs ey * c.y (sixNodes π k)) (gp : GaussPt) :
    let s := shapeFunction c gp
    let s' := shapeFunction c' (gp.perm π)
    (∀ k, s'.n k = s.n (sixNodes π k)) ∧ s'.j = s.j ∧ s'.nx = rs ex * s.nx ∧ s'.ny = rs ey * s.ny ∧
    (∀ k, s'.bx k = rs ex * s.bx (sixNodes π k)) ∧ (∀ k, s'.by' k = rs ey * s.by' (sixNodes π k)) := by
  set D : Matrix (Fin 3) (Fin 3) ℝ := Matrix.diagonal ![1, rs ex, rs ey] with hD
  have hDD : D * D = 1 := by
    rw [hD, Matrix.diagonal_mul_diagonal, ← Matrix.diagonal_one]
    congr 1
    funext i
    fin_cases i <;> simp [rs_sq]
  have hj : jMat c' (gp.perm π).eta (gp.perm π).xi (gp.perm π).zeta
      = (jMat c gp.eta gp.xi gp.zeta).submatrix π id * D := by
    ext i j
    rw [hD, Matrix.mul_diagonal]
    simp only [jMat, Matrix.of_apply, Matrix.submatrix_apply, bIso_perm, hx, hy, id]
    fin_cases j
    · simp
    · simp only [Fin.mk_one, Matrix.cons_val_one, Matrix.cons_val_zero]
      rw [← sum_six π fun k => bIso gp.eta gp.xi gp.zeta (π i) k * c.x k, Finset.sum_mul]
      exact Finset.sum_congr rfl fun k _ => by ring
    · simp only [Fin.reduceFinMk, Matrix.cons_val]
      rw [← sum_six π fun k => bIso gp.eta gp.xi gp.zeta (π i) k * c.y k, Finset.sum_mul]
      exact Finset.sum_congr rfl fun k _ => by ring
  have hdet : (jMat c' (gp.perm π).eta (gp.perm π).xi (gp.perm π).zeta).det = (jMat c gp.eta gp.xi gp.zeta).det := by
    have e1 : ((jMat c gp.eta gp.xi gp.zeta).submatrix π id).det
        = rs (ex * ey) * (jMat c gp.eta gp.xi gp.zeta).det := by
      rw [Matrix.det_permute, hπ]
    have e2 : D.det = rs (ex * ey) := by
      rw [hD, Matrix.det_diagonal, Fin.prod_univ_three]; simp [rs]
    rw [hj, Matrix.det_mul, e1, e2]
    linear_combination (jMat c gp.eta gp.xi gp.zeta).det * rs_sq (ex * ey)
  have hB : bIso (gp.perm π).eta (gp.perm π).xi (gp.perm π).zeta
      = (bIso gp.eta gp.xi gp.zeta).submatrix π (sixNodes π) := by
    ext i k
    rw [bIso_perm, Matrix.submatrix_apply]
  have hinv : (jMat c' (gp.perm π).eta (gp.perm π).xi (gp.perm π).zeta)⁻¹
        * bIso (gp.perm π).eta (gp.perm π).xi (gp.perm π).zeta
      = D * ((jMat c gp.eta gp.xi gp.zeta)⁻¹ * bIso gp.eta gp.xi gp.zeta).submatrix id (sixNodes π) := by
    rw [hj, Matrix.mul_inv_rev, Matrix.inv_eq_left_inv hDD, hB, Matrix.mul_assoc]
    congr 1
    have : ((jMat c gp.eta gp.xi gp.zeta).submatrix π id)⁻¹ = (jMat c gp.eta gp.xi gp.zeta)⁻¹.submatrix id π := by
      have := Matrix.inv_submatrix_equiv (jMat c gp.eta gp.xi gp.zeta) π (Equiv.refl _)
      simpa using this
    rw [this, Matrix.submatrix_mul_equiv]
  have hent : ∀ i k, ((jMat c' (gp.perm π).eta (gp.perm π).xi (gp.perm π).zeta)⁻¹
        * bIso (gp.perm π).eta (gp.perm π).xi (gp.perm π).zeta) i k
      = ![1, rs ex, rs ey] i * ((jMat c gp.eta gp.xi gp.zeta)⁻¹ * bIso gp.eta gp.xi gp.zeta) i (sixNodes π k) := by
    intro i k
    rw [hinv, hD, Matrix.diagonal_mul, Matrix.submatrix_apply, id]
  simp only [shapeFunction]
  refine ⟨shapeN_perm gp π, by rw [hdet], ?_, ?_, fun k => ?_, fun k => ?_⟩
  · simp only [hx, shapeN_perm]
    rw [← sum_six π fun k => c.x k * _, Finset.mul_sum]
    exact Finset.sum_congr rfl fun k _ => by ring
  · simp only [hy, shapeN_perm]
    rw [← sum_six π fun k => c.y k * _, Finset.mul_sum]
    exact Finset.sum_congr rfl fun k _ => by ring
  · rw [hdet]
    split_ifs
    · exact hent _ _
    · simp
  · rw [hdet]
    split_ifs
    · exact hent _ _
    · simp

/-- `SameTriangle` without translation, for given order of the corners. -/
structure Img (ex ey : ℤˣ) (σ : Fin n → Fin n') (π : Equiv.Perm (Fin 3)) (t : Tri6 n) (t' : Tri6 n') : Prop where
  sign : Equiv.Perm.sign π = ex * ey
  mat : t'.material = t.material
  ids : ∀ k, t'.nodeIds k = σ (t.nodeIds (sixNodes π k))
  x : ∀ k, t'.coords.x k = rs ex * t.coords.x (sixNodes π k)
  y : ∀ k, t'.coords.y k = rs ey * t.coords.y (sixNodes π k)

theorem same_img {t : Tri6 n} {t' : Tri6 n'} : SameTriangle ex ey 0 0 σ t t' ↔ ∃ π, Img ex ey σ π t t' := by
  constructor
  · rintro ⟨hm, π, hs, h⟩
    refine ⟨π, hs, hm, fun k => (h k).1, fun k => ?_, fun k => ?_⟩
    · have := congrArg Prod.fst (h k).2
      simpa [signs, affine] using this
    · have := congrArg Prod.snd (h k).2
      simpa [signs, affine] using this
  · rintro ⟨π, h⟩
    exact ⟨h.mat, π, h.sign, fun k => ⟨h.ids k, by simp [signs, affine, h.x, h.y]⟩⟩

section
variable {π : Equiv.Perm (Fin 3)} {t : Tri6 n} {t' : Tri6 n'} (h : Img ex ey σ π t t')
include h

theorem Img.eWeight (gp : GaussPt) : t'.eWeight (gp.perm π) = t.eWeight gp := by
  obtain ⟨-, hj, -⟩ := shape_perm h.sign h.x h.y gp
  simp only [Tri6.eWeight, hj, h.mat]
  rfl

theorem Img.local (u : Fin n' → ℝ) : t'.local u = fun k => t.local (fun i => u (σ i)) (sixNodes π k) := by
  funext k
  simp only [Tri6.local, h.ids]

theorem Img.dotN (u : Fin n' → ℝ) (gp : GaussPt) : dot6 (shapeFunction t'.coords (gp.perm π)).n (t'.local u)
    = dot6 (shapeFunction t.coords gp).n (t.local fun i => u (σ i)) := by
  obtain ⟨h1, -⟩ := shape_perm h.sign h.x h.y gp
  rw [h.local, funext h1, dot6_six π]

theorem Img.dotX (u : Fin n' → ℝ) (gp : GaussPt) : dot6 (shapeFunction t'.coords (gp.perm π)).bx (t'.local u)
    = rs ex * dot6 (shapeFunction t.coords gp).bx (t.local fun i => u (σ i)) := by
  obtain ⟨-, -, -, -, h1, -⟩ := shape_perm h.sign h.x h.y gp
  rw [h.local, ← dot6_six π (shapeFunction t.coords gp).bx, dot6, dot6, Finset.mul_sum]
  exact Finset.sum_congr rfl fun k _ => by rw [h1]; ring

theorem Img.dotY (u : Fin n' → ℝ) (gp : GaussPt) : dot6 (shapeFunction t'.coords (gp.perm π)).by' (t'.local u)
    = rs ey * dot6 (shapeFunction t.coords gp).by' (t.local fun i => u (σ i)) := by
  obtain ⟨-, -, -, -, -, h1⟩ := shape_perm h.sign h.x h.y gp
  rw [h.local, ← dot6_six π (shapeFunction t.coords gp).by', dot6, dot6, Finset.mul_sum]
  exact Finset.sum_congr rfl fun k _ => by rw [h1]; ring

theorem Img.kEl (k l : Fin 6) : t'.kEl k l = t.kEl (sixNodes π k) (sixNodes π l) := by
  rw [Tri6.kEl, accum_gauss4_perm _ π]
  refine accum_congr fun gp _ => ?_
  obtain ⟨-, -, -, -, h5, h6⟩ := shape_perm h.sign h.x h.y gp
  simp only [h.eWeight, h5, h6]
  linear_combination t.eWeight gp * ((shapeFunction t.coords gp).bx (sixNodes π k) * (shapeFunction t.coords gp).bx (sixNodes π l) * rs_sq ex
    + (shapeFunction t.coords gp).by' (sixNodes π k) * (shapeFunction t.coords gp).by' (sixNodes π l) * rs_sq ey)

theorem Img.fEl (k : Fin 6) : t'.fEl k = rs ex * rs ey * t.fEl (sixNodes π k) := by
  rw [Tri6.fEl, accum_gauss4_perm _ π, Tri6.fEl, ← accum_smul]
  refine accum_congr fun gp _ => ?_
  obtain ⟨-, -, h3, h4, h5, h6⟩ := shape_perm h.sign h.x h.y gp
  simp only [h.eWeight, h3, h4, h5, h6]
  ring

theorem Img.cEl (k : Fin 6) : t'.cEl k = t.cEl (sixNodes π k) := by
  rw [Tri6.cEl, accum_gauss4_perm _ π, Tri6.cEl]
  refine accum_congr fun gp _ => ?_
  obtain ⟨h1, -⟩ := shape_perm h.sign h.x h.y gp
  simp only [h.eWeight, h1]

end

/-- The inputs `w'` belong to the reflected section. -/
structure Reflected (ex ey : ℤˣ) (w w' : WarpIn) : Prop where
  ixx : w'.ixx = w.ixx
  iyy : w'.iyy = w.iyy
  ixy : w'.ixy = rs ex * rs ey * w.ixy
  nu : w'.nu = w.nu
  area : w'.area = w.area
  ea : w'.ea = w.ea

theorem shearParameter_signs (x y ixx iyy ixy : ℝ) :
    let p := shearParameter x y ixx iyy ixy
    let p' := shearParameter (rs ex * x) (rs ey * y) ixx iyy (rs ex * rs ey * ixy)
    p'.d1 = p.d1 ∧ p'.d2 = rs ex * rs ey * p.d2 ∧ p'.h1 = rs ex * rs ey * p.h1 ∧ p'.h2 = p.h2 := by
  rcases rs_cases ex with e | e <;> rcases rs_cases ey with e' | e' <;> rw [e, e'] <;>
    refine ⟨?_, ?_, ?_, ?_⟩ <;> simp only [shearParameter] <;> ring

section
variable {π : Equiv.Perm (Fin 3)} {t : Tri6 n} {t' : Tri6 n'} (h : Img ex ey σ π t t') {w w' : WarpIn} (hw : Reflected ex ey w w')
include h hw

theorem Img.fPsi (k : Fin 6) : t'.fPsiEl w'.ixx w'.iyy w'.ixy w'.nu k = rs ex * t.fPsiEl w.ixx w.iyy w.ixy w.nu (sixNodes π k) := by
  rw [Tri6.fPsiEl, accum_gauss4_perm _ π, Tri6.fPsiEl, ← accum_smul]
  refine accum_congr fun gp _ => ?_
  obtain ⟨h1, -, h3, h4, h5, h6⟩ := shape_perm h.sign h.x h.y gp
  obtain ⟨p1, p2, -, -⟩ := shearParameter_signs (ex := ex) (ey := ey) (shapeFunction t.coords gp).nx (shapeFunction t.coords gp).ny
    w.ixx w.iyy w.ixy
  simp only [h.eWeight, h1, h3, h4, h5, h6, hw.ixx, hw.iyy, hw.ixy, hw.nu, p1, p2]
  rcases rs_cases ex with e | e <;> rcases rs_cases ey with e' | e' <;> rw [e, e'] <;> ring

theorem Img.fPhi (k : Fin 6) : t'.fPhiEl w'.ixx w'.iyy w'.ixy w'.nu k = rs ey * t.fPhiEl w.ixx w.iyy w.ixy w.nu (sixNodes π k) := by
  rw [Tri6.fPhiEl, accum_gauss4_perm _ π, Tri6.fPhiEl, ← accum_smul]
  refine accum_congr fun gp _ => ?_
  obtain ⟨h1, -, h3, h4, h5, h6⟩ := shape_perm h.sign h.x h.y gp
  obtain ⟨-, -, p1, p2⟩ := shearParameter_signs (ex := ex) (ey := ey) (shapeFunction t.coords gp).nx (shapeFunction t.coords gp).ny
    w.ixx w.iyy w.ixy
  simp only [h.eWeight, h1, h3, h4, h5, h6, hw.ixx, hw.iyy, hw.ixy, hw.nu, p1, p2]
  rcases rs_cases ex with e | e <;> rcases rs_cases ey with e' | e' <;> rw [e, e'] <;> ring

theorem Img.warpInts (u : Fin n' → ℝ) :
    let I := t.shearWarpingIntegrals w.ixx w.iyy w.ixy (t.local fun i => rs ex * rs ey * u (σ i))
    let I' := t'.shearWarpingIntegrals w'.ixx w'.iyy w'.ixy (t'.local u)
    I'.scX = rs ex * I.scX ∧ I'.scY = rs ey * I.scY ∧ I'.qOmega = rs ex * rs ey * I.qOmega ∧ I'.iOmega = I.iOmega ∧
    I'.iXomega = rs ey * I.iXomega ∧ I'.iYomega = rs ex * I.iYomega := by
  have el : t.local (fun i => rs ex * rs ey * u (σ i)) = fun k => rs ex * rs ey * t.local (fun i => u (σ i)) k := rfl
  simp only [Tri6.shearWarpingIntegrals, el, dot6_smul]
  refine ⟨?_, ?_, ?_, ?_, ?_, ?_⟩ <;> rw [accum_gauss4_perm _ π] <;> (try rw [← accum_smul]) <;>
    refine accum_congr fun gp _ => ?_ <;>
    obtain ⟨h1, -, h3, h4, h5, h6⟩ := shape_perm h.sign h.x h.y gp <;>
    simp only [h.eWeight, h3, h4, h.dotN, hw.ixx, hw.iyy, hw.ixy] <;>
    rcases rs_cases ex with e | e <;> rcases rs_cases ey with e' | e' <;> rw [e, e'] <;> ring

theorem Img.kappas (u v : Fin n' → ℝ) :
    let I := t.shearCoefficients w.ixx w.iyy w.ixy (t.local fun i => rs ex * u (σ i)) (t.local fun i => rs ey * v (σ i)) w.nu
    let I' := t'.shearCoefficients w'.ixx w'.iyy w'.ixy (t'.local u) (t'.local v) w'.nu
    I'.x = I.x ∧ I'.y = I.y ∧ I'.xy = rs ex * rs ey * I.xy := by
  have el : ∀ (e : ℝ) (u : Fin n' → ℝ), t.local (fun i => e * u (σ i)) = fun k => e * t.local (fun i => u (σ i)) k := fun _ _ => rfl
  simp only [Tri6.shearCoefficients, el, dot6_smul]
  refine ⟨?_, ?_, ?_⟩ <;> rw [accum_gauss4_perm _ π] <;> (try rw [← accum_smul]) <;>
    refine accum_congr fun gp _ => ?_ <;>
    obtain ⟨h1, -, h3, h4, h5, h6⟩ := shape_perm h.sign h.x h.y gp <;>
    obtain ⟨p1, p2, p3, p4⟩ := shearParameter_signs (ex := ex) (ey := ey) (shapeFunction t.coords gp).nx
      (shapeFunction t.coords gp).ny w.ixx w.iyy w.ixy <;>
    simp only [h.eWeight, h3, h4, h.dotX, h.dotY, hw.ixx, hw.iyy, hw.ixy, hw.nu, p1, p2, p3, p4] <;>
    rcases rs_cases ex with e | e <;> rcases rs_cases ey with e' | e' <;> rw [e, e'] <;> ring

end

theorem principal_signs {phi phi' m : ℝ} (hc : Real.cos (phi' * Real.pi / 180) = m * rs ex * Real.cos (phi * Real.pi / 180))
    (hs : Real.sin (phi' * Real.pi / 180) = m * rs ey * Real.sin (phi * Real.pi / 180)) (x y : ℝ) :
    principalCoordinate phi' (rs ex * x) (rs ey * y)
      = (m * (principalCoordinate phi x y).1, m * (rs ex * rs ey) * (principalCoordinate phi x y).2) := by
  simp only [principalCoordinate, hc, hs, Prod.mk.injEq]
  rcases rs_cases ex with e | e <;> rcases rs_cases ey with e' | e' <;> rw [e, e'] <;> constructor <;> ring

theorem Img.mono {π : Equiv.Perm (Fin 3)} {t : Tri6 n} {t' : Tri6 n'} (h : Img ex ey σ π t t') {phi phi' m : ℝ}
    (hc : Real.cos (phi' * Real.pi / 180) = m * rs ex * Real.cos (phi * Real.pi / 180))
    (hs : Real.sin (phi' * Real.pi / 180) = m * rs ey * Real.sin (phi * Real.pi / 180)) (hm : m = 1 ∨ m = -1) :
    let I := t.monosymmetryIntegrals phi
    let I' := t'.monosymmetryIntegrals phi'
    I'.x = rs ey * I.x ∧ I'.y = rs ex * I.y ∧ I'.i11 = m * (rs ex * rs ey) * I.i11 ∧ I'.i22 = m * I.i22 := by
  simp only [Tri6.monosymmetryIntegrals]
  refine ⟨?_, ?_, ?_, ?_⟩ <;> rw [accum_gauss4_perm _ π] <;> rw [← accum_smul] <;>
    refine accum_congr fun gp _ => ?_ <;>
    obtain ⟨h1, -, h3, h4, h5, h6⟩ := shape_perm h.sign h.x h.y gp <;>
    simp only [h.eWeight, h3, h4, principal_signs hc hs] <;>
    rcases rs_cases ex with e | e <;> rcases rs_cases ey with e' | e' <;> rcases hm with m' | m' <;>
    rw [e, e'] <;> (try rw [m']) <;> ring

theorem Img.geom {π : Equiv.Perm (Fin 3)} {t : Tri6 n} {t' : Tri6 n'} (h : Img ex ey σ π t t') :
    let g := t.geometricProperties
    let g' := t'.geometricProperties
    g'.area = g.area ∧ g'.qx = rs ey * g.qx ∧ g'.qy = rs ex * g.qy ∧ g'.ixx = g.ixx ∧ g'.iyy = g.iyy ∧
    g'.ixy = rs ex * rs ey * g.ixy ∧ g'.e = g.e ∧ g'.g = g.g ∧ g'.rho = g.rho := by
  simp only [Tri6.geometricProperties, h.mat, and_self, and_true]
  refine ⟨?_, ?_, ?_, ?_, ?_, ?_⟩ <;> rw [accum_gauss4_perm _ π] <;> (try rw [← accum_smul]) <;>
    refine accum_congr fun gp _ => ?_ <;>
    obtain ⟨h1, h2, h3, h4, h5, h6⟩ := shape_perm h.sign h.x h.y gp <;>
    simp only [h2, h3, h4, show (gp.perm π).w = gp.w from rfl] <;>
    rcases rs_cases ex with e | e <;> rcases rs_cases ey with e' | e' <;> (try rw [e]) <;> (try rw [e']) <;> ring

theorem Img.straight {t : Tri6 n} {t' : Tri6 n'} : ∀ {π : Equiv.Perm (Fin 3)}, Img ex ey σ π t t' →
    Straight t.coords → Straight t'.coords := by
  intro π
  revert π
  apply perm3
  rintro π hπ h ⟨h1, h2, h3, h4, h5, h6⟩
  rcases hπ with ⟨a, b, c⟩ | ⟨a, b, c⟩ | ⟨a, b, c⟩ | ⟨a, b, c⟩ | ⟨a, b, c⟩ | ⟨a, b, c⟩ <;>
    simp [Straight, h.x, h.y, sixNodes, cornerNode, oppositeNode, a, b, c, h1, h2, h3, h4, h5, h6] <;>
    refine ⟨?_, ?_, ?_, ?_, ?_, ?_⟩ <;> ring

theorem Img.proper {π : Equiv.Perm (Fin 3)} {t : Tri6 n} {t' : Tri6 n'} (h : Img ex ey σ π t t') (hp : Proper t.coords) :
    Proper t'.coords := by
  have hs := h.straight hp.1
  refine ⟨hs, ?_⟩
  have hb : (⟨1, 1 / 3, 1 / 3, 1 / 3⟩ : GaussPt).Bary := by norm_num [GaussPt.Bary]
  have hb' : ((⟨1, 1 / 3, 1 / 3, 1 / 3⟩ : GaussPt).perm π).Bary := by
    have : ∀ i : Fin 3, (![1 / 3, 1 / 3, 1 / 3] : Fin 3 → ℝ) i = 1 / 3 := by intro i; fin_cases i <;> rfl
    simp only [GaussPt.Bary, GaussPt.perm, this]
    norm_num
  obtain ⟨-, e, -⟩ := shape_perm h.sign h.x h.y ⟨1, 1 / 3, 1 / 3, 1 / 3⟩
  rw [sf_j hs hb', sf_j hp.1 hb] at e
  have := hp.2
  linarith

/-! ### Meshes -/

variable {els : List (Tri6 n)} {els' : List (Tri6 n')}

/-- Sums over the elements. -/
theorem SameMesh.sum (h : SameMesh ex ey 0 0 σ els els') {F : Tri6 n → ℝ} {F' : Tri6 n' → ℝ}
    (e : ∀ {π t t'}, Img ex ey σ π t t' → F' t' = F t) : (els'.map F').sum = (els.map F).sum := by
  obtain ⟨l, hl, hp⟩ := h
  rw [← (hp.map F').sum_eq]
  congr 1
  clear hp
  induction hl with
  | nil => rfl
  | cons h1 _ ih =>
    obtain ⟨π, h1⟩ := same_img.1 h1
    rw [List.map_cons, List.map_cons, e h1, ih]

theorem SameMesh.accum (h : SameMesh ex ey 0 0 σ els els') {F : Tri6 n → ℝ} {F' : Tri6 n' → ℝ}
    (e : ∀ {π t t'}, Img ex ey σ π t t' → F' t' = F t) : SP.accum els' F' = SP.accum els F := by
  rw [accum_eq_sum, accum_eq_sum]
  exact SameMesh.sum h e

theorem SameMesh.accum_mul (h : SameMesh ex ey 0 0 σ els els') {F : Tri6 n → ℝ} {F' : Tri6 n' → ℝ} {c : ℝ}
    (e : ∀ {π t t'}, Img ex ey σ π t t' → F' t' = c * F t) : SP.accum els' F' = c * SP.accum els F := by
  rw [← accum_smul]
  exact SameMesh.accum h e

/-- Every element of the image comes from an element. -/
theorem SameMesh.mem (h : SameMesh ex ey tx ty σ els els') {t' : Tri6 n'} (ht : t' ∈ els') :
    ∃ t ∈ els, SameTriangle ex ey tx ty σ t t' := by
  obtain ⟨l, hl, hp⟩ := h
  replace ht := hp.mem_iff.2 ht
  clear hp
  induction hl with
  | nil => simp at ht
  | cons h1 _ ih =>
    rcases List.mem_cons.1 ht with rfl | ht
    · exact ⟨_, List.mem_cons_self .., h1⟩
    · obtain ⟨t, h2, h3⟩ := ih ht
      exact ⟨t, List.mem_cons_of_mem _ h2, h3⟩

theorem SameMesh.distinct (h : SameMesh ex ey tx ty σ els els') (hσ : Function.Injective σ) (hd : DistinctNodes els) :
    DistinctNodes els' := by
  intro t' ht a b hab
  obtain ⟨t, ht, -, π, -, h⟩ := SameMesh.mem h ht
  rw [(h a).1, (h b).1] at hab
  exact (six_bijective π).1 (hd t ht (hσ hab))

/-- The elements shifted so that the centroids are at the origin. -/
theorem SameMesh.shift (h : SameMesh ex ey tx ty σ els els') {cx cy cx' cy' : ℝ} (hx : cx' = rs ex * cx + tx)
    (hy : cy' = rs ey * cy + ty) : SameMesh ex ey 0 0 σ (shifted els cx cy) (shifted els' cx' cy') := by
  obtain ⟨l, hl, hp⟩ := h
  refine ⟨shifted l cx' cy', ?_, hp.map _⟩
  clear hp
  induction hl with
  | nil => exact .nil
  | cons h1 _ ih =>
    refine .cons ?_ ih
    obtain ⟨hm, π, hs, h⟩ := h1
    refine ⟨hm, π, hs, fun k => ⟨(h k).1, ?_⟩⟩
    have := (h k).2
    simp only [signs, affine, Prod.mk.injEq] at this
    simp only [signs, affine, Tri6.shiftBy, Coords.shift, Prod.mk.injEq, this.1, this.2, hx, hy, rs]
    constructor <;> ring

theorem SameMesh.physical (h : SameMesh ex ey tx ty σ els els') (hp : Physical els) : Physical els' := by
  refine ⟨?_, fun t' ht => ?_, fun t' ht => ?_⟩
  · obtain ⟨l, hl, hp'⟩ := h
    intro h0
    subst h0
    have : l = [] := List.Perm.eq_nil hp'
    subst this
    cases hl
    exact hp.nonempty rfl
  · obtain ⟨t, h1, h2⟩ := SameMesh.mem h ht
    have h3 : SameTriangle ex ey 0 0 σ t (t'.shiftBy tx ty) := by
      obtain ⟨hm, π, hs, h⟩ := h2
      refine ⟨hm, π, hs, fun k => ⟨(h k).1, ?_⟩⟩
      have := (h k).2
      simp only [signs, affine, Prod.mk.injEq] at this
      simp only [signs, affine, Tri6.shiftBy, Coords.shift, Prod.mk.injEq, this.1, this.2]
      constructor <;> ring
    obtain ⟨π, h3⟩ := same_img.1 h3
    have h4 := proper_shift (h3.proper (hp.proper t h1)) (-tx) (-ty)
    have : (t'.shiftBy tx ty).coords.shift (-tx) (-ty) = t'.coords := by
      simp [Tri6.shiftBy, Coords.shift]
    rwa [this] at h4
  · obtain ⟨t, h1, h2, -⟩ := SameMesh.mem h ht
    rw [h2]
    exact hp.modulus t h1

/-- Geometric sums of the image. -/
theorem SameMesh.sums (h : SameMesh ex ey tx ty σ els els') (hp : Physical els) :
    let g := geomSums els
    let g' := geomSums els'
    g'.area = g.area ∧ g'.mass = g.mass ∧ g'.ea = g.ea ∧ g'.ga = g.ga ∧ g'.cx = rs ex * g.cx + tx ∧ g'.cy = rs ey * g.cy + ty ∧
    g'.ixxC = g.ixxC ∧ g'.iyyC = g.iyyC ∧ g'.ixyC = rs ex * rs ey * g.ixyC := by
  have h0 : SameMesh ex ey 0 0 σ els (shifted els' tx ty) := by
    have := SameMesh.shift h (cx := 0) (cy := 0) (cx' := tx) (cy' := ty) (by ring) (by ring)
    have e : shifted els 0 0 = els := by
      rw [shifted]
      conv_rhs => rw [← List.map_id els]
      refine List.map_congr_left fun t _ => ?_
      simp [Tri6.shiftBy, Coords.shift]
    rwa [e] at this
  have hp' := SameMesh.physical h hp
  obtain ⟨s1, s2, s3, s4, s5, s6, s7, s8⟩ := shift_sums hp'.straight tx ty
  have smass : (geomSums (shifted els' tx ty)).mass = (geomSums els').mass := by
    simp only [geomSums, accum_eq_sum, shifted, List.map_map]
    congr 1
    refine List.map_congr_left fun t ht => ?_
    simp only [Function.comp_apply]
    rw [(shift_geom (hp'.straight t ht) tx ty).1]
    rfl
  have a1 : (geomSums (shifted els' tx ty)).area = (geomSums els).area :=
    SameMesh.accum h0 fun h => h.geom.1
  have a2 : (geomSums (shifted els' tx ty)).ea = (geomSums els).ea :=
    SameMesh.accum h0 fun h => by obtain ⟨g1, g2, g3, g4, g5, g6, g7, g8, g9⟩ := h.geom; rw [g1, g7]
  have a3 : (geomSums (shifted els' tx ty)).ga = (geomSums els).ga :=
    SameMesh.accum h0 fun h => by obtain ⟨g1, g2, g3, g4, g5, g6, g7, g8, g9⟩ := h.geom; rw [g1, g8]
  have a4 : (geomSums (shifted els' tx ty)).mass = (geomSums els).mass :=
    SameMesh.accum h0 fun h => by obtain ⟨g1, g2, g3, g4, g5, g6, g7, g8, g9⟩ := h.geom; rw [g1, g9]
  have a5 : (geomSums (shifted els' tx ty)).qx = rs ey * (geomSums els).qx :=
    SameMesh.accum_mul h0 fun h => by obtain ⟨g1, g2, g3, g4, g5, g6, g7, g8, g9⟩ := h.geom; rw [g2, g7]; ring
  have a6 : (geomSums (shifted els' tx ty)).qy = rs ex * (geomSums els).qy :=
    SameMesh.accum_mul h0 fun h => by obtain ⟨g1, g2, g3, g4, g5, g6, g7, g8, g9⟩ := h.geom; rw [g3, g7]; ring
  have a7 : (geomSums (shifted els' tx ty)).ixxG = (geomSums els).ixxG :=
    SameMesh.accum h0 fun h => by obtain ⟨g1, g2, g3, g4, g5, g6, g7, g8, g9⟩ := h.geom; rw [g4, g7]
  have a8 : (geomSums (shifted els' tx ty)).iyyG = (geomSums els).iyyG :=
    SameMesh.accum h0 fun h => by obtain ⟨g1, g2, g3, g4, g5, g6, g7, g8, g9⟩ := h.geom; rw [g5, g7]
  have a9 : (geomSums (shifted els' tx ty)).ixyG = rs ex * rs ey * (geomSums els).ixyG :=
    SameMesh.accum_mul h0 fun h => by obtain ⟨g1, g2, g3, g4, g5, g6, g7, g8, g9⟩ := h.geom; rw [g6, g7]; ring
  have hea := hp.ea_pos.ne'
  have e2 : (geomSums els').ea = (geomSums els).ea := by rw [← s2, a2]
  rw [e2] at s4 s5 s6 s7 s8
  have q1 : (geomSums els').qx = rs ey * (geomSums els).qx + ty * (geomSums els).ea := by rw [← a5, s4]; ring
  have q2 : (geomSums els').qy = rs ex * (geomSums els).qy + tx * (geomSums els).ea := by rw [← a6, s5]; ring
  have i1 : (geomSums els').ixxG = (geomSums els).ixxG + 2 * ty * (geomSums els').qx - ty ^ 2 * (geomSums els).ea := by
    rw [← a7, s6]; ring
  have i2 : (geomSums els').iyyG = (geomSums els).iyyG + 2 * tx * (geomSums els').qy - tx ^ 2 * (geomSums els).ea := by
    rw [← a8, s7]; ring
  have i3 : (geomSums els').ixyG = rs ex * rs ey * (geomSums els).ixyG + tx * (geomSums els').qx + ty * (geomSums els').qy
      - tx * ty * (geomSums els).ea := by
    rw [← a9, s8]; ring
  refine ⟨by rw [← s1, a1], by rw [← smass, a4], e2, by rw [← s3, a3], ?_, ?_, ?_, ?_, ?_⟩
  · rw [GeomSums.cx, GeomSums.cx, e2, q2]; field_simp
  · rw [GeomSums.cy, GeomSums.cy, e2, q1]; field_simp
  · rw [GeomSums.ixxC, GeomSums.ixxC, e2, i1, q1]
    field_simp
    linear_combination -(geomSums els).qx ^ 2 * rs_sq ey
  · rw [GeomSums.iyyC, GeomSums.iyyC, e2, i2, q2]
    field_simp
    linear_combination -(geomSums els).qy ^ 2 * rs_sq ex
  · rw [GeomSums.ixyC, GeomSums.ixyC, e2, i3, q1, q2]
    field_simp
    ring

section
variable {τ : Fin n ≃ Fin n'} (h : SameMesh ex ey 0 0 τ els els') (hd : DistinctNodes els)
include h

theorem SameMesh.stiff (i j : Fin n) : SP.stiff els' (τ i) (τ j) = SP.stiff els i j := by
  refine SameMesh.sum h fun {π t t'} hi => ?_
  simp only [hi.ids, hi.kEl, EmbeddingLike.apply_eq_iff_eq]
  rw [← sum_six π fun a => ∑ b, if t.nodeIds a = i ∧ t.nodeIds b = j then t.kEl a b else 0]
  exact Finset.sum_congr rfl fun a _ =>
    sum_six π fun b => if t.nodeIds (sixNodes π a) = i ∧ t.nodeIds b = j then t.kEl (sixNodes π a) b else 0

include hd

theorem SameMesh.vec {f : Tri6 n → Fin 6 → ℝ} {f' : Tri6 n' → Fin 6 → ℝ} {c : ℝ}
    (e : ∀ {π t t'}, Img ex ey τ π t t' → ∀ k, f' t' k = c * f t (sixNodes π k)) (i : Fin n) :
    assembleVec els' f' (τ i) = c * assembleVec els f i := by
  rw [assembleVec_apply (SameMesh.distinct h τ.injective hd), assembleVec_apply hd, ← List.sum_map_mul_left]
  refine SameMesh.sum h fun {π t t'} hi => ?_
  simp only [hi.ids, e hi, EmbeddingLike.apply_eq_iff_eq]
  rw [← sum_six π fun k => if t.nodeIds k = i then f t k else 0, Finset.mul_sum]
  exact Finset.sum_congr rfl fun k _ => by split_ifs <;> ring

theorem SameMesh.load (i : Fin n) : (assembleTorsion els').2 (τ i) = rs ex * rs ey * (assembleTorsion els).2 i :=
  SameMesh.vec h hd (fun hi k => hi.fEl k) i

theorem SameMesh.solves {f u : Fin n' → ℝ} (hu : SolvesBordered (assembleTorsion els').1 f u) :
    SolvesBordered (assembleTorsion els).1 (fun i => f (τ i)) (fun i => u (τ i)) := by
  obtain ⟨μ, hu⟩ := hu
  obtain ⟨h1, h2⟩ := (klg_mulVec _ _ f 0).1 hu
  have hc : ∀ i, assembleVec els' Tri6.cEl (τ i) = assembleVec els Tri6.cEl i := by
    intro i
    rw [SameMesh.vec h hd (f := Tri6.cEl) (c := 1) (fun hi k => by rw [one_mul]; exact hi.cEl k), one_mul]
  simp only [Fin.snoc_castSucc, Fin.snoc_last] at h1 h2
  refine ⟨μ, (klg_mulVec _ _ _ 0).2 ⟨fun i => ?_, ?_⟩⟩
  · simp only [Fin.snoc_castSucc, Fin.snoc_last]
    rw [← h1 (τ i), hc, ← τ.sum_comp]
    simp only [SameMesh.stiff h]
  · simp only [Fin.snoc_castSucc]
    rw [← h2, ← τ.sum_comp]
    simp only [hc]

/-- The three functions on the image. -/
theorem SameMesh.functions (hp : Physical els) (hc : ConnectedMesh els) {w w' : WarpIn} (hw : Reflected ex ey w w')
    {r : WarpResults n} {r' : WarpResults n'} (he : ExactWarp els w r) (he' : ExactWarp els' w' r') :
    (∀ i, r'.omega (τ i) = rs ex * rs ey * r.omega i) ∧ (∀ i, r'.psi (τ i) = rs ex * r.psi i) ∧
    (∀ i, r'.phiS (τ i) = rs ey * r.phiS i) := by
  have key : ∀ {f f' u u' c}, (∀ i, f' (τ i) = c * f i) → SolvesBordered (assembleTorsion els).1 f u →
      SolvesBordered (assembleTorsion els').1 f' u' → ∀ i, u' (τ i) = c * u i := by
    intro f f' u u' c hf h1 h2
    have h3 := SameMesh.solves h hd h2
    rw [funext hf] at h3
    have h4 := solves_lc h1 h1 c 0
    simp only [zero_mul, add_zero] at h4
    exact congrFun (solves_unique hp hd hc h3 h4)
  exact ⟨key (SameMesh.load h hd) he.omega he'.omega,
    key (SameMesh.vec h hd fun hi k => hi.fPsi hw k) he.psi he'.psi,
    key (SameMesh.vec h hd fun hi k => hi.fPhi hw k) he.phi he'.phi⟩

end

theorem rs_mul_mul (e : ℤˣ) (x : ℝ) : rs e * (rs e * x) = x := by rw [← mul_assoc, rs_sq, one_mul]

theorem rs2 (e e' : ℤˣ) (x : ℝ) : rs e * rs e' * (rs e * rs e' * x) = x := by
  linear_combination rs e * rs e * x * rs_sq e' + x * rs_sq e

theorem div_rs (e : ℤˣ) (x y : ℝ) : x / (rs e * y) = rs e * (x / y) := by
  rcases rs_cases e with h | h <;> rw [h]
  · rw [one_mul, one_mul]
  · rw [neg_one_mul, neg_one_mul, div_neg]

/-- Results of the warping analysis of the image. -/
theorem SameMesh.results {τ : Fin n ≃ Fin n'} (h : SameMesh ex ey 0 0 τ els els') (hd : DistinctNodes els)
    (hp : Physical els) (hc : ConnectedMesh els) {w w' : WarpIn} (hw : Reflected ex ey w w')
    {sv sv' : Solvers} {ty ty' : SolverType} {r : WarpResults n} {r' : WarpResults n'}
    (hr : warpingAnalysis sv ty els w = .ok r) (hr' : warpingAnalysis sv' ty' els' w' = .ok r')
    (he : ExactWarp els w r) (he' : ExactWarp els' w' r')
    {m : ℝ} (hm : m = 1 ∨ m = -1)
    (hcos : Real.cos (w'.phi * Real.pi / 180) = m * rs ex * Real.cos (w.phi * Real.pi / 180))
    (hsin : Real.sin (w'.phi * Real.pi / 180) = m * rs ey * Real.sin (w.phi * Real.pi / 180))
    (h11 : w'.i11 = w.i11) (h22 : w'.i22 = w.i22) :
    r'.j = r.j ∧ r'.deltaS = r.deltaS ∧ r'.gamma = r.gamma ∧
    (r'.sc.xSe = rs ex * r.sc.xSe ∧ r'.sc.ySe = rs ey * r.sc.ySe) ∧
    (r'.sc.xSt = rs ex * r.sc.xSt ∧ r'.sc.ySt = rs ey * r.sc.ySt) ∧
    (r'.sc.x11Se = m * r.sc.x11Se ∧ r'.sc.y22Se = m * (rs ex * rs ey) * r.sc.y22Se) ∧
    (r'.areas.sx = r.areas.sx ∧ r'.areas.sy = r.areas.sy ∧ r'.areas.sxy = rs ex * rs ey * r.areas.sxy) ∧
    (r'.areas.s11 = r.areas.s11 ∧ r'.areas.s22 = r.areas.s22) ∧
    (r'.beta.xPlus = rs ey * r.beta.xPlus ∧ r'.beta.xMinus = rs ey * r.beta.xMinus) ∧
    (r'.beta.yPlus = rs ex * r.beta.yPlus ∧ r'.beta.yMinus = rs ex * r.beta.yMinus) ∧
    (r'.beta.b11Plus = m * (rs ex * rs ey) * r.beta.b11Plus ∧ r'.beta.b11Minus = m * (rs ex * rs ey) * r.beta.b11Minus) ∧
    (r'.beta.b22Plus = m * r.beta.b22Plus ∧ r'.beta.b22Minus = m * r.beta.b22Minus) := by
  obtain ⟨-, -, -, j1, d1, sc1, g1, ar1, be1⟩ := warping_ok hr
  obtain ⟨-, -, -, j2, d2, sc2, g2, ar2, be2⟩ := warping_ok hr'
  obtain ⟨f1, f2, f3⟩ := SameMesh.functions h hd hp hc hw he he'
  have o1 : (fun i => rs ex * rs ey * r'.omega (τ i)) = r.omega := by
    funext i; rw [f1, rs2]
  have o2 : (fun i => rs ex * r'.psi (τ i)) = r.psi := by
    funext i; rw [f2, rs_mul_mul]
  have o3 : (fun i => rs ey * r'.phiS (τ i)) = r.phiS := by
    funext i; rw [f3, rs_mul_mul]
  have hI : ∀ {π t t'}, Img ex ey τ π t t' → _ := fun {π t t'} (hi : Img ex ey τ π t t') => hi.warpInts hw r'.omega
  have hK : ∀ {π t t'}, Img ex ey τ π t t' → _ := fun {π t t'} (hi : Img ex ey τ π t t') => hi.kappas hw r'.psi r'.phiS
  simp only [o1] at hI
  simp only [o2, o3] at hK
  set I := scWarpingIntegrals els w r.omega with hIdef
  set I' := scWarpingIntegrals els' w' r'.omega with hIdef'
  have i1 : I'.scX = rs ex * I.scX := SameMesh.accum_mul h fun hi => (hI hi).1
  have i2 : I'.scY = rs ey * I.scY := SameMesh.accum_mul h fun hi => (hI hi).2.1
  have i3 : I'.qOmega = rs ex * rs ey * I.qOmega := SameMesh.accum_mul h fun hi => (hI hi).2.2.1
  have i4 : I'.iOmega = I.iOmega := SameMesh.accum h fun hi => (hI hi).2.2.2.1
  have i5 : I'.iXomega = rs ey * I.iXomega := SameMesh.accum_mul h fun hi => (hI hi).2.2.2.2.1
  have i6 : I'.iYomega = rs ex * I.iYomega := SameMesh.accum_mul h fun hi => (hI hi).2.2.2.2.2
  have k1 : (shearDeformation els' w' r'.psi r'.phiS).x = (shearDeformation els w r.psi r.phiS).x :=
    SameMesh.accum h fun hi => (hK hi).1
  have k2 : (shearDeformation els' w' r'.psi r'.phiS).y = (shearDeformation els w r.psi r.phiS).y :=
    SameMesh.accum h fun hi => (hK hi).2.1
  have k3 : (shearDeformation els' w' r'.psi r'.phiS).xy = rs ex * rs ey * (shearDeformation els w r.psi r.phiS).xy :=
    SameMesh.accum_mul h fun hi => (hK hi).2.2
  have hM : ∀ {π t t'}, Img ex ey τ π t t' → _ := fun {π t t'} (hi : Img ex ey τ π t t') => hi.mono hcos hsin hm
  have m1 : (monosymmetryInts els' w'.phi).x = rs ey * (monosymmetryInts els w.phi).x :=
    SameMesh.accum_mul h fun hi => (hM hi).1
  have m2 : (monosymmetryInts els' w'.phi).y = rs ex * (monosymmetryInts els w.phi).y :=
    SameMesh.accum_mul h fun hi => (hM hi).2.1
  have m3 : (monosymmetryInts els' w'.phi).i11 = m * (rs ex * rs ey) * (monosymmetryInts els w.phi).i11 :=
    SameMesh.accum_mul h fun hi => (hM hi).2.2.1
  have m4 : (monosymmetryInts els' w'.phi).i22 = m * (monosymmetryInts els w.phi).i22 :=
    SameMesh.accum_mul h fun hi => (hM hi).2.2.2
  have hδ : w'.deltaS = w.deltaS := by
    simp only [WarpIn.deltaS, hw.ixx, hw.iyy, hw.ixy, hw.nu]
    rw [show (rs ex * rs ey * w.ixy) ^ 2 = w.ixy * (rs ex * rs ey * (rs ex * rs ey * w.ixy)) by ring, rs2]
    ring
  have hdot : ∀ {u u' : _} {c : ℝ}, (∀ i, u' (τ i) = c * u i) →
      dotN (assembleTorsion els').2 u' = rs ex * rs ey * c * dotN (assembleTorsion els).2 u := by
    intro u u' c hu
    rw [dotN, ← τ.sum_comp, dotN, Finset.mul_sum]
    exact Finset.sum_congr rfl fun i _ => by rw [SameMesh.load h hd, hu]; ring
  have x1 : r'.sc.xSe = rs ex * r.sc.xSe := by
    rw [sc1, sc2]
    simp only [shearCentres, hδ, i1, hdot f3, hw.nu]
    linear_combination (-(1 / w.deltaS) * rs ex * dotN (assembleTorsion els).2 r.phiS) * rs_sq ey
  have y1 : r'.sc.ySe = rs ey * r.sc.ySe := by
    rw [sc1, sc2]
    simp only [shearCentres, hδ, i2, hdot f2, hw.nu]
    linear_combination ((1 / w.deltaS) * rs ey * dotN (assembleTorsion els).2 r.psi) * rs_sq ex
  have p1 : r.sc.x11Se = (principalCoordinate w.phi r.sc.xSe r.sc.ySe).1 := by rw [sc1]; rfl
  have p2 : r.sc.y22Se = (principalCoordinate w.phi r.sc.xSe r.sc.ySe).2 := by rw [sc1]; rfl
  have q1 : r'.sc.x11Se = (principalCoordinate w'.phi r'.sc.xSe r'.sc.ySe).1 := by rw [sc2]; rfl
  have q2 : r'.sc.y22Se = (principalCoordinate w'.phi r'.sc.xSe r'.sc.ySe).2 := by rw [sc2]; rfl
  have x11 : r'.sc.x11Se = m * r.sc.x11Se := by rw [q1, p1, x1, y1, principal_signs hcos hsin]
  have y22 : r'.sc.y22Se = m * (rs ex * rs ey) * r.sc.y22Se := by rw [q2, p2, x1, y1, principal_signs hcos hsin]
  obtain ⟨u1, u2⟩ := shearAreas_rot w (shearDeformation els w r.psi r.phiS)
  obtain ⟨v1, v2⟩ := shearAreas_rot w' (shearDeformation els' w' r'.psi r'.phiS)
  refine ⟨?_, by rw [d1, d2, hδ], ?_, ⟨x1, y1⟩, ⟨?_, ?_⟩, ⟨x11, y22⟩, ⟨?_, ?_, ?_⟩, ⟨?_, ?_⟩, ⟨?_, ?_⟩, ⟨?_, ?_⟩, ⟨?_, ?_⟩, ⟨?_, ?_⟩⟩
  · rw [j1, j2, hw.ixx, hw.iyy]
    have := hdot f1
    simp only [dotN, mul_comm (r.omega _), mul_comm (r'.omega _)] at this ⊢
    rw [this]
    rw [mul_assoc, rs2]
  · rw [g1, g2, warpingConstant, warpingConstant, i3, i4, i5, i6, hw.ea, x1, y1]
    rcases rs_cases ex with e | e <;> rcases rs_cases ey with e' | e' <;> rw [e, e'] <;> ring
  · rw [sc1, sc2]
    simp only [shearCentres, i5, i6, hw.ixx, hw.iyy, hw.ixy]
    rcases rs_cases ex with e | e <;> rcases rs_cases ey with e' | e' <;> rw [e, e'] <;> ring
  · rw [sc1, sc2]
    simp only [shearCentres, i5, i6, hw.ixx, hw.iyy, hw.ixy]
    rcases rs_cases ex with e | e <;> rcases rs_cases ey with e' | e' <;> rw [e, e'] <;> ring
  · rw [ar1, ar2]; simp only [shearAreas, hδ, k1]
  · rw [ar1, ar2]; simp only [shearAreas, hδ, k2]
  · rw [ar1, ar2]; simp only [shearAreas, hδ, k3]; rw [mul_assoc, div_rs, div_rs, mul_assoc]
  · rw [ar1, ar2, u1, v1, hw.area, hδ, k1, k2, k3, hcos, hsin]
    congr 1
    rcases rs_cases ex with e | e <;> rcases rs_cases ey with e' | e' <;> rcases hm with m' | m' <;> rw [e, e', m'] <;> ring
  · rw [ar1, ar2, u2, v2, hw.area, hδ, k1, k2, k3, hcos, hsin]
    congr 1
    rcases rs_cases ex with e | e <;> rcases rs_cases ey with e' | e' <;> rcases hm with m' | m' <;> rw [e, e', m'] <;> ring
  all_goals
    rw [be1, be2]
    simp only [betas, m1, m2, m3, m4, x1, y1, x11, y22, hw.ixx, hw.iyy, h11, h22]
    ring

/-- The principal angles of the image. -/
theorem phiOf_signs {ixx iyy ixy : ℝ} (h : 0 < i11Of ixx iyy ixy) : ∃ m : ℝ, (m = 1 ∨ m = -1) ∧
    Real.cos (phiOf ixx iyy (rs ex * rs ey * ixy) * Real.pi / 180) = m * rs ex * Real.cos (phiOf ixx iyy ixy * Real.pi / 180) ∧
    Real.sin (phiOf ixx iyy (rs ex * rs ey * ixy) * Real.pi / 180) = m * rs ey * Real.sin (phiOf ixx iyy ixy * Real.pi / 180) := by
  have hi : i11Of ixx iyy (rs ex * rs ey * ixy) = i11Of ixx iyy ixy := by
    rw [i11Of, i11Of, mohrDelta, mohrDelta]
    rw [show (rs ex * rs ey * ixy) ^ 2 = ixy * (rs ex * rs ey * (rs ex * rs ey * ixy)) by ring, rs2, ← pow_two]
  simp only [phiOf, hi]
  split_ifs with hb
  · refine ⟨rs ex, rs_cases ex, ?_, ?_⟩
    · simp [rs_sq]
    · simp
  · refine ⟨rs ey, rs_cases ey, ?_⟩
    have hne : ixx - i11Of ixx iyy ixy ≠ 0 := by
      intro h0
      rw [h0, abs_zero] at hb
      exact hb (by positivity)
    have hpi : ∀ x : ℝ, x * 180 / Real.pi * Real.pi / 180 = x := by
      intro x
      have := Real.pi_ne_zero
      field_simp
    simp only [hpi, arctan2]
    have hz : ∀ x : ℝ, (⟨x, ixx - i11Of ixx iyy ixy⟩ : ℂ) ≠ 0 := by
      intro x h0
      exact hne (congrArg Complex.im h0)
    have hn : ‖(⟨rs ex * rs ey * ixy, ixx - i11Of ixx iyy ixy⟩ : ℂ)‖ = ‖(⟨ixy, ixx - i11Of ixx iyy ixy⟩ : ℂ)‖ := by
      rw [Complex.norm_eq_sqrt_sq_add_sq, Complex.norm_eq_sqrt_sq_add_sq]
      simp only
      rw [show (rs ex * rs ey * ixy) ^ 2 = ixy * (rs ex * rs ey * (rs ex * rs ey * ixy)) by ring, rs2, ← pow_two]
    rw [Complex.cos_arg (hz _), Complex.cos_arg (hz _), Complex.sin_arg, Complex.sin_arg, hn]
    simp only [rs_sq]
    constructor <;> ring

end SP
