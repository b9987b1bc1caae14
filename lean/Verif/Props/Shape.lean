import Verif.Lemmas.Element
import Mathlib.Analysis.Calculus.Deriv.Basic
import Mathlib.Analysis.Calculus.Deriv.Pow
import Mathlib.Analysis.Calculus.Deriv.Mul
import Mathlib.Analysis.Calculus.Deriv.Add

/-!
# C04 (shape functions) and C28 (point location)
-/

namespace SP

open Spec Matrix

/-- The six nodes in local (barycentric) coordinates: three corners and the midpoints of the edges
01, 12, 02. -/
noncomputable def localNode : Fin 6 → ℝ × ℝ × ℝ :=
  ![(1, 0, 0), (0, 1, 0), (0, 0, 1), (1 / 2, 1 / 2, 0), (0, 1 / 2, 1 / 2), (1 / 2, 0, 1 / 2)]

/-- Global position of node `i`. -/
def nodePos (c : Coords) (i : Fin 6) : ℝ × ℝ := (c.x i, c.y i)

/-- Global position of a local point of the triangle. -/
def localPos (c : Coords) (g : GaussPt) : ℝ × ℝ :=
  baryPoint (cornerA c) (cornerB c) (cornerC c) g.eta g.xi g.zeta

/-- **C04** partition of unity: the shape functions sum to one at every local point. -/
theorem C04_partition (c : Coords) (g : GaussPt) (hb : g.eta + g.xi + g.zeta = 1) :
    ∑ i, (shapeFunction c g).n i = 1 := by
  have hz : g.zeta = 1 - g.eta - g.xi := by linarith
  simp [shapeFunction, shapeN, Fin.sum_univ_six, hz]
  ring

/-- **C04** nodal values: `N_i` is one at node `i` and zero at the five other nodes; both variants
of the function in the code agree. -/
theorem C04_nodal (c : Coords) (i j : Fin 6) (w : ℝ) :
    (shapeFunction c ⟨w, (localNode j).1, (localNode j).2.1, (localNode j).2.2⟩).n i
      = (if i = j then 1 else 0) ∧
    shapeFunctionOnly (localNode j) i = if i = j then 1 else 0 := by
  fin_cases i <;> fin_cases j <;>
    norm_num [shapeFunction, shapeFunctionOnly, shapeN, localNode, Fin.ext_iff]

/-- **C04** position: the coordinates returned with the shape functions are those of the point with
the given barycentric coordinates. -/
theorem C04_position (c : Coords) (hs : Straight c) (g : GaussPt)
    (hb : g.eta + g.xi + g.zeta = 1) :
    ((shapeFunction c g).nx, (shapeFunction c g).ny) = localPos c g := by
  rw [sf_nx hs hb, sf_ny hs hb]
  simp [posX, posY, localPos, baryPoint, cornerA, cornerB, cornerC]

/-- **C04** jacobian: half of twice the signed area, at every local point. -/
theorem C04_jacobian (c : Coords) (hs : Straight c) (g : GaussPt)
    (hb : g.eta + g.xi + g.zeta = 1) :
    (shapeFunction c g).j = signedArea2 (cornerA c) (cornerB c) (cornerC c) / 2 :=
  sf_j hs hb

private theorem interp_mono (c : Coords) (hs : Straight c) (g : GaussPt)
    (hb : g.eta + g.xi + g.zeta = 1) (a b : ℕ) (hab : a + b ≤ 2) :
    ∑ i, (c.x i ^ a * c.y i ^ b) * (shapeFunction c g).n i = posX c g ^ a * posY c g ^ b := by
  have hz : g.zeta = 1 - g.eta - g.xi := by linarith
  obtain ⟨h3, h4, h5, h6, h7, h8⟩ := hs
  have ha : a ≤ 2 := by omega
  have hb : b ≤ 2 := by omega
  interval_cases a <;> interval_cases b <;> first | omega | skip
  all_goals
    simp [shapeFunction, shapeN, Fin.sum_univ_six, hz, posX, posY, h3, h4, h5, h6, h7, h8]
    ring

/-- **C04** value reproduction: interpolating the nodal values of any quadratic field returns the
field. -/
theorem C04_value (c : Coords) (hs : Straight c) (g : GaussPt) (hb : g.eta + g.xi + g.zeta = 1)
    (f : ℝ × ℝ → ℝ) (hf : f ∈ PolyLE 2) :
    ∑ i, f (nodePos c i) * (shapeFunction c g).n i = f (localPos c g) := by
  have hpos : localPos c g = (posX c g, posY c g) := by
    simp [posX, posY, localPos, baryPoint, cornerA, cornerB, cornerC]
  rw [hpos]
  induction hf using Submodule.span_induction with
  | mem f h => obtain ⟨a, b, hab, rfl⟩ := h; exact interp_mono c hs g hb a b hab
  | zero => simp
  | add f h _ _ hf hh => simp [add_mul, Finset.sum_add_distrib, hf, hh]
  | smul k f _ hf => simp [mul_assoc, ← Finset.mul_sum, hf]

private theorem grad_mono (c : Coords) (hs : Straight c) (hd : elemDet c ≠ 0) (g : GaussPt)
    (hb : g.eta + g.xi + g.zeta = 1) (a b : ℕ) (hab : a + b ≤ 2) :
    ∑ i, (shapeFunction c g).bx i * (c.x i ^ a * c.y i ^ b)
        = a * posX c g ^ (a - 1) * posY c g ^ b ∧
    ∑ i, (shapeFunction c g).by' i * (c.x i ^ a * c.y i ^ b)
        = posX c g ^ a * (b * posY c g ^ (b - 1)) := by
  have hz : g.zeta = 1 - g.eta - g.xi := by linarith
  simp only [sf_bx hs hb hd, sf_by hs hb hd, div_mul_eq_mul_div]
  rw [← Finset.sum_div, ← Finset.sum_div, div_eq_iff hd, div_eq_iff hd]
  obtain ⟨h3, h4, h5, h6, h7, h8⟩ := hs
  have ha : a ≤ 2 := by omega
  have hb : b ≤ 2 := by omega
  interval_cases a <;> interval_cases b <;> first | omega | skip
  all_goals
    constructor <;>
    simp [bIso, Fin.sum_univ_six, hz, posX, posY, h3, h4, h5, h6, h7, h8, elemDet, signedArea2,
      cornerA, cornerB, cornerC] <;>
    ring

/-- **C04** gradient reproduction: on a non-degenerate element the derivative matrix applied to the
nodal values of any quadratic field `f` returns the true partial derivatives of `f` at the point. -/
theorem C04_gradient (c : Coords) (hs : Straight c) (hd : elemDet c ≠ 0) (g : GaussPt)
    (hb : g.eta + g.xi + g.zeta = 1) (f : ℝ × ℝ → ℝ) (hf : f ∈ PolyLE 2) :
    HasDerivAt (fun x => f (x, (localPos c g).2))
      (∑ i, (shapeFunction c g).bx i * f (nodePos c i)) (localPos c g).1 ∧
    HasDerivAt (fun y => f ((localPos c g).1, y))
      (∑ i, (shapeFunction c g).by' i * f (nodePos c i)) (localPos c g).2 := by
  have hpos : localPos c g = (posX c g, posY c g) := by
    simp [posX, posY, localPos, baryPoint, cornerA, cornerB, cornerC]
  rw [hpos]
  induction hf using Submodule.span_induction with
  | mem f h =>
    obtain ⟨a, b, hab, rfl⟩ := h
    obtain ⟨h1, h2⟩ := grad_mono c hs hd g hb a b hab
    constructor
    · have := ((hasDerivAt_pow a (posX c g)).mul_const (posY c g ^ b))
      exact this.congr_deriv h1.symm
    · have := ((hasDerivAt_pow b (posY c g)).const_mul (posX c g ^ a))
      exact this.congr_deriv h2.symm
  | zero => simpa using ⟨hasDerivAt_const _ _, hasDerivAt_const _ _⟩
  | add f h _ _ hf hh =>
    simp only [Pi.add_apply, mul_add, Finset.sum_add_distrib]
    exact ⟨hf.1.add hh.1, hf.2.add hh.2⟩
  | smul k f _ hf =>
    have e1 : ∀ v : Fin 6 → ℝ, ∑ i, v i * (k • f) (nodePos c i)
        = k * ∑ i, v i * f (nodePos c i) := by
      intro v; rw [Finset.mul_sum]; refine Finset.sum_congr rfl fun i _ => ?_; simp; ring
    rw [e1, e1]
    exact ⟨hf.1.const_mul k, hf.2.const_mul k⟩

/-- **C04** degenerate elements: if the jacobian is zero both rows of the derivative matrix are zero
(there is no exception). -/
theorem C04_degenerate (c : Coords) (g : GaussPt) (hj : (shapeFunction c g).j = 0) (i : Fin 6) :
    (shapeFunction c g).bx i = 0 ∧ (shapeFunction c g).by' i = 0 := by
  have h : (0.5 : ℝ) * (jMat c g.eta g.xi g.zeta).det = 0 := hj
  simp only [shapeFunction, h]
  simp

/-- The example element: corners (1,2), (4,3), (2,6). -/
noncomputable def exCoords : Coords :=
  ⟨![1, 4, 2, 5 / 2, 3, 3 / 2], ![2, 3, 6, 5 / 2, 9 / 2, 4]⟩

theorem exCoords_proper : Proper exCoords := by
  refine ⟨⟨?_, ?_, ?_, ?_, ?_, ?_⟩, ?_⟩ <;>
    simp [exCoords, elemDet, signedArea2, cornerA, cornerB, cornerC] <;> norm_num

/-- Non-vacuity of `C04_gradient`: a proper element, an interior point, the field `x * y`. -/
example : ∑ i, (shapeFunction exCoords ⟨1, 0.2, 0.3, 0.5⟩).bx i
    * (exCoords.x i * exCoords.y i) = 4.3 := by
  have h := (C04_gradient exCoords exCoords_proper.1 exCoords_proper.2.ne' ⟨1, 0.2, 0.3, 0.5⟩
    (by norm_num) (fun p => p.1 * p.2) (Submodule.subset_span ⟨1, 1, by omega, by simp⟩)).1
  have h2 : HasDerivAt (fun x : ℝ => x * (4.3 : ℝ)) 4.3 (localPos exCoords ⟨1, 0.2, 0.3, 0.5⟩).1 := by
    simpa using (hasDerivAt_id (localPos exCoords ⟨1, 0.2, 0.3, 0.5⟩).1).mul_const (4.3 : ℝ)
  have e : (localPos exCoords ⟨1, 0.2, 0.3, 0.5⟩).2 = 4.3 := by
    simp [localPos, baryPoint, exCoords, cornerA, cornerB, cornerC]; norm_num
  rw [e] at h
  exact h.unique h2

/-! ### C28 -/

/-- **C28** (location): on a non-degenerate element the test is exact membership in the closed
triangle of the three corners. -/
theorem C28_within {n : ℕ} (t : Tri6 n) (hd : elemDet t.coords ≠ 0) (p : ℝ × ℝ) :
    t.pointWithinElement p ↔ p ∈ elemRegion t.coords := by
  obtain ⟨px, py⟩ := p
  have hden : (t.coords.y 1 - t.coords.y 2) * (t.coords.x 0 - t.coords.x 2)
      + (t.coords.x 2 - t.coords.x 1) * (t.coords.y 0 - t.coords.y 2) = elemDet t.coords := by
    simp [elemDet, signedArea2, cornerA, cornerB, cornerC]; ring
  rw [elemRegion, Spec.triangle, convexHull_triple_eq_image]
  simp only [Tri6.pointWithinElement, hden]
  constructor
  · rintro ⟨ha, hb, hc⟩
    refine ⟨(_, _), ⟨ha, hb, by linarith⟩, ?_⟩
    simp only [triMap, cornerA, cornerB, cornerC, Prod.mk.injEq]
    constructor <;> field_simp <;>
      simp only [elemDet, signedArea2, cornerA, cornerB, cornerC] <;> ring
  · rintro ⟨⟨a, b⟩, ⟨ha, hb, hab⟩, h⟩
    simp only [triMap, cornerA, cornerB, cornerC, Prod.mk.injEq] at h ha hb hab
    obtain ⟨h1, h2⟩ := h
    subst h1 h2
    have e1 : ((t.coords.y 1 - t.coords.y 2) * (t.coords.x 2 + a * (t.coords.x 0 - t.coords.x 2) + b * (t.coords.x 1 - t.coords.x 2) - t.coords.x 2) + (t.coords.x 2 - t.coords.x 1) * (t.coords.y 2 + a * (t.coords.y 0 - t.coords.y 2) + b * (t.coords.y 1 - t.coords.y 2) - t.coords.y 2)) / elemDet t.coords = a := by
      rw [div_eq_iff hd]; simp only [elemDet, signedArea2, cornerA, cornerB, cornerC]; ring
    have e2 : ((t.coords.y 2 - t.coords.y 0) * (t.coords.x 2 + a * (t.coords.x 0 - t.coords.x 2) + b * (t.coords.x 1 - t.coords.x 2) - t.coords.x 2) + (t.coords.x 0 - t.coords.x 2) * (t.coords.y 2 + a * (t.coords.y 0 - t.coords.y 2) + b * (t.coords.y 1 - t.coords.y 2) - t.coords.y 2)) / elemDet t.coords = b := by
      rw [div_eq_iff hd]; simp only [elemDet, signedArea2, cornerA, cornerB, cornerC]; ring
    rw [e1, e2]
    exact ⟨ha, hb, by linarith⟩

/-- **C28** (local coordinates): the returned coordinates sum to one and are the barycentric
coordinates of the point. -/
theorem C28_local {n : ℕ} (t : Tri6 n) (hd : elemDet t.coords ≠ 0) (p : ℝ × ℝ) :
    let l := t.localCoord p
    l.1 + l.2.1 + l.2.2 = 1 ∧
    baryPoint (cornerA t.coords) (cornerB t.coords) (cornerC t.coords) l.1 l.2.1 l.2.2 = p := by
  obtain ⟨px, py⟩ := p
  have hdet : (!![t.coords.x 0 - t.coords.x 2, t.coords.x 1 - t.coords.x 2;
      t.coords.y 0 - t.coords.y 2, t.coords.y 1 - t.coords.y 2] : Matrix (Fin 2) (Fin 2) ℝ).det
      = elemDet t.coords := by
    simp [Matrix.det_fin_two, elemDet, signedArea2, cornerA, cornerB, cornerC]; ring
  refine ⟨by simp [Tri6.localCoord], ?_⟩
  simp only [Tri6.localCoord, Coords.localM, mul_one, Matrix.inv_def, hdet, Ring.inverse_eq_inv',
    Matrix.adjugate_fin_two]
  simp only [baryPoint, cornerA, cornerB, cornerC, Prod.mk.injEq]
  constructor <;> simp [Matrix.mulVec, dotProduct, Fin.sum_univ_two] <;> field_simp <;>
    simp [elemDet, signedArea2, cornerA, cornerB, cornerC] <;> ring

/-- **C28** (interpolation): interpolating the element coordinates with the shape functions at the
local coordinates returns the point, and the three local coordinates are nonnegative exactly when
the point is reported to be inside. -/
theorem C28_interp {n : ℕ} (t : Tri6 n) (hs : Straight t.coords) (hd : elemDet t.coords ≠ 0)
    (p : ℝ × ℝ) :
    (∑ i, t.coords.x i * shapeFunctionOnly (t.localCoord p) i,
      ∑ i, t.coords.y i * shapeFunctionOnly (t.localCoord p) i) = p ∧
    ((0 ≤ (t.localCoord p).1 ∧ 0 ≤ (t.localCoord p).2.1 ∧ 0 ≤ (t.localCoord p).2.2) ↔
      t.pointWithinElement p) := by
  obtain ⟨h1, h2⟩ := C28_local t hd p
  constructor
  · have h := C04_position t.coords hs
      ⟨0, (t.localCoord p).1, (t.localCoord p).2.1, (t.localCoord p).2.2⟩ h1
    rw [localPos, h2] at h
    exact h
  · rw [C28_within t hd, elemRegion, Spec.triangle, convexHull_triple_eq_image]
    constructor
    · rintro ⟨a, b, c⟩
      refine ⟨((t.localCoord p).1, (t.localCoord p).2.1), ⟨a, b, by simp only; linarith⟩, ?_⟩
      have : (t.localCoord p).2.2 = 1 - (t.localCoord p).1 - (t.localCoord p).2.1 := by linarith
      rw [this] at h2
      conv_rhs => rw [← h2]
      simp only [triMap, baryPoint, Prod.mk.injEq]
      constructor <;> ring
    · rintro ⟨⟨a, b⟩, ⟨ha, hb, hab⟩, h⟩
      have hz : (t.localCoord p).2.2 = 1 - (t.localCoord p).1 - (t.localCoord p).2.1 := by linarith
      have : triMap (cornerA t.coords) (cornerB t.coords) (cornerC t.coords)
          ((t.localCoord p).1, (t.localCoord p).2.1)
          = triMap (cornerA t.coords) (cornerB t.coords) (cornerC t.coords) (a, b) := by
        rw [hz] at h2
        rw [h]
        refine Eq.trans ?_ h2
        simp only [triMap, baryPoint, Prod.mk.injEq]
        constructor <;> ring
      have := triMap_injective (A := cornerA t.coords) (B := cornerB t.coords)
        (C := cornerC t.coords) hd this
      rw [Prod.mk.injEq] at this
      rw [hz, this.1, this.2]
      simp only at ha hb hab
      exact ⟨ha, hb, by linarith⟩

/-- Non-vacuity: for the example element a point inside is found, one outside is not. -/
example : (⟨0, exCoords, ![0, 1, 2, 3, 4, 5], defaultMaterial⟩ : Tri6 6).pointWithinElement (2, 3) ∧
    ¬ (⟨0, exCoords, ![0, 1, 2, 3, 4, 5], defaultMaterial⟩ : Tri6 6).pointWithinElement (0, 0) := by
  constructor <;> simp [Tri6.pointWithinElement, exCoords] <;> norm_num

end SP
