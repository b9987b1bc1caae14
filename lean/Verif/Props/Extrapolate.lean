import Verif.Props.Shape
import Verif.Props.Quadrature

/-!
# C27: extrapolation from the Gauss points to the nodes
-/

namespace SP

open Spec Matrix

theorem r10_bounds : 3.16227766016837933199 < r10 ∧ r10 < 3.162277660168379332 := by
  constructor
  · rw [r10, Real.lt_sqrt (by norm_num)]; norm_num
  · rw [r10, Real.sqrt_lt' (by norm_num)]; norm_num

theorem q38_bounds : 3.18935049665574728572 < q38 ∧ q38 < 3.18935049665574728577 := by
  obtain ⟨h1, h2⟩ := r10_bounds
  constructor
  · rw [q38, sqrt_two_fifth, Real.lt_sqrt (by norm_num)]; linarith
  · rw [q38, sqrt_two_fifth, Real.sqrt_lt' (by norm_num)]; linarith

theorem g1_bounds : 0.44594849091596488631 < g1 ∧ g1 < 0.44594849091596488633 := by
  obtain ⟨h1, h2⟩ := r10_bounds
  obtain ⟨h3, h4⟩ := q38_bounds
  rw [g1_eq]; constructor <;> linarith

theorem g2_bounds : 0.09157621350977074345 < g2 ∧ g2 < 0.09157621350977074347 := by
  obtain ⟨h1, h2⟩ := r10_bounds
  obtain ⟨h3, h4⟩ := q38_bounds
  rw [g2_eq]; constructor <;> linarith

theorem sq_bounds {x a b : ℝ} (ha : 0 ≤ a) (h1 : a < x) (h2 : x < b) : a ^ 2 < x ^ 2 ∧ x ^ 2 < b ^ 2 :=
  ⟨by gcongr, by gcongr; linarith⟩

/-- Entries of `h_inv * H` where `H` holds the shape functions at the Gauss points. -/
noncomputable def hEntry (i j : Fin 6) : ℝ :=
  ∑ k, hInv i k * shapeN (gauss6pt k).eta (gauss6pt k).xi (gauss6pt k).zeta j

set_option maxHeartbeats 2000000 in
theorem hInv_entry (i j : Fin 6) : |hEntry i j - (if i = j then 1 else 0)| ≤ 1e-14 := by
  obtain ⟨a1, a2⟩ := g1_bounds
  obtain ⟨b1, b2⟩ := g2_bounds
  obtain ⟨c1, c2⟩ := sq_bounds (by norm_num) a1 a2
  obtain ⟨d1, d2⟩ := sq_bounds (by norm_num) b1 b2
  rw [abs_le]
  unfold hEntry
  fin_cases i <;> fin_cases j <;>
    simp [Fin.sum_univ_six, hInv, gauss6pt, shapeN, -neg_add_rev, -tsub_le_iff_right] <;> 
    constructor <;> linarith

/-- **C27.**  Take the values of any quadratic field at the six Gauss points of any straight-sided
element, in the order of the rule `gauss_points(n=6)`.  `extrapolate_to_nodes` returns the six nodal
values of the field, with an error of at most `1e-12` times the largest nodal value. -/
theorem C27_extrapolate (c : Coords) (hs : Straight c) (f : ℝ × ℝ → ℝ) (hf : f ∈ PolyLE 2)
    (gp : Fin 6 → GaussPt) (hgp : gaussPoints 6 = .ok (List.ofFn gp)) (B : ℝ)
    (hB : ∀ k, |f (nodePos c k)| ≤ B) (i : Fin 6) :
    |extrapolateToNodes (fun k => f (localPos c (gp k))) i - f (nodePos c i)| ≤ 1e-12 * B := by
  have hgp : gp = gauss6pt := by
    have : gaussPoints 6 = .ok (List.ofFn gauss6pt) := by simp [gaussPoints, gauss6]
    rw [this] at hgp
    exact (List.ofFn_injective (Except.ok.inj hgp)).symm
  subst hgp
  have hB0 : 0 ≤ B := (abs_nonneg _).trans (hB 0)
  have e1 : extrapolateToNodes (fun k => f (localPos c (gauss6pt k))) i
      = ∑ j, f (nodePos c j) * hEntry i j := by
    unfold extrapolateToNodes hEntry
    calc _ = ∑ k, hInv i k * ∑ j, f (nodePos c j) * (shapeFunction c (gauss6pt k)).n j :=
          Finset.sum_congr rfl fun k _ => by rw [C04_value c hs _ (gauss6pt_bary k) f hf]
      _ = ∑ k, ∑ j, f (nodePos c j) * (hInv i k *
            shapeN (gauss6pt k).eta (gauss6pt k).xi (gauss6pt k).zeta j) :=
          Finset.sum_congr rfl fun k _ => by
            rw [Finset.mul_sum]
            exact Finset.sum_congr rfl fun j _ => by
              show _ * (_ * shapeN _ _ _ j) = _
              ring
      _ = _ := by
          rw [Finset.sum_comm]
          exact Finset.sum_congr rfl fun j _ => by rw [Finset.mul_sum]
  have e2 : f (nodePos c i) = ∑ j, f (nodePos c j) * (if i = j then 1 else 0) := by simp
  rw [e1, e2, ← Finset.sum_sub_distrib]
  calc _ ≤ ∑ j, |f (nodePos c j) * hEntry i j - f (nodePos c j) * (if i = j then 1 else 0)| :=
        Finset.abs_sum_le_sum_abs _ _
    _ ≤ ∑ _j : Fin 6, B * 1e-14 := Finset.sum_le_sum fun j _ => by
        rw [← mul_sub, abs_mul]
        exact mul_le_mul (hB j) (hInv_entry i j) (abs_nonneg _) hB0
    _ ≤ _ := by
        simp only [Finset.sum_const, Finset.card_univ, Fintype.card_fin, nsmul_eq_mul]
        push_cast
        nlinarith

/-- The field `x²` on the example element: a non-constant case of `C27_extrapolate`. -/
example (i : Fin 6) : |extrapolateToNodes (fun k => (localPos exCoords (gauss6pt k)).1 ^ 2) i
    - (nodePos exCoords i).1 ^ 2| ≤ 1e-12 * 100 := by
  refine C27_extrapolate exCoords exCoords_proper.1 (fun p => p.1 ^ 2)
    (Submodule.subset_span ⟨2, 0, by omega, by simp⟩) gauss6pt
    (by simp [gaussPoints, gauss6]) 100 (fun k => ?_) i
  fin_cases k <;> simp [nodePos, exCoords] <;> norm_num

end SP
