import Verif.Lemmas.Sums
import Verif.Lemmas.Init

/-!
# Positivity of the inertia tensor
-/

namespace SP

open Spec

/-- Modulus times area of an element. -/
noncomputable def Tri6.wt {n : ℕ} (t : Tri6 n) : ℝ :=
  t.material.elasticModulus * (elemDet t.coords / 2)

/-- Corner value of the linear function `u x + v y - k`. -/
def Tri6.lin {n : ℕ} (t : Tri6 n) (u v k : ℝ) (i : Fin 6) : ℝ := u * t.coords.x i + v * t.coords.y i - k

/-- Mean of the square of `u x + v y - k` over the element. -/
noncomputable def Tri6.msq {n : ℕ} (t : Tri6 n) (u v k : ℝ) : ℝ :=
  mean2 (t.lin u v k 0) (t.lin u v k 1) (t.lin u v k 2) (t.lin u v k 0) (t.lin u v k 1) (t.lin u v k 2)

/-- Mean of `u x + v y - k` over the element. -/
noncomputable def Tri6.mean {n : ℕ} (t : Tri6 n) (u v k : ℝ) : ℝ :=
  (t.lin u v k 0 + t.lin u v k 1 + t.lin u v k 2) / 3

variable {n : ℕ} {els : List (Tri6 n)}

theorem sum_wt (hs : ∀ t ∈ els, Straight t.coords) :
    (els.map Tri6.wt).sum = (geomSums els).ea := by
  simp only [geomSums, accum_eq_sum]
  refine congrArg List.sum (List.map_congr_left fun t ht => ?_)
  rw [geom_area (hs t ht)]
  simp only [Tri6.wt, Tri6.geometricProperties]; ring

theorem sum_mean (hs : ∀ t ∈ els, Straight t.coords) (u v k : ℝ) :
    (els.map fun t => t.wt * t.mean u v k).sum
      = u * (geomSums els).qy + v * (geomSums els).qx - k * (geomSums els).ea := by
  simp only [geomSums, accum_eq_sum, ← List.sum_map_mul_left]
  induction els with
  | nil => simp
  | cons t els ih =>
    have h0 := hs t (List.mem_cons_self ..)
    have ih := ih fun u hu => hs u (List.mem_cons_of_mem _ hu)
    simp only [List.map_cons, List.sum_cons, ih, geom_area h0, geom_qx h0, geom_qy h0]
    simp only [Tri6.wt, Tri6.mean, Tri6.lin,
      show t.geometricProperties.e = t.material.elasticModulus from rfl]
    ring

theorem sum_msq (hs : ∀ t ∈ els, Straight t.coords) (u v k : ℝ) :
    (els.map fun t => t.wt * t.msq u v k).sum
      = u ^ 2 * (geomSums els).iyyG + 2 * u * v * (geomSums els).ixyG + v ^ 2 * (geomSums els).ixxG
        - 2 * k * (u * (geomSums els).qy + v * (geomSums els).qx) + k ^ 2 * (geomSums els).ea := by
  simp only [geomSums, accum_eq_sum]
  induction els with
  | nil => simp
  | cons t els ih =>
    have h0 := hs t (List.mem_cons_self ..)
    have ih := ih fun u hu => hs u (List.mem_cons_of_mem _ hu)
    simp only [List.map_cons, List.sum_cons, ih, geom_area h0, geom_qx h0, geom_qy h0, geom_ixx h0,
      geom_iyy h0, geom_ixy h0]
    simp only [Tri6.wt, Tri6.msq, Tri6.lin, mean2,
      show t.geometricProperties.e = t.material.elasticModulus from rfl]
    ring

theorem wt_pos {t : Tri6 n} (hp : Proper t.coords) (he : 0 < t.material.elasticModulus) :
    0 < t.wt := mul_pos he (half_pos hp.2)

theorem msq_nonneg (t : Tri6 n) (u v k : ℝ) : 0 ≤ t.msq u v k := by
  unfold Tri6.msq mean2
  nlinarith [sq_nonneg (t.lin u v k 0), sq_nonneg (t.lin u v k 1), sq_nonneg (t.lin u v k 2),
    sq_nonneg (t.lin u v k 0 + t.lin u v k 1 + t.lin u v k 2)]

/-- The corner values of a non-zero linear function on a proper element are not all equal. -/
theorem lin_not_const {t : Tri6 n} (hp : Proper t.coords) {u v k : ℝ} (huv : ¬ (u = 0 ∧ v = 0))
    (h0 : t.lin u v k 0 = 0) (h1 : t.lin u v k 1 = 0) (h2 : t.lin u v k 2 = 0) : False := by
  have hd := hp.2
  simp only [Tri6.lin, elemDet, signedArea2, cornerA, cornerB, cornerC] at *
  apply huv
  have e1 : u * (t.coords.x 1 - t.coords.x 0) + v * (t.coords.y 1 - t.coords.y 0) = 0 := by linarith
  have e2 : u * (t.coords.x 2 - t.coords.x 0) + v * (t.coords.y 2 - t.coords.y 0) = 0 := by linarith
  have hu : u * ((t.coords.x 1 - t.coords.x 0) * (t.coords.y 2 - t.coords.y 0)
      - (t.coords.x 2 - t.coords.x 0) * (t.coords.y 1 - t.coords.y 0)) = 0 := by
    linear_combination (t.coords.y 2 - t.coords.y 0) * e1 - (t.coords.y 1 - t.coords.y 0) * e2
  have hv : v * ((t.coords.x 1 - t.coords.x 0) * (t.coords.y 2 - t.coords.y 0)
      - (t.coords.x 2 - t.coords.x 0) * (t.coords.y 1 - t.coords.y 0)) = 0 := by
    linear_combination (t.coords.x 1 - t.coords.x 0) * e2 - (t.coords.x 2 - t.coords.x 0) * e1
  exact ⟨(mul_eq_zero.1 hu).resolve_right hd.ne', (mul_eq_zero.1 hv).resolve_right hd.ne'⟩

theorem msq_pos {t : Tri6 n} (hp : Proper t.coords) {u v : ℝ} (k : ℝ) (huv : ¬ (u = 0 ∧ v = 0)) :
    0 < t.msq u v k := by
  refine lt_of_le_of_ne (msq_nonneg t u v k) fun h => ?_
  have h' : t.lin u v k 0 ^ 2 + t.lin u v k 1 ^ 2 + t.lin u v k 2 ^ 2
      + (t.lin u v k 0 + t.lin u v k 1 + t.lin u v k 2) ^ 2 = 0 := by
    unfold Tri6.msq mean2 at h
    linear_combination -12 * h
  have h0 : t.lin u v k 0 = 0 := by
    have : t.lin u v k 0 ^ 2 = 0 := by nlinarith [sq_nonneg (t.lin u v k 0), sq_nonneg (t.lin u v k 1), sq_nonneg (t.lin u v k 2), sq_nonneg (t.lin u v k 0 + t.lin u v k 1 + t.lin u v k 2)]
    simpa using this
  have h1 : t.lin u v k 1 = 0 := by
    have : t.lin u v k 1 ^ 2 = 0 := by nlinarith [sq_nonneg (t.lin u v k 0), sq_nonneg (t.lin u v k 1), sq_nonneg (t.lin u v k 2), sq_nonneg (t.lin u v k 0 + t.lin u v k 1 + t.lin u v k 2)]
    simpa using this
  have h2 : t.lin u v k 2 = 0 := by
    have : t.lin u v k 2 ^ 2 = 0 := by nlinarith [sq_nonneg (t.lin u v k 0), sq_nonneg (t.lin u v k 1), sq_nonneg (t.lin u v k 2), sq_nonneg (t.lin u v k 0 + t.lin u v k 1 + t.lin u v k 2)]
    simpa using this
  exact lin_not_const hp huv h0 h1 h2

theorem sum_pos_list {α : Type*} {l : List α} {f : α → ℝ} (hne : l ≠ []) (h : ∀ a ∈ l, 0 < f a) :
    0 < (l.map f).sum := by
  induction l with
  | nil => exact absurd rfl hne
  | cons a l ih =>
    rw [List.map_cons, List.sum_cons]
    have h1 := h a (List.mem_cons_self ..)
    by_cases hl : l = []
    · subst hl; simpa using h1
    · have := ih hl fun b hb => h b (List.mem_cons_of_mem _ hb)
      linarith

theorem _root_.SP.Spec.Physical.straight (h : Physical els) : ∀ t ∈ els, Straight t.coords :=
  fun t ht => (h.proper t ht).1

theorem _root_.SP.Spec.Physical.ea_pos (h : Physical els) : 0 < (geomSums els).ea := by
  rw [← sum_wt h.straight]
  exact sum_pos_list h.nonempty fun t ht => wt_pos (h.proper t ht) (h.modulus t ht)

theorem _root_.SP.Spec.Physical.area_pos (h : Physical els) : 0 < (geomSums els).area := by
  simp only [geomSums, accum_eq_sum]
  refine sum_pos_list h.nonempty fun t ht => ?_
  rw [geom_area (h.straight t ht)]
  exact half_pos (h.proper t ht).2

/-- The centroidal quadratic form is positive definite. -/
theorem _root_.SP.Spec.Physical.form_pos (h : Physical els) {u v : ℝ} (huv : ¬ (u = 0 ∧ v = 0)) :
    0 < u ^ 2 * (geomSums els).iyyC + 2 * u * v * (geomSums els).ixyC
      + v ^ 2 * (geomSums els).ixxC := by
  have hea := h.ea_pos
  have key := sum_msq h.straight u v
    ((u * (geomSums els).qy + v * (geomSums els).qx) / (geomSums els).ea)
  have hpos : 0 < (els.map fun t => t.wt * t.msq u v
      ((u * (geomSums els).qy + v * (geomSums els).qx) / (geomSums els).ea)).sum :=
    sum_pos_list h.nonempty fun t ht =>
      mul_pos (wt_pos (h.proper t ht) (h.modulus t ht)) (msq_pos (h.proper t ht) _ huv)
  rw [key] at hpos
  have : u ^ 2 * (geomSums els).iyyC + 2 * u * v * (geomSums els).ixyC
      + v ^ 2 * (geomSums els).ixxC = u ^ 2 * (geomSums els).iyyG
      + 2 * u * v * (geomSums els).ixyG + v ^ 2 * (geomSums els).ixxG
      - 2 * ((u * (geomSums els).qy + v * (geomSums els).qx) / (geomSums els).ea)
        * (u * (geomSums els).qy + v * (geomSums els).qx)
      + ((u * (geomSums els).qy + v * (geomSums els).qx) / (geomSums els).ea) ^ 2
        * (geomSums els).ea := by
    simp only [GeomSums.iyyC, GeomSums.ixyC, GeomSums.ixxC]
    field_simp
    ring
  rw [this]
  exact hpos

theorem _root_.SP.Spec.Physical.ixx_pos (h : Physical els) : 0 < (geomSums els).ixxC := by
  simpa using h.form_pos (u := 0) (v := 1) (by simp)
theorem _root_.SP.Spec.Physical.iyy_pos (h : Physical els) : 0 < (geomSums els).iyyC := by
  simpa using h.form_pos (u := 1) (v := 0) (by simp)
theorem _root_.SP.Spec.Physical.det_pos (h : Physical els) :
    0 < (geomSums els).ixxC * (geomSums els).iyyC - (geomSums els).ixyC ^ 2 := by
  have h1 := h.form_pos (u := (geomSums els).ixxC) (v := -(geomSums els).ixyC)
    (fun hh => h.ixx_pos.ne' hh.1)
  have h2 := h.ixx_pos
  have : 0 < (geomSums els).ixxC
      * ((geomSums els).ixxC * (geomSums els).iyyC - (geomSums els).ixyC ^ 2) := by
    nlinarith
  exact (mul_pos_iff_of_pos_left h2).1 this

/-- In every direction some corner lies strictly beyond the centroid. -/
theorem _root_.SP.Spec.Physical.exists_beyond (h : Physical els) {u v : ℝ} (huv : ¬ (u = 0 ∧ v = 0)) :
    ∃ t ∈ els, ∃ i : Fin 6, 0 < t.lin u v (u * (geomSums els).cx + v * (geomSums els).cy) i := by
  by_contra hcon
  push Not at hcon
  have hea := h.ea_pos
  have key := sum_mean h.straight u v (u * (geomSums els).cx + v * (geomSums els).cy)
  have hz : u * (geomSums els).qy + v * (geomSums els).qx
      - (u * (geomSums els).cx + v * (geomSums els).cy) * (geomSums els).ea = 0 := by
    simp only [GeomSums.cx, GeomSums.cy]; field_simp; ring
  rw [hz] at key
  have hneg : ∀ t ∈ els, 0 < (-1) * (t.wt * t.mean u v (u * (geomSums els).cx + v * (geomSums els).cy)) := by
    intro t ht
    have hw := wt_pos (h.proper t ht) (h.modulus t ht)
    have h0 := hcon t ht 0
    have h1 := hcon t ht 1
    have h2 := hcon t ht 2
    have : t.mean u v (u * (geomSums els).cx + v * (geomSums els).cy) < 0 := by
      unfold Tri6.mean
      by_contra hge
      push Not at hge
      exact lin_not_const (h.proper t ht) huv (le_antisymm h0 (by linarith))
        (le_antisymm h1 (by linarith)) (le_antisymm h2 (by linarith))
    nlinarith
  have := sum_pos_list h.nonempty hneg
  rw [List.sum_map_mul_left, key] at this
  simp at this

/-! ### Principal values -/

theorem mohrDelta_nonneg (a b c : ℝ) : 0 ≤ mohrDelta a b c := Real.sqrt_nonneg _
theorem mohrDelta_sq (a b c : ℝ) : mohrDelta a b c ^ 2 = ((a - b) / 2) ^ 2 + c ^ 2 :=
  Real.sq_sqrt (by positivity)

theorem i11_add_i22 (a b c : ℝ) : i11Of a b c + i22Of a b c = a + b := by
  unfold i11Of i22Of; ring
theorem i11_mul_i22 (a b c : ℝ) : i11Of a b c * i22Of a b c = a * b - c ^ 2 := by
  unfold i11Of i22Of
  linear_combination -mohrDelta_sq a b c
theorem i22_le_i11 (a b c : ℝ) : i22Of a b c ≤ i11Of a b c := by
  unfold i11Of i22Of; linarith [mohrDelta_nonneg a b c]

theorem abs_le_mohr (a b c : ℝ) : |(a - b) / 2| ≤ mohrDelta a b c := by
  rw [← Real.sqrt_sq_eq_abs]
  exact Real.sqrt_le_sqrt (by nlinarith [sq_nonneg c])

theorem ixx_le_i11 (a b c : ℝ) : a ≤ i11Of a b c := by
  unfold i11Of; have := le_abs_self ((a - b) / 2); have := abs_le_mohr a b c; linarith
theorem i22_le_ixx (a b c : ℝ) : i22Of a b c ≤ a := by
  unfold i22Of; have := neg_abs_le ((a - b) / 2); have := abs_le_mohr a b c; linarith

theorem i11_pos {a b : ℝ} (c : ℝ) (ha : 0 < a) : 0 < i11Of a b c := lt_of_lt_of_le ha (ixx_le_i11 a b c)
theorem i22_pos {a b c : ℝ} (ha : 0 < a) (hd : 0 < a * b - c ^ 2) : 0 < i22Of a b c := by
  have h1 := i11_pos (b := b) c ha
  rw [← i11_mul_i22] at hd
  exact (mul_pos_iff_of_pos_left h1).1 hd

end SP
