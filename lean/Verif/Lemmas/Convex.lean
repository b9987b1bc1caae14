import Verif.Lemmas.OutlinePoly
import Verif.Props.PlasticExample

/-!
# Rings in convex position go once round their points
-/

namespace SP

open Spec MeasureTheory Set

/-- How often a triangle goes round a point. -/
noncomputable def triWinding (a b c p : ℝ × ℝ) : ℤ := crosses (a, b) p + crosses (b, c) p + crosses (c, a) p

theorem triWinding_eq {a b c p : ℝ × ℝ} (hd : 0 < signedArea2 a b c) (h1 : signedArea2 a b p ≠ 0) (h2 : signedArea2 b c p ≠ 0)
    (h3 : signedArea2 c a p ≠ 0) :
    (0 < signedArea2 a b p ∧ 0 < signedArea2 b c p ∧ 0 < signedArea2 c a p ∧ triWinding a b c p = 1) ∨
    (¬ (0 < signedArea2 a b p ∧ 0 < signedArea2 b c p ∧ 0 < signedArea2 c a p) ∧ triWinding a b c p = 0) := by
  have e1 : signedArea2 a b p + signedArea2 b c p + signedArea2 c a p = signedArea2 a b c := by simp only [signedArea2]; ring
  have e2 : signedArea2 b c p * (a.2 - p.2) + signedArea2 c a p * (b.2 - p.2) + signedArea2 a b p * (c.2 - p.2) = 0 := by
    simp only [signedArea2]; ring
  have e3 : signedArea2 a b c = (b.1 - a.1) * (c.2 - p.2 - (a.2 - p.2)) - (c.1 - a.1) * (b.2 - p.2 - (a.2 - p.2)) := by
    simp only [signedArea2]; ring
  have hd' := hd
  rw [e3] at hd'
  rw [← e1] at hd
  simp only [triWinding, crosses]
  generalize signedArea2 a b p = s at *
  generalize signedArea2 b c p = t at *
  generalize signedArea2 c a p = u at *
  generalize hA : a.2 - p.2 = A at *
  generalize hB : b.2 - p.2 = B at *
  generalize hC : c.2 - p.2 = C at *
  have ra : a.2 ≤ p.2 ↔ A ≤ 0 := by rw [← hA]; constructor <;> intro h <;> linarith
  have rb : b.2 ≤ p.2 ↔ B ≤ 0 := by rw [← hB]; constructor <;> intro h <;> linarith
  have rc : c.2 ≤ p.2 ↔ C ≤ 0 := by rw [← hC]; constructor <;> intro h <;> linarith
  have k : ¬ (A ≤ 0 ∧ B ≤ 0 ∧ C ≤ 0 ∧ 0 < s ∧ 0 < t ∧ 0 < u) := by
    rintro ⟨ka, kb, kc, hs, ht, hu⟩
    have q1 : t * A ≤ 0 := mul_nonpos_of_nonneg_of_nonpos ht.le ka
    have q2 : u * B ≤ 0 := mul_nonpos_of_nonneg_of_nonpos hu.le kb
    have q3 : s * C ≤ 0 := mul_nonpos_of_nonneg_of_nonpos hs.le kc
    have zA : A = 0 := (mul_eq_zero.1 (by linarith : t * A = 0)).resolve_left ht.ne'
    have zB : B = 0 := (mul_eq_zero.1 (by linarith : u * B = 0)).resolve_left hu.ne'
    have zC : C = 0 := (mul_eq_zero.1 (by linarith : s * C = 0)).resolve_left hs.ne'
    rw [zA, zB, zC] at hd'
    simp at hd'
  simp only [← not_le (b := p.2), ra, rb, rc]
  rcases lt_or_gt_of_ne h1 with hs | hs <;> rcases lt_or_gt_of_ne h2 with ht | ht <;> rcases lt_or_gt_of_ne h3 with hu | hu <;>
    by_cases ka : A ≤ 0 <;> by_cases kb : B ≤ 0 <;> by_cases kc : C ≤ 0 <;>
    simp only [ka, kb, kc, hs, ht, hu, hs.not_gt, ht.not_gt, hu.not_gt, not_true_eq_false, not_false_eq_true, and_true, true_and,
      and_false, false_and, if_true, if_false] <;> norm_num <;> first | exact k ⟨ka, kb, kc, hs, ht, hu⟩ | nlinarith

variable {v : ℕ → ℝ × ℝ}

/-- How often the ring of the points `v 0, …, v m` goes round a point. -/
noncomputable def ringWinding (v : ℕ → ℝ × ℝ) (m : ℕ) (p : ℝ × ℝ) : ℤ :=
  ∑ k ∈ Finset.range m, crosses (v k, v (k + 1)) p + crosses (v m, v 0) p

theorem ringWinding_succ (v : ℕ → ℝ × ℝ) (m : ℕ) (p : ℝ × ℝ) :
    ringWinding v (m + 1) p = ringWinding v m p + triWinding (v 0) (v m) (v (m + 1)) p := by
  have h := crosses_swap (v 0, v m) p
  rw [Prod.swap_prod_mk] at h
  rw [ringWinding, ringWinding, triWinding, Finset.sum_range_succ, h]
  ring

/-- Points in convex position, counter-clockwise. -/
def ConvexRing (v : ℕ → ℝ × ℝ) (m : ℕ) : Prop := ∀ i j k, i < j → j < k → k ≤ m → 0 < signedArea2 (v i) (v j) (v k)

/-- An affine function that is negative at a point of the triangle is negative at a corner. -/
theorem tri_side {a b c p : ℝ × ℝ} (l x y : ℝ) (h1 : 0 < signedArea2 a b p) (h2 : 0 < signedArea2 b c p) (h3 : 0 < signedArea2 c a p)
    (ha : 0 ≤ l + x * a.1 + y * a.2) (hb : 0 ≤ l + x * b.1 + y * b.2) (hc : 0 ≤ l + x * c.1 + y * c.2) :
    0 ≤ l + x * p.1 + y * p.2 := by
  have e : (signedArea2 a b p + signedArea2 b c p + signedArea2 c a p) * (l + x * p.1 + y * p.2)
      = signedArea2 b c p * (l + x * a.1 + y * a.2) + signedArea2 c a p * (l + x * b.1 + y * b.2)
        + signedArea2 a b p * (l + x * c.1 + y * c.2) := by simp only [signedArea2]; ring
  have h4 : 0 ≤ (signedArea2 a b p + signedArea2 b c p + signedArea2 c a p) * (l + x * p.1 + y * p.2) := by
    rw [e]; positivity
  exact nonneg_of_mul_nonneg_right h4 (by positivity)

/-- The points of a ring in convex position are those on the left of all edges. -/
theorem convex_winding {m : ℕ} (h : ConvexRing v m) {p : ℝ × ℝ} (hp : ∀ i ≤ m, ∀ j ≤ m, i ≠ j → signedArea2 (v i) (v j) p ≠ 0) :
    (ringWinding v m p = 0 ∧ (m = 0 ∨ (∃ k < m, signedArea2 (v k) (v (k + 1)) p < 0) ∨ signedArea2 (v m) (v 0) p < 0)) ∨
    (ringWinding v m p = 1 ∧
      ∀ l x y : ℝ, (∀ i ≤ m, 0 ≤ l + x * (v i).1 + y * (v i).2) → 0 ≤ l + x * p.1 + y * p.2) := by
  induction m with
  | zero =>
    left
    exact ⟨by simp [ringWinding, crosses_flat], .inl rfl⟩
  | succ m ih =>
    have ih := ih (fun i j k hij hjk hk => h i j k hij hjk (by omega)) (fun i hi j hj => hp i (by omega) j (by omega))
    rw [ringWinding_succ]
    rcases Nat.eq_zero_or_pos m with rfl | hm
    · left
      have h1 := crosses_swap (v 0, v 1) p
      rw [Prod.swap_prod_mk] at h1
      refine ⟨by simp [ringWinding, triWinding, crosses_flat, h1], .inr ?_⟩
      have e : signedArea2 (v 1) (v 0) p = - signedArea2 (v 0) (v 1) p := by simp only [signedArea2]; ring
      rcases lt_or_gt_of_ne (hp 0 (by omega) 1 (by omega) (by omega)) with g | g
      · exact .inl ⟨0, by omega, g⟩
      · exact .inr (by rw [zero_add, e]; linarith)
    · rcases triWinding_eq (h 0 m (m + 1) hm (by omega) le_rfl) (hp 0 (by omega) m (by omega) (by omega))
        (hp m (by omega) (m + 1) le_rfl (by omega)) (hp (m + 1) le_rfl 0 (by omega) (by omega)) with ⟨g1, g2, g3, g4⟩ | ⟨g0, g4⟩
      · right
        have h0 : ringWinding v m p = 0 := by
          refine (ih.resolve_right fun ⟨_, hall⟩ => ?_).1
          -- all earlier points are to the left of the diagonal, the point is to the right of it
          have e : ∀ q : ℝ × ℝ, -(signedArea2 (v 0) (v m) (0, 0)) + ((v m).2 - (v 0).2) * q.1 + -((v m).1 - (v 0).1) * q.2
              = -signedArea2 (v 0) (v m) q := fun q => by simp only [signedArea2]; ring
          have := hall (-(signedArea2 (v 0) (v m) (0, 0))) ((v m).2 - (v 0).2) (-((v m).1 - (v 0).1)) ?_
          · rw [e] at this
            linarith
          · intro i hi
            rw [e]
            rcases Nat.eq_zero_or_pos i with rfl | h0
            · simp only [signedArea2]; linarith
            rcases hi.eq_or_lt with rfl | hlt
            · simp only [signedArea2]; linarith
            have := h 0 i m h0 hlt (by omega)
            simp only [signedArea2] at this ⊢
            linarith
        rw [h0, g4]
        refine ⟨by norm_num, fun l x y hl => tri_side l x y g1 g2 g3 (hl 0 (by omega)) (hl m (by omega)) (hl (m + 1) le_rfl)⟩
      · rw [g4, add_zero]
        rcases ih with ⟨h0, hside⟩ | ⟨h0, hall⟩
        · refine .inl ⟨h0, .inr ?_⟩
          rcases hside with hz | ⟨k, hk, hs⟩ | hs
          · omega
          · exact .inl ⟨k, by omega, hs⟩
          · have e : signedArea2 (v m) (v 0) p = - signedArea2 (v 0) (v m) p := by simp only [signedArea2]; ring
            rcases lt_or_gt_of_ne (hp m (by omega) (m + 1) le_rfl (by omega)) with g | g
            · exact .inl ⟨m, by omega, g⟩
            · rcases lt_or_gt_of_ne (hp (m + 1) le_rfl 0 (by omega) (by omega)) with g' | g'
              · exact .inr g'
              · exact absurd ⟨by linarith, g, g'⟩ g0
        · exact .inr ⟨h0, fun l x y hl => hall l x y fun i hi => hl i (by omega)⟩

theorem closedEdges_map (v : ℕ → ℝ × ℝ) (m : ℕ) :
    closedEdges ((List.range (m + 1)).map v) = (List.range m).map (fun k => (v k, v (k + 1))) ++ [(v m, v 0)] := by
  rw [← ringEdges_closed, List.range_succ_eq_map]
  simp only [List.map_cons, ringEdges, List.map_map]
  apply List.ext_getElem
  · simp
  · intro i h1 h2
    simp only [List.length_append, List.length_map, List.length_range, List.length_singleton] at h2
    rw [List.getElem_zip]
    rcases Nat.lt_succ_iff_lt_or_eq.1 h2 with hi | hi
    · rw [List.getElem_append_left (by simpa using hi), List.getElem_append_left (by simpa using hi)]
      cases i with
      | zero => simp
      | succ i => simp
    · subst hi
      rw [List.getElem_append_right (by simp), List.getElem_append_right (by simp)]
      cases i with
      | zero => simp
      | succ i => simp

theorem closedEdges_range (v : ℕ → ℝ × ℝ) (m : ℕ) (p : ℝ × ℝ) :
    winding (closedEdges ((List.range (m + 1)).map v)) p = ringWinding v m p := by
  rw [closedEdges_map, winding, ringWinding]
  have hsum : ∀ (f : ℕ → ℤ) (n : ℕ), ((List.range n).map f).sum = ∑ k ∈ Finset.range n, f k := by
    intro f n
    induction n with
    | zero => simp
    | succ n ih => rw [List.range_succ, List.map_append, List.sum_append, ih, Finset.sum_range_succ]; simp
  rw [List.map_append, List.sum_append, List.map_map, ← hsum]
  simp [Function.comp_def]

/-- Sums over the edges of a closed sequence of points. -/
theorem edgeSum_range (v : ℕ → ℝ × ℝ) {n : ℕ} (hn : n ≠ 0) (hv : v n = v 0) (f : ℝ × ℝ → ℝ × ℝ → ℝ) :
    edgeSum (closedEdges ((List.range n).map v)) f = ∑ k ∈ Finset.range n, f (v k) (v (k + 1)) := by
  obtain ⟨m, rfl⟩ := Nat.exists_eq_succ_of_ne_zero hn
  have hsum : ∀ (f : ℕ → ℝ) (n : ℕ), ((List.range n).map f).sum = ∑ k ∈ Finset.range n, f k := by
    intro f n
    induction n with
    | zero => simp
    | succ n ih => rw [List.range_succ, List.map_append, List.sum_append, ih, Finset.sum_range_succ]; simp
  rw [Nat.succ_eq_add_one] at *
  rw [closedEdges_map, edgeSum, List.map_append, List.sum_append, List.map_map, Finset.sum_range_succ, ← hsum, hv]
  simp [Function.comp_def]

theorem convex_generic {m : ℕ} (h : ConvexRing v m) (hm : 2 ≤ m) :
    ∀ᵐ p, ∀ i ≤ m, ∀ j ≤ m, i ≠ j → signedArea2 (v i) (v j) p ≠ 0 := by
  have hne : ∀ i ≤ m, ∀ j ≤ m, i < j → v i ≠ v j := by
    intro i hi j hj hij he
    by_cases h1 : j < m
    · have := h i j m hij h1 le_rfl
      rw [he] at this
      simp [signedArea2] at this
    · by_cases h0 : 0 < i
      · have := h 0 i j h0 hij hj
        rw [he] at this
        simp only [signedArea2] at this
        linarith
      · have := h i (i + 1) j (by omega) (by omega) hj
        rw [he] at this
        simp only [signedArea2] at this
        linarith
  rw [ae_all_iff]; intro i
  rw [Filter.eventually_imp_distrib_left]; intro hi
  rw [ae_all_iff]; intro j
  rw [Filter.eventually_imp_distrib_left]; intro hj
  rw [Filter.eventually_imp_distrib_left]; intro hij
  have hv : v i ≠ v j := by
    rcases lt_or_gt_of_ne hij with h1 | h1
    · exact hne i hi j hj h1
    · exact (hne j hj i hi h1).symm
  have := signedArea_null hv
  rw [measure_eq_zero_iff_ae_notMem] at this
  exact this

/-- A ring in convex position goes once round its points. -/
theorem convex_simple {m : ℕ} (h : ConvexRing v m) (hm : 2 ≤ m) :
    ∀ᵐ p, winding (closedEdges ((List.range (m + 1)).map v)) p = 0 ∨ winding (closedEdges ((List.range (m + 1)).map v)) p = 1 := by
  filter_upwards [convex_generic h hm] with p hp
  rw [closedEdges_range]
  exact (convex_winding h hp).imp (fun h => h.1) fun h => h.1

end SP
