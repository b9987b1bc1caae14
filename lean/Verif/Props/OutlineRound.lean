import Verif.Lemmas.Convex
import Verif.Props.OutlineGeometry
import Verif.Props.Circle

/-!
# C89: round sections
-/

namespace SP

open Spec MeasureTheory Set

/-- The sum of the cosines of equally spaced angles that go round a full number of times. -/
theorem sum_cos_zero (a α : ℝ) {n : ℕ} (m : ℕ) (hα : n * α = m * (2 * Real.pi)) (hs : Real.sin (α / 2) ≠ 0) :
    ∑ k ∈ Finset.range n, Real.cos (a + k * α) = 0 := by
  have ht : ∀ j : ℕ, 2 * Real.sin (α / 2) * ∑ k ∈ Finset.range j, Real.cos (a + k * α)
      = Real.sin (a + j * α - α / 2) - Real.sin (a - α / 2) := by
    intro j
    induction j with
    | zero => simp
    | succ j ih =>
      rw [Finset.sum_range_succ, mul_add, ih]
      have e1 : a + ((j + 1 : ℕ) : ℝ) * α - α / 2 = (a + j * α) + α / 2 := by push_cast; ring
      rw [e1, Real.sin_add, Real.sin_sub (a + j * α)]
      ring
  have h := ht n
  rw [hα, show a + (m : ℝ) * (2 * Real.pi) - α / 2 = a - α / 2 + m * (2 * Real.pi) by ring, Real.sin_add_nat_mul_two_pi, sub_self] at h
  rcases mul_eq_zero.1 h with h0 | h0
  · exact absurd h0 (mul_ne_zero two_ne_zero hs)
  · exact h0

theorem sum_sin_zero (a α : ℝ) {n : ℕ} (m : ℕ) (hα : n * α = m * (2 * Real.pi)) (hs : Real.sin (α / 2) ≠ 0) :
    ∑ k ∈ Finset.range n, Real.sin (a + k * α) = 0 := by
  have := sum_cos_zero (a - Real.pi / 2) α m hα hs
  rw [← this]
  refine Finset.sum_congr rfl fun k _ => ?_
  rw [show a - Real.pi / 2 + k * α = a + k * α - Real.pi / 2 by ring, Real.cos_sub_pi_div_two]

theorem sin_pi_pos {n : ℕ} (hn : 3 ≤ n) {j : ℕ} (h0 : 0 < j) (hj : j < n) : 0 < Real.sin (Real.pi * j / n) := by
  have hn' : (0 : ℝ) < n := by exact_mod_cast (by omega : 0 < n)
  have h0' : (0 : ℝ) < j := by exact_mod_cast h0
  have hj' : (j : ℝ) < n := by exact_mod_cast hj
  refine Real.sin_pos_of_pos_of_lt_pi (by have := Real.pi_pos; positivity) ?_
  rw [div_lt_iff₀ hn']
  exact mul_lt_mul_of_pos_left hj' Real.pi_pos

theorem ellipse_convex {dx dy : ℝ} (hx : 0 < dx) (hy : 0 < dy) {n : ℕ} (hn : 3 ≤ n) : ConvexRing (ellipsePt dx dy n) (n - 1) := by
  intro i j k hij hjk hk
  have hn' : (n : ℝ) ≠ 0 := by exact_mod_cast (by omega : n ≠ 0)
  have key : ∀ x y : ℝ, Real.sin (2 * x) + Real.sin (2 * y) - Real.sin (2 * x + 2 * y) = 4 * Real.sin x * Real.sin y * Real.sin (x + y) := by
    intro x y
    rw [Real.sin_add (2 * x), Real.sin_add x, Real.sin_two_mul, Real.sin_two_mul, Real.cos_two_mul', Real.cos_two_mul']
    have h1 := Real.sin_sq_add_cos_sq x
    have h2 := Real.sin_sq_add_cos_sq y
    linear_combination (-2 * Real.sin y * Real.cos y) * h1 + (-2 * Real.sin x * Real.cos x) * h2
  have p1 := sin_pi_pos hn (j := j - i) (by omega) (by omega)
  have p2 := sin_pi_pos hn (j := k - j) (by omega) (by omega)
  have p3 := sin_pi_pos hn (j := k - i) (by omega) (by omega)
  rw [Nat.cast_sub hij.le] at p1
  rw [Nat.cast_sub hjk.le] at p2
  rw [Nat.cast_sub (hij.trans hjk).le] at p3
  have e : signedArea2 (ellipsePt dx dy n i) (ellipsePt dx dy n j) (ellipsePt dx dy n k)
      = dx / 2 * (dy / 2) * (4 * Real.sin (Real.pi * (j - i) / n) * Real.sin (Real.pi * (k - j) / n) * Real.sin (Real.pi * (k - i) / n)) := by
    have := key (Real.pi * (j - i) / n) (Real.pi * (k - j) / n)
    rw [show Real.pi * ((j : ℝ) - i) / n + Real.pi * (k - j) / n = Real.pi * (k - i) / n by ring] at this
    rw [← this, show 2 * (Real.pi * ((j : ℝ) - i) / n) = 2 * Real.pi * j / n - 2 * Real.pi * i / n by ring,
      show 2 * (Real.pi * ((k : ℝ) - j) / n) = 2 * Real.pi * k / n - 2 * Real.pi * j / n by ring,
      show 2 * Real.pi * j / n - 2 * Real.pi * i / n + (2 * Real.pi * k / n - 2 * Real.pi * j / n)
        = 2 * Real.pi * (k : ℝ) / n - 2 * Real.pi * i / n by ring]
    simp only [Real.sin_sub, signedArea2, ellipsePt]
    ring
  rw [e]
  positivity

theorem ellipse_simple {dx dy : ℝ} (hx : 0 < dx) (hy : 0 < dy) {n : ℕ} (hn : 3 ≤ n) :
    ∀ᵐ p, winding (closedEdges (ellipsePts dx dy n)) p = 0 ∨ winding (closedEdges (ellipsePts dx dy n)) p = 1 := by
  have := convex_simple (ellipse_convex hx hy hn) (by omega)
  rw [ellipsePts_eq]
  rwa [Nat.sub_add_cancel (by omega)] at this

theorem ellipse_sums (dx dy : ℝ) {n : ℕ} (hn : 3 ≤ n) :
    outlineArea (closedEdges (ellipsePts dx dy n)) = n * (dx / 2) * (dy / 2) * Real.sin (2 * Real.pi / n) / 2 ∧
    outlineQx (closedEdges (ellipsePts dx dy n)) = 0 ∧ outlineQy (closedEdges (ellipsePts dx dy n)) = 0 ∧
    outlineIxx (closedEdges (ellipsePts dx dy n))
      = n * (dx / 2) * (dy / 2) ^ 3 * Real.sin (2 * Real.pi / n) * (2 + Real.cos (2 * Real.pi / n)) / 24 ∧
    outlineIyy (closedEdges (ellipsePts dx dy n))
      = n * (dx / 2) ^ 3 * (dy / 2) * Real.sin (2 * Real.pi / n) * (2 + Real.cos (2 * Real.pi / n)) / 24 ∧
    outlineIxy (closedEdges (ellipsePts dx dy n)) = 0 := by
  have hn0 : n ≠ 0 := by omega
  have hn' : (n : ℝ) ≠ 0 := by exact_mod_cast hn0
  have hwrap : ellipsePt dx dy n n = ellipsePt dx dy n 0 := by
    rw [ellipsePt, ellipsePt, mul_div_assoc, div_self hn']; simp
  set α := 2 * Real.pi / n with hα
  have hpt : ∀ k : ℕ, ellipsePt dx dy n k = (dx / 2 * Real.cos (k * α), dy / 2 * Real.sin (k * α)) := fun k => by
    rw [ellipsePt, show 2 * Real.pi * (k : ℝ) / n = k * α by rw [hα]; ring]
  have hcr : ∀ k : ℕ, cross (ellipsePt dx dy n k) (ellipsePt dx dy n (k + 1)) = dx / 2 * (dy / 2) * Real.sin α := fun k => by
    rw [hpt, hpt, cross, show α = ((k + 1 : ℕ) : ℝ) * α - k * α by push_cast; ring, Real.sin_sub]
    push_cast
    simp only [show ((k : ℝ) + 1) * ((k + 1) * α - k * α) = (k + 1) * α by ring, show (k : ℝ) * ((k + 1) * α - k * α) = k * α by ring]
    ring
  have s1 : Real.sin (α / 2) ≠ 0 := by
    have := sin_pi_pos hn (j := 1) (by omega) (by omega)
    rw [hα, show 2 * Real.pi / n / 2 = Real.pi * ((1 : ℕ) : ℝ) / n by push_cast; ring]
    exact this.ne'
  have s2 : Real.sin (2 * α / 2) ≠ 0 := by
    have := sin_pi_pos hn (j := 2) (by omega) (by omega)
    rw [hα, show 2 * (2 * Real.pi / n) / 2 = Real.pi * ((2 : ℕ) : ℝ) / n by push_cast; ring]
    exact this.ne'
  have m1 : (n : ℝ) * α = (1 : ℕ) * (2 * Real.pi) := by rw [hα]; push_cast; field_simp
  have m2 : (n : ℝ) * (2 * α) = (2 : ℕ) * (2 * Real.pi) := by rw [hα]; push_cast; field_simp
  have c0 : ∀ a, ∑ k ∈ Finset.range n, Real.cos (a + k * α) = 0 := fun a => sum_cos_zero a α 1 m1 s1
  have d0 : ∀ a, ∑ k ∈ Finset.range n, Real.sin (a + k * α) = 0 := fun a => sum_sin_zero a α 1 m1 s1
  have c2 : ∀ a, ∑ k ∈ Finset.range n, Real.cos (a + k * (2 * α)) = 0 := fun a => sum_cos_zero a (2 * α) 2 m2 s2
  have d2 : ∀ a, ∑ k ∈ Finset.range n, Real.sin (a + k * (2 * α)) = 0 := fun a => sum_sin_zero a (2 * α) 2 m2 s2
  have hsum := fun f => edgeSum_range (ellipsePt dx dy n) hn0 hwrap f
  rw [ellipsePts_eq]
  refine ⟨?_, ?_, ?_, ?_, ?_, ?_⟩
  · rw [outlineArea, hsum]
    simp only [hcr, Finset.sum_const, Finset.card_range, nsmul_eq_mul]
    ring
  · rw [outlineQx, hsum]
    simp only [hcr]
    simp only [hpt]
    have : ∀ k ∈ Finset.range n, dx / 2 * (dy / 2) * Real.sin α * (dy / 2 * Real.sin (k * α) + dy / 2 * Real.sin (((k + 1 : ℕ) : ℝ) * α)) / 6
        = dx / 2 * (dy / 2) ^ 2 * Real.sin α / 6 * Real.sin (0 + k * α) + dx / 2 * (dy / 2) ^ 2 * Real.sin α / 6 * Real.sin (α + k * α) := by
      intro k _
      rw [zero_add, show ((k + 1 : ℕ) : ℝ) * α = α + k * α by push_cast; ring]; ring
    rw [Finset.sum_congr rfl this, Finset.sum_add_distrib, ← Finset.mul_sum, ← Finset.mul_sum, d0, d0]
    ring
  · rw [outlineQy, hsum]
    simp only [hcr]
    simp only [hpt]
    have : ∀ k ∈ Finset.range n, dx / 2 * (dy / 2) * Real.sin α * (dx / 2 * Real.cos (k * α) + dx / 2 * Real.cos (((k + 1 : ℕ) : ℝ) * α)) / 6
        = (dx / 2) ^ 2 * (dy / 2) * Real.sin α / 6 * Real.cos (0 + k * α) + (dx / 2) ^ 2 * (dy / 2) * Real.sin α / 6 * Real.cos (α + k * α) := by
      intro k _
      rw [zero_add, show ((k + 1 : ℕ) : ℝ) * α = α + k * α by push_cast; ring]; ring
    rw [Finset.sum_congr rfl this, Finset.sum_add_distrib, ← Finset.mul_sum, ← Finset.mul_sum, c0, c0]
    ring
  · rw [outlineIxx, hsum]
    simp only [hcr]
    simp only [hpt]
    have : ∀ k ∈ Finset.range n, dx / 2 * (dy / 2) * Real.sin α * ((dy / 2 * Real.sin (k * α)) ^ 2
          + dy / 2 * Real.sin (k * α) * (dy / 2 * Real.sin (((k + 1 : ℕ) : ℝ) * α)) + (dy / 2 * Real.sin (((k + 1 : ℕ) : ℝ) * α)) ^ 2) / 12
        = dx / 2 * (dy / 2) ^ 3 * Real.sin α / 24 * (2 + Real.cos α)
          + dx / 2 * (dy / 2) ^ 3 * Real.sin α / 24 * (-Real.cos (0 + k * (2 * α)) - Real.cos (α + k * (2 * α)) - Real.cos (2 * α + k * (2 * α))) := by
      intro k _
      have e1 : Real.cos (0 + k * (2 * α)) = 1 - 2 * Real.sin (k * α) ^ 2 := by
        rw [zero_add, show (k : ℝ) * (2 * α) = 2 * (k * α) by ring, Real.cos_two_mul, Real.cos_sq']; ring
      have e2 : Real.cos (2 * α + k * (2 * α)) = 1 - 2 * Real.sin (((k + 1 : ℕ) : ℝ) * α) ^ 2 := by
        rw [show 2 * α + (k : ℝ) * (2 * α) = 2 * (((k + 1 : ℕ) : ℝ) * α) by push_cast; ring, Real.cos_two_mul, Real.cos_sq']; ring
      have e3 : Real.cos (α + k * (2 * α)) = Real.cos α - 2 * Real.sin (k * α) * Real.sin (((k + 1 : ℕ) : ℝ) * α) := by
        have h1 : Real.cos α = Real.cos (((k + 1 : ℕ) : ℝ) * α - k * α) := by congr 1; push_cast; ring
        have h2 : α + k * (2 * α) = ((k + 1 : ℕ) : ℝ) * α + k * α := by push_cast; ring
        rw [h2, Real.cos_add]
        rw [h1, Real.cos_sub]
        ring
      rw [e1, e2, e3]
      ring
    rw [Finset.sum_congr rfl this, Finset.sum_add_distrib, Finset.sum_const, ← Finset.mul_sum, Finset.sum_sub_distrib,
      Finset.sum_sub_distrib, Finset.sum_neg_distrib, c2, c2, c2, Finset.card_range, nsmul_eq_mul]
    ring
  · rw [outlineIyy, hsum]
    simp only [hcr]
    simp only [hpt]
    have : ∀ k ∈ Finset.range n, dx / 2 * (dy / 2) * Real.sin α * ((dx / 2 * Real.cos (k * α)) ^ 2
          + dx / 2 * Real.cos (k * α) * (dx / 2 * Real.cos (((k + 1 : ℕ) : ℝ) * α)) + (dx / 2 * Real.cos (((k + 1 : ℕ) : ℝ) * α)) ^ 2) / 12
        = (dx / 2) ^ 3 * (dy / 2) * Real.sin α / 24 * (2 + Real.cos α)
          + (dx / 2) ^ 3 * (dy / 2) * Real.sin α / 24 * (Real.cos (0 + k * (2 * α)) + Real.cos (α + k * (2 * α)) + Real.cos (2 * α + k * (2 * α))) := by
      intro k _
      have e1 : Real.cos (0 + k * (2 * α)) = 2 * Real.cos (k * α) ^ 2 - 1 := by
        rw [zero_add, show (k : ℝ) * (2 * α) = 2 * (k * α) by ring, Real.cos_two_mul]
      have e2 : Real.cos (2 * α + k * (2 * α)) = 2 * Real.cos (((k + 1 : ℕ) : ℝ) * α) ^ 2 - 1 := by
        rw [show 2 * α + (k : ℝ) * (2 * α) = 2 * (((k + 1 : ℕ) : ℝ) * α) by push_cast; ring, Real.cos_two_mul]
      have e3 : Real.cos (α + k * (2 * α)) = 2 * Real.cos (k * α) * Real.cos (((k + 1 : ℕ) : ℝ) * α) - Real.cos α := by
        have h1 : Real.cos α = Real.cos (((k + 1 : ℕ) : ℝ) * α - k * α) := by congr 1; push_cast; ring
        have h2 : α + k * (2 * α) = ((k + 1 : ℕ) : ℝ) * α + k * α := by push_cast; ring
        rw [h2, Real.cos_add]
        rw [h1, Real.cos_sub]
        ring
      rw [e1, e2, e3]
      ring
    rw [Finset.sum_congr rfl this, Finset.sum_add_distrib, Finset.sum_const, ← Finset.mul_sum, Finset.sum_add_distrib,
      Finset.sum_add_distrib, c2, c2, c2, Finset.card_range, nsmul_eq_mul]
    ring
  · rw [outlineIxy, hsum]
    simp only [hcr]
    simp only [hpt]
    have : ∀ k ∈ Finset.range n, dx / 2 * (dy / 2) * Real.sin α * (dx / 2 * Real.cos (k * α) * (dy / 2 * Real.sin (((k + 1 : ℕ) : ℝ) * α))
          + 2 * (dx / 2 * Real.cos (k * α)) * (dy / 2 * Real.sin (k * α))
          + 2 * (dx / 2 * Real.cos (((k + 1 : ℕ) : ℝ) * α)) * (dy / 2 * Real.sin (((k + 1 : ℕ) : ℝ) * α))
          + dx / 2 * Real.cos (((k + 1 : ℕ) : ℝ) * α) * (dy / 2 * Real.sin (k * α))) / 24
        = (dx / 2) ^ 2 * (dy / 2) ^ 2 * Real.sin α / 24
          * (Real.sin (0 + k * (2 * α)) + Real.sin (α + k * (2 * α)) + Real.sin (2 * α + k * (2 * α))) := by
      intro k _
      have e1 : Real.sin (0 + k * (2 * α)) = 2 * Real.sin (k * α) * Real.cos (k * α) := by
        rw [zero_add, show (k : ℝ) * (2 * α) = 2 * (k * α) by ring, Real.sin_two_mul]
      have e2 : Real.sin (2 * α + k * (2 * α)) = 2 * Real.sin (((k + 1 : ℕ) : ℝ) * α) * Real.cos (((k + 1 : ℕ) : ℝ) * α) := by
        rw [show 2 * α + (k : ℝ) * (2 * α) = 2 * (((k + 1 : ℕ) : ℝ) * α) by push_cast; ring, Real.sin_two_mul]
      have e3 : Real.sin (α + k * (2 * α)) = Real.sin (((k + 1 : ℕ) : ℝ) * α) * Real.cos (k * α) + Real.cos (((k + 1 : ℕ) : ℝ) * α) * Real.sin (k * α) := by
        rw [← Real.sin_add]
        congr 1; push_cast; ring
      rw [e1, e2, e3]
      ring
    rw [Finset.sum_congr rfl this, ← Finset.mul_sum, Finset.sum_add_distrib, Finset.sum_add_distrib, d2, d2, d2]
    ring

theorem ellipse_ring_pos {dx dy : ℝ} (hx : 0 < dx) (hy : 0 < dy) {n : ℕ} (hn : 3 ≤ n) : 0 < ringArea2 (ellipsePts dx dy n) := by
  have := sin_pos_n hn
  have hn' : (0 : ℝ) < n := by exact_mod_cast (by omega : 0 < n)
  rw [ringArea2_outline, (ellipse_sums dx dy hn).1]
  positivity

theorem ellipse_valid {dx dy : ℝ} (hx : 0 < dx) (hy : 0 < dy) {n : ℕ} (hn : 3 ≤ n) : ValidPoly ⟨ellipsePts dx dy n, []⟩ where
  exterior := ⟨1, by
    filter_upwards [ellipse_simple hx hy hn] with p hp
    exact hp.imp_right fun h => ⟨h, by norm_num⟩⟩
  interiors := by simp
  within := by simp
  apart := by simp

/-- The inner ring of a circular hollow section lies within the outer one. -/
theorem circle_within {d i : ℝ} (hi : 0 < i) (hd : i < d) {n : ℕ} (hn : 3 ≤ n) :
    ∀ᵐ q, winding (closedEdges (ellipsePts i i n)) q ≠ 0 → winding (closedEdges (ellipsePts d d n)) q ≠ 0 := by
  have hd0 : 0 < d := hi.trans hd
  obtain ⟨m, rfl⟩ : ∃ m, n = m + 1 := ⟨n - 1, by omega⟩
  have c1 := ellipse_convex hi hi hn
  have c2 := ellipse_convex hd0 hd0 hn
  rw [Nat.add_sub_cancel] at c1 c2
  filter_upwards [convex_generic c1 (by omega), convex_generic c2 (by omega)] with q g1 g2
  rw [ellipsePts_eq, ellipsePts_eq, closedEdges_range, closedEdges_range]
  intro h
  have hin := (convex_winding c1 g1).resolve_left fun hz => h hz.1
  rcases convex_winding c2 g2 with ⟨-, hs⟩ | ⟨hw, -⟩
  · exfalso
    -- the left of an outer edge contains the inner vertices
    have side : ∀ j k : ℕ, signedArea2 (ellipsePt d d (m + 1) j) (ellipsePt d d (m + 1) k) q < 0 →
        (∀ l ≤ m, 0 ≤ signedArea2 (ellipsePt d d (m + 1) j) (ellipsePt d d (m + 1) k) (ellipsePt d d (m + 1) l)) →
        0 ≤ signedArea2 (ellipsePt d d (m + 1) j) (ellipsePt d d (m + 1) k) (0, 0) → False := by
      intro j k hneg hall h0
      generalize ellipsePt d d (m + 1) j = a at hneg hall h0
      generalize ellipsePt d d (m + 1) k = b at hneg hall h0
      have e : ∀ q : ℝ × ℝ, signedArea2 a b (0, 0) + -(b.2 - a.2) * q.1 + (b.1 - a.1) * q.2 = signedArea2 a b q := fun q => by
        simp only [signedArea2]; ring
      have := hin.2 (signedArea2 a b (0, 0)) (-(b.2 - a.2)) (b.1 - a.1) fun l hl => by
        have hl := hall l hl
        have e2 : signedArea2 a b (0, 0) + -(b.2 - a.2) * (ellipsePt i i (m + 1) l).1 + (b.1 - a.1) * (ellipsePt i i (m + 1) l).2
            = i / d * signedArea2 a b (ellipsePt d d (m + 1) l) + (1 - i / d) * signedArea2 a b (0, 0) := by
          simp only [signedArea2, ellipsePt]
          field_simp
          ring
        rw [e2]
        have h1 : i / d ≤ 1 := by rw [div_le_one hd0]; exact hd.le
        have h2 : 0 ≤ i / d := by positivity
        have h3 : 0 ≤ 1 - i / d := by linarith
        positivity
      rw [e] at this
      linarith
    have hsin := sin_pos_n hn
    rcases hs with hz | ⟨k, hk, hs⟩ | hs
    · omega
    · refine side k (k + 1) hs (fun l hl => ?_) ?_
      · rcases lt_trichotomy l k with h1 | rfl | h1
        · have := c2 l k (k + 1) h1 (by omega) (by omega)
          simp only [signedArea2] at this ⊢
          linarith
        · simp only [signedArea2]; linarith
        · rcases Nat.eq_or_lt_of_le (Nat.succ_le_of_lt h1) with h2 | h2
          · rw [← h2]; simp only [signedArea2, Nat.succ_eq_add_one]; linarith
          · exact (c2 k (k + 1) l (by omega) h2 hl).le
      · have e : signedArea2 (ellipsePt d d (m + 1) k) (ellipsePt d d (m + 1) (k + 1)) (0, 0)
            = d / 2 * (d / 2) * Real.sin (2 * Real.pi / (m + 1 : ℕ)) := by
          rw [show 2 * Real.pi / ((m + 1 : ℕ) : ℝ) = 2 * Real.pi * ((k + 1 : ℕ) : ℝ) / (m + 1 : ℕ) - 2 * Real.pi * k / (m + 1 : ℕ) by
            push_cast; ring, Real.sin_sub]
          simp only [signedArea2, ellipsePt]
          ring
        rw [e]
        positivity
    · refine side m 0 hs (fun l hl => ?_) ?_
      · rcases Nat.eq_zero_or_pos l with rfl | h1
        · simp only [signedArea2]; linarith
        rcases Nat.eq_or_lt_of_le hl with rfl | h2
        · simp only [signedArea2]; linarith
        have := c2 0 l m h1 h2 le_rfl
        simp only [signedArea2] at this ⊢
        linarith
      · have hm : ((m : ℝ) + 1) ≠ 0 := by positivity
        have e : signedArea2 (ellipsePt d d (m + 1) m) (ellipsePt d d (m + 1) 0) (0, 0)
            = d / 2 * (d / 2) * Real.sin (2 * Real.pi / (m + 1 : ℕ)) := by
          have h1 : Real.sin (2 * Real.pi / (m + 1 : ℕ)) = - Real.sin (2 * Real.pi * m / (m + 1 : ℕ)) := by
            rw [← Real.sin_neg, ← Real.sin_add_two_pi (-(2 * Real.pi * m / (m + 1 : ℕ)))]
            congr 1
            push_cast
            field_simp
            ring
          rw [h1]
          simp only [signedArea2, ellipsePt]
          simp
          ring
        rw [e]
        positivity
  · rw [hw]; exact one_ne_zero

theorem hollow_valid {d i : ℝ} (hi : 0 < i) (hd : i < d) {n : ℕ} (hn : 3 ≤ n) : ValidPoly ⟨ellipsePts d d n, [ellipsePts i i n]⟩ where
  exterior := (ellipse_valid (hi.trans hd) (hi.trans hd) hn).exterior
  interiors := by
    intro r hr
    rw [List.mem_singleton] at hr
    rw [hr]
    exact (ellipse_valid hi hi hn).exterior
  within := by
    filter_upwards [circle_within hi hd hn] with q hq
    rintro ⟨r, hr, hw⟩
    rw [List.mem_singleton] at hr
    rw [hr] at hw
    exact hq hw
  apart := by simp

open Classical in
theorem poly_zones {n : ℕ} {els : List (Tri6 n)} {p : Poly} (h : ValidPoly p) (hreg : region els =ᵐ[volume] polyRegion p) :
    Zones els {()} fun _ => polyEdges p where
  closed := fun _ _ => closed_poly p
  once := by
    filter_upwards [winding_poly h] with q hq _ _
    rw [hq]
    split_ifs <;> simp
  apart := by simp
  covers := by
    filter_upwards [winding_poly h, hreg.mem_iff] with q hq hc
    rw [hc, hq]
    by_cases hm : q ∈ polyRegion p
    · simp [hm]
    · simp [hm]

theorem uniform_zones {n : ℕ} {els : List (Tri6 n)} {Z : Unit → List DirEdge} {e : ℝ} (h : ∀ t ∈ els, t.material.elasticModulus = e) :
    InZones els {()} Z Material.elasticModulus fun _ => e := fun t ht _ _ => Filter.Eventually.of_forall fun _ _ _ => h t ht

variable {s : Section} {r : GeomResults} {e : ℝ}

/-- The results for a polygon whose first moments and product moment vanish. -/
theorem centred_poly (hr : s.geometricAnalysis = .ok r) (h : Physical s.elements) (hno : NoOverlap s.elements)
    (hE : ∀ t ∈ s.elements, t.material.elasticModulus = e) {p : Poly} (hv : ValidPoly p)
    (hreg : region s.elements =ᵐ[volume] polyRegion p) (hx : outlineQx (polyEdges p) = 0) (hy : outlineQy (polyEdges p) = 0)
    (hxy : outlineIxy (polyEdges p) = 0) :
    r.sums.area = outlineArea (polyEdges p) ∧ r.cx = 0 ∧ r.cy = 0 ∧ r.cent.ixxC = e * outlineIxx (polyEdges p) ∧
    r.cent.iyyC = e * outlineIyy (polyEdges p) ∧ r.cent.ixyC = 0 := by
  have hZ := poly_zones hv hreg
  obtain ⟨b1, -⟩ := C89_sums hr h.proper hno hZ (uniform_zones hE)
  obtain ⟨c1, c2, c3, c4, c5⟩ := C89_centroidal hr h hno hZ (uniform_zones hE)
  simp only [Finset.sum_singleton] at b1 c1 c2 c3 c4 c5
  rw [hy, mul_zero, zero_div] at c1
  rw [hx, mul_zero, zero_div] at c2
  rw [c1, c2] at c5
  rw [c2] at c3
  rw [c1] at c4
  refine ⟨b1, c1, c2, by rw [c3]; ring, by rw [c4]; ring, by rw [c5, hxy]; ring⟩

/-- **C89** A section whose mesh fills the `n`-sided polygon of `elliptical_section(d_x, d_y, n)` or, with `d_x = d_y`,
`circular_section(d, n)`. -/
theorem C89_ellipse (hr : s.geometricAnalysis = .ok r) (h : Physical s.elements) (hno : NoOverlap s.elements)
    (hE : ∀ t ∈ s.elements, t.material.elasticModulus = e) {dx dy : ℝ} (hx : 0 < dx) (hy : 0 < dy) {n : ℕ} (hn : 3 ≤ n)
    (hreg : region s.elements =ᵐ[volume] polyRegion ⟨ellipsePts dx dy n, []⟩) :
    r.sums.area = n * Real.sin (2 * Real.pi / n) / 2 * (dx / 2) * (dy / 2) ∧
    r.cx = 0 ∧ r.cy = 0 ∧
    r.cent.ixxC = e * (n * Real.sin (2 * Real.pi / n) * (2 + Real.cos (2 * Real.pi / n)) / 24 * (dx / 2) * (dy / 2) ^ 3) ∧
    r.cent.iyyC = e * (n * Real.sin (2 * Real.pi / n) * (2 + Real.cos (2 * Real.pi / n)) / 24 * (dx / 2) ^ 3 * (dy / 2)) ∧
    r.cent.ixyC = 0 := by
  have hp : polyEdges ⟨ellipsePts dx dy n, []⟩ = closedEdges (ellipsePts dx dy n) := by
    rw [polyEdges, sign_pos (ellipse_ring_pos hx hy hn)]
    simp [orient]
  obtain ⟨a1, a2, a3, a4, a5, a6⟩ := ellipse_sums dx dy hn
  obtain ⟨b1, b2, b3, b4, b5, b6⟩ := centred_poly hr h hno hE (ellipse_valid hx hy hn) hreg (by rw [hp, a2]) (by rw [hp, a3])
    (by rw [hp, a6])
  rw [hp] at b1 b4 b5
  exact ⟨by rw [b1, a1]; ring, b2, b3, by rw [b4, a4]; ring, by rw [b5, a5]; ring, b6⟩

/-- **C89** A section whose mesh fills the outline of `circular_hollow_section(d, t, n)`. -/
theorem C89_hollow (hr : s.geometricAnalysis = .ok r) (h : Physical s.elements) (hno : NoOverlap s.elements)
    (hE : ∀ t ∈ s.elements, t.material.elasticModulus = e) {d t : ℝ} (ht : 0 < t) (hd : 2 * t < d) {n : ℕ} (hn : 3 ≤ n)
    (hreg : region s.elements =ᵐ[volume] polyRegion ⟨ellipsePts d d n, [ellipsePts (2 * (d / 2 - t)) (2 * (d / 2 - t)) n]⟩) :
    r.sums.area = n * Real.sin (2 * Real.pi / n) / 2 * ((d / 2) ^ 2 - (d / 2 - t) ^ 2) ∧
    r.cx = 0 ∧ r.cy = 0 ∧
    r.cent.ixxC = e * (n * Real.sin (2 * Real.pi / n) * (2 + Real.cos (2 * Real.pi / n)) / 24 * ((d / 2) ^ 4 - (d / 2 - t) ^ 4)) ∧
    r.cent.iyyC = e * (n * Real.sin (2 * Real.pi / n) * (2 + Real.cos (2 * Real.pi / n)) / 24 * ((d / 2) ^ 4 - (d / 2 - t) ^ 4)) ∧
    r.cent.ixyC = 0 := by
  set i := 2 * (d / 2 - t) with hi
  have hi0 : 0 < i := by rw [hi]; linarith
  have hid : i < d := by rw [hi]; linarith
  have hp : polyEdges ⟨ellipsePts d d n, [ellipsePts i i n]⟩
      = closedEdges (ellipsePts d d n) ++ orient (-1) (closedEdges (ellipsePts i i n)) := by
    rw [polyEdges, sign_pos (ellipse_ring_pos (hi0.trans hid) (hi0.trans hid) hn)]
    simp only [orient, List.flatMap_cons, List.flatMap_nil, List.append_nil, sign_pos (ellipse_ring_pos hi0 hi0 hn)]
  obtain ⟨a1, a2, a3, a4, a5, a6⟩ := ellipse_sums d d hn
  obtain ⟨i1, i2, i3, i4, i5, i6⟩ := ellipse_sums i i hn
  have hs : ∀ f : ℝ × ℝ → ℝ × ℝ → ℝ, (∀ a b, f b a = - f a b) → edgeSum (polyEdges ⟨ellipsePts d d n, [ellipsePts i i n]⟩) f
      = edgeSum (closedEdges (ellipsePts d d n)) f - edgeSum (closedEdges (ellipsePts i i n)) f := by
    intro f hf
    rw [hp, edgeSum_append, edgeSum_orient _ _ hf]
    simp only [SignType.coe_neg_one]
    ring
  have hi2 : i / 2 = d / 2 - t := by rw [hi]; ring
  rw [hi2] at i1 i4 i5
  obtain ⟨b1, b2, b3, b4, b5, b6⟩ := centred_poly hr h hno hE (hollow_valid hi0 hid hn) hreg
    (by rw [outlineQx, hs _ fun a b => by simp only [cross]; ring]; rw [outlineQx] at a2 i2; rw [a2, i2, sub_zero])
    (by rw [outlineQy, hs _ fun a b => by simp only [cross]; ring]; rw [outlineQy] at a3 i3; rw [a3, i3, sub_zero])
    (by rw [outlineIxy, hs _ fun a b => by simp only [cross]; ring]; rw [outlineIxy] at a6 i6; rw [a6, i6, sub_zero])
  refine ⟨?_, b2, b3, ?_, ?_, b6⟩
  · rw [b1, outlineArea, hs _ fun a b => by simp only [cross]; ring]
    rw [outlineArea] at a1 i1
    rw [a1, i1]; ring
  · rw [b4, outlineIxx, hs _ fun a b => by simp only [cross]; ring]
    rw [outlineIxx] at a4 i4
    rw [a4, i4]; ring
  · rw [b5, outlineIyy, hs _ fun a b => by simp only [cross]; ring]
    rw [outlineIyy] at a5 i5
    rw [a5, i5]; ring

/-- **C89** The factors of the polygon are below those of the circle, `π` and `π / 4`, and tend to them with the number of points. -/
theorem C89_factors :
    (∀ n : ℕ, 3 ≤ n → n * Real.sin (2 * Real.pi / n) / 2 < Real.pi ∧
      n * Real.sin (2 * Real.pi / n) * (2 + Real.cos (2 * Real.pi / n)) / 24 < Real.pi / 4) ∧
    Filter.Tendsto (fun n : ℕ => n * Real.sin (2 * Real.pi / n) / 2) Filter.atTop (nhds Real.pi) ∧
    Filter.Tendsto (fun n : ℕ => n * Real.sin (2 * Real.pi / n) * (2 + Real.cos (2 * Real.pi / n)) / 24) Filter.atTop
      (nhds (Real.pi / 4)) := by
  have hpi := Real.pi_pos
  have key : Filter.Tendsto (fun n : ℕ => n * Real.sin (2 * Real.pi / n)) Filter.atTop (nhds (2 * Real.pi)) := by
    have hd : Filter.Tendsto (fun x : ℝ => Real.sin x / x) (nhdsWithin 0 {0}ᶜ) (nhds 1) := by
      have := (Real.hasDerivAt_sin 0).tendsto_slope
      rw [Real.cos_zero] at this
      refine this.congr fun x => ?_
      simp [slope_def_field]
    have hx : Filter.Tendsto (fun k : ℕ => 2 * Real.pi / (k : ℝ)) Filter.atTop (nhdsWithin 0 {0}ᶜ) := by
      refine tendsto_nhdsWithin_iff.2 ⟨tendsto_const_div_atTop_nhds_zero_nat _, ?_⟩
      filter_upwards [Filter.eventually_gt_atTop 0] with k hk
      have : (0 : ℝ) < k := by exact_mod_cast hk
      exact (show 2 * Real.pi / (k : ℝ) ≠ 0 by positivity)
    have h2 := (hd.comp hx).const_mul (2 * Real.pi)
    rw [mul_one] at h2
    refine h2.congr' ?_
    filter_upwards [Filter.eventually_gt_atTop 0] with k hk
    have : (0 : ℝ) < k := by exact_mod_cast hk
    simp only [Function.comp]
    field_simp
  have kc : Filter.Tendsto (fun n : ℕ => Real.cos (2 * Real.pi / n)) Filter.atTop (nhds 1) := by
    have := (Real.continuous_cos.tendsto 0).comp (tendsto_const_div_atTop_nhds_zero_nat (2 * Real.pi))
    rwa [Real.cos_zero] at this
  refine ⟨fun n hn => ?_, ?_, ?_⟩
  · have hn' : (0 : ℝ) < n := by exact_mod_cast (by omega : 0 < n)
    have h1 := Real.sin_lt (show 0 < 2 * Real.pi / n by positivity)
    rw [lt_div_iff₀ hn'] at h1
    have h2 := Real.cos_le_one (2 * Real.pi / n)
    have h3 := sin_pos_n hn
    refine ⟨by linarith, ?_⟩
    have h4 : n * Real.sin (2 * Real.pi / n) * (2 + Real.cos (2 * Real.pi / n)) ≤ n * Real.sin (2 * Real.pi / n) * 3 :=
      mul_le_mul_of_nonneg_left (by linarith) (by positivity)
    linarith
  · have := key.div_const 2
    rwa [show 2 * Real.pi / 2 = Real.pi by ring] at this
  · have := (key.mul (kc.const_add 2)).div_const 24
    rwa [show 2 * Real.pi * (2 + 1) / 24 = Real.pi / 4 by ring] at this

end SP
