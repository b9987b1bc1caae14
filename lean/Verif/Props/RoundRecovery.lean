import Verif.Props.Tubes
import Mathlib.Analysis.SpecialFunctions.Trigonometric.Bounds
import Mathlib.Analysis.Real.Pi.Bounds

/-!
# C76 continued: round sections with any number of points
-/

namespace SP

open Spec

theorem ellipse_vertex {d1 : ℝ} {n : ℕ} {v : Pt} (h : v ∈ ellipsePts (2 * d1) (2 * d1) n) :
    ∃ i < n, v = (d1 * Real.cos (2 * Real.pi * i / n), d1 * Real.sin (2 * Real.pi * i / n)) := by
  rw [ellipsePts, List.mem_map] at h
  obtain ⟨i, hi, rfl⟩ := h
  refine ⟨i, List.mem_range.1 hi, ?_⟩
  rw [show (i : ℝ) * 2 * Real.pi / n = 2 * Real.pi * i / n by ring]
  ext <;> simp only <;> ring

/-- **C76, ROD, TUBE and TUBE2, any number of points.** These sections have the (outer) outline `ellipsePts (2 d1) (2 d1) n`.  The four
recovery points lie on it exactly if the number of points is a multiple of four. -/
theorem round_iff {d1 : ℝ} {n : ℕ} (h1 : 0 < d1) (hn : 0 < n) :
    Recovers (ellipsePts (2 * d1) (2 * d1) n) (0, 0) (recoveryRod d1) ↔ 4 ∣ n := by
  constructor
  · rintro ⟨_, h⟩
    obtain ⟨P, Q, hE, a, b, ha, hb, hab, hq⟩ := h (0, d1) (by simp [recoveryRod])
    have hy : a * P.2 + b * Q.2 = d1 := by
      have := congrArg Prod.snd hq
      simpa using this
    have key : ∀ v ∈ ellipsePts (2 * d1) (2 * d1) n, v.2 ≤ d1 ∧ (v.2 = d1 → 4 ∣ n) := by
      intro v hv
      obtain ⟨i, hi, rfl⟩ := ellipse_vertex hv
      refine ⟨by simpa using mul_le_mul_of_nonneg_left (Real.sin_le_one _) h1.le, fun he => ?_⟩
      simp only at he
      have hs : Real.sin (2 * Real.pi * i / n) = 1 := by
        have : d1 * (Real.sin (2 * Real.pi * i / n) - 1) = 0 := by linarith
        rcases mul_eq_zero.1 this with h | h
        · exact absurd h h1.ne'
        · linarith
      obtain ⟨k, hk⟩ := Real.sin_eq_one_iff.1 hs
      have hn0 : (n : ℝ) ≠ 0 := by positivity
      have hpi := Real.pi_ne_zero
      have e : (n : ℝ) + 4 * k * n = 4 * i := by
        field_simp at hk
        linear_combination hk
      have e' : (n : ℤ) + 4 * k * n = 4 * i := by exact_mod_cast e
      have k0 : k = 0 := by
        have hi' : (i : ℤ) < n := by exact_mod_cast hi
        have hn' : (0 : ℤ) < n := by exact_mod_cast hn
        rcases lt_trichotomy k 0 with h | h | h
        · nlinarith
        · exact h
        · nlinarith
      subst k0
      exact ⟨i, by omega⟩
    have mem : P ∈ ellipsePts (2 * d1) (2 * d1) n ∧ Q ∈ ellipsePts (2 * d1) (2 * d1) n := by
      have := List.of_mem_zip hE
      exact ⟨this.1, List.mem_rotate.1 this.2⟩
    obtain ⟨p1, p2⟩ := key P mem.1
    obtain ⟨q1, q2⟩ := key Q mem.2
    rcases ha.eq_or_lt with rfl | ha
    · exact q2 (by have : b = 1 := by linarith
                   subst this; linarith)
    · refine p2 (le_antisymm p1 ?_)
      have : b * Q.2 ≤ b * d1 := mul_le_mul_of_nonneg_left q1 hb
      have e : b = 1 - a := by linarith
      subst e
      nlinarith
  · rintro ⟨k, rfl⟩
    obtain ⟨a, b, c, d⟩ := quarter_vertices (d1 := d1) (k := k) (by omega)
    exact recovers_of (on_vertex b (by simp) (by simp)) (on_vertex a (by simp) (by simp)) (on_vertex d (by simp) (by simp))
      (on_vertex c (by simp) (by simp))

/-- Every point of the circle is near a vertex. -/
theorem near_vertex {d1 : ℝ} {n : ℕ} (hn : 0 < n) (θ : ℝ) :
    ∃ v ∈ ellipsePts (2 * d1) (2 * d1) n, (v.1 - d1 * Real.cos θ) ^ 2 + (v.2 - d1 * Real.sin θ) ^ 2 ≤ (d1 * (Real.pi / n)) ^ 2 := by
  have hn0 : (0 : ℝ) < n := by exact_mod_cast hn
  have hpi := Real.pi_pos
  obtain ⟨j, hj⟩ : ∃ j : ℤ, |n * θ / (2 * Real.pi) - j| ≤ 1 / 2 := ⟨_, abs_sub_round _⟩
  obtain ⟨i, k, hi, hk⟩ : ∃ (i : ℕ) (k : ℤ), i < n ∧ j = i + n * k := by
    have h0 := Int.emod_nonneg j (show (n : ℤ) ≠ 0 by exact_mod_cast hn.ne')
    have h1 := Int.emod_lt_of_pos j (show (0 : ℤ) < n by exact_mod_cast hn)
    refine ⟨(j % n).toNat, j / n, by omega, ?_⟩
    rw [Int.toNat_of_nonneg h0]
    exact (Int.emod_add_mul_ediv j n).symm
  have hang : 2 * Real.pi * i / n = 2 * Real.pi * j / n - k * (2 * Real.pi) := by
    rw [hk]; push_cast; field_simp; ring
  refine ⟨(d1 * Real.cos (2 * Real.pi * i / n), d1 * Real.sin (2 * Real.pi * i / n)), ?_, ?_⟩
  · rw [ellipsePts, List.mem_map]
    refine ⟨i, List.mem_range.2 hi, ?_⟩
    rw [show (i : ℝ) * 2 * Real.pi / n = 2 * Real.pi * i / n by ring]
    ext <;> simp only <;> ring
  · rw [hang, Real.cos_sub_int_mul_two_pi, Real.sin_sub_int_mul_two_pi]
    set φ := 2 * Real.pi * j / n with hφ
    have hd : (φ - θ) ^ 2 ≤ (Real.pi / n) ^ 2 := by
      have e : φ - θ = -(n * θ / (2 * Real.pi) - j) * (2 * (Real.pi / n)) := by rw [hφ]; field_simp; ring
      rw [e, mul_pow, neg_sq, ← sq_abs (n * θ / (2 * Real.pi) - j)]
      have : |n * θ / (2 * Real.pi) - j| ^ 2 ≤ (1 / 2) ^ 2 := pow_le_pow_left₀ (abs_nonneg _) hj 2
      have h0 : (0 : ℝ) ≤ (2 * (Real.pi / n)) ^ 2 := sq_nonneg _
      calc _ ≤ (1 / 2) ^ 2 * (2 * (Real.pi / n)) ^ 2 := mul_le_mul_of_nonneg_right this h0
        _ = _ := by ring
    have hc := Real.one_sub_sq_div_two_le_cos (x := φ - θ)
    rw [Real.cos_sub] at hc
    have s1 := Real.sin_sq_add_cos_sq φ
    have s2 := Real.sin_sq_add_cos_sq θ
    simp only
    have e : (d1 * Real.cos φ - d1 * Real.cos θ) ^ 2 + (d1 * Real.sin φ - d1 * Real.sin θ) ^ 2
        = d1 ^ 2 * (2 - 2 * (Real.cos φ * Real.cos θ + Real.sin φ * Real.sin θ)) := by
      linear_combination d1 ^ 2 * s1 + d1 ^ 2 * s2
    rw [e, mul_pow]
    exact mul_le_mul_of_nonneg_left (by linarith) (sq_nonneg _)

/-- **C76, ROD, TUBE and TUBE2, any number of points.** Each recovery point is within `π d1 / n` of a vertex of the section. -/
theorem round_near {d1 : ℝ} {n : ℕ} (hn : 0 < n) :
    ∀ p ∈ recoveryRod d1, ∃ v ∈ ellipsePts (2 * d1) (2 * d1) n, (v.1 - p.1) ^ 2 + (v.2 - p.2) ^ 2 ≤ (d1 * (Real.pi / n)) ^ 2 := by
  have h0 := near_vertex (d1 := d1) hn 0
  have h1 := near_vertex (d1 := d1) hn (Real.pi / 2)
  have h2 := near_vertex (d1 := d1) hn Real.pi
  have h3 := near_vertex (d1 := d1) hn (-(Real.pi / 2))
  simp only [Real.cos_zero, Real.sin_zero, Real.cos_pi_div_two, Real.sin_pi_div_two, Real.cos_pi, Real.sin_pi, Real.cos_neg,
    Real.sin_neg, mul_one, mul_zero, mul_neg] at h0 h1 h2 h3
  intro p hp
  simp only [recoveryRod, List.mem_cons, List.not_mem_nil, or_false] at hp
  rcases hp with rfl | rfl | rfl | rfl
  exacts [h1, h0, h3, h2]

/-- The vertices of a circle are not all in one place. -/
theorem round_spread {d1 : ℝ} {n : ℕ} (h1 : 0 < d1) (hn : 3 ≤ n) : ∃ a ∈ ellipsePts (2 * d1) (2 * d1) n,
    ∃ c ∈ ellipsePts (2 * d1) (2 * d1) n, 9 / 10 * d1 < a.1 - c.1 := by
  have hn0 : (3 : ℝ) ≤ n := by exact_mod_cast hn
  obtain ⟨c, hc, h⟩ := near_vertex (d1 := d1) (n := n) (by omega) Real.pi
  refine ⟨(d1, 0), ?_, c, hc, ?_⟩
  · rw [ellipsePts, List.mem_map]
    exact ⟨0, List.mem_range.2 (by omega), by simp⟩
  · rw [Real.cos_pi, Real.sin_pi] at h
    have hq : Real.pi / n ≤ 3.15 / 3 := by
      rw [div_le_div_iff₀ (by linarith) (by norm_num)]
      have := Real.pi_lt_d2
      nlinarith
    have h2 : (c.1 + d1) ^ 2 ≤ (d1 * (Real.pi / n)) ^ 2 := by nlinarith [sq_nonneg (c.2 - d1 * 0)]
    have h3 := abs_le.1 (abs_le_of_sq_le_sq h2 (by positivity))
    have h4 : d1 * (Real.pi / n) ≤ d1 * (3.15 / 3) := mul_le_mul_of_nonneg_left hq h1.le
    simp only
    linarith [h3.2]

/-- `nastran_rod` with any number of points: the recovery points lie on the outline exactly for multiples of four, and always within
`π d1 / n` of a vertex. -/
theorem C76_nastran_rod (ops : GeomOps) {d1 : ℝ} {n : ℕ} (m : Material) (h1 : 4 / 10 ^ 12 < d1) (hn : 3 ≤ n) :
    ∃ L, Drawn (nastranRod ops d1 n m) L ∧ (Recovers L (0, 0) (recoveryRod d1) ↔ 4 ∣ n) ∧
      ∀ p ∈ recoveryRod d1, ∃ v ∈ L, (v.1 - p.1) ^ 2 + (v.2 - p.2) ^ 2 ≤ (d1 * (Real.pi / n)) ^ 2 := by
  have h0 : 0 < d1 := lt_trans (by positivity) h1
  obtain ⟨a, ha, c, hc, h⟩ := round_spread h0 hn
  exact ⟨_, drawn_solid ops (spread_x hc ha (by norm_num at h1 ⊢; linarith)), round_iff h0 (by omega), round_near (by omega)⟩

theorem round_tube (ops : GeomOps) (ov : OverlayOps) {r i : ℝ} {n : ℕ} (m : Material) (hr : 6 / 10 ^ 12 < r)
    (hi : 6 / 10 ^ 12 < i) (hn : 3 ≤ n) (hcut : Pierces ops ov (ellipsePts (2 * r) (2 * r) n) (ellipsePts (2 * i) (2 * i) n) m) :
    ∃ g, (libGeom ops (ellipsePts (2 * r) (2 * r) n) m).sub ops ov (.single (libGeom ops (ellipsePts (2 * i) (2 * i) n) m))
        = .ok (.single g) ∧
      Drawn g (ellipsePts (2 * r) (2 * r) n) ∧ DrawnHole g (ellipsePts (2 * i) (2 * i) n) := by
  obtain ⟨a, ha, c, hc, h⟩ := round_spread (d1 := r) (lt_trans (by positivity) hr) hn
  obtain ⟨a', ha', c', hc', h'⟩ := round_spread (d1 := i) (lt_trans (by positivity) hi) hn
  refine pierced ops ov m (spread_x hc ha (by norm_num at hr ⊢; linarith)) (spread_x hc' ha' (by norm_num at hi ⊢; linarith))
    (spread_x (List.mem_map_of_mem hc) (List.mem_map_of_mem ha) ?_) hcut
  have n1 := roundTo_near 12 c.1
  have n2 := roundTo_near 12 a.1
  rw [HalfUnit, abs_le] at n1 n2
  simp only [roundPt]
  norm_num at n1 n2 hr ⊢
  linarith [n1.2, n2.1]

/-- `nastran_tube` with any number of points: rings of radii `d1` and `d2`. -/
theorem C76_nastran_tube (ops : GeomOps) (ov : OverlayOps) {d1 d2 : ℝ} {n : ℕ} (m : Material) (h2 : 6 / 10 ^ 12 < d2) (h21 : d2 < d1)
    (hn : 3 ≤ n) (hcut : Pierces ops ov (ellipsePts (2 * d1) (2 * d1) n) (ellipsePts (2 * d2) (2 * d2) n) m) :
    ∃ g L, nastranTube ops ov d1 d2 n m = .ok (.single g) ∧ Drawn g L ∧ DrawnHole g (ellipsePts (2 * d2) (2 * d2) n) ∧
      (Recovers L (0, 0) (recoveryRod d1) ↔ 4 ∣ n) ∧
      ∀ p ∈ recoveryRod d1, ∃ v ∈ L, (v.1 - p.1) ^ 2 + (v.2 - p.2) ^ 2 ≤ (d1 * (Real.pi / n)) ^ 2 := by
  have h0 : 0 < d1 := lt_trans (lt_trans (by positivity) h2) h21
  obtain ⟨g, e, h, h'⟩ := round_tube ops ov m (by linarith) h2 hn hcut
  refine ⟨g, _, ?_, h, h', round_iff h0 (by omega), round_near (by omega)⟩
  rw [nastranTube, if_neg (by push Not; exact h21), tubeOf, ← e]
  simp only [show 2 * (2 * d1 / 2 - (d1 - d2)) = 2 * d2 by ring]

/-- `nastran_tube2` with any number of points: rings of radii `d1` and `d1 - d2`. -/
theorem C76_nastran_tube2 (ops : GeomOps) (ov : OverlayOps) {d1 d2 : ℝ} {n : ℕ} (m : Material) (h2 : 0 < d2)
    (h21 : 6 / 10 ^ 12 < d1 - d2) (hn : 3 ≤ n)
    (hcut : Pierces ops ov (ellipsePts (2 * d1) (2 * d1) n) (ellipsePts (2 * (d1 - d2)) (2 * (d1 - d2)) n) m) :
    ∃ g L, nastranTube2 ops ov d1 d2 n m = .ok (.single g) ∧ Drawn g L ∧
      DrawnHole g (ellipsePts (2 * (d1 - d2)) (2 * (d1 - d2)) n) ∧ (Recovers L (0, 0) (recoveryRod d1) ↔ 4 ∣ n) ∧
      ∀ p ∈ recoveryRod d1, ∃ v ∈ L, (v.1 - p.1) ^ 2 + (v.2 - p.2) ^ 2 ≤ (d1 * (Real.pi / n)) ^ 2 := by
  have hz : (0 : ℝ) < 6 / 10 ^ 12 := by positivity
  have h0 : 0 < d1 := by linarith
  obtain ⟨g, e, h, h'⟩ := round_tube ops ov m (by linarith) h21 hn hcut
  refine ⟨g, _, ?_, h, h', round_iff h0 (by omega), round_near (by omega)⟩
  rw [nastranTube2, if_neg (by push Not; linarith), tubeOf, ← e]
  simp only [show 2 * (2 * d1 / 2 - d2) = 2 * (d1 - d2) by ring]

example := C76_nastran_rod exOps (d1 := 3) (n := 63) defaultMaterial (by norm_num) (by norm_num)

example := C76_nastran_tube exOps pierceOps (d1 := 3) (d2 := 5 / 2) (n := 37) defaultMaterial (by norm_num) (by norm_num) (by norm_num)
  rfl

example := C76_nastran_tube2 exOps pierceOps (d1 := 3) (d2 := 1 / 2) (n := 37) defaultMaterial (by norm_num) (by norm_num)
  (by norm_num) rfl

/-- Both cases occur: with 63 points the recovery points are off, with 64 they are on the outline. -/
example : ¬ Recovers (ellipsePts (2 * 3) (2 * 3) 63) (0, 0) (recoveryRod 3) ∧
    Recovers (ellipsePts (2 * 3) (2 * 3) 64) (0, 0) (recoveryRod 3) :=
  ⟨fun h => by have := (round_iff (by norm_num) (by norm_num)).1 h; omega, (round_iff (by norm_num) (by norm_num)).2 (by norm_num)⟩

end SP
