import Verif.Spec.Slopes
import Verif.Lemmas.Library
import Verif.Model.LibraryMore
import Mathlib.Analysis.SpecialFunctions.Trigonometric.Bounds

/-!
# Arcs of any angle, and sections with sloping faces
-/

namespace SP

open Spec

/-- An arc with given start and end directions. -/
theorem arc_chain {pt : Pt} {r θ φ : ℝ} {n : ℕ} {ccw : Bool} {c0 s0 c1 s1 σ : ℝ} (hn : r = 0 ∨ 2 ≤ n)
    (hσ : (if ccw then 1 else -1 : ℝ) = σ) (h1 : Real.cos θ = c0) (h2 : Real.sin θ = s0)
    (h3 : Real.cos (θ + σ * φ) = c1) (h4 : Real.sin (θ + σ * φ) = s1) :
    Chain (drawRadius pt r θ n ccw φ) (pt.1 + r * c0, pt.2 + r * s0) (pt.1 + r * c1, pt.2 + r * s1)
      (pt.1 * (r * s1 - r * s0) - pt.2 * (r * c1 - r * c0) + σ * sector2 r φ n) := by
  have h := drawRadius_chain (pt := pt) (θ := θ) (ccw := ccw) (φ := φ) hn
  simp only [hσ, onCircle, crossP, h1, h2, h3, h4] at h
  convert h using 1
  ring

/-- Two paths of which the second starts where the first ends, without the repeated point. -/
theorem chain_glue {L M : List Pt} {a b d : Pt} {s t : ℝ} (h : Chain L a b s) (k : Chain M b d t) :
    Chain (L.dropLast ++ M) a d (s + t) := by
  induction L generalizing a s with
  | nil => simp [Chain] at h
  | cons p l ih =>
    cases l with
    | nil =>
      obtain ⟨h1, h2, h3⟩ := h
      simp at h1 h2
      subst h1 h2
      simp only [pathSum] at h3
      rw [← h3, zero_add]
      simpa using k
    | cons q l =>
      obtain ⟨h1, h2, h3⟩ := h
      simp only [List.head?_cons, Option.some.injEq] at h1
      subst h1
      rw [pathSum] at h3
      have h' : Chain (q :: l) q b (pathSum (q :: l)) := ⟨rfl, by rw [List.getLast?_cons_cons] at h2; exact h2, rfl⟩
      have := chain_cons p (ih h')
      rw [← h3, List.dropLast_cons_cons, List.cons_append]
      convert this using 1
      ring

/-- An arc, traversed backwards. -/
theorem drawRadius_reverse {pt : Pt} {r θ φ : ℝ} {n : ℕ} {ccw : Bool} (hn : r = 0 ∨ 2 ≤ n) :
    (drawRadius pt r θ n ccw φ).reverse = drawRadius pt r (θ + (if ccw then 1 else -1) * φ) n (!ccw) φ := by
  by_cases hr : r = 0
  · simp [drawRadius, hr]
  have hn : 2 ≤ n := hn.resolve_left hr
  have hm : max 1 (n - 1) = n - 1 := by omega
  have h0 : ((n - 1 : ℕ) : ℝ) ≠ 0 := by
    have : n - 1 ≠ 0 := by omega
    exact_mod_cast this
  rw [drawRadius, if_neg hr, drawRadius, if_neg hr, hm]
  apply List.ext_getElem (by simp)
  intro i h1 h2
  have hi : i < n := by simpa using h2
  have hcast : ((n - 1 - i : ℕ) : ℝ) = ((n - 1 : ℕ) : ℝ) - i := by rw [Nat.cast_sub (by omega)]
  simp only [List.getElem_reverse, List.getElem_map, List.getElem_range, List.length_map, List.length_range]
  rw [hcast]
  cases ccw <;> simp only [Bool.not_true, Bool.not_false, if_true, if_false, Bool.false_eq_true] <;>
  · have : ∀ x y : ℝ, x = y → ((pt.1 + r * Real.cos x, pt.2 + r * Real.sin x) : Pt)
        = (pt.1 + r * Real.cos y, pt.2 + r * Real.sin y) := by rintro x _ rfl; rfl
    apply this
    field_simp
    ring

theorem drawRadius_period {pt : Pt} {r θ θ' φ : ℝ} {n : ℕ} {ccw : Bool} (h : θ' = θ + 2 * Real.pi) :
    drawRadius pt r θ' n ccw φ = drawRadius pt r θ n ccw φ := by
  subst h
  by_cases hr : r = 0
  · simp [drawRadius, hr]
  rw [drawRadius, if_neg hr, drawRadius, if_neg hr]
  refine List.map_congr_left fun i _ => ?_
  dsimp only
  rw [show ∀ x : ℝ, θ + 2 * Real.pi + x = θ + x + 2 * Real.pi from fun x => by ring]
  simp

/-- An arc mirrored left to right about `x = k / 2`. -/
theorem drawRadius_mirror_x {pt : Pt} {r θ φ k : ℝ} {n : ℕ} {ccw : Bool} :
    (drawRadius pt r θ n ccw φ).map (fun p => (k - p.1, p.2))
      = drawRadius (k - pt.1, pt.2) r (Real.pi - θ) n (!ccw) φ := by
  by_cases hr : r = 0
  · simp [drawRadius, hr]
  rw [drawRadius, if_neg hr, drawRadius, if_neg hr, List.map_map]
  refine List.map_congr_left fun i _ => ?_
  have : ∀ x y z : ℝ, Real.pi - θ + (if (!ccw) = true then 1 else -1) * x / y * z
      = Real.pi - (θ + (if ccw = true then 1 else -1) * x / y * z) := by
    intro x; cases ccw <;> simp <;> intros <;> ring
  dsimp only [Function.comp_apply]
  rw [this, Real.cos_pi_sub, Real.sin_pi_sub]
  ext
  · dsimp only; ring
  · rfl

/-- An arc mirrored upside down about `y = k / 2`. -/
theorem drawRadius_mirror_y {pt : Pt} {r θ φ k : ℝ} {n : ℕ} {ccw : Bool} :
    (drawRadius pt r θ n ccw φ).map (fun p => (p.1, k - p.2))
      = drawRadius (pt.1, k - pt.2) r (-θ) n (!ccw) φ := by
  by_cases hr : r = 0
  · simp [drawRadius, hr]
  rw [drawRadius, if_neg hr, drawRadius, if_neg hr, List.map_map]
  refine List.map_congr_left fun i _ => ?_
  have : ∀ x y z : ℝ, -θ + (if (!ccw) = true then 1 else -1) * x / y * z
      = -(θ + (if ccw = true then 1 else -1) * x / y * z) := by
    intro x; cases ccw <;> simp <;> intros <;> ring
  dsimp only [Function.comp_apply]
  rw [this, Real.cos_neg, Real.sin_neg]
  ext
  · rfl
  · dsimp only; ring

theorem drawRadius_angle {pt pt' : Pt} {r θ θ' φ : ℝ} {n : ℕ} {ccw : Bool} (hx : pt.1 = pt'.1) (hy : pt.2 = pt'.2)
    (h : θ = θ' ∨ θ = θ' + 2 * Real.pi ∨ θ' = θ + 2 * Real.pi) :
    drawRadius pt r θ n ccw φ = drawRadius pt' r θ' n ccw φ := by
  have : pt = pt' := Prod.ext hx hy
  subst this
  rcases h with rfl | h | h
  · rfl
  · exact drawRadius_period h
  · exact (drawRadius_period h).symm

/-- An arc mirrored left to right and traversed backwards. -/
theorem arc_mirror_x {pt pt' : Pt} {r θ θ' φ k : ℝ} {n : ℕ} {ccw : Bool} (hn : r = 0 ∨ 2 ≤ n) (σ : ℝ)
    (hσ : (if ccw then 1 else -1 : ℝ) = σ) (hx : k - pt.1 = pt'.1) (hy : pt.2 = pt'.2)
    (h : Real.pi - θ - σ * φ = θ' ∨ Real.pi - θ - σ * φ = θ' + 2 * Real.pi ∨ θ' = Real.pi - θ - σ * φ + 2 * Real.pi) :
    ((drawRadius pt r θ n ccw φ).map (fun p => (k - p.1, p.2))).reverse = drawRadius pt' r θ' n ccw φ := by
  rw [drawRadius_mirror_x, drawRadius_reverse hn, Bool.not_not]
  refine drawRadius_angle hx hy ?_
  rw [show Real.pi - θ + (if (!ccw) = true then 1 else -1) * φ = Real.pi - θ - σ * φ by
    rw [← hσ]; cases ccw <;> simp; ring]
  exact h

/-- An arc mirrored upside down and traversed backwards. -/
theorem arc_mirror_y {pt pt' : Pt} {r θ θ' φ k : ℝ} {n : ℕ} {ccw : Bool} (hn : r = 0 ∨ 2 ≤ n) (σ : ℝ)
    (hσ : (if ccw then 1 else -1 : ℝ) = σ) (hx : pt.1 = pt'.1) (hy : k - pt.2 = pt'.2)
    (h : -θ - σ * φ = θ' ∨ -θ - σ * φ = θ' + 2 * Real.pi ∨ θ' = -θ - σ * φ + 2 * Real.pi) :
    ((drawRadius pt r θ n ccw φ).map (fun p => (p.1, k - p.2))).reverse = drawRadius pt' r θ' n ccw φ := by
  rw [drawRadius_mirror_y, drawRadius_reverse hn, Bool.not_not]
  refine drawRadius_angle hx hy ?_
  rw [show -θ + (if (!ccw) = true then 1 else -1) * φ = -θ - σ * φ by
    rw [← hσ]; cases ccw <;> simp; ring]
  exact h

/-! ### Corners -/

theorem sector2_corner (r φ : ℝ) (n : ℕ) : sector2 r φ n = 2 * (r ^ 2 * Real.tan (φ / 2) - cornerArea r φ n) := by
  rw [sector2, cornerArea]; ring

theorem cornerArea_quarter (r : ℝ) (n : ℕ) : cornerArea r (Real.pi / 2) n = fillet r n := by
  rw [cornerArea, fillet, show Real.pi / 2 / 2 = Real.pi / 4 by ring, Real.tan_pi_div_four, mul_one]

theorem cornerArea_nonneg (r : ℝ) {φ : ℝ} (h0 : 0 ≤ φ) (h1 : φ < Real.pi) (n : ℕ) : 0 ≤ cornerArea r φ n := by
  have ht : φ / 2 ≤ Real.tan (φ / 2) := Real.le_tan (by linarith) (by linarith)
  have hs : ((n - 1 : ℕ) : ℝ) * Real.sin (φ / (n - 1 : ℕ)) ≤ φ := by
    rcases Nat.eq_zero_or_pos (n - 1) with h | h
    · rw [h]; simpa using h0
    · have hp : (0 : ℝ) < ((n - 1 : ℕ) : ℝ) := by exact_mod_cast h
      have := Real.sin_le (x := φ / (n - 1 : ℕ)) (by positivity)
      calc _ ≤ ((n - 1 : ℕ) : ℝ) * (φ / (n - 1 : ℕ)) := by gcongr
        _ = φ := by field_simp
  rw [cornerArea]
  nlinarith [sq_nonneg r]

theorem cornerArea_le (r : ℝ) {φ : ℝ} (h0 : 0 ≤ φ) (h1 : φ ≤ Real.pi) (n : ℕ) :
    cornerArea r φ n ≤ r ^ 2 * Real.tan (φ / 2) := by
  have : 0 ≤ Real.sin (φ / (n - 1 : ℕ)) := by
    rcases Nat.eq_zero_or_pos (n - 1) with h | h
    · rw [h]; simp
    · have hp : (1 : ℝ) ≤ ((n - 1 : ℕ) : ℝ) := by exact_mod_cast h
      refine Real.sin_nonneg_of_nonneg_of_le_pi (by positivity) (le_trans (div_le_self h0 hp) h1)
  rw [cornerArea]
  have := mul_nonneg (Nat.cast_nonneg (α := ℝ) (n - 1)) (mul_nonneg (by positivity : 0 ≤ 1 / 2 * r ^ 2) this)
  linarith

/-- Sine, cosine and tangent in terms of half of the complement of the angle. -/
theorem half_compl {a : ℝ} (h0 : 0 ≤ a) (h1 : a < Real.pi / 2) : ∃ T : ℝ, 0 < T ∧ T = Real.tan ((Real.pi / 2 - a) / 2) ∧
    Real.cos a = 2 * T / (1 + T ^ 2) ∧ Real.sin a = (1 - T ^ 2) / (1 + T ^ 2) ∧ Real.tan a = (1 - T ^ 2) / (2 * T) := by
  have hpi := Real.pi_pos
  set u := (Real.pi / 2 - a) / 2 with hu
  have hφ : a = Real.pi / 2 - 2 * u := by rw [hu]; ring
  have hT : 0 < Real.tan u := Real.tan_pos_of_pos_of_lt_pi_div_two (by rw [hu]; linarith) (by rw [hu]; linarith)
  have hcu : Real.cos u ≠ 0 := (Real.cos_pos_of_mem_Ioo ⟨by rw [hu]; linarith, by rw [hu]; linarith⟩).ne'
  have h2 : Real.tan u = Real.sin u / Real.cos u := Real.tan_eq_sin_div_cos u
  have hq := Real.sin_sq_add_cos_sq u
  have hp : 0 < 1 + Real.tan u ^ 2 := by positivity
  have hc : Real.cos a = 2 * Real.tan u / (1 + Real.tan u ^ 2) := by
    rw [hφ, Real.cos_pi_div_two_sub, Real.sin_two_mul, eq_div_iff hp.ne', h2]
    field_simp
    linear_combination Real.sin u * hq
  have hs : Real.sin a = (1 - Real.tan u ^ 2) / (1 + Real.tan u ^ 2) := by
    rw [hφ, Real.sin_pi_div_two_sub, Real.cos_two_mul', eq_div_iff hp.ne', h2]
    field_simp
    linear_combination (Real.cos u ^ 2 - Real.sin u ^ 2) * hq
  refine ⟨Real.tan u, hT, rfl, hc, hs, ?_⟩
  rw [Real.tan_eq_sin_div_cos a, hc, hs]
  field_simp

/-- The corner lies in the triangle between the two points of tangency and the angle. -/
theorem cornerArea_le_triangle {r φ : ℝ} {n : ℕ} (hn : r = 0 ∨ 2 ≤ n) (h0 : 0 ≤ φ) (h1 : φ ≤ Real.pi) :
    cornerArea r φ n ≤ r ^ 2 * Real.tan (φ / 2) - 1 / 2 * r ^ 2 * Real.sin φ := by
  rcases hn with rfl | hn
  · simp [cornerArea]
  have hk : 1 ≤ n - 1 := by omega
  have hk' : (1 : ℝ) ≤ ((n - 1 : ℕ) : ℝ) := by exact_mod_cast hk
  have ha : 0 ≤ 1 - 1 / ((n - 1 : ℕ) : ℝ) := by rw [sub_nonneg, div_le_one (by linarith)]; exact hk'
  have hb : 0 ≤ 1 / ((n - 1 : ℕ) : ℝ) := by positivity
  have hz : (0 : ℝ) ∈ Set.Icc 0 Real.pi := ⟨le_refl _, Real.pi_pos.le⟩
  have hφ : φ ∈ Set.Icc 0 Real.pi := ⟨h0, h1⟩
  have h := (strictConcaveOn_sin_Icc.concaveOn).2 hz hφ ha hb (by ring)
  simp only [Real.sin_zero, smul_eq_mul, mul_zero, zero_add] at h
  have h2 : Real.sin φ ≤ ((n - 1 : ℕ) : ℝ) * Real.sin (φ / (n - 1 : ℕ)) := by
    have e : 1 / ((n - 1 : ℕ) : ℝ) * φ = φ / (n - 1 : ℕ) := by ring
    rw [e, one_div, inv_mul_le_iff₀ (by linarith)] at h
    exact h
  rw [cornerArea]
  nlinarith [sq_nonneg r]

/-! ### Arcs between an axis and a slope -/

section
variable {a : ℝ} {pt : Pt} {r : ℝ} {n : ℕ}

theorem cos_three_sub (a : ℝ) : Real.cos (3 / 2 * Real.pi - a) = -Real.sin a := by
  rw [show 3 / 2 * Real.pi - a = Real.pi / 2 - a + Real.pi by ring, Real.cos_add_pi, Real.cos_pi_div_two_sub]

theorem sin_three_sub (a : ℝ) : Real.sin (3 / 2 * Real.pi - a) = -Real.cos a := by
  rw [show 3 / 2 * Real.pi - a = Real.pi / 2 - a + Real.pi by ring, Real.sin_add_pi, Real.sin_pi_div_two_sub]

theorem cos_three_add (a : ℝ) : Real.cos (3 / 2 * Real.pi + a) = Real.sin a := by
  rw [show 3 / 2 * Real.pi + a = 3 / 2 * Real.pi - -a by ring, cos_three_sub, Real.sin_neg, neg_neg]

theorem sin_three_add (a : ℝ) : Real.sin (3 / 2 * Real.pi + a) = -Real.cos a := by
  rw [show 3 / 2 * Real.pi + a = 3 / 2 * Real.pi - -a by ring, sin_three_sub, Real.cos_neg]

theorem cos_half_add (a : ℝ) : Real.cos (Real.pi / 2 + a) = -Real.sin a := by
  rw [show Real.pi / 2 + a = a + Real.pi / 2 by ring, Real.cos_add_pi_div_two]

theorem sin_half_add (a : ℝ) : Real.sin (Real.pi / 2 + a) = Real.cos a := by
  rw [show Real.pi / 2 + a = a + Real.pi / 2 by ring, Real.sin_add_pi_div_two]

/-- Toe at the bottom right. -/
theorem toe_br (hn : r = 0 ∨ 2 ≤ n) : Chain (drawRadius pt r 0 n true (Real.pi * (1 / 2) - a))
    (pt.1 + r * 1, pt.2 + r * 0) (pt.1 + r * Real.sin a, pt.2 + r * Real.cos a)
    (pt.1 * (r * Real.cos a - r * 0) - pt.2 * (r * Real.sin a - r * 1) + 1 * sector2 r (Real.pi / 2 - a) n) := by
  rw [show Real.pi * (1 / 2) - a = Real.pi / 2 - a by ring]
  refine arc_chain hn rfl Real.cos_zero Real.sin_zero ?_ ?_
  · rw [zero_add, one_mul, Real.cos_pi_div_two_sub]
  · rw [zero_add, one_mul, Real.sin_pi_div_two_sub]

/-- Root at the bottom right. -/
theorem root_br (hn : r = 0 ∨ 2 ≤ n) : Chain (drawRadius pt r (3 / 2 * Real.pi - a) n false (Real.pi * (1 / 2) - a))
    (pt.1 + r * -Real.sin a, pt.2 + r * -Real.cos a) (pt.1 + r * -1, pt.2 + r * 0)
    (pt.1 * (r * 0 - r * -Real.cos a) - pt.2 * (r * -1 - r * -Real.sin a) + -1 * sector2 r (Real.pi / 2 - a) n) := by
  rw [show Real.pi * (1 / 2) - a = Real.pi / 2 - a by ring]
  refine arc_chain hn rfl (cos_three_sub a) (sin_three_sub a) ?_ ?_
  · rw [show 3 / 2 * Real.pi - a + -1 * (Real.pi / 2 - a) = Real.pi by ring, Real.cos_pi]
  · rw [show 3 / 2 * Real.pi - a + -1 * (Real.pi / 2 - a) = Real.pi by ring, Real.sin_pi]

/-- Root at the top right. -/
theorem root_tr (hn : r = 0 ∨ 2 ≤ n) : Chain (drawRadius pt r Real.pi n false (Real.pi * (1 / 2) - a))
    (pt.1 + r * -1, pt.2 + r * 0) (pt.1 + r * -Real.sin a, pt.2 + r * Real.cos a)
    (pt.1 * (r * Real.cos a - r * 0) - pt.2 * (r * -Real.sin a - r * -1) + -1 * sector2 r (Real.pi / 2 - a) n) := by
  rw [show Real.pi * (1 / 2) - a = Real.pi / 2 - a by ring]
  refine arc_chain hn rfl Real.cos_pi Real.sin_pi ?_ ?_
  · rw [show Real.pi + -1 * (Real.pi / 2 - a) = Real.pi / 2 + a by ring, cos_half_add]
  · rw [show Real.pi + -1 * (Real.pi / 2 - a) = Real.pi / 2 + a by ring, sin_half_add]

/-- Toe at the top right. -/
theorem toe_tr (hn : r = 0 ∨ 2 ≤ n) : Chain (drawRadius pt r (3 / 2 * Real.pi + a) n true (Real.pi * (1 / 2) - a))
    (pt.1 + r * Real.sin a, pt.2 + r * -Real.cos a) (pt.1 + r * 1, pt.2 + r * 0)
    (pt.1 * (r * 0 - r * -Real.cos a) - pt.2 * (r * 1 - r * Real.sin a) + 1 * sector2 r (Real.pi / 2 - a) n) := by
  rw [show Real.pi * (1 / 2) - a = Real.pi / 2 - a by ring]
  refine arc_chain hn rfl (cos_three_add a) (sin_three_add a) ?_ ?_
  · rw [show 3 / 2 * Real.pi + a + 1 * (Real.pi / 2 - a) = 2 * Real.pi by ring, Real.cos_two_pi]
  · rw [show 3 / 2 * Real.pi + a + 1 * (Real.pi / 2 - a) = 2 * Real.pi by ring, Real.sin_two_pi]

/-- Toe at the top left. -/
theorem toe_tl (hn : r = 0 ∨ 2 ≤ n) : Chain (drawRadius pt r Real.pi n true (Real.pi * (1 / 2) - a))
    (pt.1 + r * -1, pt.2 + r * 0) (pt.1 + r * -Real.sin a, pt.2 + r * -Real.cos a)
    (pt.1 * (r * -Real.cos a - r * 0) - pt.2 * (r * -Real.sin a - r * -1) + 1 * sector2 r (Real.pi / 2 - a) n) := by
  rw [show Real.pi * (1 / 2) - a = Real.pi / 2 - a by ring]
  refine arc_chain hn rfl Real.cos_pi Real.sin_pi ?_ ?_
  · rw [show Real.pi + 1 * (Real.pi / 2 - a) = 3 / 2 * Real.pi - a by ring, cos_three_sub]
  · rw [show Real.pi + 1 * (Real.pi / 2 - a) = 3 / 2 * Real.pi - a by ring, sin_three_sub]

/-- Root at the top left. -/
theorem root_tl (hn : r = 0 ∨ 2 ≤ n) : Chain (drawRadius pt r (Real.pi * (1 / 2) - a) n false (Real.pi * (1 / 2) - a))
    (pt.1 + r * Real.sin a, pt.2 + r * Real.cos a) (pt.1 + r * 1, pt.2 + r * 0)
    (pt.1 * (r * 0 - r * Real.cos a) - pt.2 * (r * 1 - r * Real.sin a) + -1 * sector2 r (Real.pi / 2 - a) n) := by
  rw [show Real.pi * (1 / 2) - a = Real.pi / 2 - a by ring]
  refine arc_chain hn rfl (Real.cos_pi_div_two_sub a) (Real.sin_pi_div_two_sub a) ?_ ?_
  · rw [show Real.pi / 2 - a + -1 * (Real.pi / 2 - a) = 0 by ring, Real.cos_zero]
  · rw [show Real.pi / 2 - a + -1 * (Real.pi / 2 - a) = 0 by ring, Real.sin_zero]

/-- Root at the bottom left. -/
theorem root_bl (hn : r = 0 ∨ 2 ≤ n) : Chain (drawRadius pt r 0 n false (Real.pi * (1 / 2) - a))
    (pt.1 + r * 1, pt.2 + r * 0) (pt.1 + r * Real.sin a, pt.2 + r * -Real.cos a)
    (pt.1 * (r * -Real.cos a - r * 0) - pt.2 * (r * Real.sin a - r * 1) + -1 * sector2 r (Real.pi / 2 - a) n) := by
  rw [show Real.pi * (1 / 2) - a = Real.pi / 2 - a by ring]
  refine arc_chain hn rfl Real.cos_zero Real.sin_zero ?_ ?_
  · rw [show (0 : ℝ) + -1 * (Real.pi / 2 - a) = -(Real.pi / 2 - a) by ring, Real.cos_neg, Real.cos_pi_div_two_sub]
  · rw [show (0 : ℝ) + -1 * (Real.pi / 2 - a) = -(Real.pi / 2 - a) by ring, Real.sin_neg, Real.sin_pi_div_two_sub]

/-- Toe at the bottom left. -/
theorem toe_bl (hn : r = 0 ∨ 2 ≤ n) : Chain (drawRadius pt r (Real.pi * (1 / 2) + a) n true (Real.pi * (1 / 2) - a))
    (pt.1 + r * -Real.sin a, pt.2 + r * Real.cos a) (pt.1 + r * -1, pt.2 + r * 0)
    (pt.1 * (r * 0 - r * Real.cos a) - pt.2 * (r * -1 - r * -Real.sin a) + 1 * sector2 r (Real.pi / 2 - a) n) := by
  rw [show Real.pi * (1 / 2) - a = Real.pi / 2 - a by ring, show Real.pi * (1 / 2) + a = Real.pi / 2 + a by ring]
  refine arc_chain hn rfl (cos_half_add a) (sin_half_add a) ?_ ?_
  · rw [show Real.pi / 2 + a + 1 * (Real.pi / 2 - a) = Real.pi by ring, Real.cos_pi]
  · rw [show Real.pi / 2 + a + 1 * (Real.pi / 2 - a) = Real.pi by ring, Real.sin_pi]

end

/-! ### Points of an arc -/

theorem mem_arc_start {pt p : Pt} {r θ φ : ℝ} {n : ℕ} {ccw : Bool} {c0 s0 σ : ℝ} (hr : 0 ≤ r) (h0 : 0 ≤ φ)
    (h1 : φ ≤ Real.pi / 2) (hσ : (if ccw then 1 else -1 : ℝ) = σ) (hc : Real.cos θ = c0) (hs : Real.sin θ = s0)
    (hp : p ∈ drawRadius pt r θ n ccw φ) :
    ∃ u v, r * Real.cos φ ≤ u ∧ u ≤ r ∧ 0 ≤ v ∧ v ≤ r * Real.sin φ ∧
      p = (pt.1 + u * c0 - σ * v * s0, pt.2 + u * s0 + σ * v * c0) := by
  obtain ⟨t, t0, t1, rfl⟩ := mem_drawRadius hp
  have hpi := Real.pi_pos
  have a0 : 0 ≤ t * φ := by positivity
  have a1 : t * φ ≤ φ := by nlinarith
  refine ⟨r * Real.cos (t * φ), r * Real.sin (t * φ), ?_, ?_, ?_, ?_, ?_⟩
  · exact mul_le_mul_of_nonneg_left (Real.cos_le_cos_of_nonneg_of_le_pi a0 (by linarith) a1) hr
  · nlinarith [Real.cos_le_one (t * φ)]
  · exact mul_nonneg hr (Real.sin_nonneg_of_nonneg_of_le_pi a0 (by linarith))
  · exact mul_le_mul_of_nonneg_left (Real.sin_le_sin_of_le_of_le_pi_div_two (by linarith) h1 a1) hr
  · rw [hσ, onCircle]
    rcases (by by_cases h : ccw <;> simp [← hσ, h] : σ = 1 ∨ σ = -1) with h | h
    · have e : θ + σ * t * φ = θ + t * φ := by rw [h]; ring
      rw [e, Real.cos_add, Real.sin_add, hc, hs, h]
      ext <;> simp <;> ring
    · have e : θ + σ * t * φ = θ - t * φ := by rw [h]; ring
      rw [e, Real.cos_sub, Real.sin_sub, hc, hs, h]
      ext <;> simp <;> ring

theorem mem_arc_end {pt p : Pt} {r θ φ : ℝ} {n : ℕ} {ccw : Bool} {c1 s1 σ : ℝ} (hr : 0 ≤ r) (hn : r = 0 ∨ 2 ≤ n)
    (h0 : 0 ≤ φ) (h1 : φ ≤ Real.pi / 2) (hσ : (if ccw then 1 else -1 : ℝ) = σ) (hc : Real.cos (θ + σ * φ) = c1)
    (hs : Real.sin (θ + σ * φ) = s1) (hp : p ∈ drawRadius pt r θ n ccw φ) :
    ∃ u v, r * Real.cos φ ≤ u ∧ u ≤ r ∧ 0 ≤ v ∧ v ≤ r * Real.sin φ ∧
      p = (pt.1 + u * c1 + σ * v * s1, pt.2 + u * s1 - σ * v * c1) := by
  rw [← List.mem_reverse, drawRadius_reverse hn, hσ] at hp
  obtain ⟨u, v, h1, h2, h3, h4, rfl⟩ := mem_arc_start (σ := -σ) hr h0 h1 (by cases ccw <;> simp [← hσ]) hc hs hp
  refine ⟨u, v, h1, h2, h3, h4, ?_⟩
  ext <;> simp; ring

section
variable {a x0 x1 y0 y1 : ℝ} {pt : Pt} {r : ℝ} {n : ℕ}

theorem boxed_toe_br (_hn : r = 0 ∨ 2 ≤ n) (hr : 0 ≤ r) (a0 : 0 ≤ a) (a1 : a ≤ Real.pi / 2) (h1 : x0 ≤ pt.1 + r * Real.sin a) (h2 : pt.1 + r ≤ x1)
    (h3 : y0 ≤ pt.2) (h4 : pt.2 + r * Real.cos a ≤ y1) :
    Boxed (x0, x1, y0, y1) (drawRadius pt r 0 n true (Real.pi * (1 / 2) - a)) := fun p hp => by
  have hφ0 : 0 ≤ Real.pi * (1 / 2) - a := by linarith
  have hφ1 : Real.pi * (1 / 2) - a ≤ Real.pi / 2 := by linarith
  have e1 : Real.cos (Real.pi * (1 / 2) - a) = Real.sin a := by
    rw [← Real.cos_pi_div_two_sub]; congr 1; ring
  have e2 : Real.sin (Real.pi * (1 / 2) - a) = Real.cos a := by
    rw [← Real.sin_pi_div_two_sub]; congr 1; ring
  obtain ⟨u, v, k1, k2, k3, k4, rfl⟩ := mem_arc_start (σ := 1) hr hφ0 hφ1 (by simp) Real.cos_zero Real.sin_zero hp
  rw [e1] at k1
  rw [e2] at k4
  refine ⟨?_, ?_, ?_, ?_⟩ <;> simp only <;> linarith

theorem boxed_root_br (hn : r = 0 ∨ 2 ≤ n) (hr : 0 ≤ r) (a0 : 0 ≤ a) (a1 : a ≤ Real.pi / 2) (h1 : x0 ≤ pt.1 - r) (h2 : pt.1 - r * Real.sin a ≤ x1)
    (h3 : y0 ≤ pt.2 - r * Real.cos a) (h4 : pt.2 ≤ y1) :
    Boxed (x0, x1, y0, y1) (drawRadius pt r (3 / 2 * Real.pi - a) n false (Real.pi * (1 / 2) - a)) := fun p hp => by
  have hφ0 : 0 ≤ Real.pi * (1 / 2) - a := by linarith
  have hφ1 : Real.pi * (1 / 2) - a ≤ Real.pi / 2 := by linarith
  have e1 : Real.cos (Real.pi * (1 / 2) - a) = Real.sin a := by
    rw [← Real.cos_pi_div_two_sub]; congr 1; ring
  have e2 : Real.sin (Real.pi * (1 / 2) - a) = Real.cos a := by
    rw [← Real.sin_pi_div_two_sub]; congr 1; ring
  obtain ⟨u, v, k1, k2, k3, k4, rfl⟩ := mem_arc_end (σ := -1) hr hn hφ0 hφ1 (by simp)
    ((congrArg Real.cos (by ring)).trans Real.cos_pi) ((congrArg Real.sin (by ring)).trans Real.sin_pi) hp
  rw [e1] at k1
  rw [e2] at k4
  refine ⟨?_, ?_, ?_, ?_⟩ <;> simp only <;> linarith

theorem boxed_root_tr (_hn : r = 0 ∨ 2 ≤ n) (hr : 0 ≤ r) (a0 : 0 ≤ a) (a1 : a ≤ Real.pi / 2) (h1 : x0 ≤ pt.1 - r) (h2 : pt.1 - r * Real.sin a ≤ x1)
    (h3 : y0 ≤ pt.2) (h4 : pt.2 + r * Real.cos a ≤ y1) :
    Boxed (x0, x1, y0, y1) (drawRadius pt r Real.pi n false (Real.pi * (1 / 2) - a)) := fun p hp => by
  have hφ0 : 0 ≤ Real.pi * (1 / 2) - a := by linarith
  have hφ1 : Real.pi * (1 / 2) - a ≤ Real.pi / 2 := by linarith
  have e1 : Real.cos (Real.pi * (1 / 2) - a) = Real.sin a := by
    rw [← Real.cos_pi_div_two_sub]; congr 1; ring
  have e2 : Real.sin (Real.pi * (1 / 2) - a) = Real.cos a := by
    rw [← Real.sin_pi_div_two_sub]; congr 1; ring
  obtain ⟨u, v, k1, k2, k3, k4, rfl⟩ := mem_arc_start (σ := -1) hr hφ0 hφ1 (by simp) Real.cos_pi Real.sin_pi hp
  rw [e1] at k1
  rw [e2] at k4
  refine ⟨?_, ?_, ?_, ?_⟩ <;> simp only <;> linarith

theorem boxed_toe_tr (hn : r = 0 ∨ 2 ≤ n) (hr : 0 ≤ r) (a0 : 0 ≤ a) (a1 : a ≤ Real.pi / 2) (h1 : x0 ≤ pt.1 + r * Real.sin a) (h2 : pt.1 + r ≤ x1)
    (h3 : y0 ≤ pt.2 - r * Real.cos a) (h4 : pt.2 ≤ y1) :
    Boxed (x0, x1, y0, y1) (drawRadius pt r (3 / 2 * Real.pi + a) n true (Real.pi * (1 / 2) - a)) := fun p hp => by
  have hφ0 : 0 ≤ Real.pi * (1 / 2) - a := by linarith
  have hφ1 : Real.pi * (1 / 2) - a ≤ Real.pi / 2 := by linarith
  have e1 : Real.cos (Real.pi * (1 / 2) - a) = Real.sin a := by
    rw [← Real.cos_pi_div_two_sub]; congr 1; ring
  have e2 : Real.sin (Real.pi * (1 / 2) - a) = Real.cos a := by
    rw [← Real.sin_pi_div_two_sub]; congr 1; ring
  obtain ⟨u, v, k1, k2, k3, k4, rfl⟩ := mem_arc_end (σ := 1) hr hn hφ0 hφ1 (by simp)
    ((congrArg Real.cos (by ring)).trans Real.cos_two_pi) ((congrArg Real.sin (by ring)).trans Real.sin_two_pi) hp
  rw [e1] at k1
  rw [e2] at k4
  refine ⟨?_, ?_, ?_, ?_⟩ <;> simp only <;> linarith

theorem boxed_toe_tl (_hn : r = 0 ∨ 2 ≤ n) (hr : 0 ≤ r) (a0 : 0 ≤ a) (a1 : a ≤ Real.pi / 2) (h1 : x0 ≤ pt.1 - r) (h2 : pt.1 - r * Real.sin a ≤ x1)
    (h3 : y0 ≤ pt.2 - r * Real.cos a) (h4 : pt.2 ≤ y1) :
    Boxed (x0, x1, y0, y1) (drawRadius pt r Real.pi n true (Real.pi * (1 / 2) - a)) := fun p hp => by
  have hφ0 : 0 ≤ Real.pi * (1 / 2) - a := by linarith
  have hφ1 : Real.pi * (1 / 2) - a ≤ Real.pi / 2 := by linarith
  have e1 : Real.cos (Real.pi * (1 / 2) - a) = Real.sin a := by
    rw [← Real.cos_pi_div_two_sub]; congr 1; ring
  have e2 : Real.sin (Real.pi * (1 / 2) - a) = Real.cos a := by
    rw [← Real.sin_pi_div_two_sub]; congr 1; ring
  obtain ⟨u, v, k1, k2, k3, k4, rfl⟩ := mem_arc_start (σ := 1) hr hφ0 hφ1 (by simp) Real.cos_pi Real.sin_pi hp
  rw [e1] at k1
  rw [e2] at k4
  refine ⟨?_, ?_, ?_, ?_⟩ <;> simp only <;> linarith

theorem boxed_root_tl (hn : r = 0 ∨ 2 ≤ n) (hr : 0 ≤ r) (a0 : 0 ≤ a) (a1 : a ≤ Real.pi / 2) (h1 : x0 ≤ pt.1 + r * Real.sin a) (h2 : pt.1 + r ≤ x1)
    (h3 : y0 ≤ pt.2) (h4 : pt.2 + r * Real.cos a ≤ y1) :
    Boxed (x0, x1, y0, y1) (drawRadius pt r (Real.pi * (1 / 2) - a) n false (Real.pi * (1 / 2) - a)) := fun p hp => by
  have hφ0 : 0 ≤ Real.pi * (1 / 2) - a := by linarith
  have hφ1 : Real.pi * (1 / 2) - a ≤ Real.pi / 2 := by linarith
  have e1 : Real.cos (Real.pi * (1 / 2) - a) = Real.sin a := by
    rw [← Real.cos_pi_div_two_sub]; congr 1; ring
  have e2 : Real.sin (Real.pi * (1 / 2) - a) = Real.cos a := by
    rw [← Real.sin_pi_div_two_sub]; congr 1; ring
  obtain ⟨u, v, k1, k2, k3, k4, rfl⟩ := mem_arc_end (σ := -1) hr hn hφ0 hφ1 (by simp)
    ((congrArg Real.cos (by ring)).trans Real.cos_zero) ((congrArg Real.sin (by ring)).trans Real.sin_zero) hp
  rw [e1] at k1
  rw [e2] at k4
  refine ⟨?_, ?_, ?_, ?_⟩ <;> simp only <;> linarith

theorem boxed_root_bl (_hn : r = 0 ∨ 2 ≤ n) (hr : 0 ≤ r) (a0 : 0 ≤ a) (a1 : a ≤ Real.pi / 2) (h1 : x0 ≤ pt.1 + r * Real.sin a) (h2 : pt.1 + r ≤ x1)
    (h3 : y0 ≤ pt.2 - r * Real.cos a) (h4 : pt.2 ≤ y1) :
    Boxed (x0, x1, y0, y1) (drawRadius pt r 0 n false (Real.pi * (1 / 2) - a)) := fun p hp => by
  have hφ0 : 0 ≤ Real.pi * (1 / 2) - a := by linarith
  have hφ1 : Real.pi * (1 / 2) - a ≤ Real.pi / 2 := by linarith
  have e1 : Real.cos (Real.pi * (1 / 2) - a) = Real.sin a := by
    rw [← Real.cos_pi_div_two_sub]; congr 1; ring
  have e2 : Real.sin (Real.pi * (1 / 2) - a) = Real.cos a := by
    rw [← Real.sin_pi_div_two_sub]; congr 1; ring
  obtain ⟨u, v, k1, k2, k3, k4, rfl⟩ := mem_arc_start (σ := -1) hr hφ0 hφ1 (by simp) Real.cos_zero Real.sin_zero hp
  rw [e1] at k1
  rw [e2] at k4
  refine ⟨?_, ?_, ?_, ?_⟩ <;> simp only <;> linarith

theorem boxed_toe_bl (hn : r = 0 ∨ 2 ≤ n) (hr : 0 ≤ r) (a0 : 0 ≤ a) (a1 : a ≤ Real.pi / 2) (h1 : x0 ≤ pt.1 - r) (h2 : pt.1 - r * Real.sin a ≤ x1)
    (h3 : y0 ≤ pt.2) (h4 : pt.2 + r * Real.cos a ≤ y1) :
    Boxed (x0, x1, y0, y1) (drawRadius pt r (Real.pi * (1 / 2) + a) n true (Real.pi * (1 / 2) - a)) := fun p hp => by
  have hφ0 : 0 ≤ Real.pi * (1 / 2) - a := by linarith
  have hφ1 : Real.pi * (1 / 2) - a ≤ Real.pi / 2 := by linarith
  have e1 : Real.cos (Real.pi * (1 / 2) - a) = Real.sin a := by
    rw [← Real.cos_pi_div_two_sub]; congr 1; ring
  have e2 : Real.sin (Real.pi * (1 / 2) - a) = Real.cos a := by
    rw [← Real.sin_pi_div_two_sub]; congr 1; ring
  obtain ⟨u, v, k1, k2, k3, k4, rfl⟩ := mem_arc_end (σ := 1) hr hn hφ0 hφ1 (by simp)
    ((congrArg Real.cos (by ring)).trans Real.cos_pi) ((congrArg Real.sin (by ring)).trans Real.sin_pi) hp
  rw [e1] at k1
  rw [e2] at k4
  refine ⟨?_, ?_, ?_, ?_⟩ <;> simp only <;> linarith

end

/-! ### Symmetry -/

theorem symm_across {f : Pt → Pt} {H X K Y : List Pt} (hH : (H.map f).reverse = H) (hK : (K.map f).reverse = K)
    (hX : (X.map f).reverse = Y) (hY : (Y.map f).reverse = X) : SymmetricUnder f (H ++ X ++ K ++ Y) := by
  rw [SymmetricUnder]
  simp only [List.map_append, List.reverse_append, hH, hK, hX, hY]
  rw [← List.append_assoc, ← List.append_assoc]
  have := List.isRotated_append (l := X ++ K ++ Y) (l' := H)
  simpa only [List.append_assoc] using this

theorem symm_along {f : Pt → Pt} {H X K Y : List Pt} (hH : (H.map f).reverse = K) (hK : (K.map f).reverse = H)
    (hX : (X.map f).reverse = X) (hY : (Y.map f).reverse = Y) : SymmetricUnder f (H ++ X ++ K ++ Y) := by
  rw [SymmetricUnder]
  simp only [List.map_append, List.reverse_append, hH, hK, hX, hY]
  have := List.isRotated_append (l := Y) (l' := H ++ X ++ K)
  simpa only [List.append_assoc] using this

/-! ### Edges -/

theorem edge_append {L M : List Pt} {P Q : Pt} (hL : L.getLast? = some P) (hM : M.head? = some Q) : Edge (L ++ M) P Q := by
  obtain ⟨A, rfl⟩ : ∃ A, L = A ++ [P] := by
    refine ⟨L.dropLast, ?_⟩
    have hne : L ≠ [] := by rintro rfl; simp at hL
    rw [List.getLast?_eq_getLast_of_ne_nil hne, Option.some.injEq] at hL
    rw [← hL, List.dropLast_append_getLast]
  obtain ⟨B, rfl⟩ : ∃ B, M = Q :: B := by
    cases M with
    | nil => simp at hM
    | cons q l => simp at hM; exact ⟨l, by rw [hM]⟩
  rw [Edge]
  cases A with
  | nil => simp [closedEdges]
  | cons a A =>
    have : ∀ (A : List Pt) (x z : Pt), (P, Q) ∈ (x :: (A ++ P :: Q :: B)).zip ((A ++ P :: Q :: B) ++ [z]) := by
      intro A
      induction A with
      | nil => intro x z; simp
      | cons y A ih => intro x z; simp only [List.cons_append, List.zip_cons_cons, List.mem_cons]; right; exact ih y z
    simpa [closedEdges] using this A a a

/-- The outline of a section without holes. -/
theorem drawn_solid (ops : GeomOps) {L : List Pt} {m : Material} (hs : Spread 12 L) : Drawn (libGeom ops L m) L := by
  have hr : (libGeom ops L m).poly = (⟨L, []⟩ : Poly).map (roundPt 12) := roundPoly_of_spread (p := ⟨L, []⟩) hs
  rw [Drawn, hr]
  simp only [Poly.map]
  rw [List.forall₂_map_left_iff, List.forall₂_same]
  exact fun p _ => ⟨roundTo_near 12 p.1, roundTo_near 12 p.2⟩

/-- The outlines of a section with a hole. -/
theorem drawn_hollow (ops : GeomOps) {L M : List Pt} {m : Material} (hs : Spread 12 L) :
    Drawn (mkGeometry ops ⟨L, [M]⟩ m none 12) L ∧ DrawnHole (mkGeometry ops ⟨L, [M]⟩ m none 12) M := by
  have hr : (mkGeometry ops ⟨L, [M]⟩ m none 12).poly = (⟨L, [M]⟩ : Poly).map (roundPt 12) :=
    roundPoly_of_spread (p := ⟨L, [M]⟩) hs
  have near : ∀ l : List Pt, List.Forall₂ (fun p q => HalfUnit 12 p.1 q.1 ∧ HalfUnit 12 p.2 q.2) (l.map (roundPt 12)) l := by
    intro l
    rw [List.forall₂_map_left_iff, List.forall₂_same]
    exact fun p _ => ⟨roundTo_near 12 p.1, roundTo_near 12 p.2⟩
  rw [Drawn, DrawnHole, hr]
  exact ⟨near L, M.map (roundPt 12), rfl, near M⟩

end SP
