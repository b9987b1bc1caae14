import Verif.Lemmas.Slopes

/-!
# Sections with tapered flanges
-/

namespace SP

open Spec

/-- The slope of a flange. -/
theorem rad_bounds {alpha : ℝ} (h0 : 0 ≤ alpha) (h1 : alpha < 90) :
    0 ≤ Real.pi * alpha / 180 ∧ Real.pi * alpha / 180 < Real.pi / 2 := by
  have := Real.pi_pos
  constructor
  · positivity
  · rw [div_lt_iff₀ (by norm_num)]; nlinarith

/-- The face of the right bottom flange of a tapered section with the outstand from `x = w` to `x = b`. -/
theorem taper_facts {a b w tf rr rf : ℝ} (a0 : 0 ≤ a) (a1 : a < Real.pi / 2) :
    tf - ((b - w) / 2 - rf * (1 - Real.sin a)) * Real.tan a - rf * Real.cos a
      = tf - (b - w) / 2 * Real.tan a - rf * Real.tan ((Real.pi / 2 - a) / 2) ∧
    tf + ((b - w) / 2 - rr * (1 - Real.sin a)) * Real.tan a + rr * Real.cos a
      = tf + (b - w) / 2 * Real.tan a + rr * Real.tan ((Real.pi / 2 - a) / 2) := by
  obtain ⟨T, hT, e, hc, hs, ht⟩ := half_compl a0 a1
  rw [← e, hc, hs, ht]
  have : 1 + T ^ 2 ≠ 0 := by positivity
  constructor <;> field_simp <;> ring

/-- The sloping face of the right bottom flange of a tapered section. -/
theorem taper_face {L A B : List Pt} {a b w tf rr rf yt yr : ℝ} {nr : ℕ} (hL : L = A
      ++ drawRadius (b - rf, yt) rf 0 nr true (Real.pi * (1 / 2) - a)
      ++ drawRadius (w + rr, yr) rr (3 / 2 * Real.pi - a) nr false (Real.pi * (1 / 2) - a) ++ B)
    (hnr : rr = 0 ∨ 2 ≤ nr) (hnf : rf = 0 ∨ 2 ≤ nr)
    (h1 : yt = tf - ((b - w) / 2 - rf * (1 - Real.sin a)) * Real.tan a - rf * Real.cos a)
    (h2 : yr = tf + ((b - w) / 2 - rr * (1 - Real.sin a)) * Real.tan a + rr * Real.cos a) :
    ∃ P Q, Edge L P Q ∧
      tf - P.2 = (P.1 - (w + b) / 2) * Real.tan a ∧
      Q.2 - tf = ((w + b) / 2 - Q.1) * Real.tan a ∧
      (∃ y, (b, y) ∈ L ∧ Touches (b - rf, y) rf P (-Real.cos a, Real.sin a)) ∧
      (∃ y, (w, y) ∈ L ∧ Touches (w + rr, y) rr Q (-Real.cos a, Real.sin a)) := by
  have k1 := toe_br (pt := (b - rf, yt)) (a := a) hnf
  have k2 := root_br (pt := (w + rr, yr)) (a := a) hnr
  have hq := Real.sin_sq_add_cos_sq a
  refine ⟨(b - rf + rf * Real.sin a, yt + rf * Real.cos a), (w + rr + rr * -Real.sin a, yr + rr * -Real.cos a), ?_, ?_,
    ?_, ⟨yt, ?_, ?_⟩, ⟨yr, ?_, ?_⟩⟩
  · rw [hL, List.append_assoc]
    refine edge_append ?_ ?_
    · rw [List.getLast?_append, k1.2.1]; rfl
    · rw [List.head?_append, k2.1]; rfl
  · simp only [h1]; ring
  · simp only [h2]; ring
  · rw [hL]
    have := k1.head_mem
    simp only [mul_one, mul_zero, add_zero, sub_add_cancel] at this
    simp only [List.mem_append, this, true_or, or_true]
  · exact ⟨by simp only; linear_combination rf ^ 2 * hq, by simp only; ring⟩
  · rw [hL]
    have := k2.last_mem
    simp only [mul_neg, mul_one, mul_zero, add_zero, add_neg_cancel_right] at this
    simp only [List.mem_append, this, true_or, or_true]
  · exact ⟨by simp only; linear_combination rr ^ 2 * hq, by simp only; ring⟩

/-- A flange does not vanish at its rounded toes. -/
theorem toe_area {a q rf rr tf : ℝ} {nr : ℕ} (hrf : 0 ≤ rf) (hrr : 0 ≤ rr) (hnf : rf = 0 ∨ 2 ≤ nr) (a0 : 0 ≤ a)
    (a1 : a < Real.pi / 2) (hq : 0 ≤ q) (hx : (rr + rf) * (1 - Real.sin a) ≤ q)
    (htoe : q / 2 * Real.tan a + rf * Real.tan ((Real.pi / 2 - a) / 2) ≤ tf) :
    cornerArea rf (Real.pi / 2 - a) nr ≤ q * tf := by
  have hs1 : Real.sin a ≤ 1 := Real.sin_le_one a
  have hs0 : 0 ≤ Real.sin a := Real.sin_nonneg_of_nonneg_of_le_pi a0 (by linarith [Real.pi_pos])
  have h := cornerArea_le_triangle (φ := Real.pi / 2 - a) hnf (by linarith) (by linarith)
  obtain ⟨T, hT, eT, hc, hs, ht⟩ := half_compl a0 a1
  have hct : 0 ≤ Real.cos a := by rw [hc]; positivity
  have htn : 0 ≤ Real.tan a := by rw [Real.tan_eq_sin_div_cos]; positivity
  rw [← eT] at h htoe
  rw [Real.sin_pi_div_two_sub] at h
  have e : rf ^ 2 * T - 1 / 2 * rf ^ 2 * Real.cos a ≤ (rf * (1 - Real.sin a)) * (rf * T) := by
    have : 0 ≤ rf ^ 2 * T := by positivity
    rw [hc, hs]
    have h1 : (0 : ℝ) < 1 + T ^ 2 := by positivity
    have : (rf * (1 - (1 - T ^ 2) / (1 + T ^ 2))) * (rf * T) - (rf ^ 2 * T - 1 / 2 * rf ^ 2 * (2 * T / (1 + T ^ 2)))
        = rf ^ 2 * T * T ^ 2 / (1 + T ^ 2) := by
      field_simp; ring
    have h2 : 0 ≤ rf ^ 2 * T * T ^ 2 / (1 + T ^ 2) := by positivity
    linarith
  refine h.trans (e.trans (mul_le_mul ?_ ?_ (by positivity) hq))
  · nlinarith [mul_nonneg hrr (sub_nonneg.2 hs1)]
  · have : 0 ≤ q / 2 * Real.tan a := by positivity
    linarith

/-! ### Tapered flange I sections -/

section
variable {d b tf tw rr rf a : ℝ} {nr : ℕ}

theorem taperedI_area (hnr : rr = 0 ∨ 2 ≤ nr) (hnf : rf = 0 ∨ 2 ≤ nr) (a0 : 0 ≤ a) (a1 : a < Real.pi / 2) :
    ringArea2 (taperedIPts d b tf tw rr rf a nr) = 2 * (tw * d + 4 * ((b - tw) / 2 * tf)
      + 4 * cornerArea rr (Real.pi / 2 - a) nr - 4 * cornerArea rf (Real.pi / 2 - a) nr) := by
  obtain ⟨T, hT, e, hc, hs, ht⟩ := half_compl a0 a1
  rw [ringArea2_chain (L := taperedIPts d b tf tw rr rf a nr)
    (chain_append (chain_append (chain_append (chain_append (chain_append (chain_append (chain_append (chain_append
      (chain_append (chain_cons _ (chain_one _)) (toe_br hnf)) (root_br hnr)) (root_tr hnr)) (toe_tr hnf))
      (chain_cons _ (chain_one _))) (toe_tl hnf)) (root_tl hnr)) (root_bl hnr)) (toe_bl hnf))]
  simp only [crossP, sector2_corner]
  rw [← e, hc, hs, ht]
  generalize cornerArea rr (Real.pi / 2 - a) nr = k1
  generalize cornerArea rf (Real.pi / 2 - a) nr = k2
  have : 1 + T ^ 2 ≠ 0 := by positivity
  field_simp
  ring

theorem taperedI_boxed (hb : 0 ≤ b) (htw : 0 ≤ tw) (hrr : 0 ≤ rr) (hrf : 0 ≤ rf) (hnr : rr = 0 ∨ 2 ≤ nr)
    (hnf : rf = 0 ∨ 2 ≤ nr) (a0 : 0 ≤ a) (a1 : a < Real.pi / 2)
    (hx : (rr + rf) * (1 - Real.sin a) ≤ (b - tw) / 2)
    (htoe : (b - tw) / 4 * Real.tan a + rf * Real.tan ((Real.pi / 2 - a) / 2) ≤ tf)
    (hroot : tf + (b - tw) / 4 * Real.tan a + rr * Real.tan ((Real.pi / 2 - a) / 2) ≤ d / 2) :
    Boxed (0, b, 0, d) (taperedIPts d b tf tw rr rf a nr) := by
  have hs1 : Real.sin a ≤ 1 := Real.sin_le_one a
  have hs0 : 0 ≤ Real.sin a := Real.sin_nonneg_of_nonneg_of_le_pi a0 (by linarith [Real.pi_pos])
  obtain ⟨f1, f2⟩ := taper_facts (b := b) (w := b / 2 + tw / 2) (tf := tf) (rr := rr) (rf := rf) a0 a1
  obtain ⟨T, hT, eT, hc, hs, ht⟩ := half_compl a0 a1
  have hct : 0 ≤ Real.cos a := by rw [hc]; positivity
  have htn : 0 ≤ Real.tan a := by rw [Real.tan_eq_sin_div_cos]; positivity
  rw [← eT] at f1 f2 htoe hroot
  have r1 : 0 ≤ rr * (1 - Real.sin a) := mul_nonneg hrr (by linarith)
  have r2 : 0 ≤ rf * (1 - Real.sin a) := mul_nonneg hrf (by linarith)
  have r3 : 0 ≤ rr * T := by positivity
  have r4 : 0 ≤ rf * T := by positivity
  have q : 0 ≤ (b - tw) / 4 * Real.tan a := mul_nonneg (by linarith) htn
  have k1 : (rr * (1 - Real.sin a)) * Real.tan a ≤ 2 * ((b - tw) / 4) * Real.tan a :=
    mul_le_mul_of_nonneg_right (by linarith) htn
  have k2 : (rf * (1 - Real.sin a)) * Real.tan a ≤ 2 * ((b - tw) / 4) * Real.tan a :=
    mul_le_mul_of_nonneg_right (by linarith) htn
  have e1 : tf - (b / 4 - tw / 4 - rf * (1 - Real.sin a)) * Real.tan a - rf * Real.cos a
      = tf - (b - tw) / 4 * Real.tan a - rf * T := by linear_combination f1
  have e2 : tf + (b / 4 - tw / 4 - rr * (1 - Real.sin a)) * Real.tan a + rr * Real.cos a
      = tf + (b - tw) / 4 * Real.tan a + rr * T := by linear_combination f2
  have e3 : (b / 4 - tw / 4 - rf * (1 - Real.sin a)) * Real.tan a
      = (b - tw) / 4 * Real.tan a - (rf * (1 - Real.sin a)) * Real.tan a := by ring
  have e4 : (b / 4 - tw / 4 - rr * (1 - Real.sin a)) * Real.tan a
      = (b - tw) / 4 * Real.tan a - (rr * (1 - Real.sin a)) * Real.tan a := by ring
  have d0 : 0 ≤ d := by linarith
  unfold taperedIPts
  dsimp only
  with_reducible repeat' apply boxed_append
  · boxes
  · apply boxed_toe_br hnf hrf a0 a1.le <;> dsimp only <;> linarith
  · apply boxed_root_br hnr hrr a0 a1.le <;> dsimp only <;> linarith
  · apply boxed_root_tr hnr hrr a0 a1.le <;> dsimp only <;> linarith
  · apply boxed_toe_tr hnf hrf a0 a1.le <;> dsimp only <;> linarith
  · boxes
  · apply boxed_toe_tl hnf hrf a0 a1.le <;> dsimp only <;> linarith
  · apply boxed_root_tl hnr hrr a0 a1.le <;> dsimp only <;> linarith
  · apply boxed_root_bl hnr hrr a0 a1.le <;> dsimp only <;> linarith
  · apply boxed_toe_bl hnf hrf a0 a1.le <;> dsimp only <;> linarith

theorem taperedI_symm_x (hnr : rr = 0 ∨ 2 ≤ nr) (hnf : rf = 0 ∨ 2 ≤ nr) :
    SymmetricUnder (fun p => (b - p.1, p.2)) (taperedIPts d b tf tw rr rf a nr) := by
  have t1 := fun y y' θ θ' => arc_mirror_x (pt := (b - rf, y)) (pt' := (rf, y')) (r := rf) (k := b) (n := nr) (θ := θ)
    (θ' := θ') (φ := Real.pi * (1 / 2) - a) (ccw := true) hnf 1 (by simp) (by simp)
  have t2 := fun y y' θ θ' => arc_mirror_x (pt := (rf, y)) (pt' := (b - rf, y')) (r := rf) (k := b) (n := nr) (θ := θ)
    (θ' := θ') (φ := Real.pi * (1 / 2) - a) (ccw := true) hnf 1 (by simp) (by simp)
  have t3 := fun y y' θ θ' => arc_mirror_x (pt := (b / 2 + tw / 2 + rr, y)) (pt' := (b / 2 - tw / 2 - rr, y')) (r := rr)
    (k := b) (n := nr) (θ := θ) (θ' := θ') (φ := Real.pi * (1 / 2) - a) (ccw := false) hnr (-1) (by simp)
    (by simp only; ring)
  have t4 := fun y y' θ θ' => arc_mirror_x (pt := (b / 2 - tw / 2 - rr, y)) (pt' := (b / 2 + tw / 2 + rr, y')) (r := rr)
    (k := b) (n := nr) (θ := θ) (θ' := θ') (φ := Real.pi * (1 / 2) - a) (ccw := false) hnr (-1) (by simp)
    (by simp only; ring)
  unfold taperedIPts
  dsimp only
  simp only [List.append_assoc _ (drawRadius _ _ _ _ _ _) (drawRadius _ _ _ _ _ _)]
  simp only [List.append_assoc _ (drawRadius _ _ _ _ _ _ ++ drawRadius _ _ _ _ _ _) (drawRadius _ _ _ _ _ _ ++ _)]
  refine symm_across (by simp) (by simp) ?_ ?_
  · simp only [List.map_append, List.reverse_append]
    rw [t1 _ _ 0 (Real.pi * (1 / 2) + a) rfl (by left; ring),
      t1 _ _ (3 / 2 * Real.pi + a) Real.pi rfl (by right; right; ring),
      t3 _ _ (3 / 2 * Real.pi - a) 0 rfl (by left; ring),
      t3 _ _ Real.pi (Real.pi * (1 / 2) - a) rfl (by left; ring)]
  · simp only [List.map_append, List.reverse_append]
    rw [t2 _ _ Real.pi (3 / 2 * Real.pi + a) rfl (by right; right; ring),
      t2 _ _ (Real.pi * (1 / 2) + a) 0 rfl (by left; ring),
      t4 _ _ (Real.pi * (1 / 2) - a) Real.pi rfl (by left; ring),
      t4 _ _ 0 (3 / 2 * Real.pi - a) rfl (by left; ring)]

theorem taperedI_symm_y (hnr : rr = 0 ∨ 2 ≤ nr) (hnf : rf = 0 ∨ 2 ≤ nr) :
    SymmetricUnder (fun p => (p.1, d - p.2)) (taperedIPts d b tf tw rr rf a nr) := by
  have t := fun x y y' θ θ' h => arc_mirror_y (pt := (x, y)) (pt' := (x, y')) (r := rf) (k := d) (n := nr) (θ := θ)
    (θ' := θ') (φ := Real.pi * (1 / 2) - a) (ccw := true) hnf 1 (by simp) rfl h
  have t' := fun x y y' θ θ' h => arc_mirror_y (pt := (x, y)) (pt' := (x, y')) (r := rr) (k := d) (n := nr) (θ := θ)
    (θ' := θ') (φ := Real.pi * (1 / 2) - a) (ccw := false) hnr (-1) (by simp) rfl h
  unfold taperedIPts
  dsimp only
  set yt := tf - (b / 4 - tw / 4 - rf * (1 - Real.sin a)) * Real.tan a - rf * Real.cos a
  set y2 := (b / 4 - tw / 4 - rr * (1 - Real.sin a)) * Real.tan a
  simp only [List.append_assoc _ (drawRadius _ _ _ _ _ _) (drawRadius _ _ _ _ _ _)]
  simp only [List.append_assoc _ (drawRadius _ _ _ _ _ _ ++ drawRadius _ _ _ _ _ _) (drawRadius _ _ _ _ _ _ ++ _)]
  refine symm_along (by simp) (by simp) ?_ ?_
  · simp only [List.map_append, List.reverse_append]
    rw [t _ yt (d - yt) 0 (3 / 2 * Real.pi + a) rfl (by right; right; ring),
      t _ (d - yt) yt (3 / 2 * Real.pi + a) 0 (by simp only; ring) (by right; right; ring),
      t' _ (tf + y2 + rr * Real.cos a) (d - tf - y2 - rr * Real.cos a) (3 / 2 * Real.pi - a) Real.pi (by simp only; ring)
        (by right; right; ring),
      t' _ (d - tf - y2 - rr * Real.cos a) (tf + y2 + rr * Real.cos a) Real.pi (3 / 2 * Real.pi - a) (by simp only; ring)
        (by right; right; ring)]
  · simp only [List.map_append, List.reverse_append]
    rw [t _ yt (d - yt) (Real.pi * (1 / 2) + a) Real.pi rfl (by right; right; ring),
      t _ (d - yt) yt Real.pi (Real.pi * (1 / 2) + a) (by simp only; ring) (by right; right; ring),
      t' _ (tf + y2 + rr * Real.cos a) (d - tf - y2 - rr * Real.cos a) 0 (Real.pi * (1 / 2) - a) (by simp only; ring)
        (by left; ring),
      t' _ (d - tf - y2 - rr * Real.cos a) (tf + y2 + rr * Real.cos a) (Real.pi * (1 / 2) - a) 0 (by simp only; ring)
        (by left; ring)]

end

/-! ### Tapered flange channels -/

section
variable {d b tf tw rr rf a : ℝ} {nr : ℕ}

theorem taperedChannel_area (hnr : rr = 0 ∨ 2 ≤ nr) (hnf : rf = 0 ∨ 2 ≤ nr) (a0 : 0 ≤ a) (a1 : a < Real.pi / 2) :
    ringArea2 (taperedChannelPts d b tf tw rr rf a nr) = 2 * (tw * d + 2 * ((b - tw) * tf)
      + 2 * cornerArea rr (Real.pi / 2 - a) nr - 2 * cornerArea rf (Real.pi / 2 - a) nr) := by
  obtain ⟨T, hT, e, hc, hs, ht⟩ := half_compl a0 a1
  rw [ringArea2_chain (L := taperedChannelPts d b tf tw rr rf a nr)
    (chain_append (chain_append (chain_append (chain_append
      (chain_append (chain_cons _ (chain_one _)) (toe_br hnf)) (root_br hnr)) (root_tr hnr)) (toe_tr hnf))
      (chain_cons _ (chain_one _)))]
  simp only [crossP, sector2_corner]
  rw [← e, hc, hs, ht]
  generalize cornerArea rr (Real.pi / 2 - a) nr = k1
  generalize cornerArea rf (Real.pi / 2 - a) nr = k2
  have : 1 + T ^ 2 ≠ 0 := by positivity
  field_simp
  ring

theorem taperedChannel_boxed (hb : 0 ≤ b) (htw : 0 ≤ tw) (hrr : 0 ≤ rr) (hrf : 0 ≤ rf) (hnr : rr = 0 ∨ 2 ≤ nr)
    (hnf : rf = 0 ∨ 2 ≤ nr) (a0 : 0 ≤ a) (a1 : a < Real.pi / 2)
    (hx : (rr + rf) * (1 - Real.sin a) ≤ b - tw)
    (htoe : (b - tw) / 2 * Real.tan a + rf * Real.tan ((Real.pi / 2 - a) / 2) ≤ tf)
    (hroot : tf + (b - tw) / 2 * Real.tan a + rr * Real.tan ((Real.pi / 2 - a) / 2) ≤ d / 2) :
    Boxed (0, b, 0, d) (taperedChannelPts d b tf tw rr rf a nr) := by
  have hs1 : Real.sin a ≤ 1 := Real.sin_le_one a
  have hs0 : 0 ≤ Real.sin a := Real.sin_nonneg_of_nonneg_of_le_pi a0 (by linarith [Real.pi_pos])
  obtain ⟨f1, f2⟩ := taper_facts (b := b) (w := tw) (tf := tf) (rr := rr) (rf := rf) a0 a1
  obtain ⟨T, hT, eT, hc, hs, ht⟩ := half_compl a0 a1
  have hct : 0 ≤ Real.cos a := by rw [hc]; positivity
  have htn : 0 ≤ Real.tan a := by rw [Real.tan_eq_sin_div_cos]; positivity
  rw [← eT] at f1 f2 htoe hroot
  have r1 : 0 ≤ rr * (1 - Real.sin a) := mul_nonneg hrr (by linarith)
  have r2 : 0 ≤ rf * (1 - Real.sin a) := mul_nonneg hrf (by linarith)
  have r3 : 0 ≤ rr * T := by positivity
  have r4 : 0 ≤ rf * T := by positivity
  have q : 0 ≤ (b - tw) / 2 * Real.tan a := mul_nonneg (by linarith) htn
  have k1 : (rr * (1 - Real.sin a)) * Real.tan a ≤ 2 * ((b - tw) / 2) * Real.tan a :=
    mul_le_mul_of_nonneg_right (by linarith) htn
  have k2 : (rf * (1 - Real.sin a)) * Real.tan a ≤ 2 * ((b - tw) / 2) * Real.tan a :=
    mul_le_mul_of_nonneg_right (by linarith) htn
  have e1 : tf - (b / 2 - tw / 2 - rf * (1 - Real.sin a)) * Real.tan a - rf * Real.cos a
      = tf - (b - tw) / 2 * Real.tan a - rf * T := by linear_combination f1
  have e2 : tf + (b / 2 - tw / 2 - rr * (1 - Real.sin a)) * Real.tan a + rr * Real.cos a
      = tf + (b - tw) / 2 * Real.tan a + rr * T := by linear_combination f2
  have e3 : (b / 2 - tw / 2 - rf * (1 - Real.sin a)) * Real.tan a
      = (b - tw) / 2 * Real.tan a - (rf * (1 - Real.sin a)) * Real.tan a := by ring
  have e4 : (b / 2 - tw / 2 - rr * (1 - Real.sin a)) * Real.tan a
      = (b - tw) / 2 * Real.tan a - (rr * (1 - Real.sin a)) * Real.tan a := by ring
  have d0 : 0 ≤ d := by linarith
  unfold taperedChannelPts
  dsimp only
  with_reducible repeat' apply boxed_append
  · boxes
  · apply boxed_toe_br hnf hrf a0 a1.le <;> dsimp only <;> linarith
  · apply boxed_root_br hnr hrr a0 a1.le <;> dsimp only <;> linarith
  · apply boxed_root_tr hnr hrr a0 a1.le <;> dsimp only <;> linarith
  · apply boxed_toe_tr hnf hrf a0 a1.le <;> dsimp only <;> linarith
  · boxes

theorem taperedChannel_symm_y (hnr : rr = 0 ∨ 2 ≤ nr) (hnf : rf = 0 ∨ 2 ≤ nr) :
    SymmetricUnder (fun p => (p.1, d - p.2)) (taperedChannelPts d b tf tw rr rf a nr) := by
  have t := fun x y y' θ θ' h => arc_mirror_y (pt := (x, y)) (pt' := (x, y')) (r := rf) (k := d) (n := nr) (θ := θ)
    (θ' := θ') (φ := Real.pi * (1 / 2) - a) (ccw := true) hnf 1 (by simp) rfl h
  have t' := fun x y y' θ θ' h => arc_mirror_y (pt := (x, y)) (pt' := (x, y')) (r := rr) (k := d) (n := nr) (θ := θ)
    (θ' := θ') (φ := Real.pi * (1 / 2) - a) (ccw := false) hnr (-1) (by simp) rfl h
  unfold taperedChannelPts
  dsimp only
  set yt := tf - (b / 2 - tw / 2 - rf * (1 - Real.sin a)) * Real.tan a - rf * Real.cos a
  set y2 := (b / 2 - tw / 2 - rr * (1 - Real.sin a)) * Real.tan a
  simp only [List.append_assoc _ (drawRadius _ _ _ _ _ _) (drawRadius _ _ _ _ _ _)]
  simp only [List.append_assoc _ (drawRadius _ _ _ _ _ _ ++ drawRadius _ _ _ _ _ _) (drawRadius _ _ _ _ _ _ ++ _)]
  rw [← List.append_nil (_ ++ _ ++ [(b, d), (0, d)])]
  refine symm_along (by simp) (by simp) ?_ rfl
  · simp only [List.map_append, List.reverse_append]
    rw [t _ yt (d - yt) 0 (3 / 2 * Real.pi + a) rfl (by right; right; ring),
      t _ (d - yt) yt (3 / 2 * Real.pi + a) 0 (by simp only; ring) (by right; right; ring),
      t' _ (tf + y2 + rr * Real.cos a) (d - tf - y2 - rr * Real.cos a) (3 / 2 * Real.pi - a) Real.pi (by simp only; ring)
        (by right; right; ring),
      t' _ (d - tf - y2 - rr * Real.cos a) (tf + y2 + rr * Real.cos a) Real.pi (3 / 2 * Real.pi - a) (by simp only; ring)
        (by right; right; ring)]

end

end SP
