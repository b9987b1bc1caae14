import Verif.Props.Library

/-!
# C48 continued: angle, hollow, cee and zed sections
-/

namespace SP

open Spec

theorem fillet_eq (r : ℝ) (n : ℕ) : fillet r n = fillet 1 n * r ^ 2 := by rw [fillet, fillet]; ring

theorem fillet_mul (r : ℝ) {n : ℕ} (hn : r = 0 ∨ 2 ≤ n) :
    ∃ k, 0 ≤ k ∧ k ≤ 1 / 2 ∧ fillet r n = k * r ^ 2 ∧ (r ≠ 0 → k = fillet 1 n) := by
  rcases hn with rfl | h
  · exact ⟨0, le_refl _, by norm_num, by simp, fun h => absurd rfl h⟩
  · refine ⟨fillet 1 n, fillet_nonneg 1 n, ?_, fillet_eq r n, fun _ => rfl⟩
    have := fillet_le 1 (Or.inr h)
    linarith

/-- `angle_section`.  A toe radius that `np.isclose` takes for the thickness without being equal to it is left
out: then the corners `(b, 0)` and `(0, d)` are dropped although the arcs do not reach them. -/
theorem C48_angle (ops : GeomOps) {d b t rr rt : ℝ} {nr : ℕ} (m : Material) (hd : 3 / 10 ^ 12 < d)
    (ht : 0 < t) (hrr : 0 ≤ rr) (hrt : 0 ≤ rt) (hn : rr = 0 ∨ 2 ≤ nr) (hn' : rt = 0 ∨ 2 ≤ nr)
    (hb : t + rr + rt ≤ b) (hh : t + rr + rt ≤ d) (htoe : rt = t ∨ rt < t ∧ ¬ npIsclose t rt) :
    ∃ g, angleSection ops d b t rr rt nr m = .ok g ∧
      Fits g (0, b, 0, d) (b * t + (d - t) * t + fillet rr nr - 2 * fillet rt nr)
        (rr = 0 ∧ rt = 0 ∧ Short [d, b, t]) := by
  have hle : rt ≤ t := htoe.elim le_of_eq fun h => h.1.le
  refine ⟨_, by rw [angleSection, if_neg (not_lt.2 hle)], ?_⟩
  have hf := fillet_nonneg rr nr
  have hpos : 0 ≤ b * t + (d - t) * t + fillet rr nr - 2 * fillet rt nr := by
    have h1 := fillet_le rt hn'
    have h2 : rt ^ 2 ≤ b * t := by nlinarith
    have h3 : 0 ≤ (d - t) * t := by nlinarith
    linarith
  rcases htoe with rfl | ⟨hlt, hnc⟩
  · have hc : npIsclose rt rt := by simp only [npIsclose, sub_self, abs_zero]; positivity
    have e : anglePts d b rt rr rt nr = [(0, 0)] ++ quarter (b - rt, rt - rt) rt 0 nr true
        ++ quarter (rt + rr, rt + rr) rr (3 / 2 * Real.pi) nr false ++ quarter (rt - rt, d - rt) rt 0 nr true := by
      rw [anglePts, if_pos hc, if_pos hc, List.append_nil, List.append_nil]
    rw [e]
    have c1 := chain_ccw_zero (pt := (b - rt, rt - rt)) hn'
    have c2 := chain_ccw_zero (pt := (rt - rt, d - rt)) hn'
    refine fits_solid ops ?_ hpos (by boxes) ⟨(0, 0), by simp, rfl⟩ ⟨(b - rt + rt, rt - rt), ?_, by simp⟩
      ⟨(0, 0), by simp, rfl⟩ ⟨(rt - rt, d - rt + rt), ?_, by simp⟩ (by right; linarith) ?_
    · rw [ringArea2_chain (chain_append (chain_append (chain_append (chain_one _) c1) (chain_cw_three hn)) c2)]
      shoelace
    · exact List.mem_append_left _ (List.mem_append_left _ (List.mem_append_right _ c1.head_mem))
    · exact List.mem_append_right _ c2.last_mem
    · rintro ⟨-, h0, -⟩; exact absurd h0 ht.ne'
  · have e : anglePts d b t rr rt nr = [(0, 0), (b, 0)] ++ quarter (b - rt, t - rt) rt 0 nr true
        ++ quarter (t + rr, t + rr) rr (3 / 2 * Real.pi) nr false ++ quarter (t - rt, d - rt) rt 0 nr true
        ++ [(0, d)] := by
      rw [anglePts, if_neg hnc, if_neg hnc]; rfl
    rw [e]
    refine fits_solid ops ?_ hpos (by boxes) ⟨(0, 0), by simp, rfl⟩ ⟨(b, 0), by simp, rfl⟩
      ⟨(0, 0), by simp, rfl⟩ ⟨(0, d), by simp, rfl⟩ (by right; linarith) ?_
    · rw [ringArea2_chain (chain_append (chain_append (chain_append (chain_append (chain_cons _ (chain_one _))
        (chain_ccw_zero hn')) (chain_cw_three hn)) (chain_ccw_zero hn')) (chain_one _))]
      shoelace
    · rintro ⟨rfl, rfl, g⟩; shorts g; grids

example := C48_angle exOps (d := 150) (b := 100) (t := 8) (rr := 12) (rt := 5) (nr := 16) defaultMaterial
  (by norm_num) (by norm_num) (by norm_num) (by norm_num) (Or.inr (by norm_num)) (Or.inr (by norm_num))
  (by norm_num) (by norm_num) (Or.inr ⟨by norm_num, by norm_num [npIsclose, abs_of_pos]⟩)

/-- A toe radius above the thickness is refused. -/
theorem C48_angle_refused (ops : GeomOps) {d b t rr rt : ℝ} {nr : ℕ} (m : Material) (h : t < rt) :
    angleSection ops d b t rr rt nr m = .error .valueError := by rw [angleSection, if_pos h]

example : (1 : ℝ) < 2 := by norm_num

/-- A rectangle with rounded corners. -/
theorem roundedRect_area {x0 x1 y0 y1 r : ℝ} {nr : ℕ} (hn : r = 0 ∨ 2 ≤ nr) :
    ringArea2 (roundedRect x0 x1 y0 y1 r nr) = 2 * ((x1 - x0) * (y1 - y0) - 4 * fillet r nr) := by
  rw [roundedRect, ringArea2_chain (chain_append (chain_append (chain_append (chain_ccw_pi hn)
    (chain_ccw_three hn)) (chain_ccw_zero hn)) (chain_ccw_half hn))]
  shoelace

theorem roundedRect_pos {x0 x1 y0 y1 r : ℝ} {nr : ℕ} (hn : r = 0 ∨ 2 ≤ nr) (hr : 0 ≤ r)
    (hx : x0 + 2 * r ≤ x1) (hy : y0 + 2 * r ≤ y1) : 0 ≤ (x1 - x0) * (y1 - y0) - 4 * fillet r nr := by
  have h1 := fillet_le r hn
  have : (2 * r) * (2 * r) ≤ (x1 - x0) * (y1 - y0) :=
    mul_le_mul (by linarith) (by linarith) (by linarith) (by linarith)
  nlinarith [sq_nonneg r]

/-- `rectangular_hollow_section`, with the default web thickness and inner radius if none is given. -/
theorem C48_rectangular_hollow (ops : GeomOps) {d b t rOut tw' rI : ℝ} {nr : ℕ} {rIn tw : Option ℝ} (m : Material)
    (htw : tw' = tw.getD t) (hrI : rI = rIn.getD (max (rOut - max t tw') 0))
    (hd : 3 / 10 ^ 12 < d) (ht : 0 < t) (ht' : 0 < tw') (hro : 0 ≤ rOut) (hri : 0 ≤ rI)
    (hn : rOut = 0 ∨ 2 ≤ nr) (hn' : rI = 0 ∨ 2 ≤ nr) (hb : 2 * rOut ≤ b) (hh : 2 * rOut ≤ d)
    (hib : 2 * tw' + 2 * rI ≤ b) (hih : 2 * t + 2 * rI ≤ d)
    (hcut : Cuts ops (roundedRect 0 b 0 d rOut nr) [roundedRect tw' (b - tw') t (d - t) rI nr]) :
    ∃ g, rectangularHollowSection ops d b t rOut nr rIn m tw = .ok g ∧
      Fits g (0, b, 0, d) (b * d - 4 * fillet rOut nr - ((b - 2 * tw') * (d - 2 * t) - 4 * fillet rI nr))
        (rOut = 0 ∧ rI = 0 ∧ Short [d, b, t, tw']) := by
  subst hrI htw
  rw [rectangularHollowSection]
  have c1 := chain_ccw_pi (pt := (0 + rOut, 0 + rOut)) hn
  have c2 := chain_ccw_zero (pt := (b - rOut, d - rOut)) hn
  refine fits_hollow ops hcut ?_ (by unfold roundedRect; boxes) ?_ ⟨(0 + rOut - rOut, 0 + rOut), ?_, by simp⟩
    ⟨(b - rOut + rOut, d - rOut), ?_, by simp⟩ ⟨(0 + rOut, 0 + rOut - rOut), ?_, by simp⟩
    ⟨(b - rOut, d - rOut + rOut), ?_, by simp⟩ (by right; linarith) ?_
  · simp only [List.map_cons, List.map_nil, List.sum_cons, List.sum_nil]
    have p1 := roundedRect_pos (x0 := 0) (x1 := b) (y0 := 0) (y1 := d) hn hro (by linarith) (by linarith)
    have p2 := roundedRect_pos (x0 := tw.getD t) (x1 := b - tw.getD t) (y0 := t) (y1 := d - t) hn' hri (by linarith)
      (by linarith)
    rw [roundedRect_area hn, roundedRect_area hn', abs_of_nonneg (by linarith), abs_of_nonneg (by linarith)]
    ring
  · intro r hr
    simp only [List.mem_singleton] at hr
    subst hr
    unfold roundedRect; boxes
  · exact List.mem_append_left _ (List.mem_append_left _ (List.mem_append_left _ c1.head_mem))
  · exact List.mem_append_left _ (List.mem_append_right _ c2.head_mem)
  · exact List.mem_append_left _ (List.mem_append_left _ (List.mem_append_left _ c1.last_mem))
  · exact List.mem_append_left _ (List.mem_append_right _ c2.last_mem)
  · rintro ⟨rfl, h0, g⟩
    rw [h0] at *
    refine ⟨by unfold roundedRect; shorts g; grids, fun r hr => ?_⟩
    simp only [List.mem_singleton] at hr
    subst hr
    unfold roundedRect; shorts g; grids

example := C48_rectangular_hollow exOps (d := 100) (b := 50) (t := 6) (rOut := 9) (nr := 8) (rIn := none)
  (tw := some 4) defaultMaterial rfl rfl (by norm_num) (by norm_num) (by norm_num) (by norm_num)
  (le_max_right _ _) (Or.inr (by norm_num)) (Or.inr (by norm_num)) (by norm_num) (by norm_num) (by norm_num)
  (by norm_num) rfl

/-- `cee_section` with lips longer than the outer radius. -/
theorem C48_cee (ops : GeomOps) {d b l t rOut : ℝ} {nr : ℕ} (m : Material) (hd : 3 / 10 ^ 12 < d) (ht : 0 < t)
    (hr : 0 ≤ rOut) (hn : rOut = 0 ∨ 2 ≤ nr) (hl : rOut < l) (htl : t ≤ l) (hdl : 2 * l ≤ d)
    (hb : 2 * rOut ≤ b) (hb' : 2 * t ≤ b) :
    Fits (ceeSection ops d b l t rOut nr m) (0, b, 0, d)
      (t * d + 2 * (t * (b - t)) + 2 * (t * (l - t)) - 4 * fillet rOut nr + 4 * fillet (max (rOut - t) 0) nr)
      (rOut = 0 ∧ Short [d, b, l, t]) := by
  have hn' : max (rOut - t) 0 = 0 ∨ 2 ≤ nr := by
    rcases hn with rfl | h
    · left; rw [max_eq_right]; linarith
    · exact Or.inr h
  have e : ceePts d b l t rOut nr = quarter (rOut, rOut) rOut Real.pi nr true
      ++ (quarter (b - rOut, rOut) rOut (3 / 2 * Real.pi) nr true ++ [(b, l), (b - t, l)]
            ++ quarter (b - t - max (rOut - t) 0, t + max (rOut - t) 0) (max (rOut - t) 0) 0 nr false)
      ++ quarter (t + max (rOut - t) 0, t + max (rOut - t) 0) (max (rOut - t) 0) (3 / 2 * Real.pi) nr false
      ++ quarter (t + max (rOut - t) 0, d - t - max (rOut - t) 0) (max (rOut - t) 0) Real.pi nr false
      ++ (quarter (b - t - max (rOut - t) 0, d - t - max (rOut - t) 0) (max (rOut - t) 0) (1 / 2 * Real.pi) nr false
            ++ [(b - t, d - l), (b, d - l)] ++ quarter (b - rOut, d - rOut) rOut 0 nr true)
      ++ quarter (rOut, d - rOut) rOut (1 / 2 * Real.pi) nr true := by
    rw [ceePts]; simp only [gt_iff_lt, if_pos hl]
  have hi : max (rOut - t) 0 ≤ l - t := max_le (by linarith) (by linarith)
  have hi2 : 2 * max (rOut - t) 0 ≤ b - 2 * t := by
    rcases max_choice (rOut - t) 0 with h | h <;> rw [h] <;> linarith
  have hi0 : 0 ≤ max (rOut - t) 0 := le_max_right _ _
  have c1 := chain_ccw_pi (pt := (rOut, rOut)) hn
  have c2 := chain_ccw_half (pt := (rOut, d - rOut)) hn
  have hpos : 0 ≤ t * d + 2 * (t * (b - t)) + 2 * (t * (l - t)) - 4 * fillet rOut nr
      + 4 * fillet (max (rOut - t) 0) nr := by
    obtain ⟨k, k0, k1, hk, hk'⟩ := fillet_mul rOut hn
    rcases le_total rOut t with h | h
    · rw [max_eq_right (by linarith), fillet_zero, hk]
      have : k * rOut ^ 2 ≤ 1 / 2 * (t * t) := mul_le_mul k1 (by nlinarith) (sq_nonneg _) (by norm_num)
      nlinarith
    · rw [max_eq_left (by linarith), fillet_eq (rOut - t), ← hk' (by linarith), hk]
      have h1 : k * (rOut ^ 2 - (rOut - t) ^ 2) ≤ 1 / 2 * (t * (2 * rOut - t)) := by
        have : rOut ^ 2 - (rOut - t) ^ 2 = t * (2 * rOut - t) := by ring
        rw [this]
        exact mul_le_mul_of_nonneg_right k1 (by nlinarith)
      nlinarith
  have hz : rOut = 0 → max (rOut - t) 0 = 0 := fun h => by rw [h, max_eq_right]; linarith
  rw [ceeSection, e]
  generalize max (rOut - t) 0 = rI at *
  refine fits_solid ops ?_ hpos (by boxes) ⟨(rOut - rOut, rOut), ?_, sub_self _⟩ ⟨(b, l), by simp, rfl⟩
    ⟨(rOut, rOut - rOut), ?_, sub_self _⟩ ⟨(rOut, d - rOut + rOut), ?_, by simp⟩ (by right; linarith) ?_
  · rw [ringArea2_chain (chain_append (chain_append (chain_append (chain_append (chain_append c1
      (chain_append (chain_append (chain_ccw_three hn) (chain_cons _ (chain_one _))) (chain_cw_zero hn')))
      (chain_cw_three hn')) (chain_cw_pi hn'))
      (chain_append (chain_append (chain_cw_half hn') (chain_cons _ (chain_one _))) (chain_ccw_zero hn))) c2)]
    shoelace
  · have := c1.head_mem
    dsimp only at this; simp only [List.mem_append, this, true_or, or_true]
  · have := c1.last_mem
    dsimp only at this; simp only [List.mem_append, this, true_or, or_true]
  · exact List.mem_append_right _ c2.head_mem
  · rintro ⟨rfl, g⟩
    obtain rfl := hz rfl
    shorts g; grids

example := C48_cee exOps (d := 200) (b := 75) (l := 20) (t := 19 / 10) (rOut := 8) (nr := 12) defaultMaterial
  (by norm_num) (by norm_num) (by norm_num) (Or.inr (by norm_num)) (by norm_num) (by norm_num) (by norm_num)
  (by norm_num) (by norm_num)

/-- `cee_section` with lips not longer than the outer radius: the lip is the curved part alone. -/
theorem C48_cee_short_lip (ops : GeomOps) {d b l t rOut : ℝ} {nr : ℕ} (m : Material) (hd : 3 / 10 ^ 12 < d)
    (ht : 0 < t) (hn : 2 ≤ nr) (hl : l ≤ rOut) (htl : t < l) (hdl : 2 * rOut ≤ d) (hb : rOut + l ≤ b) :
    Documented (ceeSection ops d b l t rOut nr m) (0, b, 0, d)
      (t * d + 2 * (t * (b - t)) + 2 * (t * (l - t)) - 2 * fillet rOut nr + 2 * fillet (rOut - t) nr
        - 2 * fillet l nr + 2 * fillet (l - t) nr) := by
  have hr : 0 < rOut := by linarith
  have hn1 : rOut = 0 ∨ 2 ≤ nr := Or.inr hn
  have hn2 : rOut - t = 0 ∨ 2 ≤ nr := Or.inr hn
  have hn3 : l = 0 ∨ 2 ≤ nr := Or.inr hn
  have hn4 : l - t = 0 ∨ 2 ≤ nr := Or.inr hn
  have hri : 0 ≤ rOut - t := by linarith
  have hli : 0 ≤ l - t := by linarith
  have hl0 : 0 ≤ l := by linarith
  have hr0 : 0 ≤ rOut := hr.le
  have e : ceePts d b l t rOut nr = quarter (rOut, rOut) rOut Real.pi nr true
      ++ (quarter (b - l, l) l (3 / 2 * Real.pi) nr true ++ quarter (b - t - (l - t), t + (l - t)) (l - t) 0 nr false)
      ++ quarter (t + (rOut - t), t + (rOut - t)) (rOut - t) (3 / 2 * Real.pi) nr false
      ++ quarter (t + (rOut - t), d - t - (rOut - t)) (rOut - t) Real.pi nr false
      ++ (quarter (b - t - (l - t), d - t - (l - t)) (l - t) (1 / 2 * Real.pi) nr false
            ++ quarter (b - l, d - l) l 0 nr true)
      ++ quarter (rOut, d - rOut) rOut (1 / 2 * Real.pi) nr true := by
    rw [ceePts]
    simp only [gt_iff_lt, if_neg (not_lt.2 hl), if_pos htl, max_eq_left hri, max_eq_left hli]
  have c1 := chain_ccw_pi (pt := (rOut, rOut)) hn1
  have c2 := chain_ccw_half (pt := (rOut, d - rOut)) hn1
  have c3 := chain_ccw_three (pt := (b - l, l)) hn3
  have hpos : 0 ≤ t * d + 2 * (t * (b - t)) + 2 * (t * (l - t)) - 2 * fillet rOut nr + 2 * fillet (rOut - t) nr
        - 2 * fillet l nr + 2 * fillet (l - t) nr := by
    have k0 := fillet_nonneg 1 nr
    have k1 := fillet_le 1 (Or.inr hn)
    rw [fillet_eq rOut, fillet_eq (rOut - t), fillet_eq l, fillet_eq (l - t)]
    have h1 : fillet 1 nr * (t * (2 * rOut - t)) ≤ 1 / 2 * (t * (2 * rOut - t)) :=
      mul_le_mul_of_nonneg_right (by linarith) (by nlinarith)
    have h2 : fillet 1 nr * (t * (2 * l - t)) ≤ 1 / 2 * (t * (2 * l - t)) :=
      mul_le_mul_of_nonneg_right (by linarith) (by nlinarith)
    nlinarith
  rw [ceeSection, e]
  refine (fits_solid (E := False) ops ?_ hpos (by boxes) ⟨(rOut - rOut, rOut), ?_, sub_self _⟩
    ⟨(b - l + l, l), ?_, by simp⟩ ⟨(rOut, rOut - rOut), ?_, sub_self _⟩
    ⟨(rOut, d - rOut + rOut), ?_, by simp⟩ (by right; linarith) (fun h => h.elim)).1
  · rw [ringArea2_chain (chain_append (chain_append (chain_append (chain_append (chain_append c1
      (chain_append c3 (chain_cw_zero hn4))) (chain_cw_three hn2)) (chain_cw_pi hn2))
      (chain_append (chain_cw_half hn4) (chain_ccw_zero hn3))) c2)]
    shoelace
  · have := c1.head_mem
    dsimp only at this; simp only [List.mem_append, this, true_or, or_true]
  · have := c3.last_mem
    dsimp only at this; simp only [List.mem_append, this, true_or, or_true]
  · have := c1.last_mem
    dsimp only at this; simp only [List.mem_append, this, true_or, or_true]
  · exact List.mem_append_right _ c2.head_mem

example := C48_cee_short_lip exOps (d := 200) (b := 75) (l := 6) (t := 2) (rOut := 8) (nr := 12) defaultMaterial
  (by norm_num) (by norm_num) (by norm_num) (by norm_num) (by norm_num) (by norm_num) (by norm_num)

/-- `cee_section` without lips: a lip not longer than the thickness is no lip. -/
theorem C48_cee_no_lip (ops : GeomOps) {d b l t rOut : ℝ} {nr : ℕ} (m : Material) (hd : 3 / 10 ^ 12 < d)
    (ht : 0 < t) (hr : 0 ≤ rOut) (hn : rOut = 0 ∨ 2 ≤ nr) (hl : l ≤ rOut) (htl : l ≤ t) (hdl : 2 * rOut ≤ d)
    (hdt : 2 * t ≤ d) (hb : rOut ≤ b) (hb' : t ≤ b) :
    Fits (ceeSection ops d b l t rOut nr m) (0, b, 0, d)
      (t * d + 2 * (t * (b - t)) - 2 * fillet rOut nr + 2 * fillet (max (rOut - t) 0) nr)
      (rOut = 0 ∧ Short [d, b, t]) := by
  have hn' : max (rOut - t) 0 = 0 ∨ 2 ≤ nr := by
    rcases hn with rfl | h
    · left; rw [max_eq_right]; linarith
    · exact Or.inr h
  have e : ceePts d b l t rOut nr = quarter (rOut, rOut) rOut Real.pi nr true ++ [(b, 0), (b, t)]
      ++ quarter (t + max (rOut - t) 0, t + max (rOut - t) 0) (max (rOut - t) 0) (3 / 2 * Real.pi) nr false
      ++ quarter (t + max (rOut - t) 0, d - t - max (rOut - t) 0) (max (rOut - t) 0) Real.pi nr false
      ++ [(b, d - t), (b, d)] ++ quarter (rOut, d - rOut) rOut (1 / 2 * Real.pi) nr true := by
    rw [ceePts]; simp only [gt_iff_lt, if_neg (not_lt.2 hl), if_neg (not_lt.2 htl)]
  have hi : max (rOut - t) 0 ≤ b - t := max_le (by linarith) (by linarith)
  have hi2 : 2 * max (rOut - t) 0 ≤ d - 2 * t := by
    rcases max_choice (rOut - t) 0 with h | h <;> rw [h] <;> linarith
  have hi0 : 0 ≤ max (rOut - t) 0 := le_max_right _ _
  have c1 := chain_ccw_pi (pt := (rOut, rOut)) hn
  have c2 := chain_ccw_half (pt := (rOut, d - rOut)) hn
  have hpos : 0 ≤ t * d + 2 * (t * (b - t)) - 2 * fillet rOut nr + 2 * fillet (max (rOut - t) 0) nr := by
    obtain ⟨k, k0, k1, hk, hk'⟩ := fillet_mul rOut hn
    rcases le_total rOut t with h | h
    · rw [max_eq_right (by linarith), fillet_zero, hk]
      have : k * rOut ^ 2 ≤ 1 / 2 * (t * t) := mul_le_mul k1 (by nlinarith) (sq_nonneg _) (by norm_num)
      nlinarith
    · rw [max_eq_left (by linarith), fillet_eq (rOut - t), ← hk' (by linarith), hk]
      have h1 : k * (rOut ^ 2 - (rOut - t) ^ 2) ≤ 1 / 2 * (t * (2 * rOut - t)) := by
        have : rOut ^ 2 - (rOut - t) ^ 2 = t * (2 * rOut - t) := by ring
        rw [this]
        exact mul_le_mul_of_nonneg_right k1 (by nlinarith)
      nlinarith
  have hz : rOut = 0 → max (rOut - t) 0 = 0 := fun h => by rw [h, max_eq_right]; linarith
  rw [ceeSection, e]
  generalize max (rOut - t) 0 = rI at *
  refine fits_solid ops ?_ hpos (by boxes) ⟨(rOut - rOut, rOut), ?_, sub_self _⟩ ⟨(b, 0), by simp, rfl⟩
    ⟨(rOut, rOut - rOut), ?_, sub_self _⟩ ⟨(rOut, d - rOut + rOut), ?_, by simp⟩ (by right; linarith) ?_
  · rw [ringArea2_chain (chain_append (chain_append (chain_append (chain_append (chain_append c1
      (chain_cons _ (chain_one _))) (chain_cw_three hn')) (chain_cw_pi hn')) (chain_cons _ (chain_one _))) c2)]
    shoelace
  · have := c1.head_mem
    dsimp only at this; simp only [List.mem_append, this, true_or, or_true]
  · have := c1.last_mem
    dsimp only at this; simp only [List.mem_append, this, true_or, or_true]
  · exact List.mem_append_right _ c2.head_mem
  · rintro ⟨rfl, g⟩
    obtain rfl := hz rfl
    shorts g; grids

example := C48_cee_no_lip exOps (d := 200) (b := 75) (l := 0) (t := 2) (rOut := 8) (nr := 12) defaultMaterial
  (by norm_num) (by norm_num) (by norm_num) (Or.inr (by norm_num)) (by norm_num) (by norm_num) (by norm_num)
  (by norm_num) (by norm_num) (by norm_num)

/-- `zed_section` with lips longer than the outer radius: the web is between `x = 0` and `x = t`, the top
flange reaches `b_l` to the left of the right face of the web, the bottom flange `b_r` to the right of its
left face. -/
theorem C48_zed (ops : GeomOps) {d bl br l t rOut : ℝ} {nr : ℕ} (m : Material) (hd : 3 / 10 ^ 12 < d) (ht : 0 < t)
    (hr : 0 ≤ rOut) (hn : rOut = 0 ∨ 2 ≤ nr) (hl : rOut < l) (htl : t ≤ l) (hdl : 2 * l ≤ d)
    (hbl : 2 * rOut ≤ bl) (hbl' : 2 * t ≤ bl) (hbr : 2 * rOut ≤ br) (hbr' : 2 * t ≤ br) :
    Fits (zedSection ops d bl br l t rOut nr m) (t - bl, br, 0, d)
      (t * d + t * (bl - t) + t * (br - t) + 2 * (t * (l - t)) - 4 * fillet rOut nr
        + 4 * fillet (max (rOut - t) 0) nr)
      (rOut = 0 ∧ Short [d, bl, br, l, t]) := by
  have hn' : max (rOut - t) 0 = 0 ∨ 2 ≤ nr := by
    rcases hn with rfl | h
    · left; rw [max_eq_right]; linarith
    · exact Or.inr h
  have e : zedPts d bl br l t rOut nr = quarter (rOut, rOut) rOut Real.pi nr true
      ++ (quarter (br - rOut, rOut) rOut (3 / 2 * Real.pi) nr true ++ [(br, l), (br - t, l)]
            ++ quarter (br - t - max (rOut - t) 0, t + max (rOut - t) 0) (max (rOut - t) 0) 0 nr false)
      ++ quarter (t + max (rOut - t) 0, t + max (rOut - t) 0) (max (rOut - t) 0) (3 / 2 * Real.pi) nr false
      ++ quarter (t - rOut, d - rOut) rOut 0 nr true
      ++ (quarter (t - bl + rOut, d - rOut) rOut (1 / 2 * Real.pi) nr true ++ [(t - bl, d - l), (t - bl + t, d - l)]
            ++ quarter (2 * t - bl + max (rOut - t) 0, d - t - max (rOut - t) 0) (max (rOut - t) 0) Real.pi nr false)
      ++ quarter (-max (rOut - t) 0, d - t - max (rOut - t) 0) (max (rOut - t) 0) (1 / 2 * Real.pi) nr false := by
    rw [zedPts]; simp only [gt_iff_lt, if_pos hl]
  have hi : max (rOut - t) 0 ≤ l - t := max_le (by linarith) (by linarith)
  have hi2 : 2 * max (rOut - t) 0 ≤ bl - 2 * t := by
    rcases max_choice (rOut - t) 0 with h | h <;> rw [h] <;> linarith
  have hi3 : 2 * max (rOut - t) 0 ≤ br - 2 * t := by
    rcases max_choice (rOut - t) 0 with h | h <;> rw [h] <;> linarith
  have hi0 : 0 ≤ max (rOut - t) 0 := le_max_right _ _
  have c1 := chain_ccw_pi (pt := (rOut, rOut)) hn
  have c2 := chain_ccw_zero (pt := (t - rOut, d - rOut)) hn
  have hpos : 0 ≤ t * d + t * (bl - t) + t * (br - t) + 2 * (t * (l - t)) - 4 * fillet rOut nr
      + 4 * fillet (max (rOut - t) 0) nr := by
    obtain ⟨k, k0, k1, hk, hk'⟩ := fillet_mul rOut hn
    rcases le_total rOut t with h | h
    · rw [max_eq_right (by linarith), fillet_zero, hk]
      have : k * rOut ^ 2 ≤ 1 / 2 * (t * t) := mul_le_mul k1 (by nlinarith) (sq_nonneg _) (by norm_num)
      nlinarith
    · rw [max_eq_left (by linarith), fillet_eq (rOut - t), ← hk' (by linarith), hk]
      have h1 : k * (rOut ^ 2 - (rOut - t) ^ 2) ≤ 1 / 2 * (t * (2 * rOut - t)) := by
        have : rOut ^ 2 - (rOut - t) ^ 2 = t * (2 * rOut - t) := by ring
        rw [this]
        exact mul_le_mul_of_nonneg_right k1 (by nlinarith)
      nlinarith
  have hz : rOut = 0 → max (rOut - t) 0 = 0 := fun h => by rw [h, max_eq_right]; linarith
  rw [zedSection, e]
  generalize max (rOut - t) 0 = rI at *
  refine fits_solid ops ?_ hpos (by boxes) ⟨(t - bl, d - l), by simp, rfl⟩ ⟨(br, l), by simp, rfl⟩
    ⟨(rOut, rOut - rOut), ?_, sub_self _⟩ ⟨(t - rOut, d - rOut + rOut), ?_, by simp⟩ (by right; linarith) ?_
  · rw [ringArea2_chain (chain_append (chain_append (chain_append (chain_append (chain_append c1
      (chain_append (chain_append (chain_ccw_three hn) (chain_cons _ (chain_one _))) (chain_cw_zero hn')))
      (chain_cw_three hn')) c2)
      (chain_append (chain_append (chain_ccw_half hn) (chain_cons _ (chain_one _))) (chain_cw_pi hn')))
      (chain_cw_half hn'))]
    shoelace
  · have := c1.last_mem
    dsimp only at this; simp only [List.mem_append, this, true_or, or_true]
  · have := c2.last_mem
    dsimp only at this; simp only [List.mem_append, this, true_or, or_true]
  · rintro ⟨rfl, g⟩
    obtain rfl := hz rfl
    shorts g; grids

example := C48_zed exOps (d := 100) (bl := 40) (br := 50) (l := 20) (t := 2) (rOut := 3) (nr := 8) defaultMaterial
  (by norm_num) (by norm_num) (by norm_num) (Or.inr (by norm_num)) (by norm_num) (by norm_num) (by norm_num)
  (by norm_num) (by norm_num) (by norm_num) (by norm_num)

/-- `zed_section` with lips not longer than the outer radius. -/
theorem C48_zed_short_lip (ops : GeomOps) {d bl br l t rOut : ℝ} {nr : ℕ} (m : Material) (hd : 3 / 10 ^ 12 < d)
    (ht : 0 < t) (hn : 2 ≤ nr) (hl : l ≤ rOut) (htl : t < l) (hdl : rOut + l ≤ d) (hbl : rOut + l ≤ bl)
    (hbr : rOut + l ≤ br) :
    Documented (zedSection ops d bl br l t rOut nr m) (t - bl, br, 0, d)
      (t * d + t * (bl - t) + t * (br - t) + 2 * (t * (l - t)) - 2 * fillet rOut nr + 2 * fillet (rOut - t) nr
        - 2 * fillet l nr + 2 * fillet (l - t) nr) := by
  have hr0 : 0 ≤ rOut := by linarith
  have hn1 : rOut = 0 ∨ 2 ≤ nr := Or.inr hn
  have hn2 : rOut - t = 0 ∨ 2 ≤ nr := Or.inr hn
  have hn3 : l = 0 ∨ 2 ≤ nr := Or.inr hn
  have hn4 : l - t = 0 ∨ 2 ≤ nr := Or.inr hn
  have hri : 0 ≤ rOut - t := by linarith
  have hli : 0 ≤ l - t := by linarith
  have hl0 : 0 ≤ l := by linarith
  have e : zedPts d bl br l t rOut nr = quarter (rOut, rOut) rOut Real.pi nr true
      ++ (quarter (br - l, l) l (3 / 2 * Real.pi) nr true
            ++ quarter (br - t - (l - t), t + (l - t)) (l - t) 0 nr false)
      ++ quarter (t + (rOut - t), t + (rOut - t)) (rOut - t) (3 / 2 * Real.pi) nr false
      ++ quarter (t - rOut, d - rOut) rOut 0 nr true
      ++ (quarter (t - bl + l, d - l) l (1 / 2 * Real.pi) nr true
            ++ quarter (2 * t - bl + (l - t), d - t - (l - t)) (l - t) Real.pi nr false)
      ++ quarter (-(rOut - t), d - t - (rOut - t)) (rOut - t) (1 / 2 * Real.pi) nr false := by
    rw [zedPts]
    simp only [gt_iff_lt, if_neg (not_lt.2 hl), if_pos htl, max_eq_left hri, max_eq_left hli]
  have c1 := chain_ccw_pi (pt := (rOut, rOut)) hn1
  have c2 := chain_ccw_zero (pt := (t - rOut, d - rOut)) hn1
  have c3 := chain_ccw_three (pt := (br - l, l)) hn3
  have c4 := chain_ccw_half (pt := (t - bl + l, d - l)) hn3
  have hpos : 0 ≤ t * d + t * (bl - t) + t * (br - t) + 2 * (t * (l - t)) - 2 * fillet rOut nr
        + 2 * fillet (rOut - t) nr - 2 * fillet l nr + 2 * fillet (l - t) nr := by
    have k0 := fillet_nonneg 1 nr
    have k1 := fillet_le 1 (Or.inr hn)
    rw [fillet_eq rOut, fillet_eq (rOut - t), fillet_eq l, fillet_eq (l - t)]
    have h1 : fillet 1 nr * (t * (2 * rOut - t)) ≤ 1 / 2 * (t * (2 * rOut - t)) :=
      mul_le_mul_of_nonneg_right (by linarith) (by nlinarith)
    have h2 : fillet 1 nr * (t * (2 * l - t)) ≤ 1 / 2 * (t * (2 * l - t)) :=
      mul_le_mul_of_nonneg_right (by linarith) (by nlinarith)
    nlinarith
  rw [zedSection, e]
  refine (fits_solid (E := False) ops ?_ hpos (by boxes) ⟨(t - bl + l - l, d - l), ?_, by simp⟩
    ⟨(br - l + l, l), ?_, by simp⟩ ⟨(rOut, rOut - rOut), ?_, sub_self _⟩
    ⟨(t - rOut, d - rOut + rOut), ?_, by simp⟩ (by right; linarith) (fun h => h.elim)).1
  · rw [ringArea2_chain (chain_append (chain_append (chain_append (chain_append (chain_append c1
      (chain_append c3 (chain_cw_zero hn4))) (chain_cw_three hn2)) c2)
      (chain_append c4 (chain_cw_pi hn4))) (chain_cw_half hn2))]
    shoelace
  · have := c4.last_mem
    dsimp only at this; simp only [List.mem_append, this, true_or, or_true]
  · have := c3.last_mem
    dsimp only at this; simp only [List.mem_append, this, true_or, or_true]
  · have := c1.last_mem
    dsimp only at this; simp only [List.mem_append, this, true_or, or_true]
  · have := c2.last_mem
    dsimp only at this; simp only [List.mem_append, this, true_or, or_true]

example := C48_zed_short_lip exOps (d := 100) (bl := 40) (br := 50) (l := 3) (t := 2) (rOut := 5) (nr := 8)
  defaultMaterial (by norm_num) (by norm_num) (by norm_num) (by norm_num) (by norm_num) (by norm_num) (by norm_num)
  (by norm_num)

/-- `zed_section` without lips. -/
theorem C48_zed_no_lip (ops : GeomOps) {d bl br l t rOut : ℝ} {nr : ℕ} (m : Material) (hd : 3 / 10 ^ 12 < d)
    (ht : 0 < t) (hr : 0 ≤ rOut) (hn : rOut = 0 ∨ 2 ≤ nr) (hl : l ≤ rOut) (htl : l ≤ t) (hdl : rOut + t ≤ d)
    (hdt : 2 * t ≤ d) (hbl : rOut ≤ bl) (hbl' : t ≤ bl) (hbr : rOut ≤ br) (hbr' : t ≤ br) :
    Fits (zedSection ops d bl br l t rOut nr m) (t - bl, br, 0, d)
      (t * d + t * (bl - t) + t * (br - t) - 2 * fillet rOut nr + 2 * fillet (max (rOut - t) 0) nr)
      (rOut = 0 ∧ Short [d, bl, br, t]) := by
  have hn' : max (rOut - t) 0 = 0 ∨ 2 ≤ nr := by
    rcases hn with rfl | h
    · left; rw [max_eq_right]; linarith
    · exact Or.inr h
  have e : zedPts d bl br l t rOut nr = quarter (rOut, rOut) rOut Real.pi nr true ++ [(br, 0), (br, t)]
      ++ quarter (t + max (rOut - t) 0, t + max (rOut - t) 0) (max (rOut - t) 0) (3 / 2 * Real.pi) nr false
      ++ quarter (t - rOut, d - rOut) rOut 0 nr true
      ++ [(t - bl, d), (t - bl, d - t)]
      ++ quarter (-max (rOut - t) 0, d - t - max (rOut - t) 0) (max (rOut - t) 0) (1 / 2 * Real.pi) nr false := by
    rw [zedPts]; simp only [gt_iff_lt, if_neg (not_lt.2 hl), if_neg (not_lt.2 htl)]
  have hi2 : max (rOut - t) 0 ≤ bl - t := max_le (by linarith) (by linarith)
  have hi3 : max (rOut - t) 0 ≤ br - t := max_le (by linarith) (by linarith)
  have hi4 : max (rOut - t) 0 ≤ d - 2 * t := max_le (by linarith) (by linarith)
  have hi0 : 0 ≤ max (rOut - t) 0 := le_max_right _ _
  have c1 := chain_ccw_pi (pt := (rOut, rOut)) hn
  have hpos : 0 ≤ t * d + t * (bl - t) + t * (br - t) - 2 * fillet rOut nr + 2 * fillet (max (rOut - t) 0) nr := by
    obtain ⟨k, k0, k1, hk, hk'⟩ := fillet_mul rOut hn
    rcases le_total rOut t with h | h
    · rw [max_eq_right (by linarith), fillet_zero, hk]
      have : k * rOut ^ 2 ≤ 1 / 2 * (t * t) := mul_le_mul k1 (by nlinarith) (sq_nonneg _) (by norm_num)
      nlinarith
    · rw [max_eq_left (by linarith), fillet_eq (rOut - t), ← hk' (by linarith), hk]
      have h1 : k * (rOut ^ 2 - (rOut - t) ^ 2) ≤ 1 / 2 * (t * (2 * rOut - t)) := by
        have : rOut ^ 2 - (rOut - t) ^ 2 = t * (2 * rOut - t) := by ring
        rw [this]
        exact mul_le_mul_of_nonneg_right k1 (by nlinarith)
      nlinarith
  have hz : rOut = 0 → max (rOut - t) 0 = 0 := fun h => by rw [h, max_eq_right]; linarith
  rw [zedSection, e]
  generalize max (rOut - t) 0 = rI at *
  refine fits_solid ops ?_ hpos (by boxes) ⟨(t - bl, d), by simp, rfl⟩ ⟨(br, 0), by simp, rfl⟩
    ⟨(br, 0), by simp, rfl⟩ ⟨(t - bl, d), by simp, rfl⟩ (by right; linarith) ?_
  · rw [ringArea2_chain (chain_append (chain_append (chain_append (chain_append (chain_append c1
      (chain_cons _ (chain_one _))) (chain_cw_three hn')) (chain_ccw_zero hn)) (chain_cons _ (chain_one _)))
      (chain_cw_half hn'))]
    shoelace
  · rintro ⟨rfl, g⟩
    obtain rfl := hz rfl
    shorts g; grids

example := C48_zed_no_lip exOps (d := 100) (bl := 40) (br := 50) (l := 0) (t := 2) (rOut := 5) (nr := 8)
  defaultMaterial (by norm_num) (by norm_num) (by norm_num) (Or.inr (by norm_num)) (by norm_num) (by norm_num)
  (by norm_num) (by norm_num) (by norm_num) (by norm_num) (by norm_num) (by norm_num)

end SP
