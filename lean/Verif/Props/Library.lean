import Verif.Lemmas.Library

/-!
# C48: dimensions and areas of the library sections

`Fits g box A exact`: bounding box and area of the geometry are the documented ones, up to the rounding of
the vertices to 12 decimals, and exactly so if `exact` holds.
-/

namespace SP

open Spec

theorem C48_rectangular (ops : GeomOps) {d b : ℝ} (m : Material) (hd : 3 / 10 ^ 12 < d) (hb : 0 < b) :
    Fits (rectangularSection ops d b m) (0, b, 0, d) (b * d) (Short [d, b]) := by
  have hd0 : 0 < d := lt_trans (by positivity) hd
  refine fits_solid ops (by shoelace) (by positivity) (by boxes)
    ⟨(0, 0), by simp, rfl⟩ ⟨(b, 0), by simp, rfl⟩ ⟨(0, 0), by simp, rfl⟩ ⟨(b, d), by simp, rfl⟩
    (by right; linarith) fun g => ?_
  shorts g; grids

example := C48_rectangular exOps (d := 100) (b := 50) defaultMaterial (by norm_num) (by norm_num)

theorem C48_triangular (ops : GeomOps) {b h : ℝ} (m : Material) (hh : 3 / 10 ^ 12 < h) (hb : 0 < b) :
    Fits (triangularSection ops b h m) (0, b, 0, h) (b * h / 2) (Short [b, h]) := by
  have hd0 : 0 < h := lt_trans (by positivity) hh
  refine fits_solid ops (by shoelace) (by positivity) (by boxes)
    ⟨(0, 0), by simp, rfl⟩ ⟨(b, 0), by simp, rfl⟩ ⟨(0, 0), by simp, rfl⟩ ⟨(0, h), by simp, rfl⟩
    (by right; linarith) fun g => ?_
  shorts g; grids

example := C48_triangular exOps (b := 10) (h := 20) defaultMaterial (by norm_num) (by norm_num)

theorem C48_triangular_radius (ops : GeomOps) {b : ℝ} {nr : ℕ} (m : Material) (hb : 3 / 10 ^ 12 < b)
    (hn : 2 ≤ nr) :
    Documented (triangularRadiusSection ops b nr m) (0, b, 0, b) (fillet b nr) := by
  have hb0 : 0 < b := lt_trans (by positivity) hb
  have hn' : b = 0 ∨ 2 ≤ nr := Or.inr hn
  have hc := chain_cw_three (pt := (b, b)) hn'
  have e : (0, 0) :: quarter (b, b) b (3 * Real.pi / 2) nr false
      = (0, 0) :: quarter (b, b) b (3 / 2 * Real.pi) nr false := by
    rw [show 3 * Real.pi / 2 = 3 / 2 * Real.pi by ring]
  rw [triangularRadiusSection, e]
  have hA : ringArea2 ((0, 0) :: quarter (b, b) b (3 / 2 * Real.pi) nr false) = 2 * fillet b nr := by
    rw [ringArea2_chain (chain_cons (0, 0) hc)]; shoelace
  refine (fits_solid (E := False) ops hA (fillet_nonneg b nr) (by boxes)
    ⟨(0, 0), by simp, rfl⟩ ⟨(b, 0), ?_, rfl⟩ ⟨(0, 0), by simp, rfl⟩ ⟨(0, b), ?_, rfl⟩
    (by right; linarith) (fun h => h.elim)).1
  · have := hc.head_mem; simp only [sub_self] at this; exact List.mem_cons_of_mem _ this
  · have := hc.last_mem; simp only [sub_self] at this; exact List.mem_cons_of_mem _ this

example := C48_triangular_radius exOps (b := 6) (nr := 16) defaultMaterial (by norm_num) (by norm_num)

theorem C48_cruciform (ops : GeomOps) {d b t r : ℝ} {nr : ℕ} (m : Material) (hd : 3 / 10 ^ 12 < d) (ht : 0 < t)
    (hr : 0 ≤ r) (hn : r = 0 ∨ 2 ≤ nr) (hb : t + 2 * r ≤ b) (hh : t + 2 * r ≤ d) :
    Fits (cruciformSection ops d b t r nr m) (-b / 2, b / 2, -d / 2, d / 2)
      (b * t + (d - t) * t + 4 * fillet r nr) (r = 0 ∧ Short [d, b, t]) := by
  have hf := fillet_nonneg r nr
  refine fits_solid ops (L := cruciformPts d b t r nr) ?_ ?_ (by unfold cruciformPts; boxes)
    ⟨(-b / 2, t / 2), by simp [cruciformPts], rfl⟩ ⟨(b / 2, t / 2), by simp [cruciformPts], rfl⟩
    ⟨(t / 2, -d / 2), by simp [cruciformPts], rfl⟩ ⟨(t / 2, d / 2), by simp [cruciformPts], rfl⟩
    (by right; linarith) ?_
  · rw [ringArea2_chain (L := cruciformPts d b t r nr)
      (chain_append (chain_append (chain_append (chain_append (chain_append (chain_append (chain_append
        (chain_cons _ (chain_one _)) (chain_cw_pi hn)) (chain_cons _ (chain_one _))) (chain_cw_three hn))
        (chain_cons _ (chain_one _))) (chain_cw_zero hn)) (chain_cons _ (chain_one _))) (chain_cw_half hn))]
    shoelace
  · have : 0 ≤ b * t := by nlinarith
    have : 0 ≤ (d - t) * t := by nlinarith
    linarith
  · rintro ⟨rfl, g⟩; unfold cruciformPts; shorts g; grids

example := C48_cruciform exOps (d := 250) (b := 175) (t := 12) (r := 16) (nr := 16) defaultMaterial (by norm_num)
  (by norm_num) (by norm_num) (Or.inr (by norm_num)) (by norm_num) (by norm_num)

theorem C48_i (ops : GeomOps) {d b tf tw r : ℝ} {nr : ℕ} (m : Material) (hd : 3 / 10 ^ 12 < d) (htf : 0 < tf)
    (htw : 0 < tw) (hr : 0 ≤ r) (hn : r = 0 ∨ 2 ≤ nr) (hb : tw + 2 * r ≤ b) (hh : 2 * tf + 2 * r ≤ d) :
    Fits (iSection ops d b tf tw r nr m) (0, b, 0, d) (2 * (b * tf) + (d - 2 * tf) * tw + 4 * fillet r nr)
      (r = 0 ∧ Short [d, b, tf, tw]) := by
  have hf := fillet_nonneg r nr
  refine fits_solid ops (L := iPts d b tf tw r nr) ?_ ?_ (by unfold iPts; boxes)
    ⟨(0, 0), by simp [iPts], rfl⟩ ⟨(b, 0), by simp [iPts], rfl⟩ ⟨(0, 0), by simp [iPts], rfl⟩
    ⟨(b, d), by simp [iPts], rfl⟩ (by right; linarith) ?_
  · rw [ringArea2_chain (L := iPts d b tf tw r nr)
      (chain_append (chain_append (chain_append (chain_append (chain_append (chain_append
        (chain_cons _ (chain_cons _ (chain_one _))) (chain_cw_three hn)) (chain_cw_pi hn))
        (chain_cons _ (chain_cons _ (chain_cons _ (chain_one _))))) (chain_cw_half hn)) (chain_cw_zero hn))
        (chain_one _))]
    shoelace
  · have : 0 ≤ b * tf := by nlinarith
    have : 0 ≤ (d - 2 * tf) * tw := by nlinarith
    linarith
  · rintro ⟨rfl, g⟩; unfold iPts; shorts g; grids

example := C48_i exOps (d := 203) (b := 133) (tf := 7.8) (tw := 5.8) (r := 8.9) (nr := 16) defaultMaterial (by norm_num)
  (by norm_num) (by norm_num) (by norm_num) (Or.inr (by norm_num)) (by norm_num) (by norm_num)

theorem C48_mono_i (ops : GeomOps) {d bt bb tft tfb tw r : ℝ} {nr : ℕ} (m : Material) (hd : 3 / 10 ^ 12 < d)
    (htft : 0 < tft) (htfb : 0 < tfb) (htw : 0 < tw) (hr : 0 ≤ r) (hn : r = 0 ∨ 2 ≤ nr)
    (hbt : tw + 2 * r ≤ bt) (hbb : tw + 2 * r ≤ bb) (hh : tft + tfb + 2 * r ≤ d) :
    Fits (monoISection ops d bt bb tft tfb tw r nr m) (0, max bt bb, 0, d)
      (bt * tft + bb * tfb + (d - tft - tfb) * tw + 4 * fillet r nr) (r = 0 ∧ Short [d, bt, bb, tft, tfb, tw]) := by
  have hf := fillet_nonneg r nr
  have m1 := le_max_left bt bb
  have m2 := le_max_right bt bb
  refine fits_solid ops (L := monoIPts d bt bb tft tfb tw r nr) ?_ ?_ (by unfold monoIPts; boxes)
    ?_ ?_ ⟨(max bt bb / 2 - bb / 2, 0), by simp [monoIPts], rfl⟩
    ⟨(max bt bb / 2 + bt / 2, d), by simp [monoIPts], rfl⟩ (by right; linarith) ?_
  · rw [ringArea2_chain (L := monoIPts d bt bb tft tfb tw r nr)
      (chain_append (chain_append (chain_append (chain_append (chain_append (chain_append
        (chain_cons _ (chain_cons _ (chain_one _))) (chain_cw_three hn)) (chain_cw_pi hn))
        (chain_cons _ (chain_cons _ (chain_cons _ (chain_one _))))) (chain_cw_half hn)) (chain_cw_zero hn))
        (chain_one _))]
    shoelace
  · have : 0 ≤ bt * tft := by nlinarith
    have : 0 ≤ bb * tfb := by nlinarith
    have : 0 ≤ (d - tft - tfb) * tw := by nlinarith
    linarith
  · rcases max_choice bt bb with h | h
    · exact ⟨(max bt bb / 2 - bt / 2, d), by simp [monoIPts], by rw [h]; simp⟩
    · exact ⟨(max bt bb / 2 - bb / 2, 0), by simp [monoIPts], by rw [h]; simp⟩
  · rcases max_choice bt bb with h | h
    · exact ⟨(max bt bb / 2 + bt / 2, d), by simp [monoIPts], by rw [h]; simp⟩
    · exact ⟨(max bt bb / 2 + bb / 2, 0), by simp [monoIPts], by rw [h]; simp⟩
  · rintro ⟨rfl, g⟩; unfold monoIPts; shorts g; grids

example := C48_mono_i exOps (d := 200) (bt := 50) (bb := 130) (tft := 12) (tfb := 8) (tw := 6) (r := 8) (nr := 16)
  defaultMaterial (by norm_num) (by norm_num) (by norm_num) (by norm_num) (by norm_num) (Or.inr (by norm_num)) (by norm_num)
  (by norm_num) (by norm_num)

theorem C48_channel (ops : GeomOps) {d b tf tw r : ℝ} {nr : ℕ} (m : Material) (hd : 3 / 10 ^ 12 < d)
    (htf : 0 < tf) (htw : 0 < tw) (hr : 0 ≤ r) (hn : r = 0 ∨ 2 ≤ nr) (hb : tw + r ≤ b) (hh : 2 * tf + 2 * r ≤ d) :
    Fits (channelSection ops d b tf tw r nr m) (0, b, 0, d)
      (2 * (b * tf) + (d - 2 * tf) * tw + 2 * fillet r nr) (r = 0 ∧ Short [d, b, tf, tw]) := by
  have hf := fillet_nonneg r nr
  refine fits_solid ops (L := channelPts d b tf tw r nr) ?_ ?_ (by unfold channelPts; boxes)
    ⟨(0, 0), by simp [channelPts], rfl⟩ ⟨(b, 0), by simp [channelPts], rfl⟩ ⟨(0, 0), by simp [channelPts], rfl⟩
    ⟨(b, d), by simp [channelPts], rfl⟩ (by right; linarith) ?_
  · rw [ringArea2_chain (L := channelPts d b tf tw r nr)
      (chain_append (chain_append (chain_append
        (chain_cons _ (chain_cons _ (chain_one _))) (chain_cw_three hn)) (chain_cw_pi hn))
        (chain_cons _ (chain_cons _ (chain_one _))))]
    shoelace
  · have : 0 ≤ b * tf := by nlinarith
    have : 0 ≤ (d - 2 * tf) * tw := by nlinarith
    linarith
  · rintro ⟨rfl, g⟩; unfold channelPts; shorts g; grids

example := C48_channel exOps (d := 250) (b := 90) (tf := 15) (tw := 8) (r := 12) (nr := 8) defaultMaterial (by norm_num)
  (by norm_num) (by norm_num) (by norm_num) (Or.inr (by norm_num)) (by norm_num) (by norm_num)

theorem fits_tee (ops : GeomOps) {d b tf tw r : ℝ} {nr : ℕ} (m : Material) (hd : 3 / 10 ^ 12 < d)
    (htf : 0 < tf) (htw : 0 < tw) (hr : 0 ≤ r) (hn : r = 0 ∨ 2 ≤ nr) (hb : tw + 2 * r ≤ b) (hh : tf + r ≤ d) :
    Fits (libGeom ops (teePts d b tf tw r nr) m) (0, b, 0, d)
      (b * tf + (d - tf) * tw + 2 * fillet r nr) (r = 0 ∧ Short [d, b, tf, tw]) := by
  have hf := fillet_nonneg r nr
  refine fits_solid ops (L := teePts d b tf tw r nr) ?_ ?_ (by unfold teePts; boxes)
    ⟨(0, d), by simp [teePts], rfl⟩ ⟨(b, d), by simp [teePts], rfl⟩
    ⟨(b / 2 - tw / 2, 0), by simp [teePts], rfl⟩ ⟨(b, d), by simp [teePts], rfl⟩ (by right; linarith) ?_
  · rw [ringArea2_chain (L := teePts d b tf tw r nr)
      (chain_append (chain_append (chain_append
        (chain_cons _ (chain_one _)) (chain_cw_pi hn))
        (chain_cons _ (chain_cons _ (chain_cons _ (chain_one _))))) (chain_cw_half hn))]
    shoelace
  · have : 0 ≤ b * tf := by nlinarith
    have : 0 ≤ (d - tf) * tw := by nlinarith
    linarith
  · rintro ⟨rfl, g⟩; unfold teePts; shorts g; grids

theorem C48_tee (ops : GeomOps) {d b tf tw r : ℝ} {nr : ℕ} (m : Material) (hd : 3 / 10 ^ 12 < d)
    (htf : 0 < tf) (htw : 0 < tw) (hr : 0 ≤ r) (hn : r = 0 ∨ 2 ≤ nr) (hb : tw + 2 * r ≤ b) (hh : tf + r ≤ d) :
    Fits (teeSection ops d b tf tw r nr m) (0, b, 0, d)
      (b * tf + (d - tf) * tw + 2 * fillet r nr) (r = 0 ∧ Short [d, b, tf, tw]) :=
  fits_tee ops m hd htf htw hr hn hb hh

example := C48_tee exOps (d := 200) (b := 100) (tf := 12) (tw := 6) (r := 8) (nr := 8) defaultMaterial (by norm_num)
  (by norm_num) (by norm_num) (by norm_num) (Or.inr (by norm_num)) (by norm_num) (by norm_num)

end SP
