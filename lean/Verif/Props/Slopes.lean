import Verif.Lemmas.Taper
import Mathlib.Analysis.Real.Pi.Bounds

/-!
# C74: sections with sloping faces
-/

namespace SP

open Spec

/-- A flange slope of 8 degrees. -/
theorem ex_slope : 0 ≤ Real.sin (Real.pi * 8 / 180) ∧ Real.tan (Real.pi * 8 / 180) ≤ 15 / 100 ∧
    Real.tan ((Real.pi / 2 - Real.pi * 8 / 180) / 2) ≤ 1 := by
  have h1 := Real.pi_gt_three
  have h2 := Real.pi_lt_d2
  have hs := Real.sin_le (x := Real.pi * 8 / 180) (by positivity)
  have hc := Real.one_sub_sq_div_two_le_cos (x := Real.pi * 8 / 180)
  have hx : (Real.pi * 8 / 180) ^ 2 ≤ (14 / 100) ^ 2 := by
    apply pow_le_pow_left₀ (by positivity); linarith
  refine ⟨Real.sin_nonneg_of_nonneg_of_le_pi (by positivity) (by linarith), ?_, ?_⟩
  · rw [Real.tan_eq_sin_div_cos, div_le_iff₀ (by linarith)]
    linarith
  · rw [← Real.tan_pi_div_four]
    refine (Real.strictMonoOn_tan.monotoneOn) ⟨by linarith, by linarith⟩ ⟨by linarith, by linarith⟩ (by linarith)

theorem C74_tapered_i (ops : GeomOps) {d b tf tw rr rf alpha : ℝ} {nr : ℕ} (m : Material) (hd : 3 / 10 ^ 12 < d)
    (htw : 0 < tw) (hrr : 0 ≤ rr) (hrf : 0 ≤ rf) (hn : (rr = 0 ∧ rf = 0) ∨ 2 ≤ nr) (ha : 0 ≤ alpha) (ha' : alpha < 90)
    (hx : (rr + rf) * (1 - Real.sin (Real.pi * alpha / 180)) ≤ (b - tw) / 2)
    (htoe : (b - tw) / 4 * Real.tan (Real.pi * alpha / 180) + rf * Real.tan ((Real.pi / 2 - Real.pi * alpha / 180) / 2) ≤ tf)
    (hroot : tf + (b - tw) / 4 * Real.tan (Real.pi * alpha / 180)
      + rr * Real.tan ((Real.pi / 2 - Real.pi * alpha / 180) / 2) ≤ d / 2) :
    let g := taperedFlangeISection ops d b tf tw rr rf alpha nr m
    let a := Real.pi * alpha / 180
    Documented g (0, b, 0, d) (tw * d + 4 * ((b - tw) / 2 * tf) + 4 * cornerArea rr (Real.pi / 2 - a) nr
        - 4 * cornerArea rf (Real.pi / 2 - a) nr) ∧
    ∃ L P Q, Drawn g L ∧ SymmetricUnder (fun p => (b - p.1, p.2)) L ∧ SymmetricUnder (fun p => (p.1, d - p.2)) L ∧
      Edge L P Q ∧
      tf - P.2 = (P.1 - (b / 2 + tw / 2 + b) / 2) * Real.tan a ∧
      Q.2 - tf = ((b / 2 + tw / 2 + b) / 2 - Q.1) * Real.tan a ∧
      (∃ y, (b, y) ∈ L ∧ Touches (b - rf, y) rf P (-Real.cos a, Real.sin a)) ∧
      (∃ y, (b / 2 + tw / 2, y) ∈ L ∧ Touches (b / 2 + tw / 2 + rr, y) rr Q (-Real.cos a, Real.sin a)) := by
  intro g a
  obtain ⟨a0, a1⟩ := rad_bounds ha ha'
  change 0 ≤ a at a0
  change a < Real.pi / 2 at a1
  have htoe' : (b - tw) / 4 * Real.tan a + rf * Real.tan ((Real.pi / 2 - a) / 2) ≤ tf := htoe
  have hnr : rr = 0 ∨ 2 ≤ nr := hn.imp_left And.left
  have hnf : rf = 0 ∨ 2 ≤ nr := hn.imp_left And.right
  have hs1 : Real.sin a ≤ 1 := Real.sin_le_one a
  have hct : 0 < Real.cos a := Real.cos_pos_of_mem_Ioo ⟨by linarith [Real.pi_pos], a1⟩
  have htan : Real.tan a * Real.cos a = Real.sin a := Real.tan_mul_cos hct.ne'
  have hT : 0 ≤ Real.tan ((Real.pi / 2 - a) / 2) := by
    obtain ⟨T, hT, eT, _⟩ := half_compl a0 a1
    rw [← eT]; exact hT.le
  have htn : 0 ≤ Real.tan a := by
    have := Real.sin_nonneg_of_nonneg_of_le_pi a0 (by linarith [Real.pi_pos])
    rw [Real.tan_eq_sin_div_cos]; positivity
  have hbt : 0 ≤ (b - tw) / 2 := le_trans (mul_nonneg (add_nonneg hrr hrf) (by linarith)) hx
  have hbox := taperedI_boxed (d := d) (by linarith) htw.le hrr hrf hnr hnf a0 a1 hx htoe hroot
  have hf := toe_area (q := (b - tw) / 2) (nr := nr) (tf := tf) hrf hrr hnf a0 a1 hbt hx
    (le_trans (le_of_eq (by ring)) htoe')
  have hr := cornerArea_nonneg rr (φ := Real.pi / 2 - a) (by linarith) (by linarith [Real.pi_pos]) nr
  have htd : 0 ≤ tw * d := mul_nonneg htw.le (by linarith [(by norm_num : (0 : ℝ) < 3 / 10 ^ 12)])
  refine ⟨(solid ops (m := m) (taperedI_area hnr hnf a0 a1) (by linarith) hbox
    ⟨(0, 0), by simp [taperedIPts], rfl⟩ ⟨(b, 0), by simp [taperedIPts], rfl⟩ ⟨(0, 0), by simp [taperedIPts], rfl⟩
    ⟨(b, d), by simp [taperedIPts], rfl⟩ (by right; linarith)).1, ?_⟩
  obtain ⟨P, Q, h⟩ := taper_face (L := taperedIPts d b tf tw rr rf a nr) (A := [(0, 0), (b, 0)]) (w := b / 2 + tw / 2)
    (tf := tf) (by simp only [taperedIPts, List.append_assoc]; rfl) hnr hnf (by ring) (by ring)
  exact ⟨_, P, Q, drawn_solid ops ⟨(0, d), by simp [taperedIPts], (0, 0), by simp [taperedIPts], by
    simp only; nlinarith⟩, taperedI_symm_x hnr hnf, taperedI_symm_y hnr hnf, h⟩

example := C74_tapered_i exOps (d := 588) (b := 191) (tf := 27.2) (tw := 15.2) (rr := 17.8) (rf := 8.9) (alpha := 8)
  (nr := 16) defaultMaterial (by norm_num) (by norm_num) (by norm_num) (by norm_num) (Or.inr (by norm_num)) (by norm_num)
  (by norm_num) (by have := ex_slope.1; linarith) (by have := ex_slope.2; linarith) (by have := ex_slope.2; linarith)

theorem C74_tapered_channel (ops : GeomOps) {d b tf tw rr rf alpha : ℝ} {nr : ℕ} (m : Material) (hd : 3 / 10 ^ 12 < d)
    (htw : 0 < tw) (hrr : 0 ≤ rr) (hrf : 0 ≤ rf) (hn : (rr = 0 ∧ rf = 0) ∨ 2 ≤ nr) (ha : 0 ≤ alpha) (ha' : alpha < 90)
    (hx : (rr + rf) * (1 - Real.sin (Real.pi * alpha / 180)) ≤ b - tw)
    (htoe : (b - tw) / 2 * Real.tan (Real.pi * alpha / 180) + rf * Real.tan ((Real.pi / 2 - Real.pi * alpha / 180) / 2) ≤ tf)
    (hroot : tf + (b - tw) / 2 * Real.tan (Real.pi * alpha / 180)
      + rr * Real.tan ((Real.pi / 2 - Real.pi * alpha / 180) / 2) ≤ d / 2) :
    let g := taperedFlangeChannel ops d b tf tw rr rf alpha nr m
    let a := Real.pi * alpha / 180
    Documented g (0, b, 0, d) (tw * d + 2 * ((b - tw) * tf) + 2 * cornerArea rr (Real.pi / 2 - a) nr
        - 2 * cornerArea rf (Real.pi / 2 - a) nr) ∧
    ∃ L P Q, Drawn g L ∧ SymmetricUnder (fun p => (p.1, d - p.2)) L ∧
      Edge L P Q ∧
      tf - P.2 = (P.1 - (tw + b) / 2) * Real.tan a ∧
      Q.2 - tf = ((tw + b) / 2 - Q.1) * Real.tan a ∧
      (∃ y, (b, y) ∈ L ∧ Touches (b - rf, y) rf P (-Real.cos a, Real.sin a)) ∧
      (∃ y, (tw, y) ∈ L ∧ Touches (tw + rr, y) rr Q (-Real.cos a, Real.sin a)) := by
  intro g a
  obtain ⟨a0, a1⟩ := rad_bounds ha ha'
  change 0 ≤ a at a0
  change a < Real.pi / 2 at a1
  have htoe' : (b - tw) / 2 * Real.tan a + rf * Real.tan ((Real.pi / 2 - a) / 2) ≤ tf := htoe
  have hnr : rr = 0 ∨ 2 ≤ nr := hn.imp_left And.left
  have hnf : rf = 0 ∨ 2 ≤ nr := hn.imp_left And.right
  have hs1 : Real.sin a ≤ 1 := Real.sin_le_one a
  have hct : 0 < Real.cos a := Real.cos_pos_of_mem_Ioo ⟨by linarith [Real.pi_pos], a1⟩
  have htan : Real.tan a * Real.cos a = Real.sin a := Real.tan_mul_cos hct.ne'
  have hT : 0 ≤ Real.tan ((Real.pi / 2 - a) / 2) := by
    obtain ⟨T, hT, eT, _⟩ := half_compl a0 a1
    rw [← eT]; exact hT.le
  have htn : 0 ≤ Real.tan a := by
    have := Real.sin_nonneg_of_nonneg_of_le_pi a0 (by linarith [Real.pi_pos])
    rw [Real.tan_eq_sin_div_cos]; positivity
  have hbt : 0 ≤ b - tw := le_trans (mul_nonneg (add_nonneg hrr hrf) (by linarith)) hx
  have hbox := taperedChannel_boxed (d := d) (by linarith) htw.le hrr hrf hnr hnf a0 a1 hx htoe hroot
  have hf := toe_area (q := b - tw) (nr := nr) (tf := tf) hrf hrr hnf a0 a1 hbt hx
    (le_trans (le_of_eq (by ring)) htoe')
  have hr := cornerArea_nonneg rr (φ := Real.pi / 2 - a) (by linarith) (by linarith [Real.pi_pos]) nr
  have htd : 0 ≤ tw * d := mul_nonneg htw.le (by linarith [(by norm_num : (0 : ℝ) < 3 / 10 ^ 12)])
  refine ⟨(solid ops (m := m) (taperedChannel_area hnr hnf a0 a1) (by linarith) hbox
    ⟨(0, 0), by simp [taperedChannelPts], rfl⟩ ⟨(b, 0), by simp [taperedChannelPts], rfl⟩ ⟨(0, 0), by simp [taperedChannelPts], rfl⟩
    ⟨(b, d), by simp [taperedChannelPts], rfl⟩ (by right; linarith)).1, ?_⟩
  obtain ⟨P, Q, h⟩ := taper_face (L := taperedChannelPts d b tf tw rr rf a nr) (A := [(0, 0), (b, 0)]) (w := tw)
    (tf := tf) (by simp only [taperedChannelPts, List.append_assoc]; rfl) hnr hnf (by ring) (by ring)
  exact ⟨_, P, Q, drawn_solid ops ⟨(0, d), by simp [taperedChannelPts], (0, 0), by simp [taperedChannelPts], by
    simp only; nlinarith⟩, taperedChannel_symm_y hnr hnf, h⟩

example := C74_tapered_channel exOps (d := 10) (b := 3.5) (tf := 0.575) (tw := 0.475) (rr := 0.575) (rf := 0.25) (alpha := 8)
  (nr := 16) defaultMaterial (by norm_num) (by norm_num) (by norm_num) (by norm_num) (Or.inr (by norm_num)) (by norm_num)
  (by norm_num) (by have := ex_slope.1; linarith) (by have := ex_slope.2; linarith) (by have := ex_slope.2; linarith)

end SP
