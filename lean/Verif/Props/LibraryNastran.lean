import Verif.Props.LibrarySteel

/-!
# C48 continued: NASTRAN sections

The dimensions and areas; the positions are the subject of C76.
-/

namespace SP

open Spec

theorem C48_nastran_bar (ops : GeomOps) {d1 d2 : ℝ} (m : Material) (h1 : 3 / 10 ^ 12 < d1) (h2 : 0 < d2) :
    Fits (nastranBar ops d1 d2 m) (-d1 / 2, d1 / 2, -d2 / 2, d2 / 2) (d1 * d2) (Short [d1, d2]) := by
  have h0 : 0 < d1 := lt_trans (by positivity) h1
  refine fits_solid ops (L := barPts d1 d2) (by unfold barPts; shoelace) (by positivity) (by unfold barPts; boxes)
    ⟨(-d1 / 2, -d2 / 2), by simp [barPts], rfl⟩ ⟨(d1 / 2, d2 / 2), by simp [barPts], rfl⟩
    ⟨(-d1 / 2, -d2 / 2), by simp [barPts], rfl⟩ ⟨(d1 / 2, d2 / 2), by simp [barPts], rfl⟩
    (by left; linarith) fun g => ?_
  unfold barPts; shorts g; grids

example := C48_nastran_bar exOps (d1 := 2) (d2 := 3 / 2) defaultMaterial (by norm_num) (by norm_num)

/-- Area of a rectangle. -/
theorem rect_area2 {a b c d : ℝ} : ringArea2 [(a, c), (b, c), (b, d), (a, d)] = 2 * ((b - a) * (d - c)) := by
  shoelace

theorem abs_half {x : ℝ} (h : 0 ≤ x) : |2 * x| / 2 = x := by rw [abs_of_nonneg (by linarith)]; ring

theorem C48_nastran_box (ops : GeomOps) {d1 d2 d3 d4 : ℝ} (m : Material) (h1 : 3 / 10 ^ 12 < d1) (h3 : 0 < d3)
    (h4 : 0 < d4) (h14 : 2 * d4 < d1) (h23 : 2 * d3 < d2)
    (hcut : Cuts ops (barPts d1 d2) [[(-d1 / 2 + d4, -d2 / 2 + d3), (d1 / 2 - d4, -d2 / 2 + d3),
      (d1 / 2 - d4, d2 / 2 - d3), (-d1 / 2 + d4, d2 / 2 - d3)]]) :
    ∃ g, nastranBox ops d1 d2 d3 d4 m = .ok g ∧
      Fits g (-d1 / 2, d1 / 2, -d2 / 2, d2 / 2) (d1 * d2 - (d1 - 2 * d4) * (d2 - 2 * d3))
        (Short [d1, d2, d3, d4]) := by
  rw [nastranBox, if_neg (by push Not; exact ⟨h14, h23⟩)]
  refine fits_hollow ops hcut ?_ (by unfold barPts; boxes) ?_
    ⟨(-d1 / 2, -d2 / 2), by simp [barPts], rfl⟩ ⟨(d1 / 2, d2 / 2), by simp [barPts], rfl⟩
    ⟨(-d1 / 2, -d2 / 2), by simp [barPts], rfl⟩ ⟨(d1 / 2, d2 / 2), by simp [barPts], rfl⟩
    (by left; linarith) fun g => ?_
  · simp only [List.map_cons, List.map_nil, List.sum_cons, List.sum_nil]
    rw [barPts, rect_area2, rect_area2, abs_half (by nlinarith), abs_half (by nlinarith)]
    ring
  · simp only [List.mem_singleton, forall_eq]; boxes
  · shorts g
    refine ⟨by unfold barPts; grids, ?_⟩
    simp only [List.mem_singleton, forall_eq]; grids

example := C48_nastran_box exOps (d1 := 4) (d2 := 3) (d3 := 3 / 8) (d4 := 1 / 2) defaultMaterial (by norm_num)
  (by norm_num) (by norm_num) (by norm_num) (by norm_num) rfl

theorem C48_nastran_box1 (ops : GeomOps) {d1 d2 d3 d4 d5 d6 : ℝ} (m : Material) (h1 : 3 / 10 ^ 12 < d1)
    (h3 : 0 < d3) (h4 : 0 < d4) (h5 : 0 < d5) (h6 : 0 < d6) (h15 : d5 + d6 < d1) (h23 : d3 + d4 < d2)
    (hcut : Cuts ops [(0, 0), (d1, 0), (d1, d2), (0, d2)]
      [[(d6, d4), (d1 - d5, d4), (d1 - d5, d2 - d3), (d6, d2 - d3)]]) :
    ∃ g, nastranBox1 ops d1 d2 d3 d4 d5 d6 m = .ok g ∧
      Fits g (0, d1, 0, d2) (d1 * d2 - (d1 - d5 - d6) * (d2 - d3 - d4)) (Short [d1, d2, d3, d4, d5, d6]) := by
  rw [nastranBox1, if_neg (by push Not; exact ⟨h15, h23⟩)]
  refine fits_hollow ops hcut ?_ (by boxes) ?_
    ⟨(0, 0), by simp, rfl⟩ ⟨(d1, 0), by simp, rfl⟩ ⟨(0, 0), by simp, rfl⟩ ⟨(d1, d2), by simp, rfl⟩
    (by left; linarith) fun g => ?_
  · simp only [List.map_cons, List.map_nil, List.sum_cons, List.sum_nil]
    rw [rect_area2, rect_area2, abs_half (by nlinarith), abs_half (by nlinarith)]
    ring
  · simp only [List.mem_singleton, forall_eq]; boxes
  · shorts g
    refine ⟨by grids, ?_⟩
    simp only [List.mem_singleton, forall_eq]; grids

example := C48_nastran_box1 exOps (d1 := 4) (d2 := 3) (d3 := 3 / 8) (d4 := 1 / 2) (d5 := 1 / 4) (d6 := 3 / 4)
  defaultMaterial (by norm_num) (by norm_num) (by norm_num) (by norm_num) (by norm_num) (by norm_num) (by norm_num) rfl

theorem C48_nastran_chan (ops : GeomOps) {d1 d2 d3 d4 : ℝ} (m : Material) (h1 : 3 / 10 ^ 12 < d1)
    (h3 : 0 < d3) (h4 : 0 < d4) (h24 : 2 * d4 < d2) (h13 : d3 < d1) :
    ∃ g, nastranChan ops d1 d2 d3 d4 m = .ok g ∧
      Fits g (0, d1, 0, d2) (2 * (d1 * d4) + (d2 - 2 * d4) * d3) (Short [d1, d2, d3, d4]) := by
  refine ⟨_, by rw [nastranChan, if_neg (by push Not; exact ⟨h24, h13⟩)], ?_⟩
  refine fits_solid ops (by shoelace) (by nlinarith) (by boxes)
    ⟨(0, 0), by simp, rfl⟩ ⟨(d1, 0), by simp, rfl⟩ ⟨(0, 0), by simp, rfl⟩ ⟨(d1, d2), by simp, rfl⟩
    (by left; linarith) fun g => ?_
  shorts g; grids

example := C48_nastran_chan exOps (d1 := 2) (d2 := 4) (d3 := 1 / 4) (d4 := 1 / 2) defaultMaterial (by norm_num)
  (by norm_num) (by norm_num) (by norm_num) (by norm_num)

theorem C48_nastran_chan1 (ops : GeomOps) {d1 d2 d3 d4 : ℝ} (m : Material) (h4 : 3 / 10 ^ 12 < d4)
    (h1 : 0 < d1) (h2 : 0 < d2) (h3 : 0 < d3) (h34 : d3 < d4) :
    ∃ g, nastranChan1 ops d1 d2 d3 d4 m = .ok g ∧
      Fits g (0, d1 + d2, 0, d4) (d2 * d4 + d1 * (d4 - d3)) (Short [d1, d2, d3, d4]) := by
  refine ⟨_, by rw [nastranChan1, if_neg (by push Not; exact h34)], ?_⟩
  refine fits_solid ops (by shoelace) (by nlinarith) (by boxes)
    ⟨(0, 0), by simp, rfl⟩ ⟨(d1 + d2, 0), by simp, rfl⟩ ⟨(0, 0), by simp, rfl⟩ ⟨(0, d4), by simp, rfl⟩
    (by right; linarith) fun g => ?_
  shorts g; grids

example := C48_nastran_chan1 exOps (d1 := 3 / 4) (d2 := 1) (d3 := 7 / 2) (d4 := 4) defaultMaterial (by norm_num)
  (by norm_num) (by norm_num) (by norm_num) (by norm_num)

theorem C48_nastran_chan2 (ops : GeomOps) {d1 d2 d3 d4 : ℝ} (m : Material) (h4 : 3 / 10 ^ 12 < d4)
    (h1 : 0 < d1) (h2 : 0 < d2) (h14 : 2 * d1 < d4) (h23 : d2 < d3) :
    ∃ g, nastranChan2 ops d1 d2 d3 d4 m = .ok g ∧
      Fits g (0, d4, 0, d3) (d4 * d2 + 2 * (d1 * (d3 - d2))) (Short [d1, d2, d3, d4]) := by
  refine ⟨_, by rw [nastranChan2, if_neg (by push Not; exact ⟨h14, h23⟩)], ?_⟩
  refine fits_solid ops (by shoelace) (by nlinarith) (by boxes)
    ⟨(0, 0), by simp, rfl⟩ ⟨(d4, 0), by simp, rfl⟩ ⟨(0, 0), by simp, rfl⟩ ⟨(0, d3), by simp, rfl⟩
    (by left; linarith) fun g => ?_
  shorts g; grids

example := C48_nastran_chan2 exOps (d1 := 3 / 8) (d2 := 1 / 2) (d3 := 2) (d4 := 4) defaultMaterial (by norm_num)
  (by norm_num) (by norm_num) (by norm_num) (by norm_num)

theorem C48_nastran_cross (ops : GeomOps) {d1 d2 d3 d4 : ℝ} (m : Material) (h3 : 3 / 10 ^ 12 < d3)
    (h1 : 0 < d1) (h2 : 0 < d2) (h4 : 0 < d4) (h43 : d4 < d3) :
    ∃ g, nastranCross ops d1 d2 d3 d4 m = .ok g ∧
      Fits g (0, d1 + d2, 0, d3) (d2 * d3 + d1 * d4) (Short [d1, d2, d3, d4]) := by
  refine ⟨_, by rw [nastranCross, if_neg (by push Not; exact h43)], ?_⟩
  refine fits_solid ops (by shoelace) (by nlinarith) (by boxes)
    ⟨(0, (d3 - d4) / 2), by simp, rfl⟩ ⟨(d1 + d2, (d3 - d4) / 2), by simp, rfl⟩ ⟨(d1 / 2, 0), by simp, rfl⟩
    ⟨(d1 / 2, d3), by simp, rfl⟩ (by right; linarith) fun g => ?_
  shorts g; grids

example := C48_nastran_cross exOps (d1 := 3 / 2) (d2 := 3 / 8) (d3 := 3) (d4 := 1 / 4) defaultMaterial (by norm_num)
  (by norm_num) (by norm_num) (by norm_num) (by norm_num)

theorem C48_nastran_fcross (ops : GeomOps) {d1 d2 d3 d4 d5 d6 d7 d8 : ℝ} (m : Material) (h1 : 3 / 10 ^ 12 < d1)
    (h3 : 0 < d3) (h4 : 0 < d4) (h6 : 0 < d6) (h8 : 0 < d8) (c1 : d3 < d5) (c2 : d4 < d7) (c3 : d7 < d1)
    (c4 : d5 < d2) (c5 : d8 < d2 / 2 - d3 / 2) (c6 : d6 < d1 / 2 - d4 / 2) :
    ∃ g, nastranFcross ops d1 d2 d3 d4 d5 d6 d7 d8 m = .ok g ∧
      Fits g (-d2 / 2, d2 / 2, -d1 / 2, d1 / 2)
        (d3 * (d1 - 2 * d6) + 2 * (d5 * d6) + d4 * (d2 - 2 * d8 - d3) + 2 * (d7 * d8))
        (Short [d1, d2, d3, d4, d5, d6, d7, d8]) := by
  refine ⟨_, by rw [nastranFcross, if_neg (by push Not; exact ⟨c1, c2, c3, c4, c5, c6⟩)], ?_⟩
  have p1 : 0 ≤ d3 * (d1 - 2 * d6) := mul_nonneg h3.le (by linarith)
  have p2 : 0 ≤ d5 * d6 := mul_nonneg (by linarith) h6.le
  have p3 : 0 ≤ d4 * (d2 - 2 * d8 - d3) := mul_nonneg h4.le (by linarith)
  have p4 : 0 ≤ d7 * d8 := mul_nonneg (by linarith) h8.le
  refine fits_solid ops (by shoelace) (by linarith) (by boxes)
    ⟨(-d2 / 2, d7 / 2), by simp, rfl⟩ ⟨(d2 / 2, d7 / 2), by simp, rfl⟩ ⟨(d5 / 2, -d1 / 2), by simp, rfl⟩
    ⟨(d5 / 2, d1 / 2), by simp, rfl⟩ (by right; linarith) fun g => ?_
  shorts g; grids

example := C48_nastran_fcross exOps (d1 := 9) (d2 := 6) (d3 := 3 / 4) (d4 := 1 / 2) (d5 := 2) (d6 := 1)
  (d7 := 3) (d8 := 1) defaultMaterial (by norm_num) (by norm_num) (by norm_num) (by norm_num) (by norm_num)
  (by norm_num) (by norm_num) (by norm_num) (by norm_num) (by norm_num) (by norm_num)

/-- `nastran_dbox`.  The condition `hr` that the second cell has a positive width is not checked by the code. -/
theorem C48_nastran_dbox (ops : GeomOps) {d1 d2 d3 d4 d5 d6 d7 d8 d9 d10 : ℝ} (m : Material)
    (h1 : 3 / 10 ^ 12 < d1) (h4 : 0 < d4) (h5 : 0 < d5) (h6 : 0 < d6) (h7 : 0 < d7) (h8 : 0 < d8) (h9 : 0 < d9)
    (h10 : 0 < d10) (c1 : d4 + d5 + d6 < d1) (c2 : d4 + d5 / 2 < d3) (c3 : d7 + d8 < d2) (c4 : d9 + d10 < d2)
    (hr : d3 + d5 / 2 < d1 - d6)
    (hcut : Cuts ops [(0, 0), (d1, 0), (d1, d2), (0, d2)]
      [[(d4, d8), (d3 - d5 / 2, d8), (d3 - d5 / 2, d2 - d7), (d4, d2 - d7)],
       [(d3 + d5 / 2, d10), (d1 - d6, d10), (d1 - d6, d2 - d9), (d3 + d5 / 2, d2 - d9)]]) :
    ∃ g, nastranDbox ops d1 d2 d3 d4 d5 d6 d7 d8 d9 d10 m = .ok g ∧
      Fits g (0, d1, 0, d2) (d1 * d2 - (d3 - d5 / 2 - d4) * (d2 - d7 - d8)
          - (d1 - d6 - (d3 + d5 / 2)) * (d2 - d9 - d10))
        (Short [d1, d2, d3, d4, d5, d6, d7, d8, d9, d10]) := by
  rw [nastranDbox, if_neg (by push Not; exact ⟨c1, c2, c3, c4⟩)]
  refine fits_hollow ops hcut ?_ (by boxes) ?_
    ⟨(0, 0), by simp, rfl⟩ ⟨(d1, 0), by simp, rfl⟩ ⟨(0, 0), by simp, rfl⟩ ⟨(d1, d2), by simp, rfl⟩
    (by left; linarith) fun g => ?_
  · simp only [List.map_cons, List.map_nil, List.sum_cons, List.sum_nil]
    rw [rect_area2, rect_area2, rect_area2, abs_half (mul_nonneg (by linarith) (by linarith)),
      abs_half (mul_nonneg (by linarith) (by linarith)), abs_half (mul_nonneg (by linarith) (by linarith))]
    ring
  · simp only [List.forall_mem_cons]; refine ⟨by boxes, by boxes, by simp⟩
  · shorts g
    refine ⟨by grids, ?_⟩
    simp only [List.forall_mem_cons]; refine ⟨by grids, by grids, by simp⟩

example := C48_nastran_dbox exOps (d1 := 8) (d2 := 3) (d3 := 3) (d4 := 1 / 2) (d5 := 5 / 8) (d6 := 3 / 4)
  (d7 := 3 / 8) (d8 := 1 / 4) (d9 := 1 / 2) (d10 := 3 / 8) defaultMaterial (by norm_num) (by norm_num) (by norm_num)
  (by norm_num) (by norm_num) (by norm_num) (by norm_num) (by norm_num) (by norm_num) (by norm_num) (by norm_num)
  (by norm_num) (by norm_num) rfl

theorem C48_nastran_gbox (ops : GeomOps) {d1 d2 d3 d4 d5 d6 : ℝ} (m : Material) (h1 : 3 / 10 ^ 12 < d1)
    (h3 : 0 < d3) (h4 : 0 < d4) (h5 : 0 < d5) (h6 : 0 < d6) (c1 : d3 + d4 < d2) (c2 : 2 * d5 + d6 < d1)
    (hcut : ∀ d, d = (d1 - d6 - 2 * d5) / 2 → Cuts ops
      [(0, 0), (d1, 0), (d1, d4), (d + 2 * d5 + d6, d4), (d + 2 * d5 + d6, d2 - d3), (d1, d2 - d3),
        (d1, d2), (0, d2), (0, d2 - d3), (d, d2 - d3), (d, d4), (0, d4)]
      [[(d + d5, d4), (d + d5 + d6, d4), (d + d5 + d6, d2 - d3), (d + d5, d2 - d3)]]) :
    ∃ g, nastranGbox ops d1 d2 d3 d4 d5 d6 m = .ok g ∧
      Fits g (0, d1, 0, d2) (d1 * d3 + d1 * d4 + 2 * (d5 * (d2 - d3 - d4))) (Short [d1, d2, d3, d4, d5, d6]) := by
  rw [nastranGbox, if_neg (by push Not; exact ⟨c1, c2⟩)]
  have p1 : 0 < d1 * d3 := mul_pos (by linarith) h3
  have p2 : 0 < d1 * d4 := mul_pos (by linarith) h4
  have p3 : 0 < d5 * (d2 - d3 - d4) := mul_pos h5 (by linarith)
  have p4 : 0 < d6 * (d2 - d3 - d4) := mul_pos h6 (by linarith)
  refine fits_hollow ops (hcut _ rfl) ?_ (by boxes) ?_
    ⟨(0, 0), by simp, rfl⟩ ⟨(d1, 0), by simp, rfl⟩ ⟨(0, 0), by simp, rfl⟩ ⟨(d1, d2), by simp, rfl⟩
    (by left; linarith) fun g => ?_
  · simp only [List.map_cons, List.map_nil, List.sum_cons, List.sum_nil]
    have e : ringArea2 [(0, 0), (d1, 0), (d1, d4), ((d1 - d6 - 2 * d5) / 2 + 2 * d5 + d6, d4),
        ((d1 - d6 - 2 * d5) / 2 + 2 * d5 + d6, d2 - d3), (d1, d2 - d3), (d1, d2), (0, d2), (0, d2 - d3),
        ((d1 - d6 - 2 * d5) / 2, d2 - d3), ((d1 - d6 - 2 * d5) / 2, d4), (0, d4)]
        = 2 * (d1 * d3 + d1 * d4 + 2 * (d5 * (d2 - d3 - d4)) + d6 * (d2 - d3 - d4)) := by shoelace
    rw [e, rect_area2, abs_half (by linarith), abs_half (mul_nonneg (by linarith) (by linarith))]
    ring
  · simp only [List.mem_singleton, forall_eq]; boxes
  · shorts g
    refine ⟨by grids, ?_⟩
    simp only [List.mem_singleton, forall_eq]; grids

example := C48_nastran_gbox exOps (d1 := 6) (d2 := 5 / 2) (d3 := 3 / 8) (d4 := 1 / 4) (d5 := 5 / 8) (d6 := 1)
  defaultMaterial (by norm_num) (by norm_num) (by norm_num) (by norm_num) (by norm_num) (by norm_num) (by norm_num)
  (fun _ _ => rfl)

theorem C48_nastran_h (ops : GeomOps) {d1 d2 d3 d4 : ℝ} (m : Material) (h3 : 3 / 10 ^ 12 < d3)
    (h1 : 0 < d1) (h2 : 0 < d2) (h4 : 0 < d4) (c : d4 < d3) :
    ∃ g, nastranH ops d1 d2 d3 d4 m = .ok g ∧
      Fits g (0, d1 + d2, 0, d3) (d2 * d3 + d1 * d4) (Short [d1, d2, d3, d4]) := by
  refine ⟨_, by rw [nastranH, if_neg (by push Not; exact c)], ?_⟩
  refine fits_solid ops (by shoelace) (by nlinarith) (by boxes)
    ⟨(0, 0), by simp, rfl⟩ ⟨(d1 + d2, 0), by simp, rfl⟩ ⟨(0, 0), by simp, rfl⟩
    ⟨(0, d3), by simp, rfl⟩ (by right; linarith) fun g => ?_
  shorts g; grids

example := C48_nastran_h exOps (d1 := 3) (d2 := 3 / 4) (d3 := 2) (d4 := 1 / 2) defaultMaterial (by norm_num)
  (by norm_num) (by norm_num) (by norm_num) (by norm_num)

/-- `nastran_hat`.  The condition `2 d2 < d3` that the two webs do not overlap is not checked by the code. -/
theorem C48_nastran_hat (ops : GeomOps) {d1 d2 d3 d4 : ℝ} (m : Material) (h1 : 3 / 10 ^ 12 < d1)
    (h2 : 0 < d2) (h4 : 0 < d4) (c : 2 * d2 < d1) (hw : 2 * d2 < d3) :
    ∃ g, nastranHat ops d1 d2 d3 d4 m = .ok g ∧
      Fits g (0, 2 * d4 + d3, 0, d1) (d2 * d3 + 2 * (d2 * (d1 - d2)) + 2 * (d2 * d4)) (Short [d1, d2, d3, d4]) := by
  refine ⟨_, by rw [nastranHat, if_neg (by push Not; exact c)], ?_⟩
  refine fits_solid ops (by shoelace) (by nlinarith) (by boxes)
    ⟨(0, 0), by simp, rfl⟩ ⟨(2 * d4 + d3, 0), by simp, rfl⟩ ⟨(0, 0), by simp, rfl⟩
    ⟨(d4, d1), by simp, rfl⟩ (by right; linarith) fun g => ?_
  shorts g; grids

example := C48_nastran_hat exOps (d1 := 5 / 4) (d2 := 1 / 4) (d3 := 3 / 2) (d4 := 1 / 2) defaultMaterial (by norm_num)
  (by norm_num) (by norm_num) (by norm_num) (by norm_num)

/-- `nastran_hexa`.  The code checks only `d1 < d2`. -/
theorem C48_nastran_hexa (ops : GeomOps) {d1 d2 d3 : ℝ} (m : Material) (h3 : 3 / 10 ^ 12 < d3)
    (h1 : 0 < d1) (c : 2 * d1 < d2) :
    ∃ g, nastranHexa ops d1 d2 d3 m = .ok g ∧ Fits g (0, d2, 0, d3) (d3 * (d2 - d1)) (Short [d1, d2, d3]) := by
  have h30 : 0 < d3 := lt_trans (by positivity) h3
  refine ⟨_, by rw [nastranHexa, if_neg (by push Not; linarith)], ?_⟩
  refine fits_solid ops (by shoelace) (mul_nonneg h30.le (by linarith)) (by boxes)
    ⟨(0, d3 / 2), by simp, rfl⟩ ⟨(d2, d3 / 2), by simp, rfl⟩ ⟨(d1, 0), by simp, rfl⟩
    ⟨(d1, d3), by simp, rfl⟩ (by right; linarith) fun g => ?_
  shorts g; grids

example := C48_nastran_hexa exOps (d1 := 1 / 2) (d2 := 2) (d3 := 3 / 2) defaultMaterial (by norm_num)
  (by norm_num) (by norm_num)

/-- `nastran_i`: depth `d1`, bottom flange `d2` wide, top flange `d3` wide, both centred on the web. -/
theorem C48_nastran_i (ops : GeomOps) {d1 d2 d3 d4 d5 d6 : ℝ} (m : Material) (h1 : 3 / 10 ^ 12 < d1)
    (h4 : 0 < d4) (h5 : 0 < d5) (h6 : 0 < d6) (c1 : d5 + d6 < d1) (c2 : d4 < d3) (c3 : d4 < d2) :
    ∃ g, nastranI ops d1 d2 d3 d4 d5 d6 m = .ok g ∧
      Fits g (min 0 ((d2 - d3) / 2), max d2 ((d2 + d3) / 2), 0, d1) (d2 * d5 + d3 * d6 + d4 * (d1 - d5 - d6))
        (Short [d1, d2, d3, d4, d5, d6]) := by
  refine ⟨_, by rw [nastranI, if_neg (by push Not; exact ⟨c1, c2, c3⟩)], ?_⟩
  have p1 : 0 < d2 * d5 := mul_pos (by linarith) h5
  have p2 : 0 < d3 * d6 := mul_pos (by linarith) h6
  have p3 : 0 < d4 * (d1 - d5 - d6) := mul_pos h4 (by linarith)
  have m1 := min_le_left 0 ((d2 - d3) / 2)
  have m2 := min_le_right 0 ((d2 - d3) / 2)
  have m3 := le_max_left d2 ((d2 + d3) / 2)
  have m4 := le_max_right d2 ((d2 + d3) / 2)
  refine fits_solid ops (by shoelace) (by linarith) (by boxes) ?_ ?_ ⟨(0, 0), by simp, rfl⟩
    ⟨((d2 - d4) / 2 - (d3 - d4) / 2, d1), by simp, rfl⟩ (by right; linarith) fun g => ?_
  · rcases min_choice 0 ((d2 - d3) / 2) with h | h <;> rw [h]
    · exact ⟨(0, 0), by simp, rfl⟩
    · exact ⟨((d2 - d4) / 2 - (d3 - d4) / 2, d1), by simp, by simp only; ring⟩
  · rcases max_choice d2 ((d2 + d3) / 2) with h | h <;> rw [h]
    · exact ⟨(d2, 0), by simp, rfl⟩
    · exact ⟨((d2 - d4) / 2 + d4 + (d3 - d4) / 2, d1), by simp, by simp only; ring⟩
  · shorts g; grids

example := C48_nastran_i exOps (d1 := 5) (d2 := 2) (d3 := 3) (d4 := 1 / 4) (d5 := 3 / 8) (d6 := 1 / 2)
  defaultMaterial (by norm_num) (by norm_num) (by norm_num) (by norm_num) (by norm_num) (by norm_num) (by norm_num)

theorem C48_nastran_i1 (ops : GeomOps) {d1 d2 d3 d4 : ℝ} (m : Material) (h4 : 3 / 10 ^ 12 < d4)
    (h1 : 0 < d1) (h2 : 0 < d2) (h3 : 0 < d3) (c : d3 < d4) :
    ∃ g, nastranI1 ops d1 d2 d3 d4 m = .ok g ∧
      Fits g (0, d1 + d2, 0, d4) ((d1 + d2) * (d4 - d3) + d2 * d3) (Short [d1, d2, d3, d4]) := by
  refine ⟨_, by rw [nastranI1, if_neg (by push Not; exact c)], ?_⟩
  refine fits_solid ops (by shoelace) (by nlinarith) (by boxes)
    ⟨(0, 0), by simp, rfl⟩ ⟨(d1 + d2, 0), by simp, rfl⟩ ⟨(0, 0), by simp, rfl⟩
    ⟨(0, d4), by simp, rfl⟩ (by right; linarith) fun g => ?_
  shorts g; grids

example := C48_nastran_i1 exOps (d1 := 1) (d2 := 3 / 4) (d3 := 4) (d4 := 5) defaultMaterial (by norm_num)
  (by norm_num) (by norm_num) (by norm_num) (by norm_num)

theorem C48_nastran_l (ops : GeomOps) {d1 d2 d3 d4 : ℝ} (m : Material) (h1 : 3 / 10 ^ 12 < d1)
    (h3 : 0 < d3) (h4 : 0 < d4) (c1 : d4 < d1) (c2 : d3 < d2) :
    ∃ g, nastranL ops d1 d2 d3 d4 m = .ok g ∧
      Fits g (0, d1, 0, d2) (d1 * d3 + d4 * (d2 - d3)) (Short [d1, d2, d3, d4]) := by
  refine ⟨_, by rw [nastranL, if_neg (by push Not; exact ⟨c1, c2⟩)], ?_⟩
  refine fits_solid ops (by shoelace) (by nlinarith) (by boxes)
    ⟨(0, 0), by simp, rfl⟩ ⟨(d1, 0), by simp, rfl⟩ ⟨(0, 0), by simp, rfl⟩
    ⟨(0, d2), by simp, rfl⟩ (by left; linarith) fun g => ?_
  shorts g; grids

example := C48_nastran_l exOps (d1 := 3) (d2 := 6) (d3 := 3 / 8) (d4 := 5 / 8) defaultMaterial (by norm_num)
  (by norm_num) (by norm_num) (by norm_num) (by norm_num)

theorem C48_nastran_tee (ops : GeomOps) {d1 d2 d3 d4 : ℝ} (m : Material) (h2 : 3 / 10 ^ 12 < d2)
    (h3 : 0 < d3) (h4 : 0 < d4) (c1 : d4 < d1) (c2 : d3 < d2) :
    ∃ g, nastranTee ops d1 d2 d3 d4 m = .ok g ∧
      Fits g (0, d1, 0, d2) (d1 * d3 + (d2 - d3) * d4) (Short [d1, d2, d3, d4]) := by
  refine ⟨_, by rw [nastranTee, if_neg (by push Not; exact ⟨c1, c2⟩)], ?_⟩
  have h := fits_tee ops (nr := 1) m h2 h3 h4 le_rfl (Or.inl rfl) (b := d1) (by linarith) (by linarith)
  rw [fillet_zero, mul_zero, add_zero] at h
  refine ⟨h.1, fun g => h.2 ⟨rfl, ?_⟩⟩
  simp only [short_cons, short_nil, and_true] at g ⊢
  tauto

example := C48_nastran_tee exOps (d1 := 3) (d2 := 4) (d3 := 3 / 8) (d4 := 1 / 4) defaultMaterial (by norm_num)
  (by norm_num) (by norm_num) (by norm_num) (by norm_num)

theorem C48_nastran_tee1 (ops : GeomOps) {d1 d2 d3 d4 : ℝ} (m : Material) (h1 : 3 / 10 ^ 12 < d1)
    (h2 : 0 < d2) (h3 : 0 < d3) (h4 : 0 < d4) (c1 : d4 < d1) :
    ∃ g, nastranTee1 ops d1 d2 d3 d4 m = .ok g ∧
      Fits g (-d2, d3, 0, d1) (d1 * d3 + d2 * d4) (Short [d1, d2, d3, d4]) := by
  refine ⟨_, by rw [nastranTee1, if_neg (by push Not; exact c1)], ?_⟩
  refine fits_solid ops (by shoelace) (by nlinarith) (by boxes)
    ⟨(-d2, (d1 - d4) / 2), by simp, rfl⟩ ⟨(d3, 0), by simp, rfl⟩ ⟨(0, 0), by simp, rfl⟩
    ⟨(0, d1), by simp, rfl⟩ (by right; linarith) fun g => ?_
  shorts g; grids

example := C48_nastran_tee1 exOps (d1 := 3) (d2 := 7 / 2) (d3 := 3 / 8) (d4 := 1 / 4) defaultMaterial (by norm_num)
  (by norm_num) (by norm_num) (by norm_num) (by norm_num)

theorem C48_nastran_tee2 (ops : GeomOps) {d1 d2 d3 d4 : ℝ} (m : Material) (h1 : 3 / 10 ^ 12 < d1)
    (h3 : 0 < d3) (h4 : 0 < d4) (c1 : d4 < d1) (c2 : d3 < d2) :
    ∃ g, nastranTee2 ops d1 d2 d3 d4 m = .ok g ∧
      Fits g (0, d1, 0, d2) (d1 * d3 + d4 * (d2 - d3)) (Short [d1, d2, d3, d4]) := by
  refine ⟨_, by rw [nastranTee2, if_neg (by push Not; exact ⟨c1, c2⟩)], ?_⟩
  refine fits_solid ops (by shoelace) (by nlinarith) (by boxes)
    ⟨(0, 0), by simp, rfl⟩ ⟨(d1, 0), by simp, rfl⟩ ⟨(0, 0), by simp, rfl⟩
    ⟨((d1 - d4) / 2, d2), by simp, rfl⟩ (by left; linarith) fun g => ?_
  shorts g; grids

example := C48_nastran_tee2 exOps (d1 := 3) (d2 := 4) (d3 := 3 / 8) (d4 := 1 / 2) defaultMaterial (by norm_num)
  (by norm_num) (by norm_num) (by norm_num) (by norm_num)

theorem C48_nastran_zed (ops : GeomOps) {d1 d2 d3 d4 : ℝ} (m : Material) (h4 : 3 / 10 ^ 12 < d4)
    (h1 : 0 < d1) (h2 : 0 < d2) (h3 : 0 < d3) (c : d3 < d4) :
    ∃ g, nastranZed ops d1 d2 d3 d4 m = .ok g ∧
      Fits g (0, 2 * d1 + d2, 0, d4) (d2 * d4 + d1 * (d4 - d3)) (Short [d1, d2, d3, d4]) := by
  refine ⟨_, by rw [nastranZed, if_neg (by push Not; exact c)], ?_⟩
  refine fits_solid ops (by shoelace) (by nlinarith) (by boxes)
    ⟨(0, d4), by simp, rfl⟩ ⟨(2 * d1 + d2, 0), by simp, rfl⟩ ⟨(d1, 0), by simp, rfl⟩
    ⟨(0, d4), by simp, rfl⟩ (by right; linarith) fun g => ?_
  shorts g; grids

example := C48_nastran_zed exOps (d1 := 9 / 8) (d2 := 1 / 2) (d3 := 7 / 2) (d4 := 4) defaultMaterial (by norm_num)
  (by norm_num) (by norm_num) (by norm_num) (by norm_num)

/-- Dimensions that do not fit together are refused with `ValueError`. -/
theorem C48_nastran_refused (ops : GeomOps) (d1 d2 d3 d4 d5 d6 : ℝ) (m : Material) :
    (d1 ≤ 2 * d4 ∨ d2 ≤ 2 * d3 → nastranBox ops d1 d2 d3 d4 m = .error .valueError) ∧
    (d1 ≤ d5 + d6 ∨ d2 ≤ d3 + d4 → nastranBox1 ops d1 d2 d3 d4 d5 d6 m = .error .valueError) ∧
    (d2 ≤ 2 * d4 ∨ d1 ≤ d3 → nastranChan ops d1 d2 d3 d4 m = .error .valueError) ∧
    (d4 ≤ d3 → nastranChan1 ops d1 d2 d3 d4 m = .error .valueError) ∧
    (d4 ≤ 2 * d1 ∨ d3 ≤ d2 → nastranChan2 ops d1 d2 d3 d4 m = .error .valueError) ∧
    (d3 ≤ d4 → nastranCross ops d1 d2 d3 d4 m = .error .valueError) ∧
    (d2 ≤ d3 + d4 ∨ d1 ≤ 2 * d5 + d6 → nastranGbox ops d1 d2 d3 d4 d5 d6 m = .error .valueError) ∧
    (d3 ≤ d4 → nastranH ops d1 d2 d3 d4 m = .error .valueError) ∧
    (d1 ≤ 2 * d2 → nastranHat ops d1 d2 d3 d4 m = .error .valueError) ∧
    (d2 ≤ d1 → nastranHexa ops d1 d2 d3 m = .error .valueError) ∧
    (d1 ≤ d5 + d6 ∨ d3 ≤ d4 ∨ d2 ≤ d4 → nastranI ops d1 d2 d3 d4 d5 d6 m = .error .valueError) ∧
    (d4 ≤ d3 → nastranI1 ops d1 d2 d3 d4 m = .error .valueError) ∧
    (d1 ≤ d4 ∨ d2 ≤ d3 → nastranL ops d1 d2 d3 d4 m = .error .valueError) ∧
    (d1 ≤ d4 ∨ d2 ≤ d3 → nastranTee ops d1 d2 d3 d4 m = .error .valueError) ∧
    (d1 ≤ d4 → nastranTee1 ops d1 d2 d3 d4 m = .error .valueError) ∧
    (d1 ≤ d4 ∨ d2 ≤ d3 → nastranTee2 ops d1 d2 d3 d4 m = .error .valueError) ∧
    (d4 ≤ d3 → nastranZed ops d1 d2 d3 d4 m = .error .valueError) := by
  refine ⟨?_, ?_, ?_, ?_, ?_, ?_, ?_, ?_, ?_, ?_, ?_, ?_, ?_, ?_, ?_, ?_, ?_⟩ <;> intro h
  · rw [nastranBox, if_pos (by simpa using h)]
  · rw [nastranBox1, if_pos (by simpa using h)]
  · rw [nastranChan, if_pos (by simpa using h)]
  · rw [nastranChan1, if_pos (by simpa using h)]
  · rw [nastranChan2, if_pos (by simpa using h)]
  · rw [nastranCross, if_pos (by simpa using h)]
  · rw [nastranGbox, if_pos (by simpa using h)]
  · rw [nastranH, if_pos (by simpa using h)]
  · rw [nastranHat, if_pos (by simpa using h)]
  · rw [nastranHexa, if_pos (by simpa using h)]
  · rw [nastranI, if_pos (by simpa using h)]
  · rw [nastranI1, if_pos (by simpa using h)]
  · rw [nastranL, if_pos (by simpa using h)]
  · rw [nastranTee, if_pos (by simpa using h)]
  · rw [nastranTee1, if_pos (by simpa using h)]
  · rw [nastranTee2, if_pos (by simpa using h)]
  · rw [nastranZed, if_pos (by simpa using h)]

end SP
