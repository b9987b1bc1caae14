import Verif.Model.Recovery
import Verif.Spec.Recovery
import Verif.Lemmas.Recovery
import Verif.Props.LibraryNastran

/-!
# C76: stress recovery points of NASTRAN sections drawn from their lower left corner

The recovery points refer to the origin that the docstrings promise, but these sections are drawn elsewhere.  Each
theorem says where the points lie when moved by the given offset, and that one of the points as they are set lies
outside the section.
-/

namespace SP

open Spec

theorem C76_nastran_box1_partial (ops : GeomOps) {d1 d2 d3 d4 d5 d6 : ℝ} (m : Material)
    (h1 : 3 / 10 ^ 12 < d1) (h2 : 3 / 10 ^ 12 < d2) (h3 : 0 < d3) (h4 : 0 < d4) (h5 : 0 < d5) (h6 : 0 < d6)
    (h15 : d5 + d6 < d1) (h23 : d3 + d4 < d2)
    (hcut : Cuts ops [(0, 0), (d1, 0), (d1, d2), (0, d2)]
      [[(d6, d4), (d1 - d5, d4), (d1 - d5, d2 - d3), (d6, d2 - d3)]]) :
    ∃ g L, nastranBox1 ops d1 d2 d3 d4 d5 d6 m = .ok g ∧ Drawn g L ∧ Recovers L (d1 / 2, d2 / 2) (recoveryRect d1 d2) ∧
      ∃ p ∈ recoveryRect d1 d2, Outside g p := by
  obtain ⟨g, hg, hf⟩ := C48_nastran_box1 ops m h1 h3 h4 h5 h6 h15 h23 hcut
  have hb := hg
  unfold nastranBox1 at hb
  split at hb
  · cases hb
  refine ⟨g, [(0, 0), (d1, 0), (d1, d2), (0, d2)], hg, ?_,
    recovers_of (on_vertex (a := d1) (b := d2) (by simp) (by ring) (by ring))
      (on_vertex (a := d1) (b := 0) (by simp) (by ring) (by ring))
      (on_vertex (a := 0) (b := 0) (by simp) (by ring) (by ring))
      (on_vertex (a := 0) (b := d2) (by simp) (by ring) (by ring)),
    (1 / 2 * d1, -1 / 2 * d2), by simp [recoveryRect], outside_below hf (by simp only; linarith)⟩
  · refine drawn_cut ops hcut hb ?_
    exact spread_x (p := (0, 0)) (q := (d1, 0)) (by simp) (by simp) (by simp only; linarith)

example := C76_nastran_box1_partial exOps (d1 := 4) (d2 := 3) (d3 := 3/8) (d4 := 1/2) (d5 := 1/4) (d6 := 3/4) defaultMaterial (by norm_num) (by norm_num) (by norm_num) (by norm_num) (by norm_num) (by norm_num) (by norm_num) (by norm_num) rfl

theorem C76_nastran_dbox_partial (ops : GeomOps) {d1 d2 d3 d4 d5 d6 d7 d8 d9 d10 : ℝ} (m : Material)
    (h1 : 3 / 10 ^ 12 < d1) (h2 : 3 / 10 ^ 12 < d2) (h4 : 0 < d4) (h5 : 0 < d5) (h6 : 0 < d6) (h7 : 0 < d7)
    (h8 : 0 < d8) (h9 : 0 < d9) (h10 : 0 < d10) (c1 : d4 + d5 + d6 < d1) (c2 : d4 + d5 / 2 < d3) (c3 : d7 + d8 < d2)
    (c4 : d9 + d10 < d2) (hr : d3 + d5 / 2 < d1 - d6)
    (hcut : Cuts ops [(0, 0), (d1, 0), (d1, d2), (0, d2)]
      [[(d4, d8), (d3 - d5 / 2, d8), (d3 - d5 / 2, d2 - d7), (d4, d2 - d7)],
       [(d3 + d5 / 2, d10), (d1 - d6, d10), (d1 - d6, d2 - d9), (d3 + d5 / 2, d2 - d9)]]) :
    ∃ g L, nastranDbox ops d1 d2 d3 d4 d5 d6 d7 d8 d9 d10 m = .ok g ∧ Drawn g L ∧ Recovers L (d1 / 2, d2 / 2) (recoveryRect d1 d2) ∧
      ∃ p ∈ recoveryRect d1 d2, Outside g p := by
  obtain ⟨g, hg, hf⟩ := C48_nastran_dbox ops m h1 h4 h5 h6 h7 h8 h9 h10 c1 c2 c3 c4 hr hcut
  have hb := hg
  unfold nastranDbox at hb
  split at hb
  · cases hb
  refine ⟨g, [(0, 0), (d1, 0), (d1, d2), (0, d2)], hg, ?_,
    recovers_of (on_vertex (a := d1) (b := d2) (by simp) (by ring) (by ring))
      (on_vertex (a := d1) (b := 0) (by simp) (by ring) (by ring))
      (on_vertex (a := 0) (b := 0) (by simp) (by ring) (by ring))
      (on_vertex (a := 0) (b := d2) (by simp) (by ring) (by ring)),
    (1 / 2 * d1, -1 / 2 * d2), by simp [recoveryRect], outside_below hf (by simp only; linarith)⟩
  · refine drawn_cut ops hcut hb ?_
    exact spread_x (p := (0, 0)) (q := (d1, 0)) (by simp) (by simp) (by simp only; linarith)

example := C76_nastran_dbox_partial exOps (d1 := 8) (d2 := 3) (d3 := 3) (d4 := 1/2) (d5 := 5/8) (d6 := 3/4) (d7 := 3/8) (d8 := 1/4) (d9 := 1/2) (d10 := 3/8) defaultMaterial (by norm_num) (by norm_num) (by norm_num) (by norm_num) (by norm_num) (by norm_num) (by norm_num) (by norm_num) (by norm_num) (by norm_num) (by norm_num) (by norm_num) (by norm_num) (by norm_num) rfl

theorem C76_nastran_gbox_partial (ops : GeomOps) {d1 d2 d3 d4 d5 d6 : ℝ} (m : Material)
    (h1 : 3 / 10 ^ 12 < d1) (h2 : 3 / 10 ^ 12 < d2) (h3 : 0 < d3) (h4 : 0 < d4) (h5 : 0 < d5) (h6 : 0 < d6)
    (c1 : d3 + d4 < d2) (c2 : 2 * d5 + d6 < d1)
    (hcut : ∀ d, d = (d1 - d6 - 2 * d5) / 2 → Cuts ops
      [(0, 0), (d1, 0), (d1, d4), (d + 2 * d5 + d6, d4), (d + 2 * d5 + d6, d2 - d3), (d1, d2 - d3),
        (d1, d2), (0, d2), (0, d2 - d3), (d, d2 - d3), (d, d4), (0, d4)]
      [[(d + d5, d4), (d + d5 + d6, d4), (d + d5 + d6, d2 - d3), (d + d5, d2 - d3)]]) :
    ∃ g L, nastranGbox ops d1 d2 d3 d4 d5 d6 m = .ok g ∧ Drawn g L ∧ Recovers L (d1 / 2, d2 / 2) (recoveryRect d1 d2) ∧
      ∃ p ∈ recoveryRect d1 d2, Outside g p := by
  obtain ⟨g, hg, hf⟩ := C48_nastran_gbox ops m h1 h3 h4 h5 h6 c1 c2 hcut
  have hb := hg
  unfold nastranGbox at hb
  split at hb
  · cases hb
  refine ⟨g, [(0, 0), (d1, 0), (d1, d4), ((d1 - d6 - 2 * d5) / 2 + 2 * d5 + d6, d4), ((d1 - d6 - 2 * d5) / 2 + 2 * d5 + d6, d2 - d3),
      (d1, d2 - d3), (d1, d2), (0, d2), (0, d2 - d3), ((d1 - d6 - 2 * d5) / 2, d2 - d3), ((d1 - d6 - 2 * d5) / 2, d4), (0, d4)], hg, ?_,
    recovers_of (on_vertex (a := d1) (b := d2) (by simp) (by ring) (by ring))
      (on_vertex (a := d1) (b := 0) (by simp) (by ring) (by ring))
      (on_vertex (a := 0) (b := 0) (by simp) (by ring) (by ring))
      (on_vertex (a := 0) (b := d2) (by simp) (by ring) (by ring)),
    (1 / 2 * d1, -1 / 2 * d2), by simp [recoveryRect], outside_below hf (by simp only; linarith)⟩
  · refine drawn_cut ops (hcut _ rfl) hb ?_
    exact spread_x (p := (0, 0)) (q := (d1, 0)) (by simp) (by simp) (by simp only; linarith)

example := C76_nastran_gbox_partial exOps (d1 := 6) (d2 := 5/2) (d3 := 3/8) (d4 := 1/4) (d5 := 5/8) (d6 := 1) defaultMaterial (by norm_num) (by norm_num) (by norm_num) (by norm_num) (by norm_num) (by norm_num) (by norm_num) (by norm_num) (fun _ _ => rfl)

theorem C76_nastran_chan_partial (ops : GeomOps) {d1 d2 d3 d4 : ℝ} (m : Material)
    (h1 : 3 / 10 ^ 12 < d1) (h2 : 3 / 10 ^ 12 < d2) (h3 : 0 < d3) (h4 : 0 < d4) (h24 : 2 * d4 < d2)
    (h13 : d3 < d1) :
    ∃ g L, nastranChan ops d1 d2 d3 d4 m = .ok g ∧ Drawn g L ∧ Recovers L (d1 / 2, d2 / 2) (recoveryRect d1 d2) ∧
      ∃ p ∈ recoveryRect d1 d2, Outside g p := by
  obtain ⟨g, hg, hf⟩ := C48_nastran_chan ops m h1 h3 h4 h24 h13
  have hb := hg
  unfold nastranChan at hb
  split at hb
  · cases hb
  refine ⟨g, [(0, 0), (d1, 0), (d1, d4), (d3, d4), (d3, d2 - d4), (d1, d2 - d4), (d1, d2), (0, d2)], hg, ?_,
    recovers_of (on_vertex (a := d1) (b := d2) (by simp) (by ring) (by ring))
      (on_vertex (a := d1) (b := 0) (by simp) (by ring) (by ring))
      (on_vertex (a := 0) (b := 0) (by simp) (by ring) (by ring))
      (on_vertex (a := 0) (b := d2) (by simp) (by ring) (by ring)),
    (1 / 2 * d1, -1 / 2 * d2), by simp [recoveryRect], outside_below hf (by simp only; linarith)⟩
  · rw [← Except.ok.inj hb]; refine drawn_solid ops ?_
    exact spread_x (p := (0, 0)) (q := (d1, 0)) (by simp) (by simp) (by simp only; linarith)

example := C76_nastran_chan_partial exOps (d1 := 2) (d2 := 4) (d3 := 1/4) (d4 := 1/2) defaultMaterial (by norm_num) (by norm_num) (by norm_num) (by norm_num) (by norm_num) (by norm_num)

theorem C76_nastran_chan1_partial (ops : GeomOps) {d1 d2 d3 d4 : ℝ} (m : Material)
    (h4 : 3 / 10 ^ 12 < d4) (h1 : 0 < d1) (h2 : 0 < d2) (h3 : 0 < d3) (h34 : d3 < d4) :
    ∃ g L, nastranChan1 ops d1 d2 d3 d4 m = .ok g ∧ Drawn g L ∧ Recovers L (d2 / 2, d4 / 2) (recoveryChan1 d1 d2 d4) ∧
      ∃ p ∈ recoveryChan1 d1 d2 d4, Outside g p := by
  obtain ⟨g, hg, hf⟩ := C48_nastran_chan1 ops m h4 h1 h2 h3 h34
  have hb := hg
  unfold nastranChan1 at hb
  split at hb
  · cases hb
  refine ⟨g, [(0, 0), (d1 + d2, 0), (d1 + d2, (d4 - d3) / 2), (d2, (d4 - d3) / 2), (d2, (d4 - d3) / 2 + d3), (d2 + d1, (d4 - d3) / 2 + d3),
      (d2 + d1, d4), (0, d4)], hg, ?_,
    recovers_of (on_vertex (a := d2 + d1) (b := d4) (by simp) (by ring) (by ring))
      (on_vertex (a := d1 + d2) (b := 0) (by simp) (by ring) (by ring))
      (on_vertex (a := 0) (b := 0) (by simp) (by ring) (by ring))
      (on_vertex (a := 0) (b := d4) (by simp) (by ring) (by ring)),
    (1 / 2 * d2 + d1, -1 / 2 * d4), by simp [recoveryChan1], outside_below hf (by simp only; linarith)⟩
  · rw [← Except.ok.inj hb]; refine drawn_solid ops ?_
    exact spread_y (p := (0, 0)) (q := (0, d4)) (by simp) (by simp) (by simp only; linarith)

example := C76_nastran_chan1_partial exOps (d1 := 3/4) (d2 := 1) (d3 := 7/2) (d4 := 4) defaultMaterial (by norm_num) (by norm_num) (by norm_num) (by norm_num) (by norm_num)

theorem C76_nastran_chan2_partial (ops : GeomOps) {d1 d2 d3 d4 : ℝ} (m : Material)
    (h4 : 3 / 10 ^ 12 < d4) (h1 : 0 < d1) (h2 : 3 / 10 ^ 12 < d2) (h14 : 2 * d1 < d4) (h23 : d2 < d3) :
    ∃ g L, nastranChan2 ops d1 d2 d3 d4 m = .ok g ∧ Drawn g L ∧ Recovers L (d4 / 2, d2 / 2) (recoveryChan2 d2 d3 d4) ∧
      ∃ p ∈ recoveryChan2 d2 d3 d4, Outside g p := by
  obtain ⟨g, hg, hf⟩ := C48_nastran_chan2 ops m h4 h1 (lt_trans (by positivity) h2) h14 h23
  have hb := hg
  unfold nastranChan2 at hb
  split at hb
  · cases hb
  refine ⟨g, [(0, 0), (d4, 0), (d4, d3), (d4 - d1, d3), (d4 - d1, d2), (d1, d2), (d1, d3), (0, d3)], hg, ?_,
    recovers_of (on_vertex (a := d4) (b := d3) (by simp) (by ring) (by ring))
      (on_vertex (a := d4) (b := 0) (by simp) (by ring) (by ring))
      (on_vertex (a := 0) (b := 0) (by simp) (by ring) (by ring))
      (on_vertex (a := 0) (b := d3) (by simp) (by ring) (by ring)),
    (1 / 2 * d4, -1 / 2 * d2), by simp [recoveryChan2], outside_below hf (by simp only; linarith)⟩
  · rw [← Except.ok.inj hb]; refine drawn_solid ops ?_
    exact spread_x (p := (0, 0)) (q := (d4, 0)) (by simp) (by simp) (by simp only; linarith)

example := C76_nastran_chan2_partial exOps (d1 := 3/8) (d2 := 1/2) (d3 := 2) (d4 := 4) defaultMaterial (by norm_num) (by norm_num) (by norm_num) (by norm_num) (by norm_num)

theorem C76_nastran_cross_partial (ops : GeomOps) {d1 d2 d3 d4 : ℝ} (m : Material)
    (h3 : 3 / 10 ^ 12 < d3) (h1 : 0 < d1) (h2 : 0 < d2) (h4 : 0 < d4) (h43 : d4 < d3) :
    ∃ g L, nastranCross ops d1 d2 d3 d4 m = .ok g ∧ Drawn g L ∧ Recovers L ((d1 + d2) / 2, d3 / 2) (recoveryCross d1 d2 d3) ∧
      ∃ p ∈ recoveryCross d1 d2 d3, Outside g p := by
  obtain ⟨g, hg, hf⟩ := C48_nastran_cross ops m h3 h1 h2 h4 h43
  have hb := hg
  unfold nastranCross at hb
  split at hb
  · cases hb
  refine ⟨g, [(d1 / 2, 0), (d1 / 2 + d2, 0), (d1 / 2 + d2, (d3 - d4) / 2), (d1 + d2, (d3 - d4) / 2), (d1 + d2, (d3 - d4) / 2 + d4),
      (d1 / 2 + d2, (d3 - d4) / 2 + d4), (d1 / 2 + d2, d3), (d1 / 2, d3), (d1 / 2, (d3 - d4) / 2 + d4), (0, (d3 - d4) / 2 + d4),
      (0, (d3 - d4) / 2), (d1 / 2, (d3 - d4) / 2)], hg, ?_,
    recovers_of (on_middle (P := (d1 / 2 + d2, d3)) (Q := (d1 / 2, d3)) (by simp [Edge, closedEdges]) (by ring) (by ring))
      (on_middle (P := (d1 + d2, (d3 - d4) / 2)) (Q := (d1 + d2, (d3 - d4) / 2 + d4)) (by simp [Edge, closedEdges]) (by ring) (by ring))
      (on_middle (P := (d1 / 2, 0)) (Q := (d1 / 2 + d2, 0)) (by simp [Edge, closedEdges]) (by ring) (by ring))
      (on_middle (P := (0, (d3 - d4) / 2 + d4)) (Q := (0, (d3 - d4) / 2)) (by simp [Edge, closedEdges]) (by ring) (by ring)),
    (0, -1 / 2 * d3), by simp [recoveryCross], outside_below hf (by simp only; linarith)⟩
  · rw [← Except.ok.inj hb]; refine drawn_solid ops ?_
    exact spread_y (p := (d1 / 2, 0)) (q := (d1 / 2, d3)) (by simp) (by simp) (by simp only; linarith)

example := C76_nastran_cross_partial exOps (d1 := 3/2) (d2 := 3/8) (d3 := 3) (d4 := 1/4) defaultMaterial (by norm_num) (by norm_num) (by norm_num) (by norm_num) (by norm_num)

theorem C76_nastran_h_partial (ops : GeomOps) {d1 d2 d3 d4 : ℝ} (m : Material)
    (h3 : 3 / 10 ^ 12 < d3) (h1 : 0 < d1) (h2 : 0 < d2) (h4 : 0 < d4) (c : d4 < d3) :
    ∃ g L, nastranH ops d1 d2 d3 d4 m = .ok g ∧ Drawn g L ∧ Recovers L ((d1 + d2) / 2, d3 / 2) (recoveryH d1 d2 d3) ∧
      ∃ p ∈ recoveryH d1 d2 d3, Outside g p := by
  obtain ⟨g, hg, hf⟩ := C48_nastran_h ops m h3 h1 h2 h4 c
  have hb := hg
  unfold nastranH at hb
  split at hb
  · cases hb
  refine ⟨g, [(0, 0), (d2 / 2, 0), (d2 / 2, (d3 - d4) / 2), (d2 / 2 + d1, (d3 - d4) / 2), (d2 / 2 + d1, 0), (d1 + d2, 0),
      (d1 + d2, d3), (d1 + d2 - d2 / 2, d3), (d1 + d2 - d2 / 2, (d3 - d4) / 2 + d4), (d2 / 2, (d3 - d4) / 2 + d4), (d2 / 2, d3),
      (0, d3)], hg, ?_,
    recovers_of (on_vertex (a := d1 + d2) (b := d3) (by simp) (by ring) (by ring))
      (on_vertex (a := d1 + d2) (b := 0) (by simp) (by ring) (by ring))
      (on_vertex (a := 0) (b := 0) (by simp) (by ring) (by ring))
      (on_vertex (a := 0) (b := d3) (by simp) (by ring) (by ring)),
    (1 / 2 * (d1 + d2), -1 / 2 * d3), by simp [recoveryH], outside_below hf (by simp only; linarith)⟩
  · rw [← Except.ok.inj hb]; refine drawn_solid ops ?_
    exact spread_y (p := (0, 0)) (q := (0, d3)) (by simp) (by simp) (by simp only; linarith)

example := C76_nastran_h_partial exOps (d1 := 3) (d2 := 3/4) (d3 := 2) (d4 := 1/2) defaultMaterial (by norm_num) (by norm_num) (by norm_num) (by norm_num) (by norm_num)

theorem C76_nastran_hat_partial (ops : GeomOps) {d1 d2 d3 d4 : ℝ} (m : Material)
    (h1 : 3 / 10 ^ 12 < d1) (h2 : 0 < d2) (h4 : 0 < d4) (c : 2 * d2 < d1) (hw : 2 * d2 < d3) :
    ∃ g L, nastranHat ops d1 d2 d3 d4 m = .ok g ∧ Drawn g L ∧ Recovers L (d4 + d3 / 2, d1 - d2 / 2) (recoveryHat d1 d2 d3 d4) ∧
      ∃ p ∈ recoveryHat d1 d2 d3 d4, Outside g p := by
  obtain ⟨g, hg, hf⟩ := C48_nastran_hat ops m h1 h2 h4 c hw
  have hb := hg
  unfold nastranHat at hb
  split at hb
  · cases hb
  refine ⟨g, [(0, 0), (d4 + d2, 0), (d4 + d2, d1 - d2), (d4 + d3 - d2, d1 - d2), (d4 + d3 - d2, 0),
      (2 * d4 + d3, 0), (2 * d4 + d3, d2), (d4 + d3, d2), (d4 + d3, d1), (d4, d1), (d4, d2), (0, d2)], hg, ?_,
    recovers_of (on_vertex (a := d4 + d3) (b := d1) (by simp) (by ring) (by ring))
      (on_middle (P := (2 * d4 + d3, 0)) (Q := (2 * d4 + d3, d2)) (by simp [Edge, closedEdges]) (by ring) (by ring))
      (on_middle (P := (0, d2)) (Q := (0, 0)) (by simp [Edge, closedEdges]) (by ring) (by ring))
      (on_vertex (a := d4) (b := d1) (by simp) (by ring) (by ring)),
    (1 / 2 * d3 + d4, -d1 + d2), by simp [recoveryHat], outside_below hf (by simp only; linarith)⟩
  · rw [← Except.ok.inj hb]; refine drawn_solid ops ?_
    exact spread_y (p := (0, 0)) (q := (d4, d1)) (by simp) (by simp) (by simp only; linarith)

example := C76_nastran_hat_partial exOps (d1 := 5/4) (d2 := 1/4) (d3 := 3/2) (d4 := 1/2) defaultMaterial (by norm_num) (by norm_num) (by norm_num) (by norm_num) (by norm_num)

theorem C76_nastran_hexa_partial (ops : GeomOps) {d1 d2 d3 : ℝ} (m : Material)
    (h3 : 3 / 10 ^ 12 < d3) (h1 : 0 < d1) (c : 2 * d1 < d2) :
    ∃ g L, nastranHexa ops d1 d2 d3 m = .ok g ∧ Drawn g L ∧ Recovers L (d2 / 2, d3 / 2) (recoveryHexa d2 d3) ∧
      ∃ p ∈ recoveryHexa d2 d3, Outside g p := by
  obtain ⟨g, hg, hf⟩ := C48_nastran_hexa ops m h3 h1 c
  have hb := hg
  unfold nastranHexa at hb
  split at hb
  · cases hb
  refine ⟨g, [(d1, 0), (d2 - d1, 0), (d2, d3 / 2), (d2 - d1, d3), (d1, d3), (0, d3 / 2)], hg, ?_,
    recovers_of (on_middle (P := (d2 - d1, d3)) (Q := (d1, d3)) (by simp [Edge, closedEdges]) (by ring) (by ring))
      (on_middle (P := (d1, 0)) (Q := (d2 - d1, 0)) (by simp [Edge, closedEdges]) (by ring) (by ring))
      (on_vertex (a := d2) (b := d3 / 2) (by simp) (by ring) (by ring))
      (on_vertex (a := 0) (b := d3 / 2) (by simp) (by ring) (by ring)),
    (0, -1 / 2 * d3), by simp [recoveryHexa], outside_below hf (by simp only; linarith)⟩
  · rw [← Except.ok.inj hb]; refine drawn_solid ops ?_
    exact spread_y (p := (d1, 0)) (q := (d1, d3)) (by simp) (by simp) (by simp only; linarith)

example := C76_nastran_hexa_partial exOps (d1 := 1/2) (d2 := 2) (d3 := 3/2) defaultMaterial (by norm_num) (by norm_num) (by norm_num)

theorem C76_nastran_i1_partial (ops : GeomOps) {d1 d2 d3 d4 : ℝ} (m : Material)
    (h4 : 3 / 10 ^ 12 < d4) (h1 : 0 < d1) (h2 : 0 < d2) (h3 : 0 < d3) (c : d3 < d4) :
    ∃ g L, nastranI1 ops d1 d2 d3 d4 m = .ok g ∧ Drawn g L ∧ Recovers L ((d1 + d2) / 2, d4 / 2) (recoveryI1 d1 d2 d4) ∧
      ∃ p ∈ recoveryI1 d1 d2 d4, Outside g p := by
  obtain ⟨g, hg, hf⟩ := C48_nastran_i1 ops m h4 h1 h2 h3 c
  have hb := hg
  unfold nastranI1 at hb
  split at hb
  · cases hb
  refine ⟨g, [(0, 0), (d1 + d2, 0), (d1 + d2, (d4 - d3) / 2), (d1 / 2 + d2, (d4 - d3) / 2), (d1 / 2 + d2, (d4 - d3) / 2 + d3),
      (d1 + d2, (d4 - d3) / 2 + d3), (d1 + d2, d4), (0, d4), (0, (d4 - d3) / 2 + d3), (d1 / 2, (d4 - d3) / 2 + d3), (d1 / 2, (d4 - d3) / 2), (0, (d4 - d3) / 2)], hg, ?_,
    recovers_of (on_vertex (a := d1 + d2) (b := d4) (by simp) (by ring) (by ring))
      (on_vertex (a := d1 + d2) (b := 0) (by simp) (by ring) (by ring))
      (on_vertex (a := 0) (b := 0) (by simp) (by ring) (by ring))
      (on_vertex (a := 0) (b := d4) (by simp) (by ring) (by ring)),
    (1 / 2 * (d1 + d2), -1 / 2 * d4), by simp [recoveryI1], outside_below hf (by simp only; linarith)⟩
  · rw [← Except.ok.inj hb]; refine drawn_solid ops ?_
    exact spread_y (p := (0, 0)) (q := (0, d4)) (by simp) (by simp) (by simp only; linarith)

example := C76_nastran_i1_partial exOps (d1 := 1) (d2 := 3/4) (d3 := 4) (d4 := 5) defaultMaterial (by norm_num) (by norm_num) (by norm_num) (by norm_num) (by norm_num)

theorem C76_nastran_l_partial (ops : GeomOps) {d1 d2 d3 d4 : ℝ} (m : Material)
    (h1 : 3 / 10 ^ 12 < d1) (h3 : 3 / 10 ^ 12 < d3) (h4 : 0 < d4) (c1 : d4 < d1) (c2 : d3 < d2) :
    ∃ g L, nastranL ops d1 d2 d3 d4 m = .ok g ∧ Drawn g L ∧ Recovers L (d4 / 2, d3 / 2) (recoveryL d1 d2 d3 d4) ∧
      ∃ p ∈ recoveryL d1 d2 d3 d4, Outside g p := by
  obtain ⟨g, hg, hf⟩ := C48_nastran_l ops m h1 (lt_trans (by positivity) h3) h4 c1 c2
  have hb := hg
  unfold nastranL at hb
  split at hb
  · cases hb
  refine ⟨g, [(0, 0), (d1, 0), (d1, d3), (d4, d3), (d4, d2), (0, d2)], hg, ?_,
    recovers_of (on_vertex (a := d4) (b := d2) (by simp) (by ring) (by ring))
      (on_vertex (a := d1) (b := 0) (by simp) (by ring) (by ring))
      (on_vertex (a := 0) (b := 0) (by simp) (by ring) (by ring))
      (on_vertex (a := 0) (b := d2) (by simp) (by ring) (by ring)),
    (d1 - 1 / 2 * d4, -1 / 2 * d3), by simp [recoveryL], outside_below hf (by simp only; linarith)⟩
  · rw [← Except.ok.inj hb]; refine drawn_solid ops ?_
    exact spread_x (p := (0, 0)) (q := (d1, 0)) (by simp) (by simp) (by simp only; linarith)

example := C76_nastran_l_partial exOps (d1 := 3) (d2 := 6) (d3 := 3/8) (d4 := 5/8) defaultMaterial (by norm_num) (by norm_num) (by norm_num) (by norm_num) (by norm_num)

theorem C76_nastran_tee1_partial (ops : GeomOps) {d1 d2 d3 d4 : ℝ} (m : Material)
    (h1 : 3 / 10 ^ 12 < d1) (h2 : 0 < d2) (h3 : 0 < d3) (h4 : 0 < d4) (c1 : d4 < d1) :
    ∃ g L, nastranTee1 ops d1 d2 d3 d4 m = .ok g ∧ Drawn g L ∧ Recovers L (d3 / 2, d1 / 2) (recoveryTee1 d1 d2 d3) ∧
      ∃ p ∈ recoveryTee1 d1 d2 d3, Outside g p := by
  obtain ⟨g, hg, hf⟩ := C48_nastran_tee1 ops m h1 h2 h3 h4 c1
  have hb := hg
  unfold nastranTee1 at hb
  split at hb
  · cases hb
  refine ⟨g, [(0, 0), (d3, 0), (d3, d1), (0, d1), (0, (d1 - d4) / 2 + d4), (-d2, (d1 - d4) / 2 + d4),
      (-d2, (d1 - d4) / 2), (0, (d1 - d4) / 2)], hg, ?_,
    recovers_of (on_middle (P := (d3, 0)) (Q := (d3, d1)) (by simp [Edge, closedEdges]) (by ring) (by ring))
      (on_vertex (a := d3) (b := 0) (by simp) (by ring) (by ring))
      (on_middle (P := (-d2, (d1 - d4) / 2 + d4)) (Q := (-d2, (d1 - d4) / 2)) (by simp [Edge, closedEdges]) (by ring) (by ring))
      (on_vertex (a := d3) (b := d1) (by simp) (by ring) (by ring)),
    (1 / 2 * d3, -1 / 2 * d1), by simp [recoveryTee1], outside_below hf (by simp only; linarith)⟩
  · rw [← Except.ok.inj hb]; refine drawn_solid ops ?_
    exact spread_y (p := (0, 0)) (q := (0, d1)) (by simp) (by simp) (by simp only; linarith)

example := C76_nastran_tee1_partial exOps (d1 := 3) (d2 := 7/2) (d3 := 3/8) (d4 := 1/4) defaultMaterial (by norm_num) (by norm_num) (by norm_num) (by norm_num) (by norm_num)

theorem C76_nastran_tee2_partial (ops : GeomOps) {d1 d2 d3 d4 : ℝ} (m : Material)
    (h1 : 3 / 10 ^ 12 < d1) (h3 : 3 / 10 ^ 12 < d3) (h4 : 0 < d4) (c1 : d4 < d1) (c2 : d3 < d2) :
    ∃ g L, nastranTee2 ops d1 d2 d3 d4 m = .ok g ∧ Drawn g L ∧ Recovers L (d1 / 2, d3 / 2) (recoveryTee2 d1 d2 d3 d4) ∧
      ∃ p ∈ recoveryTee2 d1 d2 d3 d4, Outside g p := by
  obtain ⟨g, hg, hf⟩ := C48_nastran_tee2 ops m h1 (lt_trans (by positivity) h3) h4 c1 c2
  have hb := hg
  unfold nastranTee2 at hb
  split at hb
  · cases hb
  refine ⟨g, [(0, 0), (d1, 0), (d1, d3), (d1 - (d1 - d4) / 2, d3), (d1 - (d1 - d4) / 2, d2), ((d1 - d4) / 2, d2),
      ((d1 - d4) / 2, d3), (0, d3)], hg, ?_,
    recovers_of (on_vertex (a := d1 - (d1 - d4) / 2) (b := d2) (by simp) (by ring) (by ring))
      (on_vertex (a := d1) (b := 0) (by simp) (by ring) (by ring))
      (on_vertex (a := 0) (b := 0) (by simp) (by ring) (by ring))
      (on_vertex (a := (d1 - d4) / 2) (b := d2) (by simp) (by ring) (by ring)),
    (1 / 2 * d1, -1 / 2 * d3), by simp [recoveryTee2], outside_below hf (by simp only; linarith)⟩
  · rw [← Except.ok.inj hb]; refine drawn_solid ops ?_
    exact spread_x (p := (0, 0)) (q := (d1, 0)) (by simp) (by simp) (by simp only; linarith)

example := C76_nastran_tee2_partial exOps (d1 := 3) (d2 := 4) (d3 := 3/8) (d4 := 1/2) defaultMaterial (by norm_num) (by norm_num) (by norm_num) (by norm_num) (by norm_num)

theorem C76_nastran_zed_partial (ops : GeomOps) {d1 d2 d3 d4 : ℝ} (m : Material)
    (h4 : 3 / 10 ^ 12 < d4) (h1 : 0 < d1) (h2 : 0 < d2) (h3 : 0 < d3) (c : d3 < d4) :
    ∃ g L, nastranZed ops d1 d2 d3 d4 m = .ok g ∧ Drawn g L ∧ Recovers L (d1 + d2 / 2, d4 / 2) (recoveryZed d1 d2 d4) ∧
      ∃ p ∈ recoveryZed d1 d2 d4, Outside g p := by
  obtain ⟨g, hg, hf⟩ := C48_nastran_zed ops m h4 h1 h2 h3 c
  have hb := hg
  unfold nastranZed at hb
  split at hb
  · cases hb
  refine ⟨g, [(d1, 0), (2 * d1 + d2, 0), (2 * d1 + d2, (d4 - d3) / 2), (d1 + d2, (d4 - d3) / 2), (d1 + d2, d4), (0, d4),
      (0, d4 - (d4 - d3) / 2), (d1, d4 - (d4 - d3) / 2)], hg, ?_,
    recovers_of (on_vertex (a := d1 + d2) (b := d4) (by simp) (by ring) (by ring))
      (on_vertex (a := 2 * d1 + d2) (b := 0) (by simp) (by ring) (by ring))
      (on_vertex (a := d1) (b := 0) (by simp) (by ring) (by ring))
      (on_vertex (a := 0) (b := d4) (by simp) (by ring) (by ring)),
    (1 / 2 * d2 + d1, -1 / 2 * d4), by simp [recoveryZed], outside_below hf (by simp only; linarith)⟩
  · rw [← Except.ok.inj hb]; refine drawn_solid ops ?_
    exact spread_y (p := (d1, 0)) (q := (0, d4)) (by simp) (by simp) (by simp only; linarith)

example := C76_nastran_zed_partial exOps (d1 := 9/8) (d2 := 1/2) (d3 := 7/2) (d4 := 4) defaultMaterial (by norm_num) (by norm_num) (by norm_num) (by norm_num) (by norm_num)

end SP
