import Verif.Props.Recovery

/-!
# C76 continued: sections drawn around the documented origin

Here the recovery points lie on the outline as they are set.  TEE and I are drawn elsewhere, as in `Props/Recovery`.
-/

namespace SP

open Spec

theorem C76_nastran_bar (ops : GeomOps) {d1 d2 : ℝ} (m : Material) (h1 : 3 / 10 ^ 12 < d1) :
    ∃ L, Drawn (nastranBar ops d1 d2 m) L ∧ Recovers L (0, 0) (recoveryRect d1 d2) := by
  refine ⟨barPts d1 d2, drawn_solid ops ?_, recovers_of
    (on_vertex (a := d1 / 2) (b := d2 / 2) (by simp [barPts]) (by ring) (by ring))
    (on_vertex (a := d1 / 2) (b := -d2 / 2) (by simp [barPts]) (by ring) (by ring))
    (on_vertex (a := -d1 / 2) (b := -d2 / 2) (by simp [barPts]) (by ring) (by ring))
    (on_vertex (a := -d1 / 2) (b := d2 / 2) (by simp [barPts]) (by ring) (by ring))⟩
  exact spread_x (p := (-d1 / 2, -d2 / 2)) (q := (d1 / 2, -d2 / 2)) (by simp [barPts]) (by simp [barPts])
    (by simp only; linarith)

example := C76_nastran_bar exOps (d1 := 2) (d2 := 3 / 2) defaultMaterial (by norm_num)

theorem C76_nastran_box (ops : GeomOps) {d1 d2 d3 d4 : ℝ} (m : Material) (h1 : 3 / 10 ^ 12 < d1)
    (h14 : 2 * d4 < d1) (h23 : 2 * d3 < d2)
    (hcut : Cuts ops (barPts d1 d2) [[(-d1 / 2 + d4, -d2 / 2 + d3), (d1 / 2 - d4, -d2 / 2 + d3),
      (d1 / 2 - d4, d2 / 2 - d3), (-d1 / 2 + d4, d2 / 2 - d3)]]) :
    ∃ g L, nastranBox ops d1 d2 d3 d4 m = .ok g ∧ Drawn g L ∧ Recovers L (0, 0) (recoveryRect d1 d2) := by
  have hg : ∃ g, nastranBox ops d1 d2 d3 d4 m = .ok g := by
    rw [nastranBox, if_neg (by push Not; exact ⟨h14, h23⟩), hollow, hcut]; exact ⟨_, rfl⟩
  obtain ⟨g, hg⟩ := hg
  have hb := hg
  unfold nastranBox at hb
  split at hb
  · cases hb
  refine ⟨g, barPts d1 d2, hg, drawn_cut ops hcut hb ?_, recovers_of
    (on_vertex (a := d1 / 2) (b := d2 / 2) (by simp [barPts]) (by ring) (by ring))
    (on_vertex (a := d1 / 2) (b := -d2 / 2) (by simp [barPts]) (by ring) (by ring))
    (on_vertex (a := -d1 / 2) (b := -d2 / 2) (by simp [barPts]) (by ring) (by ring))
    (on_vertex (a := -d1 / 2) (b := d2 / 2) (by simp [barPts]) (by ring) (by ring))⟩
  exact spread_x (p := (-d1 / 2, -d2 / 2)) (q := (d1 / 2, -d2 / 2)) (by simp [barPts]) (by simp [barPts])
    (by simp only; linarith)

example := C76_nastran_box exOps (d1 := 4) (d2 := 3) (d3 := 3 / 8) (d4 := 1 / 2) defaultMaterial (by norm_num)
  (by norm_num) (by norm_num) rfl

theorem C76_nastran_fcross (ops : GeomOps) {d1 d2 d3 d4 d5 d6 d7 d8 : ℝ} (m : Material) (h1 : 3 / 10 ^ 12 < d1)
    (c1 : d3 < d5) (c2 : d4 < d7) (c3 : d7 < d1) (c4 : d5 < d2) (c5 : d8 < d2 / 2 - d3 / 2) (c6 : d6 < d1 / 2 - d4 / 2) :
    ∃ g L, nastranFcross ops d1 d2 d3 d4 d5 d6 d7 d8 m = .ok g ∧ Drawn g L ∧
      Recovers L (0, 0) (recoveryFcross d1 d2) := by
  refine ⟨_, _, by rw [nastranFcross, if_neg (by push Not; exact ⟨c1, c2, c3, c4, c5, c6⟩)], drawn_solid ops ?_,
    recovers_of
    (on_middle (P := (d5 / 2, d1 / 2)) (Q := (-d5 / 2, d1 / 2)) (by simp [Edge, closedEdges]) (by ring) (by ring))
    (on_middle (P := (d2 / 2, -d7 / 2)) (Q := (d2 / 2, d7 / 2)) (by simp [Edge, closedEdges]) (by ring) (by ring))
    (on_middle (P := (-d5 / 2, -d1 / 2)) (Q := (d5 / 2, -d1 / 2)) (by simp [Edge, closedEdges]) (by ring) (by ring))
    (on_middle (P := (-d2 / 2, d7 / 2)) (Q := (-d2 / 2, -d7 / 2)) (by simp [Edge, closedEdges]) (by ring) (by ring))⟩
  exact spread_y (p := (d5 / 2, -d1 / 2)) (q := (d5 / 2, d1 / 2)) (by simp) (by simp) (by simp only; linarith)

example := C76_nastran_fcross exOps (d1 := 9) (d2 := 6) (d3 := 3 / 4) (d4 := 1 / 2) (d5 := 2) (d6 := 1)
  (d7 := 3) (d8 := 1) defaultMaterial (by norm_num) (by norm_num) (by norm_num) (by norm_num)
  (by norm_num) (by norm_num) (by norm_num)

/-- The points at the quarters of the circle are vertices if the number of points is a multiple of four. -/
theorem quarter_vertex {d1 : ℝ} {k : ℕ} (hk : 0 < k) {j : ℕ} (hj : j < 4) :
    (d1 * Real.cos (j * (Real.pi / 2)), d1 * Real.sin (j * (Real.pi / 2))) ∈ ellipsePts (2 * d1) (2 * d1) (4 * k) := by
  rw [ellipsePts, List.mem_map]
  refine ⟨j * k, List.mem_range.2 (by nlinarith), ?_⟩
  have hk' : (k : ℝ) ≠ 0 := by positivity
  have e : ((j * k : ℕ) : ℝ) * 2 * Real.pi / ((4 * k : ℕ) : ℝ) = j * (Real.pi / 2) := by push_cast; field_simp; ring
  simp only [e]
  ring_nf

theorem quarter_vertices {d1 : ℝ} {k : ℕ} (hk : 0 < k) :
    (d1, 0) ∈ ellipsePts (2 * d1) (2 * d1) (4 * k) ∧ (0, d1) ∈ ellipsePts (2 * d1) (2 * d1) (4 * k) ∧
    (-d1, 0) ∈ ellipsePts (2 * d1) (2 * d1) (4 * k) ∧ (0, -d1) ∈ ellipsePts (2 * d1) (2 * d1) (4 * k) := by
  have h0 := quarter_vertex (d1 := d1) hk (j := 0) (by norm_num)
  have h1 := quarter_vertex (d1 := d1) hk (j := 1) (by norm_num)
  have h2 := quarter_vertex (d1 := d1) hk (j := 2) (by norm_num)
  have h3 := quarter_vertex (d1 := d1) hk (j := 3) (by norm_num)
  have e2 : ((2 : ℕ) : ℝ) * (Real.pi / 2) = Real.pi := by push_cast; ring
  have e3 : ((3 : ℕ) : ℝ) * (Real.pi / 2) = Real.pi / 2 + Real.pi := by push_cast; ring
  rw [e2] at h2
  rw [e3, Real.cos_add_pi, Real.sin_add_pi] at h3
  simp at h0 h1 h2 h3
  exact ⟨h0, h1, h2, h3⟩

theorem C76_nastran_tee_partial (ops : GeomOps) {d1 d2 d3 d4 : ℝ} (m : Material) (h2 : 3 / 10 ^ 12 < d2)
    (h3 : 0 < d3) (h4 : 0 < d4) (c1 : d4 < d1) (c2 : d3 < d2) :
    ∃ g L, nastranTee ops d1 d2 d3 d4 m = .ok g ∧ Drawn g L ∧ Recovers L (d1 / 2, d2 - d3 / 2) (recoveryTee d1 d2 d3) ∧
      ∃ p ∈ recoveryTee d1 d2 d3, Outside g p := by
  obtain ⟨g, hg, hf⟩ := C48_nastran_tee ops m h2 h3 h4 c1 c2
  have hb := hg
  unfold nastranTee at hb
  split at hb
  · cases hb
  refine ⟨g, teePts d2 d1 d3 d4 0 1, hg, ?_, recovers_of
    (on_middle (P := (d1, d2)) (Q := (0, d2)) (by simp [teePts, quarter, drawRadius, Edge, closedEdges]) (by ring) (by ring))
    (on_vertex (a := d1) (b := d2) (by simp [teePts]) (by ring) (by ring))
    (on_middle (P := (d1 / 2 - d4 / 2, 0)) (Q := (d1 / 2 + d4 / 2, 0)) (by simp [teePts, quarter, drawRadius, Edge, closedEdges])
      (by ring) (by ring))
    (on_vertex (a := 0) (b := d2) (by simp [teePts]) (by ring) (by ring)),
    (0, 1 / 2 * d3 - d2), by simp [recoveryTee], outside_below hf (by simp only; linarith)⟩
  rw [← Except.ok.inj hb]
  exact drawn_solid ops (spread_y (p := (d1 / 2 - d4 / 2, 0)) (q := (d1, d2)) (by simp [teePts]) (by simp [teePts])
    (by simp only; linarith))

example := C76_nastran_tee_partial exOps (d1 := 3) (d2 := 4) (d3 := 3 / 8) (d4 := 1 / 4) defaultMaterial (by norm_num)
  (by norm_num) (by norm_num) (by norm_num) (by norm_num)

theorem on_edge {L : List Pt} {P Q q : Pt} (h : Edge L P Q) (t : ℝ) (h0 : 0 ≤ t) (h1 : t ≤ 1)
    (hx : q.1 = P.1 + t * (Q.1 - P.1)) (hy : q.2 = P.2 + t * (Q.2 - P.2)) : OnOutline L q := by
  refine ⟨P, Q, h, 1 - t, t, by linarith, h0, by ring, Prod.ext ?_ ?_⟩
  · simp only [Prod.fst_add, Prod.smul_fst, smul_eq_mul, hx]; ring
  · simp only [Prod.snd_add, Prod.smul_snd, smul_eq_mul, hy]; ring

/-- `nastran_i`.  The points D and E at the bottom flange use the width `d3` of the top flange, so `d3 ≤ d2` is needed
even for the section moved to the points. -/
theorem C76_nastran_i_partial (ops : GeomOps) {d1 d2 d3 d4 d5 d6 : ℝ} (m : Material) (h1 : 3 / 10 ^ 12 < d1)
    (h4 : 0 < d4) (h5 : 0 < d5) (h6 : 0 < d6) (c1 : d5 + d6 < d1) (c2 : d4 < d3) (c3 : d4 < d2) (h32 : d3 ≤ d2) :
    ∃ g L, nastranI ops d1 d2 d3 d4 d5 d6 m = .ok g ∧ Drawn g L ∧ Recovers L (d2 / 2, d1 / 2) (recoveryI d1 d3) ∧
      ∃ p ∈ recoveryI d1 d3, Outside g p := by
  obtain ⟨g, hg, hf⟩ := C48_nastran_i ops m h1 h4 h5 h6 c1 c2 c3
  have hb := hg
  unfold nastranI at hb
  split at hb
  · cases hb
  have h2 : 0 < d2 := by linarith
  refine ⟨g, _, hg, by rw [← Except.ok.inj hb]; exact drawn_solid ops (spread_y (p := (0, 0))
      (q := ((d2 - d4) / 2 - (d3 - d4) / 2, d1)) (by simp) (by simp) (by simp only; linarith)), recovers_of
    (on_vertex (a := (d2 - d4) / 2 + d4 + (d3 - d4) / 2) (b := d1) (by simp) (by ring) (by ring))
    (on_edge (P := (0, 0)) (Q := (d2, 0)) (by simp [Edge, closedEdges]) ((d2 + d3) / (2 * d2)) (by
        apply div_nonneg <;> linarith) (by rw [div_le_one (by linarith)]; linarith) (by simp only; field_simp; ring)
        (by simp only; ring))
    (on_edge (P := (0, 0)) (Q := (d2, 0)) (by simp [Edge, closedEdges]) ((d2 - d3) / (2 * d2)) (by
        apply div_nonneg <;> linarith) (by rw [div_le_one (by linarith)]; linarith) (by simp only; field_simp; ring)
        (by simp only; ring))
    (on_vertex (a := (d2 - d4) / 2 - (d3 - d4) / 2) (b := d1) (by simp) (by ring) (by ring)),
    (1 / 2 * d3, -1 / 2 * d1), by simp [recoveryI], outside_below hf (by simp only; linarith)⟩

example := C76_nastran_i_partial exOps (d1 := 5) (d2 := 3) (d3 := 2) (d4 := 1 / 4) (d5 := 3 / 8) (d6 := 1 / 2)
  defaultMaterial (by norm_num) (by norm_num) (by norm_num) (by norm_num) (by norm_num) (by norm_num) (by norm_num)
  (by norm_num)

/-- The claim fails: for every BOX1 section of the library one of the recovery points lies outside the section. -/
theorem C76_violated (ops : GeomOps) {d1 d2 d3 d4 d5 d6 : ℝ} (m : Material) (h1 : 3 / 10 ^ 12 < d1)
    (h2 : 3 / 10 ^ 12 < d2) (h3 : 0 < d3) (h4 : 0 < d4) (h5 : 0 < d5) (h6 : 0 < d6) (h15 : d5 + d6 < d1)
    (h23 : d3 + d4 < d2) (hcut : Cuts ops [(0, 0), (d1, 0), (d1, d2), (0, d2)]
      [[(d6, d4), (d1 - d5, d4), (d1 - d5, d2 - d3), (d6, d2 - d3)]]) :
    ∃ g, nastranBox1 ops d1 d2 d3 d4 d5 d6 m = .ok g ∧ ¬ ∀ p ∈ recoveryRect d1 d2, ¬ Outside g p := by
  obtain ⟨g, -, hg, -, -, p, hp, ho⟩ := C76_nastran_box1_partial ops m h1 h2 h3 h4 h5 h6 h15 h23 hcut
  exact ⟨g, hg, fun h => h p hp ho⟩

example := C76_violated exOps (d1 := 4) (d2 := 3) (d3 := 3 / 8) (d4 := 1 / 2) (d5 := 1 / 4) (d6 := 3 / 4)
  defaultMaterial (by norm_num) (by norm_num) (by norm_num) (by norm_num) (by norm_num) (by norm_num) (by norm_num)
  (by norm_num) rfl

end SP
