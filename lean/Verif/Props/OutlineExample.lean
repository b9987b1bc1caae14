import Verif.Props.OutlineMesh
import Verif.Props.OutlineRound
import Mathlib.Logic.Equiv.Fin.Basic

/-!
# C89: meshes of round sections, for every number of points

Used to show that the hypotheses of C89 can be met.
-/

namespace SP

open Spec MeasureTheory Set

/-- Three corners. -/
abbrev Corners := (ℝ × ℝ) × (ℝ × ℝ) × (ℝ × ℝ)

/-- Corners and midpoints. -/
noncomputable def cornerNodes (c : Corners) : Fin 6 → ℝ × ℝ :=
  ![c.1, c.2.1, c.2.2, ((c.1.1 + c.2.1.1) / 2, (c.1.2 + c.2.1.2) / 2), ((c.2.1.1 + c.2.2.1) / 2, (c.2.1.2 + c.2.2.2) / 2),
    ((c.1.1 + c.2.2.1) / 2, (c.1.2 + c.2.2.2) / 2)]

/-- The section with these triangles, which have nodes of their own. -/
noncomputable def cornersSection (T : List Corners) (m : Material) : Section where
  numNodes := T.length * 6
  meshNodes := fun q => cornerNodes T[(finProdFinEquiv.symm q).1] (finProdFinEquiv.symm q).2
  materials := []
  elements := (List.finRange T.length).map fun i : Fin T.length =>
    ⟨i, gather (fun q => cornerNodes T[(finProdFinEquiv.symm q).1] (finProdFinEquiv.symm q).2) fun j => finProdFinEquiv (i, j),
      fun j => finProdFinEquiv (i, j), m⟩
  groups := []

def cornerEdges (c : Corners) : List DirEdge := [(c.1, c.2.1), (c.2.1, c.2.2), (c.2.2, c.1)]

theorem cornersSection_edges (T : List Corners) (m : Material) :
    ((cornersSection T m).elements.flatMap fun t => elemEdges t.coords) = T.flatMap cornerEdges := by
  have h : (List.finRange T.length).map (fun i : Fin T.length => T[i]) = T := by
    apply List.ext_getElem
    · simp
    · intro i h1 h2; simp
  conv_rhs => rw [← h]
  rw [cornersSection, List.flatMap_map, List.flatMap_map]
  congr 1
  funext i
  simp [elemEdges, cornerEdges, cornerA, cornerB, cornerC, gather, cornerNodes]

theorem cornersSection_physical {T : List Corners} {m : Material} (hT : ∀ c ∈ T, 0 < signedArea2 c.1 c.2.1 c.2.2) (h0 : T ≠ [])
    (hm : 0 < m.elasticModulus) : Physical (cornersSection T m).elements := by
  have hlen : 0 < T.length := List.length_pos_iff.2 h0
  refine ⟨?_, ?_, ?_⟩
  · intro h
    have := congrArg List.length h
    simp [cornersSection] at this
    exact h0 this
  · intro t ht
    obtain ⟨i, -, rfl⟩ := List.mem_map.1 ht
    have := hT T[i] (List.getElem_mem _)
    refine ⟨?_, ?_⟩
    · simp [Straight, gather, cornerNodes]
    · simpa [elemDet, cornerA, cornerB, cornerC, gather, cornerNodes] using this
  · intro t ht
    obtain ⟨i, -, rfl⟩ := List.mem_map.1 ht
    exact hm

theorem cornersSection_analysis {T : List Corners} (m : Material) (h0 : T ≠ []) : ∃ r, (cornersSection T m).geometricAnalysis = .ok r := by
  refine geometricAnalysis_ok _ ?_
  have hlen : 0 < T.length := List.length_pos_iff.2 h0
  show 0 < T.length * 6
  omega

theorem paths_self (l : List DirEdge) : ∃ parts : List (List DirEdge), List.Forall₂ (fun e l => StraightPath e.1 e.2 l) l parts ∧ parts.flatten = l := by
  induction l with
  | nil => exact ⟨[], .nil, rfl⟩
  | cons e l ih =>
    obtain ⟨parts, h1, h2⟩ := ih
    exact ⟨[e] :: parts, .cons (.edge _ _) h1, by simp [h2]⟩

theorem boundedBy_of_perm {n : ℕ} {els : List (Tri6 n)} {outline inner : List DirEdge}
    (h : (els.flatMap fun t => elemEdges t.coords).Perm (outline ++ inner ++ inner.map Prod.swap)) : BoundedBy els outline := by
  obtain ⟨parts, h1, h2⟩ := paths_self outline
  exact ⟨parts, inner, h1, by rwa [h2]⟩

/-- The mesh of a single polygon. -/
theorem cornersSection_fills {T : List Corners} {m : Material} {p : Poly} {inner : List DirEdge}
    (hT : ∀ c ∈ T, 0 < signedArea2 c.1 c.2.1 c.2.2) (hv : ValidPoly p)
    (h : (T.flatMap cornerEdges).Perm (polyOutline p ++ inner ++ inner.map Prod.swap)) {g : Geometry} (hg : g.poly = p) (hgm : g.material = m)
    (h0 : T ≠ []) (hm : 0 < m.elasticModulus) :
    Physical (cornersSection T m).elements ∧ NoOverlap (cornersSection T m).elements ∧ Meshes (cornersSection T m).elements [g] ∧
      region (cornersSection T m).elements =ᵐ[volume] polyRegion p := by
  have hP := cornersSection_physical hT h0 hm
  have := C89_mesh (els := (cornersSection T m).elements) (geoms := [g]) hP.proper (by simpa [hg] using hv) (by simp) (fun _ => 0)
    (fun i => by
      have hi : i = 0 := by
        have h1 : (i : ℕ) < 1 := i.2
        exact Fin.ext (show (i : ℕ) = 0 by omega)
      subst hi
      have e : ((cornersSection T m).elements.filter fun _ => decide ((0 : Fin [g].length) = 0)) = (cornersSection T m).elements := by simp
      rw [e]
      refine boundedBy_of_perm (inner := inner) ?_
      rw [cornersSection_edges]
      simpa [hg] using h)
    (fun t ht => by
      obtain ⟨i, -, rfl⟩ := List.mem_map.1 ht
      simpa using hgm.symm)
  refine ⟨hP, this.1, this.2, ?_⟩
  filter_upwards [this.2.covers.mem_iff] with q hq
  refine propext (hq.trans ?_)
  constructor
  · rintro ⟨g', hg', hq⟩
    rw [List.mem_singleton] at hg'
    rw [hg', hg] at hq
    exact hq
  · intro hq
    exact ⟨g, List.mem_singleton.2 rfl, by rw [hg]; exact hq⟩

/-! ### The polygon of an ellipse: triangles at the first vertex -/

def fan (v : ℕ → ℝ × ℝ) (m : ℕ) : List Corners := (List.range m).map fun k => (v 0, v (k + 1), v (k + 2))

open Classical in
theorem fan_edges (v : ℕ → ℝ × ℝ) (m : ℕ) : ∃ inner : List DirEdge,
    ((fan v (m + 1)).flatMap cornerEdges).Perm (closedEdges ((List.range (m + 3)).map v) ++ inner ++ inner.map Prod.swap) := by
  refine ⟨(List.range m).map fun k => (v (k + 2), v 0), ?_⟩
  rw [closedEdges_map]
  induction m with
  | zero =>
    simp [fan, cornerEdges, List.range_succ]
  | succ m ih =>
    rw [List.perm_iff_count] at ih ⊢
    intro x
    have ih := ih x
    simp only [fan, List.flatMap_map] at ih ⊢
    rw [List.range_succ (n := m)] at ih
    rw [List.range_succ (n := m + 1), List.range_succ (n := m + 2), List.range_succ (n := m)]
    simp only [List.flatMap_append, List.map_append, List.count_append, List.flatMap_cons, List.flatMap_nil, List.append_nil, List.map_cons,
      List.map_nil, cornerEdges, List.count_cons, List.count_nil, Prod.swap_prod_mk, Nat.add_assoc,
      Nat.reduceAdd] at ih ⊢
    omega

theorem ringCCW_pos {r : List (ℝ × ℝ)} (h : 0 < ringArea2 r) : ringCCW r = closedEdges r := by
  rw [ringArea2_outline] at h
  rw [ringCCW, if_pos (by linarith)]

/-- Every ellipse with any number of points has a mesh. -/
theorem ellipse_mesh {dx dy : ℝ} (hx : 0 < dx) (hy : 0 < dy) (k : ℕ) {g : Geometry} (hg : g.poly = ⟨ellipsePts dx dy (k + 3), []⟩)
    (hm : 0 < g.material.elasticModulus) :
    Physical (cornersSection (fan (ellipsePt dx dy (k + 3)) (k + 1)) g.material).elements ∧
    NoOverlap (cornersSection (fan (ellipsePt dx dy (k + 3)) (k + 1)) g.material).elements ∧
    Meshes (cornersSection (fan (ellipsePt dx dy (k + 3)) (k + 1)) g.material).elements [g] ∧
    region (cornersSection (fan (ellipsePt dx dy (k + 3)) (k + 1)) g.material).elements
      =ᵐ[volume] polyRegion ⟨ellipsePts dx dy (k + 3), []⟩ := by
  have hn : 3 ≤ k + 3 := by omega
  obtain ⟨inner, h⟩ := fan_edges (ellipsePt dx dy (k + 3)) k
  refine cornersSection_fills (inner := inner) ?_ (ellipse_valid hx hy hn) ?_ hg rfl ?_ hm
  · intro c hc
    obtain ⟨j, hj, rfl⟩ := List.mem_map.1 hc
    rw [List.mem_range] at hj
    exact ellipse_convex hx hy hn 0 (j + 1) (j + 2) (by omega) (by omega) (by omega)
  · rw [polyOutline, ringCCW_pos (ellipse_ring_pos hx hy hn), List.flatMap_nil, List.append_nil, ellipsePts_eq]
    exact h
  · simp [fan]

example (k : ℕ) : ∃ r, (cornersSection (fan (ellipsePt 2 2 (k + 3)) (k + 1)) defaultMaterial).geometricAnalysis = .ok r ∧
    r.sums.area < Real.pi ∧ 0 < r.sums.area ∧ r.cx = 0 ∧ r.cent.ixxC = r.cent.iyyC ∧ r.cent.ixxC < Real.pi / 4 := by
  have hn : 3 ≤ k + 3 := by omega
  obtain ⟨r, hr⟩ := cornersSection_analysis (T := fan (ellipsePt 2 2 (k + 3)) (k + 1)) defaultMaterial (by simp [fan])
  obtain ⟨h1, h2, -, h3⟩ := ellipse_mesh (dx := 2) (dy := 2) two_pos two_pos k
    (g := ⟨⟨ellipsePts 2 2 (k + 3), []⟩, defaultMaterial, none, 12, [], [], [], []⟩) rfl (by norm_num [defaultMaterial])
  obtain ⟨a1, a2, a3, a4, a5, -⟩ := C89_ellipse hr h1 h2 (e := 1) (fun t ht => by
    obtain ⟨i, -, rfl⟩ := List.mem_map.1 ht
    rfl) two_pos two_pos hn h3
  obtain ⟨f1, f2⟩ := C89_factors.1 (k + 3) hn
  have hs := sin_pos_n hn
  have hk : (0 : ℝ) < ((k + 3 : ℕ) : ℝ) := by exact_mod_cast (by omega : 0 < k + 3)
  simp only [show (2 : ℝ) / 2 = 1 by norm_num, one_pow, mul_one, one_mul] at a1 a4 a5
  refine ⟨r, hr, by rw [a1]; exact f1, by rw [a1]; positivity, a2, by rw [a4, a5], by rw [a4]; exact f2⟩

/-! ### The ring of a circular hollow section: two triangles at each side -/

noncomputable def ringTris (a b : ℕ → ℝ × ℝ) (n : ℕ) : List Corners :=
  (List.range n).flatMap fun k => [(a k, a (k + 1), b (k + 1)), (a k, b (k + 1), b k)]

open Classical in
theorem flatMap_six {α β : Type*} (L : List α) (f1 f2 f3 f4 f5 f6 : α → β) :
    (L.flatMap fun k => [f1 k, f2 k, f3 k, f4 k, f5 k, f6 k]).Perm
      (L.map f1 ++ L.map f2 ++ L.map f3 ++ L.map f4 ++ L.map f5 ++ L.map f6) := by
  rw [List.perm_iff_count]
  intro x
  induction L with
  | nil => simp
  | cons a L ih =>
    simp only [List.flatMap_cons, List.map_cons, List.count_append, List.count_cons, List.count_nil] at ih ⊢
    omega

theorem range_shift {β : Type*} (g : ℕ → β) {n : ℕ} (h : g n = g 0) : ((List.range n).map fun k => g (k + 1)).Perm ((List.range n).map g) := by
  cases n with
  | zero => simp
  | succ n =>
    have e1 : (List.range (n + 1)).map (fun k => g (k + 1)) = (List.range n).map (fun k => g (k + 1)) ++ [g 0] := by
      rw [List.range_succ, List.map_append, ← h]; rfl
    have e2 : (List.range (n + 1)).map g = g 0 :: (List.range n).map (fun k => g (k + 1)) := by
      rw [List.range_succ_eq_map, List.map_cons, List.map_map]; rfl
    rw [e1, e2]
    exact List.perm_append_singleton _ _

theorem closedEdges_cyclic (v : ℕ → ℝ × ℝ) {n : ℕ} (h : v n = v 0) :
    closedEdges ((List.range n).map v) = (List.range n).map fun k => (v k, v (k + 1)) := by
  cases n with
  | zero => rfl
  | succ n => rw [closedEdges_map, List.range_succ, List.map_append, ← h]; rfl

open Classical in
theorem ring_edges (a b : ℕ → ℝ × ℝ) {n : ℕ} (ha : a n = a 0) (hb : b n = b 0) : ∃ inner : List DirEdge,
    ((ringTris a b n).flatMap cornerEdges).Perm (closedEdges ((List.range n).map a) ++ (closedEdges ((List.range n).map b)).map Prod.swap
      ++ inner ++ inner.map Prod.swap) := by
  refine ⟨(List.range n).map (fun k => (a (k + 1), b (k + 1))) ++ (List.range n).map (fun k => (b (k + 1), a k)), ?_⟩
  have h1 := flatMap_six (List.range n) (fun k => (a k, a (k + 1))) (fun k => (a (k + 1), b (k + 1))) (fun k => (b (k + 1), a k))
    (fun k => (a k, b (k + 1))) (fun k => (b (k + 1), b k)) (fun k => (b k, a k))
  have h2 := range_shift (fun k => (b k, a k)) (n := n) (by rw [ha, hb])
  have e : (ringTris a b n).flatMap cornerEdges = (List.range n).flatMap fun k =>
      [(a k, a (k + 1)), (a (k + 1), b (k + 1)), (b (k + 1), a k), (a k, b (k + 1)), (b (k + 1), b k), (b k, a k)] := by
    rw [ringTris, List.flatMap_assoc]
    rfl
  rw [e]
  refine h1.trans ?_
  rw [closedEdges_cyclic a ha, closedEdges_cyclic b hb, List.perm_iff_count]
  rw [List.perm_iff_count] at h2
  intro x
  have h2 := h2 x
  simp only [List.count_append, List.map_append, List.map_map, Function.comp_def, Prod.swap_prod_mk] at h2 ⊢
  omega

theorem ringTris_ne (a b : ℕ → ℝ × ℝ) {n : ℕ} (hn : 3 ≤ n) : ringTris a b n ≠ [] := by
  intro h0
  have := congrArg List.length h0
  simp [ringTris] at this
  omega

theorem hollow_mesh {d i : ℝ} (hi : 0 < i) (hd : i < d) {n : ℕ} (hn : 3 ≤ n) {g : Geometry}
    (hg : g.poly = ⟨ellipsePts d d n, [ellipsePts i i n]⟩) (hm : 0 < g.material.elasticModulus) :
    Physical (cornersSection (ringTris (ellipsePt d d n) (ellipsePt i i n) n) g.material).elements ∧
    NoOverlap (cornersSection (ringTris (ellipsePt d d n) (ellipsePt i i n) n) g.material).elements ∧
    Meshes (cornersSection (ringTris (ellipsePt d d n) (ellipsePt i i n) n) g.material).elements [g] ∧
    region (cornersSection (ringTris (ellipsePt d d n) (ellipsePt i i n) n) g.material).elements
      =ᵐ[volume] polyRegion ⟨ellipsePts d d n, [ellipsePts i i n]⟩ := by
  have hd0 := hi.trans hd
  have hn' : (n : ℝ) ≠ 0 := by exact_mod_cast (by omega : n ≠ 0)
  have hwrap : ∀ x : ℝ, ellipsePt x x n n = ellipsePt x x n 0 := fun x => by
    rw [ellipsePt, ellipsePt, mul_div_assoc, div_self hn']; simp
  obtain ⟨inner, h⟩ := ring_edges (ellipsePt d d n) (ellipsePt i i n) (hwrap d) (hwrap i)
  refine cornersSection_fills (inner := inner) ?_ (hollow_valid hi hd hn) ?_ hg rfl ?_ hm
  · intro c hc
    obtain ⟨k, -, hk⟩ := List.mem_flatMap.1 hc
    have hs := sin_pos_n hn
    rw [show 2 * Real.pi / (n : ℝ) = 2 * Real.pi * ((k + 1 : ℕ) : ℝ) / n - 2 * Real.pi * k / n by push_cast; ring, Real.sin_sub] at hs
    rcases List.mem_cons.1 hk with rfl | hk
    · have e : signedArea2 (ellipsePt d d n k) (ellipsePt d d n (k + 1)) (ellipsePt i i n (k + 1))
          = d / 2 * (d / 2 - i / 2) * (Real.sin (2 * Real.pi * ((k + 1 : ℕ) : ℝ) / n) * Real.cos (2 * Real.pi * k / n)
            - Real.cos (2 * Real.pi * ((k + 1 : ℕ) : ℝ) / n) * Real.sin (2 * Real.pi * k / n)) := by
        simp only [signedArea2, ellipsePt]; ring
      show 0 < signedArea2 (ellipsePt d d n k) (ellipsePt d d n (k + 1)) (ellipsePt i i n (k + 1))
      rw [e]
      exact mul_pos (mul_pos (by linarith) (by linarith)) hs
    · rw [List.mem_singleton] at hk
      subst hk
      have e : signedArea2 (ellipsePt d d n k) (ellipsePt i i n (k + 1)) (ellipsePt i i n k)
          = i / 2 * (d / 2 - i / 2) * (Real.sin (2 * Real.pi * ((k + 1 : ℕ) : ℝ) / n) * Real.cos (2 * Real.pi * k / n)
            - Real.cos (2 * Real.pi * ((k + 1 : ℕ) : ℝ) / n) * Real.sin (2 * Real.pi * k / n)) := by
        simp only [signedArea2, ellipsePt]; ring
      show 0 < signedArea2 (ellipsePt d d n k) (ellipsePt i i n (k + 1)) (ellipsePt i i n k)
      rw [e]
      exact mul_pos (mul_pos (by linarith) (by linarith)) hs
  · rw [polyOutline, ringCCW_pos (ellipse_ring_pos hd0 hd0 hn), List.flatMap_cons, List.flatMap_nil, List.append_nil, ringCW,
      ringCCW_pos (ellipse_ring_pos hi hi hn), ellipsePts_eq, ellipsePts_eq]
    exact h
  · exact ringTris_ne _ _ hn

example {n : ℕ} (hn : 3 ≤ n) :
    ∃ r, (cornersSection (ringTris (ellipsePt 4 4 n) (ellipsePt (2 * (4 / 2 - 1)) (2 * (4 / 2 - 1)) n) n) defaultMaterial).geometricAnalysis = .ok r ∧
      r.sums.area = n * Real.sin (2 * Real.pi / n) / 2 * 3 ∧ (r.cx, r.cy) = (0, 0) := by
  obtain ⟨r, hr⟩ := cornersSection_analysis (T := ringTris (ellipsePt 4 4 n) (ellipsePt (2 * (4 / 2 - 1)) (2 * (4 / 2 - 1)) n) n) defaultMaterial
    (ringTris_ne _ _ hn)
  have hg : (⟨⟨ellipsePts 4 4 n, [ellipsePts (2 * (4 / 2 - 1)) (2 * (4 / 2 - 1)) n]⟩, defaultMaterial, none, 12, [], [], [], []⟩ : Geometry).poly
    = ⟨ellipsePts 4 4 n, [ellipsePts (2 * (4 / 2 - 1)) (2 * (4 / 2 - 1)) n]⟩ := rfl
  obtain ⟨h1, h2, -, h3⟩ := hollow_mesh (d := 4) (i := 2 * (4 / 2 - 1)) (by norm_num) (by norm_num) hn hg (by norm_num [defaultMaterial])
  obtain ⟨a1, a2, a3, -⟩ := C89_hollow (e := 1) (d := 4) (t := 1) (n := n) hr h1 h2 (fun t ht => by
    obtain ⟨i, -, rfl⟩ := List.mem_map.1 ht
    rfl) one_pos (by norm_num) hn h3
  refine ⟨r, hr, ?_, by rw [a2, a3]⟩
  rw [a1]
  norm_num

end SP
