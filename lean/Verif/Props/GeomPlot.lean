import Verif.Spec.GeomPlot
import Verif.Props.Rigid
import Verif.Lemmas.Init

/-!
# C97: plots of geometries and mesh statistics
-/

namespace SP

open Spec

theorem mapM_all_ok {α β ε : Type*} {f : α → Except ε β} {g : α → β} {l : List α} (h : ∀ x ∈ l, f x = .ok (g x)) :
    l.mapM f = .ok (l.map g) := by
  rw [mapM_ok_forall₂, List.forall₂_map_right_iff, List.forall₂_same]
  exact h

/-- The artists of one kind. -/
def kind {α : Type*} (m : Marker) (path : α → List Pt) (name : String) (l : List α) : List Artist :=
  l.zipIdx.map fun p => ⟨m, path p.1, firstLabel p.2 name⟩

theorem kind_filter {α : Type*} (m m' : Marker) (path : α → List Pt) (name : String) (l : List α) :
    (kind m path name l).filter (fun a => a.marker = m') = if m = m' then kind m path name l else [] := by
  split_ifs with h
  · rw [List.filter_eq_self]
    intro a ha
    obtain ⟨p, -, rfl⟩ := List.mem_map.1 ha
    simpa using h
  · rw [List.filter_eq_nil_iff]
    intro a ha
    obtain ⟨p, -, rfl⟩ := List.mem_map.1 ha
    simpa using h

theorem kind_path {α : Type*} (m : Marker) (path : α → List Pt) (name : String) (l : List α) :
    (kind m path name l).map Artist.path = l.map path := by
  rw [kind, List.map_map, ← List.zipIdx_map_fst 0 l, List.map_map]
  simp only [List.zipIdx_map_fst]
  rfl

theorem kind_label {α : Type*} (m : Marker) (path : α → List Pt) (name : String) (l : List α) :
    (kind m path name l).filterMap Artist.label = if l = [] then [] else [name] := by
  cases l with
  | nil => simp [kind]
  | cons a l =>
    rw [if_neg (List.cons_ne_nil _ _), kind, List.zipIdx_cons, List.map_cons, List.filterMap_cons]
    simp only [firstLabel, if_true]
    congr 1
    rw [List.filterMap_eq_nil_iff]
    intro x hx
    obtain ⟨p, hp, rfl⟩ := List.mem_map.1 hx
    have := List.le_snd_of_mem_zipIdx hp
    simp only
    rw [if_neg (by omega)]

theorem mem_number {pts : List Pt} {color : String} {n : Note} : n ∈ numberPoints pts color ↔ Numbers pts color n := by
  simp only [numberPoints, List.mem_map, Prod.exists, List.mem_zipIdx_iff_getElem?, Numbers]
  constructor
  · rintro ⟨a, b, i, h, rfl⟩
    exact ⟨i, h, rfl, rfl⟩
  · rintro ⟨i, h, h1, h2⟩
    exact ⟨n.xy.1, n.xy.2, i, h, by rw [← h1, ← h2]⟩

theorem plot_core {points : List Pt} {facets : List (ℕ × ℕ)} {rings : List (List Pt)} (controlPoints holes : List Pt) (labels : List String)
    (cp legend : Bool) (hv : ∀ f ∈ facets, f.1 < points.length ∧ f.2 < points.length)
    (hs : segmentsOf points facets = rings.flatMap closedEdges) :
    ∃ p, plotGeometry points facets controlPoints holes labels cp legend = .ok p ∧
      Shows p rings points holes controlPoints labels cp legend := by
  let seg : ℕ × ℕ → Pt × Pt := fun f => (points.getD f.1 0, points.getD f.2 0)
  have hget : ∀ f ∈ facets, points[f.1]? = some (seg f).1 ∧ points[f.2]? = some (seg f).2 := fun f hf => by
    obtain ⟨h1, h2⟩ := hv f hf
    simp [seg, List.getD_eq_getElem?_getD, h1, h2]
  have hseg : facets.map seg = rings.flatMap closedEdges := by
    rw [← hs, segmentsOf, ← List.filterMap_eq_map]
    refine List.filterMap_congr fun f hf => ?_
    obtain ⟨h1, h2⟩ := hget f hf
    rw [h1, h2]
    rfl
  have hmem : ∀ {q : (ℕ × ℕ) × ℕ}, q ∈ facets.zipIdx → q.1 ∈ facets := fun {q} hq => by
    obtain ⟨-, -, h⟩ := List.mem_zipIdx hq
    rw [h]; exact List.getElem_mem _
  have e1 : facets.zipIdx.mapM (fun p => facetArtist points p.1 p.2)
      = .ok (kind .outline (fun f => [(seg f).1, (seg f).2]) "Points & Facets" facets) := by
    refine mapM_all_ok fun q hq => ?_
    obtain ⟨h1, h2⟩ := hget q.1 (hmem hq)
    rw [facetArtist, h1, h2]
  have e2 : facets.zipIdx.mapM (fun p => facetNote points p.1 p.2)
      = .ok (numberPoints ((facets.map seg).map middle) "b") := by
    rw [mapM_all_ok (g := fun q => (⟨toString q.2, middle (seg q.1), "b"⟩ : Note)) fun q hq => ?_]
    · rw [numberPoints, List.map_map, List.zipIdx_map, List.map_map]
      rfl
    · obtain ⟨h1, h2⟩ := hget q.1 (hmem hq)
      rw [facetNote, h1, h2]
      rfl
  rw [hseg] at e2
  have e3 : labels.mapM (labelNotes points facets controlPoints holes) = .ok (labels.map fun label =>
      (if label = "control_points" then numberPoints controlPoints "b" else [])
      ++ (if label = "points" then numberPoints points "r" else [])
      ++ (if label = "facets" then numberPoints ((rings.flatMap closedEdges).map middle) "b" else [])
      ++ if label = "holes" then numberPoints holes "r" else []) := by
    refine mapM_all_ok fun label _ => ?_
    rw [labelNotes]
    by_cases h : label = "facets"
    · simp only [if_pos h, e2]
    · simp only [if_neg h]
  let p : GeomPlot := ⟨kind .outline (fun f => [(seg f).1, (seg f).2]) "Points & Facets" facets
      ++ kind .hole (fun h => [h]) "Holes" holes
      ++ (if cp then kind .controlPoint (fun h => [h]) "Control Points" controlPoints else []),
    (labels.map fun label =>
      (if label = "control_points" then numberPoints controlPoints "b" else [])
      ++ (if label = "points" then numberPoints points "r" else [])
      ++ (if label = "facets" then numberPoints ((rings.flatMap closedEdges).map middle) "b" else [])
      ++ if label = "holes" then numberPoints holes "r" else []).flatten, legend⟩
  have f0 : ∀ m, p.artists.filter (fun a => a.marker = m) =
      (if Marker.outline = m then kind .outline (fun f => [(seg f).1, (seg f).2]) "Points & Facets" facets else [])
      ++ (if Marker.hole = m then kind .hole (fun h => [h]) "Holes" holes else [])
      ++ (if Marker.controlPoint = m ∧ cp = true then kind .controlPoint (fun h => [h]) "Control Points" controlPoints else []) := fun m => by
    simp only [p, List.filter_append, kind_filter]
    congr 1
    cases cp <;> simp [kind_filter]
  have g1 : p.artists.filter (fun a => a.marker = Marker.outline) = kind .outline (fun f => [(seg f).1, (seg f).2]) "Points & Facets" facets := by
    rw [f0]; simp
  have g2 : p.artists.filter (fun a => a.marker = Marker.hole) = kind .hole (fun h => [h]) "Holes" holes := by
    rw [f0]; simp
  have g3 : p.artists.filter (fun a => a.marker = Marker.controlPoint) =
      if cp then kind .controlPoint (fun h => [h]) "Control Points" controlPoints else [] := by
    rw [f0]; simp
  have m1 : marked p .outline = (rings.flatMap closedEdges).map fun e => [e.1, e.2] := by
    rw [marked, g1, kind_path, ← hseg, List.map_map]
    rfl
  refine ⟨p, ?_, ⟨m1, ?_, ?_, ?_, rfl, ?_, ?_, ?_, fun n => ?_⟩⟩
  · rw [plotGeometry, e1]
    simp only [e3]
    rfl
  · ext z
    constructor
    · rintro ⟨a, ha, hm, u, v, hp, hz⟩
      have : [u, v] ∈ marked p .outline := List.mem_map.2 ⟨a, List.mem_filter.2 ⟨ha, by simpa using hm⟩, hp⟩
      rw [m1, List.mem_map] at this
      obtain ⟨e, he, heq⟩ := this
      obtain ⟨ring, hr, he'⟩ := List.mem_flatMap.1 he
      simp only [List.cons.injEq, and_true] at heq
      exact ⟨ring, hr, e, he', by rw [heq.1, heq.2]; exact hz⟩
    · rintro ⟨ring, hr, e, he, hz⟩
      have : [e.1, e.2] ∈ marked p .outline := by
        rw [m1]
        exact List.mem_map.2 ⟨e, List.mem_flatMap.2 ⟨ring, hr, he⟩, rfl⟩
      obtain ⟨a, ha, hp⟩ := List.mem_map.1 this
      obtain ⟨ha1, ha2⟩ := List.mem_filter.1 ha
      exact ⟨a, ha1, by simpa using ha2, e.1, e.2, hp, hz⟩
  · rw [marked, g2, kind_path]
  · rw [marked, g3]
    split_ifs
    · rw [kind_path]
    · rfl
  · rw [legendOf, g1, kind_label, ← hseg]
    simp
  · rw [legendOf, g2, kind_label]
  · rw [legendOf, g3]
    cases cp
    · simp
    · simp [kind_label]
  · simp only [p, List.mem_flatten, List.mem_map]
    constructor
    · rintro ⟨_, ⟨label, hl, rfl⟩, hn⟩
      simp only [List.mem_append] at hn
      rcases hn with ((hn | hn) | hn) | hn
      all_goals
        split_ifs at hn with h
        · subst h
          rw [mem_number] at hn
          tauto
        · simp at hn
    · rintro (⟨h, hn⟩ | ⟨h, hn⟩ | ⟨h, hn⟩ | ⟨h, hn⟩)
      all_goals
        rw [← mem_number] at hn
        refine ⟨_, ⟨_, h, rfl⟩, ?_⟩
        simp [hn]

/-- **C97** for a geometry: whatever is asked for, the plot raises nothing and shows the exterior and all interiors, the holes and the
control points. -/
theorem C97_geometry (ops : GeomOps) {g : Geometry} (hb : Built ops g) (labels : List String) (cp legend : Bool) :
    ∃ p, g.plot labels cp legend = .ok p ∧
      Shows p (g.poly.exterior :: g.poly.interiors) g.points g.holes g.controlPoints labels cp legend := by
  obtain ⟨q, m, c, tol, rfl⟩ := hb
  obtain ⟨-, -, -, hv, -, -, hs⟩ := C37_facets ops q m c tol
  exact plot_core _ _ labels cp legend hv hs

/-- **C97** for a compound: the plot shows the rings of all its parts. -/
theorem C97_compound (ops : GeomOps) {c : Compound} (hb : CBuilt ops c) (labels : List String) (cp legend : Bool) :
    ∃ p, c.plot labels cp legend = .ok p ∧
      Shows p (c.geoms.flatMap fun g => g.poly.exterior :: g.poly.interiors) c.points c.holes c.controlPoints labels cp legend := by
  obtain ⟨c', h1, -, -, -, hv, -, hs, -⟩ := C39_compile ops hb.1
  obtain rfl : c' = c := by
    have := h1.symm.trans hb.2
    simpa using this
  refine plot_core _ _ labels cp legend hv (hs.trans ?_)
  rw [List.flatMap_assoc]

/-- **C97** Labels given as one string, as in `labels=("points")`, are ignored: nothing is numbered, whatever the string. -/
theorem C97_string_labels {points : List Pt} {facets : List (ℕ × ℕ)} {controlPoints holes : List Pt} {s : String} {cp legend : Bool}
    {p : GeomPlot} (hp : plotGeometry points facets controlPoints holes (stringLabels s) cp legend = .ok p) : p.notes = [] := by
  have key : ∀ label ∈ stringLabels s, labelNotes points facets controlPoints holes label = .ok [] := by
    intro label hl
    obtain ⟨c, -, rfl⟩ := List.mem_map.1 hl
    have ne : ∀ t : String, t.toList.length ≠ 1 → String.ofList [c] ≠ t := fun t ht h => ht (by rw [← h]; simp)
    rw [labelNotes]
    simp only [if_neg (ne "control_points" (by decide)), if_neg (ne "points" (by decide)), if_neg (ne "facets" (by decide)),
      if_neg (ne "holes" (by decide)), List.append_nil]
  rw [plotGeometry] at hp
  split at hp
  · cases hp
  · rw [mapM_all_ok key] at hp
    simp only [Except.ok.injEq] at hp
    rw [← hp]
    simp

/-- **C97** The mesh statistics of every section that can be built: the number of nodes and elements of the mesh, and as many regions as
materials. -/
theorem C97_mesh_info {g : GeomIn} {s : Section} (h : Section.init g = .ok s) :
    ∃ m, g.mesh = some m ∧ displayMeshInfo g s = .ok ["Mesh Statistics:", "- " ++ toString m.numNodes ++ " nodes",
      "- " ++ toString m.triangles.length ++ " elements",
      "- " ++ toString s.materials.length ++ (if s.materials.length = 1 then " region" else " regions"), ""] := by
  obtain ⟨m, mx, h1, h2, h3, els, h4, rfl⟩ := init_ok h
  refine ⟨m, h1, ?_⟩
  have hl : els.length = m.triangles.length := by rw [← h4.length_eq, List.length_zipIdx]
  simp only [displayMeshInfo, h1, h2, h3, List.length_map, hl]
  rcases Nat.eq_zero_or_pos mx with rfl | hm
  · simp [String.append_assoc]
  · rw [if_pos (by omega), if_neg (by omega), show (" regions" : String) = " region" ++ "s" from rfl]
    simp only [String.append_assoc]

/-- Non-vacuity: a square with a square hole; all numbers are asked for. -/
example (ops : GeomOps) : ∃ g p, Built ops g ∧ g.plot ["points", "facets", "holes"] true true = .ok p ∧
    (⟨toString 3, (0, 4), "r"⟩ : Note) ∈ p.notes ∧ (2, 0) ∈ inked p ∧ legendOf p .hole = ["Holes"] := by
  let q : Poly := ⟨[(0, 0), (4, 0), (4, 4), (0, 4)], [[(1, 1), (2, 1), (2, 2), (1, 2)]]⟩
  have i : ∀ n : ℤ, OnGrid 0 (n : ℝ) := fun n => ⟨n, by simp⟩
  have i0 : OnGrid 0 0 := by simpa using i 0
  have i1 : OnGrid 0 1 := by simpa using i 1
  have i2 : OnGrid 0 2 := by simpa using i 2
  have i4 : OnGrid 0 4 := by simpa using i 4
  have hq : roundPoly 0 q = q := by
    refine roundPoly_of_onGrid (fun r hr v hv => ?_) ⟨(4, 0), by simp [q], by simp⟩
    simp only [Poly.rings, q, List.mem_cons, List.not_mem_nil, or_false] at hr
    rcases hr with rfl | rfl <;> simp only [List.mem_cons, List.not_mem_nil, or_false] at hv <;>
      rcases hv with rfl | rfl | rfl | rfl <;> exact ⟨by assumption, by assumption⟩
  have hb := mk_built ops q defaultMaterial none 0
  have hpoly : (mkGeometry ops q defaultMaterial none 0).poly = q := hq
  obtain ⟨p, hp, hs⟩ := C97_geometry ops hb ["points", "facets", "holes"] true true
  refine ⟨_, p, hb, hp, ?_, ?_, ?_⟩
  · rw [hs.notes]
    refine Or.inr (Or.inl ⟨by simp, 3, ?_, rfl, rfl⟩)
    rw [(C37_facets ops q defaultMaterial none 0).2.1, hpoly]
    simp [q]
  · rw [hs.ink, hpoly]
    refine ⟨q.exterior, by simp, ((0, 0), (4, 0)), by simp [q, closedEdges], ?_⟩
    rw [segment_eq_image]
    exact ⟨1 / 2, by norm_num, by norm_num⟩
  · rw [hs.entryHoles, if_neg]
    change ¬ (roundPoly 0 q).interiors.map _ = []
    rw [hq]
    simp [q]

end SP
