import Verif.Model.SetOps
import Verif.Props.Rigid

/-!
# `CompoundGeometry.from_points` (C63)
-/

namespace SP

open Spec

/-- The edges of a polygon given by vertex numbers: each to the next, and the last to the first. -/
def ringFacets (r : List ℕ) : List (ℕ × ℕ) := r.zip (r.rotate 1)

/-- The points with the given numbers. -/
def pick (points : List Pt) (r : List ℕ) : List Pt := r.map fun i => points.getD i (0, 0)

theorem pick_get {points : List Pt} {i : ℕ} (h : i < points.length) : points[i]? = some (points.getD i (0, 0)) := by
  simp [h]

/-- Facets of a chain that goes on from the previous facet. -/
theorem chain_fold {points : List Pt} (e : ℕ) : ∀ (is : List ℕ) (i : ℕ) (cur : List Pt) (done : List (List Pt)) (k : ℕ),
    (∀ j ∈ i :: is, j < points.length) →
    ∃ k', ((i :: is).zip (is ++ [e])).foldlM (PolyLoop.step points) ⟨cur, done, some (k, i)⟩
      = .ok ⟨cur ++ pick points (i :: is), done, some (k', e)⟩
  | [], i, cur, done, k, h => by
    refine ⟨i, ?_⟩
    rw [List.nil_append, List.zip_cons_cons, List.zip_nil_left, List.foldlM_cons]
    simp only [PolyLoop.step, pick_get (h i (by simp)), ne_eq, not_true_eq_false, if_false]
    rfl
  | i' :: is, i, cur, done, k, h => by
    obtain ⟨k', hk⟩ := chain_fold e is i' (cur ++ [points.getD i (0, 0)]) done i fun j hj => h j (by simp [hj])
    refine ⟨k', ?_⟩
    rw [List.cons_append, List.zip_cons_cons, List.foldlM_cons]
    simp only [PolyLoop.step, pick_get (h i (by simp)), ne_eq, not_true_eq_false, if_false]
    refine Eq.trans hk ?_
    simp [pick]

/-- The facets of a ring that starts a new chain. -/
theorem ring_fold {points : List Pt} {i : ℕ} {is : List ℕ} (h : ∀ j ∈ i :: is, j < points.length)
    {cur cur' : List Pt} {done done' : List (List Pt)} {prev : Option (ℕ × ℕ)}
    (hs : ∀ j, PolyLoop.step points ⟨cur, done, prev⟩ (i, j) = .ok ⟨cur' ++ [points.getD i (0, 0)], done', some (i, j)⟩) :
    ∃ k', (ringFacets (i :: is)).foldlM (PolyLoop.step points) ⟨cur, done, prev⟩
      = .ok ⟨cur' ++ pick points (i :: is), done', some (k', i)⟩ := by
  rw [ringFacets, List.rotate_cons_succ, List.rotate_zero]
  cases is with
  | nil => exact ⟨i, by simp [hs, pick, bind, Except.bind, pure, Except.pure]⟩
  | cons i' is =>
    obtain ⟨k', hk⟩ := chain_fold i is i' (cur' ++ [points.getD i (0, 0)]) done' i fun j hj => h j (by simp [hj])
    refine ⟨k', ?_⟩
    rw [List.cons_append, List.zip_cons_cons, List.foldlM_cons, hs]
    refine Eq.trans hk ?_
    simp [pick]

/-- The closed ring as it is collected. -/
def closed (points : List Pt) (r : List ℕ) : List Pt := pick points (r ++ r.take 1)

/-- The facets of further rings. -/
theorem rings_fold {points : List Pt} : ∀ (rs : List (List ℕ)) (r : List ℕ) (done : List (List Pt)) (k : ℕ) (i : ℕ) (is : List ℕ),
    r = i :: is → (∀ r' ∈ r :: rs, r' ≠ [] ∧ ∀ j ∈ r', j < points.length) →
    (r :: rs).IsChain (fun a b => a.head? ≠ b.head?) →
    ∃ l done' k' i' is', l = i' :: is' ∧ i' < points.length ∧
      (rs.flatMap ringFacets).foldlM (PolyLoop.step points) ⟨pick points r, done, some (k, i)⟩
        = .ok ⟨pick points l, done', some (k', i')⟩ ∧
      done' ++ [closed points l] = done ++ (r :: rs).map (closed points)
  | [], r, done, k, i, is, hr, h, _ => by
    refine ⟨r, done, k, i, is, hr, ?_, rfl, by simp⟩
    exact (h r (by simp)).2 i (by simp [hr])
  | r' :: rs, r, done, k, i, is, hr, h, hc => by
    obtain ⟨hne, hlt⟩ := h r' (by simp)
    obtain ⟨i', is', rfl⟩ := List.exists_cons_of_ne_nil hne
    rw [List.isChain_cons_cons] at hc
    have hii : i' ≠ i := by
      intro e
      apply hc.1
      rw [hr, e]
      rfl
    have hi : i < points.length := (h r (by simp)).2 i (by simp [hr])
    obtain ⟨k', hk⟩ := ring_fold (points := points) (i := i') (is := is') hlt (cur := pick points r) (done := done)
      (prev := some (k, i)) (cur' := []) (done' := done ++ [closed points r]) (by
        intro j
        simp only [PolyLoop.step, pick_get (hlt i' (by simp)), ne_eq, hii, not_false_eq_true, if_true, pick_get hi]
        congr 3
        simp [closed, pick, hr])
    obtain ⟨l, done', k2, i2, is2, a1, a2, a3, a4⟩ := rings_fold rs (i' :: is') (done ++ [closed points r]) k' i' is' rfl
      (fun x hx => h x (List.mem_cons_of_mem _ hx)) hc.2
    refine ⟨l, done', k2, i2, is2, a1, a2, ?_, ?_⟩
    · rw [List.flatMap_cons, List.foldlM_append, hk]
      exact a3
    · rw [a4]
      simp

/-- The rings found by the loop are those that were given. -/
theorem polygonRings_eq {points : List Pt} {rs : List (List ℕ)} (h0 : rs ≠ [])
    (h : ∀ r ∈ rs, r ≠ [] ∧ ∀ j ∈ r, j < points.length) (hc : rs.IsChain (fun a b => a.head? ≠ b.head?)) :
    polygonRings points (rs.flatMap ringFacets) = .ok (rs.map (closed points)) := by
  obtain ⟨r, rs, rfl⟩ := List.exists_cons_of_ne_nil h0
  obtain ⟨hne, hlt⟩ := h r (by simp)
  obtain ⟨i, is, rfl⟩ := List.exists_cons_of_ne_nil hne
  obtain ⟨k, hk⟩ := ring_fold (points := points) (i := i) (is := is) hlt (cur := []) (done := [])
      (prev := none) (cur' := []) (done' := []) (by
        intro j
        simp only [PolyLoop.step, pick_get (hlt i (by simp))])
  obtain ⟨l, done', k2, i2, is2, a1, a2, a3, a4⟩ := rings_fold rs (i :: is) [] k i is rfl h hc
  have e : ((i :: is) :: rs).flatMap ringFacets = ringFacets (i :: is) ++ rs.flatMap ringFacets := by simp
  have hf : (((i :: is) :: rs).flatMap ringFacets).foldlM (PolyLoop.step points) ⟨[], [], none⟩
      = .ok ⟨pick points l, done', some (k2, i2)⟩ := by
    rw [e, List.foldlM_append, hk]
    exact a3
  rw [polygonRings, hf]
  simp only [Option.getD_some, pick_get a2]
  rw [List.nil_append] at a4
  rw [← a4]
  congr 3
  simp [closed, pick, a1]

theorem closeRing_closed {points : List Pt} {r : List ℕ} (h : r ≠ []) : closeRing (closed points r) = ⟨pick points r, []⟩ := by
  obtain ⟨i, is, rfl⟩ := List.exists_cons_of_ne_nil h
  have e : closed points (i :: is) = pick points (i :: is) ++ [points.getD i (0, 0)] := by simp [closed, pick]
  rw [e, closeRing, if_pos, List.dropLast_concat]
  constructor
  · simp [pick]
  · rw [List.getLast?_concat]
    simp [pick]

/-- `q` is what is left of `p` after shapely has subtracted the polygons of a list from it, one after the other, each time with
a polygon as the result that satisfies `ok`. -/
inductive CutDown (ov : OverlayOps) (ok : Poly → Prop) : Poly → List Poly → Poly → Prop
  | nil (p : Poly) : CutDown ov ok p [] p
  | cons {p p' q : Poly} {i : Poly} {is : List Poly} (h : ov.diff [p] [i] = .polygon p') (hok : ok p')
      (h' : CutDown ov ok p' is q) : CutDown ov ok p (i :: is) q

/-- Among the control points, `p` contains the one with the number `i`, and none before it. -/
def FirstIn (ov : OverlayOps) (cps : List Pt) (i : ℕ) (p : Poly) : Prop :=
  ∃ c, cps[i]? = some c ∧ ov.contains p c ∧ ∀ j c', j < i → cps[j]? = some c' → ov.contains p c' = false

theorem find_first {ov : OverlayOps} {cps : List Pt} {i : ℕ} {p : Poly} (h : FirstIn ov cps i p) :
    cps.find? (ov.contains p) = cps[i]? := by
  obtain ⟨c, h1, h2, h3⟩ := h
  rw [h1, List.find?_eq_some_iff_getElem]
  have hi : i < cps.length := by
    by_contra h
    rw [List.getElem?_eq_none (by omega)] at h1
    exact absurd h1 (by simp)
  refine ⟨h2, i, hi, ?_, fun j hj => ?_⟩
  · rw [List.getElem?_eq_getElem hi] at h1
    exact Option.some.inj h1
  · have := h3 j cps[j] hj (List.getElem?_eq_getElem (by omega))
    simp [this]

theorem punchAll_eq {ov : OverlayOps} {cps : List Pt} {i : ℕ} {c : Pt} (hc : cps[i]? = some c) {p q : Poly} {is : List Poly}
    (h : CutDown ov (FirstIn ov cps i) p is q) : ∀ cp, is ≠ [] ∨ cp = c → punchAll ov cps p cp is = .ok (q, c) := by
  induction h with
  | nil p =>
    intro cp h
    rcases h with h | h
    · exact absurd rfl h
    · rw [h]; rfl
  | cons h hok h' ih =>
    intro cp _
    rw [punchAll, h]
    simp only
    rw [find_first hok, hc]
    exact ih c (Or.inr rfl)

theorem exteriorGeoms_eq (ops : GeomOps) {ov : OverlayOps} {cps : List Pt} {is : List Poly} : ∀ (es : List Poly) (cs : List Pt)
    (ms : List Material) (k : ℕ) (qs : List Poly), es.length = cs.length → ms.length = cs.length → qs.length = es.length →
    (∀ i c, cs[i]? = some c → cps[k + i]? = some c) →
    (∀ i e q, es[i]? = some e → qs[i]? = some q → CutDown ov (FirstIn ov cps (k + i)) e is q) →
    ∃ gs, exteriorGeoms ops ov cps is es cs ms = .ok gs ∧ gs.length = cs.length ∧
      ∀ (i : ℕ) (q : Poly) (m : Material) (c : Pt), qs[i]? = some q → ms[i]? = some m → cs[i]? = some c → gs[i]? = some (mkGeometry ops q m (some c) 12)
  | [], [], ms, k, qs, _, _, _, _, _ => ⟨[], by simp [exteriorGeoms], rfl, by simp⟩
  | e :: es, c :: cs, m :: ms, k, q :: qs, h1, h2, h3, h4, h5 => by
    obtain ⟨gs, a1, a2, a3⟩ := exteriorGeoms_eq ops (ov := ov) (cps := cps) (is := is) es cs ms (k + 1) qs (by simpa using h1)
      (by simpa using h2) (by simpa using h3)
      (fun i c' hi => by
        have := h4 (i + 1) c' (by simpa using hi)
        rwa [show k + 1 + i = k + (i + 1) by omega])
      (fun i e' q' he hq => by
        have := h5 (i + 1) e' q' (by simpa using he) (by simpa using hq)
        rwa [show k + 1 + i = k + (i + 1) by omega])
    have hcut := h5 0 e q (by simp) (by simp)
    have hk := h4 0 c (by simp)
    rw [Nat.add_zero] at hcut hk
    refine ⟨mkGeometry ops q m (some c) 12 :: gs, ?_, by simp [a2], ?_⟩
    · cases is with
      | nil =>
        cases hcut
        simp only [exteriorGeoms, a1]
      | cons i is =>
        simp only [exteriorGeoms, punchAll_eq hk hcut (0, 0) (Or.inl (by simp)), a1]
    · intro i q' m' c' hq hm hc'
      cases i with
      | zero =>
        simp only [List.getElem?_cons_zero, Option.some.injEq] at hq hm hc' ⊢
        rw [hq, hm, hc']
      | succ i =>
        simp only [List.getElem?_cons_succ] at hq hm hc' ⊢
        exact a3 i q' m' c' hq hm hc'
  | _ :: _, [], _, _, _, h1, _, _, _, _ => by simp at h1
  | [], _ :: _, _, _, _, h1, _, _, _, _ => by simp at h1
  | _, _ :: _, [], _, _, _, h2, _, _, _ => by simp at h2
  | _ :: _, _, _, _, [], _, _, h3, _, _ => by simp at h3

/-- A polygon that surrounds a hole: it contains the point of a hole and no control point. -/
def Surrounds (ov : OverlayOps) (cps holes : List Pt) (p : Poly) : Prop :=
  (∃ h ∈ holes, ov.contains p h) ∧ ∀ c ∈ cps, ov.contains p c = false

theorem isInterior_iff {ov : OverlayOps} {cps holes : List Pt} {p : Poly} :
    isInterior ov holes cps p = true ↔ Surrounds ov cps holes p := by
  simp [isInterior, Surrounds]

open Classical in
/-- **C63.** Let the facets go round the polygons of a list of rings, one after the other, of which no two
consecutive ones start at the same point.  The rings that contain the point of a hole and no control point are
the holes, the others the regions; let there be as many control points and materials as regions.  Let the holes be cut
out of each region, the result being one polygon each time, that contains the control point of the same number, and none before
it (if there are no holes the control points do not matter).  Then `from_points` returns a compound with as many parts
as there are regions, and part `i` is the geometry of region `i` without the holes, with material `i` and control point `i`. -/
theorem C63_from_points (ops : GeomOps) (ov : OverlayOps) {points : List Pt} {rings : List (List ℕ)} {cps holes : List Pt}
    {mats : List Material} {qs : List Poly} (h0 : rings ≠ [])
    (h : ∀ r ∈ rings, r ≠ [] ∧ ∀ j ∈ r, j < points.length) (hstart : rings.IsChain fun a b => a.head? ≠ b.head?)
    (hm : mats.length = cps.length) :
    let polys := rings.map fun r => (⟨pick points r, []⟩ : Poly)
    let regions := polys.filter fun p => ¬ Surrounds ov cps holes p
    let cut := polys.filter fun p => Surrounds ov cps holes p
    regions.length = cps.length → qs.length = cps.length → cps ≠ [] →
    (∀ i e q, regions[i]? = some e → qs[i]? = some q → CutDown ov (FirstIn ov cps i) e cut q) →
    ∃ c, compoundFromPoints ops ov points (rings.flatMap ringFacets) cps holes (some mats) = .ok c ∧
      c.geoms.length = cps.length ∧
      ∀ (i : ℕ) (q : Poly) (m : Material) (p : Pt), qs[i]? = some q → mats[i]? = some m → cps[i]? = some p →
        c.geoms[i]? = some (mkGeometry ops q m (some p) 12) := by
  intro polys regions cut hl hq hne hcut
  have hp : (rings.map (closed points)).map closeRing = polys := by
    rw [List.map_map]
    exact List.map_congr_left fun r hr => closeRing_closed (h r hr).1
  have e1 : (polys.filter fun p => !(isInterior ov holes cps p)) = regions := by
    refine List.filter_congr fun p _ => ?_
    rw [Bool.eq_iff_iff]
    simp [← isInterior_iff]
  have e2 : (polys.filter fun p => isInterior ov holes cps p) = cut := by
    refine List.filter_congr fun p _ => ?_
    rw [Bool.eq_iff_iff]
    simp [← isInterior_iff]
  obtain ⟨gs, a1, a2, a3⟩ := exteriorGeoms_eq ops (ov := ov) (cps := cps) (is := cut) regions cps mats 0 qs hl hm (by rw [hq, hl])
    (fun i c hi => by rwa [Nat.zero_add]) (fun i e q he hq' => by rw [Nat.zero_add]; exact hcut i e q he hq')
  obtain ⟨c, c1, c2, _⟩ := mkCompound_built ops (gs := gs) (by
    intro g hg
    obtain ⟨i, hi, rfl⟩ := List.getElem_of_mem hg
    have hi' : i < cps.length := by omega
    have := a3 i (qs[i]'(by omega)) (mats[i]'(by omega)) cps[i] (by simp [hq, hi']) (by simp [hm, hi']) (by simp [hi'])
    rw [List.getElem?_eq_getElem hi] at this
    rw [Option.some.inj this]
    exact mk_built ..)
  refine ⟨c, ?_, by rw [c2, a2], fun i q m p x y z => by rw [c2]; exact a3 i q m p x y z⟩
  simp only [compoundFromPoints, Option.getD_some, hm, hne, and_false, if_false, ne_eq, not_true_eq_false,
    polygonRings_eq h0 h hstart, hp, e1, e2, hl, a1, c1]

open Classical in
/-- **C63, rejected input.** `ValueError` is raised for materials without control points, for a number of materials other than
the number of control points, for a number of regions other than the number of control points, and if the first region contains
no control point once the first hole is cut out.  Without materials all regions get the default material. -/
theorem C63_rejects (ops : GeomOps) (ov : OverlayOps) (points : List Pt) (rings : List (List ℕ)) (cps holes : List Pt)
    (mats : List Material) :
    (∀ facets, mats ≠ [] → compoundFromPoints ops ov points facets [] holes (some mats) = .error .valueError) ∧
    (∀ facets, mats.length ≠ cps.length → compoundFromPoints ops ov points facets cps holes (some mats) = .error .valueError) ∧
    (∀ facets, compoundFromPoints ops ov points facets cps holes none
      = compoundFromPoints ops ov points facets cps holes (some (List.replicate cps.length defaultMaterial))) ∧
    (rings ≠ [] → (∀ r ∈ rings, r ≠ [] ∧ ∀ j ∈ r, j < points.length) → (rings.IsChain fun a b => a.head? ≠ b.head?) →
      mats.length = cps.length → cps ≠ [] →
      let polys := rings.map fun r => (⟨pick points r, []⟩ : Poly)
      let regions := polys.filter fun p => ¬ Surrounds ov cps holes p
      let cut := polys.filter fun p => Surrounds ov cps holes p
      (regions.length ≠ cps.length →
        compoundFromPoints ops ov points (rings.flatMap ringFacets) cps holes (some mats) = .error .valueError) ∧
      (regions.length = cps.length → ∀ e es i is q, regions = e :: es → cut = i :: is → ov.diff [e] [i] = .polygon q →
        (∀ c ∈ cps, ov.contains q c = false) →
        compoundFromPoints ops ov points (rings.flatMap ringFacets) cps holes (some mats) = .error .valueError)) := by
  refine ⟨fun facets hm => ?_, fun facets hm => ?_, fun facets => rfl, fun h0 h hstart hm hne => ?_⟩
  · simp [compoundFromPoints, hm]
  · simp only [compoundFromPoints, Option.getD_some, ne_eq, hm, not_false_eq_true, if_true, ite_self]
  · intro polys regions cut
    have hp : (rings.map (closed points)).map closeRing = polys := by
      rw [List.map_map]
      exact List.map_congr_left fun r hr => closeRing_closed (h r hr).1
    have e1 : (polys.filter fun p => !(isInterior ov holes cps p)) = regions := by
      refine List.filter_congr fun p _ => ?_
      rw [Bool.eq_iff_iff]
      simp [← isInterior_iff]
    have e2 : (polys.filter fun p => isInterior ov holes cps p) = cut := by
      refine List.filter_congr fun p _ => ?_
      rw [Bool.eq_iff_iff]
      simp [← isInterior_iff]
    constructor
    · intro hl
      simp only [compoundFromPoints, Option.getD_some, hm, hne, and_false, if_false, ne_eq, not_true_eq_false,
        polygonRings_eq h0 h hstart, hp, e1, hl, not_false_eq_true, if_true]
    · intro hl e es i is q hr hc hd hcp
      obtain ⟨c, cs, rfl⟩ := List.exists_cons_of_ne_nil hne
      obtain ⟨m, ms, rfl⟩ := List.exists_cons_of_ne_nil (l := mats) (by rintro rfl; simp at hm)
      have hf : (c :: cs).find? (ov.contains q) = none := by
        rw [List.find?_eq_none]
        intro x hx
        simp [hcp x hx]
      simp only [compoundFromPoints, Option.getD_some, hm, hne, and_false, if_false, ne_eq, not_true_eq_false,
        polygonRings_eq h0 h hstart, hp, e1, e2, hl]
      rw [hr, hc]
      simp only [exteriorGeoms, punchAll, hd, hf]

/-- **C63 is violated** for regions that start at the same point: the square with the vertices 0 to 3, divided into
the triangles 0, 1, 2 and 0, 2, 3, is rejected with `ValueError`, whatever shapely does, because the second triangle is taken for
the continuation of the first. -/
theorem C63_violated (ops : GeomOps) (ov : OverlayOps) (c1 c2 : Pt) (m1 m2 : Material) :
    compoundFromPoints ops ov [(0, 0), (1, 0), (1, 1), (0, 1)] (ringFacets [0, 1, 2] ++ ringFacets [0, 2, 3]) [c1, c2] []
      (some [m1, m2]) = .error .valueError := by
  have h : polygonRings [((0 : ℝ), (0 : ℝ)), (1, 0), (1, 1), (0, 1)] (ringFacets [0, 1, 2] ++ ringFacets [0, 2, 3])
      = .ok [[(0, 0), (1, 0), (1, 1), (0, 0), (1, 1), (0, 1), (0, 0)]] := rfl
  simp [compoundFromPoints, h, isInterior]

open Classical in
/-- Shapely for the square with a hole. -/
noncomputable def exHoleOv : OverlayOps where
  union ps qs := .multi (ps ++ qs)
  symDiff ps qs := .multi (ps ++ qs)
  diff ps qs := match ps, qs with
    | [p], [q] => .polygon ⟨p.exterior, p.interiors ++ [q.exterior]⟩
    | _, _ => .other
  inter _ _ := .lineOrPoint
  contains p c := decide (if p.exterior.head? = some (1, 1) then c = (2, 2) else p.interiors = [] ∨ c = (1 / 2, 1 / 2))

open Classical in
/-- The square with a hole meets the hypotheses. -/
example (m : Material) : ∃ c, compoundFromPoints exOps exHoleOv [(0, 0), (4, 0), (4, 4), (0, 4), (1, 1), (1, 3), (3, 3), (3, 1)]
    ([[0, 1, 2, 3], [4, 5, 6, 7]].flatMap ringFacets) [(1 / 2, 1 / 2)] [(2, 2)] (some [m]) = .ok c ∧
    c.geoms[0]? = some (mkGeometry exOps exFrame m (some (1 / 2, 1 / 2)) 12) := by
  have hin : Surrounds exHoleOv [(1 / 2, 1 / 2)] [(2, 2)] ⟨[(1, 1), (1, 3), (3, 3), (3, 1)], []⟩ := by
    refine ⟨⟨(2, 2), by simp, by simp [exHoleOv]⟩, ?_⟩
    intro c hc
    rw [List.mem_singleton] at hc
    subst hc
    simp [exHoleOv]
    norm_num
  have hout : ¬ Surrounds exHoleOv [(1 / 2, 1 / 2)] [(2, 2)] ⟨[(0, 0), (4, 0), (4, 4), (0, 4)], []⟩ := by
    rintro ⟨_, h⟩
    have := h (1 / 2, 1 / 2) (by simp)
    simp [exHoleOv] at this
  have hpol : [[0, 1, 2, 3], [4, 5, 6, 7]].map (fun r => (⟨pick [((0 : ℝ), (0 : ℝ)), (4, 0), (4, 4), (0, 4), (1, 1), (1, 3),
      (3, 3), (3, 1)] r, []⟩ : Poly)) = [⟨[(0, 0), (4, 0), (4, 4), (0, 4)], []⟩, ⟨[(1, 1), (1, 3), (3, 3), (3, 1)], []⟩] := rfl
  obtain ⟨c, h1, h2, h3⟩ := C63_from_points exOps exHoleOv (points := [(0, 0), (4, 0), (4, 4), (0, 4), (1, 1), (1, 3), (3, 3), (3, 1)])
    (rings := [[0, 1, 2, 3], [4, 5, 6, 7]]) (cps := [(1 / 2, 1 / 2)]) (holes := [(2, 2)]) (mats := [m]) (qs := [exFrame]) (by simp)
    (by
      intro r hr
      simp only [List.mem_cons, List.not_mem_nil, or_false] at hr
      rcases hr with rfl | rfl <;> simp)
    (by simp) rfl (by
      rw [hpol]
      simp only [List.filter_cons, List.filter_nil, hin, hout, not_true_eq_false, not_false_eq_true, decide_true, decide_false,
        Bool.false_eq_true, if_true, if_false, List.length_cons, List.length_nil]) rfl (by simp) (by
      intro i e q he hq
      have hi : i = 0 := by
        by_contra h
        rw [List.getElem?_eq_none (by simp; omega)] at hq
        exact absurd hq (by simp)
      subst hi
      rw [hpol] at he ⊢
      simp only [List.getElem?_cons_zero, Option.some.injEq] at hq
      subst hq
      have e1 : ([⟨[(0, 0), (4, 0), (4, 4), (0, 4)], []⟩, ⟨[(1, 1), (1, 3), (3, 3), (3, 1)], []⟩] : List Poly).filter
          (fun p => ¬ Surrounds exHoleOv [(1 / 2, 1 / 2)] [(2, 2)] p) = [⟨[(0, 0), (4, 0), (4, 4), (0, 4)], []⟩] := by
        simp only [List.filter_cons, List.filter_nil, hin, hout, not_true_eq_false, not_false_eq_true, decide_true, decide_false,
          Bool.false_eq_true, if_true, if_false]
      have e2 : ([⟨[(0, 0), (4, 0), (4, 4), (0, 4)], []⟩, ⟨[(1, 1), (1, 3), (3, 3), (3, 1)], []⟩] : List Poly).filter
          (fun p => Surrounds exHoleOv [(1 / 2, 1 / 2)] [(2, 2)] p) = [⟨[(1, 1), (1, 3), (3, 3), (3, 1)], []⟩] := by
        simp only [List.filter_cons, List.filter_nil, hin, hout, not_true_eq_false, not_false_eq_true, decide_true, decide_false,
          Bool.false_eq_true, if_true, if_false]
      rw [e1] at he
      rw [e2]
      simp only [List.getElem?_cons_zero, Option.some.injEq] at he
      subst he
      refine .cons rfl ⟨(1 / 2, 1 / 2), rfl, ?_, ?_⟩ (.nil _)
      · simp [exHoleOv]
      · intro j c hj
        omega)
  exact ⟨c, h1, h3 0 exFrame m _ rfl rfl rfl⟩

end SP
