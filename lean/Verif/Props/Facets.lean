import Verif.Lemmas.Collect

/-!
# Points, facets and compounds (C37, C38, C39)
-/

namespace SP

open Spec

/-- Points near each other, ring by ring. -/
def NearRings (tol : ℕ) (a b : List (List Pt)) : Prop :=
  List.Forall₂ (List.Forall₂ fun p q : Pt => HalfUnit tol p.1 q.1 ∧ HalfUnit tol p.2 q.2) a b

theorem nearRings_map (tol : ℕ) (a : List (List Pt)) : NearRings tol (a.map (List.map (roundPt tol))) a := by
  rw [NearRings, List.forall₂_map_left_iff, List.forall₂_same]
  intro r _
  rw [List.forall₂_map_left_iff, List.forall₂_same]
  intro q _
  exact ⟨roundTo_near _ _, roundTo_near _ _⟩

/-- Vertices that are more than `√2` units apart do not fall together on rounding. -/
theorem spread_round {tol : ℕ} {l : List Pt} (h : Spread tol l) :
    ¬ ∀ q ∈ l.map (roundPt tol), q = (0, 0) := by
  intro hall
  obtain ⟨p, hp, q, hq, hd⟩ := h
  have h1 := hall _ (List.mem_map.2 ⟨p, hp, rfl⟩)
  have h2 := hall _ (List.mem_map.2 ⟨q, hq, rfl⟩)
  have ep1 := roundTo_near tol p.1
  have ep2 := roundTo_near tol p.2
  have eq1 := roundTo_near tol q.1
  have eq2 := roundTo_near tol q.2
  rw [roundPt, Prod.mk.injEq] at h1 h2
  rw [HalfUnit, h1.1, abs_le] at ep1
  rw [HalfUnit, h1.2, abs_le] at ep2
  rw [HalfUnit, h2.1, abs_le] at eq1
  rw [HalfUnit, h2.2, abs_le] at eq2
  have hu : (0 : ℝ) < 1 / 10 ^ tol := by positivity
  set u : ℝ := 1 / 10 ^ tol with hudef
  have e1 : (1 : ℝ) / 2 / 10 ^ tol = u / 2 := by rw [hudef]; ring
  have e2 : (3 : ℝ) / 10 ^ tol = 3 * u := by rw [hudef]; ring
  rw [e1] at ep1 ep2 eq1 eq2
  rw [e2] at hd
  have a1 : |p.1 - q.1| ≤ u := abs_le.2 ⟨by linarith, by linarith⟩
  have a2 : |p.2 - q.2| ≤ u := abs_le.2 ⟨by linarith, by linarith⟩
  have b1 := sq_le_sq' (by linarith [abs_nonneg (p.1 - q.1)]) a1
  have b2 := sq_le_sq' (by linarith [abs_nonneg (p.2 - q.2)]) a2
  rw [sq_abs] at b1 b2
  nlinarith

theorem roundPoly_of_spread {tol : ℕ} {p : Poly} (h : Spread tol p.exterior) :
    roundPoly tol p = p.map (roundPt tol) := by
  rw [roundPoly, if_neg (spread_round h)]

/-- **C37.** The rings of a geometry are those of the polygon it was made from, rounded; its points are
the vertices ring by ring; its facets are one closed cycle for each ring, through all of its vertices in
order, over consecutive index ranges; every index is valid, is the start of exactly one facet and the
end of exactly one; and the facets describe the edges of the rings. -/
theorem C37_facets (ops : GeomOps) (p : Poly) (m : Material) (cp : Option Pt) (tol : ℕ) :
    let g := mkGeometry ops p m cp tol
    let rings := g.poly.exterior :: g.poly.interiors
    (Spread tol p.exterior → NearRings tol rings (p.exterior :: p.interiors)) ∧
    g.points = rings.flatten ∧
    g.facets = (List.range rings.length).flatMap
      (fun k => cycle (ringStart rings k) (rings.getD k []).length) ∧
    (∀ f ∈ g.facets, f.1 < g.points.length ∧ f.2 < g.points.length) ∧
    g.facets.map Prod.fst = List.range g.points.length ∧
    (g.facets.map Prod.snd).Perm (List.range g.points.length) ∧
    segmentsOf g.points g.facets = rings.flatMap closedEdges := by
  intro g rings
  have hb : Built ops g := mk_built ..
  have hp : g.points = rings.flatten := hb.points
  have hf : g.facets = cyclesFrom 0 rings := hb.facets
  have h1 : g.facets.map Prod.fst = List.range g.points.length := by
    rw [hf, hp, cyclesFrom_fst]; simp
  have h2 : (g.facets.map Prod.snd).Perm (List.range g.points.length) := by
    rw [hf, hp]
    refine (cyclesFrom_snd rings 0).trans ?_
    simp
  refine ⟨fun hs => ?_, hp, ?_, fun f hf' => ?_, h1, h2, ?_⟩
  · have e : g.poly = p.map (roundPt tol) := roundPoly_of_spread hs
    have := nearRings_map tol p.rings
    rw [← Poly.map_rings, ← e] at this
    exact this
  · rw [hf, cyclesFrom_eq]; simp
  · constructor
    · have : f.1 ∈ g.facets.map Prod.fst := List.mem_map.2 ⟨f, hf', rfl⟩
      rw [h1] at this
      exact List.mem_range.1 this
    · have : f.2 ∈ g.facets.map Prod.snd := List.mem_map.2 ⟨f, hf', rfl⟩
      exact List.mem_range.1 (h2.mem_iff.1 this)
  · rw [hf, hp]
    exact segmentsOf_cyclesFrom rings []

/-- A square with a square hole. -/
def exFrame : Poly :=
  ⟨[(0, 0), (4, 0), (4, 4), (0, 4)], [[(1, 1), (1, 3), (3, 3), (3, 1)]]⟩

/-- Some oracle. -/
noncomputable def exOps : GeomOps :=
  { rep := fun p => match p.exterior with
      | a :: _ => (a.1 + 1 / 2, a.2 + 1 / 2)
      | [] => (0, 0)
    punch := fun e is => some ⟨e, is⟩
    unionHoles := fun _ => [] }

example : Spread 12 exFrame.exterior :=
  ⟨(0, 0), by simp [exFrame], (4, 0), by simp [exFrame], by norm_num⟩

theorem exFrame_onGrid : exFrame.OnGrid 12 := by
  intro r hr q hq
  have e0 : OnGrid 12 0 := ⟨0, by simp⟩
  have e1 := OnGrid.natCast 12 1
  have e3 := OnGrid.natCast 12 3
  have e4 := OnGrid.natCast 12 4
  push_cast at e1 e3 e4
  simp only [Poly.rings, exFrame, List.mem_cons, List.not_mem_nil, or_false] at hr
  rcases hr with rfl | rfl <;> simp only [List.mem_cons, List.not_mem_nil, or_false] at hq <;>
    rcases hq with rfl | rfl | rfl | rfl <;> exact ⟨‹_›, ‹_›⟩

/-- The facets of the example: two cycles. -/
example (m : Material) : (mkGeometry exOps exFrame m none 12).facets
    = [(0, 1), (1, 2), (2, 3), (3, 0), (4, 5), (5, 6), (6, 7), (7, 4)] := by
  have e : (mkGeometry exOps exFrame m none 12).poly = exFrame :=
    roundPoly_of_onGrid exFrame_onGrid ⟨(4, 0), by simp [exFrame], by simp⟩
  rw [(mk_built ..).facets, e]
  decide

/-- What `from_points` makes of the points and facets of a geometry: shapely is asked to punch the
interior rings out of the exterior ring. -/
theorem fromPoints_eq (ops : GeomOps) {e : List Pt} {hs : List (List Pt)} (he : e ≠ [])
    (hh : ∀ r ∈ hs, r ≠ [] ∧ r ≠ e) (c : Pt) {holes : List Pt} (hl : holes.length = hs.length) (m : Material) :
    fromPoints ops (e :: hs).flatten (cyclesFrom 0 (e :: hs)) [c] holes m =
      match ops.punch e hs with
      | none => .error .runtimeError
      | some p => .ok (mkGeometry ops p m (some c) 12) := by
  obtain ⟨s, h1, h2, h3⟩ := collectRings_eq he hh
  simp only [fromPoints, hl, h1, h2, h3]
  rfl

/-- **C38.** Let `q` be what shapely returns for the exterior ring of a geometry with its interior rings
punched out, and let `q` have no vertices other than these rings have.  Then `from_points`, applied to
the points, facets, control points and holes of the geometry, returns a geometry with the polygon `q` and
with the control points and material of the first one.  In particular, if shapely returns the rings as
they are, then polygon, points, facets and holes are those of the first geometry. -/
theorem C38_round_trip (ops : GeomOps) {g : Geometry} (hb : Built ops g) (htol : g.tol ≤ 12)
    (hh : ∀ r ∈ g.poly.interiors, r ≠ [] ∧ r ≠ g.poly.exterior) (he : g.poly.exterior ≠ []) {q : Poly}
    (hq : ops.punch g.poly.exterior g.poly.interiors = some q)
    (hv : ∀ r ∈ q.exterior :: q.interiors, ∀ v ∈ r, ∃ r' ∈ g.poly.exterior :: g.poly.interiors, v ∈ r')
    (h0 : ∃ v ∈ q.exterior, v ≠ (0, 0)) :
    ∃ g', fromPoints ops g.points g.facets g.controlPoints g.holes g.material = .ok g' ∧
      g'.poly = q ∧ g'.material = g.material ∧ g'.controlPoints = g.controlPoints ∧
      (q = g.poly → g'.points = g.points ∧ g'.facets = g.facets ∧ g'.holes = g.holes) := by
  obtain ⟨c, hc⟩ := hb.controlPoints he
  have hholes : g.holes = g.poly.interiors.map fun h => ops.rep ⟨h, []⟩ := by
    obtain ⟨p, m, cp, tol, rfl⟩ := hb; rfl
  have hgrid : q.OnGrid 12 := by
    intro r hr v hv'
    obtain ⟨r', hr', hv''⟩ := hv r hr v hv'
    have := hb.onGrid r' hr' v hv''
    exact ⟨this.1.mono htol, this.2.mono htol⟩
  have hround := roundPoly_of_onGrid hgrid h0
  have hpoly : (mkGeometry ops q g.material (some c) 12).poly = q := hround
  refine ⟨mkGeometry ops q g.material (some c) 12, ?_, hpoly, rfl, by rw [hc]; rfl, fun hqg => ?_⟩
  · rw [hb.points, hb.facets, hc]
    have := fromPoints_eq ops he hh c (holes := g.holes) (by rw [hholes]; simp) g.material
    rw [hq] at this
    exact this
  · refine ⟨?_, ?_, ?_⟩
    · rw [(mk_built ..).points, hpoly, hqg, hb.points]
    · rw [(mk_built ..).facets, hpoly, hqg, hb.facets]
    · rw [hholes, ← hqg]
      simp only [mkGeometry, hround]

/-- The square with a hole meets the hypotheses. -/
example (m : Material) (g : Geometry) (hg : g = mkGeometry exOps exFrame m none 12) :
    Built exOps g ∧ g.tol ≤ 12 ∧ (∀ r ∈ g.poly.interiors, r ≠ [] ∧ r ≠ g.poly.exterior) ∧
      g.poly.exterior ≠ [] ∧ exOps.punch g.poly.exterior g.poly.interiors = some g.poly ∧
      ∃ v ∈ g.poly.exterior, v ≠ (0, 0) := by
  have e : g.poly = exFrame := by
    rw [hg]
    exact roundPoly_of_onGrid exFrame_onGrid ⟨(4, 0), by simp [exFrame], by simp⟩
  refine ⟨hg ▸ mk_built .., by rw [hg]; exact le_refl 12, ?_, ?_, rfl, ?_⟩ <;> rw [e]
  · intro r hr
    simp only [exFrame, List.mem_singleton] at hr
    subst hr
    simp [exFrame]
  · simp [exFrame]
  · exact ⟨(4, 0), by simp [exFrame], by simp⟩

/-! ### Compounds -/

theorem addPoints_spec : ∀ (pts acc : List Pt), acc.Nodup →
    (addPoints acc pts).Nodup ∧ (∃ l, addPoints acc pts = acc ++ l) ∧
      ∀ p, p ∈ addPoints acc pts ↔ p ∈ acc ∨ p ∈ pts
  | [], acc, h => ⟨h, ⟨[], by simp [addPoints]⟩, by simp [addPoints]⟩
  | q :: pts, acc, h => by
    have hstep : addPoints acc (q :: pts) = addPoints (if q ∈ acc then acc else acc ++ [q]) pts := rfl
    rw [hstep]
    by_cases hq : q ∈ acc
    · rw [if_pos hq]
      obtain ⟨h1, h2, h3⟩ := addPoints_spec pts acc h
      refine ⟨h1, h2, fun p => ?_⟩
      rw [h3, List.mem_cons]
      constructor
      · tauto
      · rintro (hp | rfl | hp)
        · exact Or.inl hp
        · exact Or.inl hq
        · exact Or.inr hp
    · rw [if_neg hq]
      have hnd : (acc ++ [q]).Nodup := by
        rw [List.nodup_append]
        refine ⟨h, by simp, ?_⟩
        intro a ha b hb
        simp at hb
        rw [hb]; rintro rfl; exact hq ha
      obtain ⟨h1, ⟨l, h2⟩, h3⟩ := addPoints_spec pts _ hnd
      refine ⟨h1, ⟨q :: l, by rw [h2]; simp⟩, fun p => ?_⟩
      rw [h3, List.mem_append, List.mem_singleton, List.mem_cons]
      tauto

theorem remapFacets_spec (all pts : List Pt) (hsub : ∀ p ∈ pts, p ∈ all) : ∀ (fs : List (ℕ × ℕ)),
    (∀ f ∈ fs, f.1 < pts.length ∧ f.2 < pts.length) →
    ∃ fs', fs.mapM (remapFacet all pts) = .ok fs' ∧ segmentsOf all fs' = segmentsOf pts fs ∧
      ∀ f ∈ fs', f.1 < all.length ∧ f.2 < all.length
  | [], _ => ⟨[], by simp [pure, Except.pure], rfl, by simp⟩
  | f :: fs, h => by
    obtain ⟨h1, h2⟩ := h f (List.mem_cons_self ..)
    obtain ⟨fs', e1, e2, e3⟩ := remapFacets_spec all pts hsub fs fun g hg => h g (List.mem_cons_of_mem _ hg)
    have m1 : pts[f.1] ∈ all := hsub _ (List.getElem_mem h1)
    have m2 : pts[f.2] ∈ all := hsub _ (List.getElem_mem h2)
    have i1 := List.idxOf_lt_length_iff.2 m1
    have i2 := List.idxOf_lt_length_iff.2 m2
    refine ⟨(all.idxOf pts[f.1], all.idxOf pts[f.2]) :: fs', ?_, ?_, ?_⟩
    · rw [List.mapM_cons, e1]
      simp [remapFacet, List.getElem?_eq_getElem h1, List.getElem?_eq_getElem h2, bind, Except.bind,
        pure, Except.pure]
    · have := e2
      simp only [segmentsOf] at this ⊢
      rw [List.filterMap_cons, List.filterMap_cons, this]
      simp [List.getElem?_eq_getElem h1, List.getElem?_eq_getElem h2, List.getElem?_eq_getElem i1,
        List.getElem?_eq_getElem i2]
    · intro g hg
      rcases List.mem_cons.1 hg with rfl | hg
      · exact ⟨i1, i2⟩
      · exact e3 g hg

theorem segmentsOf_prefix (pts l : List Pt) (fs : List (ℕ × ℕ))
    (h : ∀ f ∈ fs, f.1 < pts.length ∧ f.2 < pts.length) :
    segmentsOf (pts ++ l) fs = segmentsOf pts fs := by
  rw [segmentsOf, segmentsOf]
  apply List.filterMap_congr
  intro f hf
  rw [List.getElem?_append_left (h f hf).1, List.getElem?_append_left (h f hf).2]

theorem compileLoop_spec : ∀ (gs : List Geometry) (pts : List Pt) (fcs : List (ℕ × ℕ)) (cps : List Pt),
    (∀ g ∈ gs, ∀ f ∈ g.facets, f.1 < g.points.length ∧ f.2 < g.points.length) →
    pts.Nodup → (∀ f ∈ fcs, f.1 < pts.length ∧ f.2 < pts.length) →
    ∃ pts' fcs', compileLoop gs (pts, fcs, cps) = .ok (pts', fcs', cps ++ gs.flatMap (·.controlPoints)) ∧
      pts'.Nodup ∧ (∀ p, p ∈ pts' ↔ p ∈ pts ∨ ∃ g ∈ gs, p ∈ g.points) ∧
      (∀ f ∈ fcs', f.1 < pts'.length ∧ f.2 < pts'.length) ∧
      segmentsOf pts' fcs' = segmentsOf pts fcs ++ gs.flatMap fun g => segmentsOf g.points g.facets
  | [], pts, fcs, cps, _, hn, hf => ⟨pts, fcs, by simp [compileLoop], hn, by simp, hf, by simp⟩
  | g :: gs, pts, fcs, cps, hv, hn, hf => by
    obtain ⟨a1, ⟨l, a2⟩, a3⟩ := addPoints_spec g.points pts hn
    obtain ⟨fs, b1, b2, b3⟩ := remapFacets_spec (addPoints pts g.points) g.points
      (fun p hp => (a3 p).2 (Or.inr hp)) g.facets (hv g (List.mem_cons_self ..))
    have hf' : ∀ f ∈ fcs ++ fs, f.1 < (addPoints pts g.points).length ∧ f.2 < (addPoints pts g.points).length := by
      intro f hfm
      rcases List.mem_append.1 hfm with h | h
      · have := hf f h
        rw [a2, List.length_append]
        omega
      · exact b3 f h
    obtain ⟨pts', fcs', c1, c2, c3, c4, c5⟩ := compileLoop_spec gs (addPoints pts g.points) (fcs ++ fs)
      (cps ++ g.controlPoints) (fun g' hg' => hv g' (List.mem_cons_of_mem _ hg')) a1 hf'
    refine ⟨pts', fcs', ?_, c2, fun p => ?_, c4, ?_⟩
    · rw [compileLoop]
      simp only [b1]
      rw [c1]
      simp
    · rw [c3, a3]
      simp only [List.mem_cons, exists_eq_or_imp]
      tauto
    · rw [c5, segmentsOf_append, b2, List.flatMap_cons, ← List.append_assoc]
      congr 2
      rw [a2]
      exact segmentsOf_prefix _ _ _ hf

theorem built_facets_valid {ops : GeomOps} {g : Geometry} (hb : Built ops g) :
    ∀ f ∈ g.facets, f.1 < g.points.length ∧ f.2 < g.points.length := by
  obtain ⟨p, m, cp, tol, rfl⟩ := hb
  exact (C37_facets ops p m cp tol).2.2.2.1

/-- **C39.** A compound made of geometries keeps these as its parts, in order; its points are the points
of the parts, without duplicates; all facet indices are valid; the segments that its facets describe are
those of the parts, part by part and in order; and its control points are those of the parts in order, one for each if
no part is empty, so that region `i` is part `i`.  The holes are those that shapely finds in the union of the parts. -/
theorem C39_compile (ops : GeomOps) {gs : List Geometry} (hb : ∀ g ∈ gs, Built ops g) :
    ∃ c, mkCompound ops gs = .ok c ∧ c.geoms = gs ∧
      c.points.Nodup ∧ (∀ p, p ∈ c.points ↔ ∃ g ∈ gs, p ∈ g.points) ∧
      (∀ f ∈ c.facets, f.1 < c.points.length ∧ f.2 < c.points.length) ∧
      segmentsOf c.points c.facets = gs.flatMap (fun g => segmentsOf g.points g.facets) ∧
      segmentsOf c.points c.facets = gs.flatMap (fun g => (g.poly.exterior :: g.poly.interiors).flatMap closedEdges) ∧
      c.controlPoints = gs.flatMap (·.controlPoints) ∧ ((∀ g ∈ gs, g.poly.exterior ≠ []) → c.controlPoints.length = gs.length) ∧
      c.holes = ops.unionHoles (gs.map (·.poly)) := by
  obtain ⟨pts, fcs, h1, h2, h3, h4, h5⟩ := compileLoop_spec gs [] [] []
    (fun g hg => built_facets_valid (hb g hg)) List.nodup_nil (by simp)
  have hseg : gs.flatMap (fun g => segmentsOf g.points g.facets)
      = gs.flatMap (fun g => (g.poly.exterior :: g.poly.interiors).flatMap closedEdges) := by
    apply List.flatMap_congr
    intro g hg
    obtain ⟨p, m, cp, tol, rfl⟩ := hb g hg
    exact (C37_facets ops p m cp tol).2.2.2.2.2.2
  have hlen : (∀ g ∈ gs, g.poly.exterior ≠ []) → (gs.flatMap (·.controlPoints)).length = gs.length := by
    clear h1 h3 h5 hseg
    intro hne
    induction gs with
    | nil => rfl
    | cons g gs ih =>
      rw [List.flatMap_cons, List.length_append, ih (fun g' hg' => hb g' (List.mem_cons_of_mem _ hg'))
        (fun g' hg' => hne g' (List.mem_cons_of_mem _ hg')), List.length_cons]
      obtain ⟨c, hc⟩ := (hb g (List.mem_cons_self ..)).controlPoints (hne g (List.mem_cons_self ..))
      rw [hc, List.length_singleton, Nat.add_comm]
  have h5' : segmentsOf pts fcs = gs.flatMap (fun g => segmentsOf g.points g.facets) := by
    rw [h5]; rfl
  refine ⟨⟨gs, pts, fcs, gs.flatMap (·.controlPoints), ops.unionHoles (gs.map (·.poly))⟩, ?_, rfl, h2,
    fun p => ?_, h4, h5', h5'.trans hseg, rfl, hlen, rfl⟩
  · rw [mkCompound, h1]
    rfl
  · rw [h3]; simp

/-- Two squares with a common edge: six points, of which two are shared. -/
example (m : Material) : ∃ c, mkCompound exOps
    [mkGeometry exOps ⟨[(0, 0), (1, 0), (1, 1), (0, 1)], []⟩ m none 0,
     mkGeometry exOps ⟨[(1, 0), (2, 0), (2, 1), (1, 1)], []⟩ m none 0] = .ok c ∧ c.points.length = 6 ∧
     c.facets.length = 8 ∧ c.controlPoints.length = 2 := by
  have z : ∀ k : ℕ, roundTo 0 (k : ℝ) = k := fun k => roundTo_of_onGrid (OnGrid.natCast 0 k)
  have z0 := z 0
  have z1 := z 1
  have z2 := z 2
  push_cast at z0 z1 z2
  refine ⟨_, by simp [mkCompound, compileLoop, mkGeometry, roundPoly, pointsAndFacets, holePointsFacets, roundPt,
    z0, z1, z2, Poly.map, createFacets, remapFacet, addPoints, bind, Except.bind, pure, Except.pure,
    List.range_succ, List.mapM_cons]; rfl, ?_⟩
  simp [exOps]

end SP
