import Verif.Props.Rigid

/-!
# `shift_points` (C43) and control points (C59)
-/

namespace SP

open Spec

/-- Where `shift_points` is documented to put the point `p` with index `i`: selected points go to the
absolute coordinate if there is one, and are else moved by the offset (once for each time the index is
listed); other points stay. -/
def movedTo (idxs : List ℕ) (dx dy : ℝ) (absX absY : Option ℝ) (i : ℕ) (p : Pt) : Pt :=
  if i ∈ idxs then (absX.getD (p.1 + idxs.count i * dx), absY.getD (p.2 + idxs.count i * dy)) else p

theorem movePoint_eq {dx dy : ℝ} {absX absY : Option ℝ} (hx : absX ≠ some 0) (hy : absY ≠ some 0)
    {pts : List Pt} {i : ℕ} (hi : i < pts.length) :
    movePoint dx dy absX absY pts i = .ok (pts.set i (absX.getD (pts[i].1 + dx), absY.getD (pts[i].2 + dy))) := by
  rw [movePoint, List.getElem?_eq_getElem hi]
  cases absX with
  | none =>
    cases absY with
    | none => rfl
    | some b =>
      have hb : b ≠ 0 := fun h => hy (by rw [h])
      simp [hb]
  | some a =>
    have ha : a ≠ 0 := fun h => hx (by rw [h])
    cases absY with
    | none => simp [ha]
    | some b =>
      have hb : b ≠ 0 := fun h => hy (by rw [h])
      simp [ha, hb]

theorem movePoints_eq {dx dy : ℝ} {absX absY : Option ℝ} (hx : absX ≠ some 0) (hy : absY ≠ some 0) :
    ∀ (idxs : List ℕ) (pts : List Pt), (∀ i ∈ idxs, i < pts.length) →
    ∃ pts', idxs.foldlM (movePoint dx dy absX absY) pts = .ok pts' ∧ pts'.length = pts.length ∧
      ∀ i p, pts[i]? = some p → pts'[i]? = some (movedTo idxs dx dy absX absY i p)
  | [], pts, _ => ⟨pts, rfl, rfl, by simp [movedTo]⟩
  | k :: idxs, pts, h => by
    have hk := h k (List.mem_cons_self ..)
    obtain ⟨pts', h1, h2, h3⟩ := movePoints_eq hx hy idxs
      (pts.set k (absX.getD (pts[k].1 + dx), absY.getD (pts[k].2 + dy)))
      (fun i hi => by rw [List.length_set]; exact h i (List.mem_cons_of_mem _ hi))
    refine ⟨pts', ?_, by rw [h2, List.length_set], fun i p hp => ?_⟩
    · rw [List.foldlM_cons, movePoint_eq hx hy hk]
      exact h1
    · by_cases hik : k = i
      · subst hik
        have hp' : pts[k] = p := by
          rw [List.getElem?_eq_getElem hk] at hp
          exact Option.some.inj hp
        have := h3 k (absX.getD (pts[k].1 + dx), absY.getD (pts[k].2 + dy)) (by simp [hk])
        rw [this, hp']
        congr 1
        simp only [movedTo, List.mem_cons, true_or, if_true, List.count_cons_self]
        split_ifs with hm
        · cases absX <;> cases absY <;> simp <;> first | (constructor <;> ring) | ring
        · have hcount : idxs.count k = 0 := List.count_eq_zero.2 hm
          cases absX <;> cases absY <;> simp [hcount]
      · have := h3 i p (by rw [List.getElem?_set_ne hik]; exact hp)
        rw [this]
        congr 1
        have hne : i ≠ k := fun h => hik h.symm
        simp [movedTo, hne, hik]

theorem cyclesFrom_lengths : ∀ (rs rs' : List (List Pt)) (s : ℕ), rs.map List.length = rs'.map List.length →
    cyclesFrom s rs = cyclesFrom s rs'
  | [], [], _, _ => rfl
  | [], _ :: _, _, h => by simp at h
  | _ :: _, [], _, h => by simp at h
  | r :: rs, r' :: rs', s, h => by
    simp only [List.map_cons, List.cons.injEq] at h
    rw [cyclesFrom, cyclesFrom, h.1, cyclesFrom_lengths rs rs' _ h.2]

/-- **C43 (partial).** Let all indices be valid and no absolute coordinate be zero.  Let `e'` and `hs'` be
the rings of the geometry with the selected vertices at the requested places and all others where they
were.  If shapely accepts these rings (no hole has become the exterior; punching leaves the rings as they
are), then `shift_points` returns the geometry with these points, rounded to 12 decimals, and with the
same facets and material.  An absolute coordinate of zero is missing: see `C43_violated`. -/
theorem C43_shift_points_partial (ops : GeomOps) {g : Geometry} (hb : Built ops g) {idxs : List ℕ}
    {dx dy : ℝ} {absX absY : Option ℝ} (hx : absX ≠ some 0) (hy : absY ≠ some 0)
    (hi : ∀ i ∈ idxs, i < g.points.length) {e' : List Pt} {hs' : List (List Pt)}
    (hlen : (e' :: hs').map List.length = (g.poly.exterior :: g.poly.interiors).map List.length)
    (hmoved : ∀ i p, g.points[i]? = some p →
      (e' :: hs').flatten[i]? = some (movedTo idxs dx dy absX absY i p))
    (hh : ∀ r ∈ hs', r ≠ [] ∧ r ≠ e') (hsp : Spread 12 e') (hpunch : ops.punch e' hs' = some ⟨e', hs'⟩) :
    ∃ g', g.shiftPoints ops idxs dx dy absX absY = .ok g' ∧ g'.points.length = g.points.length ∧
      g'.facets = g.facets ∧ g'.material = g.material ∧
      ∀ i p, g.points[i]? = some p → ∃ q, g'.points[i]? = some q ∧
        HalfUnit 12 q.1 (movedTo idxs dx dy absX absY i p).1 ∧
        HalfUnit 12 q.2 (movedTo idxs dx dy absX absY i p).2 ∧
        (OnGrid 12 (movedTo idxs dx dy absX absY i p).1 → OnGrid 12 (movedTo idxs dx dy absX absY i p).2 →
          q = movedTo idxs dx dy absX absY i p) := by
  obtain ⟨pts', h1, h2, h3⟩ := movePoints_eq (dx := dx) (dy := dy) hx hy idxs g.points hi
  have hflen : (e' :: hs').flatten.length = g.points.length := by
    rw [hb.points, List.length_flatten, List.length_flatten, hlen]
    rfl
  have hpts : pts' = (e' :: hs').flatten := by
    apply List.ext_getElem?
    intro i
    rcases lt_or_ge i g.points.length with h | h
    · have hp : g.points[i]? = some g.points[i] := List.getElem?_eq_getElem h
      rw [h3 i _ hp, hmoved i _ hp]
    · rw [List.getElem?_eq_none (by omega), List.getElem?_eq_none (by omega)]
  have hfac : g.facets = cyclesFrom 0 (e' :: hs') := by
    rw [hb.facets]
    exact cyclesFrom_lengths _ _ _ hlen.symm
  have hne : g.poly.exterior ≠ [] := by
    intro h
    rw [h] at hlen
    have := (List.cons.inj hlen).1
    exact spread_ne_nil hsp (List.length_eq_zero_iff.1 this)
  obtain ⟨c, hc⟩ := hb.controlPoints hne
  have hholes : g.holes.length = hs'.length := by
    have : g.holes.length = g.poly.interiors.length := by
      obtain ⟨p, m, cp, tol, rfl⟩ := hb
      simp [mkGeometry]
    rw [this]
    have := congrArg List.length hlen
    simpa using this.symm
  have hfp := fromPoints_eq ops (spread_ne_nil hsp) hh c hholes g.material
  rw [hpunch] at hfp
  have hpoly : (mkGeometry ops ⟨e', hs'⟩ g.material (some c) 12).poly = Poly.map (roundPt 12) ⟨e', hs'⟩ :=
    roundPoly_of_spread (p := ⟨e', hs'⟩) hsp
  have hp' : (mkGeometry ops ⟨e', hs'⟩ g.material (some c) 12).points = (e' :: hs').flatten.map (roundPt 12) := by
    rw [(mk_built ..).points, hpoly, Poly.map_rings, List.map_flatten]
    rfl
  refine ⟨mkGeometry ops ⟨e', hs'⟩ g.material (some c) 12, ?_, ?_, ?_, rfl, fun i p hp => ?_⟩
  · rw [Geometry.shiftPoints, h1]
    simp only
    rw [hpts, hfac, hc, hfp]
  · rw [hp', List.length_map, hflen]
  · rw [facets_of_map (mk_built ..) hpoly, hfac]
    rfl
  · refine ⟨roundPt 12 (movedTo idxs dx dy absX absY i p), ?_, roundTo_near _ _, roundTo_near _ _,
      fun ha hb' => roundPt_of_onGrid ⟨ha, hb'⟩⟩
    rw [hp', List.getElem?_map, hmoved i p hp]
    rfl

/-- The first rectangle, its vertex `(1, 1)` moved to `(1.5, 7)`: the hypotheses are met. -/
example (g : Geometry) (hg : g = mkGeometry exOps exRect1 defaultMaterial none 12) :
    Built exOps g ∧ (∀ i ∈ [2], i < g.points.length) ∧
    ([[(0, 0), (1, 0), (3 / 2, 7), (0, 1)]] : List (List Pt)).map List.length
      = (g.poly.exterior :: g.poly.interiors).map List.length ∧
    (∀ i p, g.points[i]? = some p → ([[(0, 0), (1, 0), (3 / 2, 7), (0, 1)]] : List (List Pt)).flatten[i]?
      = some (movedTo [2] (1 / 2) 0 none (some 7) i p)) ∧
    Spread 12 [(0, 0), (1, 0), (3 / 2, 7), (0, 1)] ∧
    exOps.punch [(0, 0), (1, 0), (3 / 2, 7), (0, 1)] [] = some ⟨[(0, 0), (1, 0), (3 / 2, 7), (0, 1)], []⟩ := by
  have hb : Built exOps g := hg ▸ mk_built ..
  have e : g.poly = exRect1 := by rw [hg]; exact exRect1_poly _
  have hp : g.points = [(0, 0), (1, 0), (1, 1), (0, 1)] := by
    rw [hb.points, e]; simp [Poly.rings, exRect1]
  refine ⟨hb, by rw [hp]; simp, by rw [e]; simp [exRect1], ?_, ?_, rfl⟩
  · rw [hp]
    intro i p h
    match i with
    | 0 => simp at h; subst h; simp [movedTo]
    | 1 => simp at h; subst h; simp [movedTo]
    | 2 => simp at h; subst h; simp [movedTo]; norm_num
    | 3 => simp at h; subst h; simp [movedTo]
    | n + 4 => simp at h
  · exact ⟨(0, 0), by simp, (1, 0), by simp, by norm_num⟩

/-- **C43 is violated** for an absolute coordinate of zero: asked to put the vertex `(1, 1)` of a square
at `(0, 1/2)`, `shift_points` puts it at `(1, 1/2)`. -/
theorem C43_violated : ∃ (ops : GeomOps) (g g' : Geometry), Built ops g ∧ Spread g.tol g.poly.exterior ∧
    g.points[2]? = some (1, 1) ∧ g.shiftPoints ops [2] 0 0 (some 0) (some (1 / 2)) = .ok g' ∧
    g'.points[2]? = some (1, 1 / 2) := by
  have hb : Built exOps (mkGeometry exOps exRect1 defaultMaterial none 12) := mk_built ..
  have e := exRect1_poly defaultMaterial
  have hp : (mkGeometry exOps exRect1 defaultMaterial none 12).points = [(0, 0), (1, 0), (1, 1), (0, 1)] := by
    rw [hb.points, e]; simp [Poly.rings, exRect1]
  have hsp : Spread 12 [((0 : ℝ), (0 : ℝ)), (1, 0), (1, 1 / 2), (0, 1)] :=
    ⟨(0, 0), by simp, (1, 0), by simp, by norm_num⟩
  have hhalf : OnGrid 12 (1 / 2) := ⟨500000000000, by norm_num⟩
  have h1 : OnGrid 12 1 := by exact_mod_cast OnGrid.natCast 12 1
  have hfp := fromPoints_eq exOps (e := [((0 : ℝ), (0 : ℝ)), (1, 0), (1, 1 / 2), (0, 1)]) (hs := []) (by simp)
    (by simp) (exOps.rep exRect1) (holes := []) rfl defaultMaterial
  have hpoly : (mkGeometry exOps ⟨[((0 : ℝ), (0 : ℝ)), (1, 0), (1, 1 / 2), (0, 1)], []⟩ defaultMaterial
      (some (exOps.rep exRect1)) 12).poly
      = Poly.map (roundPt 12) ⟨[((0 : ℝ), (0 : ℝ)), (1, 0), (1, 1 / 2), (0, 1)], []⟩ :=
    roundPoly_of_spread hsp
  refine ⟨exOps, _, mkGeometry exOps ⟨[((0 : ℝ), (0 : ℝ)), (1, 0), (1, 1 / 2), (0, 1)], []⟩ defaultMaterial
      (some (exOps.rep exRect1)) 12, hb, ?_, by rw [hp]; rfl, ?_, ?_⟩
  · rw [e]
    exact ⟨(0, 0), by simp [exRect1], (1, 0), by simp [exRect1], by norm_num [mkGeometry]⟩
  · have hm : [2].foldlM (movePoint 0 0 (some 0) (some (1 / 2))) (mkGeometry exOps exRect1 defaultMaterial none 12).points
        = .ok [((0 : ℝ), (0 : ℝ)), (1, 0), (1, 1 / 2), (0, 1)] := by
      rw [hp]
      simp [movePoint, bind, Except.bind, pure, Except.pure]
    rw [Geometry.shiftPoints, hm]
    have hf : (mkGeometry exOps exRect1 defaultMaterial none 12).facets
        = cyclesFrom 0 [[((0 : ℝ), (0 : ℝ)), (1, 0), (1, 1 / 2), (0, 1)]] := by
      rw [hb.facets, e]
      apply cyclesFrom_lengths
      simp [Poly.rings, exRect1]
    have hc : (mkGeometry exOps exRect1 defaultMaterial none 12).controlPoints = [exOps.rep exRect1] := by
      rw [mk_controlPoints _ (by rw [e]; simp [exRect1]), e]
    have hho : (mkGeometry exOps exRect1 defaultMaterial none 12).holes = [] := by
      change (mkGeometry exOps exRect1 defaultMaterial none 12).poly.interiors.map _ = _
      rw [e]; rfl
    simp only
    rw [hf, hc, hho]
    exact hfp
  · rw [(mk_built ..).points, hpoly]
    simp [Poly.rings, Poly.map, roundPt, roundTo_of_onGrid h1]
    have := roundTo_of_onGrid hhalf
    norm_num at this ⊢
    exact this

/-! ### Control points -/

/-- **C59 (partial).** A control point that the user has assigned is moved exactly like the geometry by
shifts, by rotations (about a point, or about the centre of the bounding box) and by reflections about a
point, and is the control point of the result; if none was assigned, the control point of the result is
the representative point that shapely finds in the moved polygon.  Reflections about the centre and
`shift_points` are missing: see `C59_violated`. -/
theorem C59_control_point_partial (ops : GeomOps) (g : Geometry) :
    let rot := fun (c : Pt) (t : ℝ) (p : Pt) =>
      ((c.1 + ((p.1 - c.1) * Real.cos t - (p.2 - c.2) * Real.sin t),
        c.2 + ((p.1 - c.1) * Real.sin t + (p.2 - c.2) * Real.cos t)) : Pt)
    let centre : Pt := ((g.extents.1 + g.extents.2.1) / 2, (g.extents.2.2.1 + g.extents.2.2.2) / 2)
    (∀ c, g.assigned = some c →
      (∀ a b, (g.shift ops a b).controlPoints = [(c.1 + a, c.2 + b)]) ∧
      (∀ t o, (g.rotate ops t (.point o) true).controlPoints = [rot o t c]) ∧
      (∀ t, (g.rotate ops t .center true).controlPoints = [rot centre t c]) ∧
      (∀ t o, (g.rotate ops t (.point o) false).controlPoints = [rot o (t * Real.pi / 180) c]) ∧
      (∀ t, (g.rotate ops t .center false).controlPoints = [rot centre (t * Real.pi / 180) c]) ∧
      (∀ o, (g.mirror ops .x (.point o)).controlPoints = [(c.1, 2 * o.2 - c.2)]) ∧
      (∀ o, (g.mirror ops .y (.point o)).controlPoints = [(2 * o.1 - c.1, c.2)])) ∧
    (g.assigned = none → ∀ h : Geometry,
      ((∃ a b, h = g.shift ops a b) ∨ (∃ t o r, h = g.rotate ops t o r) ∨ ∃ ax o, h = g.mirror ops ax o) →
      h.poly.exterior ≠ [] → h.controlPoints = [ops.rep h.poly]) := by
  intro rot centre
  refine ⟨fun c hc => ⟨fun a b => ?_, fun t o => ?_, fun t => ?_, fun t o => ?_, fun t => ?_, fun o => ?_, fun o => ?_⟩,
    fun hn h hh hne => ?_⟩
  · simp [Geometry.shift, mkGeometry, hc, translate]
  · simp [Geometry.rotate, mkGeometry, hc, rotateAbout, radians, rot]
  · simp [Geometry.rotate, mkGeometry, hc, rotateAbout, radians, rot, centre, boxCentre]
  · simp [Geometry.rotate, mkGeometry, hc, rotateAbout, radians, rot]
  · simp [Geometry.rotate, mkGeometry, hc, rotateAbout, radians, rot, centre, boxCentre]
  · simp [Geometry.mirror, mkGeometry, hc, scaleAbout, mirrorFactors]
    ring
  · simp [Geometry.mirror, mkGeometry, hc, scaleAbout, mirrorFactors]
    ring
  · rcases hh with ⟨a, b, rfl⟩ | ⟨t, o, r, rfl⟩ | ⟨ax, o, rfl⟩
    · simp only [Geometry.shift, hn, Option.map_none] at hne ⊢
      exact mk_controlPoints _ hne
    · simp only [Geometry.rotate, hn, Option.map_none] at hne ⊢
      exact mk_controlPoints _ hne
    · cases o <;> simp only [Geometry.mirror, hn, Option.map_none] at hne ⊢ <;> exact mk_controlPoints _ hne

/-- The right triangle with the vertices `(0, 0)`, `(4, 0)`, `(0, 4)`. -/
def exTri : Poly := ⟨[(0, 0), (4, 0), (0, 4)], []⟩

theorem exTri_onGrid : exTri.OnGrid 12 := by
  apply onGrid_nat
  intro r hr q hq
  simp only [Poly.rings, exTri, List.mem_cons, List.not_mem_nil, or_false] at hr
  subst hr
  simp only [List.mem_cons, List.not_mem_nil, or_false] at hq
  rcases hq with rfl | rfl | rfl
  exacts [⟨0, 0, by simp⟩, ⟨4, 0, by simp⟩, ⟨0, 4, by simp⟩]

/-- **C59 is violated** by mirroring about the centre: the point `(1/2, 1)` lies inside the triangle
`(0, 0), (4, 0), (0, 4)` and is assigned as its control point.  Mirrored about its centre, the triangle has
all vertices on or below the diagonal, and the control point, still `(1/2, 1)`, is above it, outside. -/
theorem C59_violated : ∃ (ops : GeomOps) (g : Geometry), Built ops g ∧
    g.poly = ⟨[(0, 0), (4, 0), (0, 4)], []⟩ ∧ g.controlPoints = [(1 / 2, 1)] ∧
    (g.mirror ops .y .center).controlPoints = [(1 / 2, 1)] ∧
    (∃ v ∈ (g.mirror ops .y .center).poly.exterior, v.2 < v.1) ∧
    ∀ v ∈ (g.mirror ops .y .center).poly.exterior, v.2 ≤ v.1 := by
  have e : (mkGeometry exOps exTri defaultMaterial (some (1 / 2, 1)) 12).poly = exTri :=
    mk_poly _ exTri_onGrid ⟨(4, 0), by simp [exTri], by simp⟩ _ _
  have hm : ((mkGeometry exOps exTri defaultMaterial (some (1 / 2, 1)) 12).mirror exOps .y .center).poly
      = exTri.map fun p => (4 - p.1, p.2) := by
    have e2 : exTri.map (scaleAbout (boxCentre (mkGeometry exOps exTri defaultMaterial (some (1 / 2, 1)) 12).extents) (-1) 1)
        = exTri.map fun p => (4 - p.1, p.2) := by
      rw [Geometry.extents, e]
      apply Poly.map_congr
      intro r _ q _
      simp only [exTri, ringBounds, boxCentre, runMin, runMax, scaleAbout]
      ext <;> simp
      ring
    have e' : (mkGeometry exOps exTri defaultMaterial (some (1 / 2, 1)) 12).mirror exOps .y .center
        = mkGeometry exOps ((mkGeometry exOps exTri defaultMaterial (some (1 / 2, 1)) 12).poly.map
          (scaleAbout (boxCentre (mkGeometry exOps exTri defaultMaterial (some (1 / 2, 1)) 12).extents) (-1) 1)) defaultMaterial
          (some (scaleAbout (1 / 2, 1) (-1) 1 (1 / 2, 1))) 12 := rfl
    rw [e', e, e2]
    apply mk_poly
    · apply onGrid_nat
      intro r hr q hq
      rw [Poly.map_rings] at hr
      simp only [Poly.rings, exTri, List.map_cons, List.map_nil, List.mem_cons, List.not_mem_nil, or_false] at hr
      subst hr
      simp only [List.mem_cons, List.not_mem_nil, or_false] at hq
      rcases hq with rfl | rfl | rfl
      exacts [⟨4, 0, by norm_num⟩, ⟨0, 0, by norm_num⟩, ⟨4, 4, by norm_num⟩]
    · exact ⟨(4, 0), by simp [exTri, Poly.map], by simp⟩
  refine ⟨exOps, _, mk_built .., e, rfl, ?_, ?_, ?_⟩
  · simp [Geometry.mirror, mkGeometry, scaleAbout]
  · rw [hm]; exact ⟨(4, 0), by simp [exTri, Poly.map], by norm_num⟩
  · rw [hm]
    intro v hv
    simp only [exTri, Poly.map, List.map_cons, List.map_nil, List.mem_cons, List.not_mem_nil, or_false] at hv
    rcases hv with rfl | rfl | rfl <;> norm_num

/-- **C59 is violated** by `shift_points`: the control point of the geometry is kept as it is, even if the
moved points leave it outside.  The lower vertices of the square `[0, 1] × [0, 1]` are moved up to
`y = 3/4`; the control point stays at `(1/2, 1/2)`, below all vertices. -/
theorem C59_shift_points_violated : ∃ (ops : GeomOps) (g g' : Geometry), Built ops g ∧
    g.poly = ⟨[(0, 0), (1, 0), (1, 1), (0, 1)], []⟩ ∧ g.controlPoints = [(1 / 2, 1 / 2)] ∧
    g.shiftPoints ops [0, 1] 0 (3 / 4) none none = .ok g' ∧ g'.controlPoints = [(1 / 2, 1 / 2)] ∧
    ∀ v ∈ g'.poly.exterior, 1 / 2 < v.2 := by
  have hb : Built exOps (mkGeometry exOps exRect1 defaultMaterial none 12) := mk_built ..
  have e := exRect1_poly defaultMaterial
  have hp : (mkGeometry exOps exRect1 defaultMaterial none 12).points = [(0, 0), (1, 0), (1, 1), (0, 1)] := by
    rw [hb.points, e]; simp [Poly.rings, exRect1]
  have hrep : exOps.rep exRect1 = (1 / 2, 1 / 2) := by simp [exOps, exRect1]
  have hc : (mkGeometry exOps exRect1 defaultMaterial none 12).controlPoints = [(1 / 2, 1 / 2)] := by
    rw [mk_controlPoints _ (by rw [e]; simp [exRect1]), e, hrep]
  have hfp := fromPoints_eq exOps (e := [((0 : ℝ), (3 / 4 : ℝ)), (1, 3 / 4), (1, 1), (0, 1)]) (hs := []) (by simp)
    (by simp) (1 / 2, 1 / 2) (holes := []) rfl defaultMaterial
  refine ⟨exOps, _, mkGeometry exOps ⟨[((0 : ℝ), (3 / 4 : ℝ)), (1, 3 / 4), (1, 1), (0, 1)], []⟩ defaultMaterial
      (some (1 / 2, 1 / 2)) 12, hb, e, hc, ?_, rfl, ?_⟩
  · have hm : [0, 1].foldlM (movePoint 0 (3 / 4) none none) (mkGeometry exOps exRect1 defaultMaterial none 12).points
        = .ok [((0 : ℝ), (3 / 4 : ℝ)), (1, 3 / 4), (1, 1), (0, 1)] := by
      rw [hp]
      simp [movePoint, bind, Except.bind, pure, Except.pure]
    rw [Geometry.shiftPoints, hm]
    have hf : (mkGeometry exOps exRect1 defaultMaterial none 12).facets
        = cyclesFrom 0 [[((0 : ℝ), (3 / 4 : ℝ)), (1, 3 / 4), (1, 1), (0, 1)]] := by
      rw [hb.facets, e]
      apply cyclesFrom_lengths
      simp [Poly.rings, exRect1]
    have hho : (mkGeometry exOps exRect1 defaultMaterial none 12).holes = [] := by
      change (mkGeometry exOps exRect1 defaultMaterial none 12).poly.interiors.map _ = _
      rw [e]; rfl
    simp only
    rw [hf, hc, hho]
    exact hfp
  · have hg : Poly.OnGrid 12 ⟨[((0 : ℝ), (3 / 4 : ℝ)), (1, 3 / 4), (1, 1), (0, 1)], []⟩ := by
      have h34 : OnGrid 12 (3 / 4) := ⟨750000000000, by norm_num⟩
      have h1 : OnGrid 12 1 := by exact_mod_cast OnGrid.natCast 12 1
      have h0 : OnGrid 12 0 := by exact_mod_cast OnGrid.natCast 12 0
      intro r hr q hq
      simp only [Poly.rings, List.mem_cons, List.not_mem_nil, or_false] at hr
      subst hr
      simp only [List.mem_cons, List.not_mem_nil, or_false] at hq
      rcases hq with rfl | rfl | rfl | rfl <;> exact ⟨‹_›, ‹_›⟩
    rw [mk_poly _ hg ⟨(1, 1), by simp, by simp⟩]
    intro v hv
    simp only [List.mem_cons, List.not_mem_nil, or_false] at hv
    rcases hv with rfl | rfl | rfl | rfl <;> norm_num

end SP
