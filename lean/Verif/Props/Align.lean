import Verif.Props.Rigid

/-!
# Alignment (C40, C41)
-/

namespace SP

open Spec

theorem shift_extents (ops : GeomOps) {g : Geometry} (hs : Spread g.tol g.poly.exterior) (a b : ℝ) :
    (g.shift ops a b).extents = (roundTo g.tol (g.extents.1 + a), roundTo g.tol (g.extents.2.1 + a),
      roundTo g.tol (g.extents.2.2.1 + b), roundTo g.tol (g.extents.2.2.2 + b)) := by
  have h9 : Apart 2 g.tol g.poly.exterior := (spread_apart hs).mono (by norm_num)
  rw [Geometry.extents, shift_poly ops h9, Poly.map_exterior]
  have mono : ∀ d, Monotone fun x => roundTo g.tol (x + d) := fun d x y h => roundTo_mono _ (by linarith)
  exact ringBounds_mono (mono a) (mono b) (spread_ne_nil hs)

theorem built_extents_onGrid {ops : GeomOps} {g : Geometry} (hb : Built ops g) (hs : Spread g.tol g.poly.exterior) :
    OnGrid g.tol g.extents.1 ∧ OnGrid g.tol g.extents.2.1 ∧ OnGrid g.tol g.extents.2.2.1 ∧
      OnGrid g.tol g.extents.2.2.2 := by
  obtain ⟨_, ⟨p1, m1, q1⟩, ⟨p2, m2, q2⟩, ⟨p3, m3, q3⟩, ⟨p4, m4, q4⟩⟩ := ringBounds_spec (spread_ne_nil hs)
  have hr : g.poly.exterior ∈ g.poly.rings := by simp [Poly.rings]
  refine ⟨?_, ?_, ?_, ?_⟩
  · rw [Geometry.extents, ← q1]; exact (hb.onGrid _ hr _ m1).1
  · rw [Geometry.extents, ← q2]; exact (hb.onGrid _ hr _ m2).1
  · rw [Geometry.extents, ← q3]; exact (hb.onGrid _ hr _ m3).2
  · rw [Geometry.extents, ← q4]; exact (hb.onGrid _ hr _ m4).2

/-- The result of an alignment: the geometry is shifted along one axis only, `x` for `left` and `right`,
`y` for `top` and `bottom`; and the edge `side` of the result lies at `coord`, exactly if this has no more
than `tol` decimals, and else to half a unit of the last decimal. -/
def Flush (ops : GeomOps) (g result : Geometry) (on side : AlignSide) (coord : ℝ) : Prop :=
  (∃ d, result = g.shift ops (if vertical on then 0 else d) (if vertical on then d else 0)) ∧
  (vertical on → edge result.extents .left = edge g.extents .left ∧ edge result.extents .right = edge g.extents .right) ∧
  (¬ vertical on → edge result.extents .bottom = edge g.extents .bottom ∧ edge result.extents .top = edge g.extents .top) ∧
  HalfUnit g.tol (edge result.extents side) coord ∧
  (OnGrid g.tol coord → edge result.extents side = coord)

theorem flush_of (ops : GeomOps) {g : Geometry} (hb : Built ops g) (hs : Spread g.tol g.poly.exterior)
    {other : AlignTarget} {on side : AlignSide} {inner : Bool} {coord : ℝ}
    (hside : vertical side = vertical on)
    (ho : alignOffset g.extents other on inner
      = if vertical on then (0, coord - edge g.extents side) else (coord - edge g.extents side, 0)) :
    Flush ops g (g.alignTo ops other on inner) on side coord := by
  obtain ⟨o1, o2, o3, o4⟩ := built_extents_onGrid hb hs
  have hal : g.alignTo ops other on inner = g.shift ops
      (if vertical on then 0 else coord - edge g.extents side)
      (if vertical on then coord - edge g.extents side else 0) := by
    rw [Geometry.alignTo, ho]
    split_ifs <;> rfl
  have he := shift_extents ops hs (if vertical on then 0 else coord - edge g.extents side)
      (if vertical on then coord - edge g.extents side else 0)
  have hedge : edge (g.alignTo ops other on inner).extents side = roundTo g.tol coord := by
    rw [hal, he]
    cases hv : vertical on <;> rw [hv] at hside <;> cases side <;>
      simp [vertical] at hside <;> simp [edge]
  refine ⟨⟨coord - edge g.extents side, hal⟩, fun hv => ?_, fun hv => ?_, ?_, fun hg => ?_⟩
  · rw [hal, he, hv]
    simp [edge, roundTo_of_onGrid o1, roundTo_of_onGrid o2]
  · have hv' : vertical on = false := by simpa using hv
    rw [hal, he, hv']
    simp [edge, roundTo_of_onGrid o3, roundTo_of_onGrid o4]
  · rw [hedge]; exact roundTo_near _ _
  · rw [hedge, roundTo_of_onGrid hg]

/-- **C40 (partial).** `align_to` another geometry puts the opposite edge flush with the edge of the other
geometry that is named, or, with `inner`, the edge of the same name; `align_to` a point without `inner`
puts the opposite edge on the point.  The geometry is moved along one axis only.  Aligning to a point with
`inner` is missing, except for `left`: see `C40_violated`. -/
theorem C40_align_to_partial (ops : GeomOps) {g : Geometry} (hb : Built ops g)
    (hs : Spread g.tol g.poly.exterior) (on : AlignSide) :
    (∀ e, Flush ops g (g.alignTo ops (.geom e) on false) on (opposite on) (edge e on)) ∧
    (∀ e, Flush ops g (g.alignTo ops (.geom e) on true) on on (edge e on)) ∧
    (∀ p, Flush ops g (g.alignTo ops (.point p) on false) on (opposite on) (coordFor p on)) ∧
    (∀ p, Flush ops g (g.alignTo ops (.point p) .left true) .left .left p.1) := by
  refine ⟨fun e => ?_, fun e => ?_, fun p => ?_, fun p => ?_⟩
  · apply flush_of ops hb hs <;> cases on <;>
      simp [vertical, opposite, alignOffset, extentAt, alignSelfMap, otherAsGeomMap, edge]
  · apply flush_of ops hb hs <;> cases on <;>
      simp [vertical, alignOffset, extentAt, otherAsGeomMap, edge]
  · apply flush_of ops hb hs <;> cases on <;>
      simp [vertical, opposite, alignOffset, extentAt, alignSelfMap, otherAsPointMap, edge, coordFor]
  · apply flush_of ops hb hs <;>
      simp [vertical, alignOffset, extentAt, otherAsPointMap, edge]

/-- **C40 is violated** by aligning the inside of a geometry to a point: for each of `right`, `bottom` and
`top` there is a geometry and a point such that the edge of that name is not on the point afterwards.
(The square `[0, 4] × [0, 4]`, to be put with its right edge on `x = 10`, is put with its left edge there;
with `top` its right edge is compared with the `y` coordinate.) -/
theorem C40_violated : ∃ (ops : GeomOps) (g : Geometry), Built ops g ∧ Spread g.tol g.poly.exterior ∧
    (∃ p, edge (g.alignTo ops (.point p) .right true).extents .right ≠ p.1 ∧ OnGrid g.tol p.1) ∧
    (∃ p, edge (g.alignTo ops (.point p) .bottom true).extents .bottom ≠ p.2 ∧ OnGrid g.tol p.2) ∧
    (∃ g' : Geometry, Built ops g' ∧ Spread g'.tol g'.poly.exterior ∧
      ∃ p, edge (g'.alignTo ops (.point p) .top true).extents .top ≠ p.2 ∧ OnGrid g'.tol p.2) := by
  have e : (mkGeometry exOps exFrame defaultMaterial none 12).poly = exFrame :=
    mk_poly _ exFrame_onGrid ⟨(4, 0), by simp [exFrame], by simp⟩ _ _
  have hx : (mkGeometry exOps exFrame defaultMaterial none 12).extents = (0, 4, 0, 4) := by
    rw [Geometry.extents, e]
    simp [exFrame, ringBounds, runMin, runMax]
  obtain ⟨hb, hs⟩ := exFrame_geometry defaultMaterial none
  have z : ∀ k : ℕ, roundTo 12 (k : ℝ) = k := fun k => roundTo_of_onGrid (OnGrid.natCast 12 k)
  have ht : (mkGeometry exOps exFrame defaultMaterial none 12).tol = 12 := rfl
  have hx2 := exRect2_poly defaultMaterial
  have hx2' : (mkGeometry exOps exRect2 defaultMaterial none 12).extents = (2, 3, 0, 2) := by
    rw [Geometry.extents, hx2]
    simp [exRect2, ringBounds, runMin, runMax]
    norm_num
  have hs2 : Spread (mkGeometry exOps exRect2 defaultMaterial none 12).tol
      (mkGeometry exOps exRect2 defaultMaterial none 12).poly.exterior := by
    rw [hx2]
    exact ⟨(2, 0), by simp [exRect2], (3, 0), by simp [exRect2], by norm_num [mkGeometry]⟩
  refine ⟨exOps, _, hb, hs, ⟨(10, 0), ?_, ?_⟩, ⟨(0, 10), ?_, ?_⟩,
    mkGeometry exOps exRect2 defaultMaterial none 12, mk_built .., hs2, (0, 10), ?_, ?_⟩
  · rw [Geometry.alignTo, shift_extents exOps hs, ht, hx]
    simp only [alignOffset, edge, otherAsPointMap, extentAt, if_true, reduceCtorEq, or_self, if_false]
    have := z 14
    push_cast at this
    norm_num [this]
  · exact_mod_cast OnGrid.natCast 12 10
  · rw [Geometry.alignTo, shift_extents exOps hs, ht, hx]
    simp only [alignOffset, edge, otherAsPointMap, extentAt, if_true, reduceCtorEq, or_self, if_false]
    have := z 6
    push_cast at this
    norm_num [this]
  · exact_mod_cast OnGrid.natCast 12 10
  · have ht2 : (mkGeometry exOps exRect2 defaultMaterial none 12).tol = 12 := rfl
    rw [Geometry.alignTo, shift_extents exOps hs2, ht2, hx2']
    simp only [alignOffset, edge, otherAsPointMap, extentAt, if_true, reduceCtorEq, or_self, if_false]
    have := z 9
    push_cast at this
    norm_num [this]
  · exact_mod_cast OnGrid.natCast 12 10

/-! ### Centroids -/

theorem ringEdges_map (f : Pt → Pt) (l : List Pt) :
    ringEdges (l.map f) = (ringEdges l).map fun e => (f e.1, f e.2) := by
  cases l with
  | nil => rfl
  | cons p ps =>
    simp only [ringEdges, List.map_cons]
    rw [show List.map f ps ++ [f p] = List.map f (ps ++ [p]) by simp, ← List.map_cons (f := f), List.zip_map]
    rfl

/-- Around a closed ring, differences of a function of the vertices add up to zero. -/
theorem ring_telescope (φ : Pt → ℝ) (l : List Pt) : ((ringEdges l).map fun e => φ e.2 - φ e.1).sum = 0 := by
  cases l with
  | nil => simp [ringEdges]
  | cons p ps =>
    have key : ∀ (qs : List Pt) (a : Pt), (((a :: qs).zip (qs ++ [p])).map fun e => φ e.2 - φ e.1).sum = φ p - φ a := by
      intro qs
      induction qs with
      | nil => intro a; simp
      | cons q qs ih =>
        intro a
        have := ih q
        simp only [List.cons_append, List.zip_cons_cons, List.map_cons, List.sum_cons]
        rw [this]; ring
    have := key ps p
    simp only [ringEdges]
    rw [this]; ring

theorem sum_map_lin {α : Type*} (l : List α) (f g : α → ℝ) (c : ℝ) :
    (l.map fun e => f e + c * g e).sum = (l.map f).sum + c * (l.map g).sum := by
  induction l with
  | nil => simp
  | cons a l ih => simp only [List.map_cons, List.sum_cons, ih]; ring

theorem ringArea2_translate (a b : ℝ) (l : List Pt) : ringArea2 (l.map (translate a b)) = ringArea2 l := by
  rw [ringArea2, ringEdges_map, List.map_map, ringArea2]
  have e : ((fun e : Pt × Pt => e.1.1 * e.2.2 - e.2.1 * e.1.2) ∘ fun e : Pt × Pt => (translate a b e.1, translate a b e.2))
      = fun e => (e.1.1 * e.2.2 - e.2.1 * e.1.2) + 1 * ((a * e.2.2 - b * e.2.1) - (a * e.1.2 - b * e.1.1)) := by
    funext e; simp only [Function.comp, translate]; ring
  rw [e, sum_map_lin]
  have := ring_telescope (fun p => a * p.2 - b * p.1) l
  rw [this]; ring

theorem ringMoment6_translate (a b : ℝ) (l : List Pt) :
    ringMoment6 (l.map (translate a b)) = ((ringMoment6 l).1 + 3 * a * ringArea2 l, (ringMoment6 l).2 + 3 * b * ringArea2 l) := by
  have ar : (List.map (fun e => e.1.1 * e.2.2 - e.2.1 * e.1.2) (ringEdges l)).sum = ringArea2 l := rfl
  rw [ringMoment6, ringEdges_map, List.map_map, List.map_map, ringMoment6]
  ext
  · have e : ((fun e : Pt × Pt => (e.1.1 + e.2.1) * (e.1.1 * e.2.2 - e.2.1 * e.1.2)) ∘ fun e : Pt × Pt => (translate a b e.1, translate a b e.2))
        = fun e => ((e.1.1 + e.2.1) * (e.1.1 * e.2.2 - e.2.1 * e.1.2) + (3 * a) * (e.1.1 * e.2.2 - e.2.1 * e.1.2))
          + 1 * ((a * e.2.1 * e.2.2 - b * e.2.1 ^ 2 + 2 * a * (a * e.2.2 - b * e.2.1))
            - (a * e.1.1 * e.1.2 - b * e.1.1 ^ 2 + 2 * a * (a * e.1.2 - b * e.1.1))) := by
      funext e; simp only [Function.comp, translate]; ring
    simp only
    rw [e, sum_map_lin, sum_map_lin, ar]
    have := ring_telescope (fun p => a * p.1 * p.2 - b * p.1 ^ 2 + 2 * a * (a * p.2 - b * p.1)) l
    rw [this]; ring
  · have e : ((fun e : Pt × Pt => (e.1.2 + e.2.2) * (e.1.1 * e.2.2 - e.2.1 * e.1.2)) ∘ fun e : Pt × Pt => (translate a b e.1, translate a b e.2))
        = fun e => ((e.1.2 + e.2.2) * (e.1.1 * e.2.2 - e.2.1 * e.1.2) + (3 * b) * (e.1.1 * e.2.2 - e.2.1 * e.1.2))
          + 1 * ((a * e.2.2 ^ 2 - b * e.2.1 * e.2.2 + 2 * b * (a * e.2.2 - b * e.2.1))
            - (a * e.1.2 ^ 2 - b * e.1.1 * e.1.2 + 2 * b * (a * e.1.2 - b * e.1.1))) := by
      funext e; simp only [Function.comp, translate]; ring
    simp only
    rw [e, sum_map_lin, sum_map_lin, ar]
    have := ring_telescope (fun p => a * p.2 ^ 2 - b * p.1 * p.2 + 2 * b * (a * p.2 - b * p.1)) l
    rw [this]; ring

theorem area_translate (a b : ℝ) (p : Poly) : (p.map (translate a b)).area = p.area := by
  simp only [Poly.area, Poly.map, ringArea2_translate, List.map_map, Function.comp_def]

theorem sign_mul_abs (x : ℝ) : (SignType.sign x : ℝ) * x = |x| := by
  rcases lt_trichotomy x 0 with h | h | h
  · rw [sign_neg h, abs_of_neg h]; simp
  · simp [h]
  · rw [sign_pos h, abs_of_pos h]; simp

theorem moment_translate (a b : ℝ) (p : Poly) :
    (p.map (translate a b)).moment = (p.moment.1 + a * p.area, p.moment.2 + b * p.area) := by
  simp only [Poly.moment, Poly.map, ringArea2_translate, ringMoment6_translate, List.map_map, Function.comp_def,
    Poly.area, Prod.mk.injEq]
  have key : ∀ (c : ℝ) (f : List Pt → ℝ) (hs : List (List Pt)),
      (hs.map fun r => (SignType.sign (ringArea2 r) : ℝ) * (f r + 3 * c * ringArea2 r) / 6).sum
      = (hs.map fun r => (SignType.sign (ringArea2 r) : ℝ) * f r / 6).sum + c * (hs.map fun r => |ringArea2 r| / 2).sum := by
    intro c f hs
    rw [← sum_map_lin]
    congr 1
    apply List.map_congr_left
    intro r _
    have := sign_mul_abs (ringArea2 r)
    linear_combination (c / 2) * this
  have s := sign_mul_abs (ringArea2 p.exterior)
  constructor
  · rw [key a (fun r => (ringMoment6 r).1)]
    linear_combination (a / 2) * s
  · rw [key b (fun r => (ringMoment6 r).2)]
    linear_combination (b / 2) * s

theorem centroid_translate {p : Poly} (h : p.area ≠ 0) (a b : ℝ) :
    (p.map (translate a b)).centroid = (p.centroid.1 + a, p.centroid.2 + b) := by
  simp only [Poly.centroid, area_translate, moment_translate, Prod.mk.injEq]
  constructor <;> field_simp

/-- A shift by numbers of the grid is exact. -/
theorem shift_poly_grid (ops : GeomOps) {g : Geometry} (hb : Built ops g) (hs : Spread g.tol g.poly.exterior)
    {a b : ℝ} (ha : OnGrid g.tol a) (hbg : OnGrid g.tol b) :
    (g.shift ops a b).poly = g.poly.map (translate a b) := by
  rw [shift_poly_exact ops hb ((spread_apart hs).mono (by norm_num)) (not_tie_of_onGrid ha) (not_tie_of_onGrid hbg),
    roundTo_of_onGrid ha, roundTo_of_onGrid hbg]

/-- **C41.** After `align_center` the centroid of the geometry is at the target (the origin, the centroid
of another geometry, or a point), to half a unit of the last decimal in each coordinate; and the geometry
has been moved by a translation, without any rounding of its vertices. -/
theorem C41_align_center (ops : GeomOps) {g : Geometry} (hb : Built ops g) (hs : Spread g.tol g.poly.exterior)
    (ha : g.poly.area ≠ 0) (target : Pt) :
    HalfUnit g.tol (g.alignCenter ops target).poly.centroid.1 target.1 ∧
    HalfUnit g.tol (g.alignCenter ops target).poly.centroid.2 target.2 ∧
    ∃ a b, (g.alignCenter ops target).poly.exterior = g.poly.exterior.map (fun p => (p.1 + a, p.2 + b)) ∧
      (g.alignCenter ops target).poly.interiors = g.poly.interiors.map (List.map fun p => (p.1 + a, p.2 + b)) := by
  have e := shift_poly_grid ops hb hs (roundTo_onGrid g.tol (target.1 - g.poly.centroid.1))
    (roundTo_onGrid g.tol (target.2 - g.poly.centroid.2))
  have r1 := roundTo_near g.tol (target.1 - g.poly.centroid.1)
  have r2 := roundTo_near g.tol (target.2 - g.poly.centroid.2)
  rw [Geometry.alignCenter, e, centroid_translate ha]
  refine ⟨?_, ?_, roundTo g.tol (target.1 - g.poly.centroid.1), roundTo g.tol (target.2 - g.poly.centroid.2), rfl, rfl⟩
  · rw [HalfUnit] at r1 ⊢
    rwa [show g.poly.centroid.1 + roundTo g.tol (target.1 - g.poly.centroid.1) - target.1
      = roundTo g.tol (target.1 - g.poly.centroid.1) - (target.1 - g.poly.centroid.1) by ring]
  · rw [HalfUnit] at r2 ⊢
    rwa [show g.poly.centroid.2 + roundTo g.tol (target.2 - g.poly.centroid.2) - target.2
      = roundTo g.tol (target.2 - g.poly.centroid.2) - (target.2 - g.poly.centroid.2) by ring]

/-- The square frame has area 12 and its centroid at `(2, 2)`. -/
example (m : Material) : (mkGeometry exOps exFrame m none 12).poly.area = 12 ∧
    (mkGeometry exOps exFrame m none 12).poly.centroid = (2, 2) := by
  have e : (mkGeometry exOps exFrame m none 12).poly = exFrame :=
    mk_poly _ exFrame_onGrid ⟨(4, 0), by simp [exFrame], by simp⟩ _ _
  have a1 : ringArea2 [((0 : ℝ), (0 : ℝ)), (4, 0), (4, 4), (0, 4)] = 32 := by
    norm_num [ringArea2, ringEdges]
  have a2 : ringArea2 [((1 : ℝ), (1 : ℝ)), (1, 3), (3, 3), (3, 1)] = -8 := by
    norm_num [ringArea2, ringEdges]
  have m1 : ringMoment6 [((0 : ℝ), (0 : ℝ)), (4, 0), (4, 4), (0, 4)] = (192, 192) := by
    norm_num [ringMoment6, ringEdges]
  have m2 : ringMoment6 [((1 : ℝ), (1 : ℝ)), (1, 3), (3, 3), (3, 1)] = (-48, -48) := by
    norm_num [ringMoment6, ringEdges]
  have s1 : SignType.sign (32 : ℝ) = 1 := sign_pos (by norm_num)
  have s2 : SignType.sign (-8 : ℝ) = -1 := sign_neg (by norm_num)
  rw [e]
  have ha : exFrame.area = 12 := by
    norm_num [Poly.area, exFrame, a1, a2]
  refine ⟨ha, ?_⟩
  rw [Poly.centroid, ha]
  simp only [Poly.moment, exFrame, List.map_cons, List.map_nil, List.sum_cons, List.sum_nil, a1, a2, m1, m2, s1, s2]
  norm_num

/-- The modulus weighted centroid of parts: what the compound is aligned by. -/
noncomputable def weightedMean (gs : List Geometry) (x : Geometry → ℝ) : ℝ :=
  (gs.map fun g => g.material.elasticModulus * g.poly.area * x g).sum /
    (gs.map fun g => g.material.elasticModulus * g.poly.area).sum

theorem accum_eq_listSum {α : Type*} (xs : List α) (f : α → ℝ) : accum xs f = (xs.map f).sum := by
  have : ∀ (xs : List α) (a : ℝ), xs.foldl (fun acc x => acc + f x) a = a + (xs.map f).sum := by
    intro xs
    induction xs with
    | nil => simp
    | cons x xs ih => intro a; simp [ih, add_assoc]
  rw [accum, this]; ring

/-- **C41 for compounds** whose parts keep 12 decimals or more: the modulus weighted centroid is at the
target, to half a unit of the twelfth decimal. -/
theorem C41_align_center_compound (ops : GeomOps) {c : Compound} (hc : CBuilt ops c)
    (hs : ∀ g ∈ c.geoms, Spread g.tol g.poly.exterior) (ht : ∀ g ∈ c.geoms, 12 ≤ g.tol)
    (ha : ∀ g ∈ c.geoms, g.poly.area ≠ 0)
    (hea : (c.geoms.map fun g => g.material.elasticModulus * g.poly.area).sum ≠ 0) (target : Pt) :
    ∃ c', c.alignCenter ops target = .ok c' ∧
      HalfUnit 12 (weightedMean c'.geoms fun g => g.poly.centroid.1) target.1 ∧
      HalfUnit 12 (weightedMean c'.geoms fun g => g.poly.centroid.2) target.2 ∧
      ∃ a b, List.Forall₂ (fun h g : Geometry => h.material = g.material ∧
        h.poly.exterior = g.poly.exterior.map (fun p => (p.1 + a, p.2 + b)) ∧
        h.poly.interiors = g.poly.interiors.map (List.map fun p => (p.1 + a, p.2 + b))) c'.geoms c.geoms := by
  set w := c.weightedCentroid with hw
  set a := roundTo 12 (target.1 - w.1) with hadef
  set b := roundTo 12 (target.2 - w.2) with hbdef
  obtain ⟨c', h1, h2, h3⟩ := mkCompound_map ops c.geoms (f := fun g => g.shift ops a b) (fun g => mk_built ..)
  have hp : ∀ g ∈ c.geoms, (g.shift ops a b).poly = g.poly.map (translate a b) := fun g hg =>
    shift_poly_grid ops (hc.1 g hg) (hs g hg) ((roundTo_onGrid 12 _).mono (ht g hg)) ((roundTo_onGrid 12 _).mono (ht g hg))
  have hsum : (c'.geoms.map fun g => g.material.elasticModulus * g.poly.area).sum
      = (c.geoms.map fun g => g.material.elasticModulus * g.poly.area).sum := by
    rw [h2, List.map_map]
    congr 1
    apply List.map_congr_left
    intro g hg
    simp only [Function.comp]
    rw [hp g hg, area_translate]
    rfl
  have hmean : ∀ (x : Pt → ℝ) (d : ℝ), (∀ g ∈ c.geoms, x (g.poly.map (translate a b)).centroid = x g.poly.centroid + d) →
      weightedMean c'.geoms (fun g => x g.poly.centroid) = weightedMean c.geoms (fun g => x g.poly.centroid) + d := by
    intro x d hx
    rw [weightedMean, hsum, weightedMean, div_add' _ _ _ hea]
    congr 1
    rw [h2, List.map_map, mul_comm d, mul_comm _ d, ← sum_map_lin]
    congr 1
    apply List.map_congr_left
    intro g hg
    simp only [Function.comp]
    rw [hp g hg, area_translate, hx g hg]
    have : (g.shift ops a b).material = g.material := rfl
    rw [this]; ring
  have hw1 : w.1 = weightedMean c.geoms fun g => g.poly.centroid.1 := by
    rw [hw, Compound.weightedCentroid, weightedMean]
    simp only [accum_eq_listSum]
    congr 2
    apply List.map_congr_left
    intro g _; ring
  have hw2 : w.2 = weightedMean c.geoms fun g => g.poly.centroid.2 := by
    rw [hw, Compound.weightedCentroid, weightedMean]
    simp only [accum_eq_listSum]
    congr 2
    apply List.map_congr_left
    intro g _; ring
  refine ⟨c', h1, ?_, ?_, a, b, ?_⟩
  · rw [hmean Prod.fst a fun g hg => by rw [centroid_translate (ha g hg)], ← hw1]
    have := roundTo_near 12 (target.1 - w.1)
    rw [HalfUnit] at this ⊢
    rwa [show w.1 + a - target.1 = a - (target.1 - w.1) by ring]
  · rw [hmean Prod.snd b fun g hg => by rw [centroid_translate (ha g hg)], ← hw2]
    have := roundTo_near 12 (target.2 - w.2)
    rw [HalfUnit] at this ⊢
    rwa [show w.2 + b - target.2 = b - (target.2 - w.2) by ring]
  · rw [h2, List.forall₂_map_left_iff, List.forall₂_same]
    intro g hg
    refine ⟨rfl, ?_, ?_⟩ <;> rw [hp g hg] <;> rfl

/-- Two rectangles meet the hypotheses. -/
example : ∃ c : Compound, CBuilt exOps c ∧ (∀ g ∈ c.geoms, Spread g.tol g.poly.exterior) ∧
    (∀ g ∈ c.geoms, 12 ≤ g.tol) ∧ (∀ g ∈ c.geoms, g.poly.area ≠ 0) ∧
    (c.geoms.map fun g => g.material.elasticModulus * g.poly.area).sum ≠ 0 := by
  obtain ⟨c, _, h2, h3, h4⟩ := exPair defaultMaterial
  have a1 : exRect1.area = 1 := by norm_num [Poly.area, exRect1, ringArea2, ringEdges]
  have a2 : exRect2.area = 2 := by norm_num [Poly.area, exRect2, ringArea2, ringEdges]
  refine ⟨c, h3, h4, ?_, ?_, ?_⟩
  · rw [h2]
    intro g hg
    simp only [List.mem_cons, List.not_mem_nil, or_false] at hg
    rcases hg with rfl | rfl <;> exact le_refl 12
  · rw [h2]
    intro g hg
    simp only [List.mem_cons, List.not_mem_nil, or_false] at hg
    rcases hg with rfl | rfl
    · rw [exRect1_poly, a1]; norm_num
    · rw [exRect2_poly, a2]; norm_num
  · rw [h2]
    simp only [List.map_cons, List.map_nil, exRect1_poly, exRect2_poly, a1, a2]
    norm_num [mkGeometry, defaultMaterial]

end SP
