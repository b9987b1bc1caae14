import Verif.Model.Section

/-!
# Model of `pre/geometry.py` and of the mesh request of `pre/pre.py`

Polygons are kept as vertex lists.  What shapely computes beyond translating, rotating and scaling
vertices (representative points, overlay, unions, point in polygon) is an oracle, a field of `GeomOps`.
`offset_perimeter` is in `Model/Offset.lean`.  `from_dxf`, `from_3dm` and plotting are not modelled.
-/

namespace SP

open Classical

/-- Points of the plane.  (the `tuple[float, float]` of geometry.py.) -/
abbrev Pt := ℝ × ℝ

/-- A `shapely.Polygon`: exterior ring and interior rings, each without the repeated closing vertex
(`ring.coords[:-1]`). -/
@[ext] structure Poly where
  exterior : List Pt
  interiors : List (List Pt)

/-- Rounding half to even.  (geometry.py 2625, 2639, 2738-2739: numpy and Python round half to even.) -/
noncomputable def rint (x : ℝ) : ℤ :=
  if x - ⌊x⌋ = 1 / 2 then (if Even ⌊x⌋ then ⌊x⌋ else ⌊x⌋ + 1)
  else if x - ⌊x⌋ < 1 / 2 then ⌊x⌋ else ⌊x⌋ + 1

/-- `round(x, tol)` and `np.round(x, tol)`.  (geometry.py 649, 2625, 2738.) -/
noncomputable def roundTo (tol : ℕ) (x : ℝ) : ℝ := rint (x * 10 ^ tol) / 10 ^ tol

/-- Rounding of both coordinates.  (geometry.py 2625, 2738.) -/
noncomputable def roundPt (tol : ℕ) (p : Pt) : Pt := (roundTo tol p.1, roundTo tol p.2)

/-- Image of all vertices of a polygon.  (geometry.py 700-706, 755-764, 815-826: shapely.affinity.) -/
def Poly.map (f : Pt → Pt) (p : Poly) : Poly := ⟨p.exterior.map f, p.interiors.map (List.map f)⟩

/-- geometry.py 2725-2744: `round_polygon_vertices`; a polygon all of whose exterior vertices are rounded
to zero becomes the empty polygon. -/
noncomputable def roundPoly (tol : ℕ) (p : Poly) : Poly :=
  if ∀ q ∈ p.exterior.map (roundPt tol), q = (0, 0) then ⟨[], []⟩ else p.map (roundPt tol)

/-- geometry.py 2536-2565: `create_facets(points_list, connect_back, offset)` for a list of `n` points:
each index is paired with the next one, the last one with `offset`. -/
def createFacets (n : ℕ) (connectBack : Bool) (offset : ℕ) : List (ℕ × ℕ) :=
  let idx := (List.range n).map (· + offset)
  let facets := idx.zip (idx.tail ++ [offset])
  if connectBack then facets else facets.dropLast

/-- geometry.py 2630-2650: the loop over the holes of `create_points_and_facets`; `start` is
`exterior_count`, `count` is `master_count`, `idx` the number of the hole. -/
noncomputable def holePointsFacets (tol start : ℕ) : ℕ → ℕ → List (List Pt) → List Pt × List (ℕ × ℕ)
  | _, _, [] => ([], [])
  | count, idx, hole :: rest =>
    let pts := hole.map (roundPt tol)
    let offset := count * (if 0 < idx then 1 else 0) + start * (if idx < 1 then 1 else 0)
    let r := holePointsFacets tol start (count + hole.length) (idx + 1) rest
    (pts ++ r.1, createFacets pts.length true offset ++ r.2)

/-- geometry.py 2604-2652: `create_points_and_facets`. -/
noncomputable def pointsAndFacets (tol : ℕ) (p : Poly) : List Pt × List (ℕ × ℕ) :=
  let ext := p.exterior.map (roundPt tol)
  let r := holePointsFacets tol p.exterior.length p.exterior.length 0 p.interiors
  (ext ++ r.1, createFacets ext.length true 0 ++ r.2)

/-- Minimum and maximum of the coordinates of the exterior ring: `(min_x, max_x, min_y, max_y)`.  For an
empty polygon shapely gives `nan`, here zeros.  (geometry.py 1251.) -/
noncomputable def ringBounds : List Pt → ℝ × ℝ × ℝ × ℝ
  | [] => (0, 0, 0, 0)
  | p :: ps => (runMin p.1 (ps.map Prod.fst), runMax p.1 (ps.map Prod.fst),
      runMin p.2 (ps.map Prod.snd), runMax p.2 (ps.map Prod.snd))

/-- Consecutive vertices of a closed ring.  (shapely, used in geometry.py 1260, 1268, 1276.) -/
def ringEdges : List Pt → List (Pt × Pt)
  | [] => []
  | p :: ps => (p :: ps).zip (ps ++ [p])

/-- Twice the signed area of a ring.  (shapely, used in geometry.py 1268.) -/
noncomputable def ringArea2 (r : List Pt) : ℝ := ((ringEdges r).map fun e => e.1.1 * e.2.2 - e.2.1 * e.1.2).sum

/-- Signed first moments of a ring, times six.  (shapely, used in geometry.py 1276.) -/
noncomputable def ringMoment6 (r : List Pt) : Pt :=
  (((ringEdges r).map fun e => (e.1.1 + e.2.1) * (e.1.1 * e.2.2 - e.2.1 * e.1.2)).sum,
   ((ringEdges r).map fun e => (e.1.2 + e.2.2) * (e.1.1 * e.2.2 - e.2.1 * e.1.2)).sum)

/-- `polygon.area`: area of the exterior ring less the areas of the interior rings.  (geometry.py 1268.) -/
noncomputable def Poly.area (p : Poly) : ℝ :=
  |ringArea2 p.exterior| / 2 - (p.interiors.map fun r => |ringArea2 r| / 2).sum

/-- First moments of a polygon.  (shapely, used in geometry.py 642, 1276.) -/
noncomputable def Poly.moment (p : Poly) : Pt :=
  let q := fun r => (SignType.sign (ringArea2 r) : ℝ)
  (q p.exterior * (ringMoment6 p.exterior).1 / 6
      - (p.interiors.map fun r => q r * (ringMoment6 r).1 / 6).sum,
   q p.exterior * (ringMoment6 p.exterior).2 / 6
      - (p.interiors.map fun r => q r * (ringMoment6 r).2 / 6).sum)

/-- `polygon.centroid`.  (geometry.py 642, 1276.) -/
noncomputable def Poly.centroid (p : Poly) : Pt := (p.moment.1 / p.area, p.moment.2 / p.area)

/-- Results of shapely that are not computed in the model.  (geometry.py 416-437, the calls of `representative_point`.) -/
structure GeomOps where
  /-- `polygon.representative_point()` -/
  rep : Poly → Pt
  /-- `Polygon(exterior) - MultiPolygon(interiors)`; `none` if this is not a `Polygon` -/
  punch : List Pt → List (List Pt) → Option Poly
  /-- the holes of the (slightly buffered) union of polygons: geometry.py 2434-2455 -/
  unionHoles : List Poly → List Pt

/-- geometry.py 48-98: the attributes of a `Geometry`. -/
structure Geometry where
  poly : Poly
  material : Material
  assigned : Option Pt
  tol : ℕ
  points : List Pt
  facets : List (ℕ × ℕ)
  controlPoints : List Pt
  holes : List Pt

/-- geometry.py 48-98 and 416-445: `Geometry(geom, material, control_points, tol)` for a polygon.  (The
`ValueError`s for other shapely objects cannot occur for a `Poly`.)  The representative point of an empty polygon is an
empty point, which has no coordinates. -/
noncomputable def mkGeometry (ops : GeomOps) (p : Poly) (m : Material) (cp : Option Pt) (tol : ℕ) :
    Geometry :=
  let q := roundPoly tol p
  let pf := pointsAndFacets tol q
  { poly := q, material := m, assigned := cp, tol := tol, points := pf.1, facets := pf.2,
    controlPoints := match cp with
      | none => if q.exterior = [] then [] else [ops.rep q]
      | some c => [c]
    holes := q.interiors.map fun h => ops.rep ⟨h, []⟩ }

/-- geometry.py 111-147: `assign_control_point`. -/
noncomputable def Geometry.assignControlPoint (ops : GeomOps) (g : Geometry) (c : Pt) : Geometry :=
  mkGeometry ops g.poly g.material (some c) g.tol

/-- geometry.py 1241-1252: `calculate_extents`: `(min_x, max_x, min_y, max_y)`. -/
noncomputable def Geometry.extents (g : Geometry) : ℝ × ℝ × ℝ × ℝ := ringBounds g.poly.exterior

/-- `affinity.translate`.  (geometry.py 700, 706.) -/
def translate (dx dy : ℝ) (p : Pt) : Pt := (p.1 + dx, p.2 + dy)

/-- `affinity.rotate` about `c`, by `a` radians (without the snapping of tiny cosines).  (geometry.py 755, 764.) -/
noncomputable def rotateAbout (c : Pt) (a : ℝ) (p : Pt) : Pt :=
  (c.1 + ((p.1 - c.1) * Real.cos a - (p.2 - c.2) * Real.sin a),
   c.2 + ((p.1 - c.1) * Real.sin a + (p.2 - c.2) * Real.cos a))

/-- `affinity.scale` about `c`.  (geometry.py 815, 826.) -/
def scaleAbout (c : Pt) (fx fy : ℝ) (p : Pt) : Pt := (c.1 + fx * (p.1 - c.1), c.2 + fy * (p.2 - c.2))

/-- geometry.py 669-710: `shift_section`. -/
noncomputable def Geometry.shift (ops : GeomOps) (g : Geometry) (dx dy : ℝ) : Geometry :=
  mkGeometry ops (g.poly.map (translate dx dy)) g.material (g.assigned.map (translate dx dy)) g.tol

/-- A point argument that may also be `"center"`.  (geometry.py 715, 773.) -/
inductive Origin where
  | center
  | point (p : Pt)

/-- Centre of a bounding box.  (geometry.py 750, 2102.) -/
noncomputable def boxCentre (b : ℝ × ℝ × ℝ × ℝ) : Pt := ((b.1 + b.2.1) / 2, (b.2.2.1 + b.2.2.2) / 2)

/-- Angle in radians (geometry.py 755, 763: `use_radians`). -/
noncomputable def radians (angle : ℝ) (useRadians : Bool) : ℝ :=
  if useRadians then angle else angle * Real.pi / 180

/-- geometry.py 712-768: `rotate_section`; the control point is rotated about the centre of the bounding
box as well. -/
noncomputable def Geometry.rotate (ops : GeomOps) (g : Geometry) (angle : ℝ) (o : Origin)
    (useRadians : Bool) : Geometry :=
  let c := match o with
    | .center => boxCentre g.extents
    | .point p => p
  let a := radians angle useRadians
  mkGeometry ops (g.poly.map (rotateAbout c a)) g.material (g.assigned.map (rotateAbout c a)) g.tol

/-- The `axis` argument of `mirror_section`; any other string leaves both factors at one.  (geometry.py 770-840.) -/
inductive MirrorAxis where
  | x
  | y
  | other

/-- geometry.py 803-817: the scale factors `(xfact, yfact)`. -/
def mirrorFactors : MirrorAxis → ℝ × ℝ
  | .x => (1, -1)
  | .y => (-1, 1)
  | .other => (1, 1)

/-- geometry.py 770-840: `mirror_section`.  With `"center"` the polygon is scaled about the centre of its
bounding box, but the control point about its own centre, that is not at all. -/
noncomputable def Geometry.mirror (ops : GeomOps) (g : Geometry) (axis : MirrorAxis) (o : Origin) :
    Geometry :=
  let f := mirrorFactors axis
  match o with
  | .center =>
    mkGeometry ops (g.poly.map (scaleAbout (boxCentre g.extents) f.1 f.2)) g.material
      (g.assigned.map fun q => scaleAbout q f.1 f.2 q) g.tol
  | .point p =>
    mkGeometry ops (g.poly.map (scaleAbout p f.1 f.2)) g.material
      (g.assigned.map (scaleAbout p f.1 f.2)) g.tol

/-- The `on` argument of `align_to` (another string raises `KeyError`).  (geometry.py 557-578.) -/
inductive AlignSide where
  | left
  | right
  | bottom
  | top
  deriving DecidableEq

/-- The `other` argument of `align_to`: the extents of a geometry, or a point.  (geometry.py 582-587.) -/
inductive AlignTarget where
  | geom (extents : ℝ × ℝ × ℝ × ℝ)
  | point (p : Pt)

/-- Item `i` of the extents (0: min x, 1: max x, 2: min y, 3: max y).  (geometry.py 584, 589-593.) -/
def extentAt (e : ℝ × ℝ × ℝ × ℝ) : ℕ → ℝ
  | 0 => e.1
  | 1 => e.2.1
  | 2 => e.2.2.1
  | _ => e.2.2.2

/-- geometry.py 558-563: `align_self_map`. -/
def alignSelfMap : AlignSide → ℕ
  | .left => 1
  | .right => 0
  | .bottom => 3
  | .top => 2

/-- geometry.py 565-570: `other_as_geom_map`. -/
def otherAsGeomMap : AlignSide → ℕ
  | .left => 0
  | .right => 1
  | .bottom => 2
  | .top => 3

/-- geometry.py 572-577: `other_as_point_map`. -/
def otherAsPointMap : AlignSide → ℕ
  | .left => 0
  | .right => 0
  | .bottom => 1
  | .top => 1

/-- geometry.py 579-602: the offsets `(x_offset, y_offset)` that `align_to` computes from the extents of
the geometry to be moved. -/
noncomputable def alignOffset (self : ℝ × ℝ × ℝ × ℝ) (other : AlignTarget) (on : AlignSide) (inner : Bool) :
    ℝ × ℝ :=
  let (idx, coord) := match other with
    | .geom e => (otherAsGeomMap on, extentAt e (otherAsGeomMap on))
    | .point p => (otherAsPointMap on, if otherAsPointMap on = 0 then p.1 else p.2)
  let selfCoord := if inner then extentAt self idx else extentAt self (alignSelfMap on)
  let offset := coord - selfCoord
  if on = .top ∨ on = .bottom then (0, offset) else (offset, 0)

/-- geometry.py 515-602: `Geometry.align_to`. -/
noncomputable def Geometry.alignTo (ops : GeomOps) (g : Geometry) (other : AlignTarget) (on : AlignSide)
    (inner : Bool) : Geometry :=
  let o := alignOffset g.extents other on inner
  g.shift ops o.1 o.2

/-- geometry.py 604-667: `Geometry.align_center`; `target` is the origin, the centroid of the other
geometry or the given point.  (An argument that is none of these raises `ValueError`.) -/
noncomputable def Geometry.alignCenter (ops : GeomOps) (g : Geometry) (target : Pt) : Geometry :=
  let c := g.poly.centroid
  g.shift ops (roundTo g.tol (target.1 - c.1)) (roundTo g.tol (target.2 - c.2))

/-! ### `Geometry.from_points` -/

/-- State of the loop of `from_points` (geometry.py 218-252); `active = none` is the exterior list,
`some k` the `k`-th interior list. -/
structure Collect where
  exterior : List Pt
  interiors : List (List Pt)
  active : Option ℕ
  counter : ℕ
  prev : Option (ℕ × ℕ)

/-- `active_list.append(p)`.  (geometry.py 234, 252, 255.) -/
def Collect.append (s : Collect) (p : Pt) : Collect :=
  match s.active with
  | none => { s with exterior := s.exterior ++ [p] }
  | some k => { s with interiors := s.interiors.modify k (· ++ [p]) }

/-- The contents of `active_list`.  (geometry.py 227, 244-251.) -/
def Collect.current (s : Collect) : List Pt :=
  match s.active with
  | none => s.exterior
  | some k => s.interiors.getD k []

/-- geometry.py 225-252, one facet.  `active_list == exterior` compares contents. -/
noncomputable def Collect.step (points : List Pt) (nHoles : ℕ) (s : Collect) (f : ℕ × ℕ) :
    Except PyErr Collect :=
  match points[f.1]? with
  | none => .error .indexError
  | some v =>
    match s.prev with
    | none => .ok { s.append v with prev := some f }
    | some pf =>
      if f.1 ≠ pf.2 ∧ nHoles ≠ 0 then
        let k := if s.current = s.exterior then s.counter else s.counter + 1
        if k < s.interiors.length then
          .ok { ({ s with active := some k, counter := k } : Collect).append v with prev := some f }
        else .error .indexError
      else .ok { s.append v with prev := some f }

/-- geometry.py 212-252: the rings collected by `from_points`. -/
noncomputable def collectRings (points : List Pt) (facets : List (ℕ × ℕ)) (nHoles : ℕ) :
    Except PyErr Collect :=
  facets.foldlM (Collect.step points nHoles)
    { exterior := [], interiors := List.replicate nHoles [], active := none, counter := 0, prev := none }

/-- geometry.py 150-266: `Geometry.from_points`. -/
noncomputable def fromPoints (ops : GeomOps) (points : List Pt) (facets : List (ℕ × ℕ))
    (controlPoints holes : List Pt) (m : Material) : Except PyErr Geometry :=
  match controlPoints with
  | [c] =>
    match collectRings points facets holes.length with
    | .error e => .error e
    | .ok s =>
      match ops.punch s.exterior s.interiors with
      | none => .error .runtimeError
      | some p => .ok (mkGeometry ops p m (some c) 12)
  | _ => .error .valueError

/-- `current_points[i] = p` (geometry.py 1135), `IndexError` if there is no such point. -/
noncomputable def movePoint (dx dy : ℝ) (absX absY : Option ℝ) (pts : List Pt) (i : ℕ) :
    Except PyErr (List Pt) :=
  match pts[i]? with
  | none => .error .indexError
  | some p =>
    let x := match absX with
      | some a => if a ≠ 0 then a else p.1 + dx
      | none => p.1 + dx
    let y := match absY with
      | some a => if a ≠ 0 then a else p.2 + dy
      | none => p.2 + dy
    .ok (pts.set i (x, y))

/-- geometry.py 1066-1156: `shift_points`.  (The second `from_points` call repeats the first one with the
same arguments.)  `abs_x if abs_x else ...`: an absolute coordinate of `0` counts as not given. -/
noncomputable def Geometry.shiftPoints (ops : GeomOps) (g : Geometry) (idxs : List ℕ) (dx dy : ℝ)
    (absX absY : Option ℝ) : Except PyErr Geometry :=
  match idxs.foldlM (movePoint dx dy absX absY) g.points with
  | .error e => .error e
  | .ok pts => fromPoints ops pts g.facets g.controlPoints g.holes g.material

/-! ### `CompoundGeometry` -/

/-- geometry.py 1642-1677: the attributes of a `CompoundGeometry`. -/
structure Compound where
  geoms : List Geometry
  points : List Pt
  facets : List (ℕ × ℕ)
  controlPoints : List Pt
  holes : List Pt

/-- geometry.py 2413-2415: add points that are not in the list yet. -/
noncomputable def addPoints (acc : List Pt) (pts : List Pt) : List Pt :=
  pts.foldl (fun acc p => if p ∈ acc then acc else acc ++ [p]) acc

/-- geometry.py 2426-2430: renumbering of one facet; `IndexError` for a facet of the part that has no
point.  (`list.index` cannot fail, all points of the part have been added.) -/
noncomputable def remapFacet (all pts : List Pt) (f : ℕ × ℕ) : Except PyErr (ℕ × ℕ) :=
  match pts[f.1]?, pts[f.2]? with
  | some a, some b => .ok (all.idxOf a, all.idxOf b)
  | _, _ => .error .indexError

/-- geometry.py 2405-2433: the loop of `compile_geometry` over the parts, from the lists collected so
far.  (The check whether a part is compiled is dropped, every `Geometry` is compiled on construction.) -/
noncomputable def compileLoop : List Geometry → List Pt × List (ℕ × ℕ) × List Pt →
    Except PyErr (List Pt × List (ℕ × ℕ) × List Pt)
  | [], acc => .ok acc
  | g :: gs, (pts, fcs, cps) =>
    let pts' := addPoints pts g.points
    match g.facets.mapM (remapFacet pts' g.points) with
    | .error e => .error e
    | .ok fs => compileLoop gs (pts', fcs ++ fs, cps ++ g.controlPoints)

/-- geometry.py 1642-1677 and 2396-2457: `CompoundGeometry(geoms)` for a list of geometries (compounds in
the list are replaced by their parts beforehand). -/
noncomputable def mkCompound (ops : GeomOps) (geoms : List Geometry) : Except PyErr Compound :=
  match compileLoop geoms ([], [], []) with
  | .error e => .error e
  | .ok (pts, fcs, cps) => .ok ⟨geoms, pts, fcs, cps, ops.unionHoles (geoms.map (·.poly))⟩

/-- `MultiPolygon.bounds` as `(min_x, max_x, min_y, max_y)`.  (geometry.py 1251.) -/
noncomputable def Compound.extents (c : Compound) : ℝ × ℝ × ℝ × ℝ :=
  ringBounds (c.geoms.flatMap (·.poly.exterior))

/-- geometry.py 2037-2058: `CompoundGeometry.shift_section`. -/
noncomputable def Compound.shift (ops : GeomOps) (c : Compound) (dx dy : ℝ) : Except PyErr Compound :=
  mkCompound ops (c.geoms.map fun g => g.shift ops dx dy)

/-- geometry.py 2060-2112: `CompoundGeometry.rotate_section`. -/
noncomputable def Compound.rotate (ops : GeomOps) (c : Compound) (angle : ℝ) (o : Origin)
    (useRadians : Bool) : Except PyErr Compound :=
  let p := match o with
    | .center => boxCentre c.extents
    | .point p => p
  mkCompound ops (c.geoms.map fun g => g.rotate ops angle (.point p) useRadians)

/-- geometry.py 2114-2154: `CompoundGeometry.mirror_section`; the argument is handed on to the parts, so
that with `"center"` each part is mirrored about its own centre. -/
noncomputable def Compound.mirror (ops : GeomOps) (c : Compound) (axis : MirrorAxis) (o : Origin) :
    Except PyErr Compound :=
  mkCompound ops (c.geoms.map fun g => g.mirror ops axis o)

/-- geometry.py 515-602 for a compound: `align_to` is inherited. -/
noncomputable def Compound.alignTo (ops : GeomOps) (c : Compound) (other : AlignTarget) (on : AlignSide)
    (inner : Bool) : Except PyErr Compound :=
  let o := alignOffset c.extents other on inner
  c.shift ops o.1 o.2

/-- geometry.py 2220-2238: the modulus weighted centroid. -/
noncomputable def Compound.weightedCentroid (c : Compound) : Pt :=
  let ea := fun g : Geometry => g.material.elasticModulus * g.poly.area
  let sum := accum c.geoms ea
  (accum c.geoms (fun g => g.poly.centroid.1 * ea g) / sum,
   accum c.geoms (fun g => g.poly.centroid.2 * ea g) / sum)

/-- geometry.py 2156-2265: `CompoundGeometry.align_center` (`tol` of a compound is 12). -/
noncomputable def Compound.alignCenter (ops : GeomOps) (c : Compound) (target : Pt) :
    Except PyErr Compound :=
  let w := c.weightedCentroid
  c.shift ops (roundTo 12 (target.1 - w.1)) (roundTo 12 (target.2 - w.2))

/-! ### Mesh request -/

/-- The dictionary handed to `triangle.triangulate` (pre.py 120-137), with its flags: `none` for
`"pAo2"`, `some a` for `"pq{a:.1f}Aao2"`. -/
structure TriangleInput where
  vertices : List Pt
  segments : List (ℕ × ℕ)
  holes : Option (List Pt)
  regions : List (ℝ × ℝ × ℕ × ℝ)
  minAngle : Option ℝ

/-- The `mesh_sizes` argument: a number or a list.  (geometry.py 447-513, 1968-2035.) -/
inductive MeshSizes where
  | num (x : ℝ)
  | list (l : List ℝ)

/-- pre.py 131-135: the regions; `IndexError` if there are fewer sizes than control points. -/
noncomputable def regionList (sizes : List ℝ) : ℕ → List Pt → Except PyErr (List (ℝ × ℝ × ℕ × ℝ))
  | _, [] => .ok []
  | i, cp :: rest =>
    match sizes[i]? with
    | none => .error .indexError
    | some s =>
      match regionList sizes (i + 1) rest with
      | .error e => .error e
      | .ok l => .ok ((cp.1, cp.2, i, s) :: l)

/-- pre.py 82-146: the input of the mesher. -/
noncomputable def meshInput (points : List Pt) (facets : List (ℕ × ℕ)) (holes controlPoints : List Pt)
    (sizes : MeshSizes) (minAngle : ℝ) (coarse : Bool) : Except PyErr TriangleInput :=
  let l := match sizes with
    | .num x => [x]
    | .list l => l
  match regionList l 0 controlPoints with
  | .error e => .error e
  | .ok rg => .ok ⟨points, facets, if holes = [] then none else some holes, rg,
      if coarse then none else some minAngle⟩

/-- geometry.py 447-513: `Geometry.create_mesh` up to the call of the mesher. -/
noncomputable def Geometry.meshRequest (g : Geometry) (sizes : MeshSizes) (minAngle : ℝ) (coarse : Bool) :
    Except PyErr TriangleInput :=
  match sizes with
  | .list [x] => meshInput g.points g.facets g.holes g.controlPoints (.num x) minAngle coarse
  | .num x => meshInput g.points g.facets g.holes g.controlPoints (.num x) minAngle coarse
  | .list _ => .error .valueError

/-- geometry.py 1968-2035: `CompoundGeometry.create_mesh` up to the call of the mesher. -/
noncomputable def Compound.meshRequest (c : Compound) (sizes : MeshSizes) (minAngle : ℝ) (coarse : Bool) :
    Except PyErr TriangleInput :=
  let l := match sizes with
    | .num x => [x]
    | .list l => l
  let l := if l.length = 1 then (List.replicate c.controlPoints.length l).flatten else l
  meshInput c.points c.facets c.holes c.controlPoints (.list l) minAngle coarse

end SP
