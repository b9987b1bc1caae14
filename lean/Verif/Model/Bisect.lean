import Verif.Model.Basic
import Mathlib.Data.Real.Basic
import Mathlib.Order.Lattice

/-!
# Model of `pre/bisect_section.py` and of `split_section` (pre/geometry.py 842-924, 2267-2311)

Polygons are an abstract type; what shapely computes of them (splitting, representative point,
extents, area, centroid) is an oracle, a field of `PolyOps`.
-/

namespace SP

open Classical

/-- The shapely operations used on polygons by splitting and by the plastic analysis.
(bisect_section.py 52-104, geometry.py 907-924, plastic_section.py 409-467.) -/
structure PolyOps (P : Type*) where
  /-- `polygon.area` -/
  area : P → ℝ
  /-- `polygon.centroid` -/
  centroid : P → ℝ × ℝ
  /-- `polygon.representative_point().coords[0]` -/
  rep : P → ℝ × ℝ
  /-- `calculate_extents` of the polygon: `(min_x, max_x, min_y, max_y)` -/
  bounds : P → ℝ × ℝ × ℝ × ℝ
  /-- `shapely.ops.split(polygon, LineString([a, b])).geoms`; `none` is an item that is not a
  `Polygon`. -/
  split : P → (ℝ × ℝ) × (ℝ × ℝ) → List (Option P)

/-- bisect_section.py 14-49: `create_line_segment`, the two end points of the returned line.  A division
by zero (`vector[1] == 0` in the second branch, i.e. a direction that is zero or shorter than `1e-12`)
gives `inf` or `nan` in numpy, here `0`; the theorems exclude such directions. -/
noncomputable def createLineSegment (p v : ℝ × ℝ) (bounds : ℝ × ℝ × ℝ × ℝ) :
    (ℝ × ℝ) × (ℝ × ℝ) :=
  let b2 := max (max (max bounds.1 bounds.2.1) bounds.2.2.1) bounds.2.2.2
  let b1 := min (min (min bounds.1 bounds.2.1) bounds.2.2.1) bounds.2.2.2
  if |v.1| > 1e-12 then
    let y2 := (b2 - p.1) / v.1 * v.2 + p.2
    let y1 := (b1 - p.1) / v.1 * v.2 + p.2
    ((b1, y1), (b2, y2))
  else
    let x2 := (b2 - p.2) / v.2 * v.1 + p.1
    let x1 := (b1 - p.2) / v.2 * v.1 + p.1
    ((x1, b1), (x2, b2))

/-- bisect_section.py 107-134: `line_mx_plus_b`; `(1, None)` for a vertical line. -/
noncomputable def lineMxPlusB (l : (ℝ × ℝ) × (ℝ × ℝ)) : ℝ × Option ℝ :=
  if l.2.1 - l.1.1 = 0 then (1, none)
  else
    let m := (l.2.2 - l.1.2) / (l.2.1 - l.1.1)
    (m, some (l.1.2 - m * l.1.1))

/-- Which list a polygon goes into (bisect_section.py 90-102). -/
inductive Side where
  | top
  | bot
  | dropped
  deriving DecidableEq

/-- bisect_section.py 87-102: comparison of the representative point with the line; a point exactly
on the line is put into neither list. -/
noncomputable def sideOf (l : (ℝ × ℝ) × (ℝ × ℝ)) (q : ℝ × ℝ) : Side :=
  match lineMxPlusB l with
  | (m, some b) =>
    let yTest := m * q.1 + b
    if q.2 < yTest then .bot else if q.2 > yTest then .top else .dropped
  | (_, none) =>
    if q.1 < l.1.1 then .bot else if q.1 > l.1.1 then .top else .dropped

/-- bisect_section.py 52-104: `group_top_and_bottom_polys`: `(top_acc, bot_acc)`; an item that is not
a polygon raises `RuntimeError`. -/
noncomputable def groupTopAndBottomPolys {P : Type*} (rep : P → ℝ × ℝ) (l : (ℝ × ℝ) × (ℝ × ℝ)) :
    List (Option P) → Except PyErr (List P × List P)
  | [] => .ok ([], [])
  | none :: _ => .error .runtimeError
  | some p :: rest =>
    match groupTopAndBottomPolys rep l rest with
    | .error e => .error e
    | .ok (top, bot) =>
      match sideOf l (rep p) with
      | .top => .ok (p :: top, bot)
      | .bot => .ok (top, p :: bot)
      | .dropped => .ok (top, bot)

/-- What the plastic analysis needs of a `Geometry`: polygon and material.
(plastic_section.py 409-467, which reads `geom.geom` and `geom.material`.) -/
structure PGeom (P : Type*) where
  poly : P
  material : Material

/-- geometry.py 889-901: the line direction chosen from `point_j` or `vector`; `point_j` has
precedence, with neither given `ValueError` is raised.  (A `point_j` is a non-empty tuple, hence
truthy.) -/
def lineVector (pi : ℝ × ℝ) (pj vector : Option (ℝ × ℝ)) : Except PyErr (ℝ × ℝ) :=
  match pj, vector with
  | some q, _ => .ok (q.1 - pi.1, q.2 - pi.2)
  | none, some v => .ok v
  | none, none => .error .valueError

/-- geometry.py 842-924: `Geometry.split_section` for a given direction. -/
noncomputable def splitGeometry {P : Type*} (ops : PolyOps P) (g : PGeom P) (p v : ℝ × ℝ) :
    Except PyErr (List (PGeom P) × List (PGeom P)) :=
  let l := createLineSegment p v (ops.bounds g.poly)
  match groupTopAndBottomPolys ops.rep l (ops.split g.poly l) with
  | .error e => .error e
  | .ok (top, bot) =>
    .ok (top.map fun q => ⟨q, g.material⟩, bot.map fun q => ⟨q, g.material⟩)

/-- geometry.py 2267-2311: `CompoundGeometry.split_section`; for a single `Geometry` the list has one
entry. -/
noncomputable def splitSection {P : Type*} (ops : PolyOps P) (p v : ℝ × ℝ) :
    List (PGeom P) → Except PyErr (List (PGeom P) × List (PGeom P))
  | [] => .ok ([], [])
  | g :: gs =>
    match splitGeometry ops g p v with
    | .error e => .error e
    | .ok (t, b) =>
      match splitSection ops p v gs with
      | .error e => .error e
      | .ok (ts, bs) => .ok (t ++ ts, b ++ bs)

end SP
