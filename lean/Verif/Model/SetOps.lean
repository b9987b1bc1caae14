import Verif.Model.Geometry

/-!
# Model of the operators `|`, `^`, `-`, `+`, `&` of `pre/geometry.py` and of `CompoundGeometry.from_points`

What shapely makes of two (multi)polygons is an oracle.
-/

namespace SP

open Classical

/-- What an overlay operation of shapely may return: a polygon, a multipolygon, a geometry collection (`none` is an
item that is not a polygon; a collection made by an overlay operation has no nested multipolygons), a line or a
point, or something else (for example a `MultiLineString`).  (geometry.py 2691-2722.) -/
inductive Overlay where
  | polygon (p : Poly)
  | multi (ps : List Poly)
  | collection (items : List (Option Poly))
  | lineOrPoint
  | other

/-- Results of shapely for the multipolygons of two geometries.  (geometry.py 1313-1640.) -/
structure OverlayOps where
  union : List Poly → List Poly → Overlay
  symDiff : List Poly → List Poly → Overlay
  diff : List Poly → List Poly → Overlay
  inter : List Poly → List Poly → Overlay
  /-- `polygon.contains(point)` -/
  contains : Poly → Pt → Bool

/-- A polygon or a multipolygon.  (geometry.py 2691-2722.) -/
inductive PolyOrMulti where
  | one (p : Poly)
  | many (ps : List Poly)

/-- geometry.py 2691-2722: `filter_non_polygons`, after the check of the class (geometry.py 1349-1356, 1409-1416,
1482-1489, 1602-1609) that raises `RuntimeError`. -/
def filterNonPolygons : Overlay → Except PyErr PolyOrMulti
  | .polygon p => .ok (.one p)
  | .multi ps => .ok (.many ps)
  | .collection items =>
    match items.filterMap id with
    | [] => .ok (.one ⟨[], []⟩)
    | [p] => .ok (.one p)
    | ps => .ok (.many ps)
  | .lineOrPoint => .ok (.one ⟨[], []⟩)
  | .other => .error .runtimeError

/-- A `Geometry` or a `CompoundGeometry`.  (geometry.py 48 and 1642.) -/
inductive Shape where
  | single (g : Geometry)
  | compound (c : Compound)

/-- `geom.geoms`, or the geometry itself.  (geometry.py 1526-1563, 1642-1677.) -/
def Shape.parts : Shape → List Geometry
  | .single g => [g]
  | .compound c => c.geoms

/-- `shape.geom` as a list of polygons (geometry.py 81, 1668). -/
def Shape.polys (s : Shape) : List Poly := s.parts.map (·.poly)

/-- `shape.material`: `None` for a compound (geometry.py 1674). -/
def Shape.material : Shape → Option Material
  | .single g => some g.material
  | .compound _ => none

/-- `shape.tol` (geometry.py 80, 1676). -/
def Shape.tol : Shape → ℕ
  | .single g => g.tol
  | .compound _ => 12

/-- `shape.control_points`.  (geometry.py 416-437, 2396-2430.) -/
def Shape.controlPoints : Shape → List Pt
  | .single g => g.controlPoints
  | .compound c => c.controlPoints

/-- `CompoundGeometry(geoms=...)` for a list of geometries and compounds (geometry.py 1657-1668): compounds are
replaced by their parts. -/
noncomputable def mkCompoundOf (ops : GeomOps) (l : List Shape) : Except PyErr Compound :=
  mkCompound ops (l.flatMap Shape.parts)

/-- `self.material or other.material` (geometry.py 1344, 1404, 1597); a material is truthy. -/
def orMaterial (a b : Shape) : Option Material :=
  match a.material with
  | some m => some m
  | none => b.material

/-- geometry.py 1358-1370, 1418-1436, 1611-1624: a geometry or a compound from the polygons, with the exceptions turned
into `ValueError`; a material `None` is replaced by the default material (geometry.py 82); `cp` is
the control point handed to a single geometry. -/
noncomputable def fromOverlay (ops : GeomOps) (o : Overlay) (m : Option Material) (cp : Option Pt) (tol : ℕ) :
    Except PyErr Shape :=
  match filterNonPolygons o with
  | .error _ => .error .valueError
  | .ok (.one p) => .ok (.single (mkGeometry ops p (m.getD defaultMaterial) cp tol))
  | .ok (.many ps) =>
    match mkCompound ops (ps.map fun p => mkGeometry ops p (m.getD defaultMaterial) none 12) with
    | .error _ => .error .valueError
    | .ok c => .ok (.compound c)

/-- geometry.py 1313-1370: `a | b`. -/
noncomputable def Shape.or (ops : GeomOps) (ov : OverlayOps) (a b : Shape) : Except PyErr Shape :=
  let o := ov.union a.polys b.polys
  match filterNonPolygons o, a.controlPoints.head? with
  | .ok (.one _), none => .error .valueError
  | _, cp => fromOverlay ops o (orMaterial a b) cp a.tol

/-- geometry.py 1372-1436: `a ^ b`. -/
noncomputable def Shape.xor (ops : GeomOps) (ov : OverlayOps) (a b : Shape) : Except PyErr Shape :=
  fromOverlay ops (ov.symDiff a.polys b.polys) (orMaterial a b) none a.tol

/-- geometry.py 1565-1624: `a & b`. -/
noncomputable def Shape.and (ops : GeomOps) (ov : OverlayOps) (a b : Shape) : Except PyErr Shape :=
  fromOverlay ops (ov.inter a.polys b.polys) (orMaterial a b) none a.tol

/-- geometry.py 1476-1524: `g - b` for a single geometry. -/
noncomputable def Geometry.sub (ops : GeomOps) (ov : OverlayOps) (g : Geometry) (b : Shape) : Except PyErr Shape :=
  match filterNonPolygons (ov.diff [g.poly] b.polys) with
  | .error _ => .error .valueError
  | .ok (.many ps) =>
    match mkCompound ops (ps.map fun p => mkGeometry ops p g.material none 12) with
    | .error _ => .error .valueError
    | .ok c => .ok (.compound c)
  | .ok (.one p) =>
    let cp := match g.assigned with
      | some c => if ov.contains p c then some c else none
      | none => none
    .ok (.single (mkGeometry ops p g.material cp g.tol))

/-- geometry.py 1438-1524: `a - b`; the parts of a compound one after the other. -/
noncomputable def Shape.sub (ops : GeomOps) (ov : OverlayOps) (a b : Shape) : Except PyErr Shape :=
  match a with
  | .single g => g.sub ops ov b
  | .compound c =>
    match c.geoms.mapM fun g => g.sub ops ov b with
    | .error e => .error e
    | .ok l =>
      match mkCompoundOf ops l with
      | .error e => .error e
      | .ok c => .ok (.compound c)

/-- geometry.py 1526-1563: `a + b`. -/
noncomputable def Shape.add (ops : GeomOps) (a b : Shape) : Except PyErr Compound :=
  match mkCompoundOf ops [a, b] with
  | .error _ => .error .valueError
  | .ok c => .ok c

/-! ### `CompoundGeometry.from_points` -/

/-- geometry.py 1814-1839: state of the loop: points of the current polygon, finished polygons, previous facet. -/
structure PolyLoop where
  current : List Pt
  done : List (List Pt)
  prev : Option (ℕ × ℕ)

/-- geometry.py 1814-1835: one facet. -/
def PolyLoop.step (points : List Pt) (s : PolyLoop) (f : ℕ × ℕ) : Except PyErr PolyLoop :=
  match points[f.1]? with
  | none => .error .indexError
  | some v =>
    match s.prev with
    | none => .ok { s with current := s.current ++ [v], prev := some f }
    | some pf =>
      if f.1 ≠ pf.2 then
        match points[pf.2]? with
        | none => .error .indexError
        | some w => .ok ⟨[v], s.done ++ [s.current ++ [w]], some f⟩
      else .ok { s with current := s.current ++ [v], prev := some f }

/-- geometry.py 1806-1839: the rings; the last one is closed after the loop (with `points[0]` if there are no
facets). -/
def polygonRings (points : List Pt) (facets : List (ℕ × ℕ)) : Except PyErr (List (List Pt)) :=
  match facets.foldlM (PolyLoop.step points) ⟨[], [], none⟩ with
  | .error e => .error e
  | .ok s =>
    match points[(s.prev.getD (0, 0)).2]? with
    | none => .error .indexError
    | some w => .ok (s.done ++ [s.current ++ [w]])

/-- `shapely.Polygon(ring)` without the closing vertex: if the last given point is the first one it is not repeated.
(geometry.py 259-260, 1828, 1839.) -/
noncomputable def closeRing (r : List Pt) : Poly :=
  ⟨if 1 < r.length ∧ r.getLast? = r.head? then r.dropLast else r, []⟩

/-- geometry.py 1857: a hole point but no control point is inside.  (`any` of a list of tuples: tuples of length two are
truthy.) -/
def isInterior (ov : OverlayOps) (holes controlPoints : List Pt) (p : Poly) : Bool :=
  holes.any (ov.contains p) && !(controlPoints.any (ov.contains p))

/-- geometry.py 1888-1899: one exterior with all holes cut out, and its control point; `none` for `punched` is a result
that is not a polygon, in which case the remaining subtractions and the final check of line 1901 are combined into one
`RuntimeError`. -/
noncomputable def punchAll (ov : OverlayOps) (controlPoints : List Pt) : Poly → Pt → List Poly → Except PyErr (Poly × Pt)
  | e, cp, [] => .ok (e, cp)
  | e, _, i :: is =>
    match ov.diff [e] [i] with
    | .polygon q =>
      match controlPoints.find? (ov.contains q) with
      | none => .error .valueError
      | some c => punchAll ov controlPoints q c is
    | _ => .error .runtimeError

/-- geometry.py 1869-1910: the geometries of the exteriors, from number `idx` on. -/
noncomputable def exteriorGeoms (ops : GeomOps) (ov : OverlayOps) (controlPoints : List Pt) (interiors : List Poly) :
    List Poly → List Pt → List Material → Except PyErr (List Geometry)
  | e :: es, c :: cs, m :: ms =>
    let one : Except PyErr Geometry := match interiors with
      | [] => .ok (mkGeometry ops e m (some c) 12)
      | i :: is => match punchAll ov controlPoints e (0, 0) (i :: is) with
        | .error er => .error er
        | .ok (q, cp) => .ok (mkGeometry ops q m (some cp) 12)
    match one with
    | .error er => .error er
    | .ok g =>
      match exteriorGeoms ops ov controlPoints interiors es cs ms with
      | .error er => .error er
      | .ok l => .ok (g :: l)
  | _, _, _ => .ok []

/-- geometry.py 1695-1912: `CompoundGeometry.from_points`; `materials = none` is the default. -/
noncomputable def compoundFromPoints (ops : GeomOps) (ov : OverlayOps) (points : List Pt) (facets : List (ℕ × ℕ))
    (controlPoints holes : List Pt) (materials : Option (List Material)) : Except PyErr Compound :=
  let ms := materials.getD (List.replicate controlPoints.length defaultMaterial)
  if ms ≠ [] ∧ controlPoints = [] then .error .valueError
  else if ms.length ≠ controlPoints.length then .error .valueError
  else
    match polygonRings points facets with
    | .error e => .error e
    | .ok rings =>
      let polys := rings.map closeRing
      let exteriors := polys.filter fun p => !(isInterior ov holes controlPoints p)
      let interiors := polys.filter fun p => isInterior ov holes controlPoints p
      if exteriors.length ≠ controlPoints.length then .error .valueError
      else
        match exteriorGeoms ops ov controlPoints interiors exteriors controlPoints ms with
        | .error e => .error e
        | .ok l => mkCompound ops l

end SP
