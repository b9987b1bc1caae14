import Verif.Model.SetOps
import Verif.Model.Network

/-!
# Model of `offset_perimeter` (geometry.py 926-1064, 2313-2394), `buffer_polygon` and `compound_dilation`

What shapely's `buffer`, `unary_union`, `shared_paths` and `line_merge` return are oracles.
-/

namespace SP

open Classical

/-- Results of shapely used by `offset_perimeter`.  (geometry.py 967-1007, 2671, 2796.) -/
structure BufferOps where
  /-- `polygon.buffer(distance=amount, quad_segs=resolution)` -/
  buffer : Poly → ℝ → ℕ → Overlay
  /-- `unary_union(polygons)` -/
  unaryUnion : List Poly → Overlay
  /-- geometry.py 2788-2797: the union of a polygon with the band of width `offset` along the part of its exterior ring
  that it does not share with the given rings; `RuntimeError` if the shared paths cannot be extracted -/
  dilated : Poly → List (List Pt) → ℝ → Except PyErr Overlay
  /-- `poly1.intersection(poly2)` is not empty -/
  touch : Poly → Poly → Bool

/-- geometry.py 2655-2688: `buffer_polygon`. -/
def bufferPolygon (bf : BufferOps) (p : Poly) (amount : ℝ) (resolution : ℕ) : PolyOrMulti :=
  match bf.buffer p amount resolution with
  | .collection items =>
    match items.filterMap id with
    | [q] => .one q
    | qs => .many qs
  | .multi qs => .many qs
  | .polygon q => .one q
  | .lineOrPoint => .one ⟨[], []⟩
  | .other => .one ⟨[], []⟩

/-- The polygons of a `Polygon` or `MultiPolygon`.  (geometry.py 1009-1014, 1039-1043.) -/
def PolyOrMulti.list : PolyOrMulti → List Poly
  | .one p => [p]
  | .many ps => ps

/-- A `Polygon` or `MultiPolygon` as a result of shapely.  (geometry.py 970, 1007.) -/
def PolyOrMulti.overlay : PolyOrMulti → Overlay
  | .one p => .polygon p
  | .many ps => .multi ps

/-- The polygons of a result of shapely.  (geometry.py 2673-2686.) -/
def Overlay.list : Overlay → List Poly
  | .polygon p => [p]
  | .multi ps => ps
  | .collection items => items.filterMap id
  | _ => []

/-- geometry.py 966-970, 1005-1007: the loop that subtracts one (multi)polygon after the other.  If an intermediate
result were not a (multi)polygon, its polygons would be used. -/
def subtractAll (ov : OverlayOps) (o : Overlay) (l : List (List Poly)) : Overlay :=
  l.foldl (fun o qs => ov.diff o.list qs) o

/-- geometry.py 972-997, 1009-1035, 1039-1061: the geometry or compound made from the result.  In the case
`where="all"` the result is always a polygon or multipolygon. -/
noncomputable def offsetResult (ops : GeomOps) (ov : OverlayOps) (g : Geometry) : Overlay → Except PyErr Shape
  | .multi ps =>
    match mkCompound ops (ps.map fun p => mkGeometry ops p g.material none 12) with
    | .error e => .error e
    | .ok c => .ok (.compound c)
  | .polygon p =>
    match g.assigned with
    | some c =>
      if ov.contains p c then .ok (.single (mkGeometry ops p g.material g.controlPoints.head? g.tol))
      else .ok (.single (mkGeometry ops p g.material none g.tol))
    | none => .ok (.single (mkGeometry ops p g.material none g.tol))
  | _ => .error .runtimeError

/-- geometry.py 926-1064: `Geometry.offset_perimeter`. -/
noncomputable def Geometry.offsetPerimeter (ops : GeomOps) (ov : OverlayOps) (bf : BufferOps) (g : Geometry)
    (amount : ℝ) (whr : String) (resolution : ℕ) : Except PyErr Shape :=
  if g.poly.interiors ≠ [] ∧ whr = "interior" then
    offsetResult ops ov g (subtractAll ov (.polygon ⟨g.poly.exterior, []⟩)
      (g.poly.interiors.map fun i => (bufferPolygon bf ⟨i, []⟩ amount resolution).list))
  else if g.poly.interiors = [] ∧ whr = "interior" then .error .valueError
  else if whr = "exterior" then
    offsetResult ops ov g (subtractAll ov (bufferPolygon bf ⟨g.poly.exterior, []⟩ amount resolution).overlay
      (g.poly.interiors.map fun i => [⟨i, []⟩]))
  else if whr = "all" then
    offsetResult ops ov g (bufferPolygon bf g.poly amount resolution).overlay
  else .error .valueError

/-- `shape.geom.is_empty`.  (geometry.py 2376.) -/
def Shape.isEmpty (s : Shape) : Prop := ∀ p ∈ s.polys, p.exterior = []

/-- geometry.py 2767-2807: `compound_dilation`. -/
noncomputable def compoundDilation (ops : GeomOps) (bf : BufferOps) (geoms : List Geometry) (offset : ℝ) :
    Except PyErr Compound := do
  let polys := geoms.map (·.poly)
  let one := fun (i : ℕ) => do
    let connected := networkGet geoms.length
      (fun i j => bf.touch (polys.getD i ⟨[], []⟩) (polys.getD j ⟨[], []⟩)) i
    let u ← bf.dilated (polys.getD i ⟨[], []⟩) (connected.map fun j => (polys.getD j ⟨[], []⟩).exterior) offset
    match u, geoms[i]? with
    | .polygon p, some g => .ok (mkGeometry ops p g.material none 12)
    | _, _ => .error .runtimeError
  let acc ← (networkKeys geoms.length).mapM one
  mkCompound ops acc

/-- geometry.py 2313-2394: `CompoundGeometry.offset_perimeter`. -/
noncomputable def Compound.offsetPerimeter (ops : GeomOps) (ov : OverlayOps) (bf : BufferOps) (c : Compound)
    (amount : ℝ) (whr : String) (resolution : ℕ) : Except PyErr Compound :=
  if amount < 0 then do
    let mask ← match bf.unaryUnion (c.geoms.map (·.poly)) with
      | .polygon p => (mkGeometry ops p defaultMaterial none 12).offsetPerimeter ops ov bf amount whr resolution
      | _ => .error .runtimeError
    let parts ← c.geoms.mapM fun g => (Shape.single g).and ops ov mask
    mkCompoundOf ops (parts.filter fun s => ¬ s.isEmpty)
  else if amount > 0 then compoundDilation ops bf c.geoms amount
  else .ok c

end SP
