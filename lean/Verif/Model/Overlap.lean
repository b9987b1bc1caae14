import Verif.Model.SetOps

/-!
# The warning about overlapping regions

`unionArea` is `unary_union(lop).area`, the area of the union of a list of polygons, computed by shapely.
-/

namespace SP

/-- `math.isclose(a, b)` with the default tolerances.  (geometry.py 2764.) -/
def mathIsclose (a b : ℝ) : Prop := |a - b| ≤ 1 / 10 ^ 9 * max |a| |b|

/-- geometry.py 2747-2764: `check_geometry_overlaps`. -/
noncomputable def checkGeometryOverlaps (unionArea : List Poly → ℝ) (lop : List Poly) : Bool :=
  open Classical in
  let total := (lop.map Poly.area).sum
  !decide (mathIsclose (unionArea lop) total)

/-- section.py 1203-1222: the beginning of `calculate_plastic_properties`: whether the warning is issued. -/
noncomputable def plasticWarns (unionArea : List Poly → ℝ) (cx : Option ℝ) (geometry : Shape) : Except PyErr Bool :=
  match cx with
  | none => .error .runtimeError
  | some _ =>
    match geometry with
    | .single _ => .ok false
    | .compound c => .ok (checkGeometryOverlaps unionArea (c.geoms.map (·.poly)))

end SP
