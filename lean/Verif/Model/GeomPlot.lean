import Verif.Model.Geometry
import Verif.Model.Section

/-!
# The data of `plot_geometry`, `display_mesh_info` and the import of polygons from files

Lines, markers and texts are recorded as they are passed to matplotlib; their widths, sizes and the drawing itself are not modelled.
-/

namespace SP

/-- The three format strings of geometry.py 1192, 1201 and 1207: `"ko-"`, `"rx"`, `"bo"`. -/
inductive Marker where
  | outline
  | hole
  | controlPoint
  deriving DecidableEq

/-- One call of `ax.plot`: the points that are joined or marked, and the label for the legend.  (geometry.py 1187-1208.) -/
structure Artist where
  marker : Marker
  path : List Pt
  label : Option String

/-- One call of `ax.annotate`.  (geometry.py 1210-1233.) -/
structure Note where
  text : String
  xy : Pt
  color : String

/-- What `plot_geometry` draws.  (geometry.py 1182-1239.) -/
structure GeomPlot where
  artists : List Artist
  notes : List Note
  legend : Bool

/-- geometry.py 1188, 1200, 1206: only the first of a kind is labelled. -/
def firstLabel (i : ℕ) (s : String) : Option String := if i = 0 then some s else none

/-- geometry.py 1187-1196: the line of one facet. -/
def facetArtist (points : List Pt) (f : ℕ × ℕ) (i : ℕ) : Except PyErr Artist :=
  match points[f.1]?, points[f.2]? with
  | some a, some b => .ok ⟨.outline, [a, b], firstLabel i "Points & Facets"⟩
  | _, _ => .error .indexError

/-- geometry.py 1224-1228: the number of a facet, at its middle. -/
noncomputable def facetNote (points : List Pt) (f : ℕ × ℕ) (i : ℕ) : Except PyErr Note :=
  match points[f.1]?, points[f.2]? with
  | some a, some b => .ok ⟨toString i, ((a.1 + b.1) / 2, (a.2 + b.2) / 2), "b"⟩
  | _, _ => .error .indexError

/-- The loops `for i, pt in enumerate(pts): ax.annotate(str(i), xy=pt, color=color)` of geometry.py 1213, 1218 and 1232. -/
def numberPoints (pts : List Pt) (color : String) : List Note := pts.zipIdx.map fun p => ⟨toString p.2, p.1, color⟩

/-- geometry.py 1210-1233: the texts for one entry of `labels`. -/
noncomputable def labelNotes (points : List Pt) (facets : List (ℕ × ℕ)) (controlPoints holes : List Pt) (label : String) :
    Except PyErr (List Note) :=
  let n1 := if label = "control_points" then numberPoints controlPoints "b" else []
  let n2 := if label = "points" then numberPoints points "r" else []
  match (if label = "facets" then facets.zipIdx.mapM fun p => facetNote points p.1 p.2 else .ok []) with
  | .error e => .error e
  | .ok n3 =>
    let n4 := if label = "holes" then numberPoints holes "r" else []
    .ok (n1 ++ n2 ++ n3 ++ n4)

/-- geometry.py 1158-1239: `plot_geometry`, for the attributes that `Geometry` and `CompoundGeometry` have in common.  A string passed as
`labels` is the list of its characters. -/
noncomputable def plotGeometry (points : List Pt) (facets : List (ℕ × ℕ)) (controlPoints holes : List Pt) (labels : List String)
    (cp legend : Bool) : Except PyErr GeomPlot :=
  match facets.zipIdx.mapM fun p => facetArtist points p.1 p.2 with
  | .error e => .error e
  | .ok lines =>
    let crosses := holes.zipIdx.map fun p => (⟨.hole, [p.1], firstLabel p.2 "Holes"⟩ : Artist)
    let dots := if cp then controlPoints.zipIdx.map fun p => (⟨.controlPoint, [p.1], firstLabel p.2 "Control Points"⟩ : Artist) else []
    match labels.mapM (labelNotes points facets controlPoints holes) with
    | .error e => .error e
    | .ok ns => .ok ⟨lines ++ crosses ++ dots, ns.flatten, legend⟩

/-- `plot_geometry` of a `Geometry`.  (geometry.py 1158-1239.) -/
noncomputable def Geometry.plot (g : Geometry) (labels : List String) (cp legend : Bool) : Except PyErr GeomPlot :=
  plotGeometry g.points g.facets g.controlPoints g.holes labels cp legend

/-- `plot_geometry` of a `CompoundGeometry`, which inherits the method.  (geometry.py 1158-1239.) -/
noncomputable def Compound.plot (c : Compound) (labels : List String) (cp legend : Bool) : Except PyErr GeomPlot :=
  plotGeometry c.points c.facets c.controlPoints c.holes labels cp legend

/-- The argument `labels="abc"`: iterating over a string gives its characters.  (geometry.py 1211.) -/
def stringLabels (s : String) : List String := s.toList.map fun c => String.ofList [c]

/-- section.py 1847-1862: the lines that `display_mesh_info` prints.  The mesh attributes are those of the geometry from which the section
was built; `max()` of no attributes is a `ValueError`. -/
def displayMeshInfo (g : GeomIn) (s : Section) : Except PyErr (List String) :=
  match g.mesh with
  | none => .error .valueError
  | some m =>
    match m.attributes.max? with
    | none => .error .valueError
    | some mx =>
      let regions := mx + 1
      let text := "- " ++ toString regions ++ " region"
      .ok ["Mesh Statistics:", "- " ++ toString s.numNodes ++ " nodes", "- " ++ toString s.elements.length ++ " elements",
        if regions > 1 then text ++ "s" else text, ""]

/-! ### Imports -/

/-- Either kind of geometry.  (geometry.py 48 and 1642.) -/
inductive AnyGeometry where
  | single (g : Geometry)
  | compound (c : Compound)

/-- geometry.py 1642-1677: `CompoundGeometry(MultiPolygon(polys))`. -/
noncomputable def compoundOfPolys (ops : GeomOps) (polys : List Poly) : Except PyErr Compound :=
  mkCompound ops (polys.map fun p => mkGeometry ops p defaultMaterial none 12)

/-- rhino.py 57-65: `load_3dm` and rhino.py 108-115: `load_brep_encoding`, after the library has found the polygons. -/
def loadRhino (found : List Poly) : Except PyErr (List Poly) := if found.length = 0 then .error .runtimeError else .ok found

/-- geometry.py 298-362: `Geometry.from_3dm`. -/
noncomputable def from3dm (ops : GeomOps) (found : List Poly) : Except PyErr Geometry :=
  match loadRhino found with
  | .error e => .error e
  | .ok [p] => .ok (mkGeometry ops p defaultMaterial none 12)
  | .ok _ => .error .runtimeError

/-- geometry.py 1915-1966: `CompoundGeometry.from_3dm`. -/
noncomputable def compoundFrom3dm (ops : GeomOps) (found : List Poly) : Except PyErr Compound :=
  match loadRhino found with
  | .error e => .error e
  | .ok ps => compoundOfPolys ops ps

/-- geometry.py 364-414: `from_rhino_encoding` takes the first polygon. -/
noncomputable def fromRhinoEncoding (ops : GeomOps) (found : List Poly) : Except PyErr Geometry :=
  match loadRhino found with
  | .error e => .error e
  | .ok [] => .error .indexError
  | .ok (p :: _) => .ok (mkGeometry ops p defaultMaterial none 12)

/-- geometry.py 2524-2528: the check of one object found in a `.dxf` file; `none` is an object that is not a `Polygon`. -/
def dxfPolygon : Option Poly → Except PyErr Poly
  | some p => .ok p
  | none => .error .runtimeError

/-- geometry.py 2505-2533: `load_dxf`, given whether the file exists and the objects that `cad_to_shapely` has found in it; `none` is an
object that is not a `Polygon`. -/
noncomputable def loadDxf (ops : GeomOps) (fileExists : Bool) (found : List (Option Poly)) : Except PyErr AnyGeometry :=
  if !fileExists then .error .valueError
  else if found.length = 0 then .error .runtimeError
  else
    match found.mapM dxfPolygon with
    | .error e => .error e
    | .ok [p] => .ok (.single (mkGeometry ops p defaultMaterial none 12))
    | .ok ps =>
      match compoundOfPolys ops ps with
      | .error e => .error e
      | .ok c => .ok (.compound c)

end SP
