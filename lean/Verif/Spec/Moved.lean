import Verif.Model.Analyses
import Verif.Spec.Rounding
import Verif.Spec.Transform

/-!
# Specification vocabulary: geometries that have been moved
-/

namespace SP.Spec

/-- `(x, y) ↦ (a x + b y + e, c x + d y + f)` keeps distances. -/
structure RigidMap (a b c d : ℝ) : Prop where
  first : a ^ 2 + c ^ 2 = 1
  second : b ^ 2 + d ^ 2 = 1
  square : a * b + c * d = 0

/-- The second list has the geometries of the first, each with the same material and all vertices mapped by `φ` and then rounded to `tol`
decimals. -/
def MovedGeometries (φ : ℝ × ℝ → ℝ × ℝ) (tol : ℕ) : List Geometry → List Geometry → Prop :=
  List.Forall₂ fun g g' => ∃ ops cp, g' = mkGeometry ops (g.poly.map φ) g.material cp tol

/-- All vertices lie in the disc with centre `o` and radius `h`. -/
def InDisc (o : ℝ × ℝ) (h : ℝ) (p : Poly) : Prop := ∀ r ∈ rings p, ∀ v ∈ r, (v.1 - o.1) ^ 2 + (v.2 - o.2) ^ 2 ≤ h ^ 2

/-- The weighted number of vertices of all geometries. -/
noncomputable def vertexWeight (geoms : List Geometry) (prop : Material → ℝ) : ℝ :=
  (geoms.map fun g => |prop g.material| * vertexCount g.poly).sum

/-- The bounds of the rounding of coordinates to `tol` decimals: of `E A`, of its first and of its second moments. -/
noncomputable def roundingBound (geoms : List Geometry) (tol : ℕ) (h : ℝ) (k : ℕ) : ℝ :=
  vertexWeight geoms Material.elasticModulus * h ^ k / 10 ^ tol

/-- The geometries are not so small that rounding to `tol` decimals could spoil them: they fit in a disc of radius `h` round the centroid, with
room for rounding, no ring can be turned inside out, and `E A` is more than its bound for rounding. -/
structure WellSized (geoms : List Geometry) (tol : ℕ) (h : ℝ) (r : GeomResults) : Prop where
  room : 1 / 2 / 10 ^ tol ≤ h
  disc : ∀ g ∈ geoms, InDisc (r.cx, r.cy) (h - 1 / 2 / 10 ^ tol) g.poly
  notTiny : ∀ g ∈ geoms, NotTiny tol h g.poly
  rigid : roundingBound geoms tol h 1 < r.sums.ea

/-- The results `r'` are those of the section with results `r`, moved by `(x, y) ↦ (a x + b y + e, c x + d y + f)`, up to rounding. -/
structure MovedResults (a b c d e f : ℝ) (geoms : List Geometry) (tol : ℕ) (h : ℝ) (r r' : GeomResults) : Prop where
  area : |r'.sums.area - r.sums.area| ≤ vertexWeight geoms (fun _ => 1) * h / 10 ^ tol
  mass : |r'.sums.mass - r.sums.mass| ≤ vertexWeight geoms Material.density * h / 10 ^ tol
  ea : |r'.sums.ea - r.sums.ea| ≤ roundingBound geoms tol h 1
  cx : |r'.cx - (a * r.cx + b * r.cy + e)| ≤ roundingBound geoms tol h 2 / (r.sums.ea - roundingBound geoms tol h 1)
  cy : |r'.cy - (c * r.cx + d * r.cy + f)| ≤ roundingBound geoms tol h 2 / (r.sums.ea - roundingBound geoms tol h 1)
  ixx : |r'.cent.ixxC - (d ^ 2 * r.cent.ixxC + c ^ 2 * r.cent.iyyC + 2 * c * d * r.cent.ixyC)|
    ≤ roundingBound geoms tol h 3 + roundingBound geoms tol h 2 ^ 2 / (r.sums.ea - roundingBound geoms tol h 1)
  iyy : |r'.cent.iyyC - (b ^ 2 * r.cent.ixxC + a ^ 2 * r.cent.iyyC + 2 * a * b * r.cent.ixyC)|
    ≤ roundingBound geoms tol h 3 + roundingBound geoms tol h 2 ^ 2 / (r.sums.ea - roundingBound geoms tol h 1)
  ixy : |r'.cent.ixyC - (b * d * r.cent.ixxC + a * c * r.cent.iyyC + (a * d + b * c) * r.cent.ixyC)|
    ≤ roundingBound geoms tol h 3 + roundingBound geoms tol h 2 ^ 2 / (r.sums.ea - roundingBound geoms tol h 1)

end SP.Spec
