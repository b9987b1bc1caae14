import Verif.Spec.OutlinePoly

/-!
# Specification vocabulary: polygons as drawn, before their vertices are rounded
-/

namespace SP.Spec

open MeasureTheory

/-- All rings of a polygon. -/
def rings (p : Poly) : List (List (ℝ × ℝ)) := p.exterior :: p.interiors

/-- The number of vertices of a polygon. -/
def vertexCount (p : Poly) : ℕ := ((rings p).map List.length).sum

/-- All vertices lie in the square with centre `c` and sides of length `2 h`. -/
def InSquare (c : ℝ × ℝ) (h : ℝ) (p : Poly) : Prop := ∀ r ∈ rings p, ∀ v ∈ r, |v.1 - c.1| ≤ h ∧ |v.2 - c.2| ≤ h

/-- No ring is so small or so narrow that rounding to `tol` decimals could turn it inside out: its area is more than its number of
vertices times half the side of the square times a unit of the last decimal. -/
def NotTiny (tol : ℕ) (h : ℝ) (p : Poly) : Prop := ∀ r ∈ rings p, r.length * h / 10 ^ tol < |outlineArea (closedEdges r)|

/-- The integral of `f`, weighted with a property of the material, over the polygons. -/
noncomputable def drawn (parts : List (Poly × Geometry)) (prop : Material → ℝ) (f : ℝ × ℝ → ℝ) : ℝ :=
  (parts.map fun x => prop x.2.material * ∫ q in polyRegion x.1, f q).sum

/-- The weighted number of vertices of all polygons. -/
noncomputable def weightedCount (parts : List (Poly × Geometry)) (prop : Material → ℝ) : ℝ :=
  (parts.map fun x => |prop x.2.material| * vertexCount x.1).sum

end SP.Spec
