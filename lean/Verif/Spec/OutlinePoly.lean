import Verif.Spec.Outline
import Verif.Model.Geometry

/-!
# Specification vocabulary: the points of a polygon with holes

Only the data type `Poly` (an outer ring and inner rings of vertices) is taken from the model.
-/

namespace SP.Spec

open MeasureTheory

/-- The ring goes round no point twice, and round all points in the same sense. -/
def SimpleRing (ring : List (ℝ × ℝ)) : Prop :=
  ∃ σ : ℤ, ∀ᵐ p, winding (closedEdges ring) p = 0 ∨ (winding (closedEdges ring) p = σ ∧ |σ| = 1)

/-- The points of a polygon: those within the outer ring that are in no inner ring. -/
def polyRegion (p : Poly) : Set (ℝ × ℝ) :=
  {q | winding (closedEdges p.exterior) q ≠ 0 ∧ ∀ r ∈ p.interiors, winding (closedEdges r) q = 0}

/-- A valid polygon: simple rings, and inner rings that lie within the outer one and do not overlap. -/
structure ValidPoly (p : Poly) : Prop where
  exterior : SimpleRing p.exterior
  interiors : ∀ r ∈ p.interiors, SimpleRing r
  within : ∀ᵐ q, (∃ r ∈ p.interiors, winding (closedEdges r) q ≠ 0) → winding (closedEdges p.exterior) q ≠ 0
  apart : p.interiors.Pairwise fun r r' => ∀ᵐ q, winding (closedEdges r) q = 0 ∨ winding (closedEdges r') q = 0

/-- The mesh fills the polygons of the geometries, with their materials; the polygons do not overlap. -/
structure Meshes {n : ℕ} (els : List (Tri6 n)) (geoms : List Geometry) : Prop where
  valid : ∀ g ∈ geoms, ValidPoly g.poly
  apart : geoms.Pairwise fun g h => volume (polyRegion g.poly ∩ polyRegion h.poly) = 0
  covers : region els =ᵐ[volume] {q | ∃ g ∈ geoms, q ∈ polyRegion g.poly}
  material : ∀ t ∈ els, ∀ g ∈ geoms, ∀ᵐ q, q ∈ elemRegion t.coords → q ∈ polyRegion g.poly → t.material = g.material

end SP.Spec
