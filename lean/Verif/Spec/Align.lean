import Verif.Model.Geometry
import Verif.Spec.Shapes

/-!
# Specification vocabulary for alignment and rigid motions

Only data types are taken from the model.
-/

namespace SP.Spec

/-- The coordinate of an edge of a box `(min_x, max_x, min_y, max_y)`. -/
def edge (e : ℝ × ℝ × ℝ × ℝ) : AlignSide → ℝ
  | .left => e.1
  | .right => e.2.1
  | .bottom => e.2.2.1
  | .top => e.2.2.2

/-- The opposite side. -/
def opposite : AlignSide → AlignSide
  | .left => .right
  | .right => .left
  | .bottom => .top
  | .top => .bottom

/-- The coordinate of a point that matters for a side. -/
def coordFor (p : ℝ × ℝ) : AlignSide → ℝ
  | .left => p.1
  | .right => p.1
  | .bottom => p.2
  | .top => p.2

/-- Sides at which a geometry is moved along the `y` axis. -/
def vertical : AlignSide → Bool
  | .left => false
  | .right => false
  | .bottom => true
  | .top => true

/-- The same rings, up to one unit of the last decimal in each coordinate of each vertex. -/
def SameRings (tol : ℕ) (a b : Poly) : Prop :=
  List.Forall₂ (List.Forall₂ (OneUnit tol)) (a.exterior :: a.interiors) (b.exterior :: b.interiors)

/-- The same geometry, up to one unit of the last decimal in the vertices. -/
def Same (g h : Geometry) : Prop :=
  g.tol = h.tol ∧ SameRings g.tol g.poly h.poly ∧ g.facets = h.facets ∧ g.assigned = h.assigned ∧
    g.material = h.material

end SP.Spec
