import Verif.Model.Geometry
import Mathlib.Analysis.SpecialFunctions.Trigonometric.Basic
import Verif.Spec.Shapes

/-!
# Specification vocabulary for the section library

A bounding box is written `(x0, x1, y0, y1)`, like the result of `calculate_extents`.
-/

namespace SP.Spec

/-- The geometry is a polygon that fills the box and has area `A`, both up to what the rounding of the
vertices to 12 decimals can change. -/
def Documented (g : Geometry) (box : ℝ × ℝ × ℝ × ℝ) (A : ℝ) : Prop :=
  g.poly.exterior ≠ [] ∧
  HalfUnit 12 g.extents.1 box.1 ∧ HalfUnit 12 g.extents.2.1 box.2.1 ∧
  HalfUnit 12 g.extents.2.2.1 box.2.2.1 ∧ HalfUnit 12 g.extents.2.2.2 box.2.2.2 ∧
  |g.poly.area - A| ≤
    g.points.length * (|box.1| + |box.2.1| + |box.2.2.1| + |box.2.2.2| + 1) / (2 * 10 ^ 12)

/-- The geometry fills exactly the box and has exactly the area `A`. -/
def Exactly (g : Geometry) (box : ℝ × ℝ × ℝ × ℝ) (A : ℝ) : Prop :=
  g.poly.exterior ≠ [] ∧ g.extents = box ∧ g.poly.area = A

/-- All of the dimensions have at most 11 decimals. -/
def Short (l : List ℝ) : Prop := ∀ x ∈ l, OnGrid 11 x

/-- The geometry is as documented, and exactly so in the cases `exact`. -/
def Fits (g : Geometry) (box : ℝ × ℝ × ℝ × ℝ) (A : ℝ) (exact : Prop) : Prop :=
  Documented g box A ∧ (exact → Exactly g box A)

/-- The area that a fillet of radius `r` adds to an inner right-angled corner, or a rounding takes from an
outer one, if the quarter circle is replaced by the polyline through `n` equally spaced points: the square
of side `r` less the `n - 1` triangles between the centre and the chords. -/
noncomputable def fillet (r : ℝ) (n : ℕ) : ℝ :=
  r ^ 2 - (n - 1 : ℕ) * (1 / 2 * r ^ 2 * Real.sin (Real.pi / 2 / (n - 1 : ℕ)))

/-- The area of the regular polygon with `n` vertices that is inscribed in the ellipse with diameters
`dx` and `dy`, stretched from a circle. -/
noncomputable def inscribed (dx dy : ℝ) (n : ℕ) : ℝ := n * (1 / 2 * (dx / 2) * (dy / 2) * Real.sin (2 * Real.pi / n))

/-- The overlay operation cuts the inner rings out of the outer one. -/
def Cuts (ops : GeomOps) (outer : List (ℝ × ℝ)) (inners : List (List (ℝ × ℝ))) : Prop :=
  ops.punch outer inners = some ⟨outer, inners⟩

/-- The parts are layers of width `b` and thicknesses `ds` from the top down: the first has its top at
`y = 0`, and each further one has its top where the previous one has its bottom. -/
def Layered (b : ℝ) (ds : List ℝ) (parts : List Geometry) : Prop :=
  parts.length = ds.length ∧
  ∀ (i : ℕ) (g : Geometry), parts[i]? = some g →
    g.extents = (0, b, -(ds.take (i + 1)).sum, -(ds.take i).sum)

end SP.Spec
