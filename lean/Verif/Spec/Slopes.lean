import Verif.Spec.Library
import Mathlib.Analysis.SpecialFunctions.Trigonometric.Basic

/-!
# Specification vocabulary for sections with sloping faces
-/

namespace SP.Spec

/-- The outline of the geometry is the list of points, with coordinates rounded to 12 decimals. -/
def Drawn (g : Geometry) (L : List (ℝ × ℝ)) : Prop :=
  List.Forall₂ (fun p q => HalfUnit 12 p.1 q.1 ∧ HalfUnit 12 p.2 q.2) g.poly.exterior L

/-- The geometry has one hole, whose outline is the list of points, with coordinates rounded to 12 decimals. -/
def DrawnHole (g : Geometry) (L : List (ℝ × ℝ)) : Prop :=
  ∃ r, g.poly.interiors = [r] ∧ List.Forall₂ (fun p q => HalfUnit 12 p.1 q.1 ∧ HalfUnit 12 p.2 q.2) r L

/-- The line from `P` to `Q` is an edge of the outline. -/
def Edge (L : List (ℝ × ℝ)) (P Q : ℝ × ℝ) : Prop := (P, Q) ∈ closedEdges L

/-- The distance of `R` from the line through `P` and `Q`. -/
noncomputable def lineDist (P Q R : ℝ × ℝ) : ℝ :=
  |(Q.1 - P.1) * (R.2 - P.2) - (Q.2 - P.2) * (R.1 - P.1)| / √((Q.1 - P.1) ^ 2 + (Q.2 - P.2) ^ 2)

/-- A line through `P` in direction `u` touches the circle about `C` with radius `r` at `P`. -/
def Touches (C : ℝ × ℝ) (r : ℝ) (P u : ℝ × ℝ) : Prop :=
  (P.1 - C.1) ^ 2 + (P.2 - C.2) ^ 2 = r ^ 2 ∧ (P.1 - C.1) * u.1 + (P.2 - C.2) * u.2 = 0

/-- The outline is its own image under the map, up to the starting point and the sense. -/
def SymmetricUnder (f : ℝ × ℝ → ℝ × ℝ) (L : List (ℝ × ℝ)) : Prop := (L.map f).reverse ~r L

/-- The area between an angle at which the outline turns by `φ` and an arc of radius `r` in it that is replaced by the
polyline through `n` equally spaced points: the kite between the centre and the corner less the `n - 1` triangles between
the centre and the chords. -/
noncomputable def cornerArea (r φ : ℝ) (n : ℕ) : ℝ :=
  r ^ 2 * Real.tan (φ / 2) - (n - 1 : ℕ) * (1 / 2 * r ^ 2 * Real.sin (φ / (n - 1 : ℕ)))

/-- The area of a trapezium. -/
noncomputable def trapezium (a b h : ℝ) : ℝ := (a + b) / 2 * h

/-- The precast I girders of AS5100.5: widths of the top flange, the bottom flange and the web, and the heights of the
top flange, the upper splay, the web, the lower splay and the bottom flange, from the top down. -/
def precastI : List ((ℝ × ℝ × ℝ) × ℝ × ℝ × ℝ × ℝ × ℝ) :=
  [((200, 300, 120), 100, 40, 420, 90, 100),
   ((350, 450, 150), 100, 100, 450, 150, 100),
   ((450, 500, 150), 130, 150, 545, 175, 150),
   ((500, 650, 150), 150, 175, 650, 250, 175)]

/-- The Super-T girders of AS5100.5: depth below the underside of the flange, thickness of the bottom slab, thickness of
the webs. -/
def superT : List (ℝ × ℝ × ℝ) := [(675, 240, 100), (925, 240, 100), (1125, 260, 100), (1425, 260, 100), (1725, 325, 120)]

/-- Nominal width at the top of the webs, and slope of the top of the bottom slab (horizontal to vertical), before and
since 2001. -/
noncomputable def superTEra : List (ℝ × ℝ) := [(920, 5), (1027, 5.347)]

end SP.Spec
