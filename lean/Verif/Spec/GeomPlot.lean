import Verif.Model.GeomPlot
import Verif.Spec.Shapes
import Mathlib.Analysis.Convex.Segment

/-!
# What a plot of a geometry should show
-/

namespace SP.Spec

/-- The boundary of a list of rings: all points of all edges. -/
def boundary (rings : List (List (ℝ × ℝ))) : Set (ℝ × ℝ) :=
  {z | ∃ ring ∈ rings, ∃ e ∈ closedEdges ring, z ∈ segment ℝ e.1 e.2}

/-- The points that are covered by the lines of a plot. -/
def inked (p : GeomPlot) : Set (ℝ × ℝ) :=
  {z | ∃ a ∈ p.artists, a.marker = .outline ∧ ∃ u v, a.path = [u, v] ∧ z ∈ segment ℝ u v}

/-- The places where a marker is put. -/
def marked (p : GeomPlot) (m : Marker) : List (List (ℝ × ℝ)) := (p.artists.filter fun a => a.marker = m).map Artist.path

/-- The entries of the legend for a marker. -/
def legendOf (p : GeomPlot) (m : Marker) : List String := (p.artists.filter fun a => a.marker = m).filterMap Artist.label

/-- The text `i` in the given colour is at the `i`-th of a list of points. -/
def Numbers (pts : List (ℝ × ℝ)) (color : String) (n : Note) : Prop :=
  ∃ i : ℕ, pts[i]? = some (n.xy : ℝ × ℝ) ∧ n.text = toString i ∧ n.color = color

/-- The middle of an edge. -/
noncomputable def middle (e : (ℝ × ℝ) × (ℝ × ℝ)) : ℝ × ℝ := ((e.1.1 + e.2.1) / 2, (e.1.2 + e.2.2) / 2)

/-- A plot shows rings, holes and control points: it covers the boundary and nothing else, puts a cross at each hole and a dot at each
control point if wanted, has one entry in the legend for each kind of thing that there is, and writes the numbers of the things that were
asked for, and no others. -/
structure Shows (p : GeomPlot) (rings : List (List (ℝ × ℝ))) (points holes controlPoints : List (ℝ × ℝ)) (labels : List String)
    (cp legend : Bool) : Prop where
  lines : marked p .outline = (rings.flatMap closedEdges).map fun e => [e.1, e.2]
  ink : inked p = boundary rings
  crosses : marked p .hole = holes.map fun h => [h]
  dots : marked p .controlPoint = if cp then controlPoints.map fun c => [c] else []
  legend : p.legend = legend
  entryLines : legendOf p .outline = if rings.flatMap closedEdges = [] then [] else ["Points & Facets"]
  entryHoles : legendOf p .hole = if holes = [] then [] else ["Holes"]
  entryDots : legendOf p .controlPoint = if cp = true ∧ controlPoints ≠ [] then ["Control Points"] else []
  notes : ∀ n, n ∈ p.notes ↔
    ("control_points" ∈ labels ∧ Numbers controlPoints "b" n) ∨ ("points" ∈ labels ∧ Numbers points "r" n) ∨
    ("facets" ∈ labels ∧ Numbers ((rings.flatMap closedEdges).map middle) "b" n) ∨ ("holes" ∈ labels ∧ Numbers holes "r" n)

end SP.Spec
