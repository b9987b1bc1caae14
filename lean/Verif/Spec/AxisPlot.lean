import Mathlib.Analysis.Convex.Segment
import Mathlib.Analysis.SpecialFunctions.Trigonometric.Basic

/-!
# Specification of the drawn principal axes
-/

namespace SP.Spec

/-- The points of the line through `c` in the direction of the angle `φ` within the limits `(xmin, xmax, ymin, ymax)`. -/
def AxisWithin (φ : ℝ) (lims : ℝ × ℝ × ℝ × ℝ) (c : ℝ × ℝ) : Set (ℝ × ℝ) :=
  {p | (lims.1 ≤ p.1 ∧ p.1 ≤ lims.2.1 ∧ lims.2.2.1 ≤ p.2 ∧ p.2 ≤ lims.2.2.2) ∧
    ∃ t : ℝ, p = (c.1 + t * Real.cos φ, c.2 + t * Real.sin φ)}

/-- The function sorts points by their first coordinate; the order of points with equal ones is left open. -/
def SortsByX (sort : List (ℝ × ℝ) → List (ℝ × ℝ)) : Prop :=
  ∀ l, (sort l).Perm l ∧ (sort l).Pairwise fun p q => p.1 ≤ q.1

end SP.Spec
