import Mathlib.Analysis.Complex.Norm

/-!
# Specification vocabulary: length of the closed polygon through given points
-/

namespace SP.Spec

/-- Distance of two points of the plane. -/
noncomputable def distance (p q : ℝ × ℝ) : ℝ := √((p.1 - q.1) ^ 2 + (p.2 - q.2) ^ 2)

/-- The length of the closed polygon with vertices `l`: each vertex is joined to the next one, the last one to the
first one. -/
noncomputable def closedLength (l : List (ℝ × ℝ)) : ℝ :=
  ∑ i ∈ Finset.range l.length, distance (l.getD i 0) (l.getD ((i + 1) % l.length) 0)

end SP.Spec
