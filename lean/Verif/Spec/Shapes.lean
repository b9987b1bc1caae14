import Mathlib.Data.Real.Basic
import Mathlib.Data.List.Basic
import Mathlib.Algebra.BigOperators.Group.List.Basic

/-!
# Specification vocabulary for vertex lists, decimal grids, rings and alignment

Independent of the model.
-/

namespace SP.Spec

/-- `x` has at most `tol` decimals. -/
def OnGrid (tol : ℕ) (x : ℝ) : Prop := ∃ k : ℤ, x = k / 10 ^ tol

/-- `x` lies exactly half way between two numbers of `tol` decimals. -/
def Tie (tol : ℕ) (x : ℝ) : Prop := ∃ k : ℤ, x = (k + 1 / 2) / 10 ^ tol

/-- `x` and `y` differ by at most half a unit of the last decimal. -/
def HalfUnit (tol : ℕ) (x y : ℝ) : Prop := |x - y| ≤ 1 / 2 / 10 ^ tol

/-- `p` and `q` differ by at most one unit of the last decimal in each coordinate. -/
def OneUnit (tol : ℕ) (p q : ℝ × ℝ) : Prop := |p.1 - q.1| ≤ 1 / 10 ^ tol ∧ |p.2 - q.2| ≤ 1 / 10 ^ tol

/-- Two of the vertices are more than three units of the last decimal apart. -/
def Spread (tol : ℕ) (ring : List (ℝ × ℝ)) : Prop :=
  ∃ p ∈ ring, ∃ q ∈ ring, (3 / 10 ^ tol) ^ 2 < (p.1 - q.1) ^ 2 + (p.2 - q.2) ^ 2

/-- The edges of a ring: from each vertex to the next, and from the last to the first. -/
def closedEdges (ring : List (ℝ × ℝ)) : List ((ℝ × ℝ) × (ℝ × ℝ)) := ring.zip (ring.rotate 1)

/-- The cycle `s → s+1 → … → s+n-1 → s`. -/
def cycle (s n : ℕ) : List (ℕ × ℕ) := (List.range n).map fun i => (s + i, s + (i + 1) % n)

/-- Number of vertices of the rings before ring `k`. -/
def ringStart (rings : List (List (ℝ × ℝ))) (k : ℕ) : ℕ := ((rings.take k).map List.length).sum

/-- The segments described by facets over a list of points; facets with an index that is out of range
describe none. -/
def segmentsOf (points : List (ℝ × ℝ)) (facets : List (ℕ × ℕ)) : List ((ℝ × ℝ) × (ℝ × ℝ)) :=
  facets.filterMap fun f =>
    match points[f.1]?, points[f.2]? with
    | some a, some b => some (a, b)
    | _, _ => none

end SP.Spec
