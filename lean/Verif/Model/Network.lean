import Mathlib.Data.List.Basic
import Mathlib.Data.Finset.Basic

/-!
# Model of the connectivity check of `pre/geometry.py`

Polygons are numbered `0 … n-1`; `touch i j` says that the intersection of polygon `i` with polygon `j`
is not empty (shapely).
-/

namespace SP

/-- geometry.py 2856-2883: `build_geometry_network`: the neighbours of each polygon.  With fewer than two
polygons the inner `if` is never reached, and the dictionary stays empty. -/
def networkKeys (n : ℕ) : List ℕ := (List.range n).filter fun i => (List.range n).any (· != i)

/-- The set `network.get(node, set())`, in the order in which it is traversed.  (geometry.py 2839, 2876.) -/
def networkGet (n : ℕ) (touch : ℕ → ℕ → Bool) (node : ℕ) : List ℕ :=
  if node < n then (List.range n).filter fun j => j != node && touch node j else []

/-- The loop over `connections` of `walk_network` (geometry.py 2824-2847), `rec` being the recursive
call; `none` if the recursion is too deep. -/
def walkLoop (rec : ℕ → List ℕ → Option (List ℕ)) : List ℕ → List ℕ → Option (List ℕ)
  | [], visited => some visited
  | c :: cs, visited =>
    if c ∈ visited then walkLoop rec cs visited
    else
      match rec c (visited ++ [c]) with
      | none => none
      | some v => walkLoop rec cs v

/-- geometry.py 2824-2847: `walk_network`, with a bound on the recursion depth (Python's recursion limit).
`nodes_visited` is modified in place.  `order` is the (unspecified) order in which the set of connections
of a node is traversed. -/
def walkNetwork (order : ℕ → List ℕ) : ℕ → ℕ → List ℕ → Option (List ℕ)
  | 0, _, _ => none
  | limit + 1, node, visited => walkLoop (walkNetwork order limit) (order node) visited

/-- geometry.py 2810-2853: `check_geometry_disjoint` for `n` polygons. -/
def checkDisjoint (order : ℕ → List ℕ) (limit n : ℕ) : Option Bool :=
  match walkNetwork order limit 0 [0] with
  | none => none
  | some visited => some (decide (visited.toFinset ≠ (networkKeys n).toFinset))

end SP
