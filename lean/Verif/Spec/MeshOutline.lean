import Verif.Spec.OutlinePoly
import Mathlib.Analysis.Convex.Segment

/-!
# Specification vocabulary: meshes that are bounded by an outline

A statement about which points the edges of the triangles join, which can be checked on a finished mesh.
-/

namespace SP.Spec

/-- A list of directed edges that leads straight from `a` to `b`. -/
inductive StraightPath : ℝ × ℝ → ℝ × ℝ → List ((ℝ × ℝ) × (ℝ × ℝ)) → Prop
  | edge (a b) : StraightPath a b [(a, b)]
  | split {a b c l l'} : c ∈ segment ℝ a b → StraightPath a c l → StraightPath c b l' → StraightPath a b (l ++ l')

/-- The edges of an element, counter-clockwise. -/
def elemEdges (c : Coords) : List ((ℝ × ℝ) × (ℝ × ℝ)) := [(cornerA c, cornerB c), (cornerB c, cornerC c), (cornerC c, cornerA c)]

/-- The edges of the elements are those of the outline, possibly divided, and inner edges, which two elements share and go along in
opposite directions. -/
def BoundedBy {n : ℕ} (els : List (Tri6 n)) (outline : List ((ℝ × ℝ) × (ℝ × ℝ))) : Prop :=
  ∃ (parts : List (List ((ℝ × ℝ) × (ℝ × ℝ)))) (inner : List ((ℝ × ℝ) × (ℝ × ℝ))),
    List.Forall₂ (fun e l => StraightPath e.1 e.2 l) outline parts ∧
    (els.flatMap fun t => elemEdges t.coords).Perm (parts.flatten ++ inner ++ inner.map Prod.swap)

/-- The edges of a ring, counter-clockwise or clockwise. -/
noncomputable def ringCCW (ring : List (ℝ × ℝ)) : List ((ℝ × ℝ) × (ℝ × ℝ)) :=
  open Classical in
  if 0 < outlineArea (closedEdges ring) then closedEdges ring else (closedEdges ring).map Prod.swap

noncomputable def ringCW (ring : List (ℝ × ℝ)) : List ((ℝ × ℝ) × (ℝ × ℝ)) := (ringCCW ring).map Prod.swap

/-- The outline of a polygon: the outer ring counter-clockwise, the inner rings clockwise. -/
noncomputable def polyOutline (p : Poly) : List ((ℝ × ℝ) × (ℝ × ℝ)) := ringCCW p.exterior ++ p.interiors.flatMap ringCW

end SP.Spec
