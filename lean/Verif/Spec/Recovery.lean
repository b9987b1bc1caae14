import Mathlib.Analysis.Convex.Segment
import Verif.Spec.Slopes

/-!
# Specification of stress recovery points
-/

namespace SP.Spec

/-- `q` lies on the outline `L`: on the straight line from one vertex to the next. -/
def OnOutline (L : List (ℝ × ℝ)) (q : ℝ × ℝ) : Prop := ∃ P Q, Edge L P Q ∧ q ∈ segment ℝ P Q

/-- There are four points, and moved by `v` they lie on the outline. -/
def Recovers (L : List (ℝ × ℝ)) (v : ℝ × ℝ) (pts : List (ℝ × ℝ)) : Prop :=
  pts.length = 4 ∧ ∀ p ∈ pts, OnOutline L (p.1 + v.1, p.2 + v.2)

/-- `p` lies outside the bounding box of the geometry, so it is not a point of the section. -/
def Outside (g : Geometry) (p : ℝ × ℝ) : Prop :=
  p.1 < g.extents.1 ∨ g.extents.2.1 < p.1 ∨ p.2 < g.extents.2.2.1 ∨ g.extents.2.2.2 < p.2

/-- The vertices of a hat of height `h` and thickness `t`, with a top flange of width `w`, in all `b` wide, whose bottom centre is at
height `y`. -/
noncomputable def hatAt (b h w t y : ℝ) : List (ℝ × ℝ) :=
  [(-b / 2, y), (-w / 2 + t, y), (-w / 2 + t, y + h - t), (w / 2 - t, y + h - t), (w / 2 - t, y), (b / 2, y), (b / 2, y + t),
   (w / 2, y + t), (w / 2, y + h), (-w / 2, y + h), (-w / 2, y + t), (-b / 2, y + t)]

end SP.Spec
