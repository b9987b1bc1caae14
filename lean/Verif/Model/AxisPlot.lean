import Mathlib.Analysis.SpecialFunctions.Trigonometric.Basic
import Verif.Model.Basic

/-!
# Drawing the principal axes

Only the end points of the drawn lines are modelled, not matplotlib.  `argsort` is the sort of numpy, given as a function
on the list of points.
-/

namespace SP

/-- post.py 449-470: `add_point`. -/
noncomputable def addPoint (vec : List (ℝ × ℝ)) (basis centroid : ℝ × ℝ) (num denom : ℝ) : List (ℝ × ℝ) :=
  open Classical in
  if denom ≠ 0 then vec ++ [(basis.1 * num / denom + centroid.1, basis.2 * num / denom + centroid.2)] else vec

/-- post.py 472-529: `get_principal_points`; `lims = (xmin, xmax, ymin, ymax)`. -/
noncomputable def principalPoints (argsort : List (ℝ × ℝ) → List (ℝ × ℝ)) (basis : ℝ × ℝ) (lims : ℝ × ℝ × ℝ × ℝ)
    (centroid : ℝ × ℝ) : List (ℝ × ℝ) :=
  let pts := addPoint [] basis centroid (lims.1 - centroid.1) basis.1
  let pts := addPoint pts basis centroid (lims.2.1 - centroid.1) basis.1
  let pts := addPoint pts basis centroid (lims.2.2.1 - centroid.2) basis.2
  let pts := addPoint pts basis centroid (lims.2.2.2 - centroid.2) basis.2
  let s := argsort pts
  if s.length = 4 then (s.drop 1).take 2 else s

/-- post.py 423-447, 531-545: `draw_principal_axis`, the points of the 11-axis and of the 22-axis. -/
noncomputable def principalAxes (argsort : List (ℝ × ℝ) → List (ℝ × ℝ)) (φ : ℝ) (lims : ℝ × ℝ × ℝ × ℝ) (c : ℝ × ℝ) :
    List (ℝ × ℝ) × List (ℝ × ℝ) :=
  (principalPoints argsort (Real.cos φ, Real.sin φ) lims c, principalPoints argsort (-Real.sin φ, Real.cos φ) lims c)

end SP
