import Verif.Model.Walls
import Verif.Model.Recovery

/-!
# `nastran_hat1`
-/

namespace SP

/-- nastran_sections.py 942-966. -/
noncomputable def nastranHat1 (ops : GeomOps) (d1 d2 d3 d4 d5 : ℝ) (m : Material) : Except PyErr Compound :=
  if ¬ 2 * d4 + d5 < d2 ∨ ¬ d3 < d1 then .error .valueError
  else
    let bottomPlate := (nastranBar ops d1 d5 m).shift ops 0 (d5 / 2)
    match nastranHat ops (d2 - d5) d4 d3 (1 / 2 * (d1 - d3)) m with
    | .error e => .error e
    | .ok hat =>
      (Shape.single ((hat.alignCenterTo ops bottomPlate).alignTo ops (.geom bottomPlate.extents) .top false)).add ops
        (.single bottomPlate)

/-- nastran_sections.py 968-973. -/
noncomputable def recoveryHat1 (d1 d2 d3 : ℝ) : List Pt :=
  [(-1 / 2 * d1, 0), (1 / 2 * d1, 0), (-1 / 2 * d3, d2), (1 / 2 * d3, d2)]

end SP
