import Verif.Spec.ShearParabola
import Mathlib.MeasureTheory.Integral.IntervalIntegral.Basic

/-!
# Specification for C104: the shear stresses of a layered rectangle

A rectangle of the width `b` between the heights `y0` and `y1`; the modulus at the height `y` is `e y`.
-/

namespace SP.Spec

open MeasureTheory

/-- The height of the neutral axis. -/
noncomputable def layerAxis (e : ℝ → ℝ) (y0 y1 : ℝ) : ℝ := (∫ η in y0..y1, e η * η) / ∫ η in y0..y1, e η

/-- The formula `V S / (I b)` of beam theory for a unit force across the layers: `S` is the weighted first moment of the part above the
height `y` and `I` the weighted second moment, both about the neutral axis. -/
noncomputable def acrossShear (e : ℝ → ℝ) (y0 y1 b y : ℝ) : ℝ :=
  (∫ η in y..y1, b * (e η * (η - layerAxis e y0 y1))) / ((∫ η in y0..y1, b * (e η * (η - layerAxis e y0 y1) ^ 2)) * b)

/-- The stress of a unit force along the layers: each layer takes its share `e` of the force, with the parabola of beam theory about
`x = xm` over the width. -/
noncomputable def alongShear (e : ℝ → ℝ) (y0 y1 b xm : ℝ) (p : ℝ × ℝ) : ℝ := e p.2 / (∫ η in y0..y1, e η) * rectShear b b xm p.1

end SP.Spec
