import Verif.Spec.Stress
import Verif.Spec.Beam

/-!
# Specification vocabulary: bending moments and stresses by axis
-/

namespace SP.Spec

/-- The bending moment about an axis among the actions. -/
def momentAmong (a : Actions) : Axis → ℝ
  | .xx => a.mxx
  | .yy => a.myy
  | .a11 => a.m11
  | .a22 => a.m22

/-- The stress component due to the moment about an axis. -/
def bendingOf (c : StressComp) : Axis → ℝ
  | .xx => c.zzMxx
  | .yy => c.zzMyy
  | .a11 => c.zzM11
  | .a22 => c.zzM22

/-- The load case of a bending moment about one axis alone. -/
def bendingAbout (M : ℝ) : Axis → Actions
  | .xx => ⟨0, M, 0, 0, 0, 0, 0, 0⟩
  | .yy => ⟨0, 0, M, 0, 0, 0, 0, 0⟩
  | .a11 => ⟨0, 0, 0, M, 0, 0, 0, 0⟩
  | .a22 => ⟨0, 0, 0, 0, M, 0, 0, 0⟩

end SP.Spec
