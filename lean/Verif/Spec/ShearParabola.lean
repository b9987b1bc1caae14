import Mathlib.Data.Real.Basic

/-!
# Specification for C102: the parabola of shear stresses in a rectangle
-/

namespace SP.Spec

/-- The shear stress of a unit shear force over the depth `h` of a rectangle with the area `A`, where `m` is the middle of the depth: zero at
the faces, and `3 / (2 A)` in the middle. -/
noncomputable def rectShear (A h m y : ℝ) : ℝ := 3 / (2 * A) * (1 - (2 * (y - m) / h) ^ 2)

end SP.Spec
