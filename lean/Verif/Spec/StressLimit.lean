import Verif.Model.Fea
import Mathlib.MeasureTheory.Function.L2Space
import Mathlib.MeasureTheory.Measure.Lebesgue.Basic

/-!
# Specification for C100: plane stress fields compared in mean square
-/

namespace SP.Spec

open MeasureTheory

/-- A field of shear stresses `(τ_zx, τ_zy)` over a body, both square integrable. -/
def SquareInt (Ω : Set (ℝ × ℝ)) (τ : ℝ × ℝ → ℝ × ℝ) : Prop :=
  MemLp (fun p => (τ p).1) 2 (volume.restrict Ω) ∧ MemLp (fun p => (τ p).2) 2 (volume.restrict Ω)

/-- The square of the size of a field of shear stresses: the integral over the body of `τ_zx² + τ_zy²`. -/
noncomputable def sizeSq (Ω : Set (ℝ × ℝ)) (τ : ℝ × ℝ → ℝ × ℝ) : ℝ := ∫ p in Ω, (τ p).1 ^ 2 + (τ p).2 ^ 2

/-- The shear stresses of a torque and of two shear forces, from those of unit actions. -/
def superposed (a : Actions) (τM τx τy : ℝ × ℝ → ℝ × ℝ) (p : ℝ × ℝ) : ℝ × ℝ :=
  (a.mzz * (τM p).1 + (a.vx * (τx p).1 + a.vy * (τy p).1), a.mzz * (τM p).2 + (a.vx * (τx p).2 + a.vy * (τy p).2))

end SP.Spec
