import Verif.Spec.Fem
import Verif.Spec.Field
import Mathlib.Analysis.Calculus.ContDiff.Basic

/-!
# Specification vocabulary: stress functions for torsion (Prandtl)
-/

namespace SP.Spec

open MeasureTheory

/-- A stress function of the region: a smooth hill over the plane that is level outside the material.  It is zero far away,
and may have any height over a hole. -/
structure StressFunction {n : ℕ} (els : List (Tri6 n)) (ψ : ℝ × ℝ → ℝ) : Prop where
  smooth : ContDiff ℝ 2 ψ
  compact : HasCompactSupport ψ
  level : ∀ p ∉ region els, dX ψ p = 0 ∧ dY ψ p = 0

/-- The integral over the section of the squared slope of a hill, divided by the modulus. -/
noncomputable def slopeEnergy {n : ℕ} (els : List (Tri6 n)) (ψ : ℝ × ℝ → ℝ) : ℝ :=
  (els.map fun t => 1 / t.material.elasticModulus * ∫ p in elemRegion t.coords, dX ψ p ^ 2 + dY ψ p ^ 2).sum

end SP.Spec
