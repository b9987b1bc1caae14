import Verif.Spec.Poly
import Mathlib.MeasureTheory.Integral.Bochner.Set
import Mathlib.MeasureTheory.Measure.Lebesgue.Basic

/-!
# Specification vocabulary: quadrature rules

Nothing in this file refers to the model.  A rule is a list of rows
`(weight, first, second, third barycentric coordinate)`.
-/

namespace SP.Spec

open MeasureTheory

/-- A quadrature rule as a list of rows `(weight, eta, xi, zeta)`. -/
abbrev Rule := List (ℝ × ℝ × ℝ × ℝ)

/-- Value of the rule for `f` on the triangle `A B C`: area times weighted sum of the values of `f`
at the points with the given barycentric coordinates. -/
noncomputable def Rule.apply (r : Rule) (A B C : ℝ × ℝ) (f : ℝ × ℝ → ℝ) : ℝ :=
  |signedArea2 A B C| / 2 * (r.map fun g => g.1 * f (baryPoint A B C g.2.1 g.2.2.1 g.2.2.2)).sum

/-- The rule integrates every polynomial of degree at most `d` over every triangle exactly. -/
def Rule.ExactDegree (r : Rule) (d : ℕ) : Prop :=
  ∀ f ∈ PolyLE d, ∀ A B C : ℝ × ℝ, r.apply A B C f = ∫ p in triangle A B C, f p

/-- Every row is an interior barycentric point. -/
def Rule.Interior (r : Rule) : Prop :=
  ∀ g ∈ r, 0 < g.2.1 ∧ 0 < g.2.2.1 ∧ 0 < g.2.2.2 ∧ g.2.1 + g.2.2.1 + g.2.2.2 = 1

end SP.Spec
