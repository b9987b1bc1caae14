import Verif.Spec.Fem
import Verif.Spec.Field
import Mathlib.Analysis.Calculus.Deriv.Basic

/-!
# Specification vocabulary: shear stresses in equilibrium with the bending stresses
-/

namespace SP.Spec

open MeasureTheory

/-- Along almost every line in the direction of `x`, the function `f` is continuous and `f'` is its derivative, except at
countably many points. -/
def AlongX (f f' : ℝ × ℝ → ℝ) : Prop :=
  ∀ᵐ y : ℝ, Continuous (fun x => f (x, y)) ∧ ∃ N : Set ℝ, N.Countable ∧ ∀ x ∉ N, HasDerivAt (fun x => f (x, y)) (f' (x, y)) x

/-- The same along the lines in the direction of `y`. -/
def AlongY (f f' : ℝ × ℝ → ℝ) : Prop :=
  ∀ᵐ x : ℝ, Continuous (fun y => f (x, y)) ∧ ∃ N : Set ℝ, N.Countable ∧ ∀ y ∉ N, HasDerivAt (fun y => f (x, y)) (f' (x, y)) y

/-- The shear stresses `(fx, fy)` are zero outside the section and in equilibrium with axial strains that change at the rate
`g` along the member: `∂fx/∂x + ∂fy/∂y + E g = 0`.  The stresses may jump along a line, but not across it.  (No stress passes
through the surface: the normal component is zero outside and does not jump.) -/
structure ShearFlow {n : ℕ} (els : List (Tri6 n)) (g fx fy : ℝ × ℝ → ℝ) : Prop where
  outside : ∀ p ∉ region els, fx p = 0 ∧ fy p = 0
  measurable : Measurable fx ∧ Measurable fy
  bounded : ∃ M, ∀ p, |fx p| ≤ M ∧ |fy p| ≤ M
  balance : ∃ dx dy : ℝ × ℝ → ℝ, IntegrableOn dx (region els) ∧ IntegrableOn dy (region els) ∧ AlongX fx dx ∧ AlongY fy dy ∧
    ∀ t ∈ els, ∀ᵐ p, p ∈ elemRegion t.coords → dx p + dy p + t.material.elasticModulus * g p = 0

/-- The integral over the section of the squared stress, divided by the modulus. -/
noncomputable def flowEnergy {n : ℕ} (els : List (Tri6 n)) (fx fy : ℝ × ℝ → ℝ) : ℝ :=
  (els.map fun t => 1 / t.material.elasticModulus * ∫ p in elemRegion t.coords, fx p ^ 2 + fy p ^ 2).sum

/-- The rate of change along the member of the axial strain at `p`, under the shear force `(vx, vy)`, for a section with
centroid `(cx, cy)` and second moments `ixx`, `iyy` and `ixy` about it: the bending moments grow by `vx` and `vy` per unit of
length. -/
noncomputable def strainRate (cx cy ixx iyy ixy vx vy : ℝ) (p : ℝ × ℝ) : ℝ :=
  ((ixx * (p.1 - cx) - ixy * (p.2 - cy)) * vx + (iyy * (p.2 - cy) - ixy * (p.1 - cx)) * vy) / (ixx * iyy - ixy ^ 2)

end SP.Spec
