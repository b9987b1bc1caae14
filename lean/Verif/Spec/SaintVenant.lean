import Verif.Spec.StressLimit
import Verif.Spec.Fem
import Mathlib.Analysis.Calculus.ContDiff.Basic

/-!
# Specification for C101: Saint-Venant's theory of torsion and flexure

Shear stresses `τ = (τ_zx, τ_zy)` over a cross-section `R` with the modulus `E`, in coordinates from the centroid `c`.  Equilibrium, with
free lateral surfaces, is stated in weak form (virtual work): it needs no smoothness of the stresses and no normal of the boundary.
-/

namespace SP.Spec

open MeasureTheory Set

/-- A displacement along the axis of the beam: Lipschitz continuous along segments in `R`, so without jumps, and differentiable almost
everywhere. -/
structure Displacement (R : Set (ℝ × ℝ)) (w : ℝ × ℝ → ℝ) : Prop where
  lipschitz : ∃ G, ∀ a b : ℝ × ℝ, (∀ z ∈ Icc (0 : ℝ) 1, a + z • (b - a) ∈ R) → |w b - w a| ≤ G * (|b.1 - a.1| + |b.2 - a.2|)
  differentiable : ∀ᵐ p, p ∈ R → DifferentiableAt ℝ w p

/-- A field is the gradient of a displacement: it is the limit of such gradients in mean square. -/
def Compatible (R : Set (ℝ × ℝ)) (g : ℝ × ℝ → ℝ × ℝ) : Prop :=
  ∀ ε > 0, ∃ w, Displacement R w ∧ SquareInt R (fun p => (dX w p, dY w p) - g p) ∧ sizeSq R (fun p => (dX w p, dY w p) - g p) ≤ ε

/-- The stresses of a unit torque with the rate of twist `θ` (times the ratio of the moduli): no axial force on any fibre, the torque, and
shear strains that come from twist and a warping displacement. -/
structure SaintVenantTorsion (R : Set (ℝ × ℝ)) (E : ℝ × ℝ → ℝ) (c : ℝ × ℝ) (θ : ℝ) (τ : ℝ × ℝ → ℝ × ℝ) : Prop where
  equilibrium : ∀ v, Displacement R v → ∫ p in R, (τ p).1 * dX v p + (τ p).2 * dY v p = 0
  torque : ∫ p in R, (p.1 - c.1) * (τ p).2 - (p.2 - c.2) * (τ p).1 = 1
  compatible : Compatible R fun p => ((τ p).1 / E p + θ * (p.2 - c.2), (τ p).2 / E p - θ * (p.1 - c.1))

/-- The stresses of the shear force `V`, which makes the bending strains grow along the axis at the rate `a x + b y`: equilibrium with the
growing bending stresses, the resultant, and shear strains `2 (1 + ν) τ / E` that come from a warping displacement and from the anticlastic
curvature due to Poisson's ratio `ν`. -/
structure SaintVenantFlexure (R : Set (ℝ × ℝ)) (E : ℝ × ℝ → ℝ) (c : ℝ × ℝ) (ν a b : ℝ) (V : ℝ × ℝ) (τ : ℝ × ℝ → ℝ × ℝ) : Prop where
  equilibrium : ∀ v, Displacement R v →
    ∫ p in R, (τ p).1 * dX v p + (τ p).2 * dY v p = ∫ p in R, E p * (a * (p.1 - c.1) + b * (p.2 - c.2)) * v p
  resultant : (∫ p in R, (τ p).1) = V.1 ∧ (∫ p in R, (τ p).2) = V.2
  compatible : Compatible R fun p =>
    (2 * (1 + ν) * (τ p).1 / E p + ν / 2 * (a * ((p.1 - c.1) ^ 2 - (p.2 - c.2) ^ 2) + 2 * b * ((p.1 - c.1) * (p.2 - c.2))),
      2 * (1 + ν) * (τ p).2 / E p + ν / 2 * (2 * a * ((p.1 - c.1) * (p.2 - c.2)) - b * ((p.1 - c.1) ^ 2 - (p.2 - c.2) ^ 2)))

end SP.Spec
