import Verif.Spec.Fem

/-!
# Twist about an axis through a given point
-/

namespace SP.Spec

/-- The axial displacement per unit twist of a bar twisted about the axis through `P`, when it is `q` for the axis through the origin: up
to the constant `k` it is the one with the same shear strains (`C107_same_strains`). -/
def twistWarp {n : ℕ} (q : Tri6 n → ℝ × ℝ → ℝ) (P : ℝ × ℝ) (k : ℝ) (t : Tri6 n) (p : ℝ × ℝ) : ℝ :=
  q t p - P.2 * p.1 + P.1 * p.2 + k

/-- The axial stresses `E u` have neither axial force nor bending moments. -/
def NoAction {n : ℕ} (els : List (Tri6 n)) (u : Tri6 n → ℝ × ℝ → ℝ) : Prop :=
  wInt els u = 0 ∧ wInt els (fun t p => p.1 * u t p) = 0 ∧ wInt els (fun t p => p.2 * u t p) = 0

end SP.Spec
