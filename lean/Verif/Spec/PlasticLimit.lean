import Verif.Spec.Region
import Verif.Spec.Field

/-!
# Specification vocabulary: the largest moment within the yield strength

A section is described by regions with a yield strength each. Independent of the code's algorithm (equal-force axis).
-/

namespace SP.Spec

open MeasureTheory

/-- A meshed section as a list of regions with yield strengths. -/
def strengthParts {n : ℕ} (els : List (Tri6 n)) : List (Set (ℝ × ℝ) × ℝ) :=
  els.map fun t => (elemRegion t.coords, t.material.yieldStrength)

/-- A distribution of normal stress that exceeds the yield strength nowhere and has no resultant axial force. -/
structure Admissible (parts : List (Set (ℝ × ℝ) × ℝ)) (σ : Set (ℝ × ℝ) × ℝ → ℝ × ℝ → ℝ) : Prop where
  measurable : ∀ p ∈ parts, Measurable (σ p)
  yield : ∀ p ∈ parts, ∀ q ∈ p.1, |σ p q| ≤ p.2
  axial : (parts.map fun p => ∫ q in p.1, σ p q).sum = 0

/-- The moment of a stress distribution, with lever arm `u`. -/
noncomputable def momentOf (parts : List (Set (ℝ × ℝ) × ℝ)) (u : ℝ × ℝ → ℝ) (σ : Set (ℝ × ℝ) × ℝ → ℝ × ℝ → ℝ) : ℝ :=
  (parts.map fun p => ∫ q in p.1, σ p q * u q).sum

/-- `M` is the largest moment of all admissible stress distributions. -/
def IsLimitMoment (parts : List (Set (ℝ × ℝ) × ℝ)) (u : ℝ × ℝ → ℝ) (M : ℝ) : Prop :=
  IsGreatest {m | ∃ σ, Admissible parts σ ∧ m = momentOf parts u σ} M

/-- The axial force at which all of the section yields. -/
noncomputable def squashLoad (parts : List (Set (ℝ × ℝ) × ℝ)) : ℝ :=
  (parts.map fun p => p.2 * volume.real p.1).sum

end SP.Spec
