import Verif.Spec.Mesh
import Mathlib.MeasureTheory.Integral.Bochner.Set
import Mathlib.MeasureTheory.Measure.Lebesgue.Basic
import Mathlib.MeasureTheory.Constructions.BorelSpace.Basic

/-!
# Specification vocabulary: regions covered by a mesh and material fields

Only the shape of the data is taken from the model.
-/

namespace SP.Spec

open MeasureTheory

/-- The plane region covered by a list of elements. -/
def region {n : ℕ} (els : List (Tri6 n)) : Set (ℝ × ℝ) :=
  {p | ∃ t ∈ els, p ∈ elemRegion t.coords}

/-- The elements overlap at most in sets of measure zero (edges and corners). -/
def NoOverlap {n : ℕ} (els : List (Tri6 n)) : Prop :=
  els.Pairwise fun a b => volume (elemRegion a.coords ∩ elemRegion b.coords) = 0

/-- `E p` is the value that `prop` has for the material at `p`, for almost every point `p` of the
region: a material field on the plane that the element materials sample. -/
def IsField {n : ℕ} (els : List (Tri6 n)) (prop : Material → ℝ) (E : ℝ × ℝ → ℝ) : Prop :=
  ∀ t ∈ els, ∀ᵐ p, p ∈ elemRegion t.coords → E p = prop t.material

end SP.Spec
