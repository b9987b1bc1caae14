import Verif.Spec.Field

/-!
# Specification vocabulary: sections symmetric about a vertical axis, slice by slice
-/

namespace SP.Spec

open MeasureTheory

/-- The points at heights between `y0` and `y1`, less than `h y` to the left or right of the axis `x = xm`. -/
def sliced (xm y0 y1 : ℝ) (h : ℝ → ℝ) : Set (ℝ × ℝ) := {p | (y0 < p.2 ∧ p.2 < y1) ∧ |p.1 - xm| < h p.2}

/-- The function has values between `lo > 0` and `hi` and jumps at no more than countably many places. -/
structure Tame (f : ℝ → ℝ) (lo hi : ℝ) : Prop where
  pos : 0 < lo
  low : ∀ y, lo ≤ f y
  high : ∀ y, f y ≤ hi
  measurable : Measurable f
  jumps : ∃ N : Set ℝ, N.Countable ∧ ∀ y ∉ N, ContinuousAt f y

/-- The section is symmetric about `x = xm`: at the height `y` it reaches from `xm - h y` to `xm + h y`, and its modulus is
`e y`. -/
structure Slices {n : ℕ} (els : List (Tri6 n)) (xm y0 y1 : ℝ) (h e : ℝ → ℝ) : Prop where
  order : y0 < y1
  covers : region els =ᵐ[volume] sliced xm y0 y1 h
  modulus : IsField els Material.elasticModulus fun p => e p.2

end SP.Spec
