import Verif.Spec.AddBars
import Verif.Spec.Concrete
import Mathlib.Analysis.Convex.Hull

/-!
# Specification vocabulary for concrete outlines

The regions themselves (`channelOf`, `teeOf`, `boxOf`, `withDoor`, ...) are those of `Verif.Spec.Concrete`, in which the bars
have the documented cover.
-/

namespace SP.Spec

open MeasureTheory

/-- The polygons of the kind `K`, which shapely subtracts exactly, are regions with convex outline, and all rectangles whose
vertices have no more than 12 decimals are of this kind. -/
structure ConvexKind (K : Poly → Prop) (reg : Poly → Set (ℝ × ℝ)) : Prop where
  convex : ∀ p, K p → reg p = convexHull ℝ {v | v ∈ p.exterior}
  boxes : ∀ x₀ y₀ x₁ y₁ : ℝ, OnGrid 12 x₀ → OnGrid 12 y₀ → OnGrid 12 x₁ → OnGrid 12 y₁ → x₀ ≠ x₁ → y₀ ≠ y₁ →
    K ⟨[(x₀, y₀), (x₁, y₀), (x₁, y₁), (x₀, y₁)], []⟩

/-- What is expected of a finished wall with the outline `R` and bars at the positions `ps`: it is built without an error, the bars
are at these positions, concrete and steel are where they should be, and, unless two bars overlap, nothing is counted twice. -/
def WallIs (reg : Poly → Set (ℝ × ℝ)) (conc steel : Material) (R : Set (ℝ × ℝ)) (n : ℕ) (area : ℝ) (ps : List (ℝ × ℝ))
    (res : Except PyErr Shape) : Prop :=
  ∃ r bars, res = .ok r ∧ List.Forall₂ (fun p g => IsBar 1 steel n area p.1 p.2 g) ps bars ∧ ConcreteWith reg conc steel R bars r ∧
    (bars.Pairwise (fun g h => volume (reg g.poly ∩ reg h.poly) = 0) → PartsApart reg r)

/-- A tee beam: a web of width `b` below a flange of width `bF` and thickness `dF`, symmetric about the vertical axis, of
total depth `d`. -/
def teeBeamOf (b d bF dF : ℝ) : Set (ℝ × ℝ) :=
  {p | (-b / 2 ≤ p.1 ∧ p.1 ≤ b / 2 ∧ 0 ≤ p.2 ∧ p.2 ≤ d - dF) ∨ (-bF / 2 ≤ p.1 ∧ p.1 ≤ bF / 2 ∧ d - dF ≤ p.2 ∧ p.2 ≤ d)}

end SP.Spec
