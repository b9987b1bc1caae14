import Verif.Spec.Field
import Verif.Spec.Shapes

/-!
# Specification vocabulary: outlines and the points they go round

An outline is a list of directed edges.
-/

namespace SP.Spec

open MeasureTheory

/-- How the ray from `p` to the right meets the edge `e`: `1` if the edge crosses it upwards, `-1` downwards, `0` if not. The lower
end of an edge belongs to it, the upper one does not. -/
noncomputable def crosses (e : (ℝ × ℝ) × (ℝ × ℝ)) (p : ℝ × ℝ) : ℤ :=
  open Classical in
  (if e.1.2 ≤ p.2 ∧ p.2 < e.2.2 ∧ 0 < signedArea2 e.1 e.2 p then 1 else 0)
    - (if e.2.2 ≤ p.2 ∧ p.2 < e.1.2 ∧ signedArea2 e.1 e.2 p < 0 then 1 else 0)

/-- How often the outline goes round `p`, counter-clockwise. -/
noncomputable def winding (edges : List ((ℝ × ℝ) × (ℝ × ℝ))) (p : ℝ × ℝ) : ℤ := (edges.map fun e => crosses e p).sum

/-- Every point is the start of as many edges as it is the end of. -/
def ClosedOutline (edges : List ((ℝ × ℝ) × (ℝ × ℝ))) : Prop := (edges.map Prod.fst).Perm (edges.map Prod.snd)

/-- The mesh fills the zones `i` in `S`, which do not overlap: the points of zone `i` are those that the closed outline `Z i` goes round,
and it goes round them once, counter-clockwise. All up to null sets. -/
structure Zones {n : ℕ} {ι : Type*} (els : List (Tri6 n)) (S : Finset ι) (Z : ι → List ((ℝ × ℝ) × (ℝ × ℝ))) : Prop where
  closed : ∀ i ∈ S, ClosedOutline (Z i)
  once : ∀ᵐ p, ∀ i ∈ S, winding (Z i) p = 0 ∨ winding (Z i) p = 1
  apart : ∀ᵐ p, ∀ i ∈ S, ∀ j ∈ S, i ≠ j → winding (Z i) p = 0 ∨ winding (Z j) p = 0
  covers : ∀ᵐ p, p ∈ region els ↔ ∃ i ∈ S, winding (Z i) p = 1

/-- In zone `i` the property `prop` of the material is `v i`. -/
def InZones {n : ℕ} {ι : Type*} (els : List (Tri6 n)) (S : Finset ι) (Z : ι → List ((ℝ × ℝ) × (ℝ × ℝ))) (prop : Material → ℝ)
    (v : ι → ℝ) : Prop :=
  ∀ t ∈ els, ∀ i ∈ S, ∀ᵐ p, p ∈ elemRegion t.coords → winding (Z i) p = 1 → prop t.material = v i

/-- The sum of `f` over the edges. -/
noncomputable def edgeSum (edges : List ((ℝ × ℝ) × (ℝ × ℝ))) (f : ℝ × ℝ → ℝ × ℝ → ℝ) : ℝ := (edges.map fun e => f e.1 e.2).sum

/-- The cross product of the ends of an edge: twice the area of the triangle with the origin. -/
def cross (a b : ℝ × ℝ) : ℝ := a.1 * b.2 - b.1 * a.2

/-- The formulas for the area and the moments of a polygon. -/
noncomputable def outlineArea (edges : List ((ℝ × ℝ) × (ℝ × ℝ))) : ℝ := edgeSum edges fun a b => cross a b / 2
noncomputable def outlineQx (edges : List ((ℝ × ℝ) × (ℝ × ℝ))) : ℝ := edgeSum edges fun a b => cross a b * (a.2 + b.2) / 6
noncomputable def outlineQy (edges : List ((ℝ × ℝ) × (ℝ × ℝ))) : ℝ := edgeSum edges fun a b => cross a b * (a.1 + b.1) / 6
noncomputable def outlineIxx (edges : List ((ℝ × ℝ) × (ℝ × ℝ))) : ℝ :=
  edgeSum edges fun a b => cross a b * (a.2 ^ 2 + a.2 * b.2 + b.2 ^ 2) / 12
noncomputable def outlineIyy (edges : List ((ℝ × ℝ) × (ℝ × ℝ))) : ℝ :=
  edgeSum edges fun a b => cross a b * (a.1 ^ 2 + a.1 * b.1 + b.1 ^ 2) / 12
noncomputable def outlineIxy (edges : List ((ℝ × ℝ) × (ℝ × ℝ))) : ℝ :=
  edgeSum edges fun a b => cross a b * (a.1 * b.2 + 2 * a.1 * a.2 + 2 * b.1 * b.2 + b.1 * a.2) / 24

end SP.Spec
