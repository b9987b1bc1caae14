import Verif.Spec.Field

/-!
# Specification vocabulary: sections made of rectangles

The textbook description of rolled, welded and composite sections, independent of any mesh.
-/

namespace SP.Spec

open MeasureTheory

/-- A rectangle with sides along the axes. -/
structure Rect where
  x0 : ℝ
  x1 : ℝ
  y0 : ℝ
  y1 : ℝ

namespace Rect

variable (R : Rect)

/-- The points strictly inside. -/
def inside : Set (ℝ × ℝ) := Set.Ioo R.x0 R.x1 ×ˢ Set.Ioo R.y0 R.y1

def width : ℝ := R.x1 - R.x0
def height : ℝ := R.y1 - R.y0
noncomputable def midX : ℝ := (R.x0 + R.x1) / 2
noncomputable def midY : ℝ := (R.y0 + R.y1) / 2
noncomputable def area : ℝ := R.width * R.height

end Rect

/-- The elements cover, up to edges, the rectangles `R i` for `i` in `S`, which do not overlap. Elements may lie in several
rectangles. -/
structure Rectangles {n : ℕ} {ι : Type*} (els : List (Tri6 n)) (S : Finset ι) (R : ι → Rect) : Prop where
  width : ∀ i ∈ S, 0 < (R i).width
  height : ∀ i ∈ S, 0 < (R i).height
  apart : ∀ i ∈ S, ∀ j ∈ S, i ≠ j → Disjoint (R i).inside (R j).inside
  covers : region els =ᵐ[volume] ⋃ i ∈ S, (R i).inside

/-- In rectangle `i` the property `prop` of the material is `v i`. -/
def InRects {n : ℕ} {ι : Type*} (els : List (Tri6 n)) (S : Finset ι) (R : ι → Rect) (prop : Material → ℝ) (v : ι → ℝ) : Prop :=
  ∀ t ∈ els, ∀ i ∈ S, (interior (elemRegion t.coords) ∩ (R i).inside).Nonempty → prop t.material = v i

/-- The moment of a rectangle of unit strength that yields on both sides of a horizontal line at height `z`. -/
noncomputable def rectMomentX (R : Rect) (z : ℝ) : ℝ :=
  R.width * (((R.y1 - z) * |R.y1 - z| - (R.y0 - z) * |R.y0 - z|) / 2)

/-- The same for a vertical line at `z`. -/
noncomputable def rectMomentY (R : Rect) (z : ℝ) : ℝ :=
  R.height * (((R.x1 - z) * |R.x1 - z| - (R.x0 - z) * |R.x0 - z|) / 2)

/-- The I-section of depth `d`, width `b`, flange thickness `tf` and web thickness `tw` with its lower left corner at the
origin. -/
def iShape (d b tf tw : ℝ) : Set (ℝ × ℝ) :=
  {p | (0 < p.1 ∧ p.1 < b ∧ 0 < p.2 ∧ p.2 < d) ∧
    (p.2 < tf ∨ d - tf < p.2 ∨ ((b - tw) / 2 < p.1 ∧ p.1 < (b + tw) / 2))}

/-- The rectangular tube of depth `d`, width `b` and wall thickness `t`. -/
def tubeShape (d b t : ℝ) : Set (ℝ × ℝ) :=
  {p | (0 < p.1 ∧ p.1 < b ∧ 0 < p.2 ∧ p.2 < d) ∧ ¬ (t ≤ p.1 ∧ p.1 ≤ b - t ∧ t ≤ p.2 ∧ p.2 ≤ d - t)}

end SP.Spec
