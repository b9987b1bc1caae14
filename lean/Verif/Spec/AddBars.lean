import Verif.Spec.Offset
import Mathlib.Analysis.SpecialFunctions.Trigonometric.Basic

/-!
# Specification vocabulary for reinforcing bars

Only data types, the area of a polygon and the record of oracles are taken from the model.
-/

namespace SP.Spec

open MeasureTheory

/-- The geometry `g` is a bar of the material `m` about `(x, y)`: a polygon without holes whose vertices are, up to `k` units
of the twelfth decimal, those of the regular polygon with `n` vertices and the given area, and whose area is, up to what this
can change, the given one. -/
structure IsBar (k : ℝ) (m : Material) (n : ℕ) (area x y : ℝ) (g : Geometry) : Prop where
  material : g.material = m
  solid : g.poly.interiors = []
  vertices : ∃ r : ℝ, 0 < r ∧ n * (1 / 2 * r ^ 2 * Real.sin (2 * Real.pi / n)) = area ∧ g.poly.exterior.length = n ∧
    ∀ i < n, ∃ p, g.poly.exterior[i]? = some p ∧
      |p.1 - (x + r * Real.cos (2 * Real.pi * i / n))| ≤ k / 10 ^ 12 ∧
      |p.2 - (y + r * Real.sin (2 * Real.pi * i / n))| ≤ k / 10 ^ 12
  size : |g.poly.area - area| ≤ k * (n * (2 * √area + 2)) / 10 ^ 12

/-- Shapely subtracts polygons of the kind `K` (bars) exactly from polygons of the kind `G`, the results are of the kind `G`
again, and the polygons of a result do not overlap. -/
structure CutsExactly (G K : Poly → Prop) (reg : Poly → Set (ℝ × ℝ)) (ov : OverlayOps) : Prop where
  /-- the empty polygon -/
  empty : reg ⟨[], []⟩ = ∅
  nothing : G ⟨[], []⟩
  bars : ∀ p, K p → G p
  /-- vertices have no more than 12 decimals (polygons may be empty, but do not shrink to the origin) -/
  grid : ∀ p, G p → p = ⟨[], []⟩ ∨
    (∀ r ∈ p.exterior :: p.interiors, ∀ v ∈ r, OnGrid 12 v.1 ∧ OnGrid 12 v.2) ∧ ∃ v ∈ p.exterior, v ≠ (0, 0)
  diff : ∀ p qs, G p → (∀ q ∈ qs, K q) → ov.diff [p] qs ≠ .other ∧
    Covers G reg (ov.diff [p] qs) (reg p \ covered reg qs) ∧
    (overlayPolys (ov.diff [p] qs)).Pairwise fun a b => volume (reg a ∩ reg b) = 0

/-- No point, up to a null set, is in two parts. -/
def PartsApart (reg : Poly → Set (ℝ × ℝ)) (s : Shape) : Prop :=
  s.parts.Pairwise fun g h => volume (reg g.poly ∩ reg h.poly) = 0

/-- What was in the region `B` has been replaced by `steel`; the rest is as before. -/
structure ReplacedBy (reg : Poly → Set (ℝ × ℝ)) (steel : Material) (B : Set (ℝ × ℝ)) (before after : Shape) : Prop where
  others : ∀ m, m ≠ steel → madeOf reg after m =ᵐ[volume] (madeOf reg before m \ B : Set (ℝ × ℝ))
  steel : madeOf reg after steel =ᵐ[volume] (madeOf reg before steel ∪ B : Set (ℝ × ℝ))

/-- The section `r` is a region `R` of concrete with bars of steel: the region less the bars is concrete, the bars are steel,
and there is nothing else. -/
structure ConcreteWith (reg : Poly → Set (ℝ × ℝ)) (conc steel : Material) (R : Set (ℝ × ℝ)) (bars : List Geometry)
    (r : Shape) : Prop where
  inConcrete : madeOf reg r conc =ᵐ[volume] (R \ covered reg (bars.map (·.poly)) : Set (ℝ × ℝ))
  inSteel : madeOf reg r steel =ᵐ[volume] covered reg (bars.map (·.poly))
  nothingElse : ∀ m, m ≠ conc → m ≠ steel → madeOf reg r m =ᵐ[volume] (∅ : Set (ℝ × ℝ))

/-- A reinforced section `r`: the outline less the bars is concrete, the bars are steel, there is nothing else, and nothing is
counted twice. -/
structure Reinforced (reg : Poly → Set (ℝ × ℝ)) (conc steel : Material) (outline : Shape) (bars : List Geometry)
    (r : Shape) : Prop where
  inConcrete : madeOf reg r conc =ᵐ[volume] (occupied reg outline \ covered reg (bars.map (·.poly)) : Set (ℝ × ℝ))
  inSteel : madeOf reg r steel =ᵐ[volume] covered reg (bars.map (·.poly))
  nothingElse : ∀ m, m ≠ conc → m ≠ steel → madeOf reg r m =ᵐ[volume] (∅ : Set (ℝ × ℝ))
  once : PartsApart reg r

end SP.Spec
