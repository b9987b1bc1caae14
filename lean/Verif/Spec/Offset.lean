import Verif.Model.Offset
import Verif.Spec.SetOps

/-!
# Specification vocabulary for `offset_perimeter`

Only data types and the records of oracles are taken from the model.
-/

namespace SP.Spec

open MeasureTheory

/-- A result of shapely made of polygons of the kind `G` that, up to a null set, cover the region `S`. -/
structure Covers (G : Poly → Prop) (reg : Poly → Set (ℝ × ℝ)) (o : Overlay) (S : Set (ℝ × ℝ)) : Prop where
  region : covered reg (overlayPolys o) =ᵐ[volume] S
  kind : ∀ p ∈ overlayPolys o, G p

/-- Shapely is exact on polygons of the kind `G`, and its results are of this kind again.  `B p` is the region that
shapely makes of the polygon `p` when it is buffered by the amount and with the resolution in question. -/
structure Exact (G : Poly → Prop) (reg : Poly → Set (ℝ × ℝ)) (tol : ℕ) (ov : OverlayOps)
    (buffer : Poly → Overlay) (B : Poly → Set (ℝ × ℝ)) : Prop where
  /-- the empty polygon -/
  empty : reg ⟨[], []⟩ = ∅
  /-- vertices have no more than `tol` decimals (polygons may be empty, but do not shrink to the origin) -/
  grid : ∀ p, G p → p = ⟨[], []⟩ ∨
    (∀ r ∈ p.exterior :: p.interiors, ∀ v ∈ r, OnGrid tol v.1 ∧ OnGrid tol v.2) ∧ ∃ v ∈ p.exterior, v ≠ (0, 0)
  /-- a polygon with holes is its exterior without the holes -/
  rings : ∀ p, G p → G ⟨p.exterior, []⟩ ∧ (∀ i ∈ p.interiors, G ⟨i, []⟩) ∧
    reg p =ᵐ[volume] (reg ⟨p.exterior, []⟩ \ covered reg (p.interiors.map fun i => ⟨i, []⟩) : Set (ℝ × ℝ))
  buffer : ∀ p, G p → Covers G reg (buffer p) (B p)
  /-- differences are polygons or multipolygons -/
  diff : ∀ ps qs, (∀ p ∈ ps, G p) → (∀ q ∈ qs, G q) → Covers G reg (ov.diff ps qs) (covered reg ps \ covered reg qs) ∧
    ((∃ p, ov.diff ps qs = .polygon p) ∨ ∃ l, ov.diff ps qs = .multi l)
  inter : ∀ ps qs, (∀ p ∈ ps, G p) → (∀ q ∈ qs, G q) → Covers G reg (ov.inter ps qs) (covered reg ps ∩ covered reg qs) ∧
    ov.inter ps qs ≠ .other

/-- The edges that `where` selects, moved by the amount for which `B` gives the buffered polygons. -/
def offsetRegion (reg B : Poly → Set (ℝ × ℝ)) (p : Poly) (whr : String) : Set (ℝ × ℝ) :=
  if whr = "exterior" then B ⟨p.exterior, []⟩ \ {q | ∃ i ∈ p.interiors, q ∈ reg ⟨i, []⟩}
  else if whr = "interior" then reg ⟨p.exterior, []⟩ \ {q | ∃ i ∈ p.interiors, q ∈ B ⟨i, []⟩}
  else B p

end SP.Spec
