import Verif.Spec.Poly
import Verif.Model.Fea

/-!
# Specification vocabulary: what a triangle mesh is

Only the shape of the data (`Coords`, `Tri6`) is taken from the model, none of its functions.
-/

namespace SP.Spec

/-- First, second, third corner of an element. -/
def cornerA (c : Coords) : ℝ × ℝ := (c.x 0, c.y 0)
def cornerB (c : Coords) : ℝ × ℝ := (c.x 1, c.y 1)
def cornerC (c : Coords) : ℝ × ℝ := (c.x 2, c.y 2)

/-- The plane region occupied by an element: the closed triangle of its corners. -/
def elemRegion (c : Coords) : Set (ℝ × ℝ) := triangle (cornerA c) (cornerB c) (cornerC c)

/-- Twice the signed area of the element. -/
def elemDet (c : Coords) : ℝ := signedArea2 (cornerA c) (cornerB c) (cornerC c)

/-- Nodes 3, 4, 5 are the midpoints of the edges 01, 12, 02. -/
def Straight (c : Coords) : Prop :=
  c.x 3 = (c.x 0 + c.x 1) / 2 ∧ c.x 4 = (c.x 1 + c.x 2) / 2 ∧ c.x 5 = (c.x 0 + c.x 2) / 2 ∧
  c.y 3 = (c.y 0 + c.y 1) / 2 ∧ c.y 4 = (c.y 1 + c.y 2) / 2 ∧ c.y 5 = (c.y 0 + c.y 2) / 2

/-- A proper element: straight sides, counter-clockwise corners. -/
def Proper (c : Coords) : Prop := Straight c ∧ 0 < elemDet c

/-- A physical section: at least one element, all elements proper, all elastic moduli positive. -/
structure Physical {n : ℕ} (els : List (Tri6 n)) : Prop where
  nonempty : els ≠ []
  proper : ∀ t ∈ els, Proper t.coords
  modulus : ∀ t ∈ els, 0 < t.material.elasticModulus

end SP.Spec
