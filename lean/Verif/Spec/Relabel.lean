import Verif.Model.Fea
import Verif.Spec.Transform
import Mathlib.GroupTheory.Perm.Sign

/-!
# One mesh described twice

Two lists of elements describe the same mesh up to a reflection in the coordinate axes and a translation:
the nodes are numbered differently, the elements are listed in another order, and each element starts at
another corner (and goes round the other way if the reflection reverses the orientation).
-/

namespace SP.Spec

/-- The midside node opposite the corner `i`: the sides 01, 12, 02 have the nodes 3, 4, 5. -/
def oppositeNode : Fin 3 → Fin 6 := ![4, 5, 3]

/-- Corner `i` as a node. -/
def cornerNode : Fin 3 → Fin 6 := ![0, 1, 2]

/-- The six nodes of a triangle whose corners are listed in the order `π 0, π 1, π 2`. -/
def sixNodes (π : Equiv.Perm (Fin 3)) : Fin 6 → Fin 6 :=
  ![cornerNode (π 0), cornerNode (π 1), cornerNode (π 2), oppositeNode (π 2), oppositeNode (π 0), oppositeNode (π 1)]

/-- Multiplication of the coordinates by the signs `ex`, `ey`, followed by the translation by `(tx, ty)`. -/
def signs (ex ey : ℤˣ) (tx ty : ℝ) : ℝ × ℝ → ℝ × ℝ := affine (ex : ℤ) 0 0 (ey : ℤ) tx ty

/-- The element `t'` is the image of `t` with nodes renumbered by `σ` and corners listed in another order
(counter-clockwise again). -/
def SameTriangle {n n' : ℕ} (ex ey : ℤˣ) (tx ty : ℝ) (σ : Fin n → Fin n') (t : Tri6 n) (t' : Tri6 n') : Prop :=
  t'.material = t.material ∧ ∃ π : Equiv.Perm (Fin 3), Equiv.Perm.sign π = ex * ey ∧ ∀ k,
    t'.nodeIds k = σ (t.nodeIds (sixNodes π k)) ∧
    (t'.coords.x k, t'.coords.y k) = signs ex ey tx ty (t.coords.x (sixNodes π k), t.coords.y (sixNodes π k))

/-- The elements `els'` are, in some order, the images of the elements `els`. -/
def SameMesh {n n' : ℕ} (ex ey : ℤˣ) (tx ty : ℝ) (σ : Fin n → Fin n') (els : List (Tri6 n)) (els' : List (Tri6 n')) : Prop :=
  ∃ l, List.Forall₂ (SameTriangle ex ey tx ty σ) els l ∧ l.Perm els'

/-- The same for a reflection about any line: the elements `els'` are, in some order, the images of the elements `els` under
the reflection about the line through `p0` at the angle `α`, with the nodes renumbered by `σ`. -/
def ReflectedMesh {n n' : ℕ} (α : ℝ) (p0 : ℝ × ℝ) (σ : Fin n → Fin n') (els : List (Tri6 n)) (els' : List (Tri6 n')) : Prop :=
  ∃ l, List.Forall₂ (fun t t' => t'.material = t.material ∧ ∃ π : Equiv.Perm (Fin 3), Equiv.Perm.sign π = -1 ∧ ∀ k,
      t'.nodeIds k = σ (t.nodeIds (sixNodes π k)) ∧
      (t'.coords.x k, t'.coords.y k) = reflection α p0 (t.coords.x (sixNodes π k), t.coords.y (sixNodes π k))) els l ∧
    l.Perm els'

end SP.Spec
