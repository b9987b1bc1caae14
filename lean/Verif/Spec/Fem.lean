import Verif.Spec.Field
import Mathlib.Analysis.Calculus.Deriv.Basic
import Mathlib.Data.Matrix.Mul
import Mathlib.Data.Fin.Tuple.Basic
import Mathlib.Logic.Relation

/-!
# Specification vocabulary: quadratic finite element fields

Only the shape of the data (`Tri6`: coordinates, node numbers, material) is taken from the model.
-/

namespace SP.Spec

open MeasureTheory

/-- Partial derivatives of a plane field. -/
noncomputable def dX (q : ℝ × ℝ → ℝ) (p : ℝ × ℝ) : ℝ := deriv (fun x => q (x, p.2)) p.1
noncomputable def dY (q : ℝ × ℝ → ℝ) (p : ℝ × ℝ) : ℝ := deriv (fun y => q (p.1, y)) p.2

/-- `q` is a quadratic polynomial with the values `u` at the six nodes of the element. -/
def Interpolates (c : Coords) (u : Fin 6 → ℝ) (q : ℝ × ℝ → ℝ) : Prop :=
  q ∈ PolyLE 2 ∧ ∀ i, q (c.x i, c.y i) = u i

/-- `q t` is the field that the vector of nodal values `u` defines on the element `t`. -/
def FEField {n : ℕ} (els : List (Tri6 n)) (u : Fin n → ℝ) (q : Tri6 n → ℝ × ℝ → ℝ) : Prop :=
  ∀ t ∈ els, Interpolates t.coords (fun k => u (t.nodeIds k)) (q t)

/-- Integral over the whole mesh, weighted by the elastic modulus; the integrand may be given element
by element (gradients jump across element edges). -/
noncomputable def wInt {n : ℕ} (els : List (Tri6 n)) (f : Tri6 n → ℝ × ℝ → ℝ) : ℝ :=
  (els.map fun t => t.material.elasticModulus * ∫ p in elemRegion t.coords, f t p).sum

/-- The six nodes of every element are different. -/
def DistinctNodes {n : ℕ} (els : List (Tri6 n)) : Prop := ∀ t ∈ els, Function.Injective t.nodeIds

/-- The origin is the modulus-weighted centroid of the elements. -/
def Centroidal {n : ℕ} (els : List (Tri6 n)) : Prop :=
  wInt els (fun _ p => p.1) = 0 ∧ wInt els (fun _ p => p.2) = 0

/-- Two nodes belong to a common element. -/
def NodeLinked {n : ℕ} (els : List (Tri6 n)) (i j : Fin n) : Prop :=
  ∃ t ∈ els, ∃ k l, t.nodeIds k = i ∧ t.nodeIds l = j

/-- Any two nodes are joined by a chain of nodes, consecutive ones in a common element. -/
def ConnectedMesh {n : ℕ} (els : List (Tri6 n)) : Prop :=
  ∀ i j : Fin n, Relation.ReflTransGen (NodeLinked els) i j

/-- Strain energy (with unit shear modulus ratio) of the section under unit twist with the warping
field `q`: the integral of `(∂q/∂x - y)² + (∂q/∂y + x)²`. -/
noncomputable def twistEnergy {n : ℕ} (els : List (Tri6 n)) (q : Tri6 n → ℝ × ℝ → ℝ) : ℝ :=
  wInt els fun t p => (dX (q t) p - p.2) ^ 2 + (dY (q t) p + p.1) ^ 2

/-- `u` together with some multiplier solves the bordered system `A (u, μ) = (b, 0)` exactly. -/
def SolvesBordered {n : ℕ} (A : Matrix (Fin (n + 1)) (Fin (n + 1)) ℝ) (b u : Fin n → ℝ) : Prop :=
  ∃ μ : ℝ, A.mulVec (Fin.snoc (α := fun _ => ℝ) u μ) = Fin.snoc (α := fun _ => ℝ) b 0

end SP.Spec
