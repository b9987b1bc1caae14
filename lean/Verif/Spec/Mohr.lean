import Verif.Model.Mohr
import Verif.Spec.Stress

/-!
# Specification vocabulary: Mohr's circles
-/

namespace SP.Spec

/-- `w` are barycentric coordinates of `pt` in the triangle with corners `p`. -/
def Barycentric (p : Fin 3 → ℝ × ℝ) (pt : ℝ × ℝ) (w : Fin 3 → ℝ) : Prop :=
  (∀ i, 0 ≤ w i) ∧ ∑ i, w i = 1 ∧ ∑ i, w i * (p i).1 = pt.1 ∧ ∑ i, w i * (p i).2 = pt.2

/-- The point lies in the (closed) triangle `k` of the mesh. -/
def InElement {n : ℕ} (m : MohrIn n) (k : ℕ) (pt : ℝ × ℝ) : Prop :=
  ∃ w, Barycentric (fun i => m.nodes (m.corners k i)) pt w

/-- What is assumed of the triangle finder: among the given triangles it finds one that contains the
point, if there is one. -/
def FinderCorrect {n : ℕ} (m : MohrIn n) (find : List ℕ → ℝ × ℝ → Option ℕ) : Prop :=
  ∀ ids pt, (∀ k, find ids pt = some k → k ∈ ids ∧ InElement m k pt) ∧
    (find ids pt = none → ∀ k ∈ ids, ¬ InElement m k pt)

/-- A conforming mesh without degenerate triangles: triangles meet in common nodes and common sides only, so
the weights of the nodes at a point do not depend on the triangle in which they are computed. -/
structure Conforming {n : ℕ} (m : MohrIn n) : Prop where
  area : ∀ k < m.numEls, cross3 (m.nodes (m.corners k 0)) (m.nodes (m.corners k 1))
    (m.nodes (m.corners k 2)) ≠ 0
  weights : ∀ k < m.numEls, ∀ k' < m.numEls, ∀ pt w w',
    Barycentric (fun i => m.nodes (m.corners k i)) pt w →
    Barycentric (fun i => m.nodes (m.corners k' i)) pt w' →
    ∀ j, ∑ i, (if m.corners k i = j then w i else 0) = ∑ i, (if m.corners k' i = j then w' i else 0)

/-- What is assumed of `np.linalg.eig`: eigenvalues, and an invertible matrix whose columns are
eigenvectors of length one. -/
def EigCorrect (A : Matrix (Fin 3) (Fin 3) ℝ) (r : (Fin 3 → ℝ) × Matrix (Fin 3) (Fin 3) ℝ) : Prop :=
  IsUnit r.2.det ∧ (∀ j, ∑ i, r.2 i j ^ 2 = 1) ∧ ∀ i j, ∑ k, A i k * r.2 k j = r.1 j * r.2 i j

/-- The normal stress on the face with normal `e_c`. -/
def normalOn (A : Matrix (Fin 3) (Fin 3) ℝ) (c : Fin 3) : ℝ := A c c

/-- The magnitude of the shear stress on the face with normal `e_c`: the length of the part of the traction
vector (column `c`) perpendicular to the normal. -/
noncomputable def shearOn (A : Matrix (Fin 3) (Fin 3) ℝ) (c : Fin 3) : ℝ :=
  √(∑ i, if i = c then 0 else A i c ^ 2)

end SP.Spec
