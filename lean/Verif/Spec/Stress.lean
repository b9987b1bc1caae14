import Verif.Model.Stress
import Verif.Spec.Fem

/-!
# Specification vocabulary: stresses

Only data types (`Actions`, `StressComp`, `Combined`, `GroupStress`, `Tri6`) are taken from the model.
-/

namespace SP.Spec

/-- The load case `α a + β b`. -/
def Actions.lin (α β : ℝ) (a b : Actions) : Actions :=
  ⟨α * a.n + β * b.n, α * a.mxx + β * b.mxx, α * a.myy + β * b.myy, α * a.m11 + β * b.m11,
   α * a.m22 + β * b.m22, α * a.mzz + β * b.mzz, α * a.vx + β * b.vx, α * a.vy + β * b.vy⟩

/-- The eleven individual stress components. -/
def individual : List (StressComp → ℝ) :=
  [(·.zzN), (·.zzMxx), (·.zzMyy), (·.zzM11), (·.zzM22), (·.zxMzz), (·.zyMzz), (·.zxVx), (·.zyVx),
   (·.zxVy), (·.zyVy)]

/-- The combined normal and shear stress components (not their resultants). -/
def combinedLinear : List (Combined → ℝ) :=
  [(·.zzM), (·.zxV), (·.zyV), (·.zz), (·.zx), (·.zy)]

/-- The three-dimensional stress tensor of a beam with axis `z`: only `σ_zz`, `τ_zx`, `τ_zy`. -/
def beamTensor (szz tzx tzy : ℝ) : Matrix (Fin 3) (Fin 3) ℝ :=
  fun i j => if i = 2 ∧ j = 2 then szz else if (i = 2 ∧ j = 0) ∨ (i = 0 ∧ j = 2) then tzx
    else if (i = 2 ∧ j = 1) ∨ (i = 1 ∧ j = 2) then tzy else 0

/-- `l` is an eigenvalue of `M`. -/
def IsEigenvalue (M : Matrix (Fin 3) (Fin 3) ℝ) (l : ℝ) : Prop :=
  ∃ v : Fin 3 → ℝ, v ≠ 0 ∧ M.mulVec v = fun i => l * v i

/-- Three halves of the squared norm of the deviator `M - (tr M / 3) I`: the squared von Mises stress. -/
noncomputable def vonMisesSq (M : Matrix (Fin 3) (Fin 3) ℝ) : ℝ :=
  3 / 2 * ∑ i, ∑ j, (M i j - if i = j then (∑ k, M k k) / 3 else 0) ^ 2

/-- Node `i` is a node of the element. -/
def NodeOf {n : ℕ} (i : Fin n) (t : Tri6 n) : Prop := ∃ k, t.nodeIds k = i

/-- What is assumed of the search tree: for a point it returns the indices of the elements that contain
the point, each once. -/
def QueryCorrect {n : ℕ} (els : List (Tri6 n)) (query : ℝ × ℝ → List ℕ) : Prop :=
  ∀ p, (query p).Nodup ∧ ∀ i, i ∈ query p ↔ ∃ t, els[i]? = some t ∧ p ∈ elemRegion t.coords

open MeasureTheory

/-- Integral over the whole mesh of a field given element by element. -/
noncomputable def meshInt {n : ℕ} (els : List (Tri6 n)) (f : Tri6 n → ℝ × ℝ → ℝ) : ℝ :=
  (els.map fun t => ∫ p in elemRegion t.coords, f t p).sum

/-- The normal stress field `σ` has the axial force `n`, and about axes through `(cx, cy)` the moments
`mx = ∫ σ y` and `my = -∫ σ x` (the sign convention of the program: a positive `my` compresses the
side of positive `x`). -/
def NormalResultants {n : ℕ} (els : List (Tri6 n)) (cx cy : ℝ) (σ : Tri6 n → ℝ × ℝ → ℝ)
    (force mx my : ℝ) : Prop :=
  meshInt els σ = force ∧ meshInt els (fun t p => σ t p * (p.2 - cy)) = mx ∧
  -meshInt els (fun t p => σ t p * (p.1 - cx)) = my

/-- The shear stress field `(τx, τy)` has the resultant force `(vx, vy)`. -/
def ShearForce {n : ℕ} (els : List (Tri6 n)) (τx τy : Tri6 n → ℝ × ℝ → ℝ) (vx vy : ℝ) : Prop :=
  meshInt els τx = vx ∧ meshInt els τy = vy

/-- The torque of the shear stress field `(τx, τy)` about `(cx, cy)`. -/
noncomputable def torque {n : ℕ} (els : List (Tri6 n)) (cx cy : ℝ) (τx τy : Tri6 n → ℝ × ℝ → ℝ) : ℝ :=
  meshInt els fun t p => (p.1 - cx) * τy t p - (p.2 - cy) * τx t p

/-- The results `l` of a stress analysis (one per material group) are the nodal values of the field `σ`: at a
node of the group each component lies between the smallest and the largest value of `σ` over the elements of
the group that share the node, up to `1e-12` times the largest value of the component in the group. -/
def Reports {n : ℕ} (groups : List (MaterialGroup n)) (l : List (GroupStress n))
    (σ : Tri6 n → ℝ × ℝ → StressComp) : Prop :=
  ∀ (m : ℕ) (gr : MaterialGroup n) (res : GroupStress n),
    groups[m]? = some gr → l[m]? = some res → ∀ f ∈ individual, ∀ i,
    (∃ t ∈ gr.elements, NodeOf i t) → ∀ lo hi B,
    (∀ t ∈ gr.elements, ∀ k, |f (σ t (t.coords.x k, t.coords.y k))| ≤ B) →
    (∀ t ∈ gr.elements, ∀ k, t.nodeIds k = i → lo ≤ f (σ t (t.coords.x k, t.coords.y k)) ∧
      f (σ t (t.coords.x k, t.coords.y k)) ≤ hi) →
    lo - 1e-12 * B ≤ f (res.comp i) ∧ f (res.comp i) ≤ hi + 1e-12 * B

end SP.Spec
