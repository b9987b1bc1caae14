import Verif.Model.Stress
import Mathlib.LinearAlgebra.Matrix.NonsingularInverse
import Mathlib.Data.List.Sort

/-!
# Model of the values drawn by `StressPost.plot_mohrs_circles`: stress_post.py 693-902

Title, colours, axes and labels are not modelled.
-/

namespace SP

/-- What the function uses of the mesh and of the stress results: node coordinates, the corner nodes of the
elements (`mesh_elements[:, 0:3]`), and for each material group the element indices and the combined nodal
stresses.  (stress_post.py 755-768.) -/
structure MohrIn (n : ℕ) where
  nodes : Fin n → ℝ × ℝ
  numEls : ℕ
  corners : ℕ → Fin 3 → Fin n
  groups : List (List ℕ × (Fin n → Combined))

/-- Twice the signed area of the triangle with the given corners.  (matplotlib, used in stress_post.py 785-792.) -/
def cross3 (a b c : ℝ × ℝ) : ℝ := (b.1 - a.1) * (c.2 - a.2) - (c.1 - a.1) * (b.2 - a.2)

/-- matplotlib's `LinearTriInterpolator` inside triangle `k`: the plane through the three nodal values
(third-party code, written here with area coordinates).  (stress_post.py 785-792.) -/
noncomputable def triInterp {n : ℕ} (m : MohrIn n) (z : Fin n → ℝ) (k : ℕ) (pt : ℝ × ℝ) : ℝ :=
  let p := fun i => m.nodes (m.corners k i)
  let d := cross3 (p 0) (p 1) (p 2)
  cross3 pt (p 1) (p 2) / d * z (m.corners k 0) + cross3 (p 0) pt (p 2) / d * z (m.corners k 1)
    + cross3 (p 0) (p 1) pt / d * z (m.corners k 2)

/-- stress_post.py 761-773: the last material group in which the triangle finder finds the point.
`find ids pt` is `trifinder(*pt)` for the triangulation in which only the elements `ids` are not masked
(`none` for -1). -/
def mohrGroup {n : ℕ} (m : MohrIn n) (find : List ℕ → ℝ × ℝ → Option ℕ) (pt : ℝ × ℝ) :
    Option (List ℕ × (Fin n → Combined)) :=
  m.groups.foldl (fun acc g => if (find g.1 pt).isSome then some g else acc) none

/-- What is drawn: three circles (centre on the axis of normal stress, radius), labelled (σ22, σ33),
(σ11, σ33), (σ11, σ22), and the points of the X-, Y- and Z-face.  (stress_post.py 841-867.) -/
structure MohrPlot where
  circles : List (ℝ × ℝ)
  faces : Fin 3 → ℝ × ℝ

/-- stress_post.py 807-818 and 842-868: circles and points for a stress tensor; `eig` is
`np.linalg.eig` (eigenvalues and matrix of eigenvectors). -/
noncomputable def mohrPlot (eig : Matrix (Fin 3) (Fin 3) ℝ → (Fin 3 → ℝ) × Matrix (Fin 3) (Fin 3) ℝ)
    (sigma : Matrix (Fin 3) (Fin 3) ℝ) : MohrPlot :=
  let s := (eig sigma).1
  let nInv := (eig sigma).2⁻¹
  let sorted := (List.ofFn s).insertionSort (· ≤ ·)
  let s3 := sorted.getD 0 0
  let s2 := sorted.getD 1 0
  let s1 := sorted.getD 2 0
  { circles := [(0.5 * (s2 + s3), 0.5 * (s2 - s3)), (0.5 * (s1 + s3), 0.5 * (s1 - s3)),
      (0.5 * (s1 + s2), 0.5 * (s1 - s2))]
    faces := fun col =>
      let ss := ∑ i, nInv i col * (s i * nInv i col)
      (ss, √(√(∑ i, (s i * nInv i col) ^ 2) ^ 2 - ss ^ 2)) }

/-- stress_post.py 755-868: `plot_mohrs_circles(x, y)`; the interpolators work on the triangulation
without mask (line 773).  A point that the unmasked finder does not find would give a masked value; it
cannot occur once a group was found. -/
noncomputable def plotMohr {n : ℕ} (m : MohrIn n) (find : List ℕ → ℝ × ℝ → Option ℕ)
    (eig : Matrix (Fin 3) (Fin 3) ℝ → (Fin 3 → ℝ) × Matrix (Fin 3) (Fin 3) ℝ) (pt : ℝ × ℝ) :
    Except PyErr MohrPlot :=
  match mohrGroup m find pt with
  | none => .error .valueError
  | some g =>
    let k := (find (List.range m.numEls) pt).getD 0
    .ok (mohrPlot eig (stressTensor (triInterp m (fun i => (g.2 i).zz) k pt)
      (triInterp m (fun i => (g.2 i).zx) k pt) (triInterp m (fun i => (g.2 i).zy) k pt)))

end SP
