import Verif.Model.Warping

/-!
# Model of the stress analysis: section.py 1350-1460, 3385-3446 and post/stress_post.py 906-1038
-/

namespace SP

open Classical

/-- section.py 1416-1448 for one stress component: contributions `sig_el * weights` are added at the
nodes of the elements of the group, then every node with non-zero accumulated weight is divided by
it. -/
noncomputable def nodalAverage {n : ℕ} (els : List (Tri6 n)) (sig : Tri6 n → Fin 6 → ℝ) :
    Fin n → ℝ :=
  let v := assembleVec els fun t i => sig t i * stressWeight i
  let w := assembleVec els fun _ i => stressWeight i
  fun i => if w i ≠ 0 then v i * (1 / w i) else v i

/-- The arguments `omega`, `psi_shear`, `phi_shear` of the stress loops (section.py 1333-1360). -/
structure WarpFields (n : ℕ) where
  omega : Fin n → ℝ
  psi : Fin n → ℝ
  phiS : Fin n → ℝ

/-- section.py 1368-1404: `el.element_stress(...)` with the element's warping values. -/
noncomputable def elStress {n : ℕ} (a : Actions) (env : StressEnv) (wf : WarpFields n) (t : Tri6 n) :
    Fin 6 → StressComp :=
  t.elementStress a env (t.local wf.omega) (t.local wf.psi) (t.local wf.phiS)

/-- section.py 1362-1448: the eleven averaged stress components of one material group. -/
noncomputable def groupStress {n : ℕ} (els : List (Tri6 n)) (a : Actions) (env : StressEnv)
    (wf : WarpFields n) (i : Fin n) : StressComp :=
  let av := fun f : StressComp → ℝ => nodalAverage els (fun t k => f (elStress a env wf t k)) i
  { zzN := av (·.zzN), zzMxx := av (·.zzMxx), zzMyy := av (·.zzMyy), zzM11 := av (·.zzM11)
    zzM22 := av (·.zzM22), zxMzz := av (·.zxMzz), zyMzz := av (·.zyMzz), zxVx := av (·.zxVx)
    zyVx := av (·.zyVx), zxVy := av (·.zxVy), zyVy := av (·.zyVy) }

/-- stress_post.py 1017-1038: the combined stresses at one node. -/
@[ext] structure Combined where
  zzM : ℝ
  zxyMzz : ℝ
  zxyVx : ℝ
  zxyVy : ℝ
  zxV : ℝ
  zyV : ℝ
  zxyV : ℝ
  zz : ℝ
  zx : ℝ
  zy : ℝ
  zxy : ℝ
  s11 : ℝ
  s33 : ℝ
  vm : ℝ

/-- stress_post.py 1017-1038: `calculate_combined_stresses`, entry by entry. -/
noncomputable def combined (c : StressComp) : Combined :=
  let zzM := c.zzMxx + c.zzMyy + c.zzM11 + c.zzM22
  let zxV := c.zxVx + c.zxVy
  let zyV := c.zyVx + c.zyVy
  let zz := c.zzN + zzM
  let zx := c.zxMzz + zxV
  let zy := c.zyMzz + zyV
  let zxy := √(zx ^ 2 + zy ^ 2)
  { zzM := zzM
    zxyMzz := √(c.zxMzz ^ 2 + c.zyMzz ^ 2)
    zxyVx := √(c.zxVx ^ 2 + c.zyVx ^ 2)
    zxyVy := √(c.zxVy ^ 2 + c.zyVy ^ 2)
    zxV := zxV, zyV := zyV
    zxyV := √(zxV ^ 2 + zyV ^ 2)
    zz := zz, zx := zx, zy := zy, zxy := zxy
    s11 := zz / 2 + √((zz / 2) ^ 2 + zxy ^ 2)
    s33 := zz / 2 - √((zz / 2) ^ 2 + zxy ^ 2)
    vm := √(zz ^ 2 + 3 * zxy ^ 2) }

/-- The result of a stress analysis for one material group (stress_post.py 906-984): material, nodal
components, combined stresses. -/
structure GroupStress (n : ℕ) where
  material : MatObj
  comp : Fin n → StressComp
  comb : Fin n → Combined

/-- section.py 1362-1453: the loop over the material groups of `calculate_stress`. -/
noncomputable def stressLoop {n : ℕ} (groups : List (MaterialGroup n)) (a : Actions)
    (env : StressEnv) (wf : WarpFields n) : List (GroupStress n) :=
  groups.map fun g =>
    ⟨g.material, groupStress g.elements a env wf, fun i => combined (groupStress g.elements a env wf i)⟩

/-- stress_post.py 784-806: the stress tensor of Mohr's circles for given `sigma_zz`, `tau_xz`,
`tau_yz`. -/
def stressTensor (szz txz tyz : ℝ) : Matrix (Fin 3) (Fin 3) ℝ :=
  !![0, 0, txz; 0, 0, tyz; txz, tyz, szz]

/-- section.py 3393-3444: one pass of the loop of `get_stress_at_points`, for the element indices
`triIds` returned by the search tree for the point (an oracle); an index outside the element list
raises `IndexError`. -/
noncomputable def stressAtPoint {n : ℕ} (els : List (Tri6 n)) (a : Actions) (env : StressEnv)
    (wf : WarpFields n) (agg : List ℝ → ℝ) (pt : ℝ × ℝ) (triIds : List ℕ) :
    Except PyErr (Option (ℝ × ℝ × ℝ)) :=
  let at' := fun t : Tri6 n =>
    t.localElementStress pt a env (t.local wf.omega) (t.local wf.psi) (t.local wf.phiS)
  match triIds.mapM (fun i => els[i]?) with
  | none => .error .indexError
  | some [] => .ok none
  | some [t] => .ok (some (at' t))
  | some ts =>
    let sigs := ts.map at'
    .ok (some (agg (sigs.map (·.1)), agg (sigs.map (·.2.1)), agg (sigs.map (·.2.2))))

/-- section.py 3391-3446: the loop of `get_stress_at_points`; `query` is the search tree
`mesh_search_tree.query(Point(pt), predicate="intersects")`. -/
noncomputable def stressAtPoints {n : ℕ} (els : List (Tri6 n)) (query : ℝ × ℝ → List ℕ) (a : Actions)
    (env : StressEnv) (wf : WarpFields n) (agg : List ℝ → ℝ) (pts : List (ℝ × ℝ)) :
    Except PyErr (List (Option (ℝ × ℝ × ℝ))) :=
  pts.mapM fun pt => stressAtPoint els a env wf agg pt (query pt)

/-- `np.average` of a list.  (section.py 3285: the default of `agg_func`.) -/
noncomputable def npAverage (l : List ℝ) : ℝ := l.sum / l.length

end SP
