import Verif.Model.Analyses

/-!
# Model of a warping analysis after the geometry of the section has been changed

`calculate_warping_properties` builds a second `Section` from `self.geometry` (section.py 431).  If the geometry was meshed
again (geometry.py `create_mesh` replaces its `mesh`) or given other materials (its attribute `material` is replaced) after
the construction of the section, the second section has other nodes, elements and materials than the first one.
-/

namespace SP

/-- section.py 370-875: `calculate_warping_properties` on a section `s` for which a geometric analysis returned `r`, where
`now` is the section made from the present state of the geometry (line 431).  Elements and node numbers are those of `now`;
the centroid (435), the second moments (520-523), the other stored values and `is_composite` are those of `s`.  The
preconditioner of the iterative solver (468-470) and the shear load vectors (538-539) have the size of `s`: `scipy` raises
`ValueError` for a preconditioner, or a right hand side, of another size than the matrix, and `f_psi[el.node_ids] += ...`
(548-549) raises `IndexError` for a node number outside the vector.  If `now` has as many nodes as `s`, neither happens. -/
noncomputable def Section.warpingNow (sv : Solvers) (ty : SolverType) (s now : Section) (r : GeomResults) :
    Except PyErr (WarpResults now.numNodes) :=
  let els := now.elements.map fun t => t.shiftBy r.cx r.cy
  if ty = .cgs ∧ s.numNodes ≠ now.numNodes then .error .valueError
  else
    match solveWarping sv ty (assembleTorsion els).1 (assembleTorsion els).2 with
    | .error e => .error e
    | .ok _ =>
      open Classical in
      if ∃ t ∈ els, ∃ k, s.numNodes ≤ (t.nodeIds k).val then .error .indexError
      else if s.numNodes ≠ now.numNodes then .error .valueError
      else warpingAnalysis sv ty els (warpIn s.materials r)

/-- The environment of a section for which line 431 of section.py makes the elements `els`, numbered with as many nodes. -/
def Env.regenerated {P : Type} (env : Env P) (els : List (Tri6 env.sec.numNodes)) : Env P :=
  { env with sec := { env.sec with elements := els } }

/-- section.py 370-875 on the store of the section, with the elements `els` made in line 431.  `Env.warping` uses the
elements of the environment only as those of the second section. -/
noncomputable def Env.warpingNow {P : Type} (env : Env P) (els : List (Tri6 env.sec.numNodes)) (ty : SolverType) :
    Op env.sec.numNodes Unit :=
  (env.regenerated els).warping ty

end SP
