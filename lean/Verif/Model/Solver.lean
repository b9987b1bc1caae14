import Verif.Model.Basic
import Mathlib.Data.Matrix.Mul
import Mathlib.Data.Fin.Tuple.Basic

/-!
# Model of `analysis/solver.py` 25-146

The linear algebra libraries are oracles: any function from systems to vectors.  What the code does
with their answers is modelled as written.
-/

namespace SP

/-- The external solvers: `pypardiso.spsolve` or `scipy.sparse.linalg.spsolve` (solver.py 26-31)
and `scipy.sparse.linalg.cgs` (which also returns the flag `info`).  The preconditioner `m`
(an ILU decomposition of the same matrix) is part of the oracle. -/
structure Solvers where
  spsolve : ∀ {m : ℕ}, Matrix (Fin m) (Fin m) ℝ → (Fin m → ℝ) → (Fin m → ℝ)
  cgs : ∀ {m : ℕ}, Matrix (Fin m) (Fin m) ℝ → (Fin m → ℝ) → (Fin m → ℝ) × ℤ

/-- The string argument `solver_type`.  (section.py 372, 479, 496-504.) -/
inductive SolverType where
  | direct
  | cgs
  | other
  deriving DecidableEq

/-- `max(np.absolute(u))` (solver.py 90, 137) for a vector of length `n + 1`. -/
noncomputable def maxAbs {n : ℕ} (u : Fin (n + 1) → ℝ) : ℝ :=
  (List.ofFn fun i : Fin n => |u i.succ|).foldl max |u 0|

/-- `np.finfo(float).eps`.  (solver.py 140.) -/
noncomputable def floatEps : ℝ := 2⁻¹ ^ 52

/-- solver.py 34-60: `solve_cgs` with the iteration's answer as an argument. -/
def solveCgs {n : ℕ} (sv : Solvers) (k : Matrix (Fin n) (Fin n) ℝ) (f : Fin n → ℝ) :
    Except PyErr (Fin n → ℝ) :=
  let r := sv.cgs k f
  if r.2 ≠ 0 then .error .runtimeError else .ok r.1

/-- solver.py 63-97: `solve_cgs_lagrange`, default tolerance `1e-5`; `np.append(f, 0)` is
`Fin.snoc f 0`, `u[-1]` is the last entry, `u[:-1]` the others.  If `u` is identically zero numpy
evaluates `0/0` to `nan` and the comparison is false; Lean's `0/0 = 0` gives the same outcome. -/
noncomputable def solveCgsLagrange {n : ℕ} (sv : Solvers)
    (klg : Matrix (Fin (n + 1)) (Fin (n + 1)) ℝ) (f : Fin n → ℝ) (tol : ℝ) :
    Except PyErr (Fin n → ℝ) :=
  let r := sv.cgs klg (Fin.snoc (α := fun _ => ℝ) f 0)
  let u := r.1
  if r.2 ≠ 0 then .error .runtimeError
  else
    let err := u (Fin.last n) / maxAbs u
    open Classical in
    if err > tol then .error .runtimeError
    else .ok fun i => u i.castSucc

/-- solver.py 100-113: `solve_direct`. -/
def solveDirect {n : ℕ} (sv : Solvers) (k : Matrix (Fin n) (Fin n) ℝ) (f : Fin n → ℝ) :
    Fin n → ℝ := sv.spsolve k f

/-- solver.py 116-146: `solve_direct_lagrange`. -/
noncomputable def solveDirectLagrange {n : ℕ} (sv : Solvers)
    (klg : Matrix (Fin (n + 1)) (Fin (n + 1)) ℝ) (f : Fin n → ℝ) : Except PyErr (Fin n → ℝ) :=
  let u := sv.spsolve klg (Fin.snoc (α := fun _ => ℝ) f 0)
  let multiplier := |u (Fin.last n)|
  let relError := multiplier / maxAbs u
  open Classical in
  if relError > 1e-7 ∧ multiplier > 10 * floatEps then .error .runtimeError
  else .ok fun i => u i.castSucc

/-- section.py 495-506 (and 1076-1087): `solve_warping`.  A `LinearOperator` preconditioner is
truthy, so `solver_type == "cgs" and k_lg_precond` is `solver_type == "cgs"`. -/
noncomputable def solveWarping {n : ℕ} (sv : Solvers) (ty : SolverType)
    (klg : Matrix (Fin (n + 1)) (Fin (n + 1)) ℝ) (f : Fin n → ℝ) : Except PyErr (Fin n → ℝ) :=
  match ty with
  | .cgs => solveCgsLagrange sv klg f 1e-5
  | .direct => solveDirectLagrange sv klg f
  | .other => .error .valueError

/-- section.py 573-602: one of the two solves of `solve_shear_functions`. -/
noncomputable def solveShear {n : ℕ} (sv : Solvers) (ty : SolverType)
    (klg : Matrix (Fin (n + 1)) (Fin (n + 1)) ℝ) (f : Fin n → ℝ) : Except PyErr (Fin n → ℝ) :=
  match ty with
  | .cgs => solveCgsLagrange sv klg f 1e-5
  | _ => solveDirectLagrange sv klg f

end SP
