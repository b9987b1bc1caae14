import Verif.Model.Bisect
import Verif.Model.Section

/-!
# Model of `analysis/plastic_section.py`

`brentq` is an oracle that gets the function and the bracket.
-/

namespace SP

/-- What the plastic analysis keeps of the last force evaluation: `_f_list`, `_cx_list`, `_cy_list`
(plastic_section.py 41-44) as one list of `(f, cx, cy)`. -/
abbrev ForceList := List (ℝ × ℝ × ℝ)

/-- Answer of `brentq(..., full_output=True, disp=False)`: the root, the flag `converged`, and the
argument of the last evaluation of the function (which need not be the root: `brentq` may return the
best earlier iterate).  (plastic_section.py 359-369.) -/
structure RootResult where
  root : ℝ
  converged : Bool
  last : ℝ

/-- `scipy.optimize.brentq` with the tolerances of the code; raises `ValueError` when the function
has the same sign at both ends, and propagates exceptions of the function.  (plastic_section.py 359-369.) -/
abbrev Brentq := (ℝ → Except PyErr ℝ) → ℝ → ℝ → Except PyErr RootResult

/-- `PlasticSection` after `__init__` (plastic_section.py 28-44): the geometry moved to its centroid
and compiled, i.e. its parts and its points. -/
structure PlasticSection (P : Type*) where
  ops : PolyOps P
  geoms : List (PGeom P)
  points : List (ℝ × ℝ)

/-- plastic_section.py 296-329: `calculate_extreme_fibres`: `(u_min, u_max, v_min, v_max)`; without
points `points[0]` raises `IndexError`. -/
noncomputable def extremeFibres (angle : ℝ) : List (ℝ × ℝ) → Except PyErr (ℝ × ℝ × ℝ × ℝ)
  | [] => .error .indexError
  | p :: ps =>
    let pr := fun q : ℝ × ℝ => principalCoordinate angle q.1 q.2
    .ok (runMin (pr p).1 (ps.map fun q => (pr q).1), runMax (pr p).1 (ps.map fun q => (pr q).1),
         runMin (pr p).2 (ps.map fun q => (pr q).2), runMax (pr p).2 (ps.map fun q => (pr q).2))

/-- plastic_section.py 443-465: force and centroid of one piece. -/
noncomputable def pieceForce {P : Type*} (ops : PolyOps P) (g : PGeom P) : ℝ × ℝ × ℝ :=
  (g.material.yieldStrength * ops.area g.poly, (ops.centroid g.poly).1, (ops.centroid g.poly).2)

/-- plastic_section.py 409-467: `calculate_plastic_force(u, p)`: `f_top`, `f_bot` and the lists it
leaves in the object. -/
noncomputable def plasticForce {P : Type*} (ps : PlasticSection P) (u p : ℝ × ℝ) :
    Except PyErr (ℝ × ℝ × ForceList) :=
  match splitSection ps.ops p u ps.geoms with
  | .error e => .error e
  | .ok (top, bot) =>
    .ok (accum top fun g => g.material.yieldStrength * ps.ops.area g.poly,
         accum bot fun g => g.material.yieldStrength * ps.ops.area g.poly,
         top.map (pieceForce ps.ops) ++ bot.map (pieceForce ps.ops))

/-- plastic_section.py 355: the perpendicular vector `u_p`. -/
def perpVec (u : ℝ × ℝ) (axis : ℕ) : ℝ × ℝ := if axis = 1 then (-u.2, u.1) else (u.2, -u.1)

/-- plastic_section.py 371-407: `evaluate_force_eq`. -/
noncomputable def evaluateForceEq {P : Type*} (ps : PlasticSection P) (u up : ℝ × ℝ) (d : ℝ) :
    Except PyErr ℝ :=
  match plasticForce ps u (d * up.1, d * up.2) with
  | .error e => .error e
  | .ok (ft, fb, _) => .ok ((ft - fb) / (ft + fb))

/-- plastic_section.py 331-369 and 259-277: `pc_algorithm` followed by `check_convergence`, with the
force lists of the last evaluation. -/
noncomputable def pcAlgorithm {P : Type*} (br : Brentq) (ps : PlasticSection P) (u : ℝ × ℝ)
    (dlim : ℝ × ℝ) (axis : ℕ) : Except PyErr (ℝ × ForceList) :=
  let up := perpVec u axis
  match br (evaluateForceEq ps u up) dlim.1 dlim.2 with
  | .error e => .error e
  | .ok r =>
    if r.converged then
      match plasticForce ps u (r.last * up.1, r.last * up.2) with
      | .error e => .error e
      | .ok (_, _, l) => .ok (r.root, l)
    else .error .runtimeError

/-- plastic_section.py 99-103: `sxx`, sum of force times `|cy - y_pc|`. -/
noncomputable def plasticSxx (l : ForceList) (ypc : ℝ) : ℝ := accum l fun q => q.1 * |q.2.2 - ypc|
/-- plastic_section.py 126-130: `syy`. -/
noncomputable def plasticSyy (l : ForceList) (xpc : ℝ) : ℝ := accum l fun q => q.1 * |q.2.1 - xpc|
/-- plastic_section.py 168-175: `s11`. -/
noncomputable def plasticS11 (phi : ℝ) (l : ForceList) (y22 : ℝ) : ℝ :=
  accum l fun q => q.1 * |(principalCoordinate phi q.2.1 q.2.2).2 - y22|
/-- plastic_section.py 198-205: `s22`. -/
noncomputable def plasticS22 (phi : ℝ) (l : ForceList) (x11 : ℝ) : ℝ :=
  accum l fun q => q.1 * |(principalCoordinate phi q.2.1 q.2.2).1 - x11|

/-- plastic_section.py 81-103: steps 1 and 1a, `(y_pc, sxx)`. -/
noncomputable def plasticX {P : Type*} (br : Brentq) (ps : PlasticSection P) :
    Except PyErr (ℝ × ℝ) :=
  match extremeFibres 0 ps.points with
  | .error e => .error e
  | .ok fib =>
    match pcAlgorithm br ps (1, 0) fib.2.2 1 with
    | .error e => .error e
    | .ok (d, l) => .ok (d, plasticSxx l d)

/-- plastic_section.py 112-130: step 1b, `(x_pc, syy)`. -/
noncomputable def plasticY {P : Type*} (br : Brentq) (ps : PlasticSection P) :
    Except PyErr (ℝ × ℝ) :=
  match extremeFibres 0 ps.points with
  | .error e => .error e
  | .ok fib =>
    match pcAlgorithm br ps (0, 1) (fib.1, fib.2.1) 2 with
    | .error e => .error e
    | .ok (d, l) => .ok (d, plasticSyy l d)

/-- plastic_section.py 140-175: step 2a, `(y22_pc, s11)`. -/
noncomputable def plastic11 {P : Type*} (br : Brentq) (ps : PlasticSection P) (phi : ℝ) :
    Except PyErr (ℝ × ℝ) :=
  let a := phi * Real.pi / 180
  match extremeFibres phi ps.points with
  | .error e => .error e
  | .ok fib =>
    match pcAlgorithm br ps (Real.cos a, Real.sin a) fib.2.2 1 with
    | .error e => .error e
    | .ok (d, l) => .ok (d, plasticS11 phi l d)

/-- plastic_section.py 184-205: step 2b, `(x11_pc, s22)`. -/
noncomputable def plastic22 {P : Type*} (br : Brentq) (ps : PlasticSection P) (phi : ℝ) :
    Except PyErr (ℝ × ℝ) :=
  let a := phi * Real.pi / 180
  match extremeFibres phi ps.points with
  | .error e => .error e
  | .ok fib =>
    match pcAlgorithm br ps (-Real.sin a, Real.cos a) (fib.1, fib.2.1) 2 with
    | .error e => .error e
    | .ok (d, l) => .ok (d, plasticS22 phi l d)

end SP
