import Verif.Model.Basic
import Mathlib.LinearAlgebra.Matrix.NonsingularInverse
import Mathlib.Analysis.SpecialFunctions.Trigonometric.Basic
import Mathlib.Data.Fin.VecNotation
import Mathlib.Analysis.SpecialFunctions.Pow.Real

/-!
# Model of `analysis/fea.py`

Function by function.  numpy arrays of length six are functions `Fin 6 → ℝ`; `2 x 6` arrays are a
pair of such functions.  Floating point numbers are exact reals.
-/

namespace SP

open Matrix

/-- One row of the array returned by `gauss_points`: `(weight, eta, xi, zeta)`. -/
@[ext] structure GaussPt where
  w : ℝ
  eta : ℝ
  xi : ℝ
  zeta : ℝ

/-- `self.coords`: the `2 x 6` array of nodal coordinates (fea.py 227-229). -/
@[ext] structure Coords where
  x : Fin 6 → ℝ
  y : Fin 6 → ℝ

/-! ### Gauss points, fea.py 920-984 -/

/-- fea.py 937-939. -/
noncomputable def gauss1 : List GaussPt := [⟨1, 1 / 3, 1 / 3, 1 / 3⟩]

/-- fea.py 941-950. -/
noncomputable def gauss3 : List GaussPt :=
  [⟨1 / 3, 2 / 3, 1 / 6, 1 / 6⟩, ⟨1 / 3, 1 / 6, 2 / 3, 1 / 6⟩, ⟨1 / 3, 1 / 6, 1 / 6, 2 / 3⟩]

/-- fea.py 952-962. -/
noncomputable def gauss4 : List GaussPt :=
  [⟨-27 / 48, 1 / 3, 1 / 3, 1 / 3⟩, ⟨25 / 48, 0.6, 0.2, 0.2⟩,
   ⟨25 / 48, 0.2, 0.6, 0.2⟩, ⟨25 / 48, 0.2, 0.2, 0.6⟩]

/-- fea.py 966. -/
noncomputable def g1 : ℝ := 1 / 18 * (8 - √10 + √(38 - 44 * √(2 / 5)))
/-- fea.py 967. -/
noncomputable def g2 : ℝ := 1 / 18 * (8 - √10 - √(38 - 44 * √(2 / 5)))
/-- fea.py 968. -/
noncomputable def w1 : ℝ := (620 + √(213125 - 53320 * √10)) / 3720
/-- fea.py 969. -/
noncomputable def w2 : ℝ := (620 - √(213125 - 53320 * √10)) / 3720

/-- fea.py 971-981, row `i` of the six point rule. -/
noncomputable def gauss6pt : Fin 6 → GaussPt :=
  ![⟨w2, 1 - 2 * g2, g2, g2⟩, ⟨w2, g2, 1 - 2 * g2, g2⟩, ⟨w2, g2, g2, 1 - 2 * g2⟩,
    ⟨w1, g1, g1, 1 - 2 * g1⟩, ⟨w1, 1 - 2 * g1, g1, g1⟩, ⟨w1, g1, 1 - 2 * g1, g1⟩]

/-- fea.py 964-981. -/
noncomputable def gauss6 : List GaussPt := List.ofFn gauss6pt

/-- fea.py 920-984: `gauss_points(n=n)`; any other `n` raises `ValueError`. -/
noncomputable def gaussPoints (n : ℤ) : Except PyErr (List GaussPt) :=
  if n = 1 then .ok gauss1
  else if n = 3 then .ok gauss3
  else if n = 4 then .ok gauss4
  else if n = 6 then .ok gauss6
  else .error .valueError

/-! ### Shape functions, fea.py 987-1096 -/

/-- fea.py 1013-1023 (and 1087-1096): values of the six shape functions. -/
def shapeN (eta xi zeta : ℝ) : Fin 6 → ℝ :=
  ![eta * (2 * eta - 1), xi * (2 * xi - 1), zeta * (2 * zeta - 1),
    4 * eta * xi, 4 * xi * zeta, 4 * eta * zeta]

/-- fea.py 1076-1096: `shape_function_only`. -/
def shapeFunctionOnly (p : ℝ × ℝ × ℝ) : Fin 6 → ℝ := shapeN p.1 p.2.1 p.2.2

/-- fea.py 1026-1033: derivatives with respect to the isoparametric coordinates. -/
def bIso (eta xi zeta : ℝ) : Matrix (Fin 3) (Fin 6) ℝ :=
  !![4 * eta - 1, 0, 0, 4 * xi, 0, 4 * zeta;
     0, 4 * xi - 1, 0, 4 * eta, 4 * zeta, 0;
     0, 0, 4 * zeta - 1, 0, 4 * xi, 4 * eta]

/-- fea.py 1037-1039: the `3 x 3` Jacobian matrix: a column of ones, then `b_iso @ coordsᵀ`. -/
def jMat (c : Coords) (eta xi zeta : ℝ) : Matrix (Fin 3) (Fin 3) ℝ :=
  Matrix.of fun k => ![1, ∑ i, bIso eta xi zeta k i * c.x i, ∑ i, bIso eta xi zeta k i * c.y i]

/-- Result of `shape_function`: `n, b, jacobian, nx, ny`; `b` is split into its two rows.  (fea.py 1047-1074.) -/
structure ShapeRes where
  n : Fin 6 → ℝ
  bx : Fin 6 → ℝ
  by' : Fin 6 → ℝ
  j : ℝ
  nx : ℝ
  ny : ℝ

/-- fea.py 992-1071: `shape_function`.  `np.linalg.solve(j, b_iso)` is `j⁻¹ * b_iso`; the guard
`jacobian != 0` of line 1045 is kept.  Caching (`@cache`) is not modelled. -/
noncomputable def shapeFunction (c : Coords) (gp : GaussPt) : ShapeRes :=
  let n := shapeN gp.eta gp.xi gp.zeta
  let bI := bIso gp.eta gp.xi gp.zeta
  let j := jMat c gp.eta gp.xi gp.zeta
  let jac := 0.5 * j.det
  { n := n
    bx := if jac ≠ 0 then fun i => (j⁻¹ * bI) 1 i else fun _ => 0
    by' := if jac ≠ 0 then fun i => (j⁻¹ * bI) 2 i else fun _ => 0
    j := jac
    nx := ∑ i, c.x i * n i
    ny := ∑ i, c.y i * n i }

/-! ### Coordinate conversions, fea.py 1166-1234 -/

/-- fea.py 1167-1186: `principal_coordinate` (angle in degrees). -/
noncomputable def principalCoordinate (phi x y : ℝ) : ℝ × ℝ :=
  let phi := phi * Real.pi / 180
  let c := Real.cos phi
  let s := Real.sin phi
  (x * c + y * s, y * c - x * s)

/-- fea.py 1190-1209: `global_coordinate` (angle in degrees). -/
noncomputable def globalCoordinate (phi x11 y22 : ℝ) : ℝ × ℝ :=
  let phi := phi * Real.pi / 180
  let c := Real.cos phi
  let s := Real.sin phi
  (x11 * c - y22 * s, x11 * s + y22 * c)

/-- fea.py 1213-1234: `point_above_line`; `np.cross` of two plane vectors is
`a0 * b1 - a1 * b0`. -/
def pointAboveLine (u : ℝ × ℝ) (px py x y : ℝ) : Prop :=
  let pq := (px - x, py - y)
  pq.1 * u.2 - pq.2 * u.1 > 0

/-! ### The element, fea.py 218-916 -/

/-- fea.py 218-237: the dataclass `Tri6`; `n` is the number of nodes of the mesh. -/
structure Tri6 (n : ℕ) where
  elId : ℕ
  coords : Coords
  nodeIds : Fin 6 → Fin n
  material : Material

/-- Result of `geometric_properties` (fea.py 310-320). -/
@[ext] structure GeomProps where
  area : ℝ
  qx : ℝ
  qy : ℝ
  ixx : ℝ
  iyy : ℝ
  ixy : ℝ
  e : ℝ
  g : ℝ
  rho : ℝ

/-- fea.py 274-320: `Tri6.geometric_properties`. -/
noncomputable def Tri6.geometricProperties {n : ℕ} (t : Tri6 n) : GeomProps :=
  let sf := shapeFunction t.coords
  let weight := fun gp : GaussPt => gp.w * (sf gp).j
  { area := accum gauss4 fun gp => weight gp
    qx := accum gauss4 fun gp => weight gp * (sf gp).ny
    qy := accum gauss4 fun gp => weight gp * (sf gp).nx
    ixx := accum gauss4 fun gp => weight gp * (sf gp).ny ^ 2
    iyy := accum gauss4 fun gp => weight gp * (sf gp).nx ^ 2
    ixy := accum gauss4 fun gp => weight gp * (sf gp).ny * (sf gp).nx
    e := t.material.elasticModulus
    g := t.material.shearModulus
    rho := t.material.density }

/-- The weight `gp[0] * j * self.material.elastic_modulus` (fea.py 346, 383, 437, 485, 533). -/
noncomputable def Tri6.eWeight {n : ℕ} (t : Tri6 n) (gp : GaussPt) : ℝ :=
  gp.w * (shapeFunction t.coords gp).j * t.material.elasticModulus

/-- fea.py 322-351 with 63-92: element stiffness matrix `k_el`. -/
noncomputable def Tri6.kEl {n : ℕ} (t : Tri6 n) (a b : Fin 6) : ℝ :=
  accum gauss4 fun gp =>
    let s := shapeFunction t.coords gp
    t.eWeight gp * (s.bx a * s.bx b + s.by' a * s.by' b)

/-- fea.py 322-351 with 63-92: element torsion load vector `f_el`
(`b.T @ [ny, -nx]`). -/
noncomputable def Tri6.fEl {n : ℕ} (t : Tri6 n) (a : Fin 6) : ℝ :=
  accum gauss4 fun gp =>
    let s := shapeFunction t.coords gp
    t.eWeight gp * (s.bx a * s.ny + s.by' a * (-s.nx))

/-- fea.py 322-351 with 63-92: element constraint vector `c_el`. -/
noncomputable def Tri6.cEl {n : ℕ} (t : Tri6 n) (a : Fin 6) : ℝ :=
  accum gauss4 fun gp => t.eWeight gp * (shapeFunction t.coords gp).n a

/-- Result of `_shear_parameter` (fea.py 122) without the unused `r`, `q`. -/
structure ShearParam where
  d1 : ℝ
  d2 : ℝ
  h1 : ℝ
  h2 : ℝ

/-- fea.py 96-122: `_shear_parameter`. -/
def shearParameter (nx ny ixx iyy ixy : ℝ) : ShearParam :=
  let r := nx ^ 2 - ny ^ 2
  let q := 2 * nx * ny
  { d1 := ixx * r - ixy * q
    d2 := ixy * r + ixx * q
    h1 := -ixy * r + iyy * q
    h2 := -iyy * r - ixy * q }

/-- fea.py 353-399 with 126-167: element load vector `f_psi`. -/
noncomputable def Tri6.fPsiEl {n : ℕ} (t : Tri6 n) (ixx iyy ixy nu : ℝ) (a : Fin 6) : ℝ :=
  accum gauss4 fun gp =>
    let s := shapeFunction t.coords gp
    let p := shearParameter s.nx s.ny ixx iyy ixy
    t.eWeight gp * (nu / 2 * (s.bx a * p.d1 + s.by' a * p.d2)
      + 2 * (1 + nu) * s.n a * (ixx * s.nx - ixy * s.ny))

/-- fea.py 353-399 with 126-167: element load vector `f_phi`. -/
noncomputable def Tri6.fPhiEl {n : ℕ} (t : Tri6 n) (ixx iyy ixy nu : ℝ) (a : Fin 6) : ℝ :=
  accum gauss4 fun gp =>
    let s := shapeFunction t.coords gp
    let p := shearParameter s.nx s.ny ixx iyy ixy
    t.eWeight gp * (nu / 2 * (s.bx a * p.h1 + s.by' a * p.h2)
      + 2 * (1 + nu) * s.n a * (iyy * s.ny - ixy * s.nx))

/-- `np.dot(n, omega)` and `b @ omega`: dot product of two vectors of length six.  (fea.py 209-210, 439, 671, 679, 687.) -/
def dot6 (a b : Fin 6 → ℝ) : ℝ := ∑ i, a i * b i

/-- Result of `shear_warping_integrals` (fea.py 448). -/
@[ext] structure WarpInts where
  scX : ℝ
  scY : ℝ
  qOmega : ℝ
  iOmega : ℝ
  iXomega : ℝ
  iYomega : ℝ

/-- fea.py 401-448: `Tri6.shear_warping_integrals`. -/
noncomputable def Tri6.shearWarpingIntegrals {n : ℕ} (t : Tri6 n) (ixx iyy ixy : ℝ)
    (omega : Fin 6 → ℝ) : WarpInts :=
  let sf := shapeFunction t.coords
  { scX := accum gauss4 fun gp => t.eWeight gp * (iyy * (sf gp).nx + ixy * (sf gp).ny)
      * ((sf gp).nx ^ 2 + (sf gp).ny ^ 2)
    scY := accum gauss4 fun gp => t.eWeight gp * (ixx * (sf gp).ny + ixy * (sf gp).nx)
      * ((sf gp).nx ^ 2 + (sf gp).ny ^ 2)
    qOmega := accum gauss4 fun gp => t.eWeight gp * dot6 (sf gp).n omega
    iOmega := accum gauss4 fun gp => t.eWeight gp * dot6 (sf gp).n omega ^ 2
    iXomega := accum gauss4 fun gp => t.eWeight gp * (sf gp).nx * dot6 (sf gp).n omega
    iYomega := accum gauss4 fun gp => t.eWeight gp * (sf gp).ny * dot6 (sf gp).n omega }

/-- Result of `shear_coefficients` (fea.py 504). -/
@[ext] structure Kappas where
  x : ℝ
  y : ℝ
  xy : ℝ

/-- fea.py 450-504 with 171-215: `Tri6.shear_coefficients`. -/
noncomputable def Tri6.shearCoefficients {n : ℕ} (t : Tri6 n) (ixx iyy ixy : ℝ)
    (psi phi : Fin 6 → ℝ) (nu : ℝ) : Kappas :=
  let sf := shapeFunction t.coords
  let sp := fun gp : GaussPt => shearParameter (sf gp).nx (sf gp).ny ixx iyy ixy
  let px := fun gp : GaussPt => dot6 (sf gp).bx psi - nu / 2 * (sp gp).d1
  let py := fun gp : GaussPt => dot6 (sf gp).by' psi - nu / 2 * (sp gp).d2
  let hx := fun gp : GaussPt => dot6 (sf gp).bx phi - nu / 2 * (sp gp).h1
  let hy := fun gp : GaussPt => dot6 (sf gp).by' phi - nu / 2 * (sp gp).h2
  { x := accum gauss4 fun gp => t.eWeight gp * (px gp * px gp + py gp * py gp)
    y := accum gauss4 fun gp => t.eWeight gp * (hx gp * hx gp + hy gp * hy gp)
    xy := accum gauss4 fun gp => t.eWeight gp * (px gp * hx gp + py gp * hy gp) }

/-- Result of `monosymmetry_integrals` (fea.py 544). -/
@[ext] structure MonoInts where
  x : ℝ
  y : ℝ
  i11 : ℝ
  i22 : ℝ

/-- fea.py 506-544: `Tri6.monosymmetry_integrals`. -/
noncomputable def Tri6.monosymmetryIntegrals {n : ℕ} (t : Tri6 n) (phi : ℝ) : MonoInts :=
  let sf := shapeFunction t.coords
  let pc := fun gp : GaussPt => principalCoordinate phi (sf gp).nx (sf gp).ny
  { x := accum gauss4 fun gp => t.eWeight gp *
      ((sf gp).nx * (sf gp).nx * (sf gp).ny + (sf gp).ny * (sf gp).ny * (sf gp).ny)
    y := accum gauss4 fun gp => t.eWeight gp *
      ((sf gp).ny * (sf gp).ny * (sf gp).nx + (sf gp).nx * (sf gp).nx * (sf gp).nx)
    i11 := accum gauss4 fun gp => t.eWeight gp *
      ((pc gp).1 * (pc gp).1 * (pc gp).2 + (pc gp).2 * (pc gp).2 * (pc gp).2)
    i22 := accum gauss4 fun gp => t.eWeight gp *
      ((pc gp).2 * (pc gp).2 * (pc gp).1 + (pc gp).1 * (pc gp).1 * (pc gp).1) }

/-! ### Stresses, fea.py 546-865 -/

/-- The design actions passed to `calculate_stress` / `element_stress`. -/
@[ext] structure Actions where
  n : ℝ
  mxx : ℝ
  myy : ℝ
  m11 : ℝ
  m22 : ℝ
  mzz : ℝ
  vx : ℝ
  vy : ℝ

/-- The section properties passed to `element_stress` (fea.py 556-570). -/
structure StressEnv where
  ea : ℝ
  cx : ℝ
  cy : ℝ
  ixx : ℝ
  iyy : ℝ
  ixy : ℝ
  i11 : ℝ
  i22 : ℝ
  phi : ℝ
  j : ℝ
  nu : ℝ
  deltaS : ℝ

/-- Eleven stress components, either at one Gauss point, or at one node. -/
@[ext] structure StressComp where
  zzN : ℝ
  zzMxx : ℝ
  zzMyy : ℝ
  zzM11 : ℝ
  zzM22 : ℝ
  zxMzz : ℝ
  zyMzz : ℝ
  zxVx : ℝ
  zyVx : ℝ
  zxVy : ℝ
  zyVy : ℝ

/-- fea.py 640-642: coordinates relative to the centroid. -/
def Coords.shift (c : Coords) (cx cy : ℝ) : Coords := ⟨fun i => c.x i - cx, fun i => c.y i - cy⟩

/-- fea.py 638-688, one pass of the loop body: stresses at one Gauss point (with the axial stress
of line 624, which is constant over the element). -/
noncomputable def Tri6.stressAt {n : ℕ} (t : Tri6 n) (a : Actions) (s : StressEnv)
    (omega psi phiS : Fin 6 → ℝ) (gp : GaussPt) : StressComp :=
  let f := shapeFunction (t.coords.shift s.cx s.cy) gp
  let pc := principalCoordinate s.phi f.nx f.ny
  let p := shearParameter f.nx f.ny s.ixx s.iyy s.ixy
  let em := t.material.elasticModulus
  { zzN := a.n * 1 * em / s.ea
    zzMxx := em * (-(s.ixy * a.mxx) / (s.ixx * s.iyy - s.ixy ^ 2) * f.nx
      + s.iyy * a.mxx / (s.ixx * s.iyy - s.ixy ^ 2) * f.ny)
    zzMyy := em * (-(s.ixx * a.myy) / (s.ixx * s.iyy - s.ixy ^ 2) * f.nx
      + s.ixy * a.myy / (s.ixx * s.iyy - s.ixy ^ 2) * f.ny)
    zzM11 := em * a.m11 / s.i11 * pc.2
    zzM22 := em * -a.m22 / s.i22 * pc.1
    zxMzz := if a.mzz ≠ 0 then em * a.mzz / s.j * (dot6 f.bx omega - f.ny) else 0
    zyMzz := if a.mzz ≠ 0 then em * a.mzz / s.j * (dot6 f.by' omega - (-f.nx)) else 0
    zxVx := if a.vx ≠ 0 then em * a.vx / s.deltaS * (dot6 f.bx psi - s.nu / 2 * p.d1) else 0
    zyVx := if a.vx ≠ 0 then em * a.vx / s.deltaS * (dot6 f.by' psi - s.nu / 2 * p.d2) else 0
    zxVy := if a.vy ≠ 0 then em * a.vy / s.deltaS * (dot6 f.bx phiS - s.nu / 2 * p.h1) else 0
    zyVy := if a.vy ≠ 0 then em * a.vy / s.deltaS * (dot6 f.by' phiS - s.nu / 2 * p.h2) else 0 }

/-- fea.py 1099-1150: the hard-coded extrapolation matrix `h_inv`. -/
noncomputable def hInv : Matrix (Fin 6) (Fin 6) ℝ :=
  !![1.87365927351160, 0.138559587411935, 0.138559587411935,
      -0.638559587411936, 0.126340726488397, -0.638559587411935;
     0.138559587411935, 1.87365927351160, 0.138559587411935,
      -0.638559587411935, -0.638559587411935, 0.126340726488397;
     0.138559587411935, 0.138559587411935, 1.87365927351160,
      0.126340726488396, -0.638559587411935, -0.638559587411935;
     0.0749010751157440, 0.0749010751157440, 0.180053080734478,
      1.36051633430762, -0.345185782636792, -0.345185782636792;
     0.180053080734478, 0.0749010751157440, 0.0749010751157440,
      -0.345185782636792, 1.36051633430762, -0.345185782636792;
     0.0749010751157440, 0.180053080734478, 0.0749010751157440,
      -0.345185782636792, -0.345185782636792, 1.36051633430762]

/-- fea.py 1154-1163: `extrapolate_to_nodes`. -/
noncomputable def extrapolateToNodes (w : Fin 6 → ℝ) : Fin 6 → ℝ :=
  fun i => ∑ k, hInv i k * w k

/-- fea.py 546-715: `Tri6.element_stress`, the nodal stress components (the axial stress is not
extrapolated, line 624). -/
noncomputable def Tri6.elementStress {n : ℕ} (t : Tri6 n) (a : Actions) (s : StressEnv)
    (omega psi phiS : Fin 6 → ℝ) (i : Fin 6) : StressComp :=
  let st := fun k : Fin 6 => t.stressAt a s omega psi phiS (gauss6pt k)
  { zzN := a.n * 1 * t.material.elasticModulus / s.ea
    zzMxx := extrapolateToNodes (fun k => (st k).zzMxx) i
    zzMyy := extrapolateToNodes (fun k => (st k).zzMyy) i
    zzM11 := extrapolateToNodes (fun k => (st k).zzM11) i
    zzM22 := extrapolateToNodes (fun k => (st k).zzM22) i
    zxMzz := extrapolateToNodes (fun k => (st k).zxMzz) i
    zyMzz := extrapolateToNodes (fun k => (st k).zyMzz) i
    zxVx := extrapolateToNodes (fun k => (st k).zxVx) i
    zyVx := extrapolateToNodes (fun k => (st k).zyVx) i
    zxVy := extrapolateToNodes (fun k => (st k).zxVy) i
    zyVy := extrapolateToNodes (fun k => (st k).zyVy) i }

/-- fea.py 714: the weights returned with the nodal stresses, `gps[:, 0]`. -/
noncomputable def stressWeight (i : Fin 6) : ℝ := (gauss6pt i).w

/-! ### Point location, fea.py 243-262 and 867-916 -/

/-- fea.py 248-262: `_m = solve([p0 - x0, p1 - x0] as columns, I)`.  `np.linalg.solve` raises
`LinAlgError` on a singular matrix; theorems assume a non-degenerate element. -/
noncomputable def Coords.localM (c : Coords) : Matrix (Fin 2) (Fin 2) ℝ :=
  (!![c.x 0 - c.x 2, c.x 1 - c.x 2; c.y 0 - c.y 2, c.y 1 - c.y 2] : Matrix (Fin 2) (Fin 2) ℝ)⁻¹ * 1

/-- fea.py 902-916: `local_coord`. -/
noncomputable def Tri6.localCoord {n : ℕ} (t : Tri6 n) (p : ℝ × ℝ) : ℝ × ℝ × ℝ :=
  let d := ![p.1 - t.coords.x 2, p.2 - t.coords.y 2]
  let eta := (t.coords.localM *ᵥ d) 0
  let xi := (t.coords.localM *ᵥ d) 1
  (eta, xi, 1 - eta - xi)

/-- fea.py 867-900: `point_within_element`. -/
def Tri6.pointWithinElement {n : ℕ} (t : Tri6 n) (pt : ℝ × ℝ) : Prop :=
  let px := pt.1
  let py := pt.2
  let x1 := t.coords.x 0
  let y1 := t.coords.y 0
  let x2 := t.coords.x 1
  let y2 := t.coords.y 1
  let x3 := t.coords.x 2
  let y3 := t.coords.y 2
  let alpha := ((y2 - y3) * (px - x3) + (x3 - x2) * (py - y3))
    / ((y2 - y3) * (x1 - x3) + (x3 - x2) * (y1 - y3))
  let beta := ((y3 - y1) * (px - x3) + (x1 - x3) * (py - y3))
    / ((y2 - y3) * (x1 - x3) + (x3 - x2) * (y1 - y3))
  let gamma := 1 - alpha - beta
  alpha ≥ 0 ∧ beta ≥ 0 ∧ gamma ≥ 0

/-- Sum over the eleven interpolated components as in fea.py 854-865:
`(sig_zz, sig_zx, sig_zy)`. -/
noncomputable def Tri6.localElementStress {n : ℕ} (t : Tri6 n) (p : ℝ × ℝ) (a : Actions)
    (s : StressEnv) (omega psi phiS : Fin 6 → ℝ) : ℝ × ℝ × ℝ :=
  let st := t.elementStress a s omega psi phiS
  let nS := shapeFunctionOnly (t.localCoord p)
  let at' := fun f : StressComp → ℝ => ∑ i, f (st i) * nS i
  let m := at' (·.zzMxx) + at' (·.zzMyy) + at' (·.zzM11) + at' (·.zzM22)
  let zxv := at' (·.zxVx) + at' (·.zxVy)
  let zyv := at' (·.zyVx) + at' (·.zyVy)
  (at' (·.zzN) + m, at' (·.zxMzz) + zxv, at' (·.zyMzz) + zyv)

end SP
