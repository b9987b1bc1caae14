import Verif.Model.Store

/-!
# The analyses as operations on the property store

Each analysis is a program that reads and writes `section_props` in the order of the code and may
stop with an exception half way, in which case what has been written stays written.  Progress
bars and printing are not modelled; the checks behind the warnings are in `Network.lean` and `Overlap.lean`.
-/

namespace SP

open Classical

/-- A Python method working on the store: it may raise, and keeps its writes if it does.
(section.py 176-1481: the methods of `Section` that write to `section_props`.) -/
abbrev Op (n : ℕ) := ExceptT PyErr (StateM (Store n))

/-- Assignments `self.section_props.f = v`, in order.  (such as section.py 210-219.) -/
def write {n : ℕ} (l : List (Field × ℝ)) : Op n Unit :=
  modify fun s => { s with val := l.foldl (fun v p => Function.update v p.1 (some p.2)) s.val }

/-- Call of a getter.  (such as section.py 436, 691, 711.) -/
def ask {n : ℕ} {α : Type} (g : Store n → Except PyErr α) : Op n α := do
  match g (← get) with
  | .error e => throw e
  | .ok a => return a

/-- Call of a computation that does not touch the store but may raise.  (such as section.py 522.) -/
def attempt {n : ℕ} {α : Type} (x : Except PyErr α) : Op n α :=
  match x with
  | .error e => throw e
  | .ok a => return a

/-- A `Section` object with what its methods use: itself, the perimeter computed by its geometry, the
linear solvers, the geometry for the plastic analysis and `brentq`.  The geometry is not changed
between construction and analysis.  (section.py 63-174.) -/
structure Env (P : Type) where
  sec : Section
  perimeter : ℝ
  solvers : Solvers
  plastic : PlasticSection P
  brentq : Brentq

namespace Env

variable {P : Type} (env : Env P)

/-- post.py 226-237: `calculate_elastic_centroid`. -/
noncomputable def elasticCentroid {n : ℕ} : Op n Unit := do
  let s ← get
  match s.val .qx, s.val .qy, s.val .ea with
  | some qx, some qy, some ea => write [(.cx, qy / ea), (.cy, qx / ea)]
  | _, _, _ => throw .runtimeError

/-- post.py 239-331: `calculate_centroidal_properties`, on the store. -/
noncomputable def centroidalProperties {n : ℕ} (nodes : List (ℝ × ℝ)) : Op n Unit := do
  let s ← get
  match s.val .qx, s.val .qy, s.val .ea, s.val .ixxG, s.val .iyyG, s.val .ixyG, s.val .cx,
    s.val .cy with
  | some qx, some qy, some ea, some ixxG, some iyyG, some ixyG, some cx, some cy =>
    let ixx := ixxG - qx ^ 2 / ea
    let iyy := iyyG - qy ^ 2 / ea
    let ixy := ixyG - qx * qy / ea
    write [(.ixxC, ixx), (.iyyC, iyy), (.ixyC, ixy)]
    match nodes with
    | [] => throw .valueError
    | p :: ps =>
      let xmax := runMax p.1 (ps.map Prod.fst)
      let xmin := runMin p.1 (ps.map Prod.fst)
      let ymax := runMax p.2 (ps.map Prod.snd)
      let ymin := runMin p.2 (ps.map Prod.snd)
      write [(.zxxPlus, ixx / |ymax - cy|), (.zxxMinus, ixx / |ymin - cy|),
        (.zyyPlus, iyy / |xmax - cx|), (.zyyMinus, iyy / |xmin - cx|),
        (.rxC, √(ixx / ea)), (.ryC, √(iyy / ea)),
        (.i11C, i11Of ixx iyy ixy), (.i22C, i22Of ixx iyy ixy), (.phi, phiOf ixx iyy ixy)]
      let pr := fun q : ℝ × ℝ => principalCoordinate (phiOf ixx iyy ixy) (q.1 - cx) (q.2 - cy)
      let x1max := runMax (pr p).1 (ps.map fun q => (pr q).1)
      let x1min := runMin (pr p).1 (ps.map fun q => (pr q).1)
      let y2max := runMax (pr p).2 (ps.map fun q => (pr q).2)
      let y2min := runMin (pr p).2 (ps.map fun q => (pr q).2)
      write [(.z11Plus, i11Of ixx iyy ixy / |y2max|), (.z11Minus, i11Of ixx iyy ixy / |y2min|),
        (.z22Plus, i22Of ixx iyy ixy / |x1max|), (.z22Minus, i22Of ixx iyy ixy / |x1min|),
        (.r11C, √(i11Of ixx iyy ixy / ea)), (.r22C, √(i22Of ixx iyy ixy / ea))]
  | _, _, _, _, _, _, _, _ => throw .runtimeError

/-- section.py 270-342: the yield moments. -/
noncomputable def yieldMoments {n : ℕ} (groups : List (MaterialGroup n)) : Op n Unit := do
  write [(.myXX, 0), (.myYY, 0), (.my11, 0), (.my22, 0)]
  let s ← get
  match s.val .cx, s.val .cy, s.val .phi, s.val .ixxC, s.val .iyyC, s.val .ixyC, s.val .i11C,
    s.val .i22C with
  | some cx, some cy, some phi, some ixx, some iyy, some ixy, some i11, some i22 =>
    let us := fun (m : Material) (p : ℝ × ℝ) =>
      unitStress m.elasticModulus cx cy phi ixx iyy ixy i11 i22 p
    let pts := yieldPoints groups
    write [(.myXX, yieldMoment pts fun m p => (us m p).mxx),
      (.myYY, yieldMoment pts fun m p => (us m p).myy),
      (.my11, yieldMoment pts fun m p => (us m p).m11),
      (.my22, yieldMoment pts fun m p => (us m p).m22)]
  | _, _, _, _, _, _, _, _ => throw .runtimeError

/-- section.py 176-368: `calculate_geometric_properties`. -/
noncomputable def geometric : Op env.sec.numNodes Unit := do
  write [(.area, 0), (.perimeter, 0), (.mass, 0), (.ea, 0), (.ga, 0), (.qx, 0), (.qy, 0), (.ixxG, 0),
    (.iyyG, 0), (.ixyG, 0)]
  write [(.perimeter, env.perimeter)]
  let g := geomSums env.sec.elements
  write [(.area, g.area), (.mass, g.mass), (.ea, g.ea), (.ga, g.ga), (.qx, g.qx), (.qy, g.qy),
    (.ixxG, g.ixxG), (.iyyG, g.iyyG), (.ixyG, g.ixyG)]
  write [(.nuEff, g.ea / (2 * g.ga) - 1), (.eEff, g.ea / g.area), (.gEff, g.ga / g.area)]
  elasticCentroid
  centroidalProperties (List.ofFn env.sec.meshNodes)
  yieldMoments env.sec.groups

/-- `get_eic()` for composite sections, `get_ic()` otherwise (section.py 521-525, 970-974, ...), with
the default `e_ref = 1`. -/
noncomputable def askIc : Op env.sec.numNodes (ℝ × ℝ × ℝ) :=
  if isComposite env.sec.materials then ask fun p => getEic env.sec.materials p (.num 1)
  else ask fun p => getIc env.sec.materials p

/-- `get_ea()` for composite sections, `get_area()` otherwise (section.py 711, 1322, ...). -/
noncomputable def askEa : Op env.sec.numNodes ℝ :=
  if isComposite env.sec.materials then ask fun p => getEa env.sec.materials p (.num 1)
  else ask fun p => getArea p

/-- `get_eq()` or `get_q()` (section.py 957-964). -/
noncomputable def askQ : Op env.sec.numNodes (ℝ × ℝ) :=
  if isComposite env.sec.materials then ask fun p => getEq env.sec.materials p (.num 1)
  else ask fun p => getQ env.sec.materials p

/-- `get_eig()` or `get_ig()` (section.py 957-964). -/
noncomputable def askIg : Op env.sec.numNodes (ℝ × ℝ × ℝ) :=
  if isComposite env.sec.materials then ask fun p => getEig env.sec.materials p (.num 1)
  else ask fun p => getIg env.sec.materials p

/-- `get_eip()` or `get_ip()` (section.py 833-836, 1324, 1328). -/
noncomputable def askIp : Op env.sec.numNodes (ℝ × ℝ) :=
  if isComposite env.sec.materials then ask fun p => getEip env.sec.materials p (.num 1)
  else ask fun p => getIp env.sec.materials p

/-- `get_nu_eff()` for composite sections, `0.0` otherwise (section.py 535, 1333, 1336). -/
noncomputable def askNu : Op env.sec.numNodes ℝ :=
  if isComposite env.sec.materials then ask fun p => getNuEff env.sec.materials p else return 0

/-- section.py 370-875: `calculate_warping_properties(solver_type)`. -/
noncomputable def warping (ty : SolverType) : Op env.sec.numNodes Unit := do
  let s ← get
  if s.val .area = none ∨ s.val .ixxC = none ∨ s.val .cx = none then throw .runtimeError
  let (cx, cy) ← ask fun p => getC p
  let els := env.sec.elements.map fun t => t.shiftBy cx cy
  let K := (assembleTorsion els).1
  let f := (assembleTorsion els).2
  let omega ← attempt (solveWarping env.solvers ty K f)
  modify fun s => { s with omega := some omega }
  let (ixx, iyy, ixy) ← env.askIc
  write [(.j, ixx + iyy - dotN omega f)]
  let nu ← env.askNu
  let w0 : WarpIn := ⟨ixx, iyy, ixy, nu, 0, 0, 0, 0, 0⟩
  let psi ← attempt (solveShear env.solvers ty K (assembleShearLoad els w0).1)
  let phiS ← attempt (solveShear env.solvers ty K (assembleShearLoad els w0).2)
  modify fun s => { s with psi := some psi, phiS := some phiS }
  let I := scWarpingIntegrals els w0 omega
  let phi ← ask fun p => getPhi p
  let w1 : WarpIn := { w0 with phi := phi }
  let c := shearCentres w1 f psi phiS I
  write [(.deltaS, w1.deltaS), (.xSe, c.xSe), (.ySe, c.ySe), (.x11Se, c.x11Se), (.y22Se, c.y22Se),
    (.xSt, c.xSt), (.ySt, c.ySt)]
  let ea ← env.askEa
  let w2 : WarpIn := { w1 with ea := ea }
  write [(.gamma, warpingConstant w2 I c)]
  let k := shearDeformation els w2 psi phiS
  write [(.aSx, w2.deltaS ^ 2 / k.x), (.aSy, w2.deltaS ^ 2 / k.y), (.aSxy, w2.deltaS ^ 2 / k.xy)]
  let area ← ask fun p => getArea p
  let w3 : WarpIn := { w2 with area := area }
  write [(.aS11, (shearAreas w3 k).s11), (.aS22, (shearAreas w3 k).s22)]
  let m := monosymmetryInts els phi
  let (i11, i22) ← env.askIp
  let w4 : WarpIn := { w3 with i11 := i11, i22 := i22 }
  let b := betas w4 m c
  write [(.betaXPlus, b.xPlus), (.betaXMinus, b.xMinus), (.betaYPlus, b.yPlus),
    (.betaYMinus, b.yMinus), (.beta11Plus, b.b11Plus), (.beta11Minus, b.b11Minus),
    (.beta22Plus, b.b22Plus), (.beta22Minus, b.b22Minus)]

/-- section.py 914-1003: the first half of `calculate_frame_properties`. -/
noncomputable def frameGeom : Op env.sec.numNodes Unit := do
  write [(.area, 0), (.ea, 0), (.qx, 0), (.qy, 0), (.ixxG, 0), (.iyyG, 0), (.ixyG, 0), (.ixxC, 0),
    (.iyyC, 0), (.ixyC, 0), (.j, 0), (.phi, 0)]
  let g := geomSums env.sec.elements
  write [(.area, g.area), (.ea, g.ea), (.qx, g.qx), (.qy, g.qy), (.ixxG, g.ixxG), (.iyyG, g.iyyG),
    (.ixyG, g.ixyG)]
  elasticCentroid
  let ea ← env.askEa
  let (qx, qy) ← env.askQ
  let (ixxG, iyyG, ixyG) ← env.askIg
  write [(.ixxC, ixxG - qx ^ 2 / ea), (.iyyC, iyyG - qy ^ 2 / ea), (.ixyC, ixyG - qx * qy / ea)]
  let (ixx, iyy, ixy) ← env.askIc
  let delta := √(((ixx - iyy) / 2) ^ 2 + ixy ^ 2)
  let i11 := (ixx + iyy) / 2 + delta
  if |ixx - i11| < 1e-12 * i11 then write [(.phi, 0)]
  else write [(.phi, arctan2 (ixx - i11) ixy * 180 / Real.pi)]

/-- section.py 877-1164: `calculate_frame_properties(solver_type)`, returns
`(area, ixx_c, iyy_c, ixy_c, j, phi)`. -/
noncomputable def frame (ty : SolverType) : Op env.sec.numNodes (ℝ × ℝ × ℝ × ℝ × ℝ × ℝ) := do
  env.frameGeom
  let (cx, cy) ← ask fun p => getC p
  let els := env.sec.elements.map fun t => t.shiftBy cx cy
  let K := (assembleTorsion els).1
  let f := (assembleTorsion els).2
  let omega ← attempt (solveWarping env.solvers ty K f)
  modify fun s => { s with omega := some omega }
  let (ixx, iyy, _) ← env.askIc
  write [(.j, ixx + iyy - dotN omega f)]
  let s ← get
  match s.val .area, s.val .ixxC, s.val .iyyC, s.val .ixyC, s.val .j, s.val .phi with
  | some a, some b, some c, some d, some e, some g => return (a, b, c, d, e, g)
  | _, _, _, _, _, _ => throw .runtimeError

/-- Python truthiness of `props.f`: neither `None` nor `0.0`.  (plastic_section.py 221-226, 231-236.) -/
noncomputable def truthy {n : ℕ} (s : Store n) (f : Field) : Prop := ∃ v, s.val f = some v ∧ v ≠ 0

/-- `props.a = num / props.b` for a `b` that is set.  (plastic_section.py 227-230, 237-240.) -/
noncomputable def quot {n : ℕ} (s : Store n) (num den : Field) : ℝ :=
  (s.val num).getD 0 / (s.val den).getD 0

/-- plastic_section.py 214-252: shape factors. -/
noncomputable def shapeFactors {n : ℕ} (ms : List MatObj) : Op n Unit := do
  let s ← get
  if s.val .sxx = none ∨ s.val .syy = none ∨ s.val .s11 = none ∨ s.val .s22 = none then
    throw .runtimeError
  if ¬ isComposite ms then
    if truthy s .zxxPlus ∧ truthy s .zxxMinus ∧ truthy s .zyyPlus ∧ truthy s .zyyMinus then
      write [(.sfXXPlus, quot s .sxx .zxxPlus), (.sfXXMinus, quot s .sxx .zxxMinus),
        (.sfYYPlus, quot s .syy .zyyPlus), (.sfYYMinus, quot s .syy .zyyMinus)]
    if truthy s .z11Plus ∧ truthy s .z11Minus ∧ truthy s .z22Plus ∧ truthy s .z22Minus then
      write [(.sf11Plus, quot s .s11 .z11Plus), (.sf11Minus, quot s .s11 .z11Minus),
        (.sf22Plus, quot s .s22 .z22Plus), (.sf22Minus, quot s .s22 .z22Minus)]
  else
    if truthy s .myXX ∧ truthy s .myYY then
      write [(.sfXXPlus, quot s .sxx .myXX), (.sfXXMinus, quot s .sxx .myXX),
        (.sfYYPlus, quot s .syy .myYY), (.sfYYMinus, quot s .syy .myYY)]
    if truthy s .my11 ∧ truthy s .my22 then
      write [(.sf11Plus, quot s .s11 .my11), (.sf11Minus, quot s .s11 .my11),
        (.sf22Plus, quot s .s22 .my22), (.sf22Minus, quot s .s22 .my22)]

/-- section.py 1166-1249 with plastic_section.py 46-257: `calculate_plastic_properties`. -/
noncomputable def plasticAnalysis : Op env.sec.numNodes Unit := do
  let s ← get
  if s.val .cx = none then throw .runtimeError
  let (ypc, sxx) ← attempt (plasticX env.brentq env.plastic)
  write [(.yPc, ypc), (.sxx, 0), (.sxx, sxx)]
  let (xpc, syy) ← attempt (plasticY env.brentq env.plastic)
  write [(.xPc, xpc), (.syy, 0), (.syy, syy)]
  let s ← get
  match s.val .phi with
  | none => throw .runtimeError
  | some phi =>
    let (y22, s11) ← attempt (plastic11 env.brentq env.plastic phi)
    write [(.y22Pc, y22), (.s11, 0), (.s11, s11)]
    let (x11, s22) ← attempt (plastic22 env.brentq env.plastic phi)
    write [(.x11Pc, x11), (.s22, 0), (.s22, s22)]
    shapeFactors env.sec.materials

/-- section.py 1295-1360: the checks of `calculate_stress` and the properties it collects. -/
noncomputable def stressSetup (a : Actions) :
    Op env.sec.numNodes (StressEnv × WarpFields env.sec.numNodes) := do
  let (cx, cy) ← ask fun p => getC p
  let phi ← ask fun p => getPhi p
  let ea ← env.askEa
  let (ixx, iyy, ixy) ← env.askIc
  let (i11, i22) ← env.askIp
  if a.vx ≠ 0 ∨ a.vy ≠ 0 ∨ a.mzz ≠ 0 then
    let j ← if isComposite env.sec.materials then ask fun p => getEj env.sec.materials p (.num 1)
      else ask fun p => getJ env.sec.materials p
    let nu ← env.askNu
    let s ← get
    match s.val .deltaS, s.omega, s.psi, s.phiS with
    | some ds, some om, some ps, some ph =>
      return (⟨ea, cx, cy, ixx, iyy, ixy, i11, i22, phi, j, nu, ds⟩, ⟨om, ps, ph⟩)
    | _, _, _, _ => throw .runtimeError
  else
    return (⟨ea, cx, cy, ixx, iyy, ixy, i11, i22, phi, 0, 0, 0⟩,
      ⟨fun _ => 0, fun _ => 0, fun _ => 0⟩)

/-- section.py 1251-1481: `calculate_stress`. -/
noncomputable def stress (a : Actions) : Op env.sec.numNodes (List (GroupStress env.sec.numNodes)) := do
  let s ← get
  if s.val .area = none ∨ s.val .ixxC = none ∨ s.val .cx = none then throw .runtimeError
  if (a.vx ≠ 0 ∨ a.vy ≠ 0 ∨ a.mzz ≠ 0) ∧ s.omega = none then throw .runtimeError
  let (e, wf) ← env.stressSetup a
  return stressLoop env.sec.groups a e wf

/-- section.py 3274-3446: `get_stress_at_points`; the order in which the properties are collected
differs from `calculate_stress` only in getters that raise the same exception. -/
noncomputable def stressPoints (query : ℝ × ℝ → List ℕ) (agg : List ℝ → ℝ) (a : Actions)
    (pts : List (ℝ × ℝ)) : Op env.sec.numNodes (List (Option (ℝ × ℝ × ℝ))) := do
  let s ← get
  if (a.vx ≠ 0 ∨ a.vy ≠ 0 ∨ a.mzz ≠ 0) ∧ s.omega = none then throw .runtimeError
  let (e, wf) ← env.stressSetup a
  attempt (stressAtPoints env.sec.elements query a e wf agg pts)

/-- The calls a user can make on a section after construction.  (section.py 176, 370, 877, 1166, 1251, 3274.) -/
inductive Call where
  | geometric
  | warping (ty : SolverType)
  | frame (ty : SolverType)
  | plastic
  | stress (a : Actions)
  | stressPoints (query : ℝ × ℝ → List ℕ) (agg : List ℝ → ℝ) (a : Actions) (pts : List (ℝ × ℝ))

/-- One call: whether it raised, and the store after it.  (section.py 176-1481, 3274-3446.) -/
noncomputable def step (c : Call) (s : Store env.sec.numNodes) :
    Except PyErr Unit × Store env.sec.numNodes :=
  match c with
  | .geometric => env.geometric.run.run s
  | .warping ty => (env.warping ty).run.run s
  | .frame ty => ((env.frame ty).run.run s).map (fun r => r.map fun _ => ()) id
  | .plastic => env.plasticAnalysis.run.run s
  | .stress a => ((env.stress a).run.run s).map (fun r => r.map fun _ => ()) id
  | .stressPoints q agg a pts => ((env.stressPoints q agg a pts).run.run s).map
      (fun r => r.map fun _ => ()) id

/-- The store after a history of calls (exceptions caught by the caller) on a fresh section.  (section.py 176-1481, 3274-3446.) -/
noncomputable def after (h : List Call) : Store env.sec.numNodes :=
  h.foldl (fun s c => (env.step c s).2) (Store.empty _)

end Env

end SP
