import Verif.Model.Section
import Verif.Model.Solver

/-!
# Model of the warping analysis: section.py 370-875 and 1483-1546

Progress bars are not modelled.  The geometry passed to the inner `Section(geometry=...)` is an
argument, because the code rebuilds the section from `self.geometry`.
-/

namespace SP

/-- numpy `a[ids] += v`: `a[ids] = a[ids] + v`, written entry by entry, so that with repeated indices
the last write wins (section.py 551, 1417, 1520, ...). -/
noncomputable def fancyAdd {n : ℕ} (a : Fin n → ℝ) (ids : Fin 6 → Fin n) (v : Fin 6 → ℝ) :
    Fin n → ℝ :=
  (List.finRange 6).foldl (fun acc k => Function.update acc (ids k) (a (ids k) + v k)) a

/-- `f = np.zeros(n); for el in elements: f[el.node_ids] += v(el)`.  (section.py 551-552, 1520-1521.) -/
noncomputable def assembleVec {n : ℕ} (els : List (Tri6 n)) (v : Tri6 n → Fin 6 → ℝ) : Fin n → ℝ :=
  els.foldl (fun f t => fancyAdd f t.nodeIds (v t)) fun _ => 0

/-- An entry `(row, col, data)` of a sparse matrix in COO format.  (section.py 1523-1545.) -/
abbrev CooEntry := ℕ × ℕ × ℝ

/-- `coo_matrix((data, (row, col)), shape=(m, m))` converted to CSC: entries with the same indices are
added (section.py 1542-1546). -/
noncomputable def cooMatrix (m : ℕ) (es : List CooEntry) : Matrix (Fin m) (Fin m) ℝ :=
  fun i j => accum es fun e => if e.1 = i.val ∧ e.2.1 = j.val then e.2.2 else 0

/-- section.py 1523-1526: the 36 entries of one element, `row` repeats each node id six times, `col`
repeats the list of node ids six times, `data` is `k_el.flatten()`. -/
noncomputable def elementCoo {n : ℕ} (t : Tri6 n) : List CooEntry :=
  (List.finRange 6).flatMap fun a => (List.finRange 6).map fun b =>
    ((t.nodeIds a).val, (t.nodeIds b).val, t.kEl a b)

/-- section.py 1483-1546: `assemble_torsion`, returns `(k_lg, f_torsion)`. -/
noncomputable def assembleTorsion {n : ℕ} (els : List (Tri6 n)) :
    Matrix (Fin (n + 1)) (Fin (n + 1)) ℝ × (Fin n → ℝ) :=
  let f := assembleVec els Tri6.fEl
  let c := assembleVec els Tri6.cEl
  let es := els.flatMap elementCoo
    ++ (List.finRange n).map (fun i => (i.val, n, c i))
    ++ (List.finRange n).map (fun i => (n, i.val, c i))
  (cooMatrix (n + 1) es, f)

/-- `omega.dot(f)` for vectors of nodal values.  (section.py 532, 693-694.) -/
def dotN {n : ℕ} (a b : Fin n → ℝ) : ℝ := ∑ i, a i * b i

/-- section.py 438-440: the element with coordinates relative to `(cx, cy)`. -/
def Tri6.shiftBy {n : ℕ} (t : Tri6 n) (cx cy : ℝ) : Tri6 n := { t with coords := t.coords.shift cx cy }

/-- `omega[el.node_ids]`.  (section.py 648, 731-732, 1373-1375.) -/
def Tri6.local {n : ℕ} (t : Tri6 n) (u : Fin n → ℝ) : Fin 6 → ℝ := fun k => u (t.nodeIds k)

/-- The properties that the warping analysis reads from the store (section.py 409-440, 527-535, 691,
711, 767, 833-836). -/
@[ext] structure WarpIn where
  ixx : ℝ
  iyy : ℝ
  ixy : ℝ
  nu : ℝ
  phi : ℝ
  area : ℝ
  ea : ℝ
  i11 : ℝ
  i22 : ℝ

/-- section.py 537-557: `assemble_shear_load`, returns `(f_psi, f_phi)`. -/
noncomputable def assembleShearLoad {n : ℕ} (els : List (Tri6 n)) (w : WarpIn) :
    (Fin n → ℝ) × (Fin n → ℝ) :=
  (assembleVec els fun t => t.fPsiEl w.ixx w.iyy w.ixy w.nu,
   assembleVec els fun t => t.fPhiEl w.ixx w.iyy w.ixy w.nu)

/-- section.py 625-661: `assemble_sc_warping_integrals`. -/
noncomputable def scWarpingIntegrals {n : ℕ} (els : List (Tri6 n)) (w : WarpIn) (omega : Fin n → ℝ) :
    WarpInts :=
  let el := fun t : Tri6 n => t.shearWarpingIntegrals w.ixx w.iyy w.ixy (t.local omega)
  { scX := accum els fun t => (el t).scX
    scY := accum els fun t => (el t).scY
    qOmega := accum els fun t => (el t).qOmega
    iOmega := accum els fun t => (el t).iOmega
    iXomega := accum els fun t => (el t).iXomega
    iYomega := accum els fun t => (el t).iYomega }

/-- section.py 717-743: `assemble_shear_deformation`. -/
noncomputable def shearDeformation {n : ℕ} (els : List (Tri6 n)) (w : WarpIn)
    (psi phiS : Fin n → ℝ) : Kappas :=
  let el := fun t : Tri6 n => t.shearCoefficients w.ixx w.iyy w.ixy (t.local psi) (t.local phiS) w.nu
  { x := accum els fun t => (el t).x
    y := accum els fun t => (el t).y
    xy := accum els fun t => (el t).xy }

/-- section.py 790-815: `calculate_monosymmetry_integrals`. -/
noncomputable def monosymmetryInts {n : ℕ} (els : List (Tri6 n)) (phi : ℝ) : MonoInts :=
  { x := accum els fun t => (t.monosymmetryIntegrals phi).x
    y := accum els fun t => (t.monosymmetryIntegrals phi).y
    i11 := accum els fun t => (t.monosymmetryIntegrals phi).i11
    i22 := accum els fun t => (t.monosymmetryIntegrals phi).i22 }

/-- section.py 692: `delta_s`. -/
noncomputable def WarpIn.deltaS (w : WarpIn) : ℝ := 2 * (1 + w.nu) * (w.ixx * w.iyy - w.ixy ^ 2)

/-- Shear centres (section.py 691-708). -/
@[ext] structure ShearCentres where
  xSe : ℝ
  ySe : ℝ
  x11Se : ℝ
  y22Se : ℝ
  xSt : ℝ
  ySt : ℝ

/-- section.py 691-699. -/
noncomputable def shearCentres {n : ℕ} (w : WarpIn) (f psi phiS : Fin n → ℝ) (I : WarpInts) :
    ShearCentres :=
  let xSe := 1 / w.deltaS * (w.nu / 2 * I.scX - dotN f phiS)
  let ySe := 1 / w.deltaS * (w.nu / 2 * I.scY + dotN f psi)
  let pc := principalCoordinate w.phi xSe ySe
  { xSe := xSe, ySe := ySe, x11Se := pc.1, y22Se := pc.2
    xSt := (w.ixy * I.iXomega - w.iyy * I.iYomega) / (w.ixx * w.iyy - w.ixy ^ 2)
    ySt := (w.ixx * I.iXomega - w.ixy * I.iYomega) / (w.ixx * w.iyy - w.ixy ^ 2) }

/-- section.py 713-715: the warping constant. -/
noncomputable def warpingConstant (w : WarpIn) (I : WarpInts) (c : ShearCentres) : ℝ :=
  I.iOmega - I.qOmega ^ 2 / w.ea - c.ySe * I.iXomega + c.xSe * I.iYomega

/-- Shear areas (section.py 762-764, 786-787). -/
@[ext] structure ShearAreas where
  sx : ℝ
  sy : ℝ
  sxy : ℝ
  s11 : ℝ
  s22 : ℝ

/-- section.py 761-787. -/
noncomputable def shearAreas (w : WarpIn) (k : Kappas) : ShearAreas :=
  let d := w.deltaS
  let axx := k.x * w.area / d ^ 2
  let ayy := k.y * w.area / d ^ 2
  let axy := k.xy * w.area / d ^ 2
  let c := Real.cos (w.phi * Real.pi / 180)
  let s := Real.sin (w.phi * Real.pi / 180)
  let r : Matrix (Fin 2) (Fin 2) ℝ := !![c, s; -s, c]
  let rot := r * !![axx, axy; axy, ayy] * r.transpose
  { sx := d ^ 2 / k.x
    sy := d ^ 2 / k.y
    sxy := d ^ 2 / k.xy
    s11 := w.area / rot 0 0
    s22 := w.area / rot 1 1 }

/-- Monosymmetry constants (section.py 838-845). -/
@[ext] structure Betas where
  xPlus : ℝ
  xMinus : ℝ
  yPlus : ℝ
  yMinus : ℝ
  b11Plus : ℝ
  b11Minus : ℝ
  b22Plus : ℝ
  b22Minus : ℝ

/-- section.py 838-845. -/
noncomputable def betas (w : WarpIn) (m : MonoInts) (c : ShearCentres) : Betas :=
  { xPlus := -m.x / w.ixx + 2 * c.ySe
    xMinus := m.x / w.ixx - 2 * c.ySe
    yPlus := -m.y / w.iyy + 2 * c.xSe
    yMinus := m.y / w.iyy - 2 * c.xSe
    b11Plus := -m.i11 / w.i11 + 2 * c.y22Se
    b11Minus := m.i11 / w.i11 - 2 * c.y22Se
    b22Plus := -m.i22 / w.i22 + 2 * c.x11Se
    b22Minus := m.i22 / w.i22 - 2 * c.x11Se }

/-- Everything `calculate_warping_properties` stores. -/
@[ext] structure WarpResults (n : ℕ) where
  omega : Fin n → ℝ
  j : ℝ
  psi : Fin n → ℝ
  phiS : Fin n → ℝ
  deltaS : ℝ
  sc : ShearCentres
  gamma : ℝ
  areas : ShearAreas
  beta : Betas

/-- section.py 442-845: the body `warping_analysis` on the shifted elements. -/
noncomputable def warpingAnalysis {n : ℕ} (sv : Solvers) (ty : SolverType) (els : List (Tri6 n))
    (w : WarpIn) : Except PyErr (WarpResults n) :=
  let K := (assembleTorsion els).1
  let f := (assembleTorsion els).2
  match solveWarping sv ty K f with
  | .error e => .error e
  | .ok omega =>
    match solveShear sv ty K (assembleShearLoad els w).1 with
    | .error e => .error e
    | .ok psi =>
      match solveShear sv ty K (assembleShearLoad els w).2 with
      | .error e => .error e
      | .ok phiS =>
        let I := scWarpingIntegrals els w omega
        let c := shearCentres w f psi phiS I
        let k := shearDeformation els w psi phiS
        let m := monosymmetryInts els w.phi
        .ok { omega := omega
              j := w.ixx + w.iyy - dotN omega f
              psi := psi, phiS := phiS
              deltaS := w.deltaS
              sc := c
              gamma := warpingConstant w I c
              areas := shearAreas w k
              beta := betas w m c }

open Classical in
/-- The values read by a warping analysis after a geometric analysis (section.py 436, 527-535, 691,
711, 767, 833): for composite sections the modulus-weighted getters, otherwise the geometric ones;
both read the same stored fields except `ea`/`area` and `nu_eff`/`0.0`. -/
noncomputable def warpIn (mats : List MatObj) (r : GeomResults) : WarpIn :=
  { ixx := r.cent.ixxC, iyy := r.cent.iyyC, ixy := r.cent.ixyC
    nu := if isComposite mats then r.nuEff else 0
    phi := r.cent.phi
    area := r.sums.area
    ea := if isComposite mats then r.sums.ea else r.sums.area
    i11 := r.cent.i11, i22 := r.cent.i22 }

/-- section.py 370-875: `calculate_warping_properties` on a section `s` for which a geometric analysis
returned `r`, with the geometry unchanged since the construction of `s` (so that the inner
`Section(geometry=self.geometry)` has the same elements). -/
noncomputable def Section.warping (sv : Solvers) (ty : SolverType) (s : Section) (r : GeomResults) :
    Except PyErr (WarpResults s.numNodes) :=
  warpingAnalysis sv ty (s.elements.map fun t => t.shiftBy r.cx r.cy) (warpIn s.materials r)

end SP
