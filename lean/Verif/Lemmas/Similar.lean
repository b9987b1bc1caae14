import Verif.Props.Transform
import Verif.Props.Torsion
import Verif.Props.Shear
import Verif.Lemmas.ShearForms

/-!
# Elements turned and scaled

The quantities of the warping analysis on the elements that are turned and scaled about the origin by
the map `(x, y) ↦ (a x - b y, b x + a y)`, in terms of those on the original elements.
-/

namespace SP

open Spec

variable {n : ℕ} {a b : ℝ}

/-- Turning and scaling about the origin. -/
def turn (a b : ℝ) : ℝ × ℝ → ℝ × ℝ := affine a (-b) b a 0 0

theorem accum_congr {α : Type*} {l : List α} {f g : α → ℝ} (h : ∀ x ∈ l, f x = g x) :
    accum l f = accum l g := by
  rw [accum_eq_sum, accum_eq_sum]
  exact congrArg List.sum (List.map_congr_left h)

theorem accum_lc2 {α : Type*} (l : List α) (u v : ℝ) (f g : α → ℝ) :
    accum l (fun x => u * f x + v * g x) = u * accum l f + v * accum l g := by
  simp only [accum_eq_sum]
  induction l with
  | nil => simp
  | cons x l ih => simp only [List.map_cons, List.sum_cons, ih]; ring

theorem accum_lc3 {α : Type*} (l : List α) (u v w : ℝ) (f g h : α → ℝ) :
    accum l (fun x => u * f x + v * g x + w * h x) = u * accum l f + v * accum l g + w * accum l h := by
  simp only [accum_eq_sum]
  induction l with
  | nil => simp
  | cons x l ih => simp only [List.map_cons, List.sum_cons, ih]; ring

theorem accum_smul {α : Type*} (l : List α) (u : ℝ) (f : α → ℝ) :
    accum l (fun x => u * f x) = u * accum l f := by
  simpa using accum_lc2 l u 0 f f

theorem accum_map {α β : Type*} (l : List α) (g : α → β) (f : β → ℝ) :
    accum (l.map g) f = accum l fun x => f (g x) := by
  simp only [accum_eq_sum, List.map_map, Function.comp_def]

theorem jMat_turn (c : Coords) (e x z : ℝ) :
    jMat (c.map (turn a b)) e x z = jMat c e x z * !![1, 0, 0; 0, a, b; 0, -b, a] := by
  ext i j
  fin_cases j <;>
    simp [jMat, Matrix.mul_apply, Fin.sum_univ_three, Coords.map, turn, affine, Fin.sum_univ_six] <;> ring

/-- The shape functions of the turned element. -/
theorem shape_turn (hk : a ^ 2 + b ^ 2 ≠ 0) (c : Coords) (gp : GaussPt) :
    let s := shapeFunction c gp
    let s' := shapeFunction (c.map (turn a b)) gp
    s'.n = s.n ∧ s'.j = (a ^ 2 + b ^ 2) * s.j ∧ s'.nx = a * s.nx - b * s.ny ∧
    s'.ny = b * s.nx + a * s.ny ∧
    (∀ i, s'.bx i = (a * s.bx i - b * s.by' i) / (a ^ 2 + b ^ 2)) ∧
    (∀ i, s'.by' i = (b * s.bx i + a * s.by' i) / (a ^ 2 + b ^ 2)) := by
  have hdet : (jMat (c.map (turn a b)) gp.eta gp.xi gp.zeta).det
      = (a ^ 2 + b ^ 2) * (jMat c gp.eta gp.xi gp.zeta).det := by
    rw [jMat_turn, Matrix.det_mul, Matrix.det_fin_three !![1, 0, 0; 0, a, b; 0, -b, a]]
    simp; ring
  have hinv : (jMat (c.map (turn a b)) gp.eta gp.xi gp.zeta)⁻¹
      = !![1, 0, 0; 0, a / (a ^ 2 + b ^ 2), -b / (a ^ 2 + b ^ 2); 0, b / (a ^ 2 + b ^ 2), a / (a ^ 2 + b ^ 2)]
        * (jMat c gp.eta gp.xi gp.zeta)⁻¹ := by
    rw [jMat_turn, Matrix.mul_inv_rev]
    congr 1
    apply Matrix.inv_eq_left_inv
    ext i j
    fin_cases i <;> fin_cases j <;> simp [Matrix.mul_apply, Fin.sum_univ_three] <;> field_simp <;> ring
  simp only [shapeFunction]
  refine ⟨trivial, ?_, ?_, ?_, fun i => ?_, fun i => ?_⟩
  · rw [hdet]; ring
  · simp only [Coords.map, turn, affine, Fin.sum_univ_six]; ring
  · simp only [Coords.map, turn, affine, Fin.sum_univ_six]; ring
  all_goals
    have hj' : (0.5 * (jMat (c.map (turn a b)) gp.eta gp.xi gp.zeta).det ≠ 0)
        ↔ (0.5 * (jMat c gp.eta gp.xi gp.zeta).det ≠ 0) := by
      rw [hdet]
      simp [hk]
    by_cases h0 : 0.5 * (jMat c gp.eta gp.xi gp.zeta).det ≠ 0
    · rw [if_pos h0, if_pos (hj'.2 h0), if_pos h0, hinv, Matrix.mul_assoc]
      generalize (jMat c gp.eta gp.xi gp.zeta)⁻¹ * bIso gp.eta gp.xi gp.zeta = B
      simp [Matrix.mul_apply, Fin.sum_univ_three]
      ring
    · rw [if_neg h0, if_neg (fun h => h0 (hj'.1 h)), if_neg h0]
      simp

section
variable (hk : a ^ 2 + b ^ 2 ≠ 0) (t : Tri6 n)
include hk

theorem eWeight_turn (gp : GaussPt) :
    (t.map (turn a b)).eWeight gp = (a ^ 2 + b ^ 2) * t.eWeight gp := by
  obtain ⟨-, h, -⟩ := shape_turn hk t.coords gp
  simp only [Tri6.eWeight, Tri6.map, h]; ring

theorem kEl_turn (i j : Fin 6) : (t.map (turn a b)).kEl i j = t.kEl i j := by
  refine accum_congr fun gp _ => ?_
  obtain ⟨-, -, -, -, h5, h6⟩ := shape_turn hk t.coords gp
  simp only [eWeight_turn hk]
  simp only [Tri6.map, h5, h6]
  field_simp; ring

theorem fEl_turn (i : Fin 6) : (t.map (turn a b)).fEl i = (a ^ 2 + b ^ 2) * t.fEl i := by
  rw [Tri6.fEl, Tri6.fEl, ← accum_smul]
  refine accum_congr fun gp _ => ?_
  obtain ⟨-, -, h3, h4, h5, h6⟩ := shape_turn hk t.coords gp
  simp only [eWeight_turn hk]
  simp only [Tri6.map, h3, h4, h5, h6]
  field_simp; ring

theorem cEl_turn (i : Fin 6) : (t.map (turn a b)).cEl i = (a ^ 2 + b ^ 2) * t.cEl i := by
  rw [Tri6.cEl, Tri6.cEl, ← accum_smul]
  refine accum_congr fun gp _ => ?_
  obtain ⟨h1, -⟩ := shape_turn hk t.coords gp
  simp only [eWeight_turn hk]
  simp only [Tri6.map, h1]
  ring

end

/-- The second moments `w'` are those of the elements turned and scaled; the other inputs are those of
`w`. -/
structure Turned (a b : ℝ) (w w' : WarpIn) : Prop where
  ixx : w'.ixx = (a ^ 2 + b ^ 2) * (b ^ 2 * w.iyy + 2 * a * b * w.ixy + a ^ 2 * w.ixx)
  iyy : w'.iyy = (a ^ 2 + b ^ 2) * (a ^ 2 * w.iyy - 2 * a * b * w.ixy + b ^ 2 * w.ixx)
  ixy : w'.ixy = (a ^ 2 + b ^ 2) * (a * b * w.iyy + (a ^ 2 - b ^ 2) * w.ixy - a * b * w.ixx)
  nu : w'.nu = w.nu
  area : w'.area = (a ^ 2 + b ^ 2) * w.area
  ea : w'.ea = (a ^ 2 + b ^ 2) * w.ea

section
variable (hk : a ^ 2 + b ^ 2 ≠ 0) (t : Tri6 n) {w w' : WarpIn} (hw : Turned a b w w')
include hw

theorem shearParameter_turn (x y : ℝ) :
    let p := shearParameter x y w.ixx w.iyy w.ixy
    let p' := shearParameter (a * x - b * y) (b * x + a * y) w'.ixx w'.iyy w'.ixy
    p'.d1 = (a ^ 2 + b ^ 2) ^ 2 * (a * (a * p.d1 - b * p.h1) - b * (a * p.d2 - b * p.h2)) ∧
    p'.d2 = (a ^ 2 + b ^ 2) ^ 2 * (b * (a * p.d1 - b * p.h1) + a * (a * p.d2 - b * p.h2)) ∧
    p'.h1 = (a ^ 2 + b ^ 2) ^ 2 * (a * (b * p.d1 + a * p.h1) - b * (b * p.d2 + a * p.h2)) ∧
    p'.h2 = (a ^ 2 + b ^ 2) ^ 2 * (b * (b * p.d1 + a * p.h1) + a * (b * p.d2 + a * p.h2)) := by
  simp only [shearParameter, hw.ixx, hw.iyy, hw.ixy]
  refine ⟨?_, ?_, ?_, ?_⟩ <;> ring

include hk

theorem fPsi_turn (i : Fin 6) : (t.map (turn a b)).fPsiEl w'.ixx w'.iyy w'.ixy w'.nu i
    = (a ^ 2 + b ^ 2) ^ 3 * a * t.fPsiEl w.ixx w.iyy w.ixy w.nu i
      + -((a ^ 2 + b ^ 2) ^ 3 * b) * t.fPhiEl w.ixx w.iyy w.ixy w.nu i := by
  rw [Tri6.fPsiEl, Tri6.fPsiEl, Tri6.fPhiEl, ← accum_lc2]
  refine accum_congr fun gp _ => ?_
  obtain ⟨h1, -, h3, h4, h5, h6⟩ := shape_turn hk t.coords gp
  simp only [eWeight_turn hk]
  simp only [Tri6.map, h1, h3, h4, h5, h6]
  obtain ⟨p1, p2, -, -⟩ := shearParameter_turn hw (shapeFunction t.coords gp).nx
    (shapeFunction t.coords gp).ny
  rw [p1, p2]
  simp only [hw.ixx, hw.ixy, hw.nu]
  field_simp; ring

theorem fPhi_turn (i : Fin 6) : (t.map (turn a b)).fPhiEl w'.ixx w'.iyy w'.ixy w'.nu i
    = (a ^ 2 + b ^ 2) ^ 3 * b * t.fPsiEl w.ixx w.iyy w.ixy w.nu i
      + (a ^ 2 + b ^ 2) ^ 3 * a * t.fPhiEl w.ixx w.iyy w.ixy w.nu i := by
  rw [Tri6.fPhiEl, Tri6.fPsiEl, Tri6.fPhiEl, ← accum_lc2]
  refine accum_congr fun gp _ => ?_
  obtain ⟨h1, -, h3, h4, h5, h6⟩ := shape_turn hk t.coords gp
  simp only [eWeight_turn hk]
  simp only [Tri6.map, h1, h3, h4, h5, h6]
  obtain ⟨-, -, p1, p2⟩ := shearParameter_turn hw (shapeFunction t.coords gp).nx
    (shapeFunction t.coords gp).ny
  rw [p1, p2]
  simp only [hw.iyy, hw.ixy, hw.nu]
  field_simp; ring

end

theorem dot6_turn (u v κ k1 k2 : ℝ) (x1 x2 y1 y2 : Fin 6 → ℝ) :
    dot6 (fun i => (u * x1 i + v * x2 i) / κ) (fun i => k1 * y1 i + k2 * y2 i)
      = (u * (k1 * dot6 x1 y1 + k2 * dot6 x1 y2) + v * (k1 * dot6 x2 y1 + k2 * dot6 x2 y2)) / κ := by
  simp only [dot6, Fin.sum_univ_six]; ring

theorem dot6_smul (u : ℝ) (x y : Fin 6 → ℝ) : dot6 x (fun i => u * y i) = u * dot6 x y := by
  simp only [dot6, Finset.mul_sum]
  exact Finset.sum_congr rfl fun i _ => by ring

/-! ### Assembled -/

variable {els : List (Tri6 n)}

/-- All elements turned and scaled. -/
def turned (a b : ℝ) (els : List (Tri6 n)) : List (Tri6 n) := els.map fun t => t.map (turn a b)

theorem turned_distinct (hd : DistinctNodes els) : DistinctNodes (turned a b els) := by
  intro t ht
  obtain ⟨u, hu, rfl⟩ := List.mem_map.1 ht
  exact hd u hu

theorem assembleVec_turn (hd : DistinctNodes els) {f g h : Tri6 n → Fin 6 → ℝ} {u v : ℝ}
    (e : ∀ t i, f (t.map (turn a b)) i = u * g t i + v * h t i) (i : Fin n) :
    assembleVec (turned a b els) f i = u * assembleVec els g i + v * assembleVec els h i := by
  rw [assembleVec_apply (turned_distinct hd), assembleVec_apply hd, assembleVec_apply hd, turned,
    List.map_map, ← List.sum_map_mul_left, ← List.sum_map_mul_left, ← List.sum_map_add]
  refine congrArg List.sum (List.map_congr_left fun t _ => ?_)
  simp only [Function.comp_apply, e, Finset.mul_sum, ← Finset.sum_add_distrib]
  refine Finset.sum_congr rfl fun k _ => ?_
  change (if t.nodeIds k = i then _ else _) = _
  split_ifs <;> ring

section
variable (hk : a ^ 2 + b ^ 2 ≠ 0) (hd : DistinctNodes els) {w w' : WarpIn} (hw : Turned a b w w')
include hk

theorem stiff_turn (i j : Fin n) : stiff (turned a b els) i j = stiff els i j := by
  simp only [stiff, turned, List.map_map]
  refine congrArg List.sum (List.map_congr_left fun t _ => ?_)
  simp only [Function.comp_apply, kEl_turn hk]
  rfl

include hd

theorem load_turn (i : Fin n) : (assembleTorsion (turned a b els)).2 i
    = (a ^ 2 + b ^ 2) * (assembleTorsion els).2 i := by
  rw [torsion_load, torsion_load, assembleVec_turn hd (g := Tri6.fEl) (h := Tri6.fEl)
    (u := a ^ 2 + b ^ 2) (v := 0)]
  · ring
  · intro t i; rw [fEl_turn hk]; ring

/-- The turned elements give the same equations. -/
theorem solves_turn {f u : Fin n → ℝ} (h : SolvesBordered (assembleTorsion (turned a b els)).1 f u) :
    SolvesBordered (assembleTorsion els).1 f u := by
  obtain ⟨μ, h⟩ := h
  obtain ⟨h1, h2⟩ := (klg_mulVec _ _ f 0).1 h
  have hc : ∀ i, assembleVec (turned a b els) Tri6.cEl i
      = (a ^ 2 + b ^ 2) * assembleVec els Tri6.cEl i := by
    intro i
    rw [assembleVec_turn hd (g := Tri6.cEl) (h := Tri6.cEl) (u := a ^ 2 + b ^ 2) (v := 0)]
    · ring
    · intro t i; rw [cEl_turn hk]; ring
  simp only [Fin.snoc_castSucc, Fin.snoc_last, stiff_turn hk, hc] at h1 h2
  refine ⟨(a ^ 2 + b ^ 2) * μ, (klg_mulVec _ _ f 0).2 ⟨fun i => ?_, ?_⟩⟩
  · simp only [Fin.snoc_castSucc, Fin.snoc_last]
    rw [← h1 i]; ring
  · simp only [Fin.snoc_castSucc]
    simp only [mul_assoc, ← Finset.mul_sum] at h2
    exact (mul_eq_zero.1 h2).resolve_left hk

include hw in
theorem shearLoad_turn (i : Fin n) :
    (assembleShearLoad (turned a b els) w').1 i
      = (a ^ 2 + b ^ 2) ^ 3 * a * (assembleShearLoad els w).1 i
        + -((a ^ 2 + b ^ 2) ^ 3 * b) * (assembleShearLoad els w).2 i ∧
    (assembleShearLoad (turned a b els) w').2 i
      = (a ^ 2 + b ^ 2) ^ 3 * b * (assembleShearLoad els w).1 i
        + (a ^ 2 + b ^ 2) ^ 3 * a * (assembleShearLoad els w).2 i :=
  ⟨assembleVec_turn hd (fun t i => fPsi_turn hk t hw i) i,
    assembleVec_turn hd (fun t i => fPhi_turn hk t hw i) i⟩

end

/-- Exact solutions of the bordered system depend linearly on the load. -/
theorem solves_lc {A : Matrix (Fin (n + 1)) (Fin (n + 1)) ℝ} {f1 f2 x1 x2 : Fin n → ℝ}
    (h1 : SolvesBordered A f1 x1) (h2 : SolvesBordered A f2 x2) (u v : ℝ) :
    SolvesBordered A (fun i => u * f1 i + v * f2 i) (fun i => u * x1 i + v * x2 i) := by
  obtain ⟨m1, h1⟩ := h1
  obtain ⟨m2, h2⟩ := h2
  have e : ∀ (y1 y2 : Fin n → ℝ) (z1 z2 : ℝ),
      (Fin.snoc (α := fun _ => ℝ) (fun i => u * y1 i + v * y2 i) (u * z1 + v * z2) : Fin (n + 1) → ℝ)
        = u • (Fin.snoc (α := fun _ => ℝ) y1 z1 : Fin (n + 1) → ℝ)
          + v • (Fin.snoc (α := fun _ => ℝ) y2 z2 : Fin (n + 1) → ℝ) := by
    intro y1 y2 z1 z2
    funext i
    refine Fin.lastCases ?_ (fun i => ?_) i <;> simp
  refine ⟨u * m1 + v * m2, ?_⟩
  rw [e, Matrix.mulVec_add, Matrix.mulVec_smul, Matrix.mulVec_smul, h1, h2, ← e]
  simp

theorem solves_unique (h : Physical els) (hd : DistinctNodes els) (hc : ConnectedMesh els)
    {f x y : Fin n → ℝ} (hx : SolvesBordered (assembleTorsion els).1 f x)
    (hy : SolvesBordered (assembleTorsion els).1 f y) : x = y := by
  obtain ⟨m1, h1⟩ := hx
  obtain ⟨m2, h2⟩ := hy
  have := ((C18_unique_iff_connected h hd).2 hc _).unique h1 h2
  funext i
  simpa using congrFun this (Fin.castSucc i)

section
variable (hk : a ^ 2 + b ^ 2 ≠ 0) {w w' : WarpIn} (hw : Turned a b w w')
include hk hw

/-- The integrals of the warping function. -/
theorem scInts_turn (omega : Fin n → ℝ) :
    let I := scWarpingIntegrals els w omega
    let I' := scWarpingIntegrals (turned a b els) w' (fun i => (a ^ 2 + b ^ 2) * omega i)
    I'.scX = (a ^ 2 + b ^ 2) ^ 4 * a * I.scX + -((a ^ 2 + b ^ 2) ^ 4 * b) * I.scY ∧
    I'.scY = (a ^ 2 + b ^ 2) ^ 4 * b * I.scX + (a ^ 2 + b ^ 2) ^ 4 * a * I.scY ∧
    I'.qOmega = (a ^ 2 + b ^ 2) ^ 2 * I.qOmega ∧ I'.iOmega = (a ^ 2 + b ^ 2) ^ 3 * I.iOmega ∧
    I'.iXomega = (a ^ 2 + b ^ 2) ^ 2 * a * I.iXomega + -((a ^ 2 + b ^ 2) ^ 2 * b) * I.iYomega ∧
    I'.iYomega = (a ^ 2 + b ^ 2) ^ 2 * b * I.iXomega + (a ^ 2 + b ^ 2) ^ 2 * a * I.iYomega := by
  simp only [scWarpingIntegrals, turned, accum_map, ← accum_lc2]
  simp only [← accum_smul]
  refine ⟨?_, ?_, ?_, ?_, ?_, ?_⟩ <;> refine accum_congr fun t _ => ?_ <;>
    simp only [Tri6.shearWarpingIntegrals, ← accum_lc2] <;> (try simp only [← accum_smul]) <;>
    refine accum_congr fun gp _ => ?_ <;>
    obtain ⟨h1, -, h3, h4, -, -⟩ := shape_turn hk t.coords gp <;>
    simp only [eWeight_turn hk] <;> simp only [Tri6.map, h1, h3, h4]
  · simp only [hw.iyy, hw.ixy]; ring
  · simp only [hw.ixx, hw.ixy]; ring
  all_goals
    have el : ∀ c, (Tri6.local (⟨t.elId, c, t.nodeIds, t.material⟩ : Tri6 n)
        fun i => (a ^ 2 + b ^ 2) * omega i) = fun k => (a ^ 2 + b ^ 2) * t.local omega k := fun _ => rfl
    rw [el, dot6_smul]
    ring

/-- The shear deformation coefficients. -/
theorem kappas_turn (psi phi : Fin n → ℝ) :
    let k := shearDeformation els w psi phi
    let k' := shearDeformation (turned a b els) w'
      (fun i => (a ^ 2 + b ^ 2) ^ 3 * a * psi i + -((a ^ 2 + b ^ 2) ^ 3 * b) * phi i)
      (fun i => (a ^ 2 + b ^ 2) ^ 3 * b * psi i + (a ^ 2 + b ^ 2) ^ 3 * a * phi i)
    k'.x = (a ^ 2 + b ^ 2) ^ 6 * a ^ 2 * k.x + -(2 * (a ^ 2 + b ^ 2) ^ 6 * a * b) * k.xy
      + (a ^ 2 + b ^ 2) ^ 6 * b ^ 2 * k.y ∧
    k'.y = (a ^ 2 + b ^ 2) ^ 6 * b ^ 2 * k.x + (2 * (a ^ 2 + b ^ 2) ^ 6 * a * b) * k.xy
      + (a ^ 2 + b ^ 2) ^ 6 * a ^ 2 * k.y ∧
    k'.xy = (a ^ 2 + b ^ 2) ^ 6 * (a * b) * k.x + ((a ^ 2 + b ^ 2) ^ 6 * (a ^ 2 - b ^ 2)) * k.xy
      + -((a ^ 2 + b ^ 2) ^ 6 * (a * b)) * k.y := by
  simp only [shearDeformation, turned, accum_map, ← accum_lc3]
  have key : ∀ (t : Tri6 n) (gp : GaussPt),
      let s := shapeFunction t.coords gp
      let s' := shapeFunction (t.coords.map (turn a b)) gp
      let p := shearParameter s.nx s.ny w.ixx w.iyy w.ixy
      let p' := shearParameter s'.nx s'.ny w'.ixx w'.iyy w'.ixy
      let u := t.local psi
      let v := t.local phi
      let u' := (t.map (turn a b)).local fun i =>
        (a ^ 2 + b ^ 2) ^ 3 * a * psi i + -((a ^ 2 + b ^ 2) ^ 3 * b) * phi i
      let v' := (t.map (turn a b)).local fun i =>
        (a ^ 2 + b ^ 2) ^ 3 * b * psi i + (a ^ 2 + b ^ 2) ^ 3 * a * phi i
      let px := dot6 s.bx u - w.nu / 2 * p.d1
      let py := dot6 s.by' u - w.nu / 2 * p.d2
      let hx := dot6 s.bx v - w.nu / 2 * p.h1
      let hy := dot6 s.by' v - w.nu / 2 * p.h2
      dot6 s'.bx u' - w'.nu / 2 * p'.d1
        = (a ^ 2 + b ^ 2) ^ 2 * (a * (a * px - b * hx) - b * (a * py - b * hy)) ∧
      dot6 s'.by' u' - w'.nu / 2 * p'.d2
        = (a ^ 2 + b ^ 2) ^ 2 * (b * (a * px - b * hx) + a * (a * py - b * hy)) ∧
      dot6 s'.bx v' - w'.nu / 2 * p'.h1
        = (a ^ 2 + b ^ 2) ^ 2 * (a * (b * px + a * hx) - b * (b * py + a * hy)) ∧
      dot6 s'.by' v' - w'.nu / 2 * p'.h2
        = (a ^ 2 + b ^ 2) ^ 2 * (b * (b * px + a * hx) + a * (b * py + a * hy)) := by
    intro t gp
    obtain ⟨-, -, h3, h4, h5, h6⟩ := shape_turn hk t.coords gp
    obtain ⟨p1, p2, p3, p4⟩ := shearParameter_turn hw (shapeFunction t.coords gp).nx
      (shapeFunction t.coords gp).ny
    have e5 : (shapeFunction (t.coords.map (turn a b)) gp).bx
        = fun i => (a * (shapeFunction t.coords gp).bx i + -b * (shapeFunction t.coords gp).by' i)
          / (a ^ 2 + b ^ 2) := by
      funext i; rw [h5]; ring
    have e6 : (shapeFunction (t.coords.map (turn a b)) gp).by'
        = fun i => (b * (shapeFunction t.coords gp).bx i + a * (shapeFunction t.coords gp).by' i)
          / (a ^ 2 + b ^ 2) := by
      funext i; rw [h6]
    have el : ∀ u v : ℝ, ((t.map (turn a b)).local fun i => u * psi i + v * phi i)
        = fun k => u * t.local psi k + v * t.local phi k := fun _ _ => rfl
    simp only [h3, h4, e5, e6, el, dot6_turn, p1, p2, p3, p4, hw.nu]
    refine ⟨?_, ?_, ?_, ?_⟩ <;> field_simp <;> ring
  refine ⟨?_, ?_, ?_⟩ <;> refine accum_congr fun t _ => ?_ <;>
    simp only [Tri6.shearCoefficients, ← accum_lc3] <;>
    refine accum_congr fun gp _ => ?_ <;>
    obtain ⟨k1, k2, k3, k4⟩ := key t gp <;>
    simp only [eWeight_turn hk]
  · rw [show (t.map (turn a b)).coords = t.coords.map (turn a b) from rfl, k1, k2]; ring
  · rw [show (t.map (turn a b)).coords = t.coords.map (turn a b) from rfl, k3, k4]; ring
  · rw [show (t.map (turn a b)).coords = t.coords.map (turn a b) from rfl, k1, k2, k3, k4]; ring

end

/-- The integrals of the monosymmetry constants, with the principal axes turned (`m = ±k` where
`k² = a² + b²`). -/
theorem mono_turn (hk : a ^ 2 + b ^ 2 ≠ 0) {phi phi' m : ℝ}
    (hc : m * Real.cos (phi' * Real.pi / 180)
      = a * Real.cos (phi * Real.pi / 180) - b * Real.sin (phi * Real.pi / 180))
    (hs : m * Real.sin (phi' * Real.pi / 180)
      = b * Real.cos (phi * Real.pi / 180) + a * Real.sin (phi * Real.pi / 180))
    (hm : m ^ 2 = a ^ 2 + b ^ 2) :
    let M := monosymmetryInts els phi
    let M' := monosymmetryInts (turned a b els) phi'
    M'.x = (a ^ 2 + b ^ 2) ^ 2 * a * M.x + (a ^ 2 + b ^ 2) ^ 2 * b * M.y ∧
    M'.y = -((a ^ 2 + b ^ 2) ^ 2 * b) * M.x + (a ^ 2 + b ^ 2) ^ 2 * a * M.y ∧
    M'.i11 = (a ^ 2 + b ^ 2) ^ 2 * m * M.i11 ∧ M'.i22 = (a ^ 2 + b ^ 2) ^ 2 * m * M.i22 := by
  have hm0 : m ≠ 0 := fun h => hk (by rw [← hm, h]; ring)
  have key : ∀ x y, principalCoordinate phi' (a * x - b * y) (b * x + a * y)
      = (m * (principalCoordinate phi x y).1, m * (principalCoordinate phi x y).2) := by
    intro x y
    simp only [principalCoordinate, Prod.mk.injEq]
    constructor <;> apply mul_left_cancel₀ hm0
    · linear_combination (a * x - b * y) * hc + (b * x + a * y) * hs
        - (x * Real.cos (phi * Real.pi / 180) + y * Real.sin (phi * Real.pi / 180)) * hm
    · linear_combination (b * x + a * y) * hc - (a * x - b * y) * hs
        - (y * Real.cos (phi * Real.pi / 180) - x * Real.sin (phi * Real.pi / 180)) * hm
  simp only [monosymmetryInts, turned, accum_map, ← accum_lc2]
  simp only [← accum_smul]
  refine ⟨?_, ?_, ?_, ?_⟩ <;> refine accum_congr fun t _ => ?_ <;>
    simp only [Tri6.monosymmetryIntegrals, ← accum_lc2] <;> (try simp only [← accum_smul]) <;>
    refine accum_congr fun gp _ => ?_ <;>
    obtain ⟨h1, -, h3, h4, -, -⟩ := shape_turn hk t.coords gp <;>
    simp only [eWeight_turn hk] <;> simp only [Tri6.map, h3, h4, key]
  · ring
  · ring
  · linear_combination (a ^ 2 + b ^ 2) * m * t.eWeight gp *
      ((principalCoordinate phi (shapeFunction t.coords gp).nx (shapeFunction t.coords gp).ny).1 ^ 2
        * (principalCoordinate phi (shapeFunction t.coords gp).nx (shapeFunction t.coords gp).ny).2
      + (principalCoordinate phi (shapeFunction t.coords gp).nx (shapeFunction t.coords gp).ny).2 ^ 3) * hm
  · linear_combination (a ^ 2 + b ^ 2) * m * t.eWeight gp *
      ((principalCoordinate phi (shapeFunction t.coords gp).nx (shapeFunction t.coords gp).ny).2 ^ 2
        * (principalCoordinate phi (shapeFunction t.coords gp).nx (shapeFunction t.coords gp).ny).1
      + (principalCoordinate phi (shapeFunction t.coords gp).nx (shapeFunction t.coords gp).ny).1 ^ 3) * hm

/-- The three functions of a warping analysis solve their equations exactly. -/
structure ExactWarp (els : List (Tri6 n)) (w : WarpIn) (r : WarpResults n) : Prop where
  omega : SolvesBordered (assembleTorsion els).1 (assembleTorsion els).2 r.omega
  psi : SolvesBordered (assembleTorsion els).1 (assembleShearLoad els w).1 r.psi
  phi : SolvesBordered (assembleTorsion els).1 (assembleShearLoad els w).2 r.phiS

theorem dotN_lc (u v : ℝ) (x y z : Fin n → ℝ) :
    dotN x (fun i => u * y i + v * z i) = u * dotN x y + v * dotN x z := by
  simp only [dotN, Finset.mul_sum, ← Finset.sum_add_distrib]
  exact Finset.sum_congr rfl fun i _ => by ring

theorem dotN_smul (u v : ℝ) (x y : Fin n → ℝ) :
    dotN (fun i => u * x i) (fun i => v * y i) = u * v * dotN x y := by
  simp only [dotN, Finset.mul_sum]
  exact Finset.sum_congr rfl fun i _ => by ring

/-- The three functions on the turned elements. -/
theorem functions_turn (hk : a ^ 2 + b ^ 2 ≠ 0) (h : Physical els) (hd : DistinctNodes els)
    (hc : ConnectedMesh els) {w w' : WarpIn} (hw : Turned a b w w') {r r' : WarpResults n}
    (he : ExactWarp els w r) (he' : ExactWarp (turned a b els) w' r') :
    r'.omega = (fun i => (a ^ 2 + b ^ 2) * r.omega i) ∧
    r'.psi = (fun i => (a ^ 2 + b ^ 2) ^ 3 * a * r.psi i + -((a ^ 2 + b ^ 2) ^ 3 * b) * r.phiS i) ∧
    r'.phiS = (fun i => (a ^ 2 + b ^ 2) ^ 3 * b * r.psi i + (a ^ 2 + b ^ 2) ^ 3 * a * r.phiS i) := by
  refine ⟨?_, ?_, ?_⟩
  · have h1 := solves_turn hk hd he'.omega
    rw [funext (load_turn hk hd)] at h1
    have h2 := solves_lc he.omega he.omega (a ^ 2 + b ^ 2) 0
    simp only [zero_mul, add_zero] at h2
    exact solves_unique h hd hc h1 h2
  · have h1 := solves_turn hk hd he'.psi
    rw [funext fun i => (shearLoad_turn hk hd hw i).1] at h1
    exact solves_unique h hd hc h1 (solves_lc he.psi he.phi _ _)
  · have h1 := solves_turn hk hd he'.phi
    rw [funext fun i => (shearLoad_turn hk hd hw i).2] at h1
    exact solves_unique h hd hc h1 (solves_lc he.psi he.phi _ _)

theorem deltaS_turn {w w' : WarpIn} (hw : Turned a b w w') :
    w'.deltaS = (a ^ 2 + b ^ 2) ^ 4 * w.deltaS := by
  simp only [WarpIn.deltaS, hw.ixx, hw.iyy, hw.ixy, hw.nu]; ring

/-- Results of the warping analysis of the turned elements. -/
theorem results_turn (hk : a ^ 2 + b ^ 2 ≠ 0) (h : Physical els) (hd : DistinctNodes els)
    (hc : ConnectedMesh els) {w w' : WarpIn} (hw : Turned a b w w') (hδ : w.deltaS ≠ 0)
    (hea : w.ea ≠ 0)
    (hI : w.ixx * w.iyy - w.ixy ^ 2 ≠ 0) {sv sv' : Solvers} {ty ty' : SolverType} {r r' : WarpResults n}
    (hr : warpingAnalysis sv ty els w = .ok r) (hr' : warpingAnalysis sv' ty' (turned a b els) w' = .ok r')
    (he : ExactWarp els w r) (he' : ExactWarp (turned a b els) w' r') :
    r'.j = (a ^ 2 + b ^ 2) ^ 2 * r.j ∧ r'.gamma = (a ^ 2 + b ^ 2) ^ 3 * r.gamma ∧
    (r'.sc.xSe, r'.sc.ySe) = turn a b (r.sc.xSe, r.sc.ySe) ∧
    (r'.sc.xSt, r'.sc.ySt) = turn a b (r.sc.xSt, r.sc.ySt) ∧
    (a ^ 2 + b ^ 2) ^ 2 * (1 / r'.areas.sx)
      = a ^ 2 * (1 / r.areas.sx) - 2 * a * b * (1 / r.areas.sxy) + b ^ 2 * (1 / r.areas.sy) ∧
    (a ^ 2 + b ^ 2) ^ 2 * (1 / r'.areas.sy)
      = b ^ 2 * (1 / r.areas.sx) + 2 * a * b * (1 / r.areas.sxy) + a ^ 2 * (1 / r.areas.sy) ∧
    (a ^ 2 + b ^ 2) ^ 2 * (1 / r'.areas.sxy)
      = a * b * (1 / r.areas.sx) + (a ^ 2 - b ^ 2) * (1 / r.areas.sxy) - a * b * (1 / r.areas.sy) := by
  obtain ⟨-, -, -, j1, -, sc1, g1, ar1, -⟩ := warping_ok hr
  obtain ⟨-, -, -, j2, -, sc2, g2, ar2, -⟩ := warping_ok hr'
  obtain ⟨f1, f2, f3⟩ := functions_turn hk h hd hc hw he he'
  obtain ⟨i1, i2, i3, i4, i5, i6⟩ := scInts_turn (els := els) hk hw r.omega
  obtain ⟨k1, k2, k3⟩ := kappas_turn (els := els) hk hw r.psi r.phiS
  have hδ' := deltaS_turn hw
  have hD : w'.ixx * w'.iyy - w'.ixy ^ 2 = (a ^ 2 + b ^ 2) ^ 4 * (w.ixx * w.iyy - w.ixy ^ 2) := by
    rw [hw.ixx, hw.iyy, hw.ixy]; ring
  rw [← f1] at i1 i2 i3 i4 i5 i6
  rw [← f2, ← f3] at k1 k2 k3
  have hse : (r'.sc.xSe, r'.sc.ySe) = turn a b (r.sc.xSe, r.sc.ySe) := by
    rw [sc1, sc2]
    simp only [shearCentres, hδ', i1, i2, f2, f3, funext (load_turn hk hd), hw.nu, turn, affine]
    have e : ∀ z : Fin n → ℝ, dotN (fun i => (a ^ 2 + b ^ 2) * (assembleTorsion els).2 i) z
        = (a ^ 2 + b ^ 2) * dotN (assembleTorsion els).2 z := fun z => by
      simpa using dotN_smul (a ^ 2 + b ^ 2) 1 (assembleTorsion els).2 z
    rw [Prod.mk.injEq]
    simp only [e, dotN_lc]
    constructor <;> field_simp <;> ring
  have hst : (r'.sc.xSt, r'.sc.ySt) = turn a b (r.sc.xSt, r.sc.ySt) := by
    rw [sc1, sc2]
    simp only [shearCentres, hD, i5, i6, turn, affine, Prod.mk.injEq]
    generalize w.ixx * w.iyy - w.ixy ^ 2 = D at hI
    rw [hw.ixx, hw.iyy, hw.ixy]
    constructor <;> field_simp <;> ring
  refine ⟨?_, ?_, hse, hst, ?_, ?_, ?_⟩
  · rw [j1, j2, f1, funext (load_turn hk hd), dotN_smul, hw.ixx, hw.iyy]; ring
  · simp only [turn, affine, Prod.mk.injEq] at hse
    rw [g1, g2, warpingConstant, warpingConstant, i3, i4, i5, i6, hw.ea, hse.1, hse.2]
    field_simp; ring
  · rw [ar1, ar2]
    simp only [shearAreas, hδ', k1, one_div_div]
    field_simp; ring
  · rw [ar1, ar2]
    simp only [shearAreas, hδ', k2, one_div_div]
    field_simp
  · rw [ar1, ar2]
    simp only [shearAreas, hδ', k3, one_div_div]
    field_simp; ring

/-- Results about the principal axes, when they are turned with the elements (`m = ±k` where
`k² = a² + b²`). -/
theorem principal_turn (hk : a ^ 2 + b ^ 2 ≠ 0) (h : Physical els) (hd : DistinctNodes els)
    (hc : ConnectedMesh els) {w w' : WarpIn} (hw : Turned a b w w')
    {m : ℝ} (hcos : m * Real.cos (w'.phi * Real.pi / 180)
      = a * Real.cos (w.phi * Real.pi / 180) - b * Real.sin (w.phi * Real.pi / 180))
    (hsin : m * Real.sin (w'.phi * Real.pi / 180)
      = b * Real.cos (w.phi * Real.pi / 180) + a * Real.sin (w.phi * Real.pi / 180))
    (hm : m ^ 2 = a ^ 2 + b ^ 2)
    (h11 : w'.i11 = (a ^ 2 + b ^ 2) ^ 2 * w.i11) (h22 : w'.i22 = (a ^ 2 + b ^ 2) ^ 2 * w.i22)
    {sv sv' : Solvers} {ty ty' : SolverType} {r r' : WarpResults n}
    (hr : warpingAnalysis sv ty els w = .ok r) (hr' : warpingAnalysis sv' ty' (turned a b els) w' = .ok r')
    (he : ExactWarp els w r) (he' : ExactWarp (turned a b els) w' r')
    (hse : (r'.sc.xSe, r'.sc.ySe) = turn a b (r.sc.xSe, r.sc.ySe)) :
    r'.sc.x11Se = m * r.sc.x11Se ∧ r'.sc.y22Se = m * r.sc.y22Se ∧
    r'.areas.s11 = (a ^ 2 + b ^ 2) * r.areas.s11 ∧ r'.areas.s22 = (a ^ 2 + b ^ 2) * r.areas.s22 ∧
    r'.beta.b11Plus = m * r.beta.b11Plus ∧ r'.beta.b11Minus = m * r.beta.b11Minus ∧
    r'.beta.b22Plus = m * r.beta.b22Plus ∧ r'.beta.b22Minus = m * r.beta.b22Minus := by
  obtain ⟨-, -, -, -, -, sc1, -, ar1, be1⟩ := warping_ok hr
  obtain ⟨-, -, -, -, -, sc2, -, ar2, be2⟩ := warping_ok hr'
  obtain ⟨-, f2, f3⟩ := functions_turn hk h hd hc hw he he'
  obtain ⟨k1, k2, k3⟩ := kappas_turn (els := els) hk hw r.psi r.phiS
  obtain ⟨-, -, m3, m4⟩ := mono_turn (els := els) hk hcos hsin hm
  rw [← f2, ← f3] at k1 k2 k3
  have hm0 : m ≠ 0 := fun h => hk (by rw [← hm, h]; ring)
  have p1 : r.sc.x11Se = (principalCoordinate w.phi r.sc.xSe r.sc.ySe).1 := by rw [sc1]; rfl
  have p2 : r.sc.y22Se = (principalCoordinate w.phi r.sc.xSe r.sc.ySe).2 := by rw [sc1]; rfl
  have q1 : r'.sc.x11Se = (principalCoordinate w'.phi r'.sc.xSe r'.sc.ySe).1 := by rw [sc2]; rfl
  have q2 : r'.sc.y22Se = (principalCoordinate w'.phi r'.sc.xSe r'.sc.ySe).2 := by rw [sc2]; rfl
  simp only [turn, affine, Prod.mk.injEq] at hse
  have x11 : r'.sc.x11Se = m * r.sc.x11Se := by
    rw [p1, q1, hse.1, hse.2]
    simp only [principalCoordinate]
    apply mul_left_cancel₀ hm0
    linear_combination (a * r.sc.xSe - b * r.sc.ySe) * hcos + (b * r.sc.xSe + a * r.sc.ySe) * hsin
      - (r.sc.xSe * Real.cos (w.phi * Real.pi / 180) + r.sc.ySe * Real.sin (w.phi * Real.pi / 180)) * hm
  have y22 : r'.sc.y22Se = m * r.sc.y22Se := by
    rw [p2, q2, hse.1, hse.2]
    simp only [principalCoordinate]
    apply mul_left_cancel₀ hm0
    linear_combination (b * r.sc.xSe + a * r.sc.ySe) * hcos - (a * r.sc.xSe - b * r.sc.ySe) * hsin
      - (r.sc.ySe * Real.cos (w.phi * Real.pi / 180) - r.sc.xSe * Real.sin (w.phi * Real.pi / 180)) * hm
  have hc' : Real.cos (w'.phi * Real.pi / 180)
      = (a * Real.cos (w.phi * Real.pi / 180) - b * Real.sin (w.phi * Real.pi / 180)) / m := by
    rw [eq_div_iff hm0, mul_comm]; exact hcos
  have hs' : Real.sin (w'.phi * Real.pi / 180)
      = (b * Real.cos (w.phi * Real.pi / 180) + a * Real.sin (w.phi * Real.pi / 180)) / m := by
    rw [eq_div_iff hm0, mul_comm]; exact hsin
  obtain ⟨u1, u2⟩ := shearAreas_rot w (shearDeformation els w r.psi r.phiS)
  obtain ⟨v1, v2⟩ := shearAreas_rot w' (shearDeformation (turned a b els) w' r'.psi r'.phiS)
  have div_eq : ∀ {A q q' : ℝ}, q' = q → (a ^ 2 + b ^ 2) * A / q' = (a ^ 2 + b ^ 2) * (A / q) := by
    intro A q q' e; rw [e]; ring
  refine ⟨x11, y22, ?_, ?_, ?_, ?_, ?_, ?_⟩
  · rw [ar1, ar2, u1, v1, hw.area]
    refine div_eq ?_
    rw [deltaS_turn hw, k1, k2, k3, hc', hs']
    generalize Real.cos (w.phi * Real.pi / 180) = c
    generalize Real.sin (w.phi * Real.pi / 180) = s
    simp only [div_pow, hm, div_mul_div_comm, ← pow_two]
    by_cases hδ : w.deltaS = 0
    · simp [hδ]
    field_simp
    ring
  · rw [ar1, ar2, u2, v2, hw.area]
    refine div_eq ?_
    rw [deltaS_turn hw, k1, k2, k3, hc', hs']
    generalize Real.cos (w.phi * Real.pi / 180) = c
    generalize Real.sin (w.phi * Real.pi / 180) = s
    simp only [neg_div', div_pow, hm, div_mul_div_comm, ← pow_two]
    by_cases hδ : w.deltaS = 0
    · simp [hδ]
    field_simp
    ring
  all_goals
    rw [be1, be2]
    simp only [betas, m3, m4, x11, y22, h11, h22]
    simp only [neg_div, mul_assoc, mul_div_mul_left _ _ (pow_ne_zero 2 hk)]
    ring

end SP
