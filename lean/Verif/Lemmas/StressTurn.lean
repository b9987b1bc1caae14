import Verif.Lemmas.Similar
import Verif.Props.Superpose
import Verif.Spec.StressTurn

/-!
# Stresses on elements turned and scaled

The stresses on the elements that are turned and scaled about the origin by the map
`(x, y) ↦ (a x - b y, b x + a y)`, with the actions turned and scaled, in terms of those on the original elements.
-/

namespace SP

open Spec

variable {n : ℕ} {a b l : ℝ}

/-- The section properties used by the stress analysis of the turned and scaled section. -/
structure EnvTurned (a b : ℝ) (e e' : StressEnv) : Prop where
  ea : e'.ea = (a ^ 2 + b ^ 2) * e.ea
  cx : e'.cx = a * e.cx - b * e.cy
  cy : e'.cy = b * e.cx + a * e.cy
  ixx : e'.ixx = (a ^ 2 + b ^ 2) * (b ^ 2 * e.iyy + 2 * a * b * e.ixy + a ^ 2 * e.ixx)
  iyy : e'.iyy = (a ^ 2 + b ^ 2) * (a ^ 2 * e.iyy - 2 * a * b * e.ixy + b ^ 2 * e.ixx)
  ixy : e'.ixy = (a ^ 2 + b ^ 2) * (a * b * e.iyy + (a ^ 2 - b ^ 2) * e.ixy - a * b * e.ixx)
  j : e'.j = (a ^ 2 + b ^ 2) ^ 2 * e.j
  nu : e'.nu = e.nu
  deltaS : e'.deltaS = (a ^ 2 + b ^ 2) ^ 4 * e.deltaS

/-- The principal axes and second moments of the turned and scaled section, `m ^ 2 = a ^ 2 + b ^ 2`. -/
structure AxesTurned (a b m : ℝ) (e e' : StressEnv) : Prop where
  cos : m * Real.cos (e'.phi * Real.pi / 180)
      = a * Real.cos (e.phi * Real.pi / 180) - b * Real.sin (e.phi * Real.pi / 180)
  sin : m * Real.sin (e'.phi * Real.pi / 180)
      = b * Real.cos (e.phi * Real.pi / 180) + a * Real.sin (e.phi * Real.pi / 180)
  sq : m ^ 2 = a ^ 2 + b ^ 2
  i11 : e'.i11 = (a ^ 2 + b ^ 2) ^ 2 * e.i11
  i22 : e'.i22 = (a ^ 2 + b ^ 2) ^ 2 * e.i22

/-- The actions turned and scaled; those about the principal axes are separate. -/
structure ActionsTurned (a b l : ℝ) (A A' : Actions) : Prop where
  sq : l ^ 2 = a ^ 2 + b ^ 2
  n : A'.n = (a ^ 2 + b ^ 2) * A.n
  mxx : A'.mxx = (a ^ 2 + b ^ 2) * (a * A.mxx - b * A.myy)
  myy : A'.myy = (a ^ 2 + b ^ 2) * (b * A.mxx + a * A.myy)
  mzz : A'.mzz = (a ^ 2 + b ^ 2) * l * A.mzz
  vx : A'.vx = l * (a * A.vx - b * A.vy)
  vy : A'.vy = l * (b * A.vx + a * A.vy)

/-- The warping functions of the turned and scaled section. -/
structure FieldsTurned (a b : ℝ) (wf wf' : WarpFields n) : Prop where
  omega : wf'.omega = fun i => (a ^ 2 + b ^ 2) * wf.omega i
  psi : wf'.psi = fun i => (a ^ 2 + b ^ 2) ^ 3 * a * wf.psi i + -((a ^ 2 + b ^ 2) ^ 3 * b) * wf.phiS i
  phiS : wf'.phiS = fun i => (a ^ 2 + b ^ 2) ^ 3 * b * wf.psi i + (a ^ 2 + b ^ 2) ^ 3 * a * wf.phiS i

/-- How stresses turn: `c`, `d` the components on the original and on the turned section. -/
structure StressTurned (u v : ℝ) (c d : StressComp) : Prop where
  zzN : d.zzN = c.zzN
  zzM : d.zzMxx + d.zzMyy + d.zzM11 + d.zzM22 = c.zzMxx + c.zzMyy + c.zzM11 + c.zzM22
  zxMzz : d.zxMzz = u * c.zxMzz - v * c.zyMzz
  zyMzz : d.zyMzz = v * c.zxMzz + u * c.zyMzz
  zxV : d.zxVx + d.zxVy = u * (c.zxVx + c.zxVy) - v * (c.zyVx + c.zyVy)
  zyV : d.zyVx + d.zyVy = v * (c.zxVx + c.zxVy) + u * (c.zyVx + c.zyVy)

theorem principal_turn_coord (hk : a ^ 2 + b ^ 2 ≠ 0) {phi phi' m : ℝ}
    (hc : m * Real.cos (phi' * Real.pi / 180)
      = a * Real.cos (phi * Real.pi / 180) - b * Real.sin (phi * Real.pi / 180))
    (hs : m * Real.sin (phi' * Real.pi / 180)
      = b * Real.cos (phi * Real.pi / 180) + a * Real.sin (phi * Real.pi / 180))
    (hm : m ^ 2 = a ^ 2 + b ^ 2) (x y : ℝ) :
    principalCoordinate phi' (a * x - b * y) (b * x + a * y)
      = (m * (principalCoordinate phi x y).1, m * (principalCoordinate phi x y).2) := by
  have hm0 : m ≠ 0 := fun h => hk (by rw [← hm, h]; ring)
  simp only [principalCoordinate, Prod.mk.injEq]
  constructor <;> apply mul_left_cancel₀ hm0
  · linear_combination (a * x - b * y) * hc + (b * x + a * y) * hs
      - (x * Real.cos (phi * Real.pi / 180) + y * Real.sin (phi * Real.pi / 180)) * hm
  · linear_combination (b * x + a * y) * hc - (a * x - b * y) * hs
      - (y * Real.cos (phi * Real.pi / 180) - x * Real.sin (phi * Real.pi / 180)) * hm

theorem stressAt_turn (hk : a ^ 2 + b ^ 2 ≠ 0) {e e' : StressEnv} (he : EnvTurned a b e e') {A A' : Actions}
    (hA : ActionsTurned a b l A A') {wf wf' : WarpFields n} (hw : FieldsTurned a b wf wf')
    (hp : (A.m11 = 0 ∧ A.m22 = 0 ∧ A'.m11 = 0 ∧ A'.m22 = 0) ∨ ∃ m, AxesTurned a b m e e' ∧
      A'.m11 = (a ^ 2 + b ^ 2) * m * A.m11 ∧ A'.m22 = (a ^ 2 + b ^ 2) * m * A.m22)
    (t : Tri6 n) (gp : GaussPt) :
    StressTurned (l / (a ^ 2 + b ^ 2) * a) (l / (a ^ 2 + b ^ 2) * b)
      (t.stressAt A e (t.local wf.omega) (t.local wf.psi) (t.local wf.phiS) gp)
      ((t.map (turn a b)).stressAt A' e' ((t.map (turn a b)).local wf'.omega) ((t.map (turn a b)).local wf'.psi)
        ((t.map (turn a b)).local wf'.phiS) gp) := by
  have hcoord : (t.map (turn a b)).coords.shift e'.cx e'.cy = (t.coords.shift e.cx e.cy).map (turn a b) := by
    simp only [Tri6.map, Coords.map, Coords.shift, he.cx, he.cy, turn, affine]
    congr 1 <;> funext i <;> ring
  obtain ⟨-, -, h3, h4, h5, h6⟩ := shape_turn hk (t.coords.shift e.cx e.cy) gp
  have hmat : (t.map (turn a b)).material = t.material := rfl
  have e5 : (shapeFunction ((t.coords.shift e.cx e.cy).map (turn a b)) gp).bx
      = fun i => (a * (shapeFunction (t.coords.shift e.cx e.cy) gp).bx i
        + -b * (shapeFunction (t.coords.shift e.cx e.cy) gp).by' i) / (a ^ 2 + b ^ 2) := by
    funext i; rw [h5]; ring
  have e6 : (shapeFunction ((t.coords.shift e.cx e.cy).map (turn a b)) gp).by'
      = fun i => (b * (shapeFunction (t.coords.shift e.cx e.cy) gp).bx i
        + a * (shapeFunction (t.coords.shift e.cx e.cy) gp).by' i) / (a ^ 2 + b ^ 2) := by
    funext i; rw [h6]
  have el : ∀ u v : ℝ, ((t.map (turn a b)).local fun i => u * wf.psi i + v * wf.phiS i)
      = fun k => u * t.local wf.psi k + v * t.local wf.phiS k := fun _ _ => rfl
  have eo : ((t.map (turn a b)).local fun i => (a ^ 2 + b ^ 2) * wf.omega i)
      = fun k => (a ^ 2 + b ^ 2) * t.local wf.omega k + 0 * t.local wf.omega k := by
    funext k; simp [Tri6.local, Tri6.map]
  set s := shapeFunction (t.coords.shift e.cx e.cy) gp with hs
  have hD : e'.ixx * e'.iyy - e'.ixy ^ 2 = (a ^ 2 + b ^ 2) ^ 4 * (e.ixx * e.iyy - e.ixy ^ 2) := by
    rw [he.ixx, he.iyy, he.ixy]; ring
  simp only [Tri6.stressAt, ite_mul_ne', hcoord, hmat, h3, h4, e5, e6, hw.omega, hw.psi, hw.phiS, el, eo, dot6_turn,
    hD]
  have W : Turned a b ⟨e.ixx, e.iyy, e.ixy, e.nu, 0, 0, 0, 0, 0⟩ ⟨e'.ixx, e'.iyy, e'.ixy, e'.nu, 0, 0, 0, 0, 0⟩ :=
    ⟨he.ixx, he.iyy, he.ixy, he.nu, by simp, by simp⟩
  obtain ⟨p1, p2, p3, p4⟩ := shearParameter_turn W s.nx s.ny
  dsimp only at p1 p2 p3 p4
  rw [← hs]
  refine ⟨?_, ?_, ?_, ?_, ?_, ?_⟩
  · simp only [he.ea, hA.n]
    field_simp
  · have hM : t.material.elasticModulus * A'.m11 / e'.i11 * (principalCoordinate e'.phi (a * s.nx - b * s.ny) (b * s.nx + a * s.ny)).2
        + t.material.elasticModulus * -A'.m22 / e'.i22 * (principalCoordinate e'.phi (a * s.nx - b * s.ny) (b * s.nx + a * s.ny)).1
        = t.material.elasticModulus * A.m11 / e.i11 * (principalCoordinate e.phi s.nx s.ny).2
          + t.material.elasticModulus * -A.m22 / e.i22 * (principalCoordinate e.phi s.nx s.ny).1 := by
      rcases hp with ⟨q1, q2, q3, q4⟩ | ⟨m, hm, q1, q2⟩
      · simp [q1, q2, q3, q4]
      · rw [principal_turn_coord hk hm.cos hm.sin hm.sq, q1, q2, hm.i11, hm.i22]
        dsimp only
        have h2 := hm.sq
        simp only [div_eq_mul_inv, mul_inv]
        generalize e.i11⁻¹ = i1
        generalize e.i22⁻¹ = i2
        generalize (principalCoordinate e.phi s.nx s.ny).1 = x1
        generalize (principalCoordinate e.phi s.nx s.ny).2 = x2
        field_simp
        rw [h2]
    rw [add_assoc, hM, ← add_assoc]
    congr 2
    rw [hA.mxx, hA.myy, he.ixx, he.iyy, he.ixy]
    simp only [div_eq_mul_inv, mul_inv]
    generalize (e.ixx * e.iyy - e.ixy ^ 2)⁻¹ = q
    field_simp
    ring
  · rw [hA.mzz, he.j]
    simp only [div_eq_mul_inv, mul_inv]
    generalize e.j⁻¹ = q
    field_simp
    ring
  · rw [hA.mzz, he.j]
    simp only [div_eq_mul_inv, mul_inv]
    generalize e.j⁻¹ = q
    field_simp
    ring
  · rw [p1, p3, hA.vx, hA.vy, he.deltaS, he.nu]
    simp only [div_eq_mul_inv, mul_inv]
    generalize e.deltaS⁻¹ = q
    field_simp
    ring
  · rw [p2, p4, hA.vx, hA.vy, he.deltaS, he.nu]
    simp only [div_eq_mul_inv, mul_inv]
    generalize e.deltaS⁻¹ = q
    field_simp
    ring

theorem elStress_turn (hk : a ^ 2 + b ^ 2 ≠ 0) {e e' : StressEnv} (he : EnvTurned a b e e') {A A' : Actions}
    (hA : ActionsTurned a b l A A') {wf wf' : WarpFields n} (hw : FieldsTurned a b wf wf')
    (hp : (A.m11 = 0 ∧ A.m22 = 0 ∧ A'.m11 = 0 ∧ A'.m22 = 0) ∨ ∃ m, AxesTurned a b m e e' ∧
      A'.m11 = (a ^ 2 + b ^ 2) * m * A.m11 ∧ A'.m22 = (a ^ 2 + b ^ 2) * m * A.m22)
    (t : Tri6 n) (k : Fin 6) :
    StressTurned (l / (a ^ 2 + b ^ 2) * a) (l / (a ^ 2 + b ^ 2) * b) (elStress A e wf t k)
      (elStress A' e' wf' (t.map (turn a b)) k) := by
  have H := fun g => stressAt_turn hk he hA hw hp t (gauss6pt g)
  have e2 : ∀ (p q : Fin 6 → ℝ), extrapolateToNodes p k + extrapolateToNodes q k = extrapolateToNodes (fun g => p g + q g) k := by
    intro p q
    have := extrapolate_lin 1 1 p q k
    simpa using this.symm
  have e1 : ∀ (u v : ℝ) (p q : Fin 6 → ℝ), u * extrapolateToNodes p k - v * extrapolateToNodes q k
      = extrapolateToNodes (fun g => u * p g - v * q g) k := by
    intro u v p q
    have := extrapolate_lin u (-v) p q k
    simp only [neg_mul, ← sub_eq_add_neg] at this
    exact this.symm
  have e0 : ∀ (u v : ℝ) (p q : Fin 6 → ℝ), u * extrapolateToNodes p k + v * extrapolateToNodes q k
      = extrapolateToNodes (fun g => u * p g + v * q g) k := fun u v p q => (extrapolate_lin u v p q k).symm
  refine ⟨(H 0).zzN, ?_, ?_, ?_, ?_, ?_⟩ <;> simp only [elStress, Tri6.elementStress, e2, e1, e0] <;>
    refine congrArg (fun f => extrapolateToNodes f k) (funext fun g => ?_)
  · exact (H g).zzM
  · exact (H g).zxMzz
  · exact (H g).zyMzz
  · exact (H g).zxV
  · exact (H g).zyV

theorem nodalAverage_map {els : List (Tri6 n)} {g : Tri6 n → Tri6 n} (hg : ∀ t, (g t).nodeIds = t.nodeIds)
    (sig : Tri6 n → Fin 6 → ℝ) : nodalAverage (els.map g) sig = nodalAverage els fun t => sig (g t) := by
  have key : ∀ f : Tri6 n → Fin 6 → ℝ, assembleVec (els.map g) f = assembleVec els fun t => f (g t) := by
    intro f
    simp only [assembleVec, List.foldl_map, hg]
  simp only [nodalAverage, key]

theorem groupStress_turn (hk : a ^ 2 + b ^ 2 ≠ 0) {e e' : StressEnv} (he : EnvTurned a b e e') {A A' : Actions}
    (hA : ActionsTurned a b l A A') {wf wf' : WarpFields n} (hw : FieldsTurned a b wf wf')
    (hp : (A.m11 = 0 ∧ A.m22 = 0 ∧ A'.m11 = 0 ∧ A'.m22 = 0) ∨ ∃ m, AxesTurned a b m e e' ∧
      A'.m11 = (a ^ 2 + b ^ 2) * m * A.m11 ∧ A'.m22 = (a ^ 2 + b ^ 2) * m * A.m22)
    (els : List (Tri6 n)) (i : Fin n) :
    StressTurned (l / (a ^ 2 + b ^ 2) * a) (l / (a ^ 2 + b ^ 2) * b) (groupStress els A e wf i)
      (groupStress (els.map (Tri6.map (turn a b))) A' e' wf' i) := by
  have H := elStress_turn hk he hA hw hp
  have e2 : ∀ (p q : Tri6 n → Fin 6 → ℝ), nodalAverage els p i + nodalAverage els q i
      = nodalAverage els (fun t g => p t g + q t g) i := by
    intro p q
    have := nodalAverage_lin 1 1 els p q i
    simpa using this.symm
  have e1 : ∀ (u v : ℝ) (p q : Tri6 n → Fin 6 → ℝ), u * nodalAverage els p i - v * nodalAverage els q i
      = nodalAverage els (fun t g => u * p t g - v * q t g) i := by
    intro u v p q
    have := nodalAverage_lin u (-v) els p q i
    simp only [neg_mul, ← sub_eq_add_neg] at this
    exact this.symm
  have e0 : ∀ (u v : ℝ) (p q : Tri6 n → Fin 6 → ℝ), u * nodalAverage els p i + v * nodalAverage els q i
      = nodalAverage els (fun t g => u * p t g + v * q t g) i := fun u v p q => (nodalAverage_lin u v els p q i).symm
  refine ⟨?_, ?_, ?_, ?_, ?_, ?_⟩ <;>
    simp only [groupStress, nodalAverage_map (g := Tri6.map (turn a b)) (fun _ => rfl), e2, e1, e0] <;>
    refine congrArg (fun f => nodalAverage els f i) (funext fun t => funext fun g => ?_)
  · exact (H t g).zzN
  · exact (H t g).zzM
  · exact (H t g).zxMzz
  · exact (H t g).zyMzz
  · exact (H t g).zxV
  · exact (H t g).zyV

theorem groupStress_congr {els : List (Tri6 n)} {g : Tri6 n → Tri6 n} (hg : ∀ t, (g t).nodeIds = t.nodeIds)
    (hm : ∀ t, (g t).material = t.material) {A A' : Actions} {e e' : StressEnv} {wf wf' : WarpFields n}
    (hn : ∀ m : ℝ, A'.n * 1 * m / e'.ea = A.n * 1 * m / e.ea)
    (h : ∀ t gp, (g t).stressAt A' e' ((g t).local wf'.omega) ((g t).local wf'.psi) ((g t).local wf'.phiS) gp
      = t.stressAt A e (t.local wf.omega) (t.local wf.psi) (t.local wf.phiS) gp) :
    groupStress (els.map g) A' e' wf' = groupStress els A e wf := by
  have el : ∀ t, elStress A' e' wf' (g t) = elStress A e wf t := by
    intro t
    funext k
    simp only [elStress, Tri6.elementStress, h, hm, hn]
  funext i
  simp only [groupStress, nodalAverage_map hg, el]

theorem stressAt_scale {k : ℝ} (hk0 : k ≠ 0) {e e' : StressEnv} (he : EnvTurned k 0 e e') (hφ : e'.phi = e.phi)
    (h11 : e'.i11 = k ^ 4 * e.i11) (h22 : e'.i22 = k ^ 4 * e.i22) (A : Actions)
    {wf wf' : WarpFields n} (hw : FieldsTurned k 0 wf wf') (t : Tri6 n) (gp : GaussPt) :
    (t.map (turn k 0)).stressAt (scaledActions k A) e' ((t.map (turn k 0)).local wf'.omega)
        ((t.map (turn k 0)).local wf'.psi) ((t.map (turn k 0)).local wf'.phiS) gp
      = t.stressAt A e (t.local wf.omega) (t.local wf.psi) (t.local wf.phiS) gp := by
  have hk : k ^ 2 + (0 : ℝ) ^ 2 ≠ 0 := by positivity
  have hcoord : (t.map (turn k 0)).coords.shift e'.cx e'.cy = (t.coords.shift e.cx e.cy).map (turn k 0) := by
    simp only [Tri6.map, Coords.map, Coords.shift, he.cx, he.cy, turn, affine]
    congr 1 <;> funext i <;> ring
  obtain ⟨-, -, h3, h4, h5, h6⟩ := shape_turn hk (t.coords.shift e.cx e.cy) gp
  have hmat : (t.map (turn k 0)).material = t.material := rfl
  set s := shapeFunction (t.coords.shift e.cx e.cy) gp with hs
  have e5 : (shapeFunction ((t.coords.shift e.cx e.cy).map (turn k 0)) gp).bx
      = fun i => (k * s.bx i + -0 * s.by' i) / (k ^ 2 + 0 ^ 2) := by
    funext i; rw [h5]; ring
  have e6 : (shapeFunction ((t.coords.shift e.cx e.cy).map (turn k 0)) gp).by'
      = fun i => (0 * s.bx i + k * s.by' i) / (k ^ 2 + 0 ^ 2) := by
    funext i; rw [h6]
  have el : ∀ u v : ℝ, ((t.map (turn k 0)).local fun i => u * wf.psi i + v * wf.phiS i)
      = fun j => u * t.local wf.psi j + v * t.local wf.phiS j := fun _ _ => rfl
  have eo : ((t.map (turn k 0)).local fun i => (k ^ 2 + 0 ^ 2) * wf.omega i)
      = fun j => (k ^ 2 + 0 ^ 2) * t.local wf.omega j + 0 * t.local wf.omega j := by
    funext k; simp [Tri6.local, Tri6.map]
  have hD : e'.ixx * e'.iyy - e'.ixy ^ 2 = (k ^ 2 + 0 ^ 2) ^ 4 * (e.ixx * e.iyy - e.ixy ^ 2) := by
    rw [he.ixx, he.iyy, he.ixy]; ring
  simp only [Tri6.stressAt, ite_mul_ne', hcoord, hmat, h3, h4, e5, e6, hw.omega, hw.psi, hw.phiS, el, eo, dot6_turn,
    hD, ← hs]
  have W : Turned k 0 ⟨e.ixx, e.iyy, e.ixy, e.nu, 0, 0, 0, 0, 0⟩ ⟨e'.ixx, e'.iyy, e'.ixy, e'.nu, 0, 0, 0, 0, 0⟩ :=
    ⟨he.ixx, he.iyy, he.ixy, he.nu, by simp, by simp⟩
  obtain ⟨p1, p2, p3, p4⟩ := shearParameter_turn W s.nx s.ny
  dsimp only at p1 p2 p3 p4
  rw [p1, p2, p3, p4, he.ea, he.ixx, he.iyy, he.ixy, he.j, he.nu, he.deltaS, h11, h22, hφ]
  simp only [principalCoordinate, scaledActions, div_eq_mul_inv, mul_inv]
  generalize (e.ixx * e.iyy - e.ixy ^ 2)⁻¹ = q1
  generalize e.j⁻¹ = q2
  generalize e.deltaS⁻¹ = q3
  generalize e.i11⁻¹ = q4
  generalize e.i22⁻¹ = q5
  generalize e.ea⁻¹ = q6
  simp only [StressComp.mk.injEq]
  refine ⟨?_, ?_, ?_, ?_, ?_, ?_, ?_, ?_, ?_, ?_, ?_⟩ <;> field_simp <;> ring

end SP
