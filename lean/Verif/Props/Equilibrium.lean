import Verif.Props.Superpose
import Verif.Props.Extrapolate
import Verif.Lemmas.ShearForms
import Verif.Props.Shear
import Verif.Props.Transform
import Verif.Props.StressState
import Verif.Props.Construct

/-!
# C23: stress fields are in equilibrium with the applied actions
-/

namespace SP

open Classical Spec MeasureTheory

section field
variable {n : ℕ}

/-- The field that the element stress formulas sample, in coordinates relative to the centroid;
`om`, `ps`, `ph` are the warping and shear functions. -/
noncomputable def fieldAt (em : ℝ) (a : Actions) (s : StressEnv) (om ps ph : ℝ × ℝ → ℝ) (p : ℝ × ℝ) :
    StressComp :=
  let pc := principalCoordinate s.phi p.1 p.2
  let P := shearParameter p.1 p.2 s.ixx s.iyy s.ixy
  { zzN := em * (a.n / s.ea)
    zzMxx := em * (-(s.ixy * a.mxx) / (s.ixx * s.iyy - s.ixy ^ 2) * p.1
      + s.iyy * a.mxx / (s.ixx * s.iyy - s.ixy ^ 2) * p.2)
    zzMyy := em * (-(s.ixx * a.myy) / (s.ixx * s.iyy - s.ixy ^ 2) * p.1
      + s.ixy * a.myy / (s.ixx * s.iyy - s.ixy ^ 2) * p.2)
    zzM11 := em * (a.m11 / s.i11 * pc.2)
    zzM22 := em * (-a.m22 / s.i22 * pc.1)
    zxMzz := em * (a.mzz / s.j * (dX om p - p.2))
    zyMzz := em * (a.mzz / s.j * (dY om p + p.1))
    zxVx := em * (a.vx / s.deltaS * (dX ps p - s.nu / 2 * P.d1))
    zyVx := em * (a.vx / s.deltaS * (dY ps p - s.nu / 2 * P.d2))
    zxVy := em * (a.vy / s.deltaS * (dX ph p - s.nu / 2 * P.h1))
    zyVy := em * (a.vy / s.deltaS * (dY ph p - s.nu / 2 * P.h2)) }

theorem ite_mul_ne'' (x c y z : ℝ) [Decidable (x ≠ 0)] :
    (if x ≠ 0 then c * x / y * z else 0) = c * (x / y * z) := by
  rw [ite_mul_ne']; ring

theorem localPos_shift (c : Coords) (cx cy : ℝ) (gp : GaussPt) (hb : gp.Bary) :
    localPos (c.shift cx cy) gp = ((localPos c gp).1 - cx, (localPos c gp).2 - cy) := by
  have hb : gp.eta + gp.xi + gp.zeta = 1 := hb
  rw [localPos_eq, localPos_eq]
  ext
  · simp only [posX, Coords.shift]; linear_combination -cx * hb
  · simp only [posY, Coords.shift]; linear_combination -cy * hb

/-- At every point of an element the element stress formulas give the values of the field. -/
theorem stressAt_field (t : Tri6 n) (ht : Proper t.coords) (a : Actions) (s : StressEnv)
    (wf : WarpFields n) {om ps ph : ℝ × ℝ → ℝ}
    (h1 : Interpolates (t.coords.shift s.cx s.cy) (fun k => wf.omega (t.nodeIds k)) om)
    (h2 : Interpolates (t.coords.shift s.cx s.cy) (fun k => wf.psi (t.nodeIds k)) ps)
    (h3 : Interpolates (t.coords.shift s.cx s.cy) (fun k => wf.phiS (t.nodeIds k)) ph)
    (gp : GaussPt) (hb : gp.Bary) :
    t.stressAt a s (t.local wf.omega) (t.local wf.psi) (t.local wf.phiS) gp
      = fieldAt t.material.elasticModulus a s om ps ph (localPos (t.coords.shift s.cx s.cy) gp) := by
  have hp := proper_shift ht s.cx s.cy
  have e1 : dot6 _ (t.local wf.omega) = _ := interp_dX hp hb h1
  have e2 : dot6 _ (t.local wf.omega) = _ := interp_dY hp hb h1
  have e3 : dot6 _ (t.local wf.psi) = _ := interp_dX hp hb h2
  have e4 : dot6 _ (t.local wf.psi) = _ := interp_dY hp hb h2
  have e5 : dot6 _ (t.local wf.phiS) = _ := interp_dX hp hb h3
  have e6 : dot6 _ (t.local wf.phiS) = _ := interp_dY hp hb h3
  rw [localPos_eq]
  simp only [Tri6.stressAt, fieldAt, e1, e2, e3, e4, e5, e6, sf_nx hp.1 hb, sf_ny hp.1 hb, ite_mul_ne'',
    StressComp.mk.injEq]
  refine ⟨by ring, trivial, trivial, by ring, by ring, trivial, by ring, trivial, trivial, trivial, trivial⟩

/-- Every component of the field is a quadratic polynomial. -/
theorem fieldAt_poly (em : ℝ) (a : Actions) (s : StressEnv) {om ps ph : ℝ × ℝ → ℝ}
    (h1 : om ∈ PolyLE 2) (h2 : ps ∈ PolyLE 2) (h3 : ph ∈ PolyLE 2) :
    ∀ f ∈ individual, (fun p => f (fieldAt em a s om ps ph p)) ∈ PolyLE 2 := by
  have lin : ∀ x y z : ℝ, (fun p : ℝ × ℝ => x + y * p.1 + z * p.2) ∈ PolyLE 2 := fun x y z =>
    PolyLE.mono (by omega) (polyLE_affine x y z)
  have sm : ∀ (k : ℝ) {f : ℝ × ℝ → ℝ}, f ∈ PolyLE 2 → (fun p => k * f p) ∈ PolyLE 2 := fun k f hf =>
    Submodule.smul_mem _ k hf
  have dx : ∀ {f : ℝ × ℝ → ℝ}, f ∈ PolyLE 2 → (fun p => dX f p) ∈ PolyLE 2 := fun hf =>
    PolyLE.mono (by omega) (dX_mem hf)
  have dy : ∀ {f : ℝ × ℝ → ℝ}, f ∈ PolyLE 2 → (fun p => dY f p) ∈ PolyLE 2 := fun hf =>
    PolyLE.mono (by omega) (dY_mem hf)
  obtain ⟨p1, p2, p3, p4⟩ := d1_mem s.ixx s.iyy s.ixy
  intro f hf
  simp only [individual, List.mem_cons, List.not_mem_nil, or_false] at hf
  rcases hf with rfl | rfl | rfl | rfl | rfl | rfl | rfl | rfl | rfl | rfl | rfl <;>
    simp only [fieldAt, principalCoordinate]
  · convert lin (em * (a.n / s.ea)) 0 0 using 2; ring
  · refine sm em ?_
    convert lin 0 (-(s.ixy * a.mxx) / (s.ixx * s.iyy - s.ixy ^ 2))
      (s.iyy * a.mxx / (s.ixx * s.iyy - s.ixy ^ 2)) using 2; ring
  · refine sm em ?_
    convert lin 0 (-(s.ixx * a.myy) / (s.ixx * s.iyy - s.ixy ^ 2))
      (s.ixy * a.myy / (s.ixx * s.iyy - s.ixy ^ 2)) using 2; ring
  · refine sm em (sm _ ?_)
    convert lin 0 (-Real.sin (s.phi * Real.pi / 180)) (Real.cos (s.phi * Real.pi / 180)) using 2; ring
  · refine sm em (sm _ ?_)
    convert lin 0 (Real.cos (s.phi * Real.pi / 180)) (Real.sin (s.phi * Real.pi / 180)) using 2; ring
  · exact sm em (sm _ (Submodule.sub_mem _ (dx h1) (PolyLE.mono (by omega) PolyLE.snd)))
  · exact sm em (sm _ (Submodule.add_mem _ (dy h1) (PolyLE.mono (by omega) PolyLE.fst)))
  · exact sm em (sm _ (Submodule.sub_mem _ (dx h2) (sm _ p1)))
  · exact sm em (sm _ (Submodule.sub_mem _ (dy h2) (sm _ p2)))
  · exact sm em (sm _ (Submodule.sub_mem _ (dx h3) (sm _ p3)))
  · exact sm em (sm _ (Submodule.sub_mem _ (dy h3) (sm _ p4)))

theorem elemRegion_shift (c : Coords) (cx cy : ℝ) :
    elemRegion (c.shift cx cy) = affine 1 0 0 1 (-cx) (-cy) '' elemRegion c := by
  rw [← elemRegion_map]
  congr 1
  simp [Coords.shift, Coords.map, affine, sub_eq_add_neg]

/-- Integrals over the mesh in centroidal coordinates. -/
theorem meshInt_shift (els : List (Tri6 n)) (cx cy : ℝ) (F : Tri6 n → ℝ × ℝ → ℝ) :
    meshInt els (fun t p => t.material.elasticModulus * F (t.shiftBy cx cy) (p.1 - cx, p.2 - cy))
      = wInt (els.map fun t => t.shiftBy cx cy) F := by
  unfold meshInt wInt
  rw [List.map_map]
  refine congrArg List.sum (List.map_congr_left fun t _ => ?_)
  rw [integral_const_mul]
  simp only [Function.comp_apply]
  have : (t.shiftBy cx cy).coords = t.coords.shift cx cy := rfl
  rw [this, elemRegion_shift, image_integral _ _ (by norm_num) (measurable_elemRegion _)]
  have e : ∀ p : ℝ × ℝ, affine 1 0 0 1 (-cx) (-cy) p = (p.1 - cx, p.2 - cy) := fun p => by
    simp [affine, sub_eq_add_neg]
  simp only [e]
  norm_num
  exact .inl rfl

/-- The field is the modulus times a modulus-free field. -/
theorem fieldAt_em (em : ℝ) (a : Actions) (s : StressEnv) (om ps ph : ℝ × ℝ → ℝ) (p : ℝ × ℝ) :
    ∀ f ∈ individual, f (fieldAt em a s om ps ph p) = em * f (fieldAt 1 a s om ps ph p) := by
  intro f hf
  simp only [individual, List.mem_cons, List.not_mem_nil, or_false] at hf
  rcases hf with rfl | rfl | rfl | rfl | rfl | rfl | rfl | rfl | rfl | rfl | rfl <;>
    simp only [fieldAt, one_mul]

end field

/-- Resultants of the field, relative to the centroid, weighted by the modulus. -/
theorem field_resultants {s : Section} {r : GeomResults} (hg : GoodSection s) (h : Physical s.elements)
    (hr : s.geometricAnalysis = .ok r) {omega psi phiS : Fin s.numNodes → ℝ} (a : Actions)
    (e : StressEnv) (hea : e.ea = r.sums.ea) (hixx : e.ixx = r.cent.ixxC)
    (hiyy : e.iyy = r.cent.iyyC) (hixy : e.ixy = r.cent.ixyC) (hphi : e.phi = r.cent.phi)
    (hi11 : e.i11 = r.cent.i11) (hi22 : e.i22 = r.cent.i22)
    {qo qp qf : Tri6 s.numNodes → ℝ × ℝ → ℝ} :
    let els := s.elements.map fun t => t.shiftBy r.cx r.cy
    let A := (assembleTorsion els).1
    let w := warpIn s.materials r
    let F := fun t p => fieldAt 1 a e (qo t) (qp t) (qf t) p
    SolvesBordered A (assembleTorsion els).2 omega →
    SolvesBordered A (assembleShearLoad els w).1 psi →
    SolvesBordered A (assembleShearLoad els w).2 phiS →
    FEField els omega qo → FEField els psi qp → FEField els phiS qf →
    (a.mzz = 0 ∨ e.j ≠ 0 ∧ e.j = r.cent.ixxC + r.cent.iyyC - dotN omega (assembleTorsion els).2) →
    ((a.vx = 0 ∧ a.vy = 0) ∨ e.deltaS = w.deltaS ∧ e.nu = w.nu ∧ w.deltaS ≠ 0) →
    (wInt els (fun t p => (F t p).zzN) = a.n ∧ wInt els (fun t p => (F t p).zzN * p.2) = 0 ∧
      wInt els (fun t p => (F t p).zzN * p.1) = 0) ∧
    (wInt els (fun t p => (F t p).zzMxx) = 0 ∧ wInt els (fun t p => (F t p).zzMxx * p.2) = a.mxx ∧
      wInt els (fun t p => (F t p).zzMxx * p.1) = 0) ∧
    (wInt els (fun t p => (F t p).zzMyy) = 0 ∧ wInt els (fun t p => (F t p).zzMyy * p.2) = 0 ∧
      wInt els (fun t p => (F t p).zzMyy * p.1) = -a.myy) ∧
    (wInt els (fun t p => (F t p).zzM11) = 0 ∧
      wInt els (fun t p => (F t p).zzM11 * rotY r.cent.phi p.1 p.2)
        = a.m11 / r.cent.i11 * momentAbout r.cent.ixxC r.cent.iyyC r.cent.ixyC (r.cent.phi * Real.pi / 180) ∧
      wInt els (fun t p => (F t p).zzM11 * rotX r.cent.phi p.1 p.2)
        = a.m11 / r.cent.i11 * productAbout r.cent.ixxC r.cent.iyyC r.cent.ixyC (r.cent.phi * Real.pi / 180)) ∧
    (wInt els (fun t p => (F t p).zzM22) = 0 ∧
      wInt els (fun t p => (F t p).zzM22 * rotX r.cent.phi p.1 p.2)
        = -a.m22 / r.cent.i22 * momentAbout r.cent.ixxC r.cent.iyyC r.cent.ixyC
            (r.cent.phi * Real.pi / 180 + Real.pi / 2) ∧
      wInt els (fun t p => (F t p).zzM22 * rotY r.cent.phi p.1 p.2)
        = -a.m22 / r.cent.i22 * productAbout r.cent.ixxC r.cent.iyyC r.cent.ixyC (r.cent.phi * Real.pi / 180)) ∧
    (wInt els (fun t p => (F t p).zxVx) = a.vx ∧ wInt els (fun t p => (F t p).zyVx) = 0) ∧
    (wInt els (fun t p => (F t p).zxVy) = 0 ∧ wInt els (fun t p => (F t p).zyVy) = a.vy) ∧
    (wInt els (fun t p => (F t p).zxMzz) = 0 ∧ wInt els (fun t p => (F t p).zyMzz) = 0 ∧
      wInt els (fun t p => p.1 * (F t p).zyMzz - p.2 * (F t p).zxMzz) = a.mzz) := by
  intro els A w F ho hps hph fo fp ff hj hds
  have hS := centroidalSetup hg h hr
  change CentroidalSetup s r els at hS
  let cs := Real.cos (r.cent.phi * Real.pi / 180)
  let sn := Real.sin (r.cent.phi * Real.pi / 180)
  have hP := hS.physical
  have hD := hS.det.ne'
  obtain ⟨hX, hY⟩ := hS.centroidal
  have hEA : r.sums.ea ≠ 0 := by
    have := (C09_positive hr h).2.1
    exact this.ne'
  have m : ∀ a b c' : ℝ, wInt els (fun _ p => a * p.1 ^ 2 + b * (p.1 * p.2) + c' * p.2 ^ 2)
      = a * r.cent.iyyC + b * r.cent.ixyC + c' * r.cent.ixxC := by
    intro a b c'
    rw [wInt_quadmom, hS.ixx, hS.iyy, hS.ixy]
  have l : ∀ a b : ℝ, wInt els (fun _ p => a * p.1 + b * p.2) = 0 := by
    intro a b
    rw [wInt_lin, hX, hY]; ring
  obtain ⟨sh1, sh2, sh3, sh4⟩ := shear_resultants hg h hr hps hph fp ff
  refine ⟨⟨?_, ?_, ?_⟩, ⟨?_, ?_, ?_⟩, ⟨?_, ?_, ?_⟩, ⟨?_, ?_, ?_⟩, ⟨?_, ?_, ?_⟩, ⟨?_, ?_⟩, ⟨?_, ?_⟩,
    ⟨?_, ?_, ?_⟩⟩
  · rw [wInt_congr (g := fun _ p => a.n / r.sums.ea * 1) (fun t _ p => by simp [F, fieldAt, hea]),
      wInt_smul, hS.one]
    field_simp
  · rw [← l 0 (a.n / r.sums.ea)]
    exact wInt_congr fun t _ p => by simp [F, fieldAt, hea]
  · rw [← l (a.n / r.sums.ea) 0]
    exact wInt_congr fun t _ p => by simp [F, fieldAt, hea]
  · rw [← l (-(r.cent.ixyC * a.mxx) / (r.cent.ixxC * r.cent.iyyC - r.cent.ixyC ^ 2))
      (r.cent.iyyC * a.mxx / (r.cent.ixxC * r.cent.iyyC - r.cent.ixyC ^ 2))]
    exact wInt_congr fun t _ p => by simp only [F, fieldAt, hixx, hiyy, hixy]; ring
  · rw [wInt_congr (g := fun _ p => 0 * p.1 ^ 2
        + (-(r.cent.ixyC * a.mxx) / (r.cent.ixxC * r.cent.iyyC - r.cent.ixyC ^ 2)) * (p.1 * p.2)
        + (r.cent.iyyC * a.mxx / (r.cent.ixxC * r.cent.iyyC - r.cent.ixyC ^ 2)) * p.2 ^ 2)
      fun t _ p => by simp only [F, fieldAt, hixx, hiyy, hixy]; ring]
    rw [m]
    generalize hDd : r.cent.ixxC * r.cent.iyyC - r.cent.ixyC ^ 2 = D at hD ⊢
    field_simp
    rw [← hDd]; ring
  · rw [wInt_congr (g := fun _ p =>
        (-(r.cent.ixyC * a.mxx) / (r.cent.ixxC * r.cent.iyyC - r.cent.ixyC ^ 2)) * p.1 ^ 2
        + (r.cent.iyyC * a.mxx / (r.cent.ixxC * r.cent.iyyC - r.cent.ixyC ^ 2)) * (p.1 * p.2)
        + 0 * p.2 ^ 2)
      fun t _ p => by simp only [F, fieldAt, hixx, hiyy, hixy]; ring]
    rw [m]; field_simp; ring
  · rw [← l (-(r.cent.ixxC * a.myy) / (r.cent.ixxC * r.cent.iyyC - r.cent.ixyC ^ 2))
      (r.cent.ixyC * a.myy / (r.cent.ixxC * r.cent.iyyC - r.cent.ixyC ^ 2))]
    exact wInt_congr fun t _ p => by simp only [F, fieldAt, hixx, hiyy, hixy]; ring
  · rw [wInt_congr (g := fun _ p => 0 * p.1 ^ 2
        + (-(r.cent.ixxC * a.myy) / (r.cent.ixxC * r.cent.iyyC - r.cent.ixyC ^ 2)) * (p.1 * p.2)
        + (r.cent.ixyC * a.myy / (r.cent.ixxC * r.cent.iyyC - r.cent.ixyC ^ 2)) * p.2 ^ 2)
      fun t _ p => by simp only [F, fieldAt, hixx, hiyy, hixy]; ring]
    rw [m]; field_simp; ring
  · rw [wInt_congr (g := fun _ p =>
        (-(r.cent.ixxC * a.myy) / (r.cent.ixxC * r.cent.iyyC - r.cent.ixyC ^ 2)) * p.1 ^ 2
        + (r.cent.ixyC * a.myy / (r.cent.ixxC * r.cent.iyyC - r.cent.ixyC ^ 2)) * (p.1 * p.2)
        + 0 * p.2 ^ 2)
      fun t _ p => by simp only [F, fieldAt, hixx, hiyy, hixy]; ring]
    rw [m]; field_simp; ring
  · rw [← l (a.m11 / r.cent.i11 * -sn) (a.m11 / r.cent.i11 * cs)]
    exact wInt_congr fun t _ p => by
      simp only [F, fieldAt, principalCoordinate, hphi, hi11, sn, cs]; ring
  · rw [wInt_congr (g := fun _ p => (a.m11 / r.cent.i11 * sn ^ 2) * p.1 ^ 2
        + (a.m11 / r.cent.i11 * (-2 * sn * cs)) * (p.1 * p.2) + (a.m11 / r.cent.i11 * cs ^ 2) * p.2 ^ 2)
      fun t _ p => by simp only [F, fieldAt, principalCoordinate, rotY, hphi, hi11, sn, cs]; ring]
    rw [m]; unfold momentAbout; ring
  · rw [wInt_congr (g := fun _ p => (a.m11 / r.cent.i11 * (-(sn * cs))) * p.1 ^ 2
        + (a.m11 / r.cent.i11 * (cs ^ 2 - sn ^ 2)) * (p.1 * p.2) + (a.m11 / r.cent.i11 * (sn * cs)) * p.2 ^ 2)
      fun t _ p => by simp only [F, fieldAt, principalCoordinate, rotX, hphi, hi11, sn, cs]; ring]
    rw [m]; unfold productAbout; ring
  · rw [← l (-a.m22 / r.cent.i22 * cs) (-a.m22 / r.cent.i22 * sn)]
    exact wInt_congr fun t _ p => by
      simp only [F, fieldAt, principalCoordinate, hphi, hi22, sn, cs]; ring
  · rw [wInt_congr (g := fun _ p => (-a.m22 / r.cent.i22 * cs ^ 2) * p.1 ^ 2
        + (-a.m22 / r.cent.i22 * (2 * sn * cs)) * (p.1 * p.2) + (-a.m22 / r.cent.i22 * sn ^ 2) * p.2 ^ 2)
      fun t _ p => by simp only [F, fieldAt, principalCoordinate, rotX, hphi, hi22, sn, cs]; ring]
    rw [m]; unfold momentAbout
    rw [Real.cos_add_pi_div_two, Real.sin_add_pi_div_two]; ring
  · rw [wInt_congr (g := fun _ p => (-a.m22 / r.cent.i22 * (-(sn * cs))) * p.1 ^ 2
        + (-a.m22 / r.cent.i22 * (cs ^ 2 - sn ^ 2)) * (p.1 * p.2) + (-a.m22 / r.cent.i22 * (sn * cs)) * p.2 ^ 2)
      fun t _ p => by simp only [F, fieldAt, principalCoordinate, rotY, hphi, hi22, sn, cs]; ring]
    rw [m]; unfold productAbout; ring
  · rcases hds with ⟨h1, -⟩ | ⟨h1, h2, h3⟩
    · rw [wInt_congr (g := fun _ p => 0 * p.1 + 0 * p.2) fun t _ p => by simp [F, fieldAt, h1], l, h1]
    · rw [wInt_congr (g := fun t p => a.vx / w.deltaS * (dX (qp t) p
          - w.nu / 2 * (shearParameter p.1 p.2 w.ixx w.iyy w.ixy).d1))
        fun t _ p => by simp only [F, fieldAt, h1, h2, hixx, hiyy, hixy, w, warpIn, one_mul],
        wInt_smul, sh1]
      exact div_mul_cancel₀ _ h3
  · rcases hds with ⟨h1, -⟩ | ⟨h1, h2, h3⟩
    · rw [wInt_congr (g := fun _ p => 0 * p.1 + 0 * p.2) fun t _ p => by simp [F, fieldAt, h1], l]
    · rw [wInt_congr (g := fun t p => a.vx / w.deltaS * (dY (qp t) p
          - w.nu / 2 * (shearParameter p.1 p.2 w.ixx w.iyy w.ixy).d2))
        fun t _ p => by simp only [F, fieldAt, h1, h2, hixx, hiyy, hixy, w, warpIn, one_mul],
        wInt_smul, sh2, mul_zero]
  · rcases hds with ⟨-, h1⟩ | ⟨h1, h2, h3⟩
    · rw [wInt_congr (g := fun _ p => 0 * p.1 + 0 * p.2) fun t _ p => by simp [F, fieldAt, h1], l]
    · rw [wInt_congr (g := fun t p => a.vy / w.deltaS * (dX (qf t) p
          - w.nu / 2 * (shearParameter p.1 p.2 w.ixx w.iyy w.ixy).h1))
        fun t _ p => by simp only [F, fieldAt, h1, h2, hixx, hiyy, hixy, w, warpIn, one_mul],
        wInt_smul, sh3, mul_zero]
  · rcases hds with ⟨-, h1⟩ | ⟨h1, h2, h3⟩
    · rw [wInt_congr (g := fun _ p => 0 * p.1 + 0 * p.2) fun t _ p => by simp [F, fieldAt, h1], l, h1]
    · rw [wInt_congr (g := fun t p => a.vy / w.deltaS * (dY (qf t) p
          - w.nu / 2 * (shearParameter p.1 p.2 w.ixx w.iyy w.ixy).h2))
        fun t _ p => by simp only [F, fieldAt, h1, h2, hixx, hiyy, hixy, w, warpIn, one_mul],
        wInt_smul, sh4]
      exact div_mul_cancel₀ _ h3
  · rw [wInt_congr (g := fun t p => a.mzz / e.j * (dX (qo t) p - p.2))
        fun t _ p => by simp only [F, fieldAt, one_mul],
      wInt_smul, wInt_sub (f := fun t p => dX (qo t) p) (g := fun _ p => p.2)
        (fun t ht => dX_mem (fo t ht).1) (fun _ _ => PolyLE.snd), hY]
    have h1 := bordered_weak hP hS.distinct (load_sum hP.proper hS.distinct) ho fo hS.linX
    have h2 : dotN _ (assembleTorsion els).2 = _ := load_form hP.proper hS.distinct hS.linX
    rw [h2, dirichlet] at h1
    simp only [dX_fst, dY_fst, one_mul, zero_mul, add_zero, sub_zero] at h1
    rw [h1, hY]; ring
  · rw [wInt_congr (g := fun t p => a.mzz / e.j * (dY (qo t) p - -1 * p.1))
        fun t _ p => by simp only [F, fieldAt]; ring,
      wInt_smul, wInt_sub (f := fun t p => dY (qo t) p) (g := fun _ p => -1 * p.1)
        (fun t ht => dY_mem (fo t ht).1) (fun _ _ => Submodule.smul_mem _ (-1) PolyLE.fst), wInt_smul, hX]
    have h1 := bordered_weak hP hS.distinct (load_sum hP.proper hS.distinct) ho fo hS.linY
    have h2 : dotN _ (assembleTorsion els).2 = _ := load_form hP.proper hS.distinct hS.linY
    rw [h2, dirichlet] at h1
    simp only [dX_snd, dY_snd, one_mul, zero_mul, zero_add, zero_sub] at h1
    have h3 : wInt els (fun _ p => -p.1) = 0 := by
      rw [wInt_congr (g := fun _ p => -1 * p.1 + 0 * p.2) fun t _ p => by ring, l]
    rw [h1, h3]; ring
  · rcases hj with h1 | ⟨h1, h2⟩
    · rw [wInt_congr (g := fun _ p => 0 * p.1 + 0 * p.2) fun t _ p => by simp [F, fieldAt, h1], l, h1]
    · have h3 : dotN omega (assembleTorsion els).2 = _ := load_form hP.proper hS.distinct fo
      rw [wInt_congr (g := fun t p => a.mzz / e.j * ((1 * p.1 ^ 2 + 0 * (p.1 * p.2) + 1 * p.2 ^ 2)
          - (dX (qo t) p * p.2 - dY (qo t) p * p.1)))
          fun t _ p => by simp only [F, fieldAt]; ring,
        wInt_smul, wInt_sub (d := 2) (f := fun _ p => 1 * p.1 ^ 2 + 0 * (p.1 * p.2) + 1 * p.2 ^ 2)
          (g := fun t p => dX (qo t) p * p.2 - dY (qo t) p * p.1), m, ← h3]
      · have : (1 * r.cent.iyyC + 0 * r.cent.ixyC + 1 * r.cent.ixxC - dotN omega (assembleTorsion els).2)
            = e.j := by rw [h2]; ring
        rw [this]; field_simp
      · intro t ht
        have hyy : (fun p : ℝ × ℝ => p.2 ^ 2) ∈ PolyLE 2 := by
          simpa only [pow_two] using poly_mul2 PolyLE.snd PolyLE.snd
        have hxx : (fun p : ℝ × ℝ => p.1 ^ 2) ∈ PolyLE 2 := by
          simpa only [pow_two] using poly_mul2 PolyLE.fst PolyLE.fst
        have hxy : (fun p : ℝ × ℝ => p.1 * p.2) ∈ PolyLE 2 := poly_mul2 PolyLE.fst PolyLE.snd
        exact Submodule.add_mem _ (Submodule.add_mem _ (Submodule.smul_mem _ 1 hxx)
          (Submodule.smul_mem _ 0 hxy)) (Submodule.smul_mem _ 1 hyy)
      · intro t ht
        exact Submodule.sub_mem _ (poly_mul2 (dX_mem (fo t ht).1) PolyLE.snd)
          (poly_mul2 (dY_mem (fo t ht).1) PolyLE.fst)

/-- The two integrals of the shear centre that go with Poisson's ratio. -/
theorem scInts_centre {n : ℕ} {els : List (Tri6 n)} (hp : ∀ t ∈ els, Proper t.coords) (w : WarpIn)
    (omega : Fin n → ℝ) :
    (scWarpingIntegrals els w omega).scX
      = wInt els (fun _ p => (w.iyy * p.1 + w.ixy * p.2) * (p.1 ^ 2 + p.2 ^ 2)) ∧
    (scWarpingIntegrals els w omega).scY
      = wInt els (fun _ p => (w.ixx * p.2 + w.ixy * p.1) * (p.1 ^ 2 + p.2 ^ 2)) := by
  have hsq : (fun p : ℝ × ℝ => p.1 ^ 2 + p.2 ^ 2) ∈ PolyLE 2 := by
    simp only [pow_two]
    exact Submodule.add_mem _ (poly_mul2 PolyLE.fst PolyLE.fst) (poly_mul2 PolyLE.snd PolyLE.snd)
  have hl : ∀ a b : ℝ, (fun p : ℝ × ℝ => a * p.1 + b * p.2) ∈ PolyLE 1 := fun a b =>
    Submodule.add_mem _ (Submodule.smul_mem _ a PolyLE.fst) (Submodule.smul_mem _ b PolyLE.snd)
  have hl' : ∀ a b : ℝ, (fun p : ℝ × ℝ => a * p.2 + b * p.1) ∈ PolyLE 1 := fun a b =>
    Submodule.add_mem _ (Submodule.smul_mem _ a PolyLE.snd) (Submodule.smul_mem _ b PolyLE.fst)
  constructor <;>
    simp only [scWarpingIntegrals, accum_eq_sum, Tri6.shearWarpingIntegrals, mul_assoc] <;>
    simp only [← accum_eq_sum gauss4]
  · refine sum_elem_quad hp (fun _ _ => poly_mul3 (hl w.iyy w.ixy) hsq) fun t ht gp hb => ?_
    rw [sf_nx (hp t ht).1 hb, sf_ny (hp t ht).1 hb]
  · refine sum_elem_quad hp (fun _ _ => poly_mul3 (hl' w.ixx w.ixy) hsq) fun t ht gp hb => ?_
    rw [sf_nx (hp t ht).1 hb, sf_ny (hp t ht).1 hb]

/-- Torques about the centroid of the shear stress functions: the coordinates of the elastic shear centre
times `deltaS`. -/
theorem shear_torques {n : ℕ} {els : List (Tri6 n)} (hp : ∀ t ∈ els, Proper t.coords)
    (hd : DistinctNodes els) (w : WarpIn) (omega : Fin n → ℝ) {psi phiS : Fin n → ℝ}
    {qp qf : Tri6 n → ℝ × ℝ → ℝ} (fp : FEField els psi qp) (ff : FEField els phiS qf) (hD : w.deltaS ≠ 0) :
    let c := shearCentres w (assembleTorsion els).2 psi phiS (scWarpingIntegrals els w omega)
    let P := fun p : ℝ × ℝ => shearParameter p.1 p.2 w.ixx w.iyy w.ixy
    wInt els (fun t p => p.1 * (dY (qp t) p - w.nu / 2 * (P p).d2)
        - p.2 * (dX (qp t) p - w.nu / 2 * (P p).d1)) = -(w.deltaS * c.ySe) ∧
    wInt els (fun t p => p.1 * (dY (qf t) p - w.nu / 2 * (P p).h2)
        - p.2 * (dX (qf t) p - w.nu / 2 * (P p).h1)) = w.deltaS * c.xSe := by
  intro c P
  obtain ⟨i1, i2⟩ := scInts_centre hp w omega
  have hsq : (fun p : ℝ × ℝ => p.1 ^ 2 + p.2 ^ 2) ∈ PolyLE 2 := by
    simp only [pow_two]
    exact Submodule.add_mem _ (poly_mul2 PolyLE.fst PolyLE.fst) (poly_mul2 PolyLE.snd PolyLE.snd)
  have hl : ∀ a b : ℝ, (fun p : ℝ × ℝ => a * p.1 + b * p.2) ∈ PolyLE 1 := fun a b =>
    Submodule.add_mem _ (Submodule.smul_mem _ a PolyLE.fst) (Submodule.smul_mem _ b PolyLE.snd)
  have hl' : ∀ a b : ℝ, (fun p : ℝ × ℝ => a * p.2 + b * p.1) ∈ PolyLE 1 := fun a b =>
    Submodule.add_mem _ (Submodule.smul_mem _ a PolyLE.snd) (Submodule.smul_mem _ b PolyLE.fst)
  have hm : ∀ {x : Fin n → ℝ} {q : Tri6 n → ℝ × ℝ → ℝ}, FEField els x q → ∀ t ∈ els,
      (fun p => dX (q t) p * p.2 - dY (q t) p * p.1) ∈ PolyLE 3 := fun hq t ht =>
    PolyLE.mono (by omega) (Submodule.sub_mem _ (poly_mul2 (dX_mem (hq t ht).1) PolyLE.snd)
      (poly_mul2 (dY_mem (hq t ht).1) PolyLE.fst))
  have h1 : dotN psi (assembleTorsion els).2 = _ := load_form hp hd fp
  have h2 : dotN phiS (assembleTorsion els).2 = _ := load_form hp hd ff
  have e1 : w.deltaS * c.ySe = w.nu / 2 * (scWarpingIntegrals els w omega).scY
      + dotN psi (assembleTorsion els).2 := by
    rw [dotN_comm]
    simp only [c, shearCentres]
    field_simp
  have e2 : w.deltaS * c.xSe = w.nu / 2 * (scWarpingIntegrals els w omega).scX
      - dotN phiS (assembleTorsion els).2 := by
    rw [dotN_comm phiS]
    simp only [c, shearCentres]
    field_simp
  rw [e1, e2, i1, i2, h1, h2]
  constructor
  · rw [wInt_congr (g := fun t p => -(w.nu / 2) * ((w.ixx * p.2 + w.ixy * p.1) * (p.1 ^ 2 + p.2 ^ 2))
        + -1 * (dX (qp t) p * p.2 - dY (qp t) p * p.1)) fun t _ p => by
          simp only [P, shearParameter]; ring,
      wInt_lc _ _ (fun _ _ => poly_mul3 (hl' w.ixx w.ixy) hsq) (hm fp)]
    ring
  · rw [wInt_congr (g := fun t p => w.nu / 2 * ((w.iyy * p.1 + w.ixy * p.2) * (p.1 ^ 2 + p.2 ^ 2))
        + -1 * (dX (qf t) p * p.2 - dY (qf t) p * p.1)) fun t _ p => by
          simp only [P, shearParameter]; ring,
      wInt_lc _ _ (fun _ _ => poly_mul3 (hl w.iyy w.ixy) hsq) (hm ff)]
    ring

/-- Elements of the groups are elements of the section. -/
theorem group_subset {g : GeomIn} {s : Section} (h : Section.init g = .ok s) :
    ∀ gr ∈ s.groups, ∀ t ∈ gr.elements, t ∈ s.elements := by
  obtain ⟨m, mx, hm, -, -, els, hf, rfl⟩ := init_ok h
  have key : ∀ (es : List (Tri6 m.numNodes × MatObj)), (∀ e ∈ es, e ∈ els) →
      ∀ gs : List (MaterialGroup m.numNodes),
      (∀ g' ∈ gs, ∀ t ∈ g'.elements, t ∈ els.map Prod.fst) →
      ∀ g' ∈ es.foldl (fun gs p => addToGroup p.1 p.2 gs) gs, ∀ t ∈ g'.elements,
        t ∈ els.map Prod.fst := by
    intro es
    induction es with
    | nil => intro _ gs h; exact h
    | cons e es ih =>
      intro hsub gs hinv
      rw [List.foldl_cons]
      refine ih (fun x hx => hsub x (List.mem_cons_of_mem _ hx)) _ ?_
      intro g' hg' t ht
      rcases addToGroup_mem e.1 e.2 gs hg' ht with ⟨rfl, ha⟩ | ⟨g2, hg2, h1, h2⟩
      · exact List.mem_map_of_mem (hsub e (List.mem_cons_self ..))
      · exact hinv g2 hg2 t h2
  refine key els (fun _ h => h) _ ?_
  intro g' hg' t ht
  simp only [groups0, List.mem_map] at hg'
  obtain ⟨_, _, rfl⟩ := hg'
  cases ht

/-- The data of a stress analysis after the geometric and warping analyses. -/
theorem stress_run {P : Type} (env : Env P) {r : GeomResults} {w : WarpResults env.sec.numNodes}
    {s0 : Store env.sec.numNodes} (hs : HoldsGeom env.perimeter r s0) (a : Actions) :
    ∃ (e : StressEnv) (wf : WarpFields env.sec.numNodes),
      exec (env.stress a) (s0.setWarp w) = (.ok (stressLoop env.sec.groups a e wf), s0.setWarp w) ∧
      e.ea = (if isComposite env.sec.materials then r.sums.ea else r.sums.area) ∧
      e.cx = r.cx ∧ e.cy = r.cy ∧ e.ixx = r.cent.ixxC ∧ e.iyy = r.cent.iyyC ∧ e.ixy = r.cent.ixyC ∧
      e.i11 = r.cent.i11 ∧ e.i22 = r.cent.i22 ∧ e.phi = r.cent.phi ∧
      e.j = w.j ∧ e.nu = (warpIn env.sec.materials r).nu ∧ e.deltaS = w.deltaS ∧
      wf = ⟨w.omega, w.psi, w.phiS⟩ := by
  have hs' : HoldsGeom env.perimeter r (s0.setWarp w) :=
    holdsGeom_mono (l := warpValues w) hs (by simp [geomValues, warpValues])
  have hw : (s0.setWarp w).omega = some w.omega ∧ (s0.setWarp w).psi = some w.psi ∧
      (s0.setWarp w).phiS = some w.phiS ∧ (s0.setWarp w).val .j = some w.j ∧
      (s0.setWarp w).val .deltaS = some w.deltaS := by
    simp [Store.setWarp, warpValues, assign_cons, assign_nil]
  obtain ⟨w1, w2, w3, w4, w5⟩ := hw
  generalize s0.setWarp w = s at *
  have harea : s.val .area = some r.sums.area := hs' (.area, _) (by simp [geomValues])
  have hcx : s.val .cx = some r.cx := hs' (.cx, _) (by simp [geomValues])
  have hcy : s.val .cy = some r.cy := hs' (.cy, _) (by simp [geomValues])
  have hixx : s.val .ixxC = some r.cent.ixxC := hs' (.ixxC, _) (by simp [geomValues])
  have hiyy : s.val .iyyC = some r.cent.iyyC := hs' (.iyyC, _) (by simp [geomValues])
  have hixy : s.val .ixyC = some r.cent.ixyC := hs' (.ixyC, _) (by simp [geomValues])
  have hnu : s.val .nuEff = some r.nuEff := hs' (.nuEff, _) (by simp [geomValues])
  have hC : exec (ask fun p => getC p : Op env.sec.numNodes (ℝ × ℝ)) s = (.ok (r.cx, r.cy), s) := by
    rw [exec_ask]; simp [getC, hcx, hcy]
  rw [exec_stress, if_neg (by simp [harea, hixx, hcx]), if_neg (by simp [w1])]
  by_cases ha : a.vx ≠ 0 ∨ a.vy ≠ 0 ∨ a.mzz ≠ 0
  · refine ⟨⟨if isComposite env.sec.materials then r.sums.ea else r.sums.area, r.cx, r.cy, r.cent.ixxC, r.cent.iyyC, r.cent.ixyC, r.cent.i11, r.cent.i22, r.cent.phi,
      w.j, (warpIn env.sec.materials r).nu, w.deltaS⟩, ⟨w.omega, w.psi, w.phiS⟩, ?_, rfl, rfl, rfl, rfl,
      rfl, rfl, rfl, rfl, rfl, rfl, rfl, rfl, rfl⟩
    have : exec (env.stressSetup a) s = (.ok (⟨if isComposite env.sec.materials then r.sums.ea
        else r.sums.area, r.cx, r.cy, r.cent.ixxC, r.cent.iyyC, r.cent.ixyC, r.cent.i11, r.cent.i22,
        r.cent.phi, w.j, (warpIn env.sec.materials r).nu, w.deltaS⟩, ⟨w.omega, w.psi, w.phiS⟩), s) := by
      unfold Env.stressSetup
      rw [exec_bind_ok hC]
      dsimp only
      rw [exec_bind_ok (askPhi_geom env hs'), exec_bind_ok (askEa_geom env hs'),
        exec_bind_ok (askIc_ok env hixx hiyy hixy), exec_bind_ok (askIp_geom env hs')]
      rw [if_pos ha]
      have hj : exec (if isComposite env.sec.materials then
          ask fun p => getEj env.sec.materials p (.num 1)
          else ask fun p => getJ env.sec.materials p : Op env.sec.numNodes ℝ) s = (.ok w.j, s) := by
        by_cases hc : isComposite env.sec.materials
        · simp only [hc, if_true]; rw [exec_ask]; simp [getEj, hc, w4, ERef.value]
        · simp only [hc, if_false]; rw [exec_ask]; simp [getJ, hc, w4]
      by_cases hc : isComposite env.sec.materials
      · simp only [hc, if_true] at hj ⊢
        rw [exec_bind_ok hj, exec_bind_ok (askNu_ok env hnu), exec_get_bind, w5, w1, w2, w3]
        simp only [hc, if_true, warpIn]
        rfl
      · simp only [hc, if_false] at hj ⊢
        rw [exec_bind_ok hj, exec_bind_ok (askNu_ok env hnu), exec_get_bind, w5, w1, w2, w3]
        simp only [hc, if_false, warpIn]
        rfl
    rw [this]
  · refine ⟨⟨if isComposite env.sec.materials then r.sums.ea else r.sums.area, r.cx, r.cy, r.cent.ixxC, r.cent.iyyC, r.cent.ixyC, r.cent.i11, r.cent.i22, r.cent.phi,
      w.j, (warpIn env.sec.materials r).nu, w.deltaS⟩, ⟨w.omega, w.psi, w.phiS⟩, ?_, rfl, rfl, rfl, rfl,
      rfl, rfl, rfl, rfl, rfl, rfl, rfl, rfl, rfl⟩
    · have : exec (env.stressSetup a) s = (.ok (⟨if isComposite env.sec.materials then r.sums.ea
          else r.sums.area, r.cx, r.cy, r.cent.ixxC, r.cent.iyyC, r.cent.ixyC, r.cent.i11, r.cent.i22,
          r.cent.phi, 0, 0, 0⟩, ⟨fun _ => 0, fun _ => 0, fun _ => 0⟩), s) := by
        unfold Env.stressSetup
        rw [exec_bind_ok hC]
        dsimp only
        rw [exec_bind_ok (askPhi_geom env hs'), exec_bind_ok (askEa_geom env hs'),
          exec_bind_ok (askIc_ok env hixx hiyy hixy), exec_bind_ok (askIp_geom env hs')]
        rw [if_neg ha]
        rfl
      rw [this]
      refine Prod.ext (congrArg Except.ok ?_) rfl
      unfold stressLoop
      rw [List.map_inj_left]
      intro m _
      have := groupStress_noshear m.elements a ⟨if isComposite env.sec.materials then r.sums.ea
          else r.sums.area, r.cx, r.cy, r.cent.ixxC, r.cent.iyyC, r.cent.ixyC, r.cent.i11, r.cent.i22,
          r.cent.phi⟩ 0 0 0 w.j (warpIn env.sec.materials r).nu w.deltaS
          ⟨fun _ => 0, fun _ => 0, fun _ => 0⟩ ⟨w.omega, w.psi, w.phiS⟩ ha
      simp only [GeoData.toEnv] at this
      rw [this]

/-- The element stresses are the nodal values of the field, up to the rounding of the extrapolation
matrix. -/
theorem elStress_field {n : ℕ} (t : Tri6 n) (ht : Proper t.coords) (a : Actions) (s : StressEnv)
    (wf : WarpFields n) {om ps ph : ℝ × ℝ → ℝ}
    (h1 : Interpolates (t.coords.shift s.cx s.cy) (fun k => wf.omega (t.nodeIds k)) om)
    (h2 : Interpolates (t.coords.shift s.cx s.cy) (fun k => wf.psi (t.nodeIds k)) ps)
    (h3 : Interpolates (t.coords.shift s.cx s.cy) (fun k => wf.phiS (t.nodeIds k)) ph)
    (f : StressComp → ℝ) (hf : f ∈ individual) (B : ℝ)
    (hB : ∀ k, |f (fieldAt t.material.elasticModulus a s om ps ph
      (t.coords.x k - s.cx, t.coords.y k - s.cy))| ≤ B) (k : Fin 6) :
    |f (elStress a s wf t k) - f (fieldAt t.material.elasticModulus a s om ps ph
      (t.coords.x k - s.cx, t.coords.y k - s.cy))| ≤ 1e-12 * B := by
  have hB0 : 0 ≤ B := (abs_nonneg _).trans (hB 0)
  have hpoly := fieldAt_poly t.material.elasticModulus a s h1.1 h2.1 h3.1 f hf
  have key := C27_extrapolate (t.coords.shift s.cx s.cy) (straight_shift ht.1 _ _) _ hpoly gauss6pt
    (by simp [gaussPoints, gauss6]) B hB k
  have e : (fun g => f (fieldAt t.material.elasticModulus a s om ps ph
      (localPos (t.coords.shift s.cx s.cy) (gauss6pt g))))
      = fun g => f (t.stressAt a s (t.local wf.omega) (t.local wf.psi) (t.local wf.phiS) (gauss6pt g)) := by
    funext g
    rw [stressAt_field t ht a s wf h1 h2 h3 _ (gauss6pt_bary g)]
  rw [e] at key
  simp only [individual, List.mem_cons, List.not_mem_nil, or_false] at hf
  rcases hf with rfl | hf
  · have : (elStress a s wf t k).zzN = (fieldAt t.material.elasticModulus a s om ps ph
      (t.coords.x k - s.cx, t.coords.y k - s.cy)).zzN := by
      show a.n * 1 * t.material.elasticModulus / s.ea = t.material.elasticModulus * (a.n / s.ea)
      ring
    simp only [this, sub_self, abs_zero]
    positivity
  · have e2 : f (elStress a s wf t k) = extrapolateToNodes (fun g => f (t.stressAt a s
        (t.local wf.omega) (t.local wf.psi) (t.local wf.phiS) (gauss6pt g))) k := by
      rcases hf with rfl | rfl | rfl | rfl | rfl | rfl | rfl | rfl | rfl | rfl <;> rfl
    rw [e2]
    exact key

/-- **C23.**  On a section built from a geometry, from any state of the property store: after a geometric
analysis, a warping analysis with exact solutions of the linear systems, and a stress analysis for the
actions `a`, there is a stress field, quadratic on every element, such that

* the reported nodal stress components are its nodal values: at each node they lie between the smallest
  and the largest value of the field over the elements of the material group that share the node, up to
  `1e-12` times the largest value of the component;
* the axial stress has the axial force `a.n` and no moment about the centroid, the bending stresses due
  to `mxx` and `myy` have exactly these moments and no axial force;
* the stresses due to the principal moments have no axial force, and about the principal axes the
  moment `m11` (`m22`) and no other moment, exactly if the code computes the principal angle, and up to
  `1e-12`/`1e-6` if it short-cuts the angle to zero;
* the shear stresses due to `vx` and `vy` have these resultants;
* the torsional stresses have no resultant force and the torque `mzz`;
* the torques of the shear stresses about the centroid are those of forces `vx`, `vy` acting at the elastic
  shear centre of the warping analysis. -/
theorem C23_equilibrium {P : Type} (env : Env P) (g : GeomIn) (hi : Section.init g = .ok env.sec)
    (hg : GoodSection env.sec) (h : Physical env.sec.elements) (r : GeomResults)
    (hr : env.sec.geometricAnalysis = .ok r) (ty : SolverType) (w : WarpResults env.sec.numNodes)
    (hw : env.sec.warping env.solvers ty r = .ok w)
    (ho : SolvesBordered (assembleTorsion (env.sec.elements.map fun t => t.shiftBy r.cx r.cy)).1
      (assembleTorsion (env.sec.elements.map fun t => t.shiftBy r.cx r.cy)).2 w.omega)
    (hps : SolvesBordered (assembleTorsion (env.sec.elements.map fun t => t.shiftBy r.cx r.cy)).1
      (assembleShearLoad (env.sec.elements.map fun t => t.shiftBy r.cx r.cy)
        (warpIn env.sec.materials r)).1 w.psi)
    (hph : SolvesBordered (assembleTorsion (env.sec.elements.map fun t => t.shiftBy r.cx r.cy)).1
      (assembleShearLoad (env.sec.elements.map fun t => t.shiftBy r.cx r.cy)
        (warpIn env.sec.materials r)).2 w.phiS)
    (hnu : ∀ t ∈ env.sec.elements, -1 < t.material.poissonsRatio)
    (a : Actions) (s0 s1 s2 s3 : Store env.sec.numNodes) (l : List (GroupStress env.sec.numNodes))
    (run1 : env.geometric.run.run s0 = (.ok (), s1))
    (run2 : (env.warping ty).run.run s1 = (.ok (), s2))
    (run3 : (env.stress a).run.run s2 = (.ok l, s3)) :
    ∃ σ : Tri6 env.sec.numNodes → ℝ × ℝ → StressComp,
      (∀ (m : ℕ) (gr : MaterialGroup env.sec.numNodes) (res : GroupStress env.sec.numNodes),
        env.sec.groups[m]? = some gr → l[m]? = some res → ∀ f ∈ individual, ∀ i,
        (∃ t ∈ gr.elements, NodeOf i t) → ∀ lo hi B,
        (∀ t ∈ gr.elements, ∀ k, |f (σ t (t.coords.x k, t.coords.y k))| ≤ B) →
        (∀ t ∈ gr.elements, ∀ k, t.nodeIds k = i → lo ≤ f (σ t (t.coords.x k, t.coords.y k)) ∧
          f (σ t (t.coords.x k, t.coords.y k)) ≤ hi) →
        lo - 1e-12 * B ≤ f (res.comp i) ∧ f (res.comp i) ≤ hi + 1e-12 * B) ∧
      (∀ t ∈ env.sec.elements, ∀ f ∈ individual, (fun p => f (σ t p)) ∈ PolyLE 2) ∧
      NormalResultants env.sec.elements r.cx r.cy (fun t p => (σ t p).zzN) a.n 0 0 ∧
      NormalResultants env.sec.elements r.cx r.cy (fun t p => (σ t p).zzMxx) 0 a.mxx 0 ∧
      NormalResultants env.sec.elements r.cx r.cy (fun t p => (σ t p).zzMyy) 0 0 a.myy ∧
      meshInt env.sec.elements (fun t p => (σ t p).zzM11) = 0 ∧
      meshInt env.sec.elements (fun t p => (σ t p).zzM22) = 0 ∧
      (let M11 := meshInt env.sec.elements fun t p =>
          (σ t p).zzM11 * rotY r.cent.phi (p.1 - r.cx) (p.2 - r.cy)
       let M12 := -meshInt env.sec.elements fun t p =>
          (σ t p).zzM11 * rotX r.cent.phi (p.1 - r.cx) (p.2 - r.cy)
       let M22 := -meshInt env.sec.elements fun t p =>
          (σ t p).zzM22 * rotX r.cent.phi (p.1 - r.cx) (p.2 - r.cy)
       let M21 := meshInt env.sec.elements fun t p =>
          (σ t p).zzM22 * rotY r.cent.phi (p.1 - r.cx) (p.2 - r.cy)
       (¬ |r.cent.ixxC - r.cent.i11| < 1e-12 * r.cent.i11 →
          M11 = a.m11 ∧ M12 = 0 ∧ M22 = a.m22 ∧ M21 = 0) ∧
       (|M11 - a.m11| ≤ 1e-12 * |a.m11| ∧ |M12| ≤ 1e-6 * |a.m11| ∧
          |M22 - a.m22| ≤ 1e-12 * (r.cent.i11 / r.cent.i22) * |a.m22| ∧
          |M21| ≤ 1e-6 * (r.cent.i11 / r.cent.i22) * |a.m22|)) ∧
      ShearForce env.sec.elements (fun t p => (σ t p).zxVx) (fun t p => (σ t p).zyVx) a.vx 0 ∧
      ShearForce env.sec.elements (fun t p => (σ t p).zxVy) (fun t p => (σ t p).zyVy) 0 a.vy ∧
      ShearForce env.sec.elements (fun t p => (σ t p).zxMzz) (fun t p => (σ t p).zyMzz) 0 0 ∧
      torque env.sec.elements r.cx r.cy (fun t p => (σ t p).zxMzz) (fun t p => (σ t p).zyMzz) = a.mzz ∧
      torque env.sec.elements r.cx r.cy (fun t p => (σ t p).zxVx) (fun t p => (σ t p).zyVx)
        = -(w.sc.ySe * a.vx) ∧
      torque env.sec.elements r.cx r.cy (fun t p => (σ t p).zxVy) (fun t p => (σ t p).zyVy)
        = w.sc.xSe * a.vy := by
  have q1 : s1 = s0.set (geomValues env.perimeter r) := by
    have := exec_geometric env hr s0
    exact (Prod.ext_iff.1 (run1.symm.trans this)).2
  have H1 : HoldsGeom env.perimeter r s1 := by rw [q1]; exact holdsGeom_set _ r _
  have q2 : s2 = s1.setWarp w :=
    (Prod.ext_iff.1 (run2.symm.trans ((exec_warping env ty H1).1 w hw))).2
  obtain ⟨e, wf, hst, hea, hcx, hcy, hixx, hiyy, hixy, hi11, hi22, hphi, hj, hν, hds, hwf⟩ :=
    stress_run env (w := w) H1 a
  rw [← q2] at hst
  have hl : l = stressLoop env.sec.groups a e wf :=
    Except.ok.inj (Prod.ext_iff.1 (run3.symm.trans hst)).1
  set els := env.sec.elements.map fun t => t.shiftBy r.cx r.cy with hels
  have hS := centroidalSetup hg h hr
  rw [← hels] at hS
  have hP := hS.physical
  have hea' : e.ea = r.sums.ea := by
    rw [hea]
    split_ifs with hc
    · rfl
    · obtain ⟨g1, -⟩ := geom_ok hr
      rw [g1]; exact (C22_noncomposite_area g env.sec hi hc).symm
  -- the fields
  obtain ⟨qo, fo⟩ := exists_feField hP.proper w.omega
  obtain ⟨qp, fp⟩ := exists_feField hP.proper w.psi
  obtain ⟨qf, ff⟩ := exists_feField hP.proper w.phiS
  have hD : (warpIn env.sec.materials r).deltaS ≠ 0 := by
    have h1 : 1 + (warpIn env.sec.materials r).nu ≠ 0 := by
      simp only [warpIn]
      split_ifs with hc
      · obtain ⟨-, -, -, -, h5, -⟩ := C13_effective hr h hnu
        obtain ⟨h6, -, -, h7, -⟩ := geom_ok hr
        intro h0
        rw [h0, mul_zero, h7, h6, GeomSums.eEff] at h5
        exact (div_pos h.ea_pos h.area_pos).ne' h5
      · norm_num
    exact mul_ne_zero (mul_ne_zero two_ne_zero h1) hS.det.ne'
  obtain ⟨-, -, -, hwj, hwd, hwc, -⟩ := warping_ok hw
  have hjpos := (C19_torsion_constant env.sec r hg h hr env.solvers ty w hw ho).2.2.1
  set Fld : Tri6 env.sec.numNodes → ℝ × ℝ → StressComp := fun t p =>
    fieldAt 1 a e (qo t) (qp t) (qf t) p with hFld
  obtain ⟨N, MX, MY, M1, M2, VX, VY, T⟩ := field_resultants hg h hr a e hea' hixx hiyy hixy hphi hi11 hi22
    (qo := qo) (qp := qp) (qf := qf) ho hps hph fo fp ff
    (.inr ⟨by rw [hj]; exact hjpos.ne', by rw [hj, hwj]; rfl⟩)
    (.inr ⟨by rw [hds, hwd], hν, hD⟩)
  have key : ∀ f ∈ individual, ∀ G : ℝ × ℝ → ℝ,
      meshInt env.sec.elements (fun t p => f (fieldAt t.material.elasticModulus a e
        (qo (t.shiftBy r.cx r.cy)) (qp (t.shiftBy r.cx r.cy)) (qf (t.shiftBy r.cx r.cy))
          (p.1 - r.cx, p.2 - r.cy)) * G (p.1 - r.cx, p.2 - r.cy))
      = wInt els fun t p => f (Fld t p) * G p := by
    intro f hf G
    rw [← meshInt_shift env.sec.elements r.cx r.cy]
    unfold meshInt
    refine congrArg List.sum (List.map_congr_left fun t _ => ?_)
    refine integral_congr_ae (Filter.Eventually.of_forall fun p => ?_)
    simp only [hFld]
    rw [fieldAt_em _ _ _ _ _ _ _ f hf]
    ring
  have key1 : ∀ f ∈ individual, meshInt env.sec.elements (fun t p => f (fieldAt t.material.elasticModulus a e
        (qo (t.shiftBy r.cx r.cy)) (qp (t.shiftBy r.cx r.cy)) (qf (t.shiftBy r.cx r.cy))
          (p.1 - r.cx, p.2 - r.cy))) = wInt els fun t p => f (Fld t p) := by
    intro f hf
    have := key f hf fun _ => 1
    simpa only [mul_one] using this
  have mem : ∀ t ∈ env.sec.elements, t.shiftBy r.cx r.cy ∈ els := fun t ht => List.mem_map_of_mem ht
  refine ⟨fun t p => fieldAt t.material.elasticModulus a e (qo (t.shiftBy r.cx r.cy))
    (qp (t.shiftBy r.cx r.cy)) (qf (t.shiftBy r.cx r.cy)) (p.1 - r.cx, p.2 - r.cy), ?_, ?_,
    ⟨?_, ?_, ?_⟩, ⟨?_, ?_, ?_⟩, ⟨?_, ?_, ?_⟩, ?_, ?_, ?_, ⟨?_, ?_⟩, ⟨?_, ?_⟩, ⟨?_, ?_⟩, ?_, ?_, ?_⟩
  · intro m gr res hgr hres f hf i hnode lo hi' B hB hb
    have hsub := group_subset hi gr (List.mem_of_getElem? hgr)
    have hd : DistinctNodes gr.elements := fun t ht => good_distinct hg t (hsub t ht)
    obtain ⟨res', hres', -, hav⟩ := C26_average env.sec.groups a e wf m gr hgr hd
    rw [← hl, hres] at hres'
    obtain rfl := Option.some.inj hres'
    refine (hav f hf i).1 hnode _ _ fun t ht k hk => ?_
    have hb' := hb t ht k hk
    have := elStress_field t (h.proper t (hsub t ht)) a e wf
      (om := qo (t.shiftBy r.cx r.cy)) (ps := qp (t.shiftBy r.cx r.cy)) (ph := qf (t.shiftBy r.cx r.cy))
      (by rw [hwf, hcx, hcy]; exact fo _ (mem t (hsub t ht)))
      (by rw [hwf, hcx, hcy]; exact fp _ (mem t (hsub t ht)))
      (by rw [hwf, hcx, hcy]; exact ff _ (mem t (hsub t ht))) f hf B
      (by rw [hcx, hcy]; exact hB t ht) k
    rw [hcx, hcy, abs_le] at this
    constructor <;> linarith [this.1, this.2, hb'.1, hb'.2]
  · intro t ht f hf
    have hp := fieldAt_poly t.material.elasticModulus a e (fo _ (mem t ht)).1 (fp _ (mem t ht)).1
      (ff _ (mem t ht)).1 f hf
    have := PolyLE.comp_triMap hp (1 + -r.cx, 0 + -r.cy) (0 + -r.cx, 1 + -r.cy) (-r.cx, -r.cy)
    rw [← affine_eq_triMap] at this
    convert this using 2
    simp [affine, sub_eq_add_neg]
  · exact (key1 (·.zzN) (by simp [individual])).trans N.1
  · exact (key (·.zzN) (by simp [individual]) (·.2)).trans N.2.1
  · rw [neg_eq_zero]; exact (key (·.zzN) (by simp [individual]) (·.1)).trans N.2.2
  · exact (key1 (·.zzMxx) (by simp [individual])).trans MX.1
  · exact (key (·.zzMxx) (by simp [individual]) (·.2)).trans MX.2.1
  · rw [neg_eq_zero]; exact (key (·.zzMxx) (by simp [individual]) (·.1)).trans MX.2.2
  · exact (key1 (·.zzMyy) (by simp [individual])).trans MY.1
  · exact (key (·.zzMyy) (by simp [individual]) (·.2)).trans MY.2.1
  · rw [neg_eq_iff_eq_neg]; exact (key (·.zzMyy) (by simp [individual]) (·.1)).trans MY.2.2
  · exact (key1 (·.zzM11) (by simp [individual])).trans M1.1
  · exact (key1 (·.zzM22) (by simp [individual])).trans M2.1
  · obtain ⟨-, g2, -⟩ := geom_ok hr
    obtain ⟨c1, c2, c3, c4, c5, c6, -⟩ := cent_ok g2
    obtain ⟨-, -, hx, hy, -⟩ := C09_positive hr h
    have p11 : 0 < r.cent.i11 := by rw [c4]; exact i11_pos _ (by rw [← c1]; exact hx)
    have pdet : r.cent.i11 * r.cent.i22 = r.cent.ixxC * r.cent.iyyC - r.cent.ixyC ^ 2 := by
      rw [c4, c5, c1, c2, c3]; exact (C10_extreme _ _ _).2.1
    have p22 : 0 < r.cent.i22 := by
      have := hS.det
      rw [← pdet] at this
      exact pos_of_mul_pos_right this p11.le
    rw [c1, c2, c3, c6] at M1 M2
    intro M11 M12 M22 M21
    set θ := phiOf r.sums.ixxC r.sums.iyyC r.sums.ixyC * Real.pi / 180 with hθ
    have e11 : M11 = a.m11 / r.cent.i11 * momentAbout r.sums.ixxC r.sums.iyyC r.sums.ixyC θ := by
      refine Eq.trans ?_ M1.2.1
      rw [← c6]
      exact key (·.zzM11) (by simp [individual]) (fun p => rotY r.cent.phi p.1 p.2)
    have e12 : M12 = -(a.m11 / r.cent.i11 * productAbout r.sums.ixxC r.sums.iyyC r.sums.ixyC θ) := by
      refine congrArg Neg.neg (Eq.trans ?_ M1.2.2)
      rw [← c6]
      exact key (·.zzM11) (by simp [individual]) (fun p => rotX r.cent.phi p.1 p.2)
    have e22 : M22 = -(-a.m22 / r.cent.i22 *
        momentAbout r.sums.ixxC r.sums.iyyC r.sums.ixyC (θ + Real.pi / 2)) := by
      refine congrArg Neg.neg (Eq.trans ?_ M2.2.1)
      rw [← c6]
      exact key (·.zzM22) (by simp [individual]) (fun p => rotX r.cent.phi p.1 p.2)
    have e21 : M21 = -a.m22 / r.cent.i22 * productAbout r.sums.ixxC r.sums.iyyC r.sums.ixyC θ := by
      refine Eq.trans ?_ M2.2.2
      rw [← c6]
      exact key (·.zzM22) (by simp [individual]) (fun p => rotY r.cent.phi p.1 p.2)
    have exact_case : ¬ |r.cent.ixxC - r.cent.i11| < 1e-12 * r.cent.i11 →
        M11 = a.m11 ∧ M12 = 0 ∧ M22 = a.m22 ∧ M21 = 0 := by
      intro hbr
      obtain ⟨d1, d2, d3⟩ := C10_diagonal r.sums.ixxC r.sums.iyyC r.sums.ixyC (by rw [← c4]; exact p11)
        (by rw [← c4, ← c1]; exact hbr)
      rw [e11, e12, e22, e21, d1, d2, d3, ← c4, ← c5]
      refine ⟨?_, by ring, ?_, by ring⟩ <;> field_simp
    refine ⟨exact_case, ?_⟩
    have hrat : 0 ≤ r.cent.i11 / r.cent.i22 := (div_pos p11 p22).le
    by_cases hbr : |r.cent.ixxC - r.cent.i11| < 1e-12 * r.cent.i11
    · obtain ⟨z1, z2, z3, z4⟩ := C10_tolerance r.sums.ixxC r.sums.iyyC r.sums.ixyC
        (by rw [← c5]; exact p22.le) (by rw [← c4, ← c1]; exact hbr)
      rw [← c4] at z2 z3 z4
      rw [← c5] at z3
      have hθ0 : θ = 0 := by rw [hθ, z1]; simp
      rw [e11, e12, e22, e21, hθ0]
      simp only [momentAbout, productAbout, zero_add, Real.cos_zero, Real.sin_zero,
        Real.cos_pi_div_two, Real.sin_pi_div_two]
      have f11 : a.m11 / r.cent.i11 * (r.sums.ixxC * 1 ^ 2 + r.sums.iyyC * 0 ^ 2 - 2 * r.sums.ixyC * 0 * 1)
          - a.m11 = a.m11 * ((r.sums.ixxC - r.cent.i11) / r.cent.i11) := by field_simp; ring
      have f12 : -(a.m11 / r.cent.i11 * ((r.sums.ixxC - r.sums.iyyC) * 0 * 1 + r.sums.ixyC * (1 ^ 2 - 0 ^ 2)))
          = a.m11 * (-r.sums.ixyC / r.cent.i11) := by field_simp; ring
      have f22 : -(-a.m22 / r.cent.i22 * (r.sums.ixxC * 0 ^ 2 + r.sums.iyyC * 1 ^ 2 - 2 * r.sums.ixyC * 1 * 0))
          - a.m22 = a.m22 * ((r.sums.iyyC - r.cent.i22) / r.cent.i22) := by field_simp; ring
      have f21 : -a.m22 / r.cent.i22 * ((r.sums.ixxC - r.sums.iyyC) * 0 * 1 + r.sums.ixyC * (1 ^ 2 - 0 ^ 2))
          = a.m22 * (-r.sums.ixyC / r.cent.i22) := by field_simp; ring
      rw [f11, f12, f22, f21]
      simp only [abs_mul, abs_div, abs_neg, abs_of_pos p11, abs_of_pos p22]
      refine ⟨?_, ?_, ?_, ?_⟩
      · rw [mul_comm]
        exact mul_le_mul_of_nonneg_right (by rw [div_le_iff₀ p11]; exact z2.le) (abs_nonneg _)
      · rw [mul_comm]
        exact mul_le_mul_of_nonneg_right (by rw [div_le_iff₀ p11]; exact z4) (abs_nonneg _)
      · rw [mul_comm]
        refine mul_le_mul_of_nonneg_right ?_ (abs_nonneg _)
        rw [div_le_iff₀ p22, mul_assoc, div_mul_cancel₀ _ p22.ne']; exact z3.le
      · rw [mul_comm]
        refine mul_le_mul_of_nonneg_right ?_ (abs_nonneg _)
        rw [div_le_iff₀ p22, mul_assoc, div_mul_cancel₀ _ p22.ne']; exact z4
    · obtain ⟨x1, x2, x3, x4⟩ := exact_case hbr
      rw [x1, x2, x3, x4]
      simp only [sub_self, abs_zero]
      refine ⟨by positivity, by positivity, by positivity, by positivity⟩
  · exact (key1 (·.zxVx) (by simp [individual])).trans VX.1
  · exact (key1 (·.zyVx) (by simp [individual])).trans VX.2
  · exact (key1 (·.zxVy) (by simp [individual])).trans VY.1
  · exact (key1 (·.zyVy) (by simp [individual])).trans VY.2
  · exact (key1 (·.zxMzz) (by simp [individual])).trans T.1
  · exact (key1 (·.zyMzz) (by simp [individual])).trans T.2.1
  · refine Eq.trans ?_ T.2.2
    change _ = wInt els _
    rw [← meshInt_shift env.sec.elements r.cx r.cy]
    unfold torque meshInt
    refine congrArg List.sum (List.map_congr_left fun t _ => ?_)
    refine integral_congr_ae (Filter.Eventually.of_forall fun p => ?_)
    simp only [fieldAt]
    ring
  · have hT := (shear_torques hP.proper hS.distinct (warpIn env.sec.materials r) w.omega fp ff hD).1
    have hT' : a.vx / (warpIn env.sec.materials r).deltaS * wInt els _ = _ := congrArg _ hT
    rw [hels, ← hwc, ← wInt_smul] at hT'
    have e2 : a.vx / (warpIn env.sec.materials r).deltaS * -((warpIn env.sec.materials r).deltaS * w.sc.ySe)
        = -(w.sc.ySe * a.vx) := by field_simp
    rw [e2] at hT'
    refine Eq.trans ?_ hT'
    rw [← hels]
    rw [← meshInt_shift env.sec.elements r.cx r.cy]
    unfold torque meshInt
    refine congrArg List.sum (List.map_congr_left fun t _ => ?_)
    refine integral_congr_ae (Filter.Eventually.of_forall fun p => ?_)
    simp only [fieldAt, hν, hds, hwd, hixx, hiyy, hixy, warpIn]
    ring
  · have hT := (shear_torques hP.proper hS.distinct (warpIn env.sec.materials r) w.omega fp ff hD).2
    have hT' : a.vy / (warpIn env.sec.materials r).deltaS * wInt els _ = _ := congrArg _ hT
    rw [hels, ← hwc, ← wInt_smul] at hT'
    have e2 : a.vy / (warpIn env.sec.materials r).deltaS * ((warpIn env.sec.materials r).deltaS * w.sc.xSe)
        = w.sc.xSe * a.vy := by field_simp
    rw [e2] at hT'
    refine Eq.trans ?_ hT'
    rw [← hels]
    rw [← meshInt_shift env.sec.elements r.cx r.cy]
    unfold torque meshInt
    refine congrArg List.sum (List.map_congr_left fun t _ => ?_)
    refine integral_congr_ae (Filter.Eventually.of_forall fun p => ?_)
    simp only [fieldAt, hν, hds, hwd, hixx, hiyy, hixy, warpIn]
    ring

/-- A case of `C23_equilibrium`: on the composite example all analyses succeed with exact solutions. -/
theorem ex_equilibrium : Section.init exGeom = .ok (exEnv exSection).sec ∧ GoodSection (exEnv exSection).sec ∧
    Physical (exEnv exSection).sec.elements ∧
    (∀ t ∈ (exEnv exSection).sec.elements, -1 < t.material.poissonsRatio) ∧
    ∃ r w s1 s2 l, (exEnv exSection).sec.geometricAnalysis = .ok r ∧
      (exEnv exSection).sec.warping (exEnv exSection).solvers .direct r = .ok w ∧
      (let els := exSection.elements.map fun t => t.shiftBy r.cx r.cy
       let A := (assembleTorsion els).1
       SolvesBordered A (assembleTorsion els).2 w.omega ∧
       SolvesBordered A (assembleShearLoad els (warpIn exSection.materials r)).1 w.psi ∧
       SolvesBordered A (assembleShearLoad els (warpIn exSection.materials r)).2 w.phiS) ∧
      (exEnv exSection).geometric.run.run (Store.empty _) = (.ok (), s1) ∧
      ((exEnv exSection).warping .direct).run.run s1 = (.ok (), s2) ∧
      ((exEnv exSection).stress ⟨1, 5, 2, 3, 4, 2, 3, 4⟩).run.run s2 = (.ok l, s2) := by
  refine ⟨exSection_init, exSection_good, exSection_physical, ?_, ?_⟩
  · intro (t : Tri6 9) ht
    have ht : t ∈ [exT0, exT1] := ht
    rcases List.mem_cons.1 ht with rfl | ht
    · norm_num [exT0, exConcrete]
    · rw [List.mem_singleton.1 ht]; norm_num [exT1, exSteel]
  · obtain ⟨r, hr⟩ := geometricAnalysis_ok exSection (by simp [exSection])
    obtain ⟨w, hw, hsol⟩ := exact_warping exSection r exSection_good exSection_physical hr
      (ex_linked r.cx r.cy)
    have H := holdsGeom_set (exEnv exSection).perimeter r (Store.empty (exEnv exSection).sec.numNodes)
    obtain ⟨e, wf, hst, -⟩ := stress_run (exEnv exSection) (w := w) H ⟨1, 5, 2, 3, 4, 2, 3, 4⟩
    exact ⟨r, w, _, _, _, hr, hw, hsol, exec_geometric (exEnv exSection) hr _,
      (exec_warping (exEnv exSection) .direct H).1 w hw, hst⟩

end SP
