import Verif.Props.WarpMoment

/-!
# C22: negative shear areas

A flat triangle of steel, 36 wide and 3 high, meshed with a single element: the four point rule makes the shear
coefficient `κ_y`, an integral of a square, negative.
-/

namespace SP

open Spec MeasureTheory

/-- Nodes of the flat triangle. -/
noncomputable def flatV : Fin 6 → ℝ × ℝ :=
  ![(-18, -1), (18, -1), (0, 2), (0, -1), (9, 1 / 2), (-9, 1 / 2)]
/-- The mesh: one element, in the mesher's node order. -/
noncomputable def flatMesh : MeshData := ⟨6, flatV, [triRow], [0]⟩
/-- The geometry. -/
noncomputable def flatGeom : GeomIn := ⟨[⟨0, exSteel⟩], some flatMesh⟩
/-- The element. -/
noncomputable def flatEl : Tri6 6 := ⟨0, gather flatV ![0, 1, 2, 3, 4, 5], ![0, 1, 2, 3, 4, 5], exSteel⟩
/-- The section. -/
noncomputable def flatSection : Section where
  numNodes := 6
  meshNodes := flatV
  materials := flatGeom.materials
  elements := [flatEl]
  groups := [⟨⟨0, exSteel⟩, [flatEl]⟩]

theorem flatMesh_good : GoodMesh flatMesh := by
  intro (t : Fin 6 → Fin 6) ht
  have ht : t = triRow := by
    have h : t ∈ ([triRow] : List (Fin 6 → Fin 6)) := ht
    simpa using h
  show MesherTri flatV t
  rw [ht]
  constructor <;> simp [flatV, triRow, signedArea2] <;> norm_num

theorem flatSection_init : Section.init flatGeom = .ok flatSection := by
  have hmx : flatMesh.attributes.max? = some 0 := by simp [flatMesh, List.max?]
  have h0 : mkElement flatGeom.materials flatMesh triRow 0 = .ok (flatEl, ⟨0, exSteel⟩) := by
    simp [mkElement, flatMesh, flatGeom, flatEl, reorder, triRow]
  have hM : flatMesh.triangles.zipIdx.mapM (fun p => mkElement flatGeom.materials flatMesh p.1 p.2)
      = .ok [(flatEl, ⟨0, exSteel⟩)] := by
    rw [mapM_ok_forall₂]
    exact .cons h0 .nil
  have hl : flatGeom.materials.length = 0 + 1 := rfl
  have hg : groupMaterials flatGeom.materials = [⟨0, exSteel⟩] := by
    simp [groupMaterials, flatGeom, List.zipIdx]
  unfold Section.init
  simp only [show flatGeom.mesh = some flatMesh from rfl, hmx, hl, ne_eq, not_true_eq_false,
    if_false, hM, hg]
  simp [addToGroup, flatSection]
  exact ⟨rfl, HEq.rfl, HEq.rfl, HEq.rfl⟩

theorem flatSection_good : GoodSection flatSection := init_good flatSection_init rfl flatMesh_good

theorem flatSection_physical : Physical flatSection.elements := by
  refine ⟨by simp [flatSection], flatSection_good.proper, ?_⟩
  intro (t : Tri6 6) ht
  have ht : t ∈ [flatEl] := ht
  rw [List.mem_singleton.1 ht]; norm_num [flatEl, exSteel]

theorem flatSection_composite : isComposite flatSection.materials := by
  simp [isComposite, flatSection, flatGeom, exSteel, defaultMaterial]

theorem flat_linked (cx cy : ℝ) : ConnectedMesh (flatSection.elements.map fun t => t.shiftBy cx cy) := by
  intro (i : Fin 6) (j : Fin 6)
  refine .single ⟨flatEl.shiftBy cx cy, List.mem_cons_self .., i, j, ?_, ?_⟩
  · fin_cases i <;> rfl
  · fin_cases j <;> rfl

/-- Integrals over the element by the four point rule. -/
theorem flat_integral {f : ℝ × ℝ → ℝ} (hf : f ∈ PolyLE 3) :
    ∫ p in elemRegion flatEl.coords, f p
      = 54 * (-27 / 48 * f (0, 0) + 25 / 48 * (f (-36 / 5, -2 / 5) + f (36 / 5, -2 / 5) + f (0, 4 / 5))) := by
  rw [← accum_gauss4_integral (flatSection_good.proper flatEl (List.mem_cons_self ..)) hf, accum_eq_sum]
  simp [gauss4, posX, posY, elemDet, signedArea2, cornerA, cornerB, cornerC, flatEl, gather, flatV]
  norm_num
  ring

/-- The results of the geometric analysis. -/
theorem flat_results {r : GeomResults} (hr : flatSection.geometricAnalysis = .ok r) :
    r.cx = 0 ∧ r.cy = 0 ∧ r.sums.area = 54 ∧ r.cent.ixxC = 5400 ∧ r.cent.iyyC = 583200 ∧
    r.cent.ixyC = 0 ∧ r.nuEff = 3 / 10 := by
  obtain ⟨g1, g2, g3, -, -, g6, g7⟩ := geom_ok hr
  obtain ⟨c1, c2, c3, -⟩ := cent_ok g2
  obtain ⟨s1, -, s3, s4, s5, s6, s7, s8, s9⟩ :=
    sums_fields (els := ([flatEl] : List (Tri6 6))) flatSection_good.proper
  have hE : flatEl.material.elasticModulus = 200 := by simp [flatEl, exSteel]
  have hG : flatEl.material.shearModulus = 200 / (2 * (1 + 3 / 10)) := by simp [flatEl, exSteel, Material.shearModulus]
  have g1 : r.sums = geomSums ([flatEl] : List (Tri6 6)) := g1
  have i0 := flat_integral (PolyLE.const 3 1)
  have i1 := flat_integral (PolyLE.mono (by omega) PolyLE.fst)
  have i2 := flat_integral (PolyLE.mono (by omega) PolyLE.snd)
  have i3 := flat_integral (by simpa using mono_mem 2 0 3 (by omega))
  have i4 := flat_integral (by simpa using mono_mem 0 2 3 (by omega))
  have i5 := flat_integral (by simpa using mono_mem 1 1 3 (by omega))
  rw [← g1] at s1 s3 s4 s5 s6 s7 s8 s9
  have s1 : r.sums.area = 54 := by rw [s1, List.map_singleton, List.sum_singleton, i0]; norm_num
  have s3 : r.sums.ea = 10800 := by
    rw [s3, List.map_singleton, List.sum_singleton, hE, i0]; norm_num
  have s4 : r.sums.ga = 10800 / (2 * (1 + 3 / 10)) := by
    rw [s4, List.map_singleton, List.sum_singleton, hG, i0]; norm_num
  have s5 : r.sums.qx = 0 := by
    rw [s5, List.map_singleton, List.sum_singleton, hE, i2]; norm_num
  have s6 : r.sums.qy = 0 := by
    rw [s6, List.map_singleton, List.sum_singleton, hE, i1]; norm_num
  have s7 : r.sums.ixxG = 5400 := by
    rw [s7, List.map_singleton, List.sum_singleton, hE, i4]; norm_num
  have s8 : r.sums.iyyG = 583200 := by
    rw [s8, List.map_singleton, List.sum_singleton, hE, i3]; norm_num
  have s9 : r.sums.ixyG = 0 := by
    rw [s9, List.map_singleton, List.sum_singleton, hE, i5]; norm_num
  rw [g6, g7, g3, c1, c2, c3]
  simp only [GeomSums.cx, GeomSums.cy, GeomSums.ixxC, GeomSums.iyyC, GeomSums.ixyC, GeomSums.nuEff, s1, s3, s4, s5, s6, s7,
    s8, s9]
  norm_num

theorem shiftBy_zero {n : ℕ} (t : Tri6 n) : t.shiftBy 0 0 = t := by
  simp [Tri6.shiftBy, Coords.shift]

theorem flat_els {r : GeomResults} (hr : flatSection.geometricAnalysis = .ok r) :
    (flatSection.elements.map fun t => t.shiftBy r.cx r.cy) = ([flatEl] : List (Tri6 6)) := by
  obtain ⟨h1, h2, -⟩ := flat_results hr
  rw [h1, h2]
  exact congrArg (fun t => [t]) (shiftBy_zero flatEl)

theorem wInt_flat (f : Tri6 6 → ℝ × ℝ → ℝ) :
    wInt [flatEl] f = 200 * ∫ p in elemRegion flatEl.coords, f flatEl p := by
  simp [wInt, flatEl, exSteel]

theorem flat_field {q : ℝ × ℝ → ℝ} (hq : q ∈ PolyLE 2) : FEField [flatEl] (fun i => q (flatV i)) fun _ => q := by
  intro t ht
  rw [List.mem_singleton.1 ht]
  refine ⟨hq, fun k => ?_⟩
  fin_cases k <;> simp [flatEl, gather]

theorem flat_distinct : DistinctNodes ([flatEl] : List (Tri6 6)) := by
  intro t ht a b h
  rw [List.mem_singleton.1 ht] at h
  revert h
  fin_cases a <;> fin_cases b <;> simp [flatEl]

theorem flat_dirichlet {q f : ℝ × ℝ → ℝ} (hq : q ∈ PolyLE 2) (hf : f ∈ PolyLE 2) :
    dirichlet [flatEl] (fun _ => q) (fun _ => f) = 200 * (54 * (-27 / 48 * (dX q (0, 0) * dX f (0, 0) + dY q (0, 0) * dY f (0, 0))
      + 25 / 48 * ((dX q (-36 / 5, -2 / 5) * dX f (-36 / 5, -2 / 5) + dY q (-36 / 5, -2 / 5) * dY f (-36 / 5, -2 / 5))
        + (dX q (36 / 5, -2 / 5) * dX f (36 / 5, -2 / 5) + dY q (36 / 5, -2 / 5) * dY f (36 / 5, -2 / 5))
        + (dX q (0, 4 / 5) * dX f (0, 4 / 5) + dY q (0, 4 / 5) * dY f (0, 4 / 5))))) := by
  rw [dirichlet, wInt_flat, flat_integral]
  exact PolyLE.mono (by omega) (Submodule.add_mem _ (poly_mul2 (dX_mem hq) (dX_mem hf)) (poly_mul2 (dY_mem hq) (dY_mem hf)))

/-- The value the four-point rule gives to the weighted integral of a function over the triangle. -/
noncomputable def flatRule (g : ℝ × ℝ → ℝ) : ℝ :=
  10800 * (-27 / 48 * g (0, 0) + 25 / 48 * (g (-36 / 5, -2 / 5) + g (36 / 5, -2 / 5) + g (0, 4 / 5)))

/-- The shear coefficients of the triangle in terms of the two shear functions. -/
theorem flat_kappas (w : WarpIn) {psi phi : Fin 6 → ℝ} {q f : Tri6 6 → ℝ × ℝ → ℝ} (hq : FEField [flatEl] psi q)
    (hf : FEField [flatEl] phi f) :
    (shearDeformation [flatEl] w psi phi).x = flatRule (fun p => (dX (q flatEl) p - w.nu / 2 * (shearParameter p.1 p.2 w.ixx w.iyy w.ixy).d1) ^ 2
      + (dY (q flatEl) p - w.nu / 2 * (shearParameter p.1 p.2 w.ixx w.iyy w.ixy).d2) ^ 2) ∧
    (shearDeformation [flatEl] w psi phi).y = flatRule (fun p => (dX (f flatEl) p - w.nu / 2 * (shearParameter p.1 p.2 w.ixx w.iyy w.ixy).h1) ^ 2
      + (dY (f flatEl) p - w.nu / 2 * (shearParameter p.1 p.2 w.ixx w.iyy w.ixy).h2) ^ 2) := by
  have hp := flatSection_good.proper flatEl (List.mem_cons_self ..)
  have hq := hq flatEl (List.mem_cons_self ..)
  have hf := hf flatEl (List.mem_cons_self ..)
  have ex : ∀ gp ∈ gauss4, dot6 (shapeFunction flatEl.coords gp).bx (flatEl.local psi)
      = dX (q flatEl) (posX flatEl.coords gp, posY flatEl.coords gp) := fun gp h => interp_dX hp (gauss4_bary gp h) hq
  have ey : ∀ gp ∈ gauss4, dot6 (shapeFunction flatEl.coords gp).by' (flatEl.local psi)
      = dY (q flatEl) (posX flatEl.coords gp, posY flatEl.coords gp) := fun gp h => interp_dY hp (gauss4_bary gp h) hq
  have fx : ∀ gp ∈ gauss4, dot6 (shapeFunction flatEl.coords gp).bx (flatEl.local phi)
      = dX (f flatEl) (posX flatEl.coords gp, posY flatEl.coords gp) := fun gp h => interp_dX hp (gauss4_bary gp h) hf
  have fy : ∀ gp ∈ gauss4, dot6 (shapeFunction flatEl.coords gp).by' (flatEl.local phi)
      = dY (f flatEl) (posX flatEl.coords gp, posY flatEl.coords gp) := fun gp h => interp_dY hp (gauss4_bary gp h) hf
  have nx : ∀ gp ∈ gauss4, (shapeFunction flatEl.coords gp).nx = posX flatEl.coords gp := fun gp h => sf_nx hp.1 (gauss4_bary gp h)
  have ny : ∀ gp ∈ gauss4, (shapeFunction flatEl.coords gp).ny = posY flatEl.coords gp := fun gp h => sf_ny hp.1 (gauss4_bary gp h)
  have wt : ∀ gp ∈ gauss4, flatEl.eWeight gp = gp.w * 10800 := by
    intro gp h
    refine (eWeight_eq (t := flatEl) hp (gauss4_bary gp h)).trans ?_
    simp [elemDet, signedArea2, cornerA, cornerB, cornerC, flatEl, gather, flatV, exSteel]
    ring
  have tot : ∀ g : ℝ × ℝ → ℝ, accum gauss4 (fun gp => gp.w * 10800 * g (posX flatEl.coords gp, posY flatEl.coords gp)) = flatRule g := by
    intro g
    rw [accum_eq_sum]
    simp [gauss4, posX, posY, flatEl, gather, flatV, flatRule]
    norm_num
    ring
  constructor
  · rw [← tot]
    simp only [shearDeformation, accum_eq_sum, List.map_singleton, List.sum_singleton, Tri6.shearCoefficients]
    refine congrArg List.sum (List.map_congr_left fun gp h => ?_)
    rw [ex gp h, ey gp h, nx gp h, ny gp h, wt gp h]
    ring
  · rw [← tot]
    simp only [shearDeformation, accum_eq_sum, List.map_singleton, List.sum_singleton, Tri6.shearCoefficients]
    refine congrArg List.sum (List.map_congr_left fun gp h => ?_)
    rw [fx gp h, fy gp h, nx gp h, ny gp h, wt gp h]
    ring

theorem flat_core {W : WarpIn} {psi phi : Fin 6 → ℝ} (h1 : W.ixx = 5400) (h2 : W.iyy = 583200) (h3 : W.ixy = 0)
    (h4 : W.nu = 3 / 10) (hc : Centroidal [flatEl])
    (hpsi : SolvesBordered (assembleTorsion [flatEl]).1 (assembleShearLoad [flatEl] W).1 psi)
    (hphi : SolvesBordered (assembleTorsion [flatEl]).1 (assembleShearLoad [flatEl] W).2 phi) :
    0 < (shearDeformation [flatEl] W psi phi).x ∧ (shearDeformation [flatEl] W psi phi).y = -24822185698425600 := by
  have hP : Physical ([flatEl] : List (Tri6 6)) := flatSection_physical
  obtain ⟨q, hq⟩ := exists_feField hP.proper psi
  obtain ⟨f, hf⟩ := exists_feField hP.proper phi
  obtain ⟨b1, b2⟩ := shear_load_sum hP.proper flat_distinct W hc
  obtain ⟨k1, k2⟩ := flat_kappas W hq hf
  obtain ⟨a0, a1, a2, a3, a4, a5, ea⟩ := polyLE2_quad (hq flatEl (List.mem_cons_self ..)).1
  obtain ⟨c0, c1, c2, c3, c4, c5, ec⟩ := polyLE2_quad (hf flatEl (List.mem_cons_self ..)).1
  have hq' : FEField [flatEl] psi fun _ => quad a0 a1 a2 a3 a4 a5 := by
    intro t ht; rw [List.mem_singleton.1 ht, ← ea]; exact hq _ (List.mem_cons_self ..)
  have hf' : FEField [flatEl] phi fun _ => quad c0 c1 c2 c3 c4 c5 := by
    intro t ht; rw [List.mem_singleton.1 ht, ← ec]; exact hf _ (List.mem_cons_self ..)
  have wq := fun d1 d2 d3 d4 d5 : ℝ => (flat_dirichlet (quad_mem 0 d1 d2 d3 d4 d5) (quad_mem a0 a1 a2 a3 a4 a5)).symm.trans
    ((bordered_weak hP flat_distinct b1 hpsi hq' (flat_field (quad_mem 0 d1 d2 d3 d4 d5))).trans
      ((psi_load hP.proper flat_distinct W (flat_field (quad_mem 0 d1 d2 d3 d4 d5))).trans
        ((wInt_flat _).trans (congrArg (200 * ·) (flat_integral (psiWork_mem W (quad_mem 0 d1 d2 d3 d4 d5)))))))
  have wf := fun d1 d2 d3 d4 d5 : ℝ => (flat_dirichlet (quad_mem 0 d1 d2 d3 d4 d5) (quad_mem c0 c1 c2 c3 c4 c5)).symm.trans
    ((bordered_weak hP flat_distinct b2 hphi hf' (flat_field (quad_mem 0 d1 d2 d3 d4 d5))).trans
      ((phi_load hP.proper flat_distinct W (flat_field (quad_mem 0 d1 d2 d3 d4 d5))).trans
        ((wInt_flat _).trans (congrArg (200 * ·) (flat_integral (phiWork_mem W (quad_mem 0 d1 d2 d3 d4 d5)))))))
  simp only [psiWork, quad_dX, quad_dY, h1, h2, h3, h4, shearParameter, quad] at wq
  simp only [phiWork, quad_dX, quad_dY, h1, h2, h3, h4, shearParameter, quad] at wf
  have q1 := wq 1 0 0 0 0
  have q2 := wq 0 1 0 0 0
  have q3 := wq 0 0 1 0 0
  have q4 := wq 0 0 0 1 0
  have q5 := wq 0 0 0 0 1
  have f1 := wf 1 0 0 0 0
  have f2 := wf 0 1 0 0 0
  have f3 := wf 0 0 1 0 0
  have f4 := wf 0 0 0 1 0
  have f5 := wf 0 0 0 0 1
  norm_num at q1 q2 q3 q4 q5 f1 f2 f3 f4 f5
  have A1 : a1 = 801495 := by linarith
  have A2 : a2 = 0 := by linarith
  have A3 : a3 = 0 := by linarith
  have A4 : a4 = -711828 / 109 := by linarith
  have A5 : a5 = 0 := by linarith
  have C1 : c1 = 0 := by linarith
  have C2 : c2 = -3922020 := by linarith
  have C3 : c3 = -186624 := by linarith
  have C4 : c4 = 0 := by linarith
  have C5 : c5 = 2058696 := by linarith
  rw [k1, k2, ea, ec]
  simp only [quad_dX, quad_dY, h1, h2, h3, h4, shearParameter, flatRule, A1, A2, A3, A4, A5, C1, C2, C3, C4, C5]
  norm_num

/-- **C22** is violated for a steel section: a single six-node element, a triangle 36 wide and 3 high
with `E = 200` and `ν = 3/10`, every linear system solved exactly. The effective Poisson ratio is `3/10`; the
four-point rule does not integrate the fourth-degree integrand of the shear coefficients exactly, and
its negative weight makes `κ_y`, and with it the reported shear area `A_sy`, negative. -/
theorem C22_violated : ∃ (g : GeomIn) (s : Section) (r : GeomResults) (w : WarpResults s.numNodes),
    Section.init g = .ok s ∧ Physical s.elements ∧ s.geometricAnalysis = .ok r ∧ r.nuEff = 3 / 10 ∧
    s.warping exactSolvers .direct r = .ok w ∧
    (let els := s.elements.map fun t => t.shiftBy r.cx r.cy
     let A := (assembleTorsion els).1
     let k := shearDeformation els (warpIn s.materials r) w.psi w.phiS
     SolvesBordered A (assembleShearLoad els (warpIn s.materials r)).1 w.psi ∧
     SolvesBordered A (assembleShearLoad els (warpIn s.materials r)).2 w.phiS ∧
     w.areas.sy < 0 ∧ ¬ k.xy ^ 2 ≤ k.x * k.y) := by
  obtain ⟨r, hr⟩ := geometricAnalysis_ok flatSection (by decide)
  obtain ⟨w, hw, -, h2, h3⟩ := exact_warping flatSection r flatSection_good flatSection_physical hr
    (flat_linked r.cx r.cy)
  obtain ⟨-, -, harea, hixx, hiyy, hixy, hnu⟩ := flat_results hr
  have hS := (centroidalSetup flatSection_good flatSection_physical hr).centroidal
  have hels : (flatSection.elements.map fun t => t.shiftBy r.cx r.cy) = ([flatEl] : List (Tri6 6)) := flat_els hr
  have hn : (warpIn flatSection.materials r).nu = 3 / 10 := by
    simp only [warpIn, if_pos flatSection_composite]; exact hnu
  obtain ⟨-, -, -, -, -, -, -, ha, -⟩ := warping_ok hw
  refine ⟨flatGeom, flatSection, r, w, flatSection_init, flatSection_physical, hr, hnu, hw, h2, h3, ?_⟩
  rw [ha]
  revert h2 h3 hS
  rw [hels]
  intro h2 h3 hS
  obtain ⟨kx, ky⟩ := flat_core (W := warpIn flatSection.materials r) hixx hiyy hixy hn hS h2 h3
  refine ⟨?_, ?_⟩
  · have hd : (warpIn flatSection.materials r).deltaS = 8188128000 := by
      rw [WarpIn.deltaS, hn]
      simp only [warpIn, hixx, hiyy, hixy]
      norm_num
    simp only [shearAreas, hd]
    exact div_neg_of_pos_of_neg (by norm_num) (ky.trans_lt (by norm_num))
  · rw [not_le]
    exact (mul_neg_of_pos_of_neg kx (ky.trans_lt (by norm_num))).trans_le (sq_nonneg _)

end SP
