import Verif.Props.Torsion

/-!
# Weak forms of the shear problems
-/

namespace SP

open Spec MeasureTheory

variable {n : ℕ} {t : Tri6 n} {els : List (Tri6 n)} {x : Fin n → ℝ} {q : Tri6 n → ℝ × ℝ → ℝ}

/-- Shear parameters as functions of the position. -/
theorem d1_mem (ixx iyy ixy : ℝ) :
    (fun p : ℝ × ℝ => (shearParameter p.1 p.2 ixx iyy ixy).d1) ∈ PolyLE 2 ∧
    (fun p : ℝ × ℝ => (shearParameter p.1 p.2 ixx iyy ixy).d2) ∈ PolyLE 2 ∧
    (fun p : ℝ × ℝ => (shearParameter p.1 p.2 ixx iyy ixy).h1) ∈ PolyLE 2 ∧
    (fun p : ℝ × ℝ => (shearParameter p.1 p.2 ixx iyy ixy).h2) ∈ PolyLE 2 := by
  have a1 := poly_mul2 PolyLE.fst PolyLE.fst
  have a2 := poly_mul2 PolyLE.snd PolyLE.snd
  have a3 := poly_mul2 PolyLE.fst PolyLE.snd
  have key : ∀ a b : ℝ, (fun p : ℝ × ℝ => a * (p.1 ^ 2 - p.2 ^ 2) + b * (2 * p.1 * p.2)) ∈ PolyLE 2 := by
    intro a b
    have h := Submodule.add_mem _ (Submodule.smul_mem _ a (Submodule.sub_mem _ a1 a2))
      (Submodule.smul_mem _ (2 * b) a3)
    convert h using 1
    funext p
    simp only [Pi.add_apply, Pi.smul_apply, Pi.sub_apply, smul_eq_mul]
    ring
  refine ⟨?_, ?_, ?_, ?_⟩
  · convert key ixx (-ixy) using 1; funext p; simp only [shearParameter]; ring
  · exact key ixy ixx
  · exact key (-ixy) iyy
  · convert key (-iyy) (-ixy) using 1; funext p; simp only [shearParameter]; ring

/-- Density of the work of the load `f_psi` on the field `q`. -/
noncomputable def psiWork (w : WarpIn) (q : ℝ × ℝ → ℝ) (p : ℝ × ℝ) : ℝ :=
  w.nu / 2 * (dX q p * (shearParameter p.1 p.2 w.ixx w.iyy w.ixy).d1
      + dY q p * (shearParameter p.1 p.2 w.ixx w.iyy w.ixy).d2)
    + 2 * (1 + w.nu) * (q p * (w.ixx * p.1 - w.ixy * p.2))

/-- Density of the work of the load `f_phi` on the field `q`. -/
noncomputable def phiWork (w : WarpIn) (q : ℝ × ℝ → ℝ) (p : ℝ × ℝ) : ℝ :=
  w.nu / 2 * (dX q p * (shearParameter p.1 p.2 w.ixx w.iyy w.ixy).h1
      + dY q p * (shearParameter p.1 p.2 w.ixx w.iyy w.ixy).h2)
    + 2 * (1 + w.nu) * (q p * (w.iyy * p.2 - w.ixy * p.1))

theorem lin_mem (a b : ℝ) : (fun p : ℝ × ℝ => a * p.1 - b * p.2) ∈ PolyLE 1 :=
  Submodule.sub_mem _ (Submodule.smul_mem _ a PolyLE.fst) (Submodule.smul_mem _ b PolyLE.snd)

theorem lin_mem' (a b : ℝ) : (fun p : ℝ × ℝ => a * p.2 - b * p.1) ∈ PolyLE 1 :=
  Submodule.sub_mem _ (Submodule.smul_mem _ a PolyLE.snd) (Submodule.smul_mem _ b PolyLE.fst)

theorem poly_mul3 {f g : ℝ × ℝ → ℝ} (hf : f ∈ PolyLE 1) (hg : g ∈ PolyLE 2) :
    (fun p => f p * g p) ∈ PolyLE 3 :=
  PolyLE.mono (show 1 + 2 ≤ 3 by omega) (PolyLE.mul hf hg)

theorem poly_mul3' {f g : ℝ × ℝ → ℝ} (hf : f ∈ PolyLE 2) (hg : g ∈ PolyLE 1) :
    (fun p => f p * g p) ∈ PolyLE 3 :=
  PolyLE.mono (show 2 + 1 ≤ 3 by omega) (PolyLE.mul hf hg)

theorem psiWork_mem (w : WarpIn) {q : ℝ × ℝ → ℝ} (hq : q ∈ PolyLE 2) : psiWork w q ∈ PolyLE 3 := by
  obtain ⟨h1, h2, -, -⟩ := d1_mem w.ixx w.iyy w.ixy
  exact Submodule.add_mem _ (Submodule.smul_mem _ (w.nu / 2) (Submodule.add_mem _
    (poly_mul3 (dX_mem hq) h1) (poly_mul3 (dY_mem hq) h2)))
    (Submodule.smul_mem _ (2 * (1 + w.nu)) (poly_mul3' hq (lin_mem w.ixx w.ixy)))

theorem phiWork_mem (w : WarpIn) {q : ℝ × ℝ → ℝ} (hq : q ∈ PolyLE 2) : phiWork w q ∈ PolyLE 3 := by
  obtain ⟨-, -, h1, h2⟩ := d1_mem w.ixx w.iyy w.ixy
  exact Submodule.add_mem _ (Submodule.smul_mem _ (w.nu / 2) (Submodule.add_mem _
    (poly_mul3 (dX_mem hq) h1) (poly_mul3 (dY_mem hq) h2)))
    (Submodule.smul_mem _ (2 * (1 + w.nu)) (poly_mul3' hq (lin_mem' w.iyy w.ixy)))

theorem fPsi_form (hp : Proper t.coords) (w : WarpIn) {u : Fin 6 → ℝ} {q : ℝ × ℝ → ℝ}
    (hq : Interpolates t.coords u q) :
    dot6 u (t.fPsiEl w.ixx w.iyy w.ixy w.nu)
      = t.material.elasticModulus * ∫ p in elemRegion t.coords, psiWork w q p := by
  have h := elem_quad (t := t) hp (psiWork_mem w hq.1) (g := fun gp =>
      w.nu / 2 * (dot6 (shapeFunction t.coords gp).bx u
          * (shearParameter (shapeFunction t.coords gp).nx (shapeFunction t.coords gp).ny
            w.ixx w.iyy w.ixy).d1
        + dot6 (shapeFunction t.coords gp).by' u
          * (shearParameter (shapeFunction t.coords gp).nx (shapeFunction t.coords gp).ny
            w.ixx w.iyy w.ixy).d2)
      + 2 * (1 + w.nu) * (dot6 (shapeFunction t.coords gp).n u
        * (w.ixx * (shapeFunction t.coords gp).nx - w.ixy * (shapeFunction t.coords gp).ny)))
    (fun gp hb => by
      rw [interp_dX hp hb hq, interp_dY hp hb hq, interp_val hp hb hq, sf_nx hp.1 hb, sf_ny hp.1 hb]
      rfl)
  rw [← h]
  simp only [Tri6.fPsiEl, accum_gauss4, dot6, Fin.sum_univ_six]
  ring

theorem fPhi_form (hp : Proper t.coords) (w : WarpIn) {u : Fin 6 → ℝ} {q : ℝ × ℝ → ℝ}
    (hq : Interpolates t.coords u q) :
    dot6 u (t.fPhiEl w.ixx w.iyy w.ixy w.nu)
      = t.material.elasticModulus * ∫ p in elemRegion t.coords, phiWork w q p := by
  have h := elem_quad (t := t) hp (phiWork_mem w hq.1) (g := fun gp =>
      w.nu / 2 * (dot6 (shapeFunction t.coords gp).bx u
          * (shearParameter (shapeFunction t.coords gp).nx (shapeFunction t.coords gp).ny
            w.ixx w.iyy w.ixy).h1
        + dot6 (shapeFunction t.coords gp).by' u
          * (shearParameter (shapeFunction t.coords gp).nx (shapeFunction t.coords gp).ny
            w.ixx w.iyy w.ixy).h2)
      + 2 * (1 + w.nu) * (dot6 (shapeFunction t.coords gp).n u
        * (w.iyy * (shapeFunction t.coords gp).ny - w.ixy * (shapeFunction t.coords gp).nx)))
    (fun gp hb => by
      rw [interp_dX hp hb hq, interp_dY hp hb hq, interp_val hp hb hq, sf_nx hp.1 hb, sf_ny hp.1 hb]
      rfl)
  rw [← h]
  simp only [Tri6.fPhiEl, accum_gauss4, dot6, Fin.sum_univ_six]
  ring

theorem psi_load (hp : ∀ t ∈ els, Proper t.coords) (hd : DistinctNodes els) (w : WarpIn)
    (hq : FEField els x q) :
    dotN x (assembleShearLoad els w).1 = wInt els fun t p => psiWork w (q t) p := by
  rw [assembleShearLoad, dot_assemble hd, wInt]
  exact congrArg List.sum (List.map_congr_left fun t ht => fPsi_form (hp t ht) w (hq t ht))

theorem phi_load (hp : ∀ t ∈ els, Proper t.coords) (hd : DistinctNodes els) (w : WarpIn)
    (hq : FEField els x q) :
    dotN x (assembleShearLoad els w).2 = wInt els fun t p => phiWork w (q t) p := by
  rw [assembleShearLoad, dot_assemble hd, wInt]
  exact congrArg List.sum (List.map_congr_left fun t ht => fPhi_form (hp t ht) w (hq t ht))

/-! ### First moments of affine integrands -/

theorem wInt_lin (a b : ℝ) (els : List (Tri6 n)) :
    wInt els (fun _ p => a * p.1 + b * p.2)
      = a * wInt els (fun _ p => p.1) + b * wInt els (fun _ p => p.2) := by
  rw [wInt_add (d := 1) (f := fun _ p => a * p.1) (g := fun _ p => b * p.2)
    (fun _ _ => Submodule.smul_mem _ a PolyLE.fst) (fun _ _ => Submodule.smul_mem _ b PolyLE.snd),
    wInt_smul, wInt_smul]

theorem shear_load_sum (hp : ∀ t ∈ els, Proper t.coords) (hd : DistinctNodes els) (w : WarpIn)
    (hc : Centroidal els) :
    ∑ i, (assembleShearLoad els w).1 i = 0 ∧ ∑ i, (assembleShearLoad els w).2 i = 0 := by
  have h1 := psi_load hp hd w (feField_const els 1)
  have h2 := phi_load hp hd w (feField_const els 1)
  simp only [dotN, one_mul] at h1 h2
  constructor
  · rw [h1, wInt_congr (g := fun _ p => 2 * (1 + w.nu) * (w.ixx * p.1 + -w.ixy * p.2)), wInt_smul,
      wInt_lin, hc.1, hc.2]
    · ring
    · intro t _ p
      simp only [psiWork, dX_const, dY_const]; ring
  · rw [h2, wInt_congr (g := fun _ p => 2 * (1 + w.nu) * (-w.ixy * p.1 + w.iyy * p.2)), wInt_smul,
      wInt_lin, hc.1, hc.2]
    · ring
    · intro t _ p
      simp only [phiWork, dX_const, dY_const]; ring

/-! ### The section in centroidal coordinates -/

/-- Data about the shifted elements used by the warping analysis. -/
structure CentroidalSetup (s : Section) (r : GeomResults) (els : List (Tri6 s.numNodes)) : Prop where
  physical : Physical els
  distinct : DistinctNodes els
  centroidal : Centroidal els
  area : (geomSums els).area = r.sums.area
  ea : (geomSums els).ea = r.sums.ea
  ixx : wInt els (fun _ p => p.2 ^ 2) = r.cent.ixxC
  iyy : wInt els (fun _ p => p.1 ^ 2) = r.cent.iyyC
  ixy : wInt els (fun _ p => p.1 * p.2) = r.cent.ixyC
  one : wInt els (fun _ _ => 1) = r.sums.ea
  linX : FEField els (fun i => (s.meshNodes i).1 - r.cx) (fun _ p => p.1)
  linY : FEField els (fun i => (s.meshNodes i).2 - r.cy) (fun _ p => p.2)
  det : 0 < r.cent.ixxC * r.cent.iyyC - r.cent.ixyC ^ 2

theorem centroidalSetup {s : Section} {r : GeomResults} (hg : GoodSection s)
    (h : Physical s.elements) (hr : s.geometricAnalysis = .ok r) :
    CentroidalSetup s r (s.elements.map fun t => t.shiftBy r.cx r.cy) := by
  obtain ⟨g1, g2, -, -, -, g6, g7⟩ := geom_ok hr
  obtain ⟨c1, c2, c3, -⟩ := cent_ok g2
  change CentroidalSetup s r (shifted s.elements r.cx r.cy)
  have hP := shifted_physical h r.cx r.cy
  have hcen := shift_centroid h.straight h.ea_pos.ne'
  rw [← g1] at hcen
  simp only at hcen
  rw [← g6, ← g7] at hcen
  obtain ⟨k1, k2, k3, k4, k5, k6, k7⟩ := hcen
  obtain ⟨m1, m2, m3, m4, m5⟩ := wInt_moments hP.proper
  refine ⟨hP, shifted_distinct (good_distinct hg) _ _, ⟨by rw [m2, k4], by rw [m1, k3]⟩, k1, k2,
    by rw [m3, k5, c1], by rw [m4, k6, c2], by rw [m5, k7, c3], by rw [wInt_one hP.proper, k2],
    ?_, ?_, ?_⟩
  · intro t ht
    obtain ⟨u, hu, rfl⟩ := List.mem_map.1 ht
    refine ⟨PolyLE.mono (by omega) PolyLE.fst, fun i => ?_⟩
    simp only [Tri6.shiftBy, Coords.shift, hg.coords u hu, gather]
  · intro t ht
    obtain ⟨u, hu, rfl⟩ := List.mem_map.1 ht
    refine ⟨PolyLE.mono (by omega) PolyLE.snd, fun i => ?_⟩
    simp only [Tri6.shiftBy, Coords.shift, hg.coords u hu, gather]
  · rw [c1, c2, c3, g1]
    exact h.det_pos

theorem dX_fst (p : ℝ × ℝ) : dX (fun p => p.1) p = 1 := by simp [dX]
theorem dY_fst (p : ℝ × ℝ) : dY (fun p => p.1) p = 0 := by simp [dY]
theorem dX_snd (p : ℝ × ℝ) : dX (fun p => p.2) p = 0 := by simp [dX]
theorem dY_snd (p : ℝ × ℝ) : dY (fun p => p.2) p = 1 := by simp [dY]

/-- Exact bordered solutions in weak form. -/
theorem bordered_weak (h : Physical els) (hd : DistinctNodes els) {b u : Fin n → ℝ}
    (hb : ∑ i, b i = 0) (hu : SolvesBordered (assembleTorsion els).1 b u)
    {r : Tri6 n → ℝ × ℝ → ℝ} (hr : FEField els u r) (hq : FEField els x q) :
    dirichlet els q r = dotN x b := by
  obtain ⟨μ, hμ⟩ := hu
  obtain ⟨-, hsol, -⟩ := C17_solution h hd b u μ hb hμ
  simp only [klg_block] at hsol
  rw [← stiff_dirichlet h.proper hq hr]
  exact weak_form hsol x

theorem wInt_sub {d : ℕ} {f g : Tri6 n → ℝ × ℝ → ℝ} (hf : ∀ t ∈ els, f t ∈ PolyLE d)
    (hg : ∀ t ∈ els, g t ∈ PolyLE d) :
    wInt els (fun t p => f t p - g t p) = wInt els f - wInt els g := by
  rw [wInt_congr (g := fun t p => f t p + -1 * g t p) fun t _ p => by ring,
    wInt_add (g := fun t p => -1 * g t p) hf fun t ht => Submodule.smul_mem _ (-1) (hg t ht), wInt_smul]
  ring

theorem wInt_lc {d : ℕ} {f g : Tri6 n → ℝ × ℝ → ℝ} (a b : ℝ) (hf : ∀ t ∈ els, f t ∈ PolyLE d)
    (hg : ∀ t ∈ els, g t ∈ PolyLE d) :
    wInt els (fun t p => a * f t p + b * g t p) = a * wInt els f + b * wInt els g := by
  rw [wInt_add (f := fun t p => a * f t p) (g := fun t p => b * g t p)
    (fun t ht => Submodule.smul_mem _ a (hf t ht)) (fun t ht => Submodule.smul_mem _ b (hg t ht)),
    wInt_smul, wInt_smul]

theorem wInt_quadmom (a b c : ℝ) (els : List (Tri6 n)) :
    wInt els (fun _ p => a * p.1 ^ 2 + b * (p.1 * p.2) + c * p.2 ^ 2)
      = a * wInt els (fun _ p => p.1 ^ 2) + b * wInt els (fun _ p => p.1 * p.2)
        + c * wInt els (fun _ p => p.2 ^ 2) := by
  have hyy : (fun p : ℝ × ℝ => p.2 ^ 2) ∈ PolyLE 2 := by
    simpa only [pow_two] using poly_mul2 PolyLE.snd PolyLE.snd
  have hxx : (fun p : ℝ × ℝ => p.1 ^ 2) ∈ PolyLE 2 := by
    simpa only [pow_two] using poly_mul2 PolyLE.fst PolyLE.fst
  have hxy : (fun p : ℝ × ℝ => p.1 * p.2) ∈ PolyLE 2 := poly_mul2 PolyLE.fst PolyLE.snd
  rw [wInt_add (d := 2) (f := fun _ p => a * p.1 ^ 2 + b * (p.1 * p.2)) (g := fun _ p => c * p.2 ^ 2)
      (fun _ _ => Submodule.add_mem _ (Submodule.smul_mem _ a hxx) (Submodule.smul_mem _ b hxy))
      (fun _ _ => Submodule.smul_mem _ c hyy),
    wInt_add (d := 2) (f := fun _ p => a * p.1 ^ 2) (g := fun _ p => b * (p.1 * p.2))
      (fun _ _ => Submodule.smul_mem _ a hxx) (fun _ _ => Submodule.smul_mem _ b hxy),
    wInt_smul, wInt_smul, wInt_smul]

/-- Resultants of the shear function gradients, for every Poisson ratio. -/
theorem shear_resultants {s : Section} {r : GeomResults} (hg : GoodSection s)
    (h : Physical s.elements) (hr : s.geometricAnalysis = .ok r) {psi phiS : Fin s.numNodes → ℝ}
    {q f : Tri6 s.numNodes → ℝ × ℝ → ℝ} :
    let els := s.elements.map fun t => t.shiftBy r.cx r.cy
    let A := (assembleTorsion els).1
    let w := warpIn s.materials r
    let P := fun p : ℝ × ℝ => shearParameter p.1 p.2 w.ixx w.iyy w.ixy
    SolvesBordered A (assembleShearLoad els w).1 psi →
    SolvesBordered A (assembleShearLoad els w).2 phiS →
    FEField els psi q → FEField els phiS f →
    wInt els (fun t p => dX (q t) p - w.nu / 2 * (P p).d1) = w.deltaS ∧
    wInt els (fun t p => dY (q t) p - w.nu / 2 * (P p).d2) = 0 ∧
    wInt els (fun t p => dX (f t) p - w.nu / 2 * (P p).h1) = 0 ∧
    wInt els (fun t p => dY (f t) p - w.nu / 2 * (P p).h2) = w.deltaS := by
  intro els A w P hpsi hphi hq hf
  have hS := centroidalSetup hg h hr
  change CentroidalSetup s r els at hS
  have hP := hS.physical
  obtain ⟨l1, l2⟩ := shear_load_sum hP.proper hS.distinct w hS.centroidal
  obtain ⟨p1, p2, p3, p4⟩ := d1_mem w.ixx w.iyy w.ixy
  have m : ∀ a b c' : ℝ, wInt els (fun _ p => a * p.1 ^ 2 + b * (p.1 * p.2) + c' * p.2 ^ 2)
      = a * w.iyy + b * w.ixy + c' * w.ixx := by
    intro a b c'
    rw [wInt_quadmom, hS.ixx, hS.iyy, hS.ixy]
    rfl
  have mq : ∀ a b c' : ℝ, (fun p : ℝ × ℝ => a * p.1 ^ 2 + b * (p.1 * p.2) + c' * p.2 ^ 2) ∈ PolyLE 2 := by
    intro a b c'
    have hyy : (fun p : ℝ × ℝ => p.2 ^ 2) ∈ PolyLE 2 := by
      simpa only [pow_two] using poly_mul2 PolyLE.snd PolyLE.snd
    have hxx : (fun p : ℝ × ℝ => p.1 ^ 2) ∈ PolyLE 2 := by
      simpa only [pow_two] using poly_mul2 PolyLE.fst PolyLE.fst
    have hxy : (fun p : ℝ × ℝ => p.1 * p.2) ∈ PolyLE 2 := poly_mul2 PolyLE.fst PolyLE.snd
    exact Submodule.add_mem _ (Submodule.add_mem _ (Submodule.smul_mem _ a hxx)
      (Submodule.smul_mem _ b hxy)) (Submodule.smul_mem _ c' hyy)
  have key : ∀ (g : Tri6 s.numNodes → ℝ × ℝ → ℝ) (e : ℝ × ℝ → ℝ) (a b c' : ℝ), e ∈ PolyLE 2 →
      (∀ t ∈ els, g t ∈ PolyLE 2) →
      wInt els g = wInt els (fun _ p => w.nu / 2 * e p
        + 1 * (a * p.1 ^ 2 + b * (p.1 * p.2) + c' * p.2 ^ 2)) →
      wInt els (fun t p => g t p - w.nu / 2 * e p) = a * w.iyy + b * w.ixy + c' * w.ixx := by
    intro g e a b c' he hgm hgi
    rw [wInt_sub (g := fun _ p => w.nu / 2 * e p) hgm (fun _ _ => Submodule.smul_mem _ _ he), hgi,
      wInt_lc (f := fun _ => e) (g := fun _ p => a * p.1 ^ 2 + b * (p.1 * p.2) + c' * p.2 ^ 2) _ _
        (fun _ _ => he) (fun _ _ => mq a b c'), wInt_smul, m]
    ring
  refine ⟨?_, ?_, ?_, ?_⟩
  · rw [key (fun t p => dX (q t) p) (fun p => (P p).d1) (2 * (1 + w.nu) * w.ixx) (-2 * (1 + w.nu) * w.ixy) 0
      p1 (fun t ht => PolyLE.mono (by omega) (dX_mem (hq t ht).1))]
    · rw [WarpIn.deltaS]; ring
    · have := bordered_weak hP hS.distinct l1 hpsi hq hS.linX
      rw [psi_load hP.proper hS.distinct _ hS.linX, dirichlet] at this
      simp only [dX_fst, dY_fst, one_mul, zero_mul, add_zero] at this
      rw [this]
      refine wInt_congr fun t _ p => ?_
      simp only [psiWork, dX_fst, dY_fst, P]; ring
  · rw [key (fun t p => dY (q t) p) (fun p => (P p).d2) 0 (2 * (1 + w.nu) * w.ixx) (-2 * (1 + w.nu) * w.ixy)
      p2 (fun t ht => PolyLE.mono (by omega) (dY_mem (hq t ht).1))]
    · ring
    · have := bordered_weak hP hS.distinct l1 hpsi hq hS.linY
      rw [psi_load hP.proper hS.distinct _ hS.linY, dirichlet] at this
      simp only [dX_snd, dY_snd, one_mul, zero_mul, zero_add] at this
      rw [this]
      refine wInt_congr fun t _ p => ?_
      simp only [psiWork, dX_snd, dY_snd, P]; ring
  · rw [key (fun t p => dX (f t) p) (fun p => (P p).h1) (-2 * (1 + w.nu) * w.ixy) (2 * (1 + w.nu) * w.iyy) 0
      p3 (fun t ht => PolyLE.mono (by omega) (dX_mem (hf t ht).1))]
    · ring
    · have := bordered_weak hP hS.distinct l2 hphi hf hS.linX
      rw [phi_load hP.proper hS.distinct _ hS.linX, dirichlet] at this
      simp only [dX_fst, dY_fst, one_mul, zero_mul, add_zero] at this
      rw [this]
      refine wInt_congr fun t _ p => ?_
      simp only [phiWork, dX_fst, dY_fst, P]; ring
  · rw [key (fun t p => dY (f t) p) (fun p => (P p).h2) 0 (-2 * (1 + w.nu) * w.ixy) (2 * (1 + w.nu) * w.iyy)
      p4 (fun t ht => PolyLE.mono (by omega) (dY_mem (hf t ht).1))]
    · rw [WarpIn.deltaS]; ring
    · have := bordered_weak hP hS.distinct l2 hphi hf hS.linY
      rw [phi_load hP.proper hS.distinct _ hS.linY, dirichlet] at this
      simp only [dX_snd, dY_snd, one_mul, zero_mul, zero_add] at this
      rw [this]
      refine wInt_congr fun t _ p => ?_
      simp only [phiWork, dX_snd, dY_snd, P]; ring

end SP
