import Verif.Lemmas.ShearForms

/-!
# C20, C21, C22: the shear problems
-/

namespace SP

open Spec MeasureTheory

variable {n : ℕ} {els : List (Tri6 n)}

/-! ### C20 -/

/-- **C20** For every section with proper elements and positive moduli, after a geometric analysis, and
for every effective Poisson ratio and every values of the second moments: both shear load vectors sum to
zero in centroidal coordinates. -/
theorem C20_self_equilibrated (s : Section) (r : GeomResults) (hg : GoodSection s)
    (h : Physical s.elements) (hr : s.geometricAnalysis = .ok r) (w : WarpIn) :
    let els := s.elements.map fun t => t.shiftBy r.cx r.cy
    ∑ i, (assembleShearLoad els w).1 i = 0 ∧ ∑ i, (assembleShearLoad els w).2 i = 0 := by
  have hS := centroidalSetup hg h hr
  exact shear_load_sum hS.physical.proper hS.distinct w hS.centroidal

/-- **C20** Hence for exact solutions of the two bordered systems both multipliers vanish, the shear
functions solve the unconstrained equations and have zero modulus-weighted mean; the direct solver never
rejects an exact solution. -/
theorem C20_multipliers (s : Section) (r : GeomResults) (hg : GoodSection s)
    (h : Physical s.elements) (hr : s.geometricAnalysis = .ok r) (w : WarpIn) (b : Fin s.numNodes → ℝ) :
    let els := s.elements.map fun t => t.shiftBy r.cx r.cy
    let A := (assembleTorsion els).1
    b = (assembleShearLoad els w).1 ∨ b = (assembleShearLoad els w).2 →
    (∀ u μ, A.mulVec (Fin.snoc (α := fun _ => ℝ) u μ) = Fin.snoc (α := fun _ => ℝ) b 0 →
      μ = 0 ∧ (∀ i, ∑ j, A (Fin.castSucc i) (Fin.castSucc j) * u j = b i) ∧
      ∀ q, FEField els u q → wInt els q = 0) ∧
    (∀ sv : Solvers, A.mulVec (sv.spsolve A (Fin.snoc (α := fun _ => ℝ) b 0))
        = Fin.snoc (α := fun _ => ℝ) b 0 →
      ∃ u, solveShear sv .direct A b = .ok u ∧ SolvesBordered A b u) := by
  intro els A hb
  have hS := centroidalSetup hg h hr
  have hsum : ∑ i, b i = 0 := by
    obtain ⟨h1, h2⟩ := shear_load_sum hS.physical.proper hS.distinct w hS.centroidal
    rcases hb with rfl | rfl
    · exact h1
    · exact h2
  refine ⟨fun u μ hu => C17_solution hS.physical hS.distinct b u μ hsum hu, fun sv hsv => ?_⟩
  obtain ⟨u, h1, -, h3⟩ := C17_direct hS.physical hS.distinct sv b hsum hsv
  exact ⟨u, h1, h3⟩

/-! ### C21 -/

theorem scInts_form (hp : ∀ t ∈ els, Proper t.coords) (w : WarpIn) {omega : Fin n → ℝ}
    {q : Tri6 n → ℝ × ℝ → ℝ} (hq : FEField els omega q) :
    (scWarpingIntegrals els w omega).qOmega = wInt els q ∧
    (scWarpingIntegrals els w omega).iXomega = wInt els (fun t p => p.1 * q t p) ∧
    (scWarpingIntegrals els w omega).iYomega = wInt els (fun t p => p.2 * q t p) := by
  refine ⟨?_, ?_, ?_⟩ <;>
    simp only [scWarpingIntegrals, accum_eq_sum, Tri6.shearWarpingIntegrals, mul_assoc] <;>
    simp only [← accum_eq_sum gauss4]
  · refine sum_elem_quad hp (fun t ht => PolyLE.mono (by omega) (hq t ht).1) fun t ht gp hb => ?_
    exact interp_val (hp t ht) hb (hq t ht)
  · refine sum_elem_quad hp (fun t ht => poly_mul3 PolyLE.fst (hq t ht).1) fun t ht gp hb => ?_
    rw [sf_nx (hp t ht).1 hb]
    exact congrArg _ (interp_val (hp t ht) hb (hq t ht))
  · refine sum_elem_quad hp (fun t ht => poly_mul3 PolyLE.snd (hq t ht).1) fun t ht gp hb => ?_
    rw [sf_ny (hp t ht).1 hb]
    exact congrArg _ (interp_val (hp t ht) hb (hq t ht))

theorem dirichlet_symm (q r : Tri6 n → ℝ × ℝ → ℝ) : dirichlet els q r = dirichlet els r q :=
  wInt_congr fun t _ p => by ring

theorem dotN_comm (a b : Fin n → ℝ) : dotN a b = dotN b a :=
  Finset.sum_congr rfl fun _ _ => mul_comm _ _

/-- **C21** For zero effective Poisson ratio (in particular every non-composite section) the elastic
shear centre and the Trefftz shear centre reported by the warping analysis are equal, whenever the
returned functions solve the discrete equations exactly. -/
theorem C21_shear_centres (s : Section) (r : GeomResults) (hg : GoodSection s)
    (h : Physical s.elements) (hr : s.geometricAnalysis = .ok r) (sv : Solvers) (ty : SolverType)
    (w : WarpResults s.numNodes) (hw : s.warping sv ty r = .ok w)
    (hnu : isComposite s.materials → r.nuEff = 0) :
    let els := s.elements.map fun t => t.shiftBy r.cx r.cy
    let A := (assembleTorsion els).1
    SolvesBordered A (assembleTorsion els).2 w.omega →
    SolvesBordered A (assembleShearLoad els (warpIn s.materials r)).1 w.psi →
    SolvesBordered A (assembleShearLoad els (warpIn s.materials r)).2 w.phiS →
    w.sc.xSe = w.sc.xSt ∧ w.sc.ySe = w.sc.ySt := by
  intro els A ho hpsi hphi
  have hS := centroidalSetup hg h hr
  have hP := hS.physical
  obtain ⟨-, -, -, -, -, hsc, -⟩ := warping_ok hw
  have hnu0 : (warpIn s.materials r).nu = 0 := by
    simp only [warpIn]
    split_ifs with hc
    · exact hnu hc
    · rfl
  obtain ⟨q, hq⟩ := exists_feField hP.proper w.omega
  obtain ⟨qp, hqp⟩ := exists_feField hP.proper w.psi
  obtain ⟨qf, hqf⟩ := exists_feField hP.proper w.phiS
  obtain ⟨l1, l2⟩ := shear_load_sum hP.proper hS.distinct (warpIn s.materials r) hS.centroidal
  have hl := load_sum hP.proper hS.distinct
  have hXm : ∀ t ∈ els, (fun p : ℝ × ℝ => p.1 * q t p) ∈ PolyLE 3 := fun t ht =>
    poly_mul3 PolyLE.fst (hq t ht).1
  have hYm : ∀ t ∈ els, (fun p : ℝ × ℝ => p.2 * q t p) ∈ PolyLE 3 := fun t ht =>
    poly_mul3 PolyLE.snd (hq t ht).1
  obtain ⟨-, i2, i3⟩ := scInts_form hP.proper (warpIn s.materials r) hq
  have e1 : dotN (assembleTorsion els).2 w.psi
      = 2 * (r.cent.ixxC * wInt els (fun t p => p.1 * q t p)
        - r.cent.ixyC * wInt els (fun t p => p.2 * q t p)) := by
    rw [dotN_comm, ← bordered_weak hP hS.distinct hl ho hq hqp, dirichlet_symm,
      bordered_weak hP hS.distinct l1 hpsi hqp hq, psi_load hP.proper hS.distinct _ hq,
      wInt_congr (g := fun t p => 2 * r.cent.ixxC * (p.1 * q t p) + -2 * r.cent.ixyC * (p.2 * q t p)),
      wInt_lc _ _ hXm hYm]
    · ring
    · intro t _ p
      simp only [psiWork, hnu0]; simp only [warpIn]; ring
  have e2 : dotN (assembleTorsion els).2 w.phiS
      = 2 * (r.cent.iyyC * wInt els (fun t p => p.2 * q t p)
        - r.cent.ixyC * wInt els (fun t p => p.1 * q t p)) := by
    rw [dotN_comm, ← bordered_weak hP hS.distinct hl ho hq hqf, dirichlet_symm,
      bordered_weak hP hS.distinct l2 hphi hqf hq, phi_load hP.proper hS.distinct _ hq,
      wInt_congr (g := fun t p => 2 * r.cent.iyyC * (p.2 * q t p) + -2 * r.cent.ixyC * (p.1 * q t p)),
      wInt_lc _ _ hYm hXm]
    · ring
    · intro t _ p
      simp only [phiWork, hnu0]; simp only [warpIn]; ring
  have hdet := hS.det.ne'
  rw [hsc]
  simp only [shearCentres, WarpIn.deltaS, hnu0]
  change 1 / _ * (0 / 2 * _ - dotN (assembleTorsion els).2 w.phiS) = (_ * (scWarpingIntegrals els _ w.omega).iXomega
    - _ * (scWarpingIntegrals els _ w.omega).iYomega) / _ ∧
    1 / _ * (0 / 2 * _ + dotN (assembleTorsion els).2 w.psi) = (_ * (scWarpingIntegrals els _ w.omega).iXomega
    - _ * (scWarpingIntegrals els _ w.omega).iYomega) / _
  rw [e1, e2, i2, i3]
  simp only [warpIn]
  constructor <;> field_simp <;> ring

/-! ### C22 -/

/-- Cauchy-Schwarz for the modulus-weighted integral of `f · 1`. -/
theorem wInt_cs_one (hE : ∀ t ∈ els, 0 < t.material.elasticModulus) {f : Tri6 n → ℝ × ℝ → ℝ}
    (hf : ∀ t ∈ els, f t ∈ PolyLE 1) :
    wInt els f ^ 2 ≤ wInt els (fun t p => f t p * f t p) * wInt els (fun _ _ => 1) := by
  have key : ∀ k : ℝ, 0 ≤ wInt els (fun t p => f t p * f t p) - 2 * k * wInt els f
      + k ^ 2 * wInt els (fun _ _ => 1) := by
    intro k
    have h0 : 0 ≤ wInt els (fun t p => (f t p - k) * (f t p - k)) :=
      wInt_nonneg hE fun t _ p => mul_self_nonneg _
    have hff : ∀ t ∈ els, (fun p => f t p * f t p) ∈ PolyLE 2 := fun t ht => poly_mul2 (hf t ht) (hf t ht)
    have h2f : ∀ t ∈ els, (fun p => -(2 * k) * f t p) ∈ PolyLE 2 := fun t ht =>
      Submodule.smul_mem _ _ (PolyLE.mono (by omega) (hf t ht))
    have e : wInt els (fun t p => (f t p - k) * (f t p - k))
        = wInt els fun t p => f t p * f t p + (-(2 * k) * f t p + k ^ 2 * 1) :=
      wInt_congr fun t _ p => by ring
    rw [e, wInt_add (g := fun t p => -(2 * k) * f t p + k ^ 2 * 1) hff
        (fun t ht => Submodule.add_mem _ (h2f t ht) (PolyLE.const 2 _)),
      wInt_add (g := fun _ _ => k ^ 2 * 1) h2f (fun _ _ => PolyLE.const 2 _), wInt_smul, wInt_smul] at h0
    linarith
  have h1 : 0 ≤ wInt els (fun _ _ => (1 : ℝ)) := wInt_nonneg hE fun _ _ _ => zero_le_one
  rcases h1.eq_or_lt with h1 | h1
  · by_contra hcon
    rw [← h1, mul_zero, not_le] at hcon
    have h2 := key ((wInt els (fun t p => f t p * f t p) + 1) / (2 * wInt els f))
    have hne : wInt els f ≠ 0 := fun h => by rw [h] at hcon; norm_num at hcon
    rw [← h1] at h2
    have h3 : 2 * ((wInt els (fun t p => f t p * f t p) + 1) / (2 * wInt els f)) * wInt els f
        = wInt els (fun t p => f t p * f t p) + 1 := by field_simp
    rw [h3] at h2
    linarith
  · have h2 := key (wInt els f / wInt els (fun _ _ => 1))
    have h3 : wInt els (fun t p => f t p * f t p) - 2 * (wInt els f / wInt els (fun _ _ => 1)) * wInt els f
        + (wInt els f / wInt els (fun _ _ => 1)) ^ 2 * wInt els (fun _ _ => 1)
        = wInt els (fun t p => f t p * f t p) - wInt els f ^ 2 / wInt els (fun _ _ => 1) := by
      field_simp; ring
    rw [h3, sub_nonneg, div_le_iff₀ h1] at h2
    exact h2

/-- The shear coefficients for zero Poisson ratio are Dirichlet forms. -/
theorem kappas_form (hp : ∀ t ∈ els, Proper t.coords) {w : WarpIn} (hnu : w.nu = 0)
    {psi phiS : Fin n → ℝ} {q r : Tri6 n → ℝ × ℝ → ℝ} (hq : FEField els psi q)
    (hr : FEField els phiS r) :
    (shearDeformation els w psi phiS).x = dirichlet els q q ∧
    (shearDeformation els w psi phiS).y = dirichlet els r r ∧
    (shearDeformation els w psi phiS).xy = dirichlet els q r := by
  have key : ∀ {q r : Tri6 n → ℝ × ℝ → ℝ} {x y : Fin n → ℝ}, FEField els x q → FEField els y r →
      (els.map fun t => accum gauss4 fun gp => t.eWeight gp *
        (dot6 (shapeFunction t.coords gp).bx (t.local x) * dot6 (shapeFunction t.coords gp).bx (t.local y)
        + dot6 (shapeFunction t.coords gp).by' (t.local x)
          * dot6 (shapeFunction t.coords gp).by' (t.local y))).sum = dirichlet els q r := by
    intro q r x y hq hr
    refine sum_elem_quad hp (fun t ht => PolyLE.mono (show 2 ≤ 3 by omega) (Submodule.add_mem _
      (poly_mul2 (dX_mem (hq t ht).1) (dX_mem (hr t ht).1))
      (poly_mul2 (dY_mem (hq t ht).1) (dY_mem (hr t ht).1)))) fun t ht gp hb => ?_
    have a1 : dot6 (shapeFunction t.coords gp).bx (t.local x) = _ := interp_dX (hp t ht) hb (hq t ht)
    have a2 : dot6 (shapeFunction t.coords gp).by' (t.local x) = _ := interp_dY (hp t ht) hb (hq t ht)
    have a3 : dot6 (shapeFunction t.coords gp).bx (t.local y) = _ := interp_dX (hp t ht) hb (hr t ht)
    have a4 : dot6 (shapeFunction t.coords gp).by' (t.local y) = _ := interp_dY (hp t ht) hb (hr t ht)
    rw [a1, a2, a3, a4]
    rfl
  simp only [shearDeformation, accum_eq_sum els, Tri6.shearCoefficients, hnu, zero_div, zero_mul,
    sub_zero]
  exact ⟨key hq hq, key hr hr, key hq hr⟩

/-- The quadratic form of the shear coefficients in a direction `(c, s)` for zero Poisson ratio. -/
theorem kappa_bound (s : Section) (r : GeomResults) (hg : GoodSection s)
    (h : Physical s.elements) (hr : s.geometricAnalysis = .ok r) (psi phiS : Fin s.numNodes → ℝ)
    (hnu : isComposite s.materials → r.nuEff = 0) (c d : ℝ) (hcd : c ^ 2 + d ^ 2 = 1) :
    let els := s.elements.map fun t => t.shiftBy r.cx r.cy
    let A := (assembleTorsion els).1
    let k := shearDeformation els (warpIn s.materials r) psi phiS
    SolvesBordered A (assembleShearLoad els (warpIn s.materials r)).1 psi →
    SolvesBordered A (assembleShearLoad els (warpIn s.materials r)).2 phiS →
    (2 * (r.cent.ixxC * r.cent.iyyC - r.cent.ixyC ^ 2)) ^ 2
      ≤ (c ^ 2 * k.x + 2 * (c * d) * k.xy + d ^ 2 * k.y) * r.sums.ea := by
  intro els A k hpsi hphi
  have hS := centroidalSetup hg h hr
  have hP := hS.physical
  have hnu0 : (warpIn s.materials r).nu = 0 := by
    simp only [warpIn]
    split_ifs with hc
    · exact hnu hc
    · rfl
  obtain ⟨q, hq⟩ := exists_feField hP.proper psi
  obtain ⟨f, hf⟩ := exists_feField hP.proper phiS
  obtain ⟨l1, l2⟩ := shear_load_sum hP.proper hS.distinct (warpIn s.materials r) hS.centroidal
  obtain ⟨k1, k2, k3⟩ := kappas_form hP.proper hnu0 hq hf
  have hres := shear_resultants hg h hr hpsi hphi hq hf
  have hds : (warpIn s.materials r).deltaS = 2 * (r.cent.ixxC * r.cent.iyyC - r.cent.ixyC ^ 2) := by
    rw [WarpIn.deltaS, hnu0]; simp only [warpIn]; ring
  simp only [hnu0, hds, zero_div, zero_mul, sub_zero] at hres
  obtain ⟨e1, e2, e3, e4⟩ := hres
  have aX : ∀ t ∈ els, (fun p => dX (q t) p) ∈ PolyLE 1 := fun t ht => dX_mem (hq t ht).1
  have aY : ∀ t ∈ els, (fun p => dY (q t) p) ∈ PolyLE 1 := fun t ht => dY_mem (hq t ht).1
  have bX : ∀ t ∈ els, (fun p => dX (f t) p) ∈ PolyLE 1 := fun t ht => dX_mem (hf t ht).1
  have bY : ∀ t ∈ els, (fun p => dY (f t) p) ∈ PolyLE 1 := fun t ht => dY_mem (hf t ht).1
  -- the gradient of `c ψ + d φ` in the direction `(c, d)` and across it
  have gm : ∀ t ∈ els, (fun p => c * (c * dX (q t) p + d * dX (f t) p)
      + d * (c * dY (q t) p + d * dY (f t) p)) ∈ PolyLE 1 := fun t ht =>
    Submodule.add_mem _ (Submodule.smul_mem _ c (Submodule.add_mem _
      (Submodule.smul_mem _ c (aX t ht)) (Submodule.smul_mem _ d (bX t ht))))
      (Submodule.smul_mem _ d (Submodule.add_mem _
      (Submodule.smul_mem _ c (aY t ht)) (Submodule.smul_mem _ d (bY t ht))))
  have hlin : wInt els (fun t p => c * (c * dX (q t) p + d * dX (f t) p)
      + d * (c * dY (q t) p + d * dY (f t) p))
      = 2 * (r.cent.ixxC * r.cent.iyyC - r.cent.ixyC ^ 2) := by
    rw [wInt_add (d := 1) (f := fun t p => c * (c * dX (q t) p + d * dX (f t) p))
        (g := fun t p => d * (c * dY (q t) p + d * dY (f t) p))
        (fun t ht => Submodule.smul_mem _ c (Submodule.add_mem _
          (Submodule.smul_mem _ c (aX t ht)) (Submodule.smul_mem _ d (bX t ht))))
        (fun t ht => Submodule.smul_mem _ d (Submodule.add_mem _
          (Submodule.smul_mem _ c (aY t ht)) (Submodule.smul_mem _ d (bY t ht)))),
      wInt_smul, wInt_smul,
      wInt_add (d := 1) (f := fun t p => c * dX (q t) p) (g := fun t p => d * dX (f t) p)
        (fun t ht => Submodule.smul_mem _ c (aX t ht)) (fun t ht => Submodule.smul_mem _ d (bX t ht)),
      wInt_add (d := 1) (f := fun t p => c * dY (q t) p) (g := fun t p => d * dY (f t) p)
        (fun t ht => Submodule.smul_mem _ c (aY t ht)) (fun t ht => Submodule.smul_mem _ d (bY t ht)),
      wInt_smul, wInt_smul, wInt_smul, wInt_smul, e1, e2, e3, e4]
    linear_combination 2 * (r.cent.ixxC * r.cent.iyyC - r.cent.ixyC ^ 2) * hcd
  have hcs := wInt_cs_one hP.modulus gm
  rw [hlin, hS.one] at hcs
  refine hcs.trans (mul_le_mul_of_nonneg_right ?_ ?_)
  swap
  · rw [← hS.ea]; exact hP.ea_pos.le
  -- energy of `c ψ + d φ`
  have hK : c ^ 2 * k.x + 2 * (c * d) * k.xy + d ^ 2 * k.y
      = wInt els fun t p => (c * dX (q t) p + d * dX (f t) p) * (c * dX (q t) p + d * dX (f t) p)
        + (c * dY (q t) p + d * dY (f t) p) * (c * dY (q t) p + d * dY (f t) p) := by
    rw [k1, k2, k3, dirichlet, dirichlet, dirichlet]
    have m1 : ∀ t ∈ els, (fun p => dX (q t) p * dX (q t) p + dY (q t) p * dY (q t) p) ∈ PolyLE 2 :=
      fun t ht => Submodule.add_mem _ (poly_mul2 (aX t ht) (aX t ht)) (poly_mul2 (aY t ht) (aY t ht))
    have m2 : ∀ t ∈ els, (fun p => dX (q t) p * dX (f t) p + dY (q t) p * dY (f t) p) ∈ PolyLE 2 :=
      fun t ht => Submodule.add_mem _ (poly_mul2 (aX t ht) (bX t ht)) (poly_mul2 (aY t ht) (bY t ht))
    have m3 : ∀ t ∈ els, (fun p => dX (f t) p * dX (f t) p + dY (f t) p * dY (f t) p) ∈ PolyLE 2 :=
      fun t ht => Submodule.add_mem _ (poly_mul2 (bX t ht) (bX t ht)) (poly_mul2 (bY t ht) (bY t ht))
    have m12 : ∀ t ∈ els, (fun p => c ^ 2 * (dX (q t) p * dX (q t) p + dY (q t) p * dY (q t) p)
        + 2 * (c * d) * (dX (q t) p * dX (f t) p + dY (q t) p * dY (f t) p)) ∈ PolyLE 2 := fun t ht =>
      Submodule.add_mem _ (Submodule.smul_mem _ (c ^ 2) (m1 t ht))
        (Submodule.smul_mem _ (2 * (c * d)) (m2 t ht))
    rw [wInt_congr (f := fun t p => (c * dX (q t) p + d * dX (f t) p) * (c * dX (q t) p + d * dX (f t) p)
        + (c * dY (q t) p + d * dY (f t) p) * (c * dY (q t) p + d * dY (f t) p))
      (g := fun t p => 1 * (c ^ 2 * (dX (q t) p * dX (q t) p + dY (q t) p * dY (q t) p)
        + 2 * (c * d) * (dX (q t) p * dX (f t) p + dY (q t) p * dY (f t) p))
        + d ^ 2 * (dX (f t) p * dX (f t) p + dY (f t) p * dY (f t) p)) fun t _ p => by ring,
      wInt_lc _ _ m12 m3, wInt_lc _ _ m1 m2, one_mul]
  rw [hK, ← sub_nonneg]
  have uX : ∀ t ∈ els, (fun p => c * dX (q t) p + d * dX (f t) p) ∈ PolyLE 1 := fun t ht =>
    Submodule.add_mem _ (Submodule.smul_mem _ c (aX t ht)) (Submodule.smul_mem _ d (bX t ht))
  have uY : ∀ t ∈ els, (fun p => c * dY (q t) p + d * dY (f t) p) ∈ PolyLE 1 := fun t ht =>
    Submodule.add_mem _ (Submodule.smul_mem _ c (aY t ht)) (Submodule.smul_mem _ d (bY t ht))
  have uu : ∀ t ∈ els, (fun p => (c * dX (q t) p + d * dX (f t) p) * (c * dX (q t) p + d * dX (f t) p)
      + (c * dY (q t) p + d * dY (f t) p) * (c * dY (q t) p + d * dY (f t) p)) ∈ PolyLE 2 := fun t ht =>
    Submodule.add_mem _ (poly_mul2 (uX t ht) (uX t ht)) (poly_mul2 (uY t ht) (uY t ht))
  refine le_of_le_of_eq ?_ (wInt_sub uu (fun t ht => poly_mul2 (gm t ht) (gm t ht)))
  refine wInt_nonneg hP.modulus fun t _ p => ?_
  have : ∀ X Y : ℝ, X * X + Y * Y - (c * X + d * Y) * (c * X + d * Y) = (d * X - c * Y) ^ 2 := by
    intro X Y
    linear_combination (-(X ^ 2) - Y ^ 2) * hcd
  rw [this]
  positivity

theorem shearAreas_rot (w : WarpIn) (k : Kappas) :
    (shearAreas w k).s11 = w.area / (w.area / w.deltaS ^ 2 * (Real.cos (w.phi * Real.pi / 180) ^ 2 * k.x
      + 2 * (Real.cos (w.phi * Real.pi / 180) * Real.sin (w.phi * Real.pi / 180)) * k.xy
      + Real.sin (w.phi * Real.pi / 180) ^ 2 * k.y)) ∧
    (shearAreas w k).s22 = w.area / (w.area / w.deltaS ^ 2
      * ((-Real.sin (w.phi * Real.pi / 180)) ^ 2 * k.x
      + 2 * (-Real.sin (w.phi * Real.pi / 180) * Real.cos (w.phi * Real.pi / 180)) * k.xy
      + Real.cos (w.phi * Real.pi / 180) ^ 2 * k.y)) := by
  constructor <;> simp only [shearAreas] <;> congr 1 <;>
    simp [Matrix.mul_apply, Fin.sum_univ_two] <;> ring

/-- **C22** bounds: for zero effective Poisson ratio (every non-composite section), exact shear functions
and every section: the shear areas along the global and the principal axes are positive and at most the
(modulus-weighted) area; and the mixed coefficient satisfies `κxy² ≤ κx κy`. -/
theorem C22_bounds_partial (s : Section) (r : GeomResults) (hg : GoodSection s)
    (h : Physical s.elements) (hr : s.geometricAnalysis = .ok r) (sv : Solvers) (ty : SolverType)
    (w : WarpResults s.numNodes) (hw : s.warping sv ty r = .ok w)
    (hnu : isComposite s.materials → r.nuEff = 0) :
    let els := s.elements.map fun t => t.shiftBy r.cx r.cy
    let A := (assembleTorsion els).1
    let k := shearDeformation els (warpIn s.materials r) w.psi w.phiS
    SolvesBordered A (assembleShearLoad els (warpIn s.materials r)).1 w.psi →
    SolvesBordered A (assembleShearLoad els (warpIn s.materials r)).2 w.phiS →
    (0 < w.areas.sx ∧ w.areas.sx ≤ r.sums.ea) ∧ (0 < w.areas.sy ∧ w.areas.sy ≤ r.sums.ea) ∧
    (0 < w.areas.s11 ∧ w.areas.s11 ≤ r.sums.ea) ∧ (0 < w.areas.s22 ∧ w.areas.s22 ≤ r.sums.ea) ∧
    k.xy ^ 2 ≤ k.x * k.y := by
  intro els A k hpsi hphi
  have hS := centroidalSetup hg h hr
  obtain ⟨-, -, -, -, -, -, -, harea, -⟩ := warping_ok hw
  have hb := fun c d hcd => kappa_bound s r hg h hr w.psi w.phiS hnu c d hcd hpsi hphi
  change ∀ c d : ℝ, c ^ 2 + d ^ 2 = 1 → _ ≤ (c ^ 2 * k.x + 2 * (c * d) * k.xy + d ^ 2 * k.y) * _ at hb
  have hnu0 : (warpIn s.materials r).nu = 0 := by
    simp only [warpIn]
    split_ifs with hc
    · exact hnu hc
    · rfl
  have hds : (warpIn s.materials r).deltaS = 2 * (r.cent.ixxC * r.cent.iyyC - r.cent.ixyC ^ 2) := by
    rw [WarpIn.deltaS, hnu0]; simp only [warpIn]; ring
  have hdet := hS.det
  have hea : 0 < r.sums.ea := hS.ea ▸ hS.physical.ea_pos
  have har : 0 < r.sums.area := hS.area ▸ hS.physical.area_pos
  set D := 2 * (r.cent.ixxC * r.cent.iyyC - r.cent.ixyC ^ 2) with hD
  have hDpos : 0 < D := by positivity
  have hpos : ∀ c d : ℝ, c ^ 2 + d ^ 2 = 1 → 0 < c ^ 2 * k.x + 2 * (c * d) * k.xy + d ^ 2 * k.y := by
    intro c d hcd
    have := hb c d hcd
    have h2 : 0 < D ^ 2 := by positivity
    exact (mul_pos_iff_of_pos_right hea).1 (h2.trans_le this)
  have hle : ∀ c d : ℝ, c ^ 2 + d ^ 2 = 1 →
      D ^ 2 / (c ^ 2 * k.x + 2 * (c * d) * k.xy + d ^ 2 * k.y) ≤ r.sums.ea := by
    intro c d hcd
    rw [div_le_iff₀ (hpos c d hcd)]
    linarith [hb c d hcd]
  have hD2 : 0 < D ^ 2 := by positivity
  have hrot : ∀ c d : ℝ, r.sums.area / (r.sums.area / D ^ 2 *
      (c ^ 2 * k.x + 2 * (c * d) * k.xy + d ^ 2 * k.y))
      = D ^ 2 / (c ^ 2 * k.x + 2 * (c * d) * k.xy + d ^ 2 * k.y) := by
    intro c d
    by_cases hz : c ^ 2 * k.x + 2 * (c * d) * k.xy + d ^ 2 * k.y = 0
    · simp [hz]
    · field_simp
  have e11 : w.areas.s11 = D ^ 2 / (Real.cos (r.cent.phi * Real.pi / 180) ^ 2 * k.x
      + 2 * (Real.cos (r.cent.phi * Real.pi / 180) * Real.sin (r.cent.phi * Real.pi / 180)) * k.xy
      + Real.sin (r.cent.phi * Real.pi / 180) ^ 2 * k.y) := by
    rw [harea, ← hrot, (shearAreas_rot _ _).1, hds]
    rfl
  have e22 : w.areas.s22 = D ^ 2 / ((-Real.sin (r.cent.phi * Real.pi / 180)) ^ 2 * k.x
      + 2 * (-Real.sin (r.cent.phi * Real.pi / 180) * Real.cos (r.cent.phi * Real.pi / 180)) * k.xy
      + Real.cos (r.cent.phi * Real.pi / 180) ^ 2 * k.y) := by
    rw [harea, ← hrot, (shearAreas_rot _ _).2, hds]
    rfl
  have ex : w.areas.sx = D ^ 2 / k.x := by
    rw [harea]; simp only [shearAreas, hds]; rfl
  have ey : w.areas.sy = D ^ 2 / k.y := by
    rw [harea]; simp only [shearAreas, hds]; rfl
  have t1 := Real.cos_sq_add_sin_sq (r.cent.phi * Real.pi / 180)
  have t2 : (-Real.sin (r.cent.phi * Real.pi / 180)) ^ 2 + Real.cos (r.cent.phi * Real.pi / 180) ^ 2 = 1 := by
    rw [neg_sq, add_comm]; exact t1
  have hx := hpos 1 0 (by norm_num)
  have hy := hpos 0 1 (by norm_num)
  have hx' := hle 1 0 (by norm_num)
  have hy' := hle 0 1 (by norm_num)
  norm_num at hx hy hx' hy'
  refine ⟨⟨?_, ?_⟩, ⟨?_, ?_⟩, ⟨?_, ?_⟩, ⟨?_, ?_⟩, ?_⟩
  · rw [ex]; positivity
  · rw [ex]; exact hx'
  · rw [ey]; positivity
  · rw [ey]; exact hy'
  · rw [e11]; exact div_pos hD2 (hpos _ _ t1)
  · rw [e11]; exact hle _ _ t1
  · rw [e22]; exact div_pos hD2 (hpos _ _ t2)
  · rw [e22]; exact hle _ _ t2
  · -- the form is positive on all directions, so its discriminant is negative
    have hq : 0 < k.xy ^ 2 + k.x ^ 2 := by positivity
    obtain ⟨S, hSp, hSq⟩ : ∃ S : ℝ, 0 < S ∧ S ^ 2 = k.xy ^ 2 + k.x ^ 2 :=
      ⟨_, Real.sqrt_pos.2 hq, Real.sq_sqrt hq.le⟩
    have hn := hpos (-k.xy / S) (k.x / S) (by
      rw [div_pow, div_pow, hSq, ← add_div, neg_sq, div_self hq.ne'])
    have e : (-k.xy / S) ^ 2 * k.x + 2 * (-k.xy / S * (k.x / S)) * k.xy + (k.x / S) ^ 2 * k.y
        = k.x * (k.x * k.y - k.xy ^ 2) / (k.xy ^ 2 + k.x ^ 2) := by
      rw [← hSq]
      field_simp
      ring
    rw [e] at hn
    have h3 := (div_pos_iff_of_pos_right hq).1 hn
    have := (mul_pos_iff_of_pos_left hx).1 h3
    linarith

/-- **C22** tensor character: for every Poisson ratio and whatever the solver returned, the sum of the
reciprocal shear areas is the same in the global and in the principal axes. -/
theorem C22_trace (s : Section) (r : GeomResults) (h : Physical s.elements)
    (hr : s.geometricAnalysis = .ok r) (sv : Solvers) (ty : SolverType)
    (w : WarpResults s.numNodes) (hw : s.warping sv ty r = .ok w) :
    1 / w.areas.s11 + 1 / w.areas.s22 = 1 / w.areas.sx + 1 / w.areas.sy := by
  obtain ⟨g1, -⟩ := geom_ok hr
  obtain ⟨-, -, -, -, -, -, -, harea, -⟩ := warping_ok hw
  have har : (warpIn s.materials r).area ≠ 0 := by
    change r.sums.area ≠ 0
    rw [g1]; exact h.area_pos.ne'
  rw [harea]
  set W := warpIn s.materials r
  set k := shearDeformation (s.elements.map fun t => t.shiftBy r.cx r.cy) W w.psi w.phiS
  rw [(shearAreas_rot W k).1, (shearAreas_rot W k).2]
  simp only [shearAreas, one_div_div]
  have t1 := Real.cos_sq_add_sin_sq (W.phi * Real.pi / 180)
  rw [← add_div, div_eq_iff har]
  linear_combination (W.area / W.deltaS ^ 2) * (k.x + k.y) * t1

/-- **C22** For a non-composite section built from a geometry the modulus-weighted area that bounds the
shear areas is the area itself. -/
theorem C22_noncomposite_area (g : GeomIn) (s : Section) (hi : Section.init g = .ok s)
    (hc : ¬ isComposite s.materials) : (geomSums s.elements).ea = (geomSums s.elements).area := by
  obtain ⟨m, mx, -, -, -, els, hf, rfl⟩ := init_ok hi
  simp only [isComposite, not_not] at hc
  simp only [geomSums, accum_eq_sum]
  refine congrArg List.sum (List.map_congr_left fun t ht => ?_)
  obtain ⟨e, he, rfl⟩ := List.mem_map.1 ht
  obtain ⟨p, -, hk⟩ := forall₂_mem_right hf he
  obtain ⟨a, -, hm, ht'⟩ := mkElement_ok hk
  have hd := hc.2 e.2 (List.mem_of_getElem? hm)
  have : e.1.geometricProperties.e = 1 := by
    rw [ht']
    simp only [Tri6.geometricProperties, hd, defaultMaterial]
  rw [this, mul_one]

/-! ### Non-vacuity -/

/-- Exact solvers on a connected section: the warping analysis succeeds and all three functions solve
their systems exactly. -/
theorem exact_warping (s : Section) (r : GeomResults) (hg : GoodSection s) (h : Physical s.elements)
    (hr : s.geometricAnalysis = .ok r)
    (hc : ConnectedMesh (s.elements.map fun t => t.shiftBy r.cx r.cy)) :
    let els := s.elements.map fun t => t.shiftBy r.cx r.cy
    let A := (assembleTorsion els).1
    ∃ w, s.warping exactSolvers .direct r = .ok w ∧ SolvesBordered A (assembleTorsion els).2 w.omega ∧
      SolvesBordered A (assembleShearLoad els (warpIn s.materials r)).1 w.psi ∧
      SolvesBordered A (assembleShearLoad els (warpIn s.materials r)).2 w.phiS := by
  intro els A
  have hS := centroidalSetup hg h hr
  have hu := (C18_unique_iff_connected hS.physical hS.distinct).2 hc
  obtain ⟨o, -, h1, h2⟩ := C17_direct hS.physical hS.distinct exactSolvers _
    (torsion_load_sum hS.physical hS.distinct) (exactSolvers_spec (hu _).exists)
  obtain ⟨p, h3, h4⟩ := (C20_multipliers s r hg h hr (warpIn s.materials r) _ (Or.inl rfl)).2 exactSolvers
    (exactSolvers_spec (hu _).exists)
  obtain ⟨f, h5, h6⟩ := (C20_multipliers s r hg h hr (warpIn s.materials r) _ (Or.inr rfl)).2 exactSolvers
    (exactSolvers_spec (hu _).exists)
  obtain ⟨w, hw⟩ : ∃ w, s.warping exactSolvers .direct r = .ok w := by
    rw [Section.warping, warpingAnalysis]
    simp only [h1, h3, h5]
    exact ⟨_, rfl⟩
  obtain ⟨w1, w2, w3, -⟩ := warping_ok hw
  have e1 : w.omega = o := Except.ok.inj (w1.symm.trans h1)
  have e2 : w.psi = p := Except.ok.inj (w2.symm.trans h3)
  have e3 : w.phiS = f := Except.ok.inj (w3.symm.trans h5)
  refine ⟨w, hw, ?_, ?_, ?_⟩
  · rw [e1]; exact h2
  · rw [e2]; exact h4
  · rw [e3]; exact h6

theorem exPlain_physical : Physical exPlain.elements := by
  refine ⟨by simp [exPlain], exPlain_good.proper, ?_⟩
  intro (t : Tri6 9) ht
  have ht : t ∈ [exP0, exP1] := ht
  rcases List.mem_cons.1 ht with rfl | ht
  · norm_num [exP0, defaultMaterial]
  · rw [List.mem_singleton.1 ht]; norm_num [exP1, defaultMaterial]

theorem exPlain_linked (cx cy : ℝ) : ConnectedMesh (exPlain.elements.map fun t => t.shiftBy cx cy) := by
  have e : ∀ i j, NodeLinked ([exT0, exT1].map fun t => t.shiftBy cx cy) i j →
      NodeLinked ([exP0, exP1].map fun t => t.shiftBy cx cy) i j := by
    rintro i j ⟨t, ht, k, l, hk, hl⟩
    obtain ⟨t', ht', rfl⟩ := List.mem_map.1 ht
    rcases List.mem_cons.1 ht' with rfl | ht'
    · exact ⟨exP0.shiftBy cx cy, List.mem_cons_self .., k, l, hk, hl⟩
    · rw [List.mem_singleton.1 ht'] at hk hl
      exact ⟨exP1.shiftBy cx cy, List.mem_cons_of_mem _ (List.mem_cons_self ..), k, l, hk, hl⟩
  intro i j
  exact Relation.ReflTransGen.mono (fun _ _ => e _ _) _ _ (ex_linked cx cy i j)

/-- Non-vacuity of C20 (composite section, non-zero Poisson ratio). -/
example : ∃ r w, exSection.geometricAnalysis = .ok r ∧ GoodSection exSection ∧
    Physical exSection.elements ∧ exSection.warping exactSolvers .direct r = .ok w := by
  obtain ⟨r, hr⟩ := geometricAnalysis_ok exSection (by simp [exSection])
  obtain ⟨w, hw, -⟩ := exact_warping exSection r exSection_good exSection_physical hr (ex_linked r.cx r.cy)
  exact ⟨r, w, hr, exSection_good, exSection_physical, hw⟩

/-- Non-vacuity of C21 and C22: the non-composite rectangle, with exact solvers. -/
example : ∃ r w, exPlain.geometricAnalysis = .ok r ∧ exPlain.warping exactSolvers .direct r = .ok w ∧
    w.sc.xSe = w.sc.xSt ∧ 0 < w.areas.sx ∧ w.areas.sx ≤ r.sums.area := by
  obtain ⟨r, hr⟩ := geometricAnalysis_ok exPlain (by simp [exPlain])
  obtain ⟨w, hw, h1, h2, h3⟩ := exact_warping exPlain r exPlain_good exPlain_physical hr
    (exPlain_linked r.cx r.cy)
  have hn : isComposite exPlain.materials → r.nuEff = 0 := fun h => absurd h exPlain_not_composite
  have hc := C21_shear_centres exPlain r exPlain_good exPlain_physical hr _ _ w hw hn h1 h2 h3
  have hb := C22_bounds_partial exPlain r exPlain_good exPlain_physical hr _ _ w hw hn h2 h3
  refine ⟨r, w, hr, hw, hc.1, hb.1.1, ?_⟩
  have ha := C22_noncomposite_area _ _ exPlain_init exPlain_not_composite
  rw [← (geom_ok hr).1] at ha
  rw [← ha]
  exact hb.1.2

end SP
