import Verif.Props.LayerShear

/-!
# C105: the shear areas and the energy of the shear stresses

The shear area of a direction on fine meshes tends to `1 / ∫ (τ_zx² + τ_zy²) / E`, where `τ` are the stresses of Saint-Venant's theory for a
unit shear force in that direction.  This is what the shear area is for: the work of the shear force per unit length is that of the shear
stresses.
-/

namespace SP

open Spec MeasureTheory Set Topology Filter

section
variable {Ω : Set (ℝ × ℝ)} {mat : ℝ × ℝ → Material} {s₀ : Section} {r₀ : GeomResults} {w₀ : WarpResults s₀.numNodes}

/-- Weighted squares converge with their roots. -/
theorem weighted_sq_limit {α ι : Type*} [MeasurableSpace α] {μ : Measure α} {L : Filter ι} {E : α → ℝ} {b : ℝ} (hE : AEStronglyMeasurable E μ)
    (hb : ∀ᵐ p ∂μ, |E p| ≤ b) {F : ι → α → ℝ} {G ρ : α → ℝ} (hF : ∀ i, MemLp (F i) 2 μ) (hG : MemLp G 2 μ) (hρ : MemLp ρ 2 μ)
    (l : Tendsto (fun i => ∫ p, (F i p - G p) ^ 2 ∂μ) L (𝓝 0)) :
    Tendsto (fun i => ∫ p, scaled E 1 (F i) ρ p * (F i p + ρ p) ∂μ) L (𝓝 (∫ p, scaled E 1 G ρ p * (G p + ρ p) ∂μ)) := by
  refine tendsto_mul_int (fun i => scaled_memLp hE hb (hF i) hρ 1) (fun i => (hF i).add hρ) (scaled_memLp hE hb hG hρ 1) (hG.add hρ) ?_ ?_
  · refine squeeze_zero (fun i => integral_nonneg fun p => sq_nonneg _) (fun i => scaled_near hE hb (hF i) hG hρ 1 1) ?_
    simpa using l.const_mul (2 * b ^ 2)
  · simpa using l

theorem fourDirs_ne (φ : ℝ) (i : Fin 4) : (fourDirs φ i).1 ≠ 0 ∨ (fourDirs φ i).2 ≠ 0 := by
  have hn : (fourDirs φ i).1 ^ 2 + (fourDirs φ i).2 ^ 2 = 1 := by fin_cases i <;> simp [fourDirs]
  by_contra h
  push Not at h
  rw [h.1, h.2] at hn
  norm_num at hn

/-- The torque about the centroid of the shear stresses of a mesh for a unit force in the direction `(c, d)`. -/
theorem dir_torque {s : Section} {r : GeomResults} {w : WarpResults s.numNodes} (h : SolvedMesh Ω mat s r w)
    (hD : (warpIn s.materials r).deltaS ≠ 0) {q f : Tri6 s.numNodes → ℝ × ℝ → ℝ} (hq : FEField (centred s r) w.psi q)
    (hf : FEField (centred s r) w.phiS f) (c d : ℝ) :
    wInt (centred s r) (fun t p => p.1 * dY (fun p => c * q t p + d * f t p) p)
      - wInt (centred s r) (fun t p => p.2 * dX (fun p => c * q t p + d * f t p) p)
      - wInt (centred s r) (fun _ p => p.1 * (shearField (warpIn s.materials r) c d p).2 - p.2 * (shearField (warpIn s.materials r) c d p).1)
      = (warpIn s.materials r).deltaS * (d * w.sc.xSe - c * w.sc.ySe) := by
  obtain ⟨sv, ty, hw⟩ := h.warp
  obtain ⟨-, -, -, -, -, hsc, -⟩ := warping_ok hw
  have hS := centroidalSetup h.good h.physical h.geom
  obtain ⟨t1, t2⟩ := shear_torques (els := centred s r) hS.physical.proper hS.distinct (warpIn s.materials r) w.omega hq hf hD
  rw [hsc]
  set W := warpIn s.materials r with hW
  change _ = W.deltaS * (d * (shearCentres W (assembleTorsion (centred s r)).2 w.psi w.phiS (scWarpingIntegrals (centred s r) W w.omega)).xSe
    - c * (shearCentres W (assembleTorsion (centred s r)).2 w.psi w.phiS (scWarpingIntegrals (centred s r) W w.omega)).ySe)
  have e : ∀ D X Y : ℝ, D * (d * X - c * Y) = c * -(D * Y) + d * (D * X) := fun D X Y => by ring
  have h1 : Continuous fun p => (shearField W c d p).1 := continuous_fst.comp (shearField_cont W c d)
  have h2 : Continuous fun p => (shearField W c d p).2 := continuous_snd.comp (shearField_cont W c d)
  have hsp : Continuous fun p : ℝ × ℝ => ((shearParameter p.1 p.2 W.ixx W.iyy W.ixy).d1, (shearParameter p.1 p.2 W.ixx W.iyy W.ixy).d2,
      (shearParameter p.1 p.2 W.ixx W.iyy W.ixy).h1, (shearParameter p.1 p.2 W.ixx W.iyy W.ixy).h2) := by
    simp only [shearParameter]; fun_prop
  have k1 := continuous_fst.comp hsp
  have k2 := continuous_fst.comp (continuous_snd.comp hsp)
  have k3 := continuous_fst.comp (continuous_snd.comp (continuous_snd.comp hsp))
  have k4 := continuous_snd.comp (continuous_snd.comp (continuous_snd.comp hsp))
  simp only [Function.comp_def] at k1 k2 k3 k4
  have qc : ∀ t ∈ centred s r, Continuous (dX (q t)) ∧ Continuous (dY (q t)) := fun t ht => (field_cont hq ht).2
  have fc : ∀ t ∈ centred s r, Continuous (dX (f t)) ∧ Continuous (dY (f t)) := fun t ht => (field_cont hf ht).2
  have dc : ∀ t ∈ centred s r, Continuous (dX fun p => c * q t p + d * f t p) ∧ Continuous (dY fun p => c * q t p + d * f t p) := fun t ht => by
    have a1 : dX (fun p => c * q t p + d * f t p) = fun p => c * dX (q t) p + d * dX (f t) p := funext fun p => (d_comb (hq t ht).1 (hf t ht).1 c d p).1
    have a2 : dY (fun p => c * q t p + d * f t p) = fun p => c * dY (q t) p + d * dY (f t) p := funext fun p => (d_comb (hq t ht).1 (hf t ht).1 c d p).2
    rw [a1, a2]
    obtain ⟨q1, q2⟩ := qc t ht
    obtain ⟨f1, f2⟩ := fc t ht
    exact ⟨by fun_prop, by fun_prop⟩
  rw [e, ← t1, ← t2, ← wInt_smul, ← wInt_smul, ← wInt_addc (fun t ht => by obtain ⟨q1, q2⟩ := qc t ht; fun_prop) (fun t ht => by obtain ⟨f1, f2⟩ := fc t ht; fun_prop)]
  have n1 : -wInt (centred s r) (fun t p => p.2 * dX (fun p => c * q t p + d * f t p) p)
      = wInt (centred s r) fun t p => -1 * (p.2 * dX (fun p => c * q t p + d * f t p) p) := by rw [wInt_smul]; ring
  have n2 : -wInt (centred s r) (fun _ p => p.1 * (shearField W c d p).2 - p.2 * (shearField W c d p).1)
      = wInt (centred s r) fun _ p => -1 * (p.1 * (shearField W c d p).2 - p.2 * (shearField W c d p).1) := by rw [wInt_smul]; ring
  rw [sub_eq_add_neg, sub_eq_add_neg, n1, n2, ← wInt_addc (fun t ht => by obtain ⟨d1, d2⟩ := dc t ht; fun_prop) (fun t ht => by obtain ⟨d1, d2⟩ := dc t ht; fun_prop),
    ← wInt_addc (fun t ht => by obtain ⟨d1, d2⟩ := dc t ht; fun_prop) (fun t ht => by fun_prop)]
  refine wInt_congr fun t ht p => ?_
  obtain ⟨a1, a2⟩ := d_comb (hq t ht).1 (hf t ht).1 c d p
  rw [a1, a2]
  simp only [shearField]
  ring

/-- The limit of the shear stresses of a unit force in the direction `(c, d)`, of the shear coefficients and of
the torques. -/
theorem dir_limit (h₀ : SolvedMesh Ω mat s₀ r₀ w₀) (hcon : IsPreconnected (interior (region s₀.elements)))
    (hν : isComposite s₀.materials → r₀.nuEff ≠ -1) (c d : ℝ) :
    ∃ σ : ℝ × ℝ → ℝ × ℝ, SquareInt (region (centred s₀ r₀)) σ ∧
      (∀ κ, (fineFilter Ω mat (isComposite s₀.materials) κ).NeBot →
        SaintVenantFlexure (region (centred s₀ r₀)) (fun p => (matFrom mat r₀ p).elasticModulus) 0 (warpIn s₀.materials r₀).nu
          ((c * r₀.cent.ixxC - d * r₀.cent.ixyC) / (r₀.cent.ixxC * r₀.cent.iyyC - r₀.cent.ixyC ^ 2))
          ((d * r₀.cent.iyyC - c * r₀.cent.ixyC) / (r₀.cent.ixxC * r₀.cent.iyyC - r₀.cent.ixyC ^ 2)) (c, d) σ ∧
        GradSquare (region (centred s₀ r₀))) ∧
      ∀ κ, Tendsto (fun x : BodyMesh Ω mat (isComposite s₀.materials) => kappaIn (centred x.1.1 x.1.2.1) (warpIn x.1.1.materials x.1.2.1)
        x.1.2.2.psi x.1.2.2.phiS c d) (fineFilter Ω mat (isComposite s₀.materials) κ)
        (𝓝 ((warpIn s₀.materials r₀).deltaS ^ 2 * ∫ p in region (centred s₀ r₀),
          ((σ p).1 ^ 2 + (σ p).2 ^ 2) / (matFrom mat r₀ p).elasticModulus)) ∧
        Tendsto (fun x : BodyMesh Ω mat (isComposite s₀.materials) => d * x.1.2.2.sc.xSe - c * x.1.2.2.sc.ySe)
          (fineFilter Ω mat (isComposite s₀.materials) κ) (𝓝 (∫ p in region (centred s₀ r₀), p.1 * (σ p).2 - p.2 * (σ p).1)) := by
  have hn := solved_nice h₀ h₀
  have hds := deltaS_ne h₀ hν
  set W := warpIn s₀.materials r₀ with hW
  set R := region (centred s₀ r₀) with hR
  have h1 : Continuous fun p => (shearField W c d p).1 := continuous_fst.comp (shearField_cont W c d)
  have h2 : Continuous fun p => (shearField W c d p).2 := continuous_snd.comp (shearField_cont W c d)
  choose q hq using fun x : BodyMesh Ω mat (isComposite s₀.materials) => psi_sol x.2.1
  choose f hf using fun x : BodyMesh Ω mat (isComposite s₀.materials) => phi_sol x.2.1
  have eW : ∀ x : BodyMesh Ω mat (isComposite s₀.materials), warpIn x.1.1.materials x.1.2.1 = W := fun x => solved_warpIn h₀ x.2.1 x.2.2
  have hs : ∀ x : BodyMesh Ω mat (isComposite s₀.materials), WeakSol (dirLoad W c d) (centred x.1.1 x.1.2.1) _ _ := fun x =>
    eW x ▸ dir_sol c d (hq x) (hf x)
  obtain ⟨G1, G2, F1, F2, g1, g2, f1, f2, s1, s2, l1, l2, sl, lf⟩ := load_fields h₀ hcon (dirLoad_cont W c d)
    (balanced_linear h₀ (2 * (1 + W.nu) * (c * W.ixx - d * W.ixy)) (2 * (1 + W.nu) * (d * W.iyy - c * W.ixy)) fun p => by
      simp only [dirLoad]; ring) hs
  set E : ℝ × ℝ → ℝ := fun p => (matFrom mat r₀ p).elasticModulus with hE
  have mE : AEStronglyMeasurable E (volume.restrict R) := modulus_measurable hn
  obtain ⟨b, hb⟩ := modulus_bounded hn
  have hpos : ∀ᵐ p ∂volume.restrict R, 0 < E p := modulus_positive hn
  have r1 : MemLp (fun p => -(shearField W c d p).1) 2 (volume.restrict R) := memLp_cont h1.neg _
  have r2 : MemLp (fun p => -(shearField W c d p).2) 2 (volume.restrict R) := memLp_cont h2.neg _
  have hS := centroidalSetup h₀.good h₀.physical h₀.geom
  have hD : W.ixx * W.iyy - W.ixy ^ 2 ≠ 0 := hS.det.ne'
  refine ⟨fun p => (scaled E (1 / W.deltaS) G1 (fun p => -(shearField W c d p).1) p, scaled E (1 / W.deltaS) G2 (fun p => -(shearField W c d p).2) p),
    ⟨scaled_memLp mE hb g1 r1 _, scaled_memLp mE hb g2 r2 _⟩, fun κ hne => ⟨?_, (sl κ hne).square⟩, fun κ => ⟨?_, ?_⟩⟩
  · obtain ⟨mxx, myy, mxy⟩ := body_moments h₀
    have hν1 : 1 + W.nu ≠ 0 := fun h => hds (by change 2 * (1 + W.nu) * _ = 0; rw [h]; ring)
    have := flexure_saint_venant mE hb hpos g1 g2 (ν := W.nu) (α := (c * W.ixx - d * W.ixy) / (W.ixx * W.iyy - W.ixy ^ 2))
      (β := (d * W.iyy - c * W.ixy) / (W.ixx * W.iyy - W.ixy ^ 2)) hν1 hD (dirLoad_cont W c d) (fun p => by
        simp only [dirLoad, shearField, shearParameter, Prod.mk.injEq]
        refine ⟨?_, ?_, ?_⟩ <;> field_simp <;> ring) (fun v hv => ((sl κ hne).square v hv).2) (sl κ hne).weak mxx myy mxy (sl κ hne).compatible
    have hV : (c, d) = ((c * W.ixx - d * W.ixy) / (W.ixx * W.iyy - W.ixy ^ 2) * W.iyy + (d * W.iyy - c * W.ixy) / (W.ixx * W.iyy - W.ixy ^ 2) * W.ixy,
        (c * W.ixx - d * W.ixy) / (W.ixx * W.iyy - W.ixy ^ 2) * W.ixy + (d * W.iyy - c * W.ixy) / (W.ixx * W.iyy - W.ixy ^ 2) * W.ixx) := by
      refine Prod.ext ?_ ?_ <;> simp only <;> field_simp <;> ring
    rw [hV]
    exact this
  · have tE := (weighted_sq_limit mE hb f1 g1 r1 (l1 κ)).add (weighted_sq_limit mE hb f2 g2 r2 (l2 κ))
    have hg : Continuous fun p => (shearField W c d p).1 ^ 2 + (shearField W c d p).2 ^ 2 := (h1.pow 2).add (h2.pow 2)
    have tR : Tendsto (fun x : BodyMesh Ω mat (isComposite s₀.materials) =>
        ruleSum (centred x.1.1 x.1.2.1) (fun _ p => (shearField W c d p).1 ^ 2 + (shearField W c d p).2 ^ 2)
          - wInt (centred x.1.1 x.1.2.1) (fun _ p => (shearField W c d p).1 ^ 2 + (shearField W c d p).2 ^ 2))
        (fineFilter Ω mat (isComposite s₀.materials) κ) (𝓝 0) := fine_tendsto.2 fun ε hε => by
      obtain ⟨δ, hδ, h⟩ := ruleSum_cont hn hg κ hε
      refine ⟨δ, hδ, fun x hx => ?_⟩
      rw [sub_zero]
      exact h _ _ (solved_nice h₀ x.2.1) (fineMesh_shift hx _ _)
    have t := tE.add tR
    rw [add_zero] at t
    have i1 : Integrable (fun p => scaled E 1 G1 (fun p => -(shearField W c d p).1) p * (G1 p + -(shearField W c d p).1)) (volume.restrict R) :=
      mul_int (scaled_memLp mE hb g1 r1 1) (g1.add r1)
    have i2 : Integrable (fun p => scaled E 1 G2 (fun p => -(shearField W c d p).2) p * (G2 p + -(shearField W c d p).2)) (volume.restrict R) :=
      mul_int (scaled_memLp mE hb g2 r2 1) (g2.add r2)
    rw [← integral_add i1 i2] at t
    have e : (∫ p in R, scaled E 1 G1 (fun p => -(shearField W c d p).1) p * (G1 p + -(shearField W c d p).1)
          + scaled E 1 G2 (fun p => -(shearField W c d p).2) p * (G2 p + -(shearField W c d p).2))
        = W.deltaS ^ 2 * ∫ p in R, (scaled E (1 / W.deltaS) G1 (fun p => -(shearField W c d p).1) p ^ 2
          + scaled E (1 / W.deltaS) G2 (fun p => -(shearField W c d p).2) p ^ 2) / E p := by
      rw [← integral_const_mul]
      refine integral_congr_ae ?_
      filter_upwards [hpos] with p hp
      simp only [scaled]
      field_simp
    rw [e] at t
    refine t.congr fun x => ?_
    have hx := solved_nice h₀ x.2.1
    rw [eW x, kappa_split hx.proper W (hq x).field (hf x).field c d]
    congr 1
    have j1 : Integrable (fun p => scaled E 1 (F1 x) (fun p => -(shearField W c d p).1) p * (F1 x p + -(shearField W c d p).1)) (volume.restrict R) :=
      mul_int (scaled_memLp mE hb (f1 x) r1 1) ((f1 x).add r1)
    have j2 : Integrable (fun p => scaled E 1 (F2 x) (fun p => -(shearField W c d p).2) p * (F2 x p + -(shearField W c d p).2)) (volume.restrict R) :=
      mul_int (scaled_memLp mE hb (f2 x) r2 1) ((f2 x).add r2)
    rw [← integral_add j1 j2, shearEnergy, wInt_glue hx (F := fun p => (F1 x p - (shearField W c d p).1) ^ 2 + (F2 x p - (shearField W c d p).2) ^ 2)
      (fun t ht => by
        obtain ⟨-, q1, q2⟩ := field_cont (hq x).field ht
        obtain ⟨-, k1, k2⟩ := field_cont (hf x).field ht
        fun_prop) (fun t ht => by
        filter_upwards [s1 x t ht, s2 x t ht] with p p1 p2 hp
        obtain ⟨a1, a2⟩ := d_comb ((hq x).field t ht).1 ((hf x).field t ht).1 c d p
        rw [p1 hp, p2 hp, a1, a2]), hn.region_eq hx]
    refine integral_congr_ae (ae_of_all _ fun p => ?_)
    simp only [scaled, hE]
    ring
  · have hg : Continuous fun p : ℝ × ℝ => p.1 * (shearField W c d p).2 - p.2 * (shearField W c d p).1 :=
      (continuous_fst.mul h2).sub (continuous_snd.mul h1)
    have t := ((((lf κ _ continuous_fst).2.sub (lf κ _ continuous_snd).1).sub
      (tendsto_const_nhds (x := wInt (centred s₀ r₀) fun _ p => p.1 * (shearField W c d p).2 - p.2 * (shearField W c d p).1))).const_mul (1 / W.deltaS))
    have x1 : MemLp (fun p : ℝ × ℝ => p.1) 2 (volume.restrict R) := memLp_cont continuous_fst _
    have x2 : MemLp (fun p : ℝ × ℝ => p.2) 2 (volume.restrict R) := memLp_cont continuous_snd _
    have i1 : Integrable (fun p => E p * p.1 * G2 p) (volume.restrict R) := weighted_int mE hb x1 g2
    have i2 : Integrable (fun p => E p * p.2 * G1 p) (volume.restrict R) := weighted_int mE hb x2 g1
    have i3 : Integrable (fun p => E p * (p.1 * (shearField W c d p).2 - p.2 * (shearField W c d p).1)) (volume.restrict R) := by
      have := weighted_int mE hb (memLp_cont hg _) (memLp_cont (continuous_const (y := (1 : ℝ))) (centred s₀ r₀))
      simpa using this
    have e : 1 / W.deltaS * ((∫ p in R, E p * p.1 * G2 p) - (∫ p in R, E p * p.2 * G1 p)
          - wInt (centred s₀ r₀) fun _ p => p.1 * (shearField W c d p).2 - p.2 * (shearField W c d p).1)
        = ∫ p in R, p.1 * scaled E (1 / W.deltaS) G2 (fun p => -(shearField W c d p).2) p
          - p.2 * scaled E (1 / W.deltaS) G1 (fun p => -(shearField W c d p).1) p := by
      have g3 : wInt (centred s₀ r₀) (fun _ p => p.1 * (shearField W c d p).2 - p.2 * (shearField W c d p).1)
          = ∫ p in R, E p * (p.1 * (shearField W c d p).2 - p.2 * (shearField W c d p).1) :=
        wInt_glue hn (fun _ _ => hg) (fun _ _ => ae_of_all _ fun p _ => rfl)
      have i12 : Integrable (fun p => E p * p.1 * G2 p - E p * p.2 * G1 p) (volume.restrict R) := i1.sub i2
      rw [g3, ← integral_sub i1 i2, ← integral_sub i12 i3, ← integral_const_mul]
      refine integral_congr_ae (ae_of_all _ fun p => ?_)
      simp only [scaled, hE]
      ring
    rw [← e]
    refine t.congr fun x => ?_
    have k := dir_torque x.2.1 (by rw [eW x]; exact hds) (hq x).field (hf x).field c d
    rw [eW x, wInt_const h₀ x.2.1 hg] at k
    rw [k]
    field_simp

theorem centred_moved (s : Section) (r : GeomResults) : Moved (region s.elements) (region (centred s r)) (r.cx, r.cy) :=
  moved_of (isClosed_region _).measurableSet fun p => by
    change _ ↔ p - (r.cx, r.cy) ∈ region (shifted s.elements r.cx r.cy)
    rw [region_shift]
    simp

/-- Saint-Venant's problem of flexure has a solution. -/
theorem dir_solution (h₀ : SolvedMesh Ω mat s₀ r₀ w₀) (hcon : IsPreconnected (interior (region s₀.elements))) {κ : ℝ}
    (hfine : ∀ δ > 0, ∃ (s : Section) (r : GeomResults) (w : WarpResults s.numNodes), SolvedMesh Ω mat s r w ∧
      (isComposite s.materials ↔ isComposite s₀.materials) ∧ FineMesh s.elements δ κ)
    (hν : isComposite s₀.materials → r₀.nuEff ≠ -1) (c d : ℝ) : ∃ τ : ℝ × ℝ → ℝ × ℝ, SquareInt (region s₀.elements) τ ∧
      SaintVenantFlexure (region s₀.elements) (fun p => (mat p).elasticModulus) (r₀.cx, r₀.cy) (warpIn s₀.materials r₀).nu
      ((c * r₀.cent.ixxC - d * r₀.cent.ixyC) / (r₀.cent.ixxC * r₀.cent.iyyC - r₀.cent.ixyC ^ 2))
      ((d * r₀.cent.iyyC - c * r₀.cent.ixyC) / (r₀.cent.ixxC * r₀.cent.iyyC - r₀.cent.ixyC ^ 2)) (c, d) τ := by
  obtain ⟨σ, hσ, hf, -⟩ := dir_limit h₀ hcon hν c d
  have hne : (fineFilter Ω mat (isComposite s₀.materials) κ).NeBot := (fineFilter_basis κ).neBot_iff.2 fun {δ} hδ => by
    obtain ⟨s, r, w, h1, h2, h3⟩ := hfine δ hδ
    exact ⟨⟨⟨s, r, w⟩, h1, h2⟩, h3⟩
  exact ⟨_, (centred_moved s₀ r₀).square hσ, (centred_moved s₀ r₀).flexure (hf κ hne).1⟩

/-- The limit of the shear coefficients in a direction is the energy of Saint-Venant's stresses. -/
theorem kappa_energy (h₀ : SolvedMesh Ω mat s₀ r₀ w₀) (hcon : IsPreconnected (interior (region s₀.elements))) {κ : ℝ}
    (hfine : ∀ δ > 0, ∃ (s : Section) (r : GeomResults) (w : WarpResults s.numNodes), SolvedMesh Ω mat s r w ∧
      (isComposite s.materials ↔ isComposite s₀.materials) ∧ FineMesh s.elements δ κ)
    (hν : isComposite s₀.materials → r₀.nuEff ≠ -1) {c d : ℝ} {τ : ℝ × ℝ → ℝ × ℝ} (hτ : SquareInt (region s₀.elements) τ)
    (h : SaintVenantFlexure (region s₀.elements) (fun p => (mat p).elasticModulus) (r₀.cx, r₀.cy) (warpIn s₀.materials r₀).nu
      ((c * r₀.cent.ixxC - d * r₀.cent.ixyC) / (r₀.cent.ixxC * r₀.cent.iyyC - r₀.cent.ixyC ^ 2))
      ((d * r₀.cent.iyyC - c * r₀.cent.ixyC) / (r₀.cent.ixxC * r₀.cent.iyyC - r₀.cent.ixyC ^ 2)) (c, d) τ) :
    ∀ κ, Tendsto (fun x : BodyMesh Ω mat (isComposite s₀.materials) => kappaIn (centred x.1.1 x.1.2.1) (warpIn x.1.1.materials x.1.2.1)
      x.1.2.2.psi x.1.2.2.phiS c d) (fineFilter Ω mat (isComposite s₀.materials) κ)
      (𝓝 ((warpIn s₀.materials r₀).deltaS ^ 2 * ∫ p in region s₀.elements, ((τ p).1 ^ 2 + (τ p).2 ^ 2) / (mat p).elasticModulus)) := by
  obtain ⟨σ, hσ, hf, lim⟩ := dir_limit h₀ hcon hν c d
  replace lim := fun κ => (lim κ).1
  have hne : (fineFilter Ω mat (isComposite s₀.materials) κ).NeBot := (fineFilter_basis κ).neBot_iff.2 fun {δ} hδ => by
    obtain ⟨s, r, w, h1, h2, h3⟩ := hfine δ hδ
    exact ⟨⟨⟨s, r, w⟩, h1, h2⟩, h3⟩
  obtain ⟨hfl, -⟩ := hf κ hne
  have mv := centred_moved s₀ r₀
  have hds := deltaS_ne h₀ hν
  have hνe : 1 + (warpIn s₀.materials r₀).nu ≠ 0 := fun h => hds (by rw [WarpIn.deltaS, h]; ring)
  obtain ⟨_, _, _, _, _, sv⟩ := limit_fields h₀ hcon
  have sq := (sv κ hne).2
  have ae := flexure_unique (body_stiff h₀) (fun v hv => (sq v hv).2) hνe (mv.square hσ) hτ (mv.flexure hfl) h
  have eI : (∫ p in region (centred s₀ r₀), ((σ p).1 ^ 2 + (σ p).2 ^ 2) / (matFrom mat r₀ p).elasticModulus)
      = ∫ p in region s₀.elements, ((τ p).1 ^ 2 + (τ p).2 ^ 2) / (mat p).elasticModulus := by
    rw [← mv.int]
    refine integral_congr_ae ?_
    filter_upwards [ae] with p hp
    simp only [matFrom, sub_add_cancel, hp]
  rwa [eI] at lim

/-- **C105** For a connected body of any materials with arbitrarily fine meshes of bounded aspect, let `τ` be the shear stresses of Saint-Venant's
theory for a unit shear force in one of the four directions of the shear areas (along `x`, along `y`, along the principal axes).  Then the
shear areas in this direction that the code reports on fine meshes tend to `1 / ∫ (τ_zx² + τ_zy²) / E`. -/
theorem C105_energy (h₀ : SolvedMesh Ω mat s₀ r₀ w₀) (hcon : IsPreconnected (interior (region s₀.elements))) {κ : ℝ}
    (hfine : ∀ δ > 0, ∃ (s : Section) (r : GeomResults) (w : WarpResults s.numNodes), SolvedMesh Ω mat s r w ∧
      (isComposite s.materials ↔ isComposite s₀.materials) ∧ FineMesh s.elements δ κ)
    (hν : isComposite s₀.materials → r₀.nuEff ≠ -1) (i : Fin 4) {c d : ℝ} (hcd : fourDirs r₀.cent.phi i = (c, d)) {τ : ℝ × ℝ → ℝ × ℝ}
    (hτ : SquareInt (region s₀.elements) τ)
    (h : SaintVenantFlexure (region s₀.elements) (fun p => (mat p).elasticModulus) (r₀.cx, r₀.cy) (warpIn s₀.materials r₀).nu
      ((c * r₀.cent.ixxC - d * r₀.cent.ixyC) / (r₀.cent.ixxC * r₀.cent.iyyC - r₀.cent.ixyC ^ 2))
      ((d * r₀.cent.iyyC - c * r₀.cent.ixyC) / (r₀.cent.ixxC * r₀.cent.iyyC - r₀.cent.ixyC ^ 2)) (c, d) τ) :
    0 < (∫ p in region s₀.elements, ((τ p).1 ^ 2 + (τ p).2 ^ 2) / (mat p).elasticModulus) ∧
    MeshLimit Ω mat (isComposite s₀.materials) (fun _ _ w => fourAreas w i)
      (1 / ∫ p in region s₀.elements, ((τ p).1 ^ 2 + (τ p).2 ^ 2) / (mat p).elasticModulus) := by
  have lim := kappa_energy h₀ hcon hfine hν hτ h
  have hne : (fineFilter Ω mat (isComposite s₀.materials) κ).NeBot := (fineFilter_basis κ).neBot_iff.2 fun {δ} hδ => by
    obtain ⟨s, r, w, h1, h2, h3⟩ := hfine δ hδ
    exact ⟨⟨⟨s, r, w⟩, h1, h2⟩, h3⟩
  have hds := deltaS_ne h₀ hν
  set I := ∫ p in region s₀.elements, ((τ p).1 ^ 2 + (τ p).2 ^ 2) / (mat p).elasticModulus with hI
  have hcd0 : c ≠ 0 ∨ d ≠ 0 := by
    have := fourDirs_ne r₀.cent.phi i
    rwa [hcd] at this
  obtain ⟨L, hL, hl⟩ := kappa_limit h₀ hcon hν hcd0
  have eL : L = (warpIn s₀.materials r₀).deltaS ^ 2 * I := tendsto_nhds_unique (hl κ) (lim κ)
  have hIp : 0 < I := by
    rw [eL] at hL
    exact (mul_pos_iff_of_pos_left (by positivity)).1 hL
  refine ⟨hIp, meshLimit_iff.2 fun κ' => ?_⟩
  have t := (tendsto_const_nhds (x := (warpIn s₀.materials r₀).deltaS ^ 2)).div (lim κ') (eL ▸ hL).ne'
  have e1 : (warpIn s₀.materials r₀).deltaS ^ 2 / ((warpIn s₀.materials r₀).deltaS ^ 2 * I) = 1 / I := by field_simp
  rw [e1] at t
  refine t.congr fun x => ?_
  have hw := solved_warpIn h₀ x.2.1 x.2.2
  have hp : (warpIn x.1.1.materials x.1.2.1).phi = r₀.cent.phi := congrArg WarpIn.phi hw
  rw [areas_kappa x.2.1 i, hp, hcd]
  simp only [Pi.div_apply, hw]

end

/-! ### Layered rectangles -/

section
variable {x0 y0 b d lo hi : ℝ} {e : ℝ → ℝ} {mat : ℝ × ℝ → Material}

/-- The energies of the stresses of beam theory. -/
theorem layered_energies (hb : 0 < b) (hd : 0 < d) (he : Tame e lo hi) :
    (∫ p in Ioo x0 (x0 + b) ×ˢ Ioo y0 (y0 + d), (alongShear e y0 (y0 + d) b (x0 + b / 2) p ^ 2 + 0 ^ 2) / e p.2)
      = 1 / (5 / 6 * (b * ∫ η in y0..y0 + d, e η)) ∧
    (∫ p in Ioo x0 (x0 + b) ×ˢ Ioo y0 (y0 + d), (0 ^ 2 + acrossShear e y0 (y0 + d) b p.2 ^ 2) / e p.2)
      = b * ∫ y in y0..y0 + d, acrossShear e y0 (y0 + d) b y ^ 2 / e y := by
  have hy : y0 ≤ y0 + d := by linarith
  have hQ := int_tame_pos he (show y0 < y0 + d by linarith)
  have vol : ∫ _ in Ioo x0 (x0 + b), (1 : ℝ) = b := by simp [hb.le]
  constructor
  · have e1 : ∀ p : ℝ × ℝ, (alongShear e y0 (y0 + d) b (x0 + b / 2) p ^ 2 + 0 ^ 2) / e p.2
        = rectShear b b (x0 + b / 2) p.1 ^ 2 * (1 / (∫ η in y0..y0 + d, e η) ^ 2 * e p.2) := fun p => by
      have := (he.pos.trans_le (he.low p.2)).ne'
      simp only [alongShear]
      field_simp
      ring
    simp only [e1]
    have := setIntegral_prod_mul (μ := (volume : Measure ℝ)) (ν := (volume : Measure ℝ)) (fun x => rectShear b b (x0 + b / 2) x ^ 2)
      (fun y => 1 / (∫ η in y0..y0 + d, e η) ^ 2 * e y) (Ioo x0 (x0 + b)) (Ioo y0 (y0 + d))
    rw [← Measure.volume_eq_prod] at this
    rw [this, sq_rectShear hb.ne' hb, integral_const_mul, ← integral_Ioc_eq_integral_Ioo, ← intervalIntegral.integral_of_le hy]
    field_simp
  · have e1 : ∀ p : ℝ × ℝ, (0 ^ 2 + acrossShear e y0 (y0 + d) b p.2 ^ 2) / e p.2
        = 1 * (acrossShear e y0 (y0 + d) b p.2 ^ 2 / e p.2) := fun p => by ring
    simp only [e1]
    have := setIntegral_prod_mul (μ := (volume : Measure ℝ)) (ν := (volume : Measure ℝ)) (fun _ => (1 : ℝ))
      (fun y => acrossShear e y0 (y0 + d) b y ^ 2 / e y) (Ioo x0 (x0 + b)) (Ioo y0 (y0 + d))
    rw [← Measure.volume_eq_prod] at this
    rw [this, vol, intervalIntegral.integral_of_le hy, integral_Ioc_eq_integral_Ioo]

theorem layered_areas (hb : 0 < b) (hd : 0 < d) (he : Tame e lo hi)
    (hmat : ∀ p ∈ Ioo x0 (x0 + b) ×ˢ Ioo y0 (y0 + d), (mat p).elasticModulus = e p.2) {s₀ : Section} {r₀ : GeomResults}
    {w₀ : WarpResults s₀.numNodes} (h₀ : SolvedMesh (Ioo x0 (x0 + b) ×ˢ Ioo y0 (y0 + d)) mat s₀ r₀ w₀)
    (hν : isComposite s₀.materials → r₀.nuEff = 0) :
    MeshLimit (Ioo x0 (x0 + b) ×ˢ Ioo y0 (y0 + d)) mat (isComposite s₀.materials) (fun _ _ w => w.areas.sx)
        (5 / 6 * (b * ∫ η in y0..y0 + d, e η)) ∧
      MeshLimit (Ioo x0 (x0 + b) ×ˢ Ioo y0 (y0 + d)) mat (isComposite s₀.materials) (fun _ _ w => w.areas.sy)
        (1 / (b * ∫ y in y0..y0 + d, acrossShear e y0 (y0 + d) b y ^ 2 / e y)) := by
  have hy : y0 < y0 + d := by linarith
  set Ω := Ioo x0 (x0 + b) ×ˢ Ioo y0 (y0 + d) with hΩ
  have hcon := connected_body h₀ (isOpen_Ioo.prod isOpen_Ioo) (isPreconnected_Ioo.prod isPreconnected_Ioo)
  have key : ∀ κ, (fineFilter Ω mat (isComposite s₀.materials) κ).NeBot →
      MeshLimit Ω mat (isComposite s₀.materials) (fun _ _ w => w.areas.sx) (5 / 6 * (b * ∫ η in y0..y0 + d, e η)) ∧
      MeshLimit Ω mat (isComposite s₀.materials) (fun _ _ w => w.areas.sy)
        (1 / (b * ∫ y in y0..y0 + d, acrossShear e y0 (y0 + d) b y ^ 2 / e y)) := fun κ hne => by
    obtain ⟨_, _, _, _, _, hv⟩ := limit_fields h₀ hcon
    have sq := (hv κ hne).2
    have hR := h₀.mesh.covers
    have nu : (warpIn s₀.materials r₀).nu = 0 := by
      by_cases hcomp : isComposite s₀.materials
      · simp [warpIn, hcomp, hν hcomp]
      · simp [warpIn, hcomp]
    obtain ⟨f1, f2, f6, f4, f5⟩ := layered_facts hb hd he hmat h₀
    have hQ := int_tame_pos he hy
    have hI : 0 < ∫ η in y0..y0 + d, b * (e η * (η - layerAxis e y0 (y0 + d)) ^ 2) := by
      rw [intervalIntegral.integral_const_mul]
      exact mul_pos hb (second_pos he hy)
    have eR : volume.restrict Ω = volume.restrict (region s₀.elements) := (Measure.restrict_congr_set hR).symm
    have hE : ∀ᵐ p ∂volume.restrict (region s₀.elements), e p.2 = (mat p).elasticModulus := by
      rw [← eR]
      exact (ae_restrict_iff' (isOpen_Ioo.prod isOpen_Ioo).measurableSet).2 (ae_of_all _ fun p hp => (hmat p hp).symm)
    have hfine : ∀ δ > 0, ∃ (s : Section) (r : GeomResults) (w : WarpResults s.numNodes), SolvedMesh Ω mat s r w ∧
        (isComposite s.materials ↔ isComposite s₀.materials) ∧ FineMesh s.elements δ κ := fun δ hδ => by
      obtain ⟨x, hx⟩ := (fineFilter_basis κ).neBot_iff.1 hne hδ
      exact ⟨x.1.1, x.1.2.1, x.1.2.2, x.2.1, x.2.2, hx⟩
    have sx : SquareInt (region s₀.elements) fun p => (alongShear e y0 (y0 + d) b (x0 + b / 2) p, 0) :=
      ⟨along_memLp he _ _, memLp_cont continuous_const _⟩
    have sy : SquareInt (region s₀.elements) fun p => (0, acrossShear e y0 (y0 + d) b p.2) :=
      ⟨memLp_cont continuous_const _, memLp_cont ((across_cont he hy b).comp continuous_snd) _⟩
    have hν' : isComposite s₀.materials → r₀.nuEff ≠ -1 := fun h => by rw [hν h]; norm_num
    have kx := flexure_congr hE (flexure_along (c := layerAxis e y0 (y0 + d)) hR hb hd he sq)
    have ky := flexure_congr hE (flexure_across hR hb hd he sq)
    obtain ⟨g1, g2⟩ := layered_energies (x0 := x0) (y0 := y0) hb hd he
    have swap : ∀ g : ℝ × ℝ → ℝ, (∫ p in region s₀.elements, g p / (mat p).elasticModulus) = ∫ p in Ω, g p / e p.2 := fun g => by
      rw [eR]
      refine integral_congr_ae ?_
      filter_upwards [hE] with p hp
      rw [hp]
    have a0 : ∀ I Q : ℝ, 0 < I → 0 < Q →
        (1 * I - 0 * 0) / (I * (b ^ 3 / 12 * Q) - 0 ^ 2) = 1 / (b ^ 3 / 12 * Q) ∧
        (0 * (b ^ 3 / 12 * Q) - 1 * 0) / (I * (b ^ 3 / 12 * Q) - 0 ^ 2) = 0 ∧ (0 * I - 1 * 0) / (I * (b ^ 3 / 12 * Q) - 0 ^ 2) = 0 ∧
        (1 * (b ^ 3 / 12 * Q) - 0 * 0) / (I * (b ^ 3 / 12 * Q) - 0 ^ 2) = 1 / I := fun I Q h1 h2 => by
      refine ⟨by field_simp; ring, by ring, by ring, by field_simp; ring⟩
    constructor
    · have := (C105_energy h₀ hcon hfine hν' 0 (c := 1) (d := 0) rfl sx (by
        rw [nu, f1, f2, f4, f5, f6, (a0 _ _ hI hQ).1, (a0 _ _ hI hQ).2.1]
        exact kx)).2
      rw [swap fun p => alongShear e y0 (y0 + d) b (x0 + b / 2) p ^ 2 + 0 ^ 2, g1, one_div_one_div] at this
      exact this
    · have := (C105_energy h₀ hcon hfine hν' 1 (c := 0) (d := 1) rfl sy (by
        rw [nu, f1, f2, f4, f5, f6, (a0 _ _ hI hQ).2.2.1, (a0 _ _ hI hQ).2.2.2]
        exact ky)).2
      rw [swap fun p => 0 ^ 2 + acrossShear e y0 (y0 + d) b p.2 ^ 2, g2] at this
      exact this
  constructor <;>
  · intro κ ε hε
    by_cases hne : (fineFilter Ω mat (isComposite s₀.materials) κ).NeBot
    · first | exact (key κ hne).1 κ ε hε | exact (key κ hne).2 κ ε hε
    · rw [(fineFilter_basis κ).neBot_iff] at hne
      push Not at hne
      obtain ⟨δ, hδ, h1⟩ := hne
      refine ⟨δ, hδ, fun s r w hs hcs hfs => ?_⟩
      have : (⟨⟨s, r, w⟩, hs, hcs⟩ : BodyMesh Ω mat (isComposite s₀.materials)) ∈ (∅ : Set _) := h1 ▸ hfs
      exact this.elim

/-- **C105** for a rectangle `b × d` whose modulus `e y` depends on the height only, where Poisson's ratio has no effect: on fine meshes of
bounded aspect the shear area along the layers comes close to `5/6` of the axial rigidity, and the one across them to that of the shear
stresses `S / (I b)` of beam theory, `1 / (b ∫ (S / (I b))² / e)`. -/
theorem C105_layered (x0 y0 : ℝ) {b d : ℝ} (hb : 0 < b) (hd : 0 < d) {e : ℝ → ℝ} {lo hi : ℝ} (he : Tame e lo hi) {mat : ℝ × ℝ → Material}
    (hmat : ∀ p ∈ Ioo x0 (x0 + b) ×ˢ Ioo y0 (y0 + d), (mat p).elasticModulus = e p.2) (κ : ℝ) {ε : ℝ}
    (hε : 0 < ε) : ∃ δ > 0, ∀ (s : Section) (r : GeomResults) (w : WarpResults s.numNodes),
      SolvedMesh (Ioo x0 (x0 + b) ×ˢ Ioo y0 (y0 + d)) mat s r w → (isComposite s.materials → r.nuEff = 0) →
      FineMesh s.elements δ κ → |w.areas.sx - 5 / 6 * (b * ∫ η in y0..y0 + d, e η)| ≤ ε ∧
        |w.areas.sy - 1 / (b * ∫ y in y0..y0 + d, acrossShear e y0 (y0 + d) b y ^ 2 / e y)| ≤ ε := by
  have one : ∀ c : Prop, ∃ δ > 0, ∀ (s : Section) (r : GeomResults) (w : WarpResults s.numNodes),
      SolvedMesh (Ioo x0 (x0 + b) ×ˢ Ioo y0 (y0 + d)) mat s r w → (isComposite s.materials → r.nuEff = 0) →
      (isComposite s.materials ↔ c) → FineMesh s.elements δ κ → |w.areas.sx - 5 / 6 * (b * ∫ η in y0..y0 + d, e η)| ≤ ε ∧
        |w.areas.sy - 1 / (b * ∫ y in y0..y0 + d, acrossShear e y0 (y0 + d) b y ^ 2 / e y)| ≤ ε := fun c => by
    by_cases hex : ∃ (s : Section) (r : GeomResults) (w : WarpResults s.numNodes),
        SolvedMesh (Ioo x0 (x0 + b) ×ˢ Ioo y0 (y0 + d)) mat s r w ∧ (isComposite s.materials → r.nuEff = 0) ∧
        (isComposite s.materials ↔ c)
    · obtain ⟨s₀, r₀, w₀, h₀, hν, hc⟩ := hex
      obtain ⟨k1, k2⟩ := layered_areas hb hd he hmat h₀ hν
      obtain ⟨δ, hδ, j1⟩ := k1 κ ε hε
      obtain ⟨δ', hδ', j2⟩ := k2 κ ε hε
      exact ⟨min δ δ', lt_min hδ hδ', fun s r w h1 _ h3 h4 =>
        ⟨j1 s r w h1 (h3.trans hc.symm) (fineMesh_mono h4 (min_le_left _ _)), j2 s r w h1 (h3.trans hc.symm) (fineMesh_mono h4 (min_le_right _ _))⟩⟩
    · exact ⟨1, one_pos, fun s r w h1 h2 h3 => (hex ⟨s, r, w, h1, h2, h3⟩).elim⟩
  obtain ⟨δ, hδ, k⟩ := one True
  obtain ⟨δ', hδ', k'⟩ := one False
  refine ⟨min δ δ', lt_min hδ hδ', fun s r w h1 h2 h3 => ?_⟩
  by_cases hc : isComposite s.materials
  · exact k s r w h1 h2 (iff_true_intro hc) (fineMesh_mono h3 (min_le_left _ _))
  · exact k' s r w h1 h2 (iff_false_intro hc) (fineMesh_mono h3 (min_le_right _ _))

end

end SP
