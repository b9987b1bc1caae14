import Verif.Props.SlabEnergy

/-!
# C105: the mixed shear area

The stresses of Saint-Venant's theory can be superposed, so the energy of the stresses of a force along `x` on the strains of a force along
`y` is the limit of the mixed shear coefficient.
-/

namespace SP

open Spec MeasureTheory Set Topology Filter

section
variable {n : ℕ} {els : List (Tri6 n)}

/-- Displacements can be superposed. -/
theorem displacement_add {R : Set (ℝ × ℝ)} {v w : ℝ × ℝ → ℝ} (hv : Displacement R v) (hw : Displacement R w) : Displacement R fun p => v p + w p := by
  obtain ⟨⟨G, hG⟩, h1⟩ := hv
  obtain ⟨⟨H, hH⟩, h2⟩ := hw
  refine ⟨⟨G + H, fun a b hab => ?_⟩, ?_⟩
  · have e : v b + w b - (v a + w a) = (v b - v a) + (w b - w a) := by ring
    rw [e, add_mul]
    exact (abs_add_le _ _).trans (add_le_add (hG a b hab) (hH a b hab))
  · filter_upwards [h1, h2] with p p1 p2 hp
    exact (p1 hp).add (p2 hp)

theorem compatible_add {R : Set (ℝ × ℝ)} (hR : MeasurableSet R) {g h : ℝ × ℝ → ℝ × ℝ} (hg : Compatible R g) (hh : Compatible R h) :
    Compatible R fun p => g p + h p := by
  intro ε hε
  obtain ⟨v, v1, v2, v3⟩ := hg (ε / 4) (by positivity)
  obtain ⟨w, w1, w2, w3⟩ := hh (ε / 4) (by positivity)
  have ae : ∀ᵐ p ∂volume.restrict R, dX (fun p => v p + w p) p = dX v p + dX w p ∧ dY (fun p => v p + w p) p = dY v p + dY w p := by
    refine (ae_restrict_iff' hR).2 ?_
    filter_upwards [v1.differentiable, w1.differentiable] with p p1 p2 hp
    have d : DifferentiableAt ℝ (fun p => v p + w p) p := (p1 hp).add (p2 hp)
    have hf : fderiv ℝ (fun p => v p + w p) p = fderiv ℝ v p + fderiv ℝ w p := fderiv_add (p1 hp) (p2 hp)
    rw [dX_at d, dX_at (p1 hp), dX_at (p2 hp), dY_at d, dY_at (p1 hp), dY_at (p2 hp)]
    change fderiv ℝ (fun p => v p + w p) p _ = _ ∧ fderiv ℝ (fun p => v p + w p) p _ = _
    rw [hf]
    exact ⟨rfl, rfl⟩
  have s1 : MemLp (fun p => ((dX v p, dY v p) - g p : ℝ × ℝ).1 + ((dX w p, dY w p) - h p : ℝ × ℝ).1) 2 (volume.restrict R) := v2.1.add w2.1
  have s2 : MemLp (fun p => ((dX v p, dY v p) - g p : ℝ × ℝ).2 + ((dX w p, dY w p) - h p : ℝ × ℝ).2) 2 (volume.restrict R) := v2.2.add w2.2
  refine ⟨_, displacement_add v1 w1, ⟨(memLp_congr_ae ?_).1 s1, (memLp_congr_ae ?_).1 s2⟩, ?_⟩
  · filter_upwards [ae] with p hp
    simp only [hp.1, Prod.fst_sub, Prod.fst_add]
    ring
  · filter_upwards [ae] with p hp
    simp only [hp.2, Prod.snd_sub, Prod.snd_add]
    ring
  · have i : ∀ {f : ℝ × ℝ → ℝ × ℝ}, SquareInt R f → Integrable (fun p => (f p).1 ^ 2 + (f p).2 ^ 2) (volume.restrict R) := fun hf =>
      (memLp_sq_int hf.1).add (memLp_sq_int hf.2)
    have le : sizeSq R (fun p => (dX (fun p => v p + w p) p, dY (fun p => v p + w p) p) - (g p + h p))
        ≤ 2 * sizeSq R (fun p => (dX v p, dY v p) - g p) + 2 * sizeSq R (fun p => (dX w p, dY w p) - h p) := by
      simp only [sizeSq]
      rw [← integral_const_mul, ← integral_const_mul, ← integral_add ((i v2).const_mul 2) ((i w2).const_mul 2)]
      refine integral_mono_of_nonneg (ae_of_all _ fun p => by positivity) (((i v2).const_mul 2).add ((i w2).const_mul 2)) ?_
      filter_upwards [ae] with p hp
      simp only [hp.1, hp.2, Prod.fst_sub, Prod.snd_sub, Prod.fst_add, Prod.snd_add]
      nlinarith [sq_nonneg ((dX v p - (g p).1) - (dX w p - (h p).1)), sq_nonneg ((dY v p - (g p).2) - (dY w p - (h p).2))]
    linarith

/-- Products of square integrable functions over a modulus that stays away from zero are integrable. -/
theorem inv_weighted_int {R : Set (ℝ × ℝ)} {E : ℝ × ℝ → ℝ} (h : Stiff R E) {f g : ℝ × ℝ → ℝ} (hf : MemLp f 2 (volume.restrict R))
    (hg : MemLp g 2 (volume.restrict R)) : Integrable (fun p => f p * g p / E p) (volume.restrict R) := by
  obtain ⟨e, he, hb⟩ := h.lower
  have hinv : AEStronglyMeasurable (fun p => (E p)⁻¹) (volume.restrict R) := h.measurable.aemeasurable.inv.aestronglyMeasurable
  have := (mul_int hf hg).bdd_mul (c := e⁻¹) hinv (by
    filter_upwards [hb] with p hp
    rw [Real.norm_eq_abs, abs_of_pos (inv_pos.2 (he.trans_le hp))]
    exact inv_anti₀ he hp)
  exact this.congr (ae_of_all _ fun p => by simp only; ring)

/-- The stresses of flexure can be superposed. -/
theorem flexure_add {E : ℝ × ℝ → ℝ} {m : ℝ} (hE : AEStronglyMeasurable E (volume.restrict (region els)))
    (hm : ∀ᵐ p ∂volume.restrict (region els), |E p| ≤ m) (sq : GradSquare (region els)) {c V V' : ℝ × ℝ} {ν a b a' b' : ℝ}
    {τ τ' : ℝ × ℝ → ℝ × ℝ} (hτ : SquareInt (region els) τ) (hτ' : SquareInt (region els) τ')
    (h : SaintVenantFlexure (region els) E c ν a b V τ) (h' : SaintVenantFlexure (region els) E c ν a' b' V' τ') :
    SaintVenantFlexure (region els) E c ν (a + a') (b + b') (V + V') fun p => τ p + τ' p := by
  have fin : IsFiniteMeasure (volume.restrict (region els)) :=
    ⟨by rw [Measure.restrict_apply_univ]; exact (region_compact els).measure_lt_top⟩
  refine ⟨fun v hv => ?_, ⟨?_, ?_⟩, ?_⟩
  · obtain ⟨v0, v1, v2⟩ := sq v hv
    have i1 : ∀ {τ : ℝ × ℝ → ℝ × ℝ}, SquareInt (region els) τ →
        Integrable (fun p => (τ p).1 * dX v p + (τ p).2 * dY v p) (volume.restrict (region els)) := fun hτ =>
      (mul_int hτ.1 v1).add (mul_int hτ.2 v2)
    have i2 : ∀ a b : ℝ, Integrable (fun p => E p * (a * (p.1 - c.1) + b * (p.2 - c.2)) * v p) (volume.restrict (region els)) := fun a b =>
      weighted_int hE hm (memLp_cont (g := fun p => a * (p.1 - c.1) + b * (p.2 - c.2)) (by fun_prop) els) v0
    have e1 := h.equilibrium v hv
    have e2 := h'.equilibrium v hv
    have e3 := integral_add (i1 hτ) (i1 hτ')
    have e4 := integral_add (i2 a b) (i2 a' b')
    rw [e1, e2] at e3
    refine Eq.trans ?_ (e3.trans (e4.symm.trans ?_))
    · exact integral_congr_ae (ae_of_all _ fun p => by simp only [Prod.fst_add, Prod.snd_add]; ring)
    · exact integral_congr_ae (ae_of_all _ fun p => by simp only; ring)
  · have := integral_add (hτ.1.integrable one_le_two) (hτ'.1.integrable one_le_two)
    rw [h.resultant.1, h'.resultant.1] at this
    exact this
  · have := integral_add (hτ.2.integrable one_le_two) (hτ'.2.integrable one_le_two)
    rw [h.resultant.2, h'.resultant.2] at this
    exact this
  · have := compatible_add (isClosed_region els).measurableSet h.compatible h'.compatible
    convert this using 2 with p
    refine Prod.ext ?_ ?_ <;> simp only [Prod.fst_add, Prod.snd_add] <;> ring

end

section
variable {Ω : Set (ℝ × ℝ)} {mat : ℝ × ℝ → Material} {s₀ : Section} {r₀ : GeomResults} {w₀ : WarpResults s₀.numNodes}

/-- **C105** (mixed).  With the stresses `τx` and `τy` of Saint-Venant's theory for unit shear forces along `x` and along `y`, the reciprocal of
the mixed shear area tends to `∫ (τx · τy) / E`: the stresses of one force at work on the strains of the other. -/
theorem C105_mixed (h₀ : SolvedMesh Ω mat s₀ r₀ w₀) (hcon : IsPreconnected (interior (region s₀.elements))) {κ : ℝ}
    (hfine : ∀ δ > 0, ∃ (s : Section) (r : GeomResults) (w : WarpResults s.numNodes), SolvedMesh Ω mat s r w ∧
      (isComposite s.materials ↔ isComposite s₀.materials) ∧ FineMesh s.elements δ κ)
    (hν : isComposite s₀.materials → r₀.nuEff ≠ -1) {τx τy : ℝ × ℝ → ℝ × ℝ}
    (sx : SquareInt (region s₀.elements) τx) (sy : SquareInt (region s₀.elements) τy)
    (hx : SaintVenantFlexure (region s₀.elements) (fun p => (mat p).elasticModulus) (r₀.cx, r₀.cy) (warpIn s₀.materials r₀).nu
      (r₀.cent.ixxC / (r₀.cent.ixxC * r₀.cent.iyyC - r₀.cent.ixyC ^ 2))
      (-r₀.cent.ixyC / (r₀.cent.ixxC * r₀.cent.iyyC - r₀.cent.ixyC ^ 2)) (1, 0) τx)
    (hy : SaintVenantFlexure (region s₀.elements) (fun p => (mat p).elasticModulus) (r₀.cx, r₀.cy) (warpIn s₀.materials r₀).nu
      (-r₀.cent.ixyC / (r₀.cent.ixxC * r₀.cent.iyyC - r₀.cent.ixyC ^ 2))
      (r₀.cent.iyyC / (r₀.cent.ixxC * r₀.cent.iyyC - r₀.cent.ixyC ^ 2)) (0, 1) τy) :
    MeshLimit Ω mat (isComposite s₀.materials) (fun _ _ w => 1 / w.areas.sxy)
      (∫ p in region s₀.elements, ((τx p).1 * (τy p).1 + (τx p).2 * (τy p).2) / (mat p).elasticModulus) := by
  have hne : (fineFilter Ω mat (isComposite s₀.materials) κ).NeBot := (fineFilter_basis κ).neBot_iff.2 fun {δ} hδ => by
    obtain ⟨s, r, w, h1, h2, h3⟩ := hfine δ hδ
    exact ⟨⟨⟨s, r, w⟩, h1, h2⟩, h3⟩
  have hds := deltaS_ne h₀ hν
  obtain ⟨_, _, _, _, _, sv⟩ := limit_fields h₀ hcon
  have sq := (sv κ hne).2
  set R := region s₀.elements with hR
  set E : ℝ × ℝ → ℝ := fun p => (mat p).elasticModulus with hE
  have st := body_stiff h₀
  obtain ⟨m, hm⟩ : ∃ m, ∀ᵐ p ∂volume.restrict R, |E p| ≤ m := by
    obtain ⟨m, hm⟩ := modulus_bounded (solved_nice h₀ h₀)
    refine ⟨m, ?_⟩
    have := (centred_moved s₀ r₀).preserving.quasiMeasurePreserving.ae hm
    filter_upwards [this] with p hp
    simpa [matFrom] using hp
  have sxy : SquareInt R fun p => τx p + τy p := ⟨sx.1.add sy.1, sx.2.add sy.2⟩
  have hxy := flexure_add st.1 hm sq sx sy hx hy
  have k1 := kappa_energy h₀ hcon hfine hν (c := 1) (d := 0) sx (by simpa using hx)
  have k2 := kappa_energy h₀ hcon hfine hν (c := 0) (d := 1) sy (by simpa using hy)
  have k3 := kappa_energy h₀ hcon hfine hν (c := 1) (d := 1) sxy (by
    convert hxy using 1
    · ring
    · ring
    · simp)
  have hI : ∀ {f g : ℝ × ℝ → ℝ}, MemLp f 2 (volume.restrict R) → MemLp g 2 (volume.restrict R) →
      Integrable (fun p => f p * g p / E p) (volume.restrict R) := fun hf hg => inv_weighted_int st hf hg
  have e : (∫ p in R, ((τx p + τy p).1 ^ 2 + (τx p + τy p).2 ^ 2) / E p)
      = (∫ p in R, ((τx p).1 ^ 2 + (τx p).2 ^ 2) / E p) + (∫ p in R, ((τy p).1 ^ 2 + (τy p).2 ^ 2) / E p)
        + 2 * ∫ p in R, ((τx p).1 * (τy p).1 + (τx p).2 * (τy p).2) / E p := by
    have ix := (hI sx.1 sx.1).add (hI sx.2 sx.2)
    have iy := (hI sy.1 sy.1).add (hI sy.2 sy.2)
    have ixy := (hI sx.1 sy.1).add (hI sx.2 sy.2)
    have a1 := integral_add (ix.add iy) (ixy.const_mul 2)
    have a2 := integral_add ix iy
    rw [integral_const_mul] at a1
    simp only [Pi.add_apply] at a1 a2
    rw [a2] at a1
    refine Eq.trans (integral_congr_ae (ae_of_all _ fun p => ?_)) (a1.trans ?_)
    · simp only [Prod.fst_add, Prod.snd_add]
      ring
    · congr 1
      · congr 1 <;> exact integral_congr_ae (ae_of_all _ fun p => by simp only; ring)
      · congr 1
        exact integral_congr_ae (ae_of_all _ fun p => by simp only; ring)
  refine meshLimit_iff.2 fun κ => ?_
  have lim := ((((k3 κ).sub (k1 κ)).sub (k2 κ)).div_const 2).div_const ((warpIn s₀.materials r₀).deltaS ^ 2)
  rw [e] at lim
  have el : ∀ D A B C : ℝ, D ≠ 0 → (D ^ 2 * (A + B + 2 * C) - D ^ 2 * A - D ^ 2 * B) / 2 / D ^ 2 = C := fun D A B C hD => by
    field_simp
    ring
  rw [el _ _ _ _ hds] at lim
  refine Tendsto.congr (fun x => ?_) lim
  obtain ⟨sv, ty, hw⟩ := x.2.1.warp
  obtain ⟨-, -, -, -, -, -, -, ha, -⟩ := warping_ok hw
  rw [ha, ← solved_warpIn h₀ x.2.1 x.2.2]
  simp only [kappaIn, shearAreas, one_div_div, centred]
  ring

end

variable {m0 m1 : MatObj}

/-- **C105** (mixed) on a slab of two materials: stresses of Saint-Venant's theory for unit shear forces along `x` and along `y` exist, and
their mutual energy is the limit of `1 / sxy`.  So the hypotheses of `C105_mixed` are met. -/
theorem C105_slab_mixed {b d : ℝ} (hb : 0 < b) (hd : 0 < d) (h0 : 0 < m0.val.elasticModulus) (h1 : 0 < m1.val.elasticModulus)
    (n0 : -1 < m0.val.poissonsRatio) (n1 : -1 < m1.val.poissonsRatio) :
    ∃ (s₀ : Section) (r₀ : GeomResults) (w₀ : WarpResults s₀.numNodes), Section.init (slabGeom 1 (b / (2 * 1 : ℕ)) (d / (2 * 1 : ℕ)) m0 m1) = .ok s₀ ∧
      s₀.geometricAnalysis = .ok r₀ ∧ s₀.warping exactSolvers .direct r₀ = .ok w₀ ∧
      ∃ τx τy : ℝ × ℝ → ℝ × ℝ, SquareInt (region s₀.elements) τx ∧ SquareInt (region s₀.elements) τy ∧
        SaintVenantFlexure (region s₀.elements) (fun p => (slabMaterial d m0.val m1.val p).elasticModulus) (r₀.cx, r₀.cy) (warpIn s₀.materials r₀).nu
          (r₀.cent.ixxC / (r₀.cent.ixxC * r₀.cent.iyyC - r₀.cent.ixyC ^ 2))
          (-r₀.cent.ixyC / (r₀.cent.ixxC * r₀.cent.iyyC - r₀.cent.ixyC ^ 2)) (1, 0) τx ∧
        SaintVenantFlexure (region s₀.elements) (fun p => (slabMaterial d m0.val m1.val p).elasticModulus) (r₀.cx, r₀.cy) (warpIn s₀.materials r₀).nu
          (-r₀.cent.ixyC / (r₀.cent.ixxC * r₀.cent.iyyC - r₀.cent.ixyC ^ 2))
          (r₀.cent.iyyC / (r₀.cent.ixxC * r₀.cent.iyyC - r₀.cent.ixyC ^ 2)) (0, 1) τy ∧
        MeshLimit (Ioo (0 : ℝ) (0 + b) ×ˢ Ioo (0 : ℝ) (0 + d)) (slabMaterial d m0.val m1.val) (isComposite s₀.materials) (fun _ _ w => 1 / w.areas.sxy)
          (∫ p in region s₀.elements, ((τx p).1 * (τy p).1 + (τx p).2 * (τy p).2) / (slabMaterial d m0.val m1.val p).elasticModulus) := by
  obtain ⟨s₀, r₀, w₀, i1, hc₀, i2, i3, h₀, hu₀, -⟩ := slab_solved (m0 := m0) (m1 := m1) hb hd h0 h1 one_pos
  have hcon := connected_body h₀ (isOpen_Ioo.prod isOpen_Ioo) (isPreconnected_Ioo.prod isPreconnected_Ioo)
  have hnu : isComposite s₀.materials → r₀.nuEff ≠ -1 := fun _ => nuEff_ne h₀.geom h₀.physical fun t ht => by
    rcases hu₀ t ht with h | h <;> rw [h] <;> assumption
  have fine : ∀ δ > 0, ∃ (s : Section) (r : GeomResults) (w : WarpResults s.numNodes),
      SolvedMesh (Ioo (0 : ℝ) (0 + b) ×ˢ Ioo (0 : ℝ) (0 + d)) (slabMaterial d m0.val m1.val) s r w ∧
      (isComposite s.materials ↔ isComposite s₀.materials) ∧ FineMesh s.elements δ ((b ^ 2 + d ^ 2) / (b * d)) := fun δ hδ => by
    obtain ⟨K, hK0, hK⟩ := grid_small (b := b) (d := d) hδ
    obtain ⟨s, r, w, -, j2, -, -, j4, -, j6⟩ := slab_solved (m0 := m0) (m1 := m1) hb hd h0 h1 hK0
    exact ⟨s, r, w, j4, by rw [j2, hc₀], fineMesh_mono j6 (hK (2 * K) (by omega))⟩
  obtain ⟨τx, x1, x2⟩ := dir_solution h₀ hcon fine hnu 1 0
  obtain ⟨τy, y1, y2⟩ := dir_solution h₀ hcon fine hnu 0 1
  simp only [one_mul, zero_mul, sub_zero, zero_sub] at x2 y2
  exact ⟨s₀, r₀, w₀, i1, i2, i3, τx, τy, x1, y1, x2, y2, C105_mixed h₀ hcon fine hnu x1 y1 x2 y2⟩

/-- Concrete on steel. -/
example := C105_slab_mixed (m0 := ⟨1, ⟨"steel", 200000, 3 / 10, 500, 1, "grey"⟩⟩) (m1 := ⟨2, ⟨"concrete", 30000, 1 / 5, 30, 2, "grey"⟩⟩) (b := 200)
  (d := 100) (by norm_num) (by norm_num) (by norm_num) (by norm_num) (by norm_num) (by norm_num)

end SP
