import Verif.Props.ShearMixed

/-!
# C106: the shear centre and the shear stresses

On fine meshes the shear centre tends to the point about which the stresses of Saint-Venant's theory for a shear force, in any direction, have
no torque.
-/

namespace SP

open Spec MeasureTheory Set Topology Filter

section
variable {Ω : Set (ℝ × ℝ)} {mat : ℝ × ℝ → Material} {s₀ : Section} {r₀ : GeomResults} {w₀ : WarpResults s₀.numNodes}

/-- The torque about the centroid of Saint-Venant's stresses of a shear force is that of the force at the limits of the shear centres. -/
theorem limit_torque (h₀ : SolvedMesh Ω mat s₀ r₀ w₀) (hcon : IsPreconnected (interior (region s₀.elements))) {κ : ℝ}
    (hfine : ∀ δ > 0, ∃ (s : Section) (r : GeomResults) (w : WarpResults s.numNodes), SolvedMesh Ω mat s r w ∧
      (isComposite s.materials ↔ isComposite s₀.materials) ∧ FineMesh s.elements δ κ)
    (hν : isComposite s₀.materials → r₀.nuEff ≠ -1) {c d : ℝ} {τ : ℝ × ℝ → ℝ × ℝ} (hτ : SquareInt (region s₀.elements) τ)
    (h : SaintVenantFlexure (region s₀.elements) (fun p => (mat p).elasticModulus) (r₀.cx, r₀.cy) (warpIn s₀.materials r₀).nu
      ((c * r₀.cent.ixxC - d * r₀.cent.ixyC) / (r₀.cent.ixxC * r₀.cent.iyyC - r₀.cent.ixyC ^ 2))
      ((d * r₀.cent.iyyC - c * r₀.cent.ixyC) / (r₀.cent.ixxC * r₀.cent.iyyC - r₀.cent.ixyC ^ 2)) (c, d) τ) :
    ∀ κ, Tendsto (fun x : BodyMesh Ω mat (isComposite s₀.materials) => d * x.1.2.2.sc.xSe - c * x.1.2.2.sc.ySe)
      (fineFilter Ω mat (isComposite s₀.materials) κ) (𝓝 (∫ p in region s₀.elements, (p.1 - r₀.cx) * (τ p).2 - (p.2 - r₀.cy) * (τ p).1)) := by
  obtain ⟨σ, hσ, hf, lim⟩ := dir_limit h₀ hcon hν c d
  replace lim := fun κ => (lim κ).2
  have hne : (fineFilter Ω mat (isComposite s₀.materials) κ).NeBot := (fineFilter_basis κ).neBot_iff.2 fun {δ} hδ => by
    obtain ⟨s, r, w, h1, h2, h3⟩ := hfine δ hδ
    exact ⟨⟨⟨s, r, w⟩, h1, h2⟩, h3⟩
  obtain ⟨hfl, -⟩ := hf κ hne
  have mv := centred_moved s₀ r₀
  have hds := deltaS_ne h₀ hν
  have hνe : 1 + (warpIn s₀.materials r₀).nu ≠ 0 := fun h => hds (by rw [WarpIn.deltaS, h]; ring)
  obtain ⟨_, _, _, _, _, sv⟩ := limit_fields h₀ hcon
  have sq := (sv κ hne).2
  have ae := flexure_unique (body_stiff h₀) (fun v hv => (sq v hv).2) hνe (mv.square hσ) hτ (mv.flexure hfl) h
  have eI : (∫ p in region (centred s₀ r₀), p.1 * (σ p).2 - p.2 * (σ p).1)
      = ∫ p in region s₀.elements, (p.1 - r₀.cx) * (τ p).2 - (p.2 - r₀.cy) * (τ p).1 := by
    rw [← mv.int]
    refine integral_congr_ae ?_
    filter_upwards [ae] with p hp
    simp only [hp, Prod.fst_sub, Prod.snd_sub]
  rwa [eI] at lim

theorem same_centroid (h₀ : SolvedMesh Ω mat s₀ r₀ w₀) {s : Section} {r : GeomResults} {w : WarpResults s.numNodes} (h : SolvedMesh Ω mat s r w) :
    r.cx = r₀.cx ∧ r.cy = r₀.cy := by
  obtain ⟨-, -, h1, h2, -⟩ := meshOf_geom h.good h₀.good h.mesh h₀.mesh h.geom h₀.geom
  exact ⟨h1, h2⟩

/-- The torque about another point. -/
theorem torque_point {n : ℕ} {els : List (Tri6 n)} {τ : ℝ × ℝ → ℝ × ℝ} (hτ : SquareInt (region els) τ) (cx cy X Y : ℝ) :
    (∫ p in region els, (p.1 - X) * (τ p).2 - (p.2 - Y) * (τ p).1)
      = (∫ p in region els, (p.1 - cx) * (τ p).2 - (p.2 - cy) * (τ p).1) - ((X - cx) * (∫ p in region els, (τ p).2) - (Y - cy) * ∫ p in region els, (τ p).1) := by
  have fin : IsFiniteMeasure (volume.restrict (region els)) :=
    ⟨by rw [Measure.restrict_apply_univ]; exact (region_compact els).measure_lt_top⟩
  have x1 : MemLp (fun p : ℝ × ℝ => p.1 - cx) 2 (volume.restrict (region els)) := memLp_cont (by fun_prop) els
  have x2 : MemLp (fun p : ℝ × ℝ => p.2 - cy) 2 (volume.restrict (region els)) := memLp_cont (by fun_prop) els
  have i0 : Integrable (fun p => (p.1 - cx) * (τ p).2 - (p.2 - cy) * (τ p).1) (volume.restrict (region els)) := (mul_int x1 hτ.2).sub (mul_int x2 hτ.1)
  have i1 : Integrable (fun p => (X - cx) * (τ p).2) (volume.restrict (region els)) := (hτ.2.integrable one_le_two).const_mul _
  have i2 : Integrable (fun p => (Y - cy) * (τ p).1) (volume.restrict (region els)) := (hτ.1.integrable one_le_two).const_mul _
  have i12 : Integrable (fun p => (X - cx) * (τ p).2 - (Y - cy) * (τ p).1) (volume.restrict (region els)) := i1.sub i2
  rw [← integral_const_mul, ← integral_const_mul, ← integral_sub i1 i2, ← integral_sub i0 i12]
  exact integral_congr_ae (ae_of_all _ fun p => by simp only; ring)

/-- **C106** For a connected body of any materials with arbitrarily fine meshes of bounded aspect: the shear centres that `get_sc` reports on
fine meshes tend to a point about which the shear stresses of Saint-Venant's theory, for a shear force of any size and direction, have no
torque. -/
theorem C106_shear_centre (h₀ : SolvedMesh Ω mat s₀ r₀ w₀) (hcon : IsPreconnected (interior (region s₀.elements))) {κ : ℝ}
    (hfine : ∀ δ > 0, ∃ (s : Section) (r : GeomResults) (w : WarpResults s.numNodes), SolvedMesh Ω mat s r w ∧
      (isComposite s.materials ↔ isComposite s₀.materials) ∧ FineMesh s.elements δ κ)
    (hν : isComposite s₀.materials → r₀.nuEff ≠ -1) :
    ∃ X Y, MeshLimit Ω mat (isComposite s₀.materials) (fun _ r w => w.sc.xSe + r.cx) X ∧
      MeshLimit Ω mat (isComposite s₀.materials) (fun _ r w => w.sc.ySe + r.cy) Y ∧
      ∀ (V : ℝ × ℝ) (τ : ℝ × ℝ → ℝ × ℝ), SquareInt (region s₀.elements) τ →
        SaintVenantFlexure (region s₀.elements) (fun p => (mat p).elasticModulus) (r₀.cx, r₀.cy) (warpIn s₀.materials r₀).nu
          ((V.1 * r₀.cent.ixxC - V.2 * r₀.cent.ixyC) / (r₀.cent.ixxC * r₀.cent.iyyC - r₀.cent.ixyC ^ 2))
          ((V.2 * r₀.cent.iyyC - V.1 * r₀.cent.ixyC) / (r₀.cent.ixxC * r₀.cent.iyyC - r₀.cent.ixyC ^ 2)) V τ →
        ∫ p in region s₀.elements, (p.1 - X) * (τ p).2 - (p.2 - Y) * (τ p).1 = 0 := by
  have hne : (fineFilter Ω mat (isComposite s₀.materials) κ).NeBot := (fineFilter_basis κ).neBot_iff.2 fun {δ} hδ => by
    obtain ⟨s, r, w, h1, h2, h3⟩ := hfine δ hδ
    exact ⟨⟨⟨s, r, w⟩, h1, h2⟩, h3⟩
  obtain ⟨lx, kx⟩ := C94_shear_centre h₀ hcon 0
  obtain ⟨ly, ky⟩ := C94_shear_centre h₀ hcon 1
  replace kx : MeshLimit Ω mat (isComposite s₀.materials) (fun _ _ w => w.sc.xSe) lx := kx
  replace ky : MeshLimit Ω mat (isComposite s₀.materials) (fun _ _ w => w.sc.ySe) ly := ky
  rw [meshLimit_iff] at kx ky
  refine ⟨lx + r₀.cx, ly + r₀.cy, meshLimit_iff.2 fun κ => ?_, meshLimit_iff.2 fun κ => ?_, fun V τ hτ h => ?_⟩
  · refine ((kx κ).add_const r₀.cx).congr fun x => ?_
    rw [(same_centroid h₀ x.2.1).1]
  · refine ((ky κ).add_const r₀.cy).congr fun x => ?_
    rw [(same_centroid h₀ x.2.1).2]
  · have e := tendsto_nhds_unique (limit_torque h₀ hcon hfine hν hτ h κ) (((kx κ).const_mul V.2).sub ((ky κ).const_mul V.1))
    rw [torque_point hτ r₀.cx r₀.cy, e, h.resultant.1, h.resultant.2]
    ring

/-- **C106** Any point about which Saint-Venant's stresses of a force along `x` and of one along `y` have no torque is the limit of the shear
centres. -/
theorem C106_only_point (h₀ : SolvedMesh Ω mat s₀ r₀ w₀) (hcon : IsPreconnected (interior (region s₀.elements))) {κ : ℝ}
    (hfine : ∀ δ > 0, ∃ (s : Section) (r : GeomResults) (w : WarpResults s.numNodes), SolvedMesh Ω mat s r w ∧
      (isComposite s.materials ↔ isComposite s₀.materials) ∧ FineMesh s.elements δ κ)
    (hν : isComposite s₀.materials → r₀.nuEff ≠ -1) {τx τy : ℝ × ℝ → ℝ × ℝ}
    (sx : SquareInt (region s₀.elements) τx) (sy : SquareInt (region s₀.elements) τy)
    (hx : SaintVenantFlexure (region s₀.elements) (fun p => (mat p).elasticModulus) (r₀.cx, r₀.cy) (warpIn s₀.materials r₀).nu
      (r₀.cent.ixxC / (r₀.cent.ixxC * r₀.cent.iyyC - r₀.cent.ixyC ^ 2))
      (-r₀.cent.ixyC / (r₀.cent.ixxC * r₀.cent.iyyC - r₀.cent.ixyC ^ 2)) (1, 0) τx)
    (hy : SaintVenantFlexure (region s₀.elements) (fun p => (mat p).elasticModulus) (r₀.cx, r₀.cy) (warpIn s₀.materials r₀).nu
      (-r₀.cent.ixyC / (r₀.cent.ixxC * r₀.cent.iyyC - r₀.cent.ixyC ^ 2))
      (r₀.cent.iyyC / (r₀.cent.ixxC * r₀.cent.iyyC - r₀.cent.ixyC ^ 2)) (0, 1) τy) {X Y : ℝ}
    (tx : ∫ p in region s₀.elements, (p.1 - X) * (τx p).2 - (p.2 - Y) * (τx p).1 = 0)
    (ty : ∫ p in region s₀.elements, (p.1 - X) * (τy p).2 - (p.2 - Y) * (τy p).1 = 0) :
    MeshLimit Ω mat (isComposite s₀.materials) (fun _ r w => w.sc.xSe + r.cx) X ∧
      MeshLimit Ω mat (isComposite s₀.materials) (fun _ r w => w.sc.ySe + r.cy) Y := by
  obtain ⟨X', Y', l1, l2, key⟩ := C106_shear_centre h₀ hcon hfine hν
  have ex := key (1, 0) τx sx (by simpa using hx)
  have ey := key (0, 1) τy sy (by simpa using hy)
  rw [torque_point sx 0 0, hx.resultant.1, hx.resultant.2] at tx ex
  rw [torque_point sy 0 0, hy.resultant.1, hy.resultant.2] at ty ey
  simp only [sub_zero, mul_zero, mul_one, zero_sub] at tx ex ty ey
  have e1 : X = X' := by linarith
  have e2 : Y = Y' := by linarith
  rw [e1, e2]
  exact ⟨l1, l2⟩

end

variable {m0 m1 : MatObj}

/-- **C106** on a slab of two materials: there are Saint-Venant's stresses for forces in all directions, and they have no torque about the
limit of the shear centres. -/
theorem C106_slab {b d : ℝ} (hb : 0 < b) (hd : 0 < d) (h0 : 0 < m0.val.elasticModulus) (h1 : 0 < m1.val.elasticModulus)
    (n0 : -1 < m0.val.poissonsRatio) (n1 : -1 < m1.val.poissonsRatio) :
    ∃ (s₀ : Section) (r₀ : GeomResults) (w₀ : WarpResults s₀.numNodes), Section.init (slabGeom 1 (b / (2 * 1 : ℕ)) (d / (2 * 1 : ℕ)) m0 m1) = .ok s₀ ∧
      s₀.geometricAnalysis = .ok r₀ ∧ s₀.warping exactSolvers .direct r₀ = .ok w₀ ∧
      ∃ X Y, MeshLimit (Ioo (0 : ℝ) (0 + b) ×ˢ Ioo (0 : ℝ) (0 + d)) (slabMaterial d m0.val m1.val) (isComposite s₀.materials)
          (fun _ r w => w.sc.xSe + r.cx) X ∧
        MeshLimit (Ioo (0 : ℝ) (0 + b) ×ˢ Ioo (0 : ℝ) (0 + d)) (slabMaterial d m0.val m1.val) (isComposite s₀.materials)
          (fun _ r w => w.sc.ySe + r.cy) Y ∧
        ∀ V : ℝ × ℝ, ∃ τ : ℝ × ℝ → ℝ × ℝ, SquareInt (region s₀.elements) τ ∧
          SaintVenantFlexure (region s₀.elements) (fun p => (slabMaterial d m0.val m1.val p).elasticModulus) (r₀.cx, r₀.cy) (warpIn s₀.materials r₀).nu
            ((V.1 * r₀.cent.ixxC - V.2 * r₀.cent.ixyC) / (r₀.cent.ixxC * r₀.cent.iyyC - r₀.cent.ixyC ^ 2))
            ((V.2 * r₀.cent.iyyC - V.1 * r₀.cent.ixyC) / (r₀.cent.ixxC * r₀.cent.iyyC - r₀.cent.ixyC ^ 2)) V τ ∧
          ∫ p in region s₀.elements, (p.1 - X) * (τ p).2 - (p.2 - Y) * (τ p).1 = 0 := by
  obtain ⟨s₀, r₀, w₀, i1, hc₀, i2, i3, h₀, hu₀, -⟩ := slab_solved (m0 := m0) (m1 := m1) hb hd h0 h1 one_pos
  have hcon := connected_body h₀ (isOpen_Ioo.prod isOpen_Ioo) (isPreconnected_Ioo.prod isPreconnected_Ioo)
  have hnu : isComposite s₀.materials → r₀.nuEff ≠ -1 := fun _ => nuEff_ne h₀.geom h₀.physical fun t ht => by
    rcases hu₀ t ht with h | h <;> rw [h] <;> assumption
  have fine : ∀ δ > 0, ∃ (s : Section) (r : GeomResults) (w : WarpResults s.numNodes),
      SolvedMesh (Ioo (0 : ℝ) (0 + b) ×ˢ Ioo (0 : ℝ) (0 + d)) (slabMaterial d m0.val m1.val) s r w ∧
      (isComposite s.materials ↔ isComposite s₀.materials) ∧ FineMesh s.elements δ ((b ^ 2 + d ^ 2) / (b * d)) := fun δ hδ => by
    obtain ⟨K, hK0, hK⟩ := grid_small (b := b) (d := d) hδ
    obtain ⟨s, r, w, -, j2, -, -, j4, -, j6⟩ := slab_solved (m0 := m0) (m1 := m1) hb hd h0 h1 hK0
    exact ⟨s, r, w, j4, by rw [j2, hc₀], fineMesh_mono j6 (hK (2 * K) (by omega))⟩
  obtain ⟨X, Y, l1, l2, key⟩ := C106_shear_centre h₀ hcon fine hnu
  refine ⟨s₀, r₀, w₀, i1, i2, i3, X, Y, l1, l2, fun V => ?_⟩
  obtain ⟨τ, t1, t2⟩ := dir_solution h₀ hcon fine hnu V.1 V.2
  exact ⟨τ, t1, t2, key V τ t1 t2⟩

/-- Concrete on steel. -/
example := C106_slab (m0 := ⟨1, ⟨"steel", 200000, 3 / 10, 500, 1, "grey"⟩⟩) (m1 := ⟨2, ⟨"concrete", 30000, 1 / 5, 30, 2, "grey"⟩⟩) (b := 200)
  (d := 100) (by norm_num) (by norm_num) (by norm_num) (by norm_num) (by norm_num) (by norm_num)

end SP
