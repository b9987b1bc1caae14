import Verif.Props.ForceCentre

/-!
# C106: the shear centre of a layered rectangle

Without an effect of Poisson's ratio the shear centre of a rectangle made of horizontal layers tends to its elastic centroid.
-/

namespace SP

open Spec MeasureTheory Set Topology Filter

/-- It suffices to find the limit where there are fine meshes. -/
theorem meshLimit_of_fine {Ω : Set (ℝ × ℝ)} {mat : ℝ × ℝ → Material} {c : Prop} {f : ∀ s : Section, GeomResults → WarpResults s.numNodes → ℝ} {l : ℝ}
    (h : ∀ κ, (fineFilter Ω mat c κ).NeBot → MeshLimit Ω mat c f l) : MeshLimit Ω mat c f l := by
  intro κ ε hε
  by_cases hne : (fineFilter Ω mat c κ).NeBot
  · exact h κ hne κ ε hε
  · rw [(fineFilter_basis κ).neBot_iff] at hne
    push Not at hne
    obtain ⟨δ, hδ, h1⟩ := hne
    refine ⟨δ, hδ, fun s r w hs hcs hfs => ?_⟩
    have : (⟨⟨s, r, w⟩, hs, hcs⟩ : BodyMesh Ω mat c) ∈ (∅ : Set _) := h1 ▸ hfs
    exact this.elim

section
variable {x0 y0 b d lo hi : ℝ} {e : ℝ → ℝ} {mat : ℝ × ℝ → Material}

/-- The stresses of beam theory have no torque about the centroid. -/
theorem layered_torques (hb : 0 < b) (hd : 0 < d) (he : Tame e lo hi) :
    (∫ p in Ioo x0 (x0 + b) ×ˢ Ioo y0 (y0 + d), (p.1 - (x0 + b / 2)) * 0
      - (p.2 - layerAxis e y0 (y0 + d)) * alongShear e y0 (y0 + d) b (x0 + b / 2) p) = 0 ∧
    (∫ p in Ioo x0 (x0 + b) ×ˢ Ioo y0 (y0 + d), (p.1 - (x0 + b / 2)) * acrossShear e y0 (y0 + d) b p.2
      - (p.2 - layerAxis e y0 (y0 + d)) * 0) = 0 := by
  have hy : y0 < y0 + d := by linarith
  have hx : x0 ≤ x0 + b := by linarith
  constructor
  · have e1 : ∀ p : ℝ × ℝ, (p.1 - (x0 + b / 2)) * 0 - (p.2 - layerAxis e y0 (y0 + d)) * alongShear e y0 (y0 + d) b (x0 + b / 2) p
        = rectShear b b (x0 + b / 2) p.1 * (-(1 / ∫ η in y0..y0 + d, e η) * (e p.2 * (p.2 - layerAxis e y0 (y0 + d)))) := fun p => by
      simp only [alongShear]
      ring
    simp only [e1]
    have := setIntegral_prod_mul (μ := (volume : Measure ℝ)) (ν := (volume : Measure ℝ)) (fun x => rectShear b b (x0 + b / 2) x)
      (fun y => -(1 / ∫ η in y0..y0 + d, e η) * (e y * (y - layerAxis e y0 (y0 + d)))) (Ioo x0 (x0 + b)) (Ioo y0 (y0 + d))
    rw [← Measure.volume_eq_prod] at this
    rw [this, integral_const_mul, ← integral_Ioc_eq_integral_Ioo (f := fun y => e y * (y - layerAxis e y0 (y0 + d))),
      ← intervalIntegral.integral_of_le hy.le, axis_zero he hy]
    ring
  · have e1 : ∀ p : ℝ × ℝ, (p.1 - (x0 + b / 2)) * acrossShear e y0 (y0 + d) b p.2 - (p.2 - layerAxis e y0 (y0 + d)) * 0
        = (p.1 - (x0 + b / 2)) * acrossShear e y0 (y0 + d) b p.2 := fun p => by ring
    simp only [e1]
    have := setIntegral_prod_mul (μ := (volume : Measure ℝ)) (ν := (volume : Measure ℝ)) (fun x => x - (x0 + b / 2))
      (fun y => acrossShear e y0 (y0 + d) b y) (Ioo x0 (x0 + b)) (Ioo y0 (y0 + d))
    rw [← Measure.volume_eq_prod] at this
    have z : ∫ x in Ioo x0 (x0 + b), (x - (x0 + b / 2)) = 0 := by
      rw [← integral_Ioc_eq_integral_Ioo, ← intervalIntegral.integral_of_le hx, intervalIntegral.integral_sub (by simp) (by simp)]
      simp only [integral_id, intervalIntegral.integral_const, smul_eq_mul]
      ring
    rw [this, z, zero_mul]

theorem layered_centre (hb : 0 < b) (hd : 0 < d) (he : Tame e lo hi)
    (hmat : ∀ p ∈ Ioo x0 (x0 + b) ×ˢ Ioo y0 (y0 + d), (mat p).elasticModulus = e p.2) {s₀ : Section} {r₀ : GeomResults}
    {w₀ : WarpResults s₀.numNodes} (h₀ : SolvedMesh (Ioo x0 (x0 + b) ×ˢ Ioo y0 (y0 + d)) mat s₀ r₀ w₀)
    (hν : isComposite s₀.materials → r₀.nuEff = 0) :
    MeshLimit (Ioo x0 (x0 + b) ×ˢ Ioo y0 (y0 + d)) mat (isComposite s₀.materials) (fun _ r w => w.sc.xSe + r.cx) (x0 + b / 2) ∧
      MeshLimit (Ioo x0 (x0 + b) ×ˢ Ioo y0 (y0 + d)) mat (isComposite s₀.materials) (fun _ r w => w.sc.ySe + r.cy)
        (layerAxis e y0 (y0 + d)) := by
  have hy : y0 < y0 + d := by linarith
  set Ω := Ioo x0 (x0 + b) ×ˢ Ioo y0 (y0 + d) with hΩ
  have hcon := connected_body h₀ (isOpen_Ioo.prod isOpen_Ioo) (isPreconnected_Ioo.prod isPreconnected_Ioo)
  have key : ∀ κ, (fineFilter Ω mat (isComposite s₀.materials) κ).NeBot →
      MeshLimit Ω mat (isComposite s₀.materials) (fun _ r w => w.sc.xSe + r.cx) (x0 + b / 2) ∧
      MeshLimit Ω mat (isComposite s₀.materials) (fun _ r w => w.sc.ySe + r.cy) (layerAxis e y0 (y0 + d)) := fun κ hne => by
    obtain ⟨_, _, _, _, _, hv⟩ := limit_fields h₀ hcon
    have sq := (hv κ hne).2
    have hR := h₀.mesh.covers
    have nu : (warpIn s₀.materials r₀).nu = 0 := by
      by_cases hcomp : isComposite s₀.materials
      · simp [warpIn, hcomp, hν hcomp]
      · simp [warpIn, hcomp]
    obtain ⟨f1, f2, f6, f4, f5⟩ := layered_facts hb hd he hmat h₀
    have hQ := int_tame_pos he hy
    have hI : 0 < ∫ η in y0..y0 + d, b * (e η * (η - layerAxis e y0 (y0 + d)) ^ 2) := by
      rw [intervalIntegral.integral_const_mul]
      exact mul_pos hb (second_pos he hy)
    have eR : volume.restrict Ω = volume.restrict (region s₀.elements) := (Measure.restrict_congr_set hR).symm
    have hE : ∀ᵐ p ∂volume.restrict (region s₀.elements), e p.2 = (mat p).elasticModulus := by
      rw [← eR]
      exact (ae_restrict_iff' (isOpen_Ioo.prod isOpen_Ioo).measurableSet).2 (ae_of_all _ fun p hp => (hmat p hp).symm)
    have hfine : ∀ δ > 0, ∃ (s : Section) (r : GeomResults) (w : WarpResults s.numNodes), SolvedMesh Ω mat s r w ∧
        (isComposite s.materials ↔ isComposite s₀.materials) ∧ FineMesh s.elements δ κ := fun δ hδ => by
      obtain ⟨x, hx⟩ := (fineFilter_basis κ).neBot_iff.1 hne hδ
      exact ⟨x.1.1, x.1.2.1, x.1.2.2, x.2.1, x.2.2, hx⟩
    have sx : SquareInt (region s₀.elements) fun p => (alongShear e y0 (y0 + d) b (x0 + b / 2) p, 0) :=
      ⟨along_memLp he _ _, memLp_cont continuous_const _⟩
    have sy : SquareInt (region s₀.elements) fun p => (0, acrossShear e y0 (y0 + d) b p.2) :=
      ⟨memLp_cont continuous_const _, memLp_cont ((across_cont he hy b).comp continuous_snd) _⟩
    have hν' : isComposite s₀.materials → r₀.nuEff ≠ -1 := fun h => by rw [hν h]; norm_num
    have kx := flexure_congr hE (flexure_along (c := layerAxis e y0 (y0 + d)) hR hb hd he sq)
    have ky := flexure_congr hE (flexure_across hR hb hd he sq)
    obtain ⟨g1, g2⟩ := layered_torques (x0 := x0) (y0 := y0) hb hd he
    have a0 : ∀ I Q : ℝ, 0 < I → 0 < Q →
        I / (I * (b ^ 3 / 12 * Q) - 0 ^ 2) = 1 / (b ^ 3 / 12 * Q) ∧ -0 / (I * (b ^ 3 / 12 * Q) - 0 ^ 2) = 0 ∧
        (b ^ 3 / 12 * Q) / (I * (b ^ 3 / 12 * Q) - 0 ^ 2) = 1 / I := fun I Q h1 h2 => by
      refine ⟨by field_simp; ring, by ring, by field_simp; ring⟩
    refine C106_only_point h₀ hcon hfine hν' sx sy ?_ ?_ ?_ ?_
    · rw [nu, f1, f2, f4, f5, f6, (a0 _ _ hI hQ).1, (a0 _ _ hI hQ).2.1]
      exact kx
    · rw [nu, f1, f2, f4, f5, f6, (a0 _ _ hI hQ).2.1, (a0 _ _ hI hQ).2.2]
      exact ky
    · rw [← eR]
      exact g1
    · rw [← eR]
      exact g2
  exact ⟨meshLimit_of_fine fun κ hne => (key κ hne).1, meshLimit_of_fine fun κ hne => (key κ hne).2⟩

/-- **C106** for a rectangle `b × d` whose modulus `e y` depends on the height only, where Poisson's ratio has no effect: on fine meshes of
bounded aspect, which need not be symmetric, the shear centre that `get_sc` returns comes close to the elastic centroid: the middle of the
width, and the height at which the first moment of the modulus vanishes. -/
theorem C106_layered (x0 y0 : ℝ) {b d : ℝ} (hb : 0 < b) (hd : 0 < d) {e : ℝ → ℝ} {lo hi : ℝ} (he : Tame e lo hi) {mat : ℝ × ℝ → Material}
    (hmat : ∀ p ∈ Ioo x0 (x0 + b) ×ˢ Ioo y0 (y0 + d), (mat p).elasticModulus = e p.2) (κ : ℝ) {ε : ℝ}
    (hε : 0 < ε) : ∃ δ > 0, ∀ (s : Section) (r : GeomResults) (w : WarpResults s.numNodes),
      SolvedMesh (Ioo x0 (x0 + b) ×ˢ Ioo y0 (y0 + d)) mat s r w → (isComposite s.materials → r.nuEff = 0) →
      FineMesh s.elements δ κ → |w.sc.xSe + r.cx - (x0 + b / 2)| ≤ ε ∧ |w.sc.ySe + r.cy - layerAxis e y0 (y0 + d)| ≤ ε := by
  have one : ∀ c : Prop, ∃ δ > 0, ∀ (s : Section) (r : GeomResults) (w : WarpResults s.numNodes),
      SolvedMesh (Ioo x0 (x0 + b) ×ˢ Ioo y0 (y0 + d)) mat s r w → (isComposite s.materials → r.nuEff = 0) →
      (isComposite s.materials ↔ c) → FineMesh s.elements δ κ →
      |w.sc.xSe + r.cx - (x0 + b / 2)| ≤ ε ∧ |w.sc.ySe + r.cy - layerAxis e y0 (y0 + d)| ≤ ε := fun c => by
    by_cases hex : ∃ (s : Section) (r : GeomResults) (w : WarpResults s.numNodes),
        SolvedMesh (Ioo x0 (x0 + b) ×ˢ Ioo y0 (y0 + d)) mat s r w ∧ (isComposite s.materials → r.nuEff = 0) ∧
        (isComposite s.materials ↔ c)
    · obtain ⟨s₀, r₀, w₀, h₀, hν, hc⟩ := hex
      obtain ⟨k1, k2⟩ := layered_centre hb hd he hmat h₀ hν
      obtain ⟨δ, hδ, j1⟩ := k1 κ ε hε
      obtain ⟨δ', hδ', j2⟩ := k2 κ ε hε
      exact ⟨min δ δ', lt_min hδ hδ', fun s r w h1 _ h3 h4 =>
        ⟨j1 s r w h1 (h3.trans hc.symm) (fineMesh_mono h4 (min_le_left _ _)), j2 s r w h1 (h3.trans hc.symm) (fineMesh_mono h4 (min_le_right _ _))⟩⟩
    · exact ⟨1, one_pos, fun s r w h1 h2 h3 => (hex ⟨s, r, w, h1, h2, h3⟩).elim⟩
  obtain ⟨δ, hδ, k⟩ := one True
  obtain ⟨δ', hδ', k'⟩ := one False
  refine ⟨min δ δ', lt_min hδ hδ', fun s r w h1 h2 h3 => ?_⟩
  by_cases hc : isComposite s.materials
  · exact k s r w h1 h2 (iff_true_intro hc) (fineMesh_mono h3 (min_le_left _ _))
  · exact k' s r w h1 h2 (iff_false_intro hc) (fineMesh_mono h3 (min_le_right _ _))

end

variable {m0 m1 : MatObj}

/-- **C106** through the whole of the analysis: a slab of two layers of equal height, of any two materials without Poisson's ratio.  For all
`k` from some `K` on the shear centre reported on the grid of `2 k` by `2 k` cells is near the elastic centroid. -/
theorem C106_slab_centre {b d : ℝ} (hb : 0 < b) (hd : 0 < d) (h0 : 0 < m0.val.elasticModulus) (h1 : 0 < m1.val.elasticModulus)
    (n0 : m0.val.poissonsRatio = 0) (n1 : m1.val.poissonsRatio = 0) {ε : ℝ} (hε : 0 < ε) :
    ∃ K : ℕ, ∀ k ≥ K, ∃ (s : Section) (r : GeomResults) (w : WarpResults s.numNodes),
        Section.init (slabGeom k (b / (2 * k : ℕ)) (d / (2 * k : ℕ)) m0 m1) = .ok s ∧
        s.geometricAnalysis = .ok r ∧ s.warping exactSolvers .direct r = .ok w ∧
        |w.sc.xSe + r.cx - (0 + b / 2)| ≤ ε ∧ |w.sc.ySe + r.cy - layerAxis (slabModulus d m0.val m1.val) 0 (0 + d)| ≤ ε := by
  have hmat : ∀ p ∈ Ioo (0 : ℝ) (0 + b) ×ˢ Ioo (0 : ℝ) (0 + d), (slabMaterial d m0.val m1.val p).elasticModulus
      = slabModulus d m0.val m1.val p.2 := fun p _ => by
    unfold slabMaterial slabModulus
    split <;> rfl
  obtain ⟨δ, hδ, key⟩ := C106_layered 0 0 hb hd (slab_tame h0 h1) hmat ((b ^ 2 + d ^ 2) / (b * d)) hε
  obtain ⟨K, hK0, hK⟩ := grid_small (b := b) (d := d) hδ
  refine ⟨K, fun k hk => ?_⟩
  obtain ⟨s, r, w, p1, -, p2, p3, p4, p5, p6⟩ := slab_solved (m0 := m0) (m1 := m1) hb hd h0 h1 (lt_of_lt_of_le hK0 hk)
  have hnu : r.nuEff = 0 := nuEff_zero p2 p4.physical fun t ht => by rcases p5 t ht with h | h <;> rw [h] <;> assumption
  obtain ⟨a1, a2⟩ := key s r w p4 (fun _ => hnu) (fineMesh_mono p6 (hK (2 * k) (by omega)))
  exact ⟨s, r, w, p1, p2, p3, a1, a2⟩

/-- Concrete on timber. -/
example := C106_slab_centre (m0 := ⟨1, ⟨"timber", 10000, 0, 20, 1, "brown"⟩⟩) (m1 := ⟨2, ⟨"concrete", 30000, 0, 30, 2, "grey"⟩⟩) (b := 200) (d := 100)
  (by norm_num) (by norm_num) (by norm_num) (by norm_num) rfl rfl (ε := 1 / 1000) (by norm_num)

end SP
