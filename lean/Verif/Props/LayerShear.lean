import Verif.Lemmas.LayerShear
import Verif.Props.ShearParabola

/-!
# C104: the shear stresses of a layered rectangle

The shear stresses that the code reports for a rectangle made of horizontal layers, such as a sandwich or a composite slab, converge in
mean square to those of beam theory.
-/

namespace SP

open Spec MeasureTheory Set Topology Filter

variable {x0 y0 b d m M : ℝ} {e : ℝ → ℝ} {mat : ℝ × ℝ → Material}

theorem layered_slices (hd : 0 < d) (hmat : ∀ p ∈ Ioo x0 (x0 + b) ×ˢ Ioo y0 (y0 + d), (mat p).elasticModulus = e p.2)
    {s : Section} (h : MeshOf (Ioo x0 (x0 + b) ×ˢ Ioo y0 (y0 + d)) mat s.elements) :
    Slices s.elements (x0 + b / 2) y0 (y0 + d) (fun _ => b / 2) e := by
  refine ⟨by linarith, by rw [← rect_sliced]; exact h.covers, fun t ht => ?_⟩
  filter_upwards [h.material t ht, h.covers] with p h1 h2 hp
  have : p ∈ Ioo x0 (x0 + b) ×ˢ Ioo y0 (y0 + d) := h2.mp ⟨t, ht, hp⟩
  rw [← h1 hp, hmat p this]

theorem layered_facts (hb : 0 < b) (hd : 0 < d) (he : Tame e m M)
    (hmat : ∀ p ∈ Ioo x0 (x0 + b) ×ˢ Ioo y0 (y0 + d), (mat p).elasticModulus = e p.2) {s : Section} {r : GeomResults}
    {w : WarpResults s.numNodes} (h : SolvedMesh (Ioo x0 (x0 + b) ×ˢ Ioo y0 (y0 + d)) mat s r w) :
    r.cx = x0 + b / 2 ∧ r.cy = layerAxis e y0 (y0 + d) ∧ r.cent.ixyC = 0 ∧
      r.cent.ixxC = (∫ η in y0..y0 + d, b * (e η * (η - layerAxis e y0 (y0 + d)) ^ 2)) ∧
      r.cent.iyyC = b ^ 3 / 12 * ∫ η in y0..y0 + d, e η := by
  have hy : y0 < y0 + d := by linarith
  obtain ⟨m1, m2, -, m4, m5, m6⟩ := slices_moments h.geom h.physical h.mesh.once (layered_slices hd hmat h.mesh)
    (tame_const (half_pos hb))
  have hcy : r.cy = layerAxis e y0 (y0 + d) := by
    refine axis_unique he hy ?_
    rw [intervalIntegral.integral_mul_const] at m6
    exact (mul_eq_zero.1 m6).resolve_right (half_pos hb).ne'
  refine ⟨m1, hcy, m2, ?_, ?_⟩
  · rw [m4, hcy]
    exact intervalIntegral.integral_congr fun y _ => by ring
  · rw [m5, ← intervalIntegral.integral_const_mul]
    exact intervalIntegral.integral_congr fun y _ => by ring

/-- Materials without Poisson's ratio have an effective one of zero. -/
theorem nuEff_zero {s : Section} {r : GeomResults} (hr : s.geometricAnalysis = .ok r) (hP : Physical s.elements)
    (h : ∀ t ∈ s.elements, t.material.poissonsRatio = 0) : r.nuEff = 0 := by
  obtain ⟨-, h2, h3, -, h5, -⟩ := C13_effective hr hP fun t ht => by rw [h t ht]; norm_num
  obtain ⟨p1, p2, -⟩ := C09_positive hr hP
  have e1 : 2 * (r.gEff * r.sums.area) = r.eEff * r.sums.area := by
    rw [h2, h3, ← List.sum_map_mul_left]
    refine congrArg List.sum (List.map_congr_left fun t ht => ?_)
    rw [h t ht]
    ring
  have hA : r.sums.area ≠ 0 := p1.ne'
  have e2 : 2 * r.gEff = r.eEff := mul_right_cancel₀ hA (by linarith)
  have h0 : r.eEff ≠ 0 := by
    obtain ⟨-, -, -, h1, -⟩ := geom_ok hr
    rw [h1]
    exact div_ne_zero p2.ne' hA
  have : r.eEff * r.nuEff = 0 := by rw [← e2] at h5 ⊢; linarith
  exact (mul_eq_zero.1 this).resolve_left h0

/-- The stresses near those of beam theory, for one mesh and all those that agree with it about being composite. -/
theorem layered_of (hb : 0 < b) (hd : 0 < d) (he : Tame e m M)
    (hmat : ∀ p ∈ Ioo x0 (x0 + b) ×ˢ Ioo y0 (y0 + d), (mat p).elasticModulus = e p.2) {s₀ : Section} {r₀ : GeomResults}
    {w₀ : WarpResults s₀.numNodes} (h₀ : SolvedMesh (Ioo x0 (x0 + b) ×ˢ Ioo y0 (y0 + d)) mat s₀ r₀ w₀)
    (hν : isComposite s₀.materials → r₀.nuEff = 0)
    {a : Actions} (ha : a.mzz = 0) {κ ε : ℝ} (hε : 0 < ε) : ∃ δ > 0, ∀ (s : Section) (r : GeomResults) (w : WarpResults s.numNodes),
      SolvedMesh (Ioo x0 (x0 + b) ×ˢ Ioo y0 (y0 + d)) mat s r w → (isComposite s.materials ↔ isComposite s₀.materials) →
      FineMesh s.elements δ κ → ∃ T, SquareInt (Ioo x0 (x0 + b) ×ˢ Ioo y0 (y0 + d)) T ∧
        (∀ t ∈ s.elements, ∀ᵐ p, p ∈ elemRegion t.coords → T p = reportedShear s r w a t p) ∧
        sizeSq (Ioo x0 (x0 + b) ×ˢ Ioo y0 (y0 + d)) (fun p => T p -
          (a.vx * alongShear e y0 (y0 + d) b (x0 + b / 2) p, a.vy * acrossShear e y0 (y0 + d) b p.2))
          ≤ ε + 1e-19 * sizeSq (Ioo x0 (x0 + b) ×ˢ Ioo y0 (y0 + d)) fun p =>
            (a.vx * alongShear e y0 (y0 + d) b (x0 + b / 2) p, a.vy * acrossShear e y0 (y0 + d) b p.2) := by
  classical
  have hy : y0 < y0 + d := by linarith
  set Ω := Ioo x0 (x0 + b) ×ˢ Ioo y0 (y0 + d) with hΩ
  have hcon := connected_body h₀ (isOpen_Ioo.prod isOpen_Ioo) (isPreconnected_Ioo.prod isPreconnected_Ioo)
  obtain ⟨τM, τx, τy, ⟨iM, ix, iy⟩, hc, hv⟩ := limit_fields h₀ hcon
  by_cases hne : (fineFilter Ω mat (isComposite s₀.materials) κ).NeBot
  · obtain ⟨⟨-, hf⟩, sq⟩ := hv κ hne
    have hR := h₀.mesh.covers
    have nu : (warpIn s₀.materials r₀).nu = 0 := by
      by_cases hcomp : isComposite s₀.materials
      · simp [warpIn, hcomp, hν hcomp]
      · simp [warpIn, hcomp]
    have hds := deltaS_ne h₀ fun hcomp => by
      rw [hν hcomp]
      norm_num
    obtain ⟨hx, hy'⟩ := hf hds
    obtain ⟨f1, f2, f6, f4, f5⟩ := layered_facts hb hd he hmat h₀
    have hQ := int_tame_pos he hy
    have hI : 0 < ∫ η in y0..y0 + d, b * (e η * (η - layerAxis e y0 (y0 + d)) ^ 2) := by
      rw [intervalIntegral.integral_const_mul]
      exact mul_pos hb (second_pos he hy)
    rw [nu, f1, f2, f4, f5, f6] at hx hy'
    set I := ∫ η in y0..y0 + d, b * (e η * (η - layerAxis e y0 (y0 + d)) ^ 2) with hI'
    set Q := ∫ η in y0..y0 + d, e η with hQ'
    have q1 : I / (I * (b ^ 3 / 12 * Q) - 0 ^ 2) = 1 / (b ^ 3 / 12 * Q) := by field_simp; ring
    have q2 : b ^ 3 / 12 * Q / (I * (b ^ 3 / 12 * Q) - 0 ^ 2) = 1 / I := by field_simp; ring
    rw [q1, neg_zero, zero_div] at hx
    rw [q2, neg_zero, zero_div] at hy'
    have eR : volume.restrict Ω = volume.restrict (region s₀.elements) := (Measure.restrict_congr_set hR).symm
    unfold SquareInt at ix iy
    rw [eR] at ix iy
    have hE : ∀ᵐ p ∂volume.restrict (region s₀.elements), e p.2 = (mat p).elasticModulus := by
      rw [← eR]
      exact (ae_restrict_iff' (isOpen_Ioo.prod isOpen_Ioo).measurableSet).2 (ae_of_all _ fun p hp => (hmat p hp).symm)
    have sx : SquareInt (region s₀.elements) fun p => (alongShear e y0 (y0 + d) b (x0 + b / 2) p, 0) :=
      ⟨along_memLp he _ _, memLp_cont continuous_const _⟩
    have sy : SquareInt (region s₀.elements) fun p => (0, acrossShear e y0 (y0 + d) b p.2) :=
      ⟨memLp_cont continuous_const _, memLp_cont ((across_cont he hy b).comp continuous_snd) _⟩
    have ax := flexure_unique (body_stiff h₀) (fun v hv => (sq v hv).2) (by norm_num) ix sx hx
      (flexure_congr hE (flexure_along hR hb hd he sq))
    have ay := flexure_unique (body_stiff h₀) (fun v hv => (sq v hv).2) (by norm_num) iy sy hy'
      (flexure_congr hE (flexure_across hR hb hd he sq))
    have j1 : Integrable (fun p => (τx p).1 ^ 2 + (τx p).2 ^ 2) (volume.restrict (region s₀.elements)) :=
      ix.1.integrable_sq.add ix.2.integrable_sq
    have j2 : Integrable (fun p => (τy p).1 ^ 2 + (τy p).2 ^ 2) (volume.restrict (region s₀.elements)) :=
      iy.1.integrable_sq.add iy.2.integrable_sq
    have e1 : a.vx ^ 2 * sizeSq Ω τx + a.vy ^ 2 * sizeSq Ω τy = sizeSq Ω fun p =>
        (a.vx * alongShear e y0 (y0 + d) b (x0 + b / 2) p, a.vy * acrossShear e y0 (y0 + d) b p.2) := by
      rw [sizeSq, sizeSq, sizeSq, eR, ← integral_const_mul, ← integral_const_mul,
        ← integral_add (j1.const_mul _) (j2.const_mul _)]
      refine integral_congr_ae ?_
      filter_upwards [ax, ay] with p p1 p2
      simp only [p1, p2]
      ring
    obtain ⟨δ, hδ, k⟩ := hc a κ ε hε
    refine ⟨δ, hδ, fun s r w hs hcs hfs => ?_⟩
    obtain ⟨T, t1, t2, t3⟩ := k s r w hs hcs hfs
    refine ⟨T, t1, t2, ?_⟩
    rw [ha, zero_pow two_ne_zero, zero_mul, zero_add, e1] at t3
    refine le_trans (le_of_eq ?_) t3
    rw [sizeSq, sizeSq, eR]
    refine integral_congr_ae ?_
    filter_upwards [ax, ay] with p p1 p2
    simp [superposed, p1, p2, ha]
  · rw [(fineFilter_basis κ).neBot_iff] at hne
    push Not at hne
    obtain ⟨δ, hδ, h1⟩ := hne
    refine ⟨δ, hδ, fun s r w hs hcs hfs => ?_⟩
    have : (⟨⟨s, r, w⟩, hs, hcs⟩ : BodyMesh Ω mat (isComposite s₀.materials)) ∈ (∅ : Set _) := h1 ▸ hfs
    exact this.elim

/-- **C104.**  A rectangle of the width `b` and the height `d` whose modulus `e y` depends on the height only (layers, or a graded material):
if Poisson's ratio has no effect, then on fine meshes of bounded aspect the shear stresses that the code reports for the shear forces `Vx` and
`Vy` are close in mean square to those of beam theory: `Vy S / (I b)` across the layers, and along them the parabola, shared out to the
layers in proportion to their moduli.  The share `1e-19` of the square of the stresses is left by the rounded extrapolation matrix. -/
theorem C104_layered (x0 y0 : ℝ) {b d : ℝ} (hb : 0 < b) (hd : 0 < d) {e : ℝ → ℝ} {lo hi : ℝ} (he : Tame e lo hi) {mat : ℝ × ℝ → Material}
    (hmat : ∀ p ∈ Ioo x0 (x0 + b) ×ˢ Ioo y0 (y0 + d), (mat p).elasticModulus = e p.2) {a : Actions} (ha : a.mzz = 0) (κ : ℝ) {ε : ℝ}
    (hε : 0 < ε) : ∃ δ > 0, ∀ (s : Section) (r : GeomResults) (w : WarpResults s.numNodes),
      SolvedMesh (Ioo x0 (x0 + b) ×ˢ Ioo y0 (y0 + d)) mat s r w → (isComposite s.materials → r.nuEff = 0) →
      FineMesh s.elements δ κ → ∃ T, SquareInt (Ioo x0 (x0 + b) ×ˢ Ioo y0 (y0 + d)) T ∧
        (∀ t ∈ s.elements, ∀ᵐ p, p ∈ elemRegion t.coords → T p = reportedShear s r w a t p) ∧
        sizeSq (Ioo x0 (x0 + b) ×ˢ Ioo y0 (y0 + d)) (fun p => T p -
          (a.vx * alongShear e y0 (y0 + d) b (x0 + b / 2) p, a.vy * acrossShear e y0 (y0 + d) b p.2))
          ≤ ε + 1e-19 * sizeSq (Ioo x0 (x0 + b) ×ˢ Ioo y0 (y0 + d)) fun p =>
            (a.vx * alongShear e y0 (y0 + d) b (x0 + b / 2) p, a.vy * acrossShear e y0 (y0 + d) b p.2) := by
  have one : ∀ c : Prop, ∃ δ > 0, ∀ (s : Section) (r : GeomResults) (w : WarpResults s.numNodes),
      SolvedMesh (Ioo x0 (x0 + b) ×ˢ Ioo y0 (y0 + d)) mat s r w → (isComposite s.materials → r.nuEff = 0) →
      (isComposite s.materials ↔ c) → FineMesh s.elements δ κ → ∃ T, SquareInt (Ioo x0 (x0 + b) ×ˢ Ioo y0 (y0 + d)) T ∧
        (∀ t ∈ s.elements, ∀ᵐ p, p ∈ elemRegion t.coords → T p = reportedShear s r w a t p) ∧
        sizeSq (Ioo x0 (x0 + b) ×ˢ Ioo y0 (y0 + d)) (fun p => T p -
          (a.vx * alongShear e y0 (y0 + d) b (x0 + b / 2) p, a.vy * acrossShear e y0 (y0 + d) b p.2))
          ≤ ε + 1e-19 * sizeSq (Ioo x0 (x0 + b) ×ˢ Ioo y0 (y0 + d)) fun p =>
            (a.vx * alongShear e y0 (y0 + d) b (x0 + b / 2) p, a.vy * acrossShear e y0 (y0 + d) b p.2) := fun c => by
    by_cases hex : ∃ (s : Section) (r : GeomResults) (w : WarpResults s.numNodes),
        SolvedMesh (Ioo x0 (x0 + b) ×ˢ Ioo y0 (y0 + d)) mat s r w ∧ (isComposite s.materials → r.nuEff = 0) ∧
        (isComposite s.materials ↔ c)
    · obtain ⟨s₀, r₀, w₀, h₀, hν, hc⟩ := hex
      obtain ⟨δ, hδ, k⟩ := layered_of hb hd he hmat h₀ hν ha hε
      exact ⟨δ, hδ, fun s r w h1 _ h3 h4 => k s r w h1 (h3.trans hc.symm) h4⟩
    · exact ⟨1, one_pos, fun s r w h1 h2 h3 => (hex ⟨s, r, w, h1, h2, h3⟩).elim⟩
  obtain ⟨δ, hδ, k⟩ := one True
  obtain ⟨δ', hδ', k'⟩ := one False
  refine ⟨min δ δ', lt_min hδ hδ', fun s r w h1 h2 h3 => ?_⟩
  by_cases hc : isComposite s.materials
  · exact k s r w h1 h2 (iff_true_intro hc) (fineMesh_mono h3 (min_le_left _ _))
  · exact k' s r w h1 h2 (iff_false_intro hc) (fineMesh_mono h3 (min_le_right _ _))

end SP
