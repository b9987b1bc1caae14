import Verif.Lemmas.ShearParabola
import Verif.Props.SaintVenant
import Verif.Props.ConvergeRect

/-!
# C102: the parabola of shear stresses in a rectangle

The shear stresses that the code reports for a rectangle under shear forces converge in mean square to the parabola of beam theory.
-/

namespace SP

open Spec MeasureTheory Set Topology Filter

section
variable {x0 y0 b d : ℝ} {m : Material}

/-- All elements of a mesh of a homogeneous body have its material. -/
theorem same_material {Ω : Set (ℝ × ℝ)} {s : Section} {r : GeomResults} {w : WarpResults s.numNodes}
    (h : SolvedMesh Ω (fun _ => m) s r w) : ∀ t ∈ s.elements, t.material = m := by
  intro t ht
  by_contra hne
  refine volume_elem (h.physical.proper t ht) (measure_mono_null (fun p hp => ?_) (ae_iff.1 (h.mesh.material t ht)))
  exact fun k => hne (k hp).symm

/-- The stresses near the parabola for one mesh and all those that agree with it about being composite. -/
theorem parabola_of (hb : 0 < b) (hd : 0 < d) {s₀ : Section} {r₀ : GeomResults} {w₀ : WarpResults s₀.numNodes}
    (h₀ : SolvedMesh (Ioo x0 (x0 + b) ×ˢ Ioo y0 (y0 + d)) (fun _ => m) s₀ r₀ w₀) (hν : isComposite s₀.materials → m.poissonsRatio = 0)
    {a : Actions} (ha : a.mzz = 0) {κ ε : ℝ} (hε : 0 < ε) : ∃ δ > 0, ∀ (s : Section) (r : GeomResults) (w : WarpResults s.numNodes),
      SolvedMesh (Ioo x0 (x0 + b) ×ˢ Ioo y0 (y0 + d)) (fun _ => m) s r w → (isComposite s.materials ↔ isComposite s₀.materials) →
      FineMesh s.elements δ κ → ∃ T, SquareInt (Ioo x0 (x0 + b) ×ˢ Ioo y0 (y0 + d)) T ∧
        (∀ t ∈ s.elements, ∀ᵐ p, p ∈ elemRegion t.coords → T p = reportedShear s r w a t p) ∧
        sizeSq (Ioo x0 (x0 + b) ×ˢ Ioo y0 (y0 + d)) (fun p => T p -
          (a.vx * rectShear (b * d) b (x0 + b / 2) p.1, a.vy * rectShear (b * d) d (y0 + d / 2) p.2))
          ≤ ε + 1e-19 * (6 / (5 * (b * d)) * (a.vx ^ 2 + a.vy ^ 2)) := by
  classical
  set Ω := Ioo x0 (x0 + b) ×ˢ Ioo y0 (y0 + d) with hΩ
  have hcon := connected_body h₀ (isOpen_Ioo.prod isOpen_Ioo) (isPreconnected_Ioo.prod isPreconnected_Ioo)
  obtain ⟨τM, τx, τy, ⟨iM, ix, iy⟩, hc, hv⟩ := limit_fields h₀ hcon
  by_cases hne : (fineFilter Ω (fun _ => m) (isComposite s₀.materials) κ).NeBot
  · obtain ⟨⟨-, hf⟩, sq⟩ := hv κ hne
    have hm := same_material h₀
    have hR := h₀.mesh.covers
    have he : 0 < m.elasticModulus := by
      obtain ⟨t, ht, -⟩ := rect_sub hR hb hd (show (x0, y0) ∈ _ from ⟨⟨le_rfl, by linarith⟩, ⟨le_rfl, by linarith⟩⟩)
      rw [← hm t ht]
      exact h₀.physical.modulus t ht
    have nu : (warpIn s₀.materials r₀).nu = 0 := by
      by_cases hcomp : isComposite s₀.materials
      · obtain ⟨-, -, -, -, -, -, -, h8⟩ := C13_effective h₀.geom h₀.physical fun t ht => by rw [hm t ht, hν hcomp]; norm_num
        have := (h8 m.elasticModulus m.poissonsRatio fun t ht => by rw [hm t ht]; exact ⟨rfl, rfl⟩).2
        simp [warpIn, hcomp, this, hν hcomp]
      · simp [warpIn, hcomp]
    have hds := deltaS_ne h₀ fun hcomp => by
      have : (warpIn s₀.materials r₀).nu = r₀.nuEff := by simp [warpIn, hcomp]
      rw [← this, nu]
      norm_num
    obtain ⟨hx, hy⟩ := hf hds
    obtain ⟨f1, f2, -, f4, f5, f6⟩ := rect_facts h₀.physical h₀.mesh.once h₀.geom hb hd he hR fun t ht => by rw [hm t ht]
    have d0 : m.elasticModulus * (b * d ^ 3 / 12) * (m.elasticModulus * (d * b ^ 3 / 12)) ≠ 0 := by positivity
    rw [nu, f1, f2, f4, f5, f6] at hx hy
    have q1 : m.elasticModulus * (b * d ^ 3 / 12) / (m.elasticModulus * (b * d ^ 3 / 12) * (m.elasticModulus * (d * b ^ 3 / 12)) - 0 ^ 2)
        = 1 / (m.elasticModulus * (d * b ^ 3 / 12)) := by field_simp; ring
    have q2 : m.elasticModulus * (d * b ^ 3 / 12) / (m.elasticModulus * (b * d ^ 3 / 12) * (m.elasticModulus * (d * b ^ 3 / 12)) - 0 ^ 2)
        = 1 / (m.elasticModulus * (b * d ^ 3 / 12)) := by field_simp; ring
    rw [q1, neg_zero, zero_div] at hx
    rw [q2, neg_zero, zero_div] at hy
    have eR : volume.restrict Ω = volume.restrict (region s₀.elements) := (Measure.restrict_congr_set hR).symm
    unfold SquareInt at ix iy
    rw [eR] at ix iy
    have sx : SquareInt (region s₀.elements) fun p => (rectShear (b * d) b (x0 + b / 2) p.1, 0) :=
      ⟨memLp_cont ((cont_rectShear _ _ _).comp continuous_fst) _, memLp_cont continuous_const _⟩
    have sy : SquareInt (region s₀.elements) fun p => (0, rectShear (b * d) d (y0 + d / 2) p.2) :=
      ⟨memLp_cont continuous_const _, memLp_cont ((cont_rectShear _ _ _).comp continuous_snd) _⟩
    have ax := flexure_unique (body_stiff h₀) (fun v hv => (sq v hv).2) (by norm_num) ix sx hx (flexure_x hR hb hd he sq)
    have ay := flexure_unique (body_stiff h₀) (fun v hv => (sq v hv).2) (by norm_num) iy sy hy (flexure_y hR hb hd he sq)
    obtain ⟨z1, z2⟩ := sizes_rectShear hR hb hd
    have e1 : sizeSq Ω τx = 6 / (5 * (b * d)) := by
      rw [← z1, sizeSq, sizeSq, eR]
      exact integral_congr_ae (ax.mono fun p hp => by simp only [hp])
    have e2 : sizeSq Ω τy = 6 / (5 * (b * d)) := by
      rw [← z2, sizeSq, sizeSq, eR]
      exact integral_congr_ae (ay.mono fun p hp => by simp only [hp])
    obtain ⟨δ, hδ, k⟩ := hc a κ ε hε
    refine ⟨δ, hδ, fun s r w hs hcs hfs => ?_⟩
    obtain ⟨T, t1, t2, t3⟩ := k s r w hs hcs hfs
    refine ⟨T, t1, t2, ?_⟩
    rw [e1, e2, ha] at t3
    refine le_trans (le_of_eq ?_) (t3.trans (le_of_eq (by ring)))
    rw [sizeSq, sizeSq, eR]
    refine integral_congr_ae ?_
    filter_upwards [ax, ay] with p p1 p2
    simp [superposed, p1, p2, ha]
  · rw [(fineFilter_basis κ).neBot_iff] at hne
    push Not at hne
    obtain ⟨δ, hδ, h1⟩ := hne
    refine ⟨δ, hδ, fun s r w hs hcs hfs => ?_⟩
    have : (⟨⟨s, r, w⟩, hs, hcs⟩ : BodyMesh Ω (fun _ => m) (isComposite s₀.materials)) ∈ (∅ : Set _) := h1 ▸ hfs
    exact this.elim

/-- **C102.**  A rectangle `b × d` anywhere in the plane, of one material, with an effective Poisson's ratio of zero: on fine meshes of bounded
aspect the shear stresses that the code reports for the shear forces `Vx` and `Vy` are close in mean square to the parabolas
`3 Vx / (2 A) (1 - (2 x / b)²)` and `3 Vy / (2 A) (1 - (2 y / d)²)` of beam theory, up to the share `1e-19` of the squares that the rounded
extrapolation matrix of the code leaves. -/
theorem C102_parabola (x0 y0 : ℝ) {b d : ℝ} (hb : 0 < b) (hd : 0 < d) (m : Material) {a : Actions} (ha : a.mzz = 0) (κ : ℝ) {ε : ℝ}
    (hε : 0 < ε) : ∃ δ > 0, ∀ (s : Section) (r : GeomResults) (w : WarpResults s.numNodes),
      SolvedMesh (Ioo x0 (x0 + b) ×ˢ Ioo y0 (y0 + d)) (fun _ => m) s r w → (isComposite s.materials → m.poissonsRatio = 0) →
      FineMesh s.elements δ κ → ∃ T, SquareInt (Ioo x0 (x0 + b) ×ˢ Ioo y0 (y0 + d)) T ∧
        (∀ t ∈ s.elements, ∀ᵐ p, p ∈ elemRegion t.coords → T p = reportedShear s r w a t p) ∧
        sizeSq (Ioo x0 (x0 + b) ×ˢ Ioo y0 (y0 + d)) (fun p => T p -
          (a.vx * rectShear (b * d) b (x0 + b / 2) p.1, a.vy * rectShear (b * d) d (y0 + d / 2) p.2))
          ≤ ε + 1e-19 * (6 / (5 * (b * d)) * (a.vx ^ 2 + a.vy ^ 2)) := by
  have one : ∀ c : Prop, ∃ δ > 0, ∀ (s : Section) (r : GeomResults) (w : WarpResults s.numNodes),
      SolvedMesh (Ioo x0 (x0 + b) ×ˢ Ioo y0 (y0 + d)) (fun _ => m) s r w → (isComposite s.materials → m.poissonsRatio = 0) →
      (isComposite s.materials ↔ c) → FineMesh s.elements δ κ → ∃ T, SquareInt (Ioo x0 (x0 + b) ×ˢ Ioo y0 (y0 + d)) T ∧
        (∀ t ∈ s.elements, ∀ᵐ p, p ∈ elemRegion t.coords → T p = reportedShear s r w a t p) ∧
        sizeSq (Ioo x0 (x0 + b) ×ˢ Ioo y0 (y0 + d)) (fun p => T p -
          (a.vx * rectShear (b * d) b (x0 + b / 2) p.1, a.vy * rectShear (b * d) d (y0 + d / 2) p.2))
          ≤ ε + 1e-19 * (6 / (5 * (b * d)) * (a.vx ^ 2 + a.vy ^ 2)) := fun c => by
    by_cases hex : ∃ (s : Section) (r : GeomResults) (w : WarpResults s.numNodes),
        SolvedMesh (Ioo x0 (x0 + b) ×ˢ Ioo y0 (y0 + d)) (fun _ => m) s r w ∧ (isComposite s.materials → m.poissonsRatio = 0) ∧
        (isComposite s.materials ↔ c)
    · obtain ⟨s₀, r₀, w₀, h₀, hν, hc⟩ := hex
      obtain ⟨δ, hδ, k⟩ := parabola_of hb hd h₀ hν ha hε
      exact ⟨δ, hδ, fun s r w h1 _ h3 h4 => k s r w h1 (h3.trans hc.symm) h4⟩
    · exact ⟨1, one_pos, fun s r w h1 h2 h3 => (hex ⟨s, r, w, h1, h2, h3⟩).elim⟩
  obtain ⟨δ, hδ, k⟩ := one True
  obtain ⟨δ', hδ', k'⟩ := one False
  refine ⟨min δ δ', lt_min hδ hδ', fun s r w h1 h2 h3 => ?_⟩
  by_cases hc : isComposite s.materials
  · exact k s r w h1 h2 (iff_true_intro hc) (fineMesh_mono h3 (min_le_left _ _))
  · exact k' s r w h1 h2 (iff_false_intro hc) (fineMesh_mono h3 (min_le_right _ _))

/-- **C102** through the whole of the analysis, on the grids of `k` by `k` cells: for all `k` from some `K` on the stresses are near the
parabola. -/
theorem C102_grid {b d : ℝ} (hb : 0 < b) (hd : 0 < d) (addr : ℕ) {a : Actions} (ha : a.mzz = 0) {ε : ℝ} (hε : 0 < ε) :
    ∃ K : ℕ, ∀ k ≥ K, ∃ (s : Section) (r : GeomResults) (w : WarpResults s.numNodes) (T : ℝ × ℝ → ℝ × ℝ),
        Section.init (gridGeom k (b / k) (d / k) ⟨addr, defaultMaterial⟩) = .ok s ∧
        s.geometricAnalysis = .ok r ∧ s.warping exactSolvers .direct r = .ok w ∧
        (∀ t ∈ s.elements, ∀ᵐ p, p ∈ elemRegion t.coords → T p = reportedShear s r w a t p) ∧
        sizeSq (Ioo (0 : ℝ) (0 + b) ×ˢ Ioo (0 : ℝ) (0 + d)) (fun p => T p -
          (a.vx * rectShear (b * d) b (0 + b / 2) p.1, a.vy * rectShear (b * d) d (0 + d / 2) p.2))
          ≤ ε + 1e-19 * (6 / (5 * (b * d)) * (a.vx ^ 2 + a.vy ^ 2)) := by
  obtain ⟨δ, hδ, key⟩ := C102_parabola 0 0 hb hd defaultMaterial ha ((b ^ 2 + d ^ 2) / (b * d)) hε
  obtain ⟨K, hK0, hK⟩ := grid_small (b := b) (d := d) hδ
  refine ⟨K, fun k hk => ?_⟩
  obtain ⟨s, r, w, h1, h2, h3, h4, h5, -, h7⟩ := grid_solved hb hd addr (lt_of_lt_of_le hK0 hk)
  obtain ⟨T, -, hT, hsz⟩ := key s r w h4 (fun h => (h5 h).elim) (fineMesh_mono h7 (hK k hk))
  exact ⟨s, r, w, T, h1, h2, h3, hT, hsz⟩

end

/-- A shear force of 10 on a rectangle of 200 by 100. -/
example := C102_grid (b := 200) (d := 100) (by norm_num) (by norm_num) 1 (a := ⟨0, 0, 0, 0, 0, 0, 0, 10⟩) rfl (ε := 1 / 1000) (by norm_num)

end SP
