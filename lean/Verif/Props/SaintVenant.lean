import Verif.Props.StressLimitGrid
import Verif.Props.ShearFine
import Verif.Lemmas.VenantUnique

/-!
# C101: the results converge to every solution of Saint-Venant's problem

The stresses of Saint-Venant's theory are unique, so `C101_saint_venant` says that the results of the code converge to any solution of
Saint-Venant's problem, however it was found.  Rectangles of any material meet the hypotheses with meshes that the code builds.
-/

namespace SP

open Spec MeasureTheory Set Topology Filter

section
variable {Ω : Set (ℝ × ℝ)} {mat : ℝ × ℝ → Material} {s₀ : Section} {r₀ : GeomResults} {w₀ : WarpResults s₀.numNodes}

theorem body_stiff (h₀ : SolvedMesh Ω mat s₀ r₀ w₀) : Stiff (region s₀.elements) fun p => (mat p).elasticModulus := by
  refine ⟨(glue_integral h₀.mesh.once (f := fun t _ => t.material.elasticModulus) (fun _ _ => continuous_const)
    fun t ht => (h₀.mesh.material t ht).mono fun p hp hpm => by rw [hp hpm]).1.aestronglyMeasurable, ?_⟩
  obtain ⟨e, he, hmin⟩ := modulus_min s₀.elements h₀.physical.modulus
  refine ⟨e, he, (ae_restrict_iff' (isClosed_region _).measurableSet).2 ?_⟩
  have ae : ∀ᵐ p, ∀ t ∈ s₀.elements, p ∈ elemRegion t.coords → mat p = t.material :=
    (ae_ball_iff (List.finite_toSet s₀.elements).countable).2 h₀.mesh.material
  filter_upwards [ae] with p hp hpm
  obtain ⟨t, ht, hpt⟩ := hpm
  rw [hp t ht hpt]
  exact hmin t ht

theorem stressesConverge_congr {τM τx τy τM' τx' τy' : ℝ × ℝ → ℝ × ℝ} (hM : ∀ᵐ p ∂volume.restrict Ω, τM p = τM' p)
    (hx : ∀ᵐ p ∂volume.restrict Ω, τx p = τx' p) (hy : ∀ᵐ p ∂volume.restrict Ω, τy p = τy' p)
    (h : StressesConverge Ω mat s₀ τM τx τy) : StressesConverge Ω mat s₀ τM' τx' τy' := by
  have sz : ∀ {f f' : ℝ × ℝ → ℝ × ℝ}, (∀ᵐ p ∂volume.restrict Ω, f p = f' p) → sizeSq Ω f = sizeSq Ω f' := fun hf =>
    integral_congr_ae (hf.mono fun p hp => by simp only [hp])
  intro a κ ε hε
  obtain ⟨δ, hδ, k⟩ := h a κ ε hε
  refine ⟨δ, hδ, fun s r w hs hc hf => ?_⟩
  obtain ⟨T, h1, h2, h3⟩ := k s r w hs hc hf
  refine ⟨T, h1, h2, ?_⟩
  rw [← sz hM, ← sz hx, ← sz hy]
  refine (sz ?_).le.trans h3
  filter_upwards [hM, hx, hy] with p p1 p2 p3
  simp only [superposed, p1, p2, p3]

/-- **C101** (every solution).  For a connected body with arbitrarily fine meshes of bounded aspect: whatever solution of Saint-Venant's problems
of torsion (with the rate of twist `θ` for a unit torque) and of flexure is given, the torsion constants of the code on fine meshes tend to
`1 / θ`, and the shear stresses that it reports converge to the superposition of the given stresses. -/
theorem C101_every_solution (h₀ : SolvedMesh Ω mat s₀ r₀ w₀) (hcon : IsPreconnected (interior (region s₀.elements))) {κ : ℝ}
    (hfine : ∀ δ > 0, ∃ (s : Section) (r : GeomResults) (w : WarpResults s.numNodes), SolvedMesh Ω mat s r w ∧
      (isComposite s.materials ↔ isComposite s₀.materials) ∧ FineMesh s.elements δ κ)
    (hν : isComposite s₀.materials → r₀.nuEff ≠ -1) {τM τx τy : ℝ × ℝ → ℝ × ℝ} {θ : ℝ} (sM : SquareInt (region s₀.elements) τM)
    (sx : SquareInt (region s₀.elements) τx) (sy : SquareInt (region s₀.elements) τy)
    (hM : SaintVenantTorsion (region s₀.elements) (fun p => (mat p).elasticModulus) (r₀.cx, r₀.cy) θ τM)
    (hx : SaintVenantFlexure (region s₀.elements) (fun p => (mat p).elasticModulus) (r₀.cx, r₀.cy) (warpIn s₀.materials r₀).nu
      (r₀.cent.ixxC / (r₀.cent.ixxC * r₀.cent.iyyC - r₀.cent.ixyC ^ 2))
      (-r₀.cent.ixyC / (r₀.cent.ixxC * r₀.cent.iyyC - r₀.cent.ixyC ^ 2)) (1, 0) τx)
    (hy : SaintVenantFlexure (region s₀.elements) (fun p => (mat p).elasticModulus) (r₀.cx, r₀.cy) (warpIn s₀.materials r₀).nu
      (-r₀.cent.ixyC / (r₀.cent.ixxC * r₀.cent.iyyC - r₀.cent.ixyC ^ 2))
      (r₀.cent.iyyC / (r₀.cent.ixxC * r₀.cent.iyyC - r₀.cent.ixyC ^ 2)) (0, 1) τy) :
    MeshLimit Ω mat (isComposite s₀.materials) (fun _ _ w => w.j) (1 / θ) ∧ StressesConverge Ω mat s₀ τM τx τy := by
  obtain ⟨σM, σx, σy, ⟨iM, ix, iy⟩, hc, hv⟩ := limit_fields h₀ hcon
  obtain ⟨⟨⟨J, hJ, hM'⟩, hf⟩, sq⟩ := hv κ ((fineFilter_basis κ).neBot_iff.2 fun {δ} hδ => by
    obtain ⟨s, r, w, h1, h2, h3⟩ := hfine δ hδ
    exact ⟨⟨⟨s, r, w⟩, h1, h2⟩, h3⟩)
  have hds := deltaS_ne h₀ hν
  obtain ⟨hx', hy'⟩ := hf hds
  have hνe : 1 + (warpIn s₀.materials r₀).nu ≠ 0 := fun h => hds (by rw [WarpIn.deltaS, h]; ring)
  have hst := body_stiff h₀
  have eR : volume.restrict Ω = volume.restrict (region s₀.elements) := (Measure.restrict_congr_set h₀.mesh.covers).symm
  unfold SquareInt at iM ix iy
  rw [eR] at iM ix iy
  obtain ⟨aM, eθ⟩ := torsion_unique hst (fun v hv => (sq v hv).2) iM sM hM' hM
  have ax := flexure_unique hst (fun v hv => (sq v hv).2) hνe ix sx hx' hx
  have ay := flexure_unique hst (fun v hv => (sq v hv).2) hνe iy sy hy' hy
  refine ⟨?_, stressesConverge_congr (by rwa [eR]) (by rwa [eR]) (by rwa [eR]) hc⟩
  rwa [← eθ, one_div_one_div]

/-- **C101** (energy).  The limit of the torsion constants is given by the energy of Saint-Venant's stresses. -/
theorem C101_energy (h₀ : SolvedMesh Ω mat s₀ r₀ w₀) {τ : ℝ × ℝ → ℝ × ℝ} {θ : ℝ} (hτ : SquareInt (region s₀.elements) τ)
    (h : SaintVenantTorsion (region s₀.elements) (fun p => (mat p).elasticModulus) (r₀.cx, r₀.cy) θ τ) :
    θ = ∫ p in region s₀.elements, (τ p).1 * ((τ p).1 / (mat p).elasticModulus) + (τ p).2 * ((τ p).2 / (mat p).elasticModulus) :=
  twist_energy (body_stiff h₀) hτ h

end

/-- **C101** for the rectangle `b × d` of a material with the modulus `E` and Poisson's ratio `ν`: the stresses that the code reports on fine
meshes converge to those of Saint-Venant's torsion, with the twist of the limit `J` of the torsion constants, and of Saint-Venant's flexure by
unit shear forces, with `ν` in the strains.  So the hypotheses of `C101_every_solution` are met too. -/
theorem C101_rectangle {b d : ℝ} (hb : 0 < b) (hd : 0 < d) (m : MatObj) (hE : 0 < m.val.elasticModulus) (hν : -1 < m.val.poissonsRatio)
    (hm : m.val ≠ defaultMaterial) : ∃ (s₀ : Section) (r₀ : GeomResults) (w₀ : WarpResults s₀.numNodes),
      Section.init (gridGeom 1 b d m) = .ok s₀ ∧ s₀.geometricAnalysis = .ok r₀ ∧ s₀.warping exactSolvers .direct r₀ = .ok w₀ ∧
      ∃ (τM τx τy : ℝ × ℝ → ℝ × ℝ) (J : ℝ), StressesConverge (Ioo (0 : ℝ) (0 + b) ×ˢ Ioo (0 : ℝ) (0 + d)) (fun _ => m.val) s₀ τM τx τy ∧
        (SquareInt (region s₀.elements) τM ∧ SquareInt (region s₀.elements) τx ∧ SquareInt (region s₀.elements) τy) ∧
        MeshLimit (Ioo (0 : ℝ) (0 + b) ×ˢ Ioo (0 : ℝ) (0 + d)) (fun _ => m.val) True (fun _ _ w => w.j) J ∧
        SaintVenantTorsion (region s₀.elements) (fun _ => m.val.elasticModulus) (r₀.cx, r₀.cy) (1 / J) τM ∧
        SaintVenantFlexure (region s₀.elements) (fun _ => m.val.elasticModulus) (r₀.cx, r₀.cy) m.val.poissonsRatio
          (r₀.cent.ixxC / (r₀.cent.ixxC * r₀.cent.iyyC - r₀.cent.ixyC ^ 2))
          (-r₀.cent.ixyC / (r₀.cent.ixxC * r₀.cent.iyyC - r₀.cent.ixyC ^ 2)) (1, 0) τx ∧
        SaintVenantFlexure (region s₀.elements) (fun _ => m.val.elasticModulus) (r₀.cx, r₀.cy) m.val.poissonsRatio
          (-r₀.cent.ixyC / (r₀.cent.ixxC * r₀.cent.iyyC - r₀.cent.ixyC ^ 2))
          (r₀.cent.iyyC / (r₀.cent.ixxC * r₀.cent.iyyC - r₀.cent.ixyC ^ 2)) (0, 1) τy := by
  obtain ⟨s₀, r₀, w₀, i1, i2, i3, h₀, hc₀, hu₀, -⟩ := grid_solved_of hb hd m hE hm one_pos
  have nu : r₀.nuEff = m.val.poissonsRatio := by
    obtain ⟨-, -, -, -, -, -, -, h8⟩ := C13_effective h₀.geom h₀.physical fun t ht => by rw [hu₀ t ht]; exact hν
    exact (h8 m.val.elasticModulus m.val.poissonsRatio fun t ht => by rw [hu₀ t ht]; exact ⟨rfl, rfl⟩).2
  obtain ⟨τM, τx, τy, hI, hc, ⟨⟨J, hJ, ht⟩, hf⟩⟩ := C101_saint_venant h₀
    (connected_body h₀ (isOpen_Ioo.prod isOpen_Ioo) (isPreconnected_Ioo.prod isPreconnected_Ioo)) (κ := (b ^ 2 + d ^ 2) / (b * d)) (by
      intro δ hδ
      obtain ⟨K, hK0, hK⟩ := grid_small (b := b) (d := d) hδ
      obtain ⟨s, r, w, -, -, -, h4, h5, -, h7⟩ := grid_solved_of hb hd m hE hm hK0
      exact ⟨s, r, w, h4, iff_of_true h5 hc₀, fineMesh_mono h7 (hK K le_rfl)⟩)
  obtain ⟨hx, hy⟩ := hf (deltaS_ne h₀ fun _ => by rw [nu]; exact hν.ne')
  have hwn : (warpIn s₀.materials r₀).nu = m.val.poissonsRatio := by simp [warpIn, hc₀, nu]
  rw [hwn] at hx hy
  refine ⟨s₀, r₀, w₀, by simpa using i1, i2, i3, τM, τx, τy, J, hc, ?_, ?_, ht, hx, hy⟩
  · have eR := Measure.restrict_congr_set (μ := volume) h₀.mesh.covers
    unfold SquareInt at hI ⊢
    rwa [eR]
  have hcT : isComposite s₀.materials = True := eq_true hc₀
  rwa [hcT] at hJ

/-- A rectangle of steel meets the hypotheses. -/
example := C101_rectangle (b := 200) (d := 100) (by norm_num) (by norm_num) ⟨1, ⟨"steel", 200000, 3 / 10, 500, 1, "grey"⟩⟩ (by norm_num)
  (by norm_num) fun h => by have := congrArg Material.elasticModulus h; norm_num [defaultMaterial] at this

end SP
