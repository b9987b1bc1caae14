import Verif.Props.BodyWarp
import Verif.Props.BodyGrid

/-!
# C94 for rectangles: the hypotheses are met by meshes that the code builds
-/

namespace SP

open Spec MeasureTheory Set Topology Filter

/-- **C94** for a rectangle: the grids of `k` by `k` cells, through the whole of the analysis, come close to the same warping constant,
which is not negative, to the same shear areas, which are positive, and to the same shear centre as all other fine meshes. -/
theorem C94_rectangle {b d : ℝ} (hb : 0 < b) (hd : 0 < d) (addr : ℕ) :
    ∃ (Γ : ℝ) (A : Fin 4 → ℝ) (C : Fin 6 → ℝ), 0 ≤ Γ ∧ (∀ i, 0 < A i) ∧
      MeshLimit (Ioo (0 : ℝ) (0 + b) ×ˢ Ioo (0 : ℝ) (0 + d)) (fun _ => defaultMaterial) False (fun _ _ w => w.gamma) Γ ∧
      (∀ i, MeshLimit (Ioo (0 : ℝ) (0 + b) ×ˢ Ioo (0 : ℝ) (0 + d)) (fun _ => defaultMaterial) False (fun _ _ w => fourAreas w i) (A i)) ∧
      (∀ i, MeshLimit (Ioo (0 : ℝ) (0 + b) ×ˢ Ioo (0 : ℝ) (0 + d)) (fun _ => defaultMaterial) False (fun _ _ w => centreValues w i) (C i)) ∧
      ∀ ε > 0, ∃ K : ℕ, ∀ k ≥ K, ∃ (s : Section) (r : GeomResults) (w : WarpResults s.numNodes),
        Section.init (gridGeom k (b / k) (d / k) ⟨addr, defaultMaterial⟩) = .ok s ∧
        s.geometricAnalysis = .ok r ∧ s.warping exactSolvers .direct r = .ok w ∧ |w.gamma - Γ| ≤ ε ∧ (∀ i, |fourAreas w i - A i| ≤ ε) ∧
        ∀ i, |centreValues w i - C i| ≤ ε := by
  obtain ⟨s₀, r₀, w₀, -, -, -, h₀, hc₀, -⟩ := grid_solved hb hd addr one_pos
  have hcon := connected_body h₀ (isOpen_Ioo.prod isOpen_Ioo) (isPreconnected_Ioo.prod isPreconnected_Ioo)
  have hF : isComposite s₀.materials = False := eq_false hc₀
  obtain ⟨Γ, hΓ⟩ := C94_warping_constant h₀ hcon
  choose A hA hAl using C94_shear_areas h₀ hcon fun h => absurd h hc₀
  choose C hC using C94_shear_centre h₀ hcon
  rw [hF] at hΓ
  simp only [hF] at hAl hC
  have fine : ∀ δ > 0, ∃ K : ℕ, 0 < K ∧ ∀ k ≥ K, ∃ (s : Section) (r : GeomResults) (w : WarpResults s.numNodes),
      Section.init (gridGeom k (b / k) (d / k) ⟨addr, defaultMaterial⟩) = .ok s ∧
      s.geometricAnalysis = .ok r ∧ s.warping exactSolvers .direct r = .ok w ∧ ¬ isComposite s.materials ∧
      SolvedMesh (Ioo (0 : ℝ) (0 + b) ×ˢ Ioo (0 : ℝ) (0 + d)) (fun _ => defaultMaterial) s r w ∧
      FineMesh s.elements δ ((b ^ 2 + d ^ 2) / (b * d)) := by
    intro δ hδ
    obtain ⟨K, hK0, hK⟩ := grid_small (b := b) (d := d) hδ
    refine ⟨K, hK0, fun k hk => ?_⟩
    obtain ⟨s, r, w, h1, h2, h3, h4, h5, -, h7⟩ := grid_solved hb hd addr (lt_of_lt_of_le hK0 hk)
    exact ⟨s, r, w, h1, h2, h3, h5, h4, fineMesh_mono h7 (hK k hk)⟩
  refine ⟨Γ, A, C, ?_, hA, hΓ, hAl, hC, fun ε hε => ?_⟩
  · refine le_of_forall_pos_le_add fun ε hε => ?_
    obtain ⟨δ₁, hδ₁, k1⟩ := C94_warping_sign h₀ hcon (half_pos hε)
    obtain ⟨δ₂, hδ₂, k2⟩ := hΓ ((b ^ 2 + d ^ 2) / (b * d)) (ε / 2) (half_pos hε)
    obtain ⟨K, -, hK⟩ := fine (min δ₁ δ₂) (lt_min hδ₁ hδ₂)
    obtain ⟨s, r, w, -, -, -, hc, hs, hf⟩ := hK K le_rfl
    have m1 := k1 s r w hs (fun h => absurd h hc) _ (fineMesh_le hf (min_le_left _ _))
    have m2 := k2 s r w hs (iff_false_intro hc) (fineMesh_le hf (min_le_right _ _))
    rw [abs_le] at m2
    linarith [m2.1, m2.2]
  · obtain ⟨δ, hδ, k⟩ := hΓ ((b ^ 2 + d ^ 2) / (b * d)) ε hε
    choose δA hδA kA using fun i => hAl i ((b ^ 2 + d ^ 2) / (b * d)) ε hε
    choose δC hδC kC using fun i => hC i ((b ^ 2 + d ^ 2) / (b * d)) ε hε
    obtain ⟨iA, hiA⟩ := Finite.exists_min δA
    obtain ⟨iC, hiC⟩ := Finite.exists_min δC
    obtain ⟨K, -, hK⟩ := fine (min δ (min (δA iA) (δC iC))) (lt_min hδ (lt_min (hδA _) (hδC _)))
    refine ⟨K, fun m hm => ?_⟩
    obtain ⟨s, r, w, h1, h2, h3, hc, hs, hf⟩ := hK m hm
    refine ⟨s, r, w, h1, h2, h3, k s r w hs (iff_false_intro hc) (fineMesh_le hf (min_le_left _ _)), fun i => ?_, fun i => ?_⟩
    · exact kA i s r w hs (iff_false_intro hc) (fineMesh_le hf ((min_le_right _ _).trans ((min_le_left _ _).trans (hiA i))))
    · exact kC i s r w hs (iff_false_intro hc) (fineMesh_le hf ((min_le_right _ _).trans ((min_le_right _ _).trans (hiC i))))

end SP
