import Verif.Props.ShearEnergy
import Verif.Props.SlabBody

/-!
# C105 for a slab of two materials
-/

namespace SP

open Spec MeasureTheory Set

variable {m0 m1 : MatObj}

/-- **C105** through the whole of the analysis: a slab of two layers of equal height, of any two materials without Poisson's ratio.  For all
`k` from some `K` on the shear areas reported on the grid of `2 k` by `2 k` cells are near those of beam theory. -/
theorem C105_slab {b d : ℝ} (hb : 0 < b) (hd : 0 < d) (h0 : 0 < m0.val.elasticModulus) (h1 : 0 < m1.val.elasticModulus)
    (n0 : m0.val.poissonsRatio = 0) (n1 : m1.val.poissonsRatio = 0) {ε : ℝ} (hε : 0 < ε) :
    ∃ K : ℕ, ∀ k ≥ K, ∃ (s : Section) (r : GeomResults) (w : WarpResults s.numNodes),
        Section.init (slabGeom k (b / (2 * k : ℕ)) (d / (2 * k : ℕ)) m0 m1) = .ok s ∧
        s.geometricAnalysis = .ok r ∧ s.warping exactSolvers .direct r = .ok w ∧
        |w.areas.sx - 5 / 6 * (b * ∫ η in (0 : ℝ)..0 + d, slabModulus d m0.val m1.val η)| ≤ ε ∧
        |w.areas.sy - 1 / (b * ∫ y in (0 : ℝ)..0 + d, acrossShear (slabModulus d m0.val m1.val) 0 (0 + d) b y ^ 2
          / slabModulus d m0.val m1.val y)| ≤ ε := by
  have hmat : ∀ p ∈ Ioo (0 : ℝ) (0 + b) ×ˢ Ioo (0 : ℝ) (0 + d), (slabMaterial d m0.val m1.val p).elasticModulus
      = slabModulus d m0.val m1.val p.2 := fun p _ => by
    unfold slabMaterial slabModulus
    split <;> rfl
  obtain ⟨δ, hδ, key⟩ := C105_layered 0 0 hb hd (slab_tame h0 h1) hmat ((b ^ 2 + d ^ 2) / (b * d)) hε
  obtain ⟨K, hK0, hK⟩ := grid_small (b := b) (d := d) hδ
  refine ⟨K, fun k hk => ?_⟩
  obtain ⟨s, r, w, p1, -, p2, p3, p4, p5, p6⟩ := slab_solved (m0 := m0) (m1 := m1) hb hd h0 h1 (lt_of_lt_of_le hK0 hk)
  have hnu : r.nuEff = 0 := nuEff_zero p2 p4.physical fun t ht => by rcases p5 t ht with h | h <;> rw [h] <;> assumption
  obtain ⟨a1, a2⟩ := key s r w p4 (fun _ => hnu) (fineMesh_mono p6 (hK (2 * k) (by omega)))
  exact ⟨s, r, w, p1, p2, p3, a1, a2⟩

/-- Concrete on timber. -/
example := C105_slab (m0 := ⟨1, ⟨"timber", 10000, 0, 20, 1, "brown"⟩⟩) (m1 := ⟨2, ⟨"concrete", 30000, 0, 30, 2, "grey"⟩⟩) (b := 200) (d := 100)
  (by norm_num) (by norm_num) (by norm_num) (by norm_num) rfl rfl (ε := 1 / 1000) (by norm_num)

/-- **C105** with Poisson's ratios: a slab of two materials has, for each of the four directions, stresses of Saint-Venant's theory for a unit
shear force, and the shear areas tend to the value of their energy.  So the hypotheses of `C105_energy` are met. -/
theorem C105_slab_energy {b d : ℝ} (hb : 0 < b) (hd : 0 < d) (h0 : 0 < m0.val.elasticModulus) (h1 : 0 < m1.val.elasticModulus)
    (n0 : -1 < m0.val.poissonsRatio) (n1 : -1 < m1.val.poissonsRatio) (i : Fin 4) :
    ∃ (s₀ : Section) (r₀ : GeomResults) (w₀ : WarpResults s₀.numNodes), Section.init (slabGeom 1 (b / (2 * 1 : ℕ)) (d / (2 * 1 : ℕ)) m0 m1) = .ok s₀ ∧
      s₀.geometricAnalysis = .ok r₀ ∧ s₀.warping exactSolvers .direct r₀ = .ok w₀ ∧
      ∃ τ : ℝ × ℝ → ℝ × ℝ, SquareInt (region s₀.elements) τ ∧
        SaintVenantFlexure (region s₀.elements) (fun p => (slabMaterial d m0.val m1.val p).elasticModulus) (r₀.cx, r₀.cy) (warpIn s₀.materials r₀).nu
          (((fourDirs r₀.cent.phi i).1 * r₀.cent.ixxC - (fourDirs r₀.cent.phi i).2 * r₀.cent.ixyC)
            / (r₀.cent.ixxC * r₀.cent.iyyC - r₀.cent.ixyC ^ 2))
          (((fourDirs r₀.cent.phi i).2 * r₀.cent.iyyC - (fourDirs r₀.cent.phi i).1 * r₀.cent.ixyC)
            / (r₀.cent.ixxC * r₀.cent.iyyC - r₀.cent.ixyC ^ 2)) (fourDirs r₀.cent.phi i) τ ∧
        MeshLimit (Ioo (0 : ℝ) (0 + b) ×ˢ Ioo (0 : ℝ) (0 + d)) (slabMaterial d m0.val m1.val) (isComposite s₀.materials) (fun _ _ w => fourAreas w i)
          (1 / ∫ p in region s₀.elements, ((τ p).1 ^ 2 + (τ p).2 ^ 2) / (slabMaterial d m0.val m1.val p).elasticModulus) := by
  obtain ⟨s₀, r₀, w₀, i1, hc₀, i2, i3, h₀, hu₀, -⟩ := slab_solved (m0 := m0) (m1 := m1) hb hd h0 h1 one_pos
  have hcon := connected_body h₀ (isOpen_Ioo.prod isOpen_Ioo) (isPreconnected_Ioo.prod isPreconnected_Ioo)
  have hnu : isComposite s₀.materials → r₀.nuEff ≠ -1 := fun _ => nuEff_ne h₀.geom h₀.physical fun t ht => by
    rcases hu₀ t ht with h | h <;> rw [h] <;> assumption
  have fine : ∀ δ > 0, ∃ (s : Section) (r : GeomResults) (w : WarpResults s.numNodes),
      SolvedMesh (Ioo (0 : ℝ) (0 + b) ×ˢ Ioo (0 : ℝ) (0 + d)) (slabMaterial d m0.val m1.val) s r w ∧
      (isComposite s.materials ↔ isComposite s₀.materials) ∧ FineMesh s.elements δ ((b ^ 2 + d ^ 2) / (b * d)) := fun δ hδ => by
    obtain ⟨K, hK0, hK⟩ := grid_small (b := b) (d := d) hδ
    obtain ⟨s, r, w, -, j2, -, -, j4, -, j6⟩ := slab_solved (m0 := m0) (m1 := m1) hb hd h0 h1 hK0
    exact ⟨s, r, w, j4, by rw [j2, hc₀], fineMesh_mono j6 (hK (2 * K) (by omega))⟩
  obtain ⟨τ, t1, t2⟩ := dir_solution h₀ hcon fine hnu (fourDirs r₀.cent.phi i).1 (fourDirs r₀.cent.phi i).2
  exact ⟨s₀, r₀, w₀, i1, i2, i3, τ, t1, t2, (C105_energy h₀ hcon fine hnu i rfl t1 t2).2⟩

/-- Concrete on steel. -/
example := C105_slab_energy (m0 := ⟨1, ⟨"steel", 200000, 3 / 10, 500, 1, "grey"⟩⟩) (m1 := ⟨2, ⟨"concrete", 30000, 1 / 5, 30, 2, "grey"⟩⟩) (b := 200)
  (d := 100) (by norm_num) (by norm_num) (by norm_num) (by norm_num) (by norm_num) (by norm_num) 1

end SP
