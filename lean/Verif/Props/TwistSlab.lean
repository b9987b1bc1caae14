import Verif.Props.TwistCentre
import Verif.Props.LayerCentre

/-!
# C107 through the whole of the analysis: slabs of two materials
-/

namespace SP

open Spec MeasureTheory Set

variable {m0 m1 : MatObj}

/-- **C107** through the whole of the analysis: a slab of two layers of equal height, of any two materials without Poisson's ratio.  For all
`k` from some `K` on the warping constant reported on the grid of `2 k` by `2 k` cells is near the axial energy of the twist about the
reported shear centre, and no other axis of twist takes less. -/
theorem C107_slab {b d : ℝ} (hb : 0 < b) (hd : 0 < d) (h0 : 0 < m0.val.elasticModulus) (h1 : 0 < m1.val.elasticModulus)
    (n0 : m0.val.poissonsRatio = 0) (n1 : m1.val.poissonsRatio = 0) {ε : ℝ} (hε : 0 < ε) :
    ∃ K : ℕ, ∀ k ≥ K, ∃ (s : Section) (r : GeomResults) (w : WarpResults s.numNodes),
        Section.init (slabGeom k (b / (2 * k : ℕ)) (d / (2 * k : ℕ)) m0 m1) = .ok s ∧
        s.geometricAnalysis = .ok r ∧ s.warping exactSolvers .direct r = .ok w ∧
        ∃ q, FEField (s.elements.map fun t => t.shiftBy r.cx r.cy) w.omega q ∧
          |w.gamma - wInt (s.elements.map fun t => t.shiftBy r.cx r.cy) (fun t p => twistWarp q (w.sc.xSe, w.sc.ySe) 0 t p ^ 2)| ≤ ε ∧
          ∀ P k, wInt (s.elements.map fun t => t.shiftBy r.cx r.cy) (fun t p => twistWarp q (w.sc.xSe, w.sc.ySe) 0 t p ^ 2)
            ≤ wInt (s.elements.map fun t => t.shiftBy r.cx r.cy) (fun t p => twistWarp q P k t p ^ 2) := by
  obtain ⟨s₀, r₀, w₀, -, -, -, -, h₀, -, -⟩ := slab_solved (m0 := m0) (m1 := m1) hb hd h0 h1 one_pos
  have hcon := connected_body h₀ (isOpen_Ioo.prod isOpen_Ioo) (isPreconnected_Ioo.prod isPreconnected_Ioo)
  obtain ⟨δ, hδ, key⟩ := C107_warping_constant h₀ hcon hε
  obtain ⟨K, hK0, hK⟩ := grid_small (b := b) (d := d) hδ
  refine ⟨K, fun k hk => ?_⟩
  obtain ⟨s, r, w, p1, -, p2, p3, p4, p5, p6⟩ := slab_solved (m0 := m0) (m1 := m1) hb hd h0 h1 (lt_of_lt_of_le hK0 hk)
  have hnu : r.nuEff = 0 := nuEff_zero p2 p4.physical fun t ht => by rcases p5 t ht with h | h <;> rw [h] <;> assumption
  exact ⟨s, r, w, p1, p2, p3, key s r w p4 (fun _ => hnu) _ (fineMesh_mono p6 (hK (2 * k) (by omega)))⟩

/-- Concrete on timber. -/
example := C107_slab (m0 := ⟨1, ⟨"timber", 10000, 0, 20, 1, "brown"⟩⟩) (m1 := ⟨2, ⟨"concrete", 30000, 0, 30, 2, "grey"⟩⟩) (b := 200) (d := 100)
  (by norm_num) (by norm_num) (by norm_num) (by norm_num) rfl rfl (ε := 1 / 1000) (by norm_num)

end SP
