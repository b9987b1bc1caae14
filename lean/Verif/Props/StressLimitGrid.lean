import Verif.Props.StressLimit
import Verif.Props.BodyGrid

/-!
# C100 for rectangles: the hypotheses are met by meshes that the code builds
-/

namespace SP

open Spec MeasureTheory Set Topology Filter

/-- **C100** for a rectangle: on the grids of `k` by `k` cells, through the whole of the analysis, the shear stresses come close to the same
three fields as on all other fine meshes. -/
theorem C100_rectangle {b d : ℝ} (hb : 0 < b) (hd : 0 < d) (addr : ℕ) :
    ∃ τM τx τy : ℝ × ℝ → ℝ × ℝ, SquareInt (Ioo (0 : ℝ) (0 + b) ×ˢ Ioo (0 : ℝ) (0 + d)) τM ∧
      SquareInt (Ioo (0 : ℝ) (0 + b) ×ˢ Ioo (0 : ℝ) (0 + d)) τx ∧ SquareInt (Ioo (0 : ℝ) (0 + b) ×ˢ Ioo (0 : ℝ) (0 + d)) τy ∧
      ∀ (a : Actions) (ε : ℝ), 0 < ε → ∃ K : ℕ, ∀ k ≥ K, ∃ (s : Section) (r : GeomResults) (w : WarpResults s.numNodes) (T : ℝ × ℝ → ℝ × ℝ),
        Section.init (gridGeom k (b / k) (d / k) ⟨addr, defaultMaterial⟩) = .ok s ∧
        s.geometricAnalysis = .ok r ∧ s.warping exactSolvers .direct r = .ok w ∧
        (∀ t ∈ s.elements, ∀ᵐ p, p ∈ elemRegion t.coords → T p = reportedShear s r w a t p) ∧
        sizeSq (Ioo (0 : ℝ) (0 + b) ×ˢ Ioo (0 : ℝ) (0 + d)) (fun p => T p - superposed a τM τx τy p) ≤ ε
          + 1e-19 * (a.mzz ^ 2 * sizeSq (Ioo (0 : ℝ) (0 + b) ×ˢ Ioo (0 : ℝ) (0 + d)) τM
            + a.vx ^ 2 * sizeSq (Ioo (0 : ℝ) (0 + b) ×ˢ Ioo (0 : ℝ) (0 + d)) τx
            + a.vy ^ 2 * sizeSq (Ioo (0 : ℝ) (0 + b) ×ˢ Ioo (0 : ℝ) (0 + d)) τy) := by
  obtain ⟨s₀, r₀, w₀, -, -, -, h₀, hc₀, -⟩ := grid_solved hb hd addr one_pos
  obtain ⟨τM, τx, τy, hM, hx, hy, lim⟩ := C100_shear_stress h₀
    (connected_body h₀ (isOpen_Ioo.prod isOpen_Ioo) (isPreconnected_Ioo.prod isPreconnected_Ioo))
  refine ⟨τM, τx, τy, hM, hx, hy, fun a ε hε => ?_⟩
  obtain ⟨δ, hδ, key⟩ := lim a ((b ^ 2 + d ^ 2) / (b * d)) ε hε
  obtain ⟨K, hK0, hK⟩ := grid_small (b := b) (d := d) hδ
  refine ⟨K, fun k hk => ?_⟩
  obtain ⟨s, r, w, h1, h2, h3, h4, h5, -, h7⟩ := grid_solved hb hd addr (lt_of_lt_of_le hK0 hk)
  obtain ⟨T, -, hT, hsz⟩ := key s r w h4 (iff_of_false h5 hc₀) (fineMesh_mono h7 (hK k hk))
  exact ⟨s, r, w, T, h1, h2, h3, hT, hsz⟩

/-- `C100_points` for the grids of a rectangle: a torque, and the search tree that finds all elements that contain the point. -/
example {b d : ℝ} (hb : 0 < b) (hd : 0 < d) {k : ℕ} (hk : 0 < k) : ∃ (s : Section) (r : GeomResults) (w : WarpResults s.numNodes)
    (s0 : Store s.numNodes), s.elements ≠ [] ∧ ∀ t ∈ s.elements, ∀ᵐ p, p ∈ elemRegion t.coords →
      ∃ σ, ((exEnv s).stressPoints (exactQuery s.elements) npAverage ⟨0, 0, 0, 0, 0, 1, 0, 0⟩ [p]).run.run (s0.setWarp w)
        = (.ok [some (σ, reportedShear s r w ⟨0, 0, 0, 0, 0, 1, 0, 0⟩ t p)], s0.setWarp w) := by
  obtain ⟨s, r, w, -, -, -, h, -⟩ := grid_solved hb hd 0 hk
  exact ⟨s, r, w, (Store.empty s.numNodes).set (geomValues (exEnv s).perimeter r), h.physical.nonempty,
    C100_points (exEnv s) h.mesh.once (holdsGeom_set _ _ _) (by simp) (exactQuery_correct _) _⟩

end SP
