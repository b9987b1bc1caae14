import Verif.Props.Body
import Verif.Props.ConvergeExample
import Verif.Props.RectShapes

/-!
# C93: the torsion constant of a rectangle
-/

namespace SP

open Spec MeasureTheory Set

/-- The rectangle `b × d` of the default material, in `k × k` cells. -/
theorem grid_solved {b d : ℝ} (hb : 0 < b) (hd : 0 < d) (addr : ℕ) {k : ℕ} (hk : 0 < k) : ∃ (s : Section) (r : GeomResults)
    (w : WarpResults s.numNodes), Section.init (gridGeom k (b / k) (d / k) ⟨addr, defaultMaterial⟩) = .ok s ∧
    s.geometricAnalysis = .ok r ∧ s.warping exactSolvers .direct r = .ok w ∧
    SolvedMesh (Ioo (0 : ℝ) (0 + b) ×ˢ Ioo (0 : ℝ) (0 + d)) (fun _ => defaultMaterial) s r w ∧ ¬ isComposite s.materials ∧
    (∀ t ∈ s.elements, t.material.elasticModulus = 1) ∧
    FineMesh s.elements (√(b ^ 2 + d ^ 2) / k) ((b ^ 2 + d ^ 2) / (b * d)) := by
  have hkr : (0 : ℝ) < k := by exact_mod_cast hk
  have hx : 0 < b / k := by positivity
  have hy : 0 < d / k := by positivity
  set mat : MatObj := ⟨addr, defaultMaterial⟩ with hmat
  have hE : mat.val.elasticModulus = 1 := by norm_num [hmat, defaultMaterial]
  have hP : Physical (gridSection k (b / k) (d / k) mat).elements := grid_physical hk hx hy (by rw [hE]; exact one_pos)
  have hg := grid_good hk hx hy mat
  obtain ⟨r, hr⟩ := geometricAnalysis_ok (gridSection k (b / k) (d / k) mat) (by simp [gridSection])
  obtain ⟨w, hw, h0, h1, h2⟩ := exact_warping _ r hg hP hr (grid_linked hk mat r.cx r.cy)
  have hun : ∀ t ∈ (gridSection k (b / k) (d / k) mat).elements, t.material = defaultMaterial := by
    intro t ht
    obtain ⟨i, j, s, n, -, rfl⟩ := mem_grid ht
    rfl
  have hcov : region (gridSection k (b / k) (d / k) mat).elements =ᵐ[volume] Ioo (0 : ℝ) (0 + b) ×ˢ Ioo (0 : ℝ) (0 + d) := by
    have := grid_covers (k := k) hx hy mat
    rwa [mul_div_cancel₀ _ hkr.ne', mul_div_cancel₀ _ hkr.ne'] at this
  refine ⟨gridSection k (b / k) (d / k) mat, r, w, grid_init hk mat, hr, hw, ⟨hg, hP, grid_conforming hx hy mat,
    ⟨grid_noOverlap hx hy mat, hcov, fun t ht => Filter.Eventually.of_forall fun _ _ => (hun t ht).symm⟩, hr, ⟨_, _, hw⟩, h0, h1, h2⟩,
    by simp [isComposite, gridSection, hmat], fun t ht => ?_, ?_⟩
  · rw [hun t ht]; norm_num [defaultMaterial]
  · have := grid_fine (k := k) hx hy mat
    have e1 : (b / k) ^ 2 + (d / k) ^ 2 = (b ^ 2 + d ^ 2) / k ^ 2 := by field_simp
    have e2 : (b ^ 2 + d ^ 2) / k ^ 2 / (b / k * (d / k)) = (b ^ 2 + d ^ 2) / (b * d) := by field_simp
    rwa [e1, e2, Real.sqrt_div (by positivity), Real.sqrt_sq hkr.le] at this

/-- Grids are as fine as wanted. -/
theorem grid_small {b d δ : ℝ} (hδ : 0 < δ) : ∃ K : ℕ, 0 < K ∧ ∀ k ≥ K, √(b ^ 2 + d ^ 2) / k ≤ δ := by
  obtain ⟨K, hK⟩ := exists_nat_gt (√(b ^ 2 + d ^ 2) / δ)
  have hKp : 0 < K := by
    have : (0 : ℝ) < K := lt_of_le_of_lt (by positivity) hK
    exact_mod_cast this
  refine ⟨K, hKp, fun k hk => ?_⟩
  have hkr : (K : ℝ) ≤ k := by exact_mod_cast hk
  have hKr : (0 : ℝ) < K := by exact_mod_cast hKp
  rw [div_le_iff₀ (hKr.trans_le hkr)]
  rw [div_lt_iff₀ hδ] at hK
  nlinarith

/-- **C93** The torsion constant of the rectangle `b × d` of the default material: a number between `5/18` and `6/18` of
`b³ d³ / (b² + d²)` that the results of the program on `k × k` cells tend to as `k` grows, and those on all other fine meshes. -/
theorem C93_rectangle {b d : ℝ} (hb : 0 < b) (hd : 0 < d) (addr : ℕ) :
    ∃ J, 5 / 18 * (b ^ 3 * d ^ 3 / (b ^ 2 + d ^ 2)) ≤ J ∧ J ≤ 6 / 18 * (b ^ 3 * d ^ 3 / (b ^ 2 + d ^ 2)) ∧
      (∀ κ ε, 0 < ε → ∃ δ > 0, ∀ (s : Section) (r : GeomResults) (w : WarpResults s.numNodes),
        SolvedMesh (Ioo (0 : ℝ) (0 + b) ×ˢ Ioo (0 : ℝ) (0 + d)) (fun _ => defaultMaterial) s r w →
        J ≤ w.j ∧ (FineMesh s.elements δ κ → w.j ≤ J + ε)) ∧
      ∀ ε > 0, ∃ K : ℕ, ∀ k ≥ K, ∃ (s : Section) (r : GeomResults) (w : WarpResults s.numNodes),
        Section.init (gridGeom k (b / k) (d / k) ⟨addr, defaultMaterial⟩) = .ok s ∧
        s.geometricAnalysis = .ok r ∧ s.warping exactSolvers .direct r = .ok w ∧ J ≤ w.j ∧ w.j ≤ J + ε := by
  obtain ⟨s₀, r₀, w₀, -, hr₀, hw₀, h₀, -, hE₀, -⟩ := grid_solved hb hd addr one_pos
  obtain ⟨J, hJ, key⟩ := C93_torsion h₀
  have hgrid : ∀ ε > 0, ∃ K : ℕ, 0 < K ∧ ∀ k ≥ K, ∃ (s : Section) (r : GeomResults) (w : WarpResults s.numNodes),
        Section.init (gridGeom k (b / k) (d / k) ⟨addr, defaultMaterial⟩) = .ok s ∧
        s.geometricAnalysis = .ok r ∧ s.warping exactSolvers .direct r = .ok w ∧ J ≤ w.j ∧ w.j ≤ J + ε ∧
        SolvedMesh (Ioo (0 : ℝ) (0 + b) ×ˢ Ioo (0 : ℝ) (0 + d)) (fun _ => defaultMaterial) s r w ∧
        ∀ t ∈ s.elements, t.material.elasticModulus = 1 := by
    intro ε hε
    obtain ⟨δ, hδ, h⟩ := key ((b ^ 2 + d ^ 2) / (b * d)) ε hε
    obtain ⟨K, hK0, hK⟩ := grid_small (b := b) (d := d) hδ
    refine ⟨K, hK0, fun k hk => ?_⟩
    obtain ⟨s, r, w, h1, h2, h3, h4, -, h6, h7⟩ := grid_solved hb hd addr (lt_of_lt_of_le hK0 hk)
    exact ⟨s, r, w, h1, h2, h3, (h s r w h4).1, (h s r w h4).2 (fineMesh_mono h7 (hK k hk)), h4, h6⟩
  refine ⟨J, le_of_forall_pos_le_add fun ε hε => ?_, ?_, key, fun ε hε => ?_⟩
  · obtain ⟨K, -, h⟩ := hgrid ε hε
    obtain ⟨s, r, w, -, hr, hw, -, h5, h6, h7⟩ := h K le_rfl
    obtain ⟨k1, -⟩ := C88_torsion h6.good h6.physical h6.conforming h6.mesh.once hr _ _ w hw h6.omega
      (rectangles_one hb hd h6.mesh.covers) (inRects_const h7)
    simp only [Finset.sum_singleton, oneRect, Rect.width, Rect.height, add_sub_cancel_left, one_mul] at k1
    linarith
  · obtain ⟨-, k2⟩ := C88_torsion h₀.good h₀.physical h₀.conforming h₀.mesh.once hr₀ _ _ w₀ hw₀ h₀.omega
      (rectangles_one hb hd h₀.mesh.covers) (inRects_const hE₀)
    obtain ⟨a1, a2, a3, a4, a5⟩ := C88_parallel_axis hr₀ h₀.physical h₀.mesh.once (rectangles_one hb hd h₀.mesh.covers) (inRects_const hE₀)
    simp only [Finset.sum_singleton, oneRect, Rect.width, Rect.height, Rect.area, Rect.midX, Rect.midY, zero_add, sub_zero, one_mul] at a1 a2 a3 a4 a5
    obtain ⟨δ, hδ, h⟩ := key 0 1 one_pos
    have hbd : b * d ≠ 0 := by positivity
    have e1 : r₀.cx = b / 2 := by rw [a1]; field_simp
    have e2 : r₀.cy = d / 2 := by rw [a2]; field_simp
    refine ((h _ _ _ h₀).1.trans k2).trans (le_of_eq ?_)
    rw [a3, a4, a5, e1, e2]
    field_simp
    ring
  · obtain ⟨K, -, h⟩ := hgrid ε hε
    exact ⟨K, fun k hk => by
      obtain ⟨s, r, w, h1, h2, h3, h4, h5, -⟩ := h k hk
      exact ⟨s, r, w, h1, h2, h3, h4, h5⟩⟩

end SP
