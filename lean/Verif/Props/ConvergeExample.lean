import Verif.Props.GridMesh
import Verif.Props.Shear

/-!
# C92: meshes as fine as wanted exist, and the shear areas converge on them
-/

namespace SP

open Spec MeasureTheory Set

theorem fineMesh_mono {n : ℕ} {els : List (Tri6 n)} {h h' κ : ℝ} (hf : FineMesh els h κ) (hh : h ≤ h') : FineMesh els h' κ :=
  fun t ht => let ⟨d, h1, h2⟩ := hf t ht; ⟨d, h1.trans hh, h2⟩

/-- **C92** The rectangle `b × d` of the default material in `k × k` cells: with exact solvers the shear areas converge to
`5/6 b d` as `k` grows.  The section is made by the constructor from the arrays of the mesh. -/
theorem C92_grid {b d ε : ℝ} (hb : 0 < b) (hd : 0 < d) (hε : 0 < ε) (addr : ℕ) : ∃ K : ℕ, ∀ k ≥ K, ∃ (s : Section) (r : GeomResults)
    (w : WarpResults s.numNodes), Section.init (gridGeom k (b / k) (d / k) ⟨addr, defaultMaterial⟩) = .ok s ∧
    s.geometricAnalysis = .ok r ∧ s.warping exactSolvers .direct r = .ok w ∧
    ∀ a ∈ [w.areas.sx, w.areas.sy, w.areas.s11, w.areas.s22], |a / (b * d) - 5 / 6| ≤ ε := by
  have hκ : 0 < (b ^ 2 + d ^ 2) / (b * d) := by positivity
  obtain ⟨h0, h0p, key⟩ := C92_rectangle_limit hb hd hκ hε
  obtain ⟨K, hK⟩ := exists_nat_gt (√(b ^ 2 + d ^ 2) / h0)
  have hKp : 0 < K := by
    have : (0 : ℝ) < K := lt_of_le_of_lt (by positivity) hK
    exact_mod_cast this
  refine ⟨K, fun k hk => ?_⟩
  have hk0 : 0 < k := lt_of_lt_of_le hKp hk
  have hkr : (0 : ℝ) < k := by exact_mod_cast hk0
  have hx : 0 < b / k := by positivity
  have hy : 0 < d / k := by positivity
  set mat : MatObj := ⟨addr, defaultMaterial⟩ with hmat
  have hE : mat.val.elasticModulus = 1 := by norm_num [hmat, defaultMaterial]
  have hP : Physical (gridSection k (b / k) (d / k) mat).elements := grid_physical hk0 hx hy (by rw [hE]; exact one_pos)
  have hg := grid_good hk0 hx hy mat
  obtain ⟨r, hr⟩ := geometricAnalysis_ok (gridSection k (b / k) (d / k) mat) (by simp [gridSection])
  obtain ⟨w, hw, -, h1, h2⟩ := exact_warping _ r hg hP hr (grid_linked hk0 mat r.cx r.cy)
  refine ⟨gridSection k (b / k) (d / k) mat, r, w, grid_init hk0 mat, hr, hw, ?_⟩
  have hcomp : ¬ isComposite (gridSection k (b / k) (d / k) mat).materials := by
    simp [isComposite, gridSection, hmat]
  have hcov : region (gridSection k (b / k) (d / k) mat).elements =ᵐ[volume] Ioo (0 : ℝ) (0 + b) ×ˢ Ioo (0 : ℝ) (0 + d) := by
    have := grid_covers (k := k) hx hy mat
    rwa [mul_div_cancel₀ _ hkr.ne', mul_div_cancel₀ _ hkr.ne'] at this
  have hf : FineMesh (gridSection k (b / k) (d / k) mat).elements h0 ((b ^ 2 + d ^ 2) / (b * d)) := by
    have := grid_fine (k := k) hx hy mat
    have e1 : (b / k) ^ 2 + (d / k) ^ 2 = (b ^ 2 + d ^ 2) / k ^ 2 := by field_simp
    have e2 : (b ^ 2 + d ^ 2) / k ^ 2 / (b / k * (d / k)) = (b ^ 2 + d ^ 2) / (b * d) := by field_simp
    rw [e1, e2, Real.sqrt_div (by positivity), Real.sqrt_sq hkr.le] at this
    refine fineMesh_mono this ?_
    rw [div_le_iff₀ hkr]
    rw [div_lt_iff₀ h0p] at hK
    have : (K : ℝ) ≤ k := by exact_mod_cast hk
    nlinarith
  have hun : ∀ t ∈ (gridSection k (b / k) (d / k) mat).elements, t.material.elasticModulus = 1 := by
    intro t ht
    obtain ⟨i, j, s, n, -, rfl⟩ := mem_grid ht
    exact hE
  have := key (gridSection k (b / k) (d / k) mat) r exactSolvers .direct w 0 0 1 hg hP (grid_conforming hx hy mat)
    (grid_noOverlap hx hy mat) hr hw (fun h => absurd h hcomp) one_pos hcov hun hf h1 h2
  rwa [one_mul] at this

end SP
