import Verif.Props.SlabGrid
import Verif.Props.SymmetricBody

/-!
# C94 and C103 for a slab of two materials

A composite body whose meshes are known: the lower half of a rectangle of one material and the upper half of another, with any Poisson's
ratios.
-/

namespace SP

open Spec MeasureTheory Set

variable {m0 m1 : MatObj}

/-- The effective Poisson's ratio of a section is not `-1`. -/
theorem nuEff_ne {s : Section} {r : GeomResults} (hr : s.geometricAnalysis = .ok r) (hP : Physical s.elements)
    (h : ∀ t ∈ s.elements, -1 < t.material.poissonsRatio) : r.nuEff ≠ -1 := by
  obtain ⟨-, -, -, -, h5, -⟩ := C13_effective hr hP h
  obtain ⟨p1, p2, -⟩ := C09_positive hr hP
  obtain ⟨-, -, -, h1, -⟩ := geom_ok hr
  intro hν
  rw [hν] at h5
  have : r.eEff ≠ 0 := by
    rw [h1]
    exact div_ne_zero p2.ne' p1.ne'
  exact this (by rw [h5]; ring)

/-- **C94, C103** for a slab of two materials: on all fine meshes of it the warping results come as close as one likes to numbers that belong to
the slab.  The shear areas tend to positive numbers, the shear centre to the vertical line of symmetry, and the reciprocal of the mixed shear
area to zero.  There are such meshes, and they are those of a composite section. -/
theorem C94_slab {b d : ℝ} (hb : 0 < b) (hd : 0 < d) (h0 : 0 < m0.val.elasticModulus) (h1 : 0 < m1.val.elasticModulus)
    (n0 : -1 < m0.val.poissonsRatio) (n1 : -1 < m1.val.poissonsRatio) (hm : m0.val ≠ defaultMaterial) :
    (∃ (Γ : ℝ) (A : Fin 4 → ℝ) (C : Fin 6 → ℝ), (∀ i, 0 < A i) ∧
      MeshLimit (Ioo (0 : ℝ) (0 + b) ×ˢ Ioo (0 : ℝ) (0 + d)) (slabMaterial d m0.val m1.val) True (fun _ _ w => w.gamma) Γ ∧
      (∀ i, MeshLimit (Ioo (0 : ℝ) (0 + b) ×ˢ Ioo (0 : ℝ) (0 + d)) (slabMaterial d m0.val m1.val) True (fun _ _ w => fourAreas w i) (A i)) ∧
      ∀ i, MeshLimit (Ioo (0 : ℝ) (0 + b) ×ˢ Ioo (0 : ℝ) (0 + d)) (slabMaterial d m0.val m1.val) True (fun _ _ w => centreValues w i) (C i)) ∧
    MeshLimit (Ioo (0 : ℝ) (0 + b) ×ˢ Ioo (0 : ℝ) (0 + d)) (slabMaterial d m0.val m1.val) True (fun _ r w => r.cx + w.sc.xSe) (b / 2) ∧
    MeshLimit (Ioo (0 : ℝ) (0 + b) ×ˢ Ioo (0 : ℝ) (0 + d)) (slabMaterial d m0.val m1.val) True (fun _ _ w => 1 / w.areas.sxy) 0 ∧
    ∀ δ > 0, ∃ (s : Section) (r : GeomResults) (w : WarpResults s.numNodes),
      SolvedMesh (Ioo (0 : ℝ) (0 + b) ×ˢ Ioo (0 : ℝ) (0 + d)) (slabMaterial d m0.val m1.val) s r w ∧ isComposite s.materials ∧
      FineMesh s.elements δ ((b ^ 2 + d ^ 2) / (b * d)) := by
  have hcomp : isComposite [m0, m1] := by simp [isComposite, hm]
  obtain ⟨s₀, r₀, w₀, -, hc₀, -, -, h₀, hu₀, -⟩ := slab_solved (m0 := m0) (m1 := m1) hb hd h0 h1 one_pos
  rw [← hc₀] at hcomp
  have hT : isComposite s₀.materials = True := eq_true hcomp
  have hcon := connected_body h₀ (isOpen_Ioo.prod isOpen_Ioo) (isPreconnected_Ioo.prod isPreconnected_Ioo)
  have hnu : isComposite s₀.materials → r₀.nuEff ≠ -1 := fun _ => nuEff_ne h₀.geom h₀.physical fun t ht => by
    rcases hu₀ t ht with h | h <;> rw [h] <;> assumption
  have fine : ∀ δ > 0, ∃ (s : Section) (r : GeomResults) (w : WarpResults s.numNodes),
      SolvedMesh (Ioo (0 : ℝ) (0 + b) ×ˢ Ioo (0 : ℝ) (0 + d)) (slabMaterial d m0.val m1.val) s r w ∧
      (isComposite s.materials ↔ isComposite s₀.materials) ∧ FineMesh s.elements δ ((b ^ 2 + d ^ 2) / (b * d)) ∧
      ConnectedMesh s.elements := fun δ hδ => by
    obtain ⟨K, hK0, hK⟩ := grid_small (b := b) (d := d) hδ
    obtain ⟨s, r, w, i1, i2, -, -, i4, -, i6⟩ := slab_solved (m0 := m0) (m1 := m1) hb hd h0 h1 hK0
    refine ⟨s, r, w, i4, by rw [i2, hc₀], fineMesh_mono i6 (hK (2 * K) (by omega)), ?_⟩
    have e := Except.ok.inj (i1.symm.trans (slab_init hK0))
    rw [e]
    exact unlinked_shift (cx := 0) (cy := 0) (slab_linked hK0 0 0)
  have hsym : ∀ p ∈ Ioo (0 : ℝ) (0 + b) ×ˢ Ioo (0 : ℝ) (0 + d), slabMaterial d m0.val m1.val (signs (-1) 1 b 0 p)
      = slabMaterial d m0.val m1.val p := fun p _ => by simp [slabMaterial, signs, affine]
  obtain ⟨k1, -⟩ := C103_shear_centre (ex := -1) (ey := 1) (tx := b) (ty := 0) h₀ hcon fine (rect_mirrored b d) hsym
  have k2 := C103_mixed (ex := -1) (ey := 1) (tx := b) (ty := 0) h₀ hcon hnu fine (rect_mirrored b d) hsym (by decide)
  obtain ⟨Γ, hΓ⟩ := C94_warping_constant h₀ hcon
  choose A hA hAl using C94_shear_areas h₀ hcon hnu
  choose C hC using C94_shear_centre h₀ hcon
  have k3 := k1 rfl _ (List.mem_cons_self ..)
  rw [hT] at hΓ k2 k3
  simp only [hT] at hAl hC
  refine ⟨⟨Γ, A, C, hA, hΓ, hAl, hC⟩, k3, k2, fun δ hδ => ?_⟩
  obtain ⟨s, r, w, j1, j2, j3, -⟩ := fine δ hδ
  exact ⟨s, r, w, j1, j2.2 hcomp, j3⟩

/-- Concrete on steel. -/
example := C94_slab (m0 := ⟨1, ⟨"steel", 200000, 3 / 10, 500, 1, "grey"⟩⟩) (m1 := ⟨2, ⟨"concrete", 30000, 1 / 5, 30, 2, "white"⟩⟩) (b := 200)
  (d := 100) (by norm_num) (by norm_num) (by norm_num) (by norm_num) (by norm_num) (by norm_num)
  fun h => by have := congrArg Material.elasticModulus h; norm_num [defaultMaterial] at this

end SP
