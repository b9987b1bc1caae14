import Verif.Spec.Transform
import Verif.Props.Inertia

/-!
# Change of variables under affine maps
-/

namespace SP

open Spec MeasureTheory

theorem affine_eq_triMap (a b c d e f : ℝ) :
    affine a b c d e f = triMap (a + e, c + f) (b + e, d + f) (e, f) := by
  funext p
  simp only [affine, triMap]
  ext <;> simp <;> ring

theorem affine_injective {a b c d : ℝ} (e f : ℝ) (hD : a * d - b * c ≠ 0) :
    Function.Injective (affine a b c d e f) := by
  rw [affine_eq_triMap]
  apply triMap_injective
  simp only [cross2]
  intro h
  apply hD
  linarith

theorem image_integral {a b c d : ℝ} (e f : ℝ) (hD : a * d - b * c ≠ 0) {R : Set (ℝ × ℝ)}
    (hR : MeasurableSet R) (g : ℝ × ℝ → ℝ) :
    ∫ q in affine a b c d e f '' R, g q
      = |a * d - b * c| * ∫ p in R, g (affine a b c d e f p) := by
  have hinj := affine_injective e f hD
  rw [affine_eq_triMap] at hinj ⊢
  rw [integral_image_eq_integral_abs_det_fderiv_smul volume hR
    (fun x _ => (hasFDerivAt_triMap _ _ _ x).hasFDerivWithinAt) hinj.injOn]
  have h1 : |(triLin (a + e, c + f) (b + e, d + f) (e, f)).det| = |a * d - b * c| := by
    rw [triLin_det, cross2]
    congr 1
    simp only
    ring
  simp only [h1, smul_eq_mul]
  exact integral_const_mul _ _

theorem integral_lin6 {μ : Measure (ℝ × ℝ)} {f1 f2 f3 f4 f5 f6 : ℝ × ℝ → ℝ} {k1 k2 k3 k4 k5 k6 : ℝ}
    (h1 : Integrable f1 μ) (h2 : Integrable f2 μ) (h3 : Integrable f3 μ) (h4 : Integrable f4 μ)
    (h5 : Integrable f5 μ) (h6 : Integrable f6 μ) :
    ∫ p, (k1 * f1 p + k2 * f2 p + k3 * f3 p + k4 * f4 p + k5 * f5 p + k6 * f6 p) ∂μ
      = k1 * ∫ p, f1 p ∂μ + k2 * ∫ p, f2 p ∂μ + k3 * ∫ p, f3 p ∂μ + k4 * ∫ p, f4 p ∂μ
        + k5 * ∫ p, f5 p ∂μ + k6 * ∫ p, f6 p ∂μ := by
  have j2 : Integrable (fun p => k1 * f1 p + k2 * f2 p) μ := (h1.const_mul k1).add (h2.const_mul k2)
  have j3 : Integrable (fun p => k1 * f1 p + k2 * f2 p + k3 * f3 p) μ := j2.add (h3.const_mul k3)
  have j4 : Integrable (fun p => k1 * f1 p + k2 * f2 p + k3 * f3 p + k4 * f4 p) μ :=
    j3.add (h4.const_mul k4)
  have j5 : Integrable (fun p => k1 * f1 p + k2 * f2 p + k3 * f3 p + k4 * f4 p + k5 * f5 p) μ :=
    j4.add (h5.const_mul k5)
  rw [integral_add j5 (h6.const_mul k6), integral_add j4 (h5.const_mul k5),
    integral_add j3 (h4.const_mul k4), integral_add j2 (h3.const_mul k3),
    integral_add (h1.const_mul k1) (h2.const_mul k2)]
  simp only [integral_const_mul]

/-- The sums of the image section in terms of those of the original one. -/
theorem affine_sums {a b c d : ℝ} (e f : ℝ) (hD : a * d - b * c ≠ 0) {s s' : Section}
    {r r' : GeomResults} (hr : s.geometricAnalysis = .ok r) (hr' : s'.geometricAnalysis = .ok r')
    (hp : ∀ t ∈ s.elements, Proper t.coords) (hp' : ∀ t ∈ s'.elements, Proper t.coords)
    (hno : NoOverlap s.elements) (hno' : NoOverlap s'.elements)
    (him : ImageUnder (affine a b c d e f) s.elements s'.elements) :
    let D := |a * d - b * c|
    r'.sums.area = D * r.sums.area ∧ r'.sums.mass = D * r.sums.mass ∧
    r'.sums.ea = D * r.sums.ea ∧ r'.sums.ga = D * r.sums.ga ∧
    r'.sums.qx = D * (c * r.sums.qy + d * r.sums.qx + f * r.sums.ea) ∧
    r'.sums.qy = D * (a * r.sums.qy + b * r.sums.qx + e * r.sums.ea) ∧
    r'.sums.ixxG = D * (c ^ 2 * r.sums.iyyG + d ^ 2 * r.sums.ixxG + 2 * c * d * r.sums.ixyG
      + 2 * c * f * r.sums.qy + 2 * d * f * r.sums.qx + f ^ 2 * r.sums.ea) ∧
    r'.sums.iyyG = D * (a ^ 2 * r.sums.iyyG + b ^ 2 * r.sums.ixxG + 2 * a * b * r.sums.ixyG
      + 2 * a * e * r.sums.qy + 2 * b * e * r.sums.qx + e ^ 2 * r.sums.ea) ∧
    r'.sums.ixyG = D * (a * c * r.sums.iyyG + b * d * r.sums.ixxG + (a * d + b * c) * r.sums.ixyG
      + (a * f + c * e) * r.sums.qy + (b * f + d * e) * r.sums.qx + e * f * r.sums.ea) := by
  intro D
  obtain ⟨E, E', hE, hE', hEE⟩ := him.field Material.elasticModulus
  obtain ⟨G, G', hG, hG', hGG⟩ := him.field fun m => m.elasticModulus / (2 * (1 + m.poissonsRatio))
  obtain ⟨ρ, ρ', hρ, hρ', hρρ⟩ := him.field Material.density
  obtain ⟨a1, a2, a3, a4, a5, a6, a7, a8, a9⟩ := C01_exact hr hp hno hE hG hρ
  obtain ⟨b1, b2, b3, b4, b5, b6, b7, b8, b9⟩ := C01_exact hr' hp' hno' hE' hG' hρ'
  have hM := measurable_region s.elements
  simp only [him.region, image_integral e f hD hM, hEE, hGG, hρρ] at b1 b2 b3 b4 b5 b6 b7 b8 b9
  have cont : ∀ f : ℝ × ℝ → ℝ, Continuous f → Integrable (fun p => E p * f p)
      (volume.restrict (region s.elements)) := fun f hf => (sum_integral hno hE hf).1
  have i0 : Integrable (fun p => E p) (volume.restrict (region s.elements)) := by
    simpa using cont (fun _ => 1) continuous_const
  have i1 := cont (fun p => p.1) continuous_fst
  have i2 := cont (fun p => p.2) continuous_snd
  have i11 := cont (fun p => p.1 ^ 2) (continuous_fst.pow 2)
  have i22 := cont (fun p => p.2 ^ 2) (continuous_snd.pow 2)
  have i12 := cont (fun p => p.1 * p.2) (continuous_fst.mul continuous_snd)
  have comb : ∀ k1 k2 k3 k4 k5 k6 : ℝ, ∫ p in region s.elements,
      (k1 * (E p * p.1 ^ 2) + k2 * (E p * p.2 ^ 2) + k3 * (E p * (p.1 * p.2)) + k4 * (E p * p.1)
        + k5 * (E p * p.2) + k6 * E p)
      = k1 * r.sums.iyyG + k2 * r.sums.ixxG + k3 * r.sums.ixyG + k4 * r.sums.qy + k5 * r.sums.qx
        + k6 * r.sums.ea := by
    intro k1 k2 k3 k4 k5 k6
    rw [integral_lin6 i11 i22 i12 i1 i2 i0, a3, a5, a6, a7, a8, a9]
  refine ⟨?_, ?_, ?_, ?_, ?_, ?_, ?_, ?_, ?_⟩
  · rw [b1, a1]
  · rw [b2, a2]
  · rw [b3, a3]
  · rw [b4, a4]
  · rw [b5]
    congr 1
    have := comb 0 0 0 c d f
    simp only [zero_mul, zero_add] at this
    rw [← this]
    refine integral_congr_ae (Filter.Eventually.of_forall fun p => ?_)
    simp only [affine]; ring
  · rw [b6]
    congr 1
    have := comb 0 0 0 a b e
    simp only [zero_mul, zero_add] at this
    rw [← this]
    refine integral_congr_ae (Filter.Eventually.of_forall fun p => ?_)
    simp only [affine]; ring
  · rw [b7]
    congr 1
    rw [← comb]
    refine integral_congr_ae (Filter.Eventually.of_forall fun p => ?_)
    simp only [affine]; ring
  · rw [b8]
    congr 1
    rw [← comb]
    refine integral_congr_ae (Filter.Eventually.of_forall fun p => ?_)
    simp only [affine]; ring
  · rw [b9]
    congr 1
    rw [← comb]
    refine integral_congr_ae (Filter.Eventually.of_forall fun p => ?_)
    simp only [affine]; ring

/-- Centroid and centroidal tensor of the image section. -/
theorem affine_cent {a b c d : ℝ} (e f : ℝ) (hD : a * d - b * c ≠ 0) {s s' : Section}
    {r r' : GeomResults} (hr : s.geometricAnalysis = .ok r) (hr' : s'.geometricAnalysis = .ok r')
    (hs : Physical s.elements) (hp' : ∀ t ∈ s'.elements, Proper t.coords)
    (hno : NoOverlap s.elements) (hno' : NoOverlap s'.elements)
    (him : ImageUnder (affine a b c d e f) s.elements s'.elements) :
    let D := |a * d - b * c|
    (r'.cx, r'.cy) = affine a b c d e f (r.cx, r.cy) ∧
    r'.cent.ixxC = D * (c ^ 2 * r.cent.iyyC + d ^ 2 * r.cent.ixxC + 2 * c * d * r.cent.ixyC) ∧
    r'.cent.iyyC = D * (a ^ 2 * r.cent.iyyC + b ^ 2 * r.cent.ixxC + 2 * a * b * r.cent.ixyC) ∧
    r'.cent.ixyC = D * (a * c * r.cent.iyyC + b * d * r.cent.ixxC
      + (a * d + b * c) * r.cent.ixyC) := by
  intro D
  obtain ⟨-, -, h3, -, h5, h6, h7, h8, h9⟩ := affine_sums e f hD hr hr' hs.proper hp' hno hno' him
  obtain ⟨hsum, hc, -, -, -, hcx, hcy⟩ := geom_ok hr
  obtain ⟨-, hc', -, -, -, hcx', hcy'⟩ := geom_ok hr'
  obtain ⟨c1, c2, c3, -⟩ := cent_ok hc
  obtain ⟨d1, d2, d3, -⟩ := cent_ok hc'
  have hea : r.sums.ea ≠ 0 := by rw [hsum]; exact hs.ea_pos.ne'
  have hD' : D ≠ 0 := abs_ne_zero.2 hD
  change _ = D * _ at h3
  change _ = D * _ at h5
  change _ = D * _ at h6
  change _ = D * _ at h7
  change _ = D * _ at h8
  change _ = D * _ at h9
  refine ⟨?_, ?_, ?_, ?_⟩
  · rw [hcx, hcy, hcx', hcy']
    simp only [GeomSums.cx, GeomSums.cy, affine, h3, h5, h6, Prod.mk.injEq]
    constructor <;> field_simp
  · rw [d1, c1, c2, c3]
    simp only [GeomSums.ixxC, GeomSums.iyyC, GeomSums.ixyC, h3, h5, h7]
    field_simp
    ring
  · rw [d2, c1, c2, c3]
    simp only [GeomSums.ixxC, GeomSums.iyyC, GeomSums.ixyC, h3, h6, h8]
    field_simp
    ring
  · rw [d3, c1, c2, c3]
    simp only [GeomSums.ixxC, GeomSums.iyyC, GeomSums.ixyC, h3, h5, h6, h9]
    field_simp
    ring

end SP
