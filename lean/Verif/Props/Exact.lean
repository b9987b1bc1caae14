import Verif.Lemmas.Sums
import Verif.Props.Quadrature
import Verif.Props.Example

/-!
# C01 (exact integrals) and C02 (mesh independence)
-/

namespace SP

open Spec MeasureTheory

/-- **C01**: for every section whose elements are straight-sided and do not overlap, the stored
values are the exact Lebesgue integrals over the region covered by the mesh; `E`, `G`, `ρ` are the
fields of elastic modulus, shear modulus and density of the material at a point. -/
theorem C01_exact {s : Section} {r : GeomResults} (hr : s.geometricAnalysis = .ok r)
    (hp : ∀ t ∈ s.elements, Proper t.coords) (hno : NoOverlap s.elements)
    {E G ρ : ℝ × ℝ → ℝ} (hE : IsField s.elements Material.elasticModulus E)
    (hG : IsField s.elements (fun m => m.elasticModulus / (2 * (1 + m.poissonsRatio))) G)
    (hρ : IsField s.elements Material.density ρ) :
    let R := region s.elements
    r.sums.area = ∫ _p in R, (1 : ℝ) ∧
    r.sums.mass = ∫ p in R, ρ p ∧
    r.sums.ea = ∫ p in R, E p ∧
    r.sums.ga = ∫ p in R, G p ∧
    r.sums.qx = ∫ p in R, E p * p.2 ∧
    r.sums.qy = ∫ p in R, E p * p.1 ∧
    r.sums.ixxG = ∫ p in R, E p * p.2 ^ 2 ∧
    r.sums.iyyG = ∫ p in R, E p * p.1 ^ 2 ∧
    r.sums.ixyG = ∫ p in R, E p * (p.1 * p.2) := by
  obtain ⟨hs, -⟩ := geom_ok hr
  obtain ⟨a1, a2, a3, a4, a5, a6, a7, a8, a9⟩ := sums_fields hp
  have one : IsField s.elements (fun _ => 1) (fun _ => 1) :=
    fun t _ => Filter.Eventually.of_forall fun p _ => rfl
  have c1 : Continuous fun _ : ℝ × ℝ => (1 : ℝ) := continuous_const
  simp only [hs]
  refine ⟨?_, ?_, ?_, ?_, ?_, ?_, ?_, ?_, ?_⟩
  · rw [a1]; simpa only [mul_one] using (sum_integral hno one c1).2
  · rw [a2]; simpa only [mul_one] using (sum_integral hno hρ c1).2
  · rw [a3]; simpa only [mul_one] using (sum_integral hno hE c1).2
  · rw [a4]; simpa only [mul_one, Material.shearModulus] using (sum_integral hno hG c1).2
  · rw [a5]; exact (sum_integral hno hE continuous_snd).2
  · rw [a6]; exact (sum_integral hno hE continuous_fst).2
  · rw [a7]; exact (sum_integral hno hE (continuous_snd.pow 2)).2
  · rw [a8]; exact (sum_integral hno hE (continuous_fst.pow 2)).2
  · rw [a9]; exact (sum_integral hno hE (continuous_fst.mul continuous_snd)).2

theorem integral_lin4 {μ : Measure (ℝ × ℝ)} {f g h k : ℝ × ℝ → ℝ} (a b c : ℝ)
    (hf : Integrable f μ) (hg : Integrable g μ) (hh : Integrable h μ) (hk : Integrable k μ) :
    ∫ p, (f p - a * g p - b * h p + c * k p) ∂μ
      = ∫ p, f p ∂μ - a * ∫ p, g p ∂μ - b * ∫ p, h p ∂μ + c * ∫ p, k p ∂μ := by
  have i1 : Integrable (fun p => f p - a * g p) μ := hf.sub (hg.const_mul a)
  have i2 : Integrable (fun p => f p - a * g p - b * h p) μ := i1.sub (hh.const_mul b)
  rw [integral_add i2 (hk.const_mul c), integral_sub i1 (hh.const_mul b),
    integral_sub hf (hg.const_mul a), integral_const_mul, integral_const_mul, integral_const_mul]

/-- **C01** (centroidal values): the stored centroid is the modulus-weighted mean position and the
stored centroidal second moments are the exact integrals about it. -/
theorem C01_centroidal {s : Section} {r : GeomResults} (hr : s.geometricAnalysis = .ok r)
    (hp : ∀ t ∈ s.elements, Proper t.coords) (hno : NoOverlap s.elements)
    {E : ℝ × ℝ → ℝ} (hE : IsField s.elements Material.elasticModulus E)
    (hea : ∫ p in region s.elements, E p ≠ 0) :
    let R := region s.elements
    r.cx = (∫ p in R, E p * p.1) / ∫ p in R, E p ∧
    r.cy = (∫ p in R, E p * p.2) / ∫ p in R, E p ∧
    r.cent.ixxC = ∫ p in R, E p * (p.2 - r.cy) ^ 2 ∧
    r.cent.iyyC = ∫ p in R, E p * (p.1 - r.cx) ^ 2 ∧
    r.cent.ixyC = ∫ p in R, E p * ((p.1 - r.cx) * (p.2 - r.cy)) := by
  obtain ⟨hs, hc, -, -, -, hcx, hcy⟩ := geom_ok hr
  obtain ⟨b1, b2, b3, -⟩ := cent_ok hc
  obtain ⟨G, hG⟩ := exists_field hno fun m => m.elasticModulus / (2 * (1 + m.poissonsRatio))
  obtain ⟨ρ, hρ⟩ := exists_field hno Material.density
  obtain ⟨-, -, a3, -, a5, a6, a7, a8, a9⟩ := C01_exact hr hp hno hE hG hρ
  intro R
  have hea' : r.sums.ea ≠ 0 := by rw [a3]; exact hea
  have e1 : r.cx = (∫ p in R, E p * p.1) / ∫ p in R, E p := by
    rw [hcx, GeomSums.cx, a6, a3]
  have e2 : r.cy = (∫ p in R, E p * p.2) / ∫ p in R, E p := by
    rw [hcy, GeomSums.cy, a5, a3]
  have i0 : IntegrableOn (fun p => E p) R := by
    simpa only [mul_one] using (sum_integral hno hE (f := fun _ => 1) continuous_const).1
  have i1 := (sum_integral hno hE continuous_fst).1
  have i2 := (sum_integral hno hE continuous_snd).1
  have i11 := (sum_integral hno hE (f := fun p => p.1 ^ 2) (continuous_fst.pow 2)).1
  have i22 := (sum_integral hno hE (f := fun p => p.2 ^ 2) (continuous_snd.pow 2)).1
  have i12 := (sum_integral hno hE (f := fun p => p.1 * p.2) (continuous_fst.mul continuous_snd)).1
  refine ⟨e1, e2, ?_, ?_, ?_⟩
  · have : ∀ p : ℝ × ℝ, E p * (p.2 - r.cy) ^ 2
        = E p * p.2 ^ 2 - r.cy * (E p * p.2) - r.cy * (E p * p.2) + r.cy ^ 2 * E p :=
      fun p => by ring
    simp_rw [this]
    rw [integral_lin4 _ _ _ i22 i2 i2 i0, b1, GeomSums.ixxC, ← a7, ← a5, ← a3, hcy, GeomSums.cy]
    field_simp
    ring
  · have : ∀ p : ℝ × ℝ, E p * (p.1 - r.cx) ^ 2
        = E p * p.1 ^ 2 - r.cx * (E p * p.1) - r.cx * (E p * p.1) + r.cx ^ 2 * E p :=
      fun p => by ring
    simp_rw [this]
    rw [integral_lin4 _ _ _ i11 i1 i1 i0, b2, GeomSums.iyyC, ← a8, ← a6, ← a3, hcx, GeomSums.cx]
    field_simp
    ring
  · have : ∀ p : ℝ × ℝ, E p * ((p.1 - r.cx) * (p.2 - r.cy))
        = E p * (p.1 * p.2) - r.cx * (E p * p.2) - r.cy * (E p * p.1) + r.cx * r.cy * E p :=
      fun p => by ring
    simp_rw [this]
    rw [integral_lin4 _ _ _ i12 i2 i1 i0, b3, GeomSums.ixyC, ← a9, ← a6, ← a5, ← a3, hcx,
      GeomSums.cx, hcy, GeomSums.cy]
    field_simp
    ring

/-- **C02**: two sections whose meshes cover the same region with the same materials (up to sets of
measure zero) report identical area, mass, rigidities, moments, centroid, effective properties,
centroidal and principal moments, angle and radii of gyration. -/
theorem C02_mesh_independent {s s' : Section} {r r' : GeomResults}
    (hr : s.geometricAnalysis = .ok r) (hr' : s'.geometricAnalysis = .ok r')
    (hp : ∀ t ∈ s.elements, Proper t.coords) (hp' : ∀ t ∈ s'.elements, Proper t.coords)
    (hno : NoOverlap s.elements) (hno' : NoOverlap s'.elements)
    (hreg : region s.elements =ᵐ[volume] region s'.elements)
    {E G ρ : ℝ × ℝ → ℝ}
    (hE : IsField s.elements Material.elasticModulus E)
    (hG : IsField s.elements (fun m => m.elasticModulus / (2 * (1 + m.poissonsRatio))) G)
    (hρ : IsField s.elements Material.density ρ)
    (hE' : IsField s'.elements Material.elasticModulus E)
    (hG' : IsField s'.elements (fun m => m.elasticModulus / (2 * (1 + m.poissonsRatio))) G)
    (hρ' : IsField s'.elements Material.density ρ) :
    r.sums = r'.sums ∧ r.nuEff = r'.nuEff ∧ r.eEff = r'.eEff ∧ r.gEff = r'.gEff ∧
    r.cx = r'.cx ∧ r.cy = r'.cy ∧
    r.cent.ixxC = r'.cent.ixxC ∧ r.cent.iyyC = r'.cent.iyyC ∧ r.cent.ixyC = r'.cent.ixyC ∧
    r.cent.i11 = r'.cent.i11 ∧ r.cent.i22 = r'.cent.i22 ∧ r.cent.phi = r'.cent.phi ∧
    r.cent.rx = r'.cent.rx ∧ r.cent.ry = r'.cent.ry ∧
    r.cent.r11 = r'.cent.r11 ∧ r.cent.r22 = r'.cent.r22 := by
  have hsums : r.sums = r'.sums := by
    obtain ⟨a1, a2, a3, a4, a5, a6, a7, a8, a9⟩ := C01_exact hr hp hno hE hG hρ
    obtain ⟨b1, b2, b3, b4, b5, b6, b7, b8, b9⟩ := C01_exact hr' hp' hno' hE' hG' hρ'
    have e : volume.restrict (region s.elements) = volume.restrict (region s'.elements) :=
      Measure.restrict_congr_set hreg
    rw [e] at a1 a2 a3 a4 a5 a6 a7 a8 a9
    ext
    · rw [a1, b1]
    · rw [a2, b2]
    · rw [a3, b3]
    · rw [a4, b4]
    · rw [a5, b5]
    · rw [a6, b6]
    · rw [a7, b7]
    · rw [a8, b8]
    · rw [a9, b9]
  obtain ⟨-, hc, h1, h2, h3, h4, h5⟩ := geom_ok hr
  obtain ⟨-, hc', h1', h2', h3', h4', h5'⟩ := geom_ok hr'
  obtain ⟨c1, c2, c3, c4, c5, c6, c7, c8, c9, c10⟩ := cent_ok hc
  obtain ⟨d1, d2, d3, d4, d5, d6, d7, d8, d9, d10⟩ := cent_ok hc'
  simp only [h1, h2, h3, h4, h5, h1', h2', h3', h4', h5', c1, c2, c3, c4, c5, c6, c7, c8, c9, c10,
    d1, d2, d3, d4, d5, d6, d7, d8, d9, d10, hsums, and_self]

/-! ### Non-vacuity -/

theorem exNoOverlap : NoOverlap exSection.elements := by
  simp only [NoOverlap, exSection, List.pairwise_cons, List.mem_singleton, forall_eq,
    List.not_mem_nil, false_imp_iff, implies_true, List.Pairwise.nil, and_true]
  refine measure_mono_null ?_ (volume_degenerate (A := (0, 0)) (B := (2, 1)) (C := (2, 1)) ?_)
  · rintro p ⟨h0, h1⟩
    rw [elemRegion, Spec.triangle, convexHull_triple_eq_image] at h0 h1
    obtain ⟨⟨a, b⟩, ⟨ha, hb, hab⟩, rfl⟩ := h0
    obtain ⟨⟨c, d⟩, ⟨hc, hd, hcd⟩, h⟩ := h1
    simp only [exT0, exT1, cornerA, cornerB, cornerC, gather, triMap, exV] at *
    simp at h ⊢
    obtain ⟨e1, e2⟩ := h
    have hb0 : b = 0 := by linarith
    rw [Spec.triangle, convexHull_triple_eq_image]
    refine ⟨(a, b), ⟨ha, hb, hab⟩, ?_⟩
    simp only [triMap, Prod.mk.injEq]
    constructor <;> linarith
  · simp [signedArea2]

/-- Non-vacuity of C01 and C02: the two-material example section satisfies all hypotheses, and the
stored area is that of the `2 × 1` rectangle. -/
example : ∃ r, exSection.geometricAnalysis = .ok r ∧ r.sums.area = 2 ∧
    (∀ t ∈ exSection.elements, Proper t.coords) ∧ NoOverlap exSection.elements ∧
    ∃ E, IsField exSection.elements Material.elasticModulus E := by
  obtain ⟨r, hr⟩ := geometricAnalysis_ok exSection (by simp [exSection])
  refine ⟨r, hr, ?_, exSection_good.proper, exNoOverlap, exists_field exNoOverlap _⟩
  have h0 : Straight exT0.coords := (exSection_good.proper exT0 (List.mem_cons_self ..)).1
  have h1 : Straight exT1.coords := (exSection_good.proper exT1
    (List.mem_cons_of_mem _ (List.mem_cons_self ..))).1
  rw [(geom_ok hr).1]
  simp only [geomSums, accum_eq_sum]
  simp only [exSection, List.map_cons, List.map_nil, List.sum_cons, List.sum_nil, geom_area h0,
    geom_area h1]
  simp [elemDet, signedArea2, exT0, exT1, cornerA, cornerB, cornerC, gather, exV]
  norm_num

end SP
