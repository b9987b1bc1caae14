import Verif.Lemmas.Outline
import Verif.Props.Exact
import Verif.Props.Transform
import Verif.Model.Geometry

/-!
# C89: the results follow from the outline
-/

namespace SP

open Spec MeasureTheory Set

variable {ι : Type*} {S : Finset ι} {Z : ι → List ((ℝ × ℝ) × (ℝ × ℝ))} {e : ι → ℝ} {s : Section} {r : GeomResults}

/-- **C89** Area, first and second moments of a section are those of the polygon formulas for the outlines of its zones, whatever the
mesh. -/
theorem C89_sums (hr : s.geometricAnalysis = .ok r) (hp : ∀ t ∈ s.elements, Proper t.coords) (hno : NoOverlap s.elements)
    (hZ : Zones s.elements S Z) (hE : InZones s.elements S Z Material.elasticModulus e) :
    r.sums.area = ∑ i ∈ S, outlineArea (Z i) ∧
    r.sums.ea = ∑ i ∈ S, e i * outlineArea (Z i) ∧
    r.sums.qx = ∑ i ∈ S, e i * outlineQx (Z i) ∧
    r.sums.qy = ∑ i ∈ S, e i * outlineQy (Z i) ∧
    r.sums.ixxG = ∑ i ∈ S, e i * outlineIxx (Z i) ∧
    r.sums.iyyG = ∑ i ∈ S, e i * outlineIyy (Z i) ∧
    r.sums.ixyG = ∑ i ∈ S, e i * outlineIxy (Z i) := by
  have hF := zoneField_isField hZ hE
  obtain ⟨G, hG⟩ := exists_field hno fun m => m.elasticModulus / (2 * (1 + m.poissonsRatio))
  obtain ⟨ρ, hρ⟩ := exists_field hno Material.density
  obtain ⟨a1, -, a3, -, a5, a6, a7, a8, a9⟩ := C01_exact hr hp hno hF hG hρ
  have hw := fun i hi => winding_int (hZ.closed i hi)
  refine ⟨?_, ?_, ?_, ?_, ?_, ?_, ?_⟩
  · have h1 : ∫ p in region s.elements, (1 : ℝ) = ∫ p in region s.elements, zoneField S Z (fun _ => 1) p * 1 := by
      refine setIntegral_congr_ae (isClosed_region _).measurableSet ?_
      filter_upwards [hZ.covers, zoneField_ae hZ fun _ => 1] with p g1 g2 hp
      obtain ⟨i, hi, hw⟩ := g1.1 hp
      rw [g2.1 i hi hw, mul_one]
    rw [a1, h1, zone_integral hZ _ _ fun i hi => (hw i hi).1]
    exact Finset.sum_congr rfl fun i hi => by rw [(hw i hi).2.2.2.2.2.2.1, one_mul]
  · have := zone_integral hZ e (fun _ => 1) fun i hi => (hw i hi).1
    simp only [mul_one] at this
    rw [a3, this]
    exact Finset.sum_congr rfl fun i hi => by
      have := (hw i hi).2.2.2.2.2.2.1
      simp only [mul_one] at this
      rw [this]
  · rw [a5, zone_integral hZ e (fun p => p.2) fun i hi => (hw i hi).2.1]
    exact Finset.sum_congr rfl fun i hi => by rw [(hw i hi).2.2.2.2.2.2.2.1]
  · rw [a6, zone_integral hZ e (fun p => p.1) fun i hi => (hw i hi).2.2.1]
    exact Finset.sum_congr rfl fun i hi => by rw [(hw i hi).2.2.2.2.2.2.2.2.1]
  · rw [a7, zone_integral hZ e (fun p => p.2 ^ 2) fun i hi => (hw i hi).2.2.2.1]
    exact Finset.sum_congr rfl fun i hi => by rw [(hw i hi).2.2.2.2.2.2.2.2.2.1]
  · rw [a8, zone_integral hZ e (fun p => p.1 ^ 2) fun i hi => (hw i hi).2.2.2.2.1]
    exact Finset.sum_congr rfl fun i hi => by rw [(hw i hi).2.2.2.2.2.2.2.2.2.2.1]
  · rw [a9, zone_integral hZ e (fun p => p.1 * p.2) fun i hi => (hw i hi).2.2.2.2.2.1]
    exact Finset.sum_congr rfl fun i hi => by rw [(hw i hi).2.2.2.2.2.2.2.2.2.2.2]

/-- **C89** So are the centroid and the second moments about it. -/
theorem C89_centroidal (hr : s.geometricAnalysis = .ok r) (h : Physical s.elements) (hno : NoOverlap s.elements)
    (hZ : Zones s.elements S Z) (hE : InZones s.elements S Z Material.elasticModulus e) :
    r.cx = (∑ i ∈ S, e i * outlineQy (Z i)) / ∑ i ∈ S, e i * outlineArea (Z i) ∧
    r.cy = (∑ i ∈ S, e i * outlineQx (Z i)) / ∑ i ∈ S, e i * outlineArea (Z i) ∧
    r.cent.ixxC = ∑ i ∈ S, e i * (outlineIxx (Z i) - 2 * r.cy * outlineQx (Z i) + r.cy ^ 2 * outlineArea (Z i)) ∧
    r.cent.iyyC = ∑ i ∈ S, e i * (outlineIyy (Z i) - 2 * r.cx * outlineQy (Z i) + r.cx ^ 2 * outlineArea (Z i)) ∧
    r.cent.ixyC = ∑ i ∈ S, e i * (outlineIxy (Z i) - r.cx * outlineQx (Z i) - r.cy * outlineQy (Z i)
      + r.cx * r.cy * outlineArea (Z i)) := by
  obtain ⟨-, b2, b3, b4, b5, b6, b7⟩ := C89_sums hr h.proper hno hZ hE
  obtain ⟨-, p2, -⟩ := C09_positive hr h
  obtain ⟨hs, hc, -, -, -, hcx, hcy⟩ := geom_ok hr
  obtain ⟨c1, c2, c3, -⟩ := cent_ok hc
  have hea : r.sums.ea ≠ 0 := p2.ne'
  have ex : r.cx = r.sums.qy / r.sums.ea := by rw [hcx, hs]; rfl
  have ey : r.cy = r.sums.qx / r.sums.ea := by rw [hcy, hs]; rfl
  refine ⟨by rw [ex, b4, b2], by rw [ey, b3, b2], ?_, ?_, ?_⟩
  · have e1 : r.cent.ixxC = r.sums.ixxG - 2 * r.cy * r.sums.qx + r.cy ^ 2 * r.sums.ea := by
      rw [c1, ey, hs]
      simp only [GeomSums.ixxC]
      rw [hs] at hea
      field_simp
      ring
    rw [e1, b5, b3, b2, Finset.mul_sum, Finset.mul_sum, ← Finset.sum_sub_distrib, ← Finset.sum_add_distrib]
    exact Finset.sum_congr rfl fun i _ => by ring
  · have e1 : r.cent.iyyC = r.sums.iyyG - 2 * r.cx * r.sums.qy + r.cx ^ 2 * r.sums.ea := by
      rw [c2, ex, hs]
      simp only [GeomSums.iyyC]
      rw [hs] at hea
      field_simp
      ring
    rw [e1, b6, b4, b2, Finset.mul_sum, Finset.mul_sum, ← Finset.sum_sub_distrib, ← Finset.sum_add_distrib]
    exact Finset.sum_congr rfl fun i _ => by ring
  · have e1 : r.cent.ixyC = r.sums.ixyG - r.cx * r.sums.qx - r.cy * r.sums.qy + r.cx * r.cy * r.sums.ea := by
      rw [c3, ex, ey, hs]
      simp only [GeomSums.ixyC]
      rw [hs] at hea
      field_simp
      ring
    rw [e1, b7, b3, b4, b2, Finset.mul_sum, Finset.mul_sum, Finset.mul_sum, ← Finset.sum_sub_distrib,
      ← Finset.sum_sub_distrib, ← Finset.sum_add_distrib]
    exact Finset.sum_congr rfl fun i _ => by ring

end SP
