import Verif.Lemmas.OutlinePoly
import Verif.Model.Outline
import Verif.Props.Outline

/-!
# C89: the results agree with the geometry
-/

namespace SP

open Spec MeasureTheory Set

theorem abs_sign (x : ℝ) : ((SignType.sign x : SignType) : ℝ) * x = |x| := by
  rcases lt_trichotomy x 0 with h | h | h
  · rw [sign_neg h, abs_of_neg h]; simp
  · rw [h]; simp
  · rw [sign_pos h, abs_of_pos h]; simp

theorem sign_cast_neg (σ : SignType) : ((-σ : SignType) : ℝ) = - (σ : ℝ) := by cases σ <;> simp

theorem edgeSum_congr {l : List DirEdge} {f g : ℝ × ℝ → ℝ × ℝ → ℝ} (h : ∀ a b, f a b = g a b) : edgeSum l f = edgeSum l g := by
  rw [edgeSum, edgeSum]
  exact congrArg _ (List.map_congr_left fun e _ => h e.1 e.2)

theorem sum_map_neg' {α : Type*} (L : List α) (F : α → ℝ) : (L.map fun a => - F a).sum = - (L.map F).sum := by
  induction L with
  | nil => simp
  | cons a L ih => rw [List.map_cons, List.sum_cons, ih, List.map_cons, List.sum_cons]; ring

theorem outlineArea_poly (p : Poly) : outlineArea (polyEdges p) = p.area := by
  rw [outlineArea, polyEdges, edgeSum_append, edgeSum_flatMap, edgeSum_orient _ _ fun a b => by simp only [cross]; ring, Poly.area]
  have h : ∀ r : List (ℝ × ℝ), edgeSum (closedEdges r) (fun a b => cross a b / 2) = ringArea2 r / 2 := fun r => by
    rw [ringArea2_outline, outlineArea]; ring
  rw [h, ← abs_sign (ringArea2 p.exterior), sub_eq_add_neg, ← sum_map_neg']
  congr 1
  · ring
  · refine congrArg _ (List.map_congr_left fun r _ => ?_)
    rw [edgeSum_orient _ _ fun a b => by simp only [cross]; ring, h, sign_cast_neg, ← abs_sign (ringArea2 r)]
    ring

theorem outlineQy_poly (p : Poly) : outlineQy (polyEdges p) = p.moment.1 := by
  rw [outlineQy, polyEdges, edgeSum_append, edgeSum_flatMap, edgeSum_orient _ _ fun a b => by simp only [cross]; ring]
  have h : ∀ r : List (ℝ × ℝ), edgeSum (closedEdges r) (fun a b => cross a b * (a.1 + b.1) / 6) = (ringMoment6 r).1 / 6 := fun r => by
    rw [edgeSum, ringMoment6, ringEdges_closed, div_eq_mul_inv _ (6 : ℝ), mul_comm, ← List.sum_map_mul_left]
    exact congrArg _ (List.map_congr_left fun e _ => by simp only [cross]; ring)
  simp only [Poly.moment]
  rw [h, sub_eq_add_neg, ← sum_map_neg']
  congr 1
  · ring
  · refine congrArg _ (List.map_congr_left fun r _ => ?_)
    rw [edgeSum_orient _ _ fun a b => by simp only [cross]; ring, h, sign_cast_neg]
    ring

theorem outlineQx_poly (p : Poly) : outlineQx (polyEdges p) = p.moment.2 := by
  rw [outlineQx, polyEdges, edgeSum_append, edgeSum_flatMap, edgeSum_orient _ _ fun a b => by simp only [cross]; ring]
  have h : ∀ r : List (ℝ × ℝ), edgeSum (closedEdges r) (fun a b => cross a b * (a.2 + b.2) / 6) = (ringMoment6 r).2 / 6 := fun r => by
    rw [edgeSum, ringMoment6, ringEdges_closed, div_eq_mul_inv _ (6 : ℝ), mul_comm, ← List.sum_map_mul_left]
    exact congrArg _ (List.map_congr_left fun e _ => by simp only [cross]; ring)
  simp only [Poly.moment]
  rw [h, sub_eq_add_neg, ← sum_map_neg']
  congr 1
  · ring
  · refine congrArg _ (List.map_congr_left fun r _ => ?_)
    rw [edgeSum_orient _ _ fun a b => by simp only [cross]; ring, h, sign_cast_neg]
    ring

/-- The zones of a mesh of geometries. -/
noncomputable def geomEdges (geoms : List Geometry) (i : Fin geoms.length) : List DirEdge := polyEdges geoms[i].poly

theorem meshes_winding {n : ℕ} {els : List (Tri6 n)} {geoms : List Geometry} (h : Meshes els geoms) :
    ∀ᵐ q, ∀ i : Fin geoms.length, (winding (geomEdges geoms i) q = 1 ↔ q ∈ polyRegion geoms[i].poly) ∧
      (winding (geomEdges geoms i) q = 0 ↔ q ∉ polyRegion geoms[i].poly) := by
  rw [ae_all_iff]
  intro i
  filter_upwards [winding_poly (h.valid geoms[i] (List.getElem_mem _))] with q hq
  rw [geomEdges, hq]
  by_cases hm : q ∈ polyRegion geoms[i].poly
  · rw [if_pos hm]; simp; exact hm
  · rw [if_neg hm]; simp; exact hm

theorem meshes_zones {n : ℕ} {els : List (Tri6 n)} {geoms : List Geometry} (h : Meshes els geoms) :
    Zones els Finset.univ (geomEdges geoms) := by
  refine ⟨fun i _ => closed_poly _, ?_, ?_, ?_⟩
  · filter_upwards [meshes_winding h] with q hq i _
    by_cases hm : q ∈ polyRegion geoms[i].poly
    · exact .inr ((hq i).1.2 hm)
    · exact .inl ((hq i).2.2 hm)
  · have hap : ∀ i j : Fin geoms.length, i ≠ j → ∀ᵐ q, q ∉ polyRegion geoms[i].poly ∩ polyRegion geoms[j].poly := by
      intro i j hij
      rw [← measure_eq_zero_iff_ae_notMem]
      rcases lt_or_gt_of_ne hij with hl | hl
      · exact List.pairwise_iff_getElem.1 h.apart i j i.2 j.2 hl
      · rw [inter_comm]
        exact List.pairwise_iff_getElem.1 h.apart j i j.2 i.2 hl
    have hall : ∀ᵐ q, ∀ i j : Fin geoms.length, i ≠ j → q ∉ polyRegion geoms[i].poly ∩ polyRegion geoms[j].poly := by
      simp only [ae_all_iff]
      exact hap
    filter_upwards [meshes_winding h, hall] with q hq ha i _ j _ hij
    by_cases hm : q ∈ polyRegion geoms[i].poly
    · exact .inr ((hq j).2.2 fun hj => ha i j hij ⟨hm, hj⟩)
    · exact .inl ((hq i).2.2 hm)
  · filter_upwards [meshes_winding h, h.covers.mem_iff] with q hq hc
    rw [hc]
    constructor
    · rintro ⟨g, hg, hm⟩
      obtain ⟨i, hi, rfl⟩ := List.mem_iff_getElem.1 hg
      exact ⟨⟨i, hi⟩, Finset.mem_univ _, (hq ⟨i, hi⟩).1.2 hm⟩
    · rintro ⟨i, -, hw⟩
      exact ⟨geoms[i], List.getElem_mem _, (hq i).1.1 hw⟩

theorem meshes_inZones {n : ℕ} {els : List (Tri6 n)} {geoms : List Geometry} (h : Meshes els geoms) (prop : Material → ℝ) :
    InZones els Finset.univ (geomEdges geoms) prop fun i => prop geoms[i].material := by
  intro t ht i _
  filter_upwards [meshes_winding h, h.material t ht geoms[i] (List.getElem_mem _)] with q hq hm h1 h2
  rw [hm h1 ((hq i).1.1 h2)]

theorem sum_geoms (geoms : List Geometry) (F : Geometry → ℝ) : ∑ i : Fin geoms.length, F geoms[i] = (geoms.map F).sum := by
  rw [← List.sum_ofFn]
  congr 1
  apply List.ext_getElem
  · simp
  · intro i h1 h2
    simp

variable {s : Section} {r : GeomResults} {geoms : List Geometry}

/-- **C89** For every mesh that fills the geometry, the area of the section is the area of the geometry, and mass, axial rigidity and
first moments add up over its parts. -/
theorem C89_geometry (hr : s.geometricAnalysis = .ok r) (hp : ∀ t ∈ s.elements, Proper t.coords) (hno : NoOverlap s.elements)
    (h : Meshes s.elements geoms) :
    r.sums.area = (geoms.map Geometry.calculateArea).sum ∧
    r.sums.mass = (geoms.map fun g => g.material.density * g.calculateArea).sum ∧
    r.sums.ea = (geoms.map fun g => g.material.elasticModulus * g.calculateArea).sum ∧
    r.sums.qx = (geoms.map fun g => g.material.elasticModulus * g.poly.moment.2).sum ∧
    r.sums.qy = (geoms.map fun g => g.material.elasticModulus * g.poly.moment.1).sum := by
  have hZ := meshes_zones h
  obtain ⟨b1, b2, b3, b4, -⟩ := C89_sums hr hp hno hZ (meshes_inZones h _)
  have harea : ∀ i : Fin geoms.length, outlineArea (geomEdges geoms i) = geoms[i].calculateArea := fun i => outlineArea_poly _
  refine ⟨?_, ?_, ?_, ?_, ?_⟩
  · rw [b1, ← sum_geoms]
    exact Finset.sum_congr rfl fun i _ => harea i
  · obtain ⟨E, hE⟩ := exists_field hno Material.elasticModulus
    obtain ⟨G, hG⟩ := exists_field hno fun m => m.elasticModulus / (2 * (1 + m.poissonsRatio))
    have hF := zoneField_isField hZ (meshes_inZones h Material.density)
    obtain ⟨-, a2, -⟩ := C01_exact hr hp hno hE hG hF
    have := zone_integral hZ (fun i => Material.density geoms[i].material) (fun _ => 1)
      fun i _ => (winding_int (closed_poly geoms[i].poly)).1
    simp only [mul_one] at this
    rw [a2, this, ← sum_geoms]
    refine Finset.sum_congr rfl fun i _ => ?_
    have h1 := (winding_int (closed_poly geoms[i].poly)).2.2.2.2.2.2.1
    simp only [mul_one] at h1
    rw [geomEdges, h1, outlineArea_poly]
    rfl
  · rw [b2, ← sum_geoms]
    exact Finset.sum_congr rfl fun i _ => by rw [harea i]
  · rw [b3, ← sum_geoms]
    exact Finset.sum_congr rfl fun i _ => by rw [geomEdges, outlineQx_poly]
  · rw [b4, ← sum_geoms]
    exact Finset.sum_congr rfl fun i _ => by rw [geomEdges, outlineQy_poly]

open Classical in
/-- A valid polygon has no negative area, and no first moments if it has no area. -/
theorem poly_area {p : Poly} (h : ValidPoly p) : 0 ≤ p.area ∧ (p.area = 0 → p.moment = 0) := by
  obtain ⟨i1, -, -, -, -, -, e1, e2, e3, -⟩ := winding_int (closed_poly p)
  rw [outlineArea_poly] at e1
  rw [outlineQx_poly] at e2
  rw [outlineQy_poly] at e3
  have hn : ∀ᵐ q, (0 : ℝ) ≤ (winding (polyEdges p) q : ℝ) * 1 := by
    filter_upwards [winding_poly h] with q hq
    rw [hq]
    split_ifs <;> simp
  refine ⟨by rw [← e1]; exact integral_nonneg_of_ae hn, fun h0 => ?_⟩
  rw [← e1] at h0
  have hz := (integral_eq_zero_iff_of_nonneg_ae hn i1).1 h0
  have h1 : ∫ q, (winding (polyEdges p) q : ℝ) * q.1 = 0 := by
    rw [← integral_zero (ℝ × ℝ) ℝ]
    refine integral_congr_ae ?_
    filter_upwards [hz] with q hq
    have : (winding (polyEdges p) q : ℝ) = 0 := by simpa using hq
    rw [this, zero_mul]
  have h2 : ∫ q, (winding (polyEdges p) q : ℝ) * q.2 = 0 := by
    rw [← integral_zero (ℝ × ℝ) ℝ]
    refine integral_congr_ae ?_
    filter_upwards [hz] with q hq
    have : (winding (polyEdges p) q : ℝ) = 0 := by simpa using hq
    rw [this, zero_mul]
  exact Prod.ext (by rw [← e3, h1]; rfl) (by rw [← e2, h2]; rfl)

/-- **C89** The elastic centroid of the section is the point that `align_center` takes for the centroid of the geometry. -/
theorem C89_centroid (hr : s.geometricAnalysis = .ok r) (hp : ∀ t ∈ s.elements, Proper t.coords) (hno : NoOverlap s.elements)
    {c : Compound} (h : Meshes s.elements c.geoms) : (r.cx, r.cy) = c.weightedCentroid := by
  obtain ⟨-, -, b2, b3, b4⟩ := C89_geometry hr hp hno h
  obtain ⟨hs, -, -, -, -, hcx, hcy⟩ := geom_ok hr
  have ex : r.cx = r.sums.qy / r.sums.ea := by rw [hcx, hs]; rfl
  have ey : r.cy = r.sums.qx / r.sums.ea := by rw [hcy, hs]; rfl
  have hm : ∀ g ∈ c.geoms, g.poly.centroid.1 * (g.material.elasticModulus * g.poly.area) = g.material.elasticModulus * g.poly.moment.1 ∧
      g.poly.centroid.2 * (g.material.elasticModulus * g.poly.area) = g.material.elasticModulus * g.poly.moment.2 := by
    intro g hg
    simp only [Poly.centroid]
    by_cases h0 : g.poly.area = 0
    · rw [(poly_area (h.valid g hg)).2 h0, h0]
      simp
    · constructor <;> field_simp
  rw [ex, ey, b2, b3, b4, Compound.weightedCentroid]
  simp only [accum_eq_sum]
  rw [List.map_congr_left fun g hg => (hm g hg).1, List.map_congr_left fun g hg => (hm g hg).2]
  rfl

/-- **C89** If all parts have the same modulus, it is the centroid that the geometry reports. -/
theorem C89_centroid_homogeneous (hr : s.geometricAnalysis = .ok r) (hp : ∀ t ∈ s.elements, Proper t.coords)
    (hno : NoOverlap s.elements) {c : Compound} (h : Meshes s.elements c.geoms) {e : ℝ} (he : e ≠ 0)
    (hc : ∀ g ∈ c.geoms, g.material.elasticModulus = e) : (r.cx, r.cy) = c.calculateCentroid := by
  obtain ⟨-, -, b2, b3, b4⟩ := C89_geometry hr hp hno h
  obtain ⟨hs, -, -, -, -, hcx, hcy⟩ := geom_ok hr
  have ex : r.cx = r.sums.qy / r.sums.ea := by rw [hcx, hs]; rfl
  have ey : r.cy = r.sums.qx / r.sums.ea := by rw [hcy, hs]; rfl
  have hE : ∀ F : Geometry → ℝ, (c.geoms.map fun g => g.material.elasticModulus * F g).sum = e * (c.geoms.map F).sum := fun F => by
    rw [← List.sum_map_mul_left]
    exact congrArg _ (List.map_congr_left fun g hg => by rw [hc g hg])
  rw [ex, ey, b2, b3, b4, hE, hE, hE, mul_div_mul_left _ _ he, mul_div_mul_left _ _ he]
  rfl

/-- **C89** A section of one geometry has its centroid where the geometry reports it. -/
theorem C89_centroid_single (hr : s.geometricAnalysis = .ok r) (hp : ∀ t ∈ s.elements, Proper t.coords)
    (hno : NoOverlap s.elements) {g : Geometry} (h : Meshes s.elements [g]) (he : g.material.elasticModulus ≠ 0) :
    r.sums.area = g.calculateArea ∧ (r.cx, r.cy) = g.calculateCentroid := by
  obtain ⟨b1, -, b2, b3, b4⟩ := C89_geometry hr hp hno h
  obtain ⟨hs, -, -, -, -, hcx, hcy⟩ := geom_ok hr
  have ex : r.cx = r.sums.qy / r.sums.ea := by rw [hcx, hs]; rfl
  have ey : r.cy = r.sums.qx / r.sums.ea := by rw [hcy, hs]; rfl
  simp only [List.map_cons, List.map_nil, List.sum_cons, List.sum_nil, add_zero] at b1 b2 b3 b4
  refine ⟨b1, ?_⟩
  rw [ex, ey, b2, b3, b4, mul_div_mul_left _ _ he, mul_div_mul_left _ _ he]
  rfl

end SP
