import Verif.Lemmas.Rects
import Verif.Props.Exact
import Verif.Props.Transform
import Verif.Props.TorsionBound
import Verif.Props.TorsionRects
import Verif.Props.PlasticLimit

/-!
# C88: sections made of rectangles have the values of the textbooks
-/

namespace SP

open Spec MeasureTheory Set

variable {ι : Type*} {S : Finset ι} {R : ι → Rect} {e : ι → ℝ} {s : Section} {r : GeomResults}

/-- **C88** Area, first and second moments of a section made of rectangles are the sums of those of the rectangles, each with
its modulus. -/
theorem C88_sums (hr : s.geometricAnalysis = .ok r) (hp : ∀ t ∈ s.elements, Proper t.coords) (hno : NoOverlap s.elements)
    (hR : Rectangles s.elements S R) (hE : InRects s.elements S R Material.elasticModulus e) :
    r.sums.area = ∑ i ∈ S, (R i).area ∧
    r.sums.ea = ∑ i ∈ S, e i * (R i).area ∧
    r.sums.qx = ∑ i ∈ S, e i * ((R i).area * (R i).midY) ∧
    r.sums.qy = ∑ i ∈ S, e i * ((R i).area * (R i).midX) ∧
    r.sums.ixxG = ∑ i ∈ S, e i * ((R i).width * (R i).height ^ 3 / 12 + (R i).area * (R i).midY ^ 2) ∧
    r.sums.iyyG = ∑ i ∈ S, e i * ((R i).height * (R i).width ^ 3 / 12 + (R i).area * (R i).midX ^ 2) ∧
    r.sums.ixyG = ∑ i ∈ S, e i * ((R i).area * ((R i).midX * (R i).midY)) := by
  have hF := rectField_isField hR hE
  obtain ⟨G, hG⟩ := exists_field hno fun m => m.elasticModulus / (2 * (1 + m.poissonsRatio))
  obtain ⟨ρ, hρ⟩ := exists_field hno Material.density
  obtain ⟨a1, -, a3, -, a5, a6, a7, a8, a9⟩ := C01_exact hr hp hno hF hG hρ
  have hm := fun i hi => inside_moments (hR.width i hi) (hR.height i hi)
  have c1 : Continuous fun _ : ℝ × ℝ => (1 : ℝ) := continuous_const
  refine ⟨?_, ?_, ?_, ?_, ?_, ?_, ?_⟩
  · have h1 : ∫ p in region s.elements, (1 : ℝ) = ∫ p in region s.elements, rectField S R (fun _ => 1) p * 1 := by
      rw [setIntegral_congr_set hR.covers, setIntegral_congr_set hR.covers]
      refine setIntegral_congr_fun rects_open.measurableSet fun p hp => ?_
      obtain ⟨i, hi, hpi⟩ := mem_iUnion₂.1 hp
      simp only [rectField_eq hR _ hi hpi, mul_one]
    rw [a1, h1, rect_integral hR _ c1]
    exact Finset.sum_congr rfl fun i hi => by rw [(hm i hi).1, one_mul]
  · have := rect_integral hR e c1
    simp only [mul_one] at this
    rw [a3, this]
    exact Finset.sum_congr rfl fun i hi => by rw [(hm i hi).1]
  · rw [a5, rect_integral hR e continuous_snd]
    exact Finset.sum_congr rfl fun i hi => by rw [(hm i hi).2.1]
  · rw [a6, rect_integral hR e continuous_fst]
    exact Finset.sum_congr rfl fun i hi => by rw [(hm i hi).2.2.1]
  · rw [a7, rect_integral hR e (f := fun p => p.2 ^ 2) (by fun_prop)]
    exact Finset.sum_congr rfl fun i hi => by rw [(hm i hi).2.2.2.1]
  · rw [a8, rect_integral hR e (f := fun p => p.1 ^ 2) (by fun_prop)]
    exact Finset.sum_congr rfl fun i hi => by rw [(hm i hi).2.2.2.2.1]
  · rw [a9, rect_integral hR e (f := fun p => p.1 * p.2) (by fun_prop)]
    exact Finset.sum_congr rfl fun i hi => by rw [(hm i hi).2.2.2.2.2]

/-- **C88** The centroid is the weighted mean of the centres of the rectangles, and the second moments about it follow the
parallel axis theorem. -/
theorem C88_parallel_axis (hr : s.geometricAnalysis = .ok r) (h : Physical s.elements) (hno : NoOverlap s.elements)
    (hR : Rectangles s.elements S R) (hE : InRects s.elements S R Material.elasticModulus e) :
    r.cx = (∑ i ∈ S, e i * ((R i).area * (R i).midX)) / ∑ i ∈ S, e i * (R i).area ∧
    r.cy = (∑ i ∈ S, e i * ((R i).area * (R i).midY)) / ∑ i ∈ S, e i * (R i).area ∧
    r.cent.ixxC = ∑ i ∈ S, e i * ((R i).width * (R i).height ^ 3 / 12 + (R i).area * ((R i).midY - r.cy) ^ 2) ∧
    r.cent.iyyC = ∑ i ∈ S, e i * ((R i).height * (R i).width ^ 3 / 12 + (R i).area * ((R i).midX - r.cx) ^ 2) ∧
    r.cent.ixyC = ∑ i ∈ S, e i * ((R i).area * (((R i).midX - r.cx) * ((R i).midY - r.cy))) := by
  obtain ⟨-, b2, b3, b4, b5, b6, b7⟩ := C88_sums hr h.proper hno hR hE
  obtain ⟨-, p2, -⟩ := C09_positive hr h
  obtain ⟨hs, hc, -, -, -, hcx, hcy⟩ := geom_ok hr
  obtain ⟨c1, c2, c3, -⟩ := cent_ok hc
  have hea : r.sums.ea ≠ 0 := p2.ne'
  have ex : r.cx = r.sums.qy / r.sums.ea := by rw [hcx, hs]; rfl
  have ey : r.cy = r.sums.qx / r.sums.ea := by rw [hcy, hs]; rfl
  refine ⟨by rw [ex, b4, b2], by rw [ey, b3, b2], ?_, ?_, ?_⟩
  · have e1 : r.cent.ixxC = r.sums.ixxG - 2 * r.cy * r.sums.qx + r.cy ^ 2 * r.sums.ea := by
      rw [c1, ey, hs]
      simp only [GeomSums.ixxC]
      rw [hs] at hea
      field_simp
      ring
    rw [e1, b5, b3, b2, Finset.mul_sum, Finset.mul_sum, ← Finset.sum_sub_distrib, ← Finset.sum_add_distrib]
    exact Finset.sum_congr rfl fun i _ => by ring
  · have e1 : r.cent.iyyC = r.sums.iyyG - 2 * r.cx * r.sums.qy + r.cx ^ 2 * r.sums.ea := by
      rw [c2, ex, hs]
      simp only [GeomSums.iyyC]
      rw [hs] at hea
      field_simp
      ring
    rw [e1, b6, b4, b2, Finset.mul_sum, Finset.mul_sum, ← Finset.sum_sub_distrib, ← Finset.sum_add_distrib]
    exact Finset.sum_congr rfl fun i _ => by ring
  · have e1 : r.cent.ixyC = r.sums.ixyG - r.cx * r.sums.qx - r.cy * r.sums.qy + r.cx * r.cy * r.sums.ea := by
      rw [c3, ex, ey, hs]
      simp only [GeomSums.ixyC]
      rw [hs] at hea
      field_simp
      ring
    rw [e1, b7, b3, b4, b2, Finset.mul_sum, Finset.mul_sum, Finset.mul_sum, ← Finset.sum_sub_distrib,
      ← Finset.sum_sub_distrib, ← Finset.sum_add_distrib]
    exact Finset.sum_congr rfl fun i _ => by ring

/-- The closed rectangle is in the region. -/
theorem rects_region (hp : ∀ t ∈ s.elements, Proper t.coords) (hR : Rectangles s.elements S R) :
    region s.elements = ⋃ i ∈ S, Icc (R i).x0 (R i).x1 ×ˢ Icc (R i).y0 (R i).y1 := by
  rw [region_eq_closure hp rects_open hR.covers, Finset.closure_biUnion]
  refine iUnion₂_congr fun i hi => ?_
  have h1 := hR.width i hi
  have h2 := hR.height i hi
  rw [Rect.width, sub_pos] at h1
  rw [Rect.height, sub_pos] at h2
  rw [Rect.inside, closure_prod_eq, closure_Ioo h1.ne, closure_Ioo h2.ne]

/-- **C88** The section moduli are the second moments over the distances of the centroid from the outermost edges of the
rectangles. -/
theorem C88_moduli (hr : s.geometricAnalysis = .ok r) (h : Physical s.elements) (hg : GoodSection s) (hu : NodesUsed s)
    (hR : Rectangles s.elements S R) {right left top bottom : ℝ}
    (h1 : IsGreatest ((fun i => (R i).x1) '' S) right) (h2 : IsLeast ((fun i => (R i).x0) '' S) left)
    (h3 : IsGreatest ((fun i => (R i).y1) '' S) top) (h4 : IsLeast ((fun i => (R i).y0) '' S) bottom) :
    (bottom < r.cy ∧ r.cy < top) ∧ (left < r.cx ∧ r.cx < right) ∧
    r.cent.zxxPlus = r.cent.ixxC / (top - r.cy) ∧ r.cent.zxxMinus = r.cent.ixxC / (r.cy - bottom) ∧
    r.cent.zyyPlus = r.cent.iyyC / (right - r.cx) ∧ r.cent.zyyMinus = r.cent.iyyC / (r.cx - left) := by
  have hreg := rects_region h.proper hR
  have hw : ∀ i ∈ S, (R i).x0 ≤ (R i).x1 := fun i hi => by
    have := hR.width i hi
    rw [Rect.width] at this
    linarith
  have hh : ∀ i ∈ S, (R i).y0 ≤ (R i).y1 := fun i hi => by
    have := hR.height i hi
    rw [Rect.height] at this
    linarith
  have ext : ∀ {f : ℝ × ℝ → ℝ} {d : ℝ}, (∀ i ∈ S, ∀ x ∈ Icc (R i).x0 (R i).x1, ∀ y ∈ Icc (R i).y0 (R i).y1, f (x, y) ≤ d) →
      (∃ i ∈ S, ∃ x ∈ Icc (R i).x0 (R i).x1, ∃ y ∈ Icc (R i).y0 (R i).y1, f (x, y) = d) →
      IsGreatest (f '' region s.elements) d := by
    rintro f d hle ⟨i, hi, x, hx, y, hy, he⟩
    rw [hreg]
    refine ⟨⟨(x, y), mem_biUnion hi ⟨hx, hy⟩, he⟩, ?_⟩
    rintro _ ⟨p, hp, rfl⟩
    obtain ⟨i, hi, hpi⟩ := mem_iUnion₂.1 hp
    exact hle i hi _ hpi.1 _ hpi.2
  have ext' : ∀ {f : ℝ × ℝ → ℝ} {d : ℝ}, (∀ i ∈ S, ∀ x ∈ Icc (R i).x0 (R i).x1, ∀ y ∈ Icc (R i).y0 (R i).y1, d ≤ f (x, y)) →
      (∃ i ∈ S, ∃ x ∈ Icc (R i).x0 (R i).x1, ∃ y ∈ Icc (R i).y0 (R i).y1, f (x, y) = d) →
      IsLeast (f '' region s.elements) d := by
    rintro f d hle ⟨i, hi, x, hx, y, hy, he⟩
    rw [hreg]
    refine ⟨⟨(x, y), mem_biUnion hi ⟨hx, hy⟩, he⟩, ?_⟩
    rintro _ ⟨p, hp, rfl⟩
    obtain ⟨i, hi, hpi⟩ := mem_iUnion₂.1 hp
    exact hle i hi _ hpi.1 _ hpi.2
  obtain ⟨⟨i1, hi1, e1⟩, g1⟩ := h1
  obtain ⟨⟨i2, hi2, e2⟩, g2⟩ := h2
  obtain ⟨⟨i3, hi3, e3⟩, g3⟩ := h3
  obtain ⟨⟨i4, hi4, e4⟩, g4⟩ := h4
  simp only at e1 e2 e3 e4
  obtain ⟨dp, dm, hp, hm, gp, gm, hz⟩ := C12_region hr h hg hu .xx
  obtain ⟨dp', dm', hp', hm', gp', gm', hz'⟩ := C12_region hr h hg hu .yy
  have k1 : dp = top - r.cy := gp.unique (ext (fun i hi x hx y hy => by
      have := g3 ⟨i, hi, rfl⟩
      simp only [fibreAt]
      linarith [hy.2]) ⟨i3, hi3, _, left_mem_Icc.2 (hw _ hi3), _, right_mem_Icc.2 (hh _ hi3), by simp only [fibreAt, e3]⟩)
  have k2 : -dm = bottom - r.cy := gm.unique (ext' (fun i hi x hx y hy => by
      have := g4 ⟨i, hi, rfl⟩
      simp only [fibreAt]
      linarith [hy.1]) ⟨i4, hi4, _, left_mem_Icc.2 (hw _ hi4), _, left_mem_Icc.2 (hh _ hi4), by simp only [fibreAt, e4]⟩)
  have k3 : dp' = right - r.cx := gp'.unique (ext (fun i hi x hx y hy => by
      have := g1 ⟨i, hi, rfl⟩
      simp only [fibreAt]
      linarith [hx.2]) ⟨i1, hi1, _, right_mem_Icc.2 (hw _ hi1), _, left_mem_Icc.2 (hh _ hi1), by simp only [fibreAt, e1]⟩)
  have k4 : -dm' = left - r.cx := gm'.unique (ext' (fun i hi x hx y hy => by
      have := g2 ⟨i, hi, rfl⟩
      simp only [fibreAt]
      linarith [hx.1]) ⟨i2, hi2, _, left_mem_Icc.2 (hw _ hi2), _, left_mem_Icc.2 (hh _ hi2), by simp only [fibreAt, e2]⟩)
  have k2' : dm = r.cy - bottom := by linarith
  have k4' : dm' = r.cx - left := by linarith
  simp only [axisZ, axisInertia, Prod.mk.injEq] at hz hz'
  rw [k1, k2'] at hz
  rw [k3, k4'] at hz'
  exact ⟨⟨by linarith, by linarith⟩, ⟨by linarith, by linarith⟩, hz.1, hz.2, hz'.1, hz'.2⟩

/-- **C88** The torsion constant is between the sum of `5/18 w³ h³ / (w² + h²)` over the rectangles, each with its modulus, and
`4 (Ixx Iyy - Ixy²) / (Ixx + Iyy)`. -/
theorem C88_torsion (hg : GoodSection s) (h : Physical s.elements) (hc : ConformingMesh s.meshNodes s.elements)
    (hno : NoOverlap s.elements) (hr : s.geometricAnalysis = .ok r) (sv : Solvers) (ty : SolverType)
    (w : WarpResults s.numNodes) (hw : s.warping sv ty r = .ok w)
    (hex : SolvesBordered (assembleTorsion (s.elements.map fun t => t.shiftBy r.cx r.cy)).1
      (assembleTorsion (s.elements.map fun t => t.shiftBy r.cx r.cy)).2 w.omega)
    (hR : Rectangles s.elements S R) (hE : InRects s.elements S R Material.elasticModulus e) :
    ∑ i ∈ S, e i * (5 / 18 * ((R i).width ^ 3 * (R i).height ^ 3 / ((R i).width ^ 2 + (R i).height ^ 2))) ≤ w.j ∧
    w.j ≤ 4 * (r.cent.ixxC * r.cent.iyyC - r.cent.ixyC ^ 2) / (r.cent.ixxC + r.cent.iyyC) := by
  refine ⟨?_, (C82_torsion_bound s r hg h hr sv ty w hw hex).2.1⟩
  have hreg := rects_region h.proper hR
  have hin : ∀ i ∈ S, (R i).inside ⊆ region s.elements := fun i hi p hp => by
    rw [hreg]
    exact mem_biUnion hi ⟨Ioo_subset_Icc_self hp.1, Ioo_subset_Icc_self hp.2⟩
  have hmeet : ∀ t ∈ s.elements, ∀ i ∈ S, (elemRegion t.coords ∩ (R i).inside).Nonempty → t.material.elasticModulus = e i := by
    rintro t ht i hi ⟨p, hp, hpi⟩
    have hcl : elemRegion t.coords ⊆ closure (interior (elemRegion t.coords)) := by
      rw [(convex_elemRegion _).closure_interior_eq_closure_of_nonempty_interior (elem_interior_nonempty (h.proper t ht))]
      exact subset_closure
    obtain ⟨q, hq1, hq2⟩ := mem_closure_iff.1 (hcl hp) _ (isOpen_inside (R i)) hpi
    exact hE t ht i hi ⟨q, hq2, hq1⟩
  have hpos : ∀ i ∈ S, 0 < e i := by
    intro i hi
    have h1 := hR.width i hi
    have h2 := hR.height i hi
    rw [Rect.width] at h1
    rw [Rect.height] at h2
    have hm : ((R i).midX, (R i).midY) ∈ (R i).inside := by
      simp only [Rect.inside, Rect.midX, Rect.midY, mem_prod, mem_Ioo]
      exact ⟨⟨by linarith, by linarith⟩, by linarith, by linarith⟩
    obtain ⟨t, ht, hpt⟩ := hin i hi hm
    rw [← hmeet t ht i hi ⟨_, hpt, hm⟩]
    exact h.modulus t ht
  exact C87_rectangles s r hg h hc hno hr sv ty w hw hex (fun i hi => sub_pos.1 (hR.width i hi))
    (fun i hi => sub_pos.1 (hR.height i hi)) hR.apart hin hpos fun t ht i hi hne => (hmeet t ht i hi hne).ge

end SP
