import Verif.Spec.Rects
import Verif.Lemmas.Integrals
import Verif.Lemmas.Refine
import Mathlib.Analysis.Convex.Measure
import Mathlib.MeasureTheory.Integral.Prod
import Mathlib.Analysis.SpecialFunctions.Integrals.Basic

/-!
# Integrals over sections made of rectangles
-/

namespace SP

open Spec MeasureTheory Set

variable {n : ℕ} {ι : Type*} {els : List (Tri6 n)} {S : Finset ι} {R : ι → Rect}

theorem convex_elemRegion (c : Coords) : Convex ℝ (elemRegion c) := convex_convexHull ℝ _

theorem ae_interior (c : Coords) : ∀ᵐ p, p ∈ elemRegion c → p ∈ interior (elemRegion c) := by
  have h := (convex_elemRegion c).addHaar_frontier volume
  rw [← compl_mem_ae_iff] at h
  filter_upwards [h] with p hp hpc
  by_contra hn
  exact hp ⟨subset_closure hpc, hn⟩

theorem elem_interior_nonempty {c : Coords} (hp : Proper c) : (interior (elemRegion c)).Nonempty := by
  by_contra hn
  rw [not_nonempty_iff_eq_empty] at hn
  refine volume_elem hp (ae_eq_empty.1 ?_)
  filter_upwards [ae_interior c] with p h
  refine propext ⟨fun hpc => ?_, fun h => h.elim⟩
  have := h hpc
  rw [hn] at this
  exact this

theorem isOpen_inside (R : Rect) : IsOpen R.inside := isOpen_Ioo.prod isOpen_Ioo

theorem rects_open : IsOpen (⋃ i ∈ S, (R i).inside) := isOpen_biUnion fun i _ => isOpen_inside (R i)

theorem isClosed_region (els : List (Tri6 n)) : IsClosed (region els) := by
  have : region els = ⋃ t ∈ {t | t ∈ els}, elemRegion t.coords := by ext p; simp [region]
  rw [this]
  exact (List.finite_toSet els).isClosed_biUnion fun t _ => (isCompact_elemRegion _).isClosed

/-- A mesh that covers an open set up to a null set covers exactly its closure. -/
theorem region_eq_closure (hp : ∀ t ∈ els, Proper t.coords) {U : Set (ℝ × ℝ)} (hU : IsOpen U)
    (h : region els =ᵐ[volume] U) : region els = closure U := by
  apply Subset.antisymm
  · rintro p ⟨t, ht, hpt⟩
    have hint : (interior (elemRegion t.coords)).Nonempty := elem_interior_nonempty (hp t ht)
    have hcl : elemRegion t.coords ⊆ closure (interior (elemRegion t.coords)) := by
      rw [(convex_elemRegion _).closure_interior_eq_closure_of_nonempty_interior hint]
      exact subset_closure
    have hsub : interior (elemRegion t.coords) ⊆ closure U := by
      have ho : IsOpen (interior (elemRegion t.coords) \ closure U) := isOpen_interior.sdiff isClosed_closure
      have hn : volume (interior (elemRegion t.coords) \ closure U) = 0 := by
        refine measure_mono_null (t := region els \ U) ?_ (ae_le_set.1 h.le)
        exact fun q hq => ⟨⟨t, ht, interior_subset hq.1⟩, fun hqU => hq.2 (subset_closure hqU)⟩
      exact sdiff_eq_empty.1 (ho.measure_eq_zero_iff volume |>.1 hn)
    exact closure_minimal hsub isClosed_closure (hcl hpt)
  · refine closure_minimal ?_ (isClosed_region els)
    have ho : IsOpen (U \ region els) := hU.sdiff (isClosed_region els)
    exact sdiff_eq_empty.1 (ho.measure_eq_zero_iff volume |>.1 (ae_le_set.1 h.symm.le))

/-- The field with the value of each rectangle. -/
noncomputable def rectField (S : Finset ι) (R : ι → Rect) (v : ι → ℝ) (p : ℝ × ℝ) : ℝ :=
  ∑ i ∈ S, (R i).inside.indicator (fun _ => v i) p

theorem rectField_eq (h : Rectangles els S R) (v : ι → ℝ) {i : ι} (hi : i ∈ S) {p : ℝ × ℝ} (hp : p ∈ (R i).inside) :
    rectField S R v p = v i := by
  rw [rectField, Finset.sum_eq_single_of_mem i hi, indicator_of_mem hp]
  intro j hj hji
  exact indicator_of_notMem (fun hpj => Set.disjoint_left.1 (h.apart j hj i hi hji) hpj hp) _

theorem rectField_isField (h : Rectangles els S R) {prop : Material → ℝ} {v : ι → ℝ} (hv : InRects els S R prop v) :
    IsField els prop (rectField S R v) := by
  intro t ht
  filter_upwards [ae_interior t.coords, h.covers.mem_iff] with p h1 h2 hp
  obtain ⟨i, hi, hpi⟩ := mem_iUnion₂.1 (h2.1 ⟨t, ht, hp⟩)
  rw [rectField_eq h v hi hpi]
  exact (hv t ht i hi ⟨p, h1 hp, hpi⟩).symm

theorem measurable_inside (R : Rect) : MeasurableSet R.inside := (isOpen_inside R).measurableSet

theorem inside_int (R : Rect) {f : ℝ × ℝ → ℝ} (hf : Continuous f) : IntegrableOn f R.inside :=
  (hf.continuousOn.integrableOn_compact (isCompact_Icc.prod isCompact_Icc)).mono_set
    (prod_mono Ioo_subset_Icc_self Ioo_subset_Icc_self)

/-- An integral over the section, rectangle by rectangle. -/
theorem rect_integral (h : Rectangles els S R) (v : ι → ℝ) {f : ℝ × ℝ → ℝ} (hf : Continuous f) :
    ∫ p in region els, rectField S R v p * f p = ∑ i ∈ S, v i * ∫ p in (R i).inside, f p := by
  rw [setIntegral_congr_set h.covers, integral_biUnion_finset S (fun i _ => measurable_inside (R i))]
  · refine Finset.sum_congr rfl fun i hi => ?_
    rw [← integral_const_mul]
    exact setIntegral_congr_fun (measurable_inside _) fun p hp => by simp only [rectField_eq h v hi hp]
  · exact fun i hi j hj hij => h.apart i hi j hj hij
  · intro i hi
    have : IntegrableOn (fun p => v i * f p) (R i).inside := inside_int _ (continuous_const.mul hf)
    exact this.congr_fun (fun p hp => by simp only [rectField_eq h v hi hp]) (measurable_inside _)

theorem inside_integral {R : Rect} (hw : 0 < R.width) (hh : 0 < R.height) (f g : ℝ → ℝ) :
    ∫ p in R.inside, f p.1 * g p.2 = (∫ x in R.x0..R.x1, f x) * ∫ y in R.y0..R.y1, g y := by
  rw [Rect.width] at hw
  rw [Rect.height] at hh
  rw [Rect.inside, Measure.volume_eq_prod, setIntegral_prod_mul (μ := volume) (ν := volume) f g,
    ← integral_Ioc_eq_integral_Ioo, ← integral_Ioc_eq_integral_Ioo, ← intervalIntegral.integral_of_le (by linarith),
    ← intervalIntegral.integral_of_le (by linarith)]

/-- The moments of a rectangle. -/
theorem inside_moments {R : Rect} (hw : 0 < R.width) (hh : 0 < R.height) :
    ∫ _p in R.inside, (1 : ℝ) = R.area ∧
    ∫ p in R.inside, p.2 = R.area * R.midY ∧ ∫ p in R.inside, p.1 = R.area * R.midX ∧
    ∫ p in R.inside, p.2 ^ 2 = R.width * R.height ^ 3 / 12 + R.area * R.midY ^ 2 ∧
    ∫ p in R.inside, p.1 ^ 2 = R.height * R.width ^ 3 / 12 + R.area * R.midX ^ 2 ∧
    ∫ p in R.inside, p.1 * p.2 = R.area * (R.midX * R.midY) := by
  have e1 := inside_integral hw hh (fun _ => 1) (fun _ => 1)
  have e2 := inside_integral hw hh (fun _ => 1) (fun y => y)
  have e3 := inside_integral hw hh (fun x => x) (fun _ => 1)
  have e4 := inside_integral hw hh (fun _ => 1) (fun y => y ^ 2)
  have e5 := inside_integral hw hh (fun x => x ^ 2) (fun _ => 1)
  have e6 := inside_integral hw hh (fun x => x) (fun y => y)
  simp only [one_mul, mul_one, integral_pow, integral_id, intervalIntegral.integral_const, smul_eq_mul] at e1 e2 e3 e4 e5 e6
  refine ⟨e1.trans ?_, e2.trans ?_, e3.trans ?_, e4.trans ?_, e5.trans ?_, e6.trans ?_⟩ <;>
    simp only [Rect.area, Rect.width, Rect.height, Rect.midX, Rect.midY] <;> (try norm_num) <;> ring

/-- Every rectangle has an element with interior points in it. -/
theorem rect_meets (hp : ∀ t ∈ els, Proper t.coords) (h : Rectangles els S R) {i : ι} (hi : i ∈ S) :
    ∃ t ∈ els, (interior (elemRegion t.coords) ∩ (R i).inside).Nonempty := by
  have h1 := h.width i hi
  have h2 := h.height i hi
  rw [Rect.width] at h1
  rw [Rect.height] at h2
  have hm : ((R i).midX, (R i).midY) ∈ (R i).inside := by
    simp only [Rect.inside, Rect.midX, Rect.midY, mem_prod, mem_Ioo]
    exact ⟨⟨by linarith, by linarith⟩, by linarith, by linarith⟩
  have hr := region_eq_closure hp rects_open h.covers
  obtain ⟨t, ht, hpt⟩ : ((R i).midX, (R i).midY) ∈ region els := by
    rw [hr]
    exact subset_closure (mem_biUnion hi hm)
  have hcl : elemRegion t.coords ⊆ closure (interior (elemRegion t.coords)) := by
    rw [(convex_elemRegion _).closure_interior_eq_closure_of_nonempty_interior (elem_interior_nonempty (hp t ht))]
    exact subset_closure
  obtain ⟨q, hq1, hq2⟩ := mem_closure_iff.1 (hcl hpt) _ (isOpen_inside (R i)) hm
  exact ⟨t, ht, q, hq2, hq1⟩

end SP
