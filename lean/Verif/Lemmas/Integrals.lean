import Verif.Lemmas.ElemGeom
import Verif.Spec.Field

/-!
# Sums over elements are integrals over the region
-/

namespace SP

open Spec MeasureTheory

theorem isCompact_elemRegion (c : Coords) : IsCompact (elemRegion c) := by
  rw [elemRegion, Spec.triangle, convexHull_triple_eq_image]
  refine isCompact_stdTri.image ?_
  unfold triMap
  fun_prop

theorem measurable_elemRegion (c : Coords) : MeasurableSet (elemRegion c) :=
  (isCompact_elemRegion c).isClosed.measurableSet

theorem region_cons {n : ℕ} (t : Tri6 n) (els : List (Tri6 n)) :
    region (t :: els) = elemRegion t.coords ∪ region els := by
  ext p; simp [region]

theorem region_nil {n : ℕ} : region ([] : List (Tri6 n)) = ∅ := by
  ext p; simp [region]

theorem measurable_region {n : ℕ} (els : List (Tri6 n)) : MeasurableSet (region els) := by
  induction els with
  | nil => rw [region_nil]; exact MeasurableSet.empty
  | cons t els ih => rw [region_cons]; exact (measurable_elemRegion _).union ih

theorem integrableOn_elem {n : ℕ} {t : Tri6 n} {prop : Material → ℝ} {E f : ℝ × ℝ → ℝ}
    (hE : ∀ᵐ p, p ∈ elemRegion t.coords → E p = prop t.material) (hf : Continuous f) :
    IntegrableOn (fun p => E p * f p) (elemRegion t.coords) ∧
    ∫ p in elemRegion t.coords, E p * f p
      = (∫ p in elemRegion t.coords, f p) * prop t.material := by
  have hE' : ∀ᵐ p ∂volume.restrict (elemRegion t.coords), E p = prop t.material :=
    (ae_restrict_iff' (measurable_elemRegion _)).2 hE
  have heq : (fun p => E p * f p) =ᵐ[volume.restrict (elemRegion t.coords)]
      fun p => f p * prop t.material := by
    filter_upwards [hE'] with p hp
    rw [hp]; ring
  refine ⟨?_, ?_⟩
  · refine Integrable.congr ?_ heq.symm
    exact ((hf.mul continuous_const).continuousOn.integrableOn_compact (isCompact_elemRegion _))
  · rw [integral_congr_ae heq, integral_mul_const]

theorem sum_integral {n : ℕ} {els : List (Tri6 n)} (hno : NoOverlap els) {prop : Material → ℝ}
    {E f : ℝ × ℝ → ℝ} (hE : IsField els prop E) (hf : Continuous f) :
    IntegrableOn (fun p => E p * f p) (region els) ∧
    (els.map fun t => (∫ p in elemRegion t.coords, f p) * prop t.material).sum
      = ∫ p in region els, E p * f p := by
  induction els with
  | nil => simp [region_nil]
  | cons t els ih =>
    obtain ⟨h1, h2⟩ := List.pairwise_cons.1 hno
    obtain ⟨i1, i2⟩ := ih h2 (fun u hu => hE u (List.mem_cons_of_mem _ hu))
    obtain ⟨j1, j2⟩ := integrableOn_elem (hE t (List.mem_cons_self ..)) hf
    have hd : AEDisjoint volume (elemRegion t.coords) (region els) := by
      have : elemRegion t.coords ∩ region els
          = ⋃ u ∈ {u | u ∈ els}, elemRegion t.coords ∩ elemRegion u.coords := by
        ext p; simp [region]
      rw [AEDisjoint, this, measure_biUnion_null_iff (List.finite_toSet els).countable]
      exact fun u hu => h1 u hu
    rw [region_cons]
    refine ⟨j1.union i1, ?_⟩
    rw [List.map_cons, List.sum_cons, i2,
      setIntegral_union₀ hd (measurable_region els).nullMeasurableSet j1 i1, j2]

end SP
