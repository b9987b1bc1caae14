import Verif.Lemmas.Green
import Verif.Lemmas.StressFunction
import Verif.Spec.ShearFlow

/-!
# Integration by parts against a shear flow
-/

namespace SP

open Spec MeasureTheory Set

variable {ι : Type*} {S : Finset ι}

/-- The integral of the derivative of the glued field along a line vanishes. -/
theorem line_zero {T : ι → Set ℝ} {F F' : ι → ℝ → ℝ} {N : Set ℝ} (hN : N.Countable) (hK : ∀ i ∈ S, IsCompact (T i))
    (hF : ∀ i ∈ S, Continuous (F i))
    (hd : ∀ x ∉ N, ∀ i ∈ S, x ∈ T i → x ∈ interior (T i) ∧ HasDerivAt (F i) (F' i x) x ∧ ∀ j ∈ S, x ∈ T j → j = i)
    (hF' : ∀ i ∈ S, IntegrableOn (F' i) (T i))
    (hag : ∀ i ∈ S, ∀ j ∈ S, ∀ p ∈ T i ∩ T j, F i p = F j p)
    (hz : ∀ i ∈ S, ∀ p ∈ T i, p ∈ closure (⋃ i ∈ S, T i)ᶜ → F i p = 0) :
    ∫ x, glueD S T F' x = 0 := by
  have hcomp : IsCompact (⋃ i ∈ S, T i) := S.finite_toSet.isCompact_biUnion hK
  obtain ⟨M, hM⟩ := hcomp.isBounded.subset_closedBall (0 : ℝ)
  have hout : ∀ x : ℝ, M < |x| → ∀ i ∈ S, x ∉ T i := by
    intro x hx i hi h
    have h1 := hM (mem_biUnion hi h)
    rw [mem_closedBall_zero_iff, Real.norm_eq_abs] at h1
    linarith
  set L := |M| + 1 with hL
  have hL0 : 0 < L := by positivity
  have hML : M < L := by have := le_abs_self M; linarith
  have hDzero : ∀ x ∉ Ioc (-L) L, glueD S T F' x = 0 := by
    intro x hx
    refine Finset.sum_eq_zero fun i hi => indicator_of_notMem (hout x ?_ i hi) _
    by_contra hcon
    push Not at hcon
    obtain ⟨h1, h2⟩ := abs_le.1 hcon
    exact hx ⟨by linarith, by linarith⟩
  rw [← setIntegral_eq_integral_of_forall_compl_eq_zero hDzero, ← intervalIntegral.integral_of_le (by linarith)]
  rw [MeasureTheory.integral_eq_of_hasDerivAt_off_countable (glue S T F) _ hN
    ((continuous_glue hK hF hag hz).continuousOn) ?_ ?_]
  · rw [glue_of_not_mem (hout L (by rw [abs_of_pos hL0]; exact hML)),
      glue_of_not_mem (hout (-L) (by rw [abs_neg, abs_of_pos hL0]; exact hML)), sub_zero]
  · rintro x ⟨-, hx⟩
    by_cases hp : ∃ i ∈ S, x ∈ T i
    · obtain ⟨i, hi, hpi⟩ := hp
      obtain ⟨h1, h2, h3⟩ := hd x hx i hi hpi
      have e : glueD S T F' x = F' i x := by
        rw [glueD, Finset.sum_eq_single_of_mem i hi, indicator_of_mem hpi]
        intro j hj hji
        exact indicator_of_notMem (fun h => hji (h3 j hj h)) _
      rw [e]
      refine h2.congr_of_eventuallyEq ?_
      filter_upwards [isOpen_interior.mem_nhds h1] with z hz
      exact glue_of_mem hag hi (interior_subset hz)
    · have hp' : ∀ i ∈ S, x ∉ T i := fun i hi h => hp ⟨i, hi, h⟩
      have e : glueD S T F' x = 0 := Finset.sum_eq_zero fun i hi => indicator_of_notMem (hp' i hi) _
      rw [e]
      refine (hasDerivAt_const x (0 : ℝ)).congr_of_eventuallyEq ?_
      have : (⋃ i ∈ S, T i)ᶜ ∈ nhds x := by
        refine (isClosed_pieces hK).isOpen_compl.mem_nhds ?_
        intro h
        obtain ⟨i, hi, h⟩ := mem_iUnion₂.1 h
        exact hp' i hi h
      filter_upwards [this] with z hz
      exact glue_of_not_mem fun i hi h => hz (mem_biUnion hi h)
  · unfold glueD
    rw [intervalIntegrable_iff]
    refine integrable_finsetSum S fun i hi => ?_
    exact ((integrable_indicator_iff (hK i hi).isClosed.measurableSet).2 (hF' i hi)).integrableOn

/-- Integration by parts over all pieces, in the direction of `x`. -/
theorem flow_parts_x {T : ι → Set (ℝ × ℝ)} {q q' : ι → ℝ × ℝ → ℝ} {f f' : ℝ × ℝ → ℝ} {M : ℝ}
    (hK : ∀ i ∈ S, IsCompact (T i))
    (hdis : ∀ i ∈ S, ∀ j ∈ S, i ≠ j → Disjoint (interior (T i)) (interior (T j)))
    (hq : ∀ i ∈ S, Continuous (q i)) (hq' : ∀ i ∈ S, Continuous (q' i))
    (hd : ∀ i ∈ S, ∀ p : ℝ × ℝ, HasDerivAt (fun x => q i (x, p.2)) (q' i p) p.1)
    (hag : ∀ i ∈ S, ∀ j ∈ S, ∀ p ∈ T i ∩ T j, q i p = q j p)
    (hthin : ∀ i ∈ S, ∃ N : Set ℝ, N.Countable ∧ ∀ y ∉ N, {x | (x, y) ∈ T i \ interior (T i)}.Countable)
    (hm : Measurable f) (hM : ∀ p, |f p| ≤ M) (hf' : ∀ i ∈ S, IntegrableOn f' (T i)) (hf : AlongX f f')
    (h0 : ∀ p ∉ ⋃ i ∈ S, T i, f p = 0) :
    (∀ i ∈ S, IntegrableOn (fun p => q' i p * f p) (T i)) ∧ (∀ i ∈ S, IntegrableOn (fun p => q i p * f' p) (T i)) ∧
    ∑ i ∈ S, ∫ p in T i, (q' i p * f p + q i p * f' p) = 0 := by
  have i1 : ∀ i ∈ S, IntegrableOn (fun p => q' i p * f p) (T i) := fun i hi =>
    Integrable.mul_bdd (c := M) ((hq' i hi).continuousOn.integrableOn_compact (hK i hi)) hm.aestronglyMeasurable
      (Filter.Eventually.of_forall fun p => by rw [Real.norm_eq_abs]; exact hM p)
  have i2 : ∀ i ∈ S, IntegrableOn (fun p => q i p * f' p) (T i) := fun i hi =>
    (hf' i hi).continuousOn_mul (hq i hi).continuousOn (hK i hi)
  refine ⟨i1, i2, ?_⟩
  set F' : ι → ℝ × ℝ → ℝ := fun i p => q' i p * f p + q i p * f' p with hF'
  have hint : ∀ i ∈ S, Integrable ((T i).indicator (F' i)) := fun i hi =>
    (integrable_indicator_iff (hK i hi).isClosed.measurableSet).2 ((i1 i hi).add (i2 i hi))
  have e : ∑ i ∈ S, ∫ p in T i, F' i p = ∫ p, glueD S T F' p := by
    unfold glueD
    rw [integral_finsetSum S hint]
    exact Finset.sum_congr rfl fun i hi => (integral_indicator (hK i hi).isClosed.measurableSet).symm
  have hI : Integrable (glueD S T F') := by
    unfold glueD
    exact integrable_finsetSum S hint
  rw [e, Measure.volume_eq_prod, integral_prod_symm _ (by rwa [← Measure.volume_eq_prod])]
  choose! N hN1 hN2 using hthin
  refine integral_eq_zero_of_ae ?_
  have hnull : volume (⋃ i ∈ S, N i) = 0 := (S.finite_toSet.countable.biUnion hN1).measure_zero _
  have hsl : ∀ᵐ y : ℝ, ∀ i ∈ S, Integrable fun x => (T i).indicator (F' i) (x, y) := by
    rw [Filter.eventually_all_finset]
    intro i hi
    have := hint i hi
    rw [Measure.volume_eq_prod] at this
    exact this.prod_left_ae
  filter_upwards [compl_mem_ae_iff.2 hnull, hsl, hf] with y hy hsy ⟨hcy, Ny, hNy, hdy⟩
  have hcont : Continuous fun x : ℝ => (x, y) := by fun_prop
  have hcnt : (⋃ i ∈ S, {x | (x, y) ∈ T i \ interior (T i)}).Countable :=
    S.finite_toSet.countable.biUnion fun i hi => hN2 i hi y fun h => hy (mem_biUnion hi h)
  have hin : ∀ x ∉ ⋃ i ∈ S, {x | (x, y) ∈ T i \ interior (T i)}, ∀ i ∈ S, (x, y) ∈ T i → (x, y) ∈ interior (T i) := by
    intro x hx i hi h
    by_contra hni
    exact hx (mem_biUnion hi ⟨h, hni⟩)
  have hbd : ∀ i ∈ S, Bornology.IsBounded {x : ℝ | (x, y) ∈ T i} := fun i hi =>
    ((hK i hi).isBounded.image_fst).subset fun x hx => ⟨(x, y), hx, rfl⟩
  have key := line_zero (S := S) (T := fun i => {x : ℝ | (x, y) ∈ T i}) (F := fun i x => q i (x, y) * f (x, y))
    (F' := fun i x => F' i (x, y)) (hcnt.union hNy)
    (fun i hi => Metric.isCompact_of_isClosed_isBounded ((hK i hi).isClosed.preimage hcont) (hbd i hi))
    (fun i hi => ((hq i hi).comp hcont).mul hcy) ?_ ?_ ?_ ?_
  · exact key
  · intro x hx i hi h
    rw [mem_union, not_or] at hx
    have h1 := hin x hx.1 i hi h
    refine ⟨?_, ?_, fun j hj hxj => ?_⟩
    · exact interior_maximal (t := (fun x : ℝ => (x, y)) ⁻¹' interior (T i)) (fun z hz => show (z, y) ∈ T i from interior_subset (s := T i) hz)
        (isOpen_interior.preimage hcont) h1
    · exact (hd i hi (x, y)).mul (hdy x hx.2)
    · by_contra hne
      exact Set.disjoint_left.1 (hdis j hj i hi hne) (hin x hx.1 j hj hxj) h1
  · intro i hi
    have hmi : MeasurableSet {x : ℝ | (x, y) ∈ T i} := hcont.measurable ((hK i hi).isClosed.measurableSet)
    exact (integrable_indicator_iff hmi).1 (hsy i hi)
  · rintro i hi j hj x ⟨h1, h2⟩
    show q i (x, y) * f (x, y) = q j (x, y) * f (x, y)
    rw [hag i hi j hj (x, y) ⟨h1, h2⟩]
  · intro i hi x hx hcl
    have : x ∈ {x | f (x, y) = 0} := by
      refine closure_minimal (fun z hz => ?_) (isClosed_eq hcy continuous_const) hcl
      refine h0 (z, y) fun h => hz ?_
      obtain ⟨i, hi, h⟩ := mem_iUnion₂.1 h
      exact mem_biUnion hi h
    show q i (x, y) * f (x, y) = 0
    rw [show f (x, y) = 0 from this, mul_zero]

/-- The same in the other direction. -/
theorem flow_parts_y {T : ι → Set (ℝ × ℝ)} {q q' : ι → ℝ × ℝ → ℝ} {f f' : ℝ × ℝ → ℝ} {M : ℝ}
    (hK : ∀ i ∈ S, IsCompact (T i))
    (hdis : ∀ i ∈ S, ∀ j ∈ S, i ≠ j → Disjoint (interior (T i)) (interior (T j)))
    (hq : ∀ i ∈ S, Continuous (q i)) (hq' : ∀ i ∈ S, Continuous (q' i))
    (hd : ∀ i ∈ S, ∀ p : ℝ × ℝ, HasDerivAt (fun y => q i (p.1, y)) (q' i p) p.2)
    (hag : ∀ i ∈ S, ∀ j ∈ S, ∀ p ∈ T i ∩ T j, q i p = q j p)
    (hthin : ∀ i ∈ S, ∃ N : Set ℝ, N.Countable ∧ ∀ x ∉ N, {y | (x, y) ∈ T i \ interior (T i)}.Countable)
    (hm : Measurable f) (hM : ∀ p, |f p| ≤ M) (hf' : ∀ i ∈ S, IntegrableOn f' (T i)) (hf : AlongY f f')
    (h0 : ∀ p ∉ ⋃ i ∈ S, T i, f p = 0) :
    (∀ i ∈ S, IntegrableOn (fun p => q' i p * f p) (T i)) ∧ (∀ i ∈ S, IntegrableOn (fun p => q i p * f' p) (T i)) ∧
    ∑ i ∈ S, ∫ p in T i, (q' i p * f p + q i p * f' p) = 0 := by
  set sw : ℝ × ℝ ≃ₜ ℝ × ℝ := Homeomorph.prodComm ℝ ℝ with hsw
  have hint : ∀ A : Set (ℝ × ℝ), interior (sw ⁻¹' A) = sw ⁻¹' interior A := fun A => (sw.preimage_interior A).symm
  have hmp : MeasurePreserving (Prod.swap : ℝ × ℝ → ℝ × ℝ) volume volume := by
    rw [Measure.volume_eq_prod]; exact Measure.measurePreserving_swap
  have hme : MeasurableEmbedding (Prod.swap : ℝ × ℝ → ℝ × ℝ) :=
    (MeasurableEquiv.prodComm (α := ℝ) (β := ℝ)).measurableEmbedding
  have hio : ∀ (g : ℝ × ℝ → ℝ) (A : Set (ℝ × ℝ)), IntegrableOn (g ∘ sw) (sw ⁻¹' A) ↔ IntegrableOn g A := fun g A =>
    hmp.integrableOn_comp_preimage hme
  obtain ⟨k1, k2, k3⟩ := flow_parts_x (S := S) (T := fun i => sw ⁻¹' T i) (q := fun i => q i ∘ sw) (q' := fun i => q' i ∘ sw)
    (f := f ∘ sw) (f' := f' ∘ sw) (M := M)
    (fun i hi => sw.isCompact_preimage.2 (hK i hi))
    (fun i hi j hj hij => by rw [hint, hint]; exact (hdis i hi j hj hij).preimage sw)
    (fun i hi => (hq i hi).comp sw.continuous) (fun i hi => (hq' i hi).comp sw.continuous)
    (fun i hi p => hd i hi (p.2, p.1))
    (fun i hi j hj p hp => hag i hi j hj (sw p) hp)
    (fun i hi => by
      obtain ⟨N, h1, h2⟩ := hthin i hi
      refine ⟨N, h1, fun y hy => ?_⟩
      rw [hint]
      exact h2 y hy)
    (hm.comp sw.continuous.measurable) (fun p => hM (sw p)) (fun i hi => (hio _ _).2 (hf' i hi)) hf
    (fun p hp => h0 (sw p) fun h => hp (by
      obtain ⟨i, hi, h⟩ := mem_iUnion₂.1 h
      exact mem_biUnion hi h))
  refine ⟨fun i hi => (hio _ _).1 (k1 i hi), fun i hi => (hio _ _).1 (k2 i hi), ?_⟩
  rw [← k3]
  refine Finset.sum_congr rfl fun i _ => ?_
  exact (hmp.setIntegral_preimage_emb hme (fun p => q' i p * f p + q i p * f' p) (T i)).symm

/-! ### The mesh -/

variable {n : ℕ} {els : List (Tri6 n)} {u : Fin n → ℝ} {q : Tri6 n → ℝ × ℝ → ℝ} {g fx fy : ℝ × ℝ → ℝ}

theorem flow_int (hf : ShearFlow els g fx fy) {t : Tri6 n} {a b : ℝ × ℝ → ℝ} (ha : Continuous a) (hb : Continuous b) :
    IntegrableOn (fun p => a p * fx p + b p * fy p) (elemRegion t.coords) := by
  obtain ⟨M, hM⟩ := hf.bounded
  refine Integrable.add ?_ ?_
  · exact Integrable.mul_bdd (c := M) (elem_int ha _) hf.measurable.1.aestronglyMeasurable
      (Filter.Eventually.of_forall fun p => by rw [Real.norm_eq_abs]; exact (hM p).1)
  · exact Integrable.mul_bdd (c := M) (elem_int hb _) hf.measurable.2.aestronglyMeasurable
      (Filter.Eventually.of_forall fun p => by rw [Real.norm_eq_abs]; exact (hM p).2)

theorem flow_int_sq (hf : ShearFlow els g fx fy) {t : Tri6 n} :
    IntegrableOn (fun p => fx p ^ 2 + fy p ^ 2) (elemRegion t.coords) := by
  obtain ⟨M, hM⟩ := hf.bounded
  have key : ∀ f : ℝ × ℝ → ℝ, Measurable f → (∀ p, |f p| ≤ M) → IntegrableOn (fun p => f p ^ 2) (elemRegion t.coords) := by
    intro f hm hb
    have h1 : IntegrableOn f (elemRegion t.coords) := by
      have := Integrable.mul_bdd (c := M) (elem_int (continuous_const (y := (1 : ℝ))) t.coords) hm.aestronglyMeasurable
        (Filter.Eventually.of_forall fun p => by rw [Real.norm_eq_abs]; exact hb p)
      simp only [one_mul] at this
      exact this
    have := Integrable.mul_bdd (c := M) h1 hm.aestronglyMeasurable
        (Filter.Eventually.of_forall fun p => by rw [Real.norm_eq_abs]; exact hb p)
    simp only [← sq] at this
    exact this
  exact (key fx hf.measurable.1 fun p => (hM p).1).add (key fy hf.measurable.2 fun p => (hM p).2)

/-- The work of a shear flow on a warping field is that of the bending stresses. -/
theorem flow_test (hp : ∀ t ∈ els, Proper t.coords) (hno : NoOverlap els) (hq : TestField els q) (hf : ShearFlow els g fx fy) :
    (els.map fun t => ∫ p in elemRegion t.coords, (dX (q t) p * fx p + dY (q t) p * fy p)).sum =
      wInt els fun t p => q t p * g p := by
  classical
  have hnd := nodup_elems hp hno
  have hq1 := hq.smooth
  have hqd : ∀ t ∈ els, Differentiable ℝ (q t) := fun t ht => (hq1 t ht).differentiable (by norm_num)
  have hK : ∀ t ∈ els.toFinset, IsCompact (elemRegion t.coords) := fun t _ => isCompact_elemRegion _
  have hdis : ∀ a ∈ els.toFinset, ∀ b ∈ els.toFinset, a ≠ b →
      Disjoint (interior (elemRegion a.coords)) (interior (elemRegion b.coords)) := fun a ha b hb hab =>
    elem_interiors hno (List.mem_toFinset.1 ha) (List.mem_toFinset.1 hb) hab
  have hag : ∀ a ∈ els.toFinset, ∀ b ∈ els.toFinset, ∀ p ∈ elemRegion a.coords ∩ elemRegion b.coords,
      q a p = q b p := fun a ha b hb p h =>
    hq.agree a (List.mem_toFinset.1 ha) b (List.mem_toFinset.1 hb) p h
  have cross : ∀ t ∈ els.toFinset, 0 < cross2 (cornerA t.coords) (cornerB t.coords) (cornerC t.coords) := fun t ht =>
    (hp t (List.mem_toFinset.1 ht)).2
  obtain ⟨M, hM⟩ := hf.bounded
  obtain ⟨dx, dy, ix, iy, ax, ay, hbal⟩ := hf.balance
  have hsub : ∀ t ∈ els.toFinset, elemRegion t.coords ⊆ region els := fun t ht p hpt => ⟨t, List.mem_toFinset.1 ht, hpt⟩
  obtain ⟨x1, x2, x3⟩ := flow_parts_x (S := els.toFinset) (T := fun t => elemRegion t.coords) (q := q) (q' := fun t => dX (q t))
    hK hdis (fun t ht => (hq1 t (List.mem_toFinset.1 ht)).continuous)
    (fun t ht => continuous_dX (hq1 t (List.mem_toFinset.1 ht)))
    (fun t ht p => hasDerivAt_dX (hqd t (List.mem_toFinset.1 ht)) p) hag (fun t ht => thin_x (cross t ht))
    hf.measurable.1 (fun p => (hM p).1) (fun t ht => ix.mono_set (hsub t ht)) ax
    (fun p h => (hf.outside p (by rwa [region_eq_pieces])).1)
  obtain ⟨y1, y2, y3⟩ := flow_parts_y (S := els.toFinset) (T := fun t => elemRegion t.coords) (q := q) (q' := fun t => dY (q t))
    hK hdis (fun t ht => (hq1 t (List.mem_toFinset.1 ht)).continuous)
    (fun t ht => continuous_dY (hq1 t (List.mem_toFinset.1 ht)))
    (fun t ht p => hasDerivAt_dY (hqd t (List.mem_toFinset.1 ht)) p) hag (fun t ht => thin_y (cross t ht))
    hf.measurable.2 (fun p => (hM p).2) (fun t ht => iy.mono_set (hsub t ht)) ay
    (fun p h => (hf.outside p (by rwa [region_eq_pieces])).2)
  rw [List.sum_toFinset _ hnd] at x3 y3
  have key : ∀ t ∈ els, (∫ p in elemRegion t.coords, (dX (q t) p * fx p + dY (q t) p * fy p)) =
      ((∫ p in elemRegion t.coords, (dX (q t) p * fx p + q t p * dx p)) +
      ∫ p in elemRegion t.coords, (dY (q t) p * fy p + q t p * dy p)) +
      t.material.elasticModulus * ∫ p in elemRegion t.coords, q t p * g p := by
    intro t ht
    have ht' := List.mem_toFinset.2 ht
    rw [integral_add (x1 t ht') (x2 t ht'), integral_add (y1 t ht') (y2 t ht'), integral_add (x1 t ht') (y1 t ht')]
    have : t.material.elasticModulus * (∫ p in elemRegion t.coords, q t p * g p) =
        -((∫ p in elemRegion t.coords, q t p * dx p) + ∫ p in elemRegion t.coords, q t p * dy p) := by
      rw [← integral_add (x2 t ht') (y2 t ht'), ← integral_neg, ← integral_const_mul]
      refine integral_congr_ae ((ae_restrict_iff' (measurable_elemRegion _)).2 ?_)
      filter_upwards [hbal t ht] with p hp hpt
      have := hp hpt
      linear_combination q t p * this
    rw [this]
    ring
  rw [List.map_congr_left key, List.sum_map_add, List.sum_map_add, x3, y3, wInt]
  ring

theorem flow_work {pos : Fin n → ℝ × ℝ} (hc : ConformingMesh pos els)
    (hpos : ∀ t ∈ els, ∀ k, (t.coords.x k, t.coords.y k) = pos (t.nodeIds k)) (hp : ∀ t ∈ els, Proper t.coords)
    (hno : NoOverlap els) (hq : FEField els u q) (hf : ShearFlow els g fx fy) :
    (els.map fun t => ∫ p in elemRegion t.coords, (dX (q t) p * fx p + dY (q t) p * fy p)).sum =
      wInt els fun t p => q t p * g p :=
  flow_test hp hno (feField_test hc hpos hq) hf

theorem int_comb3 {A : Set (ℝ × ℝ)} {f g k : ℝ × ℝ → ℝ} (hf : IntegrableOn f A) (hg : IntegrableOn g A) (hk : IntegrableOn k A)
    (a b c : ℝ) : ∫ p in A, (a * f p + b * g p + c * k p) =
      a * (∫ p in A, f p) + b * (∫ p in A, g p) + c * ∫ p in A, k p := by
  have h1 : IntegrableOn (fun p => a * f p) A := hf.const_mul a
  have h2 : IntegrableOn (fun p => b * g p) A := hg.const_mul b
  have h3 : IntegrableOn (fun p => c * k p) A := hk.const_mul c
  have h4 : IntegrableOn (fun p => a * f p + b * g p) A := h1.add h2
  rw [integral_add h4 h3, integral_add h1 h2, integral_const_mul, integral_const_mul, integral_const_mul]

/-- The energy of a warping field, less the work of the bending stresses on it, is at least that of any shear flow. -/
theorem flow_upper {pos : Fin n → ℝ × ℝ} (hc : ConformingMesh pos els)
    (hpos : ∀ t ∈ els, ∀ k, (t.coords.x k, t.coords.y k) = pos (t.nodeIds k)) (h : Physical els)
    (hno : NoOverlap els) (hq : FEField els u q) (hf : ShearFlow els g fx fy) (l : ℝ) :
    2 * l * (wInt els fun t p => q t p * g p) ≤ l ^ 2 * dirichlet els q q + flowEnergy els fx fy := by
  have hw := flow_work hc hpos h.proper hno hq hf
  have : l ^ 2 * dirichlet els q q + flowEnergy els fx fy - 2 * l * (wInt els fun t p => q t p * g p) =
      (els.map fun t => t.material.elasticModulus * ∫ p in elemRegion t.coords,
        (l * dX (q t) p - 1 / t.material.elasticModulus * fx p) ^ 2 +
        (l * dY (q t) p - 1 / t.material.elasticModulus * fy p) ^ 2).sum := by
    rw [← hw, dirichlet, flowEnergy, wInt, sub_eq_iff_eq_add, ← List.sum_map_mul_left, ← List.sum_map_mul_left,
      ← List.sum_map_add, ← List.sum_map_add]
    refine congrArg List.sum (List.map_congr_left fun t ht => ?_)
    have hE := (h.modulus t ht).ne'
    have hqt := contDiff_quad (hq t ht).1
    have d1 := continuous_dX (hqt.of_le one_le_two)
    have d2 := continuous_dY (hqt.of_le one_le_two)
    have a1 : Continuous fun p => dX (q t) p * dX (q t) p + dY (q t) p * dY (q t) p := by fun_prop
    have e : ∀ p : ℝ × ℝ, (l * dX (q t) p - 1 / t.material.elasticModulus * fx p) ^ 2 +
        (l * dY (q t) p - 1 / t.material.elasticModulus * fy p) ^ 2 =
        (l ^ 2 * (dX (q t) p * dX (q t) p + dY (q t) p * dY (q t) p) +
        (1 / t.material.elasticModulus) ^ 2 * (fx p ^ 2 + fy p ^ 2)) +
        (-2 * l / t.material.elasticModulus) * (dX (q t) p * fx p + dY (q t) p * fy p) := fun p => by ring
    simp only [e]
    rw [int_comb3 (elem_int a1 _) (flow_int_sq hf) (flow_int hf d1 d2)]
    field_simp
    ring
  have h2 : 0 ≤ l ^ 2 * dirichlet els q q + flowEnergy els fx fy - 2 * l * (wInt els fun t p => q t p * g p) := by
    rw [this]
    refine List.sum_nonneg fun v hv => ?_
    obtain ⟨t, ht, rfl⟩ := List.mem_map.1 hv
    exact mul_nonneg (h.modulus t ht).le (integral_nonneg fun p => add_nonneg (sq_nonneg _) (sq_nonneg _))
  linarith

end SP
