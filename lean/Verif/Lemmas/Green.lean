import Verif.Lemmas.Refine
import Mathlib.MeasureTheory.Integral.DivergenceTheorem
import Mathlib.MeasureTheory.Integral.Prod
import Mathlib.MeasureTheory.Measure.Lebesgue.Basic

/-!
# Integration by parts over a mesh
-/

namespace SP

open Spec MeasureTheory Set

variable {ι X : Type*} [TopologicalSpace X] [T2Space X] {S : Finset ι}

section Glue

variable {T : ι → Set X}

/-- The fields glued together, zero outside the pieces. -/
noncomputable def glue (S : Finset ι) (T : ι → Set X) (F : ι → X → ℝ) (p : X) : ℝ :=
  open Classical in if h : ∃ i ∈ S, p ∈ T i then F h.choose p else 0

omit [TopologicalSpace X] [T2Space X] in
theorem glue_of_mem {F : ι → X → ℝ} (hag : ∀ i ∈ S, ∀ j ∈ S, ∀ p ∈ T i ∩ T j, F i p = F j p) {i : ι} (hi : i ∈ S)
    {p : X} (hp : p ∈ T i) : glue S T F p = F i p := by
  have h : ∃ i ∈ S, p ∈ T i := ⟨i, hi, hp⟩
  rw [glue, dif_pos h]
  exact hag _ h.choose_spec.1 _ hi _ ⟨h.choose_spec.2, hp⟩

omit [TopologicalSpace X] [T2Space X] in
theorem glue_of_not_mem {F : ι → X → ℝ} {p : X} (hp : ∀ i ∈ S, p ∉ T i) : glue S T F p = 0 := by
  rw [glue, dif_neg]
  rintro ⟨i, hi, h⟩
  exact hp i hi h

theorem isClosed_pieces (hK : ∀ i ∈ S, IsCompact (T i)) : IsClosed (⋃ i ∈ S, T i) :=
  S.finite_toSet.isClosed_biUnion fun i hi => (hK i hi).isClosed

theorem continuous_glue {F : ι → X → ℝ} (hK : ∀ i ∈ S, IsCompact (T i)) (hF : ∀ i ∈ S, Continuous (F i))
    (hag : ∀ i ∈ S, ∀ j ∈ S, ∀ p ∈ T i ∩ T j, F i p = F j p)
    (hz : ∀ i ∈ S, ∀ p ∈ T i, p ∈ closure (⋃ i ∈ S, T i)ᶜ → F i p = 0) : Continuous (glue S T F) := by
  rw [continuous_iff_isClosed]
  intro C hC
  have e : glue S T F ⁻¹' C = (⋃ i ∈ S, T i ∩ F i ⁻¹' C) ∪ (closure (⋃ i ∈ S, T i)ᶜ ∩ {_p | (0 : ℝ) ∈ C}) := by
    ext p
    by_cases hp : ∃ i ∈ S, p ∈ T i
    · obtain ⟨i, hi, hpi⟩ := hp
      rw [mem_preimage, glue_of_mem hag hi hpi]
      constructor
      · intro h
        exact .inl (mem_biUnion hi ⟨hpi, h⟩)
      · rintro (h | ⟨h, h0⟩)
        · obtain ⟨j, hj, h1, h2⟩ := mem_iUnion₂.1 h
          rw [hag i hi j hj p ⟨hpi, h1⟩]
          exact h2
        · rw [hz i hi p hpi h]
          exact h0
    · have hp' : ∀ i ∈ S, p ∉ T i := fun i hi h => hp ⟨i, hi, h⟩
      rw [mem_preimage, glue_of_not_mem hp']
      constructor
      · intro h
        refine .inr ⟨subset_closure ?_, h⟩
        intro h
        obtain ⟨i, hi, h⟩ := mem_iUnion₂.1 h
        exact hp' i hi h
      · rintro (h | ⟨-, h⟩)
        · obtain ⟨i, hi, h, -⟩ := mem_iUnion₂.1 h
          exact absurd h (hp' i hi)
        · exact h
  rw [e]
  refine IsClosed.union (S.finite_toSet.isClosed_biUnion fun i hi => (hK i hi).isClosed.inter (hC.preimage (hF i hi)))
    (isClosed_closure.inter ?_)
  by_cases h0 : (0 : ℝ) ∈ C <;> simp [h0]

/-- The derivative of the glued field. -/
noncomputable def glueD (S : Finset ι) (T : ι → Set X) (F' : ι → X → ℝ) (p : X) : ℝ :=
  ∑ i ∈ S, (T i).indicator (F' i) p

end Glue

variable {T : ι → Set (ℝ × ℝ)}

theorem hasDerivAt_glue {F F' : ι → ℝ × ℝ → ℝ} (hK : ∀ i ∈ S, IsCompact (T i))
    (hdis : ∀ i ∈ S, ∀ j ∈ S, i ≠ j → Disjoint (interior (T i)) (interior (T j)))
    (hd : ∀ i ∈ S, ∀ p : ℝ × ℝ, HasDerivAt (fun x => F i (x, p.2)) (F' i p) p.1)
    (hag : ∀ i ∈ S, ∀ j ∈ S, ∀ p ∈ T i ∩ T j, F i p = F j p) {x y : ℝ}
    (hx : ∀ i ∈ S, (x, y) ∈ T i → (x, y) ∈ interior (T i)) :
    HasDerivAt (fun x => glue S T F (x, y)) (glueD S T F' (x, y)) x := by
  have hc : Continuous fun x : ℝ => (x, y) := by fun_prop
  by_cases hp : ∃ i ∈ S, (x, y) ∈ T i
  · obtain ⟨i, hi, hpi⟩ := hp
    have e : glueD S T F' (x, y) = F' i (x, y) := by
      rw [glueD, Finset.sum_eq_single_of_mem i hi, indicator_of_mem hpi]
      intro j hj hji
      rw [indicator_of_notMem]
      intro h
      exact (Set.disjoint_left.1 (hdis j hj i hi hji)) (hx j hj h) (hx i hi hpi)
    rw [e]
    refine (hd i hi (x, y)).congr_of_eventuallyEq ?_
    have : ∀ᶠ z in nhds x, (z, y) ∈ interior (T i) :=
      hc.continuousAt.eventually (isOpen_interior.mem_nhds (hx i hi hpi))
    filter_upwards [this] with z hz
    exact glue_of_mem hag hi (interior_subset hz)
  · have hp' : ∀ i ∈ S, (x, y) ∉ T i := fun i hi h => hp ⟨i, hi, h⟩
    have e : glueD S T F' (x, y) = 0 :=
      Finset.sum_eq_zero fun i hi => indicator_of_notMem (hp' i hi) _
    rw [e]
    refine (hasDerivAt_const x (0 : ℝ)).congr_of_eventuallyEq ?_
    have : ∀ᶠ z in nhds x, (z, y) ∈ (⋃ i ∈ S, T i)ᶜ := by
      refine hc.continuousAt.eventually ((isClosed_pieces hK).isOpen_compl.mem_nhds ?_)
      intro h
      obtain ⟨i, hi, h⟩ := mem_iUnion₂.1 h
      exact hp' i hi h
    filter_upwards [this] with z hz
    refine glue_of_not_mem fun i hi h => hz ?_
    exact mem_biUnion hi h

/-- The integral of the derivative along a line vanishes. -/
theorem line_integral {F F' : ι → ℝ × ℝ → ℝ} (hK : ∀ i ∈ S, IsCompact (T i))
    (hdis : ∀ i ∈ S, ∀ j ∈ S, i ≠ j → Disjoint (interior (T i)) (interior (T j)))
    (hF : ∀ i ∈ S, Continuous (F i)) (hF' : ∀ i ∈ S, Continuous (F' i))
    (hd : ∀ i ∈ S, ∀ p : ℝ × ℝ, HasDerivAt (fun x => F i (x, p.2)) (F' i p) p.1)
    (hag : ∀ i ∈ S, ∀ j ∈ S, ∀ p ∈ T i ∩ T j, F i p = F j p)
    (hz : ∀ i ∈ S, ∀ p ∈ T i, p ∈ closure (⋃ i ∈ S, T i)ᶜ → F i p = 0) {y : ℝ}
    (hthin : ∀ i ∈ S, {x | (x, y) ∈ T i \ interior (T i)}.Countable) :
    ∫ x, glueD S T F' (x, y) = 0 := by
  have hcomp : IsCompact (⋃ i ∈ S, T i) := S.finite_toSet.isCompact_biUnion hK
  obtain ⟨M, hM⟩ := hcomp.isBounded.subset_closedBall (0 : ℝ × ℝ)
  have hout : ∀ x : ℝ, M < |x| → ∀ i ∈ S, (x, y) ∉ T i := by
    intro x hx i hi h
    have h1 := hM (mem_biUnion hi h)
    rw [mem_closedBall_zero_iff, Prod.norm_def] at h1
    have : ‖x‖ ≤ M := le_trans (le_max_left _ _) h1
    rw [Real.norm_eq_abs] at this
    linarith
  set L := |M| + 1 with hL
  have hL0 : 0 < L := by positivity
  have hML : M < L := by have := le_abs_self M; linarith
  have hDzero : ∀ x ∉ Ioc (-L) L, glueD S T F' (x, y) = 0 := by
    intro x hx
    refine Finset.sum_eq_zero fun i hi => indicator_of_notMem (hout x ?_ i hi) _
    by_contra hcon
    push Not at hcon
    obtain ⟨h1, h2⟩ := abs_le.1 hcon
    exact hx ⟨by linarith, by linarith⟩
  rw [← setIntegral_eq_integral_of_forall_compl_eq_zero hDzero, ← intervalIntegral.integral_of_le (by linarith)]
  have hcnt : (⋃ i ∈ S, {x | (x, y) ∈ T i \ interior (T i)}).Countable :=
    S.finite_toSet.countable.biUnion hthin
  have hcont : Continuous fun x : ℝ => (x, y) := by fun_prop
  rw [MeasureTheory.integral_eq_of_hasDerivAt_off_countable (fun x => glue S T F (x, y)) _ hcnt
    (((continuous_glue hK hF hag hz).comp hcont).continuousOn) ?_ ?_]
  · rw [glue_of_not_mem (hout L (by rw [abs_of_pos hL0]; exact hML)),
      glue_of_not_mem (hout (-L) (by rw [abs_neg, abs_of_pos hL0]; exact hML)), sub_zero]
  · rintro x ⟨-, hx⟩
    refine hasDerivAt_glue hK hdis hd hag fun i hi h => ?_
    by_contra hni
    exact hx (mem_biUnion hi ⟨h, hni⟩)
  · unfold glueD
    rw [intervalIntegrable_iff]
    refine integrable_finsetSum S fun i hi => ?_
    have hm : MeasurableSet {x : ℝ | (x, y) ∈ T i} := hcont.measurable ((hK i hi).isClosed.measurableSet)
    have h1 : IntegrableOn (fun x => F' i (x, y)) (uIoc (-L) L) :=
      intervalIntegrable_iff.1 (((hF' i hi).comp hcont).intervalIntegrable _ _)
    exact h1.indicator hm

/-- The integral of the derivative over all pieces vanishes. -/
theorem parts_x {F F' : ι → ℝ × ℝ → ℝ} (hK : ∀ i ∈ S, IsCompact (T i))
    (hdis : ∀ i ∈ S, ∀ j ∈ S, i ≠ j → Disjoint (interior (T i)) (interior (T j)))
    (hF : ∀ i ∈ S, Continuous (F i)) (hF' : ∀ i ∈ S, Continuous (F' i))
    (hd : ∀ i ∈ S, ∀ p : ℝ × ℝ, HasDerivAt (fun x => F i (x, p.2)) (F' i p) p.1)
    (hag : ∀ i ∈ S, ∀ j ∈ S, ∀ p ∈ T i ∩ T j, F i p = F j p)
    (hz : ∀ i ∈ S, ∀ p ∈ T i, p ∈ closure (⋃ i ∈ S, T i)ᶜ → F i p = 0)
    (hthin : ∀ i ∈ S, ∃ N : Set ℝ, N.Countable ∧ ∀ y ∉ N, {x | (x, y) ∈ T i \ interior (T i)}.Countable) :
    ∑ i ∈ S, ∫ p in T i, F' i p = 0 := by
  have hint : ∀ i ∈ S, Integrable ((T i).indicator (F' i)) := fun i hi =>
    (integrable_indicator_iff (hK i hi).isClosed.measurableSet).2 ((hF' i hi).continuousOn.integrableOn_compact (hK i hi))
  have e : ∑ i ∈ S, ∫ p in T i, F' i p = ∫ p, glueD S T F' p := by
    unfold glueD
    rw [integral_finsetSum S hint]
    exact Finset.sum_congr rfl fun i hi => (integral_indicator (hK i hi).isClosed.measurableSet).symm
  have hI : Integrable (glueD S T F') := by
    unfold glueD
    exact integrable_finsetSum S hint
  rw [e, Measure.volume_eq_prod, integral_prod_symm _ (by rwa [← Measure.volume_eq_prod])]
  choose! N hN1 hN2 using hthin
  refine integral_eq_zero_of_ae ?_
  have hnull : volume (⋃ i ∈ S, N i) = 0 := (S.finite_toSet.countable.biUnion hN1).measure_zero _
  filter_upwards [compl_mem_ae_iff.2 hnull] with y hy
  refine line_integral hK hdis hF hF' hd hag hz fun i hi => hN2 i hi y fun h => hy ?_
  exact mem_biUnion hi h

/-- The same in the other direction. -/
theorem parts_y {F F' : ι → ℝ × ℝ → ℝ} (hK : ∀ i ∈ S, IsCompact (T i))
    (hdis : ∀ i ∈ S, ∀ j ∈ S, i ≠ j → Disjoint (interior (T i)) (interior (T j)))
    (hF : ∀ i ∈ S, Continuous (F i)) (hF' : ∀ i ∈ S, Continuous (F' i))
    (hd : ∀ i ∈ S, ∀ p : ℝ × ℝ, HasDerivAt (fun y => F i (p.1, y)) (F' i p) p.2)
    (hag : ∀ i ∈ S, ∀ j ∈ S, ∀ p ∈ T i ∩ T j, F i p = F j p)
    (hz : ∀ i ∈ S, ∀ p ∈ T i, p ∈ closure (⋃ i ∈ S, T i)ᶜ → F i p = 0)
    (hthin : ∀ i ∈ S, ∃ N : Set ℝ, N.Countable ∧ ∀ x ∉ N, {y | (x, y) ∈ T i \ interior (T i)}.Countable) :
    ∑ i ∈ S, ∫ p in T i, F' i p = 0 := by
  set sw : ℝ × ℝ ≃ₜ ℝ × ℝ := Homeomorph.prodComm ℝ ℝ with hsw
  have hint : ∀ A : Set (ℝ × ℝ), interior (sw ⁻¹' A) = sw ⁻¹' interior A := fun A => (sw.preimage_interior A).symm
  have h := parts_x (S := S) (T := fun i => sw ⁻¹' T i) (F := fun i => F i ∘ sw) (F' := fun i => F' i ∘ sw)
    (fun i hi => sw.isCompact_preimage.2 (hK i hi))
    (fun i hi j hj hij => by rw [hint, hint]; exact (hdis i hi j hj hij).preimage sw)
    (fun i hi => (hF i hi).comp sw.continuous) (fun i hi => (hF' i hi).comp sw.continuous)
    (fun i hi p => hd i hi (p.2, p.1))
    (fun i hi j hj p hp => hag i hi j hj (sw p) hp)
    (fun i hi p hp hcl => by
      refine hz i hi (sw p) hp ?_
      rw [show (⋃ i ∈ S, sw ⁻¹' T i)ᶜ = sw ⁻¹' (⋃ i ∈ S, T i)ᶜ by simp only [preimage_compl, preimage_iUnion],
        ← sw.preimage_closure] at hcl
      exact hcl)
    (fun i hi => by
      obtain ⟨N, h1, h2⟩ := hthin i hi
      refine ⟨N, h1, fun y hy => ?_⟩
      rw [hint]
      exact h2 y hy)
  rw [← h]
  refine Finset.sum_congr rfl fun i _ => ?_
  have hmp : MeasurePreserving (Prod.swap : ℝ × ℝ → ℝ × ℝ) volume volume := by
    rw [Measure.volume_eq_prod]; exact Measure.measurePreserving_swap
  exact (hmp.setIntegral_preimage_emb (MeasurableEquiv.prodComm (α := ℝ) (β := ℝ)).measurableEmbedding _ _).symm

/-! ### Triangles -/

theorem mem_tri_iff {A B C p : ℝ × ℝ} (h : 0 < cross2 A B C) :
    p ∈ Spec.triangle A B C ↔ 0 ≤ cross2 p B C ∧ 0 ≤ cross2 A p C ∧ 0 ≤ cross2 A B p := by
  rw [Spec.triangle, convexHull_triple_eq_image]
  constructor
  · rintro ⟨q, ⟨h1, h2, h3⟩, rfl⟩
    have e1 : cross2 (triMap A B C q) B C = q.1 * cross2 A B C := by simp only [cross2, triMap]; ring
    have e2 : cross2 A (triMap A B C q) C = q.2 * cross2 A B C := by simp only [cross2, triMap]; ring
    have e3 : cross2 A B (triMap A B C q) = (1 - q.1 - q.2) * cross2 A B C := by simp only [cross2, triMap]; ring
    rw [e1, e2, e3]
    exact ⟨mul_nonneg h1 h.le, mul_nonneg h2 h.le, mul_nonneg (by linarith) h.le⟩
  · rintro ⟨h1, h2, h3⟩
    have hs : cross2 p B C + cross2 A p C + cross2 A B p = cross2 A B C := by simp only [cross2]; ring
    refine ⟨(cross2 p B C / cross2 A B C, cross2 A p C / cross2 A B C), ⟨div_nonneg h1 h.le, div_nonneg h2 h.le, ?_⟩, ?_⟩
    · show _ / _ + _ / _ ≤ (1 : ℝ)
      rw [← add_div, div_le_one h]
      linarith
    · have e1 : C.1 * cross2 A B C + cross2 p B C * (A.1 - C.1) + cross2 A p C * (B.1 - C.1) = p.1 * cross2 A B C := by
        simp only [cross2]; ring
      have e2 : C.2 * cross2 A B C + cross2 p B C * (A.2 - C.2) + cross2 A p C * (B.2 - C.2) = p.2 * cross2 A B C := by
        simp only [cross2]; ring
      ext
      · show C.1 + _ / _ * _ + _ / _ * _ = p.1
        generalize cross2 p B C = u at *
        generalize cross2 A p C = v at *
        generalize cross2 A B C = w at *
        field_simp
        linarith
      · show C.2 + _ / _ * _ + _ / _ * _ = p.2
        generalize cross2 p B C = u at *
        generalize cross2 A p C = v at *
        generalize cross2 A B C = w at *
        field_simp
        linarith

theorem edge_of_not_interior {A B C p : ℝ × ℝ} (h : 0 < cross2 A B C)
    (hp : p ∈ Spec.triangle A B C \ interior (Spec.triangle A B C)) :
    cross2 p B C = 0 ∨ cross2 A p C = 0 ∨ cross2 A B p = 0 := by
  by_contra hcon
  push Not at hcon
  obtain ⟨h1, h2, h3⟩ := hcon
  obtain ⟨g1, g2, g3⟩ := (mem_tri_iff h).1 hp.1
  refine hp.2 (mem_interior.2 ⟨{p | 0 < cross2 p B C ∧ 0 < cross2 A p C ∧ 0 < cross2 A B p}, ?_, ?_, ?_⟩)
  · rintro z ⟨a, b, c⟩
    exact (mem_tri_iff h).2 ⟨a.le, b.le, c.le⟩
  · have c1 : Continuous fun p : ℝ × ℝ => cross2 p B C := by unfold cross2; fun_prop
    have c2 : Continuous fun p : ℝ × ℝ => cross2 A p C := by unfold cross2; fun_prop
    have c3 : Continuous fun p : ℝ × ℝ => cross2 A B p := by unfold cross2; fun_prop
    exact (isOpen_lt continuous_const c1).inter ((isOpen_lt continuous_const c2).inter (isOpen_lt continuous_const c3))
  · exact ⟨lt_of_le_of_ne g1 (Ne.symm h1), lt_of_le_of_ne g2 (Ne.symm h2), lt_of_le_of_ne g3 (Ne.symm h3)⟩

theorem thin_edge_x {B C : ℝ × ℝ} (hne : B ≠ C) {y : ℝ} (hy : y ≠ B.2) :
    {x : ℝ | (B.1 - x) * (C.2 - y) - (C.1 - x) * (B.2 - y) = 0}.Countable := by
  refine Set.Subsingleton.countable fun x hx z hz => ?_
  simp only [mem_ofPred_eq] at hx hz
  by_cases h : B.2 = C.2
  · exfalso
    rw [← h] at hx
    have : (B.1 - C.1) * (B.2 - y) = 0 := by linarith
    rcases mul_eq_zero.1 this with h1 | h1
    · exact hne (Prod.ext (by linarith) h)
    · exact hy (by linarith)
  · have : (x - z) * (B.2 - C.2) = 0 := by linarith
    rcases mul_eq_zero.1 this with h1 | h1
    · linarith
    · exact absurd (by linarith) h

theorem thin_edge_y {B C : ℝ × ℝ} (hne : B ≠ C) {x : ℝ} (hx : x ≠ B.1) :
    {y : ℝ | (B.1 - x) * (C.2 - y) - (C.1 - x) * (B.2 - y) = 0}.Countable := by
  refine Set.Subsingleton.countable fun y hy z hz => ?_
  simp only [mem_ofPred_eq] at hy hz
  by_cases h : B.1 = C.1
  · exfalso
    rw [← h] at hy
    have : (B.1 - x) * (C.2 - B.2) = 0 := by linarith
    rcases mul_eq_zero.1 this with h1 | h1
    · exact hx (by linarith)
    · exact hne (Prod.ext h (by linarith))
  · have : (y - z) * (B.1 - C.1) = 0 := by linarith
    rcases mul_eq_zero.1 this with h1 | h1
    · linarith
    · exact absurd (by linarith) h

theorem corners_ne {A B C : ℝ × ℝ} (h : 0 < cross2 A B C) : B ≠ C ∧ A ≠ C ∧ A ≠ B := by
  refine ⟨?_, ?_, ?_⟩ <;> rintro rfl <;> simp [cross2] at h

theorem thin_x {A B C : ℝ × ℝ} (h : 0 < cross2 A B C) : ∃ N : Set ℝ, N.Countable ∧
    ∀ y ∉ N, {x | (x, y) ∈ Spec.triangle A B C \ interior (Spec.triangle A B C)}.Countable := by
  obtain ⟨n1, n2, n3⟩ := corners_ne h
  refine ⟨{A.2, B.2}, (Set.toFinite _).countable, fun y hy => ?_⟩
  simp only [mem_insert_iff, mem_singleton_iff, not_or] at hy
  refine Set.Countable.mono (s₂ := _ ∪ (_ ∪ _)) ?_
    ((thin_edge_x n1 hy.2).union ((thin_edge_x n2 hy.1).union (thin_edge_x n3 hy.1)))
  intro x hx
  rcases edge_of_not_interior h hx with e | e | e
  · exact .inl e
  · refine .inr (.inl ?_)
    simp only [cross2, mem_ofPred_eq] at e ⊢
    linarith
  · refine .inr (.inr ?_)
    simp only [cross2, mem_ofPred_eq] at e ⊢
    linarith

theorem thin_y {A B C : ℝ × ℝ} (h : 0 < cross2 A B C) : ∃ N : Set ℝ, N.Countable ∧
    ∀ x ∉ N, {y | (x, y) ∈ Spec.triangle A B C \ interior (Spec.triangle A B C)}.Countable := by
  obtain ⟨n1, n2, n3⟩ := corners_ne h
  refine ⟨{A.1, B.1}, (Set.toFinite _).countable, fun x hx => ?_⟩
  simp only [mem_insert_iff, mem_singleton_iff, not_or] at hx
  refine Set.Countable.mono (s₂ := _ ∪ (_ ∪ _)) ?_
    ((thin_edge_y n1 hx.2).union ((thin_edge_y n2 hx.1).union (thin_edge_y n3 hx.1)))
  intro y hy
  rcases edge_of_not_interior h hy with e | e | e
  · exact .inl e
  · refine .inr (.inl ?_)
    simp only [cross2, mem_ofPred_eq] at e ⊢
    linarith
  · refine .inr (.inr ?_)
    simp only [cross2, mem_ofPred_eq] at e ⊢
    linarith

end SP
