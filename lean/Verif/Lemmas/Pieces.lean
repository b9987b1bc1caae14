import Verif.Lemmas.Split
import Mathlib.MeasureTheory.Measure.Prod
import Mathlib.MeasureTheory.Measure.Lebesgue.EqHaar
import Mathlib.MeasureTheory.Function.LocallyIntegrable

/-!
# Lemmas: integrals over the pieces of a split section
-/

namespace SP

open MeasureTheory Spec

theorem measurable_height (p v : ℝ × ℝ) : Continuous (height p v) := by
  unfold height
  by_cases h : v.1 = 0
  · simp only [h, if_true]; fun_prop
  · simp only [h, if_false]; fun_prop

theorem line_null (p v : ℝ × ℝ) : volume {q : ℝ × ℝ | height p v q = 0} = 0 := by
  have hm : MeasurableSet {q : ℝ × ℝ | height p v q = 0} :=
    (isClosed_eq (measurable_height p v) continuous_const).measurableSet
  rw [Measure.volume_eq_prod, Measure.measure_prod_null hm]
  by_cases h : v.1 = 0
  · have : ∀ᵐ x : ℝ, x ≠ p.1 := by
      rw [ae_iff]; simp
    filter_upwards [this] with x hx
    have : (Prod.mk x ⁻¹' {q : ℝ × ℝ | height p v q = 0}) = ∅ := by
      ext y
      simp [height, h, sub_eq_zero, hx]
    rw [this]; simp
  · refine Filter.Eventually.of_forall fun x => ?_
    have : (Prod.mk x ⁻¹' {q : ℝ × ℝ | height p v q = 0}) = {p.2 + (x - p.1) * v.2 / v.1} := by
      ext y
      simp [height, h, sub_eq_zero]
    show volume (Prod.mk x ⁻¹' {q : ℝ × ℝ | height p v q = 0}) = 0
    rw [this]; simp

/-- Integral over a union of regions that overlap in null sets. -/
theorem list_integral {α : Type*} (S : α → Set (ℝ × ℝ)) (hS : ∀ a, MeasurableSet (S a)) (f : ℝ × ℝ → ℝ)
    (l : List α) (hpw : l.Pairwise fun a b => volume (S a ∩ S b) = 0)
    (hf : ∀ a ∈ l, IntegrableOn f (S a)) :
    (l.map fun a => ∫ q in S a, f q).sum = ∫ q in {q | ∃ a ∈ l, q ∈ S a}, f q ∧
    IntegrableOn f {q | ∃ a ∈ l, q ∈ S a} := by
  induction l with
  | nil => simp
  | cons a l ih =>
    rw [List.pairwise_cons] at hpw
    obtain ⟨h1, h2⟩ := ih hpw.2 fun b hb => hf b (by simp [hb])
    have hU : {q | ∃ b ∈ a :: l, q ∈ S b} = S a ∪ {q | ∃ b ∈ l, q ∈ S b} := by
      ext q; simp
    have hUm : ∀ l : List α, MeasurableSet {q | ∃ b ∈ l, q ∈ S b} := by
      intro l
      induction l with
      | nil => simp
      | cons c l ih =>
        have : {q | ∃ b ∈ c :: l, q ∈ S b} = S c ∪ {q | ∃ b ∈ l, q ∈ S b} := by ext q; simp
        rw [this]; exact (hS c).union ih
    have hd : ∀ l : List α, (∀ b ∈ l, volume (S a ∩ S b) = 0) →
        volume (S a ∩ {q | ∃ b ∈ l, q ∈ S b}) = 0 := by
      intro l hl
      have : S a ∩ {q | ∃ b ∈ l, q ∈ S b} = ⋃ b ∈ {b | b ∈ l}, S a ∩ S b := by
        ext q; simp
      rw [this, measure_biUnion_null_iff (List.finite_toSet l).countable]
      exact hl
    rw [hU]
    have ha := hf a (by simp)
    refine ⟨?_, ha.union h2⟩
    rw [List.map_cons, List.sum_cons, h1, setIntegral_union₀ (hd l hpw.1) (hUm l).nullMeasurableSet ha h2]

variable {P : Type*} {ops : PolyOps P} {reg : P → Set (ℝ × ℝ)}

theorem integrable_reg (h : ShapelyOk ops reg) (p : P) {f : ℝ × ℝ → ℝ} (hf : Continuous f) :
    IntegrableOn f (reg p) := by
  have hsub : reg p ⊆ Set.Icc (ops.bounds p).1 (ops.bounds p).2.1 ×ˢ
      Set.Icc (ops.bounds p).2.2.1 (ops.bounds p).2.2.2 := by
    intro q hq
    obtain ⟨a, b, c, d⟩ := h.inBounds p q hq
    exact ⟨⟨a, b⟩, ⟨c, d⟩⟩
  exact (hf.continuousOn.integrableOn_compact (isCompact_Icc.prod isCompact_Icc)).mono_set hsub

/-- Integral over the part of `reg p` above the line. -/
theorem split_integral (h : ShapelyOk ops reg) (p v : ℝ × ℝ) {r : P} {top bot : List P}
    (htop : ∀ s ∈ top, ∀ q ∈ reg s, 0 ≤ height p v q)
    (hbot : ∀ s ∈ bot, ∀ q ∈ reg s, height p v q ≤ 0)
    (hpw : (top ++ bot).Pairwise (fun s t => volume (reg s ∩ reg t) = 0))
    (hun : reg r =ᵐ[volume] {q | ∃ s ∈ top ++ bot, q ∈ reg s})
    {f : ℝ × ℝ → ℝ} (hf : Continuous f) :
    (top.map fun s => ∫ q in reg s, f q).sum = ∫ q in reg r ∩ {q | 0 < height p v q}, f q ∧
    (bot.map fun s => ∫ q in reg s, f q).sum = ∫ q in reg r ∩ {q | height p v q < 0}, f q := by
  have key : ∀ A : Set (ℝ × ℝ), MeasurableSet A →
      ((top ++ bot).map fun s => ∫ q in reg s ∩ A, f q).sum = ∫ q in reg r ∩ A, f q := by
    intro A hA
    have h1 := (list_integral reg h.measurable (A.indicator f) _ hpw
      fun s _ => (integrable_reg h s hf).indicator hA).1
    simp only [setIntegral_indicator hA] at h1
    rw [h1]
    have : ({q | ∃ s ∈ top ++ bot, q ∈ reg s} ∩ A : Set (ℝ × ℝ)) =ᵐ[volume]
        (reg r ∩ A : Set (ℝ × ℝ)) :=
      hun.symm.inter (Filter.EventuallyEq.refl _ _)
    exact setIntegral_congr_set this
  have hnull : ∀ᵐ q : ℝ × ℝ, height p v q ≠ 0 := by
    rw [ae_iff]; simpa using line_null p v
  have hfull : ∀ (S A : Set (ℝ × ℝ)), (∀ q ∈ S, height p v q ≠ 0 → q ∈ A) →
      ∫ q in S ∩ A, f q = ∫ q in S, f q := by
    intro S A hSA
    refine setIntegral_congr_set ?_
    filter_upwards [hnull] with q hq
    apply propext
    exact ⟨fun hh => hh.1, fun hh => ⟨hh, hSA q hh hq⟩⟩
  have hnone : ∀ (S A : Set (ℝ × ℝ)), (∀ q ∈ S, q ∉ A) → ∫ q in S ∩ A, f q = 0 := by
    intro S A hSA
    have : S ∩ A = ∅ := by
      ext q; simp only [Set.mem_inter_iff, Set.mem_empty_iff_false, iff_false, not_and]; exact hSA q
    rw [this]; simp
  have hc := measurable_height p v
  constructor
  · rw [← key _ (measurableSet_lt measurable_const hc.measurable), List.map_append, List.sum_append]
    have e1 : (bot.map fun s => ∫ q in reg s ∩ {q | 0 < height p v q}, f q).sum = 0 := by
      apply List.sum_eq_zero
      intro x hx
      obtain ⟨s, hs, rfl⟩ := List.mem_map.1 hx
      exact hnone _ _ fun q hq hA => absurd (hbot s hs q hq) (not_le.2 hA)
    rw [e1, add_zero]
    congr 1
    refine List.map_congr_left fun s hs => (hfull _ _ fun q hq h0 => ?_).symm
    exact lt_of_le_of_ne (htop s hs q hq) (Ne.symm h0)
  · rw [← key _ (measurableSet_lt hc.measurable measurable_const), List.map_append, List.sum_append]
    have e1 : (top.map fun s => ∫ q in reg s ∩ {q | height p v q < 0}, f q).sum = 0 := by
      apply List.sum_eq_zero
      intro x hx
      obtain ⟨s, hs, rfl⟩ := List.mem_map.1 hx
      exact hnone _ _ fun q hq hA => absurd (htop s hs q hq) (not_le.2 hA)
    rw [e1, zero_add]
    congr 1
    refine List.map_congr_left fun s hs => (hfull _ _ fun q hq h0 => ?_).symm
    exact lt_of_le_of_ne (hbot s hs q hq) h0

/-- Splitting a whole section: the pieces above and below carry the integrals over the parts of the
section above and below the line, and lie on their side. -/
theorem splitSection_ok (h : ShapelyOk ops reg) (p v : ℝ × ℝ) (hv : |v.1| > 1e-12 ∨ v.2 ≠ 0)
    (geoms : List (PGeom P)) :
    ∃ top bot, splitSection ops p v geoms = .ok (top, bot) ∧
      (∀ s ∈ top, ∀ q ∈ reg s.poly, 0 ≤ height p v q) ∧
      (∀ s ∈ bot, ∀ q ∈ reg s.poly, height p v q ≤ 0) ∧
      (∀ s ∈ top ++ bot, ∃ g ∈ geoms, s.material = g.material) ∧
      ∀ f : ℝ × ℝ → ℝ, Continuous f →
        yieldInt reg top f = (geoms.map fun g =>
          g.material.yieldStrength * ∫ q in reg g.poly ∩ {q | 0 < height p v q}, f q).sum ∧
        yieldInt reg bot f = (geoms.map fun g =>
          g.material.yieldStrength * ∫ q in reg g.poly ∩ {q | height p v q < 0}, f q).sum := by
  induction geoms with
  | nil => exact ⟨[], [], rfl, by simp, by simp, by simp, by simp [yieldInt]⟩
  | cons g gs ih =>
    obtain ⟨ts, bs, e, h1, h2, h3, h4⟩ := ih
    obtain ⟨t, b, e', g1, g2, g3, g4⟩ := splitGeometry_ok h g p v hv
    refine ⟨(t.map fun q => ⟨q, g.material⟩) ++ ts, (b.map fun q => ⟨q, g.material⟩) ++ bs,
      by simp only [splitSection, e', e], ?_, ?_, ?_, ?_⟩
    · intro s hs
      rcases List.mem_append.1 hs with hs | hs
      · obtain ⟨q, hq, rfl⟩ := List.mem_map.1 hs
        exact g1 q hq
      · exact h1 s hs
    · intro s hs
      rcases List.mem_append.1 hs with hs | hs
      · obtain ⟨q, hq, rfl⟩ := List.mem_map.1 hs
        exact g2 q hq
      · exact h2 s hs
    · intro s hs
      simp only [List.mem_append, List.mem_map] at hs
      rcases hs with (⟨q, hq, rfl⟩ | hs) | (⟨q, hq, rfl⟩ | hs)
      · exact ⟨g, by simp, rfl⟩
      · obtain ⟨g', m, r⟩ := h3 s (by simp [hs]); exact ⟨g', by simp [m], r⟩
      · exact ⟨g, by simp, rfl⟩
      · obtain ⟨g', m, r⟩ := h3 s (by simp [hs]); exact ⟨g', by simp [m], r⟩
    · intro f hf
      obtain ⟨a1, a2⟩ := split_integral h p v g1 g2 g3 g4 hf
      obtain ⟨b1, b2⟩ := h4 f hf
      rw [yieldInt, yieldInt, List.map_append, List.sum_append, List.map_append, List.sum_append,
        List.map_cons, List.sum_cons, List.map_cons, List.sum_cons, ← a1, ← a2]
      unfold yieldInt at b1 b2
      rw [b1, b2, ← List.sum_map_mul_left, ← List.sum_map_mul_left]
      simp [Function.comp_def]

end SP
