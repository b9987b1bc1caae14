import Verif.Spec.Outline
import Mathlib.MeasureTheory.Integral.Prod
import Mathlib.MeasureTheory.Integral.IntervalIntegral.FundThmCalculus
import Mathlib.Analysis.SpecialFunctions.Integrals.Basic

/-!
# Integrals over the points that an outline goes round
-/

namespace SP

open Spec MeasureTheory Set

theorem crosses_swap (e : (ℝ × ℝ) × (ℝ × ℝ)) (p : ℝ × ℝ) : crosses e.swap p = - crosses e p := by
  have h : signedArea2 e.2 e.1 p = - signedArea2 e.1 e.2 p := by simp only [signedArea2]; ring
  simp only [crosses, Prod.fst_swap, Prod.snd_swap, h, Left.neg_pos_iff, Left.neg_neg_iff]
  ring

theorem crosses_flat {e : (ℝ × ℝ) × (ℝ × ℝ)} (h : e.1.2 = e.2.2) (p : ℝ × ℝ) : crosses e p = 0 := by
  have h1 : ¬ (e.1.2 ≤ p.2 ∧ p.2 < e.2.2 ∧ 0 < signedArea2 e.1 e.2 p) := fun ⟨a, b, _⟩ => by linarith
  have h2 : ¬ (e.2.2 ≤ p.2 ∧ p.2 < e.1.2 ∧ signedArea2 e.1 e.2 p < 0) := fun ⟨a, b, _⟩ => by linarith
  rw [crosses, if_neg h1, if_neg h2, sub_zero]

/-- The points from which the ray to the right meets an upward edge. -/
def upSet (e : (ℝ × ℝ) × (ℝ × ℝ)) : Set (ℝ × ℝ) := {p | (e.1.2 ≤ p.2 ∧ p.2 < e.2.2) ∧ 0 < signedArea2 e.1 e.2 p}

theorem crosses_up {e : (ℝ × ℝ) × (ℝ × ℝ)} (h : e.1.2 < e.2.2) (p : ℝ × ℝ) :
    (crosses e p : ℝ) = (upSet e).indicator (fun _ => (1 : ℝ)) p := by
  have h2 : ¬ (e.2.2 ≤ p.2 ∧ p.2 < e.1.2 ∧ signedArea2 e.1 e.2 p < 0) := fun ⟨a, b, _⟩ => by linarith
  rw [crosses, if_neg h2, sub_zero]
  by_cases h1 : e.1.2 ≤ p.2 ∧ p.2 < e.2.2 ∧ 0 < signedArea2 e.1 e.2 p
  · rw [if_pos h1, indicator_of_mem (show p ∈ upSet e from ⟨⟨h1.1, h1.2.1⟩, h1.2.2⟩)]; simp
  · rw [if_neg h1, indicator_of_notMem (fun h : p ∈ upSet e => h1 ⟨h.1.1, h.1.2, h.2⟩)]; simp

/-- The abscissa of the edge at a height. -/
noncomputable def edgeX (e : (ℝ × ℝ) × (ℝ × ℝ)) (y : ℝ) : ℝ := e.1.1 + (y - e.1.2) * ((e.2.1 - e.1.1) / (e.2.2 - e.1.2))

theorem left_iff {e : (ℝ × ℝ) × (ℝ × ℝ)} (h : e.1.2 < e.2.2) (p : ℝ × ℝ) :
    0 < signedArea2 e.1 e.2 p ↔ p.1 < edgeX e p.2 := by
  have h0 : 0 < e.2.2 - e.1.2 := by linarith
  have key : signedArea2 e.1 e.2 p = (e.2.2 - e.1.2) * (edgeX e p.2 - p.1) := by
    simp only [signedArea2, edgeX]
    field_simp
    ring
  rw [key, mul_pos_iff_of_pos_left h0, sub_pos]

theorem edgeX_ge {e : (ℝ × ℝ) × (ℝ × ℝ)} (h : e.1.2 < e.2.2) {L y : ℝ} (h1 : L ≤ e.1.1) (h2 : L ≤ e.2.1)
    (hy : y ∈ Icc e.1.2 e.2.2) : L ≤ edgeX e y := by
  have h0 : 0 < e.2.2 - e.1.2 := by linarith
  have : edgeX e y - L = ((e.2.2 - y) * (e.1.1 - L) + (y - e.1.2) * (e.2.1 - L)) / (e.2.2 - e.1.2) := by
    simp only [edgeX]; field_simp; ring
  have := div_nonneg (add_nonneg (mul_nonneg (sub_nonneg.2 hy.2) (sub_nonneg.2 h1))
    (mul_nonneg (sub_nonneg.2 hy.1) (sub_nonneg.2 h2))) h0.le
  linarith

theorem edgeX_le {e : (ℝ × ℝ) × (ℝ × ℝ)} (h : e.1.2 < e.2.2) {M y : ℝ} (h1 : e.1.1 ≤ M) (h2 : e.2.1 ≤ M)
    (hy : y ∈ Icc e.1.2 e.2.2) : edgeX e y ≤ M := by
  have h0 : 0 < e.2.2 - e.1.2 := by linarith
  have : M - edgeX e y = ((e.2.2 - y) * (M - e.1.1) + (y - e.1.2) * (M - e.2.1)) / (e.2.2 - e.1.2) := by
    simp only [edgeX]; field_simp; ring
  have := div_nonneg (add_nonneg (mul_nonneg (sub_nonneg.2 hy.2) (sub_nonneg.2 h1))
    (mul_nonneg (sub_nonneg.2 hy.1) (sub_nonneg.2 h2))) h0.le
  linarith

theorem continuous_edgeX (e : (ℝ × ℝ) × (ℝ × ℝ)) : Continuous (edgeX e) := by unfold edgeX; fun_prop

/-- The points to the right of `L` from which the ray to the right meets the edge. -/
def edgeRegion (e : (ℝ × ℝ) × (ℝ × ℝ)) (L : ℝ) : Set (ℝ × ℝ) :=
  {p | (e.1.2 ≤ p.2 ∧ p.2 < e.2.2) ∧ L ≤ p.1 ∧ p.1 < edgeX e p.2}

theorem measurable_edgeRegion (e : (ℝ × ℝ) × (ℝ × ℝ)) (L : ℝ) : MeasurableSet (edgeRegion e L) := by
  have h1 : Measurable fun p : ℝ × ℝ => edgeX e p.2 := (continuous_edgeX e).measurable.comp measurable_snd
  refine ((measurableSet_le measurable_const measurable_snd).inter (measurableSet_lt measurable_snd measurable_const)).inter
    ((measurableSet_le measurable_const measurable_fst).inter (measurableSet_lt measurable_fst h1))

theorem edgeRegion_int {e : (ℝ × ℝ) × (ℝ × ℝ)} (h : e.1.2 < e.2.2) (L : ℝ) {f : ℝ × ℝ → ℝ} (hf : Continuous f) :
    IntegrableOn f (edgeRegion e L) := by
  refine (hf.continuousOn.integrableOn_compact (K := Icc L (max e.1.1 e.2.1) ×ˢ Icc e.1.2 e.2.2)
    (isCompact_Icc.prod isCompact_Icc)).mono_set ?_
  rintro p ⟨⟨h1, h2⟩, h3, h4⟩
  exact ⟨⟨h3, h4.le.trans (edgeX_le h (le_max_left _ _) (le_max_right _ _) ⟨h1, h2.le⟩)⟩, h1, h2.le⟩

/-- The integral over these points, for an upward edge. -/
theorem edgeRegion_integral {e : (ℝ × ℝ) × (ℝ × ℝ)} (h : e.1.2 < e.2.2) {L : ℝ} (h1 : L ≤ e.1.1) (h2 : L ≤ e.2.1)
    {f F : ℝ × ℝ → ℝ} (hf : Continuous f) (hF : ∀ x y, HasDerivAt (fun x => F (x, y)) (f (x, y)) x) :
    ∫ p in edgeRegion e L, f p = ∫ y in e.1.2..e.2.2, (F (edgeX e y, y) - F (L, y)) := by
  have hi := (edgeRegion_int h L hf).integrable_indicator (measurable_edgeRegion e L)
  rw [← integral_indicator (measurable_edgeRegion e L), Measure.volume_eq_prod]
  rw [Measure.volume_eq_prod] at hi
  rw [integral_prod_symm _ hi, intervalIntegral.integral_of_le h.le, ← integral_Ico_eq_integral_Ioc,
    ← integral_indicator measurableSet_Ico]
  refine integral_congr_ae (.of_forall fun y => ?_)
  simp only
  by_cases hy : y ∈ Ico e.1.2 e.2.2
  · rw [indicator_of_mem hy]
    have hle : L ≤ edgeX e y := edgeX_ge h h1 h2 ⟨hy.1, hy.2.le⟩
    have e1 : (fun x => (edgeRegion e L).indicator f (x, y)) = (Ico L (edgeX e y)).indicator fun x => f (x, y) := by
      funext x
      by_cases hx : x ∈ Ico L (edgeX e y)
      · rw [indicator_of_mem hx, indicator_of_mem (show (x, y) ∈ edgeRegion e L from ⟨hy, hx⟩)]
      · rw [indicator_of_notMem hx, indicator_of_notMem (show (x, y) ∉ edgeRegion e L from fun h => hx h.2)]
    rw [e1, integral_indicator measurableSet_Ico, integral_Ico_eq_integral_Ioc, ← intervalIntegral.integral_of_le hle]
    exact intervalIntegral.integral_eq_sub_of_hasDerivAt (fun x _ => hF x y)
      ((hf.comp (by fun_prop : Continuous fun x : ℝ => (x, y))).intervalIntegrable _ _)
  · rw [indicator_of_notMem hy]
    have e1 : (fun x => (edgeRegion e L).indicator f (x, y)) = fun _ => 0 := by
      funext x
      exact indicator_of_notMem (show (x, y) ∉ edgeRegion e L from fun h => hy h.1) _
    rw [e1, integral_zero]

/-- The part of a function to the right of `L`. -/
noncomputable def rightOf (L : ℝ) (p : ℝ × ℝ) : ℝ := open Classical in if L ≤ p.1 then 1 else 0

theorem crosses_right {e : (ℝ × ℝ) × (ℝ × ℝ)} (h : e.1.2 < e.2.2) (L : ℝ) (f : ℝ × ℝ → ℝ) :
    (fun p => (crosses e p : ℝ) * rightOf L p * f p) = (edgeRegion e L).indicator f := by
  funext p
  rw [crosses_up h]
  by_cases hp : p ∈ edgeRegion e L
  · obtain ⟨h1, h2, h3⟩ := hp
    rw [indicator_of_mem (show p ∈ edgeRegion e L from ⟨h1, h2, h3⟩),
      indicator_of_mem (show p ∈ upSet e from ⟨h1, (left_iff h p).2 h3⟩), rightOf, if_pos h2]
    ring
  · rw [indicator_of_notMem hp]
    by_cases h1 : p ∈ upSet e
    · have : ¬ L ≤ p.1 := fun h2 => hp ⟨h1.1, h2, (left_iff h p).1 h1.2⟩
      rw [rightOf, if_neg this]; ring
    · rw [indicator_of_notMem h1]; ring

/-- Any edge. -/
theorem crosses_integral (e : (ℝ × ℝ) × (ℝ × ℝ)) {L : ℝ} (h1 : L ≤ e.1.1) (h2 : L ≤ e.2.1)
    {f F : ℝ × ℝ → ℝ} (hf : Continuous f) (hF : ∀ x y, HasDerivAt (fun x => F (x, y)) (f (x, y)) x) :
    Integrable (fun p => (crosses e p : ℝ) * rightOf L p * f p) ∧
    ∫ p, (crosses e p : ℝ) * rightOf L p * f p = ∫ y in e.1.2..e.2.2, (F (edgeX e y, y) - F (L, y)) := by
  rcases lt_trichotomy e.1.2 e.2.2 with h | h | h
  · rw [crosses_right h]
    refine ⟨(edgeRegion_int h L hf).integrable_indicator (measurable_edgeRegion e L), ?_⟩
    rw [integral_indicator (measurable_edgeRegion e L)]
    exact edgeRegion_integral h h1 h2 hf hF
  · simp only [crosses_flat h, Int.cast_zero, zero_mul, h]
    simp
  · have hs : (fun p => (crosses e p : ℝ) * rightOf L p * f p) = fun p => -((crosses e.swap p : ℝ) * rightOf L p * f p) := by
      funext p
      rw [crosses_swap]
      push_cast
      ring
    have h' : e.swap.1.2 < e.swap.2.2 := h
    have hx : ∀ y, edgeX e.swap y = edgeX e y := by
      intro y
      simp only [edgeX, Prod.fst_swap, Prod.snd_swap]
      have : e.1.2 - e.2.2 ≠ 0 := by linarith
      have : e.2.2 - e.1.2 ≠ 0 := by linarith
      field_simp
      ring
    rw [hs, integral_neg]
    have hi := crosses_right h' L f
    refine ⟨Integrable.neg (by rw [hi]; exact ((edgeRegion_int h' L hf).integrable_indicator (measurable_edgeRegion e.swap L))), ?_⟩
    rw [hi, integral_indicator (measurable_edgeRegion e.swap L), edgeRegion_integral h' (by exact h2) (by exact h1) hf hF,
      intervalIntegral.integral_symm, neg_neg]
    simp only [hx, Prod.fst_swap, Prod.snd_swap]

theorem closed_sum {edges : List ((ℝ × ℝ) × (ℝ × ℝ))} (h : ClosedOutline edges) (g : ℝ × ℝ → ℝ) :
    (edges.map fun e => g e.2 - g e.1).sum = 0 := by
  have h1 := (h.map g).sum_eq
  rw [List.map_map, List.map_map] at h1
  have : ∀ l : List ((ℝ × ℝ) × (ℝ × ℝ)), (l.map fun e => g e.2 - g e.1).sum = (l.map (g ∘ Prod.snd)).sum - (l.map (g ∘ Prod.fst)).sum := by
    intro l
    induction l with
    | nil => simp
    | cons a l ih => simp only [List.map_cons, List.sum_cons, ih, Function.comp]; ring
  rw [this, h1, sub_self]

/-- Nothing is enclosed to the left of all edges. -/
theorem winding_left {edges : List ((ℝ × ℝ) × (ℝ × ℝ))} (h : ClosedOutline edges) {L : ℝ}
    (hL : ∀ e ∈ edges, L ≤ e.1.1 ∧ L ≤ e.2.1) {p : ℝ × ℝ} (hp : p.1 < L) : winding edges p = 0 := by
  classical
  have key : ∀ e ∈ edges, (crosses e p : ℝ) = (if p.2 < e.2.2 then 1 else 0) - (if p.2 < e.1.2 then 1 else 0) := by
    have up : ∀ e : (ℝ × ℝ) × (ℝ × ℝ), L ≤ e.1.1 → L ≤ e.2.1 → e.1.2 < e.2.2 →
        (crosses e p : ℝ) = (if p.2 < e.2.2 then 1 else 0) - (if p.2 < e.1.2 then 1 else 0) := by
      intro e h1 h2 hlt
      rw [crosses_up hlt]
      by_cases hy : e.1.2 ≤ p.2 ∧ p.2 < e.2.2
      · rw [indicator_of_mem (show p ∈ upSet e from
          ⟨hy, (left_iff hlt p).2 (hp.trans_le (edgeX_ge hlt h1 h2 ⟨hy.1, hy.2.le⟩))⟩), if_pos hy.2, if_neg (not_lt.2 hy.1)]
        norm_num
      · rw [indicator_of_notMem (fun h : p ∈ upSet e => hy h.1)]
        by_cases h3 : p.2 < e.1.2
        · rw [if_pos h3, if_pos (h3.trans hlt)]; norm_num
        · rw [if_neg h3, if_neg (fun h4 => hy ⟨not_lt.1 h3, h4⟩)]; norm_num
    intro e he
    obtain ⟨h1, h2⟩ := hL e he
    rcases lt_trichotomy e.1.2 e.2.2 with hlt | heq | hgt
    · exact up e h1 h2 hlt
    · rw [crosses_flat heq, heq, sub_self, Int.cast_zero]
    · have := up e.swap h2 h1 hgt
      rw [crosses_swap] at this
      push_cast at this
      simp only [Prod.fst_swap, Prod.snd_swap] at this
      linarith
  have : (winding edges p : ℝ) = 0 := by
    rw [winding, Int.cast_list_sum, List.map_map, show (Int.cast ∘ fun e => crosses e p) = fun e => (crosses e p : ℝ) from rfl]
    rw [List.map_congr_left (g := fun e => (fun q : ℝ × ℝ => if p.2 < q.2 then (1 : ℝ) else 0) e.2
      - (fun q : ℝ × ℝ => if p.2 < q.2 then (1 : ℝ) else 0) e.1) (fun e he => key e he)]
    exact closed_sum h fun q => if p.2 < q.2 then (1 : ℝ) else 0
  exact_mod_cast this

/-- **Green's theorem** for outlines. -/
theorem winding_integral {edges : List ((ℝ × ℝ) × (ℝ × ℝ))} (h : ClosedOutline edges) {f F : ℝ × ℝ → ℝ} (hf : Continuous f)
    (hFc : Continuous F) (hF : ∀ x y, HasDerivAt (fun x => F (x, y)) (f (x, y)) x) :
    Integrable (fun p => (winding edges p : ℝ) * f p) ∧
    ∫ p, (winding edges p : ℝ) * f p = (edges.map fun e => ∫ y in e.1.2..e.2.2, F (edgeX e y, y)).sum := by
  obtain ⟨L, hL⟩ : ∃ L : ℝ, ∀ e ∈ edges, L ≤ e.1.1 ∧ L ≤ e.2.1 := by
    clear h
    induction edges with
    | nil => exact ⟨0, by simp⟩
    | cons a l ih =>
      obtain ⟨L, hL⟩ := ih
      refine ⟨min L (min a.1.1 a.2.1), fun e he => ?_⟩
      rcases List.mem_cons.1 he with rfl | he
      · exact ⟨(min_le_right _ _).trans (min_le_left _ _), (min_le_right _ _).trans (min_le_right _ _)⟩
      · exact ⟨(min_le_left _ _).trans (hL e he).1, (min_le_left _ _).trans (hL e he).2⟩
  have e1 : (fun p => (winding edges p : ℝ) * f p) = fun p => (edges.map fun e => (crosses e p : ℝ) * rightOf L p * f p).sum := by
    funext p
    have e2 : (edges.map fun e => (crosses e p : ℝ) * rightOf L p * f p).sum = (winding edges p : ℝ) * rightOf L p * f p := by
      rw [winding, Int.cast_list_sum, List.map_map, mul_assoc, ← List.sum_map_mul_right]
      simp only [mul_assoc, Function.comp]
    rw [e2]
    by_cases hp : L ≤ p.1
    · rw [rightOf, if_pos hp, mul_one]
    · rw [winding_left h hL (not_le.1 hp)]; simp
  have key : ∀ l : List ((ℝ × ℝ) × (ℝ × ℝ)), (∀ e ∈ l, L ≤ e.1.1 ∧ L ≤ e.2.1) →
      Integrable (fun p => (l.map fun e => (crosses e p : ℝ) * rightOf L p * f p).sum) ∧
      ∫ p, (l.map fun e => (crosses e p : ℝ) * rightOf L p * f p).sum
        = (l.map fun e => ∫ y in e.1.2..e.2.2, (F (edgeX e y, y) - F (L, y))).sum := by
    intro l
    induction l with
    | nil => intro _; simp
    | cons a l ih =>
      intro hl
      obtain ⟨i1, i2⟩ := ih fun e he => hl e (List.mem_cons_of_mem _ he)
      obtain ⟨h1, h2⟩ := hl a (List.mem_cons_self ..)
      obtain ⟨j1, j2⟩ := crosses_integral a h1 h2 hf hF
      simp only [List.map_cons, List.sum_cons]
      exact ⟨j1.add i1, by rw [integral_add j1 i1, i2, j2]⟩
  obtain ⟨k1, k2⟩ := key edges hL
  rw [e1]
  refine ⟨k1, k2.trans ?_⟩
  have hc1 : ∀ e, Continuous fun y => F (edgeX e y, y) := fun e => hFc.comp ((continuous_edgeX e).prodMk continuous_id)
  have hc2 : Continuous fun y => F (L, y) := hFc.comp (by fun_prop)
  have split : ∀ e : (ℝ × ℝ) × (ℝ × ℝ), ∫ y in e.1.2..e.2.2, (F (edgeX e y, y) - F (L, y))
      = (∫ y in e.1.2..e.2.2, F (edgeX e y, y)) - ((∫ y in (0 : ℝ)..e.2.2, F (L, y)) - ∫ y in (0 : ℝ)..e.1.2, F (L, y)) := by
    intro e
    rw [intervalIntegral.integral_sub ((hc1 e).intervalIntegrable _ _) (hc2.intervalIntegrable _ _),
      intervalIntegral.integral_interval_sub_left (hc2.intervalIntegrable _ _) (hc2.intervalIntegrable _ _)]
  have hz := closed_sum h fun q => ∫ y in (0 : ℝ)..q.2, F (L, y)
  simp only [split]
  have : ∀ (l : List ((ℝ × ℝ) × (ℝ × ℝ))) (u v : (ℝ × ℝ) × (ℝ × ℝ) → ℝ), (l.map fun e => u e - v e).sum = (l.map u).sum - (l.map v).sum := by
    intro l u v
    induction l with
    | nil => simp
    | cons a l ih => simp only [List.map_cons, List.sum_cons, ih]; ring
  rw [this, hz, sub_zero]

/-- The integral along an edge of a cubic. -/
theorem edge_integral (e : (ℝ × ℝ) × (ℝ × ℝ)) (F : ℝ × ℝ → ℝ) (c0 c1 c2 c3 : ℝ)
    (h : ∀ t, F (e.1.1 + t * (e.2.1 - e.1.1), e.1.2 + t * (e.2.2 - e.1.2)) = c0 + c1 * t + c2 * t ^ 2 + c3 * t ^ 3) :
    ∫ y in e.1.2..e.2.2, F (edgeX e y, y) = (e.2.2 - e.1.2) * (c0 + c1 / 2 + c2 / 3 + c3 / 4) := by
  by_cases h0 : e.2.2 - e.1.2 = 0
  · rw [h0, zero_mul, show e.1.2 = e.2.2 by linarith, intervalIntegral.integral_same]
  · have := intervalIntegral.smul_integral_comp_add_mul (a := 0) (b := 1) (fun y => F (edgeX e y, y)) (e.2.2 - e.1.2) e.1.2
    simp only [mul_zero, add_zero, mul_one, add_sub_cancel, smul_eq_mul] at this
    rw [← this]
    congr 1
    have e1 : ∀ t, F (edgeX e (e.1.2 + (e.2.2 - e.1.2) * t), e.1.2 + (e.2.2 - e.1.2) * t) = c0 + c1 * t + c2 * t ^ 2 + c3 * t ^ 3 := by
      intro t
      rw [← h t]
      congr 2
      · simp only [edgeX]; field_simp; ring
      · ring
    simp only [e1]
    rw [intervalIntegral.integral_add, intervalIntegral.integral_add, intervalIntegral.integral_add]
    · simp only [intervalIntegral.integral_const, intervalIntegral.integral_const_mul, integral_pow]
      rw [intervalIntegral.integral_const_mul, integral_id]
      norm_num
      ring
    all_goals exact Continuous.intervalIntegrable (by fun_prop) _ _

end SP
