import Mathlib.Data.List.Sort
import Verif.Model.AxisPlot
import Verif.Spec.AxisPlot

/-!
# C77: the drawn principal axes
-/

namespace SP

open Spec

/-- The point of the line at the parameter `t`. -/
def along (b c : ℝ × ℝ) (t : ℝ) : ℝ × ℝ := (c.1 + t * b.1, c.2 + t * b.2)

theorem mem_segment_along {b c : ℝ × ℝ} {x y : ℝ} (h : x ≤ y) {p : ℝ × ℝ} :
    p ∈ segment ℝ (along b c x) (along b c y) ↔ ∃ t, x ≤ t ∧ t ≤ y ∧ p = along b c t := by
  constructor
  · rintro ⟨u, v, hu, hv, huv, rfl⟩
    obtain rfl : u = 1 - v := by linarith
    refine ⟨(1 - v) * x + v * y, by nlinarith, by nlinarith, Prod.ext ?_ ?_⟩
    · simp only [along, Prod.fst_add, Prod.smul_fst, smul_eq_mul]; ring
    · simp only [along, Prod.snd_add, Prod.smul_snd, smul_eq_mul]; ring
  · rintro ⟨t, h1, h2, rfl⟩
    rcases h.eq_or_lt with rfl | hlt
    · obtain rfl : t = x := le_antisymm h2 h1
      exact left_mem_segment ℝ _ _
    · have hd : y - x ≠ 0 := by linarith
      refine ⟨(y - t) / (y - x), (t - x) / (y - x), div_nonneg (by linarith) (by linarith),
        div_nonneg (by linarith) (by linarith), by field_simp; ring, Prod.ext ?_ ?_⟩
      · simp only [along, Prod.fst_add, Prod.smul_fst, smul_eq_mul]; field_simp; ring
      · simp only [along, Prod.snd_add, Prod.smul_snd, smul_eq_mul]; field_simp; ring

/-- Between which parameters a coordinate stays within its limits. -/
theorem within_iff {b c lo hi t : ℝ} (hb : b ≠ 0) :
    (lo ≤ c + t * b ∧ c + t * b ≤ hi) ↔
      if 0 < b then (lo - c) / b ≤ t ∧ t ≤ (hi - c) / b else (hi - c) / b ≤ t ∧ t ≤ (lo - c) / b := by
  split
  · next h => rw [div_le_iff₀ h, le_div_iff₀ h]; constructor <;> rintro ⟨h1, h2⟩ <;> constructor <;> linarith
  · next h =>
    have h' : b < 0 := lt_of_le_of_ne (not_lt.1 h) hb
    rw [div_le_iff_of_neg h', le_div_iff_of_neg h']; constructor <;> rintro ⟨h1, h2⟩ <;> constructor <;> linarith

/-- The parameters at which a coordinate reaches its limits lie on both sides of the centroid. -/
theorem limits_around {b c lo hi : ℝ} (hb : b ≠ 0) (h0 : lo ≤ c) (h1 : c ≤ hi) :
    ∃ l u, l ≤ 0 ∧ 0 ≤ u ∧ ([(lo - c) / b, (hi - c) / b].Perm [l, u]) ∧
      ∀ t, (lo ≤ c + t * b ∧ c + t * b ≤ hi) ↔ l ≤ t ∧ t ≤ u := by
  rcases lt_or_gt_of_ne hb with h | h
  · refine ⟨(hi - c) / b, (lo - c) / b, div_nonpos_of_nonneg_of_nonpos (by linarith) h.le,
      div_nonneg_of_nonpos (by linarith) h.le, List.Perm.swap _ _ _, fun t => ?_⟩
    rw [within_iff hb, if_neg (by linarith)]
  · refine ⟨(lo - c) / b, (hi - c) / b, div_nonpos_of_nonpos_of_nonneg (by linarith) h.le,
      div_nonneg (by linarith) h.le, List.Perm.refl _, fun t => ?_⟩
    rw [within_iff hb, if_pos h]

theorem sorted_four {l u l' u' : ℝ} (h1 : l ≤ 0) (h2 : 0 ≤ u) (h3 : l' ≤ 0) (h4 : 0 ≤ u') {s : List ℝ}
    (hp : s.Perm [l, u, l', u']) (hs : s.Pairwise (· ≤ ·)) : s = [min l l', max l l', min u u', max u u'] := by
  refine List.Perm.eq_of_pairwise (fun a b _ _ => le_antisymm) hs ?_ (hp.trans ?_)
  · have a1 : min l l' ≤ max l l' := min_le_max
    have a2 : max l l' ≤ 0 := max_le h1 h3
    have a3 : 0 ≤ min u u' := le_min h2 h4
    have a4 : min u u' ≤ max u u' := min_le_max
    simp only [List.pairwise_cons, List.mem_cons, List.not_mem_nil, or_false, forall_eq_or_imp, forall_eq, false_imp_iff,
      implies_true, List.Pairwise.nil, and_true]
    refine ⟨⟨a1, ?_, ?_⟩, ⟨?_, ?_⟩, a4⟩ <;> linarith
  · have e1 : [l, l'].Perm [min l l', max l l'] := by
      rcases le_total l l' with h | h
      · rw [min_eq_left h, max_eq_right h]
      · rw [min_eq_right h, max_eq_left h]; exact List.Perm.swap _ _ _
    have e2 : [u, u'].Perm [min u u', max u u'] := by
      rcases le_total u u' with h | h
      · rw [min_eq_left h, max_eq_right h]
      · rw [min_eq_right h, max_eq_left h]; exact List.Perm.swap _ _ _
    exact ((List.Perm.swap l' u [u']).cons l).trans (e1.append e2)

/-- The points before sorting. -/
theorem principalPoints_eq (sort : List (ℝ × ℝ) → List (ℝ × ℝ)) (b c : ℝ × ℝ) (lims : ℝ × ℝ × ℝ × ℝ) :
    principalPoints sort b lims c =
      let s := sort (((if b.1 ≠ 0 then [(lims.1 - c.1) / b.1, (lims.2.1 - c.1) / b.1] else []) ++
        (if b.2 ≠ 0 then [(lims.2.2.1 - c.2) / b.2, (lims.2.2.2 - c.2) / b.2] else [])).map (along b c))
      if s.length = 4 then (s.drop 1).take 2 else s := by
  have pt : ∀ num denom, (b.1 * num / denom + c.1, b.2 * num / denom + c.2) = along b c (num / denom) := by
    intro num denom
    simp only [along, Prod.mk.injEq]
    constructor <;> ring
  by_cases h1 : b.1 = 0 <;> by_cases h2 : b.2 = 0 <;> simp only [principalPoints, addPoint, pt] <;> simp [h1, h2]

theorem perm_two {α : Type} {s : List α} {a b : α} (h : s.Perm [a, b]) : s = [a, b] ∨ s = [b, a] := by
  match s, h.length_eq with
  | [x, y], _ =>
    have hx : x ∈ [a, b] := h.mem_iff.1 (by simp)
    simp only [List.mem_cons, List.not_mem_nil, or_false] at hx
    rcases hx with rfl | rfl
    · left
      have := (List.perm_cons x).1 h
      rw [List.perm_singleton.1 this]
    · right
      have := (List.perm_cons x).1 (h.trans (List.Perm.swap _ _ _))
      rw [List.perm_singleton.1 this]

/-- A line that is parallel to one of the axes: the other coordinate decides. -/
theorem points_two {sort : List (ℝ × ℝ) → List (ℝ × ℝ)} (hs : SortsByX sort) (b c : ℝ × ℝ) {x y l u : ℝ} (hlu : l ≤ u)
    (hp : [x, y].Perm [l, u]) :
    ∃ P Q, sort ([x, y].map (along b c)) = [P, Q] ∧
      ∀ p, p ∈ segment ℝ P Q ↔ ∃ t, l ≤ t ∧ t ≤ u ∧ p = along b c t := by
  have h := ((hs ([x, y].map (along b c))).1).trans (hp.map _)
  simp only [List.map_cons, List.map_nil] at h
  rcases perm_two h with e | e
  · exact ⟨_, _, e, fun p => mem_segment_along hlu⟩
  · exact ⟨_, _, e, fun p => by rw [segment_symm]; exact mem_segment_along hlu⟩

/-- A sloping line: of four points sorted by their first coordinates the middle two are taken. -/
theorem points_four {sort : List (ℝ × ℝ) → List (ℝ × ℝ)} (hs : SortsByX sort) {b : ℝ × ℝ} (c : ℝ × ℝ) (hb : b.1 ≠ 0)
    {x y x' y' l u l' u' : ℝ} (h1 : l ≤ 0) (h2 : 0 ≤ u) (h3 : l' ≤ 0) (h4 : 0 ≤ u') (hp : [x, y].Perm [l, u])
    (hp' : [x', y'].Perm [l', u']) :
    ∃ A P Q B, sort ([x, y, x', y'].map (along b c)) = [A, P, Q, B] ∧
      ∀ p, p ∈ segment ℝ P Q ↔ ∃ t, max l l' ≤ t ∧ t ≤ min u u' ∧ p = along b c t := by
  obtain ⟨hperm, hsort⟩ := hs ([x, y, x', y'].map (along b c))
  generalize sort ([x, y, x', y'].map (along b c)) = s at *
  have hlu : max l l' ≤ min u u' := (max_le h1 h3).trans (le_min h2 h4)
  -- back to parameters
  have inv : ∀ t, ((along b c t).1 - c.1) / b.1 = t := by intro t; simp only [along]; field_simp; ring
  have hmem : ∀ p ∈ s, along b c ((p.1 - c.1) / b.1) = p := by
    intro p hp
    obtain ⟨t, -, rfl⟩ := List.mem_map.1 (hperm.mem_iff.1 hp)
    rw [inv]
  have hs2 : (s.map fun p => (p.1 - c.1) / b.1).map (along b c) = s := by
    rw [List.map_map]
    exact (List.map_congr_left fun p hp => hmem p hp).trans (List.map_id _)
  have hpt : (s.map fun p => (p.1 - c.1) / b.1).Perm [l, u, l', u'] := by
    refine (hperm.map _).trans ?_
    rw [List.map_map]
    have : ((fun p : ℝ × ℝ => (p.1 - c.1) / b.1) ∘ along b c) = id := by funext t; exact inv t
    rw [this, List.map_id]
    exact hp.append hp'
  rcases lt_or_gt_of_ne hb with hneg | hpos
  · have e := sorted_four h1 h2 h3 h4 ((List.reverse_perm _).trans hpt) (by
      rw [List.pairwise_reverse, List.pairwise_map]
      exact hsort.imp fun h => by
        rw [div_le_div_right_of_neg hneg]; linarith)
    have e' : (s.map fun p => (p.1 - c.1) / b.1) = [max u u', min u u', max l l', min l l'] := by
      rw [← List.reverse_reverse (s.map _), e]; rfl
    rw [e'] at hs2
    exact ⟨_, _, _, _, hs2.symm, fun p => by rw [segment_symm]; exact mem_segment_along hlu⟩
  · have e := sorted_four h1 h2 h3 h4 hpt (by
      rw [List.pairwise_map]
      exact hsort.imp fun h => by
        rw [div_le_div_iff_of_pos_right hpos]; linarith)
    rw [e] at hs2
    exact ⟨_, _, _, _, hs2.symm, fun p => mem_segment_along hlu⟩

theorem principal_points {sort : List (ℝ × ℝ) → List (ℝ × ℝ)} (hs : SortsByX sort) {b : ℝ × ℝ} (hb : b.1 ≠ 0 ∨ b.2 ≠ 0)
    {lims : ℝ × ℝ × ℝ × ℝ} {c : ℝ × ℝ} (hx0 : lims.1 ≤ c.1) (hx1 : c.1 ≤ lims.2.1) (hy0 : lims.2.2.1 ≤ c.2)
    (hy1 : c.2 ≤ lims.2.2.2) :
    ∃ P Q, principalPoints sort b lims c = [P, Q] ∧ ∀ p, p ∈ segment ℝ P Q ↔
      (lims.1 ≤ p.1 ∧ p.1 ≤ lims.2.1 ∧ lims.2.2.1 ≤ p.2 ∧ p.2 ≤ lims.2.2.2) ∧ ∃ t, p = along b c t := by
  rw [principalPoints_eq]
  by_cases h1 : b.1 = 0
  · have h2 : b.2 ≠ 0 := hb.resolve_left (not_not.2 h1)
    obtain ⟨l, u, hl, hu, hperm, hw⟩ := limits_around h2 hy0 hy1
    obtain ⟨P, Q, e, hm⟩ := points_two hs b c (hl.trans hu) hperm
    rw [if_neg (not_not.2 h1), if_pos h2, List.nil_append, e]
    refine ⟨P, Q, rfl, fun p => ?_⟩
    rw [hm]
    constructor
    · rintro ⟨t, a1, a2, rfl⟩
      have := (hw t).2 ⟨a1, a2⟩
      exact ⟨⟨by simpa [along, h1] using hx0, by simpa [along, h1] using hx1, this.1, this.2⟩, t, rfl⟩
    · rintro ⟨⟨-, -, a1, a2⟩, t, rfl⟩
      exact ⟨t, ((hw t).1 ⟨a1, a2⟩).1, ((hw t).1 ⟨a1, a2⟩).2, rfl⟩
  obtain ⟨l, u, hl, hu, hperm, hw⟩ := limits_around h1 hx0 hx1
  by_cases h2 : b.2 = 0
  · obtain ⟨P, Q, e, hm⟩ := points_two hs b c (hl.trans hu) hperm
    rw [if_pos h1, if_neg (not_not.2 h2), List.append_nil, e]
    refine ⟨P, Q, rfl, fun p => ?_⟩
    rw [hm]
    constructor
    · rintro ⟨t, a1, a2, rfl⟩
      have := (hw t).2 ⟨a1, a2⟩
      exact ⟨⟨this.1, this.2, by simpa [along, h2] using hy0, by simpa [along, h2] using hy1⟩, t, rfl⟩
    · rintro ⟨⟨a1, a2, -, -⟩, t, rfl⟩
      exact ⟨t, ((hw t).1 ⟨a1, a2⟩).1, ((hw t).1 ⟨a1, a2⟩).2, rfl⟩
  · obtain ⟨l', u', hl', hu', hperm', hw'⟩ := limits_around h2 hy0 hy1
    obtain ⟨A, P, Q, B, e, hm⟩ := points_four hs c h1 hl hu hl' hu' hperm hperm'
    rw [if_pos h1, if_pos h2, List.cons_append, List.cons_append, List.nil_append, e]
    refine ⟨P, Q, rfl, fun p => ?_⟩
    rw [hm]
    constructor
    · rintro ⟨t, a1, a2, rfl⟩
      have b1 := (hw t).2 ⟨(le_max_left _ _).trans a1, a2.trans (min_le_left _ _)⟩
      have b2 := (hw' t).2 ⟨(le_max_right _ _).trans a1, a2.trans (min_le_right _ _)⟩
      exact ⟨⟨b1.1, b1.2, b2.1, b2.2⟩, t, rfl⟩
    · rintro ⟨⟨a1, a2, a3, a4⟩, t, rfl⟩
      have b1 := (hw t).1 ⟨a1, a2⟩
      have b2 := (hw' t).1 ⟨a3, a4⟩
      exact ⟨t, max_le b1.1 b2.1, le_min b1.2 b2.2, rfl⟩

/-- **C77.** For every angle, limits and centroid within the limits, each of the two principal axes is drawn as one
straight line, and this line consists of exactly those points of the axis that are within the limits. -/
theorem C77_principal_axes {sort : List (ℝ × ℝ) → List (ℝ × ℝ)} (hs : SortsByX sort) (φ : ℝ)
    {lims : ℝ × ℝ × ℝ × ℝ} {c : ℝ × ℝ} (hx0 : lims.1 ≤ c.1) (hx1 : c.1 ≤ lims.2.1) (hy0 : lims.2.2.1 ≤ c.2)
    (hy1 : c.2 ≤ lims.2.2.2) :
    (∃ P Q, (principalAxes sort φ lims c).1 = [P, Q] ∧ segment ℝ P Q = AxisWithin φ lims c) ∧
    (∃ P Q, (principalAxes sort φ lims c).2 = [P, Q] ∧ segment ℝ P Q = AxisWithin (φ + Real.pi / 2) lims c) := by
  have hcs := Real.sin_sq_add_cos_sq φ
  constructor
  · obtain ⟨P, Q, e, hm⟩ := principal_points hs (b := (Real.cos φ, Real.sin φ)) (by
      by_contra h; push Not at h; simp only at h; rw [h.1, h.2] at hcs; norm_num at hcs) hx0 hx1 hy0 hy1
    exact ⟨P, Q, e, Set.ext fun p => hm p⟩
  · obtain ⟨P, Q, e, hm⟩ := principal_points hs (b := (-Real.sin φ, Real.cos φ)) (by
      by_contra h; push Not at h; simp only at h; rw [neg_eq_zero.1 h.1, h.2] at hcs; norm_num at hcs) hx0 hx1 hy0 hy1
    refine ⟨P, Q, e, Set.ext fun p => ?_⟩
    rw [hm, AxisWithin, Real.cos_add_pi_div_two, Real.sin_add_pi_div_two]
    rfl

/-- A sort that meets the hypothesis. -/
noncomputable def sortX : List (ℝ × ℝ) → List (ℝ × ℝ) := List.insertionSort fun p q => p.1 ≤ q.1

theorem sortX_sorts : SortsByX sortX := fun l =>
  haveI : Std.Total (fun p q : ℝ × ℝ => p.1 ≤ q.1) := ⟨fun p q => le_total p.1 q.1⟩
  haveI : IsTrans (ℝ × ℝ) (fun p q => p.1 ≤ q.1) := ⟨fun _ _ _ h1 h2 => le_trans h1 h2⟩
  ⟨List.perm_insertionSort _ l, List.pairwise_insertionSort _ l⟩

example := C77_principal_axes sortX_sorts (Real.pi / 6) (lims := (0, 10, -2, 8)) (c := (4, 3)) (by norm_num)
  (by norm_num) (by norm_num) (by norm_num)

end SP
