import Verif.Spec.Region
import Mathlib.Tactic.LinearCombination
import Mathlib.Tactic.FieldSimp
import Mathlib.Tactic.Positivity
import Mathlib.Tactic.Linarith

/-!
# Lemmas: lines and splitting
-/

namespace SP

open MeasureTheory Spec

/-- Direction and end points of the cutting segment. -/
theorem segment_ends (p v : ℝ × ℝ) (bd : ℝ × ℝ × ℝ × ℝ) (hv : |v.1| > 1e-12 ∨ v.2 ≠ 0)
    (hb : min (min (min bd.1 bd.2.1) bd.2.2.1) bd.2.2.2
      < max (max (max bd.1 bd.2.1) bd.2.2.1) bd.2.2.2) :
    ∃ k1 k2 : ℝ, k1 ≠ k2 ∧
      (createLineSegment p v bd).1 = (p.1 + k1 * v.1, p.2 + k1 * v.2) ∧
      (createLineSegment p v bd).2 = (p.1 + k2 * v.1, p.2 + k2 * v.2) ∧
      ∀ k, bd.1 ≤ p.1 + k * v.1 → p.1 + k * v.1 ≤ bd.2.1 → bd.2.2.1 ≤ p.2 + k * v.2 →
        p.2 + k * v.2 ≤ bd.2.2.2 → k ∈ Set.uIcc k1 k2 := by
  unfold createLineSegment
  set b2 := max (max (max bd.1 bd.2.1) bd.2.2.1) bd.2.2.2 with hb2
  set b1 := min (min (min bd.1 bd.2.1) bd.2.2.1) bd.2.2.2 with hb1
  have l1 : b1 ≤ bd.1 := by simp [hb1]
  have l2 : b1 ≤ bd.2.2.1 := by simp [hb1]
  have u1 : bd.2.1 ≤ b2 := by simp [hb2]
  have u2 : bd.2.2.2 ≤ b2 := by simp [hb2]
  have key : ∀ x0 c : ℝ, c ≠ 0 → (b1 - x0) / c ≠ (b2 - x0) / c ∧
      ∀ k, b1 ≤ x0 + k * c → x0 + k * c ≤ b2 →
        k ∈ Set.uIcc ((b1 - x0) / c) ((b2 - x0) / c) := by
    intro x0 c hc
    constructor
    · intro h
      rw [div_left_inj' hc] at h
      linarith
    · intro k h1 h2
      rw [Set.mem_uIcc]
      rcases lt_or_gt_of_ne hc with h | h
      · right
        rw [div_le_iff_of_neg h, le_div_iff_of_neg h]
        constructor <;> linarith
      · left
        rw [div_le_iff₀ h, le_div_iff₀ h]
        constructor <;> linarith
  by_cases h : |v.1| > 1e-12
  · have hv1 : v.1 ≠ 0 := by
      intro h0; rw [h0] at h; norm_num at h
    rw [if_pos h]
    obtain ⟨h1, h2⟩ := key p.1 v.1 hv1
    refine ⟨_, _, h1, ?_, ?_, fun k a b _ _ => h2 k (l1.trans a) (b.trans u1)⟩
    · ext
      · show b1 = _
        field_simp; ring
      · show _ = _
        simp only; ring
    · ext
      · show b2 = _
        field_simp; ring
      · show _ = _
        simp only; ring
  · have hv2 : v.2 ≠ 0 := hv.resolve_left h
    rw [if_neg h]
    obtain ⟨h1, h2⟩ := key p.2 v.2 hv2
    refine ⟨_, _, h1, ?_, ?_, fun k _ _ a b => h2 k (l2.trans a) (b.trans u2)⟩
    · ext
      · show _ = _
        simp only; ring
      · show b1 = _
        field_simp; ring
    · ext
      · show _ = _
        simp only; ring
      · show b2 = _
        field_simp; ring

theorem usable_ne {v : ℝ × ℝ} (hv : |v.1| > 1e-12 ∨ v.2 ≠ 0) : ¬ (v.1 = 0 ∧ v.2 = 0) := by
  rintro ⟨h1, h2⟩
  rcases hv with h | h
  · rw [h1] at h; norm_num at h
  · exact h h2

/-- The code's test for the side of a point is the sign of the height over the line. -/
theorem sideOf_height (p v q : ℝ × ℝ) (bd : ℝ × ℝ × ℝ × ℝ) (hv : |v.1| > 1e-12 ∨ v.2 ≠ 0)
    (hb : min (min (min bd.1 bd.2.1) bd.2.2.1) bd.2.2.2
      < max (max (max bd.1 bd.2.1) bd.2.2.1) bd.2.2.2) :
    sideOf (createLineSegment p v bd) q =
      if height p v q < 0 then .bot else if 0 < height p v q then .top else .dropped := by
  obtain ⟨k1, k2, hk, e1, e2, -⟩ := segment_ends p v bd hv hb
  unfold sideOf lineMxPlusB
  rw [e1, e2]
  by_cases h : v.1 = 0
  · simp only [sub_self, if_true, height, h, mul_zero, add_zero, sub_neg, sub_pos, gt_iff_lt]
  · have h0 : ¬ (p.1 + k2 * v.1 - (p.1 + k1 * v.1) = 0) := by
      intro hh
      apply hk
      have : (k2 - k1) * v.1 = 0 := by linear_combination hh
      rcases mul_eq_zero.1 this with h' | h'
      · linarith
      · exact absurd h' h
    have hm : (p.2 + k2 * v.2 - (p.2 + k1 * v.2)) / (p.1 + k2 * v.1 - (p.1 + k1 * v.1))
        = v.2 / v.1 := by
      rw [div_eq_div_iff h0 h]; ring
    have hl : v.2 / v.1 * q.1 + (p.2 + k1 * v.2 - v.2 / v.1 * (p.1 + k1 * v.1))
        = p.2 + (q.1 - p.1) * v.2 / v.1 := by
      field_simp; ring
    simp only [h0, if_false, hm, hl, height, h, sub_neg, sub_pos, gt_iff_lt]

/-- The height is a multiple of the cross product with the segment. -/
theorem height_signedArea (p v q a b : ℝ × ℝ) {k1 k2 : ℝ} (hv : |v.1| > 1e-12 ∨ v.2 ≠ 0)
    (hk : k1 ≠ k2) (ha : a = (p.1 + k1 * v.1, p.2 + k1 * v.2))
    (hb : b = (p.1 + k2 * v.1, p.2 + k2 * v.2)) :
    signedArea2 a b q = (if v.1 = 0 then -((k2 - k1) * v.2) else (k2 - k1) * v.1) * height p v q ∧
    (if v.1 = 0 then -((k2 - k1) * v.2) else (k2 - k1) * v.1) ≠ 0 := by
  have hkk : k2 - k1 ≠ 0 := sub_ne_zero.2 (Ne.symm hk)
  subst ha hb
  by_cases h : v.1 = 0
  · have h2 : v.2 ≠ 0 := fun h2 => usable_ne hv ⟨h, h2⟩
    simp only [h, if_true, height, signedArea2]
    refine ⟨by ring, by simp [hkk, h2]⟩
  · simp only [h, if_false, height, signedArea2]
    refine ⟨by field_simp; ring, by simp [hkk, h]⟩

/-- From an inner point of a region one can move up and down (or right and left) a little. -/
theorem inner_moves {S : Set (ℝ × ℝ)} {q : ℝ × ℝ} (hq : q ∈ interior S) (e : ℝ × ℝ) :
    ∃ t : ℝ, 0 < t ∧ (q.1 + t * e.1, q.2 + t * e.2) ∈ S ∧ (q.1 - t * e.1, q.2 - t * e.2) ∈ S := by
  have h1 : ∀ s : ℝ, ∀ᶠ t in nhds (0 : ℝ), (q.1 + t * (s * e.1), q.2 + t * (s * e.2)) ∈ S := by
    intro s
    have hc : ContinuousAt (fun t : ℝ => (q.1 + t * (s * e.1), q.2 + t * (s * e.2))) 0 := by
      fun_prop
    refine hc.eventually_mem ?_
    simpa using mem_interior_iff_mem_nhds.1 hq
  have h2 := ((h1 1).and (h1 (-1))).filter_mono (nhdsWithin_le_nhds (s := Set.Ioi 0))
  obtain ⟨t, ⟨ha, hb⟩, ht⟩ := (h2.and self_mem_nhdsWithin).exists
  refine ⟨t, ht, ?_, ?_⟩
  · convert ha using 2 <;> ring
  · convert hb using 2 <;> ring

theorem inner_height {S : Set (ℝ × ℝ)} {q : ℝ × ℝ} (hq : q ∈ interior S) (p v : ℝ × ℝ) :
    (∃ r ∈ S, height p v q < height p v r) ∧ (∃ r ∈ S, height p v r < height p v q) := by
  by_cases h : v.1 = 0
  · obtain ⟨t, ht, h1, h2⟩ := inner_moves hq (1, 0)
    refine ⟨⟨_, h1, ?_⟩, ⟨_, h2, ?_⟩⟩ <;> simp only [height, h, if_true] <;> linarith
  · obtain ⟨t, ht, h1, h2⟩ := inner_moves hq (0, 1)
    refine ⟨⟨_, h1, ?_⟩, ⟨_, h2, ?_⟩⟩ <;> simp only [height, h, if_false, mul_zero, add_zero, sub_zero]
      <;> linarith

variable {P : Type*} {ops : PolyOps P} {reg : P → Set (ℝ × ℝ)}

theorem bounds_lt (h : ShapelyOk ops reg) (p : P) :
    min (min (min (ops.bounds p).1 (ops.bounds p).2.1) (ops.bounds p).2.2.1) (ops.bounds p).2.2.2
      < max (max (max (ops.bounds p).1 (ops.bounds p).2.1) (ops.bounds p).2.2.1)
        (ops.bounds p).2.2.2 := by
  obtain ⟨t, ht, h1, h2⟩ := inner_moves (h.rep p) (1, 0)
  have a := (h.inBounds p _ h1).2.1
  have b := (h.inBounds p _ h2).1
  simp only at a b
  calc _ ≤ (ops.bounds p).1 := by simp
    _ < (ops.bounds p).2.1 := by linarith
    _ ≤ _ := by simp

/-- Points of the line are `p + k v`. -/
theorem on_line {p v q : ℝ × ℝ} (hv : |v.1| > 1e-12 ∨ v.2 ≠ 0) (h : height p v q = 0) :
    ∃ k : ℝ, q = (p.1 + k * v.1, p.2 + k * v.2) := by
  by_cases h1 : v.1 = 0
  · have h2 : v.2 ≠ 0 := fun h2 => usable_ne hv ⟨h1, h2⟩
    simp only [height, h1, if_true] at h
    refine ⟨(q.2 - p.2) / v.2, ?_⟩
    ext
    · simp only [h1]; linarith
    · simp only; field_simp; ring
  · simp only [height, h1, if_false] at h
    refine ⟨(q.1 - p.1) / v.1, ?_⟩
    ext
    · simp only; field_simp; ring
    · simp only; linear_combination h

theorem mem_segment_line {p v : ℝ × ℝ} {k1 k2 k : ℝ} (h : k ∈ Set.uIcc k1 k2) :
    (p.1 + k * v.1, p.2 + k * v.2) ∈ segment ℝ (p.1 + k1 * v.1, p.2 + k1 * v.2)
      (p.1 + k2 * v.1, p.2 + k2 * v.2) := by
  rw [← segment_eq_uIcc] at h
  obtain ⟨a, b, ha, hb, hab, rfl⟩ := h
  refine ⟨a, b, ha, hb, hab, ?_⟩
  ext
  · simp only [Prod.smul_mk, smul_eq_mul, Prod.mk_add_mk]; linear_combination p.1 * hab
  · simp only [Prod.smul_mk, smul_eq_mul, Prod.mk_add_mk]; linear_combination p.2 * hab

open Classical in
theorem group_eq (rep : P → ℝ × ℝ) (l : (ℝ × ℝ) × (ℝ × ℝ)) (pieces : List P) :
    groupTopAndBottomPolys rep l (pieces.map some)
      = .ok (pieces.filter fun s => sideOf l (rep s) = .top,
             pieces.filter fun s => sideOf l (rep s) = .bot) := by
  induction pieces with
  | nil => rfl
  | cons s rest ih =>
    simp only [List.map_cons, groupTopAndBottomPolys, ih]
    cases h : sideOf l (rep s) <;> simp [h]

/-- Splitting one geometry. -/
theorem splitGeometry_ok (h : ShapelyOk ops reg) (g : PGeom P) (p v : ℝ × ℝ)
    (hv : |v.1| > 1e-12 ∨ v.2 ≠ 0) :
    ∃ top bot : List P, splitGeometry ops g p v
        = .ok (top.map fun q => ⟨q, g.material⟩, bot.map fun q => ⟨q, g.material⟩) ∧
      (∀ s ∈ top, ∀ q ∈ reg s, 0 ≤ height p v q) ∧ (∀ s ∈ bot, ∀ q ∈ reg s, height p v q ≤ 0) ∧
      (top ++ bot).Pairwise (fun s t => volume (reg s ∩ reg t) = 0) ∧
      reg g.poly =ᵐ[volume] {q | ∃ s ∈ top ++ bot, q ∈ reg s} := by
  classical
  have hb := bounds_lt h g.poly
  obtain ⟨k1, k2, hk, e1, e2, hspan⟩ := segment_ends p v (ops.bounds g.poly) hv hb
  have hsa := fun q => height_signedArea p v q _ _ hv hk e1 e2
  have hab : (createLineSegment p v (ops.bounds g.poly)).1
      ≠ (createLineSegment p v (ops.bounds g.poly)).2 := by
    intro hab
    rw [e1, e2, Prod.mk.injEq] at hab
    have hkk : k1 - k2 ≠ 0 := sub_ne_zero.2 hk
    have a1 : v.1 = 0 := (mul_eq_zero.1 (show (k1 - k2) * v.1 = 0 by linear_combination hab.1)).resolve_left hkk
    have a2 : v.2 = 0 := (mul_eq_zero.1 (show (k1 - k2) * v.2 = 0 by linear_combination hab.2)).resolve_left hkk
    exact usable_ne hv ⟨a1, a2⟩
  obtain ⟨pieces, hs, hside, hpw, hun⟩ := h.split g.poly _ _ hab (by
    intro q hq h0
    rw [(hsa q).1, mul_eq_zero] at h0
    obtain ⟨k, rfl⟩ := on_line hv (h0.resolve_left (hsa q).2)
    rw [e1, e2]
    obtain ⟨b1, b2, b3, b4⟩ := h.inBounds _ _ hq
    exact mem_segment_line (hspan k b1 b2 b3 b4))
  -- every piece lies on one side in terms of the height
  have hside' : ∀ s ∈ pieces, (∀ q ∈ reg s, 0 ≤ height p v q) ∨ (∀ q ∈ reg s, height p v q ≤ 0) := by
    intro s hs'
    have hc := (hsa p).2
    rcases lt_or_gt_of_ne hc with hneg | hpos
    · rcases hside s hs' with h1 | h1
      · right; intro q hq
        have := h1 q hq; rw [(hsa q).1] at this
        by_contra hcon
        push Not at hcon
        nlinarith
      · left; intro q hq
        have := h1 q hq; rw [(hsa q).1] at this
        by_contra hcon
        push Not at hcon
        nlinarith
    · rcases hside s hs' with h1 | h1
      · left; intro q hq
        have := h1 q hq; rw [(hsa q).1] at this
        by_contra hcon
        push Not at hcon
        nlinarith
      · right; intro q hq
        have := h1 q hq; rw [(hsa q).1] at this
        by_contra hcon
        push Not at hcon
        nlinarith
  have hoff : ∀ s ∈ pieces, height p v (ops.rep s) ≠ 0 := by
    intro s hs' h0
    obtain ⟨⟨r1, m1, b1⟩, ⟨r2, m2, b2⟩⟩ := inner_height (h.rep s) p v
    rcases hside' s hs' with h1 | h1
    · have := h1 r2 m2; linarith
    · have := h1 r1 m1; linarith
  have hso := fun q => sideOf_height p v q (ops.bounds g.poly) hv hb
  set l := createLineSegment p v (ops.bounds g.poly) with hl
  have hperm : ((pieces.filter fun s => sideOf l (ops.rep s) = .top) ++
      pieces.filter fun s => sideOf l (ops.rep s) = .bot).Perm pieces := by
    have e : (pieces.filter fun s => decide (sideOf l (ops.rep s) = .bot))
        = pieces.filter fun s => !decide (sideOf l (ops.rep s) = .top) := by
      refine List.filter_congr fun s hs' => ?_
      have h0 := hoff s hs'
      rw [hso]
      rcases lt_or_gt_of_ne h0 with h1 | h1
      · simp [h1]
      · simp [h1, not_lt.2 h1.le]
    rw [e]
    exact List.filter_append_perm _ _
  refine ⟨pieces.filter fun s => sideOf l (ops.rep s) = .top,
    pieces.filter fun s => sideOf l (ops.rep s) = .bot, ?_, ?_, ?_, ?_, ?_⟩
  · unfold splitGeometry
    rw [← hl]
    have hs' : ops.split g.poly l = pieces.map some := hs
    simp only [hs', group_eq]
  · intro s hs' q hq
    rw [List.mem_filter] at hs'
    obtain ⟨hm, ht⟩ := hs'
    simp only [decide_eq_true_eq, hso] at ht
    rcases hside' s hm with h1 | h1
    · exact h1 q hq
    · exfalso
      have := h1 _ (interior_subset (h.rep s))
      split_ifs at ht with c1 c2
      linarith
  · intro s hs' q hq
    rw [List.mem_filter] at hs'
    obtain ⟨hm, ht⟩ := hs'
    simp only [decide_eq_true_eq, hso] at ht
    rcases hside' s hm with h1 | h1
    · exfalso
      have := h1 _ (interior_subset (h.rep s))
      split_ifs at ht with c1 c2
      linarith
    · exact h1 q hq
  · refine (hperm.pairwise_iff ?_).2 hpw
    intro a b hab; rw [Set.inter_comm]; exact hab
  · refine hun.trans (Filter.Eventually.of_forall fun q => ?_)
    apply propext
    constructor
    · rintro ⟨s, hs', hq⟩; exact ⟨s, hperm.mem_iff.2 hs', hq⟩
    · rintro ⟨s, hs', hq⟩; exact ⟨s, hperm.mem_iff.1 hs', hq⟩

end SP
