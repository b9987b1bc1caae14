import Verif.Lemmas.Paths
import Verif.Lemmas.Rings
import Verif.Props.Facets
import Verif.Spec.Library
import Mathlib.Analysis.SpecialFunctions.Trigonometric.Bounds

/-!
# Extents and areas of rounded vertex lists
-/

namespace SP

open Spec

/-- A point of a box. -/
def InBox (b : ℝ × ℝ × ℝ × ℝ) (p : Pt) : Prop := b.1 ≤ p.1 ∧ p.1 ≤ b.2.1 ∧ b.2.2.1 ≤ p.2 ∧ p.2 ≤ b.2.2.2

/-- All points in a box. -/
def Boxed (b : ℝ × ℝ × ℝ × ℝ) (l : List Pt) : Prop := ∀ p ∈ l, InBox b p

theorem boxed_append {b : ℝ × ℝ × ℝ × ℝ} {l m : List Pt} (hl : Boxed b l) (hm : Boxed b m) : Boxed b (l ++ m) :=
  fun p hp => (List.mem_append.1 hp).elim (hl p) (hm p)

theorem boxed_nil (b : ℝ × ℝ × ℝ × ℝ) : Boxed b [] := fun _ h => by simp at h

theorem boxed_cons {b : ℝ × ℝ × ℝ × ℝ} {l : List Pt} {p : Pt} (hp : InBox b p) (hl : Boxed b l) : Boxed b (p :: l) :=
  fun q hq => by
    rcases List.mem_cons.1 hq with rfl | h
    exacts [hp, hl q h]

section
variable {x0 x1 y0 y1 : ℝ} {pt : Pt} {r : ℝ} {n : ℕ}

theorem boxed_cw_pi (hr : 0 ≤ r) (h1 : x0 ≤ pt.1 - r) (h2 : pt.1 ≤ x1) (h3 : y0 ≤ pt.2) (h4 : pt.2 + r ≤ y1) :
    Boxed (x0, x1, y0, y1) (quarter pt r Real.pi n false) := fun p hp => by
  obtain ⟨a, b, ⟨ha, ha', hb, hb', _⟩, rfl⟩ := mem_cw_pi hr hp
  refine ⟨?_, ?_, ?_, ?_⟩ <;> simp only <;> linarith

theorem boxed_cw_half (hr : 0 ≤ r) (h1 : x0 ≤ pt.1) (h2 : pt.1 + r ≤ x1) (h3 : y0 ≤ pt.2) (h4 : pt.2 + r ≤ y1) :
    Boxed (x0, x1, y0, y1) (quarter pt r (1 / 2 * Real.pi) n false) := fun p hp => by
  obtain ⟨a, b, ⟨ha, ha', hb, hb', _⟩, rfl⟩ := mem_cw_half hr hp
  refine ⟨?_, ?_, ?_, ?_⟩ <;> simp only <;> linarith

theorem boxed_cw_zero (hr : 0 ≤ r) (h1 : x0 ≤ pt.1) (h2 : pt.1 + r ≤ x1) (h3 : y0 ≤ pt.2 - r) (h4 : pt.2 ≤ y1) :
    Boxed (x0, x1, y0, y1) (quarter pt r 0 n false) := fun p hp => by
  obtain ⟨a, b, ⟨ha, ha', hb, hb', _⟩, rfl⟩ := mem_cw_zero hr hp
  refine ⟨?_, ?_, ?_, ?_⟩ <;> simp only <;> linarith

theorem boxed_cw_three (hr : 0 ≤ r) (h1 : x0 ≤ pt.1 - r) (h2 : pt.1 ≤ x1) (h3 : y0 ≤ pt.2 - r) (h4 : pt.2 ≤ y1) :
    Boxed (x0, x1, y0, y1) (quarter pt r (3 / 2 * Real.pi) n false) := fun p hp => by
  obtain ⟨a, b, ⟨ha, ha', hb, hb', _⟩, rfl⟩ := mem_cw_three hr hp
  refine ⟨?_, ?_, ?_, ?_⟩ <;> simp only <;> linarith

theorem boxed_ccw_half (hr : 0 ≤ r) (h1 : x0 ≤ pt.1 - r) (h2 : pt.1 ≤ x1) (h3 : y0 ≤ pt.2) (h4 : pt.2 + r ≤ y1) :
    Boxed (x0, x1, y0, y1) (quarter pt r (1 / 2 * Real.pi) n true) := fun p hp => by
  obtain ⟨a, b, ⟨ha, ha', hb, hb', _⟩, rfl⟩ := mem_ccw_half hr hp
  refine ⟨?_, ?_, ?_, ?_⟩ <;> simp only <;> linarith

theorem boxed_ccw_zero (hr : 0 ≤ r) (h1 : x0 ≤ pt.1) (h2 : pt.1 + r ≤ x1) (h3 : y0 ≤ pt.2) (h4 : pt.2 + r ≤ y1) :
    Boxed (x0, x1, y0, y1) (quarter pt r 0 n true) := fun p hp => by
  obtain ⟨a, b, ⟨ha, ha', hb, hb', _⟩, rfl⟩ := mem_ccw_zero hr hp
  refine ⟨?_, ?_, ?_, ?_⟩ <;> simp only <;> linarith

theorem boxed_ccw_three (hr : 0 ≤ r) (h1 : x0 ≤ pt.1) (h2 : pt.1 + r ≤ x1) (h3 : y0 ≤ pt.2 - r) (h4 : pt.2 ≤ y1) :
    Boxed (x0, x1, y0, y1) (quarter pt r (3 / 2 * Real.pi) n true) := fun p hp => by
  obtain ⟨a, b, ⟨ha, ha', hb, hb', _⟩, rfl⟩ := mem_ccw_three hr hp
  refine ⟨?_, ?_, ?_, ?_⟩ <;> simp only <;> linarith

theorem boxed_ccw_pi (hr : 0 ≤ r) (h1 : x0 ≤ pt.1 - r) (h2 : pt.1 ≤ x1) (h3 : y0 ≤ pt.2 - r) (h4 : pt.2 ≤ y1) :
    Boxed (x0, x1, y0, y1) (quarter pt r Real.pi n true) := fun p hp => by
  obtain ⟨a, b, ⟨ha, ha', hb, hb', _⟩, rfl⟩ := mem_ccw_pi hr hp
  refine ⟨?_, ?_, ?_, ?_⟩ <;> simp only <;> linarith

end

theorem Chain.head_mem {L : List Pt} {a b : Pt} {s : ℝ} (h : Chain L a b s) : a ∈ L := List.mem_of_mem_head? h.1
theorem Chain.last_mem {L : List Pt} {a b : Pt} {s : ℝ} (h : Chain L a b s) : b ∈ L := List.mem_of_mem_getLast? h.2.1

/-- A box that contains the points and is touched on every side is the bounding box. -/
theorem ringBounds_eq {l : List Pt} {x0 x1 y0 y1 : ℝ} (hb : Boxed (x0, x1, y0, y1) l)
    (h0 : ∃ p ∈ l, p.1 = x0) (h1 : ∃ p ∈ l, p.1 = x1) (h2 : ∃ p ∈ l, p.2 = y0) (h3 : ∃ p ∈ l, p.2 = y1) :
    ringBounds l = (x0, x1, y0, y1) := by
  have hl : l ≠ [] := by
    obtain ⟨p, hp, _⟩ := h0
    exact List.ne_nil_of_mem hp
  obtain ⟨hs, ⟨a, ha, ea⟩, ⟨b, hb', eb⟩, ⟨c, hc, ec⟩, ⟨d, hd, ed⟩⟩ := ringBounds_spec hl
  obtain ⟨p, hp, rfl⟩ := h0
  obtain ⟨q, hq, rfl⟩ := h1
  obtain ⟨u, hu, rfl⟩ := h2
  obtain ⟨v, hv, rfl⟩ := h3
  have e1 : (ringBounds l).1 = p.1 := le_antisymm (hs p hp).1 (by rw [← ea]; exact (hb a ha).1)
  have e2 : (ringBounds l).2.1 = q.1 := le_antisymm (by rw [← eb]; exact (hb b hb').2.1) (hs q hq).2.1
  have e3 : (ringBounds l).2.2.1 = u.2 := le_antisymm (hs u hu).2.2.1 (by rw [← ec]; exact (hb c hc).2.2.1)
  have e4 : (ringBounds l).2.2.2 = v.2 := le_antisymm (by rw [← ed]; exact (hb d hd).2.2.2) (hs v hv).2.2.2
  ext <;> simp [e1, e2, e3, e4]

/-! ### Perturbation of the area -/

theorem ringEdges_mem {l : List Pt} {e : Pt × Pt} (he : e ∈ ringEdges l) : e.1 ∈ l ∧ e.2 ∈ l := by
  cases l with
  | nil => simp [ringEdges] at he
  | cons p ps =>
    rw [ringEdges] at he
    have := List.of_mem_zip he
    refine ⟨this.1, ?_⟩
    have h2 := this.2
    simp only [List.mem_append, List.mem_singleton] at h2
    rcases h2 with h | h
    · exact List.mem_cons_of_mem _ h
    · rw [h]; exact List.mem_cons_self ..

theorem ringEdges_length (l : List Pt) : (ringEdges l).length = l.length := by
  cases l <;> simp [ringEdges]

theorem ringEdges_prodMap (f : Pt → Pt) (l : List Pt) : ringEdges (l.map f) = (ringEdges l).map (Prod.map f f) := by
  cases l with
  | nil => rfl
  | cons p ps =>
    rw [List.map_cons, ringEdges, ringEdges, ← List.map_cons (f := f),
      show ps.map f ++ [f p] = (ps ++ [p]).map f by simp, List.zip_map]

theorem list_sum_abs_sub_le {α : Type*} (l : List α) (f g : α → ℝ) {C : ℝ} (h : ∀ a ∈ l, |f a - g a| ≤ C) :
    |(l.map f).sum - (l.map g).sum| ≤ l.length * C := by
  induction l with
  | nil => simp
  | cons a l ih =>
    have h1 := h a (List.mem_cons_self ..)
    have h2 := ih fun b hb => h b (List.mem_cons_of_mem _ hb)
    simp only [List.map_cons, List.sum_cons, List.length_cons, Nat.cast_add, Nat.cast_one]
    have : f a + (l.map f).sum - (g a + (l.map g).sum) = (f a - g a) + ((l.map f).sum - (l.map g).sum) := by ring
    rw [this]
    refine (abs_add_le _ _).trans ?_
    linarith

theorem prod_perturb {a b a' b' e A B : ℝ} (ha : |a' - a| ≤ e) (hb : |b' - b| ≤ e) (hA : |a| ≤ A) (hB : |b| ≤ B) :
    |a' * b' - a * b| ≤ e * (A + B + e) := by
  have he : 0 ≤ e := (abs_nonneg _).trans ha
  have h : a' * b' - a * b = (a' - a) * (b' - b) + (a' - a) * b + a * (b' - b) := by ring
  rw [h]
  refine (abs_add_three _ _ _).trans ?_
  rw [abs_mul, abs_mul, abs_mul]
  have h1 : |a' - a| * |b' - b| ≤ e * e := mul_le_mul ha hb (abs_nonneg _) he
  have h2 : |a' - a| * |b| ≤ e * B := mul_le_mul ha hB (abs_nonneg _) he
  have h3 : |a| * |b' - b| ≤ A * e := mul_le_mul hA hb (abs_nonneg _) ((abs_nonneg _).trans hA)
  nlinarith

theorem ringArea2_round {l : List Pt} {X Y : ℝ} (hX : ∀ p ∈ l, |p.1| ≤ X) (hY : ∀ p ∈ l, |p.2| ≤ Y) :
    |ringArea2 (l.map (roundPt 12)) - ringArea2 l| ≤ l.length * ((X + Y + 1) / 10 ^ 12) := by
  rw [ringArea2, ringArea2, ringEdges_prodMap, List.map_map, ← ringEdges_length l]
  refine list_sum_abs_sub_le _ _ _ fun e he => ?_
  obtain ⟨h1, h2⟩ := ringEdges_mem he
  have r1 : ∀ x, |roundTo 12 x - x| ≤ 1 / 2 / 10 ^ 12 := roundTo_near 12
  simp only [Function.comp_apply, Prod.map_fst, Prod.map_snd, roundPt]
  have k1 := prod_perturb (r1 e.1.1) (r1 e.2.2) (hX _ h1) (hY _ h2)
  have k2 := prod_perturb (r1 e.2.1) (r1 e.1.2) (hX _ h2) (hY _ h1)
  have : roundTo 12 e.1.1 * roundTo 12 e.2.2 - roundTo 12 e.2.1 * roundTo 12 e.1.2
      - (e.1.1 * e.2.2 - e.2.1 * e.1.2)
      = (roundTo 12 e.1.1 * roundTo 12 e.2.2 - e.1.1 * e.2.2)
        - (roundTo 12 e.2.1 * roundTo 12 e.1.2 - e.2.1 * e.1.2) := by ring
  rw [this]
  refine (abs_sub _ _).trans ?_
  have h0X : 0 ≤ X := (abs_nonneg _).trans (hX _ h1)
  have h0Y : 0 ≤ Y := (abs_nonneg _).trans (hY _ h1)
  norm_num at k1 k2 ⊢
  linarith

theorem Poly.area_round (p : Poly) {X Y : ℝ} (hX : ∀ r ∈ p.rings, ∀ q ∈ r, |q.1| ≤ X)
    (hY : ∀ r ∈ p.rings, ∀ q ∈ r, |q.2| ≤ Y) :
    |(p.map (roundPt 12)).area - p.area| ≤ p.rings.flatten.length * ((X + Y + 1) / (2 * 10 ^ 12)) := by
  have key : ∀ r ∈ p.rings, |(|ringArea2 (r.map (roundPt 12))| / 2 - |ringArea2 r| / 2)|
      ≤ r.length * ((X + Y + 1) / (2 * 10 ^ 12)) := by
    intro r hr
    have := ringArea2_round (hX r hr) (hY r hr)
    rw [← sub_div, abs_div]
    have h2 := abs_abs_sub_abs_le (ringArea2 (r.map (roundPt 12))) (ringArea2 r)
    have h3 : (r.length : ℝ) * ((X + Y + 1) / (2 * 10 ^ 12)) = r.length * ((X + Y + 1) / 10 ^ 12) / 2 := by
      ring
    rw [h3, abs_two]
    linarith
  have sums : ∀ hs : List (List Pt), (∀ r ∈ hs, r ∈ p.rings) →
      |((hs.map (List.map (roundPt 12))).map fun r => |ringArea2 r| / 2).sum
        - (hs.map fun r => |ringArea2 r| / 2).sum| ≤ hs.flatten.length * ((X + Y + 1) / (2 * 10 ^ 12)) := by
    intro hs
    induction hs with
    | nil => simp
    | cons h hs ih =>
      intro hsub
      have i1 := key h (hsub h (List.mem_cons_self ..))
      have i2 := ih fun r hr => hsub r (List.mem_cons_of_mem _ hr)
      simp only [List.map_cons, List.sum_cons, List.flatten_cons, List.length_append, Nat.cast_add]
      rw [add_sub_add_comm]
      refine (abs_add_le _ _).trans ?_
      linarith
  have e := key p.exterior (List.mem_cons_self ..)
  have s := sums p.interiors fun r hr => List.mem_cons_of_mem _ hr
  rw [Poly.rings, List.flatten_cons, List.length_append, Nat.cast_add]
  simp only [Poly.area, Poly.map]
  rw [sub_sub_sub_comm]
  refine (abs_sub _ _).trans ?_
  linarith

theorem abs_le_box {x0 x1 x : ℝ} (h0 : x0 ≤ x) (h1 : x ≤ x1) : |x| ≤ |x0| + |x1| := by
  have := neg_abs_le x0
  have := le_abs_self x1
  have := abs_nonneg x0
  have := abs_nonneg x1
  rw [abs_le]; constructor <;> linarith

/-- A polygon whose exact box and area are known is documented. -/
theorem documented_of (ops : GeomOps) {p : Poly} {m : Material} {cp : Option Pt} {x0 x1 y0 y1 A : ℝ}
    (hb : ringBounds p.exterior = (x0, x1, y0, y1)) (hne : p.exterior ≠ [])
    (hi : ∀ r ∈ p.interiors, Boxed (x0, x1, y0, y1) r) (hA : p.area = A)
    (hbig : 3 / 10 ^ 12 < x1 - x0 ∨ 3 / 10 ^ 12 < y1 - y0) :
    Documented (mkGeometry ops p m cp 12) (x0, x1, y0, y1) A := by
  obtain ⟨hs, ⟨a, ha, ea⟩, ⟨b, hb', eb⟩, ⟨c, hc, ec⟩, ⟨d, hd, ed⟩⟩ := ringBounds_spec hne
  rw [hb] at hs ea eb ec ed
  have hsp : Spread 12 p.exterior := by
    rcases hbig with h | h
    · refine ⟨b, hb', a, ha, ?_⟩
      have h1 : (3 / 10 ^ 12 : ℝ) < b.1 - a.1 := by rw [ea, eb]; exact h
      have h0 : (0 : ℝ) ≤ 3 / 10 ^ 12 := by positivity
      nlinarith [sq_nonneg (b.2 - a.2), pow_lt_pow_left₀ h1 h0 two_ne_zero]
    · refine ⟨d, hd, c, hc, ?_⟩
      have h1 : (3 / 10 ^ 12 : ℝ) < d.2 - c.2 := by rw [ec, ed]; exact h
      have h0 : (0 : ℝ) ≤ 3 / 10 ^ 12 := by positivity
      nlinarith [sq_nonneg (d.1 - c.1), pow_lt_pow_left₀ h1 h0 two_ne_zero]
  have hr := roundPoly_of_spread hsp
  have hpoly : (mkGeometry ops p m cp 12).poly = p.map (roundPt 12) := hr
  have hpts := (mk_built ops p m cp 12).points
  rw [hpoly] at hpts
  have hext : (mkGeometry ops p m cp 12).extents = (roundTo 12 x0, roundTo 12 x1, roundTo 12 y0, roundTo 12 y1) := by
    rw [Geometry.extents, hpoly]
    have := ringBounds_mono (fun _ _ => roundTo_mono 12) (fun _ _ => roundTo_mono 12) hne
    rw [hb] at this
    exact this
  have hbox : ∀ r ∈ p.rings, Boxed (x0, x1, y0, y1) r := by
    intro r hr
    rcases List.mem_cons.1 hr with rfl | h
    · exact hs
    · exact hi r h
  refine ⟨?_, ?_, ?_, ?_, ?_, ?_⟩
  · rw [hpoly]; simpa [Poly.map] using hne
  · rw [hext]; exact roundTo_near 12 x0
  · rw [hext]; exact roundTo_near 12 x1
  · rw [hext]; exact roundTo_near 12 y0
  · rw [hext]; exact roundTo_near 12 y1
  · rw [hpoly, hpts, ← hA]
    have := p.area_round (X := |x0| + |x1|) (Y := |y0| + |y1|)
      (fun r hr q hq => abs_le_box (hbox r hr q hq).1 (hbox r hr q hq).2.1)
      (fun r hr q hq => abs_le_box (hbox r hr q hq).2.2.1 (hbox r hr q hq).2.2.2)
    have hlen : (p.map (roundPt 12)).rings.flatten.length = p.rings.flatten.length := by
      rw [Poly.map_rings, List.length_flatten, List.length_flatten, List.map_map]
      congr 1
      exact List.map_congr_left fun r _ => List.length_map _
    rw [hlen]
    refine this.trans (le_of_eq ?_)
    simp only
    ring

/-- If moreover the vertices have at most 12 decimals, box and area are exact. -/
theorem exactly_of (ops : GeomOps) {p : Poly} {m : Material} {cp : Option Pt} {x0 x1 y0 y1 A : ℝ}
    (hb : ringBounds p.exterior = (x0, x1, y0, y1)) (hne : p.exterior ≠ []) (hA : p.area = A)
    (hbig : x0 < x1 ∨ y0 < y1) (hg : p.OnGrid 12) :
    Exactly (mkGeometry ops p m cp 12) (x0, x1, y0, y1) A := by
  obtain ⟨hs, ⟨a, ha, ea⟩, ⟨b, hb', eb⟩, ⟨c, hc, ec⟩, ⟨d, hd, ed⟩⟩ := ringBounds_spec hne
  rw [hb] at hs ea eb ec ed
  have h0 : ∃ q ∈ p.exterior, q ≠ (0, 0) := by
    by_contra h
    push Not at h
    rw [h a ha] at ea
    rw [h b hb'] at eb
    rw [h c hc] at ec
    rw [h d hd] at ed
    rcases hbig with h | h
    · simp only at ea eb; linarith
    · simp only at ec ed; linarith
  have hpoly : (mkGeometry ops p m cp 12).poly = p := roundPoly_of_onGrid hg h0
  refine ⟨by rw [hpoly]; exact hne, by rw [Geometry.extents, hpoly, hb], by rw [hpoly, hA]⟩

/-! ### Fillets -/

theorem sector2_fillet (r : ℝ) (n : ℕ) : sector2 r (Real.pi / 2) n = 2 * (r ^ 2 - fillet r n) := by
  rw [sector2, fillet]; ring

theorem fillet_le (r : ℝ) {n : ℕ} (hn : r = 0 ∨ 2 ≤ n) : fillet r n ≤ r ^ 2 / 2 := by
  rcases hn with rfl | hn
  · simp [fillet]
  · have hk : 1 ≤ n - 1 := by omega
    have hk' : (1 : ℝ) ≤ ((n - 1 : ℕ) : ℝ) := by exact_mod_cast hk
    have hpi := Real.pi_pos
    -- `k sin (π / (2k)) ≥ 1`, by `sin x ≥ 2 x / π` on `[0, π/2]`
    have hx0 : 0 ≤ Real.pi / 2 / ((n - 1 : ℕ) : ℝ) := by positivity
    have hx1 : Real.pi / 2 / ((n - 1 : ℕ) : ℝ) ≤ Real.pi / 2 := div_le_self (by positivity) hk'
    have hj := Real.mul_le_sin hx0 hx1
    have h1 : 2 / Real.pi * (Real.pi / 2 / ((n - 1 : ℕ) : ℝ)) = 1 / ((n - 1 : ℕ) : ℝ) := by
      field_simp
    rw [h1] at hj
    have h2 : 1 ≤ ((n - 1 : ℕ) : ℝ) * Real.sin (Real.pi / 2 / ((n - 1 : ℕ) : ℝ)) := by
      rw [div_le_iff₀ (by linarith)] at hj
      linarith
    rw [fillet]
    nlinarith [sq_nonneg r]

theorem le_fillet (r : ℝ) (n : ℕ) : (1 - Real.pi / 4) * r ^ 2 ≤ fillet r n := by
  have hpi := Real.pi_pos
  have hk : 0 ≤ ((n - 1 : ℕ) : ℝ) := Nat.cast_nonneg _
  have h : ((n - 1 : ℕ) : ℝ) * Real.sin (Real.pi / 2 / ((n - 1 : ℕ) : ℝ)) ≤ Real.pi / 2 := by
    rcases hk.eq_or_lt with h | h
    · rw [← h]; simp; positivity
    · have := Real.sin_le (show 0 ≤ Real.pi / 2 / ((n - 1 : ℕ) : ℝ) by positivity)
      calc _ ≤ ((n - 1 : ℕ) : ℝ) * (Real.pi / 2 / ((n - 1 : ℕ) : ℝ)) := mul_le_mul_of_nonneg_left this hk
        _ = _ := by field_simp
  rw [fillet]
  nlinarith [sq_nonneg r]

theorem fillet_nonneg (r : ℝ) (n : ℕ) : 0 ≤ fillet r n := by
  refine le_trans ?_ (le_fillet r n)
  have := Real.pi_le_four
  have := sq_nonneg r
  apply mul_nonneg <;> linarith

@[simp] theorem fillet_zero (n : ℕ) : fillet 0 n = 0 := by simp [fillet]

/-! ### Solid sections -/

theorem Spec.OnGrid.half {x : ℝ} (h : OnGrid 11 x) : OnGrid 12 (x / 2) := by
  obtain ⟨k, rfl⟩ := h
  exact ⟨5 * k, by push_cast; ring⟩

theorem Spec.OnGrid.up {x : ℝ} (h : OnGrid 11 x) : OnGrid 12 x := Spec.OnGrid.mono (by norm_num) h

theorem Spec.OnGrid.zero (t : ℕ) : OnGrid t 0 := ⟨0, by simp⟩

theorem Spec.OnGrid.two_mul {t : ℕ} {x : ℝ} (h : OnGrid t x) : OnGrid t (2 * x) := by
  rw [_root_.two_mul]; exact h.add h

theorem Spec.OnGrid.max {t : ℕ} {x y : ℝ} (hx : OnGrid t x) (hy : OnGrid t y) : OnGrid t (max x y) := by
  rcases max_choice x y with h | h <;> rw [h] <;> assumption

/-- All coordinates of the points have at most 12 decimals. -/
def GridPts (l : List Pt) : Prop := ∀ p ∈ l, OnGrid 12 p.1 ∧ OnGrid 12 p.2

theorem grid_append {l m : List Pt} (hl : GridPts l) (hm : GridPts m) : GridPts (l ++ m) :=
  fun p hp => (List.mem_append.1 hp).elim (hl p) (hm p)

theorem grid_nil : GridPts [] := fun _ h => by simp at h

theorem grid_cons {l : List Pt} {p : Pt} (hp : OnGrid 12 p.1 ∧ OnGrid 12 p.2) (hl : GridPts l) : GridPts (p :: l) :=
  fun q hq => by
    rcases List.mem_cons.1 hq with rfl | h
    exacts [hp, hl q h]

theorem grid_quarter {pt : Pt} {r θ : ℝ} {n : ℕ} {c : Bool} (hr : r = 0)
    (hp : OnGrid 12 pt.1 ∧ OnGrid 12 pt.2) : GridPts (quarter pt r θ n c) := by
  rw [quarter, drawRadius, if_pos hr]
  exact grid_cons hp grid_nil

/-- Membership in a box, by linear arithmetic. -/
macro "boxes" : tactic => `(tactic| (
  (with_reducible repeat' (first
    | apply boxed_append | apply boxed_cons | exact boxed_nil _
    | apply boxed_cw_pi | apply boxed_cw_half | apply boxed_cw_zero | apply boxed_cw_three
    | apply boxed_ccw_pi | apply boxed_ccw_half | apply boxed_ccw_zero | apply boxed_ccw_three)) <;>
  (try unfold InBox) <;> (try dsimp only) <;> (try refine ⟨?_, ?_, ?_, ?_⟩) <;> linarith))

/-- Membership in the decimal grid. -/
macro "grids" : tactic => `(tactic| (
  (with_reducible repeat' (first
    | apply grid_append | apply grid_cons | exact grid_nil | refine grid_quarter rfl ?_
    | assumption | exact Spec.OnGrid.zero _ | refine ⟨?_, ?_⟩ | apply Spec.OnGrid.add | apply Spec.OnGrid.sub
    | apply Spec.OnGrid.neg | apply Spec.OnGrid.half | apply Spec.OnGrid.two_mul | apply Spec.OnGrid.max
    | apply Spec.OnGrid.up))))

theorem short_cons {a : ℝ} {l : List ℝ} : Short (a :: l) ↔ OnGrid 11 a ∧ Short l := List.forall_mem_cons

theorem short_nil : Short [] := fun _ h => by simp at h

/-- Shoelace sum of an explicit list. -/
macro "shoelace" : tactic => `(tactic| (
  simp only [ringArea2, ringEdges, List.cons_append, List.nil_append, List.zip_cons_cons, List.zip_nil_left,
    List.map_cons, List.map_nil, List.sum_cons, List.sum_nil, crossP, sector2_fillet] <;> ring))

/-- Open a list of short dimensions. -/
macro "shorts" g:ident : tactic => `(tactic| (simp only [short_cons, short_nil, and_true] at $g:ident; casesm* _ ∧ _))

/-- A section without holes. -/
theorem solid (ops : GeomOps) {L : List Pt} {m : Material} {x0 x1 y0 y1 A : ℝ}
    (hA : ringArea2 L = 2 * A) (hpos : 0 ≤ A) (hbox : Boxed (x0, x1, y0, y1) L)
    (h0 : ∃ p ∈ L, p.1 = x0) (h1 : ∃ p ∈ L, p.1 = x1) (h2 : ∃ p ∈ L, p.2 = y0) (h3 : ∃ p ∈ L, p.2 = y1)
    (hbig : 3 / 10 ^ 12 < x1 - x0 ∨ 3 / 10 ^ 12 < y1 - y0) :
    Documented (libGeom ops L m) (x0, x1, y0, y1) A ∧
      (GridPts L → Exactly (libGeom ops L m) (x0, x1, y0, y1) A) := by
  have hne : L ≠ [] := by
    obtain ⟨p, hp, _⟩ := h0
    exact List.ne_nil_of_mem hp
  have hb := ringBounds_eq hbox h0 h1 h2 h3
  have harea : (⟨L, []⟩ : Poly).area = A := by
    simp only [Poly.area, List.map_nil, List.sum_nil, sub_zero]
    rw [hA, abs_of_nonneg (by linarith)]; ring
  refine ⟨documented_of ops (p := ⟨L, []⟩) hb hne (by simp) harea hbig, fun hg => ?_⟩
  refine exactly_of ops (p := ⟨L, []⟩) hb hne harea ?_ ?_
  · have : (0 : ℝ) < 3 / 10 ^ 12 := by positivity
    rcases hbig with h | h
    · left; linarith
    · right; linarith
  · intro r hr q hq
    simp only [Poly.rings, List.mem_singleton] at hr
    subst hr
    exact hg q hq

/-- A section without holes, as a library function returns it. -/
theorem fits_solid (ops : GeomOps) {L : List Pt} {m : Material} {x0 x1 y0 y1 A : ℝ} {E : Prop}
    (hA : ringArea2 L = 2 * A) (hpos : 0 ≤ A) (hbox : Boxed (x0, x1, y0, y1) L)
    (h0 : ∃ p ∈ L, p.1 = x0) (h1 : ∃ p ∈ L, p.1 = x1) (h2 : ∃ p ∈ L, p.2 = y0) (h3 : ∃ p ∈ L, p.2 = y1)
    (hbig : 3 / 10 ^ 12 < x1 - x0 ∨ 3 / 10 ^ 12 < y1 - y0) (hg : E → GridPts L) :
    Fits (libGeom ops L m) (x0, x1, y0, y1) A E :=
  have h := solid ops (m := m) hA hpos hbox h0 h1 h2 h3 hbig
  ⟨h.1, fun e => h.2 (hg e)⟩

/-- A section with holes. -/
theorem fits_hollow (ops : GeomOps) {L : List Pt} {hs : List (List Pt)} {m : Material} {x0 x1 y0 y1 A : ℝ}
    {E : Prop} (hcut : Cuts ops L hs) (hA : |ringArea2 L| / 2 - (hs.map fun r => |ringArea2 r| / 2).sum = A)
    (hbox : Boxed (x0, x1, y0, y1) L) (hin : ∀ r ∈ hs, Boxed (x0, x1, y0, y1) r)
    (h0 : ∃ p ∈ L, p.1 = x0) (h1 : ∃ p ∈ L, p.1 = x1) (h2 : ∃ p ∈ L, p.2 = y0) (h3 : ∃ p ∈ L, p.2 = y1)
    (hbig : 3 / 10 ^ 12 < x1 - x0 ∨ 3 / 10 ^ 12 < y1 - y0) (hg : E → GridPts L ∧ ∀ r ∈ hs, GridPts r) :
    ∃ g, hollow ops L hs m = .ok g ∧ Fits g (x0, x1, y0, y1) A E := by
  have hne : L ≠ [] := by
    obtain ⟨p, hp, _⟩ := h0
    exact List.ne_nil_of_mem hp
  have hb := ringBounds_eq hbox h0 h1 h2 h3
  refine ⟨mkGeometry ops ⟨L, hs⟩ m none 12, by rw [hollow, hcut],
    documented_of ops (p := ⟨L, hs⟩) hb hne hin hA hbig, fun e => ?_⟩
  refine exactly_of ops (p := ⟨L, hs⟩) hb hne hA ?_ ?_
  · have : (0 : ℝ) < 3 / 10 ^ 12 := by positivity
    rcases hbig with h | h
    · left; linarith
    · right; linarith
  · intro r hr q hq
    rcases List.mem_cons.1 hr with rfl | h
    · exact (hg e).1 q hq
    · exact (hg e).2 r h q hq

end SP
