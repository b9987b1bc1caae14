import Verif.Model.Library
import Verif.Lemmas.Bounds

/-!
# Shoelace sums along paths and arcs
-/

namespace SP

open Spec

/-- Cross product of two position vectors. -/
def crossP (p q : Pt) : ℝ := p.1 * q.2 - q.1 * p.2

/-- Shoelace sum along an open path. -/
def pathSum : List Pt → ℝ
  | [] => 0
  | [_] => 0
  | p :: q :: l => crossP p q + pathSum (q :: l)

/-- `L` is a path from `a` to `b` with shoelace sum `s`. -/
def Chain (L : List Pt) (a b : Pt) (s : ℝ) : Prop :=
  L.head? = some a ∧ L.getLast? = some b ∧ pathSum L = s

theorem chain_one (a : Pt) : Chain [a] a a 0 := ⟨rfl, rfl, rfl⟩

theorem chain_cons {L : List Pt} {a b : Pt} {s : ℝ} (p : Pt) (h : Chain L a b s) :
    Chain (p :: L) p b (crossP p a + s) := by
  obtain ⟨h1, h2, h3⟩ := h
  cases L with
  | nil => simp at h1
  | cons q l =>
    simp only [List.head?_cons, Option.some.injEq] at h1
    subst h1
    exact ⟨rfl, by rw [List.getLast?_cons_cons]; exact h2, by rw [pathSum, h3]⟩

theorem chain_append {L M : List Pt} {a b c d : Pt} {s t : ℝ} (h : Chain L a b s) (k : Chain M c d t) :
    Chain (L ++ M) a d (s + crossP b c + t) := by
  induction L generalizing a s with
  | nil => simp [Chain] at h
  | cons p l ih =>
    cases l with
    | nil =>
      obtain ⟨h1, h2, h3⟩ := h
      simp at h1 h2 
      subst h1 h2
      have := chain_cons p k
      simp only [pathSum] at h3
      rw [← h3]
      simpa [zero_add] using this
    | cons q l =>
      obtain ⟨h1, h2, h3⟩ := h
      simp only [List.head?_cons, Option.some.injEq] at h1
      subst h1
      rw [pathSum] at h3
      have h' : Chain (q :: l) q b (pathSum (q :: l)) := ⟨rfl, by rw [List.getLast?_cons_cons] at h2; exact h2, rfl⟩
      have := chain_cons p (ih h')
      rw [← h3]
      rw [List.cons_append]
      convert this using 1
      ring

theorem zip_pathSum : ∀ (l : List Pt) (a q : Pt),
    (((a :: l).zip (l ++ [q])).map fun e => e.1.1 * e.2.2 - e.2.1 * e.1.2).sum = pathSum (a :: (l ++ [q]))
  | [], a, q => by simp [pathSum, crossP]
  | b :: l, a, q => by
    have := zip_pathSum l b q
    rw [List.cons_append, List.zip_cons_cons, List.map_cons, List.sum_cons, this]
    rfl

theorem ringArea2_chain {L : List Pt} {a b : Pt} {s : ℝ} (h : Chain L a b s) :
    ringArea2 L = s + crossP b a := by
  obtain ⟨p, l, rfl⟩ : ∃ p l, L = p :: l := by
    cases L with
    | nil => simp [Chain] at h
    | cons p l => exact ⟨p, l, rfl⟩
  have hp : p = a := by simpa using h.1
  subst hp
  rw [ringArea2, ringEdges, zip_pathSum]
  have := chain_append h (chain_one p)
  rw [← List.cons_append, this.2.2]
  ring

/-- Sum along the points of a sequence. -/
theorem chain_range (f : ℕ → Pt) (n : ℕ) :
    Chain ((List.range (n + 1)).map f) (f 0) (f n) (∑ i ∈ Finset.range n, crossP (f i) (f (i + 1))) := by
  induction n with
  | zero => simpa using chain_one (f 0)
  | succ n ih =>
    rw [List.range_succ, List.map_append, Finset.sum_range_succ]
    have := chain_append ih (chain_one (f (n + 1)))
    simpa using this

/-- The shoelace sum of a closed sequence of points. -/
theorem ringArea2_range (f : ℕ → Pt) {n : ℕ} (hn : n ≠ 0) (hf : f n = f 0) :
    ringArea2 ((List.range n).map f) = ∑ i ∈ Finset.range n, crossP (f i) (f (i + 1)) := by
  obtain ⟨k, rfl⟩ := Nat.exists_eq_succ_of_ne_zero hn
  rw [ringArea2_chain (chain_range f k), Nat.succ_eq_add_one, Finset.sum_range_succ, hf]

/-- The unit vector with angle `t`. -/
noncomputable def dir (t : ℝ) : Pt := (Real.cos t, Real.sin t)

/-- The point on the circle. -/
noncomputable def onCircle (c : Pt) (r t : ℝ) : Pt := (c.1 + r * Real.cos t, c.2 + r * Real.sin t)

/-- Area of the triangles between the centre and the chords of an arc, doubled. -/
noncomputable def sector2 (r φ : ℝ) (n : ℕ) : ℝ := (n - 1 : ℕ) * (r ^ 2 * Real.sin (φ / (n - 1 : ℕ)))

theorem drawRadius_chain {pt : Pt} {r θ : ℝ} {n : ℕ} {ccw : Bool} {φ : ℝ} (hn : r = 0 ∨ 2 ≤ n) :
    let σ : ℝ := if ccw then 1 else -1
    let A := onCircle pt r θ
    let B := onCircle pt r (θ + σ * φ)
    Chain (drawRadius pt r θ n ccw φ) A B (crossP pt B - crossP pt A + σ * sector2 r φ n) := by
  intro σ A B
  by_cases hr : r = 0
  · rw [drawRadius, if_pos hr]
    have hA : A = pt := by simp [A, onCircle, hr]
    have hB : B = pt := by simp [B, onCircle, hr]
    rw [hA, hB]
    convert chain_one pt using 1
    simp [sector2, hr]
  · have hn : 2 ≤ n := hn.resolve_left hr
    obtain ⟨k, rfl⟩ : ∃ k, n = k + 1 := ⟨n - 1, by omega⟩
    have hk : 1 ≤ k := by omega
    have hk0 : (k : ℝ) ≠ 0 := by exact_mod_cast (by omega : k ≠ 0)
    have hmax : max 1 (k + 1 - 1) = k := by simp; omega
    set f : ℕ → Pt := fun i => onCircle pt r (θ + σ * i / k * φ) with hf
    have e : drawRadius pt r θ (k + 1) ccw φ = (List.range (k + 1)).map f := by
      rw [drawRadius, if_neg hr, hmax]
      rfl
    have f0 : f 0 = A := by simp [f, A]
    have fk : f k = B := by
      simp only [f, B]
      congr 1
      field_simp
    rw [e]
    have := chain_range f k
    rw [f0, fk] at this
    refine ⟨this.1, this.2.1, this.2.2.trans ?_⟩
    have step : ∀ i, crossP (f i) (f (i + 1))
        = (crossP pt (f (i + 1)) - crossP pt (f i)) + σ * (r ^ 2 * Real.sin (φ / k)) := by
      intro i
      have hσ : σ * Real.sin (φ / k) = Real.sin (σ * (φ / k)) := by
        rcases (by by_cases h : ccw <;> simp [σ, h] : σ = 1 ∨ σ = -1) with h | h <;> rw [h] <;> simp
      have ang : θ + σ * ((i + 1 : ℕ) : ℝ) / k * φ = (θ + σ * i / k * φ) + σ * (φ / k) := by
        push_cast
        field_simp
        ring
      have hs : Real.sin (σ * (φ / k)) = Real.sin (θ + σ * ((i + 1 : ℕ) : ℝ) / k * φ) * Real.cos (θ + σ * i / k * φ)
          - Real.cos (θ + σ * ((i + 1 : ℕ) : ℝ) / k * φ) * Real.sin (θ + σ * i / k * φ) := by
        rw [← Real.sin_sub, ang]
        congr 1
        ring
      have : σ * (r ^ 2 * Real.sin (φ / k)) = r ^ 2 * (σ * Real.sin (φ / k)) := by ring
      rw [this, hσ, hs]
      simp only [f, onCircle, crossP]
      ring
    rw [Finset.sum_congr rfl (fun i _ => step i), Finset.sum_add_distrib, Finset.sum_const,
      Finset.card_range, Finset.sum_range_sub (fun i => crossP pt (f i)), f0, fk, sector2]
    simp only [Nat.add_sub_cancel, nsmul_eq_mul]
    ring

/-- Points of an arc, as centre plus radius times a unit vector of the angle range. -/
theorem mem_drawRadius {pt : Pt} {r θ : ℝ} {n : ℕ} {ccw : Bool} {φ : ℝ} {p : Pt}
    (hp : p ∈ drawRadius pt r θ n ccw φ) :
    ∃ s, 0 ≤ s ∧ s ≤ 1 ∧ p = onCircle pt r (θ + (if ccw then 1 else -1) * s * φ) := by
  rw [drawRadius] at hp
  by_cases hr : r = 0
  · rw [if_pos hr, List.mem_singleton] at hp
    exact ⟨0, le_refl _, zero_le_one, by rw [hp]; simp [onCircle, hr]⟩
  · rw [if_neg hr] at hp
    obtain ⟨i, hi, rfl⟩ := List.mem_map.1 hp
    rw [List.mem_range] at hi
    have h1 : (1 : ℝ) ≤ ((max 1 (n - 1) : ℕ) : ℝ) := by exact_mod_cast le_max_left _ _
    have hle : (i : ℝ) ≤ ((max 1 (n - 1) : ℕ) : ℝ) := by
      have : i ≤ max 1 (n - 1) := le_max_of_le_right (by omega)
      exact_mod_cast this
    have hpos : (0 : ℝ) < ((max 1 (n - 1) : ℕ) : ℝ) := by linarith
    refine ⟨i / ((max 1 (n - 1) : ℕ) : ℝ), by positivity, by rw [div_le_one hpos]; exact hle, ?_⟩
    simp only [onCircle]
    congr 4 <;> ring

/-- A quarter arc with start direction `(c, s)`. -/
theorem quarter_chain {pt : Pt} {r θ : ℝ} {n : ℕ} {ccw : Bool} {c s σ : ℝ} (hn : r = 0 ∨ 2 ≤ n)
    (hc : Real.cos θ = c) (hs : Real.sin θ = s) (hσ : (if ccw then 1 else -1 : ℝ) = σ) :
    Chain (quarter pt r θ n ccw) (pt.1 + r * c, pt.2 + r * s) (pt.1 - r * (σ * s), pt.2 + r * (σ * c))
      (pt.1 * (r * (σ * c - s)) + pt.2 * (r * (σ * s + c)) + σ * sector2 r (Real.pi / 2) n) := by
  have h := drawRadius_chain (pt := pt) (θ := θ) (ccw := ccw) (φ := Real.pi / 2) hn
  simp only [hσ] at h
  have e1 : Real.cos (θ + σ * (Real.pi / 2)) = - (σ * s) := by
    rcases (by by_cases h : ccw <;> simp [← hσ, h] : σ = 1 ∨ σ = -1) with h | h <;>
      rw [h] <;> simp [Real.cos_add, hs, hc]
  have e2 : Real.sin (θ + σ * (Real.pi / 2)) = σ * c := by
    rcases (by by_cases h : ccw <;> simp [← hσ, h] : σ = 1 ∨ σ = -1) with h | h <;>
      rw [h] <;> simp [Real.sin_add, hs, hc]
  simp only [onCircle, crossP, e1, e2, hc, hs] at h
  rw [quarter]
  convert h using 1
  · congr 1; ring
  · ring

/-- Points of a quarter arc with start direction `(c, s)`. -/
theorem mem_quarter {pt : Pt} {r θ : ℝ} {n : ℕ} {ccw : Bool} {c s σ : ℝ} (hr : 0 ≤ r)
    (hc : Real.cos θ = c) (hs : Real.sin θ = s) (hσ : (if ccw then 1 else -1 : ℝ) = σ) {p : Pt}
    (hp : p ∈ quarter pt r θ n ccw) :
    ∃ a b, 0 ≤ a ∧ a ≤ r ∧ 0 ≤ b ∧ b ≤ r ∧ a ^ 2 + b ^ 2 = r ^ 2 ∧
      p = (pt.1 + c * a - σ * s * b, pt.2 + s * a + σ * c * b) := by
  obtain ⟨t, t0, t1, rfl⟩ := mem_drawRadius hp
  have hpi := Real.pi_pos
  have hc0 : 0 ≤ Real.cos (t * (Real.pi / 2)) :=
    Real.cos_nonneg_of_neg_pi_div_two_le_of_le (by nlinarith) (by nlinarith)
  have hs0 : 0 ≤ Real.sin (t * (Real.pi / 2)) := Real.sin_nonneg_of_nonneg_of_le_pi (by positivity) (by nlinarith)
  refine ⟨r * Real.cos (t * (Real.pi / 2)), r * Real.sin (t * (Real.pi / 2)), by positivity, ?_, by positivity, ?_, ?_, ?_⟩
  · nlinarith [Real.cos_le_one (t * (Real.pi / 2))]
  · nlinarith [Real.sin_le_one (t * (Real.pi / 2))]
  · nlinarith [Real.sin_sq_add_cos_sq (t * (Real.pi / 2))]
  · rw [hσ, onCircle]
    rcases (by by_cases h : ccw <;> simp [← hσ, h] : σ = 1 ∨ σ = -1) with h | h
    · have e : θ + σ * t * (Real.pi / 2) = θ + t * (Real.pi / 2) := by rw [h]; ring
      rw [e, Real.cos_add, Real.sin_add, hc, hs, h]
      ext <;> simp <;> ring
    · have e : θ + σ * t * (Real.pi / 2) = θ - t * (Real.pi / 2) := by rw [h]; ring
      rw [e, Real.cos_sub, Real.sin_sub, hc, hs, h]
      ext <;> simp <;> ring

theorem cos_three_half : Real.cos (3 / 2 * Real.pi) = 0 := by
  rw [show 3 / 2 * Real.pi = Real.pi / 2 + Real.pi by ring, Real.cos_add_pi, Real.cos_pi_div_two, neg_zero]

theorem sin_three_half : Real.sin (3 / 2 * Real.pi) = -1 := by
  rw [show 3 / 2 * Real.pi = Real.pi / 2 + Real.pi by ring, Real.sin_add_pi, Real.sin_pi_div_two]

theorem cos_half : Real.cos (1 / 2 * Real.pi) = 0 := by
  rw [show 1 / 2 * Real.pi = Real.pi / 2 by ring, Real.cos_pi_div_two]

theorem sin_half : Real.sin (1 / 2 * Real.pi) = 1 := by
  rw [show 1 / 2 * Real.pi = Real.pi / 2 by ring, Real.sin_pi_div_two]

section Quarters

variable {pt : Pt} {r : ℝ} {n : ℕ} (hn : r = 0 ∨ 2 ≤ n)

include hn

theorem chain_cw_pi : Chain (quarter pt r Real.pi n false) (pt.1 - r, pt.2) (pt.1, pt.2 + r)
    (pt.1 * r - pt.2 * r - sector2 r (Real.pi / 2) n) := by
  convert quarter_chain (ccw := false) hn Real.cos_pi Real.sin_pi rfl using 2 <;> simp <;> ring

theorem chain_cw_three : Chain (quarter pt r (3 / 2 * Real.pi) n false) (pt.1, pt.2 - r) (pt.1 - r, pt.2)
    (pt.1 * r + pt.2 * r - sector2 r (Real.pi / 2) n) := by
  convert quarter_chain (ccw := false) hn cos_three_half sin_three_half rfl using 2 <;> simp <;> ring

theorem chain_cw_zero : Chain (quarter pt r 0 n false) (pt.1 + r, pt.2) (pt.1, pt.2 - r)
    (-pt.1 * r + pt.2 * r - sector2 r (Real.pi / 2) n) := by
  convert quarter_chain (ccw := false) hn Real.cos_zero Real.sin_zero rfl using 2 <;> simp <;> ring

theorem chain_cw_half : Chain (quarter pt r (1 / 2 * Real.pi) n false) (pt.1, pt.2 + r) (pt.1 + r, pt.2)
    (-pt.1 * r - pt.2 * r - sector2 r (Real.pi / 2) n) := by
  convert quarter_chain (ccw := false) hn cos_half sin_half rfl using 2 <;> simp <;> ring

theorem chain_ccw_pi : Chain (quarter pt r Real.pi n true) (pt.1 - r, pt.2) (pt.1, pt.2 - r)
    (-pt.1 * r - pt.2 * r + sector2 r (Real.pi / 2) n) := by
  convert quarter_chain (ccw := true) hn Real.cos_pi Real.sin_pi rfl using 2 <;> simp <;> ring

theorem chain_ccw_three : Chain (quarter pt r (3 / 2 * Real.pi) n true) (pt.1, pt.2 - r) (pt.1 + r, pt.2)
    (pt.1 * r - pt.2 * r + sector2 r (Real.pi / 2) n) := by
  convert quarter_chain (ccw := true) hn cos_three_half sin_three_half rfl using 2 <;> simp <;> ring

theorem chain_ccw_zero : Chain (quarter pt r 0 n true) (pt.1 + r, pt.2) (pt.1, pt.2 + r)
    (pt.1 * r + pt.2 * r + sector2 r (Real.pi / 2) n) := by
  convert quarter_chain (ccw := true) hn Real.cos_zero Real.sin_zero rfl using 2 <;> simp <;> ring

theorem chain_ccw_half : Chain (quarter pt r (1 / 2 * Real.pi) n true) (pt.1, pt.2 + r) (pt.1 - r, pt.2)
    (-pt.1 * r + pt.2 * r + sector2 r (Real.pi / 2) n) := by
  convert quarter_chain (ccw := true) hn cos_half sin_half rfl using 2 <;> simp <;> ring

end Quarters

/-- Unit vectors of a quadrant times `r`, in absolute values. -/
def Leg (r a b : ℝ) : Prop := 0 ≤ a ∧ a ≤ r ∧ 0 ≤ b ∧ b ≤ r ∧ a ^ 2 + b ^ 2 = r ^ 2

section Members

variable {pt : Pt} {r : ℝ} {n : ℕ} {p : Pt} (hr : 0 ≤ r)

include hr

theorem mem_cw_pi (h : p ∈ quarter pt r Real.pi n false) : ∃ a b, Leg r a b ∧ p = (pt.1 - a, pt.2 + b) := by
  obtain ⟨a, b, h1, h2, h3, h4, h5, rfl⟩ := mem_quarter hr Real.cos_pi Real.sin_pi rfl h
  exact ⟨a, b, ⟨h1, h2, h3, h4, h5⟩, by simp; ring⟩

theorem mem_cw_three (h : p ∈ quarter pt r (3 / 2 * Real.pi) n false) :
    ∃ a b, Leg r a b ∧ p = (pt.1 - b, pt.2 - a) := by
  obtain ⟨a, b, h1, h2, h3, h4, h5, rfl⟩ := mem_quarter hr cos_three_half sin_three_half rfl h
  exact ⟨a, b, ⟨h1, h2, h3, h4, h5⟩, by simp; ring⟩

theorem mem_cw_zero (h : p ∈ quarter pt r 0 n false) : ∃ a b, Leg r a b ∧ p = (pt.1 + a, pt.2 - b) := by
  obtain ⟨a, b, h1, h2, h3, h4, h5, rfl⟩ := mem_quarter hr Real.cos_zero Real.sin_zero rfl h
  exact ⟨a, b, ⟨h1, h2, h3, h4, h5⟩, by simp; ring⟩

theorem mem_cw_half (h : p ∈ quarter pt r (1 / 2 * Real.pi) n false) :
    ∃ a b, Leg r a b ∧ p = (pt.1 + b, pt.2 + a) := by
  obtain ⟨a, b, h1, h2, h3, h4, h5, rfl⟩ := mem_quarter hr cos_half sin_half rfl h
  exact ⟨a, b, ⟨h1, h2, h3, h4, h5⟩, by simp⟩

theorem mem_ccw_pi (h : p ∈ quarter pt r Real.pi n true) : ∃ a b, Leg r a b ∧ p = (pt.1 - a, pt.2 - b) := by
  obtain ⟨a, b, h1, h2, h3, h4, h5, rfl⟩ := mem_quarter hr Real.cos_pi Real.sin_pi rfl h
  exact ⟨a, b, ⟨h1, h2, h3, h4, h5⟩, by simp; exact ⟨by ring, by ring⟩⟩

theorem mem_ccw_three (h : p ∈ quarter pt r (3 / 2 * Real.pi) n true) :
    ∃ a b, Leg r a b ∧ p = (pt.1 + b, pt.2 - a) := by
  obtain ⟨a, b, h1, h2, h3, h4, h5, rfl⟩ := mem_quarter hr cos_three_half sin_three_half rfl h
  exact ⟨a, b, ⟨h1, h2, h3, h4, h5⟩, by simp; ring⟩

theorem mem_ccw_zero (h : p ∈ quarter pt r 0 n true) : ∃ a b, Leg r a b ∧ p = (pt.1 + a, pt.2 + b) := by
  obtain ⟨a, b, h1, h2, h3, h4, h5, rfl⟩ := mem_quarter hr Real.cos_zero Real.sin_zero rfl h
  exact ⟨a, b, ⟨h1, h2, h3, h4, h5⟩, by simp⟩

theorem mem_ccw_half (h : p ∈ quarter pt r (1 / 2 * Real.pi) n true) :
    ∃ a b, Leg r a b ∧ p = (pt.1 - b, pt.2 + a) := by
  obtain ⟨a, b, h1, h2, h3, h4, h5, rfl⟩ := mem_quarter hr cos_half sin_half rfl h
  exact ⟨a, b, ⟨h1, h2, h3, h4, h5⟩, by simp⟩

end Members

end SP
