import Verif.Model.Concrete
import Verif.Spec.Concrete
import Mathlib.Tactic.FieldSimp
import Mathlib.Tactic.Ring
import Mathlib.Tactic.Positivity
import Mathlib.Tactic.LinearCombination
import Mathlib.Algebra.Order.Floor.Semiring

/-!
# Runs of bars
-/

namespace SP
open Spec

/-- The bars of a run. -/
noncomputable def runOf (n : ℕ) (start stop : ℝ) : List ℝ :=
  (List.range (n + 1)).map fun i : ℕ => start + (i : ℝ) * ((stop - start) / (n : ℝ))

theorem linspace_succ (n : ℕ) (start stop : ℝ) : linspace start stop ((n : ℤ) + 1) = .ok (runOf n start stop) := by
  unfold linspace runOf
  rw [if_neg (by omega)]
  have h : ((n : ℤ) + 1).toNat = n + 1 := by omega
  rw [h]
  congr 1
  apply List.map_congr_left
  intro i _
  push_cast
  ring

/-- The number of gaps in a run. -/
noncomputable def gapsOf (spacing length : ℝ) : ℕ := ⌈length / spacing⌉.toNat

theorem wallRun_ok {s l : ℝ} (hs : 0 < s) (hl : 0 ≤ l) (start stop : ℝ) :
    wallRun s l start stop = .ok (runOf (gapsOf s l) start stop) := by
  unfold wallRun
  rw [if_neg hs.ne', ← linspace_succ]
  have h : (0 : ℤ) ≤ ⌈l / s⌉ := Int.ceil_nonneg (by positivity)
  unfold gapsOf
  rw [Int.toNat_of_nonneg h]

theorem gapsOf_spec {s l : ℝ} (hs : 0 < s) (hl : 0 ≤ l) : l ≤ (gapsOf s l : ℝ) * s := by
  have h : (0 : ℤ) ≤ ⌈l / s⌉ := Int.ceil_nonneg (by positivity)
  have h2 : ((gapsOf s l : ℕ) : ℝ) = ((⌈l / s⌉ : ℤ) : ℝ) := by
    unfold gapsOf
    have : ((⌈l / s⌉.toNat : ℤ) : ℝ) = ((⌈l / s⌉ : ℤ) : ℝ) := by rw [Int.toNat_of_nonneg h]
    exact_mod_cast this
  rw [h2, ← div_le_iff₀ hs]
  exact Int.le_ceil _

theorem runOf_mem {n : ℕ} {start stop x : ℝ} (h : start ≤ stop) (hx : x ∈ runOf n start stop) :
    start ≤ x ∧ x ≤ stop := by
  unfold runOf at hx
  obtain ⟨i, hi, rfl⟩ := List.mem_map.mp hx
  have hi' : (i : ℝ) ≤ n := by exact_mod_cast Nat.lt_succ_iff.mp (List.mem_range.mp hi)
  have hn : (0 : ℝ) ≤ n := Nat.cast_nonneg n
  have hi0 : (0 : ℝ) ≤ i := Nat.cast_nonneg i
  have hd : 0 ≤ (stop - start) / (n : ℝ) := div_nonneg (by linarith) hn
  refine ⟨by nlinarith [mul_nonneg hi0 hd], ?_⟩
  have h1 : (i : ℝ) * ((stop - start) / n) ≤ n * ((stop - start) / n) := mul_le_mul_of_nonneg_right hi' hd
  rcases eq_or_lt_of_le hn with h0 | h0
  · rw [← h0]
    simpa using h
  · rw [mul_div_cancel₀ _ h0.ne'] at h1
    linarith

theorem runOf_start (n : ℕ) (start stop : ℝ) : start ∈ runOf n start stop := by
  unfold runOf
  exact List.mem_map.mpr ⟨0, by simp, by simp⟩

theorem runOf_stop {n : ℕ} (start stop : ℝ) (hn : n = 0 → start = stop) : stop ∈ runOf n start stop := by
  unfold runOf
  refine List.mem_map.mpr ⟨n, by simp, ?_⟩
  rcases Nat.eq_zero_or_pos n with h | h
  · subst h
    simp [hn rfl]
  · have : (n : ℝ) ≠ 0 := by exact_mod_cast h.ne'
    field_simp
    ring

theorem gaps_zero {s l start stop : ℝ} (hs : 0 < s) (hl : stop - start ≤ l) (h : start ≤ stop) :
    gapsOf s l = 0 → start = stop := by
  intro h0
  have := gapsOf_spec hs (by linarith : 0 ≤ l)
  rw [h0] at this
  simp at this
  linarith

theorem runOf_spaced {s l start stop : ℝ} (hs : 0 < s) (h : start ≤ stop) (hl : stop - start ≤ l) :
    Spaced s start stop {x | x ∈ runOf (gapsOf s l) start stop} := by
  refine ⟨runOf_start _ _ _, runOf_stop _ _ (gaps_zero hs hl h), ?_⟩
  intro u hu hu'
  have hg := gapsOf_spec hs (by linarith : 0 ≤ l)
  have hmem : ∀ i : ℕ, i ≤ gapsOf s l →
      start + (i : ℝ) * ((stop - start) / (gapsOf s l : ℝ)) ∈ runOf (gapsOf s l) start stop := by
    intro i hi
    unfold runOf
    exact List.mem_map.mpr ⟨i, by simpa [Nat.lt_succ_iff] using hi, rfl⟩
  generalize gapsOf s l = n at hg hmem
  rcases Nat.eq_zero_or_pos n with h0 | h0
  · subst h0
    simp at hg
    linarith
  have hn : (0 : ℝ) < n := by exact_mod_cast h0
  have hg0 : 0 < (stop - start) / (n : ℝ) := div_pos (by linarith) hn
  have hgs : (stop - start) / (n : ℝ) ≤ s := by
    rw [div_le_iff₀ hn]
    linarith
  generalize hge : (stop - start) / (n : ℝ) = g at hg0 hgs hmem
  have hng : (n : ℝ) * g = stop - start := by
    rw [← hge]
    field_simp
  -- the next bar
  have hq0 : 0 ≤ (u - start) / g := div_nonneg (by linarith) hg0.le
  have hk1 := Nat.floor_le hq0
  have hk2 := Nat.lt_floor_add_one ((u - start) / g)
  generalize ⌊(u - start) / g⌋₊ = k at hk1 hk2
  rw [le_div_iff₀ hg0] at hk1
  rw [div_lt_iff₀ hg0] at hk2
  have hkn : k + 1 ≤ n := by
    have : (k : ℝ) * g < n * g := by linarith
    have := lt_of_mul_lt_mul_right this hg0.le
    exact_mod_cast this
  have hkn' : ((k : ℝ) + 1) ≤ n := by exact_mod_cast hkn
  refine ⟨_, hmem (k + 1) hkn, ?_, ?_, ?_⟩
  · push_cast
    linarith
  · push_cast
    linarith
  · push_cast
    nlinarith [mul_le_mul_of_nonneg_right hkn' hg0.le]

theorem Spec.Spaced.mono {s lo hi : ℝ} {S T : Set ℝ} (h : Spaced s lo hi S) (hST : ∀ x ∈ S, x ∈ T) :
    Spaced s lo hi T :=
  ⟨hST _ h.1, hST _ h.2.1, fun u h1 h2 => let ⟨v, hv, h3⟩ := h.2.2 u h1 h2; ⟨v, hST v hv, h3⟩⟩

/-- All of a run lies in a set when its two ends and what the slice `[1:-1]` keeps do. -/
theorem Spec.Spaced.ofRun {s l start stop : ℝ} (hs : 0 < s) (h : start ≤ stop) (hl : stop - start ≤ l) {T : Set ℝ}
    (hT : ∀ x ∈ runOf (gapsOf s l) start stop, x ∈ T) : Spaced s start stop T :=
  (runOf_spaced hs h hl).mono hT

theorem runOf_cons (n : ℕ) (start stop : ℝ) : ∃ l, runOf n start stop = start :: l := by
  unfold runOf
  rw [List.range_succ_eq_map]
  simp

theorem runOf_concat {n : ℕ} {start stop : ℝ} (hn : n = 0 → start = stop) :
    ∃ l, runOf n start stop = l ++ [stop] := by
  refine ⟨(List.range n).map fun i : ℕ => start + (i : ℝ) * ((stop - start) / (n : ℝ)), ?_⟩
  unfold runOf
  rw [List.range_succ, List.map_append, List.map_singleton]
  congr 2
  rcases Nat.eq_zero_or_pos n with h | h
  · subst h
    simp [hn rfl]
  · have : (n : ℝ) ≠ 0 := by exact_mod_cast h.ne'
    field_simp
    ring

theorem mem_tailOf {l : List ℝ} {a x : ℝ} (h : ∃ t, l = a :: t) (hx : x ∈ l) : x = a ∨ x ∈ tailOf l := by
  obtain ⟨t, rfl⟩ := h
  simpa [tailOf] using hx

theorem mem_initOf {l : List ℝ} {a x : ℝ} (h : ∃ t, l = t ++ [a]) (hx : x ∈ l) : x = a ∨ x ∈ initOf l := by
  obtain ⟨t, rfl⟩ := h
  unfold initOf
  rw [List.dropLast_concat]
  simpa [or_comm] using hx

theorem mem_inner {l : List ℝ} {a z x : ℝ} (ha : ∃ t, l = a :: t) (hz : ∃ t, l = t ++ [z]) (hx : x ∈ l) :
    x = a ∨ x = z ∨ x ∈ inner l := by
  obtain ⟨t, rfl⟩ := ha
  obtain ⟨u, hu⟩ := hz
  rcases List.mem_cons.mp hx with rfl | hx
  · exact Or.inl rfl
  right
  unfold inner
  cases u with
  | nil =>
    have : t = [] := by simpa using congrArg List.tail hu
    subst this
    simp at hx
  | cons v u' =>
    have ht : t = u' ++ [z] := by simpa using congrArg List.tail hu
    subst ht
    simp only [List.drop_succ_cons, List.drop_zero, List.dropLast_concat]
    simpa [or_comm] using hx

theorem tailOf_sub {l : List ℝ} {x : ℝ} (h : x ∈ tailOf l) : x ∈ l := List.mem_of_mem_drop h
theorem initOf_sub {l : List ℝ} {x : ℝ} (h : x ∈ initOf l) : x ∈ l := List.mem_of_mem_dropLast h
theorem inner_sub {l : List ℝ} {x : ℝ} (h : x ∈ inner l) : x ∈ l :=
  List.mem_of_mem_drop (List.mem_of_mem_dropLast h)

theorem inner_append_sub {l m : List ℝ} {x : ℝ} (h : x ∈ inner (l ++ m)) : x ∈ l ∨ x ∈ m :=
  List.mem_append.mp (inner_sub h)

/-! ### Membership in the loops -/

theorem mem_rowAt {y : ℝ} {xs : List ℝ} {p : Pt} : p ∈ rowAt y xs ↔ p.1 ∈ xs ∧ p.2 = y := by
  unfold rowAt
  constructor
  · intro h
    obtain ⟨x, hx, rfl⟩ := List.mem_map.mp h
    exact ⟨hx, rfl⟩
  · rintro ⟨h, rfl⟩
    exact List.mem_map.mpr ⟨p.1, h, rfl⟩

theorem mem_colAt {x : ℝ} {ys : List ℝ} {p : Pt} : p ∈ colAt x ys ↔ p.1 = x ∧ p.2 ∈ ys := by
  unfold colAt
  constructor
  · intro h
    obtain ⟨y, hy, rfl⟩ := List.mem_map.mp h
    exact ⟨rfl, hy⟩
  · rintro ⟨rfl, h⟩
    exact List.mem_map.mpr ⟨p.2, h, rfl⟩

theorem mem_gridXY {xs ys : List ℝ} {p : Pt} : p ∈ gridXY xs ys ↔ p.1 ∈ xs ∧ p.2 ∈ ys := by
  unfold gridXY
  constructor
  · intro h
    obtain ⟨x, hx, h⟩ := List.mem_flatMap.mp h
    obtain ⟨y, hy, rfl⟩ := List.mem_map.mp h
    exact ⟨hx, hy⟩
  · rintro ⟨h1, h2⟩
    exact List.mem_flatMap.mpr ⟨p.1, h1, List.mem_map.mpr ⟨p.2, h2, rfl⟩⟩

theorem mem_gridYX {xs ys : List ℝ} {p : Pt} : p ∈ gridYX ys xs ↔ p.1 ∈ xs ∧ p.2 ∈ ys := by
  unfold gridYX
  constructor
  · intro h
    obtain ⟨y, hy, h⟩ := List.mem_flatMap.mp h
    obtain ⟨x, hx, rfl⟩ := List.mem_map.mp h
    exact ⟨hx, hy⟩
  · rintro ⟨h1, h2⟩
    exact List.mem_flatMap.mpr ⟨p.2, h2, List.mem_map.mpr ⟨p.1, h1, rfl⟩⟩

/-- The square round the bar is enough. -/
theorem hasCover_of_square {R : Set (ℝ × ℝ)} {ρ u v : ℝ} (hρ : 0 ≤ ρ)
    (h : ∀ x y : ℝ, u - ρ ≤ x → x ≤ u + ρ → v - ρ ≤ y → y ≤ v + ρ → (x, y) ∈ R) : HasCover R ρ (u, v) := by
  intro q hq
  have h1 : |q.1 - u| ≤ ρ := abs_le_of_sq_le_sq (by nlinarith [sq_nonneg (q.2 - v)]) hρ
  have h2 : |q.2 - v| ≤ ρ := abs_le_of_sq_le_sq (by nlinarith [sq_nonneg (q.1 - u)]) hρ
  rw [abs_le] at h1 h2
  exact h q.1 q.2 (by linarith) (by linarith) (by linarith) (by linarith)

/-! ### Statements about all bars of a loop -/

/-- All positions of a list lie between two bounds. -/
def Within (lo hi : ℝ) (l : List ℝ) : Prop := ∀ x ∈ l, lo ≤ x ∧ x ≤ hi

theorem within_run {n : ℕ} {lo hi : ℝ} (h : lo ≤ hi) : Within lo hi (runOf n lo hi) := fun _ hx => runOf_mem h hx
theorem Within.inner {lo hi : ℝ} {l : List ℝ} (h : Within lo hi l) : Within lo hi (inner l) :=
  fun x hx => h x (inner_sub hx)
theorem Within.tail {lo hi : ℝ} {l : List ℝ} (h : Within lo hi l) : Within lo hi (tailOf l) :=
  fun x hx => h x (tailOf_sub hx)
theorem Within.init {lo hi : ℝ} {l : List ℝ} (h : Within lo hi l) : Within lo hi (initOf l) :=
  fun x hx => h x (initOf_sub hx)

/-- When the length that the number of bars is computed from is too small, there may be no bars, but there is no error
as long as it is more than minus two spacings. -/
theorem wallRun_within {s l start stop : ℝ} (hs : 0 < s) (hl : -(2 * s) < l) (h : start ≤ stop ∨ l ≤ 0) :
    ∃ L, wallRun s l start stop = .ok L ∧ Within start stop (initOf L) ∧ Within start stop (tailOf L) := by
  by_cases hc : ⌈l / s⌉ + 1 = 0
  · refine ⟨[], ?_, nofun, nofun⟩
    unfold wallRun linspace
    rw [if_neg hs.ne', hc]
    simp
  · have h2 : -2 < ⌈l / s⌉ := by
      rw [Int.lt_ceil, lt_div_iff₀ hs]
      push_cast
      linarith
    obtain ⟨n, hn⟩ : ∃ n : ℕ, ⌈l / s⌉ = n := ⟨⌈l / s⌉.toNat, by omega⟩
    refine ⟨runOf n start stop, ?_, ?_⟩
    · unfold wallRun
      rw [if_neg hs.ne', hn, linspace_succ]
    rcases h with h | h
    · exact ⟨(within_run h).init, (within_run h).tail⟩
    · have h3 : ⌈l / s⌉ ≤ 0 := by
        rw [Int.ceil_le]
        push_cast
        exact div_nonpos_of_nonpos_of_nonneg h hs.le
      obtain rfl : n = 0 := by omega
      constructor <;> intro x hx <;> simp [runOf, initOf, tailOf] at hx

theorem forall_row {P : Pt → Prop} {lo hi y : ℝ} {l : List ℝ} (hl : Within lo hi l)
    (h : ∀ x, lo ≤ x → x ≤ hi → P (x, y)) : ∀ p ∈ rowAt y l, P p := by
  intro p hp
  obtain ⟨x, hx, rfl⟩ := List.mem_map.mp hp
  exact h x (hl x hx).1 (hl x hx).2

theorem forall_row2 {P : Pt → Prop} {lo hi lo' hi' y : ℝ} {l m : List ℝ} (hl : Within lo hi l) (hm : Within lo' hi' m)
    (h : ∀ x, lo ≤ x → x ≤ hi → P (x, y)) (h' : ∀ x, lo' ≤ x → x ≤ hi' → P (x, y)) :
    ∀ p ∈ rowAt y (l ++ m), P p := by
  intro p hp
  obtain ⟨x, hx, rfl⟩ := List.mem_map.mp hp
  rcases List.mem_append.mp hx with hx | hx
  · exact h x (hl x hx).1 (hl x hx).2
  · exact h' x (hm x hx).1 (hm x hx).2

theorem forall_col {P : Pt → Prop} {lo hi x : ℝ} {l : List ℝ} (hl : Within lo hi l)
    (h : ∀ y, lo ≤ y → y ≤ hi → P (x, y)) : ∀ p ∈ colAt x l, P p := by
  intro p hp
  obtain ⟨y, hy, rfl⟩ := List.mem_map.mp hp
  exact h y (hl y hy).1 (hl y hy).2

theorem forall_col2 {P : Pt → Prop} {lo hi lo' hi' x : ℝ} {l m : List ℝ} (hl : Within lo hi l) (hm : Within lo' hi' m)
    (h : ∀ y, lo ≤ y → y ≤ hi → P (x, y)) (h' : ∀ y, lo' ≤ y → y ≤ hi' → P (x, y)) :
    ∀ p ∈ colAt x (l ++ m), P p := by
  intro p hp
  obtain ⟨y, hy, rfl⟩ := List.mem_map.mp hp
  rcases List.mem_append.mp hy with hy | hy
  · exact h y (hl y hy).1 (hl y hy).2
  · exact h' y (hm y hy).1 (hm y hy).2

theorem forall_col_inner {P : Pt → Prop} {lo hi lo' hi' x : ℝ} {l m : List ℝ} (hl : Within lo hi l)
    (hm : Within lo' hi' m) (h : ∀ y, lo ≤ y → y ≤ hi → P (x, y)) (h' : ∀ y, lo' ≤ y → y ≤ hi' → P (x, y)) :
    ∀ p ∈ colAt x (inner (l ++ m)), P p := by
  intro p hp
  refine forall_col2 hl hm h h' p ?_
  rw [mem_colAt] at hp ⊢
  exact ⟨hp.1, inner_sub hp.2⟩

theorem forall_gridXY {P : Pt → Prop} {lo hi : ℝ} {xs ys : List ℝ} (hl : Within lo hi xs)
    (h : ∀ y ∈ ys, ∀ x, lo ≤ x → x ≤ hi → P (x, y)) : ∀ p ∈ gridXY xs ys, P p := by
  intro p hp
  rw [mem_gridXY] at hp
  exact h p.2 hp.2 p.1 (hl _ hp.1).1 (hl _ hp.1).2

theorem forall_gridYX {P : Pt → Prop} {lo hi : ℝ} {xs ys : List ℝ} (hl : Within lo hi ys)
    (h : ∀ x ∈ xs, ∀ y, lo ≤ y → y ≤ hi → P (x, y)) : ∀ p ∈ gridYX ys xs, P p := by
  intro p hp
  rw [mem_gridYX] at hp
  exact h p.1 hp.1 p.2 (hl _ hp.2).1 (hl _ hp.2).2

/-! ### Runs given in parts -/

theorem mem_inner_left {l m : List ℝ} {a z x : ℝ} (ha : ∃ t, l = a :: t) (hz : ∃ t, m = t ++ [z]) (hx : x ∈ l) :
    x = a ∨ x ∈ inner (l ++ m) := by
  obtain ⟨t, rfl⟩ := ha
  obtain ⟨u, rfl⟩ := hz
  rcases List.mem_cons.mp hx with rfl | hx
  · exact Or.inl rfl
  right
  unfold inner
  rw [List.cons_append, List.drop_succ_cons, List.drop_zero, ← List.append_assoc, List.dropLast_concat]
  exact List.mem_append_left _ hx

theorem mem_inner_right {l m : List ℝ} {a z x : ℝ} (ha : ∃ t, l = a :: t) (hz : ∃ t, m = t ++ [z]) (hx : x ∈ m) :
    x = z ∨ x ∈ inner (l ++ m) := by
  obtain ⟨t, rfl⟩ := ha
  obtain ⟨u, rfl⟩ := hz
  rcases List.mem_append.mp hx with hx | hx
  · right
    unfold inner
    rw [List.cons_append, List.drop_succ_cons, List.drop_zero, ← List.append_assoc, List.dropLast_concat]
    exact List.mem_append_right _ hx
  · exact Or.inl (List.mem_singleton.mp hx)

/-- A run, all of it placed. -/
theorem spaced_run {s l start stop : ℝ} {T : Set ℝ} (hs : 0 < s) (h : start ≤ stop) (hl : stop - start ≤ l)
    (hT : ∀ x ∈ runOf (gapsOf s l) start stop, x ∈ T) : Spaced s start stop T :=
  (runOf_spaced hs h hl).mono hT

/-- A run of which the ends are placed by others. -/
theorem spaced_inner {s l start stop : ℝ} {T : Set ℝ} (hs : 0 < s) (h : start ≤ stop) (hl : stop - start ≤ l)
    (h0 : start ∈ T) (h1 : stop ∈ T) (hT : ∀ x ∈ inner (runOf (gapsOf s l) start stop), x ∈ T) :
    Spaced s start stop T := by
  refine spaced_run hs h hl fun x hx => ?_
  rcases mem_inner (runOf_cons _ _ _) (runOf_concat (gaps_zero hs hl h)) hx with rfl | rfl | hx
  exacts [h0, h1, hT x hx]

theorem spaced_tail {s l start stop : ℝ} {T : Set ℝ} (hs : 0 < s) (h : start ≤ stop) (hl : stop - start ≤ l)
    (h0 : start ∈ T) (hT : ∀ x ∈ tailOf (runOf (gapsOf s l) start stop), x ∈ T) : Spaced s start stop T := by
  refine spaced_run hs h hl fun x hx => ?_
  rcases mem_tailOf (runOf_cons _ _ _) hx with rfl | hx
  exacts [h0, hT x hx]

theorem spaced_init {s l start stop : ℝ} {T : Set ℝ} (hs : 0 < s) (h : start ≤ stop) (hl : stop - start ≤ l)
    (h1 : stop ∈ T) (hT : ∀ x ∈ initOf (runOf (gapsOf s l) start stop), x ∈ T) : Spaced s start stop T := by
  refine spaced_run hs h hl fun x hx => ?_
  rcases mem_initOf (runOf_concat (gaps_zero hs hl h)) hx with rfl | hx
  exacts [h1, hT x hx]

theorem spaced_left {s l start stop l' start' stop' : ℝ} {T : Set ℝ} (hs : 0 < s) (h : start ≤ stop)
    (hl : stop - start ≤ l) (h' : start' ≤ stop') (hl' : stop' - start' ≤ l') (h0 : start ∈ T)
    (hT : ∀ x ∈ inner (runOf (gapsOf s l) start stop ++ runOf (gapsOf s l') start' stop'), x ∈ T) :
    Spaced s start stop T := by
  refine spaced_run hs h hl fun x hx => ?_
  rcases mem_inner_left (runOf_cons _ _ _) (runOf_concat (gaps_zero hs hl' h')) hx with rfl | hx
  exacts [h0, hT x hx]

theorem spaced_right {s l start stop l' start' stop' : ℝ} {T : Set ℝ} (hs : 0 < s) (h : start ≤ stop)
    (hl : stop - start ≤ l) (_h' : start' ≤ stop') (_hl' : stop' - start' ≤ l') (h1 : stop ∈ T)
    (hT : ∀ x ∈ inner (runOf (gapsOf s l') start' stop' ++ runOf (gapsOf s l) start stop), x ∈ T) :
    Spaced s start stop T := by
  refine spaced_run hs h hl fun x hx => ?_
  rcases mem_inner_right (runOf_cons _ _ _) (runOf_concat (gaps_zero hs hl h)) hx with rfl | hx
  exacts [h1, hT x hx]

theorem run_stop {s l start stop : ℝ} (hs : 0 < s) (h : start ≤ stop) (hl : stop - start ≤ l) :
    stop ∈ runOf (gapsOf s l) start stop := runOf_stop _ _ (gaps_zero hs hl h)

theorem half_mul (x : ℝ) : 1 / 2 * x = x / 2 := by ring

end SP
