import Verif.Model.Geometry
import Verif.Spec.Shapes
import Mathlib.Tactic.LinearCombination
import Mathlib.Tactic.Positivity
import Mathlib.Tactic.FieldSimp
import Mathlib.Analysis.SpecialFunctions.Trigonometric.Basic

/-!
# Rounding to a number of decimals
-/

namespace SP

open Spec

theorem rint_near (x : ℝ) : |(rint x : ℝ) - x| ≤ 1 / 2 := by
  have h1 := Int.floor_le x
  have h2 := Int.lt_floor_add_one x
  rw [rint, abs_le]
  split_ifs with h h' h'
  · constructor <;> linarith
  · push_cast; constructor <;> linarith
  · constructor <;> linarith
  · push_cast
    have : ¬ (x - ⌊x⌋ = 1 / 2) := h
    constructor
    · linarith
    · have := lt_of_le_of_ne (not_lt.1 h') (Ne.symm h)
      linarith

theorem rint_int (k : ℤ) : rint (k : ℝ) = k := by
  simp [rint]

/-- Unless there is a tie, the nearest integer is unique. -/
theorem rint_unique {x : ℝ} {k : ℤ} (h : |(k : ℝ) - x| < 1 / 2) : rint x = k := by
  have h1 := rint_near x
  have h2 : |((rint x - k : ℤ) : ℝ)| < 1 := by
    push_cast
    have := abs_sub_le (rint x : ℝ) x k
    rw [abs_sub_comm x (k : ℝ)] at this
    linarith
  have h3 : |rint x - k| < 1 := by exact_mod_cast h2
  have := Int.abs_lt_one_iff.1 h3
  omega

theorem rint_mono {x y : ℝ} (h : x ≤ y) : rint x ≤ rint y := by
  have hf := Int.floor_le_floor h
  have h1 := Int.floor_le x
  have h2 := Int.lt_floor_add_one x
  have h3 := Int.floor_le y
  have h4 := Int.lt_floor_add_one y
  rcases hf.lt_or_eq with hlt | heq
  · have hx : rint x ≤ ⌊x⌋ + 1 := by
      rw [rint]; split_ifs <;> omega
    have hy : ⌊y⌋ ≤ rint y := by
      rw [rint]; split_ifs <;> omega
    omega
  · rw [rint, rint, ← heq]
    split_ifs with a b c d e f g i j k l m <;> first | omega | (exfalso; linarith) | (exfalso; exact a (le_antisymm (by linarith) (not_lt.1 g)))

theorem pow10_pos (tol : ℕ) : (0 : ℝ) < 10 ^ tol := by positivity

theorem roundTo_near (tol : ℕ) (x : ℝ) : HalfUnit tol (roundTo tol x) x := by
  have hp := pow10_pos tol
  have h := rint_near (x * 10 ^ tol)
  rw [HalfUnit, roundTo]
  have : (rint (x * 10 ^ tol) : ℝ) / 10 ^ tol - x = ((rint (x * 10 ^ tol) : ℝ) - x * 10 ^ tol) / 10 ^ tol := by
    field_simp
  rw [this, abs_div, abs_of_pos hp]
  gcongr

theorem roundTo_onGrid (tol : ℕ) (x : ℝ) : OnGrid tol (roundTo tol x) := ⟨_, rfl⟩

theorem roundTo_of_onGrid {tol : ℕ} {x : ℝ} (h : OnGrid tol x) : roundTo tol x = x := by
  obtain ⟨k, rfl⟩ := h
  have hp := (pow10_pos tol).ne'
  rw [roundTo, div_mul_cancel₀ _ hp, rint_int]

theorem Spec.OnGrid.add {tol : ℕ} {x y : ℝ} (hx : OnGrid tol x) (hy : OnGrid tol y) : OnGrid tol (x + y) := by
  obtain ⟨k, rfl⟩ := hx
  obtain ⟨l, rfl⟩ := hy
  exact ⟨k + l, by push_cast; ring⟩

theorem Spec.OnGrid.neg {tol : ℕ} {x : ℝ} (hx : OnGrid tol x) : OnGrid tol (-x) := by
  obtain ⟨k, rfl⟩ := hx
  exact ⟨-k, by push_cast; ring⟩

theorem Spec.OnGrid.sub {tol : ℕ} {x y : ℝ} (hx : OnGrid tol x) (hy : OnGrid tol y) : OnGrid tol (x - y) := by
  rw [sub_eq_add_neg]; exact hx.add hy.neg

theorem Spec.OnGrid.mono {s t : ℕ} (hst : s ≤ t) {x : ℝ} (hx : OnGrid s x) : OnGrid t x := by
  obtain ⟨k, rfl⟩ := hx
  refine ⟨k * 10 ^ (t - s), ?_⟩
  have h1 := (pow10_pos s).ne'
  have h2 : (10 : ℝ) ^ t = 10 ^ s * 10 ^ (t - s) := by rw [← pow_add]; congr 1; omega
  have h3 := (pow10_pos (t - s)).ne'
  push_cast
  rw [h2]
  field_simp

theorem Spec.OnGrid.intCast (t : ℕ) (k : ℤ) : OnGrid t (k : ℝ) := by
  refine OnGrid.mono (Nat.zero_le t) ⟨k, by simp⟩

theorem Spec.OnGrid.natCast (t : ℕ) (k : ℕ) : OnGrid t (k : ℝ) := by
  exact_mod_cast OnGrid.intCast t k

/-- On numbers of the grid, adding something that is not a tie commutes with rounding. -/
theorem roundTo_add {tol : ℕ} {x a : ℝ} (hx : OnGrid tol x) (ha : ¬ Tie tol a) :
    roundTo tol (x + a) = x + roundTo tol a := by
  obtain ⟨k, rfl⟩ := hx
  have hp := (pow10_pos tol).ne'
  have h1 : rint ((k / 10 ^ tol + a) * 10 ^ tol) = k + rint (a * 10 ^ tol) := by
    apply rint_unique
    have h := rint_near (a * 10 ^ tol)
    have e : ((k + rint (a * 10 ^ tol) : ℤ) : ℝ) - (k / 10 ^ tol + a) * 10 ^ tol
        = (rint (a * 10 ^ tol) : ℝ) - a * 10 ^ tol := by
      push_cast
      rw [add_mul, div_mul_cancel₀ _ hp]; ring
    rw [e]
    refine lt_of_le_of_ne h fun hh => ha ?_
    rcases (abs_eq (by norm_num)).1 hh with h' | h'
    · refine ⟨rint (a * 10 ^ tol) - 1, ?_⟩
      field_simp
      push_cast
      linear_combination (-2) * h'
    · refine ⟨rint (a * 10 ^ tol), ?_⟩
      field_simp
      linear_combination (-2) * h'
  rw [roundTo, h1, roundTo]
  push_cast
  ring

theorem roundTo_mono (tol : ℕ) {x y : ℝ} (h : x ≤ y) : roundTo tol x ≤ roundTo tol y := by
  have hp := pow10_pos tol
  rw [roundTo, roundTo]
  have : rint (x * 10 ^ tol) ≤ rint (y * 10 ^ tol) := rint_mono (by gcongr)
  gcongr

theorem not_tie_of_onGrid {tol : ℕ} {x : ℝ} (h : OnGrid tol x) : ¬ Tie tol x := by
  rintro ⟨k, hk⟩
  obtain ⟨l, rfl⟩ := h
  have hp := (pow10_pos tol).ne'
  rw [div_left_inj' hp] at hk
  have : (2 * (l - k) : ℝ) = 1 := by linarith
  have : (2 * (l - k) : ℤ) = 1 := by exact_mod_cast this
  omega

/-- `x ↦ 2 a - x`. -/
theorem roundTo_sub {tol : ℕ} {x a : ℝ} (hx : OnGrid tol x) (ha : ¬ Tie tol a) :
    roundTo tol (a - x) = roundTo tol a - x := by
  rw [sub_eq_add_neg, add_comm, roundTo_add hx.neg ha]; ring

/-- Two numbers of the grid that differ by less than two units differ by at most one. -/
theorem onGrid_oneUnit {tol : ℕ} {x y : ℝ} (hx : OnGrid tol x) (hy : OnGrid tol y)
    (h : |x - y| < 2 / 10 ^ tol) : |x - y| ≤ 1 / 10 ^ tol := by
  obtain ⟨k, rfl⟩ := hx
  obtain ⟨l, rfl⟩ := hy
  have hp := pow10_pos tol
  have e : (k / 10 ^ tol - l / 10 ^ tol : ℝ) = ((k - l : ℤ) : ℝ) / 10 ^ tol := by push_cast; ring
  rw [e, abs_div, abs_of_pos hp] at h ⊢
  rw [div_lt_div_iff_of_pos_right hp] at h
  rw [div_le_div_iff_of_pos_right hp]
  have h' : |k - l| < 2 := by exact_mod_cast h
  have : |k - l| ≤ 1 := by omega
  exact_mod_cast this

theorem neg_not_tie {tol : ℕ} {x : ℝ} (h : ¬ Tie tol x) : ¬ Tie tol (-x) := by
  rintro ⟨k, hk⟩
  refine h ⟨-k - 1, ?_⟩
  rw [← neg_neg x, hk]; push_cast; ring

theorem roundTo_neg {tol : ℕ} {x : ℝ} (h : ¬ Tie tol x) : roundTo tol (-x) = - roundTo tol x := by
  have e : OnGrid tol 0 := ⟨0, by simp⟩
  have hp := (pow10_pos tol).ne'
  -- the nearest grid number to `-x`
  have h1 : rint (-x * 10 ^ tol) = - rint (x * 10 ^ tol) := by
    apply rint_unique
    have hn := rint_near (x * 10 ^ tol)
    have e : ((-rint (x * 10 ^ tol) : ℤ) : ℝ) - -x * 10 ^ tol
        = -((rint (x * 10 ^ tol) : ℝ) - x * 10 ^ tol) := by push_cast; ring
    rw [e, abs_neg]
    refine lt_of_le_of_ne hn fun hh => h ?_
    rcases (abs_eq (by norm_num)).1 hh with h' | h'
    · refine ⟨rint (x * 10 ^ tol) - 1, ?_⟩
      field_simp
      push_cast
      linear_combination (-2) * h'
    · refine ⟨rint (x * 10 ^ tol), ?_⟩
      field_simp
      linear_combination (-2) * h'
  rw [roundTo, h1, roundTo]
  push_cast
  ring

end SP
