import Mathlib.Data.Real.Basic
import Mathlib.Data.Set.Basic
import Mathlib.Analysis.SpecialFunctions.Trigonometric.Basic
import Mathlib.Tactic.Linarith

/-!
# Specification of reinforcement layouts

Points are pairs of coordinates.  A concrete outline is a set of points.
-/

namespace SP.Spec

/-- The bar centred at `p` has concrete all round it up to the distance `ρ` from its centre: with `ρ` the clear cover
plus half the bar diameter, a circular bar of that diameter has at least the clear cover in every direction. -/
def HasCover (R : Set (ℝ × ℝ)) (ρ : ℝ) (p : ℝ × ℝ) : Prop :=
  ∀ q : ℝ × ℝ, (q.1 - p.1) ^ 2 + (q.2 - p.2) ^ 2 ≤ ρ ^ 2 → q ∈ R

/-- The positions `S` start at `lo`, end at `hi` and leave no gap larger than `s` in between: from any point of the run
the next bar is at most `s` away. -/
def Spaced (s lo hi : ℝ) (S : Set ℝ) : Prop :=
  lo ∈ S ∧ hi ∈ S ∧ ∀ u, lo ≤ u → u < hi → ∃ v ∈ S, u < v ∧ v ≤ u + s ∧ v ≤ hi

/-- A row of bars at height `y` from `lo` to `hi` at a spacing of at most `s`. -/
def Row (ps : List (ℝ × ℝ)) (s y lo hi : ℝ) : Prop := Spaced s lo hi {x | (x, y) ∈ ps}

/-- A column of bars at `x` from `lo` to `hi` at a spacing of at most `s`. -/
def Column (ps : List (ℝ × ℝ)) (s x lo hi : ℝ) : Prop := Spaced s lo hi {y | (x, y) ∈ ps}

/-- A column of bars at `x` that starts at `lo` and runs up to another layer of bars at height `hi`. -/
def ColumnTo (ps : List (ℝ × ℝ)) (s x lo hi : ℝ) : Prop := Spaced s lo hi ({y | (x, y) ∈ ps} ∪ {hi})

/-- A row of bars at height `y` between two other layers of bars, at `lo` and `hi`. -/
def RowBetween (ps : List (ℝ × ℝ)) (s y lo hi : ℝ) : Prop := Spaced s lo hi ({x | (x, y) ∈ ps} ∪ {lo, hi})

/-- `n` equally spaced values from `lo` to `hi`, both included (`n ≥ 2`). -/
def Even (n : ℕ) (lo hi : ℝ) (l : List ℝ) : Prop :=
  l.length = n ∧ ∀ (i : ℕ) (h : i < l.length), l[i] = lo + (i : ℝ) * ((hi - lo) / ((n : ℝ) - 1))

/-- `n` bars at height `y`: one bar in the middle between `lo` and `hi`, or equally spaced from `lo` to `hi`. -/
def Layer (ps : List (ℝ × ℝ)) (n : ℕ) (y lo hi : ℝ) : Prop :=
  (∀ p ∈ ps, p.2 = y) ∧ (n = 1 → ps = [((lo + hi) / 2, y)]) ∧ (n ≠ 1 → Even n lo hi (ps.map Prod.fst))

/-- The disc of radius `r` round the origin. -/
def discOf (r : ℝ) : Set (ℝ × ℝ) := {p | p.1 ^ 2 + p.2 ^ 2 ≤ r ^ 2}

/-- The point `p` turned by the angle `φ` round the origin. -/
noncomputable def turned (φ : ℝ) (p : ℝ × ℝ) : ℝ × ℝ :=
  (p.1 * Real.cos φ - p.2 * Real.sin φ, p.1 * Real.sin φ + p.2 * Real.cos φ)

/-- The rectangle of width `b` and depth `d` with its lower left corner at the origin. -/
def rectangleOf (b d : ℝ) : Set (ℝ × ℝ) := {p | 0 ≤ p.1 ∧ p.1 ≤ b ∧ 0 ≤ p.2 ∧ p.2 ≤ d}

/-- A channel, open to the right: flanges of thickness `tf` and a web of thickness `tw`. -/
def channelOf (b d tf tw : ℝ) : Set (ℝ × ℝ) :=
  {p | p ∈ rectangleOf b d ∧ ¬ (tw < p.1 ∧ tf < p.2 ∧ p.2 < d - tf)}

/-- A tee: flange of thickness `tf` at the top, a central web of thickness `tw`. -/
def teeOf (b d tf tw : ℝ) : Set (ℝ × ℝ) :=
  {p | p ∈ rectangleOf b d ∧ ¬ (p.1 < (b - tw) / 2 ∧ p.2 < d - tf) ∧ ¬ ((b + tw) / 2 < p.1 ∧ p.2 < d - tf)}

/-- A box with walls of thickness `t1` (top and bottom) and `t2` (left and right). -/
def boxOf (b d t1 t2 : ℝ) : Set (ℝ × ℝ) :=
  {p | p ∈ rectangleOf b d ∧ ¬ (t2 < p.1 ∧ p.1 < b - t2 ∧ t1 < p.2 ∧ p.2 < d - t1)}

/-- A box with a central wall of thickness `t3`. -/
def twinBoxOf (b d t1 t2 t3 : ℝ) : Set (ℝ × ℝ) :=
  {p | p ∈ boxOf b d t1 t2 ∨ (p ∈ rectangleOf b d ∧ (d - t3) / 2 ≤ p.2 ∧ p.2 ≤ (d + t3) / 2)}

/-- What is left of a section after cutting a door of height `a` starting at height `y` through its right hand wall of
thickness `t`. -/
def withDoor (R : Set (ℝ × ℝ)) (b t y a : ℝ) : Set (ℝ × ℝ) :=
  {p | p ∈ R ∧ ¬ (b - t ≤ p.1 ∧ y < p.2 ∧ p.2 < y + a)}

end SP.Spec
