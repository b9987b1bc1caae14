import Verif.Lemmas.Bars

/-!
# C50: reinforcement of walls

`c + dia / 2` is the least distance of a bar centre from the concrete surface.  Every theorem says that the bars are
placed, that each has the clear cover, and that along every face (for two layers) or along the centre line (for one
layer) no gap between neighbouring bars exceeds the spacing `s`, ends and corners included.
-/

set_option linter.unusedSimpArgs false
set_option linter.unusedTactic false
set_option linter.unnecessarySeqFocus false

namespace SP
open Spec

/-- Shows that the square round a bar lies in an outline described by linear inequalities. -/
macro "cover_tac" : tactic => `(tactic| (
  intros
  apply hasCover_of_square (by assumption)
  intros
  simp only [rectangleOf, channelOf, teeOf, boxOf, withDoor, Set.mem_ofPred_eq]
  repeat' apply And.intro
  all_goals first
    | linarith
    | (rintro ⟨_, _, _, _⟩; linarith)
    | (rintro ⟨_, _, _⟩; linarith)
    | (rintro ⟨_, _⟩; linarith)))

/-- Shows that a bar is among those placed. -/
macro "placed" "[" hs:Lean.Parser.Tactic.simpLemma,* "]" : tactic => `(tactic| (
  simp only [Set.mem_ofPred_eq, List.mem_append, mem_rowAt, mem_colAt, mem_gridXY, mem_gridYX, List.mem_cons,
    List.not_mem_nil, runOf_start, $hs,*, true_and, and_true, true_or, or_true, or_false, and_self, forall_const]))

/-- **C50 (`rectangular_wall`).** -/
theorem C50_rectangular_wall_partial (d t dia s c : ℝ) (double : Bool) (hs : 0 < s) (hρ : 0 ≤ c + dia / 2)
    (ht : 2 * (c + dia / 2) ≤ t) (hd : 2 * (c + dia / 2) ≤ d) :
    ∃ ps, rectangularWallBars d t dia s c double = .ok ps ∧
      (∀ p ∈ ps, HasCover (rectangleOf t d) (c + dia / 2) p) ∧
      (double = true → Column ps s (c + dia / 2) (c + dia / 2) (d - c - dia / 2) ∧
        Column ps s (t - c - dia / 2) (c + dia / 2) (d - c - dia / 2)) ∧
      (double = false → Column ps s (t / 2) (c + dia / 2) (d - c - dia / 2)) := by
  unfold rectangularWallBars
  simp only [half_mul]
  rw [wallRun_ok hs (by linarith)]
  refine ⟨_, rfl, ?_, ?_, ?_⟩
  · refine forall_gridYX (within_run (by linarith)) ?_
    cases double <;> simp only [Bool.false_eq_true, if_true, if_false, List.forall_mem_cons, List.not_mem_nil] <;>
    refine ⟨?_, ?_⟩
    · cover_tac
    · nofun
    · cover_tac
    · refine ⟨?_, nofun⟩
      cover_tac
  · rintro rfl
    constructor <;> refine spaced_run (l := d - 2 * c - dia) hs (by linarith) (by linarith) fun y hy => ?_ <;>
      simp only [if_true] <;> placed [hy]
  · rintro rfl
    refine spaced_run (l := d - 2 * c - dia) hs (by linarith) (by linarith) fun y hy => ?_
    simp only [Bool.false_eq_true, if_false]
    placed [hy]

/-- **C50 (`cee_wall`, two layers).** -/
theorem C50_cee_wall_double_partial (d b tf tw dia s c : ℝ) (hs : 0 < s) (hρ : 0 ≤ c + dia / 2)
    (hf : 2 * (c + dia / 2) ≤ tf) (hw : 2 * (c + dia / 2) ≤ tw) (hd : 2 * tf ≤ d) (hb : tw ≤ b) :
    ∃ ps, ceeWallBars d b tf tw dia s c true = .ok ps ∧
      (∀ p ∈ ps, HasCover (channelOf b d tf tw) (c + dia / 2) p) ∧
      Row ps s (c + dia / 2) (c + dia / 2) (b - c - dia / 2) ∧
      Row ps s (d - c - dia / 2) (c + dia / 2) (b - c - dia / 2) ∧
      Column ps s (c + dia / 2) (c + dia / 2) (d - c - dia / 2) ∧
      Row ps s (tf - c - dia / 2) (tw - c - dia / 2) (b - c - dia / 2) ∧
      Row ps s (d - tf + c + dia / 2) (tw - c - dia / 2) (b - c - dia / 2) ∧
      Column ps s (tw - c - dia / 2) (tf - c - dia / 2) (d - tf + c + dia / 2) := by
  unfold ceeWallBars
  simp only [half_mul, if_true, if_false, Bool.false_eq_true]
  rw [wallRun_ok hs (by linarith), wallRun_ok hs (by linarith), wallRun_ok hs (by linarith), wallRun_ok hs (by linarith)]
  refine ⟨_, rfl, ?_, ?_, ?_, ?_, ?_, ?_, ?_⟩
  · simp only [List.forall_mem_append, and_assoc]
    refine ⟨forall_row (within_run (by linarith)) ?_,
      forall_row (within_run (by linarith)) ?_,
      forall_col (within_run (by linarith)).inner ?_,
      forall_row (within_run (by linarith)) ?_,
      forall_row (within_run (by linarith)) ?_,
      forall_col (within_run (by linarith)).inner ?_⟩
    all_goals try simp only [List.forall_mem_cons, List.not_mem_nil, false_implies, implies_true, and_true]
    all_goals repeat' apply And.intro
    all_goals cover_tac
  · exact spaced_run (l := b - 2 * c - dia) hs (by linarith) (by linarith) fun x hx => by placed [hx]
  · exact spaced_run (l := b - 2 * c - dia) hs (by linarith) (by linarith) fun x hx => by placed [hx]
  · refine spaced_inner (l := d - 2 * c - dia) hs (by linarith) (by linarith) ?_ ?_ (fun x hx => by placed [hx]) <;> placed [or_self]
  · exact spaced_run (l := b - tw) hs (by linarith) (by linarith) fun x hx => by placed [hx]
  · exact spaced_run (l := b - tw) hs (by linarith) (by linarith) fun x hx => by placed [hx]
  · refine spaced_inner (l := d - 2 * tf + 2 * c + dia) hs (by linarith) (by linarith) ?_ ?_ (fun x hx => by placed [hx]) <;> placed [or_self]

/-- **C50 (`cee_wall`, one layer).** -/
theorem C50_cee_wall_single_partial (d b tf tw dia s c : ℝ) (hs : 0 < s) (hρ : 0 ≤ c + dia / 2)
    (hf : 2 * (c + dia / 2) ≤ tf) (hw : 2 * (c + dia / 2) ≤ tw) (hd : 2 * tf ≤ d) (hb : tw ≤ b) :
    ∃ ps, ceeWallBars d b tf tw dia s c false = .ok ps ∧
      (∀ p ∈ ps, HasCover (channelOf b d tf tw) (c + dia / 2) p) ∧
      Row ps s (tf / 2) (tw / 2) (b - c - dia / 2) ∧
      Row ps s (d - tf / 2) (tw / 2) (b - c - dia / 2) ∧
      Column ps s (tw / 2) (tf / 2) (d - tf / 2) := by
  unfold ceeWallBars
  simp only [half_mul, if_true, if_false, Bool.false_eq_true]
  rw [wallRun_ok hs (by linarith), wallRun_ok hs (by linarith)]
  refine ⟨_, rfl, ?_, ?_, ?_, ?_⟩
  · simp only [List.forall_mem_append, and_assoc]
    refine ⟨forall_row (within_run (by linarith)) ?_,
      forall_row (within_run (by linarith)) ?_,
      forall_col (within_run (by linarith)).inner ?_⟩
    all_goals try simp only [List.forall_mem_cons, List.not_mem_nil, false_implies, implies_true, and_true]
    all_goals repeat' apply And.intro
    all_goals cover_tac
  · exact spaced_run (l := b - c - dia / 2 - tw / 2) hs (by linarith) (by linarith) fun x hx => by placed [hx]
  · exact spaced_run (l := b - c - dia / 2 - tw / 2) hs (by linarith) (by linarith) fun x hx => by placed [hx]
  · refine spaced_inner (l := d - tf) hs (by linarith) (by linarith) ?_ ?_ (fun x hx => by placed [hx]) <;> placed [or_self]

/-- **C50 (`tee_wall`, two layers).** -/
theorem C50_tee_wall_double_partial (d b tf tw dia s c : ℝ) (hs : 0 < s) (hρ : 0 ≤ c + dia / 2)
    (hf : 2 * (c + dia / 2) ≤ tf) (hw : 2 * (c + dia / 2) ≤ tw) (hd : tf ≤ d) (hb : tw ≤ b) :
    ∃ ps, teeWallBars d b tf tw dia s c true = .ok ps ∧
      (∀ p ∈ ps, HasCover (teeOf b d tf tw) (c + dia / 2) p) ∧
      Row ps s (d - c - dia / 2) (c + dia / 2) (b - c - dia / 2) ∧
      Row ps s (d - tf + c + dia / 2) (c + dia / 2) ((b - tw) / 2 + c + dia / 2) ∧
      Row ps s (d - tf + c + dia / 2) ((b + tw) / 2 - c - dia / 2) (b - c - dia / 2) ∧
      Column ps s ((b - tw) / 2 + c + dia / 2) (c + dia / 2) (d - tf + c + dia / 2) ∧
      Column ps s ((b + tw) / 2 - c - dia / 2) (c + dia / 2) (d - tf + c + dia / 2) := by
  unfold teeWallBars
  simp only [half_mul, if_true, if_false, Bool.false_eq_true]
  rw [wallRun_ok hs (by linarith), wallRun_ok hs (by linarith), wallRun_ok hs (by linarith), wallRun_ok hs (by linarith)]
  refine ⟨_, rfl, ?_, ?_, ?_, ?_, ?_, ?_⟩
  · simp only [List.forall_mem_append, and_assoc]
    refine ⟨forall_row (within_run (by linarith)) ?_,
      forall_row2 (within_run (by linarith)) (within_run (by linarith)) ?_ ?_,
      forall_gridYX (within_run (by linarith)).init ?_⟩
    all_goals try simp only [List.forall_mem_cons, List.not_mem_nil, false_implies, implies_true, and_true]
    all_goals repeat' apply And.intro
    all_goals cover_tac
  · exact spaced_run (l := b - 2 * c - dia) hs (by linarith) (by linarith) fun x hx => by placed [hx]
  · exact spaced_run (l := (b - tw) / 2) hs (by linarith) (by linarith) fun x hx => by placed [hx]
  · exact spaced_run (l := (b - tw) / 2) hs (by linarith) (by linarith) fun x hx => by placed [hx]
  · refine spaced_init (l := d - tf) hs (by linarith) (by linarith) ?_ (fun x hx => by placed [hx]) <;> placed [run_stop (l := (b - tw) / 2) (start := c + dia / 2) (stop := (b - tw) / 2 + c + dia / 2) hs (by linarith) (by linarith)]
  · refine spaced_init (l := d - tf) hs (by linarith) (by linarith) ?_ (fun x hx => by placed [hx]) <;> placed [or_self]

/-- **C50 (`tee_wall`, one layer; the web layer runs up to the flange layer).** -/
theorem C50_tee_wall_single_partial (d b tf tw dia s c : ℝ) (hs : 0 < s) (hρ : 0 ≤ c + dia / 2)
    (hf : 2 * (c + dia / 2) ≤ tf) (hw : 2 * (c + dia / 2) ≤ tw) (hd : tf ≤ d) (hb : tw ≤ b) :
    ∃ ps, teeWallBars d b tf tw dia s c false = .ok ps ∧
      (∀ p ∈ ps, HasCover (teeOf b d tf tw) (c + dia / 2) p) ∧
      Row ps s (d - tf / 2) (c + dia / 2) (b - c - dia / 2) ∧
      ColumnTo ps s (b / 2) (c + dia / 2) (d - tf / 2) := by
  unfold teeWallBars
  simp only [half_mul, if_true, if_false, Bool.false_eq_true]
  rw [wallRun_ok hs (by linarith), wallRun_ok hs (by linarith)]
  refine ⟨_, rfl, ?_, ?_, ?_⟩
  · simp only [List.forall_mem_append, and_assoc]
    refine ⟨forall_row (within_run (by linarith)) ?_,
      forall_col (within_run (by linarith)).init ?_⟩
    all_goals try simp only [List.forall_mem_cons, List.not_mem_nil, false_implies, implies_true, and_true]
    all_goals repeat' apply And.intro
    all_goals cover_tac
  · exact spaced_run (l := b - 2 * c - dia) hs (by linarith) (by linarith) fun x hx => by placed [hx]
  · refine spaced_init (l := d - tf / 2 - c - dia / 2) hs (by linarith) (by linarith) (Or.inr rfl) (fun x hx => Or.inl ?_)
    placed [hx]

/-- **C50 (`single_lift_core`, two layers).** -/
theorem C50_single_lift_core_double_partial (d b t1 t2 a dia s c : ℝ) (hs : 0 < s) (hρ : 0 ≤ c + dia / 2)
    (h1 : 2 * (c + dia / 2) ≤ t1) (h2 : 2 * (c + dia / 2) ≤ t2) (hb : 2 * t2 < b) (ha : 0 ≤ a)
    (hd : a ≤ d - 2 * t1) :
    ∃ ps, singleLiftCoreBars d b t1 t2 a dia s c true = .ok ps ∧
      (∀ p ∈ ps, HasCover (withDoor (boxOf b d t1 t2) b t2 ((d - a) / 2) a) (c + dia / 2) p) ∧
      Row ps s (c + dia / 2) (c + dia / 2) (b - c - dia / 2) ∧
      Row ps s (d - c - dia / 2) (c + dia / 2) (b - c - dia / 2) ∧
      Row ps s (t1 - c - dia / 2) (t2 - c - dia / 2) (b - t2 + c + dia / 2) ∧
      Row ps s (d - t1 + c + dia / 2) (t2 - c - dia / 2) (b - t2 + c + dia / 2) ∧
      Column ps s (c + dia / 2) (c + dia / 2) (d - c - dia / 2) ∧
      Column ps s (t2 - c - dia / 2) (t1 - c - dia / 2) (d - t1 + c + dia / 2) ∧
      Column ps s (b - c - dia / 2) (c + dia / 2) ((d - a) / 2 - c - dia / 2) ∧
      Column ps s (b - c - dia / 2) ((d + a) / 2 + c + dia / 2) (d - c - dia / 2) ∧
      Column ps s (b - t2 + c + dia / 2) (t1 - c - dia / 2) ((d - a) / 2 - c - dia / 2) ∧
      Column ps s (b - t2 + c + dia / 2) ((d + a) / 2 + c + dia / 2) (d - t1 + c + dia / 2) := by
  unfold singleLiftCoreBars
  simp only [half_mul, if_true, if_false, Bool.false_eq_true]
  rw [wallRun_ok hs (by linarith), wallRun_ok hs (by linarith), wallRun_ok hs (by linarith), wallRun_ok hs (by linarith), wallRun_ok hs (by linarith), wallRun_ok hs (by linarith), wallRun_ok hs (by linarith), wallRun_ok hs (by linarith)]
  refine ⟨_, rfl, ?_, ?_, ?_, ?_, ?_, ?_, ?_, ?_, ?_, ?_, ?_⟩
  · simp only [List.forall_mem_append, and_assoc]
    refine ⟨forall_gridXY (within_run (by linarith)) ?_,
      forall_gridXY (within_run (by linarith)) ?_,
      forall_col (within_run (by linarith)).inner ?_,
      forall_col (within_run (by linarith)).inner ?_,
      forall_col_inner (within_run (by linarith)) (within_run (by linarith)) ?_ ?_,
      forall_col_inner (within_run (by linarith)) (within_run (by linarith)) ?_ ?_⟩
    all_goals try simp only [List.forall_mem_cons, List.not_mem_nil, false_implies, implies_true, and_true]
    all_goals repeat' apply And.intro
    all_goals cover_tac
  · exact spaced_run (l := b - 2 * c - dia) hs (by linarith) (by linarith) fun x hx => by placed [hx]
  · exact spaced_run (l := b - 2 * c - dia) hs (by linarith) (by linarith) fun x hx => by placed [hx]
  · exact spaced_run (l := b - 2 * t2 + 2 * c + dia) hs (by linarith) (by linarith) fun x hx => by placed [hx]
  · exact spaced_run (l := b - 2 * t2 + 2 * c + dia) hs (by linarith) (by linarith) fun x hx => by placed [hx]
  · refine spaced_inner (l := d - 2 * c - dia) hs (by linarith) (by linarith) ?_ ?_ (fun x hx => by placed [hx]) <;> placed [or_self]
  · refine spaced_inner (l := d - 2 * t1 + 2 * c + dia) hs (by linarith) (by linarith) ?_ ?_ (fun x hx => by placed [hx]) <;> placed [or_self]
  · refine spaced_left (l := (d - a) / 2 - 2 * c - dia) hs (by linarith) (by linarith) (l' := (d - a) / 2 - 2 * c - dia) (start' := (d + a) / 2 + c + dia / 2)
      (stop' := d - c - dia / 2) (by linarith) (by linarith) ?_ (fun x hx => by placed [hx]) <;> placed [run_stop (l := b - 2 * c - dia) (start := c + dia / 2) (stop := b - c - dia / 2) hs (by linarith) (by linarith)]
  · refine spaced_right (l := (d - a) / 2 - 2 * c - dia) hs (by linarith) (by linarith) (l' := (d - a) / 2 - 2 * c - dia) (start' := c + dia / 2)
      (stop' := (d - a) / 2 - c - dia / 2) (by linarith) (by linarith) ?_ (fun x hx => by placed [hx]) <;> placed [run_stop (l := b - 2 * c - dia) (start := c + dia / 2) (stop := b - c - dia / 2) hs (by linarith) (by linarith)]
  · refine spaced_left (l := (d - a) / 2 - t1) hs (by linarith) (by linarith) (l' := (d - a) / 2 - t1) (start' := (d + a) / 2 + c + dia / 2)
      (stop' := d - t1 + c + dia / 2) (by linarith) (by linarith) ?_ (fun x hx => by placed [hx]) <;> placed [run_stop (l := b - 2 * t2 + 2 * c + dia) (start := t2 - c - dia / 2) (stop := b - t2 + c + dia / 2) hs (by linarith) (by linarith)]
  · refine spaced_right (l := (d - a) / 2 - t1) hs (by linarith) (by linarith) (l' := (d - a) / 2 - t1) (start' := t1 - c - dia / 2)
      (stop' := (d - a) / 2 - c - dia / 2) (by linarith) (by linarith) ?_ (fun x hx => by placed [hx]) <;> placed [run_stop (l := b - 2 * t2 + 2 * c + dia) (start := t2 - c - dia / 2) (stop := b - t2 + c + dia / 2) hs (by linarith) (by linarith)]

/-- **C50 (`single_lift_core`, one layer).** -/
theorem C50_single_lift_core_single_partial (d b t1 t2 a dia s c : ℝ) (hs : 0 < s) (hρ : 0 ≤ c + dia / 2)
    (h1 : 2 * (c + dia / 2) ≤ t1) (h2 : 2 * (c + dia / 2) ≤ t2) (hb : 2 * t2 < b) (ha : 0 ≤ a)
    (hd : a ≤ d - 2 * t1) :
    ∃ ps, singleLiftCoreBars d b t1 t2 a dia s c false = .ok ps ∧
      (∀ p ∈ ps, HasCover (withDoor (boxOf b d t1 t2) b t2 ((d - a) / 2) a) (c + dia / 2) p) ∧
      Row ps s (t1 / 2) (t2 / 2) (b - t2 / 2) ∧
      Row ps s (d - t1 / 2) (t2 / 2) (b - t2 / 2) ∧
      Column ps s (t2 / 2) (t1 / 2) (d - t1 / 2) ∧
      Column ps s (b - t2 / 2) (t1 / 2) ((d - a) / 2 - c - dia / 2) ∧
      Column ps s (b - t2 / 2) ((d + a) / 2 + c + dia / 2) (d - t1 / 2) := by
  unfold singleLiftCoreBars
  simp only [half_mul, if_true, if_false, Bool.false_eq_true]
  rw [wallRun_ok hs (by linarith), wallRun_ok hs (by linarith), wallRun_ok hs (by linarith), wallRun_ok hs (by linarith)]
  refine ⟨_, rfl, ?_, ?_, ?_, ?_, ?_, ?_⟩
  · simp only [List.forall_mem_append, and_assoc]
    refine ⟨forall_row (within_run (by linarith)) ?_,
      forall_row (within_run (by linarith)) ?_,
      forall_col (within_run (by linarith)).inner ?_,
      forall_col (within_run (by linarith)).tail ?_,
      forall_col (within_run (by linarith)).init ?_⟩
    all_goals try simp only [List.forall_mem_cons, List.not_mem_nil, false_implies, implies_true, and_true]
    all_goals repeat' apply And.intro
    all_goals cover_tac
  · exact spaced_run (l := b - t2) hs (by linarith) (by linarith) fun x hx => by placed [hx]
  · exact spaced_run (l := b - t2) hs (by linarith) (by linarith) fun x hx => by placed [hx]
  · refine spaced_inner (l := d - t1) hs (by linarith) (by linarith) ?_ ?_ (fun x hx => by placed [hx]) <;> placed [or_self]
  · refine spaced_tail (l := (d - a) / 2 - t1 / 2 - c - dia / 2) hs (by linarith) (by linarith) ?_ (fun x hx => by placed [hx]) <;> placed [run_stop (l := b - t2) (start := t2 / 2) (stop := b - t2 / 2) hs (by linarith) (by linarith)]
  · refine spaced_init (l := (d - a) / 2 - t1 / 2 - c - dia / 2) hs (by linarith) (by linarith) ?_ (fun x hx => by placed [hx]) <;> placed [run_stop (l := b - t2) (start := t2 / 2) (stop := b - t2 / 2) hs (by linarith) (by linarith)]

/-- **C50 (`stairwell`, two layers).** -/
theorem C50_stairwell_double_partial (d b t1 t2 a dia s c : ℝ) (hs : 0 < s) (hρ : 0 ≤ c + dia / 2)
    (h1 : 2 * (c + dia / 2) ≤ t1) (h2 : 2 * (c + dia / 2) ≤ t2) (hb : 2 * t2 < b) (ha : 0 ≤ a)
    (hd : a ≤ d - 2 * t1) :
    ∃ ps, stairwellBars d b t1 t2 a dia s c true = .ok ps ∧
      (∀ p ∈ ps, HasCover (withDoor (boxOf b d t1 t2) b t2 (d - t1 - a) a) (c + dia / 2) p) ∧
      Row ps s (c + dia / 2) (c + dia / 2) (b - c - dia / 2) ∧
      Row ps s (d - c - dia / 2) (c + dia / 2) (b - c - dia / 2) ∧
      Row ps s (d - t1 + c + dia / 2) (t2 - c - dia / 2) (b - c - dia / 2) ∧
      Row ps s (t1 - c - dia / 2) (t2 - c - dia / 2) (b - t2 + c + dia / 2) ∧
      Column ps s (c + dia / 2) (c + dia / 2) (d - c - dia / 2) ∧
      Column ps s (t2 - c - dia / 2) (t1 - c - dia / 2) (d - t1 + c + dia / 2) ∧
      Column ps s (b - t2 + c + dia / 2) (t1 - c - dia / 2) (d - t1 - a - c - dia / 2) ∧
      Column ps s (b - c - dia / 2) (c + dia / 2) (d - t1 - a - c - dia / 2) := by
  unfold stairwellBars
  simp only [half_mul, if_true, if_false, Bool.false_eq_true]
  rw [wallRun_ok hs (by linarith), wallRun_ok hs (by linarith), wallRun_ok hs (by linarith), wallRun_ok hs (by linarith), wallRun_ok hs (by linarith), wallRun_ok hs (by linarith), wallRun_ok hs (by linarith)]
  refine ⟨_, rfl, ?_, ?_, ?_, ?_, ?_, ?_, ?_, ?_, ?_⟩
  · simp only [List.forall_mem_append, and_assoc]
    refine ⟨forall_gridXY (within_run (by linarith)) ?_,
      forall_row (within_run (by linarith)) ?_,
      forall_row (within_run (by linarith)) ?_,
      forall_col (within_run (by linarith)).inner ?_,
      forall_col (within_run (by linarith)).inner ?_,
      forall_col (within_run (by linarith)).tail ?_,
      forall_col (within_run (by linarith)).tail ?_⟩
    all_goals try simp only [List.forall_mem_cons, List.not_mem_nil, false_implies, implies_true, and_true]
    all_goals repeat' apply And.intro
    all_goals cover_tac
  · exact spaced_run (l := b - 2 * c - dia) hs (by linarith) (by linarith) fun x hx => by placed [hx]
  · exact spaced_run (l := b - 2 * c - dia) hs (by linarith) (by linarith) fun x hx => by placed [hx]
  · exact spaced_run (l := b - t2) hs (by linarith) (by linarith) fun x hx => by placed [hx]
  · exact spaced_run (l := b - 2 * t2 + 2 * c + dia) hs (by linarith) (by linarith) fun x hx => by placed [hx]
  · refine spaced_inner (l := d - 2 * c - dia) hs (by linarith) (by linarith) ?_ ?_ (fun x hx => by placed [hx]) <;> placed [or_self]
  · refine spaced_inner (l := d - 2 * t1 + 2 * c + dia) hs (by linarith) (by linarith) ?_ ?_ (fun x hx => by placed [hx]) <;> placed [or_self]
  · refine spaced_tail (l := d - 2 * t1 - a) hs (by linarith) (by linarith) ?_ (fun x hx => by placed [hx]) <;> placed [run_stop (l := b - 2 * t2 + 2 * c + dia) (start := t2 - c - dia / 2) (stop := b - t2 + c + dia / 2) hs (by linarith) (by linarith)]
  · refine spaced_tail (l := d - t1 - a - c - dia / 2) hs (by linarith) (by linarith) ?_ (fun x hx => by placed [hx]) <;> placed [run_stop (l := b - 2 * c - dia) (start := c + dia / 2) (stop := b - c - dia / 2) hs (by linarith) (by linarith)]

/-- **C50 (`stairwell`, one layer).** -/
theorem C50_stairwell_single_partial (d b t1 t2 a dia s c : ℝ) (hs : 0 < s) (hρ : 0 ≤ c + dia / 2)
    (h1 : 2 * (c + dia / 2) ≤ t1) (h2 : 2 * (c + dia / 2) ≤ t2) (hb : 2 * t2 < b) (ha : 0 ≤ a)
    (hd : a ≤ d - 2 * t1) :
    ∃ ps, stairwellBars d b t1 t2 a dia s c false = .ok ps ∧
      (∀ p ∈ ps, HasCover (withDoor (boxOf b d t1 t2) b t2 (d - t1 - a) a) (c + dia / 2) p) ∧
      Row ps s (t1 / 2) (t2 / 2) (b - t2 / 2) ∧
      Row ps s (d - t1 / 2) (t2 / 2) (b - t2 / 2) ∧
      Column ps s (t2 / 2) (t1 / 2) (d - t1 / 2) ∧
      Column ps s (b - t2 / 2) (t1 / 2) (d - t1 - a - c - dia / 2) := by
  unfold stairwellBars
  simp only [half_mul, if_true, if_false, Bool.false_eq_true]
  rw [wallRun_ok hs (by linarith), wallRun_ok hs (by linarith), wallRun_ok hs (by linarith)]
  refine ⟨_, rfl, ?_, ?_, ?_, ?_, ?_⟩
  · simp only [List.forall_mem_append, and_assoc]
    refine ⟨forall_row (within_run (by linarith)) ?_,
      forall_row (within_run (by linarith)) ?_,
      forall_col (within_run (by linarith)).inner ?_,
      forall_col (within_run (by linarith)).tail ?_⟩
    all_goals try simp only [List.forall_mem_cons, List.not_mem_nil, false_implies, implies_true, and_true]
    all_goals repeat' apply And.intro
    all_goals cover_tac
  · exact spaced_run (l := b - t2) hs (by linarith) (by linarith) fun x hx => by placed [hx]
  · exact spaced_run (l := b - t2) hs (by linarith) (by linarith) fun x hx => by placed [hx]
  · refine spaced_inner (l := d - t1) hs (by linarith) (by linarith) ?_ ?_ (fun x hx => by placed [hx]) <;> placed [or_self]
  · refine spaced_tail (l := d - 3 / 2 * t1 - a - c - dia / 2) hs (by linarith) (by linarith) ?_ (fun x hx => by placed [hx]) <;> placed [run_stop (l := b - t2) (start := t2 / 2) (stop := b - t2 / 2) hs (by linarith) (by linarith)]

end SP
