import Verif.Props.ConcreteWalls

/-!
# C50: reinforcement of the double lift cores
-/

set_option linter.unusedSimpArgs false
set_option linter.unusedTactic false
set_option linter.unnecessarySeqFocus false

namespace SP
open Spec

/-- As `cover_tac`, for outlines with a central wall. -/
macro "cover_twin" : tactic => `(tactic| (
  intros
  apply hasCover_of_square (by assumption)
  intros
  simp only [rectangleOf, boxOf, twinBoxOf, withDoor, Set.mem_ofPred_eq]
  repeat' apply And.intro
  all_goals first
    | (left
       repeat' apply And.intro
       all_goals first
         | linarith
         | (rintro ⟨_, _, _, _⟩; linarith))
    | (right
       repeat' apply And.intro
       all_goals linarith)
    | (rintro ⟨_, _, _⟩; linarith)))

/-- **C50 (`double_lift_core_a`, two layers; `nib` is the wall between a corner and the nearest door).** -/
theorem C50_double_lift_core_a_double_partial (d b t1 t2 a1 a2 dia s c nib : ℝ) (hs : 0 < s) (hρ : 0 ≤ c + dia / 2)
    (h1 : 2 * (c + dia / 2) ≤ t1) (h2 : 2 * (c + dia / 2) ≤ t2) (hb : 2 * t2 < b)
    (ha : 0 ≤ a1) (hp : 2 * (c + dia / 2) ≤ a2) (hd : 2 * a1 + a2 ≤ d - 2 * t1)
    (hn : nib = (d - 2 * a1 - a2 - 2 * t1) / 2) :
    ∃ ps, doubleLiftCoreABars d b t1 t2 a1 a2 dia s c true = .ok ps ∧
      (∀ p ∈ ps, HasCover (withDoor (withDoor (boxOf b d t1 t2) b t2 (t1 + nib) a1) b t2 (d - t1 - nib - a1) a1) (c + dia / 2) p) ∧
      Row ps s (c + dia / 2) (c + dia / 2) (b - c - dia / 2) ∧
      Row ps s (d - c - dia / 2) (c + dia / 2) (b - c - dia / 2) ∧
      Row ps s (t1 - c - dia / 2) (t2 - c - dia / 2) (b - t2 + c + dia / 2) ∧
      Row ps s (d - t1 + c + dia / 2) (t2 - c - dia / 2) (b - t2 + c + dia / 2) ∧
      Column ps s (c + dia / 2) (c + dia / 2) (d - c - dia / 2) ∧
      Column ps s (t2 - c - dia / 2) (t1 - c - dia / 2) (d - t1 + c + dia / 2) ∧
      Column ps s (b - c - dia / 2) (c + dia / 2) (t1 + nib - c - dia / 2) ∧
      Column ps s (b - c - dia / 2) (d - t1 - nib + c + dia / 2) (d - c - dia / 2) ∧
      Column ps s (b - t2 + c + dia / 2) (t1 - c - dia / 2) (t1 + nib - c - dia / 2) ∧
      Column ps s (b - t2 + c + dia / 2) (d - t1 - nib + c + dia / 2) (d - t1 + c + dia / 2) ∧
      Column ps s (b - c - dia / 2) ((d - a2) / 2 + c + dia / 2) ((d + a2) / 2 - c - dia / 2) ∧
      Column ps s (b - t2 + c + dia / 2) ((d - a2) / 2 + c + dia / 2) ((d + a2) / 2 - c - dia / 2) := by
  unfold doubleLiftCoreABars
  rw [if_neg (not_lt.mpr hd)]
  simp only [half_mul, if_true, if_false, Bool.false_eq_true]
  simp only [← hn]
  rw [wallRun_ok hs (by linarith), wallRun_ok hs (by linarith), wallRun_ok hs (by linarith), wallRun_ok hs (by linarith), wallRun_ok hs (by linarith), wallRun_ok hs (by linarith), wallRun_ok hs (by linarith), wallRun_ok hs (by linarith), wallRun_ok hs (by linarith)]
  refine ⟨_, rfl, ?_, ?_, ?_, ?_, ?_, ?_, ?_, ?_, ?_, ?_, ?_, ?_, ?_⟩
  · simp only [List.forall_mem_append, and_assoc]
    refine ⟨forall_gridXY (within_run (by linarith)) ?_,
      forall_gridXY (within_run (by linarith)) ?_,
      forall_col (within_run (by linarith)).inner ?_,
      forall_col (within_run (by linarith)).inner ?_,
      forall_col_inner (within_run (by linarith)) (within_run (by linarith)) ?_ ?_,
      forall_col_inner (within_run (by linarith)) (within_run (by linarith)) ?_ ?_,
      forall_gridYX (within_run (by linarith)) ?_⟩
    all_goals try simp only [List.forall_mem_cons, List.not_mem_nil, false_implies, implies_true, and_true]
    all_goals repeat' apply And.intro
    all_goals cover_tac
  · exact spaced_run (l := b - 2 * c - dia) hs (by linarith) (by linarith) fun x hx => by placed [hx]
  · exact spaced_run (l := b - 2 * c - dia) hs (by linarith) (by linarith) fun x hx => by placed [hx]
  · exact spaced_run (l := b - 2 * t2 + 2 * c + dia) hs (by linarith) (by linarith) fun x hx => by placed [hx]
  · exact spaced_run (l := b - 2 * t2 + 2 * c + dia) hs (by linarith) (by linarith) fun x hx => by placed [hx]
  · refine spaced_inner (l := d - 2 * c - dia) hs (by linarith) (by linarith) ?_ ?_ (fun x hx => by placed [hx]) <;> placed [or_self]
  · refine spaced_inner (l := d - 2 * t1 + 2 * c + dia) hs (by linarith) (by linarith) ?_ ?_ (fun x hx => by placed [hx]) <;> placed [or_self]
  · refine spaced_left (l := nib + t1 - 2 * c - dia) hs (by linarith) (by linarith) (l' := nib + t1 - 2 * c - dia) (start' := d - t1 - nib + c + dia / 2)
      (stop' := d - c - dia / 2) (by linarith) (by linarith) ?_ (fun x hx => by placed [hx]) <;> placed [run_stop (l := b - 2 * c - dia) (start := c + dia / 2) (stop := b - c - dia / 2) hs (by linarith) (by linarith)]
  · refine spaced_right (l := nib + t1 - 2 * c - dia) hs (by linarith) (by linarith) (l' := nib + t1 - 2 * c - dia) (start' := c + dia / 2)
      (stop' := t1 + nib - c - dia / 2) (by linarith) (by linarith) ?_ (fun x hx => by placed [hx]) <;> placed [run_stop (l := b - 2 * c - dia) (start := c + dia / 2) (stop := b - c - dia / 2) hs (by linarith) (by linarith)]
  · refine spaced_left (l := nib) hs (by linarith) (by linarith) (l' := nib) (start' := d - t1 - nib + c + dia / 2)
      (stop' := d - t1 + c + dia / 2) (by linarith) (by linarith) ?_ (fun x hx => by placed [hx]) <;> placed [run_stop (l := b - 2 * t2 + 2 * c + dia) (start := t2 - c - dia / 2) (stop := b - t2 + c + dia / 2) hs (by linarith) (by linarith)]
  · refine spaced_right (l := nib) hs (by linarith) (by linarith) (l' := nib) (start' := t1 - c - dia / 2)
      (stop' := t1 + nib - c - dia / 2) (by linarith) (by linarith) ?_ (fun x hx => by placed [hx]) <;> placed [run_stop (l := b - 2 * t2 + 2 * c + dia) (start := t2 - c - dia / 2) (stop := b - t2 + c + dia / 2) hs (by linarith) (by linarith)]
  · exact spaced_run (l := a2 - 2 * c - dia) hs (by linarith) (by linarith) fun x hx => by placed [hx]
  · exact spaced_run (l := a2 - 2 * c - dia) hs (by linarith) (by linarith) fun x hx => by placed [hx]

/-- **C50 (`double_lift_core_a`, one layer).** -/
theorem C50_double_lift_core_a_single_partial (d b t1 t2 a1 a2 dia s c nib : ℝ) (hs : 0 < s) (hρ : 0 ≤ c + dia / 2)
    (h1 : 2 * (c + dia / 2) ≤ t1) (h2 : 2 * (c + dia / 2) ≤ t2) (hb : 2 * t2 < b)
    (ha : 0 ≤ a1) (hp : 2 * (c + dia / 2) ≤ a2) (hd : 2 * a1 + a2 ≤ d - 2 * t1)
    (hn : nib = (d - 2 * a1 - a2 - 2 * t1) / 2) :
    ∃ ps, doubleLiftCoreABars d b t1 t2 a1 a2 dia s c false = .ok ps ∧
      (∀ p ∈ ps, HasCover (withDoor (withDoor (boxOf b d t1 t2) b t2 (t1 + nib) a1) b t2 (d - t1 - nib - a1) a1) (c + dia / 2) p) ∧
      Row ps s (t1 / 2) (t2 / 2) (b - t2 / 2) ∧
      Row ps s (d - t1 / 2) (t2 / 2) (b - t2 / 2) ∧
      Column ps s (t2 / 2) (t1 / 2) (d - t1 / 2) ∧
      Column ps s (b - t2 / 2) (t1 / 2) (t1 + nib - c - dia / 2) ∧
      Column ps s (b - t2 / 2) (d - t1 - nib + c + dia / 2) (d - t1 / 2) ∧
      Column ps s (b - t2 / 2) ((d - a2) / 2 + c + dia / 2) ((d + a2) / 2 - c - dia / 2) := by
  unfold doubleLiftCoreABars
  rw [if_neg (not_lt.mpr hd)]
  simp only [half_mul, if_true, if_false, Bool.false_eq_true]
  simp only [← hn]
  rw [wallRun_ok hs (by linarith), wallRun_ok hs (by linarith), wallRun_ok hs (by linarith), wallRun_ok hs (by linarith), wallRun_ok hs (by linarith)]
  refine ⟨_, rfl, ?_, ?_, ?_, ?_, ?_, ?_, ?_⟩
  · simp only [List.forall_mem_append, and_assoc]
    refine ⟨forall_row (within_run (by linarith)) ?_,
      forall_row (within_run (by linarith)) ?_,
      forall_col (within_run (by linarith)).inner ?_,
      forall_col (within_run (by linarith)).tail ?_,
      forall_col (within_run (by linarith)).init ?_,
      forall_col (within_run (by linarith)) ?_⟩
    all_goals try simp only [List.forall_mem_cons, List.not_mem_nil, false_implies, implies_true, and_true]
    all_goals repeat' apply And.intro
    all_goals cover_tac
  · exact spaced_run (l := b - t2) hs (by linarith) (by linarith) fun x hx => by placed [hx]
  · exact spaced_run (l := b - t2) hs (by linarith) (by linarith) fun x hx => by placed [hx]
  · refine spaced_inner (l := d - t1) hs (by linarith) (by linarith) ?_ ?_ (fun x hx => by placed [hx]) <;> placed [or_self]
  · refine spaced_tail (l := nib + t1 / 2) hs (by linarith) (by linarith) ?_ (fun x hx => by placed [hx]) <;> placed [run_stop (l := b - t2) (start := t2 / 2) (stop := b - t2 / 2) hs (by linarith) (by linarith)]
  · refine spaced_init (l := nib + t1 / 2) hs (by linarith) (by linarith) ?_ (fun x hx => by placed [hx]) <;> placed [run_stop (l := b - t2) (start := t2 / 2) (stop := b - t2 / 2) hs (by linarith) (by linarith)]
  · exact spaced_run (l := a2 - 2 * c - dia) hs (by linarith) (by linarith) fun x hx => by placed [hx]

/-- **C50 (`double_lift_core_b`, one layer; the layer of the central wall lies between those of the walls it joins).** -/
theorem C50_double_lift_core_b_single_partial (d b t1 t2 t3 a dia s c nib a2 : ℝ) (hs : 0 < s) (hρ : 0 ≤ c + dia / 2)
    (h1 : 2 * (c + dia / 2) ≤ t1) (h2 : 2 * (c + dia / 2) ≤ t2) (h3 : 2 * (c + dia / 2) ≤ t3)
    (hb : 2 * t2 < b) (ha : 0 ≤ a) (hd : a ≤ (d - 2 * t1 - t3) / 2)
    (hn : nib = 1 / 4 * (d - 2 * t1 - 2 * a - t3)) (hp : a2 = 2 * nib + t3) :
    ∃ ps, doubleLiftCoreBBars d b t1 t2 t3 a dia s c false = .ok ps ∧
      (∀ p ∈ ps, HasCover (withDoor (withDoor (twinBoxOf b d t1 t2 t3) b t2 (t1 + nib) a) b t2 (d - t1 - nib - a) a) (c + dia / 2) p) ∧
      Row ps s (t1 / 2) (t2 / 2) (b - t2 / 2) ∧
      Row ps s (d - t1 / 2) (t2 / 2) (b - t2 / 2) ∧
      Column ps s (t2 / 2) (t1 / 2) (d - t1 / 2) ∧
      RowBetween ps s (d / 2) (t2 / 2) (b - t2 / 2) ∧
      Column ps s (b - t2 / 2) (t1 / 2) (t1 + nib - c - dia / 2) ∧
      Column ps s (b - t2 / 2) (d - t1 - nib + c + dia / 2) (d - t1 / 2) ∧
      Column ps s (b - t2 / 2) ((d - a2) / 2 + c + dia / 2) ((d + a2) / 2 - c - dia / 2) := by
  unfold doubleLiftCoreBBars
  rw [if_neg (not_lt.mpr (by linarith))]
  simp only [half_mul, if_true, if_false, Bool.false_eq_true]
  simp only [← hn, ← hp]
  rw [wallRun_ok hs (by linarith), wallRun_ok hs (by linarith), wallRun_ok hs (by linarith), wallRun_ok hs (by linarith), wallRun_ok hs (by linarith)]
  refine ⟨_, rfl, ?_, ?_, ?_, ?_, ?_, ?_, ?_, ?_⟩
  · simp only [List.forall_mem_append, and_assoc]
    refine ⟨forall_row (within_run (by linarith)) ?_,
      forall_row (within_run (by linarith)).inner ?_,
      forall_row (within_run (by linarith)) ?_,
      forall_col (within_run (by linarith)).inner ?_,
      forall_col (within_run (by linarith)).tail ?_,
      forall_col (within_run (by linarith)).init ?_,
      forall_col (within_run (by linarith)) ?_⟩
    all_goals try simp only [List.forall_mem_cons, List.not_mem_nil, false_implies, implies_true, and_true]
    all_goals repeat' apply And.intro
    all_goals cover_twin
  · exact spaced_run (l := b - t2) hs (by linarith) (by linarith) fun x hx => by placed [hx]
  · exact spaced_run (l := b - t2) hs (by linarith) (by linarith) fun x hx => by placed [hx]
  · refine spaced_inner (l := d - t1) hs (by linarith) (by linarith) ?_ ?_ (fun x hx => by placed [hx]) <;> placed [or_self]
  · refine spaced_inner (l := b - t2) hs (by linarith) (by linarith) (Or.inr (Or.inl rfl)) (Or.inr (Or.inr rfl)) (fun x hx => Or.inl ?_)
    placed [hx]
  · refine spaced_tail (l := nib + t1 / 2) hs (by linarith) (by linarith) ?_ (fun x hx => by placed [hx]) <;> placed [run_stop (l := b - t2) (start := t2 / 2) (stop := b - t2 / 2) hs (by linarith) (by linarith)]
  · refine spaced_init (l := nib + t1 / 2) hs (by linarith) (by linarith) ?_ (fun x hx => by placed [hx]) <;> placed [run_stop (l := b - t2) (start := t2 / 2) (stop := b - t2 / 2) hs (by linarith) (by linarith)]
  · exact spaced_run (l := a2 - 2 * c - dia) hs (by linarith) (by linarith) fun x hx => by placed [hx]

set_option maxHeartbeats 2000000 in
/-- **C50 (`double_lift_core_b`, two layers; all faces but the inner face of the wall between the doors, for
which see `C50_double_lift_core_b_violated`).** -/
theorem C50_double_lift_core_b_double_partial (d b t1 t2 t3 a dia s c nib a2 : ℝ) (hs : 0 < s) (hρ : 0 ≤ c + dia / 2)
    (h1 : 2 * (c + dia / 2) ≤ t1) (h2 : 2 * (c + dia / 2) ≤ t2) (h3 : 2 * (c + dia / 2) ≤ t3)
    (hb : 2 * t2 < b) (ha : 0 ≤ a) (hd : a ≤ (d - 2 * t1 - t3) / 2)
    (hn : nib = 1 / 4 * (d - 2 * t1 - 2 * a - t3)) (hp : a2 = 2 * nib + t3)
    (hs2 : 2 * (c + dia / 2) < nib + 2 * s) :
    ∃ ps, doubleLiftCoreBBars d b t1 t2 t3 a dia s c true = .ok ps ∧
      (∀ p ∈ ps, HasCover (withDoor (withDoor (twinBoxOf b d t1 t2 t3) b t2 (t1 + nib) a) b t2 (d - t1 - nib - a) a) (c + dia / 2) p) ∧
      Row ps s (c + dia / 2) (c + dia / 2) (b - c - dia / 2) ∧
      Row ps s (d - c - dia / 2) (c + dia / 2) (b - c - dia / 2) ∧
      Row ps s (t1 - c - dia / 2) (t2 - c - dia / 2) (b - t2 + c + dia / 2) ∧
      Row ps s ((d - t3) / 2 + c + dia / 2) (t2 - c - dia / 2) (b - t2 + c + dia / 2) ∧
      Row ps s ((d + t3) / 2 - c - dia / 2) (t2 - c - dia / 2) (b - t2 + c + dia / 2) ∧
      Row ps s (d - t1 + c + dia / 2) (t2 - c - dia / 2) (b - t2 + c + dia / 2) ∧
      Column ps s (c + dia / 2) (c + dia / 2) (d - c - dia / 2) ∧
      Column ps s (t2 - c - dia / 2) (t1 - c - dia / 2) ((d - t3) / 2 + c + dia / 2) ∧
      Column ps s (t2 - c - dia / 2) ((d + t3) / 2 - c - dia / 2) (d - t1 + c + dia / 2) ∧
      Column ps s (b - c - dia / 2) (c + dia / 2) (t1 + nib - c - dia / 2) ∧
      Column ps s (b - c - dia / 2) (d - t1 - nib + c + dia / 2) (d - c - dia / 2) ∧
      Column ps s (b - t2 + c + dia / 2) (t1 - c - dia / 2) (t1 + nib - c - dia / 2) ∧
      Column ps s (b - t2 + c + dia / 2) (d - t1 - nib + c + dia / 2) (d - t1 + c + dia / 2) ∧
      Column ps s (b - c - dia / 2) ((d - a2) / 2 + c + dia / 2) ((d + a2) / 2 - c - dia / 2) := by
  unfold doubleLiftCoreBBars
  rw [if_neg (not_lt.mpr (by linarith))]
  simp only [half_mul, if_true, if_false, Bool.false_eq_true]
  simp only [← hn, ← hp]
  rw [wallRun_ok hs (by linarith), wallRun_ok hs (by linarith), wallRun_ok hs (by linarith), wallRun_ok hs (by linarith), wallRun_ok hs (by linarith), wallRun_ok hs (by linarith), wallRun_ok hs (by linarith), wallRun_ok hs (by linarith), wallRun_ok hs (by linarith), wallRun_ok hs (by linarith)]
  have hor : ((d - a2) / 2 + c + dia / 2 ≤ d / 2 - c - dia / 2 ∨ nib - 2 * c - dia ≤ 0) ∧
      (d / 2 + c + dia / 2 ≤ (d + a2) / 2 - c - dia / 2 ∨ nib - 2 * c - dia ≤ 0) := by
    rcases le_total (2 * (c + dia / 2)) nib with h | h
    · exact ⟨Or.inl (by linarith), Or.inl (by linarith)⟩
    · exact ⟨Or.inr (by linarith), Or.inr (by linarith)⟩
  obtain ⟨LB, eB, hB, -⟩ := wallRun_within (s := s) (l := nib - 2 * c - dia) (start := (d - a2) / 2 + c + dia / 2)
    (stop := d / 2 - c - dia / 2) hs (by linarith) hor.1
  obtain ⟨LT, eT, -, hT⟩ := wallRun_within (s := s) (l := nib - 2 * c - dia) (start := d / 2 + c + dia / 2)
    (stop := (d + a2) / 2 - c - dia / 2) hs (by linarith) hor.2
  rw [eB, eT]
  refine ⟨_, rfl, ?_, ?_, ?_, ?_, ?_, ?_, ?_, ?_, ?_, ?_, ?_, ?_, ?_, ?_, ?_⟩
  · simp only [List.forall_mem_append, and_assoc]
    refine ⟨forall_gridXY (within_run (by linarith)) ?_,
      forall_gridXY (within_run (by linarith)) ?_,
      forall_col (within_run (by linarith)).inner ?_,
      forall_col2 (within_run (by linarith)).inner (within_run (by linarith)).inner ?_ ?_,
      forall_col_inner (within_run (by linarith)) (within_run (by linarith)) ?_ ?_,
      forall_col_inner (within_run (by linarith)) (within_run (by linarith)) ?_ ?_,
      forall_col (within_run (by linarith)) ?_,
      forall_col2 hB hT ?_ ?_⟩
    all_goals try simp only [List.forall_mem_cons, List.not_mem_nil, false_implies, implies_true, and_true]
    all_goals repeat' apply And.intro
    all_goals cover_twin
  · exact spaced_run (l := b - 2 * c - dia) hs (by linarith) (by linarith) fun x hx => by placed [hx]
  · exact spaced_run (l := b - 2 * c - dia) hs (by linarith) (by linarith) fun x hx => by placed [hx]
  · exact spaced_run (l := b - 2 * t2 + 2 * c + dia) hs (by linarith) (by linarith) fun x hx => by placed [hx]
  · exact spaced_run (l := b - 2 * t2 + 2 * c + dia) hs (by linarith) (by linarith) fun x hx => by placed [hx]
  · exact spaced_run (l := b - 2 * t2 + 2 * c + dia) hs (by linarith) (by linarith) fun x hx => by placed [hx]
  · exact spaced_run (l := b - 2 * t2 + 2 * c + dia) hs (by linarith) (by linarith) fun x hx => by placed [hx]
  · refine spaced_inner (l := d - 2 * c - dia) hs (by linarith) (by linarith) ?_ ?_ (fun x hx => by placed [hx]) <;> placed [or_self]
  · refine spaced_inner (l := (d - 2 * t1 - t3) / 2 + 2 * c + dia) hs (by linarith) (by linarith) ?_ ?_ (fun x hx => by placed [hx]) <;> placed [or_self]
  · refine spaced_inner (l := (d - 2 * t1 - t3) / 2 + 2 * c + dia) hs (by linarith) (by linarith) ?_ ?_ (fun x hx => by placed [hx]) <;> placed [or_self]
  · refine spaced_left (l := nib + t1 - 2 * c - dia) hs (by linarith) (by linarith) (l' := nib + t1 - 2 * c - dia) (start' := d - t1 - nib + c + dia / 2)
      (stop' := d - c - dia / 2) (by linarith) (by linarith) ?_ (fun x hx => by placed [hx]) <;> placed [run_stop (l := b - 2 * c - dia) (start := c + dia / 2) (stop := b - c - dia / 2) hs (by linarith) (by linarith)]
  · refine spaced_right (l := nib + t1 - 2 * c - dia) hs (by linarith) (by linarith) (l' := nib + t1 - 2 * c - dia) (start' := c + dia / 2)
      (stop' := t1 + nib - c - dia / 2) (by linarith) (by linarith) ?_ (fun x hx => by placed [hx]) <;> placed [run_stop (l := b - 2 * c - dia) (start := c + dia / 2) (stop := b - c - dia / 2) hs (by linarith) (by linarith)]
  · refine spaced_left (l := nib) hs (by linarith) (by linarith) (l' := nib) (start' := d - t1 - nib + c + dia / 2)
      (stop' := d - t1 + c + dia / 2) (by linarith) (by linarith) ?_ (fun x hx => by placed [hx]) <;> placed [run_stop (l := b - 2 * t2 + 2 * c + dia) (start := t2 - c - dia / 2) (stop := b - t2 + c + dia / 2) hs (by linarith) (by linarith)]
  · refine spaced_right (l := nib) hs (by linarith) (by linarith) (l' := nib) (start' := t1 - c - dia / 2)
      (stop' := t1 + nib - c - dia / 2) (by linarith) (by linarith) ?_ (fun x hx => by placed [hx]) <;> placed [run_stop (l := b - 2 * t2 + 2 * c + dia) (start := t2 - c - dia / 2) (stop := b - t2 + c + dia / 2) hs (by linarith) (by linarith)]
  · exact spaced_run (l := a2 - 2 * c - dia) hs (by linarith) (by linarith) fun x hx => by placed [hx]

end SP
