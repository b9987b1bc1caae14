import Verif.Model.Tables
import Verif.Spec.Tables
import Verif.Props.History

/-!
# C66: the printed tables
-/

namespace SP

open Classical Spec

/-- The rows a block adds. -/
noncomputable def blockRows (fmt : ℝ → String) (b : Option (Except PyErr (List ℝ) × List String)) : Rows :=
  match b with
  | some (.ok values, names) => names.zipWith (fun l v => (l, fmt v)) values
  | _ => []

/-- The block does not raise anything but `RuntimeError`. -/
def Quiet (b : Option (Except PyErr (List ℝ) × List String)) : Prop :=
  ∀ e l, b = some (.error e, l) → e = .runtimeError

theorem addBlock_quiet (fmt : ℝ → String) (t : Rows) {b} (h : Quiet b) :
    addBlock fmt t b = .ok (t ++ blockRows fmt b) := by
  match b, h with
  | none, _ => simp [addBlock, blockRows]
  | some (.ok _, _), _ => simp [addBlock, blockRows]
  | some (.error e, l), h =>
    obtain rfl := h e l rfl
    simp [addBlock, blockRows]

theorem foldlM_quiet (fmt : ℝ → String) (bs : List (Option (Except PyErr (List ℝ) × List String)))
    (t : Rows) (h : ∀ b ∈ bs, Quiet b) :
    bs.foldlM (addBlock fmt) t = .ok (t ++ bs.flatMap (blockRows fmt)) := by
  induction bs generalizing t with
  | nil => simp [pure, Except.pure]
  | cons b bs ih =>
    rw [List.foldlM_cons, addBlock_quiet fmt t (h b (by simp))]
    change bs.foldlM (addBlock fmt) _ = _
    rw [ih _ fun b' hb => h b' (by simp [hb])]
    simp

theorem flatMap_forall₂ {α β γ : Type} {f : α → List γ} {g : β → List γ} {l : List α} {m : List β}
    (h : List.Forall₂ (fun a b => f a = g b) l m) : l.flatMap f = m.flatMap g := by
  induction h with
  | nil => rfl
  | cons h _ ih => simp [h, ih]

theorem quiet_get {n : ℕ} {ms : List MatObj} (hm : ms ≠ []) (p : Store n) (e : ERef) (g : Getter) (l) :
    Quiet (some (callGetter g ms p e, l)) := by
  intro e' l' h
  simp only [Option.some.injEq, Prod.mk.injEq] at h
  exact (C32_getters g hm p e).2 e' h.1

theorem quiet_none : Quiet none := nofun

theorem quiet_map {r : Except PyErr (List ℝ)} {l} (f : List ℝ → List ℝ) (h : Quiet (some (r, l))) :
    Quiet (some (r.map f, l)) := by
  intro e' l' he
  simp only [Option.some.injEq, Prod.mk.injEq] at he
  cases r with
  | ok v => cases he.1
  | error e =>
    obtain ⟨h1, h2⟩ := he
    cases h1
    exact h _ _ rfl

theorem effective_eq {n : ℕ} {ms : List MatObj} (hm : ms ≠ []) (p : Store n) :
    effectiveCalls (fun g => callGetter g ms p (.num 1)) =
      if kindOk ms .compositeOnly ∧ (p.val .eEff).isSome ∧ (p.val .gEff).isSome ∧ (p.val .nuEff).isSome
      then .ok [stored p .eEff, stored p .gEff, stored p .nuEff] else .error .runtimeError := by
  unfold effectiveCalls
  simp only [callGetter_eq _ hm, getterKind, getterNeeds, getterValue, getterScaled, List.mem_singleton,
    forall_eq, List.map_cons, List.map_nil, Bool.false_eq_true, if_false]
  by_cases hk : kindOk ms .compositeOnly
  · by_cases h1 : (p.val .eEff).isSome
    · by_cases h2 : (p.val .gEff).isSome
      · by_cases h3 : (p.val .nuEff).isSome
        · simp only [hk, h1, h2, h3]; rfl
        · simp only [hk, h1, h2, h3]; rfl
      · simp only [hk, h1, h2]; rfl
    · simp only [hk, h1]; rfl
  · simp only [hk]; rfl

theorem quiet_effective {n : ℕ} {ms : List MatObj} (hm : ms ≠ []) (p : Store n) (l) :
    Quiet (some (effectiveCalls fun g => callGetter g ms p (.num 1), l)) := by
  intro e' l' h
  simp only [Option.some.injEq, Prod.mk.injEq] at h
  rw [effective_eq hm] at h
  split at h
  · cases h.1
  · exact (Except.error.inj h.1).symm

theorem blockRows_ite {A B : Prop} [Decidable A] [Decidable B] (fmt : ℝ → String) {values : List ℝ} {names : List String} {rows : Rows}
    (h : A ↔ B) (hv : names.zipWith (fun l v => (l, fmt v)) values = rows) :
    blockRows fmt (some (if A then .ok values else .error .runtimeError, names))
      = if B then rows else [] := by
  by_cases hA : A
  · rw [if_pos hA, if_pos (h.1 hA)]; exact hv
  · rw [if_neg hA, if_neg fun hB => hA (h.2 hB)]; rfl

theorem map_ite {A : Prop} [Decidable A] (f : List ℝ → List ℝ) (v : List ℝ) :
    Except.map f (if A then .ok v else .error PyErr.runtimeError : Except PyErr (List ℝ))
      = if A then .ok (f v) else .error .runtimeError := by
  split <;> rfl

theorem block_get {n : ℕ} {ms : List MatObj} (hm : ms ≠ []) (p : Store n) (fmt : ℝ → String) (g : Getter)
    (names : List String) (grp : List Field) (rows : Rows) (hk : kindOk ms (getterKind g))
    (h : (∀ f ∈ getterNeeds g, (p.val f).isSome) ↔ GroupComputed p grp)
    (hv : names.zipWith (fun l v => (l, fmt v)) (getterValue g (stored p) 1) = rows) :
    blockRows fmt (some (callGetter g ms p (.num 1), names)) = if GroupComputed p grp then rows else [] := by
  rw [callGetter_eq g hm]
  exact blockRows_ite fmt ((and_iff_right hk).trans h) hv

theorem block_ratio {n : ℕ} {ms : List MatObj} (hm : ms ≠ []) (p : Store n) (fmt : ℝ → String) (g : Getter)
    (er : ℝ) (names : List String) (grp : List Field) (rows : Rows) (hk : kindOk ms (getterKind g))
    (h : (∀ f ∈ getterNeeds g, (p.val f).isSome) ↔ GroupComputed p grp)
    (hv : names.zipWith (fun l v => (l, fmt v)) ((getterValue g (stored p) 1).map fun v => v / er) = rows) :
    blockRows fmt (some ((callGetter g ms p (.num 1)).map (fun vs => vs.map fun v => v / er), names))
      = if GroupComputed p grp then rows else [] := by
  rw [callGetter_eq g hm, map_ite]
  exact blockRows_ite fmt ((and_iff_right hk).trans h) hv

theorem block_effective {n : ℕ} {ms : List MatObj} (hm : ms ≠ []) (p : Store n) (fmt : ℝ → String)
    (names : List String) (rows : Rows) (hk : kindOk ms .compositeOnly)
    (hv : names.zipWith (fun l v => (l, fmt v)) [stored p .eEff, stored p .gEff, stored p .nuEff] = rows) :
    blockRows fmt (some (effectiveCalls fun g => callGetter g ms p (.num 1), names))
      = if GroupComputed p [.eEff, .gEff, .nuEff] then rows else [] := by
  rw [effective_eq hm]
  exact blockRows_ite fmt ((and_iff_right hk).trans (by
    simp [GroupComputed, alsoNeeds])) hv

theorem needs_iff {n : ℕ} (p : Store n) {l grp : List Field}
    (h1 : ∀ f ∈ grp, f ∈ l ∧ ∀ q ∈ alsoNeeds f, q ∈ l)
    (h2 : ∀ f ∈ l, f ∈ grp ∨ ∃ f' ∈ grp, f ∈ alsoNeeds f') :
    (∀ f ∈ l, (p.val f).isSome) ↔ GroupComputed p grp := by
  constructor
  · intro h f hf
    exact ⟨h f (h1 f hf).1, fun q hq => h q ((h1 f hf).2 q hq)⟩
  · intro h f hf
    rcases h2 f hf with hg | ⟨f', hf', hq⟩
    · exact (h f hg).1
    · exact (h f' hf').2 f hq

theorem none_eq (fmt : ℝ → String) (A : Prop) [Decidable A] :
    blockRows fmt none = if A then [] else [] := by simp [blockRows]

set_option maxHeartbeats 4000000 in
theorem display_eq {n : ℕ} {ms : List MatObj} (hm : ms ≠ []) (p : Store n) (fmt : ℝ → String) :
    displayResults ms p fmt = .ok (displayRows (isComposite ms) p (stored p) fmt) := by
  unfold displayResults
  have hc := isComposite_iff hm
  rw [foldlM_quiet]
  · rw [List.nil_append]
    congr 1
    unfold displayRows tableGroups resultBlocks
    apply flatMap_forall₂
    by_cases hcomp : isComposite ms
    · have hex := hc.1 hcomp
      simp only [hcomp, not_true_eq_false, if_true, if_false]
      repeat' apply List.Forall₂.cons
      all_goals try exact List.Forall₂.nil
      all_goals
        first
        | refine block_effective hm p fmt _ _ hex ?_
          simp [displayName, plasticMomentName, isRigidity, quantityName, shownValue, compositeOnlyField]
        | refine block_get hm p fmt _ _ _ _ (by first | exact hex | trivial)
            (needs_iff p (by decide) (by decide)) ?_
          simp [displayName, plasticMomentName, isRigidity, quantityName, shownValue, compositeOnlyField,
            getterValue, getterNeeds, getterScaled]
    · have hex : ¬ ∃ m ∈ ms, m.val ≠ defaultMaterial := fun h => hcomp (hc.2 h)
      simp only [hcomp, not_false_eq_true, if_true, if_false]
      repeat' apply List.Forall₂.cons
      all_goals try exact List.Forall₂.nil
      all_goals
        first
        | exact none_eq _ _
        | refine block_get hm p fmt _ _ _ _ (by first | exact hex | trivial)
            (needs_iff p (by decide) (by decide)) ?_
          simp [displayName, plasticMomentName, isRigidity, quantityName, shownValue, compositeOnlyField,
            getterValue, getterNeeds, getterScaled]
  · unfold resultBlocks
    by_cases hcomp : isComposite ms <;>
      simp only [hcomp, not_true_eq_false, not_false_eq_true, if_true, if_false, List.forall_mem_cons,
        List.not_mem_nil, false_imp_iff, implies_true, and_true] <;>
      refine ⟨?_, ?_, ?_, ?_, ?_, ?_, ?_, ?_, ?_, ?_, ?_, ?_, ?_, ?_, ?_, ?_, ?_, ?_, ?_, ?_, ?_, ?_, ?_,
        ?_, ?_, ?_, ?_, ?_, ?_, ?_, ?_, ?_⟩ <;>
      first
        | exact quiet_none
        | exact quiet_effective hm p _
        | exact quiet_get hm p _ _ _

set_option maxHeartbeats 4000000 in
theorem transformed_eq {n : ℕ} {ms : List MatObj} (hm : ms ≠ []) (p : Store n) (eRef : ERef)
    (fmt : ℝ → String) (hcomp : isComposite ms) :
    displayTransformed ms p eRef fmt = .ok (
      transformedRows p (stored p) eRef.value fmt (tableGroups.take 3) ++ ("e_ref", fmt eRef.value) ::
      transformedRows p (stored p) eRef.value fmt (tableGroups.drop 3)) := by
  unfold displayTransformed
  have hex := (isComposite_iff hm).1 hcomp
  rw [if_neg (not_not.2 hcomp)]
  dsimp only
  rw [foldlM_quiet]
  · change List.foldlM _ _ _ = _
    rw [foldlM_quiet, List.nil_append, List.append_assoc, List.singleton_append]
    · congr 2
      · unfold transformedRows tableGroups transformedHead
        apply flatMap_forall₂
        simp only [List.take_succ_cons, List.take_zero]
        repeat' apply List.Forall₂.cons
        all_goals try exact List.Forall₂.nil
        all_goals
          refine block_get hm p fmt _ _ _ _ (by first | exact hex | trivial)
            (needs_iff p (by decide) (by decide)) ?_
          simp [transformedName, plasticMomentName, isRigidity, quantityName, shownValue,
            getterValue, getterNeeds, getterScaled]
      · congr 1
        unfold transformedRows tableGroups transformedTail
        apply flatMap_forall₂
        simp only [List.drop_succ_cons, List.drop_zero]
        repeat' apply List.Forall₂.cons
        all_goals try exact List.Forall₂.nil
        all_goals
          first
          | refine block_effective hm p fmt _ _ hex ?_
            simp [transformedName, plasticMomentName, isRigidity, quantityName, shownValue]
          | refine block_ratio hm p fmt _ _ _ _ _ (by first | exact hex | trivial)
              (needs_iff p (by decide) (by decide)) ?_
            simp [transformedName, plasticMomentName, isRigidity, quantityName, shownValue,
              getterValue, getterNeeds, getterScaled]
          | refine block_get hm p fmt _ _ _ _ (by first | exact hex | trivial)
              (needs_iff p (by decide) (by decide)) ?_
            simp [transformedName, plasticMomentName, isRigidity, quantityName, shownValue,
              getterValue, getterNeeds, getterScaled]
    · unfold transformedTail
      simp only [List.forall_mem_cons, List.not_mem_nil, false_imp_iff, implies_true, and_true]
      refine ⟨?_, ?_, ?_, ?_, ?_, ?_, ?_, ?_, ?_, ?_, ?_, ?_, ?_, ?_, ?_, ?_, ?_, ?_, ?_, ?_, ?_, ?_, ?_,
        ?_, ?_, ?_, ?_, ?_, ?_⟩ <;>
      first
        | exact quiet_effective hm p _
        | exact quiet_get hm p _ _ _
        | exact quiet_map _ (quiet_get hm p _ _ _)
  · unfold transformedHead
    simp only [List.forall_mem_cons, List.not_mem_nil, false_imp_iff, implies_true, and_true]
    exact ⟨quiet_get hm p _ _ _, quiet_get hm p _ _ _, quiet_get hm p _ _ _⟩

/-! ### The theorems -/

/-- **C66** (1).  On a section with at least one part, `display_results` never raises; its table shows, in
the documented order and under the documented names, exactly the groups of quantities that have been
computed and that the kind of section has, each with its value. -/
theorem C66_display {n : ℕ} {ms : List MatObj} (hm : ms ≠ []) (p : Store n) (fmt : ℝ → String) :
    displayResults ms p fmt =
      .ok (displayRows (decide (∃ m ∈ ms, m.val ≠ defaultMaterial)) p (fun f => (p.val f).getD 0) fmt) := by
  rw [display_eq hm, decide_eq_decide.2 (isComposite_iff hm)]
  rfl

/-- **C66** (2).  `display_transformed_results` raises `RuntimeError` for a section that is not composite.
For a composite section its table shows the computed quantities and the reference modulus; rigidities are
divided by the reference modulus. -/
theorem C66_transformed {n : ℕ} {ms : List MatObj} (hm : ms ≠ []) (p : Store n) (eRef : ERef)
    (fmt : ℝ → String) :
    ((¬ ∃ m ∈ ms, m.val ≠ defaultMaterial) →
      displayTransformed ms p eRef fmt = .error .runtimeError) ∧
    ((∃ m ∈ ms, m.val ≠ defaultMaterial) →
      displayTransformed ms p eRef fmt = .ok (
        transformedRows p (fun f => (p.val f).getD 0) eRef.value fmt [[.area], [.perimeter], [.mass]] ++
        ("e_ref", fmt eRef.value) ::
        transformedRows p (fun f => (p.val f).getD 0) eRef.value fmt (tableGroups.drop 3))) := by
  constructor
  · intro h
    unfold displayTransformed
    rw [if_pos fun hc => h ((isComposite_iff hm).1 hc)]
  · intro h
    exact transformed_eq hm p eRef fmt ((isComposite_iff hm).2 h)

/-- Every stored quantity stands in the tables, except the three that no getter reports. -/
theorem tableGroups_all (f : Field) : f ∈ tableGroups.flatten ∨ f = .ga ∨ f = .deltaS ∨ f = .aSxy := by
  cases f <;> decide

theorem names_sublist {n : ℕ} (c : Bool) (p : Store n) (v : Field → ℝ) (fmt : ℝ → String)
    (l : List (List Field)) :
    ((l.flatMap fun grp => if GroupComputed p grp then
      (grp.filter fun f => c || !compositeOnlyField f).map fun f =>
        (displayName c f, fmt (shownValue v f)) else []).map Prod.fst).Sublist
      (l.flatten.map (displayName c)) := by
  induction l with
  | nil => simp
  | cons g l ih =>
    rw [List.flatMap_cons, List.map_append, List.flatten_cons, List.map_append]
    refine List.Sublist.append ?_ ih
    split
    · rw [List.map_map]
      exact (List.filter_sublist).map _
    · simp

theorem names_sublist' {n : ℕ} (p : Store n) (v : Field → ℝ) (er : ℝ) (fmt : ℝ → String)
    (l : List (List Field)) :
    ((transformedRows p v er fmt l).map Prod.fst).Sublist (l.flatten.map transformedName) := by
  unfold transformedRows
  induction l with
  | nil => simp
  | cons g l ih =>
    rw [List.flatMap_cons, List.map_append, List.flatten_cons, List.map_append]
    refine List.Sublist.append ?_ ih
    split
    · rw [List.map_map]
      exact List.Sublist.refl _
    · simp

/-- **C66** (3).  No name stands in a table twice, so a name identifies a quantity. -/
theorem C66_names {n : ℕ} {ms : List MatObj} (hm : ms ≠ []) (p : Store n) (eRef : ERef) (fmt : ℝ → String)
    (rows : Rows) :
    (displayResults ms p fmt = .ok rows → (rows.map Prod.fst).Nodup) ∧
    (displayTransformed ms p eRef fmt = .ok rows → (rows.map Prod.fst).Nodup) := by
  constructor
  · intro h
    rw [C66_display hm] at h
    obtain rfl := Except.ok.inj h
    refine (names_sublist _ _ _ _ _).nodup ?_
    generalize decide (∃ m ∈ ms, m.val ≠ defaultMaterial) = c
    cases c <;> decide +kernel
  · intro h
    by_cases hc : ∃ m ∈ ms, m.val ≠ defaultMaterial
    · rw [(C66_transformed hm p eRef fmt).2 hc] at h
      obtain rfl := Except.ok.inj h
      rw [List.map_append, List.map_cons]
      have hs := (names_sublist' p (fun f => (p.val f).getD 0) eRef.value fmt
        [[.area], [.perimeter], [.mass]]).append
        ((names_sublist' p (fun f => (p.val f).getD 0) eRef.value fmt (tableGroups.drop 3)).cons_cons "e_ref")
      exact hs.nodup (by decide +kernel)
    · rw [(C66_transformed hm p eRef fmt).1 hc] at h
      cases h

variable {P : Type} (env : Env P)

/-- **C66** (4).  Once a geometric analysis was called on a section built from a geometry, every later
table shows all quantities of the geometric analysis that the kind of section has, always with the same
values: those shown after a single geometric analysis of a fresh section. -/
theorem C66_geometric (g : GeomIn) (hi : Section.init g = .ok env.sec) (h0 : 0 < env.sec.numNodes)
    (hm : env.sec.materials ≠ []) (h : List Env.Call) (hg : ∃ c ∈ h, Geometric c) (fmt : ℝ → String)
    (f : Field) (hf : f ∈ (tableGroups.take 17).flatten)
    (hk : (∃ m ∈ env.sec.materials, m.val ≠ defaultMaterial) ∨ compositeOnlyField f = false) :
    ∃ rows rows' x, displayResults env.sec.materials (env.after h) fmt = .ok rows ∧
      displayResults env.sec.materials (env.after [.geometric]) fmt = .ok rows' ∧
      (displayName (decide (∃ m ∈ env.sec.materials, m.val ≠ defaultMaterial)) f, fmt x) ∈ rows ∧
      (displayName (decide (∃ m ∈ env.sec.materials, m.val ≠ defaultMaterial)) f, fmt x) ∈ rows' := by
  obtain ⟨r, hr⟩ := geometricAnalysis_ok env.sec h0
  have H1 := after_holdsGeom env g hi hr h hg
  have H2 := after_holdsGeom env g hi hr [.geometric] ⟨_, List.mem_singleton.2 rfl, trivial⟩
  have hall : ∀ q ∈ (tableGroups.take 17).flatten, q ∈ (geomValues env.perimeter r).map Prod.fst := by
    intro q hq
    cases q <;> first
      | (exfalso; revert hq; decide)
      | simp [geomValues]
  have same : ∀ q ∈ (tableGroups.take 17).flatten, ∃ x, (env.after h).val q = some x ∧
      (env.after [.geometric]).val q = some x := by
    intro q hq
    obtain ⟨p, hp, rfl⟩ := List.mem_map.1 (hall q hq)
    exact ⟨p.2, H1 p hp, H2 p hp⟩
  have hplain : ∀ q ∈ (tableGroups.take 17).flatten, alsoNeeds q = [] ∧ ∀ v, shownValue v q = v q := by
    intro q hq
    cases q <;> first
      | (exfalso; revert hq; decide)
      | exact ⟨rfl, fun _ => rfl⟩
  obtain ⟨grp, hgrp, hfg⟩ := List.mem_flatten.1 hf
  obtain ⟨x, e1, e2⟩ := same f hf
  have hin : ∀ q ∈ grp, q ∈ (tableGroups.take 17).flatten := fun q hq =>
    List.mem_flatten.2 ⟨grp, hgrp, hq⟩
  have hmem : ∀ s : Store env.sec.numNodes, s.val f = some x →
      (∀ q ∈ (tableGroups.take 17).flatten, (s.val q).isSome) →
      (displayName (decide (∃ m ∈ env.sec.materials, m.val ≠ defaultMaterial)) f, fmt x) ∈
        displayRows (decide (∃ m ∈ env.sec.materials, m.val ≠ defaultMaterial)) s
          (fun f => (s.val f).getD 0) fmt := by
    intro s hs hsome
    unfold displayRows
    rw [List.mem_flatMap]
    refine ⟨grp, List.mem_of_mem_take hgrp, ?_⟩
    rw [if_pos]
    · rw [List.mem_map]
      refine ⟨f, List.mem_filter.2 ⟨hfg, ?_⟩, ?_⟩
      · rcases hk with hk | hk
        · simp only [hk, decide_true, Bool.true_or]
        · simp only [hk, Bool.not_false, Bool.or_true]
      · rw [(hplain f hf).2, hs]; rfl
    · intro q hq
      refine ⟨hsome q (hin q hq), ?_⟩
      rw [(hplain q (hin q hq)).1]
      simp
  refine ⟨_, _, x, C66_display hm _ fmt, C66_display hm _ fmt, hmem _ e1 ?_, hmem _ e2 ?_⟩
  · intro q hq
    obtain ⟨y, e, -⟩ := same q hq
    simp [e]
  · intro q hq
    obtain ⟨y, -, e⟩ := same q hq
    simp [e]

/-- The hypotheses are met, with rows present and rows missing: a plain section of which only the area
and the first moments are known. -/
example (fmt : ℝ → String) :
    displayResults (n := 3) [⟨0, defaultMaterial⟩]
      ⟨fun f => if f = .area then some 7 else if f = .qx then some 1 else if f = .qy then some 2 else none,
        none, none, none⟩ fmt = .ok [("area", fmt 7), ("qx", fmt 1), ("qy", fmt 2)] := by
  rw [C66_display (by simp)]
  simp [displayRows, tableGroups, GroupComputed, alsoNeeds, displayName, quantityName, shownValue,
    compositeOnlyField]

/-- A composite section: the first moments are rigidities. -/
example (fmt : ℝ → String) :
    displayTransformed (n := 3) [⟨0, defaultMaterial⟩, ⟨1, exSteel⟩]
      ⟨fun f => if f = .area then some 7 else if f = .qx then some 6 else if f = .qy then some 2 else none,
        none, none, none⟩ (.num 2) fmt
      = .ok [("geom area", fmt 7), ("e_ref", fmt 2), ("qx", fmt 3), ("qy", fmt 1)] := by
  rw [(C66_transformed (by simp) _ _ _).2 ⟨⟨1, exSteel⟩, by simp, by simp [exSteel, defaultMaterial]⟩]
  simp [transformedRows, tableGroups, GroupComputed, alsoNeeds, transformedName, quantityName, shownValue,
    plasticMomentName, isRigidity, ERef.value]
  norm_num

/-- A history with a geometric analysis, on the plain example. -/
example (fmt : ℝ → String) := C66_geometric (exEnv exPlain) exPlainGeom exPlain_init
  (by simp [exEnv, exPlain]) (by simp [exEnv, exPlain, exPlainGeom]) [.plastic, .geometric, .plastic]
  ⟨.geometric, by simp, trivial⟩ fmt .ixxC (by decide) (.inr rfl)

end SP
