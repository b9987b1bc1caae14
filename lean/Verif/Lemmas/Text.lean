import Verif.Model.Fibre
import Mathlib.Data.List.Infix
import Mathlib.Tactic.Linarith

/-!
# Replacing words in a text
-/

namespace SP

/-! ### `str.replace` -/

theorem replaceNonempty_fuel {old : Text} (h0 : old ≠ []) (new : Text) : ∀ (k j : ℕ) (t : Text), t.length ≤ k →
    t.length ≤ j → replaceNonempty old new k t = replaceNonempty old new j t
  | 0, 0, _, _, _ => rfl
  | 0, j + 1, t, h, _ => by
    obtain rfl : t = [] := List.length_eq_zero_iff.1 (Nat.le_zero.1 h)
    rfl
  | k + 1, 0, t, _, h => by
    obtain rfl : t = [] := List.length_eq_zero_iff.1 (Nat.le_zero.1 h)
    rfl
  | k + 1, j + 1, [], _, _ => rfl
  | k + 1, j + 1, c :: cs, h, h' => by
    have hl : 1 ≤ old.length := List.length_pos_iff.2 h0
    have e1 : ((c :: cs).drop old.length).length ≤ k := by
      rw [List.length_drop]; simp only [List.length_cons] at h ⊢; omega
    have e2 : ((c :: cs).drop old.length).length ≤ j := by
      rw [List.length_drop]; simp only [List.length_cons] at h' ⊢; omega
    rw [replaceNonempty, replaceNonempty, replaceNonempty_fuel h0 new k j _ e1 e2,
      replaceNonempty_fuel h0 new k j cs (by simpa using h) (by simpa using h')]

theorem replace_nil {old : Text} (h0 : old ≠ []) (new : Text) : pyReplace old new [] = [] := by
  rw [pyReplace, if_neg h0]; rfl

theorem replace_match {old : Text} (h0 : old ≠ []) (new t : Text) :
    pyReplace old new (old ++ t) = new ++ pyReplace old new t := by
  rw [pyReplace, if_neg h0, pyReplace, if_neg h0]
  obtain ⟨c, cs, rfl⟩ := List.exists_cons_of_ne_nil h0
  rw [List.cons_append, List.length_cons, replaceNonempty, if_pos]
  · rw [← List.cons_append, List.drop_left]
    congr 1
    exact replaceNonempty_fuel h0 new _ _ _ (by rw [List.length_append]; omega) le_rfl
  · rw [List.isPrefixOf_iff_prefix, ← List.cons_append]; exact List.prefix_append _ _

theorem replace_cons {old : Text} (h0 : old ≠ []) (new : Text) {c : Char} {t : Text} (h : ¬ old <+: c :: t) :
    pyReplace old new (c :: t) = c :: pyReplace old new t := by
  rw [pyReplace, if_neg h0, pyReplace, if_neg h0, List.length_cons, replaceNonempty, if_neg]
  rwa [List.isPrefixOf_iff_prefix]

/-- A word that cannot reach over a separator. -/
theorem prefix_sep {old a b : Text} {s : Char} (hs : s ∉ old) (h : old <+: a ++ s :: b) : old <+: a := by
  rcases List.prefix_or_prefix_of_prefix h (List.prefix_append a (s :: b)) with h' | h'
  · exact h'
  · obtain ⟨d, hd⟩ := h'
    subst hd
    have h2 := (List.prefix_append_right_inj a).1 h
    cases d with
    | nil => simp
    | cons x d =>
      obtain ⟨e, he⟩ := h2
      rw [List.cons_append, List.cons.injEq] at he
      exact absurd (by rw [he.1]; simp) hs

/-- The text `x` is not changed, whatever follows it. -/
def Fixed (old new x : Text) : Prop := ∀ rest, pyReplace old new (x ++ rest) = x ++ pyReplace old new rest

theorem Fixed.nil (old new : Text) : Fixed old new [] := fun _ => rfl

theorem Fixed.append {old new x y : Text} (hx : Fixed old new x) (hy : Fixed old new y) : Fixed old new (x ++ y) := by
  intro rest
  rw [List.append_assoc, hx, hy, List.append_assoc]

/-- A piece of text without the word, followed by a separator. -/
theorem fixed_sep {old : Text} (h0 : old ≠ []) (new : Text) {s : Char} (hs : s ∉ old) :
    ∀ {w : Text}, ¬ old <:+: w → Fixed old new (w ++ [s])
  | [], _ => by
    intro rest
    rw [List.nil_append, List.singleton_append, List.singleton_append]
    exact replace_cons h0 new fun h => h0 (List.prefix_nil.1 (prefix_sep (a := []) hs h))
  | c :: w, h => by
    intro rest
    have h1 : ¬ old <:+: w := fun h' => h (List.infix_cons h')
    have h2 : ¬ old <+: c :: (w ++ [s] ++ rest) := by
      intro h'
      rw [List.append_assoc, List.singleton_append, ← List.cons_append] at h'
      exact h (prefix_sep hs h').isInfix
    rw [List.cons_append, List.cons_append, replace_cons h0 new h2, fixed_sep h0 new hs h1 rest]
    rfl

/-- The word itself, followed by a separator. -/
theorem replace_word {old : Text} (h0 : old ≠ []) (new : Text) {s : Char} (hs : s ∉ old) (rest : Text) :
    pyReplace old new (old ++ [s] ++ rest) = new ++ [s] ++ pyReplace old new rest := by
  rw [List.append_assoc, replace_match h0]
  have := fixed_sep h0 new hs (w := []) (fun h => h0 (List.infix_nil.1 h)) rest
  rw [List.nil_append] at this
  rw [this, List.append_assoc]

/-- The replacement acts separately on both sides of a separator. -/
theorem replace_sep {old : Text} (h0 : old ≠ []) (new : Text) {s : Char} (hs : s ∉ old) (a rest : Text) :
    pyReplace old new (a ++ [s] ++ rest) = pyReplace old new a ++ [s] ++ pyReplace old new rest := by
  generalize hn : a.length = n
  induction n using Nat.strong_induction_on generalizing a with
  | _ n ih =>
    cases a with
    | nil =>
      have := fixed_sep h0 new hs (w := []) (fun h => h0 (List.infix_nil.1 h)) rest
      rw [replace_nil h0]
      exact this
    | cons c a =>
      by_cases hp : old <+: c :: a
      · obtain ⟨b, hb⟩ := hp
        have hlen : b.length < n := by
          have := congrArg List.length hb
          rw [List.length_append, hn] at this
          have := List.length_pos_iff.2 h0
          omega
        rw [← hb, List.append_assoc, List.append_assoc, replace_match h0, replace_match h0, ← List.append_assoc,
          ih _ hlen b rfl, List.append_assoc, List.append_assoc, List.append_assoc]
      · have hp' : ¬ old <+: c :: (a ++ [s] ++ rest) := by
          intro h'
          rw [List.append_assoc, List.singleton_append, ← List.cons_append] at h'
          exact hp (prefix_sep hs h')
        rw [List.cons_append, List.cons_append, replace_cons h0 new hp', replace_cons h0 new hp,
          ih a.length (by rw [← hn]; simp) a rfl]
        rfl

/-- Text without the word. -/
theorem replace_none {old : Text} (h0 : old ≠ []) (new : Text) : ∀ {w : Text}, ¬ old <:+: w → pyReplace old new w = w
  | [], _ => replace_nil h0 new
  | c :: w, h => by
    rw [replace_cons h0 new fun h' => h h'.isInfix, replace_none h0 new fun h' => h (List.infix_cons h')]

theorem replace_self {old : Text} (h0 : old ≠ []) (new : Text) : pyReplace old new old = new := by
  have := replace_match h0 new []
  rwa [List.append_nil, replace_nil h0, List.append_nil] at this

/-! ### `str.split` and `str.join` -/

theorem pySplit_spec : ∀ (t cur : Text), (∀ c ∈ cur, pySpace c = false) →
    ∀ w ∈ pySplit cur t, w ≠ [] ∧ ∀ c ∈ w, pySpace c = false
  | [], cur, h => by
    intro w hw
    rw [pySplit] at hw
    split at hw
    · cases hw
    · rename_i hne
      rw [List.mem_singleton] at hw
      subst hw
      exact ⟨by simpa using hne, fun c hc => h c (List.mem_reverse.1 hc)⟩
  | x :: t, cur, h => by
    intro w hw
    rw [pySplit] at hw
    split at hw
    · split at hw
      · exact pySplit_spec t [] (by simp) w hw
      · rename_i hne
        rcases List.mem_cons.1 hw with rfl | hw
        · exact ⟨by simpa using hne, fun c hc => h c (List.mem_reverse.1 hc)⟩
        · exact pySplit_spec t [] (by simp) w hw
    · rename_i hx
      refine pySplit_spec t (x :: cur) ?_ w hw
      intro c hc
      rcases List.mem_cons.1 hc with rfl | hc
      · simpa using hx
      · exact h c hc

theorem pyJoin_mem {sep : Text} : ∀ {l : List Text} {c : Char}, c ∈ pyJoin sep l → c ∈ sep ∨ ∃ w ∈ l, c ∈ w
  | [], c, h => by cases h
  | [t], c, h => Or.inr ⟨t, by simp, h⟩
  | t :: u :: l, c, h => by
    rw [pyJoin, List.mem_append, List.mem_append] at h
    · rcases h with (h | h) | h
      · exact Or.inr ⟨t, by simp, h⟩
      · exact Or.inl h
      · rcases pyJoin_mem h with h | ⟨w, hw, h⟩
        · exact Or.inl h
        · exact Or.inr ⟨w, List.mem_cons_of_mem _ hw, h⟩
    · simp

/-- There is no white space in a dashed name. -/
theorem dashed_no_space (name : Text) : ∀ c ∈ dashed name, pySpace c = false := by
  intro c hc
  rcases pyJoin_mem hc with h | ⟨w, hw, h⟩
  · rw [List.mem_singleton] at h; subst h; decide
  · exact (pySplit_spec name [] (by simp) w hw).2 c h

theorem space_not_mem (name : Text) : ' ' ∉ dashed name := fun h => by
  have := dashed_no_space name ' ' h; revert this; decide

theorem newline_not_mem (name : Text) : '\n' ∉ dashed name := fun h => by
  have := dashed_no_space name '\n' h; revert this; decide

/-! ### `str` of integers -/

theorem pyStr_chars (n : ℤ) : ∀ c ∈ pyStr n, c.isDigit = true ∨ c = '-' := by
  have hd : ∀ m : ℕ, ∀ c ∈ Nat.toDigits 10 m, c.isDigit = true := fun m c hc =>
    Nat.isDigit_of_mem_toDigits (by norm_num) (by norm_num) hc
  intro c hc
  rw [pyStr] at hc
  split at hc
  · rcases List.mem_cons.1 hc with rfl | hc
    · exact Or.inr rfl
    · exact Or.inl (hd _ c hc)
  · exact Or.inl (hd _ c hc)

end SP
