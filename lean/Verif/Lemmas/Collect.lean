import Verif.Lemmas.Rings

/-!
# The ring collecting loop of `from_points`
-/

namespace SP

open Spec

/-- Appending several points to the active list. -/
def Collect.appendAll (s : Collect) (l : List Pt) : Collect :=
  match s.active with
  | none => { s with exterior := s.exterior ++ l }
  | some k => { s with interiors := s.interiors.modify k (· ++ l) }

theorem modify_modify (l : List (List Pt)) (k : ℕ) (a b : List Pt) :
    (l.modify k (· ++ a)).modify k (· ++ b) = l.modify k (· ++ (a ++ b)) := by
  apply List.ext_getElem?
  intro i
  simp only [List.getElem?_modify]
  by_cases h : k = i <;> simp [h, Function.comp_def]

theorem appendAll_append (s : Collect) (p : Pt) (l : List Pt) (f : Option (ℕ × ℕ)) :
    ({ s.append p with prev := f } : Collect).appendAll l = { s.appendAll (p :: l) with prev := f } := by
  obtain ⟨e, is, a, c, pr⟩ := s
  cases a with
  | none => simp [Collect.append, Collect.appendAll]
  | some k => simp [Collect.append, Collect.appendAll, modify_modify]

theorem set_prev_prev (s : Collect) (f g : Option (ℕ × ℕ)) :
    ({ ({ s with prev := f } : Collect) with prev := g } : Collect) = { s with prev := g } := rfl

theorem appendAll_prev (s : Collect) (l : List Pt) (f : Option (ℕ × ℕ)) :
    ({ s with prev := f } : Collect).appendAll l = { s.appendAll l with prev := f } := by
  obtain ⟨e, is, a, c, pr⟩ := s
  cases a <;> rfl

theorem modify_nil (l : List (List Pt)) (k : ℕ) : l.modify k (· ++ []) = l := by
  apply List.ext_getElem?
  intro i
  simp [List.getElem?_modify]

theorem appendAll_nil (s : Collect) : s.appendAll [] = s := by
  obtain ⟨e, is, a, c, pr⟩ := s
  cases a with
  | none => simp [Collect.appendAll]
  | some k => simp only [Collect.appendAll, modify_nil]

/-- The points of one ring are appended to the active list, from the second facet of the ring on. -/
theorem foldlM_chain (pts : List Pt) (nH S : ℕ) (n : ℕ) : ∀ (m i : ℕ) (l : List Pt) (s : Collect) (a : ℕ),
    i + m = n → l.length = m → (∀ j, j < m → pts[S + i + j]? = l[j]?) → s.prev = some (a, S + i % n) → 0 < i →
    ((List.range' i m).map fun j => (S + j, S + (j + 1) % n)).foldlM (Collect.step pts nH) s
      = .ok { s.appendAll l with prev := if m = 0 then s.prev else some (S + n - 1, S) }
  | 0, i, l, s, a, hn, hl, hp, hs, hi => by
    have : l = [] := List.length_eq_zero_iff.1 hl
    subst this
    simp [appendAll_nil, pure, Except.pure]
  | m + 1, i, [], s, a, hn, hl, hp, hs, hi => by simp at hl
  | m + 1, i, v :: l, s, a, hn, hl, hp, hs, hi => by
    have h0 := hp 0 (by omega)
    simp at h0
    have hlt : i < n := by omega
    rw [Nat.mod_eq_of_lt hlt] at hs
    rw [List.range'_succ, List.map_cons, List.foldlM_cons]
    have e : Collect.step pts nH s (S + i, S + (i + 1) % n)
        = .ok { s.append v with prev := some (S + i, S + (i + 1) % n) } := by
      simp [Collect.step, h0, hs]
    rw [e]
    simp only [bind, Except.bind]
    rw [foldlM_chain pts nH S n m (i + 1) l _ (S + i) (by omega) (by simpa using hl) ?_ rfl (by omega)]
    · rw [appendAll_append, set_prev_prev]
      congr 1
      rcases Nat.eq_zero_or_pos m with h | h
      · subst h
        have : i + 1 = n := by omega
        have h2 : i = n - 1 := by omega
        subst h2
        have : n - 1 + 1 = n := by omega
        simp only [this, Nat.mod_self, Nat.add_zero]
        have h3 : S + (n - 1) = S + n - 1 := by omega
        simp [h3]
      · have : m ≠ 0 := by omega
        simp [this]
    · intro j hj
      have := hp (j + 1) (by omega)
      rw [show S + (i + 1) + j = S + i + (j + 1) by omega, this]
      simp

theorem cycle_cons {S n : ℕ} (hn : 0 < n) :
    cycle S n = (S, S + 1 % n) :: (List.range' 1 (n - 1)).map fun j => (S + j, S + (j + 1) % n) := by
  obtain ⟨m, rfl⟩ : ∃ m, n = m + 1 := ⟨n - 1, by omega⟩
  rw [cycle, List.range_eq_range', List.range'_succ]
  simp

theorem getElem?_pre {pre r post : List Pt} {j : ℕ} (hj : j < r.length) :
    (pre ++ (r ++ post))[pre.length + j]? = r[j]? := by
  rw [List.getElem?_append_right (by omega), List.getElem?_append_left (by omega)]
  congr 1; omega

/-- One ring, once the first facet has been handled. -/
theorem foldlM_ring {pre : List Pt} {v : Pt} {l post : List Pt} {nH : ℕ} {s s' : Collect}
    (h : Collect.step (pre ++ ((v :: l) ++ post)) nH s (pre.length, pre.length + 1 % (l.length + 1))
      = .ok { s'.append v with prev := some (pre.length, pre.length + 1 % (l.length + 1)) }) :
    (cycle pre.length (l.length + 1)).foldlM (Collect.step (pre ++ ((v :: l) ++ post)) nH) s
      = .ok { s'.appendAll (v :: l) with prev := some (pre.length + l.length, pre.length) } := by
  rw [cycle_cons (by omega), List.foldlM_cons, h]
  simp only [bind, Except.bind]
  rw [foldlM_chain _ nH pre.length (l.length + 1) (l.length + 1 - 1) 1 l _ pre.length (by omega) (by simp) ?_ rfl
    (by omega), appendAll_append, set_prev_prev]
  · congr 2
    rcases Nat.eq_zero_or_pos l.length with h0 | h0
    · simp [h0]
    · have : l.length ≠ 0 := by omega
      simp [this]
  · intro j hj
    have hj' : 1 + j < (v :: l).length := by simp at hj ⊢; omega
    rw [show pre.length + 1 + j = pre.length + (1 + j) by omega, getElem?_pre hj', Nat.add_comm 1 j]
    simp

/-- State after the exterior and the holes `done`, with `todo` holes still empty. -/
def afterRings (e : List Pt) (done : List (List Pt)) (todo : ℕ) (pf : ℕ × ℕ) : Collect :=
  { exterior := e, interiors := done ++ List.replicate todo [],
    active := if done = [] then none else some (done.length - 1), counter := done.length - 1, prev := some pf }

theorem foldlM_holes (e : List Pt) (N : ℕ) : ∀ (todo done : List (List Pt)) (pre : List Pt) (pf : ℕ × ℕ),
    (∀ r ∈ todo, r ≠ [] ∧ r ≠ e) → (∀ r ∈ done, r ≠ e) → pf.2 < pre.length →
    done.length + todo.length = N →
    ∃ pf', (cyclesFrom pre.length todo).foldlM (Collect.step (pre ++ todo.flatten) N)
        (afterRings e done todo.length pf) = .ok (afterRings e (done ++ todo) 0 pf')
  | [], done, pre, pf, _, _, _, _ => ⟨pf, by simp [cyclesFrom, pure, Except.pure]⟩
  | [] :: todo, done, pre, pf, h, _, _, _ => by
    exact absurd rfl (h [] (List.mem_cons_self ..)).1
  | (v :: l) :: todo, done, pre, pf, h, hd, hpf, hN => by
    have hne : (v :: l) ≠ e := (h _ (List.mem_cons_self ..)).2
    simp only [List.length_cons] at hN
    -- the list that becomes active
    let s' : Collect := { afterRings e done (todo.length + 1) pf with
      active := some done.length, counter := done.length }
    have hstep : Collect.step (pre ++ ((v :: l) ++ todo.flatten)) N (afterRings e done (todo.length + 1) pf)
        (pre.length, pre.length + 1 % (l.length + 1))
        = .ok { s'.append v with prev := some (pre.length, pre.length + 1 % (l.length + 1)) } := by
      have hget : (pre ++ ((v :: l) ++ todo.flatten))[pre.length]? = some v := by
        simp
      have hk : (if (afterRings e done (todo.length + 1) pf).current = (afterRings e done (todo.length + 1) pf).exterior
          then (afterRings e done (todo.length + 1) pf).counter
          else (afterRings e done (todo.length + 1) pf).counter + 1) = done.length := by
        rcases done.eq_nil_or_concat' with hd0 | ⟨d, x, hd0⟩
        · subst hd0
          simp [afterRings, Collect.current]
        · subst hd0
          have hx : x ≠ e := hd x (by simp)
          have hcur : (afterRings e (d ++ [x]) (todo.length + 1) pf).current = x := by
            simp [afterRings, Collect.current]
          rw [hcur]
          simp [afterRings, hx]
      have hN0 : N ≠ 0 := by omega
      simp only [Collect.step, hget]
      have hprev : (afterRings e done (todo.length + 1) pf).prev = some pf := rfl
      rw [hprev]
      simp only
      rw [if_pos ⟨by omega, hN0⟩, if_pos]
      · simp only [hk, s']
        rfl
      · rw [hk]
        simp [afterRings]
    have hring := foldlM_ring hstep
    have hs' : ({ s'.appendAll (v :: l) with prev := some (pre.length + l.length, pre.length) } : Collect)
        = afterRings e (done ++ [v :: l]) todo.length (pre.length + l.length, pre.length) := by
      have hm : List.modify (done ++ [] :: List.replicate todo.length ([] : List Pt)) done.length (· ++ (v :: l))
          = done ++ (v :: l) :: List.replicate todo.length [] := by
        apply List.ext_getElem?
        intro i
        rw [List.getElem?_modify]
        by_cases hi : done.length = i
        · subst hi; simp
        · simp only [hi, if_false]
          rcases lt_or_gt_of_ne hi with h' | h'
          · obtain ⟨j, rfl⟩ : ∃ j, i = done.length + (j + 1) := ⟨i - done.length - 1, by omega⟩
            rw [List.getElem?_append_right (by omega), List.getElem?_append_right (by omega)]
            simp
          · rw [List.getElem?_append_left h', List.getElem?_append_left h']
            simp
      simp [s', afterRings, Collect.appendAll, List.replicate_succ, hm]
    rw [hs'] at hring
    obtain ⟨pf', hrec⟩ := foldlM_holes e N todo (done ++ [v :: l]) (pre ++ (v :: l))
      (pre.length + l.length, pre.length) (fun r hr => h r (List.mem_cons_of_mem _ hr))
      (by
        intro r hr
        rcases List.mem_append.1 hr with hr | hr
        · exact hd r hr
        · simp at hr; rw [hr]; exact hne)
      (by simp) (by simp; omega)
    refine ⟨pf', ?_⟩
    rw [cyclesFrom, List.foldlM_append, List.flatten_cons, List.length_cons, List.length_cons, hring]
    simp only [bind, Except.bind]
    rw [List.append_assoc, List.append_assoc, List.length_append, List.length_cons] at hrec
    rw [hrec]
    simp

/-- The loop of `from_points` finds the rings from which the points and facets were made. -/
theorem collectRings_eq {e : List Pt} {hs : List (List Pt)} (he : e ≠ [])
    (hh : ∀ r ∈ hs, r ≠ [] ∧ r ≠ e) :
    ∃ s, collectRings (e :: hs).flatten (cyclesFrom 0 (e :: hs)) hs.length = .ok s ∧
      s.exterior = e ∧ s.interiors = hs := by
  obtain ⟨v, l, rfl⟩ := List.exists_cons_of_ne_nil he
  have hstep : Collect.step ([] ++ ((v :: l) ++ hs.flatten)) hs.length
      { exterior := [], interiors := List.replicate hs.length [], active := none, counter := 0, prev := none }
      (([] : List Pt).length, ([] : List Pt).length + 1 % (l.length + 1))
      = .ok { Collect.append { exterior := [], interiors := List.replicate hs.length [], active := none, counter := 0, prev := none } v
          with prev := some (([] : List Pt).length, ([] : List Pt).length + 1 % (l.length + 1)) } := by
    simp [Collect.step]
  have hring := foldlM_ring hstep
  have hs' : ({ Collect.appendAll { exterior := [], interiors := List.replicate hs.length [], active := none, counter := 0, prev := none } (v :: l)
      with prev := some (([] : List Pt).length + l.length, ([] : List Pt).length) } : Collect)
      = afterRings (v :: l) [] hs.length (l.length, 0) := by
    simp [Collect.appendAll, afterRings]
  rw [hs'] at hring
  obtain ⟨pf', hrec⟩ := foldlM_holes (v :: l) hs.length hs [] (v :: l) (l.length, 0) hh (by simp) (by simp) (by simp)
  refine ⟨afterRings (v :: l) hs 0 pf', ?_, rfl, by simp [afterRings]⟩
  rw [collectRings, cyclesFrom, List.foldlM_append]
  rw [List.nil_append, List.length_nil] at hring
  rw [List.length_cons, List.flatten_cons, hring]
  simp only [bind, Except.bind, Nat.zero_add]
  rw [List.length_cons, List.nil_append] at hrec
  exact hrec

end SP
