import Verif.Model.Network
import Mathlib.Logic.Relation
import Mathlib.Data.Fintype.Card
import Mathlib.Data.Finset.Range
import Mathlib.Data.Finset.Card

/-!
# The connectivity check (C45)
-/

namespace SP

/-- Polygons `i` and `j` of `n` polygons are connected through touching polygons. -/
def Linked (n : ℕ) (touch : ℕ → ℕ → Bool) : ℕ → ℕ → Prop :=
  Relation.ReflTransGen fun i j => i < n ∧ j < n ∧ i ≠ j ∧ touch i j = true

/-- Any order of traversal of the sets of connections. -/
def Traversal (n : ℕ) (touch : ℕ → ℕ → Bool) (order : ℕ → List ℕ) : Prop :=
  ∀ i j, j ∈ order i ↔ j ∈ networkGet n touch i

theorem mem_networkGet {n : ℕ} {touch : ℕ → ℕ → Bool} {i j : ℕ} :
    j ∈ networkGet n touch i ↔ i < n ∧ j < n ∧ i ≠ j ∧ touch i j = true := by
  rw [networkGet]
  split_ifs with h
  · simp only [List.mem_filter, List.mem_range, Bool.and_eq_true, bne_iff_ne]
    constructor
    · rintro ⟨a, b, c⟩; exact ⟨h, a, fun e => b e.symm, c⟩
    · rintro ⟨_, a, b, c⟩; exact ⟨a, fun e => b e.symm, c⟩
  · simp [h]

theorem mem_networkKeys {n i : ℕ} : i ∈ networkKeys n ↔ i < n ∧ 2 ≤ n := by
  rw [networkKeys]
  simp only [List.mem_filter, List.mem_range, List.any_eq_true, bne_iff_ne]
  constructor
  · rintro ⟨h, x, hx, hne⟩; omega
  · rintro ⟨h, h2⟩
    refine ⟨h, if i = 0 then 1 else 0, ?_, ?_⟩ <;> split_ifs <;> omega

/-- What a call of `walk_network` for a visited node guarantees: the list only grows, by connected nodes,
and the connections of all added nodes are in it.  The number of nodes that are not visited bounds the
depth of the recursion. -/
theorem walk_spec {n : ℕ} {E : ℕ → ℕ → Prop} {order : ℕ → List ℕ} (ho : ∀ i j, j ∈ order i ↔ E i j)
    (hE : ∀ i j, E i j → j < n) : ∀ (limit node : ℕ) (visited : List ℕ),
    node ∈ visited → visited.Nodup → (∀ x ∈ visited, x < n) → n < limit + visited.length →
    ∃ v, walkNetwork order limit node visited = some v ∧ v.Nodup ∧ (∀ x ∈ v, x < n) ∧ (∃ l, v = visited ++ l) ∧
      (∀ x ∈ v, x ∉ visited → ∃ y ∈ v, E y x ∧ Relation.ReflTransGen E node x) ∧
      (∀ x ∈ v, (x = node ∨ x ∉ visited) → ∀ y, E x y → y ∈ v)
  | 0, node, visited, hn, hd, hb, hl => by
    exfalso
    have : visited.length ≤ n := by
      have h1 : visited.toFinset ⊆ Finset.range n := fun x hx => by
        simpa using hb x (List.mem_toFinset.1 hx)
      have := Finset.card_le_card h1
      rwa [List.toFinset_card_of_nodup hd, Finset.card_range] at this
    omega
  | limit + 1, node, visited, hn, hd, hb, hl => by
    -- the loop over a part of the connections
    have loop : ∀ (cs : List ℕ) (w : List ℕ), (∀ c ∈ cs, E node c) → w.Nodup → (∀ x ∈ w, x < n) →
        visited.length ≤ w.length → node ∈ w →
        ∃ v, walkLoop (walkNetwork order limit) cs w = some v ∧ v.Nodup ∧ (∀ x ∈ v, x < n) ∧ (∃ l, v = w ++ l) ∧
          (∀ x ∈ v, x ∉ w → ∃ y ∈ v, E y x ∧ Relation.ReflTransGen E node x) ∧
          (∀ c ∈ cs, c ∈ v) ∧ (∀ x ∈ v, x ∉ w → ∀ y, E x y → y ∈ v) := by
      intro cs
      induction cs with
      | nil =>
        intro w _ h1 h2 _ _
        exact ⟨w, rfl, h1, h2, ⟨[], by simp⟩, fun x hx hnx => absurd hx hnx, by simp,
          fun x hx hnx => absurd hx hnx⟩
      | cons c cs ih =>
        intro w hc h1 h2 h3 hnw
        by_cases hcw : c ∈ w
        · obtain ⟨v, a1, a2, a3, ⟨l, a4⟩, a5, a6, a7⟩ := ih w (fun d hd => hc d (List.mem_cons_of_mem _ hd)) h1 h2 h3 hnw
          refine ⟨v, by rw [walkLoop, if_pos hcw, a1], a2, a3, ⟨l, a4⟩, a5, ?_, a7⟩
          intro d hd
          rcases List.mem_cons.1 hd with rfl | hd
          · rw [a4]; exact List.mem_append_left _ hcw
          · exact a6 d hd
        · have hEc := hc c (List.mem_cons_self ..)
          have hnd : (w ++ [c]).Nodup := by
            rw [List.nodup_append]
            refine ⟨h1, by simp, ?_⟩
            intro a ha b hb
            simp at hb
            rw [hb]; rintro rfl; exact hcw ha
          obtain ⟨u, b1, b2, b3, ⟨l', b4⟩, b5, b6⟩ := walk_spec ho hE limit c (w ++ [c]) (by simp) hnd
            (by
              intro x hx
              rcases List.mem_append.1 hx with hx | hx
              · exact h2 x hx
              · simp at hx; rw [hx]; exact hE _ _ hEc)
            (by rw [List.length_append]; simp; omega)
          obtain ⟨v, a1, a2, a3, ⟨l, a4⟩, a5, a6, a7⟩ := ih u (fun d hd => hc d (List.mem_cons_of_mem _ hd)) b2 b3
            (by rw [b4]; simp; omega) (by rw [b4]; simp [hnw])
          have hcu : c ∈ u := by rw [b4]; simp
          have huv : ∀ x ∈ u, x ∈ v := fun x hx => by rw [a4]; exact List.mem_append_left _ hx
          refine ⟨v, ?_, a2, a3, ⟨c :: l' ++ l, by rw [a4, b4]; simp⟩, ?_, ?_, ?_⟩
          · rw [walkLoop, if_neg hcw, b1]
            exact a1
          · intro x hx hxw
            by_cases hxu : x ∈ u
            · by_cases hxc : x = c
              · subst hxc
                exact ⟨node, by rw [a4, b4]; simp [hnw], hEc, Relation.ReflTransGen.single hEc⟩
              · obtain ⟨y, hy, h4, h5⟩ := b5 x hxu (by simp [hxw, hxc])
                exact ⟨y, huv y hy, h4, Relation.ReflTransGen.head hEc h5⟩
            · exact a5 x hx hxu
          · intro d hd
            rcases List.mem_cons.1 hd with rfl | hd
            · exact huv _ hcu
            · exact a6 d hd
          · intro x hx hxw y hxy
            by_cases hxu : x ∈ u
            · by_cases hxc : x = c
              · exact huv _ (b6 x hxu (Or.inl hxc) y hxy)
              · exact huv _ (b6 x hxu (Or.inr (by simp [hxw, hxc])) y hxy)
            · exact a7 x hx hxu y hxy
    obtain ⟨v, a1, a2, a3, ⟨l, a4⟩, a5, a6, a7⟩ := loop (order node) visited (fun c hc => (ho _ _).1 hc) hd hb (le_refl _) hn
    refine ⟨v, a1, a2, a3, ⟨l, a4⟩, a5, ?_⟩
    rintro x hx (rfl | hxv) y hxy
    · exact a6 y ((ho _ _).2 hxy)
    · exact a7 x hx hxv y hxy

/-- The walk from polygon 0 finds the polygons that are linked to it, whatever the order in which sets are
traversed. -/
theorem walk_linked {n : ℕ} (hn : 0 < n) {touch : ℕ → ℕ → Bool} {order : ℕ → List ℕ} (ho : Traversal n touch order)
    {limit : ℕ} (hl : n ≤ limit) :
    ∃ v, walkNetwork order limit 0 [0] = some v ∧ ∀ x, x ∈ v ↔ Linked n touch 0 x := by
  have ho' : ∀ i j, j ∈ order i ↔ (i < n ∧ j < n ∧ i ≠ j ∧ touch i j = true) := fun i j => by
    rw [ho, mem_networkGet]
  obtain ⟨v, a1, a2, a3, ⟨l, a4⟩, a5, a6⟩ := walk_spec ho' (fun i j h => h.2.1) limit 0 [0] (by simp) (by simp)
    (by simpa using hn) (by simp; omega)
  refine ⟨v, a1, fun x => ⟨fun hx => ?_, fun hx => ?_⟩⟩
  · by_cases hx0 : x = 0
    · rw [hx0]; exact Relation.ReflTransGen.refl
    · exact (a5 x hx (by simpa using hx0)).choose_spec.2.2
  · induction hx with
    | refl => rw [a4]; simp
    | tail _ hbc ih =>
      rename_i b c _
      refine a6 b ih ?_ c hbc
      by_cases hb0 : b = 0
      · exact Or.inl hb0
      · exact Or.inr (by simpa using hb0)

/-- **C45 (partial).** For two or more polygons, whatever the order in which sets are traversed and if the
recursion is not cut off, `check_geometry_disjoint` is `True` exactly if some two of the polygons are not
linked through touching polygons.  (Touching is symmetric.)  A single polygon is missing: see
`C45_violated`. -/
theorem C45_disjoint_partial {n : ℕ} (hn : 2 ≤ n) {touch : ℕ → ℕ → Bool} (hsym : ∀ i j, touch i j = touch j i)
    {order : ℕ → List ℕ} (ho : Traversal n touch order) {limit : ℕ} (hl : n ≤ limit) :
    ∃ b, checkDisjoint order limit n = some b ∧ (b = true ↔ ∃ i j, i < n ∧ j < n ∧ ¬ Linked n touch i j) := by
  obtain ⟨v, hv, hmem⟩ := walk_linked (by omega) ho hl
  refine ⟨_, by rw [checkDisjoint, hv], ?_⟩
  have hsymm : ∀ i j, Linked n touch i j → Linked n touch j i := by
    intro i j h
    have hs : Std.Symm (fun i j => i < n ∧ j < n ∧ i ≠ j ∧ touch i j = true) :=
      ⟨fun a b hab => ⟨hab.2.1, hab.1, fun e => hab.2.2.1 e.symm, by rw [hsym]; exact hab.2.2.2⟩⟩
    exact (Relation.ReflTransGen.stdSymm (r := fun i j => i < n ∧ j < n ∧ i ≠ j ∧ touch i j = true)).symm _ _ h
  have hlt : ∀ x, Linked n touch 0 x → x < n := by
    intro x hx
    induction hx with
    | refl => omega
    | tail _ h _ => exact h.2.1
  rw [decide_eq_true_iff]
  constructor
  · intro hne
    by_contra hall
    push Not at hall
    apply hne
    ext x
    rw [List.mem_toFinset, List.mem_toFinset, hmem, mem_networkKeys]
    exact ⟨fun h => ⟨hlt x h, hn⟩, fun h => hall 0 x (by omega) h.1⟩
  · rintro ⟨i, j, hi, hj, hnl⟩ heq
    apply hnl
    have hall : ∀ x, x < n → Linked n touch 0 x := by
      intro x hx
      have : x ∈ (networkKeys n).toFinset := List.mem_toFinset.2 (mem_networkKeys.2 ⟨hx, hn⟩)
      rw [← heq, List.mem_toFinset, hmem] at this
      exact this
    exact (hsymm _ _ (hall i hi)).trans (hall j hj)

/-- **C45 is violated** for a single polygon: there are no two polygons that are not connected, and yet
the check is `True`. -/
theorem C45_violated (touch : ℕ → ℕ → Bool) (order : ℕ → List ℕ) (ho : Traversal 1 touch order)
    (limit : ℕ) : checkDisjoint order (limit + 1) 1 = some true ∧ ∀ i j, i < 1 → j < 1 → Linked 1 touch i j := by
  constructor
  · have h0 : order 0 = [] := by
      rw [List.eq_nil_iff_forall_not_mem]
      intro j hj
      rw [ho, mem_networkGet] at hj
      omega
    simp [checkDisjoint, walkNetwork, walkLoop, h0, networkKeys]
  · intro i j hi hj
    have : i = j := by omega
    rw [this]
    exact Relation.ReflTransGen.refl

/-- Three polygons in a row are connected, and the check is `False`; without the middle one it is
`True`. -/
example : checkDisjoint (networkGet 3 fun i j => decide (i + 1 = j ∨ j + 1 = i)) 1000 3 = some false ∧
    checkDisjoint (networkGet 2 fun _ _ => false) 1000 2 = some true ∧
    Traversal 3 (fun i j => decide (i + 1 = j ∨ j + 1 = i)) (networkGet 3 fun i j => decide (i + 1 = j ∨ j + 1 = i)) := by
  refine ⟨by decide, by decide, fun i j => Iff.rfl⟩

end SP
