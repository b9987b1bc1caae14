import Verif.Lemmas.Fem

/-!
# Assembly of element arrays
-/

namespace SP

open Spec MeasureTheory

variable {n : ℕ} {t : Tri6 n} {els : List (Tri6 n)}

/-! ### Assembly -/

theorem fancyAdd_apply (a : Fin n → ℝ) {ids : Fin 6 → Fin n} (hinj : Function.Injective ids)
    (w : Fin 6 → ℝ) (i : Fin n) :
    fancyAdd a ids w i = a i + ∑ k, if ids k = i then w k else 0 := by
  have key : ∀ (l : List (Fin 6)) (acc : Fin n → ℝ), l.Nodup →
      (∀ k ∈ l, ids k = i →
        l.foldl (fun acc k => Function.update acc (ids k) (a (ids k) + w k)) acc i = a i + w k) ∧
      ((∀ k ∈ l, ids k ≠ i) →
        l.foldl (fun acc k => Function.update acc (ids k) (a (ids k) + w k)) acc i = acc i) := by
    intro l
    induction l with
    | nil => intro acc _; simp
    | cons m l ih =>
      intro acc hnd
      obtain ⟨hm, hnd⟩ := List.nodup_cons.1 hnd
      obtain ⟨ih1, ih2⟩ := ih (Function.update acc (ids m) (a (ids m) + w m)) hnd
      constructor
      · intro k hk he
        rcases List.mem_cons.1 hk with rfl | hk
        · rw [List.foldl_cons, ih2]
          · rw [he, Function.update_self]
          · intro k' hk' h'
            have := hinj (h'.trans he.symm)
            subst this
            exact hm hk'
        · rw [List.foldl_cons]; exact ih1 k hk he
      · intro hne
        rw [List.foldl_cons, ih2 fun k hk => hne k (List.mem_cons_of_mem _ hk),
          Function.update_of_ne (hne m (List.mem_cons_self ..)).symm]
  obtain ⟨k1, k2⟩ := key (List.finRange 6) a (List.nodup_finRange 6)
  by_cases h : ∃ k, ids k = i
  · obtain ⟨k, hk⟩ := h
    have : ∑ k', (if ids k' = i then w k' else 0) = w k := by
      rw [Finset.sum_eq_single k]
      · simp [hk]
      · intro b _ hb
        rw [if_neg]
        intro h'
        exact hb (hinj (h'.trans hk.symm))
      · simp
    rw [this]
    exact k1 k (List.mem_finRange k) hk
  · push Not at h
    have : ∑ k', (if ids k' = i then w k' else 0) = 0 :=
      Finset.sum_eq_zero fun k _ => if_neg (h k)
    rw [this, add_zero]
    exact k2 fun k _ => h k

theorem assembleVec_apply (hd : DistinctNodes els) (w : Tri6 n → Fin 6 → ℝ) (i : Fin n) :
    assembleVec els w i = (els.map fun t => ∑ k, if t.nodeIds k = i then w t k else 0).sum := by
  have : ∀ (a : Fin n → ℝ), els.foldl (fun f t => fancyAdd f t.nodeIds (w t)) a i
      = a i + (els.map fun t => ∑ k, if t.nodeIds k = i then w t k else 0).sum := by
    induction els with
    | nil => intro a; simp
    | cons t els ih =>
      intro a
      rw [List.foldl_cons, ih (fun t ht => hd t (List.mem_cons_of_mem _ ht)),
        fancyAdd_apply _ (hd t (List.mem_cons_self ..)), List.map_cons, List.sum_cons, add_assoc]
  rw [assembleVec, this, zero_add]

theorem sum_list_sum {α : Type*} (l : List α) {ι : Type*} (s : Finset ι) (f : ι → α → ℝ) :
    ∑ i ∈ s, (l.map (f i)).sum = (l.map fun a => ∑ i ∈ s, f i a).sum := by
  induction l with
  | nil => simp
  | cons a l ih => simp [Finset.sum_add_distrib, ih]

/-- Work of an assembled vector is the sum of the works on the elements. -/
theorem dot_assemble (hd : DistinctNodes els) (w : Tri6 n → Fin 6 → ℝ) (x : Fin n → ℝ) :
    dotN x (assembleVec els w) = (els.map fun t => dot6 (t.local x) (w t)).sum := by
  simp only [dotN, assembleVec_apply hd, ← List.sum_map_mul_left]
  rw [sum_list_sum]
  refine congrArg List.sum (List.map_congr_left fun t _ => ?_)
  simp only [Finset.mul_sum, dot6, Tri6.local]
  rw [Finset.sum_comm]
  refine Finset.sum_congr rfl fun k _ => ?_
  simp

theorem accum_append {α : Type*} (a b : List α) (f : α → ℝ) :
    accum (a ++ b) f = accum a f + accum b f := by
  simp [accum_eq_sum]

/-- The stiffness block. -/
noncomputable def stiff (els : List (Tri6 n)) (i j : Fin n) : ℝ :=
  (els.map fun t => ∑ a, ∑ b, if t.nodeIds a = i ∧ t.nodeIds b = j then t.kEl a b else 0).sum

theorem accum_flatMap {α β : Type*} (l : List α) (g : α → List β) (f : β → ℝ) :
    accum (l.flatMap g) f = (l.map fun a => accum (g a) f).sum := by
  induction l with
  | nil => simp [accum]
  | cons a l ih => rw [List.flatMap_cons, accum_append, ih, List.map_cons, List.sum_cons]

theorem accum_finRange {m : ℕ} {β : Type*} (g : Fin m → β) (h : β → ℝ) :
    accum ((List.finRange m).map g) h = ∑ i, h (g i) := by
  rw [accum_eq_sum, List.map_map, ← List.ofFn_eq_map, List.sum_ofFn]
  rfl

theorem elementCoo_accum (t : Tri6 n) (i j : ℕ) :
    accum (elementCoo t) (fun e => if e.1 = i ∧ e.2.1 = j then e.2.2 else 0)
      = ∑ a, ∑ b, if (t.nodeIds a).val = i ∧ (t.nodeIds b).val = j then t.kEl a b else 0 := by
  rw [elementCoo, accum_flatMap]
  simp only [accum_finRange]
  rw [← List.ofFn_eq_map, List.sum_ofFn]

/-- All entries of the bordered matrix at once. -/
theorem klg_apply (els : List (Tri6 n)) (i j : Fin (n + 1)) :
    (assembleTorsion els).1 i j
      = (els.map fun t => ∑ a, ∑ b, if (t.nodeIds a).val = i.val ∧ (t.nodeIds b).val = j.val
          then t.kEl a b else 0).sum
        + (∑ k : Fin n, if k.val = i.val ∧ n = j.val then assembleVec els Tri6.cEl k else 0)
        + ∑ k : Fin n, if n = i.val ∧ k.val = j.val then assembleVec els Tri6.cEl k else 0 := by
  simp only [assembleTorsion, cooMatrix]
  rw [accum_append, accum_append, accum_flatMap, accum_finRange, accum_finRange]
  simp only [elementCoo_accum]

theorem klg_block (els : List (Tri6 n)) (i j : Fin n) :
    (assembleTorsion els).1 i.castSucc j.castSucc = stiff els i j := by
  have hi := i.isLt
  have hj := j.isLt
  rw [klg_apply, Finset.sum_eq_zero fun k _ => if_neg (by simp; omega),
    Finset.sum_eq_zero fun k _ => if_neg (by simp; omega)]
  simp only [add_zero, stiff, Fin.val_castSucc, Fin.val_inj]

theorem klg_noBlock (els : List (Tri6 n)) (i j : Fin (n + 1)) (h : i.val = n ∨ j.val = n) :
    (els.map fun t => ∑ a, ∑ b, if (t.nodeIds a).val = i.val ∧ (t.nodeIds b).val = j.val
          then t.kEl a b else 0).sum = 0 := by
  refine List.sum_eq_zero fun x hx => ?_
  obtain ⟨t, -, rfl⟩ := List.mem_map.1 hx
  refine Finset.sum_eq_zero fun a _ => Finset.sum_eq_zero fun b _ => if_neg ?_
  have := (t.nodeIds a).isLt
  have := (t.nodeIds b).isLt
  omega

theorem klg_col (els : List (Tri6 n)) (i : Fin n) :
    (assembleTorsion els).1 i.castSucc (Fin.last n) = assembleVec els Tri6.cEl i := by
  have hi := i.isLt
  rw [klg_apply, klg_noBlock _ _ _ (Or.inr rfl),
    Finset.sum_eq_zero (f := fun k : Fin n => if n = (i.castSucc).val ∧ _ then _ else _)
      fun k _ => if_neg (by simp; omega)]
  simp [Fin.val_inj]

theorem klg_row (els : List (Tri6 n)) (i : Fin n) :
    (assembleTorsion els).1 (Fin.last n) i.castSucc = assembleVec els Tri6.cEl i := by
  have hi := i.isLt
  rw [klg_apply, klg_noBlock _ _ _ (Or.inl rfl),
    Finset.sum_eq_zero (f := fun k : Fin n => if k.val = (Fin.last n).val ∧ _ then _ else _)
      fun k _ => if_neg (by simp; omega)]
  simp [Fin.val_inj]

theorem klg_corner (els : List (Tri6 n)) :
    (assembleTorsion els).1 (Fin.last n) (Fin.last n) = 0 := by
  rw [klg_apply, klg_noBlock _ _ _ (Or.inl rfl), Finset.sum_eq_zero fun k _ => if_neg (by simp; omega),
    Finset.sum_eq_zero fun k _ => if_neg (by simp; omega)]
  simp

theorem torsion_load (els : List (Tri6 n)) :
    (assembleTorsion els).2 = assembleVec els Tri6.fEl := rfl

/-- Bilinear form of the assembled stiffness block. -/
theorem stiff_form (els : List (Tri6 n)) (x y : Fin n → ℝ) :
    ∑ i, ∑ j, x i * stiff els i j * y j
      = (els.map fun t => ∑ a, ∑ b, t.local x a * t.kEl a b * t.local y b).sum := by
  simp only [stiff, ← List.sum_map_mul_left, ← List.sum_map_mul_right]
  simp only [sum_list_sum]
  refine congrArg List.sum (List.map_congr_left fun t _ => ?_)
  simp only [Finset.mul_sum, Finset.sum_mul, Tri6.local]
  have e : ∀ i j a b, x i * (if t.nodeIds a = i ∧ t.nodeIds b = j then t.kEl a b else 0) * y j
      = if t.nodeIds a = i then (if t.nodeIds b = j then x i * t.kEl a b * y j else 0) else 0 := by
    intro i j a b
    by_cases h1 : t.nodeIds a = i <;> by_cases h2 : t.nodeIds b = j <;> simp [h1, h2]
  simp only [e]
  calc ∑ i, ∑ j, ∑ a, ∑ b, (if t.nodeIds a = i then
          (if t.nodeIds b = j then x i * t.kEl a b * y j else 0) else 0)
      = ∑ i, ∑ a, ∑ j, ∑ b, (if t.nodeIds a = i then
          (if t.nodeIds b = j then x i * t.kEl a b * y j else 0) else 0) :=
        Finset.sum_congr rfl fun i _ => Finset.sum_comm
    _ = ∑ a, ∑ i, ∑ j, ∑ b, (if t.nodeIds a = i then
          (if t.nodeIds b = j then x i * t.kEl a b * y j else 0) else 0) := Finset.sum_comm
    _ = ∑ a, ∑ i, ∑ b, ∑ j, (if t.nodeIds a = i then
          (if t.nodeIds b = j then x i * t.kEl a b * y j else 0) else 0) :=
        Finset.sum_congr rfl fun a _ => Finset.sum_congr rfl fun i _ => Finset.sum_comm
    _ = ∑ a, ∑ b, ∑ i, ∑ j, (if t.nodeIds a = i then
          (if t.nodeIds b = j then x i * t.kEl a b * y j else 0) else 0) :=
        Finset.sum_congr rfl fun a _ => Finset.sum_comm
    _ = _ := by
        refine Finset.sum_congr rfl fun a _ => Finset.sum_congr rfl fun b _ => ?_
        simp [Finset.sum_ite_irrel, Finset.sum_ite_eq]

end SP
