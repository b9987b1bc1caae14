import Verif.Model.Analyses
import Mathlib.Tactic

/-!
# Running programs on the property store
-/

namespace SP

open Classical

/-- Result and final store of a program. -/
def exec {n : ℕ} {α : Type} (x : Op n α) (s : Store n) : Except PyErr α × Store n := x.run.run s

variable {n : ℕ} {α β : Type}

theorem exec_pure (a : α) (s : Store n) : exec (pure a : Op n α) s = (.ok a, s) := rfl

theorem exec_throw (e : PyErr) (s : Store n) : exec (throw e : Op n α) s = (.error e, s) := rfl

theorem exec_get (s : Store n) : exec (get : Op n (Store n)) s = (.ok s, s) := rfl

theorem exec_modify (f : Store n → Store n) (s : Store n) :
    exec (modify f : Op n Unit) s = (.ok (), f s) := rfl

theorem exec_bind (x : Op n α) (f : α → Op n β) (s : Store n) :
    exec (x >>= f) s = match exec x s with
      | (.ok a, s') => exec (f a) s'
      | (.error e, s') => (.error e, s') := by
  unfold exec
  simp only [ExceptT.run_bind, StateT.run_bind]
  generalize (x.run.run s : Except PyErr α × Store n) = r
  obtain ⟨r, s'⟩ := r
  cases r <;> rfl

/-- Values after assignments. -/
def assign (l : List (Field × ℝ)) (v : Field → Option ℝ) : Field → Option ℝ :=
  l.foldl (fun v p => Function.update v p.1 (some p.2)) v

/-- The store after assignments. -/
def Store.set (s : Store n) (l : List (Field × ℝ)) : Store n := { s with val := assign l s.val }

theorem exec_write (l : List (Field × ℝ)) (s : Store n) :
    exec (write l : Op n Unit) s = (.ok (), s.set l) := rfl

theorem exec_ask (g : Store n → Except PyErr α) (s : Store n) :
    exec (ask g) s = (g s, s) := by
  unfold ask
  rw [exec_bind, exec_get]
  dsimp only
  cases g s <;> rfl

theorem exec_attempt (x : Except PyErr α) (s : Store n) : exec (attempt x : Op n α) s = (x, s) := by
  cases x <;> rfl

theorem exec_ite (c : Prop) [Decidable c] (x y : Op n α) (s : Store n) :
    exec (if c then x else y) s = if c then exec x s else exec y s := by split <;> rfl

theorem exec_write_bind (l : List (Field × ℝ)) (f : Unit → Op n β) (s : Store n) :
    exec (write l >>= f) s = exec (f ()) (s.set l) := by rw [exec_bind, exec_write]

theorem exec_get_bind (f : Store n → Op n β) (s : Store n) :
    exec ((get : Op n (Store n)) >>= f) s = exec (f s) s := by rw [exec_bind, exec_get]

theorem exec_modify_bind (g : Store n → Store n) (f : Unit → Op n β) (s : Store n) :
    exec ((modify g : Op n Unit) >>= f) s = exec (f ()) (g s) := by rw [exec_bind, exec_modify]

theorem exec_pure_bind (a : α) (f : α → Op n β) (s : Store n) :
    exec ((pure a : Op n α) >>= f) s = exec (f a) s := by rw [exec_bind, exec_pure]

theorem exec_ask_bind (g : Store n → Except PyErr α) (f : α → Op n β) (s : Store n) :
    exec (ask g >>= f) s = match g s with
      | .ok a => exec (f a) s
      | .error e => (.error e, s) := by
  rw [exec_bind, exec_ask]; cases g s <;> rfl

theorem exec_attempt_bind (x : Except PyErr α) (f : α → Op n β) (s : Store n) :
    exec ((attempt x : Op n α) >>= f) s = match x with
      | .ok a => exec (f a) s
      | .error e => (.error e, s) := by
  rw [exec_bind, exec_attempt]; cases x <;> rfl

@[simp] theorem set_omega (s : Store n) (l) : (s.set l).omega = s.omega := rfl
@[simp] theorem set_psi (s : Store n) (l) : (s.set l).psi = s.psi := rfl
@[simp] theorem set_phiS (s : Store n) (l) : (s.set l).phiS = s.phiS := rfl

theorem set_val (s : Store n) (l) : (s.set l).val = assign l s.val := rfl

theorem assign_nil (v) : assign [] v = v := rfl

theorem assign_cons (f : Field) (x : ℝ) (l v) :
    assign ((f, x) :: l) v = assign l (Function.update v f (some x)) := rfl

/-- A value that is not assigned stays. -/
theorem assign_of_notMem (l : List (Field × ℝ)) (v) (f : Field) (h : f ∉ l.map Prod.fst) :
    assign l v f = v f := by
  induction l generalizing v with
  | nil => rfl
  | cons p l ih =>
    obtain ⟨g, x⟩ := p
    simp only [List.map_cons, List.mem_cons, not_or] at h
    rw [assign_cons, ih _ h.2, Function.update_of_ne h.1]

/-- Assignments never remove a value. -/
theorem assign_isSome (l : List (Field × ℝ)) (v) (f : Field) (h : (v f).isSome) :
    (assign l v f).isSome := by
  induction l generalizing v with
  | nil => exact h
  | cons p l ih =>
    obtain ⟨g, x⟩ := p
    rw [assign_cons]
    apply ih
    by_cases hg : f = g
    · subst hg; simp
    · rw [Function.update_of_ne hg]; exact h

/-- What is assigned is there. -/
theorem assign_mem (l : List (Field × ℝ)) (v) (f : Field) (h : f ∈ l.map Prod.fst) :
    (assign l v f).isSome := by
  induction l generalizing v with
  | nil => simp at h
  | cons p l ih =>
    obtain ⟨g, x⟩ := p
    rw [assign_cons]
    simp only [List.map_cons, List.mem_cons] at h
    rcases h with h | h
    · subst h; exact assign_isSome _ _ _ (by simp)
    · exact ih _ h

end SP
