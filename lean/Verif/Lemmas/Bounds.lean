import Verif.Lemmas.Rigid

/-!
# Bounding boxes under monotone maps
-/

namespace SP

open Spec

theorem runMin_mono {f : ℝ → ℝ} (hf : Monotone f) : ∀ (l : List ℝ) (a : ℝ), runMin (f a) (l.map f) = f (runMin a l)
  | [], _ => rfl
  | x :: l, a => by
    have h : min (f a) (f x) = f (min a x) := (hf.map_min).symm
    have := runMin_mono hf l (min a x)
    simp only [runMin, List.map_cons, List.foldl_cons, h] at this ⊢
    exact this

theorem runMax_mono {f : ℝ → ℝ} (hf : Monotone f) : ∀ (l : List ℝ) (a : ℝ), runMax (f a) (l.map f) = f (runMax a l)
  | [], _ => rfl
  | x :: l, a => by
    have h : max (f a) (f x) = f (max a x) := (hf.map_max).symm
    have := runMax_mono hf l (max a x)
    simp only [runMax, List.map_cons, List.foldl_cons, h] at this ⊢
    exact this

theorem runMin_anti {f : ℝ → ℝ} (hf : Antitone f) : ∀ (l : List ℝ) (a : ℝ), runMin (f a) (l.map f) = f (runMax a l)
  | [], _ => rfl
  | x :: l, a => by
    have h : min (f a) (f x) = f (max a x) := (hf.map_max).symm
    have := runMin_anti hf l (max a x)
    simp only [runMin, runMax, List.map_cons, List.foldl_cons, h] at this ⊢
    exact this

theorem runMax_anti {f : ℝ → ℝ} (hf : Antitone f) : ∀ (l : List ℝ) (a : ℝ), runMax (f a) (l.map f) = f (runMin a l)
  | [], _ => rfl
  | x :: l, a => by
    have h : max (f a) (f x) = f (min a x) := (hf.map_min).symm
    have := runMax_anti hf l (min a x)
    simp only [runMin, runMax, List.map_cons, List.foldl_cons, h] at this ⊢
    exact this

theorem runMin_mem : ∀ (l : List ℝ) (a : ℝ), runMin a l ∈ a :: l
  | [], _ => List.mem_cons_self ..
  | x :: l, a => by
    have := runMin_mem l (min a x)
    simp only [runMin, List.foldl_cons] at this ⊢
    rcases List.mem_cons.1 this with h | h
    · rw [h]
      rcases min_choice a x with h' | h' <;> rw [h'] <;> simp
    · simp [h]

theorem runMax_mem : ∀ (l : List ℝ) (a : ℝ), runMax a l ∈ a :: l
  | [], _ => List.mem_cons_self ..
  | x :: l, a => by
    have := runMax_mem l (max a x)
    simp only [runMax, List.foldl_cons] at this ⊢
    rcases List.mem_cons.1 this with h | h
    · rw [h]
      rcases max_choice a x with h' | h' <;> rw [h'] <;> simp
    · simp [h]

theorem runMin_le' : ∀ (l : List ℝ) (a : ℝ), ∀ x ∈ a :: l, runMin a l ≤ x
  | [], a, x, hx => by simp at hx; rw [hx]; exact le_refl a
  | y :: l, a, x, hx => by
    have := runMin_le' l (min a y)
    simp only [runMin, List.foldl_cons] at this ⊢
    rcases List.mem_cons.1 hx with rfl | hx
    · exact (this _ (List.mem_cons_self ..)).trans (min_le_left _ _)
    · rcases List.mem_cons.1 hx with rfl | hx
      · exact (this _ (List.mem_cons_self ..)).trans (min_le_right _ _)
      · exact this x (List.mem_cons_of_mem _ hx)

theorem le_runMax' : ∀ (l : List ℝ) (a : ℝ), ∀ x ∈ a :: l, x ≤ runMax a l
  | [], a, x, hx => by simp at hx; rw [hx]; exact le_refl a
  | y :: l, a, x, hx => by
    have := le_runMax' l (max a y)
    simp only [runMax, List.foldl_cons] at this ⊢
    rcases List.mem_cons.1 hx with rfl | hx
    · exact (le_max_left _ _).trans (this _ (List.mem_cons_self ..))
    · rcases List.mem_cons.1 hx with rfl | hx
      · exact (le_max_right _ _).trans (this _ (List.mem_cons_self ..))
      · exact this x (List.mem_cons_of_mem _ hx)

/-- Coordinatewise monotone maps. -/
theorem ringBounds_mono {f h : ℝ → ℝ} (hf : Monotone f) (hh : Monotone h) {l : List Pt} (hl : l ≠ []) :
    ringBounds (l.map fun p => (f p.1, h p.2)) = (f (ringBounds l).1, f (ringBounds l).2.1,
      h (ringBounds l).2.2.1, h (ringBounds l).2.2.2) := by
  obtain ⟨p, ps, rfl⟩ := List.exists_cons_of_ne_nil hl
  simp only [ringBounds, List.map_cons, List.map_map]
  rw [← runMin_mono hf, ← runMax_mono hf, ← runMin_mono hh, ← runMax_mono hh]
  simp [Function.comp_def]

theorem ringBounds_anti_fst {f h : ℝ → ℝ} (hf : Antitone f) (hh : Monotone h) {l : List Pt} (hl : l ≠ []) :
    ringBounds (l.map fun p => (f p.1, h p.2)) = (f (ringBounds l).2.1, f (ringBounds l).1,
      h (ringBounds l).2.2.1, h (ringBounds l).2.2.2) := by
  obtain ⟨p, ps, rfl⟩ := List.exists_cons_of_ne_nil hl
  simp only [ringBounds, List.map_cons, List.map_map]
  rw [← runMin_anti hf, ← runMax_anti hf, ← runMin_mono hh, ← runMax_mono hh]
  simp [Function.comp_def]

theorem ringBounds_anti_snd {f h : ℝ → ℝ} (hf : Monotone f) (hh : Antitone h) {l : List Pt} (hl : l ≠ []) :
    ringBounds (l.map fun p => (f p.1, h p.2)) = (f (ringBounds l).1, f (ringBounds l).2.1,
      h (ringBounds l).2.2.2, h (ringBounds l).2.2.1) := by
  obtain ⟨p, ps, rfl⟩ := List.exists_cons_of_ne_nil hl
  simp only [ringBounds, List.map_cons, List.map_map]
  rw [← runMin_mono hf, ← runMax_mono hf, ← runMin_anti hh, ← runMax_anti hh]
  simp [Function.comp_def]

/-- The bounds are the smallest box around the vertices. -/
theorem ringBounds_spec {l : List Pt} (hl : l ≠ []) :
    (∀ p ∈ l, (ringBounds l).1 ≤ p.1 ∧ p.1 ≤ (ringBounds l).2.1 ∧ (ringBounds l).2.2.1 ≤ p.2 ∧
      p.2 ≤ (ringBounds l).2.2.2) ∧
    (∃ p ∈ l, p.1 = (ringBounds l).1) ∧ (∃ p ∈ l, p.1 = (ringBounds l).2.1) ∧
    (∃ p ∈ l, p.2 = (ringBounds l).2.2.1) ∧ ∃ p ∈ l, p.2 = (ringBounds l).2.2.2 := by
  obtain ⟨p, ps, rfl⟩ := List.exists_cons_of_ne_nil hl
  have e1 : ∀ x ∈ p.1 :: ps.map Prod.fst, ∃ q ∈ p :: ps, q.1 = x := by
    intro x hx
    rw [← List.map_cons (f := Prod.fst)] at hx
    obtain ⟨q, hq, rfl⟩ := List.mem_map.1 hx
    exact ⟨q, hq, rfl⟩
  have e2 : ∀ x ∈ p.2 :: ps.map Prod.snd, ∃ q ∈ p :: ps, q.2 = x := by
    intro x hx
    rw [← List.map_cons (f := Prod.snd)] at hx
    obtain ⟨q, hq, rfl⟩ := List.mem_map.1 hx
    exact ⟨q, hq, rfl⟩
  refine ⟨fun q hq => ?_, e1 _ (runMin_mem ..), e1 _ (runMax_mem ..), e2 _ (runMin_mem ..), e2 _ (runMax_mem ..)⟩
  have m1 : q.1 ∈ p.1 :: ps.map Prod.fst := by
    rw [← List.map_cons (f := Prod.fst)]; exact List.mem_map.2 ⟨q, hq, rfl⟩
  have m2 : q.2 ∈ p.2 :: ps.map Prod.snd := by
    rw [← List.map_cons (f := Prod.snd)]; exact List.mem_map.2 ⟨q, hq, rfl⟩
  exact ⟨runMin_le' _ _ _ m1, le_runMax' _ _ _ m1, runMin_le' _ _ _ m2, le_runMax' _ _ _ m2⟩

end SP
