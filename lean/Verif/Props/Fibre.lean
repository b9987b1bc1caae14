import Verif.Spec.Fibre
import Verif.Lemmas.Text
import Verif.Props.Torsion

/-!
# C52: the mapping of materials in the export as a fibre section
-/

namespace SP

open Spec

/-! ### C52 -/

theorem not_infix_of_char {name w : Text} {P : Char → Prop} (hn : ∃ c ∈ name, ¬ P c) (hw : ∀ c ∈ w, P c) :
    ¬ name <:+: w := fun h => by
  obtain ⟨c, hc, hp⟩ := hn
  exact hp (hw c (h.subset hc))

theorem pyStr_num (n : ℤ) : ∀ c ∈ pyStr n, NumChar c := fun c hc => by
  rcases pyStr_chars n c hc with h | h
  · exact Or.inl h
  · exact Or.inr (Or.inl h)

section

variable {name new : Text}

theorem fixed_pyStr (h0 : name ≠ []) (hs : ' ' ∉ name) (h : Foreign name) (n : ℤ) :
    Fixed name new (pyStr n ++ " ".toList) :=
  fixed_sep h0 new hs (not_infix_of_char h.notNumber (pyStr_num n))

theorem fixed_fmt (h0 : name ≠ []) (h : Foreign name) {fmt : ℝ → Text} (hf : PlainNumbers fmt) (x : ℝ)
    {s : Char} (hs : s ∉ name) : Fixed name new (fmt x ++ [s]) :=
  fixed_sep h0 new hs (not_infix_of_char h.notNumber (hf x))

theorem fixed_word (h0 : name ≠ []) (h : Foreign name) (w : String) (s : Char) (hs : s ∉ name)
    (hw : w ∈ fibreKeywords) :
    Fixed name new (w.toList ++ [s]) :=
  fixed_sep h0 new hs (h.notKeyword w hw)

theorem fixed_loop (h0 : name ≠ []) (hs : ' ' ∉ name) (hnl : '\n' ∉ name) (h : Foreign name) (maxWidth : ℤ) :
    ∀ (tags : List ℤ) (part : Text), Fixed name new part →
      Fixed name new ((mainLoop maxWidth part tags).1 ++ (mainLoop maxWidth part tags).2)
  | [], part, hp => hp
  | tag :: tags, part, hp => by
    have hp' : Fixed name new (part ++ pyStr tag ++ " ".toList) := by
      rw [List.append_assoc]; exact hp.append (fixed_pyStr h0 hs h tag)
    have hb : Fixed name new "\\\n".toList := fixed_word h0 h "\\" '\n' hnl (by simp [fibreKeywords])
    rw [mainLoop]
    simp only
    split
    · have ih := fixed_loop h0 hs hnl h maxWidth tags [] (Fixed.nil _ _)
      rw [List.append_assoc]
      exact (hp'.append hb).append ih
    · exact fixed_loop h0 hs hnl h maxWidth tags _ hp'

theorem fixed_newline (h0 : name ≠ []) (hnl : '\n' ∉ name) : Fixed name new "\n".toList :=
  fixed_sep h0 new hnl (w := []) fun h => h0 (List.infix_nil.1 h)

theorem fixed_main (h0 : name ≠ []) (hs : ' ' ∉ name) (hnl : '\n' ∉ name) (h : Foreign name)
    (k : FibreKind) (mainTag maxWidth : ℤ) (tags : List ℤ) :
    Fixed name new (mainCommand k mainTag maxWidth tags) := by
  have h1 : Fixed name new "section ".toList := fixed_word h0 h "section" ' ' hs (by simp [fibreKeywords])
  have h2 : Fixed name new (k.fibreClass ++ " ".toList) := by
    cases k
    · exact fixed_word h0 h "Fibre2D" ' ' hs (by simp [fibreKeywords])
    · exact fixed_word h0 h "Fibre3D" ' ' hs (by simp [fibreKeywords])
    · exact fixed_word h0 h "Fibre3DOS" ' ' hs (by simp [fibreKeywords])
  have h3 : Fixed name new ("section ".toList ++ k.fibreClass ++ " ".toList ++ pyStr mainTag ++ " ".toList) := by
    have := (h1.append h2).append (fixed_pyStr h0 hs h mainTag)
    simpa only [List.append_assoc] using this
  have h4 : Fixed name new "\n\n".toList := (fixed_newline h0 hnl).append (fixed_newline h0 hnl)
  exact (fixed_loop h0 hs hnl h maxWidth tags _ h3).append h4

theorem replace_material (h0 : name ≠ []) (hs : ' ' ∉ name) (m : Text) (rest : Text) :
    pyReplace name new (m ++ " ".toList ++ rest)
      = pyReplace name new m ++ " ".toList ++ pyReplace name new rest :=
  replace_sep h0 new hs m rest

theorem kw_section (h0 : name ≠ []) (hs : ' ' ∉ name) (h : Foreign name) : Fixed name new "section ".toList :=
  fixed_word h0 h "section" ' ' hs (by simp [fibreKeywords])

theorem kw_two (h0 : name ≠ []) (hs : ' ' ∉ name) (h : Foreign name) :
    Fixed name new "section Cell2D ".toList :=
  (kw_section h0 hs h).append (fixed_word h0 h "Cell2D" ' ' hs (by simp [fibreKeywords]))

theorem kw_three (h0 : name ≠ []) (hs : ' ' ∉ name) (h : Foreign name) :
    Fixed name new "section Cell3D ".toList :=
  (kw_section h0 hs h).append (fixed_word h0 h "Cell3D" ' ' hs (by simp [fibreKeywords]))

theorem kw_threeOS (h0 : name ≠ []) (hs : ' ' ∉ name) (h : Foreign name) :
    Fixed name new "section Cell3DOS ".toList :=
  (kw_section h0 hs h).append (fixed_word h0 h "Cell3DOS" ' ' hs (by simp [fibreKeywords]))

theorem fixed_fmt_sp (h0 : name ≠ []) (hs : ' ' ∉ name) (h : Foreign name) {fmt : ℝ → Text}
    (hf : PlainNumbers fmt) (x : ℝ) : Fixed name new (fmt x ++ " ".toList) := fixed_fmt h0 h hf x hs

theorem fixed_fmt_nl (h0 : name ≠ []) (hnl : '\n' ∉ name) (h : Foreign name) {fmt : ℝ → Text}
    (hf : PlainNumbers fmt) (x : ℝ) : Fixed name new (fmt x ++ "\n".toList) := fixed_fmt h0 h hf x hnl

/-- The pieces of an exported line, with abstract keywords and separators. -/
theorem replace_line {kw sp nl m m' tag : Text} {fs gs : List Text} {last : Text} (hk : Fixed name new kw)
    (ht : Fixed name new (tag ++ sp)) (hf : ∀ f ∈ fs, Fixed name new (f ++ sp))
    (hm : ∀ rest, pyReplace name new (m ++ sp ++ rest) = m' ++ sp ++ pyReplace name new rest)
    (hg : ∀ f ∈ gs, Fixed name new (f ++ sp)) (hl : Fixed name new (last ++ nl)) (rest : Text) :
    pyReplace name new (kw ++ (tag ++ sp) ++ (fs.flatMap (· ++ sp)) ++ (m ++ sp) ++ (gs.flatMap (· ++ sp))
        ++ (last ++ nl) ++ rest)
      = kw ++ (tag ++ sp) ++ (fs.flatMap (· ++ sp)) ++ (m' ++ sp) ++ (gs.flatMap (· ++ sp)) ++ (last ++ nl)
        ++ pyReplace name new rest := by
  have key : ∀ l : List Text, (∀ f ∈ l, Fixed name new (f ++ sp)) → Fixed name new (l.flatMap (· ++ sp)) := by
    intro l
    induction l with
    | nil => intro _; exact Fixed.nil _ _
    | cons x l ih =>
      intro h
      rw [List.flatMap_cons]
      exact (h x (by simp)).append (ih fun y hy => h y (List.mem_cons_of_mem _ hy))
  have h1 := (hk.append ht).append (key fs hf)
  have h2 := (key gs hg).append hl
  have e1 := h1 ((m ++ sp) ++ ((gs.flatMap (· ++ sp) ++ (last ++ nl)) ++ rest))
  rw [hm, h2] at e1
  simp only [List.append_assoc] at e1 ⊢
  exact e1

section
attribute [local irreducible] String.toList

theorem replace_export (h0 : name ≠ []) (hs : ' ' ∉ name) (hnl : '\n' ∉ name) (h : Foreign name)
    {fmt : ℝ → Text} (hf : PlainNumbers fmt) (k : FibreKind) (c : Cell) (rest : Text) :
    pyReplace name new (c.export fmt k ++ "\n".toList ++ rest)
      = ({ c with material := pyReplace name new c.material } : Cell).export fmt k ++ "\n".toList
        ++ pyReplace name new rest := by
  have t := fixed_pyStr (new := new) h0 hs h c.tag
  have f := fixed_fmt_sp (new := new) h0 hs h hf
  have fl := fixed_fmt_nl (new := new) h0 hnl h hf
  have mm := replace_material (new := new) h0 hs c.material
  cases k
  · have := replace_line (kw_two h0 hs h) t (fs := [fmt c.area]) (by simpa using f c.area) mm (gs := [])
      (by simp) (fl c.y) rest
    simp only [List.flatMap_cons, List.flatMap_nil, List.append_nil, List.append_assoc] at this
    simp only [Cell.export]
    delta Cell.export2D
    simp only [List.append_assoc]
    exact this
  · have := replace_line (kw_three h0 hs h) t (fs := [fmt c.area]) (by simpa using f c.area) mm (gs := [fmt c.y])
      (by simpa using f c.y) (fl c.z) rest
    simp only [List.flatMap_cons, List.flatMap_nil, List.append_nil, List.append_assoc] at this
    simp only [Cell.export]
    delta Cell.export3D
    simp only [List.append_assoc]
    exact this
  · have := replace_line (kw_threeOS h0 hs h) t (fs := [fmt c.area, fmt c.omega, fmt c.py, fmt c.pz])
      (by
        intro x hx
        simp only [List.mem_cons, List.not_mem_nil, or_false] at hx
        rcases hx with rfl | rfl | rfl | rfl <;> exact f _) mm (gs := [fmt c.y])
      (by intro x hx; rw [List.mem_singleton] at hx; subst hx; exact f _) (fl c.z) rest
    simp only [List.flatMap_cons, List.flatMap_nil, List.append_nil, List.append_assoc] at this
    simp only [Cell.export]
    delta Cell.export3DOS
    simp only [List.append_assoc]
    exact this

end

theorem replace_join (h0 : name ≠ []) (hs : ' ' ∉ name) (hnl : '\n' ∉ name) (h : Foreign name)
    {fmt : ℝ → Text} (hf : PlainNumbers fmt) (k : FibreKind) :
    ∀ (cells : List Cell),
      pyReplace name new (pyJoin "\n".toList (cells.map (Cell.export fmt k)) ++ "\n\n".toList)
        = pyJoin "\n".toList ((cells.map fun c => { c with material := pyReplace name new c.material }).map
          (Cell.export fmt k)) ++ "\n\n".toList
  | [] => by
    have := (fixed_newline (new := new) h0 hnl).append (fixed_newline (new := new) h0 hnl) []
    rw [List.append_nil, replace_nil h0] at this
    exact this
  | [c] => by
    have h1 := replace_export (new := new) h0 hs hnl h hf k c "\n".toList
    have h2 := fixed_newline (new := new) h0 hnl []
    rw [List.append_nil, replace_nil h0, List.append_nil] at h2
    rw [h2, List.append_assoc, List.append_assoc] at h1
    exact h1
  | c :: d :: cells => by
    have ih := replace_join h0 hs hnl h hf k (d :: cells)
    have h1 := replace_export (new := new) h0 hs hnl h hf k c
      (pyJoin "\n".toList ((d :: cells).map (Cell.export fmt k)) ++ "\n\n".toList)
    rw [ih] at h1
    simp only [List.map_cons, pyJoin, List.append_assoc] at h1 ⊢
    exact h1

theorem replace_text (h0 : name ≠ []) (hs : ' ' ∉ name) (hnl : '\n' ∉ name) (h : Foreign name)
    {fmt : ℝ → Text} (hf : PlainNumbers fmt) (k : FibreKind) (mainTag maxWidth : ℤ) (cells : List Cell) :
    pyReplace name new (fibreText fmt k mainTag maxWidth cells)
      = fibreText fmt k mainTag maxWidth
        (cells.map fun c => { c with material := pyReplace name new c.material }) := by
  have hh : Fixed name new fibreHeader := by
    have : ∀ ls : List String, (∀ l ∈ ls, ¬ name <:+: l.toList) →
        Fixed name new (ls.flatMap fun l => l.toList ++ "\n".toList) := by
      intro ls
      induction ls with
      | nil => intro _; exact Fixed.nil _ _
      | cons l ls ih =>
        intro hl
        rw [List.flatMap_cons]
        exact (fixed_sep h0 new hnl (hl l (by simp))).append (ih fun x hx => hl x (List.mem_cons_of_mem _ hx))
    exact this _ h.notComment
  rw [fibreText, List.append_assoc, List.append_assoc, hh, fixed_main h0 hs hnl h,
    replace_join h0 hs hnl h hf k cells, fibreText, List.append_assoc, List.append_assoc, List.map_map]
  simp only [List.map_map, Function.comp_def]

end


theorem foreign_ne_nil {name : Text} (h : Foreign name) : name ≠ [] := by
  obtain ⟨c, hc, -⟩ := h.notNumber
  exact List.ne_nil_of_mem hc

theorem cell_material_self (c : Cell) : ({ c with material := c.material } : Cell) = c := rfl

/-- **C52, part.** If no name of the mapping occurs in a number, in the comment or in a keyword, the mapping
changes nothing but the names of the materials in the lines of the cells: the text is the one that would have
been exported if the mapping had been applied to each of the names on its own.  (What is missing: names that
do occur there.) -/
theorem C52_only_materials_partial {fmt : ℝ → Text} (hf : PlainNumbers fmt) (k : FibreKind) (mainTag maxWidth : ℤ)
    (cells : List Cell) (mapping : List (Text × ℤ)) (hm : ∀ p ∈ mapping, Foreign (dashed p.1)) :
    mapMaterials mapping (fibreText fmt k mainTag maxWidth cells) =
      fibreText fmt k mainTag maxWidth
        (cells.map fun c => { c with material := mapMaterials mapping c.material }) := by
  induction mapping generalizing cells with
  | nil => simp [mapMaterials]
  | cons p ps ih =>
    have hp := hm p (by simp)
    have e := replace_text (new := pyStr p.2) (foreign_ne_nil hp) (space_not_mem p.1) (newline_not_mem p.1) hp hf k
      mainTag maxWidth cells
    have ih' := ih (cells.map fun c => { c with material := pyReplace (dashed p.1) (pyStr p.2) c.material })
      fun q hq => hm q (List.mem_cons_of_mem _ hq)
    rw [mapMaterials, List.foldl_cons, e]
    rw [mapMaterials] at ih'
    rw [ih', List.map_map]
    rfl

/-- What the mapping makes of one name. -/
theorem mapMaterials_name {mapping : List (Text × ℤ)} (hm : ∀ p ∈ mapping, Foreign (dashed p.1)) {m : Text}
    (hpart : ∀ p ∈ mapping, dashed p.1 <:+: m → m = dashed p.1) : mapMaterials mapping m = entryFor mapping m := by
  have num : ∀ (l : List (Text × ℤ)), (∀ p ∈ l, Foreign (dashed p.1)) → ∀ v, mapMaterials l (pyStr v) = pyStr v := by
    intro l
    induction l with
    | nil => intro _ v; rfl
    | cons p ps ih =>
      intro h v
      have hp := h p (by simp)
      rw [mapMaterials, List.foldl_cons, replace_none (foreign_ne_nil hp) _
        (not_infix_of_char hp.notNumber (pyStr_num v))]
      exact ih (fun q hq => h q (List.mem_cons_of_mem _ hq)) v
  induction mapping with
  | nil => rfl
  | cons p ps ih =>
    have hp := hm p (by simp)
    have hps : ∀ q ∈ ps, Foreign (dashed q.1) := fun q hq => hm q (List.mem_cons_of_mem _ hq)
    rw [mapMaterials, List.foldl_cons, entryFor, List.find?_cons]
    by_cases e : m = dashed p.1
    · rw [e, replace_self (foreign_ne_nil hp), show (dashed p.1 == dashed p.1) = true by simp]
      exact num ps hps p.2
    · rw [replace_none (foreign_ne_nil hp) _ fun h => e (hpart p (by simp) h),
        show (dashed p.1 == m) = false by simpa using fun h => e h.symm]
      exact ih hps fun q hq => hpart q (List.mem_cons_of_mem _ hq)

/-- **C52, part.** If moreover no name of the mapping is a proper part of a name of a material of the
section, each name is replaced by its tag, and nothing else is changed. -/
theorem C52_mapping_partial {fmt : ℝ → Text} (hf : PlainNumbers fmt) (k : FibreKind) (mainTag maxWidth : ℤ)
    (cells : List Cell) (mapping : List (Text × ℤ)) (hm : ∀ p ∈ mapping, Foreign (dashed p.1))
    (hpart : ∀ p ∈ mapping, ∀ c ∈ cells, dashed p.1 <:+: c.material → c.material = dashed p.1) :
    mapMaterials mapping (fibreText fmt k mainTag maxWidth cells) =
      fibreText fmt k mainTag maxWidth (cells.map fun c => { c with material := entryFor mapping c.material }) := by
  rw [C52_only_materials_partial hf k mainTag maxWidth cells mapping hm]
  congr 1
  refine List.map_congr_left fun c hc => ?_
  rw [mapMaterials_name hm fun p hp => hpart p hp c hc]

theorem entryFor_perm {m1 m2 : List (Text × ℤ)} (h : m1.Perm m2) (hn : (m1.map fun p => dashed p.1).Nodup) (m : Text) :
    entryFor m1 m = entryFor m2 m := by
  have key : ∀ (l : List (Text × ℤ)), (l.map fun p => dashed p.1).Nodup → ∀ p ∈ l, dashed p.1 = m →
      l.find? (fun p => dashed p.1 == m) = some p := by
    intro l
    induction l with
    | nil => intro _ p hp; cases hp
    | cons q l ih =>
      intro hn p hp e
      rw [List.map_cons, List.nodup_cons] at hn
      rw [List.find?_cons]
      rcases List.mem_cons.1 hp with rfl | hp
      · rw [show (dashed p.1 == m) = true by simpa using e]
      · have : dashed q.1 ≠ m := fun h' => hn.1 (by rw [h', ← e]; exact List.mem_map.2 ⟨p, hp, rfl⟩)
        rw [show (dashed q.1 == m) = false by simpa using this]
        exact ih hn.2 p hp e
  have hn2 : (m2.map fun p => dashed p.1).Nodup := (h.map _).nodup_iff.1 hn
  by_cases e : ∃ p ∈ m1, dashed p.1 = m
  · obtain ⟨p, hp, hpm⟩ := e
    rw [entryFor, entryFor, key m1 hn p hp hpm, key m2 hn2 p (h.mem_iff.1 hp) hpm]
  · push Not at e
    have f1 : m1.find? (fun p => dashed p.1 == m) = none := by
      rw [List.find?_eq_none]; intro p hp; simpa using e p hp
    have f2 : m2.find? (fun p => dashed p.1 == m) = none := by
      rw [List.find?_eq_none]; intro p hp; simpa using e p (h.mem_iff.2 hp)
    rw [entryFor, entryFor, f1, f2]

/-- **C52, part.** Under the same conditions, the order of the entries does not matter. -/
theorem C52_order_partial {fmt : ℝ → Text} (hf : PlainNumbers fmt) (k : FibreKind) (mainTag maxWidth : ℤ)
    (cells : List Cell) {mapping mapping' : List (Text × ℤ)} (hperm : mapping.Perm mapping')
    (hn : (mapping.map fun p => dashed p.1).Nodup) (hm : ∀ p ∈ mapping, Foreign (dashed p.1))
    (hpart : ∀ p ∈ mapping, ∀ c ∈ cells, dashed p.1 <:+: c.material → c.material = dashed p.1) :
    mapMaterials mapping (fibreText fmt k mainTag maxWidth cells) =
      mapMaterials mapping' (fibreText fmt k mainTag maxWidth cells) := by
  rw [C52_mapping_partial hf k mainTag maxWidth cells mapping hm hpart,
    C52_mapping_partial hf k mainTag maxWidth cells mapping' (fun p hp => hm p (hperm.mem_iff.2 hp))
      fun p hp => hpart p (hperm.mem_iff.2 hp)]
  congr 1
  refine List.map_congr_left fun c _ => ?_
  rw [entryFor_perm hperm hn]

end SP
