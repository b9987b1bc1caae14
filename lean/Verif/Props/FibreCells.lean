import Verif.Props.Fibre
import Verif.Lemmas.ShearForms
import Verif.Props.Construct

/-!
# C51, C60, C61: the cells and the main command of the export as a fibre section
-/

namespace SP

open Spec MeasureTheory

/-! ### The main command -/

theorem joinLines_append : ∀ {x : Text} (rest : Text), '\\' ∉ x → joinLines (x ++ rest) = x ++ joinLines rest
  | [], _, _ => rfl
  | c :: x, rest, h => by
    have hc : c ≠ '\\' := fun e => h (by rw [e]; exact List.mem_cons_self ..)
    have hx : '\\' ∉ x := fun e => h (List.mem_cons_of_mem _ e)
    have : joinLines (c :: (x ++ rest)) = c :: joinLines (x ++ rest) := by
      rw [joinLines]
      intro t e
      exact absurd e hc
    rw [List.cons_append, this, joinLines_append rest hx, List.cons_append]

theorem joinLines_cont (rest : Text) : joinLines ('\\' :: '\n' :: rest) = joinLines rest := by
  rw [joinLines]

theorem pyStr_no (n : ℤ) {c : Char} (hc : ¬ NumChar c) : c ∉ pyStr n := fun h => hc (pyStr_num n c h)

theorem bs_not_num : ¬ NumChar '\\' := by unfold NumChar; decide
theorem nl_not_num : ¬ NumChar '\n' := by unfold NumChar; decide
theorem sp_not_num : ¬ NumChar ' ' := by unfold NumChar; decide

/-- The tags, each followed by a space. -/
def tagText (tags : List ℤ) : Text := tags.flatMap fun t => pyStr t ++ [' ']

theorem loop_join (maxWidth : ℤ) (tail : Text) (ht : '\\' ∉ tail) : ∀ (tags : List ℤ) (part : Text), '\\' ∉ part →
    joinLines ((mainLoop maxWidth part tags).1 ++ (mainLoop maxWidth part tags).2 ++ tail) = part ++ tagText tags ++ tail
  | [], part, hp => by
    have h : '\\' ∉ part ++ tail := by simp [hp, ht]
    have := joinLines_append [] h
    simpa [mainLoop, tagText, joinLines] using this
  | t :: tags, part, hp => by
    have hp' : '\\' ∉ part ++ pyStr t ++ [' '] := by
      simp only [List.mem_append, List.mem_singleton, not_or]
      exact ⟨⟨hp, pyStr_no t bs_not_num⟩, by decide⟩
    have e : tagText (t :: tags) = pyStr t ++ [' '] ++ tagText tags := rfl
    simp only [mainLoop]
    split
    · have := joinLines_append ('\\' :: '\n' :: ((mainLoop maxWidth [] tags).1 ++ (mainLoop maxWidth [] tags).2 ++ tail)) hp'
      rw [joinLines_cont, loop_join maxWidth tail ht tags [] (by simp)] at this
      rw [e]
      simp only [List.append_assoc, List.cons_append, List.nil_append] at this ⊢
      exact this
    · have := loop_join maxWidth tail ht tags _ hp'
      rw [e]
      simp only [List.append_assoc] at this ⊢
      exact this

theorem spaced_tags : ∀ (w : Text) (tags : List ℤ), spaced (w :: tags.map pyStr) ++ [' '] = w ++ [' '] ++ tagText tags
  | w, [] => by simp [spaced, tagText]
  | w, t :: tags => by
    have := spaced_tags (pyStr t) tags
    simp only [List.map_cons, spaced, tagText, List.flatMap_cons] at this ⊢
    simp only [List.append_assoc, List.cons_append, List.nil_append] at this ⊢
    rw [this]

theorem spaced_cons (w v : Text) (ws : List Text) : spaced (w :: v :: ws) = w ++ ' ' :: spaced (v :: ws) := rfl

theorem sec_sp : "section ".toList = "section".toList ++ [' '] := rfl

theorem main_join (k : FibreKind) (mainTag maxWidth : ℤ) (tags : List ℤ) :
    joinLines (mainCommand k mainTag maxWidth tags) = spaced (mainWords k mainTag tags) ++ " \n\n".toList := by
  have key : ∀ cls : Text, '\\' ∉ cls → joinLines (
      (mainLoop maxWidth ("section ".toList ++ cls ++ " ".toList ++ pyStr mainTag ++ " ".toList) tags).1 ++
      (mainLoop maxWidth ("section ".toList ++ cls ++ " ".toList ++ pyStr mainTag ++ " ".toList) tags).2 ++ "\n\n".toList)
      = spaced ("section".toList :: cls :: (mainTag :: tags).map pyStr) ++ " \n\n".toList := by
    intro cls hc
    rw [loop_join maxWidth _ (by decide)]
    · have := spaced_tags (pyStr mainTag) tags
      rw [List.map_cons, spaced_cons, spaced_cons]
      have e : (" \n\n".toList : Text) = [' '] ++ "\n\n".toList := rfl
      rw [e, ← List.append_assoc _ [' ']]
      have e2 : ("section".toList ++ ' ' :: (cls ++ ' ' :: spaced (pyStr mainTag :: tags.map pyStr))) ++ [' ']
          = "section".toList ++ ' ' :: (cls ++ ' ' :: (spaced (pyStr mainTag :: tags.map pyStr) ++ [' '])) := by
        simp only [List.append_assoc, List.cons_append]
      rw [e2, this, sec_sp]
      have e3 : " ".toList = [' '] := rfl
      simp only [e3, List.append_assoc, List.cons_append, List.nil_append]
    · have a1 : '\\' ∉ "section ".toList := by decide
      have a2 : '\\' ∉ " ".toList := by decide
      simp only [List.mem_append, not_or]
      exact ⟨⟨⟨⟨a1, hc⟩, a2⟩, pyStr_no mainTag bs_not_num⟩, a2⟩
  cases k
  · exact key "Fibre2D".toList (by decide)
  · exact key "Fibre3D".toList (by decide)
  · exact key "Fibre3DOS".toList (by decide)

/-! ### The commands of the cells -/

theorem kw2 : "section Cell2D ".toList = "section".toList ++ ' ' :: ("Cell2D".toList ++ [' ']) := rfl
theorem kw3 : "section Cell3D ".toList = "section".toList ++ ' ' :: ("Cell3D".toList ++ [' ']) := rfl
theorem kw3OS : "section Cell3DOS ".toList = "section".toList ++ ' ' :: ("Cell3DOS".toList ++ [' ']) := rfl
theorem kwSp : " ".toList = [' '] := rfl

theorem export_command (fmt : ℝ → Text) (k : FibreKind) (c : Cell) : c.export fmt k = cellCommand fmt k c := by
  cases k
  · delta Cell.export cellCommand
    show Cell.export2D fmt c = spaced _
    delta Cell.export2D
    rw [kw2, kwSp]
    simp only [spaced, List.append_assoc, List.cons_append, List.nil_append]
  · delta Cell.export cellCommand
    show Cell.export3D fmt c = spaced _
    delta Cell.export3D
    rw [kw3, kwSp]
    simp only [spaced, List.append_assoc, List.cons_append, List.nil_append]
  · delta Cell.export cellCommand
    show Cell.export3DOS fmt c = spaced _
    delta Cell.export3DOS
    rw [kw3OS, kwSp]
    simp only [spaced, List.append_assoc, List.cons_append, List.nil_append]

/-! ### The cells -/

theorem init_ids {g : GeomIn} {s : Section} (h : Section.init g = .ok s) :
    s.elements.map (·.elId) = List.range s.elements.length := by
  obtain ⟨m, mx, -, -, -, els, hf, rfl⟩ := init_ok h
  have key : ∀ (k : ℕ) (tris : List (Fin 6 → Fin m.numNodes)) (es : List (Tri6 m.numNodes × MatObj)),
      List.Forall₂ (fun p e => mkElement g.materials m p.1 p.2 = .ok e) (tris.zipIdx k) es →
      (es.map Prod.fst).map (·.elId) = List.range' k (es.map Prod.fst).length := by
    intro k l
    induction l generalizing k with
    | nil => intro es he; cases he; rfl
    | cons a l ih =>
      intro es he
      rw [List.zipIdx_cons] at he
      cases he with
      | cons h1 h2 =>
        obtain ⟨-, -, -, e⟩ := mkElement_ok h1
        simp only [List.map_cons, List.length_cons, List.range'_succ]
        rw [ih _ _ h2, e]
  have := key 0 m.triangles els hf
  rw [List.range_eq_range']
  exact this

theorem third_bary : GaussPt.Bary ⟨0, 1 / 3, 1 / 3, 1 / 3⟩ := by unfold GaussPt.Bary; norm_num

theorem mkCell_of {n : ℕ} {t : Tri6 n} (hp : Proper t.coords) (omega : Option (Fin n → ℝ)) (k : ℤ) :
    CellOf t { mkCell t omega with tag := (mkCell t omega).tag + k } := by
  have ha : (mkCell t omega).area = elemDet t.coords / 2 := sf_j hp.1 third_bary
  refine ⟨?_, ?_, ?_, rfl⟩
  · show (mkCell t omega).area = _
    rw [ha, ← geom_area_int hp, geom_area hp.1]
  · show (mkCell t omega).area * _ = _
    rw [ha, ← geom_qy_int hp, geom_qy hp.1]; rfl
  · show (mkCell t omega).area * _ = _
    rw [ha, ← geom_qx_int hp, geom_qx hp.1]; rfl

theorem mkCell_warp {n : ℕ} {t : Tri6 n} (hp : Proper t.coords) (u : Fin n → ℝ) (k : ℤ) :
    WarpOf u t { mkCell t (some u) with tag := (mkCell t (some u)).tag + k } := by
  obtain ⟨q, hq⟩ := exists_interpolates hp (fun k => u (t.nodeIds k))
  have e : (posX t.coords ⟨0, 1 / 3, 1 / 3, 1 / 3⟩, posY t.coords ⟨0, 1 / 3, 1 / 3, 1 / 3⟩)
      = ((mkCell t (some u)).y, (mkCell t (some u)).z) := by
    simp only [posX, posY, mkCell]
    exact Prod.ext (by ring) (by ring)
  refine ⟨q, hq, ?_, ?_, ?_⟩
  · have := interp_val hp third_bary hq
    rw [e] at this
    rw [← this]
    simp only [mkCell, dot6, Tri6.local]
    exact Finset.sum_congr rfl fun i _ => mul_comm _ _
  · have := interp_dX hp third_bary hq
    rw [e] at this
    exact this
  · have := interp_dY hp third_bary hq
    rw [e] at this
    exact this

theorem forall₂_map_self {α β : Type*} {R : α → β → Prop} {f : α → β} : ∀ {as : List α}, (∀ a ∈ as, R a (f a)) →
    List.Forall₂ R as (as.map f)
  | [], _ => .nil
  | a :: _, h => .cons (h a (List.mem_cons_self ..)) (forall₂_map_self fun b hb => h b (List.mem_cons_of_mem _ hb))

theorem fibreCells_eq {sv : Solvers} {k : FibreKind} {mainTag : ℤ} {s : Section} {cells : List Cell}
    (h : fibreCells sv k mainTag s = .ok cells) : ∃ om : Option (Fin s.numNodes → ℝ),
      (k = .threeOS → ∃ u, om = some u ∧ solveDirectLagrange sv (assembleTorsion s.elements).1
        (assembleTorsion s.elements).2 = .ok u) ∧ (k ≠ .threeOS → om = none) ∧
      cells = s.elements.map fun t => { mkCell t om with tag := (mkCell t om).tag + mainTag } := by
  cases k with
  | two => exact ⟨none, nofun, fun _ => rfl, (Except.ok.inj h).symm⟩
  | three => exact ⟨none, nofun, fun _ => rfl, (Except.ok.inj h).symm⟩
  | threeOS =>
    simp only [fibreCells] at h
    cases hs : solveDirectLagrange sv (assembleTorsion s.elements).1 (assembleTorsion s.elements).2 with
    | error e => rw [hs] at h; cases h
    | ok u =>
      rw [hs] at h
      exact ⟨some u, fun _ => ⟨u, rfl, rfl⟩, fun e => absurd rfl e, (Except.ok.inj h).symm⟩

theorem toFibre_ok {sv : Solvers} {fmt : ℝ → Text} {obj : FibreArg} {mainTag maxWidth : ℤ} {ty text : Text}
    {mapping : Option (List (Text × ℤ))} (h : toFibreSection sv fmt obj mainTag ty mapping maxWidth = .ok text) :
    ∃ g k s cells, (obj = .geometry g ∨ obj = .section g) ∧ fibreKind ty = .ok k ∧ Section.init g = .ok s ∧
      fibreCells sv k mainTag s = .ok cells ∧ text = applyMapping mapping (fibreText fmt k mainTag maxWidth cells) := by
  have key : ∀ g, fibreOf sv fmt mainTag ty mapping maxWidth g = .ok text → ∃ k s cells, fibreKind ty = .ok k ∧
        Section.init g = .ok s ∧ fibreCells sv k mainTag s = .ok cells ∧
        text = applyMapping mapping (fibreText fmt k mainTag maxWidth cells) := by
    intro g h
    delta fibreOf at h
    cases hk : fibreKind ty with
    | error e => simp only [hk] at h; cases h
    | ok k =>
      simp only [hk] at h
      cases hs : Section.init g with
      | error e => simp only [hs] at h; cases h
      | ok s =>
        simp only [hs] at h
        cases hc : fibreCells sv k mainTag s with
        | error e => simp only [hc] at h; cases h
        | ok cells =>
          simp only [hc] at h
          exact ⟨k, s, cells, rfl, rfl, hc, (Except.ok.inj h).symm⟩
  cases obj with
  | geometry g =>
    obtain ⟨k, s, cells, h1, h2, h3, h4⟩ := key g h
    exact ⟨g, k, s, cells, .inl rfl, h1, h2, h3, h4⟩
  | «section» g =>
    obtain ⟨k, s, cells, h1, h2, h3, h4⟩ := key g h
    exact ⟨g, k, s, cells, .inr rfl, h1, h2, h3, h4⟩
  | other => cases h

/-- **C51** what is exported: whenever the export (without a mapping of materials) succeeds, the object has a
mesh from which a section can be made.  If the mesh is made of straight-sided triangles, there is one cell for each element of that section, with the
element's area, centroid and material; the tags are the numbers that follow the tag of the main section, in order,
so no two are the same and none is that of the main section.  The text consists of comment lines, the main command,
which (with its continued lines joined) lists exactly these tags once each, and one command for each cell.  For the
three dimensional section with warping, the cells carry the values and derivatives of the solution that the solver
returns for the torsion problem about the origin. -/
theorem C51_export {sv : Solvers} {fmt : ℝ → Text} {obj : FibreArg} {mainTag maxWidth : ℤ} {ty text : Text}
    (h : toFibreSection sv fmt obj mainTag ty none maxWidth = .ok text)
    (hg : ∀ g m, obj = .geometry g ∨ obj = .section g → g.mesh = some m → GoodMesh m) :
    ∃ (g : GeomIn) (k : FibreKind) (s : Section) (cells : List Cell) (comments : List Text) (main : Text),
      (obj = .geometry g ∨ obj = .section g) ∧ Section.init g = .ok s ∧ fibreKind ty = .ok k ∧
      List.Forall₂ CellOf s.elements cells ∧
      (k = .threeOS → ∃ u, solveDirectLagrange sv (assembleTorsion s.elements).1 (assembleTorsion s.elements).2 = .ok u ∧
        List.Forall₂ (WarpOf u) s.elements cells) ∧
      cells.map (·.tag) = (List.range s.elements.length).map (fun i : ℕ => mainTag + 1 + (i : ℤ)) ∧
      (cells.map (·.tag)).Nodup ∧ mainTag ∉ cells.map (·.tag) ∧
      (∀ l ∈ comments, ∃ r, l = '#' :: r ∧ '\n' ∉ r) ∧
      joinLines main = spaced (mainWords k mainTag (cells.map (·.tag))) ++ " \n\n".toList ∧
      text = comments.flatMap (· ++ ['\n']) ++ main ++
        pyJoin ['\n'] (cells.map (cellCommand fmt k)) ++ ['\n', '\n'] := by
  obtain ⟨g, k, s, cells, ho, hk, hs, hc, ht⟩ := toFibre_ok h
  obtain ⟨om, hom, -, rfl⟩ := fibreCells_eq hc
  obtain ⟨m, mx, hm, -⟩ := init_ok hs
  have hgood := init_good hs hm (hg g m ho hm)
  have htags : (s.elements.map fun t => ({ mkCell t om with tag := (mkCell t om).tag + mainTag } : Cell)).map (·.tag)
      = (List.range s.elements.length).map (fun i : ℕ => mainTag + 1 + (i : ℤ)) := by
    rw [← init_ids hs, List.map_map, List.map_map]
    refine List.map_congr_left fun t _ => ?_
    simp only [Function.comp, mkCell]
    ring
  refine ⟨g, k, s, _, fibreComment.map String.toList, mainCommand k mainTag maxWidth _, ho, hs, hk,
    forall₂_map_self fun t ht => mkCell_of (hgood.proper t ht) om mainTag, ?_, htags, ?_, ?_, ?_,
    main_join k mainTag maxWidth _, ?_⟩
  · intro hk
    obtain ⟨u, rfl, hu⟩ := hom hk
    exact ⟨u, hu, forall₂_map_self fun t ht => mkCell_warp (hgood.proper t ht) u mainTag⟩
  · rw [htags]
    exact List.nodup_range.map fun i j hij => by
      have : (mainTag + 1 + (i : ℤ)) = mainTag + 1 + (j : ℤ) := hij
      omega
  · rw [htags]
    simp only [List.mem_map, List.mem_range, not_exists, not_and]
    intro i _
    omega
  · intro l hl
    have : ∀ l ∈ fibreComment.map String.toList, l.head? = some '#' ∧ '\n' ∉ l := by decide
    obtain ⟨h1, h2⟩ := this l hl
    cases l with
    | nil => cases h1
    | cons c r =>
      simp only [List.head?_cons, Option.some.injEq] at h1
      exact ⟨r, by rw [h1], fun e => h2 (List.mem_cons_of_mem _ e)⟩
  · rw [ht]
    have e1 : Cell.export fmt k = cellCommand fmt k := funext fun c => export_command fmt k c
    show fibreText fmt k mainTag maxWidth _ = _
    delta fibreText fibreHeader
    rw [show "\n".toList = ['\n'] from rfl, show "\n\n".toList = ['\n', '\n'] from rfl, List.flatMap_map, e1]

theorem zip_sum {α β : Type*} {R : α → β → Prop} {f : α → β → ℝ} {g : α → ℝ} {l : List α} {l' : List β}
    (h : List.Forall₂ R l l') (e : ∀ a b, R a b → f a b = g a) : (List.zipWith f l l').sum = (l.map g).sum := by
  induction h with
  | nil => rfl
  | cons h1 _ ih => simp only [List.zipWith_cons_cons, List.map_cons, List.sum_cons, e _ _ h1, ih]

theorem forall₂_map_sum {α β : Type*} {R : α → β → Prop} {f : β → ℝ} {g : α → ℝ} {l : List α} {l' : List β}
    (h : List.Forall₂ R l l') (e : ∀ a b, R a b → f b = g a) : (l'.map f).sum = (l.map g).sum := by
  induction h with
  | nil => rfl
  | cons h1 _ ih => simp only [List.map_cons, List.sum_cons, e _ _ h1, ih]

/-- **C51** the cells preserve the section: whenever the cells stand for the elements of a section, their areas sum
to the area that the geometric analysis finds, and the areas and first moments weighted by the moduli of the
elements sum to the axial rigidity and the first moments that it finds; if the elements do not overlap, the areas
and first moments are the integrals over the region of the section. -/
theorem C51_totals {s : Section} {cells : List Cell} (h : List.Forall₂ CellOf s.elements cells)
    (hg : GoodSection s) {r : GeomResults} (hr : s.geometricAnalysis = .ok r) :
    (cells.map (·.area)).sum = r.sums.area ∧
    (List.zipWith (fun t c => t.material.elasticModulus * c.area) s.elements cells).sum = r.sums.ea ∧
    (List.zipWith (fun t c => t.material.elasticModulus * c.area * c.z) s.elements cells).sum = r.sums.qx ∧
    (List.zipWith (fun t c => t.material.elasticModulus * c.area * c.y) s.elements cells).sum = r.sums.qy ∧
    (NoOverlap s.elements → (cells.map (·.area)).sum = ∫ _p in region s.elements, (1 : ℝ) ∧
      (cells.map fun c => c.area * c.y).sum = ∫ p in region s.elements, p.1 ∧
      (cells.map fun c => c.area * c.z).sum = ∫ p in region s.elements, p.2) := by
  obtain ⟨hs, -⟩ := geom_ok hr
  obtain ⟨a1, a2, a3, a4, a5, a6, -⟩ := sums_fields hg.proper
  rw [hs]
  refine ⟨?_, ?_, ?_, ?_, fun hno => ?_⟩
  · rw [a1]; exact forall₂_map_sum h fun t c e => e.area
  · rw [a3]; exact zip_sum h fun t c e => by rw [e.area]; ring
  · rw [a5]; exact zip_sum h fun t c e => by rw [← e.firstZ]; ring
  · rw [a6]; exact zip_sum h fun t c e => by rw [← e.firstY]; ring
  · have one : IsField s.elements (fun _ => 1) (fun _ => 1) :=
      fun t _ => Filter.Eventually.of_forall fun p _ => rfl
    have i1 := (sum_integral hno one (continuous_const (y := (1 : ℝ)))).2
    have i2 := (sum_integral hno one continuous_fst).2
    have i3 := (sum_integral hno one continuous_snd).2
    simp only [mul_one, one_mul] at i1 i2 i3
    rw [← i1, ← i2, ← i3]
    exact ⟨forall₂_map_sum h fun t c e => e.area, forall₂_map_sum h fun t c e => e.firstY,
      forall₂_map_sum h fun t c e => e.firstZ⟩

/-- **C51** when the export succeeds: an object that is neither a geometry nor a section is rejected with a
`TypeError`, an unknown analysis type with a `ValueError`, a geometry without mesh with a `ValueError`; every section
is exported for two and three dimensions, and with warping if the linear solver solves the torsion problem. -/
theorem C51_success (sv : Solvers) (fmt : ℝ → Text) (mainTag maxWidth : ℤ) (mapping : Option (List (Text × ℤ))) (ty : Text) :
    toFibreSection sv fmt .other mainTag ty mapping maxWidth = .error .typeError ∧
    ∀ (g : GeomIn) (obj : FibreArg), obj = .geometry g ∨ obj = .section g →
      (ty.map Char.toUpper ∉ ["2D".toList, "3D".toList, "3DOS".toList] →
        toFibreSection sv fmt obj mainTag ty mapping maxWidth = .error .valueError) ∧
      (g.mesh = none → toFibreSection sv fmt obj mainTag ty mapping maxWidth = .error .valueError) ∧
      (∀ s, Section.init g = .ok s → ty.map Char.toUpper ∈ ["2D".toList, "3D".toList] →
        ∃ text, toFibreSection sv fmt obj mainTag ty mapping maxWidth = .ok text) ∧
      (∀ s, Section.init g = .ok s → ty.map Char.toUpper = "3DOS".toList → GoodSection s → Physical s.elements →
        (assembleTorsion s.elements).1.mulVec (sv.spsolve (assembleTorsion s.elements).1
          (Fin.snoc (α := fun _ => ℝ) (assembleTorsion s.elements).2 0))
          = Fin.snoc (α := fun _ => ℝ) (assembleTorsion s.elements).2 0 →
        ∃ text, toFibreSection sv fmt obj mainTag ty mapping maxWidth = .ok text) := by
  refine ⟨rfl, fun g obj ho => ?_⟩
  have hgo : toFibreSection sv fmt obj mainTag ty mapping maxWidth = fibreOf sv fmt mainTag ty mapping maxWidth g := by
    rcases ho with rfl | rfl <;> rfl
  rw [hgo]
  have hkind : ∀ a : Text, ty.map Char.toUpper = a → fibreKind ty = if a = "2D".toList then .ok .two
      else if a = "3D".toList then .ok .three else if a = "3DOS".toList then .ok .threeOS else .error .valueError := by
    rintro _ rfl; rfl
  refine ⟨fun h => ?_, fun h => ?_, fun s hs h => ?_, fun s hs h hg hp hsv => ?_⟩
  · have h' := hkind _ rfl
    simp only [List.mem_cons, List.not_mem_nil, or_false, not_or] at h
    rw [if_neg h.1, if_neg h.2.1, if_neg h.2.2] at h'
    delta fibreOf
    simp only [h']
  · have hs := (C46_section_checks g).1 h
    delta fibreOf
    cases hk : fibreKind ty with
    | error e =>
      have h' := hkind _ rfl
      rw [hk] at h'
      split_ifs at h'
      exact congrArg Except.error (Except.error.inj h')
    | ok k => simp only [hs]
  · have hk : ∃ k, fibreKind ty = .ok k ∧ k ≠ .threeOS := by
      simp only [List.mem_cons, List.not_mem_nil, or_false] at h
      rcases h with h | h
      · exact ⟨.two, by rw [hkind _ h]; rfl, nofun⟩
      · exact ⟨.three, by rw [hkind _ h]; rfl, nofun⟩
    obtain ⟨k, hk, hne⟩ := hk
    delta fibreOf
    simp only [hk, hs]
    cases k with
    | two => exact ⟨_, rfl⟩
    | three => exact ⟨_, rfl⟩
    | threeOS => exact absurd rfl hne
  · have hk : fibreKind ty = .ok .threeOS := by rw [hkind _ h]; rfl
    obtain ⟨u, hu, -⟩ := C17_direct hp (good_distinct hg) sv _ (torsion_load_sum hp (good_distinct hg)) hsv
    delta fibreOf
    simp only [hk, hs, fibreCells, hu]
    exact ⟨_, rfl⟩

/-! ### C61: the warping of the cells -/

theorem affine_mean {n : ℕ} {t : Tri6 n} {c : Cell} (h : CellOf t c) {f : ℝ × ℝ → ℝ} (hf : f ∈ PolyLE 1) :
    ∫ p in elemRegion t.coords, f p = c.area * f (c.y, c.z) := by
  obtain ⟨a, b, d, e⟩ := affine_coeff hf
  have i0 := integrable_poly t.coords (PolyLE.const 1 a)
  have i1 := integrable_poly t.coords (d := 1) PolyLE.fst
  have i2 := integrable_poly t.coords (d := 1) PolyLE.snd
  simp only [e]
  have i01 : IntegrableOn (fun p : ℝ × ℝ => a + b * p.1) (elemRegion t.coords) := i0.add (i1.const_mul b)
  rw [integral_add i01 (i2.const_mul d), integral_add i0 (i1.const_mul b), integral_const_mul,
    integral_const_mul, ← h.firstY, ← h.firstZ]
  have : ∫ _p in elemRegion t.coords, a = c.area * a := by
    rw [h.area, ← integral_mul_const]; simp
  rw [this]; ring

theorem forall₂_and_mem {α β : Type*} {R S : α → β → Prop} {l : List α} {l' : List β} (h : List.Forall₂ R l l')
    (h' : List.Forall₂ S l l') : List.Forall₂ (fun a b => a ∈ l ∧ R a b ∧ S a b) l l' := by
  induction h with
  | nil => exact .nil
  | cons h1 _ ih =>
    cases h' with
    | cons h1' h2' =>
      exact .cons ⟨List.mem_cons_self .., h1, h1'⟩ ((ih h2').imp fun a b e => ⟨List.mem_cons_of_mem _ e.1, e.2⟩)

/-- The position of a cell is the centroid. -/
theorem cell_pos {n : ℕ} {t : Tri6 n} {c : Cell} (hp : Proper t.coords) (h : CellOf t c) :
    (posX t.coords ⟨0, 1 / 3, 1 / 3, 1 / 3⟩, posY t.coords ⟨0, 1 / 3, 1 / 3, 1 / 3⟩) = (c.y, c.z) := by
  have ha : c.area = elemDet t.coords / 2 := by rw [h.area, ← geom_area_int hp, geom_area hp.1]
  have hy := h.firstY
  have hz := h.firstZ
  rw [← geom_qy_int hp, geom_qy hp.1, ha] at hy
  rw [← geom_qx_int hp, geom_qx hp.1, ha] at hz
  have hd : elemDet t.coords / 2 ≠ 0 := (half_pos hp.2).ne'
  rw [mul_left_cancel₀ hd hy, mul_left_cancel₀ hd hz]
  simp only [posX, posY]
  exact Prod.ext (by ring) (by ring)

theorem warp_unique {n : ℕ} {u : Fin n → ℝ} {t : Tri6 n} {c : Cell} (hp : Proper t.coords) (h : CellOf t c)
    (hw : WarpOf u t c) {q : ℝ × ℝ → ℝ} (hq : Interpolates t.coords (fun k => u (t.nodeIds k)) q) :
    c.py = dX q (c.y, c.z) ∧ c.pz = dY q (c.y, c.z) := by
  obtain ⟨q', hq', -, h2, h3⟩ := hw
  have a := interp_dX hp third_bary hq
  have a' := interp_dX hp third_bary hq'
  have b := interp_dY hp third_bary hq
  have b' := interp_dY hp third_bary hq'
  rw [cell_pos hp h] at a a' b b'
  exact ⟨by rw [h2, ← a', a], by rw [h3, ← b', b]⟩

/-- **C61** the exported cells are in equilibrium under twist: if the cells stand for the elements of a section and
carry an exact solution of its torsion problem, the shear strains of a unit twist, `py - z` and `pz + y`, have
no resultant, weighted by modulus and area. -/
theorem C61_no_resultant {s : Section} {cells : List Cell} {u : Fin s.numNodes → ℝ}
    (hg : GoodSection s) (hp : Physical s.elements)
    (hu : SolvesBordered (assembleTorsion s.elements).1 (assembleTorsion s.elements).2 u)
    (h : List.Forall₂ CellOf s.elements cells) (hw : List.Forall₂ (WarpOf u) s.elements cells) :
    (List.zipWith (fun t c => t.material.elasticModulus * c.area * (c.py - c.z)) s.elements cells).sum = 0 ∧
    (List.zipWith (fun t c => t.material.elasticModulus * c.area * (c.pz + c.y)) s.elements cells).sum = 0 := by
  have hd := good_distinct hg
  obtain ⟨r, hr⟩ := exists_feField hg.proper u
  have hload := torsion_load_sum hp hd
  have f1 : FEField s.elements (fun i => (s.meshNodes i).1) (fun _ p => p.1) := fun t ht =>
    ⟨PolyLE.mono (by omega) PolyLE.fst, fun i => by rw [hg.coords t ht]; rfl⟩
  have f2 : FEField s.elements (fun i => (s.meshNodes i).2) (fun _ p => p.2) := fun t ht =>
    ⟨PolyLE.mono (by omega) PolyLE.snd, fun i => by rw [hg.coords t ht]; rfl⟩
  have w1 := bordered_weak hp hd hload hu hr f1
  have w2 := bordered_weak hp hd hload hu hr f2
  rw [load_form hg.proper hd f1, dirichlet] at w1
  rw [load_form hg.proper hd f2, dirichlet] at w2
  simp only [dX_fst, dY_fst, dX_snd, dY_snd, one_mul, zero_mul, add_zero, sub_zero, zero_add, zero_sub] at w1 w2
  have hall := forall₂_and_mem h hw
  have px : ∀ t ∈ s.elements, (fun p => dX (r t) p) ∈ PolyLE 1 := fun t ht => dX_mem (hr t ht).1
  have py : ∀ t ∈ s.elements, (fun p => dY (r t) p) ∈ PolyLE 1 := fun t ht => dY_mem (hr t ht).1
  have lx : ∀ t ∈ s.elements, (fun p : ℝ × ℝ => p.1) ∈ PolyLE 1 := fun t ht => PolyLE.fst
  have ly : ∀ t ∈ s.elements, (fun p : ℝ × ℝ => p.2) ∈ PolyLE 1 := fun t ht => PolyLE.snd
  constructor
  · rw [zip_sum (g := fun t => t.material.elasticModulus * ∫ p in elemRegion t.coords, (dX (r t) p - p.2)) hall]
    · show wInt s.elements (fun t p => dX (r t) p - p.2) = 0
      rw [wInt_sub px ly, w1, sub_self]
    · rintro t c ⟨ht, hc, hw⟩
      rw [affine_mean hc (f := fun p => dX (r t) p - p.2) ((PolyLE 1).sub_mem (px t ht) (ly t ht)), (warp_unique (hg.proper t ht) hc hw (hr t ht)).1]
      ring
  · rw [zip_sum (g := fun t => t.material.elasticModulus * ∫ p in elemRegion t.coords, (dY (r t) p + p.1)) hall]
    · show wInt s.elements (fun t p => dY (r t) p + p.1) = 0
      rw [wInt_add py lx, w2]
      have : wInt s.elements (fun _ p => -p.1) = - wInt s.elements fun _ p => p.1 := by
        have := wInt_smul (els := s.elements) (-1) (fun _ p => p.1)
        simpa only [neg_one_mul] using this
      rw [this]; ring
    · rintro t c ⟨ht, hc, hw⟩
      rw [affine_mean hc (f := fun p => dY (r t) p + p.1) ((PolyLE 1).add_mem (py t ht) (lx t ht)), (warp_unique (hg.proper t ht) hc hw (hr t ht)).2]
      ring

/-! ### C60: the width of the lines -/

theorem loop_lines (maxWidth W : ℤ) : ∀ (tags : List ℤ) (part : Text), '\n' ∉ part →
    ∃ ls : List Text, (mainLoop maxWidth part tags).1 = ls.flatMap (· ++ ['\n']) ∧
      (∀ l ∈ ls, '\n' ∉ l) ∧ '\n' ∉ (mainLoop maxWidth part tags).2 ∧
      (∀ l ∈ ls, maxWidth < l.length) ∧
      ((∀ t ∈ tags, ((pyStr t).length : ℤ) ≤ W) → (part.length : ℤ) ≤ maxWidth → (∀ l ∈ ls, (l.length : ℤ) ≤ maxWidth + W + 2) ∧
        ((0 : ℤ) ≤ maxWidth → ((mainLoop maxWidth part tags).2.length : ℤ) ≤ maxWidth)) ∧
      (ls = [] → (mainLoop maxWidth part tags).2 = part ++ tagText tags)
  | [], part, hn => ⟨[], rfl, by simp, hn, by simp, fun _ h => ⟨by simp, fun _ => h⟩, fun _ => by simp [mainLoop, tagText]⟩
  | t :: tags, part, hn => by
    have hn' : '\n' ∉ part ++ pyStr t ++ [' '] := by
      simp only [List.mem_append, List.mem_singleton, not_or]
      exact ⟨⟨hn, pyStr_no t nl_not_num⟩, by decide⟩
    have hlen : ((part ++ pyStr t ++ [' ']).length : ℤ) = part.length + (pyStr t).length + 1 := by
      simp only [List.length_append, List.length_singleton]; push_cast; ring
    simp only [mainLoop, show " ".toList = [' '] from rfl, show "\\\n".toList = ['\\', '\n'] from rfl]
    split
    · rename_i hgt
      obtain ⟨ls, e1, e2, e3, e4, e5, -⟩ := loop_lines maxWidth W tags [] (by simp)
      refine ⟨(part ++ pyStr t ++ [' '] ++ ['\\']) :: ls, ?_, ?_, e3, ?_, fun hW hp => ?_, nofun⟩
      · rw [e1]; simp
      · intro l hl
        rcases List.mem_cons.1 hl with rfl | hl
        · simp only [List.mem_append, List.mem_singleton, not_or] at hn' ⊢
          exact ⟨hn', by decide⟩
        · exact e2 l hl
      · intro l hl
        rcases List.mem_cons.1 hl with rfl | hl
        · rw [List.length_append]; push_cast; simp; omega
        · exact e4 l hl
      · have hWt := hW t (List.mem_cons_self ..)
        have hW' := fun t' ht' => hW t' (List.mem_cons_of_mem t ht')
        by_cases h0 : (0 : ℤ) ≤ maxWidth
        · obtain ⟨e6, e7⟩ := e5 hW' (by simpa using h0)
          refine ⟨fun l hl => ?_, e7⟩
          rcases List.mem_cons.1 hl with rfl | hl
          · rw [List.length_append]; push_cast; rw [hlen]; simp; omega
          · exact e6 l hl
        · omega
    · rename_i hle
      obtain ⟨ls, e1, e2, e3, e4, e5, e6⟩ := loop_lines maxWidth W tags _ hn'
      refine ⟨ls, e1, e2, e3, e4, fun hW _ => e5 (fun t' ht' => hW t' (List.mem_cons_of_mem t ht')) (by omega), fun h => ?_⟩
      rw [e6 h]
      simp [tagText]

theorem join_lines : ∀ {ls : List Text}, ls ≠ [] → pyJoin ['\n'] ls ++ ['\n'] = ls.flatMap (· ++ ['\n'])
  | [], h => absurd rfl h
  | [t], _ => by simp [pyJoin]
  | t :: u :: ls, _ => by
    have := join_lines (ls := u :: ls) (by simp)
    rw [List.flatMap_cons, ← this, pyJoin]
    · simp only [List.append_assoc]
    · simp

theorem spaced_no : ∀ {ws : List Text}, (∀ w ∈ ws, '\n' ∉ w) → '\n' ∉ spaced ws
  | [], _ => by simp [spaced]
  | [w], h => by simpa [spaced] using h
  | w :: v :: ws, h => by
    rw [spaced_cons, List.mem_append, List.mem_cons, not_or, not_or]
    exact ⟨h w (by simp), by decide, spaced_no fun x hx => h x (List.mem_cons_of_mem _ hx)⟩

theorem command_no {fmt : ℝ → Text} (hf : PlainNumbers fmt) (k : FibreKind) {c : Cell} (hm : '\n' ∉ c.material) :
    '\n' ∉ cellCommand fmt k c := by
  have h1 : ∀ x, '\n' ∉ fmt x := fun x h => nl_not_num (hf x _ h)
  have h2 := pyStr_no c.tag nl_not_num
  have h3 : '\n' ∉ "section".toList := by decide
  have h4 : '\n' ∉ "Cell2D".toList := by decide
  have h5 : '\n' ∉ "Cell3D".toList := by decide
  have h6 : '\n' ∉ "Cell3DOS".toList := by decide
  cases k
  · show '\n' ∉ spaced _
    refine spaced_no fun w hw => ?_
    simp only [List.mem_cons, List.not_mem_nil, or_false] at hw
    rcases hw with rfl | rfl | rfl | rfl | rfl | rfl
    exacts [h3, h4, h2, h1 _, hm, h1 _]
  · show '\n' ∉ spaced _
    refine spaced_no fun w hw => ?_
    simp only [List.mem_cons, List.not_mem_nil, or_false] at hw
    rcases hw with rfl | rfl | rfl | rfl | rfl | rfl | rfl
    exacts [h3, h5, h2, h1 _, hm, h1 _, h1 _]
  · show '\n' ∉ spaced _
    refine spaced_no fun w hw => ?_
    simp only [List.mem_cons, List.not_mem_nil, or_false] at hw
    rcases hw with rfl | rfl | rfl | rfl | rfl | rfl | rfl | rfl | rfl | rfl
    exacts [h3, h6, h2, h1 _, h1 _, h1 _, h1 _, hm, h1 _, h1 _]

theorem comment_no : ∀ l ∈ fibreComment.map String.toList, '\n' ∉ l := by decide

theorem lines_append {t t' : Text} {ls ls' : List Text} (h : Lines t ls) (h' : Lines t' ls') :
    Lines (t ++ t') (ls ++ ls') :=
  ⟨by rw [h.1, h'.1, List.flatMap_append], fun l hl => by
    rcases List.mem_append.1 hl with hl | hl
    exacts [h.2 l hl, h'.2 l hl]⟩

theorem class_no (k : FibreKind) : '\n' ∉ k.fibreClass := by cases k <;> decide

theorem start_eq (k : FibreKind) (mainTag : ℤ) (tags : List ℤ) :
    "section ".toList ++ k.fibreClass ++ " ".toList ++ pyStr mainTag ++ " ".toList ++ tagText tags =
      spaced (mainWords k mainTag tags) ++ [' '] := by
  have h := spaced_tags (pyStr mainTag) tags
  have key : ∀ cls : Text, "section ".toList ++ cls ++ " ".toList ++ pyStr mainTag ++ " ".toList ++ tagText tags =
      spaced ("section".toList :: cls :: pyStr mainTag :: tags.map pyStr) ++ [' '] := by
    intro cls
    rw [spaced_cons, spaced_cons, sec_sp, kwSp]
    simp only [List.append_assoc, List.cons_append, List.nil_append] at h ⊢
    rw [h]
  cases k
  · exact key "Fibre2D".toList
  · exact key "Fibre3D".toList
  · exact key "Fibre3DOS".toList

theorem main_lines (k : FibreKind) (mainTag maxWidth W : ℤ) (tags : List ℤ) :
    ∃ ls : List Text, Lines (mainCommand k mainTag maxWidth tags) (ls ++ [[]]) ∧
      (maxWidth < (spaced (mainWords k mainTag tags)).length + 1 → ∃ l ∈ ls, maxWidth < l.length) ∧
      (((spaced (mainWords k mainTag [])).length : ℤ) + 1 ≤ maxWidth → 0 ≤ W →
        (∀ t ∈ tags, ((pyStr t).length : ℤ) ≤ W) → ∀ l ∈ ls, (l.length : ℤ) ≤ maxWidth + W + 2) := by
  have hst : '\n' ∉ "section ".toList ++ k.fibreClass ++ " ".toList ++ pyStr mainTag ++ " ".toList := by
    have a1 : '\n' ∉ "section ".toList := by decide
    have a2 : '\n' ∉ " ".toList := by decide
    simp only [List.mem_append, not_or]
    exact ⟨⟨⟨⟨a1, class_no k⟩, a2⟩, pyStr_no mainTag nl_not_num⟩, a2⟩
  obtain ⟨ls, e1, e2, e3, e4, e5, e6⟩ := loop_lines maxWidth W tags _ hst
  have s0 := start_eq k mainTag []
  have s1 := start_eq k mainTag tags
  rw [show tagText [] = [] from rfl, List.append_nil] at s0
  refine ⟨ls ++ [(mainLoop maxWidth ("section ".toList ++ k.fibreClass ++ " ".toList ++ pyStr mainTag ++ " ".toList) tags).2],
    ⟨?_, ?_⟩, fun h => ?_, fun h h0 hW l hl => ?_⟩
  · delta mainCommand
    show _ ++ _ ++ "\n\n".toList = _
    rw [e1, show "\n\n".toList = ['\n', '\n'] from rfl]
    simp
  · intro l hl
    rw [List.mem_append, List.mem_append, List.mem_singleton, List.mem_singleton] at hl
    rcases hl with (hl | rfl) | rfl
    exacts [e2 l hl, e3, by simp]
  · cases ls with
    | nil =>
      refine ⟨_, List.mem_append_right _ (List.mem_singleton.2 rfl), ?_⟩
      rw [e6 rfl, s1, List.length_append]
      simpa using h
    | cons l ls => exact ⟨l, by simp, e4 l (by simp)⟩
  · have hp : (("section ".toList ++ k.fibreClass ++ " ".toList ++ pyStr mainTag ++ " ".toList).length : ℤ) ≤ maxWidth := by
      rw [s0, List.length_append]; push_cast; simpa using h
    obtain ⟨e7, e8⟩ := e5 hW hp
    rw [List.mem_append, List.mem_singleton] at hl
    rcases hl with hl | rfl
    · exact e7 l hl
    · have := e8 (by omega)
      omega

/-- The lines of the exported text. -/
theorem text_lines {fmt : ℝ → Text} (hf : PlainNumbers fmt) (k : FibreKind) (mainTag maxWidth : ℤ) {cells : List Cell}
    (hne : cells ≠ []) (hm : ∀ c ∈ cells, '\n' ∉ c.material) {ls : List Text}
    (h : Lines (mainCommand k mainTag maxWidth (cells.map (·.tag))) (ls ++ [[]])) :
    Lines (fibreText fmt k mainTag maxWidth cells)
      (fibreComment.map String.toList ++ ls ++ [[]] ++ cells.map (cellCommand fmt k) ++ [[]]) := by
  have e1 : Cell.export fmt k = cellCommand fmt k := funext fun c => export_command fmt k c
  have e2 : fibreText fmt k mainTag maxWidth cells = (fibreComment.map String.toList).flatMap (· ++ ['\n'])
      ++ mainCommand k mainTag maxWidth (cells.map (·.tag)) ++ (cells.map (cellCommand fmt k)).flatMap (· ++ ['\n']) ++ ['\n'] := by
    delta fibreText fibreHeader
    rw [← join_lines (ls := cells.map (cellCommand fmt k)) (by simpa using hne), show "\n".toList = ['\n'] from rfl,
      show "\n\n".toList = ['\n'] ++ ['\n'] from rfl, List.flatMap_map, e1]
    simp only [List.append_assoc]
  rw [e2, List.append_assoc (fibreComment.map String.toList)]
  refine lines_append (lines_append (lines_append ⟨rfl, comment_no⟩ h) ⟨rfl, fun l hl => ?_⟩) ⟨rfl, by simp⟩
  obtain ⟨c, hc, rfl⟩ := List.mem_map.1 hl
  exact command_no hf k (hm c hc)

/-- What a successful export without mapping looks like, line by line. -/
theorem export_lines {sv : Solvers} {fmt : ℝ → Text} {obj : FibreArg} {mainTag maxWidth : ℤ} {ty text : Text}
    (hf : PlainNumbers fmt) (h : toFibreSection sv fmt obj mainTag ty none maxWidth = .ok text) (W : ℤ) :
    ∃ g k s cells, (obj = .geometry g ∨ obj = .section g) ∧ fibreKind ty = .ok k ∧ Section.init g = .ok s ∧
      cells.length = s.elements.length ∧ cells.map (·.tag) = s.elements.map (fun t => (t.elId : ℤ) + 1 + mainTag) ∧
      (cells ≠ [] → ∃ ls, Lines text (fibreComment.map String.toList ++ ls ++ [[]] ++ cells.map (cellCommand fmt k) ++ [[]]) ∧
          (maxWidth < (spaced (mainWords k mainTag (cells.map (·.tag)))).length + 1 → ∃ l ∈ ls, maxWidth < l.length) ∧
          (((spaced (mainWords k mainTag [])).length : ℤ) + 1 ≤ maxWidth → 0 ≤ W →
            (∀ t ∈ cells.map (·.tag), ((pyStr t).length : ℤ) ≤ W) → ∀ l ∈ ls, (l.length : ℤ) ≤ maxWidth + W + 2)) := by
  obtain ⟨g, k, s, cells, ho, hk, hs, hc, ht⟩ := toFibre_ok h
  obtain ⟨om, -, -, hcells⟩ := fibreCells_eq hc
  refine ⟨g, k, s, cells, ho, hk, hs, by rw [hcells, List.length_map], ?_, fun hne => ?_⟩
  · rw [hcells, List.map_map]; rfl
  obtain ⟨ls, l1, l2, l3⟩ := main_lines k mainTag maxWidth W (cells.map (·.tag))
  refine ⟨ls, ?_, l2, l3⟩
  rw [ht]
  refine text_lines hf k mainTag maxWidth hne (fun c hc => ?_) l1
  rw [hcells] at hc
  obtain ⟨t, -, rfl⟩ := List.mem_map.1 hc
  exact newline_not_mem _

theorem pyStr_ne_nil (n : ℤ) : pyStr n ≠ [] := by
  unfold pyStr
  split
  · simp
  · exact Nat.toDigits_ne_nil

theorem tagText_length : ∀ tags : List ℤ, 2 * tags.length ≤ (tagText tags).length
  | [] => by simp
  | t :: tags => by
    have h1 := tagText_length tags
    have h2 := List.length_pos_of_ne_nil (pyStr_ne_nil t)
    rw [show tagText (t :: tags) = pyStr t ++ [' '] ++ tagText tags from rfl]
    simp only [List.length_append, List.length_cons, List.length_nil]
    omega

/-- **C60** is violated whenever the main command does not fit on one line: `max_width` is documented as the
maximum width of a line, but a line is ended only after it has become wider.  Each exported text of a section with
at least `max_width / 2` elements has a line that is wider than `max_width`. -/
theorem C60_violated {sv : Solvers} {fmt : ℝ → Text} {obj : FibreArg} {mainTag maxWidth : ℤ} {ty text : Text}
    (hf : PlainNumbers fmt) (h : toFibreSection sv fmt obj mainTag ty none maxWidth = .ok text)
    (hn : ∀ g s, obj = .geometry g ∨ obj = .section g → Section.init g = .ok s →
      s.elements ≠ [] ∧ maxWidth ≤ 2 * s.elements.length) :
    ∃ ls, Lines text ls ∧ ∃ l ∈ ls, maxWidth < l.length := by
  obtain ⟨g, k, s, cells, ho, hk, hs, hl, ht, hall⟩ := export_lines hf h 0
  obtain ⟨h1, h2⟩ := hn g s ho hs
  have hne : cells ≠ [] := by
    rw [← List.length_pos_iff] at h1 ⊢; omega
  obtain ⟨ls, l1, l2, -⟩ := hall hne
  obtain ⟨l, hl', hlt⟩ := l2 (by
    have e := congrArg List.length (start_eq k mainTag (cells.map (·.tag)))
    have e2 := tagText_length (cells.map (·.tag))
    have e3 : 0 < ("section ".toList ++ k.fibreClass ++ " ".toList ++ pyStr mainTag ++ " ".toList).length := by
      rw [List.length_pos_iff]; simp
    rw [List.length_append, List.length_append (bs := [' '])] at e
    rw [List.length_map] at e2
    simp only [List.length_singleton] at e
    omega)
  exact ⟨_, l1, l, by simp [hl'], hlt⟩

/-- **C60, part.** How wide the lines can become: if the start of the main command fits, the lines of the text other
than those of the comment and of the cells exceed `max_width` at most by two characters and the length of a tag.
(What is missing: that they do not exceed it, which is false; and a bound for the cells.) -/
theorem C60_bound_partial {sv : Solvers} {fmt : ℝ → Text} {obj : FibreArg} {mainTag maxWidth W : ℤ} {ty text : Text}
    (hf : PlainNumbers fmt) (h : toFibreSection sv fmt obj mainTag ty none maxWidth = .ok text)
    (hW : ∀ g s, obj = .geometry g ∨ obj = .section g → Section.init g = .ok s → s.elements ≠ [] ∧
      ∀ i < s.elements.length, ((pyStr (mainTag + 1 + (i : ℤ))).length : ℤ) ≤ W)
    (hstart : ∀ k, fibreKind ty = .ok k → ((spaced (mainWords k mainTag [])).length : ℤ) + 1 ≤ maxWidth) :
    ∃ comments main cells : List Text, Lines text (comments ++ main ++ [[]] ++ cells ++ [[]]) ∧
      (∀ l ∈ comments, l.head? = some '#') ∧
      (∀ l ∈ cells, ∃ k c, fibreKind ty = .ok k ∧ l = cellCommand fmt k c) ∧
      ∀ l ∈ main, (l.length : ℤ) ≤ maxWidth + W + 2 := by
  obtain ⟨g, k, s, cells, ho, hk, hs, hl, ht, hall⟩ := export_lines hf h W
  obtain ⟨h1, h2⟩ := hW g s ho hs
  have hne : cells ≠ [] := by
    rw [← List.length_pos_iff] at h1 ⊢; omega
  have hpos : 0 < s.elements.length := List.length_pos_of_ne_nil h1
  obtain ⟨ls, l1, -, l3⟩ := hall hne
  refine ⟨_, ls, _, l1, by decide, fun l hl => ?_, l3 (hstart k hk) ((Int.natCast_nonneg _).trans (h2 0 hpos)) fun t htag => ?_⟩
  · obtain ⟨c, -, rfl⟩ := List.mem_map.1 hl
    exact ⟨k, c, hk, rfl⟩
  · rw [ht] at htag
    obtain ⟨e, he, rfl⟩ := List.mem_map.1 htag
    have : e.elId ∈ s.elements.map (·.elId) := List.mem_map.2 ⟨e, he, rfl⟩
    rw [init_ids hs, List.mem_range] at this
    have := h2 _ this
    rwa [show (e.elId : ℤ) + 1 + mainTag = mainTag + 1 + (e.elId : ℤ) by ring]

/-! ### C52: what the mapping of materials can destroy -/

/-- The composite rectangle with other names of the materials. -/
noncomputable def exNamed (a b : String) : GeomIn :=
  ⟨[⟨0, { exConcrete with name := a }⟩, ⟨1, { exSteel with name := b }⟩], some exMesh⟩

theorem exNamed_init (a b : String) : ∃ (s : Section) (t0 t1 : Tri6 s.numNodes), Section.init (exNamed a b) = .ok s ∧
    s.elements = [t0, t1] ∧ t0.material.name = a ∧ t1.material.name = b := by
  obtain ⟨s, hs⟩ := ((C46_section_checks (exNamed a b)).2 exMesh rfl).2 1 (by simp [exMesh, List.max?]) rfl (by simp [exMesh])
  obtain ⟨m, mx, hm, -, -, els, hf, rfl⟩ := init_ok hs
  have hm : m = exMesh := (Option.some.inj hm).symm
  subst hm
  have hz : exMesh.triangles.zipIdx = [(exR0, 0), (exR1, 1)] := rfl
  rw [hz] at hf
  cases hf with
  | cons h1 h2 =>
    cases h2 with
    | cons h2 h3 =>
      cases h3
      rename_i e0 e1
      obtain ⟨a0, ha0, hb0, hc0⟩ := mkElement_ok h1
      obtain ⟨a1, ha1, hb1, hc1⟩ := mkElement_ok h2
      have ha0 : a0 = 0 := by simpa [exMesh] using ha0.symm
      have ha1 : a1 = 1 := by simpa [exMesh] using ha1.symm
      subst ha0 ha1
      refine ⟨_, e0.1, e1.1, hs, rfl, ?_, ?_⟩
      · rw [hc0]; simp [exNamed] at hb0; rw [← hb0]
      · rw [hc1]; simp [exNamed] at hb1; rw [← hb1]

theorem toFibre_geometry (sv : Solvers) (fmt : ℝ → Text) (g : GeomIn) (mainTag : ℤ) (ty : Text)
    (mapping : Option (List (Text × ℤ))) (maxWidth : ℤ) : toFibreSection sv fmt (.geometry g) mainTag ty mapping maxWidth =
      fibreOf sv fmt mainTag ty mapping maxWidth g := rfl

theorem steel_foreign : Foreign "steel".toList :=
  ⟨⟨'s', by decide, by unfold NumChar; decide⟩, by decide +kernel, by decide +kernel⟩
theorem steel2_foreign : Foreign "steel-2".toList :=
  ⟨⟨'s', by decide, by unfold NumChar; decide⟩, by decide +kernel, by decide +kernel⟩

theorem dashed_steel : dashed "steel".toList = "steel".toList := by decide
theorem dashed_steel2 : dashed "steel 2".toList = "steel-2".toList := by decide

theorem export2D_length (fmt : ℝ → Text) (c : Cell) (m : Text) :
    (({ c with material := m } : Cell).export fmt .two).length =
      (({ c with material := [] } : Cell).export fmt .two).length + m.length := by
  show (Cell.export2D fmt _).length = (Cell.export2D fmt _).length + _
  delta Cell.export2D
  simp only [List.length_append, List.length_nil]
  ring

theorem text2D_length (fmt : ℝ → Text) (mainTag maxWidth : ℤ) (a b : Cell) (m m' : Text) :
    (fibreText fmt .two mainTag maxWidth [{ a with material := m }, { b with material := m' }]).length =
      (fibreText fmt .two mainTag maxWidth [{ a with material := [] }, { b with material := [] }]).length
        + m.length + m'.length := by
  delta fibreText
  simp only [List.map_cons, List.map_nil, pyJoin, List.length_append]
  rw [export2D_length fmt a m, export2D_length fmt b m']
  ring

/-- **C52** is violated: the order of the entries matters.  A section with the materials "steel" and "steel 2" is
exported with different texts for the same mapping given in two orders, because "steel" is replaced within
"steel-2". -/
theorem C52_violated {fmt : ℝ → Text} (hf : PlainNumbers fmt) (sv : Solvers) (mainTag maxWidth : ℤ) :
    ∃ t t', toFibreSection sv fmt (.geometry (exNamed "steel" "steel 2")) mainTag "2D".toList
        (some [("steel".toList, 1), ("steel 2".toList, 2)]) maxWidth = .ok t ∧
      toFibreSection sv fmt (.geometry (exNamed "steel" "steel 2")) mainTag "2D".toList
        (some [("steel 2".toList, 2), ("steel".toList, 1)]) maxWidth = .ok t' ∧ t ≠ t' := by
  obtain ⟨s, t0, t1, hs, he, h0, h1⟩ := exNamed_init "steel" "steel 2"
  have hk : fibreKind "2D".toList = .ok .two := by decide
  have hgo : ∀ mp, toFibreSection sv fmt (.geometry (exNamed "steel" "steel 2")) mainTag "2D".toList (some mp) maxWidth
      = .ok (mapMaterials mp (fibreText fmt .two mainTag maxWidth
        (s.elements.map fun t => { mkCell t none with tag := (mkCell t none).tag + mainTag }))) := by
    intro mp
    rw [toFibre_geometry]
    delta fibreOf
    simp only [hk, hs]
    rfl
  refine ⟨_, _, hgo _, hgo _, ?_⟩
  have f1 : ∀ p ∈ [("steel".toList, (1 : ℤ)), ("steel 2".toList, 2)], Foreign (dashed p.1) := by
    intro p hp
    simp only [List.mem_cons, List.not_mem_nil, or_false] at hp
    rcases hp with rfl | rfl
    · simp only [dashed_steel]; exact steel_foreign
    · simp only [dashed_steel2]; exact steel2_foreign
  have f2 : ∀ p ∈ [("steel 2".toList, (2 : ℤ)), ("steel".toList, 1)], Foreign (dashed p.1) := by
    intro p hp
    exact f1 p (by simp only [List.mem_cons] at hp ⊢; tauto)
  rw [C52_only_materials_partial hf _ _ _ _ _ f1, C52_only_materials_partial hf _ _ _ _ _ f2, he]
  have m0 : (mkCell t0 none).material = "steel".toList := by
    show dashed t0.material.name.toList = _
    rw [h0]; exact dashed_steel
  have m1 : (mkCell t1 none).material = "steel-2".toList := by
    show dashed t1.material.name.toList = _
    rw [h1]; exact dashed_steel2
  simp only [List.map_cons, List.map_nil, m0, m1]
  intro h
  have h := congrArg List.length h
  have l1 := text2D_length fmt mainTag maxWidth { mkCell t0 none with tag := (mkCell t0 none).tag + mainTag }
    { mkCell t1 none with tag := (mkCell t1 none).tag + mainTag }
  have h := (l1 _ _).symm.trans (h.trans (l1 _ _))
  have e1 : (mapMaterials [("steel".toList, 1), ("steel 2".toList, 2)] "steel".toList).length = 1 := by decide
  have e2 : (mapMaterials [("steel".toList, 1), ("steel 2".toList, 2)] "steel-2".toList).length = 3 := by decide
  have e3 : (mapMaterials [("steel 2".toList, 2), ("steel".toList, 1)] "steel".toList).length = 1 := by decide
  have e4 : (mapMaterials [("steel 2".toList, 2), ("steel".toList, 1)] "steel-2".toList).length = 1 := by decide
  omega

theorem replace_char {c : Char} {new : Text} (hn : c ∉ new) : ∀ (k : ℕ) (t : Text), t.length ≤ k →
    c ∉ replaceNonempty [c] new k t
  | 0, t, h => by
    have : t = [] := List.length_eq_zero_iff.1 (by omega)
    subst this; simp [replaceNonempty]
  | k + 1, [], _ => by simp [replaceNonempty]
  | k + 1, d :: t, h => by
    rw [List.length_cons] at h
    rw [replaceNonempty]
    split
    · rw [List.mem_append, not_or]
      refine ⟨hn, ?_⟩
      rw [show (d :: t).drop [c].length = t from rfl]
      exact replace_char hn k t (by omega)
    · rename_i hp
      rw [List.mem_cons, not_or]
      refine ⟨fun e => hp (by simp [e]), replace_char hn k t (by omega)⟩

theorem second_mem {c : Char} (v x : Text) (ws : List Text) {w : Text} (h : c ∈ w) : c ∈ spaced (v :: w :: x :: ws) := by
  rw [spaced_cons, spaced_cons]
  exact List.mem_append_right _ (List.mem_cons_of_mem _ (List.mem_append_left _ h))

/-- **C52** is violated by names that occur in the keywords: the text exported with a mapping for a material named
"D" does not contain the letter, so the commands `Fibre2D` and `Cell2D` of the text are destroyed. -/
theorem C52_keyword_violated {sv : Solvers} {fmt : ℝ → Text} {obj : FibreArg} {mainTag maxWidth n : ℤ} {ty text : Text}
    (h : toFibreSection sv fmt obj mainTag ty (some [("D".toList, n)]) maxWidth = .ok text) :
    'D' ∉ text ∧ ∀ k mainTag tags c, ¬ spaced (mainWords k mainTag tags) <:+: text ∧ ¬ cellCommand fmt k c <:+: text := by
  obtain ⟨g, k, s, cells, -, -, -, -, ht⟩ := toFibre_ok h
  have hD : 'D' ∉ text := by
    rw [ht]
    show 'D' ∉ pyReplace (dashed "D".toList) (pyStr n) _
    rw [show dashed "D".toList = ['D'] by decide, pyReplace, if_neg (by simp)]
    exact replace_char (pyStr_no n (by unfold NumChar; decide)) _ _ le_rfl
  refine ⟨hD, fun k mainTag tags c => ⟨fun hi => hD (hi.subset ?_), fun hi => hD (hi.subset ?_)⟩⟩
  · have h1 : 'D' ∈ "Fibre2D".toList := by decide
    have h2 : 'D' ∈ "Fibre3D".toList := by decide
    have h3 : 'D' ∈ "Fibre3DOS".toList := by decide
    cases k
    exacts [second_mem _ _ _ h1, second_mem _ _ _ h2, second_mem _ _ _ h3]
  · have h1 : 'D' ∈ "Cell2D".toList := by decide
    have h2 : 'D' ∈ "Cell3D".toList := by decide
    have h3 : 'D' ∈ "Cell3DOS".toList := by decide
    cases k
    exacts [second_mem _ _ _ h1, second_mem _ _ _ h2, second_mem _ _ _ h3]

/-- **C52, part** (for the export): with a mapping whose names occur neither in numbers nor in the comment nor in
keywords nor as proper parts of names of materials, the export is that without a mapping, except that each material
with an entry is given by its tag. -/
theorem C52_export_partial {sv : Solvers} {fmt : ℝ → Text} (hf : PlainNumbers fmt) {obj : FibreArg}
    {mainTag maxWidth : ℤ} {ty text : Text} {mapping : List (Text × ℤ)}
    (h : toFibreSection sv fmt obj mainTag ty (some mapping) maxWidth = .ok text)
    (hm : ∀ p ∈ mapping, Foreign (dashed p.1))
    (hpart : ∀ g s, obj = .geometry g ∨ obj = .section g → Section.init g = .ok s → ∀ p ∈ mapping, ∀ t ∈ s.elements,
      dashed p.1 <:+: dashed t.material.name.toList → dashed t.material.name.toList = dashed p.1) :
    ∃ k cells, toFibreSection sv fmt obj mainTag ty none maxWidth = .ok (fibreText fmt k mainTag maxWidth cells) ∧
      text = fibreText fmt k mainTag maxWidth (cells.map fun c => { c with material := entryFor mapping c.material }) := by
  obtain ⟨g, k, s, cells, ho, hk, hs, hc, ht⟩ := toFibre_ok h
  refine ⟨k, cells, ?_, ?_⟩
  · have hgo : toFibreSection sv fmt obj mainTag ty none maxWidth = fibreOf sv fmt mainTag ty none maxWidth g := by
      rcases ho with rfl | rfl <;> rfl
    rw [hgo]
    delta fibreOf
    simp only [hk, hs, hc]
    rfl
  · rw [ht]
    show mapMaterials mapping _ = _
    obtain ⟨om, -, -, hcells⟩ := fibreCells_eq hc
    refine C52_mapping_partial hf k mainTag maxWidth cells mapping hm fun p hp c hcm => ?_
    rw [hcells] at hcm
    obtain ⟨t, htm, rfl⟩ := List.mem_map.1 hcm
    exact hpart g s ho hs p hp t htm

/-! ### Non-vacuity -/

/-- The composite rectangle can be exported in all three ways, with the tags 11 and 12 for the main tag 10. -/
example (fmt : ℝ → Text) : (∃ text, toFibreSection exactSolvers fmt (.section exGeom) 10 "2d".toList none 160 = .ok text) ∧
    (∃ text, toFibreSection exactSolvers fmt (.section exGeom) 10 "3D".toList none 160 = .ok text) := by
  obtain ⟨-, h⟩ := C51_success exactSolvers fmt 10 160 none "2d".toList
  obtain ⟨-, h'⟩ := C51_success exactSolvers fmt 10 160 none "3D".toList
  exact ⟨(h exGeom _ (.inr rfl)).2.2.1 _ exSection_init (by decide), (h' exGeom _ (.inr rfl)).2.2.1 _ exSection_init (by decide)⟩

theorem ex_torsion_origin : (assembleTorsion exSection.elements).1.mulVec
    (exactSolvers.spsolve (assembleTorsion exSection.elements).1
      (Fin.snoc (α := fun _ => ℝ) (assembleTorsion exSection.elements).2 0))
    = Fin.snoc (α := fun _ => ℝ) (assembleTorsion exSection.elements).2 0 := by
  have hc : ConnectedMesh exSection.elements := by
    have := ex_linked 0 0
    have e : ([exT0, exT1].map fun t => t.shiftBy 0 0) = [exT0, exT1] := by
      simp [Tri6.shiftBy, Coords.shift]
    rw [e] at this
    exact this
  exact exactSolvers_spec ((C18_unique_iff_connected exSection_physical (good_distinct exSection_good)).2 hc _).exists

example (fmt : ℝ → Text) :
    ∃ text, toFibreSection exactSolvers fmt (.geometry exGeom) 10 "3DOS".toList none 160 = .ok text :=
  ((C51_success exactSolvers fmt 10 160 none "3DOS".toList).2 exGeom _ (.inl rfl)).2.2.2 _ exSection_init (by decide)
    exSection_good exSection_physical ex_torsion_origin

/-- A formatting of numbers. -/
example : PlainNumbers fun _ => "1.00000000e+00".toList := by
  have : ∀ c ∈ "1.00000000e+00".toList, NumChar c := by unfold NumChar; decide
  exact fun _ => this

/-- Names of materials that satisfy the conditions of C52. -/
example : Foreign (dashed "steel grade 300".toList) ∧ Foreign (dashed "concrete".toList) ∧
    ¬ Foreign (dashed "section".toList) :=
  ⟨⟨⟨'s', by decide, by unfold NumChar; decide⟩, by decide +kernel, by decide +kernel⟩,
    ⟨⟨'c', by decide, by unfold NumChar; decide⟩, by decide +kernel, by decide +kernel⟩,
    fun h => absurd h.notKeyword (by decide +kernel)⟩

end SP
