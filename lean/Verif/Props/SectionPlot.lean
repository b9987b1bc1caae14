import Verif.Model.SectionPlot
import Verif.Spec.SectionPlot
import Verif.Props.History
import Verif.Props.Construct
import Verif.Props.PlasticExample
import Verif.Props.ShapeFactor

/-!
# C84: plots of a section show what has been computed
-/

namespace SP

open Classical Spec

section
variable {n : ℕ} (p : Store n)

theorem ignore_of {α : Type} {x : Except PyErr α} (h : ∀ e, x = .error e → e = .runtimeError) :
    ∃ o, ignoreRuntime x = .ok o ∧ ∀ a, o = some a ↔ x = .ok a := by
  cases x with
  | ok a => exact ⟨some a, rfl, fun b => by simp⟩
  | error e =>
    obtain rfl := h e rfl
    exact ⟨none, rfl, fun b => by simp⟩

theorem getC_err : ∀ e, getC p = .error e → e = .runtimeError := by
  intro e h; unfold getC at h; split at h <;> simp_all
theorem getSc_err : ∀ e, getSc p = .error e → e = .runtimeError := by
  intro e h; unfold getSc at h; split at h <;> simp_all
theorem getPc_err : ∀ e, getPc p = .error e → e = .runtimeError := by
  intro e h; unfold getPc at h; split at h <;> simp_all
theorem getPcP_err : ∀ e, getPcP p = .error e → e = .runtimeError := by
  intro e h; unfold getPcP at h; split at h <;> simp_all
theorem getPhi_err : ∀ e, getPhi p = .error e → e = .runtimeError := by
  intro e h; unfold getPhi at h; split at h <;> simp_all

theorem mem_mark {l l' : String} {o : Option (ℝ × ℝ)} {q : ℝ × ℝ} : (l, q) ∈ mark l' o ↔ l = l' ∧ o = some q := by
  cases o <;> simp [mark, eq_comm]

theorem list2_inj {x : Except PyErr (ℝ × ℝ)} {a b : ℝ} : x.map list2 = .ok [a, b] ↔ x = .ok (a, b) := by
  cases x with
  | error e => simp [Except.map]
  | ok v => simp [Except.map, list2, Prod.ext_iff]

/-- **C84** (1).  `plot_centroids` never raises, whatever has been computed: it marks exactly those centres
that the getters report, each once and at the reported position, and draws the principal axes exactly if angle
and centroid are reported, at that angle and through that point. -/
theorem C84_centroids (ms : List MatObj) (e : ERef) : ∃ q, plotCentroids p = .ok q ∧
    (∀ l g, (l, g) ∈ centreGetters → ∀ x y, (l, (x, y)) ∈ q.marks ↔ callGetter g ms p e = .ok [x, y]) ∧
    (q.marks.map Prod.fst).Sublist (centreGetters.map Prod.fst) ∧
    ∀ φ x y, q.axes = some (φ, (x, y)) ↔ ∃ deg, callGetter .getPhi ms p e = .ok [deg] ∧
      φ = deg * Real.pi / 180 ∧ callGetter .getC ms p e = .ok [x, y] := by
  obtain ⟨o1, h1, h1'⟩ := ignore_of (getC_err p)
  obtain ⟨o2, h2, h2'⟩ := ignore_of (getSc_err p)
  obtain ⟨o3, h3, h3'⟩ := ignore_of (getPc_err p)
  obtain ⟨o4, h4, h4'⟩ := ignore_of (getPcP_err p)
  obtain ⟨o5, h5, h5'⟩ := ignore_of (x := (do
    let phi ← getPhi p
    let c ← getC p
    pure (phi * Real.pi / 180, c) : Except PyErr (ℝ × (ℝ × ℝ)))) (by
      intro e he
      cases hp : getPhi p with
      | error e' => rw [hp] at he; obtain rfl : e' = e := Except.error.inj he; exact getPhi_err p _ hp
      | ok v =>
        cases hc : getC p with
        | error e' => rw [hp, hc] at he; obtain rfl : e' = e := Except.error.inj he; exact getC_err p _ hc
        | ok w => rw [hp, hc] at he; cases he)
  refine ⟨⟨mark "Elastic centroid" o1 ++ mark "Shear centre" o2 ++ mark "Global plastic centroid" o3
    ++ mark "Principal plastic centroid" o4, o5⟩, ?_, ?_, ?_, ?_⟩
  · unfold plotCentroids
    rw [h1, h2, h3, h4, h5]
    rfl
  · intro l g hl x y
    simp only [centreGetters, List.mem_cons, List.not_mem_nil, or_false, Prod.mk.injEq] at hl
    simp only [List.mem_append, mem_mark, h1', h2', h3', h4']
    rcases hl with ⟨rfl, rfl⟩ | ⟨rfl, rfl⟩ | ⟨rfl, rfl⟩ | ⟨rfl, rfl⟩ <;>
      simp [callGetter, list2_inj]
  · have hs : ∀ l o, ((mark l o).map Prod.fst).Sublist [l] := by
      intro l o
      cases o <;> simp [mark]
    simp only [List.map_append]
    exact (((hs _ _).append (hs _ _)).append (hs _ _)).append (hs _ _)
  · intro φ x y
    simp only [h5', callGetter, list2_inj]
    cases hp : getPhi p with
    | error e' => simp [Except.map, bind, Except.bind]
    | ok v =>
      cases hc : getC p with
      | error e' => simp [Except.map, bind, Except.bind, list1]
      | ok w =>
        simp [Except.map, bind, Except.bind, pure, Except.pure, list1, eq_comm]

end

variable {P : Type} (env : Env P)


/-- A value that none of the calls writes is not there. -/
theorem never_written {f : Field} (h : List Env.Call)
    (hw : ∀ c ∈ h, (∀ s, (env.step c s).2.val f = s.val f)) : (env.after h).val f = none := by
  induction h using List.reverseRecOn with
  | nil => rfl
  | append_singleton h c ih =>
    rw [after_concat, hw c (by simp)]
    exact ih fun c hc => hw c (by simp [hc])


/-- The values a geometric analysis may write. -/
def geometricFields : List Field :=
  [.area, .perimeter, .mass, .ea, .ga, .qx, .qy, .ixxG, .iyyG, .ixyG, .nuEff, .eEff, .gEff, .cx, .cy, .ixxC,
   .iyyC, .ixyC, .zxxPlus, .zxxMinus, .zyyPlus, .zyyMinus, .rxC, .ryC, .i11C, .i22C, .phi, .z11Plus, .z11Minus,
   .z22Plus, .z22Minus, .r11C, .r22C, .myXX, .myYY, .my11, .my22]

theorem pres_geometric : Pres (OnlyVals geometricFields) env.geometric := by
  have hr : ∀ a : Store env.sec.numNodes, OnlyVals geometricFields a a := OnlyVals.refl
  have ht : ∀ a b c : Store env.sec.numNodes, OnlyVals geometricFields a b → OnlyVals geometricFields b c →
    OnlyVals geometricFields a c := fun _ _ _ => OnlyVals.trans
  unfold Env.geometric Env.centroidalProperties Env.yieldMoments
  pres hr ht with first
    | exact pres_elasticCentroid hr ht fun s v w => OnlyVals.set _ (by simp [geometricFields])
    | (with_reducible refine Pres.write _ fun s => OnlyVals.set s ?_); simp [geometricFields]

theorem no_shear_centre (h : List Env.Call) (hn : ∀ c ∈ h, ¬ Warping c) : (env.after h).val .xSe = none := by
  refine never_written env h fun c hc s => ?_
  have hcg := hn c hc
  cases c with
  | geometric => rw [step_geometric, (pres_geometric env _).1 _ (by simp [geometricFields])]
  | warping ty => exact absurd trivial hcg
  | frame ty => rw [step_frame, pres_frame env ty _ _ (by simp [frameFields])]
  | plastic => rw [step_plastic, (pres_plastic env _).1 _ (by simp [plasticFields])]
  | stress a => rw [step_stress, (pres_stress env a _).eq]
  | stressPoints q agg a pts => rw [step_stressPoints, (pres_stressPoints env q agg a pts _).eq]

theorem no_plastic_centroid (h : List Env.Call) (hn : ∀ c ∈ h, ¬ PlasticCall c) :
    (env.after h).val .xPc = none ∧ (env.after h).val .x11Pc = none := by
  constructor <;>
  · refine never_written env h fun c hc s => ?_
    have hcg := hn c hc
    cases c with
    | geometric => rw [step_geometric, (pres_geometric env _).1 _ (by simp [geometricFields])]
    | warping ty => rw [step_warping, pres_warping env ty _ _ (by simp [warpFields])]
    | frame ty => rw [step_frame, pres_frame env ty _ _ (by simp [frameFields])]
    | plastic => exact absurd trivial hcg
    | stress a => rw [step_stress, (pres_stress env a _).eq]
    | stressPoints q agg a pts => rw [step_stressPoints, (pres_stressPoints env q agg a pts _).eq]

theorem after_grows (h h' : List Env.Call) : Grows (env.after h) (env.after (h ++ h')) := by
  rw [after_append]
  generalize env.after h = s
  induction h' generalizing s with
  | nil => exact Grows.refl _
  | cons c h' ih => exact (step_grows env c s).trans (ih (env.step c s).2)

/-- After a geometric or frame analysis, raising or not, centroid and principal angle are there. -/
theorem centroid_stored (g : GeomIn) (hi : Section.init g = .ok env.sec) (h0 : 0 < env.sec.numNodes)
    (h : List Env.Call) (hg : ∃ c ∈ h, Geometric c ∨ Frame c) : ((env.after h).val .cx).isSome ∧
      ((env.after h).val .cy).isSome ∧ ((env.after h).val .phi).isSome := by
  obtain ⟨c, hc, hcg⟩ := hg
  obtain ⟨h1, h2, rfl⟩ := List.append_of_mem hc
  have e : h1 ++ c :: h2 = (h1 ++ [c]) ++ h2 := by simp
  have hgr := after_grows env (h1 ++ [c]) h2
  rw [← e] at hgr
  suffices hs : ((env.after (h1 ++ [c])).val .cx).isSome ∧ ((env.after (h1 ++ [c])).val .cy).isSome ∧
      ((env.after (h1 ++ [c])).val .phi).isSome from
    ⟨hgr.1 _ hs.1, hgr.1 _ hs.2.1, hgr.1 _ hs.2.2⟩
  rw [after_concat]
  generalize env.after h1 = s
  cases c with
  | geometric =>
    obtain ⟨r, hr⟩ := geometricAnalysis_ok env.sec h0
    have := holdsGeom_set env.perimeter r s
    rw [step_geometric, exec_geometric env hr]
    have g' : ∀ f x, (f, x) ∈ geomValues env.perimeter r →
      (s.set (geomValues env.perimeter r)).val f = some x := fun f x hm => this (f, x) hm
    rw [g' .cx r.cx (by simp [geomValues]), g' .cy r.cy (by simp [geomValues]),
      g' .phi r.cent.phi (by simp [geomValues])]
    exact ⟨rfl, rfl, rfl⟩
  | frame ty =>
    rw [step_frame]
    have hf := exec_frame env ty (C22_noncomposite_area g env.sec hi) s
    dsimp only at hf
    cases ho : solveWarping env.solvers ty (assembleTorsion (env.sec.elements.map fun t =>
      t.shiftBy (geomSums env.sec.elements).cx (geomSums env.sec.elements).cy)).1
      (assembleTorsion (env.sec.elements.map fun t =>
      t.shiftBy (geomSums env.sec.elements).cx (geomSums env.sec.elements).cy)).2 with
    | error e =>
      rw [hf.2 e ho]
      simp [frameValues, set_val, assign_cons, assign_nil]
    | ok om =>
      rw [hf.1 om ho]
      simp [frameValues, set_val, assign_cons, assign_nil]
  | warping | plastic | stress | stressPoints => exact absurd hcg (by simp [Geometric, Frame])

theorem getC_iff {n : ℕ} (s : Store n) : (∃ v, getC s = .ok v) ↔ (s.val .cx).isSome ∧ (s.val .cy).isSome := by
  unfold getC
  cases s.val .cx <;> cases s.val .cy <;> simp

theorem getSc_iff {n : ℕ} (s : Store n) : (∃ v, getSc s = .ok v) ↔ (s.val .xSe).isSome ∧ (s.val .ySe).isSome ∧
    (s.val .cx).isSome ∧ (s.val .cy).isSome := by
  unfold getSc
  cases s.val .xSe <;> cases s.val .ySe <;> cases s.val .cx <;> cases s.val .cy <;> simp

theorem getPc_iff {n : ℕ} (s : Store n) : (∃ v, getPc s = .ok v) ↔ (s.val .xPc).isSome ∧ (s.val .yPc).isSome ∧
    (s.val .cx).isSome ∧ (s.val .cy).isSome := by
  unfold getPc
  cases s.val .xPc <;> cases s.val .yPc <;> cases s.val .cx <;> cases s.val .cy <;> simp

theorem getPcP_iff {n : ℕ} (s : Store n) : (∃ v, getPcP s = .ok v) ↔ (s.val .phi).isSome ∧
    (s.val .x11Pc).isSome ∧ (s.val .y22Pc).isSome ∧ (s.val .cx).isSome ∧ (s.val .cy).isSome := by
  unfold getPcP
  cases s.val .phi <;> cases s.val .x11Pc <;> cases s.val .y22Pc <;> cases s.val .cx <;> cases s.val .cy <;> simp

theorem getPhi_iff {n : ℕ} (s : Store n) : (∃ v, getPhi s = .ok v) ↔ (s.val .phi).isSome := by
  unfold getPhi
  cases s.val .phi <;> simp

/-- A mark with this label is drawn. -/
theorem drawn_iff {n : ℕ} {s : Store n} {q : CentroidPlot} (hq : plotCentroids s = .ok q) {l : String} :
    (l ∈ q.marks.map Prod.fst ↔ (l = "Elastic centroid" ∧ ∃ v, getC s = .ok v) ∨
      (l = "Shear centre" ∧ ∃ v, getSc s = .ok v) ∨ (l = "Global plastic centroid" ∧ ∃ v, getPc s = .ok v) ∨
      (l = "Principal plastic centroid" ∧ ∃ v, getPcP s = .ok v)) ∧
    (q.axes.isSome ↔ (∃ v, getPhi s = .ok v) ∧ ∃ v, getC s = .ok v) := by
  obtain ⟨q', h', hm, hl, ha⟩ := C84_centroids s [] (.num 1)
  obtain rfl : q' = q := Except.ok.inj (h'.symm.trans hq)
  constructor
  · have key : ∀ l g, (l, g) ∈ centreGetters → (l ∈ q'.marks.map Prod.fst ↔
        ∃ x y, callGetter g [] s (.num 1) = .ok [x, y]) := by
      intro l g hlg
      constructor
      · intro h
        obtain ⟨⟨l', x, y⟩, hx, rfl⟩ := List.mem_map.1 h
        exact ⟨x, y, (hm l' g hlg x y).1 hx⟩
      · rintro ⟨x, y, h⟩
        exact List.mem_map.2 ⟨_, (hm l g hlg x y).2 h, rfl⟩
    by_cases hlc : l ∈ centreGetters.map Prod.fst
    · simp only [centreGetters, List.map_cons, List.map_nil, List.mem_cons, List.not_mem_nil, or_false] at hlc
      rcases hlc with rfl | rfl | rfl | rfl
      · rw [key _ .getC (by simp [centreGetters])]
        simp [callGetter, list2_inj]
      · rw [key _ .getSc (by simp [centreGetters])]
        simp [callGetter, list2_inj]
      · rw [key _ .getPc (by simp [centreGetters])]
        simp [callGetter, list2_inj]
      · rw [key _ .getPcP (by simp [centreGetters])]
        simp [callGetter, list2_inj]
    · refine iff_of_false (fun h => hlc (hl.subset h)) ?_
      simp only [centreGetters, List.map_cons, List.map_nil, List.mem_cons, List.not_mem_nil, or_false] at hlc
      rintro (⟨rfl, -⟩ | ⟨rfl, -⟩ | ⟨rfl, -⟩ | ⟨rfl, -⟩) <;> simp at hlc
  · constructor
    · intro h
      obtain ⟨⟨φ, x, y⟩, h⟩ := Option.isSome_iff_exists.1 h
      obtain ⟨deg, h1, -, h2⟩ := (ha φ x y).1 h
      simp only [callGetter, list2_inj] at h1 h2
      refine ⟨?_, _, h2⟩
      cases hp : getPhi s with
      | ok v => exact ⟨v, rfl⟩
      | error e => rw [hp] at h1; simp [Except.map] at h1
    · rintro ⟨⟨v, hv⟩, ⟨⟨x, y⟩, hw⟩⟩
      rw [(ha (v * Real.pi / 180) x y).2 ⟨v, by simp [callGetter, hv, Except.map, list1], rfl, by
        simp [callGetter, hw, Except.map, list2]⟩]
      rfl

theorem grows_shapeFactors {n : ℕ} (ms : List MatObj) : Pres Grows (Env.shapeFactors ms : Op n Unit) := by
  have hr : ∀ a : Store n, Grows a a := Grows.refl
  have ht : ∀ a b c : Store n, Grows a b → Grows b c → Grows a c := fun _ _ _ => Grows.trans
  unfold Env.shapeFactors
  pres hr ht with (with_reducible refine Pres.write _ ?_); exact fun s => Grows.set _ _

/-- A plastic analysis that does not raise has stored the plastic centroids. -/
theorem plastic_stored {s : Store env.sec.numNodes} (h : (exec env.plasticAnalysis s).1 = .ok ()) :
    ∀ f ∈ [Field.xPc, .yPc, .x11Pc, .y22Pc], ((exec env.plasticAnalysis s).2.val f).isSome := by
  unfold Env.plasticAnalysis at h ⊢
  rw [exec_get_bind] at h ⊢
  by_cases hc : s.val .cx = none
  · simp only [if_pos hc] at h
    cases h
  simp only [if_neg hc] at h ⊢
  rw [exec_attempt_bind] at h ⊢
  cases h1 : plasticX env.brentq env.plastic with
  | error e => rw [h1] at h; cases h
  | ok v1 =>
  simp only [h1, exec_write_bind] at h ⊢
  rw [exec_attempt_bind] at h ⊢
  cases h2 : plasticY env.brentq env.plastic with
  | error e => rw [h2] at h; cases h
  | ok v2 =>
  simp only [h2, exec_write_bind] at h ⊢
  rw [exec_get_bind] at h ⊢
  split at h
  · cases h
  · next phi hp =>
    rw [exec_attempt_bind] at h ⊢
    cases h3 : plastic11 env.brentq env.plastic phi with
    | error e => rw [h3] at h; cases h
    | ok v3 =>
    simp only [h3, exec_write_bind] at h ⊢
    rw [exec_attempt_bind] at h ⊢
    cases h4 : plastic22 env.brentq env.plastic phi with
    | error e => rw [h4] at h; cases h
    | ok v4 =>
    simp only [h4, exec_write_bind] at h ⊢
    intro f hf
    refine (grows_shapeFactors _ _).1 f ?_
    simp only [List.mem_cons, List.not_mem_nil, or_false] at hf
    rcases hf with rfl | rfl | rfl | rfl <;> simp [set_val, assign_cons, assign_nil]

/-- **C84** (2).  Which centres are drawn follows from the calls made before, raising or not.  The elastic
centroid and the principal axes are drawn exactly if a geometric or frame analysis was called.  The shear
centre is drawn only if a warping analysis was called, and always after one that succeeded following a
geometric analysis.  The plastic centroids are drawn only if a plastic analysis was called, and both always
after one that succeeded. -/
theorem C84_history (g : GeomIn) (hi : Section.init g = .ok env.sec) (h0 : 0 < env.sec.numNodes)
    (h : List Env.Call) : ∃ q, plotCentroids (env.after h) = .ok q ∧
    ("Elastic centroid" ∈ q.marks.map Prod.fst ↔ ∃ c ∈ h, Geometric c ∨ Frame c) ∧
    (q.axes.isSome ↔ ∃ c ∈ h, Geometric c ∨ Frame c) ∧
    ("Shear centre" ∈ q.marks.map Prod.fst → ∃ c ∈ h, Warping c) ∧
    ("Global plastic centroid" ∈ q.marks.map Prod.fst ∨ "Principal plastic centroid" ∈ q.marks.map Prod.fst →
      ∃ c ∈ h, PlasticCall c) ∧
    (∀ h1 ty h2, h = h1 ++ .warping ty :: h2 → (∃ c ∈ h1, Geometric c) →
      (env.step (.warping ty) (env.after h1)).1 = .ok () → "Shear centre" ∈ q.marks.map Prod.fst) ∧
    (∀ h1 h2, h = h1 ++ .plastic :: h2 → (env.step .plastic (env.after h1)).1 = .ok () →
      "Global plastic centroid" ∈ q.marks.map Prod.fst ∧
      "Principal plastic centroid" ∈ q.marks.map Prod.fst) := by
  obtain ⟨q, hq, -⟩ := C84_centroids (env.after h) [] (.num 1)
  have D := fun l => (drawn_iff hq (l := l)).1
  have A := (drawn_iff hq (l := "")).2
  have none_of : (¬ ∃ c ∈ h, Geometric c ∨ Frame c) → env.after h = Store.empty _ := by
    intro hn
    refine (C33_needs_geometric env h fun c hc => ?_).1
    push Not at hn
    exact hn c hc
  refine ⟨q, hq, ?_, ?_, ?_, ?_, ?_, ?_⟩
  · rw [D]
    simp only [true_and, String.reduceEq, false_and, or_false]
    rw [getC_iff]
    constructor
    · intro hc
      by_contra hn
      rw [none_of hn] at hc
      simp [Store.empty] at hc
    · intro hc
      have := centroid_stored env g hi h0 h hc
      exact ⟨this.1, this.2.1⟩
  · rw [A, getPhi_iff, getC_iff]
    constructor
    · intro hc
      by_contra hn
      rw [none_of hn] at hc
      simp [Store.empty] at hc
    · intro hc
      have := centroid_stored env g hi h0 h hc
      exact ⟨this.2.2, this.1, this.2.1⟩
  · rw [D]
    simp only [true_and, String.reduceEq, false_and, or_false, false_or]
    rw [getSc_iff]
    intro hc
    by_contra hn
    push Not at hn
    rw [no_shear_centre env h hn] at hc
    simp at hc
  · rw [D, D]
    simp only [true_and, String.reduceEq, false_and, or_false, false_or]
    rw [getPc_iff, getPcP_iff]
    intro hc
    by_contra hn
    push Not at hn
    have := no_plastic_centroid env h hn
    rw [this.1, this.2] at hc
    simp at hc
  · rintro h1 ty h2 rfl hg hw
    rw [D]
    simp only [true_and, String.reduceEq, false_and, or_false, false_or]
    rw [getSc_iff]
    have hcen := centroid_stored env g hi h0 (h1 ++ .warping ty :: h2)
      (by obtain ⟨c, hc, hcg⟩ := hg; exact ⟨c, by simp [hc], .inl hcg⟩)
    obtain ⟨r, hr⟩ := geometricAnalysis_ok env.sec h0
    have H := after_holdsGeom env g hi hr h1 hg
    have hgr := after_grows env (h1 ++ [.warping ty]) h2
    rw [show (h1 ++ [Env.Call.warping ty]) ++ h2 = h1 ++ .warping ty :: h2 by simp, after_concat] at hgr
    rw [step_warping] at hw hgr
    cases hs : env.sec.warping env.solvers ty r with
    | error e =>
      rw [((exec_warping env ty H).2 e hs).1] at hw
      cases hw
    | ok w =>
      rw [(exec_warping env ty H).1 w hs] at hgr
      exact ⟨hgr.1 _ (by simp [Store.setWarp, warpValues, assign_cons, assign_nil]),
        hgr.1 _ (by simp [Store.setWarp, warpValues, assign_cons, assign_nil]), hcen.1, hcen.2.1⟩
  · rintro h1 h2 rfl hp
    rw [D, D]
    simp only [true_and, String.reduceEq, false_and, or_false, false_or]
    rw [getPc_iff, getPcP_iff]
    have hcen := centroid_stored env g hi h0 (h1 ++ .plastic :: h2) (by
      by_contra hn
      have := (C33_needs_geometric env h1 fun c hc => by
        push Not at hn
        exact hn c (by simp [hc])).2 .plastic (by simp [Geometric]) (by simp [Frame])
      rw [this] at hp
      cases hp)
    have hgr := after_grows env (h1 ++ [.plastic]) h2
    rw [show (h1 ++ [Env.Call.plastic]) ++ h2 = h1 ++ .plastic :: h2 by simp, after_concat] at hgr
    rw [step_plastic] at hp hgr
    have hst := plastic_stored env hp
    exact ⟨⟨hgr.1 _ (hst _ (by simp)), hgr.1 _ (hst _ (by simp)), hcen.1, hcen.2.1⟩,
      hcen.2.2, hgr.1 _ (hst _ (by simp)), hgr.1 _ (hst _ (by simp)), hcen.1, hcen.2.1⟩

/-! ### The warping function -/

/-- The warping function is unchanged. -/
def SameOmega {n : ℕ} (s t : Store n) : Prop := t.omega = s.omega

theorem sameOmega_geometric : Pres SameOmega env.geometric := by
  have hr : ∀ a : Store env.sec.numNodes, SameOmega a a := fun _ => rfl
  have ht : ∀ a b c : Store env.sec.numNodes, SameOmega a b → SameOmega b c → SameOmega a c :=
    fun _ _ _ h h' => h'.trans h
  unfold Env.geometric Env.centroidalProperties Env.yieldMoments
  pres hr ht with first
    | exact pres_elasticCentroid hr ht fun s v w => rfl
    | (with_reducible refine Pres.write _ ?_); exact fun s => rfl

/-- What a warping analysis stores as the warping function: nothing new, or the answer of the solver for the
section about the stored centroid. -/
theorem warping_omega (ty : SolverType) (s : Store env.sec.numNodes) :
    (exec (env.warping ty) s).2.omega = s.omega ∨ ∃ c om, getC s = .ok c ∧
      solveWarping env.solvers ty (assembleTorsion (env.sec.elements.map fun t => t.shiftBy c.1 c.2)).1
        (assembleTorsion (env.sec.elements.map fun t => t.shiftBy c.1 c.2)).2 = .ok om ∧
      (exec (env.warping ty) s).2.omega = some om := by
  have hr : ∀ a : Store env.sec.numNodes, SameOmega a a := fun _ => rfl
  have ht : ∀ a b c : Store env.sec.numNodes, SameOmega a b → SameOmega b c → SameOmega a c :=
    fun _ _ _ h h' => h'.trans h
  unfold Env.warping
  rw [exec_get_bind]
  by_cases h1 : s.val .area = none ∨ s.val .ixxC = none ∨ s.val .cx = none
  · left; simp only [if_pos h1]; rfl
  simp only [if_neg h1]
  rw [exec_ask_bind]
  cases hc : getC s with
  | error e => left; rfl
  | ok c =>
  dsimp only
  rw [exec_attempt_bind]
  cases hs : solveWarping env.solvers ty (assembleTorsion (env.sec.elements.map fun t => t.shiftBy c.1 c.2)).1
        (assembleTorsion (env.sec.elements.map fun t => t.shiftBy c.1 c.2)).2 with
  | error e => left; rfl
  | ok om =>
  right
  refine ⟨c, om, rfl, hs, ?_⟩
  dsimp only
  rw [exec_modify_bind]
  refine (?_ : Pres SameOmega _) { s with omega := some om }
  pres hr ht with first
    | (with_reducible refine Pres.write _ ?_); exact fun s => rfl
    | (with_reducible refine pres_modify _ ?_); exact fun s => rfl

/-- The values plotted are the answer of the solver for the section about its elastic centroid. -/
def SolvedAtCentroid (om : Fin env.sec.numNodes → ℝ) : Prop :=
  ∃ ty, solveWarping env.solvers ty
    (assembleTorsion (env.sec.elements.map fun t =>
      t.shiftBy (geomSums env.sec.elements).cx (geomSums env.sec.elements).cy)).1
    (assembleTorsion (env.sec.elements.map fun t =>
      t.shiftBy (geomSums env.sec.elements).cx (geomSums env.sec.elements).cy)).2 = .ok om

theorem step_solved (g : GeomIn) (hi : Section.init g = .ok env.sec) (h0 : 0 < env.sec.numNodes)
    (c : Env.Call) (s : Store env.sec.numNodes)
    (hs : (∀ v, getC s = .ok v → v = ((geomSums env.sec.elements).cx, (geomSums env.sec.elements).cy)) ∧
      ∀ om, s.omega = some om → SolvedAtCentroid env om) :
    (∀ v, getC (env.step c s).2 = .ok v →
      v = ((geomSums env.sec.elements).cx, (geomSums env.sec.elements).cy)) ∧
    (∀ om, (env.step c s).2.omega = some om → SolvedAtCentroid env om) := by
  have same : ∀ t : Store env.sec.numNodes, t.val .cx = s.val .cx → t.val .cy = s.val .cy → t.omega = s.omega →
      (∀ v, getC t = .ok v → v = ((geomSums env.sec.elements).cx, (geomSums env.sec.elements).cy)) ∧
      ∀ om, t.omega = some om → SolvedAtCentroid env om := by
    intro t e1 e2 e3
    have : getC t = getC s := by unfold getC; rw [e1, e2]
    rw [this, e3]
    exact hs
  cases c with
  | geometric =>
    obtain ⟨r, hr⟩ := geometricAnalysis_ok env.sec h0
    obtain ⟨k1, -, -, -, -, k6, k7⟩ := geom_ok hr
    rw [step_geometric]
    refine ⟨?_, ?_⟩
    · have := holdsGeom_set env.perimeter r s
      rw [exec_geometric env hr]
      have g' : ∀ f x, (f, x) ∈ geomValues env.perimeter r →
        (s.set (geomValues env.perimeter r)).val f = some x := fun f x hm => this (f, x) hm
      unfold getC
      rw [g' .cx r.cx (by simp [geomValues]), g' .cy r.cy (by simp [geomValues]), k6, k7, k1]
      intro v hv
      exact (Except.ok.inj hv).symm
    · rw [sameOmega_geometric env s]
      exact hs.2
  | warping ty =>
    rw [step_warping]
    refine ⟨?_, ?_⟩
    · have : getC (exec (env.warping ty) s).2 = getC s := by
        unfold getC
        rw [pres_warping env ty s .cx (by simp [warpFields]), pres_warping env ty s .cy (by simp [warpFields])]
      rw [this]
      exact hs.1
    · rcases warping_omega env ty s with h | ⟨c, om, hc, hso, h⟩
      · rw [h]; exact hs.2
      · rw [h]
        intro om' ho
        obtain rfl := Option.some.inj ho
        have := hs.1 c hc
        subst this
        exact ⟨ty, hso⟩
  | frame ty =>
    rw [step_frame]
    have hf := exec_frame env ty (C22_noncomposite_area g env.sec hi) s
    dsimp only at hf
    cases ho : solveWarping env.solvers ty (assembleTorsion (env.sec.elements.map fun t =>
      t.shiftBy (geomSums env.sec.elements).cx (geomSums env.sec.elements).cy)).1
      (assembleTorsion (env.sec.elements.map fun t =>
      t.shiftBy (geomSums env.sec.elements).cx (geomSums env.sec.elements).cy)).2 with
    | error e =>
      rw [hf.2 e ho]
      refine ⟨?_, hs.2⟩
      intro v hv
      simp [getC, frameValues, set_val, assign_cons, assign_nil] at hv
      exact hv.symm
    | ok om =>
      rw [hf.1 om ho]
      refine ⟨?_, ?_⟩
      · intro v hv
        simp [getC, frameValues, set_val, assign_cons, assign_nil] at hv
        exact hv.symm
      · intro om' ho'
        obtain rfl := Option.some.inj ho'
        exact ⟨ty, ho⟩
  | plastic =>
    rw [step_plastic]
    have := pres_plastic env s
    exact same _ (this.1 _ (by simp [plasticFields])) (this.1 _ (by simp [plasticFields])) this.2.1
  | stress a => rw [step_stress, (pres_stress env a _).eq]; exact hs
  | stressPoints q agg a pts => rw [step_stressPoints, (pres_stressPoints env q agg a pts _).eq]; exact hs

/-- **C84** (3).  `plot_warping_function` raises `RuntimeError` if neither a warping nor a frame analysis was
called.  If it plots, then after any history it plots the answer of the solver for the torsion problem of the
section about its elastic centroid.  It does plot whenever a warping or frame analysis succeeded. -/
theorem C84_warping_function (g : GeomIn) (hi : Section.init g = .ok env.sec) (h0 : 0 < env.sec.numNodes)
    (h : List Env.Call) :
    ((∀ c ∈ h, ¬ Warping c ∧ ¬ Frame c) → plotWarpingFunction (env.after h) = .error .runtimeError) ∧
    (∀ om, plotWarpingFunction (env.after h) = .ok om → SolvedAtCentroid env om) ∧
    (∀ h1 c h2, h = h1 ++ c :: h2 → (Warping c ∧ (∃ c ∈ h1, Geometric c) ∨ Frame c) →
      (env.step c (env.after h1)).1 = .ok () → ∃ om, plotWarpingFunction (env.after h) = .ok om) := by
  have hp : ∀ s : Store env.sec.numNodes, ∀ om, plotWarpingFunction s = .ok om ↔ s.omega = some om := by
    intro s om
    unfold plotWarpingFunction
    cases s.omega <;> simp
  refine ⟨?_, ?_, ?_⟩
  · intro hn
    have : (env.after h).omega = none := by
      induction h using List.reverseRecOn with
      | nil => rfl
      | append_singleton h c ih =>
        have hi := ih fun c hc => hn c (by simp [hc])
        have hcg := hn c (by simp)
        rw [after_concat]
        cases c with
        | geometric => rw [step_geometric, sameOmega_geometric env]; exact hi
        | warping ty => exact absurd trivial hcg.1
        | frame ty => exact absurd trivial hcg.2
        | plastic => rw [step_plastic, (pres_plastic env _).2.1]; exact hi
        | stress a => rw [step_stress, (pres_stress env a _).eq]; exact hi
        | stressPoints q agg a pts => rw [step_stressPoints, (pres_stressPoints env q agg a pts _).eq]; exact hi
    simp [plotWarpingFunction, this]
  · intro om hom
    rw [hp] at hom
    have : (∀ v, getC (env.after h) = .ok v →
        v = ((geomSums env.sec.elements).cx, (geomSums env.sec.elements).cy)) ∧
        (∀ om, (env.after h).omega = some om → SolvedAtCentroid env om) := by
      clear hom
      induction h using List.reverseRecOn with
      | nil => exact ⟨by simp [Env.after, getC, Store.empty], by simp [Env.after, Store.empty]⟩
      | append_singleton h c ih =>
        rw [after_concat]
        exact step_solved env g hi h0 c _ ih
    exact this.2 om hom
  · rintro h1 c h2 rfl hc hok
    simp only [hp]
    rw [← Option.isSome_iff_exists]
    have hgr := after_grows env (h1 ++ [c]) h2
    rw [show (h1 ++ [c]) ++ h2 = h1 ++ c :: h2 by simp, after_concat] at hgr
    refine hgr.2.1 ?_
    cases c with
    | warping ty =>
      obtain ⟨-, hg⟩ := hc.resolve_right (by simp [Frame])
      obtain ⟨r, hr⟩ := geometricAnalysis_ok env.sec h0
      have H := after_holdsGeom env g hi hr h1 hg
      rw [step_warping] at hok ⊢
      cases hs : env.sec.warping env.solvers ty r with
      | error e =>
        rw [((exec_warping env ty H).2 e hs).1] at hok
        cases hok
      | ok w => rw [(exec_warping env ty H).1 w hs]; rfl
    | frame ty =>
      rw [step_frame] at hok ⊢
      have hf := exec_frame env ty (C22_noncomposite_area g env.sec hi) (env.after h1)
      dsimp only at hf
      cases ho : solveWarping env.solvers ty (assembleTorsion (env.sec.elements.map fun t =>
        t.shiftBy (geomSums env.sec.elements).cx (geomSums env.sec.elements).cy)).1
        (assembleTorsion (env.sec.elements.map fun t =>
        t.shiftBy (geomSums env.sec.elements).cx (geomSums env.sec.elements).cy)).2 with
      | error e => rw [hf.2 e ho] at hok; cases hok
      | ok om => rw [hf.1 om ho]; rfl
    | geometric | plastic | stress | stressPoints => exact absurd hc (by simp [Warping, Frame])

/-! ### The colours of the mesh -/

theorem foldl_min_le (l : List ℕ) (a : ℕ) : l.foldl min a ≤ a ∧ ∀ x ∈ l, l.foldl min a ≤ x := by
  induction l generalizing a with
  | nil => simp
  | cons y l ih =>
    obtain ⟨h1, h2⟩ := ih (min a y)
    refine ⟨h1.trans (min_le_left _ _), fun x hx => ?_⟩
    rcases List.mem_cons.1 hx with rfl | hx
    · exact h1.trans (min_le_right _ _)
    · exact h2 x hx

theorem foldl_max_eq {l : List ℕ} {a m : ℕ} (ha : a ≤ m) (hm : m ∈ l) (hl : ∀ x ∈ l, x ≤ m) : l.foldl max a = m := by
  have key : ∀ (l : List ℕ) (a : ℕ), a ≤ l.foldl max a ∧ (∀ x ∈ l, x ≤ l.foldl max a) ∧
      (l.foldl max a = a ∨ l.foldl max a ∈ l) := by
    intro l
    induction l with
    | nil => intro a; simp
    | cons y l ih =>
      intro a
      obtain ⟨h1, h2, h3⟩ := ih (max a y)
      refine ⟨(le_max_left _ _).trans h1, fun x hx => ?_, ?_⟩
      · rcases List.mem_cons.1 hx with rfl | hx
        · exact (le_max_right _ _).trans h1
        · exact h2 x hx
      · rw [List.foldl_cons]
        rcases h3 with h3 | h3
        · rw [h3]
          rcases max_choice a y with h | h <;> rw [h] <;> simp
        · exact .inr (List.mem_cons_of_mem _ h3)
  obtain ⟨h1, h2, h3⟩ := key l a
  refine le_antisymm ?_ (h2 m hm)
  rcases h3 with h3 | h3
  · rw [h3]; exact ha
  · exact hl _ h3

/-- If the first and the last of the values `0, 1, …, k - 1` are plotted, every plotted value has its own
colour. -/
theorem colourIndex_eq {k : ℕ} {vs : List ℕ} (h0 : 0 ∈ vs) (h1 : k - 1 ∈ vs) (hv : ∀ v ∈ vs, v < k) {v : ℕ}
    (hmem : v ∈ vs) : colourIndex k vs v = v := by
  have hlo : vs.foldl min (vs.headD 0) = 0 := Nat.le_zero.1 ((foldl_min_le vs _).2 0 h0)
  have hhi : vs.foldl max 0 = k - 1 :=
    foldl_max_eq (Nat.zero_le _) h1 fun x hx => by have := hv x hx; omega
  have hvk := hv v hmem
  unfold colourIndex
  simp only [hlo, hhi]
  by_cases hk : 0 = k - 1
  · rw [if_pos hk]; omega
  · rw [if_neg hk]
    have hk2 : 2 ≤ k := by omega
    have hc : ((k - 1 : ℕ) : ℝ) = (k : ℝ) - 1 := by push_cast [show 1 ≤ k by omega]; ring
    have hk' : (2 : ℝ) ≤ k := by exact_mod_cast hk2
    have hp : (0 : ℝ) < (k : ℝ) - 1 := by linarith
    rw [hc]
    simp only [Nat.cast_zero, sub_zero]
    by_cases hlast : v = k - 1
    · have : (v : ℝ) / ((k : ℝ) - 1) * k = k := by
        rw [hlast, hc, div_self hp.ne', one_mul]
      rw [if_pos this, hlast]
    · have hlt : (v : ℝ) < (k : ℝ) - 1 := by
        rw [← hc]; exact_mod_cast (by omega : v < k - 1)
      have hx : (v : ℝ) / ((k : ℝ) - 1) * k = v + v / ((k : ℝ) - 1) := by field_simp; ring
      have hfrac : (v : ℝ) / ((k : ℝ) - 1) < 1 := (div_lt_one hp).2 hlt
      have hfrac0 : 0 ≤ (v : ℝ) / ((k : ℝ) - 1) := div_nonneg (Nat.cast_nonneg _) hp.le
      rw [hx, if_neg]
      · rw [Nat.floor_eq_iff (by positivity)]
        constructor <;> linarith
      · intro h
        have : (v : ℝ) + 1 ≤ k - 1 + 0 := by
          rw [add_zero, ← hc]; exact_mod_cast (by omega : v + 1 ≤ k - 1)
        linarith

theorem tripcolor_true (s : Section) (mask : Option (List Bool))
    (h0 : (mask.getD []).getD 0 false = false) (h1 : (mask.getD []).getD (s.elements.length - 1) false = false) :
    TrueColours s (tripcolor (s.elements.map (·.material.color)) mask) := by
  intro i c hic
  unfold tripcolor at hic
  simp only [List.length_map, List.mem_map, Prod.mk.injEq] at hic
  obtain ⟨i', hi', rfl, hc⟩ := hic
  have hlt : i' < s.elements.length := List.mem_range.1 (List.mem_filter.1 hi').1
  rw [colourIndex_eq (v := i')] at hc
  · refine ⟨s.elements[i'], List.getElem?_eq_getElem hlt, ?_⟩
    rw [← hc]
    simp [List.getD, hlt]
  · exact List.mem_filter.2 ⟨List.mem_range.2 (by omega), by rw [h0]; rfl⟩
  · exact List.mem_filter.2 ⟨List.mem_range.2 (by omega), by rw [h1]; rfl⟩
  · intro v hv
    exact List.mem_range.1 (List.mem_filter.1 hv).1
  · exact hi'

/-- **C84** (4).  `plot_mesh` without a mask draws every element, in the colour of its own material; with
`materials=False` nothing is coloured.  The legend has one entry, colour and name, for every different
material, none twice, and every element's material is there. -/
theorem C84_mesh (g : GeomIn) (s : Section) (hi : Section.init g = .ok s) :
    (∀ mask, plotMesh s false mask = none) ∧ ∃ q, plotMesh s true none = some q ∧
      q.elements.map Prod.fst = List.range s.elements.length ∧ TrueColours s q.elements ∧
      (∃ ms : List Material, q.legend = ms.map (fun m => (m.color, m.name)) ∧ ms.Nodup ∧
        (∀ m, m ∈ ms ↔ m ∈ s.materials.map (·.val)) ∧ ∀ t ∈ s.elements, t.material ∈ ms) := by
  refine ⟨fun mask => by simp [plotMesh], ?_⟩
  obtain ⟨m, mx, hm, -, hlen, els, hf, rfl⟩ := init_ok hi
  have hmat : ∀ e ∈ els, e.2 ∈ g.materials ∧ e.1.material = e.2.val := by
    intro e he
    obtain ⟨p, hp, hk⟩ := forall₂_mem_right hf he
    obtain ⟨a, -, h2, h3⟩ := mkElement_ok hk
    exact ⟨List.mem_of_getElem? h2, by rw [h3]⟩
  have hne : g.materials ≠ [] := by
    intro h
    rw [h] at hlen
    simp at hlen
  unfold plotMesh
  rw [if_neg (by simpa using hne)]
  refine ⟨_, rfl, ?_, tripcolor_true _ none rfl rfl, (groupMaterials g.materials).map (·.val), ?_, ?_, ?_, ?_⟩
  · simp [tripcolor, Function.comp_def]
  · simp only [groupMaterials, List.map_map]
    have : ∀ p : MatObj × ℕ, decide (p.2 = 0 ∨ p.1.val ∉ (g.materials.take p.2).map (·.val))
        = decide (p.2 = 0 ∨ ∀ q ∈ g.materials.take p.2, q.val ≠ p.1.val) := by
      intro p
      simp only [List.mem_map, not_exists, not_and, ne_eq]
    simp only [this]
    rfl
  · have := groupMaterials_pairwise g.materials
    rw [List.Nodup, List.pairwise_map]
    exact this
  · intro m'
    constructor
    · intro h
      obtain ⟨r, hr, rfl⟩ := List.mem_map.1 h
      exact List.mem_map_of_mem (groupMaterials_sub hr)
    · intro h
      obtain ⟨r, hr, rfl⟩ := List.mem_map.1 h
      obtain ⟨r', h1, h2⟩ := groupMaterials_complete hr
      exact List.mem_map.2 ⟨r', h1, h2⟩
  · intro t ht
    obtain ⟨e, he, rfl⟩ := List.mem_map.1 ht
    obtain ⟨h1, h2⟩ := hmat e he
    obtain ⟨r', h3, h4⟩ := groupMaterials_complete h1
    exact List.mem_map.2 ⟨r', h3, by rw [h2, h4]⟩

/-- **C84** (5).  With a mask exactly the elements not masked are drawn; the colours are still right if the
first and the last element are drawn. -/
theorem C84_mask_partial (s : Section) (hm : s.materials ≠ []) (mask : List Bool) :
    ∃ q, plotMesh s true (some mask) = some q ∧
      (∀ i, i ∈ q.elements.map Prod.fst ↔ i < s.elements.length ∧ mask.getD i false = false) ∧
      (mask.getD 0 false = false → mask.getD (s.elements.length - 1) false = false →
        TrueColours s q.elements) := by
  unfold plotMesh
  rw [if_neg (by simpa using hm)]
  refine ⟨_, rfl, ?_, fun h0 h1 => tripcolor_true s (some mask) h0 h1⟩
  intro i
  simp [tripcolor, Function.comp_def]

/-- **C84** fails in general with a mask: the colours are spread over the elements left, so that here the only
element drawn, of steel (red), is drawn in the colour of concrete (grey). -/
theorem C84_mask_violated : ∃ (g : GeomIn) (s : Section) (mask : List Bool), Section.init g = .ok s ∧
    s.materials ≠ [] ∧ mask.length = s.elements.length ∧ ∃ q, plotMesh s true (some mask) = some q ∧
      ¬ TrueColours s q.elements := by
  refine ⟨exGeom, exSection, [true, false], exSection_init, by simp [exSection, exGeom], rfl, ?_⟩
  unfold plotMesh
  rw [if_neg (by simp [exSection, exGeom])]
  refine ⟨_, rfl, fun h => ?_⟩
  have hcol : exSection.elements.map (·.material.color) = ["grey", "red"] := rfl
  have hdrawn : tripcolor ["grey", "red"] (some [true, false]) = [(1, "grey")] := by
    simp [tripcolor, colourIndex, List.range_succ]
  obtain ⟨t, h1, h2⟩ := h 1 "grey" (by
    dsimp only
    rw [hcol, hdrawn]
    simp)
  have h1 : some exT1 = some t := h1
  obtain rfl := Option.some.inj h1
  simp [exT1, exSteel] at h2

/-! ### Non-vacuity -/

/-- C84 (2), (3): a history with a geometric and a successful warping analysis on the composite example. -/
example : Section.init exGeom = .ok (exEnv exSection).sec ∧ 0 < (exEnv exSection).sec.numNodes ∧
    (∃ c ∈ [Env.Call.geometric], Geometric c) ∧
    ((exEnv exSection).step (.warping .direct) ((exEnv exSection).after [.geometric])).1 = .ok () := by
  refine ⟨exSection_init, by simp [exEnv, exSection], ⟨_, List.mem_singleton.2 rfl, trivial⟩, ?_⟩
  obtain ⟨r, w, hr, hw⟩ := ex_results exSection (by simp)
  have H := after_holdsGeom (exEnv exSection) exGeom exSection_init hr [.geometric]
    ⟨_, List.mem_singleton.2 rfl, trivial⟩
  rw [step_warping, (exec_warping (exEnv exSection) .direct H).1 w hw]

end SP
