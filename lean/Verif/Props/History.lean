import Verif.Lemmas.Pres
import Verif.Spec.History
import Verif.Props.Getters
import Verif.Props.Shear

/-!
# C15 (history), C16 frame analysis, C33 order of analyses, C58 failed analyses
-/

namespace SP

open Classical Spec

variable {P : Type} (env : Env P)

theorem step_geometric (s) : env.step .geometric s = exec env.geometric s := rfl
theorem step_warping (ty s) : env.step (.warping ty) s = exec (env.warping ty) s := rfl
theorem step_plastic (s) : env.step .plastic s = exec env.plasticAnalysis s := rfl
theorem step_frame (ty s) : env.step (.frame ty) s
    = ((exec (env.frame ty) s).1.map fun _ => (), (exec (env.frame ty) s).2) := rfl
theorem step_stress (a s) : env.step (.stress a) s
    = ((exec (env.stress a) s).1.map fun _ => (), (exec (env.stress a) s).2) := rfl
theorem step_stressPoints (q agg a pts s) : env.step (.stressPoints q agg a pts) s
    = ((exec (env.stressPoints q agg a pts) s).1.map fun _ => (),
      (exec (env.stressPoints q agg a pts) s).2) := rfl

theorem after_append (h h' : List Env.Call) :
    env.after (h ++ h') = h'.foldl (fun s c => (env.step c s).2) (env.after h) := by
  simp [Env.after]

theorem after_concat (h : List Env.Call) (c : Env.Call) :
    env.after (h ++ [c]) = (env.step c (env.after h)).2 := by
  simp [Env.after]

/-- Induction over histories, last call last. -/
theorem history_induction {motive : List Env.Call → Prop} (nil : motive [])
    (concat : ∀ h c, motive h → motive (h ++ [c])) (h : List Env.Call) : motive h := by
  induction h using List.reverseRecOn with
  | nil => exact nil
  | append_singleton h c ih => exact concat h c ih

theorem step_grows (c : Env.Call) (s) : Grows s (env.step c s).2 := by
  cases c with
  | geometric => exact grows_geometric env s
  | warping ty => exact grows_warping env ty s
  | frame ty => exact grows_frame env ty s
  | plastic => exact grows_plastic env s
  | stress a => rw [step_stress, (pres_stress env a s).eq]; exact Grows.refl s
  | stressPoints q agg a pts =>
    rw [step_stressPoints, (pres_stressPoints env q agg a pts s).eq]; exact Grows.refl s

/-! ### C16 -/

theorem warpingAnalysis_ok {n : ℕ} {sv : Solvers} {ty : SolverType} {els : List (Tri6 n)} {w : WarpIn}
    {x : WarpResults n} (h : warpingAnalysis sv ty els w = .ok x) :
    solveWarping sv ty (assembleTorsion els).1 (assembleTorsion els).2 = .ok x.omega ∧
    x.j = w.ixx + w.iyy - dotN x.omega (assembleTorsion els).2 := by
  unfold warpingAnalysis at h
  dsimp only at h
  cases h1 : solveWarping sv ty (assembleTorsion els).1 (assembleTorsion els).2 with
  | error e => rw [h1] at h; simp at h
  | ok om =>
    simp only [h1] at h
    cases h2 : solveShear sv ty (assembleTorsion els).1 (assembleShearLoad els w).1 with
    | error e => rw [h2] at h; simp at h
    | ok psi =>
      simp only [h2] at h
      cases h3 : solveShear sv ty (assembleTorsion els).1 (assembleShearLoad els w).2 with
      | error e => rw [h3] at h; simp at h
      | ok phi =>
        simp only [h3, Except.ok.injEq] at h
        subst h
        exact ⟨rfl, rfl⟩

/-- **C16.**  For a section built from a geometry: if a geometric analysis (from any state) and then a
warping analysis succeed, a frame analysis with the same solver (from any state) returns exactly the
values they stored, and stores the same. -/
theorem C16_frame (g : GeomIn) (hi : Section.init g = .ok env.sec) (h0 : 0 < env.sec.numNodes)
    (ty : SolverType) (s0 s1 s2 s : Store env.sec.numNodes)
    (hgeo : env.geometric.run.run s0 = (.ok (), s1))
    (hwarp : (env.warping ty).run.run s1 = (.ok (), s2)) :
    ∃ area ixx iyy ixy j phi s',
      (env.frame ty).run.run s = (.ok (area, ixx, iyy, ixy, j, phi), s') ∧
      ∀ f v, (f, v) ∈ [(Field.area, area), (.ixxC, ixx), (.iyyC, iyy), (.ixyC, ixy), (.j, j),
        (.phi, phi)] → s2.val f = some v ∧ s'.val f = some v := by
  obtain ⟨r, hr⟩ := geometricAnalysis_ok env.sec h0
  have hea := C22_noncomposite_area g env.sec hi
  change exec env.geometric s0 = _ at hgeo
  change exec (env.warping ty) s1 = _ at hwarp
  rw [exec_geometric env hr] at hgeo
  obtain ⟨-, rfl⟩ := Prod.ext_iff.1 hgeo
  have hh := holdsGeom_set env.perimeter r s0
  have hw := exec_warping env ty hh
  obtain ⟨h1, h2, -, -, -, h3, h4⟩ := geom_ok hr
  have hT := exec_frame env ty hea s
  dsimp only at hT
  rw [← h1, ← h3, ← h4] at hT
  cases hs : env.sec.warping env.solvers ty r with
  | error e =>
    have := (hw.2 e hs).1
    dsimp only at hwarp
    rw [hwarp] at this
    cases this
  | ok w =>
    have e := hw.1 w hs
    dsimp only at hwarp
    rw [hwarp] at e
    obtain ⟨-, rfl⟩ := Prod.ext_iff.1 e
    have hsw : solveWarping env.solvers ty (assembleTorsion (env.sec.elements.map fun t =>
        t.shiftBy r.cx r.cy)).1 (assembleTorsion (env.sec.elements.map fun t =>
        t.shiftBy r.cx r.cy)).2 = .ok w.omega ∧ w.j = r.cent.ixxC + r.cent.iyyC
          - dotN w.omega (assembleTorsion (env.sec.elements.map fun t => t.shiftBy r.cx r.cy)).2 := by
      have := warpingAnalysis_ok hs
      exact this
    have hc : r.cent.ixxC = r.sums.ixxC ∧ r.cent.iyyC = r.sums.iyyC ∧ r.cent.ixyC = r.sums.ixyC ∧
        r.cent.phi = phiOf r.sums.ixxC r.sums.iyyC r.sums.ixyC := by
      cases hn : List.ofFn env.sec.meshNodes with
      | nil => rw [hn] at h2; simp [centroidalProps] at h2
      | cons p ps =>
        rw [hn] at h2
        simp only [centroidalProps, Except.ok.injEq] at h2
        rw [← h2]
        exact ⟨rfl, rfl, rfl, rfl⟩
    obtain ⟨c1, c2, c3, c4⟩ := hc
    have hf := hT.1 w.omega hsw.1
    rw [← c4, ← c1, ← c2, ← c3, ← hsw.2] at hf
    refine ⟨_, _, _, _, _, _, _, hf, ?_⟩
    intro f v hfv
    simp only [List.mem_cons, Prod.mk.injEq, List.not_mem_nil, or_false] at hfv
    rcases hfv with ⟨rfl, rfl⟩ | ⟨rfl, rfl⟩ | ⟨rfl, rfl⟩ | ⟨rfl, rfl⟩ | ⟨rfl, rfl⟩ | ⟨rfl, rfl⟩ <;>
    simp [Store.setWarp, warpValues, geomValues, set_val, assign_cons, assign_nil, frameValues,
      c1, c2, c3, c4]

/-! ### C33 and the history part of C15 -/

/-- **C33** (1).  As long as neither a geometric nor a frame analysis was called, every other analysis
raises `RuntimeError` and nothing is stored. -/
theorem C33_needs_geometric (h : List Env.Call) (hn : ∀ c ∈ h, ¬ Geometric c ∧ ¬ Frame c) :
    env.after h = Store.empty _ ∧
    ∀ c, ¬ Geometric c → ¬ Frame c →
      env.step c (env.after h) = (.error .runtimeError, Store.empty _) := by
  have key : ∀ c, ¬ Geometric c → ¬ Frame c →
      env.step c (Store.empty _) = (.error .runtimeError, Store.empty _) := by
    intro c h1 h2
    cases c with
    | geometric => exact absurd trivial h1
    | frame ty => exact absurd trivial h2
    | warping ty =>
      rw [step_warping]; unfold Env.warping
      rw [exec_get_bind]; simp [Store.empty, exec_throw]
    | plastic =>
      rw [step_plastic]; unfold Env.plasticAnalysis
      rw [exec_get_bind]; simp [Store.empty, exec_throw]
    | stress a =>
      rw [step_stress]; unfold Env.stress
      rw [exec_get_bind]; simp [Store.empty, exec_throw, Except.map]
    | stressPoints q agg a pts =>
      rw [step_stressPoints]; unfold Env.stressPoints
      rw [exec_get_bind]
      by_cases ha : a.vx ≠ 0 ∨ a.vy ≠ 0 ∨ a.mzz ≠ 0
      · simp only [ha, Store.empty, and_self, if_true]; rfl
      · simp only [ha, false_and, if_false]
        unfold Env.stressSetup
        have : exec (ask fun p => getC p : Op env.sec.numNodes (ℝ × ℝ)) (Store.empty _)
            = (.error .runtimeError, Store.empty _) := by
          rw [exec_ask]; simp [getC, Store.empty]
        rw [exec_bind_error (exec_bind_error this)]
        rfl
  have h0 : env.after h = Store.empty _ := by
    induction h using List.reverseRecOn with
    | nil => rfl
    | append_singleton h c ih =>
      rw [after_concat, ih fun c hc => hn c (by simp [hc]),
        key c (hn c (by simp)).1 (hn c (by simp)).2]
  exact ⟨h0, by rw [h0]; exact key⟩

theorem ask_cases {n : ℕ} {α : Type} {g : Store n → Except PyErr α} {s : Store n}
    (h : ∀ e, g s = .error e → e = .runtimeError) :
    exec (ask g) s = (.error .runtimeError, s) ∨ ∃ a, exec (ask g) s = (.ok a, s) := by
  rw [exec_ask]
  cases hg : g s with
  | error e => left; rw [h e hg]
  | ok a => right; exact ⟨a, rfl⟩

theorem askEa_cases (s) : exec env.askEa s = (.error .runtimeError, s) ∨
    ∃ a, exec env.askEa s = (.ok a, s) := by
  unfold Env.askEa
  split <;> refine ask_cases ?_ <;> intro e he <;> simp only [getEa, getArea] at he <;>
    (repeat' split at he) <;> simp_all

theorem askIc_cases (s) : exec env.askIc s = (.error .runtimeError, s) ∨
    ∃ a, exec env.askIc s = (.ok a, s) := by
  unfold Env.askIc
  split <;> refine ask_cases ?_ <;> intro e he <;> simp only [getEic, getIc] at he <;>
    (repeat' split at he) <;> simp_all

theorem askIp_cases (s) : exec env.askIp s = (.error .runtimeError, s) ∨
    ∃ a, exec env.askIp s = (.ok a, s) := by
  unfold Env.askIp
  split <;> refine ask_cases ?_ <;> intro e he <;> simp only [getEip, getIp] at he <;>
    (repeat' split at he) <;> simp_all

theorem askNu_cases (s) : exec env.askNu s = (.error .runtimeError, s) ∨
    ∃ a, exec env.askNu s = (.ok a, s) := by
  unfold Env.askNu
  split
  · refine ask_cases ?_
    intro e he
    simp only [getNuEff] at he
    (repeat' split at he) <;> simp_all
  · right; exact ⟨0, rfl⟩

theorem askC_cases {n : ℕ} (s : Store n) : exec (ask fun p => getC p : Op n (ℝ × ℝ)) s
      = (.error .runtimeError, s) ∨ ∃ a, exec (ask fun p => getC p : Op n (ℝ × ℝ)) s = (.ok a, s) := by
  refine ask_cases ?_
  intro e he
  simp only [getC] at he
  (repeat' split at he) <;> simp_all

theorem askPhi_cases {n : ℕ} (s : Store n) : exec (ask fun p => getPhi p : Op n ℝ) s
      = (.error .runtimeError, s) ∨ ∃ a, exec (ask fun p => getPhi p : Op n ℝ) s = (.ok a, s) := by
  refine ask_cases ?_
  intro e he
  simp only [getPhi] at he
  (repeat' split at he) <;> simp_all

/-- Without principal second moments, or for shear and torsion without shear functions, no stress can
be calculated. -/
theorem stressSetup_fails (a : Actions) (s : Store env.sec.numNodes)
    (h : s.val .i11C = none ∨ (ShearOrTorsion a ∧ s.psi = none)) :
    exec (env.stressSetup a) s = (.error .runtimeError, s) := by
  unfold Env.stressSetup
  rcases askC_cases s with h1 | ⟨c, h1⟩
  · exact exec_bind_error h1
  rw [exec_bind_ok h1]
  dsimp only
  rcases askPhi_cases s with h1 | ⟨ph, h1⟩
  · exact exec_bind_error h1
  rw [exec_bind_ok h1]
  rcases askEa_cases env s with h1 | ⟨ea, h1⟩
  · exact exec_bind_error h1
  rw [exec_bind_ok h1]
  rcases askIc_cases env s with h1 | ⟨ic, h1⟩
  · exact exec_bind_error h1
  rw [exec_bind_ok h1]
  rcases askIp_cases env s with h1 | ⟨ip, h1⟩
  · exact exec_bind_error h1
  rw [exec_bind_ok h1]
  rcases h with h | ⟨ha, hp⟩
  · exfalso
    unfold Env.askIp at h1
    split at h1 <;> rw [exec_ask] at h1 <;> simp_all [getEip, getIp]
  · rw [if_pos (show a.vx ≠ 0 ∨ a.vy ≠ 0 ∨ a.mzz ≠ 0 from ha)]
    have tail : ∀ j, exec (do
        let nu ← env.askNu
        let s ← get
        match s.val .deltaS, s.omega, s.psi, s.phiS with
        | some ds, some om, some ps, some ph' =>
          return ((⟨ea, c.1, c.2, ic.1, ic.2.1, ic.2.2, ip.1, ip.2, ph, j, nu, ds⟩ : StressEnv),
            (⟨om, ps, ph'⟩ : WarpFields env.sec.numNodes))
        | _, _, _, _ => throw .runtimeError : Op env.sec.numNodes _) s = (.error .runtimeError, s) := by
      intro j
      rcases askNu_cases env s with h2 | ⟨nu, h2⟩
      · exact exec_bind_error h2
      rw [exec_bind_ok h2, exec_get_bind, hp]
      split
      · rename_i h3 _; cases h3
      · rfl
    have hj : ∀ g : Store env.sec.numNodes → Except PyErr ℝ, (∀ e, g s = .error e → e = .runtimeError) →
        exec (ask g >>= fun j => (do
        let nu ← env.askNu
        let s ← get
        match s.val .deltaS, s.omega, s.psi, s.phiS with
        | some ds, some om, some ps, some ph' =>
          return ((⟨ea, c.1, c.2, ic.1, ic.2.1, ic.2.2, ip.1, ip.2, ph, j, nu, ds⟩ : StressEnv),
            (⟨om, ps, ph'⟩ : WarpFields env.sec.numNodes))
        | _, _, _, _ => throw .runtimeError : Op env.sec.numNodes _)) s = (.error .runtimeError, s) := by
      intro g hg
      rcases ask_cases hg with h2 | ⟨j, h2⟩
      · exact exec_bind_error h2
      · rw [exec_bind_ok h2]; exact tail j
    by_cases hc : isComposite env.sec.materials
    · simp only [hc, if_true]
      refine hj _ ?_
      intro e he
      simp only [getEj] at he
      (repeat' split at he) <;> simp_all
    · simp only [hc, if_false]
      refine hj _ ?_
      intro e he
      simp only [getJ] at he
      (repeat' split at he) <;> simp_all

theorem step_stress_fails {a : Actions} {c : Env.Call} (hc : Stress a c) (s : Store env.sec.numNodes)
    (h : s.val .i11C = none ∨ (ShearOrTorsion a ∧ s.psi = none)) :
    env.step c s = (.error .runtimeError, s) := by
  cases c with
  | geometric | warping | frame | plastic => exact absurd hc (by simp [Stress])
  | stress b =>
    have hc : b = a := hc
    subst hc
    rw [step_stress]
    unfold Env.stress
    rw [exec_get_bind]
    by_cases h1 : s.val .area = none ∨ s.val .ixxC = none ∨ s.val .cx = none
    · simp only [h1, if_true]; rfl
    · simp only [h1, if_false]
      by_cases h2 : (b.vx ≠ 0 ∨ b.vy ≠ 0 ∨ b.mzz ≠ 0) ∧ s.omega = none
      · simp only [if_pos h2]; rfl
      · simp only [if_neg h2]
        rw [exec_bind_error (stressSetup_fails env b s h)]
        rfl
  | stressPoints q agg b pts =>
    have hc : b = a := hc
    subst hc
    rw [step_stressPoints]
    unfold Env.stressPoints
    rw [exec_get_bind]
    by_cases h2 : (b.vx ≠ 0 ∨ b.vy ≠ 0 ∨ b.mzz ≠ 0) ∧ s.omega = none
    · simp only [if_pos h2]; rfl
    · simp only [if_neg h2]
      rw [exec_bind_error (stressSetup_fails env b s h)]
      rfl

/-- **C33** (2).  Whatever was called before: without a geometric analysis every stress analysis raises
`RuntimeError` and changes nothing. -/
theorem C33_stress_needs_geometric (h : List Env.Call) (hn : ∀ c ∈ h, ¬ Geometric c) (a : Actions)
    (c : Env.Call) (hc : Stress a c) :
    env.step c (env.after h) = (.error .runtimeError, env.after h) := by
  refine step_stress_fails env hc _ (.inl ?_)
  clear hc c
  induction h using List.reverseRecOn with
  | nil => rfl
  | append_singleton h c ih =>
    rw [after_concat]
    have hi := ih fun c hc => hn c (by simp [hc])
    have hcg := hn c (by simp)
    cases c with
    | geometric => exact absurd trivial hcg
    | warping ty => rw [step_warping, pres_warping env ty _ _ (by simp [warpFields])]; exact hi
    | frame ty => rw [step_frame, pres_frame env ty _ _ (by simp [frameFields])]; exact hi
    | plastic => rw [step_plastic, (pres_plastic env _).1 _ (by simp [plasticFields])]; exact hi
    | stress a => rw [step_stress, (pres_stress env a _).eq]; exact hi
    | stressPoints q agg a pts => rw [step_stressPoints, (pres_stressPoints env q agg a pts _).eq]; exact hi

/-- **C33** (3).  Whatever was called before: without a warping analysis every stress analysis for shear
or torsion raises `RuntimeError` and changes nothing. -/
theorem C33_shear_needs_warping (h : List Env.Call) (hn : ∀ c ∈ h, ¬ Warping c) (a : Actions)
    (ha : ShearOrTorsion a) (c : Env.Call) (hc : Stress a c) :
    env.step c (env.after h) = (.error .runtimeError, env.after h) := by
  refine step_stress_fails env hc _ (.inr ⟨ha, ?_⟩)
  clear hc c
  induction h using List.reverseRecOn with
  | nil => rfl
  | append_singleton h c ih =>
    rw [after_concat]
    have hi := ih fun c hc => hn c (by simp [hc])
    have hcg := hn c (by simp)
    cases c with
    | geometric => exact (samePsi_geometric env _).trans hi
    | warping ty => exact absurd trivial hcg
    | frame ty => exact (samePsi_frame env ty _).trans hi
    | plastic => exact (pres_plastic env _).2.2.1.trans hi
    | stress a => exact (pres_stress env a _).2.2.1.trans hi
    | stressPoints q agg a pts => exact (pres_stressPoints env q agg a pts _).2.2.1.trans hi

/-- Geometric results stay what they are. -/
theorem step_holdsGeom (g : GeomIn) (hi : Section.init g = .ok env.sec) {r : GeomResults}
    (hr : env.sec.geometricAnalysis = .ok r) {s : Store env.sec.numNodes}
    (hs : HoldsGeom env.perimeter r s) (c : Env.Call) :
    HoldsGeom env.perimeter r (env.step c s).2 := by
  cases c with
  | geometric => rw [step_geometric, exec_geometric env hr]; exact holdsGeom_set _ _ _
  | warping ty =>
    rw [step_warping]
    intro p hp
    rw [pres_warping env ty s p.1]
    · exact hs p hp
    · have : p.1 ∈ (geomValues env.perimeter r).map Prod.fst := List.mem_map_of_mem hp
      revert this
      generalize p.1 = f
      simp only [geomValues, warpFields, List.map_cons, List.map_nil]
      cases f <;> simp
  | frame ty =>
    rw [step_frame]
    have hea := C22_noncomposite_area g env.sec hi
    have hf := exec_frame env ty hea s
    dsimp only at hf
    cases ho : solveWarping env.solvers ty (assembleTorsion (env.sec.elements.map fun t =>
      t.shiftBy (geomSums env.sec.elements).cx (geomSums env.sec.elements).cy)).1
      (assembleTorsion (env.sec.elements.map fun t =>
      t.shiftBy (geomSums env.sec.elements).cx (geomSums env.sec.elements).cy)).2 with
    | error e =>
      rw [hf.2 e ho]
      exact holdsGeom_rewrite hs (frameValues_mem hr _)
    | ok om =>
      rw [hf.1 om ho]
      have : HoldsGeom env.perimeter r (s.set (frameValues (geomSums env.sec.elements)
          ++ [(.j, (geomSums env.sec.elements).ixxC + (geomSums env.sec.elements).iyyC
            - dotN om (assembleTorsion (env.sec.elements.map fun t =>
              t.shiftBy (geomSums env.sec.elements).cx (geomSums env.sec.elements).cy)).2)])) := by
        refine holdsGeom_rewrite hs ?_
        intro q hq
        rcases List.mem_append.1 hq with hq | hq
        · exact frameValues_mem hr _ q hq
        · right
          rw [List.mem_singleton.1 hq]
          simp [geomValues]
      exact this
  | plastic =>
    rw [step_plastic]
    intro p hp
    rw [(pres_plastic env s).1 p.1]
    · exact hs p hp
    · have : p.1 ∈ (geomValues env.perimeter r).map Prod.fst := List.mem_map_of_mem hp
      revert this
      generalize p.1 = f
      simp only [geomValues, plasticFields, List.map_cons, List.map_nil]
      cases f <;> simp
  | stress a => rw [step_stress, (pres_stress env a _).eq]; exact hs
  | stressPoints q agg a pts => rw [step_stressPoints, (pres_stressPoints env q agg a pts _).eq]; exact hs

theorem after_holdsGeom (g : GeomIn) (hi : Section.init g = .ok env.sec) {r : GeomResults}
    (hr : env.sec.geometricAnalysis = .ok r) (h : List Env.Call) (hg : ∃ c ∈ h, Geometric c) :
    HoldsGeom env.perimeter r (env.after h) := by
  induction h using List.reverseRecOn with
  | nil => obtain ⟨c, hc, -⟩ := hg; simp at hc
  | append_singleton h c ih =>
    rw [after_concat]
    by_cases hc : Geometric c
    · cases c with
      | geometric => rw [step_geometric, exec_geometric env hr]; exact holdsGeom_set _ _ _
      | warping | frame | plastic | stress | stressPoints => exact absurd hc (by simp [Geometric])
    · obtain ⟨c', hc', hcg⟩ := hg
      rcases List.mem_append.1 hc' with hm | hm
      · exact step_holdsGeom env g hi hr (ih ⟨c', hm, hcg⟩) c
      · rw [List.mem_singleton.1 hm] at hcg; exact absurd hcg hc

theorem geometricGetters_needs : ∀ g ∈ geometricGetters, ∀ f ∈ getterNeeds g, ∀ (pm : ℝ) (r : GeomResults),
    f ∈ (geomValues pm r).map Prod.fst := by
  intro g hg f hf pm r
  cases g <;> simp_all [geometricGetters, getterNeeds, geomValues] <;> grind

/-- **C33** (4), **C15** (history).  Once a geometric analysis was called on a section built from a
geometry, every getter of geometric results defined for that kind of section returns a value, always
the same: after any history of further calls, raising or not, it returns what it returns after a
single geometric analysis of a fresh section. -/
theorem C33_geometric_getters (g : GeomIn) (hi : Section.init g = .ok env.sec)
    (h0 : 0 < env.sec.numNodes) (h : List Env.Call) (hg : ∃ c ∈ h, Geometric c) (gt : Getter)
    (hgt : gt ∈ geometricGetters) (hm : env.sec.materials ≠ [])
    (hk : kindOk env.sec.materials (getterKind gt)) (e : ERef) :
    ∃ v, callGetter gt env.sec.materials (env.after h) e = .ok v ∧
      callGetter gt env.sec.materials (env.after [.geometric]) e = .ok v := by
  obtain ⟨r, hr⟩ := geometricAnalysis_ok env.sec h0
  have H1 := after_holdsGeom env g hi hr h hg
  have H2 := after_holdsGeom env g hi hr [.geometric] ⟨_, List.mem_singleton.2 rfl, trivial⟩
  have same : ∀ f ∈ getterNeeds gt, ∃ x, (env.after h).val f = some x ∧
      (env.after [.geometric]).val f = some x := by
    intro f hf
    obtain ⟨p, hp, rfl⟩ := List.mem_map.1 (geometricGetters_needs gt hgt f hf env.perimeter r)
    exact ⟨p.2, H1 p hp, H2 p hp⟩
  rw [callGetter_eq gt hm, callGetter_eq gt hm, if_pos, if_pos]
  · refine ⟨_, rfl, ?_⟩
    congr 1
    apply getterValue_congr
    intro f hf
    obtain ⟨x, e1, e2⟩ := same f hf
    simp [stored, e1, e2]
  · exact ⟨hk, fun f hf => by obtain ⟨x, -, e2⟩ := same f hf; simp [e2]⟩
  · exact ⟨hk, fun f hf => by obtain ⟨x, e1, -⟩ := same f hf; simp [e1]⟩

/-- **C15** (history): a geometric analysis overwrites whatever any history of calls left behind: all
its results are those of a fresh section. -/
theorem C15_history (g : GeomIn) (hi : Section.init g = .ok env.sec) (h0 : 0 < env.sec.numNodes)
    (h : List Env.Call) (gt : Getter) (hgt : gt ∈ geometricGetters) (hm : env.sec.materials ≠ [])
    (e : ERef) :
    (env.step .geometric (env.after h)).1 = .ok () ∧
    callGetter gt env.sec.materials (env.after (h ++ [.geometric])) e
      = callGetter gt env.sec.materials (env.after [.geometric]) e := by
  obtain ⟨r, hr⟩ := geometricAnalysis_ok env.sec h0
  refine ⟨by rw [step_geometric, exec_geometric env hr], ?_⟩
  by_cases hk : kindOk env.sec.materials (getterKind gt)
  · obtain ⟨v, h1, h2⟩ := C33_geometric_getters env g hi h0 (h ++ [.geometric])
      ⟨.geometric, by simp, trivial⟩ gt hgt hm hk e
    rw [h1, h2]
  · rw [callGetter_eq gt hm, callGetter_eq gt hm, if_neg fun h => hk h.1, if_neg fun h => hk h.1]

/-! ### Enabling -/

/-- What a stress analysis needs: with geometric results (and, for shear or torsion, warping results) in
the store it succeeds. -/
theorem stress_ok {r : GeomResults} {s : Store env.sec.numNodes} (hs : HoldsGeom env.perimeter r s)
    (a : Actions) (hw : ShearOrTorsion a → (s.val .j).isSome ∧ (s.val .deltaS).isSome ∧
      s.omega.isSome ∧ s.psi.isSome ∧ s.phiS.isSome) :
    ∃ l, exec (env.stress a) s = (.ok l, s) := by
  have harea : s.val .area = some r.sums.area := hs (.area, _) (by simp [geomValues])
  have hcx : s.val .cx = some r.cx := hs (.cx, _) (by simp [geomValues])
  have hcy : s.val .cy = some r.cy := hs (.cy, _) (by simp [geomValues])
  have hixx : s.val .ixxC = some r.cent.ixxC := hs (.ixxC, _) (by simp [geomValues])
  have hiyy : s.val .iyyC = some r.cent.iyyC := hs (.iyyC, _) (by simp [geomValues])
  have hixy : s.val .ixyC = some r.cent.ixyC := hs (.ixyC, _) (by simp [geomValues])
  have hnu : s.val .nuEff = some r.nuEff := hs (.nuEff, _) (by simp [geomValues])
  unfold Env.stress
  rw [exec_get_bind]
  simp only [harea, hixx, hcx, reduceCtorEq, or_self, if_false]
  have h2 : ¬ ((a.vx ≠ 0 ∨ a.vy ≠ 0 ∨ a.mzz ≠ 0) ∧ s.omega = none) := by
    rintro ⟨ha, ho⟩
    have := (hw ha).2.2.1
    simp [ho] at this
  rw [if_neg h2]
  suffices ∃ p, exec (env.stressSetup a) s = (.ok p, s) by
    obtain ⟨p, hp⟩ := this
    rw [exec_bind_ok hp]
    exact ⟨_, rfl⟩
  unfold Env.stressSetup
  have hC : exec (ask fun p => getC p : Op env.sec.numNodes (ℝ × ℝ)) s = (.ok (r.cx, r.cy), s) := by
    rw [exec_ask]; simp [getC, hcx, hcy]
  rw [exec_bind_ok hC]
  dsimp only
  rw [exec_bind_ok (askPhi_geom env hs), exec_bind_ok (askEa_geom env hs),
    exec_bind_ok (askIc_ok env hixx hiyy hixy), exec_bind_ok (askIp_geom env hs)]
  by_cases ha : ShearOrTorsion a
  · obtain ⟨w1, w2, w3, w4, w5⟩ := hw ha
    obtain ⟨j, hj⟩ := Option.isSome_iff_exists.1 w1
    obtain ⟨ds, hds⟩ := Option.isSome_iff_exists.1 w2
    obtain ⟨om, hom⟩ := Option.isSome_iff_exists.1 w3
    obtain ⟨ps, hps⟩ := Option.isSome_iff_exists.1 w4
    obtain ⟨ph, hph⟩ := Option.isSome_iff_exists.1 w5
    rw [if_pos (show a.vx ≠ 0 ∨ a.vy ≠ 0 ∨ a.mzz ≠ 0 from ha)]
    by_cases hc : isComposite env.sec.materials
    · simp only [hc, if_true]
      rw [exec_ask_bind]
      simp only [getEj, hc, not_true_eq_false, if_false, hj]
      rw [exec_bind_ok (askNu_ok env hnu), exec_get_bind, hds, hom, hps, hph]
      exact ⟨_, rfl⟩
    · simp only [hc, if_false]
      rw [exec_ask_bind]
      simp only [getJ, hc, if_false, hj]
      rw [exec_bind_ok (askNu_ok env hnu), exec_get_bind, hds, hom, hps, hph]
      exact ⟨_, rfl⟩
  · rw [if_neg (show ¬ (a.vx ≠ 0 ∨ a.vy ≠ 0 ∨ a.mzz ≠ 0) from ha)]
    exact ⟨_, rfl⟩

/-- **C33** (5).  On a section built from a geometry: once a geometric analysis was called, a stress
analysis without shear and torsion succeeds after any history; once a warping analysis succeeded after
it, a stress analysis for any actions succeeds after any further history. -/
theorem C33_stress_enabled (g : GeomIn) (hi : Section.init g = .ok env.sec)
    (h0 : 0 < env.sec.numNodes) (h : List Env.Call) (hg : ∃ c ∈ h, Geometric c) (a : Actions) :
    (¬ ShearOrTorsion a → (env.step (.stress a) (env.after h)).1 = .ok ()) ∧
    (∀ ty h', (env.step (.warping ty) (env.after h)).1 = .ok () →
      (env.step (.stress a) (env.after (h ++ .warping ty :: h'))).1 = .ok ()) := by
  obtain ⟨r, hr⟩ := geometricAnalysis_ok env.sec h0
  have H := after_holdsGeom env g hi hr h hg
  constructor
  · intro ha
    obtain ⟨l, hl⟩ := stress_ok env H a fun h => absurd h ha
    rw [step_stress, hl]; rfl
  · intro ty h' hw
    have hset : ∃ w, (env.step (.warping ty) (env.after h)).2 = (env.after h).setWarp w := by
      rw [step_warping] at hw ⊢
      cases hs : env.sec.warping env.solvers ty r with
      | error e =>
        rw [((exec_warping env ty H).2 e hs).1] at hw
        cases hw
      | ok w => exact ⟨w, by rw [(exec_warping env ty H).1 w hs]⟩
    obtain ⟨w, hset⟩ := hset
    have hgrow : Grows ((env.after h).setWarp w) (env.after (h ++ .warping ty :: h')) := by
      rw [after_append, List.foldl_cons, hset]
      generalize (env.after h).setWarp w = s
      induction h' generalizing s with
      | nil => exact Grows.refl _
      | cons c h' ih => exact (step_grows env c s).trans (ih (env.step c s).2)
    have H' := after_holdsGeom env g hi hr (h ++ .warping ty :: h')
      (by obtain ⟨c, hc, hcg⟩ := hg; exact ⟨c, by simp [hc], hcg⟩)
    obtain ⟨l, hl⟩ := stress_ok env H' a fun _ =>
      ⟨hgrow.1 .j (by simp [Store.setWarp, warpValues, assign_cons, assign_nil]),
       hgrow.1 .deltaS (by simp [Store.setWarp, warpValues, assign_cons, assign_nil]),
       hgrow.2.1 rfl, hgrow.2.2.1 rfl, hgrow.2.2.2 rfl⟩
    rw [step_stress, hl]; rfl

/-! ### C58 failed analyses -/

/-- **C58** fails for the frame analysis: on every section built from a geometry of default material
and after every history, `calculate_frame_properties` with an unknown solver type raises
`ValueError`, and after it `get_j` returns `0.0`, which no analysis computed (and a correct value
computed before is lost). -/
theorem C58_failed_frame_violated (g : GeomIn) (hi : Section.init g = .ok env.sec)
    (hc : ¬ isComposite env.sec.materials) (h : List Env.Call) :
    (env.step (.frame .other) (env.after h)).1 = .error .valueError ∧
    getJ env.sec.materials (env.after (h ++ [.frame .other])) = .ok 0 := by
  have hea := C22_noncomposite_area g env.sec hi
  have hf := (exec_frame env .other hea (env.after h)).2 .valueError rfl
  rw [after_concat, step_frame, hf]
  refine ⟨rfl, ?_⟩
  simp [getJ, hc, frameValues, set_val, assign_cons, assign_nil]

/-- **C58**, the part that holds.  Whatever raises: a stress analysis changes nothing; a plastic
analysis changes no result of other analyses; a warping analysis changes no result of the geometric and
plastic analyses; no call makes a getter that returned a value fail. -/
theorem C58_failed_partial (s : Store env.sec.numNodes) :
    (∀ a c, Stress a c → (env.step c s).2 = s) ∧
    (∀ f, f ∉ plasticFields → (env.step .plastic s).2.val f = s.val f) ∧
    (∀ ty f, f ∉ warpFields → (env.step (.warping ty) s).2.val f = s.val f) ∧
    (∀ c (gt : Getter) (e : ERef) v, env.sec.materials ≠ [] →
      callGetter gt env.sec.materials s e = .ok v →
      ∃ v', callGetter gt env.sec.materials (env.step c s).2 e = .ok v') := by
  refine ⟨?_, ?_, ?_, ?_⟩
  · intro a c hc
    cases c with
    | geometric | warping | frame | plastic => exact absurd hc (by simp [Stress])
    | stress b => exact (pres_stress env b s).eq
    | stressPoints q agg b pts => exact (pres_stressPoints env q agg b pts s).eq
  · intro f hf; exact (pres_plastic env s).1 f hf
  · intro ty f hf; exact pres_warping env ty s f hf
  · intro c gt e v hm hv
    rw [callGetter_eq gt hm] at hv
    split at hv
    · rename_i hk
      rw [callGetter_eq gt hm, if_pos ⟨hk.1, fun f hf => (step_grows env c s).1 f (hk.2 f hf)⟩]
      exact ⟨_, rfl⟩
    · cases hv

/-! ### Non-vacuity -/

/-- An environment around a section, with exact linear solvers. -/
noncomputable def exEnv (s : Section) : Env Unit where
  sec := s
  perimeter := 6
  solvers := exactSolvers
  plastic := ⟨⟨fun _ => 0, fun _ => 0, fun _ => 0, fun _ => 0, fun _ _ => []⟩, [], []⟩
  brentq := fun _ _ _ => .error .runtimeError

/-- Both analyses succeed on the composite and on the plain example. -/
theorem ex_results (sec : Section) (hsec : sec ∈ [exSection, exPlain]) :
    ∃ r w, sec.geometricAnalysis = .ok r ∧ sec.warping exactSolvers .direct r = .ok w := by
  rcases List.mem_cons.1 hsec with rfl | hsec
  · obtain ⟨r, hr⟩ := geometricAnalysis_ok exSection (by simp [exSection])
    obtain ⟨w, hw, -⟩ := exact_warping exSection r exSection_good exSection_physical hr
      (ex_linked r.cx r.cy)
    exact ⟨r, w, hr, hw⟩
  · rw [List.mem_singleton.1 hsec]
    obtain ⟨r, hr⟩ := geometricAnalysis_ok exPlain (by simp [exPlain])
    obtain ⟨w, hw, -⟩ := exact_warping exPlain r exPlain_good exPlain_physical hr
      (exPlain_linked r.cx r.cy)
    exact ⟨r, w, hr, hw⟩

/-- C16 and C33 (5): both analyses succeed on the composite and on the plain example, so the frame
analysis returns their values. -/
example : ∀ sec ∈ [exSection, exPlain], ∃ s1 s2,
    (exEnv sec).geometric.run.run (Store.empty _) = (.ok (), s1) ∧
    ((exEnv sec).warping .direct).run.run s1 = (.ok (), s2) := by
  intro sec hsec
  obtain ⟨r, w, hr, hw⟩ := ex_results sec hsec
  exact ⟨_, _, exec_geometric (exEnv sec) hr _,
    (exec_warping (exEnv sec) .direct (holdsGeom_set _ r _)).1 w hw⟩

example : Section.init exPlainGeom = .ok (exEnv exPlain).sec ∧ 0 < (exEnv exPlain).sec.numNodes ∧
    (exEnv exPlain).sec.materials ≠ [] ∧ ¬ isComposite (exEnv exPlain).sec.materials :=
  ⟨exPlain_init, by simp [exEnv, exPlain], by simp [exEnv, exPlain, exPlainGeom],
    exPlain_not_composite⟩

/-- C33 (1) to (3): histories as assumed exist, and the refused calls are calls. -/
example : (∀ c ∈ [Env.Call.warping .direct, .plastic], ¬ Geometric c ∧ ¬ Frame c) ∧
    (∀ c ∈ [Env.Call.frame .direct, .warping .cgs], ¬ Geometric c) ∧
    (∀ c ∈ [Env.Call.geometric, .frame .direct], ¬ Warping c) ∧
    Stress ⟨0, 0, 0, 0, 0, 0, 1, 0⟩ (.stress ⟨0, 0, 0, 0, 0, 0, 1, 0⟩) ∧
    ShearOrTorsion ⟨0, 0, 0, 0, 0, 0, 1, 0⟩ := by
  simp [Geometric, Frame, Warping, Stress, ShearOrTorsion]

end SP
