import Verif.Lemmas.RunsWarp
import Verif.Lemmas.Sums

/-!
# What the analyses do not touch
-/

namespace SP

open Classical

/-- The program relates every start store to its end store, whether it raises or not. -/
def Pres {n : ℕ} {α : Type} (R : Store n → Store n → Prop) (x : Op n α) : Prop :=
  ∀ s, R s (exec x s).2

section Closure

variable {n : ℕ} {α β : Type} {R : Store n → Store n → Prop}

theorem Pres.bind (ht : ∀ a b c, R a b → R b c → R a c) {x : Op n α} {f : α → Op n β}
    (hx : Pres R x) (hf : ∀ a, Pres R (f a)) : Pres R (x >>= f) := by
  intro s
  rw [exec_bind]
  have h := hx s
  generalize exec x s = r at h
  obtain ⟨r, s'⟩ := r
  cases r with
  | error e => exact h
  | ok a => exact ht _ _ _ h (hf a s')

theorem Pres.pure (hr : ∀ a, R a a) (a : α) : Pres R (Pure.pure a : Op n α) := fun s => hr s

theorem Pres.throw (hr : ∀ a, R a a) (e : PyErr) : Pres R (MonadExcept.throw e : Op n α) :=
  fun s => hr s

theorem Pres.get (hr : ∀ a, R a a) : Pres R (MonadState.get : Op n (Store n)) := fun s => hr s

theorem Pres.ask (hr : ∀ a, R a a) (g : Store n → Except PyErr α) : Pres R (ask g) := by
  intro s; rw [exec_ask]; exact hr s

theorem Pres.attempt (hr : ∀ a, R a a) (x : Except PyErr α) : Pres R (attempt x : Op n α) := by
  intro s; rw [exec_attempt]; exact hr s

theorem Pres.write (l : List (Field × ℝ)) (h : ∀ s, R s (s.set l)) : Pres R (write l : Op n Unit) :=
  fun s => h s

theorem pres_modify (f : Store n → Store n) (h : ∀ s, R s (f s)) : Pres R (modify f : Op n Unit) :=
  fun s => h s

theorem Pres.ite (c : Prop) [Decidable c] {x y : Op n α} (hx : Pres R x) (hy : Pres R y) :
    Pres R (if c then x else y) := by split <;> assumption

end Closure

/-- Only values in `F` may have changed. -/
def OnlyVals {n : ℕ} (F : List Field) (s t : Store n) : Prop :=
  (∀ f, f ∉ F → t.val f = s.val f) ∧ t.omega = s.omega ∧ t.psi = s.psi ∧ t.phiS = s.phiS

theorem OnlyVals.refl {n : ℕ} {F : List Field} (s : Store n) : OnlyVals F s s :=
  ⟨fun _ _ => rfl, rfl, rfl, rfl⟩

theorem OnlyVals.trans {n : ℕ} {F : List Field} {a b c : Store n} (h : OnlyVals F a b)
    (h' : OnlyVals F b c) : OnlyVals F a c :=
  ⟨fun f hf => (h'.1 f hf).trans (h.1 f hf), h'.2.1.trans h.2.1, h'.2.2.1.trans h.2.2.1,
    h'.2.2.2.trans h.2.2.2⟩

theorem OnlyVals.set {n : ℕ} {F : List Field} (s : Store n) {l : List (Field × ℝ)}
    (h : ∀ f ∈ l.map Prod.fst, f ∈ F) : OnlyVals F s (s.set l) :=
  ⟨fun f hf => by rw [set_val, assign_of_notMem _ _ _ fun hm => hf (h f hm)], rfl, rfl, rfl⟩

variable {P : Type} (env : Env P)

section
variable {R : Store env.sec.numNodes → Store env.sec.numNodes → Prop}

theorem pres_askIc (hr : ∀ a, R a a) : Pres R env.askIc :=
  Pres.ite _ (Pres.ask hr _) (Pres.ask hr _)
theorem pres_askIp (hr : ∀ a, R a a) : Pres R env.askIp :=
  Pres.ite _ (Pres.ask hr _) (Pres.ask hr _)
theorem pres_askEa (hr : ∀ a, R a a) : Pres R env.askEa :=
  Pres.ite _ (Pres.ask hr _) (Pres.ask hr _)
theorem pres_askQ (hr : ∀ a, R a a) : Pres R env.askQ :=
  Pres.ite _ (Pres.ask hr _) (Pres.ask hr _)
theorem pres_askIg (hr : ∀ a, R a a) : Pres R env.askIg :=
  Pres.ite _ (Pres.ask hr _) (Pres.ask hr _)
theorem pres_askNu (hr : ∀ a, R a a) : Pres R env.askNu :=
  Pres.ite _ (Pres.ask hr _) (Pres.pure hr _)

end

open Lean.Parser.Tactic in
/-- Shows `Pres R x` statement by statement, from reflexivity `hr`, transitivity `ht` and a tactic for
the writes. -/
macro "pres " hr:ident ht:ident " with " tac:tacticSeq : tactic =>
  `(tactic| repeat' (first
    | with_reducible exact pres_askIc _ $hr | with_reducible exact pres_askIp _ $hr | with_reducible exact pres_askEa _ $hr
    | with_reducible exact pres_askQ _ $hr | with_reducible exact pres_askIg _ $hr | with_reducible exact pres_askNu _ $hr
    | with_reducible exact Pres.get $hr | with_reducible exact Pres.ask $hr _ | with_reducible exact Pres.attempt $hr _ | with_reducible exact Pres.pure $hr _
    | with_reducible exact Pres.throw $hr _
    | ($tac)
    | with_reducible refine Pres.bind $ht ?_ fun _ => ?_
    | with_reducible refine Pres.ite _ ?_ ?_
    | split))

/-- The values a plastic analysis may write. -/
def plasticFields : List Field :=
  [.yPc, .sxx, .xPc, .syy, .y22Pc, .s11, .x11Pc, .s22, .sfXXPlus, .sfXXMinus, .sfYYPlus, .sfYYMinus,
   .sf11Plus, .sf11Minus, .sf22Plus, .sf22Minus]

theorem pres_shapeFactors {n : ℕ} (ms : List MatObj) :
    Pres (OnlyVals plasticFields) (Env.shapeFactors ms : Op n Unit) := by
  have hr : ∀ a : Store n, OnlyVals plasticFields a a := OnlyVals.refl
  have ht : ∀ a b c : Store n, OnlyVals plasticFields a b → OnlyVals plasticFields b c → OnlyVals plasticFields a c := fun _ _ _ => OnlyVals.trans
  unfold Env.shapeFactors
  pres hr ht with first
    | (with_reducible refine Pres.write _ fun s => OnlyVals.set s ?_); simp [plasticFields]

/-- A plastic analysis writes plastic values only, even if it raises. -/
theorem pres_plastic : Pres (OnlyVals plasticFields) env.plasticAnalysis := by
  have hr : ∀ a : Store env.sec.numNodes, OnlyVals plasticFields a a := OnlyVals.refl
  have ht : ∀ a b c : Store env.sec.numNodes, OnlyVals plasticFields a b → OnlyVals plasticFields b c → OnlyVals plasticFields a c := fun _ _ _ => OnlyVals.trans
  unfold Env.plasticAnalysis
  pres hr ht with first
    | with_reducible exact pres_shapeFactors _
    | (with_reducible refine Pres.write _ fun s => OnlyVals.set s ?_); simp [plasticFields]

theorem OnlyVals.eq {n : ℕ} {s t : Store n} (h : OnlyVals [] s t) : t = s :=
  Store.ext' (funext fun f => h.1 f (by simp)) h.2.1 h.2.2.1 h.2.2.2


theorem pres_stressSetup (a : Actions) : Pres (OnlyVals []) (env.stressSetup a) := by
  have hr : ∀ a : Store env.sec.numNodes, OnlyVals [] a a := OnlyVals.refl
  have ht : ∀ a b c : Store env.sec.numNodes, OnlyVals [] a b → OnlyVals [] b c → OnlyVals [] a c := fun _ _ _ => OnlyVals.trans
  unfold Env.stressSetup
  pres hr ht with fail

/-- A stress analysis never changes the store. -/
theorem pres_stress (a : Actions) : Pres (OnlyVals []) (env.stress a) := by
  have hr : ∀ a : Store env.sec.numNodes, OnlyVals [] a a := OnlyVals.refl
  have ht : ∀ a b c : Store env.sec.numNodes, OnlyVals [] a b → OnlyVals [] b c → OnlyVals [] a c := fun _ _ _ => OnlyVals.trans
  unfold Env.stress
  pres hr ht with exact pres_stressSetup env a

theorem pres_stressPoints (q : ℝ × ℝ → List ℕ) (agg : List ℝ → ℝ) (a : Actions) (pts : List (ℝ × ℝ)) :
    Pres (OnlyVals []) (env.stressPoints q agg a pts) := by
  have hr : ∀ a : Store env.sec.numNodes, OnlyVals [] a a := OnlyVals.refl
  have ht : ∀ a b c : Store env.sec.numNodes, OnlyVals [] a b → OnlyVals [] b c → OnlyVals [] a c := fun _ _ _ => OnlyVals.trans
  unfold Env.stressPoints
  pres hr ht with exact pres_stressSetup env a

/-- Only values in `F` may have changed; warping functions may have changed. -/
def OnlyVals' {n : ℕ} (F : List Field) (s t : Store n) : Prop :=
  ∀ f, f ∉ F → t.val f = s.val f

theorem OnlyVals'.refl {n : ℕ} {F : List Field} (s : Store n) : OnlyVals' F s s := fun _ _ => rfl

theorem OnlyVals'.trans {n : ℕ} {F : List Field} {a b c : Store n} (h : OnlyVals' F a b)
    (h' : OnlyVals' F b c) : OnlyVals' F a c := fun f hf => (h' f hf).trans (h f hf)

theorem OnlyVals'.set {n : ℕ} {F : List Field} (s : Store n) {l : List (Field × ℝ)}
    (h : ∀ f ∈ l.map Prod.fst, f ∈ F) : OnlyVals' F s (s.set l) :=
  fun f hf => by rw [set_val, assign_of_notMem _ _ _ fun hm => hf (h f hm)]

/-- The values a warping analysis may write. -/
def warpFields : List Field :=
  [.j, .deltaS, .xSe, .ySe, .x11Se, .y22Se, .xSt, .ySt, .gamma, .aSx, .aSy, .aSxy, .aS11, .aS22,
   .betaXPlus, .betaXMinus, .betaYPlus, .betaYMinus, .beta11Plus, .beta11Minus, .beta22Plus,
   .beta22Minus]

/-- A warping analysis writes warping values and functions only, even if it raises. -/
theorem pres_warping (ty : SolverType) : Pres (OnlyVals' warpFields) (env.warping ty) := by
  have hr : ∀ a : Store env.sec.numNodes, OnlyVals' warpFields a a := OnlyVals'.refl
  have ht : ∀ a b c : Store env.sec.numNodes, OnlyVals' warpFields a b → OnlyVals' warpFields b c → OnlyVals' warpFields a c := fun _ _ _ => OnlyVals'.trans
  unfold Env.warping
  pres hr ht with first
    | (with_reducible refine Pres.write _ fun s => OnlyVals'.set s ?_); simp [warpFields]
    | (with_reducible refine pres_modify _ ?_); exact fun s f _ => rfl

/-- Writing values again keeps the geometric results. -/
theorem holdsGeom_rewrite {n : ℕ} {pm : ℝ} {r : GeomResults} {s : Store n}
    (h : HoldsGeom pm r s) {l : List (Field × ℝ)}
    (hl : ∀ q ∈ l, q ∈ geomValues pm r ∨ q.1 ∉ (geomValues pm r).map Prod.fst) :
    HoldsGeom pm r (s.set l) := by
  induction l generalizing s with
  | nil => exact h
  | cons q l ih =>
    have e : s.set (q :: l) = (s.set [q]).set l := by rw [set_set]; rfl
    rw [e]
    refine ih ?_ fun q' hq' => hl q' (List.mem_cons_of_mem _ hq')
    intro p hp
    rw [set_val, assign_cons, assign_nil]
    by_cases hpq : p.1 = q.1
    · rw [hpq, Function.update_self]
      rcases hl q (List.mem_cons_self ..) with hm | hm
      · have e1 := h p hp
        have e2 := h q hm
        rw [hpq] at e1
        exact e2.symm.trans e1
      · exact absurd (hpq ▸ List.mem_map_of_mem hp) hm
    · rw [Function.update_of_ne hpq]; exact h p hp

theorem frameValues_mem {sec : Section} {r : GeomResults} (hr : sec.geometricAnalysis = .ok r)
    (pm : ℝ) : ∀ q ∈ frameValues (geomSums sec.elements),
      q ∈ geomValues pm r ∨ q.1 ∉ (geomValues pm r).map Prod.fst := by
  obtain ⟨h1, h2, -, -, -, h3, h4⟩ := geom_ok hr
  rw [← h1]
  have hc : r.cent.ixxC = r.sums.ixxC ∧ r.cent.iyyC = r.sums.iyyC ∧ r.cent.ixyC = r.sums.ixyC ∧
      r.cent.phi = phiOf r.sums.ixxC r.sums.iyyC r.sums.ixyC := by
    cases hn : List.ofFn sec.meshNodes with
    | nil => rw [hn] at h2; simp [centroidalProps] at h2
    | cons p ps =>
      rw [hn] at h2
      simp only [centroidalProps, Except.ok.injEq] at h2
      rw [← h2]
      exact ⟨rfl, rfl, rfl, rfl⟩
  obtain ⟨c1, c2, c3, c4⟩ := hc
  unfold frameValues geomValues
  rw [h3, h4, ← c4, ← c1, ← c2, ← c3]
  simp

/-- The values a frame analysis may write. -/
def frameFields : List Field :=
  [.area, .ea, .qx, .qy, .ixxG, .iyyG, .ixyG, .cx, .cy, .ixxC, .iyyC, .ixyC, .j, .phi]

theorem pres_elasticCentroid {n : ℕ} {R : Store n → Store n → Prop} (hr : ∀ a, R a a)
    (ht : ∀ a b c, R a b → R b c → R a c) (hw : ∀ s v w, R s (s.set [(.cx, v), (.cy, w)])) :
    Pres R (Env.elasticCentroid : Op n Unit) := by
  unfold Env.elasticCentroid
  pres hr ht with (with_reducible refine Pres.write _ ?_); exact fun s => hw s _ _

/-- A frame analysis writes frame values and the warping function only, even if it raises. -/
theorem pres_frame (ty : SolverType) : Pres (OnlyVals' frameFields) (env.frame ty) := by
  have hr : ∀ a : Store env.sec.numNodes, OnlyVals' frameFields a a := OnlyVals'.refl
  have ht : ∀ a b c : Store env.sec.numNodes, OnlyVals' frameFields a b → OnlyVals' frameFields b c →
    OnlyVals' frameFields a c := fun _ _ _ => OnlyVals'.trans
  unfold Env.frame Env.frameGeom
  pres hr ht with first
    | exact pres_elasticCentroid hr ht fun s v w => OnlyVals'.set s (by simp [frameFields])
    | (with_reducible refine Pres.write _ fun s => OnlyVals'.set s ?_); simp [frameFields]
    | (with_reducible refine pres_modify _ ?_); exact fun s f _ => rfl

/-- The shear functions are unchanged. -/
def SamePsi {n : ℕ} (s t : Store n) : Prop := t.psi = s.psi

theorem samePsi_frame (ty : SolverType) : Pres SamePsi (env.frame ty) := by
  have hr : ∀ a : Store env.sec.numNodes, SamePsi a a := fun _ => rfl
  have ht : ∀ a b c : Store env.sec.numNodes, SamePsi a b → SamePsi b c → SamePsi a c :=
    fun _ _ _ h h' => h'.trans h
  unfold Env.frame Env.frameGeom
  pres hr ht with first
    | exact pres_elasticCentroid hr ht fun s v w => rfl
    | (with_reducible refine Pres.write _ ?_); exact fun s => rfl
    | (with_reducible refine pres_modify _ ?_); exact fun s => rfl

theorem samePsi_geometric : Pres SamePsi env.geometric := by
  have hr : ∀ a : Store env.sec.numNodes, SamePsi a a := fun _ => rfl
  have ht : ∀ a b c : Store env.sec.numNodes, SamePsi a b → SamePsi b c → SamePsi a c :=
    fun _ _ _ h h' => h'.trans h
  unfold Env.geometric Env.centroidalProperties Env.yieldMoments
  pres hr ht with first
    | exact pres_elasticCentroid hr ht fun s v w => rfl
    | (with_reducible refine Pres.write _ ?_); exact fun s => rfl

/-- Nothing that was there has disappeared. -/
def Grows {n : ℕ} (s t : Store n) : Prop :=
  (∀ f, (s.val f).isSome → (t.val f).isSome) ∧ (s.omega.isSome → t.omega.isSome) ∧
    (s.psi.isSome → t.psi.isSome) ∧ (s.phiS.isSome → t.phiS.isSome)

theorem Grows.refl {n : ℕ} (s : Store n) : Grows s s := ⟨fun _ h => h, fun h => h, fun h => h, fun h => h⟩

theorem Grows.trans {n : ℕ} {a b c : Store n} (h : Grows a b) (h' : Grows b c) : Grows a c :=
  ⟨fun f hf => h'.1 f (h.1 f hf), fun x => h'.2.1 (h.2.1 x), fun x => h'.2.2.1 (h.2.2.1 x),
    fun x => h'.2.2.2 (h.2.2.2 x)⟩

theorem Grows.set {n : ℕ} (s : Store n) (l : List (Field × ℝ)) : Grows s (s.set l) :=
  ⟨fun _ hf => assign_isSome _ _ _ hf, fun h => h, fun h => h, fun h => h⟩

theorem grows_geometric : Pres Grows env.geometric := by
  have hr : ∀ a : Store env.sec.numNodes, Grows a a := Grows.refl
  have ht : ∀ a b c : Store env.sec.numNodes, Grows a b → Grows b c → Grows a c :=
    fun _ _ _ => Grows.trans
  unfold Env.geometric Env.centroidalProperties Env.yieldMoments
  pres hr ht with first
    | exact pres_elasticCentroid hr ht fun s v w => Grows.set _ _
    | (with_reducible refine Pres.write _ ?_); exact fun s => Grows.set _ _

theorem grows_warping (ty : SolverType) : Pres Grows (env.warping ty) := by
  have hr : ∀ a : Store env.sec.numNodes, Grows a a := Grows.refl
  have ht : ∀ a b c : Store env.sec.numNodes, Grows a b → Grows b c → Grows a c :=
    fun _ _ _ => Grows.trans
  unfold Env.warping
  pres hr ht with first
    | (with_reducible refine Pres.write _ ?_); exact fun s => Grows.set _ _
    | (with_reducible refine pres_modify _ ?_); exact fun s => ⟨fun _ h => h, fun _ => rfl, fun h => h, fun h => h⟩
    | (with_reducible refine pres_modify _ ?_); exact fun s => ⟨fun _ h => h, fun h => h, fun _ => rfl, fun _ => rfl⟩

theorem grows_frame (ty : SolverType) : Pres Grows (env.frame ty) := by
  have hr : ∀ a : Store env.sec.numNodes, Grows a a := Grows.refl
  have ht : ∀ a b c : Store env.sec.numNodes, Grows a b → Grows b c → Grows a c :=
    fun _ _ _ => Grows.trans
  unfold Env.frame Env.frameGeom
  pres hr ht with first
    | exact pres_elasticCentroid hr ht fun s v w => Grows.set _ _
    | (with_reducible refine Pres.write _ ?_); exact fun s => Grows.set _ _
    | (with_reducible refine pres_modify _ ?_); exact fun s => ⟨fun _ h => h, fun _ => rfl, fun h => h, fun h => h⟩

theorem grows_plastic : Pres Grows env.plasticAnalysis := by
  have hr : ∀ a : Store env.sec.numNodes, Grows a a := Grows.refl
  have ht : ∀ a b c : Store env.sec.numNodes, Grows a b → Grows b c → Grows a c :=
    fun _ _ _ => Grows.trans
  unfold Env.plasticAnalysis Env.shapeFactors
  pres hr ht with (with_reducible refine Pres.write _ ?_); exact fun s => Grows.set _ _

end SP
