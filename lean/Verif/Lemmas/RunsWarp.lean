import Verif.Lemmas.Runs

/-!
# What the warping and frame analyses leave in the store
-/

namespace SP

open Classical

variable {P : Type} (env : Env P)

theorem exec_bind_ok {n : ℕ} {α β : Type} {x : Op n α} {f : α → Op n β} {s s' : Store n} {a : α}
    (h : exec x s = (.ok a, s')) : exec (x >>= f) s = exec (f a) s' := by rw [exec_bind, h]

theorem exec_bind_error {n : ℕ} {α β : Type} {x : Op n α} {f : α → Op n β} {s s' : Store n}
    {e : PyErr} (h : exec x s = (.error e, s')) : exec (x >>= f) s = (.error e, s') := by
  rw [exec_bind, h]

theorem askIc_ok {s : Store env.sec.numNodes} {a b c : ℝ} (h1 : s.val .ixxC = some a)
    (h2 : s.val .iyyC = some b) (h3 : s.val .ixyC = some c) :
    exec env.askIc s = (.ok (a, b, c), s) := by
  unfold Env.askIc
  by_cases hc : isComposite env.sec.materials
  · simp [exec_ask, getEic, hc, h1, h2, h3, ERef.value]
  · simp [exec_ask, getIc, hc, h1, h2, h3]

theorem askIp_ok {s : Store env.sec.numNodes} {a b : ℝ} (h1 : s.val .i11C = some a)
    (h2 : s.val .i22C = some b) : exec env.askIp s = (.ok (a, b), s) := by
  unfold Env.askIp
  by_cases hc : isComposite env.sec.materials
  · simp [exec_ask, getEip, hc, h1, h2, ERef.value]
  · simp [exec_ask, getIp, hc, h1, h2]

theorem askEa_ok {s : Store env.sec.numNodes} {a b : ℝ} (h1 : s.val .area = some a)
    (h2 : s.val .ea = some b) :
    exec env.askEa s = (.ok (if isComposite env.sec.materials then b else a), s) := by
  unfold Env.askEa
  by_cases hc : isComposite env.sec.materials
  · simp [exec_ask, getEa, hc, h2, ERef.value]
  · simp [exec_ask, getArea, hc, h1]

theorem askNu_ok {s : Store env.sec.numNodes} {a : ℝ} (h : s.val .nuEff = some a) :
    exec env.askNu s = (.ok (if isComposite env.sec.materials then a else 0), s) := by
  unfold Env.askNu
  by_cases hc : isComposite env.sec.materials
  · simp [exec_ask, getNuEff, hc, h]
  · simp [exec_pure, hc]

/-- The store holds the results of a geometric analysis. -/
def HoldsGeom {n : ℕ} (perimeter : ℝ) (r : GeomResults) (s : Store n) : Prop :=
  ∀ p ∈ geomValues perimeter r, s.val p.1 = some p.2

theorem geomValues_nodup (perimeter : ℝ) (r : GeomResults) :
    ((geomValues perimeter r).map Prod.fst).Nodup := by
  simp [geomValues]

theorem assign_of_mem {l : List (Field × ℝ)} (hl : (l.map Prod.fst).Nodup) (v) {p : Field × ℝ}
    (hp : p ∈ l) : assign l v p.1 = some p.2 := by
  induction l generalizing v with
  | nil => simp at hp
  | cons q l ih =>
    obtain ⟨g, x⟩ := q
    simp only [List.map_cons, List.nodup_cons] at hl
    rw [assign_cons]
    rcases List.mem_cons.1 hp with rfl | h
    · rw [assign_of_notMem _ _ _ hl.1]; simp
    · exact ih hl.2 _ h

theorem holdsGeom_set {n : ℕ} (perimeter : ℝ) (r : GeomResults) (s : Store n) :
    HoldsGeom perimeter r (s.set (geomValues perimeter r)) := fun _ hp =>
  assign_of_mem (geomValues_nodup perimeter r) _ hp

/-- Assignments to other fields keep the geometric results. -/
theorem holdsGeom_mono {n : ℕ} {perimeter : ℝ} {r : GeomResults} {s : Store n}
    (h : HoldsGeom perimeter r s) {l : List (Field × ℝ)}
    (hl : ∀ p ∈ geomValues perimeter r, p.1 ∉ l.map Prod.fst) : HoldsGeom perimeter r (s.set l) := by
  intro p hp
  rw [set_val, assign_of_notMem _ _ _ (hl p hp)]
  exact h p hp

theorem askEa_geom {pm : ℝ} {r : GeomResults} {s : Store env.sec.numNodes}
    (h : HoldsGeom pm r s) : exec env.askEa s
      = (.ok (if isComposite env.sec.materials then r.sums.ea else r.sums.area), s) :=
  askEa_ok env (h (.area, _) (by simp [geomValues])) (h (.ea, _) (by simp [geomValues]))

theorem askIp_geom {pm : ℝ} {r : GeomResults} {s : Store env.sec.numNodes}
    (h : HoldsGeom pm r s) : exec env.askIp s = (.ok (r.cent.i11, r.cent.i22), s) :=
  askIp_ok env (h (.i11C, _) (by simp [geomValues])) (h (.i22C, _) (by simp [geomValues]))

theorem askPhi_geom {pm : ℝ} {r : GeomResults} {s : Store env.sec.numNodes}
    (h : HoldsGeom pm r s) : exec (ask fun p => getPhi p : Op env.sec.numNodes ℝ) s
      = (.ok r.cent.phi, s) := by
  rw [exec_ask, getPhi, h (.phi, r.cent.phi) (by simp [geomValues])]

theorem askArea_geom {pm : ℝ} {r : GeomResults} {s : Store env.sec.numNodes}
    (h : HoldsGeom pm r s) : exec (ask fun p => getArea p : Op env.sec.numNodes ℝ) s
      = (.ok r.sums.area, s) := by
  rw [exec_ask, getArea, h (.area, r.sums.area) (by simp [geomValues])]

/-- The values a warping analysis stores. -/
def warpValues {n : ℕ} (w : WarpResults n) : List (Field × ℝ) :=
  [(.j, w.j), (.deltaS, w.deltaS), (.xSe, w.sc.xSe), (.ySe, w.sc.ySe), (.x11Se, w.sc.x11Se),
   (.y22Se, w.sc.y22Se), (.xSt, w.sc.xSt), (.ySt, w.sc.ySt), (.gamma, w.gamma), (.aSx, w.areas.sx),
   (.aSy, w.areas.sy), (.aSxy, w.areas.sxy), (.aS11, w.areas.s11), (.aS22, w.areas.s22),
   (.betaXPlus, w.beta.xPlus), (.betaXMinus, w.beta.xMinus), (.betaYPlus, w.beta.yPlus),
   (.betaYMinus, w.beta.yMinus), (.beta11Plus, w.beta.b11Plus), (.beta11Minus, w.beta.b11Minus),
   (.beta22Plus, w.beta.b22Plus), (.beta22Minus, w.beta.b22Minus)]

/-- The store after a successful warping analysis. -/
def Store.setWarp {n : ℕ} (s : Store n) (w : WarpResults n) : Store n :=
  { val := assign (warpValues w) s.val, omega := some w.omega, psi := some w.psi,
    phiS := some w.phiS }

set_option maxHeartbeats 1000000 in
/-- A warping analysis on a store with geometric results: succeeds iff the pure analysis does, with
its results; otherwise raises the same exception and keeps the geometric results. -/
theorem exec_warping (ty : SolverType) {r : GeomResults} {s : Store env.sec.numNodes}
    (hs : HoldsGeom env.perimeter r s) :
    (∀ w, env.sec.warping env.solvers ty r = .ok w → exec (env.warping ty) s = (.ok (), s.setWarp w))
    ∧ (∀ e, env.sec.warping env.solvers ty r = .error e →
        (exec (env.warping ty) s).1 = .error e ∧
        HoldsGeom env.perimeter r (exec (env.warping ty) s).2) := by
  have harea : s.val .area = some r.sums.area := hs (.area, _) (by simp [geomValues])
  have hea : s.val .ea = some r.sums.ea := hs (.ea, _) (by simp [geomValues])
  have hcx : s.val .cx = some r.cx := hs (.cx, _) (by simp [geomValues])
  have hcy : s.val .cy = some r.cy := hs (.cy, _) (by simp [geomValues])
  have hixx : s.val .ixxC = some r.cent.ixxC := hs (.ixxC, _) (by simp [geomValues])
  have hiyy : s.val .iyyC = some r.cent.iyyC := hs (.iyyC, _) (by simp [geomValues])
  have hixy : s.val .ixyC = some r.cent.ixyC := hs (.ixyC, _) (by simp [geomValues])
  have hphi : s.val .phi = some r.cent.phi := hs (.phi, _) (by simp [geomValues])
  have hnu : s.val .nuEff = some r.nuEff := hs (.nuEff, _) (by simp [geomValues])
  have hi11 : s.val .i11C = some r.cent.i11 := hs (.i11C, _) (by simp [geomValues])
  have hi22 : s.val .i22C = some r.cent.i22 := hs (.i22C, _) (by simp [geomValues])
  have keep : ∀ (l : List (Field × ℝ)) (o p q), (∀ p ∈ geomValues env.perimeter r,
      p.1 ∉ l.map Prod.fst) →
      HoldsGeom env.perimeter r (⟨assign l s.val, o, p, q⟩ : Store env.sec.numNodes) :=
    fun l o p q hl => holdsGeom_mono hs hl
  have hA : assign [] s.val = s.val := rfl
  unfold Section.warping warpingAnalysis Env.warping
  rw [exec_get_bind]
  simp only [harea, hixx, hcx, reduceCtorEq, or_self, if_false, exec_ask_bind, getC, hcy]
  generalize env.sec.elements.map (fun t => t.shiftBy r.cx r.cy) = els
  cases hw : solveWarping env.solvers ty (assembleTorsion els).1 (assembleTorsion els).2 with
  | error e =>
    constructor
    · intro w h; cases h
    · intro e' h
      cases h
      exact ⟨rfl, hs⟩
  | ok omega =>
    simp only [exec_attempt_bind]
    rw [exec_modify_bind]
    rw [exec_bind_ok (askIc_ok env (s := ⟨s.val, some omega, s.psi, s.phiS⟩) (a := r.cent.ixxC) (b := r.cent.iyyC) (c := r.cent.ixyC) hixx hiyy hixy)]
    dsimp only
    rw [exec_write_bind]
    rw [exec_bind_ok (askNu_ok env (a := r.nuEff) (by
      rw [set_val, assign_of_notMem _ _ _ (by simp)]; exact hnu))]
    set J := r.cent.ixxC + r.cent.iyyC - dotN omega (assembleTorsion els).2 with hJ
    set nu := (if isComposite env.sec.materials then r.nuEff else 0) with hnu'
    have e1 : assembleShearLoad els (warpIn env.sec.materials r)
      = assembleShearLoad els ⟨r.cent.ixxC, r.cent.iyyC, r.cent.ixyC, nu, 0, 0, 0, 0, 0⟩ := rfl
    rw [e1]
    set FF := assembleShearLoad els ⟨r.cent.ixxC, r.cent.iyyC, r.cent.ixyC, nu, 0, 0, 0, 0, 0⟩
    have kept : HoldsGeom env.perimeter r
        (Store.set ⟨s.val, some omega, s.psi, s.phiS⟩ [(Field.j, J)] : Store env.sec.numNodes) :=
      keep [(.j, J)] _ _ _ (by simp [geomValues])
    cases h1 : solveShear env.solvers ty (assembleTorsion els).1 FF.1 with
    | error e =>
      constructor
      · intro w h; cases h
      · intro e' h
        cases h
        exact ⟨rfl, kept⟩
    | ok psi =>
      dsimp only
      cases h2 : solveShear env.solvers ty (assembleTorsion els).1 FF.2 with
      | error e =>
        constructor
        · intro w h; cases h
        · intro e' h
          cases h
          exact ⟨rfl, kept⟩
      | ok phiS =>
        constructor
        swap
        · intro e h; cases h
        intro w h
        replace h := Except.ok.inj h
        rw [exec_bind_ok (exec_attempt _ _), exec_bind_ok (exec_attempt _ _), exec_modify_bind]
        have k1 : HoldsGeom env.perimeter r (⟨(Store.set ⟨s.val, some omega, s.psi, s.phiS⟩
            [(Field.j, J)] : Store env.sec.numNodes).val, some omega, some psi, some phiS⟩ :
            Store env.sec.numNodes) := keep [(.j, J)] _ _ _ (by simp [geomValues])
        refine (exec_bind_ok (askPhi_geom env k1)).trans ?_
        rw [exec_write_bind]
        rw [exec_bind_ok (askEa_geom env (holdsGeom_mono k1 (by simp [geomValues]))), exec_write_bind,
          exec_write_bind, set_set, set_set]
        rw [exec_bind_ok (askArea_geom env (holdsGeom_mono k1 (by simp [geomValues]))), exec_write_bind,
          set_set]
        rw [exec_bind_ok (askIp_geom env (holdsGeom_mono k1 (by simp [geomValues]))), exec_write,
          set_set]
        subst h
        rfl

/-- The values the first half of a frame analysis stores. -/
noncomputable def frameValues (g : GeomSums) : List (Field × ℝ) :=
  [(.area, g.area), (.ea, g.ea), (.qx, g.qx), (.qy, g.qy), (.ixxG, g.ixxG), (.iyyG, g.iyyG),
   (.ixyG, g.ixyG), (.cx, g.cx), (.cy, g.cy), (.ixxC, g.ixxC), (.iyyC, g.iyyC), (.ixyC, g.ixyC),
   (.j, 0), (.phi, phiOf g.ixxC g.iyyC g.ixyC)]

set_option maxHeartbeats 1000000 in
/-- The first half of a frame analysis stores the frame properties without the torsion constant. -/
theorem exec_frameGeom (hea : ¬ isComposite env.sec.materials →
      (geomSums env.sec.elements).ea = (geomSums env.sec.elements).area)
    (s : Store env.sec.numNodes) :
    exec env.frameGeom s = (.ok (), s.set (frameValues (geomSums env.sec.elements))) := by
  unfold Env.frameGeom
  generalize geomSums env.sec.elements = g at hea
  rw [exec_write_bind]
  dsimp only
  rw [exec_write_bind, set_set]
  unfold Env.elasticCentroid
  rw [exec_bind, exec_get_bind]
  simp only [set_val, assign_cons, assign_nil, ne_eq, reduceCtorEq, not_false_eq_true,
      Function.update_self, Function.update_of_ne, exec_write, set_set, List.cons_append, List.nil_append]
  have hE : (if isComposite env.sec.materials then g.ea else g.area) = g.ea := by
    split
    · rfl
    · rename_i hc; exact (hea hc).symm
  set l := [(Field.area, (0 : ℝ)), (Field.ea, 0), (Field.qx, 0), (Field.qy, 0), (Field.ixxG, 0),
    (Field.iyyG, 0), (Field.ixyG, 0), (Field.ixxC, 0), (Field.iyyC, 0), (Field.ixyC, 0),
    (Field.j, 0), (Field.phi, 0), (Field.area, g.area), (Field.ea, g.ea), (Field.qx, g.qx),
    (Field.qy, g.qy), (Field.ixxG, g.ixxG), (Field.iyyG, g.iyyG), (Field.ixyG, g.ixyG),
    (Field.cx, g.qy / g.ea), (Field.cy, g.qx / g.ea)] with hl
  have h1 : (s.set l).val .area = some g.area := by simp [hl, set_val, assign_cons, assign_nil]
  have h2 : (s.set l).val .ea = some g.ea := by simp [hl, set_val, assign_cons, assign_nil]
  have h3 : (s.set l).val .qx = some g.qx := by simp [hl, set_val, assign_cons, assign_nil]
  have h4 : (s.set l).val .qy = some g.qy := by simp [hl, set_val, assign_cons, assign_nil]
  have h5 : (s.set l).val .ixxG = some g.ixxG := by simp [hl, set_val, assign_cons, assign_nil]
  have h6 : (s.set l).val .iyyG = some g.iyyG := by simp [hl, set_val, assign_cons, assign_nil]
  have h7 : (s.set l).val .ixyG = some g.ixyG := by simp [hl, set_val, assign_cons, assign_nil]
  rw [exec_bind_ok (askEa_ok env h1 h2), hE]
  have hq : exec env.askQ (s.set l) = (.ok (g.qx, g.qy), s.set l) := by
    unfold Env.askQ
    by_cases hc : isComposite env.sec.materials
    · simp [exec_ask, getEq, hc, h3, h4, ERef.value]
    · simp [exec_ask, getQ, hc, h3, h4]
  have hI : exec env.askIg (s.set l) = (.ok (g.ixxG, g.iyyG, g.ixyG), s.set l) := by
    unfold Env.askIg
    by_cases hc : isComposite env.sec.materials
    · simp [exec_ask, getEig, hc, h5, h6, h7, ERef.value]
    · simp [exec_ask, getIg, hc, h5, h6, h7]
  rw [exec_bind_ok hq]
  dsimp only
  rw [exec_bind_ok hI]
  dsimp only
  rw [exec_write_bind, exec_bind_ok (askIc_ok env (a := g.ixxC) (b := g.iyyC) (c := g.ixyC)
    (by simp [set_val, assign_cons, assign_nil, GeomSums.ixxC])
    (by simp [set_val, assign_cons, assign_nil, GeomSums.iyyC])
    (by simp [set_val, assign_cons, assign_nil, GeomSums.ixyC])), set_set]
  have hphi : phiOf g.ixxC g.iyyC g.ixyC = if |g.ixxC - ((g.ixxC + g.iyyC) / 2
      + √(((g.ixxC - g.iyyC) / 2) ^ 2 + g.ixyC ^ 2))| < 1e-12 * ((g.ixxC + g.iyyC) / 2
      + √(((g.ixxC - g.iyyC) / 2) ^ 2 + g.ixyC ^ 2)) then 0
      else arctan2 (g.ixxC - ((g.ixxC + g.iyyC) / 2
      + √(((g.ixxC - g.iyyC) / 2) ^ 2 + g.ixyC ^ 2))) g.ixyC * 180 / Real.pi := rfl
  have hfin : ∀ φ : ℝ, (s.set (l ++ [(Field.ixxC, g.ixxG - g.qx ^ 2 / g.ea),
      (Field.iyyC, g.iyyG - g.qy ^ 2 / g.ea), (Field.ixyC, g.ixyG - g.qx * g.qy / g.ea)])).set
      [(Field.phi, φ)] = s.set [(.area, g.area), (.ea, g.ea), (.qx, g.qx), (.qy, g.qy), (.ixxG, g.ixxG),
        (.iyyG, g.iyyG), (.ixyG, g.ixyG), (.cx, g.cx), (.cy, g.cy), (.ixxC, g.ixxC),
        (.iyyC, g.iyyC), (.ixyC, g.ixyC), (.j, 0), (.phi, φ)] := by
    intro φ
    refine Store.ext' ?_ rfl rfl rfl
    funext f
    cases f <;> simp [hl, set_val, assign_cons, assign_nil, GeomSums.ixxC, GeomSums.iyyC,
      GeomSums.ixyC, GeomSums.cx, GeomSums.cy]
  unfold frameValues
  rw [hphi]
  dsimp only
  rw [exec_ite]
  split
  · rw [exec_write, hfin]
  · rw [exec_write, hfin]

/-- A frame analysis: if the solver answers, the result and the store; otherwise the exception, with
the first half stored. -/
theorem exec_frame (ty : SolverType) (hea : ¬ isComposite env.sec.materials →
      (geomSums env.sec.elements).ea = (geomSums env.sec.elements).area)
    (s : Store env.sec.numNodes) :
    let g := geomSums env.sec.elements
    let T := assembleTorsion (env.sec.elements.map fun t => t.shiftBy g.cx g.cy)
    (∀ omega, solveWarping env.solvers ty T.1 T.2 = .ok omega →
      exec (env.frame ty) s = (.ok (g.area, g.ixxC, g.iyyC, g.ixyC, g.ixxC + g.iyyC - dotN omega T.2,
          phiOf g.ixxC g.iyyC g.ixyC),
        { s.set (frameValues g ++ [(.j, g.ixxC + g.iyyC - dotN omega T.2)]) with
            omega := some omega })) ∧
    (∀ e, solveWarping env.solvers ty T.1 T.2 = .error e →
      exec (env.frame ty) s = (.error e, s.set (frameValues g))) := by
  intro g T
  unfold Env.frame
  rw [exec_bind_ok (exec_frameGeom env hea s)]
  have hc : exec (ask fun p => getC p : Op env.sec.numNodes (ℝ × ℝ)) (s.set (frameValues g))
      = (.ok (g.cx, g.cy), s.set (frameValues g)) := by
    rw [exec_ask]; simp [getC, frameValues, set_val, assign_cons, assign_nil]
  rw [exec_bind_ok hc]
  dsimp only
  change (∀ omega, solveWarping env.solvers ty T.1 T.2 = .ok omega → _) ∧ _
  constructor
  · intro omega ho
    have ha : exec (attempt (solveWarping env.solvers ty T.1 T.2) : Op env.sec.numNodes _)
      (s.set (frameValues g)) = (.ok omega, s.set (frameValues g)) := by rw [exec_attempt, ho]
    refine (exec_bind_ok ha).trans ?_
    rw [exec_modify_bind]
    refine (exec_bind_ok (askIc_ok env (a := g.ixxC) (b := g.iyyC) (c := g.ixyC)
      (by simp [frameValues, set_val, assign_cons, assign_nil])
      (by simp [frameValues, set_val, assign_cons, assign_nil])
      (by simp [frameValues, set_val, assign_cons, assign_nil]))).trans ?_
    rw [exec_write_bind, exec_get_bind]
    simp only [frameValues, set_val, assign_cons, assign_nil, ne_eq, reduceCtorEq, not_false_eq_true,
      Function.update_self, Function.update_of_ne, exec_pure, List.cons_append, List.nil_append]
    rfl
  · intro e ho
    have ha : exec (attempt (solveWarping env.solvers ty T.1 T.2) : Op env.sec.numNodes _)
      (s.set (frameValues g)) = (.error e, s.set (frameValues g)) := by rw [exec_attempt, ho]
    exact exec_bind_error ha

end SP
