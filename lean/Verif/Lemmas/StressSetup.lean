import Verif.Lemmas.Pres

/-!
# What a stress analysis reads from the store
-/

namespace SP

open Classical

variable {P : Type} (env : Env P)

/-- The geometric part of the stress data. -/
structure GeoData where
  ea : ℝ
  cx : ℝ
  cy : ℝ
  ixx : ℝ
  iyy : ℝ
  ixy : ℝ
  i11 : ℝ
  i22 : ℝ
  phi : ℝ

/-- The stress data with given warping part. -/
def GeoData.toEnv (g : GeoData) (j nu ds : ℝ) : StressEnv :=
  ⟨g.ea, g.cx, g.cy, g.ixx, g.iyy, g.ixy, g.i11, g.i22, g.phi, j, nu, ds⟩

/-- The warping functions used when there is neither shear nor torsion. -/
def zeroFields (n : ℕ) : WarpFields n := ⟨fun _ => 0, fun _ => 0, fun _ => 0⟩

theorem read_only {α : Type} {x : Op env.sec.numNodes α} (h : Pres (OnlyVals []) x)
    (s : Store env.sec.numNodes) : (∃ e, exec x s = (.error e, s)) ∨ ∃ v, exec x s = (.ok v, s) := by
  have h1 := (h s).eq
  rcases hx : exec x s with ⟨r, s'⟩
  rw [hx] at h1
  have h1 : s' = s := h1
  subst h1
  cases r with
  | error e => exact .inl ⟨e, rfl⟩
  | ok v => exact .inr ⟨v, rfl⟩

theorem setup_form (s : Store env.sec.numNodes) :
    (∃ e, ∀ a, exec (env.stressSetup a) s = (.error e, s)) ∨
    ∃ g : GeoData,
      (∃ e, ∀ a, exec (env.stressSetup a) s = if a.vx ≠ 0 ∨ a.vy ≠ 0 ∨ a.mzz ≠ 0 then (.error e, s)
        else (.ok (g.toEnv 0 0 0, zeroFields _), s)) ∨
      ∃ j nu ds wf, ∀ a, exec (env.stressSetup a) s = if a.vx ≠ 0 ∨ a.vy ≠ 0 ∨ a.mzz ≠ 0 then
          (.ok (g.toEnv j nu ds, wf), s) else (.ok (g.toEnv 0 0 0, zeroFields _), s) := by
  have hr : ∀ a : Store env.sec.numNodes, OnlyVals [] a a := OnlyVals.refl
  unfold Env.stressSetup
  rcases read_only env (Pres.ask hr (fun p => getC p)) s with ⟨e, h1⟩ | ⟨⟨cx, cy⟩, h1⟩
  · exact .inl ⟨e, fun a => exec_bind_error h1⟩
  rcases read_only env (Pres.ask hr (fun p => getPhi p)) s with ⟨e, h2⟩ | ⟨phi, h2⟩
  · exact .inl ⟨e, fun a => (exec_bind_ok h1).trans (exec_bind_error h2)⟩
  rcases read_only env (pres_askEa env hr) s with ⟨e, h3⟩ | ⟨ea, h3⟩
  · exact .inl ⟨e, fun a => (exec_bind_ok h1).trans ((exec_bind_ok h2).trans (exec_bind_error h3))⟩
  rcases read_only env (pres_askIc env hr) s with ⟨e, h4⟩ | ⟨⟨ixx, iyy, ixy⟩, h4⟩
  · exact .inl ⟨e, fun a => (exec_bind_ok h1).trans ((exec_bind_ok h2).trans
      ((exec_bind_ok h3).trans (exec_bind_error h4)))⟩
  rcases read_only env (pres_askIp env hr) s with ⟨e, h5⟩ | ⟨⟨i11, i22⟩, h5⟩
  · exact .inl ⟨e, fun a => (exec_bind_ok h1).trans ((exec_bind_ok h2).trans
      ((exec_bind_ok h3).trans ((exec_bind_ok h4).trans (exec_bind_error h5))))⟩
  refine .inr ⟨⟨ea, cx, cy, ixx, iyy, ixy, i11, i22, phi⟩, ?_⟩
  have pre : ∀ {β : Type} (f : ℝ × ℝ → ℝ → ℝ → ℝ × ℝ × ℝ → ℝ × ℝ → Op env.sec.numNodes β),
      exec ((ask fun p => getC p) >>= fun c => (ask fun p => getPhi p) >>= fun ph =>
        env.askEa >>= fun e => env.askIc >>= fun ic => env.askIp >>= fun ip => f c ph e ic ip) s
      = exec (f (cx, cy) phi ea (ixx, iyy, ixy) (i11, i22)) s := fun f =>
    (exec_bind_ok h1).trans ((exec_bind_ok h2).trans ((exec_bind_ok h3).trans ((exec_bind_ok h4).trans
      (exec_bind_ok h5))))
  obtain ⟨J, hJ, hJe⟩ : ∃ J : Store env.sec.numNodes → Except PyErr ℝ, Pres (OnlyVals []) (ask J) ∧
      J = fun p => if isComposite env.sec.materials then getEj env.sec.materials p (.num 1)
        else getJ env.sec.materials p := ⟨_, Pres.ask hr _, rfl⟩
  have hsame : ∀ a, exec (env.stressSetup a) s = if a.vx ≠ 0 ∨ a.vy ≠ 0 ∨ a.mzz ≠ 0 then
      exec (do
        let j ← ask J
        let nu ← env.askNu
        let s ← get
        match s.val .deltaS, s.omega, s.psi, s.phiS with
        | some ds, some om, some ps, some ph =>
          return (⟨ea, cx, cy, ixx, iyy, ixy, i11, i22, phi, j, nu, ds⟩, ⟨om, ps, ph⟩)
        | _, _, _, _ => throw .runtimeError) s
      else (.ok (⟨ea, cx, cy, ixx, iyy, ixy, i11, i22, phi, 0, 0, 0⟩, zeroFields _), s) := by
    intro a
    unfold Env.stressSetup
    refine (pre _).trans ?_
    dsimp only
    split_ifs with h hc
    · simp only [hJe, hc, if_true]; rfl
    · simp only [hJe, hc, if_false]; rfl
    · rfl
  rcases read_only env hJ s with ⟨e, h6⟩ | ⟨j, h6⟩
  · exact .inl ⟨e, fun a => by refine (hsame a).trans ?_; rw [exec_bind_error h6]; rfl⟩
  rcases read_only env (pres_askNu env hr) s with ⟨e, h7⟩ | ⟨nu, h7⟩
  · exact .inl ⟨e, fun a => by refine (hsame a).trans ?_; rw [exec_bind_ok h6, exec_bind_error h7]; rfl⟩
  have h8 : ∀ a, exec (env.stressSetup a) s = if a.vx ≠ 0 ∨ a.vy ≠ 0 ∨ a.mzz ≠ 0 then
      exec (match s.val .deltaS, s.omega, s.psi, s.phiS with
        | some ds, some om, some ps, some ph =>
          pure (⟨ea, cx, cy, ixx, iyy, ixy, i11, i22, phi, j, nu, ds⟩, ⟨om, ps, ph⟩)
        | _, _, _, _ => throw .runtimeError) s
      else (.ok (⟨ea, cx, cy, ixx, iyy, ixy, i11, i22, phi, 0, 0, 0⟩, zeroFields _), s) := by
    intro a
    rw [hsame a, exec_bind_ok h6, exec_bind_ok h7, exec_get_bind]
  cases hds : s.val .deltaS with
  | none => exact .inl ⟨_, fun a => (h8 a).trans (by rw [hds]; rfl)⟩
  | some ds =>
  cases hom : s.omega with
  | none => exact .inl ⟨_, fun a => (h8 a).trans (by rw [hds, hom]; rfl)⟩
  | some om =>
  cases hps : s.psi with
  | none => exact .inl ⟨_, fun a => (h8 a).trans (by rw [hds, hom, hps]; rfl)⟩
  | some ps =>
  cases hph : s.phiS with
  | none => exact .inl ⟨_, fun a => (h8 a).trans (by rw [hds, hom, hps, hph]; rfl)⟩
  | some ph => exact .inr ⟨j, nu, ds, ⟨om, ps, ph⟩, fun a => (h8 a).trans (by
      rw [hds, hom, hps, hph]; rfl)⟩

end SP
