import Verif.Lemmas.StressSetup
import Verif.Spec.Stress
import Verif.Props.History

/-!
# C24: stresses superpose linearly
-/

namespace SP

open Classical Spec

section
variable {n : ℕ} (α β : ℝ)

theorem fancyAdd_lin (a b : Fin n → ℝ) (ids : Fin 6 → Fin n) (v w : Fin 6 → ℝ) :
    fancyAdd (fun i => α * a i + β * b i) ids (fun k => α * v k + β * w k)
      = fun i => α * fancyAdd a ids v i + β * fancyAdd b ids w i := by
  unfold fancyAdd
  have : ∀ (l : List (Fin 6)) (x y : Fin n → ℝ),
      l.foldl (fun acc k => Function.update acc (ids k)
          ((fun i => α * a i + β * b i) (ids k) + (α * v k + β * w k))) (fun i => α * x i + β * y i)
        = fun i => α * l.foldl (fun acc k => Function.update acc (ids k) (a (ids k) + v k)) x i
          + β * l.foldl (fun acc k => Function.update acc (ids k) (b (ids k) + w k)) y i := by
    intro l
    induction l with
    | nil => intro x y; rfl
    | cons k l ih =>
      intro x y
      simp only [List.foldl_cons]
      rw [← ih]
      congr 1
      funext i
      by_cases h : i = ids k
      · subst h; simp; ring
      · simp [h]
  exact this _ a b

theorem assembleVec_lin (els : List (Tri6 n)) (v w : Tri6 n → Fin 6 → ℝ) :
    assembleVec els (fun t k => α * v t k + β * w t k)
      = fun i => α * assembleVec els v i + β * assembleVec els w i := by
  unfold assembleVec
  have : ∀ x y : Fin n → ℝ, els.foldl (fun f t => fancyAdd f t.nodeIds fun k => α * v t k + β * w t k)
        (fun i => α * x i + β * y i)
      = fun i => α * els.foldl (fun f t => fancyAdd f t.nodeIds (v t)) x i
        + β * els.foldl (fun f t => fancyAdd f t.nodeIds (w t)) y i := by
    induction els with
    | nil => intro x y; rfl
    | cons t els ih => intro x y; simp only [List.foldl_cons]; rw [fancyAdd_lin, ih]
  simpa using this (fun _ => 0) (fun _ => 0)

theorem nodalAverage_lin (els : List (Tri6 n)) (v w : Tri6 n → Fin 6 → ℝ) (i : Fin n) :
    nodalAverage els (fun t k => α * v t k + β * w t k) i
      = α * nodalAverage els v i + β * nodalAverage els w i := by
  unfold nodalAverage
  have : (fun (t : Tri6 n) (i : Fin 6) => (α * v t i + β * w t i) * stressWeight i)
      = fun t i => α * (v t i * stressWeight i) + β * (w t i * stressWeight i) := by
    funext t i; ring
  dsimp only
  rw [this, assembleVec_lin]
  dsimp only
  split_ifs <;> ring

theorem extrapolate_lin (v w : Fin 6 → ℝ) (i : Fin 6) :
    extrapolateToNodes (fun k => α * v k + β * w k) i
      = α * extrapolateToNodes v i + β * extrapolateToNodes w i := by
  unfold extrapolateToNodes
  rw [Finset.mul_sum, Finset.mul_sum, ← Finset.sum_add_distrib]
  exact Finset.sum_congr rfl fun k _ => by ring

theorem ite_mul_ne' (x c y z : ℝ) [Decidable (x ≠ 0)] : (if x ≠ 0 then c * x / y * z else 0) = c * x / y * z := by
  split_ifs with h
  · rfl
  · rw [not_not.1 h]; simp

/-- All components at a Gauss point are linear in the actions. -/
theorem stressAt_lin (t : Tri6 n) (a b : Actions) (s : StressEnv) (om ps ph : Fin 6 → ℝ) (gp : GaussPt) :
    ∀ f ∈ individual, f (t.stressAt (Actions.lin α β a b) s om ps ph gp)
      = α * f (t.stressAt a s om ps ph gp) + β * f (t.stressAt b s om ps ph gp) := by
  intro f hf
  simp only [individual, List.mem_cons, List.not_mem_nil, or_false] at hf
  rcases hf with rfl | rfl | rfl | rfl | rfl | rfl | rfl | rfl | rfl | rfl | rfl <;>
    simp only [Tri6.stressAt, ite_mul_ne'] <;> simp only [Actions.lin] <;> ring

theorem elementStress_lin (t : Tri6 n) (a b : Actions) (s : StressEnv) (om ps ph : Fin 6 → ℝ)
    (k : Fin 6) : ∀ f ∈ individual, f (t.elementStress (Actions.lin α β a b) s om ps ph k)
      = α * f (t.elementStress a s om ps ph k) + β * f (t.elementStress b s om ps ph k) := by
  intro f hf
  have H := fun gp => stressAt_lin α β t a b s om ps ph gp
  simp only [individual, List.mem_cons, List.not_mem_nil, or_false] at hf
  rcases hf with rfl | hf
  · show (Actions.lin α β a b).n * 1 * t.material.elasticModulus / s.ea
      = α * (a.n * 1 * t.material.elasticModulus / s.ea)
        + β * (b.n * 1 * t.material.elasticModulus / s.ea)
    simp only [Actions.lin]; ring
  have e : ∀ a, f (t.elementStress a s om ps ph k)
      = extrapolateToNodes (fun g => f (t.stressAt a s om ps ph (gauss6pt g))) k := by
    intro a
    rcases hf with rfl | rfl | rfl | rfl | rfl | rfl | rfl | rfl | rfl | rfl <;> rfl
  rw [e, e, e, ← extrapolate_lin]
  congr 1
  funext g
  exact H _ f (by simp [individual]; tauto)

theorem groupStress_lin (els : List (Tri6 n)) (a b : Actions) (s : StressEnv) (wf : WarpFields n)
    (i : Fin n) : ∀ f ∈ individual, f (groupStress els (Actions.lin α β a b) s wf i)
      = α * f (groupStress els a s wf i) + β * f (groupStress els b s wf i) := by
  intro f hf
  have e : ∀ a, f (groupStress els a s wf i)
      = nodalAverage els (fun t k => f (elStress a s wf t k)) i := by
    intro a
    simp only [individual, List.mem_cons, List.not_mem_nil, or_false] at hf
    rcases hf with rfl | rfl | rfl | rfl | rfl | rfl | rfl | rfl | rfl | rfl | rfl <;> rfl
  rw [e, e, e, ← nodalAverage_lin]
  congr 1
  funext t k
  exact elementStress_lin α β t a b s _ _ _ k f hf

theorem combined_lin {c a b : StressComp} (h : ∀ f ∈ individual, f c = α * f a + β * f b) :
    ∀ f ∈ combinedLinear, f (combined c) = α * f (combined a) + β * f (combined b) := by
  intro f hf
  simp only [individual, List.mem_cons, List.not_mem_nil, or_false, forall_eq_or_imp, forall_eq] at h
  obtain ⟨h1, h2, h3, h4, h5, h6, h7, h8, h9, h10, h11⟩ := h
  simp only [combinedLinear, List.mem_cons, List.not_mem_nil, or_false] at hf
  rcases hf with rfl | rfl | rfl | rfl | rfl | rfl <;> simp only [combined] <;>
    simp only [h1, h2, h3, h4, h5, h6, h7, h8, h9, h10, h11] <;> ring

/-- Without shear and torsion the warping part of the data does not matter. -/
theorem groupStress_noshear (els : List (Tri6 n)) (a : Actions) (g : GeoData) (j nu ds j' nu' ds' : ℝ)
    (wf wf' : WarpFields n) (ha : ¬ (a.vx ≠ 0 ∨ a.vy ≠ 0 ∨ a.mzz ≠ 0)) :
    groupStress els a (g.toEnv j nu ds) wf = groupStress els a (g.toEnv j' nu' ds') wf' := by
  have h1 : a.vx = 0 := by by_contra h; exact ha (.inl h)
  have h2 : a.vy = 0 := by by_contra h; exact ha (.inr (.inl h))
  have h3 : a.mzz = 0 := by by_contra h; exact ha (.inr (.inr h))
  have : ∀ t : Tri6 n, elStress a (g.toEnv j nu ds) wf t = elStress a (g.toEnv j' nu' ds') wf' t := by
    intro t
    funext k
    have hs : ∀ gp, t.stressAt a (g.toEnv j nu ds) (t.local wf.omega) (t.local wf.psi) (t.local wf.phiS) gp
        = t.stressAt a (g.toEnv j' nu' ds') (t.local wf'.omega) (t.local wf'.psi) (t.local wf'.phiS) gp := by
      intro gp
      simp only [Tri6.stressAt, GeoData.toEnv, h1, h2, h3, ne_eq, not_true_eq_false, if_false]
    simp only [elStress, Tri6.elementStress, hs]
    rfl
  funext i
  simp only [groupStress, this]

end

variable {P : Type} (env : Env P)

theorem exec_stress (a : Actions) (s : Store env.sec.numNodes) :
    exec (env.stress a) s = if s.val .area = none ∨ s.val .ixxC = none ∨ s.val .cx = none then
        (.error .runtimeError, s)
      else if (a.vx ≠ 0 ∨ a.vy ≠ 0 ∨ a.mzz ≠ 0) ∧ s.omega = none then (.error .runtimeError, s)
      else match exec (env.stressSetup a) s with
        | (.ok p, s') => (.ok (stressLoop env.sec.groups a p.1 p.2), s')
        | (.error e, s') => (.error e, s') := by
  unfold Env.stress
  rw [exec_get_bind]
  by_cases h1 : s.val .area = none ∨ s.val .ixxC = none ∨ s.val .cx = none
  · rw [if_pos h1, if_pos h1]; rfl
  by_cases h2 : (a.vx ≠ 0 ∨ a.vy ≠ 0 ∨ a.mzz ≠ 0) ∧ s.omega = none
  · rw [if_neg h1, if_neg h1, if_pos h2, if_pos h2]; rfl
  rw [if_neg h1, if_neg h1, if_neg h2, if_neg h2]
  refine (exec_bind _ _ _).trans ?_
  rcases exec (env.stressSetup a) s with ⟨r, s'⟩
  cases r <;> rfl

/-- The stresses that a stress analysis returns are computed from data that depend on the store only,
not on the actions. -/
theorem stress_data (s : Store env.sec.numNodes) :
    ∃ (e : StressEnv) (wf : WarpFields env.sec.numNodes), ∀ a l, exec (env.stress a) s = (.ok l, s) →
      l = stressLoop env.sec.groups a e wf := by
  rcases setup_form env s with ⟨e, h⟩ | ⟨g, ⟨e, h⟩ | ⟨j, nu, ds, wf, h⟩⟩
  · refine ⟨⟨0, 0, 0, 0, 0, 0, 0, 0, 0, 0, 0, 0⟩, zeroFields _, fun a l hl => ?_⟩
    rw [exec_stress, h] at hl
    split_ifs at hl <;> simp at hl
  · refine ⟨g.toEnv 0 0 0, zeroFields _, fun a l hl => ?_⟩
    rw [exec_stress, h] at hl
    split_ifs at hl <;> simp at hl
    exact hl.symm
  · refine ⟨g.toEnv j nu ds, wf, fun a l hl => ?_⟩
    rw [exec_stress, h] at hl
    split_ifs at hl with h1 h2 h3
    · simp at hl
    · simp at hl
    · simp at hl; exact hl.symm
    · simp only [Prod.mk.injEq, Except.ok.injEq, and_true] at hl
      rw [← hl]
      unfold stressLoop
      rw [List.map_inj_left]
      intro m _
      rw [groupStress_noshear m.elements a g j nu ds 0 0 0 wf (zeroFields _) h3]

/-- A stress analysis succeeds if one for actions with shear or torsion did, or if one did and the actions
have neither. -/
theorem stress_enabled {s : Store env.sec.numNodes} {a c : Actions} {l}
    (h : exec (env.stress a) s = (.ok l, s))
    (hc : (c.vx ≠ 0 ∨ c.vy ≠ 0 ∨ c.mzz ≠ 0) → (a.vx ≠ 0 ∨ a.vy ≠ 0 ∨ a.mzz ≠ 0)) :
    ∃ l', exec (env.stress c) s = (.ok l', s) := by
  rw [exec_stress] at h ⊢
  split_ifs at h with h1 h2
  · simp at h
  · simp at h
  · rw [if_neg h1, if_neg fun h' => h2 ⟨hc h'.1, h'.2⟩]
    rcases setup_form env s with ⟨e, hs⟩ | ⟨g, ⟨e, hs⟩ | ⟨j, nu, ds, wf, hs⟩⟩
    · rw [hs] at h; simp at h
    · rw [hs] at h ⊢
      split_ifs at h with h3
      · simp at h
      · rw [if_neg fun h' => h3 (hc h')]; exact ⟨_, rfl⟩
    · rw [hs]
      split_ifs <;> exact ⟨_, rfl⟩

/-- **C24.**  From any state of the property store: if stress analyses for the load cases `a` and `b` succeed, so
does the one for `α a + β b`, it has the same material groups in the same order, and at every node
every individual stress component, and every combined normal and shear component, is `α` times that of
`a` plus `β` times that of `b`. -/
theorem C24_superposition (s : Store env.sec.numNodes) (a b : Actions) (α β : ℝ)
    (la lb : List (GroupStress env.sec.numNodes))
    (ha : (env.stress a).run.run s = (.ok la, s)) (hb : (env.stress b).run.run s = (.ok lb, s)) :
    ∃ lc, (env.stress (Actions.lin α β a b)).run.run s = (.ok lc, s) ∧
      la.map (·.material) = env.sec.groups.map (·.material) ∧
      lb.map (·.material) = env.sec.groups.map (·.material) ∧
      lc.map (·.material) = env.sec.groups.map (·.material) ∧
      ∀ (k : ℕ) (ra rb rc : GroupStress env.sec.numNodes), la[k]? = some ra → lb[k]? = some rb → lc[k]? = some rc → ∀ i,
        (∀ f ∈ individual, f (rc.comp i) = α * f (ra.comp i) + β * f (rb.comp i)) ∧
        (∀ f ∈ combinedLinear, f (rc.comb i) = α * f (ra.comb i) + β * f (rb.comb i)) := by
  change exec _ _ = _ at ha hb
  have hc : ∃ lc, exec (env.stress (Actions.lin α β a b)) s = (.ok lc, s) := by
    by_cases h : a.vx ≠ 0 ∨ a.vy ≠ 0 ∨ a.mzz ≠ 0
    · exact stress_enabled env ha fun _ => h
    · refine stress_enabled env hb fun hc => ?_
      by_contra hb
      push Not at h hb
      simp [Actions.lin, h, hb] at hc
  obtain ⟨lc, hc⟩ := hc
  obtain ⟨e, wf, hl⟩ := stress_data env s
  rw [hl _ _ ha, hl _ _ hb]
  refine ⟨lc, hc, ?_⟩
  rw [hl _ _ hc]
  refine ⟨by simp [stressLoop], by simp [stressLoop], by simp [stressLoop], ?_⟩
  intro k ra rb rc h1 h2 h3 i
  simp only [stressLoop, List.getElem?_map, Option.map_eq_some_iff] at h1 h2 h3
  obtain ⟨g, hg, rfl⟩ := h1
  obtain ⟨g', hg', rfl⟩ := h2
  obtain ⟨g'', hg'', rfl⟩ := h3
  rw [hg] at hg' hg''
  obtain rfl := Option.some.inj hg'
  obtain rfl := Option.some.inj hg''
  have := groupStress_lin α β g.elements a b e wf i
  exact ⟨this, combined_lin α β this⟩

/-- A case of `C24_superposition`: on the composite example, after the geometric and warping analyses,
stress analyses for bending and for shear with torsion succeed. -/
example : ∃ s la lb,
    ((exEnv exSection).stress ⟨0, 5, 0, 0, 0, 0, 0, 0⟩).run.run s = (.ok la, s) ∧
    ((exEnv exSection).stress ⟨0, 0, 0, 0, 0, 2, 3, 4⟩).run.run s = (.ok lb, s) ∧ la.length = 2 := by
  obtain ⟨r, w, hr, hw⟩ := ex_results exSection (by simp)
  have H : HoldsGeom (exEnv exSection).perimeter r (((Store.empty (exEnv exSection).sec.numNodes).set
      (geomValues (exEnv exSection).perimeter r)).setWarp w) :=
    holdsGeom_mono (l := warpValues w) (holdsGeom_set _ r _) (by simp [geomValues, warpValues])
  have ok : ∀ a, ∃ l, exec ((exEnv exSection).stress a) _ = (.ok l, _) := fun a =>
    stress_ok (exEnv exSection) H a fun _ => by
      simp [Store.setWarp, warpValues, assign_cons, assign_nil]
  obtain ⟨la, ha⟩ := ok ⟨0, 5, 0, 0, 0, 0, 0, 0⟩
  obtain ⟨lb, hb⟩ := ok ⟨0, 0, 0, 0, 0, 2, 3, 4⟩
  obtain ⟨-, -, h, -, -⟩ := C24_superposition (exEnv exSection) _ _ _ 1 1 la lb ha hb
  refine ⟨_, la, lb, ha, hb, ?_⟩
  have := congrArg List.length h
  rw [List.length_map, List.length_map] at this
  exact this

end SP
