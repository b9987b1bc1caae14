import Verif.Lemmas.StressTurn
import Verif.Spec.StressTurn
import Verif.Props.WarpTurn
import Verif.Props.WarpMore
import Verif.Props.Equilibrium

/-!
# C72: stresses turn and scale with the section
-/

namespace SP

open Spec

theorem combined_turned {θ : ℝ} {c c' : StressComp} (h : StressTurned (Real.cos θ) (Real.sin θ) c c') :
    TurnedStress θ c c' (combined c) (combined c') := by
  have hκ := Real.cos_sq_add_sin_sq θ
  have norm : ∀ {x y x' y' : ℝ}, x' = Real.cos θ * x - Real.sin θ * y → y' = Real.sin θ * x + Real.cos θ * y →
      x' ^ 2 + y' ^ 2 = x ^ 2 + y ^ 2 := by
    rintro x y x' y' rfl rfl
    linear_combination (x ^ 2 + y ^ 2) * hκ
  have hx : c'.zxMzz + (c'.zxVx + c'.zxVy) = Real.cos θ * (c.zxMzz + (c.zxVx + c.zxVy))
      - Real.sin θ * (c.zyMzz + (c.zyVx + c.zyVy)) := by rw [h.zxMzz, h.zxV]; ring
  have hy : c'.zyMzz + (c'.zyVx + c'.zyVy) = Real.sin θ * (c.zxMzz + (c.zxVx + c.zxVy))
      + Real.cos θ * (c.zyMzz + (c.zyVx + c.zyVy)) := by rw [h.zyMzz, h.zyV]; ring
  have n1 := norm h.zxMzz h.zyMzz
  have n2 := norm h.zxV h.zyV
  have n3 := norm hx hy
  have hz : c'.zzN + (c'.zzMxx + c'.zzMyy + c'.zzM11 + c'.zzM22) = c.zzN + (c.zzMxx + c.zzMyy + c.zzM11 + c.zzM22) := by
    rw [h.zzN, h.zzM]
  refine ⟨h.zzN, h.zzM, ?_, ?_, hz, ?_, ?_, ?_, ?_, ?_, ?_, ?_⟩
  · simp only [rotation, affine, Prod.mk.injEq, h.zxMzz, h.zyMzz]
    constructor <;> ring
  · simp only [combined, rotation, affine, Prod.mk.injEq, h.zxV, h.zyV]
    constructor <;> ring
  · simp only [combined, rotation, affine, Prod.mk.injEq, hx, hy]
    constructor <;> ring
  · simp only [combined, n1]
  · simp only [combined, n2]
  · simp only [combined, n3]
  · simp only [combined, n3, hz]
  · simp only [combined, n3, hz]
  · simp only [combined, n3, hz]

/-- The data of a stress analysis after the geometric and the warping analysis. -/
theorem stress_after {P : Type} (env : Env P) {r : GeomResults} (hr : env.sec.geometricAnalysis = .ok r)
    {ty : SolverType} {w : WarpResults env.sec.numNodes} (hw : env.sec.warping env.solvers ty r = .ok w) {A : Actions}
    {s0 s1 s2 s3 : Store env.sec.numNodes} {l : List (GroupStress env.sec.numNodes)}
    (run1 : env.geometric.run.run s0 = (.ok (), s1)) (run2 : (env.warping ty).run.run s1 = (.ok (), s2))
    (run3 : (env.stress A).run.run s2 = (.ok l, s3)) :
    ∃ (e : StressEnv) (wf : WarpFields env.sec.numNodes), l = stressLoop env.sec.groups A e wf ∧
      e.ea = (warpIn env.sec.materials r).ea ∧
      e.cx = r.cx ∧ e.cy = r.cy ∧ e.ixx = r.cent.ixxC ∧ e.iyy = r.cent.iyyC ∧ e.ixy = r.cent.ixyC ∧
      e.i11 = r.cent.i11 ∧ e.i22 = r.cent.i22 ∧ e.phi = r.cent.phi ∧
      e.j = w.j ∧ e.nu = (warpIn env.sec.materials r).nu ∧ e.deltaS = w.deltaS ∧
      wf = ⟨w.omega, w.psi, w.phiS⟩ := by
  have q1 : s1 = s0.set (geomValues env.perimeter r) :=
    (Prod.ext_iff.1 (run1.symm.trans (exec_geometric env hr s0))).2
  have H1 : HoldsGeom env.perimeter r s1 := by rw [q1]; exact holdsGeom_set _ r _
  have q2 : s2 = s1.setWarp w :=
    (Prod.ext_iff.1 (run2.symm.trans ((exec_warping env ty H1).1 w hw))).2
  obtain ⟨e, wf, hst, h⟩ := stress_run env (w := w) H1 A
  rw [← q2] at hst
  exact ⟨e, wf, Except.ok.inj (Prod.ext_iff.1 (run3.symm.trans hst)).1, h⟩

variable {a b : ℝ}

/-- The data of the stress analysis of the turned section. -/
theorem data_turned (hk : a ^ 2 + b ^ 2 ≠ 0) {s : Section} (hg : GoodSection s) (hs : Physical s.elements)
    (hno : NoOverlap s.elements) (hcon : ConnectedMesh s.elements)
    (hnu : ∀ t ∈ s.elements, -1 < t.material.poissonsRatio)
    {r r' : GeomResults} (hr : s.geometricAnalysis = .ok r)
    (hr' : (s.map (turn a b)).geometricAnalysis = .ok r') {sv sv' : Solvers} {ty ty' : SolverType}
    {w : WarpResults s.numNodes} {w' : WarpResults (s.map (turn a b)).numNodes}
    (hw : s.warping sv ty r = .ok w) (hw' : (s.map (turn a b)).warping sv' ty' r' = .ok w')
    (he : SolvedExactly s r w) (he' : SolvedExactly (s.map (turn a b)) r' w') {e e' : StressEnv}
    (h : e.ea = (warpIn s.materials r).ea ∧
      e.cx = r.cx ∧ e.cy = r.cy ∧ e.ixx = r.cent.ixxC ∧ e.iyy = r.cent.iyyC ∧ e.ixy = r.cent.ixyC ∧
      e.j = w.j ∧ e.nu = (warpIn s.materials r).nu ∧ e.deltaS = w.deltaS)
    (h' : e'.ea = (warpIn s.materials r').ea ∧
      e'.cx = r'.cx ∧ e'.cy = r'.cy ∧ e'.ixx = r'.cent.ixxC ∧ e'.iyy = r'.cent.iyyC ∧ e'.ixy = r'.cent.ixyC ∧
      e'.j = w'.j ∧ e'.nu = (warpIn s.materials r').nu ∧ e'.deltaS = w'.deltaS) :
    EnvTurned a b e e' ∧
    FieldsTurned a b (⟨w.omega, w.psi, w.phiS⟩ : WarpFields s.numNodes) ⟨w'.omega, w'.psi, w'.phiS⟩ := by
  obtain ⟨hc, e1, e2, -⟩ := section_turn hk hs hno hr hr'
  have hS := centroidalSetup hg hs hr
  obtain ⟨d1, d2, d3⟩ := warp_facts hg hs hr hnu
  change warpingAnalysis sv' ty' ((s.map (turn a b)).elements.map fun t => t.shiftBy r'.cx r'.cy) _ = _ at hw'
  change ExactWarp ((s.map (turn a b)).elements.map fun t => t.shiftBy r'.cx r'.cy) _ _ at he'
  rw [e1] at hw' he'
  have hcon' := linked_shift hcon r.cx r.cy
  obtain ⟨h1, -⟩ := results_turn hk hS.physical hS.distinct hcon' e2 d1 d2 d3 hw hw' he he'
  obtain ⟨f1, f2, f3⟩ := functions_turn hk hS.physical hS.distinct hcon' e2 he he'
  obtain ⟨-, -, -, -, k1, -⟩ := warping_ok hw
  obtain ⟨-, -, -, -, k2, -⟩ := warping_ok hw'
  obtain ⟨c1, c2, c3, c4, c5, c6, c7, c8, c9⟩ := h
  obtain ⟨b1, b2, b3, b4, b5, b6, b7, b8, b9⟩ := h'
  simp only [turn, affine, Prod.mk.injEq] at hc
  refine ⟨⟨?_, ?_, ?_, ?_, ?_, ?_, ?_, ?_, ?_⟩, ⟨f1, f2, f3⟩⟩
  · rw [b1, c1]; exact e2.ea
  · rw [b2, c2, c3, hc.1]; ring
  · rw [b3, c2, c3, hc.2]; ring
  · rw [b4, c4, c5, c6]; exact e2.ixx
  · rw [b5, c4, c5, c6]; exact e2.iyy
  · rw [b6, c4, c5, c6]; exact e2.ixy
  · rw [b7, c7, h1]
  · rw [b8, c8]; exact e2.nu
  · rw [b9, c9, k1, k2, deltaS_turn e2]

theorem loop_turned (hk : a ^ 2 + b ^ 2 ≠ 0) {n : ℕ} {groups : List (MaterialGroup n)} {e e' : StressEnv} (he : EnvTurned a b e e')
    {m : ℝ} {A A' : Actions} (hA : ActionsTurned a b m A A') {wf wf' : WarpFields n} (hw : FieldsTurned a b wf wf')
    (hp : (A.m11 = 0 ∧ A.m22 = 0 ∧ A'.m11 = 0 ∧ A'.m22 = 0) ∨ ∃ m, AxesTurned a b m e e' ∧
      A'.m11 = (a ^ 2 + b ^ 2) * m * A.m11 ∧ A'.m22 = (a ^ 2 + b ^ 2) * m * A.m22) :
    List.Forall₂ (fun g g' => g'.material = g.material ∧ ∀ i,
        StressTurned (m / (a ^ 2 + b ^ 2) * a) (m / (a ^ 2 + b ^ 2) * b) (g.comp i) (g'.comp i) ∧
        g.comb i = combined (g.comp i) ∧ g'.comb i = combined (g'.comp i))
      (stressLoop groups A e wf)
      (stressLoop (groups.map fun g => ⟨g.material, g.elements.map (Tri6.map (turn a b))⟩) A' e' wf') := by
  simp only [stressLoop, List.map_map, List.forall₂_map_left_iff, List.forall₂_map_right_iff, List.forall₂_same]
  intro g _
  exact ⟨rfl, fun i => ⟨groupStress_turn hk he hA hw hp g.elements i, trivial, rfl⟩⟩

theorem actions_turned (θ : ℝ) (A : Actions) (m11 m22 : ℝ) :
    ActionsTurned (Real.cos θ) (Real.sin θ) 1 A { turnedActions θ A with m11 := m11, m22 := m22 } := by
  have hκ := Real.cos_sq_add_sin_sq θ
  refine ⟨?_, ?_, ?_, ?_, ?_, ?_, ?_⟩ <;> simp only [turnedActions, rotation, affine, hκ] <;> ring

/-- **C72** (rotation): turn a section by `θ` about the origin (same mesh, all nodes turned), together with the moments
`(mxx, myy)` and the shear forces `(vx, vy)`, with the same axial force and torque. After geometric and
warping analyses of both (all linear systems solved exactly) the stress analyses give, in every
material group and at every node, the same normal stress, the shear stress turned by `θ`, and the same principal and
von Mises stresses. -/
theorem C72_rotation {P P' : Type} (θ : ℝ) (env : Env P) (env' : Env P') (hg : GoodSection env.sec)
    (hs : Physical env.sec.elements) (hno : NoOverlap env.sec.elements) (hcon : ConnectedMesh env.sec.elements)
    (hnu : ∀ t ∈ env.sec.elements, -1 < t.material.poissonsRatio)
    {r r' : GeomResults} (hr : env.sec.geometricAnalysis = .ok r)
    (hr' : (env.sec.map (rotation θ)).geometricAnalysis = .ok r') {ty ty' : SolverType}
    {w : WarpResults env.sec.numNodes} {w' : WarpResults (env.sec.map (rotation θ)).numNodes}
    (hw : env.sec.warping env.solvers ty r = .ok w)
    (hw' : (env.sec.map (rotation θ)).warping env'.solvers ty' r' = .ok w')
    (he : SolvedExactly env.sec r w) (he' : SolvedExactly (env.sec.map (rotation θ)) r' w')
    {A : Actions} (hA : A.m11 = 0 ∧ A.m22 = 0)
    {s0 s1 s2 s3 : Store env.sec.numNodes} {l : List (GroupStress env.sec.numNodes)}
    (run1 : env.geometric.run.run s0 = (.ok (), s1)) (run2 : (env.warping ty).run.run s1 = (.ok (), s2))
    (run3 : (env.stress A).run.run s2 = (.ok l, s3)) :
    let turned : Env P' := { env' with sec := env.sec.map (rotation θ) }
    ∀ (s0' s1' s2' s3' : Store turned.sec.numNodes) (l' : List (GroupStress turned.sec.numNodes)),
    turned.geometric.run.run s0' = (.ok (), s1') → (turned.warping ty').run.run s1' = (.ok (), s2') →
    (turned.stress (turnedActions θ A)).run.run s2' = (.ok l', s3') →
    List.Forall₂ (fun (g : GroupStress env.sec.numNodes) (g' : GroupStress env.sec.numNodes) =>
      g'.material = g.material ∧ ∀ i, TurnedStress θ (g.comp i) (g'.comp i) (g.comb i) (g'.comb i)) l l' := by
  intro turned s0' s1' s2' s3' l' run1' run2' run3'
  have hκ := Real.cos_sq_add_sin_sq θ
  have hk : Real.cos θ ^ 2 + Real.sin θ ^ 2 ≠ 0 := by rw [hκ]; norm_num
  obtain ⟨e, wf, rfl, g1, g2, g3, g4, g5, g6, -, -, -, g7, g8, g9, rfl⟩ := stress_after env hr hw run1 run2 run3
  obtain ⟨e', wf', rfl, k1, k2, k3, k4, k5, k6, -, -, -, k7, k8, k9, rfl⟩ := stress_after turned hr' hw' run1' run2' run3'
  obtain ⟨hE, hF⟩ := data_turned (a := Real.cos θ) (b := Real.sin θ) hk hg hs hno hcon hnu hr hr' hw hw' he he'
    ⟨g1, g2, g3, g4, g5, g6, g7, g8, g9⟩ ⟨k1, k2, k3, k4, k5, k6, k7, k8, k9⟩
  have := loop_turned hk (groups := env.sec.groups) hE (actions_turned θ A A.m11 A.m22) hF
    (.inl ⟨hA.1, hA.2, hA.1, hA.2⟩)
  refine List.Forall₂.imp ?_ this
  rintro g g' ⟨h1, h2⟩
  refine ⟨h1, fun i => ?_⟩
  obtain ⟨h3, h4, h5⟩ := h2 i
  rw [h4, h5]
  rw [hκ, div_one, one_mul, one_mul] at h3
  exact combined_turned h3

/-- The principal axes of the turned section, up to their sense. -/
theorem axes_turned (θ : ℝ) {s : Section} (hs : Physical s.elements) (hno : NoOverlap s.elements)
    {r r' : GeomResults} (hr : s.geometricAnalysis = .ok r)
    (hr' : (s.map (rotation θ)).geometricAnalysis = .ok r') (hne : r.cent.i22 < r.cent.i11)
    (hbr : ¬ |r.cent.ixxC - r.cent.i11| < 1e-12 * r.cent.i11)
    (hbr' : ¬ |r'.cent.ixxC - r'.cent.i11| < 1e-12 * r'.cent.i11) :
    ∃ ε : ℝ, (ε = 1 ∨ ε = -1) ∧
      ε * Real.cos (r'.cent.phi * Real.pi / 180) = Real.cos θ * Real.cos (r.cent.phi * Real.pi / 180)
        - Real.sin θ * Real.sin (r.cent.phi * Real.pi / 180) ∧
      ε * Real.sin (r'.cent.phi * Real.pi / 180) = Real.sin θ * Real.cos (r.cent.phi * Real.pi / 180)
        + Real.cos θ * Real.sin (r.cent.phi * Real.pi / 180) ∧
      r'.cent.i11 = r.cent.i11 ∧ r'.cent.i22 = r.cent.i22 := by
  have hκ : Real.cos θ ^ 2 + Real.sin θ ^ 2 = 1 := Real.cos_sq_add_sin_sq θ
  have hk : Real.cos θ ^ 2 + Real.sin θ ^ 2 ≠ 0 := by rw [hκ]; norm_num
  obtain ⟨-, -, -, hs', hno', him⟩ := section_turn hk hs hno hr hr'
  obtain ⟨m, hm⟩ := C07_angle θ hr hr' hs hs' hno hno' him hne hbr hbr'
  obtain ⟨-, -, -, -, -, -, -, i1, i2, -⟩ := C07_rotation θ hr hr' hs hs' hno hno' him
  have hang : r'.cent.phi * Real.pi / 180 = r.cent.phi * Real.pi / 180 + θ + m * Real.pi := by
    rw [hm]
    have := Real.pi_ne_zero
    field_simp
  have hsgn : Real.cos (m * Real.pi) = 1 ∨ Real.cos (m * Real.pi) = -1 := by
    have := Real.abs_cos_int_mul_pi m
    rcases abs_eq (zero_le_one) |>.1 this with h | h
    · exact .inl h
    · exact .inr h
  have hsin0 : Real.sin (m * Real.pi) = 0 := Real.sin_int_mul_pi m
  have hsq : Real.cos (m * Real.pi) ^ 2 = 1 := by rcases hsgn with h | h <;> rw [h] <;> norm_num
  refine ⟨_, hsgn, ?_, ?_, i1, i2⟩
  · rw [hang, Real.cos_add, hsin0, Real.cos_add]
    linear_combination (Real.cos (r.cent.phi * Real.pi / 180) * Real.cos θ
      - Real.sin (r.cent.phi * Real.pi / 180) * Real.sin θ) * hsq
  · rw [hang, Real.sin_add, hsin0, Real.sin_add]
    linear_combination (Real.sin (r.cent.phi * Real.pi / 180) * Real.cos θ
      + Real.cos (r.cent.phi * Real.pi / 180) * Real.sin θ) * hsq

/-- **C72** (rotation, moments about the principal axes): the same with the moments `m11`, `m22`, where the principal
axes are determined. The sense `ε = ±1` of the axes, the same for all actions, may be the opposite one in the turned
section. -/
theorem C72_rotation_principal {P P' : Type} (θ : ℝ) (env : Env P) (env' : Env P') (hg : GoodSection env.sec)
    (hs : Physical env.sec.elements) (hno : NoOverlap env.sec.elements) (hcon : ConnectedMesh env.sec.elements)
    (hnu : ∀ t ∈ env.sec.elements, -1 < t.material.poissonsRatio)
    {r r' : GeomResults} (hr : env.sec.geometricAnalysis = .ok r)
    (hr' : (env.sec.map (rotation θ)).geometricAnalysis = .ok r') (hne : r.cent.i22 < r.cent.i11)
    (hbr : ¬ |r.cent.ixxC - r.cent.i11| < 1e-12 * r.cent.i11)
    (hbr' : ¬ |r'.cent.ixxC - r'.cent.i11| < 1e-12 * r'.cent.i11) {ty ty' : SolverType}
    {w : WarpResults env.sec.numNodes} {w' : WarpResults (env.sec.map (rotation θ)).numNodes}
    (hw : env.sec.warping env.solvers ty r = .ok w)
    (hw' : (env.sec.map (rotation θ)).warping env'.solvers ty' r' = .ok w')
    (he : SolvedExactly env.sec r w) (he' : SolvedExactly (env.sec.map (rotation θ)) r' w') :
    let turned : Env P' := { env' with sec := env.sec.map (rotation θ) }
    ∃ ε : ℝ, (ε = 1 ∨ ε = -1) ∧ ∀ (A : Actions) (s0 s1 s2 s3 : Store env.sec.numNodes) (l : List (GroupStress env.sec.numNodes))
      (s0' s1' s2' s3' : Store turned.sec.numNodes) (l' : List (GroupStress turned.sec.numNodes)),
    env.geometric.run.run s0 = (.ok (), s1) → (env.warping ty).run.run s1 = (.ok (), s2) →
    (env.stress A).run.run s2 = (.ok l, s3) →
    turned.geometric.run.run s0' = (.ok (), s1') → (turned.warping ty').run.run s1' = (.ok (), s2') →
    (turned.stress { turnedActions θ A with m11 := ε * A.m11, m22 := ε * A.m22 }).run.run s2' = (.ok l', s3') →
    List.Forall₂ (fun (g : GroupStress env.sec.numNodes) (g' : GroupStress env.sec.numNodes) =>
      g'.material = g.material ∧ ∀ i, TurnedStress θ (g.comp i) (g'.comp i) (g.comb i) (g'.comb i)) l l' := by
  intro turned
  obtain ⟨ε, hε, hc, hsn, i1, i2⟩ := axes_turned θ hs hno hr hr' hne hbr hbr'
  refine ⟨ε, hε, ?_⟩
  intro A s0 s1 s2 s3 l s0' s1' s2' s3' l' run1 run2 run3 run1' run2' run3'
  have hκ := Real.cos_sq_add_sin_sq θ
  have hk : Real.cos θ ^ 2 + Real.sin θ ^ 2 ≠ 0 := by rw [hκ]; norm_num
  obtain ⟨e, wf, rfl, g1, g2, g3, g4, g5, g6, y1, y2, y3, g7, g8, g9, rfl⟩ := stress_after env hr hw run1 run2 run3
  obtain ⟨e', wf', rfl, k1, k2, k3, k4, k5, k6, z1, z2, z3, k7, k8, k9, rfl⟩ := stress_after turned hr' hw' run1' run2' run3'
  obtain ⟨hE, hF⟩ := data_turned (a := Real.cos θ) (b := Real.sin θ) hk hg hs hno hcon hnu hr hr' hw hw' he he'
    ⟨g1, g2, g3, g4, g5, g6, g7, g8, g9⟩ ⟨k1, k2, k3, k4, k5, k6, k7, k8, k9⟩
  have := loop_turned hk (groups := env.sec.groups) hE (actions_turned θ A (ε * A.m11) (ε * A.m22)) hF
    (.inr ⟨ε, ⟨by rw [y3, z3]; exact hc, by rw [y3, z3]; exact hsn, by rw [hκ]; rcases hε with h | h <;> rw [h] <;> norm_num,
      by rw [y1, z1, hκ, i1]; ring, by rw [y2, z2, hκ, i2]; ring⟩, by simp only [hκ]; ring, by simp only [hκ]; ring⟩)
  refine List.Forall₂.imp ?_ this
  rintro g g' ⟨h1, h2⟩
  refine ⟨h1, fun i => ?_⟩
  obtain ⟨h3, h4, h5⟩ := h2 i
  rw [h4, h5]
  rw [hκ, div_one, one_mul, one_mul] at h3
  exact combined_turned h3

theorem loop_congr {n : ℕ} {groups : List (MaterialGroup n)} {φ : ℝ × ℝ → ℝ × ℝ} {A A' : Actions} {e e' : StressEnv}
    {wf wf' : WarpFields n} (hn : ∀ m : ℝ, A'.n * 1 * m / e'.ea = A.n * 1 * m / e.ea)
    (h : ∀ (t : Tri6 n) gp, (t.map φ).stressAt A' e' ((t.map φ).local wf'.omega) ((t.map φ).local wf'.psi)
      ((t.map φ).local wf'.phiS) gp = t.stressAt A e (t.local wf.omega) (t.local wf.psi) (t.local wf.phiS) gp) :
    stressLoop (groups.map fun g => ⟨g.material, g.elements.map (Tri6.map φ)⟩) A' e' wf'
      = stressLoop groups A e wf := by
  simp only [stressLoop, List.map_map]
  refine List.map_congr_left fun g _ => ?_
  simp only [Function.comp_apply, groupStress_congr (g := Tri6.map φ) (fun _ => rfl) (fun _ => rfl) hn h]

/-- **C72** (scaling): scale a section by `k > 0` about the origin (same mesh), forces by `k²` and moments by `k³`.
After geometric and warping analyses of both (all linear systems solved exactly) the stress analyses give exactly the same
stresses: every component, in every material group and at every node. -/
theorem C72_scaling {P P' : Type} {k : ℝ} (hk0 : 0 < k) (env : Env P) (env' : Env P') (hg : GoodSection env.sec)
    (hs : Physical env.sec.elements) (hno : NoOverlap env.sec.elements) (hcon : ConnectedMesh env.sec.elements)
    (hnu : ∀ t ∈ env.sec.elements, -1 < t.material.poissonsRatio)
    {r r' : GeomResults} (hr : env.sec.geometricAnalysis = .ok r)
    (hr' : (env.sec.map (scaling k)).geometricAnalysis = .ok r') {ty ty' : SolverType}
    {w : WarpResults env.sec.numNodes} {w' : WarpResults (env.sec.map (scaling k)).numNodes}
    (hw : env.sec.warping env.solvers ty r = .ok w)
    (hw' : (env.sec.map (scaling k)).warping env'.solvers ty' r' = .ok w')
    (he : SolvedExactly env.sec r w) (he' : SolvedExactly (env.sec.map (scaling k)) r' w') {A : Actions}
    {s0 s1 s2 s3 : Store env.sec.numNodes} {l : List (GroupStress env.sec.numNodes)}
    (run1 : env.geometric.run.run s0 = (.ok (), s1)) (run2 : (env.warping ty).run.run s1 = (.ok (), s2))
    (run3 : (env.stress A).run.run s2 = (.ok l, s3)) :
    let scaled : Env P' := { env' with sec := env.sec.map (scaling k) }
    ∀ (s0' s1' s2' s3' : Store scaled.sec.numNodes) (l' : List (GroupStress scaled.sec.numNodes)),
    scaled.geometric.run.run s0' = (.ok (), s1') → (scaled.warping ty').run.run s1' = (.ok (), s2') →
    (scaled.stress (scaledActions k A)).run.run s2' = (.ok l', s3') → l' = l := by
  intro scaled s0' s1' s2' s3' l' run1' run2' run3'
  have hturn : scaling k = turn k 0 := by simp [scaling, turn]
  have hk : k ^ 2 + (0 : ℝ) ^ 2 ≠ 0 := by positivity
  obtain ⟨e, wf, rfl, g1, g2, g3, g4, g5, g6, y1, y2, y3, g7, g8, g9, rfl⟩ := stress_after env hr hw run1 run2 run3
  obtain ⟨e', wf', rfl, k1, k2, k3, k4, k5, k6, z1, z2, z3, k7, k8, k9, rfl⟩ := stress_after scaled hr' hw' run1' run2' run3'
  have key : ∀ (φ : ℝ × ℝ → ℝ × ℝ) (_ : φ = turn k 0) {r' : GeomResults}
      (_ : (env.sec.map φ).geometricAnalysis = .ok r') (w' : WarpResults (env.sec.map φ).numNodes)
      (_ : (env.sec.map φ).warping env'.solvers ty' r' = .ok w') (_ : SolvedExactly (env.sec.map φ) r' w')
      (_ : e'.ea = (warpIn env.sec.materials r').ea ∧
        e'.cx = r'.cx ∧ e'.cy = r'.cy ∧ e'.ixx = r'.cent.ixxC ∧ e'.iyy = r'.cent.iyyC ∧ e'.ixy = r'.cent.ixyC ∧
        e'.j = w'.j ∧ e'.nu = (warpIn env.sec.materials r').nu ∧ e'.deltaS = w'.deltaS),
      EnvTurned k 0 e e' ∧
      FieldsTurned k 0 (⟨w.omega, w.psi, w.phiS⟩ : WarpFields env.sec.numNodes) ⟨w'.omega, w'.psi, w'.phiS⟩ ∧
      Physical (env.sec.map φ).elements ∧ NoOverlap (env.sec.map φ).elements ∧
      ImageUnder (turn k 0) env.sec.elements (env.sec.map φ).elements := by
    rintro φ rfl r' hr' w' hw' he' h'
    obtain ⟨-, -, -, e3, e4, e5⟩ := section_turn hk hs hno hr hr'
    obtain ⟨hE, hF⟩ := data_turned (a := k) (b := 0) hk hg hs hno hcon hnu hr hr' hw hw' he he'
      ⟨g1, g2, g3, g4, g5, g6, g7, g8, g9⟩ h'
    exact ⟨hE, hF, e3, e4, e5⟩
  obtain ⟨hE, hF, hs', hno', him⟩ := key _ hturn hr' w' hw' he' ⟨k1, k2, k3, k4, k5, k6, k7, k8, k9⟩
  rw [← hturn] at him
  obtain ⟨-, -, -, -, -, -, -, -, -, -, -, -, -, c11, c22, cphi, -⟩ := C08_scaling hk0 hr hr' hs hs' hno hno' him
  refine loop_congr (groups := env.sec.groups) (φ := scaling k) (fun m => ?_) (fun t gp => ?_)
  · rw [hE.ea]
    simp only [scaledActions, div_eq_mul_inv, mul_inv]
    generalize e.ea⁻¹ = q
    field_simp
    ring
  · rw [hturn]
    exact stressAt_scale hk0.ne' hE (by rw [z3, y3, cphi]) (by rw [z1, y1, c11]) (by rw [z2, y2, c22]) A hF t gp

/-- **C72** (translation): shift a section. With the same solvers (whatever they return) and the same actions the stress
analyses give exactly the same stresses. -/
theorem C72_translation {P P' : Type} (dx dy : ℝ) (env : Env P) (env' : Env P') (hs : Physical env.sec.elements)
    (hno : NoOverlap env.sec.elements) (hsv : env'.solvers = env.solvers)
    {r r' : GeomResults} (hr : env.sec.geometricAnalysis = .ok r)
    (hr' : (env.sec.map (translation dx dy)).geometricAnalysis = .ok r') {ty : SolverType}
    {w : WarpResults env.sec.numNodes} (hw : env.sec.warping env.solvers ty r = .ok w) {A : Actions}
    {s0 s1 s2 s3 : Store env.sec.numNodes} {l : List (GroupStress env.sec.numNodes)}
    (run1 : env.geometric.run.run s0 = (.ok (), s1)) (run2 : (env.warping ty).run.run s1 = (.ok (), s2))
    (run3 : (env.stress A).run.run s2 = (.ok l, s3)) :
    let shifted : Env P' := { env' with sec := env.sec.map (translation dx dy) }
    ∀ (s0' s1' s2' s3' : Store shifted.sec.numNodes) (l' : List (GroupStress shifted.sec.numNodes)),
    shifted.geometric.run.run s0' = (.ok (), s1') → (shifted.warping ty).run.run s1' = (.ok (), s2') →
    (shifted.stress A).run.run s2' = (.ok l', s3') → l' = l := by
  intro shifted s0' s1' s2' s3' l' run1' run2' run3'
  have hw' : shifted.sec.warping shifted.solvers ty r' = .ok w := by
    have := C54_translation dx dy env.sec hs hno hr hr' env.solvers ty
    rw [hw, ← hsv] at this
    exact this
  obtain ⟨e, wf, rfl, g1, g2, g3, g4, g5, g6, y1, y2, y3, g7, g8, g9, rfl⟩ := stress_after env hr hw run1 run2 run3
  obtain ⟨e', wf', rfl, k1, k2, k3, k4, k5, k6, z1, z2, z3, k7, k8, k9, rfl⟩ := stress_after shifted hr' hw' run1' run2' run3'
  obtain ⟨i1, i2⟩ := image_of_elements (a := 1) (b := 0) (c := 0) (d := 1) dx dy (by norm_num)
    (Tri6.map (translation dx dy)) env.sec.elements hno (fun t => elemRegion_map _ _ _ _ _ _ _) (fun t => rfl)
  have hs' : Physical (env.sec.map (translation dx dy)).elements := by
    refine ⟨by simpa [Section.map] using hs.nonempty, fun t ht => ?_, fun t ht => ?_⟩
    · obtain ⟨u, hu, rfl⟩ := List.mem_map.1 ht
      exact proper_map dx dy (by norm_num) (hs.proper u hu)
    · obtain ⟨u, hu, rfl⟩ := List.mem_map.1 ht
      exact hs.modulus u hu
  obtain ⟨h1, h2, h3, -, h5, -, h7, -, -, h8, h9, h10, h11, h12, h13, -⟩ :=
    C06_translation dx dy hr hr' hs hs' hno i1 i2
  have hwi : warpIn shifted.sec.materials r' = warpIn env.sec.materials r := by
    simp only [warpIn, h3, h5, h7, h8, h9, h10, h11, h12, h13]
    rfl
  have hea : e'.ea = e.ea := by rw [k1, g1, hwi]
  refine loop_congr (groups := env.sec.groups) (φ := translation dx dy) (fun m => ?_) (fun t gp => ?_)
  · rw [hea]
  · have hcoord : (t.map (translation dx dy)).coords.shift e'.cx e'.cy = t.coords.shift e.cx e.cy := by
      simp only [Tri6.map, Coords.map, Coords.shift, k2, k3, g2, g3, h1, h2, translation, affine]
      congr 1 <;> funext i <;> ring
    simp only [Tri6.stressAt, hcoord, hea, k4, k5, k6, k7, k8, k9, z1, z2, z3, g4, g5, g6, g7, g8, g9, y1, y2, y3,
      h8, h9, h10, h11, h12, h13, hwi]
    rfl

/-- The example section under an affine map that keeps orientation: both analyses succeed with exact solutions. -/
theorem ex_map_run {a b c d : ℝ} (x y : ℝ) (hD : 0 < a * d - b * c) : ∃ r w,
    (exSection.map (affine a b c d x y)).geometricAnalysis = .ok r ∧
    (exSection.map (affine a b c d x y)).warping exactSolvers .direct r = .ok w ∧
    SolvedExactly (exSection.map (affine a b c d x y)) r w := by
  obtain ⟨r, hr⟩ := geometricAnalysis_ok (exSection.map (affine a b c d x y)) (by simp [exSection, Section.map])
  obtain ⟨q1, -, q3, -⟩ := map_image x y hD exSection_physical exNoOverlap exSection_good exNodesUsed
  obtain ⟨w, hw, h1, h2, h3⟩ := exact_warping (exSection.map (affine a b c d x y)) r q3 q1 hr
    (linked_shift (linked_map (Tri6.map _) (fun _ => rfl) exSection_linked) r.cx r.cy)
  exact ⟨r, w, hr, hw, h1, h2, h3⟩

/-- All three analyses of any section after which the first two succeed. -/
theorem ex_stress_run (s : Section) {r : GeomResults} (hr : s.geometricAnalysis = .ok r) {w : WarpResults s.numNodes}
    (hw : s.warping exactSolvers .direct r = .ok w) (A : Actions) : ∃ s1 s2 l,
    (exEnv s).geometric.run.run (Store.empty _) = (.ok (), s1) ∧
    ((exEnv s).warping .direct).run.run s1 = (.ok (), s2) ∧
    ((exEnv s).stress A).run.run s2 = (.ok l, s2) ∧ l.length = s.groups.length := by
  have H := holdsGeom_set (exEnv s).perimeter r (Store.empty (exEnv s).sec.numNodes)
  obtain ⟨e, wf, hst, -⟩ := stress_run (exEnv s) (w := w) H A
  exact ⟨_, _, _, exec_geometric (exEnv s) hr _, (exec_warping (exEnv s) .direct H).1 w hw, hst,
    by simp [stressLoop, exEnv]⟩

/-- The second moments of the composite example. -/
theorem ex_inertias {r : GeomResults} (hr : exSection.geometricAnalysis = .ok r) :
    r.cent.ixxC = 3245 / 207 ∧ r.cent.iyyC = 12980 / 207 ∧ r.cent.ixyC = 1445 / 207 ∧
    13100 / 207 < r.cent.i11 ∧ r.cent.i11 < 14000 / 207 ∧ r.cent.i22 < 13000 / 207 := by
  obtain ⟨g1, g2, -⟩ := geom_ok hr
  obtain ⟨c1, c2, c3, c4, c5, -⟩ := cent_ok g2
  have st0 : Straight exT0.coords := (exSection_good.proper exT0 (List.mem_cons_self ..)).1
  have st1 : Straight exT1.coords := (exSection_good.proper exT1 (List.mem_cons_of_mem _ (List.mem_cons_self ..))).1
  have g1 : r.sums = geomSums ([exT0, exT1] : List (Tri6 9)) := g1
  have h : r.sums.ixxC = 3245 / 207 ∧ r.sums.iyyC = 12980 / 207 ∧ r.sums.ixyC = 1445 / 207 := by
    rw [g1]
    simp only [GeomSums.ixxC, GeomSums.iyyC, GeomSums.ixyC, geomSums, accum_eq_sum, List.map_cons, List.map_nil,
      List.sum_cons, List.sum_nil, geom_area st0, geom_area st1, geom_qx st0, geom_qx st1, geom_qy st0, geom_qy st1,
      geom_ixx st0, geom_ixx st1, geom_iyy st0, geom_iyy st1, geom_ixy st0, geom_ixy st1]
    simp [Tri6.geometricProperties, exT0, exT1, gather, exV, elemDet, signedArea2, cornerA, cornerB, cornerC, mean2,
      exConcrete, exSteel]
    norm_num
  obtain ⟨h1, h2, h3⟩ := h
  have l1 : (5000 / 207 : ℝ) < √(((3245 / 207 - 12980 / 207) / 2) ^ 2 + (1445 / 207) ^ 2) :=
    Real.lt_sqrt_of_sq_lt (by norm_num)
  have l2 : √(((3245 / 207 - 12980 / 207) / 2) ^ 2 + (1445 / 207) ^ 2) < (5800 / 207 : ℝ) := by
    rw [Real.sqrt_lt' (by norm_num)]; norm_num
  rw [c1, c2, c3, c4, c5, h1, h2, h3]
  refine ⟨rfl, rfl, rfl, ?_, ?_, ?_⟩ <;> simp only [i11Of, i22Of, mohrDelta] <;> linarith

/-- Non-vacuity of the hypotheses of `C72`: the composite example, turned by any angle, scaled by any factor and shifted,
with exact solvers and all three analyses successful. -/
example (θ dx dy : ℝ) {k : ℝ} (hk : 0 < k) (A : Actions) : ∃ l l1 l2 l3 : List (GroupStress exSection.numNodes),
    l ≠ [] ∧
    (A.m11 = 0 ∧ A.m22 = 0 → List.Forall₂ (fun g g' => g'.material = g.material ∧
      ∀ i, TurnedStress θ (g.comp i) (g'.comp i) (g.comb i) (g'.comb i)) l l1) ∧ l2 = l ∧ l3 = l := by
  have hnu : ∀ t ∈ exSection.elements, -1 < t.material.poissonsRatio := ex_equilibrium.2.2.2.1
  obtain ⟨r, hr⟩ := geometricAnalysis_ok exSection (by simp [exSection])
  obtain ⟨w, hw, h1, h2, h3⟩ := exact_warping exSection r exSection_good exSection_physical hr
    (ex_linked r.cx r.cy)
  obtain ⟨r1, w1, a1, a2, a3⟩ := ex_map_run (a := Real.cos θ) (b := -Real.sin θ) (c := Real.sin θ)
    (d := Real.cos θ) 0 0 (by have := Real.sin_sq_add_cos_sq θ; nlinarith)
  obtain ⟨r2, w2, b1, b2, b3⟩ := ex_map_run (a := k) (b := 0) (c := 0) (d := k) 0 0 (by nlinarith)
  obtain ⟨r3, w3, c1, c2, c3⟩ := ex_map_run (a := 1) (b := 0) (c := 0) (d := 1) dx dy (by norm_num)
  obtain ⟨x1, x2, l, X1, X2, X3, X4⟩ := ex_stress_run exSection hr hw A
  obtain ⟨y1, y2, l1, Y1, Y2, Y3, -⟩ := ex_stress_run _ a1 a2 (turnedActions θ A)
  obtain ⟨z1, z2, l2, Z1, Z2, Z3, -⟩ := ex_stress_run _ b1 b2 (scaledActions k A)
  obtain ⟨u1, u2, l3, U1, U2, U3, -⟩ := ex_stress_run _ c1 c2 A
  refine ⟨l, l1, l2, l3, ?_, fun hA => ?_, ?_, ?_⟩
  · rintro rfl
    simp [exSection] at X4
  · exact C72_rotation θ (exEnv exSection) (exEnv exSection) exSection_good exSection_physical exNoOverlap exSection_linked hnu
      hr a1 hw a2 ⟨h1, h2, h3⟩ a3 hA X1 X2 X3 _ _ _ _ l1 Y1 Y2 Y3
  · exact C72_scaling hk (exEnv exSection) (exEnv exSection) exSection_good exSection_physical exNoOverlap exSection_linked hnu
      hr b1 hw b2 ⟨h1, h2, h3⟩ b3 X1 X2 X3 _ _ _ _ l2 Z1 Z2 Z3
  · exact C72_translation dx dy (exEnv exSection) (exEnv exSection) exSection_physical exNoOverlap rfl
      hr c1 hw X1 X2 X3 _ _ _ _ l3 U1 U2 U3

/-- Non-vacuity of the hypotheses of `C72_rotation_principal`: the composite example and a quarter turn. -/
example (A : Actions) : ∃ (ε : ℝ) (l l' : List (GroupStress exSection.numNodes)), (ε = 1 ∨ ε = -1) ∧ l ≠ [] ∧
    List.Forall₂ (fun g g' => g'.material = g.material ∧
      ∀ i, TurnedStress (Real.pi / 2) (g.comp i) (g'.comp i) (g.comb i) (g'.comb i)) l l' := by
  have hnu : ∀ t ∈ exSection.elements, -1 < t.material.poissonsRatio := ex_equilibrium.2.2.2.1
  obtain ⟨r, hr⟩ := geometricAnalysis_ok exSection (by simp [exSection])
  obtain ⟨w, hw, h1, h2, h3⟩ := exact_warping exSection r exSection_good exSection_physical hr
    (ex_linked r.cx r.cy)
  obtain ⟨r1, w1, a1, a2, a3⟩ := ex_map_run (a := Real.cos (Real.pi / 2)) (b := -Real.sin (Real.pi / 2))
    (c := Real.sin (Real.pi / 2)) (d := Real.cos (Real.pi / 2)) 0 0 (by simp)
  obtain ⟨i1, i2, i3, i4, i5, i6⟩ := ex_inertias hr
  have hk : Real.cos (Real.pi / 2) ^ 2 + Real.sin (Real.pi / 2) ^ 2 ≠ 0 := by
    rw [Real.cos_sq_add_sin_sq]; norm_num
  obtain ⟨-, -, -, hs', hno', him⟩ := section_turn hk exSection_physical exNoOverlap hr a1
  obtain ⟨-, -, -, -, j1, -, -, j2, -⟩ :=
    C07_rotation (Real.pi / 2) hr a1 exSection_physical hs' exNoOverlap hno' him
  have j1 : r1.cent.ixxC = 12980 / 207 := by rw [j1, momentAbout, i1, i2, i3]; simp
  obtain ⟨ε, hε, H⟩ := C72_rotation_principal (Real.pi / 2) (exEnv exSection) (exEnv exSection) exSection_good
    exSection_physical exNoOverlap exSection_linked hnu hr a1 (show r.cent.i22 < r.cent.i11 by linarith)
    (by rw [i1, abs_of_neg (by linarith)]; push Not; linarith)
    (by rw [j1, j2, abs_of_neg (by linarith)]; push Not; linarith) hw a2 ⟨h1, h2, h3⟩ a3
  obtain ⟨x1, x2, l, X1, X2, X3, X4⟩ := ex_stress_run exSection hr hw A
  obtain ⟨y1, y2, l1, Y1, Y2, Y3, -⟩ := ex_stress_run _ a1 a2
    { turnedActions (Real.pi / 2) A with m11 := ε * A.m11, m22 := ε * A.m22 }
  refine ⟨ε, l, l1, hε, ?_, H A _ _ _ _ l _ _ _ _ l1 X1 X2 X3 Y1 Y2 Y3⟩
  rintro rfl
  simp [exSection] at X4

end SP
