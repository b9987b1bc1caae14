import Verif.Props.Equilibrium
import Verif.Props.Points
import Verif.Props.Construct
import Verif.Props.Transform
import Verif.Spec.BeamStress

/-!
# C80: normal stresses follow beam theory, and agree with the yield moments and section moduli
-/

namespace SP

open Classical Spec

variable {P : Type} (env : Env P)

/-- The geometric data that a stress analysis uses when the results of the geometric analysis are stored. -/
theorem stress_geo {r : GeomResults} {s : Store env.sec.numNodes} (hs : HoldsGeom env.perimeter r s) {a : Actions}
    {p : StressEnv × WarpFields env.sec.numNodes} {s' : Store env.sec.numNodes}
    (h : exec (env.stressSetup a) s = (.ok p, s')) :
    p.1.ea = (warpIn env.sec.materials r).ea ∧ p.1.cx = r.cx ∧ p.1.cy = r.cy ∧
      (⟨p.1.ixx, p.1.iyy, p.1.ixy, p.1.i11, p.1.i22, p.1.phi⟩ : Inertia) = r.inertia := by
  have hcx : s.val .cx = some r.cx := hs (.cx, _) (by simp [geomValues])
  have hcy : s.val .cy = some r.cy := hs (.cy, _) (by simp [geomValues])
  have hixx : s.val .ixxC = some r.cent.ixxC := hs (.ixxC, _) (by simp [geomValues])
  have hiyy : s.val .iyyC = some r.cent.iyyC := hs (.iyyC, _) (by simp [geomValues])
  have hixy : s.val .ixyC = some r.cent.ixyC := hs (.ixyC, _) (by simp [geomValues])
  unfold Env.stressSetup at h
  have hC : exec (ask fun p => getC p : Op env.sec.numNodes (ℝ × ℝ)) s = (.ok (r.cx, r.cy), s) := by
    rw [exec_ask]; simp [getC, hcx, hcy]
  rw [exec_bind_ok hC] at h
  dsimp only at h
  rw [exec_bind_ok (askPhi_geom env hs), exec_bind_ok (askEa_geom env hs),
    exec_bind_ok (askIc_ok env hixx hiyy hixy), exec_bind_ok (askIp_geom env hs)] at h
  by_cases ha : a.vx ≠ 0 ∨ a.vy ≠ 0 ∨ a.mzz ≠ 0
  · rw [if_pos ha] at h
    have tail : ∀ j, exec (do
        let nu ← env.askNu
        let s ← get
        match s.val .deltaS, s.omega, s.psi, s.phiS with
        | some ds, some om, some ps, some ph' =>
          return ((⟨if isComposite env.sec.materials then r.sums.ea else r.sums.area, r.cx, r.cy, r.cent.ixxC,
            r.cent.iyyC, r.cent.ixyC, r.cent.i11, r.cent.i22, r.cent.phi, j, nu, ds⟩ : StressEnv),
            (⟨om, ps, ph'⟩ : WarpFields env.sec.numNodes))
        | _, _, _, _ => throw .runtimeError : Op env.sec.numNodes _) s = (.ok p, s') →
        p.1.ea = (warpIn env.sec.materials r).ea ∧ p.1.cx = r.cx ∧ p.1.cy = r.cy ∧
          (⟨p.1.ixx, p.1.iyy, p.1.ixy, p.1.i11, p.1.i22, p.1.phi⟩ : Inertia) = r.inertia := by
      intro j h
      rcases askNu_cases env s with h2 | ⟨nu, h2⟩
      · rw [exec_bind_error h2] at h; simp at h
      rw [exec_bind_ok h2, exec_get_bind] at h
      split at h
      · obtain rfl : _ = p := Except.ok.inj (Prod.ext_iff.1 h).1
        exact ⟨rfl, rfl, rfl, rfl⟩
      · exact absurd (Prod.ext_iff.1 h).1 nofun
    by_cases hc : isComposite env.sec.materials
    · simp only [hc, if_true] at h tail
      rw [exec_ask_bind] at h
      split at h
      · exact tail _ h
      · simp at h
    · simp only [hc, if_false] at h tail
      rw [exec_ask_bind] at h
      split at h
      · exact tail _ h
      · simp at h
  · rw [if_neg ha] at h
    obtain rfl : _ = p := Except.ok.inj (Prod.ext_iff.1 h).1
    exact ⟨rfl, rfl, rfl, rfl⟩

theorem bendingOf_mem (ax : Axis) : (fun c => bendingOf c ax) ∈ individual := by
  cases ax <;> simp [individual, bendingOf]

/-- The field of the element formulas is the stress of beam theory. -/
theorem fieldAt_beam (em : ℝ) (a : Actions) (e : StressEnv) (om ps ph : ℝ × ℝ → ℝ) (x y : ℝ) (ax : Axis) :
    bendingOf (fieldAt em a e om ps ph (x, y)) ax
      = bendingStress ⟨e.ixx, e.iyy, e.ixy, e.i11, e.i22, e.phi⟩ (momentAmong a ax) em x y ax := by
  cases ax <;> simp only [bendingOf, fieldAt, bendingStress, momentAmong, principalCoordinate, rotX, rotY] <;> ring

/-- Element stresses and beam theory. -/
theorem elStress_beam {n : ℕ} (t : Tri6 n) (ht : Proper t.coords) (a : Actions) (e : StressEnv) (wf : WarpFields n)
    (ax : Axis) (B : ℝ)
    (hB : ∀ k, |bendingStress ⟨e.ixx, e.iyy, e.ixy, e.i11, e.i22, e.phi⟩ (momentAmong a ax) t.material.elasticModulus
      (t.coords.x k - e.cx) (t.coords.y k - e.cy) ax| ≤ B) (k : Fin 6) :
    |bendingOf (elStress a e wf t k) ax - bendingStress ⟨e.ixx, e.iyy, e.ixy, e.i11, e.i22, e.phi⟩ (momentAmong a ax)
      t.material.elasticModulus (t.coords.x k - e.cx) (t.coords.y k - e.cy) ax| ≤ 1e-12 * B := by
  have hp := proper_shift ht e.cx e.cy
  obtain ⟨q1, h1⟩ := exists_interpolates hp fun k => wf.omega (t.nodeIds k)
  obtain ⟨q2, h2⟩ := exists_interpolates hp fun k => wf.psi (t.nodeIds k)
  obtain ⟨q3, h3⟩ := exists_interpolates hp fun k => wf.phiS (t.nodeIds k)
  have := elStress_field t ht a e wf h1 h2 h3 _ (bendingOf_mem ax) B (by simpa only [fieldAt_beam] using hB) k
  simpa only [fieldAt_beam] using this

/-- **C80.**  After any history of analyses with a geometric analysis in it, consider the nodal stresses that
`calculate_stress` reports for any actions.  At every node of a material group with modulus `E`, the axial stress is
`E N / EA`, the stress due to each bending moment is the one of beam theory with the reported centroid and second
moments of area, up to `1e-12` times the largest such stress in the group (`B`), and the combined normal stress is their
sum. -/
theorem C80_beam_theory (g : GeomIn) (hi : Section.init g = .ok env.sec) (hg : GoodSection env.sec)
    (hgr : Grouped env.sec) {r : GeomResults} (hr : env.sec.geometricAnalysis = .ok r)
    (hist : List Env.Call) (hm : ∃ c ∈ hist, Geometric c) (a : Actions) (l : List (GroupStress env.sec.numNodes))
    (s' : Store env.sec.numNodes) (run : (env.stress a).run.run (env.after hist) = (.ok l, s'))
    (m : ℕ) (gr : MaterialGroup env.sec.numNodes) (res : GroupStress env.sec.numNodes)
    (h1 : env.sec.groups[m]? = some gr) (h2 : l[m]? = some res) (i : Fin env.sec.numNodes)
    (hnode : ∃ t ∈ gr.elements, NodeOf i t) :
    (res.comp i).zzN = gr.material.val.elasticModulus * a.n / r.sums.ea ∧
    (res.comb i).zz = (res.comp i).zzN + bendingOf (res.comp i) .xx + bendingOf (res.comp i) .yy
      + bendingOf (res.comp i) .a11 + bendingOf (res.comp i) .a22 ∧
    ∀ ax B, (∀ t ∈ gr.elements, ∀ k, |nodeStress r gr.material.val t k (momentAmong a ax) ax| ≤ B) →
      |bendingOf (res.comp i) ax - bendingStress r.inertia (momentAmong a ax) gr.material.val.elasticModulus
        ((env.sec.meshNodes i).1 - r.cx) ((env.sec.meshNodes i).2 - r.cy) ax| ≤ 1e-12 * B := by
  have H := after_holdsGeom env g hi hr hist hm
  have hrun : exec (env.stress a) (env.after hist) = (.ok l, s') := run
  rw [exec_stress] at hrun
  split_ifs at hrun with c1 c2
  · simp at hrun
  · simp at hrun
  cases hs : exec (env.stressSetup a) (env.after hist) with
  | mk v s2 =>
  rw [hs] at hrun
  cases v with
  | error e => simp at hrun
  | ok p =>
  obtain ⟨e, wf⟩ := p
  obtain ⟨hea, hcx, hcy, hin⟩ := stress_geo env H hs
  simp only at hea hcx hcy hin
  have hl : stressLoop env.sec.groups a e wf = l := Except.ok.inj (Prod.ext_iff.1 hrun).1
  have hgm := List.mem_of_getElem? h1
  have hsub := group_subset hi gr hgm
  have hd : DistinctNodes gr.elements := fun t ht => good_distinct hg t (hsub t ht)
  obtain ⟨res', hres', -, hav⟩ := C26_average env.sec.groups a e wf m gr h1 hd
  rw [hl, h2] at hres'
  obtain rfl := Option.some.inj hres'
  have hea' : e.ea = r.sums.ea := by
    rw [hea, warpIn]
    split_ifs with hc
    · rfl
    · obtain ⟨g1, -⟩ := geom_ok hr
      rw [g1]; exact (C22_noncomposite_area g env.sec hi hc).symm
  refine ⟨?_, ?_, ?_⟩
  · have := (hav (·.zzN) (by simp [individual]) i).1 hnode (gr.material.val.elasticModulus * a.n / r.sums.ea)
      (gr.material.val.elasticModulus * a.n / r.sums.ea) fun t ht k _ => ?_
    · exact le_antisymm this.2 this.1
    · have : (elStress a e wf t k).zzN = gr.material.val.elasticModulus * a.n / r.sums.ea := by
        rw [← hgr.material gr hgm t ht, ← hea']
        simp only [elStress, Tri6.elementStress]
        ring
      exact ⟨this.ge, this.le⟩
  · have hc : res.comb i = combined (res.comp i) := by
      rw [← hl, stressLoop, List.getElem?_map, h1] at h2
      obtain rfl := Option.some.inj h2
      rfl
    rw [hc]
    simp only [combined, bendingOf]
    ring
  · intro ax B hB
    rw [abs_le, neg_le_sub_iff_le_add', sub_le_iff_le_add']
    have := (hav (fun c => bendingOf c ax) (bendingOf_mem ax) i).1 hnode
      (bendingStress r.inertia (momentAmong a ax) gr.material.val.elasticModulus
        ((env.sec.meshNodes i).1 - r.cx) ((env.sec.meshNodes i).2 - r.cy) ax - 1e-12 * B)
      (bendingStress r.inertia (momentAmong a ax) gr.material.val.elasticModulus
        ((env.sec.meshNodes i).1 - r.cx) ((env.sec.meshNodes i).2 - r.cy) ax + 1e-12 * B) fun t ht k hk => ?_
    · constructor <;> linarith [this.1, this.2]
    · have hb := elStress_beam t (hg.proper t (hsub t ht)) a e wf ax B (by
        intro k
        have := hB t ht k
        rw [nodeStress, ← hin, ← hcx, ← hcy, ← hgr.material gr hgm t ht] at this
        exact this) k
      have ec := hg.coords t (hsub t ht)
      rw [hin, hcx, hcy, hgr.material gr hgm t ht, ec] at hb
      simp only [gather, hk] at hb
      rw [abs_le] at hb
      constructor <;> linarith [hb.1, hb.2]

theorem moment_about (M : ℝ) (ax b : Axis) : momentAmong (bendingAbout M ax) b = if b = ax then M else 0 := by
  cases ax <;> cases b <;> simp [momentAmong, bendingAbout]

/-- The combined normal stress under a moment about one axis. -/
theorem pure_bending (g : GeomIn) (hi : Section.init g = .ok env.sec) (hg : GoodSection env.sec)
    (hgr : Grouped env.sec) {r : GeomResults} (hr : env.sec.geometricAnalysis = .ok r)
    (hist : List Env.Call) (hm : ∃ c ∈ hist, Geometric c) (M : ℝ) (ax : Axis)
    (l : List (GroupStress env.sec.numNodes)) (s' : Store env.sec.numNodes)
    (run : (env.stress (bendingAbout M ax)).run.run (env.after hist) = (.ok l, s'))
    (m : ℕ) (gr : MaterialGroup env.sec.numNodes) (res : GroupStress env.sec.numNodes)
    (h1 : env.sec.groups[m]? = some gr) (h2 : l[m]? = some res) (i : Fin env.sec.numNodes)
    (hnode : ∃ t ∈ gr.elements, NodeOf i t) (B : ℝ)
    (hB : ∀ t ∈ gr.elements, ∀ k, |nodeStress r gr.material.val t k M ax| ≤ B) :
    |(res.comb i).zz - bendingStress r.inertia M gr.material.val.elasticModulus
      ((env.sec.meshNodes i).1 - r.cx) ((env.sec.meshNodes i).2 - r.cy) ax| ≤ 1e-12 * B := by
  obtain ⟨e1, e2, e3⟩ := C80_beam_theory env g hi hg hgr hr hist hm _ l s' run m gr res h1 h2 i hnode
  have h0 : ∀ b, b ≠ ax → bendingOf (res.comp i) b = 0 := by
    intro b hb
    have hz : ∀ E x y, bendingStress r.inertia 0 E x y b = 0 := by
      intro E x y; cases b <;> simp [bendingStress]
    have := e3 b 0 (by
      intro t _ k
      rw [moment_about, if_neg hb, nodeStress, hz, abs_zero])
    rw [moment_about, if_neg hb, hz, sub_zero, mul_zero] at this
    exact abs_eq_zero.1 (le_antisymm this (abs_nonneg _))
  have hn : (res.comp i).zzN = 0 := by
    rw [e1]; cases ax <;> simp [bendingAbout]
  have hz : (res.comb i).zz = bendingOf (res.comp i) ax := by
    rw [e2, hn]
    cases ax <;> simp [h0]
  have := e3 ax B (by simpa only [moment_about, if_true] using hB)
  simpa only [hz, moment_about, if_true] using this

theorem stress_length {a : Actions} {s s' : Store env.sec.numNodes} {l : List (GroupStress env.sec.numNodes)}
    (run : (env.stress a).run.run s = (.ok l, s')) : l.length = env.sec.groups.length := by
  have hrun : exec (env.stress a) s = (.ok l, s') := run
  rw [exec_stress] at hrun
  split_ifs at hrun with c1 c2
  · simp at hrun
  · simp at hrun
  split at hrun
  · have hl := Except.ok.inj (Prod.ext_iff.1 hrun).1
    rw [← hl, stressLoop, List.length_map]
  · simp at hrun

/-- **C80.**  The reported yield moment about each axis is the moment under which the stress analysis reports yielding:
under it the reported normal stress is at most the yield strength at every node of every material group, and at least the
yield strength at some node, up to a relative error of `1e-12`. -/
theorem C80_yield_moment (g : GeomIn) (hi : Section.init g = .ok env.sec) (hg : GoodSection env.sec)
    (hgr : Grouped env.sec) (hs : Physical env.sec.elements) {r : GeomResults}
    (hr : env.sec.geometricAnalysis = .ok r)
    (hy : ∀ gr ∈ env.sec.groups, 0 < gr.material.val.yieldStrength ∧ 0 < gr.material.val.elasticModulus)
    (hist : List Env.Call) (hm : ∃ c ∈ hist, Geometric c) (ax : Axis)
    (l : List (GroupStress env.sec.numNodes)) (s' : Store env.sec.numNodes)
    (run : (env.stress (bendingAbout (axisMy r ax) ax)).run.run (env.after hist) = (.ok l, s')) :
    (∀ (m : ℕ) (gr : MaterialGroup env.sec.numNodes) (res : GroupStress env.sec.numNodes),
      env.sec.groups[m]? = some gr → l[m]? = some res → ∀ i, (∃ t ∈ gr.elements, NodeOf i t) →
      |(res.comb i).zz| ≤ gr.material.val.yieldStrength * (1 + 1e-12)) ∧
    ∃ (m : ℕ) (gr : MaterialGroup env.sec.numNodes) (res : GroupStress env.sec.numNodes),
      env.sec.groups[m]? = some gr ∧ l[m]? = some res ∧ ∃ i, (∃ t ∈ gr.elements, NodeOf i t) ∧
      gr.material.val.yieldStrength * (1 - 1e-12) ≤ |(res.comb i).zz| := by
  have hsub := group_subset hi
  have hne : ∃ gr ∈ env.sec.groups, gr.elements ≠ [] := by
    obtain ⟨t, ht⟩ := List.exists_mem_of_ne_nil _ hs.nonempty
    obtain ⟨gr, hgm, htg⟩ := List.mem_flatMap.1 (hgr.partition.mem_iff.2 ht)
    exact ⟨gr, hgm, List.ne_nil_of_mem htg⟩
  obtain ⟨-, y1, ⟨gr0, hg0, t0, ht0, k0, y2⟩, -⟩ := C30_yield_moment hr hs
    (fun gr hgm => ⟨hy gr hgm, fun t ht => hs.proper t (hsub gr hgm t ht)⟩) hne ax
  have node : ∀ gr ∈ env.sec.groups, ∀ t ∈ gr.elements, ∀ k, bendingStress r.inertia (axisMy r ax)
      gr.material.val.elasticModulus ((env.sec.meshNodes (t.nodeIds k)).1 - r.cx)
        ((env.sec.meshNodes (t.nodeIds k)).2 - r.cy) ax
      = nodeStress r gr.material.val t k (axisMy r ax) ax := by
    intro gr hgm t ht k
    rw [nodeStress, hg.coords t (hsub gr hgm t ht)]
    rfl
  constructor
  · rintro m gr res h1 h2 i ⟨t, ht, k, rfl⟩
    have hgm := List.mem_of_getElem? h1
    have := pure_bending env g hi hg hgr hr hist hm _ ax l s' run m gr res h1 h2 _ ⟨t, ht, k, rfl⟩ _ (y1 gr hgm)
    rw [node gr hgm t ht k] at this
    have h3 := y1 gr hgm t ht k
    rw [abs_le] at *
    constructor <;> linarith [this.1, this.2]
  · obtain ⟨m, h1⟩ := List.mem_iff_getElem?.1 hg0
    have hlen := stress_length env run
    obtain ⟨res, h2⟩ : ∃ res, l[m]? = some res := by
      obtain ⟨hlt, -⟩ := List.getElem?_eq_some_iff.1 h1
      exact ⟨_, List.getElem?_eq_getElem (hlen ▸ hlt)⟩
    refine ⟨m, gr0, res, h1, h2, t0.nodeIds k0, ⟨t0, ht0, k0, rfl⟩, ?_⟩
    have := pure_bending env g hi hg hgr hr hist hm _ ax l s' run m gr0 res h1 h2 _ ⟨t0, ht0, k0, rfl⟩ _ (y1 gr0 hg0)
    rw [node gr0 hg0 t0 ht0 k0] at this
    have h3 := abs_sub_abs_le_abs_sub (nodeStress r gr0.material.val t0 k0 (axisMy r ax) ax) (res.comb (t0.nodeIds k0)).zz
    rw [abs_sub_comm] at h3
    linarith

/-- **C80.**  The reported section moduli are the ratios of moment and largest stress of the stress analysis: if all
materials have the modulus `E`, a moment `M` about a principal axis (or about a centroidal axis, if the product of
inertia is zero) gives at no node a normal stress larger than `E |M| / Z`, with `Z` the smaller one of the two moduli for
the axis, and gives this stress at some node, up to a relative error of `1e-12`. -/
theorem C80_section_modulus (g : GeomIn) (hi : Section.init g = .ok env.sec) (hg : GoodSection env.sec)
    (hgr : Grouped env.sec) (hs : Physical env.sec.elements) (hu : NodesUsed env.sec) {r : GeomResults}
    (hr : env.sec.geometricAnalysis = .ok r) {E : ℝ}
    (hE : ∀ gr ∈ env.sec.groups, gr.material.val.elasticModulus = E)
    (hist : List Env.Call) (hm : ∃ c ∈ hist, Geometric c) (M : ℝ) (ax : Axis)
    (hax : ax = .a11 ∨ ax = .a22 ∨ r.cent.ixyC = 0)
    (l : List (GroupStress env.sec.numNodes)) (s' : Store env.sec.numNodes)
    (run : (env.stress (bendingAbout M ax)).run.run (env.after hist) = (.ok l, s')) :
    let σ := E * |M| / min (axisZ r ax).1 (axisZ r ax).2
    (∀ (m : ℕ) (gr : MaterialGroup env.sec.numNodes) (res : GroupStress env.sec.numNodes),
      env.sec.groups[m]? = some gr → l[m]? = some res → ∀ i, (∃ t ∈ gr.elements, NodeOf i t) →
      |(res.comb i).zz| ≤ σ * (1 + 1e-12)) ∧
    ∃ (m : ℕ) (gr : MaterialGroup env.sec.numNodes) (res : GroupStress env.sec.numNodes),
      env.sec.groups[m]? = some gr ∧ l[m]? = some res ∧ ∃ i, (∃ t ∈ gr.elements, NodeOf i t) ∧
      σ * (1 - 1e-12) ≤ |(res.comb i).zz| := by
  intro σ
  have hsub := group_subset hi
  obtain ⟨z1, i0, z2⟩ := C12_stress hr hs hg ax M
  obtain ⟨-, -, p1, p2, -⟩ := C09_positive hr hs
  have hbend : ∀ i, |bendingStress r.inertia M E ((env.sec.meshNodes i).1 - r.cx) ((env.sec.meshNodes i).2 - r.cy) ax|
      = |E| * |M * fibre env.sec r i ax / axisInertia r ax| := by
    intro i
    rw [← abs_mul]
    cases ax with
    | xx =>
      have h0 : r.cent.ixyC = 0 := by simpa using hax
      have h0 : r.inertia.ixy = 0 := h0
      have p1 : r.inertia.ixx ≠ 0 := p1.ne'
      have p2 : r.inertia.iyy ≠ 0 := p2.ne'
      simp only [bendingStress, fibre, axisInertia, h0]
      congr 1
      change _ = E * (M * _ / r.inertia.ixx)
      field_simp
      ring
    | yy =>
      have h0 : r.cent.ixyC = 0 := by simpa using hax
      have h0 : r.inertia.ixy = 0 := h0
      have p1 : r.inertia.ixx ≠ 0 := p1.ne'
      have p2 : r.inertia.iyy ≠ 0 := p2.ne'
      simp only [bendingStress, fibre, axisInertia, h0]
      rw [← abs_neg]
      congr 1
      change _ = E * (M * _ / r.inertia.iyy)
      field_simp
      ring
    | a11 =>
      simp only [bendingStress, fibre, axisInertia]
      congr 1
      simp only [GeomResults.inertia]
      ring
    | a22 =>
      simp only [bendingStress, fibre, axisInertia]
      rw [abs_neg]
      congr 1
      simp only [GeomResults.inertia]
      ring
  have hE0 : 0 < E := by
    obtain ⟨t, ht⟩ := List.exists_mem_of_ne_nil _ hs.nonempty
    obtain ⟨gr, hgm, htg⟩ := List.mem_flatMap.1 (hgr.partition.mem_iff.2 ht)
    rw [← hE gr hgm, ← hgr.material gr hgm t htg]
    exact hs.modulus t ht
  have le : ∀ i, |bendingStress r.inertia M E ((env.sec.meshNodes i).1 - r.cx) ((env.sec.meshNodes i).2 - r.cy) ax| ≤ σ := by
    intro i
    rw [hbend, abs_of_pos hE0]
    calc _ ≤ E * (|M| / min (axisZ r ax).1 (axisZ r ax).2) := mul_le_mul_of_nonneg_left (z1 i) hE0.le
      _ = σ := by simp only [σ]; ring
  have eq0 : |bendingStress r.inertia M E ((env.sec.meshNodes i0).1 - r.cx) ((env.sec.meshNodes i0).2 - r.cy) ax| = σ := by
    rw [hbend, abs_of_pos hE0, z2]
    simp only [σ]; ring
  have bound : ∀ gr ∈ env.sec.groups, ∀ t ∈ gr.elements, ∀ k, |nodeStress r gr.material.val t k M ax| ≤ σ := by
    intro gr hgm t ht k
    have := le (t.nodeIds k)
    rw [nodeStress, hg.coords t (hsub gr hgm t ht), hE gr hgm]
    exact this
  constructor
  · intro m gr res h1 h2 i hn
    have hgm := List.mem_of_getElem? h1
    have := pure_bending env g hi hg hgr hr hist hm _ ax l s' run m gr res h1 h2 i hn _ (bound gr hgm)
    rw [hE gr hgm] at this
    have h3 := le i
    rw [abs_le] at *
    constructor <;> linarith [this.1, this.2]
  · obtain ⟨t, ht, k, hk⟩ := hu i0
    obtain ⟨gr, hgm, htg⟩ := List.mem_flatMap.1 (hgr.partition.mem_iff.2 ht)
    obtain ⟨m, h1⟩ := List.mem_iff_getElem?.1 hgm
    have hlen := stress_length env run
    obtain ⟨res, h2⟩ : ∃ res, l[m]? = some res := by
      obtain ⟨hlt, -⟩ := List.getElem?_eq_some_iff.1 h1
      exact ⟨_, List.getElem?_eq_getElem (hlen ▸ hlt)⟩
    refine ⟨m, gr, res, h1, h2, i0, ⟨t, htg, k, hk⟩, ?_⟩
    have := pure_bending env g hi hg hgr hr hist hm _ ax l s' run m gr res h1 h2 i0 ⟨t, htg, k, hk⟩ _ (bound gr hgm)
    rw [hE gr hgm] at this
    have h3 := abs_sub_abs_le_abs_sub (bendingStress r.inertia M E ((env.sec.meshNodes i0).1 - r.cx)
      ((env.sec.meshNodes i0).2 - r.cy) ax) (res.comb i0).zz
    rw [abs_sub_comm, eq0] at h3
    linarith

end SP
