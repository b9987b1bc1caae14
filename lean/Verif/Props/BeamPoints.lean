import Verif.Props.BeamStress
import Verif.Props.PlasticExample
import Verif.Props.Torsion
import Verif.Props.Shear

/-!
# C80: normal stresses at arbitrary points
-/

namespace SP

open Classical Spec

/-- The normal stress of beam theory at a point for all actions together. -/
noncomputable def beamStress (r : GeomResults) (a : Actions) (E : ℝ) (p : ℝ × ℝ) : ℝ :=
  E * a.n / r.sums.ea + bendingStress r.inertia a.mxx E (p.1 - r.cx) (p.2 - r.cy) .xx
    + bendingStress r.inertia a.myy E (p.1 - r.cx) (p.2 - r.cy) .yy
    + bendingStress r.inertia a.m11 E (p.1 - r.cx) (p.2 - r.cy) .a11
    + bendingStress r.inertia a.m22 E (p.1 - r.cx) (p.2 - r.cy) .a22

theorem shape_abs_le {p : ℝ × ℝ × ℝ} (h1 : 0 ≤ p.1) (h2 : 0 ≤ p.2.1) (h3 : 0 ≤ p.2.2) (hs : p.1 + p.2.1 + p.2.2 = 1)
    (i : Fin 6) : |shapeFunctionOnly p i| ≤ 1 := by
  obtain ⟨x, y, z⟩ := p
  simp only at h1 h2 h3 hs
  rw [abs_le]
  fin_cases i <;> simp [shapeFunctionOnly, shapeN] <;> constructor <;>
    nlinarith [mul_nonneg h1 h2, mul_nonneg h2 h3, mul_nonneg h1 h3, sq_nonneg (x - y), sq_nonneg (y - z), sq_nonneg (x - z)]

/-- Inside an element the interpolated normal stress is that of beam theory. -/
theorem local_beam {n : ℕ} {t : Tri6 n} (ht : Proper t.coords) (r : GeomResults) (a : Actions) {e : StressEnv}
    (wf : WarpFields n) (hea : e.ea = r.sums.ea) (hcx : e.cx = r.cx) (hcy : e.cy = r.cy)
    (hin : (⟨e.ixx, e.iyy, e.ixy, e.i11, e.i22, e.phi⟩ : Inertia) = r.inertia) {B : ℝ}
    (hB : ∀ k ax, |nodeStress r t.material t k (momentAmong a ax) ax| ≤ B) {p : ℝ × ℝ} (hp : p ∈ elemRegion t.coords) :
    |(t.localElementStress p a e (t.local wf.omega) (t.local wf.psi) (t.local wf.phiS)).1
      - beamStress r a t.material.elasticModulus p| ≤ 1e-10 * B := by
  have hB0 : 0 ≤ B := (abs_nonneg _).trans (hB 0 .xx)
  obtain ⟨q1, h1⟩ := exists_interpolates ht fun k => (combined (elStress a e wf t k)).zz
  obtain ⟨q2, h2⟩ := exists_interpolates ht fun k => (combined (elStress a e wf t k)).zx
  obtain ⟨q3, h3⟩ := exists_interpolates ht fun k => (combined (elStress a e wf t k)).zy
  rw [localElementStress_interp ht a e wf p h1 h2 h3, ← interp_only ht h1]
  -- beam theory interpolates itself
  have hq : Interpolates t.coords (fun k => beamStress r a t.material.elasticModulus (t.coords.x k, t.coords.y k))
      (beamStress r a t.material.elasticModulus) := by
    refine ⟨?_, fun k => rfl⟩
    have : beamStress r a t.material.elasticModulus = fun p : ℝ × ℝ =>
        beamStress r a t.material.elasticModulus (0, 0)
        + (beamStress r a t.material.elasticModulus (1, 0) - beamStress r a t.material.elasticModulus (0, 0)) * p.1
        + (beamStress r a t.material.elasticModulus (0, 1) - beamStress r a t.material.elasticModulus (0, 0)) * p.2 := by
      funext p
      simp only [beamStress, bendingStress, rotX, rotY]
      ring
    rw [this]
    exact PolyLE.mono (by norm_num) (polyLE_affine _ _ _)
  rw [← interp_only ht hq, ← Finset.sum_sub_distrib]
  have node : ∀ k, |(combined (elStress a e wf t k)).zz
      - beamStress r a t.material.elasticModulus (t.coords.x k, t.coords.y k)| ≤ 4e-12 * B := by
    intro k
    have hk := fun ax => elStress_beam t ht a e wf ax B (fun k => by
      have := hB k ax
      rw [nodeStress, ← hin, ← hcx, ← hcy] at this
      exact this) k
    simp only [hin, hcx, hcy, abs_le] at hk
    have hn : (elStress a e wf t k).zzN = t.material.elasticModulus * a.n / r.sums.ea := by
      rw [← hea]; simp only [elStress, Tri6.elementStress]; ring
    have k1 := hk .xx
    have k2 := hk .yy
    have k3 := hk .a11
    have k4 := hk .a22
    simp only [bendingOf, momentAmong] at k1 k2 k3 k4
    simp only [combined, beamStress, hn]
    rw [abs_le]
    constructor <;> linarith [k1.1, k1.2, k2.1, k2.2, k3.1, k3.2, k4.1, k4.2]
  obtain ⟨hb, -⟩ := C28_local t ht.2.ne' p
  obtain ⟨b1, b2, b3⟩ := (C28_interp t ht.1 ht.2.ne' p).2.2 ((C28_within t ht.2.ne' p).2 hp)
  calc _ ≤ ∑ k, |(combined (elStress a e wf t k)).zz * shapeFunctionOnly (t.localCoord p) k
        - beamStress r a t.material.elasticModulus (t.coords.x k, t.coords.y k) * shapeFunctionOnly (t.localCoord p) k| :=
        Finset.abs_sum_le_sum_abs _ _
    _ ≤ ∑ _k : Fin 6, 4e-12 * B := by
        refine Finset.sum_le_sum fun k _ => ?_
        rw [← sub_mul, abs_mul]
        calc _ ≤ 4e-12 * B * 1 := mul_le_mul (node k) (shape_abs_le b1 b2 b3 hb k) (abs_nonneg _) (by positivity)
          _ = _ := mul_one _
    _ ≤ 1e-10 * B := by
        rw [Finset.sum_const, Finset.card_univ, Fintype.card_fin, nsmul_eq_mul]
        push_cast
        linarith

variable {P : Type} (env : Env P)

/-- **C80.**  After any history of analyses with a geometric analysis in it, `get_stress_at_points` returns for every
requested point of the section the normal stress of beam theory, up to `1e-10` times the largest bending stress (`B`) at
the nodes of the elements that contain the point.  The point may lie on the boundary of several elements, if these have
the same modulus and the stresses are combined by a function like the mean. -/
theorem C80_points (g : GeomIn) (hi : Section.init g = .ok env.sec) (hg : GoodSection env.sec) {r : GeomResults}
    (hr : env.sec.geometricAnalysis = .ok r) (hist : List Env.Call) (hm : ∃ c ∈ hist, Geometric c) (a : Actions)
    (query : ℝ × ℝ → List ℕ) (hq : QueryCorrect env.sec.elements query) (agg : List ℝ → ℝ)
    (hagg : ∀ (l : List ℝ) (lo hi : ℝ), l ≠ [] → (∀ x ∈ l, lo ≤ x ∧ x ≤ hi) → lo ≤ agg l ∧ agg l ≤ hi)
    (pts : List (ℝ × ℝ)) (l : List (Option (ℝ × ℝ × ℝ))) (s' : Store env.sec.numNodes)
    (run : (env.stressPoints query agg a pts).run.run (env.after hist) = (.ok l, s')) (E B : ℝ) :
    List.Forall₂ (fun p v => (∃ t ∈ env.sec.elements, p ∈ elemRegion t.coords) →
      (∀ t ∈ env.sec.elements, p ∈ elemRegion t.coords → t.material.elasticModulus = E ∧
        ∀ k ax, |nodeStress r t.material t k (momentAmong a ax) ax| ≤ B) →
      ∃ u, v = some u ∧ |u.1 - beamStress r a E p| ≤ 1e-10 * B) pts l := by
  have H := after_holdsGeom env g hi hr hist hm
  have hrun : exec (env.stressPoints query agg a pts) (env.after hist) = (.ok l, s') := run
  unfold Env.stressPoints at hrun
  rw [exec_get_bind] at hrun
  split_ifs at hrun with c1
  · simp [exec_throw] at hrun
  rw [exec_bind] at hrun
  cases hs : exec (env.stressSetup a) (env.after hist) with
  | mk v s2 =>
  rw [hs] at hrun
  cases v with
  | error e => simp at hrun
  | ok q =>
  obtain ⟨e, wf⟩ := q
  obtain ⟨hea, hcx, hcy, hin⟩ := stress_geo env H hs
  dsimp only at hrun hea hcx hcy hin
  rw [exec_attempt] at hrun
  have hl := (Prod.ext_iff.1 hrun).1
  simp only at hl
  have hea' : e.ea = r.sums.ea := by
    rw [hea, warpIn]
    split_ifs with hc
    · rfl
    · obtain ⟨g1, -⟩ := geom_ok hr
      rw [g1]; exact (C22_noncomposite_area g env.sec hi hc).symm
  unfold stressAtPoints at hl
  rw [mapM_ok_forall₂] at hl
  refine hl.imp fun p v hv ⟨t, ht, hpt⟩ hE => ?_
  obtain ⟨hnd, hmem⟩ := hq p
  obtain ⟨ts, hts, hf⟩ := mapM_some_of_forall env.sec.elements (query p) fun i hi => by
    obtain ⟨t, ht, -⟩ := (hmem i).1 hi; exact ⟨t, ht⟩
  have hall : ∀ t ∈ ts, |(t.localElementStress p a e (t.local wf.omega) (t.local wf.psi) (t.local wf.phiS)).1
      - beamStress r a E p| ≤ 1e-10 * B := by
    intro t ht
    obtain ⟨i, hi, h⟩ := forall₂_mem_right hf ht
    obtain ⟨t', h', hpt'⟩ := (hmem i).1 hi
    rw [h] at h'
    obtain rfl := Option.some.inj h'
    have hte := List.mem_of_getElem? h
    obtain ⟨e1, e2⟩ := hE t hte hpt'
    rw [← e1]
    exact local_beam (hg.proper t hte) r a wf hea' hcx hcy hin e2 hpt'
  have hne : ts ≠ [] := by
    rintro rfl
    obtain ⟨i, hi⟩ := List.mem_iff_getElem?.1 ht
    have := (hmem i).2 ⟨t, hi, hpt⟩
    have hnil : query p = [] := List.length_eq_zero_iff.1 hf.length_eq
    rw [hnil] at this
    cases this
  unfold stressAtPoint at hv
  simp only [hts] at hv
  match ts, hv, hall, hne with
  | [t0], hv, hall, _ =>
    obtain rfl := Except.ok.inj hv
    exact ⟨_, rfl, hall t0 (by simp)⟩
  | t0 :: t1 :: ts', hv, hall, _ =>
    obtain rfl := Except.ok.inj hv
    refine ⟨_, rfl, ?_⟩
    have := hagg ((t0 :: t1 :: ts').map fun t =>
      (t.localElementStress p a e (t.local wf.omega) (t.local wf.psi) (t.local wf.phiS)).1)
      (beamStress r a E p - 1e-10 * B) (beamStress r a E p + 1e-10 * B) (by simp) (by
        intro x hx
        obtain ⟨t, ht, rfl⟩ := List.mem_map.1 hx
        have := abs_le.1 (hall t ht)
        constructor <;> linarith [this.1, this.2])
    rw [abs_le]
    simp only [List.map_map, Function.comp_def] at *
    constructor <;> linarith [this.1, this.2]

/-- The mean combines stresses as `C80_points` requires. -/
theorem mean_between (l : List ℝ) (lo hi : ℝ) (hl : l ≠ []) (h : ∀ x ∈ l, lo ≤ x ∧ x ≤ hi) :
    lo ≤ npAverage l ∧ npAverage l ≤ hi := by
  have hpos : (0 : ℝ) < l.length := by exact_mod_cast List.length_pos_iff.2 hl
  have h1 := List.card_nsmul_le_sum l lo fun x hx => (h x hx).1
  have h2 := List.sum_le_card_nsmul l hi fun x hx => (h x hx).2
  rw [nsmul_eq_mul] at h1 h2
  rw [npAverage, le_div_iff₀ hpos, div_le_iff₀ hpos]
  constructor <;> linarith

theorem bounded_list {n : ℕ} (els : List (Tri6 n)) (f : Tri6 n → Fin 6 → Axis → ℝ) :
    ∃ B, ∀ t ∈ els, ∀ k ax, f t k ax ≤ B := by
  induction els with
  | nil => exact ⟨0, by simp⟩
  | cons t els ih =>
    obtain ⟨B, hB⟩ := ih
    have h1 : ∀ ax, ∃ C, ∀ k, f t k ax ≤ C := fun ax => by
      obtain ⟨k, -, hk⟩ := Finset.exists_max_image Finset.univ (fun k => f t k ax) ⟨0, Finset.mem_univ _⟩
      exact ⟨f t k ax, fun j => hk j (Finset.mem_univ _)⟩
    choose C hC using h1
    refine ⟨max B (max (max (C .xx) (C .yy)) (max (C .a11) (C .a22))), ?_⟩
    intro u hu k ax
    rcases List.mem_cons.1 hu with rfl | hu
    · cases ax <;> simp [hC]
    · exact (hB u hu k ax).trans (le_max_left _ _)

/-- A case of `C80_yield_moment` and `C80_beam_theory`: the example of two materials, after a geometric analysis. -/
example (ax : Axis) : ∃ (r : GeomResults) (l : List (GroupStress 9)),
    exSection.geometricAnalysis = .ok r ∧ l.length = 2 ∧
    ∃ (m : ℕ) (gr : MaterialGroup 9) (res : GroupStress 9), exSection.groups[m]? = some gr ∧ l[m]? = some res ∧
      ∃ i, gr.material.val.yieldStrength * (1 - 1e-12) ≤ |(res.comb i).zz| ∧
        |(res.comb i).zz| ≤ gr.material.val.yieldStrength * (1 + 1e-12) := by
  obtain ⟨r, w, hr, hw⟩ := ex_results exSection (by simp)
  have H := after_holdsGeom (exEnv exSection) exGeom exSection_init hr [.geometric] ⟨.geometric, by simp, trivial⟩
  obtain ⟨l, hl⟩ := stress_ok (exEnv exSection) H (bendingAbout (axisMy r ax) ax) fun h => by
    cases ax <;> simp [bendingAbout, ShearOrTorsion] at h
  have hy : ∀ gr ∈ exSection.groups, 0 < gr.material.val.yieldStrength ∧ 0 < gr.material.val.elasticModulus := by
    intro (gr : MaterialGroup 9) hgr
    have hgr : gr ∈ ([⟨⟨0, exConcrete⟩, [exT0]⟩, ⟨⟨1, exSteel⟩, [exT1]⟩] : List (MaterialGroup 9)) := hgr
    rw [List.mem_cons, List.mem_singleton] at hgr
    rcases hgr with rfl | rfl
    · norm_num [exConcrete]
    · norm_num [exSteel]
  obtain ⟨h1, m, gr, res, h2, h3, i, h4, h5⟩ := C80_yield_moment (exEnv exSection) exGeom exSection_init exSection_good
    exSection_grouped exSection_physical hr hy [.geometric] ⟨.geometric, by simp, trivial⟩ ax l _ hl
  exact ⟨r, l, hr, stress_length (exEnv exSection) hl, m, gr, res, h2, h3, i, h5, h1 m gr res h2 h3 i h4⟩

/-- A case of `C80_section_modulus`: the section without materials under a moment of 5 about a principal axis. -/
example : ∃ (r : GeomResults) (l : List (GroupStress 9)) (res : GroupStress 9) (i : Fin 9),
    exPlain.geometricAnalysis = .ok r ∧ l[0]? = some res ∧
    5 / min r.cent.z11Plus r.cent.z11Minus * (1 - 1e-12) ≤ |(res.comb i).zz| ∧
    |(res.comb i).zz| ≤ 5 / min r.cent.z11Plus r.cent.z11Minus * (1 + 1e-12) := by
  obtain ⟨r, w, hr, hw⟩ := ex_results exPlain (by simp)
  have H := after_holdsGeom (exEnv exPlain) exPlainGeom exPlain_init hr [.geometric] ⟨.geometric, by simp, trivial⟩
  obtain ⟨l, hl⟩ := stress_ok (exEnv exPlain) H (bendingAbout 5 .a11) fun h => by
    simp [bendingAbout, ShearOrTorsion] at h
  have hE : ∀ gr ∈ exPlain.groups, gr.material.val.elasticModulus = 1 := by
    intro (gr : MaterialGroup 9) hgr
    have hgr : gr ∈ ([⟨⟨0, defaultMaterial⟩, [exP0, exP1]⟩] : List (MaterialGroup 9)) := hgr
    rw [List.mem_singleton] at hgr
    subst hgr
    rfl
  have hu : NodesUsed exPlain := by
    intro i
    obtain ⟨(t : Tri6 9), ht, k, hk⟩ := exNodesUsed i
    have ht : t ∈ ([exT0, exT1] : List (Tri6 9)) := ht
    rw [List.mem_cons, List.mem_singleton] at ht
    rcases ht with rfl | rfl
    · exact ⟨exP0, List.mem_cons_self .., k, hk⟩
    · exact ⟨exP1, List.mem_cons_of_mem _ (List.mem_cons_self ..), k, hk⟩
  obtain ⟨h1, m, gr, res, h2, h3, i, h4, h5⟩ := C80_section_modulus (exEnv exPlain) exPlainGeom exPlain_init exPlain_good
    exPlain_grouped exPlain_physical hu hr hE [.geometric] ⟨.geometric, by simp, trivial⟩ 5 .a11 (.inl rfl) l _ hl
  have hm : m = 0 := by
    obtain ⟨hlt, -⟩ := List.getElem?_eq_some_iff.1 h2
    exact Nat.lt_one_iff.1 hlt
  subst hm
  have h6 := h1 0 gr res h2 h3 i h4
  have he : (1 : ℝ) * |5| / min (axisZ r .a11).1 (axisZ r .a11).2 = 5 / min r.cent.z11Plus r.cent.z11Minus := by
    simp [axisZ]
  rw [he] at h5 h6
  exact ⟨r, l, res, i, hr, h3, h5, h6⟩

/-- A case of `C80_points`: the point in the middle of the section without materials, which lies on both elements. -/
example : ∃ (r : GeomResults) (l : List (Option (ℝ × ℝ × ℝ))) (s' : Store 9) (B : ℝ) (u : ℝ × ℝ × ℝ),
    exPlain.geometricAnalysis = .ok r ∧
    ((exEnv exPlain).stressPoints (exactQuery exPlain.elements) npAverage ⟨7, 5, 4, 0, 0, 0, 0, 0⟩ [(1, 1 / 2)]).run.run
      ((exEnv exPlain).after [.geometric]) = (.ok l, s') ∧ l = [some u] ∧
    |u.1 - beamStress r ⟨7, 5, 4, 0, 0, 0, 0, 0⟩ 1 (1, 1 / 2)| ≤ 1e-10 * B := by
  obtain ⟨r, w, hr, hw⟩ := ex_results exPlain (by simp)
  have H := after_holdsGeom (exEnv exPlain) exPlainGeom exPlain_init hr [.geometric] ⟨.geometric, by simp, trivial⟩
  obtain ⟨la, ha⟩ := stress_ok (exEnv exPlain) H ⟨7, 5, 4, 0, 0, 0, 0, 0⟩ fun h => by simp [ShearOrTorsion] at h
  have hQ := exactQuery_correct exPlain.elements
  obtain ⟨l, hl⟩ := points_ok (exEnv exPlain) ha hQ npAverage [(1, 1 / 2)]
  obtain ⟨B, hB⟩ := bounded_list ([exP0, exP1] : List (Tri6 9)) fun t k ax =>
    |nodeStress r t.material t k (momentAmong ⟨7, 5, 4, 0, 0, 0, 0, 0⟩ ax) ax|
  have key := C80_points (exEnv exPlain) exPlainGeom exPlain_init exPlain_good hr [.geometric]
    ⟨.geometric, by simp, trivial⟩ _ _ hQ npAverage mean_between _ l _ hl 1 B
  cases key with
  | cons h1 h2 =>
    cases h2
    have hin : ((1, 1 / 2) : ℝ × ℝ) ∈ elemRegion exP0.coords := by
      have := node_mem (exPlain_good.proper exP0 (List.mem_cons_self ..)).1 5
      simpa [exP0, exT0, gather, exV] using this
    have hall : ∀ t ∈ exPlain.elements, ((1, 1 / 2) : ℝ × ℝ) ∈ elemRegion t.coords → t.material.elasticModulus = 1 ∧
        ∀ k ax, |nodeStress r t.material t k (momentAmong ⟨7, 5, 4, 0, 0, 0, 0, 0⟩ ax) ax| ≤ B := by
      intro (t : Tri6 9) ht _
      have ht' : t ∈ ([exP0, exP1] : List (Tri6 9)) := ht
      refine ⟨?_, fun k ax => hB t ht' k ax⟩
      rw [List.mem_cons, List.mem_singleton] at ht'
      rcases ht' with rfl | rfl <;> rfl
    obtain ⟨u, hv, hu⟩ := h1 ⟨exP0, List.mem_cons_self .., hin⟩ hall
    exact ⟨r, _, _, B, u, hr, hl, by rw [hv], hu⟩

end SP
