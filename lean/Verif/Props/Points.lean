import Verif.Props.Superpose
import Verif.Props.StressState

/-!
# C29: stresses at points
-/

namespace SP

open Classical Spec

section
variable {n : ℕ}

theorem interp_only {t : Tri6 n} (hp : Proper t.coords) {u : Fin 6 → ℝ} {q : ℝ × ℝ → ℝ}
    (hq : Interpolates t.coords u q) (p : ℝ × ℝ) :
    ∑ i, u i * shapeFunctionOnly (t.localCoord p) i = q p := by
  obtain ⟨h1, h2⟩ := C28_local t hp.2.ne' p
  have h := C04_value t.coords hp.1 ⟨0, (t.localCoord p).1, (t.localCoord p).2.1, (t.localCoord p).2.2⟩
    h1 q hq.1
  rw [localPos, h2] at h
  rw [← h]
  exact Finset.sum_congr rfl fun i _ => by rw [nodePos, hq.2 i]; rfl

theorem localElementStress_interp {t : Tri6 n} (hp : Proper t.coords) (a : Actions) (e : StressEnv)
    (wf : WarpFields n) (p : ℝ × ℝ) {q1 q2 q3 : ℝ × ℝ → ℝ}
    (h1 : Interpolates t.coords (fun k => (combined (elStress a e wf t k)).zz) q1)
    (h2 : Interpolates t.coords (fun k => (combined (elStress a e wf t k)).zx) q2)
    (h3 : Interpolates t.coords (fun k => (combined (elStress a e wf t k)).zy) q3) :
    t.localElementStress p a e (t.local wf.omega) (t.local wf.psi) (t.local wf.phiS)
      = (q1 p, q2 p, q3 p) := by
  rw [← interp_only hp h1, ← interp_only hp h2, ← interp_only hp h3]
  simp only [Tri6.localElementStress, combined, elStress, Prod.mk.injEq]
  simp only [add_mul, Finset.sum_add_distrib, and_self]

theorem node_mem {c : Coords} (hs : Straight c) (k : Fin 6) : (c.x k, c.y k) ∈ elemRegion c := by
  rw [elemRegion, Spec.triangle, convexHull_triple_eq_image]
  obtain ⟨h3, h4, h5, h6, h7, h8⟩ := hs
  refine ⟨((localNode k).1, (localNode k).2.1), ?_, ?_⟩
  · fin_cases k <;> simp [localNode, stdTri] <;> norm_num
  · fin_cases k <;> simp [localNode, triMap, cornerA, cornerB, cornerC, h3, h4, h5, h6, h7, h8] <;>
      constructor <;> ring

theorem mapM_some_of_forall (els : List (Tri6 n)) (l : List ℕ) (h : ∀ i ∈ l, ∃ t, els[i]? = some t) :
    ∃ ts, l.mapM (fun i => els[i]?) = some ts ∧ List.Forall₂ (fun i t => els[i]? = some t) l ts := by
  induction l with
  | nil => exact ⟨[], rfl, .nil⟩
  | cons i l ih =>
    obtain ⟨t, ht⟩ := h i (by simp)
    obtain ⟨ts, h1, h2⟩ := ih fun j hj => h j (by simp [hj])
    exact ⟨t :: ts, by simp [ht, h1], .cons ht h2⟩

end

variable {P : Type} (env : Env P)

/-- The element stress fields behind the results of a stress analysis and of `get_stress_at_points` for
the same actions and the same stored properties. -/
theorem points_form (s : Store env.sec.numNodes) (query : ℝ × ℝ → List ℕ) (agg : List ℝ → ℝ)
    (a : Actions) (pts : List (ℝ × ℝ)) (l) (h : exec (env.stressPoints query agg a pts) s = (.ok l, s)) :
    ∃ e wf, stressAtPoints env.sec.elements query a e wf agg pts = .ok l ∧
      ∀ l', exec (env.stress a) s = (.ok l', s) → l' = stressLoop env.sec.groups a e wf := by
  unfold Env.stressPoints at h
  rw [exec_get_bind] at h
  split_ifs at h with h1
  · simp [exec_throw] at h
  rw [exec_bind] at h
  rcases hs : exec (env.stressSetup a) s with ⟨r, s'⟩
  rw [hs] at h
  cases r with
  | error e => simp at h
  | ok p =>
    obtain ⟨e, wf⟩ := p
    dsimp only at h
    rw [exec_attempt] at h
    obtain ⟨h2, rfl⟩ := Prod.ext_iff.1 h
    refine ⟨e, wf, h2, fun l' hl' => ?_⟩
    rw [exec_stress, hs] at hl'
    split_ifs at hl' <;> simp at hl'
    exact hl'.symm

/-- **C29.**  Suppose the search tree is correct and all elements are proper.  There is an element-wise
nodal stress field `es` (the one averaged by the stress analysis) such that the list returned by
`get_stress_at_points` has exactly one entry per requested point, in the same order, and the entry of
a point `p` is
* `None` exactly if `p` lies in no element,
* the values at `p` of the quadratic interpolants of `σ_zz`, `τ_zx`, `τ_zy` of the element, if `p` lies
  in a single element,
* the aggregate of these values over all elements containing `p` otherwise. -/
theorem C29_points (hp : ∀ t ∈ env.sec.elements, Proper t.coords) (s : Store env.sec.numNodes)
    (query : ℝ × ℝ → List ℕ) (hq : QueryCorrect env.sec.elements query) (agg : List ℝ → ℝ)
    (a : Actions) (pts : List (ℝ × ℝ)) (l : List (Option (ℝ × ℝ × ℝ)))
    (h : (env.stressPoints query agg a pts).run.run s = (.ok l, s)) :
    ∃ (es : Tri6 env.sec.numNodes → Fin 6 → StressComp)
      (at' : Tri6 env.sec.numNodes → ℝ × ℝ → ℝ × ℝ × ℝ),
      (∀ t ∈ env.sec.elements, ∃ q1 q2 q3,
        Interpolates t.coords (fun k => (combined (es t k)).zz) q1 ∧
        Interpolates t.coords (fun k => (combined (es t k)).zx) q2 ∧
        Interpolates t.coords (fun k => (combined (es t k)).zy) q3 ∧
        ∀ p, at' t p = (q1 p, q2 p, q3 p)) ∧
      List.Forall₂ (fun p r =>
        (r = none ↔ ∀ t ∈ env.sec.elements, p ∉ elemRegion t.coords) ∧
        (∀ (m : ℕ) (t : Tri6 env.sec.numNodes), env.sec.elements[m]? = some t → p ∈ elemRegion t.coords →
          (∀ (m' : ℕ) (t' : Tri6 env.sec.numNodes), env.sec.elements[m']? = some t' → p ∈ elemRegion t'.coords → m' = m) →
          r = some (at' t p)) ∧
        (∀ v, r = some v → ∃ (ms : List ℕ) (ts : List (Tri6 env.sec.numNodes)), ms.Nodup ∧
          List.Forall₂ (fun m t => env.sec.elements[m]? = some t) ms ts ∧
          (∀ m, m ∈ ms ↔ ∃ t : Tri6 env.sec.numNodes, env.sec.elements[m]? = some t ∧ p ∈ elemRegion t.coords) ∧
          (2 ≤ ts.length → v = (agg (ts.map fun t => (at' t p).1), agg (ts.map fun t => (at' t p).2.1),
            agg (ts.map fun t => (at' t p).2.2))))) pts l := by
  obtain ⟨e, wf, hl, -⟩ := points_form env s query agg a pts l h
  refine ⟨elStress a e wf, fun t p =>
    t.localElementStress p a e (t.local wf.omega) (t.local wf.psi) (t.local wf.phiS), ?_, ?_⟩
  · intro t ht
    obtain ⟨q1, h1⟩ := exists_interpolates (hp t ht) fun k => (combined (elStress a e wf t k)).zz
    obtain ⟨q2, h2⟩ := exists_interpolates (hp t ht) fun k => (combined (elStress a e wf t k)).zx
    obtain ⟨q3, h3⟩ := exists_interpolates (hp t ht) fun k => (combined (elStress a e wf t k)).zy
    exact ⟨q1, q2, q3, h1, h2, h3, fun p => localElementStress_interp (hp t ht) a e wf p h1 h2 h3⟩
  · unfold stressAtPoints at hl
    rw [mapM_ok_forall₂] at hl
    refine hl.imp fun p r hr => ?_
    obtain ⟨hnd, hmem⟩ := hq p
    obtain ⟨ts, hts, hf⟩ := mapM_some_of_forall env.sec.elements (query p) fun i hi => by
      obtain ⟨t, ht, -⟩ := (hmem i).1 hi; exact ⟨t, ht⟩
    have hlen := hf.length_eq
    unfold stressAtPoint at hr
    simp only [hts] at hr
    match ts, hr, hf, hlen with
    | [], hr, hf, hlen =>
      have hnil : query p = [] := List.length_eq_zero_iff.1 hlen
      obtain rfl : none = r := Except.ok.inj hr
      have hno : ∀ t ∈ env.sec.elements, p ∉ elemRegion t.coords := by
        intro t ht hpt
        obtain ⟨i, hi⟩ := List.mem_iff_getElem?.1 ht
        have := (hmem i).2 ⟨t, hi, hpt⟩
        rw [hnil] at this
        cases this
      refine ⟨by simpa using hno, fun m t hm hpt _ => ?_, by simp⟩
      exact absurd hpt (hno t (List.mem_of_getElem? hm))
    | [t0], hr, hf, hlen =>
      obtain ⟨m0, hm0⟩ : ∃ m0, query p = [m0] := List.length_eq_one_iff.1 hlen
      rw [hm0] at hf hmem
      have h0 : env.sec.elements[m0]? = some t0 := by cases hf; assumption
      have hin : p ∈ elemRegion t0.coords := by
        obtain ⟨t, ht, hpt⟩ := (hmem m0).1 (by simp)
        rw [h0] at ht; obtain rfl := Option.some.inj ht; exact hpt
      obtain rfl := Except.ok.inj hr
      refine ⟨⟨by simp, fun hno => absurd hin (hno t0 (List.mem_of_getElem? h0))⟩, ?_, ?_⟩
      · intro m t hm hpt _
        have : m ∈ [m0] := (hmem m).2 ⟨t, hm, hpt⟩
        rw [List.mem_singleton.1 this, h0] at hm
        rw [Option.some.inj hm]
      · intro v _
        exact ⟨[m0], [t0], by simp, .cons h0 .nil, hmem, by simp⟩
    | t0 :: t1 :: ts', hr, hf, hlen =>
      obtain rfl := Except.ok.inj hr
      have two : ∃ m0 m1 ms, query p = m0 :: m1 :: ms := by
        match hqp : query p, hlen with
        | m0 :: m1 :: ms, _ => exact ⟨m0, m1, ms, rfl⟩
      obtain ⟨m0, m1, ms, hms⟩ := two
      have h0 := (hmem m0).1 (by simp [hms])
      have h1 := (hmem m1).1 (by simp [hms])
      refine ⟨⟨by simp, fun hno => ?_⟩, ?_, ?_⟩
      · obtain ⟨t, ht, hpt⟩ := h0
        exact absurd hpt (hno t (List.mem_of_getElem? ht))
      · intro m t _ _ huniq
        obtain ⟨t, ht, hpt⟩ := h0
        obtain ⟨t', ht', hpt'⟩ := h1
        have e0 := huniq m0 t ht hpt
        have e1 := huniq m1 t' ht' hpt'
        rw [hms, e0, e1] at hnd
        simp at hnd
      · intro v hv
        refine ⟨query p, t0 :: t1 :: ts', hnd, hf, hmem, fun _ => ?_⟩
        rw [← Option.some.inj hv]
        simp [List.map_map, Function.comp_def]

/-- **C29** (nodes).  If a requested point is node `k` (a corner or a midside node) of an element that
is the only one containing it, `get_stress_at_points` returns for it the stresses that a stress
analysis for the same actions reports at that node for the material of the element. -/
theorem C29_node (hp : ∀ t ∈ env.sec.elements, Proper t.coords) (s : Store env.sec.numNodes)
    (query : ℝ × ℝ → List ℕ) (hq : QueryCorrect env.sec.elements query) (agg : List ℝ → ℝ)
    (a : Actions) (pts : List (ℝ × ℝ)) (l : List (Option (ℝ × ℝ × ℝ)))
    (h : (env.stressPoints query agg a pts).run.run s = (.ok l, s))
    (l' : List (GroupStress env.sec.numNodes)) (h' : (env.stress a).run.run s = (.ok l', s))
    (m : ℕ) (g : MaterialGroup env.sec.numNodes) (hg : env.sec.groups[m]? = some g)
    (hd : DistinctNodes g.elements) (t : Tri6 env.sec.numNodes) (ht : t ∈ g.elements)
    (te : ℕ) (hte : env.sec.elements[te]? = some t) (k : Fin 6)
    (huniq : ∀ (m' : ℕ) (t' : Tri6 env.sec.numNodes), env.sec.elements[m']? = some t' → (t.coords.x k, t.coords.y k) ∈ elemRegion t'.coords →
      m' = te)
    (hnode : ∀ t' ∈ g.elements, NodeOf (t.nodeIds k) t' → t' = t)
    (j : ℕ) (hj : pts[j]? = some (t.coords.x k, t.coords.y k)) :
    ∃ r, l'[m]? = some r ∧ l[j]? = some (some ((r.comb (t.nodeIds k)).zz,
      (r.comb (t.nodeIds k)).zx, (r.comb (t.nodeIds k)).zy)) := by
  have hP := hp t (List.mem_of_getElem? hte)
  obtain ⟨e, wf, hl, hl'⟩ := points_form env s query agg a pts l h
  have hl' := hl' l' h'
  subst hl'
  refine ⟨_, by rw [stressLoop, List.getElem?_map, hg]; rfl, ?_⟩
  -- the averaged stresses at the node are those of the element
  have hav : groupStress g.elements a e wf (t.nodeIds k) = elStress a e wf t k := by
    have key : ∀ f : StressComp → ℝ, nodalAverage g.elements (fun t k => f (elStress a e wf t k))
        (t.nodeIds k) = f (elStress a e wf t k) := by
      intro f
      have hb := nodalAverage_bounds hd (fun t k => f (elStress a e wf t k)) (i := t.nodeIds k)
        ⟨t, ht, k, rfl⟩ (lo := f (elStress a e wf t k)) (hi' := f (elStress a e wf t k))
        fun t' ht' k' hk' => by
          obtain rfl := hnode t' ht' ⟨k', hk'⟩
          obtain rfl := hd t' ht hk'
          exact ⟨le_rfl, le_rfl⟩
      exact le_antisymm hb.2 hb.1
    simp only [groupStress, key]
  -- the interpolated stresses at the node are those of the element
  have hint : t.localElementStress (t.coords.x k, t.coords.y k) a e (t.local wf.omega) (t.local wf.psi)
      (t.local wf.phiS) = ((combined (elStress a e wf t k)).zz, (combined (elStress a e wf t k)).zx,
        (combined (elStress a e wf t k)).zy) := by
    obtain ⟨q1, h1⟩ := exists_interpolates hP fun k => (combined (elStress a e wf t k)).zz
    obtain ⟨q2, h2⟩ := exists_interpolates hP fun k => (combined (elStress a e wf t k)).zx
    obtain ⟨q3, h3⟩ := exists_interpolates hP fun k => (combined (elStress a e wf t k)).zy
    rw [localElementStress_interp hP a e wf _ h1 h2 h3, h1.2 k, h2.2 k, h3.2 k]
  have hin : (t.coords.x k, t.coords.y k) ∈ elemRegion t.coords := node_mem hP.1 k
  dsimp only
  rw [hav, ← hint]
  unfold stressAtPoints at hl
  rw [mapM_ok_forall₂] at hl
  have hlen := hl.length_eq
  obtain ⟨hj1, hj2⟩ := List.getElem?_eq_some_iff.1 hj
  have hr := (List.forall₂_iff_get.1 hl).2 j hj1 (by omega)
  rw [List.getElem?_eq_getElem (by omega)]
  simp only [List.get_eq_getElem, hj2] at hr
  congr 1
  obtain ⟨hnd, hmem⟩ := hq (t.coords.x k, t.coords.y k)
  have hqe : query (t.coords.x k, t.coords.y k) = [te] := by
    have hte' := (hmem te).2 ⟨t, hte, hin⟩
    have hall : ∀ i ∈ query (t.coords.x k, t.coords.y k), i = te := by
      intro i hi
      obtain ⟨t', ht', hpt⟩ := (hmem i).1 hi
      exact huniq i t' ht' hpt
    match hqq : query (t.coords.x k, t.coords.y k), hte', hall, hnd with
    | [i], hte', hall, _ => rw [hall i (by simp)]
    | i :: i' :: ms, _, hall, hnd =>
      rw [hall i (by simp), hall i' (by simp)] at hnd
      simp at hnd
  rw [hqe] at hr
  simp only [stressAtPoint, List.mapM_cons, List.mapM_nil, hte] at hr
  exact (Except.ok.inj hr).symm

/-! ### Non-vacuity -/

/-- A correct search tree. -/
noncomputable def exactQuery {n : ℕ} (els : List (Tri6 n)) (p : ℝ × ℝ) : List ℕ :=
  (List.range els.length).filter fun i => ∃ t, els[i]? = some t ∧ p ∈ elemRegion t.coords

theorem exactQuery_correct {n : ℕ} (els : List (Tri6 n)) : QueryCorrect els (exactQuery els) := by
  intro p
  refine ⟨List.nodup_range.filter _, fun i => ?_⟩
  simp only [exactQuery, List.mem_filter, List.mem_range, decide_eq_true_eq, and_iff_right_iff_imp]
  rintro ⟨t, ht, -⟩
  exact (List.getElem?_eq_some_iff.1 ht).1

/-- If a stress analysis succeeds, so does `get_stress_at_points` with a correct search tree. -/
theorem points_ok {s : Store env.sec.numNodes} {a : Actions} {l} (h : exec (env.stress a) s = (.ok l, s))
    {query : ℝ × ℝ → List ℕ} (hq : QueryCorrect env.sec.elements query) (agg : List ℝ → ℝ)
    (pts : List (ℝ × ℝ)) : ∃ l', exec (env.stressPoints query agg a pts) s = (.ok l', s) := by
  rw [exec_stress] at h
  split_ifs at h with h1 h2
  · simp at h
  · simp at h
  rcases hs : exec (env.stressSetup a) s with ⟨r, s'⟩
  rw [hs] at h
  cases r with
  | error e => simp at h
  | ok p =>
    obtain ⟨e, wf⟩ := p
    have hss : s' = s := (Prod.ext_iff.1 h).2
    subst hss
    unfold Env.stressPoints
    rw [exec_get_bind, if_neg h2]
    have : ∃ l', stressAtPoints env.sec.elements query a e wf agg pts = .ok l' := by
      unfold stressAtPoints
      induction pts with
      | nil => exact ⟨[], rfl⟩
      | cons p pts ih =>
        obtain ⟨l', hl'⟩ := ih
        obtain ⟨ts, hts, -⟩ := mapM_some_of_forall env.sec.elements (query p) fun i hi => by
          obtain ⟨t, ht, -⟩ := ((hq p).2 i).1 hi; exact ⟨t, ht⟩
        have : ∃ r, stressAtPoint env.sec.elements a e wf agg p (query p) = .ok r := by
          unfold stressAtPoint
          simp only [hts]
          match ts with
          | [] => exact ⟨_, rfl⟩
          | [t] => exact ⟨_, rfl⟩
          | t :: t' :: ts => exact ⟨_, rfl⟩
        obtain ⟨r, hr⟩ := this
        exact ⟨r :: l', by rw [List.mapM_cons, hr, hl']; rfl⟩
    obtain ⟨l', hl'⟩ := this
    exact ⟨l', (exec_bind_ok hs).trans (by dsimp only; rw [hl']; rfl)⟩

/-- A case of `C29_points` and `C29_node`: node 1 of the example, at `(2, 0)`, lies in the first element
only; the requests below succeed. -/
example : ∃ s la lb, QueryCorrect (exEnv exSection).sec.elements (exactQuery exSection.elements) ∧
    ((exEnv exSection).stress ⟨0, 5, 0, 0, 0, 2, 3, 4⟩).run.run s = (.ok la, s) ∧
    ((exEnv exSection).stressPoints (exactQuery exSection.elements) npAverage ⟨0, 5, 0, 0, 0, 2, 3, 4⟩
      [(1, 1 / 2), (2, 0), (5, 5)]).run.run s = (.ok lb, s) ∧
    ∃ r, la[0]? = some r ∧ lb[1]? = some (some ((r.comb (1 : Fin 9)).zz, (r.comb (1 : Fin 9)).zx,
      (r.comb (1 : Fin 9)).zy)) := by
  obtain ⟨r, w, hr, hw⟩ := ex_results exSection (by simp)
  have H : HoldsGeom (exEnv exSection).perimeter r (((Store.empty (exEnv exSection).sec.numNodes).set
      (geomValues (exEnv exSection).perimeter r)).setWarp w) :=
    holdsGeom_mono (l := warpValues w) (holdsGeom_set _ r _) (by simp [geomValues, warpValues])
  obtain ⟨la, ha⟩ := stress_ok (exEnv exSection) H ⟨0, 5, 0, 0, 0, 2, 3, 4⟩ fun _ => by
      simp [Store.setWarp, warpValues, assign_cons, assign_nil]
  have hQ := exactQuery_correct exSection.elements
  obtain ⟨lb, hb⟩ := points_ok (exEnv exSection) ha hQ npAverage [(1, 1 / 2), (2, 0), (5, 5)]
  refine ⟨_, la, lb, hQ, ha, hb, ?_⟩
  have hd : DistinctNodes ([exT0] : List (Tri6 9)) := by
    intro (t : Tri6 9) ht
    rw [List.mem_singleton.1 ht]
    intro k l h
    revert h
    fin_cases k <;> fin_cases l <;> simp [exT0]
  have hprop : ∀ t ∈ (exEnv exSection).sec.elements, Proper t.coords := exSection_physical.proper
  have := C29_node (exEnv exSection) hprop _ _ hQ npAverage _ _ lb hb la ha 0
    ⟨⟨0, exConcrete⟩, [exT0]⟩ rfl hd exT0 (List.mem_singleton.2 rfl) 0 rfl 1 ?_ ?_ 1 ?_
  · exact this
  · intro m' t' ht' hpt
    have h01 : m' = 0 ∨ (m' = 1 ∧ t' = exT1) := by
      match m', ht' with
      | 0, _ => exact .inl rfl
      | 1, ht' => exact .inr ⟨rfl, (Option.some.inj ht').symm⟩
      | m + 2, ht' => cases ht'
    rcases h01 with h | ⟨-, rfl⟩
    · exact h
    · exfalso
      rw [← C28_within exT1 (exSection_physical.proper exT1 (List.mem_cons_of_mem _ (List.mem_cons_self ..))).2.ne'] at hpt
      simp [Tri6.pointWithinElement, exT0, exT1, gather, exV] at hpt
      norm_num at hpt
  · intro t' ht' _; exact List.mem_singleton.1 ht'
  · simp [exT0, gather, exV]

end SP
