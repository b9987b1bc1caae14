import Verif.Model.StressPost
import Verif.Spec.StressDict
import Verif.Props.Superpose
import Verif.Props.StressState

/-!
# C67: the stress dictionaries
-/

namespace SP

open Classical Spec

section
variable {n : ℕ}

theorem stressAt_zero (t : Tri6 n) (s : StressEnv) (om ps ph : Fin 6 → ℝ) (gp : GaussPt) :
    t.stressAt noActions s om ps ph gp = ⟨0, 0, 0, 0, 0, 0, 0, 0, 0, 0, 0⟩ := by
  simp [Tri6.stressAt, noActions]

theorem group_zero (els : List (Tri6 n)) (s : StressEnv) (wf : WarpFields n) (i : Fin n) :
    groupStress els noActions s wf i = ⟨0, 0, 0, 0, 0, 0, 0, 0, 0, 0, 0⟩ := by
  have h := groupStress_lin 0 0 els noActions noActions s wf i
  have e : Actions.lin 0 0 noActions noActions = noActions := by simp [Actions.lin, noActions]
  rw [e] at h
  simp only [individual, List.mem_cons, List.not_mem_nil, or_false, forall_eq_or_imp, forall_eq, zero_mul,
    add_zero] at h
  obtain ⟨h1, h2, h3, h4, h5, h6, h7, h8, h9, h10, h11⟩ := h
  exact StressComp.ext h1 h2 h3 h4 h5 h6 h7 h8 h9 h10 h11

/-- Each individual component depends on its own action only. -/
theorem group_depends (els : List (Tri6 n)) (a b : Actions) (s : StressEnv) (wf : WarpFields n) (i : Fin n) :
    (a.n = b.n → (groupStress els a s wf i).zzN = (groupStress els b s wf i).zzN) ∧
    (a.mxx = b.mxx → (groupStress els a s wf i).zzMxx = (groupStress els b s wf i).zzMxx) ∧
    (a.myy = b.myy → (groupStress els a s wf i).zzMyy = (groupStress els b s wf i).zzMyy) ∧
    (a.m11 = b.m11 → (groupStress els a s wf i).zzM11 = (groupStress els b s wf i).zzM11) ∧
    (a.m22 = b.m22 → (groupStress els a s wf i).zzM22 = (groupStress els b s wf i).zzM22) ∧
    (a.mzz = b.mzz → (groupStress els a s wf i).zxMzz = (groupStress els b s wf i).zxMzz ∧
      (groupStress els a s wf i).zyMzz = (groupStress els b s wf i).zyMzz) ∧
    (a.vx = b.vx → (groupStress els a s wf i).zxVx = (groupStress els b s wf i).zxVx ∧
      (groupStress els a s wf i).zyVx = (groupStress els b s wf i).zyVx) ∧
    (a.vy = b.vy → (groupStress els a s wf i).zxVy = (groupStress els b s wf i).zxVy ∧
      (groupStress els a s wf i).zyVy = (groupStress els b s wf i).zyVy) := by
  refine ⟨?_, ?_, ?_, ?_, ?_, ?_, ?_, ?_⟩ <;> intro h <;>
    simp only [groupStress, elStress, Tri6.elementStress, Tri6.stressAt, h, and_self]

/-- The actions of `b` are those of `a` or zero. -/
def PartOf (b a : Actions) : Prop :=
  (b.n = a.n ∨ b.n = 0) ∧ (b.mxx = a.mxx ∨ b.mxx = 0) ∧ (b.myy = a.myy ∨ b.myy = 0) ∧
  (b.m11 = a.m11 ∨ b.m11 = 0) ∧ (b.m22 = a.m22 ∨ b.m22 = 0) ∧ (b.mzz = a.mzz ∨ b.mzz = 0) ∧
  (b.vx = a.vx ∨ b.vx = 0) ∧ (b.vy = a.vy ∨ b.vy = 0)

theorem partial_partOf (a : Actions) : ∀ e ∈ partialEntries, PartOf (e.part a) a := by
  simp [partialEntries, PartOf, onlyBending, onlyTorsion, onlyVx, onlyVy, onlyShear, noActions]

/-- The combined stresses of the parts. -/
theorem part_entry (els : List (Tri6 n)) (m : MatObj) (a : Actions) (s : StressEnv) (wf : WarpFields n) :
    ∀ e ∈ partialEntries, ∃ x,
      (stressDict ⟨m, groupStress els a s wf, fun i => combined (groupStress els a s wf i)⟩).get? e.key = some x ∧
      (stressDict ⟨m, groupStress els (e.part a) s wf,
        fun i => combined (groupStress els (e.part a) s wf i)⟩).get? e.total = some x := by
  have hz := fun b i => group_depends els b noActions s wf i
  simp only [group_zero] at hz
  intro e he
  have hd := fun i => group_depends els (e.part a) a s wf i
  have hz' := fun i => hz (e.part a) i
  simp only [partialEntries, List.mem_cons, List.not_mem_nil, or_false] at he
  rcases he with rfl | rfl | rfl | rfl | rfl | rfl | rfl | rfl | rfl | rfl | rfl | rfl | rfl | rfl | rfl |
    rfl | rfl | rfl
  all_goals
    simp only [onlyBending, onlyTorsion, onlyVx, onlyVy, onlyShear, noActions, forall_const] at hd hz' ⊢
    refine ⟨_, rfl, ?_⟩
    simp only [StressDict.get?, stressDict]
    refine congrArg some (funext fun i => ?_)
    obtain ⟨d1, d2, d3, d4, d5, d6, d7, d8⟩ := hd i
    obtain ⟨z1, z2, z3, z4, z5, z6, z7, z8⟩ := hz' i
    simp only [combined]
    simp [*]

/-- The totals of a dictionary. -/
theorem total_entries (g : GroupStress n) :
    (stressDict g).get? "sig_zz" = some (fun i => (g.comb i).zz) ∧
    (stressDict g).get? "sig_zx" = some (fun i => (g.comb i).zx) ∧
    (stressDict g).get? "sig_zy" = some (fun i => (g.comb i).zy) ∧
    (stressDict g).get? "sig_zxy" = some (fun i => (g.comb i).zxy) ∧
    (stressDict g).get? "sig_11" = some (fun i => (g.comb i).s11) ∧
    (stressDict g).get? "sig_33" = some (fun i => (g.comb i).s33) ∧
    (stressDict g).get? "sig_vm" = some (fun i => (g.comb i).vm) :=
  ⟨rfl, rfl, rfl, rfl, rfl, rfl, rfl⟩

theorem combined_zero : combined ⟨0, 0, 0, 0, 0, 0, 0, 0, 0, 0, 0⟩ = ⟨0, 0, 0, 0, 0, 0, 0, 0, 0, 0, 0, 0, 0, 0⟩ := by
  simp [combined]

theorem entries_zero (m : MatObj) (c : Fin n → StressComp) (i : Fin n)
    (h : c i = ⟨0, 0, 0, 0, 0, 0, 0, 0, 0, 0, 0⟩) :
    ∀ e ∈ (stressDict ⟨m, c, fun i => combined (c i)⟩).entries, e.2 i = 0 := by
  simp [stressDict, h, combined_zero]

end

variable {P : Type} (env : Env P)

theorem stress_groups {s : Store env.sec.numNodes} {a : Actions} {l}
    (h : (env.stress a).run.run s = (.ok l, s)) :
    ∃ e wf, l = stressLoop env.sec.groups a e wf := by
  obtain ⟨e, wf, hl⟩ := stress_data env s
  exact ⟨e, wf, hl a l h⟩

/-- **C67** (1).  After a successful stress analysis `get_stress` returns one dictionary for each material
group, in order, with the name of its material and exactly the documented keys, each once. -/
theorem C67_keys (s : Store env.sec.numNodes) (a : Actions) (l)
    (h : (env.stress a).run.run s = (.ok l, s)) :
    (getStress l).map (·.material) = env.sec.groups.map (·.material.val.name) ∧
    ∀ d ∈ getStress l, d.entries.map Prod.fst = partialEntries.map (·.key) ++ totalKeys ∧
      (d.entries.map Prod.fst).Nodup := by
  obtain ⟨e, wf, rfl⟩ := stress_groups env h
  constructor
  · simp [getStress, stressLoop, stressDict]
  · intro d hd
    obtain ⟨g, -, rfl⟩ := List.mem_map.1 hd
    have hk : (stressDict g).entries.map Prod.fst = partialEntries.map (·.key) ++ totalKeys := rfl
    refine ⟨hk, ?_⟩
    rw [hk]
    decide +kernel

/-- **C67** (2).  The entry "stress in some direction resulting from some of the actions" is, for every
material and every node, the total stress in that direction that the stress analysis reports (from the
same state) if only those actions are applied.  That analysis succeeds as well. -/
theorem C67_parts (s : Store env.sec.numNodes) (a : Actions) (l)
    (h : (env.stress a).run.run s = (.ok l, s)) :
    ∀ e ∈ partialEntries, ∃ l', (env.stress (e.part a)).run.run s = (.ok l', s) ∧
      l'.length = l.length ∧
      ∀ (k : ℕ) (d d' : StressDict env.sec.numNodes), (getStress l)[k]? = some d →
        (getStress l')[k]? = some d' →
        d.material = d'.material ∧ ∃ x, d.get? e.key = some x ∧ d'.get? e.total = some x := by
  intro en hen
  obtain ⟨e, wf, hl⟩ := stress_data env s
  have hen' : ∃ l', exec (env.stress (en.part a)) s = (.ok l', s) := by
    refine stress_enabled env h fun hc => ?_
    obtain ⟨-, -, -, -, -, p6, p7, p8⟩ := partial_partOf a en hen
    grind
  obtain ⟨l', h'⟩ := hen'
  obtain rfl := hl _ _ h
  refine ⟨l', h', ?_⟩
  obtain rfl := hl _ _ h'
  refine ⟨by simp [stressLoop], ?_⟩
  intro k d d' hd hd'
  simp only [getStress, stressLoop, List.map_map, List.getElem?_map, Option.map_eq_some_iff,
    Function.comp] at hd hd'
  obtain ⟨g, hg, rfl⟩ := hd
  obtain ⟨g', hg', rfl⟩ := hd'
  rw [hg] at hg'
  obtain rfl := Option.some.inj hg'
  exact ⟨rfl, part_entry g.elements g.material a e wf en hen⟩

/-- **C67** (3).  The totals of a dictionary belong together: at every node `sig_zxy` is the resultant of
`sig_zx` and `sig_zy`, `sig_11` and `sig_33` are the largest and the smallest principal stress of the stress
tensor with these components, `sig_vm` is its von Mises stress. -/
theorem C67_totals (s : Store env.sec.numNodes) (a : Actions) (l)
    (h : (env.stress a).run.run s = (.ok l, s)) : ∀ d ∈ getStress l, ∃ zz zx zy zxy s1 s3 vm,
      d.get? "sig_zz" = some zz ∧ d.get? "sig_zx" = some zx ∧ d.get? "sig_zy" = some zy ∧
      d.get? "sig_zxy" = some zxy ∧ d.get? "sig_11" = some s1 ∧ d.get? "sig_33" = some s3 ∧
      d.get? "sig_vm" = some vm ∧
      ∀ i, 0 ≤ zxy i ∧ zxy i ^ 2 = zx i ^ 2 + zy i ^ 2 ∧
        IsEigenvalue (beamTensor (zz i) (zx i) (zy i)) (s1 i) ∧
        IsEigenvalue (beamTensor (zz i) (zx i) (zy i)) (s3 i) ∧
        (∀ x, IsEigenvalue (beamTensor (zz i) (zx i) (zy i)) x → s3 i ≤ x ∧ x ≤ s1 i) ∧
        0 ≤ vm i ∧ vm i ^ 2 = vonMisesSq (beamTensor (zz i) (zx i) (zy i)) := by
  obtain ⟨e, wf, rfl⟩ := stress_groups env h
  intro d hd
  obtain ⟨g, hg, rfl⟩ := List.mem_map.1 hd
  obtain ⟨gr, -, rfl⟩ := List.mem_map.1 hg
  obtain ⟨t1, t2, t3, t4, t5, t6, t7⟩ := total_entries (n := env.sec.numNodes)
    ⟨gr.material, groupStress gr.elements a e wf, fun i => combined (groupStress gr.elements a e wf i)⟩
  refine ⟨_, _, _, _, _, _, _, t1, t2, t3, t4, t5, t6, t7, fun i => ?_⟩
  obtain ⟨p1, p2, p3, -, -, -, -, p8, p9, -, p11, -, -⟩ :=
    C25_principal (groupStress gr.elements a e wf i)
  exact ⟨Real.sqrt_nonneg _, p11, p1, p2, p3, p8, p9⟩

/-- **C67** (4).  At a node where the material does not occur all entries of its dictionary are zero (in
a section built from a geometry elements have six different nodes). -/
theorem C67_zero (s : Store env.sec.numNodes) (a : Actions) (l)
    (h : (env.stress a).run.run s = (.ok l, s)) (k : ℕ) (g : MaterialGroup env.sec.numNodes)
    (hg : env.sec.groups[k]? = some g) (hd : DistinctNodes g.elements) (i : Fin env.sec.numNodes)
    (hi : ¬ ∃ t ∈ g.elements, NodeOf i t) :
    ∃ d, (getStress l)[k]? = some d ∧ ∀ e ∈ d.entries, e.2 i = 0 := by
  obtain ⟨e, wf, rfl⟩ := stress_groups env h
  refine ⟨_, by rw [getStress, stressLoop, List.map_map, List.getElem?_map, hg]; rfl, ?_⟩
  refine entries_zero g.material (groupStress g.elements a e wf) i ?_
  obtain ⟨r, hr, -, hz⟩ := C26_average env.sec.groups a e wf k g hg hd
  rw [stressLoop, List.getElem?_map, hg] at hr
  obtain rfl := Option.some.inj hr
  have hz := fun f hf => (hz f hf i).2 hi
  simp only [individual, List.mem_cons, List.not_mem_nil, or_false, forall_eq_or_imp, forall_eq] at hz
  obtain ⟨h1, h2, h3, h4, h5, h6, h7, h8, h9, h10, h11⟩ := hz
  exact StressComp.ext h1 h2 h3 h4 h5 h6 h7 h8 h9 h10 h11

/-- The hypotheses are met: on the composite example, after the geometric and warping analyses, a stress
analysis with all actions succeeds and gives two dictionaries. -/
example : ∃ s l, ((exEnv exSection).stress ⟨1, 5, 6, 7, 8, 2, 3, 4⟩).run.run s = (.ok l, s) ∧
    (getStress l).length = 2 := by
  obtain ⟨r, w, hr, hw⟩ := ex_results exSection (by simp)
  have H : HoldsGeom (exEnv exSection).perimeter r (((Store.empty (exEnv exSection).sec.numNodes).set
      (geomValues (exEnv exSection).perimeter r)).setWarp w) :=
    holdsGeom_mono (l := warpValues w) (holdsGeom_set _ r _) (by simp [geomValues, warpValues])
  obtain ⟨l, hl⟩ := stress_ok (exEnv exSection) H ⟨1, 5, 6, 7, 8, 2, 3, 4⟩ fun _ => by
    simp [Store.setWarp, warpValues, assign_cons, assign_nil]
  refine ⟨_, l, hl, ?_⟩
  have := congrArg List.length (C67_keys (exEnv exSection) _ _ l hl).1
  rw [List.length_map, List.length_map] at this
  exact this

end SP
