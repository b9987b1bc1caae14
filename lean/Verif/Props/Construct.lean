import Verif.Props.Example

/-!
# C57 (mid-node order), C31 (material groups), C46 (construction checks)
-/

namespace SP

open Spec

/-! ### C57 -/

/-- **C57**: for every mesh in the mesher's order, the `k`-th element of the section has the corners of
the `k`-th triangle, its nodes 3, 4, 5 are the mesher's nodes 5, 3, 4, its coordinates are those of
its nodes, the nodes 3, 4, 5 are the midpoints of the edges 01, 12, 02 (`Straight`), and it keeps the
counter-clockwise orientation. -/
theorem C57_midnodes {g : GeomIn} {s : Section} {m : MeshData} (h : Section.init g = .ok s)
    (hm : g.mesh = some m) :
    s.elements.map (fun t => (List.finRange 6).map fun i => (t.nodeIds i).val)
      = m.triangles.map (fun r => [(r 0).val, (r 1).val, (r 2).val, (r 5).val, (r 3).val, (r 4).val])
    ∧ (∀ t ∈ s.elements, ∀ i, (t.coords.x i, t.coords.y i) = s.meshNodes (t.nodeIds i))
    ∧ (GoodMesh m → ∀ t ∈ s.elements, Straight t.coords ∧ 0 < elemDet t.coords) := by
  refine ⟨?_, ?_, fun hg t ht => (init_good h hm hg).proper t ht⟩
  · obtain ⟨m', mx, hm', -, -, els, hf, rfl⟩ := init_ok h
    rw [hm] at hm'
    cases hm'
    have key : ∀ (k : ℕ) (l : List (Fin 6 → Fin m.numNodes)) (es : List (Tri6 m.numNodes × MatObj)),
        List.Forall₂ (fun p e => mkElement g.materials m p.1 p.2 = .ok e) (l.zipIdx k) es →
        (es.map Prod.fst).map (fun t => (List.finRange 6).map fun i => (t.nodeIds i).val)
          = l.map (fun r => [(r 0).val, (r 1).val, (r 2).val, (r 5).val, (r 3).val, (r 4).val]) := by
      intro k l
      induction l generalizing k with
      | nil => intro es h; simp at h; subst h; rfl
      | cons r l ih =>
        intro es h
        rw [List.zipIdx_cons] at h
        cases h with
        | cons h1 h2 =>
          obtain ⟨a, -, -, h3⟩ := mkElement_ok h1
          simp only [List.map_cons, ih _ _ h2, h3, List.cons.injEq, and_true]
          simp [reorder, List.finRange_succ]
    exact key 0 _ _ hf
  · obtain ⟨m', mx, hm', -, -, els, hf, rfl⟩ := init_ok h
    intro t ht i
    simp only [List.mem_map] at ht
    obtain ⟨e, he, rfl⟩ := ht
    obtain ⟨p, hp, hk⟩ := forall₂_mem_right hf he
    obtain ⟨a, -, -, h3⟩ := mkElement_ok hk
    rw [h3]
    rfl

/-- Non-vacuity: the example section satisfies every hypothesis of `C57_midnodes`. -/
example : ∃ s, Section.init exGeom = .ok s ∧ exGeom.mesh = some exMesh ∧ GoodMesh exMesh ∧
    s.elements.length = 2 := ⟨exSection, exSection_init, rfl, exMesh_good, rfl⟩

/-! ### C46 (construction side) -/

/-- **C46** (rejection by the section): `Section` raises `ValueError` for a geometry without mesh, and
for every mesh whose number of regions (largest attribute plus one) differs from the number of
materials; otherwise, if the attribute list has an entry for every triangle, construction succeeds. -/
theorem C46_section_checks (g : GeomIn) :
    (g.mesh = none → Section.init g = .error .valueError) ∧
    (∀ m, g.mesh = some m →
      (∀ mx, m.attributes.max? = some mx → g.materials.length ≠ mx + 1 →
        Section.init g = .error .valueError) ∧
      (∀ mx, m.attributes.max? = some mx → g.materials.length = mx + 1 →
        m.triangles.length ≤ m.attributes.length → ∃ s, Section.init g = .ok s)) := by
  refine ⟨fun h => by simp [Section.init, h], fun m hm => ⟨fun mx hx hl => ?_, fun mx hx hl ha => ?_⟩⟩
  · simp [Section.init, hm, hx, hl]
  · have hall : ∀ a ∈ m.attributes, a ≤ mx := fun a h => List.max?_eq_some_iff.1 hx |>.2 a h
    have key : ∀ (k : ℕ) (l : List (Fin 6 → Fin m.numNodes)), k + l.length ≤ m.attributes.length →
        ∃ es, (l.zipIdx k).mapM (fun p => mkElement g.materials m p.1 p.2) = .ok es := by
      intro k l
      induction l generalizing k with
      | nil => intro _; exact ⟨[], rfl⟩
      | cons r l ih =>
        intro hk
        rw [List.length_cons] at hk
        obtain ⟨es, he⟩ := ih (k + 1) (by omega)
        have hk' : k < m.attributes.length := by omega
        have hk2 : m.attributes[k] < g.materials.length := by
          have := hall _ (List.getElem_mem hk'); omega
        refine ⟨(⟨k, gather m.vertices (reorder r), reorder r, (g.materials[m.attributes[k]]).val⟩,
          g.materials[m.attributes[k]]) :: es, ?_⟩
        rw [List.zipIdx_cons, mapM_cons_ok]
        refine ⟨_, _, ?_, he, rfl⟩
        simp only [mkElement, List.getElem?_eq_getElem hk', List.getElem?_eq_getElem hk2]
    obtain ⟨es, he⟩ := key 0 m.triangles (by omega)
    simp only [Section.init, hm, hx, hl]
    simp only [ne_eq, not_true_eq_false, if_false, he]
    exact ⟨_, rfl⟩

/-- Non-vacuity of both cases. -/
example : (∃ s, Section.init exGeom = .ok s) ∧
    Section.init ⟨[⟨0, exSteel⟩], some exMesh⟩ = .error .valueError := by
  refine ⟨⟨_, exSection_init⟩, ((C46_section_checks _).2 exMesh rfl).1 1 ?_ ?_⟩
  · simp [exMesh, List.max?]
  · simp

/-! ### C31 -/

theorem addToGroup_materials {n : ℕ} (t : Tri6 n) (mat : MatObj) (gs : List (MaterialGroup n)) :
    (addToGroup t mat gs).map (·.material) = gs.map (·.material) := by
  induction gs with
  | nil => rfl
  | cons g gs ih => simp only [addToGroup]; split <;> simp [ih]

theorem addToGroup_perm {n : ℕ} (t : Tri6 n) (mat : MatObj) (gs : List (MaterialGroup n))
    (h : ∃ g ∈ gs, g.material.addr = mat.addr) :
    ((addToGroup t mat gs).flatMap (·.elements)).Perm (t :: gs.flatMap (·.elements)) := by
  induction gs with
  | nil => obtain ⟨g, hg, _⟩ := h; cases hg
  | cons g gs ih =>
    simp only [addToGroup]
    split
    · simp only [List.flatMap_cons, List.append_assoc, List.singleton_append]
      exact List.perm_middle
    · rename_i hne
      have : ∃ g ∈ gs, g.material.addr = mat.addr := by
        obtain ⟨g', hg', he⟩ := h
        rcases List.mem_cons.1 hg' with rfl | hg'
        · exact absurd he.symm hne
        · exact ⟨g', hg', he⟩
      simp only [List.flatMap_cons]
      exact ((ih this).append_left _).trans List.perm_middle

theorem addToGroup_mem {n : ℕ} (t : Tri6 n) (mat : MatObj) (gs : List (MaterialGroup n))
    {g : MaterialGroup n} (hg : g ∈ addToGroup t mat gs) {u : Tri6 n} (hu : u ∈ g.elements) :
    (u = t ∧ g.material.addr = mat.addr) ∨ ∃ g' ∈ gs, g'.material = g.material ∧ u ∈ g'.elements := by
  induction gs with
  | nil => cases hg
  | cons g0 gs ih =>
    simp only [addToGroup] at hg
    split at hg
    · rename_i he
      rcases List.mem_cons.1 hg with rfl | hg
      · rcases List.mem_append.1 hu with hu | hu
        · exact .inr ⟨g0, List.mem_cons_self .., rfl, hu⟩
        · rw [List.mem_singleton] at hu
          exact .inl ⟨hu, he.symm⟩
      · exact .inr ⟨g, List.mem_cons_of_mem _ hg, rfl, hu⟩
    · rcases List.mem_cons.1 hg with rfl | hg
      · exact .inr ⟨g, List.mem_cons_self .., rfl, hu⟩
      · rcases ih hg with h | ⟨g', hg', h1, h2⟩
        · exact .inl h
        · exact .inr ⟨g', List.mem_cons_of_mem _ hg', h1, h2⟩

theorem groupMaterials_sub {mats : List MatObj} {r : MatObj} (h : r ∈ groupMaterials mats) :
    r ∈ mats := by
  simp only [groupMaterials, List.mem_map, List.mem_filter] at h
  obtain ⟨p, ⟨hp, -⟩, rfl⟩ := h
  exact List.fst_mem_of_mem_zipIdx hp

theorem groupMaterials_complete {mats : List MatObj} {m : MatObj} (h : m ∈ mats) :
    ∃ r ∈ groupMaterials mats, r.val = m.val := by
  classical
  have hex : ∃ k, ∃ hk : k < mats.length, (mats[k]).val = m.val := by
    obtain ⟨k, hk, rfl⟩ := List.getElem_of_mem h
    exact ⟨k, hk, rfl⟩
  let k := Nat.find hex
  obtain ⟨hk, hv⟩ := Nat.find_spec hex
  refine ⟨mats[k], ?_, hv⟩
  simp only [groupMaterials, List.mem_map, List.mem_filter, decide_eq_true_eq]
  refine ⟨(mats[k], k), ⟨?_, .inr ?_⟩, rfl⟩
  · rw [List.mk_mem_zipIdx_iff_getElem?]; exact List.getElem?_eq_getElem hk
  · intro q hq
    obtain ⟨i, hi, rfl⟩ := List.getElem_of_mem hq
    rw [List.length_take] at hi
    rw [List.getElem_take]
    intro he
    exact Nat.find_min hex (m := i) (by simp only [lt_inf_iff] at hi; exact hi.1)
      ⟨by simp only [lt_inf_iff] at hi; exact hi.2, he.trans hv⟩

theorem groupMaterials_pairwise (mats : List MatObj) :
    (groupMaterials mats).Pairwise fun a b => a.val ≠ b.val := by
  unfold groupMaterials
  rw [List.pairwise_map]
  refine List.Pairwise.imp_of_mem (R := fun a b => a.2 < b.2) ?_ ?_
  · intro a b ha hb hab
    simp only [List.mem_filter, decide_eq_true_eq] at ha hb
    rcases hb.2 with h0 | hb2
    · omega
    · refine hb2 a.1 ?_
      have := List.mk_mem_zipIdx_iff_getElem?.1 ha.1
      have hlt : a.2 < mats.length := (List.getElem?_eq_some_iff.1 this).1
      rw [List.mem_take_iff_getElem]
      refine ⟨a.2, by omega, (List.getElem?_eq_some_iff.1 this).2⟩
  · refine List.Pairwise.filter _ ?_
    rw [List.pairwise_iff_getElem]
    intro i j hi hj hij
    simp only [List.getElem_zipIdx]
    omega

/-- "Every element belongs to exactly one group, and the material of the group is the element's":
the groups have pairwise different materials, their element lists together are a rearrangement of the
section's element list, and each group only contains elements of its material. -/
structure Grouped (s : Section) : Prop where
  distinct : s.groups.Pairwise fun a b => a.material.val ≠ b.material.val
  partition : (s.groups.flatMap (·.elements)).Perm s.elements
  material : ∀ g ∈ s.groups, ∀ t ∈ g.elements, t.material = g.material.val

/-- **C31** for material lists in which equal materials are the same object (the way the library's
own examples build sections: one `Material` object per material).  The hypothesis cannot be dropped,
see `C31_violated`. -/
theorem C31_groups_partial {g : GeomIn} {s : Section} (h : Section.init g = .ok s)
    (hobj : ∀ a ∈ g.materials, ∀ b ∈ g.materials, a.addr = b.addr → a = b)
    (halias : ∀ a ∈ g.materials, ∀ b ∈ g.materials, a.val = b.val → a.addr = b.addr) :
    Grouped s := by
  obtain ⟨m, mx, hm, -, -, els, hf, rfl⟩ := init_ok h
  have hmat : ∀ e ∈ els, e.2 ∈ g.materials ∧ e.1.material = e.2.val := by
    intro e he
    obtain ⟨p, hp, hk⟩ := forall₂_mem_right hf he
    obtain ⟨a, -, h2, h3⟩ := mkElement_ok hk
    exact ⟨List.mem_of_getElem? h2, by rw [h3]⟩
  have hmats : ∀ (es : List (Tri6 m.numNodes × MatObj)) (gs : List (MaterialGroup m.numNodes)),
      (es.foldl (fun gs p => addToGroup p.1 p.2 gs) gs).map (·.material) = gs.map (·.material) := by
    intro es
    induction es with
    | nil => intro gs; rfl
    | cons e es ih => intro gs; rw [List.foldl_cons, ih, addToGroup_materials]
  have h0 : (groups0 g.materials m.numNodes).map (·.material) = groupMaterials g.materials := by
    simp [groups0, Function.comp_def]
  refine ⟨?_, ?_, ?_⟩
  · have h1 := groupMaterials_pairwise g.materials
    rw [← h0, ← hmats els] at h1
    rwa [List.pairwise_map] at h1
  · have key : ∀ (es : List (Tri6 m.numNodes × MatObj)), (∀ e ∈ es, e ∈ els) →
        ∀ gs : List (MaterialGroup m.numNodes),
        gs.map (·.material) = groupMaterials g.materials →
        ((es.foldl (fun gs p => addToGroup p.1 p.2 gs) gs).flatMap (·.elements)).Perm
          (es.map Prod.fst ++ gs.flatMap (·.elements)) := by
      intro es
      induction es with
      | nil => intro _ gs _; exact List.Perm.refl _
      | cons e es ih =>
        intro hsub gs hgs
        rw [List.foldl_cons]
        have h1 := ih (fun x hx => hsub x (List.mem_cons_of_mem _ hx)) (addToGroup e.1 e.2 gs)
          (by rw [addToGroup_materials, hgs])
        obtain ⟨he1, -⟩ := hmat e (hsub e (List.mem_cons_self ..))
        obtain ⟨r, hr, hrv⟩ := groupMaterials_complete he1
        have : ∃ g' ∈ gs, g'.material.addr = e.2.addr := by
          rw [← hgs, List.mem_map] at hr
          obtain ⟨g', hg', rfl⟩ := hr
          refine ⟨g', hg', halias _ ?_ _ he1 hrv⟩
          apply groupMaterials_sub
          rw [← hgs]
          exact List.mem_map_of_mem hg'
        refine h1.trans ?_
        refine ((addToGroup_perm e.1 e.2 gs this).append_left _).trans ?_
        simp only [List.map_cons, List.cons_append]
        exact List.perm_middle
    have := key els (fun _ h => h) _ h0
    have hnil : (groups0 g.materials m.numNodes).flatMap (·.elements) = [] := by
      rw [List.flatMap_eq_nil_iff]
      intro x hx
      simp only [groups0, List.mem_map] at hx
      obtain ⟨_, _, rfl⟩ := hx
      rfl
    rwa [hnil, List.append_nil] at this
  · have key : ∀ (es : List (Tri6 m.numNodes × MatObj)), (∀ e ∈ es, e ∈ els) →
        ∀ gs : List (MaterialGroup m.numNodes),
        gs.map (·.material) = groupMaterials g.materials →
        (∀ g' ∈ gs, ∀ t ∈ g'.elements, t.material = g'.material.val) →
        ∀ g' ∈ es.foldl (fun gs p => addToGroup p.1 p.2 gs) gs,
          ∀ t ∈ g'.elements, t.material = g'.material.val := by
      intro es
      induction es with
      | nil => intro _ gs _ h; exact h
      | cons e es ih =>
        intro hsub gs hgs hinv
        rw [List.foldl_cons]
        refine ih (fun x hx => hsub x (List.mem_cons_of_mem _ hx)) _
          (by rw [addToGroup_materials, hgs]) ?_
        intro g' hg' t ht
        rcases addToGroup_mem e.1 e.2 gs hg' ht with ⟨rfl, ha⟩ | ⟨g2, hg2, h1, h2⟩
        · obtain ⟨he1, he2⟩ := hmat e (hsub e (List.mem_cons_self ..))
          have hin : g'.material ∈ g.materials := by
            apply groupMaterials_sub
            rw [← hgs, ← addToGroup_materials e.1 e.2 gs]
            exact List.mem_map_of_mem hg'
          rw [he2, hobj _ hin _ he1 ha]
        · rw [← h1]; exact hinv g2 hg2 t h2
    refine key els (fun _ h => h) _ h0 ?_
    intro g' hg' t ht
    simp only [groups0, List.mem_map] at hg'
    obtain ⟨_, _, rfl⟩ := hg'
    cases ht

/-- Two equal but distinct material objects on the example mesh. -/
noncomputable def exGeomDup : GeomIn := ⟨[⟨0, exSteel⟩, ⟨1, exSteel⟩], some exMesh⟩

/-- **C31** is violated by the code when two regions carry equal but distinct `Material` objects
(line 131 compares with `==`, line 161 with `is`): the section is constructed without error, but its
second element belongs to no group. -/
theorem C31_violated : ∃ (g : GeomIn) (s : Section) (m : MeshData), g.mesh = some m ∧ GoodMesh m ∧
    Section.init g = .ok s ∧ s.elements.length = 2 ∧
    (s.groups.flatMap (·.elements)).length = 1 ∧ ¬ Grouped s := by
  have hmx : exMesh.attributes.max? = some 1 := by simp [exMesh, List.max?]
  have h0 : mkElement exGeomDup.materials exMesh exR0 0
      = .ok (⟨0, gather exV (reorder exR0), reorder exR0, exSteel⟩, ⟨0, exSteel⟩) := by
    simp [mkElement, exMesh, exGeomDup]
  have h1 : mkElement exGeomDup.materials exMesh exR1 1
      = .ok (⟨1, gather exV (reorder exR1), reorder exR1, exSteel⟩, ⟨1, exSteel⟩) := by
    simp [mkElement, exMesh, exGeomDup]
  have hM : exMesh.triangles.zipIdx.mapM (fun p => mkElement exGeomDup.materials exMesh p.1 p.2)
      = .ok [(⟨0, gather exV (reorder exR0), reorder exR0, exSteel⟩, ⟨0, exSteel⟩),
        (⟨1, gather exV (reorder exR1), reorder exR1, exSteel⟩, ⟨1, exSteel⟩)] := by
    rw [mapM_ok_forall₂]
    exact .cons h0 (.cons h1 .nil)
  have hl : exGeomDup.materials.length = 1 + 1 := rfl
  have hg : groupMaterials exGeomDup.materials = [⟨0, exSteel⟩] := by
    simp [groupMaterials, exGeomDup, List.zipIdx]
  let t0 : Tri6 9 := ⟨0, gather exV (reorder exR0), reorder exR0, exSteel⟩
  let t1 : Tri6 9 := ⟨1, gather exV (reorder exR1), reorder exR1, exSteel⟩
  refine ⟨exGeomDup, ⟨9, exV, exGeomDup.materials, [t0, t1], [⟨⟨0, exSteel⟩, [t0]⟩]⟩, exMesh, rfl,
    exMesh_good, ?_, ?_⟩
  · unfold Section.init
    simp only [show exGeomDup.mesh = some exMesh from rfl, hmx, hl, ne_eq, not_true_eq_false,
      if_false, hM, hg]
    rfl
  · refine ⟨rfl, rfl, ?_⟩
    intro h
    have := h.partition.length_eq
    simp at this

/-- Non-vacuity of `C31_groups_partial`: two genuinely different materials. -/
example : Grouped exSection := by
  refine C31_groups_partial exSection_init ?_ ?_ <;>
  · intro a ha b hb h
    simp only [exGeom, List.mem_cons, List.not_mem_nil, or_false] at ha hb
    rcases ha with rfl | rfl <;> rcases hb with rfl | rfl <;>
      first
      | rfl
      | (simp at h; done)
      | (exact absurd h exConcrete_ne)
      | (exact absurd h.symm exConcrete_ne)

end SP
