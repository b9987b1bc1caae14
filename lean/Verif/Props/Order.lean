import Verif.Props.Transform
import Verif.Props.Construct

/-!
# C14 (modulus scaling) and C15 (order independence)
-/

namespace SP

open Spec

/-! ### C15: the analysis does not depend on numbering and order -/

/-- The second mesh is the first one with nodes renumbered by `σ` and triangles (with their
attributes) listed in another order. -/
structure Renumbered (m m' : MeshData) (σ : Fin m.numNodes ≃ Fin m'.numNodes) : Prop where
  vertices : ∀ i, m'.vertices (σ i) = m.vertices i
  len : m.attributes.length = m.triangles.length
  len' : m'.attributes.length = m'.triangles.length
  triangles : (m'.triangles.zip m'.attributes).Perm
    ((m.triangles.zip m.attributes).map fun p => (fun k => σ (p.1 k), p.2))

/-- Elements seen through their coordinates and material objects. -/
def elemData {n : ℕ} (els : List (Tri6 n × MatObj)) : List (Coords × MatObj) :=
  els.map fun e => (e.1.coords, e.2)

theorem elemData_eq {mats : List MatObj} {m : MeshData} {els : List (Tri6 m.numNodes × MatObj)}
    (hf : List.Forall₂ (fun p e => mkElement mats m p.1 p.2 = .ok e) m.triangles.zipIdx els) :
    (elemData els).map (fun q => (q.1, some q.2))
      = (m.triangles.zip m.attributes).map
          (fun p => (gather m.vertices (reorder p.1), mats[p.2]?)) ∧
    ∀ e ∈ els, e.1.material = e.2.val := by
  have key : ∀ (l : List (Fin 6 → Fin m.numNodes)) (k : ℕ) (es : List (Tri6 m.numNodes × MatObj)),
      List.Forall₂ (fun p e => mkElement mats m p.1 p.2 = .ok e) (l.zipIdx k) es →
      (elemData es).map (fun q => (q.1, some q.2))
        = (l.zip (m.attributes.drop k)).map
            (fun p => (gather m.vertices (reorder p.1), mats[p.2]?)) ∧
      ∀ e ∈ es, e.1.material = e.2.val := by
    intro l
    induction l with
    | nil => intro k es h; simp at h; subst h; simp [elemData]
    | cons r l ih =>
      intro k es h
      rw [List.zipIdx_cons] at h
      cases h with
      | cons h1 h2 =>
        obtain ⟨a, ha, hm, h3⟩ := mkElement_ok h1
        obtain ⟨i1, i2⟩ := ih _ _ h2
        obtain ⟨hk, hka⟩ := List.getElem?_eq_some_iff.1 ha
        rw [List.drop_eq_getElem_cons hk, hka]
        refine ⟨?_, ?_⟩
        · simp only [elemData, List.map_cons, List.zip_cons_cons, List.cons.injEq] at i1 ⊢
          refine ⟨?_, i1⟩
          rw [hm, h3]
        · intro e he
          rcases List.mem_cons.1 he with rfl | he
          · rw [h3]
          · exact i2 e he
  simpa using key m.triangles 0 els hf

/-- Groups seen through coordinates. -/
def groupData {n : ℕ} (gs : List (MaterialGroup n)) : List (MatObj × List Coords) :=
  gs.map fun g => (g.material, g.elements.map Tri6.coords)

/-- `addToGroup` on group data. -/
def addData (c : Coords) (mat : MatObj) : List (MatObj × List Coords) → List (MatObj × List Coords)
  | [] => []
  | g :: gs => if mat.addr = g.1.addr then (g.1, g.2 ++ [c]) :: gs else g :: addData c mat gs

theorem groupData_add {n : ℕ} (t : Tri6 n) (mat : MatObj) (gs : List (MaterialGroup n)) :
    groupData (addToGroup t mat gs) = addData t.coords mat (groupData gs) := by
  induction gs with
  | nil => rfl
  | cons g gs ih =>
    simp only [addToGroup, groupData, List.map_cons, addData] at ih ⊢
    split
    · simp
    · simp [ih]

theorem groupData_fold {n : ℕ} (els : List (Tri6 n × MatObj)) (gs : List (MaterialGroup n)) :
    groupData (els.foldl (fun gs p => addToGroup p.1 p.2 gs) gs)
      = (elemData els).foldl (fun gs p => addData p.1 p.2 gs) (groupData gs) := by
  induction els generalizing gs with
  | nil => rfl
  | cons e els ih =>
    rw [List.foldl_cons, ih, groupData_add]
    rfl

/-- Same groups up to the order of the elements. -/
def SameData (gs gs' : List (MatObj × List Coords)) : Prop :=
  List.Forall₂ (fun a b => a.1 = b.1 ∧ a.2.Perm b.2) gs gs'

theorem SameData.refl (gs) : SameData gs gs := by
  induction gs with
  | nil => exact .nil
  | cons g gs ih => exact .cons ⟨rfl, .refl _⟩ ih

theorem SameData.trans {a b c} (h : SameData a b) (h' : SameData b c) : SameData a c := by
  induction h generalizing c with
  | nil => cases h'; exact .nil
  | cons h1 _ ih =>
    cases h' with
    | cons k1 k2 => exact .cons ⟨h1.1.trans k1.1, h1.2.trans k1.2⟩ (ih k2)

theorem SameData.add {a b} (h : SameData a b) (c : Coords) (m : MatObj) :
    SameData (addData c m a) (addData c m b) := by
  induction h with
  | nil => exact .nil
  | cons h1 h2 ih =>
    simp only [addData]
    rw [h1.1]
    split
    · exact .cons ⟨rfl, h1.2.append_right _⟩ h2
    · exact .cons h1 ih

theorem SameData.swap (c c' : Coords) (m m' : MatObj) (gs) :
    SameData (addData c m (addData c' m' gs)) (addData c' m' (addData c m gs)) := by
  induction gs with
  | nil => exact .nil
  | cons g gs ih =>
    by_cases h : m.addr = g.1.addr <;> by_cases h' : m'.addr = g.1.addr
    · simp only [addData, h, h', if_true]
      refine .cons ⟨rfl, ?_⟩ (SameData.refl _)
      simp only [List.append_assoc, List.singleton_append]
      exact (List.Perm.swap _ _ _).append_left _
    · simp only [addData, h, h', if_true, if_false]
      exact .refl _
    · simp only [addData, h, h', if_true, if_false]
      exact .refl _
    · simp only [addData, h, h', if_false]
      exact .cons ⟨rfl, .refl _⟩ ih

theorem SameData.fold_congr (l : List (Coords × MatObj)) {a b} (h : SameData a b) :
    SameData (l.foldl (fun gs p => addData p.1 p.2 gs) a) (l.foldl (fun gs p => addData p.1 p.2 gs) b) := by
  induction l generalizing a b with
  | nil => exact h
  | cons p l ih => exact ih (h.add _ _)

theorem SameData.fold {l l' : List (Coords × MatObj)} (hp : l.Perm l') (gs) :
    SameData (l.foldl (fun gs p => addData p.1 p.2 gs) gs)
      (l'.foldl (fun gs p => addData p.1 p.2 gs) gs) := by
  induction hp generalizing gs with
  | nil => exact .refl _
  | cons x _ ih => exact ih _
  | swap x y l =>
    simp only [List.foldl_cons]
    exact SameData.fold_congr l (SameData.swap _ _ _ _ _)
  | trans _ _ ih1 ih2 => exact (ih1 gs).trans (ih2 gs)

theorem yieldIndex_iff (pts : List (Material × (ℝ × ℝ))) (sig : Material → ℝ × ℝ → ℝ) :
    yieldIndex pts sig = pts.foldl (fun acc q => max acc |sig q.1 q.2 / q.1.yieldStrength|) 0 := rfl

theorem foldl_max_congr {α : Type*} (f : α → ℝ) {l l' : List α} (h : ∀ q, q ∈ l ↔ q ∈ l') (a : ℝ) :
    l.foldl (fun acc q => max acc (f q)) a = l'.foldl (fun acc q => max acc (f q)) a := by
  obtain ⟨h1, h2, h3⟩ := foldl_max_spec f l a
  obtain ⟨k1, k2, k3⟩ := foldl_max_spec f l' a
  apply le_antisymm
  · rcases h3 with h3 | ⟨q, hq, h3⟩
    · rw [h3]; exact k1
    · rw [h3]; exact k2 q ((h q).1 hq)
  · rcases k3 with k3 | ⟨q, hq, k3⟩
    · rw [k3]; exact h1
    · rw [k3]; exact h2 q ((h q).2 hq)

theorem mem_yieldPoints_data {n : ℕ} {gs : List (MaterialGroup n)} {q : Material × (ℝ × ℝ)} :
    q ∈ yieldPoints gs ↔ ∃ g ∈ groupData gs, ∃ c ∈ g.2, ∃ i, q = (g.1.val, (c.x i, c.y i)) := by
  rw [mem_yieldPoints]
  simp only [groupData, List.mem_map]
  constructor
  · rintro ⟨g, hg, t, ht, i, rfl⟩
    exact ⟨_, ⟨g, hg, rfl⟩, _, List.mem_map.2 ⟨t, ht, rfl⟩, i, rfl⟩
  · rintro ⟨_, ⟨g, hg, rfl⟩, c, hc, i, rfl⟩
    obtain ⟨t, ht, rfl⟩ := List.mem_map.1 hc
    exact ⟨g, hg, t, ht, i, rfl⟩

theorem SameData.mem {a b} (h : SameData a b) {g} (hg : g ∈ a) :
    ∃ g' ∈ b, g.1 = g'.1 ∧ g.2.Perm g'.2 := by
  induction h with
  | nil => cases hg
  | cons h1 _ ih =>
    rcases List.mem_cons.1 hg with rfl | hg
    · exact ⟨_, List.mem_cons_self .., h1⟩
    · obtain ⟨g', h', e⟩ := ih hg
      exact ⟨g', List.mem_cons_of_mem _ h', e⟩

theorem SameData.symm {a b} (h : SameData a b) : SameData b a := by
  induction h with
  | nil => exact .nil
  | cons h1 _ ih => exact .cons ⟨h1.1.symm, h1.2.symm⟩ ih

theorem runMax_congr {p q : ℝ} {l l' : List ℝ} (h : ∀ x, x ∈ p :: l ↔ x ∈ q :: l') :
    runMax p l = runMax q l' := by
  have h1 := runMax_isGreatest p l
  have h2 := runMax_isGreatest q l'
  simp only [h] at h1
  exact h1.unique h2

theorem runMin_congr {p q : ℝ} {l l' : List ℝ} (h : ∀ x, x ∈ p :: l ↔ x ∈ q :: l') :
    runMin p l = runMin q l' := by
  have h1 := runMin_isLeast p l
  have h2 := runMin_isLeast q l'
  simp only [h] at h1
  exact h1.unique h2

theorem centroidalProps_congr (s : GeomSums) {l l' : List (ℝ × ℝ)} (h : l.Perm l') :
    centroidalProps s l = centroidalProps s l' := by
  cases l with
  | nil => rw [List.nil_perm.1 h]
  | cons p ps =>
    cases l' with
    | nil => exact absurd h.length_eq (by simp)
    | cons q qs =>
      have key : ∀ (f : ℝ × ℝ → ℝ) (x : ℝ), x ∈ f p :: ps.map f ↔ x ∈ f q :: qs.map f := by
        intro f x
        rw [← List.map_cons, ← List.map_cons]
        exact (h.map f).mem_iff
      simp only [centroidalProps]
      rw [runMax_congr (key Prod.fst), runMin_congr (key Prod.fst), runMax_congr (key Prod.snd),
        runMin_congr (key Prod.snd)]
      rw [runMax_congr (key fun q => (principalCoordinate (phiOf s.ixxC s.iyyC s.ixyC) (q.1 - s.cx)
          (q.2 - s.cy)).1),
        runMin_congr (key fun q => (principalCoordinate (phiOf s.ixxC s.iyyC s.ixyC) (q.1 - s.cx)
          (q.2 - s.cy)).1),
        runMax_congr (key fun q => (principalCoordinate (phiOf s.ixxC s.iyyC s.ixyC) (q.1 - s.cx)
          (q.2 - s.cy)).2),
        runMin_congr (key fun q => (principalCoordinate (phiOf s.ixxC s.iyyC s.ixyC) (q.1 - s.cx)
          (q.2 - s.cy)).2)]

/-- The element sums depend on coordinates and materials only, in any order. -/
theorem geomSums_congr {n n' : ℕ} {els : List (Tri6 n)} {els' : List (Tri6 n')}
    (h : (els.map fun t => (t.coords, t.material)).Perm (els'.map fun t => (t.coords, t.material))) :
    geomSums els = geomSums els' := by
  have fac : ∀ (f : ∀ {k : ℕ}, Tri6 k → ℝ)
      (hf : ∀ {k k' : ℕ} (t : Tri6 k) (t' : Tri6 k'), t.coords = t'.coords → t.material = t'.material →
        f t = f t'), accum els (fun t => f t) = accum els' (fun t => f t) := by
    intro f hf
    rw [accum_eq_sum, accum_eq_sum]
    have e1 : els.map (fun t => f t) = (els.map fun t => (t.coords, t.material)).map
        (fun q => f (⟨0, q.1, fun _ => 0, q.2⟩ : Tri6 1)) := by
      rw [List.map_map]; exact List.map_congr_left fun t _ => hf _ _ rfl rfl
    have e2 : els'.map (fun t => f t) = (els'.map fun t => (t.coords, t.material)).map
        (fun q => f (⟨0, q.1, fun _ => 0, q.2⟩ : Tri6 1)) := by
      rw [List.map_map]; exact List.map_congr_left fun t _ => hf _ _ rfl rfl
    rw [e1, e2]
    exact (h.map _).sum_eq
  have gp : ∀ {k k' : ℕ} (t : Tri6 k) (t' : Tri6 k'), t.coords = t'.coords →
      t.material = t'.material → t.geometricProperties = t'.geometricProperties := by
    intro k k' t t' h1 h2
    unfold Tri6.geometricProperties
    rw [h1, h2]
  unfold geomSums
  rw [GeomSums.mk.injEq]
  exact ⟨fac (fun t => t.geometricProperties.area) fun t t' a b => by rw [gp t t' a b],
    fac (fun t => t.geometricProperties.area * t.geometricProperties.rho)
      fun t t' a b => by rw [gp t t' a b],
    fac (fun t => t.geometricProperties.area * t.geometricProperties.e)
      fun t t' a b => by rw [gp t t' a b],
    fac (fun t => t.geometricProperties.area * t.geometricProperties.g)
      fun t t' a b => by rw [gp t t' a b],
    fac (fun t => t.geometricProperties.qx * t.geometricProperties.e)
      fun t t' a b => by rw [gp t t' a b],
    fac (fun t => t.geometricProperties.qy * t.geometricProperties.e)
      fun t t' a b => by rw [gp t t' a b],
    fac (fun t => t.geometricProperties.ixx * t.geometricProperties.e)
      fun t t' a b => by rw [gp t t' a b],
    fac (fun t => t.geometricProperties.iyy * t.geometricProperties.e)
      fun t t' a b => by rw [gp t t' a b],
    fac (fun t => t.geometricProperties.ixy * t.geometricProperties.e)
      fun t t' a b => by rw [gp t t' a b]⟩

/-- **C15** (order and numbering): renumbering the nodes and reordering the triangles of a mesh changes
nothing of what the geometric analysis stores (not even the error it raises). -/
theorem C15_order {mats : List MatObj} {m m' : MeshData} {σ : Fin m.numNodes ≃ Fin m'.numNodes}
    (hren : Renumbered m m' σ) {s s' : Section} (hs : Section.init ⟨mats, some m⟩ = .ok s)
    (hs' : Section.init ⟨mats, some m'⟩ = .ok s') : s.geometricAnalysis = s'.geometricAnalysis := by
  obtain ⟨m1, mx, h1, -, -, els, hf, rfl⟩ := init_ok hs
  cases h1
  obtain ⟨m2, mx', h2, -, -, els', hf', rfl⟩ := init_ok hs'
  cases h2
  simp only at hf hf'
  obtain ⟨d1, v1⟩ := elemData_eq hf
  obtain ⟨d2, v2⟩ := elemData_eq hf'
  -- element data agree up to order
  have hdata : (elemData els).Perm (elemData els') := by
    have inj : Function.Injective fun q : Coords × MatObj => (q.1, some q.2) := by
      rintro ⟨a, b⟩ ⟨c, d⟩ h; simpa using h
    rw [← List.map_perm_map_iff inj, d1, d2]
    refine (List.Perm.trans (hren.triangles.map _) ?_).symm
    rw [List.map_map]
    apply List.Perm.of_eq
    refine List.map_congr_left fun p _ => ?_
    simp only [Function.comp]
    refine Prod.ext ?_ rfl
    simp only [gather, Coords.mk.injEq]
    constructor <;> funext i <;> fin_cases i <;> simp [reorder, hren.vertices]
  have hels : ((els.map Prod.fst).map fun t => (t.coords, t.material)).Perm
      ((els'.map Prod.fst).map fun t => (t.coords, t.material)) := by
    have e1 : (els.map Prod.fst).map (fun t => (t.coords, t.material))
        = (elemData els).map fun q => (q.1, q.2.val) := by
      rw [elemData, List.map_map, List.map_map]
      exact List.map_congr_left fun e he => by simp [v1 e he]
    have e2 : (els'.map Prod.fst).map (fun t => (t.coords, t.material))
        = (elemData els').map fun q => (q.1, q.2.val) := by
      rw [elemData, List.map_map, List.map_map]
      exact List.map_congr_left fun e he => by simp [v2 e he]
    rw [e1, e2]
    exact hdata.map _
  have hsum := geomSums_congr hels
  have hnodes : (List.ofFn m.vertices).Perm (List.ofFn m'.vertices) := by
    have hn : m.numNodes = m'.numNodes := by simpa using Fintype.card_congr σ
    have : m.vertices = m'.vertices ∘ σ := funext fun i => (hren.vertices i).symm
    rw [this]
    rw [List.ofFn_eq_map, List.ofFn_eq_map, ← List.map_map]
    refine List.Perm.map _ ?_
    refine (List.perm_ext_iff_of_nodup ?_ (List.nodup_finRange _)).2 fun x => ?_
    · exact (List.nodup_map_iff σ.injective).2 (List.nodup_finRange _)
    · simp only [List.mem_map, List.mem_finRange, true_and, iff_true]
      exact ⟨σ.symm x, by simp⟩
  have hgroups : SameData
      (groupData (els.foldl (fun gs p => addToGroup p.1 p.2 gs) (groups0 mats m.numNodes)))
      (groupData (els'.foldl (fun gs p => addToGroup p.1 p.2 gs) (groups0 mats m'.numNodes))) := by
    rw [groupData_fold, groupData_fold]
    have : groupData (groups0 mats m.numNodes) = groupData (groups0 mats m'.numNodes) := by
      simp [groupData, groups0]
    rw [this]
    exact SameData.fold hdata _
  have hpts : ∀ q, q ∈ yieldPoints (els.foldl (fun gs p => addToGroup p.1 p.2 gs)
        (groups0 mats m.numNodes))
      ↔ q ∈ yieldPoints (els'.foldl (fun gs p => addToGroup p.1 p.2 gs)
        (groups0 mats m'.numNodes)) := by
    intro q
    rw [mem_yieldPoints_data, mem_yieldPoints_data]
    constructor
    · rintro ⟨g, hg, c, hc, i, rfl⟩
      obtain ⟨g', hg', e1, e2⟩ := hgroups.mem hg
      exact ⟨g', hg', c, e2.mem_iff.1 hc, i, by rw [e1]⟩
    · rintro ⟨g, hg, c, hc, i, rfl⟩
      obtain ⟨g', hg', e1, e2⟩ := hgroups.symm.mem hg
      exact ⟨g', hg', c, e2.mem_iff.1 hc, i, by rw [e1]⟩
  have hym : ∀ sig, yieldMoment (yieldPoints (els.foldl (fun gs p => addToGroup p.1 p.2 gs)
        (groups0 mats m.numNodes))) sig
      = yieldMoment (yieldPoints (els'.foldl (fun gs p => addToGroup p.1 p.2 gs)
        (groups0 mats m'.numNodes))) sig := by
    intro sig
    unfold yieldMoment yieldIndex
    rw [foldl_max_congr (fun q : Material × (ℝ × ℝ) => |sig q.1 q.2 / q.1.yieldStrength|) hpts]
  unfold Section.geometricAnalysis
  simp only [hsum, centroidalProps_congr _ hnodes]
  cases centroidalProps (geomSums (els'.map Prod.fst)) (List.ofFn m'.vertices) with
  | error e => rfl
  | ok c => simp only [hym]

/-- The example mesh with its two triangles listed in the other order and nodes 0 and 1 swapped. -/
noncomputable def exMeshR : MeshData :=
  ⟨9, fun i => exV (Equiv.swap (0 : Fin 9) 1 i),
    [fun k => Equiv.swap (0 : Fin 9) 1 (exR1 k), fun k => Equiv.swap (0 : Fin 9) 1 (exR0 k)], [1, 0]⟩

/-- Non-vacuity of C15: a renumbered and reordered version of the example mesh, both constructible. -/
example : @Renumbered exMesh exMeshR (Equiv.swap (0 : Fin 9) 1 : Fin 9 ≃ Fin 9) ∧
    (∃ s, Section.init ⟨exGeom.materials, some exMesh⟩ = .ok s) ∧
    ∃ s, Section.init ⟨exGeom.materials, some exMeshR⟩ = .ok s := by
  refine ⟨⟨fun i => ?_, rfl, rfl, ?_⟩, ⟨exSection, exSection_init⟩, ?_⟩
  · exact congrArg exV (Equiv.swap_apply_self (0 : Fin 9) 1 i)
  · exact List.Perm.swap _ _ _
  · refine ((C46_section_checks ⟨exGeom.materials, some exMeshR⟩).2 exMeshR rfl).2 1 ?_ rfl le_rfl
    simp [exMeshR, List.max?]

/-! ### C14: scaling all elastic moduli -/

/-- A material with its elastic modulus multiplied by `k`. -/
def Material.scaleE (k : ℝ) (m : Material) : Material := { m with elasticModulus := k * m.elasticModulus }
/-- An element with its modulus multiplied by `k`. -/
def Tri6.scaleE {n : ℕ} (k : ℝ) (t : Tri6 n) : Tri6 n := { t with material := t.material.scaleE k }

/-- **C14** (scaling): multiplying every elastic modulus by `k > 0` multiplies all rigidities, including
the element matrices and load vectors of the torsion problem, by `k`, and leaves area, mass, effective
Poisson's ratio, centroid, principal angle and radii of gyration unchanged. -/
theorem C14_modulus_scaling {k : ℝ} (hk : 0 < k) {s s' : Section} {r r' : GeomResults}
    (hr : s.geometricAnalysis = .ok r) (hr' : s'.geometricAnalysis = .ok r')
    (hels : (s'.elements.map fun t => (t.coords, t.material))
      = s.elements.map fun t => (t.coords, t.material.scaleE k)) :
    r'.sums.area = r.sums.area ∧ r'.sums.mass = r.sums.mass ∧
    r'.sums.ea = k * r.sums.ea ∧ r'.sums.ga = k * r.sums.ga ∧
    r'.sums.qx = k * r.sums.qx ∧ r'.sums.qy = k * r.sums.qy ∧
    r'.sums.ixxG = k * r.sums.ixxG ∧ r'.sums.iyyG = k * r.sums.iyyG ∧
    r'.sums.ixyG = k * r.sums.ixyG ∧
    r'.nuEff = r.nuEff ∧ r'.eEff = k * r.eEff ∧ r'.gEff = k * r.gEff ∧
    r'.cx = r.cx ∧ r'.cy = r.cy ∧
    r'.cent.ixxC = k * r.cent.ixxC ∧ r'.cent.iyyC = k * r.cent.iyyC ∧
    r'.cent.ixyC = k * r.cent.ixyC ∧ r'.cent.i11 = k * r.cent.i11 ∧ r'.cent.i22 = k * r.cent.i22 ∧
    r'.cent.phi = r.cent.phi ∧ r'.cent.rx = r.cent.rx ∧ r'.cent.ry = r.cent.ry ∧
    r'.cent.r11 = r.cent.r11 ∧ r'.cent.r22 = r.cent.r22 := by
  have hk0 := hk.ne'
  have hsum : geomSums s'.elements = geomSums (s.elements.map (Tri6.scaleE k)) := by
    apply geomSums_congr
    rw [hels, List.map_map]
    rfl
  have g : ∀ t : Tri6 s.numNodes, (t.scaleE k).geometricProperties
      = { t.geometricProperties with
          e := k * t.geometricProperties.e, g := k * t.geometricProperties.g } := by
    intro t
    simp only [Tri6.geometricProperties, Tri6.scaleE, Material.scaleE, Material.shearModulus,
      GeomProps.mk.injEq, true_and, and_true]
    ring
  obtain ⟨e0, hc, n1, n2, n3, x1, x2⟩ := geom_ok hr
  obtain ⟨e0', hc', n1', n2', n3', x1', x2'⟩ := geom_ok hr'
  rw [hsum] at e0'
  have acc : ∀ f : Tri6 s.numNodes → ℝ,
      accum (s.elements.map (Tri6.scaleE k)) f = accum s.elements fun t => f (t.scaleE k) := by
    intro f; rw [accum_eq_sum, accum_eq_sum, List.map_map]; rfl
  have accm : ∀ f : Tri6 s.numNodes → ℝ,
      accum s.elements (fun t => k * f t) = k * accum s.elements f := by
    intro f; rw [accum_eq_sum, accum_eq_sum, List.sum_map_mul_left]
  have s1 : r'.sums.area = r.sums.area := by
    rw [e0, e0']; simp only [geomSums, acc, g]
  have s2 : r'.sums.mass = r.sums.mass := by
    rw [e0, e0']; simp only [geomSums, acc, g]
  have s3 : r'.sums.ea = k * r.sums.ea := by
    rw [e0, e0']; simp only [geomSums, acc, g, mul_left_comm _ k, accm]
  have s4 : r'.sums.ga = k * r.sums.ga := by
    rw [e0, e0']; simp only [geomSums, acc, g, mul_left_comm _ k, accm]
  have s5 : r'.sums.qx = k * r.sums.qx := by
    rw [e0, e0']; simp only [geomSums, acc, g, mul_left_comm _ k, accm]
  have s6 : r'.sums.qy = k * r.sums.qy := by
    rw [e0, e0']; simp only [geomSums, acc, g, mul_left_comm _ k, accm]
  have s7 : r'.sums.ixxG = k * r.sums.ixxG := by
    rw [e0, e0']; simp only [geomSums, acc, g, mul_left_comm _ k, accm]
  have s8 : r'.sums.iyyG = k * r.sums.iyyG := by
    rw [e0, e0']; simp only [geomSums, acc, g, mul_left_comm _ k, accm]
  have s9 : r'.sums.ixyG = k * r.sums.ixyG := by
    rw [e0, e0']; simp only [geomSums, acc, g, mul_left_comm _ k, accm]
  have c1 : r'.sums.cx = r.sums.cx := by
    rw [GeomSums.cx, GeomSums.cx, s3, s6, mul_div_mul_left _ _ hk0]
  have c2 : r'.sums.cy = r.sums.cy := by
    rw [GeomSums.cy, GeomSums.cy, s3, s5, mul_div_mul_left _ _ hk0]
  have dv : ∀ a b : ℝ, k * a * (k * b) / (k * r.sums.ea) = k * (a * b / r.sums.ea) := by
    intro a b
    rw [show k * a * (k * b) = k * (k * (a * b)) by ring, mul_div_mul_left _ _ hk0, mul_div_assoc]
  have i1 : r'.sums.ixxC = k * r.sums.ixxC := by
    rw [GeomSums.ixxC, GeomSums.ixxC, s3, s5, s7, sq, sq, dv]; ring
  have i2 : r'.sums.iyyC = k * r.sums.iyyC := by
    rw [GeomSums.iyyC, GeomSums.iyyC, s3, s6, s8, sq, sq, dv]; ring
  have i3 : r'.sums.ixyC = k * r.sums.ixyC := by
    rw [GeomSums.ixyC, GeomSums.ixyC, s3, s5, s6, s9, dv]; ring
  obtain ⟨a1, a2, a3, a4, a5, a6, a7, a8, a9, a10⟩ := cent_ok hc
  obtain ⟨b1, b2, b3, b4, b5, b6, b7, b8, b9, b10⟩ := cent_ok hc'
  obtain ⟨-, p1, p2, p3⟩ := phiOf_smul (a := r.sums.ixxC) (b := r.sums.iyyC) (c := r.sums.ixyC) hk
  refine ⟨s1, s2, s3, s4, s5, s6, s7, s8, s9, ?_, ?_, ?_, by rw [x1', x1, c1], by rw [x2', x2, c2],
    by rw [b1, a1, i1], by rw [b2, a2, i2], by rw [b3, a3, i3], ?_, ?_, ?_, ?_, ?_, ?_, ?_⟩
  · rw [n1', n1, GeomSums.nuEff, GeomSums.nuEff, s3, s4, mul_left_comm, mul_div_mul_left _ _ hk0]
  · rw [n2', n2, GeomSums.eEff, GeomSums.eEff, s3, s1, mul_div_assoc]
  · rw [n3', n3, GeomSums.gEff, GeomSums.gEff, s4, s1, mul_div_assoc]
  · rw [b4, a4, i1, i2, i3, p1]
  · rw [b5, a5, i1, i2, i3, p2]
  · rw [b6, a6, i1, i2, i3, p3]
  · rw [b7, a7, i1, s3, mul_div_mul_left _ _ hk0]
  · rw [b8, a8, i2, s3, mul_div_mul_left _ _ hk0]
  · rw [b9, a9, i1, i2, i3, p1, s3, mul_div_mul_left _ _ hk0]
  · rw [b10, a10, i1, i2, i3, p2, s3, mul_div_mul_left _ _ hk0]

/-- **C14** (torsion problem): the element stiffness, load and constraint arrays scale with the
modulus. -/
theorem C14_element_scaling {n : ℕ} (k : ℝ) (t : Tri6 n) (a b : Fin 6) :
    (t.scaleE k).kEl a b = k * t.kEl a b ∧ (t.scaleE k).fEl a = k * t.fEl a ∧
    (t.scaleE k).cEl a = k * t.cEl a := by
  have hw : ∀ gp, (t.scaleE k).eWeight gp = k * t.eWeight gp := by
    intro gp; simp only [Tri6.eWeight, Tri6.scaleE, Material.scaleE]; ring
  refine ⟨?_, ?_, ?_⟩
  · simp only [Tri6.kEl, hw, accum_eq_sum, ← List.sum_map_mul_left]
    exact congrArg List.sum (List.map_congr_left fun gp _ => by simp only [Tri6.scaleE]; ring)
  · simp only [Tri6.fEl, hw, accum_eq_sum, ← List.sum_map_mul_left]
    exact congrArg List.sum (List.map_congr_left fun gp _ => by simp only [Tri6.scaleE]; ring)
  · simp only [Tri6.cEl, hw, accum_eq_sum, ← List.sum_map_mul_left]
    exact congrArg List.sum (List.map_congr_left fun gp _ => by simp only [Tri6.scaleE]; ring)

/-- Non-vacuity of `C14_modulus_scaling`. -/
example : ∃ (s' : Section) (r r' : GeomResults), exSection.geometricAnalysis = .ok r ∧
    s'.geometricAnalysis = .ok r' ∧
    (s'.elements.map fun t => (t.coords, t.material))
      = exSection.elements.map fun t => (t.coords, t.material.scaleE 7) := by
  obtain ⟨r, hr⟩ := geometricAnalysis_ok exSection (by simp [exSection])
  obtain ⟨r', hr'⟩ := geometricAnalysis_ok
    ⟨exSection.numNodes, exSection.meshNodes, [], exSection.elements.map (Tri6.scaleE 7), []⟩
    (by simp [exSection])
  exact ⟨_, r, r', hr, hr', by rw [List.map_map]; rfl⟩

end SP
