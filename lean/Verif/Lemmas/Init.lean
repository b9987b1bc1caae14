import Verif.Lemmas.Element
import Verif.Spec.MeshData

/-!
# Facts on `Section.__init__`
-/

namespace SP

open Spec

theorem mapM_cons_ok {α β ε : Type*} (f : α → Except ε β) (x : α) (xs : List α) (ys : List β) :
    (x :: xs).mapM f = .ok ys ↔ ∃ y ys', f x = .ok y ∧ xs.mapM f = .ok ys' ∧ ys = y :: ys' := by
  rw [List.mapM_cons]
  cases h : f x with
  | error e => simp [bind, Except.bind]
  | ok y =>
    cases h' : xs.mapM f with
    | error e => simp [bind, Except.bind]
    | ok ys' => simp [bind, Except.bind, pure, Except.pure, eq_comm]

theorem mapM_ok_forall₂ {α β ε : Type*} (f : α → Except ε β) (xs : List α) (ys : List β) :
    xs.mapM f = .ok ys ↔ List.Forall₂ (fun x y => f x = .ok y) xs ys := by
  induction xs generalizing ys with
  | nil =>
    constructor
    · intro h; simp [pure, Except.pure] at h; subst h; exact .nil
    · intro h; cases h; simp [pure, Except.pure]
  | cons x xs ih =>
    rw [mapM_cons_ok]
    constructor
    · rintro ⟨y, ys', h1, h2, rfl⟩; exact .cons h1 ((ih _).1 h2)
    · intro h; cases h with
      | cons h1 h2 => exact ⟨_, _, h1, (ih _).2 h2, rfl⟩

theorem mkElement_ok {mats : List MatObj} {m : MeshData} {tri : Fin 6 → Fin m.numNodes} {i : ℕ}
    {r : Tri6 m.numNodes × MatObj} (h : mkElement mats m tri i = .ok r) :
    ∃ a, m.attributes[i]? = some a ∧ mats[a]? = some r.2 ∧
      r.1 = ⟨i, gather m.vertices (reorder tri), reorder tri, r.2.val⟩ := by
  unfold mkElement at h
  cases ha : m.attributes[i]? with
  | none => simp [ha] at h
  | some a =>
    cases hm : mats[a]? with
    | none => simp [ha, hm] at h
    | some mat =>
      simp [ha, hm] at h
      subst h
      exact ⟨a, rfl, hm, rfl⟩

/-- The initial, empty groups. -/
noncomputable def groups0 (mats : List MatObj) (n : ℕ) : List (MaterialGroup n) :=
  (groupMaterials mats).map fun mat => ⟨mat, []⟩

/-- What a successful construction looks like. -/
theorem init_ok {g : GeomIn} {s : Section} (h : Section.init g = .ok s) :
    ∃ m mx, g.mesh = some m ∧ m.attributes.max? = some mx ∧ g.materials.length = mx + 1 ∧
      ∃ els : List (Tri6 m.numNodes × MatObj),
        List.Forall₂ (fun p e => mkElement g.materials m p.1 p.2 = .ok e) m.triangles.zipIdx els ∧
        s = { numNodes := m.numNodes
              meshNodes := m.vertices
              materials := g.materials
              elements := els.map Prod.fst
              groups := els.foldl (fun gs p => addToGroup p.1 p.2 gs)
                (groups0 g.materials m.numNodes) } := by
  unfold Section.init at h
  cases hm : g.mesh with
  | none => simp [hm] at h
  | some m =>
    simp only [hm] at h
    cases hx : m.attributes.max? with
    | none => simp [hx] at h
    | some mx =>
      simp only [hx] at h
      by_cases hl : g.materials.length ≠ mx + 1
      · simp [hl] at h
      · rw [if_neg hl] at h
        push Not at hl
        cases hM : m.triangles.zipIdx.mapM (fun p => mkElement g.materials m p.1 p.2) with
        | error e => simp [hM] at h
        | ok els =>
          simp only [hM, Except.ok.injEq] at h
          exact ⟨m, mx, rfl, hx, hl, els, (mapM_ok_forall₂ _ _ _).1 hM, h.symm⟩

theorem forall₂_mem_right {α β : Type*} {R : α → β → Prop} {l₁ : List α} {l₂ : List β}
    (h : List.Forall₂ R l₁ l₂) {b : β} (hb : b ∈ l₂) : ∃ a ∈ l₁, R a b := by
  induction h with
  | nil => cases hb
  | cons h1 _ ih =>
    rcases List.mem_cons.1 hb with rfl | hb
    · exact ⟨_, List.mem_cons_self .., h1⟩
    · obtain ⟨a, ha, hr⟩ := ih hb
      exact ⟨a, List.mem_cons_of_mem _ ha, hr⟩

theorem gather_proper {n : ℕ} {v : Fin n → ℝ × ℝ} {t : Fin 6 → Fin n} (h : MesherTri v t) :
    Proper (gather v (reorder t)) := by
  obtain ⟨h1, h2, h3, h4, h5, h6, h7⟩ := h
  refine ⟨⟨?_, ?_, ?_, ?_, ?_, ?_⟩, ?_⟩
  · simpa [gather, reorder] using h5
  · simpa [gather, reorder] using h1
  · simpa [gather, reorder] using h3
  · simpa [gather, reorder] using h6
  · simpa [gather, reorder] using h2
  · simpa [gather, reorder] using h4
  · simpa [gather, reorder, elemDet, signedArea2, cornerA, cornerB, cornerC] using h7

/-- Elements of a section built from a good mesh. -/
structure GoodSection (s : Section) : Prop where
  proper : ∀ t ∈ s.elements, Proper t.coords
  coords : ∀ t ∈ s.elements, t.coords = gather s.meshNodes t.nodeIds

theorem init_good {g : GeomIn} {s : Section} {m : MeshData} (h : Section.init g = .ok s)
    (hm : g.mesh = some m) (hg : GoodMesh m) : GoodSection s := by
  obtain ⟨m', mx, hm', -, -, els, hf, rfl⟩ := init_ok h
  rw [hm] at hm'
  cases hm'
  constructor <;> intro t ht <;> simp only [List.mem_map] at ht <;> obtain ⟨e, he, rfl⟩ := ht
  · obtain ⟨p, hp, hk⟩ := forall₂_mem_right hf he
    obtain ⟨a, -, -, h3⟩ := mkElement_ok hk
    rw [h3]
    exact gather_proper (hg _ (List.fst_mem_of_mem_zipIdx hp))
  · obtain ⟨p, hp, hk⟩ := forall₂_mem_right hf he
    obtain ⟨a, -, -, h3⟩ := mkElement_ok hk
    rw [h3]

end SP
