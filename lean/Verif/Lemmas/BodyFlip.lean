import Verif.Props.BodyWarp
import Verif.Props.Relabel

/-!
# The image of a mesh under a reflection or a half turn
-/

namespace SP

open Spec MeasureTheory Set Topology Filter

variable {ex ey : ℤˣ} {tx ty : ℝ} {n : ℕ}

/-- An element moved by `signs`, with its corners in counter-clockwise order. -/
noncomputable def Tri6.signed (ex ey : ℤˣ) (tx ty : ℝ) (t : Tri6 n) : Tri6 n :=
  if ex * ey = 1 then t.map (signs ex ey tx ty) else t.mapFlip (signs ex ey tx ty)

/-- A section moved by `signs`. -/
noncomputable def Section.signed (ex ey : ℤˣ) (tx ty : ℝ) (s : Section) : Section :=
  ⟨s.numNodes, fun i => signs ex ey tx ty (s.meshNodes i), s.materials, s.elements.map (Tri6.signed ex ey tx ty), []⟩

theorem units_neg {e : ℤˣ} (h : e ≠ 1) : e = -1 := (Int.units_eq_one_or e).resolve_left h

theorem signs_det (ex ey : ℤˣ) : (((ex : ℤ) : ℝ) * ((ey : ℤ) : ℝ) - 0 * 0 : ℝ) ≠ 0 := by
  rcases Int.units_eq_one_or ex with h | h <;> rcases Int.units_eq_one_or ey with k | k <;> simp [h, k]

theorem signs_injective (ex ey : ℤˣ) (tx ty : ℝ) : Function.Injective (signs ex ey tx ty) := affine_injective tx ty (signs_det ex ey)

theorem signed_same (t : Tri6 n) : SameTriangle ex ey tx ty (Equiv.refl (Fin n)) t (t.signed ex ey tx ty) := by
  unfold Tri6.signed
  split_ifs with h
  · refine ⟨rfl, 1, by simp [h], fun k => ?_⟩
    have : sixNodes 1 = id := by decide
    rw [this]
    exact ⟨rfl, rfl⟩
  · refine ⟨rfl, Equiv.swap 1 2, ?_, fun k => ?_⟩
    · rw [units_neg h]; decide
    · have h : sixNodes (Equiv.swap 1 2) = ![0, 2, 1, 5, 4, 3] := by decide
      rw [h]
      exact ⟨rfl, rfl⟩

theorem signed_region (t : Tri6 n) : elemRegion (t.signed ex ey tx ty).coords = signs ex ey tx ty '' elemRegion t.coords := by
  unfold Tri6.signed
  split_ifs with h
  · exact elemRegion_map _ _ _ _ _ _ _
  · unfold signs
    rw [← elemRegion_map]
    simp only [elemRegion, Spec.triangle, cornerA, cornerB, cornerC, Tri6.mapFlip]
    congr 1
    simp only [Matrix.cons_val_zero, Matrix.cons_val_one, Matrix.cons_val]
    rw [Set.pair_comm]

theorem signed_det (t : Tri6 n) : elemDet (t.signed ex ey tx ty).coords = elemDet t.coords := by
  unfold Tri6.signed
  rcases Int.units_eq_one_or ex with h | h <;> rcases Int.units_eq_one_or ey with k | k <;> subst h <;> subst k <;>
    simp [elemDet, signedArea2, cornerA, cornerB, cornerC, Coords.map, affine, Tri6.mapFlip, Tri6.map, signs] <;> ring

theorem signed_ids (t : Tri6 n) : range (t.signed ex ey tx ty).nodeIds = range t.nodeIds := by
  obtain ⟨-, π, -, h⟩ := signed_same (ex := ex) (ey := ey) (tx := tx) (ty := ty) t
  ext i
  constructor
  · rintro ⟨k, rfl⟩
    exact ⟨sixNodes π k, ((h k).1).symm⟩
  · rintro ⟨k, rfl⟩
    obtain ⟨q, rfl⟩ := (six_bijective π).2 k
    exact ⟨q, (h q).1⟩

theorem signed_mesh (s : Section) :
    SameMesh ex ey tx ty (Equiv.refl (Fin s.numNodes)) s.elements (s.signed ex ey tx ty).elements := by
  refine ⟨_, ?_, .rfl⟩
  change List.Forall₂ _ s.elements (s.elements.map (Tri6.signed ex ey tx ty))
  rw [List.forall₂_map_right_iff, List.forall₂_same]
  exact fun t _ => signed_same t

theorem signed_good {s : Section} (hs : GoodSection s) (hp : Physical s.elements) : GoodSection (s.signed ex ey tx ty) := by
  refine ⟨(SameMesh.physical (signed_mesh s) hp).proper, fun t ht => ?_⟩
  obtain ⟨u, hu, rfl⟩ := List.mem_map.1 ht
  obtain ⟨-, π, -, h⟩ := signed_same (ex := ex) (ey := ey) (tx := tx) (ty := ty) u
  have e : ∀ k, ((u.signed ex ey tx ty).coords.x k, (u.signed ex ey tx ty).coords.y k)
      = signs ex ey tx ty (s.meshNodes ((u.signed ex ey tx ty).nodeIds k)) := fun k => by
    rw [(h k).2, (h k).1, hs.coords u hu]
    rfl
  ext k
  · exact congrArg Prod.fst (e k)
  · exact congrArg Prod.snd (e k)

theorem signs_mid (p q : ℝ × ℝ) : signs ex ey tx ty (p.1 / 2 + q.1 / 2, p.2 / 2 + q.2 / 2)
    = ((signs ex ey tx ty p).1 / 2 + (signs ex ey tx ty q).1 / 2, (signs ex ey tx ty p).2 / 2 + (signs ex ey tx ty q).2 / 2) := by
  simp only [signs, affine, Prod.mk.injEq]
  constructor <;> ring

theorem signs_segment {p q z : ℝ × ℝ} (h : z ∈ segment ℝ p q) :
    signs ex ey tx ty z ∈ segment ℝ (signs ex ey tx ty p) (signs ex ey tx ty q) := by
  obtain ⟨a, b, ha, hb, hab, rfl⟩ := h
  refine ⟨a, b, ha, hb, hab, ?_⟩
  simp only [signs, affine, Prod.smul_mk, Prod.mk_add_mk, smul_eq_mul, Prod.fst_add, Prod.snd_add, Prod.smul_fst, Prod.smul_snd, Prod.mk.injEq]
  constructor
  · linear_combination tx * hab
  · linear_combination ty * hab

theorem signed_conforming {s : Section} (h : ConformingMesh s.meshNodes s.elements) :
    ConformingMesh (s.signed ex ey tx ty).meshNodes (s.signed ex ey tx ty).elements := by
  intro a ha b hb hab p hp
  obtain ⟨u, hu, rfl⟩ := List.mem_map.1 ha
  obtain ⟨v, hv, rfl⟩ := List.mem_map.1 hb
  rw [signed_region, signed_region, ← image_inter (signs_injective ex ey tx ty)] at hp
  obtain ⟨q, hq, rfl⟩ := hp
  obtain ⟨i, j, m, h1, h2, h3⟩ := h u hu v hv (fun e => hab (by rw [e])) q hq
  refine ⟨i, j, m, fun k hk => ?_, ?_, signs_segment h3⟩
  · have e1 := signed_ids (ex := ex) (ey := ey) (tx := tx) (ty := ty) u
    have e2 := signed_ids (ex := ex) (ey := ey) (tx := tx) (ty := ty) v
    have := h1 k hk
    exact ⟨e1.symm ▸ this.1, e2.symm ▸ this.2⟩
  · change signs ex ey tx ty (s.meshNodes m) = _
    rw [h2, signs_mid]
    rfl

theorem signed_fine {els : List (Tri6 n)} {δ κ : ℝ} (h : FineMesh els δ κ) : FineMesh (els.map (Tri6.signed ex ey tx ty)) δ κ := by
  intro t ht
  obtain ⟨u, hu, rfl⟩ := List.mem_map.1 ht
  obtain ⟨d, h1, h2, h3⟩ := h u hu
  refine ⟨d, h1, by rwa [signed_det], fun p hp z hz => ?_⟩
  rw [signed_region] at hp hz
  obtain ⟨p, hp, rfl⟩ := hp
  obtain ⟨z, hz, rfl⟩ := hz
  refine le_trans (le_of_eq (congrArg Real.sqrt ?_)) (h3 p hp z hz)
  simp only [signs, affine]
  have e1 := rs_sq ex
  have e2 := rs_sq ey
  simp only [rs] at e1 e2
  linear_combination (z.1 - p.1) ^ 2 * e1 + (z.2 - p.2) ^ 2 * e2

variable {Ω : Set (ℝ × ℝ)} {mat : ℝ × ℝ → Material}

theorem signed_meshOf {els : List (Tri6 n)} (h : MeshOf Ω mat els) (hΩ : signs ex ey tx ty '' Ω = Ω)
    (hmat : ∀ p ∈ Ω, mat (signs ex ey tx ty p) = mat p) : MeshOf Ω mat (els.map (Tri6.signed ex ey tx ty)) := by
  obtain ⟨h1, h2⟩ := image_of_elements tx ty (signs_det ex ey) (Tri6.signed ex ey tx ty) els h.once (fun t => signed_region t)
    (fun t => (signed_same t).1)
  have inj := signs_injective ex ey tx ty
  have hd : volume (region els \ Ω) = 0 := ae_le_set.1 h.covers.le
  refine ⟨h1, ?_, fun t ht => ?_⟩
  · rw [h2.region]
    refine Filter.EventuallyLE.antisymm (ae_le_set.2 ?_) (ae_le_set.2 ?_)
    · change volume (signs ex ey tx ty '' region els \ Ω) = 0
      rw [← hΩ, ← image_sdiff inj]
      exact null_image _ _ _ _ _ _ hd
    · change volume (Ω \ signs ex ey tx ty '' region els) = 0
      conv_lhs => rw [← hΩ, ← image_sdiff inj]
      exact null_image _ _ _ _ _ _ (ae_le_set.1 h.covers.symm.le)
  · obtain ⟨u, hu, rfl⟩ := List.mem_map.1 ht
    have h0 := h.material u hu
    rw [ae_iff] at h0 ⊢
    refine measure_mono_null ?_ (null_image (ex : ℤ) 0 0 (ey : ℤ) tx ty (measure_union_null h0 hd))
    intro p hp
    simp only [mem_ofPred_eq, Classical.not_imp] at hp
    obtain ⟨hp1, hp2⟩ := hp
    rw [signed_region] at hp1
    obtain ⟨q, hq, rfl⟩ := hp1
    refine ⟨q, ?_, rfl⟩
    by_cases hqΩ : q ∈ Ω
    · left
      simp only [mem_ofPred_eq, Classical.not_imp]
      refine ⟨hq, fun e => hp2 ?_⟩
      rw [hmat q hqΩ, e, (signed_same u).1]
    · exact .inr ⟨⟨u, hu, hq⟩, hqΩ⟩

/-- The image of a section. -/
theorem signed_exists (ex ey : ℤˣ) (tx ty : ℝ) {s : Section} (hg : GoodSection s) (hp : Physical s.elements)
    (hc : ConformingMesh s.meshNodes s.elements) : ∃ (s' : Section) (τ : Fin s.numNodes ≃ Fin s'.numNodes),
      SameMesh ex ey tx ty τ s.elements s'.elements ∧ GoodSection s' ∧ ConformingMesh s'.meshNodes s'.elements ∧ s'.materials = s.materials ∧
      (∀ δ κ, FineMesh s.elements δ κ → FineMesh s'.elements δ κ) ∧
      ∀ (Ω : Set (ℝ × ℝ)) (mat : ℝ × ℝ → Material), signs ex ey tx ty '' Ω = Ω → (∀ p ∈ Ω, mat (signs ex ey tx ty p) = mat p) →
        MeshOf Ω mat s.elements → MeshOf Ω mat s'.elements :=
  ⟨s.signed ex ey tx ty, Equiv.refl _, signed_mesh s, signed_good hg hp, signed_conforming hc, rfl, fun _ _ => signed_fine,
    fun _ _ h1 h2 h => signed_meshOf h h1 h2⟩

end SP
