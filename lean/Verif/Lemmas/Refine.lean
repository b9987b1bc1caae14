import Verif.Lemmas.Shift
import Verif.Lemmas.Integrals
import Verif.Props.Points
import Verif.Spec.Refine

/-!
# Fields and integrals on a refined mesh
-/

namespace SP

open Spec MeasureTheory

variable {n m : ℕ} {els : List (Tri6 n)} {els' : List (Tri6 m)}

/-- Quadratic fields that agree at the ends and the middle of a segment agree on it. -/
theorem edge_agree {q r : ℝ × ℝ → ℝ} (hq : q ∈ PolyLE 2) (hr : r ∈ PolyLE 2) {A B M p : ℝ × ℝ}
    (hM : M = (A.1 / 2 + B.1 / 2, A.2 / 2 + B.2 / 2)) (hA : q A = r A) (hB : q B = r B) (hMv : q M = r M)
    (hp : p ∈ segment ℝ A B) : q p = r p := by
  obtain ⟨u, v, -, -, huv, rfl⟩ := hp
  obtain rfl : u = 1 - v := by linarith
  obtain ⟨a0, a1, a2, a3, a4, a5, rfl⟩ := polyLE2_quad hq
  obtain ⟨b0, b1, b2, b3, b4, b5, rfl⟩ := polyLE2_quad hr
  subst hM
  simp only [quad, Prod.fst_add, Prod.smul_fst, Prod.snd_add, Prod.smul_snd, smul_eq_mul] at *
  linear_combination (1 - v) * (1 - 2 * v) * hA + 4 * v * (1 - v) * hMv + v * (2 * v - 1) * hB

/-- Fields on a conforming mesh are continuous. -/
theorem field_agree {pos : Fin n → ℝ × ℝ} (hc : ConformingMesh pos els)
    (hpos : ∀ t ∈ els, ∀ k, (t.coords.x k, t.coords.y k) = pos (t.nodeIds k)) {u : Fin n → ℝ} {q : Tri6 n → ℝ × ℝ → ℝ}
    (hq : FEField els u q) {a b : Tri6 n} (ha : a ∈ els) (hb : b ∈ els) {p : ℝ × ℝ} (hpa : p ∈ elemRegion a.coords)
    (hpb : p ∈ elemRegion b.coords) : q a p = q b p := by
  by_cases hab : a = b
  · rw [hab]
  obtain ⟨i, j, k, hn, hm, hp⟩ := hc a ha b hb hab p ⟨hpa, hpb⟩
  have val : ∀ l ∈ [i, j, k], q a (pos l) = q b (pos l) := by
    intro l hl
    obtain ⟨⟨x, hx⟩, ⟨y, hy⟩⟩ := hn l hl
    have h1 := (hq a ha).2 x
    have h2 := (hq b hb).2 y
    rw [hpos a ha, hx] at h1
    rw [hpos b hb, hy] at h2
    simp only [hx] at h1
    simp only [hy] at h2
    rw [h1, h2]
  exact edge_agree (hq a ha).1 (hq b hb).1 hm (val i (by simp)) (val j (by simp)) (val k (by simp)) hp

/-- A field on a conforming mesh is also a field on every refinement. -/
theorem exists_sample {pos : Fin n → ℝ × ℝ} {pos' : Fin m → ℝ × ℝ} (hc : ConformingMesh pos els)
    (hpos : ∀ t ∈ els, ∀ k, (t.coords.x k, t.coords.y k) = pos (t.nodeIds k))
    (hpos' : ∀ t ∈ els', ∀ k, (t.coords.x k, t.coords.y k) = pos' (t.nodeIds k))
    (hp' : ∀ t ∈ els', Proper t.coords) {par : Tri6 m → Tri6 n}
    (hpar : ∀ t ∈ els', par t ∈ els ∧ elemRegion t.coords ⊆ elemRegion (par t).coords)
    {u : Fin n → ℝ} {q : Tri6 n → ℝ × ℝ → ℝ} (hq : FEField els u q) :
    ∃ v, FEField els' v fun t => q (par t) := by
  classical
  refine ⟨fun i => if h : ∃ t ∈ els, pos' i ∈ elemRegion t.coords then q h.choose (pos' i) else 0, fun t ht => ?_⟩
  obtain ⟨h1, h2⟩ := hpar t ht
  refine ⟨(hq _ h1).1, fun k => ?_⟩
  have hmem := h2 (node_mem (hp' t ht).1 k)
  rw [hpos' t ht] at hmem ⊢
  have hex : ∃ v ∈ els, pos' (t.nodeIds k) ∈ elemRegion v.coords := ⟨_, h1, hmem⟩
  simp only [dif_pos hex]
  exact field_agree hc hpos hq h1 hex.choose_spec.1 hmem hex.choose_spec.2

/-! ### Integrals -/

theorem volume_elem {c : Coords} (h : Proper c) : volume (elemRegion c) ≠ 0 := by
  intro h0
  have h1 : (∫ _ in elemRegion c, (1 : ℝ)) = 0 := setIntegral_measure_zero _ h0
  have hd : 0 < elemDet c := h.2
  rw [elemRegion, Spec.triangle, integral_triangle (by exact hd.ne') _ continuous_const] at h1
  have e : (∫ s in (0 : ℝ)..1, ∫ _ in (0 : ℝ)..(1 - s), (1 : ℝ)) = 1 / 2 := by
    simp only [intervalIntegral.integral_const, smul_eq_mul, mul_one, sub_zero]
    rw [intervalIntegral.integral_sub (by simp) (by simp)]
    norm_num
  rw [e] at h1
  have h3 : |elemDet c| * (1 / 2) = 0 := h1
  rw [abs_of_pos hd] at h3
  linarith

theorem nodup_elems (hp : ∀ t ∈ els, Proper t.coords) (hno : NoOverlap els) : els.Nodup := by
  refine List.Pairwise.imp_of_mem (fun {a b} ha _ h hab => ?_) hno
  subst hab
  rw [Set.inter_self] at h
  exact volume_elem (hp a ha) h

/-- The integral over the part of the region in `S`, element by element. -/
theorem integral_parts (hno : NoOverlap els) {S : Set (ℝ × ℝ)} (hS : MeasurableSet S) {g : ℝ × ℝ → ℝ}
    (hg : Continuous g) : IntegrableOn g (S ∩ region els) ∧
    ∫ p in S ∩ region els, g p = (els.map fun t => ∫ p in S ∩ elemRegion t.coords, g p).sum := by
  induction els with
  | nil => simp [region_nil]
  | cons t els ih =>
    obtain ⟨h1, h2⟩ := List.pairwise_cons.1 hno
    obtain ⟨i1, i2⟩ := ih h2
    have j1 : IntegrableOn g (S ∩ elemRegion t.coords) :=
      (hg.continuousOn.integrableOn_compact (isCompact_elemRegion _)).mono_set Set.inter_subset_right
    have hd : AEDisjoint volume (S ∩ elemRegion t.coords) (S ∩ region els) := by
      refine measure_mono_null (t := ⋃ u ∈ {u | u ∈ els}, elemRegion t.coords ∩ elemRegion u.coords) ?_ ?_
      · rintro p ⟨⟨-, h⟩, -, u, hu, hpu⟩
        simp only [Set.mem_iUnion]
        exact ⟨u, hu, h, hpu⟩
      · rw [measure_biUnion_null_iff (List.finite_toSet els).countable]
        exact fun u hu => h1 u hu
    rw [region_cons, Set.inter_union_distrib_left]
    refine ⟨j1.union i1, ?_⟩
    rw [List.map_cons, List.sum_cons, ← i2,
      setIntegral_union₀ hd (hS.inter (measurable_region els)).nullMeasurableSet j1 i1]

theorem sum_pick {α : Type*} [DecidableEq α] {l : List α} (hn : l.Nodup) {a : α} (ha : a ∈ l) (g : α → ℝ) :
    (l.map fun t => if a = t then g t else 0).sum = g a := by
  induction l with
  | nil => cases ha
  | cons b l ih =>
    obtain ⟨h1, h2⟩ := List.nodup_cons.1 hn
    rw [List.map_cons, List.sum_cons]
    by_cases hab : a = b
    · subst hab
      rw [if_pos rfl]
      have : (l.map fun t => if a = t then g t else 0).sum = 0 := by
        refine List.sum_eq_zero fun v hv => ?_
        obtain ⟨t, ht, rfl⟩ := List.mem_map.1 hv
        rw [if_neg]
        rintro rfl
        exact h1 ht
      rw [this, add_zero]
    · rw [if_neg hab, zero_add, ih h2 ((List.mem_cons.1 ha).resolve_left hab)]

theorem sum_swap {α β : Type*} (l : List α) (k : List β) (g : α → β → ℝ) :
    (l.map fun a => (k.map fun b => g a b).sum).sum = (k.map fun b => (l.map fun a => g a b).sum).sum := by
  induction l with
  | nil => simp
  | cons a l ih =>
    simp only [List.map_cons, List.sum_cons]
    rw [ih, ← List.sum_map_add]

/-- Integrals over a mesh are integrals over every refinement. -/
theorem wInt_refine (hR : Refines els els') (hp : ∀ t ∈ els, Proper t.coords) {par : Tri6 m → Tri6 n}
    (hpar : ∀ t ∈ els', par t ∈ els ∧ elemRegion t.coords ⊆ elemRegion (par t).coords ∧ t.material = (par t).material)
    {f : Tri6 n → ℝ × ℝ → ℝ} (hf : ∀ t ∈ els, Continuous (f t)) :
    wInt els f = wInt els' fun t => f (par t) := by
  classical
  have hd : ∀ a ∈ els, ∀ b ∈ els, a ≠ b → volume (elemRegion a.coords ∩ elemRegion b.coords) = 0 :=
    fun a ha b hb hab =>
      haveI : Std.Symm fun a b : Tri6 n => volume (elemRegion a.coords ∩ elemRegion b.coords) = 0 :=
        ⟨fun a b h => by rwa [Set.inter_comm]⟩
      List.Pairwise.forall hR.once ha hb hab
  have key : ∀ t ∈ els, t.material.elasticModulus * ∫ p in elemRegion t.coords, f t p
      = (els'.map fun t' => if par t' = t then t.material.elasticModulus * ∫ p in elemRegion t'.coords, f t p else 0).sum := by
    intro t ht
    have e : (elemRegion t.coords ∩ region els' : Set (ℝ × ℝ)) =ᵐ[volume] elemRegion t.coords := by
      have h1 : (elemRegion t.coords ∩ region els : Set (ℝ × ℝ)) = elemRegion t.coords :=
        Set.inter_eq_left.2 fun p hp => ⟨t, ht, hp⟩
      have h2 : (elemRegion t.coords ∩ region els' : Set (ℝ × ℝ)) =ᵐ[volume] (elemRegion t.coords ∩ region els : Set (ℝ × ℝ)) :=
        Filter.EventuallyEq.inter (Filter.EventuallyEq.refl _ _) hR.same.symm
      rwa [h1] at h2
    rw [← setIntegral_congr_set e, (integral_parts hR.once' (measurable_elemRegion _) (hf t ht)).2, ← List.sum_map_mul_left]
    refine congrArg List.sum (List.map_congr_left fun t' ht' => ?_)
    obtain ⟨h1, h2, -⟩ := hpar t' ht'
    split
    · next h => rw [h] at h2; rw [Set.inter_eq_right.2 h2]
    · next h =>
      have h0 : volume (elemRegion t.coords ∩ elemRegion t'.coords) = 0 :=
        measure_mono_null (Set.inter_subset_inter_right _ h2) (hd t ht _ h1 (Ne.symm h))
      rw [setIntegral_measure_zero _ h0, mul_zero]
  rw [wInt, List.map_congr_left key, sum_swap, wInt]
  refine congrArg List.sum (List.map_congr_left fun t' ht' => ?_)
  obtain ⟨h1, -, h3⟩ := hpar t' ht'
  rw [sum_pick (nodup_elems hp hR.once) h1 (fun t => t.material.elasticModulus * ∫ p in elemRegion t'.coords, f t p), h3]

/-! ### Moving both meshes -/

theorem mem_region_shift {c : Coords} {cx cy : ℝ} {p : ℝ × ℝ} :
    p ∈ elemRegion (c.shift cx cy) ↔ (p.1 + cx, p.2 + cy) ∈ elemRegion c := by
  simp only [elemRegion, Spec.triangle, convexHull_triple_eq_image, Set.mem_image]
  refine exists_congr fun st => and_congr_right fun _ => ?_
  simp only [triMap, cornerA, cornerB, cornerC, Coords.shift, Prod.ext_iff]
  constructor <;> rintro ⟨h1, h2⟩ <;> constructor <;> linarith

theorem region_shift {cx cy : ℝ} : region (shifted els cx cy) = (fun p => p + (cx, cy)) ⁻¹' region els := by
  ext p
  simp only [region, shifted, Set.mem_ofPred_eq, Set.mem_preimage]
  constructor
  · rintro ⟨t, ht, hp⟩
    obtain ⟨u, hu, rfl⟩ := List.mem_map.1 ht
    exact ⟨u, hu, mem_region_shift.1 hp⟩
  · rintro ⟨u, hu, hp⟩
    exact ⟨_, List.mem_map_of_mem hu, mem_region_shift.2 hp⟩

theorem noOverlap_shift (h : NoOverlap els) (cx cy : ℝ) : NoOverlap (shifted els cx cy) := by
  rw [NoOverlap, shifted, List.pairwise_map]
  refine List.Pairwise.imp (fun {a b} hab => ?_) h
  have : elemRegion (a.shiftBy cx cy).coords ∩ elemRegion (b.shiftBy cx cy).coords
      = (fun p => p + (cx, cy)) ⁻¹' (elemRegion a.coords ∩ elemRegion b.coords) := by
    ext p
    exact and_congr mem_region_shift mem_region_shift
  rw [this, measure_preimage_add_right]
  exact hab

theorem refines_shift (hR : Refines els els') (cx cy : ℝ) : Refines (shifted els cx cy) (shifted els' cx cy) := by
  refine ⟨noOverlap_shift hR.once cx cy, noOverlap_shift hR.once' cx cy, ?_, ?_⟩
  · rw [region_shift, region_shift]
    exact (measurePreserving_add_right volume (cx, cy)).quasiMeasurePreserving.preimage_ae_eq hR.same
  · intro t ht
    obtain ⟨u, hu, rfl⟩ := List.mem_map.1 ht
    obtain ⟨v, hv, h1, h2⟩ := hR.inside u hu
    exact ⟨_, List.mem_map_of_mem hv, fun p hp => mem_region_shift.2 (h1 (mem_region_shift.1 hp)), h2⟩

theorem conforming_shift {pos : Fin n → ℝ × ℝ} (hc : ConformingMesh pos els) (cx cy : ℝ) :
    ConformingMesh (fun i => ((pos i).1 - cx, (pos i).2 - cy)) (shifted els cx cy) := by
  intro a ha b hb hab p hp
  obtain ⟨a, ha', rfl⟩ := List.mem_map.1 ha
  obtain ⟨b, hb', rfl⟩ := List.mem_map.1 hb
  obtain ⟨i, j, k, h1, h2, h3⟩ := hc a ha' b hb' (fun h => hab (by rw [h])) (p.1 + cx, p.2 + cy)
    ⟨mem_region_shift.1 hp.1, mem_region_shift.1 hp.2⟩
  refine ⟨i, j, k, h1, ?_, ?_⟩
  · simp only [h2, Prod.mk.injEq]
    constructor <;> ring
  · obtain ⟨u, v, hu, hv, huv, h⟩ := h3
    refine ⟨u, v, hu, hv, huv, ?_⟩
    simp only [Prod.ext_iff, Prod.fst_add, Prod.smul_fst, Prod.snd_add, Prod.smul_snd, smul_eq_mul] at h ⊢
    obtain rfl : u = 1 - v := by linarith
    exact ⟨by linarith [h.1], by linarith [h.2]⟩

end SP
