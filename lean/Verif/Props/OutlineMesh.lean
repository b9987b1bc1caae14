import Verif.Lemmas.Convex
import Verif.Lemmas.Green
import Verif.Spec.MeshOutline
import Verif.Props.OutlineGeometry

/-!
# C89: a mesh whose boundary is the outline fills the section without overlaps
-/

namespace SP

open Spec MeasureTheory Set

theorem crosses_split {a b c : ℝ × ℝ} (h : c ∈ segment ℝ a b) (p : ℝ × ℝ) : crosses (a, b) p = crosses (a, c) p + crosses (c, b) p := by
  obtain ⟨u, v, hu, hv, huv, rfl⟩ := h
  have hu' : u = 1 - v := by linarith
  subst hu'
  have e1 : signedArea2 a ((1 - v) • a + v • b) p = v * signedArea2 a b p := by
    simp only [signedArea2, Prod.fst_add, Prod.snd_add, Prod.smul_fst, Prod.smul_snd, smul_eq_mul]; ring
  have e2 : signedArea2 ((1 - v) • a + v • b) b p = (1 - v) * signedArea2 a b p := by
    simp only [signedArea2, Prod.fst_add, Prod.snd_add, Prod.smul_fst, Prod.smul_snd, smul_eq_mul]; ring
  rcases hv.eq_or_lt with rfl | hv
  · simp [crosses_flat]
  rcases hu.eq_or_lt with hu0 | hu
  · have : v = 1 := by linarith
    subst this
    simp [crosses_flat]
  have p1 : 0 < v * signedArea2 a b p ↔ 0 < signedArea2 a b p := mul_pos_iff_of_pos_left hv
  have p2 : 0 < (1 - v) * signedArea2 a b p ↔ 0 < signedArea2 a b p := mul_pos_iff_of_pos_left hu
  have p3 : v * signedArea2 a b p < 0 ↔ signedArea2 a b p < 0 := ⟨fun h => neg_of_mul_neg_right h hv.le, fun h => mul_neg_of_pos_of_neg hv h⟩
  have p4 : (1 - v) * signedArea2 a b p < 0 ↔ signedArea2 a b p < 0 := ⟨fun h => neg_of_mul_neg_right h hu.le, fun h => mul_neg_of_pos_of_neg hu h⟩
  simp only [crosses, e1, e2, p1, p2, p3, p4]
  have hy : ((1 - v) • a + v • b).2 = a.2 + v * (b.2 - a.2) := by
    simp only [Prod.snd_add, Prod.smul_snd, smul_eq_mul]; ring
  rw [hy]
  generalize signedArea2 a b p = s
  have hv1 : v < 1 := by linarith
  rcases le_total a.2 b.2 with hab | hab
  · have q1 : a.2 ≤ a.2 + v * (b.2 - a.2) := by nlinarith
    have q2 : a.2 + v * (b.2 - a.2) ≤ b.2 := by nlinarith
    generalize a.2 + v * (b.2 - a.2) = y at *
    have n1 : ¬ (b.2 ≤ p.2 ∧ p.2 < a.2) := fun h => by linarith [h.1, h.2]
    have n2 : ¬ (y ≤ p.2 ∧ p.2 < a.2) := fun h => by linarith [h.1, h.2]
    have n3 : ¬ (b.2 ≤ p.2 ∧ p.2 < y) := fun h => by linarith [h.1, h.2]
    simp only [← and_assoc, n1, n2, n3, false_and, if_false, sub_zero]
    by_cases hs : 0 < s
    · simp only [hs, and_true]
      by_cases k1 : a.2 ≤ p.2 <;> by_cases k2 : p.2 < b.2 <;> by_cases k3 : p.2 < y <;>
        simp only [k1, k2, k3, and_false, if_true, if_false, and_true]
      all_goals first
        | (have := not_lt.1 k3; simp [this]; done)
        | (have : ¬ y ≤ p.2 := not_le.2 k3; simp [this]; done)
        | (exfalso; linarith)
    · simp [hs]
  · have q1 : b.2 ≤ a.2 + v * (b.2 - a.2) := by nlinarith
    have q2 : a.2 + v * (b.2 - a.2) ≤ a.2 := by nlinarith
    generalize a.2 + v * (b.2 - a.2) = y at *
    have n1 : ¬ (a.2 ≤ p.2 ∧ p.2 < b.2) := fun h => by linarith [h.1, h.2]
    have n2 : ¬ (a.2 ≤ p.2 ∧ p.2 < y) := fun h => by linarith [h.1, h.2]
    have n3 : ¬ (y ≤ p.2 ∧ p.2 < b.2) := fun h => by linarith [h.1, h.2]
    simp only [← and_assoc, n1, n2, n3, false_and, if_false, zero_sub]
    by_cases hs : s < 0
    · simp only [hs, and_true]
      by_cases k1 : b.2 ≤ p.2 <;> by_cases k2 : p.2 < a.2 <;> by_cases k3 : p.2 < y <;>
        simp only [k1, k2, k3, and_false, if_true, if_false, and_true]
      all_goals first
        | (have := not_lt.1 k3; simp [this]; done)
        | (have : ¬ y ≤ p.2 := not_le.2 k3; simp [this]; done)
        | (exfalso; linarith)
    · simp [hs]

theorem winding_path {a b : ℝ × ℝ} {l : List DirEdge} (h : StraightPath a b l) (p : ℝ × ℝ) : winding l p = crosses (a, b) p := by
  induction h with
  | edge a b => simp [winding]
  | split hc _ _ ih1 ih2 => rw [winding_append, ih1, ih2, crosses_split hc]

theorem winding_perm {l l' : List DirEdge} (h : l.Perm l') (p : ℝ × ℝ) : winding l p = winding l' p :=
  (h.map _).sum_eq

/-- How often the boundary goes round a point is the number of elements that the point is in, almost everywhere. -/
theorem winding_elem {c : Coords} (h : Proper c) : ∀ᵐ p, winding (elemEdges c) p = (elemRegion c).indicator (fun _ => 1) p := by
  have hd : 0 < signedArea2 (cornerA c) (cornerB c) (cornerC c) := h.2
  have n1 : cornerA c ≠ cornerB c := fun he => by rw [he] at hd; simp [signedArea2] at hd
  have n2 : cornerB c ≠ cornerC c := fun he => by rw [he] at hd; simp only [signedArea2] at hd; linarith
  have n3 : cornerC c ≠ cornerA c := fun he => by rw [he] at hd; simp [signedArea2] at hd
  have z1 := signedArea_null n1
  have z2 := signedArea_null n2
  have z3 := signedArea_null n3
  rw [measure_eq_zero_iff_ae_notMem] at z1 z2 z3
  filter_upwards [z1, z2, z3] with p h1 h2 h3
  have hw : winding (elemEdges c) p = triWinding (cornerA c) (cornerB c) (cornerC c) p := by
    simp [winding, elemEdges, triWinding]
    ring
  have hm : p ∈ elemRegion c ↔ 0 ≤ signedArea2 (cornerB c) (cornerC c) p ∧ 0 ≤ signedArea2 (cornerC c) (cornerA c) p
      ∧ 0 ≤ signedArea2 (cornerA c) (cornerB c) p := by
    have e0 : cross2 (cornerA c) (cornerB c) (cornerC c) = signedArea2 (cornerA c) (cornerB c) (cornerC c) := by
      simp only [cross2, signedArea2]
    rw [elemRegion, mem_tri_iff (by rw [e0]; exact hd)]
    have e1 : cross2 p (cornerB c) (cornerC c) = signedArea2 (cornerB c) (cornerC c) p := by simp only [cross2, signedArea2]; ring
    have e2 : cross2 (cornerA c) p (cornerC c) = signedArea2 (cornerC c) (cornerA c) p := by simp only [cross2, signedArea2]; ring
    have e3 : cross2 (cornerA c) (cornerB c) p = signedArea2 (cornerA c) (cornerB c) p := by simp only [cross2, signedArea2]
    rw [e1, e2, e3]
  rw [hw]
  rcases triWinding_eq hd h1 h2 h3 with ⟨g1, g2, g3, g4⟩ | ⟨g0, g4⟩
  · rw [g4, indicator_of_mem (hm.2 ⟨g2.le, g3.le, g1.le⟩)]
  · rw [g4, indicator_of_notMem]
    intro hmem
    obtain ⟨k1, k2, k3⟩ := hm.1 hmem
    exact g0 ⟨lt_of_le_of_ne k3 (Ne.symm h1), lt_of_le_of_ne k1 (Ne.symm h2), lt_of_le_of_ne k2 (Ne.symm h3)⟩

variable {n : ℕ} {els : List (Tri6 n)} {outline : List ((ℝ × ℝ) × (ℝ × ℝ))}

theorem bounded_winding (hb : BoundedBy els outline) (p : ℝ × ℝ) :
    winding outline p = (els.map fun t => winding (elemEdges t.coords) p).sum := by
  obtain ⟨parts, inner, h1, h2⟩ := hb
  rw [← winding_flatMap, winding_perm h2, winding_append, winding_append, winding_swap, add_assoc, add_neg_cancel, add_zero]
  clear h2
  induction h1 with
  | nil => simp [winding]
  | @cons e l es ls h hs ih =>
    rw [List.flatten_cons, winding_append, winding_path h, ← ih]
    simp [winding]

open Classical in
/-- The number of elements that a point is in. -/
theorem bounded_count (hp : ∀ t ∈ els, Proper t.coords) (hb : BoundedBy els outline) :
    ∀ᵐ p, winding outline p = (els.map fun t => (elemRegion t.coords).indicator (fun _ => (1 : ℤ)) p).sum := by
  have hall : ∀ᵐ p, ∀ t ∈ els, winding (elemEdges t.coords) p = (elemRegion t.coords).indicator (fun _ => 1) p := by
    have : ∀ l : List (Tri6 n), (∀ t ∈ l, Proper t.coords) →
        ∀ᵐ p, ∀ t ∈ l, winding (elemEdges t.coords) p = (elemRegion t.coords).indicator (fun _ => 1) p := by
      intro l
      induction l with
      | nil => intro _; simp
      | cons a l ih =>
        intro hl
        filter_upwards [winding_elem (hl a (List.mem_cons_self ..)), ih fun t ht => hl t (List.mem_cons_of_mem _ ht)] with p h1 h2 t ht
        rcases List.mem_cons.1 ht with rfl | ht
        · exact h1
        · exact h2 t ht
    exact this els hp
  filter_upwards [hall] with p h
  rw [bounded_winding hb]
  exact congrArg _ (List.map_congr_left h)

theorem count_nonneg (l : List (Tri6 n)) (p : ℝ × ℝ) :
    0 ≤ (l.map fun t => (elemRegion t.coords).indicator (fun _ => (1 : ℤ)) p).sum := by
  refine List.sum_nonneg fun x hx => ?_
  obtain ⟨t, -, rfl⟩ := List.mem_map.1 hx
  exact indicator_nonneg (fun _ _ => zero_le_one) p

theorem count_pos {l : List (Tri6 n)} {p : ℝ × ℝ} :
    0 < (l.map fun t => (elemRegion t.coords).indicator (fun _ => (1 : ℤ)) p).sum ↔ p ∈ region l := by
  induction l with
  | nil => simp [region]
  | cons a l ih =>
    rw [List.map_cons, List.sum_cons, region_cons, mem_union, ← ih]
    have := count_nonneg l p
    by_cases h : p ∈ elemRegion a.coords
    · rw [indicator_of_mem h]
      exact ⟨fun _ => .inl h, fun _ => by linarith⟩
    · rw [indicator_of_notMem h, zero_add]
      exact ⟨fun h => .inr h, fun h' => h'.resolve_left h⟩

/-- Elements that count no point twice do not overlap. -/
theorem noOverlap_of_count {l : List (Tri6 n)}
    (h : ∀ᵐ p, (l.map fun t => (elemRegion t.coords).indicator (fun _ => (1 : ℤ)) p).sum ≤ 1) : NoOverlap l := by
  induction l with
  | nil => exact List.Pairwise.nil
  | cons a l ih =>
    refine List.pairwise_cons.2 ⟨fun b hb => ?_, ih ?_⟩
    · rw [measure_eq_zero_iff_ae_notMem]
      filter_upwards [h] with p hp hmem
      rw [List.map_cons, List.sum_cons, indicator_of_mem hmem.1] at hp
      have := count_pos.2 (⟨b, hb, hmem.2⟩ : p ∈ region l)
      linarith
    · filter_upwards [h] with p hp
      rw [List.map_cons, List.sum_cons] at hp
      have : (0 : ℤ) ≤ (elemRegion a.coords).indicator (fun _ => (1 : ℤ)) p := indicator_nonneg (fun _ _ => zero_le_one) p
      linarith

theorem ringCCW_winding {r : List (ℝ × ℝ)} (h : SimpleRing r) :
    ∀ᵐ q, winding (ringCCW r) q = (SignType.sign (ringArea2 r) : ℤ) * winding (closedEdges r) q := by
  have hA : ringArea2 r = 2 * outlineArea (closedEdges r) := ringArea2_outline r
  filter_upwards [simple_sign h] with q hq
  rw [ringCCW]
  rcases lt_trichotomy (outlineArea (closedEdges r)) 0 with h0 | h0 | h0
  · rw [if_neg h0.not_gt, winding_swap, sign_neg (by linarith)]
    simp
  · have hz : SignType.sign (ringArea2 r) = 0 := by rw [hA, h0, mul_zero, sign_zero]
    rw [hz] at hq ⊢
    rw [if_neg h0.not_gt, winding_swap]
    rcases hq with hq | hq
    · rw [hq]; simp
    · simp at hq
  · rw [if_pos h0, sign_pos (by linarith)]
    simp

open Classical in
/-- The outline of a valid polygon goes once round its points. -/
theorem winding_outline {p : Poly} (h : ValidPoly p) : ∀ᵐ q, winding (polyOutline p) q = if q ∈ polyRegion p then 1 else 0 := by
  have hint : ∀ᵐ q, ∀ r ∈ p.interiors, winding (ringCCW r) q = (SignType.sign (ringArea2 r) : ℤ) * winding (closedEdges r) q := by
    have : ∀ L : List (List (ℝ × ℝ)), (∀ r ∈ L, SimpleRing r) → ∀ᵐ q, ∀ r ∈ L,
        winding (ringCCW r) q = (SignType.sign (ringArea2 r) : ℤ) * winding (closedEdges r) q := by
      intro L
      induction L with
      | nil => intro _; simp
      | cons a L ih =>
        intro hL
        filter_upwards [ringCCW_winding (hL a (List.mem_cons_self ..)), ih fun r hr => hL r (List.mem_cons_of_mem _ hr)] with q h1 h2 r hr
        rcases List.mem_cons.1 hr with rfl | hr
        · exact h1
        · exact h2 r hr
    exact this _ h.interiors
  filter_upwards [winding_poly h, ringCCW_winding h.exterior, hint] with q h1 h2 h3
  rw [← h1, polyOutline, polyEdges, winding_append, winding_append, h2, winding_orient, winding_flatMap, winding_flatMap]
  congr 2
  refine List.map_congr_left fun r hr => ?_
  have : ((- SignType.sign (ringArea2 r) : SignType) : ℤ) = - (SignType.sign (ringArea2 r) : ℤ) := by
    cases SignType.sign (ringArea2 r) <;> rfl
  rw [ringCW, winding_swap, h3 r hr, winding_orient, this]
  ring

theorem closed_outline (p : Poly) : ClosedOutline (polyOutline p) := by
  have h1 : ∀ r, ClosedOutline (ringCCW r) := fun r => by
    rw [ringCCW]
    split_ifs
    · exact closed_ring r
    · exact closed_orient (-1) (closed_ring r)
  refine closed_append (h1 _) (closed_flatMap _ _ fun r _ => ?_)
  exact closed_orient (-1) (h1 r)

/-- **C89** If the boundary of the mesh of each geometry is the outline of its polygon, the elements do not overlap and fill the
geometries. Any triangulation of the points and facets of the geometry will do. -/
theorem C89_mesh {geoms : List Geometry} (hp : ∀ t ∈ els, Proper t.coords) (hv : ∀ g ∈ geoms, ValidPoly g.poly)
    (hap : geoms.Pairwise fun g h => volume (polyRegion g.poly ∩ polyRegion h.poly) = 0) (part : Tri6 n → Fin geoms.length)
    (hb : ∀ i, BoundedBy (els.filter fun t => part t = i) (polyOutline geoms[i].poly))
    (hm : ∀ t ∈ els, t.material = geoms[part t].material) : NoOverlap els ∧ Meshes els geoms := by
  classical
  set cnt := fun (l : List (Tri6 n)) (p : ℝ × ℝ) => (l.map fun t => (elemRegion t.coords).indicator (fun _ => (1 : ℤ)) p).sum with hcnt
  have hone : ∀ᵐ q, ∀ i : Fin geoms.length, cnt (els.filter fun t => part t = i) q = if q ∈ polyRegion geoms[i].poly then 1 else 0 := by
    rw [ae_all_iff]
    intro i
    filter_upwards [bounded_count (fun t ht => hp t (List.mem_of_mem_filter ht)) (hb i),
      winding_outline (hv geoms[i] (List.getElem_mem _))] with q h1 h2
    exact h1.symm.trans h2
  have hapart : ∀ᵐ q, ∀ i j : Fin geoms.length, i ≠ j → ¬ (q ∈ polyRegion geoms[i].poly ∧ q ∈ polyRegion geoms[j].poly) := by
    simp only [ae_all_iff]
    intro i j hij
    have : volume (polyRegion geoms[i].poly ∩ polyRegion geoms[j].poly) = 0 := by
      rcases lt_or_gt_of_ne hij with hl | hl
      · exact List.pairwise_iff_getElem.1 hap i j i.2 j.2 hl
      · rw [inter_comm]
        exact List.pairwise_iff_getElem.1 hap j i j.2 i.2 hl
    rw [measure_eq_zero_iff_ae_notMem] at this
    exact this
  have hsplit : ∀ (l : List (Tri6 n)) q, cnt l q = ∑ i : Fin geoms.length, cnt (l.filter fun t => part t = i) q := by
    intro l q
    induction l with
    | nil => simp [hcnt]
    | cons a l ih =>
      have e : ∀ i, cnt ((a :: l).filter fun t => part t = i) q
          = (if part a = i then (elemRegion a.coords).indicator (fun _ => (1 : ℤ)) q else 0) + cnt (l.filter fun t => part t = i) q := by
        intro i
        by_cases h : part a = i
        · simp [hcnt, h]
        · simp [hcnt, h]
      simp only [e, Finset.sum_add_distrib, ← ih]
      simp [hcnt]
  have hmem : ∀ᵐ q, ∀ t ∈ els, q ∈ elemRegion t.coords → q ∈ polyRegion geoms[part t].poly := by
    filter_upwards [hone] with q h1 t ht hq
    by_contra hn
    have h2 := h1 (part t)
    rw [if_neg hn] at h2
    have : 0 < cnt (els.filter fun t' => part t' = part t) q :=
      count_pos.2 ⟨t, List.mem_filter.2 ⟨ht, by simp⟩, hq⟩
    omega
  refine ⟨noOverlap_of_count ?_, hv, hap, ?_, ?_⟩
  · filter_upwards [hone, hapart] with q h1 h2
    show cnt els q ≤ 1
    rw [hsplit]
    simp only [h1]
    by_cases hex : ∃ i : Fin geoms.length, q ∈ polyRegion geoms[i].poly
    · obtain ⟨i, hi⟩ := hex
      rw [Finset.sum_eq_single_of_mem i (Finset.mem_univ _), if_pos hi]
      intro j _ hji
      rw [if_neg fun hj => h2 i j hji.symm ⟨hi, hj⟩]
    · rw [Finset.sum_eq_zero]
      · exact zero_le_one
      · intro i _
        rw [if_neg fun hi => hex ⟨i, hi⟩]
  · filter_upwards [hone, hmem] with q h1 h2
    refine propext ⟨?_, ?_⟩
    · rintro ⟨t, ht, hq⟩
      exact ⟨geoms[part t], List.getElem_mem _, h2 t ht hq⟩
    · rintro ⟨g, hg, hq⟩
      obtain ⟨i, hi, rfl⟩ := List.mem_iff_getElem.1 hg
      have h3 := (h1 ⟨i, hi⟩).trans (if_pos hq)
      have h4 : 0 < cnt (els.filter fun t => part t = ⟨i, hi⟩) q := by omega
      obtain ⟨t, ht, hq⟩ := count_pos.1 h4
      exact ⟨t, List.mem_of_mem_filter ht, hq⟩
  · intro t ht g hg
    obtain ⟨i, hi, rfl⟩ := List.mem_iff_getElem.1 hg
    filter_upwards [hmem, hapart] with q h1 h2 hq hq'
    rw [hm t ht]
    by_cases he : part t = ⟨i, hi⟩
    · exact congrArg (fun k : Fin geoms.length => geoms[k].material) he
    · exact absurd ⟨h1 t ht hq, hq'⟩ (h2 _ _ he)

end SP
