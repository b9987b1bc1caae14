import Verif.Props.RectShapes
import Verif.Props.TorsionExample
import Mathlib.Logic.Equiv.Fin.Basic
import Mathlib.Data.List.FinRange

/-!
# C88: every family of rectangles is the region of a mesh

Two triangles for each rectangle, with nodes of their own.
-/

namespace SP

open Spec MeasureTheory Set

/-- The nodes of the two triangles of a rectangle: corners and midpoints of the lower right one, then of the upper left one. -/
noncomputable def rectNode (R : Rect) : Fin 2 × Fin 6 → ℝ × ℝ := fun q =>
  ![![(R.x0, R.y0), (R.x1, R.y0), (R.x1, R.y1), ((R.x0 + R.x1) / 2, R.y0), (R.x1, (R.y0 + R.y1) / 2),
      ((R.x0 + R.x1) / 2, (R.y0 + R.y1) / 2)],
    ![(R.x0, R.y0), (R.x1, R.y1), (R.x0, R.y1), ((R.x0 + R.x1) / 2, (R.y0 + R.y1) / 2), ((R.x0 + R.x1) / 2, R.y1),
      (R.x0, (R.y0 + R.y1) / 2)]] q.1 q.2

/-- Numbers of the nodes: rectangle, triangle, node. -/
def nodeNoEquiv (k : ℕ) : Fin k × Fin 2 × Fin 6 ≃ Fin (k * (2 * 6)) :=
  (Equiv.prodCongr (Equiv.refl _) finProdFinEquiv).trans finProdFinEquiv

noncomputable def rectNodes {k : ℕ} (R : Fin k → Rect) : Fin (k * (2 * 6)) → ℝ × ℝ := fun q =>
  rectNode (R ((nodeNoEquiv k).symm q).1) ((nodeNoEquiv k).symm q).2

/-- A triangle of a rectangle. -/
noncomputable def rectTri {k : ℕ} (R : Fin k → Rect) (m : Fin k → Material) (q : Fin k × Fin 2) : Tri6 (k * (2 * 6)) :=
  ⟨q.1 * 2 + q.2, gather (rectNodes R) fun j => nodeNoEquiv k (q.1, q.2, j), fun j => nodeNoEquiv k (q.1, q.2, j), m q.1⟩

/-- The triangles of all rectangles. -/
noncomputable def rectTris {k : ℕ} (R : Fin k → Rect) (m : Fin k → Material) : List (Tri6 (k * (2 * 6))) :=
  ((Finset.univ : Finset (Fin k × Fin 2)).toList).map (rectTri R m)

theorem mem_rectTris {k : ℕ} {R : Fin k → Rect} {m : Fin k → Material} {t : Tri6 (k * (2 * 6))} :
    t ∈ rectTris R m ↔ ∃ i j, t = rectTri R m (i, j) := by
  simp only [rectTris, List.mem_map, Finset.mem_toList, Finset.mem_univ, true_and, Prod.exists]
  exact exists_congr fun _ => exists_congr fun _ => eq_comm

theorem rectNodes_at {k : ℕ} (R : Fin k → Rect) (i : Fin k) (j : Fin 2) (l : Fin 6) :
    rectNodes R (nodeNoEquiv k (i, j, l)) = rectNode (R i) (j, l) := by
  simp [rectNodes]

variable {k : ℕ} {R : Fin k → Rect} {m : Fin k → Material}

theorem rectTri_proper (hw : ∀ i, 0 < (R i).width) (hh : ∀ i, 0 < (R i).height) (i : Fin k) (j : Fin 2) :
    Proper (rectTri R m (i, j)).coords := by
  have h3 := mul_pos (hw i) (hh i)
  simp only [Rect.width, Rect.height] at h3
  fin_cases j <;>
  · simp only [Proper, Straight, elemDet, signedArea2, cornerA, cornerB, cornerC, rectTri, gather, rectNodes_at, rectNode]
    simp
    first
      | exact h3
      | exact ⟨add_comm _ _, h3⟩

/-- The part of a closed rectangle below or above its diagonal. -/
def rectHalf (R : Rect) (j : Fin 2) : Set (ℝ × ℝ) :=
  {p | R.x0 ≤ p.1 ∧ p.1 ≤ R.x1 ∧ R.y0 ≤ p.2 ∧ p.2 ≤ R.y1 ∧
    if j = 0 then (p.2 - R.y0) * R.width ≤ (p.1 - R.x0) * R.height else (p.1 - R.x0) * R.height ≤ (p.2 - R.y0) * R.width}

theorem rectTri_mem (hw : ∀ i, 0 < (R i).width) (hh : ∀ i, 0 < (R i).height) (i : Fin k) (j : Fin 2) :
    elemRegion (rectTri R m (i, j)).coords = rectHalf (R i) j := by
  have h1 := hw i
  have h2 := hh i
  have eA : cornerA (rectTri R m (i, j)).coords = rectNode (R i) (j, 0) := rectNodes_at R i j 0
  have eB : cornerB (rectTri R m (i, j)).coords = rectNode (R i) (j, 1) := rectNodes_at R i j 1
  have eC : cornerC (rectTri R m (i, j)).coords = rectNode (R i) (j, 2) := rectNodes_at R i j 2
  ext p
  rw [elemRegion, eA, eB, eC, mem_tri]
  generalize R i = Q at h1 h2
  have e1 : Q.x1 = Q.x0 + Q.width := by simp [Rect.width]
  have e2 : Q.y1 = Q.y0 + Q.height := by simp [Rect.height]
  have key : (p.2 - Q.y0) / Q.height ≤ (p.1 - Q.x0) / Q.width ↔ (p.2 - Q.y0) * Q.width ≤ (p.1 - Q.x0) * Q.height :=
    div_le_div_iff₀ h2 h1
  have key' : (p.1 - Q.x0) / Q.width ≤ (p.2 - Q.y0) / Q.height ↔ (p.1 - Q.x0) * Q.height ≤ (p.2 - Q.y0) * Q.width :=
    div_le_div_iff₀ h1 h2
  have k1 : p.1 = Q.x0 + (p.1 - Q.x0) / Q.width * Q.width := by rw [div_mul_cancel₀ _ h1.ne']; ring
  have k2 : p.2 = Q.y0 + (p.2 - Q.y0) / Q.height * Q.height := by rw [div_mul_cancel₀ _ h2.ne']; ring
  fin_cases j
  · simp only [rectNode, rectHalf, mem_ofPred_eq]
    simp only [Fin.zero_eta, Fin.isValue, Matrix.cons_val_zero, Matrix.cons_val_one, Matrix.cons_val, if_true, e1, e2]
    constructor
    · rintro ⟨s, t, hs, ht, hst, q1, q2⟩
      have q1 : p.1 = Q.x0 + (s + t) * Q.width := by rw [q1]; ring
      have q2 : p.2 = Q.y0 + t * Q.height := by rw [q2]; ring
      have a1 := mul_nonneg (add_nonneg hs ht) h1.le
      have a2 := mul_nonneg ht h2.le
      have a3 := mul_nonneg (sub_nonneg.2 hst) h1.le
      have a4 := mul_nonneg (by linarith : 0 ≤ 1 - t) h2.le
      refine ⟨by linarith, by linarith, by linarith, by linarith, ?_⟩
      rw [← sub_nonneg, q1, q2]
      have := mul_nonneg hs (mul_pos h1 h2).le
      linarith
    · rintro ⟨c1, c2, c3, c4, c5⟩
      refine ⟨(p.1 - Q.x0) / Q.width - (p.2 - Q.y0) / Q.height, (p.2 - Q.y0) / Q.height, sub_nonneg.2 (key.2 c5),
        div_nonneg (by linarith) h2.le, ?_, ?_, ?_⟩
      · rw [sub_add_cancel, div_le_one h1]; linarith
      · linarith
      · linarith
  · simp only [rectNode, rectHalf, mem_ofPred_eq]
    simp only [Fin.mk_one, Fin.isValue, Matrix.cons_val_zero, Matrix.cons_val_one, Matrix.cons_val, one_ne_zero, if_false, e1, e2]
    constructor
    · rintro ⟨s, t, hs, ht, hst, q1, q2⟩
      have q1 : p.1 = Q.x0 + s * Q.width := by rw [q1]; ring
      have q2 : p.2 = Q.y0 + (s + t) * Q.height := by rw [q2]; ring
      have a1 := mul_nonneg hs h1.le
      have a2 := mul_nonneg (add_nonneg hs ht) h2.le
      have a3 := mul_nonneg (sub_nonneg.2 hst) h2.le
      have a4 := mul_nonneg (by linarith : 0 ≤ 1 - s) h1.le
      refine ⟨by linarith, by linarith, by linarith, by linarith, ?_⟩
      rw [← sub_nonneg, q1, q2]
      have := mul_nonneg ht (mul_pos h1 h2).le
      linarith
    · rintro ⟨c1, c2, c3, c4, c5⟩
      refine ⟨(p.1 - Q.x0) / Q.width, (p.2 - Q.y0) / Q.height - (p.1 - Q.x0) / Q.width, div_nonneg (by linarith) h1.le,
        sub_nonneg.2 (key'.2 c5), ?_, ?_, ?_⟩
      · rw [add_sub_cancel, div_le_one h2]; linarith
      · linarith
      · linarith

theorem ae_side (c : ℝ) : ∀ᵐ p : ℝ × ℝ, p.1 ≠ c := by
  have : volume {p : ℝ × ℝ | p.1 = c} = 0 := by
    have : {p : ℝ × ℝ | p.1 = c} = {c} ×ˢ univ := by ext p; simp
    rw [this, Measure.volume_eq_prod, Measure.prod_prod, measure_singleton, zero_mul]
  rwa [← compl_mem_ae_iff] at this

/-- Off four lines, being in the closed rectangle is being inside. -/
theorem rect_ae_inside (Q : Rect) : ∀ᵐ p : ℝ × ℝ,
    (Q.x0 ≤ p.1 ∧ p.1 ≤ Q.x1 ∧ Q.y0 ≤ p.2 ∧ p.2 ≤ Q.y1) → p ∈ Q.inside := by
  filter_upwards [ae_side Q.x0, ae_side Q.x1, ae_height Q.y0, ae_height Q.y1] with p h1 h2 h3 h4 ⟨g1, g2, g3, g4⟩
  exact ⟨⟨lt_of_le_of_ne g1 (Ne.symm h1), lt_of_le_of_ne g2 h2⟩, lt_of_le_of_ne g3 (Ne.symm h3), lt_of_le_of_ne g4 h4⟩

theorem rectTris_noOverlap (hw : ∀ i, 0 < (R i).width) (hh : ∀ i, 0 < (R i).height)
    (hd : ∀ i j, i ≠ j → Disjoint (R i).inside (R j).inside) : NoOverlap (rectTris R m) := by
  have hn := (Finset.univ : Finset (Fin k × Fin 2)).nodup_toList
  rw [NoOverlap, rectTris, List.pairwise_map]
  refine hn.imp fun {a b} hab => ?_
  obtain ⟨i, j⟩ := a
  obtain ⟨i', j'⟩ := b
  rw [rectTri_mem hw hh, rectTri_mem hw hh]
  by_cases hi : i = i'
  · subst hi
    have hj : j ≠ j' := fun h => hab (by rw [h])
    refine measure_mono_null ?_ (signedArea_null (a := ((R i).x0, (R i).y0)) (b := ((R i).x1, (R i).y1)) ?_)
    · rintro p ⟨h1, h2⟩
      simp only [rectHalf, mem_ofPred_eq] at h1 h2
      have : (p.2 - (R i).y0) * (R i).width = (p.1 - (R i).x0) * (R i).height := by
        by_cases h0 : j = 0
        · have : j' ≠ 0 := fun h => hj (h0.trans h.symm)
          rw [if_pos h0] at h1
          rw [if_neg this] at h2
          exact le_antisymm h1.2.2.2.2 h2.2.2.2.2
        · have : j' = 0 := by omega
          rw [if_neg h0] at h1
          rw [if_pos this] at h2
          exact le_antisymm h2.2.2.2.2 h1.2.2.2.2
      simp only [mem_ofPred_eq, signedArea2]
      simp only [Rect.width, Rect.height] at this
      linarith
    · intro h
      have := congrArg Prod.fst h
      have h1 := hw i
      simp only [Rect.width] at h1 this
      linarith
  · rw [measure_eq_zero_iff_ae_notMem]
    filter_upwards [rect_ae_inside (R i), rect_ae_inside (R i')] with p h1 h2 ⟨g1, g2⟩
    exact Set.disjoint_left.1 (hd i i' hi) (h1 ⟨g1.1, g1.2.1, g1.2.2.1, g1.2.2.2.1⟩) (h2 ⟨g2.1, g2.2.1, g2.2.2.1, g2.2.2.2.1⟩)

theorem rectTris_covers (hw : ∀ i, 0 < (R i).width) (hh : ∀ i, 0 < (R i).height) :
    region (rectTris R m) =ᵐ[volume] ⋃ i ∈ (Finset.univ : Finset (Fin k)), (R i).inside := by
  have hall : ∀ᵐ p : ℝ × ℝ, ∀ i : Fin k,
      (((R i).x0 ≤ p.1 ∧ p.1 ≤ (R i).x1 ∧ (R i).y0 ≤ p.2 ∧ p.2 ≤ (R i).y1) → p ∈ (R i).inside) :=
    ae_all_iff.2 fun i => rect_ae_inside (R i)
  filter_upwards [hall] with p hp
  refine propext ⟨?_, ?_⟩
  · rintro ⟨t, ht, hpt⟩
    obtain ⟨i, j, rfl⟩ := mem_rectTris.1 ht
    rw [rectTri_mem hw hh] at hpt
    exact mem_iUnion₂.2 ⟨i, Finset.mem_univ _, hp i ⟨hpt.1, hpt.2.1, hpt.2.2.1, hpt.2.2.2.1⟩⟩
  · intro h
    obtain ⟨i, -, h⟩ := mem_iUnion₂.1 h
    have hin : (R i).x0 ≤ p.1 ∧ p.1 ≤ (R i).x1 ∧ (R i).y0 ≤ p.2 ∧ p.2 ≤ (R i).y1 :=
      ⟨h.1.1.le, h.1.2.le, h.2.1.le, h.2.2.le⟩
    rcases le_total ((p.2 - (R i).y0) * (R i).width) ((p.1 - (R i).x0) * (R i).height) with hc | hc
    · refine ⟨rectTri R m (i, 0), mem_rectTris.2 ⟨i, 0, rfl⟩, ?_⟩
      rw [rectTri_mem hw hh]
      exact ⟨hin.1, hin.2.1, hin.2.2.1, hin.2.2.2, by simpa using hc⟩
    · refine ⟨rectTri R m (i, 1), mem_rectTris.2 ⟨i, 1, rfl⟩, ?_⟩
      rw [rectTri_mem hw hh]
      exact ⟨hin.1, hin.2.1, hin.2.2.1, hin.2.2.2, by simpa using hc⟩

/-- The section with these triangles. -/
noncomputable def rectSection {k : ℕ} (R : Fin k → Rect) (m : Fin k → Material) (mats : List MatObj)
    (gs : List (MaterialGroup (k * (2 * 6)))) : Section :=
  ⟨k * (2 * 6), rectNodes R, mats, rectTris R m, gs⟩

/-- Every family of rectangles that do not overlap, of any moduli, is the region of a section that meets the hypotheses of
the theorems. -/
theorem rectSection_ok (hk : 0 < k) (hw : ∀ i, 0 < (R i).width) (hh : ∀ i, 0 < (R i).height)
    (hd : ∀ i j, i ≠ j → Disjoint (R i).inside (R j).inside) (hm : ∀ i, 0 < (m i).elasticModulus) (mats : List MatObj)
    (gs : List (MaterialGroup (k * (2 * 6)))) :
    Physical (rectSection R m mats gs).elements ∧ GoodSection (rectSection R m mats gs) ∧ NodesUsed (rectSection R m mats gs) ∧
    NoOverlap (rectSection R m mats gs).elements ∧ Rectangles (rectSection R m mats gs).elements Finset.univ R ∧
    InRects (rectSection R m mats gs).elements Finset.univ R Material.elasticModulus (fun i => (m i).elasticModulus) ∧
    (∃ r, (rectSection R m mats gs).geometricAnalysis = .ok r) := by
  have hprop : ∀ t ∈ rectTris R m, Proper t.coords := by
    intro t ht
    obtain ⟨i, j, rfl⟩ := mem_rectTris.1 ht
    exact rectTri_proper hw hh i j
  refine ⟨⟨?_, hprop, ?_⟩, ⟨hprop, ?_⟩, ?_, rectTris_noOverlap hw hh hd, ⟨fun i _ => hw i, fun i _ => hh i,
    fun i _ j _ h => hd i j h, rectTris_covers hw hh⟩, ?_, ?_⟩
  · exact List.ne_nil_of_mem (mem_rectTris.2 ⟨⟨0, hk⟩, 0, rfl⟩)
  · intro t ht
    obtain ⟨i, j, rfl⟩ := mem_rectTris.1 ht
    exact hm i
  · intro t ht
    obtain ⟨i, j, rfl⟩ := mem_rectTris.1 ht
    rfl
  · intro i
    refine ⟨rectTri R m (((nodeNoEquiv k).symm i).1, ((nodeNoEquiv k).symm i).2.1), mem_rectTris.2 ⟨_, _, rfl⟩,
      ((nodeNoEquiv k).symm i).2.2, ?_⟩
    exact (nodeNoEquiv k).apply_symm_apply i
  · intro t ht i _ hne
    obtain ⟨i', j, rfl⟩ := mem_rectTris.1 ht
    by_cases hi : i' = i
    · rw [← hi]; rfl
    · exfalso
      obtain ⟨p, hp1, hp2⟩ := hne
      have hopen : IsOpen (interior (elemRegion (rectTri R m (i', j)).coords) ∩ (R i).inside) :=
        isOpen_interior.inter (isOpen_inside _)
      have hpos := hopen.measure_pos volume ⟨p, hp1, hp2⟩
      refine hpos.ne' ?_
      rw [measure_eq_zero_iff_ae_notMem]
      filter_upwards [rect_ae_inside (R i')] with q h1 ⟨g1, g2⟩
      have g1 := interior_subset g1
      rw [rectTri_mem hw hh] at g1
      exact Set.disjoint_left.1 (hd i' i hi) (h1 ⟨g1.1, g1.2.1, g1.2.2.1, g1.2.2.2.1⟩) g2
  · exact geometricAnalysis_ok _ (by simp [rectSection, hk])

/-- An I-section of depth 6, width 4, flanges 1 and web 1, and the plastic analysis of it, with exact operations. -/
example : ∃ (env : Env Body) (r : GeomResults) (st : Store env.sec.numNodes),
    PlasticSetup env r Body.set (fun _ => 0) st ∧ r.sums.area = 12 ∧ r.cent.ixxC = 56 ∧ r.cent.iyyC = 11 ∧
    (env.plasticAnalysis.run.run st).2.val .sxx = some 24 ∧ (env.plasticAnalysis.run.run st).2.val .syy = some 9 := by
  have hw : ∀ i, 0 < (iRects 6 4 1 1 i).width := by
    intro i; fin_cases i <;> norm_num [iRects, Rect.width]
  have hh : ∀ i, 0 < (iRects 6 4 1 1 i).height := by
    intro i; fin_cases i <;> norm_num [iRects, Rect.height]
  have hd : ∀ i j, i ≠ j → Disjoint (iRects 6 4 1 1 i).inside (iRects 6 4 1 1 j).inside := by
    intro i j hij
    rw [Set.disjoint_left]
    intro p hp hq
    fin_cases i <;> fin_cases j <;> simp [iRects, Rect.inside] at hp hq hij <;> linarith
  have hg : ∀ t ∈ rectTris (iRects 6 4 1 1) (fun _ => defaultMaterial), t.material = defaultMaterial := by
    intro t ht
    obtain ⟨i, j, rfl⟩ := mem_rectTris.1 ht
    rfl
  obtain ⟨q1, q2, q3, q4, q5, -⟩ := rectSection_ok (m := fun _ => defaultMaterial) (by norm_num) hw hh hd
    (fun _ => by norm_num [defaultMaterial]) [⟨0, defaultMaterial⟩]
    [⟨⟨0, defaultMaterial⟩, rectTris (iRects 6 4 1 1) fun _ => defaultMaterial⟩]
  have hreg := q5.covers.trans (iRects_shape (d := 6) (b := 4) (tf := 1) (tw := 1) (by norm_num) (by norm_num) (by norm_num)).symm
  obtain ⟨env, r, st, he, hS, hok⟩ := ex_plastic_setup _ q2 q1
    ⟨List.pairwise_singleton _ _, by simp [rectSection], by
      intro g hg' t ht
      obtain rfl : g = ⟨⟨0, defaultMaterial⟩, rectTris (iRects 6 4 1 1) fun _ => defaultMaterial⟩ := List.mem_singleton.1 hg'
      exact hg t ht⟩
    (by
      intro g hg'
      obtain rfl : g = ⟨⟨0, defaultMaterial⟩, rectTris (iRects 6 4 1 1) fun _ => defaultMaterial⟩ := List.mem_singleton.1 hg'
      norm_num [defaultMaterial])
    (fun t ht => ⟨⟨0, defaultMaterial⟩, List.mem_singleton.2 rfl, hg t ht⟩) (by norm_num [rectSection])
  rw [← he] at q1 q2 q3 q4 hreg
  have hg1 : ∀ t ∈ env.sec.elements, t.material.elasticModulus = 1 := by
    rw [he]; intro t ht; rw [hg t ht]; norm_num [defaultMaterial]
  have hg2 : ∀ t ∈ env.sec.elements, t.material.yieldStrength = 1 := by
    rw [he]; intro t ht; rw [hg t ht]; norm_num [defaultMaterial]
  obtain ⟨a1, -, -, a2, a3, -⟩ := C88_i_section hS.geometric q1 q2 q3 q4 (by norm_num) (by norm_num) (by norm_num) (by norm_num)
    hreg hg1
  refine ⟨env, r, st, hS, by rw [a1]; norm_num, by rw [a2]; norm_num, by rw [a3]; norm_num, ?_⟩
  rcases C88_i_section_plastic env hS q4 (by norm_num) (by norm_num) (by norm_num) (by norm_num) hreg hg2 with
    ⟨hk, -⟩ | ⟨-, dx, dy, Sx, Sy, -, k1, -, k2, k3, k4, k5, k6⟩
  · rw [hok] at hk
    exact absurd hk (by simp)
  · rw [k1, k2]
    norm_num at k3 k4 k5 k6
    exact ⟨congrArg some (by linarith), congrArg some (by linarith)⟩

/-- The rectangle 2 × 1: its torsion constant, about 0.457, lies between 4/9 and 8/15. -/
example : ∃ (r : GeomResults) (w : WarpResults exPlain.numNodes), exPlain.geometricAnalysis = .ok r ∧
    exPlain.warping exactSolvers .direct r = .ok w ∧ 4 / 9 ≤ w.j ∧ w.j ≤ 8 / 15 ∧ r.sums.area = 2 ∧ r.cent.ixxC = 1 / 6 ∧
    r.cent.zxxPlus = 1 / 3 := by
  obtain ⟨r, hr⟩ := geometricAnalysis_ok exPlain (by simp [exPlain])
  obtain ⟨w, hw, h1, -, -⟩ := exact_warping exPlain r exPlain_good exPlain_physical hr (exPlain_linked r.cx r.cy)
  have hu : NodesUsed exPlain := by
    intro i
    obtain ⟨(t : Tri6 9), ht, k, hk⟩ := exNodesUsed i
    have ht : t ∈ ([exT0, exT1] : List (Tri6 9)) := ht
    rw [List.mem_cons, List.mem_singleton] at ht
    rcases ht with rfl | rfl
    · exact ⟨exP0, List.mem_cons_self .., k, hk⟩
    · exact ⟨exP1, List.mem_cons_of_mem _ (List.mem_cons_self ..), k, hk⟩
  have hreg : region exPlain.elements =ᵐ[volume] Ioo (0 : ℝ) (0 + 2) ×ˢ Ioo (0 : ℝ) (0 + 1) := by
    filter_upwards [rect_ae_inside ⟨0, 2, 0, 1⟩] with p hp
    refine propext ⟨?_, ?_⟩
    · rintro ⟨(t : Tri6 9), ht, h⟩
      have ht : t ∈ [exP0, exP1] := ht
      rw [List.mem_cons, List.mem_singleton] at ht
      rw [zero_add, zero_add]
      refine hp ?_
      rcases ht with rfl | rfl
      · obtain ⟨g1, g2, g3⟩ := exP0_mem.1 h
        exact ⟨by linarith, by linarith, by linarith, by linarith⟩
      · obtain ⟨g1, g2, g3⟩ := exP1_mem.1 h
        exact ⟨by linarith, by linarith, by linarith, by linarith⟩
    · intro h
      rw [zero_add, zero_add] at h
      exact exPlain_region h.1 h.2
  obtain ⟨k1, k2⟩ := C88_rectangle_torsion exPlain_good exPlain_physical exPlain_conforming hu exFine_refines.1 hr _ _ w hw h1
    two_pos one_pos hreg exPlain_unit
  obtain ⟨a1, -, -, -, a2, -, -, -, -, a3, -⟩ := C88_rectangle hr exPlain_physical exPlain_good hu exFine_refines.1 two_pos one_pos
    hreg exPlain_unit
  norm_num at k1 k2 a1 a2 a3
  exact ⟨r, w, hr, hw, by linarith, by linarith, a1, by linarith, by linarith⟩

end SP
