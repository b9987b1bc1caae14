import Verif.Model.Overlap
import Verif.Spec.Overlap

/-!
# C78: the warning about overlapping regions
-/

namespace SP

open Spec MeasureTheory

theorem union_le {region : Poly → Set (ℝ × ℝ)} : ∀ {lop : List Poly}, (∀ p ∈ lop, volume (region p) ≠ ⊤) →
    volume (⋃ p ∈ lop, region p) ≠ ⊤ ∧ (volume (⋃ p ∈ lop, region p)).toReal ≤ countedArea region lop
  | [], _ => by simp [countedArea]
  | q :: lop, h => by
    obtain ⟨h1, h2⟩ := union_le (lop := lop) fun p hp => h p (List.mem_cons_of_mem _ hp)
    have hq := h q (by simp)
    have e : (⋃ p ∈ q :: lop, region p) = region q ∪ ⋃ p ∈ lop, region p := by
      ext x; simp
    have hle : volume (⋃ p ∈ q :: lop, region p) ≤ volume (region q) + volume (⋃ p ∈ lop, region p) := by
      rw [e]; exact measure_union_le _ _
    have hfin : volume (region q) + volume (⋃ p ∈ lop, region p) ≠ ⊤ := ENNReal.add_ne_top.2 ⟨hq, h1⟩
    refine ⟨ne_top_of_le_ne_top hfin hle, ?_⟩
    have := ENNReal.toReal_mono hfin hle
    rw [ENNReal.toReal_add hq h1] at this
    simp only [countedArea, List.map_cons, List.sum_cons] at h2 ⊢
    linarith

/-- The double counted area is at least what any two of the regions have in common. -/
theorem common_le {region : Poly → Set (ℝ × ℝ)} : ∀ {lop : List Poly} (_ : ∀ p ∈ lop, MeasurableSet (region p))
    (_ : ∀ p ∈ lop, volume (region p) ≠ ⊤) {i j : ℕ} (_ : i < j) {p q : Poly} (_ : lop[i]? = some p) (_ : lop[j]? = some q),
    common (region p) (region q) ≤ countedArea region lop - (volume (⋃ p ∈ lop, region p)).toReal
  | [], _, _, i, j, _, p, q, hi, _ => by simp at hi
  | a :: lop, hm, hf, i, j, hij, p, q, hi, hj => by
    have hf' : ∀ p ∈ lop, volume (region p) ≠ ⊤ := fun p hp => hf p (List.mem_cons_of_mem _ hp)
    have hm' : ∀ p ∈ lop, MeasurableSet (region p) := fun p hp => hm p (List.mem_cons_of_mem _ hp)
    obtain ⟨h1, h2⟩ := union_le hf'
    have ha := hf a (by simp)
    have e : (⋃ p ∈ a :: lop, region p) = region a ∪ ⋃ p ∈ lop, region p := by
      ext x; simp
    -- the union of the first region with the others
    have key : (volume (⋃ p ∈ a :: lop, region p)).toReal + (volume (region a ∩ ⋃ p ∈ lop, region p)).toReal
        = (volume (region a)).toReal + (volume (⋃ p ∈ lop, region p)).toReal := by
      have := measure_union_add_inter' (μ := volume) (hm a (by simp)) (⋃ p ∈ lop, region p)
      rw [← e] at this
      have hu := (union_le hf).1
      have hi : volume (region a ∩ ⋃ p ∈ lop, region p) ≠ ⊤ := ne_top_of_le_ne_top ha (measure_mono Set.inter_subset_left)
      rw [← ENNReal.toReal_add hu hi, this, ENNReal.toReal_add ha h1]
    have hsum : countedArea region (a :: lop) = (volume (region a)).toReal + countedArea region lop := by
      simp [countedArea]
    obtain ⟨j, rfl⟩ : ∃ k, j = k + 1 := ⟨j - 1, by omega⟩
    rw [List.getElem?_cons_succ] at hj
    cases i with
    | zero =>
      simp only [List.getElem?_cons_zero, Option.some.injEq] at hi
      subst hi
      have hsub : region a ∩ region q ⊆ region a ∩ ⋃ p ∈ lop, region p :=
        Set.inter_subset_inter_right _ (Set.subset_biUnion_of_mem (u := region) (List.mem_of_getElem? hj))
      have := ENNReal.toReal_mono (ne_top_of_le_ne_top ha (measure_mono Set.inter_subset_left)) (measure_mono (μ := volume) hsub)
      rw [common]
      linarith
    | succ i =>
      rw [List.getElem?_cons_succ] at hi
      have := common_le hm' hf' (by omega) hi hj
      have hn : 0 ≤ (volume (region a ∩ ⋃ p ∈ lop, region p)).toReal := ENNReal.toReal_nonneg
      linarith

/-- Without common areas nothing is counted twice. -/
theorem counted_eq {region : Poly → Set (ℝ × ℝ)} : ∀ {lop : List Poly} (_ : ∀ p ∈ lop, MeasurableSet (region p))
    (_ : ∀ p ∈ lop, volume (region p) ≠ ⊤) (_ : lop.Pairwise fun p q => volume (region p ∩ region q) = 0),
    (volume (⋃ p ∈ lop, region p)).toReal = countedArea region lop
  | [], _, _, _ => by simp [countedArea]
  | a :: lop, hm, hf, hd => by
    rw [List.pairwise_cons] at hd
    have hf' : ∀ p ∈ lop, volume (region p) ≠ ⊤ := fun p hp => hf p (List.mem_cons_of_mem _ hp)
    have ih := counted_eq (fun p hp => hm p (List.mem_cons_of_mem _ hp)) hf' hd.2
    have e : (⋃ p ∈ a :: lop, region p) = region a ∪ ⋃ p ∈ lop, region p := by
      ext x; simp
    have h0 : volume (region a ∩ ⋃ p ∈ lop, region p) = 0 := by
      rw [Set.inter_iUnion₂]
      exact (measure_biUnion_null_iff (Set.Finite.countable (List.finite_toSet lop))).2 fun p hp => hd.1 p hp
    have := measure_union_add_inter' (μ := volume) (hm a (by simp)) (⋃ p ∈ lop, region p)
    rw [h0, add_zero, ← e] at this
    rw [this, ENNReal.toReal_add (hf a (by simp)) (union_le hf').1, ih]
    simp [countedArea]

/-- **C78.** The plastic analysis of a compound geometry warns exactly if more than a billionth of the summed area of
the parts is counted several times; in particular it never warns if no two parts have an area in common, and always does
if two parts have more than that in common.  A single geometry never causes the warning, and without a geometric
analysis there is a `RuntimeError`. -/
theorem C78_overlap_warning (region : Poly → Set (ℝ × ℝ)) (unionArea : List Poly → ℝ) (x : ℝ) (c : Compound)
    (h : ExactAreas region unionArea (c.geoms.map (·.poly))) :
    let lop := c.geoms.map (·.poly)
    ∃ w, plasticWarns unionArea (some x) (.compound c) = .ok w ∧
      (w = true ↔ countedArea region lop / 10 ^ 9 < countedArea region lop - (volume (⋃ p ∈ lop, region p)).toReal) ∧
      (lop.Pairwise (fun p q => volume (region p ∩ region q) = 0) → w = false) ∧
      (∀ (i j : ℕ) p q, i < j → lop[i]? = some p → lop[j]? = some q →
        countedArea region lop / 10 ^ 9 < common (region p) (region q) → w = true) := by
  intro lop
  have hsum : (lop.map Poly.area).sum = countedArea region lop := by
    rw [countedArea]; exact congrArg List.sum (List.map_congr_left h.area)
  have hle : (volume (⋃ p ∈ lop, region p)).toReal ≤ countedArea region lop := (union_le h.bounded).2
  have hun : unionArea lop = (volume (⋃ p ∈ lop, region p)).toReal := h.union
  have hn : 0 ≤ (volume (⋃ p ∈ lop, region p)).toReal := ENNReal.toReal_nonneg
  have hiff : (checkGeometryOverlaps unionArea lop = true ↔
      countedArea region lop / 10 ^ 9 < countedArea region lop - (volume (⋃ p ∈ lop, region p)).toReal) := by
    simp only [checkGeometryOverlaps, Bool.not_eq_true', decide_eq_false_iff_not, mathIsclose, hsum, hun, not_le]
    rw [abs_of_nonneg hn, abs_of_nonneg (hn.trans hle), max_eq_right hle, abs_of_nonpos (by linarith), neg_sub, one_div,
      inv_mul_eq_div]
  refine ⟨_, rfl, hiff, fun hd => ?_, fun i j p q hij hi hj hc => hiff.2 ?_⟩
  · rw [← Bool.not_eq_true]
    refine fun hw => absurd (hiff.1 hw) (not_lt.2 ?_)
    rw [counted_eq h.measurable h.bounded hd, sub_self]
    have : 0 ≤ countedArea region lop := hn.trans hle
    positivity
  · exact lt_of_lt_of_le hc (common_le h.measurable h.bounded hij hi hj)

theorem C78_no_warning (unionArea : List Poly → ℝ) (x : ℝ) (g : Geometry) (s : Shape) :
    plasticWarns unionArea (some x) (.single g) = .ok false ∧ plasticWarns unionArea none s = .error .runtimeError :=
  ⟨rfl, rfl⟩

/-! ### Two overlapping rectangles -/

/-- The rectangle between the first and the third vertex. -/
def exBoxes (p : Poly) : Set (ℝ × ℝ) :=
  match p.exterior with
  | [a, _, b, _] => Set.Icc a.1 b.1 ×ˢ Set.Icc a.2 b.2
  | _ => ∅

def exLeft : Poly := ⟨[(0, 0), (2, 0), (2, 1), (0, 1)], []⟩
def exRight : Poly := ⟨[(1, 0), (3, 0), (3, 1), (1, 1)], []⟩

/-- A compound of the two; only the polygons matter here. -/
noncomputable def exLapped : Compound :=
  ⟨[⟨exLeft, defaultMaterial, none, 12, [], [], [], []⟩, ⟨exRight, defaultMaterial, none, 12, [], [], [], []⟩], [], [], [], []⟩

theorem box_volume (a b c d : ℝ) :
    volume (Set.Icc a b ×ˢ Set.Icc c d) = ENNReal.ofReal (b - a) * ENNReal.ofReal (d - c) := by
  rw [Measure.volume_eq_prod, Measure.prod_prod, Real.volume_Icc, Real.volume_Icc]

theorem exLapped_areas : ExactAreas exBoxes (fun l => (volume (⋃ p ∈ l, exBoxes p)).toReal) (exLapped.geoms.map (·.poly)) := by
  have hv : ∀ a b c d : ℝ, volume (Set.Icc a b ×ˢ Set.Icc c d) ≠ ⊤ := fun a b c d => by
    rw [box_volume]; exact ENNReal.mul_ne_top ENNReal.ofReal_ne_top ENNReal.ofReal_ne_top
  have hl : ∀ P : Poly → Prop, P exLeft → P exRight → ∀ p ∈ exLapped.geoms.map (·.poly), P p := by
    intro P h1 h2 p hp
    simp only [exLapped, List.map_cons, List.map_nil, List.mem_cons, List.not_mem_nil, or_false] at hp
    rcases hp with rfl | rfl
    · exact h1
    · exact h2
  refine ⟨hl _ ?_ ?_, hl _ (hv 0 2 0 1) (hv 1 3 0 1), hl _ ?_ ?_, rfl⟩
  · exact measurableSet_Icc.prod measurableSet_Icc
  · exact measurableSet_Icc.prod measurableSet_Icc
  · show _ = (volume (Set.Icc (0 : ℝ) 2 ×ˢ Set.Icc (0 : ℝ) 1)).toReal
    rw [box_volume, ENNReal.toReal_mul, ENNReal.toReal_ofReal (by norm_num), ENNReal.toReal_ofReal (by norm_num)]
    simp [Poly.area, exLeft, ringArea2, ringEdges]; norm_num
  · show _ = (volume (Set.Icc (1 : ℝ) 3 ×ˢ Set.Icc (0 : ℝ) 1)).toReal
    rw [box_volume, ENNReal.toReal_mul, ENNReal.toReal_ofReal (by norm_num), ENNReal.toReal_ofReal (by norm_num)]
    simp [Poly.area, exRight, ringArea2, ringEdges]; norm_num

/-- The two rectangles have a square in common: the warning is issued. -/
example : plasticWarns (fun l => (volume (⋃ p ∈ l, exBoxes p)).toReal) (some 0) (.compound exLapped) = .ok true := by
  obtain ⟨w, hw, -, -, h⟩ := C78_overlap_warning exBoxes _ 0 exLapped exLapped_areas
  rw [hw, h 0 1 exLeft exRight (by norm_num) rfl rfl ?_]
  have hc : common (exBoxes exLeft) (exBoxes exRight) = 1 := by
    have : exBoxes exLeft ∩ exBoxes exRight = Set.Icc 1 2 ×ˢ Set.Icc 0 1 := by
      show (Set.Icc (0 : ℝ) 2 ×ˢ Set.Icc (0 : ℝ) 1) ∩ (Set.Icc 1 3 ×ˢ Set.Icc 0 1) = _
      rw [Set.prod_inter_prod, Set.Icc_inter_Icc, Set.Icc_inter_Icc]
      norm_num
    rw [common, this, box_volume]
    norm_num
  have e1 := exLapped_areas.area exLeft (by simp [exLapped])
  have e2 := exLapped_areas.area exRight (by simp [exLapped])
  rw [hc]
  simp only [countedArea, exLapped, List.map_cons, List.map_nil, List.sum_cons, List.sum_nil, ← e1, ← e2]
  simp [Poly.area, exLeft, exRight, ringArea2, ringEdges]; norm_num

end SP
