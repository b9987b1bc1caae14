import Verif.Lemmas.Pieces
import Verif.Props.Refine

/-!
# A refined mesh

The rectangle `[0, 2] × [0, 1]`, once cut along a diagonal into two triangles and once along both diagonals into four.
-/

namespace SP

open Spec MeasureTheory

/-- Four corners, the centre, the midpoints of the sides and of the four halves of the diagonals. -/
noncomputable def exFineV : Fin 13 → ℝ × ℝ :=
  ![(0, 0), (2, 0), (2, 1), (0, 1), (1, 1 / 2), (1, 0), (2, 1 / 2), (1, 1), (0, 1 / 2), (1 / 2, 1 / 4), (3 / 2, 1 / 4),
    (3 / 2, 3 / 4), (1 / 2, 3 / 4)]

noncomputable def exF0 : Tri6 13 := ⟨0, gather exFineV ![0, 1, 4, 5, 10, 9], ![0, 1, 4, 5, 10, 9], defaultMaterial⟩
noncomputable def exF1 : Tri6 13 := ⟨1, gather exFineV ![1, 2, 4, 6, 11, 10], ![1, 2, 4, 6, 11, 10], defaultMaterial⟩
noncomputable def exF2 : Tri6 13 := ⟨2, gather exFineV ![2, 3, 4, 7, 12, 11], ![2, 3, 4, 7, 12, 11], defaultMaterial⟩
noncomputable def exF3 : Tri6 13 := ⟨3, gather exFineV ![3, 0, 4, 8, 9, 12], ![3, 0, 4, 8, 9, 12], defaultMaterial⟩

/-- The section with four triangles. -/
noncomputable def exFine : Section where
  numNodes := 13
  meshNodes := exFineV
  materials := exPlainGeom.materials
  elements := [exF0, exF1, exF2, exF3]
  groups := [⟨⟨0, defaultMaterial⟩, [exF0, exF1, exF2, exF3]⟩]

theorem exFine_good : GoodSection exFine := by
  constructor
  · intro (t : Tri6 13) ht
    have ht : t ∈ [exF0, exF1, exF2, exF3] := ht
    simp only [List.mem_cons, List.not_mem_nil, or_false] at ht
    rcases ht with rfl | rfl | rfl | rfl <;>
      simp [Proper, Straight, elemDet, signedArea2, cornerA, cornerB, cornerC, exF0, exF1, exF2, exF3, gather, exFineV] <;>
      norm_num
  · intro (t : Tri6 13) ht
    have ht : t ∈ [exF0, exF1, exF2, exF3] := ht
    simp only [List.mem_cons, List.not_mem_nil, or_false] at ht
    rcases ht with rfl | rfl | rfl | rfl <;> rfl

theorem exFine_physical : Physical exFine.elements := by
  refine ⟨by simp [exFine], exFine_good.proper, ?_⟩
  intro (t : Tri6 13) ht
  have ht : t ∈ [exF0, exF1, exF2, exF3] := ht
  simp only [List.mem_cons, List.not_mem_nil, or_false] at ht
  rcases ht with rfl | rfl | rfl | rfl <;> norm_num [exF0, exF1, exF2, exF3, defaultMaterial]

theorem exFine_linked (cx cy : ℝ) : ConnectedMesh (exFine.elements.map fun t => t.shiftBy cx cy) := by
  have hm : ∀ t ∈ [exF0, exF1, exF2, exF3], t.shiftBy cx cy ∈ [exF0, exF1, exF2, exF3].map fun t => t.shiftBy cx cy :=
    fun t ht => List.mem_map_of_mem ht
  have key : ∀ i, NodeLinked ([exF0, exF1, exF2, exF3].map fun t => t.shiftBy cx cy) 4 i := by
    intro i
    fin_cases i
    · exact ⟨_, hm exF0 (by simp), 2, 0, rfl, rfl⟩
    · exact ⟨_, hm exF0 (by simp), 2, 1, rfl, rfl⟩
    · exact ⟨_, hm exF1 (by simp), 2, 1, rfl, rfl⟩
    · exact ⟨_, hm exF2 (by simp), 2, 1, rfl, rfl⟩
    · exact ⟨_, hm exF0 (by simp), 2, 2, rfl, rfl⟩
    · exact ⟨_, hm exF0 (by simp), 2, 3, rfl, rfl⟩
    · exact ⟨_, hm exF1 (by simp), 2, 3, rfl, rfl⟩
    · exact ⟨_, hm exF2 (by simp), 2, 3, rfl, rfl⟩
    · exact ⟨_, hm exF3 (by simp), 2, 3, rfl, rfl⟩
    · exact ⟨_, hm exF0 (by simp), 2, 5, rfl, rfl⟩
    · exact ⟨_, hm exF0 (by simp), 2, 4, rfl, rfl⟩
    · exact ⟨_, hm exF1 (by simp), 2, 4, rfl, rfl⟩
    · exact ⟨_, hm exF2 (by simp), 2, 4, rfl, rfl⟩
  intro i j
  exact (linked_symm _ (.single (key i))).trans (.single (key j))

/-! ### The regions -/

theorem mem_tri {A B C p : ℝ × ℝ} : p ∈ triangle A B C ↔ ∃ s t : ℝ, 0 ≤ s ∧ 0 ≤ t ∧ s + t ≤ 1 ∧
    p.1 = A.1 + s * (B.1 - A.1) + t * (C.1 - A.1) ∧ p.2 = A.2 + s * (B.2 - A.2) + t * (C.2 - A.2) := by
  rw [Spec.triangle, convexHull_triple_eq_image]
  constructor
  · rintro ⟨⟨s, t⟩, ⟨h1, h2, h3⟩, rfl⟩
    simp only at h1 h2 h3
    exact ⟨t, 1 - s - t, h2, by linarith, by linarith, by simp only [triMap]; ring, by simp only [triMap]; ring⟩
  · rintro ⟨s, t, h1, h2, h3, h4, h5⟩
    exact ⟨(1 - s - t, s), ⟨by simp only; linarith, h1, by simp only; linarith⟩,
      Prod.ext (by rw [h4]; simp only [triMap]; ring) (by rw [h5]; simp only [triMap]; ring)⟩

theorem exF0_mem {p : ℝ × ℝ} : p ∈ elemRegion exF0.coords ↔ 0 ≤ p.2 ∧ 2 * p.2 ≤ p.1 ∧ p.1 + 2 * p.2 ≤ 2 := by
  rw [elemRegion, show cornerA exF0.coords = (0, 0) by simp [cornerA, exF0, gather, exFineV],
    show cornerB exF0.coords = (2, 0) by simp [cornerB, exF0, gather, exFineV],
    show cornerC exF0.coords = (1, 1 / 2) by simp [cornerC, exF0, gather, exFineV], mem_tri]
  constructor
  · rintro ⟨s, t, hs, ht, hst, h1, h2⟩
    simp only at h1 h2
    refine ⟨?_, ?_, ?_⟩ <;> linarith
  · rintro ⟨h1, h2, h3⟩
    exact ⟨(p.1 - 2 * p.2) / 2, 2 * p.2, by linarith, by linarith, by linarith, by ring, by ring⟩

theorem exF1_mem {p : ℝ × ℝ} : p ∈ elemRegion exF1.coords ↔ p.1 ≤ 2 ∧ 2 * p.2 ≤ p.1 ∧ 2 ≤ p.1 + 2 * p.2 := by
  rw [elemRegion, show cornerA exF1.coords = (2, 0) by simp [cornerA, exF1, gather, exFineV],
    show cornerB exF1.coords = (2, 1) by simp [cornerB, exF1, gather, exFineV],
    show cornerC exF1.coords = (1, 1 / 2) by simp [cornerC, exF1, gather, exFineV], mem_tri]
  constructor
  · rintro ⟨s, t, hs, ht, hst, h1, h2⟩
    simp only at h1 h2
    refine ⟨?_, ?_, ?_⟩ <;> linarith
  · rintro ⟨h1, h2, h3⟩
    exact ⟨(p.1 + 2 * p.2 - 2) / 2, 2 - p.1, by linarith, by linarith, by linarith, by ring, by ring⟩

theorem exF2_mem {p : ℝ × ℝ} : p ∈ elemRegion exF2.coords ↔ p.2 ≤ 1 ∧ p.1 ≤ 2 * p.2 ∧ 2 ≤ p.1 + 2 * p.2 := by
  rw [elemRegion, show cornerA exF2.coords = (2, 1) by simp [cornerA, exF2, gather, exFineV],
    show cornerB exF2.coords = (0, 1) by simp [cornerB, exF2, gather, exFineV],
    show cornerC exF2.coords = (1, 1 / 2) by simp [cornerC, exF2, gather, exFineV], mem_tri]
  constructor
  · rintro ⟨s, t, hs, ht, hst, h1, h2⟩
    simp only at h1 h2
    refine ⟨?_, ?_, ?_⟩ <;> linarith
  · rintro ⟨h1, h2, h3⟩
    exact ⟨(2 * p.2 - p.1) / 2, 2 - 2 * p.2, by linarith, by linarith, by linarith, by ring, by ring⟩

theorem exF3_mem {p : ℝ × ℝ} : p ∈ elemRegion exF3.coords ↔ 0 ≤ p.1 ∧ p.1 ≤ 2 * p.2 ∧ p.1 + 2 * p.2 ≤ 2 := by
  rw [elemRegion, show cornerA exF3.coords = (0, 1) by simp [cornerA, exF3, gather, exFineV],
    show cornerB exF3.coords = (0, 0) by simp [cornerB, exF3, gather, exFineV],
    show cornerC exF3.coords = (1, 1 / 2) by simp [cornerC, exF3, gather, exFineV], mem_tri]
  constructor
  · rintro ⟨s, t, hs, ht, hst, h1, h2⟩
    simp only at h1 h2
    refine ⟨?_, ?_, ?_⟩ <;> linarith
  · rintro ⟨h1, h2, h3⟩
    exact ⟨(2 - p.1 - 2 * p.2) / 2, p.1, by linarith, by linarith, by linarith, by ring, by ring⟩

theorem exP0_mem {p : ℝ × ℝ} : p ∈ elemRegion exP0.coords ↔ 0 ≤ p.2 ∧ 2 * p.2 ≤ p.1 ∧ p.1 ≤ 2 := by
  rw [elemRegion, show cornerA exP0.coords = (0, 0) by simp [cornerA, exP0, exT0, gather, exV],
    show cornerB exP0.coords = (2, 0) by simp [cornerB, exP0, exT0, gather, exV],
    show cornerC exP0.coords = (2, 1) by simp [cornerC, exP0, exT0, gather, exV], mem_tri]
  constructor
  · rintro ⟨s, t, hs, ht, hst, h1, h2⟩
    simp only at h1 h2
    refine ⟨?_, ?_, ?_⟩ <;> linarith
  · rintro ⟨h1, h2, h3⟩
    exact ⟨(p.1 - 2 * p.2) / 2, p.2, by linarith, by linarith, by linarith, by ring, by ring⟩

theorem exP1_mem {p : ℝ × ℝ} : p ∈ elemRegion exP1.coords ↔ 0 ≤ p.1 ∧ p.1 ≤ 2 * p.2 ∧ p.2 ≤ 1 := by
  rw [elemRegion, show cornerA exP1.coords = (0, 0) by simp [cornerA, exP1, exT1, gather, exV],
    show cornerB exP1.coords = (2, 1) by simp [cornerB, exP1, exT1, gather, exV],
    show cornerC exP1.coords = (0, 1) by simp [cornerC, exP1, exT1, gather, exV], mem_tri]
  constructor
  · rintro ⟨s, t, hs, ht, hst, h1, h2⟩
    simp only at h1 h2
    refine ⟨?_, ?_, ?_⟩ <;> linarith
  · rintro ⟨h1, h2, h3⟩
    exact ⟨p.1 / 2, (2 * p.2 - p.1) / 2, by linarith, by linarith, by linarith, by ring, by ring⟩

theorem null_diag : volume {p : ℝ × ℝ | p.1 = 2 * p.2} = 0 := by
  refine measure_mono_null (fun p hp => ?_) (line_null (0, 0) (2, 1))
  have hp : p.1 = 2 * p.2 := hp
  show height _ _ _ = 0
  rw [height, if_neg (by norm_num), hp]
  ring

theorem null_diag' : volume {p : ℝ × ℝ | p.1 + 2 * p.2 = 2} = 0 := by
  refine measure_mono_null (fun p hp => ?_) (line_null (2, 0) (-2, 1))
  have hp : p.1 + 2 * p.2 = 2 := hp
  show height _ _ _ = 0
  rw [height, if_neg (by norm_num)]
  simp only
  linarith

theorem exFine_refines : Refines exPlain.elements exFine.elements := by
  show Refines [exP0, exP1] [exF0, exF1, exF2, exF3]
  refine ⟨?_, ?_, ?_, ?_⟩
  · rw [NoOverlap, List.pairwise_pair]
    exact measure_mono_null (fun p hp => le_antisymm (exP1_mem.1 hp.2).2.1 (exP0_mem.1 hp.1).2.1) null_diag
  · simp only [NoOverlap, List.pairwise_cons, List.mem_cons, List.not_mem_nil, or_false, forall_eq_or_imp, forall_eq,
      List.Pairwise.nil, and_true, false_imp_iff, implies_true]
    refine ⟨⟨?_, ?_, ?_⟩, ⟨?_, ?_⟩, ?_⟩
    · exact measure_mono_null (fun p hp => le_antisymm (exF0_mem.1 hp.1).2.2 (exF1_mem.1 hp.2).2.2) null_diag'
    · exact measure_mono_null (fun p hp => le_antisymm (exF2_mem.1 hp.2).2.1 (exF0_mem.1 hp.1).2.1) null_diag
    · exact measure_mono_null (fun p hp => le_antisymm (exF3_mem.1 hp.2).2.1 (exF0_mem.1 hp.1).2.1) null_diag
    · exact measure_mono_null (fun p hp => le_antisymm (exF2_mem.1 hp.2).2.1 (exF1_mem.1 hp.1).2.1) null_diag
    · exact measure_mono_null (fun p hp => le_antisymm (exF3_mem.1 hp.2).2.1 (exF1_mem.1 hp.1).2.1) null_diag
    · exact measure_mono_null (fun p hp => le_antisymm (exF3_mem.1 hp.2).2.2 (exF2_mem.1 hp.1).2.2) null_diag'
  · refine Filter.EventuallyEq.of_eq (Set.ext fun p => ?_)
    simp only [region, List.mem_cons, List.not_mem_nil, or_false, exists_eq_or_imp, exists_eq_left, Set.mem_ofPred_eq,
      exF0_mem, exF1_mem, exF2_mem, exF3_mem, exP0_mem, exP1_mem]
    constructor
    · rintro (⟨h1, h2, h3⟩ | ⟨h1, h2, h3⟩) <;> rcases le_total (p.1 + 2 * p.2) 2 with h | h
      · exact .inl ⟨h1, h2, h⟩
      · exact .inr (.inl ⟨h3, h2, h⟩)
      · exact .inr (.inr (.inr ⟨h1, h2, h⟩))
      · exact .inr (.inr (.inl ⟨h3, h2, h⟩))
    · rintro (⟨h1, h2, h3⟩ | ⟨h1, h2, h3⟩ | ⟨h1, h2, h3⟩ | ⟨h1, h2, h3⟩)
      · exact .inl ⟨h1, h2, by linarith⟩
      · exact .inl ⟨by linarith, h2, h1⟩
      · exact .inr ⟨by linarith, h2, h1⟩
      · exact .inr ⟨h1, h2, by linarith⟩
  · simp only [List.mem_cons, List.not_mem_nil, or_false, forall_eq_or_imp, forall_eq, exists_eq_or_imp, exists_eq_left]
    refine ⟨.inl ⟨fun p hp => ?_, rfl⟩, .inl ⟨fun p hp => ?_, rfl⟩, .inr ⟨fun p hp => ?_, rfl⟩, .inr ⟨fun p hp => ?_, rfl⟩⟩
    · obtain ⟨h1, h2, h3⟩ := exF0_mem.1 hp; exact exP0_mem.2 ⟨h1, h2, by linarith⟩
    · obtain ⟨h1, h2, h3⟩ := exF1_mem.1 hp; exact exP0_mem.2 ⟨by linarith, h2, h1⟩
    · obtain ⟨h1, h2, h3⟩ := exF2_mem.1 hp; exact exP1_mem.2 ⟨by linarith, h2, h1⟩
    · obtain ⟨h1, h2, h3⟩ := exF3_mem.1 hp; exact exP1_mem.2 ⟨h1, h2, by linarith⟩

theorem exPlain_conforming : ConformingMesh exPlain.meshNodes exPlain.elements := by
  have key : ∀ p : ℝ × ℝ, p ∈ elemRegion exP0.coords → p ∈ elemRegion exP1.coords →
      p ∈ segment ℝ (exV 0) (exV 2) := by
    intro p h0 h1
    obtain ⟨a1, a2, a3⟩ := exP0_mem.1 h0
    obtain ⟨b1, b2, b3⟩ := exP1_mem.1 h1
    refine ⟨1 - p.2, p.2, by linarith, a1, by ring, Prod.ext ?_ ?_⟩ <;> simp [exV]
    linarith
  have hn : ∀ k ∈ ([0, 2, 6] : List (Fin 9)), k ∈ Set.range exP0.nodeIds ∧ k ∈ Set.range exP1.nodeIds := by
    intro k hk
    simp only [List.mem_cons, List.not_mem_nil, or_false] at hk
    rcases hk with rfl | rfl | rfl
    · exact ⟨⟨0, rfl⟩, ⟨0, rfl⟩⟩
    · exact ⟨⟨2, rfl⟩, ⟨1, rfl⟩⟩
    · exact ⟨⟨5, rfl⟩, ⟨3, rfl⟩⟩
  have hm : exV 6 = ((exV 0).1 / 2 + (exV 2).1 / 2, (exV 0).2 / 2 + (exV 2).2 / 2) := by
    simp [exV]
  show ConformingMesh exV [exP0, exP1]
  intro a ha b hb hab p hp
  simp only [List.mem_cons, List.not_mem_nil, or_false] at ha hb
  rcases ha with rfl | rfl <;> rcases hb with rfl | rfl
  · exact absurd rfl hab
  · exact ⟨0, 2, 6, hn, hm, key p hp.1 hp.2⟩
  · exact ⟨0, 2, 6, fun k hk => (hn k hk).symm, hm, key p hp.2 hp.1⟩
  · exact absurd rfl hab

/-- The two meshes of the rectangle meet all hypotheses. -/
example : ∃ (r r' : GeomResults) (w : WarpResults exPlain.numNodes) (w' : WarpResults exFine.numNodes),
    exPlain.warping exactSolvers .direct r = .ok w ∧ exFine.warping exactSolvers .direct r' = .ok w' ∧
    w'.j ≤ w.j ∧ w'.areas.sx ≤ w.areas.sx := by
  obtain ⟨r, hr⟩ := geometricAnalysis_ok exPlain (by simp [exPlain])
  obtain ⟨r', hr'⟩ := geometricAnalysis_ok exFine (by simp [exFine])
  obtain ⟨w, hw, h1, h2, h3⟩ := exact_warping exPlain r exPlain_good exPlain_physical hr (exPlain_linked r.cx r.cy)
  obtain ⟨w', hw', h1', h2', h3'⟩ := exact_warping exFine r' exFine_good exFine_physical hr' (exFine_linked r'.cx r'.cy)
  have hn : isComposite exPlain.materials → r.nuEff = 0 := fun h => absurd h exPlain_not_composite
  have hn' : isComposite exFine.materials → r'.nuEff = 0 := fun h => absurd h exPlain_not_composite
  exact ⟨r, r', w, w', hw, hw',
    C79_torsion exPlain exFine r r' exPlain_good exFine_good exPlain_physical exFine_physical exPlain_conforming
      exFine_refines hr hr' _ _ _ _ w w' hw hw' h1 h1',
    (C79_shear_areas exPlain exFine r r' exPlain_good exFine_good exPlain_physical exFine_physical exPlain_conforming
      exFine_refines hr hr' _ _ _ _ w w' hw hw' hn hn' h2 h3 h2' h3').1⟩

end SP
