import Verif.Props.OutlineExample
import Verif.Props.TorsionRound
import Verif.Props.RefineExample

/-!
# C90: meshes of round sections

Used to show that the hypotheses of C90 can be met: a solid section with three points in one triangle, and a hollow section with
four points in eight triangles.
-/

namespace SP

open Spec MeasureTheory Set

/-- Outer and inner corners, midpoints of the outer and inner sides, of the spokes and of the diagonals. -/
noncomputable def exRingV : Fin 24 → ℝ × ℝ :=
  ![(2, 0), (0, 2), (-2, 0), (0, -2), (1, 0), (0, 1), (-1, 0), (0, -1), (1, 1), (-1, 1), (-1, -1), (1, -1), (1 / 2, 1 / 2), (-1 / 2,
    1 / 2), (-1 / 2, -1 / 2), (1 / 2, -1 / 2), (3 / 2, 0), (0, 3 / 2), (-3 / 2, 0), (0, -3 / 2), (1, 1 / 2), (-1 / 2, 1), (-1, -1 /
    2), (1 / 2, -1)]

noncomputable def exRing0 : Tri6 24 := ⟨0, gather exRingV ![0, 1, 5, 8, 17, 20], ![0, 1, 5, 8, 17, 20], defaultMaterial⟩
noncomputable def exRing1 : Tri6 24 := ⟨1, gather exRingV ![0, 5, 4, 20, 12, 16], ![0, 5, 4, 20, 12, 16], defaultMaterial⟩
noncomputable def exRing2 : Tri6 24 := ⟨2, gather exRingV ![1, 2, 6, 9, 18, 21], ![1, 2, 6, 9, 18, 21], defaultMaterial⟩
noncomputable def exRing3 : Tri6 24 := ⟨3, gather exRingV ![1, 6, 5, 21, 13, 17], ![1, 6, 5, 21, 13, 17], defaultMaterial⟩
noncomputable def exRing4 : Tri6 24 := ⟨4, gather exRingV ![2, 3, 7, 10, 19, 22], ![2, 3, 7, 10, 19, 22], defaultMaterial⟩
noncomputable def exRing5 : Tri6 24 := ⟨5, gather exRingV ![2, 7, 6, 22, 14, 18], ![2, 7, 6, 22, 14, 18], defaultMaterial⟩
noncomputable def exRing6 : Tri6 24 := ⟨6, gather exRingV ![3, 0, 4, 11, 16, 23], ![3, 0, 4, 11, 16, 23], defaultMaterial⟩
noncomputable def exRing7 : Tri6 24 := ⟨7, gather exRingV ![3, 4, 7, 23, 15, 19], ![3, 4, 7, 23, 15, 19], defaultMaterial⟩

/-- The hollow section with four points, of diameter 4 and thickness 1. -/
noncomputable def exRing : Section where
  numNodes := 24
  meshNodes := exRingV
  materials := exPlainGeom.materials
  elements := [exRing0, exRing1, exRing2, exRing3, exRing4, exRing5, exRing6, exRing7]
  groups := [⟨⟨0, defaultMaterial⟩, [exRing0, exRing1, exRing2, exRing3, exRing4, exRing5, exRing6, exRing7]⟩]

theorem exRing_cases {motive : Tri6 24 → Prop} (h : motive exRing0 ∧ motive exRing1 ∧ motive exRing2 ∧ motive exRing3 ∧ motive exRing4 ∧ motive exRing5 ∧ motive exRing6 ∧ motive exRing7) :
    ∀ t ∈ exRing.elements, motive t := by
  intro (t : Tri6 24) ht
  have ht : t ∈ [exRing0, exRing1, exRing2, exRing3, exRing4, exRing5, exRing6, exRing7] := ht
  obtain ⟨h0, h1, h2, h3, h4, h5, h6, h7⟩ := h
  simp only [List.mem_cons, List.not_mem_nil, or_false] at ht
  rcases ht with rfl | rfl | rfl | rfl | rfl | rfl | rfl | rfl <;> assumption

theorem exRing_good : GoodSection exRing := by
  refine ⟨exRing_cases (motive := fun t => Proper t.coords) ?_, exRing_cases (motive := fun t => t.coords = gather exRingV t.nodeIds)
    ⟨rfl, rfl, rfl, rfl, rfl, rfl, rfl, rfl⟩⟩
  refine ⟨?_, ?_, ?_, ?_, ?_, ?_, ?_, ?_⟩ <;>
    simp [Proper, Straight, elemDet, signedArea2, cornerA, cornerB, cornerC, exRing0, exRing1, exRing2, exRing3, exRing4, exRing5, exRing6, exRing7, gather, exRingV] <;>
    norm_num

theorem exRing_unit : ∀ t ∈ exRing.elements, t.material.elasticModulus = 1 :=
  exRing_cases (motive := fun t => t.material.elasticModulus = 1) ⟨rfl, rfl, rfl, rfl, rfl, rfl, rfl, rfl⟩

theorem exRing_physical : Physical exRing.elements :=
  ⟨by simp [exRing], exRing_good.proper, fun t ht => by rw [exRing_unit t ht]; exact one_pos⟩

theorem exRing_linked (cx cy : ℝ) : ConnectedMesh (exRing.elements.map fun t => t.shiftBy cx cy) := by
  have hm : ∀ t ∈ [exRing0, exRing1, exRing2, exRing3, exRing4, exRing5, exRing6, exRing7], t.shiftBy cx cy ∈ [exRing0, exRing1, exRing2, exRing3, exRing4, exRing5, exRing6, exRing7].map fun t => t.shiftBy cx cy :=
    fun t ht => List.mem_map_of_mem ht
  have key : ∀ t ∈ [exRing0, exRing1, exRing2, exRing3, exRing4, exRing5, exRing6, exRing7], ∀ k l, NodeLinked ([exRing0, exRing1, exRing2, exRing3, exRing4, exRing5, exRing6, exRing7].map fun t => t.shiftBy cx cy) (t.nodeIds k) (t.nodeIds l) :=
    fun t ht k l => ⟨_, hm t ht, k, l, rfl, rfl⟩
  have n0 : Relation.ReflTransGen (NodeLinked ([exRing0, exRing1, exRing2, exRing3, exRing4, exRing5, exRing6, exRing7].map fun t => t.shiftBy cx cy)) (0 : Fin 24) 0 := .refl
  have n1 : Relation.ReflTransGen (NodeLinked ([exRing0, exRing1, exRing2, exRing3, exRing4, exRing5, exRing6, exRing7].map fun t => t.shiftBy cx cy)) (0 : Fin 24) 1 := n0.tail (key exRing0 (by simp) 0 1)
  have n5 : Relation.ReflTransGen (NodeLinked ([exRing0, exRing1, exRing2, exRing3, exRing4, exRing5, exRing6, exRing7].map fun t => t.shiftBy cx cy)) (0 : Fin 24) 5 := n0.tail (key exRing0 (by simp) 0 2)
  have n8 : Relation.ReflTransGen (NodeLinked ([exRing0, exRing1, exRing2, exRing3, exRing4, exRing5, exRing6, exRing7].map fun t => t.shiftBy cx cy)) (0 : Fin 24) 8 := n0.tail (key exRing0 (by simp) 0 3)
  have n17 : Relation.ReflTransGen (NodeLinked ([exRing0, exRing1, exRing2, exRing3, exRing4, exRing5, exRing6, exRing7].map fun t => t.shiftBy cx cy)) (0 : Fin 24) 17 := n0.tail (key exRing0 (by simp) 0 4)
  have n20 : Relation.ReflTransGen (NodeLinked ([exRing0, exRing1, exRing2, exRing3, exRing4, exRing5, exRing6, exRing7].map fun t => t.shiftBy cx cy)) (0 : Fin 24) 20 := n0.tail (key exRing0 (by simp) 0 5)
  have n4 : Relation.ReflTransGen (NodeLinked ([exRing0, exRing1, exRing2, exRing3, exRing4, exRing5, exRing6, exRing7].map fun t => t.shiftBy cx cy)) (0 : Fin 24) 4 := n0.tail (key exRing1 (by simp) 0 2)
  have n12 : Relation.ReflTransGen (NodeLinked ([exRing0, exRing1, exRing2, exRing3, exRing4, exRing5, exRing6, exRing7].map fun t => t.shiftBy cx cy)) (0 : Fin 24) 12 := n0.tail (key exRing1 (by simp) 0 4)
  have n16 : Relation.ReflTransGen (NodeLinked ([exRing0, exRing1, exRing2, exRing3, exRing4, exRing5, exRing6, exRing7].map fun t => t.shiftBy cx cy)) (0 : Fin 24) 16 := n0.tail (key exRing1 (by simp) 0 5)
  have n3 : Relation.ReflTransGen (NodeLinked ([exRing0, exRing1, exRing2, exRing3, exRing4, exRing5, exRing6, exRing7].map fun t => t.shiftBy cx cy)) (0 : Fin 24) 3 := n0.tail (key exRing6 (by simp) 1 0)
  have n11 : Relation.ReflTransGen (NodeLinked ([exRing0, exRing1, exRing2, exRing3, exRing4, exRing5, exRing6, exRing7].map fun t => t.shiftBy cx cy)) (0 : Fin 24) 11 := n0.tail (key exRing6 (by simp) 1 3)
  have n23 : Relation.ReflTransGen (NodeLinked ([exRing0, exRing1, exRing2, exRing3, exRing4, exRing5, exRing6, exRing7].map fun t => t.shiftBy cx cy)) (0 : Fin 24) 23 := n0.tail (key exRing6 (by simp) 1 5)
  have n2 : Relation.ReflTransGen (NodeLinked ([exRing0, exRing1, exRing2, exRing3, exRing4, exRing5, exRing6, exRing7].map fun t => t.shiftBy cx cy)) (0 : Fin 24) 2 := n1.tail (key exRing2 (by simp) 0 1)
  have n6 : Relation.ReflTransGen (NodeLinked ([exRing0, exRing1, exRing2, exRing3, exRing4, exRing5, exRing6, exRing7].map fun t => t.shiftBy cx cy)) (0 : Fin 24) 6 := n1.tail (key exRing2 (by simp) 0 2)
  have n9 : Relation.ReflTransGen (NodeLinked ([exRing0, exRing1, exRing2, exRing3, exRing4, exRing5, exRing6, exRing7].map fun t => t.shiftBy cx cy)) (0 : Fin 24) 9 := n1.tail (key exRing2 (by simp) 0 3)
  have n18 : Relation.ReflTransGen (NodeLinked ([exRing0, exRing1, exRing2, exRing3, exRing4, exRing5, exRing6, exRing7].map fun t => t.shiftBy cx cy)) (0 : Fin 24) 18 := n1.tail (key exRing2 (by simp) 0 4)
  have n21 : Relation.ReflTransGen (NodeLinked ([exRing0, exRing1, exRing2, exRing3, exRing4, exRing5, exRing6, exRing7].map fun t => t.shiftBy cx cy)) (0 : Fin 24) 21 := n1.tail (key exRing2 (by simp) 0 5)
  have n13 : Relation.ReflTransGen (NodeLinked ([exRing0, exRing1, exRing2, exRing3, exRing4, exRing5, exRing6, exRing7].map fun t => t.shiftBy cx cy)) (0 : Fin 24) 13 := n1.tail (key exRing3 (by simp) 0 4)
  have n7 : Relation.ReflTransGen (NodeLinked ([exRing0, exRing1, exRing2, exRing3, exRing4, exRing5, exRing6, exRing7].map fun t => t.shiftBy cx cy)) (0 : Fin 24) 7 := n4.tail (key exRing7 (by simp) 1 2)
  have n15 : Relation.ReflTransGen (NodeLinked ([exRing0, exRing1, exRing2, exRing3, exRing4, exRing5, exRing6, exRing7].map fun t => t.shiftBy cx cy)) (0 : Fin 24) 15 := n4.tail (key exRing7 (by simp) 1 4)
  have n19 : Relation.ReflTransGen (NodeLinked ([exRing0, exRing1, exRing2, exRing3, exRing4, exRing5, exRing6, exRing7].map fun t => t.shiftBy cx cy)) (0 : Fin 24) 19 := n4.tail (key exRing7 (by simp) 1 5)
  have n10 : Relation.ReflTransGen (NodeLinked ([exRing0, exRing1, exRing2, exRing3, exRing4, exRing5, exRing6, exRing7].map fun t => t.shiftBy cx cy)) (0 : Fin 24) 10 := n3.tail (key exRing4 (by simp) 1 3)
  have n22 : Relation.ReflTransGen (NodeLinked ([exRing0, exRing1, exRing2, exRing3, exRing4, exRing5, exRing6, exRing7].map fun t => t.shiftBy cx cy)) (0 : Fin 24) 22 := n3.tail (key exRing4 (by simp) 1 5)
  have n14 : Relation.ReflTransGen (NodeLinked ([exRing0, exRing1, exRing2, exRing3, exRing4, exRing5, exRing6, exRing7].map fun t => t.shiftBy cx cy)) (0 : Fin 24) 14 := n2.tail (key exRing5 (by simp) 0 4)
  have all : ∀ i, Relation.ReflTransGen (NodeLinked ([exRing0, exRing1, exRing2, exRing3, exRing4, exRing5, exRing6, exRing7].map fun t => t.shiftBy cx cy)) 0 i := by
    intro i
    fin_cases i <;> assumption
  intro i j
  exact (linked_symm _ (all i)).trans (all j)

theorem exRing0_mem {p : ℝ × ℝ} (h : p ∈ elemRegion exRing0.coords) :
    0 ≤ (-2) * p.1 + (-2) * p.2 + (4) ∧ 0 ≤ (1) * p.1 + (0) * p.2 + (0) ∧ 0 ≤ (1) * p.1 + (2) * p.2 + (-2) := by
  rw [elemRegion, show cornerA exRing0.coords = (2, 0) by simp [cornerA, exRing0, gather, exRingV],
    show cornerB exRing0.coords = (0, 2) by simp [cornerB, exRing0, gather, exRingV],
    show cornerC exRing0.coords = (0, 1) by simp [cornerC, exRing0, gather, exRingV], mem_tri] at h
  obtain ⟨s, t, hs, ht, hst, h1, h2⟩ := h
  simp only at h1 h2
  refine ⟨?_, ?_, ?_⟩ <;> linarith

theorem exRing1_mem {p : ℝ × ℝ} (h : p ∈ elemRegion exRing1.coords) :
    0 ≤ (-1) * p.1 + (-2) * p.2 + (2) ∧ 0 ≤ (1) * p.1 + (1) * p.2 + (-1) ∧ 0 ≤ (0) * p.1 + (1) * p.2 + (0) := by
  rw [elemRegion, show cornerA exRing1.coords = (2, 0) by simp [cornerA, exRing1, gather, exRingV],
    show cornerB exRing1.coords = (0, 1) by simp [cornerB, exRing1, gather, exRingV],
    show cornerC exRing1.coords = (1, 0) by simp [cornerC, exRing1, gather, exRingV], mem_tri] at h
  obtain ⟨s, t, hs, ht, hst, h1, h2⟩ := h
  simp only at h1 h2
  refine ⟨?_, ?_, ?_⟩ <;> linarith

theorem exRing2_mem {p : ℝ × ℝ} (h : p ∈ elemRegion exRing2.coords) :
    0 ≤ (2) * p.1 + (-2) * p.2 + (4) ∧ 0 ≤ (0) * p.1 + (1) * p.2 + (0) ∧ 0 ≤ (-2) * p.1 + (1) * p.2 + (-2) := by
  rw [elemRegion, show cornerA exRing2.coords = (0, 2) by simp [cornerA, exRing2, gather, exRingV],
    show cornerB exRing2.coords = (-2, 0) by simp [cornerB, exRing2, gather, exRingV],
    show cornerC exRing2.coords = (-1, 0) by simp [cornerC, exRing2, gather, exRingV], mem_tri] at h
  obtain ⟨s, t, hs, ht, hst, h1, h2⟩ := h
  simp only at h1 h2
  refine ⟨?_, ?_, ?_⟩ <;> linarith

theorem exRing3_mem {p : ℝ × ℝ} (h : p ∈ elemRegion exRing3.coords) :
    0 ≤ (2) * p.1 + (-1) * p.2 + (2) ∧ 0 ≤ (-1) * p.1 + (1) * p.2 + (-1) ∧ 0 ≤ (-1) * p.1 + (0) * p.2 + (0) := by
  rw [elemRegion, show cornerA exRing3.coords = (0, 2) by simp [cornerA, exRing3, gather, exRingV],
    show cornerB exRing3.coords = (-1, 0) by simp [cornerB, exRing3, gather, exRingV],
    show cornerC exRing3.coords = (0, 1) by simp [cornerC, exRing3, gather, exRingV], mem_tri] at h
  obtain ⟨s, t, hs, ht, hst, h1, h2⟩ := h
  simp only at h1 h2
  refine ⟨?_, ?_, ?_⟩ <;> linarith

theorem exRing4_mem {p : ℝ × ℝ} (h : p ∈ elemRegion exRing4.coords) :
    0 ≤ (2) * p.1 + (2) * p.2 + (4) ∧ 0 ≤ (-1) * p.1 + (0) * p.2 + (0) ∧ 0 ≤ (-1) * p.1 + (-2) * p.2 + (-2) := by
  rw [elemRegion, show cornerA exRing4.coords = (-2, 0) by simp [cornerA, exRing4, gather, exRingV],
    show cornerB exRing4.coords = (0, -2) by simp [cornerB, exRing4, gather, exRingV],
    show cornerC exRing4.coords = (0, -1) by simp [cornerC, exRing4, gather, exRingV], mem_tri] at h
  obtain ⟨s, t, hs, ht, hst, h1, h2⟩ := h
  simp only at h1 h2
  refine ⟨?_, ?_, ?_⟩ <;> linarith

theorem exRing5_mem {p : ℝ × ℝ} (h : p ∈ elemRegion exRing5.coords) :
    0 ≤ (1) * p.1 + (2) * p.2 + (2) ∧ 0 ≤ (-1) * p.1 + (-1) * p.2 + (-1) ∧ 0 ≤ (0) * p.1 + (-1) * p.2 + (0) := by
  rw [elemRegion, show cornerA exRing5.coords = (-2, 0) by simp [cornerA, exRing5, gather, exRingV],
    show cornerB exRing5.coords = (0, -1) by simp [cornerB, exRing5, gather, exRingV],
    show cornerC exRing5.coords = (-1, 0) by simp [cornerC, exRing5, gather, exRingV], mem_tri] at h
  obtain ⟨s, t, hs, ht, hst, h1, h2⟩ := h
  simp only at h1 h2
  refine ⟨?_, ?_, ?_⟩ <;> linarith

theorem exRing6_mem {p : ℝ × ℝ} (h : p ∈ elemRegion exRing6.coords) :
    0 ≤ (-2) * p.1 + (2) * p.2 + (4) ∧ 0 ≤ (0) * p.1 + (-1) * p.2 + (0) ∧ 0 ≤ (2) * p.1 + (-1) * p.2 + (-2) := by
  rw [elemRegion, show cornerA exRing6.coords = (0, -2) by simp [cornerA, exRing6, gather, exRingV],
    show cornerB exRing6.coords = (2, 0) by simp [cornerB, exRing6, gather, exRingV],
    show cornerC exRing6.coords = (1, 0) by simp [cornerC, exRing6, gather, exRingV], mem_tri] at h
  obtain ⟨s, t, hs, ht, hst, h1, h2⟩ := h
  simp only at h1 h2
  refine ⟨?_, ?_, ?_⟩ <;> linarith

theorem exRing7_mem {p : ℝ × ℝ} (h : p ∈ elemRegion exRing7.coords) :
    0 ≤ (-2) * p.1 + (1) * p.2 + (2) ∧ 0 ≤ (1) * p.1 + (-1) * p.2 + (-1) ∧ 0 ≤ (1) * p.1 + (0) * p.2 + (0) := by
  rw [elemRegion, show cornerA exRing7.coords = (0, -2) by simp [cornerA, exRing7, gather, exRingV],
    show cornerB exRing7.coords = (1, 0) by simp [cornerB, exRing7, gather, exRingV],
    show cornerC exRing7.coords = (0, -1) by simp [cornerC, exRing7, gather, exRingV], mem_tri] at h
  obtain ⟨s, t, hs, ht, hst, h1, h2⟩ := h
  simp only at h1 h2
  refine ⟨?_, ?_, ?_⟩ <;> linarith

/-- The intersection of two elements is within an edge of both. -/
def SharedEdge (a b : Tri6 24) : Prop := ∀ p ∈ elemRegion a.coords ∩ elemRegion b.coords,
  ∃ i j m, (∀ k ∈ [i, j, m], k ∈ Set.range a.nodeIds ∧ k ∈ Set.range b.nodeIds) ∧
    exRingV m = ((exRingV i).1 / 2 + (exRingV j).1 / 2, (exRingV i).2 / 2 + (exRingV j).2 / 2) ∧ p ∈ segment ℝ (exRingV i) (exRingV j)

theorem SharedEdge.symm {a b : Tri6 24} (h : SharedEdge a b) : SharedEdge b a := by
  intro p hp
  obtain ⟨i, j, m, h1, h2⟩ := h p hp.symm
  exact ⟨i, j, m, fun k hk => (h1 k hk).symm, h2⟩

theorem exRing_0_1 : SharedEdge exRing0 exRing1 := by
  rintro p ⟨h1, h2⟩
  obtain ⟨a1, a2, a3⟩ := exRing0_mem h1
  obtain ⟨b1, b2, b3⟩ := exRing1_mem h2
  refine ⟨0, 5, 20, fun k hk => ?_, ?_, ⟨1 - (p.1 - (2)) / (-2), (p.1 - (2)) / (-2), by linarith, by linarith, by ring, Prod.ext ?_ ?_⟩⟩
  · simp only [List.mem_cons, List.not_mem_nil, or_false] at hk
    rcases hk with rfl | rfl | rfl
    · exact ⟨⟨0, rfl⟩, ⟨0, rfl⟩⟩
    · exact ⟨⟨2, rfl⟩, ⟨1, rfl⟩⟩
    · exact ⟨⟨5, rfl⟩, ⟨3, rfl⟩⟩
  · simp [exRingV]; try norm_num
  · simp [exRingV]; try linarith
  · simp [exRingV]; try linarith

theorem exRing_0_2 : SharedEdge exRing0 exRing2 := by
  rintro p ⟨h1, h2⟩
  obtain ⟨a1, a2, a3⟩ := exRing0_mem h1
  obtain ⟨b1, b2, b3⟩ := exRing2_mem h2
  refine ⟨1, 1, 1, fun k hk => ?_, Prod.ext (by ring) (by ring), ?_⟩
  · simp only [List.mem_cons, List.not_mem_nil, or_false, or_self] at hk
    subst hk; exact ⟨⟨1, rfl⟩, ⟨0, rfl⟩⟩
  · rw [segment_same, mem_singleton_iff]
    exact Prod.ext (show p.1 = 0 by linarith) (show p.2 = 2 by linarith)

theorem exRing_0_3 : SharedEdge exRing0 exRing3 := by
  rintro p ⟨h1, h2⟩
  obtain ⟨a1, a2, a3⟩ := exRing0_mem h1
  obtain ⟨b1, b2, b3⟩ := exRing3_mem h2
  refine ⟨1, 5, 17, fun k hk => ?_, ?_, ⟨1 - (p.2 - (2)) / (-1), (p.2 - (2)) / (-1), by linarith, by linarith, by ring, Prod.ext ?_ ?_⟩⟩
  · simp only [List.mem_cons, List.not_mem_nil, or_false] at hk
    rcases hk with rfl | rfl | rfl
    · exact ⟨⟨1, rfl⟩, ⟨0, rfl⟩⟩
    · exact ⟨⟨2, rfl⟩, ⟨2, rfl⟩⟩
    · exact ⟨⟨4, rfl⟩, ⟨5, rfl⟩⟩
  · simp [exRingV]; try norm_num
  · simp [exRingV]; try linarith
  · simp [exRingV]; try linarith

theorem exRing_0_4 : SharedEdge exRing0 exRing4 := by
  rintro p ⟨h1, h2⟩
  obtain ⟨a1, a2, a3⟩ := exRing0_mem h1
  obtain ⟨b1, b2, b3⟩ := exRing4_mem h2
  exfalso; linarith

theorem exRing_0_5 : SharedEdge exRing0 exRing5 := by
  rintro p ⟨h1, h2⟩
  obtain ⟨a1, a2, a3⟩ := exRing0_mem h1
  obtain ⟨b1, b2, b3⟩ := exRing5_mem h2
  exfalso; linarith

theorem exRing_0_6 : SharedEdge exRing0 exRing6 := by
  rintro p ⟨h1, h2⟩
  obtain ⟨a1, a2, a3⟩ := exRing0_mem h1
  obtain ⟨b1, b2, b3⟩ := exRing6_mem h2
  refine ⟨0, 0, 0, fun k hk => ?_, Prod.ext (by ring) (by ring), ?_⟩
  · simp only [List.mem_cons, List.not_mem_nil, or_false, or_self] at hk
    subst hk; exact ⟨⟨0, rfl⟩, ⟨1, rfl⟩⟩
  · rw [segment_same, mem_singleton_iff]
    exact Prod.ext (show p.1 = 2 by linarith) (show p.2 = 0 by linarith)

theorem exRing_0_7 : SharedEdge exRing0 exRing7 := by
  rintro p ⟨h1, h2⟩
  obtain ⟨a1, a2, a3⟩ := exRing0_mem h1
  obtain ⟨b1, b2, b3⟩ := exRing7_mem h2
  exfalso; linarith

theorem exRing_1_2 : SharedEdge exRing1 exRing2 := by
  rintro p ⟨h1, h2⟩
  obtain ⟨a1, a2, a3⟩ := exRing1_mem h1
  obtain ⟨b1, b2, b3⟩ := exRing2_mem h2
  exfalso; linarith

theorem exRing_1_3 : SharedEdge exRing1 exRing3 := by
  rintro p ⟨h1, h2⟩
  obtain ⟨a1, a2, a3⟩ := exRing1_mem h1
  obtain ⟨b1, b2, b3⟩ := exRing3_mem h2
  refine ⟨5, 5, 5, fun k hk => ?_, Prod.ext (by ring) (by ring), ?_⟩
  · simp only [List.mem_cons, List.not_mem_nil, or_false, or_self] at hk
    subst hk; exact ⟨⟨1, rfl⟩, ⟨2, rfl⟩⟩
  · rw [segment_same, mem_singleton_iff]
    exact Prod.ext (show p.1 = 0 by linarith) (show p.2 = 1 by linarith)

theorem exRing_1_4 : SharedEdge exRing1 exRing4 := by
  rintro p ⟨h1, h2⟩
  obtain ⟨a1, a2, a3⟩ := exRing1_mem h1
  obtain ⟨b1, b2, b3⟩ := exRing4_mem h2
  exfalso; linarith

theorem exRing_1_5 : SharedEdge exRing1 exRing5 := by
  rintro p ⟨h1, h2⟩
  obtain ⟨a1, a2, a3⟩ := exRing1_mem h1
  obtain ⟨b1, b2, b3⟩ := exRing5_mem h2
  exfalso; linarith

theorem exRing_1_6 : SharedEdge exRing1 exRing6 := by
  rintro p ⟨h1, h2⟩
  obtain ⟨a1, a2, a3⟩ := exRing1_mem h1
  obtain ⟨b1, b2, b3⟩ := exRing6_mem h2
  refine ⟨0, 4, 16, fun k hk => ?_, ?_, ⟨1 - (p.1 - (2)) / (-1), (p.1 - (2)) / (-1), by linarith, by linarith, by ring, Prod.ext ?_ ?_⟩⟩
  · simp only [List.mem_cons, List.not_mem_nil, or_false] at hk
    rcases hk with rfl | rfl | rfl
    · exact ⟨⟨0, rfl⟩, ⟨1, rfl⟩⟩
    · exact ⟨⟨2, rfl⟩, ⟨2, rfl⟩⟩
    · exact ⟨⟨5, rfl⟩, ⟨4, rfl⟩⟩
  · simp [exRingV]; try norm_num
  · simp [exRingV]; try linarith
  · simp [exRingV]; try linarith

theorem exRing_1_7 : SharedEdge exRing1 exRing7 := by
  rintro p ⟨h1, h2⟩
  obtain ⟨a1, a2, a3⟩ := exRing1_mem h1
  obtain ⟨b1, b2, b3⟩ := exRing7_mem h2
  refine ⟨4, 4, 4, fun k hk => ?_, Prod.ext (by ring) (by ring), ?_⟩
  · simp only [List.mem_cons, List.not_mem_nil, or_false, or_self] at hk
    subst hk; exact ⟨⟨2, rfl⟩, ⟨1, rfl⟩⟩
  · rw [segment_same, mem_singleton_iff]
    exact Prod.ext (show p.1 = 1 by linarith) (show p.2 = 0 by linarith)

theorem exRing_2_3 : SharedEdge exRing2 exRing3 := by
  rintro p ⟨h1, h2⟩
  obtain ⟨a1, a2, a3⟩ := exRing2_mem h1
  obtain ⟨b1, b2, b3⟩ := exRing3_mem h2
  refine ⟨1, 6, 21, fun k hk => ?_, ?_, ⟨1 - (p.1 - (0)) / (-1), (p.1 - (0)) / (-1), by linarith, by linarith, by ring, Prod.ext ?_ ?_⟩⟩
  · simp only [List.mem_cons, List.not_mem_nil, or_false] at hk
    rcases hk with rfl | rfl | rfl
    · exact ⟨⟨0, rfl⟩, ⟨0, rfl⟩⟩
    · exact ⟨⟨2, rfl⟩, ⟨1, rfl⟩⟩
    · exact ⟨⟨5, rfl⟩, ⟨3, rfl⟩⟩
  · simp [exRingV]; try norm_num
  · simp [exRingV]; try linarith
  · simp [exRingV]; try linarith

theorem exRing_2_4 : SharedEdge exRing2 exRing4 := by
  rintro p ⟨h1, h2⟩
  obtain ⟨a1, a2, a3⟩ := exRing2_mem h1
  obtain ⟨b1, b2, b3⟩ := exRing4_mem h2
  refine ⟨2, 2, 2, fun k hk => ?_, Prod.ext (by ring) (by ring), ?_⟩
  · simp only [List.mem_cons, List.not_mem_nil, or_false, or_self] at hk
    subst hk; exact ⟨⟨1, rfl⟩, ⟨0, rfl⟩⟩
  · rw [segment_same, mem_singleton_iff]
    exact Prod.ext (show p.1 = -2 by linarith) (show p.2 = 0 by linarith)

theorem exRing_2_5 : SharedEdge exRing2 exRing5 := by
  rintro p ⟨h1, h2⟩
  obtain ⟨a1, a2, a3⟩ := exRing2_mem h1
  obtain ⟨b1, b2, b3⟩ := exRing5_mem h2
  refine ⟨2, 6, 18, fun k hk => ?_, ?_, ⟨1 - (p.1 - (-2)) / (1), (p.1 - (-2)) / (1), by linarith, by linarith, by ring, Prod.ext ?_ ?_⟩⟩
  · simp only [List.mem_cons, List.not_mem_nil, or_false] at hk
    rcases hk with rfl | rfl | rfl
    · exact ⟨⟨1, rfl⟩, ⟨0, rfl⟩⟩
    · exact ⟨⟨2, rfl⟩, ⟨2, rfl⟩⟩
    · exact ⟨⟨4, rfl⟩, ⟨5, rfl⟩⟩
  · simp [exRingV]; try norm_num
  · simp [exRingV]; try linarith
  · simp [exRingV]; try linarith

theorem exRing_2_6 : SharedEdge exRing2 exRing6 := by
  rintro p ⟨h1, h2⟩
  obtain ⟨a1, a2, a3⟩ := exRing2_mem h1
  obtain ⟨b1, b2, b3⟩ := exRing6_mem h2
  exfalso; linarith

theorem exRing_2_7 : SharedEdge exRing2 exRing7 := by
  rintro p ⟨h1, h2⟩
  obtain ⟨a1, a2, a3⟩ := exRing2_mem h1
  obtain ⟨b1, b2, b3⟩ := exRing7_mem h2
  exfalso; linarith

theorem exRing_3_4 : SharedEdge exRing3 exRing4 := by
  rintro p ⟨h1, h2⟩
  obtain ⟨a1, a2, a3⟩ := exRing3_mem h1
  obtain ⟨b1, b2, b3⟩ := exRing4_mem h2
  exfalso; linarith

theorem exRing_3_5 : SharedEdge exRing3 exRing5 := by
  rintro p ⟨h1, h2⟩
  obtain ⟨a1, a2, a3⟩ := exRing3_mem h1
  obtain ⟨b1, b2, b3⟩ := exRing5_mem h2
  refine ⟨6, 6, 6, fun k hk => ?_, Prod.ext (by ring) (by ring), ?_⟩
  · simp only [List.mem_cons, List.not_mem_nil, or_false, or_self] at hk
    subst hk; exact ⟨⟨1, rfl⟩, ⟨2, rfl⟩⟩
  · rw [segment_same, mem_singleton_iff]
    exact Prod.ext (show p.1 = -1 by linarith) (show p.2 = 0 by linarith)

theorem exRing_3_6 : SharedEdge exRing3 exRing6 := by
  rintro p ⟨h1, h2⟩
  obtain ⟨a1, a2, a3⟩ := exRing3_mem h1
  obtain ⟨b1, b2, b3⟩ := exRing6_mem h2
  exfalso; linarith

theorem exRing_3_7 : SharedEdge exRing3 exRing7 := by
  rintro p ⟨h1, h2⟩
  obtain ⟨a1, a2, a3⟩ := exRing3_mem h1
  obtain ⟨b1, b2, b3⟩ := exRing7_mem h2
  exfalso; linarith

theorem exRing_4_5 : SharedEdge exRing4 exRing5 := by
  rintro p ⟨h1, h2⟩
  obtain ⟨a1, a2, a3⟩ := exRing4_mem h1
  obtain ⟨b1, b2, b3⟩ := exRing5_mem h2
  refine ⟨2, 7, 22, fun k hk => ?_, ?_, ⟨1 - (p.1 - (-2)) / (2), (p.1 - (-2)) / (2), by linarith, by linarith, by ring, Prod.ext ?_ ?_⟩⟩
  · simp only [List.mem_cons, List.not_mem_nil, or_false] at hk
    rcases hk with rfl | rfl | rfl
    · exact ⟨⟨0, rfl⟩, ⟨0, rfl⟩⟩
    · exact ⟨⟨2, rfl⟩, ⟨1, rfl⟩⟩
    · exact ⟨⟨5, rfl⟩, ⟨3, rfl⟩⟩
  · simp [exRingV]; try norm_num
  · simp [exRingV]; try linarith
  · simp [exRingV]; try linarith

theorem exRing_4_6 : SharedEdge exRing4 exRing6 := by
  rintro p ⟨h1, h2⟩
  obtain ⟨a1, a2, a3⟩ := exRing4_mem h1
  obtain ⟨b1, b2, b3⟩ := exRing6_mem h2
  refine ⟨3, 3, 3, fun k hk => ?_, Prod.ext (by ring) (by ring), ?_⟩
  · simp only [List.mem_cons, List.not_mem_nil, or_false, or_self] at hk
    subst hk; exact ⟨⟨1, rfl⟩, ⟨0, rfl⟩⟩
  · rw [segment_same, mem_singleton_iff]
    exact Prod.ext (show p.1 = 0 by linarith) (show p.2 = -2 by linarith)

theorem exRing_4_7 : SharedEdge exRing4 exRing7 := by
  rintro p ⟨h1, h2⟩
  obtain ⟨a1, a2, a3⟩ := exRing4_mem h1
  obtain ⟨b1, b2, b3⟩ := exRing7_mem h2
  refine ⟨3, 7, 19, fun k hk => ?_, ?_, ⟨1 - (p.2 - (-2)) / (1), (p.2 - (-2)) / (1), by linarith, by linarith, by ring, Prod.ext ?_ ?_⟩⟩
  · simp only [List.mem_cons, List.not_mem_nil, or_false] at hk
    rcases hk with rfl | rfl | rfl
    · exact ⟨⟨1, rfl⟩, ⟨0, rfl⟩⟩
    · exact ⟨⟨2, rfl⟩, ⟨2, rfl⟩⟩
    · exact ⟨⟨4, rfl⟩, ⟨5, rfl⟩⟩
  · simp [exRingV]; try norm_num
  · simp [exRingV]; try linarith
  · simp [exRingV]; try linarith

theorem exRing_5_6 : SharedEdge exRing5 exRing6 := by
  rintro p ⟨h1, h2⟩
  obtain ⟨a1, a2, a3⟩ := exRing5_mem h1
  obtain ⟨b1, b2, b3⟩ := exRing6_mem h2
  exfalso; linarith

theorem exRing_5_7 : SharedEdge exRing5 exRing7 := by
  rintro p ⟨h1, h2⟩
  obtain ⟨a1, a2, a3⟩ := exRing5_mem h1
  obtain ⟨b1, b2, b3⟩ := exRing7_mem h2
  refine ⟨7, 7, 7, fun k hk => ?_, Prod.ext (by ring) (by ring), ?_⟩
  · simp only [List.mem_cons, List.not_mem_nil, or_false, or_self] at hk
    subst hk; exact ⟨⟨1, rfl⟩, ⟨2, rfl⟩⟩
  · rw [segment_same, mem_singleton_iff]
    exact Prod.ext (show p.1 = 0 by linarith) (show p.2 = -1 by linarith)

theorem exRing_6_7 : SharedEdge exRing6 exRing7 := by
  rintro p ⟨h1, h2⟩
  obtain ⟨a1, a2, a3⟩ := exRing6_mem h1
  obtain ⟨b1, b2, b3⟩ := exRing7_mem h2
  refine ⟨3, 4, 23, fun k hk => ?_, ?_, ⟨1 - (p.1 - (0)) / (1), (p.1 - (0)) / (1), by linarith, by linarith, by ring, Prod.ext ?_ ?_⟩⟩
  · simp only [List.mem_cons, List.not_mem_nil, or_false] at hk
    rcases hk with rfl | rfl | rfl
    · exact ⟨⟨0, rfl⟩, ⟨0, rfl⟩⟩
    · exact ⟨⟨2, rfl⟩, ⟨1, rfl⟩⟩
    · exact ⟨⟨5, rfl⟩, ⟨3, rfl⟩⟩
  · simp [exRingV]; try norm_num
  · simp [exRingV]; try linarith
  · simp [exRingV]; try linarith

theorem exRing_conforming : ConformingMesh exRing.meshNodes exRing.elements := by
  have key : ∀ a ∈ exRing.elements, ∀ b ∈ exRing.elements, a ≠ b → SharedEdge a b := by
    refine exRing_cases ⟨?_, ?_, ?_, ?_, ?_, ?_, ?_, ?_⟩ <;> refine exRing_cases ⟨?_, ?_, ?_, ?_, ?_, ?_, ?_, ?_⟩
    · exact fun h => absurd rfl h
    · exact fun _ => exRing_0_1
    · exact fun _ => exRing_0_2
    · exact fun _ => exRing_0_3
    · exact fun _ => exRing_0_4
    · exact fun _ => exRing_0_5
    · exact fun _ => exRing_0_6
    · exact fun _ => exRing_0_7
    · exact fun _ => exRing_0_1.symm
    · exact fun h => absurd rfl h
    · exact fun _ => exRing_1_2
    · exact fun _ => exRing_1_3
    · exact fun _ => exRing_1_4
    · exact fun _ => exRing_1_5
    · exact fun _ => exRing_1_6
    · exact fun _ => exRing_1_7
    · exact fun _ => exRing_0_2.symm
    · exact fun _ => exRing_1_2.symm
    · exact fun h => absurd rfl h
    · exact fun _ => exRing_2_3
    · exact fun _ => exRing_2_4
    · exact fun _ => exRing_2_5
    · exact fun _ => exRing_2_6
    · exact fun _ => exRing_2_7
    · exact fun _ => exRing_0_3.symm
    · exact fun _ => exRing_1_3.symm
    · exact fun _ => exRing_2_3.symm
    · exact fun h => absurd rfl h
    · exact fun _ => exRing_3_4
    · exact fun _ => exRing_3_5
    · exact fun _ => exRing_3_6
    · exact fun _ => exRing_3_7
    · exact fun _ => exRing_0_4.symm
    · exact fun _ => exRing_1_4.symm
    · exact fun _ => exRing_2_4.symm
    · exact fun _ => exRing_3_4.symm
    · exact fun h => absurd rfl h
    · exact fun _ => exRing_4_5
    · exact fun _ => exRing_4_6
    · exact fun _ => exRing_4_7
    · exact fun _ => exRing_0_5.symm
    · exact fun _ => exRing_1_5.symm
    · exact fun _ => exRing_2_5.symm
    · exact fun _ => exRing_3_5.symm
    · exact fun _ => exRing_4_5.symm
    · exact fun h => absurd rfl h
    · exact fun _ => exRing_5_6
    · exact fun _ => exRing_5_7
    · exact fun _ => exRing_0_6.symm
    · exact fun _ => exRing_1_6.symm
    · exact fun _ => exRing_2_6.symm
    · exact fun _ => exRing_3_6.symm
    · exact fun _ => exRing_4_6.symm
    · exact fun _ => exRing_5_6.symm
    · exact fun h => absurd rfl h
    · exact fun _ => exRing_6_7
    · exact fun _ => exRing_0_7.symm
    · exact fun _ => exRing_1_7.symm
    · exact fun _ => exRing_2_7.symm
    · exact fun _ => exRing_3_7.symm
    · exact fun _ => exRing_4_7.symm
    · exact fun _ => exRing_5_7.symm
    · exact fun _ => exRing_6_7.symm
    · exact fun h => absurd rfl h
  exact fun a ha b hb hab p hp => key a ha b hb hab p hp
/-! ### The region of the mesh -/

noncomputable def cornerCoords (c : Corners) : Coords := ⟨fun k => (cornerNodes c k).1, fun k => (cornerNodes c k).2⟩

theorem cornersSection_coords (T : List Corners) (m : Material) :
    ((cornersSection T m).elements.map fun t => t.coords) = T.map cornerCoords := by
  have h : (List.finRange T.length).map (fun i : Fin T.length => T[i]) = T := by
    apply List.ext_getElem
    · simp
    · intro i h1 h2; simp
  conv_rhs => rw [← h]
  rw [cornersSection, List.map_map, List.map_map]
  congr 1
  funext i
  simp [cornerCoords, gather]

theorem noOverlap_coords {n m : ℕ} {els : List (Tri6 n)} {els' : List (Tri6 m)}
    (h : (els.map fun t => t.coords) = els'.map fun t => t.coords) : NoOverlap els ↔ NoOverlap els' := by
  have h1 : ∀ {n : ℕ} (els : List (Tri6 n)), NoOverlap els ↔
      (els.map fun t => t.coords).Pairwise fun a b => volume (elemRegion a ∩ elemRegion b) = 0 := fun els => by
    rw [List.pairwise_map]; rfl
  rw [h1, h1, h]

theorem region_coords {n m : ℕ} {els : List (Tri6 n)} {els' : List (Tri6 m)}
    (h : (els.map fun t => t.coords) = els'.map fun t => t.coords) : region els = region els' := by
  have h1 : ∀ {n : ℕ} (els : List (Tri6 n)), region els = {p | ∃ c ∈ els.map fun t => t.coords, p ∈ elemRegion c} := fun els => by
    ext p
    simp [region]
  rw [h1, h1, h]

theorem four_points (d : ℝ) : ellipsePt d d 4 0 = (d / 2, 0) ∧ ellipsePt d d 4 1 = (0, d / 2) ∧ ellipsePt d d 4 2 = (-(d / 2), 0) ∧
    ellipsePt d d 4 3 = (0, -(d / 2)) ∧ ellipsePt d d 4 4 = (d / 2, 0) := by
  have h3 : 2 * Real.pi * 3 / 4 = Real.pi + Real.pi / 2 := by ring
  have h1 : 2 * Real.pi * 1 / 4 = Real.pi / 2 := by ring
  have h2 : 2 * Real.pi * 2 / 4 = Real.pi := by ring
  have h4 : 2 * Real.pi * 4 / 4 = 2 * Real.pi := by ring
  refine ⟨?_, ?_, ?_, ?_, ?_⟩ <;> simp only [ellipsePt] <;> push_cast
  · simp
  · rw [h1]; simp
  · rw [h2]; simp
  · rw [h3, Real.cos_add, Real.sin_add]; simp
  · rw [h4]; simp

theorem exRing_coords : (exRing.elements.map fun t => t.coords) =
    (cornersSection (ringTris (ellipsePt 4 4 4) (ellipsePt (2 * (4 / 2 - 1)) (2 * (4 / 2 - 1)) 4) 4) defaultMaterial).elements.map
      fun t => t.coords := by
  rw [cornersSection_coords]
  obtain ⟨a0, a1, a2, a3, a4⟩ := four_points 4
  obtain ⟨b0, b1, b2, b3, b4⟩ := four_points (2 * (4 / 2 - 1))
  show [exRing0, exRing1, exRing2, exRing3, exRing4, exRing5, exRing6, exRing7].map (fun t => t.coords) = _
  simp only [ringTris, List.range_succ, List.range_zero, List.nil_append, List.flatMap_cons, List.flatMap_nil,
    List.map_cons, List.map_nil, List.cons_append, List.append_nil, a0, a1, a2, a3, a4, b0, b1, b2, b3, b4,
    Nat.reduceAdd, zero_add]
  simp only [List.cons.injEq, and_true]
  refine ⟨?_, ?_, ?_, ?_, ?_, ?_, ?_, ?_⟩ <;>
    simp only [exRing0, exRing1, exRing2, exRing3, exRing4, exRing5, exRing6, exRing7, gather, cornerCoords, Coords.mk.injEq] <;>
    refine ⟨funext fun k => ?_, funext fun k => ?_⟩ <;> fin_cases k <;> simp [exRingV, cornerNodes] <;> norm_num

theorem exRing_region : region exRing.elements =ᵐ[volume]
    polyRegion ⟨ellipsePts 4 4 4, [ellipsePts (2 * (4 / 2 - 1)) (2 * (4 / 2 - 1)) 4]⟩ ∧ NoOverlap exRing.elements := by
  have hg : (⟨⟨ellipsePts 4 4 4, [ellipsePts (2 * (4 / 2 - 1)) (2 * (4 / 2 - 1)) 4]⟩, defaultMaterial, none, 12, [], [], [], []⟩ : Geometry).poly
    = ⟨ellipsePts 4 4 4, [ellipsePts (2 * (4 / 2 - 1)) (2 * (4 / 2 - 1)) 4]⟩ := rfl
  obtain ⟨-, h2, -, h3⟩ := hollow_mesh (d := 4) (i := 2 * (4 / 2 - 1)) (by norm_num) (by norm_num) (n := 4) (by norm_num) hg
    (by norm_num [defaultMaterial])
  exact ⟨by rw [region_coords exRing_coords]; exact h3, (noOverlap_coords exRing_coords).2 h2⟩

/-- The hollow section with four points meets all hypotheses. -/
example : ∃ (r : GeomResults) (w : WarpResults exRing.numNodes), exRing.geometricAnalysis = .ok r ∧
    exRing.warping exactSolvers .direct r = .ok w ∧ 3 / 2 * Real.pi ≤ w.j ∧ w.j < 15 / 2 * Real.pi := by
  obtain ⟨r, hr⟩ := geometricAnalysis_ok exRing (by simp [exRing])
  obtain ⟨w, hw, h1, -, -⟩ := exact_warping exRing r exRing_good exRing_physical hr (exRing_linked r.cx r.cy)
  obtain ⟨a1, a2⟩ := C90_hollow exRing r exRing_good exRing_physical exRing_conforming exRing_region.2 hr _ _ w hw h1 (e := 1) (d := 4)
    (t := 1) one_pos exRing_unit one_pos (by norm_num) (n := 4) (by norm_num) exRing_region.1
  have hc : Real.cos (Real.pi / (4 : ℕ)) ^ 4 = 1 / 4 := by
    have h2 := Real.sq_sqrt (show (0 : ℝ) ≤ 2 by norm_num)
    rw [show ((4 : ℕ) : ℝ) = 4 by norm_num, Real.cos_pi_div_four]
    linear_combination (1 / 16 * (√2 ^ 2 + 2)) * h2
  rw [mul_pow, hc] at a1
  refine ⟨r, w, hr, hw, ?_, ?_⟩
  · linarith
  · linarith

/-- The solid section with three points, in one triangle, meets all hypotheses. -/
example : ∃ (r : GeomResults) (w : WarpResults (cornersSection (fan (ellipsePt 2 2 3) 1) defaultMaterial).numNodes),
    (cornersSection (fan (ellipsePt 2 2 3) 1) defaultMaterial).geometricAnalysis = .ok r ∧
    (cornersSection (fan (ellipsePt 2 2 3) 1) defaultMaterial).warping exactSolvers .direct r = .ok w ∧
    Real.pi / 32 ≤ w.j ∧ w.j < Real.pi / 2 := by
  obtain ⟨r, hr⟩ := cornersSection_analysis (T := fan (ellipsePt 2 2 3) 1) defaultMaterial (by simp [fan])
  obtain ⟨h1, h2, -, h3⟩ := ellipse_mesh (dx := 2) (dy := 2) two_pos two_pos 0
    (g := ⟨⟨ellipsePts 2 2 3, []⟩, defaultMaterial, none, 12, [], [], [], []⟩) rfl (by norm_num [defaultMaterial])
  set s := cornersSection (fan (ellipsePt 2 2 3) 1) defaultMaterial with hs
  have hg : GoodSection s := ⟨h1.proper, fun t ht => by
    obtain ⟨i, -, rfl⟩ := List.mem_map.1 ht
    rfl⟩
  have hone : ∀ a ∈ s.elements, ∀ b ∈ s.elements, a = b := by
    intro a ha b hb
    obtain ⟨i, -, rfl⟩ := List.mem_map.1 ha
    obtain ⟨j, -, rfl⟩ := List.mem_map.1 hb
    have hi : i = j := by
      have h1 : (i : ℕ) < 1 := by simpa [fan] using i.2
      have h2 : (j : ℕ) < 1 := by simpa [fan] using j.2
      exact Fin.ext (by omega)
    rw [hi]
  have hcm : ConformingMesh s.meshNodes s.elements := fun a ha b hb hab => absurd (hone a ha b hb) hab
  have hl : ConnectedMesh (s.elements.map fun t => t.shiftBy r.cx r.cy) := by
    have hlen : (fan (ellipsePt 2 2 3) 1).length = 1 := by simp [fan]
    have key : ∀ q : Fin s.numNodes, ∃ k : Fin 6, finProdFinEquiv ((⟨0, by omega⟩ : Fin (fan (ellipsePt 2 2 3) 1).length), k) = q := by
      intro q
      refine ⟨(finProdFinEquiv.symm q).2, ?_⟩
      have : (⟨0, by omega⟩ : Fin (fan (ellipsePt 2 2 3) 1).length) = (finProdFinEquiv.symm q).1 := by
        have h1 : ((finProdFinEquiv.symm q).1 : ℕ) < 1 := lt_of_lt_of_eq (finProdFinEquiv.symm q).1.2 hlen
        exact Fin.ext (by simp only; omega)
      rw [this]
      exact finProdFinEquiv.apply_symm_apply q
    intro i j
    obtain ⟨k, hk⟩ := key i
    obtain ⟨l, hl⟩ := key j
    exact .single ⟨_, List.mem_map_of_mem (List.mem_map_of_mem (List.mem_finRange ⟨0, by omega⟩)), k, l, hk, hl⟩
  obtain ⟨w, hw, hex, -, -⟩ := exact_warping s r hg h1 hr hl
  obtain ⟨a1, a2⟩ := C90_ellipse s r hg h1 hcm h2 hr _ _ w hw hex (e := 1) (a := 1) (b := 1) one_pos (fun t ht => by
    obtain ⟨i, -, rfl⟩ := List.mem_map.1 ht
    rfl) one_pos one_pos (n := 3) le_rfl (by simpa using h3)
  rw [show ((3 : ℕ) : ℝ) = 3 by norm_num, Real.cos_pi_div_three] at a1
  refine ⟨r, w, hr, hw, ?_, ?_⟩
  · linarith
  · linarith

end SP
