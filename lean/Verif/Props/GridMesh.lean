import Verif.Props.ConvergeRect
import Verif.Props.RectExample
import Mathlib.Logic.Equiv.Fin.Basic

/-!
# Uniform meshes of a rectangle

The rectangle `(0, k wx) × (0, k wy)` in `k × k` cells, each cut by its diagonal into two six-node triangles, as the constructor of
`Section` makes them from the arrays of a mesher.  The nodes are numbered row by row.  These meshes meet all the hypotheses about
meshes used in this project, for every `k`, and get arbitrarily fine with the same shape constant.
-/

namespace SP

open Spec MeasureTheory Set

variable {k : ℕ} {wx wy : ℝ}

/-- Places of the six nodes in a cell, in half cells, in the order of the mesher: below (`false`) or above (`true`) the diagonal. -/
def gridOff : Bool → Fin 6 → Fin 3 × Fin 3
  | false => ![(0, 0), (2, 0), (2, 2), (2, 1), (1, 1), (1, 0)]
  | true => ![(0, 0), (2, 2), (0, 2), (1, 2), (0, 1), (1, 1)]

/-- The node in column `I` and row `J` of the half cells. -/
def gridNode (k : ℕ) (I J : Fin (2 * k + 1)) : Fin ((2 * k + 1) * (2 * k + 1)) := finProdFinEquiv (I, J)

noncomputable def gridPos (k : ℕ) (wx wy : ℝ) (v : Fin ((2 * k + 1) * (2 * k + 1))) : ℝ × ℝ :=
  ((finProdFinEquiv.symm v).1.val * (wx / 2), (finProdFinEquiv.symm v).2.val * (wy / 2))

theorem gridPos_node (I J : Fin (2 * k + 1)) : gridPos k wx wy (gridNode k I J) = (I.val * (wx / 2), J.val * (wy / 2)) := by
  simp [gridPos, gridNode]

/-- Half a cell to a node index. -/
def gridAt (i : Fin k) (o : Fin 3) : Fin (2 * k + 1) := ⟨2 * i.val + o.val, by omega⟩

/-- The nodes of a triangle, in the order of the mesher. -/
def gridTri (k : ℕ) (x : Fin k × Fin k × Bool) (l : Fin 6) : Fin ((2 * k + 1) * (2 * k + 1)) :=
  gridNode k (gridAt x.1 (gridOff x.2.2 l).1) (gridAt x.2.1 (gridOff x.2.2 l).2)

noncomputable def gridCells (k : ℕ) : List (Fin k × Fin k × Bool) := Finset.univ.toList

/-- What the mesher returns. -/
noncomputable def gridMesh (k : ℕ) (wx wy : ℝ) : MeshData where
  numNodes := (2 * k + 1) * (2 * k + 1)
  vertices := gridPos k wx wy
  triangles := (gridCells k).map (gridTri k)
  attributes := (gridCells k).map fun _ => 0

noncomputable def gridGeom (k : ℕ) (wx wy : ℝ) (mat : MatObj) : GeomIn := ⟨[mat], some (gridMesh k wx wy)⟩

/-- The element the constructor makes of a triangle. -/
noncomputable def gridEl (k : ℕ) (wx wy : ℝ) (mat : MatObj) (x : (Fin k × Fin k × Bool) × ℕ) : Tri6 ((2 * k + 1) * (2 * k + 1)) :=
  ⟨x.2, gather (gridPos k wx wy) (reorder (gridTri k x.1)), reorder (gridTri k x.1), mat.val⟩

noncomputable def gridEls (k : ℕ) (wx wy : ℝ) (mat : MatObj) : List (Tri6 ((2 * k + 1) * (2 * k + 1))) :=
  (gridCells k).zipIdx.map (gridEl k wx wy mat)

noncomputable def gridSection (k : ℕ) (wx wy : ℝ) (mat : MatObj) : Section where
  numNodes := (2 * k + 1) * (2 * k + 1)
  meshNodes := gridPos k wx wy
  materials := [mat]
  elements := gridEls k wx wy mat
  groups := [⟨mat, gridEls k wx wy mat⟩]

theorem gridCells_mem (x : Fin k × Fin k × Bool) : x ∈ gridCells k := by simp [gridCells]

theorem gridCells_ne (hk : 0 < k) : gridCells k ≠ [] :=
  List.ne_nil_of_mem (gridCells_mem (⟨0, hk⟩, ⟨0, hk⟩, false))

theorem zeros_max {α : Type*} : ∀ {l : List α}, l ≠ [] → (l.map fun _ => 0).max? = some 0
  | [_], _ => by simp
  | a :: b :: l, _ => by
    have := zeros_max (l := b :: l) (by simp)
    rw [List.map_cons, List.max?_cons, this]
    rfl

theorem addAll {n : ℕ} (mat : MatObj) : ∀ (l : List (Tri6 n)) (acc : List (Tri6 n)),
    (l.map fun t => (t, mat)).foldl (fun gs p => addToGroup p.1 p.2 gs) [⟨mat, acc⟩] = [⟨mat, acc ++ l⟩]
  | [], acc => by simp
  | t :: l, acc => by
    rw [List.map_cons, List.foldl_cons]
    have : addToGroup t mat [⟨mat, acc⟩] = [⟨mat, acc ++ [t]⟩] := by simp [addToGroup]
    rw [this, addAll mat l]
    simp

/-- The constructor makes the section from the mesh. -/
theorem grid_init (hk : 0 < k) (mat : MatObj) : Section.init (gridGeom k wx wy mat) = .ok (gridSection k wx wy mat) := by
  have hmx : (gridMesh k wx wy).attributes.max? = some 0 := zeros_max (gridCells_ne hk)
  have hM : (gridMesh k wx wy).triangles.zipIdx.mapM
      (fun p => mkElement (gridGeom k wx wy mat).materials (gridMesh k wx wy) p.1 p.2)
      = .ok (((gridCells k).zipIdx.map (gridEl k wx wy mat)).map fun t => (t, mat)) := by
    rw [mapM_ok_forall₂]
    have e1 : (gridMesh k wx wy).triangles.zipIdx = (gridCells k).zipIdx.map (Prod.map (gridTri k) id) := List.zipIdx_map ..
    have e2 : ((gridCells k).zipIdx.map (gridEl k wx wy mat)).map (fun t => (t, mat)) =
        (gridCells k).zipIdx.map fun x => (gridEl k wx wy mat x, mat) := List.map_map ..
    rw [e1]
    refine e2 ▸ List.forall₂_map_left_iff.2 (List.forall₂_map_right_iff.2 (List.forall₂_same.2 ?_))
    rintro ⟨x, i⟩ hx
    have hi : (gridMesh k wx wy).attributes[i]? = some 0 := by
      have hlt : i < (gridCells k).length := by
        have := List.mem_zipIdx hx
        omega
      change ((gridCells k).map fun _ => 0)[i]? = some 0
      simp [hlt]
    simp only [mkElement, Prod.map, id, hi]
    rfl
  have hl : (gridGeom k wx wy mat).materials.length = 0 + 1 := rfl
  have hg : groupMaterials (gridGeom k wx wy mat).materials = [mat] := by
    simp [groupMaterials, gridGeom, List.zipIdx]
  unfold Section.init
  simp only [show (gridGeom k wx wy mat).mesh = some (gridMesh k wx wy) from rfl, hmx, hl, ne_eq, not_true_eq_false,
    if_false, hM, hg, List.map_cons, List.map_nil]
  have h2 := addAll mat ((gridCells k).zipIdx.map (gridEl k wx wy mat)) []
  rw [List.nil_append] at h2
  have h3 : (((gridCells k).zipIdx.map (gridEl k wx wy mat)).map fun t => (t, mat)).map Prod.fst =
      (gridCells k).zipIdx.map (gridEl k wx wy mat) := by
    rw [List.map_map]
    exact List.map_id _
  exact congrArg Except.ok (by
    unfold gridSection
    congr 1)

theorem grid_good_mesh (hx : 0 < wx) (hy : 0 < wy) : GoodMesh (gridMesh k wx wy) := by
  intro t ht
  obtain ⟨⟨i, j, s⟩, -, rfl⟩ := List.mem_map.1 ht
  have hp : ∀ l, (gridMesh k wx wy).vertices (gridTri k (i, j, s) l) =
      ((2 * i.val + (gridOff s l).1.val : ℕ) * (wx / 2), (2 * j.val + (gridOff s l).2.val : ℕ) * (wy / 2)) := fun l => gridPos_node _ _
  have hxy := mul_pos hx hy
  cases s <;> constructor <;> simp only [hp, gridOff, signedArea2] <;> push_cast <;> simp <;> first | ring1 | nlinarith

theorem grid_good (hk : 0 < k) (hx : 0 < wx) (hy : 0 < wy) (mat : MatObj) : GoodSection (gridSection k wx wy mat) :=
  init_good (grid_init hk mat) rfl (grid_good_mesh hx hy)

/-- In cells: below or above the diagonal of the cell in column `i` and row `j`. -/
def InCell (i j : ℝ) (s : Bool) (ξ η : ℝ) : Prop :=
  if s then i ≤ ξ ∧ ξ - i ≤ η - j ∧ η ≤ j + 1 else j ≤ η ∧ η - j ≤ ξ - i ∧ ξ ≤ i + 1

theorem grid_corner (mat : MatObj) (i j : Fin k) (s : Bool) (n : ℕ) (l : Fin 6) :
    ((gridEl k wx wy mat ((i, j, s), n)).coords.x l, (gridEl k wx wy mat ((i, j, s), n)).coords.y l) =
      ((2 * i.val + (reorder (gridOff s) l).1.val : ℕ) * (wx / 2), (2 * j.val + (reorder (gridOff s) l).2.val : ℕ) * (wy / 2)) := by
  fin_cases l <;> exact gridPos_node _ _

theorem grid_mem (hx : 0 < wx) (hy : 0 < wy) (mat : MatObj) (i j : Fin k) (s : Bool) (n : ℕ) {p : ℝ × ℝ} :
    p ∈ elemRegion (gridEl k wx wy mat ((i, j, s), n)).coords ↔ InCell i.val j.val s (p.1 / wx) (p.2 / wy) := by
  have eA := grid_corner (wx := wx) (wy := wy) mat i j s n 0
  have eB := grid_corner (wx := wx) (wy := wy) mat i j s n 1
  have eC := grid_corner (wx := wx) (wy := wy) mat i j s n 2
  rw [elemRegion, cornerA, cornerB, cornerC, eA, eB, eC, mem_tri]
  have q1 : p.1 = p.1 / wx * wx := (div_mul_cancel₀ _ hx.ne').symm
  have q2 : p.2 = p.2 / wy * wy := (div_mul_cancel₀ _ hy.ne').symm
  generalize p.1 / wx = ξ at q1
  generalize p.2 / wy = η at q2
  rw [q1, q2]
  clear eA eB eC q1 q2
  simp only [Nat.cast_add, Nat.cast_mul]
  generalize (i.val : ℝ) = a
  generalize (j.val : ℝ) = b
  have can : ∀ {w u v : ℝ}, 0 < w → w * (u - v) = 0 → u = v := fun hw h =>
    sub_eq_zero.1 ((mul_eq_zero.1 h).resolve_left hw.ne')
  cases s
  · simp [gridOff, reorder, InCell]
    constructor
    · rintro ⟨s, hs, t, ht, hst, g1, g2⟩
      have g1 : ξ = a + s + t := can hx (by linear_combination g1)
      have g2 : η = b + t := can hy (by linear_combination g2)
      exact ⟨by linarith, by linarith, by linarith⟩
    · rintro ⟨h1, h2, h3⟩
      exact ⟨ξ - a - (η - b), by linarith, η - b, by linarith, by linarith, by ring, by ring⟩
  · simp [gridOff, reorder, InCell]
    constructor
    · rintro ⟨s, hs, t, ht, hst, g1, g2⟩
      have g1 : ξ = a + s := can hx (by linear_combination g1)
      have g2 : η = b + s + t := can hy (by linear_combination g2)
      exact ⟨by linarith, by linarith, by linarith⟩
    · rintro ⟨h1, h2, h3⟩
      exact ⟨ξ - a, by linarith, η - b - (ξ - a), by linarith, by linarith, by ring, by ring⟩

theorem inCell_box {i j ξ η : ℝ} {s : Bool} (h : InCell i j s ξ η) : i ≤ ξ ∧ ξ ≤ i + 1 ∧ j ≤ η ∧ η ≤ j + 1 := by
  cases s <;> simp only [InCell, if_true, if_false, Bool.false_eq_true] at h <;> obtain ⟨h1, h2, h3⟩ := h <;>
    exact ⟨by linarith, by linarith, by linarith, by linarith⟩

/-- Off the lines of the grid a point lies in one triangle only. -/
theorem inCell_unique {i j i' j' : ℤ} {s s' : Bool} {ξ η : ℝ} (h : InCell i j s ξ η) (h' : InCell i' j' s' ξ η)
    (h1 : (⌊ξ⌋ : ℝ) ≠ ξ) (h2 : (⌊η⌋ : ℝ) ≠ η) (h3 : ξ - ⌊ξ⌋ ≠ η - ⌊η⌋) : i = i' ∧ j = j' ∧ s = s' := by
  have fl : ∀ {z : ℝ} {m : ℤ}, (⌊z⌋ : ℝ) ≠ z → (m : ℝ) ≤ z → z ≤ m + 1 → m = ⌊z⌋ := by
    intro z m hz a b
    refine (Int.floor_eq_iff.2 ⟨a, lt_of_le_of_ne b fun e => hz ?_⟩).symm
    have : z = ((m + 1 : ℤ) : ℝ) := by push_cast; exact e
    rw [this, Int.floor_intCast]
  obtain ⟨a1, a2, a3, a4⟩ := inCell_box h
  obtain ⟨b1, b2, b3, b4⟩ := inCell_box h'
  obtain rfl := fl h1 a1 a2
  obtain rfl := fl h2 a3 a4
  obtain rfl := fl h1 b1 b2
  obtain rfl := fl h2 b3 b4
  refine ⟨rfl, rfl, ?_⟩
  cases s <;> cases s' <;> simp only [InCell, if_true, if_false, Bool.false_eq_true] at h h' <;> try rfl
  · exact absurd (le_antisymm h'.2.1 h.2.1) h3
  · exact absurd (le_antisymm h.2.1 h'.2.1) h3

/-- A point on a line of the grid lies between two corners of it, and these and the middle are in all the triangles the point is in. -/
theorem inCell_ends {i j : ℤ} {s : Bool} {ξ η : ℝ} (h : InCell i j s ξ η)
    (h0 : (⌊ξ⌋ : ℝ) = ξ ∨ (⌊η⌋ : ℝ) = η ∨ ξ - ⌊ξ⌋ = η - ⌊η⌋) :
    InCell i j s ⌊ξ⌋ ⌊η⌋ ∧ InCell i j s ⌈ξ⌉ ⌈η⌉ := by
  have e1 : ∀ {m : ℤ} {z : ℝ}, (m : ℝ) ≤ z → (m : ℝ) ≤ ⌊z⌋ := fun h => Int.cast_le.2 (Int.le_floor.2 h)
  have e2 : ∀ {m : ℤ} {z : ℝ}, z ≤ m → (⌈z⌉ : ℝ) ≤ m := fun h => Int.cast_le.2 (Int.ceil_le.2 h)
  have f1 := Int.floor_le ξ
  have f2 := Int.floor_le η
  have c1 := Int.le_ceil ξ
  have c2 := Int.le_ceil η
  have key : ∀ (i j : ℤ) (ξ η : ℝ), ((⌊ξ⌋ : ℝ) = ξ ∨ (⌊η⌋ : ℝ) = η ∨ ξ - ⌊ξ⌋ = η - ⌊η⌋) → ξ - i ≤ η - j →
      (⌊ξ⌋ : ℝ) - i ≤ ⌊η⌋ - j ∧ (⌈ξ⌉ : ℝ) - i ≤ ⌈η⌉ - j := by
    intro i j ξ η h0 hl
    have f1 := Int.floor_le ξ
    have c2 := Int.le_ceil η
    rcases h0 with h0 | h0 | h0
    · have hc : (⌈ξ⌉ : ℝ) = ξ := by rw [← h0, Int.ceil_intCast]
      refine ⟨?_, by linarith⟩
      have : ((⌊ξ⌋ - i + j : ℤ) : ℝ) ≤ ⌊η⌋ := e1 (by push_cast; linarith)
      push_cast at this
      linarith
    · have hc : (⌈η⌉ : ℝ) = η := by rw [← h0, Int.ceil_intCast]
      refine ⟨by linarith, ?_⟩
      have : (⌈ξ⌉ : ℝ) ≤ ((⌈η⌉ - j + i : ℤ) : ℝ) := e2 (by push_cast; linarith)
      push_cast at this
      linarith
    · have hξ : ξ = η + ((⌊ξ⌋ - ⌊η⌋ : ℤ) : ℝ) := by push_cast; linarith
      have hc : ⌈ξ⌉ = ⌈η⌉ + (⌊ξ⌋ - ⌊η⌋) := by
        conv_lhs => rw [hξ]
        rw [Int.ceil_add_intCast]
      have hc : (⌈ξ⌉ : ℝ) = ⌈η⌉ + (⌊ξ⌋ - ⌊η⌋) := by exact_mod_cast hc
      exact ⟨by linarith, by linarith⟩
  cases s <;> simp only [InCell, if_true, if_false, Bool.false_eq_true] at h ⊢ <;> obtain ⟨h1, h2, h3⟩ := h
  · obtain ⟨k1, k2⟩ := key j i η ξ (by rcases h0 with h | h | h; exacts [Or.inr (Or.inl h), Or.inl h, Or.inr (Or.inr h.symm)]) h2
    exact ⟨⟨e1 h1, k1, by linarith⟩, by linarith, k2, by exact_mod_cast e2 (m := i + 1) (by push_cast; linarith)⟩
  · obtain ⟨k1, k2⟩ := key i j ξ η h0 h2
    exact ⟨⟨e1 h1, k1, by linarith⟩, by linarith, k2, by exact_mod_cast e2 (m := j + 1) (by push_cast; linarith)⟩

/-- A node within a triangle is a node of the triangle. -/
theorem grid_node_mem (mat : MatObj) (i j : Fin k) (s : Bool) (n : ℕ) (I J : Fin (2 * k + 1))
    (h : InCell i.val j.val s (I.val / 2) (J.val / 2)) : gridNode k I J ∈ range (gridEl k wx wy mat ((i, j, s), n)).nodeIds := by
  have go : ∀ l, (reorder (gridOff s) l).1.val + 2 * i.val = I.val → (reorder (gridOff s) l).2.val + 2 * j.val = J.val →
      gridNode k I J ∈ range (gridEl k wx wy mat ((i, j, s), n)).nodeIds := by
    intro l h1 h2
    refine ⟨l, ?_⟩
    have : (gridEl k wx wy mat ((i, j, s), n)).nodeIds l =
        gridNode k (gridAt i (reorder (gridOff s) l).1) (gridAt j (reorder (gridOff s) l).2) := by
      fin_cases l <;> rfl
    rw [this]
    congr 1 <;> apply Fin.ext <;> simp only [gridAt] <;> omega
  obtain ⟨b1, b2, b3, b4⟩ := inCell_box h
  have c1 : 2 * i.val ≤ I.val := by
    have : (2 * i.val : ℝ) ≤ I.val := by linarith
    exact_mod_cast this
  have c2 : I.val ≤ 2 * i.val + 2 := by
    have : (I.val : ℝ) ≤ 2 * i.val + 2 := by linarith
    exact_mod_cast this
  have c3 : 2 * j.val ≤ J.val := by
    have : (2 * j.val : ℝ) ≤ J.val := by linarith
    exact_mod_cast this
  have c4 : J.val ≤ 2 * j.val + 2 := by
    have : (J.val : ℝ) ≤ 2 * j.val + 2 := by linarith
    exact_mod_cast this
  obtain ⟨o, ho⟩ := Nat.exists_eq_add_of_le c1
  obtain ⟨q, hq⟩ := Nat.exists_eq_add_of_le c3
  have ho2 : o ≤ 2 := by omega
  have hq2 : q ≤ 2 := by omega
  cases s <;> simp only [InCell, if_true, if_false, Bool.false_eq_true] at h <;> obtain ⟨-, h, -⟩ := h
  · have hle : q ≤ o := by
      rw [ho, hq] at h
      push_cast at h
      have : (q : ℝ) ≤ o := by linarith
      exact_mod_cast this
    interval_cases o <;> interval_cases q
    · exact go 0 (by simp [reorder, gridOff]; omega) (by simp [reorder, gridOff]; omega)
    · exact go 3 (by simp [reorder, gridOff]; omega) (by simp [reorder, gridOff]; omega)
    · exact go 5 (by simp [reorder, gridOff]; omega) (by simp [reorder, gridOff]; omega)
    · exact go 1 (by simp [reorder, gridOff]; omega) (by simp [reorder, gridOff]; omega)
    · exact go 4 (by simp [reorder, gridOff]; omega) (by simp [reorder, gridOff]; omega)
    · exact go 2 (by simp [reorder, gridOff]; omega) (by simp [reorder, gridOff]; omega)
  · have hle : o ≤ q := by
      rw [ho, hq] at h
      push_cast at h
      have : (o : ℝ) ≤ q := by linarith
      exact_mod_cast this
    interval_cases o <;> interval_cases q
    · exact go 0 (by simp [reorder, gridOff]; omega) (by simp [reorder, gridOff]; omega)
    · exact go 5 (by simp [reorder, gridOff]; omega) (by simp [reorder, gridOff]; omega)
    · exact go 2 (by simp [reorder, gridOff]; omega) (by simp [reorder, gridOff]; omega)
    · exact go 3 (by simp [reorder, gridOff]; omega) (by simp [reorder, gridOff]; omega)
    · exact go 4 (by simp [reorder, gridOff]; omega) (by simp [reorder, gridOff]; omega)
    · exact go 1 (by simp [reorder, gridOff]; omega) (by simp [reorder, gridOff]; omega)

theorem gridEl_inj (mat : MatObj) {x y : (Fin k × Fin k × Bool) × ℕ} (hx : x ∈ (gridCells k).zipIdx) (hy : y ∈ (gridCells k).zipIdx)
    (h : gridEl k wx wy mat x ≠ gridEl k wx wy mat y) : x.1 ≠ y.1 := by
  intro e
  refine h (congrArg _ (Prod.ext e ?_))
  have h1 := List.mem_zipIdx' hx
  have h2 := List.mem_zipIdx' hy
  have hn : (gridCells k).Nodup := Finset.nodup_toList _
  exact (hn.getElem_inj_iff).1 (h1.2.symm.trans (e.trans h2.2))

/-- Two different triangles meet in lines of the grid. -/
theorem grid_meet {i j i' j' : Fin k} {s s' : Bool} (hne : (i, j, s) ≠ (i', j', s')) {ξ η : ℝ}
    (h : InCell i.val j.val s ξ η)
    (h' : InCell i'.val j'.val s' ξ η) : (⌊ξ⌋ : ℝ) = ξ ∨ (⌊η⌋ : ℝ) = η ∨ ξ - ⌊ξ⌋ = η - ⌊η⌋ := by
  by_contra hc
  push Not at hc
  have := inCell_unique (i := (i.val : ℤ)) (j := (j.val : ℤ)) (i' := (i'.val : ℤ)) (j' := (j'.val : ℤ)) (by exact_mod_cast h)
    (by exact_mod_cast h') hc.1 hc.2.1 hc.2.2
  obtain ⟨h1, h2, h3⟩ := this
  exact hne (by rw [Fin.ext (Int.ofNat.inj h1), Fin.ext (Int.ofNat.inj h2), h3])

theorem mem_grid {mat : MatObj} {t : Tri6 ((2 * k + 1) * (2 * k + 1))} (ht : t ∈ gridEls k wx wy mat) :
    ∃ i j s n, ((i, j, s), n) ∈ (gridCells k).zipIdx ∧ t = gridEl k wx wy mat ((i, j, s), n) := by
  obtain ⟨⟨⟨i, j, s⟩, n⟩, h, rfl⟩ := List.mem_map.1 ht
  exact ⟨i, j, s, n, h, rfl⟩

theorem grid_has (wx wy : ℝ) (mat : MatObj) (i j : Fin k) (s : Bool) :
    ∃ n, gridEl k wx wy mat ((i, j, s), n) ∈ gridEls k wx wy mat := by
  obtain ⟨n, hn⟩ := List.getElem?_of_mem (gridCells_mem (i, j, s))
  exact ⟨n, List.mem_map_of_mem (List.mem_zipIdx_iff_getElem?.2 hn)⟩

theorem grid_lines (hx : 0 < wx) (hy : 0 < wy) :
    volume {p : ℝ × ℝ | (⌊p.1 / wx⌋ : ℝ) = p.1 / wx ∨ (⌊p.2 / wy⌋ : ℝ) = p.2 / wy ∨
      p.1 / wx - ⌊p.1 / wx⌋ = p.2 / wy - ⌊p.2 / wy⌋} = 0 := by
  rw [measure_eq_zero_iff_ae_notMem]
  have h3 : ∀ m : ℤ, ∀ᵐ p : ℝ × ℝ, signedArea2 (m * wx, 0) ((m + 1) * wx, wy) p ≠ 0 := fun m => by
    have := signedArea_null (a := (m * wx, 0)) (b := ((m + 1) * wx, wy)) (fun h => hy.ne (congrArg Prod.snd h))
    rwa [← compl_mem_ae_iff] at this
  filter_upwards [ae_all_iff.2 fun m : ℤ => ae_side (m * wx), ae_all_iff.2 fun m : ℤ => ae_height (m * wy), ae_all_iff.2 h3]
    with p g1 g2 g3 h
  rcases h with h | h | h
  · exact g1 ⌊p.1 / wx⌋ (by rw [h, div_mul_cancel₀ _ hx.ne'])
  · exact g2 ⌊p.2 / wy⌋ (by rw [h, div_mul_cancel₀ _ hy.ne'])
  · refine g3 (⌊p.1 / wx⌋ - ⌊p.2 / wy⌋) ?_
    have e1 : p.1 = p.1 / wx * wx := (div_mul_cancel₀ _ hx.ne').symm
    have e2 : p.2 = p.2 / wy * wy := (div_mul_cancel₀ _ hy.ne').symm
    simp only [signedArea2]
    push_cast
    rw [e1, e2]
    generalize p.1 / wx = ξ at h
    generalize p.2 / wy = η at h
    simp only [mul_div_assoc, div_self hx.ne', div_self hy.ne', mul_one]
    linear_combination (-wx * wy) * h

theorem grid_noOverlap (hx : 0 < wx) (hy : 0 < wy) (mat : MatObj) : NoOverlap (gridEls k wx wy mat) := by
  rw [NoOverlap, gridEls, List.pairwise_map]
  have hn : ((gridCells k).zipIdx.map Prod.fst).Nodup := by
    rw [List.zipIdx_map_fst]
    exact Finset.nodup_toList _
  rw [List.Nodup, List.pairwise_map] at hn
  refine hn.imp fun {a b} hab => measure_mono_null (fun p hp => ?_) (grid_lines hx hy)
  obtain ⟨⟨i, j, s⟩, n⟩ := a
  obtain ⟨⟨i', j', s'⟩, n'⟩ := b
  exact grid_meet hab ((grid_mem hx hy mat i j s n).1 hp.1) ((grid_mem hx hy mat i' j' s' n').1 hp.2)

theorem grid_conforming (hx : 0 < wx) (hy : 0 < wy) (mat : MatObj) :
    ConformingMesh (gridPos k wx wy) (gridEls k wx wy mat) := by
  intro a ha b hb hab p hp
  obtain ⟨i, j, s, n, hn, rfl⟩ := mem_grid ha
  obtain ⟨i', j', s', n', hn', rfl⟩ := mem_grid hb
  have h1 := (grid_mem hx hy mat i j s n).1 hp.1
  have h2 := (grid_mem hx hy mat i' j' s' n').1 hp.2
  have h0 := grid_meet (gridEl_inj mat hn hn' hab) h1 h2
  have q1 : p.1 = p.1 / wx * wx := (div_mul_cancel₀ _ hx.ne').symm
  have q2 : p.2 = p.2 / wy * wy := (div_mul_cancel₀ _ hy.ne').symm
  generalize p.1 / wx = ξ at q1 h1 h2 h0
  generalize p.2 / wy = η at q2 h1 h2 h0
  obtain ⟨a1, a2⟩ := inCell_ends (i := (i.val : ℤ)) (j := (j.val : ℤ)) (by exact_mod_cast h1) h0
  obtain ⟨b1, b2⟩ := inCell_ends (i := (i'.val : ℤ)) (j := (j'.val : ℤ)) (by exact_mod_cast h2) h0
  have mid : ∀ {i j : ℝ} {s : Bool} {x y x' y' : ℝ}, InCell i j s x y → InCell i j s x' y' →
      InCell i j s ((x + x') / 2) ((y + y') / 2) := by
    intro i j s x y x' y' h h'
    cases s <;> simp only [InCell, if_true, if_false, Bool.false_eq_true] at h h' ⊢ <;>
      exact ⟨by linarith [h.1, h'.1], by linarith [h.2.1, h'.2.1], by linarith [h.2.2, h'.2.2]⟩
  obtain ⟨c1, c2, c3, c4⟩ := inCell_box a1
  obtain ⟨d1, d2, d3, d4⟩ := inCell_box a2
  have hi : (i.val : ℝ) + 1 ≤ k := by exact_mod_cast i.2
  have hj : (j.val : ℝ) + 1 ≤ k := by exact_mod_cast j.2
  push_cast at c1 c2 c3 c4 d1 d2 d3 d4
  have nat : ∀ z : ℤ, (i.val : ℝ) ≤ z ∨ (j.val : ℝ) ≤ z → (z : ℝ) ≤ k → ∃ m : ℕ, (z : ℝ) = m ∧ m ≤ k := by
    intro z hz hz'
    have hz0 : (0 : ℝ) ≤ z := by
      rcases hz with h | h
      · exact le_trans (Nat.cast_nonneg _) h
      · exact le_trans (Nat.cast_nonneg _) h
    have hz0 : 0 ≤ z := by exact_mod_cast hz0
    obtain ⟨m, rfl⟩ := Int.eq_ofNat_of_zero_le hz0
    refine ⟨m, by simp, ?_⟩
    exact_mod_cast hz'
  obtain ⟨P, hP, hPk⟩ := nat ⌊ξ⌋ (Or.inl c1) (by linarith)
  obtain ⟨Q, hQ, hQk⟩ := nat ⌊η⌋ (Or.inr c3) (by linarith)
  obtain ⟨P', hP', hPk'⟩ := nat ⌈ξ⌉ (Or.inl d1) (by linarith)
  obtain ⟨Q', hQ', hQk'⟩ := nat ⌈η⌉ (Or.inr d3) (by linarith)
  have f1 := Int.floor_le ξ
  have f2 := Int.floor_le η
  have g1 := Int.le_ceil ξ
  have g2 := Int.le_ceil η
  have am := mid a1 a2
  have bm := mid b1 b2
  rw [hP, hQ] at a1 b1 am bm
  rw [hP', hQ'] at a2 b2 am bm
  rw [hP] at f1
  rw [hQ] at f2
  rw [hP'] at g1
  rw [hQ'] at g2
  push_cast at a1 a2 b1 b2 am bm
  let I0 : Fin (2 * k + 1) := ⟨2 * P, by omega⟩
  let J0 : Fin (2 * k + 1) := ⟨2 * Q, by omega⟩
  let I1 : Fin (2 * k + 1) := ⟨2 * P', by omega⟩
  let J1 : Fin (2 * k + 1) := ⟨2 * Q', by omega⟩
  let I2 : Fin (2 * k + 1) := ⟨P + P', by omega⟩
  let J2 : Fin (2 * k + 1) := ⟨Q + Q', by omega⟩
  have v1 : ∀ m : ℕ, (((2 * m : ℕ) : ℝ) / 2) = m := fun m => by push_cast; ring
  refine ⟨gridNode k I0 J0, gridNode k I1 J1, gridNode k I2 J2, ?_, ?_, ?_⟩
  · intro z hz
    simp only [List.mem_cons, List.not_mem_nil, or_false] at hz
    rcases hz with rfl | rfl | rfl
    · exact ⟨grid_node_mem mat i j s n I0 J0 (by simpa [I0, J0, v1] using a1),
        grid_node_mem mat i' j' s' n' I0 J0 (by simpa [I0, J0, v1] using b1)⟩
    · exact ⟨grid_node_mem mat i j s n I1 J1 (by simpa [I1, J1, v1] using a2),
        grid_node_mem mat i' j' s' n' I1 J1 (by simpa [I1, J1, v1] using b2)⟩
    · exact ⟨grid_node_mem mat i j s n I2 J2 (by simpa [I2, J2] using am),
        grid_node_mem mat i' j' s' n' I2 J2 (by simpa [I2, J2] using bm)⟩
  · simp only [gridPos_node, I0, J0, I1, J1, I2, J2]
    push_cast
    refine Prod.ext ?_ ?_ <;> simp only <;> ring
  · have e0 : gridPos k wx wy (gridNode k I0 J0) = (P * wx, Q * wy) := by
      rw [gridPos_node]
      refine Prod.ext ?_ ?_ <;> simp only [I0, J0] <;> push_cast <;> ring
    have e1 : gridPos k wx wy (gridNode k I1 J1) = (P' * wx, Q' * wy) := by
      rw [gridPos_node]
      refine Prod.ext ?_ ?_ <;> simp only [I1, J1] <;> push_cast <;> ring
    have fr : ∀ z : ℝ, (z - ⌊z⌋) * (⌈z⌉ - ⌊z⌋) = z - ⌊z⌋ := by
      intro z
      rcases eq_or_ne (⌊z⌋ : ℝ) z with h | h
      · rw [h]; ring
      · have : ⌈z⌉ = ⌊z⌋ + 1 := Int.ceil_eq_iff.2 ⟨by push_cast; linarith [lt_of_le_of_ne (Int.floor_le z) h], by
          push_cast; exact (Int.lt_floor_add_one z).le⟩
        rw [this]
        push_cast
        ring
    have fc : ∀ z : ℝ, (⌊z⌋ : ℝ) = z → (⌈z⌉ : ℝ) = z := fun z h => by rw [← h, Int.ceil_intCast]
    have fx := fr ξ
    have fy := fr η
    have l1 := Int.lt_floor_add_one ξ
    have l2 := Int.lt_floor_add_one η
    have go : ∃ r : ℝ, 0 ≤ r ∧ r ≤ 1 ∧ ξ = (1 - r) * P + r * P' ∧ η = (1 - r) * Q + r * Q' := by
      rcases h0 with h | h | h
      · have hc := fc ξ h
        rw [hP] at h
        rw [hP'] at hc
        rw [hQ, hQ'] at fy
        rw [hQ] at l2
        exact ⟨η - Q, by linarith, by linarith, by rw [h, hc]; ring, by linear_combination -fy⟩
      · have hc := fc η h
        rw [hQ] at h
        rw [hQ'] at hc
        rw [hP, hP'] at fx
        rw [hP] at l1
        exact ⟨ξ - P, by linarith, by linarith, by linear_combination -fx, by rw [h, hc]; ring⟩
      · rw [hP, hP'] at fx
        rw [hQ, hQ'] at fy
        rw [hP, hQ] at h
        rw [hP] at l1
        exact ⟨ξ - P, by linarith, by linarith, by linear_combination -fx, by rw [h]; linear_combination -fy⟩
    obtain ⟨r, r0, r1, k1, k2⟩ := go
    rw [e0, e1]
    refine ⟨1 - r, r, by linarith, r0, by ring, Prod.ext ?_ ?_⟩
    · simp only [Prod.smul_mk, Prod.mk_add_mk, smul_eq_mul]
      rw [q1, k1]; ring
    · simp only [Prod.smul_mk, Prod.mk_add_mk, smul_eq_mul]
      rw [q2, k2]; ring

theorem grid_physical (hk : 0 < k) (hx : 0 < wx) (hy : 0 < wy) {mat : MatObj} (hE : 0 < mat.val.elasticModulus) :
    Physical (gridEls k wx wy mat) := by
  refine ⟨?_, (grid_good hk hx hy mat).proper, ?_⟩
  · obtain ⟨n, hn⟩ := grid_has wx wy mat ⟨0, hk⟩ ⟨0, hk⟩ false
    exact List.ne_nil_of_mem hn
  · intro t ht
    obtain ⟨i, j, s, n, -, rfl⟩ := mem_grid ht
    exact hE

theorem grid_covers (hx : 0 < wx) (hy : 0 < wy) (mat : MatObj) :
    region (gridEls k wx wy mat) =ᵐ[volume] Ioo (0 : ℝ) (0 + k * wx) ×ˢ Ioo (0 : ℝ) (0 + k * wy) := by
  filter_upwards [rect_ae_inside ⟨0, k * wx, 0, k * wy⟩] with p hp
  refine propext ⟨?_, ?_⟩
  · rintro ⟨t, ht, h⟩
    obtain ⟨i, j, s, n, -, rfl⟩ := mem_grid ht
    obtain ⟨h1, h2, h3, h4⟩ := inCell_box ((grid_mem hx hy mat i j s n).1 h)
    rw [le_div_iff₀ hx] at h1
    rw [div_le_iff₀ hx] at h2
    rw [le_div_iff₀ hy] at h3
    rw [div_le_iff₀ hy] at h4
    have hi : (i.val : ℝ) + 1 ≤ k := by exact_mod_cast i.2
    have hj : (j.val : ℝ) + 1 ≤ k := by exact_mod_cast j.2
    rw [zero_add, zero_add]
    exact hp ⟨le_trans (by positivity) h1, h2.trans (by gcongr), le_trans (by positivity) h3, h4.trans (by gcongr)⟩
  · rintro ⟨⟨h1, h2⟩, h3, h4⟩
    rw [zero_add] at h2 h4
    have cell : ∀ {z w : ℝ}, 0 < w → 0 < z → z < k * w → ∃ i : Fin k, (i.val : ℝ) ≤ z / w ∧ z / w ≤ i.val + 1 := by
      intro z w hw hz hz'
      have h0 : 0 ≤ z / w := (div_pos hz hw).le
      have : ⌊z / w⌋₊ < k := (Nat.floor_lt h0).2 ((div_lt_iff₀ hw).2 hz')
      exact ⟨⟨_, this⟩, Nat.floor_le h0, (Nat.lt_floor_add_one _).le⟩
    obtain ⟨i, a1, a2⟩ := cell hx h1 h2
    obtain ⟨j, b1, b2⟩ := cell hy h3 h4
    rcases le_total (p.2 / wy - j.val) (p.1 / wx - i.val) with h | h
    · obtain ⟨n, hn⟩ := grid_has wx wy mat i j false
      exact ⟨_, hn, (grid_mem hx hy mat i j false n).2 ⟨b1, h, a2⟩⟩
    · obtain ⟨n, hn⟩ := grid_has wx wy mat i j true
      exact ⟨_, hn, (grid_mem hx hy mat i j true n).2 ⟨a1, h, b2⟩⟩

theorem grid_fine (hx : 0 < wx) (hy : 0 < wy) (mat : MatObj) :
    FineMesh (gridEls k wx wy mat) (√(wx ^ 2 + wy ^ 2)) ((wx ^ 2 + wy ^ 2) / (wx * wy)) := by
  intro t ht
  obtain ⟨i, j, s, n, -, rfl⟩ := mem_grid ht
  have eA := grid_corner (wx := wx) (wy := wy) mat i j s n 0
  have eB := grid_corner (wx := wx) (wy := wy) mat i j s n 1
  have eC := grid_corner (wx := wx) (wy := wy) mat i j s n 2
  refine ⟨_, le_rfl, ?_, ?_⟩
  · rw [Real.sq_sqrt (by positivity)]
    have : elemDet (gridEl k wx wy mat ((i, j, s), n)).coords = wx * wy := by
      rw [elemDet, cornerA, cornerB, cornerC, eA, eB, eC]
      cases s <;> simp [signedArea2, gridOff, reorder] <;> ring
    rw [this, div_mul_cancel₀ _ (mul_pos hx hy).ne']
  · intro p hp z hz
    obtain ⟨a1, a2, a3, a4⟩ := inCell_box ((grid_mem hx hy mat i j s n).1 hp)
    obtain ⟨b1, b2, b3, b4⟩ := inCell_box ((grid_mem hx hy mat i j s n).1 hz)
    have q1 : |z.1 / wx - p.1 / wx| ≤ 1 := abs_le.2 ⟨by linarith, by linarith⟩
    have q2 : |z.2 / wy - p.2 / wy| ≤ 1 := abs_le.2 ⟨by linarith, by linarith⟩
    rw [← sub_div, abs_div, abs_of_pos hx, div_le_one hx] at q1
    rw [← sub_div, abs_div, abs_of_pos hy, div_le_one hy] at q2
    refine Real.sqrt_le_sqrt (add_le_add ?_ ?_)
    · rw [← sq_abs]; gcongr
    · rw [← sq_abs]; gcongr

/-- Any two nodes are linked. -/
theorem grid_linked (hk : 0 < k) (mat : MatObj) (cx cy : ℝ) :
    ConnectedMesh ((gridEls k wx wy mat).map fun t => t.shiftBy cx cy) := by
  set R := Relation.ReflTransGen (NodeLinked ((gridEls k wx wy mat).map fun t => t.shiftBy cx cy)) with hR
  have one : ∀ (i j : Fin k) (s : Bool) (I J I' J' : Fin (2 * k + 1)), InCell i.val j.val s (I.val / 2) (J.val / 2) →
      InCell i.val j.val s (I'.val / 2) (J'.val / 2) → R (gridNode k I J) (gridNode k I' J') := by
    intro i j s I J I' J' h h'
    obtain ⟨n, hn⟩ := grid_has wx wy mat i j s
    obtain ⟨l, hl⟩ := grid_node_mem (wx := wx) (wy := wy) mat i j s n I J h
    obtain ⟨l', hl'⟩ := grid_node_mem (wx := wx) (wy := wy) mat i j s n I' J' h'
    exact .single ⟨_, List.mem_map_of_mem hn, l, l', hl, hl'⟩
  let O : Fin (2 * k + 1) := ⟨0, by omega⟩
  let D : ∀ m : ℕ, m < k → Fin (2 * k + 1) := fun m h => ⟨2 * m, by omega⟩
  have corner : ∀ (i : ℕ) (hi : i < k) (j : ℕ) (hj : j < k), R (gridNode k (D i hi) (D j hj)) (gridNode k O O) := by
    intro i
    induction i with
    | zero =>
      intro hi j
      induction j with
      | zero => intro hj; exact .refl
      | succ j ih =>
        intro hj
        refine .trans (one ⟨0, hi⟩ ⟨j, by omega⟩ true _ _ (D 0 hi) (D j (by omega)) ?_ ?_) (ih (by omega)) <;>
          simp [InCell, D]
    | succ i ih =>
      intro hi j hj
      refine .trans (one ⟨i, by omega⟩ ⟨j, hj⟩ false _ _ (D i (by omega)) (D j hj) ?_ ?_) (ih (by omega) j hj) <;>
        simp [InCell, D]
  have all : ∀ v, R v (gridNode k O O) := by
    intro v
    obtain ⟨⟨I, J⟩, rfl⟩ := finProdFinEquiv.surjective v
    change R (gridNode k I J) _
    have cell : ∀ I : Fin (2 * k + 1), ∃ (i : Fin k), 2 * i.val ≤ I.val ∧ I.val ≤ 2 * i.val + 2 := by
      intro I
      by_cases h : I.val / 2 < k
      · exact ⟨⟨I.val / 2, h⟩, by simp only; omega, by simp only; omega⟩
      · exact ⟨⟨k - 1, by omega⟩, by simp only; omega, by simp only; omega⟩
    obtain ⟨i, a1, a2⟩ := cell I
    obtain ⟨j, b1, b2⟩ := cell J
    have a1 : (2 * i.val : ℝ) ≤ I.val := by exact_mod_cast a1
    have a2 : (I.val : ℝ) ≤ 2 * i.val + 2 := by exact_mod_cast a2
    have b1 : (2 * j.val : ℝ) ≤ J.val := by exact_mod_cast b1
    have b2 : (J.val : ℝ) ≤ 2 * j.val + 2 := by exact_mod_cast b2
    refine .trans ?_ (corner i.val i.2 j.val j.2)
    rcases le_total ((J.val : ℝ) / 2 - j.val) ((I.val : ℝ) / 2 - i.val) with h | h
    · exact one i j false _ _ _ _ ⟨by linarith, h, by linarith⟩ (by simp [InCell, D])
    · exact one i j true _ _ _ _ ⟨by linarith, h, by linarith⟩ (by simp [InCell, D])
  exact fun a b => (all a).trans (linked_symm _ (all b))

end SP
