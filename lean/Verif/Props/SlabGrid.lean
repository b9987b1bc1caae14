import Verif.Props.LayerShear

/-!
# C104 on the meshes of a slab of two layers

The grid of `GridMesh` with `2 k` by `2 k` cells, the lower half of one material and the upper half of another, through the constructor of
`Section` and the analyses.
-/

namespace SP

open Spec MeasureTheory Set

variable {k : ℕ} {wx wy : ℝ} {m0 m1 : MatObj}

/-- The material of a cell. -/
def slabMat (k : ℕ) (m0 m1 : MatObj) (x : Fin (2 * k) × Fin (2 * k) × Bool) : MatObj := if x.2.1.val < k then m0 else m1

/-- What the mesher returns: the attributes are the numbers of the regions. -/
noncomputable def slabMesh (k : ℕ) (wx wy : ℝ) : MeshData where
  numNodes := (2 * (2 * k) + 1) * (2 * (2 * k) + 1)
  vertices := gridPos (2 * k) wx wy
  triangles := (gridCells (2 * k)).map (gridTri (2 * k))
  attributes := (gridCells (2 * k)).map fun x => if x.2.1.val < k then 0 else 1

noncomputable def slabGeom (k : ℕ) (wx wy : ℝ) (m0 m1 : MatObj) : GeomIn := ⟨[m0, m1], some (slabMesh k wx wy)⟩

noncomputable def slabEl (k : ℕ) (wx wy : ℝ) (m0 m1 : MatObj) (x : (Fin (2 * k) × Fin (2 * k) × Bool) × ℕ) :
    Tri6 ((2 * (2 * k) + 1) * (2 * (2 * k) + 1)) :=
  ⟨x.2, gather (gridPos (2 * k) wx wy) (reorder (gridTri (2 * k) x.1)), reorder (gridTri (2 * k) x.1), (slabMat k m0 m1 x.1).val⟩

noncomputable def slabEls (k : ℕ) (wx wy : ℝ) (m0 m1 : MatObj) : List (Tri6 ((2 * (2 * k) + 1) * (2 * (2 * k) + 1))) :=
  (gridCells (2 * k)).zipIdx.map (slabEl k wx wy m0 m1)

noncomputable def slabSection (k : ℕ) (wx wy : ℝ) (m0 m1 : MatObj) : Section where
  numNodes := (2 * (2 * k) + 1) * (2 * (2 * k) + 1)
  meshNodes := gridPos (2 * k) wx wy
  materials := [m0, m1]
  elements := slabEls k wx wy m0 m1
  groups := ((gridCells (2 * k)).zipIdx.map fun x => (slabEl k wx wy m0 m1 x, slabMat k m0 m1 x.1)).foldl
    (fun gs p => addToGroup p.1 p.2 gs) ((groupMaterials [m0, m1]).map fun mat => ⟨mat, []⟩)

/-- The constructor makes the section from the mesh. -/
theorem slab_init (hk : 0 < k) : Section.init (slabGeom k wx wy m0 m1) = .ok (slabSection k wx wy m0 m1) := by
  have hmx : (slabMesh k wx wy).attributes.max? = some 1 := by
    rw [List.max?_eq_some_iff]
    refine ⟨List.mem_map.2 ⟨(⟨0, by omega⟩, ⟨k, by omega⟩, false), gridCells_mem _, by simp⟩, fun a ha => ?_⟩
    obtain ⟨x, -, rfl⟩ := List.mem_map.1 ha
    split <;> omega
  have hM : (slabMesh k wx wy).triangles.zipIdx.mapM
      (fun p => mkElement (slabGeom k wx wy m0 m1).materials (slabMesh k wx wy) p.1 p.2)
      = .ok ((gridCells (2 * k)).zipIdx.map fun x => (slabEl k wx wy m0 m1 x, slabMat k m0 m1 x.1)) := by
    rw [mapM_ok_forall₂]
    have e1 : (slabMesh k wx wy).triangles.zipIdx = (gridCells (2 * k)).zipIdx.map (Prod.map (gridTri (2 * k)) id) := List.zipIdx_map ..
    rw [e1]
    refine List.forall₂_map_left_iff.2 (List.forall₂_map_right_iff.2 (List.forall₂_same.2 ?_))
    rintro ⟨x, i⟩ hx
    have hi : (slabMesh k wx wy).attributes[i]? = some (if x.2.1.val < k then 0 else 1) := by
      have := List.mem_zipIdx_iff_getElem?.1 hx
      change ((gridCells (2 * k)).map fun x => if x.2.1.val < k then 0 else 1)[i]? = _
      simp only at this
      rw [List.getElem?_map, this]
      rfl
    simp only [mkElement, Prod.map, id, hi]
    by_cases hj : x.2.1.val < k
    · simp only [hj, if_true, slabGeom, slabEl, slabMat]
      rfl
    · simp only [hj, if_false, slabGeom, slabEl, slabMat]
      rfl
  have hl : (slabGeom k wx wy m0 m1).materials.length = 1 + 1 := rfl
  unfold Section.init
  simp only [show (slabGeom k wx wy m0 m1).mesh = some (slabMesh k wx wy) from rfl, hmx, hl, ne_eq, not_true_eq_false, if_false, hM]
  have h3 : ((gridCells (2 * k)).zipIdx.map fun x => (slabEl k wx wy m0 m1 x, slabMat k m0 m1 x.1)).map Prod.fst =
      (gridCells (2 * k)).zipIdx.map (slabEl k wx wy m0 m1) := List.map_map ..
  exact congrArg Except.ok (by
    unfold slabSection
    congr 1)

theorem mem_slab {t : Tri6 ((2 * (2 * k) + 1) * (2 * (2 * k) + 1))} (ht : t ∈ slabEls k wx wy m0 m1) :
    ∃ x ∈ (gridCells (2 * k)).zipIdx, t = slabEl k wx wy m0 m1 x := by
  obtain ⟨x, h, rfl⟩ := List.mem_map.1 ht
  exact ⟨x, h, rfl⟩

theorem slab_of_grid {x : (Fin (2 * k) × Fin (2 * k) × Bool) × ℕ} (hx : x ∈ (gridCells (2 * k)).zipIdx) :
    gridEl (2 * k) wx wy m0 x ∈ gridEls (2 * k) wx wy m0 := List.mem_map_of_mem hx

theorem slab_noOverlap (hx : 0 < wx) (hy : 0 < wy) : NoOverlap (slabEls k wx wy m0 m1) := by
  have := grid_noOverlap (k := 2 * k) hx hy m0
  rw [NoOverlap, gridEls, List.pairwise_map] at this
  rw [NoOverlap, slabEls, List.pairwise_map]
  exact this

theorem slab_conforming (hx : 0 < wx) (hy : 0 < wy) : ConformingMesh (gridPos (2 * k) wx wy) (slabEls k wx wy m0 m1) := by
  intro a ha b hb hab
  obtain ⟨x, h1, rfl⟩ := mem_slab ha
  obtain ⟨y, h2, rfl⟩ := mem_slab hb
  refine grid_conforming (k := 2 * k) hx hy m0 (gridEl (2 * k) wx wy m0 x) (slab_of_grid h1) (gridEl (2 * k) wx wy m0 y) (slab_of_grid h2)
    fun h => hab ?_
  have h3 : x.2 = y.2 := congrArg Tri6.elId h
  have h4 := List.mem_zipIdx_iff_getElem?.1 h1
  have h5 := List.mem_zipIdx_iff_getElem?.1 h2
  rw [h3, h5] at h4
  rw [show x = y from Prod.ext (Option.some.inj h4).symm h3]

theorem slab_region : region (slabEls k wx wy m0 m1) = region (gridEls (2 * k) wx wy m0) := by
  ext p
  constructor
  · rintro ⟨t, ht, hp⟩
    obtain ⟨x, h, rfl⟩ := mem_slab ht
    exact ⟨_, slab_of_grid h, hp⟩
  · rintro ⟨t, ht, hp⟩
    obtain ⟨x, h, rfl⟩ := List.mem_map.1 ht
    exact ⟨slabEl k wx wy m0 m1 x, List.mem_map_of_mem h, hp⟩

theorem slab_linked (hk : 0 < k) (cx cy : ℝ) : ConnectedMesh ((slabEls k wx wy m0 m1).map fun t => t.shiftBy cx cy) := by
  intro i j
  refine Relation.ReflTransGen.mono ?_ i j (grid_linked (k := 2 * k) (wx := wx) (wy := wy) (by omega) m0 cx cy i j)
  rintro i j ⟨t, ht, l, l', h1, h2⟩
  obtain ⟨t', ht', rfl⟩ := List.mem_map.1 ht
  obtain ⟨x, h, rfl⟩ := List.mem_map.1 ht'
  exact ⟨_, List.mem_map_of_mem (List.mem_map_of_mem h), l, l', h1, h2⟩

/-- The material at a point of a slab of the height `d`. -/
noncomputable def slabMaterial (d : ℝ) (m0 m1 : Material) (p : ℝ × ℝ) : Material := if p.2 < d / 2 then m0 else m1

/-- The modulus at a height. -/
noncomputable def slabModulus (d : ℝ) (m0 m1 : Material) (y : ℝ) : ℝ := if y < d / 2 then m0.elasticModulus else m1.elasticModulus

theorem slab_tame {d : ℝ} {a c : Material} (ha : 0 < a.elasticModulus) (hc : 0 < c.elasticModulus) :
    Tame (slabModulus d a c) (min a.elasticModulus c.elasticModulus) (max a.elasticModulus c.elasticModulus) := by
  refine ⟨lt_min ha hc, fun y => ?_, fun y => ?_, ?_, {d / 2}, countable_singleton _, fun y hy => ?_⟩
  · unfold slabModulus; split <;> simp
  · unfold slabModulus; split <;> simp
  · exact Measurable.ite measurableSet_Iio measurable_const measurable_const
  · rcases lt_or_gt_of_ne hy with h | h
    · refine (continuousAt_const (y := a.elasticModulus)).congr ?_
      filter_upwards [Iio_mem_nhds h] with z hz
      simp [slabModulus, mem_Iio.1 hz]
    · refine (continuousAt_const (y := c.elasticModulus)).congr ?_
      filter_upwards [Ioi_mem_nhds h] with z hz
      simp [slabModulus, not_lt.2 (mem_Ioi.1 hz).le]

theorem slab_solved {b d : ℝ} (hb : 0 < b) (hd : 0 < d) (h0 : 0 < m0.val.elasticModulus) (h1 : 0 < m1.val.elasticModulus) (hk : 0 < k) :
    ∃ (s : Section) (r : GeomResults) (w : WarpResults s.numNodes),
    Section.init (slabGeom k (b / (2 * k : ℕ)) (d / (2 * k : ℕ)) m0 m1) = .ok s ∧ s.materials = [m0, m1] ∧
    s.geometricAnalysis = .ok r ∧ s.warping exactSolvers .direct r = .ok w ∧
    SolvedMesh (Ioo (0 : ℝ) (0 + b) ×ˢ Ioo (0 : ℝ) (0 + d)) (slabMaterial d m0.val m1.val) s r w ∧
    (∀ t ∈ s.elements, t.material = m0.val ∨ t.material = m1.val) ∧
    FineMesh s.elements (√(b ^ 2 + d ^ 2) / (2 * k : ℕ)) ((b ^ 2 + d ^ 2) / (b * d)) := by
  have hkr : (0 : ℝ) < (2 * k : ℕ) := by exact_mod_cast (by omega : 0 < 2 * k)
  set wx := b / (2 * k : ℕ) with hwx
  set wy := d / (2 * k : ℕ) with hwy
  have hx : 0 < wx := by positivity
  have hy : 0 < wy := by positivity
  have htwo : ∀ t ∈ slabEls k wx wy m0 m1, t.material = m0.val ∨ t.material = m1.val := fun t ht => by
    obtain ⟨x, -, rfl⟩ := mem_slab ht
    simp only [slabEl, slabMat]
    split
    · exact Or.inl rfl
    · exact Or.inr rfl
  have hg0 := grid_good (k := 2 * k) (by omega) hx hy m0
  have hprop : ∀ t ∈ slabEls k wx wy m0 m1, Proper t.coords := fun t ht => by
    obtain ⟨x, h, rfl⟩ := mem_slab ht
    exact hg0.proper (gridEl (2 * k) wx wy m0 x) (slab_of_grid h)
  have hP : Physical (slabSection k wx wy m0 m1).elements := by
    refine ⟨?_, hprop, fun t ht => ?_⟩
    · obtain ⟨n, hn⟩ := List.getElem?_of_mem (gridCells_mem (k := 2 * k) (⟨0, by omega⟩, ⟨0, by omega⟩, false))
      have hn' : (((⟨0, by omega⟩, ⟨0, by omega⟩, false), n) : (Fin (2 * k) × Fin (2 * k) × Bool) × ℕ) ∈ (gridCells (2 * k)).zipIdx :=
        List.mem_zipIdx_iff_getElem?.2 hn
      exact List.ne_nil_of_mem (List.mem_map_of_mem hn')
    · rcases htwo t ht with h | h <;> rw [h] <;> assumption
  have hg : GoodSection (slabSection k wx wy m0 m1) := ⟨hprop, fun t ht => by
    obtain ⟨x, h, rfl⟩ := mem_slab ht
    rfl⟩
  obtain ⟨r, hr⟩ := geometricAnalysis_ok (slabSection k wx wy m0 m1) (by simp [slabSection])
  obtain ⟨w, hw, k0, k1, k2⟩ := exact_warping _ r hg hP hr (slab_linked hk r.cx r.cy)
  have hcov : region (slabSection k wx wy m0 m1).elements =ᵐ[volume] Ioo (0 : ℝ) (0 + b) ×ˢ Ioo (0 : ℝ) (0 + d) := by
    have := grid_covers (k := 2 * k) hx hy m0
    rw [mul_div_cancel₀ _ hkr.ne', mul_div_cancel₀ _ hkr.ne', ← slab_region (m1 := m1)] at this
    exact this
  have hhalf : d / 2 = k * wy := by
    rw [hwy]
    push_cast
    have : (k : ℝ) ≠ 0 := by exact_mod_cast hk.ne'
    field_simp
  refine ⟨slabSection k wx wy m0 m1, r, w, slab_init hk, rfl, hr, hw, ⟨hg, hP, slab_conforming hx hy,
    ⟨slab_noOverlap hx hy, hcov, fun t ht => ?_⟩, hr, ⟨_, _, hw⟩, k0, k1, k2⟩, htwo, ?_⟩
  · obtain ⟨⟨⟨i, j, u⟩, n⟩, h, rfl⟩ := mem_slab ht
    filter_upwards [ae_height (d / 2)] with p hne hp
    have hbox := inCell_box ((grid_mem hx hy m0 i j u n).1 hp)
    obtain ⟨-, -, q3, q4⟩ := hbox
    rw [le_div_iff₀ hy] at q3
    rw [div_le_iff₀ hy] at q4
    by_cases hj : j.val < k
    · have hj' : ((j.val : ℝ) + 1) ≤ k := by exact_mod_cast hj
      have : p.2 < d / 2 := lt_of_le_of_ne (by rw [hhalf]; nlinarith) hne
      simp [slabMaterial, this, slabEl, slabMat, hj]
    · have hj' : (k : ℝ) ≤ j.val := by exact_mod_cast not_lt.1 hj
      have : ¬ p.2 < d / 2 := not_lt.2 (by rw [hhalf]; nlinarith)
      simp [slabMaterial, this, slabEl, slabMat, hj]
  · have := grid_fine (k := 2 * k) hx hy m0
    have e1 : wx ^ 2 + wy ^ 2 = (b ^ 2 + d ^ 2) / (2 * k : ℕ) ^ 2 := by rw [hwx, hwy]; field_simp
    have e2 : (b ^ 2 + d ^ 2) / (2 * k : ℕ) ^ 2 / (wx * wy) = (b ^ 2 + d ^ 2) / (b * d) := by rw [hwx, hwy]; field_simp
    rw [e1, e2, Real.sqrt_div (by positivity), Real.sqrt_sq hkr.le] at this
    intro t ht
    obtain ⟨x, h, rfl⟩ := mem_slab ht
    exact this (gridEl (2 * k) wx wy m0 x) (slab_of_grid h)

/-- **C104** through the whole of the analysis: a slab of two layers of equal height, of any two materials without Poisson's ratio.  For all
`k` from some `K` on the stresses reported on the grid of `2 k` by `2 k` cells are near those of beam theory. -/
theorem C104_slab {b d : ℝ} (hb : 0 < b) (hd : 0 < d) (h0 : 0 < m0.val.elasticModulus) (h1 : 0 < m1.val.elasticModulus)
    (n0 : m0.val.poissonsRatio = 0) (n1 : m1.val.poissonsRatio = 0) {a : Actions} (ha : a.mzz = 0) {ε : ℝ} (hε : 0 < ε) :
    ∃ K : ℕ, ∀ k ≥ K, ∃ (s : Section) (r : GeomResults) (w : WarpResults s.numNodes) (T : ℝ × ℝ → ℝ × ℝ),
        Section.init (slabGeom k (b / (2 * k : ℕ)) (d / (2 * k : ℕ)) m0 m1) = .ok s ∧
        s.geometricAnalysis = .ok r ∧ s.warping exactSolvers .direct r = .ok w ∧
        (∀ t ∈ s.elements, ∀ᵐ p, p ∈ elemRegion t.coords → T p = reportedShear s r w a t p) ∧
        sizeSq (Ioo (0 : ℝ) (0 + b) ×ˢ Ioo (0 : ℝ) (0 + d)) (fun p => T p -
          (a.vx * alongShear (slabModulus d m0.val m1.val) 0 (0 + d) b (0 + b / 2) p,
            a.vy * acrossShear (slabModulus d m0.val m1.val) 0 (0 + d) b p.2))
          ≤ ε + 1e-19 * sizeSq (Ioo (0 : ℝ) (0 + b) ×ˢ Ioo (0 : ℝ) (0 + d)) fun p =>
            (a.vx * alongShear (slabModulus d m0.val m1.val) 0 (0 + d) b (0 + b / 2) p,
              a.vy * acrossShear (slabModulus d m0.val m1.val) 0 (0 + d) b p.2) := by
  have hmat : ∀ p ∈ Ioo (0 : ℝ) (0 + b) ×ˢ Ioo (0 : ℝ) (0 + d), (slabMaterial d m0.val m1.val p).elasticModulus
      = slabModulus d m0.val m1.val p.2 := fun p _ => by
    unfold slabMaterial slabModulus
    split <;> rfl
  obtain ⟨δ, hδ, key⟩ := C104_layered 0 0 hb hd (slab_tame h0 h1) hmat ha ((b ^ 2 + d ^ 2) / (b * d)) hε
  obtain ⟨K, hK0, hK⟩ := grid_small (b := b) (d := d) hδ
  refine ⟨K, fun k hk => ?_⟩
  obtain ⟨s, r, w, p1, -, p2, p3, p4, p5, p6⟩ := slab_solved (m0 := m0) (m1 := m1) hb hd h0 h1 (lt_of_lt_of_le hK0 hk)
  have hnu : r.nuEff = 0 := nuEff_zero p2 p4.physical fun t ht => by rcases p5 t ht with h | h <;> rw [h] <;> assumption
  obtain ⟨T, -, hT, hsz⟩ := key s r w p4 (fun _ => hnu) (fineMesh_mono p6 (hK (2 * k) (by omega)))
  exact ⟨s, r, w, T, p1, p2, p3, hT, hsz⟩

/-- Concrete on timber, with a shear force of 10 across the layers.  The section is composite. -/
example := C104_slab (m0 := ⟨1, ⟨"timber", 10000, 0, 20, 1, "brown"⟩⟩) (m1 := ⟨2, ⟨"concrete", 30000, 0, 30, 2, "grey"⟩⟩) (b := 200) (d := 100)
  (by norm_num) (by norm_num) (by norm_num) (by norm_num) rfl rfl (a := ⟨0, 0, 0, 0, 0, 0, 0, 10⟩) rfl (ε := 1 / 1000) (by norm_num)

end SP
