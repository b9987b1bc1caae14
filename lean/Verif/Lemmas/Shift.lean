import Verif.Lemmas.Assemble
import Verif.Lemmas.Sums
import Verif.Lemmas.Inertia
import Verif.Lemmas.Init

/-!
# Elements shifted to the centroid
-/

namespace SP

open Spec MeasureTheory

variable {n : ℕ} {t : Tri6 n} {els : List (Tri6 n)}

/-- All elements with coordinates relative to `(cx, cy)`. -/
def shifted (els : List (Tri6 n)) (cx cy : ℝ) : List (Tri6 n) := els.map fun t => t.shiftBy cx cy

theorem elemDet_shift (c : Coords) (cx cy : ℝ) : elemDet (c.shift cx cy) = elemDet c := by
  simp [elemDet, signedArea2, cornerA, cornerB, cornerC, Coords.shift]

theorem straight_shift {c : Coords} (h : Straight c) (cx cy : ℝ) : Straight (c.shift cx cy) := by
  obtain ⟨h1, h2, h3, h4, h5, h6⟩ := h
  refine ⟨?_, ?_, ?_, ?_, ?_, ?_⟩ <;> simp only [Coords.shift, h1, h2, h3, h4, h5, h6] <;> ring

theorem proper_shift {c : Coords} (h : Proper c) (cx cy : ℝ) : Proper (c.shift cx cy) :=
  ⟨straight_shift h.1 cx cy, by rw [elemDet_shift]; exact h.2⟩

theorem shifted_proper (h : ∀ t ∈ els, Proper t.coords) (cx cy : ℝ) :
    ∀ t ∈ shifted els cx cy, Proper t.coords := by
  intro t ht
  obtain ⟨u, hu, rfl⟩ := List.mem_map.1 ht
  exact proper_shift (h u hu) cx cy

theorem shifted_modulus (h : ∀ t ∈ els, 0 < t.material.elasticModulus) (cx cy : ℝ) :
    ∀ t ∈ shifted els cx cy, 0 < t.material.elasticModulus := by
  intro t ht
  obtain ⟨u, hu, rfl⟩ := List.mem_map.1 ht
  exact h u hu

theorem shifted_distinct (h : DistinctNodes els) (cx cy : ℝ) : DistinctNodes (shifted els cx cy) := by
  intro t ht
  obtain ⟨u, hu, rfl⟩ := List.mem_map.1 ht
  exact h u hu

theorem shifted_physical (h : Physical els) (cx cy : ℝ) : Physical (shifted els cx cy) :=
  ⟨by simpa [shifted] using h.nonempty, shifted_proper h.proper cx cy, shifted_modulus h.modulus cx cy⟩

theorem localNode_injective : Function.Injective localNode := by
  intro a b h
  fin_cases a <;> fin_cases b <;> first | rfl | (exfalso; simp [localNode, Prod.ext_iff] at h; done) |
    (exfalso; simp [localNode, Prod.ext_iff] at h; norm_num at h)

/-- The nodes of a proper element with coordinates taken from the mesh are different. -/
theorem good_distinct {s : Section} (hg : GoodSection s) : DistinctNodes s.elements := by
  intro t ht a b hab
  obtain ⟨l0, l1, l2, -, -, -, e⟩ := exists_bary (hg.proper t ht)
  have hx : t.coords.x a = t.coords.x b := by
    rw [hg.coords t ht]; simp [gather, hab]
  have hy : t.coords.y a = t.coords.y b := by
    rw [hg.coords t ht]; simp [gather, hab]
  obtain ⟨a0, a1, a2⟩ := e a
  obtain ⟨b0, b1, b2⟩ := e b
  rw [hx, hy] at a0 a1 a2
  exact localNode_injective (Prod.ext (a0.symm.trans b0)
    (Prod.ext (a1.symm.trans b1) (a2.symm.trans b2)))

theorem wInt_one (hp : ∀ t ∈ els, Proper t.coords) : wInt els (fun _ _ => 1) = (geomSums els).ea := by
  obtain ⟨-, -, h, -⟩ := sums_fields hp
  rw [h, wInt]
  exact congrArg List.sum (List.map_congr_left fun t _ => by ring)

theorem wInt_moments (hp : ∀ t ∈ els, Proper t.coords) :
    wInt els (fun _ p => p.2) = (geomSums els).qx ∧ wInt els (fun _ p => p.1) = (geomSums els).qy ∧
    wInt els (fun _ p => p.2 ^ 2) = (geomSums els).ixxG ∧
    wInt els (fun _ p => p.1 ^ 2) = (geomSums els).iyyG ∧
    wInt els (fun _ p => p.1 * p.2) = (geomSums els).ixyG := by
  obtain ⟨-, -, -, -, h5, h6, h7, h8, h9⟩ := sums_fields hp
  rw [h5, h6, h7, h8, h9]
  simp only [wInt]
  refine ⟨?_, ?_, ?_, ?_, ?_⟩ <;>
    exact congrArg List.sum (List.map_congr_left fun t _ => by ring)

theorem shift_geom (hs : Straight t.coords) (cx cy : ℝ) :
    let g := t.geometricProperties
    let g' := (t.shiftBy cx cy).geometricProperties
    g'.area = g.area ∧ g'.qx = g.qx - cy * g.area ∧ g'.qy = g.qy - cx * g.area ∧
    g'.ixx = g.ixx - 2 * cy * g.qx + cy ^ 2 * g.area ∧
    g'.iyy = g.iyy - 2 * cx * g.qy + cx ^ 2 * g.area ∧
    g'.ixy = g.ixy - cx * g.qx - cy * g.qy + cx * cy * g.area := by
  have hs' : Straight (t.shiftBy cx cy).coords := straight_shift hs cx cy
  have hd : elemDet (t.shiftBy cx cy).coords = elemDet t.coords := elemDet_shift _ _ _
  simp only [geom_area hs, geom_area hs', geom_qx hs, geom_qx hs', geom_qy hs, geom_qy hs',
    geom_ixx hs, geom_ixx hs', geom_iyy hs, geom_iyy hs', geom_ixy hs, geom_ixy hs', hd]
  simp only [Tri6.shiftBy, Coords.shift, mean2, true_and]
  refine ⟨?_, ?_, ?_, ?_, ?_⟩ <;> ring

theorem shift_sums (hs : ∀ t ∈ els, Straight t.coords) (cx cy : ℝ) :
    let g := geomSums els
    let g' := geomSums (shifted els cx cy)
    g'.area = g.area ∧ g'.ea = g.ea ∧ g'.ga = g.ga ∧ g'.qx = g.qx - cy * g.ea ∧
    g'.qy = g.qy - cx * g.ea ∧
    g'.ixxG = g.ixxG - 2 * cy * g.qx + cy ^ 2 * g.ea ∧
    g'.iyyG = g.iyyG - 2 * cx * g.qy + cx ^ 2 * g.ea ∧
    g'.ixyG = g.ixyG - cx * g.qx - cy * g.qy + cx * cy * g.ea := by
  simp only [geomSums, shifted, accum_eq_sum, List.map_map]
  induction els with
  | nil => simp
  | cons t els ih =>
    obtain ⟨e1, e2, e3, e4, e5, e6⟩ := shift_geom (hs t (List.mem_cons_self ..)) cx cy
    have ee : (t.shiftBy cx cy).geometricProperties.e = t.geometricProperties.e := rfl
    have eg : (t.shiftBy cx cy).geometricProperties.g = t.geometricProperties.g := rfl
    obtain ⟨i1, i2, i3, i4, i5, i6, i7, i8⟩ := ih fun t ht => hs t (List.mem_cons_of_mem _ ht)
    simp only [List.map_cons, List.sum_cons, Function.comp, e1, e2, e3, e4, e5, e6, ee, eg] at *
    refine ⟨?_, ?_, ?_, ?_, ?_, ?_, ?_, ?_⟩
    · linarith
    · linarith
    · linarith
    · rw [i4]; ring
    · rw [i5]; ring
    · rw [i6]; ring
    · rw [i7]; ring
    · rw [i8]; ring

/-- After the shift to the centroid first moments vanish and the moments are the centroidal ones. -/
theorem shift_centroid (hs : ∀ t ∈ els, Straight t.coords) (hea : (geomSums els).ea ≠ 0) :
    let g := geomSums els
    let g' := geomSums (shifted els g.cx g.cy)
    g'.area = g.area ∧ g'.ea = g.ea ∧ g'.qx = 0 ∧ g'.qy = 0 ∧ g'.ixxG = g.ixxC ∧ g'.iyyG = g.iyyC ∧
    g'.ixyG = g.ixyC := by
  obtain ⟨e1, e2, -, e4, e5, e6, e7, e8⟩ := shift_sums hs (geomSums els).cx (geomSums els).cy
  refine ⟨e1, e2, ?_, ?_, ?_, ?_, ?_⟩
  · rw [e4, GeomSums.cy]; field_simp; ring
  · rw [e5, GeomSums.cx]; field_simp; ring
  · rw [e6, GeomSums.cy, GeomSums.ixxC]; field_simp; ring
  · rw [e7, GeomSums.cx, GeomSums.iyyC]; field_simp; ring
  · rw [e8, GeomSums.cx, GeomSums.cy, GeomSums.ixyC]; field_simp; ring

end SP
