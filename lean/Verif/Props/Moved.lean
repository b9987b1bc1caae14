import Verif.Lemmas.WindingMap
import Verif.Props.Rounding
import Verif.Spec.Moved

/-!
# C99: moving a geometry moves the results
-/

namespace SP

open Spec MeasureTheory Set

variable {a b c d e f : ℝ} {tol : ℕ} {h : ℝ}

theorem Spec.RigidMap.abs_det (hA : RigidMap a b c d) : |a * d - b * c| = 1 := by
  have : (a * d - b * c) ^ 2 = 1 := by
    have : (a * d - b * c) ^ 2 = (a ^ 2 + c ^ 2) * (b ^ 2 + d ^ 2) - (a * b + c * d) ^ 2 := by ring
    rw [this, hA.first, hA.second, hA.square]
    norm_num
  rcases sq_eq_one_iff.1 this with h | h <;> simp [h]

theorem Spec.RigidMap.det_ne (hA : RigidMap a b c d) : a * d - b * c ≠ 0 := fun h => by
  have := hA.abs_det
  rw [h] at this
  simp at this

theorem outlineArea_affine (e f : ℝ) {l : List DirEdge} (hl : ClosedOutline l) :
    outlineArea (l.map fun x => (affine a b c d e f x.1, affine a b c d e f x.2)) = (a * d - b * c) * outlineArea l := by
  have hl' : ClosedOutline (l.map fun x => (affine a b c d e f x.1, affine a b c d e f x.2)) := by
    have := List.Perm.map (affine a b c d e f) hl
    rw [ClosedOutline]
    simpa [List.map_map, Function.comp_def] using this
  rw [← areaTerm_sum hl' (affine a b c d e f (0, 0)), outlineArea, edgeSum, edgeSum, List.map_map, ← List.sum_map_mul_left]
  refine congrArg _ (List.map_congr_left fun x _ => ?_)
  simp only [Function.comp, areaTerm, cross, affine, Prod.fst_sub, Prod.snd_sub]
  ring

theorem vertexCount_map (p : Poly) (φ : ℝ × ℝ → ℝ × ℝ) : vertexCount (p.map φ) = vertexCount p := by
  simp [vertexCount, rings, Poly.map, Function.comp_def]

theorem rings_map (p : Poly) (φ : ℝ × ℝ → ℝ × ℝ) : rings (p.map φ) = (rings p).map (List.map φ) := by
  simp [rings, Poly.map]

theorem inSquare_moved (hA : RigidMap a b c d) {o : ℝ × ℝ} {k : ℝ} (hk : 0 ≤ k) {p : Poly} (hp : InDisc o k p) :
    InSquare (affine a b c d e f o) k (p.map (affine a b c d e f)) := by
  intro r hr v hv
  rw [rings_map] at hr
  obtain ⟨r0, h0, rfl⟩ := List.mem_map.1 hr
  obtain ⟨w, hw, rfl⟩ := List.mem_map.1 hv
  have := hp r0 h0 w hw
  have e1 : ((affine a b c d e f w).1 - (affine a b c d e f o).1) ^ 2 + ((affine a b c d e f w).2 - (affine a b c d e f o).2) ^ 2
      = (w.1 - o.1) ^ 2 + (w.2 - o.2) ^ 2 := by
    simp only [affine]
    linear_combination (w.1 - o.1) ^ 2 * hA.first + (w.2 - o.2) ^ 2 * hA.second + 2 * (w.1 - o.1) * (w.2 - o.2) * hA.square
  rw [← e1] at this
  exact ⟨abs_le_of_sq_le_sq (by nlinarith [sq_nonneg ((affine a b c d e f w).2 - (affine a b c d e f o).2)]) hk,
    abs_le_of_sq_le_sq (by nlinarith [sq_nonneg ((affine a b c d e f w).1 - (affine a b c d e f o).1)]) hk⟩

theorem notTiny_moved (hA : RigidMap a b c d) {p : Poly} (hp : NotTiny tol h p) : NotTiny tol h (p.map (affine a b c d e f)) := by
  intro r hr
  rw [rings_map] at hr
  obtain ⟨r0, h0, rfl⟩ := List.mem_map.1 hr
  rw [closedEdges_mapped, outlineArea_affine e f (closed_ring r0), abs_mul, hA.abs_det, one_mul, List.length_map]
  exact hp r0 h0

/-- The parts that are drawn when the geometries are moved. -/
theorem moved_parts (hA : RigidMap a b c d) {L L' : List Geometry} (hL : MovedGeometries (affine a b c d e f) tol L L') :
    ∃ parts : List (Poly × Geometry), parts.map Prod.snd = L' ∧
      (∀ x ∈ parts, (∃ ops m cp, x.2 = mkGeometry ops x.1 m cp tol) ∧ ∃ g ∈ L, x.1 = g.poly.map (affine a b c d e f)) ∧
      (∀ prop F, drawn parts prop F = drawn (L.map fun g => (g.poly, g)) prop fun q => F (affine a b c d e f q)) ∧
      ∀ prop, weightedCount parts prop = vertexWeight L prop := by
  induction hL with
  | nil => exact ⟨[], rfl, by simp, by simp [drawn], by simp [weightedCount, vertexWeight]⟩
  | @cons g g' L L' hg _ ih =>
    obtain ⟨parts, h1, h2, h3, h4⟩ := ih
    obtain ⟨ops, cp, rfl⟩ := hg
    refine ⟨(g.poly.map (affine a b c d e f), mkGeometry ops (g.poly.map (affine a b c d e f)) g.material cp tol) :: parts, by rw [List.map_cons, h1],
      ?_, ?_, ?_⟩
    · intro x hx
      rcases List.mem_cons.1 hx with rfl | hx
      · exact ⟨⟨ops, _, cp, rfl⟩, g, List.mem_cons_self .., rfl⟩
      · obtain ⟨k1, g0, k2, k3⟩ := h2 x hx
        exact ⟨k1, g0, List.mem_cons_of_mem _ k2, k3⟩
    · intro prop F
      have := h3 prop F
      simp only [drawn, List.map_cons, List.sum_cons] at this ⊢
      rw [this, poly_integral_affine e f hA.det_ne, hA.abs_det, one_mul]
      rfl
    · intro prop
      have := h4 prop
      simp only [weightedCount, vertexWeight, List.map_cons, List.sum_cons] at this ⊢
      rw [this, vertexCount_map]
      rfl

/-- The polynomials of degree two can be integrated over a polygon. -/
theorem poly_integrable {p : Poly} (hv : ValidPoly p) (o : ℝ × ℝ) :
    IntegrableOn (fun q : ℝ × ℝ => q.1 - o.1) (polyRegion p) ∧ IntegrableOn (fun q : ℝ × ℝ => q.2 - o.2) (polyRegion p) ∧
    IntegrableOn (fun q : ℝ × ℝ => (q.1 - o.1) ^ 2) (polyRegion p) ∧ IntegrableOn (fun q : ℝ × ℝ => (q.2 - o.2) ^ 2) (polyRegion p) ∧
    IntegrableOn (fun q : ℝ × ℝ => (q.1 - o.1) * (q.2 - o.2)) (polyRegion p) := by
  classical
  obtain ⟨i0, i1, i2, i3, i4, i5, -⟩ := winding_int (closed_poly p)
  have key : ∀ F : ℝ × ℝ → ℝ, Integrable (fun q => (winding (polyEdges p) q : ℝ) * F q) → IntegrableOn F (polyRegion p) := by
    intro F hF
    rw [← integrable_indicator_iff (measurable_polyRegion p)]
    refine hF.congr ?_
    filter_upwards [winding_poly hv] with q hq
    rw [hq, indicator_apply]
    split_ifs <;> simp
  have j0 := key _ i0
  have j1 := key _ i1
  have j2 := key _ i2
  have j3 := key _ i3
  have j4 := key _ i4
  have j5 := key _ i5
  refine ⟨?_, ?_, ?_, ?_, ?_⟩
  · exact (j2.sub (j0.const_mul o.1)).congr (.of_forall fun q => by simp)
  · exact (j1.sub (j0.const_mul o.2)).congr (.of_forall fun q => by simp)
  · exact ((j4.add (j2.const_mul (-(2 * o.1)))).add (j0.const_mul (o.1 ^ 2))).congr (.of_forall fun q => by simp; ring)
  · exact ((j3.add (j1.const_mul (-(2 * o.2)))).add (j0.const_mul (o.2 ^ 2))).congr (.of_forall fun q => by simp; ring)
  · exact (((j5.add (j1.const_mul (-o.1))).add (j2.const_mul (-o.2))).add (j0.const_mul (o.1 * o.2))).congr (.of_forall fun q => by simp; ring)

theorem drawn_lin (L : List Geometry) (prop : Material → ℝ) {F G H K : ℝ × ℝ → ℝ} (k1 k2 k3 : ℝ) (e : ∀ q, F q = k1 * G q + k2 * H q + k3 * K q)
    (hi : ∀ g ∈ L, IntegrableOn G (polyRegion g.poly) ∧ IntegrableOn H (polyRegion g.poly) ∧ IntegrableOn K (polyRegion g.poly)) :
    drawn (L.map fun g => (g.poly, g)) prop F = k1 * drawn (L.map fun g => (g.poly, g)) prop G + k2 * drawn (L.map fun g => (g.poly, g)) prop H
      + k3 * drawn (L.map fun g => (g.poly, g)) prop K := by
  induction L with
  | nil => simp [drawn]
  | cons g L ih =>
    have := ih fun g hg => hi g (List.mem_cons_of_mem _ hg)
    obtain ⟨i1, i2, i3⟩ := hi g (List.mem_cons_self ..)
    have h1 : ∫ q in polyRegion g.poly, F q = k1 * (∫ q in polyRegion g.poly, G q) + k2 * (∫ q in polyRegion g.poly, H q)
        + k3 * ∫ q in polyRegion g.poly, K q := by
      simp only [e]
      refine (integral_add ((i1.const_mul k1).add (i2.const_mul k2)) (i3.const_mul k3)).trans ?_
      rw [integral_const_mul]
      congr 1
      refine (integral_add (i1.const_mul k1) (i2.const_mul k2)).trans ?_
      rw [integral_const_mul, integral_const_mul]
    simp only [drawn, List.map_cons, List.sum_cons] at this ⊢
    rw [this, h1]
    ring

variable {s s' : Section} {r r' : GeomResults} {L L' : List Geometry}

/-- What a geometric analysis reports, as integrals over the geometries. -/
theorem reported_integrals (hr : s.geometricAnalysis = .ok r) (hP : Physical s.elements) (hno : NoOverlap s.elements) (hm : Meshes s.elements L) :
    r.sums.area = drawn (L.map fun g => (g.poly, g)) (fun _ => 1) (fun _ => 1) ∧
    r.sums.mass = drawn (L.map fun g => (g.poly, g)) Material.density (fun _ => 1) ∧
    r.sums.ea = drawn (L.map fun g => (g.poly, g)) Material.elasticModulus (fun _ => 1) ∧
    drawn (L.map fun g => (g.poly, g)) Material.elasticModulus (fun q => q.1 - r.cx) = 0 ∧
    drawn (L.map fun g => (g.poly, g)) Material.elasticModulus (fun q => q.2 - r.cy) = 0 ∧
    r.cent.ixxC = drawn (L.map fun g => (g.poly, g)) Material.elasticModulus (fun q => (q.2 - r.cy) ^ 2) ∧
    r.cent.iyyC = drawn (L.map fun g => (g.poly, g)) Material.elasticModulus (fun q => (q.1 - r.cx) ^ 2) ∧
    r.cent.ixyC = drawn (L.map fun g => (g.poly, g)) Material.elasticModulus (fun q => (q.1 - r.cx) * (q.2 - r.cy)) := by
  have hD : ∀ (prop : Material → ℝ) (F : ℝ × ℝ → ℝ) (G : List DirEdge → ℝ), (∀ g ∈ L, ∫ q in polyRegion g.poly, F q = G (polyEdges g.poly)) →
      drawn (L.map fun g => (g.poly, g)) prop F = ∑ i : Fin L.length, prop L[i].material * G (geomEdges L i) := by
    intro prop F G hG
    rw [sum_geoms', drawn, List.map_map]
    exact congrArg _ (List.map_congr_left fun g hg => by simp only [Function.comp, hG g hg])
  have k := fun g hg => poly_moments (hm.valid g hg) (r.cx, r.cy)
  obtain ⟨g1, g2, -⟩ := C89_geometry hr hP.proper hno hm
  obtain ⟨-, s3, s4, s5, -⟩ := C89_sums hr hP.proper hno (meshes_zones hm) (meshes_inZones hm Material.elasticModulus)
  obtain ⟨u1, u2, u3, u4, u5⟩ := C89_centroidal hr hP hno (meshes_zones hm) (meshes_inZones hm Material.elasticModulus)
  have hea : r.sums.ea ≠ 0 := (C09_positive hr hP).2.1.ne'
  have hone : ∀ g ∈ L, ∫ _ in polyRegion g.poly, (1 : ℝ) = outlineArea (polyEdges g.poly) := fun g hg => by
    rw [(k g hg).1, areaTerm_sum (closed_poly _)]
  refine ⟨?_, ?_, ?_, ?_, ?_, ?_, ?_, ?_⟩
  · rw [g1, hD _ _ outlineArea hone, sum_geoms' L (fun _ => 1) outlineArea]
    exact congrArg _ (List.map_congr_left fun g _ => by rw [one_mul, outlineArea_poly]; rfl)
  · rw [g2, hD _ _ outlineArea hone, sum_geoms' L Material.density outlineArea]
    exact congrArg _ (List.map_congr_left fun g _ => by rw [outlineArea_poly]; rfl)
  · rw [s3, hD _ _ outlineArea hone]
  · rw [hD _ _ (fun l => outlineQy l - r.cx * outlineArea l) fun g hg => by rw [(k g hg).2.2.1, qyTerm_sum (closed_poly _)]]
    simp only [mul_sub, mul_left_comm _ r.cx, Finset.sum_sub_distrib, ← Finset.mul_sum]
    rw [← s3, ← s5] at *
    rw [u1]
    field_simp
    ring
  · rw [hD _ _ (fun l => outlineQx l - r.cy * outlineArea l) fun g hg => by rw [(k g hg).2.1, qxTerm_sum (closed_poly _)]]
    simp only [mul_sub, mul_left_comm _ r.cy, Finset.sum_sub_distrib, ← Finset.mul_sum]
    rw [← s3, ← s4] at *
    rw [u2]
    field_simp
    ring
  · rw [u3, hD _ _ (fun l => outlineIxx l - 2 * r.cy * outlineQx l + r.cy ^ 2 * outlineArea l) fun g hg => by
      rw [(k g hg).2.2.2.1, ixxTerm_sum (closed_poly _)]]
  · rw [u4, hD _ _ (fun l => outlineIyy l - 2 * r.cx * outlineQy l + r.cx ^ 2 * outlineArea l) fun g hg => by
      rw [(k g hg).2.2.2.2.1, iyyTerm_sum (closed_poly _)]]
  · rw [u5, hD _ _ (fun l => outlineIxy l - r.cx * outlineQx l - r.cy * outlineQy l + r.cx * r.cy * outlineArea l) fun g hg => by
      rw [(k g hg).2.2.2.2.2, ixyTerm_sum (closed_poly _)]]

/-- A section that has been meshed from these geometries, and its geometric analysis. -/
structure Analysed (s : Section) (L : List Geometry) (r : GeomResults) : Prop where
  results : s.geometricAnalysis = .ok r
  physical : Physical s.elements
  noOverlap : NoOverlap s.elements
  meshes : Meshes s.elements L

/-- **C99** A section and the section of the moved geometries, both meshed in any way: the area, the mass, the rigidity, the centroid and the
second moments are those of the moved section up to rounding of the vertices. -/
theorem C99_moved (hA : RigidMap a b c d) (hs : Analysed s L r) (hs' : Analysed s' L' r')
    (hL : MovedGeometries (affine a b c d e f) tol L L') (hw : WellSized L tol h r) : MovedResults a b c d e f L tol h r r' := by
  obtain ⟨hr, hP, hno, hm⟩ := hs
  obtain ⟨hr', hP', hno', hm'⟩ := hs'
  obtain ⟨hh, hdisc, hb, hpos⟩ := hw
  set N := vertexWeight L Material.elasticModulus with hN
  set EA := r.sums.ea - roundingBound L tol h 1 with hEA
  obtain ⟨parts, rfl, p1, p2, p3⟩ := moved_parts hA hL
  have hp := pow10_pos tol
  have hh0 : 0 ≤ h := (by positivity : (0 : ℝ) ≤ 1 / 2 / 10 ^ tol).trans hh
  obtain ⟨q1, q2, q3, q4, q5, q6, q7, q8⟩ := reported_integrals hr hP hno hm
  have H1 : ∀ x ∈ parts, ∃ ops m cp, x.2 = mkGeometry ops x.1 m cp tol := fun x hx => (p1 x hx).1
  have H2 : ∀ x ∈ parts, ValidPoly x.1 := fun x hx => by
    obtain ⟨g, hg, e1⟩ := (p1 x hx).2
    rw [e1]
    exact validPoly_affine e f hA.det_ne (hm.valid g hg)
  have H3 : ∀ x ∈ parts, InSquare (affine a b c d e f (r.cx, r.cy)) (h - 1 / 2 / 10 ^ tol) x.1 := fun x hx => by
    obtain ⟨g, hg, e1⟩ := (p1 x hx).2
    rw [e1]
    exact inSquare_moved hA (by linarith) (hdisc g hg)
  have H4 : ∀ x ∈ parts, NotTiny tol h x.1 := fun x hx => by
    obtain ⟨g, hg, e1⟩ := (p1 x hx).2
    rw [e1]
    exact notTiny_moved hA (hb g hg)
  obtain ⟨t1, t2, t3, -⟩ := C96_sums hr' hP'.proper hno' hm' H1 H2 hh0 H3 H4
  rw [p2, p3] at t1 t2 t3
  rw [← q1] at t1
  rw [← q2] at t2
  rw [← q3] at t3
  have int := fun g hg => poly_integrable (hm.valid g hg) (r.cx, r.cy)
  have l1 : drawn parts Material.elasticModulus (fun q => q.1 - (affine a b c d e f (r.cx, r.cy)).1) = 0 := by
    rw [p2, drawn_lin L _ (G := fun q => q.1 - r.cx) (H := fun q => q.2 - r.cy) (K := fun q => q.2 - r.cy) a b 0
      (fun q => by simp only [affine]; ring) fun g hg => ⟨(int g hg).1, (int g hg).2.1, (int g hg).2.1⟩, q4, q5]
    ring
  have l2 : drawn parts Material.elasticModulus (fun q => q.2 - (affine a b c d e f (r.cx, r.cy)).2) = 0 := by
    rw [p2, drawn_lin L _ (G := fun q => q.1 - r.cx) (H := fun q => q.2 - r.cy) (K := fun q => q.2 - r.cy) c d 0
      (fun q => by simp only [affine]; ring) fun g hg => ⟨(int g hg).1, (int g hg).2.1, (int g hg).2.1⟩, q4, q5]
    ring
  have quad : ∀ F : ℝ × ℝ → ℝ, ∀ k1 k2 k3 : ℝ,
      (∀ q, F (affine a b c d e f q) = k1 * (q.2 - r.cy) ^ 2 + k2 * (q.1 - r.cx) ^ 2 + k3 * ((q.1 - r.cx) * (q.2 - r.cy))) →
      drawn parts Material.elasticModulus F = k1 * r.cent.ixxC + k2 * r.cent.iyyC + k3 * r.cent.ixyC := by
    intro F k1 k2 k3 hF
    rw [p2, drawn_lin L _ (G := fun q => (q.2 - r.cy) ^ 2) (H := fun q => (q.1 - r.cx) ^ 2) (K := fun q => (q.1 - r.cx) * (q.2 - r.cy)) k1 k2 k3
      hF fun g hg => ⟨(int g hg).2.2.2.1, (int g hg).2.2.1, (int g hg).2.2.2.2⟩, ← q6, ← q7, ← q8]
  obtain ⟨c1, c2, c3, c4, c5⟩ := C96_centroidal hr' hP' hno' hm' H1 H2 hh0 H3 H4 (N := N) (EA := EA) (by rw [p3])
    (by rw [p2, ← q3, hEA, roundingBound, pow_one]) (sub_pos.2 hpos) l1 l2
  rw [quad _ (d ^ 2) (c ^ 2) (2 * c * d) fun q => by simp only [affine]; ring] at c3
  rw [quad _ (b ^ 2) (a ^ 2) (2 * a * b) fun q => by simp only [affine]; ring] at c4
  rw [quad _ (b * d) (a * c) (a * d + b * c) fun q => by simp only [affine]; ring] at c5
  exact ⟨t1, t2, by rw [roundingBound, pow_one]; exact t3, c1, c2, c3, c4, c5⟩

theorem translate_affine (dx dy : ℝ) : translate dx dy = affine 1 0 0 1 dx dy := by
  funext p
  simp [translate, affine]

theorem rotateAbout_affine (p : Pt) (t : ℝ) : rotateAbout p t = affine (Real.cos t) (-Real.sin t) (Real.sin t) (Real.cos t)
    (p.1 - p.1 * Real.cos t + p.2 * Real.sin t) (p.2 - p.1 * Real.sin t - p.2 * Real.cos t) := by
  funext q
  simp only [rotateAbout, affine]
  ext <;> simp only <;> ring

theorem scaleAbout_affine (p : Pt) (fx fy : ℝ) : scaleAbout p fx fy = affine fx 0 0 fy (p.1 - fx * p.1) (p.2 - fy * p.2) := by
  funext q
  simp only [scaleAbout, affine]
  ext <;> simp only <;> ring

theorem moved_of_map {φ : ℝ × ℝ → ℝ × ℝ} {mv : Geometry → Geometry}
    (h : ∀ g ∈ L, ∃ ops cp, mv g = mkGeometry ops (g.poly.map φ) g.material cp tol) : MovedGeometries φ tol L (L.map mv) := by
  induction L with
  | nil => exact .nil
  | cons g L ih => exact .cons (h g (List.mem_cons_self ..)) (ih fun g hg => h g (List.mem_cons_of_mem _ hg))

/-- **C99** `shift_section` by `(dx, dy)` shifts the centroid and leaves everything else as it was. -/
theorem C99_shift {g : Geometry} {ops : GeomOps} {dx dy : ℝ} (hs : Analysed s [g] r) (hs' : Analysed s' [g.shift ops dx dy] r')
    (hw : WellSized [g] g.tol h r) : MovedResults 1 0 0 1 dx dy [g] g.tol h r r' :=
  C99_moved ⟨by norm_num, by norm_num, by norm_num⟩ hs hs' (translate_affine dx dy ▸ moved_of_map (L := [g]) (mv := fun g => g.shift ops dx dy) (by
    simp only [List.mem_singleton, forall_eq]
    exact ⟨ops, _, rfl⟩)) hw

/-- **C99** `rotate_section` about `p`, or about the centre `p` of the bounding box, by the angle `t` in radians. -/
theorem C99_rotate {g : Geometry} {ops : GeomOps} {angle : ℝ} {o : Origin} {useRadians : Bool} (hs : Analysed s [g] r)
    (hs' : Analysed s' [g.rotate ops angle o useRadians] r') (hw : WellSized [g] g.tol h r) {p : Pt} {t : ℝ}
    (hp : o = .point p ∨ o = .center ∧ p = boxCentre g.extents) (ht : t = if useRadians then angle else angle * Real.pi / 180) :
    MovedResults (Real.cos t) (-Real.sin t) (Real.sin t) (Real.cos t) (p.1 - p.1 * Real.cos t + p.2 * Real.sin t)
      (p.2 - p.1 * Real.sin t - p.2 * Real.cos t) [g] g.tol h r r' := by
  refine C99_moved ⟨by rw [add_comm]; simp, by simp, by ring⟩ hs hs' (rotateAbout_affine p t ▸ moved_of_map (L := [g])
    (mv := fun g => g.rotate ops angle o useRadians) (by
    simp only [List.mem_singleton, forall_eq]
    rcases hp with rfl | ⟨rfl, rfl⟩ <;> subst ht <;> exact ⟨ops, _, rfl⟩)) hw

/-- The sign by which mirroring changes each coordinate. -/
theorem mirrorFactors_rigid (axis : MirrorAxis) : RigidMap (mirrorFactors axis).1 0 0 (mirrorFactors axis).2 := by
  cases axis <;> exact ⟨by norm_num [mirrorFactors], by norm_num [mirrorFactors], by norm_num⟩

/-- **C99** `mirror_section` about the axis `"x"` through `p`, or through the centre `p` of the bounding box. -/
theorem C99_mirror_x {g : Geometry} {ops : GeomOps} {o : Origin} (hs : Analysed s [g] r)
    (hs' : Analysed s' [g.mirror ops .x o] r') (hw : WellSized [g] g.tol h r) {p : Pt}
    (hp : o = .point p ∨ o = .center ∧ p = boxCentre g.extents) : MovedResults 1 0 0 (-1) 0 (2 * p.2) [g] g.tol h r r' := by
  have e1 : scaleAbout p 1 (-1) = affine 1 0 0 (-1) 0 (2 * p.2) := by
    rw [scaleAbout_affine]; congr 1 <;> ring
  refine C99_moved ⟨by norm_num, by norm_num, by norm_num⟩ hs hs' (e1 ▸ moved_of_map (L := [g]) (mv := fun g => g.mirror ops .x o) (by
    simp only [List.mem_singleton, forall_eq]
    rcases hp with rfl | ⟨rfl, rfl⟩ <;> exact ⟨ops, _, rfl⟩)) hw

/-- **C99** `mirror_section` about the axis `"y"` through `p`, or through the centre `p` of the bounding box. -/
theorem C99_mirror_y {g : Geometry} {ops : GeomOps} {o : Origin} (hs : Analysed s [g] r)
    (hs' : Analysed s' [g.mirror ops .y o] r') (hw : WellSized [g] g.tol h r) {p : Pt}
    (hp : o = .point p ∨ o = .center ∧ p = boxCentre g.extents) : MovedResults (-1) 0 0 1 (2 * p.1) 0 [g] g.tol h r r' := by
  have e1 : scaleAbout p (-1) 1 = affine (-1) 0 0 1 (2 * p.1) 0 := by
    rw [scaleAbout_affine]; congr 1 <;> ring
  refine C99_moved ⟨by norm_num, by norm_num, by norm_num⟩ hs hs' (e1 ▸ moved_of_map (L := [g]) (mv := fun g => g.mirror ops .y o) (by
    simp only [List.mem_singleton, forall_eq]
    rcases hp with rfl | ⟨rfl, rfl⟩ <;> exact ⟨ops, _, rfl⟩)) hw

theorem mkCompound_geoms {ops : GeomOps} {gs : List Geometry} {k : Compound} (hk : mkCompound ops gs = .ok k) : k.geoms = gs := by
  rw [mkCompound] at hk
  split at hk
  · exact absurd hk (by simp)
  · simp only [Except.ok.injEq] at hk
    rw [← hk]

/-- **C99** The same for compounds: `shift_section`. -/
theorem C99_compound_shift {g g' : Compound} {ops : GeomOps} {dx dy : ℝ} (hg : g.shift ops dx dy = .ok g') (hs : Analysed s g.geoms r)
    (hs' : Analysed s' g'.geoms r') (htol : ∀ x ∈ g.geoms, x.tol = tol) (hw : WellSized g.geoms tol h r) :
    MovedResults 1 0 0 1 dx dy g.geoms tol h r r' := by
  rw [mkCompound_geoms hg] at hs'
  exact C99_moved ⟨by norm_num, by norm_num, by norm_num⟩ hs hs' (translate_affine dx dy ▸ moved_of_map fun x hx => ⟨ops, _, by
    rw [← htol x hx]; rfl⟩) hw

/-- **C99** The same for compounds: `rotate_section`, where the centre is that of the bounding box of the whole compound. -/
theorem C99_compound_rotate {g g' : Compound} {ops : GeomOps} {angle : ℝ} {o : Origin} {useRadians : Bool}
    (hg : g.rotate ops angle o useRadians = .ok g') (hs : Analysed s g.geoms r) (hs' : Analysed s' g'.geoms r')
    (htol : ∀ x ∈ g.geoms, x.tol = tol) (hw : WellSized g.geoms tol h r) {p : Pt} {t : ℝ}
    (hp : o = .point p ∨ o = .center ∧ p = boxCentre g.extents) (ht : t = if useRadians then angle else angle * Real.pi / 180) :
    MovedResults (Real.cos t) (-Real.sin t) (Real.sin t) (Real.cos t) (p.1 - p.1 * Real.cos t + p.2 * Real.sin t)
      (p.2 - p.1 * Real.sin t - p.2 * Real.cos t) g.geoms tol h r r' := by
  have hg' : mkCompound ops (g.geoms.map fun x => x.rotate ops angle (.point p) useRadians) = .ok g' := by
    rcases hp with rfl | ⟨rfl, rfl⟩ <;> exact hg
  rw [mkCompound_geoms hg'] at hs'
  exact C99_moved ⟨by rw [add_comm]; simp, by simp, by ring⟩ hs hs' (rotateAbout_affine p t ▸ moved_of_map fun x hx => ⟨ops, _, by
    rw [← htol x hx, ht]; rfl⟩) hw

/-- **C99** The same for compounds: `mirror_section` about an axis through a point. (About `"center"` each part is mirrored in its own box, so
that this does not hold: see `C42_compound_violated`.) -/
theorem C99_compound_mirror {g g' : Compound} {ops : GeomOps} {axis : MirrorAxis} {p : Pt} (hg : g.mirror ops axis (.point p) = .ok g')
    (hs : Analysed s g.geoms r) (hs' : Analysed s' g'.geoms r') (htol : ∀ x ∈ g.geoms, x.tol = tol) (hw : WellSized g.geoms tol h r)
    {fx fy : ℝ} (hf : axis = .x ∧ fx = 1 ∧ fy = -1 ∨ axis = .y ∧ fx = -1 ∧ fy = 1) :
    MovedResults fx 0 0 fy (p.1 - fx * p.1) (p.2 - fy * p.2) g.geoms tol h r r' := by
  rw [mkCompound_geoms hg] at hs'
  rcases hf with ⟨rfl, rfl, rfl⟩ | ⟨rfl, rfl, rfl⟩ <;>
    exact C99_moved ⟨by norm_num, by norm_num, by norm_num⟩ hs hs' (scaleAbout_affine p _ _ ▸ moved_of_map fun x hx => ⟨ops, _, by
      rw [← htol x hx]; rfl⟩) hw

/-! ### An example -/

/-- Every triangle is the geometry of a section with one element. -/
theorem triangle_analysed {u v w : ℝ × ℝ} (hpos : 0 < signedArea2 u v w) {g : Geometry} (hpoly : g.poly = ⟨[u, v, w], []⟩)
    (hm : g.material = defaultMaterial) : ∃ s r, Analysed s [g] r := by
  obtain ⟨r, hr⟩ := cornersSection_analysis (T := [(u, v, w)]) defaultMaterial (by simp)
  have hvalid : ValidPoly ⟨[u, v, w], []⟩ := by
    refine ⟨⟨1, ?_⟩, by simp, by simp, by simp⟩
    have := convex_simple (v := fun i => if i = 0 then u else if i = 1 then v else w) (m := 2) (by
      intro i j k h1 h2 h3
      obtain rfl : k = 2 := by omega
      obtain rfl : j = 1 := by omega
      obtain rfl : i = 0 := by omega
      simpa using hpos) le_rfl
    simp [List.range_succ] at this
    filter_upwards [this] with p hp
    exact hp.imp_right fun h => ⟨h, by norm_num⟩
  have harea : 0 < ringArea2 [u, v, w] := by
    have : ringArea2 [u, v, w] = signedArea2 u v w := by simp [ringArea2, ringEdges, signedArea2]; ring
    rwa [this]
  obtain ⟨hP, hno, hm, -⟩ := cornersSection_fills (T := [(u, v, w)]) (m := defaultMaterial) (inner := []) (g := g)
    (by simpa using hpos) hvalid (by
      rw [polyOutline, ringCCW_pos harea]
      simp [closedEdges, cornerEdges]) hpoly hm (by simp) (by norm_num [defaultMaterial])
  exact ⟨_, r, hr, hP, hno, hm⟩

theorem roundTo_int (k : ℤ) : roundTo 0 (k : ℝ) = k := by
  refine roundTo_zero ?_
  norm_num

/-- A triangle and the same turned by 90 degrees about the origin, with coordinates that are rounded to integers. -/
example (ops : GeomOps) : ∃ (g : Geometry) (s s' : Section) (r r' : GeomResults), g = mkGeometry ops ⟨[(0, 0), (10, 0), (0, 10)], []⟩ defaultMaterial none 0 ∧
    Analysed s [g] r ∧ Analysed s' [g.rotate ops 90 (.point (0, 0)) false] r' ∧ WellSized [g] g.tol 8 r := by
  set g := mkGeometry ops ⟨[(0, 0), (10, 0), (0, 10)], []⟩ defaultMaterial none 0 with hg
  have r0 : roundTo 0 0 = 0 := by simpa using roundTo_int 0
  have r1 : roundTo 0 10 = 10 := by simpa using roundTo_int 10
  have r2 : roundTo 0 (-10) = -10 := by simpa using roundTo_int (-10)
  have hpoly : g.poly = ⟨[(0, 0), (10, 0), (0, 10)], []⟩ := by
    change roundPoly 0 _ = _
    simp [roundPoly, Poly.map, roundPt, r0, r1]
  have hpoly' : (g.rotate ops 90 (.point (0, 0)) false).poly = ⟨[(0, 0), (0, 10), (-10, 0)], []⟩ := by
    change roundPoly 0 (g.poly.map _) = _
    rw [hpoly]
    have e1 : (90 : ℝ) * Real.pi / 180 = Real.pi / 2 := by ring
    simp [roundPoly, Poly.map, roundPt, rotateAbout, radians, e1, r0, r1, r2]
  obtain ⟨s, r, hs⟩ := triangle_analysed (by norm_num [signedArea2]) hpoly rfl
  obtain ⟨s', r', hs'⟩ := triangle_analysed (by norm_num [signedArea2]) hpoly' rfl
  obtain ⟨-, -, k3, k4, k5⟩ := C89_geometry hs.results hs.physical.proper hs.noOverlap hs.meshes
  obtain ⟨hq, -, -, -, -, hcx, hcy⟩ := geom_ok hs.results
  have hgm : g.material.elasticModulus = 1 := rfl
  have a3 : r.sums.ea = 50 := by
    rw [k3]
    simp only [List.map_cons, List.map_nil, List.sum_cons, List.sum_nil, Geometry.calculateArea, hgm, hpoly]
    norm_num [Poly.area, ringArea2, ringEdges]
  have a4 : r.sums.qx = 500 / 3 := by
    rw [k4]
    simp only [List.map_cons, List.map_nil, List.sum_cons, List.sum_nil, hgm, hpoly]
    norm_num [Poly.moment, ringMoment6, ringArea2, ringEdges]
  have a5 : r.sums.qy = 500 / 3 := by
    rw [k5]
    simp only [List.map_cons, List.map_nil, List.sum_cons, List.sum_nil, hgm, hpoly]
    norm_num [Poly.moment, ringMoment6, ringArea2, ringEdges]
  have ex : r.cx = 10 / 3 := by
    have : r.cx = r.sums.qy / r.sums.ea := by rw [hcx, hq]; rfl
    rw [this, a3, a5]; norm_num
  have ey : r.cy = 10 / 3 := by
    have : r.cy = r.sums.qx / r.sums.ea := by rw [hcy, hq]; rfl
    rw [this, a3, a4]; norm_num
  have htol : g.tol = 0 := rfl
  refine ⟨g, s, s', r, r', rfl, hs, hs', ?_, ?_, ?_, ?_⟩
  · rw [htol]; norm_num
  · simp only [List.mem_singleton, forall_eq, ex, ey, htol, InDisc, rings, hpoly]
    norm_num
  · simp only [List.mem_singleton, forall_eq, htol, NotTiny, rings, hpoly]
    norm_num [outlineArea, edgeSum, closedEdges, cross]
  · rw [a3]
    simp only [roundingBound, vertexWeight, List.map_cons, List.map_nil, List.sum_cons, List.sum_nil, hgm, htol, vertexCount, rings, hpoly]
    norm_num

end SP
