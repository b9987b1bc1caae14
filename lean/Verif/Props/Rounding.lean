import Verif.Lemmas.Perturb
import Verif.Model.Outline
import Verif.Props.OutlineExample

/-!
# C96: rounding the vertices changes the results only a little
-/

namespace SP

open Spec MeasureTheory Set

variable {tol : ℕ} {c : ℝ × ℝ} {h : ℝ}

theorem poly_area_outline (p : Poly) :
    p.area = |outlineArea (closedEdges p.exterior)| - (p.interiors.map fun r => |outlineArea (closedEdges r)|).sum := by
  have e : ∀ r : List (ℝ × ℝ), |ringArea2 r| / 2 = |outlineArea (closedEdges r)| := fun r => by
    rw [ringArea2_outline, abs_mul, abs_two]
    ring
  simp only [Poly.area, e]

/-- **C96** The area that a geometry reports differs from the area of the polygon from which it was made by at most the number of vertices
times half the side of a square round it times a unit of the last decimal that is kept. This holds for every valid polygon, also if it
vanishes in rounding. -/
theorem C96_area {p : Poly} (hh : 0 ≤ h) (hv : ValidPoly p) (hsq : InSquare c (h - 1 / 2 / 10 ^ tol) p) (ops : GeomOps) (m : Material)
    (cp : Option Pt) : |(mkGeometry ops p m cp tol).calculateArea - ∫ _ in polyRegion p, (1 : ℝ)| ≤ vertexCount p * h / 10 ^ tol := by
  have hp := pow10_pos tol
  have e : ∫ _ in polyRegion p, (1 : ℝ) = p.area := by
    rw [(poly_moments hv (0, 0)).1, areaTerm_sum (closed_poly p), outlineArea_poly]
  have hn : ∀ r ∈ rings p, |outlineArea (closedEdges (r.map (roundPt tol))) - outlineArea (closedEdges r)| ≤ r.length * (h / 10 ^ tol) :=
    fun r hr => by
      rw [← mul_div_assoc]
      exact ring_round_area hh fun v hv => nearIn_round (hsq r hr v hv)
  have hext := hn _ (List.mem_cons_self ..)
  have hcount : (vertexCount p : ℝ) * h / 10 ^ tol
      = p.exterior.length * (h / 10 ^ tol) + ((p.interiors.map List.length).sum : ℕ) * (h / 10 ^ tol) := by
    rw [vertexCount, rings, List.map_cons, List.sum_cons, Nat.cast_add]
    ring
  rw [e, hcount]
  change |(roundPoly tol p).area - p.area| ≤ _
  rw [roundPoly]
  split_ifs with h0
  · have h1 : (⟨[], []⟩ : Poly).area = 0 := by simp [Poly.area, ringArea2, ringEdges]
    rw [outlineArea_zero _ h0, zero_sub, abs_neg] at hext
    have h2 := (poly_area hv).1
    have h3 : p.area ≤ |outlineArea (closedEdges p.exterior)| := by
      rw [poly_area_outline]
      have : 0 ≤ (p.interiors.map fun r => |outlineArea (closedEdges r)|).sum := List.sum_nonneg fun x hx => by
        obtain ⟨r, -, rfl⟩ := List.mem_map.1 hx
        exact abs_nonneg _
      linarith
    rw [h1, zero_sub, abs_neg, abs_of_nonneg h2]
    have h4 : (0 : ℝ) ≤ ((p.interiors.map List.length).sum : ℕ) * (h / 10 ^ tol) := by positivity
    linarith
  · have hint := sum_near' p.interiors (fun r => |outlineArea (closedEdges (r.map (roundPt tol)))|)
      (fun r => |outlineArea (closedEdges r)|) List.length (B := h / 10 ^ tol)
      fun r hr => (abs_abs_sub_abs_le_abs_sub _ _).trans (hn r (List.mem_cons_of_mem _ hr))
    rw [poly_area_outline, poly_area_outline]
    simp only [Poly.map, List.map_map, Function.comp_def]
    rw [sub_sub_sub_comm]
    exact (abs_sub _ _).trans (add_le_add ((abs_abs_sub_abs_le_abs_sub _ _).trans hext) hint)

variable {s : Section} {r : GeomResults} {parts : List (Poly × Geometry)}

theorem sum_weighted_near (L : List (Poly × Geometry)) (w : Poly × Geometry → ℝ) (F G : Poly × Geometry → ℝ) {B : ℝ}
    (hB : ∀ x ∈ L, |F x - G x| ≤ vertexCount x.1 * B) :
    |(L.map fun x => w x * F x).sum - (L.map fun x => w x * G x).sum| ≤ (L.map fun x => |w x| * vertexCount x.1).sum * B := by
  induction L with
  | nil => simp
  | cons a L ih =>
    have h1 := ih fun b hb => hB b (List.mem_cons_of_mem _ hb)
    have h2 := hB a (List.mem_cons_self ..)
    simp only [List.map_cons, List.sum_cons]
    rw [show w a * F a + (L.map fun x => w x * F x).sum - (w a * G a + (L.map fun x => w x * G x).sum)
      = w a * (F a - G a) + ((L.map fun x => w x * F x).sum - (L.map fun x => w x * G x).sum) by ring]
    refine (abs_add_le _ _).trans ?_
    rw [abs_mul, add_mul]
    have h3 := mul_le_mul_of_nonneg_left h2 (abs_nonneg (w a))
    linarith [mul_assoc |w a| (vertexCount a.1 : ℝ) B]

/-- Edge sums of the geometries, weighted, and what was drawn. -/
theorem drawn_near {B : ℝ} {f : ℝ × ℝ → ℝ × ℝ → ℝ} {F : ℝ × ℝ → ℝ} (hh : 0 ≤ h) (hf : StableTerm c h (1 / 2 / 10 ^ tol) B f)
    (hF : ∀ x ∈ parts, ∫ q in polyRegion x.1, F q = edgeSum (polyEdges x.1) f)
    (hg : ∀ x ∈ parts, ∃ ops m cp, x.2 = mkGeometry ops x.1 m cp tol)
    (hsq : ∀ x ∈ parts, InSquare c (h - 1 / 2 / 10 ^ tol) x.1) (hb : ∀ x ∈ parts, NotTiny tol h x.1) (prop : Material → ℝ) :
    |((parts.map Prod.snd).map fun g => prop g.material * edgeSum (polyEdges g.poly) f).sum - drawn parts prop F|
      ≤ weightedCount parts prop * B := by
  rw [List.map_map, drawn]
  refine sum_weighted_near parts (fun x => prop x.2.material) (fun x => edgeSum (polyEdges x.2.poly) f) (fun x => ∫ q in polyRegion x.1, F q)
    fun x hx => ?_
  obtain ⟨ops, m, cp, e⟩ := hg x hx
  rw [hF x hx, e]
  exact round_edges_near hh hf (hsq x hx) (hb x hx)

theorem sum_geoms' (geoms : List Geometry) (prop : Material → ℝ) (F : List DirEdge → ℝ) :
    ∑ i : Fin geoms.length, prop geoms[i].material * F (geomEdges geoms i) = (geoms.map fun g => prop g.material * F (polyEdges g.poly)).sum :=
  sum_geoms geoms fun g => prop g.material * F (polyEdges g.poly)

/-- **C96** Area, mass, axial rigidity and the first and second moments about any point `c` of a section, against the integrals over the
polygons from which its geometries were made. -/
theorem C96_sums (hr : s.geometricAnalysis = .ok r) (hp : ∀ t ∈ s.elements, Proper t.coords) (hno : NoOverlap s.elements)
    (hm : Meshes s.elements (parts.map Prod.snd)) (hg : ∀ x ∈ parts, ∃ ops m cp, x.2 = mkGeometry ops x.1 m cp tol)
    (hv : ∀ x ∈ parts, ValidPoly x.1) (hh : 0 ≤ h) (hsq : ∀ x ∈ parts, InSquare c (h - 1 / 2 / 10 ^ tol) x.1)
    (hb : ∀ x ∈ parts, NotTiny tol h x.1) :
    |r.sums.area - drawn parts (fun _ => 1) fun _ => 1| ≤ weightedCount parts (fun _ => 1) * h / 10 ^ tol ∧
    |r.sums.mass - drawn parts Material.density fun _ => 1| ≤ weightedCount parts Material.density * h / 10 ^ tol ∧
    |r.sums.ea - drawn parts Material.elasticModulus fun _ => 1| ≤ weightedCount parts Material.elasticModulus * h / 10 ^ tol ∧
    |r.sums.qx - c.2 * r.sums.ea - drawn parts Material.elasticModulus fun q => q.2 - c.2|
      ≤ weightedCount parts Material.elasticModulus * h ^ 2 / 10 ^ tol ∧
    |r.sums.qy - c.1 * r.sums.ea - drawn parts Material.elasticModulus fun q => q.1 - c.1|
      ≤ weightedCount parts Material.elasticModulus * h ^ 2 / 10 ^ tol ∧
    |r.sums.ixxG - 2 * c.2 * r.sums.qx + c.2 ^ 2 * r.sums.ea - drawn parts Material.elasticModulus fun q => (q.2 - c.2) ^ 2|
      ≤ weightedCount parts Material.elasticModulus * h ^ 3 / 10 ^ tol ∧
    |r.sums.iyyG - 2 * c.1 * r.sums.qy + c.1 ^ 2 * r.sums.ea - drawn parts Material.elasticModulus fun q => (q.1 - c.1) ^ 2|
      ≤ weightedCount parts Material.elasticModulus * h ^ 3 / 10 ^ tol ∧
    |r.sums.ixyG - c.1 * r.sums.qx - c.2 * r.sums.qy + c.1 * c.2 * r.sums.ea
        - drawn parts Material.elasticModulus fun q => (q.1 - c.1) * (q.2 - c.2)|
      ≤ weightedCount parts Material.elasticModulus * h ^ 3 / 10 ^ tol := by
  have hd : (0 : ℝ) ≤ 1 / 2 / 10 ^ tol := by have := pow10_pos tol; positivity
  obtain ⟨s1, s2, -⟩ := C89_geometry hr hp hno hm
  obtain ⟨-, s3, s4, s5, s6, s7, s8⟩ := C89_sums hr hp hno (meshes_zones hm) (meshes_inZones hm Material.elasticModulus)
  rw [sum_geoms' _ _ outlineArea] at s3
  rw [sum_geoms' _ _ outlineQx] at s4
  rw [sum_geoms' _ _ outlineQy] at s5
  rw [sum_geoms' _ _ outlineIxx] at s6
  rw [sum_geoms' _ _ outlineIyy] at s7
  rw [sum_geoms' _ _ outlineIxy] at s8
  have k := fun x hx => poly_moments (hv x hx) c
  have key := fun (L : List Geometry) (F0 F1 F2 F3 G : Geometry → ℝ) (k1 k2 k3 : ℝ)
      (e : ∀ g, G g = F0 g + k1 * F1 g + k2 * F2 g + k3 * F3 g) =>
    show (L.map fun g => g.material.elasticModulus * G g).sum
      = (L.map fun g => g.material.elasticModulus * F0 g).sum + k1 * (L.map fun g => g.material.elasticModulus * F1 g).sum
        + k2 * (L.map fun g => g.material.elasticModulus * F2 g).sum + k3 * (L.map fun g => g.material.elasticModulus * F3 g).sum from by
      induction L with
      | nil => simp
      | cons a L ih => rw [List.map_cons, List.sum_cons, ih]; simp only [List.map_cons, List.sum_cons, e a]; ring
  have d1 := fun prop => drawn_near hh (areaTerm_stable hh hd) (fun x hx => (k x hx).1) hg hsq hb prop
  have d2 := drawn_near hh (qxTerm_stable hh hd) (fun x hx => (k x hx).2.1) hg hsq hb Material.elasticModulus
  have d3 := drawn_near hh (qyTerm_stable hh hd) (fun x hx => (k x hx).2.2.1) hg hsq hb Material.elasticModulus
  have d4 := drawn_near hh (ixxTerm_stable hh hd) (fun x hx => (k x hx).2.2.2.1) hg hsq hb Material.elasticModulus
  have d5 := drawn_near hh (iyyTerm_stable hh hd) (fun x hx => (k x hx).2.2.2.2.1) hg hsq hb Material.elasticModulus
  have d6 := drawn_near hh (ixyTerm_stable hh hd) (fun x hx => (k x hx).2.2.2.2.2) hg hsq hb Material.elasticModulus
  have bB : ∀ (W : ℝ) (j : ℕ), W * (2 * h ^ j * (1 / 2 / 10 ^ tol)) = W * h ^ j / 10 ^ tol := fun W j => by
    have := (pow10_pos tol).ne'
    field_simp
  have bB1 : ∀ W : ℝ, W * (2 * h * (1 / 2 / 10 ^ tol)) = W * h / 10 ^ tol := fun W => by simpa using bB W 1
  simp only [bB1, bB, areaTerm_sum (closed_poly _), qxTerm_sum (closed_poly _), qyTerm_sum (closed_poly _), ixxTerm_sum (closed_poly _),
    iyyTerm_sum (closed_poly _), ixyTerm_sum (closed_poly _)] at d1 d2 d3 d4 d5 d6
  refine ⟨?_, ?_, ?_, ?_, ?_, ?_, ?_, ?_⟩
  · have := d1 fun _ => 1
    simp only [one_mul, outlineArea_poly] at this
    rw [s1]
    exact this
  · have := d1 Material.density
    simp only [outlineArea_poly] at this
    rw [s2]
    exact this
  · rw [s3]
    exact d1 _
  · rw [key _ (fun g => outlineQx (polyEdges g.poly)) (fun g => outlineArea (polyEdges g.poly)) (fun _ => 0) (fun _ => 0) _ (-c.2) 0 0
      fun g => by ring, ← s4, ← s3] at d2
    convert d2 using 3
    ring
  · rw [key _ (fun g => outlineQy (polyEdges g.poly)) (fun g => outlineArea (polyEdges g.poly)) (fun _ => 0) (fun _ => 0) _ (-c.1) 0 0
      fun g => by ring, ← s5, ← s3] at d3
    convert d3 using 3
    ring
  · rw [key _ (fun g => outlineIxx (polyEdges g.poly)) (fun g => outlineQx (polyEdges g.poly)) (fun g => outlineArea (polyEdges g.poly))
      (fun _ => 0) _ (-(2 * c.2)) (c.2 ^ 2) 0 fun g => by ring, ← s6, ← s4, ← s3] at d4
    convert d4 using 3
    ring
  · rw [key _ (fun g => outlineIyy (polyEdges g.poly)) (fun g => outlineQy (polyEdges g.poly)) (fun g => outlineArea (polyEdges g.poly))
      (fun _ => 0) _ (-(2 * c.1)) (c.1 ^ 2) 0 fun g => by ring, ← s7, ← s5, ← s3] at d5
    convert d5 using 3
    ring
  · rw [key _ (fun g => outlineIxy (polyEdges g.poly)) (fun g => outlineQx (polyEdges g.poly)) (fun g => outlineQy (polyEdges g.poly))
      (fun g => outlineArea (polyEdges g.poly)) _ (-c.1) (-c.2) (c.1 * c.2) fun g => by ring, ← s8, ← s4, ← s5, ← s3] at d6
    convert d6 using 3
    ring

/-- **C96** The centroid and the second moments about it, if `c` is the centroid of what was drawn. -/
theorem C96_centroidal (hr : s.geometricAnalysis = .ok r) (hP : Physical s.elements) (hno : NoOverlap s.elements)
    (hm : Meshes s.elements (parts.map Prod.snd)) (hg : ∀ x ∈ parts, ∃ ops m cp, x.2 = mkGeometry ops x.1 m cp tol)
    (hv : ∀ x ∈ parts, ValidPoly x.1) (hh : 0 ≤ h) (hsq : ∀ x ∈ parts, InSquare c (h - 1 / 2 / 10 ^ tol) x.1)
    (hb : ∀ x ∈ parts, NotTiny tol h x.1) {N EA : ℝ} (hN : N = weightedCount parts Material.elasticModulus)
    (hEA : EA = drawn parts Material.elasticModulus (fun _ => 1) - N * h / 10 ^ tol) (hpos : 0 < EA)
    (hx : drawn parts Material.elasticModulus (fun q => q.1 - c.1) = 0) (hy : drawn parts Material.elasticModulus (fun q => q.2 - c.2) = 0) :
    |r.cx - c.1| ≤ N * h ^ 2 / 10 ^ tol / EA ∧ |r.cy - c.2| ≤ N * h ^ 2 / 10 ^ tol / EA ∧
    |r.cent.ixxC - drawn parts Material.elasticModulus fun q => (q.2 - c.2) ^ 2|
      ≤ N * h ^ 3 / 10 ^ tol + (N * h ^ 2 / 10 ^ tol) ^ 2 / EA ∧
    |r.cent.iyyC - drawn parts Material.elasticModulus fun q => (q.1 - c.1) ^ 2|
      ≤ N * h ^ 3 / 10 ^ tol + (N * h ^ 2 / 10 ^ tol) ^ 2 / EA ∧
    |r.cent.ixyC - drawn parts Material.elasticModulus fun q => (q.1 - c.1) * (q.2 - c.2)|
      ≤ N * h ^ 3 / 10 ^ tol + (N * h ^ 2 / 10 ^ tol) ^ 2 / EA := by
  obtain ⟨-, -, t3, t4, t5, t6, t7, t8⟩ := C96_sums hr hP.proper hno hm hg hv hh hsq hb
  obtain ⟨-, s3, s4, s5, s6, s7, s8⟩ := C89_sums hr hP.proper hno (meshes_zones hm) (meshes_inZones hm Material.elasticModulus)
  obtain ⟨u1, u2, u3, u4, u5⟩ := C89_centroidal hr hP hno (meshes_zones hm) (meshes_inZones hm Material.elasticModulus)
  rw [← s3] at u1 u2
  rw [← s5] at u1
  rw [← s4] at u2
  simp only [mul_add, mul_sub, mul_left_comm, Finset.sum_add_distrib, Finset.sum_sub_distrib] at u3 u4 u5
  simp only [← Finset.mul_sum] at u3 u4 u5
  rw [← s3, ← s4, ← s6] at u3
  rw [← s3, ← s5, ← s7] at u4
  rw [← s3, ← s4, ← s5, ← s8] at u5
  rw [hx, sub_zero] at t5
  rw [hy, sub_zero] at t4
  rw [← hN] at t3 t4 t5 t6 t7 t8
  have hea : EA ≤ r.sums.ea := by
    have := (abs_le.1 t3).1
    linarith
  have h0 : 0 < r.sums.ea := hpos.trans_le hea
  have ex : r.sums.qy = r.cx * r.sums.ea := by rw [u1]; field_simp
  have ey : r.sums.qx = r.cy * r.sums.ea := by rw [u2]; field_simp
  rw [ex, ← sub_mul, abs_mul, abs_of_pos h0] at t5
  rw [ey, ← sub_mul, abs_mul, abs_of_pos h0] at t4
  set b := N * h ^ 2 / 10 ^ tol with hbdef
  have b0 : 0 ≤ b := (by positivity : (0 : ℝ) ≤ |r.cy - c.2| * r.sums.ea).trans t4
  have cx : |r.cx - c.1| ≤ b / r.sums.ea := (le_div_iff₀ h0).2 t5
  have cy : |r.cy - c.2| ≤ b / r.sums.ea := (le_div_iff₀ h0).2 t4
  have hle : b / r.sums.ea ≤ b / EA := div_le_div_of_nonneg_left b0 hpos hea
  have prod : ∀ u v : ℝ, |u| ≤ b / r.sums.ea → |v| * r.sums.ea ≤ b → |r.sums.ea * (u * v)| ≤ b ^ 2 / EA := by
    intro u v hu hv
    rw [abs_mul, abs_mul, abs_of_pos h0]
    calc r.sums.ea * (|u| * |v|) = |u| * (|v| * r.sums.ea) := by ring
      _ ≤ b / r.sums.ea * b := mul_le_mul hu hv (by positivity) (by positivity)
      _ ≤ b / EA * b := mul_le_mul_of_nonneg_right hle b0
      _ = b ^ 2 / EA := by ring
  have fin : ∀ X D Y : ℝ, |X + D - Y| ≤ N * h ^ 3 / 10 ^ tol → |D| ≤ b ^ 2 / EA → |X - Y| ≤ N * h ^ 3 / 10 ^ tol + b ^ 2 / EA := by
    intro X D Y e1 e2
    rw [show X - Y = (X + D - Y) - D by ring]
    exact (abs_sub _ _).trans (add_le_add e1 e2)
  refine ⟨cx.trans hle, cy.trans hle, ?_, ?_, ?_⟩
  · refine fin _ (r.sums.ea * ((r.cy - c.2) * (r.cy - c.2))) _ ?_ (prod _ _ cy t4)
    convert t6 using 3
    rw [u3, ey]; ring
  · refine fin _ (r.sums.ea * ((r.cx - c.1) * (r.cx - c.1))) _ ?_ (prod _ _ cx t5)
    convert t7 using 3
    rw [u4, ex]; ring
  · refine fin _ (r.sums.ea * ((r.cx - c.1) * (r.cy - c.2))) _ ?_ (prod _ _ cx t4)
    convert t8 using 3
    rw [u5, ex, ey]; ring

/-! ### Round sections of the library -/

theorem ellipse_inSquare {dx dy : ℝ} (hx : 0 < dx) (hy : 0 < dy) {n : ℕ} {k : ℝ} (h1 : dx / 2 ≤ k) (h2 : dy / 2 ≤ k) :
    InSquare (0, 0) k ⟨ellipsePts dx dy n, []⟩ := by
  intro r hr v hv
  simp only [rings, List.mem_cons, List.not_mem_nil, or_false] at hr
  subst hr
  rw [ellipsePts_eq] at hv
  obtain ⟨i, -, rfl⟩ := List.mem_map.1 hv
  simp only [ellipsePt, sub_zero, abs_mul, abs_of_pos (half_pos hx), abs_of_pos (half_pos hy)]
  exact ⟨(mul_le_of_le_one_right (half_pos hx).le (Real.abs_cos_le_one _)).trans h1,
    (mul_le_of_le_one_right (half_pos hy).le (Real.abs_sin_le_one _)).trans h2⟩

/-- **C96** What `elliptical_section` (and, with `dx = dy`, `circular_section`) leads to, for every mesh of the geometry as it is after
rounding to 12 decimals: area, centroid and second moments are those of the polygon with vertices on the ellipse, up to these amounts. -/
theorem C96_elliptical (hr : s.geometricAnalysis = .ok r) (hP : Physical s.elements) (hno : NoOverlap s.elements) {dx dy : ℝ} (hx : 0 < dx)
    (hy : 0 < dy) {n : ℕ} (hn : 3 ≤ n) {ops : GeomOps} {m : Material} (hm : Meshes s.elements [ellipticalSection ops dx dy n m])
    (hE : 0 < m.elasticModulus) (hhx : dx / 2 + 1 / 2 / 10 ^ 12 ≤ h) (hhy : dy / 2 + 1 / 2 / 10 ^ 12 ≤ h) {A b : ℝ}
    (hA : A = n * Real.sin (2 * Real.pi / n) / 2 * (dx / 2) * (dy / 2)) (hb : b = n * h / 10 ^ 12) (hbA : b < A) :
    |r.sums.area - A| ≤ b ∧ |r.cx| ≤ b * h / (A - b) ∧ |r.cy| ≤ b * h / (A - b) ∧
    |r.cent.ixxC - m.elasticModulus * (n * Real.sin (2 * Real.pi / n) * (2 + Real.cos (2 * Real.pi / n)) / 24 * (dx / 2) * (dy / 2) ^ 3)|
      ≤ m.elasticModulus * (b * h ^ 2 + (b * h) ^ 2 / (A - b)) ∧
    |r.cent.iyyC - m.elasticModulus * (n * Real.sin (2 * Real.pi / n) * (2 + Real.cos (2 * Real.pi / n)) / 24 * (dx / 2) ^ 3 * (dy / 2))|
      ≤ m.elasticModulus * (b * h ^ 2 + (b * h) ^ 2 / (A - b)) ∧
    |r.cent.ixyC| ≤ m.elasticModulus * (b * h ^ 2 + (b * h) ^ 2 / (A - b)) := by
  set p : Poly := ⟨ellipsePts dx dy n, []⟩ with hp
  set E := m.elasticModulus with hEdef
  have hh : 0 ≤ h := by
    have : (0 : ℝ) < 1 / 2 / 10 ^ 12 := by positivity
    linarith
  have hv : ValidPoly p := ellipse_valid hx hy hn
  have he : polyEdges p = closedEdges (ellipsePts dx dy n) := by
    rw [polyEdges, sign_pos (ellipse_ring_pos hx hy hn)]
    simp [orient, hp]
  obtain ⟨a1, a2, a3, a4, a5, a6⟩ := ellipse_sums dx dy hn
  obtain ⟨m1, m2, m3, m4, m5, m6⟩ := poly_moments hv (0, 0)
  have hc := closed_poly p
  rw [areaTerm_sum hc, he, a1] at m1
  rw [qxTerm_sum hc, he, a1, a2] at m2
  rw [qyTerm_sum hc, he, a1, a3] at m3
  rw [ixxTerm_sum hc, he, a1, a2, a4] at m4
  rw [iyyTerm_sum hc, he, a1, a3, a5] at m5
  rw [ixyTerm_sum hc, he, a1, a2, a3, a6] at m6
  have hlen : (ellipsePts dx dy n).length = n := by simp [ellipsePts]
  have hcount : vertexCount p = n := by simp [vertexCount, rings, hp, hlen]
  have hg : (ellipticalSection ops dx dy n m).material = m := rfl
  have hpos : 0 < A := by
    have := sin_pos_n hn
    have hn' : (0 : ℝ) < n := by exact_mod_cast (by omega : 0 < n)
    rw [hA]; positivity
  have hA' : outlineArea (closedEdges (ellipsePts dx dy n)) = A := by rw [a1, hA]; ring
  have H1 : ∀ x ∈ [(p, ellipticalSection ops dx dy n m)], ∃ ops m cp, x.2 = mkGeometry ops x.1 m cp 12 := by
    simp only [List.mem_singleton, forall_eq]
    exact ⟨ops, m, none, rfl⟩
  have H2 : ∀ x ∈ [(p, ellipticalSection ops dx dy n m)], ValidPoly x.1 := by simpa using hv
  have H3 : ∀ x ∈ [(p, ellipticalSection ops dx dy n m)], InSquare (0, 0) (h - 1 / 2 / 10 ^ 12) x.1 := by
    simp only [List.mem_singleton, forall_eq]
    exact ellipse_inSquare hx hy (by linarith) (by linarith)
  have H4 : ∀ x ∈ [(p, ellipticalSection ops dx dy n m)], NotTiny 12 h x.1 := by
    simp only [List.mem_singleton, forall_eq]
    intro q hq
    simp only [rings, hp, List.mem_cons, List.not_mem_nil, or_false] at hq
    rw [hq, hlen, hA', abs_of_pos hpos, ← hb]
    exact hbA
  have hd : ∀ (prop : Material → ℝ) (f : ℝ × ℝ → ℝ), drawn [(p, ellipticalSection ops dx dy n m)] prop f = prop m * ∫ q in polyRegion p, f q := by
    intro prop f
    simp [drawn, hg]
  have hw : ∀ prop : Material → ℝ, weightedCount [(p, ellipticalSection ops dx dy n m)] prop = |prop m| * n := by
    intro prop
    simp [weightedCount, hg, hcount]
  obtain ⟨s1, -⟩ := C96_sums (c := (0, 0)) hr hP.proper hno (parts := [(p, ellipticalSection ops dx dy n m)]) hm H1 H2 hh H3 H4
  obtain ⟨c1, c2, c3, c4, c5⟩ := C96_centroidal (c := (0, 0)) hr hP hno (parts := [(p, ellipticalSection ops dx dy n m)]) hm H1 H2 hh H3 H4
    (N := E * n) (EA := E * (A - b)) (by rw [hw, abs_of_pos hE]) (by rw [hd, m1, hb, hA]; ring) (mul_pos hE (by linarith))
    (by rw [hd, m3]; simp) (by rw [hd, m2]; simp)
  rw [hd, hw, m1] at s1
  rw [hd, m4] at c3
  rw [hd, m5] at c4
  rw [hd, m6] at c5
  have hAb : A - b ≠ 0 := (sub_pos.2 hbA).ne'
  have e1 : E * n * h ^ 2 / 10 ^ 12 / (E * (A - b)) = b * h / (A - b) := by
    rw [hb] at hAb ⊢
    field_simp
  have e2 : E * n * h ^ 3 / 10 ^ 12 + (E * n * h ^ 2 / 10 ^ 12) ^ 2 / (E * (A - b)) = E * (b * h ^ 2 + (b * h) ^ 2 / (A - b)) := by
    rw [show E * n * h ^ 2 / 10 ^ 12 = E * (b * h) by rw [hb]; ring, show E * n * h ^ 3 / 10 ^ 12 = E * (b * h ^ 2) by rw [hb]; ring]
    field_simp
  rw [e1, sub_zero] at c1 c2
  rw [e2] at c3 c4 c5
  refine ⟨?_, c1, c2, ?_, ?_, ?_⟩
  · convert s1 using 2
    · rw [hA]; ring_nf
    · rw [hb]; simp
  · convert c3 using 2
    simp only [hEdef]; ring
  · convert c4 using 2
    simp only [hEdef]; ring
  · convert c5 using 2
    simp

/-! ### An example -/

/-- A triangle whose corners are not integers; rounded to integers it has the corners `(0, 0)`, `(10, 0)` and `(0, 10)`. -/
noncomputable def looseTriangle : ℕ → ℝ × ℝ
  | 0 => (3 / 10, 3 / 10)
  | 1 => (99 / 10, - 3 / 10)
  | _ => (- 3 / 10, 99 / 10)

noncomputable def loosePoly : Poly := ⟨(List.range 3).map looseTriangle, []⟩

theorem roundTo_zero {x : ℝ} {k : ℤ} (h : |(k : ℝ) - x| < 1 / 2) : roundTo 0 x = k := by
  rw [roundTo, pow_zero, mul_one, div_one, rint_unique h]

theorem loose_round : roundPoly 0 loosePoly = ⟨[(0, 0), (10, 0), (0, 10)], []⟩ := by
  have r1 : roundTo 0 (3 / 10) = 0 := by simpa using roundTo_zero (x := 3 / 10) (k := 0) (by norm_num [abs_lt])
  have r2 : roundTo 0 (- 3 / 10) = 0 := by simpa using roundTo_zero (x := - 3 / 10) (k := 0) (by norm_num [abs_lt])
  have r3 : roundTo 0 (99 / 10) = 10 := by simpa using roundTo_zero (x := 99 / 10) (k := 10) (by norm_num [abs_lt])
  simp [roundPoly, loosePoly, Poly.map, looseTriangle, List.range_succ, roundPt, r1, r2, r3]

theorem loose_area : outlineArea (closedEdges ((List.range 3).map looseTriangle)) = 459 / 10 := by
  simp [outlineArea, edgeSum, closedEdges, looseTriangle, List.range_succ, cross]
  norm_num

theorem loose_valid : ValidPoly loosePoly where
  exterior := ⟨1, by
    have := convex_simple (v := looseTriangle) (m := 2) (by
      intro i j k h1 h2 h3
      obtain rfl : k = 2 := by omega
      obtain rfl : j = 1 := by omega
      obtain rfl : i = 0 := by omega
      norm_num [signedArea2, looseTriangle]) le_rfl
    filter_upwards [this] with p hp
    exact hp.imp_right fun h => ⟨h, by norm_num⟩⟩
  interiors := by simp [loosePoly]
  within := by simp [loosePoly]
  apart := by simp [loosePoly]

theorem loose_edges : polyEdges loosePoly = closedEdges ((List.range 3).map looseTriangle) := by
  have : 0 < ringArea2 loosePoly.exterior := by
    rw [ringArea2_outline, loosePoly, loose_area]; norm_num
  rw [polyEdges, sign_pos this]
  simp [orient, loosePoly]

/-- The whole chain for this triangle: a section with one element, made from the rounded geometry, against the triangle as drawn. -/
example (ops : GeomOps) : ∃ r, (cornersSection [((0, 0), (10, 0), (0, 10))] defaultMaterial).geometricAnalysis = .ok r ∧
    |r.sums.area - 459 / 10| ≤ 213 / 10 ∧ |r.cx - 33 / 10| ≤ 3 * (71 / 10) ^ 2 / (246 / 10) ∧
    |r.cent.ixxC - drawn [(loosePoly, mkGeometry ops loosePoly defaultMaterial none 0)] Material.elasticModulus fun q => (q.2 - 33 / 10) ^ 2|
      ≤ 3 * (71 / 10) ^ 3 + (3 * (71 / 10) ^ 2) ^ 2 / (246 / 10) := by
  obtain ⟨r, hr⟩ := cornersSection_analysis (T := [((0, 0), (10, 0), (0, 10))]) defaultMaterial (by simp)
  set g := mkGeometry ops loosePoly defaultMaterial none 0 with hg
  have hpoly : g.poly = ⟨[(0, 0), (10, 0), (0, 10)], []⟩ := loose_round
  have hvalid : ValidPoly ⟨[(0, 0), (10, 0), (0, 10)], []⟩ := by
    refine ⟨⟨1, ?_⟩, by simp, by simp, by simp⟩
    have := convex_simple (v := fun i => if i = 0 then ((0 : ℝ), (0 : ℝ)) else if i = 1 then (10, 0) else (0, 10)) (m := 2) (by
      intro i j k h1 h2 h3
      obtain rfl : k = 2 := by omega
      obtain rfl : j = 1 := by omega
      obtain rfl : i = 0 := by omega
      norm_num [signedArea2]) le_rfl
    simp [List.range_succ] at this
    filter_upwards [this] with p hp
    exact hp.imp_right fun h => ⟨h, by norm_num⟩
  have harea : 0 < ringArea2 [((0 : ℝ), (0 : ℝ)), (10, 0), (0, 10)] := by norm_num [ringArea2, ringEdges]
  obtain ⟨hP, hno, hm, -⟩ := cornersSection_fills (T := [((0, 0), (10, 0), (0, 10))]) (m := defaultMaterial) (inner := []) (g := g)
    (by norm_num [signedArea2]) hvalid (by
      rw [polyOutline, ringCCW_pos harea]
      simp [closedEdges, cornerEdges]) hpoly rfl (by simp) (by norm_num [defaultMaterial])
  have H1 : ∀ x ∈ [(loosePoly, g)], ∃ ops m cp, x.2 = mkGeometry ops x.1 m cp 0 := by
    simp only [List.mem_singleton, forall_eq]
    exact ⟨ops, defaultMaterial, none, rfl⟩
  have H2 : ∀ x ∈ [(loosePoly, g)], ValidPoly x.1 := by simpa using loose_valid
  have H3 : ∀ x ∈ [(loosePoly, g)], InSquare (33 / 10, 33 / 10) (71 / 10 - 1 / 2 / 10 ^ 0) x.1 := by
    simp only [List.mem_singleton, forall_eq]
    intro r hr v hv
    simp only [rings, loosePoly, List.mem_cons, List.not_mem_nil, or_false] at hr
    subst hr
    simp only [List.range_succ, List.range_zero, List.nil_append, List.cons_append, List.map_cons, List.map_nil, List.mem_cons,
      List.not_mem_nil, or_false] at hv
    rcases hv with rfl | rfl | rfl <;> norm_num [looseTriangle, abs_le]
  have H4 : ∀ x ∈ [(loosePoly, g)], NotTiny 0 (71 / 10) x.1 := by
    simp only [List.mem_singleton, forall_eq]
    intro r hr
    simp only [rings, loosePoly, List.mem_cons, List.not_mem_nil, or_false] at hr
    subst hr
    rw [loose_area]
    norm_num [abs_of_pos]
  have hcount : vertexCount loosePoly = 3 := by simp [vertexCount, rings, loosePoly]
  obtain ⟨m1, m2, m3, -⟩ := poly_moments loose_valid (33 / 10, 33 / 10)
  rw [areaTerm_sum (closed_poly _), loose_edges, loose_area] at m1
  have z1 : edgeSum (polyEdges loosePoly) (qxTerm (33 / 10, 33 / 10)) = 0 := by
    rw [loose_edges]
    simp [edgeSum, closedEdges, looseTriangle, List.range_succ, cross, qxTerm]
    norm_num
  have z2 : edgeSum (polyEdges loosePoly) (qyTerm (33 / 10, 33 / 10)) = 0 := by
    rw [loose_edges]
    simp [edgeSum, closedEdges, looseTriangle, List.range_succ, cross, qyTerm]
    norm_num
  have hgm : g.material = defaultMaterial := rfl
  have hE : defaultMaterial.elasticModulus = 1 := rfl
  obtain ⟨s1, -⟩ := C96_sums (c := (33 / 10, 33 / 10)) (h := 71 / 10) hr hP.proper hno (parts := [(loosePoly, g)]) hm H1 H2 (by norm_num) H3 H4
  obtain ⟨c1, -, c3, -⟩ := C96_centroidal (c := (33 / 10, 33 / 10)) (h := 71 / 10) hr hP hno (parts := [(loosePoly, g)]) hm H1 H2
    (by norm_num) H3 H4 (N := 3) (EA := 246 / 10) (by simp [weightedCount, hgm, hE, hcount])
    (by simp only [drawn, hgm, hE, List.map_cons, List.map_nil, List.sum_cons, List.sum_nil, m1]; norm_num) (by norm_num)
    (by simp only [drawn, List.map_cons, List.map_nil, List.sum_cons, List.sum_nil, m3, z2]; norm_num)
    (by simp only [drawn, List.map_cons, List.map_nil, List.sum_cons, List.sum_nil, m2, z1]; norm_num)
  refine ⟨r, hr, ?_, ?_, ?_⟩
  · simp only [drawn, weightedCount, List.map_cons, List.map_nil, List.sum_cons, List.sum_nil, m1, hcount] at s1
    norm_num at s1 ⊢
    exact s1
  · norm_num at c1 ⊢
    exact c1
  · norm_num at c3 ⊢
    exact c3

end SP
