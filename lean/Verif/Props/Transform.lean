import Verif.Lemmas.Affine
import Mathlib.Analysis.SpecialFunctions.Trigonometric.Angle
import Mathlib.MeasureTheory.Measure.Lebesgue.EqHaar

/-!
# C12 (extreme fibres of the region), C06, C07, C08
-/

namespace SP

open Spec MeasureTheory

/-! ### Extreme fibres are those of the region, not only of the nodes -/

/-- Signed distance of a point from the centroidal axis. -/
noncomputable def fibreAt (r : GeomResults) (p : ℝ × ℝ) : Axis → ℝ
  | .xx => p.2 - r.cy
  | .yy => p.1 - r.cx
  | .a11 => rotY r.cent.phi (p.1 - r.cx) (p.2 - r.cy)
  | .a22 => rotX r.cent.phi (p.1 - r.cx) (p.2 - r.cy)

theorem fibre_eq (s : Section) (r : GeomResults) (i : Fin s.numNodes) (a : Axis) :
    fibre s r i a = fibreAt r (s.meshNodes i) a := by cases a <;> rfl

theorem fibreAt_affine (r : GeomResults) (a : Axis) :
    ∃ u v k : ℝ, ∀ p, fibreAt r p a = u * p.1 + v * p.2 + k := by
  cases a with
  | xx => exact ⟨0, 1, -r.cy, fun p => by simp only [fibreAt]; ring⟩
  | yy => exact ⟨1, 0, -r.cx, fun p => by simp only [fibreAt]; ring⟩
  | a11 =>
    refine ⟨-Real.sin (r.cent.phi * Real.pi / 180), Real.cos (r.cent.phi * Real.pi / 180),
      rotY r.cent.phi (-r.cx) (-r.cy), fun p => ?_⟩
    simp only [fibreAt, rotY]; ring
  | a22 =>
    refine ⟨Real.cos (r.cent.phi * Real.pi / 180), Real.sin (r.cent.phi * Real.pi / 180),
      rotX r.cent.phi (-r.cx) (-r.cy), fun p => ?_⟩
    simp only [fibreAt, rotX]; ring

/-- Every mesh node belongs to an element. -/
def NodesUsed (s : Section) : Prop := ∀ i, ∃ t ∈ s.elements, ∃ k, t.nodeIds k = i

theorem node_mem_region {c : Coords} (hs : Straight c) (k : Fin 6) : (c.x k, c.y k) ∈ elemRegion c := by
  rw [elemRegion, Spec.triangle, convexHull_triple_eq_image]
  obtain ⟨h1, h2, h3, h4, h5, h6⟩ := hs
  fin_cases k
  · exact ⟨(1, 0), by norm_num [stdTri], by simp [triMap, cornerA, cornerB, cornerC]⟩
  · exact ⟨(0, 1), by norm_num [stdTri], by simp [triMap, cornerA, cornerB, cornerC]⟩
  · exact ⟨(0, 0), by norm_num [stdTri], by simp [triMap, cornerA, cornerB, cornerC]⟩
  · refine ⟨(1 / 2, 1 / 2), by norm_num [stdTri], ?_⟩
    simp only [triMap, cornerA, cornerB, cornerC, Prod.mk.injEq]
    exact ⟨by show _ = c.x 3; rw [h1]; ring, by show _ = c.y 3; rw [h4]; ring⟩
  · refine ⟨(0, 1 / 2), by norm_num [stdTri], ?_⟩
    simp only [triMap, cornerA, cornerB, cornerC, Prod.mk.injEq]
    exact ⟨by show _ = c.x 4; rw [h2]; ring, by show _ = c.y 4; rw [h5]; ring⟩
  · refine ⟨(1 / 2, 0), by norm_num [stdTri], ?_⟩
    simp only [triMap, cornerA, cornerB, cornerC, Prod.mk.injEq]
    exact ⟨by show _ = c.x 5; rw [h3]; ring, by show _ = c.y 5; rw [h6]; ring⟩

theorem affine_le_on_region {u v k M : ℝ} {c : Coords}
    (h : ∀ i, u * c.x i + v * c.y i + k ≤ M) {p : ℝ × ℝ} (hp : p ∈ elemRegion c) :
    u * p.1 + v * p.2 + k ≤ M := by
  rw [elemRegion, Spec.triangle, convexHull_triple_eq_image] at hp
  obtain ⟨⟨a, b⟩, ⟨ha, hb, hab⟩, rfl⟩ := hp
  simp only [triMap, cornerA, cornerB, cornerC] at *
  have h0 := h 0
  have h1 := h 1
  have h2 := h 2
  have hc : 0 ≤ 1 - a - b := by linarith
  have := add_le_add (add_le_add (mul_le_mul_of_nonneg_left h0 ha) (mul_le_mul_of_nonneg_left h1 hb))
    (mul_le_mul_of_nonneg_left h2 hc)
  linarith

/-- **C12** (region): the distances used for the section moduli are the extreme distances over the
whole region covered by the mesh. -/
theorem C12_region {s : Section} {r : GeomResults} (hr : s.geometricAnalysis = .ok r)
    (hs : Physical s.elements) (hc : GoodSection s) (hu : NodesUsed s) (a : Axis) :
    ∃ dp dm : ℝ, 0 < dp ∧ 0 < dm ∧
      IsGreatest ((fun p => fibreAt r p a) '' region s.elements) dp ∧
      IsLeast ((fun p => fibreAt r p a) '' region s.elements) (-dm) ∧
      axisZ r a = (axisInertia r a / dp, axisInertia r a / dm) := by
  obtain ⟨dp, dm, hp, hm, ⟨⟨i1, e1⟩, g1⟩, ⟨⟨i2, e2⟩, g2⟩, hz⟩ := C12_moduli hr hs hc a
  have hnode : ∀ i, s.meshNodes i ∈ region s.elements := by
    intro i
    obtain ⟨t, ht, k, rfl⟩ := hu i
    refine ⟨t, ht, ?_⟩
    have := node_mem_region (hc.proper t ht).1 k
    rw [hc.coords t ht] at this ⊢
    exact this
  obtain ⟨u, v, k, haff⟩ := fibreAt_affine r a
  refine ⟨dp, dm, hp, hm, ⟨⟨_, hnode i1, by simp only; rw [← fibre_eq]; exact e1⟩, ?_⟩,
    ⟨⟨_, hnode i2, by simp only; rw [← fibre_eq]; exact e2⟩, ?_⟩, hz⟩
  · rintro _ ⟨p, ⟨t, ht, hpt⟩, rfl⟩
    simp only
    rw [haff]
    refine affine_le_on_region (fun i => ?_) hpt
    have h1 : fibre s r (t.nodeIds i) a ≤ dp := g1 ⟨_, rfl⟩
    rw [fibre_eq, haff] at h1
    rw [hc.coords t ht]
    exact h1
  · rintro _ ⟨p, ⟨t, ht, hpt⟩, rfl⟩
    simp only
    rw [haff]
    have : -u * p.1 + -v * p.2 + -k ≤ dm := by
      refine affine_le_on_region (fun i => ?_) hpt
      have h1 : -dm ≤ fibre s r (t.nodeIds i) a := g2 ⟨_, rfl⟩
      rw [fibre_eq, haff] at h1
      rw [hc.coords t ht]
      simp only [gather]
      linarith
    linarith

/-- Section moduli of two sections whose fibre distances correspond up to a factor `k > 0`. -/
theorem axisZ_of_image {s s' : Section} {r r' : GeomResults} (hr : s.geometricAnalysis = .ok r)
    (hr' : s'.geometricAnalysis = .ok r') (hs : Physical s.elements) (hs' : Physical s'.elements)
    (hc : GoodSection s) (hc' : GoodSection s') (hu : NodesUsed s) (hu' : NodesUsed s')
    {φ : ℝ × ℝ → ℝ × ℝ} (hreg : region s'.elements = φ '' region s.elements) {k m : ℝ} (hk : 0 < k)
    (a : Axis) (hf : ∀ p, fibreAt r' (φ p) a = k * fibreAt r p a)
    (hI : axisInertia r' a = m * k * axisInertia r a) :
    axisZ r' a = (m * (axisZ r a).1, m * (axisZ r a).2) := by
  obtain ⟨dp, dm, hp, hm, g1, g2, hz⟩ := C12_region hr hs hc hu a
  obtain ⟨dp', dm', hp', hm', g1', g2', hz'⟩ := C12_region hr' hs' hc' hu' a
  have himg : (fun p => fibreAt r' p a) '' region s'.elements
      = (fun x => k * x) '' ((fun p => fibreAt r p a) '' region s.elements) := by
    rw [hreg, Set.image_image, Set.image_image]
    simp only [hf]
  have hmono : Monotone fun x : ℝ => k * x := fun x y h => mul_le_mul_of_nonneg_left h hk.le
  have e1 : dp' = k * dp := by
    rw [himg] at g1'
    exact g1'.unique (hmono.map_isGreatest g1)
  have e2 : -dm' = k * -dm := by
    rw [himg] at g2'
    exact g2'.unique (hmono.map_isLeast g2)
  have e3 : dm' = k * dm := by linarith
  rw [hz', hz, e1, e3, hI]
  simp only [Prod.mk.injEq]
  constructor <;> field_simp

/-! ### C06 -/

/-- **C06**: the section translated by `(dx, dy)`, however it is meshed, has its centroid shifted by
exactly that amount and otherwise identical values. -/
theorem C06_translation (dx dy : ℝ) {s s' : Section} {r r' : GeomResults}
    (hr : s.geometricAnalysis = .ok r) (hr' : s'.geometricAnalysis = .ok r')
    (hs : Physical s.elements) (hs' : Physical s'.elements)
    (hno : NoOverlap s.elements) (hno' : NoOverlap s'.elements)
    (him : ImageUnder (translation dx dy) s.elements s'.elements) :
    r'.cx = r.cx + dx ∧ r'.cy = r.cy + dy ∧
    r'.sums.area = r.sums.area ∧ r'.sums.mass = r.sums.mass ∧ r'.sums.ea = r.sums.ea ∧
    r'.sums.ga = r.sums.ga ∧ r'.nuEff = r.nuEff ∧ r'.eEff = r.eEff ∧ r'.gEff = r.gEff ∧
    r'.cent.ixxC = r.cent.ixxC ∧ r'.cent.iyyC = r.cent.iyyC ∧ r'.cent.ixyC = r.cent.ixyC ∧
    r'.cent.i11 = r.cent.i11 ∧ r'.cent.i22 = r.cent.i22 ∧ r'.cent.phi = r.cent.phi ∧
    r'.cent.rx = r.cent.rx ∧ r'.cent.ry = r.cent.ry ∧
    r'.cent.r11 = r.cent.r11 ∧ r'.cent.r22 = r.cent.r22 := by
  have hD : (1 : ℝ) * 1 - 0 * 0 ≠ 0 := by norm_num
  obtain ⟨h1, h2, h3, h4, -⟩ := affine_sums dx dy hD hr hr' hs.proper hs'.proper hno hno' him
  obtain ⟨hc, h5, h6, h7⟩ := affine_cent dx dy hD hr hr' hs hs'.proper hno hno' him
  obtain ⟨-, hcent, n1, n2, n3, -⟩ := geom_ok hr
  obtain ⟨-, hcent', n1', n2', n3', -⟩ := geom_ok hr'
  obtain ⟨c1, c2, c3, c4, c5, c6, c7, c8, c9, c10⟩ := cent_ok hcent
  obtain ⟨d1, d2, d3, d4, d5, d6, d7, d8, d9, d10⟩ := cent_ok hcent'
  have ad : |(1 : ℝ) * 1 - 0 * 0| = 1 := by norm_num
  rw [ad] at h1 h2 h3 h4 h5 h6 h7
  simp only [one_mul, mul_one, zero_mul, mul_zero, add_zero, zero_add, one_pow, ne_eq,
    OfNat.ofNat_ne_zero, not_false_eq_true, zero_pow] at h1 h2 h3 h4 h5 h6 h7
  simp only [affine, Prod.mk.injEq, one_mul, zero_mul, add_zero, zero_add] at hc
  have e1 : r'.sums.ixxC = r.sums.ixxC := by rw [← d1, ← c1, h5]
  have e2 : r'.sums.iyyC = r.sums.iyyC := by rw [← d2, ← c2, h6]
  have e3 : r'.sums.ixyC = r.sums.ixyC := by rw [← d3, ← c3, h7]
  refine ⟨hc.1, hc.2, h1, h2, h3, h4, ?_, ?_, ?_, h5, h6, h7, ?_, ?_, ?_, ?_, ?_, ?_, ?_⟩
  · rw [n1, n1', GeomSums.nuEff, GeomSums.nuEff, h3, h4]
  · rw [n2, n2', GeomSums.eEff, GeomSums.eEff, h3, h1]
  · rw [n3, n3', GeomSums.gEff, GeomSums.gEff, h4, h1]
  · rw [d4, c4, e1, e2, e3]
  · rw [d5, c5, e1, e2, e3]
  · rw [d6, c6, e1, e2, e3]
  · rw [d7, c7, e1, h3]
  · rw [d8, c8, e2, h3]
  · rw [d9, c9, e1, e2, e3, h3]
  · rw [d10, c10, e1, e2, e3, h3]

/-- **C06** (section moduli): all eight section moduli are unchanged. -/
theorem C06_section_moduli (dx dy : ℝ) {s s' : Section} {r r' : GeomResults}
    (hr : s.geometricAnalysis = .ok r) (hr' : s'.geometricAnalysis = .ok r')
    (hs : Physical s.elements) (hs' : Physical s'.elements)
    (hc : GoodSection s) (hc' : GoodSection s') (hu : NodesUsed s) (hu' : NodesUsed s')
    (hno : NoOverlap s.elements) (hno' : NoOverlap s'.elements)
    (him : ImageUnder (translation dx dy) s.elements s'.elements) (a : Axis) :
    axisZ r' a = axisZ r a := by
  obtain ⟨h1, h2, -, -, -, -, -, -, -, h5, h6, h7, h8, h9, h10, -⟩ :=
    C06_translation dx dy hr hr' hs hs' hno hno' him
  have := axisZ_of_image (k := 1) (m := 1) hr hr' hs hs' hc hc' hu hu' him.region one_pos a
    (fun p => by
      cases a <;> simp only [fibreAt, translation, affine, h1, h2, h10] <;> ring_nf)
    (by cases a <;> simp only [axisInertia, h5, h6, h8, h9] <;> ring)
  simpa using this

/-! ### C07 -/

/-- **C07**: rotating the section by any angle `θ` leaves area, mass, rigidities and principal moments
unchanged, rotates the centroid and rotates the centroidal inertia tensor: the second moments of the
rotated section are those of the original one about axes rotated by `-θ`. -/
theorem C07_rotation (θ : ℝ) {s s' : Section} {r r' : GeomResults}
    (hr : s.geometricAnalysis = .ok r) (hr' : s'.geometricAnalysis = .ok r')
    (hs : Physical s.elements) (hs' : Physical s'.elements)
    (hno : NoOverlap s.elements) (hno' : NoOverlap s'.elements)
    (him : ImageUnder (rotation θ) s.elements s'.elements) :
    (r'.cx, r'.cy) = rotation θ (r.cx, r.cy) ∧
    r'.sums.area = r.sums.area ∧ r'.sums.mass = r.sums.mass ∧ r'.sums.ea = r.sums.ea ∧
    r'.cent.ixxC = momentAbout r.cent.ixxC r.cent.iyyC r.cent.ixyC (-θ) ∧
    r'.cent.iyyC = momentAbout r.cent.ixxC r.cent.iyyC r.cent.ixyC (-θ + Real.pi / 2) ∧
    r'.cent.ixyC = productAbout r.cent.ixxC r.cent.iyyC r.cent.ixyC (-θ) ∧
    r'.cent.i11 = r.cent.i11 ∧ r'.cent.i22 = r.cent.i22 ∧
    r'.cent.r11 = r.cent.r11 ∧ r'.cent.r22 = r.cent.r22 := by
  have hsc := Real.sin_sq_add_cos_sq θ
  have hdet : Real.cos θ * Real.cos θ - -Real.sin θ * Real.sin θ = 1 := by linarith
  have hD : Real.cos θ * Real.cos θ - -Real.sin θ * Real.sin θ ≠ 0 := by rw [hdet]; norm_num
  obtain ⟨h1, h2, h3, h4, -⟩ := affine_sums 0 0 hD hr hr' hs.proper hs'.proper hno hno' him
  obtain ⟨hc, h5, h6, h7⟩ := affine_cent 0 0 hD hr hr' hs hs'.proper hno hno' him
  obtain ⟨-, hcent, -⟩ := geom_ok hr
  obtain ⟨-, hcent', -⟩ := geom_ok hr'
  obtain ⟨c1, c2, c3, c4, c5, c6, c7, c8, c9, c10⟩ := cent_ok hcent
  obtain ⟨d1, d2, d3, d4, d5, d6, d7, d8, d9, d10⟩ := cent_ok hcent'
  rw [hdet, abs_one, one_mul] at h1 h2 h3 h4 h5 h6 h7
  have hsum : r'.sums.ixxC + r'.sums.iyyC = r.sums.ixxC + r.sums.iyyC := by
    rw [← d1, ← d2, ← c1, ← c2, h5, h6]
    linear_combination (r.cent.ixxC + r.cent.iyyC) * hsc
  have hmohr : mohrDelta r'.sums.ixxC r'.sums.iyyC r'.sums.ixyC
      = mohrDelta r.sums.ixxC r.sums.iyyC r.sums.ixyC := by
    unfold mohrDelta
    congr 1
    rw [← d1, ← d2, ← d3, ← c1, ← c2, ← c3, h5, h6, h7]
    linear_combination (((r.cent.ixxC - r.cent.iyyC) / 2) ^ 2 + r.cent.ixyC ^ 2)
      * (Real.sin θ ^ 2 + Real.cos θ ^ 2 + 1) * hsc
  have e11 : r'.cent.i11 = r.cent.i11 := by
    rw [d4, c4, i11Of, i11Of, hsum, hmohr]
  have e22 : r'.cent.i22 = r.cent.i22 := by
    rw [d5, c5, i22Of, i22Of, hsum, hmohr]
  refine ⟨hc, h1, h2, h3, ?_, ?_, ?_, e11, e22, ?_, ?_⟩
  · rw [h5, momentAbout, Real.cos_neg, Real.sin_neg]; ring
  · rw [h6, momentAbout, Real.cos_add_pi_div_two, Real.sin_add_pi_div_two, Real.cos_neg,
      Real.sin_neg]; ring
  · rw [h7, productAbout, Real.cos_neg, Real.sin_neg]; ring
  · rw [d9, c9, ← d4, ← c4, e11, h3]
  · rw [d10, c10, ← d5, ← c5, e22, h3]

/-- The double angle of the first principal axis is determined by the tensor. -/
theorem double_angle {a b c θ : ℝ}
    (h : momentAbout a b c θ = i11Of a b c) :
    mohrDelta a b c * Real.cos (2 * θ) = (a - b) / 2 ∧ mohrDelta a b c * Real.sin (2 * θ) = -c := by
  have hsc := Real.sin_sq_add_cos_sq θ
  have hsq := mohrDelta_sq a b c
  set D := mohrDelta a b c
  have h1 : (a - b) / 2 * Real.cos (2 * θ) - c * Real.sin (2 * θ) = D := by
    rw [Real.cos_two_mul, Real.sin_two_mul]
    unfold momentAbout i11Of at h
    change _ = (a + b) / 2 + D at h
    linear_combination h - b * hsc
  have hsc2 := Real.sin_sq_add_cos_sq (2 * θ)
  have h2 : (D * Real.cos (2 * θ) - (a - b) / 2) ^ 2 + (D * Real.sin (2 * θ) + c) ^ 2 = 0 := by
    linear_combination D ^ 2 * hsc2 - 2 * D * h1 - hsq
  have h3 : D * Real.cos (2 * θ) - (a - b) / 2 = 0 := by
    nlinarith [sq_nonneg (D * Real.cos (2 * θ) - (a - b) / 2), sq_nonneg (D * Real.sin (2 * θ) + c)]
  have h4 : D * Real.sin (2 * θ) + c = 0 := by
    nlinarith [sq_nonneg (D * Real.cos (2 * θ) - (a - b) / 2), sq_nonneg (D * Real.sin (2 * θ) + c)]
  constructor <;> linarith

/-- **C07** (principal angle): when the principal moments differ and neither angle is taken from the
tolerance short-cut, the reported angle rotates with the section, modulo half turns. -/
theorem C07_angle (θ : ℝ) {s s' : Section} {r r' : GeomResults}
    (hr : s.geometricAnalysis = .ok r) (hr' : s'.geometricAnalysis = .ok r')
    (hs : Physical s.elements) (hs' : Physical s'.elements)
    (hno : NoOverlap s.elements) (hno' : NoOverlap s'.elements)
    (him : ImageUnder (rotation θ) s.elements s'.elements) (hne : r.cent.i22 < r.cent.i11)
    (hbr : ¬ |r.cent.ixxC - r.cent.i11| < 1e-12 * r.cent.i11)
    (hbr' : ¬ |r'.cent.ixxC - r'.cent.i11| < 1e-12 * r'.cent.i11) :
    ∃ k : ℤ, r'.cent.phi = r.cent.phi + θ * 180 / Real.pi + 180 * k := by
  obtain ⟨-, -, -, -, h5, h6, h7, h8, h9, -⟩ := C07_rotation θ hr hr' hs hs' hno hno' him
  obtain ⟨-, hcent, -⟩ := geom_ok hr
  obtain ⟨-, hcent', -⟩ := geom_ok hr'
  obtain ⟨c1, c2, c3, c4, c5, c6, -⟩ := cent_ok hcent
  obtain ⟨d1, d2, d3, d4, d5, d6, -⟩ := cent_ok hcent'
  obtain ⟨-, -, px, -, -, pi, p22, -⟩ := C09_positive hr hs
  obtain ⟨-, -, px', -, -, pi', p22', -⟩ := C09_positive hr' hs'
  rw [c1, c4] at hbr
  rw [d1, d4] at hbr'
  rw [c4, c5] at hne
  obtain ⟨-, m1, -⟩ := C10_diagonal _ _ _ (by rw [← c4]; linarith) hbr
  obtain ⟨-, m2, -⟩ := C10_diagonal _ _ _ (by rw [← d4]; linarith) hbr'
  have hD : 0 < mohrDelta r.sums.ixxC r.sums.iyyC r.sums.ixyC := by
    unfold i11Of i22Of at hne; linarith
  have hDD : mohrDelta r'.sums.ixxC r'.sums.iyyC r'.sums.ixyC
      = mohrDelta r.sums.ixxC r.sums.iyyC r.sums.ixyC := by
    rw [d4, c4] at h8
    rw [d5, c5] at h9
    unfold i11Of at h8
    unfold i22Of at h9
    linarith
  obtain ⟨x1, x2⟩ := double_angle m1
  obtain ⟨y1, y2⟩ := double_angle m2
  rw [← c6] at x1 x2
  rw [← d6] at y1 y2
  rw [hDD] at y1 y2
  set D := mohrDelta r.sums.ixxC r.sums.iyyC r.sums.ixyC
  rw [← c1, ← c2] at x1
  rw [← c3] at x2
  rw [← d1, ← d2] at y1
  rw [← d3] at y2
  set α := r.cent.phi * Real.pi / 180 with hα
  set β := r'.cent.phi * Real.pi / 180 with hβ
  have hsc := Real.sin_sq_add_cos_sq θ
  have k1 : Real.cos (2 * β) = Real.cos (2 * (α + θ)) := by
    have : D * Real.cos (2 * β) = D * Real.cos (2 * (α + θ)) := by
      rw [y1, mul_add, Real.cos_add, h5, h6, momentAbout, momentAbout, Real.cos_add_pi_div_two,
        Real.sin_add_pi_div_two, Real.cos_neg, Real.sin_neg]
      have : D * (Real.cos (2 * α) * Real.cos (2 * θ) - Real.sin (2 * α) * Real.sin (2 * θ))
          = (r.cent.ixxC - r.cent.iyyC) / 2 * Real.cos (2 * θ) + r.cent.ixyC * Real.sin (2 * θ) := by
        linear_combination x1 * Real.cos (2 * θ) - x2 * Real.sin (2 * θ)
      rw [this, Real.cos_two_mul, Real.sin_two_mul]
      linear_combination (-(r.cent.ixxC - r.cent.iyyC) / 2) * hsc
    exact mul_left_cancel₀ hD.ne' this
  have k2 : Real.sin (2 * β) = Real.sin (2 * (α + θ)) := by
    have : D * Real.sin (2 * β) = D * Real.sin (2 * (α + θ)) := by
      rw [y2, mul_add, Real.sin_add, h7, productAbout, Real.cos_neg, Real.sin_neg]
      have : D * (Real.sin (2 * α) * Real.cos (2 * θ) + Real.cos (2 * α) * Real.sin (2 * θ))
          = -r.cent.ixyC * Real.cos (2 * θ) + (r.cent.ixxC - r.cent.iyyC) / 2 * Real.sin (2 * θ) := by
        linear_combination x2 * Real.cos (2 * θ) + x1 * Real.sin (2 * θ)
      rw [this, Real.cos_two_mul, Real.sin_two_mul]
      linear_combination r.cent.ixyC * hsc
    exact mul_left_cancel₀ hD.ne' this
  have hang := Real.Angle.cos_sin_inj k1 k2
  obtain ⟨k, hk⟩ := Real.Angle.angle_eq_iff_two_pi_dvd_sub.1 hang
  refine ⟨k, ?_⟩
  have hpi := Real.pi_pos
  have e1 : r'.cent.phi = β * 180 / Real.pi := by rw [hβ]; field_simp
  have e2 : r.cent.phi = α * 180 / Real.pi := by rw [hα]; field_simp
  rw [e1, e2]
  have : β = α + θ + Real.pi * k := by linarith
  rw [this]
  field_simp

/-! ### C08 -/

theorem phiOf_smul {k a b c : ℝ} (hk : 0 < k) :
    mohrDelta (k * a) (k * b) (k * c) = k * mohrDelta a b c ∧
    i11Of (k * a) (k * b) (k * c) = k * i11Of a b c ∧
    i22Of (k * a) (k * b) (k * c) = k * i22Of a b c ∧
    phiOf (k * a) (k * b) (k * c) = phiOf a b c := by
  have h1 : mohrDelta (k * a) (k * b) (k * c) = k * mohrDelta a b c := by
    unfold mohrDelta
    rw [show ((k * a - k * b) / 2) ^ 2 + (k * c) ^ 2 = k ^ 2 * (((a - b) / 2) ^ 2 + c ^ 2) by ring,
      Real.sqrt_mul (by positivity), Real.sqrt_sq hk.le]
  have h2 : i11Of (k * a) (k * b) (k * c) = k * i11Of a b c := by
    unfold i11Of; rw [h1]; ring
  have h3 : i22Of (k * a) (k * b) (k * c) = k * i22Of a b c := by
    unfold i22Of; rw [h1]; ring
  refine ⟨h1, h2, h3, ?_⟩
  unfold phiOf
  rw [h2]
  have e1 : (|k * a - k * i11Of a b c| < 1e-12 * (k * i11Of a b c)) ↔
      (|a - i11Of a b c| < 1e-12 * i11Of a b c) := by
    rw [← mul_sub, abs_mul, abs_of_pos hk, mul_left_comm, mul_lt_mul_iff_right₀ hk]
  have e2 : arctan2 (k * a - k * i11Of a b c) (k * c) = arctan2 (a - i11Of a b c) c := by
    unfold arctan2
    rw [← Complex.arg_real_mul (⟨c, a - i11Of a b c⟩ : ℂ) hk]
    congr 1
    apply Complex.ext <;> simp [mul_sub]
  simp only [e1, e2]

/-- **C08** (scaling): scaling by `k > 0` scales area by `k²`, first moments by `k³`, second moments
by `k⁴`, centroid and radii of gyration by `k`, and keeps the principal angle. -/
theorem C08_scaling {k : ℝ} (hk : 0 < k) {s s' : Section} {r r' : GeomResults}
    (hr : s.geometricAnalysis = .ok r) (hr' : s'.geometricAnalysis = .ok r')
    (hs : Physical s.elements) (hs' : Physical s'.elements)
    (hno : NoOverlap s.elements) (hno' : NoOverlap s'.elements)
    (him : ImageUnder (scaling k) s.elements s'.elements) :
    r'.cx = k * r.cx ∧ r'.cy = k * r.cy ∧
    r'.sums.area = k ^ 2 * r.sums.area ∧ r'.sums.mass = k ^ 2 * r.sums.mass ∧
    r'.sums.ea = k ^ 2 * r.sums.ea ∧
    r'.sums.qx = k ^ 3 * r.sums.qx ∧ r'.sums.qy = k ^ 3 * r.sums.qy ∧
    r'.sums.ixxG = k ^ 4 * r.sums.ixxG ∧ r'.sums.iyyG = k ^ 4 * r.sums.iyyG ∧
    r'.sums.ixyG = k ^ 4 * r.sums.ixyG ∧
    r'.cent.ixxC = k ^ 4 * r.cent.ixxC ∧ r'.cent.iyyC = k ^ 4 * r.cent.iyyC ∧
    r'.cent.ixyC = k ^ 4 * r.cent.ixyC ∧
    r'.cent.i11 = k ^ 4 * r.cent.i11 ∧ r'.cent.i22 = k ^ 4 * r.cent.i22 ∧
    r'.cent.phi = r.cent.phi ∧
    r'.cent.rx = k * r.cent.rx ∧ r'.cent.ry = k * r.cent.ry ∧
    r'.cent.r11 = k * r.cent.r11 ∧ r'.cent.r22 = k * r.cent.r22 := by
  have hD : k * k - 0 * 0 ≠ 0 := by rw [mul_zero, sub_zero]; positivity
  obtain ⟨h1, h2, h3, h4, q1, q2, g1, g2, g3⟩ :=
    affine_sums 0 0 hD hr hr' hs.proper hs'.proper hno hno' him
  obtain ⟨hc, h5, h6, h7⟩ := affine_cent 0 0 hD hr hr' hs hs'.proper hno hno' him
  obtain ⟨hsum, hcent, -⟩ := geom_ok hr
  obtain ⟨-, hcent', -⟩ := geom_ok hr'
  obtain ⟨c1, c2, c3, c4, c5, c6, c7, c8, c9, c10⟩ := cent_ok hcent
  obtain ⟨d1, d2, d3, d4, d5, d6, d7, d8, d9, d10⟩ := cent_ok hcent'
  have ad : |k * k - 0 * 0| = k ^ 2 := by
    rw [mul_zero, sub_zero, abs_of_pos (by positivity), sq]
  rw [ad] at h1 h2 h3 h4 h5 h6 h7 q1 q2 g1 g2 g3
  simp only [affine, Prod.mk.injEq, zero_mul, add_zero, zero_add] at hc
  have e1 : r'.sums.ixxC = k ^ 4 * r.sums.ixxC := by rw [← d1, ← c1, h5]; ring
  have e2 : r'.sums.iyyC = k ^ 4 * r.sums.iyyC := by rw [← d2, ← c2, h6]; ring
  have e3 : r'.sums.ixyC = k ^ 4 * r.sums.ixyC := by rw [← d3, ← c3, h7]; ring
  obtain ⟨-, p1, p2, p3⟩ := phiOf_smul (a := r.sums.ixxC) (b := r.sums.iyyC) (c := r.sums.ixyC)
    (show 0 < k ^ 4 by positivity)
  have hea : 0 < r.sums.ea := by rw [hsum]; exact hs.ea_pos
  have rad : ∀ x : ℝ, √(k ^ 4 * x / (k ^ 2 * r.sums.ea)) = k * √(x / r.sums.ea) := by
    intro x
    have : k ^ 4 * x / (k ^ 2 * r.sums.ea) = k ^ 2 * (x / r.sums.ea) := by field_simp
    rw [this, Real.sqrt_mul (by positivity), Real.sqrt_sq hk.le]
  refine ⟨hc.1, hc.2, h1, h2, h3, by rw [q1]; ring, by rw [q2]; ring, by rw [g1]; ring,
    by rw [g2]; ring, by rw [g3]; ring, by rw [h5]; ring, by rw [h6]; ring, by rw [h7]; ring,
    ?_, ?_, ?_, ?_, ?_, ?_, ?_⟩
  · rw [d4, c4, e1, e2, e3, p1]
  · rw [d5, c5, e1, e2, e3, p2]
  · rw [d6, c6, e1, e2, e3, p3]
  · rw [d7, c7, e1, h3, rad]
  · rw [d8, c8, e2, h3, rad]
  · rw [d9, c9, e1, e2, e3, h3, p1, rad]
  · rw [d10, c10, e1, e2, e3, h3, p2, rad]

/-- **C08** (scaling, section moduli): all eight section moduli scale by `k³`. -/
theorem C08_scaling_moduli {k : ℝ} (hk : 0 < k) {s s' : Section} {r r' : GeomResults}
    (hr : s.geometricAnalysis = .ok r) (hr' : s'.geometricAnalysis = .ok r')
    (hs : Physical s.elements) (hs' : Physical s'.elements)
    (hc : GoodSection s) (hc' : GoodSection s') (hu : NodesUsed s) (hu' : NodesUsed s')
    (hno : NoOverlap s.elements) (hno' : NoOverlap s'.elements)
    (him : ImageUnder (scaling k) s.elements s'.elements) (a : Axis) :
    axisZ r' a = (k ^ 3 * (axisZ r a).1, k ^ 3 * (axisZ r a).2) := by
  obtain ⟨h1, h2, -, -, -, -, -, -, -, -, h5, h6, h7, h8, h9, h10, -⟩ :=
    C08_scaling hk hr hr' hs hs' hno hno' him
  exact axisZ_of_image (k := k) (m := k ^ 3) hr hr' hs hs' hc hc' hu hu' him.region hk a
    (fun p => by
      cases a <;> simp only [fibreAt, scaling, affine, h1, h2, h10, rotX, rotY] <;> ring)
    (by cases a <;> simp only [axisInertia, h5, h6, h8, h9] <;> ring)

/-- **C08** (mirroring): mirroring about a coordinate axis keeps area, mass, `ixx_c`, `iyy_c` and the
principal moments, mirrors the centroid and negates the product of inertia. -/
theorem C08_mirror {φ : ℝ × ℝ → ℝ × ℝ} (hφ : φ = mirrorX ∨ φ = mirrorY) {s s' : Section}
    {r r' : GeomResults}
    (hr : s.geometricAnalysis = .ok r) (hr' : s'.geometricAnalysis = .ok r')
    (hs : Physical s.elements) (hs' : Physical s'.elements)
    (hno : NoOverlap s.elements) (hno' : NoOverlap s'.elements)
    (him : ImageUnder φ s.elements s'.elements) :
    (r'.cx, r'.cy) = φ (r.cx, r.cy) ∧
    r'.sums.area = r.sums.area ∧ r'.sums.mass = r.sums.mass ∧ r'.sums.ea = r.sums.ea ∧
    r'.sums.ixxG = r.sums.ixxG ∧ r'.sums.iyyG = r.sums.iyyG ∧ r'.sums.ixyG = -r.sums.ixyG ∧
    r'.cent.ixxC = r.cent.ixxC ∧ r'.cent.iyyC = r.cent.iyyC ∧ r'.cent.ixyC = -r.cent.ixyC ∧
    r'.cent.i11 = r.cent.i11 ∧ r'.cent.i22 = r.cent.i22 := by
  obtain ⟨α, β, hα, hφ⟩ : ∃ α β : ℝ, ((α = 1 ∧ β = -1) ∨ (α = -1 ∧ β = 1)) ∧
      φ = affine α 0 0 β 0 0 := by
    rcases hφ with h | h
    · exact ⟨1, -1, .inl ⟨rfl, rfl⟩, h⟩
    · exact ⟨-1, 1, .inr ⟨rfl, rfl⟩, h⟩
  subst hφ
  have ha2 : α ^ 2 = 1 := by rcases hα with ⟨h, -⟩ | ⟨h, -⟩ <;> rw [h] <;> norm_num
  have hb2 : β ^ 2 = 1 := by rcases hα with ⟨-, h⟩ | ⟨-, h⟩ <;> rw [h] <;> norm_num
  have hab : α * β = -1 := by rcases hα with ⟨h, h'⟩ | ⟨h, h'⟩ <;> rw [h, h'] <;> norm_num
  have hD : α * β - 0 * 0 ≠ 0 := by rw [hab]; norm_num
  obtain ⟨h1, h2, h3, h4, q1, q2, g1, g2, g3⟩ :=
    affine_sums 0 0 hD hr hr' hs.proper hs'.proper hno hno' him
  obtain ⟨hc, h5, h6, h7⟩ := affine_cent 0 0 hD hr hr' hs hs'.proper hno hno' him
  obtain ⟨-, hcent, -⟩ := geom_ok hr
  obtain ⟨-, hcent', -⟩ := geom_ok hr'
  obtain ⟨c1, c2, c3, c4, c5, c6, c7, c8, c9, c10⟩ := cent_ok hcent
  obtain ⟨d1, d2, d3, d4, d5, d6, d7, d8, d9, d10⟩ := cent_ok hcent'
  have ad : |α * β - 0 * 0| = 1 := by rw [hab]; norm_num
  rw [ad, one_mul] at h1 h2 h3 h4 h5 h6 h7 q1 q2 g1 g2 g3
  have k5 : r'.cent.ixxC = r.cent.ixxC := by rw [h5, hb2]; ring
  have k6 : r'.cent.iyyC = r.cent.iyyC := by rw [h6, ha2]; ring
  have k7 : r'.cent.ixyC = -r.cent.ixyC := by rw [h7, hab]; ring
  have hm : mohrDelta r'.sums.ixxC r'.sums.iyyC r'.sums.ixyC
      = mohrDelta r.sums.ixxC r.sums.iyyC r.sums.ixyC := by
    unfold mohrDelta
    rw [← d1, ← d2, ← d3, ← c1, ← c2, ← c3, k5, k6, k7, neg_sq]
  refine ⟨hc, h1, h2, h3, by rw [g1, hb2]; ring, by rw [g2, ha2]; ring, by rw [g3, hab]; ring,
    k5, k6, k7, ?_, ?_⟩
  · rw [d4, c4, i11Of, i11Of, hm, ← d1, ← d2, ← c1, ← c2, k5, k6]
  · rw [d5, c5, i22Of, i22Of, hm, ← d1, ← d2, ← c1, ← c2, k5, k6]

/-! ### Non-vacuity: moving every node of a mesh -/

/-- Coordinates moved by a plane map. -/
def Coords.map (φ : ℝ × ℝ → ℝ × ℝ) (c : Coords) : Coords :=
  ⟨fun i => (φ (c.x i, c.y i)).1, fun i => (φ (c.x i, c.y i)).2⟩

/-- Element moved by a plane map. -/
def Tri6.map {n : ℕ} (φ : ℝ × ℝ → ℝ × ℝ) (t : Tri6 n) : Tri6 n :=
  ⟨t.elId, t.coords.map φ, t.nodeIds, t.material⟩

/-- Section with all nodes moved by a plane map. -/
def Section.map (φ : ℝ × ℝ → ℝ × ℝ) (s : Section) : Section :=
  ⟨s.numNodes, fun i => φ (s.meshNodes i), s.materials, s.elements.map (Tri6.map φ),
    s.groups.map fun g => ⟨g.material, g.elements.map (Tri6.map φ)⟩⟩

theorem elemRegion_map (a b c d e f : ℝ) (q : Coords) :
    elemRegion (q.map (affine a b c d e f)) = affine a b c d e f '' elemRegion q := by
  simp only [elemRegion, Spec.triangle, convexHull_triple_eq_image, Set.image_image]
  refine Set.image_congr fun x _ => ?_
  simp only [triMap, affine, cornerA, cornerB, cornerC, Coords.map, Prod.mk.injEq]
  constructor <;> ring

theorem proper_map {a b c d : ℝ} (e f : ℝ) (hD : 0 < a * d - b * c) {q : Coords} (hq : Proper q) :
    Proper (q.map (affine a b c d e f)) := by
  obtain ⟨⟨h1, h2, h3, h4, h5, h6⟩, h7⟩ := hq
  refine ⟨⟨?_, ?_, ?_, ?_, ?_, ?_⟩, ?_⟩
  · simp only [Coords.map, affine, h1, h4]; ring
  · simp only [Coords.map, affine, h2, h5]; ring
  · simp only [Coords.map, affine, h3, h6]; ring
  · simp only [Coords.map, affine, h1, h4]; ring
  · simp only [Coords.map, affine, h2, h5]; ring
  · simp only [Coords.map, affine, h3, h6]; ring
  · have : elemDet (q.map (affine a b c d e f)) = (a * d - b * c) * elemDet q := by
      simp only [elemDet, signedArea2, cornerA, cornerB, cornerC, Coords.map, affine]; ring
    rw [this]
    exact mul_pos hD h7

theorem null_image (a b c d e f : ℝ) {N : Set (ℝ × ℝ)} (hN : volume N = 0) :
    volume (affine a b c d e f '' N) = 0 := by
  refine addHaar_image_eq_zero_of_differentiableOn_of_addHaar_eq_zero volume ?_ hN
  rw [affine_eq_triMap]
  exact fun x _ => (hasFDerivAt_triMap _ _ _ x).differentiableAt.differentiableWithinAt

/-- Elements mapped one by one onto their images. -/
theorem image_of_elements {n n' : ℕ} {a b c d : ℝ} (e f : ℝ) (hD : a * d - b * c ≠ 0)
    (g : Tri6 n → Tri6 n') (els : List (Tri6 n)) (hno : NoOverlap els)
    (hreg : ∀ t, elemRegion (g t).coords = affine a b c d e f '' elemRegion t.coords)
    (hmat : ∀ t, (g t).material = t.material) :
    NoOverlap (els.map g) ∧ ImageUnder (affine a b c d e f) els (els.map g) := by
  have hinj := affine_injective e f hD
  refine ⟨?_, ⟨?_, ?_⟩⟩
  · simp only [NoOverlap, List.pairwise_map]
    refine hno.imp fun {x y} hxy => ?_
    rw [hreg, hreg, ← Set.image_inter hinj]
    exact null_image a b c d e f hxy
  · ext p
    constructor
    · rintro ⟨_, ht', hp⟩
      obtain ⟨t, ht, rfl⟩ := List.mem_map.1 ht'
      rw [hreg] at hp
      obtain ⟨q, hq, rfl⟩ := hp
      exact ⟨q, ⟨t, ht, hq⟩, rfl⟩
    · rintro ⟨q, ⟨t, ht, hq⟩, rfl⟩
      refine ⟨g t, List.mem_map.2 ⟨t, ht, rfl⟩, ?_⟩
      rw [hreg]
      exact ⟨q, hq, rfl⟩
  · intro prop
    obtain ⟨E, hE⟩ := exists_field hno prop
    refine ⟨E, fun q => E (Function.invFun (affine a b c d e f) q), hE, ?_, fun p => ?_⟩
    · intro t ht
      obtain ⟨u, hu, rfl⟩ := List.mem_map.1 ht
      have h0 := hE u hu
      rw [ae_iff] at h0 ⊢
      refine measure_mono_null ?_ (null_image a b c d e f h0)
      intro q hq
      simp only [Set.mem_ofPred_eq, Classical.not_imp] at hq
      obtain ⟨hq1, hq2⟩ := hq
      rw [hreg] at hq1
      obtain ⟨p, hp, rfl⟩ := hq1
      rw [Function.leftInverse_invFun hinj, hmat] at hq2
      exact ⟨p, by simp only [Set.mem_ofPred_eq, Classical.not_imp]; exact ⟨hp, hq2⟩, rfl⟩
    · simp only [Function.leftInverse_invFun hinj p]

/-- Moving all nodes of a mesh by an affine map of positive determinant gives a section that is the
image of the original one, in the sense of the theorems above; so C06, C07 and C08 (scaling) apply in
particular to it. -/
theorem map_image {a b c d : ℝ} (e f : ℝ) (hD : 0 < a * d - b * c) {s : Section}
    (hs : Physical s.elements) (hno : NoOverlap s.elements) (hg : GoodSection s) (hu : NodesUsed s) :
    Physical (s.map (affine a b c d e f)).elements ∧
    NoOverlap (s.map (affine a b c d e f)).elements ∧
    GoodSection (s.map (affine a b c d e f)) ∧ NodesUsed (s.map (affine a b c d e f)) ∧
    ImageUnder (affine a b c d e f) s.elements (s.map (affine a b c d e f)).elements := by
  obtain ⟨i1, i2⟩ := image_of_elements e f hD.ne' (Tri6.map (affine a b c d e f)) s.elements hno
    (fun t => elemRegion_map _ _ _ _ _ _ _) (fun t => rfl)
  refine ⟨⟨?_, ?_, ?_⟩, i1, ⟨?_, ?_⟩, ?_, i2⟩
  · simpa [Section.map] using hs.nonempty
  · intro t ht
    obtain ⟨u, hu, rfl⟩ := List.mem_map.1 ht
    exact proper_map e f hD (hs.proper u hu)
  · intro t ht
    obtain ⟨u, hu, rfl⟩ := List.mem_map.1 ht
    exact hs.modulus u hu
  · intro t ht
    obtain ⟨u, hu, rfl⟩ := List.mem_map.1 ht
    exact proper_map e f hD (hs.proper u hu)
  · intro t ht
    obtain ⟨u, hu, rfl⟩ := List.mem_map.1 ht
    simp only [Tri6.map, hg.coords u hu]
    rfl
  · intro i
    obtain ⟨t, ht, k, hk⟩ := hu i
    exact ⟨t.map _, List.mem_map.2 ⟨t, ht, rfl⟩, k, hk⟩

/-- The element moved by a plane map and traversed in the opposite sense (for mirrorings). -/
def Tri6.mapFlip {n : ℕ} (φ : ℝ × ℝ → ℝ × ℝ) (t : Tri6 n) : Tri6 n :=
  ⟨t.elId, ⟨fun i => (t.coords.map φ).x (![0, 2, 1, 5, 4, 3] i),
    fun i => (t.coords.map φ).y (![0, 2, 1, 5, 4, 3] i)⟩,
    fun i => t.nodeIds (![0, 2, 1, 5, 4, 3] i), t.material⟩

/-- Section with all nodes mirrored and all elements turned around. -/
def Section.mapFlip (φ : ℝ × ℝ → ℝ × ℝ) (s : Section) : Section :=
  ⟨s.numNodes, fun i => φ (s.meshNodes i), s.materials, s.elements.map (Tri6.mapFlip φ), []⟩

theorem mapFlip_image {a b c d : ℝ} (e f : ℝ) (hD : a * d - b * c < 0) {s : Section}
    (hs : Physical s.elements) (hno : NoOverlap s.elements) :
    Physical (s.mapFlip (affine a b c d e f)).elements ∧
    NoOverlap (s.mapFlip (affine a b c d e f)).elements ∧
    ImageUnder (affine a b c d e f) s.elements (s.mapFlip (affine a b c d e f)).elements := by
  obtain ⟨i1, i2⟩ := image_of_elements e f hD.ne (Tri6.mapFlip (affine a b c d e f)) s.elements hno
    (fun t => by
      rw [← elemRegion_map]
      simp only [elemRegion, Spec.triangle, cornerA, cornerB, cornerC, Tri6.mapFlip]
      congr 1
      simp only [Matrix.cons_val_zero, Matrix.cons_val_one, Matrix.cons_val]
      rw [Set.pair_comm])
    (fun t => rfl)
  refine ⟨⟨?_, ?_, ?_⟩, i1, i2⟩
  · simpa [Section.mapFlip] using hs.nonempty
  · intro t ht
    obtain ⟨u, hu, rfl⟩ := List.mem_map.1 ht
    obtain ⟨⟨h1, h2, h3, h4, h5, h6⟩, h7⟩ := hs.proper u hu
    refine ⟨⟨?_, ?_, ?_, ?_, ?_, ?_⟩, ?_⟩
    · simp [Tri6.mapFlip, Coords.map, affine, h3, h6]; ring
    · simp [Tri6.mapFlip, Coords.map, affine, h2, h5]; ring
    · simp [Tri6.mapFlip, Coords.map, affine, h1, h4]; ring
    · simp [Tri6.mapFlip, Coords.map, affine, h3, h6]; ring
    · simp [Tri6.mapFlip, Coords.map, affine, h2, h5]; ring
    · simp [Tri6.mapFlip, Coords.map, affine, h1, h4]; ring
    · have : elemDet (u.mapFlip (affine a b c d e f)).coords = -(a * d - b * c) * elemDet u.coords := by
        simp [elemDet, signedArea2, cornerA, cornerB, cornerC, Coords.map, affine, Tri6.mapFlip]; ring
      rw [this]
      exact mul_pos (by linarith) h7
  · intro t ht
    obtain ⟨u, hu, rfl⟩ := List.mem_map.1 ht
    exact hs.modulus u hu

/-- Non-vacuity of C08 (mirroring). -/
example : ∃ r r', exSection.geometricAnalysis = .ok r ∧
    (exSection.mapFlip mirrorY).geometricAnalysis = .ok r' ∧ r'.cent.ixyC = -r.cent.ixyC := by
  obtain ⟨r, hr⟩ := geometricAnalysis_ok exSection (by simp [exSection])
  obtain ⟨r', hr'⟩ := geometricAnalysis_ok (exSection.mapFlip mirrorY)
    (by simp [exSection, Section.mapFlip])
  obtain ⟨h1, h2, h5⟩ := mapFlip_image (a := -1) (b := 0) (c := 0) (d := 1) 0 0 (by norm_num)
    exPhysical exNoOverlap
  exact ⟨r, r', hr, hr', (C08_mirror (.inr rfl) hr hr' exPhysical h1 exNoOverlap
    h2 h5).2.2.2.2.2.2.2.2.2.1⟩

theorem exNodesUsed : NodesUsed exSection := by
  intro (i : Fin 9)
  have key : ∀ i : Fin 9, (∃ k, exT0.nodeIds k = i) ∨ ∃ k, exT1.nodeIds k = i := by decide
  rcases key i with h | h
  · exact ⟨exT0, List.mem_cons_self .., h⟩
  · exact ⟨exT1, List.mem_cons_of_mem _ (List.mem_cons_self ..), h⟩

/-- Non-vacuity of C06, C07, C08 (scaling): the example section and its image under a translation, a
rotation by 1 radian and a scaling by 3 meet all hypotheses. -/
example : (∃ r r', exSection.geometricAnalysis = .ok r ∧
      (exSection.map (translation 3 (-7))).geometricAnalysis = .ok r' ∧ r'.cx = r.cx + 3) ∧
    (∃ r r', exSection.geometricAnalysis = .ok r ∧
      (exSection.map (rotation 1)).geometricAnalysis = .ok r' ∧ r'.cent.i11 = r.cent.i11) ∧
    (∃ r r', exSection.geometricAnalysis = .ok r ∧
      (exSection.map (scaling 3)).geometricAnalysis = .ok r' ∧ r'.sums.area = 3 ^ 2 * r.sums.area) := by
  obtain ⟨r, hr⟩ := geometricAnalysis_ok exSection (by simp [exSection])
  refine ⟨?_, ?_, ?_⟩
  · obtain ⟨r', hr'⟩ := geometricAnalysis_ok (exSection.map (translation 3 (-7)))
      (by simp [exSection, Section.map])
    obtain ⟨h1, h2, -, -, h5⟩ := map_image (a := 1) (b := 0) (c := 0) (d := 1) 3 (-7) (by norm_num)
      exPhysical exNoOverlap exSection_good exNodesUsed
    exact ⟨r, r', hr, hr', (C06_translation 3 (-7) hr hr' exPhysical h1 exNoOverlap h2 h5).1⟩
  · obtain ⟨r', hr'⟩ := geometricAnalysis_ok (exSection.map (rotation 1))
      (by simp [exSection, Section.map])
    obtain ⟨h1, h2, -, -, h5⟩ := map_image (a := Real.cos 1) (b := -Real.sin 1) (c := Real.sin 1)
      (d := Real.cos 1) 0 0 (by nlinarith [Real.sin_sq_add_cos_sq (1 : ℝ)])
      exPhysical exNoOverlap exSection_good exNodesUsed
    exact ⟨r, r', hr, hr',
      (C07_rotation 1 hr hr' exPhysical h1 exNoOverlap h2 h5).2.2.2.2.2.2.2.1⟩
  · obtain ⟨r', hr'⟩ := geometricAnalysis_ok (exSection.map (scaling 3))
      (by simp [exSection, Section.map])
    obtain ⟨h1, h2, -, -, h5⟩ := map_image (a := 3) (b := 0) (c := 0) (d := 3) 0 0 (by norm_num)
      exPhysical exNoOverlap exSection_good exNodesUsed
    exact ⟨r, r', hr, hr', (C08_scaling (by norm_num) hr hr' exPhysical h1 exNoOverlap h2 h5).2.2.1⟩

end SP
