import Verif.Props.Plastic
import Verif.Props.Equilibrium

/-!
# C35 (second part): the plastic moment is at least the elastic moment
-/

namespace SP

open MeasureTheory Spec

variable {n : ℕ}

/-- The geometry used by the plastic analysis is the meshed section moved by `-c`: both carry the same
distribution of yield strength. -/
def SameStrength {P : Type*} (reg : P → Set (ℝ × ℝ)) (geoms : List (PGeom P)) (els : List (Tri6 n))
    (c : ℝ × ℝ) : Prop :=
  ∀ f : ℝ × ℝ → ℝ, Continuous f → yieldInt reg geoms f =
    (els.map fun t => t.material.yieldStrength * ∫ p in elemRegion t.coords, f (p.1 - c.1, p.2 - c.2)).sum

theorem abs_sum_map_le {α : Type*} (l : List α) (f g : α → ℝ) (h : ∀ t ∈ l, |f t| ≤ g t) :
    |(l.map f).sum| ≤ (l.map g).sum := by
  induction l with
  | nil => simp
  | cons t l ih =>
    simp only [List.map_cons, List.sum_cons]
    exact (abs_add_le _ _).trans (add_le_add (h t (by simp)) (ih fun t ht => h t (by simp [ht])))

theorem lin_bound {c : Coords} {u v B : ℝ} (h : ∀ i, |u * c.x i + v * c.y i| ≤ B) {p : ℝ × ℝ}
    (hp : p ∈ elemRegion c) : |u * p.1 + v * p.2| ≤ B := by
  have hl : IsLinearMap ℝ fun p : ℝ × ℝ => u * p.1 + v * p.2 := by
    constructor
    · intro x y; simp; ring
    · intro k x; simp; ring
  have hsub : elemRegion c ⊆ {p | u * p.1 + v * p.2 ≤ B} ∩ {p | -B ≤ u * p.1 + v * p.2} := by
    refine convexHull_min ?_ ((convex_halfSpace_le hl B).inter (convex_halfSpace_ge hl (-B)))
    intro q hq
    have key : ∀ i : Fin 6, (c.x i, c.y i) ∈
        {p : ℝ × ℝ | u * p.1 + v * p.2 ≤ B} ∩ {p | -B ≤ u * p.1 + v * p.2} := fun i =>
      ⟨(abs_le.1 (h i)).2, (abs_le.1 (h i)).1⟩
    simp only [Set.mem_insert_iff, Set.mem_singleton_iff] at hq
    rcases hq with rfl | rfl | rfl
    · exact key 0
    · exact key 1
    · exact key 2
  exact abs_le.2 ⟨(hsub hp).2, (hsub hp).1⟩

/-- A stress field that is linear in each element, nowhere above yield and without normal force has a
moment that is at most the integral of yield strength times distance to any axis. -/
theorem elastic_bound (els : List (Tri6 n)) (hc : Centroidal els) {u v : ℝ}
    (hnode : ∀ t ∈ els, ∀ i, |t.material.elasticModulus * (u * t.coords.x i + v * t.coords.y i)|
      ≤ t.material.yieldStrength) (a b e : ℝ) :
    |wInt els fun _ p => (u * p.1 + v * p.2) * (a * p.1 + b * p.2)| ≤
      (els.map fun t => t.material.yieldStrength *
        ∫ p in elemRegion t.coords, |a * p.1 + b * p.2 - e|).sum := by
  have h0 : wInt els (fun _ p => (u * p.1 + v * p.2) * (a * p.1 + b * p.2))
      = wInt els (fun _ p => (u * p.1 + v * p.2) * (a * p.1 + b * p.2 - e)) := by
    have hlin : wInt els (fun _ p => u * p.1 + v * p.2) = 0 := by
      rw [wInt_lin, hc.1, hc.2]; ring
    have hP1 : ∀ x y z : ℝ, (fun p : ℝ × ℝ => x + y * p.1 + z * p.2) ∈ PolyLE 1 := polyLE_affine
    have e1 : wInt els (fun _ p => (u * p.1 + v * p.2) * (a * p.1 + b * p.2 - e))
        = wInt els (fun t p => (fun _ p => (u * p.1 + v * p.2) * (a * p.1 + b * p.2)) t p
          + (fun _ p => -e * (u * p.1 + v * p.2)) t p) :=
      wInt_congr fun t _ p => by ring
    rw [e1, wInt_add (d := 2), wInt_smul, hlin]
    · ring
    · intro t _
      have := poly_mul2 (hP1 0 u v) (hP1 0 a b)
      simpa using this
    · intro t _
      have := PolyLE.mono (show 1 ≤ 2 by omega) (hP1 0 (-e * u) (-e * v))
      convert this using 2
      ring
  rw [h0, wInt]
  refine abs_sum_map_le _ _ _ fun t ht => ?_
  have hi : ∀ f : ℝ × ℝ → ℝ, Continuous f → IntegrableOn f (elemRegion t.coords) := fun f hf =>
    hf.continuousOn.integrableOn_compact (isCompact_elemRegion _)
  rw [← integral_const_mul, ← integral_const_mul]
  refine abs_integral_le_integral_abs.trans ?_
  refine setIntegral_mono_on ((hi _ (by fun_prop))) ((hi _ (by fun_prop)))
    (measurable_elemRegion _) fun p hp => ?_
  have hb : |t.material.elasticModulus * (u * p.1 + v * p.2)| ≤ t.material.yieldStrength := by
    have := lin_bound (c := t.coords) (u := t.material.elasticModulus * u)
      (v := t.material.elasticModulus * v) (B := t.material.yieldStrength)
      (fun i => by rw [mul_assoc, mul_assoc, ← mul_add]; exact hnode t ht i) hp
    rw [mul_assoc, mul_assoc, ← mul_add] at this
    exact this
  rw [← mul_assoc, abs_mul]
  exact mul_le_mul_of_nonneg_right hb (abs_nonneg _)

/-- Coefficients of the axis coordinate. -/
noncomputable def axisCoef (phi : ℝ) : Axis → ℝ × ℝ
  | .xx => (0, 1)
  | .yy => (1, 0)
  | .a11 => (-Real.sin (phi * Real.pi / 180), Real.cos (phi * Real.pi / 180))
  | .a22 => (Real.cos (phi * Real.pi / 180), Real.sin (phi * Real.pi / 180))

theorem axisCoord_coef (phi : ℝ) (a : Axis) (q : ℝ × ℝ) :
    axisCoord phi q a = (axisCoef phi a).1 * q.1 + (axisCoef phi a).2 * q.2 := by
  cases a <;> simp [axisCoord, axisCoef, rotX, rotY] <;> ring

theorem elastic_le_plastic {P : Type*} {reg : P → Set (ℝ × ℝ)} {geoms : List (PGeom P)} {s : Section}
    {r : GeomResults} (hg : GoodSection s) (h : Physical s.elements) (hr : s.geometricAnalysis = .ok r)
    {c : ℝ × ℝ} (hsame : SameStrength reg geoms s.elements c) {u v : ℝ}
    (hnode : ∀ t ∈ s.elements, ∀ i, |t.material.elasticModulus *
      (u * (t.coords.x i - r.cx) + v * (t.coords.y i - r.cy))| ≤ t.material.yieldStrength)
    (phi : ℝ) (a : Axis) (d : ℝ) :
    |wInt (s.elements.map fun t => t.shiftBy r.cx r.cy) fun _ p => (u * p.1 + v * p.2) *
        ((axisCoef phi a).1 * p.1 + (axisCoef phi a).2 * p.2)|
      ≤ yieldInt reg geoms fun q => |axisCoord phi q a - d| := by
  have hs := centroidalSetup hg h hr
  have hb := elastic_bound _ hs.centroidal (u := u) (v := v) (by
    intro t ht i
    obtain ⟨t', ht', rfl⟩ := List.mem_map.1 ht
    exact hnode t' ht' i) (axisCoef phi a).1 (axisCoef phi a).2
      (d + ((axisCoef phi a).1 * (c.1 - r.cx) + (axisCoef phi a).2 * (c.2 - r.cy)))
  refine hb.trans (le_of_eq ?_)
  have hcc := continuous_coord phi a
  rw [hsame _ (by fun_prop), List.map_map]
  refine congrArg List.sum (List.map_congr_left fun t _ => ?_)
  simp only [Function.comp_apply]
  have e : (t.shiftBy r.cx r.cy).coords = t.coords.shift r.cx r.cy := rfl
  rw [e, elemRegion_shift, image_integral _ _ (by norm_num) (measurable_elemRegion _)]
  simp only [Tri6.shiftBy, axisCoord_coef, affine]
  norm_num
  left
  refine integral_congr_ae (Filter.Eventually.of_forall fun p => ?_)
  simp only
  congr 1
  ring

/-- The code replaces the principal angle by zero within this tolerance (post.py 303-304). -/
def Snapped (r : GeomResults) : Prop := |r.cent.ixxC - r.cent.i11| < 1e-12 * r.cent.i11

/-- Second moment of the section about an axis at the reported angle. -/
theorem second_moment {s : Section} {r : GeomResults} (hg : GoodSection s) (h : Physical s.elements)
    (hr : s.geometricAnalysis = .ok r) (a : Axis) :
    let M := wInt (s.elements.map fun t => t.shiftBy r.cx r.cy) fun _ p =>
      ((axisCoef r.cent.phi a).1 * p.1 + (axisCoef r.cent.phi a).2 * p.2) *
        ((axisCoef r.cent.phi a).1 * p.1 + (axisCoef r.cent.phi a).2 * p.2)
    (1 - 1e-12) * axisInertia r a ≤ M ∧ (¬ Snapped r → axisInertia r a ≤ M) := by
  intro M
  have hs := centroidalSetup hg h hr
  have hM : M = (axisCoef r.cent.phi a).1 ^ 2 * r.cent.iyyC
      + 2 * (axisCoef r.cent.phi a).1 * (axisCoef r.cent.phi a).2 * r.cent.ixyC
      + (axisCoef r.cent.phi a).2 ^ 2 * r.cent.ixxC := by
    rw [← hs.ixx, ← hs.iyy, ← hs.ixy, ← wInt_quadmom]
    refine wInt_congr fun t _ p => ?_
    ring
  obtain ⟨hsum, hc, -⟩ := geom_ok hr
  obtain ⟨c1, c2, c3, c4, c5, c6, -⟩ := cent_ok hc
  obtain ⟨-, -, h1, h2, h3, h4, h5, -⟩ := C09_positive hr h
  have h6 : 0 < r.cent.i11 := lt_of_lt_of_le h5 h4
  obtain ⟨-, -, hext⟩ := C10_extreme r.cent.ixxC r.cent.iyyC r.cent.ixyC
  rw [← c1, ← c2, ← c3] at c4 c5 c6
  rw [← c4, ← c5] at hext
  cases a with
  | xx =>
    simp only [axisCoef, axisInertia] at hM ⊢
    rw [hM]; norm_num
    linarith
  | yy =>
    simp only [axisCoef, axisInertia] at hM ⊢
    rw [hM]; norm_num
    linarith
  | a11 =>
    have e : M = momentAbout r.cent.ixxC r.cent.iyyC r.cent.ixyC (r.cent.phi * Real.pi / 180) := by
      rw [hM]; simp only [axisCoef, momentAbout]; ring
    rw [e]
    simp only [axisInertia]
    by_cases hsn : Snapped r
    · refine ⟨?_, fun hn => absurd hsn hn⟩
      have hphi : r.cent.phi = 0 := by
        rw [c6, phiOf, if_pos]
        unfold Snapped at hsn
        rwa [← c4]
      unfold Snapped at hsn
      rw [hphi]
      simp only [momentAbout, zero_mul, zero_div, Real.cos_zero, Real.sin_zero]
      rw [abs_lt] at hsn
      norm_num
      linarith [hsn.1]
    · unfold Snapped at hsn
      have hd := (C10_diagonal r.cent.ixxC r.cent.iyyC r.cent.ixyC (by rw [← c4]; exact h6)
        (by rw [← c4]; exact hsn)).2.1
      rw [← c6, ← c4] at hd
      rw [hd]
      exact ⟨by linarith, fun _ => le_refl _⟩
  | a22 =>
    have e : M = momentAbout r.cent.ixxC r.cent.iyyC r.cent.ixyC
        (r.cent.phi * Real.pi / 180 + Real.pi / 2) := by
      rw [hM]; simp only [axisCoef, momentAbout, Real.cos_add_pi_div_two, Real.sin_add_pi_div_two]; ring
    rw [e]
    simp only [axisInertia]
    have := (hext (r.cent.phi * Real.pi / 180 + Real.pi / 2)).1
    exact ⟨by linarith, fun _ => this⟩

theorem node_coord {s : Section} (hg : GoodSection s) (r : GeomResults) (a : Axis)
    {t : Tri6 s.numNodes} (ht : t ∈ s.elements) (i : Fin 6) :
    (axisCoef r.cent.phi a).1 * (t.coords.x i - r.cx) + (axisCoef r.cent.phi a).2 * (t.coords.y i - r.cy)
      = fibre s r (t.nodeIds i) a := by
  rw [hg.coords t ht]
  cases a <;> simp [axisCoef, fibre, gather, rotX, rotY] <;> ring

/-- **C35** (bound, unit material): about every axis the smaller elastic section modulus is at most the
integral of the distance to the plastic axis, wherever that axis is. -/
theorem modulus_le {P : Type*} {reg : P → Set (ℝ × ℝ)} {geoms : List (PGeom P)} {s : Section}
    {r : GeomResults} (hg : GoodSection s) (h : Physical s.elements) (hr : s.geometricAnalysis = .ok r)
    (hdef : ∀ t ∈ s.elements, t.material = defaultMaterial)
    {c : ℝ × ℝ} (hsame : SameStrength reg geoms s.elements c) (a : Axis) (d : ℝ) :
    (1 - 1e-12) * min (axisZ r a).1 (axisZ r a).2
        ≤ yieldInt reg geoms (fun q => |axisCoord r.cent.phi q a - d|) ∧
    (¬ Snapped r → min (axisZ r a).1 (axisZ r a).2
        ≤ yieldInt reg geoms (fun q => |axisCoord r.cent.phi q a - d|)) := by
  obtain ⟨dp, dm, hp, hm, hgr, hle, hz⟩ := C12_moduli hr h hg a
  have hD : 0 < max dp dm := lt_max_of_lt_left hp
  have hI : 0 < axisInertia r a := by
    obtain ⟨-, -, h1, h2, h3, h4, h5, -⟩ := C09_positive hr h
    cases a
    · exact h1
    · exact h2
    · exact lt_of_lt_of_le h5 h4
    · exact h5
  have hmin : min (axisZ r a).1 (axisZ r a).2 = axisInertia r a / max dp dm := by
    rw [hz]
    simp only
    rcases le_total dp dm with hh | hh
    · rw [max_eq_right hh, min_eq_right]
      exact div_le_div_of_nonneg_left hI.le hp hh
    · rw [max_eq_left hh, min_eq_left]
      exact div_le_div_of_nonneg_left hI.le hm hh
  have hb := elastic_le_plastic hg h hr hsame (u := (axisCoef r.cent.phi a).1 / max dp dm)
    (v := (axisCoef r.cent.phi a).2 / max dp dm) (by
      intro t ht i
      rw [hdef t ht]
      have e : (defaultMaterial.elasticModulus : ℝ) * ((axisCoef r.cent.phi a).1 / max dp dm *
          (t.coords.x i - r.cx) + (axisCoef r.cent.phi a).2 / max dp dm * (t.coords.y i - r.cy))
          = fibre s r (t.nodeIds i) a / max dp dm := by
        rw [← node_coord hg r a ht i]
        simp only [defaultMaterial]
        ring
      rw [e, abs_div, abs_of_pos hD, div_le_iff₀ hD]
      simp only [defaultMaterial, one_mul]
      have u1 : fibre s r (t.nodeIds i) a ≤ dp := hgr.2 ⟨_, rfl⟩
      have u2 : -dm ≤ fibre s r (t.nodeIds i) a := hle.2 ⟨_, rfl⟩
      rw [abs_le]
      constructor
      · linarith [le_max_right dp dm]
      · linarith [le_max_left dp dm]) r.cent.phi a d
  have hsec := second_moment hg h hr a
  have e : wInt (s.elements.map fun t => t.shiftBy r.cx r.cy) (fun _ p =>
      ((axisCoef r.cent.phi a).1 / max dp dm * p.1 + (axisCoef r.cent.phi a).2 / max dp dm * p.2) *
        ((axisCoef r.cent.phi a).1 * p.1 + (axisCoef r.cent.phi a).2 * p.2))
      = (1 / max dp dm) * wInt (s.elements.map fun t => t.shiftBy r.cx r.cy) (fun _ p =>
      ((axisCoef r.cent.phi a).1 * p.1 + (axisCoef r.cent.phi a).2 * p.2) *
        ((axisCoef r.cent.phi a).1 * p.1 + (axisCoef r.cent.phi a).2 * p.2)) := by
    rw [← wInt_smul]
    exact wInt_congr fun t _ p => by ring
  rw [e] at hb
  have hb' := (le_abs_self _).trans hb
  rw [hmin]
  constructor
  · refine le_trans ?_ hb'
    rw [one_div, inv_mul_eq_div, ← mul_div_assoc]
    exact (div_le_div_iff_of_pos_right hD).2 hsec.1
  · intro hsn
    refine le_trans ?_ hb'
    rw [one_div, inv_mul_eq_div]
    exact (div_le_div_iff_of_pos_right hD).2 (hsec.2 hsn)

/-- Coefficients of the unit-modulus bending stress for a moment. -/
noncomputable def bendCoef (I : Inertia) (M : ℝ) : Axis → ℝ × ℝ
  | .xx => (-(M * I.ixy / (I.ixx * I.iyy - I.ixy ^ 2)), M * I.iyy / (I.ixx * I.iyy - I.ixy ^ 2))
  | .yy => (-(M * I.ixx / (I.ixx * I.iyy - I.ixy ^ 2)), M * I.ixy / (I.ixx * I.iyy - I.ixy ^ 2))
  | .a11 => (M / I.i11 * -Real.sin (I.phi * Real.pi / 180), M / I.i11 * Real.cos (I.phi * Real.pi / 180))
  | .a22 => (-(M / I.i22) * Real.cos (I.phi * Real.pi / 180),
      -(M / I.i22) * Real.sin (I.phi * Real.pi / 180))

theorem bendCoef_eq (I : Inertia) (M E x y : ℝ) (a : Axis) :
    bendingStress I M E x y a = E * ((bendCoef I M a).1 * x + (bendCoef I M a).2 * y) := by
  cases a <;> simp only [bendingStress, bendCoef, rotX, rotY] <;> ring

/-- **C35** (bound, composite sections): about every axis the reported yield moment is at most the
integral of yield strength times distance to the plastic axis, wherever that axis is. -/
theorem yield_le {P : Type*} {reg : P → Set (ℝ × ℝ)} {geoms : List (PGeom P)} {s : Section}
    {r : GeomResults} (hg : GoodSection s) (h : Physical s.elements) (hr : s.geometricAnalysis = .ok r)
    (hgr : Grouped s) (hy : ∀ g ∈ s.groups, 0 < g.material.val.yieldStrength ∧
      0 < g.material.val.elasticModulus)
    {c : ℝ × ℝ} (hsame : SameStrength reg geoms s.elements c) (a : Axis) (d : ℝ) :
    0 < axisMy r a ∧
    (1 - 1e-12) * axisMy r a ≤ yieldInt reg geoms (fun q => |axisCoord r.cent.phi q a - d|) ∧
    (¬ Snapped r → axisMy r a ≤ yieldInt reg geoms (fun q => |axisCoord r.cent.phi q a - d|)) := by
  have hmem : ∀ t ∈ s.elements, ∃ g ∈ s.groups, t ∈ g.elements := by
    intro t ht
    have := hgr.partition.mem_iff.2 ht
    simpa using this
  obtain ⟨hpos, hall, -⟩ := C30_yield_moment hr h (fun g hg' => ⟨hy g hg', fun t ht => by
      refine h.proper t (hgr.partition.mem_iff.1 ?_)
      rw [List.mem_flatMap]; exact ⟨g, hg', ht⟩⟩) (by
      obtain ⟨t, ht⟩ := List.exists_mem_of_ne_nil _ h.nonempty
      obtain ⟨g, hg', ht'⟩ := hmem t ht
      exact ⟨g, hg', List.ne_nil_of_mem ht'⟩) a
  refine ⟨hpos, ?_⟩
  have hb := elastic_le_plastic hg h hr hsame (u := (bendCoef r.inertia (axisMy r a) a).1)
    (v := (bendCoef r.inertia (axisMy r a) a).2) (by
      intro t ht i
      obtain ⟨g, hg', ht'⟩ := hmem t ht
      have := hall g hg' t ht' i
      rw [nodeStress, bendCoef_eq] at this
      rw [hgr.material g hg' t ht']
      exact this) r.cent.phi a d
  obtain ⟨-, -, h1, h2, h3, h4, h5, -⟩ := C09_positive hr h
  have h6 : 0 < r.cent.i11 := lt_of_lt_of_le h5 h4
  have hs := centroidalSetup hg h hr
  have hdet := hs.det
  have hsec := second_moment hg h hr a
  have key : ∀ k I : ℝ, 0 < I → axisInertia r a = I → |k| = axisMy r a / I →
      bendCoef r.inertia (axisMy r a) a = (k * (axisCoef r.cent.phi a).1, k * (axisCoef r.cent.phi a).2) →
      (1 - 1e-12) * axisMy r a ≤ yieldInt reg geoms (fun q => |axisCoord r.cent.phi q a - d|) ∧
      (¬ Snapped r → axisMy r a ≤ yieldInt reg geoms (fun q => |axisCoord r.cent.phi q a - d|)) := by
    intro k I hI hIa hk hbc
    rw [hbc] at hb
    have e : wInt (s.elements.map fun t => t.shiftBy r.cx r.cy) (fun _ p =>
        (k * (axisCoef r.cent.phi a).1 * p.1 + k * (axisCoef r.cent.phi a).2 * p.2) *
          ((axisCoef r.cent.phi a).1 * p.1 + (axisCoef r.cent.phi a).2 * p.2))
        = k * wInt (s.elements.map fun t => t.shiftBy r.cx r.cy) (fun _ p =>
        ((axisCoef r.cent.phi a).1 * p.1 + (axisCoef r.cent.phi a).2 * p.2) *
          ((axisCoef r.cent.phi a).1 * p.1 + (axisCoef r.cent.phi a).2 * p.2)) := by
      rw [← wInt_smul]
      exact wInt_congr fun t _ p => by ring
    simp only at hb
    rw [e, abs_mul, hk] at hb
    have hq : 0 < axisMy r a / I := div_pos hpos hI
    rw [hIa] at hsec
    constructor
    · refine le_trans ?_ hb
      calc (1 - 1e-12) * axisMy r a = axisMy r a / I * ((1 - 1e-12) * I) := by field_simp
        _ ≤ axisMy r a / I * _ := mul_le_mul_of_nonneg_left hsec.1 hq.le
        _ ≤ _ := mul_le_mul_of_nonneg_left (le_abs_self _) hq.le
    · intro hsn
      refine le_trans ?_ hb
      calc axisMy r a = axisMy r a / I * I := by field_simp
        _ ≤ axisMy r a / I * _ := mul_le_mul_of_nonneg_left (hsec.2 hsn) hq.le
        _ ≤ _ := mul_le_mul_of_nonneg_left (le_abs_self _) hq.le
  have key2 : |wInt (s.elements.map fun t => t.shiftBy r.cx r.cy) (fun _ p =>
        ((bendCoef r.inertia (axisMy r a) a).1 * p.1 + (bendCoef r.inertia (axisMy r a) a).2 * p.2) *
          ((axisCoef r.cent.phi a).1 * p.1 + (axisCoef r.cent.phi a).2 * p.2))| = axisMy r a →
      (1 - 1e-12) * axisMy r a ≤ yieldInt reg geoms (fun q => |axisCoord r.cent.phi q a - d|) ∧
      (¬ Snapped r → axisMy r a ≤ yieldInt reg geoms (fun q => |axisCoord r.cent.phi q a - d|)) := by
    intro he
    rw [he] at hb
    exact ⟨by linarith, fun _ => hb⟩
  have hquad : ∀ u v : ℝ, wInt (s.elements.map fun t => t.shiftBy r.cx r.cy) (fun _ p =>
        (u * p.1 + v * p.2) * ((axisCoef r.cent.phi a).1 * p.1 + (axisCoef r.cent.phi a).2 * p.2))
      = u * (axisCoef r.cent.phi a).1 * r.cent.iyyC
        + (u * (axisCoef r.cent.phi a).2 + v * (axisCoef r.cent.phi a).1) * r.cent.ixyC
        + v * (axisCoef r.cent.phi a).2 * r.cent.ixxC := by
    intro u v
    rw [← hs.ixx, ← hs.iyy, ← hs.ixy, ← wInt_quadmom]
    exact wInt_congr fun t _ p => by ring
  cases a with
  | xx =>
    apply key2
    rw [hquad]
    simp only [bendCoef, GeomResults.inertia, axisCoef] at *
    rw [abs_eq hpos.le]
    left
    field_simp
    ring
  | yy =>
    apply key2
    rw [hquad]
    simp only [bendCoef, GeomResults.inertia, axisCoef] at *
    rw [abs_eq hpos.le]
    right
    field_simp
    ring
  | a11 =>
    refine key (axisMy r .a11 / r.cent.i11) r.cent.i11 h6 rfl (abs_of_pos (div_pos hpos h6)) ?_
    simp only [bendCoef, GeomResults.inertia, axisCoef]
  | a22 =>
    refine key (-(axisMy r .a22 / r.cent.i22)) r.cent.i22 h5 rfl
      (by rw [abs_neg, abs_of_pos (div_pos hpos h5)]) ?_
    simp only [bendCoef, GeomResults.inertia, axisCoef]

/-- Fields of the store that hold the plastic centroid, plastic modulus and the two shape factors. -/
def axisFields : Axis → Field × Field × Field × Field
  | .xx => (.yPc, .sxx, .sfXXPlus, .sfXXMinus)
  | .yy => (.xPc, .syy, .sfYYPlus, .sfYYMinus)
  | .a11 => (.y22Pc, .s11, .sf11Plus, .sf11Minus)
  | .a22 => (.x11Pc, .s22, .sf22Plus, .sf22Minus)

open Classical in
/-- What the shape factors are relative to. -/
noncomputable def sfBase {P : Type} (env : Env P) (r : GeomResults) (a : Axis) : ℝ × ℝ :=
  if isComposite env.sec.materials then (axisMy r a, axisMy r a) else axisZ r a

/-- The values stored by a successful plastic analysis. -/
noncomputable def plasticValues {P : Type} (env : Env P) (r : GeomResults) (v : Axis → ℝ × ℝ) :
    List (Field × ℝ) :=
  [(.yPc, (v .xx).1), (.sxx, (v .xx).2), (.xPc, (v .yy).1), (.syy, (v .yy).2),
   (.y22Pc, (v .a11).1), (.s11, (v .a11).2), (.x11Pc, (v .a22).1), (.s22, (v .a22).2),
   (.sfXXPlus, (v .xx).2 / (sfBase env r .xx).1), (.sfXXMinus, (v .xx).2 / (sfBase env r .xx).2),
   (.sfYYPlus, (v .yy).2 / (sfBase env r .yy).1), (.sfYYMinus, (v .yy).2 / (sfBase env r .yy).2),
   (.sf11Plus, (v .a11).2 / (sfBase env r .a11).1), (.sf11Minus, (v .a11).2 / (sfBase env r .a11).2),
   (.sf22Plus, (v .a22).2 / (sfBase env r .a22).1), (.sf22Minus, (v .a22).2 / (sfBase env r .a22).2)]

set_option maxHeartbeats 2000000 in
theorem exec_plastic {P : Type} (env : Env P) {r : GeomResults} {v : Axis → ℝ × ℝ}
    (hv : ∀ a, axisPlastic env.brentq env.plastic r.cent.phi a = .ok (v a))
    (hne : ∀ a, (axisZ r a).1 ≠ 0 ∧ (axisZ r a).2 ≠ 0)
    (hmy : isComposite env.sec.materials → ∀ a, axisMy r a ≠ 0) {st : Store env.sec.numNodes}
    (hst : HoldsGeom env.perimeter r st) :
    exec env.plasticAnalysis st = (.ok (), st.set (plasticValues env r v)) := by
  have hx := hv .xx
  have hy := hv .yy
  have h1 := hv .a11
  have h2 := hv .a22
  simp only [axisPlastic] at hx hy h1 h2
  have g : ∀ f x, (f, x) ∈ geomValues env.perimeter r → st.val f = some x := fun f x hm => hst (f, x) hm
  have gcx := g .cx r.cx (by simp [geomValues])
  have gphi := g .phi r.cent.phi (by simp [geomValues])
  have z1 := g .zxxPlus r.cent.zxxPlus (by simp [geomValues])
  have z2 := g .zxxMinus r.cent.zxxMinus (by simp [geomValues])
  have z3 := g .zyyPlus r.cent.zyyPlus (by simp [geomValues])
  have z4 := g .zyyMinus r.cent.zyyMinus (by simp [geomValues])
  have z5 := g .z11Plus r.cent.z11Plus (by simp [geomValues])
  have z6 := g .z11Minus r.cent.z11Minus (by simp [geomValues])
  have z7 := g .z22Plus r.cent.z22Plus (by simp [geomValues])
  have z8 := g .z22Minus r.cent.z22Minus (by simp [geomValues])
  have m1 := g .myXX r.myXX (by simp [geomValues])
  have m2 := g .myYY r.myYY (by simp [geomValues])
  have m3 := g .my11 r.my11 (by simp [geomValues])
  have m4 := g .my22 r.my22 (by simp [geomValues])
  have n1 := hne .xx
  have n2 := hne .yy
  have n3 := hne .a11
  have n4 := hne .a22
  simp only [axisZ] at n1 n2 n3 n4
  unfold Env.plasticAnalysis
  rw [exec_get_bind]
  simp only [gcx, reduceCtorEq, if_false]
  rw [exec_attempt_bind, hx]
  simp only [exec_write_bind]
  rw [exec_attempt_bind, hy]
  simp only [exec_write_bind, set_set, exec_get_bind]
  simp only [set_val, assign_cons, assign_nil, ne_eq, reduceCtorEq, not_false_eq_true,
    Function.update_self, Function.update_of_ne, List.cons_append, List.nil_append, gphi]
  rw [exec_attempt_bind, h1]
  simp only [exec_write_bind, set_set]
  rw [exec_attempt_bind, h2]
  simp only [exec_write_bind, set_set, List.cons_append, List.nil_append]
  unfold Env.shapeFactors
  rw [exec_get_bind]
  simp only [Env.truthy, Env.quot, set_val, assign_cons, assign_nil, ne_eq, reduceCtorEq, not_false_eq_true,
    Function.update_self, Function.update_of_ne, or_self, if_false, exec_pure_bind, z1, z2, z3, z4, z5,
    z6, z7, z8, m1, m2, m3, m4, Option.some.injEq, exists_eq_left', Option.getD_some, n1, n2, n3, n4,
    and_self, if_true]
  by_cases hc : isComposite env.sec.materials
  · have q1 := hmy hc .xx
    have q2 := hmy hc .yy
    have q3 := hmy hc .a11
    have q4 := hmy hc .a22
    simp only [axisMy] at q1 q2 q3 q4
    simp only [hc, not_true_eq_false, if_false, q1, q2, q3, q4, not_false_eq_true, and_self, if_true,
      exec_write_bind, exec_write, set_set, List.cons_append, List.nil_append]
    congr 1
    refine Store.ext' ?_ rfl rfl rfl
    funext f
    cases f <;> simp [set_val, assign_cons, assign_nil, plasticValues, sfBase, hc, axisMy]
  · simp only [hc, not_false_eq_true, if_true,
      exec_write_bind, exec_write, set_set, List.cons_append, List.nil_append]
    congr 1
    refine Store.ext' ?_ rfl rfl rfl
    funext f
    cases f <;> simp [set_val, assign_cons, assign_nil, plasticValues, sfBase, hc, axisZ]

theorem exec_plastic_error {P : Type} (env : Env P) {r : GeomResults}
    (hv : ∀ a, axisPlastic env.brentq env.plastic r.cent.phi a = .error .runtimeError ∨
      ∃ v, axisPlastic env.brentq env.plastic r.cent.phi a = .ok v)
    (he : ∃ a, axisPlastic env.brentq env.plastic r.cent.phi a = .error .runtimeError)
    {st : Store env.sec.numNodes} (hst : HoldsGeom env.perimeter r st) :
    (exec env.plasticAnalysis st).1 = .error .runtimeError := by
  have hx := hv .xx
  have hy := hv .yy
  have h1 := hv .a11
  have h2 := hv .a22
  simp only [axisPlastic] at hx hy h1 h2
  have gcx := hst (.cx, r.cx) (by simp [geomValues])
  have gphi := hst (.phi, r.cent.phi) (by simp [geomValues])
  dsimp only at gcx gphi
  unfold Env.plasticAnalysis
  rw [exec_get_bind]
  simp only [gcx, reduceCtorEq, if_false]
  rw [exec_attempt_bind]
  rcases hx with hx | ⟨v1, hx⟩
  · rw [hx]
  rw [hx]
  simp only [exec_write_bind]
  rw [exec_attempt_bind]
  rcases hy with hy | ⟨v2, hy⟩
  · rw [hy]
  rw [hy]
  simp only [exec_write_bind, set_set, exec_get_bind]
  simp only [set_val, assign_cons, assign_nil, ne_eq, reduceCtorEq, not_false_eq_true,
    Function.update_of_ne, List.cons_append, List.nil_append, gphi]
  rw [exec_attempt_bind]
  rcases h1 with h1 | ⟨v3, h1⟩
  · rw [h1]
  rw [h1]
  simp only [exec_write_bind, set_set]
  rw [exec_attempt_bind]
  rcases h2 with h2 | ⟨v4, h2⟩
  · rw [h2]
  obtain ⟨a, ha⟩ := he
  cases a <;> simp only [axisPlastic] at ha
  · rw [ha] at hx; cases hx
  · rw [ha] at hy; cases hy
  · rw [ha] at h1; cases h1
  · rw [ha] at h2; cases h2

open Classical in
/-- The moment at first yield to which the larger shape factor refers: the yield moment, and without
materials (unit yield strength) the smaller section modulus. -/
noncomputable def firstYield {P : Type} (env : Env P) (r : GeomResults) (a : Axis) : ℝ :=
  if isComposite env.sec.materials then axisMy r a else min (axisZ r a).1 (axisZ r a).2

/-- **C35**: after a geometric analysis, a plastic analysis either raises `RuntimeError` because the root
search did not converge, or stores for every axis a plastic axis position `d`, the plastic moment `S`,
which is the integral of yield strength times distance to the axis up to the tolerance of the search,
and two shape factors of which the larger one is `S` over the moment at first yield; this is at least
one (up to the search tolerance, and up to `1e-12` if the principal angle was replaced by zero). -/
theorem C35_shape_factors {P : Type} (env : Env P) {r : GeomResults} {reg : P → Set (ℝ × ℝ)}
    (hg : GoodSection env.sec) (h : Physical env.sec.elements)
    (hr : env.sec.geometricAnalysis = .ok r) (hgr : Grouped env.sec)
    (hy : ∀ g ∈ env.sec.groups, 0 < g.material.val.yieldStrength ∧ 0 < g.material.val.elasticModulus)
    (hmat : ∀ t ∈ env.sec.elements, ∃ m ∈ env.sec.materials, t.material = m.val)
    {c : ℝ × ℝ} (hsame : SameStrength reg env.plastic.geoms env.sec.elements c)
    (hp : PlasticOk env.plastic reg) {tol : ℝ → ℝ} (hbr : RootFinder tol env.brentq)
    {st : Store env.sec.numNodes} (hst : HoldsGeom env.perimeter r st) :
    ((exec env.plasticAnalysis st).1 = .error .runtimeError ∧
      ∃ f lo hi q, env.brentq f lo hi = .ok q ∧ q.converged = false) ∨
    ((exec env.plasticAnalysis st).1 = .ok () ∧ ∀ a, ∃ d S p m,
      (exec env.plasticAnalysis st).2.val (axisFields a).1 = some d ∧
      (exec env.plasticAnalysis st).2.val (axisFields a).2.1 = some S ∧
      (exec env.plasticAnalysis st).2.val (axisFields a).2.2.1 = some p ∧
      (exec env.plasticAnalysis st).2.val (axisFields a).2.2.2 = some m ∧
      (S ≤ yieldInt reg env.plastic.geoms (fun q => |axisCoord r.cent.phi q a - d|) ∧
        yieldInt reg env.plastic.geoms (fun q => |axisCoord r.cent.phi q a - d|)
          ≤ S + 2 * tol d * yieldForce reg env.plastic.geoms Set.univ) ∧
      0 < firstYield env r a ∧
      max p m = S / firstYield env r a ∧
      1 - 1e-12 - 2 * tol d * yieldForce reg env.plastic.geoms Set.univ / firstYield env r a ≤ max p m ∧
      (¬ Snapped r →
        1 - 2 * tol d * yieldForce reg env.plastic.geoms Set.univ / firstYield env r a ≤ max p m)) := by
  have hP := fun a => C34_plastic_axis hp hbr r.cent.phi a
  by_cases hall : ∀ a, ∃ v, axisPlastic env.brentq env.plastic r.cent.phi a = .ok v
  · right
    choose v hv using hall
    have hZ : ∀ a, 0 < (axisZ r a).1 ∧ 0 < (axisZ r a).2 := by
      intro a
      obtain ⟨dp, dm, h1, h2, -, -, hz⟩ := C12_moduli hr h hg a
      have hI : 0 < axisInertia r a := by
        obtain ⟨-, -, h1, h2, h3, h4, h5, -⟩ := C09_positive hr h
        cases a
        · exact h1
        · exact h2
        · exact lt_of_lt_of_le h5 h4
        · exact h5
      rw [hz]
      exact ⟨div_pos hI h1, div_pos hI h2⟩
    have hY := fun a d => yield_le hg h hr hgr hy hsame a d
    rw [exec_plastic env hv (fun a => ⟨(hZ a).1.ne', (hZ a).2.ne'⟩) (fun _ a => (hY a 0).1.ne') hst]
    refine ⟨rfl, fun a => ?_⟩
    have hS : ∀ d S, v a = (d, S) →
        (S ≤ yieldInt reg env.plastic.geoms (fun q => |axisCoord r.cent.phi q a - d|) ∧
        yieldInt reg env.plastic.geoms (fun q => |axisCoord r.cent.phi q a - d|)
          ≤ S + 2 * tol d * yieldForce reg env.plastic.geoms Set.univ) ∧ 0 ≤ S := by
      intro d S hvS
      rcases hP a with ⟨he, -⟩ | ⟨d', S', ha, -, h0, h1, h2⟩
      · rw [hv a] at he; cases he
      · rw [hv a, hvS] at ha
        cases ha
        exact ⟨⟨h1, h2⟩, h0⟩
    obtain ⟨hb, hS0⟩ := hS (v a).1 (v a).2 rfl
    have hF : 0 < firstYield env r a ∧
        (1 - 1e-12) * firstYield env r a ≤
          yieldInt reg env.plastic.geoms (fun q => |axisCoord r.cent.phi q a - (v a).1|) ∧
        (¬ Snapped r → firstYield env r a ≤
          yieldInt reg env.plastic.geoms (fun q => |axisCoord r.cent.phi q a - (v a).1|)) := by
      unfold firstYield
      by_cases hc : isComposite env.sec.materials
      · rw [if_pos hc]
        exact hY a _
      · rw [if_neg hc]
        refine ⟨lt_min (hZ a).1 (hZ a).2, modulus_le hg h hr (fun t ht => ?_) hsame a _⟩
        obtain ⟨m, hm, e⟩ := hmat t ht
        unfold isComposite at hc
        push Not at hc
        rw [e]
        exact hc.2 m hm
    have hmax : max ((v a).2 / (sfBase env r a).1) ((v a).2 / (sfBase env r a).2)
        = (v a).2 / firstYield env r a := by
      unfold sfBase firstYield
      by_cases hc : isComposite env.sec.materials
      · simp [hc]
      · simp only [hc, if_false]
        rcases le_total (axisZ r a).1 (axisZ r a).2 with hh | hh
        · rw [min_eq_left hh, max_eq_left]
          exact div_le_div_of_nonneg_left hS0 (hZ a).1 hh
        · rw [min_eq_right hh, max_eq_right]
          exact div_le_div_of_nonneg_left hS0 (hZ a).2 hh
    refine ⟨(v a).1, (v a).2, (v a).2 / (sfBase env r a).1, (v a).2 / (sfBase env r a).2,
      ?_, ?_, ?_, ?_, hb, hF.1, hmax, ?_, ?_⟩
    · cases a <;> simp [set_val, axisFields, plasticValues, assign_cons, assign_nil]
    · cases a <;> simp [set_val, axisFields, plasticValues, assign_cons, assign_nil]
    · cases a <;> simp [set_val, axisFields, plasticValues, assign_cons, assign_nil]
    · cases a <;> simp [set_val, axisFields, plasticValues, assign_cons, assign_nil]
    · rw [hmax, sub_le_iff_le_add, ← add_div, le_div_iff₀ hF.1]
      linarith [hF.2.1, hb.2]
    · intro hsn
      rw [hmax, sub_le_iff_le_add, ← add_div, le_div_iff₀ hF.1]
      linarith [hF.2.2 hsn, hb.2]
  · left
    push Not at hall
    obtain ⟨a, ha⟩ := hall
    rcases hP a with ⟨he, hq⟩ | ⟨d, S, ho, -⟩
    · refine ⟨exec_plastic_error env (fun b => ?_) ⟨a, he⟩ hst, hq⟩
      rcases hP b with ⟨hb, -⟩ | ⟨d, S, hb, -⟩
      · exact .inl hb
      · exact .inr ⟨_, hb⟩
    · exact absurd ho (ha _)

end SP
