import Verif.Props.ShearSlices
import Verif.Spec.Rects

/-!
# C91: rectangles, layered rectangles and I-sections
-/

namespace SP

open Spec MeasureTheory Set

variable {s : Section} {r : GeomResults} {m M : ℝ} {e : ℝ → ℝ}

theorem tame_const {c : ℝ} (hc : 0 < c) : Tame (fun _ => c) c c :=
  ⟨hc, fun _ => le_rfl, fun _ => le_rfl, measurable_const, ∅, countable_empty, fun _ _ => continuousAt_const⟩

theorem int_quart (A B c p q : ℝ) : ∫ y in p..q, (A + B * (y - c) ^ 2) ^ 2 =
    A ^ 2 * ((q - c) - (p - c)) + 2 * A * B * ((q - c) ^ 3 - (p - c) ^ 3) / 3 + B ^ 2 * ((q - c) ^ 5 - (p - c) ^ 5) / 5 := by
  rw [intervalIntegral.integral_eq_sub_of_hasDerivAt
    (f := fun y => A ^ 2 * (y - c) + 2 * A * B * (y - c) ^ 3 / 3 + B ^ 2 * (y - c) ^ 5 / 5) (fun y _ => ?_)
    (Continuous.intervalIntegrable (by fun_prop) _ _)]
  · ring
  · have h0 : HasDerivAt (fun y : ℝ => y - c) 1 y := (hasDerivAt_id y).sub_const c
    have h1 := h0.const_mul (A ^ 2)
    have h2 := ((h0.pow 3).const_mul (2 * A * B)).div_const 3
    have h3 := ((h0.pow 5).const_mul (B ^ 2)).div_const 5
    refine ((h1.add h2).add h3).congr_deriv ?_
    norm_num
    ring

theorem int_square (c p q : ℝ) : ∫ y in p..q, (y - c) ^ 2 = ((q - c) ^ 3 - (p - c) ^ 3) / 3 := by
  rw [intervalIntegral.integral_eq_sub_of_hasDerivAt (f := fun y => (y - c) ^ 3 / 3) (fun y _ => ?_)
    (Continuous.intervalIntegrable (by fun_prop) _ _)]
  · ring
  · have h0 : HasDerivAt (fun y : ℝ => y - c) 1 y := (hasDerivAt_id y).sub_const c
    refine ((h0.pow 3).div_const 3).congr_deriv ?_
    norm_num

theorem int_line (c p q : ℝ) : ∫ y in p..q, (y - c) = ((q - c) ^ 2 - (p - c) ^ 2) / 2 := by
  rw [intervalIntegral.integral_eq_sub_of_hasDerivAt (f := fun y => (y - c) ^ 2 / 2) (fun y _ => ?_)
    (Continuous.intervalIntegrable (by fun_prop) _ _)]
  · ring
  · have h0 : HasDerivAt (fun y : ℝ => y - c) 1 y := (hasDerivAt_id y).sub_const c
    refine ((h0.pow 2).div_const 2).congr_deriv ?_
    norm_num

/-- A rectangle is sliced into strips of its whole width. -/
theorem rect_sliced (x0 y0 y1 b : ℝ) : Ioo x0 (x0 + b) ×ˢ Ioo y0 y1 = sliced (x0 + b / 2) y0 y1 fun _ => b / 2 := by
  ext p
  simp only [mem_prod, mem_Ioo, sliced, mem_ofPred_eq, abs_lt]
  constructor
  · rintro ⟨⟨h1, h2⟩, h3⟩; exact ⟨h3, by linarith, by linarith⟩
  · rintro ⟨h3, h1, h2⟩; exact ⟨⟨by linarith, by linarith⟩, h3⟩

/-- **C91** for a rectangle of width `b` made of horizontal layers, the modulus at the height `y` being `e y`: across the
layers the shear area is at least what the shear flow formula of the elementary theory gives, and along the layers it is at least
five sixths of the area. -/
theorem C91_layered (hg : GoodSection s) (hP : Physical s.elements) (hc : ConformingMesh s.meshNodes s.elements)
    (hno : NoOverlap s.elements) (hr : s.geometricAnalysis = .ok r) (sv : Solvers) (ty : SolverType)
    (w : WarpResults s.numNodes) (hw : s.warping sv ty r = .ok w) (hnu : isComposite s.materials → r.nuEff = 0)
    {x0 y0 y1 b : ℝ} (hb : 0 < b) (hy : y0 < y1) (hR : region s.elements =ᵐ[volume] Ioo x0 (x0 + b) ×ˢ Ioo y0 y1)
    (hE : IsField s.elements Material.elasticModulus fun p => e p.2) (he : Tame e m M) :
    let A := (assembleTorsion (s.elements.map fun t => t.shiftBy r.cx r.cy)).1
    let f := assembleShearLoad (s.elements.map fun t => t.shiftBy r.cx r.cy) (warpIn s.materials r)
    let S := fun y => ∫ η in y0..y, b * (e η * (η - r.cy))
    SolvesBordered A f.1 w.psi → SolvesBordered A f.2 w.phiS →
    5 / 6 * r.sums.ea ≤ w.areas.sx ∧ r.cent.ixxC ^ 2 ≤ w.areas.sy * ∫ y in y0..y1, S y ^ 2 / (b * e y) := by
  intro A f S h1 h2
  have hs : Slices s.elements (x0 + b / 2) y0 y1 (fun _ => b / 2) e := ⟨hy, by rw [← rect_sliced]; exact hR, hE⟩
  have hb2 : 0 < b / 2 := by positivity
  have hh : Tame (fun _ : ℝ => b / 2) (b / 2) (b / 2) := tame_const hb2
  obtain ⟨-, -, k3, k4, -⟩ := C91_symmetric hg hP hc hno hr sv ty w hw hnu hs hh he h1 h2
  obtain ⟨-, -, m3, -, m5, -⟩ := slices_moments hr hP hno hs hh
  obtain ⟨-, p1, -, p3, -⟩ := C09_positive hr hP
  obtain ⟨⟨q1, -⟩, -⟩ := C22_bounds_partial s r hg hP hr sv ty w hw hnu h1 h2
  constructor
  · have e1 : ∫ y in y0..y1, 2 * (e y * (b / 2)) = b * ∫ y in y0..y1, e y := by
      rw [← intervalIntegral.integral_const_mul]; exact intervalIntegral.integral_congr fun y _ => by ring
    have e2 : ∫ y in y0..y1, 2 / 3 * (e y * (b / 2) ^ 3) = b ^ 3 / 12 * ∫ y in y0..y1, e y := by
      rw [← intervalIntegral.integral_const_mul]; exact intervalIntegral.integral_congr fun y _ => by ring
    have e3 : ∫ y in y0..y1, 4 / 15 * (e y * (b / 2) ^ 5) = b ^ 5 / 120 * ∫ y in y0..y1, e y := by
      rw [← intervalIntegral.integral_const_mul]; exact intervalIntegral.integral_congr fun y _ => by ring
    rw [e1] at m3
    rw [m5, e2, e3] at k3
    rw [m3] at p1 ⊢
    set Q := ∫ y in y0..y1, e y
    have hQ : 0 < Q := pos_of_mul_pos_right p1 hb.le
    have hp : 0 < b ^ 5 * Q := by positivity
    have : 5 / 6 * (b * Q) * (b ^ 5 * Q) ≤ w.areas.sx * (b ^ 5 * Q) := by nlinarith
    exact le_of_mul_le_mul_right this hp
  · refine k4.trans (le_of_eq ?_)
    congr 1
    refine intervalIntegral.integral_congr fun y _ => ?_
    have e1 : ∫ η in y0..y, 2 * (e η * (η - r.cy) * (b / 2)) = S y :=
      intervalIntegral.integral_congr fun y _ => by ring
    simp only [e1]
    rw [sub_self, mul_div_cancel₀ b (two_ne_zero)]
    ring

/-- **C91** for a rectangle of one material: the four shear areas lie between five sixths of the area and the area. -/
theorem C91_rectangle (hg : GoodSection s) (hP : Physical s.elements) (hc : ConformingMesh s.meshNodes s.elements)
    (hno : NoOverlap s.elements) (hr : s.geometricAnalysis = .ok r) (sv : Solvers) (ty : SolverType)
    (w : WarpResults s.numNodes) (hw : s.warping sv ty r = .ok w) (hnu : isComposite s.materials → r.nuEff = 0)
    {x0 y0 b d E : ℝ} (hb : 0 < b) (hd : 0 < d) (hE0 : 0 < E)
    (hR : region s.elements =ᵐ[volume] Ioo x0 (x0 + b) ×ˢ Ioo y0 (y0 + d))
    (hE : ∀ t ∈ s.elements, t.material.elasticModulus = E) :
    let A := (assembleTorsion (s.elements.map fun t => t.shiftBy r.cx r.cy)).1
    let f := assembleShearLoad (s.elements.map fun t => t.shiftBy r.cx r.cy) (warpIn s.materials r)
    SolvesBordered A f.1 w.psi → SolvesBordered A f.2 w.phiS →
    ∀ a ∈ [w.areas.sx, w.areas.sy, w.areas.s11, w.areas.s22], 5 / 6 * (E * (b * d)) ≤ a ∧ a ≤ E * (b * d) := by
  intro A f h1 h2
  have hs : Slices s.elements (x0 + b / 2) y0 (y0 + d) (fun _ => b / 2) (fun _ => E) :=
    ⟨by linarith, by rw [← rect_sliced]; exact hR, fun t ht => Filter.Eventually.of_forall fun _ _ => (hE t ht).symm⟩
  have hb2 : 0 < b / 2 := by positivity
  have hh : Tame (fun _ : ℝ => b / 2) (b / 2) (b / 2) := tame_const hb2
  have hk := C91_symmetric hg hP hc hno hr sv ty w hw hnu hs hh (tame_const hE0) h1 h2
  obtain ⟨-, -, m3, m4, m5, m6⟩ := slices_moments hr hP hno hs hh
  obtain ⟨q1, q2, q3, q4, -⟩ := C22_bounds_partial s r hg hP hr sv ty w hw hnu h1 h2
  have hcy : r.cy = y0 + d / 2 := by
    have : ∫ y in y0..y0 + d, E * (y - r.cy) * (b / 2) = E * (b / 2) * ∫ y in y0..y0 + d, (y - r.cy) := by
      rw [← intervalIntegral.integral_const_mul]; exact intervalIntegral.integral_congr fun y _ => by ring
    rw [this, int_line] at m6
    have h3 := (mul_eq_zero.1 m6).resolve_left (by positivity)
    have h4 : d * (y0 + d / 2 - r.cy) = 0 := by linear_combination h3
    have := (mul_eq_zero.1 h4).resolve_left hd.ne'
    linarith
  have hea : r.sums.ea = E * (b * d) := by
    rw [m3, intervalIntegral.integral_const, smul_eq_mul]; ring
  have hxx : r.cent.ixxC = E * (b * d ^ 3 / 12) := by
    have : ∫ y in y0..y0 + d, 2 * (E * (y - r.cy) ^ 2 * (b / 2)) = E * b * ∫ y in y0..y0 + d, (y - r.cy) ^ 2 := by
      rw [← intervalIntegral.integral_const_mul]; exact intervalIntegral.integral_congr fun y _ => by ring
    rw [m4, this, int_square, hcy]
    ring
  have hyy : r.cent.iyyC = E * (d * b ^ 3 / 12) := by
    rw [m5, intervalIntegral.integral_const, smul_eq_mul]; ring
  have hX : ∫ y in y0..y0 + d, 4 / 15 * (E * (b / 2) ^ 5) = E * (d * b ^ 5 / 120) := by
    rw [intervalIntegral.integral_const, smul_eq_mul]; ring
  have hS : ∀ y, ∫ η in y0..y, 2 * (E * (η - r.cy) * (b / 2)) = E * b / 2 * (-(d / 2) ^ 2 + 1 * (y - r.cy) ^ 2) := by
    intro y
    have : ∫ η in y0..y, 2 * (E * (η - r.cy) * (b / 2)) = E * b * ∫ η in y0..y, (η - r.cy) := by
      rw [← intervalIntegral.integral_const_mul]; exact intervalIntegral.integral_congr fun y _ => by ring
    rw [this, int_line, hcy]
    ring
  have hY : ∫ y in y0..y0 + d, ((∫ η in y0..y, 2 * (E * (η - r.cy) * (b / 2))) ^ 2 / (2 * (b / 2) * E) +
      2 / 3 * (E * (y - r.cy) ^ 2 * (b / 2 - b / 2) ^ 2 * (b / 2))) = E * (b * d ^ 5 / 120) := by
    have : ∫ y in y0..y0 + d, ((∫ η in y0..y, 2 * (E * (η - r.cy) * (b / 2))) ^ 2 / (2 * (b / 2) * E) +
      2 / 3 * (E * (y - r.cy) ^ 2 * (b / 2 - b / 2) ^ 2 * (b / 2))) =
        E * b / 4 * ∫ y in y0..y0 + d, (-(d / 2) ^ 2 + 1 * (y - r.cy) ^ 2) ^ 2 := by
      rw [← intervalIntegral.integral_const_mul]
      refine intervalIntegral.integral_congr fun y _ => ?_
      simp only [hS]
      field_simp
      ring
    rw [this, int_quart, hcy]
    ring
  simp only [hX, hY, hxx, hyy] at hk
  obtain ⟨-, -, k3, k4, k5, k6⟩ := hk
  have e1 : E * (d * b ^ 5 / 120) / (E * (d * b ^ 3 / 12)) ^ 2 = 6 / 5 / (E * (b * d)) := by field_simp; norm_num
  have e2 : E * (b * d ^ 5 / 120) / (E * (b * d ^ 3 / 12)) ^ 2 = 6 / 5 / (E * (b * d)) := by field_simp; norm_num
  have c1 : ∀ x, 1 ≤ x * (6 / 5 / (E * (b * d))) → 5 / 6 * (E * (b * d)) ≤ x := by
    intro x hx
    have hp : 0 < E * (b * d) := by positivity
    rw [mul_div_assoc', le_div_iff₀ hp] at hx
    linarith
  rw [e1, e2] at k5 k6
  rw [← add_mul] at k5 k6
  rw [Real.cos_sq_add_sin_sq, one_mul] at k5
  rw [Real.sin_sq_add_cos_sq, one_mul] at k6
  have k3' : 1 ≤ w.areas.sx * (6 / 5 / (E * (b * d))) := by
    rw [← e1, mul_div_assoc', le_div_iff₀ (by positivity), one_mul]; exact k3
  have k4' : 1 ≤ w.areas.sy * (6 / 5 / (E * (b * d))) := by
    rw [← e2, mul_div_assoc', le_div_iff₀ (by positivity), one_mul]; exact k4
  rw [hea] at q1 q2 q3 q4
  intro a ha
  simp only [List.mem_cons, List.not_mem_nil, or_false] at ha
  rcases ha with rfl | rfl | rfl | rfl
  · exact ⟨c1 _ k3', q1.2⟩
  · exact ⟨c1 _ k4', q2.2⟩
  · exact ⟨c1 _ k5, q3.2⟩
  · exact ⟨c1 _ k6, q4.2⟩

/-! ### I-sections -/

/-- Half the width of an I-section at the height `y`. -/
noncomputable def iHalf (d b tf tw y : ℝ) : ℝ := if y < tf ∨ d - tf < y then b / 2 else tw / 2

theorem iShape_sliced {d b tf tw : ℝ} (hw : tw ≤ b) : iShape d b tf tw = sliced (b / 2) 0 d (iHalf d b tf tw) := by
  ext p
  simp only [iShape, sliced, mem_ofPred_eq, abs_lt, iHalf]
  split_ifs with h
  · constructor
    · rintro ⟨⟨h1, h2, h3, h4⟩, -⟩; exact ⟨⟨h3, h4⟩, by linarith, by linarith⟩
    · rintro ⟨⟨h3, h4⟩, h1, h2⟩
      exact ⟨⟨by linarith, by linarith, h3, h4⟩, by rcases h with h | h <;> simp [h]⟩
  · have h' := not_or.1 h
    constructor
    · rintro ⟨⟨h1, h2, h3, h4⟩, h5⟩
      rcases h5 with h5 | h5 | h5
      · exact absurd h5 h'.1
      · exact absurd h5 h'.2
      · exact ⟨⟨h3, h4⟩, by linarith [h5.1], by linarith [h5.2]⟩
    · rintro ⟨⟨h3, h4⟩, h1, h2⟩
      exact ⟨⟨by linarith, by linarith, h3, h4⟩, Or.inr (Or.inr ⟨by linarith, by linarith⟩)⟩

theorem iHalf_tame {d b tf tw : ℝ} (h0 : 0 < tw) (hw : tw ≤ b) : Tame (iHalf d b tf tw) (tw / 2) (b / 2) := by
  refine ⟨by positivity, fun y => ?_, fun y => ?_, ?_, {tf, d - tf}, (Set.toFinite _).countable, fun y hy => ?_⟩
  · unfold iHalf; split_ifs <;> linarith
  · unfold iHalf; split_ifs <;> linarith
  · exact Measurable.ite ((measurableSet_Iio (a := tf)).union (measurableSet_Ioi (a := d - tf))) measurable_const measurable_const
  · simp only [mem_insert_iff, mem_singleton_iff, not_or] at hy
    have hev : ∀ᶠ z in nhds y, iHalf d b tf tw z = iHalf d b tf tw y := by
      have h1 : ∀ᶠ z in nhds y, (z < tf ↔ y < tf) := by
        rcases lt_or_gt_of_ne hy.1 with h | h
        · filter_upwards [isOpen_Iio.mem_nhds h] with z hz; exact ⟨fun _ => h, fun _ => hz⟩
        · filter_upwards [isOpen_Ioi.mem_nhds h] with z hz
          exact ⟨fun hc => absurd hc (not_lt.2 (le_of_lt hz)), fun hc => absurd hc (not_lt.2 (le_of_lt h))⟩
      have h2 : ∀ᶠ z in nhds y, (d - tf < z ↔ d - tf < y) := by
        rcases lt_or_gt_of_ne hy.2 with h | h
        · filter_upwards [isOpen_Iio.mem_nhds h] with z hz
          exact ⟨fun hc => absurd hc (not_lt.2 (le_of_lt hz)), fun hc => absurd hc (not_lt.2 (le_of_lt h))⟩
        · filter_upwards [isOpen_Ioi.mem_nhds h] with z hz; exact ⟨fun _ => h, fun _ => hz⟩
      filter_upwards [h1, h2] with z a b
      simp only [iHalf, a, b]
    exact continuousAt_const.congr (Filter.EventuallyEq.symm hev)

/-- An integral in three parts. -/
theorem three_parts {f F1 F2 F3 : ℝ → ℝ} {p0 p1 p2 p3 : ℝ} (h1 : p0 ≤ p1) (h2 : p1 ≤ p2) (h3 : p2 ≤ p3)
    (e1 : ∀ y ∈ Ioo p0 p1, f y = F1 y) (e2 : ∀ y ∈ Ioo p1 p2, f y = F2 y) (e3 : ∀ y ∈ Ioo p2 p3, f y = F3 y)
    (c1 : Continuous F1) (c2 : Continuous F2) (c3 : Continuous F3) :
    ∫ y in p0..p3, f y = (∫ y in p0..p1, F1 y) + (∫ y in p1..p2, F2 y) + ∫ y in p2..p3, F3 y := by
  have key : ∀ {g G : ℝ → ℝ} {u v : ℝ}, u ≤ v → (∀ y ∈ Ioo u v, g y = G y) → Continuous G → IntervalIntegrable g volume u v := by
    intro g G u v huv hgG hG
    rw [intervalIntegrable_iff_integrableOn_Ioo_of_le huv]
    refine IntegrableOn.congr_fun ?_ (fun y hy => (hgG y hy).symm) measurableSet_Ioo
    exact (intervalIntegrable_iff_integrableOn_Ioo_of_le huv).1 (hG.intervalIntegrable _ _)
  have i1 := key h1 e1 c1
  have i2 := key h2 e2 c2
  have i3 := key h3 e3 c3
  rw [← intervalIntegral.integral_add_adjacent_intervals (i1.trans i2) i3, ← intervalIntegral.integral_add_adjacent_intervals i1 i2,
    intervalIntegral.integral_congr_Ioo_of_le h1 e1, intervalIntegral.integral_congr_Ioo_of_le h2 e2,
    intervalIntegral.integral_congr_Ioo_of_le h3 e3]

theorem iHalf_low {d b tf tw y : ℝ} (hy : y < tf) : iHalf d b tf tw y = b / 2 := if_pos (Or.inl hy)

theorem iHalf_mid {d b tf tw y : ℝ} (h1 : tf < y) (h2 : y < d - tf) : iHalf d b tf tw y = tw / 2 :=
  if_neg (not_or.2 ⟨not_lt.2 h1.le, not_lt.2 h2.le⟩)

theorem iHalf_high {d b tf tw y : ℝ} (hy : d - tf < y) : iHalf d b tf tw y = b / 2 := if_pos (Or.inr hy)

/-- The first moment of the part of an I-section below the height `y`. -/
theorem iHalf_below {d b tf tw : ℝ} (htf : 0 < tf) (hd : 2 * tf < d) (E y : ℝ) :
    (y ∈ Ioo 0 tf → ∫ η in (0 : ℝ)..y, 2 * (E * (η - d / 2) * iHalf d b tf tw η) = E * b / 2 * ((y - d / 2) ^ 2 - (d / 2) ^ 2)) ∧
    (y ∈ Ioo tf (d - tf) → ∫ η in (0 : ℝ)..y, 2 * (E * (η - d / 2) * iHalf d b tf tw η) =
      E / 2 * (b * ((d / 2 - tf) ^ 2 - (d / 2) ^ 2) + tw * ((y - d / 2) ^ 2 - (d / 2 - tf) ^ 2))) ∧
    (y ∈ Ioo (d - tf) d → ∫ η in (0 : ℝ)..y, 2 * (E * (η - d / 2) * iHalf d b tf tw η) =
      E * b / 2 * ((y - d / 2) ^ 2 - (d / 2) ^ 2)) := by
  have line : ∀ c u v : ℝ, ∫ η in u..v, 2 * (E * (η - d / 2) * c) = E * c * ((v - d / 2) ^ 2 - (u - d / 2) ^ 2) := by
    intro c u v
    have : ∫ η in u..v, 2 * (E * (η - d / 2) * c) = 2 * E * c * ∫ η in u..v, (η - d / 2) := by
      rw [← intervalIntegral.integral_const_mul]; exact intervalIntegral.integral_congr fun y _ => by ring
    rw [this, int_line]
    ring
  have cont : ∀ c : ℝ, Continuous fun η : ℝ => 2 * (E * (η - d / 2) * c) := fun c => by fun_prop
  refine ⟨fun hy => ?_, fun hy => ?_, fun hy => ?_⟩
  · rw [intervalIntegral.integral_congr_Ioo_of_le (g := fun η => 2 * (E * (η - d / 2) * (b / 2))) hy.1.le
      (fun η hη => by simp only [iHalf_low (hη.2.trans hy.2)]), line]
    ring
  · rw [three_parts (F1 := fun η => 2 * (E * (η - d / 2) * (b / 2))) (F2 := fun η => 2 * (E * (η - d / 2) * (tw / 2)))
      (F3 := fun η => 2 * (E * (η - d / 2) * 0)) (p1 := tf) (p2 := y) htf.le hy.1.le le_rfl
      (fun η hη => by simp only [iHalf_low hη.2]) (fun η hη => by simp only [iHalf_mid hη.1 (hη.2.trans hy.2)])
      (fun η hη => absurd (hη.1.trans hη.2) (lt_irrefl _)) (cont _) (cont _) (cont _), line, line, line]
    ring
  · rw [three_parts (F1 := fun η => 2 * (E * (η - d / 2) * (b / 2))) (F2 := fun η => 2 * (E * (η - d / 2) * (tw / 2)))
      (F3 := fun η => 2 * (E * (η - d / 2) * (b / 2))) (p1 := tf) (p2 := d - tf) htf.le (by linarith) hy.1.le
      (fun η hη => by simp only [iHalf_low hη.2]) (fun η hη => by simp only [iHalf_mid hη.1 hη.2])
      (fun η hη => by simp only [iHalf_high hη.1]) (cont _) (cont _) (cont _), line, line, line]
    ring

/-- **C91** for an I-section of depth `d`, width `b`, flange thickness `tf` and web thickness `tw`: the shear area along the
web, and the one along the flanges, are at least the square of the second moment over the energy of the shear flow of the
elementary theory. -/
theorem C91_i_section (hg : GoodSection s) (hP : Physical s.elements) (hc : ConformingMesh s.meshNodes s.elements)
    (hno : NoOverlap s.elements) (hr : s.geometricAnalysis = .ok r) (sv : Solvers) (ty : SolverType)
    (w : WarpResults s.numNodes) (hw : s.warping sv ty r = .ok w) (hnu : isComposite s.materials → r.nuEff = 0)
    {d b tf tw E : ℝ} (htf : 0 < tf) (hd : 2 * tf < d) (htw : 0 < tw) (hb : tw ≤ b) (hE0 : 0 < E)
    (hR : region s.elements =ᵐ[volume] iShape d b tf tw) (hE : ∀ t ∈ s.elements, t.material.elasticModulus = E) :
    let A := (assembleTorsion (s.elements.map fun t => t.shiftBy r.cx r.cy)).1
    let f := assembleShearLoad (s.elements.map fun t => t.shiftBy r.cx r.cy) (warpIn s.materials r)
    let c := d / 2
    let a := d / 2 - tf
    let B := b * (c ^ 2 - a ^ 2)
    SolvesBordered A f.1 w.psi → SolvesBordered A f.2 w.phiS →
    r.cent.ixxC = E * ((b * d ^ 3 - (b - tw) * (d - 2 * tf) ^ 3) / 12) ∧
    r.cent.iyyC = E * ((2 * tf * b ^ 3 + (d - 2 * tf) * tw ^ 3) / 12) ∧
    r.cent.iyyC ^ 2 ≤ w.areas.sx * (E * ((2 * tf * b ^ 5 + (d - 2 * tf) * tw ^ 5) / 120)) ∧
    r.cent.ixxC ^ 2 ≤ w.areas.sy * (E * (b ^ 2 / (2 * tw) * (8 / 15 * c ^ 5 - c ^ 4 * a + 2 / 3 * c ^ 2 * a ^ 3 - a ^ 5 / 5) +
      (2 * a * B ^ 2 + 8 / 3 * B * tw * a ^ 3 + 16 / 15 * tw ^ 2 * a ^ 5) / (4 * tw) +
      b * (b - tw) ^ 2 * (c ^ 3 - a ^ 3) / 18)) := by
  intro A f c a B h1 h2
  have hs : Slices s.elements (b / 2) 0 d (iHalf d b tf tw) (fun _ => E) :=
    ⟨by linarith, by rw [← iShape_sliced hb]; exact hR, fun t ht => Filter.Eventually.of_forall fun _ _ => (hE t ht).symm⟩
  have hh := iHalf_tame (d := d) (tf := tf) htw hb
  obtain ⟨-, -, k3, k4, -⟩ := C91_symmetric hg hP hc hno hr sv ty w hw hnu hs hh (tame_const hE0) h1 h2
  obtain ⟨-, -, -, m4, m5, m6⟩ := slices_moments hr hP hno hs hh
  have split : ∀ F : ℝ → ℝ → ℝ, (∀ H, Continuous fun y => F H y) → ∫ y in (0 : ℝ)..d, F (iHalf d b tf tw y) y =
      (∫ y in (0 : ℝ)..tf, F (b / 2) y) + (∫ y in tf..(d - tf), F (tw / 2) y) + ∫ y in (d - tf)..d, F (b / 2) y := by
    intro F hF
    exact three_parts htf.le (by linarith) (by linarith) (fun y hy => by simp only [iHalf_low hy.2])
      (fun y hy => by simp only [iHalf_mid hy.1 hy.2]) (fun y hy => by simp only [iHalf_high hy.1]) (hF _) (hF _) (hF _)
  have hcy : r.cy = d / 2 := by
    rw [split (fun H y => E * (y - r.cy) * H) (fun H => by fun_prop)] at m6
    have line : ∀ H u v : ℝ, ∫ y in u..v, E * (y - r.cy) * H = E * H * (((v - r.cy) ^ 2 - (u - r.cy) ^ 2) / 2) := by
      intro H u v
      rw [← int_line, ← intervalIntegral.integral_const_mul]; exact intervalIntegral.integral_congr fun y _ => by ring
    rw [line, line, line] at m6
    have h3 : (E * (2 * tf * b + (d - 2 * tf) * tw)) * (d / 2 - r.cy) = 0 := by linear_combination 2 * m6
    have hpos : 0 < E * (2 * tf * b + (d - 2 * tf) * tw) := by
      have : 0 < d - 2 * tf := by linarith
      have : 0 < b := by linarith
      positivity
    have := (mul_eq_zero.1 h3).resolve_left hpos.ne'
    linarith
  have hxx : r.cent.ixxC = E * ((b * d ^ 3 - (b - tw) * (d - 2 * tf) ^ 3) / 12) := by
    rw [m4, hcy, split (fun H y => 2 * (E * (y - d / 2) ^ 2 * H)) (fun H => by fun_prop)]
    have sq : ∀ H u v : ℝ, ∫ y in u..v, 2 * (E * (y - d / 2) ^ 2 * H) =
        2 * E * H * (((v - d / 2) ^ 3 - (u - d / 2) ^ 3) / 3) := by
      intro H u v
      rw [← int_square, ← intervalIntegral.integral_const_mul]; exact intervalIntegral.integral_congr fun y _ => by ring
    rw [sq, sq, sq]
    ring
  have hyy : r.cent.iyyC = E * ((2 * tf * b ^ 3 + (d - 2 * tf) * tw ^ 3) / 12) := by
    rw [m5, split (fun H _ => 2 / 3 * (E * H ^ 3)) (fun H => by fun_prop)]
    simp only [intervalIntegral.integral_const, smul_eq_mul]
    ring
  refine ⟨hxx, hyy, k3.trans (le_of_eq ?_), k4.trans (le_of_eq ?_)⟩
  · rw [split (fun H _ => 4 / 15 * (E * H ^ 5)) (fun H => by fun_prop)]
    simp only [intervalIntegral.integral_const, smul_eq_mul]
    ring
  · congr 1
    rw [hcy]
    have flange : ∀ T y : ℝ, T = E * b / 2 * ((y - d / 2) ^ 2 - (d / 2) ^ 2) → T ^ 2 / (2 * (tw / 2) * E) +
        2 / 3 * (E * (y - d / 2) ^ 2 * (b / 2 - tw / 2) ^ 2 * (b / 2)) =
        E * b ^ 2 / (4 * tw) * (-(d / 2) ^ 2 + 1 * (y - d / 2) ^ 2) ^ 2 + E * b * (b - tw) ^ 2 / 12 * (y - d / 2) ^ 2 := by
      intro T y hT
      rw [hT]
      field_simp
      ring
    have web : ∀ T y : ℝ, T = E / 2 * (b * ((d / 2 - tf) ^ 2 - (d / 2) ^ 2) + tw * ((y - d / 2) ^ 2 - (d / 2 - tf) ^ 2)) →
        T ^ 2 / (2 * (tw / 2) * E) + 2 / 3 * (E * (y - d / 2) ^ 2 * (tw / 2 - tw / 2) ^ 2 * (tw / 2)) =
        E / (4 * tw) * (-(B + tw * a ^ 2) + tw * (y - d / 2) ^ 2) ^ 2 := by
      intro T y hT
      rw [hT]
      simp only [B, a, c]
      field_simp
      ring
    have i4 : ∀ A B u v : ℝ, IntervalIntegrable (fun y => A * (-(d / 2) ^ 2 + 1 * (y - d / 2) ^ 2) ^ 2) volume u v :=
      fun A B u v => Continuous.intervalIntegrable (by fun_prop) _ _
    have i2 : ∀ A u v : ℝ, IntervalIntegrable (fun y => A * (y - d / 2) ^ 2) volume u v :=
      fun A u v => Continuous.intervalIntegrable (by fun_prop) _ _
    rw [three_parts (F1 := fun y => E * b ^ 2 / (4 * tw) * (-(d / 2) ^ 2 + 1 * (y - d / 2) ^ 2) ^ 2 +
        E * b * (b - tw) ^ 2 / 12 * (y - d / 2) ^ 2)
      (F2 := fun y => E / (4 * tw) * (-(B + tw * a ^ 2) + tw * (y - d / 2) ^ 2) ^ 2)
      (F3 := fun y => E * b ^ 2 / (4 * tw) * (-(d / 2) ^ 2 + 1 * (y - d / 2) ^ 2) ^ 2 +
        E * b * (b - tw) ^ 2 / 12 * (y - d / 2) ^ 2)
      (p1 := tf) (p2 := d - tf) htf.le (by linarith) (by linarith)
      (fun y hy => by rw [iHalf_low hy.2]; exact flange _ y ((iHalf_below htf hd E y).1 hy))
      (fun y hy => by rw [iHalf_mid hy.1 hy.2]; exact web _ y ((iHalf_below htf hd E y).2.1 hy))
      (fun y hy => by rw [iHalf_high hy.1]; exact flange _ y ((iHalf_below htf hd E y).2.2 hy))
      (by fun_prop) (by fun_prop) (by fun_prop),
      intervalIntegral.integral_add (i4 _ 0 _ _) (i2 _ _ _), intervalIntegral.integral_add (i4 _ 0 _ _) (i2 _ _ _)]
    simp only [intervalIntegral.integral_const_mul, int_quart, int_square]
    simp only [B, a, c]
    field_simp
    ring

end SP
