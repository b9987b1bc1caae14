import Verif.Lemmas.Inertia
import Verif.Spec.Beam
import Verif.Props.Exact
import Mathlib.Analysis.SpecialFunctions.Complex.Arg

/-!
# C05, C09, C10, C11, C12, C13, C30
-/

namespace SP

open Spec MeasureTheory

/-! ### C05 -/

/-- **C05**: every half plane that contains all mesh nodes contains the reported centroid. -/
theorem C05_half_plane {s : Section} {r : GeomResults} (hr : s.geometricAnalysis = .ok r)
    (hs : Physical s.elements) (hc : GoodSection s) (a b c : ℝ)
    (hall : ∀ i, a * (s.meshNodes i).1 + b * (s.meshNodes i).2 ≤ c) :
    a * r.cx + b * r.cy ≤ c := by
  obtain ⟨hsum, -, -, -, -, hcx, hcy⟩ := geom_ok hr
  by_cases hab : a = 0 ∧ b = 0
  · obtain ⟨rfl, rfl⟩ := hab
    obtain ⟨t, ht⟩ := List.exists_mem_of_ne_nil _ hs.nonempty
    simpa using hall (t.nodeIds 0)
  · have hcx' : r.cx = (geomSums s.elements).cx := by rw [hcx, hsum]
    have hcy' : r.cy = (geomSums s.elements).cy := by rw [hcy, hsum]
    have h := hs.exists_beyond hab
    obtain ⟨t, ht, i, hi⟩ := h
    have h2 := hall (t.nodeIds i)
    rw [← hcx', ← hcy'] at hi
    simp only [Tri6.lin, hc.coords t ht, gather] at hi
    linarith

/-- **C05** (bounding box). -/
theorem C05_bounding_box {s : Section} {r : GeomResults} (hr : s.geometricAnalysis = .ok r)
    (hs : Physical s.elements) (hc : GoodSection s) (x0 x1 y0 y1 : ℝ)
    (hall : ∀ i, x0 ≤ (s.meshNodes i).1 ∧ (s.meshNodes i).1 ≤ x1 ∧
      y0 ≤ (s.meshNodes i).2 ∧ (s.meshNodes i).2 ≤ y1) :
    x0 ≤ r.cx ∧ r.cx ≤ x1 ∧ y0 ≤ r.cy ∧ r.cy ≤ y1 := by
  have h1 := C05_half_plane hr hs hc (-1) 0 (-x0) (fun i => by linarith [(hall i).1])
  have h2 := C05_half_plane hr hs hc 1 0 x1 (fun i => by linarith [(hall i).2.1])
  have h3 := C05_half_plane hr hs hc 0 (-1) (-y0) (fun i => by linarith [(hall i).2.2.1])
  have h4 := C05_half_plane hr hs hc 0 1 y1 (fun i => by linarith [(hall i).2.2.2])
  refine ⟨?_, ?_, ?_, ?_⟩ <;> linarith

theorem ex_mem (t : Tri6 9) (ht : t ∈ ([exT0, exT1] : List (Tri6 9))) : t = exT0 ∨ t = exT1 := by
  rw [List.mem_cons, List.mem_singleton] at ht
  exact ht

theorem exPhysical : Physical exSection.elements := by
  refine ⟨by simp [exSection], exSection_good.proper, ?_⟩
  intro t ht
  have ht : t = exT0 ∨ t = exT1 := by
    exact ex_mem t ht
  rcases ht with rfl | rfl
  · show 0 < exConcrete.elasticModulus; norm_num [exConcrete]
  · show 0 < exSteel.elasticModulus; norm_num [exSteel]

/-- Non-vacuity of C05, C09, C12: the example section meets every hypothesis. -/
example : ∃ r, exSection.geometricAnalysis = .ok r ∧ Physical exSection.elements ∧
    GoodSection exSection :=
  let ⟨r, hr⟩ := geometricAnalysis_ok exSection (by simp [exSection])
  ⟨r, hr, exPhysical, exSection_good⟩

/-! ### C09 -/

/-- **C09**: for every non-empty section of proper elements with positive moduli, area and axial
rigidity are positive, the centroidal inertia tensor is positive definite, the principal moments are
ordered and positive, and the radii of gyration are real (their squares are the quotients) and
positive. -/
theorem C09_positive {s : Section} {r : GeomResults} (hr : s.geometricAnalysis = .ok r)
    (hs : Physical s.elements) :
    0 < r.sums.area ∧ 0 < r.sums.ea ∧
    0 < r.cent.ixxC ∧ 0 < r.cent.iyyC ∧ r.cent.ixyC ^ 2 < r.cent.ixxC * r.cent.iyyC ∧
    r.cent.i22 ≤ r.cent.i11 ∧ 0 < r.cent.i22 ∧
    (0 < r.cent.rx ∧ r.cent.rx ^ 2 = r.cent.ixxC / r.sums.ea) ∧
    (0 < r.cent.ry ∧ r.cent.ry ^ 2 = r.cent.iyyC / r.sums.ea) ∧
    (0 < r.cent.r11 ∧ r.cent.r11 ^ 2 = r.cent.i11 / r.sums.ea) ∧
    (0 < r.cent.r22 ∧ r.cent.r22 ^ 2 = r.cent.i22 / r.sums.ea) := by
  obtain ⟨hsum, hc, -⟩ := geom_ok hr
  obtain ⟨c1, c2, c3, c4, c5, -, c7, c8, c9, c10⟩ := cent_ok hc
  rw [hsum] at *
  have h1 := hs.ixx_pos
  have h2 := hs.iyy_pos
  have h3 := hs.det_pos
  have h4 := hs.ea_pos
  have h5 := i11_pos (b := (geomSums s.elements).iyyC) (geomSums s.elements).ixyC h1
  have h6 := i22_pos h1 h3
  rw [c7, c8, c9, c10, c4, c5, c1, c2, c3]
  have sq : ∀ x : ℝ, 0 < x → 0 < √(x / (geomSums s.elements).ea) ∧
      √(x / (geomSums s.elements).ea) ^ 2 = x / (geomSums s.elements).ea := fun x hx =>
    ⟨Real.sqrt_pos.2 (div_pos hx h4), Real.sq_sqrt (div_pos hx h4).le⟩
  exact ⟨hs.area_pos, h4, h1, h2, by linarith, i22_le_i11 _ _ _, h6, sq _ h1, sq _ h2, sq _ h5,
    sq _ h6⟩

/-! ### C10 -/

/-- Cosine and sine of the angle returned by `arctan2`. -/
theorem cos_sin_arctan2 {y x : ℝ} (h : ¬ (x = 0 ∧ y = 0)) :
    √(x ^ 2 + y ^ 2) * Real.cos (arctan2 y x) = x ∧ √(x ^ 2 + y ^ 2) * Real.sin (arctan2 y x) = y := by
  have hz : (⟨x, y⟩ : ℂ) ≠ 0 := by
    intro hz
    have h1 := congrArg Complex.re hz
    have h2 := congrArg Complex.im hz
    exact h ⟨h1, h2⟩
  have hn : ‖(⟨x, y⟩ : ℂ)‖ = √(x ^ 2 + y ^ 2) := by
    rw [Complex.norm_eq_sqrt_sq_add_sq]
  have hpos : 0 < ‖(⟨x, y⟩ : ℂ)‖ := norm_pos_iff.2 hz
  constructor
  · rw [arctan2, Complex.cos_arg hz, ← hn]; field_simp
  · rw [arctan2, Complex.sin_arg, ← hn]; field_simp

/-- **C10** (exact branch): when the code computes the angle by `arctan2`, the product of inertia in
the rotated axes is zero and the second moments about them are `i11` and `i22`. -/
theorem C10_diagonal (ixx iyy ixy : ℝ) (hpos : 0 < i11Of ixx iyy ixy)
    (hbr : ¬ |ixx - i11Of ixx iyy ixy| < 1e-12 * i11Of ixx iyy ixy) :
    let θ := phiOf ixx iyy ixy * Real.pi / 180
    productAbout ixx iyy ixy θ = 0 ∧
    momentAbout ixx iyy ixy θ = i11Of ixx iyy ixy ∧
    momentAbout ixx iyy ixy (θ + Real.pi / 2) = i22Of ixx iyy ixy := by
  intro θ
  have hθ : θ = arctan2 (ixx - i11Of ixx iyy ixy) ixy := by
    have : Real.pi ≠ 0 := Real.pi_ne_zero
    show phiOf ixx iyy ixy * Real.pi / 180 = _
    rw [phiOf, if_neg hbr]
    field_simp
  have hne : ¬ (ixy = 0 ∧ ixx - i11Of ixx iyy ixy = 0) := by
    rintro ⟨-, h0⟩
    apply hbr
    rw [h0, abs_zero]
    positivity
  obtain ⟨hc, hs⟩ := cos_sin_arctan2 hne
  rw [← hθ] at hc hs
  set N := √(ixy ^ 2 + (ixx - i11Of ixx iyy ixy) ^ 2) with hN
  have hN0 : N ≠ 0 := by
    rw [hN, Real.sqrt_ne_zero']
    by_cases h1 : ixy = 0
    · have h2 : ixx - i11Of ixx iyy ixy ≠ 0 := fun h => hne ⟨h1, h⟩
      positivity
    · positivity
  have hD := mohrDelta_sq ixx iyy ixy
  have h11 : i11Of ixx iyy ixy = (ixx + iyy) / 2 + mohrDelta ixx iyy ixy := rfl
  have h22 : i22Of ixx iyy ixy = (ixx + iyy) / 2 - mohrDelta ixx iyy ixy := rfl
  have hN2 : N ^ 2 ≠ 0 := pow_ne_zero 2 hN0
  have hsc := Real.sin_sq_add_cos_sq θ
  have hNN : N ^ 2 = ixy ^ 2 + (ixx - i11Of ixx iyy ixy) ^ 2 := by
    linear_combination N ^ 2 * (-hsc) + (N * Real.cos θ + ixy) * hc
      + (N * Real.sin θ + (ixx - i11Of ixx iyy ixy)) * hs
  have hprod : productAbout ixx iyy ixy θ = 0 := by
    have : N ^ 2 * productAbout ixx iyy ixy θ = 0 := by
      have e : N ^ 2 * productAbout ixx iyy ixy θ
          = (ixx - iyy) * (N * Real.sin θ) * (N * Real.cos θ)
            + ixy * ((N * Real.cos θ) ^ 2 - (N * Real.sin θ) ^ 2) := by
        unfold productAbout; ring
      rw [e, hc, hs, h11]
      linear_combination (-ixy) * hD
    exact (mul_eq_zero.1 this).resolve_left hN2
  have hmom : momentAbout ixx iyy ixy θ = i11Of ixx iyy ixy := by
    have : N ^ 2 * (momentAbout ixx iyy ixy θ - i11Of ixx iyy ixy) = 0 := by
      have e : N ^ 2 * (momentAbout ixx iyy ixy θ - i11Of ixx iyy ixy)
          = ixx * (N * Real.cos θ) ^ 2 + iyy * (N * Real.sin θ) ^ 2
            - 2 * ixy * (N * Real.sin θ) * (N * Real.cos θ) - N ^ 2 * i11Of ixx iyy ixy := by
        unfold momentAbout; ring
      rw [e, hc, hs, hNN, h11]
      linear_combination ((ixx - iyy) / 2 - mohrDelta ixx iyy ixy) * hD
    linarith [(mul_eq_zero.1 this).resolve_left hN2]
  refine ⟨hprod, hmom, ?_⟩
  have e : momentAbout ixx iyy ixy (θ + Real.pi / 2)
      = (ixx + iyy) * (Real.sin θ ^ 2 + Real.cos θ ^ 2) - momentAbout ixx iyy ixy θ := by
    unfold momentAbout
    rw [Real.cos_add_pi_div_two, Real.sin_add_pi_div_two]; ring
  rw [e, hsc, hmom, h11, h22]; ring

/-- **C10** (tolerance branch): when the code short-cuts to the angle zero, the second moments about
the unrotated axes agree with `i11`, `i22` up to the code's relative tolerance, and the product of
inertia is below `10⁻⁶ i11`. -/
theorem C10_tolerance (ixx iyy ixy : ℝ) (hpos : 0 ≤ i22Of ixx iyy ixy)
    (hbr : |ixx - i11Of ixx iyy ixy| < 1e-12 * i11Of ixx iyy ixy) :
    phiOf ixx iyy ixy = 0 ∧ |ixx - i11Of ixx iyy ixy| < 1e-12 * i11Of ixx iyy ixy ∧
    |iyy - i22Of ixx iyy ixy| < 1e-12 * i11Of ixx iyy ixy ∧
    |ixy| ≤ 1e-6 * i11Of ixx iyy ixy := by
  refine ⟨by rw [phiOf, if_pos hbr], hbr, ?_, ?_⟩
  · have h := i11_add_i22 ixx iyy ixy
    have : iyy - i22Of ixx iyy ixy = -(ixx - i11Of ixx iyy ixy) := by linarith
    rw [this, abs_neg]; exact hbr
  · have h1 : ixy ^ 2 = (i11Of ixx iyy ixy - ixx) * (ixx - i22Of ixx iyy ixy) := by
      have := mohrDelta_sq ixx iyy ixy
      unfold i11Of i22Of
      linear_combination -this
    have h2 := ixx_le_i11 ixx iyy ixy
    have h3 := i22_le_ixx ixx iyy ixy
    have h4 : i11Of ixx iyy ixy - ixx < 1e-12 * i11Of ixx iyy ixy := by
      rw [abs_sub_comm, abs_of_nonneg (by linarith)] at hbr; exact hbr
    have h5 : 0 ≤ i11Of ixx iyy ixy := by linarith
    have h6 : ixx - i22Of ixx iyy ixy ≤ i11Of ixx iyy ixy := by linarith
    apply abs_le_of_sq_le_sq _ (by positivity)
    rw [h1]
    calc (i11Of ixx iyy ixy - ixx) * (ixx - i22Of ixx iyy ixy)
        ≤ (1e-12 * i11Of ixx iyy ixy) * i11Of ixx iyy ixy :=
          mul_le_mul h4.le h6 (by linarith) (by positivity)
      _ = (1e-6 * i11Of ixx iyy ixy) ^ 2 := by ring

/-- **C10** (invariants and extremality): sum and product of the principal moments are the trace and
determinant of the tensor, and they bound the second moment about every axis direction. -/
theorem C10_extreme (ixx iyy ixy : ℝ) :
    i11Of ixx iyy ixy + i22Of ixx iyy ixy = ixx + iyy ∧
    i11Of ixx iyy ixy * i22Of ixx iyy ixy = ixx * iyy - ixy ^ 2 ∧
    ∀ θ, i22Of ixx iyy ixy ≤ momentAbout ixx iyy ixy θ ∧
      momentAbout ixx iyy ixy θ ≤ i11Of ixx iyy ixy := by
  refine ⟨i11_add_i22 _ _ _, i11_mul_i22 _ _ _, fun θ => ?_⟩
  have hsc := Real.sin_sq_add_cos_sq θ
  have hD := mohrDelta_sq ixx iyy ixy
  have hD0 := mohrDelta_nonneg ixx iyy ixy
  have hm : momentAbout ixx iyy ixy θ = (ixx + iyy) / 2
      + ((ixx - iyy) / 2 * (Real.cos θ ^ 2 - Real.sin θ ^ 2) + ixy * (-2 * Real.sin θ * Real.cos θ)) := by
    unfold momentAbout
    linear_combination ((ixx + iyy) / 2) * hsc
  have hb : |(ixx - iyy) / 2 * (Real.cos θ ^ 2 - Real.sin θ ^ 2)
      + ixy * (-2 * Real.sin θ * Real.cos θ)| ≤ mohrDelta ixx iyy ixy := by
    apply abs_le_of_sq_le_sq _ hD0
    rw [hD]
    have e : (Real.cos θ ^ 2 - Real.sin θ ^ 2) ^ 2 + (-2 * Real.sin θ * Real.cos θ) ^ 2 = 1 := by
      have : (Real.cos θ ^ 2 - Real.sin θ ^ 2) ^ 2 + (-2 * Real.sin θ * Real.cos θ) ^ 2
        = (Real.sin θ ^ 2 + Real.cos θ ^ 2) ^ 2 := by ring
      rw [this, hsc]; norm_num
    set a := (ixx - iyy) / 2
    set p := Real.cos θ ^ 2 - Real.sin θ ^ 2
    set q := -2 * Real.sin θ * Real.cos θ
    nlinarith [sq_nonneg (a * q - ixy * p)]
  rw [abs_le] at hb
  rw [hm]
  unfold i11Of i22Of
  constructor <;> linarith [hb.1, hb.2]

/-- **C10** at the level of the analysis: for a physical, non-overlapping section, outside the
tolerance branch, the true integrals in the reported principal axes through the reported centroid are
`i11`, `i22` and zero. -/
theorem C10_section {s : Section} {r : GeomResults} (hr : s.geometricAnalysis = .ok r)
    (hs : Physical s.elements) (hno : NoOverlap s.elements)
    {E : ℝ × ℝ → ℝ} (hE : IsField s.elements Material.elasticModulus E)
    (hbr : ¬ |r.cent.ixxC - r.cent.i11| < 1e-12 * r.cent.i11) :
    let R := region s.elements
    ∫ p in R, E p * rotY r.cent.phi (p.1 - r.cx) (p.2 - r.cy) ^ 2 = r.cent.i11 ∧
    ∫ p in R, E p * rotX r.cent.phi (p.1 - r.cx) (p.2 - r.cy) ^ 2 = r.cent.i22 ∧
    ∫ p in R, E p * (rotX r.cent.phi (p.1 - r.cx) (p.2 - r.cy)
      * rotY r.cent.phi (p.1 - r.cx) (p.2 - r.cy)) = 0 := by
  intro R
  obtain ⟨hsum, hc, -⟩ := geom_ok hr
  obtain ⟨c1, c2, c3, c4, c5, c6, -⟩ := cent_ok hc
  obtain ⟨-, hea, hx, -⟩ := C09_positive hr hs
  obtain ⟨G, hG⟩ := exists_field hno fun m => m.elasticModulus / (2 * (1 + m.poissonsRatio))
  obtain ⟨ρ, hρ⟩ := exists_field hno Material.density
  have hea' : ∫ p in R, E p ≠ 0 := by
    rw [← (C01_exact hr hs.proper hno hE hG hρ).2.2.1]; exact hea.ne'
  obtain ⟨-, -, ix, iy, ixy⟩ := C01_centroidal hr hs.proper hno hE hea'
  have hp11 : 0 < i11Of r.sums.ixxC r.sums.iyyC r.sums.ixyC := i11_pos _ (by rw [← c1]; exact hx)
  obtain ⟨d1, d2, d3⟩ := C10_diagonal r.sums.ixxC r.sums.iyyC r.sums.ixyC hp11
    (by rw [← c4, ← c1]; exact hbr)
  rw [← c6, ← c1, ← c2, ← c3] at d1 d2 d3
  rw [c1, c2, c3, ← c4] at d2
  rw [c1, c2, c3, ← c5] at d3
  rw [← c1, ← c2, ← c3] at d2 d3
  set θ := r.cent.phi * Real.pi / 180 with hθ
  have cont : ∀ f : ℝ × ℝ → ℝ, Continuous f → IntegrableOn (fun p => E p * f p) R :=
    fun f hf => (sum_integral hno hE hf).1
  have iA := cont (fun p => (p.2 - r.cy) ^ 2) (by fun_prop)
  have iB := cont (fun p => (p.1 - r.cx) ^ 2) (by fun_prop)
  have iC := cont (fun p => (p.1 - r.cx) * (p.2 - r.cy)) (by fun_prop)
  have comb : ∀ a b c : ℝ, ∫ p in R, E p * (a * (p.2 - r.cy) ^ 2 + b * (p.1 - r.cx) ^ 2
      + c * ((p.1 - r.cx) * (p.2 - r.cy)))
      = a * r.cent.ixxC + b * r.cent.iyyC + c * r.cent.ixyC := by
    intro a b c
    have : ∀ p : ℝ × ℝ, E p * (a * (p.2 - r.cy) ^ 2 + b * (p.1 - r.cx) ^ 2
        + c * ((p.1 - r.cx) * (p.2 - r.cy)))
        = a * (E p * (p.2 - r.cy) ^ 2) + b * (E p * (p.1 - r.cx) ^ 2)
          + c * (E p * ((p.1 - r.cx) * (p.2 - r.cy))) := fun p => by ring
    simp_rw [this]
    have j1 : Integrable (fun p => a * (E p * (p.2 - r.cy) ^ 2) + b * (E p * (p.1 - r.cx) ^ 2))
        (volume.restrict R) := (iA.const_mul a).add (iB.const_mul b)
    rw [integral_add j1 (iC.const_mul c), integral_add (iA.const_mul a) (iB.const_mul b),
      integral_const_mul, integral_const_mul, integral_const_mul, ix, iy, ixy]
  refine ⟨?_, ?_, ?_⟩
  · have e : ∀ p : ℝ × ℝ, E p * rotY r.cent.phi (p.1 - r.cx) (p.2 - r.cy) ^ 2
        = E p * (Real.cos θ ^ 2 * (p.2 - r.cy) ^ 2 + Real.sin θ ^ 2 * (p.1 - r.cx) ^ 2
          + (-2 * Real.sin θ * Real.cos θ) * ((p.1 - r.cx) * (p.2 - r.cy))) := by
      intro p; simp only [rotY, ← hθ]; ring
    simp_rw [e]
    rw [comb, ← d2]; unfold momentAbout; ring
  · have e : ∀ p : ℝ × ℝ, E p * rotX r.cent.phi (p.1 - r.cx) (p.2 - r.cy) ^ 2
        = E p * (Real.sin θ ^ 2 * (p.2 - r.cy) ^ 2 + Real.cos θ ^ 2 * (p.1 - r.cx) ^ 2
          + (2 * Real.sin θ * Real.cos θ) * ((p.1 - r.cx) * (p.2 - r.cy))) := by
      intro p; simp only [rotX, ← hθ]; ring
    simp_rw [e]
    rw [comb, ← d3]; unfold momentAbout
    rw [Real.cos_add_pi_div_two, Real.sin_add_pi_div_two]; ring
  · have e : ∀ p : ℝ × ℝ, E p * (rotX r.cent.phi (p.1 - r.cx) (p.2 - r.cy)
        * rotY r.cent.phi (p.1 - r.cx) (p.2 - r.cy))
        = E p * ((Real.sin θ * Real.cos θ) * (p.2 - r.cy) ^ 2
          + (-(Real.sin θ * Real.cos θ)) * (p.1 - r.cx) ^ 2
          + (Real.cos θ ^ 2 - Real.sin θ ^ 2) * ((p.1 - r.cx) * (p.2 - r.cy))) := by
      intro p; simp only [rotX, rotY, ← hθ]; ring
    simp_rw [e]
    rw [comb, ← d1]; unfold productAbout; ring

/-- Non-vacuity of `C10_diagonal`: a tensor with a product of inertia, outside the tolerance. -/
example : 0 < i11Of 3 2 1 ∧ ¬ |3 - i11Of 3 2 1| < 1e-12 * i11Of 3 2 1 := by
  have h0 : (1.1 : ℝ) < mohrDelta 3 2 1 := by
    unfold mohrDelta; rw [Real.lt_sqrt (by norm_num)]; norm_num
  have h1 : mohrDelta 3 2 1 < (2 : ℝ) := by
    unfold mohrDelta; rw [Real.sqrt_lt' (by norm_num)]; norm_num
  unfold i11Of
  refine ⟨by linarith, ?_⟩
  rw [abs_sub_comm, abs_of_nonneg (by linarith)]
  linarith

/-- Non-vacuity of `C10_tolerance`: the tensor `diag(3, 2)`. -/
example : 0 ≤ i22Of 3 2 0 ∧ |3 - i11Of 3 2 0| < 1e-12 * i11Of 3 2 0 := by
  have h : mohrDelta 3 2 0 = 1 / 2 := by
    unfold mohrDelta; rw [Real.sqrt_eq_iff_mul_self_eq (by norm_num) (by norm_num)]; norm_num
  unfold i11Of i22Of; rw [h]; norm_num

/-! ### C11 -/

/-- **C11**: `global_coordinate` and `principal_coordinate` are inverse to each other for every
angle. -/
theorem C11_inverse (phi x y : ℝ) :
    (globalCoordinate phi (principalCoordinate phi x y).1 (principalCoordinate phi x y).2 = (x, y)) ∧
    (principalCoordinate phi (globalCoordinate phi x y).1 (globalCoordinate phi x y).2 = (x, y)) := by
  have h := Real.sin_sq_add_cos_sq (phi * Real.pi / 180)
  simp only [globalCoordinate, principalCoordinate, Prod.mk.injEq]
  refine ⟨⟨?_, ?_⟩, ⟨?_, ?_⟩⟩
  · linear_combination x * h
  · linear_combination y * h
  · linear_combination x * h
  · linear_combination y * h

/-- **C11** (rigid motion): `principal_coordinate` is the rotation by `-phi` degrees: it preserves
scalar products (so lengths and angles) and cross products (so orientation), and it takes the unit
vector of direction `phi` to `(1, 0)`; hence so does its inverse. -/
theorem C11_rigid (phi x y x' y' : ℝ) :
    let p := principalCoordinate phi x y
    let p' := principalCoordinate phi x' y'
    p.1 * p'.1 + p.2 * p'.2 = x * x' + y * y' ∧ p.1 * p'.2 - p.2 * p'.1 = x * y' - y * x' ∧
    principalCoordinate phi (Real.cos (phi * Real.pi / 180)) (Real.sin (phi * Real.pi / 180))
      = (1, 0) := by
  have h := Real.sin_sq_add_cos_sq (phi * Real.pi / 180)
  simp only [principalCoordinate, Prod.mk.injEq]
  refine ⟨?_, ?_, ?_, ?_⟩
  · linear_combination (x * x' + y * y') * h
  · linear_combination (x * y' - y * x') * h
  · linear_combination h
  · ring

/-- **C11** (side of a line): a point is reported above the directed line through `(px, py)` with
direction `u` exactly when it lies strictly to the left of it, i.e. when the triangle
`p, p + u, (x, y)` is counter-clockwise. -/
theorem C11_above (u : ℝ × ℝ) (px py x y : ℝ) :
    pointAboveLine u px py x y ↔ 0 < signedArea2 (px, py) (px + u.1, py + u.2) (x, y) := by
  simp only [pointAboveLine, signedArea2]
  constructor <;> intro h <;> linarith

/-- Non-vacuity of C11. -/
example : pointAboveLine (1, 0) 0 0 5 1 ∧ ¬ pointAboveLine (1, 0) 0 0 5 (-1) := by
  simp only [pointAboveLine]; norm_num

/-! ### C12 -/

theorem runMax_isGreatest (a : ℝ) (l : List ℝ) : IsGreatest {x | x ∈ a :: l} (runMax a l) := by
  unfold runMax
  induction l generalizing a with
  | nil => simp [IsGreatest]
  | cons b l ih =>
    rw [List.foldl_cons]
    obtain ⟨h1, h2⟩ := ih (max a b)
    rw [mem_upperBounds] at h2
    refine ⟨?_, ?_⟩
    · simp only [Set.mem_ofPred_eq, List.mem_cons] at h1 ⊢
      rcases h1 with h1 | h1
      · rcases max_choice a b with h | h <;> rw [h1, h] <;> simp
      · exact .inr (.inr h1)
    · rw [mem_upperBounds]
      intro x hx
      simp only [Set.mem_ofPred_eq, List.mem_cons] at hx
      have hab := h2 (max a b) (by simp)
      rcases hx with rfl | rfl | hx
      · exact (le_max_left _ _).trans hab
      · exact (le_max_right _ _).trans hab
      · exact h2 x (by simp [hx])

theorem runMin_isLeast (a : ℝ) (l : List ℝ) : IsLeast {x | x ∈ a :: l} (runMin a l) := by
  unfold runMin
  induction l generalizing a with
  | nil => simp [IsLeast]
  | cons b l ih =>
    rw [List.foldl_cons]
    obtain ⟨h1, h2⟩ := ih (min a b)
    rw [mem_lowerBounds] at h2
    refine ⟨?_, ?_⟩
    · simp only [Set.mem_ofPred_eq, List.mem_cons] at h1 ⊢
      rcases h1 with h1 | h1
      · rcases min_choice a b with h | h <;> rw [h1, h] <;> simp
      · exact .inr (.inr h1)
    · rw [mem_lowerBounds]
      intro x hx
      simp only [Set.mem_ofPred_eq, List.mem_cons] at hx
      have hab := h2 (min a b) (by simp)
      rcases hx with rfl | rfl | hx
      · exact hab.trans (min_le_left _ _)
      · exact hab.trans (min_le_right _ _)
      · exact h2 x (by simp [hx])

/-- Distances of the nodes from the centroid, measured perpendicular to the axis. -/
noncomputable def fibre (s : Section) (r : GeomResults) (i : Fin s.numNodes) : Axis → ℝ
  | .xx => (s.meshNodes i).2 - r.cy
  | .yy => (s.meshNodes i).1 - r.cx
  | .a11 => rotY r.cent.phi ((s.meshNodes i).1 - r.cx) ((s.meshNodes i).2 - r.cy)
  | .a22 => rotX r.cent.phi ((s.meshNodes i).1 - r.cx) ((s.meshNodes i).2 - r.cy)

/-- Second moment belonging to the axis. -/
def axisInertia (r : GeomResults) : Axis → ℝ
  | .xx => r.cent.ixxC
  | .yy => r.cent.iyyC
  | .a11 => r.cent.i11
  | .a22 => r.cent.i22

/-- Section moduli `(z_plus, z_minus)` reported for the axis. -/
def axisZ (r : GeomResults) : Axis → ℝ × ℝ
  | .xx => (r.cent.zxxPlus, r.cent.zxxMinus)
  | .yy => (r.cent.zyyPlus, r.cent.zyyMinus)
  | .a11 => (r.cent.z11Plus, r.cent.z11Minus)
  | .a22 => (r.cent.z22Plus, r.cent.z22Minus)

private theorem beyond_node {s : Section} (hs : Physical s.elements)
    (hc : GoodSection s) {u v : ℝ} (huv : ¬ (u = 0 ∧ v = 0)) :
    ∃ i, 0 < u * ((s.meshNodes i).1 - (geomSums s.elements).cx)
      + v * ((s.meshNodes i).2 - (geomSums s.elements).cy) := by
  obtain ⟨t, ht, i, hi⟩ := hs.exists_beyond huv
  refine ⟨t.nodeIds i, ?_⟩
  simp only [Tri6.lin, hc.coords t ht, gather] at hi
  linarith

/-- **C12** (definition): every reported section modulus is the inertia about the axis divided by the
distance `d > 0` of the node furthest on that side of the centroid. -/
theorem C12_moduli {s : Section} {r : GeomResults} (hr : s.geometricAnalysis = .ok r)
    (hs : Physical s.elements) (hc : GoodSection s) (a : Axis) :
    ∃ dp dm : ℝ, 0 < dp ∧ 0 < dm ∧
      IsGreatest (Set.range fun i => fibre s r i a) dp ∧
      IsLeast (Set.range fun i => fibre s r i a) (-dm) ∧
      axisZ r a = (axisInertia r a / dp, axisInertia r a / dm) := by
  obtain ⟨hsum, hcent, -, -, -, hcx, hcy⟩ := geom_ok hr
  -- the node list is not empty
  have hsc := Real.sin_sq_add_cos_sq (r.cent.phi * Real.pi / 180)
  have hne : ∀ φ : ℝ, ¬ (Real.cos φ = 0 ∧ Real.sin φ = 0) := by
    rintro φ ⟨h1, h2⟩
    have := Real.sin_sq_add_cos_sq φ
    rw [h1, h2] at this
    norm_num at this
  have hfp : ∀ a, ∃ i, 0 < fibre s r i a := by
    intro a
    cases a with
    | xx =>
      obtain ⟨i, hi⟩ := beyond_node hs hc (u := 0) (v := 1) (by simp)
      exact ⟨i, by simp only [fibre, hcy, hsum]; linarith⟩
    | yy =>
      obtain ⟨i, hi⟩ := beyond_node hs hc (u := 1) (v := 0) (by simp)
      exact ⟨i, by simp only [fibre, hcx, hsum]; linarith⟩
    | a11 =>
      obtain ⟨i, hi⟩ := beyond_node hs hc (u := -Real.sin (r.cent.phi * Real.pi / 180))
        (v := Real.cos (r.cent.phi * Real.pi / 180)) (fun h => hne _ ⟨h.2, by simpa using h.1⟩)
      exact ⟨i, by simp only [fibre, rotY, hcx, hcy, hsum]; linarith⟩
    | a22 =>
      obtain ⟨i, hi⟩ := beyond_node hs hc (u := Real.cos (r.cent.phi * Real.pi / 180))
        (v := Real.sin (r.cent.phi * Real.pi / 180)) (hne _)
      exact ⟨i, by simp only [fibre, rotX, hcx, hcy, hsum]; linarith⟩
  have hfm : ∀ a, ∃ i, fibre s r i a < 0 := by
    intro a
    cases a with
    | xx =>
      obtain ⟨i, hi⟩ := beyond_node hs hc (u := 0) (v := -1) (by simp)
      exact ⟨i, by simp only [fibre, hcy, hsum]; linarith⟩
    | yy =>
      obtain ⟨i, hi⟩ := beyond_node hs hc (u := -1) (v := 0) (by simp)
      exact ⟨i, by simp only [fibre, hcx, hsum]; linarith⟩
    | a11 =>
      obtain ⟨i, hi⟩ := beyond_node hs hc (u := Real.sin (r.cent.phi * Real.pi / 180))
        (v := -Real.cos (r.cent.phi * Real.pi / 180)) (fun h => hne _ ⟨by simpa using h.2, h.1⟩)
      exact ⟨i, by simp only [fibre, rotY, hcx, hcy, hsum]; linarith⟩
    | a22 =>
      obtain ⟨i, hi⟩ := beyond_node hs hc (u := -Real.cos (r.cent.phi * Real.pi / 180))
        (v := -Real.sin (r.cent.phi * Real.pi / 180))
        (fun h => hne _ ⟨by simpa using h.1, by simpa using h.2⟩)
      exact ⟨i, by simp only [fibre, rotX, hcx, hcy, hsum]; linarith⟩
  cases hl : List.ofFn s.meshNodes with
  | nil => rw [hl] at hcent; simp [centroidalProps] at hcent
  | cons p ps =>
    rw [hl] at hcent
    simp only [centroidalProps, Except.ok.injEq] at hcent
    have hset : ∀ f : ℝ × ℝ → ℝ, {x | x ∈ f p :: ps.map f} = Set.range fun i => f (s.meshNodes i) := by
      intro f
      have : f p :: ps.map f = List.ofFn fun i => f (s.meshNodes i) := by
        rw [← List.map_cons, ← hl, List.map_ofFn]; rfl
      rw [this]
      ext x; simp [List.mem_ofFn]
    -- generic finish
    have fin : ∀ (f : ℝ × ℝ → ℝ) (k I : ℝ), (∃ i, 0 < f (s.meshNodes i) - k) →
        (∃ i, f (s.meshNodes i) - k < 0) →
        ∃ dp dm : ℝ, 0 < dp ∧ 0 < dm ∧
          IsGreatest (Set.range fun i => f (s.meshNodes i) - k) dp ∧
          IsLeast (Set.range fun i => f (s.meshNodes i) - k) (-dm) ∧
          (I / |runMax (f p) (ps.map f) - k|, I / |runMin (f p) (ps.map f) - k|) = (I / dp, I / dm) := by
      intro f k I ⟨i, hi⟩ ⟨j, hj⟩
      have h1 := runMax_isGreatest (f p) (ps.map f)
      have h2 := runMin_isLeast (f p) (ps.map f)
      rw [hset f] at h1 h2
      obtain ⟨⟨i1, e1⟩, u1⟩ := h1
      obtain ⟨⟨i2, e2⟩, u2⟩ := h2
      have g1 : ∀ i, f (s.meshNodes i) ≤ runMax (f p) (ps.map f) := fun i => u1 ⟨i, rfl⟩
      have g2 : ∀ i, runMin (f p) (ps.map f) ≤ f (s.meshNodes i) := fun i => u2 ⟨i, rfl⟩
      have p1 : 0 < runMax (f p) (ps.map f) - k := by linarith [g1 i]
      have p2 : runMin (f p) (ps.map f) - k < 0 := by linarith [g2 j]
      refine ⟨runMax (f p) (ps.map f) - k, -(runMin (f p) (ps.map f) - k), p1, by linarith, ?_, ?_, ?_⟩
      · refine ⟨⟨i1, by simp only at e1 ⊢; rw [e1]⟩, ?_⟩
        rintro _ ⟨i, rfl⟩
        simp only; linarith [g1 i]
      · rw [neg_neg]
        refine ⟨⟨i2, by simp only at e2 ⊢; rw [e2]⟩, ?_⟩
        rintro _ ⟨i, rfl⟩
        simp only; linarith [g2 i]
      · rw [abs_of_pos p1, abs_of_neg p2]
    have hφ : r.cent.phi = phiOf r.sums.ixxC r.sums.iyyC r.sums.ixyC := by rw [← hcent]
    cases a with
    | xx =>
      obtain ⟨dp, dm, h1, h2, h3, h4, h5⟩ := fin Prod.snd r.cy r.cent.ixxC (hfp .xx) (hfm .xx)
      refine ⟨dp, dm, h1, h2, h3, h4, ?_⟩
      rw [hcy] at h5
      simp only [axisZ, axisInertia]
      rw [← hcent] at h5 ⊢
      exact h5
    | yy =>
      obtain ⟨dp, dm, h1, h2, h3, h4, h5⟩ := fin Prod.fst r.cx r.cent.iyyC (hfp .yy) (hfm .yy)
      refine ⟨dp, dm, h1, h2, h3, h4, ?_⟩
      rw [hcx] at h5
      simp only [axisZ, axisInertia]
      rw [← hcent] at h5 ⊢
      exact h5
    | a11 =>
      obtain ⟨dp, dm, h1, h2, h3, h4, h5⟩ := fin
        (fun q => rotY r.cent.phi (q.1 - r.cx) (q.2 - r.cy)) 0 r.cent.i11
        (by simpa [fibre] using hfp .a11) (by simpa [fibre] using hfm .a11)
      simp only [sub_zero] at h3 h4 h5
      refine ⟨dp, dm, h1, h2, h3, h4, ?_⟩
      simp only [axisZ, axisInertia]
      rw [← h5, hcx, hcy]
      rw [← hcent]
      rfl
    | a22 =>
      obtain ⟨dp, dm, h1, h2, h3, h4, h5⟩ := fin
        (fun q => rotX r.cent.phi (q.1 - r.cx) (q.2 - r.cy)) 0 r.cent.i22
        (by simpa [fibre] using hfp .a22) (by simpa [fibre] using hfm .a22)
      simp only [sub_zero] at h3 h4 h5
      refine ⟨dp, dm, h1, h2, h3, h4, ?_⟩
      simp only [axisZ, axisInertia]
      rw [← h5, hcx, hcy]
      rw [← hcent]
      rfl

/-- **C12** (use): for every moment the elementary bending stress `M d / I` at no node exceeds
`|M| / min(z_plus, z_minus)`, and some node attains it. -/
theorem C12_stress {s : Section} {r : GeomResults} (hr : s.geometricAnalysis = .ok r)
    (hs : Physical s.elements) (hc : GoodSection s) (a : Axis) (M : ℝ) :
    (∀ i, |M * fibre s r i a / axisInertia r a| ≤ |M| / min (axisZ r a).1 (axisZ r a).2) ∧
    ∃ i, |M * fibre s r i a / axisInertia r a| = |M| / min (axisZ r a).1 (axisZ r a).2 := by
  obtain ⟨dp, dm, hp, hm, ⟨⟨i1, e1⟩, g1⟩, ⟨⟨i2, e2⟩, g2⟩, hz⟩ := C12_moduli hr hs hc a
  have hI : 0 < axisInertia r a := by
    obtain ⟨-, -, h1, h2, -, h3, h4, -⟩ := C09_positive hr hs
    cases a
    · exact h1
    · exact h2
    · exact lt_of_lt_of_le h4 h3
    · exact h4
  rw [hz]
  set I := axisInertia r a
  simp only at e1 e2
  have hmin : |M| / min (I / dp) (I / dm) = |M| * max dp dm / I := by
    rcases le_total dp dm with h | h
    · rw [min_eq_right (div_le_div_of_nonneg_left hI.le hp h), max_eq_right h]; field_simp
    · rw [min_eq_left (div_le_div_of_nonneg_left hI.le hm h), max_eq_left h]; field_simp
  rw [hmin]
  have habs : ∀ x : ℝ, |M * x / I| = |M| * |x| / I := fun x => by
    rw [abs_div, abs_mul, abs_of_pos hI]
  constructor
  · intro i
    rw [habs]
    have h1 : fibre s r i a ≤ dp := g1 ⟨i, rfl⟩
    have h2 : -dm ≤ fibre s r i a := g2 ⟨i, rfl⟩
    have : |fibre s r i a| ≤ max dp dm :=
      abs_le.2 ⟨by linarith [le_max_right dp dm], h1.trans (le_max_left _ _)⟩
    gcongr
  · rcases le_total dp dm with h | h
    · exact ⟨i2, by rw [habs, e2, abs_neg, abs_of_pos hm, max_eq_right h]⟩
    · exact ⟨i1, by rw [habs, e1, abs_of_pos hp, max_eq_left h]⟩

/-! ### C13 -/

/-- **C13**: effective moduli are area-weighted averages, consistent with each other. -/
theorem C13_effective {s : Section} {r : GeomResults} (hr : s.geometricAnalysis = .ok r)
    (hs : Physical s.elements) (hnu : ∀ t ∈ s.elements, -1 < t.material.poissonsRatio) :
    let area := fun t : Tri6 s.numNodes =>
      signedArea2 (cornerA t.coords) (cornerB t.coords) (cornerC t.coords) / 2
    r.sums.area = (s.elements.map area).sum ∧
    r.eEff * r.sums.area = (s.elements.map fun t => t.material.elasticModulus * area t).sum ∧
    r.gEff * r.sums.area = (s.elements.map fun t =>
      t.material.elasticModulus / (2 * (1 + t.material.poissonsRatio)) * area t).sum ∧
    r.sums.mass = (s.elements.map fun t => t.material.density * area t).sum ∧
    r.eEff = 2 * r.gEff * (1 + r.nuEff) ∧
    (∀ lo hi, (∀ t ∈ s.elements, lo ≤ t.material.elasticModulus ∧ t.material.elasticModulus ≤ hi) →
      lo ≤ r.eEff ∧ r.eEff ≤ hi) ∧
    (∀ lo hi, (∀ t ∈ s.elements, lo ≤ t.material.elasticModulus / (2 * (1 + t.material.poissonsRatio)) ∧
      t.material.elasticModulus / (2 * (1 + t.material.poissonsRatio)) ≤ hi) →
      lo ≤ r.gEff ∧ r.gEff ≤ hi) ∧
    (∀ E ν, (∀ t ∈ s.elements, t.material.elasticModulus = E ∧ t.material.poissonsRatio = ν) →
      r.eEff = E ∧ r.nuEff = ν) := by
  intro area
  obtain ⟨hsum, -, h1, h2, h3, -⟩ := geom_ok hr
  have hA := hs.area_pos
  have harea : ∀ t ∈ s.elements, t.geometricProperties.area = area t := fun t ht =>
    geom_area (hs.straight t ht)
  have hpos : ∀ t ∈ s.elements, 0 < area t := fun t ht => half_pos (hs.proper t ht).2
  have a1 : r.sums.area = (s.elements.map area).sum := by
    rw [hsum]; simp only [geomSums, accum_eq_sum]
    exact congrArg List.sum (List.map_congr_left harea)
  have a2 : r.sums.ea = (s.elements.map fun t => t.material.elasticModulus * area t).sum := by
    rw [hsum]; simp only [geomSums, accum_eq_sum]
    refine congrArg List.sum (List.map_congr_left fun t ht => ?_)
    rw [harea t ht]; exact mul_comm _ _
  have a3 : r.sums.ga = (s.elements.map fun t =>
      t.material.elasticModulus / (2 * (1 + t.material.poissonsRatio)) * area t).sum := by
    rw [hsum]; simp only [geomSums, accum_eq_sum]
    refine congrArg List.sum (List.map_congr_left fun t ht => ?_)
    rw [harea t ht]; exact mul_comm _ _
  have a4 : r.sums.mass = (s.elements.map fun t => t.material.density * area t).sum := by
    rw [hsum]; simp only [geomSums, accum_eq_sum]
    refine congrArg List.sum (List.map_congr_left fun t ht => ?_)
    rw [harea t ht]; exact mul_comm _ _
  have hA' : 0 < r.sums.area := by rw [hsum]; exact hA
  have hG : 0 < r.sums.ga := by
    rw [a3]
    refine sum_pos_list hs.nonempty fun t ht => mul_pos (div_pos (hs.modulus t ht) ?_) (hpos t ht)
    linarith [hnu t ht]
  have avg : ∀ (f : Tri6 s.numNodes → ℝ) (lo hi : ℝ), (∀ t ∈ s.elements, lo ≤ f t ∧ f t ≤ hi) →
      lo ≤ (s.elements.map fun t => f t * area t).sum / r.sums.area ∧
      (s.elements.map fun t => f t * area t).sum / r.sums.area ≤ hi := by
    intro f lo hi hb
    rw [le_div_iff₀ hA', div_le_iff₀ hA', a1, ← List.sum_map_mul_left, ← List.sum_map_mul_left]
    exact ⟨List.sum_le_sum fun t ht => mul_le_mul_of_nonneg_right (hb t ht).1 (hpos t ht).le,
      List.sum_le_sum fun t ht => mul_le_mul_of_nonneg_right (hb t ht).2 (hpos t ht).le⟩
  have e2 : r.eEff = r.sums.ea / r.sums.area := h2
  have e3 : r.gEff = r.sums.ga / r.sums.area := h3
  have e1 : r.nuEff = r.sums.ea / (2 * r.sums.ga) - 1 := h1
  refine ⟨a1, ?_, ?_, a4, ?_, ?_, ?_, ?_⟩
  · rw [e2, ← a2]; field_simp
  · rw [e3, ← a3]; field_simp
  · rw [e1, e2, e3]; field_simp; ring
  · intro lo hi hb; rw [e2, a2]; exact avg _ lo hi hb
  · intro lo hi hb; rw [e3, a3]; exact avg _ lo hi hb
  · intro E ν hall
    have b2 : r.sums.ea = E * r.sums.area := by
      rw [a2, a1, ← List.sum_map_mul_left]
      exact congrArg List.sum (List.map_congr_left fun t ht => by rw [(hall t ht).1])
    have b3 : r.sums.ga = E / (2 * (1 + ν)) * r.sums.area := by
      rw [a3, a1, ← List.sum_map_mul_left]
      exact congrArg List.sum (List.map_congr_left fun t ht => by rw [(hall t ht).1, (hall t ht).2])
    obtain ⟨t, ht⟩ := List.exists_mem_of_ne_nil _ hs.nonempty
    have hE : 0 < E := by rw [← (hall t ht).1]; exact hs.modulus t ht
    have hν : 0 < 1 + ν := by rw [← (hall t ht).2]; linarith [hnu t ht]
    refine ⟨by rw [e2, b2]; field_simp, by rw [e1, b2, b3]; field_simp; ring⟩

/-- Non-vacuity of C13. -/
example : Physical exSection.elements ∧ ∀ t ∈ exSection.elements, -1 < t.material.poissonsRatio := by
  refine ⟨exPhysical, fun t ht => ?_⟩
  have ht : t = exT0 ∨ t = exT1 := by
    exact ex_mem t ht
  rcases ht with rfl | rfl
  · show -1 < exConcrete.poissonsRatio; norm_num [exConcrete]
  · show -1 < exSteel.poissonsRatio; norm_num [exSteel]

/-! ### C30 -/

theorem foldl_max_spec {α : Type*} (f : α → ℝ) (l : List α) (a : ℝ) :
    a ≤ l.foldl (fun acc q => max acc (f q)) a ∧
    (∀ q ∈ l, f q ≤ l.foldl (fun acc q => max acc (f q)) a) ∧
    (l.foldl (fun acc q => max acc (f q)) a = a ∨
      ∃ q ∈ l, l.foldl (fun acc q => max acc (f q)) a = f q) := by
  induction l generalizing a with
  | nil => simp
  | cons b l ih =>
    simp only [List.foldl_cons, List.mem_cons]
    obtain ⟨h1, h2, h3⟩ := ih (max a (f b))
    refine ⟨(le_max_left _ _).trans h1, ?_, ?_⟩
    · rintro q (rfl | hq)
      · exact (le_max_right _ _).trans h1
      · exact h2 q hq
    · rcases h3 with h3 | ⟨q, hq, h3⟩
      · rcases max_choice a (f b) with h | h
        · exact .inl (h3.trans h)
        · exact .inr ⟨b, .inl rfl, h3.trans h⟩
      · exact .inr ⟨q, .inr hq, h3⟩

/-- Inertia data of a result. -/
def GeomResults.inertia (r : GeomResults) : Inertia :=
  ⟨r.cent.ixxC, r.cent.iyyC, r.cent.ixyC, r.cent.i11, r.cent.i22, r.cent.phi⟩

/-- Reported yield moment about an axis. -/
def axisMy (r : GeomResults) : Axis → ℝ
  | .xx => r.myXX
  | .yy => r.myYY
  | .a11 => r.my11
  | .a22 => r.my22

/-- Stress at node `i` of element `t` of a group with material `mat` under the moment `M`. -/
noncomputable def nodeStress {n : ℕ} (r : GeomResults) (mat : Material) (t : Tri6 n) (i : Fin 6)
    (M : ℝ) (a : Axis) : ℝ :=
  bendingStress r.inertia M mat.elasticModulus (t.coords.x i - r.cx) (t.coords.y i - r.cy) a

theorem mem_yieldPoints {n : ℕ} {groups : List (MaterialGroup n)} {q : Material × (ℝ × ℝ)} :
    q ∈ yieldPoints groups ↔ ∃ g ∈ groups, ∃ t ∈ g.elements, ∃ i,
      q = (g.material.val, (t.coords.x i, t.coords.y i)) := by
  simp only [yieldPoints, List.mem_flatMap, List.mem_map, List.mem_finRange, true_and]
  constructor
  · rintro ⟨g, hg, t, ht, i, rfl⟩; exact ⟨g, hg, t, ht, i, rfl⟩
  · rintro ⟨g, hg, t, ht, i, rfl⟩; exact ⟨g, hg, t, ht, i, rfl⟩

/-- **C30**: the reported yield moment about each axis is positive; under it no node of any element of
any material group exceeds the yield strength of the group, some node reaches it exactly, and every
larger moment exceeds yield somewhere. -/
theorem C30_yield_moment {s : Section} {r : GeomResults} (hr : s.geometricAnalysis = .ok r)
    (hs : Physical s.elements)
    (hg : ∀ g ∈ s.groups, (0 < g.material.val.yieldStrength ∧ 0 < g.material.val.elasticModulus) ∧
      ∀ t ∈ g.elements, Proper t.coords)
    (hne : ∃ g ∈ s.groups, g.elements ≠ []) (a : Axis) :
    0 < axisMy r a ∧
    (∀ g ∈ s.groups, ∀ t ∈ g.elements, ∀ i,
      |nodeStress r g.material.val t i (axisMy r a) a| ≤ g.material.val.yieldStrength) ∧
    (∃ g ∈ s.groups, ∃ t ∈ g.elements, ∃ i,
      |nodeStress r g.material.val t i (axisMy r a) a| = g.material.val.yieldStrength) ∧
    (∀ M, axisMy r a < M → ∃ g ∈ s.groups, ∃ t ∈ g.elements, ∃ i,
      g.material.val.yieldStrength < |nodeStress r g.material.val t i M a|) := by
  -- the unit stress used by the code is the beam theory stress for `M = 1`
  have hform : axisMy r a = yieldMoment (yieldPoints s.groups) fun m p =>
      bendingStress r.inertia 1 m.elasticModulus (p.1 - r.cx) (p.2 - r.cy) a := by
    have hr' := hr
    unfold Section.geometricAnalysis at hr'
    cases hcc : centroidalProps (geomSums s.elements) (List.ofFn s.meshNodes) with
    | error e => simp [hcc] at hr'
    | ok c =>
      simp only [hcc, Except.ok.injEq] at hr'
      subst hr'
      cases a <;> simp only [axisMy] <;> congr 1 <;> funext m p <;>
        simp only [unitStress, bendingStress, GeomResults.inertia, principalCoordinate, rotX, rotY]
      · field_simp; ring
      · field_simp; ring
      · field_simp
      · field_simp
  obtain ⟨-, -, h1, h2, h3, h4, h5, -⟩ := C09_positive hr hs
  have hdet : 0 < r.inertia.ixx * r.inertia.iyy - r.inertia.ixy ^ 2 := by
    simp only [GeomResults.inertia]; linarith
  have h6 : 0 < r.cent.i11 := lt_of_lt_of_le h5 h4
  have hlin : ∀ M E x y : ℝ, bendingStress r.inertia M E x y a
      = M * (E * bendingStress r.inertia 1 1 x y a) := by
    intro M E x y; cases a <;> simp only [bendingStress] <;> ring
  -- the unit field is a non-zero linear function
  obtain ⟨u, v, huv, hbs⟩ : ∃ u v : ℝ, ¬ (u = 0 ∧ v = 0) ∧
      ∀ x y, bendingStress r.inertia 1 1 x y a = u * x + v * y := by
    have hcs := Real.sin_sq_add_cos_sq (r.inertia.phi * Real.pi / 180)
    cases a with
    | xx =>
      refine ⟨-(r.inertia.ixy / (r.inertia.ixx * r.inertia.iyy - r.inertia.ixy ^ 2)),
        r.inertia.iyy / (r.inertia.ixx * r.inertia.iyy - r.inertia.ixy ^ 2), ?_, ?_⟩
      · rintro ⟨-, h⟩; exact (div_pos h2 hdet).ne' h
      · intro x y; simp only [bendingStress]; ring
    | yy =>
      refine ⟨-(r.inertia.ixx / (r.inertia.ixx * r.inertia.iyy - r.inertia.ixy ^ 2)),
        r.inertia.ixy / (r.inertia.ixx * r.inertia.iyy - r.inertia.ixy ^ 2), ?_, ?_⟩
      · rintro ⟨h, -⟩; exact (div_pos h1 hdet).ne' (neg_eq_zero.1 h)
      · intro x y; simp only [bendingStress]; ring
    | a11 =>
      refine ⟨-(Real.sin (r.inertia.phi * Real.pi / 180) / r.inertia.i11),
        Real.cos (r.inertia.phi * Real.pi / 180) / r.inertia.i11, ?_, ?_⟩
      · rintro ⟨ha, hb⟩
        rw [neg_eq_zero, div_eq_zero_iff] at ha
        rw [div_eq_zero_iff] at hb
        have hi : r.inertia.i11 ≠ 0 := h6.ne'
        rw [ha.resolve_right hi, hb.resolve_right hi] at hcs
        norm_num at hcs
      · intro x y; simp only [bendingStress, rotY]; ring
    | a22 =>
      refine ⟨-(Real.cos (r.inertia.phi * Real.pi / 180) / r.inertia.i22),
        -(Real.sin (r.inertia.phi * Real.pi / 180) / r.inertia.i22), ?_, ?_⟩
      · rintro ⟨ha, hb⟩
        rw [neg_eq_zero, div_eq_zero_iff] at ha hb
        have hi : r.inertia.i22 ≠ 0 := h5.ne'
        rw [ha.resolve_right hi, hb.resolve_right hi] at hcs
        norm_num at hcs
      · intro x y; simp only [bendingStress, rotX]; ring
  set sig := fun (m : Material) (p : ℝ × ℝ) =>
    bendingStress r.inertia 1 m.elasticModulus (p.1 - r.cx) (p.2 - r.cy) a with hsig
  obtain ⟨hy0, hy1, hy2⟩ := foldl_max_spec
    (fun q : Material × (ℝ × ℝ) => |sig q.1 q.2 / q.1.yieldStrength|) (yieldPoints s.groups) 0
  change 0 ≤ yieldIndex (yieldPoints s.groups) sig at hy0
  change ∀ q ∈ yieldPoints s.groups, |sig q.1 q.2 / q.1.yieldStrength|
    ≤ yieldIndex (yieldPoints s.groups) sig at hy1
  change yieldIndex (yieldPoints s.groups) sig = 0 ∨ ∃ q ∈ yieldPoints s.groups,
    yieldIndex (yieldPoints s.groups) sig = |sig q.1 q.2 / q.1.yieldStrength| at hy2
  set Y := yieldIndex (yieldPoints s.groups) sig with hY
  have hYpos : 0 < Y := by
    obtain ⟨g, hgs, hgne⟩ := hne
    obtain ⟨t, ht⟩ := List.exists_mem_of_ne_nil _ hgne
    have hp := (hg g hgs).2 t ht
    have hex : ∃ i : Fin 6, t.lin u v (u * r.cx + v * r.cy) i ≠ 0 := by
      by_contra hcon
      push Not at hcon
      exact lin_not_const hp huv (hcon 0) (hcon 1) (hcon 2)
    obtain ⟨i, hi⟩ := hex
    have := hy1 (g.material.val, (t.coords.x i, t.coords.y i))
      (mem_yieldPoints.2 ⟨g, hgs, t, ht, i, rfl⟩)
    refine lt_of_lt_of_le ?_ this
    rw [abs_pos]
    have hfy := (hg g hgs).1.1
    have he := (hg g hgs).1.2
    simp only [hsig, hlin 1 g.material.val.elasticModulus, hbs]
    refine div_ne_zero (mul_ne_zero one_ne_zero (mul_ne_zero he.ne' ?_)) hfy.ne'
    intro h0
    apply hi
    simp only [Tri6.lin]
    linarith
  have hmy : axisMy r a = 1 / Y := hform
  have hns : ∀ (g : MaterialGroup s.numNodes) (t : Tri6 s.numNodes) (i : Fin 6) (M : ℝ),
      nodeStress r g.material.val t i M a = M * sig g.material.val (t.coords.x i, t.coords.y i) := by
    intro g t i M
    simp only [nodeStress, hsig]
    rw [hlin M, hlin 1 g.material.val.elasticModulus]; ring
  refine ⟨by rw [hmy]; positivity, ?_, ?_, ?_⟩
  · intro g hgs t ht i
    have hfy := (hg g hgs).1.1
    have := hy1 (g.material.val, (t.coords.x i, t.coords.y i))
      (mem_yieldPoints.2 ⟨g, hgs, t, ht, i, rfl⟩)
    simp only [abs_div, abs_of_pos hfy] at this
    rw [div_le_iff₀ hfy] at this
    rw [hns, hmy, abs_mul, abs_of_pos (by positivity), one_div, inv_mul_le_iff₀ hYpos]
    exact this
  · rcases hy2 with h0 | ⟨q, hq, hqe⟩
    · exact absurd h0 hYpos.ne'
    · obtain ⟨g, hgs, t, ht, i, rfl⟩ := mem_yieldPoints.1 hq
      have hfy := (hg g hgs).1.1
      refine ⟨g, hgs, t, ht, i, ?_⟩
      simp only [abs_div, abs_of_pos hfy] at hqe
      rw [hns, hmy, abs_mul, abs_of_pos (show 0 < 1 / Y by positivity), hqe]
      have hne' : |sig g.material.val (t.coords.x i, t.coords.y i)| ≠ 0 := by
        intro h0; rw [h0, zero_div] at hqe; exact hYpos.ne' hqe
      field_simp
  · intro M hM
    rcases hy2 with h0 | ⟨q, hq, hqe⟩
    · exact absurd h0 hYpos.ne'
    · obtain ⟨g, hgs, t, ht, i, rfl⟩ := mem_yieldPoints.1 hq
      have hfy := (hg g hgs).1.1
      refine ⟨g, hgs, t, ht, i, ?_⟩
      simp only [abs_div, abs_of_pos hfy] at hqe
      have hMpos : 0 < M := lt_trans (by rw [hmy]; positivity) hM
      rw [hns, abs_mul, abs_of_pos hMpos]
      have hval : |sig g.material.val (t.coords.x i, t.coords.y i)| = Y * g.material.val.yieldStrength := by
        rw [hqe]; field_simp
      rw [hval]
      rw [hmy, div_lt_iff₀ hYpos] at hM
      nlinarith

/-- Non-vacuity of C30: the two-material example. -/
example : (∀ g ∈ exSection.groups,
    (0 < g.material.val.yieldStrength ∧ 0 < g.material.val.elasticModulus) ∧
      ∀ t ∈ g.elements, Proper t.coords) ∧ ∃ g ∈ exSection.groups, g.elements ≠ [] := by
  have hg0 : ∀ t ∈ ([exT0] : List (Tri6 9)), Proper t.coords := fun t ht => by
    rw [List.mem_singleton] at ht
    subst ht
    exact exSection_good.proper exT0 (List.mem_cons_self ..)
  have hg1 : ∀ t ∈ ([exT1] : List (Tri6 9)), Proper t.coords := fun t ht => by
    rw [List.mem_singleton] at ht
    subst ht
    exact exSection_good.proper exT1 (List.mem_cons_of_mem _ (List.mem_cons_self ..))
  have hall : ∀ g ∈ ([⟨⟨0, exConcrete⟩, [exT0]⟩, ⟨⟨1, exSteel⟩, [exT1]⟩] : List (MaterialGroup 9)),
      (0 < g.material.val.yieldStrength ∧ 0 < g.material.val.elasticModulus) ∧
      ∀ t ∈ g.elements, Proper t.coords := by
    intro g hg
    rw [List.mem_cons, List.mem_singleton] at hg
    rcases hg with rfl | rfl
    · exact ⟨by norm_num [exConcrete], hg0⟩
    · exact ⟨by norm_num [exSteel], hg1⟩
  exact ⟨hall, ⟨⟨⟨0, exConcrete⟩, [exT0]⟩, List.mem_cons_self .., List.cons_ne_nil _ _⟩⟩

end SP
