import Verif.Props.Converge
import Verif.Props.ShearShapes

/-!
# C92: the shear areas of a rectangle
-/

namespace SP

open Spec MeasureTheory Set

variable {n : ℕ} {els : List (Tri6 n)} {g u fx fy : ℝ × ℝ → ℝ}

/-- A warping function whose stresses are in equilibrium solves the boundary value problem. -/
theorem shearSolution_of_flow (hp : Physical els) (hno : NoOverlap els) (hu : ContDiff ℝ 1 u) (hf : ShearFlow els g fx fy)
    (he : ∀ t ∈ els, ∀ᵐ p, p ∈ elemRegion t.coords →
      fx p = t.material.elasticModulus * dX u p ∧ fy p = t.material.elasticModulus * dY u p) :
    ShearSolution els g u ∧ flowEnergy els fx fy = gradEnergy els u := by
  refine ⟨⟨hu, fun q hq => ?_⟩, ?_⟩
  · rw [← flow_test hp.proper hno hq hf, wInt]
    refine congrArg List.sum (List.map_congr_left fun t ht => ?_)
    rw [← integral_const_mul]
    refine setIntegral_congr_ae (isCompact_elemRegion _).measurableSet ?_
    filter_upwards [he t ht] with p h1 h2
    rw [(h1 h2).1, (h1 h2).2]
    ring
  · rw [flowEnergy, gradEnergy, wInt]
    refine congrArg List.sum (List.map_congr_left fun t ht => ?_)
    have hE := (hp.modulus t ht).ne'
    rw [← integral_const_mul, ← integral_const_mul]
    refine setIntegral_congr_ae (isCompact_elemRegion _).measurableSet ?_
    filter_upwards [he t ht] with p h1 h2
    rw [(h1 h2).1, (h1 h2).2]
    field_simp

variable {s : Section} {r : GeomResults} {x0 y0 b d E : ℝ}

/-- The geometric properties of a rectangle. -/
theorem rect_facts (hP : Physical s.elements) (hno : NoOverlap s.elements) (hr : s.geometricAnalysis = .ok r)
    (hb : 0 < b) (hd : 0 < d) (hE0 : 0 < E) (hR : region s.elements =ᵐ[volume] Ioo x0 (x0 + b) ×ˢ Ioo y0 (y0 + d))
    (hE : ∀ t ∈ s.elements, t.material.elasticModulus = E) :
    r.cx = x0 + b / 2 ∧ r.cy = y0 + d / 2 ∧ r.sums.ea = E * (b * d) ∧ r.cent.ixxC = E * (b * d ^ 3 / 12) ∧
    r.cent.iyyC = E * (d * b ^ 3 / 12) ∧ r.cent.ixyC = 0 := by
  have hs : Slices s.elements (x0 + b / 2) y0 (y0 + d) (fun _ => b / 2) (fun _ => E) :=
    ⟨by linarith, by rw [← rect_sliced]; exact hR, fun t ht => Filter.Eventually.of_forall fun _ _ => (hE t ht).symm⟩
  have hb2 : 0 < b / 2 := by positivity
  have hh : Tame (fun _ : ℝ => b / 2) (b / 2) (b / 2) := tame_const hb2
  obtain ⟨m1, m2, m3, m4, m5, m6⟩ := slices_moments hr hP hno hs hh
  have hcy : r.cy = y0 + d / 2 := by
    have : ∫ y in y0..y0 + d, E * (y - r.cy) * (b / 2) = E * (b / 2) * ∫ y in y0..y0 + d, (y - r.cy) := by
      rw [← intervalIntegral.integral_const_mul]; exact intervalIntegral.integral_congr fun y _ => by ring
    rw [this, int_line] at m6
    have h3 := (mul_eq_zero.1 m6).resolve_left (by positivity)
    have h4 : d * (y0 + d / 2 - r.cy) = 0 := by linear_combination h3
    have := (mul_eq_zero.1 h4).resolve_left hd.ne'
    linarith
  refine ⟨m1, hcy, ?_, ?_, ?_, m2⟩
  · rw [m3, intervalIntegral.integral_const, smul_eq_mul]; ring
  · have : ∫ y in y0..y0 + d, 2 * (E * (y - r.cy) ^ 2 * (b / 2)) = E * b * ∫ y in y0..y0 + d, (y - r.cy) ^ 2 := by
      rw [← intervalIntegral.integral_const_mul]; exact intervalIntegral.integral_congr fun y _ => by ring
    rw [m4, this, int_square, hcy]
    ring
  · rw [m5, intervalIntegral.integral_const, smul_eq_mul]; ring

/-- The warping function of a rectangle with the centre `(cx, cy)` under a shear force `(vx, vy)`. -/
noncomputable def rectWarp (cx cy b d I1 I2 vx vy : ℝ) (p : ℝ × ℝ) : ℝ :=
  vx / (2 * I2) * ((b / 2) ^ 2 * (p.1 - cx) - (p.1 - cx) ^ 3 / 3) + vy / (2 * I1) * ((d / 2) ^ 2 * (p.2 - cy) - (p.2 - cy) ^ 3 / 3)

theorem rectWarp_smooth (cx cy b d I1 I2 vx vy : ℝ) : ContDiff ℝ 1 (rectWarp cx cy b d I1 I2 vx vy) := by
  unfold rectWarp
  fun_prop

theorem rectWarp_grad (cx cy b d I1 I2 vx vy : ℝ) (p : ℝ × ℝ) :
    dX (rectWarp cx cy b d I1 I2 vx vy) p = vx / (2 * I2) * ((b / 2) ^ 2 - (p.1 - cx) ^ 2) ∧
    dY (rectWarp cx cy b d I1 I2 vx vy) p = vy / (2 * I1) * ((d / 2) ^ 2 - (p.2 - cy) ^ 2) := by
  constructor
  · have h0 : HasDerivAt (fun x : ℝ => x - cx) 1 p.1 := (hasDerivAt_id p.1).sub_const cx
    have h1 := (((h0.const_mul ((b / 2) ^ 2)).sub ((h0.pow 3).div_const 3)).const_mul (vx / (2 * I2))).add_const
      (vy / (2 * I1) * ((d / 2) ^ 2 * (p.2 - cy) - (p.2 - cy) ^ 3 / 3))
    refine (HasDerivAt.deriv h1).trans ?_
    norm_num
  · have h0 : HasDerivAt (fun x : ℝ => x - cy) 1 p.2 := (hasDerivAt_id p.2).sub_const cy
    have h1 := (((h0.const_mul ((d / 2) ^ 2)).sub ((h0.pow 3).div_const 3)).const_mul (vy / (2 * I1))).const_add
      (vx / (2 * I2) * ((b / 2) ^ 2 * (p.1 - cx) - (p.1 - cx) ^ 3 / 3))
    refine (HasDerivAt.deriv h1).trans ?_
    norm_num

theorem cube_le {x y : ℝ} : |x| ^ 3 ≤ √(x ^ 2 + y ^ 2) ^ 3 ∧ |y| ^ 3 ≤ √(x ^ 2 + y ^ 2) ^ 3 := by
  obtain ⟨h1, h2⟩ := coord_le (le_refl √(x ^ 2 + y ^ 2))
  exact ⟨pow_le_pow_left₀ (abs_nonneg _) h1 3, pow_le_pow_left₀ (abs_nonneg _) h2 3⟩

theorem rectWarp_expands (cx cy b d : ℝ) {I1 I2 vx vy : ℝ} (h1 : 0 < I1) (h2 : 0 < I2) (hx : |vx| ≤ 1) (hy : |vy| ≤ 1) :
    Expands els (rectWarp cx cy b d I1 I2 vx vy) (1 / (6 * I1) + 1 / (6 * I2)) := by
  intro t _ p _
  refine ⟨-(vx / (2 * I2) * (p.1 - cx)), 0, -(vy / (2 * I1) * (p.2 - cy)), fun z _ => ?_⟩
  rw [(rectWarp_grad cx cy b d I1 I2 vx vy p).1, (rectWarp_grad cx cy b d I1 I2 vx vy p).2]
  obtain ⟨c1, c2⟩ := cube_le (x := z.1 - p.1) (y := z.2 - p.2)
  set ρ := √((z.1 - p.1) ^ 2 + (z.2 - p.2) ^ 2) ^ 3
  have e : rectWarp cx cy b d I1 I2 vx vy z - (rectWarp cx cy b d I1 I2 vx vy p +
      vx / (2 * I2) * ((b / 2) ^ 2 - (p.1 - cx) ^ 2) * (z.1 - p.1) + vy / (2 * I1) * ((d / 2) ^ 2 - (p.2 - cy) ^ 2) * (z.2 - p.2) +
      -(vx / (2 * I2) * (p.1 - cx)) * (z.1 - p.1) ^ 2 + 0 * ((z.1 - p.1) * (z.2 - p.2)) +
      -(vy / (2 * I1) * (p.2 - cy)) * (z.2 - p.2) ^ 2) =
      -(vx * (z.1 - p.1) ^ 3 / (6 * I2)) - vy * (z.2 - p.2) ^ 3 / (6 * I1) := by
    simp only [rectWarp]
    field_simp
    ring
  rw [e]
  have k1 : |vx * (z.1 - p.1) ^ 3 / (6 * I2)| ≤ 1 / (6 * I2) * ρ := by
    rw [abs_div, abs_mul, abs_pow, abs_of_pos (by positivity : 0 < 6 * I2), div_le_iff₀ (by positivity)]
    calc |vx| * |z.1 - p.1| ^ 3 ≤ 1 * ρ := mul_le_mul hx c1 (by positivity) (by norm_num)
      _ = _ := by field_simp
  have k2 : |vy * (z.2 - p.2) ^ 3 / (6 * I1)| ≤ 1 / (6 * I1) * ρ := by
    rw [abs_div, abs_mul, abs_pow, abs_of_pos (by positivity : 0 < 6 * I1), div_le_iff₀ (by positivity)]
    calc |vy| * |z.2 - p.2| ^ 3 ≤ 1 * ρ := mul_le_mul hy c2 (by positivity) (by norm_num)
      _ = _ := by field_simp
  rw [abs_le] at *
  constructor <;> linarith [k1.1, k1.2, k2.1, k2.2]

/-- It solves the problem. -/
theorem rectWarp_solves (hP : Physical s.elements) (hno : NoOverlap s.elements) (hr : s.geometricAnalysis = .ok r)
    (hb : 0 < b) (hd : 0 < d) (hE0 : 0 < E) (hR : region s.elements =ᵐ[volume] Ioo x0 (x0 + b) ×ˢ Ioo y0 (y0 + d))
    (hE : ∀ t ∈ s.elements, t.material.elasticModulus = E) (vx vy : ℝ) :
    let u := rectWarp r.cx r.cy b d r.cent.ixxC r.cent.iyyC vx vy
    ShearSolution s.elements (strainRate r.cx r.cy r.cent.ixxC r.cent.iyyC r.cent.ixyC vx vy) u ∧
    gradEnergy s.elements u = (vx ^ 2 + vy ^ 2) * (6 / 5 / (E * (b * d))) := by
  intro u
  have hs : Slices s.elements (x0 + b / 2) y0 (y0 + d) (fun _ => b / 2) (fun _ => E) :=
    ⟨by linarith, by rw [← rect_sliced]; exact hR, fun t ht => Filter.Eventually.of_forall fun _ _ => (hE t ht).symm⟩
  have hb2 : 0 < b / 2 := by positivity
  have hh : Tame (fun _ : ℝ => b / 2) (b / 2) (b / 2) := tame_const hb2
  have he : Tame (fun _ : ℝ => E) E E := tame_const hE0
  obtain ⟨-, -, -, -, -, h0⟩ := slices_moments hr hP hno hs hh
  obtain ⟨hx, hy, -, hxx, hyy, hxy⟩ := rect_facts hP hno hr hb hd hE0 hR hE
  have p1 : 0 < r.cent.ixxC := by rw [hxx]; positivity
  have p2 : 0 < r.cent.iyyC := by rw [hyy]; positivity
  obtain ⟨N, hN, hf⟩ := slices_flow hs hh he p1.ne' p2.ne' h0 vx vy
  have hen := (slices_energy hs hh he hno hN hf).trans (slices_energy_split hs hh he p1.ne' p2.ne' h0 vx vy)
  obtain ⟨-, -, bin, -⟩ := belowMoment_facts hh he hs.order h0
  have hlow : ∀ y, ∫ η in y0..y, E * (η - r.cy) * (b / 2) = E * b / 4 * ((y - r.cy) ^ 2 - (d / 2) ^ 2) := by
    intro y
    have : ∫ η in y0..y, E * (η - r.cy) * (b / 2) = E * (b / 2) * ∫ η in y0..y, (η - r.cy) := by
      rw [← intervalIntegral.integral_const_mul]; exact intervalIntegral.integral_congr fun y _ => by ring
    rw [this, int_line, hy]
    ring
  have hrate : strainRate (x0 + b / 2) r.cy r.cent.ixxC r.cent.iyyC 0 vx vy =
      strainRate r.cx r.cy r.cent.ixxC r.cent.iyyC r.cent.ixyC vx vy := by rw [hx, hxy]
  rw [hrate] at hf
  have step := shearSolution_of_flow hP hno (rectWarp_smooth r.cx r.cy b d r.cent.ixxC r.cent.iyyC vx vy) hf
  obtain ⟨k1, k2⟩ := step (by
    intro t ht
    have hreg : ∀ᵐ p, p ∈ region s.elements → p ∈ sliced (x0 + b / 2) y0 (y0 + d) fun _ => b / 2 := by
      have := hs.covers
      filter_upwards [this] with p hp h1
      exact hp.mp h1
    filter_upwards [hreg, countable_snd hN] with p hp hpN hpt
    obtain ⟨⟨s1, s2⟩, s3⟩ := hp ⟨t, ht, hpt⟩
    simp only at s3
    rw [(rectWarp_grad r.cx r.cy b d r.cent.ixxC r.cent.iyyC vx vy p).1,
      (rectWarp_grad r.cx r.cy b d r.cent.ixxC r.cent.iyyC vx vy p).2, hE t ht]
    constructor
    · have hG : p.2 ∈ Ioo y0 (y0 + d) \ N := ⟨⟨s1, s2⟩, hpN⟩
      have hw : wing (b / 2) (b / 2) (p.1 - (x0 + b / 2)) = 0 := by
        rw [wing, div_self hb2.ne', sub_self, mul_zero, mul_zero, max_eq_left (min_le_left _ _), max_eq_left (min_le_left _ _), sub_self]
      have hpa : parab (b / 2) (p.1 - (x0 + b / 2)) = (b / 2) ^ 2 - (p.1 - (x0 + b / 2)) ^ 2 := by
        rw [parab, max_eq_left]
        have := sq_lt_sq' (abs_lt.1 s3).1 (abs_lt.1 s3).2
        linarith
      rw [crossFlow, indicator_of_mem hG, hw, hpa, hx]
      ring
    · rw [spineFlow, if_pos s3, bin p.2 ⟨s1.le, s2.le⟩, hlow]
      field_simp
      ring)
  refine ⟨k1, k2.symm.trans (hen.trans ?_)⟩
  have hX : ∫ y in y0..y0 + d, 4 / 15 * (E * (b / 2) ^ 5) = E * (d * b ^ 5 / 120) := by
    rw [intervalIntegral.integral_const, smul_eq_mul]; ring
  have hS : ∀ y, ∫ η in y0..y, 2 * (E * (η - r.cy) * (b / 2)) = E * b / 2 * (-(d / 2) ^ 2 + 1 * (y - r.cy) ^ 2) := by
    intro y
    rw [intervalIntegral.integral_const_mul, hlow]
    ring
  have hY : ∫ y in y0..y0 + d, ((∫ η in y0..y, 2 * (E * (η - r.cy) * (b / 2))) ^ 2 / (2 * (b / 2) * E) +
      2 / 3 * (E * (y - r.cy) ^ 2 * (b / 2 - b / 2) ^ 2 * (b / 2))) = E * (b * d ^ 5 / 120) := by
    have : ∫ y in y0..y0 + d, ((∫ η in y0..y, 2 * (E * (η - r.cy) * (b / 2))) ^ 2 / (2 * (b / 2) * E) +
      2 / 3 * (E * (y - r.cy) ^ 2 * (b / 2 - b / 2) ^ 2 * (b / 2))) =
        E * b / 4 * ∫ y in y0..y0 + d, (-(d / 2) ^ 2 + 1 * (y - r.cy) ^ 2) ^ 2 := by
      rw [← intervalIntegral.integral_const_mul]
      refine intervalIntegral.integral_congr fun y _ => ?_
      simp only [hS]
      field_simp
      ring
    rw [this, int_quart, hy]
    ring
  rw [hX, hY, hxx, hyy]
  field_simp
  ring

/-- **C92** for a rectangle of one material: the reciprocals of the four shear areas are at most `6/5` of the reciprocal of the
area, and fall short of that by at most a constant times the fourth power of the size of the elements. -/
theorem C92_rectangle (hg : GoodSection s) (hP : Physical s.elements) (hc : ConformingMesh s.meshNodes s.elements)
    (hno : NoOverlap s.elements) (hr : s.geometricAnalysis = .ok r) (sv : Solvers) (ty : SolverType)
    (w : WarpResults s.numNodes) (hw : s.warping sv ty r = .ok w) (hnu : isComposite s.materials → r.nuEff = 0)
    (hb : 0 < b) (hd : 0 < d) (hE0 : 0 < E)
    (hR : region s.elements =ᵐ[volume] Ioo x0 (x0 + b) ×ˢ Ioo y0 (y0 + d))
    (hE : ∀ t ∈ s.elements, t.material.elasticModulus = E) {h κ : ℝ} (hf : FineMesh s.elements h κ) :
    let A := (assembleTorsion (s.elements.map fun t => t.shiftBy r.cx r.cy)).1
    let f := assembleShearLoad (s.elements.map fun t => t.shiftBy r.cx r.cy) (warpIn s.materials r)
    SolvesBordered A f.1 w.psi → SolvesBordered A f.2 w.phiS →
    ∀ a ∈ [w.areas.sx, w.areas.sy, w.areas.s11, w.areas.s22],
      (6 / 5 - 3528 * (κ * h ^ 2 * (1 / b ^ 2 + 1 / d ^ 2)) ^ 2) / (E * (b * d)) ≤ 1 / a ∧ 1 / a ≤ 6 / 5 / (E * (b * d)) := by
  intro A f h1 h2
  obtain ⟨-, -, hea, hxx, hyy, -⟩ := rect_facts hP hno hr hb hd hE0 hR hE
  have p1 : 0 < r.cent.ixxC := by rw [hxx]; positivity
  have p2 : 0 < r.cent.iyyC := by rw [hyy]; positivity
  have hM : 0 ≤ 1 / (6 * r.cent.ixxC) + 1 / (6 * r.cent.iyyC) := by positivity
  have key : ∀ c e a, (c, e, a) ∈ [(1, 0, w.areas.sx), (0, 1, w.areas.sy),
      (Real.cos (r.cent.phi * Real.pi / 180), Real.sin (r.cent.phi * Real.pi / 180), w.areas.s11),
      (-Real.sin (r.cent.phi * Real.pi / 180), Real.cos (r.cent.phi * Real.pi / 180), w.areas.s22)] →
      c ^ 2 + e ^ 2 = 1 →
      (6 / 5 - 3528 * (κ * h ^ 2 * (1 / b ^ 2 + 1 / d ^ 2)) ^ 2) / (E * (b * d)) ≤ 1 / a ∧ 1 / a ≤ 6 / 5 / (E * (b * d)) := by
    intro c e a hm hce
    obtain ⟨hu, hen⟩ := rectWarp_solves hP hno hr hb hd hE0 hR hE c e
    have hc1 : |c| ≤ 1 := (sq_le_one_iff_abs_le_one c).1 (by linarith [sq_nonneg e])
    have he1 : |e| ≤ 1 := (sq_le_one_iff_abs_le_one e).1 (by linarith [sq_nonneg c])
    have hT := rectWarp_expands (els := s.elements) r.cx r.cy b d p1 p2 hc1 he1
    obtain ⟨k1, k2⟩ := C92_shear s r hg hP hc hr sv ty w hw hnu hM hT hf h1 h2 c e a hm hu
    rw [hen, hce, one_mul] at k1 k2
    refine ⟨le_trans (le_of_eq ?_) k1, k2⟩
    rw [hea, hxx, hyy]
    field_simp
    ring
  intro a ha
  simp only [List.mem_cons, List.not_mem_nil, or_false] at ha
  rcases ha with rfl | rfl | rfl | rfl
  · exact key 1 0 _ (by simp) (by norm_num)
  · exact key 0 1 _ (by simp) (by norm_num)
  · exact key (Real.cos (r.cent.phi * Real.pi / 180)) (Real.sin (r.cent.phi * Real.pi / 180)) _ (by simp) (Real.cos_sq_add_sin_sq _)
  · exact key (-Real.sin (r.cent.phi * Real.pi / 180)) (Real.cos (r.cent.phi * Real.pi / 180)) _ (by simp) (by rw [neg_sq]; exact Real.sin_sq_add_cos_sq _)

/-- **C92** the shear areas of a rectangle converge to five sixths of its area: for every tolerance there is a size of the elements,
depending on the rectangle and the shape regularity only, below which every mesh gives the four areas within the tolerance. -/
theorem C92_rectangle_limit {b d κ ε : ℝ} (hb : 0 < b) (hd : 0 < d) (hκ : 0 < κ) (hε : 0 < ε) : ∃ h0 > 0, ∀ (s : Section)
    (r : GeomResults) (sv : Solvers) (ty : SolverType) (w : WarpResults s.numNodes) (x0 y0 E : ℝ), GoodSection s →
    Physical s.elements → ConformingMesh s.meshNodes s.elements → NoOverlap s.elements → s.geometricAnalysis = .ok r →
    s.warping sv ty r = .ok w → (isComposite s.materials → r.nuEff = 0) → 0 < E →
    region s.elements =ᵐ[volume] Ioo x0 (x0 + b) ×ˢ Ioo y0 (y0 + d) →
    (∀ t ∈ s.elements, t.material.elasticModulus = E) → FineMesh s.elements h0 κ →
    let A := (assembleTorsion (s.elements.map fun t => t.shiftBy r.cx r.cy)).1
    let f := assembleShearLoad (s.elements.map fun t => t.shiftBy r.cx r.cy) (warpIn s.materials r)
    SolvesBordered A f.1 w.psi → SolvesBordered A f.2 w.phiS →
    ∀ a ∈ [w.areas.sx, w.areas.sy, w.areas.s11, w.areas.s22], |a / (E * (b * d)) - 5 / 6| ≤ ε := by
  set C := 3528 * (κ * (1 / b ^ 2 + 1 / d ^ 2)) ^ 2 with hC
  have hC0 : 0 < C := by positivity
  set δ := 6 / 5 * ε / (5 / 6 + ε) with hδ
  have hδ0 : 0 < δ := by positivity
  refine ⟨min 1 (δ / C), by positivity, ?_⟩
  set h0 := min 1 (δ / C) with hh0
  have hpos : 0 < h0 := by positivity
  have hle : C * h0 ^ 4 ≤ δ := by
    have e1 : h0 ^ 4 ≤ h0 := by
      have := pow_le_pow_of_le_one hpos.le (min_le_left _ _ : h0 ≤ 1) (show 1 ≤ 4 by norm_num)
      simpa using this
    have e2 : h0 ≤ δ / C := min_le_right _ _
    calc C * h0 ^ 4 ≤ C * (δ / C) := mul_le_mul_of_nonneg_left (e1.trans e2) hC0.le
      _ = δ := by field_simp
  intro s r sv ty w x0 y0 E hg hP hc hno hr hw hnu hE0 hR hE hf A f h1 h2 a ha
  obtain ⟨k1, -⟩ := C92_rectangle hg hP hc hno hr sv ty w hw hnu hb hd hE0 hR hE hf h1 h2 a ha
  obtain ⟨k2, -⟩ := C91_rectangle hg hP hc hno hr sv ty w hw hnu hb hd hE0 hR hE h1 h2 a ha
  have hA : 0 < E * (b * d) := by positivity
  have ha0 : 0 < a := lt_of_lt_of_le (by positivity) k2
  have e : 3528 * (κ * h0 ^ 2 * (1 / b ^ 2 + 1 / d ^ 2)) ^ 2 = C * h0 ^ 4 := by rw [hC]; ring
  rw [e, div_le_div_iff₀ hA ha0] at k1
  set y := a / (E * (b * d)) with hy
  have ey : a = y * (E * (b * d)) := by rw [hy]; field_simp
  have y1 : 5 / 6 ≤ y := by rw [hy, le_div_iff₀ hA]; exact k2
  rw [ey] at k1
  have k3 : (6 / 5 - C * h0 ^ 4) * y ≤ 1 := by
    have : ((6 / 5 - C * h0 ^ 4) * y) * (E * (b * d)) ≤ 1 * (E * (b * d)) := by linarith
    exact le_of_mul_le_mul_right this hA
  have y0' : 0 ≤ y := by linarith
  have k4 : (6 / 5 - δ) * y ≤ 1 := le_trans (mul_le_mul_of_nonneg_right (by linarith) y0') k3
  have k5 : 6 / 5 - δ = 1 / (5 / 6 + ε) := by rw [hδ]; field_simp; ring
  rw [k5, div_mul_eq_mul_div, one_mul, div_le_one (by positivity)] at k4
  rw [abs_le]
  exact ⟨by linarith, by linarith⟩

end SP
