import Verif.Lemmas.ShearFlow
import Verif.Props.StressFunction

/-!
# C91: the shear areas are at least what any shear flow supports
-/

namespace SP

open Spec MeasureTheory Set

variable {n : ℕ} {els : List (Tri6 n)} {g fx fy : ℝ × ℝ → ℝ}

/-! ### Moving the origin -/

theorem ae_shift {P : ℝ → Prop} (h : ∀ᵐ y, P y) (c : ℝ) : ∀ᵐ y, P (y + c) :=
  (measurePreserving_add_right (volume : Measure ℝ) c).quasiMeasurePreserving.ae h

theorem ae_shift2 {P : ℝ × ℝ → Prop} (h : ∀ᵐ p, P p) (c : ℝ × ℝ) : ∀ᵐ p, P (p + c) :=
  (measurePreserving_add_right (volume : Measure (ℝ × ℝ)) c).quasiMeasurePreserving.ae h

theorem deriv_shift {f f' : ℝ → ℝ} {N : Set ℝ} (hN : N.Countable) (h : ∀ x ∉ N, HasDerivAt f (f' x) x) (c : ℝ) :
    ∃ N : Set ℝ, N.Countable ∧ ∀ x ∉ N, HasDerivAt (fun x => f (x + c)) (f' (x + c)) x :=
  ⟨(fun x => x + c) ⁻¹' N, hN.preimage (add_left_injective c), fun x hx => (h (x + c) hx).comp_add_const x c⟩

theorem elemRegion_shiftBy (t : Tri6 n) (cx cy : ℝ) :
    elemRegion (t.shiftBy cx cy).coords = (fun p => p + (cx, cy)) ⁻¹' elemRegion t.coords := by
  ext p; exact mem_region_shift

theorem shearFlow_shift (h : ShearFlow els g fx fy) (cx cy : ℝ) :
    ShearFlow (shifted els cx cy) (fun p => g (p + (cx, cy))) (fun p => fx (p + (cx, cy))) fun p => fy (p + (cx, cy)) := by
  have hadd : Measurable fun p : ℝ × ℝ => p + (cx, cy) := measurable_add_const _
  obtain ⟨M, hM⟩ := h.bounded
  obtain ⟨dx, dy, ix, iy, ax, ay, hb⟩ := h.balance
  have hio : ∀ d : ℝ × ℝ → ℝ, IntegrableOn d (region els) →
      IntegrableOn (fun p => d (p + (cx, cy))) (region (shifted els cx cy)) := fun d hd => by
    rw [region_shift]
    exact ((measurePreserving_add_right volume (cx, cy)).integrableOn_comp_preimage
      (Homeomorph.addRight (cx, cy)).measurableEmbedding).2 hd
  refine ⟨fun p hp => ?_, ⟨h.measurable.1.comp hadd, h.measurable.2.comp hadd⟩, ⟨M, fun p => hM _⟩,
    fun p => dx (p + (cx, cy)), fun p => dy (p + (cx, cy)), hio dx ix, hio dy iy, ?_, ?_, ?_⟩
  · rw [region_shift] at hp
    exact h.outside _ hp
  · filter_upwards [ae_shift ax cy] with y ⟨h1, N, hN, h2⟩
    exact ⟨h1.comp (continuous_add_const cx), deriv_shift (f := fun x => fx (x, y + cy)) (f' := fun x => dx (x, y + cy)) hN h2 cx⟩
  · filter_upwards [ae_shift ay cx] with x ⟨h1, N, hN, h2⟩
    exact ⟨h1.comp (continuous_add_const cy), deriv_shift (f := fun y => fy (x + cx, y)) (f' := fun y => dy (x + cx, y)) hN h2 cy⟩
  · intro t ht
    obtain ⟨t, ht', rfl⟩ := List.mem_map.1 ht
    filter_upwards [ae_shift2 (hb t ht') (cx, cy)] with p hp hpt
    rw [elemRegion_shiftBy] at hpt
    exact hp hpt

theorem flowEnergy_shift (cx cy : ℝ) :
    flowEnergy (shifted els cx cy) (fun p => fx (p + (cx, cy))) (fun p => fy (p + (cx, cy))) = flowEnergy els fx fy := by
  rw [flowEnergy, shifted, List.map_map, flowEnergy]
  refine congrArg List.sum (List.map_congr_left fun t _ => ?_)
  simp only [Function.comp_apply, elemRegion_shiftBy]
  rw [(measurePreserving_add_right volume (cx, cy)).setIntegral_preimage_emb
    (Homeomorph.addRight (cx, cy)).measurableEmbedding (fun p => fx p ^ 2 + fy p ^ 2)]
  rfl

theorem strainRate_shift (cx cy ixx iyy ixy vx vy : ℝ) :
    (fun p : ℝ × ℝ => strainRate cx cy ixx iyy ixy vx vy (p + (cx, cy))) = strainRate 0 0 ixx iyy ixy vx vy := by
  funext p
  simp [strainRate]

/-! ### The shear coefficients -/

/-- The shear coefficients in the direction `(c, d)`, as energy and as work of the load. -/
theorem shear_form (s : Section) (r : GeomResults) (hg : GoodSection s) (h : Physical s.elements)
    (hr : s.geometricAnalysis = .ok r) (hnu : isComposite s.materials → r.nuEff = 0) (psi phiS : Fin s.numNodes → ℝ) (c d : ℝ) :
    let els := s.elements.map fun t => t.shiftBy r.cx r.cy
    let f := assembleShearLoad els (warpIn s.materials r)
    let k := shearDeformation els (warpIn s.materials r) psi phiS
    SolvesBordered (assembleTorsion els).1 f.1 psi → SolvesBordered (assembleTorsion els).1 f.2 phiS →
    ∀ q, FEField els (fun i => c * psi i + d * phiS i) q →
      c ^ 2 * k.x + 2 * (c * d) * k.xy + d ^ 2 * k.y = dirichlet els q q ∧
      ∀ x v, FEField els x v → dirichlet els v q = (warpIn s.materials r).deltaS *
        wInt els fun t p => v t p * strainRate 0 0 r.cent.ixxC r.cent.iyyC r.cent.ixyC c d p := by
  intro els f k h1 h2 y hy
  have hS := centroidalSetup hg h hr
  have hP := hS.physical
  have hnu0 : (warpIn s.materials r).nu = 0 := by
    simp only [warpIn]
    split_ifs with hc
    · exact hnu hc
    · rfl
  obtain ⟨l1, l2⟩ := shear_load_sum hP.proper hS.distinct (warpIn s.materials r) hS.centroidal
  obtain ⟨q, hq⟩ := exists_feField hP.proper psi
  obtain ⟨z, hz⟩ := exists_feField hP.proper phiS
  obtain ⟨k1, k2, k3⟩ := kappas_form hP.proper hnu0 hq hz
  have e1 := bordered_weak hP hS.distinct l1 h1 hq hq
  have e2 := bordered_weak hP hS.distinct l1 h1 hq hz
  have e3 := bordered_weak hP hS.distinct l2 h2 hz hq
  have e4 := bordered_weak hP hS.distinct l2 h2 hz hz
  have hload : (∑ i, (c * f.1 i + d * f.2 i)) = 0 := by
    rw [Finset.sum_add_distrib, ← Finset.mul_sum, ← Finset.mul_sum, l1, l2, mul_zero, mul_zero, add_zero]
  have hweak := bordered_weak hP hS.distinct hload (solves_comb c d h1 h2) hy hy
  refine ⟨?_, fun x v hv => ?_⟩
  · rw [hweak]
    have s1 := dirichlet_symm (els := els) z q
    rw [dotN_comb]
    change c ^ 2 * (shearDeformation els (warpIn s.materials r) psi phiS).x
      + 2 * (c * d) * (shearDeformation els (warpIn s.materials r) psi phiS).xy
      + d ^ 2 * (shearDeformation els (warpIn s.materials r) psi phiS).y = _
    rw [k1, k2, k3]
    linear_combination c ^ 2 * e1 + c * d * e2 + c * d * e3 + d ^ 2 * e4 - c * d * s1
  · rw [bordered_weak hP hS.distinct hload (solves_comb c d h1 h2) hy hv]
    have split : ∀ (x b b' : Fin s.numNodes → ℝ), dotN x (fun i => c * b i + d * b' i) = c * dotN x b + d * dotN x b' := by
      intro x b b'
      simp only [dotN, Finset.mul_sum, ← Finset.sum_add_distrib]
      exact Finset.sum_congr rfl fun i _ => by ring
    rw [split, psi_load hP.proper hS.distinct _ hv, phi_load hP.proper hS.distinct _ hv, ← wInt_smul, ← wInt_smul, ← wInt_smul]
    refine (wInt_add (els := els) (d := 3) (f := fun t p => c * psiWork (warpIn s.materials r) (v t) p)
      (g := fun t p => d * phiWork (warpIn s.materials r) (v t) p)
      (fun t ht => Submodule.smul_mem _ c (psiWork_mem _ (hv t ht).1))
      (fun t ht => Submodule.smul_mem _ d (phiWork_mem _ (hv t ht).1))).symm.trans ?_
    refine wInt_congr fun t _ p => ?_
    have hdet := hS.det.ne'
    simp only [psiWork, phiWork, hnu0, WarpIn.deltaS, strainRate]
    simp only [warpIn]
    field_simp
    ring

/-- The shear coefficient in the direction `(c, d)` is at most what any shear flow of the unit force in that direction gives. -/
theorem kappa_flow (s : Section) (r : GeomResults) (hg : GoodSection s) (h : Physical s.elements)
    (hc : ConformingMesh s.meshNodes s.elements) (hno : NoOverlap s.elements)
    (hr : s.geometricAnalysis = .ok r) (hnu : isComposite s.materials → r.nuEff = 0) (psi phiS : Fin s.numNodes → ℝ) (c d : ℝ)
    (hf : ShearFlow s.elements (strainRate r.cx r.cy r.cent.ixxC r.cent.iyyC r.cent.ixyC c d) fx fy) :
    let els := s.elements.map fun t => t.shiftBy r.cx r.cy
    let f := assembleShearLoad els (warpIn s.materials r)
    let k := shearDeformation els (warpIn s.materials r) psi phiS
    SolvesBordered (assembleTorsion els).1 f.1 psi → SolvesBordered (assembleTorsion els).1 f.2 phiS →
    c ^ 2 * k.x + 2 * (c * d) * k.xy + d ^ 2 * k.y ≤ (warpIn s.materials r).deltaS ^ 2 * flowEnergy s.elements fx fy := by
  intro els f k h1 h2
  have hS := centroidalSetup hg h hr
  obtain ⟨q, hq⟩ := exists_feField hS.physical.proper fun i => c * psi i + d * phiS i
  obtain ⟨e1, e2'⟩ := shear_form s r hg h hr hnu psi phiS c d h1 h2 q hq
  have e2 := e2' _ _ hq
  have hflow := shearFlow_shift hf r.cx r.cy
  rw [strainRate_shift] at hflow
  have hD : (warpIn s.materials r).deltaS ≠ 0 := by
    have hnu0 : (warpIn s.materials r).nu = 0 := by
      simp only [warpIn]
      split_ifs with hc
      · exact hnu hc
      · rfl
    have := hS.det.ne'
    rw [WarpIn.deltaS, hnu0]
    simp only [warpIn]
    simpa using this
  have key := flow_upper (conforming_shift hc r.cx r.cy)
    (by
      intro t ht k
      obtain ⟨t, ht', rfl⟩ := List.mem_map.1 ht
      simp [Tri6.shiftBy, Coords.shift, hg.coords t ht', gather])
    hS.physical (noOverlap_shift hno r.cx r.cy) hq hflow (1 / (warpIn s.materials r).deltaS)
  rw [flowEnergy_shift] at key
  change c ^ 2 * k.x + 2 * (c * d) * k.xy + d ^ 2 * k.y = _ at e1
  rw [e1]
  set D := (warpIn s.materials r).deltaS
  set K := dirichlet els q q
  set W := wInt els fun t p => q t p * strainRate 0 0 r.cent.ixxC r.cent.iyyC r.cent.ixyC c d p
  have key' : 2 * (1 / D) * W ≤ (1 / D) ^ 2 * K + flowEnergy s.elements fx fy := key
  have hD2 : 0 < D ^ 2 := by positivity
  have := mul_le_mul_of_nonneg_left key' hD2.le
  have a1 : D ^ 2 * (2 * (1 / D) * W) = 2 * K := by rw [e2]; field_simp
  have a2 : D ^ 2 * ((1 / D) ^ 2 * K + flowEnergy s.elements fx fy) = K + D ^ 2 * flowEnergy s.elements fx fy := by
    field_simp
  linarith

theorem flow_integrable (hf : ShearFlow els g fx fy) : Integrable fx ∧ Integrable fy := by
  obtain ⟨M, hM⟩ := hf.bounded
  have hcomp : volume (region els) < ⊤ := by
    have : region els = ⋃ t ∈ {t | t ∈ els}, elemRegion t.coords := by
      ext p; simp [region]
    rw [this]
    exact ((List.finite_toSet els).isCompact_biUnion fun t _ => isCompact_elemRegion _).measure_lt_top
  have key : ∀ f : ℝ × ℝ → ℝ, Measurable f → (∀ p, |f p| ≤ M) → (∀ p ∉ region els, f p = 0) → Integrable f := by
    intro f hm hb h0
    have h1 : IntegrableOn f (region els) :=
      Measure.integrableOn_of_bounded (M := M) hcomp.ne hm.aestronglyMeasurable
        (Filter.Eventually.of_forall fun p => by rw [Real.norm_eq_abs]; exact hb p)
    refine (integrableOn_iff_integrable_of_support_subset fun p hp => ?_).1 h1
    by_contra hcon
    exact hp (h0 p hcon)
  exact ⟨key fx hf.measurable.1 (fun p => (hM p).1) fun p hp => (hf.outside p hp).1,
    key fy hf.measurable.2 (fun p => (hM p).2) fun p hp => (hf.outside p hp).2⟩

/-- **C91** The shear stresses of a flow add up to the shear force it belongs to. -/
theorem C91_resultant (s : Section) (r : GeomResults) (hg : GoodSection s) (h : Physical s.elements)
    (hc : ConformingMesh s.meshNodes s.elements) (hno : NoOverlap s.elements) (hr : s.geometricAnalysis = .ok r) {vx vy : ℝ}
    (hf : ShearFlow s.elements (strainRate r.cx r.cy r.cent.ixxC r.cent.iyyC r.cent.ixyC vx vy) fx fy) :
    ∫ p, fx p = vx ∧ ∫ p, fy p = vy := by
  have hS := centroidalSetup hg h hr
  have hpos : ∀ t ∈ shifted s.elements r.cx r.cy, ∀ k, (t.coords.x k, t.coords.y k) =
      (fun i => ((s.meshNodes i).1 - r.cx, (s.meshNodes i).2 - r.cy)) (t.nodeIds k) := by
    intro t ht k
    obtain ⟨t, ht', rfl⟩ := List.mem_map.1 ht
    simp [Tri6.shiftBy, Coords.shift, hg.coords t ht', gather]
  have hflow := shearFlow_shift hf r.cx r.cy
  rw [strainRate_shift] at hflow
  have hno' := noOverlap_shift hno r.cx r.cy
  have hc' := conforming_shift hc r.cx r.cy
  have wx := flow_work hc' hpos hS.physical.proper hno' hS.linX hflow
  have wy := flow_work hc' hpos hS.physical.proper hno' hS.linY hflow
  obtain ⟨ix, iy⟩ := flow_integrable hflow
  have hdet := hS.det.ne'
  have d1 : ∀ p : ℝ × ℝ, dX (fun p => p.1) p = 1 := fun p => (hasDerivAt_id p.1).deriv
  have d2 : ∀ p : ℝ × ℝ, dY (fun p => p.1) p = 0 := fun p => (hasDerivAt_const p.2 p.1).deriv
  have d3 : ∀ p : ℝ × ℝ, dX (fun p => p.2) p = 0 := fun p => (hasDerivAt_const p.1 p.2).deriv
  have d4 : ∀ p : ℝ × ℝ, dY (fun p => p.2) p = 1 := fun p => (hasDerivAt_id p.2).deriv
  simp only [d1, d2, d3, d4, one_mul, zero_mul, add_zero, zero_add] at wx wy
  have lin : ∀ (a b : ℝ), (wInt (shifted s.elements r.cx r.cy) fun _ p => p.1 * (a * p.1 + b * p.2)) =
      a * r.cent.iyyC + b * r.cent.ixyC ∧
      (wInt (shifted s.elements r.cx r.cy) fun _ p => p.2 * (a * p.1 + b * p.2)) =
      a * r.cent.ixyC + b * r.cent.ixxC := by
    intro a b
    have q1 : (fun p : ℝ × ℝ => p.1 * p.1) ∈ PolyLE 2 := poly_mul2 PolyLE.fst PolyLE.fst
    have q2 : (fun p : ℝ × ℝ => p.1 * p.2) ∈ PolyLE 2 := poly_mul2 PolyLE.fst PolyLE.snd
    have q3 : (fun p : ℝ × ℝ => p.2 * p.2) ∈ PolyLE 2 := poly_mul2 PolyLE.snd PolyLE.snd
    rw [← hS.ixx, ← hS.iyy, ← hS.ixy, ← wInt_smul, ← wInt_smul, ← wInt_smul, ← wInt_smul]
    constructor
    · refine (wInt_congr fun t _ p => ?_).trans (wInt_add (els := shifted s.elements r.cx r.cy) (d := 2)
        (f := fun _ p => a * p.1 ^ 2) (g := fun _ p => b * (p.1 * p.2)) (fun t _ => ?_) fun t _ => Submodule.smul_mem _ b q2)
      · ring
      · simp only [sq]; exact Submodule.smul_mem _ a q1
    · refine (wInt_congr fun t _ p => ?_).trans (wInt_add (els := shifted s.elements r.cx r.cy) (d := 2)
        (f := fun _ p => a * (p.1 * p.2)) (g := fun _ p => b * p.2 ^ 2) (fun t _ => Submodule.smul_mem _ a q2) fun t _ => ?_)
      · ring
      · simp only [sq]; exact Submodule.smul_mem _ b q3
  set D := r.cent.ixxC * r.cent.iyyC - r.cent.ixyC ^ 2
  have rate : ∀ p : ℝ × ℝ, strainRate 0 0 r.cent.ixxC r.cent.iyyC r.cent.ixyC vx vy p =
      (r.cent.ixxC * vx - r.cent.ixyC * vy) / D * p.1 + (r.cent.iyyC * vy - r.cent.ixyC * vx) / D * p.2 := by
    intro p
    simp only [strainRate]
    change _ / D = _
    ring
  simp only [rate] at wx wy
  have ex : ∫ p, fx p = ∫ p in region (shifted s.elements r.cx r.cy), fx (p + (r.cx, r.cy)) := by
    rw [setIntegral_eq_integral_of_forall_compl_eq_zero fun p hp => (hflow.outside p hp).1, integral_add_right_eq_self fx]
  have ey : ∫ p, fy p = ∫ p in region (shifted s.elements r.cx r.cy), fy (p + (r.cx, r.cy)) := by
    rw [setIntegral_eq_integral_of_forall_compl_eq_zero fun p hp => (hflow.outside p hp).2, integral_add_right_eq_self fy]
  rw [ex, ey, parts_integrable hno' ix, parts_integrable hno' iy]
  constructor
  · refine (wx.trans (lin _ _).1).trans ?_
    field_simp
    simp only [D]
    ring
  · refine (wy.trans (lin _ _).2).trans ?_
    field_simp
    simp only [D]
    ring

/-- **C91** For every flow of shear stresses that is in equilibrium with the bending stresses of a unit shear force, the
reported shear area is at least the reciprocal of the squared stresses over the modulus, whatever the mesh: in the direction of
`x`, of `y`, and of both principal axes (Poisson's ratio of the analysis zero, exact solution of the systems). -/
theorem C91_shear_flow (s : Section) (r : GeomResults) (hg : GoodSection s) (h : Physical s.elements)
    (hc : ConformingMesh s.meshNodes s.elements) (hno : NoOverlap s.elements) (hr : s.geometricAnalysis = .ok r)
    (sv : Solvers) (ty : SolverType) (w : WarpResults s.numNodes) (hw : s.warping sv ty r = .ok w)
    (hnu : isComposite s.materials → r.nuEff = 0) :
    let A := (assembleTorsion (s.elements.map fun t => t.shiftBy r.cx r.cy)).1
    let f := assembleShearLoad (s.elements.map fun t => t.shiftBy r.cx r.cy) (warpIn s.materials r)
    let rate := strainRate r.cx r.cy r.cent.ixxC r.cent.iyyC r.cent.ixyC
    let φ := r.cent.phi * Real.pi / 180
    SolvesBordered A f.1 w.psi → SolvesBordered A f.2 w.phiS →
    (ShearFlow s.elements (rate 1 0) fx fy → 1 ≤ w.areas.sx * flowEnergy s.elements fx fy) ∧
    (ShearFlow s.elements (rate 0 1) fx fy → 1 ≤ w.areas.sy * flowEnergy s.elements fx fy) ∧
    (ShearFlow s.elements (rate (Real.cos φ) (Real.sin φ)) fx fy → 1 ≤ w.areas.s11 * flowEnergy s.elements fx fy) ∧
    (ShearFlow s.elements (rate (-Real.sin φ) (Real.cos φ)) fx fy → 1 ≤ w.areas.s22 * flowEnergy s.elements fx fy) := by
  intro A f rate φ h1 h2
  have hk := fun c d hf => kappa_flow (fx := fx) (fy := fy) s r hg h hc hno hr hnu w.psi w.phiS c d hf h1 h2
  set k := shearDeformation (s.elements.map fun t => t.shiftBy r.cx r.cy) (warpIn s.materials r) w.psi w.phiS
  change ∀ c d : ℝ, _ → c ^ 2 * k.x + 2 * (c * d) * k.xy + d ^ 2 * k.y ≤ _ at hk
  obtain ⟨p1, p2, p3, p4, -⟩ := C22_bounds_partial s r hg h hr sv ty w hw hnu h1 h2
  obtain ⟨-, -, -, -, -, -, -, ha, -⟩ := warping_ok hw
  have hS := centroidalSetup hg h hr
  have hA0 : 0 < (warpIn s.materials r).area := by
    change 0 < r.sums.area
    exact hS.area ▸ hS.physical.area_pos
  rw [ha] at p1 p2 p3 p4 ⊢
  rw [(shearAreas_rot _ _).1] at p3
  rw [(shearAreas_rot _ _).2] at p4
  rw [(shearAreas_rot _ _).1, (shearAreas_rot _ _).2]
  set D := (warpIn s.materials r).deltaS
  set a := (warpIn s.materials r).area
  set W := flowEnergy s.elements fx fy
  have c1 : ∀ {K : ℝ}, 0 < D ^ 2 / K → K ≤ D ^ 2 * W → 1 ≤ D ^ 2 / K * W := by
    intro K h0 hK
    have hK0 : 0 < K := by
      rcases div_pos_iff.1 h0 with h | h
      · exact h.2
      · exact absurd h.1 (not_lt.2 (sq_nonneg _))
    rw [div_mul_eq_mul_div, le_div_iff₀ hK0, one_mul]
    exact hK
  have c2 : ∀ {K : ℝ}, 0 < a / (a / D ^ 2 * K) → K ≤ D ^ 2 * W → 1 ≤ a / (a / D ^ 2 * K) * W := by
    intro K h0 hK
    have e : a / (a / D ^ 2 * K) = D ^ 2 / K := by
      have := hA0.ne'
      by_cases hD : D = 0
      · simp [hD]
      by_cases hK : K = 0
      · simp [hK]
      field_simp
    rw [e] at h0 ⊢
    exact c1 h0 hK
  refine ⟨fun hf => ?_, fun hf => ?_, fun hf => c2 p3.1 (hk _ _ hf), fun hf => c2 p4.1 (hk _ _ hf)⟩
  · have := hk 1 0 hf
    simp only [shearAreas] at p1 ⊢
    exact c1 p1.1 (by linarith)
  · have := hk 0 1 hf
    simp only [shearAreas] at p2 ⊢
    exact c1 p2.1 (by linarith)

end SP
