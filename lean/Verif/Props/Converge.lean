import Verif.Lemmas.Converge
import Verif.Props.ShearFlow

/-!
# C92: the results converge when the mesh is refined
-/

namespace SP

open Spec MeasureTheory Set

variable {n : ℕ} {els : List (Tri6 n)} {x : Fin n → ℝ} {q v : Tri6 n → ℝ × ℝ → ℝ} {u g : ℝ × ℝ → ℝ} {M h κ : ℝ}

/-- The energy of any warping field is that of the solution plus the energy of the difference. -/
theorem twist_gap (hu : TorsionSolution els u) (hv : TestField els v) :
    twistEnergy els v = twistEnergy els (fun _ => u) +
      wInt els fun t p => (dX u p - dX (v t) p) ^ 2 + (dY u p - dY (v t) p) ^ 2 := by
  have w1 := hu.weak v hv
  have w2 := hu.weak (fun _ => u) (smooth_test hu.smooth)
  have e : twistEnergy els v = 2 * wInt els (fun t p => (dX u p - p.2) * dX (v t) p + (dY u p + p.1) * dY (v t) p) +
      (-2 * wInt els (fun _ p => (dX u p - p.2) * dX u p + (dY u p + p.1) * dY u p) + (twistEnergy els (fun _ => u) +
      wInt els fun t p => (dX u p - dX (v t) p) ^ 2 + (dY u p - dY (v t) p) ^ 2)) := by
    simp only [twistEnergy, wInt, ← List.sum_map_mul_left, ← List.sum_map_add]
    refine congrArg List.sum (List.map_congr_left fun t ht => ?_)
    have c1 := continuous_dX hu.smooth
    have c2 := continuous_dY hu.smooth
    have c3 := continuous_dX (hv.smooth t ht)
    have c4 := continuous_dY (hv.smooth t ht)
    have k1 : Continuous fun p => (dX u p - p.2) * dX (v t) p + (dY u p + p.1) * dY (v t) p := by fun_prop
    have k2 : Continuous fun p => (dX u p - p.2) * dX u p + (dY u p + p.1) * dY u p := by fun_prop
    have k3 : Continuous fun p => (dX u p - p.2) ^ 2 + (dY u p + p.1) ^ 2 := by fun_prop
    have k4 : Continuous fun p => (dX u p - dX (v t) p) ^ 2 + (dY u p - dY (v t) p) ^ 2 := by fun_prop
    have k5 : Continuous fun p => ((dX u p - p.2) ^ 2 + (dY u p + p.1) ^ 2) +
      ((dX u p - dX (v t) p) ^ 2 + (dY u p - dY (v t) p) ^ 2) := k3.add k4
    have e := elem_int3 k1 k2 k5 2 (-2) t.coords
    rw [integral_add (elem_int k3 _) (elem_int k4 _)] at e
    have e2 : ∫ p in elemRegion t.coords, ((dX (v t) p - p.2) ^ 2 + (dY (v t) p + p.1) ^ 2) =
        ∫ p in elemRegion t.coords, (2 * ((dX u p - p.2) * dX (v t) p + (dY u p + p.1) * dY (v t) p) +
          (-2 * ((dX u p - p.2) * dX u p + (dY u p + p.1) * dY u p) +
            (((dX u p - p.2) ^ 2 + (dY u p + p.1) ^ 2) + ((dX u p - dX (v t) p) ^ 2 + (dY u p - dY (v t) p) ^ 2)))) := by
      congr 1; funext p; ring
    rw [e2, e]
    ring
  rw [e, w1, w2]
  ring

/-! ### Moving the origin -/

theorem wInt_move {f f' : Tri6 n → ℝ × ℝ → ℝ} (cx cy : ℝ) (hf : ∀ t ∈ els, ∀ p, f' (t.shiftBy cx cy) p = f t (p + (cx, cy))) :
    wInt (els.map fun t => t.shiftBy cx cy) f' = wInt els f := by
  rw [wInt, List.map_map, wInt]
  refine congrArg List.sum (List.map_congr_left fun t ht => ?_)
  simp only [Function.comp_apply, elemRegion_shiftBy, hf t ht]
  rw [(measurePreserving_add_right volume (cx, cy)).setIntegral_preimage_emb
    (Homeomorph.addRight (cx, cy)).measurableEmbedding (f t)]
  rfl

theorem fineMesh_shift (hf : FineMesh els h κ) (cx cy : ℝ) : FineMesh (els.map fun t => t.shiftBy cx cy) h κ := by
  intro t' ht'
  obtain ⟨t, ht, rfl⟩ := List.mem_map.1 ht'
  obtain ⟨d, h1, h2, h3⟩ := hf t ht
  refine ⟨d, h1, ?_, fun p hp z hz => ?_⟩
  · refine h2.trans (le_of_eq ?_)
    simp only [elemDet, signedArea2, cornerA, cornerB, cornerC, Tri6.shiftBy, Coords.shift]
    ring
  · rw [elemRegion_shiftBy] at hp hz
    have := h3 _ hp _ hz
    simpa using this

/-- A virtual displacement, seen from the old origin. -/
def unmove (q : Tri6 n → ℝ × ℝ → ℝ) (cx cy : ℝ) : Tri6 n → ℝ × ℝ → ℝ := fun t p => q (t.shiftBy cx cy) (p + (-cx, -cy))

theorem unmove_test {cx cy : ℝ} (hq : TestField (els.map fun t => t.shiftBy cx cy) q) : TestField els (unmove q cx cy) := by
  have hm : ∀ t ∈ els, t.shiftBy cx cy ∈ els.map fun t => t.shiftBy cx cy := fun t ht => List.mem_map_of_mem ht
  refine ⟨fun t ht => ?_, fun a ha b hb p hp => hq.agree _ (hm a ha) _ (hm b hb) _ ?_⟩
  · exact (hq.smooth _ (hm t ht)).comp (contDiff_id.add contDiff_const)
  · rw [elemRegion_shiftBy, elemRegion_shiftBy]
    have e : (p + (-cx, -cy)) + (cx, cy) = p := by ext <;> simp
    rw [← preimage_inter, mem_preimage, e]
    exact hp

theorem unmove_grad (cx cy : ℝ) (t : Tri6 n) (p : ℝ × ℝ) :
    dX (unmove q cx cy t) (p + (cx, cy)) = dX (q (t.shiftBy cx cy)) p ∧
    dY (unmove q cx cy t) (p + (cx, cy)) = dY (q (t.shiftBy cx cy)) p := by
  have e : (p + (cx, cy)) + (-cx, -cy) = p := by ext <;> simp
  constructor
  · rw [show unmove q cx cy t = fun p => q (t.shiftBy cx cy) (p + (-cx, -cy)) from rfl, dX_move, e]
  · rw [show unmove q cx cy t = fun p => q (t.shiftBy cx cy) (p + (-cx, -cy)) from rfl, dY_move, e]

theorem shearSolution_shift (hu : ShearSolution els g u) (cx cy : ℝ) :
    ShearSolution (els.map fun t => t.shiftBy cx cy) (fun p => g (p + (cx, cy))) fun p => u (p + (cx, cy)) := by
  refine ⟨hu.smooth.comp (contDiff_id.add contDiff_const), fun q hq => ?_⟩
  have := hu.weak _ (unmove_test hq)
  rw [wInt_move (f := fun t p => dX u p * dX (unmove q cx cy t) p + dY u p * dY (unmove q cx cy t) p) cx cy,
    wInt_move (f := fun t p => unmove q cx cy t p * g p) cx cy, this]
  · intro t _ p
    simp only [unmove]
    congr 2
    ext <;> simp
  · intro t _ p
    simp only [dX_move, dY_move, unmove_grad]

theorem tilt_grad (hu : ContDiff ℝ 1 u) (cx cy a b : ℝ) (p : ℝ × ℝ) :
    dX (fun p => u (p + (cx, cy)) + (a * p.2 - b * p.1)) p = dX u (p + (cx, cy)) - b ∧
    dY (fun p => u (p + (cx, cy)) + (a * p.2 - b * p.1)) p = dY u (p + (cx, cy)) + a := by
  have hd : Differentiable ℝ fun p => u (p + (cx, cy)) :=
    (hu.comp (contDiff_id.add contDiff_const)).differentiable (by norm_num)
  constructor
  · have h1 := hasDerivAt_dX hd p
    rw [dX_move] at h1
    have h2 : HasDerivAt (fun x => a * p.2 - b * x) (-b) p.1 := by
      simpa using ((hasDerivAt_id p.1).const_mul b).const_sub (a * p.2)
    exact (h1.add h2).deriv
  · have h1 := hasDerivAt_dY hd p
    rw [dY_move] at h1
    have h2 : HasDerivAt (fun y => a * y - b * p.1) a p.2 := by
      simpa using ((hasDerivAt_id p.2).const_mul a).sub_const (b * p.1)
    exact (h1.add h2).deriv

/-- The warping function about another point. -/
theorem torsionSolution_shift (hu : TorsionSolution els u) (cx cy : ℝ) :
    TorsionSolution (els.map fun t => t.shiftBy cx cy) fun p => u (p + (cx, cy)) + (cx * p.2 - cy * p.1) := by
  refine ⟨(hu.smooth.comp (contDiff_id.add contDiff_const)).add (by fun_prop), fun q hq => ?_⟩
  have := hu.weak _ (unmove_test hq)
  rw [wInt_move (f := fun t p => (dX u p - p.2) * dX (unmove q cx cy t) p + (dY u p + p.1) * dY (unmove q cx cy t) p) cx cy, this]
  intro t _ p
  simp only [tilt_grad hu.smooth, unmove_grad, Prod.fst_add, Prod.snd_add]
  ring

theorem twistEnergy_shift (hu : ContDiff ℝ 1 u) (cx cy : ℝ) :
    twistEnergy (els.map fun t => t.shiftBy cx cy) (fun _ p => u (p + (cx, cy)) + (cx * p.2 - cy * p.1)) =
      twistEnergy els fun _ => u := by
  rw [twistEnergy, wInt_move (f := fun _ p => (dX u p - p.2) ^ 2 + (dY u p + p.1) ^ 2) cx cy, twistEnergy]
  intro t _ p
  simp only [tilt_grad hu, Prod.fst_add, Prod.snd_add]
  ring

theorem expands_shift (hs : ContDiff ℝ 1 u) (hu : Expands els u M) (cx cy a b : ℝ) :
    Expands (els.map fun t => t.shiftBy cx cy) (fun p => u (p + (cx, cy)) + (a * p.2 - b * p.1)) M := by
  intro t' ht' p hp
  obtain ⟨t, ht, rfl⟩ := List.mem_map.1 ht'
  rw [elemRegion_shiftBy] at hp ⊢
  obtain ⟨k, l, m, hT⟩ := hu t ht _ hp
  refine ⟨k, l, m, fun z hz => ?_⟩
  have := hT _ hz
  simp only [Prod.fst_add, Prod.snd_add, add_sub_add_right_eq_sub] at this
  simp only [tilt_grad hs]
  refine le_trans (le_of_eq ?_) this
  congr 1
  ring

/-! ### Torsion -/

/-- **C92** The torsion constant is never below that of the exact warping function, and exceeds it by at most a constant times the
fourth power of the size of the elements. -/
theorem C92_torsion (s : Section) (r : GeomResults) (hg : GoodSection s) (hP : Physical s.elements)
    (hc : ConformingMesh s.meshNodes s.elements) (hr : s.geometricAnalysis = .ok r) (sv : Solvers) (ty : SolverType)
    (w : WarpResults s.numNodes) (hw : s.warping sv ty r = .ok w)
    (hex : SolvesBordered (assembleTorsion (s.elements.map fun t => t.shiftBy r.cx r.cy)).1
      (assembleTorsion (s.elements.map fun t => t.shiftBy r.cx r.cy)).2 w.omega)
    (hu : TorsionSolution s.elements u) (hM : 0 ≤ M) (hT : Expands s.elements u M) (hf : FineMesh s.elements h κ) :
    twistEnergy s.elements (fun _ => u) ≤ w.j ∧
    w.j ≤ twistEnergy s.elements (fun _ => u) + 882 * (κ * M * h ^ 2) ^ 2 * r.sums.ea := by
  have hS := centroidalSetup hg hP hr
  obtain ⟨j1, j2, -⟩ := C19_torsion_constant s r hg hP hr sv ty w hw hex
  have hc' := conforming_shift hc r.cx r.cy
  have hpos : ∀ t ∈ s.elements.map fun t => t.shiftBy r.cx r.cy, ∀ k,
      (t.coords.x k, t.coords.y k) = ((s.meshNodes (t.nodeIds k)).1 - r.cx, (s.meshNodes (t.nodeIds k)).2 - r.cy) := by
    intro t ht k
    obtain ⟨t, ht', rfl⟩ := List.mem_map.1 ht
    simp [Tri6.shiftBy, Coords.shift, hg.coords t ht', gather]
  have hu' := torsionSolution_shift hu r.cx r.cy
  have hT' := expands_shift hu.smooth hT r.cx r.cy r.cx r.cy
  have hf' := fineMesh_shift hf r.cx r.cy
  rw [← twistEnergy_shift hu.smooth r.cx r.cy]
  set els := s.elements.map fun t => t.shiftBy r.cx r.cy
  set U : ℝ × ℝ → ℝ := fun p => u (p + (r.cx, r.cy)) + (r.cx * p.2 - r.cy * p.1)
  obtain ⟨q, hq⟩ := exists_feField hS.physical.proper w.omega
  obtain ⟨v, hv⟩ := exists_feField hS.physical.proper fun i => U ((s.meshNodes i).1 - r.cx, (s.meshNodes i).2 - r.cy)
  constructor
  · rw [j1 q hq, twist_gap hu' (feField_test hc' hpos hq)]
    exact le_add_of_nonneg_right (wInt_nonneg hS.physical.modulus fun t _ p => add_nonneg (sq_nonneg _) (sq_nonneg _))
  · refine (j2 _ v hv).trans ?_
    rw [twist_gap hu' (feField_test hc' hpos hv)]
    have := interp_energy hS.physical.proper hS.physical.modulus hM hf' hu'.smooth hT' (v := v) fun t ht =>
      ⟨(hv t ht).1, fun k => ((hv t ht).2 k).trans (congrArg U (hpos t ht k).symm)⟩
    rw [hS.ea] at this
    linarith

/-! ### Shear -/

theorem gradEnergy_shift (cx cy : ℝ) :
    dirichlet (els.map fun t => t.shiftBy cx cy) (fun _ p => u (p + (cx, cy))) (fun _ p => u (p + (cx, cy))) = gradEnergy els u := by
  rw [dirichlet, wInt_move (f := fun _ p => dX u p ^ 2 + dY u p ^ 2) cx cy, gradEnergy]
  intro t _ p
  simp only [dX_move, dY_move]
  ring

/-- The shear coefficient in the direction `(c, d)`. -/
theorem kappa_converge (s : Section) (r : GeomResults) (hg : GoodSection s) (hP : Physical s.elements)
    (hc : ConformingMesh s.meshNodes s.elements) (hr : s.geometricAnalysis = .ok r)
    (hnu : isComposite s.materials → r.nuEff = 0) (psi phiS : Fin s.numNodes → ℝ) (c d : ℝ)
    (hu : ShearSolution s.elements (strainRate r.cx r.cy r.cent.ixxC r.cent.iyyC r.cent.ixyC c d) u) (hM : 0 ≤ M)
    (hT : Expands s.elements u M) (hf : FineMesh s.elements h κ) :
    let els := s.elements.map fun t => t.shiftBy r.cx r.cy
    let f := assembleShearLoad els (warpIn s.materials r)
    let k := shearDeformation els (warpIn s.materials r) psi phiS
    let D := (warpIn s.materials r).deltaS
    SolvesBordered (assembleTorsion els).1 f.1 psi → SolvesBordered (assembleTorsion els).1 f.2 phiS →
    c ^ 2 * k.x + 2 * (c * d) * k.xy + d ^ 2 * k.y ≤ D ^ 2 * gradEnergy s.elements u ∧
    D ^ 2 * (gradEnergy s.elements u - 882 * (κ * M * h ^ 2) ^ 2 * r.sums.ea) ≤ c ^ 2 * k.x + 2 * (c * d) * k.xy + d ^ 2 * k.y := by
  intro els f k D h1 h2
  have hS := centroidalSetup hg hP hr
  obtain ⟨q, hq⟩ := exists_feField hS.physical.proper fun i => c * psi i + d * phiS i
  obtain ⟨e1, e2⟩ := shear_form s r hg hP hr hnu psi phiS c d h1 h2 q hq
  have hc' := conforming_shift hc r.cx r.cy
  have hpos : ∀ t ∈ s.elements.map fun t => t.shiftBy r.cx r.cy, ∀ k,
      (t.coords.x k, t.coords.y k) = ((s.meshNodes (t.nodeIds k)).1 - r.cx, (s.meshNodes (t.nodeIds k)).2 - r.cy) := by
    intro t ht k
    obtain ⟨t, ht', rfl⟩ := List.mem_map.1 ht
    simp [Tri6.shiftBy, Coords.shift, hg.coords t ht', gather]
  have hu' := shearSolution_shift hu r.cx r.cy
  rw [strainRate_shift] at hu'
  have hT' := expands_shift hu.smooth hT r.cx r.cy 0 0
  have hf' := fineMesh_shift hf r.cx r.cy
  simp only [zero_mul, sub_zero, add_zero] at hT'
  rw [← gradEnergy_shift r.cx r.cy]
  change c ^ 2 * k.x + 2 * (c * d) * k.xy + d ^ 2 * k.y = _ at e1
  rw [e1]
  set U : ℝ × ℝ → ℝ := fun p => u (p + (r.cx, r.cy))
  obtain ⟨v, hv⟩ := exists_feField hS.physical.proper fun i => U ((s.meshNodes i).1 - r.cx, (s.meshNodes i).2 - r.cy)
  have tq := feField_test hc' hpos hq
  have tv := feField_test hc' hpos hv
  have b1 : dirichlet els q q = D * dirichlet els (fun _ => U) q := by
    rw [e2 _ _ hq]
    exact congrArg (D * ·) (hu'.weak q tq).symm
  have b2 : dirichlet els q v = D * dirichlet els (fun _ => U) v := by
    rw [dirichlet_symm, e2 _ _ hv]
    exact congrArg (D * ·) (hu'.weak v tv).symm
  obtain ⟨k1, k2⟩ := best_approx hS.physical.modulus hu'.smooth tq tv b1 b2
  refine ⟨k1, le_trans (mul_le_mul_of_nonneg_left (sub_le_sub_left ?_ _) (sq_nonneg _)) k2⟩
  have := interp_energy hS.physical.proper hS.physical.modulus hM hf' hu'.smooth hT' (v := v) fun t ht =>
    ⟨(hv t ht).1, fun k => ((hv t ht).2 k).trans (congrArg U (hpos t ht k).symm)⟩
  rw [hS.ea] at this
  linarith

/-- **C92** The reciprocals of the shear areas never exceed the energy of the exact warping function of the unit shear force, and
fall short of it by at most a constant times the fourth power of the size of the elements. -/
theorem C92_shear (s : Section) (r : GeomResults) (hg : GoodSection s) (hP : Physical s.elements)
    (hc : ConformingMesh s.meshNodes s.elements) (hr : s.geometricAnalysis = .ok r)
    (sv : Solvers) (ty : SolverType) (w : WarpResults s.numNodes) (hw : s.warping sv ty r = .ok w)
    (hnu : isComposite s.materials → r.nuEff = 0) (hM : 0 ≤ M) (hT : Expands s.elements u M) (hf : FineMesh s.elements h κ) :
    let A := (assembleTorsion (s.elements.map fun t => t.shiftBy r.cx r.cy)).1
    let f := assembleShearLoad (s.elements.map fun t => t.shiftBy r.cx r.cy) (warpIn s.materials r)
    let rate := strainRate r.cx r.cy r.cent.ixxC r.cent.iyyC r.cent.ixyC
    let φ := r.cent.phi * Real.pi / 180
    let error := 882 * (κ * M * h ^ 2) ^ 2 * r.sums.ea
    SolvesBordered A f.1 w.psi → SolvesBordered A f.2 w.phiS →
    ∀ c d a, (c, d, a) ∈ [(1, 0, w.areas.sx), (0, 1, w.areas.sy), (Real.cos φ, Real.sin φ, w.areas.s11),
      (-Real.sin φ, Real.cos φ, w.areas.s22)] → ShearSolution s.elements (rate c d) u →
    gradEnergy s.elements u - error ≤ 1 / a ∧ 1 / a ≤ gradEnergy s.elements u := by
  intro A f rate φ error h1 h2
  have hk := fun c d hu => kappa_converge (u := u) s r hg hP hc hr hnu w.psi w.phiS c d hu hM hT hf h1 h2
  set k := shearDeformation (s.elements.map fun t => t.shiftBy r.cx r.cy) (warpIn s.materials r) w.psi w.phiS
  obtain ⟨-, -, -, -, -, -, -, ha, -⟩ := warping_ok hw
  have hS := centroidalSetup hg hP hr
  have hA0 : 0 < (warpIn s.materials r).area := by
    change 0 < r.sums.area
    exact hS.area ▸ hS.physical.area_pos
  have hD : (warpIn s.materials r).deltaS ≠ 0 := by
    have hnu0 : (warpIn s.materials r).nu = 0 := by
      simp only [warpIn]
      split_ifs with hc
      · exact hnu hc
      · rfl
    have := hS.det.ne'
    rw [WarpIn.deltaS, hnu0]
    simp only [warpIn]
    simpa using this
  rw [ha, (shearAreas_rot _ _).1, (shearAreas_rot _ _).2]
  set D := (warpIn s.materials r).deltaS
  set a := (warpIn s.materials r).area
  have hD2 : 0 < D ^ 2 := by positivity
  have fin : ∀ {K x : ℝ}, x = K / D ^ 2 → K ≤ D ^ 2 * gradEnergy s.elements u →
      D ^ 2 * (gradEnergy s.elements u - error) ≤ K → gradEnergy s.elements u - error ≤ x ∧ x ≤ gradEnergy s.elements u := by
    rintro K x rfl g1 g2
    rw [le_div_iff₀ hD2, div_le_iff₀ hD2]
    exact ⟨by linarith, by linarith⟩
  have hrot : ∀ K : ℝ, 1 / (a / (a / D ^ 2 * K)) = K / D ^ 2 := by
    intro K
    have := hA0.ne'
    field_simp
  intro c d b hb hu
  obtain ⟨g1, g2⟩ := hk c d hu
  simp only [List.mem_cons, Prod.mk.injEq, List.not_mem_nil, or_false] at hb
  rcases hb with ⟨rfl, rfl, rfl⟩ | ⟨rfl, rfl, rfl⟩ | ⟨rfl, rfl, rfl⟩ | ⟨rfl, rfl, rfl⟩
  · refine fin ?_ g1 g2
    simp only [shearAreas, one_div_div]
    ring
  · refine fin ?_ g1 g2
    simp only [shearAreas, one_div_div]
    ring
  · exact fin (hrot _) g1 g2
  · exact fin (hrot _) g1 g2

end SP
