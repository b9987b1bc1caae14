import Verif.Lemmas.Similar
import Verif.Props.WarpMore
import Verif.Props.Equilibrium

/-!
# C65: the warping results turn and scale with the section
-/

namespace SP

open Spec

/-- The results `w` of a warping analysis of `s` consist of exact solutions of the three linear systems
of the section (in centroidal coordinates). -/
def SolvedExactly (s : Section) (r : GeomResults) (w : WarpResults s.numNodes) : Prop :=
  ExactWarp (s.elements.map fun t => t.shiftBy r.cx r.cy) (warpIn s.materials r) w

variable {a b : ℝ}

theorem linked_shift {n : ℕ} {els : List (Tri6 n)} (h : ConnectedMesh els) (cx cy : ℝ) :
    ConnectedMesh (els.map fun t => t.shiftBy cx cy) := by
  intro i j
  refine Relation.ReflTransGen.mono (fun i j hij => ?_) _ _ (h i j)
  obtain ⟨t, ht, k, l, hk, hl⟩ := hij
  exact ⟨t.shiftBy cx cy, List.mem_map_of_mem ht, k, l, hk, hl⟩

/-- The section turned and scaled has the turned elements and the turned second moments. -/
theorem section_turn (hk : a ^ 2 + b ^ 2 ≠ 0) {s : Section} (hs : Physical s.elements)
    (hno : NoOverlap s.elements) {r r' : GeomResults} (hr : s.geometricAnalysis = .ok r)
    (hr' : (s.map (turn a b)).geometricAnalysis = .ok r') :
    (r'.cx, r'.cy) = turn a b (r.cx, r.cy) ∧
    (((s.map (turn a b)).elements.map fun t => t.shiftBy r'.cx r'.cy)
      = turned a b (s.elements.map fun t => t.shiftBy r.cx r.cy)) ∧
    Turned a b (warpIn s.materials r) (warpIn (s.map (turn a b)).materials r') ∧
    Physical (s.map (turn a b)).elements ∧ NoOverlap (s.map (turn a b)).elements ∧
    ImageUnder (turn a b) s.elements (s.map (turn a b)).elements := by
  have hD : 0 < a * a - -b * b := by
    have : 0 < a ^ 2 + b ^ 2 := lt_of_le_of_ne (by positivity) (Ne.symm hk)
    linarith
  obtain ⟨i1, i2⟩ := image_of_elements (a := a) (b := -b) (c := b) (d := a) 0 0 hD.ne'
    (Tri6.map (turn a b)) s.elements hno (fun t => elemRegion_map _ _ _ _ _ _ _) (fun t => rfl)
  have hs' : Physical (s.map (turn a b)).elements := by
    refine ⟨by simpa [Section.map] using hs.nonempty, fun t ht => ?_, fun t ht => ?_⟩
    · obtain ⟨u, hu, rfl⟩ := List.mem_map.1 ht
      exact proper_map 0 0 hD (hs.proper u hu)
    · obtain ⟨u, hu, rfl⟩ := List.mem_map.1 ht
      exact hs.modulus u hu
  obtain ⟨s1, -, s3, s4, -⟩ := affine_sums 0 0 hD.ne' hr hr' hs.proper hs'.proper hno i1 i2
  obtain ⟨hc, c1, c2, c3⟩ := affine_cent 0 0 hD.ne' hr hr' hs hs'.proper hno i1 i2
  have hκ : |a * a - -b * b| = a ^ 2 + b ^ 2 := by rw [abs_of_pos hD]; ring
  simp only [hκ] at s1 s3 s4 c1 c2 c3
  refine ⟨hc, ?_, ⟨?_, ?_, ?_, ?_, ?_, ?_⟩, hs', i1, i2⟩
  · simp only [Prod.mk.injEq, affine] at hc
    simp only [Section.map, turned, List.map_map]
    refine List.map_congr_left fun t _ => ?_
    simp only [Function.comp_apply, Tri6.shiftBy, Tri6.map, Coords.map, Coords.shift, hc.1, hc.2,
      turn, affine]
    congr 2 <;> funext i <;> ring
  · simp only [warpIn, c1]; ring
  · simp only [warpIn, c2]; ring
  · simp only [warpIn, c3]; ring
  · have : r'.nuEff = r.nuEff := by
      rw [(geom_ok hr).2.2.1, (geom_ok hr').2.2.1, GeomSums.nuEff, GeomSums.nuEff, s3, s4]
      congr 1
      rw [mul_left_comm, mul_div_mul_left _ _ hk]
    simp only [warpIn, this]; rfl
  · simp only [warpIn, s1]
  · change (warpIn s.materials r').ea = _
    simp only [warpIn]
    split_ifs <;> assumption

theorem warp_facts {s : Section} (hg : GoodSection s) (hs : Physical s.elements) {r : GeomResults}
    (hr : s.geometricAnalysis = .ok r) (hnu : ∀ t ∈ s.elements, -1 < t.material.poissonsRatio) :
    (warpIn s.materials r).deltaS ≠ 0 ∧ (warpIn s.materials r).ea ≠ 0 ∧
    (warpIn s.materials r).ixx * (warpIn s.materials r).iyy - (warpIn s.materials r).ixy ^ 2 ≠ 0 := by
  have hS := centroidalSetup hg hs hr
  have hd : r.cent.ixxC * r.cent.iyyC - r.cent.ixyC ^ 2 ≠ 0 := hS.det.ne'
  refine ⟨mul_ne_zero (mul_ne_zero two_ne_zero ?_) hd, ?_, hd⟩
  · simp only [warpIn]
    split_ifs with hc
    · obtain ⟨-, -, -, -, h5, -⟩ := C13_effective hr hs hnu
      obtain ⟨h6, -, -, h7, -⟩ := geom_ok hr
      intro h0
      rw [h0, mul_zero, h7, h6, GeomSums.eEff] at h5
      exact (div_pos hs.ea_pos hs.area_pos).ne' h5
    · norm_num
  · obtain ⟨p1, p2, -⟩ := C09_positive hr hs
    simp only [warpIn]
    split_ifs
    · exact (by rw [(geom_ok hr).1]; exact hs.ea_pos.ne')
    · exact p1.ne'

/-- **C65** (rotation): for the section turned about the origin by any angle `θ` (same mesh, all nodes
turned), every exact warping analysis gives the same torsion constant and the same warping constant, the
shear centres (elastic and Trefftz, and also the absolute position that `get_sc` returns) turned by `θ`, and
the tensor of the shear flexibilities `1 / A_s` turned by `θ`.  This holds for every material
distribution, also with a Poisson effect. -/
theorem C65_rotation (θ : ℝ) (s : Section) (hg : GoodSection s) (hs : Physical s.elements)
    (hno : NoOverlap s.elements) (hcon : ConnectedMesh s.elements)
    (hnu : ∀ t ∈ s.elements, -1 < t.material.poissonsRatio)
    {r r' : GeomResults} (hr : s.geometricAnalysis = .ok r)
    (hr' : (s.map (rotation θ)).geometricAnalysis = .ok r') {sv sv' : Solvers} {ty ty' : SolverType}
    {w : WarpResults s.numNodes} {w' : WarpResults (s.map (rotation θ)).numNodes}
    (hw : s.warping sv ty r = .ok w) (hw' : (s.map (rotation θ)).warping sv' ty' r' = .ok w')
    (he : SolvedExactly s r w) (he' : SolvedExactly (s.map (rotation θ)) r' w') :
    w'.j = w.j ∧ w'.gamma = w.gamma ∧
    (w'.sc.xSe, w'.sc.ySe) = rotation θ (w.sc.xSe, w.sc.ySe) ∧
    (w'.sc.xSt, w'.sc.ySt) = rotation θ (w.sc.xSt, w.sc.ySt) ∧
    (r'.cx + w'.sc.xSe, r'.cy + w'.sc.ySe) = rotation θ (r.cx + w.sc.xSe, r.cy + w.sc.ySe) ∧
    1 / w'.areas.sx = momentAbout (1 / w.areas.sx) (1 / w.areas.sy) (1 / w.areas.sxy) θ ∧
    1 / w'.areas.sy = momentAbout (1 / w.areas.sx) (1 / w.areas.sy) (1 / w.areas.sxy)
      (θ + Real.pi / 2) ∧
    1 / w'.areas.sxy = productAbout (1 / w.areas.sx) (1 / w.areas.sy) (1 / w.areas.sxy) θ := by
  have hκ : Real.cos θ ^ 2 + Real.sin θ ^ 2 = 1 := Real.cos_sq_add_sin_sq θ
  have hk : Real.cos θ ^ 2 + Real.sin θ ^ 2 ≠ 0 := by rw [hκ]; norm_num
  change (s.map (turn (Real.cos θ) (Real.sin θ))).geometricAnalysis = .ok r' at hr'
  obtain ⟨hc, e1, e2, -⟩ := section_turn hk hs hno hr hr'
  have hS := centroidalSetup hg hs hr
  obtain ⟨d1, d2, d3⟩ := warp_facts hg hs hr hnu
  change warpingAnalysis sv' ty' ((s.map (turn (Real.cos θ) (Real.sin θ))).elements.map
    fun t => t.shiftBy r'.cx r'.cy) _ = _ at hw'
  change ExactWarp ((s.map (turn (Real.cos θ) (Real.sin θ))).elements.map
    fun t => t.shiftBy r'.cx r'.cy) _ _ at he'
  rw [e1] at hw' he'
  obtain ⟨h1, h2, h3, h4, h5, h6, h7⟩ := results_turn hk hS.physical hS.distinct
    (linked_shift hcon r.cx r.cy) e2 d1 d2 d3 hw hw' he he'
  simp only [hκ, one_pow, one_mul] at h1 h2 h5 h6 h7
  refine ⟨h1, h2, h3, h4, ?_, ?_, ?_, ?_⟩
  · simp only [turn, affine, Prod.mk.injEq] at h3 hc
    simp only [rotation, affine, Prod.mk.injEq, h3.1, h3.2, hc.1, hc.2]
    constructor <;> ring
  · rw [h5, momentAbout]; ring
  · rw [h6, momentAbout, Real.cos_add_pi_div_two, Real.sin_add_pi_div_two]; ring
  · rw [h7, productAbout]; ring

/-- **C65** (rotation, principal axes): where the principal axes are determined (the principal moments
differ and the tolerance short-cut is not taken), the results about them are the same for the turned
section, up to the sense `ε = ±1` of the axes. -/
theorem C65_rotation_principal (θ : ℝ) (s : Section) (hg : GoodSection s) (hs : Physical s.elements)
    (hno : NoOverlap s.elements) (hcon : ConnectedMesh s.elements)
    (hnu : ∀ t ∈ s.elements, -1 < t.material.poissonsRatio)
    {r r' : GeomResults} (hr : s.geometricAnalysis = .ok r)
    (hr' : (s.map (rotation θ)).geometricAnalysis = .ok r') {sv sv' : Solvers} {ty ty' : SolverType}
    {w : WarpResults s.numNodes} {w' : WarpResults (s.map (rotation θ)).numNodes}
    (hw : s.warping sv ty r = .ok w) (hw' : (s.map (rotation θ)).warping sv' ty' r' = .ok w')
    (he : SolvedExactly s r w) (he' : SolvedExactly (s.map (rotation θ)) r' w')
    (hne : r.cent.i22 < r.cent.i11)
    (hbr : ¬ |r.cent.ixxC - r.cent.i11| < 1e-12 * r.cent.i11)
    (hbr' : ¬ |r'.cent.ixxC - r'.cent.i11| < 1e-12 * r'.cent.i11) :
    ∃ ε : ℝ, (ε = 1 ∨ ε = -1) ∧
    w'.sc.x11Se = ε * w.sc.x11Se ∧ w'.sc.y22Se = ε * w.sc.y22Se ∧
    w'.areas.s11 = w.areas.s11 ∧ w'.areas.s22 = w.areas.s22 ∧
    w'.beta.b11Plus = ε * w.beta.b11Plus ∧ w'.beta.b11Minus = ε * w.beta.b11Minus ∧
    w'.beta.b22Plus = ε * w.beta.b22Plus ∧ w'.beta.b22Minus = ε * w.beta.b22Minus := by
  have h3 := (C65_rotation θ s hg hs hno hcon hnu hr hr' hw hw' he he').2.2.1
  have hκ : Real.cos θ ^ 2 + Real.sin θ ^ 2 = 1 := Real.cos_sq_add_sin_sq θ
  have hk : Real.cos θ ^ 2 + Real.sin θ ^ 2 ≠ 0 := by rw [hκ]; norm_num
  change (s.map (turn (Real.cos θ) (Real.sin θ))).geometricAnalysis = .ok r' at hr'
  obtain ⟨-, e1, e2, hs', hno', him⟩ := section_turn hk hs hno hr hr'
  obtain ⟨m, hm⟩ := C07_angle θ hr hr' hs hs' hno hno' him hne hbr hbr'
  obtain ⟨-, -, -, -, -, -, -, i1, i2, -⟩ := C07_rotation θ hr hr' hs hs' hno hno' him
  have hS := centroidalSetup hg hs hr
  change warpingAnalysis sv' ty' ((s.map (turn (Real.cos θ) (Real.sin θ))).elements.map
    fun t => t.shiftBy r'.cx r'.cy) _ = _ at hw'
  change ExactWarp ((s.map (turn (Real.cos θ) (Real.sin θ))).elements.map
    fun t => t.shiftBy r'.cx r'.cy) _ _ at he'
  rw [e1] at hw' he'
  have hang : r'.cent.phi * Real.pi / 180 = r.cent.phi * Real.pi / 180 + θ + m * Real.pi := by
    rw [hm]
    have := Real.pi_ne_zero
    field_simp
  have hsgn : Real.cos (m * Real.pi) = 1 ∨ Real.cos (m * Real.pi) = -1 := by
    have := Real.abs_cos_int_mul_pi m
    rcases abs_eq (zero_le_one) |>.1 this with h | h
    · exact .inl h
    · exact .inr h
  have hsin0 : Real.sin (m * Real.pi) = 0 := Real.sin_int_mul_pi m
  have hsq : Real.cos (m * Real.pi) ^ 2 = 1 := by rcases hsgn with h | h <;> rw [h] <;> norm_num
  have key := principal_turn (m := Real.cos (m * Real.pi)) hk hS.physical hS.distinct
    (linked_shift hcon r.cx r.cy) e2 ?_ ?_ (by rw [hκ, hsq]) ?_ ?_ hw hw' he he' h3
  · rw [hκ] at key
    simp only [one_mul] at key
    exact ⟨_, hsgn, key⟩
  · change _ * Real.cos (r'.cent.phi * Real.pi / 180) = _ * Real.cos (r.cent.phi * Real.pi / 180)
      - _ * Real.sin (r.cent.phi * Real.pi / 180)
    rw [hang, Real.cos_add, hsin0, Real.cos_add]
    linear_combination (Real.cos (r.cent.phi * Real.pi / 180) * Real.cos θ
      - Real.sin (r.cent.phi * Real.pi / 180) * Real.sin θ) * hsq
  · change _ * Real.sin (r'.cent.phi * Real.pi / 180) = _ * Real.cos (r.cent.phi * Real.pi / 180)
      + _ * Real.sin (r.cent.phi * Real.pi / 180)
    rw [hang, Real.sin_add, hsin0, Real.sin_add]
    linear_combination (Real.sin (r.cent.phi * Real.pi / 180) * Real.cos θ
      + Real.cos (r.cent.phi * Real.pi / 180) * Real.sin θ) * hsq
  · change r'.cent.i11 = _ * r.cent.i11
    rw [hκ, i1]; ring
  · change r'.cent.i22 = _ * r.cent.i22
    rw [hκ, i2]; ring

/-- **C65** (scaling): for the section scaled about the origin by `k > 0` (a change of the unit of
length; same mesh), every exact warping analysis gives `k⁴` times the torsion constant, `k⁶` times the
warping constant, `k` times the positions of the shear centres and the monosymmetry constants, and `k²`
times all shear areas. -/
theorem C65_scaling {k : ℝ} (hk0 : 0 < k) (s : Section) (hg : GoodSection s) (hs : Physical s.elements)
    (hno : NoOverlap s.elements) (hcon : ConnectedMesh s.elements)
    (hnu : ∀ t ∈ s.elements, -1 < t.material.poissonsRatio)
    {r r' : GeomResults} (hr : s.geometricAnalysis = .ok r)
    (hr' : (s.map (scaling k)).geometricAnalysis = .ok r') {sv sv' : Solvers} {ty ty' : SolverType}
    {w : WarpResults s.numNodes} {w' : WarpResults (s.map (scaling k)).numNodes}
    (hw : s.warping sv ty r = .ok w) (hw' : (s.map (scaling k)).warping sv' ty' r' = .ok w')
    (he : SolvedExactly s r w) (he' : SolvedExactly (s.map (scaling k)) r' w') :
    w'.j = k ^ 4 * w.j ∧ w'.gamma = k ^ 6 * w.gamma ∧
    (w'.sc.xSe = k * w.sc.xSe ∧ w'.sc.ySe = k * w.sc.ySe) ∧
    (w'.sc.x11Se = k * w.sc.x11Se ∧ w'.sc.y22Se = k * w.sc.y22Se) ∧
    (w'.sc.xSt = k * w.sc.xSt ∧ w'.sc.ySt = k * w.sc.ySt) ∧
    (w'.areas.sx = k ^ 2 * w.areas.sx ∧ w'.areas.sy = k ^ 2 * w.areas.sy ∧
      w'.areas.sxy = k ^ 2 * w.areas.sxy) ∧
    (w'.areas.s11 = k ^ 2 * w.areas.s11 ∧ w'.areas.s22 = k ^ 2 * w.areas.s22) ∧
    (w'.beta.xPlus = k * w.beta.xPlus ∧ w'.beta.xMinus = k * w.beta.xMinus ∧
      w'.beta.yPlus = k * w.beta.yPlus ∧ w'.beta.yMinus = k * w.beta.yMinus) ∧
    (w'.beta.b11Plus = k * w.beta.b11Plus ∧ w'.beta.b11Minus = k * w.beta.b11Minus ∧
      w'.beta.b22Plus = k * w.beta.b22Plus ∧ w'.beta.b22Minus = k * w.beta.b22Minus) := by
  have hturn : scaling k = turn k 0 := by simp [scaling, turn]
  have hκ : k ^ 2 + (0 : ℝ) ^ 2 = k ^ 2 := by ring
  have hk : k ^ 2 + (0 : ℝ) ^ 2 ≠ 0 := by positivity
  have key : ∀ (φ : ℝ × ℝ → ℝ × ℝ) (_ : φ = turn k 0) {r' : GeomResults}
      (_ : (s.map φ).geometricAnalysis = .ok r') (w' : WarpResults (s.map φ).numNodes)
      (_ : (s.map φ).warping sv' ty' r' = .ok w') (_ : SolvedExactly (s.map φ) r' w'),
      (turn k 0 (r.cx, r.cy) = (r'.cx, r'.cy)) ∧
      Turned k 0 (warpIn s.materials r) (warpIn s.materials r') ∧
      ∃ v : WarpResults s.numNodes, warpingAnalysis sv' ty'
        (turned k 0 (s.elements.map fun t => t.shiftBy r.cx r.cy)) (warpIn s.materials r') = .ok v ∧
      ExactWarp (turned k 0 (s.elements.map fun t => t.shiftBy r.cx r.cy)) (warpIn s.materials r') v ∧
      v.j = w'.j ∧ v.gamma = w'.gamma ∧ v.sc = w'.sc ∧ v.areas = w'.areas ∧ v.beta = w'.beta ∧
      Physical (s.map φ).elements ∧ NoOverlap (s.map φ).elements ∧
      ImageUnder (turn k 0) s.elements (s.map φ).elements := by
    rintro φ rfl r' hr' w' hw' he'
    obtain ⟨hc, e1, e2, e3, e4, e5⟩ := section_turn hk hs hno hr hr'
    change warpingAnalysis sv' ty' ((s.map (turn k 0)).elements.map
      fun t => t.shiftBy r'.cx r'.cy) _ = _ at hw'
    change ExactWarp ((s.map (turn k 0)).elements.map fun t => t.shiftBy r'.cx r'.cy) _ _ at he'
    rw [e1] at hw' he'
    exact ⟨hc.symm, e2, w', hw', he', rfl, rfl, rfl, rfl, rfl, e3, e4, e5⟩
  obtain ⟨hc, e2, v, hv, hev, v1, v2, v3, v4, v5, hs', hno', him⟩ := key _ hturn hr' w' hw' he'
  rw [← v1, ← v2, ← v3, ← v4, ← v5]
  rw [← hturn] at him
  obtain ⟨-, -, -, -, -, -, -, -, -, -, cx, cy, -, c11, c22, cphi, -⟩ :=
    C08_scaling hk0 hr hr' hs hs' hno hno' him
  have hS := centroidalSetup hg hs hr
  obtain ⟨d1, d2, d3⟩ := warp_facts hg hs hr hnu
  have hcon' := linked_shift hcon r.cx r.cy
  obtain ⟨h1, h2, h3, h4, h5, h6, h7⟩ := results_turn hk hS.physical hS.distinct hcon' e2 d1 d2 d3 hw hv he hev
  have p := principal_turn (m := k) hk hS.physical hS.distinct hcon' e2
    (by change _ * Real.cos (r'.cent.phi * _ / _) = _ * Real.cos (r.cent.phi * _ / _) - _; rw [cphi]; ring)
    (by change _ * Real.sin (r'.cent.phi * _ / _) = _ + _ * Real.sin (r.cent.phi * _ / _); rw [cphi]; ring)
    (by ring) (by change r'.cent.i11 = _ * r.cent.i11; rw [c11]; ring)
    (by change r'.cent.i22 = _ * r.cent.i22; rw [c22]; ring) hw hv he hev h3
  obtain ⟨p1, p2, p3, p4, p5⟩ := p
  have inv : ∀ {x y : ℝ}, (k ^ 2) ^ 2 * (1 / y) = k ^ 2 * (1 / x) → y = k ^ 2 * x := by
    intro x y h
    have hk2 : k ^ 2 ≠ 0 := by positivity
    have : k ^ 2 * (1 / y) = 1 / x := by
      apply mul_left_cancel₀ hk2
      rw [← h]; ring
    rw [one_div, one_div] at this
    have h' := congrArg (·⁻¹) this
    simp only [mul_inv, inv_inv] at h'
    rw [← h']
    field_simp
  simp only [hκ] at h1 h2 h5 h6 h7 p3 p4
  simp only [turn, affine, Prod.mk.injEq] at h3 h4
  obtain ⟨-, -, -, -, -, -, -, -, be1⟩ := warping_ok hw
  obtain ⟨-, -, -, -, -, -, -, -, be2⟩ := warping_ok hv
  obtain ⟨m1, m2, -, -⟩ := mono_turn (els := s.elements.map fun t => t.shiftBy r.cx r.cy)
    (a := k) (b := 0) (m := k) (phi := r.cent.phi) (phi' := r'.cent.phi) hk
    (by rw [cphi]; ring) (by rw [cphi]; ring) (by ring)
  have hx : v.sc.xSe = k * w.sc.xSe := by rw [h3.1]; ring
  have hy : v.sc.ySe = k * w.sc.ySe := by rw [h3.2]; ring
  refine ⟨by rw [h1]; ring, by rw [h2]; ring, ⟨hx, hy⟩, ⟨p1, p2⟩,
    ⟨by rw [h4.1]; ring, by rw [h4.2]; ring⟩,
    ⟨inv (by rw [h5]; ring), inv (by rw [h6]; ring), inv (by rw [h7]; ring)⟩, ⟨p3, p4⟩, ?_, p5⟩
  rw [be1, be2]
  simp only [betas, warpIn, m1, m2, hx, hy, cx, cy]
  refine ⟨?_, ?_, ?_, ?_⟩ <;> field_simp <;> ring

/-! ### Non-vacuity -/

theorem linked_of {n : ℕ} {els : List (Tri6 n)} (g : Tri6 n → Tri6 n) (hg : ∀ t, (g t).nodeIds = t.nodeIds)
    (h : ConnectedMesh (els.map g)) : ConnectedMesh els := by
  intro i j
  refine Relation.ReflTransGen.mono (fun i j hij => ?_) _ _ (h i j)
  obtain ⟨t, ht, k, l, hk, hl⟩ := hij
  obtain ⟨u, hu, rfl⟩ := List.mem_map.1 ht
  exact ⟨u, hu, k, l, by rw [← hk, hg], by rw [← hl, hg]⟩

theorem linked_map {n : ℕ} {els : List (Tri6 n)} (g : Tri6 n → Tri6 n) (hg : ∀ t, (g t).nodeIds = t.nodeIds)
    (h : ConnectedMesh els) : ConnectedMesh (els.map g) := by
  intro i j
  refine Relation.ReflTransGen.mono (fun i j hij => ?_) _ _ (h i j)
  obtain ⟨t, ht, k, l, hk, hl⟩ := hij
  exact ⟨g t, List.mem_map_of_mem ht, k, l, by rw [hg, hk], by rw [hg, hl]⟩

theorem exSection_linked : ConnectedMesh exSection.elements :=
  linked_of (fun t => t.shiftBy 0 0) (fun _ => rfl) (ex_linked 0 0)

/-- Non-vacuity: the composite example section turned by any angle and scaled by any factor, with exact
solvers. -/
example (θ : ℝ) {k : ℝ} (hk : 0 < k) : ∃ r r1 r2 w w1 w2, exSection.geometricAnalysis = .ok r ∧
    (exSection.map (rotation θ)).geometricAnalysis = .ok r1 ∧
    (exSection.map (scaling k)).geometricAnalysis = .ok r2 ∧
    exSection.warping exactSolvers .direct r = .ok w ∧
    (exSection.map (rotation θ)).warping exactSolvers .direct r1 = .ok w1 ∧
    (exSection.map (scaling k)).warping exactSolvers .direct r2 = .ok w2 ∧
    w1.j = w.j ∧ w2.j = k ^ 4 * w.j := by
  have hnu : ∀ t ∈ exSection.elements, -1 < t.material.poissonsRatio := ex_equilibrium.2.2.2.1
  have run : ∀ {a b c d : ℝ}, 0 < a * d - b * c → ∃ r w,
      (exSection.map (affine a b c d 0 0)).geometricAnalysis = .ok r ∧
      (exSection.map (affine a b c d 0 0)).warping exactSolvers .direct r = .ok w ∧
      SolvedExactly (exSection.map (affine a b c d 0 0)) r w := by
    intro a b c d hD
    obtain ⟨r, hr⟩ := geometricAnalysis_ok (exSection.map (affine a b c d 0 0))
      (by simp [exSection, Section.map])
    obtain ⟨q1, -, q3, -⟩ := map_image 0 0 hD exSection_physical exNoOverlap exSection_good exNodesUsed
    obtain ⟨w, hw, h1, h2, h3⟩ := exact_warping (exSection.map (affine a b c d 0 0)) r q3 q1 hr
      (linked_shift (linked_map (Tri6.map _) (fun _ => rfl) exSection_linked) r.cx r.cy)
    exact ⟨r, w, hr, hw, h1, h2, h3⟩
  obtain ⟨r, hr⟩ := geometricAnalysis_ok exSection (by simp [exSection])
  obtain ⟨w, hw, h1, h2, h3⟩ := exact_warping exSection r exSection_good exSection_physical hr
    (ex_linked r.cx r.cy)
  obtain ⟨r1, w1, a1, a2, a3⟩ := run (a := Real.cos θ) (b := -Real.sin θ) (c := Real.sin θ)
    (d := Real.cos θ) (by have := Real.sin_sq_add_cos_sq θ; nlinarith)
  obtain ⟨r2, w2, b1, b2, b3⟩ := run (a := k) (b := 0) (c := 0) (d := k) (by nlinarith)
  exact ⟨r, r1, r2, w, w1, w2, hr, a1, b1, hw, a2, b2,
    (C65_rotation θ exSection exSection_good exSection_physical exNoOverlap exSection_linked hnu hr a1
      hw a2 ⟨h1, h2, h3⟩ a3).1,
    (C65_scaling hk exSection exSection_good exSection_physical exNoOverlap exSection_linked hnu hr b1
      hw b2 ⟨h1, h2, h3⟩ b3).1⟩

end SP
