import Verif.Spec.Twist
import Verif.Props.BodyWarp

/-!
# C107: Trefftz's shear centre is the centre of twist
-/

namespace SP

open Spec MeasureTheory Set

variable {n : ℕ} {els : List (Tri6 n)}

/-- The twist about the axis through `P` has the shear strains of the twist about the centroid: the displacements in the plane are
`-(y - P.2)` and `x - P.1` per unit twist. -/
theorem C107_same_strains {omega : Fin n → ℝ} {q : Tri6 n → ℝ × ℝ → ℝ} (hq : FEField els omega q) (P : ℝ × ℝ) (k : ℝ) :
    ∀ t ∈ els, ∀ p, dX (twistWarp q P k t) p - (p.2 - P.2) = dX (q t) p - p.2 ∧
      dY (twistWarp q P k t) p + (p.1 - P.1) = dY (q t) p + p.1 := by
  intro t ht p
  obtain ⟨a0, a1, a2, a3, a4, a5, e⟩ := polyLE2_quad (hq t ht).1
  have h : twistWarp q P k t = quad (a0 + k) (a1 - P.2) (a2 + P.1) a3 a4 a5 := by
    funext p
    simp only [twistWarp, e, quad]
    ring
  rw [h, e]
  simp only [quad_dX, quad_dY]
  constructor <;> ring

/-- Moments of the axial displacement of a twist. -/
theorem twist_moments (hc : Centroidal els) {q : Tri6 n → ℝ × ℝ → ℝ} (cq : ∀ t ∈ els, Continuous (q t)) (P : ℝ × ℝ) (k : ℝ) :
    wInt els (twistWarp q P k) = wInt els q + k * wInt els (fun _ _ => 1) ∧
    wInt els (fun t p => p.1 * twistWarp q P k t p) = wInt els (fun t p => p.1 * q t p) - P.2 * wInt els (fun _ p => p.1 ^ 2)
      + P.1 * wInt els (fun _ p => p.1 * p.2) ∧
    wInt els (fun t p => p.2 * twistWarp q P k t p) = wInt els (fun t p => p.2 * q t p) - P.2 * wInt els (fun _ p => p.1 * p.2)
      + P.1 * wInt els (fun _ p => p.2 ^ 2) := by
  obtain ⟨h1, h2⟩ := hc
  refine ⟨?_, ?_, ?_⟩
  · have e : wInt els (twistWarp q P k) = 1 * wInt els q + 1 * ((-P.2) * wInt els (fun _ p => p.1) + 1 * (P.1 * wInt els (fun _ p => p.2)
        + k * wInt els (fun _ _ => 1))) := by
      rw [wInt_lcc _ _ (fun t _ => by fun_prop) (fun t _ => by fun_prop), wInt_lcc _ _ (fun t _ => by fun_prop) (fun t _ => by fun_prop),
        wInt_lcc _ _ (fun t ht => cq t ht) (fun t _ => by fun_prop)]
      exact wInt_congr fun t _ p => by unfold twistWarp; ring
    rw [e, h1, h2]
    ring
  · have e : wInt els (fun t p => p.1 * twistWarp q P k t p) = 1 * wInt els (fun t p => p.1 * q t p) + 1 * ((-P.2) * wInt els (fun _ p => p.1 ^ 2)
        + 1 * (P.1 * wInt els (fun _ p => p.1 * p.2) + k * wInt els (fun _ p => p.1))) := by
      rw [wInt_lcc _ _ (fun t _ => by fun_prop) (fun t _ => by fun_prop), wInt_lcc _ _ (fun t _ => by fun_prop) (fun t _ => by fun_prop),
        wInt_lcc _ _ (fun t ht => by have := cq t ht; fun_prop) (fun t _ => by fun_prop)]
      exact wInt_congr fun t _ p => by unfold twistWarp; ring
    rw [e, h1]
    ring
  · have e : wInt els (fun t p => p.2 * twistWarp q P k t p) = 1 * wInt els (fun t p => p.2 * q t p)
        + 1 * ((-P.2) * wInt els (fun _ p => p.1 * p.2)
        + 1 * (P.1 * wInt els (fun _ p => p.2 ^ 2) + k * wInt els (fun _ p => p.2))) := by
      rw [wInt_lcc _ _ (fun t _ => by fun_prop) (fun t _ => by fun_prop), wInt_lcc _ _ (fun t _ => by fun_prop) (fun t _ => by fun_prop),
        wInt_lcc _ _ (fun t ht => by have := cq t ht; fun_prop) (fun t _ => by fun_prop)]
      exact wInt_congr fun t _ p => by unfold twistWarp; ring
    rw [e, h2]
    ring

section

variable {s : Section} {r : GeomResults} {w : WarpResults s.numNodes} {sv : Solvers} {ty : SolverType}

/-- **C107** Trefftz's shear centre is the centre of twist: on every mesh, whatever the solver returned, it is the one point such that the
axial stresses of a non-uniform twist about it, from the reported warping function, have no bending moments, and no axial force for one
choice of the constant of the warping function. -/
theorem C107_centre_of_twist (hg : GoodSection s) (h : Physical s.elements) (hr : s.geometricAnalysis = .ok r)
    (hw : s.warping sv ty r = .ok w) {q : Tri6 s.numNodes → ℝ × ℝ → ℝ} (hq : FEField (s.elements.map fun t => t.shiftBy r.cx r.cy) w.omega q) :
    ∃ k₀, ∀ P k, NoAction (s.elements.map fun t => t.shiftBy r.cx r.cy) (twistWarp q P k) ↔ P = (w.sc.xSt, w.sc.ySt) ∧ k = k₀ := by
  have hS := centroidalSetup hg h hr
  obtain ⟨-, -, -, -, -, hsc, -⟩ := warping_ok hw
  obtain ⟨-, i1, i2⟩ := scInts_form hS.physical.proper (warpIn s.materials r) hq
  have cq : ∀ t ∈ s.elements.map (fun t => t.shiftBy r.cx r.cy), Continuous (q t) := fun t ht => PolyLE.continuous (hq t ht).1
  have hx : w.sc.xSt = (r.cent.ixyC * wInt (s.elements.map fun t => t.shiftBy r.cx r.cy) (fun t p => p.1 * q t p)
      - r.cent.iyyC * wInt (s.elements.map fun t => t.shiftBy r.cx r.cy) (fun t p => p.2 * q t p))
      / (r.cent.ixxC * r.cent.iyyC - r.cent.ixyC ^ 2) := by
    rw [hsc]
    simp only [shearCentres, i1, i2]
    rfl
  have hy : w.sc.ySt = (r.cent.ixxC * wInt (s.elements.map fun t => t.shiftBy r.cx r.cy) (fun t p => p.1 * q t p)
      - r.cent.ixyC * wInt (s.elements.map fun t => t.shiftBy r.cx r.cy) (fun t p => p.2 * q t p))
      / (r.cent.ixxC * r.cent.iyyC - r.cent.ixyC ^ 2) := by
    rw [hsc]
    simp only [shearCentres, i1, i2]
    rfl
  have hea : 0 < r.sums.ea := by rw [← hS.ea]; exact hS.physical.ea_pos
  have hD := hS.det
  refine ⟨-wInt (s.elements.map fun t => t.shiftBy r.cx r.cy) q / r.sums.ea, fun P k => ?_⟩
  obtain ⟨m0, m1, m2⟩ := twist_moments hS.centroidal cq P k
  rw [NoAction, m0, m1, m2, hS.one, hS.ixx, hS.iyy, hS.ixy, Prod.ext_iff, hx, hy]
  generalize wInt (s.elements.map fun t => t.shiftBy r.cx r.cy) (fun t p => p.1 * q t p) = I1 at *
  generalize wInt (s.elements.map fun t => t.shiftBy r.cx r.cy) (fun t p => p.2 * q t p) = I2 at *
  generalize wInt (s.elements.map fun t => t.shiftBy r.cx r.cy) q = Q at *
  have hD' := hD.ne'
  have hea' := hea.ne'
  constructor
  · rintro ⟨a, b, c⟩
    refine ⟨⟨?_, ?_⟩, ?_⟩
    · rw [eq_div_iff hD']
      linear_combination (r.cent.iyyC) * c - r.cent.ixyC * b
    · rw [eq_div_iff hD']
      linear_combination (r.cent.ixyC) * c - r.cent.ixxC * b
    · rw [eq_div_iff hea']
      linear_combination a
  · rintro ⟨⟨a, b⟩, c⟩
    rw [eq_div_iff hD'] at a b
    rw [eq_div_iff hea'] at c
    change P.1 * _ = _ at a
    change P.2 * _ = _ at b
    refine ⟨by linear_combination c, mul_left_cancel₀ hD' ?_, mul_left_cancel₀ hD' ?_⟩
    · linear_combination r.cent.ixyC * a - r.cent.iyyC * b
    · linear_combination r.cent.ixxC * a - r.cent.ixyC * b

/-- **C107** Of all the axes of twist, the one through Trefftz's shear centre takes the least axial energy: with the constant `k₀` of
`C107_centre_of_twist` the mean square of its axial displacement, weighted by the elastic modulus, is less than that of any other twist. -/
theorem C107_least_warping (hg : GoodSection s) (h : Physical s.elements) (hr : s.geometricAnalysis = .ok r)
    (hw : s.warping sv ty r = .ok w) {q : Tri6 s.numNodes → ℝ × ℝ → ℝ} (hq : FEField (s.elements.map fun t => t.shiftBy r.cx r.cy) w.omega q) :
    ∃ k₀, ∀ P k, (P, k) ≠ ((w.sc.xSt, w.sc.ySt), k₀) →
      wInt (s.elements.map fun t => t.shiftBy r.cx r.cy) (fun t p => twistWarp q (w.sc.xSt, w.sc.ySt) k₀ t p ^ 2)
        < wInt (s.elements.map fun t => t.shiftBy r.cx r.cy) (fun t p => twistWarp q P k t p ^ 2) := by
  obtain ⟨k₀, hk⟩ := C107_centre_of_twist hg h hr hw hq
  refine ⟨k₀, fun P k hne => ?_⟩
  have hS := centroidalSetup hg h hr
  obtain ⟨z0, z1, z2⟩ := (hk _ k₀).2 ⟨rfl, rfl⟩
  have cq : ∀ t ∈ s.elements.map (fun t => t.shiftBy r.cx r.cy), Continuous (q t) := fun t ht => PolyLE.continuous (hq t ht).1
  have hea : 0 < r.sums.ea := by rw [← hS.ea]; exact hS.physical.ea_pos
  obtain ⟨u, hu⟩ : ∃ u, twistWarp q (w.sc.xSt, w.sc.ySt) k₀ = u := ⟨_, rfl⟩
  have cu : ∀ t ∈ s.elements.map (fun t => t.shiftBy r.cx r.cy), Continuous (u t) := fun t ht => by
    have := cq t ht
    rw [← hu]
    unfold twistWarp
    fun_prop
  obtain ⟨a, ha⟩ : ∃ a, P.2 - w.sc.ySt = a := ⟨_, rfl⟩
  obtain ⟨b, hb⟩ : ∃ b, P.1 - w.sc.xSt = b := ⟨_, rfl⟩
  obtain ⟨c, hc⟩ : ∃ c, k - k₀ = c := ⟨_, rfl⟩
  have ht : ∀ t p, twistWarp q P k t p = u t p - a * p.1 + b * p.2 + c := fun t p => by
    rw [← hu, ← ha, ← hb, ← hc]
    unfold twistWarp
    ring
  rw [hu] at z0 z1 z2 ⊢
  obtain ⟨x0, y0⟩ := hS.centroidal
  have e : wInt (s.elements.map fun t => t.shiftBy r.cx r.cy) (fun t p => twistWarp q P k t p ^ 2)
      = 1 * wInt (s.elements.map fun t => t.shiftBy r.cx r.cy) (fun t p => u t p ^ 2)
        + 1 * (2 * c * wInt (s.elements.map fun t => t.shiftBy r.cx r.cy) u
        + 1 * (-2 * a * wInt (s.elements.map fun t => t.shiftBy r.cx r.cy) (fun t p => p.1 * u t p)
        + 1 * (2 * b * wInt (s.elements.map fun t => t.shiftBy r.cx r.cy) (fun t p => p.2 * u t p)
        + 1 * (a ^ 2 * wInt (s.elements.map fun t => t.shiftBy r.cx r.cy) (fun _ p => p.1 ^ 2)
        + 1 * (-2 * a * b * wInt (s.elements.map fun t => t.shiftBy r.cx r.cy) (fun _ p => p.1 * p.2)
        + 1 * (b ^ 2 * wInt (s.elements.map fun t => t.shiftBy r.cx r.cy) (fun _ p => p.2 ^ 2)
        + 1 * (-2 * a * c * wInt (s.elements.map fun t => t.shiftBy r.cx r.cy) (fun _ p => p.1)
        + 1 * (2 * b * c * wInt (s.elements.map fun t => t.shiftBy r.cx r.cy) (fun _ p => p.2)
        + c ^ 2 * wInt (s.elements.map fun t => t.shiftBy r.cx r.cy) (fun _ _ => 1))))))))) := by
    iterate 5 rw [wInt_lcc _ _ (fun t _ => by fun_prop) (fun t _ => by fun_prop)]
    iterate 4 rw [wInt_lcc _ _ (fun t ht => by have := cu t ht; fun_prop) (fun t ht => by have := cu t ht; fun_prop)]
    exact wInt_congr fun t _ p => by rw [ht]; ring
  rw [e, z0, z1, z2, x0, y0, hS.ixx, hS.iyy, hS.ixy, hS.one]
  have hD := hS.det
  have hy : 0 < r.cent.ixxC := by
    by_contra hn
    have : 0 ≤ r.cent.iyyC := by rw [← hS.iyy]; exact wInt_nonneg hS.physical.modulus fun _ _ _ => sq_nonneg _
    nlinarith [sq_nonneg r.cent.ixyC, mul_nonneg (neg_nonneg.2 (not_lt.1 hn)) this]
  have main : 0 < a ^ 2 * r.cent.iyyC - 2 * a * b * r.cent.ixyC + b ^ 2 * r.cent.ixxC + c ^ 2 * r.sums.ea := by
    by_cases hc0 : c = 0
    · subst hc0
      refine pos_of_mul_pos_right (a := r.cent.ixxC) ?_ hy.le
      have e2 : r.cent.ixxC * (a ^ 2 * r.cent.iyyC - 2 * a * b * r.cent.ixyC + b ^ 2 * r.cent.ixxC + 0 ^ 2 * r.sums.ea)
          = (r.cent.ixxC * b - r.cent.ixyC * a) ^ 2 + a ^ 2 * (r.cent.ixxC * r.cent.iyyC - r.cent.ixyC ^ 2) := by ring
      rw [e2]
      by_cases ha0 : a = 0
      · subst ha0
        have hb0 : b ≠ 0 := fun hb0 => hne (by
          refine Prod.ext (Prod.ext ?_ ?_) ?_
          · change P.1 = w.sc.xSt
            linarith
          · change P.2 = w.sc.ySt
            linarith
          · change k = k₀
            linarith)
        have := mul_ne_zero hy.ne' hb0
        have := sq_pos_of_ne_zero this
        nlinarith
      · have := mul_pos (sq_pos_of_ne_zero ha0) hD
        nlinarith [sq_nonneg (r.cent.ixxC * b - r.cent.ixyC * a)]
    · have h1 := mul_pos (sq_pos_of_ne_zero hc0) hea
      have h2 : 0 ≤ r.cent.ixxC * (a ^ 2 * r.cent.iyyC - 2 * a * b * r.cent.ixyC + b ^ 2 * r.cent.ixxC) := by
        nlinarith [sq_nonneg (r.cent.ixxC * b - r.cent.ixyC * a), mul_nonneg (sq_nonneg a) hD.le]
      have h3 := nonneg_of_mul_nonneg_right h2 hy
      linarith
  linarith

end

/-- **C107** The warping constant of fine meshes is close to the least axial energy of a twist, that of the twist about the shear centre, if
the Poisson's ratio of the analysis is zero. -/
theorem C107_warping_constant {Ω : Set (ℝ × ℝ)} {mat : ℝ × ℝ → Material} {s₀ : Section} {r₀ : GeomResults} {w₀ : WarpResults s₀.numNodes}
    (h₀ : SolvedMesh Ω mat s₀ r₀ w₀) (hcon : IsPreconnected (interior (region s₀.elements))) {ε : ℝ} (hε : 0 < ε) :
    ∃ δ > 0, ∀ (s : Section) (r : GeomResults) (w : WarpResults s.numNodes), SolvedMesh Ω mat s r w →
      (isComposite s.materials → r.nuEff = 0) → ∀ κ, FineMesh s.elements δ κ →
      ∃ q, FEField (s.elements.map fun t => t.shiftBy r.cx r.cy) w.omega q ∧
        |w.gamma - wInt (s.elements.map fun t => t.shiftBy r.cx r.cy) (fun t p => twistWarp q (w.sc.xSe, w.sc.ySe) 0 t p ^ 2)| ≤ ε ∧
        ∀ P k, wInt (s.elements.map fun t => t.shiftBy r.cx r.cy) (fun t p => twistWarp q (w.sc.xSe, w.sc.ySe) 0 t p ^ 2)
          ≤ wInt (s.elements.map fun t => t.shiftBy r.cx r.cy) (fun t p => twistWarp q P k t p ^ 2) := by
  obtain ⟨δ, hδ, key⟩ := iOmega_error h₀ hcon hε
  refine ⟨δ, hδ, fun s r w h hnu κ hf => ?_⟩
  obtain ⟨q, hq, hq0⟩ := omega_sol h
  have herr := key s r w h κ hf (warpIn s.materials r) q hq
  obtain ⟨sv, ty, hw⟩ := h.warp
  obtain ⟨x1, x2⟩ := C21_shear_centres s r h.good h.physical h.geom sv ty w hw hnu h.omega h.psi h.phi
  have hS := centroidalSetup h.good h.physical h.geom
  obtain ⟨-, i1, i2⟩ := scInts_form hS.physical.proper (warpIn s.materials r) hq.field
  have hea : 0 < r.sums.ea := by rw [← hS.ea]; exact hS.physical.ea_pos
  have cq : ∀ t ∈ centred s r, Continuous (q t) := fun t ht => PolyLE.continuous (hq.field t ht).1
  have zero : ∀ k₀, NoAction (centred s r) (twistWarp q (w.sc.xSt, w.sc.ySt) k₀) → k₀ = 0 := fun k₀ hz => by
    have h1 := hz.1
    have hc : Centroidal (centred s r) := hS.centroidal
    have o : wInt (centred s r) (fun _ _ => 1) = r.sums.ea := hS.one
    rw [(twist_moments hc cq _ k₀).1, hq0, zero_add, o] at h1
    exact (mul_eq_zero.1 h1).resolve_right hea.ne'
  obtain ⟨k₀, hk⟩ := C107_centre_of_twist h.good h.physical h.geom hw hq.field
  obtain ⟨k₁, hl⟩ := C107_least_warping h.good h.physical h.geom hw hq.field
  have hk0 := zero k₀ ((hk _ k₀).2 ⟨rfl, rfl⟩)
  subst hk0
  have hz : NoAction (centred s r) (twistWarp q (w.sc.xSt, w.sc.ySt) 0) := (hk _ _).2 ⟨rfl, rfl⟩
  rw [gamma_form h, x1, x2]
  obtain ⟨z0, z1, z2⟩ := hz
  -- the energy of the twist about the centre, by orthogonality
  have cu : ∀ t ∈ centred s r, Continuous (twistWarp q (w.sc.xSt, w.sc.ySt) 0 t) := fun t ht => by
    have := cq t ht
    unfold twistWarp
    fun_prop
  have e1 : wInt (centred s r) (fun t p => twistWarp q (w.sc.xSt, w.sc.ySt) 0 t p ^ 2)
      = 1 * wInt (centred s r) (fun t p => q t p * twistWarp q (w.sc.xSt, w.sc.ySt) 0 t p)
        + 1 * ((-w.sc.ySt) * wInt (centred s r) (fun t p => p.1 * twistWarp q (w.sc.xSt, w.sc.ySt) 0 t p)
          + w.sc.xSt * wInt (centred s r) (fun t p => p.2 * twistWarp q (w.sc.xSt, w.sc.ySt) 0 t p)) := by
    rw [wInt_lcc _ _ (fun t ht => by have := cu t ht; fun_prop) (fun t ht => by have := cu t ht; fun_prop),
      wInt_lcc _ _ (fun t ht => by have := cu t ht; have := cq t ht; fun_prop) (fun t ht => by have := cu t ht; fun_prop)]
    exact wInt_congr fun t _ p => by unfold twistWarp; ring
  have e2 : wInt (centred s r) (fun t p => q t p * twistWarp q (w.sc.xSt, w.sc.ySt) 0 t p)
      = 1 * wInt (centred s r) (fun t p => q t p ^ 2) + 1 * ((-w.sc.ySt) * wInt (centred s r) (fun t p => p.1 * q t p)
          + w.sc.xSt * wInt (centred s r) (fun t p => p.2 * q t p)) := by
    rw [wInt_lcc _ _ (fun t ht => by have := cq t ht; fun_prop) (fun t ht => by have := cq t ht; fun_prop),
      wInt_lcc _ _ (fun t ht => by have := cq t ht; fun_prop) (fun t ht => by have := cq t ht; fun_prop)]
    exact wInt_congr fun t _ p => by unfold twistWarp; ring
  have i1' : (scWarpingIntegrals (centred s r) (warpIn s.materials r) w.omega).iXomega = wInt (centred s r) (fun t p => p.1 * q t p) := i1
  have i2' : (scWarpingIntegrals (centred s r) (warpIn s.materials r) w.omega).iYomega = wInt (centred s r) (fun t p => p.2 * q t p) := i2
  have z1' : wInt (centred s r) (fun t p => p.1 * twistWarp q (w.sc.xSt, w.sc.ySt) 0 t p) = 0 := z1
  have z2' : wInt (centred s r) (fun t p => p.2 * twistWarp q (w.sc.xSt, w.sc.ySt) 0 t p) = 0 := z2
  have hk1 : k₁ = 0 := by
    by_contra hne
    have l1 := hl (w.sc.xSt, w.sc.ySt) 0 (fun h => hne (Prod.ext_iff.1 h).2.symm)
    have e3 : wInt (centred s r) (fun t p => twistWarp q (w.sc.xSt, w.sc.ySt) k₁ t p ^ 2)
        = 1 * wInt (centred s r) (fun t p => twistWarp q (w.sc.xSt, w.sc.ySt) 0 t p ^ 2)
          + 1 * (2 * k₁ * wInt (centred s r) (twistWarp q (w.sc.xSt, w.sc.ySt) 0) + k₁ ^ 2 * wInt (centred s r) (fun _ _ => 1)) := by
      rw [wInt_lcc _ _ (fun t ht => cu t ht) (fun t ht => by fun_prop),
        wInt_lcc _ _ (fun t ht => by have := cu t ht; fun_prop) (fun t ht => by have := cu t ht; fun_prop)]
      exact wInt_congr fun t _ p => by unfold twistWarp; ring
    have o : wInt (centred s r) (fun _ _ => 1) = r.sums.ea := hS.one
    have z0' : wInt (centred s r) (twistWarp q (w.sc.xSt, w.sc.ySt) 0) = 0 := z0
    rw [o, z0'] at e3
    have l1' : wInt (centred s r) (fun t p => twistWarp q (w.sc.xSt, w.sc.ySt) k₁ t p ^ 2)
      < wInt (centred s r) (fun t p => twistWarp q (w.sc.xSt, w.sc.ySt) 0 t p ^ 2) := l1
    nlinarith [mul_nonneg (sq_nonneg k₁) hea.le]
  subst hk1
  refine ⟨q, hq.field, ?_, fun P k => ?_⟩
  · have e4 : wInt (centred s r) (fun t p => twistWarp q (w.sc.xSt, w.sc.ySt) 0 t p ^ 2)
        = wInt (centred s r) (fun t p => q t p ^ 2) - w.sc.ySt * wInt (centred s r) (fun t p => p.1 * q t p)
          + w.sc.xSt * wInt (centred s r) (fun t p => p.2 * q t p) := by
      rw [e1, z1', z2', e2]
      ring
    change |_ - wInt (centred s r) _| ≤ ε
    rw [e4, i1', i2']
    refine le_of_eq_of_le (congrArg abs ?_) herr
    ring
  · by_cases hne : (P, k) = ((w.sc.xSt, w.sc.ySt), 0)
    · obtain ⟨rfl, rfl⟩ := Prod.mk.inj hne
      exact le_rfl
    · exact (hl P k hne).le

/-- The composite section of two triangles. -/
example : ∃ (s : Section) (r : GeomResults) (w : WarpResults s.numNodes) (q : Tri6 s.numNodes → ℝ × ℝ → ℝ) (k₀ : ℝ),
    s = exSection ∧ s.geometricAnalysis = .ok r ∧ FEField (s.elements.map fun t => t.shiftBy r.cx r.cy) w.omega q ∧
    NoAction (s.elements.map fun t => t.shiftBy r.cx r.cy) (twistWarp q (w.sc.xSt, w.sc.ySt) k₀) := by
  obtain ⟨-, hg, hp, -, r, w, -, -, -, hr, hw, -⟩ := ex_equilibrium
  obtain ⟨q, hq⟩ := exists_feField (centroidalSetup hg hp hr).physical.proper w.omega
  obtain ⟨k₀, hk⟩ := C107_centre_of_twist hg hp hr hw hq
  exact ⟨exSection, r, w, q, k₀, rfl, hr, hq, (hk _ _).2 ⟨rfl, rfl⟩⟩

end SP
