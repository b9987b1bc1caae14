import Verif.Lemmas.QuadError
import Verif.Props.Equilibrium
import Verif.Props.WarpMore

/-!
# C94: the shear centre, the monosymmetry constants, the warping constant and the shear areas of a connected body
-/

namespace SP

open Spec MeasureTheory Set Topology Filter

variable {n : ℕ} {els : List (Tri6 n)} {Ω : Set (ℝ × ℝ)} {mat : ℝ × ℝ → Material} {c : Prop}

/-- All meshes of the body with small elements of bounded aspect give values of `f` close to `l`.  The proposition `c` says whether the
analyses take materials into account. -/
def MeshLimit (Ω : Set (ℝ × ℝ)) (mat : ℝ × ℝ → Material) (c : Prop) (f : ∀ s : Section, GeomResults → WarpResults s.numNodes → ℝ)
    (l : ℝ) : Prop :=
  ∀ κ ε, 0 < ε → ∃ δ > 0, ∀ (s : Section) (r : GeomResults) (w : WarpResults s.numNodes), SolvedMesh Ω mat s r w →
    (isComposite s.materials ↔ c) → FineMesh s.elements δ κ → |f s r w - l| ≤ ε

/-! ### Limits as filters -/

/-- The meshes of a body, with their results. -/
def BodyMesh (Ω : Set (ℝ × ℝ)) (mat : ℝ × ℝ → Material) (c : Prop) : Type :=
  {x : Σ s : Section, GeomResults × WarpResults s.numNodes // SolvedMesh Ω mat x.1 x.2.1 x.2.2 ∧ (isComposite x.1.materials ↔ c)}

/-- Ever finer meshes. -/
def fineFilter (Ω : Set (ℝ × ℝ)) (mat : ℝ × ℝ → Material) (c : Prop) (κ : ℝ) : Filter (BodyMesh Ω mat c) :=
  ⨅ δ ∈ Ioi (0 : ℝ), 𝓟 {x | FineMesh x.1.1.elements δ κ}

theorem fineFilter_basis (κ : ℝ) : (fineFilter Ω mat c κ).HasBasis (fun δ => δ ∈ Ioi (0 : ℝ)) fun δ => {x | FineMesh x.1.1.elements δ κ} := by
  refine hasBasis_biInf_principal ?_ ⟨1, mem_Ioi.2 one_pos⟩
  intro a ha b hb
  exact ⟨min a b, mem_Ioi.2 (lt_min ha hb), fun x hx => fineMesh_le hx (min_le_left _ _), fun x hx => fineMesh_le hx (min_le_right _ _)⟩

theorem fine_tendsto {f : BodyMesh Ω mat c → ℝ} {l κ : ℝ} : Tendsto f (fineFilter Ω mat c κ) (𝓝 l) ↔
    ∀ ε, 0 < ε → ∃ δ > 0, ∀ x : BodyMesh Ω mat c, FineMesh x.1.1.elements δ κ → |f x - l| ≤ ε := by
  rw [(fineFilter_basis κ).tendsto_iff Metric.nhds_basis_closedBall]
  exact Iff.rfl

theorem meshLimit_iff {f : ∀ s : Section, GeomResults → WarpResults s.numNodes → ℝ} {l : ℝ} : MeshLimit Ω mat c f l ↔
    ∀ κ, Tendsto (fun x : BodyMesh Ω mat c => f x.1.1 x.1.2.1 x.1.2.2) (fineFilter Ω mat c κ) (𝓝 l) := by
  simp only [fine_tendsto]
  constructor
  · intro h κ ε hε
    obtain ⟨δ, hδ, k⟩ := h κ ε hε
    exact ⟨δ, hδ, fun x => k _ _ _ x.2.1 x.2.2⟩
  · intro h κ ε hε
    obtain ⟨δ, hδ, k⟩ := h κ ε hε
    exact ⟨δ, hδ, fun s r w hs hc hf => k ⟨⟨s, r, w⟩, hs, hc⟩ hf⟩

/-! ### The loads of the analysis -/

/-- The load of unit twist. -/
def torsionLoad (p : ℝ × ℝ) : ℝ × ℝ × ℝ := (0, p.2, -p.1)

/-- The load of the shear function `psi`. -/
noncomputable def psiLoad (w : WarpIn) (p : ℝ × ℝ) : ℝ × ℝ × ℝ :=
  (2 * (1 + w.nu) * (w.ixx * p.1 - w.ixy * p.2), w.nu / 2 * (shearParameter p.1 p.2 w.ixx w.iyy w.ixy).d1,
    w.nu / 2 * (shearParameter p.1 p.2 w.ixx w.iyy w.ixy).d2)

/-- The load of the shear function `phi`. -/
noncomputable def phiLoad (w : WarpIn) (p : ℝ × ℝ) : ℝ × ℝ × ℝ :=
  (2 * (1 + w.nu) * (w.iyy * p.2 - w.ixy * p.1), w.nu / 2 * (shearParameter p.1 p.2 w.ixx w.iyy w.ixy).h1,
    w.nu / 2 * (shearParameter p.1 p.2 w.ixx w.iyy w.ixy).h2)

/-- The elements in coordinates from the centroid. -/
noncomputable def centred (s : Section) (r : GeomResults) : List (Tri6 s.numNodes) := s.elements.map fun t => t.shiftBy r.cx r.cy

/-- The body in coordinates from the point `(cx, cy)`. -/
def fromPoint (Ω : Set (ℝ × ℝ)) (r : GeomResults) : Set (ℝ × ℝ) := (fun p => p + (r.cx, r.cy)) ⁻¹' Ω

/-- The materials of the body in coordinates from the centroid. -/
def matFrom (mat : ℝ × ℝ → Material) (r : GeomResults) : ℝ × ℝ → Material := fun p => mat (p + (r.cx, r.cy))

section
variable {s s₀ : Section} {r r₀ : GeomResults} {w : WarpResults s.numNodes} {w₀ : WarpResults s₀.numNodes}

theorem solved_nice (h₀ : SolvedMesh Ω mat s₀ r₀ w₀) (h : SolvedMesh Ω mat s r w) :
    NiceMesh (fromPoint Ω r₀) (matFrom mat r₀) (centred s r) := by
  obtain ⟨-, -, ex, ey, -⟩ := meshOf_geom h₀.good h.good h₀.mesh h.mesh h₀.geom h.geom
  have hS := centroidalSetup h.good h.physical h.geom
  refine ⟨⟨_, conforming_shift h.conforming r.cx r.cy, shifted_pos h.good r.cx r.cy⟩, hS.physical.proper, hS.physical.modulus, ?_⟩
  unfold fromPoint matFrom
  rw [ex, ey]
  exact meshOf_shift h.mesh r.cx r.cy

theorem solved_warpIn (h₀ : SolvedMesh Ω mat s₀ r₀ w₀) (h : SolvedMesh Ω mat s r w)
    (hc : isComposite s.materials ↔ isComposite s₀.materials) : warpIn s.materials r = warpIn s₀.materials r₀ := by
  have fld : ∀ {n : ℕ} {els : List (Tri6 n)}, MeshOf Ω mat els → ∀ prop : Material → ℝ, IsField els prop fun p => prop (mat p) :=
    fun h prop t ht => (h.material t ht).mono fun p hp hpm => congrArg prop (hp hpm)
  obtain ⟨h1, h2, -, -, h5, h6, h7, h8, h9, h10, h11, h12, -⟩ := C02_mesh_independent h₀.geom h.geom h₀.good.proper h.good.proper
    h₀.mesh.once h.mesh.once (h₀.mesh.covers.trans h.mesh.covers.symm) (fld h₀.mesh _) (fld h₀.mesh _) (fld h₀.mesh _) (fld h.mesh _)
    (fld h.mesh _) (fld h.mesh _)
  by_cases hc' : isComposite s₀.materials
  · simp [warpIn, h1, h2, h7, h8, h9, h10, h11, h12, hc', hc.2 hc']
  · simp [warpIn, h1, h7, h8, h9, h10, h11, h12, hc', mt hc.1 hc']

theorem omega_sol (h : SolvedMesh Ω mat s r w) : ∃ q, WeakSol torsionLoad (centred s r) w.omega q ∧ wInt (centred s r) q = 0 := by
  have hS := centroidalSetup h.good h.physical h.geom
  obtain ⟨q, hq⟩ := exists_feField hS.physical.proper w.omega
  have hl := load_sum hS.physical.proper hS.distinct
  refine ⟨q, ⟨hq, fun y v hv => ?_⟩, ?_⟩
  · refine (bordered_weak hS.physical hS.distinct hl h.omega hq hv).trans ?_
    rw [load_form hS.physical.proper hS.distinct hv]
    refine wInt_congr fun t _ p => ?_
    simp only [alongField, loadAt, torsionLoad]
    ring
  · obtain ⟨μ, hμ⟩ := h.omega
    exact (C17_solution hS.physical hS.distinct _ _ μ hl hμ).2.2 q hq

theorem psi_sol (h : SolvedMesh Ω mat s r w) : ∃ q, WeakSol (psiLoad (warpIn s.materials r)) (centred s r) w.psi q := by
  have hS := centroidalSetup h.good h.physical h.geom
  obtain ⟨q, hq⟩ := exists_feField hS.physical.proper w.psi
  obtain ⟨l1, -⟩ := shear_load_sum hS.physical.proper hS.distinct (warpIn s.materials r) hS.centroidal
  refine ⟨q, ⟨hq, fun y v hv => ?_⟩⟩
  refine (bordered_weak hS.physical hS.distinct l1 h.psi hq hv).trans ?_
  rw [psi_load hS.physical.proper hS.distinct _ hv]
  refine wInt_congr fun t _ p => ?_
  simp only [alongField, loadAt, psiLoad, psiWork]
  ring

theorem phi_sol (h : SolvedMesh Ω mat s r w) : ∃ q, WeakSol (phiLoad (warpIn s.materials r)) (centred s r) w.phiS q := by
  have hS := centroidalSetup h.good h.physical h.geom
  obtain ⟨q, hq⟩ := exists_feField hS.physical.proper w.phiS
  obtain ⟨-, l2⟩ := shear_load_sum hS.physical.proper hS.distinct (warpIn s.materials r) hS.centroidal
  refine ⟨q, ⟨hq, fun y v hv => ?_⟩⟩
  refine (bordered_weak hS.physical hS.distinct l2 h.phi hq hv).trans ?_
  rw [phi_load hS.physical.proper hS.distinct _ hv]
  refine wInt_congr fun t _ p => ?_
  simp only [alongField, loadAt, phiLoad, phiWork]
  ring

theorem torsionLoad_cont : Continuous torsionLoad := by unfold torsionLoad; fun_prop

theorem psiLoad_cont (w : WarpIn) : Continuous (psiLoad w) := by unfold psiLoad; simp only [shearParameter]; fun_prop

theorem phiLoad_cont (w : WarpIn) : Continuous (phiLoad w) := by unfold phiLoad; simp only [shearParameter]; fun_prop

theorem balanced_zero {l : ℝ × ℝ → ℝ × ℝ × ℝ} (h : ∀ p, (l p).1 = 0) : Balanced Ω mat l := by simp [Balanced, h]

/-- Loads that are linear in the position from the centroid are balanced. -/
theorem balanced_linear (h₀ : SolvedMesh Ω mat s₀ r₀ w₀) {l : ℝ × ℝ → ℝ × ℝ × ℝ} (a b : ℝ) (h : ∀ p, (l p).1 = a * p.1 + b * p.2) :
    Balanced (fromPoint Ω r₀) (matFrom mat r₀) l := by
  obtain ⟨c1, c2⟩ := (centroidalSetup h₀.good h₀.physical h₀.geom).centroidal
  have e := wInt_body (g := fun p => a * p.1 + b * p.2) (solved_nice h₀ h₀).mesh (by fun_prop)
  rw [wInt_lin] at e
  rw [Balanced]
  simp only [h]
  rw [← e, centred, c1, c2]
  ring

theorem connected_centred (hcon : IsPreconnected (interior (region s₀.elements))) : IsPreconnected (interior (region (centred s₀ r₀))) := by
  change IsPreconnected (interior (region (shifted s₀.elements r₀.cx r₀.cy)))
  rw [region_shift]
  have e := (Homeomorph.addRight (r₀.cx, r₀.cy)).preimage_interior (region s₀.elements)
  change _ = interior ((fun p => p + (r₀.cx, r₀.cy)) ⁻¹' region s₀.elements) at e
  rw [← e]
  exact (Homeomorph.isPreconnected_preimage _).2 hcon

/-- What is the work of a balanced load on a solution with a balanced load. -/
theorem functional_limit (h₀ : SolvedMesh Ω mat s₀ r₀ w₀) (hcon : IsPreconnected (interior (region s₀.elements)))
    {l l' : ℝ × ℝ → ℝ × ℝ × ℝ} (hl : Continuous l) (hb : Balanced (fromPoint Ω r₀) (matFrom mat r₀) l) (hl' : Continuous l')
    (hb' : Balanced (fromPoint Ω r₀) (matFrom mat r₀) l') (f : BodyMesh Ω mat c → ℝ)
    (hf : ∀ x : BodyMesh Ω mat c, ∃ u q, WeakSol l (centred x.1.1 x.1.2.1) u q ∧ f x = loadOn l' (centred x.1.1 x.1.2.1) q) :
    ∃ L, ∀ κ, Tendsto f (fineFilter Ω mat c κ) (𝓝 L) := by
  obtain ⟨L, hL⟩ := body_limit (solved_nice h₀ h₀) (connected_centred hcon) hl hb hl' hb'
  refine ⟨L, fun κ => fine_tendsto.2 fun ε hε => ?_⟩
  obtain ⟨δ, hδ, h⟩ := hL κ ε hε
  refine ⟨δ, hδ, fun x hx => ?_⟩
  obtain ⟨u, q, hs, e⟩ := hf x
  rw [e]
  exact h _ _ (solved_nice h₀ x.2.1) u q hs (fineMesh_shift hx _ _)

/-- A body given by a connected open set satisfies the hypothesis of this file. -/
theorem connected_body (h₀ : SolvedMesh Ω mat s₀ r₀ w₀) (ho : IsOpen Ω) (hc : IsPreconnected Ω) :
    IsPreconnected (interior (region s₀.elements)) := by
  have h1 : Ω ⊆ region s₀.elements := by
    have hopen : IsOpen (Ω \ region s₀.elements) := ho.sdiff (isClosed_region _)
    exact sdiff_eq_empty.1 ((hopen.measure_eq_zero_iff volume).1 (ae_le_set.1 h₀.mesh.covers.symm.le))
  have h2 : interior (region s₀.elements) ⊆ closure Ω := by
    have hopen : IsOpen (interior (region s₀.elements) \ closure Ω) := isOpen_interior.sdiff isClosed_closure
    refine sdiff_eq_empty.1 ((hopen.measure_eq_zero_iff volume).1 (measure_mono_null ?_ (ae_le_set.1 h₀.mesh.covers.le)))
    exact fun p hp => ⟨interior_subset hp.1, fun h => hp.2 (subset_closure h)⟩
  exact hc.subset_closure (interior_maximal h1 ho) h2

/-! ### The shear centre -/

/-- The coordinates of the elastic shear centre, along the given and the principal axes, and of Trefftz's shear centre. -/
noncomputable def centreValues {n : ℕ} (w : WarpResults n) : Fin 6 → ℝ :=
  ![w.sc.xSe, w.sc.ySe, w.sc.x11Se, w.sc.y22Se, w.sc.xSt, w.sc.ySt]

/-- The monosymmetry constants. -/
noncomputable def betaValues {n : ℕ} (w : WarpResults n) : Fin 8 → ℝ :=
  ![w.beta.xPlus, w.beta.xMinus, w.beta.yPlus, w.beta.yMinus, w.beta.b11Plus, w.beta.b11Minus, w.beta.b22Plus, w.beta.b22Minus]

/-- The integral of a function of position is a constant of the body. -/
theorem wInt_const (h₀ : SolvedMesh Ω mat s₀ r₀ w₀) (h : SolvedMesh Ω mat s r w) {g : ℝ × ℝ → ℝ} (hg : Continuous g) :
    wInt (centred s r) (fun _ p => g p) = wInt (centred s₀ r₀) (fun _ p => g p) := by
  rw [wInt_body (solved_nice h₀ h).mesh hg, wInt_body (solved_nice h₀ h₀).mesh hg]

/-- The moments of the warping function and the work of the twist on the shear functions. -/
theorem moment_limits (h₀ : SolvedMesh Ω mat s₀ r₀ w₀) (hcon : IsPreconnected (interior (region s₀.elements))) :
    ∃ a b d e : ℝ, ∀ κ, let F := fineFilter Ω mat (isComposite s₀.materials) κ
      Tendsto (fun x => (scWarpingIntegrals (centred x.1.1 x.1.2.1) (warpIn x.1.1.materials x.1.2.1) x.1.2.2.omega).iXomega) F (𝓝 a) ∧
      Tendsto (fun x => (scWarpingIntegrals (centred x.1.1 x.1.2.1) (warpIn x.1.1.materials x.1.2.1) x.1.2.2.omega).iYomega) F (𝓝 b) ∧
      Tendsto (fun x => dotN (assembleTorsion (centred x.1.1 x.1.2.1)).2 x.1.2.2.psi) F (𝓝 d) ∧
      Tendsto (fun x => dotN (assembleTorsion (centred x.1.1 x.1.2.1)).2 x.1.2.2.phiS) F (𝓝 e) := by
  have ht : Balanced (fromPoint Ω r₀) (matFrom mat r₀) torsionLoad := balanced_zero fun _ => rfl
  obtain ⟨a, ha⟩ := functional_limit (c := isComposite s₀.materials) h₀ hcon torsionLoad_cont ht (l' := fun p => (p.1, 0, 0)) (by fun_prop)
    (balanced_linear h₀ 1 0 fun p => by simp)
    (fun x => (scWarpingIntegrals (centred x.1.1 x.1.2.1) (warpIn x.1.1.materials x.1.2.1) x.1.2.2.omega).iXomega) (fun x => by
      obtain ⟨q, hq, -⟩ := omega_sol x.2.1
      refine ⟨_, q, hq, (scInts_form (solved_nice h₀ x.2.1).proper _ hq.field).2.1.trans (wInt_congr fun t _ p => ?_)⟩
      simp [alongField, loadAt])
  obtain ⟨b, hb⟩ := functional_limit (c := isComposite s₀.materials) h₀ hcon torsionLoad_cont ht (l' := fun p => (p.2, 0, 0)) (by fun_prop)
    (balanced_linear h₀ 0 1 fun p => by simp)
    (fun x => (scWarpingIntegrals (centred x.1.1 x.1.2.1) (warpIn x.1.1.materials x.1.2.1) x.1.2.2.omega).iYomega) (fun x => by
      obtain ⟨q, hq, -⟩ := omega_sol x.2.1
      refine ⟨_, q, hq, (scInts_form (solved_nice h₀ x.2.1).proper _ hq.field).2.2.trans (wInt_congr fun t _ p => ?_)⟩
      simp [alongField, loadAt])
  have hp : Balanced (fromPoint Ω r₀) (matFrom mat r₀) (psiLoad (warpIn s₀.materials r₀)) :=
    balanced_linear h₀ (2 * (1 + (warpIn s₀.materials r₀).nu) * (warpIn s₀.materials r₀).ixx)
      (-(2 * (1 + (warpIn s₀.materials r₀).nu) * (warpIn s₀.materials r₀).ixy)) fun p => by simp only [psiLoad]; ring
  have hf : Balanced (fromPoint Ω r₀) (matFrom mat r₀) (phiLoad (warpIn s₀.materials r₀)) :=
    balanced_linear h₀ (-(2 * (1 + (warpIn s₀.materials r₀).nu) * (warpIn s₀.materials r₀).ixy))
      (2 * (1 + (warpIn s₀.materials r₀).nu) * (warpIn s₀.materials r₀).iyy) fun p => by simp only [phiLoad]; ring
  obtain ⟨d, hd⟩ := functional_limit (c := isComposite s₀.materials) h₀ hcon (psiLoad_cont _) hp torsionLoad_cont ht
    (fun x => dotN (assembleTorsion (centred x.1.1 x.1.2.1)).2 x.1.2.2.psi) (fun x => by
      obtain ⟨q, hq⟩ := psi_sol x.2.1
      rw [solved_warpIn h₀ x.2.1 x.2.2] at hq
      have hS := centroidalSetup x.2.1.good x.2.1.physical x.2.1.geom
      refine ⟨_, q, hq, ?_⟩
      rw [dotN_comm]
      refine (load_form hS.physical.proper hS.distinct hq.field).trans (wInt_congr fun t _ p => ?_)
      simp only [alongField, loadAt, torsionLoad]
      ring)
  obtain ⟨e, he⟩ := functional_limit (c := isComposite s₀.materials) h₀ hcon (phiLoad_cont _) hf torsionLoad_cont ht
    (fun x => dotN (assembleTorsion (centred x.1.1 x.1.2.1)).2 x.1.2.2.phiS) (fun x => by
      obtain ⟨q, hq⟩ := phi_sol x.2.1
      rw [solved_warpIn h₀ x.2.1 x.2.2] at hq
      have hS := centroidalSetup x.2.1.good x.2.1.physical x.2.1.geom
      refine ⟨_, q, hq, ?_⟩
      rw [dotN_comm]
      refine (load_form hS.physical.proper hS.distinct hq.field).trans (wInt_congr fun t _ p => ?_)
      simp only [alongField, loadAt, torsionLoad]
      ring)
  exact ⟨a, b, d, e, fun κ => ⟨ha κ, hb κ, hd κ, he κ⟩⟩

/-- **C94** Each coordinate of the elastic shear centre and of Trefftz's shear centre of a connected body: there is one number that all
meshes with small elements of bounded aspect come close to, for any materials. -/
theorem C94_shear_centre (h₀ : SolvedMesh Ω mat s₀ r₀ w₀) (hcon : IsPreconnected (interior (region s₀.elements))) (i : Fin 6) :
    ∃ l, MeshLimit Ω mat (isComposite s₀.materials) (fun _ _ w => centreValues w i) l := by
  obtain ⟨a, b, d, e, key⟩ := moment_limits h₀ hcon
  set W := warpIn s₀.materials r₀ with hW
  set SX := wInt (centred s₀ r₀) (fun _ p => (W.iyy * p.1 + W.ixy * p.2) * (p.1 ^ 2 + p.2 ^ 2))
  set SY := wInt (centred s₀ r₀) (fun _ p => (W.ixx * p.2 + W.ixy * p.1) * (p.1 ^ 2 + p.2 ^ 2))
  -- the centre from the moments
  have hsc : ∀ x : BodyMesh Ω mat (isComposite s₀.materials), x.1.2.2.sc =
      shearCentres W (assembleTorsion (centred x.1.1 x.1.2.1)).2 x.1.2.2.psi x.1.2.2.phiS
        { scX := SX, scY := SY, qOmega := 0, iOmega := 0
          iXomega := (scWarpingIntegrals (centred x.1.1 x.1.2.1) (warpIn x.1.1.materials x.1.2.1) x.1.2.2.omega).iXomega
          iYomega := (scWarpingIntegrals (centred x.1.1 x.1.2.1) (warpIn x.1.1.materials x.1.2.1) x.1.2.2.omega).iYomega } := by
    intro x
    obtain ⟨sv, ty, hw⟩ := x.2.1.warp
    obtain ⟨-, -, -, -, -, hsc, -⟩ := warping_ok hw
    rw [hsc]
    obtain ⟨k1, k2⟩ := scInts_centre (solved_nice h₀ x.2.1).proper W x.1.2.2.omega
    rw [wInt_const h₀ x.2.1 (by fun_prop)] at k1
    rw [wInt_const h₀ x.2.1 (by fun_prop)] at k2
    rw [solved_warpIn h₀ x.2.1 x.2.2, ← hW]
    change shearCentres W (assembleTorsion (centred x.1.1 x.1.2.1)).2 _ _ (scWarpingIntegrals (centred x.1.1 x.1.2.1) W x.1.2.2.omega) = _
    simp only [shearCentres, k1, k2]
    rfl
  have hx : ∀ κ, Tendsto (fun x : BodyMesh Ω mat (isComposite s₀.materials) => x.1.2.2.sc.xSe) (fineFilter Ω mat _ κ)
      (𝓝 (1 / W.deltaS * (W.nu / 2 * SX - e))) := fun κ => by
    refine Tendsto.congr (fun x => (congrArg ShearCentres.xSe (hsc x)).symm) ?_
    exact (tendsto_const_nhds.sub (key κ).2.2.2).const_mul _
  have hy : ∀ κ, Tendsto (fun x : BodyMesh Ω mat (isComposite s₀.materials) => x.1.2.2.sc.ySe) (fineFilter Ω mat _ κ)
      (𝓝 (1 / W.deltaS * (W.nu / 2 * SY + d))) := fun κ => by
    refine Tendsto.congr (fun x => (congrArg ShearCentres.ySe (hsc x)).symm) ?_
    exact (tendsto_const_nhds.add (key κ).2.2.1).const_mul _
  fin_cases i
  · exact ⟨_, meshLimit_iff.2 hx⟩
  · exact ⟨_, meshLimit_iff.2 hy⟩
  · refine ⟨(principalCoordinate W.phi (1 / W.deltaS * (W.nu / 2 * SX - e)) (1 / W.deltaS * (W.nu / 2 * SY + d))).1, meshLimit_iff.2 fun κ => ?_⟩
    refine Tendsto.congr (f₁ := fun x : BodyMesh Ω mat (isComposite s₀.materials) =>
      x.1.2.2.sc.xSe * Real.cos (W.phi * Real.pi / 180) + x.1.2.2.sc.ySe * Real.sin (W.phi * Real.pi / 180)) (fun x => ?_)
      (((hx κ).mul_const _).add ((hy κ).mul_const _))
    simp only [centreValues, hsc x]
    rfl
  · refine ⟨(principalCoordinate W.phi (1 / W.deltaS * (W.nu / 2 * SX - e)) (1 / W.deltaS * (W.nu / 2 * SY + d))).2, meshLimit_iff.2 fun κ => ?_⟩
    refine Tendsto.congr (f₁ := fun x : BodyMesh Ω mat (isComposite s₀.materials) =>
      x.1.2.2.sc.ySe * Real.cos (W.phi * Real.pi / 180) - x.1.2.2.sc.xSe * Real.sin (W.phi * Real.pi / 180)) (fun x => ?_)
      (((hy κ).mul_const _).sub ((hx κ).mul_const _))
    simp only [centreValues, hsc x]
    rfl
  · refine ⟨(W.ixy * a - W.iyy * b) / (W.ixx * W.iyy - W.ixy ^ 2), meshLimit_iff.2 fun κ => ?_⟩
    refine Tendsto.congr (fun x => (congrArg ShearCentres.xSt (hsc x)).symm) ?_
    exact (((key κ).1.const_mul _).sub ((key κ).2.1.const_mul _)).div_const _
  · refine ⟨(W.ixx * a - W.ixy * b) / (W.ixx * W.iyy - W.ixy ^ 2), meshLimit_iff.2 fun κ => ?_⟩
    refine Tendsto.congr (fun x => (congrArg ShearCentres.ySt (hsc x)).symm) ?_
    exact (((key κ).1.const_mul _).sub ((key κ).2.1.const_mul _)).div_const _

/-- **C94** Each of the eight monosymmetry constants of a connected body: there is one number that all meshes with small elements of
bounded aspect come close to. -/
theorem C94_monosymmetry (h₀ : SolvedMesh Ω mat s₀ r₀ w₀) (hcon : IsPreconnected (interior (region s₀.elements))) (i : Fin 8) :
    ∃ l, MeshLimit Ω mat (isComposite s₀.materials) (fun _ _ w => betaValues w i) l := by
  obtain ⟨l0, k0⟩ := C94_shear_centre h₀ hcon 0
  obtain ⟨l1, k1⟩ := C94_shear_centre h₀ hcon 1
  obtain ⟨l2, k2⟩ := C94_shear_centre h₀ hcon 2
  obtain ⟨l3, k3⟩ := C94_shear_centre h₀ hcon 3
  rw [meshLimit_iff] at k0 k1 k2 k3
  simp only [centreValues] at k0 k1 k2 k3
  set W := warpIn s₀.materials r₀ with hW
  set M := monosymmetryInts (centred s₀ r₀) W.phi
  have hb : ∀ x : BodyMesh Ω mat (isComposite s₀.materials), x.1.2.2.beta = betas W M x.1.2.2.sc := by
    intro x
    obtain ⟨sv, ty, hw⟩ := x.2.1.warp
    obtain ⟨-, -, -, -, -, -, -, -, hb⟩ := warping_ok hw
    rw [hb, solved_warpIn h₀ x.2.1 x.2.2, ← hW]
    have : monosymmetryInts (centred x.1.1 x.1.2.1) W.phi = M := by
      obtain ⟨a1, a2, a3, a4⟩ := mono_form (solved_nice h₀ x.2.1).proper W.phi
      obtain ⟨b1, b2, b3, b4⟩ := mono_form (solved_nice h₀ h₀).proper W.phi
      simp only [principalCoordinate] at a3 a4 b3 b4
      ext
      · rw [a1, b1, wInt_const h₀ x.2.1 (by fun_prop)]
      · rw [a2, b2, wInt_const h₀ x.2.1 (by fun_prop)]
      · rw [a3, b3, wInt_const h₀ x.2.1 (by fun_prop)]
      · rw [a4, b4, wInt_const h₀ x.2.1 (by fun_prop)]
    exact congrArg (fun m => betas W m x.1.2.2.sc) this
  fin_cases i
  · refine ⟨-M.x / W.ixx + 2 * l1, meshLimit_iff.2 fun κ => Tendsto.congr (fun x => (congrArg Betas.xPlus (hb x)).symm) ?_⟩
    exact tendsto_const_nhds.add ((k1 κ).const_mul 2)
  · refine ⟨M.x / W.ixx - 2 * l1, meshLimit_iff.2 fun κ => Tendsto.congr (fun x => (congrArg Betas.xMinus (hb x)).symm) ?_⟩
    exact tendsto_const_nhds.sub ((k1 κ).const_mul 2)
  · refine ⟨-M.y / W.iyy + 2 * l0, meshLimit_iff.2 fun κ => Tendsto.congr (fun x => (congrArg Betas.yPlus (hb x)).symm) ?_⟩
    exact tendsto_const_nhds.add ((k0 κ).const_mul 2)
  · refine ⟨M.y / W.iyy - 2 * l0, meshLimit_iff.2 fun κ => Tendsto.congr (fun x => (congrArg Betas.yMinus (hb x)).symm) ?_⟩
    exact tendsto_const_nhds.sub ((k0 κ).const_mul 2)
  · refine ⟨-M.i11 / W.i11 + 2 * l3, meshLimit_iff.2 fun κ => Tendsto.congr (fun x => (congrArg Betas.b11Plus (hb x)).symm) ?_⟩
    exact tendsto_const_nhds.add ((k3 κ).const_mul 2)
  · refine ⟨M.i11 / W.i11 - 2 * l3, meshLimit_iff.2 fun κ => Tendsto.congr (fun x => (congrArg Betas.b11Minus (hb x)).symm) ?_⟩
    exact tendsto_const_nhds.sub ((k3 κ).const_mul 2)
  · refine ⟨-M.i22 / W.i22 + 2 * l2, meshLimit_iff.2 fun κ => Tendsto.congr (fun x => (congrArg Betas.b22Plus (hb x)).symm) ?_⟩
    exact tendsto_const_nhds.add ((k2 κ).const_mul 2)
  · refine ⟨M.i22 / W.i22 - 2 * l2, meshLimit_iff.2 fun κ => Tendsto.congr (fun x => (congrArg Betas.b22Minus (hb x)).symm) ?_⟩
    exact tendsto_const_nhds.sub ((k2 κ).const_mul 2)

/-! ### The warping constant -/

theorem ea_centred (h₀ : SolvedMesh Ω mat s₀ r₀ w₀) : 0 < wInt (centred s₀ r₀) fun _ _ => (1 : ℝ) := by
  have hS := centroidalSetup h₀.good h₀.physical h₀.geom
  rw [centred, hS.one, ← hS.ea]
  exact hS.physical.ea_pos

theorem iOmega_rule (h₀ : SolvedMesh Ω mat s₀ r₀ w₀) (h : SolvedMesh Ω mat s r w) (W : WarpIn) {q : Tri6 s.numNodes → ℝ × ℝ → ℝ}
    (hq : FEField (centred s r) w.omega q) :
    (scWarpingIntegrals (centred s r) W w.omega).iOmega = ruleSum (centred s r) fun t p => q t p ^ 2 := by
  rw [iOmega_sum, ruleSum]
  refine congrArg List.sum (List.map_congr_left fun t ht => rule_elem ((solved_nice h₀ h).proper t ht) fun gp hb => ?_)
  exact congrArg (· ^ 2) (interp_val ((solved_nice h₀ h).proper t ht) hb (hq t ht))

/-- The second warping moment of fine meshes is nearly exact. -/
theorem iOmega_error (h₀ : SolvedMesh Ω mat s₀ r₀ w₀) (hcon : IsPreconnected (interior (region s₀.elements))) {ε : ℝ} (hε : 0 < ε) :
    ∃ δ > 0, ∀ (s : Section) (r : GeomResults) (w : WarpResults s.numNodes), SolvedMesh Ω mat s r w → ∀ κ, FineMesh s.elements δ κ →
      ∀ (W : WarpIn) (q), WeakSol torsionLoad (centred s r) w.omega q →
      |(scWarpingIntegrals (centred s r) W w.omega).iOmega - wInt (centred s r) (fun t p => q t p ^ 2)| ≤ ε := by
  obtain ⟨c, hc⟩ := energy_bound (solved_nice h₀ h₀) (connected_centred hcon) torsionLoad_cont (balanced_zero fun _ => rfl)
  have hc1 : 0 < 192 * (|c| + 1) := by positivity
  refine ⟨min 1 (ε / (192 * (|c| + 1))), lt_min one_pos (by positivity), fun s r w h κ hf W q hq => ?_⟩
  set δ := min 1 (ε / (192 * (|c| + 1)))
  have d0 : 0 < δ := lt_min one_pos (by positivity)
  have hn := solved_nice h₀ h
  have hE := hc _ _ hn _ _ hq
  have hE0 := dirichlet_nonneg hn.modulus q
  have hf' : FineMesh (centred s r) δ κ := fineMesh_shift hf _ _
  rw [iOmega_rule h₀ h W hq.field]
  refine (ruleSum_sq hn.proper hn.modulus (fun t ht => (hq.field t ht).1) hf').trans ?_
  have h1 : δ ^ 2 ≤ δ := by
    have := mul_le_mul_of_nonneg_left (min_le_left 1 (ε / (192 * (|c| + 1)))) d0.le
    rw [pow_two]; linarith
  have h2 : δ * (192 * (|c| + 1)) ≤ ε := (le_div_iff₀ hc1).1 (min_le_right _ _)
  have h3 := le_abs_self c
  nlinarith [mul_nonneg d0.le hE0, mul_le_mul_of_nonneg_right h1 hE0]

theorem iOmega_limit (h₀ : SolvedMesh Ω mat s₀ r₀ w₀) (hcon : IsPreconnected (interior (region s₀.elements))) :
    ∃ L, ∀ κ, Tendsto (fun x : BodyMesh Ω mat (isComposite s₀.materials) =>
      (scWarpingIntegrals (centred x.1.1 x.1.2.1) (warpIn x.1.1.materials x.1.2.1) x.1.2.2.omega).iOmega)
      (fineFilter Ω mat (isComposite s₀.materials) κ) (𝓝 L) := by
  obtain ⟨L, hL⟩ := body_norm_limit (solved_nice h₀ h₀) (connected_centred hcon) (ea_centred h₀) torsionLoad_cont
    (balanced_zero fun _ => rfl)
  choose q hq hq0 using fun x : BodyMesh Ω mat (isComposite s₀.materials) => omega_sol x.2.1
  refine ⟨L ^ 2, fun κ => ?_⟩
  have t1 : Tendsto (fun x => √(wInt (centred x.1.1 x.1.2.1) fun t p => q x t p ^ 2)) (fineFilter Ω mat (isComposite s₀.materials) κ)
      (𝓝 L) := by
    refine fine_tendsto.2 fun ε hε => ?_
    obtain ⟨δ, hδ, h⟩ := hL κ ε hε
    exact ⟨δ, hδ, fun x hx => h _ _ (solved_nice h₀ x.2.1) _ _ (hq x) (hq0 x) (fineMesh_shift hx _ _)⟩
  have t2 : Tendsto (fun x => (scWarpingIntegrals (centred x.1.1 x.1.2.1) (warpIn x.1.1.materials x.1.2.1) x.1.2.2.omega).iOmega
      - wInt (centred x.1.1 x.1.2.1) (fun t p => q x t p ^ 2)) (fineFilter Ω mat (isComposite s₀.materials) κ) (𝓝 0) := by
    refine fine_tendsto.2 fun ε hε => ?_
    obtain ⟨δ, hδ, h⟩ := iOmega_error h₀ hcon hε
    refine ⟨δ, hδ, fun x hx => ?_⟩
    rw [sub_zero]
    exact h _ _ _ x.2.1 κ hx _ _ (hq x)
  have t3 := (t1.pow 2).add t2
  rw [add_zero] at t3
  refine t3.congr fun x => ?_
  rw [Real.sq_sqrt (wInt_nonneg (solved_nice h₀ x.2.1).modulus fun _ _ _ => sq_nonneg _)]
  ring

theorem gamma_form (h : SolvedMesh Ω mat s r w) : w.gamma =
    (scWarpingIntegrals (centred s r) (warpIn s.materials r) w.omega).iOmega
      - w.sc.ySe * (scWarpingIntegrals (centred s r) (warpIn s.materials r) w.omega).iXomega
      + w.sc.xSe * (scWarpingIntegrals (centred s r) (warpIn s.materials r) w.omega).iYomega := by
  obtain ⟨sv, ty, hw⟩ := h.warp
  obtain ⟨-, -, -, -, -, -, hg, -⟩ := warping_ok hw
  obtain ⟨q, hq, hq0⟩ := omega_sol h
  have hS := centroidalSetup h.good h.physical h.geom
  have hQ := (scInts_form hS.physical.proper (warpIn s.materials r) hq.field).1
  rw [hg, warpingConstant, hQ]
  change _ - wInt (centred s r) q ^ 2 / _ - _ + _ = _
  rw [hq0]
  simp only [centred]
  ring

/-- **C94** The warping constant of a connected body: there is one number that all meshes with small elements of bounded aspect come close
to, although the quadrature of the second warping moment is not exact on any of them. -/
theorem C94_warping_constant (h₀ : SolvedMesh Ω mat s₀ r₀ w₀) (hcon : IsPreconnected (interior (region s₀.elements))) :
    ∃ l, MeshLimit Ω mat (isComposite s₀.materials) (fun _ _ w => w.gamma) l := by
  obtain ⟨a, b, _d, _e, key⟩ := moment_limits h₀ hcon
  obtain ⟨I, hI⟩ := iOmega_limit h₀ hcon
  obtain ⟨l0, k0⟩ := C94_shear_centre h₀ hcon 0
  obtain ⟨l1, k1⟩ := C94_shear_centre h₀ hcon 1
  rw [meshLimit_iff] at k0 k1
  refine ⟨I - l1 * a + l0 * b, meshLimit_iff.2 fun κ => ?_⟩
  refine Tendsto.congr (fun x => (gamma_form x.2.1).symm) ?_
  exact ((hI κ).sub ((k1 κ).mul (key κ).1)).add ((k0 κ).mul (key κ).2.1)

/-- **C94** The warping constant of fine meshes is not negative but for a small error, if the Poisson's ratio of the analysis is zero. -/
theorem C94_warping_sign (h₀ : SolvedMesh Ω mat s₀ r₀ w₀) (hcon : IsPreconnected (interior (region s₀.elements))) {ε : ℝ} (hε : 0 < ε) :
    ∃ δ > 0, ∀ (s : Section) (r : GeomResults) (w : WarpResults s.numNodes), SolvedMesh Ω mat s r w →
      (isComposite s.materials → r.nuEff = 0) → ∀ κ, FineMesh s.elements δ κ → -ε ≤ w.gamma := by
  obtain ⟨δ, hδ, key⟩ := iOmega_error h₀ hcon hε
  refine ⟨δ, hδ, fun s r w h hnu κ hf => ?_⟩
  obtain ⟨q, hq, hq0⟩ := omega_sol h
  have herr := key s r w h κ hf (warpIn s.materials r) q hq
  obtain ⟨sv, ty, hw⟩ := h.warp
  obtain ⟨-, -, -, -, -, hsc, -⟩ := warping_ok hw
  obtain ⟨x1, x2⟩ := C21_shear_centres s r h.good h.physical h.geom sv ty w hw hnu h.omega h.psi h.phi
  have hS := centroidalSetup h.good h.physical h.geom
  obtain ⟨-, i1, i2⟩ := scInts_form hS.physical.proper (warpIn s.materials r) hq.field
  rw [gamma_form h]
  have hx : w.sc.xSe = (r.cent.ixyC * wInt (centred s r) (fun t p => p.1 * q t p) - r.cent.iyyC * wInt (centred s r) (fun t p => p.2 * q t p))
      / (r.cent.ixxC * r.cent.iyyC - r.cent.ixyC ^ 2) := by
    rw [x1, hsc]
    simp only [shearCentres, i1, i2]
    rfl
  have hy : w.sc.ySe = (r.cent.ixxC * wInt (centred s r) (fun t p => p.1 * q t p) - r.cent.ixyC * wInt (centred s r) (fun t p => p.2 * q t p))
      / (r.cent.ixxC * r.cent.iyyC - r.cent.ixyC ^ 2) := by
    rw [x2, hsc]
    simp only [shearCentres, i1, i2]
    rfl
  have i1' : (scWarpingIntegrals (centred s r) (warpIn s.materials r) w.omega).iXomega = wInt (centred s r) (fun t p => p.1 * q t p) := i1
  have i2' : (scWarpingIntegrals (centred s r) (warpIn s.materials r) w.omega).iYomega = wInt (centred s r) (fun t p => p.2 * q t p) := i2
  rw [i1', i2']
  obtain ⟨a, ha⟩ : ∃ a, w.sc.ySe = a := ⟨_, rfl⟩
  obtain ⟨b, hb⟩ : ∃ b, w.sc.xSe = -b := ⟨-w.sc.xSe, (neg_neg _).symm⟩
  rw [ha] at hy ⊢
  rw [hb] at hx ⊢
  -- the exact constant is the mean square of the warping function less its plane part
  have cq : ∀ t ∈ centred s r, Continuous (q t) := fun t ht => PolyLE.continuous (hq.field t ht).1
  have e : wInt (centred s r) (fun t p => (q t p - a * p.1 - b * p.2) ^ 2)
      = 1 * wInt (centred s r) (fun t p => q t p ^ 2) + 1 * ((-2 * a) * wInt (centred s r) (fun t p => p.1 * q t p)
        + 1 * ((-2 * b) * wInt (centred s r) (fun t p => p.2 * q t p) + 1 * (a ^ 2 * wInt (centred s r) (fun _ p => p.1 ^ 2)
          + 1 * (2 * a * b * wInt (centred s r) (fun _ p => p.1 * p.2) + b ^ 2 * wInt (centred s r) (fun _ p => p.2 ^ 2))))) := by
    rw [wInt_lcc _ _ (fun t _ => by fun_prop) (fun t _ => by fun_prop), wInt_lcc _ _ (fun t _ => by fun_prop) (fun t _ => by fun_prop),
      wInt_lcc _ _ (fun t ht => by have := cq t ht; fun_prop) (fun t _ => by fun_prop),
      wInt_lcc _ _ (fun t ht => by have := cq t ht; fun_prop) (fun t ht => by have := cq t ht; fun_prop),
      wInt_lcc _ _ (fun t ht => by have := cq t ht; fun_prop) (fun t ht => by have := cq t ht; fun_prop)]
    exact wInt_congr fun t _ p => by ring
  have n0 : 0 ≤ wInt (centred s r) (fun t p => (q t p - a * p.1 - b * p.2) ^ 2) :=
    wInt_nonneg hS.physical.modulus fun _ _ _ => sq_nonneg _
  have hX : wInt (centred s r) (fun _ p => p.2 ^ 2) = r.cent.ixxC := hS.ixx
  have hY : wInt (centred s r) (fun _ p => p.1 ^ 2) = r.cent.iyyC := hS.iyy
  have hZ : wInt (centred s r) (fun _ p => p.1 * p.2) = r.cent.ixyC := hS.ixy
  have hD := hS.det
  rw [e, hX, hY, hZ] at n0
  generalize wInt (centred s r) (fun t p => p.1 * q t p) = I1 at *
  generalize wInt (centred s r) (fun t p => p.2 * q t p) = I2 at *
  rw [abs_le] at herr
  have n1 : a * r.cent.iyyC + b * r.cent.ixyC = I1 := by
    rw [neg_eq_iff_eq_neg] at hx
    rw [hx, hy]
    field_simp
    ring
  have n2 : a * r.cent.ixyC + b * r.cent.ixxC = I2 := by
    rw [neg_eq_iff_eq_neg] at hx
    rw [hx, hy]
    field_simp
    ring
  have : a ^ 2 * r.cent.iyyC + (2 * a * b * r.cent.ixyC + b ^ 2 * r.cent.ixxC) = a * I1 + b * I2 := by
    linear_combination a * n1 + b * n2
  linarith [herr.1]

/-! ### The shear areas, for any Poisson's ratio -/

/-- The part of the shear stress that does not come from the shear functions, in the direction `(c, d)`. -/
noncomputable def shearField (w : WarpIn) (c d : ℝ) (p : ℝ × ℝ) : ℝ × ℝ :=
  (w.nu / 2 * (c * (shearParameter p.1 p.2 w.ixx w.iyy w.ixy).d1 + d * (shearParameter p.1 p.2 w.ixx w.iyy w.ixy).h1),
    w.nu / 2 * (c * (shearParameter p.1 p.2 w.ixx w.iyy w.ixy).d2 + d * (shearParameter p.1 p.2 w.ixx w.iyy w.ixy).h2))

/-- The load of the shear function in the direction `(c, d)`. -/
noncomputable def dirLoad (w : WarpIn) (c d : ℝ) (p : ℝ × ℝ) : ℝ × ℝ × ℝ :=
  (2 * (1 + w.nu) * (c * (w.ixx * p.1 - w.ixy * p.2) + d * (w.iyy * p.2 - w.ixy * p.1)), (shearField w c d p).1, (shearField w c d p).2)

/-- The shear coefficient in the direction `(c, d)`. -/
noncomputable def kappaIn {n : ℕ} (els : List (Tri6 n)) (W : WarpIn) (psi phiS : Fin n → ℝ) (c d : ℝ) : ℝ :=
  c ^ 2 * (shearDeformation els W psi phiS).x + 2 * (c * d) * (shearDeformation els W psi phiS).xy
    + d ^ 2 * (shearDeformation els W psi phiS).y

theorem shearField_cont (w : WarpIn) (c d : ℝ) : Continuous (shearField w c d) := by
  unfold shearField; simp only [shearParameter]; fun_prop

theorem shearField_mem (w : WarpIn) (c d : ℝ) :
    (fun p => (shearField w c d p).1) ∈ PolyLE 2 ∧ (fun p => (shearField w c d p).2) ∈ PolyLE 2 := by
  have hxx := poly_mul2 PolyLE.fst PolyLE.fst
  have hyy := poly_mul2 PolyLE.snd PolyLE.snd
  have hxy := poly_mul2 PolyLE.fst PolyLE.snd
  have key : ∀ a b e : ℝ, (fun p : ℝ × ℝ => a * (p.1 * p.1) + b * (p.2 * p.2) + e * (p.1 * p.2)) ∈ PolyLE 2 := fun a b e =>
    Submodule.add_mem _ (Submodule.add_mem _ (Submodule.smul_mem _ a hxx) (Submodule.smul_mem _ b hyy)) (Submodule.smul_mem _ e hxy)
  constructor
  · convert key (w.nu / 2 * (c * w.ixx - d * w.ixy)) (-(w.nu / 2 * (c * w.ixx - d * w.ixy))) (w.nu * (d * w.iyy - c * w.ixy)) using 1
    funext p
    simp only [shearField, shearParameter]
    ring
  · convert key (w.nu / 2 * (c * w.ixy - d * w.iyy)) (-(w.nu / 2 * (c * w.ixy - d * w.iyy))) (w.nu * (c * w.ixx - d * w.ixy)) using 1
    funext p
    simp only [shearField, shearParameter]
    ring

theorem dirLoad_cont (w : WarpIn) (c d : ℝ) : Continuous (dirLoad w c d) := by
  have h1 : Continuous fun p => (shearField w c d p).1 := continuous_fst.comp (shearField_cont w c d)
  have h2 : Continuous fun p => (shearField w c d p).2 := continuous_snd.comp (shearField_cont w c d)
  exact Continuous.prodMk (by fun_prop) (h1.prodMk h2)

theorem field_cont {n : ℕ} {els : List (Tri6 n)} {x : Fin n → ℝ} {q : Tri6 n → ℝ × ℝ → ℝ} (hq : FEField els x q) {t : Tri6 n} (ht : t ∈ els) :
    Continuous (q t) ∧ Continuous (dX (q t)) ∧ Continuous (dY (q t)) :=
  ⟨PolyLE.continuous (hq t ht).1, PolyLE.continuous (dX_mem (hq t ht).1), PolyLE.continuous (dY_mem (hq t ht).1)⟩

theorem d_comb {f g : ℝ × ℝ → ℝ} (hf : f ∈ PolyLE 2) (hg : g ∈ PolyLE 2) (a b : ℝ) (p : ℝ × ℝ) :
    dX (fun p => a * f p + b * g p) p = a * dX f p + b * dX g p ∧ dY (fun p => a * f p + b * g p) p = a * dY f p + b * dY g p := by
  have m1 : (fun p => a * f p) ∈ PolyLE 2 := Submodule.smul_mem _ a hf
  have a1 := dX_add_smul m1 hg b p
  have a2 := dY_add_smul m1 hg b p
  have b1 := dX_add_smul (PolyLE.const 2 0) hf a p
  have b2 := dY_add_smul (PolyLE.const 2 0) hf a p
  simp only [zero_add, dX_const, dY_const] at b1 b2
  exact ⟨by rw [a1, b1], by rw [a2, b2]⟩

theorem dir_sol (c d : ℝ) {q f : Tri6 s.numNodes → ℝ × ℝ → ℝ}
    (hq : WeakSol (psiLoad (warpIn s.materials r)) (centred s r) w.psi q)
    (hf : WeakSol (phiLoad (warpIn s.materials r)) (centred s r) w.phiS f) :
    WeakSol (dirLoad (warpIn s.materials r) c d) (centred s r) (fun i => c * w.psi i + d * w.phiS i) (fun t p => c * q t p + d * f t p) := by
  refine ⟨feField_add (feField_smul c hq.field) (feField_smul d hf.field), fun y v hv => ?_⟩
  have h1 := hq.weak y v hv
  have h2 := hf.weak y v hv
  have e1 : dirichlet (centred s r) v (fun t p => c * q t p + d * f t p)
      = c * dirichlet (centred s r) v q + d * dirichlet (centred s r) v f := by
    simp only [dirichlet]
    rw [wInt_lcc]
    · refine wInt_congr fun t ht p => ?_
      obtain ⟨a1, a2⟩ := d_comb (hq.field t ht).1 (hf.field t ht).1 c d p
      rw [a1, a2]
      ring
    · intro t ht
      obtain ⟨-, v1, v2⟩ := field_cont hv ht
      obtain ⟨-, q1, q2⟩ := field_cont hq.field ht
      fun_prop
    · intro t ht
      obtain ⟨-, v1, v2⟩ := field_cont hv ht
      obtain ⟨-, q1, q2⟩ := field_cont hf.field ht
      fun_prop
  rw [e1, h1, h2]
  simp only [loadOn]
  rw [wInt_lcc _ _ (along_cont (loadAt_cont (psiLoad_cont _)) fun t ht => (hv t ht).1)
    (along_cont (loadAt_cont (phiLoad_cont _)) fun t ht => (hv t ht).1)]
  refine wInt_congr fun t ht p => ?_
  simp only [alongField, loadAt, dirLoad, psiLoad, phiLoad, shearField]
  ring

theorem sum_split {α : Type*} (l : List α) (f a b e : α → ℝ) (H : ∀ x ∈ l, f x = a x + (b x - e x)) :
    (l.map f).sum = (l.map a).sum + ((l.map b).sum - (l.map e).sum) := by
  induction l with
  | nil => simp
  | cons x l ih =>
    simp only [List.map_cons, List.sum_cons]
    rw [H x (by simp), ih fun y hy => H y (by simp [hy])]
    ring

theorem sum_three {α : Type*} (l : List α) (a b e : ℝ) (f g h : α → ℝ) :
    a * (l.map f).sum + b * (l.map g).sum + e * (l.map h).sum = (l.map fun x => a * f x + b * g x + e * h x).sum := by
  induction l with
  | nil => simp
  | cons x l ih =>
    simp only [List.map_cons, List.sum_cons]
    rw [← ih]
    ring

/-- The exact shear energy in the direction `(c, d)`. -/
noncomputable def shearEnergy {n : ℕ} (els : List (Tri6 n)) (W : WarpIn) (q f : Tri6 n → ℝ × ℝ → ℝ) (c d : ℝ) : ℝ :=
  wInt els fun t p => (c * dX (q t) p + d * dX (f t) p - (shearField W c d p).1) ^ 2
    + (c * dY (q t) p + d * dY (f t) p - (shearField W c d p).2) ^ 2

theorem kappa_split {n : ℕ} {els : List (Tri6 n)} (hp : ∀ t ∈ els, Proper t.coords) (W : WarpIn) {psi phiS : Fin n → ℝ}
    {q f : Tri6 n → ℝ × ℝ → ℝ} (hq : FEField els psi q) (hf : FEField els phiS f) (c d : ℝ) :
    kappaIn els W psi phiS c d = shearEnergy els W q f c d
      + (ruleSum els (fun _ p => (shearField W c d p).1 ^ 2 + (shearField W c d p).2 ^ 2)
        - wInt els (fun _ p => (shearField W c d p).1 ^ 2 + (shearField W c d p).2 ^ 2)) := by
  simp only [kappaIn, shearDeformation, accum_eq_sum els, sum_three]
  refine sum_split els _ _ _ _ fun t ht => ?_
  obtain ⟨m1, m2⟩ := shearField_mem W c d
  have sc := shearField_cont W c d
  obtain ⟨-, q1, q2⟩ := field_cont hq ht
  obtain ⟨-, f1, f2⟩ := field_cont hf ht
  set e1 := fun p => (shearField W c d p).1
  set e2 := fun p => (shearField W c d p).2
  have ce1 : Continuous e1 := continuous_fst.comp sc
  have ce2 : Continuous e2 := continuous_snd.comp sc
  have g1 : (fun p => c * dX (q t) p + d * dX (f t) p) ∈ PolyLE 1 :=
    Submodule.add_mem _ (Submodule.smul_mem _ c (dX_mem (hq t ht).1)) (Submodule.smul_mem _ d (dX_mem (hf t ht).1))
  have g2 : (fun p => c * dY (q t) p + d * dY (f t) p) ∈ PolyLE 1 :=
    Submodule.add_mem _ (Submodule.smul_mem _ c (dY_mem (hq t ht).1)) (Submodule.smul_mem _ d (dY_mem (hf t ht).1))
  set G1 := fun p => c * dX (q t) p + d * dX (f t) p
  set G2 := fun p => c * dY (q t) p + d * dY (f t) p
  have cG1 : Continuous G1 := PolyLE.continuous g1
  have cG2 : Continuous G2 := PolyLE.continuous g2
  have k1 : c ^ 2 * (t.shearCoefficients W.ixx W.iyy W.ixy (t.local psi) (t.local phiS) W.nu).x
      + 2 * (c * d) * (t.shearCoefficients W.ixx W.iyy W.ixy (t.local psi) (t.local phiS) W.nu).xy
      + d ^ 2 * (t.shearCoefficients W.ixx W.iyy W.ixy (t.local psi) (t.local phiS) W.nu).y
      = t.material.elasticModulus * ruleOn t.coords fun p => (G1 p - e1 p) ^ 2 + (G2 p - e2 p) ^ 2 := by
    rw [← rule_elem (hp t ht) (h := fun gp =>
      (G1 (posX t.coords gp, posY t.coords gp) - e1 (posX t.coords gp, posY t.coords gp)) ^ 2
        + (G2 (posX t.coords gp, posY t.coords gp) - e2 (posX t.coords gp, posY t.coords gp)) ^ 2) fun _ _ => rfl]
    simp only [Tri6.shearCoefficients, accum_eq_sum gauss4, sum_three]
    refine congrArg List.sum (List.map_congr_left fun gp hgp => ?_)
    have hb := gauss4_bary gp hgp
    have a1 : dot6 (shapeFunction t.coords gp).bx (t.local psi) = _ := interp_dX (hp t ht) hb (hq t ht)
    have a2 : dot6 (shapeFunction t.coords gp).by' (t.local psi) = _ := interp_dY (hp t ht) hb (hq t ht)
    have a3 : dot6 (shapeFunction t.coords gp).bx (t.local phiS) = _ := interp_dX (hp t ht) hb (hf t ht)
    have a4 : dot6 (shapeFunction t.coords gp).by' (t.local phiS) = _ := interp_dY (hp t ht) hb (hf t ht)
    rw [a1, a2, a3, a4, sf_nx (hp t ht).1 hb, sf_ny (hp t ht).1 hb]
    simp only [G1, G2, e1, e2, shearField]
    ring
  rw [k1, ← mul_sub, ← mul_add]
  refine congrArg _ ?_
  -- the part of degree three is integrated exactly
  have hpoly : (fun p => G1 p * G1 p + G2 p * G2 p - 2 * (G1 p * e1 p + G2 p * e2 p)) ∈ PolyLE 3 :=
    Submodule.sub_mem _ (PolyLE.mono (show 2 ≤ 3 by omega) (Submodule.add_mem _ (poly_mul2 g1 g1) (poly_mul2 g2 g2)))
      (Submodule.smul_mem _ 2 (Submodule.add_mem _ (poly_mul3 g1 m1) (poly_mul3 g2 m2)))
  have r1 : ruleOn t.coords (fun p => (G1 p - e1 p) ^ 2 + (G2 p - e2 p) ^ 2)
      = (∫ p in elemRegion t.coords, (G1 p * G1 p + G2 p * G2 p - 2 * (G1 p * e1 p + G2 p * e2 p)))
        + ruleOn t.coords fun p => e1 p ^ 2 + e2 p ^ 2 := by
    rw [← accum_gauss4_integral (hp t ht) hpoly, ruleOn, ruleOn, accum_gauss4, accum_gauss4, accum_gauss4]
    ring
  have r2 : ∫ p in elemRegion t.coords, ((G1 p - e1 p) ^ 2 + (G2 p - e2 p) ^ 2)
      = (∫ p in elemRegion t.coords, (G1 p * G1 p + G2 p * G2 p - 2 * (G1 p * e1 p + G2 p * e2 p)))
        + ∫ p in elemRegion t.coords, (e1 p ^ 2 + e2 p ^ 2) := by
    rw [← integral_add (elem_int (by fun_prop) _) (elem_int (by fun_prop) _)]
    exact integral_congr_ae (Filter.Eventually.of_forall fun p => by ring)
  rw [r1]
  change _ = (∫ p in elemRegion t.coords, ((G1 p - e1 p) ^ 2 + (G2 p - e2 p) ^ 2)) + _
  rw [r2]
  ring

/-- The load with the gradient part reversed. -/
noncomputable def dirLoad' (w : WarpIn) (c d : ℝ) (p : ℝ × ℝ) : ℝ × ℝ × ℝ :=
  ((dirLoad w c d p).1, -(shearField w c d p).1, -(shearField w c d p).2)

theorem dirLoad'_cont (w : WarpIn) (c d : ℝ) : Continuous (dirLoad' w c d) := by
  have h1 : Continuous fun p => (shearField w c d p).1 := continuous_fst.comp (shearField_cont w c d)
  have h2 : Continuous fun p => (shearField w c d p).2 := continuous_snd.comp (shearField_cont w c d)
  have h3 : Continuous fun p => (dirLoad w c d p).1 := continuous_fst.comp (dirLoad_cont w c d)
  exact h3.prodMk (h1.neg.prodMk h2.neg)

theorem energy_form {n : ℕ} {els : List (Tri6 n)} {W : WarpIn} {x psi phiS : Fin n → ℝ} {q f : Tri6 n → ℝ × ℝ → ℝ} {c d : ℝ}
    (hq : FEField els psi q) (hf : FEField els phiS f) (h : WeakSol (dirLoad W c d) els x fun t p => c * q t p + d * f t p) :
    shearEnergy els W q f c d = loadOn (dirLoad' W c d) els (fun t p => c * q t p + d * f t p)
      + wInt els (fun _ p => (shearField W c d p).1 ^ 2 + (shearField W c d p).2 ^ 2) := by
  have h1 : Continuous fun p => (shearField W c d p).1 := continuous_fst.comp (shearField_cont W c d)
  have h2 : Continuous fun p => (shearField W c d p).2 := continuous_snd.comp (shearField_cont W c d)
  set θ : Tri6 n → ℝ × ℝ → ℝ := fun t p => c * q t p + d * f t p with hθ
  let A : Tri6 n → ℝ × ℝ → ℝ := fun t p => dX (θ t) p * dX (θ t) p + dY (θ t) p * dY (θ t) p
  let B : Tri6 n → ℝ × ℝ → ℝ := fun t p => dX (θ t) p * (shearField W c d p).1 + dY (θ t) p * (shearField W c d p).2
  have cA : ∀ t ∈ els, Continuous (A t) := fun t ht => by
    obtain ⟨-, v1, v2⟩ := field_cont h.field ht
    exact (v1.mul v1).add (v2.mul v2)
  have cB : ∀ t ∈ els, Continuous (B t) := fun t ht => by
    obtain ⟨-, v1, v2⟩ := field_cont h.field ht
    exact (v1.mul h1).add (v2.mul h2)
  have e1 : wInt els A = loadOn (dirLoad W c d) els θ := h.weak _ _ h.field
  have e2 : loadOn (dirLoad' W c d) els θ = 1 * loadOn (dirLoad W c d) els θ + (-2) * wInt els B := by
    rw [loadOn, loadOn, wInt_lcc _ _ (along_cont (loadAt_cont (dirLoad_cont _ _ _)) fun t ht => (h.field t ht).1) cB]
    refine wInt_congr fun t ht p => ?_
    simp only [alongField, loadAt, dirLoad', dirLoad, B]
    ring
  have e3 : shearEnergy els W q f c d = 1 * wInt els (fun t p => 1 * A t p + (-2) * B t p)
      + 1 * wInt els (fun _ p => (shearField W c d p).1 ^ 2 + (shearField W c d p).2 ^ 2) := by
    rw [wInt_lcc (f := fun t p => 1 * A t p + (-2) * B t p)
      (g := fun _ p => (shearField W c d p).1 ^ 2 + (shearField W c d p).2 ^ 2) _ _ (fun t ht => (continuous_const.mul (cA t ht)).add (continuous_const.mul (cB t ht)))
      (fun t _ => (h1.pow 2).add (h2.pow 2))]
    refine wInt_congr fun t ht p => ?_
    obtain ⟨a1, a2⟩ := d_comb (hq t ht).1 (hf t ht).1 c d p
    simp only [A, B, hθ, a1, a2]
    ring
  rw [e3, ← wInt_lcc _ _ cA cB, e1, e2]
  ring

/-- Cauchy's inequality with the linear test field. -/
theorem energy_lower (h : SolvedMesh Ω mat s r w) {x : Fin s.numNodes → ℝ} {W : WarpIn} {q f : Tri6 s.numNodes → ℝ × ℝ → ℝ} {c d : ℝ}
    (hq : FEField (centred s r) w.psi q) (hf : FEField (centred s r) w.phiS f)
    (hs : WeakSol (dirLoad W c d) (centred s r) x fun t p => c * q t p + d * f t p) :
    (2 * (1 + W.nu) * wInt (centred s r) fun _ p => ((c * W.ixx - d * W.ixy) * p.1 + (d * W.iyy - c * W.ixy) * p.2) ^ 2) ^ 2
      ≤ (wInt (centred s r) fun _ _ => 1) * ((c * W.ixx - d * W.ixy) ^ 2 + (d * W.iyy - c * W.ixy) ^ 2)
        * shearEnergy (centred s r) W q f c d := by
  have hS := centroidalSetup h.good h.physical h.geom
  have h1 : Continuous fun p => (shearField W c d p).1 := continuous_fst.comp (shearField_cont W c d)
  have h2 : Continuous fun p => (shearField W c d p).2 := continuous_snd.comp (shearField_cont W c d)
  set a := c * W.ixx - d * W.ixy with ha
  set b := d * W.iyy - c * W.ixy with hb
  have hlin := feField_add (feField_smul a hS.linX) (feField_smul b hS.linY)
  have hw := hs.weak _ _ hlin
  let F : Tri6 s.numNodes → ℝ × ℝ → ℝ := fun t p => a * (c * dX (q t) p + d * dX (f t) p - (shearField W c d p).1)
    + b * (c * dY (q t) p + d * dY (f t) p - (shearField W c d p).2)
  have cF : ∀ t ∈ centred s r, Continuous (F t) := fun t ht => by
    obtain ⟨-, q1, q2⟩ := field_cont hq ht
    obtain ⟨-, f1, f2⟩ := field_cont hf ht
    fun_prop
  let B : Tri6 s.numNodes → ℝ × ℝ → ℝ := fun t p => a * (shearField W c d p).1 + b * (shearField W c d p).2
  have cB : ∀ t ∈ centred s r, Continuous (B t) := fun t ht => by fun_prop
  have dlin : ∀ p, dX (fun p : ℝ × ℝ => a * p.1 + b * p.2) p = a ∧ dY (fun p : ℝ × ℝ => a * p.1 + b * p.2) p = b := by
    intro p
    constructor <;> simp [dX, dY]
  have e1 : dirichlet (centred s r) (fun _ p => a * p.1 + b * p.2) (fun t p => c * q t p + d * f t p)
      = 1 * wInt (centred s r) F + 1 * wInt (centred s r) B := by
    rw [wInt_lcc _ _ cF cB]
    refine wInt_congr fun t ht p => ?_
    obtain ⟨a1, a2⟩ := d_comb (hq t ht).1 (hf t ht).1 c d p
    obtain ⟨b1, b2⟩ := dlin p
    simp only [F, B, a1, a2, b1, b2]
    ring
  have e2 : loadOn (dirLoad W c d) (centred s r) (fun _ p => a * p.1 + b * p.2)
      = (2 * (1 + W.nu)) * wInt (centred s r) (fun _ p => (a * p.1 + b * p.2) ^ 2) + 1 * wInt (centred s r) B := by
    rw [wInt_lcc _ _ (fun t _ => by fun_prop) cB]
    refine wInt_congr fun t ht p => ?_
    obtain ⟨b1, b2⟩ := dlin p
    have b3 : (dirLoad W c d p).1 = 2 * (1 + W.nu) * (a * p.1 + b * p.2) := by rw [ha, hb]; simp only [dirLoad]; ring
    have b4 : (dirLoad W c d p).2 = shearField W c d p := rfl
    simp only [alongField, loadAt, b3, b4, B, b1, b2]
    ring
  have e3 : wInt (centred s r) F = 2 * (1 + W.nu) * wInt (centred s r) fun _ p => (a * p.1 + b * p.2) ^ 2 := by
    have hw' : dirichlet (centred s r) (fun _ p => a * p.1 + b * p.2) (fun t p => c * q t p + d * f t p)
      = loadOn (dirLoad W c d) (centred s r) (fun _ p => a * p.1 + b * p.2) := hw
    rw [e1, e2] at hw'
    linarith
  have hE : ∀ t ∈ centred s r, 0 < t.material.elasticModulus := hS.physical.modulus
  have cs := wInt_cs hE cF (g := fun _ _ => 1) fun _ _ => continuous_const
  simp only [mul_one, one_pow] at cs
  rw [← e3]
  refine cs.trans ?_
  have n1 : 0 ≤ wInt (centred s r) (fun _ _ => (1 : ℝ)) := wInt_nonneg hE fun _ _ _ => zero_le_one
  have mono : wInt (centred s r) (fun t p => F t p ^ 2) ≤ (a ^ 2 + b ^ 2) * shearEnergy (centred s r) W q f c d := by
    rw [shearEnergy, ← wInt_smul]
    refine wInt_monoc hE (fun t ht => (cF t ht).pow 2) (fun t ht => ?_) fun t ht p _ => ?_
    · obtain ⟨-, q1, q2⟩ := field_cont hq ht
      obtain ⟨-, f1, f2⟩ := field_cont hf ht
      fun_prop
    · simp only [F]
      nlinarith [sq_nonneg (a * (c * dY (q t) p + d * dY (f t) p - (shearField W c d p).2)
        - b * (c * dX (q t) p + d * dX (f t) p - (shearField W c d p).1))]
  calc _ ≤ (a ^ 2 + b ^ 2) * shearEnergy (centred s r) W q f c d * wInt (centred s r) (fun _ _ => (1 : ℝ)) :=
        mul_le_mul_of_nonneg_right mono n1
    _ = _ := by ring

/-- The test field does not vanish. -/
theorem test_pos (h : SolvedMesh Ω mat s r w) {c d : ℝ} (hcd : c ≠ 0 ∨ d ≠ 0) : 0 < wInt (centred s r) fun _ p =>
    ((c * (warpIn s.materials r).ixx - d * (warpIn s.materials r).ixy) * p.1
      + (d * (warpIn s.materials r).iyy - c * (warpIn s.materials r).ixy) * p.2) ^ 2 := by
  have hS := centroidalSetup h.good h.physical h.geom
  simp only [warpIn]
  set X := r.cent.ixxC
  set Y := r.cent.iyyC
  set Z := r.cent.ixyC
  set a := c * X - d * Z with ha
  set b := d * Y - c * Z with hb
  have e : wInt (centred s r) (fun _ p => (a * p.1 + b * p.2) ^ 2) = a ^ 2 * Y + (2 * a * b * Z + b ^ 2 * X) := by
    have e1 : wInt (centred s r) (fun _ p => (a * p.1 + b * p.2) ^ 2)
        = a ^ 2 * wInt (centred s r) (fun _ p => p.1 ^ 2)
          + 1 * (2 * a * b * wInt (centred s r) (fun _ p => p.1 * p.2) + b ^ 2 * wInt (centred s r) (fun _ p => p.2 ^ 2)) := by
      rw [wInt_lcc _ _ (fun t _ => by fun_prop) (fun t _ => by fun_prop), wInt_lcc _ _ (fun t _ => by fun_prop) (fun t _ => by fun_prop)]
      exact wInt_congr fun t _ p => by ring
    rw [e1, centred, hS.ixx, hS.iyy, hS.ixy, one_mul]
  have hD : 0 < X * Y - Z ^ 2 := hS.det
  have hE : ∀ t ∈ s.elements.map fun t => t.shiftBy r.cx r.cy, 0 < t.material.elasticModulus := hS.physical.modulus
  have hX : 0 ≤ X := (wInt_nonneg hE fun _ _ _ => sq_nonneg _).trans_eq hS.ixx
  have hY : 0 ≤ Y := (wInt_nonneg hE fun _ _ _ => sq_nonneg _).trans_eq hS.iyy
  rw [e]
  have k1 : Y * (a ^ 2 * Y + (2 * a * b * Z + b ^ 2 * X)) = (c * (X * Y - Z ^ 2)) ^ 2 + b ^ 2 * (X * Y - Z ^ 2) := by rw [ha, hb]; ring
  have k2 : X * (a ^ 2 * Y + (2 * a * b * Z + b ^ 2 * X)) = (d * (X * Y - Z ^ 2)) ^ 2 + a ^ 2 * (X * Y - Z ^ 2) := by rw [ha, hb]; ring
  have k3 : 0 < (c ^ 2 + d ^ 2) * (X * Y - Z ^ 2) ^ 2 := by
    rcases hcd with hc | hc <;> positivity
  have k4 : 0 < (X + Y) * (a ^ 2 * Y + (2 * a * b * Z + b ^ 2 * X)) := by
    have m1 := mul_nonneg (sq_nonneg a) hD.le
    have m2 := mul_nonneg (sq_nonneg b) hD.le
    have : (X + Y) * (a ^ 2 * Y + (2 * a * b * Z + b ^ 2 * X)) = (c ^ 2 + d ^ 2) * (X * Y - Z ^ 2) ^ 2 + a ^ 2 * (X * Y - Z ^ 2)
        + b ^ 2 * (X * Y - Z ^ 2) := by linear_combination k1 + k2
    rw [this]
    linarith
  exact (pos_iff_pos_of_mul_pos k4).1 (lt_of_le_of_ne (by positivity) (fun h0 => by rw [← h0, zero_mul] at k4; exact lt_irrefl _ k4))

/-- The limit of the shear coefficient in a direction. -/
theorem kappa_limit (h₀ : SolvedMesh Ω mat s₀ r₀ w₀) (hcon : IsPreconnected (interior (region s₀.elements)))
    (hnu : isComposite s₀.materials → r₀.nuEff ≠ -1) {c d : ℝ} (hcd : c ≠ 0 ∨ d ≠ 0) : ∃ L, 0 < L ∧ ∀ κ, Tendsto
      (fun x : BodyMesh Ω mat (isComposite s₀.materials) => kappaIn (centred x.1.1 x.1.2.1) (warpIn x.1.1.materials x.1.2.1)
        x.1.2.2.psi x.1.2.2.phiS c d) (fineFilter Ω mat (isComposite s₀.materials) κ) (𝓝 L) := by
  set W := warpIn s₀.materials r₀ with hW
  have hW1 : 1 + W.nu ≠ 0 := by
    have : W.nu ≠ -1 := by
      rw [hW]
      simp only [warpIn]
      split_ifs with hc
      · exact hnu hc
      · norm_num
    intro h; exact this (by linarith)
  have h1 : Continuous fun p => (shearField W c d p).1 := continuous_fst.comp (shearField_cont W c d)
  have h2 : Continuous fun p => (shearField W c d p).2 := continuous_snd.comp (shearField_cont W c d)
  set g : ℝ × ℝ → ℝ := fun p => (shearField W c d p).1 ^ 2 + (shearField W c d p).2 ^ 2
  have hg : Continuous g := (h1.pow 2).add (h2.pow 2)
  choose q hq using fun x : BodyMesh Ω mat (isComposite s₀.materials) => psi_sol x.2.1
  choose f hf using fun x : BodyMesh Ω mat (isComposite s₀.materials) => phi_sol x.2.1
  have hs := fun x => dir_sol c d (hq x) (hf x)
  have eW : ∀ x : BodyMesh Ω mat (isComposite s₀.materials), warpIn x.1.1.materials x.1.2.1 = W := fun x => solved_warpIn h₀ x.2.1 x.2.2
  obtain ⟨L, hL⟩ := functional_limit (c := isComposite s₀.materials) h₀ hcon (dirLoad_cont W c d)
    (balanced_linear h₀ (2 * (1 + W.nu) * (c * W.ixx - d * W.ixy)) (2 * (1 + W.nu) * (d * W.iyy - c * W.ixy)) fun p => by
      simp only [dirLoad]; ring) (dirLoad'_cont W c d)
    (balanced_linear h₀ (2 * (1 + W.nu) * (c * W.ixx - d * W.ixy)) (2 * (1 + W.nu) * (d * W.iyy - c * W.ixy)) fun p => by
      simp only [dirLoad', dirLoad]; ring)
    (fun x => loadOn (dirLoad' W c d) (centred x.1.1 x.1.2.1) fun t p => c * q x t p + d * f x t p)
    (fun x => ⟨_, _, eW x ▸ hs x, rfl⟩)
  set G := wInt (centred s₀ r₀) fun _ p => g p
  have tE : ∀ κ, Tendsto (fun x : BodyMesh Ω mat (isComposite s₀.materials) => shearEnergy (centred x.1.1 x.1.2.1) W (q x) (f x) c d)
      (fineFilter Ω mat (isComposite s₀.materials) κ) (𝓝 (L + G)) := fun κ => by
    refine ((hL κ).add_const G).congr fun x => ?_
    rw [energy_form (hq x).field (hf x).field (eW x ▸ hs x)]
    exact congrArg _ (wInt_const h₀ x.2.1 hg).symm
  have tR : ∀ κ, Tendsto (fun x : BodyMesh Ω mat (isComposite s₀.materials) =>
      ruleSum (centred x.1.1 x.1.2.1) (fun _ => g) - wInt (centred x.1.1 x.1.2.1) (fun _ p => g p))
      (fineFilter Ω mat (isComposite s₀.materials) κ) (𝓝 0) := fun κ => fine_tendsto.2 fun ε hε => by
    obtain ⟨δ, hδ, h⟩ := ruleSum_cont (solved_nice h₀ h₀) hg κ hε
    refine ⟨δ, hδ, fun x hx => ?_⟩
    rw [sub_zero]
    exact h _ _ (solved_nice h₀ x.2.1) (fineMesh_shift hx _ _)
  have tK : ∀ κ, Tendsto (fun x : BodyMesh Ω mat (isComposite s₀.materials) => kappaIn (centred x.1.1 x.1.2.1)
      (warpIn x.1.1.materials x.1.2.1) x.1.2.2.psi x.1.2.2.phiS c d) (fineFilter Ω mat (isComposite s₀.materials) κ) (𝓝 (L + G)) :=
    fun κ => by
      have := (tE κ).add (tR κ)
      rw [add_zero] at this
      refine this.congr fun x => ?_
      rw [eW x]
      exact (kappa_split (solved_nice h₀ x.2.1).proper W (hq x).field (hf x).field c d).symm
  by_cases hpos : 0 < L + G
  · exact ⟨_, hpos, tK⟩
  · refine ⟨1, one_pos, fun κ => ?_⟩
    rcases (fineFilter Ω mat (isComposite s₀.materials) κ).eq_or_neBot with hbot | hne
    · rw [hbot]; exact tendsto_bot
    · exfalso
      set m := 2 * (1 + W.nu) * wInt (centred s₀ r₀) fun _ p => ((c * W.ixx - d * W.ixy) * p.1 + (d * W.iyy - c * W.ixy) * p.2) ^ 2
      set M := (wInt (centred s₀ r₀) fun _ _ => (1 : ℝ)) * ((c * W.ixx - d * W.ixy) ^ 2 + (d * W.iyy - c * W.ixy) ^ 2)
      have hm : m ≠ 0 := mul_ne_zero (mul_ne_zero two_ne_zero hW1) (test_pos h₀ hcd).ne'
      have hM : 0 ≤ M := mul_nonneg (ea_centred h₀).le (by positivity)
      have hlow : m ^ 2 ≤ M * (L + G) := by
        refine ge_of_tendsto' ((tE κ).const_mul M) fun x => ?_
        have := energy_lower x.2.1 (hq x).field (hf x).field (eW x ▸ hs x)
        rwa [wInt_const h₀ x.2.1 (by fun_prop), wInt_const h₀ x.2.1 (g := fun _ => 1) continuous_const] at this
      have : M * (L + G) ≤ 0 := mul_nonpos_of_nonneg_of_nonpos hM (not_lt.1 hpos)
      have := pow_pos (abs_pos.2 hm) 2
      rw [sq_abs] at this
      linarith

theorem areas_kappa (h : SolvedMesh Ω mat s r w) (i : Fin 4) : fourAreas w i = (warpIn s.materials r).deltaS ^ 2 /
    kappaIn (centred s r) (warpIn s.materials r) w.psi w.phiS (fourDirs (warpIn s.materials r).phi i).1
      (fourDirs (warpIn s.materials r).phi i).2 := by
  obtain ⟨sv, ty, hw⟩ := h.warp
  obtain ⟨-, -, -, -, -, -, -, ha, -⟩ := warping_ok hw
  have hS := centroidalSetup h.good h.physical h.geom
  have hA0 : (warpIn s.materials r).area ≠ 0 := by
    change r.sums.area ≠ 0
    exact (hS.area ▸ hS.physical.area_pos).ne'
  have hrot : ∀ K : ℝ, (warpIn s.materials r).area / ((warpIn s.materials r).area / (warpIn s.materials r).deltaS ^ 2 * K) =
      (warpIn s.materials r).deltaS ^ 2 / K := by
    intro K
    rcases eq_or_ne K 0 with rfl | hK
    · simp
    · rcases eq_or_ne (warpIn s.materials r).deltaS 0 with h0 | h0
      · simp [h0]
      · field_simp
  have e3 := (congrArg ShearAreas.s11 ha).trans ((shearAreas_rot _ _).1.trans (hrot _))
  have e4 := (congrArg ShearAreas.s22 ha).trans ((shearAreas_rot _ _).2.trans (hrot _))
  fin_cases i
  · simp [fourAreas, fourDirs, ha, shearAreas, kappaIn, centred]
  · simp [fourAreas, fourDirs, ha, shearAreas, kappaIn, centred]
  · exact e3
  · exact e4

theorem deltaS_ne (h₀ : SolvedMesh Ω mat s₀ r₀ w₀) (hnu : isComposite s₀.materials → r₀.nuEff ≠ -1) :
    (warpIn s₀.materials r₀).deltaS ≠ 0 := by
  have hS := centroidalSetup h₀.good h₀.physical h₀.geom
  have : (warpIn s₀.materials r₀).nu ≠ -1 := by
    simp only [warpIn]
    split_ifs with hc
    · exact hnu hc
    · norm_num
  exact mul_ne_zero (mul_ne_zero two_ne_zero fun h => this (by linarith)) hS.det.ne'

/-- **C94** Each of the shear areas along the given and the principal axes of a connected body, for any Poisson's ratio but `-1`: there is
one positive number that all meshes with small elements of bounded aspect come close to. -/
theorem C94_shear_areas (h₀ : SolvedMesh Ω mat s₀ r₀ w₀) (hcon : IsPreconnected (interior (region s₀.elements)))
    (hnu : isComposite s₀.materials → r₀.nuEff ≠ -1) (i : Fin 4) :
    ∃ l, 0 < l ∧ MeshLimit Ω mat (isComposite s₀.materials) (fun _ _ w => fourAreas w i) l := by
  have hd : (fourDirs (warpIn s₀.materials r₀).phi i).1 ≠ 0 ∨ (fourDirs (warpIn s₀.materials r₀).phi i).2 ≠ 0 := by
    have key : ∀ φ : ℝ, Real.cos φ ≠ 0 ∨ Real.sin φ ≠ 0 := fun φ => by
      by_contra h
      push Not at h
      have := Real.sin_sq_add_cos_sq φ
      rw [h.1, h.2] at this
      norm_num at this
    fin_cases i
    · exact Or.inl one_ne_zero
    · exact Or.inr one_ne_zero
    · exact key _
    · rcases key ((warpIn s₀.materials r₀).phi * Real.pi / 180) with h | h
      · exact Or.inr h
      · exact Or.inl (neg_ne_zero.2 h)
  obtain ⟨L, hL, key⟩ := kappa_limit h₀ hcon hnu hd
  have hds := deltaS_ne h₀ hnu
  refine ⟨(warpIn s₀.materials r₀).deltaS ^ 2 / L, by positivity, meshLimit_iff.2 fun κ => ?_⟩
  refine Tendsto.congr (fun x => ?_) (tendsto_const_nhds.div (key κ) hL.ne')
  rw [areas_kappa x.2.1 i, Pi.div_apply, solved_warpIn h₀ x.2.1 x.2.2]

/-- **C94** The reciprocal of the mixed shear area, which is zero for symmetric sections, converges too. -/
theorem C94_shear_mixed (h₀ : SolvedMesh Ω mat s₀ r₀ w₀) (hcon : IsPreconnected (interior (region s₀.elements)))
    (hnu : isComposite s₀.materials → r₀.nuEff ≠ -1) :
    ∃ l, MeshLimit Ω mat (isComposite s₀.materials) (fun _ _ w => 1 / w.areas.sxy) l := by
  obtain ⟨L1, -, k1⟩ := kappa_limit h₀ hcon hnu (c := 1) (d := 1) (Or.inl one_ne_zero)
  obtain ⟨L2, -, k2⟩ := kappa_limit h₀ hcon hnu (c := 1) (d := 0) (Or.inl one_ne_zero)
  obtain ⟨L3, -, k3⟩ := kappa_limit h₀ hcon hnu (c := 0) (d := 1) (Or.inr one_ne_zero)
  refine ⟨(L1 - L2 - L3) / 2 / (warpIn s₀.materials r₀).deltaS ^ 2, meshLimit_iff.2 fun κ => ?_⟩
  refine Tendsto.congr (fun x => ?_) (((((k1 κ).sub (k2 κ)).sub (k3 κ)).div_const 2).div_const _)
  obtain ⟨sv, ty, hw⟩ := x.2.1.warp
  obtain ⟨-, -, -, -, -, -, -, ha, -⟩ := warping_ok hw
  rw [ha, ← solved_warpIn h₀ x.2.1 x.2.2]
  simp only [kappaIn, shearAreas, one_div_div, centred]
  ring

end

end SP
