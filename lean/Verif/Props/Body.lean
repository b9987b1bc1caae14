import Verif.Lemmas.Body
import Verif.Props.Converge
import Verif.Props.TorsionRound

/-!
# C93: the results of ever finer meshes of a body have a limit that does not depend on the meshes
-/

namespace SP

open Spec MeasureTheory Set

variable {n : ℕ} {els : List (Tri6 n)} {Ω : Set (ℝ × ℝ)} {mat : ℝ × ℝ → Material}

/-- The section `s` has a valid, conforming mesh of the body, and `r` and `w` are results of its geometric and warping analyses,
with a linear solver that solves the systems of the warping analysis exactly. -/
structure SolvedMesh (Ω : Set (ℝ × ℝ)) (mat : ℝ × ℝ → Material) (s : Section) (r : GeomResults) (w : WarpResults s.numNodes) : Prop where
  good : GoodSection s
  physical : Physical s.elements
  conforming : ConformingMesh s.meshNodes s.elements
  mesh : MeshOf Ω mat s.elements
  geom : s.geometricAnalysis = .ok r
  warp : ∃ sv ty, s.warping sv ty r = .ok w
  omega : SolvesBordered (assembleTorsion (s.elements.map fun t => t.shiftBy r.cx r.cy)).1
    (assembleTorsion (s.elements.map fun t => t.shiftBy r.cx r.cy)).2 w.omega
  psi : SolvesBordered (assembleTorsion (s.elements.map fun t => t.shiftBy r.cx r.cy)).1
    (assembleShearLoad (s.elements.map fun t => t.shiftBy r.cx r.cy) (warpIn s.materials r)).1 w.psi
  phi : SolvesBordered (assembleTorsion (s.elements.map fun t => t.shiftBy r.cx r.cy)).1
    (assembleShearLoad (s.elements.map fun t => t.shiftBy r.cx r.cy) (warpIn s.materials r)).2 w.phiS

/-! ### The same body -/

theorem meshOf_shift (h : MeshOf Ω mat els) (cx cy : ℝ) :
    MeshOf ((fun p => p + (cx, cy)) ⁻¹' Ω) (fun p => mat (p + (cx, cy))) (els.map fun t => t.shiftBy cx cy) := by
  have hq := (measurePreserving_add_right (volume : Measure (ℝ × ℝ)) (cx, cy)).quasiMeasurePreserving
  refine ⟨noOverlap_shift h.once cx cy, ?_, ?_⟩
  · change region (shifted els cx cy) =ᵐ[volume] _
    rw [region_shift]
    exact hq.preimage_ae_eq h.covers
  · intro t ht
    obtain ⟨t, ht', rfl⟩ := List.mem_map.1 ht
    filter_upwards [hq.ae (h.material t ht')] with p hp hpm
    exact hp (mem_region_shift.1 hpm)

theorem meshOf_geom {s s' : Section} {r r' : GeomResults} (hg : GoodSection s) (hg' : GoodSection s')
    (hM : MeshOf Ω mat s.elements) (hM' : MeshOf Ω mat s'.elements)
    (hr : s.geometricAnalysis = .ok r) (hr' : s'.geometricAnalysis = .ok r') :
    r.sums = r'.sums ∧ r.nuEff = r'.nuEff ∧ r.cx = r'.cx ∧ r.cy = r'.cy ∧ r.cent.ixxC = r'.cent.ixxC ∧
    r.cent.iyyC = r'.cent.iyyC ∧ r.cent.ixyC = r'.cent.ixyC ∧ r.cent.phi = r'.cent.phi := by
  have fld : ∀ {n : ℕ} {els : List (Tri6 n)}, MeshOf Ω mat els → ∀ prop : Material → ℝ, IsField els prop fun p => prop (mat p) :=
    fun h prop t ht => (h.material t ht).mono fun p hp hpm => congrArg prop (hp hpm)
  obtain ⟨h1, h2, -, -, h5, h6, h7, h8, h9, -, -, h12, -⟩ := C02_mesh_independent hr hr' hg.proper hg'.proper hM.once hM'.once
    (hM.covers.trans hM'.covers.symm) (fld hM _) (fld hM _) (fld hM _) (fld hM' _) (fld hM' _) (fld hM' _)
  exact ⟨h1, h2, h5, h6, h7, h8, h9, h12⟩

theorem shifted_pos {s : Section} (hg : GoodSection s) (cx cy : ℝ) : ∀ t ∈ s.elements.map fun t => t.shiftBy cx cy, ∀ k,
    (t.coords.x k, t.coords.y k) = ((s.meshNodes (t.nodeIds k)).1 - cx, (s.meshNodes (t.nodeIds k)).2 - cy) := by
  intro t ht k
  obtain ⟨t, ht', rfl⟩ := List.mem_map.1 ht
  simp [Tri6.shiftBy, Coords.shift, hg.coords t ht', gather]

/-! ### Torsion -/

/-- Every fine mesh of a body has a torsion constant hardly above that of any given mesh. -/
theorem torsion_near {s : Section} {r : GeomResults} {w : WarpResults s.numNodes} (h : SolvedMesh Ω mat s r w) (κ : ℝ) {ε : ℝ}
    (hε : 0 < ε) : ∃ δ > 0, ∀ (s' : Section) (r' : GeomResults) (w' : WarpResults s'.numNodes), SolvedMesh Ω mat s' r' w' →
      FineMesh s'.elements δ κ → w'.j ≤ w.j + ε := by
  obtain ⟨sv, ty, hw⟩ := h.warp
  obtain ⟨j1, -⟩ := C19_torsion_constant s r h.good h.physical h.geom sv ty w hw h.omega
  have hS := centroidalSetup h.good h.physical h.geom
  obtain ⟨q, hq⟩ := exists_feField hS.physical.proper w.omega
  obtain ⟨δ, hδ, key⟩ := sample_close (els := s.elements.map fun t => t.shiftBy r.cx r.cy) (conforming_shift h.conforming r.cx r.cy) (shifted_pos h.good r.cx r.cy)
    (meshOf_shift h.mesh r.cx r.cy) hq (Φ := fun z => (z.2.2.1 - z.1.2) ^ 2 + (z.2.2.2 + z.1.1) ^ 2) (by fun_prop) κ hε
  refine ⟨δ, hδ, fun s' r' w' h' hf => ?_⟩
  obtain ⟨sv', ty', hw'⟩ := h'.warp
  obtain ⟨-, j2, -⟩ := C19_torsion_constant s' r' h'.good h'.physical h'.geom sv' ty' w' hw' h'.omega
  obtain ⟨-, -, ex, ey, -⟩ := meshOf_geom h.good h'.good h.mesh h'.mesh h.geom h'.geom
  rw [← ex, ← ey] at j2
  obtain ⟨x, v, hv, hvq⟩ := key _ _ (fun i => ((s'.meshNodes i).1 - r.cx, (s'.meshNodes i).2 - r.cy)) (shifted_pos h'.good r.cx r.cy) (shifted_proper h'.good.proper r.cx r.cy)
    (meshOf_shift h'.mesh r.cx r.cy) (fineMesh_shift hf r.cx r.cy)
  have e1 := j1 q hq
  have e2 := j2 x v hv
  have e3 := (abs_le.1 hvq).2
  change twistEnergy _ v - twistEnergy _ q ≤ ε at e3
  linarith

/-- What is nearly minimal on fine meshes has a limit. -/
theorem limit_of_near {α : Type*} (f : α → ℝ) (fine : ℝ → ℝ → α → Prop) {b : ℝ} (hb : ∀ a, b ≤ f a)
    (near : ∀ a κ ε, 0 < ε → ∃ δ > 0, ∀ a', fine δ κ a' → f a' ≤ f a + ε) (a0 : α) :
    ∃ l, b ≤ l ∧ ∀ κ ε, 0 < ε → ∃ δ > 0, ∀ a, l ≤ f a ∧ (fine δ κ a → f a ≤ l + ε) := by
  have hbd : BddBelow (range f) := ⟨b, by rintro _ ⟨a, rfl⟩; exact hb a⟩
  have : Nonempty α := ⟨a0⟩
  refine ⟨⨅ a, f a, le_ciInf hb, fun κ ε hε => ?_⟩
  obtain ⟨a, ha⟩ := exists_lt_of_ciInf_lt (show ⨅ a, f a < (⨅ a, f a) + ε / 2 by linarith)
  obtain ⟨δ, hδ, h⟩ := near a κ (ε / 2) (by linarith)
  exact ⟨δ, hδ, fun a' => ⟨ciInf_le hbd a', fun hf => by linarith [h a' hf]⟩⟩

/-- Any two meshes of a body: the moduli in the one are moduli in the other. -/
theorem modulus_bound {m : ℕ} {els' : List (Tri6 m)} (hM : MeshOf Ω mat els) (hM' : MeshOf Ω mat els') (hp' : ∀ t ∈ els', Proper t.coords)
    {e : ℝ} (he : ∀ t ∈ els, e ≤ t.material.elasticModulus) : ∀ t ∈ els', e ≤ t.material.elasticModulus := by
  intro t' ht'
  have hreg : region els =ᵐ[volume] region els' := hM.covers.trans hM'.covers.symm
  have ae : ∀ᵐ p, ∀ t ∈ els, p ∈ elemRegion t.coords → mat p = t.material :=
    (ae_ball_iff (List.finite_toSet els).countable).2 hM.material
  have h1 : ∀ᵐ p, p ∈ elemRegion t'.coords → e ≤ t'.material.elasticModulus := by
    filter_upwards [ae, hM'.material t' ht', hreg.mem_iff] with p a1 a2 a3 hp
    obtain ⟨t, ht, hpt⟩ := a3.2 ⟨t', ht', hp⟩
    rw [← a2 hp, a1 t ht hpt]
    exact he t ht
  by_contra hcon
  have h2 : ∀ᵐ p, p ∉ elemRegion t'.coords := h1.mono fun p hp hpm => hcon (hp hpm)
  rw [ae_iff] at h2
  simp only [not_not] at h2
  exact volume_elem (hp' t' ht') h2

/-- **C93** The torsion constants of a body: there is one number, positive, that no mesh comes below, and that all meshes with small
elements of bounded aspect come close to. -/
theorem C93_torsion {s₀ : Section} {r₀ : GeomResults} {w₀ : WarpResults s₀.numNodes} (h₀ : SolvedMesh Ω mat s₀ r₀ w₀) :
    ∃ J > 0, ∀ κ ε, 0 < ε → ∃ δ > 0, ∀ (s : Section) (r : GeomResults) (w : WarpResults s.numNodes), SolvedMesh Ω mat s r w →
      J ≤ w.j ∧ (FineMesh s.elements δ κ → w.j ≤ J + ε) := by
  -- a disc in the body
  obtain ⟨t, ht⟩ := List.exists_mem_of_ne_nil _ h₀.physical.nonempty
  obtain ⟨p, hp⟩ := elem_interior_nonempty (h₀.physical.proper t ht)
  obtain ⟨a, ha, hball⟩ := Metric.isOpen_iff.1 isOpen_interior p hp
  obtain ⟨e, he, hmin⟩ : ∃ e > 0, ∀ t ∈ s₀.elements, e ≤ t.material.elasticModulus := by
    have : ∀ l : List (Tri6 s₀.numNodes), (∀ t ∈ l, 0 < t.material.elasticModulus) → ∃ e > 0, ∀ t ∈ l, e ≤ t.material.elasticModulus := by
      intro l
      induction l with
      | nil => exact fun _ => ⟨1, one_pos, by simp⟩
      | cons t l ih =>
        intro h
        obtain ⟨e, he, h1⟩ := ih fun u hu => h u (List.mem_cons_of_mem _ hu)
        refine ⟨min e t.material.elasticModulus, lt_min he (h t List.mem_cons_self), fun u hu => ?_⟩
        rcases List.mem_cons.1 hu with rfl | hu
        · exact min_le_right _ _
        · exact (min_le_left _ _).trans (h1 u hu)
    exact this _ h₀.physical.modulus
  have hdisc : ∀ z : ℝ × ℝ, ((z.1 - p.1) / a) ^ 2 + ((z.2 - p.2) / a) ^ 2 < 1 → z ∈ region s₀.elements := by
    intro z hz
    have ha0 := ha.le
    have b1 : |(z.1 - p.1) / a| < 1 := by rw [← sq_lt_one_iff_abs_lt_one]; nlinarith [sq_nonneg ((z.2 - p.2) / a)]
    have b2 : |(z.2 - p.2) / a| < 1 := by rw [← sq_lt_one_iff_abs_lt_one]; nlinarith [sq_nonneg ((z.1 - p.1) / a)]
    rw [abs_div, abs_of_pos ha, div_lt_one ha] at b1 b2
    refine ⟨t, ht, interior_subset (hball ?_)⟩
    rw [Metric.mem_ball, Prod.dist_eq, Real.dist_eq, Real.dist_eq]
    exact max_lt b1 b2
  have lower : ∀ (s : Section) (r : GeomResults) (w : WarpResults s.numNodes), SolvedMesh Ω mat s r w →
      e * (Real.pi * a ^ 3 * a ^ 3 / (a ^ 2 + a ^ 2)) ≤ w.j := by
    intro s r w h
    obtain ⟨sv, ty, hw⟩ := h.warp
    have hsub := region_subset h₀.good.proper (h₀.mesh.covers.trans h.mesh.covers.symm).le
    exact C90_contains_ellipse s r h.good h.physical h.conforming h.mesh.once h.geom sv ty w hw h.omega ha ha
      (fun z hz => hsub (hdisc z hz)) he fun t ht _ => modulus_bound h₀.mesh h.mesh h.good.proper hmin t ht
  let α := {x : Σ s : Section, GeomResults × WarpResults s.numNodes // SolvedMesh Ω mat x.1 x.2.1 x.2.2}
  obtain ⟨J, hJ, key⟩ := limit_of_near (α := α) (fun x => x.1.2.2.j) (fun δ κ x => FineMesh x.1.1.elements δ κ)
    (fun x => lower _ _ _ x.2) (fun x κ ε hε => by
      obtain ⟨δ, hδ, h⟩ := torsion_near x.2 κ hε
      exact ⟨δ, hδ, fun x' hf => h _ _ _ x'.2 hf⟩) ⟨⟨s₀, r₀, w₀⟩, h₀⟩
  refine ⟨J, lt_of_lt_of_le (by have := Real.pi_pos; positivity) hJ, fun κ ε hε => ?_⟩
  obtain ⟨δ, hδ, h⟩ := key κ ε hε
  exact ⟨δ, hδ, fun s r w hs => h ⟨⟨s, r, w⟩, hs⟩⟩

/-! ### Shear -/

/-- The shear coefficient in the direction `(c, d)` on a fine mesh is hardly below that on any given mesh. -/
theorem kappa_near {s : Section} {r : GeomResults} {w : WarpResults s.numNodes} (h : SolvedMesh Ω mat s r w)
    (hnu : isComposite s.materials → r.nuEff = 0) (c d κ : ℝ) {ε : ℝ} (hε : 0 < ε) :
    ∃ δ > 0, ∀ (s' : Section) (r' : GeomResults) (w' : WarpResults s'.numNodes), SolvedMesh Ω mat s' r' w' →
      (isComposite s'.materials → r'.nuEff = 0) → FineMesh s'.elements δ κ →
      let k := shearDeformation (s.elements.map fun t => t.shiftBy r.cx r.cy) (warpIn s.materials r) w.psi w.phiS
      let k' := shearDeformation (s'.elements.map fun t => t.shiftBy r'.cx r'.cy) (warpIn s'.materials r') w'.psi w'.phiS
      c ^ 2 * k.x + 2 * (c * d) * k.xy + d ^ 2 * k.y - ε ≤ c ^ 2 * k'.x + 2 * (c * d) * k'.xy + d ^ 2 * k'.y := by
  have hS := centroidalSetup h.good h.physical h.geom
  obtain ⟨q, hq⟩ := exists_feField hS.physical.proper fun i => c * w.psi i + d * w.phiS i
  obtain ⟨e1, e2⟩ := shear_form s r h.good h.physical h.geom hnu w.psi w.phiS c d h.psi h.phi q hq
  set D := (warpIn s.materials r).deltaS with hD
  set g := strainRate 0 0 r.cent.ixxC r.cent.iyyC r.cent.ixyC c d with hg
  have hgc : Continuous g := by
    rw [hg]
    unfold strainRate
    fun_prop
  -- the integrand of twice the work minus the energy
  have split : ∀ {n : ℕ} {els : List (Tri6 n)} {x : Fin n → ℝ} {v : Tri6 n → ℝ × ℝ → ℝ}, FEField els x v →
      wInt els (alongField (fun z => 2 * D * (z.2.1 * g z.1) - (z.2.2.1 ^ 2 + z.2.2.2 ^ 2)) v) =
        2 * (D * wInt els fun t p => v t p * g p) - dirichlet els v v := by
    intro n els x v hv
    have hz : (2 * (D * wInt els fun t p => v t p * g p) - dirichlet els v v) =
        2 * D * (wInt els fun t p => v t p * g p) + -1 * dirichlet els v v := by ring
    rw [hz]
    simp only [dirichlet, wInt, ← List.sum_map_mul_left, ← List.sum_map_add]
    refine congrArg List.sum (List.map_congr_left fun t ht => ?_)
    have c1 := PolyLE.continuous (hv t ht).1
    have c2 := PolyLE.continuous (dX_mem (hv t ht).1)
    have c3 := PolyLE.continuous (dY_mem (hv t ht).1)
    have k1 : Continuous fun p => v t p * g p := by fun_prop
    have k2 : Continuous fun p => dX (v t) p * dX (v t) p + dY (v t) p * dY (v t) p := by fun_prop
    have e := elem_int3 k1 k2 continuous_const (k := fun _ => 0) (2 * D) (-1) t.coords
    simp only [integral_zero, add_zero] at e
    have e' : ∫ p in elemRegion t.coords, alongField (fun z => 2 * D * (z.2.1 * g z.1) - (z.2.2.1 ^ 2 + z.2.2.2 ^ 2)) v t p =
        ∫ p in elemRegion t.coords, 2 * D * (v t p * g p) + -1 * (dX (v t) p * dX (v t) p + dY (v t) p * dY (v t) p) := by
      congr 1
      funext p
      simp only [alongField]
      ring
    rw [e', e]
    ring
  obtain ⟨δ, hδ, key⟩ := sample_close (els := s.elements.map fun t => t.shiftBy r.cx r.cy) (conforming_shift h.conforming r.cx r.cy) (shifted_pos h.good r.cx r.cy)
    (meshOf_shift h.mesh r.cx r.cy) hq (Φ := fun z => 2 * D * (z.2.1 * g z.1) - (z.2.2.1 ^ 2 + z.2.2.2 ^ 2)) (by fun_prop) κ hε
  refine ⟨δ, hδ, fun s' r' w' h' hnu' hf => ?_⟩
  intro k k'
  obtain ⟨-, -, ex, ey, e3, e4, e5, -⟩ := meshOf_geom h.good h'.good h.mesh h'.mesh h.geom h'.geom
  obtain ⟨x, v, hv, hvq⟩ := key _ _ (fun i => ((s'.meshNodes i).1 - r.cx, (s'.meshNodes i).2 - r.cy)) (shifted_pos h'.good r.cx r.cy) (shifted_proper h'.good.proper r.cx r.cy)
    (meshOf_shift h'.mesh r.cx r.cy) (fineMesh_shift hf r.cx r.cy)
  rw [split hv, split hq] at hvq
  have hS' := centroidalSetup h'.good h'.physical h'.geom
  obtain ⟨q', hq'⟩ := exists_feField hS'.physical.proper fun i => c * w'.psi i + d * w'.phiS i
  obtain ⟨f1, f2⟩ := shear_form s' r' h'.good h'.physical h'.geom hnu' w'.psi w'.phiS c d h'.psi h'.phi q' hq'
  have hnu0 : ∀ (s : Section) (r : GeomResults), (isComposite s.materials → r.nuEff = 0) → (warpIn s.materials r).nu = 0 := by
    intro s r hnu
    simp only [warpIn]
    split_ifs with hc
    · exact hnu hc
    · rfl
  have hD' : (warpIn s'.materials r').deltaS = D := by
    rw [hD, WarpIn.deltaS, WarpIn.deltaS, hnu0 s r hnu, hnu0 s' r' hnu']
    simp only [warpIn, e3, e4, e5]
  rw [hD', ← e3, ← e4, ← e5] at f2
  change c ^ 2 * k.x + 2 * (c * d) * k.xy + d ^ 2 * k.y = _ at e1
  change c ^ 2 * k'.x + 2 * (c * d) * k'.xy + d ^ 2 * k'.y = _ at f1
  rw [e1, f1]
  rw [ex, ey] at hv hvq
  have g1 := e2 _ _ hq
  have g2 := f2 _ _ hv
  have g3 := dirichlet_sub hS'.physical.proper hv hq'
  have g4 : 0 ≤ dirichlet (s'.elements.map fun t => t.shiftBy r'.cx r'.cy) (fun t x => q' t x + -1 * v t x) (fun t x => q' t x + -1 * v t x) :=
    wInt_nonneg hS'.physical.modulus fun t _ p => add_nonneg (mul_self_nonneg _) (mul_self_nonneg _)
  have g5 := (abs_le.1 hvq).1
  rw [← ex, ← ey] at g5 g2 g3 g4 ⊢
  linarith

/-- The four shear areas of a warping analysis: along the given axes and along the principal axes. -/
noncomputable def fourAreas {n : ℕ} (w : WarpResults n) : Fin 4 → ℝ := ![w.areas.sx, w.areas.sy, w.areas.s11, w.areas.s22]

/-- Their directions, for the principal angle `φ` in degrees. -/
noncomputable def fourDirs (φ : ℝ) : Fin 4 → ℝ × ℝ :=
  ![(1, 0), (0, 1), (Real.cos (φ * Real.pi / 180), Real.sin (φ * Real.pi / 180)),
    (-Real.sin (φ * Real.pi / 180), Real.cos (φ * Real.pi / 180))]

theorem area_kappa {s : Section} {r : GeomResults} {w : WarpResults s.numNodes} (h : SolvedMesh Ω mat s r w)
    (hnu : isComposite s.materials → r.nuEff = 0) (i : Fin 4) :
    let k := shearDeformation (s.elements.map fun t => t.shiftBy r.cx r.cy) (warpIn s.materials r) w.psi w.phiS
    let c := (fourDirs r.cent.phi i).1
    let d := (fourDirs r.cent.phi i).2
    0 < fourAreas w i ∧ fourAreas w i = (2 * (r.cent.ixxC * r.cent.iyyC - r.cent.ixyC ^ 2)) ^ 2 /
      (c ^ 2 * k.x + 2 * (c * d) * k.xy + d ^ 2 * k.y) := by
  intro k
  obtain ⟨sv, ty, hw⟩ := h.warp
  obtain ⟨p1, p2, p3, p4, -⟩ := C22_bounds_partial s r h.good h.physical h.geom sv ty w hw hnu h.psi h.phi
  obtain ⟨-, -, -, -, -, -, -, ha, -⟩ := warping_ok hw
  have hS := centroidalSetup h.good h.physical h.geom
  have hA0 : (warpIn s.materials r).area ≠ 0 := by
    change r.sums.area ≠ 0
    exact (hS.area ▸ hS.physical.area_pos).ne'
  have hD : (warpIn s.materials r).deltaS = 2 * (r.cent.ixxC * r.cent.iyyC - r.cent.ixyC ^ 2) := by
    have hnu0 : (warpIn s.materials r).nu = 0 := by
      simp only [warpIn]
      split_ifs with hc
      · exact hnu hc
      · rfl
    rw [WarpIn.deltaS, hnu0]
    simp only [warpIn]
    ring
  have hD0 : 2 * (r.cent.ixxC * r.cent.iyyC - r.cent.ixyC ^ 2) ≠ 0 := mul_ne_zero two_ne_zero hS.det.ne'
  rw [← hD] at hD0
  have hrot : ∀ K : ℝ, (warpIn s.materials r).area / ((warpIn s.materials r).area / (warpIn s.materials r).deltaS ^ 2 * K) =
      (warpIn s.materials r).deltaS ^ 2 / K := by
    intro K
    rcases eq_or_ne K 0 with rfl | hK
    · simp
    · field_simp
  rw [← hD]
  have e3 := (congrArg ShearAreas.s11 ha).trans ((shearAreas_rot _ _).1.trans (hrot _))
  have e4 := (congrArg ShearAreas.s22 ha).trans ((shearAreas_rot _ _).2.trans (hrot _))
  fin_cases i
  · refine ⟨p1.1, ?_⟩
    simp [fourAreas, fourDirs, ha, shearAreas, k]
  · refine ⟨p2.1, ?_⟩
    simp [fourAreas, fourDirs, ha, shearAreas, k]
  · exact ⟨p3.1, e3⟩
  · exact ⟨p4.1, e4⟩

/-- **C93** Each of the shear areas of a body: there is one number that no mesh comes below, and that all meshes with small elements of
bounded aspect come close to, if the Poisson's ratio of the analysis is zero, which it is for every section without materials. -/
theorem C93_shear {s₀ : Section} {r₀ : GeomResults} {w₀ : WarpResults s₀.numNodes} (h₀ : SolvedMesh Ω mat s₀ r₀ w₀)
    (hnu₀ : isComposite s₀.materials → r₀.nuEff = 0) (i : Fin 4) :
    ∃ l, 0 ≤ l ∧ ∀ κ ε, 0 < ε → ∃ δ > 0, ∀ (s : Section) (r : GeomResults) (w : WarpResults s.numNodes), SolvedMesh Ω mat s r w →
      (isComposite s.materials → r.nuEff = 0) → l ≤ fourAreas w i ∧ (FineMesh s.elements δ κ → fourAreas w i ≤ l + ε) := by
  let α := {x : Σ s : Section, GeomResults × WarpResults s.numNodes //
    SolvedMesh Ω mat x.1 x.2.1 x.2.2 ∧ (isComposite x.1.materials → x.2.1.nuEff = 0)}
  obtain ⟨l, hl, key⟩ := limit_of_near (α := α) (b := 0) (fun x => fourAreas x.1.2.2 i) (fun δ κ x => FineMesh x.1.1.elements δ κ)
    (fun x => (area_kappa x.2.1 x.2.2 i).1.le) (fun x κ ε hε => by
      obtain ⟨⟨s, r, w⟩, h, hnu⟩ := x
      obtain ⟨a1, a2⟩ := area_kappa h hnu i
      have hS := centroidalSetup h.good h.physical h.geom
      simp only at h hnu a1 a2 ⊢
      set N := (2 * (r.cent.ixxC * r.cent.iyyC - r.cent.ixyC ^ 2)) ^ 2 with hN
      set k := shearDeformation (s.elements.map fun t => t.shiftBy r.cx r.cy) (warpIn s.materials r) w.psi w.phiS
      set c := (fourDirs r.cent.phi i).1 with hc
      set d := (fourDirs r.cent.phi i).2 with hd
      set K := c ^ 2 * k.x + 2 * (c * d) * k.xy + d ^ 2 * k.y with hK
      set a := fourAreas w i
      have hN0 : 0 < N := by have := hS.det; positivity
      have hK0 : 0 < K := by
        by_contra hcon
        push Not at hcon
        have := div_nonpos_of_nonneg_of_nonpos hN0.le hcon
        rw [← a2] at this
        linarith
      obtain ⟨δ, hδ, h1⟩ := kappa_near h hnu c d κ (ε := K * ε / (a + ε)) (by positivity)
      refine ⟨δ, hδ, fun x' hf => ?_⟩
      obtain ⟨⟨s', r', w'⟩, h', hnu'⟩ := x'
      obtain ⟨b1, b2⟩ := area_kappa h' hnu' i
      obtain ⟨-, -, -, -, e3, e4, e5, e6⟩ := meshOf_geom h.good h'.good h.mesh h'.mesh h.geom h'.geom
      simp only at h' hnu' b1 b2 hf ⊢
      have h2 := h1 s' r' w' h' hnu' hf
      rw [← e3, ← e4, ← e5, ← e6, ← hN, ← hc, ← hd] at b2
      simp only at h2
      set k' := shearDeformation (s'.elements.map fun t => t.shiftBy r'.cx r'.cy) (warpIn s'.materials r') w'.psi w'.phiS
      have h3 : K - K * ε / (a + ε) = N / (a + ε) := by
        have h4 : N = a * K := by rw [a2]; field_simp
        rw [h4]
        have : a + ε ≠ 0 := by positivity
        field_simp
        ring
      have h2' : N / (a + ε) ≤ c ^ 2 * k'.x + 2 * (c * d) * k'.xy + d ^ 2 * k'.y := by rw [← h3]; exact h2
      have hpos : 0 < N / (a + ε) := by positivity
      rw [b2, div_le_iff₀ (hpos.trans_le h2')]
      rw [div_le_iff₀ (by positivity)] at h2'
      linarith) ⟨⟨s₀, r₀, w₀⟩, h₀, hnu₀⟩
  refine ⟨l, hl, fun κ ε hε => ?_⟩
  obtain ⟨δ, hδ, h⟩ := key κ ε hε
  exact ⟨δ, hδ, fun s r w hs hnu => h ⟨⟨s, r, w⟩, hs, hnu⟩⟩

end SP
