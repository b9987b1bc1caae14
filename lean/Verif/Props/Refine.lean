import Verif.Lemmas.Refine
import Verif.Props.Exact
import Verif.Props.Shear

/-!
# C79: refining the mesh
-/

namespace SP

open Spec MeasureTheory

variable {n m : ℕ} {els : List (Tri6 n)} {els' : List (Tri6 m)}

/-- The geometric results of a mesh and of its refinement are the same. -/
theorem refine_geom {s s' : Section} {r r' : GeomResults} (hg : GoodSection s) (hg' : GoodSection s')
    (hR : Refines s.elements s'.elements) (hr : s.geometricAnalysis = .ok r) (hr' : s'.geometricAnalysis = .ok r') :
    r.sums = r'.sums ∧ r.cx = r'.cx ∧ r.cy = r'.cy ∧ r.cent.ixxC = r'.cent.ixxC ∧ r.cent.iyyC = r'.cent.iyyC ∧
    r.cent.ixyC = r'.cent.ixyC ∧ r.cent.phi = r'.cent.phi := by
  have tr : ∀ {prop E}, IsField s.elements prop E → IsField s'.elements prop E := by
    intro prop E h t' ht'
    obtain ⟨t, ht, h1, h2⟩ := hR.inside t' ht'
    filter_upwards [h t ht] with p hp hpt
    rw [hp (h1 hpt), h2]
  obtain ⟨E, hE⟩ := exists_field hR.once Material.elasticModulus
  obtain ⟨G, hG⟩ := exists_field hR.once fun m => m.elasticModulus / (2 * (1 + m.poissonsRatio))
  obtain ⟨ρ, hρ⟩ := exists_field hR.once Material.density
  obtain ⟨h1, -, -, -, h5, h6, h7, h8, h9, -, -, h12, -⟩ := C02_mesh_independent hr hr' hg.proper hg'.proper hR.once
    hR.once' hR.same hE hG hρ (tr hE) (tr hG) (tr hρ)
  exact ⟨h1, h5, h6, h7, h8, h9, h12⟩

/-- Every field on the coarse mesh, seen as a field on the refinement, in coordinates relative to `(cx, cy)`. -/
theorem refine_field {s s' : Section} (hne : s.elements ≠ []) (hg : GoodSection s) (hg' : GoodSection s')
    (hc : ConformingMesh s.meshNodes s.elements)
    (hR : Refines s.elements s'.elements) (cx cy : ℝ) :
    ∃ par : Tri6 s'.numNodes → Tri6 s.numNodes, (∀ t ∈ shifted s'.elements cx cy, par t ∈ shifted s.elements cx cy) ∧
      (∀ f : Tri6 s.numNodes → ℝ × ℝ → ℝ, (∀ t ∈ shifted s.elements cx cy, Continuous (f t)) →
        wInt (shifted s.elements cx cy) f = wInt (shifted s'.elements cx cy) fun t => f (par t)) ∧
      ∀ u q, FEField (shifted s.elements cx cy) u q → ∃ v, FEField (shifted s'.elements cx cy) v fun t => q (par t) := by
  have hR' := refines_shift hR cx cy
  have hex : ∀ t' : Tri6 s'.numNodes, ∃ t : Tri6 s.numNodes, t' ∈ shifted s'.elements cx cy →
      t ∈ shifted s.elements cx cy ∧ elemRegion t'.coords ⊆ elemRegion t.coords ∧ t'.material = t.material := by
    intro t'
    by_cases h : t' ∈ shifted s'.elements cx cy
    · obtain ⟨t, h1, h2, h3⟩ := hR'.inside t' h
      exact ⟨t, fun _ => ⟨h1, h2, h3⟩⟩
    · exact ⟨s.elements.head hne, fun h' => absurd h' h⟩
  choose par hpar using hex
  refine ⟨par, fun t ht => (hpar t ht).1, fun f hf => wInt_refine hR' (shifted_proper hg.proper cx cy) hpar hf,
    fun u q hq => ?_⟩
  refine exists_sample (conforming_shift hc cx cy) ?_ (pos' := fun i => ((s'.meshNodes i).1 - cx, (s'.meshNodes i).2 - cy))
    ?_ (shifted_proper hg'.proper cx cy) (fun t ht => ⟨(hpar t ht).1, (hpar t ht).2.1⟩) hq
  · intro t ht k
    obtain ⟨t, ht', rfl⟩ := List.mem_map.1 ht
    simp [Tri6.shiftBy, Coords.shift, hg.coords t ht', gather]
  · intro t ht k
    obtain ⟨t, ht', rfl⟩ := List.mem_map.1 ht
    simp [Tri6.shiftBy, Coords.shift, hg'.coords t ht', gather]

/-- The larger the space of fields, the larger the energy of the solution. -/
theorem energy_le (hP' : Physical els') {b' v x' : Fin m → ℝ} {p q' : Tri6 m → ℝ × ℝ → ℝ} {e : ℝ}
    (hp : FEField els' v p) (hq : FEField els' x' q') (he : dirichlet els' q' q' = e)
    (hw : ∀ {x q}, FEField els' x q → dirichlet els' q p = dotN x b') (hl : dotN x' b' = e) :
    e ≤ dirichlet els' p p := by
  have h1 := dirichlet_sub hP'.proper hq hp
  have h2 : 0 ≤ dirichlet els' (fun t x => p t x + -1 * q' t x) (fun t x => p t x + -1 * q' t x) :=
    wInt_nonneg hP'.modulus fun t _ p => add_nonneg (mul_self_nonneg _) (mul_self_nonneg _)
  have h3 := hw hq
  linarith

/-- **C79.** Refining a conforming mesh never increases the torsion constant (exact solution of the systems). -/
theorem C79_torsion (s s' : Section) (r r' : GeomResults) (hg : GoodSection s) (hg' : GoodSection s')
    (h : Physical s.elements) (h' : Physical s'.elements) (hc : ConformingMesh s.meshNodes s.elements)
    (hR : Refines s.elements s'.elements) (hr : s.geometricAnalysis = .ok r) (hr' : s'.geometricAnalysis = .ok r')
    (sv sv' : Solvers) (ty ty' : SolverType) (w : WarpResults s.numNodes) (w' : WarpResults s'.numNodes)
    (hw : s.warping sv ty r = .ok w) (hw' : s'.warping sv' ty' r' = .ok w')
    (hex : SolvesBordered (assembleTorsion (s.elements.map fun t => t.shiftBy r.cx r.cy)).1
      (assembleTorsion (s.elements.map fun t => t.shiftBy r.cx r.cy)).2 w.omega)
    (hex' : SolvesBordered (assembleTorsion (s'.elements.map fun t => t.shiftBy r'.cx r'.cy)).1
      (assembleTorsion (s'.elements.map fun t => t.shiftBy r'.cx r'.cy)).2 w'.omega) :
    w'.j ≤ w.j := by
  obtain ⟨a1, -⟩ := C19_torsion_constant s r hg h hr sv ty w hw hex
  obtain ⟨-, b2, -⟩ := C19_torsion_constant s' r' hg' h' hr' sv' ty' w' hw' hex'
  obtain ⟨-, ex, ey, -⟩ := refine_geom hg hg' hR hr hr'
  obtain ⟨par, hpar, hint, hfield⟩ := refine_field h.nonempty hg hg' hc hR r.cx r.cy
  obtain ⟨q, hq⟩ := exists_feField (shifted_proper h.proper r.cx r.cy) w.omega
  obtain ⟨v, hv⟩ := hfield _ _ hq
  rw [← ex, ← ey] at b2
  rw [a1 q hq]
  refine (b2 v _ hv).trans (le_of_eq ?_)
  refine (hint (fun t p => (dX (q t) p - p.2) ^ 2 + (dY (q t) p + p.1) ^ 2) fun t ht => ?_).symm
  have c1 := PolyLE.continuous (dX_mem (hq t ht).1)
  have c2 := PolyLE.continuous (dY_mem (hq t ht).1)
  fun_prop

/-- Combinations of exact solutions. -/
theorem solves_comb {A : Matrix (Fin (n + 1)) (Fin (n + 1)) ℝ} {b b' u u' : Fin n → ℝ} (c d : ℝ)
    (h : SolvesBordered A b u) (h' : SolvesBordered A b' u') :
    SolvesBordered A (fun i => c * b i + d * b' i) (fun i => c * u i + d * u' i) := by
  obtain ⟨μ, hμ⟩ := h
  obtain ⟨ν, hν⟩ := h'
  have key : ∀ (a a' : Fin n → ℝ) (x y : ℝ), Fin.snoc (α := fun _ => ℝ) (fun i => c * a i + d * a' i) (c * x + d * y)
      = c • Fin.snoc (α := fun _ => ℝ) a x + d • Fin.snoc (α := fun _ => ℝ) a' y := by
    intro a a' x y
    funext i
    refine Fin.lastCases ?_ (fun i => ?_) i <;> simp
  refine ⟨c * μ + d * ν, ?_⟩
  rw [key, Matrix.mulVec_add, Matrix.mulVec_smul, Matrix.mulVec_smul, hμ, hν, ← key, mul_zero, mul_zero, add_zero]

theorem dotN_comb (c d c' d' : ℝ) (u u' b b' : Fin n → ℝ) :
    dotN (fun i => c * u i + d * u' i) (fun i => c' * b i + d' * b' i)
      = c * c' * dotN u b + c * d' * dotN u b' + d * c' * dotN u' b + d * d' * dotN u' b' := by
  simp only [dotN, Finset.mul_sum, ← Finset.sum_add_distrib]
  exact Finset.sum_congr rfl fun i _ => by ring

/-- The shear coefficients in the direction `(c, d)` do not decrease under refinement. -/
theorem kappa_refine (s s' : Section) (r r' : GeomResults) (hg : GoodSection s) (hg' : GoodSection s')
    (h : Physical s.elements) (h' : Physical s'.elements) (hc : ConformingMesh s.meshNodes s.elements)
    (hR : Refines s.elements s'.elements) (hr : s.geometricAnalysis = .ok r) (hr' : s'.geometricAnalysis = .ok r')
    (hnu : isComposite s.materials → r.nuEff = 0) (hnu' : isComposite s'.materials → r'.nuEff = 0)
    {psi phiS : Fin s.numNodes → ℝ} {psi' phiS' : Fin s'.numNodes → ℝ} (c d : ℝ) :
    let els := s.elements.map fun t => t.shiftBy r.cx r.cy
    let els' := s'.elements.map fun t => t.shiftBy r'.cx r'.cy
    let k := shearDeformation els (warpIn s.materials r) psi phiS
    let k' := shearDeformation els' (warpIn s'.materials r') psi' phiS'
    SolvesBordered (assembleTorsion els).1 (assembleShearLoad els (warpIn s.materials r)).1 psi →
    SolvesBordered (assembleTorsion els).1 (assembleShearLoad els (warpIn s.materials r)).2 phiS →
    SolvesBordered (assembleTorsion els').1 (assembleShearLoad els' (warpIn s'.materials r')).1 psi' →
    SolvesBordered (assembleTorsion els').1 (assembleShearLoad els' (warpIn s'.materials r')).2 phiS' →
    c ^ 2 * k.x + 2 * (c * d) * k.xy + d ^ 2 * k.y ≤ c ^ 2 * k'.x + 2 * (c * d) * k'.xy + d ^ 2 * k'.y := by
  -- the coefficients as work of the loads
  have form : ∀ (s : Section) (r : GeomResults) (_ : GoodSection s) (_ : Physical s.elements)
      (_ : s.geometricAnalysis = .ok r) (_ : isComposite s.materials → r.nuEff = 0) (psi phiS : Fin s.numNodes → ℝ),
      let els := s.elements.map fun t => t.shiftBy r.cx r.cy
      let f := assembleShearLoad els (warpIn s.materials r)
      let k := shearDeformation els (warpIn s.materials r) psi phiS
      SolvesBordered (assembleTorsion els).1 f.1 psi → SolvesBordered (assembleTorsion els).1 f.2 phiS →
      (∀ {x q y z}, FEField els x q → FEField els y z → y = (fun i => c * psi i + d * phiS i) →
        dirichlet els q z = dotN x fun i => c * f.1 i + d * f.2 i) ∧
      c ^ 2 * k.x + 2 * (c * d) * k.xy + d ^ 2 * k.y
        = dotN (fun i => c * psi i + d * phiS i) fun i => c * f.1 i + d * f.2 i := by
    intro s r hg h hr hnu psi phiS els f k h1 h2
    have hS := centroidalSetup hg h hr
    have hP := hS.physical
    have hnu0 : (warpIn s.materials r).nu = 0 := by
      simp only [warpIn]
      split_ifs with hc
      · exact hnu hc
      · rfl
    obtain ⟨l1, l2⟩ := shear_load_sum hP.proper hS.distinct (warpIn s.materials r) hS.centroidal
    obtain ⟨q, hq⟩ := exists_feField hP.proper psi
    obtain ⟨z, hz⟩ := exists_feField hP.proper phiS
    obtain ⟨k1, k2, k3⟩ := kappas_form hP.proper hnu0 hq hz
    have e1 := bordered_weak hP hS.distinct l1 h1 hq hq
    have e2 := bordered_weak hP hS.distinct l1 h1 hq hz
    have e3 := bordered_weak hP hS.distinct l2 h2 hz hq
    have e4 := bordered_weak hP hS.distinct l2 h2 hz hz
    refine ⟨fun {x q y z} hx hy hyv => ?_, ?_⟩
    · subst hyv
      refine bordered_weak hP hS.distinct ?_ (solves_comb c d h1 h2) hy hx
      rw [Finset.sum_add_distrib, ← Finset.mul_sum, ← Finset.mul_sum, l1, l2, mul_zero, mul_zero, add_zero]
    · have s1 := dirichlet_symm (els := els) z q
      rw [dotN_comb]
      change c ^ 2 * (shearDeformation els (warpIn s.materials r) psi phiS).x
        + 2 * (c * d) * (shearDeformation els (warpIn s.materials r) psi phiS).xy
        + d ^ 2 * (shearDeformation els (warpIn s.materials r) psi phiS).y = _
      rw [k1, k2, k3]
      linear_combination c ^ 2 * e1 + c * d * e2 + c * d * e3 + d ^ 2 * e4 - c * d * s1
  intro els els' k k' h1 h2 h3 h4
  obtain ⟨f1, f2⟩ := form s r hg h hr hnu psi phiS h1 h2
  obtain ⟨f1', f2'⟩ := form s' r' hg' h' hr' hnu' psi' phiS' h3 h4
  have hS := centroidalSetup hg h hr
  have hS' := centroidalSetup hg' h' hr'
  change c ^ 2 * k.x + 2 * (c * d) * k.xy + d ^ 2 * k.y = _ at f2
  change c ^ 2 * k'.x + 2 * (c * d) * k'.xy + d ^ 2 * k'.y = _ at f2'
  obtain ⟨-, ex, ey, ei, ej, ek, -⟩ := refine_geom hg hg' hR hr hr'
  obtain ⟨par, hpar, hint, hfield⟩ := refine_field h.nonempty hg hg' hc hR r.cx r.cy
  have ee : shifted s'.elements r.cx r.cy = els' := by rw [ex, ey]; rfl
  rw [ee] at hpar hint hfield
  obtain ⟨q, hq⟩ := exists_feField hS.physical.proper fun i => c * psi i + d * phiS i
  obtain ⟨p, hp⟩ := exists_feField hS'.physical.proper fun i => c * psi' i + d * phiS' i
  obtain ⟨v, hv⟩ := hfield _ _ hq
  have hcX : ∀ t ∈ els, Continuous fun p => dX (q t) p := fun t ht => PolyLE.continuous (dX_mem (hq t ht).1)
  have hcY : ∀ t ∈ els, Continuous fun p => dY (q t) p := fun t ht => PolyLE.continuous (dY_mem (hq t ht).1)
  have hnu0 : ∀ (s : Section) (r : GeomResults), (isComposite s.materials → r.nuEff = 0) → (warpIn s.materials r).nu = 0 := by
    intro s r hnu
    simp only [warpIn]
    split_ifs with hc
    · exact hnu hc
    · rfl
  have he : dirichlet els' (fun t => q (par t)) (fun t => q (par t)) = c ^ 2 * k.x + 2 * (c * d) * k.xy + d ^ 2 * k.y := by
    rw [f2, ← f1 hq hq rfl]
    exact (hint (fun t p => dX (q t) p * dX (q t) p + dY (q t) p * dY (q t) p) fun t ht =>
      ((hcX t ht).mul (hcX t ht)).add ((hcY t ht).mul (hcY t ht))).symm
  have hl : dotN v (fun i => c * (assembleShearLoad els' (warpIn s'.materials r')).1 i
      + d * (assembleShearLoad els' (warpIn s'.materials r')).2 i) = c ^ 2 * k.x + 2 * (c * d) * k.xy + d ^ 2 * k.y := by
    rw [f2]
    have split : ∀ {n : ℕ} (x b b' : Fin n → ℝ), dotN x (fun i => c * b i + d * b' i) = c * dotN x b + d * dotN x b' := by
      intro n x b b'
      simp only [dotN, Finset.mul_sum, ← Finset.sum_add_distrib]
      exact Finset.sum_congr rfl fun i _ => by ring
    rw [split, split, psi_load hS'.physical.proper hS'.distinct _ hv, phi_load hS'.physical.proper hS'.distinct _ hv,
      psi_load hS.physical.proper hS.distinct _ hq, phi_load hS.physical.proper hS.distinct _ hq]
    have w1 : ∀ g, psiWork (warpIn s'.materials r') g = psiWork (warpIn s.materials r) g := by
      intro g
      funext p
      simp only [psiWork, hnu0 s r hnu, hnu0 s' r' hnu']
      simp only [warpIn, ei, ej, ek, zero_div, zero_mul]
    have w2 : ∀ g, phiWork (warpIn s'.materials r') g = phiWork (warpIn s.materials r) g := by
      intro g
      funext p
      simp only [phiWork, hnu0 s r hnu, hnu0 s' r' hnu']
      simp only [warpIn, ei, ej, ek, zero_div, zero_mul]
    simp only [w1, w2]
    rw [← hint (fun t p => psiWork (warpIn s.materials r) (q t) p) fun t ht => PolyLE.continuous (psiWork_mem _ (hq t ht).1),
      ← hint (fun t p => phiWork (warpIn s.materials r) (q t) p) fun t ht => PolyLE.continuous (phiWork_mem _ (hq t ht).1)]
    rfl
  rw [f2', ← f1' hp hp rfl]
  exact energy_le hS'.physical hp hv he (fun {x q} hx => f1' hx hp rfl) hl

/-- **C79.** Refining a conforming mesh never increases the shear areas, about the given and about the principal axes, if
the Poisson's ratio of the analysis is zero, which it is for every section without materials. -/
theorem C79_shear_areas (s s' : Section) (r r' : GeomResults) (hg : GoodSection s) (hg' : GoodSection s')
    (h : Physical s.elements) (h' : Physical s'.elements) (hc : ConformingMesh s.meshNodes s.elements)
    (hR : Refines s.elements s'.elements) (hr : s.geometricAnalysis = .ok r) (hr' : s'.geometricAnalysis = .ok r')
    (sv sv' : Solvers) (ty ty' : SolverType) (w : WarpResults s.numNodes) (w' : WarpResults s'.numNodes)
    (hw : s.warping sv ty r = .ok w) (hw' : s'.warping sv' ty' r' = .ok w')
    (hnu : isComposite s.materials → r.nuEff = 0) (hnu' : isComposite s'.materials → r'.nuEff = 0) :
    let A := (assembleTorsion (s.elements.map fun t => t.shiftBy r.cx r.cy)).1
    let f := assembleShearLoad (s.elements.map fun t => t.shiftBy r.cx r.cy) (warpIn s.materials r)
    let A' := (assembleTorsion (s'.elements.map fun t => t.shiftBy r'.cx r'.cy)).1
    let f' := assembleShearLoad (s'.elements.map fun t => t.shiftBy r'.cx r'.cy) (warpIn s'.materials r')
    SolvesBordered A f.1 w.psi → SolvesBordered A f.2 w.phiS →
    SolvesBordered A' f'.1 w'.psi → SolvesBordered A' f'.2 w'.phiS →
    w'.areas.sx ≤ w.areas.sx ∧ w'.areas.sy ≤ w.areas.sy ∧ w'.areas.s11 ≤ w.areas.s11 ∧ w'.areas.s22 ≤ w.areas.s22 := by
  intro A f A' f' h1 h2 h3 h4
  have hk := fun c d => kappa_refine s s' r r' hg hg' h h' hc hR hr hr' hnu hnu' c d h1 h2 h3 h4
  set k := shearDeformation (s.elements.map fun t => t.shiftBy r.cx r.cy) (warpIn s.materials r) w.psi w.phiS
  set k' := shearDeformation (s'.elements.map fun t => t.shiftBy r'.cx r'.cy) (warpIn s'.materials r') w'.psi w'.phiS
  change ∀ c d : ℝ, c ^ 2 * k.x + 2 * (c * d) * k.xy + d ^ 2 * k.y ≤ c ^ 2 * k'.x + 2 * (c * d) * k'.xy + d ^ 2 * k'.y at hk
  obtain ⟨p1, p2, p3, p4, -⟩ := C22_bounds_partial s r hg h hr sv ty w hw hnu h1 h2
  obtain ⟨p1', p2', p3', p4', -⟩ := C22_bounds_partial s' r' hg' h' hr' sv' ty' w' hw' hnu' h3 h4
  obtain ⟨-, -, -, -, -, -, -, ha, -⟩ := warping_ok hw
  obtain ⟨-, -, -, -, -, -, -, ha', -⟩ := warping_ok hw'
  obtain ⟨es, -, -, ei, ej, ek, ephi⟩ := refine_geom hg hg' hR hr hr'
  have hnu0 : ∀ (s : Section) (r : GeomResults), (isComposite s.materials → r.nuEff = 0) → (warpIn s.materials r).nu = 0 := by
    intro s r hnu
    simp only [warpIn]
    split_ifs with hc
    · exact hnu hc
    · rfl
  have hD : (warpIn s'.materials r').deltaS = (warpIn s.materials r).deltaS := by
    rw [WarpIn.deltaS, WarpIn.deltaS, hnu0 s r hnu, hnu0 s' r' hnu']
    simp only [warpIn, ei, ej, ek]
  have hA : (warpIn s'.materials r').area = (warpIn s.materials r).area := by simp only [warpIn, es]
  have hphi : (warpIn s'.materials r').phi = (warpIn s.materials r).phi := by simp only [warpIn, ephi]
  have hA0 : 0 < (warpIn s.materials r).area := by
    have hS := centroidalSetup hg h hr
    change 0 < r.sums.area
    exact hS.area ▸ hS.physical.area_pos
  have cmp : ∀ {a x y : ℝ}, 0 ≤ a → 0 < a / x → x ≤ y → a / y ≤ a / x := by
    intro a x y ha hx hxy
    have hx0 : 0 < x := by
      rcases div_pos_iff.1 hx with h | h
      · exact h.2
      · exact absurd h.1 (not_lt.2 ha)
    exact div_le_div_of_nonneg_left ha hx0 hxy
  have hsq : 0 ≤ (warpIn s.materials r).area / (warpIn s.materials r).deltaS ^ 2 := by positivity
  rw [ha] at p1 p2 p3 p4 ⊢
  rw [ha']
  rw [(shearAreas_rot _ _).1] at p3
  rw [(shearAreas_rot _ _).2] at p4
  rw [(shearAreas_rot _ _).1, (shearAreas_rot _ _).1, (shearAreas_rot _ _).2, (shearAreas_rot _ _).2, hA, hD, hphi]
  refine ⟨?_, ?_, cmp hA0.le p3.1 (mul_le_mul_of_nonneg_left (hk _ _) hsq),
    cmp hA0.le p4.1 (mul_le_mul_of_nonneg_left (hk _ _) hsq)⟩
  · have := hk 1 0
    simp only [shearAreas, hD] at p1 ⊢
    exact cmp (sq_nonneg _) p1.1 (by linarith)
  · have := hk 0 1
    simp only [shearAreas, hD] at p2 ⊢
    exact cmp (sq_nonneg _) p2.1 (by linarith)

end SP
