import Verif.Model.Remesh
import Verif.Props.ShearNegative
import Verif.Props.TorsionBound
import Verif.Props.Relabel
import Verif.Props.Equilibrium

/-!
# C95: a section and later changes of the geometry it was made from
-/

namespace SP

open Spec MeasureTheory

/-- A warping analysis that returns ran with meshes of equally many nodes, on the elements of the new mesh. -/
theorem warpingNow_ok {sv : Solvers} {ty : SolverType} {s now : Section} {r : GeomResults} {w : WarpResults now.numNodes}
    (h : s.warpingNow sv ty now r = .ok w) : s.numNodes = now.numNodes ∧
      warpingAnalysis sv ty (now.elements.map fun t => t.shiftBy r.cx r.cy) (warpIn s.materials r) = .ok w := by
  unfold Section.warpingNow at h
  simp only at h
  split at h
  · simp at h
  · split at h
    · simp at h
    · split at h
      · simp at h
      · split at h
        · simp at h
        · next h1 => exact ⟨not_not.1 h1, h⟩

theorem warpingNow_eq {sv : Solvers} {ty : SolverType} {s now : Section} {r : GeomResults} (hn : s.numNodes = now.numNodes) :
    s.warpingNow sv ty now r
      = warpingAnalysis sv ty (now.elements.map fun t => t.shiftBy r.cx r.cy) (warpIn s.materials r) := by
  unfold Section.warpingNow
  simp only
  rw [if_neg (fun h => h.2 hn)]
  split
  · next e he => rw [warpingAnalysis]; simp only [he]
  · rw [if_neg, if_neg (not_not.2 hn)]
    rintro ⟨t, -, k, hk⟩
    exact absurd (t.nodeIds k).isLt (by omega)

/-- **C95**: if the geometry is as it was when the section was made, the analysis is the one of the other properties. -/
theorem C95_unchanged {g : GeomIn} {s now : Section} (hs : Section.init g = .ok s) (hnow : Section.init g = .ok now)
    (sv : Solvers) (ty : SolverType) (r : GeomResults) :
    now = s ∧ s.warpingNow sv ty s r = s.warping sv ty r :=
  ⟨Except.ok.inj (hnow.symm.trans hs), warpingNow_eq rfl⟩

/-- **C95**: if the geometry has been meshed again with another number of nodes, the warping analysis raises and returns
no results, whichever solver is used and whatever it answers. -/
theorem C95_node_count {s now : Section} (hn : s.numNodes ≠ now.numNodes) (sv : Solvers) (ty : SolverType)
    (r : GeomResults) : ∃ e, s.warpingNow sv ty now r = .error e := by
  rcases h : s.warpingNow sv ty now r with e | w
  · exact ⟨e, rfl⟩
  · exact absurd (warpingNow_ok h).1 hn

/-- **C95**: if the geometry has been meshed again, with the same materials and equally many nodes, the reported torsion
constant, shear centre, warping constant, shear areas and monosymmetry constants are those of a section made from the new
mesh.  The fields are numbered like the new mesh: see `C95_fields_violated`. -/
theorem C95_remeshed_partial {s now : Section} {r r' : GeomResults} (hn : s.numNodes = now.numNodes)
    (hr : s.geometricAnalysis = .ok r) (hr' : now.geometricAnalysis = .ok r')
    (hp : ∀ t ∈ s.elements, Proper t.coords) (hp' : ∀ t ∈ now.elements, Proper t.coords)
    (hno : NoOverlap s.elements) (hno' : NoOverlap now.elements)
    (hreg : region s.elements =ᵐ[volume] region now.elements)
    {E G ρ : ℝ × ℝ → ℝ}
    (hE : IsField s.elements Material.elasticModulus E)
    (hG : IsField s.elements (fun m => m.elasticModulus / (2 * (1 + m.poissonsRatio))) G)
    (hρ : IsField s.elements Material.density ρ)
    (hE' : IsField now.elements Material.elasticModulus E)
    (hG' : IsField now.elements (fun m => m.elasticModulus / (2 * (1 + m.poissonsRatio))) G)
    (hρ' : IsField now.elements Material.density ρ)
    (hm : isComposite s.materials ↔ isComposite now.materials) (sv : Solvers) (ty : SolverType) :
    s.warpingNow sv ty now r = now.warping sv ty r' := by
  obtain ⟨e1, e2, -, -, e3, e4, e5, e6, e7, e8, e9, e10, -⟩ :=
    C02_mesh_independent hr hr' hp hp' hno hno' hreg hE hG hρ hE' hG' hρ'
  rw [warpingNow_eq hn, Section.warping, e3, e4]
  congr 1
  by_cases hk : isComposite s.materials
  · simp only [warpIn, e1, e2, e5, e6, e7, e8, e9, e10, if_pos hk, if_pos (hm.1 hk)]
  · simp only [warpIn, e1, e2, e5, e6, e7, e8, e9, e10, if_neg hk, if_neg (fun h => hk (hm.2 h))]

/-! ### Other materials -/

variable {n : ℕ} {els : List (Tri6 n)}

theorem scaled_distinct (hd : DistinctNodes els) (k : ℝ) : DistinctNodes (els.map (Tri6.scaleE k)) := by
  intro t ht
  obtain ⟨u, hu, rfl⟩ := List.mem_map.1 ht
  exact hd u hu

theorem scaled_vec (hd : DistinctNodes els) {k : ℝ} {f : Tri6 n → Fin 6 → ℝ}
    (hf : ∀ t a, f (t.scaleE k) a = k * f t a) (i : Fin n) :
    assembleVec (els.map (Tri6.scaleE k)) f i = k * assembleVec els f i := by
  rw [assembleVec_apply (scaled_distinct hd k), assembleVec_apply hd, ← List.sum_map_mul_left, List.map_map]
  refine congrArg List.sum (List.map_congr_left fun t _ => ?_)
  rw [Function.comp_apply, Finset.mul_sum]
  exact Finset.sum_congr rfl fun a _ => by
    rw [hf, mul_ite, mul_zero]; rfl

theorem scaled_stiff (k : ℝ) (i j : Fin n) : stiff (els.map (Tri6.scaleE k)) i j = k * stiff els i j := by
  rw [stiff, stiff, ← List.sum_map_mul_left, List.map_map]
  refine congrArg List.sum (List.map_congr_left fun t _ => ?_)
  rw [Function.comp_apply, Finset.mul_sum]
  refine Finset.sum_congr rfl fun a _ => ?_
  rw [Finset.mul_sum]
  exact Finset.sum_congr rfl fun b _ => by
    rw [(C14_element_scaling k t a b).1, mul_ite, mul_zero]; rfl

theorem scaled_solves (hd : DistinctNodes els) {k : ℝ} (hk : k ≠ 0) {b u : Fin n → ℝ}
    (h : SolvesBordered (assembleTorsion (els.map (Tri6.scaleE k))).1 (fun i => k * b i) u) :
    SolvesBordered (assembleTorsion els).1 b u := by
  obtain ⟨μ, h⟩ := h
  obtain ⟨h1, h2⟩ := (klg_mulVec _ _ _ 0).1 h
  refine ⟨μ, (klg_mulVec _ _ _ 0).2 ⟨fun i => ?_, ?_⟩⟩
  · have := h1 i
    simp only [scaled_stiff, scaled_vec hd (fun t a => (C14_element_scaling k t a 0).2.2)] at this
    refine mul_left_cancel₀ hk ?_
    rw [← this, mul_add, Finset.mul_sum]
    simp only [mul_assoc]
  · simp only [scaled_vec hd (fun t a => (C14_element_scaling k t a 0).2.2)] at h2
    refine mul_left_cancel₀ hk ?_
    rw [Finset.mul_sum, mul_zero, ← h2]
    simp only [mul_assoc]

theorem bordered_unique (h : Physical els) (hd : DistinctNodes els) (hc : ConnectedMesh els) {b u v : Fin n → ℝ}
    (hu : SolvesBordered (assembleTorsion els).1 b u) (hv : SolvesBordered (assembleTorsion els).1 b v) : u = v := by
  obtain ⟨μ, hu⟩ := hu
  obtain ⟨ν, hv⟩ := hv
  have := ((C18_unique_iff_connected h hd).2 hc _).unique hu hv
  funext i
  have := congrFun this i.castSucc
  simpa using this

/-- **C95**, the effect of other materials: after the geometric analysis every elastic modulus of the geometry is multiplied
by `k`.  With exact solutions the warping analysis then stores the torsion constant `I - k (I - J)`, where `J` is the torsion
constant of the section and `I` its polar second moment; it is the right one, for the section as it was made, only if nothing
was changed or the section does not warp. -/
theorem C95_modulus_partial (s : Section) (r : GeomResults) (hg : GoodSection s) (h : Physical s.elements)
    (hc : ConnectedMesh s.elements) (hr : s.geometricAnalysis = .ok r) {k : ℝ} (hk : 0 < k)
    (mats : List MatObj) (gs : List (MaterialGroup s.numNodes)) {sv sv' : Solvers} {ty ty' : SolverType}
    {w w' : WarpResults s.numNodes} (hw : s.warping sv ty r = .ok w)
    (he : SolvesBordered (assembleTorsion (s.elements.map fun t => t.shiftBy r.cx r.cy)).1
      (assembleTorsion (s.elements.map fun t => t.shiftBy r.cx r.cy)).2 w.omega)
    (hw' : s.warpingNow sv' ty'
      { s with elements := s.elements.map (Tri6.scaleE k), materials := mats, groups := gs } r = .ok w')
    (he' : SolvesBordered
      (assembleTorsion ((s.elements.map (Tri6.scaleE k)).map fun t => t.shiftBy r.cx r.cy)).1
      (assembleTorsion ((s.elements.map (Tri6.scaleE k)).map fun t => t.shiftBy r.cx r.cy)).2 w'.omega) :
    w'.omega = w.omega ∧
    w'.j = r.cent.ixxC + r.cent.iyyC - k * (r.cent.ixxC + r.cent.iyyC - w.j) ∧
    (w'.j = w.j ↔ k = 1 ∨ w.j = r.cent.ixxC + r.cent.iyyC) := by
  have hS := centroidalSetup hg h hr
  obtain ⟨-, hA⟩ := warpingNow_ok hw'
  obtain ⟨-, -, -, hj, -⟩ := warping_ok hw
  obtain ⟨-, -, -, hj', -⟩ := warping_ok hA
  have ee : ((s.elements.map (Tri6.scaleE k)).map fun t => t.shiftBy r.cx r.cy)
      = (s.elements.map fun t => t.shiftBy r.cx r.cy).map (Tri6.scaleE k) := by
    simp only [List.map_map]; rfl
  have hf : (assembleTorsion ((s.elements.map fun t => t.shiftBy r.cx r.cy).map (Tri6.scaleE k))).2
      = fun i => k * (assembleTorsion (s.elements.map fun t => t.shiftBy r.cx r.cy)).2 i := by
    funext i
    rw [torsion_load, torsion_load]
    exact scaled_vec hS.distinct (fun t a => (C14_element_scaling k t a 0).2.1) i
  rw [ee, hf] at he'
  change w'.j = (warpIn s.materials r).ixx + (warpIn s.materials r).iyy
    - dotN w'.omega (assembleTorsion ((s.elements.map (Tri6.scaleE k)).map fun t => t.shiftBy r.cx r.cy)).2 at hj'
  rw [ee, hf] at hj'
  have ho : w'.omega = w.omega :=
    bordered_unique hS.physical hS.distinct (linked_shift hc r.cx r.cy) (scaled_solves hS.distinct hk.ne' he') he
  have hd : dotN w'.omega (fun i => k * (assembleTorsion (s.elements.map fun t => t.shiftBy r.cx r.cy)).2 i)
      = k * dotN w.omega (assembleTorsion (s.elements.map fun t => t.shiftBy r.cx r.cy)).2 := by
    rw [ho, dotN, dotN, Finset.mul_sum]
    exact Finset.sum_congr rfl fun i _ => by ring
  rw [hd] at hj'
  simp only [warpIn] at hj hj'
  have e : w'.j = r.cent.ixxC + r.cent.iyyC - k * (r.cent.ixxC + r.cent.iyyC - w.j) := by rw [hj', hj]; ring
  refine ⟨ho, e, ?_⟩
  rw [e]
  constructor
  · intro h0
    have : (k - 1) * (r.cent.ixxC + r.cent.iyyC - w.j) = 0 := by linarith
    rcases mul_eq_zero.1 this with h1 | h1
    · exact Or.inl (by linarith)
    · exact Or.inr (by linarith)
  · rintro (h0 | h0)
    · rw [h0]; ring
    · rw [h0]; ring

/-! ### The flat triangle with another steel -/

/-- The steel of the flat triangle with twice its modulus. -/
noncomputable def stiffSteel : Material := exSteel.scaleE 2
/-- The geometry after `geometry.material = stiffSteel`. -/
noncomputable def flatGeomStiff : GeomIn := ⟨[⟨1, stiffSteel⟩], some flatMesh⟩
/-- The section made from it. -/
noncomputable def flatStiff : Section :=
  { flatSection with
    materials := flatGeomStiff.materials
    elements := flatSection.elements.map (Tri6.scaleE 2)
    groups := [⟨⟨1, stiffSteel⟩, flatSection.elements.map (Tri6.scaleE 2)⟩] }

theorem flatStiff_init : Section.init flatGeomStiff = .ok flatStiff := by
  have hmx : flatMesh.attributes.max? = some 0 := by simp [flatMesh, List.max?]
  have h0 : mkElement flatGeomStiff.materials flatMesh triRow 0 = .ok (flatEl.scaleE 2, ⟨1, stiffSteel⟩) := by
    simp [mkElement, flatMesh, flatGeomStiff, flatEl, reorder, triRow, Tri6.scaleE, stiffSteel]
  have hM : flatMesh.triangles.zipIdx.mapM (fun p => mkElement flatGeomStiff.materials flatMesh p.1 p.2)
      = .ok [(flatEl.scaleE 2, ⟨1, stiffSteel⟩)] := by
    rw [mapM_ok_forall₂]
    exact .cons h0 .nil
  have hl : flatGeomStiff.materials.length = 0 + 1 := rfl
  have hg : groupMaterials flatGeomStiff.materials = [⟨1, stiffSteel⟩] := by
    simp [groupMaterials, flatGeomStiff, List.zipIdx]
  unfold Section.init
  simp only [show flatGeomStiff.mesh = some flatMesh from rfl, hmx, hl, ne_eq, not_true_eq_false,
    if_false, hM, hg]
  simp [addToGroup, flatStiff, flatSection]
  exact ⟨rfl, HEq.rfl, HEq.rfl, HEq.rfl⟩

theorem flat_connected : ConnectedMesh flatSection.elements := by
  intro (i : Fin 6) (j : Fin 6)
  refine .single ⟨flatEl, List.mem_cons_self .., i, j, ?_, ?_⟩
  · fin_cases i <;> rfl
  · fin_cases j <;> rfl

/-- Exact solvers solve the systems of a mesh connected in itself, for loads with zero sum. -/
theorem exact_analysis (hP : Physical els) (hd : DistinctNodes els) (hl : ConnectedMesh els) (hc : Centroidal els)
    (W : WarpIn) : ∃ w, warpingAnalysis exactSolvers .direct els W = .ok w ∧
      SolvesBordered (assembleTorsion els).1 (assembleTorsion els).2 w.omega := by
  have hu := (C18_unique_iff_connected hP hd).2 hl
  obtain ⟨o, -, h1, h2⟩ := C17_direct hP hd exactSolvers _ (torsion_load_sum hP hd) (exactSolvers_spec (hu _).exists)
  obtain ⟨b1, b2⟩ := shear_load_sum hP.proper hd W hc
  obtain ⟨p, h3, -⟩ := C17_direct hP hd exactSolvers _ b1 (exactSolvers_spec (hu _).exists)
  obtain ⟨f, h4, -⟩ := C17_direct hP hd exactSolvers _ b2 (exactSolvers_spec (hu _).exists)
  have h3 : solveShear exactSolvers .direct (assembleTorsion els).1 (assembleShearLoad els W).1 = .ok p := h3
  have h4 : solveShear exactSolvers .direct (assembleTorsion els).1 (assembleShearLoad els W).2 = .ok f := h4
  obtain ⟨w, hw⟩ : ∃ w, warpingAnalysis exactSolvers .direct els W = .ok w := by
    rw [warpingAnalysis]
    simp only [h1, h3, h4]
    exact ⟨_, rfl⟩
  obtain ⟨w1, -⟩ := warping_ok hw
  refine ⟨w, hw, ?_⟩
  rw [Except.ok.inj (w1.symm.trans h1)]
  exact h2

theorem scaled_physical (h : Physical els) {k : ℝ} (hk : 0 < k) : Physical (els.map (Tri6.scaleE k)) := by
  refine ⟨fun h0 => h.1 (List.map_eq_nil_iff.1 h0), ?_, ?_⟩
  · intro t ht
    obtain ⟨u, hu, rfl⟩ := List.mem_map.1 ht
    exact h.proper u hu
  · intro t ht
    obtain ⟨u, hu, rfl⟩ := List.mem_map.1 ht
    exact mul_pos hk (h.3 u hu)

theorem scaled_connected (h : ConnectedMesh els) (k : ℝ) : ConnectedMesh (els.map (Tri6.scaleE k)) := by
  intro i j
  refine Relation.ReflTransGen.mono (fun i j hij => ?_) _ _ (h i j)
  obtain ⟨t, ht, a, b, ha, hb⟩ := hij
  exact ⟨t.scaleE k, List.mem_map_of_mem ht, a, b, ha, hb⟩

theorem scaled_centroidal (h : Centroidal els) (k : ℝ) : Centroidal (els.map (Tri6.scaleE k)) := by
  have key : ∀ f : ℝ × ℝ → ℝ, wInt (els.map (Tri6.scaleE k)) (fun _ => f) = k * wInt els fun _ => f := by
    intro f
    rw [wInt, wInt, ← List.sum_map_mul_left, List.map_map]
    refine congrArg List.sum (List.map_congr_left fun t _ => ?_)
    simp only [Function.comp_apply, Tri6.scaleE, Material.scaleE, mul_assoc]
  obtain ⟨c1, c2⟩ := h
  exact ⟨by rw [key, c1, mul_zero], by rw [key, c2, mul_zero]⟩

/-- With exact solvers both analyses return, for every connected section and every factor. -/
theorem rescaled_run (s : Section) (r : GeomResults) (hg : GoodSection s) (h : Physical s.elements)
    (hc : ConnectedMesh s.elements) (hr : s.geometricAnalysis = .ok r) {k : ℝ} (hk : 0 < k)
    (mats : List MatObj) (gs : List (MaterialGroup s.numNodes)) :
    ∃ w w' : WarpResults s.numNodes, s.warping exactSolvers .direct r = .ok w ∧ 0 < w.j ∧
      w.j ≤ 4 * (r.cent.ixxC * r.cent.iyyC - r.cent.ixyC ^ 2) / (r.cent.ixxC + r.cent.iyyC) ∧
      s.warpingNow exactSolvers .direct
        { s with elements := s.elements.map (Tri6.scaleE k), materials := mats, groups := gs } r = .ok w' ∧
      w'.j = r.cent.ixxC + r.cent.iyyC - k * (r.cent.ixxC + r.cent.iyyC - w.j) := by
  have hl := linked_shift hc r.cx r.cy
  obtain ⟨w, hw, h1, -⟩ := exact_warping s r hg h hr hl
  have hS := centroidalSetup hg h hr
  have ee : ((s.elements.map (Tri6.scaleE k)).map fun t => t.shiftBy r.cx r.cy)
      = (s.elements.map fun t => t.shiftBy r.cx r.cy).map (Tri6.scaleE k) := by
    simp only [List.map_map]; rfl
  obtain ⟨w', hw', h2⟩ := exact_analysis (scaled_physical hS.physical hk) (scaled_distinct hS.distinct k)
    (scaled_connected hl k) (scaled_centroidal hS.centroidal k) (warpIn s.materials r)
  rw [← ee] at hw' h2
  have hn : s.warpingNow exactSolvers .direct
      { s with elements := s.elements.map (Tri6.scaleE k), materials := mats, groups := gs } r = .ok w' := by
    rw [warpingNow_eq (by rfl)]
    exact hw'
  obtain ⟨-, hj, -⟩ := C95_modulus_partial s r hg h hc hr hk mats gs hw h1 hn h2
  obtain ⟨-, hb, -⟩ := C82_torsion_bound s r hg h hr _ _ w hw h1
  obtain ⟨-, -, hpos, -⟩ := C19_torsion_constant s r hg h hr _ _ w hw h1
  exact ⟨w, w', hw, hpos, hb, hn, hj⟩

/-- **C95** is violated by a change of the material: a section is made and its geometric analysis run, then the material of
the geometry is replaced by one of twice the modulus, then the warping analysis is run, with exact solvers.  It returns, and
the torsion constant is negative. -/
theorem C95_material_violated : ∃ (g g' : GeomIn) (s now : Section) (r : GeomResults) (w : WarpResults s.numNodes)
    (w' : WarpResults now.numNodes),
    Section.init g = .ok s ∧ Physical s.elements ∧ g'.mesh = g.mesh ∧ Section.init g' = .ok now ∧
    s.geometricAnalysis = .ok r ∧ s.warping exactSolvers .direct r = .ok w ∧ 0 < w.j ∧
    s.warpingNow exactSolvers .direct now r = .ok w' ∧ w'.j < 0 := by
  obtain ⟨r, hr⟩ := geometricAnalysis_ok flatSection (by decide)
  obtain ⟨w, w', h1, h2, hb, h3, hj⟩ := rescaled_run flatSection r flatSection_good flatSection_physical flat_connected hr
    two_pos flatStiff.materials flatStiff.groups
  obtain ⟨-, -, -, hixx, hiyy, hixy, -⟩ := flat_results hr
  rw [hixx, hiyy, hixy] at hb
  rw [hixx, hiyy] at hj
  have h4 : w'.j < 0 := by
    rw [hj]
    norm_num at hb
    linarith
  exact ⟨flatGeom, flatGeomStiff, flatSection, flatStiff, r, w, w', flatSection_init, flatSection_physical, rfl, flatStiff_init,
    hr, h1, h2, h3, h4⟩

/-! ### The flat triangle with the nodes numbered differently -/

/-- The same six nodes in another order. -/
noncomputable def turnV : Fin 6 → ℝ × ℝ :=
  ![(18, -1), (0, 2), (-18, -1), (9, 1 / 2), (-9, 1 / 2), (0, -1)]
/-- The new numbers of the nodes. -/
def turnIds : Fin 6 → Fin 6 := ![2, 0, 1, 5, 3, 4]
/-- The element with the new numbers, in the mesher's node order. -/
def turnRow : Fin 6 → Fin 6 := ![2, 0, 1, 3, 4, 5]
/-- The mesh. -/
noncomputable def turnMesh : MeshData := ⟨6, turnV, [turnRow], [0]⟩
/-- The geometry after it has been meshed again. -/
noncomputable def turnGeom : GeomIn := ⟨flatGeom.materials, some turnMesh⟩
/-- The element. -/
noncomputable def turnEl : Tri6 6 := { flatEl with nodeIds := turnIds }
/-- The section made from it. -/
noncomputable def turnSection : Section where
  numNodes := 6
  meshNodes := turnV
  materials := flatGeom.materials
  elements := [turnEl]
  groups := [⟨⟨0, exSteel⟩, [turnEl]⟩]

/-- The renumbering. -/
def turnPerm : Fin flatMesh.numNodes ≃ Fin turnMesh.numNodes where
  toFun := turnIds
  invFun := (![1, 2, 0, 4, 5, 3] : Fin 6 → Fin 6)
  left_inv := by change ∀ i : Fin 6, _ = i; decide
  right_inv := by change ∀ i : Fin 6, _ = i; decide

theorem turn_renumbered : Renumbered flatMesh turnMesh turnPerm := by
  refine ⟨?_, rfl, rfl, ?_⟩
  · intro (i : Fin 6)
    change turnV (turnIds i) = flatV i
    fin_cases i <;> rfl
  · refine List.Perm.of_eq ?_
    have : (fun k : Fin 6 => turnIds (triRow k)) = turnRow := by decide
    change [(turnRow, 0)] = [((fun k : Fin 6 => turnIds (triRow k)), 0)]
    rw [this]

theorem turnSection_init : Section.init turnGeom = .ok turnSection := by
  have hmx : turnMesh.attributes.max? = some 0 := by simp [turnMesh, List.max?]
  have h0 : mkElement turnGeom.materials turnMesh turnRow 0 = .ok (turnEl, ⟨0, exSteel⟩) := by
    have e1 : reorder turnRow = turnIds := by decide
    have e2 : gather turnV turnIds = gather flatV ![0, 1, 2, 3, 4, 5] := by
      unfold gather
      congr 1 <;> funext k <;> fin_cases k <;> rfl
    simp [mkElement, turnMesh, turnGeom, flatGeom, turnEl, flatEl, e1, e2]
  have hM : turnMesh.triangles.zipIdx.mapM (fun p => mkElement turnGeom.materials turnMesh p.1 p.2)
      = .ok [(turnEl, ⟨0, exSteel⟩)] := by
    rw [mapM_ok_forall₂]
    exact .cons h0 .nil
  have hl : turnGeom.materials.length = 0 + 1 := rfl
  have hg : groupMaterials turnGeom.materials = [⟨0, exSteel⟩] := by
    simp [groupMaterials, turnGeom, flatGeom, List.zipIdx]
  unfold Section.init
  simp only [show turnGeom.mesh = some turnMesh from rfl, hmx, hl, ne_eq, not_true_eq_false,
    if_false, hM, hg]
  simp [addToGroup, turnSection]
  exact ⟨rfl, HEq.rfl, rfl, HEq.rfl, HEq.rfl⟩

/-- The warping function of the triangle, at its nodes. -/
theorem flat_omega {u : Fin 6 → ℝ} (h : SolvesBordered (assembleTorsion [flatEl]).1 (assembleTorsion [flatEl]).2 u) (i : Fin 6) :
    u i = -107 / 109 * ((flatV i).1 * (flatV i).2) := by
  have hP : Physical ([flatEl] : List (Tri6 6)) := flatSection_physical
  obtain ⟨q, hq⟩ := exists_feField hP.proper u
  obtain ⟨a0, a1, a2, a3, a4, a5, ea⟩ := polyLE2_quad (hq flatEl (List.mem_cons_self ..)).1
  have hq' : FEField [flatEl] u fun _ => quad a0 a1 a2 a3 a4 a5 := by
    intro t ht; rw [List.mem_singleton.1 ht, ← ea]; exact hq _ (List.mem_cons_self ..)
  have hmem : ∀ {f : ℝ × ℝ → ℝ}, f ∈ PolyLE 2 → (fun p => dX f p * p.2 - dY f p * p.1) ∈ PolyLE 3 := fun hf =>
    PolyLE.mono (by omega) (Submodule.sub_mem _ (poly_mul2 (dX_mem hf) PolyLE.snd) (poly_mul2 (dY_mem hf) PolyLE.fst))
  have wq := fun d1 d2 d3 d4 d5 : ℝ => (flat_dirichlet (quad_mem 0 d1 d2 d3 d4 d5) (quad_mem a0 a1 a2 a3 a4 a5)).symm.trans
    ((bordered_weak hP flat_distinct (torsion_load_sum hP flat_distinct) h hq' (flat_field (quad_mem 0 d1 d2 d3 d4 d5))).trans
      ((load_form hP.proper flat_distinct (flat_field (quad_mem 0 d1 d2 d3 d4 d5))).trans
        ((wInt_flat _).trans (congrArg (200 * ·) (flat_integral (hmem (quad_mem 0 d1 d2 d3 d4 d5)))))))
  simp only [quad_dX, quad_dY] at wq
  have q1 := wq 1 0 0 0 0
  have q2 := wq 0 1 0 0 0
  have q3 := wq 0 0 1 0 0
  have q4 := wq 0 0 0 1 0
  have q5 := wq 0 0 0 0 1
  norm_num at q1 q2 q3 q4 q5
  have A1 : a1 = 0 := by linarith
  have A2 : a2 = 0 := by linarith
  have A3 : a3 = 0 := by linarith
  have A4 : a4 = -107 / 109 := by linarith
  have A5 : a5 = 0 := by linarith
  obtain ⟨μ, hμ⟩ := h
  obtain ⟨-, -, h0⟩ := C17_solution hP flat_distinct _ _ μ (torsion_load_sum hP flat_distinct) hμ
  have h0 := h0 _ hq'
  rw [wInt_flat, flat_integral (PolyLE.mono (by omega) (quad_mem a0 a1 a2 a3 a4 a5))] at h0
  simp only [quad, A1, A2, A3, A4, A5] at h0
  norm_num at h0
  have A0 : a0 = 0 := by linarith
  have hi : flatEl.nodeIds i = i := by fin_cases i <;> rfl
  have hv : u i = quad a0 a1 a2 a3 a4 a5 (flatEl.coords.x i, flatEl.coords.y i) := by
    refine Eq.trans ?_ ((hq' flatEl (List.mem_cons_self ..)).2 i).symm
    change u i = u (flatEl.nodeIds i)
    rw [hi]
  rw [hv]
  simp only [quad, A0, A1, A2, A3, A4, A5]
  fin_cases i <;> simp [flatEl, gather]

/-- Its torsional stress `τ_zx` at the node 0, for the warping function `u` and a positive torsion constant. -/
theorem flat_stress {e : StressEnv} {wf : WarpFields 6} (hx : e.cx = 0) (hy : e.cy = 0) (hj : 0 < e.j)
    {a0 a1 a2 a3 a4 a5 : ℝ} (ho : ∀ i, wf.omega i = quad a0 a1 a2 a3 a4 a5 (flatV i))
    (hB : ∀ i, |a1 + 2 * a3 * (flatV i).1 + a4 * (flatV i).2 - (flatV i).2| ≤ 10) :
    |(groupStress [flatEl] ⟨0, 0, 0, 0, 0, 1, 0, 0⟩ e wf 0).zxMzz - 200 / e.j * (a1 + 2 * a3 * -18 + a4 * -1 - -1)|
      ≤ 1e-12 * (200 / e.j * 10) := by
  have hP : Physical ([flatEl] : List (Tri6 6)) := flatSection_physical
  have hp := hP.proper flatEl (List.mem_cons_self ..)
  obtain ⟨p, hp2⟩ := exists_feField hP.proper wf.psi
  obtain ⟨f, hf⟩ := exists_feField hP.proper wf.phiS
  have hE : flatEl.material.elasticModulus = 200 := by simp [flatEl, exSteel]
  have hc : flatEl.coords.shift e.cx e.cy = flatEl.coords := by rw [hx, hy]; exact congrArg Tri6.coords (shiftBy_zero flatEl)
  have hV : ∀ k : Fin 6, (flatEl.coords.x k - e.cx, flatEl.coords.y k - e.cy) = flatV k := by
    intro k; rw [hx, hy, sub_zero, sub_zero]
    fin_cases k <;> simp [flatEl, gather]
  have hI : Interpolates (flatEl.coords.shift e.cx e.cy) (fun k => wf.omega (flatEl.nodeIds k)) (quad a0 a1 a2 a3 a4 a5) := by
    rw [hc]
    refine ⟨quad_mem _ _ _ _ _ _, fun k => ?_⟩
    simp only [ho]
    fin_cases k <;> simp [flatEl, gather]
  have val : ∀ k : Fin 6, (fieldAt flatEl.material.elasticModulus ⟨0, 0, 0, 0, 0, 1, 0, 0⟩ e (quad a0 a1 a2 a3 a4 a5) (p flatEl) (f flatEl)
      (flatEl.coords.x k - e.cx, flatEl.coords.y k - e.cy)).zxMzz
      = 200 / e.j * (a1 + 2 * a3 * (flatV k).1 + a4 * (flatV k).2 - (flatV k).2) := by
    intro k
    rw [hV, hE]
    simp only [fieldAt, quad_dX]
    ring
  have key := elStress_field flatEl hp ⟨0, 0, 0, 0, 0, 1, 0, 0⟩ e wf hI
    (by rw [hc]; exact hp2 flatEl (List.mem_cons_self ..)) (by rw [hc]; exact hf flatEl (List.mem_cons_self ..))
    (·.zxMzz) (by simp [individual]) (200 / e.j * 10) (fun k => by
      rw [val, abs_mul, abs_of_pos (by positivity)]
      exact mul_le_mul_of_nonneg_left (hB k) (by positivity)) 0
  simp only [val] at key
  have hb := nodalAverage_bounds flat_distinct
    (fun t k => (elStress ⟨0, 0, 0, 0, 0, 1, 0, 0⟩ e wf t k).zxMzz) (i := 0) ⟨flatEl, List.mem_cons_self .., 0, rfl⟩
    (lo := (elStress ⟨0, 0, 0, 0, 0, 1, 0, 0⟩ e wf flatEl 0).zxMzz) (hi' := (elStress ⟨0, 0, 0, 0, 0, 1, 0, 0⟩ e wf flatEl 0).zxMzz)
    (by
      intro t ht k hk
      rw [List.mem_singleton.1 ht] at hk ⊢
      have : k = 0 := by
        revert hk; fin_cases k <;> simp [flatEl]
      rw [this]
      exact ⟨le_rfl, le_rfl⟩)
  have hg : (groupStress [flatEl] ⟨0, 0, 0, 0, 0, 1, 0, 0⟩ e wf 0).zxMzz
      = (elStress ⟨0, 0, 0, 0, 0, 1, 0, 0⟩ e wf flatEl 0).zxMzz := le_antisymm hb.2 hb.1
  rw [hg]
  simpa [flatV] using key

/-- **C95** is violated by meshing the geometry again: a section is made and its geometric analysis run, then the geometry is
meshed again with the same nodes and element, numbered differently, then the warping analysis and a stress analysis for a unit
torque are run, with exact solvers.  All return; at the first node the shear stress `τ_zx` has the opposite sign of the one
reported if the geometry is left alone. -/
theorem C95_fields_violated {P : Type} (perimeter : ℝ) (pl : PlasticSection P) (bq : Brentq) :
    let env : Env P := ⟨flatSection, perimeter, exactSolvers, pl, bq⟩
    let a : Actions := ⟨0, 0, 0, 0, 0, 1, 0, 0⟩
    let s1 := env.after [.geometric]
    Section.init flatGeom = .ok env.sec ∧ Section.init turnGeom = .ok turnSection ∧
    turnGeom.materials = flatGeom.materials ∧ Renumbered flatMesh turnMesh turnPerm ∧
    (∃ s2 l g, exec (env.warping .direct) s1 = (.ok (), s2) ∧ exec (env.stress a) s2 = (.ok l, s2) ∧ l[0]? = some g ∧
      0 < (g.comp (0 : Fin 6)).zxMzz) ∧
    ∃ s2 l g, exec (env.warpingNow turnSection.elements .direct) s1 = (.ok (), s2) ∧ exec (env.stress a) s2 = (.ok l, s2) ∧
      l[0]? = some g ∧ (g.comp (0 : Fin 6)).zxMzz < 0 := by
  intro env a s1
  refine ⟨flatSection_init, turnSection_init, rfl, turn_renumbered, ?_⟩
  obtain ⟨r, hr⟩ := geometricAnalysis_ok flatSection (by decide)
  have hs : HoldsGeom env.perimeter r s1 := after_holdsGeom env flatGeom flatSection_init hr _ ⟨.geometric, by simp, trivial⟩
  obtain ⟨w, hw, h1, h2, h3⟩ := exact_warping flatSection r flatSection_good flatSection_physical hr (flat_linked r.cx r.cy)
  obtain ⟨hcx, hcy, -⟩ := flat_results hr
  obtain ⟨-, -, hpos, -⟩ := C19_torsion_constant flatSection r flatSection_good flatSection_physical hr _ _ w hw h1
  have hom := h1
  rw [show (flatSection.elements.map fun t => t.shiftBy r.cx r.cy) = ([flatEl] : List (Tri6 6)) from flat_els hr] at hom
  have hom := flat_omega hom
  -- the section made from the new mesh
  have htg : GoodSection turnSection := init_good turnSection_init rfl (by
    intro (t : Fin 6 → Fin 6) ht
    have ht : t = turnRow := by
      have h : t ∈ ([turnRow] : List (Fin 6 → Fin 6)) := ht
      simpa using h
    show MesherTri turnV t
    rw [ht]
    constructor <;> simp [turnV, turnRow, signedArea2] <;> norm_num)
  have htp : Physical turnSection.elements := by
    refine ⟨by simp [turnSection], htg.proper, ?_⟩
    intro (t : Tri6 6) ht
    have ht : t ∈ [turnEl] := ht
    rw [List.mem_singleton.1 ht]; norm_num [turnEl, flatEl, exSteel]
  have htc : ConnectedMesh turnSection.elements := by
    intro (i : Fin 6) (j : Fin 6)
    have hsur : ∀ i : Fin 6, ∃ k, turnIds k = i := by decide
    obtain ⟨k, hk⟩ := hsur i
    obtain ⟨l, hl⟩ := hsur j
    exact .single ⟨turnEl, List.mem_cons_self .., k, l, hk, hl⟩
  obtain ⟨r', hr'⟩ := geometricAnalysis_ok turnSection (by decide)
  obtain ⟨w', hw', k1, k2, k3⟩ := exact_warping turnSection r' htg htp hr' (linked_shift htc r'.cx r'.cy)
  obtain ⟨er, ej, -, -, -, -, -, τ, hτ⟩ := C71_renumbered (mats := flatGeom.materials) flatMesh_good turn_renumbered flatSection_init
    turnSection_init flatSection_physical flat_connected hr hr' hw hw' ⟨h1, h2, h3⟩ ⟨k1, k2, k3⟩
  rw [er] at hw'
  have hom' : ∀ j : Fin 6, w'.omega j = -107 / 109 * ((turnV j).1 * (turnV j).2) := by
    intro j
    obtain ⟨i, hi⟩ : ∃ i : Fin 6, τ i = j := τ.surjective j
    obtain ⟨t1, t2, -⟩ := hτ i
    have t1 : turnV j = flatV i := by rw [← hi]; exact t1
    have t2 : w'.omega j = w.omega i := by rw [← hi]; exact t2
    rw [t2, hom, t1]
  constructor
  · refine ⟨s1.setWarp w, ?_⟩
    obtain ⟨e, wf, g1, -, g2, g3, -, -, -, -, -, -, g4, -, -, g5⟩ := stress_run env (w := w) hs a
    refine ⟨_, _, (exec_warping env .direct hs).1 w hw, g1, rfl, ?_⟩
    have hw0 : ∀ i : Fin 6, wf.omega i = quad 0 0 0 0 (-107 / 109) 0 (flatV i) := by
      intro i; rw [g5]; refine (hom i).trans ?_; simp only [quad]; ring
    have hj : 0 < e.j := by rw [g4]; exact hpos
    have key := flat_stress (e := e) (wf := wf) (g2.trans hcx) (g3.trans hcy) hj hw0 (by
      intro i; fin_cases i <;> simp [flatV] <;> norm_num [abs_le])
    have := (abs_le.1 key).1
    have hq : 0 < 200 / e.j := by positivity
    refine lt_of_lt_of_le ?_ (sub_le_iff_le_add.2 (neg_le_sub_iff_le_add.1 this))
    nlinarith
  · refine ⟨s1.setWarp w', ?_⟩
    obtain ⟨e, wf, g1, -, g2, g3, -, -, -, -, -, -, g4, -, -, g5⟩ := stress_run env (w := w') hs a
    refine ⟨_, _, (exec_warping (env.regenerated turnSection.elements) .direct (r := r) hs).1 w' hw', g1, rfl, ?_⟩
    have hw0 : ∀ i : Fin 6, wf.omega i
        = quad 0 0 0 (-107 / 109 * (-1 / 24)) (-107 / 109 * (-1 / 2)) (-107 / 109 * (9 / 2)) (flatV i) := by
      intro i; rw [g5]; refine (hom' i).trans ?_
      fin_cases i <;> simp [quad, flatV, turnV] <;> norm_num
    have hj : 0 < e.j := by rw [g4]; exact lt_of_lt_of_eq hpos ej.symm
    have key := flat_stress (e := e) (wf := wf) (g2.trans hcx) (g3.trans hcy) hj hw0 (by
      intro i; fin_cases i <;> simp [flatV] <;> norm_num [abs_le])
    have := (abs_le.1 key).2
    have hq : 0 < 200 / e.j := by positivity
    refine lt_of_le_of_lt (sub_le_iff_le_add.1 this) ?_
    nlinarith

/-- The meshes of the flat triangle: the hypotheses of `C95_remeshed_partial` with two different numberings. -/
example : ∃ r r', flatSection.geometricAnalysis = .ok r ∧ turnSection.geometricAnalysis = .ok r' ∧
    flatSection.warpingNow exactSolvers .direct turnSection r = turnSection.warping exactSolvers .direct r' := by
  obtain ⟨r, hr⟩ := geometricAnalysis_ok flatSection (by decide)
  obtain ⟨r', hr'⟩ := geometricAnalysis_ok turnSection (by decide)
  refine ⟨r, r', hr, hr', C95_remeshed_partial (s := flatSection) (now := turnSection) rfl hr hr' flatSection_good.proper ?_ (List.pairwise_singleton _ _)
    (List.pairwise_singleton _ _) ?_ (E := fun _ => 200) (G := fun _ => 200 / (2 * (1 + 3 / 10))) (ρ := fun _ => exSteel.density)
    ?_ ?_ ?_ ?_ ?_ ?_ Iff.rfl _ _⟩
  · intro (t : Tri6 6) ht
    have ht : t ∈ [turnEl] := ht
    rw [List.mem_singleton.1 ht]
    exact flatSection_good.proper flatEl (List.mem_cons_self ..)
  · have : region flatSection.elements = region turnSection.elements := by
      ext p
      constructor
      · rintro ⟨(t : Tri6 6), ht, h⟩
        have ht : t ∈ [flatEl] := ht
        rw [List.mem_singleton.1 ht] at h
        exact ⟨turnEl, List.mem_cons_self .., h⟩
      · rintro ⟨(t : Tri6 6), ht, h⟩
        have ht : t ∈ [turnEl] := ht
        rw [List.mem_singleton.1 ht] at h
        exact ⟨flatEl, List.mem_cons_self .., h⟩
    exact Filter.Eventually.of_forall fun p => congrFun this p
  all_goals
    intro (t : Tri6 6) ht
    have ht : t = flatEl ∨ t = turnEl := by
      first
        | exact Or.inl (List.mem_singleton.1 (show t ∈ [flatEl] from ht))
        | exact Or.inr (List.mem_singleton.1 (show t ∈ [turnEl] from ht))
    rcases ht with rfl | rfl <;> exact Filter.Eventually.of_forall fun p => by simp [turnEl, flatEl, exSteel]

/-- A section of six nodes whose geometry has been meshed with nine. -/
example (sv : Solvers) (ty : SolverType) (r : GeomResults) : ∃ e, flatSection.warpingNow sv ty exPlain r = .error e :=
  C95_node_count (by decide) sv ty r

end SP
