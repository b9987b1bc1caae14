import Verif.Props.WarpMore

/-!
# C56: the second warping moment

The right triangle with corners `(0, 0)`, `(3, 0)`, `(0, 3)`, meshed with a single element, shows that
the four point rule is not exact for the squared warping function.
-/

namespace SP

open Spec MeasureTheory

/-! ### The example -/

/-- Nodes of the triangle. -/
noncomputable def triV : Fin 6 → ℝ × ℝ :=
  ![(0, 0), (3, 0), (0, 3), (3 / 2, 0), (3 / 2, 3 / 2), (0, 3 / 2)]
/-- The element in the mesher's node order. -/
def triRow : Fin 6 → Fin 6 := ![0, 1, 2, 4, 5, 3]
/-- The mesh: one element. -/
noncomputable def triMesh : MeshData := ⟨6, triV, [triRow], [0]⟩
/-- The geometry. -/
noncomputable def triGeom : GeomIn := ⟨[⟨0, defaultMaterial⟩], some triMesh⟩
/-- The element. -/
noncomputable def triEl : Tri6 6 :=
  ⟨0, gather triV ![0, 1, 2, 3, 4, 5], ![0, 1, 2, 3, 4, 5], defaultMaterial⟩
/-- The section. -/
noncomputable def triSection : Section where
  numNodes := 6
  meshNodes := triV
  materials := triGeom.materials
  elements := [triEl]
  groups := [⟨⟨0, defaultMaterial⟩, [triEl]⟩]

theorem triMesh_good : GoodMesh triMesh := by
  intro (t : Fin 6 → Fin 6) ht
  have ht : t = triRow := by
    have h : t ∈ ([triRow] : List (Fin 6 → Fin 6)) := ht
    simpa using h
  show MesherTri triV t
  rw [ht]
  constructor <;> simp [triV, triRow, signedArea2]

theorem triSection_init : Section.init triGeom = .ok triSection := by
  have hmx : triMesh.attributes.max? = some 0 := by simp [triMesh, List.max?]
  have h0 : mkElement triGeom.materials triMesh triRow 0 = .ok (triEl, ⟨0, defaultMaterial⟩) := by
    simp [mkElement, triMesh, triGeom, triEl, reorder, triRow]
  have hM : triMesh.triangles.zipIdx.mapM (fun p => mkElement triGeom.materials triMesh p.1 p.2)
      = .ok [(triEl, ⟨0, defaultMaterial⟩)] := by
    rw [mapM_ok_forall₂]
    exact .cons h0 .nil
  have hl : triGeom.materials.length = 0 + 1 := rfl
  have hg : groupMaterials triGeom.materials = [⟨0, defaultMaterial⟩] := by
    simp [groupMaterials, triGeom, List.zipIdx]
  unfold Section.init
  simp only [show triGeom.mesh = some triMesh from rfl, hmx, hl, ne_eq, not_true_eq_false,
    if_false, hM, hg]
  simp [addToGroup, triSection]
  exact ⟨rfl, HEq.rfl, HEq.rfl, HEq.rfl⟩

theorem triSection_good : GoodSection triSection := init_good triSection_init rfl triMesh_good

theorem triSection_physical : Physical triSection.elements := by
  refine ⟨by simp [triSection], triSection_good.proper, ?_⟩
  intro (t : Tri6 6) ht
  have ht : t ∈ [triEl] := ht
  rw [List.mem_singleton.1 ht]; norm_num [triEl, defaultMaterial]

theorem triSection_not_composite : ¬ isComposite triSection.materials := by
  simp [isComposite, triSection, triGeom]

theorem tri_linked (cx cy : ℝ) : ConnectedMesh (triSection.elements.map fun t => t.shiftBy cx cy) := by
  intro (i : Fin 6) (j : Fin 6)
  refine .single ⟨triEl.shiftBy cx cy, List.mem_cons_self .., i, j, ?_, ?_⟩
  · fin_cases i <;> rfl
  · fin_cases j <;> rfl

/-- Integrals over the element by the four point rule. -/
theorem tri_integral {f : ℝ × ℝ → ℝ} (hf : f ∈ PolyLE 3) :
    ∫ p in elemRegion triEl.coords, f p
      = 9 / 2 * (-27 / 48 * f (1, 1) + 25 / 48 * (f (3 / 5, 3 / 5) + f (9 / 5, 3 / 5) + f (3 / 5, 9 / 5))) := by
  rw [← accum_gauss4_integral (triSection_good.proper triEl (List.mem_cons_self ..)) hf, accum_eq_sum]
  simp [gauss4, posX, posY, elemDet, signedArea2, cornerA, cornerB, cornerC, triEl, gather, triV]
  norm_num
  ring

/-- The element in centroidal coordinates. -/
noncomputable def triC : Tri6 6 := triEl.shiftBy 1 1

theorem triC_proper : Proper triC.coords :=
  proper_shift (triSection_good.proper triEl (List.mem_cons_self ..)) 1 1

theorem triC_integral {f : ℝ × ℝ → ℝ} (hf : f ∈ PolyLE 3) :
    ∫ p in elemRegion triC.coords, f p
      = 9 / 2 * (-27 / 48 * f (0, 0)
        + 25 / 48 * (f (-2 / 5, -2 / 5) + f (4 / 5, -2 / 5) + f (-2 / 5, 4 / 5))) := by
  rw [← accum_gauss4_integral triC_proper hf, accum_eq_sum]
  simp [gauss4, posX, posY, elemDet, signedArea2, cornerA, cornerB, cornerC, triC, triEl, gather, triV,
    Tri6.shiftBy, Coords.shift]
  norm_num
  ring

theorem mono_mem (i j d : ℕ) (h : i + j ≤ d) : (fun p : ℝ × ℝ => p.1 ^ i * p.2 ^ j) ∈ PolyLE d :=
  Submodule.subset_span ⟨i, j, h, rfl⟩

/-- The results of the geometric analysis. -/
theorem tri_results {r : GeomResults} (hr : triSection.geometricAnalysis = .ok r) :
    r.cx = 1 ∧ r.cy = 1 ∧ r.sums.area = 9 / 2 ∧ r.cent.ixxC = 9 / 4 ∧ r.cent.iyyC = 9 / 4 ∧
    r.cent.ixyC = -9 / 8 := by
  obtain ⟨g1, g2, -, -, -, g6, g7⟩ := geom_ok hr
  obtain ⟨c1, c2, c3, -⟩ := cent_ok g2
  obtain ⟨s1, -, s3, -, s5, s6, s7, s8, s9⟩ :=
    sums_fields (els := ([triEl] : List (Tri6 6))) triSection_good.proper
  have hE : triEl.material.elasticModulus = 1 := by simp [triEl, defaultMaterial]
  have g1 : r.sums = geomSums ([triEl] : List (Tri6 6)) := g1
  have i0 := tri_integral (PolyLE.const 3 1)
  have i1 := tri_integral (PolyLE.mono (by omega) PolyLE.fst)
  have i2 := tri_integral (PolyLE.mono (by omega) PolyLE.snd)
  have i3 := tri_integral (by simpa using mono_mem 2 0 3 (by omega))
  have i4 := tri_integral (by simpa using mono_mem 0 2 3 (by omega))
  have i5 := tri_integral (by simpa using mono_mem 1 1 3 (by omega))
  rw [← g1] at s1 s3 s5 s6 s7 s8 s9
  have s1 : r.sums.area = 9 / 2 := by rw [s1, List.map_singleton, List.sum_singleton, i0]; norm_num
  have s3 : r.sums.ea = 9 / 2 := by
    rw [s3, List.map_singleton, List.sum_singleton, hE, i0]; norm_num
  have s5 : r.sums.qx = 9 / 2 := by
    rw [s5, List.map_singleton, List.sum_singleton, hE, i2]; norm_num
  have s6 : r.sums.qy = 9 / 2 := by
    rw [s6, List.map_singleton, List.sum_singleton, hE, i1]; norm_num
  have s7 : r.sums.ixxG = 27 / 4 := by
    rw [s7, List.map_singleton, List.sum_singleton, hE, i4]; norm_num
  have s8 : r.sums.iyyG = 27 / 4 := by
    rw [s8, List.map_singleton, List.sum_singleton, hE, i3]; norm_num
  have s9 : r.sums.ixyG = 27 / 8 := by
    rw [s9, List.map_singleton, List.sum_singleton, hE, i5]; norm_num
  rw [g6, g7, c1, c2, c3]
  simp only [GeomSums.cx, GeomSums.cy, GeomSums.ixxC, GeomSums.iyyC, GeomSums.ixyC, s1, s3, s5, s6, s7,
    s8, s9]
  norm_num

theorem tri_els {r : GeomResults} (hr : triSection.geometricAnalysis = .ok r) :
    (triSection.elements.map fun t => t.shiftBy r.cx r.cy) = ([triC] : List (Tri6 6)) := by
  obtain ⟨h1, h2, -⟩ := tri_results hr
  rw [h1, h2]; rfl

theorem wInt_tri (f : Tri6 6 → ℝ × ℝ → ℝ) :
    wInt [triC] f = ∫ p in elemRegion triC.coords, f triC p := by
  simp [wInt, triC, triEl, defaultMaterial, Tri6.shiftBy]

/-- The warping field of the triangle. -/
noncomputable def triOmega (p : ℝ × ℝ) : ℝ := (p.2 ^ 2 - p.1 ^ 2) / 4
/-- Its nodal values. -/
noncomputable def triU : Fin 6 → ℝ := ![0, -3 / 4, 3 / 4, 3 / 16, 0, -3 / 16]

theorem triOmega_quad : triOmega = quad 0 0 0 (-1 / 4) 0 (1 / 4) := by
  funext p; simp only [triOmega, quad]; ring

theorem quad_mem (a0 a1 a2 a3 a4 a5 : ℝ) : quad a0 a1 a2 a3 a4 a5 ∈ PolyLE 2 := by
  have e : quad a0 a1 a2 a3 a4 a5 = fun p => a0 * (p.1 ^ 0 * p.2 ^ 0) + a1 * (p.1 ^ 1 * p.2 ^ 0)
      + a2 * (p.1 ^ 0 * p.2 ^ 1) + a3 * (p.1 ^ 2 * p.2 ^ 0) + a4 * (p.1 ^ 1 * p.2 ^ 1)
      + a5 * (p.1 ^ 0 * p.2 ^ 2) := by funext p; simp only [quad]; ring
  rw [e]
  exact Submodule.add_mem _ (Submodule.add_mem _ (Submodule.add_mem _ (Submodule.add_mem _
    (Submodule.add_mem _ (Submodule.smul_mem _ a0 (mono_mem 0 0 2 (by omega)))
    (Submodule.smul_mem _ a1 (mono_mem 1 0 2 (by omega))))
    (Submodule.smul_mem _ a2 (mono_mem 0 1 2 (by omega))))
    (Submodule.smul_mem _ a3 (mono_mem 2 0 2 (by omega))))
    (Submodule.smul_mem _ a4 (mono_mem 1 1 2 (by omega))))
    (Submodule.smul_mem _ a5 (mono_mem 0 2 2 (by omega)))

theorem tri_interp : Interpolates triC.coords (fun k => triU (triC.nodeIds k)) triOmega := by
  refine ⟨triOmega_quad ▸ quad_mem 0 0 0 (-1 / 4) 0 (1 / 4), fun k => ?_⟩
  fin_cases k <;>
    simp [triOmega, triU, triC, triEl, Tri6.shiftBy, Coords.shift, gather, triV] <;> norm_num

theorem tri_distinct : DistinctNodes ([triC] : List (Tri6 6)) := by
  intro t ht a b h
  rw [List.mem_singleton.1 ht] at h
  revert h
  fin_cases a <;> fin_cases b <;> simp [triC, triEl, Tri6.shiftBy]

theorem tri_proper : ∀ t ∈ ([triC] : List (Tri6 6)), Proper t.coords := by
  intro t ht; rw [List.mem_singleton.1 ht]; exact triC_proper

theorem tri_feField : FEField [triC] triU fun _ => triOmega := by
  intro t ht; rw [List.mem_singleton.1 ht]; exact tri_interp

/-- It solves the discrete torsion problem. -/
theorem tri_solves : SolvesBordered (assembleTorsion [triC]).1 (assembleTorsion [triC]).2 triU := by
  refine ⟨0, (klg_mulVec _ _ _ _).2 ⟨fun i => ?_, ?_⟩⟩
  · simp only [Fin.snoc_castSucc, Fin.snoc_last, mul_zero, add_zero]
    obtain ⟨q, hq⟩ := exists_feField tri_proper (fun k => if k = i then 1 else 0)
    have h1 := stiff_dirichlet tri_proper hq tri_feField
    have h2 := load_form tri_proper tri_distinct hq
    simp only [ite_mul, one_mul, zero_mul, Finset.sum_ite_irrel, Finset.sum_const_zero,
      Finset.sum_ite_eq', Finset.mem_univ, if_true, dotN] at h1 h2
    rw [h1, h2, dirichlet, wInt_tri, wInt_tri]
    have hm := (hq triC (List.mem_singleton.2 rfl)).1
    obtain ⟨a0, a1, a2, a3, a4, a5, e⟩ := polyLE2_quad hm
    rw [e, triOmega_quad]
    simp only [quad_dX, quad_dY]
    rw [triC_integral, triC_integral]
    · norm_num; ring
    · have := quad_mem 0 (-a2) a1 (-a4) (2 * a3 - 2 * a5) a4
      rw [show (fun p : ℝ × ℝ => (a1 + 2 * a3 * p.1 + a4 * p.2) * p.2
        - (a2 + a4 * p.1 + 2 * a5 * p.2) * p.1) = quad 0 (-a2) a1 (-a4) (2 * a3 - 2 * a5) a4 by
          funext p; simp only [quad]; ring]
      exact PolyLE.mono (by omega) this
    · have := quad_mem 0 (-a1 / 2) (a2 / 2) (-a3) 0 a5
      rw [show (fun p : ℝ × ℝ => (a1 + 2 * a3 * p.1 + a4 * p.2) * (0 + 2 * (-1 / 4) * p.1 + 0 * p.2)
        + (a2 + a4 * p.1 + 2 * a5 * p.2) * (0 + 0 * p.1 + 2 * (1 / 4) * p.2))
          = quad 0 (-a1 / 2) (a2 / 2) (-a3) 0 a5 by
          funext p; simp only [quad]; ring]
      exact PolyLE.mono (by omega) this
  · have h := constr_form tri_proper tri_distinct tri_feField
    simp only [Fin.snoc_castSucc]
    rw [dotN] at h
    rw [Finset.sum_congr rfl fun i _ => mul_comm _ _, h, wInt_tri, triC_integral]
    · norm_num [triOmega]
    · rw [triOmega_quad]; exact PolyLE.mono (show 2 ≤ 3 by omega) (quad_mem 0 0 0 (-1 / 4) 0 (1 / 4))

/-- The exact integral of the squared warping function. -/
theorem tri_fourth : ∫ p in elemRegion triC.coords, triOmega p ^ 2 = 27 / 160 := by
  have hreg : elemRegion triC.coords = convexHull ℝ {((2 : ℝ), (-1 : ℝ)), (-1, 2), (-1, -1)} := by
    have : elemRegion triC.coords = convexHull ℝ {((-1 : ℝ), (-1 : ℝ)), (2, -1), (-1, 2)} := by
      simp [elemRegion, Spec.triangle, cornerA, cornerB, cornerC, triC, triEl, gather, triV,
        Tri6.shiftBy, Coords.shift]
      norm_num
    rw [this]
    congr 1
    ext p
    simp only [Set.mem_insert_iff, Set.mem_singleton_iff]
    tauto
  rw [hreg, integral_triangle (by norm_num [cross2]) _ (by unfold triOmega; fun_prop)]
  have inner : ∀ s : ℝ, ∫ t in (0 : ℝ)..(1 - s),
      triOmega (triMap ((2 : ℝ), (-1 : ℝ)) (-1, 2) (-1, -1) (s, t)) ^ 2
        = 1 / 16 * (81 * ((1 - s) ^ 5 / 5 - 2 * s ^ 2 * (1 - s) ^ 3 / 3 + s ^ 4 * (1 - s))
          - 108 * ((1 - s) ^ 4 / 4 - s * (1 - s) ^ 3 / 3 - s ^ 2 * (1 - s) ^ 2 / 2 + s ^ 3 * (1 - s))
          + 36 * ((1 - s) ^ 3 / 3 - s * (1 - s) ^ 2 + s ^ 2 * (1 - s))) := by
    intro s
    have hd : ∀ t : ℝ, HasDerivAt (fun t : ℝ =>
        1 / 16 * (81 * (t ^ 5 / 5 - 2 * s ^ 2 * t ^ 3 / 3 + s ^ 4 * t)
          - 108 * (t ^ 4 / 4 - s * t ^ 3 / 3 - s ^ 2 * t ^ 2 / 2 + s ^ 3 * t)
          + 36 * (t ^ 3 / 3 - s * t ^ 2 + s ^ 2 * t)))
        (triOmega (triMap ((2 : ℝ), (-1 : ℝ)) (-1, 2) (-1, -1) (s, t)) ^ 2) t := by
      intro t
      have hx := hasDerivAt_id' t
      have h1 := (((hx.pow 5).div_const 5).sub (((hx.pow 3).const_mul (2 * s ^ 2)).div_const 3)).add
        (hx.const_mul (s ^ 4))
      have h2 := ((((hx.pow 4).div_const 4).sub (((hx.pow 3).const_mul s).div_const 3)).sub
        (((hx.pow 2).const_mul (s ^ 2)).div_const 2)).add (hx.const_mul (s ^ 3))
      have h3 := (((hx.pow 3).div_const 3).sub ((hx.pow 2).const_mul s)).add (hx.const_mul (s ^ 2))
      have h := (((h1.const_mul 81).sub (h2.const_mul 108)).add (h3.const_mul 36)).const_mul (1 / 16)
      refine h.congr_deriv ?_
      simp only [triOmega, triMap]
      push_cast
      ring
    rw [intervalIntegral.integral_eq_sub_of_hasDerivAt (fun t _ => hd t)
      (Continuous.intervalIntegrable (by unfold triOmega triMap; fun_prop) _ _)]
    ring
  simp only [inner]
  have outer : ∀ s : ℝ, HasDerivAt (fun s : ℝ => 3 / 40 * s - 9 / 32 * s ^ 2 + 3 / 4 * s ^ 3
      - 21 / 16 * s ^ 4 + 99 / 80 * s ^ 5 - 9 / 20 * s ^ 6)
      (1 / 16 * (81 * ((1 - s) ^ 5 / 5 - 2 * s ^ 2 * (1 - s) ^ 3 / 3 + s ^ 4 * (1 - s))
          - 108 * ((1 - s) ^ 4 / 4 - s * (1 - s) ^ 3 / 3 - s ^ 2 * (1 - s) ^ 2 / 2 + s ^ 3 * (1 - s))
          + 36 * ((1 - s) ^ 3 / 3 - s * (1 - s) ^ 2 + s ^ 2 * (1 - s)))) s := by
    intro s
    have hx := hasDerivAt_id' s
    have h := (((((hx.const_mul (3 / 40)).sub ((hx.pow 2).const_mul (9 / 32))).add
      ((hx.pow 3).const_mul (3 / 4))).sub ((hx.pow 4).const_mul (21 / 16))).add
      ((hx.pow 5).const_mul (99 / 80))).sub ((hx.pow 6).const_mul (9 / 20))
    refine h.congr_deriv ?_
    push_cast
    ring
  rw [intervalIntegral.integral_eq_sub_of_hasDerivAt (fun s _ => outer s)
    (Continuous.intervalIntegrable (by fun_prop) _ _)]
  norm_num [cross2]

/-! ### C56 -/

theorem iOmega_sum {n : ℕ} {els : List (Tri6 n)} (w : WarpIn) (omega : Fin n → ℝ) :
    (scWarpingIntegrals els w omega).iOmega = (els.map fun t => accum gauss4 fun gp =>
      t.eWeight gp * dot6 (shapeFunction t.coords gp).n (t.local omega) ^ 2).sum := by
  simp only [scWarpingIntegrals, accum_eq_sum els, Tri6.shearWarpingIntegrals]

/-- **C56** (what holds): for every mesh and every nodal field, the first warping moment and the mixed
moments are exact; the second warping moment is exact, and hence not negative, for fields that are
linear on each element.  Missing: exactness for the quadratic fields that the warping analysis produces,
which is false, see `C56_violated` and `C56_negative_violated`. -/
theorem C56_moments_partial {n : ℕ} {els : List (Tri6 n)} (hp : ∀ t ∈ els, Proper t.coords)
    (hE : ∀ t ∈ els, 0 < t.material.elasticModulus) (w : WarpIn) (omega : Fin n → ℝ)
    (q : Tri6 n → ℝ × ℝ → ℝ) (hq : FEField els omega q) :
    (scWarpingIntegrals els w omega).qOmega = wInt els q ∧
    (scWarpingIntegrals els w omega).iXomega = wInt els (fun t p => p.1 * q t p) ∧
    (scWarpingIntegrals els w omega).iYomega = wInt els (fun t p => p.2 * q t p) ∧
    ((∀ t ∈ els, q t ∈ PolyLE 1) →
      (scWarpingIntegrals els w omega).iOmega = wInt els (fun t p => q t p ^ 2) ∧
      0 ≤ (scWarpingIntegrals els w omega).iOmega) := by
  obtain ⟨h1, h2, h3⟩ := scInts_form hp w hq
  refine ⟨h1, h2, h3, fun hl => ?_⟩
  have h : (scWarpingIntegrals els w omega).iOmega = wInt els (fun t p => q t p ^ 2) := by
    rw [iOmega_sum]
    refine sum_elem_quad hp (fun t ht => ?_) fun t ht gp hb => ?_
    · have e : (fun p => q t p ^ 2) = fun p => q t p * q t p := by funext p; ring
      rw [e]
      exact PolyLE.mono (show 2 ≤ 3 by omega) (poly_mul2 (hl t ht) (hl t ht))
    · exact congrArg (· ^ 2) (interp_val (hp t ht) hb (hq t ht))
  refine ⟨h, ?_⟩
  rw [h]
  exact wInt_nonneg hE fun _ _ _ => sq_nonneg _

theorem tri_core {els : List (Tri6 6)} (hels : els = [triC]) {W : WarpIn} {w : WarpResults 6}
    (hw : warpingAnalysis exactSolvers .direct els W = .ok w) (h1 : W.ixx = 9 / 4) (h2 : W.iyy = 9 / 4)
    (h3 : W.ixy = -9 / 8) (h4 : W.ea = 9 / 2)
    (ho : SolvesBordered (assembleTorsion els).1 (assembleTorsion els).2 w.omega)
    (x1 : w.sc.xSe = w.sc.xSt) (x2 : w.sc.ySe = w.sc.ySt) :
    w.sc.xSe = -1 / 10 ∧ w.sc.ySe = -1 / 10 ∧
    FEField els w.omega (fun _ => triOmega) ∧
      (scWarpingIntegrals els W w.omega).iOmega = 27 / 400 ∧
      wInt els (fun _ p => triOmega p ^ 2) = 27 / 160 ∧
      w.gamma = 0 ∧
      wInt els (fun _ p => triOmega p ^ 2) - wInt els (fun _ => triOmega) ^ 2 / wInt els (fun _ _ => 1)
        - w.sc.ySe * wInt els (fun t p => p.1 * triOmega p)
        + w.sc.xSe * wInt els (fun t p => p.2 * triOmega p) = 81 / 800 := by
  subst hels
  have hP : Physical ([triC] : List (Tri6 6)) := shifted_physical triSection_physical 1 1
  have hom : w.omega = triU := by
    obtain ⟨μ, hμ⟩ := ho
    obtain ⟨ν, hν⟩ := tri_solves
    have hu := ((C18_unique_iff_connected hP tri_distinct).2 (tri_linked 1 1) _).unique hμ hν
    funext i
    have := congrFun hu i.castSucc
    rwa [Fin.snoc_castSucc, Fin.snoc_castSucc] at this
  obtain ⟨-, -, -, -, -, hsc, hga, -⟩ := warping_ok hw
  have hq : FEField [triC] w.omega (fun _ => triOmega) := by rw [hom]; exact tri_feField
  have hQ : triOmega ∈ PolyLE 2 := (hq triC (List.mem_singleton.2 rfl)).1
  obtain ⟨m1, m2, m3, -⟩ := C56_moments_partial hP.proper hP.modulus W w.omega _ hq
  rw [wInt_tri, triC_integral (PolyLE.mono (by omega) hQ)] at m1
  rw [wInt_tri, triC_integral (poly_mul3 PolyLE.fst hQ)] at m2
  rw [wInt_tri, triC_integral (poly_mul3 PolyLE.snd hQ)] at m3
  norm_num [triOmega] at m1 m2 m3
  have m4 : (scWarpingIntegrals [triC] W w.omega).iOmega = 27 / 400 := by
    rw [iOmega_sum, List.map_singleton, List.sum_singleton, accum_eq_sum]
    have hv : ∀ gp, gp.Bary → triC.eWeight gp * dot6 (shapeFunction triC.coords gp).n
        (triC.local w.omega) ^ 2 = gp.w * (9 / 2) * triOmega (posX triC.coords gp, posY triC.coords gp) ^ 2 := by
      intro gp hb
      have e : dot6 (shapeFunction triC.coords gp).n (triC.local w.omega)
        = triOmega (posX triC.coords gp, posY triC.coords gp) :=
        interp_val triC_proper hb (hq triC (List.mem_singleton.2 rfl))
      rw [e, eWeight_eq triC_proper hb]
      congr 1
      simp [elemDet, signedArea2, cornerA, cornerB, cornerC, triC, triEl, gather, triV,
        Tri6.shiftBy, Coords.shift, defaultMaterial]
      left
      norm_num
    rw [List.map_congr_left fun gp h => hv gp (gauss4_bary gp h)]
    simp [gauss4, posX, posY, triC, triEl, gather, triV, Tri6.shiftBy, Coords.shift, triOmega]
    norm_num
  have hx : w.sc.xSe = -1 / 10 := by
    rw [x1, hsc]; simp only [shearCentres, m2, m3, h1, h2, h3]; norm_num
  have hy : w.sc.ySe = -1 / 10 := by
    rw [x2, hsc]; simp only [shearCentres, m2, m3, h1, h2, h3]; norm_num
  refine ⟨hx, hy, hq, m4, by rw [wInt_tri, tri_fourth], ?_, ?_⟩
  · rw [hga]
    simp only [warpingConstant, m1, m2, m3, m4, hx, hy]
    norm_num
  · simp only [wInt_tri]
    rw [tri_fourth, triC_integral (PolyLE.mono (by omega) hQ),
      triC_integral (poly_mul3 PolyLE.fst hQ), triC_integral (poly_mul3 PolyLE.snd hQ), hx, hy]
    norm_num [triOmega]

/-- **C56 violated** (exactness): the right triangle with corners `(0, 0)`, `(3, 0)`, `(0, 3)` and the
default material, meshed with one element and solved exactly: the reported second warping moment is
`27/400`, the integral of the squared warping field is `27/160`.  The reported warping constant is `0`;
with the exact integral it would be `81/800`. -/
theorem C56_violated : ∃ (g : GeomIn) (s : Section) (r : GeomResults) (w : WarpResults s.numNodes),
    Section.init g = .ok s ∧ Physical s.elements ∧ s.geometricAnalysis = .ok r ∧
    s.warping exactSolvers .direct r = .ok w ∧
    let els := s.elements.map fun t => t.shiftBy r.cx r.cy
    SolvesBordered (assembleTorsion els).1 (assembleTorsion els).2 w.omega ∧
    ∃ q, FEField els w.omega q ∧
      (scWarpingIntegrals els (warpIn s.materials r) w.omega).iOmega = 27 / 400 ∧
      wInt els (fun t p => q t p ^ 2) = 27 / 160 ∧
      w.gamma = 0 ∧
      wInt els (fun t p => q t p ^ 2) - wInt els q ^ 2 / wInt els (fun _ _ => 1)
        - w.sc.ySe * wInt els (fun t p => p.1 * q t p)
        + w.sc.xSe * wInt els (fun t p => p.2 * q t p) = 81 / 800 := by
  obtain ⟨r, hr⟩ := geometricAnalysis_ok triSection (by simp [triSection])
  obtain ⟨w, hw, h1, h2, h3⟩ := exact_warping triSection r triSection_good triSection_physical hr
    (tri_linked r.cx r.cy)
  obtain ⟨x1, x2⟩ := C21_shear_centres triSection r triSection_good triSection_physical hr
    exactSolvers .direct w hw (fun h => absurd h triSection_not_composite) h1 h2 h3
  obtain ⟨hcx, hcy, harea, hixx, hiyy, hixy⟩ := tri_results hr
  have hels : (triSection.elements.map fun t => t.shiftBy r.cx r.cy) = ([triC] : List (Tri6 6)) := tri_els hr
  have hnc := triSection_not_composite
  obtain ⟨-, -, k1, k2, k3, k4, k5⟩ := tri_core hels hw hixx hiyy hixy
    (by simp only [warpIn, if_neg hnc]; exact harea) h1 x1 x2
  exact ⟨triGeom, triSection, r, w, triSection_init, triSection_physical, hr, hw, h1, _, k1, k2, k3, k4, k5⟩

/-- **C56 violated** (sign): for every single straight-sided element with positive modulus there are
nodal values for which the second warping moment computed by the code is negative, although the integral
of a square is not. -/
theorem C56_negative_violated {n : ℕ} (t : Tri6 n) (hp : Proper t.coords)
    (hd : Function.Injective t.nodeIds) (hE : 0 < t.material.elasticModulus) (w : WarpIn) :
    ∃ (omega : Fin n → ℝ), (scWarpingIntegrals [t] w omega).iOmega < 0 ∧
      ∀ q : Tri6 n → ℝ × ℝ → ℝ, 0 ≤ wInt [t] (fun t p => q t p ^ 2) := by
  let v : Fin 6 → ℝ := ![-14 / 25, -14 / 25, -14 / 25, -3 / 50, -3 / 50, -3 / 50]
  obtain ⟨omega, hom⟩ : ∃ omega : Fin n → ℝ, t.local omega = v := by
    refine ⟨fun i => Function.extend t.nodeIds v 0 i, ?_⟩
    funext k
    exact hd.extend_apply v 0 k
  refine ⟨omega, ?_, fun q => wInt_nonneg (fun u hu => by rw [List.mem_singleton.1 hu]; exact hE)
    fun _ _ _ => sq_nonneg _⟩
  rw [iOmega_sum, List.map_singleton, List.sum_singleton, accum_eq_sum, hom]
  have hv : ∀ gp, gp.Bary → t.eWeight gp * dot6 (shapeFunction t.coords gp).n v ^ 2
      = t.material.elasticModulus * (elemDet t.coords / 2)
        * (gp.w * (∑ i, shapeN gp.eta gp.xi gp.zeta i * v i) ^ 2) := by
    intro gp hb
    rw [eWeight_eq hp hb]
    have : dot6 (shapeFunction t.coords gp).n v = ∑ i, shapeN gp.eta gp.xi gp.zeta i * v i := rfl
    rw [this]
    ring
  rw [List.map_congr_left fun gp h => hv gp (gauss4_bary gp h), List.sum_map_mul_left]
  have hD := hp.2
  refine mul_neg_of_pos_of_neg (by positivity) ?_
  simp [gauss4, Fin.sum_univ_six, shapeN, v]
  norm_num

/-- Non-vacuity of `C56_moments_partial` (with a field linear on the element) and of
`C56_negative_violated`. -/
example : (∀ t ∈ ([triC] : List (Tri6 6)), Proper t.coords) ∧
    (∀ t ∈ ([triC] : List (Tri6 6)), 0 < t.material.elasticModulus) ∧
    (∃ omega, FEField ([triC] : List (Tri6 6)) omega fun _ p => 1 + p.1) ∧
    Function.Injective triC.nodeIds := by
  refine ⟨tri_proper, (shifted_physical triSection_physical 1 1).modulus,
    ⟨fun i => (triV i).1, ?_⟩, tri_distinct triC (List.mem_singleton.2 rfl)⟩
  intro t ht
  rw [List.mem_singleton.1 ht]
  refine ⟨PolyLE.mono (show 1 ≤ 2 by omega) (by simpa using polyLE_affine 1 1 0), fun k => ?_⟩
  fin_cases k <;> simp [triC, triEl, Tri6.shiftBy, Coords.shift, gather, triV]

/-- Non-vacuity of `C55_symmetric`: the triangle is symmetric about its first principal axis and its
shear centre lies on it. -/
example : ∃ r w, triSection.geometricAnalysis = .ok r ∧
    triSection.warping exactSolvers .direct r = .ok w ∧ NoOverlap triSection.elements ∧
    ImageUnder (reflection (axisAngle r .a11) (0, 0)) triSection.elements triSection.elements ∧
    w.sc.ySe * Real.cos (axisAngle r .a11) - w.sc.xSe * Real.sin (axisAngle r .a11) = 0 := by
  obtain ⟨r, hr⟩ := geometricAnalysis_ok triSection (by simp [triSection])
  obtain ⟨w, hw, h1, h2, h3⟩ := exact_warping triSection r triSection_good triSection_physical hr
    (tri_linked r.cx r.cy)
  obtain ⟨x1, x2⟩ := C21_shear_centres triSection r triSection_good triSection_physical hr
    exactSolvers .direct w hw (fun h => absurd h triSection_not_composite) h1 h2 h3
  obtain ⟨hcx, hcy, harea, hixx, hiyy, hixy⟩ := tri_results hr
  have hels : (triSection.elements.map fun t => t.shiftBy r.cx r.cy) = ([triC] : List (Tri6 6)) := tri_els hr
  have hnc := triSection_not_composite
  obtain ⟨k1, k2, -⟩ := tri_core hels hw hixx hiyy hixy
    (by simp only [warpIn, if_neg hnc]; exact harea) h1 x1 x2
  obtain ⟨-, g2, -⟩ := geom_ok hr
  obtain ⟨c1, c2, c3, -, -, c6, -⟩ := cent_ok g2
  have hθ : Real.cos (axisAngle r .a11) = Real.sin (axisAngle r .a11) := by
    simp only [axisAngle]
    rw [c6, ← c1, ← c2, ← c3, hixx, hiyy, hixy]
    have hi : i11Of (9 / 4) (9 / 4) (-9 / 8) = 27 / 8 := by
      rw [i11Of, mohrDelta, show ((9 / 4 - 9 / 4 : ℝ) / 2) ^ 2 + (-9 / 8) ^ 2 = (9 / 8) ^ 2 by norm_num,
        Real.sqrt_sq (by norm_num)]
      norm_num
    rw [phiOf, hi, if_neg (by norm_num [abs_of_neg])]
    have e : ∀ a : ℝ, a * 180 / Real.pi * Real.pi / 180 = a := fun a => by
      have := Real.pi_ne_zero
      field_simp
    have hz : (⟨-9 / 8, 9 / 4 - 27 / 8⟩ : ℂ) ≠ 0 := by
      intro h; have := congrArg Complex.re h; norm_num at this
    rw [e, arctan2, Complex.cos_arg hz, Complex.sin_arg]
    norm_num
  have hsc := Real.sin_sq_add_cos_sq (axisAngle r .a11)
  have hs2 : Real.sin (axisAngle r .a11) ^ 2 = 1 / 2 := by rw [hθ] at hsc; linarith
  have t1 : Real.cos (2 * axisAngle r .a11) = 0 := by
    rw [Real.cos_two_mul, hθ, hs2]; norm_num
  have t2 : Real.sin (2 * axisAngle r .a11) = 1 := by
    rw [Real.sin_two_mul, hθ, mul_assoc, ← sq, hs2]; norm_num
  refine ⟨r, w, hr, hw, List.pairwise_singleton .., ?_, by rw [k1, k2, hθ]; ring⟩
  have hφ : reflection (axisAngle r .a11) (0, 0) = affine 0 1 1 0 0 0 := by
    simp [reflection, t1, t2]
  rw [hφ]
  have hreg : region triSection.elements = elemRegion triEl.coords := by
    ext p
    constructor
    · rintro ⟨t, ht, hp⟩
      have ht : t ∈ ([triEl] : List (Tri6 6)) := ht
      rwa [List.mem_singleton.1 ht] at hp
    · exact fun hp => ⟨triEl, List.mem_cons_self .., hp⟩
  refine ⟨?_, fun prop => ⟨fun _ => prop triEl.material, fun _ => prop triEl.material, ?_, ?_, fun _ => rfl⟩⟩
  · rw [hreg, ← elemRegion_map]
    simp only [elemRegion, Spec.triangle, cornerA, cornerB, cornerC, Coords.map, affine, triEl, gather, triV]
    congr 1
    simp [Set.pair_comm]
  · intro t ht
    have ht : t ∈ ([triEl] : List (Tri6 6)) := ht
    rw [List.mem_singleton.1 ht]
    exact Filter.Eventually.of_forall fun _ _ => rfl
  · intro t ht
    have ht : t ∈ ([triEl] : List (Tri6 6)) := ht
    rw [List.mem_singleton.1 ht]
    exact Filter.Eventually.of_forall fun _ _ => rfl

end SP
