import Verif.Lemmas.Green
import Verif.Lemmas.Forms
import Verif.Spec.StressFunction
import Verif.Spec.Converge
import Mathlib.Analysis.Calculus.FDeriv.Symmetric
import Mathlib.Analysis.Calculus.LineDeriv.IntegrationByParts
import Mathlib.Analysis.Calculus.ContDiff.FiniteDimension
import Mathlib.MeasureTheory.Measure.Haar.OfBasis
import Mathlib.Algebra.QuadraticDiscriminant

/-!
# The work of a warping field on a stress function
-/

namespace SP

open Spec MeasureTheory Set

/-! ### Partial derivatives -/

theorem hasDerivAt_dX {ψ : ℝ × ℝ → ℝ} (h : Differentiable ℝ ψ) (p : ℝ × ℝ) :
    HasDerivAt (fun x => ψ (x, p.2)) (dX ψ p) p.1 := by
  have hd : DifferentiableAt ℝ (fun x : ℝ => ψ (x, p.2)) p.1 := by
    refine DifferentiableAt.comp p.1 (g := ψ) (f := fun x : ℝ => (x, p.2)) (h _) (by fun_prop)
  exact hd.hasDerivAt

theorem hasDerivAt_dY {ψ : ℝ × ℝ → ℝ} (h : Differentiable ℝ ψ) (p : ℝ × ℝ) :
    HasDerivAt (fun y => ψ (p.1, y)) (dY ψ p) p.2 := by
  have hd : DifferentiableAt ℝ (fun y : ℝ => ψ (p.1, y)) p.2 := by
    refine DifferentiableAt.comp p.2 (g := ψ) (f := fun y : ℝ => (p.1, y)) (h _) (by fun_prop)
  exact hd.hasDerivAt

theorem dX_eq {ψ : ℝ × ℝ → ℝ} (h : Differentiable ℝ ψ) : dX ψ = fun p => fderiv ℝ ψ p (1, 0) := by
  funext p
  have h1 : HasDerivAt (fun x : ℝ => (x, p.2)) ((1 : ℝ), (0 : ℝ)) p.1 := (hasDerivAt_id p.1).prodMk (hasDerivAt_const _ _)
  exact ((h p).hasFDerivAt.comp_hasDerivAt p.1 h1).deriv

theorem dY_eq {ψ : ℝ × ℝ → ℝ} (h : Differentiable ℝ ψ) : dY ψ = fun p => fderiv ℝ ψ p (0, 1) := by
  funext p
  have h1 : HasDerivAt (fun y : ℝ => (p.1, y)) ((0 : ℝ), (1 : ℝ)) p.2 := (hasDerivAt_const _ _).prodMk (hasDerivAt_id p.2)
  exact ((h p).hasFDerivAt.comp_hasDerivAt p.2 h1).deriv

theorem contDiff_dX {ψ : ℝ × ℝ → ℝ} (h : ContDiff ℝ 2 ψ) : ContDiff ℝ 1 (dX ψ) := by
  rw [dX_eq (h.differentiable (by norm_num))]
  exact (h.fderiv_right (m := 1) (by norm_num)).clm_apply contDiff_const

theorem contDiff_dY {ψ : ℝ × ℝ → ℝ} (h : ContDiff ℝ 2 ψ) : ContDiff ℝ 1 (dY ψ) := by
  rw [dY_eq (h.differentiable (by norm_num))]
  exact (h.fderiv_right (m := 1) (by norm_num)).clm_apply contDiff_const

theorem continuous_dX {ψ : ℝ × ℝ → ℝ} (h : ContDiff ℝ 1 ψ) : Continuous (dX ψ) := by
  rw [dX_eq (h.differentiable (by norm_num))]
  exact (h.continuous_fderiv (by norm_num)).clm_apply continuous_const

theorem continuous_dY {ψ : ℝ × ℝ → ℝ} (h : ContDiff ℝ 1 ψ) : Continuous (dY ψ) := by
  rw [dY_eq (h.differentiable (by norm_num))]
  exact (h.continuous_fderiv (by norm_num)).clm_apply continuous_const

theorem mixed_eq {ψ : ℝ × ℝ → ℝ} (h : ContDiff ℝ 2 ψ) (p : ℝ × ℝ) : dX (dY ψ) p = dY (dX ψ) p := by
  have h1 : Differentiable ℝ ψ := h.differentiable (by norm_num)
  have h2 : Differentiable ℝ (fderiv ℝ ψ) := (h.fderiv_right (m := 1) (by norm_num)).differentiable (by norm_num)
  have hs : IsSymmSndFDerivAt ℝ ψ p := h.contDiffAt.isSymmSndFDerivAt (by simp)
  rw [dX_eq ((contDiff_dY h).differentiable (by norm_num)), dY_eq ((contDiff_dX h).differentiable (by norm_num)), dX_eq h1,
    dY_eq h1]
  simp only
  rw [fderiv_clm_apply (h2 p) (by fun_prop), fderiv_clm_apply (h2 p) (by fun_prop)]
  simp
  exact hs _ _

theorem contDiff_quad {q : ℝ × ℝ → ℝ} (hq : q ∈ PolyLE 2) : ContDiff ℝ 2 q := by
  obtain ⟨a0, a1, a2, a3, a4, a5, rfl⟩ := polyLE2_quad hq
  unfold quad
  fun_prop

/-! ### The volume under the hill -/

theorem hill_x {ψ : ℝ × ℝ → ℝ} (h : ContDiff ℝ 2 ψ) (hc : HasCompactSupport ψ) :
    ∫ p, p.1 * dX ψ p = - ∫ p, ψ p := by
  have hd : Differentiable ℝ ψ := h.differentiable (by norm_num)
  have h1 : ContDiff ℝ 1 ψ := h.of_le (by norm_num)
  have hf : ∀ p : ℝ × ℝ, fderiv ℝ (fun p : ℝ × ℝ => p.1) p (1, 0) = 1 := fun p => by
    rw [show (fun p : ℝ × ℝ => p.1) = (ContinuousLinearMap.fst ℝ ℝ ℝ : ℝ × ℝ → ℝ) from rfl, ContinuousLinearMap.fderiv]; simp
  have hcd : HasCompactSupport (fun p => fderiv ℝ ψ p (1, 0)) := hc.fderiv_apply ℝ (1, 0)
  have hcont : Continuous fun p => fderiv ℝ ψ p (1, 0) := by
    rw [← dX_eq hd]; exact continuous_dX h1
  have e := integral_mul_fderiv_eq_neg_fderiv_mul_of_integrable (μ := (volume : Measure (ℝ × ℝ)))
    (f := fun p : ℝ × ℝ => p.1) (g := ψ) (v := (1, 0))
    (by simp only [hf, one_mul]; exact h1.continuous.integrable_of_hasCompactSupport hc)
    ((continuous_fst.mul hcont).integrable_of_hasCompactSupport hcd.mul_left)
    ((continuous_fst.mul h1.continuous).integrable_of_hasCompactSupport hc.mul_left)
    (fun x _ => by fun_prop) (fun x _ => hd x)
  simp only [hf, one_mul] at e
  rw [dX_eq hd]
  exact e

theorem hill_y {ψ : ℝ × ℝ → ℝ} (h : ContDiff ℝ 2 ψ) (hc : HasCompactSupport ψ) :
    ∫ p, p.2 * dY ψ p = - ∫ p, ψ p := by
  have hd : Differentiable ℝ ψ := h.differentiable (by norm_num)
  have h1 : ContDiff ℝ 1 ψ := h.of_le (by norm_num)
  have hf : ∀ p : ℝ × ℝ, fderiv ℝ (fun p : ℝ × ℝ => p.2) p (0, 1) = 1 := fun p => by
    rw [show (fun p : ℝ × ℝ => p.2) = (ContinuousLinearMap.snd ℝ ℝ ℝ : ℝ × ℝ → ℝ) from rfl, ContinuousLinearMap.fderiv]; simp
  have hcd : HasCompactSupport (fun p => fderiv ℝ ψ p (0, 1)) := hc.fderiv_apply ℝ (0, 1)
  have hcont : Continuous fun p => fderiv ℝ ψ p (0, 1) := by
    rw [← dY_eq hd]; exact continuous_dY h1
  have e := integral_mul_fderiv_eq_neg_fderiv_mul_of_integrable (μ := (volume : Measure (ℝ × ℝ)))
    (f := fun p : ℝ × ℝ => p.2) (g := ψ) (v := (0, 1))
    (by simp only [hf, one_mul]; exact h1.continuous.integrable_of_hasCompactSupport hc)
    ((continuous_snd.mul hcont).integrable_of_hasCompactSupport hcd.mul_left)
    ((continuous_snd.mul h1.continuous).integrable_of_hasCompactSupport hc.mul_left)
    (fun x _ => by fun_prop) (fun x _ => hd x)
  simp only [hf, one_mul] at e
  rw [dY_eq hd]
  exact e

/-! ### The mesh -/

variable {n : ℕ} {els : List (Tri6 n)} {u : Fin n → ℝ} {q : Tri6 n → ℝ × ℝ → ℝ} {ψ : ℝ × ℝ → ℝ}

theorem region_eq_pieces [DecidableEq (Tri6 n)] : region els = ⋃ t ∈ els.toFinset, elemRegion t.coords := by
  ext p
  simp only [region, mem_ofPred_eq, mem_iUnion, List.mem_toFinset, exists_prop]

theorem elem_interiors (hno : NoOverlap els) {a b : Tri6 n} (ha : a ∈ els) (hb : b ∈ els) (hab : a ≠ b) :
    Disjoint (interior (elemRegion a.coords)) (interior (elemRegion b.coords)) := by
  have h0 : volume (elemRegion a.coords ∩ elemRegion b.coords) = 0 := by
    obtain ⟨i, hi, rfl⟩ := List.getElem_of_mem ha
    obtain ⟨j, hj, rfl⟩ := List.getElem_of_mem hb
    rcases Nat.lt_trichotomy i j with h | h | h
    · exact List.pairwise_iff_getElem.1 hno i j hi hj h
    · subst h; exact absurd rfl hab
    · rw [inter_comm]; exact List.pairwise_iff_getElem.1 hno j i hj hi h
  rw [Set.disjoint_iff_inter_eq_empty]
  refine (IsOpen.measure_eq_zero_iff volume (isOpen_interior.inter isOpen_interior)).1 ?_
  exact measure_mono_null (inter_subset_inter interior_subset interior_subset) h0

/-- Finite element fields on a conforming mesh are virtual displacements. -/
theorem feField_test {pos : Fin n → ℝ × ℝ} (hc : ConformingMesh pos els)
    (hpos : ∀ t ∈ els, ∀ k, (t.coords.x k, t.coords.y k) = pos (t.nodeIds k)) (hq : FEField els u q) : TestField els q :=
  ⟨fun t ht => (contDiff_quad (hq t ht).1).of_le (by norm_num), fun _ ha _ hb _ hp => field_agree hc hpos hq ha hb hp.1 hp.2⟩

theorem smooth_test (hψ : ContDiff ℝ 1 ψ) : TestField els fun _ => ψ := ⟨fun _ _ => hψ, fun _ _ _ _ _ _ => rfl⟩

/-- Integration by parts against a smooth field that vanishes outside the section. -/
theorem test_parts (hp : ∀ t ∈ els, Proper t.coords) (hno : NoOverlap els) (hq : TestField els q) {g : ℝ × ℝ → ℝ} (hg : ContDiff ℝ 1 g) (hg0 : ∀ p ∉ region els, g p = 0) :
    (els.map fun t => ∫ p in elemRegion t.coords, dX (q t) p * g p + q t p * dX g p).sum = 0 ∧
    (els.map fun t => ∫ p in elemRegion t.coords, dY (q t) p * g p + q t p * dY g p).sum = 0 := by
  classical
  have hnd := nodup_elems hp hno
  have hgd : Differentiable ℝ g := hg.differentiable (by norm_num)
  have hgc : Continuous g := hg.continuous
  have hq1 := hq.smooth
  have hqd : ∀ t ∈ els, Differentiable ℝ (q t) := fun t ht => (hq1 t ht).differentiable (by norm_num)
  have hK : ∀ t ∈ els.toFinset, IsCompact (elemRegion t.coords) := fun t _ => isCompact_elemRegion _
  have hdis : ∀ a ∈ els.toFinset, ∀ b ∈ els.toFinset, a ≠ b →
      Disjoint (interior (elemRegion a.coords)) (interior (elemRegion b.coords)) := fun a ha b hb hab =>
    elem_interiors hno (List.mem_toFinset.1 ha) (List.mem_toFinset.1 hb) hab
  have hF : ∀ t ∈ els.toFinset, Continuous fun p => q t p * g p := fun t ht =>
    (hq1 t (List.mem_toFinset.1 ht)).continuous.mul hgc
  have hag : ∀ a ∈ els.toFinset, ∀ b ∈ els.toFinset, ∀ p ∈ elemRegion a.coords ∩ elemRegion b.coords,
      q a p * g p = q b p * g p := fun a ha b hb p h => by
    rw [hq.agree a (List.mem_toFinset.1 ha) b (List.mem_toFinset.1 hb) p h]
  have hz : ∀ t ∈ els.toFinset, ∀ p ∈ elemRegion t.coords, p ∈ closure (⋃ t ∈ els.toFinset, elemRegion t.coords)ᶜ →
      q t p * g p = 0 := by
    intro t _ p _ hcl
    rw [← region_eq_pieces] at hcl
    have : p ∈ {p | g p = 0} :=
      closure_minimal (fun z hz => hg0 z hz) (isClosed_eq hgc continuous_const) hcl
    rw [show g p = 0 from this, mul_zero]
  have cross : ∀ t ∈ els.toFinset, 0 < cross2 (cornerA t.coords) (cornerB t.coords) (cornerC t.coords) := fun t ht =>
    (hp t (List.mem_toFinset.1 ht)).2
  constructor
  · rw [← List.sum_toFinset _ hnd]
    refine parts_x (F := fun t p => q t p * g p) hK hdis hF ?_ ?_ hag hz fun t ht => thin_x (cross t ht)
    · intro t ht
      exact ((continuous_dX (hq1 t (List.mem_toFinset.1 ht))).mul hgc).add
        ((hq1 t (List.mem_toFinset.1 ht)).continuous.mul (continuous_dX hg))
    · intro t ht p
      exact (hasDerivAt_dX (hqd t (List.mem_toFinset.1 ht)) p).mul (hasDerivAt_dX hgd p)
  · rw [← List.sum_toFinset _ hnd]
    refine parts_y (F := fun t p => q t p * g p) hK hdis hF ?_ ?_ hag hz fun t ht => thin_y (cross t ht)
    · intro t ht
      exact ((continuous_dY (hq1 t (List.mem_toFinset.1 ht))).mul hgc).add
        ((hq1 t (List.mem_toFinset.1 ht)).continuous.mul (continuous_dY hg))
    · intro t ht p
      exact (hasDerivAt_dY (hqd t (List.mem_toFinset.1 ht)) p).mul (hasDerivAt_dY hgd p)

theorem mesh_parts {pos : Fin n → ℝ × ℝ} (hc : ConformingMesh pos els)
    (hpos : ∀ t ∈ els, ∀ k, (t.coords.x k, t.coords.y k) = pos (t.nodeIds k)) (hp : ∀ t ∈ els, Proper t.coords)
    (hno : NoOverlap els) (hq : FEField els u q) {g : ℝ × ℝ → ℝ} (hg : ContDiff ℝ 1 g) (hg0 : ∀ p ∉ region els, g p = 0) :
    (els.map fun t => ∫ p in elemRegion t.coords, dX (q t) p * g p + q t p * dX g p).sum = 0 ∧
    (els.map fun t => ∫ p in elemRegion t.coords, dY (q t) p * g p + q t p * dY g p).sum = 0 :=
  test_parts hp hno (feField_test hc hpos hq) hg hg0

theorem elem_int {f : ℝ × ℝ → ℝ} (hf : Continuous f) (c : Coords) : IntegrableOn f (elemRegion c) :=
  hf.continuousOn.integrableOn_compact (isCompact_elemRegion _)

theorem elem_int3 {f g k : ℝ × ℝ → ℝ} (hf : Continuous f) (hg : Continuous g) (hk : Continuous k) (a b : ℝ) (c : Coords) :
    ∫ p in elemRegion c, a * f p + (b * g p + k p) =
      a * (∫ p in elemRegion c, f p) + (b * (∫ p in elemRegion c, g p) + ∫ p in elemRegion c, k p) := by
  have a1 : Continuous fun p => a * f p := continuous_const.mul hf
  have a2 : Continuous fun p => b * g p := continuous_const.mul hg
  have a3 : Continuous fun p => b * g p + k p := a2.add hk
  rw [integral_add (elem_int a1 _) (elem_int a3 _), integral_add (elem_int a2 _) (elem_int hk _), integral_const_mul,
    integral_const_mul]

/-- The stresses of a stress function do the work of twice its volume on the twisted section, whatever the warping. -/
theorem twist_work {pos : Fin n → ℝ × ℝ} (hc : ConformingMesh pos els)
    (hpos : ∀ t ∈ els, ∀ k, (t.coords.x k, t.coords.y k) = pos (t.nodeIds k)) (hp : ∀ t ∈ els, Proper t.coords)
    (hno : NoOverlap els) (hq : FEField els u q) (hψ : StressFunction els ψ) :
    (els.map fun t => ∫ p in elemRegion t.coords,
      (dX (q t) p - p.2) * dY ψ p - (dY (q t) p + p.1) * dX ψ p).sum = 2 * ∫ p, ψ p := by
  have hψ1 : ContDiff ℝ 1 ψ := hψ.smooth.of_le (by norm_num)
  have cX := continuous_dX hψ1
  have cY := continuous_dY hψ1
  have h1 := (mesh_parts hc hpos hp hno hq (contDiff_dY hψ.smooth) fun p h => (hψ.level p h).2).1
  have h2 := (mesh_parts hc hpos hp hno hq (contDiff_dX hψ.smooth) fun p h => (hψ.level p h).1).2
  have c3 : Continuous fun p : ℝ × ℝ => -(p.2 * dY ψ p) - p.1 * dX ψ p := by fun_prop
  have h3 := (integral_parts hno MeasurableSet.univ c3).2
  simp only [univ_inter] at h3
  have hout : ∀ p ∉ region els, -(p.2 * dY ψ p) - p.1 * dX ψ p = 0 := fun p hp => by
    obtain ⟨e1, e2⟩ := hψ.level p hp
    rw [e1, e2]; ring
  have i1 : Integrable fun p : ℝ × ℝ => p.1 * dX ψ p :=
    (continuous_fst.mul cX).integrable_of_hasCompactSupport
      (by rw [dX_eq (hψ1.differentiable (by norm_num))]; exact (hψ.compact.fderiv_apply ℝ (1, 0)).mul_left)
  have i2 : Integrable fun p : ℝ × ℝ => p.2 * dY ψ p :=
    (continuous_snd.mul cY).integrable_of_hasCompactSupport
      (by rw [dY_eq (hψ1.differentiable (by norm_num))]; exact (hψ.compact.fderiv_apply ℝ (0, 1)).mul_left)
  have h4 : ∫ p in region els, -(p.2 * dY ψ p) - p.1 * dX ψ p = 2 * ∫ p, ψ p := by
    rw [setIntegral_eq_integral_of_forall_compl_eq_zero hout, integral_sub (f := fun p : ℝ × ℝ => -(p.2 * dY ψ p)) i2.neg i1, integral_neg,
      hill_x hψ.smooth hψ.compact, hill_y hψ.smooth hψ.compact]
    ring
  rw [h3] at h4
  rw [← h4]
  have key : ∀ t ∈ els, (∫ p in elemRegion t.coords, (dX (q t) p - p.2) * dY ψ p - (dY (q t) p + p.1) * dX ψ p) =
      (∫ p in elemRegion t.coords, -(p.2 * dY ψ p) - p.1 * dX ψ p) +
      ((∫ p in elemRegion t.coords, dX (q t) p * dY ψ p + q t p * dX (dY ψ) p) +
        -1 * ∫ p in elemRegion t.coords, dY (q t) p * dX ψ p + q t p * dY (dX ψ) p) := by
    intro t ht
    have hqt := contDiff_quad (hq t ht).1
    have d1 := continuous_dX (hqt.of_le one_le_two)
    have d2 := continuous_dY (hqt.of_le one_le_two)
    have d3 := continuous_dX (contDiff_dY hψ.smooth)
    have d4 := continuous_dY (contDiff_dX hψ.smooth)
    have a1 : Continuous fun p => dX (q t) p * dY ψ p + q t p * dX (dY ψ) p := (d1.mul cY).add (hqt.continuous.mul d3)
    have a2 : Continuous fun p => dY (q t) p * dX ψ p + q t p * dY (dX ψ) p := (d2.mul cX).add (hqt.continuous.mul d4)
    have a3 : Continuous fun p => -1 * (dY (q t) p * dX ψ p + q t p * dY (dX ψ) p) := continuous_const.mul a2
    have a4 : Continuous fun p => dX (q t) p * dY ψ p + q t p * dX (dY ψ) p +
      -1 * (dY (q t) p * dX ψ p + q t p * dY (dX ψ) p) := a1.add a3
    rw [← integral_const_mul, ← integral_add (elem_int a1 _) (elem_int a3 _), ← integral_add (elem_int c3 _) (elem_int a4 _)]
    refine integral_congr_ae (Filter.Eventually.of_forall fun p => ?_)
    simp only [mixed_eq hψ.smooth p]
    ring
  rw [List.map_congr_left key, List.sum_map_add, List.sum_map_add, List.sum_map_mul_left, h1, h2]
  ring

/-- The energy of a twisted section is at least the square of twice the volume of any stress function, divided by its
squared slope. -/
theorem twist_lower {pos : Fin n → ℝ × ℝ} (hc : ConformingMesh pos els)
    (hpos : ∀ t ∈ els, ∀ k, (t.coords.x k, t.coords.y k) = pos (t.nodeIds k)) (h : Physical els)
    (hno : NoOverlap els) (hq : FEField els u q) (hψ : StressFunction els ψ) :
    (2 * ∫ p, ψ p) ^ 2 ≤ twistEnergy els q * slopeEnergy els ψ := by
  have hψ1 : ContDiff ℝ 1 ψ := hψ.smooth.of_le (by norm_num)
  have cX := continuous_dX hψ1
  have cY := continuous_dY hψ1
  have hw := twist_work hc hpos h.proper hno hq hψ
  have key : ∀ l : ℝ, 0 ≤ slopeEnergy els ψ * (l * l) + -2 * (2 * ∫ p, ψ p) * l + twistEnergy els q := by
    intro l
    have : slopeEnergy els ψ * (l * l) + -2 * (2 * ∫ p, ψ p) * l + twistEnergy els q =
        (els.map fun t => t.material.elasticModulus * ∫ p in elemRegion t.coords,
          (dX (q t) p - p.2 - l / t.material.elasticModulus * dY ψ p) ^ 2 +
          (dY (q t) p + p.1 + l / t.material.elasticModulus * dX ψ p) ^ 2).sum := by
      rw [← hw, slopeEnergy, twistEnergy, wInt, ← List.sum_map_mul_right, mul_right_comm, ← List.sum_map_mul_left,
        ← List.sum_map_add, ← List.sum_map_add]
      refine congrArg List.sum (List.map_congr_left fun t ht => ?_)
      have hE := (h.modulus t ht).ne'
      have hqt := contDiff_quad (hq t ht).1
      have d1 := continuous_dX (hqt.of_le one_le_two)
      have d2 := continuous_dY (hqt.of_le one_le_two)
      have a1 : Continuous fun p => dX ψ p ^ 2 + dY ψ p ^ 2 := by fun_prop
      have a2 : Continuous fun p => (dX (q t) p - p.2) * dY ψ p - (dY (q t) p + p.1) * dX ψ p := by fun_prop
      have a3 : Continuous fun p => (dX (q t) p - p.2) ^ 2 + (dY (q t) p + p.1) ^ 2 := by fun_prop
      have e : ∀ p : ℝ × ℝ, (dX (q t) p - p.2 - l / t.material.elasticModulus * dY ψ p) ^ 2 +
          (dY (q t) p + p.1 + l / t.material.elasticModulus * dX ψ p) ^ 2 =
          (l / t.material.elasticModulus) ^ 2 * (dX ψ p ^ 2 + dY ψ p ^ 2) +
          ((-2 * (l / t.material.elasticModulus)) * ((dX (q t) p - p.2) * dY ψ p - (dY (q t) p + p.1) * dX ψ p) +
          ((dX (q t) p - p.2) ^ 2 + (dY (q t) p + p.1) ^ 2)) := fun p => by ring
      simp only [e]
      rw [elem_int3 a1 a2 a3]
      field_simp
      ring
    rw [this]
    refine List.sum_nonneg fun v hv => ?_
    obtain ⟨t, ht, rfl⟩ := List.mem_map.1 hv
    exact mul_nonneg (h.modulus t ht).le (integral_nonneg fun p => add_nonneg (sq_nonneg _) (sq_nonneg _))
  have := discrim_le_zero key
  rw [discrim] at this
  nlinarith

end SP
