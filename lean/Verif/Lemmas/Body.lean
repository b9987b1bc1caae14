import Verif.Lemmas.Converge
import Verif.Lemmas.Rects
import Verif.Spec.Body
import Mathlib.Analysis.Convex.Measure
import Mathlib.MeasureTheory.Constructions.BorelSpace.Metric
import Mathlib.Topology.Order.IntermediateValue

/-!
# Two meshes of the same body

A field on one mesh, sampled at the nodes of a mesh that need not be a refinement.
-/

namespace SP

open Spec MeasureTheory Set Topology

variable {n m : ℕ} {els : List (Tri6 n)} {els' : List (Tri6 m)} {q : Tri6 n → ℝ × ℝ → ℝ}

/-! ### Fields are Lipschitz continuous -/

/-- The difference of the values of a quadratic polynomial is its slope half way. -/
theorem quad_step {f : ℝ × ℝ → ℝ} (hf : f ∈ PolyLE 2) (a b : ℝ × ℝ) :
    f b - f a = dX f (midpoint ℝ a b) * (b.1 - a.1) + dY f (midpoint ℝ a b) * (b.2 - a.2) := by
  obtain ⟨a0, a1, a2, a3, a4, a5, rfl⟩ := polyLE2_quad hf
  rw [quad_dX, quad_dY]
  simp only [quad, midpoint_eq_smul_add, Prod.smul_fst, Prod.smul_snd, Prod.fst_add, Prod.snd_add, smul_eq_mul]
  norm_num
  ring

theorem elem_lipschitz {f : ℝ × ℝ → ℝ} (hf : f ∈ PolyLE 2) {c : Coords} {G : ℝ}
    (hG : ∀ p ∈ elemRegion c, |dX f p| ≤ G ∧ |dY f p| ≤ G) {a b : ℝ × ℝ} (ha : a ∈ elemRegion c) (hb : b ∈ elemRegion c) :
    |f b - f a| ≤ G * (|b.1 - a.1| + |b.2 - a.2|) := by
  rw [quad_step hf a b]
  obtain ⟨h1, h2⟩ := hG _ ((convex_elemRegion c).midpoint_mem ha hb)
  refine (abs_add_le _ _).trans ?_
  rw [abs_mul, abs_mul, mul_add]
  exact add_le_add (mul_le_mul_of_nonneg_right h1 (abs_nonneg _)) (mul_le_mul_of_nonneg_right h2 (abs_nonneg _))

/-- Fields are Lipschitz continuous along segments in the region, across the edges of the elements. -/
theorem field_lipschitz (hq : ∀ t ∈ els, q t ∈ PolyLE 2)
    (hag : ∀ s ∈ els, ∀ t ∈ els, ∀ p ∈ elemRegion s.coords ∩ elemRegion t.coords, q s p = q t p) {G : ℝ}
    (hG : ∀ t ∈ els, ∀ p ∈ elemRegion t.coords, |dX (q t) p| ≤ G ∧ |dY (q t) p| ≤ G) {a b : ℝ × ℝ}
    (hseg : ∀ z ∈ Icc (0 : ℝ) 1, a + z • (b - a) ∈ region els) {s t : Tri6 n} (hs : s ∈ els) (ha : a ∈ elemRegion s.coords)
    (ht : t ∈ els) (hb : b ∈ elemRegion t.coords) : |q t b - q s a| ≤ G * (|b.1 - a.1| + |b.2 - a.2|) := by
  set L := G * (|b.1 - a.1| + |b.2 - a.2|)
  let x : ℝ → ℝ × ℝ := fun z => a + z • (b - a)
  have hx : Continuous x := by fun_prop
  let S : Set ℝ := {z | ∃ t ∈ els, x z ∈ elemRegion t.coords ∧ |q t (x z) - q s a| ≤ L * z}
  have hS : IsClosed S := by
    have : S = ⋃ t ∈ {t | t ∈ els}, (x ⁻¹' elemRegion t.coords ∩ {z | |q t (x z) - q s a| ≤ L * z}) := by
      ext z
      simp only [S, mem_ofPred_eq, mem_iUnion, mem_inter_iff, mem_preimage, exists_prop]
    rw [this]
    refine (List.finite_toSet els).isClosed_biUnion fun t ht => ?_
    refine ((isCompact_elemRegion _).isClosed.preimage hx).inter (isClosed_le ?_ (by fun_prop))
    have := PolyLE.continuous (hq t ht)
    fun_prop
  have key : Icc (0 : ℝ) 1 ⊆ S := by
    refine IsClosed.Icc_subset_of_forall_exists_gt (hS.inter isClosed_Icc) ⟨s, hs, by simpa [x] using ha, by simp [x]⟩ ?_
    rintro z ⟨⟨u, hu, hzu, hzb⟩, hz0, hz1⟩ y hy
    -- an element that contains points just after `z`
    obtain ⟨v, hv, hfr⟩ : ∃ v ∈ els, ∃ᶠ z' in 𝓝[>] z, x z' ∈ elemRegion v.coords := by
      by_contra hcon
      push Not at hcon
      have h1 : ∀ᶠ z' in 𝓝[>] z, ∀ v ∈ {v | v ∈ els}, x z' ∉ elemRegion v.coords :=
        (Filter.eventually_all_finite (List.finite_toSet els)).2 fun v hv => by simpa using hcon v hv
      have h2 : ∀ᶠ z' in 𝓝[>] z, z' ∈ Ioc z 1 := Ioc_mem_nhdsGT hz1
      obtain ⟨z', h3, h4⟩ := (h1.and h2).exists
      obtain ⟨v, hv, h5⟩ := hseg z' ⟨hz0.trans h4.1.le, h4.2⟩
      exact h3 v hv h5
    have hzv : x z ∈ elemRegion v.coords := by
      have h1 : ∃ᶠ z' in 𝓝 z, z' ∈ x ⁻¹' elemRegion v.coords := hfr.filter_mono nhdsWithin_le_nhds
      exact ((isCompact_elemRegion _).isClosed.preimage hx).closure_subset (mem_closure_iff_frequently.2 h1)
    obtain ⟨z', h1, h2⟩ := (hfr.and_eventually (Ioc_mem_nhdsGT (show z < y from hy))).exists
    refine ⟨z', ⟨v, hv, h1, ?_⟩, h2⟩
    have h3 := elem_lipschitz (hq v hv) (hG v hv) hzv h1
    have h4 : G * (|(x z').1 - (x z).1| + |(x z').2 - (x z).2|) = L * (z' - z) := by
      have e1 : (x z').1 - (x z).1 = (z' - z) * (b.1 - a.1) := by simp [x]; ring
      have e2 : (x z').2 - (x z).2 = (z' - z) * (b.2 - a.2) := by simp [x]; ring
      rw [e1, e2, abs_mul, abs_mul, abs_of_pos (sub_pos.2 h2.1)]
      ring
    have h5 := hag u hu v hv (x z) ⟨hzu, hzv⟩
    rw [h4] at h3
    rw [h5] at hzb
    have := abs_add_le (q v (x z') - q v (x z)) (q v (x z) - q s a)
    rw [sub_add_sub_cancel] at this
    linarith
  obtain ⟨v, hv, h1, h2⟩ := key (right_mem_Icc.2 zero_le_one)
  have e : x 1 = b := by simp [x]
  rw [e] at h1 h2
  rw [hag t ht v hv b ⟨hb, h1⟩]
  linarith

/-! ### Values and gradients of an interpolant -/

/-- A quadratic polynomial whose nodal values are at most `δ` is at most `6 δ` on the triangle. -/
theorem quad_val {c : Coords} (hs : Straight c) {f : ℝ × ℝ → ℝ} (hf : f ∈ PolyLE 2) {δ : ℝ} (hn : ∀ i, |f (c.x i, c.y i)| ≤ δ)
    {p : ℝ × ℝ} (hp : p ∈ elemRegion c) : |f p| ≤ 6 * δ := by
  obtain ⟨α, β, γ, hα, hβ, hγ, h1, e1, e2⟩ := tri_coords hp
  obtain ⟨h3, h4, h5, h6, h7, h8⟩ := hs
  obtain ⟨a0, a1, a2, a3, a4, a5, rfl⟩ := polyLE2_quad hf
  have hγ' : γ = 1 - α - β := by linarith
  have e : quad a0 a1 a2 a3 a4 a5 p = α * (2 * α - 1) * quad a0 a1 a2 a3 a4 a5 (c.x 0, c.y 0)
      + β * (2 * β - 1) * quad a0 a1 a2 a3 a4 a5 (c.x 1, c.y 1) + γ * (2 * γ - 1) * quad a0 a1 a2 a3 a4 a5 (c.x 2, c.y 2)
      + 4 * (α * β) * quad a0 a1 a2 a3 a4 a5 (c.x 3, c.y 3) + 4 * (β * γ) * quad a0 a1 a2 a3 a4 a5 (c.x 4, c.y 4)
      + 4 * (α * γ) * quad a0 a1 a2 a3 a4 a5 (c.x 5, c.y 5) := by
    simp only [cornerA, cornerB, cornerC] at e1 e2
    simp only [quad, h3, h4, h5, h6, h7, h8, e1, e2, hγ']
    ring
  rw [e]
  have n0 := hn 0
  have n1 := hn 1
  have n2 := hn 2
  have n3 := hn 3
  have n4 := hn 4
  have n5 := hn 5
  clear e e1 e2 h3 h4 h5 h6 h7 h8 hn hp hf
  generalize quad a0 a1 a2 a3 a4 a5 (c.x 0, c.y 0) = w0 at *
  generalize quad a0 a1 a2 a3 a4 a5 (c.x 1, c.y 1) = w1 at *
  generalize quad a0 a1 a2 a3 a4 a5 (c.x 2, c.y 2) = w2 at *
  generalize quad a0 a1 a2 a3 a4 a5 (c.x 3, c.y 3) = w3 at *
  generalize quad a0 a1 a2 a3 a4 a5 (c.x 4, c.y 4) = w4 at *
  generalize quad a0 a1 a2 a3 a4 a5 (c.x 5, c.y 5) = w5 at *
  have hδ : 0 ≤ δ := (abs_nonneg _).trans n0
  have t : ∀ {k w : ℝ}, |k| ≤ 1 → |w| ≤ δ → |k * w| ≤ δ := fun {k w} hk hw => by
    rw [abs_mul]
    exact (mul_le_mul hk hw (abs_nonneg _) zero_le_one).trans_eq (one_mul _)
  have corner : ∀ {k : ℝ}, 0 ≤ k → k ≤ 1 → |k * (2 * k - 1)| ≤ 1 := fun {k} h0 h1 =>
    abs_le.2 ⟨by nlinarith, by nlinarith⟩
  have mid : ∀ {k l : ℝ}, 0 ≤ k → 0 ≤ l → k + l ≤ 1 → |4 * (k * l)| ≤ 1 := fun {k l} h0 h1 h2 =>
    abs_le.2 ⟨by nlinarith [mul_nonneg h0 h1], by nlinarith [sq_nonneg (k - l)]⟩
  have k0 := abs_le.1 (t (corner hα (by linarith)) n0)
  have k1 := abs_le.1 (t (corner hβ (by linarith)) n1)
  have k2 := abs_le.1 (t (corner hγ (by linarith)) n2)
  have k3 := abs_le.1 (t (mid hα hβ (by linarith)) n3)
  have k4 := abs_le.1 (t (mid hβ hγ (by linarith)) n4)
  have k5 := abs_le.1 (t (mid hα hγ (by linarith)) n5)
  exact abs_le.2 ⟨by linarith [k0.1, k1.1, k2.1, k3.1, k4.1, k5.1], by linarith [k0.2, k1.2, k2.2, k3.2, k4.2, k5.2]⟩

/-- The gradient of a quadratic polynomial whose nodal values differ by at most `G` times the differences of the coordinates. -/
theorem quad_grad_lipschitz {c : Coords} (hp : Proper c) {f : ℝ × ℝ → ℝ} (hf : f ∈ PolyLE 2) {G κ d : ℝ} (hG : 0 ≤ G)
    (hd : d ^ 2 ≤ κ * elemDet c)
    (hdd : ∀ p ∈ elemRegion c, ∀ z ∈ elemRegion c, √((z.1 - p.1) ^ 2 + (z.2 - p.2) ^ 2) ≤ d)
    (hl : ∀ i, |f (c.x i, c.y i) - f (c.x 0, c.y 0)| ≤ G * (|c.x i - c.x 0| + |c.y i - c.y 0|)) {p : ℝ × ℝ}
    (hpm : p ∈ elemRegion c) : |dX f p| ≤ 42 * κ * G ∧ |dY f p| ≤ 42 * κ * G := by
  obtain ⟨a0, a1, a2, a3, a4, a5, rfl⟩ := polyLE2_quad hf
  rw [quad_dX, quad_dY]
  have hd0 : 0 ≤ d := (Real.sqrt_nonneg _).trans (hdd p hpm p hpm)
  have key := quad_grad hp (a0 := a0 - quad a0 a1 a2 a3 a4 a5 (c.x 0, c.y 0)) (a1 := a1) (a2 := a2) (a3 := a3) (a4 := a4) (a5 := a5)
    (δ := 2 * G * d) hdd (fun i => ?_) hpm
  · have hb : 21 * (2 * G * d * d) / elemDet c ≤ 42 * κ * G := by
      rw [div_le_iff₀ hp.2]
      nlinarith [mul_le_mul_of_nonneg_left hd hG]
    exact ⟨key.1.trans hb, key.2.trans hb⟩
  · obtain ⟨c1, c2⟩ := coord_le (hdd _ (node_mem hp.1 0) _ (node_mem hp.1 i))
    refine le_trans (le_of_eq ?_) ((hl i).trans ?_)
    · congr 1
      simp only [quad]
      ring
    · simp only at c1 c2
      nlinarith [mul_le_mul_of_nonneg_left (add_le_add c1 c2) hG]

/-- A quadratic polynomial is known on an element from its nodal values. -/
theorem quad_same {c : Coords} (hp : Proper c) {f g : ℝ × ℝ → ℝ} (hf : f ∈ PolyLE 2) (hg : g ∈ PolyLE 2)
    (hn : ∀ i, f (c.x i, c.y i) = g (c.x i, c.y i)) {h : ℝ}
    (hh : ∀ p ∈ elemRegion c, ∀ z ∈ elemRegion c, √((z.1 - p.1) ^ 2 + (z.2 - p.2) ^ 2) ≤ h) {p : ℝ × ℝ} (hpm : p ∈ elemRegion c) :
    f p = g p ∧ dX f p = dX g p ∧ dY f p = dY g p := by
  have e0 : |(f - g) p| ≤ 6 * 0 := quad_val hp.1 (Submodule.sub_mem _ hf hg) (fun i => by simp [hn i]) hpm
  rw [mul_zero, abs_nonpos_iff] at e0
  refine ⟨by simpa [sub_eq_zero] using e0, ?_⟩
  obtain ⟨a0, a1, a2, a3, a4, a5, rfl⟩ := polyLE2_quad hf
  obtain ⟨b0, b1, b2, b3, b4, b5, rfl⟩ := polyLE2_quad hg
  have key := quad_grad hp (a0 := a0 - b0) (a1 := a1 - b1) (a2 := a2 - b2) (a3 := a3 - b3) (a4 := a4 - b4) (a5 := a5 - b5)
    (δ := 0) hh (fun i => ?_) hpm
  · simp only [zero_mul, mul_zero, zero_div, abs_nonpos_iff] at key
    rw [quad_dX, quad_dX, quad_dY, quad_dY]
    exact ⟨by linear_combination key.1, by linear_combination key.2⟩
  · rw [abs_nonpos_iff]
    have := hn i
    simp only [quad] at this ⊢
    linear_combination this

/-! ### Integrals over two meshes of the same body -/

theorem exists_glue (hno : NoOverlap els) (f : Tri6 n → ℝ × ℝ → ℝ) :
    ∃ F : ℝ × ℝ → ℝ, ∀ t ∈ els, ∀ᵐ p, p ∈ elemRegion t.coords → F p = f t p := by
  classical
  induction els with
  | nil => exact ⟨fun _ => 0, by intro t ht; cases ht⟩
  | cons t els ih =>
    obtain ⟨h1, h2⟩ := List.pairwise_cons.1 hno
    obtain ⟨E, hE⟩ := ih h2
    refine ⟨fun p => if p ∈ elemRegion t.coords then f t p else E p, ?_⟩
    intro u hu
    rcases List.mem_cons.1 hu with rfl | hu
    · exact Filter.Eventually.of_forall fun p hp => by simp [hp]
    · have h3 : ∀ᵐ p, p ∉ elemRegion t.coords ∩ elemRegion u.coords := by
        rw [ae_iff]; simpa using h1 u hu
      filter_upwards [h3, hE u hu] with p hp1 hp2 hp3
      have : p ∉ elemRegion t.coords := fun h => hp1 ⟨h, hp3⟩
      simp [this, hp2 hp3]

theorem glue_integral (hno : NoOverlap els) {f : Tri6 n → ℝ × ℝ → ℝ} (hf : ∀ t ∈ els, Continuous (f t)) {F : ℝ × ℝ → ℝ}
    (hF : ∀ t ∈ els, ∀ᵐ p, p ∈ elemRegion t.coords → F p = f t p) :
    IntegrableOn F (region els) ∧ (els.map fun t => ∫ p in elemRegion t.coords, f t p).sum = ∫ p in region els, F p := by
  induction els with
  | nil => simp [region_nil]
  | cons t els ih =>
    obtain ⟨h1, h2⟩ := List.pairwise_cons.1 hno
    obtain ⟨i1, i2⟩ := ih h2 (fun u hu => hf u (List.mem_cons_of_mem _ hu)) (fun u hu => hF u (List.mem_cons_of_mem _ hu))
    have heq : f t =ᵐ[volume.restrict (elemRegion t.coords)] F := by
      filter_upwards [(ae_restrict_iff' (measurable_elemRegion _)).2 (hF t List.mem_cons_self)] with p hp
      exact hp.symm
    have j1 : IntegrableOn F (elemRegion t.coords) := (elem_int (hf t List.mem_cons_self) _).congr heq
    have hd : AEDisjoint volume (elemRegion t.coords) (region els) := by
      have : elemRegion t.coords ∩ region els
          = ⋃ u ∈ {u | u ∈ els}, elemRegion t.coords ∩ elemRegion u.coords := by
        ext p; simp [region]
      rw [AEDisjoint, this, measure_biUnion_null_iff (List.finite_toSet els).countable]
      exact fun u hu => h1 u hu
    rw [region_cons]
    refine ⟨j1.union i1, ?_⟩
    rw [List.map_cons, List.sum_cons, i2,
      setIntegral_union₀ hd (measurable_region els).nullMeasurableSet j1 i1, integral_congr_ae heq]

/-- A mesh that is covered up to a null set is covered. -/
theorem region_subset (hp : ∀ t ∈ els, Proper t.coords) (h : region els ≤ᵐ[volume] region els') : region els ⊆ region els' := by
  rintro p ⟨t, ht, hpt⟩
  have hint : (interior (elemRegion t.coords)).Nonempty := elem_interior_nonempty (hp t ht)
  have hcl : elemRegion t.coords ⊆ closure (interior (elemRegion t.coords)) := by
    rw [(convex_elemRegion _).closure_interior_eq_closure_of_nonempty_interior hint]
    exact subset_closure
  have hsub : interior (elemRegion t.coords) ⊆ region els' := by
    have ho : IsOpen (interior (elemRegion t.coords) \ region els') := isOpen_interior.sdiff (isClosed_region _)
    have hn : volume (interior (elemRegion t.coords) \ region els') = 0 := by
      refine measure_mono_null (t := region els \ region els') ?_ (ae_le_set.1 h)
      exact fun q hq => ⟨⟨t, ht, interior_subset hq.1⟩, hq.2⟩
    exact sdiff_eq_empty.1 (ho.measure_eq_zero_iff volume |>.1 hn)
  exact closure_minimal hsub (isClosed_region _) (hcl hpt)

/-- Integrals over two meshes of the same body, of integrands that agree on the elements of the second that lie within an element
of the first: the others lie in `N`. -/
theorem wInt_close {Ω : Set (ℝ × ℝ)} {mat : ℝ × ℝ → Material} (hM : MeshOf Ω mat els) (hM' : MeshOf Ω mat els')
    {f : Tri6 n → ℝ × ℝ → ℝ} {g : Tri6 m → ℝ × ℝ → ℝ} (hf : ∀ t ∈ els, Continuous (f t)) (hg : ∀ t ∈ els', Continuous (g t))
    {E K : ℝ} (hE0 : 0 ≤ E) (hK0 : 0 ≤ K) {N : Set (ℝ × ℝ)} (hNf : volume N ≠ ⊤)
    (hE : ∀ t ∈ els, |t.material.elasticModulus| ≤ E)
    (hin : ∀ t' ∈ els', ∀ t ∈ els, elemRegion t'.coords ⊆ elemRegion t.coords → ∀ p ∈ elemRegion t'.coords, g t' p = f t p)
    (hout : ∀ t' ∈ els', (∀ t ∈ els, ¬ elemRegion t'.coords ⊆ elemRegion t.coords) → elemRegion t'.coords ⊆ N)
    (hK : ∀ t ∈ els, ∀ p ∈ elemRegion t.coords, |f t p| ≤ K) (hK' : ∀ t ∈ els', ∀ p ∈ elemRegion t.coords, |g t p| ≤ K) :
    |wInt els' g - wInt els f| ≤ 2 * (E * K) * volume.real N := by
  have hreg : region els =ᵐ[volume] region els' := hM.covers.trans hM'.covers.symm
  obtain ⟨F, hF⟩ := exists_glue hM.once fun t p => t.material.elasticModulus * f t p
  obtain ⟨H, hH⟩ := exists_glue hM'.once fun t p => t.material.elasticModulus * g t p
  obtain ⟨F1, F2⟩ := glue_integral (f := fun t p => t.material.elasticModulus * f t p) hM.once
    (fun t ht => continuous_const.mul (hf t ht)) hF
  obtain ⟨H1, H2⟩ := glue_integral (f := fun t p => t.material.elasticModulus * g t p) hM'.once
    (fun t ht => continuous_const.mul (hg t ht)) hH
  simp only [integral_const_mul] at F2 H2
  have w1 : wInt els f = ∫ p in region els, F p := F2
  have w2 : wInt els' g = ∫ p in region els, H p := by rw [setIntegral_congr_set hreg]; exact H2
  have H1' : IntegrableOn H (region els) := (integrableOn_congr_set_ae hreg).2 H1
  rw [w1, w2, ← integral_sub H1' F1]
  -- almost every point
  have ae : ∀ {k : ℕ} {l : List (Tri6 k)} {P : Tri6 k → ℝ × ℝ → Prop}, (∀ t ∈ l, ∀ᵐ p, P t p) → ∀ᵐ p, ∀ t ∈ l, P t p := by
    intro k l P h
    exact (ae_ball_iff (List.finite_toSet l).countable).2 h
  have hae : ∀ᵐ p, p ∈ region els → |H p - F p| ≤ 2 * (E * K) ∧ (p ∉ N → H p - F p = 0) := by
    filter_upwards [ae hF, ae hH, ae hM.material, ae hM'.material, hreg.mem_iff] with p a1 a2 a3 a4 a5 hp
    obtain ⟨t, ht, hpt⟩ := hp
    obtain ⟨t', ht', hpt'⟩ := a5.1 ⟨t, ht, hpt⟩
    have em : t'.material = t.material := (a4 t' ht' hpt').symm.trans (a3 t ht hpt)
    have eF := a1 t ht hpt
    have eH := a2 t' ht' hpt'
    rw [em] at eH
    constructor
    · have b1 : |F p| ≤ E * K := by
        rw [eF, abs_mul]; exact mul_le_mul (hE t ht) (hK t ht p hpt) (abs_nonneg _) hE0
      have b2 : |H p| ≤ E * K := by
        rw [eH, abs_mul]; exact mul_le_mul (hE t ht) (hK' t' ht' p hpt') (abs_nonneg _) hE0
      have := abs_sub (H p) (F p)
      linarith
    · intro hpN
      obtain ⟨u, hu, hsub⟩ : ∃ u ∈ els, elemRegion t'.coords ⊆ elemRegion u.coords := by
        by_contra hcon
        push Not at hcon
        exact hpN (hout t' ht' hcon hpt')
      have eF' := a1 u hu (hsub hpt')
      have em' : t.material = u.material := (a3 t ht hpt).symm.trans (a3 u hu (hsub hpt'))
      rw [eH, eF', hin t' ht' u hu hsub p hpt', em', sub_self]
  have e1 : ∫ p in region els, (H p - F p) = ∫ p in region els ∩ N, (H p - F p) := by
    refine setIntegral_eq_of_subset_of_ae_sdiff_eq_zero (measurable_region els).nullMeasurableSet inter_subset_left ?_
    filter_upwards [hae] with p hp hpm
    exact (hp hpm.1).2 fun hN => hpm.2 ⟨hpm.1, hN⟩
  rw [e1, ← Real.norm_eq_abs]
  refine (norm_setIntegral_le_of_norm_le_const_ae' (C := 2 * (E * K))
    (lt_of_le_of_lt (measure_mono inter_subset_right) hNf.lt_top) ?_).trans ?_
  · filter_upwards [hae] with p hp hpm
    exact (hp hpm.1).1
  · exact mul_le_mul_of_nonneg_left (measureReal_mono inter_subset_right hNf) (by positivity)

/-! ### Elements that cross the edges of another mesh -/

/-- The edges of a mesh. -/
def meshEdges (els : List (Tri6 n)) : Set (ℝ × ℝ) := ⋃ t ∈ {t | t ∈ els}, frontier (elemRegion t.coords)

theorem edges_compact (els : List (Tri6 n)) : IsCompact (meshEdges els) := by
  refine (List.finite_toSet els).isCompact_biUnion fun t _ => ?_
  exact (isCompact_elemRegion t.coords).of_isClosed_subset isClosed_frontier (isCompact_elemRegion _).isClosed.frontier_subset

theorem edges_null (els : List (Tri6 n)) : volume (meshEdges els) = 0 := by
  rw [meshEdges, measure_biUnion_null_iff (List.finite_toSet els).countable]
  exact fun t _ => (convex_elemRegion t.coords).addHaar_frontier volume

/-- There is little within a small distance from the edges. -/
theorem near_edges (els : List (Tri6 n)) {η : ℝ} (hη : 0 < η) :
    ∃ h > 0, volume (Metric.cthickening h (meshEdges els)) ≠ ⊤ ∧ volume.real (Metric.cthickening h (meshEdges els)) ≤ η := by
  have ht := tendsto_measure_cthickening_of_isCompact (μ := volume) (edges_compact els)
  rw [edges_null] at ht
  have h1 : ∀ᶠ r in 𝓝[>] (0 : ℝ), volume (Metric.cthickening r (meshEdges els)) < ENNReal.ofReal η :=
    (ht.mono_left nhdsWithin_le_nhds).eventually (gt_mem_nhds (ENNReal.ofReal_pos.2 hη))
  obtain ⟨h, h2, h3⟩ := (h1.and self_mem_nhdsWithin).exists
  refine ⟨h, h3, (h2.trans ENNReal.ofReal_lt_top).ne, ?_⟩
  exact ENNReal.toReal_le_of_le_ofReal hη.le h2.le

theorem crossing_near {c : Coords} {h : ℝ} (hsub : elemRegion c ⊆ region els)
    (hh : ∀ p ∈ elemRegion c, ∀ z ∈ elemRegion c, √((z.1 - p.1) ^ 2 + (z.2 - p.2) ^ 2) ≤ h)
    (hx : ∀ t ∈ els, ¬ elemRegion c ⊆ elemRegion t.coords) : elemRegion c ⊆ Metric.cthickening h (meshEdges els) := by
  intro p hp
  obtain ⟨t, ht, hpt⟩ := hsub hp
  obtain ⟨z, hz, hzt⟩ := not_subset.1 (hx t ht)
  have hcl := (isCompact_elemRegion t.coords).isClosed
  obtain ⟨e, he, hef⟩ : ∃ e ∈ elemRegion c, e ∈ frontier (elemRegion t.coords) := by
    by_contra hcon
    push Not at hcon
    have h1 : ∀ e ∈ elemRegion c, e ∈ elemRegion t.coords → e ∈ interior (elemRegion t.coords) := fun e he het => by
      by_contra hi
      exact hcon e he (by rw [hcl.frontier_eq]; exact ⟨het, hi⟩)
    obtain ⟨e, -, he1, he2⟩ := (convex_elemRegion c).isPreconnected _ _ isOpen_interior hcl.isOpen_compl
      (fun e he => (em (e ∈ elemRegion t.coords)).imp (h1 e he) id) ⟨p, hp, h1 p hp hpt⟩ ⟨z, hz, hzt⟩
    exact he2 (interior_subset he1)
  refine Metric.mem_cthickening_of_dist_le p e h _ (mem_biUnion (show t ∈ {t | t ∈ els} from ht) hef) ?_
  obtain ⟨c1, c2⟩ := coord_le (hh e he p hp)
  rw [Prod.dist_eq, Real.dist_eq, Real.dist_eq]
  exact max_le c1 c2

/-! ### Sampling a field -/

/-- Bounds of a field and its gradients. -/
theorem field_bound (hq : ∀ t ∈ els, q t ∈ PolyLE 2) : ∃ B, 0 ≤ B ∧ ∀ t ∈ els, ∀ p ∈ elemRegion t.coords,
    |q t p| ≤ B ∧ |dX (q t) p| ≤ B ∧ |dY (q t) p| ≤ B := by
  induction els with
  | nil => exact ⟨0, le_rfl, by simp⟩
  | cons t els ih =>
    obtain ⟨B, hB, h⟩ := ih fun u hu => hq u (List.mem_cons_of_mem _ hu)
    have ht := hq t List.mem_cons_self
    have hc : ∀ {f : ℝ × ℝ → ℝ}, Continuous f → ∃ C, ∀ p ∈ elemRegion t.coords, |f p| ≤ C := fun {f} hf => by
      obtain ⟨C, hC⟩ := (isCompact_elemRegion t.coords).exists_bound_of_continuousOn hf.continuousOn
      exact ⟨C, fun p hp => by simpa using hC p hp⟩
    obtain ⟨C1, h1⟩ := hc (PolyLE.continuous ht)
    obtain ⟨C2, h2⟩ := hc (PolyLE.continuous (dX_mem ht))
    obtain ⟨C3, h3⟩ := hc (PolyLE.continuous (dY_mem ht))
    refine ⟨max B (max C1 (max C2 C3)), le_max_of_le_left hB, fun u hu p hp => ?_⟩
    rcases List.mem_cons.1 hu with rfl | hu
    · exact ⟨(h1 p hp).trans (by simp), (h2 p hp).trans (by simp), (h3 p hp).trans (by simp)⟩
    · obtain ⟨k1, k2, k3⟩ := h u hu p hp
      exact ⟨k1.trans (le_max_left _ _), k2.trans (le_max_left _ _), k3.trans (le_max_left _ _)⟩

/-- What depends on a point, and on the value and the gradient of a field there. -/
noncomputable def alongField (Φ : (ℝ × ℝ) × ℝ × ℝ × ℝ → ℝ) (q : Tri6 n → ℝ × ℝ → ℝ) (t : Tri6 n) (p : ℝ × ℝ) : ℝ :=
  Φ (p, q t p, dX (q t) p, dY (q t) p)

/-- `x` are the values at the nodes of `els'` of the field `q` on `els`. -/
def Samples {m : ℕ} (els : List (Tri6 n)) (q : Tri6 n → ℝ × ℝ → ℝ) (els' : List (Tri6 m)) (x : Fin m → ℝ) : Prop :=
  ∀ t' ∈ els', ∀ k, ∀ t ∈ els, (t'.coords.x k, t'.coords.y k) ∈ elemRegion t.coords →
    x (t'.nodeIds k) = q t (t'.coords.x k, t'.coords.y k)

/-- A field on a conforming mesh can be sampled at the nodes of any other mesh. -/
theorem exists_samples {pos : Fin n → ℝ × ℝ} (hc : ConformingMesh pos els)
    (hpos : ∀ t ∈ els, ∀ k, (t.coords.x k, t.coords.y k) = pos (t.nodeIds k)) {u : Fin n → ℝ} (hq : FEField els u q)
    {m : ℕ} (els' : List (Tri6 m)) (pos' : Fin m → ℝ × ℝ)
    (hpos' : ∀ t ∈ els', ∀ k, (t.coords.x k, t.coords.y k) = pos' (t.nodeIds k)) : ∃ x, Samples els q els' x := by
  classical
  have hag : ∀ s ∈ els, ∀ t ∈ els, ∀ p ∈ elemRegion s.coords ∩ elemRegion t.coords, q s p = q t p :=
    fun s hs t ht p hp => field_agree hc hpos hq hs ht hp.1 hp.2
  refine ⟨fun i => if h : ∃ t ∈ els, pos' i ∈ elemRegion t.coords then q h.choose (pos' i) else 0, ?_⟩
  intro t' ht' k t ht hmem
  rw [hpos' t' ht'] at hmem ⊢
  have hex : ∃ v ∈ els, pos' (t'.nodeIds k) ∈ elemRegion v.coords := ⟨_, ht, hmem⟩
  simp only [dif_pos hex]
  exact hag _ hex.choose_spec.1 _ ht _ ⟨hex.choose_spec.2, hmem⟩

/-- A field on a conforming mesh, sampled at the nodes of another mesh of the same body: if that mesh is fine, the field the samples
define there has nearly the same integrals. -/
theorem samples_close {pos : Fin n → ℝ × ℝ} (hc : ConformingMesh pos els)
    (hpos : ∀ t ∈ els, ∀ k, (t.coords.x k, t.coords.y k) = pos (t.nodeIds k))
    {Ω : Set (ℝ × ℝ)} {mat : ℝ × ℝ → Material} (hM : MeshOf Ω mat els) {u : Fin n → ℝ} (hq : FEField els u q)
    {Φ : (ℝ × ℝ) × ℝ × ℝ × ℝ → ℝ} (hΦ : Continuous Φ) (κ : ℝ) {ε : ℝ} (hε : 0 < ε) :
    ∃ h > 0, ∀ (m : ℕ) (els' : List (Tri6 m)), (∀ t ∈ els', Proper t.coords) → MeshOf Ω mat els' → FineMesh els' h κ →
      ∀ x v, Samples els q els' x → FEField els' x v → |wInt els' (alongField Φ v) - wInt els (alongField Φ q)| ≤ ε := by
  classical
  have hq2 : ∀ t ∈ els, q t ∈ PolyLE 2 := fun t ht => (hq t ht).1
  have hag : ∀ s ∈ els, ∀ t ∈ els, ∀ p ∈ elemRegion s.coords ∩ elemRegion t.coords, q s p = q t p :=
    fun s hs t ht p hp => field_agree hc hpos hq hs ht hp.1 hp.2
  obtain ⟨B, hB0, hB⟩ := field_bound hq2
  have hcomp : IsCompact (region els) := by
    have : region els = ⋃ t ∈ {t | t ∈ els}, elemRegion t.coords := by ext p; simp [region]
    rw [this]
    exact (List.finite_toSet els).isCompact_biUnion fun t _ => isCompact_elemRegion _
  -- a bound of the integrands
  set C := max (6 * B) (42 * |κ| * B) with hC
  obtain ⟨K, hK⟩ := (hcomp.prod (isCompact_Icc.prod (isCompact_Icc.prod isCompact_Icc)) :
    IsCompact (region els ×ˢ Icc (-C) C ×ˢ Icc (-C) C ×ˢ Icc (-C) C)).exists_bound_of_continuousOn hΦ.continuousOn
  have hΦb : ∀ (p : ℝ × ℝ) (a b c : ℝ), p ∈ region els → |a| ≤ C → |b| ≤ C → |c| ≤ C → |Φ (p, a, b, c)| ≤ max K 0 :=
    fun p a b c h1 h2 h3 h4 => (hK _ ⟨h1, abs_le.1 h2, abs_le.1 h3, abs_le.1 h4⟩).trans (le_max_left _ _)
  obtain ⟨E, hE0, hE⟩ : ∃ E, 0 ≤ E ∧ ∀ t ∈ els, |t.material.elasticModulus| ≤ E :=
    ⟨(els.map fun t => |t.material.elasticModulus|).sum,
      List.sum_nonneg fun x hx => by obtain ⟨t, -, rfl⟩ := List.mem_map.1 hx; exact abs_nonneg _,
      fun t ht => List.single_le_sum (fun x hx => by obtain ⟨t, -, rfl⟩ := List.mem_map.1 hx; exact abs_nonneg _) _
        (List.mem_map_of_mem ht)⟩
  obtain ⟨h, hh0, hNf, hN⟩ := near_edges els (η := ε / (2 * (E * max K 0) + 1)) (by positivity)
  refine ⟨h, hh0, fun m els' hp' hM' hf x v hx hv => ?_⟩
  have hreg : region els' ⊆ region els := region_subset hp' (hM'.covers.trans hM.covers.symm).le
  have hin' : ∀ t ∈ els', elemRegion t.coords ⊆ region els := fun t ht p hp => hreg ⟨t, ht, hp⟩
  -- the values and gradients of the field the samples define
  have hval : ∀ t ∈ els', ∀ p ∈ elemRegion t.coords, |v t p| ≤ C ∧ |dX (v t) p| ≤ C ∧ |dY (v t) p| ≤ C := by
    intro t ht p hpm
    obtain ⟨hv1, hv2⟩ := hv t ht
    have hnode : ∀ k, ∃ s ∈ els, (t.coords.x k, t.coords.y k) ∈ elemRegion s.coords := fun k =>
      hin' t ht (node_mem (hp' t ht).1 k)
    have b1 : |v t p| ≤ 6 * B := by
      refine quad_val (hp' t ht).1 hv1 (fun i => ?_) hpm
      obtain ⟨s, hs, hm⟩ := hnode i
      rw [hv2 i]
      simp only [hx t ht i s hs hm]
      exact (hB s hs _ hm).1
    obtain ⟨d, hdh, hdk, hdd⟩ := hf t ht
    have hdk' : d ^ 2 ≤ |κ| * elemDet t.coords :=
      hdk.trans (mul_le_mul_of_nonneg_right (le_abs_self κ) (hp' t ht).2.le)
    obtain ⟨b2, b3⟩ := quad_grad_lipschitz (hp' t ht) hv1 hB0 hdk' hdd (fun i => by
      obtain ⟨s, hs, hm⟩ := hnode i
      obtain ⟨s0, hs0, hm0⟩ := hnode 0
      rw [hv2 i, hv2 0]
      simp only [hx t ht i s hs hm, hx t ht 0 s0 hs0 hm0]
      refine field_lipschitz hq2 hag (fun t ht p hp => (hB t ht p hp).2) (fun z hz => hin' t ht ?_) hs0 hm0 hs hm
      exact (convex_elemRegion _).add_smul_sub_mem (node_mem (hp' t ht).1 0) (node_mem (hp' t ht).1 i) hz) hpm
    exact ⟨b1.trans (le_max_left _ _), b2.trans (le_max_right _ _), b3.trans (le_max_right _ _)⟩
  have hBC : B ≤ C := le_max_of_le_left (by linarith)
  have hcon : ∀ {k : ℕ} {l : List (Tri6 k)} {w : Tri6 k → ℝ × ℝ → ℝ}, (∀ t ∈ l, w t ∈ PolyLE 2) → ∀ t ∈ l, Continuous (alongField Φ w t) := by
    intro k l w hw t ht
    have c1 := PolyLE.continuous (hw t ht)
    have c2 := PolyLE.continuous (dX_mem (hw t ht))
    have c3 := PolyLE.continuous (dY_mem (hw t ht))
    unfold alongField
    fun_prop
  refine (wInt_close hM hM' (hcon hq2) (hcon fun t ht => (hv t ht).1) hE0 (le_max_right K 0) hNf hE ?_ ?_ ?_ ?_).trans ?_
  · intro t' ht' t ht hsub p hpm
    obtain ⟨d, -, -, hdd⟩ := hf t' ht'
    obtain ⟨e1, e2, e3⟩ := quad_same (hp' t' ht') (hv t' ht').1 (hq2 t ht)
      (fun k => ((hv t' ht').2 k).trans (hx t' ht' k t ht (hsub (node_mem (hp' t' ht').1 k)))) hdd hpm
    rw [alongField, alongField, e1, e2, e3]
  · intro t ht hcross
    obtain ⟨d, hdh, -, hdd⟩ := hf t ht
    exact crossing_near (hin' t ht) (fun p hp z hz => (hdd p hp z hz).trans hdh) hcross
  · intro t ht p hpm
    obtain ⟨k1, k2, k3⟩ := hB t ht p hpm
    exact hΦb _ _ _ _ ⟨t, ht, hpm⟩ (k1.trans hBC) (k2.trans hBC) (k3.trans hBC)
  · intro t ht p hpm
    obtain ⟨k1, k2, k3⟩ := hval t ht p hpm
    exact hΦb _ _ _ _ (hin' t ht hpm) k1 k2 k3
  · have hpos : 0 < 2 * (E * max K 0) + 1 := by positivity
    rw [le_div_iff₀ hpos] at hN
    nlinarith [measureReal_nonneg (μ := volume) (s := Metric.cthickening h (meshEdges els))]

/-- In particular there is a field on the fine mesh with nearly the same integrals. -/
theorem sample_close {pos : Fin n → ℝ × ℝ} (hc : ConformingMesh pos els)
    (hpos : ∀ t ∈ els, ∀ k, (t.coords.x k, t.coords.y k) = pos (t.nodeIds k))
    {Ω : Set (ℝ × ℝ)} {mat : ℝ × ℝ → Material} (hM : MeshOf Ω mat els) {u : Fin n → ℝ} (hq : FEField els u q)
    {Φ : (ℝ × ℝ) × ℝ × ℝ × ℝ → ℝ} (hΦ : Continuous Φ) (κ : ℝ) {ε : ℝ} (hε : 0 < ε) :
    ∃ h > 0, ∀ (m : ℕ) (els' : List (Tri6 m)) (pos' : Fin m → ℝ × ℝ),
      (∀ t ∈ els', ∀ k, (t.coords.x k, t.coords.y k) = pos' (t.nodeIds k)) → (∀ t ∈ els', Proper t.coords) →
      MeshOf Ω mat els' → FineMesh els' h κ →
      ∃ x v, FEField els' x v ∧ |wInt els' (alongField Φ v) - wInt els (alongField Φ q)| ≤ ε := by
  obtain ⟨h, hh, key⟩ := samples_close hc hpos hM hq hΦ κ hε
  refine ⟨h, hh, fun m els' pos' hpos' hp' hM' hf => ?_⟩
  obtain ⟨x, hx⟩ := exists_samples hc hpos hq els' pos' hpos'
  obtain ⟨v, hv⟩ := exists_feField hp' x
  exact ⟨x, v, hv, key m els' hp' hM' hf x v hx hv⟩

end SP
