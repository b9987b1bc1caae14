import Verif.Spec.Extend
import Verif.Lemmas.Refine
import Verif.Lemmas.Inertia

/-!
# Integrals over a section and over a larger one
-/

namespace SP

open Spec MeasureTheory

variable {n m : ℕ} {els : List (Tri6 n)} {els' : List (Tri6 m)}

theorem below_sum {prop : Material → ℝ} (hno : NoOverlap els) (hno' : NoOverlap els') (h : Below prop els els')
    (h0 : ∀ t ∈ els', 0 ≤ prop t.material) {f : ℝ × ℝ → ℝ} (hf : Continuous f) (hf0 : ∀ p, 0 ≤ f p) :
    (els.map fun t => (∫ p in elemRegion t.coords, f p) * prop t.material).sum
      ≤ (els'.map fun t => (∫ p in elemRegion t.coords, f p) * prop t.material).sum := by
  obtain ⟨E, E', hE, hE', hb⟩ := h
  obtain ⟨i1, e1⟩ := sum_integral hno hE hf
  obtain ⟨i2, e2⟩ := sum_integral hno' hE' hf
  rw [e1, e2]
  have hsub : region els ≤ᵐ[volume] region els' := by
    filter_upwards [hb] with p hp h
    exact (hp h).1
  have hpos : ∀ᵐ p : ℝ × ℝ, p ∈ region els' → 0 ≤ E' p := by
    have : ∀ᵐ p : ℝ × ℝ, ∀ t ∈ els', p ∈ elemRegion t.coords → E' p = prop t.material :=
      (ae_ball_iff (List.finite_toSet els').countable).2 fun t ht => hE' t ht
    filter_upwards [this] with p hp ⟨t, ht, hpt⟩
    rw [hp t ht hpt]
    exact h0 t ht
  refine (setIntegral_mono_on_ae i1 (i2.mono_set_ae hsub) (measurable_region els) ?_).trans
    (setIntegral_mono_set i2 ?_ hsub)
  · filter_upwards [hb] with p hp h
    exact mul_le_mul_of_nonneg_right (hp h).2 (hf0 p)
  · rw [Filter.EventuallyLE, ae_restrict_iff' (measurable_region els')]
    filter_upwards [hpos] with p hp h
    exact mul_nonneg (hp h) (hf0 p)

/-- Integrals of what is not negative over a mesh that lies within another. -/
theorem wInt_within (hW : FitsInto els els') (hp' : ∀ t ∈ els', Proper t.coords)
    (hE' : ∀ t ∈ els', 0 < t.material.elasticModulus) {par : Tri6 n → Tri6 m}
    (hpar : ∀ t ∈ els, par t ∈ els' ∧ elemRegion t.coords ⊆ elemRegion (par t).coords ∧
      t.material.elasticModulus ≤ (par t).material.elasticModulus)
    {f : Tri6 m → ℝ × ℝ → ℝ} (hf : ∀ t ∈ els', Continuous (f t)) (hf0 : ∀ t ∈ els', ∀ p, 0 ≤ f t p) :
    wInt els (fun t => f (par t)) ≤ wInt els' f := by
  classical
  have hn := nodup_elems hp' hW.once'
  have e : wInt els (fun t => f (par t)) = (els'.map fun a => (els.map fun t => if par t = a then
      t.material.elasticModulus * ∫ p in elemRegion t.coords, f a p else 0).sum).sum := by
    rw [wInt, ← sum_swap]
    refine congrArg List.sum (List.map_congr_left fun t ht => ?_)
    rw [sum_pick hn (hpar t ht).1 fun a => t.material.elasticModulus * ∫ p in elemRegion t.coords, f a p]
  rw [e, wInt]
  refine List.sum_le_sum fun a ha => ?_
  have h1 : (els.map fun t => ∫ p in elemRegion a.coords ∩ elemRegion t.coords, f a p).sum
      ≤ ∫ p in elemRegion a.coords, f a p := by
    rw [← (integral_parts hW.once (measurable_elemRegion _) (hf a ha)).2]
    exact setIntegral_mono_set ((hf a ha).continuousOn.integrableOn_compact (isCompact_elemRegion _))
      (Filter.Eventually.of_forall fun p => hf0 a ha p) Set.inter_subset_left.eventuallyLE
  refine le_trans ?_ (mul_le_mul_of_nonneg_left h1 (hE' a ha).le)
  rw [← List.sum_map_mul_left]
  refine List.sum_le_sum fun t ht => ?_
  obtain ⟨-, h2, h3⟩ := hpar t ht
  have h0 : ∀ S : Set (ℝ × ℝ), 0 ≤ ∫ p in S, f a p := fun S => integral_nonneg fun p => hf0 a ha p
  split
  · next h =>
    rw [h] at h2 h3
    rw [Set.inter_eq_right.2 h2]
    exact mul_le_mul_of_nonneg_right h3 (h0 _)
  · exact mul_nonneg (hE' a ha).le (h0 _)

theorem within_shift (hW : FitsInto els els') (cx cy : ℝ) : FitsInto (shifted els cx cy) (shifted els' cx cy) := by
  refine ⟨noOverlap_shift hW.once cx cy, noOverlap_shift hW.once' cx cy, ?_⟩
  intro t ht
  obtain ⟨u, hu, rfl⟩ := List.mem_map.1 ht
  obtain ⟨v, hv, h1, h2⟩ := hW.inside u hu
  exact ⟨_, List.mem_map_of_mem hv, fun p hp => mem_region_shift.2 (h1 (mem_region_shift.1 hp)), h2⟩

/-! ### Largest and smallest values of a quadratic form -/

/-- The second moments as a quadratic form. -/
def quadForm (ixx iyy ixy a b : ℝ) : ℝ := a ^ 2 * iyy + 2 * (a * b) * ixy + b ^ 2 * ixx

theorem quadForm_le (ixx iyy ixy a b : ℝ) :
    i22Of ixx iyy ixy * (a ^ 2 + b ^ 2) ≤ quadForm ixx iyy ixy a b ∧
    quadForm ixx iyy ixy a b ≤ i11Of ixx iyy ixy * (a ^ 2 + b ^ 2) := by
  have hD := mohrDelta_sq ixx iyy ixy
  have hD0 := mohrDelta_nonneg ixx iyy ixy
  have h1 := ixx_le_i11 ixx iyy ixy
  have h2 := i22_le_ixx ixx iyy ixy
  have h3 := i11_add_i22 ixx iyy ixy
  have h4 := i11_mul_i22 ixx iyy ixy
  set u := i11Of ixx iyy ixy
  set v := i22Of ixx iyy ixy
  have k1 : (u - iyy) * (u - ixx) = ixy ^ 2 := by
    linear_combination u * h3 - h4
  have k2 : (iyy - v) * (ixx - v) = ixy ^ 2 := by
    linear_combination v * h3 - h4
  have k3 : u - iyy = ixx - v := by linarith
  have k4 : iyy - v = u - ixx := by linarith
  have key : ∀ {x y z : ℝ}, 0 ≤ x → 0 ≤ y → x * y = z ^ 2 → 0 ≤ a ^ 2 * x + 2 * (a * b) * z + b ^ 2 * y := by
    intro x y z hx hy hz
    rcases hx.eq_or_lt with h | h
    · have : z = 0 := by rw [← h, zero_mul] at hz; exact pow_eq_zero_iff two_ne_zero |>.1 hz.symm
      rw [← h, this]
      nlinarith [mul_nonneg (sq_nonneg b) hy]
    · have : x * (a ^ 2 * x + 2 * (a * b) * z + b ^ 2 * y) = (a * x + b * z) ^ 2 := by linear_combination b ^ 2 * hz
      by_contra hn
      push Not at hn
      nlinarith [mul_neg_of_pos_of_neg h hn, sq_nonneg (a * x + b * z)]
  have h5 := key (x := iyy - v) (y := ixx - v) (z := ixy) (by linarith) (by linarith) k2
  have h6 := key (x := u - iyy) (y := u - ixx) (z := -ixy) (by linarith) (by linarith) (by rw [k1]; ring)
  simp only [quadForm]
  constructor <;> linarith

theorem quadForm_attained (ixx iyy ixy : ℝ) : ∃ a b a' b' : ℝ, 0 < a ^ 2 + b ^ 2 ∧ 0 < a' ^ 2 + b' ^ 2 ∧
    quadForm ixx iyy ixy a b = i11Of ixx iyy ixy * (a ^ 2 + b ^ 2) ∧
    quadForm ixx iyy ixy a' b' = i22Of ixx iyy ixy * (a' ^ 2 + b' ^ 2) := by
  have h3 := i11_add_i22 ixx iyy ixy
  have h4 := i11_mul_i22 ixx iyy ixy
  set u := i11Of ixx iyy ixy
  set v := i22Of ixx iyy ixy
  have k1 : (u - iyy) * (u - ixx) = ixy ^ 2 := by linear_combination u * h3 - h4
  by_cases h : ixy = 0 ∧ u = iyy
  · refine ⟨1, 0, 0, 1, by norm_num, by norm_num, ?_, ?_⟩
    · simp only [quadForm, h.2]; ring
    · have : v = ixx := by linarith [h.2]
      simp only [quadForm, this]; ring
  · have hp : 0 < ixy ^ 2 + (u - iyy) ^ 2 := by
      rcases not_and_or.1 h with h | h
      · have := pow_pos (abs_pos.2 h) 2; rw [sq_abs] at this; positivity
      · have : u - iyy ≠ 0 := sub_ne_zero.2 h
        positivity
    refine ⟨ixy, u - iyy, u - iyy, -ixy, hp, by linarith [neg_sq ixy], ?_, ?_⟩
    · simp only [quadForm]
      linear_combination (-(u - iyy)) * k1
    · simp only [quadForm]
      have : v = ixx + iyy - u := by linarith
      rw [this]
      linear_combination (u - iyy) * k1

/-- Larger forms have larger extreme values. -/
theorem extremes_le {ixx iyy ixy jxx jyy jxy : ℝ} (h : ∀ a b, quadForm ixx iyy ixy a b ≤ quadForm jxx jyy jxy a b) :
    i11Of ixx iyy ixy ≤ i11Of jxx jyy jxy ∧ i22Of ixx iyy ixy ≤ i22Of jxx jyy jxy := by
  constructor
  · obtain ⟨a, b, -, -, h1, -, h2, -⟩ := quadForm_attained ixx iyy ixy
    have := (h a b).trans (quadForm_le jxx jyy jxy a b).2
    rw [h2] at this
    exact le_of_mul_le_mul_right this h1
  · obtain ⟨-, -, a, b, -, h1, -, h2⟩ := quadForm_attained jxx jyy jxy
    have := (quadForm_le ixx iyy ixy a b).1.trans (h a b)
    rw [h2] at this
    exact le_of_mul_le_mul_right this h1

/-! ### Second moments about the centroid -/

theorem wInt_affine (hp : ∀ t ∈ els, Proper t.coords) (a b c : ℝ) :
    wInt els (fun _ p => (a * p.1 + b * p.2 + c) ^ 2)
      = a ^ 2 * (geomSums els).iyyG + 2 * (a * b) * (geomSums els).ixyG + b ^ 2 * (geomSums els).ixxG
        + 2 * c * (a * (geomSums els).qy + b * (geomSums els).qx) + c ^ 2 * (geomSums els).ea := by
  obtain ⟨m1, m2, m3, m4, m5⟩ := wInt_moments hp
  have m0 := wInt_one hp
  have q2 : ∀ a b c : ℝ, (fun p : ℝ × ℝ => a * p.1 ^ 2 + b * (p.1 * p.2) + c * p.2 ^ 2) ∈ PolyLE 2 := by
    intro a b c
    have hyy : (fun p : ℝ × ℝ => p.2 ^ 2) ∈ PolyLE 2 := by simpa only [pow_two] using poly_mul2 PolyLE.snd PolyLE.snd
    have hxx : (fun p : ℝ × ℝ => p.1 ^ 2) ∈ PolyLE 2 := by simpa only [pow_two] using poly_mul2 PolyLE.fst PolyLE.fst
    have hxy : (fun p : ℝ × ℝ => p.1 * p.2) ∈ PolyLE 2 := poly_mul2 PolyLE.fst PolyLE.snd
    exact Submodule.add_mem _ (Submodule.add_mem _ (Submodule.smul_mem _ a hxx) (Submodule.smul_mem _ b hxy))
      (Submodule.smul_mem _ c hyy)
  have q1 : ∀ a b : ℝ, (fun p : ℝ × ℝ => a * p.1 + b * p.2) ∈ PolyLE 2 := fun a b =>
    Submodule.add_mem _ (Submodule.smul_mem _ a (PolyLE.mono one_le_two PolyLE.fst))
      (Submodule.smul_mem _ b (PolyLE.mono one_le_two PolyLE.snd))
  have q0 : (fun _ : ℝ × ℝ => (1 : ℝ)) ∈ PolyLE 2 := PolyLE.const 2 1
  rw [wInt_congr (g := fun _ p => (a ^ 2 * p.1 ^ 2 + 2 * (a * b) * (p.1 * p.2) + b ^ 2 * p.2 ^ 2)
      + (2 * c * (a * p.1 + b * p.2) + c ^ 2 * 1)) fun t _ p => by ring,
    wInt_add (d := 2) (f := fun _ p => a ^ 2 * p.1 ^ 2 + 2 * (a * b) * (p.1 * p.2) + b ^ 2 * p.2 ^ 2)
      (g := fun _ p => 2 * c * (a * p.1 + b * p.2) + c ^ 2 * 1) (fun _ _ => q2 _ _ _) (fun _ _ => Submodule.add_mem _ (Submodule.smul_mem _ (2 * c) (q1 a b))
      (Submodule.smul_mem _ (c ^ 2) q0)),
    wInt_lc (d := 2) (f := fun _ p => a * p.1 + b * p.2) (g := fun _ _ => 1) _ _ (fun _ _ => q1 a b) (fun _ _ => q0), wInt_quadmom, wInt_lin, m0, m1, m2, m3, m4, m5]
  ring

/-- The larger section has the larger second moments about its own centroid, in every direction. -/
theorem central_le (hp : Physical els) (hp' : Physical els') (hno : NoOverlap els) (hno' : NoOverlap els')
    (h : Below Material.elasticModulus els els') (a b : ℝ) :
    quadForm (geomSums els).ixxC (geomSums els).iyyC (geomSums els).ixyC a b
      ≤ quadForm (geomSums els').ixxC (geomSums els').iyyC (geomSums els').ixyC a b := by
  have he := hp.ea_pos
  have he' := hp'.ea_pos
  have key : ∀ c, wInt els (fun _ p => (a * p.1 + b * p.2 + c) ^ 2) ≤ wInt els' (fun _ p => (a * p.1 + b * p.2 + c) ^ 2) := by
    intro c
    have := below_sum hno hno' h (fun t ht => (hp'.modulus t ht).le) (f := fun p => (a * p.1 + b * p.2 + c) ^ 2)
      (by fun_prop) fun p => sq_nonneg _
    simpa only [wInt, mul_comm] using this
  have k := key (-(a * (geomSums els').qy + b * (geomSums els').qx) / (geomSums els').ea)
  rw [wInt_affine hp.proper, wInt_affine hp'.proper] at k
  simp only [quadForm, GeomSums.ixxC, GeomSums.iyyC, GeomSums.ixyC]
  set g := geomSums els
  set g' := geomSums els'
  set c := -(a * g'.qy + b * g'.qx) / g'.ea with hc
  have e1 : a ^ 2 * (g'.iyyG - g'.qy ^ 2 / g'.ea) + 2 * (a * b) * (g'.ixyG - g'.qx * g'.qy / g'.ea)
      + b ^ 2 * (g'.ixxG - g'.qx ^ 2 / g'.ea)
      = a ^ 2 * g'.iyyG + 2 * (a * b) * g'.ixyG + b ^ 2 * g'.ixxG + 2 * c * (a * g'.qy + b * g'.qx) + c ^ 2 * g'.ea := by
    rw [hc]; field_simp; ring
  have e2 : a ^ 2 * (g.iyyG - g.qy ^ 2 / g.ea) + 2 * (a * b) * (g.ixyG - g.qx * g.qy / g.ea)
      + b ^ 2 * (g.ixxG - g.qx ^ 2 / g.ea)
      = a ^ 2 * g.iyyG + 2 * (a * b) * g.ixyG + b ^ 2 * g.ixxG + 2 * c * (a * g.qy + b * g.qx) + c ^ 2 * g.ea
        - g.ea * (c + (a * g.qy + b * g.qx) / g.ea) ^ 2 := by
    field_simp; ring
  rw [e1, e2]
  have := mul_nonneg he.le (sq_nonneg (c + (a * g.qy + b * g.qx) / g.ea))
  linarith

end SP
