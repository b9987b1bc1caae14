import Verif.Props.Rects

/-!
# C88: plastic moments of sections made of rectangles
-/

namespace SP

open Spec MeasureTheory Set

variable {ι : Type*} {S : Finset ι} {R : ι → Rect} {f : ι → ℝ} {n : ℕ} {els : List (Tri6 n)}

theorem int_abs (a b : ℝ) : ∫ x in a..b, |x| = (b * |b| - a * |a|) / 2 := by
  have key : ∀ c : ℝ, ∫ x in (0 : ℝ)..c, |x| = c * |c| / 2 := by
    intro c
    rcases le_total 0 c with h | h
    · rw [intervalIntegral.integral_congr (g := fun x => x) fun x hx => by
        rw [uIcc_of_le h] at hx
        exact abs_of_nonneg hx.1]
      rw [integral_id, abs_of_nonneg h]
      ring
    · rw [intervalIntegral.integral_congr (g := fun x => -x) fun x hx => by
        rw [uIcc_of_ge h] at hx
        exact abs_of_nonpos hx.2]
      rw [intervalIntegral.integral_neg, integral_id, abs_of_nonpos h]
      ring
  have hi : ∀ u v : ℝ, IntervalIntegrable (fun x : ℝ => |x|) volume u v := fun u v => continuous_abs.intervalIntegrable u v
  rw [← intervalIntegral.integral_interval_sub_left (hi 0 b) (hi 0 a), key, key]
  ring

theorem dist_convex {u v z d : ℝ} (h : u ≤ v) :
    ((v - z) * |v - z| - (u - z) * |u - z|) / 2 - (|v - z| - |u - z|) * (d - z) ≤ ((v - d) * |v - d| - (u - d) * |u - d|) / 2 := by
  rcases abs_cases (v - z) with ⟨e1, h1⟩ | ⟨e1, h1⟩ <;> rcases abs_cases (u - z) with ⟨e2, h2⟩ | ⟨e2, h2⟩ <;>
    rcases abs_cases (v - d) with ⟨e3, h3⟩ | ⟨e3, h3⟩ <;> rcases abs_cases (u - d) with ⟨e4, h4⟩ | ⟨e4, h4⟩ <;>
    rw [e1, e2, e3, e4] <;> nlinarith [mul_self_nonneg (v - d), mul_self_nonneg (u - d), mul_self_nonneg (d - z), mul_self_nonneg (v-z), mul_self_nonneg (u-z)]

theorem int_dist (u v z : ℝ) : ∫ y in u..v, |y - z| = ((v - z) * |v - z| - (u - z) * |u - z|) / 2 := by
  rw [intervalIntegral.integral_comp_sub_right fun y => |y|, int_abs]

theorem rects_yield (hno : NoOverlap els) (hR : Rectangles els S R) (hf : InRects els S R Material.yieldStrength f)
    {g : ℝ × ℝ → ℝ} (hg : Continuous g) :
    ((strengthParts els).map fun p => p.2 * ∫ q in p.1, g q).sum = ∑ i ∈ S, f i * ∫ q in (R i).inside, g q := by
  rw [← rect_integral hR f hg, ← (sum_integral hno (rectField_isField hR hf) hg).2, strengthParts, List.map_map]
  exact congrArg List.sum (List.map_congr_left fun t _ => mul_comm _ _)

theorem rects_dist (hno : NoOverlap els) (hR : Rectangles els S R) (hf : InRects els S R Material.yieldStrength f) (z : ℝ) :
    yieldDist (strengthParts els) (fun q => q.2) z = ∑ i ∈ S, f i * rectMomentX (R i) z ∧
    yieldDist (strengthParts els) (fun q => q.1) z = ∑ i ∈ S, f i * rectMomentY (R i) z := by
  constructor
  · rw [yieldDist, rects_yield hno hR hf (g := fun q => |q.2 - z|) (by fun_prop)]
    refine Finset.sum_congr rfl fun i hi => ?_
    have := inside_integral (hR.width i hi) (hR.height i hi) (fun _ => 1) fun y => |y - z|
    simp only [one_mul, intervalIntegral.integral_const, smul_eq_mul, mul_one, int_dist] at this
    rw [this]
    rfl
  · rw [yieldDist, rects_yield hno hR hf (g := fun q => |q.1 - z|) (by fun_prop)]
    refine Finset.sum_congr rfl fun i hi => ?_
    have := inside_integral (hR.width i hi) (hR.height i hi) (fun x => |x - z|) fun _ => 1
    simp only [mul_one, intervalIntegral.integral_const, smul_eq_mul, int_dist] at this
    rw [this]
    simp only [rectMomentY, Rect.height]
    ring

theorem rects_squash (hno : NoOverlap els) (hR : Rectangles els S R) (hf : InRects els S R Material.yieldStrength f) :
    squashLoad (strengthParts els) = ∑ i ∈ S, f i * (R i).area := by
  have h := rects_yield hno hR hf (continuous_const (y := (1 : ℝ)))
  have e : squashLoad (strengthParts els) = ((strengthParts els).map fun p => p.2 * ∫ _q in p.1, (1 : ℝ)).sum := by
    rw [squashLoad]
    exact congrArg List.sum (List.map_congr_left fun p _ => by simp)
  rw [e, h]
  exact Finset.sum_congr rfl fun i hi => by rw [(inside_moments (hR.width i hi) (hR.height i hi)).1]

/-- **C88** The largest moment about a horizontal axis within the yield strength, for rectangles of strength `f i`: with `z` the
height at which the forces above and below are equal, the sum of the moments of the parts above and below `z`. -/
theorem C88_limit_moment (hp : ∀ t ∈ els, Proper t.coords) (hne : els ≠ []) (hy : ∀ t ∈ els, 0 < t.material.yieldStrength)
    (hno : NoOverlap els) (hR : Rectangles els S R) (hf : InRects els S R Material.yieldStrength f) {zx zy : ℝ}
    (hx : ∑ i ∈ S, f i * ((R i).height * (|(R i).x1 - zx| - |(R i).x0 - zx|)) = 0)
    (hz : ∑ i ∈ S, f i * ((R i).width * (|(R i).y1 - zy| - |(R i).y0 - zy|)) = 0) (hpos : ∀ i ∈ S, 0 ≤ f i) :
    IsLimitMoment (strengthParts els) (fun q => q.2) (∑ i ∈ S, f i * rectMomentX (R i) zy) ∧
    IsLimitMoment (strengthParts els) (fun q => q.1) (∑ i ∈ S, f i * rectMomentY (R i) zx) := by
  constructor
  · obtain ⟨z', hz'⟩ := mesh_balanced hp hne hy 0 .xx
    obtain ⟨hM, hmin⟩ := balanced_limit (goodParts_mesh hy) (u := fun q => q.2) (z := z') continuous_snd hz'
    rw [← (rects_dist hno hR hf zy).1]
    have : yieldDist (strengthParts els) (fun q => q.2) zy ≤ yieldDist (strengthParts els) (fun q => q.2) z' := by
      rw [(rects_dist hno hR hf zy).1, (rects_dist hno hR hf z').1]
      have key : ∑ i ∈ S, f i * rectMomentX (R i) zy - (z' - zy) * ∑ i ∈ S, f i * ((R i).width * (|(R i).y1 - zy| - |(R i).y0 - zy|))
          ≤ ∑ i ∈ S, f i * rectMomentX (R i) z' := by
        rw [Finset.mul_sum, ← Finset.sum_sub_distrib]
        refine Finset.sum_le_sum fun i hi => ?_
        have h1 := mul_le_mul_of_nonneg_left (mul_le_mul_of_nonneg_left
          (dist_convex (z := zy) (d := z') (sub_pos.1 (hR.height i hi)).le) (hR.width i hi).le) (hpos i hi)
        simp only [rectMomentX]
        linarith
      rw [hz] at key
      linarith
    rw [le_antisymm this (hmin zy)]
    exact hM
  · obtain ⟨z', hz'⟩ := mesh_balanced hp hne hy 0 .yy
    obtain ⟨hM, hmin⟩ := balanced_limit (goodParts_mesh hy) (u := fun q => q.1) (z := z') continuous_fst hz'
    rw [← (rects_dist hno hR hf zx).2]
    have : yieldDist (strengthParts els) (fun q => q.1) zx ≤ yieldDist (strengthParts els) (fun q => q.1) z' := by
      rw [(rects_dist hno hR hf zx).2, (rects_dist hno hR hf z').2]
      have key : ∑ i ∈ S, f i * rectMomentY (R i) zx - (z' - zx) * ∑ i ∈ S, f i * ((R i).height * (|(R i).x1 - zx| - |(R i).x0 - zx|))
          ≤ ∑ i ∈ S, f i * rectMomentY (R i) z' := by
        rw [Finset.mul_sum, ← Finset.sum_sub_distrib]
        refine Finset.sum_le_sum fun i hi => ?_
        have h1 := mul_le_mul_of_nonneg_left (mul_le_mul_of_nonneg_left
          (dist_convex (z := zx) (d := z') (sub_pos.1 (hR.width i hi)).le) (hR.height i hi).le) (hpos i hi)
        simp only [rectMomentY]
        linarith
      rw [hx] at key
      linarith
    rw [le_antisymm this (hmin zx)]
    exact hM

/-- **C88** A plastic analysis stores these moments as `sxx` and `syy`, up to the tolerance of the root search times the squash
load. -/
theorem C88_plastic {P : Type} (env : Env P) {r : GeomResults} {reg : P → Set (ℝ × ℝ)} {tol : ℝ → ℝ}
    {st : Store env.sec.numNodes} (h : PlasticSetup env r reg tol st) (hno : NoOverlap env.sec.elements)
    (hR : Rectangles env.sec.elements S R) (hf : InRects env.sec.elements S R Material.yieldStrength f) {zx zy : ℝ}
    (hx : ∑ i ∈ S, f i * ((R i).height * (|(R i).x1 - zx| - |(R i).x0 - zx|)) = 0)
    (hz : ∑ i ∈ S, f i * ((R i).width * (|(R i).y1 - zy| - |(R i).y0 - zy|)) = 0) :
    ((env.plasticAnalysis.run.run st).1 = .error .runtimeError ∧
      ∃ g lo hi q, env.brentq g lo hi = .ok q ∧ q.converged = false) ∨
    ((env.plasticAnalysis.run.run st).1 = .ok () ∧ ∃ dx dy Sx Sy,
      (env.plasticAnalysis.run.run st).2.val .yPc = some dy ∧ (env.plasticAnalysis.run.run st).2.val .sxx = some Sx ∧
      (env.plasticAnalysis.run.run st).2.val .xPc = some dx ∧ (env.plasticAnalysis.run.run st).2.val .syy = some Sy ∧
      Sx - tol dy * ∑ i ∈ S, f i * (R i).area ≤ ∑ i ∈ S, f i * rectMomentX (R i) zy ∧
      ∑ i ∈ S, f i * rectMomentX (R i) zy ≤ Sx + 2 * tol dy * ∑ i ∈ S, f i * (R i).area ∧
      Sy - tol dx * ∑ i ∈ S, f i * (R i).area ≤ ∑ i ∈ S, f i * rectMomentY (R i) zx ∧
      ∑ i ∈ S, f i * rectMomentY (R i) zx ≤ Sy + 2 * tol dx * ∑ i ∈ S, f i * (R i).area) := by
  have hpos : ∀ i ∈ S, 0 ≤ f i := by
    intro i hi
    obtain ⟨t, ht, hne⟩ := rect_meets h.physical.proper hR hi
    rw [← hf t ht i hi hne]
    exact (h.yields t ht).le
  obtain ⟨m1, m2⟩ := C88_limit_moment h.physical.proper h.physical.nonempty h.yields hno hR hf hx hz hpos
  rcases C73_limit_moment env h with he | ⟨hok, hall⟩
  · exact .inl he
  · refine .inr ⟨hok, ?_⟩
    obtain ⟨dy, Sx, Mx, a1, a2, a3, a4, a5⟩ := hall .xx
    obtain ⟨dx, Sy, My, b1, b2, b3, b4, b5⟩ := hall .yy
    have e1 : Mx = ∑ i ∈ S, f i * rectMomentX (R i) zy := a3.unique m1
    have e2 : My = ∑ i ∈ S, f i * rectMomentY (R i) zx := b3.unique m2
    rw [rects_squash hno hR hf, e1] at a4 a5
    rw [rects_squash hno hR hf, e2] at b4 b5
    exact ⟨dx, dy, Sx, Sy, a1, a2, b1, b2, a4, a5, b4, b5⟩

end SP
