import Verif.Lemmas.BodyLimit

/-!
# The error of the four point rule

The rule is exact to degree three.  For the square of a quadratic field its error is at most a multiple of the square of the element size
times the energy of the field, and for a continuous function it is small on small elements.
-/

namespace SP

open Spec MeasureTheory Set Topology

noncomputable section

variable {n : ℕ} {els : List (Tri6 n)} {q : Tri6 n → ℝ × ℝ → ℝ}

/-- The four point rule on an element, without the modulus. -/
def ruleOn (c : Coords) (g : ℝ × ℝ → ℝ) : ℝ :=
  accum gauss4 fun gp => gp.w * (elemDet c / 2) * g (posX c gp, posY c gp)

theorem elem_bary {c : Coords} {z : ℝ × ℝ} (hz : z ∈ elemRegion c) : ∃ a b d : ℝ, 0 ≤ a ∧ 0 ≤ b ∧ 0 ≤ d ∧ a + b + d = 1 ∧
    z = (a * c.x 0 + b * c.x 1 + d * c.x 2, a * c.y 0 + b * c.y 1 + d * c.y 2) := by
  rw [elemRegion, triangle, convexHull_insert ⟨_, mem_insert _ _⟩, convexHull_pair] at hz
  simp only [segment, convexJoin, mem_iUnion, mem_singleton_iff, exists_prop, exists_eq_left] at hz
  obtain ⟨w, ⟨a, b, ha, hb, hab, rfl⟩, e, f, he, hf, hef, rfl⟩ := hz
  refine ⟨e, f * a, f * b, he, by positivity, by positivity, by rw [add_assoc, ← mul_add, hab, mul_one, hef], ?_⟩
  ext <;> simp [cornerA, cornerB, cornerC] <;> ring

theorem rule_mem {c : Coords} {gp : GaussPt} (h : gp ∈ gauss4) : (posX c gp, posY c gp) ∈ elemRegion c := by
  have key : ∀ a b d : ℝ, 0 ≤ a → 0 ≤ b → 0 ≤ d → a + b + d = 1 →
      (a * c.x 0 + b * c.x 1 + d * c.x 2, a * c.y 0 + b * c.y 1 + d * c.y 2) ∈ elemRegion c := by
    intro a b d ha hb hd e
    obtain ⟨h1, h2, h3⟩ := corner_mem c
    have := (convex_elemRegion c).sum_mem (t := Finset.univ) (w := ![a, b, d]) (z := ![cornerA c, cornerB c, cornerC c])
      (by intro i _; fin_cases i <;> assumption) (by simp [Fin.sum_univ_three, e])
      (by intro i _; fin_cases i <;> assumption)
    simpa [Fin.sum_univ_three, cornerA, cornerB, cornerC] using this
  simp only [gauss4, List.mem_cons, List.not_mem_nil, or_false] at h
  rcases h with rfl | rfl | rfl | rfl <;> refine key _ _ _ ?_ ?_ ?_ ?_ <;> norm_num

theorem poly_square {f : ℝ × ℝ → ℝ} (hf : f ∈ PolyLE 1) : (fun p => f p ^ 2) ∈ PolyLE 2 := by
  simpa only [pow_two] using poly_mul2 hf hf

/-- An affine function at a point of an element is bounded by its mean square. -/
theorem affine_sup {c : Coords} (hp : Proper c) {f : ℝ × ℝ → ℝ} (hf : f ∈ PolyLE 1) {z : ℝ × ℝ} (hz : z ∈ elemRegion c) :
    elemDet c * f z ^ 2 ≤ 24 * ∫ p in elemRegion c, f p ^ 2 := by
  have hsq : (fun p => f p ^ 2) ∈ PolyLE 3 := PolyLE.mono (show 2 ≤ 3 by omega) (poly_square hf)
  rw [← accum_gauss4_integral hp hsq, accum_gauss4]
  obtain ⟨k, l, m, e⟩ := affine_coeff hf
  obtain ⟨a, b, d, ha, hb, hd, h1, rfl⟩ := elem_bary hz
  simp only [e, posX, posY]
  set f0 := k + l * c.x 0 + m * c.y 0 with h0
  set f1 := k + l * c.x 1 + m * c.y 1 with h1'
  set f2 := k + l * c.x 2 + m * c.y 2 with h2
  have hz : k + l * (a * c.x 0 + b * c.x 1 + d * c.x 2) + m * (a * c.y 0 + b * c.y 1 + d * c.y 2) = a * f0 + b * f1 + d * f2 := by
    rw [h0, h1', h2]; linear_combination -k * h1
  have e0 : k + l * (1 / 3 * c.x 0 + 1 / 3 * c.x 1 + 1 / 3 * c.x 2) + m * (1 / 3 * c.y 0 + 1 / 3 * c.y 1 + 1 / 3 * c.y 2)
      = (f0 + f1 + f2) / 3 := by rw [h0, h1', h2]; ring
  have e1 : k + l * (0.6 * c.x 0 + 0.2 * c.x 1 + 0.2 * c.x 2) + m * (0.6 * c.y 0 + 0.2 * c.y 1 + 0.2 * c.y 2)
      = (3 * f0 + f1 + f2) / 5 := by rw [h0, h1', h2]; ring
  have e2 : k + l * (0.2 * c.x 0 + 0.6 * c.x 1 + 0.2 * c.x 2) + m * (0.2 * c.y 0 + 0.6 * c.y 1 + 0.2 * c.y 2)
      = (f0 + 3 * f1 + f2) / 5 := by rw [h0, h1', h2]; ring
  have e3 : k + l * (0.2 * c.x 0 + 0.2 * c.x 1 + 0.6 * c.x 2) + m * (0.2 * c.y 0 + 0.2 * c.y 1 + 0.6 * c.y 2)
      = (f0 + f1 + 3 * f2) / 5 := by rw [h0, h1', h2]; ring
  rw [hz, e0, e1, e2, e3]
  clear_value f0 f1 f2
  have hc : (a * f0 + b * f1 + d * f2) ^ 2 ≤ f0 ^ 2 + f1 ^ 2 + f2 ^ 2 := by
    obtain rfl : d = 1 - a - b := by linarith
    have hD : (a * f0 + b * f1 + (1 - a - b) * f2) ^ 2 ≤ a * f0 ^ 2 + b * f1 ^ 2 + (1 - a - b) * f2 ^ 2 := by
      nlinarith [mul_nonneg (mul_nonneg ha hb) (sq_nonneg (f0 - f1)), mul_nonneg (mul_nonneg ha hd) (sq_nonneg (f0 - f2)),
        mul_nonneg (mul_nonneg hb hd) (sq_nonneg (f1 - f2))]
    have i1 : a * f0 ^ 2 ≤ f0 ^ 2 := mul_le_of_le_one_left (sq_nonneg _) (by linarith)
    have i2 : b * f1 ^ 2 ≤ f1 ^ 2 := mul_le_of_le_one_left (sq_nonneg _) (by linarith)
    have i3 : (1 - a - b) * f2 ^ 2 ≤ f2 ^ 2 := mul_le_of_le_one_left (sq_nonneg _) (by linarith)
    linarith
  have hm := mul_le_mul_of_nonneg_left hc hp.2.le
  have hs := mul_nonneg hp.2.le (sq_nonneg (f0 + f1 + f2))
  nlinarith

theorem det_integral {c : Coords} (hp : Proper c) (k : ℝ) : ∫ _ in elemRegion c, k = elemDet c / 2 * k := by
  rw [← accum_gauss4_integral hp (PolyLE.const 3 k), accum_gauss4]
  ring

/-- The rule on a function that hardly varies. -/
theorem rule_close {c : Coords} (hp : Proper c) {g : ℝ × ℝ → ℝ} (hg : Continuous g) {k η : ℝ}
    (h : ∀ z ∈ elemRegion c, |g z - k| ≤ η) : |ruleOn c g - ∫ p in elemRegion c, g p| ≤ 2 * η * elemDet c := by
  have hd := hp.2
  have h1 : |ruleOn c g - elemDet c / 2 * k| ≤ 102 / 48 * η * (elemDet c / 2) := by
    have b1 := h _ (rule_mem (c := c) (gp := ⟨-27 / 48, 1 / 3, 1 / 3, 1 / 3⟩) (by simp [gauss4]))
    have b2 := h _ (rule_mem (c := c) (gp := ⟨25 / 48, 0.6, 0.2, 0.2⟩) (by simp [gauss4]))
    have b3 := h _ (rule_mem (c := c) (gp := ⟨25 / 48, 0.2, 0.6, 0.2⟩) (by simp [gauss4]))
    have b4 := h _ (rule_mem (c := c) (gp := ⟨25 / 48, 0.2, 0.2, 0.6⟩) (by simp [gauss4]))
    rw [ruleOn, accum_gauss4]
    simp only
    rw [abs_le] at b1 b2 b3 b4 ⊢
    generalize g (posX c ⟨-27 / 48, 1 / 3, 1 / 3, 1 / 3⟩, posY c ⟨-27 / 48, 1 / 3, 1 / 3, 1 / 3⟩) = g1 at *
    generalize g (posX c ⟨25 / 48, 0.6, 0.2, 0.2⟩, posY c ⟨25 / 48, 0.6, 0.2, 0.2⟩) = g2 at *
    generalize g (posX c ⟨25 / 48, 0.2, 0.6, 0.2⟩, posY c ⟨25 / 48, 0.2, 0.6, 0.2⟩) = g3 at *
    generalize g (posX c ⟨25 / 48, 0.2, 0.2, 0.6⟩, posY c ⟨25 / 48, 0.2, 0.2, 0.6⟩) = g4 at *
    constructor <;> nlinarith
  have h2 : |(∫ p in elemRegion c, g p) - elemDet c / 2 * k| ≤ η * (elemDet c / 2) := by
    have hi := elem_int hg c
    have hk := elem_int (continuous_const (y := k)) c
    rw [← det_integral hp k, ← integral_sub hi hk]
    have := setIntegral_mono_on (μ := volume) (s := elemRegion c) (elem_int (by fun_prop : Continuous fun p => |g p - k|) c)
      (elem_int (continuous_const (y := η)) c) (measurable_elemRegion c) h
    rw [det_integral hp η] at this
    refine (abs_integral_le_integral_abs).trans (this.trans_eq (mul_comm _ _))
  have h0 : 0 ≤ η := (abs_nonneg _).trans (h _ (corner_mem c).1)
  have h3 := abs_sub_le (ruleOn c g) (elemDet c / 2 * k) (∫ p in elemRegion c, g p)
  rw [abs_sub_comm (elemDet c / 2 * k)] at h3
  nlinarith [mul_nonneg h0 hd.le]

/-- **The rule on the square of a quadratic polynomial.** -/
theorem rule_sq {c : Coords} (hp : Proper c) {f : ℝ × ℝ → ℝ} (hf : f ∈ PolyLE 2) {d : ℝ}
    (hd : ∀ p ∈ elemRegion c, ∀ z ∈ elemRegion c, √((z.1 - p.1) ^ 2 + (z.2 - p.2) ^ 2) ≤ d) :
    |ruleOn c (fun p => f p ^ 2) - ∫ p in elemRegion c, f p ^ 2|
      ≤ 192 * d ^ 2 * ∫ p in elemRegion c, (dX f p * dX f p + dY f p * dY f p) := by
  have hdet := hp.2
  have hfc := PolyLE.continuous hf
  set k := f (cornerA c)
  set I := ∫ p in elemRegion c, (dX f p * dX f p + dY f p * dY f p) with hI
  have hx := dX_mem hf
  have hy := dY_mem hf
  have eI : I = (∫ p in elemRegion c, dX f p ^ 2) + ∫ p in elemRegion c, dY f p ^ 2 := by
    rw [hI, ← integral_add (integrable_poly c (poly_square hx)) (integrable_poly c (poly_square hy))]
    exact integral_congr_ae (Filter.Eventually.of_forall fun p => by ring)
  have nx : 0 ≤ ∫ p in elemRegion c, dX f p ^ 2 := integral_nonneg fun _ => sq_nonneg _
  have ny : 0 ≤ ∫ p in elemRegion c, dY f p ^ 2 := integral_nonneg fun _ => sq_nonneg _
  have d0 : 0 ≤ d := (Real.sqrt_nonneg _).trans (hd _ (corner_mem c).1 _ (corner_mem c).1)
  set G := √(24 * I / elemDet c) with hG
  have G2 : G ^ 2 * elemDet c = 24 * I := by
    rw [hG, Real.sq_sqrt (by rw [eI]; positivity)]
    field_simp
  have hgrad : ∀ p ∈ elemRegion c, |dX f p| ≤ G ∧ |dY f p| ≤ G := by
    intro p hp'
    have k1 := affine_sup hp hx hp'
    have k2 := affine_sup hp hy hp'
    constructor
    · refine abs_le_of_sq_le_sq ?_ (Real.sqrt_nonneg _)
      refine le_of_mul_le_mul_right ?_ hdet
      rw [G2, eI]; linarith
    · refine abs_le_of_sq_le_sq ?_ (Real.sqrt_nonneg _)
      refine le_of_mul_le_mul_right ?_ hdet
      rw [G2, eI]; linarith
  have hclose : ∀ z ∈ elemRegion c, |(f z - k) ^ 2 - 0| ≤ (G * (2 * d)) ^ 2 := by
    intro z hz
    rw [sub_zero, abs_of_nonneg (sq_nonneg _)]
    have k1 := elem_lipschitz hf hgrad (corner_mem c).1 hz
    have k2 := hd _ (corner_mem c).1 z hz
    have k3 := Real.abs_le_sqrt (show (z.1 - (cornerA c).1) ^ 2 ≤ (z.1 - (cornerA c).1) ^ 2 + (z.2 - (cornerA c).2) ^ 2 by
      linarith [sq_nonneg (z.2 - (cornerA c).2)])
    have k4 := Real.abs_le_sqrt (show (z.2 - (cornerA c).2) ^ 2 ≤ (z.1 - (cornerA c).1) ^ 2 + (z.2 - (cornerA c).2) ^ 2 by
      linarith [sq_nonneg (z.1 - (cornerA c).1)])
    refine sq_le_sq' ?_ ?_ <;>
    · have := (abs_le.1 (k1.trans (mul_le_mul_of_nonneg_left (show _ ≤ 2 * d by linarith) (Real.sqrt_nonneg _))))
      first | exact this.1 | exact this.2
  have key := rule_close hp (g := fun p => (f p - k) ^ 2) (by fun_prop) hclose
  -- the difference of the squares is of degree two
  have hrest : (fun p => 2 * k * f p - k ^ 2) ∈ PolyLE 3 :=
    PolyLE.mono (show 2 ≤ 3 by omega) (Submodule.sub_mem _ (Submodule.smul_mem _ (2 * k) hf) (PolyLE.const 2 (k ^ 2)))
  have e1 : ruleOn c (fun p => f p ^ 2) = ruleOn c (fun p => (f p - k) ^ 2) + ∫ p in elemRegion c, (2 * k * f p - k ^ 2) := by
    rw [← accum_gauss4_integral hp hrest, ruleOn, ruleOn, accum_gauss4, accum_gauss4, accum_gauss4]
    ring
  have e2 : ∫ p in elemRegion c, f p ^ 2 = (∫ p in elemRegion c, (f p - k) ^ 2) + ∫ p in elemRegion c, (2 * k * f p - k ^ 2) := by
    rw [← integral_add (elem_int (by fun_prop) c) (elem_int (by fun_prop) c)]
    exact integral_congr_ae (Filter.Eventually.of_forall fun p => by ring)
  rw [e1, e2, add_sub_add_right_eq_sub]
  refine key.trans (le_of_eq ?_)
  linear_combination 8 * d ^ 2 * G2

/-- The sum of the rules of the elements. -/
def ruleSum (els : List (Tri6 n)) (g : Tri6 n → ℝ × ℝ → ℝ) : ℝ :=
  (els.map fun t => t.material.elasticModulus * ruleOn t.coords (g t)).sum

theorem rule_elem {t : Tri6 n} (hp : Proper t.coords) {g : ℝ × ℝ → ℝ} {h : GaussPt → ℝ}
    (hg : ∀ gp, gp.Bary → h gp = g (posX t.coords gp, posY t.coords gp)) :
    accum gauss4 (fun gp => t.eWeight gp * h gp) = t.material.elasticModulus * ruleOn t.coords g := by
  rw [ruleOn, accum_eq_sum, accum_eq_sum, ← List.sum_map_mul_left]
  refine congrArg List.sum (List.map_congr_left fun gp hgp => ?_)
  have hb := gauss4_bary gp hgp
  rw [eWeight_eq hp hb, hg gp hb]
  ring

theorem abs_sum_sub {α : Type*} (l : List α) (f g h : α → ℝ) (H : ∀ a ∈ l, |f a - g a| ≤ h a) :
    |(l.map f).sum - (l.map g).sum| ≤ (l.map h).sum := by
  induction l with
  | nil => simp
  | cons a l ih =>
    simp only [List.map_cons, List.sum_cons]
    have h1 := H a (by simp)
    have h2 := ih fun b hb => H b (by simp [hb])
    rw [abs_le] at *
    constructor <;> linarith [h1.1, h1.2, h2.1, h2.2]

/-- **The error of the second warping moment** is at most a multiple of the square of the element size times the energy. -/
theorem ruleSum_sq (hp : ∀ t ∈ els, Proper t.coords) (hE : ∀ t ∈ els, 0 < t.material.elasticModulus) (hq : ∀ t ∈ els, q t ∈ PolyLE 2)
    {δ κ : ℝ} (hf : FineMesh els δ κ) :
    |ruleSum els (fun t p => q t p ^ 2) - wInt els (fun t p => q t p ^ 2)| ≤ 192 * δ ^ 2 * dirichlet els q q := by
  rw [dirichlet, ← wInt_smul]
  refine abs_sum_sub els _ _ _ fun t ht => ?_
  obtain ⟨d, hd, -, h⟩ := hf t ht
  have d0 : 0 ≤ d := (Real.sqrt_nonneg _).trans (h _ (corner_mem t.coords).1 _ (corner_mem t.coords).1)
  rw [← mul_sub, abs_mul, abs_of_pos (hE t ht)]
  refine mul_le_mul_of_nonneg_left ?_ (hE t ht).le
  rw [integral_const_mul]
  refine (rule_sq (hp t ht) (hq t ht) h).trans (mul_le_mul_of_nonneg_right ?_ ?_)
  · have := pow_le_pow_left₀ d0 hd 2
    linarith
  · exact integral_nonneg fun p => add_nonneg (mul_self_nonneg _) (mul_self_nonneg _)

/-- **The rule on a continuous function** of position. -/
theorem ruleSum_cont {Ω : Set (ℝ × ℝ)} {mat : ℝ × ℝ → Material} (h₀ : NiceMesh Ω mat els) {g : ℝ × ℝ → ℝ} (hg : Continuous g) (κ : ℝ)
    {ε : ℝ} (hε : 0 < ε) : ∃ δ > 0, ∀ (m : ℕ) (els' : List (Tri6 m)), NiceMesh Ω mat els' → FineMesh els' δ κ →
      |ruleSum els' (fun _ => g) - wInt els' (fun _ p => g p)| ≤ ε := by
  set A := wInt els fun _ _ => (1 : ℝ) with hA
  have A0 : 0 ≤ A := wInt_nonneg h₀.modulus fun _ _ _ => zero_le_one
  have hη : 0 < ε / (4 * (A + 1)) := by positivity
  have huc := (region_compact els).uniformContinuousOn_of_continuous hg.continuousOn
  rw [Metric.uniformContinuousOn_iff_le] at huc
  obtain ⟨δ, hδ, hu⟩ := huc _ hη
  refine ⟨δ, hδ, fun m els' h' hf => ?_⟩
  have hreg : region els' = region els := (h'.region_eq h₀).symm
  have e : wInt els' (fun _ _ => (1 : ℝ)) = A := by
    rw [hA, wInt_body h'.mesh continuous_const, wInt_body h₀.mesh continuous_const]
  have step : |ruleSum els' (fun _ => g) - wInt els' (fun _ p => g p)| ≤ wInt els' fun _ _ => 4 * (ε / (4 * (A + 1))) * 1 := by
    refine abs_sum_sub els' _ _ _ fun t ht => ?_
    obtain ⟨d, hd, -, h⟩ := hf t ht
    rw [← mul_sub, abs_mul, abs_of_pos (h'.modulus t ht)]
    refine mul_le_mul_of_nonneg_left ?_ (h'.modulus t ht).le
    rw [det_integral (h'.proper t ht)]
    refine (rule_close (h'.proper t ht) hg (k := g (cornerA t.coords)) (η := ε / (4 * (A + 1))) fun z hz => ?_).trans (le_of_eq (by ring))
    have hsub : elemRegion t.coords ⊆ region els := fun z hz => hreg ▸ ⟨t, ht, hz⟩
    have := hu z (hsub hz) _ (hsub (corner_mem t.coords).1) (by
      rw [Prod.dist_eq, Real.dist_eq, Real.dist_eq]
      have k2 := h _ (corner_mem t.coords).1 z hz
      have k3 := Real.abs_le_sqrt (show (z.1 - (cornerA t.coords).1) ^ 2 ≤ (z.1 - (cornerA t.coords).1) ^ 2 +
        (z.2 - (cornerA t.coords).2) ^ 2 by linarith [sq_nonneg (z.2 - (cornerA t.coords).2)])
      have k4 := Real.abs_le_sqrt (show (z.2 - (cornerA t.coords).2) ^ 2 ≤ (z.1 - (cornerA t.coords).1) ^ 2 +
        (z.2 - (cornerA t.coords).2) ^ 2 by linarith [sq_nonneg (z.1 - (cornerA t.coords).1)])
      exact max_le (by linarith) (by linarith))
    rwa [Real.dist_eq] at this
  refine step.trans ?_
  rw [wInt_smul, e]
  have : 4 * (ε / (4 * (A + 1))) * A = ε * (A / (A + 1)) := by field_simp
  rw [this]
  exact mul_le_of_le_one_right hε.le (by rw [div_le_one (by positivity)]; linarith)

theorem wInt_lcc {n : ℕ} {els : List (Tri6 n)} (a b : ℝ) {f g : Tri6 n → ℝ × ℝ → ℝ} (hf : ∀ t ∈ els, Continuous (f t))
    (hg : ∀ t ∈ els, Continuous (g t)) : a * wInt els f + b * wInt els g = wInt els fun t p => a * f t p + b * g t p := by
  rw [wInt_addc (f := fun t p => a * f t p) (g := fun t p => b * g t p) (fun t ht => continuous_const.mul (hf t ht))
    (fun t ht => continuous_const.mul (hg t ht)), wInt_smul, wInt_smul]

end

end SP
