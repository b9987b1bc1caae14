import Verif.Lemmas.Element
import Verif.Spec.Rule

/-!
# C03: quadrature rules
-/

namespace SP

open Spec MeasureTheory

/-- The rows of a model rule as plain numbers. -/
def rows (l : List GaussPt) : Rule := l.map fun g => (g.w, g.eta, g.xi, g.zeta)

theorem volume_degenerate {A B C : ℝ × ℝ} (h : signedArea2 A B C = 0) :
    volume (triangle A B C) = 0 := by
  have h1 : triangle A B C = (fun q => C + q) '' (triLin A B C '' stdTri) := by
    rw [triangle, convexHull_triple_eq_image, Set.image_image]
    refine Set.image_congr fun q _ => ?_
    rw [triLin_apply]
    ext <;> simp [triMap] <;> ring
  rw [h1]
  have h2 : (fun q => C + q) '' (triLin A B C '' stdTri)
      = (fun q => -C + q) ⁻¹' (triLin A B C '' stdTri) := by
    rw [Set.image_add_left]
  rw [h2, measure_preimage_add]
  have := Measure.addHaar_image_linearMap (volume : Measure (ℝ × ℝ)) (triLin A B C : ℝ × ℝ →ₗ[ℝ] ℝ × ℝ) stdTri
  have hd : LinearMap.det (triLin A B C : ℝ × ℝ →ₗ[ℝ] ℝ × ℝ) = 0 := by
    have := triLin_det A B C
    rw [ContinuousLinearMap.det] at this
    rw [this]; exact h
  rw [hd] at this
  simpa using this

theorem ExactStd.rule {d : ℕ} {l : List GaussPt} (h : ExactStd d l) (hb : ∀ g ∈ l, g.Bary) :
    (rows l).ExactDegree d := by
  intro f hf A B C
  by_cases hD : signedArea2 A B C = 0
  · rw [Rule.apply, hD, Measure.restrict_eq_zero.2 (volume_degenerate hD)]
    simp
  · have := h.triangle hf (A := A) (B := B) (C := C) hD
    rw [Spec.triangle, this, Rule.apply]
    congr 1
    simp only [rows, List.map_map]
    congr 1
    apply List.map_congr_left
    intro g hg
    have hz : g.zeta = 1 - g.eta - g.xi := by
      have := hb g hg; unfold GaussPt.Bary at this; linarith
    have : triMap A B C (g.eta, g.xi) = baryPoint A B C g.eta g.xi g.zeta := by
      ext <;> simp [triMap, baryPoint, hz] <;> ring
    simp [this]

theorem q38_lt : q38 < 3.2 := by
  have h2 := q38_sq
  have := r10_gt
  have := q38_nonneg
  nlinarith
theorem q38_gt : 3.1 < q38 := by
  have h2 := q38_sq
  have := r10_lt
  have := q38_nonneg
  nlinarith

theorem g1_pos : 0 < g1 := by rw [g1_eq]; have := r10_lt; have := q38_gt; linarith
theorem g1_lt : g1 < 1 / 2 := by rw [g1_eq]; have := r10_gt; have := q38_lt; linarith
theorem g2_pos : 0 < g2 := by rw [g2_eq]; have := r10_lt; have := q38_lt; linarith
theorem g2_lt : g2 < 1 / 2 := by rw [g2_eq]; have := r10_gt; have := q38_gt; linarith
theorem w1_pos : 0 < w1 := by
  rw [w1_eq]; have := r10_gt; have := q38_gt
  have : 0 ≤ q38 * (45 / 2 * r10 - 5) := mul_nonneg q38_nonneg (by linarith)
  positivity
theorem w2_pos : 0 < w2 := by
  rw [w2_eq]; have h1 := r10_lt; have h3 := r10_gt; have h2 := q38_lt
  have : q38 * (45 / 2 * r10 - 5) ≤ 3.2 * (45 / 2 * r10 - 5) :=
    mul_le_mul_of_nonneg_right h2.le (by linarith)
  have : (0 : ℝ) < 620 - q38 * (45 / 2 * r10 - 5) := by linarith
  positivity

/-- The polynomial degree each rule is documented for. -/
def ruleDegree : ℤ → ℕ
  | 1 => 1
  | 3 => 2
  | 4 => 3
  | 6 => 4
  | _ => 0

/-- **C03** (rejection): `gauss_points(n)` succeeds exactly for `n = 1, 3, 4, 6` and raises
`ValueError` for every other `n`. -/
theorem C03_rejects (n : ℤ) :
    (n = 1 ∨ n = 3 ∨ n = 4 ∨ n = 6 → ∃ l, gaussPoints n = .ok l ∧ (l.length : ℤ) = n) ∧
    (¬ (n = 1 ∨ n = 3 ∨ n = 4 ∨ n = 6) → gaussPoints n = .error .valueError) := by
  constructor
  · rintro (rfl | rfl | rfl | rfl) <;> simp [gaussPoints, gauss1, gauss3, gauss4, gauss6]
  · intro h
    push Not at h
    simp [gaussPoints, h.1, h.2.1, h.2.2.1, h.2.2.2]

/-- **C03** (exactness): whenever `gauss_points(n)` returns, the weights sum to one, all points are
interior, and the rule is exact on every triangle for all polynomials up to the documented degree. -/
theorem C03_exact (n : ℤ) (l : List GaussPt) (h : gaussPoints n = .ok l) :
    ((rows l).map (·.1)).sum = 1 ∧ (rows l).Interior ∧ (rows l).ExactDegree (ruleDegree n) := by
  by_cases hn : n = 1 ∨ n = 3 ∨ n = 4 ∨ n = 6
  · rcases hn with rfl | rfl | rfl | rfl <;> norm_num [gaussPoints] at h <;> subst h
    · refine ⟨by simp [rows, gauss1], ?_, exact_gauss1.rule ?_⟩
      · intro g hg; simp [rows, gauss1] at hg; subst hg; norm_num
      · intro g hg; simp [gauss1] at hg; subst hg; norm_num [GaussPt.Bary]
    · refine ⟨by simp [rows, gauss3]; norm_num, ?_, exact_gauss3.rule ?_⟩
      · intro g hg; simp [rows, gauss3] at hg; rcases hg with rfl | rfl | rfl <;> norm_num
      · intro g hg; simp [gauss3] at hg; rcases hg with rfl | rfl | rfl <;> norm_num [GaussPt.Bary]
    · refine ⟨by simp [rows, gauss4]; norm_num, ?_, exact_gauss4.rule gauss4_bary⟩
      intro g hg; simp [rows, gauss4] at hg; rcases hg with rfl | rfl | rfl | rfl <;> norm_num
    · have a1 := g1_pos
      have a2 := g1_lt
      have a3 := g2_pos
      have a4 := g2_lt
      refine ⟨by simp [rows, gauss6, gauss6pt, w1, w2]; ring, ?_, exact_gauss6.rule ?_⟩
      · intro g hg
        simp [rows, gauss6, gauss6pt] at hg
        rcases hg with rfl | rfl | rfl | rfl | rfl | rfl <;>
          refine ⟨?_, ?_, ?_, ?_⟩ <;> dsimp only <;> linarith
      · intro g hg
        rw [gauss6, List.mem_ofFn] at hg
        obtain ⟨i, rfl⟩ := hg
        exact gauss6pt_bary i
  · rw [(C03_rejects n).2 hn] at h; cases h

/-- Non-vacuity: the documented rules are returned, and they integrate e.g. `x^2 y^2` (degree 4). -/
example : ∃ l, gaussPoints 6 = .ok l ∧ (rows l).ExactDegree 4 :=
  let ⟨l, h, _⟩ := (C03_rejects 6).1 (by simp)
  ⟨l, h, (C03_exact 6 l h).2.2⟩

end SP
