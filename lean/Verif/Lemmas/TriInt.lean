import Mathlib.MeasureTheory.Function.Jacobian
import Mathlib.MeasureTheory.Integral.IntervalIntegral.Basic
import Mathlib.MeasureTheory.Integral.Prod
import Mathlib.Analysis.SpecialFunctions.PolarCoord
import Mathlib.Analysis.Calculus.FDeriv.Linear
import Mathlib.Analysis.Calculus.FDeriv.Add
import Mathlib.MeasureTheory.Measure.Lebesgue.EqHaar
import Mathlib.Analysis.Convex.Combination
import Mathlib.Analysis.Convex.Join
import Mathlib.LinearAlgebra.Matrix.ToLin
import Mathlib.Tactic.Linarith
import Mathlib.Tactic.Ring
import Mathlib.Tactic.FieldSimp
import Mathlib.Tactic.LinearCombination

/-!
# Integrals over triangles

`∫` over the closed triangle `convexHull ℝ {A, B, C}` reduced to an iterated integral over the
unit triangle.
-/

namespace SP

open MeasureTheory Set

/-- Twice the signed area of the triangle `A B C`. -/
def cross2 (A B C : ℝ × ℝ) : ℝ := (B.1 - A.1) * (C.2 - A.2) - (C.1 - A.1) * (B.2 - A.2)

/-- The unit triangle. -/
def stdTri : Set (ℝ × ℝ) := {q | 0 ≤ q.1 ∧ 0 ≤ q.2 ∧ q.1 + q.2 ≤ 1}

/-- Affine parametrisation of the triangle with vertices `A B C`. -/
def triMap (A B C : ℝ × ℝ) (q : ℝ × ℝ) : ℝ × ℝ :=
  (C.1 + q.1 * (A.1 - C.1) + q.2 * (B.1 - C.1), C.2 + q.1 * (A.2 - C.2) + q.2 * (B.2 - C.2))

theorem convexHull_triple_eq_image (A B C : ℝ × ℝ) :
    convexHull ℝ {A, B, C} = triMap A B C '' stdTri := by
  apply Subset.antisymm
  · apply convexHull_min
    · rintro p (rfl | rfl | rfl)
      · exact ⟨(1, 0), by simp [stdTri], by ext <;> simp [triMap]⟩
      · exact ⟨(0, 1), by simp [stdTri], by ext <;> simp [triMap]⟩
      · exact ⟨(0, 0), by simp [stdTri], by ext <;> simp [triMap]⟩
    · rintro _ ⟨p, ⟨hp1, hp2, hp3⟩, rfl⟩ _ ⟨q, ⟨hq1, hq2, hq3⟩, rfl⟩ a b ha hb hab
      refine ⟨(a * p.1 + b * q.1, a * p.2 + b * q.2), ⟨?_, ?_, ?_⟩, ?_⟩
      · show 0 ≤ a * p.1 + b * q.1
        positivity
      · show 0 ≤ a * p.2 + b * q.2
        positivity
      · show a * p.1 + b * q.1 + (a * p.2 + b * q.2) ≤ 1
        nlinarith
      · obtain rfl : b = 1 - a := by linarith
        ext <;> simp [triMap] <;> ring
  · rintro _ ⟨q, ⟨h1, h2, h3⟩, rfl⟩
    have hc := convex_convexHull ℝ ({A, B, C} : Set (ℝ × ℝ))
    have hA : A ∈ convexHull ℝ ({A, B, C} : Set (ℝ × ℝ)) := subset_convexHull _ _ (by simp)
    have hB : B ∈ convexHull ℝ ({A, B, C} : Set (ℝ × ℝ)) := subset_convexHull _ _ (by simp)
    have hC : C ∈ convexHull ℝ ({A, B, C} : Set (ℝ × ℝ)) := subset_convexHull _ _ (by simp)
    have := hc.sum_mem (t := Finset.univ) (w := ![q.1, q.2, 1 - q.1 - q.2]) (z := ![A, B, C])
      (by intro i _; fin_cases i <;> simp <;> linarith) (by simp [Fin.sum_univ_three])
      (by intro i _; fin_cases i <;> simp [hA, hB, hC])
    convert this using 1
    ext <;> simp [triMap, Fin.sum_univ_three] <;> ring

theorem measurableSet_stdTri : MeasurableSet stdTri := by
  refine (IsClosed.inter ?_ (IsClosed.inter ?_ ?_)).measurableSet
  · exact isClosed_le continuous_const continuous_fst
  · exact isClosed_le continuous_const continuous_snd
  · exact isClosed_le (continuous_fst.add continuous_snd) continuous_const

theorem isCompact_stdTri : IsCompact stdTri := by
  have : IsCompact (Icc (0 : ℝ × ℝ) 1) := isCompact_Icc
  refine this.of_isClosed_subset ?_ ?_
  · refine IsClosed.inter ?_ (IsClosed.inter ?_ ?_)
    · exact isClosed_le continuous_const continuous_fst
    · exact isClosed_le continuous_const continuous_snd
    · exact isClosed_le (continuous_fst.add continuous_snd) continuous_const
  · rintro ⟨a, b⟩ ⟨h1, h2, h3⟩
    simp only at h1 h2 h3
    refine ⟨⟨h1, h2⟩, ⟨?_, ?_⟩⟩ <;> simp <;> linarith

/-- Linear part of `triMap`. -/
noncomputable def triLin (A B C : ℝ × ℝ) : ℝ × ℝ →L[ℝ] ℝ × ℝ :=
  (Matrix.toLin (.finTwoProd ℝ) (.finTwoProd ℝ)
    !![A.1 - C.1, B.1 - C.1; A.2 - C.2, B.2 - C.2]).toContinuousLinearMap

theorem triLin_apply (A B C q : ℝ × ℝ) :
    triLin A B C q = (q.1 * (A.1 - C.1) + q.2 * (B.1 - C.1), q.1 * (A.2 - C.2) + q.2 * (B.2 - C.2)) := by
  ext <;> simp [triLin, Matrix.toLin_finTwoProd_apply] <;> ring

theorem triLin_det (A B C : ℝ × ℝ) : (triLin A B C).det = cross2 A B C := by
  unfold triLin
  simp only [LinearMap.det_toContinuousLinearMap, LinearMap.det_toLin, Matrix.det_fin_two_of, cross2]
  ring

theorem hasFDerivAt_triMap (A B C q : ℝ × ℝ) : HasFDerivAt (triMap A B C) (triLin A B C) q := by
  have h : triMap A B C = fun q => C + triLin A B C q := by
    funext q
    rw [triLin_apply]
    ext <;> simp [triMap] <;> ring
  rw [h]
  exact (triLin A B C).hasFDerivAt.const_add C

theorem triMap_injective {A B C : ℝ × ℝ} (h : cross2 A B C ≠ 0) :
    Function.Injective (triMap A B C) := by
  rintro ⟨p1, p2⟩ ⟨q1, q2⟩ hpq
  simp only [triMap, Prod.mk.injEq] at hpq
  obtain ⟨e1, e2⟩ := hpq
  have k1 : cross2 A B C * (p1 - q1) = 0 := by
    unfold cross2; linear_combination (B.2 - C.2) * e1 - (B.1 - C.1) * e2
  have k2 : cross2 A B C * (p2 - q2) = 0 := by
    unfold cross2; linear_combination (A.1 - C.1) * e2 - (A.2 - C.2) * e1
  have := (mul_eq_zero.mp k1).resolve_left h
  have := (mul_eq_zero.mp k2).resolve_left h
  ext <;> simp <;> linarith

theorem integral_stdTri (g : ℝ × ℝ → ℝ) (hg : Continuous g) :
    ∫ q in stdTri, g q = ∫ s in (0 : ℝ)..1, ∫ t in (0 : ℝ)..(1 - s), g (s, t) := by
  have hint : Integrable (stdTri.indicator g) volume :=
    (integrable_indicator_iff measurableSet_stdTri).2
      (hg.continuousOn.integrableOn_compact isCompact_stdTri)
  rw [← integral_indicator measurableSet_stdTri]
  have : (volume : Measure (ℝ × ℝ)) = (volume : Measure ℝ).prod volume := rfl
  rw [this, integral_prod _ (by rw [← this]; exact hint)]
  rw [intervalIntegral.integral_of_le zero_le_one, ← integral_Icc_eq_integral_Ioc,
    ← integral_indicator measurableSet_Icc]
  congr 1
  funext s
  by_cases hs : s ∈ Icc (0 : ℝ) 1
  · rw [indicator_of_mem hs, intervalIntegral.integral_of_le (by linarith [hs.2]),
      ← integral_Icc_eq_integral_Ioc, ← integral_indicator measurableSet_Icc]
    congr 1
    funext t
    by_cases ht : t ∈ Icc (0 : ℝ) (1 - s)
    · rw [indicator_of_mem ht, indicator_of_mem]
      exact ⟨hs.1, ht.1, by have := ht.2; simp only; linarith⟩
    · rw [indicator_of_notMem ht, indicator_of_notMem]
      rintro ⟨h1, h2, h3⟩
      exact ht ⟨h2, by simp only at h3; linarith⟩
  · rw [indicator_of_notMem hs]
    have : ∀ t, stdTri.indicator g (s, t) = 0 := by
      intro t
      rw [indicator_of_notMem]
      rintro ⟨h1, h2, h3⟩
      exact hs ⟨h1, by simp only at h1 h2 h3; linarith⟩
    simp [this]

/-- Change of variables to the unit triangle. -/
theorem integral_triangle {A B C : ℝ × ℝ} (hD : cross2 A B C ≠ 0) (f : ℝ × ℝ → ℝ)
    (hf : Continuous f) :
    ∫ p in convexHull ℝ {A, B, C}, f p
      = |cross2 A B C| * ∫ s in (0 : ℝ)..1, ∫ t in (0 : ℝ)..(1 - s), f (triMap A B C (s, t)) := by
  rw [convexHull_triple_eq_image, integral_image_eq_integral_abs_det_fderiv_smul volume
    measurableSet_stdTri (fun q _ => (hasFDerivAt_triMap A B C q).hasFDerivWithinAt)
    (triMap_injective hD).injOn]
  simp only [triLin_det, smul_eq_mul]
  rw [integral_const_mul, integral_stdTri (fun q => f (triMap A B C q))]
  have : Continuous (triMap A B C) := by unfold triMap; fun_prop
  exact hf.comp this

end SP
