import Verif.Lemmas.Winding
import Verif.Lemmas.Rects

/-!
# The moments of what an outline goes round
-/

namespace SP

open Spec MeasureTheory Set

theorem outline_sum {edges : List ((ℝ × ℝ) × (ℝ × ℝ))} (h : ClosedOutline edges) {u : (ℝ × ℝ) × (ℝ × ℝ) → ℝ}
    {v : ℝ × ℝ → ℝ × ℝ → ℝ} (G : ℝ × ℝ → ℝ) (he : ∀ e, u e = v e.1 e.2 + (G e.2 - G e.1)) :
    (edges.map u).sum = edgeSum edges v := by
  have : ∀ l : List ((ℝ × ℝ) × (ℝ × ℝ)), (l.map u).sum = (l.map fun e => v e.1 e.2).sum + (l.map fun e => G e.2 - G e.1).sum := by
    intro l
    induction l with
    | nil => simp
    | cons a l ih => simp only [List.map_cons, List.sum_cons, ih, he]; ring
  rw [this, closed_sum h, add_zero, edgeSum]

theorem winding_int {edges : List ((ℝ × ℝ) × (ℝ × ℝ))} (h : ClosedOutline edges) :
    Integrable (fun p => (winding edges p : ℝ) * 1) ∧ Integrable (fun p => (winding edges p : ℝ) * p.2) ∧
    Integrable (fun p => (winding edges p : ℝ) * p.1) ∧ Integrable (fun p => (winding edges p : ℝ) * p.2 ^ 2) ∧
    Integrable (fun p => (winding edges p : ℝ) * p.1 ^ 2) ∧ Integrable (fun p => (winding edges p : ℝ) * (p.1 * p.2)) ∧
    ∫ p, (winding edges p : ℝ) * 1 = outlineArea edges ∧ ∫ p, (winding edges p : ℝ) * p.2 = outlineQx edges ∧
    ∫ p, (winding edges p : ℝ) * p.1 = outlineQy edges ∧ ∫ p, (winding edges p : ℝ) * p.2 ^ 2 = outlineIxx edges ∧
    ∫ p, (winding edges p : ℝ) * p.1 ^ 2 = outlineIyy edges ∧ ∫ p, (winding edges p : ℝ) * (p.1 * p.2) = outlineIxy edges := by
  have hpow : ∀ x c : ℝ, HasDerivAt (fun x : ℝ => x ^ 2 / 2 * c) (x * c) x := fun x c => by
    have := ((hasDerivAt_pow 2 x).div_const 2).mul_const c
    simpa using this
  obtain ⟨a1, a2⟩ := winding_integral h (f := fun _ => 1) (F := fun p => p.1) (by fun_prop) (by fun_prop)
    fun x _ => hasDerivAt_id x
  obtain ⟨b1, b2⟩ := winding_integral h (f := fun p => p.2) (F := fun p => p.1 * p.2) (by fun_prop) (by fun_prop)
    fun x y => by simpa using (hasDerivAt_id x).mul_const y
  obtain ⟨c1, c2⟩ := winding_integral h (f := fun p => p.1) (F := fun p => p.1 ^ 2 / 2) (by fun_prop) (by fun_prop)
    fun x _ => by simpa using hpow x 1
  obtain ⟨d1, d2⟩ := winding_integral h (f := fun p => p.2 ^ 2) (F := fun p => p.1 * p.2 ^ 2) (by fun_prop) (by fun_prop)
    fun x y => by simpa using (hasDerivAt_id x).mul_const (y ^ 2)
  obtain ⟨e1, e2⟩ := winding_integral h (f := fun p => p.1 ^ 2) (F := fun p => p.1 ^ 3 / 3) (by fun_prop) (by fun_prop)
    fun x _ => by
      have := (hasDerivAt_pow 3 x).div_const 3
      simpa using this
  obtain ⟨f1, f2⟩ := winding_integral h (f := fun p => p.1 * p.2) (F := fun p => p.1 ^ 2 / 2 * p.2) (by fun_prop) (by fun_prop)
    fun x y => hpow x y
  refine ⟨a1, b1, c1, d1, e1, f1, a2.trans ?_, b2.trans ?_, c2.trans ?_, d2.trans ?_, e2.trans ?_, f2.trans ?_⟩
  · refine outline_sum h (fun q => q.1 * q.2 / 2) fun e => ?_
    rw [edge_integral e (fun p => p.1) e.1.1 (e.2.1 - e.1.1) 0 0 (fun t => by ring)]
    simp only [cross]; ring
  · refine outline_sum h (fun q => q.1 * q.2 ^ 2 / 3) fun e => ?_
    rw [edge_integral e (fun p => p.1 * p.2) (e.1.1 * e.1.2) (e.1.1 * (e.2.2 - e.1.2) + (e.2.1 - e.1.1) * e.1.2)
      ((e.2.1 - e.1.1) * (e.2.2 - e.1.2)) 0 (fun t => by ring)]
    simp only [cross]; ring
  · refine outline_sum h (fun q => q.1 ^ 2 * q.2 / 6) fun e => ?_
    rw [edge_integral e (fun p => p.1 ^ 2 / 2) (e.1.1 ^ 2 / 2) (e.1.1 * (e.2.1 - e.1.1)) ((e.2.1 - e.1.1) ^ 2 / 2) 0
      (fun t => by ring)]
    simp only [cross]; ring
  · refine outline_sum h (fun q => q.1 * q.2 ^ 3 / 4) fun e => ?_
    rw [edge_integral e (fun p => p.1 * p.2 ^ 2) (e.1.1 * e.1.2 ^ 2)
      (2 * e.1.1 * e.1.2 * (e.2.2 - e.1.2) + (e.2.1 - e.1.1) * e.1.2 ^ 2)
      (e.1.1 * (e.2.2 - e.1.2) ^ 2 + 2 * (e.2.1 - e.1.1) * e.1.2 * (e.2.2 - e.1.2)) ((e.2.1 - e.1.1) * (e.2.2 - e.1.2) ^ 2)
      (fun t => by ring)]
    simp only [cross]; ring
  · refine outline_sum h (fun q => q.1 ^ 3 * q.2 / 12) fun e => ?_
    rw [edge_integral e (fun p => p.1 ^ 3 / 3) (e.1.1 ^ 3 / 3) (e.1.1 ^ 2 * (e.2.1 - e.1.1)) (e.1.1 * (e.2.1 - e.1.1) ^ 2)
      ((e.2.1 - e.1.1) ^ 3 / 3) (fun t => by ring)]
    simp only [cross]; ring
  · refine outline_sum h (fun q => q.1 ^ 2 * q.2 ^ 2 / 8) fun e => ?_
    rw [edge_integral e (fun p => p.1 ^ 2 / 2 * p.2) (e.1.1 ^ 2 * e.1.2 / 2)
      (e.1.1 * (e.2.1 - e.1.1) * e.1.2 + e.1.1 ^ 2 * (e.2.2 - e.1.2) / 2)
      ((e.2.1 - e.1.1) ^ 2 * e.1.2 / 2 + e.1.1 * (e.2.1 - e.1.1) * (e.2.2 - e.1.2)) ((e.2.1 - e.1.1) ^ 2 * (e.2.2 - e.1.2) / 2)
      (fun t => by ring)]
    simp only [cross]; ring

variable {n : ℕ} {ι : Type*} {els : List (Tri6 n)} {S : Finset ι} {Z : ι → List ((ℝ × ℝ) × (ℝ × ℝ))}

/-- The field with the value of each zone. -/
noncomputable def zoneField (S : Finset ι) (Z : ι → List ((ℝ × ℝ) × (ℝ × ℝ))) (v : ι → ℝ) (p : ℝ × ℝ) : ℝ :=
  ∑ i ∈ S, v i * winding (Z i) p

/-- Almost everywhere the field has the value of the zone in the region, and vanishes outside. -/
theorem zoneField_ae (h : Zones els S Z) (v : ι → ℝ) :
    ∀ᵐ p, (∀ i ∈ S, winding (Z i) p = 1 → zoneField S Z v p = v i) ∧ (p ∉ region els → zoneField S Z v p = 0) := by
  filter_upwards [h.once, h.apart, h.covers] with p h1 h2 h3
  refine ⟨fun i hi hw => ?_, fun hp => Finset.sum_eq_zero fun i hi => ?_⟩
  · rw [zoneField, Finset.sum_eq_single_of_mem i hi, hw]
    · simp
    · intro j hj hji
      rcases h2 i hi j hj hji.symm with h0 | h0
      · rw [hw] at h0; exact absurd h0 one_ne_zero
      · rw [h0]; simp
  · rcases h1 i hi with h0 | h0
    · rw [h0]; simp
    · exact absurd (h3.2 ⟨i, hi, h0⟩) hp

theorem zoneField_isField (h : Zones els S Z) {prop : Material → ℝ} {v : ι → ℝ} (hv : InZones els S Z prop v) :
    IsField els prop (zoneField S Z v) := by
  intro t ht
  have hall : ∀ᵐ p, ∀ i ∈ S, p ∈ elemRegion t.coords → winding (Z i) p = 1 → prop t.material = v i := by
    rw [Filter.eventually_all_finset]
    exact fun i hi => hv t ht i hi
  filter_upwards [h.covers, zoneField_ae h v, hall] with p h1 h2 h3 hp
  obtain ⟨i, hi, hw⟩ := h1.1 ⟨t, ht, hp⟩
  rw [h2.1 i hi hw, h3 i hi hp hw]

/-- An integral over the section, zone by zone. -/
theorem zone_integral (h : Zones els S Z) (v : ι → ℝ) (f : ℝ × ℝ → ℝ)
    (hf : ∀ i ∈ S, Integrable fun p => (winding (Z i) p : ℝ) * f p) :
    ∫ p in region els, zoneField S Z v p * f p = ∑ i ∈ S, v i * ∫ p, (winding (Z i) p : ℝ) * f p := by
  have e1 : ∫ p in region els, zoneField S Z v p * f p = ∫ p, zoneField S Z v p * f p := by
    rw [← integral_indicator (isClosed_region els).measurableSet]
    refine integral_congr_ae ?_
    filter_upwards [zoneField_ae h v] with p hp
    by_cases hr : p ∈ region els
    · rw [indicator_of_mem hr]
    · rw [indicator_of_notMem hr, hp.2 hr, zero_mul]
  have e2 : (fun p => zoneField S Z v p * f p) = fun p => ∑ i ∈ S, v i * ((winding (Z i) p : ℝ) * f p) := by
    funext p
    rw [zoneField, Finset.sum_mul]
    exact Finset.sum_congr rfl fun i _ => by ring
  rw [e1, e2, integral_finsetSum S fun i hi => (hf i hi).const_mul (v i)]
  exact Finset.sum_congr rfl fun i _ => integral_const_mul _ _

end SP
