import Verif.Lemmas.Integrals
import Mathlib.Algebra.Order.BigOperators.Group.List

/-!
# The sums of the geometric analysis
-/

namespace SP

open Spec MeasureTheory

theorem geom_ok {s : Section} {r : GeomResults} (h : s.geometricAnalysis = .ok r) :
    r.sums = geomSums s.elements ∧ centroidalProps r.sums (List.ofFn s.meshNodes) = .ok r.cent ∧
    r.nuEff = r.sums.nuEff ∧ r.eEff = r.sums.eEff ∧ r.gEff = r.sums.gEff ∧
    r.cx = r.sums.cx ∧ r.cy = r.sums.cy := by
  unfold Section.geometricAnalysis at h
  cases hc : centroidalProps (geomSums s.elements) (List.ofFn s.meshNodes) with
  | error e => simp [hc] at h
  | ok c =>
    simp only [hc, Except.ok.injEq] at h
    subst h
    exact ⟨rfl, hc, rfl, rfl, rfl, rfl, rfl⟩

/-- The fields of the centroidal properties that do not depend on the node list. -/
theorem cent_ok {s : GeomSums} {l : List (ℝ × ℝ)} {c : CentroidalProps}
    (h : centroidalProps s l = .ok c) :
    c.ixxC = s.ixxC ∧ c.iyyC = s.iyyC ∧ c.ixyC = s.ixyC ∧
    c.i11 = i11Of s.ixxC s.iyyC s.ixyC ∧ c.i22 = i22Of s.ixxC s.iyyC s.ixyC ∧
    c.phi = phiOf s.ixxC s.iyyC s.ixyC ∧
    c.rx = √(s.ixxC / s.ea) ∧ c.ry = √(s.iyyC / s.ea) ∧
    c.r11 = √(i11Of s.ixxC s.iyyC s.ixyC / s.ea) ∧ c.r22 = √(i22Of s.ixxC s.iyyC s.ixyC / s.ea) := by
  cases l with
  | nil => simp [centroidalProps] at h
  | cons p ps =>
    simp only [centroidalProps, Except.ok.injEq] at h
    subst h
    simp

theorem geometricAnalysis_ok (s : Section) (h : 0 < s.numNodes) :
    ∃ r, s.geometricAnalysis = .ok r := by
  obtain ⟨n, v, ms, els, gs⟩ := s
  simp only at h
  obtain ⟨k, rfl⟩ : ∃ k, n = k + 1 := ⟨n - 1, by omega⟩
  unfold Section.geometricAnalysis
  simp only [List.ofFn_succ, centroidalProps]
  exact ⟨_, rfl⟩

theorem sums_fields {n : ℕ} {els : List (Tri6 n)} (hp : ∀ t ∈ els, Proper t.coords) :
    (geomSums els).area = (els.map fun t => ∫ _p in elemRegion t.coords, (1 : ℝ)).sum ∧
    (geomSums els).mass
      = (els.map fun t => (∫ _p in elemRegion t.coords, (1 : ℝ)) * t.material.density).sum ∧
    (geomSums els).ea
      = (els.map fun t => (∫ _p in elemRegion t.coords, (1 : ℝ)) * t.material.elasticModulus).sum ∧
    (geomSums els).ga
      = (els.map fun t => (∫ _p in elemRegion t.coords, (1 : ℝ)) * t.material.shearModulus).sum ∧
    (geomSums els).qx
      = (els.map fun t => (∫ p in elemRegion t.coords, p.2) * t.material.elasticModulus).sum ∧
    (geomSums els).qy
      = (els.map fun t => (∫ p in elemRegion t.coords, p.1) * t.material.elasticModulus).sum ∧
    (geomSums els).ixxG
      = (els.map fun t => (∫ p in elemRegion t.coords, p.2 ^ 2) * t.material.elasticModulus).sum ∧
    (geomSums els).iyyG
      = (els.map fun t => (∫ p in elemRegion t.coords, p.1 ^ 2) * t.material.elasticModulus).sum ∧
    (geomSums els).ixyG
      = (els.map fun t => (∫ p in elemRegion t.coords, p.1 * p.2) * t.material.elasticModulus).sum := by
  refine ⟨?_, ?_, ?_, ?_, ?_, ?_, ?_, ?_, ?_⟩ <;> simp only [geomSums, accum_eq_sum] <;>
    refine congrArg List.sum (List.map_congr_left fun t ht => ?_)
  · rw [geom_area_int (hp t ht)]
  · rw [geom_area_int (hp t ht)]; rfl
  · rw [geom_area_int (hp t ht)]; rfl
  · rw [geom_area_int (hp t ht)]; rfl
  · rw [geom_qx_int (hp t ht)]; rfl
  · rw [geom_qy_int (hp t ht)]; rfl
  · rw [geom_ixx_int (hp t ht)]; rfl
  · rw [geom_iyy_int (hp t ht)]; rfl
  · rw [geom_ixy_int (hp t ht)]; rfl

/-- Under `NoOverlap` a material field always exists. -/
theorem exists_field {n : ℕ} {els : List (Tri6 n)} (hno : NoOverlap els) (prop : Material → ℝ) :
    ∃ E, IsField els prop E := by
  classical
  induction els with
  | nil => exact ⟨fun _ => 0, by intro t ht; cases ht⟩
  | cons t els ih =>
    obtain ⟨h1, h2⟩ := List.pairwise_cons.1 hno
    obtain ⟨E, hE⟩ := ih h2
    refine ⟨fun p => if p ∈ elemRegion t.coords then prop t.material else E p, ?_⟩
    intro u hu
    rcases List.mem_cons.1 hu with rfl | hu
    · exact Filter.Eventually.of_forall fun p hp => by simp [hp]
    · have h3 : ∀ᵐ p, p ∉ elemRegion t.coords ∩ elemRegion u.coords := by
        rw [ae_iff]; simpa using h1 u hu
      filter_upwards [h3, hE u hu] with p hp1 hp2 hp3
      have : p ∉ elemRegion t.coords := fun h => hp1 ⟨h, hp3⟩
      simp [this, hp2 hp3]

end SP
