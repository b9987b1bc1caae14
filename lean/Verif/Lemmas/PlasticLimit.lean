import Verif.Spec.PlasticLimit
import Verif.Lemmas.Pieces
import Verif.Props.PlasticExample

/-!
# The largest moment within the yield strength and the equal-force axis
-/

namespace SP

open MeasureTheory Spec

/-- Yield strength times distance from the axis `u = d`, integrated over the section. -/
noncomputable def yieldDist (parts : List (Set (ℝ × ℝ) × ℝ)) (u : ℝ × ℝ → ℝ) (d : ℝ) : ℝ :=
  (parts.map fun p => p.2 * ∫ q in p.1, |u q - d|).sum

/-- Usable parts: not negative strengths, measurable and bounded. -/
structure GoodParts (parts : List (Set (ℝ × ℝ) × ℝ)) : Prop where
  meas : ∀ p ∈ parts, MeasurableSet p.1
  nonneg : ∀ p ∈ parts, 0 ≤ p.2
  integrable : ∀ p ∈ parts, ∀ f : ℝ × ℝ → ℝ, Continuous f → IntegrableOn f p.1

variable {parts : List (Set (ℝ × ℝ) × ℝ)} {u : ℝ × ℝ → ℝ}

theorem admissible_integrable (hp : GoodParts parts) {σ : Set (ℝ × ℝ) × ℝ → ℝ × ℝ → ℝ} (hσ : Admissible parts σ)
    {p : Set (ℝ × ℝ) × ℝ} (h : p ∈ parts) {f : ℝ × ℝ → ℝ} (hf : Continuous f) :
    IntegrableOn (fun q => σ p q * f q) p.1 := by
  have hi := hp.integrable p h f hf
  refine Integrable.bdd_mul (c := p.2) hi (hσ.measurable p h).aestronglyMeasurable ?_
  refine (ae_restrict_iff' (hp.meas p h)).2 (Filter.Eventually.of_forall fun q hq => ?_)
  exact hσ.yield p h q hq

theorem moment_shift (hp : GoodParts parts) (hu : Continuous u) {σ : Set (ℝ × ℝ) × ℝ → ℝ × ℝ → ℝ}
    (hσ : Admissible parts σ) (d : ℝ) : momentOf parts u σ = momentOf parts (fun q => u q - d) σ := by
  have e : ∀ p ∈ parts, ∫ q in p.1, σ p q * u q = (∫ q in p.1, σ p q * (u q - d)) + d * ∫ q in p.1, σ p q := by
    intro p h
    have i1 := admissible_integrable hp hσ h (f := fun q => u q - d) (by fun_prop)
    have i2 := admissible_integrable hp hσ h (continuous_const (y := (1 : ℝ)))
    simp only [mul_one] at i2
    rw [← integral_const_mul, ← integral_add i1 (i2.const_mul d)]
    exact integral_congr_ae (Filter.Eventually.of_forall fun q => by simp only; ring)
  unfold momentOf
  rw [List.map_congr_left e, List.sum_map_add, List.sum_map_mul_left, hσ.axial]
  ring

theorem moment_le (hp : GoodParts parts) (hu : Continuous u) {σ : Set (ℝ × ℝ) × ℝ → ℝ × ℝ → ℝ}
    (hσ : Admissible parts σ) (d : ℝ) : momentOf parts u σ ≤ yieldDist parts u d := by
  rw [moment_shift hp hu hσ d]
  refine List.sum_le_sum fun p h => ?_
  have i1 := (hp.integrable p h (fun q => |u q - d|) (by fun_prop)).const_mul p.2
  rw [← integral_const_mul]
  refine (Real.le_norm_self _).trans (norm_integral_le_of_norm_le i1 ?_)
  refine (ae_restrict_iff' (hp.meas p h)).2 (Filter.Eventually.of_forall fun q hq => ?_)
  rw [Real.norm_eq_abs, abs_mul]
  exact mul_le_mul_of_nonneg_right (hσ.yield p h q hq) (abs_nonneg _)

/-- Full yield, tension above and compression below the axis. -/
noncomputable def fullYield (u : ℝ × ℝ → ℝ) (z : ℝ) (p : Set (ℝ × ℝ) × ℝ) (q : ℝ × ℝ) : ℝ :=
  {q | z < u q}.indicator (fun _ => p.2) q - {q | u q < z}.indicator (fun _ => p.2) q

theorem fullYield_admissible (hp : GoodParts parts) (hu : Continuous u) {z : ℝ}
    (hz : (parts.map fun p => p.2 * volume.real (p.1 ∩ {q | z < u q})).sum
      = (parts.map fun p => p.2 * volume.real (p.1 ∩ {q | u q < z})).sum) :
    Admissible parts (fullYield u z) ∧ momentOf parts u (fullYield u z) = yieldDist parts u z := by
  have m1 : MeasurableSet {q | z < u q} := measurableSet_lt measurable_const hu.measurable
  have m2 : MeasurableSet {q | u q < z} := measurableSet_lt hu.measurable measurable_const
  have ad : Admissible parts (fullYield u z) := by
    refine ⟨fun p _ => (measurable_const.indicator m1).sub (measurable_const.indicator m2), fun p h q _ => ?_, ?_⟩
    · have := hp.nonneg p h
      by_cases h1 : z < u q <;> by_cases h2 : u q < z <;> simp [fullYield, h1, h2, abs_of_nonneg this, this]
    · have e : ∀ p ∈ parts, ∫ q in p.1, fullYield u z p q
          = p.2 * volume.real (p.1 ∩ {q | z < u q}) - p.2 * volume.real (p.1 ∩ {q | u q < z}) := by
        intro p h
        have i0 := hp.integrable p h (fun _ => p.2) continuous_const
        unfold fullYield
        rw [integral_sub (i0.indicator m1) (i0.indicator m2), setIntegral_indicator m1, setIntegral_indicator m2]
        simp [mul_comm]
      simp only [sub_eq_add_neg] at e
      rw [List.map_congr_left e, List.sum_map_add, hz]
      simp only [← neg_one_mul (_ * volume.real _), List.sum_map_mul_left]
      ring
  refine ⟨ad, ?_⟩
  rw [moment_shift hp hu ad z]
  unfold momentOf yieldDist
  congr 1
  refine List.map_congr_left fun p _ => ?_
  rw [← integral_const_mul]
  refine integral_congr_ae (Filter.Eventually.of_forall fun q => ?_)
  rcases lt_trichotomy z (u q) with h | h | h
  · simp [fullYield, h, h.not_gt, abs_of_pos (sub_pos.2 h)]
  · simp [fullYield, ← h]
  · simp [fullYield, h, h.not_gt, abs_of_neg (sub_neg.2 h)]
    ring

/-- The moment at the equal-force axis is the largest one, and the least integral of yield strength times distance
from an axis. -/
theorem balanced_limit (hp : GoodParts parts) (hu : Continuous u) {z : ℝ}
    (hz : (parts.map fun p => p.2 * volume.real (p.1 ∩ {q | z < u q})).sum
      = (parts.map fun p => p.2 * volume.real (p.1 ∩ {q | u q < z})).sum) :
    IsLimitMoment parts u (yieldDist parts u z) ∧ ∀ d, yieldDist parts u z ≤ yieldDist parts u d := by
  obtain ⟨h1, h2⟩ := fullYield_admissible hp hu hz
  refine ⟨⟨⟨_, h1, h2.symm⟩, ?_⟩, fun d => ?_⟩
  · rintro m ⟨σ, hσ, rfl⟩
    exact moment_le hp hu hσ z
  · rw [← h2]
    exact moment_le hp hu h1 d

theorem yieldDist_lipschitz (hp : GoodParts parts) (hu : Continuous u) (d z : ℝ) :
    yieldDist parts u d ≤ yieldDist parts u z + |d - z| * squashLoad parts := by
  unfold yieldDist squashLoad
  rw [← List.sum_map_mul_left, ← List.sum_map_add]
  refine List.sum_le_sum fun p h => ?_
  have i1 := hp.integrable p h (fun q => |u q - d|) (by fun_prop)
  have i2 := hp.integrable p h (fun q => |u q - z|) (by fun_prop)
  have i3 := hp.integrable p h (fun _ => |d - z|) continuous_const
  have : ∫ q in p.1, |u q - d| ≤ (∫ q in p.1, |u q - z|) + |d - z| * volume.real p.1 := by
    have e : |d - z| * volume.real p.1 = ∫ q in p.1, |d - z| := by simp [mul_comm]
    rw [e, ← integral_add i2 i3]
    refine integral_mono i1 (i2.add i3) fun q => ?_
    have := abs_add_le (u q - z) (z - d)
    rw [abs_sub_comm z d] at this
    simpa using this
  have := mul_le_mul_of_nonneg_left this (hp.nonneg p h)
  linarith

/-! ### Meshes and polygons -/

variable {n : ℕ}

theorem goodParts_mesh {els : List (Tri6 n)} (hy : ∀ t ∈ els, 0 < t.material.yieldStrength) :
    GoodParts (strengthParts els) := by
  refine ⟨?_, ?_, ?_⟩ <;> simp only [strengthParts, List.mem_map, forall_exists_index, and_imp, forall_apply_eq_imp_iff₂]
  · exact fun t _ => measurable_elemRegion _
  · exact fun t ht => (hy t ht).le
  · exact fun t _ f hf => hf.continuousOn.integrableOn_compact (isCompact_elemRegion _)

/-- Every section has an equal-force axis in each direction. -/
theorem mesh_balanced {els : List (Tri6 n)} (hp : ∀ t ∈ els, Proper t.coords) (hne : els ≠ [])
    (hy : ∀ t ∈ els, 0 < t.material.yieldStrength) (phi : ℝ) (a : Axis) :
    ∃ z, ((strengthParts els).map fun p => p.2 * volume.real (p.1 ∩ {q | z < axisCoord phi q a})).sum
      = ((strengthParts els).map fun p => p.2 * volume.real (p.1 ∩ {q | axisCoord phi q a < z})).sum := by
  have hok := bodyPlastic_ok els hp (0, 0) hne hy
  have hF : ∀ A, yieldForce Body.set (bodyPlastic els hp (0, 0)).geoms A
      = ((strengthParts els).map fun p => p.2 * volume.real (p.1 ∩ A)).sum := by
    intro A
    simp only [yieldForce, bodyPlastic, strengthParts, List.map_map]
    rw [← List.attach_map_val (l := els) (f := (fun p : Set (ℝ × ℝ) × ℝ => p.2 * volume.real (p.1 ∩ A)) ∘
      fun t : Tri6 n => (elemRegion t.coords, t.material.yieldStrength))]
    refine congrArg List.sum (List.map_congr_left fun t _ => ?_)
    have : t.1.coords.shift 0 0 = t.1.coords := by simp [Coords.shift]
    simp only [Function.comp_apply, elemBody, this]
  rcases C34_plastic_axis hok exactRoot_ok phi a with ⟨-, f, lo, hi, q, hq, hcv⟩ | ⟨d, S, -, ⟨z, hz, -⟩, -⟩
  · exfalso
    unfold exactRoot at hq
    split_ifs at hq
    rw [← Except.ok.inj hq] at hcv
    simp at hcv
  · exact ⟨z, by rw [hF, hF] at hz; exact hz⟩

end SP
