import Verif.Lemmas.BodyLimit
import Mathlib.MeasureTheory.Function.ContinuousMapDense
import Mathlib.MeasureTheory.Function.L2Space

/-!
# Limits of the gradients of discrete solutions in mean square
-/

namespace SP

open Spec MeasureTheory Set Topology Filter

variable {n : ℕ} {els : List (Tri6 n)} {q v : Tri6 n → ℝ × ℝ → ℝ} {x : Fin n → ℝ} {Ω : Set (ℝ × ℝ)} {mat : ℝ × ℝ → Material}

/-! ### Limits in complete spaces -/

/-- Points that all fine meshes come close to, with any tolerance, have a limit. -/
theorem limit_of_cores_complete {α X : Type*} [PseudoMetricSpace X] [CompleteSpace X] [Nonempty X] (f : α → X)
    (fine : ℝ → ℝ → α → Prop) (mono : ∀ d d' κ a, fine d κ a → d ≤ d' → fine d' κ a)
    (cores : ∀ r, 0 < r → ∃ y, ∀ κ, ∃ δ > 0, ∀ a, fine δ κ a → dist (f a) y ≤ r) :
    ∃ l, ∀ κ ε, 0 < ε → ∃ δ > 0, ∀ a, fine δ κ a → dist (f a) l ≤ ε := by
  by_cases hex : ∃ κ, ∀ δ > 0, ∃ a, fine δ κ a
  · obtain ⟨κ0, hκ⟩ := hex
    choose y hy using fun k : ℕ => cores (1 / ((k : ℝ) + 1)) Nat.one_div_pos_of_nat
    have hcl : ∀ i j, dist (y i) (y j) ≤ 1 / ((i : ℝ) + 1) + 1 / ((j : ℝ) + 1) := by
      intro i j
      obtain ⟨d1, p1, k1⟩ := hy i κ0
      obtain ⟨d2, p2, k2⟩ := hy j κ0
      obtain ⟨b, hb⟩ := hκ (min d1 d2) (lt_min p1 p2)
      exact (dist_triangle_left _ _ _).trans
        (add_le_add (k1 b (mono _ _ _ _ hb (min_le_left _ _))) (k2 b (mono _ _ _ _ hb (min_le_right _ _))))
    have hc : CauchySeq y := by
      refine Metric.cauchySeq_iff'.2 fun ε hε => ?_
      obtain ⟨k, hk⟩ := exists_nat_one_div_lt (show 0 < ε / 2 by linarith)
      refine ⟨k, fun m hm => (hcl m k).trans_lt ?_⟩
      have : 1 / ((m : ℝ) + 1) ≤ 1 / ((k : ℝ) + 1) := Nat.one_div_le_one_div hm
      linarith
    obtain ⟨l, hl⟩ := cauchySeq_tendsto_of_complete hc
    refine ⟨l, fun κ ε hε => ?_⟩
    obtain ⟨k, hk⟩ := exists_nat_one_div_lt (show 0 < ε / 2 by linarith)
    obtain ⟨δ, hδ, h⟩ := hy k κ
    refine ⟨δ, hδ, fun b hb => ?_⟩
    have h1 : dist (y k) l ≤ 1 / ((k : ℝ) + 1) := by
      have t1 : Tendsto (fun j => dist (y k) (y j)) atTop (𝓝 (dist (y k) l)) := tendsto_const_nhds.dist hl
      have t2 : Tendsto (fun j : ℕ => 1 / ((k : ℝ) + 1) + 1 / ((j : ℝ) + 1)) atTop (𝓝 (1 / ((k : ℝ) + 1) + 0)) :=
        tendsto_const_nhds.add tendsto_one_div_add_atTop_nhds_zero_nat
      rw [add_zero] at t2
      exact le_of_tendsto_of_tendsto' t1 t2 (hcl k)
    exact (dist_triangle _ (y k) _).trans (by linarith [h b hb])
  · push Not at hex
    obtain ⟨l⟩ := ‹Nonempty X›
    refine ⟨l, fun κ ε hε => ?_⟩
    obtain ⟨δ, hδ, h⟩ := hex κ
    exact ⟨δ, hδ, fun a ha => absurd ha (h a)⟩

/-! ### Square integrable functions -/

section
variable {α : Type*} [MeasurableSpace α] {μ : Measure α} {f g : α → ℝ}

/-- The distance of the classes of two square integrable functions. -/
theorem dist_toLp (hf : MemLp f 2 μ) (hg : MemLp g 2 μ) : dist (hf.toLp f) (hg.toLp g) ^ 2 = ∫ a, (f a - g a) ^ 2 ∂μ := by
  rw [dist_eq_norm, ← MemLp.toLp_sub, ← real_inner_self_eq_norm_sq, L2.inner_def]
  refine integral_congr_ae ?_
  filter_upwards [(hf.sub hg).coeFn_toLp] with a ha
  rw [ha]
  simp [pow_two]

theorem memLp_sq_int (hf : MemLp f 2 μ) : Integrable (fun a => f a ^ 2) μ := (memLp_two_iff_integrable_sq hf.1).1 hf

theorem sq_int_sub (hf : MemLp f 2 μ) (hg : MemLp g 2 μ) : Integrable (fun a => (f a - g a) ^ 2) μ := memLp_sq_int (hf.sub hg)

/-- `(a + b)² ≤ 2 a² + 2 b²` in the mean. -/
theorem sq_int_add {h : α → ℝ} (hf : MemLp f 2 μ) (hg : MemLp g 2 μ) (hh : MemLp h 2 μ) :
    ∫ a, (f a - h a) ^ 2 ∂μ ≤ 2 * (∫ a, (f a - g a) ^ 2 ∂μ) + 2 * ∫ a, (g a - h a) ^ 2 ∂μ := by
  rw [← integral_const_mul, ← integral_const_mul,
    ← integral_add ((sq_int_sub hf hg).const_mul 2) ((sq_int_sub hg hh).const_mul 2)]
  refine integral_mono (sq_int_sub hf hh) (((sq_int_sub hf hg).const_mul 2).add ((sq_int_sub hg hh).const_mul 2)) fun a => ?_
  simp only
  nlinarith [sq_nonneg ((f a - g a) - (g a - h a))]

end

/-! ### Fields on meshes as square integrable functions -/

theorem memLp_cont {g : ℝ × ℝ → ℝ} (hg : Continuous g) (els : List (Tri6 n)) : MemLp g 2 (volume.restrict (region els)) := by
  refine (memLp_two_iff_integrable_sq hg.aestronglyMeasurable.restrict).2 ?_
  exact (hg.pow 2).continuousOn.integrableOn_compact (region_compact els)

/-- Fields that are continuous in each element, as one function. -/
theorem glue_memLp (hno : NoOverlap els) {f : Tri6 n → ℝ × ℝ → ℝ} (hf : ∀ t ∈ els, Continuous (f t)) :
    ∃ F, MemLp F 2 (volume.restrict (region els)) ∧ ∀ t ∈ els, ∀ᵐ p, p ∈ elemRegion t.coords → F p = f t p := by
  obtain ⟨F, hF⟩ := exists_glue hno f
  refine ⟨F, ?_, hF⟩
  have h1 := (glue_integral hno hf hF).1
  have h2 := (glue_integral hno (f := fun t p => f t p ^ 2) (F := fun p => F p ^ 2) (fun t ht => (hf t ht).pow 2)
    fun t ht => (hF t ht).mono fun p hp hpm => by rw [hp hpm]).1
  exact (memLp_two_iff_integrable_sq h1.aestronglyMeasurable).2 h2

/-- The value of a field on a mesh in the mean square sense. -/
def SameField (els : List (Tri6 n)) (f : Tri6 n → ℝ × ℝ → ℝ) (F : ℝ × ℝ → ℝ) : Prop :=
  ∀ t ∈ els, ∀ᵐ p, p ∈ elemRegion t.coords → F p = f t p

/-- The gradients of a solution and of its samples. -/
theorem grad_near {l : ℝ × ℝ → ℝ × ℝ × ℝ} (hl : Continuous l) (h : NiceMesh Ω mat els) (hs : WeakSol l els x q)
    {g1 g2 : ℝ × ℝ → ℝ} (hg1 : Continuous g1) (hg2 : Continuous g2) (κ : ℝ) {ε : ℝ} (hε : 0 < ε) :
    ∃ δ > 0, ∀ (m : ℕ) (els' : List (Tri6 m)), NiceMesh Ω mat els' → ∀ x' q', WeakSol l els' x' q' → FineMesh els' δ κ →
      wInt els' (fun t p => (dX (q' t) p - g1 p) ^ 2 + (dY (q' t) p - g2 p) ^ 2)
        ≤ 2 * (dirichlet els' q' q' - dirichlet els q q + ε)
          + 2 * (wInt els (fun t p => (dX (q t) p - g1 p) ^ 2 + (dY (q t) p - g2 p) ^ 2) + ε) := by
  have hΦ : Continuous fun z : (ℝ × ℝ) × ℝ × ℝ × ℝ => (z.2.2.1 - g1 z.1) ^ 2 + (z.2.2.2 - g2 z.1) ^ 2 := by fun_prop
  obtain ⟨δ, hδ, near⟩ := solution_near hl h hs hΦ hΦ κ hε
  refine ⟨δ, hδ, fun m els' h' x' q' hs' hf => ?_⟩
  obtain ⟨y, v, hv, e1, -, e2⟩ := near m els' h' x' q' hs' hf
  have e1 := (abs_le.1 e1).2
  change wInt els' (fun t p => (dX (v t) p - g1 p) ^ 2 + (dY (v t) p - g2 p) ^ 2)
    - wInt els (fun t p => (dX (q t) p - g1 p) ^ 2 + (dY (q t) p - g2 p) ^ 2) ≤ ε at e1
  have cx : ∀ {u : Tri6 m → ℝ × ℝ → ℝ} {z : Fin m → ℝ}, FEField els' z u → ∀ t ∈ els', Continuous (dX (u t)) ∧ Continuous (dY (u t)) :=
    fun hu t ht => ⟨PolyLE.continuous (dX_mem (hu t ht).1), PolyLE.continuous (dY_mem (hu t ht).1)⟩
  have hd := feField_add hs'.field (feField_smul (-1) hv)
  have key : wInt els' (fun t p => (dX (q' t) p - g1 p) ^ 2 + (dY (q' t) p - g2 p) ^ 2)
      ≤ wInt els' fun t p => 2 * (dX (fun p => q' t p + -1 * v t p) p * dX (fun p => q' t p + -1 * v t p) p
          + dY (fun p => q' t p + -1 * v t p) p * dY (fun p => q' t p + -1 * v t p) p)
        + 2 * ((dX (v t) p - g1 p) ^ 2 + (dY (v t) p - g2 p) ^ 2) := by
    refine wInt_monoc h'.modulus (fun t ht => ?_) (fun t ht => ?_) fun t ht p _ => ?_
    · obtain ⟨c1, c2⟩ := cx hs'.field t ht
      fun_prop
    · obtain ⟨c1, c2⟩ := cx hv t ht
      obtain ⟨c3, c4⟩ := cx hd t ht
      fun_prop
    · rw [dX_add_smul (hs'.field t ht).1 (hv t ht).1, dY_add_smul (hs'.field t ht).1 (hv t ht).1]
      nlinarith [sq_nonneg (dX (q' t) p - dX (v t) p - (dX (v t) p - g1 p)), sq_nonneg (dY (q' t) p - dY (v t) p - (dY (v t) p - g2 p))]
  rw [wInt_addc (f := fun t p => 2 * (dX (fun p => q' t p + -1 * v t p) p * dX (fun p => q' t p + -1 * v t p) p
          + dY (fun p => q' t p + -1 * v t p) p * dY (fun p => q' t p + -1 * v t p) p))
        (g := fun t p => 2 * ((dX (v t) p - g1 p) ^ 2 + (dY (v t) p - g2 p) ^ 2))
        (fun t ht => by obtain ⟨c3, c4⟩ := cx hd t ht; fun_prop) (fun t ht => by obtain ⟨c1, c2⟩ := cx hv t ht; fun_prop),
      wInt_smul, wInt_smul] at key
  have e3 : (wInt els' fun t p => dX (fun p => q' t p + -1 * v t p) p * dX (fun p => q' t p + -1 * v t p) p
      + dY (fun p => q' t p + -1 * v t p) p * dY (fun p => q' t p + -1 * v t p) p)
      = dirichlet els' (fun t p => q' t p + -1 * v t p) (fun t p => q' t p + -1 * v t p) := rfl
  rw [e3] at key
  linarith

/-- Square integrable functions are nearly continuous. -/
theorem exists_cont_near {F : ℝ × ℝ → ℝ} (hF : MemLp F 2 (volume.restrict (region els))) {η : ℝ} (hη : 0 < η) :
    ∃ g, Continuous g ∧ ∫ p in region els, (F p - g p) ^ 2 ≤ η := by
  have : (volume.restrict (region els)).Regular := Measure.Regular.restrict_of_measure_ne_top (region_compact els).measure_lt_top.ne
  obtain ⟨g, -, h1, h2, -⟩ := MemLp.exists_hasCompactSupport_integral_rpow_sub_le (p := 2) two_pos (by simpa using hF) hη
  refine ⟨g, h2, le_of_eq_of_le (integral_congr_ae (ae_of_all _ fun p => ?_)) h1⟩
  simp

/-- Weighted and plain integrals of the squares of differences. -/
theorem weighted_sq (hno : NoOverlap els) {a b : ℝ} (ha : ∀ t ∈ els, a ≤ t.material.elasticModulus)
    (hb : ∀ t ∈ els, t.material.elasticModulus ≤ b) {f1 f2 : Tri6 n → ℝ × ℝ → ℝ} (c1 : ∀ t ∈ els, Continuous (f1 t))
    (c2 : ∀ t ∈ els, Continuous (f2 t)) {F1 F2 g1 g2 : ℝ × ℝ → ℝ} (s1 : SameField els f1 F1) (s2 : SameField els f2 F2)
    (hF1 : MemLp F1 2 (volume.restrict (region els))) (hF2 : MemLp F2 2 (volume.restrict (region els)))
    (hg1 : Continuous g1) (hg2 : Continuous g2) :
    a * ((∫ p in region els, (F1 p - g1 p) ^ 2) + ∫ p in region els, (F2 p - g2 p) ^ 2)
      ≤ wInt els (fun t p => (f1 t p - g1 p) ^ 2 + (f2 t p - g2 p) ^ 2) ∧
    wInt els (fun t p => (f1 t p - g1 p) ^ 2 + (f2 t p - g2 p) ^ 2)
      ≤ b * ((∫ p in region els, (F1 p - g1 p) ^ 2) + ∫ p in region els, (F2 p - g2 p) ^ 2) := by
  have e := (glue_integral hno (f := fun t p => (f1 t p - g1 p) ^ 2 + (f2 t p - g2 p) ^ 2)
    (F := fun p => (F1 p - g1 p) ^ 2 + (F2 p - g2 p) ^ 2) (fun t ht => by have := c1 t ht; have := c2 t ht; fun_prop)
    fun t ht => by filter_upwards [s1 t ht, s2 t ht] with p h1 h2 hp; rw [h1 hp, h2 hp]).2
  rw [integral_add (sq_int_sub hF1 (memLp_cont hg1 els)) (sq_int_sub hF2 (memLp_cont hg2 els))] at e
  have nn : ∀ t : Tri6 n, 0 ≤ ∫ p in elemRegion t.coords, (f1 t p - g1 p) ^ 2 + (f2 t p - g2 p) ^ 2 :=
    fun t => integral_nonneg fun p => add_nonneg (sq_nonneg _) (sq_nonneg _)
  rw [← e, wInt, ← List.sum_map_mul_left, ← List.sum_map_mul_left]
  exact ⟨List.sum_le_sum fun t ht => mul_le_mul_of_nonneg_right (ha t ht) (nn t),
    List.sum_le_sum fun t ht => mul_le_mul_of_nonneg_right (hb t ht) (nn t)⟩

/-- The solutions with a load on the meshes of a body. -/
def BodySol (Ω : Set (ℝ × ℝ)) (mat : ℝ × ℝ → Material) (l : ℝ × ℝ → ℝ × ℝ × ℝ) : Type :=
  {a : Σ m : ℕ, List (Tri6 m) × (Fin m → ℝ) × (Tri6 m → ℝ × ℝ → ℝ) // NiceMesh Ω mat a.2.1 ∧ WeakSol l a.2.1 a.2.2.1 a.2.2.2}

/-- The gradients of the solutions on all fine meshes are close to one continuous field. -/
theorem grad_cores (h₀ : NiceMesh Ω mat els) (hcon : IsPreconnected (interior (region els))) {l : ℝ × ℝ → ℝ × ℝ × ℝ}
    (hl : Continuous l) (hb : Balanced Ω mat l) {r : ℝ} (hr : 0 < r) :
    ∃ g1 g2 : ℝ × ℝ → ℝ, Continuous g1 ∧ Continuous g2 ∧ ∀ κ, ∃ δ > 0, ∀ (m : ℕ) (els' : List (Tri6 m)), NiceMesh Ω mat els' →
      ∀ x v, WeakSol l els' x v → FineMesh els' δ κ → ∀ F1 F2, MemLp F1 2 (volume.restrict (region els)) →
        MemLp F2 2 (volume.restrict (region els)) → SameField els' (fun t => dX (v t)) F1 → SameField els' (fun t => dY (v t)) F2 →
        (∫ p in region els, (F1 p - g1 p) ^ 2) ≤ r ∧ ∫ p in region els, (F2 p - g2 p) ^ 2 ≤ r := by
  obtain ⟨c, hc⟩ := energy_bound h₀ hcon hl hb
  by_cases hne : Nonempty (BodySol Ω mat l)
  swap
  · exact ⟨0, 0, continuous_const, continuous_const, fun κ => ⟨1, one_pos, fun m els' h' x v hv =>
      absurd ⟨⟨⟨m, els', x, v⟩, h', hv⟩⟩ hne⟩⟩
  obtain ⟨a, ha, hmin⟩ := modulus_min els h₀.modulus
  obtain ⟨b, hb0, hmax⟩ := modulus_max els
  have hmin' : ∀ {m : ℕ} {els' : List (Tri6 m)}, NiceMesh Ω mat els' → ∀ t ∈ els', a ≤ t.material.elasticModulus :=
    fun h' => material_carry (P := fun M => a ≤ M.elasticModulus) h₀.mesh h'.mesh h'.proper hmin
  have hmax' : ∀ {m : ℕ} {els' : List (Tri6 m)}, NiceMesh Ω mat els' → ∀ t ∈ els', t.material.elasticModulus ≤ b :=
    fun h' => material_carry (P := fun M => M.elasticModulus ≤ b) h₀.mesh h'.mesh h'.proper hmax
  have hbd : BddAbove (range fun s : BodySol Ω mat l => dirichlet s.1.2.1 s.1.2.2.2 s.1.2.2.2) :=
    ⟨c, by rintro _ ⟨s, rfl⟩; exact hc _ _ s.2.1 _ _ s.2.2⟩
  set η := a * r / (6 + 4 * b) with hη
  have hη0 : 0 < η := by positivity
  obtain ⟨s1, hs1⟩ := exists_lt_of_lt_ciSup
    (show (⨆ s : BodySol Ω mat l, dirichlet s.1.2.1 s.1.2.2.2 s.1.2.2.2) - η < ⨆ s : BodySol Ω mat l, dirichlet s.1.2.1 s.1.2.2.2 s.1.2.2.2
      by linarith)
  have hsup : ∀ s : BodySol Ω mat l, dirichlet s.1.2.1 s.1.2.2.2 s.1.2.2.2 - dirichlet s1.1.2.1 s1.1.2.2.2 s1.1.2.2.2 ≤ η :=
    fun s => by linarith [le_ciSup hbd s]
  obtain ⟨⟨k, els1, x1, q1⟩, n1, w1⟩ := s1
  simp only at hsup
  have cont : ∀ {m : ℕ} {els' : List (Tri6 m)} {u : Tri6 m → ℝ × ℝ → ℝ} {z : Fin m → ℝ}, FEField els' z u →
      (∀ t ∈ els', Continuous (dX (u t))) ∧ ∀ t ∈ els', Continuous (dY (u t)) :=
    fun hu => ⟨fun t ht => PolyLE.continuous (dX_mem (hu t ht).1), fun t ht => PolyLE.continuous (dY_mem (hu t ht).1)⟩
  obtain ⟨F1, m1, e1⟩ := glue_memLp n1.mesh.once (cont w1.field).1
  obtain ⟨F2, m2, e2⟩ := glue_memLp n1.mesh.once (cont w1.field).2
  obtain ⟨g1, k1, b1⟩ := exists_cont_near m1 hη0
  obtain ⟨g2, k2, b2⟩ := exists_cont_near m2 hη0
  refine ⟨g1, g2, k1, k2, fun κ => ?_⟩
  obtain ⟨δ, hδ, near⟩ := grad_near hl n1 w1 k1 k2 κ hη0
  refine ⟨δ, hδ, fun m els' h' x v hv hf G1 G2 p1 p2 z1 z2 => ?_⟩
  have t1 := near m els' h' x v hv hf
  have t2 := hsup ⟨⟨m, els', x, v⟩, h', hv⟩
  simp only at t2
  have t3 := (weighted_sq n1.mesh.once (hmin' n1) (hmax' n1) (cont w1.field).1 (cont w1.field).2 e1 e2 m1 m2 k1 k2).2
  rw [← h₀.region_eq h'] at p1 p2
  have t4 := (weighted_sq h'.mesh.once (hmin' h') (hmax' h') (cont hv.field).1 (cont hv.field).2 z1 z2 p1 p2 k1 k2).1
  rw [h₀.region_eq h'] at t4
  have t5 : b * ((∫ p in region els1, (F1 p - g1 p) ^ 2) + ∫ p in region els1, (F2 p - g2 p) ^ 2) ≤ b * (2 * η) :=
    mul_le_mul_of_nonneg_left (by linarith) hb0
  have t6 : (6 + 4 * b) * η = a * r := by rw [hη]; field_simp
  have n3 : 0 ≤ ∫ p in region els, (G1 p - g1 p) ^ 2 := integral_nonneg fun p => sq_nonneg _
  have n4 : 0 ≤ ∫ p in region els, (G2 p - g2 p) ^ 2 := integral_nonneg fun p => sq_nonneg _
  have t7 : a * ((∫ p in region els, (G1 p - g1 p) ^ 2) + ∫ p in region els, (G2 p - g2 p) ^ 2) ≤ a * r := by linarith
  have t8 := le_of_mul_le_mul_left t7 ha
  exact ⟨by linarith, by linarith⟩

/-- **The gradients of the solutions** on ever finer meshes of a connected body have a limit, in mean square, that does not depend on the
meshes. -/
theorem grad_limit (h₀ : NiceMesh Ω mat els) (hcon : IsPreconnected (interior (region els))) {l : ℝ × ℝ → ℝ × ℝ × ℝ}
    (hl : Continuous l) (hb : Balanced Ω mat l) :
    ∃ G1 G2, MemLp G1 2 (volume.restrict (region els)) ∧ MemLp G2 2 (volume.restrict (region els)) ∧ ∀ κ ε, 0 < ε → ∃ δ > 0,
      ∀ (m : ℕ) (els' : List (Tri6 m)), NiceMesh Ω mat els' → ∀ x v, WeakSol l els' x v → FineMesh els' δ κ →
        ∀ F1 F2, MemLp F1 2 (volume.restrict (region els)) → MemLp F2 2 (volume.restrict (region els)) →
          SameField els' (fun t => dX (v t)) F1 → SameField els' (fun t => dY (v t)) F2 →
          (∫ p in region els, (F1 p - G1 p) ^ 2) ≤ ε ∧ ∫ p in region els, (F2 p - G2 p) ^ 2 ≤ ε := by
  let μ : Measure (ℝ × ℝ) := volume.restrict (region els)
  let α := {a : BodySol Ω mat l × (ℝ × ℝ → ℝ) × (ℝ × ℝ → ℝ) // MemLp a.2.1 2 μ ∧ MemLp a.2.2 2 μ ∧
    SameField a.1.1.2.1 (fun t => dX (a.1.1.2.2.2 t)) a.2.1 ∧ SameField a.1.1.2.1 (fun t => dY (a.1.1.2.2.2 t)) a.2.2}
  have le_of : ∀ {f g : ℝ × ℝ → ℝ} (hf : MemLp f 2 μ) (hg : MemLp g 2 μ) {r : ℝ}, 0 ≤ r → ∫ p, (f p - g p) ^ 2 ∂μ ≤ r ^ 2 →
      dist (hf.toLp f) (hg.toLp g) ≤ r := fun hf hg r hr h => by
    rw [← dist_toLp hf hg] at h
    exact (abs_le_of_sq_le_sq' h hr).2
  obtain ⟨L1, hL1⟩ := limit_of_cores_complete (fun a : α => a.2.1.toLp a.1.2.1) (fun δ κ a => FineMesh a.1.1.1.2.1 δ κ)
    (fun d d' κ a h hd => fineMesh_le h hd) fun r hr => by
      obtain ⟨g1, g2, k1, k2, key⟩ := grad_cores h₀ hcon hl hb (r := r ^ 2) (by positivity)
      refine ⟨(memLp_cont k1 els).toLp g1, fun κ => ?_⟩
      obtain ⟨δ, hδ, h⟩ := key κ
      refine ⟨δ, hδ, fun a hf => le_of _ _ hr.le ?_⟩
      exact (h _ _ a.1.1.2.1 _ _ a.1.1.2.2 hf _ _ a.2.1 a.2.2.1 a.2.2.2.1 a.2.2.2.2).1
  obtain ⟨L2, hL2⟩ := limit_of_cores_complete (fun a : α => a.2.2.1.toLp a.1.2.2) (fun δ κ a => FineMesh a.1.1.1.2.1 δ κ)
    (fun d d' κ a h hd => fineMesh_le h hd) fun r hr => by
      obtain ⟨g1, g2, k1, k2, key⟩ := grad_cores h₀ hcon hl hb (r := r ^ 2) (by positivity)
      refine ⟨(memLp_cont k2 els).toLp g2, fun κ => ?_⟩
      obtain ⟨δ, hδ, h⟩ := key κ
      refine ⟨δ, hδ, fun a hf => le_of _ _ hr.le ?_⟩
      exact (h _ _ a.1.1.2.1 _ _ a.1.1.2.2 hf _ _ a.2.1 a.2.2.1 a.2.2.2.1 a.2.2.2.2).2
  refine ⟨L1, L2, Lp.memLp L1, Lp.memLp L2, fun κ ε hε => ?_⟩
  obtain ⟨d1, p1, k1⟩ := hL1 κ (√ε) (Real.sqrt_pos.2 hε)
  obtain ⟨d2, p2, k2⟩ := hL2 κ (√ε) (Real.sqrt_pos.2 hε)
  refine ⟨min d1 d2, lt_min p1 p2, fun m els' h' x v hv hf F1 F2 m1 m2 s1 s2 => ?_⟩
  have q1 := k1 ⟨⟨⟨⟨m, els', x, v⟩, h', hv⟩, F1, F2⟩, m1, m2, s1, s2⟩ (fineMesh_le hf (min_le_left _ _))
  have q2 := k2 ⟨⟨⟨⟨m, els', x, v⟩, h', hv⟩, F1, F2⟩, m1, m2, s1, s2⟩ (fineMesh_le hf (min_le_right _ _))
  have sq : ∀ {f : ℝ × ℝ → ℝ} (hf : MemLp f 2 μ) (L : Lp ℝ 2 μ), dist (hf.toLp f) L ≤ √ε → ∫ p, (f p - L p) ^ 2 ∂μ ≤ ε := by
    intro f hf L h
    have e := dist_toLp hf (Lp.memLp L)
    rw [Lp.toLp_coeFn] at e
    rw [← e]
    calc _ ≤ √ε ^ 2 := pow_le_pow_left₀ dist_nonneg h 2
      _ = ε := Real.sq_sqrt hε.le
  exact ⟨sq m1 L1 q1, sq m2 L2 q2⟩

end SP
