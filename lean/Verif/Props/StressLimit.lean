import Verif.Lemmas.WeakLimit
import Verif.Lemmas.ShiftStress
import Verif.Props.BodyWarp
import Verif.Props.ShearFlow
import Verif.Spec.StressLimit

/-!
# C100: the shear stresses of a connected body converge under mesh refinement
-/

namespace SP

open Spec MeasureTheory Set Topology Filter

variable {n : ℕ} {els : List (Tri6 n)} {Ω : Set (ℝ × ℝ)} {mat : ℝ × ℝ → Material} {c : Prop}

/-! ### The modulus as a function of position -/

theorem modulus_measurable (h : NiceMesh Ω mat els) :
    AEStronglyMeasurable (fun p => (mat p).elasticModulus) (volume.restrict (region els)) :=
  (glue_integral h.mesh.once (f := fun t _ => t.material.elasticModulus) (fun _ _ => continuous_const)
    fun t ht => (h.mesh.material t ht).mono fun p hp hpm => by rw [hp hpm]).1.aestronglyMeasurable

theorem modulus_bounded (h : NiceMesh Ω mat els) : ∃ b, ∀ᵐ p ∂volume.restrict (region els), |(mat p).elasticModulus| ≤ b := by
  obtain ⟨b, -, hmax⟩ := modulus_max els
  refine ⟨b, (ae_restrict_iff' (isClosed_region _).measurableSet).2 ?_⟩
  have ae : ∀ᵐ p, ∀ t ∈ els, p ∈ elemRegion t.coords → mat p = t.material :=
    (ae_ball_iff (List.finite_toSet els).countable).2 h.mesh.material
  filter_upwards [ae] with p hp hpm
  obtain ⟨t, ht, hpt⟩ := hpm
  rw [hp t ht hpt, abs_of_pos (h.modulus t ht)]
  exact hmax t ht

/-! ### One direction of the stress -/

/-- Reported stresses in one direction and the limit of the three parts of the exact fields. -/
theorem direction_near {m : ℕ} {els' : List (Tri6 m)} (h₀ : NiceMesh Ω mat els) (h : NiceMesh Ω mat els') {E : ℝ × ℝ → ℝ} {b : ℝ}
    (hE : AEStronglyMeasurable E (volume.restrict (region els))) (hb : ∀ᵐ p ∂volume.restrict (region els), |E p| ≤ b)
    (k k' : Fin 3 → ℝ) {F G ρ : Fin 3 → ℝ × ℝ → ℝ} (hF : ∀ i, MemLp (F i) 2 (volume.restrict (region els)))
    (hG : ∀ i, MemLp (G i) 2 (volume.restrict (region els))) (hρ : ∀ i, MemLp (ρ i) 2 (volume.restrict (region els)))
    {rep : Tri6 m → ℝ × ℝ → ℝ} (cr : ∀ t ∈ els', Continuous (rep t)) {f : Fin 3 → Tri6 m → ℝ × ℝ → ℝ}
    (cf : ∀ i, ∀ t ∈ els', Continuous (f i t)) (sf : ∀ i, SameField els' (f i) (scaled E (k i) (F i) (ρ i)))
    (near : ∀ t ∈ els', ∫ p in elemRegion t.coords, (rep t p - (f 0 t p + (f 1 t p + f 2 t p))) ^ 2
      ≤ 2e-20 * ((∫ p in elemRegion t.coords, f 0 t p ^ 2)
        + ((∫ p in elemRegion t.coords, f 1 t p ^ 2) + ∫ p in elemRegion t.coords, f 2 t p ^ 2)))
    {T : ℝ × ℝ → ℝ} (hT : MemLp T 2 (volume.restrict (region els))) (sT : SameField els' rep T) :
    ∫ p in region els, (T p - (scaled E (k' 0) (G 0) (ρ 0) p + (scaled E (k' 1) (G 1) (ρ 1) p + scaled E (k' 2) (G 2) (ρ 2) p))) ^ 2
      ≤ 1e-19 * ((∫ p in region els, scaled E (k' 0) (G 0) (ρ 0) p ^ 2)
          + ((∫ p in region els, scaled E (k' 1) (G 1) (ρ 1) p ^ 2) + ∫ p in region els, scaled E (k' 2) (G 2) (ρ 2) p ^ 2))
        + 7 * ∑ i, (2 * b ^ 2 * k i ^ 2 * (∫ p in region els, (F i p - G i p) ^ 2)
          + 2 * b ^ 2 * (k i - k' i) ^ 2 * ∫ p in region els, (G i p + ρ i p) ^ 2) := by
  have g := glue_near h.mesh.once cr (cf 0) (cf 1) (cf 2) sT (sf 0) (sf 1) (sf 2) near
  rw [h₀.region_eq h] at g
  have mf := fun i => scaled_memLp hE hb (hF i) (hρ i) (k i)
  have mt := fun i => scaled_memLp hE hb (hG i) (hρ i) (k' i)
  refine (three_near hT (mf 0) (mf 1) (mf 2) (mt 0) (mt 1) (mt 2) g).trans ?_
  have n0 := fun i => scaled_near hE hb (hF i) (hG i) (hρ i) (k i) (k' i)
  rw [Fin.sum_univ_three]
  have := n0 0
  have := n0 1
  have := n0 2
  linarith

theorem scaled_mul {α : Type*} (E : α → ℝ) (m k : ℝ) (F ρ : α → ℝ) (p : α) : scaled E (m * k) F ρ p = m * scaled E k F ρ p := by
  simp only [scaled]; ring

section
variable {s s₀ : Section} {r r₀ : GeomResults} {w : WarpResults s.numNodes} {w₀ : WarpResults s₀.numNodes}

/-- The same for a family of meshes, whose stresses come close to the limit. -/
theorem direction_limit (h₀ : SolvedMesh Ω mat s₀ r₀ w₀) {k : BodyMesh Ω mat c → Fin 3 → ℝ} {k' : Fin 3 → ℝ}
    (hk : ∀ κ i, Tendsto (fun x => k x i) (fineFilter Ω mat c κ) (𝓝 (k' i)))
    {F : BodyMesh Ω mat c → Fin 3 → ℝ × ℝ → ℝ} {G ρ : Fin 3 → ℝ × ℝ → ℝ}
    (hF : ∀ x i, MemLp (F x i) 2 (volume.restrict (region (centred s₀ r₀))))
    (hG : ∀ i, MemLp (G i) 2 (volume.restrict (region (centred s₀ r₀))))
    (hρ : ∀ i, MemLp (ρ i) 2 (volume.restrict (region (centred s₀ r₀))))
    (hl : ∀ κ i, Tendsto (fun x => ∫ p in region (centred s₀ r₀), (F x i p - G i p) ^ 2) (fineFilter Ω mat c κ) (𝓝 0))
    {rep : ∀ x : BodyMesh Ω mat c, Tri6 x.1.1.numNodes → ℝ × ℝ → ℝ}
    (cr : ∀ x : BodyMesh Ω mat c, ∀ t ∈ centred x.1.1 x.1.2.1, Continuous (rep x t))
    {f : ∀ x : BodyMesh Ω mat c, Fin 3 → Tri6 x.1.1.numNodes → ℝ × ℝ → ℝ}
    (cf : ∀ (x : BodyMesh Ω mat c) i, ∀ t ∈ centred x.1.1 x.1.2.1, Continuous (f x i t))
    (sf : ∀ (x : BodyMesh Ω mat c) i, SameField (centred x.1.1 x.1.2.1) (f x i)
      (scaled (fun p => (matFrom mat r₀ p).elasticModulus) (k x i) (F x i) (ρ i)))
    (near : ∀ x : BodyMesh Ω mat c, ∀ t ∈ centred x.1.1 x.1.2.1,
      ∫ p in elemRegion t.coords, (rep x t p - (f x 0 t p + (f x 1 t p + f x 2 t p))) ^ 2
      ≤ 2e-20 * ((∫ p in elemRegion t.coords, f x 0 t p ^ 2)
        + ((∫ p in elemRegion t.coords, f x 1 t p ^ 2) + ∫ p in elemRegion t.coords, f x 2 t p ^ 2))) :
    let τ := fun i => scaled (fun p => (matFrom mat r₀ p).elasticModulus) (k' i) (G i) (ρ i)
    ∃ (B : BodyMesh Ω mat c → ℝ) (T : BodyMesh Ω mat c → ℝ × ℝ → ℝ), (∀ κ, Tendsto B (fineFilter Ω mat c κ) (𝓝 0)) ∧
      ∀ x : BodyMesh Ω mat c, MemLp (T x) 2 (volume.restrict (region (centred s₀ r₀))) ∧ SameField (centred x.1.1 x.1.2.1) (rep x) (T x) ∧
        ∫ p in region (centred s₀ r₀), (T x p - (τ 0 p + (τ 1 p + τ 2 p))) ^ 2 ≤ 1e-19 * ((∫ p in region (centred s₀ r₀), τ 0 p ^ 2)
          + ((∫ p in region (centred s₀ r₀), τ 1 p ^ 2) + ∫ p in region (centred s₀ r₀), τ 2 p ^ 2)) + B x := by
  intro τ
  have hn := solved_nice h₀ h₀
  obtain ⟨b, hb⟩ := modulus_bounded hn
  choose T mT sT using fun x : BodyMesh Ω mat c => glue_memLp (solved_nice h₀ x.2.1).mesh.once (cr x)
  refine ⟨fun x => 7 * ∑ i, (2 * b ^ 2 * k x i ^ 2 * (∫ p in region (centred s₀ r₀), (F x i p - G i p) ^ 2)
          + 2 * b ^ 2 * (k x i - k' i) ^ 2 * ∫ p in region (centred s₀ r₀), (G i p + ρ i p) ^ 2), T, fun κ => ?_, fun x => ?_⟩
  · have : Tendsto (fun x => 7 * ∑ i, (2 * b ^ 2 * k x i ^ 2 * (∫ p in region (centred s₀ r₀), (F x i p - G i p) ^ 2)
          + 2 * b ^ 2 * (k x i - k' i) ^ 2 * ∫ p in region (centred s₀ r₀), (G i p + ρ i p) ^ 2)) (fineFilter Ω mat c κ)
        (𝓝 (7 * ∑ i, (2 * b ^ 2 * k' i ^ 2 * 0
          + 2 * b ^ 2 * (k' i - k' i) ^ 2 * ∫ p in region (centred s₀ r₀), (G i p + ρ i p) ^ 2))) := by
      refine (tendsto_finsetSum _ fun i _ => ?_).const_mul 7
      exact ((((hk κ i).pow 2).const_mul _).mul (hl κ i)).add (((((hk κ i).sub_const _).pow 2).const_mul _).mul_const _)
    simpa using this
  · have m := mT x
    rw [hn.region_eq (solved_nice h₀ x.2.1)] at m
    exact ⟨m, sT x, direction_near hn (solved_nice h₀ x.2.1) (modulus_measurable hn) hb (k x) k' (hF x) hG hρ (cr x) (cf x) (sf x) (near x) m (sT x)⟩

/-! ### The gradients of the three functions -/

/-- `(G1, G2)` is the gradient of a displacement and solves the weak equation with the load `l`. -/
structure SolvesLimit (R : Set (ℝ × ℝ)) (E : ℝ × ℝ → ℝ) (l : ℝ × ℝ → ℝ × ℝ × ℝ) (G1 G2 : ℝ × ℝ → ℝ) : Prop where
  square : ∀ v, Displacement R v → MemLp v 2 (volume.restrict R) ∧ MemLp (dX v) 2 (volume.restrict R) ∧ MemLp (dY v) 2 (volume.restrict R)
  weak : ∀ v, Displacement R v → (∫ p in R, E p * G1 p * dX v p) + (∫ p in R, E p * G2 p * dY v p)
    = (∫ p in R, E p * (l p).1 * v p) + ((∫ p in R, E p * (l p).2.1 * dX v p) + ∫ p in R, E p * (l p).2.2 * dY v p)
  compatible : ∀ (k : ℝ) (g : ℝ × ℝ → ℝ × ℝ), (∀ᵐ p ∂volume.restrict R, g p = (k * G1 p, k * G2 p)) → Compatible R g

instance (κ : ℝ) : (fineFilter Ω mat c κ).IsCountablyGenerated := by
  refine isCountablyGenerated_of_seq ⟨fun k : ℕ => {x | FineMesh x.1.1.elements (1 / ((k : ℝ) + 1)) κ}, le_antisymm ?_ ?_⟩
  · exact le_iInf fun k => le_principal_iff.2 ((fineFilter_basis κ).mem_of_mem (mem_Ioi.2 (by positivity)))
  · refine le_iInf₂ fun δ hδ => ?_
    obtain ⟨k, hk⟩ := exists_nat_one_div_lt (mem_Ioi.1 hδ)
    exact (iInf_le _ k).trans (principal_mono.2 fun x hx => fineMesh_le hx hk.le)

theorem load_fields (h₀ : SolvedMesh Ω mat s₀ r₀ w₀) (hcon : IsPreconnected (interior (region s₀.elements)))
    {l : ℝ × ℝ → ℝ × ℝ × ℝ} (hl : Continuous l) (hb : Balanced (fromPoint Ω r₀) (matFrom mat r₀) l)
    {u : ∀ x : BodyMesh Ω mat c, Fin x.1.1.numNodes → ℝ} {q : ∀ x : BodyMesh Ω mat c, Tri6 x.1.1.numNodes → ℝ × ℝ → ℝ}
    (hq : ∀ x : BodyMesh Ω mat c, WeakSol l (centred x.1.1 x.1.2.1) (u x) (q x)) :
    ∃ (G1 G2 : ℝ × ℝ → ℝ) (F1 F2 : BodyMesh Ω mat c → ℝ × ℝ → ℝ),
      MemLp G1 2 (volume.restrict (region (centred s₀ r₀))) ∧ MemLp G2 2 (volume.restrict (region (centred s₀ r₀))) ∧
      (∀ x, MemLp (F1 x) 2 (volume.restrict (region (centred s₀ r₀)))) ∧ (∀ x, MemLp (F2 x) 2 (volume.restrict (region (centred s₀ r₀)))) ∧
      (∀ x : BodyMesh Ω mat c, SameField (centred x.1.1 x.1.2.1) (fun t => dX (q x t)) (F1 x)) ∧
      (∀ x : BodyMesh Ω mat c, SameField (centred x.1.1 x.1.2.1) (fun t => dY (q x t)) (F2 x)) ∧
      (∀ κ, Tendsto (fun x => ∫ p in region (centred s₀ r₀), (F1 x p - G1 p) ^ 2) (fineFilter Ω mat c κ) (𝓝 0)) ∧
      (∀ κ, Tendsto (fun x => ∫ p in region (centred s₀ r₀), (F2 x p - G2 p) ^ 2) (fineFilter Ω mat c κ) (𝓝 0)) ∧
      (∀ κ, (fineFilter Ω mat c κ).NeBot → SolvesLimit (region (centred s₀ r₀)) (fun p => (matFrom mat r₀ p).elasticModulus) l G1 G2) ∧
      ∀ (κ : ℝ) (g : ℝ × ℝ → ℝ), Continuous g →
        Tendsto (fun x : BodyMesh Ω mat c => wInt (centred x.1.1 x.1.2.1) fun t p => g p * dX (q x t) p) (fineFilter Ω mat c κ)
          (𝓝 (∫ p in region (centred s₀ r₀), (matFrom mat r₀ p).elasticModulus * g p * G1 p)) ∧
        Tendsto (fun x : BodyMesh Ω mat c => wInt (centred x.1.1 x.1.2.1) fun t p => g p * dY (q x t) p) (fineFilter Ω mat c κ)
          (𝓝 (∫ p in region (centred s₀ r₀), (matFrom mat r₀ p).elasticModulus * g p * G2 p)) := by
  have hn := solved_nice h₀ h₀
  obtain ⟨G1, G2, m1, m2, lim⟩ := grad_limit hn (connected_centred hcon) hl hb
  choose F1 f1 s1 using fun x : BodyMesh Ω mat c => glue_memLp (solved_nice h₀ x.2.1).mesh.once (f := fun t => dX (q x t))
    fun t ht => PolyLE.continuous (dX_mem ((hq x).field t ht).1)
  choose F2 f2 s2 using fun x : BodyMesh Ω mat c => glue_memLp (solved_nice h₀ x.2.1).mesh.once (f := fun t => dY (q x t))
    fun t ht => PolyLE.continuous (dY_mem ((hq x).field t ht).1)
  have f1' : ∀ x, MemLp (F1 x) 2 (volume.restrict (region (centred s₀ r₀))) := fun x => by
    have := f1 x; rwa [hn.region_eq (solved_nice h₀ x.2.1)] at this
  have f2' : ∀ x, MemLp (F2 x) 2 (volume.restrict (region (centred s₀ r₀))) := fun x => by
    have := f2 x; rwa [hn.region_eq (solved_nice h₀ x.2.1)] at this
  have L1 : ∀ κ, Tendsto (fun x => ∫ p in region (centred s₀ r₀), (F1 x p - G1 p) ^ 2) (fineFilter Ω mat c κ) (𝓝 0) := fun κ =>
    fine_tendsto.2 fun ε hε => by
      obtain ⟨δ, hδ, k⟩ := lim κ ε hε
      refine ⟨δ, hδ, fun x hx => ?_⟩
      rw [sub_zero, abs_of_nonneg (integral_nonneg fun p => sq_nonneg _)]
      exact (k _ _ (solved_nice h₀ x.2.1) _ _ (hq x) (fineMesh_shift hx _ _) _ _ (f1' x) (f2' x) (s1 x) (s2 x)).1
  have L2 : ∀ κ, Tendsto (fun x => ∫ p in region (centred s₀ r₀), (F2 x p - G2 p) ^ 2) (fineFilter Ω mat c κ) (𝓝 0) := fun κ =>
    fine_tendsto.2 fun ε hε => by
      obtain ⟨δ, hδ, k⟩ := lim κ ε hε
      refine ⟨δ, hδ, fun x hx => ?_⟩
      rw [sub_zero, abs_of_nonneg (integral_nonneg fun p => sq_nonneg _)]
      exact (k _ _ (solved_nice h₀ x.2.1) _ _ (hq x) (fineMesh_shift hx _ _) _ _ (f1' x) (f2' x) (s1 x) (s2 x)).2
  obtain ⟨b, hbd⟩ := modulus_bounded hn
  have hM := fun x : BodyMesh Ω mat c => solved_nice h₀ x.2.1
  have wk : ∀ κ, (fineFilter Ω mat c κ).NeBot → ∀ v, Displacement (region (centred s₀ r₀)) v → _ := fun κ _ v hv =>
    weak_limit hn hM (L := fineFilter Ω mat c κ) (κ := κ) (fun δ hδ => by
      filter_upwards [(fineFilter_basis κ).mem_of_mem (mem_Ioi.2 hδ)] with x hx
      exact fineMesh_shift hx _ _) (modulus_measurable hn) hbd hl hq f1' f2' m1 m2 s1 s2 (L1 κ) (L2 κ) hv
  refine ⟨G1, G2, F1, F2, m1, m2, f1', f2', s1, s2, L1, L2, fun κ hne => ⟨fun v hv => (wk κ hne v hv).1, fun v hv => (wk κ hne v hv).2,
    fun k g hg => ?_⟩, fun κ g hg => ⟨?_, ?_⟩⟩
  · exact grad_compatible hn hM (L := fineFilter Ω mat c κ) (fun x => (hq x).field) f1' f2' m1 m2 s1 s2 (L1 κ) (L2 κ) k hg
  · exact moment_limit hn hM (modulus_measurable hn) hbd (fun x t ht => PolyLE.continuous (dX_mem ((hq x).field t ht).1)) f1' m1 s1 (L1 κ) hg
  · exact moment_limit hn hM (modulus_measurable hn) hbd (fun x t ht => PolyLE.continuous (dY_mem ((hq x).field t ht).1)) f2' m2 s2 (L2 κ) hg

/-- The torsion constant of a mesh by the moments of the warping function. -/
theorem j_moments (h : SolvedMesh Ω mat s r w) {q : Tri6 s.numNodes → ℝ × ℝ → ℝ} (hq : FEField (centred s r) w.omega q) :
    w.j = r.cent.ixxC + r.cent.iyyC - (wInt (centred s r) fun t p => p.2 * dX (q t) p) + wInt (centred s r) fun t p => p.1 * dY (q t) p := by
  obtain ⟨sv, ty, hw⟩ := h.warp
  have hS := centroidalSetup h.good h.physical h.geom
  have h1 := (warping_ok hw).2.2.2.1
  have h2 : dotN w.omega (assembleTorsion (centred s r)).2 = _ := load_form hS.physical.proper hS.distinct hq
  have h3 : (wInt (centred s r) fun t p => dX (q t) p * p.2 - dY (q t) p * p.1)
      = (wInt (centred s r) fun t p => p.2 * dX (q t) p) + wInt (centred s r) fun t p => -1 * (p.1 * dY (q t) p) := by
    rw [← wInt_addc]
    · exact wInt_congr fun t _ p => by ring
    · exact fun t ht => continuous_snd.mul (PolyLE.continuous (dX_mem (hq t ht).1))
    · exact fun t ht => (continuous_fst.mul (PolyLE.continuous (dY_mem (hq t ht).1))).const_mul _
  rw [wInt_smul] at h3
  have h4 : w.j = r.cent.ixxC + r.cent.iyyC - dotN w.omega (assembleTorsion (centred s r)).2 := h1
  rw [h4, h2, h3]
  ring

/-- Second moments as integrals over the body. -/
theorem body_moments (h₀ : SolvedMesh Ω mat s₀ r₀ w₀) :
    (∫ p in region (centred s₀ r₀), (matFrom mat r₀ p).elasticModulus * p.2 * p.2) = r₀.cent.ixxC ∧
    (∫ p in region (centred s₀ r₀), (matFrom mat r₀ p).elasticModulus * p.1 * p.1) = r₀.cent.iyyC ∧
    (∫ p in region (centred s₀ r₀), (matFrom mat r₀ p).elasticModulus * p.1 * p.2) = r₀.cent.ixyC := by
  have hS := centroidalSetup h₀.good h₀.physical h₀.geom
  have key : ∀ g : ℝ × ℝ → ℝ, Continuous g → (∫ p in region (centred s₀ r₀), (matFrom mat r₀ p).elasticModulus * g p)
      = wInt (centred s₀ r₀) fun _ p => g p := fun g hg =>
    (wInt_glue (solved_nice h₀ h₀) (fun _ _ => hg) fun t _ => ae_of_all _ fun p _ => rfl).symm
  refine ⟨?_, ?_, ?_⟩
  · rw [← hS.ixx]
    refine Eq.trans ?_ (key (fun p => p.2 ^ 2) (by fun_prop))
    exact integral_congr_ae (ae_of_all _ fun p => by simp only; ring)
  · rw [← hS.iyy]
    refine Eq.trans ?_ (key (fun p => p.1 ^ 2) (by fun_prop))
    exact integral_congr_ae (ae_of_all _ fun p => by simp only; ring)
  · rw [← hS.ixy]
    refine Eq.trans ?_ (key (fun p => p.1 * p.2) (by fun_prop))
    exact integral_congr_ae (ae_of_all _ fun p => by simp only; ring)

theorem modulus_positive (h : NiceMesh Ω mat els) : ∀ᵐ p ∂volume.restrict (region els), 0 < (mat p).elasticModulus := by
  refine (ae_restrict_iff' (isClosed_region _).measurableSet).2 ?_
  have ae : ∀ᵐ p, ∀ t ∈ els, p ∈ elemRegion t.coords → mat p = t.material :=
    (ae_ball_iff (List.finite_toSet els).countable).2 h.mesh.material
  filter_upwards [ae] with p hp hpm
  obtain ⟨t, ht, hpt⟩ := hpm
  rw [hp t ht hpt]
  exact h.modulus t ht

/-! ### All three actions, in coordinates from the centroid -/

open Classical in
/-- The properties that a stress analysis of the section takes from the earlier analyses. -/
noncomputable def stressEnvOf (s : Section) (r : GeomResults) (w : WarpResults s.numNodes) : StressEnv :=
  ⟨if isComposite s.materials then r.sums.ea else r.sums.area, r.cx, r.cy, r.cent.ixxC, r.cent.iyyC, r.cent.ixyC, r.cent.i11, r.cent.i22,
    r.cent.phi, w.j, (warpIn s.materials r).nu, w.deltaS⟩

/-- The shear stresses that the code reports at a point of an element. -/
noncomputable def reportedShear (s : Section) (r : GeomResults) (w : WarpResults s.numNodes) (a : Actions) (t : Tri6 s.numNodes) (p : ℝ × ℝ) :
    ℝ × ℝ :=
  (t.localElementStress p a (stressEnvOf s r w) (t.local w.omega) (t.local w.psi) (t.local w.phiS)).2

/-- The same in coordinates from the centroid. -/
noncomputable def centredShear (s : Section) (r : GeomResults) (w : WarpResults s.numNodes) (a : Actions) (t : Tri6 s.numNodes) (p : ℝ × ℝ) :
    ℝ × ℝ :=
  (t.localElementStress p a { stressEnvOf s r w with cx := 0, cy := 0 } (t.local w.omega) (t.local w.psi) (t.local w.phiS)).2

theorem reportedShear_shift (s : Section) (r : GeomResults) (w : WarpResults s.numNodes) (a : Actions) (t : Tri6 s.numNodes) (p : ℝ × ℝ) :
    reportedShear s r w a t p = centredShear s r w a (t.shiftBy r.cx r.cy) (p.1 - r.cx, p.2 - r.cy) := by
  rw [reportedShear, localElementStress_shift]
  rfl

theorem centredShear_cont {t : Tri6 s.numNodes} (hp : Proper t.coords) (a : Actions) :
    Continuous (fun p => (centredShear s r w a t p).1) ∧ Continuous fun p => (centredShear s r w a t p).2 := by
  have ex := fun f : Combined → ℝ => exists_interpolates hp
    fun k => f (combined (elStress a { stressEnvOf s r w with cx := 0, cy := 0 } ⟨w.omega, w.psi, w.phiS⟩ t k))
  obtain ⟨q1, h1⟩ := ex (·.zz)
  obtain ⟨q2, h2⟩ := ex (·.zx)
  obtain ⟨q3, h3⟩ := ex (·.zy)
  have e := fun p => localElementStress_interp hp a _ _ p h1 h2 h3
  constructor
  · refine (PolyLE.continuous h2.1).congr fun p => ?_
    exact (congrArg (fun z : ℝ × ℝ × ℝ => z.2.1) (e p)).symm
  · refine (PolyLE.continuous h3.1).congr fun p => ?_
    exact (congrArg (fun z : ℝ × ℝ × ℝ => z.2.2) (e p)).symm

theorem solved_deltaS (h₀ : SolvedMesh Ω mat s₀ r₀ w₀) (h : SolvedMesh Ω mat s r w)
    (hc : isComposite s.materials ↔ isComposite s₀.materials) : w.deltaS = (warpIn s₀.materials r₀).deltaS := by
  obtain ⟨sv, ty, hw⟩ := h.warp
  rw [(warping_ok hw).2.2.2.2.1, solved_warpIn h₀ h hc]

/-- The fields are those of Saint-Venant's theory: of torsion, with the twist of the limit of the torsion constants, and of flexure by unit
shear forces along the axes. -/
structure SaintVenant (R : Set (ℝ × ℝ)) (E : ℝ × ℝ → ℝ) (p₀ : ℝ × ℝ) (Ω : Set (ℝ × ℝ)) (mat : ℝ × ℝ → Material) (s₀ : Section) (r₀ : GeomResults)
    (τM τx τy : ℝ × ℝ → ℝ × ℝ) : Prop where
  torsion : ∃ J, MeshLimit Ω mat (isComposite s₀.materials) (fun _ _ w => w.j) J ∧ SaintVenantTorsion R E p₀ (1 / J) τM
  flexure : (warpIn s₀.materials r₀).deltaS ≠ 0 →
    SaintVenantFlexure R E p₀ (warpIn s₀.materials r₀).nu (r₀.cent.ixxC / (r₀.cent.ixxC * r₀.cent.iyyC - r₀.cent.ixyC ^ 2))
        (-r₀.cent.ixyC / (r₀.cent.ixxC * r₀.cent.iyyC - r₀.cent.ixyC ^ 2)) (1, 0) τx ∧
      SaintVenantFlexure R E p₀ (warpIn s₀.materials r₀).nu (-r₀.cent.ixyC / (r₀.cent.ixxC * r₀.cent.iyyC - r₀.cent.ixyC ^ 2))
        (r₀.cent.iyyC / (r₀.cent.ixxC * r₀.cent.iyyC - r₀.cent.ixyC ^ 2)) (0, 1) τy

/-- Displacements and their gradients are square integrable. -/
def GradSquare (R : Set (ℝ × ℝ)) : Prop := ∀ v, Displacement R v →
  MemLp v 2 (volume.restrict R) ∧ MemLp (dX v) 2 (volume.restrict R) ∧ MemLp (dY v) 2 (volume.restrict R)

/-- The parts of the exact shear stresses in direction `x` of a mesh, in coordinates from the centroid. -/
theorem centred_limit (h₀ : SolvedMesh Ω mat s₀ r₀ w₀) (hcon : IsPreconnected (interior (region s₀.elements))) :
    ∃ τM τx τy : ℝ × ℝ → ℝ × ℝ, SquareInt (region (centred s₀ r₀)) τM ∧ SquareInt (region (centred s₀ r₀)) τx ∧
      SquareInt (region (centred s₀ r₀)) τy ∧
      (∀ κ, (fineFilter Ω mat (isComposite s₀.materials) κ).NeBot → SaintVenant (region (centred s₀ r₀))
        (fun p => (matFrom mat r₀ p).elasticModulus) 0 Ω mat s₀ r₀ τM τx τy ∧ GradSquare (region (centred s₀ r₀))) ∧ ∀ a : Actions,
      ∃ (B : BodyMesh Ω mat (isComposite s₀.materials) → ℝ) (T : BodyMesh Ω mat (isComposite s₀.materials) → ℝ × ℝ → ℝ × ℝ),
        (∀ κ, Tendsto B (fineFilter Ω mat _ κ) (𝓝 0)) ∧
        ∀ x : BodyMesh Ω mat (isComposite s₀.materials), SquareInt (region (centred s₀ r₀)) (T x) ∧
          (∀ t ∈ centred x.1.1 x.1.2.1, ∀ᵐ p, p ∈ elemRegion t.coords → T x p = centredShear x.1.1 x.1.2.1 x.1.2.2 a t p) ∧
          sizeSq (region (centred s₀ r₀)) (fun p => T x p - superposed a τM τx τy p) ≤ B x
            + 1e-19 * (a.mzz ^ 2 * sizeSq (region (centred s₀ r₀)) τM + a.vx ^ 2 * sizeSq (region (centred s₀ r₀)) τx
              + a.vy ^ 2 * sizeSq (region (centred s₀ r₀)) τy) := by
  have hn := solved_nice h₀ h₀
  set W := warpIn s₀.materials r₀ with hW
  set R := region (centred s₀ r₀) with hR
  choose om hom using fun x : BodyMesh Ω mat (isComposite s₀.materials) => omega_sol x.2.1
  choose ps hps' using fun x : BodyMesh Ω mat (isComposite s₀.materials) => psi_sol x.2.1
  choose ph hph' using fun x : BodyMesh Ω mat (isComposite s₀.materials) => phi_sol x.2.1
  have hps : ∀ x, WeakSol (psiLoad W) (centred x.1.1 x.1.2.1) x.1.2.2.psi (ps x) := fun x => by
    have := hps' x; rwa [solved_warpIn h₀ x.2.1 x.2.2] at this
  have hph : ∀ x, WeakSol (phiLoad W) (centred x.1.1 x.1.2.1) x.1.2.2.phiS (ph x) := fun x => by
    have := hph' x; rwa [solved_warpIn h₀ x.2.1 x.2.2] at this
  obtain ⟨GM1, GM2, FM1, FM2, gM1, gM2, fM1, fM2, sM1, sM2, lM1, lM2, slM, moM⟩ := load_fields h₀ hcon torsionLoad_cont (balanced_zero fun _ => rfl)
    fun x => (hom x).1
  obtain ⟨Gx1, Gx2, Fx1, Fx2, gx1, gx2, fx1, fx2, sx1, sx2, lx1, lx2, slx, mox⟩ := load_fields h₀ hcon (psiLoad_cont W)
    (balanced_linear h₀ (2 * (1 + W.nu) * W.ixx) (-(2 * (1 + W.nu) * W.ixy)) fun p => by simp only [psiLoad]; ring) hps
  obtain ⟨Gy1, Gy2, Fy1, Fy2, gy1, gy2, fy1, fy2, sy1, sy2, ly1, ly2, sly, moy⟩ := load_fields h₀ hcon (phiLoad_cont W)
    (balanced_linear h₀ (-(2 * (1 + W.nu) * W.ixy)) (2 * (1 + W.nu) * W.iyy) fun p => by simp only [phiLoad]; ring) hph
  obtain ⟨J, hJ, hJl⟩ := C93_torsion h₀
  have jl : ∀ κ, Tendsto (fun x : BodyMesh Ω mat (isComposite s₀.materials) => x.1.2.2.j) (fineFilter Ω mat _ κ) (𝓝 J) := fun κ =>
    fine_tendsto.2 fun ε hε => by
      obtain ⟨δ, hδ, k⟩ := hJl κ ε hε
      refine ⟨δ, hδ, fun x hx => ?_⟩
      obtain ⟨k1, k2⟩ := k _ _ _ x.2.1
      rw [abs_of_nonneg (by linarith)]
      linarith [k2 hx]
  set E : ℝ × ℝ → ℝ := fun p => (matFrom mat r₀ p).elasticModulus with hE
  have mE : AEStronglyMeasurable E (volume.restrict R) := modulus_measurable hn
  obtain ⟨b, hb⟩ := modulus_bounded hn
  let P := fun p : ℝ × ℝ => shearParameter p.1 p.2 W.ixx W.iyy W.ixy
  let ρ1 : Fin 3 → ℝ × ℝ → ℝ := ![fun p => -p.2, fun p => -(W.nu / 2 * (P p).d1), fun p => -(W.nu / 2 * (P p).h1)]
  let ρ2 : Fin 3 → ℝ × ℝ → ℝ := ![fun p => p.1, fun p => -(W.nu / 2 * (P p).d2), fun p => -(W.nu / 2 * (P p).h2)]
  have m1 : ∀ i, MemLp (ρ1 i) 2 (volume.restrict R) := by
    intro i
    refine memLp_cont ?_ _
    fin_cases i <;> simp only [ρ1, P, shearParameter] <;> simp <;> fun_prop
  have m2 : ∀ i, MemLp (ρ2 i) 2 (volume.restrict R) := by
    intro i
    refine memLp_cont ?_ _
    fin_cases i <;> simp only [ρ2, P, shearParameter] <;> simp <;> fun_prop
  let G1 : Fin 3 → ℝ × ℝ → ℝ := ![GM1, Gx1, Gy1]
  let G2 : Fin 3 → ℝ × ℝ → ℝ := ![GM2, Gx2, Gy2]
  let k0 : Fin 3 → ℝ := ![1 / J, 1 / W.deltaS, 1 / W.deltaS]
  have hG1 : ∀ i, MemLp (G1 i) 2 (volume.restrict R) := by intro i; fin_cases i <;> [exact gM1; exact gx1; exact gy1]
  have hG2 : ∀ i, MemLp (G2 i) 2 (volume.restrict R) := by intro i; fin_cases i <;> [exact gM2; exact gx2; exact gy2]
  let τ : Fin 3 → ℝ × ℝ → ℝ × ℝ := fun i p => (scaled E (k0 i) (G1 i) (ρ1 i) p, scaled E (k0 i) (G2 i) (ρ2 i) p)
  have hτ : ∀ i, SquareInt R (τ i) := fun i => ⟨scaled_memLp mE hb (hG1 i) (m1 i) _, scaled_memLp mE hb (hG2 i) (m2 i) _⟩
  have sv : ∀ κ, (fineFilter Ω mat (isComposite s₀.materials) κ).NeBot →
      SaintVenant R E 0 Ω mat s₀ r₀ (τ 0) (τ 1) (τ 2) ∧ GradSquare R := by
    intro κ hne
    refine ⟨?_, (slM κ hne).square⟩
    have hpos : ∀ᵐ p ∂volume.restrict R, 0 < E p := modulus_positive hn
    obtain ⟨mxx, myy, mxy⟩ := body_moments h₀
    have hS := centroidalSetup h₀.good h₀.physical h₀.geom
    refine ⟨⟨J, meshLimit_iff.2 jl, torsion_saint_venant mE hb hpos gM1 gM2 (fun v hv => ((slM κ hne).square v hv).2) (slM κ hne).weak hJ.ne' ?_ (slM κ hne).compatible⟩,
      fun hds => ⟨?_, ?_⟩⟩
    · rw [mxx, myy]
      refine tendsto_nhds_unique ?_ (jl κ)
      refine Tendsto.congr (fun x => ?_) ((tendsto_const_nhds (x := r₀.cent.ixxC + r₀.cent.iyyC)).sub
        (moM κ (fun p => p.2) continuous_snd).1 |>.add (moM κ (fun p => p.1) continuous_fst).2)
      have hw := solved_warpIn h₀ x.2.1 x.2.2
      have e1 : x.1.2.1.cent.ixxC = r₀.cent.ixxC := congrArg WarpIn.ixx hw
      have e2 : x.1.2.1.cent.iyyC = r₀.cent.iyyC := congrArg WarpIn.iyy hw
      rw [j_moments x.2.1 (hom x).1.field, e1, e2]
    · have hν : 1 + W.nu ≠ 0 := fun h => hds (by change 2 * (1 + W.nu) * _ = 0; rw [h]; ring)
      have hD : W.ixx * W.iyy - W.ixy ^ 2 ≠ 0 := hS.det.ne'
      have := flexure_saint_venant mE hb hpos gx1 gx2 (ν := W.nu) (α := W.ixx / (W.ixx * W.iyy - W.ixy ^ 2))
        (β := -W.ixy / (W.ixx * W.iyy - W.ixy ^ 2)) hν hD (psiLoad_cont W) (fun p => by
          simp only [psiLoad, shearParameter, Prod.mk.injEq]
          refine ⟨?_, ?_, ?_⟩ <;> field_simp <;> ring) (fun v hv => ((slx κ hne).square v hv).2) (slx κ hne).weak mxx myy mxy (slx κ hne).compatible
      have hV : (1, 0) = (W.ixx / (W.ixx * W.iyy - W.ixy ^ 2) * W.iyy + -W.ixy / (W.ixx * W.iyy - W.ixy ^ 2) * W.ixy,
          W.ixx / (W.ixx * W.iyy - W.ixy ^ 2) * W.ixy + -W.ixy / (W.ixx * W.iyy - W.ixy ^ 2) * W.ixx) :=
        Prod.ext (by simp only; field_simp; ring) (by simp only; ring)
      rw [hV]
      exact this
    · have hν : 1 + W.nu ≠ 0 := fun h => hds (by change 2 * (1 + W.nu) * _ = 0; rw [h]; ring)
      have hD : W.ixx * W.iyy - W.ixy ^ 2 ≠ 0 := hS.det.ne'
      have := flexure_saint_venant mE hb hpos gy1 gy2 (ν := W.nu) (α := -W.ixy / (W.ixx * W.iyy - W.ixy ^ 2))
        (β := W.iyy / (W.ixx * W.iyy - W.ixy ^ 2)) hν hD (phiLoad_cont W) (fun p => by
          simp only [phiLoad, shearParameter, Prod.mk.injEq]
          have hD' : W.iyy * W.ixx - W.ixy ^ 2 ≠ 0 := by rwa [mul_comm]
          refine ⟨?_, ?_, ?_⟩ <;> field_simp <;> ring) (fun v hv => ((sly κ hne).square v hv).2) (sly κ hne).weak mxx myy mxy (sly κ hne).compatible
      have hV : (0, 1) = (-W.ixy / (W.ixx * W.iyy - W.ixy ^ 2) * W.iyy + W.iyy / (W.ixx * W.iyy - W.ixy ^ 2) * W.ixy,
          -W.ixy / (W.ixx * W.iyy - W.ixy ^ 2) * W.ixy + W.iyy / (W.ixx * W.iyy - W.ixy ^ 2) * W.ixx) :=
        Prod.ext (by simp only; ring) (by simp only; field_simp; ring)
      rw [hV]
      exact this
  refine ⟨τ 0, τ 1, τ 2, hτ 0, hτ 1, hτ 2, sv, fun a => ?_⟩
  let act : Fin 3 → ℝ := ![a.mzz, a.vx, a.vy]
  let k : BodyMesh Ω mat (isComposite s₀.materials) → Fin 3 → ℝ := fun x => ![a.mzz / x.1.2.2.j, a.vx / W.deltaS, a.vy / W.deltaS]
  have hk : ∀ κ i, Tendsto (fun x => k x i) (fineFilter Ω mat _ κ) (𝓝 (act i * k0 i)) := by
    intro κ i
    fin_cases i
    · have := (tendsto_const_nhds (x := a.mzz)).div (jl κ) hJ.ne'
      rwa [div_eq_mul_one_div a.mzz J] at this
    · refine tendsto_const_nhds.congr fun x => ?_
      exact (div_eq_mul_one_div _ _).symm
    · refine tendsto_const_nhds.congr fun x => ?_
      exact (div_eq_mul_one_div _ _).symm
  let e := fun x : BodyMesh Ω mat (isComposite s₀.materials) => { stressEnvOf x.1.1 x.1.2.1 x.1.2.2 with cx := 0, cy := 0 }
  let fl := fun (x : BodyMesh Ω mat (isComposite s₀.materials)) (t : Tri6 x.1.1.numNodes) (p : ℝ × ℝ) =>
    fieldAt t.material.elasticModulus a (e x) (om x t) (ps x t) (ph x t) p
  have poly : ∀ x : BodyMesh Ω mat (isComposite s₀.materials), ∀ t ∈ centred x.1.1 x.1.2.1, ∀ g ∈ individual, Continuous fun p => g (fl x t p) := fun x t ht g hg =>
    PolyLE.continuous (fieldAt_poly _ a (e x) ((hom x).1.field t ht).1 ((hps x).field t ht).1 ((hph x).field t ht).1 g hg)
  have near := fun (x : BodyMesh Ω mat (isComposite s₀.materials)) (t : Tri6 x.1.1.numNodes) (ht : t ∈ centred x.1.1 x.1.2.1) =>
    rep_near ((solved_nice h₀ x.2.1).proper t ht) a (e := e x) rfl rfl ⟨x.1.2.2.omega, x.1.2.2.psi, x.1.2.2.phiS⟩
      ((hom x).1.field t ht) ((hps x).field t ht) ((hph x).field t ht)
  have hen : ∀ x, (e x).deltaS = W.deltaS ∧ (e x).nu = W.nu ∧ (e x).ixx = W.ixx ∧ (e x).iyy = W.iyy ∧ (e x).ixy = W.ixy := fun x => by
    have hw := solved_warpIn h₀ x.2.1 x.2.2
    exact ⟨solved_deltaS h₀ x.2.1 x.2.2, congrArg WarpIn.nu hw, congrArg WarpIn.ixx hw, congrArg WarpIn.iyy hw, congrArg WarpIn.ixy hw⟩
  have hmod := fun x : BodyMesh Ω mat (isComposite s₀.materials) => (solved_nice h₀ x.2.1).mesh.material
  obtain ⟨B1, T1, b1, h1⟩ := direction_limit h₀ hk (F := fun x => ![FM1 x, Fx1 x, Fy1 x]) (G := G1) (ρ := ρ1)
    (by intro x i; fin_cases i <;> [exact fM1 x; exact fx1 x; exact fy1 x]) hG1 m1
    (by intro κ i; fin_cases i <;> [exact lM1 κ; exact lx1 κ; exact ly1 κ])
    (rep := fun x t p => (centredShear x.1.1 x.1.2.1 x.1.2.2 a t p).1)
    (fun x t ht => (centredShear_cont ((solved_nice h₀ x.2.1).proper t ht) a).1)
    (f := fun x => ![fun t p => (fl x t p).zxMzz, fun t p => (fl x t p).zxVx, fun t p => (fl x t p).zxVy])
    (by
      intro x i t ht
      fin_cases i <;> [exact poly x t ht (·.zxMzz) (by simp [individual]); exact poly x t ht (·.zxVx) (by simp [individual]);
        exact poly x t ht (·.zxVy) (by simp [individual])])
    (by
      intro x i t ht
      obtain ⟨e1, e2, e3, e4, e5⟩ := hen x
      fin_cases i
      · filter_upwards [sM1 x t ht, hmod x t ht] with p p1 p2 hp
        change E p * (a.mzz / x.1.2.2.j * (FM1 x p + -p.2)) = t.material.elasticModulus * (a.mzz / x.1.2.2.j * (dX (om x t) p - p.2))
        rw [p1 hp, hE]
        simp only
        rw [p2 hp]
        ring
      · filter_upwards [sx1 x t ht, hmod x t ht] with p p1 p2 hp
        change E p * (a.vx / W.deltaS * (Fx1 x p + -(W.nu / 2 * (P p).d1))) = t.material.elasticModulus * (a.vx / (e x).deltaS
          * (dX (ps x t) p - (e x).nu / 2 * (shearParameter p.1 p.2 (e x).ixx (e x).iyy (e x).ixy).d1))
        rw [p1 hp, hE, e1, e2, e3, e4, e5]
        simp only
        rw [p2 hp]
        ring
      · filter_upwards [sy1 x t ht, hmod x t ht] with p p1 p2 hp
        change E p * (a.vy / W.deltaS * (Fy1 x p + -(W.nu / 2 * (P p).h1))) = t.material.elasticModulus * (a.vy / (e x).deltaS
          * (dX (ph x t) p - (e x).nu / 2 * (shearParameter p.1 p.2 (e x).ixx (e x).iyy (e x).ixy).h1))
        rw [p1 hp, hE, e1, e2, e3, e4, e5]
        simp only
        rw [p2 hp]
        ring)
    (fun x t ht => (near x t ht).1)
  obtain ⟨B2, T2, b2, h2⟩ := direction_limit h₀ hk (F := fun x => ![FM2 x, Fx2 x, Fy2 x]) (G := G2) (ρ := ρ2)
    (by intro x i; fin_cases i <;> [exact fM2 x; exact fx2 x; exact fy2 x]) hG2 m2
    (by intro κ i; fin_cases i <;> [exact lM2 κ; exact lx2 κ; exact ly2 κ])
    (rep := fun x t p => (centredShear x.1.1 x.1.2.1 x.1.2.2 a t p).2)
    (fun x t ht => (centredShear_cont ((solved_nice h₀ x.2.1).proper t ht) a).2)
    (f := fun x => ![fun t p => (fl x t p).zyMzz, fun t p => (fl x t p).zyVx, fun t p => (fl x t p).zyVy])
    (by
      intro x i t ht
      fin_cases i <;> [exact poly x t ht (·.zyMzz) (by simp [individual]); exact poly x t ht (·.zyVx) (by simp [individual]);
        exact poly x t ht (·.zyVy) (by simp [individual])])
    (by
      intro x i t ht
      obtain ⟨e1, e2, e3, e4, e5⟩ := hen x
      fin_cases i
      · filter_upwards [sM2 x t ht, hmod x t ht] with p p1 p2 hp
        change E p * (a.mzz / x.1.2.2.j * (FM2 x p + p.1)) = t.material.elasticModulus * (a.mzz / x.1.2.2.j * (dY (om x t) p + p.1))
        rw [p1 hp, hE]
        simp only
        rw [p2 hp]
      · filter_upwards [sx2 x t ht, hmod x t ht] with p p1 p2 hp
        change E p * (a.vx / W.deltaS * (Fx2 x p + -(W.nu / 2 * (P p).d2))) = t.material.elasticModulus * (a.vx / (e x).deltaS
          * (dY (ps x t) p - (e x).nu / 2 * (shearParameter p.1 p.2 (e x).ixx (e x).iyy (e x).ixy).d2))
        rw [p1 hp, hE, e1, e2, e3, e4, e5]
        simp only
        rw [p2 hp]
        ring
      · filter_upwards [sy2 x t ht, hmod x t ht] with p p1 p2 hp
        change E p * (a.vy / W.deltaS * (Fy2 x p + -(W.nu / 2 * (P p).h2))) = t.material.elasticModulus * (a.vy / (e x).deltaS
          * (dY (ph x t) p - (e x).nu / 2 * (shearParameter p.1 p.2 (e x).ixx (e x).iyy (e x).ixy).h2))
        rw [p1 hp, hE, e1, e2, e3, e4, e5]
        simp only
        rw [p2 hp]
        ring)
    (fun x t ht => (near x t ht).2)
  refine ⟨fun x => B1 x + B2 x, fun x p => (T1 x p, T2 x p), fun κ => by simpa using (b1 κ).add (b2 κ), fun x => ⟨⟨(h1 x).1, (h2 x).1⟩, ?_, ?_⟩⟩
  · intro t ht
    filter_upwards [(h1 x).2.1 t ht, (h2 x).2.1 t ht] with p p1 p2 hp
    exact Prod.ext (p1 hp) (p2 hp)
  · have q1 := (h1 x).2.2
    have q2 := (h2 x).2.2
    simp only [scaled_mul] at q1 q2
    have sz : ∀ {f : ℝ × ℝ → ℝ × ℝ}, SquareInt R f → sizeSq R f = (∫ p in R, (f p).1 ^ 2) + ∫ p in R, (f p).2 ^ 2 := fun hf =>
      integral_add (memLp_sq_int hf.1) (memLp_sq_int hf.2)
    have hS : SquareInt R (superposed a (τ 0) (τ 1) (τ 2)) :=
      ⟨((hτ 0).1.const_mul _).add (((hτ 1).1.const_mul _).add ((hτ 2).1.const_mul _)),
        ((hτ 0).2.const_mul _).add (((hτ 1).2.const_mul _).add ((hτ 2).2.const_mul _))⟩
    have hD : SquareInt R (fun p => ((T1 x p, T2 x p) : ℝ × ℝ) - superposed a (τ 0) (τ 1) (τ 2) p) := ⟨(h1 x).1.sub hS.1, (h2 x).1.sub hS.2⟩
    rw [sz hD, sz (hτ 0), sz (hτ 1), sz (hτ 2)]
    simp only [mul_pow, integral_const_mul] at q1 q2
    simp only [Prod.fst_sub, Prod.snd_sub, superposed]
    change (∫ p in R, (T1 x p - (a.mzz * scaled E (k0 0) (G1 0) (ρ1 0) p + (a.vx * scaled E (k0 1) (G1 1) (ρ1 1) p
      + a.vy * scaled E (k0 2) (G1 2) (ρ1 2) p))) ^ 2) ≤ 1e-19 * (a.mzz ^ 2 * (∫ p in R, scaled E (k0 0) (G1 0) (ρ1 0) p ^ 2)
      + (a.vx ^ 2 * (∫ p in R, scaled E (k0 1) (G1 1) (ρ1 1) p ^ 2) + a.vy ^ 2 * ∫ p in R, scaled E (k0 2) (G1 2) (ρ1 2) p ^ 2)) + B1 x at q1
    change (∫ p in R, (T2 x p - (a.mzz * scaled E (k0 0) (G2 0) (ρ2 0) p + (a.vx * scaled E (k0 1) (G2 1) (ρ2 1) p
      + a.vy * scaled E (k0 2) (G2 2) (ρ2 2) p))) ^ 2) ≤ 1e-19 * (a.mzz ^ 2 * (∫ p in R, scaled E (k0 0) (G2 0) (ρ2 0) p ^ 2)
      + (a.vx ^ 2 * (∫ p in R, scaled E (k0 1) (G2 1) (ρ2 1) p ^ 2) + a.vy ^ 2 * ∫ p in R, scaled E (k0 2) (G2 2) (ρ2 2) p ^ 2)) + B2 x at q2
    simp only [τ]
    linarith

/-! ### In the coordinates of the geometry -/

theorem back_preserving (h₀ : SolvedMesh Ω mat s₀ r₀ w₀) :
    MeasurePreserving (fun p : ℝ × ℝ => p - (r₀.cx, r₀.cy)) (volume.restrict Ω) (volume.restrict (region (centred s₀ r₀))) := by
  have h := (measurePreserving_sub_right (volume : Measure (ℝ × ℝ)) (r₀.cx, r₀.cy)).restrict_preimage
    (isClosed_region (centred s₀ r₀)).measurableSet
  have e : (fun p : ℝ × ℝ => p - (r₀.cx, r₀.cy)) ⁻¹' region (centred s₀ r₀) = region s₀.elements := by
    change _ ⁻¹' region (shifted s₀.elements r₀.cx r₀.cy) = _
    rw [region_shift, ← preimage_comp]
    ext p
    simp
  rwa [e, Measure.restrict_congr_set h₀.mesh.covers] at h

theorem back_size (h₀ : SolvedMesh Ω mat s₀ r₀ w₀) (τ : ℝ × ℝ → ℝ × ℝ) :
    sizeSq Ω (fun p => τ (p - (r₀.cx, r₀.cy))) = sizeSq (region (centred s₀ r₀)) τ :=
  (back_preserving h₀).integral_comp (MeasurableEquiv.subRight (r₀.cx, r₀.cy)).measurableEmbedding fun p => (τ p).1 ^ 2 + (τ p).2 ^ 2

theorem back_square (h₀ : SolvedMesh Ω mat s₀ r₀ w₀) {τ : ℝ × ℝ → ℝ × ℝ} (h : SquareInt (region (centred s₀ r₀)) τ) :
    SquareInt Ω fun p => τ (p - (r₀.cx, r₀.cy)) :=
  ⟨h.1.comp_measurePreserving (back_preserving h₀), h.2.comp_measurePreserving (back_preserving h₀)⟩

/-- The shear stresses that the code reports on fine meshes come close, in mean square, to the superposition of the three fields. -/
def StressesConverge (Ω : Set (ℝ × ℝ)) (mat : ℝ × ℝ → Material) (s₀ : Section) (τM τx τy : ℝ × ℝ → ℝ × ℝ) : Prop :=
  ∀ (a : Actions) (κ ε : ℝ), 0 < ε → ∃ δ > 0, ∀ (s : Section) (r : GeomResults) (w : WarpResults s.numNodes), SolvedMesh Ω mat s r w →
    (isComposite s.materials ↔ isComposite s₀.materials) → FineMesh s.elements δ κ →
    ∃ T, SquareInt Ω T ∧ (∀ t ∈ s.elements, ∀ᵐ p, p ∈ elemRegion t.coords → T p = reportedShear s r w a t p) ∧
      sizeSq Ω (fun p => T p - superposed a τM τx τy p)
        ≤ ε + 1e-19 * (a.mzz ^ 2 * sizeSq Ω τM + a.vx ^ 2 * sizeSq Ω τx + a.vy ^ 2 * sizeSq Ω τy)

theorem limit_fields (h₀ : SolvedMesh Ω mat s₀ r₀ w₀) (hcon : IsPreconnected (interior (region s₀.elements))) :
    ∃ τM τx τy : ℝ × ℝ → ℝ × ℝ, (SquareInt Ω τM ∧ SquareInt Ω τx ∧ SquareInt Ω τy) ∧ StressesConverge Ω mat s₀ τM τx τy ∧
      ∀ κ, (fineFilter Ω mat (isComposite s₀.materials) κ).NeBot → SaintVenant (region s₀.elements) (fun p => (mat p).elasticModulus)
        (r₀.cx, r₀.cy) Ω mat s₀ r₀ τM τx τy ∧ GradSquare (region s₀.elements) := by
  obtain ⟨τM, τx, τy, hM, hx, hy, sv, lim⟩ := centred_limit h₀ hcon
  refine ⟨_, _, _, ⟨back_square h₀ hM, back_square h₀ hx, back_square h₀ hy⟩, fun a κ ε hε => ?_, fun κ hne => ?_⟩
  swap
  · have mv : Moved (region s₀.elements) (region (centred s₀ r₀)) (r₀.cx, r₀.cy) := moved_of (isClosed_region _).measurableSet fun p => by
      change _ ↔ p - (r₀.cx, r₀.cy) ∈ region (shifted s₀.elements r₀.cx r₀.cy)
      rw [region_shift]
      simp
    obtain ⟨⟨⟨J, hJ, ht⟩, hf⟩, hs⟩ := sv κ hne
    refine ⟨⟨⟨J, hJ, mv.torsion ht⟩, fun hds => ⟨mv.flexure (hf hds).1, mv.flexure (hf hds).2⟩⟩, fun v hv => ?_⟩
    obtain ⟨k0, k1, k2⟩ := hs _ (mv.displacement hv)
    have e1 := fun p => dX_moved (fun q => v (q + (r₀.cx, r₀.cy))) (r₀.cx, r₀.cy) p
    have e2 := fun p => dY_moved (fun q => v (q + (r₀.cx, r₀.cy))) (r₀.cx, r₀.cy) p
    simp only [sub_add_cancel] at e1 e2
    have j0 := k0.comp_measurePreserving mv.preserving
    have j1 := k1.comp_measurePreserving mv.preserving
    have j2 := k2.comp_measurePreserving mv.preserving
    refine ⟨?_, ?_, ?_⟩
    · refine (memLp_congr_ae (ae_of_all _ fun p => ?_)).1 j0
      simp
    · refine (memLp_congr_ae (ae_of_all _ fun p => ?_)).1 j1
      exact (e1 p).symm
    · refine (memLp_congr_ae (ae_of_all _ fun p => ?_)).1 j2
      exact (e2 p).symm
  obtain ⟨B, T, hB, h⟩ := lim a
  obtain ⟨δ, hδ, k⟩ := fine_tendsto.1 (hB κ) ε hε
  refine ⟨δ, hδ, fun s r w hs hc hf => ?_⟩
  let x : BodyMesh Ω mat (isComposite s₀.materials) := ⟨⟨s, r, w⟩, hs, hc⟩
  obtain ⟨h1, h2, h3⟩ := h x
  have hBx := k x hf
  rw [sub_zero] at hBx
  obtain ⟨-, -, ex, ey, -⟩ := meshOf_geom h₀.good hs.good h₀.mesh hs.mesh h₀.geom hs.geom
  refine ⟨fun p => T x (p - (r₀.cx, r₀.cy)), back_square h₀ h1, fun t ht => ?_, ?_⟩
  · have q := h2 (t.shiftBy r.cx r.cy) (List.mem_map_of_mem ht)
    have q' := (measurePreserving_sub_right (volume : Measure (ℝ × ℝ)) (r₀.cx, r₀.cy)).quasiMeasurePreserving.ae q
    filter_upwards [q'] with p hp hpm
    rw [hp (by
      rw [elemRegion_shiftBy, ex, ey]
      simpa using hpm), reportedShear_shift, ← ex, ← ey]
    rfl
  · rw [back_size h₀ τM, back_size h₀ τx, back_size h₀ τy]
    refine (back_size h₀ fun p => T x p - superposed a τM τx τy p).le.trans (h3.trans ?_)
    linarith [le_abs_self (B x)]

/-- **C100** The shear stresses of a connected body with any materials.  There are three fields of shear stress, of a unit torque and of
unit shear forces, such that for all actions the stresses that the code reports on any mesh with small elements of bounded aspect are close,
in mean square over the body, to the superposition of these fields: up to `ε`, and up to the share `1e-19` of the squares that the rounded
extrapolation matrix of the code costs. -/
theorem C100_shear_stress (h₀ : SolvedMesh Ω mat s₀ r₀ w₀) (hcon : IsPreconnected (interior (region s₀.elements))) :
    ∃ τM τx τy : ℝ × ℝ → ℝ × ℝ, SquareInt Ω τM ∧ SquareInt Ω τx ∧ SquareInt Ω τy ∧
      ∀ (a : Actions) (κ ε : ℝ), 0 < ε → ∃ δ > 0, ∀ (s : Section) (r : GeomResults) (w : WarpResults s.numNodes), SolvedMesh Ω mat s r w →
        (isComposite s.materials ↔ isComposite s₀.materials) → FineMesh s.elements δ κ →
        ∃ T, SquareInt Ω T ∧ (∀ t ∈ s.elements, ∀ᵐ p, p ∈ elemRegion t.coords → T p = reportedShear s r w a t p) ∧
          sizeSq Ω (fun p => T p - superposed a τM τx τy p)
            ≤ ε + 1e-19 * (a.mzz ^ 2 * sizeSq Ω τM + a.vx ^ 2 * sizeSq Ω τx + a.vy ^ 2 * sizeSq Ω τy) := by
  obtain ⟨τM, τx, τy, ⟨hM, hx, hy⟩, lim, -⟩ := limit_fields h₀ hcon
  exact ⟨τM, τx, τy, hM, hx, hy, lim⟩

/-- **C101** The fields of `C100_shear_stress` are those of Saint-Venant's theory.  For a connected body with arbitrarily fine meshes of
bounded aspect, the stresses of the torque are in equilibrium with no axial load and with free surfaces, have the torque as their moment and
strains from a twist and a warping displacement, with the rate of twist that the limit of the torsion constants gives; those of the shear forces are
in equilibrium with the growing bending stresses, have the shear force as their resultant and strains from a warping displacement and the
anticlastic curvature. -/
theorem C101_saint_venant (h₀ : SolvedMesh Ω mat s₀ r₀ w₀) (hcon : IsPreconnected (interior (region s₀.elements))) {κ : ℝ}
    (hfine : ∀ δ > 0, ∃ (s : Section) (r : GeomResults) (w : WarpResults s.numNodes), SolvedMesh Ω mat s r w ∧
      (isComposite s.materials ↔ isComposite s₀.materials) ∧ FineMesh s.elements δ κ) :
    ∃ τM τx τy : ℝ × ℝ → ℝ × ℝ, (SquareInt Ω τM ∧ SquareInt Ω τx ∧ SquareInt Ω τy) ∧ StressesConverge Ω mat s₀ τM τx τy ∧
      SaintVenant (region s₀.elements) (fun p => (mat p).elasticModulus) (r₀.cx, r₀.cy) Ω mat s₀ r₀ τM τx τy := by
  obtain ⟨τM, τx, τy, hI, hc, hv⟩ := limit_fields h₀ hcon
  refine ⟨τM, τx, τy, hI, hc, (hv κ ((fineFilter_basis κ).neBot_iff.2 fun {δ} hδ => ?_)).1⟩
  obtain ⟨s, r, w, h1, h2, h3⟩ := hfine δ hδ
  exact ⟨⟨⟨s, r, w⟩, h1, h2⟩, h3⟩

end

/-! ### What `get_stress_at_points` returns -/

section
variable {P : Type} (env : Env P)

open Classical in
/-- The properties and functions that a stress analysis collects after the geometric and warping analyses. -/
theorem stressSetup_run {r : GeomResults} {w : WarpResults env.sec.numNodes} {s0 : Store env.sec.numNodes}
    (hs : HoldsGeom env.perimeter r s0) {a : Actions} (ha : a.vx ≠ 0 ∨ a.vy ≠ 0 ∨ a.mzz ≠ 0) :
    exec (env.stressSetup a) (s0.setWarp w) = (.ok (stressEnvOf env.sec r w, ⟨w.omega, w.psi, w.phiS⟩), s0.setWarp w) := by
  unfold stressEnvOf
  have hs' : HoldsGeom env.perimeter r (s0.setWarp w) :=
    holdsGeom_mono (l := warpValues w) hs (by simp [geomValues, warpValues])
  have hw : (s0.setWarp w).omega = some w.omega ∧ (s0.setWarp w).psi = some w.psi ∧
      (s0.setWarp w).phiS = some w.phiS ∧ (s0.setWarp w).val .j = some w.j ∧
      (s0.setWarp w).val .deltaS = some w.deltaS := by
    simp [Store.setWarp, warpValues, assign_cons, assign_nil]
  obtain ⟨w1, w2, w3, w4, w5⟩ := hw
  generalize s0.setWarp w = s at *
  have harea : s.val .area = some r.sums.area := hs' (.area, _) (by simp [geomValues])
  have hcx : s.val .cx = some r.cx := hs' (.cx, _) (by simp [geomValues])
  have hcy : s.val .cy = some r.cy := hs' (.cy, _) (by simp [geomValues])
  have hixx : s.val .ixxC = some r.cent.ixxC := hs' (.ixxC, _) (by simp [geomValues])
  have hiyy : s.val .iyyC = some r.cent.iyyC := hs' (.iyyC, _) (by simp [geomValues])
  have hixy : s.val .ixyC = some r.cent.ixyC := hs' (.ixyC, _) (by simp [geomValues])
  have hnu : s.val .nuEff = some r.nuEff := hs' (.nuEff, _) (by simp [geomValues])
  have hC : exec (ask fun p => getC p : Op env.sec.numNodes (ℝ × ℝ)) s = (.ok (r.cx, r.cy), s) := by
    rw [exec_ask]; simp [getC, hcx, hcy]
  unfold Env.stressSetup
  rw [exec_bind_ok hC]
  dsimp only
  rw [exec_bind_ok (askPhi_geom env hs'), exec_bind_ok (askEa_geom env hs'),
    exec_bind_ok (askIc_ok env hixx hiyy hixy), exec_bind_ok (askIp_geom env hs')]
  rw [if_pos ha]
  have hj : exec (if isComposite env.sec.materials then
      ask fun p => getEj env.sec.materials p (.num 1)
      else ask fun p => getJ env.sec.materials p : Op env.sec.numNodes ℝ) s = (.ok w.j, s) := by
    by_cases hc : isComposite env.sec.materials
    · simp only [hc, if_true]; rw [exec_ask]; simp [getEj, hc, w4, ERef.value]
    · simp only [hc, if_false]; rw [exec_ask]; simp [getJ, hc, w4]
  by_cases hc : isComposite env.sec.materials
  · simp only [hc, if_true] at hj ⊢
    rw [exec_bind_ok hj, exec_bind_ok (askNu_ok env hnu), exec_get_bind, w5, w1, w2, w3]
    simp only [hc, if_true, warpIn]
    rfl
  · simp only [hc, if_false] at hj ⊢
    rw [exec_bind_ok hj, exec_bind_ok (askNu_ok env hnu), exec_get_bind, w5, w1, w2, w3]
    simp only [hc, if_false, warpIn]
    rfl

/-- Almost every point lies in at most one element. -/
theorem single_element {n : ℕ} {els : List (Tri6 n)} (h : NoOverlap els) : ∀ᵐ p, ∀ i j : ℕ, ∀ t t' : Tri6 n, els[i]? = some t →
    els[j]? = some t' → p ∈ elemRegion t.coords → p ∈ elemRegion t'.coords → i = j := by
  have lt : ∀ᵐ p, ∀ i j : ℕ, i < j → ∀ t t' : Tri6 n, els[i]? = some t → els[j]? = some t' → p ∈ elemRegion t.coords →
      p ∉ elemRegion t'.coords := by
    refine ae_all_iff.2 fun i => ae_all_iff.2 fun j => ?_
    by_cases hij : i < j ∧ j < els.length
    · have h0 := List.pairwise_iff_getElem.1 h i j (by omega) hij.2 hij.1
      filter_upwards [measure_eq_zero_iff_ae_notMem.1 h0] with p hp _ t t' h1 h2 h3 h4
      rw [List.getElem?_eq_getElem (by omega)] at h1 h2
      rw [Option.some.inj h1, Option.some.inj h2] at hp
      exact hp ⟨h3, h4⟩
    · refine Eventually.of_forall fun p hlt t t' _ h2 => absurd ⟨hlt, ?_⟩ hij
      exact (List.getElem?_eq_some_iff.1 h2).1
  filter_upwards [lt] with p hp i j t t' h1 h2 h3 h4
  rcases lt_trichotomy i j with hij | hij | hij
  · exact absurd h4 (hp i j hij t t' h1 h2 h3)
  · exact hij
  · exact absurd h3 (hp j i hij t' t h2 h1 h4)

/-- **C100** (query).  After the geometric and warping analyses, for actions with shear, `get_stress_at_points` with a correct search tree
returns at almost every point of an element the shear stresses of `C100_shear_stress`. -/
theorem C100_points {r : GeomResults} {w : WarpResults env.sec.numNodes} {s0 : Store env.sec.numNodes} (hno : NoOverlap env.sec.elements)
    (hs : HoldsGeom env.perimeter r s0) {a : Actions} (ha : a.vx ≠ 0 ∨ a.vy ≠ 0 ∨ a.mzz ≠ 0) {query : ℝ × ℝ → List ℕ}
    (hq : QueryCorrect env.sec.elements query) (agg : List ℝ → ℝ) : ∀ t ∈ env.sec.elements, ∀ᵐ p, p ∈ elemRegion t.coords →
      ∃ σ, (env.stressPoints query agg a [p]).run.run (s0.setWarp w) = (.ok [some (σ, reportedShear env.sec r w a t p)], s0.setWarp w) := by
  intro t ht
  filter_upwards [single_element hno] with p hp hpt
  obtain ⟨i, hi⟩ := List.mem_iff_getElem?.1 ht
  have hqp : query p = [i] := by
    refine List.perm_singleton.1 ((List.perm_ext_iff_of_nodup (hq p).1 (List.nodup_singleton i)).2 fun j => ?_)
    rw [(hq p).2 j, List.mem_singleton]
    constructor
    · rintro ⟨t', h1, h2⟩
      exact hp j i t' t h1 hi h2 hpt
    · rintro rfl
      exact ⟨t, hi, hpt⟩
  refine ⟨(t.localElementStress p a (stressEnvOf env.sec r w) (t.local w.omega) (t.local w.psi) (t.local w.phiS)).1, ?_⟩
  change exec _ _ = _
  unfold Env.stressPoints
  rw [exec_get_bind, if_neg (by simp [Store.setWarp]), exec_bind_ok (stressSetup_run env hs ha)]
  dsimp only
  rw [exec_attempt]
  simp [stressAtPoints, stressAtPoint, hqp, hi, reportedShear]

end

end SP
