import Verif.Lemmas.Tied
import Verif.Props.Body

/-!
# Solutions on ever finer meshes of a connected body

The Poincaré inequality for the fields on all meshes of a body, and the limits of linear functionals of discrete solutions.
-/

namespace SP

open Spec MeasureTheory Set Topology

variable {n : ℕ} {els : List (Tri6 n)} {q v : Tri6 n → ℝ × ℝ → ℝ} {x : Fin n → ℝ} {Ω : Set (ℝ × ℝ)} {mat : ℝ × ℝ → Material}

/-- A valid, conforming mesh of a body whose materials have positive moduli. -/
structure NiceMesh (Ω : Set (ℝ × ℝ)) (mat : ℝ × ℝ → Material) {n : ℕ} (els : List (Tri6 n)) : Prop where
  conforming : ∃ pos : Fin n → ℝ × ℝ, ConformingMesh pos els ∧ ∀ t ∈ els, ∀ k, (t.coords.x k, t.coords.y k) = pos (t.nodeIds k)
  proper : ∀ t ∈ els, Proper t.coords
  modulus : ∀ t ∈ els, 0 < t.material.elasticModulus
  mesh : MeshOf Ω mat els

theorem region_compact (els : List (Tri6 n)) : IsCompact (region els) := by
  have : region els = ⋃ t ∈ {t | t ∈ els}, elemRegion t.coords := by ext p; simp [region]
  rw [this]
  exact (List.finite_toSet els).isCompact_biUnion fun t _ => isCompact_elemRegion _

theorem NiceMesh.region_eq {m : ℕ} {els' : List (Tri6 m)} (h : NiceMesh Ω mat els) (h' : NiceMesh Ω mat els') :
    region els' = region els :=
  (region_subset h'.proper (h'.mesh.covers.trans h.mesh.covers.symm).le).antisymm
    (region_subset h.proper (h.mesh.covers.trans h'.mesh.covers.symm).le)

/-! ### Fields on meshes are soft fields -/

theorem field_soft (h : NiceMesh Ω mat els) (hq : FEField els x q) : ∃ F, SoftField (region els) F ∧
    (∀ t ∈ els, ∀ p ∈ elemRegion t.coords, F p = q t p) ∧
    ∀ t ∈ els, ∀ᵐ p, p ∈ elemRegion t.coords → gradSq F p = dX (q t) p * dX (q t) p + dY (q t) p * dY (q t) p := by
  classical
  obtain ⟨pos, hc, hpos⟩ := h.conforming
  have hq2 : ∀ t ∈ els, q t ∈ PolyLE 2 := fun t ht => (hq t ht).1
  have hag : ∀ s ∈ els, ∀ t ∈ els, ∀ p ∈ elemRegion s.coords ∩ elemRegion t.coords, q s p = q t p :=
    fun s hs t ht p hp => field_agree hc hpos hq hs ht hp.1 hp.2
  obtain ⟨B, hB0, hB⟩ := field_bound hq2
  let F : ℝ × ℝ → ℝ := fun p => if h : ∃ t ∈ els, p ∈ elemRegion t.coords then q h.choose p else 0
  have hF : ∀ t ∈ els, ∀ p ∈ elemRegion t.coords, F p = q t p := by
    intro t ht p hp
    have hex : ∃ v ∈ els, p ∈ elemRegion v.coords := ⟨_, ht, hp⟩
    simp only [F, dif_pos hex]
    exact hag _ hex.choose_spec.1 _ ht _ ⟨hex.choose_spec.2, hp⟩
  have hdq : ∀ t ∈ els, Differentiable ℝ (q t) := by
    intro t ht
    obtain ⟨a0, a1, a2, a3, a4, a5, e⟩ := polyLE2_quad (hq2 t ht)
    rw [e]
    unfold quad
    fun_prop
  have hloc : ∀ t ∈ els, ∀ p ∈ interior (elemRegion t.coords), F =ᶠ[𝓝 p] q t := fun t ht p hp =>
    Filter.eventuallyEq_of_mem (isOpen_interior.mem_nhds hp) fun z hz => hF t ht z (interior_subset hz)
  have hgrad : ∀ t ∈ els, ∀ p ∈ interior (elemRegion t.coords),
      gradSq F p = dX (q t) p * dX (q t) p + dY (q t) p * dY (q t) p := by
    intro t ht p hp
    rw [gradSq, (hloc t ht p hp).fderiv_eq, dX_eq (hdq t ht), dY_eq (hdq t ht)]
    ring
  have hae : ∀ᵐ p, ∀ t ∈ els, p ∈ elemRegion t.coords → p ∈ interior (elemRegion t.coords) := by
    refine (ae_ball_iff (List.finite_toSet els).countable).2 fun t _ => ?_
    have h0 := (convex_elemRegion t.coords).addHaar_frontier volume
    rw [measure_eq_zero_iff_ae_notMem] at h0
    filter_upwards [h0] with p hp hpm
    by_contra hcon
    exact hp (by rw [(isCompact_elemRegion t.coords).isClosed.frontier_eq]; exact ⟨hpm, hcon⟩)
  have hgae : ∀ t ∈ els, ∀ᵐ p, p ∈ elemRegion t.coords → gradSq F p = dX (q t) p * dX (q t) p + dY (q t) p * dY (q t) p :=
    fun t ht => hae.mono fun p hp hpm => hgrad t ht p (hp t ht hpm)
  refine ⟨F, ⟨⟨B, ?_⟩, ?_, ?_, ?_, ⟨B, ?_⟩⟩, hF, hgae⟩
  · intro a b hseg
    obtain ⟨s, hs, ha⟩ := hseg 0 (left_mem_Icc.2 zero_le_one)
    obtain ⟨t, ht, hb⟩ := hseg 1 (right_mem_Icc.2 zero_le_one)
    simp only [zero_smul, add_zero] at ha
    simp only [one_smul, add_sub_cancel] at hb
    rw [hF s hs a ha, hF t ht b hb]
    exact field_lipschitz hq2 hag (fun t ht p hp => (hB t ht p hp).2) hseg hs ha ht hb
  · filter_upwards [hae] with p hp hpm
    obtain ⟨t, ht, hpt⟩ := hpm
    exact (hloc t ht p (hp t ht hpt)).differentiableAt_iff.2 (hdq t ht p)
  · refine (glue_integral h.mesh.once (f := fun t p => dX (q t) p * dX (q t) p + dY (q t) p * dY (q t) p) (fun t ht => ?_) hgae).1
    have c2 := PolyLE.continuous (dX_mem (hq2 t ht))
    have c3 := PolyLE.continuous (dY_mem (hq2 t ht))
    fun_prop
  · exact (glue_integral h.mesh.once (fun t ht => PolyLE.continuous (hq2 t ht))
      fun t ht => Filter.Eventually.of_forall fun p hp => hF t ht p hp).1.aestronglyMeasurable
  · rintro p ⟨t, ht, hpt⟩
    rw [hF t ht p hpt]
    exact (hB t ht p hpt).1

/-! ### Bounds of the moduli -/

theorem modulus_min (l : List (Tri6 n)) (h : ∀ t ∈ l, 0 < t.material.elasticModulus) :
    ∃ e > 0, ∀ t ∈ l, e ≤ t.material.elasticModulus := by
  induction l with
  | nil => exact ⟨1, one_pos, by simp⟩
  | cons t l ih =>
    obtain ⟨e, he, h1⟩ := ih fun u hu => h u (List.mem_cons_of_mem _ hu)
    refine ⟨min e t.material.elasticModulus, lt_min he (h t List.mem_cons_self), fun u hu => ?_⟩
    rcases List.mem_cons.1 hu with rfl | hu
    · exact min_le_right _ _
    · exact (min_le_left _ _).trans (h1 u hu)

theorem modulus_max (l : List (Tri6 n)) : ∃ e, 0 ≤ e ∧ ∀ t ∈ l, t.material.elasticModulus ≤ e := by
  induction l with
  | nil => exact ⟨0, le_rfl, by simp⟩
  | cons t l ih =>
    obtain ⟨e, he, h1⟩ := ih
    refine ⟨max e t.material.elasticModulus, le_max_of_le_left he, fun u hu => ?_⟩
    rcases List.mem_cons.1 hu with rfl | hu
    · exact le_max_right _ _
    · exact (h1 u hu).trans (le_max_left _ _)

/-- What is true of the materials of one mesh of a body is true of those of any other. -/
theorem material_carry {m : ℕ} {els' : List (Tri6 m)} (hM : MeshOf Ω mat els) (hM' : MeshOf Ω mat els')
    (hp' : ∀ t ∈ els', Proper t.coords) {P : Material → Prop} (he : ∀ t ∈ els, P t.material) : ∀ t ∈ els', P t.material := by
  intro t' ht'
  have hreg : region els =ᵐ[volume] region els' := hM.covers.trans hM'.covers.symm
  have ae : ∀ᵐ p, ∀ t ∈ els, p ∈ elemRegion t.coords → mat p = t.material :=
    (ae_ball_iff (List.finite_toSet els).countable).2 hM.material
  have h1 : ∀ᵐ p, p ∈ elemRegion t'.coords → P t'.material := by
    filter_upwards [ae, hM'.material t' ht', hreg.mem_iff] with p a1 a2 a3 hp
    obtain ⟨t, ht, hpt⟩ := a3.2 ⟨t', ht', hp⟩
    rw [← a2 hp, a1 t ht hpt]
    exact he t ht
  by_contra hcon
  have h2 : ∀ᵐ p, p ∉ elemRegion t'.coords := h1.mono fun p hp hpm => hcon (hp hpm)
  rw [ae_iff] at h2
  simp only [not_not] at h2
  exact volume_elem (hp' t' ht') h2

/-! ### The Poincaré inequality on all meshes of a body -/

/-- The fields on all meshes of a connected body are, on average, as close to a constant as their gradients are small. -/
theorem field_poincare (h₀ : NiceMesh Ω mat els) (hcon : IsPreconnected (interior (region els))) :
    ∃ C, 0 ≤ C ∧ ∀ (m : ℕ) (els' : List (Tri6 m)), NiceMesh Ω mat els' → ∀ x v, FEField els' x v →
      ∃ k, wInt els' (fun t p => (v t p - k) ^ 2) ≤ C * dirichlet els' v v := by
  obtain ⟨C, hC, key⟩ := body_tied h₀.proper hcon
  obtain ⟨a, ha, hmin⟩ := modulus_min els h₀.modulus
  obtain ⟨b, hb, hmax⟩ := modulus_max els
  refine ⟨b * C / a, by positivity, fun m els' h' x v hv => ?_⟩
  have hmin' : ∀ t ∈ els', a ≤ t.material.elasticModulus := material_carry (P := fun M => a ≤ M.elasticModulus) h₀.mesh h'.mesh h'.proper hmin
  have hmax' : ∀ t ∈ els', t.material.elasticModulus ≤ b := material_carry (P := fun M => M.elasticModulus ≤ b) h₀.mesh h'.mesh h'.proper hmax
  obtain ⟨F, hF, hval, hgrad⟩ := field_soft h' hv
  rw [h₀.region_eq h'] at hF
  obtain ⟨k, hk⟩ := key F hF
  refine ⟨k, ?_⟩
  have c0 : ∀ t ∈ els', Continuous (v t) := fun t ht => PolyLE.continuous (hv t ht).1
  have c1 : ∀ t ∈ els', Continuous fun p => dX (v t) p * dX (v t) p + dY (v t) p * dY (v t) p := fun t ht => by
    have c2 := PolyLE.continuous (dX_mem (hv t ht).1)
    have c3 := PolyLE.continuous (dY_mem (hv t ht).1)
    fun_prop
  have e1 := (glue_integral h'.mesh.once (f := fun t p => (v t p - k) ^ 2) (F := fun p => (F p - k) ^ 2)
    (fun t ht => by have := c0 t ht; fun_prop)
    fun t ht => Filter.Eventually.of_forall fun p hp => by rw [hval t ht p hp]).2
  have e2 := (glue_integral h'.mesh.once c1 hgrad).2
  rw [h₀.region_eq h'] at e1 e2
  have f1 : wInt els' (fun t p => (v t p - k) ^ 2) ≤ b * ∫ p in region els, (F p - k) ^ 2 := by
    rw [← e1, wInt, ← List.sum_map_mul_left]
    exact List.sum_le_sum fun t ht => mul_le_mul_of_nonneg_right (hmax' t ht) (integral_nonneg fun p => sq_nonneg _)
  have f2 : a * ∫ p in region els, gradSq F p ≤ dirichlet els' v v := by
    rw [← e2, dirichlet, wInt, ← List.sum_map_mul_left]
    exact List.sum_le_sum fun t ht => mul_le_mul_of_nonneg_right (hmin' t ht)
      (integral_nonneg fun p => add_nonneg (mul_self_nonneg _) (mul_self_nonneg _))
  have n1 := sq_nonneg_int (region els) F k
  have f3 : b * (∫ p in region els, (F p - k) ^ 2) ≤ b * (C * ∫ p in region els, gradSq F p) :=
    mul_le_mul_of_nonneg_left (by linarith) hb
  have f4 : b * C / a * (a * ∫ p in region els, gradSq F p) ≤ b * C / a * dirichlet els' v v :=
    mul_le_mul_of_nonneg_left f2 (by positivity)
  have f5 : b * C / a * (a * ∫ p in region els, gradSq F p) = b * (C * ∫ p in region els, gradSq F p) := by field_simp
  linarith

/-! ### Integrals of continuous fields -/

theorem wInt_addc {f g : Tri6 n → ℝ × ℝ → ℝ} (hf : ∀ t ∈ els, Continuous (f t)) (hg : ∀ t ∈ els, Continuous (g t)) :
    wInt els (fun t p => f t p + g t p) = wInt els f + wInt els g := by
  rw [wInt, wInt, wInt, ← List.sum_map_add]
  refine congrArg List.sum (List.map_congr_left fun t ht => ?_)
  rw [integral_add (elem_int (hf t ht) _) (elem_int (hg t ht) _), mul_add]

theorem wInt_monoc (hE : ∀ t ∈ els, 0 < t.material.elasticModulus) {f g : Tri6 n → ℝ × ℝ → ℝ} (hf : ∀ t ∈ els, Continuous (f t))
    (hg : ∀ t ∈ els, Continuous (g t)) (h : ∀ t ∈ els, ∀ p ∈ elemRegion t.coords, f t p ≤ g t p) : wInt els f ≤ wInt els g :=
  List.sum_le_sum fun t ht => mul_le_mul_of_nonneg_left
    (setIntegral_mono_on (elem_int (hf t ht) _) (elem_int (hg t ht) _) (measurable_elemRegion _) (h t ht)) (hE t ht).le

/-- The Cauchy-Schwarz inequality. -/
theorem wInt_cs (hE : ∀ t ∈ els, 0 < t.material.elasticModulus) {f g : Tri6 n → ℝ × ℝ → ℝ} (hf : ∀ t ∈ els, Continuous (f t))
    (hg : ∀ t ∈ els, Continuous (g t)) :
    wInt els (fun t p => f t p * g t p) ^ 2 ≤ wInt els (fun t p => f t p ^ 2) * wInt els (fun t p => g t p ^ 2) := by
  have key : ∀ k : ℝ, 0 ≤ wInt els (fun t p => g t p ^ 2) * (k * k) + 2 * wInt els (fun t p => f t p * g t p) * k
      + wInt els (fun t p => f t p ^ 2) := by
    intro k
    have h0 : 0 ≤ wInt els (fun t p => (f t p + k * g t p) ^ 2) := wInt_nonneg hE fun t _ p => sq_nonneg _
    have e : wInt els (fun t p => (f t p + k * g t p) ^ 2)
        = wInt els fun t p => (k * k * g t p ^ 2 + 2 * k * (f t p * g t p)) + f t p ^ 2 :=
      wInt_congr fun t _ p => by ring
    rw [e, wInt_addc (f := fun t p => k * k * g t p ^ 2 + 2 * k * (f t p * g t p)) (g := fun t p => f t p ^ 2)
        (fun t ht => by have := hf t ht; have := hg t ht; fun_prop) (fun t ht => by have := hf t ht; fun_prop),
      wInt_addc (f := fun t p => k * k * g t p ^ 2) (g := fun t p => 2 * k * (f t p * g t p))
        (fun t ht => by have := hg t ht; fun_prop) (fun t ht => by have := hf t ht; have := hg t ht; fun_prop),
      wInt_smul, wInt_smul] at h0
    linarith
  have := discrim_le_zero key
  rw [discrim] at this
  nlinarith

/-- The integral of a function of position is the same on all meshes of a body. -/
theorem wInt_body (hM : MeshOf Ω mat els) {g : ℝ × ℝ → ℝ} (hg : Continuous g) :
    wInt els (fun _ p => g p) = ∫ p in Ω, (mat p).elasticModulus * g p := by
  have e := (glue_integral hM.once (f := fun t p => t.material.elasticModulus * g p) (F := fun p => (mat p).elasticModulus * g p)
    (fun t _ => continuous_const.mul hg) fun t ht => (hM.material t ht).mono fun p hp hpm => by rw [hp hpm]).2
  simp only [integral_const_mul] at e
  rw [← setIntegral_congr_set hM.covers, ← e]
  rfl

theorem along_cont {Φ : (ℝ × ℝ) × ℝ × ℝ × ℝ → ℝ} (hΦ : Continuous Φ) (hq : ∀ t ∈ els, q t ∈ PolyLE 2) :
    ∀ t ∈ els, Continuous (alongField Φ q t) := by
  intro t ht
  have c1 := PolyLE.continuous (hq t ht)
  have c2 := PolyLE.continuous (dX_mem (hq t ht))
  have c3 := PolyLE.continuous (dY_mem (hq t ht))
  unfold alongField
  fun_prop

/-! ### Loads -/

/-- The density of the load with the coefficients `l` of the value and of the gradient. -/
def loadAt (l : ℝ × ℝ → ℝ × ℝ × ℝ) (z : (ℝ × ℝ) × ℝ × ℝ × ℝ) : ℝ :=
  (l z.1).1 * z.2.1 + ((l z.1).2.1 * z.2.2.1 + (l z.1).2.2 * z.2.2.2)

/-- The work of a load on a field. -/
noncomputable def loadOn (l : ℝ × ℝ → ℝ × ℝ × ℝ) (els : List (Tri6 n)) (q : Tri6 n → ℝ × ℝ → ℝ) : ℝ := wInt els (alongField (loadAt l) q)

/-- The load does no work on constants. -/
def Balanced (Ω : Set (ℝ × ℝ)) (mat : ℝ × ℝ → Material) (l : ℝ × ℝ → ℝ × ℝ × ℝ) : Prop :=
  ∫ p in Ω, (mat p).elasticModulus * (l p).1 = 0

theorem loadAt_cont {l : ℝ × ℝ → ℝ × ℝ × ℝ} (hl : Continuous l) : Continuous (loadAt l) := by
  unfold loadAt
  fun_prop

theorem loadOn_sub {l : ℝ × ℝ → ℝ × ℝ × ℝ} (hl : Continuous l) (hq : ∀ t ∈ els, q t ∈ PolyLE 2) (hv : ∀ t ∈ els, v t ∈ PolyLE 2) :
    loadOn l els (fun t p => q t p + -1 * v t p) = loadOn l els q - loadOn l els v := by
  have e : loadOn l els (fun t p => q t p + -1 * v t p)
      = wInt els fun t p => alongField (loadAt l) q t p + -1 * alongField (loadAt l) v t p := by
    refine wInt_congr fun t ht p => ?_
    simp only [alongField, loadAt, dX_add_smul (hq t ht) (hv t ht), dY_add_smul (hq t ht) (hv t ht)]
    ring
  rw [e, wInt_addc (f := alongField (loadAt l) q) (g := fun t p => -1 * alongField (loadAt l) v t p) (along_cont (loadAt_cont hl) hq)
    (fun t ht => continuous_const.mul (along_cont (loadAt_cont hl) hv t ht)), wInt_smul]
  simp only [loadOn]
  ring

/-- Balanced loads are bounded by the energy, on all meshes of a connected body alike. -/
theorem load_bound (h₀ : NiceMesh Ω mat els) (hcon : IsPreconnected (interior (region els))) {l : ℝ × ℝ → ℝ × ℝ × ℝ}
    (hl : Continuous l) (hb : Balanced Ω mat l) :
    ∃ c, 0 ≤ c ∧ ∀ (m : ℕ) (els' : List (Tri6 m)), NiceMesh Ω mat els' → ∀ x v, FEField els' x v →
      loadOn l els' v ^ 2 ≤ c * dirichlet els' v v := by
  obtain ⟨C, hC, key⟩ := field_poincare h₀ hcon
  obtain ⟨K, hK⟩ := (region_compact els).exists_bound_of_continuousOn hl.continuousOn
  have hK' : ∀ p ∈ region els, |(l p).1| ≤ |K| ∧ |(l p).2.1| ≤ |K| ∧ |(l p).2.2| ≤ |K| := fun p hp => by
    have h1 := (hK p hp).trans (le_abs_self K)
    have h2 := (norm_snd_le (l p)).trans h1
    exact ⟨(norm_fst_le (l p)).trans h1, (norm_fst_le (l p).2).trans h2, (norm_snd_le (l p).2).trans h2⟩
  refine ⟨3 * K ^ 2 * (C + 1) * wInt els (fun _ _ => 1),
    mul_nonneg (by positivity) (wInt_nonneg h₀.modulus fun _ _ _ => zero_le_one), fun m els' h' x v hv => ?_⟩
  obtain ⟨k, hk⟩ := key m els' h' x v hv
  have hv2 : ∀ t ∈ els', v t ∈ PolyLE 2 := fun t ht => (hv t ht).1
  let f : Tri6 m → ℝ × ℝ → ℝ := fun t p => (l p).1 * (v t p - k) + ((l p).2.1 * dX (v t) p + (l p).2.2 * dY (v t) p)
  have c0 : ∀ t ∈ els', Continuous (v t) := fun t ht => PolyLE.continuous (hv2 t ht)
  have c1 : ∀ t ∈ els', Continuous (dX (v t)) := fun t ht => PolyLE.continuous (dX_mem (hv2 t ht))
  have c2 : ∀ t ∈ els', Continuous (dY (v t)) := fun t ht => PolyLE.continuous (dY_mem (hv2 t ht))
  have cf : ∀ t ∈ els', Continuous (f t) := fun t ht => by have := c0 t ht; have := c1 t ht; have := c2 t ht; fun_prop
  have e1 : loadOn l els' v = wInt els' f := by
    have e2 : loadOn l els' v = wInt els' fun t p => f t p + k * (l p).1 := wInt_congr fun t ht p => by
      simp only [alongField, loadAt, f]
      ring
    rw [e2, wInt_addc (g := fun t p => k * (l p).1) cf (fun t _ => by fun_prop), wInt_smul, wInt_body h'.mesh (by fun_prop), hb,
      mul_zero, add_zero]
  have e3 : wInt els' (fun _ _ => (1 : ℝ)) = wInt els fun _ _ => 1 := by
    rw [wInt_body h'.mesh continuous_const, wInt_body h₀.mesh continuous_const]
  have s1 := wInt_cs h'.modulus cf (g := fun _ _ => 1) fun _ _ => continuous_const
  simp only [mul_one, one_pow] at s1
  rw [e1, ← e3]
  refine s1.trans ?_
  have n1 : 0 ≤ wInt els' (fun _ _ => (1 : ℝ)) := wInt_nonneg h'.modulus fun _ _ _ => zero_le_one
  refine (mul_le_mul_of_nonneg_right ?_ n1).trans_eq (mul_right_comm _ _ _)
  have s2 : wInt els' (fun t p => f t p ^ 2)
      ≤ wInt els' fun t p => 3 * K ^ 2 * ((v t p - k) ^ 2 + (dX (v t) p * dX (v t) p + dY (v t) p * dY (v t) p)) := by
    refine wInt_monoc h'.modulus (fun t ht => (cf t ht).pow 2)
      (fun t ht => by have := c0 t ht; have := c1 t ht; have := c2 t ht; fun_prop) fun t ht p hp => ?_
    obtain ⟨b1, b2, b3⟩ := hK' p (by rw [← h₀.region_eq h']; exact ⟨t, ht, hp⟩)
    have q1 := sq_le_sq.2 ((b1.trans_eq (abs_abs K).symm).trans_eq (abs_abs K))
    have q2 := sq_le_sq.2 ((b2.trans_eq (abs_abs K).symm).trans_eq (abs_abs K))
    have q3 := sq_le_sq.2 ((b3.trans_eq (abs_abs K).symm).trans_eq (abs_abs K))
    simp only [f]
    generalize (l p).1 = l0 at *
    generalize (l p).2.1 = l1 at *
    generalize (l p).2.2 = l2 at *
    generalize v t p - k = a
    generalize dX (v t) p = b
    generalize dY (v t) p = c
    have r1 := mul_le_mul_of_nonneg_right q1 (sq_nonneg a)
    have r2 := mul_le_mul_of_nonneg_right q2 (sq_nonneg b)
    have r3 := mul_le_mul_of_nonneg_right q3 (sq_nonneg c)
    nlinarith [sq_nonneg (l0 * a - l1 * b), sq_nonneg (l0 * a - l2 * c), sq_nonneg (l1 * b - l2 * c)]
  refine s2.trans ?_
  rw [wInt_smul, wInt_addc (f := fun t p => (v t p - k) ^ 2) (g := fun t p => dX (v t) p * dX (v t) p + dY (v t) p * dY (v t) p)
    (fun t ht => by have := c0 t ht; fun_prop) (fun t ht => by have := c1 t ht; have := c2 t ht; fun_prop), mul_assoc (3 * K ^ 2) (C + 1)]
  refine mul_le_mul_of_nonneg_left ?_ (by positivity)
  change _ + dirichlet els' v v ≤ _
  linarith

/-! ### Discrete solutions -/

/-- The field `q`, with the nodal values `x`, solves the discrete equations with the load `l`. -/
structure WeakSol (l : ℝ × ℝ → ℝ × ℝ × ℝ) {n : ℕ} (els : List (Tri6 n)) (x : Fin n → ℝ) (q : Tri6 n → ℝ × ℝ → ℝ) : Prop where
  field : FEField els x q
  weak : ∀ y v, FEField els y v → dirichlet els v q = loadOn l els v

theorem dirichlet_nonneg (hE : ∀ t ∈ els, 0 < t.material.elasticModulus) (q : Tri6 n → ℝ × ℝ → ℝ) : 0 ≤ dirichlet els q q :=
  wInt_nonneg hE fun _ _ _ => add_nonneg (mul_self_nonneg _) (mul_self_nonneg _)

theorem fineMesh_le {d d' κ : ℝ} (h : FineMesh els d κ) (hd : d ≤ d') : FineMesh els d' κ := fun t ht =>
  let ⟨k, k1, k2⟩ := h t ht
  ⟨k, k1.trans hd, k2⟩

/-- A solution on one mesh, sampled on a fine mesh, is nearly as good there as the energies of the two solutions are close. -/
theorem solution_near {l : ℝ × ℝ → ℝ × ℝ × ℝ} (hl : Continuous l) (h : NiceMesh Ω mat els) (hs : WeakSol l els x q)
    {Φ Ψ : (ℝ × ℝ) × ℝ × ℝ × ℝ → ℝ} (hΦ : Continuous Φ) (hΨ : Continuous Ψ) (κ : ℝ) {ε : ℝ} (hε : 0 < ε) :
    ∃ δ > 0, ∀ (m : ℕ) (els' : List (Tri6 m)), NiceMesh Ω mat els' → ∀ x' q', WeakSol l els' x' q' → FineMesh els' δ κ →
      ∃ y v, FEField els' y v ∧ |wInt els' (alongField Φ v) - wInt els (alongField Φ q)| ≤ ε ∧
        |wInt els' (alongField Ψ v) - wInt els (alongField Ψ q)| ≤ ε ∧
        dirichlet els' (fun t p => q' t p + -1 * v t p) (fun t p => q' t p + -1 * v t p)
          ≤ dirichlet els' q' q' - dirichlet els q q + ε := by
  obtain ⟨pos, hc, hpos⟩ := h.conforming
  have hEn : Continuous fun z : (ℝ × ℝ) × ℝ × ℝ × ℝ => 2 * loadAt l z + -1 * (z.2.2.1 * z.2.2.1 + z.2.2.2 * z.2.2.2) := by
    have := loadAt_cont hl
    fun_prop
  obtain ⟨d1, p1, k1⟩ := samples_close hc hpos h.mesh hs.field hΦ κ hε
  obtain ⟨d2, p2, k2⟩ := samples_close hc hpos h.mesh hs.field hΨ κ hε
  obtain ⟨d3, p3, k3⟩ := samples_close hc hpos h.mesh hs.field hEn κ hε
  refine ⟨min d1 (min d2 d3), lt_min p1 (lt_min p2 p3), fun m els' h' x' q' hs' hf => ?_⟩
  obtain ⟨pos', -, hpos'⟩ := h'.conforming
  obtain ⟨y, hy⟩ := exists_samples hc hpos hs.field els' pos' hpos'
  obtain ⟨v, hv⟩ := exists_feField h'.proper y
  refine ⟨y, v, hv, k1 m els' h'.proper h'.mesh (fineMesh_le hf (min_le_left _ _)) y v hy hv,
    k2 m els' h'.proper h'.mesh (fineMesh_le hf ((min_le_right _ _).trans (min_le_left _ _))) y v hy hv, ?_⟩
  have e := k3 m els' h'.proper h'.mesh (fineMesh_le hf ((min_le_right _ _).trans (min_le_right _ _))) y v hy hv
  have split : ∀ {k : ℕ} {els : List (Tri6 k)} {x : Fin k → ℝ} {v : Tri6 k → ℝ × ℝ → ℝ}, FEField els x v →
      wInt els (alongField (fun z => 2 * loadAt l z + -1 * (z.2.2.1 * z.2.2.1 + z.2.2.2 * z.2.2.2)) v) =
        2 * loadOn l els v - dirichlet els v v := by
    intro k els x v hv
    have hv2 : ∀ t ∈ els, v t ∈ PolyLE 2 := fun t ht => (hv t ht).1
    have e1 : wInt els (alongField (fun z => 2 * loadAt l z + -1 * (z.2.2.1 * z.2.2.1 + z.2.2.2 * z.2.2.2)) v) =
        wInt els fun t p => 2 * alongField (loadAt l) v t p + -1 * (dX (v t) p * dX (v t) p + dY (v t) p * dY (v t) p) := rfl
    rw [e1, wInt_addc (f := fun t p => 2 * alongField (loadAt l) v t p)
      (g := fun t p => -1 * (dX (v t) p * dX (v t) p + dY (v t) p * dY (v t) p))
      (fun t ht => continuous_const.mul (along_cont (loadAt_cont hl) hv2 t ht))
      (fun t ht => by
        have c2 := PolyLE.continuous (dX_mem (hv2 t ht))
        have c3 := PolyLE.continuous (dY_mem (hv2 t ht))
        fun_prop), wInt_smul, wInt_smul]
    simp only [loadOn, dirichlet]
    ring
  rw [split hv, split hs.field] at e
  have g1 := hs.weak x q hs.field
  have g2 := hs'.weak y v hv
  have g3 := dirichlet_sub h'.proper hv hs'.field
  have g4 := (abs_le.1 e).1
  rw [g3]
  linarith

/-! ### Limits -/

/-- Values that all fine meshes come close to, with any tolerance, have a limit. -/
theorem limit_of_cores {α : Type*} (f : α → ℝ) (fine : ℝ → ℝ → α → Prop) (mono : ∀ d d' κ a, fine d κ a → d ≤ d' → fine d' κ a)
    (cores : ∀ r, 0 < r → ∃ a, ∀ κ, ∃ δ > 0, ∀ a', fine δ κ a' → |f a' - f a| ≤ r) :
    ∃ l, ∀ κ ε, 0 < ε → ∃ δ > 0, ∀ a, fine δ κ a → |f a - l| ≤ ε := by
  by_cases hex : ∃ κ, ∀ δ > 0, ∃ a, fine δ κ a
  · obtain ⟨κ0, hκ⟩ := hex
    choose a ha using fun k : ℕ => cores (1 / ((k : ℝ) + 1)) Nat.one_div_pos_of_nat
    have hcl : ∀ i j, |f (a i) - f (a j)| ≤ 1 / ((i : ℝ) + 1) + 1 / ((j : ℝ) + 1) := by
      intro i j
      obtain ⟨d1, p1, k1⟩ := ha i κ0
      obtain ⟨d2, p2, k2⟩ := ha j κ0
      obtain ⟨b, hb⟩ := hκ (min d1 d2) (lt_min p1 p2)
      have e1 := abs_le.1 (k1 b (mono _ _ _ _ hb (min_le_left _ _)))
      have e2 := abs_le.1 (k2 b (mono _ _ _ _ hb (min_le_right _ _)))
      exact abs_le.2 ⟨by linarith [e1.1, e1.2, e2.1, e2.2], by linarith [e1.1, e1.2, e2.1, e2.2]⟩
    have hbd : BddAbove (range fun k : ℕ => f (a k) - 1 / ((k : ℝ) + 1)) := by
      refine ⟨f (a 0) + 1 / (((0 : ℕ) : ℝ) + 1), ?_⟩
      rintro _ ⟨k, rfl⟩
      have := (abs_le.1 (hcl k 0)).2
      simp only
      linarith
    refine ⟨⨆ k : ℕ, (f (a k) - 1 / ((k : ℝ) + 1)), fun κ ε hε => ?_⟩
    obtain ⟨k, hk⟩ := exists_nat_one_div_lt (show 0 < ε / 2 by linarith)
    obtain ⟨δ, hδ, h⟩ := ha k κ
    refine ⟨δ, hδ, fun b hb => ?_⟩
    have e1 := abs_le.1 (h b hb)
    have e2 : f (a k) - 1 / ((k : ℝ) + 1) ≤ ⨆ k : ℕ, (f (a k) - 1 / ((k : ℝ) + 1)) := le_ciSup hbd k
    have e3 : (⨆ k : ℕ, (f (a k) - 1 / ((k : ℝ) + 1))) ≤ f (a k) + 1 / ((k : ℝ) + 1) := ciSup_le fun j => by
      have := (abs_le.1 (hcl j k)).2
      linarith
    exact abs_le.2 ⟨by linarith [e1.1, e1.2], by linarith [e1.1, e1.2]⟩
  · push Not at hex
    refine ⟨0, fun κ ε hε => ?_⟩
    obtain ⟨δ, hδ, h⟩ := hex κ
    exact ⟨δ, hδ, fun a ha => absurd ha (h a)⟩

/-- Values that differ, on fine meshes, by what the square root of the growth of a bounded energy allows. -/
theorem limit_of_energy {α : Type*} (a0 : α) (f e : α → ℝ) (fine : ℝ → ℝ → α → Prop)
    (mono : ∀ d d' κ a, fine d κ a → d ≤ d' → fine d' κ a) {c K : ℝ} (hK : 0 ≤ K) (he : ∀ a, e a ≤ c)
    (near : ∀ a κ ε, 0 < ε → ∃ δ > 0, ∀ a', fine δ κ a' → ∃ D, |f a' - f a| ≤ ε + D ∧ D ^ 2 ≤ K * (e a' - e a + ε)) :
    ∃ l, ∀ κ ε, 0 < ε → ∃ δ > 0, ∀ a, fine δ κ a → |f a - l| ≤ ε := by
  refine limit_of_cores f fine mono fun r hr => ?_
  have : Nonempty α := ⟨a0⟩
  have hbd : BddAbove (range e) := ⟨c, by rintro _ ⟨a, rfl⟩; exact he a⟩
  set η := min (r / 2) (r ^ 2 / (8 * (K + 1))) with hη
  have hη0 : 0 < η := lt_min (by linarith) (by positivity)
  obtain ⟨a, ha⟩ := exists_lt_of_lt_ciSup (show (⨆ a, e a) - η < ⨆ a, e a by linarith)
  refine ⟨a, fun κ => ?_⟩
  obtain ⟨δ, hδ, h⟩ := near a κ η hη0
  refine ⟨δ, hδ, fun a' hf => ?_⟩
  obtain ⟨D, d1, d2⟩ := h a' hf
  have h1 : e a' - e a + η ≤ 2 * η := by linarith [le_ciSup hbd a']
  have h2 : D ^ 2 ≤ (r / 2) ^ 2 := by
    have h3 : η ≤ r ^ 2 / (8 * (K + 1)) := min_le_right _ _
    rw [le_div_iff₀ (by positivity)] at h3
    nlinarith [mul_le_mul_of_nonneg_left h1 hK]
  have h4 : D ≤ r / 2 := (abs_le_of_sq_le_sq' h2 (by linarith)).2
  linarith [min_le_left (r / 2) (r ^ 2 / (8 * (K + 1)))]

/-- The energies of the solutions on all meshes of a body are bounded. -/
theorem energy_bound (h₀ : NiceMesh Ω mat els) (hcon : IsPreconnected (interior (region els))) {l : ℝ × ℝ → ℝ × ℝ × ℝ}
    (hl : Continuous l) (hb : Balanced Ω mat l) : ∃ c, ∀ (m : ℕ) (els' : List (Tri6 m)), NiceMesh Ω mat els' → ∀ x v,
      WeakSol l els' x v → dirichlet els' v v ≤ c := by
  obtain ⟨c, hc, key⟩ := load_bound h₀ hcon hl hb
  refine ⟨c, fun m els' h' x v hv => ?_⟩
  have h1 := key m els' h' x v hv.field
  rw [← hv.weak x v hv.field] at h1
  have h2 := dirichlet_nonneg h'.modulus v
  by_contra hlt
  push Not at hlt
  nlinarith

/-- **The work of any balanced load on the solutions** on ever finer meshes of a connected body has a limit that does not depend on the
meshes. -/
theorem body_limit (h₀ : NiceMesh Ω mat els) (hcon : IsPreconnected (interior (region els))) {l l' : ℝ × ℝ → ℝ × ℝ × ℝ}
    (hl : Continuous l) (hb : Balanced Ω mat l) (hl' : Continuous l') (hb' : Balanced Ω mat l') :
    ∃ L, ∀ κ ε, 0 < ε → ∃ δ > 0, ∀ (m : ℕ) (els' : List (Tri6 m)), NiceMesh Ω mat els' → ∀ x v, WeakSol l els' x v →
      FineMesh els' δ κ → |loadOn l' els' v - L| ≤ ε := by
  obtain ⟨c, hc⟩ := energy_bound h₀ hcon hl hb
  obtain ⟨K, hK, hbd⟩ := load_bound h₀ hcon hl' hb'
  let α := {a : Σ m : ℕ, List (Tri6 m) × (Fin m → ℝ) × (Tri6 m → ℝ × ℝ → ℝ) //
    NiceMesh Ω mat a.2.1 ∧ WeakSol l a.2.1 a.2.2.1 a.2.2.2}
  by_cases hne : Nonempty α
  · obtain ⟨a0⟩ := hne
    obtain ⟨L, hL⟩ := limit_of_energy a0 (fun a : α => loadOn l' a.1.2.1 a.1.2.2.2) (fun a : α => dirichlet a.1.2.1 a.1.2.2.2 a.1.2.2.2)
      (fun δ κ a => FineMesh a.1.2.1 δ κ) (fun d d' κ a h hd => fineMesh_le h hd) hK (fun a => hc _ _ a.2.1 _ _ a.2.2)
      (by
        rintro ⟨⟨m, els1, x, q⟩, h1, s1⟩ κ ε hε
        obtain ⟨δ, hδ, near⟩ := solution_near hl h1 s1 (loadAt_cont hl') (loadAt_cont hl') κ hε
        refine ⟨δ, hδ, ?_⟩
        rintro ⟨⟨m', els2, x', q'⟩, h2, s2⟩ hf
        obtain ⟨y, v, hv, e1, -, e2⟩ := near m' els2 h2 x' q' s2 hf
        have hd := feField_add s2.field (feField_smul (-1) hv)
        refine ⟨|loadOn l' els2 fun t p => q' t p + -1 * v t p|, ?_, ?_⟩
        · have e3 := loadOn_sub hl' (fun t ht => (s2.field t ht).1) fun t ht => (hv t ht).1
          rw [e3]
          change |loadOn l' els2 v - loadOn l' els1 q| ≤ ε at e1
          have := abs_add_le (loadOn l' els2 v - loadOn l' els1 q) (loadOn l' els2 q' - loadOn l' els2 v)
          rw [show loadOn l' els2 v - loadOn l' els1 q + (loadOn l' els2 q' - loadOn l' els2 v)
            = loadOn l' els2 q' - loadOn l' els1 q by ring] at this
          simp only
          linarith
        · rw [sq_abs]
          exact (hbd _ _ h2 _ _ hd).trans (mul_le_mul_of_nonneg_left e2 hK))
    refine ⟨L, fun κ ε hε => ?_⟩
    obtain ⟨δ, hδ, h⟩ := hL κ ε hε
    exact ⟨δ, hδ, fun m els' h' x v hv hf => h ⟨⟨m, els', x, v⟩, h', hv⟩ hf⟩
  · refine ⟨0, fun κ ε hε => ⟨1, one_pos, fun m els' h' x v hv => ?_⟩⟩
    exact absurd ⟨⟨⟨m, els', x, v⟩, h', hv⟩⟩ hne

/-! ### Norms -/

theorem sqrt_sub_le {a b : ℝ} (ha : 0 ≤ a) (hb : 0 ≤ b) : |√a - √b| ≤ √|a - b| := by
  refine Real.le_sqrt_of_sq_le ?_
  have h1 := Real.sq_sqrt ha
  have h2 := Real.sq_sqrt hb
  have h3 : |a - b| = |√a - √b| * (√a + √b) := by
    rw [← abs_of_nonneg (add_nonneg (Real.sqrt_nonneg a) (Real.sqrt_nonneg b)), ← abs_mul]
    congr 1
    nlinarith
  rw [h3, pow_two]
  refine mul_le_mul_of_nonneg_left ?_ (abs_nonneg _)
  exact abs_le.2 ⟨by linarith [Real.sqrt_nonneg a, Real.sqrt_nonneg b], by linarith [Real.sqrt_nonneg a, Real.sqrt_nonneg b]⟩

/-- The triangle inequality. -/
theorem norm_sub_wInt (hE : ∀ t ∈ els, 0 < t.material.elasticModulus) (hq : ∀ t ∈ els, Continuous (q t)) (hv : ∀ t ∈ els, Continuous (v t)) :
    |√(wInt els fun t p => q t p ^ 2) - √(wInt els fun t p => v t p ^ 2)| ≤ √(wInt els fun t p => (q t p + -1 * v t p) ^ 2) := by
  have n1 : 0 ≤ wInt els fun t p => q t p ^ 2 := wInt_nonneg hE fun _ _ _ => sq_nonneg _
  have n2 : 0 ≤ wInt els fun t p => v t p ^ 2 := wInt_nonneg hE fun _ _ _ => sq_nonneg _
  refine Real.le_sqrt_of_sq_le ?_
  rw [sq_abs]
  have e : wInt els (fun t p => (q t p + -1 * v t p) ^ 2) =
      wInt els (fun t p => q t p ^ 2) + (-2 * wInt els (fun t p => q t p * v t p) + wInt els fun t p => v t p ^ 2) := by
    rw [← wInt_smul, ← wInt_addc (f := fun t p => -2 * (q t p * v t p)) (g := fun t p => v t p ^ 2)
        (fun t ht => by have := hq t ht; have := hv t ht; fun_prop) (fun t ht => (hv t ht).pow 2),
      ← wInt_addc (f := fun t p => q t p ^ 2) (g := fun t p => -2 * (q t p * v t p) + v t p ^ 2)
        (fun t ht => (hq t ht).pow 2) (fun t ht => by have := hq t ht; have := hv t ht; fun_prop)]
    exact wInt_congr fun t _ p => by ring
  have cs := wInt_cs hE hq hv
  have h1 : wInt els (fun t p => q t p * v t p) ≤ √(wInt els fun t p => q t p ^ 2) * √(wInt els fun t p => v t p ^ 2) := by
    rw [← Real.sqrt_mul n1]
    exact Real.le_sqrt_of_sq_le cs
  have h2 := Real.sq_sqrt n1
  have h3 := Real.sq_sqrt n2
  rw [e]
  nlinarith

/-- The Poincaré inequality for the norm and the mean. -/
theorem field_norm (h₀ : NiceMesh Ω mat els) (hcon : IsPreconnected (interior (region els))) (hA : 0 < wInt els fun _ _ => 1) :
    ∃ C, 0 ≤ C ∧ ∀ (m : ℕ) (els' : List (Tri6 m)), NiceMesh Ω mat els' → ∀ x v, FEField els' x v →
      wInt els' (fun t p => v t p ^ 2) ≤ C * dirichlet els' v v + wInt els' v ^ 2 / wInt els fun _ _ => 1 := by
  obtain ⟨C, hC, key⟩ := field_poincare h₀ hcon
  refine ⟨C, hC, fun m els' h' x v hv => ?_⟩
  obtain ⟨k, hk⟩ := key m els' h' x v hv
  have c0 : ∀ t ∈ els', Continuous (v t) := fun t ht => PolyLE.continuous (hv t ht).1
  have e3 : wInt els' (fun _ _ => (1 : ℝ)) = wInt els fun _ _ => 1 := by
    rw [wInt_body h'.mesh continuous_const, wInt_body h₀.mesh continuous_const]
  have e : wInt els' (fun t p => (v t p - k) ^ 2) =
      wInt els' (fun t p => v t p ^ 2) + (-2 * k * wInt els' v + k ^ 2 * wInt els' fun _ _ => 1) := by
    rw [← wInt_smul, ← wInt_smul, ← wInt_addc (f := fun t p => -2 * k * v t p) (g := fun t p => k ^ 2 * 1)
        (fun t ht => by have := c0 t ht; fun_prop) (fun t ht => by fun_prop),
      ← wInt_addc (f := fun t p => v t p ^ 2) (g := fun t p => -2 * k * v t p + k ^ 2 * 1)
        (fun t ht => (c0 t ht).pow 2) (fun t ht => by have := c0 t ht; fun_prop)]
    exact wInt_congr fun t _ p => by ring
  rw [e, e3] at hk
  set A := wInt els fun _ _ => (1 : ℝ)
  set M := wInt els' v
  have h1 : 0 ≤ (k * A - M) ^ 2 / A := by positivity
  have h2 : (k * A - M) ^ 2 / A = k ^ 2 * A - 2 * k * M + M ^ 2 / A := by field_simp; ring
  linarith

/-- **The mean square of the solutions with zero mean** on ever finer meshes of a connected body has a limit that does not depend on the
meshes. -/
theorem body_norm_limit (h₀ : NiceMesh Ω mat els) (hcon : IsPreconnected (interior (region els))) (hA : 0 < wInt els fun _ _ => 1)
    {l : ℝ × ℝ → ℝ × ℝ × ℝ} (hl : Continuous l) (hb : Balanced Ω mat l) :
    ∃ L, ∀ κ ε, 0 < ε → ∃ δ > 0, ∀ (m : ℕ) (els' : List (Tri6 m)), NiceMesh Ω mat els' → ∀ x v, WeakSol l els' x v →
      wInt els' v = 0 → FineMesh els' δ κ → |√(wInt els' fun t p => v t p ^ 2) - L| ≤ ε := by
  obtain ⟨c, hc⟩ := energy_bound h₀ hcon hl hb
  obtain ⟨C, hC, hbd⟩ := field_norm h₀ hcon hA
  set A := wInt els fun _ _ => (1 : ℝ)
  let α := {a : Σ m : ℕ, List (Tri6 m) × (Fin m → ℝ) × (Tri6 m → ℝ × ℝ → ℝ) //
    NiceMesh Ω mat a.2.1 ∧ WeakSol l a.2.1 a.2.2.1 a.2.2.2 ∧ wInt a.2.1 a.2.2.2 = 0}
  by_cases hne : Nonempty α
  · obtain ⟨a0⟩ := hne
    obtain ⟨L, hL⟩ := limit_of_energy a0 (fun a : α => √(wInt a.1.2.1 fun t p => a.1.2.2.2 t p ^ 2))
      (fun a : α => dirichlet a.1.2.1 a.1.2.2.2 a.1.2.2.2)
      (fun δ κ a => FineMesh a.1.2.1 δ κ) (fun d d' κ a h hd => fineMesh_le h hd) (K := C + 1 / A) (by positivity)
      (fun a => hc _ _ a.2.1 _ _ a.2.2.1)
      (by
        rintro ⟨⟨m, els1, x, q⟩, h1, s1, z1⟩ κ ε hε
        set η := min (ε / 2) (min (ε ^ 2) 1) with hη
        have hη0 : 0 < η := lt_min (by linarith) (lt_min (by positivity) one_pos)
        have hη1 : η ≤ ε / 2 := min_le_left _ _
        have hη2 : η ≤ ε ^ 2 := (min_le_right _ _).trans (min_le_left _ _)
        have hη3 : η ≤ 1 := (min_le_right _ _).trans (min_le_right _ _)
        obtain ⟨δ, hδ, near⟩ := solution_near hl h1 s1 (Φ := fun z => z.2.1 ^ 2) (Ψ := fun z => z.2.1) (by fun_prop) (by fun_prop) κ hη0
        refine ⟨δ, hδ, ?_⟩
        rintro ⟨⟨m', els2, x', q'⟩, h2, s2, z2⟩ hf
        obtain ⟨y, v, hv, e1, e2, e3⟩ := near m' els2 h2 x' q' s2 hf
        change |wInt els2 v - wInt els1 q| ≤ η at e2
        change |(wInt els2 fun t p => v t p ^ 2) - wInt els1 fun t p => q t p ^ 2| ≤ η at e1
        simp only at z1 z2
        have hd := feField_add s2.field (feField_smul (-1) hv)
        have cq : ∀ t ∈ els2, Continuous (q' t) := fun t ht => PolyLE.continuous (s2.field t ht).1
        have cv : ∀ t ∈ els2, Continuous (v t) := fun t ht => PolyLE.continuous (hv t ht).1
        have nn : ∀ {k : ℕ} {l : List (Tri6 k)}, NiceMesh Ω mat l → ∀ q : Tri6 k → ℝ × ℝ → ℝ, 0 ≤ wInt l fun t p => q t p ^ 2 :=
          fun h q => wInt_nonneg h.modulus fun _ _ _ => sq_nonneg _
        refine ⟨√(wInt els2 fun t p => (q' t p + -1 * v t p) ^ 2), ?_, ?_⟩
        · have t1 := norm_sub_wInt h2.modulus cq cv
          have t2 := sqrt_sub_le (nn h2 v) (nn h1 q)
          have t3 : √|(wInt els2 fun t p => v t p ^ 2) - wInt els1 fun t p => q t p ^ 2| ≤ ε :=
            Real.sqrt_le_iff.2 ⟨hε.le, e1.trans hη2⟩
          have t4 := abs_sub_le (√(wInt els2 fun t p => q' t p ^ 2)) (√(wInt els2 fun t p => v t p ^ 2)) (√(wInt els1 fun t p => q t p ^ 2))
          simp only
          linarith
        · rw [Real.sq_sqrt (nn h2 _)]
          have b1 := hbd _ _ h2 _ _ hd
          have b2 : wInt els2 (fun t p => q' t p + -1 * v t p) = - wInt els2 v := by
            rw [wInt_addc (f := q') (g := fun t p => -1 * v t p) cq (fun t ht => by have := cv t ht; fun_prop), wInt_smul, z2]
            ring
          have b3 : wInt els2 v ^ 2 ≤ η := by
            rw [z1, sub_zero] at e2
            have := sq_le_sq' (abs_le.1 e2).1 (abs_le.1 e2).2
            nlinarith
          have b4 : wInt els2 v ^ 2 / A ≤ 1 / A * η := by
            rw [div_mul_eq_mul_div, one_mul]
            exact div_le_div_of_nonneg_right b3 hA.le
          rw [b2, neg_sq] at b1
          have b5 := (dirichlet_nonneg h2.modulus fun t p => q' t p + -1 * v t p).trans e3
          have b6 := mul_le_mul_of_nonneg_left e3 hC
          have b7 : C * (dirichlet els2 q' q' - dirichlet els1 q q + η) ≤ C * (dirichlet els2 q' q' - dirichlet els1 q q + ε) :=
            mul_le_mul_of_nonneg_left (by linarith) hC
          have b8 : 1 / A * η ≤ 1 / A * (dirichlet els2 q' q' - dirichlet els1 q q + ε) :=
            mul_le_mul_of_nonneg_left (by linarith) (by positivity)
          simp only
          linarith)
    refine ⟨L, fun κ ε hε => ?_⟩
    obtain ⟨δ, hδ, h⟩ := hL κ ε hε
    exact ⟨δ, hδ, fun m els' h' x v hv hz hf => h ⟨⟨m, els', x, v⟩, h', hv, hz⟩ hf⟩
  · refine ⟨0, fun κ ε hε => ⟨1, one_pos, fun m els' h' x v hv hz => ?_⟩⟩
    exact absurd ⟨⟨⟨m, els', x, v⟩, h', hv, hz⟩⟩ hne

end SP
