import Verif.Props.BodyWarpGrid

/-!
# C22 on fine meshes: the shear areas for any Poisson's ratio

`C22_violated` is a coarse mesh.  On fine meshes the four point rule is accurate enough.
-/

namespace SP

open Spec MeasureTheory Set Topology Filter

variable {Ω : Set (ℝ × ℝ)} {mat : ℝ × ℝ → Material}

section
variable {s₀ s : Section} {r₀ r : GeomResults} {w₀ : WarpResults s₀.numNodes} {w : WarpResults s.numNodes}

/-- The resultant of the shear field in the direction `(c, d)`, with Cauchy's inequality. -/
theorem energy_resultant (h : SolvedMesh Ω mat s r w) {x : Fin s.numNodes → ℝ} {W : WarpIn} {q f : Tri6 s.numNodes → ℝ × ℝ → ℝ} {c d : ℝ}
    (hq : FEField (centred s r) w.psi q) (hf : FEField (centred s r) w.phiS f)
    (hs : WeakSol (dirLoad W c d) (centred s r) x fun t p => c * q t p + d * f t p) :
    (2 * (1 + W.nu) * wInt (centred s r) fun _ p =>
        ((c * W.ixx - d * W.ixy) * p.1 + (d * W.iyy - c * W.ixy) * p.2) * (c * p.1 + d * p.2)) ^ 2
      ≤ (wInt (centred s r) fun _ _ => 1) * (c ^ 2 + d ^ 2) * shearEnergy (centred s r) W q f c d := by
  have hS := centroidalSetup h.good h.physical h.geom
  have h1 : Continuous fun p => (shearField W c d p).1 := continuous_fst.comp (shearField_cont W c d)
  have h2 : Continuous fun p => (shearField W c d p).2 := continuous_snd.comp (shearField_cont W c d)
  have hw := hs.weak _ _ (feField_add (feField_smul c hS.linX) (feField_smul d hS.linY))
  let F : Tri6 s.numNodes → ℝ × ℝ → ℝ := fun t p => c * (c * dX (q t) p + d * dX (f t) p - (shearField W c d p).1)
    + d * (c * dY (q t) p + d * dY (f t) p - (shearField W c d p).2)
  have cF : ∀ t ∈ centred s r, Continuous (F t) := fun t ht => by
    obtain ⟨-, q1, q2⟩ := field_cont hq ht
    obtain ⟨-, f1, f2⟩ := field_cont hf ht
    fun_prop
  let B : Tri6 s.numNodes → ℝ × ℝ → ℝ := fun t p => c * (shearField W c d p).1 + d * (shearField W c d p).2
  have cB : ∀ t ∈ centred s r, Continuous (B t) := fun t ht => by fun_prop
  have dlin : ∀ p, dX (fun p : ℝ × ℝ => c * p.1 + d * p.2) p = c ∧ dY (fun p : ℝ × ℝ => c * p.1 + d * p.2) p = d := by
    intro p
    constructor <;> simp [dX, dY]
  have e1 : dirichlet (centred s r) (fun _ p => c * p.1 + d * p.2) (fun t p => c * q t p + d * f t p)
      = 1 * wInt (centred s r) F + 1 * wInt (centred s r) B := by
    rw [wInt_lcc _ _ cF cB]
    refine wInt_congr fun t ht p => ?_
    obtain ⟨a1, a2⟩ := d_comb (hq t ht).1 (hf t ht).1 c d p
    obtain ⟨b1, b2⟩ := dlin p
    simp only [F, B, a1, a2, b1, b2]
    ring
  have e2 : loadOn (dirLoad W c d) (centred s r) (fun _ p => c * p.1 + d * p.2)
      = (2 * (1 + W.nu)) * wInt (centred s r) (fun _ p =>
          ((c * W.ixx - d * W.ixy) * p.1 + (d * W.iyy - c * W.ixy) * p.2) * (c * p.1 + d * p.2)) + 1 * wInt (centred s r) B := by
    rw [wInt_lcc _ _ (fun t _ => by fun_prop) cB]
    refine wInt_congr fun t ht p => ?_
    obtain ⟨b1, b2⟩ := dlin p
    have b4 : (dirLoad W c d p).2 = shearField W c d p := rfl
    simp only [alongField, loadAt, b4, B, b1, b2]
    simp only [dirLoad]
    ring
  have e3 : wInt (centred s r) F = 2 * (1 + W.nu) * wInt (centred s r) fun _ p =>
      ((c * W.ixx - d * W.ixy) * p.1 + (d * W.iyy - c * W.ixy) * p.2) * (c * p.1 + d * p.2) := by
    have hw' : dirichlet (centred s r) (fun _ p => c * p.1 + d * p.2) (fun t p => c * q t p + d * f t p)
      = loadOn (dirLoad W c d) (centred s r) (fun _ p => c * p.1 + d * p.2) := hw
    rw [e1, e2] at hw'
    linarith
  have hE : ∀ t ∈ centred s r, 0 < t.material.elasticModulus := hS.physical.modulus
  have cs := wInt_cs hE cF (g := fun _ _ => 1) fun _ _ => continuous_const
  simp only [mul_one, one_pow] at cs
  rw [← e3]
  refine cs.trans ?_
  have n1 : 0 ≤ wInt (centred s r) (fun _ _ => (1 : ℝ)) := wInt_nonneg hE fun _ _ _ => zero_le_one
  have mono : wInt (centred s r) (fun t p => F t p ^ 2) ≤ (c ^ 2 + d ^ 2) * shearEnergy (centred s r) W q f c d := by
    rw [shearEnergy, ← wInt_smul]
    refine wInt_monoc hE (fun t ht => (cF t ht).pow 2) (fun t ht => ?_) fun t ht p _ => ?_
    · obtain ⟨-, q1, q2⟩ := field_cont hq ht
      obtain ⟨-, f1, f2⟩ := field_cont hf ht
      fun_prop
    · simp only [F]
      nlinarith [sq_nonneg (c * (c * dY (q t) p + d * dY (f t) p - (shearField W c d p).2)
        - d * (c * dX (q t) p + d * dX (f t) p - (shearField W c d p).1))]
  calc _ ≤ (c ^ 2 + d ^ 2) * shearEnergy (centred s r) W q f c d * wInt (centred s r) (fun _ _ => (1 : ℝ)) :=
        mul_le_mul_of_nonneg_right mono n1
    _ = _ := by ring

/-- The exact energy of the shear field is at least that of a uniform shear stress. -/
theorem energy_uniform (h : SolvedMesh Ω mat s r w) {x : Fin s.numNodes → ℝ} {q f : Tri6 s.numNodes → ℝ × ℝ → ℝ} {c d : ℝ}
    (hq : FEField (centred s r) w.psi q) (hf : FEField (centred s r) w.phiS f)
    (hs : WeakSol (dirLoad (warpIn s.materials r) c d) (centred s r) x fun t p => c * q t p + d * f t p) :
    (warpIn s.materials r).deltaS ^ 2 * (c ^ 2 + d ^ 2) ≤ r.sums.ea * shearEnergy (centred s r) (warpIn s.materials r) q f c d := by
  have hS := centroidalSetup h.good h.physical h.geom
  have key := energy_resultant h hq hf hs
  have e : wInt (centred s r) (fun _ p => ((c * (warpIn s.materials r).ixx - d * (warpIn s.materials r).ixy) * p.1
      + (d * (warpIn s.materials r).iyy - c * (warpIn s.materials r).ixy) * p.2) * (c * p.1 + d * p.2))
      = (c ^ 2 + d ^ 2) * (r.cent.ixxC * r.cent.iyyC - r.cent.ixyC ^ 2) := by
    simp only [warpIn]
    set a := c * r.cent.ixxC - d * r.cent.ixyC with ha
    set b := d * r.cent.iyyC - c * r.cent.ixyC with hb
    have e1 : wInt (centred s r) (fun _ p => (a * p.1 + b * p.2) * (c * p.1 + d * p.2))
        = a * c * wInt (centred s r) (fun _ p => p.1 ^ 2)
          + 1 * ((a * d + b * c) * wInt (centred s r) (fun _ p => p.1 * p.2) + b * d * wInt (centred s r) (fun _ p => p.2 ^ 2)) := by
      rw [wInt_lcc _ _ (fun t _ => by fun_prop) (fun t _ => by fun_prop), wInt_lcc _ _ (fun t _ => by fun_prop) (fun t _ => by fun_prop)]
      exact wInt_congr fun t _ p => by ring
    rw [e1, centred, hS.ixx, hS.iyy, hS.ixy, ha, hb]
    ring
  have e0 : wInt (centred s r) (fun _ _ => (1 : ℝ)) = r.sums.ea := hS.one
  rw [e, e0] at key
  have eD : 2 * (1 + (warpIn s.materials r).nu) * ((c ^ 2 + d ^ 2) * (r.cent.ixxC * r.cent.iyyC - r.cent.ixyC ^ 2))
      = (c ^ 2 + d ^ 2) * (warpIn s.materials r).deltaS := by
    simp only [WarpIn.deltaS, warpIn]; ring
  rw [eD] at key
  have hea : 0 < r.sums.ea := hS.ea ▸ hS.physical.ea_pos
  have hE : ∀ t ∈ centred s r, 0 < t.material.elasticModulus := hS.physical.modulus
  have hn : 0 ≤ shearEnergy (centred s r) (warpIn s.materials r) q f c d :=
    wInt_nonneg hE fun _ _ _ => add_nonneg (sq_nonneg _) (sq_nonneg _)
  rcases (add_nonneg (sq_nonneg c) (sq_nonneg d)).eq_or_lt with h0 | h0
  · rw [← h0, mul_zero]
    exact mul_nonneg hea.le hn
  · refine le_of_mul_le_mul_left ?_ h0
    linarith

theorem shearField_lin (W : WarpIn) (c d : ℝ) (p : ℝ × ℝ) :
    (shearField W c d p).1 = c * (shearField W 1 0 p).1 + d * (shearField W 0 1 p).1 ∧
    (shearField W c d p).2 = c * (shearField W 1 0 p).2 + d * (shearField W 0 1 p).2 := by
  simp only [shearField, shearParameter]
  constructor <;> ring

theorem ruleSum_lin {n : ℕ} (els : List (Tri6 n)) (a b e : ℝ) (f g h : ℝ × ℝ → ℝ) :
    ruleSum els (fun _ p => a * f p + b * g p + e * h p)
      = a * ruleSum els (fun _ => f) + b * ruleSum els (fun _ => g) + e * ruleSum els (fun _ => h) := by
  simp only [ruleSum]
  induction els with
  | nil => simp
  | cons t l ih =>
    simp only [List.map_cons, List.sum_cons]
    rw [ih]
    simp only [ruleOn, accum_gauss4]
    ring

/-- On fine meshes the coefficients that the rule gives are bounded below in all directions. -/
theorem kappa_fine (h₀ : SolvedMesh Ω mat s₀ r₀ w₀) (hnu : isComposite s₀.materials → r₀.nuEff ≠ -1) (κ : ℝ) {ε : ℝ} (hε : 0 < ε) :
    ∃ δ > 0, ∀ (s : Section) (r : GeomResults) (w : WarpResults s.numNodes), SolvedMesh Ω mat s r w →
      (isComposite s.materials ↔ isComposite s₀.materials) → FineMesh s.elements δ κ → ∀ c d : ℝ,
      (warpIn s.materials r).deltaS ^ 2 / (r.sums.ea + ε) * (c ^ 2 + d ^ 2)
        ≤ kappaIn (centred s r) (warpIn s.materials r) w.psi w.phiS c d := by
  have hS₀ := centroidalSetup h₀.good h₀.physical h₀.geom
  have hea : 0 < r₀.sums.ea := hS₀.ea ▸ hS₀.physical.ea_pos
  have hds := deltaS_ne h₀ hnu
  set W := warpIn s₀.materials r₀ with hW
  have hμ : 0 < W.deltaS ^ 2 := by positivity
  have c1 : ∀ c d, Continuous fun p => (shearField W c d p).1 := fun c d => continuous_fst.comp (shearField_cont W c d)
  have c2 : ∀ c d, Continuous fun p => (shearField W c d p).2 := fun c d => continuous_snd.comp (shearField_cont W c d)
  let g1 : ℝ × ℝ → ℝ := fun p => (shearField W 1 0 p).1 ^ 2 + (shearField W 1 0 p).2 ^ 2
  let g2 : ℝ × ℝ → ℝ := fun p => (shearField W 1 0 p).1 * (shearField W 0 1 p).1 + (shearField W 1 0 p).2 * (shearField W 0 1 p).2
  let g3 : ℝ × ℝ → ℝ := fun p => (shearField W 0 1 p).1 ^ 2 + (shearField W 0 1 p).2 ^ 2
  have k1 : Continuous g1 := ((c1 1 0).pow 2).add ((c2 1 0).pow 2)
  have k2 : Continuous g2 := ((c1 1 0).mul (c1 0 1)).add ((c2 1 0).mul (c2 0 1))
  have k3 : Continuous g3 := ((c1 0 1).pow 2).add ((c2 0 1).pow 2)
  set η := ε * (W.deltaS ^ 2 / r₀.sums.ea) / (2 * (r₀.sums.ea + ε)) with hη
  have hη0 : 0 < η := by positivity
  obtain ⟨δ₁, p1, q1⟩ := ruleSum_cont (solved_nice h₀ h₀) k1 κ hη0
  obtain ⟨δ₂, p2, q2⟩ := ruleSum_cont (solved_nice h₀ h₀) k2 κ hη0
  obtain ⟨δ₃, p3, q3⟩ := ruleSum_cont (solved_nice h₀ h₀) k3 κ hη0
  refine ⟨min δ₁ (min δ₂ δ₃), lt_min p1 (lt_min p2 p3), fun s r w h hc hf c d => ?_⟩
  have hS := centroidalSetup h.good h.physical h.geom
  have f1 := fineMesh_le hf (min_le_left δ₁ (min δ₂ δ₃))
  have f2 := fineMesh_le hf ((min_le_right δ₁ (min δ₂ δ₃)).trans (min_le_left _ _))
  have f3 := fineMesh_le hf ((min_le_right δ₁ (min δ₂ δ₃)).trans (min_le_right _ _))
  have b1 := abs_le.1 (q1 _ _ (solved_nice h₀ h) (fineMesh_shift f1 _ _))
  have b2 := abs_le.1 (q2 _ _ (solved_nice h₀ h) (fineMesh_shift f2 _ _))
  have b3 := abs_le.1 (q3 _ _ (solved_nice h₀ h) (fineMesh_shift f3 _ _))
  obtain ⟨q, hq⟩ := psi_sol h
  obtain ⟨f, hf'⟩ := phi_sol h
  have low := energy_uniform h hq.field hf'.field (dir_sol c d hq hf')
  have eEA : r.sums.ea = r₀.sums.ea := by
    rw [← hS.one, ← hS₀.one]
    exact wInt_const h₀ h (g := fun _ => 1) continuous_const
  have eW : warpIn s.materials r = W := solved_warpIn h₀ h hc
  rw [eW] at low ⊢
  rw [eEA] at low ⊢
  rw [kappa_split (solved_nice h₀ h).proper W hq.field hf'.field c d]
  have eg : ∀ p, (shearField W c d p).1 ^ 2 + (shearField W c d p).2 ^ 2 = c ^ 2 * g1 p + 2 * (c * d) * g2 p + d ^ 2 * g3 p := fun p => by
    rw [(shearField_lin W c d p).1, (shearField_lin W c d p).2]
    simp only [g1, g2, g3]
    ring
  simp only [eg]
  rw [ruleSum_lin]
  have eI : wInt (centred s r) (fun _ p => c ^ 2 * g1 p + 2 * (c * d) * g2 p + d ^ 2 * g3 p)
      = 1 * (c ^ 2 * wInt (centred s r) (fun _ p => g1 p) + 2 * (c * d) * wInt (centred s r) (fun _ p => g2 p))
        + d ^ 2 * wInt (centred s r) (fun _ p => g3 p) := by
    rw [wInt_lcc _ _ (fun _ _ => k1) (fun _ _ => k2), wInt_lcc _ _ (fun _ _ => by fun_prop) (fun _ _ => k3)]
    exact wInt_congr fun t _ p => by ring
  rw [eI]
  set A := ruleSum (centred s r) (fun _ => g1)
  set B := ruleSum (centred s r) (fun _ => g2)
  set C := ruleSum (centred s r) (fun _ => g3)
  set A' := wInt (centred s r) (fun _ p => g1 p)
  set B' := wInt (centred s r) (fun _ p => g2 p)
  set C' := wInt (centred s r) (fun _ p => g3 p)
  set S := shearEnergy (centred s r) W q f c d
  have b1' : -η ≤ A - A' := b1.1
  have b2' : -η ≤ B - B' := b2.1
  have b2'' : B - B' ≤ η := b2.2
  have b3' : -η ≤ C - C' := b3.1
  have hS1 : W.deltaS ^ 2 / r₀.sums.ea * (c ^ 2 + d ^ 2) ≤ S := by
    rw [div_mul_eq_mul_div, div_le_iff₀ hea, mul_comm S]
    exact low
  have hcd : -(2 * η * (c ^ 2 + d ^ 2)) ≤ c ^ 2 * (A - A') + 2 * (c * d) * (B - B') + d ^ 2 * (C - C') := by
    have m1 := mul_nonneg (sq_nonneg c) (by linarith : 0 ≤ A - A' + η)
    have m3 := mul_nonneg (sq_nonneg d) (by linarith : 0 ≤ C - C' + η)
    have m2 := mul_nonneg (sq_nonneg (c + d)) (by linarith : 0 ≤ B - B' + η)
    have m4 := mul_nonneg (sq_nonneg (c - d)) (by linarith : 0 ≤ η - (B - B'))
    nlinarith [m1, m2, m3, m4]
  have e5 : W.deltaS ^ 2 / (r₀.sums.ea + ε) = W.deltaS ^ 2 / r₀.sums.ea - 2 * η := by
    rw [hη]
    field_simp
    ring
  rw [e5]
  nlinarith [hS1, hcd]

/-- **C22** for any Poisson's ratio but `-1`, on fine meshes of a body: the shear areas along the given and along the principal axes are
positive and exceed the modulus-weighted area by as little as wanted, and the mixed shear area satisfies the strict inequality
`(1 / a_sxy)² < (1 / a_sx) (1 / a_sy)`.  What is missing, and false by `C22_violated`, is the statement for coarse meshes. -/
theorem C22_fine_partial (h₀ : SolvedMesh Ω mat s₀ r₀ w₀) (hnu : isComposite s₀.materials → r₀.nuEff ≠ -1) (κ : ℝ) {ε : ℝ} (hε : 0 < ε) :
    ∃ δ > 0, ∀ (s : Section) (r : GeomResults) (w : WarpResults s.numNodes), SolvedMesh Ω mat s r w →
      (isComposite s.materials ↔ isComposite s₀.materials) → FineMesh s.elements δ κ →
      (0 < w.areas.sx ∧ w.areas.sx ≤ r.sums.ea + ε) ∧ (0 < w.areas.sy ∧ w.areas.sy ≤ r.sums.ea + ε) ∧
      (0 < w.areas.s11 ∧ w.areas.s11 ≤ r.sums.ea + ε) ∧ (0 < w.areas.s22 ∧ w.areas.s22 ≤ r.sums.ea + ε) ∧
      (1 / w.areas.sxy) ^ 2 < 1 / w.areas.sx * (1 / w.areas.sy) := by
  obtain ⟨δ, hδ, key⟩ := kappa_fine h₀ hnu κ hε
  refine ⟨δ, hδ, fun s r w h hc hf => ?_⟩
  have low := key s r w h hc hf
  have hS := centroidalSetup h.good h.physical h.geom
  have hea : 0 < r.sums.ea := hS.ea ▸ hS.physical.ea_pos
  have hds : (warpIn s.materials r).deltaS ≠ 0 := by
    rw [solved_warpIn h₀ h hc]; exact deltaS_ne h₀ hnu
  have hD : 0 < (warpIn s.materials r).deltaS ^ 2 := by positivity
  have four : ∀ i, 0 < fourAreas w i ∧ fourAreas w i ≤ r.sums.ea + ε := fun i => by
    have hn : (fourDirs (warpIn s.materials r).phi i).1 ^ 2 + (fourDirs (warpIn s.materials r).phi i).2 ^ 2 = 1 := by
      fin_cases i
      · norm_num [fourDirs]
      · norm_num [fourDirs]
      · simp [fourDirs]
      · simp [fourDirs]
    have l := low (fourDirs (warpIn s.materials r).phi i).1 (fourDirs (warpIn s.materials r).phi i).2
    rw [hn, mul_one] at l
    have hp : 0 < (warpIn s.materials r).deltaS ^ 2 / (r.sums.ea + ε) := by positivity
    rw [areas_kappa h i]
    refine ⟨div_pos hD (hp.trans_le l), ?_⟩
    rw [div_le_iff₀ (hp.trans_le l)]
    rwa [div_le_iff₀ (by positivity), mul_comm] at l
  refine ⟨four 0, four 1, four 2, four 3, ?_⟩
  obtain ⟨sv, ty, hw⟩ := h.warp
  obtain ⟨-, -, -, -, -, -, -, ha, -⟩ := warping_ok hw
  change w.areas = shearAreas (warpIn s.materials r) (shearDeformation (centred s r) (warpIn s.materials r) w.psi w.phiS) at ha
  rw [ha]
  set k := shearDeformation (centred s r) (warpIn s.materials r) w.psi w.phiS with hk
  set D := (warpIn s.materials r).deltaS with hDd
  have hm : 0 < D ^ 2 / (r.sums.ea + ε) := by positivity
  have l1 := low 1 0
  have l2 := low k.y (-k.xy)
  have l3 := low 0 1
  simp only [kappaIn, ← hk] at l1 l2 l3
  have ky : 0 < k.y := lt_of_lt_of_le hm (by linarith [l3])
  have hpos : 0 < k.y * (k.x * k.y - k.xy ^ 2) := by
    have : 0 < D ^ 2 / (r.sums.ea + ε) * (k.y ^ 2 + (-k.xy) ^ 2) := by positivity
    nlinarith
  have hlt : k.xy ^ 2 < k.x * k.y := by
    have := (pos_iff_pos_of_mul_pos hpos).1 ky
    linarith
  simp only [shearAreas, one_div_div, ← hDd]
  rw [div_pow, div_mul_div_comm, ← pow_two (D ^ 2)]
  exact div_lt_div_of_pos_right hlt (by positivity)

/-- The rectangle `b × d` of a material other than the default one, in `k × k` cells. -/
theorem grid_solved_of {b d : ℝ} (hb : 0 < b) (hd : 0 < d) (m : MatObj) (hE : 0 < m.val.elasticModulus) (hm : m.val ≠ defaultMaterial)
    {k : ℕ} (hk : 0 < k) : ∃ (s : Section) (r : GeomResults)
    (w : WarpResults s.numNodes), Section.init (gridGeom k (b / k) (d / k) m) = .ok s ∧
    s.geometricAnalysis = .ok r ∧ s.warping exactSolvers .direct r = .ok w ∧
    SolvedMesh (Ioo (0 : ℝ) (0 + b) ×ˢ Ioo (0 : ℝ) (0 + d)) (fun _ => m.val) s r w ∧ isComposite s.materials ∧
    (∀ t ∈ s.elements, t.material = m.val) ∧
    FineMesh s.elements (√(b ^ 2 + d ^ 2) / k) ((b ^ 2 + d ^ 2) / (b * d)) := by
  have hkr : (0 : ℝ) < k := by exact_mod_cast hk
  have hx : 0 < b / k := by positivity
  have hy : 0 < d / k := by positivity
  have hP : Physical (gridSection k (b / k) (d / k) m).elements := grid_physical hk hx hy hE
  have hg := grid_good hk hx hy m
  obtain ⟨r, hr⟩ := geometricAnalysis_ok (gridSection k (b / k) (d / k) m) (by simp [gridSection])
  obtain ⟨w, hw, h0, h1, h2⟩ := exact_warping _ r hg hP hr (grid_linked hk m r.cx r.cy)
  have hun : ∀ t ∈ (gridSection k (b / k) (d / k) m).elements, t.material = m.val := by
    intro t ht
    obtain ⟨i, j, s, n, -, rfl⟩ := mem_grid ht
    rfl
  have hcov : region (gridSection k (b / k) (d / k) m).elements =ᵐ[volume] Ioo (0 : ℝ) (0 + b) ×ˢ Ioo (0 : ℝ) (0 + d) := by
    have := grid_covers (k := k) hx hy m
    rwa [mul_div_cancel₀ _ hkr.ne', mul_div_cancel₀ _ hkr.ne'] at this
  refine ⟨gridSection k (b / k) (d / k) m, r, w, grid_init hk m, hr, hw, ⟨hg, hP, grid_conforming hx hy m,
    ⟨grid_noOverlap hx hy m, hcov, fun t ht => Filter.Eventually.of_forall fun _ _ => (hun t ht).symm⟩, hr, ⟨_, _, hw⟩, h0, h1, h2⟩,
    by simp [isComposite, gridSection, hm], hun, ?_⟩
  have := grid_fine (k := k) hx hy m
  have e1 : (b / k) ^ 2 + (d / k) ^ 2 = (b ^ 2 + d ^ 2) / k ^ 2 := by field_simp
  have e2 : (b ^ 2 + d ^ 2) / k ^ 2 / (b / k * (d / k)) = (b ^ 2 + d ^ 2) / (b * d) := by field_simp
  rwa [e1, e2, Real.sqrt_div (by positivity), Real.sqrt_sq hkr.le] at this

/-- **C22** for a rectangle of any material other than the default one, for example steel with Poisson's ratio `3/10`: the analysis of all
fine enough grids reports positive shear areas that exceed the weighted area by as little as wanted.  The hypotheses of `C22_fine_partial`
are met. -/
theorem C22_rectangle_partial {b d : ℝ} (hb : 0 < b) (hd : 0 < d) (m : MatObj) (hE : 0 < m.val.elasticModulus)
    (hν : -1 < m.val.poissonsRatio) (hm : m.val ≠ defaultMaterial) {ε : ℝ} (hε : 0 < ε) :
    ∃ K : ℕ, ∀ k ≥ K, ∃ (s : Section) (r : GeomResults) (w : WarpResults s.numNodes),
      Section.init (gridGeom k (b / k) (d / k) m) = .ok s ∧ s.geometricAnalysis = .ok r ∧ s.warping exactSolvers .direct r = .ok w ∧
      r.nuEff = m.val.poissonsRatio ∧
      (0 < w.areas.sx ∧ w.areas.sx ≤ r.sums.ea + ε) ∧ (0 < w.areas.sy ∧ w.areas.sy ≤ r.sums.ea + ε) ∧
      (0 < w.areas.s11 ∧ w.areas.s11 ≤ r.sums.ea + ε) ∧ (0 < w.areas.s22 ∧ w.areas.s22 ≤ r.sums.ea + ε) ∧
      (1 / w.areas.sxy) ^ 2 < 1 / w.areas.sx * (1 / w.areas.sy) := by
  have nu : ∀ (s : Section) (r : GeomResults) (w : WarpResults s.numNodes),
      SolvedMesh (Ioo (0 : ℝ) (0 + b) ×ˢ Ioo (0 : ℝ) (0 + d)) (fun _ => m.val) s r w → (∀ t ∈ s.elements, t.material = m.val) →
      r.nuEff = m.val.poissonsRatio := fun s r w h hu => by
    obtain ⟨-, -, -, -, -, -, -, h8⟩ := C13_effective h.geom h.physical fun t ht => by rw [hu t ht]; exact hν
    exact (h8 m.val.elasticModulus m.val.poissonsRatio fun t ht => by rw [hu t ht]; exact ⟨rfl, rfl⟩).2
  obtain ⟨s₀, r₀, w₀, -, -, -, h₀, hc₀, hu₀, -⟩ := grid_solved_of hb hd m hE hm one_pos
  obtain ⟨δ, hδ, key⟩ := C22_fine_partial h₀ (fun _ => by rw [nu s₀ r₀ w₀ h₀ hu₀]; exact hν.ne') ((b ^ 2 + d ^ 2) / (b * d)) hε
  obtain ⟨K, hK0, hK⟩ := grid_small (b := b) (d := d) hδ
  refine ⟨K, fun k hk => ?_⟩
  obtain ⟨s, r, w, h1, h2, h3, h4, h5, h6, h7⟩ := grid_solved_of hb hd m hE hm (lt_of_lt_of_le hK0 hk)
  exact ⟨s, r, w, h1, h2, h3, nu s r w h4 h6, key s r w h4 (iff_of_true h5 hc₀) (fineMesh_mono h7 (hK k hk))⟩

/-- A steel rectangle meets the hypotheses. -/
example : ∃ K : ℕ, ∀ k ≥ K, ∃ (s : Section) (r : GeomResults) (w : WarpResults s.numNodes),
    Section.init (gridGeom k (200 / k) (100 / k) ⟨1, ⟨"steel", 200000, 3 / 10, 500, 1, "grey"⟩⟩) = .ok s ∧
    s.geometricAnalysis = .ok r ∧ s.warping exactSolvers .direct r = .ok w ∧ r.nuEff = 3 / 10 ∧ 0 < w.areas.sx ∧ 0 < w.areas.sy := by
  obtain ⟨K, h⟩ := C22_rectangle_partial (b := 200) (d := 100) (by norm_num) (by norm_num)
    ⟨1, ⟨"steel", 200000, 3 / 10, 500, 1, "grey"⟩⟩ (by norm_num) (by norm_num)
    (fun h => by have := congrArg Material.elasticModulus h; norm_num [defaultMaterial] at this) one_pos
  refine ⟨K, fun k hk => ?_⟩
  obtain ⟨s, r, w, h1, h2, h3, h4, h5, h6, -⟩ := h k hk
  exact ⟨s, r, w, h1, h2, h3, h4, h5.1, h6.1⟩

end

end SP
