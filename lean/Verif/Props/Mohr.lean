import Verif.Spec.Mohr
import Verif.Props.StressState
import Mathlib.Analysis.Matrix.Spectrum

/-!
# C68: Mohr's circles
-/

namespace SP

open Classical Spec Matrix

/-! ### The eigenvalue decomposition -/

section
variable {s t u : ℝ} {r : (Fin 3 → ℝ) × Matrix (Fin 3) (Fin 3) ℝ}

theorem eig_rows (h : EigCorrect (stressTensor s t u) r) (j : Fin 3) :
    t * r.2 2 j = r.1 j * r.2 0 j ∧ u * r.2 2 j = r.1 j * r.2 1 j ∧
    t * r.2 0 j + u * r.2 1 j + s * r.2 2 j = r.1 j * r.2 2 j := by
  have h0 := h.2.2 0 j
  have h1 := h.2.2 1 j
  have h2 := h.2.2 2 j
  simp [Fin.sum_univ_three, stressTensor] at h0 h1 h2
  exact ⟨h0, h1, h2⟩

/-- Different columns are orthogonal as far as it matters. -/
theorem eig_orth (h : EigCorrect (stressTensor s t u) r) {i j : Fin 3} (hij : i ≠ j) :
    r.1 j * ∑ k, r.2 k i * r.2 k j = 0 := by
  obtain ⟨a1, a2, a3⟩ := eig_rows h i
  obtain ⟨b1, b2, b3⟩ := eig_rows h j
  by_cases hs : r.1 i = r.1 j
  · by_cases h0 : r.1 j = 0
    · rw [h0, zero_mul]
    · exfalso
      -- both columns are multiples of (t, u, s_j)
      rw [hs] at a1 a2
      have e0 : ∀ k, r.2 2 j * r.2 k i = r.2 2 i * r.2 k j := by
        intro k
        have hk : k = 0 ∨ k = 1 ∨ k = 2 := by fin_cases k <;> simp
        rcases hk with rfl | rfl | rfl
        · apply mul_left_cancel₀ h0; linear_combination r.2 2 i * b1 - r.2 2 j * a1
        · apply mul_left_cancel₀ h0; linear_combination r.2 2 i * b2 - r.2 2 j * a2
        · ring
      have hz : r.2 2 i ≠ 0 ∧ r.2 2 j ≠ 0 := by
        have key : ∀ m, t * r.2 2 m = r.1 j * r.2 0 m → u * r.2 2 m = r.1 j * r.2 1 m → r.2 2 m ≠ 0 := by
          intro m c1 c2 hz
          rw [hz, mul_zero] at c1 c2
          have hn := h.2.1 m
          rw [Fin.sum_univ_three, hz, (mul_eq_zero.1 c1.symm).resolve_left h0,
            (mul_eq_zero.1 c2.symm).resolve_left h0] at hn
          norm_num at hn
        exact ⟨key i a1 a2, key j b1 b2⟩
      -- so the matrix is singular
      have hdet : r.2.det = 0 := by
        have := Matrix.exists_mulVec_eq_zero_iff (M := r.2)
        refine this.1 ⟨fun k => if k = i then r.2 2 j else if k = j then -r.2 2 i else 0, ?_, ?_⟩
        · intro hv
          have := congrFun hv i
          simp at this
          exact hz.2 this
        · funext k
          simp only [mulVec, dotProduct, Pi.zero_apply]
          rw [Finset.sum_eq_add (a := i) (b := j) hij]
          · simp [hij.symm]; linear_combination e0 k
          · intro c _ hc; simp [hc.1, hc.2]
          · simp
          · simp
      exact h.1.ne_zero hdet
  · have : (r.1 i - r.1 j) * ∑ k, r.2 k i * r.2 k j = 0 := by
      rw [Fin.sum_univ_three]
      linear_combination (-r.2 0 j) * a1 - r.2 1 j * a2 - r.2 2 j * a3 + r.2 0 i * b1 + r.2 1 i * b2
        + r.2 2 i * b3
    rw [(mul_eq_zero.1 this).resolve_left (sub_ne_zero.2 hs), mul_zero]

/-- Traction on a face in the coordinates of the program. -/
theorem face_sums (h : EigCorrect (stressTensor s t u) r) (c : Fin 3) :
    ∑ i, r.2⁻¹ i c * (r.1 i * r.2⁻¹ i c) = stressTensor s t u c c ∧
    ∑ i, (r.1 i * r.2⁻¹ i c) ^ 2 = ∑ k, stressTensor s t u k c ^ 2 := by
  set A := stressTensor s t u with hA
  have hu : r.2 * r.2⁻¹ = 1 := Matrix.mul_nonsing_inv _ h.1
  have hAN : A * r.2 = r.2 * Matrix.diagonal r.1 := by
    ext i j
    rw [Matrix.mul_apply, h.2.2 i j, Matrix.mul_diagonal, mul_comm]
  have hdec : A = r.2 * Matrix.diagonal r.1 * r.2⁻¹ := by
    rw [← hAN, mul_assoc, hu, mul_one]
  have hsym : ∀ i j, A i j = A j i := by
    intro i j; fin_cases i <;> fin_cases j <;> simp [hA, stressTensor]
  -- Gram matrix times diagonal
  have hG : r.2ᵀ * r.2 * Matrix.diagonal r.1 = Matrix.diagonal r.1 := by
    ext i j
    rw [Matrix.mul_diagonal, Matrix.mul_apply]
    by_cases hij : i = j
    · subst hij
      rw [Matrix.diagonal_apply_eq]
      have := h.2.1 i
      simp only [Matrix.transpose_apply, ← sq, this, one_mul]
    · rw [Matrix.diagonal_apply_ne _ hij]
      have := eig_orth h hij
      simp only [Matrix.transpose_apply]
      rw [mul_comm]; exact this
  constructor
  · have e : (r.2⁻¹)ᵀ * Matrix.diagonal r.1 * r.2⁻¹ = A := by
      conv_lhs => rw [← hG]
      rw [hdec, ← mul_assoc, ← mul_assoc, ← Matrix.transpose_mul, hu]
      simp
    have := congrFun (congrFun e c) c
    rw [← this, Matrix.mul_apply]
    exact Finset.sum_congr rfl fun i _ => by
      rw [Matrix.mul_diagonal, Matrix.transpose_apply]; ring
  · have e : (r.2⁻¹)ᵀ * Matrix.diagonal r.1 * (Matrix.diagonal r.1 * r.2⁻¹) = Aᵀ * A := by
      have h1 : Matrix.diagonal r.1 * r.2ᵀ * r.2 = Matrix.diagonal r.1 := by
        have := congrArg Matrix.transpose hG
        simpa [Matrix.transpose_mul, mul_assoc] using this
      have h2 : Aᵀ = (r.2⁻¹)ᵀ * Matrix.diagonal r.1 * r.2ᵀ := by
        conv_lhs => rw [hdec]
        simp [Matrix.transpose_mul, mul_assoc]
      rw [h2]
      conv_rhs => rw [hdec]
      calc _ = (r.2⁻¹)ᵀ * (Matrix.diagonal r.1) * (Matrix.diagonal r.1 * r.2⁻¹) := rfl
        _ = (r.2⁻¹)ᵀ * (Matrix.diagonal r.1 * r.2ᵀ * r.2) * (Matrix.diagonal r.1 * r.2⁻¹) := by rw [h1]
        _ = _ := by simp only [mul_assoc]
    have := congrFun (congrFun e c) c
    rw [Matrix.mul_apply, Matrix.mul_apply] at this
    have e1 : ∀ i, ((r.2⁻¹)ᵀ * Matrix.diagonal r.1) c i * (Matrix.diagonal r.1 * r.2⁻¹) i c
        = (r.1 i * r.2⁻¹ i c) ^ 2 := by
      intro i
      rw [Matrix.mul_diagonal, Matrix.diagonal_mul, Matrix.transpose_apply]; ring
    simp only [e1] at this
    rw [this]
    exact Finset.sum_congr rfl fun k _ => by rw [Matrix.transpose_apply]; ring

theorem eig_invariants (h : EigCorrect (stressTensor s t u) r) :
    r.1 0 + r.1 1 + r.1 2 = s ∧ r.1 0 * r.1 1 * r.1 2 = 0 ∧
    r.1 0 ^ 2 + r.1 1 ^ 2 + r.1 2 ^ 2 = s ^ 2 + 2 * (t ^ 2 + u ^ 2) := by
  set A := stressTensor s t u with hA
  have hu : r.2 * r.2⁻¹ = 1 := Matrix.mul_nonsing_inv _ h.1
  have hu' : r.2⁻¹ * r.2 = 1 := Matrix.nonsing_inv_mul _ h.1
  have hAN : A * r.2 = r.2 * Matrix.diagonal r.1 := by
    ext i j
    rw [Matrix.mul_apply, h.2.2 i j, Matrix.mul_diagonal, mul_comm]
  have hdec : A = r.2 * Matrix.diagonal r.1 * r.2⁻¹ := by
    rw [← hAN, mul_assoc, hu, mul_one]
  have htr : A.trace = (Matrix.diagonal r.1).trace := by
    rw [hdec, Matrix.trace_mul_comm, ← mul_assoc, hu', one_mul]
  have htr2 : (A * A).trace = (Matrix.diagonal r.1 * Matrix.diagonal r.1).trace := by
    have : A * A = r.2 * (Matrix.diagonal r.1 * Matrix.diagonal r.1) * r.2⁻¹ := by
      calc A * A = A * (r.2 * Matrix.diagonal r.1 * r.2⁻¹) := by rw [← hdec]
        _ = A * r.2 * Matrix.diagonal r.1 * r.2⁻¹ := by simp only [mul_assoc]
        _ = _ := by rw [hAN]; simp only [mul_assoc]
    rw [this, Matrix.trace_mul_comm, ← mul_assoc, hu', one_mul]
  have hdet : A.det = (Matrix.diagonal r.1).det := by
    rw [hdec, Matrix.det_mul, Matrix.det_mul, mul_comm, ← mul_assoc, ← Matrix.det_mul, hu',
      Matrix.det_one, one_mul]
  refine ⟨?_, ?_, ?_⟩
  · rw [Matrix.trace_fin_three, Matrix.trace_fin_three] at htr
    simp [hA, stressTensor] at htr
    linarith
  · rw [Matrix.det_diagonal, Fin.prod_univ_three] at hdet
    rw [← hdet, Matrix.det_fin_three]
    simp [hA, stressTensor]
  · rw [Matrix.trace_fin_three, Matrix.trace_fin_three] at htr2
    simp [hA, stressTensor, Matrix.mul_apply, Fin.sum_univ_three, Matrix.diagonal] at htr2
    linarith

/-- The largest and the smallest principal stress. -/
noncomputable def major (s t u : ℝ) : ℝ := s / 2 + √((s / 2) ^ 2 + (t ^ 2 + u ^ 2))
noncomputable def minor (s t u : ℝ) : ℝ := s / 2 - √((s / 2) ^ 2 + (t ^ 2 + u ^ 2))

theorem minor_le (s t u : ℝ) : minor s t u ≤ 0 := by
  have : |s / 2| ≤ √((s / 2) ^ 2 + (t ^ 2 + u ^ 2)) := Real.abs_le_sqrt (by nlinarith [sq_nonneg t, sq_nonneg u])
  have := (abs_le.1 this).2
  unfold minor; linarith

theorem major_ge (s t u : ℝ) : 0 ≤ major s t u := by
  have : |s / 2| ≤ √((s / 2) ^ 2 + (t ^ 2 + u ^ 2)) := Real.abs_le_sqrt (by nlinarith [sq_nonneg t, sq_nonneg u])
  have := (abs_le.1 this).1
  unfold major; linarith

theorem roots {a b s t u : ℝ} (h1 : a + b = s) (h2 : a ^ 2 + b ^ 2 = s ^ 2 + 2 * (t ^ 2 + u ^ 2)) :
    a = minor s t u ∧ b = major s t u ∨ b = minor s t u ∧ a = major s t u := by
  set q := √((s / 2) ^ 2 + (t ^ 2 + u ^ 2)) with hq
  have hqq : q ^ 2 = (s / 2) ^ 2 + (t ^ 2 + u ^ 2) := Real.sq_sqrt (by positivity)
  have hfac : (a - (s / 2 - q)) * (a - (s / 2 + q)) = 0 := by
    obtain rfl : b = s - a := by linarith
    linear_combination 1 / 2 * h2 - hqq
  rcases mul_eq_zero.1 hfac with h | h
  · left; unfold minor major; constructor <;> linarith
  · right; unfold minor major; constructor <;> linarith

theorem eig_sorted (h : EigCorrect (stressTensor s t u) r) :
    (List.ofFn r.1).insertionSort (· ≤ ·) = [minor s t u, 0, major s t u] := by
  obtain ⟨h1, h2, h3⟩ := eig_invariants h
  have hp : (List.ofFn r.1).Perm [minor s t u, 0, major s t u] := by
    have e : List.ofFn r.1 = [r.1 0, r.1 1, r.1 2] := by simp [List.ofFn_succ]
    rw [e]
    rcases mul_eq_zero.1 h2 with h2 | h0
    · rcases mul_eq_zero.1 h2 with h0 | h0
      · rw [h0] at h1 h3 ⊢
        rcases roots (a := r.1 1) (b := r.1 2) (s := s) (t := t) (u := u) (by linarith) (by linarith) with ⟨ha, hb⟩ | ⟨ha, hb⟩ <;>
          rw [ha, hb]
        · exact List.Perm.swap _ _ _
        · exact (List.Perm.cons _ (List.Perm.swap _ _ _)).trans (List.Perm.swap _ _ _)
      · rw [h0] at h1 h3 ⊢
        rcases roots (a := r.1 0) (b := r.1 2) (s := s) (t := t) (u := u) (by linarith) (by linarith) with ⟨ha, hb⟩ | ⟨ha, hb⟩ <;>
          rw [ha, hb]
        exact ((List.Perm.swap _ _ _).trans (List.Perm.cons _ (List.Perm.swap _ _ _))).trans
          (List.Perm.swap _ _ _)
    · rw [h0] at h1 h3 ⊢
      rcases roots (a := r.1 0) (b := r.1 1) (s := s) (t := t) (u := u) (by linarith) (by linarith) with ⟨ha, hb⟩ | ⟨ha, hb⟩ <;>
        rw [ha, hb]
      · exact List.Perm.cons _ (List.Perm.swap _ _ _)
      · exact (List.Perm.swap _ _ _).trans (List.Perm.cons _ (List.Perm.swap _ _ _))
  refine List.Perm.eq_of_pairwise (le := (· ≤ ·)) (fun a b _ _ h1 h2 => le_antisymm h1 h2)
    (List.pairwise_insertionSort _ _) ?_ ((List.perm_insertionSort _ _).trans hp)
  simp [minor_le, major_ge, (minor_le s t u).trans (major_ge s t u)]

/-- **C68**, for a given stress tensor. -/
theorem mohr_plot {eig} (h : EigCorrect (stressTensor s t u) (eig (stressTensor s t u))) :
    (mohrPlot eig (stressTensor s t u)).circles =
      [((minor s t u + 0) / 2, (0 - minor s t u) / 2),
       ((minor s t u + major s t u) / 2, (major s t u - minor s t u) / 2),
       ((0 + major s t u) / 2, (major s t u - 0) / 2)] ∧
    ∀ c, (mohrPlot eig (stressTensor s t u)).faces c
      = (normalOn (stressTensor s t u) c, shearOn (stressTensor s t u) c) := by
  constructor
  · simp only [mohrPlot, eig_sorted h]
    simp only [List.getD_cons_zero, List.getD_cons_succ, List.cons.injEq, Prod.mk.injEq, and_true]
    refine ⟨⟨?_, ?_⟩, ⟨?_, ?_⟩, ?_, ?_⟩ <;> ring
  · intro c
    obtain ⟨e1, e2⟩ := face_sums h c
    simp only [mohrPlot, e1, e2, normalOn, shearOn, Prod.mk.injEq, true_and]
    rw [Real.sq_sqrt (Finset.sum_nonneg fun _ _ => sq_nonneg _)]
    congr 1
    fin_cases c <;> simp [Fin.sum_univ_three, stressTensor]

end

/-! ### The point in the mesh -/

section
variable {n : ℕ} (m : MohrIn n)

theorem mohrGroup_spec (find : List ℕ → ℝ × ℝ → Option ℕ) (pt : ℝ × ℝ) :
    (mohrGroup m find pt = none ↔ ∀ g ∈ m.groups, find g.1 pt = none) ∧
    ∀ g, mohrGroup m find pt = some g → g ∈ m.groups ∧ (find g.1 pt).isSome := by
  unfold mohrGroup
  induction m.groups using List.reverseRecOn with
  | nil => simp
  | append_singleton l g ih =>
    rw [List.foldl_append, List.foldl_cons, List.foldl_nil]
    by_cases h : (find g.1 pt).isSome
    · rw [if_pos h]
      refine ⟨⟨nofun, fun hn => ?_⟩, ?_⟩
      · rw [hn g (by simp)] at h; cases h
      · rintro g' h'
        obtain rfl := Option.some.inj h'
        exact ⟨by simp, h⟩
    · rw [if_neg h]
      have hn : find g.1 pt = none := Option.not_isSome_iff_eq_none.1 h
      refine ⟨?_, fun g' h' => ?_⟩
      · rw [ih.1]
        constructor
        · intro ha g' hg'
          rcases List.mem_append.1 hg' with hg' | hg'
          · exact ha g' hg'
          · rw [List.mem_singleton.1 hg']; exact hn
        · intro ha g' hg'
          exact ha g' (by simp [hg'])
      · obtain ⟨h1, h2⟩ := ih.2 g' h'
        exact ⟨by simp [h1], h2⟩

/-- The interpolation formula uses the barycentric coordinates. -/
theorem triInterp_eq {k : ℕ} {pt : ℝ × ℝ} {w : Fin 3 → ℝ} (z : Fin n → ℝ)
    (hd : cross3 (m.nodes (m.corners k 0)) (m.nodes (m.corners k 1)) (m.nodes (m.corners k 2)) ≠ 0)
    (hw : Barycentric (fun i => m.nodes (m.corners k i)) pt w) :
    triInterp m z k pt = ∑ i, w i * z (m.corners k i) := by
  obtain ⟨-, h1, h2, h3⟩ := hw
  rw [Fin.sum_univ_three] at h1 h2 h3
  rw [Fin.sum_univ_three]
  have hw0 : w 0 = 1 - w 1 - w 2 := by linarith
  simp only [triInterp]
  set d := cross3 (m.nodes (m.corners k 0)) (m.nodes (m.corners k 1)) (m.nodes (m.corners k 2)) with hdd
  have e0 : cross3 pt (m.nodes (m.corners k 1)) (m.nodes (m.corners k 2)) = w 0 * d := by
    rw [hdd]; simp only [cross3, ← h2, ← h3, hw0]; ring
  have e1 : cross3 (m.nodes (m.corners k 0)) pt (m.nodes (m.corners k 2)) = w 1 * d := by
    rw [hdd]; simp only [cross3, ← h2, ← h3, hw0]; ring
  have e2 : cross3 (m.nodes (m.corners k 0)) (m.nodes (m.corners k 1)) pt = w 2 * d := by
    rw [hdd]; simp only [cross3, ← h2, ← h3, hw0]; ring
  rw [e0, e1, e2, mul_div_assoc, mul_div_assoc, mul_div_assoc, div_self hd]
  ring

theorem sum_nodes (c : Fin 3 → Fin n) (w : Fin 3 → ℝ) (z : Fin n → ℝ) :
    ∑ i, w i * z (c i) = ∑ j, (∑ i, if c i = j then w i else 0) * z j := by
  simp only [Finset.sum_mul, ite_mul, zero_mul]
  rw [Finset.sum_comm]
  simp

end

/-! ### The theorems -/

/-- **C68** (1).  `plot_mohrs_circles` raises `ValueError` exactly if the point lies in no element. -/
theorem C68_outside {n : ℕ} (m : MohrIn n) {find} (hf : FinderCorrect m find) (eig) (pt : ℝ × ℝ) :
    plotMohr m find eig pt = .error .valueError ↔ ∀ g ∈ m.groups, ∀ k ∈ g.1, ¬ InElement m k pt := by
  have h1 := (mohrGroup_spec m find pt).1
  have h2 : (∀ g ∈ m.groups, find g.1 pt = none) ↔ ∀ g ∈ m.groups, ∀ k ∈ g.1, ¬ InElement m k pt := by
    constructor
    · intro h g hg
      exact (hf g.1 pt).2 (h g hg)
    · intro h g hg
      cases hfd : find g.1 pt with
      | none => rfl
      | some k =>
        obtain ⟨a, b⟩ := (hf g.1 pt).1 k hfd
        exact absurd b (h g hg k a)
  rw [← h2, ← h1]
  unfold plotMohr
  cases mohrGroup m find pt <;> simp

/-- **C68** (2).  For a point of the mesh the plot shows the state of stress at the point in a material
group that contains it: the stresses are the nodal stresses of that group, interpolated linearly in any
element of the group that contains the point; the three circles have as diameters the pairs of principal
stresses `σ1 ≥ σ2 ≥ σ3` of the stress tensor (and `σ2` is zero); the three points are the normal stress and
the magnitude of the shear stress on the X-, Y- and Z-face. -/
theorem C68_circles {n : ℕ} (m : MohrIn n) {find eig} (hf : FinderCorrect m find) (hm : Conforming m)
    (hids : ∀ g ∈ m.groups, ∀ k ∈ g.1, k < m.numEls)
    (he : ∀ s t u, EigCorrect (beamTensor s t u) (eig (beamTensor s t u))) (pt : ℝ × ℝ)
    (hpt : ∃ g ∈ m.groups, ∃ k ∈ g.1, InElement m k pt) :
    ∃ plot, plotMohr m find eig pt = .ok plot ∧
    ∃ g ∈ m.groups, (∃ k ∈ g.1, InElement m k pt) ∧ ∃ szz tzx tzy s1 s2 s3 : ℝ,
      (∀ k ∈ g.1, ∀ w, Barycentric (fun i => m.nodes (m.corners k i)) pt w →
        szz = ∑ i, w i * (g.2 (m.corners k i)).zz ∧ tzx = ∑ i, w i * (g.2 (m.corners k i)).zx ∧
        tzy = ∑ i, w i * (g.2 (m.corners k i)).zy) ∧
      s3 ≤ s2 ∧ s2 ≤ s1 ∧ s2 = 0 ∧
      (∀ x, (Matrix.diagonal (fun _ => x) - beamTensor szz tzx tzy).det = (x - s1) * (x - s2) * (x - s3)) ∧
      plot.circles = [((s2 + s3) / 2, (s2 - s3) / 2), ((s1 + s3) / 2, (s1 - s3) / 2),
        ((s1 + s2) / 2, (s1 - s2) / 2)] ∧
      ∀ c, plot.faces c = (normalOn (beamTensor szz tzx tzy) c, shearOn (beamTensor szz tzx tzy) c) := by
  obtain ⟨hg0, hg1⟩ := mohrGroup_spec m find pt
  cases hg : mohrGroup m find pt with
  | none =>
    obtain ⟨g, hgm, k, hk, hin⟩ := hpt
    exact absurd hin ((hf g.1 pt).2 (hg0.1 hg g hgm) k hk)
  | some g =>
    obtain ⟨hgm, hsome⟩ := hg1 g hg
    obtain ⟨k0, hk0⟩ := Option.isSome_iff_exists.1 hsome
    obtain ⟨hk0m, hk0in⟩ := (hf g.1 pt).1 k0 hk0
    have hk0lt := hids g hgm k0 hk0m
    obtain ⟨k1, hk1⟩ : ∃ k1, find (List.range m.numEls) pt = some k1 := by
      cases h : find (List.range m.numEls) pt with
      | none => exact absurd hk0in ((hf _ pt).2 h k0 (List.mem_range.2 hk0lt))
      | some k1 => exact ⟨k1, rfl⟩
    obtain ⟨hk1m, w1, hw1⟩ := (hf _ pt).1 k1 hk1
    have hk1lt := List.mem_range.1 hk1m
    have hval : ∀ z : Fin n → ℝ, ∀ k ∈ g.1, ∀ w, Barycentric (fun i => m.nodes (m.corners k i)) pt w →
        triInterp m z k1 pt = ∑ i, w i * z (m.corners k i) := by
      intro z k hk w hw
      rw [triInterp_eq m z (hm.area k1 hk1lt) hw1, sum_nodes, sum_nodes]
      refine Finset.sum_congr rfl fun j _ => ?_
      rw [hm.weights k1 hk1lt k (hids g hgm k hk) pt w1 w hw1 hw j]
    have hT : ∀ s t u, stressTensor s t u = beamTensor s t u := by
      intro s t u
      ext i j
      fin_cases i <;> fin_cases j <;> simp [stressTensor, beamTensor]
    set szz := triInterp m (fun i => (g.2 i).zz) k1 pt with hszz
    set tzx := triInterp m (fun i => (g.2 i).zx) k1 pt with htzx
    set tzy := triInterp m (fun i => (g.2 i).zy) k1 pt with htzy
    have hE : EigCorrect (stressTensor szz tzx tzy) (eig (stressTensor szz tzx tzy)) := by
      rw [hT]; exact he _ _ _
    obtain ⟨hc, hfc⟩ := mohr_plot hE
    refine ⟨mohrPlot eig (stressTensor szz tzx tzy), ?_, g, hgm, ⟨k0, hk0m, hk0in⟩, szz, tzx, tzy,
      major szz tzx tzy, 0, minor szz tzx tzy, ?_, minor_le _ _ _, major_ge _ _ _, rfl, ?_, ?_, ?_⟩
    · unfold plotMohr
      rw [hg]
      simp only [hk1, Option.getD_some]
      rfl
    · intro k hk w hw
      exact ⟨hval _ k hk w hw, hval _ k hk w hw, hval _ k hk w hw⟩
    · intro x
      have hq : √((szz / 2) ^ 2 + (tzx ^ 2 + tzy ^ 2)) ^ 2 = (szz / 2) ^ 2 + (tzx ^ 2 + tzy ^ 2) :=
        Real.sq_sqrt (by positivity)
      rw [← hT, Matrix.det_fin_three]
      simp [stressTensor, Matrix.diagonal, major, minor]
      linear_combination x * hq
    · rw [hc, add_comm (minor szz tzx tzy) 0, add_comm (minor szz tzx tzy) (major szz tzx tzy),
        add_comm 0 (major szz tzx tzy)]
    · intro c
      rw [← hT]; exact hfc c

/-! ### Non-vacuity -/

/-- A decomposition as assumed of `np.linalg.eig` exists for every stress tensor. -/
theorem eig_exists (s t u : ℝ) : ∃ r, EigCorrect (beamTensor s t u) r := by
  have hA : (beamTensor s t u).IsHermitian := by
    ext i j
    fin_cases i <;> fin_cases j <;> simp [beamTensor, Matrix.conjTranspose]
  refine ⟨(hA.eigenvalues, (hA.eigenvectorUnitary : Matrix (Fin 3) (Fin 3) ℝ)), ?_, ?_, ?_⟩
  · exact (Matrix.isUnit_iff_isUnit_det _).1 (Unitary.toUnits hA.eigenvectorUnitary).isUnit
  · intro j
    have h : star (hA.eigenvectorUnitary : Matrix (Fin 3) (Fin 3) ℝ) * hA.eigenvectorUnitary = 1 :=
      Unitary.coe_star_mul_self _
    have := congrFun (congrFun h j) j
    rw [Matrix.mul_apply, Matrix.one_apply_eq] at this
    rw [← this]
    exact Finset.sum_congr rfl fun i _ => by rw [Matrix.star_apply, star_trivial, sq]
  · intro i j
    have := congrFun (hA.mulVec_eigenvectorBasis j) i
    simp only [mulVec, dotProduct, Pi.smul_apply, smul_eq_mul] at this
    simp only [Matrix.IsHermitian.eigenvectorUnitary_apply]
    exact this

/-- A mesh of one triangle. -/
noncomputable def exMohr : MohrIn 3 where
  nodes := ![(0, 0), (4, 0), (0, 3)]
  numEls := 1
  corners := fun _ => id
  groups := [([0], fun i => combined ⟨i.val, 0, 0, 0, 0, 1, 2, 0, 0, 0, 0⟩)]

theorem exMohr_conforming : Conforming exMohr := by
  constructor
  · intro k _
    simp [exMohr, cross3]
  · intro k _ k' _ pt w w' hw hw' j
    obtain ⟨-, a1, a2, a3⟩ := hw
    obtain ⟨-, b1, b2, b3⟩ := hw'
    simp [exMohr, Fin.sum_univ_three] at a1 a2 a3 b1 b2 b3
    have e1 : w 1 = w' 1 := by linarith
    have e2 : w 2 = w' 2 := by linarith
    have e0 : w 0 = w' 0 := by linarith
    have : w = w' := by funext i; fin_cases i <;> assumption
    rw [this]; rfl

/-- The hypotheses of `C68_circles` are met: a finder and an eigenvalue solver exist, and the point (1, 1)
lies in the triangle, (4, 3) does not. -/
example : ∃ (find : List ℕ → ℝ × ℝ → Option ℕ)
    (eig : Matrix (Fin 3) (Fin 3) ℝ → (Fin 3 → ℝ) × Matrix (Fin 3) (Fin 3) ℝ), FinderCorrect exMohr find ∧ Conforming exMohr ∧
    (∀ g ∈ exMohr.groups, ∀ k ∈ g.1, k < exMohr.numEls) ∧
    (∀ s t u, EigCorrect (beamTensor s t u) (eig (beamTensor s t u))) ∧
    (∃ g ∈ exMohr.groups, ∃ k ∈ g.1, InElement exMohr k (1, 1)) ∧
    ∀ g ∈ exMohr.groups, ∀ k ∈ g.1, ¬ InElement exMohr k (4, 3) := by
  refine ⟨fun ids pt => if h : ∃ k ∈ ids, InElement exMohr k pt then some h.choose else none,
    fun A => if h : ∃ r, EigCorrect A r then h.choose else (0, 0), ?_, exMohr_conforming, ?_, ?_, ?_, ?_⟩
  · intro ids pt
    dsimp only
    constructor
    · intro k hk
      split_ifs at hk with h
      obtain rfl := Option.some.inj hk
      exact h.choose_spec
    · intro hn k hk hin
      rw [dif_pos ⟨k, hk, hin⟩] at hn
      cases hn
  · simp [exMohr]
  · intro s t u
    dsimp only
    rw [dif_pos (eig_exists s t u)]
    exact (eig_exists s t u).choose_spec
  · refine ⟨_, List.mem_singleton.2 rfl, 0, List.mem_singleton.2 rfl, ![5 / 12, 1 / 4, 1 / 3], ?_, ?_, ?_, ?_⟩
    · intro i; fin_cases i <;> simp <;> norm_num
    · simp [Fin.sum_univ_three]; norm_num
    · simp [Fin.sum_univ_three, exMohr]
    · simp [Fin.sum_univ_three, exMohr]
  · intro g _ k _ ⟨w, h0, h1, h2, h3⟩
    simp [Fin.sum_univ_three, exMohr] at h1 h2 h3
    have := h0 0
    linarith

end SP
