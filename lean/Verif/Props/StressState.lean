import Verif.Spec.Stress
import Verif.Lemmas.Assemble
import Verif.Props.Quadrature
import Verif.Props.Example

/-!
# C25 (principal and von Mises stresses) and C26 (nodal averaging)
-/

namespace SP

open Spec Matrix

/-! ### C25 -/

/-- **C25.**  For every nodal stress state: `sig_11 ≥ 0 ≥ sig_33` are eigenvalues of the stress tensor of
the node and every eigenvalue lies between them; their product and sum; `sig_vm` is the von Mises norm
of the tensor and vanishes only if the tensor does. -/
theorem C25_principal (c : StressComp) :
    let r := combined c
    let T := beamTensor r.zz r.zx r.zy
    IsEigenvalue T r.s11 ∧ IsEigenvalue T r.s33 ∧
    (∀ l, IsEigenvalue T l → r.s33 ≤ l ∧ l ≤ r.s11) ∧ r.s33 ≤ 0 ∧ 0 ≤ r.s11 ∧
    r.s11 * r.s33 = -(r.zx ^ 2 + r.zy ^ 2) ∧ r.s11 + r.s33 = r.zz ∧
    0 ≤ r.vm ∧ r.vm ^ 2 = vonMisesSq T ∧ r.vm ^ 2 = r.zz ^ 2 + 3 * (r.zx ^ 2 + r.zy ^ 2) ∧
    r.zxy ^ 2 = r.zx ^ 2 + r.zy ^ 2 ∧ (r.vm = 0 → T = 0) ∧
    stressTensor r.zz r.zx r.zy = T := by
  intro r T
  have hz : r.zxy ^ 2 = r.zx ^ 2 + r.zy ^ 2 := Real.sq_sqrt (by positivity)
  have hvm : r.vm ^ 2 = r.zz ^ 2 + 3 * (r.zx ^ 2 + r.zy ^ 2) := by
    rw [← hz]; exact Real.sq_sqrt (by positivity)
  have hvm0 : 0 ≤ r.vm := Real.sqrt_nonneg _
  obtain ⟨R, hR⟩ : ∃ R, R = √((r.zz / 2) ^ 2 + r.zxy ^ 2) := ⟨_, rfl⟩
  have hR0 : 0 ≤ R := hR ▸ Real.sqrt_nonneg _
  have hR2 : R ^ 2 = (r.zz / 2) ^ 2 + (r.zx ^ 2 + r.zy ^ 2) := by
    rw [hR, Real.sq_sqrt (by positivity), hz]
  have h1 : r.s11 = r.zz / 2 + R := by rw [hR]; rfl
  have h3 : r.s33 = r.zz / 2 - R := by rw [hR]; rfl
  have hle : |r.zz / 2| ≤ R := abs_le_of_sq_le_sq (by nlinarith [sq_nonneg r.zx, sq_nonneg r.zy]) hR0
  obtain ⟨hl1, hl2⟩ := abs_le.1 hle
  have hT : T = !![0, 0, r.zx; 0, 0, r.zy; r.zx, r.zy, r.zz] := by
    ext i j; fin_cases i <;> fin_cases j <;> simp [T, beamTensor]
  have hmul : ∀ v : Fin 3 → ℝ, T.mulVec v
      = ![r.zx * v 2, r.zy * v 2, r.zx * v 0 + r.zy * v 1 + r.zz * v 2] := by
    intro v
    rw [hT]
    ext i; fin_cases i <;> simp [Matrix.mulVec, dotProduct, Fin.sum_univ_three]
  have hprod : r.s11 * r.s33 = -(r.zx ^ 2 + r.zy ^ 2) := by rw [h1, h3]; linear_combination -hR2
  have key : ∀ l, l * l = r.zz * l + (r.zx ^ 2 + r.zy ^ 2) → IsEigenvalue T l := by
    intro l hl
    by_cases h0 : r.zx = 0 ∧ r.zy = 0
    · obtain ⟨hx, hy⟩ := h0
      rw [hx, hy] at hl
      have : l = 0 ∨ l = r.zz := by
        have : l * (l - r.zz) = 0 := by linear_combination hl
        rcases mul_eq_zero.1 this with h | h
        · exact .inl h
        · exact .inr (by linarith)
      rcases this with rfl | rfl
      · refine ⟨![1, 0, 0], fun h => by simpa using congrFun h 0, ?_⟩
        rw [hmul]; ext i; fin_cases i <;> simp [hx]
      · refine ⟨![0, 0, 1], fun h => by simpa using congrFun h 2, ?_⟩
        rw [hmul]; ext i; fin_cases i <;> simp [hx, hy]
    · refine ⟨![r.zx, r.zy, l], ?_, ?_⟩
      · intro h
        exact h0 ⟨by simpa using congrFun h 0, by simpa using congrFun h 1⟩
      · rw [hmul]
        ext i; fin_cases i
        · simp [mul_comm]
        · simp [mul_comm]
        · simp; linear_combination -hl
  have hext : ∀ l, IsEigenvalue T l → r.s33 ≤ l ∧ l ≤ r.s11 := by
    rintro l ⟨v, hv, he⟩
    rw [hmul] at he
    have e0 : r.zx * v 2 = l * v 0 := by simpa using congrFun he 0
    have e1 : r.zy * v 2 = l * v 1 := by simpa using congrFun he 1
    have e2 : r.zx * v 0 + r.zy * v 1 + r.zz * v 2 = l * v 2 := by simpa using congrFun he 2
    have hcases : l = 0 ∨ l * l = r.zz * l + (r.zx ^ 2 + r.zy ^ 2) := by
      by_cases h2 : v 2 = 0
      · left
        by_contra hl
        rw [h2] at e0 e1
        have h0 : v 0 = 0 := by
          have := e0.symm; simpa [hl] using this
        have h1 : v 1 = 0 := by
          have := e1.symm; simpa [hl] using this
        exact hv (by ext i; fin_cases i <;> simp [h0, h1, h2])
      · right
        apply mul_right_cancel₀ h2
        linear_combination -l * e2 - r.zx * e0 - r.zy * e1
    rcases hcases with rfl | h
    · exact ⟨by linarith, by linarith⟩
    · have : |l - r.zz / 2| ≤ R := by
        apply abs_le_of_sq_le_sq _ hR0
        rw [hR2]; nlinarith
      obtain ⟨a, b⟩ := abs_le.1 this
      exact ⟨by linarith, by linarith⟩
  refine ⟨key _ ?_, key _ ?_, hext, by linarith, by linarith, hprod, by linarith, hvm0, ?_, hvm, hz,
    ?_, hT.symm⟩
  · rw [h1]; linear_combination hR2
  · rw [h3]; linear_combination hR2
  · rw [hvm, hT]
    simp [vonMisesSq, Fin.sum_univ_three]
    ring
  · intro h
    rw [h] at hvm
    have z1 : r.zz = 0 := by nlinarith [sq_nonneg r.zz, sq_nonneg r.zx, sq_nonneg r.zy]
    have z2 : r.zx = 0 := by nlinarith [sq_nonneg r.zz, sq_nonneg r.zx, sq_nonneg r.zy]
    have z3 : r.zy = 0 := by nlinarith [sq_nonneg r.zz, sq_nonneg r.zx, sq_nonneg r.zy]
    rw [hT, z1, z2, z3]
    ext i j; fin_cases i <;> fin_cases j <;> simp

/-- A case of `C25_principal`: `σ_zz = 3`, `τ = (2, 0)` has principal stresses `4` and `-1`. -/
example : (combined ⟨1, 2, 0, 0, 0, 2, 0, 0, 0, 0, 0⟩).s11 = 4 ∧
    (combined ⟨1, 2, 0, 0, 0, 2, 0, 0, 0, 0, 0⟩).s33 = -1 := by
  have h : √((3 / 2 : ℝ) ^ 2 + 2 ^ 2) = 5 / 2 := by
    rw [show (3 / 2 : ℝ) ^ 2 + 2 ^ 2 = (5 / 2) ^ 2 by norm_num]; exact Real.sqrt_sq (by norm_num)
  have h' : (√(2 ^ 2) : ℝ) = 2 := Real.sqrt_sq (by norm_num)
  have h3 : (1 + 2 : ℝ) = 3 := by norm_num
  constructor <;> simp only [combined, add_zero, zero_pow two_ne_zero] <;>
    simp only [h', h3] <;> rw [h] <;> norm_num

/-! ### C26 -/

theorem stressWeight_pos (i : Fin 6) : 0 < stressWeight i := by
  fin_cases i <;> simp [stressWeight, gauss6pt, w1_pos, w2_pos]

section
variable {n : ℕ} {els : List (Tri6 n)}

/-- Sum over the element nodes that are node `i`. -/
noncomputable def nodeSum (els : List (Tri6 n)) (i : Fin n) (w : Tri6 n → Fin 6 → ℝ) : ℝ :=
  (els.map fun t => ∑ k, if t.nodeIds k = i then w t k else 0).sum

theorem nodeSum_mono {i : Fin n} {v w : Tri6 n → Fin 6 → ℝ}
    (h : ∀ t ∈ els, ∀ k, t.nodeIds k = i → v t k ≤ w t k) : nodeSum els i v ≤ nodeSum els i w := by
  refine List.sum_le_sum fun t ht => Finset.sum_le_sum fun k _ => ?_
  split_ifs with hk
  · exact h t ht k hk
  · exact le_rfl

theorem nodeSum_smul (i : Fin n) (c : ℝ) (w : Tri6 n → Fin 6 → ℝ) :
    nodeSum els i (fun t k => c * w t k) = c * nodeSum els i w := by
  unfold nodeSum
  rw [← List.sum_map_mul_left]
  refine congrArg List.sum (List.map_congr_left fun t _ => ?_)
  rw [Finset.mul_sum]
  exact Finset.sum_congr rfl fun k _ => by split_ifs <;> simp

theorem nodeSum_pos {i : Fin n} {w : Fin 6 → ℝ} (hw : ∀ k, 0 < w k) (hi : ∃ t ∈ els, NodeOf i t) :
    0 < nodeSum els i fun _ k => w k := by
  obtain ⟨t, ht, k, hk⟩ := hi
  have h0 : ∀ x ∈ els.map fun t => ∑ k, (if t.nodeIds k = i then w k else 0), 0 ≤ x := by
    intro x hx
    obtain ⟨u, -, rfl⟩ := List.mem_map.1 hx
    exact Finset.sum_nonneg fun k _ => by split_ifs <;> [exact (hw k).le; exact le_rfl]
  refine lt_of_lt_of_le ?_ (List.single_le_sum h0 _ (List.mem_map.2 ⟨t, ht, rfl⟩))
  · refine lt_of_lt_of_le (hw k) ?_
    refine le_trans (by rw [if_pos hk]) (Finset.single_le_sum (f := fun k =>
      if t.nodeIds k = i then w k else 0) (fun k _ => ?_) (Finset.mem_univ k))
    split_ifs <;> [exact (hw k).le; exact le_rfl]

theorem nodeSum_none {i : Fin n} (w : Tri6 n → Fin 6 → ℝ) (hi : ¬ ∃ t ∈ els, NodeOf i t) :
    nodeSum els i w = 0 := by
  refine List.sum_eq_zero fun x hx => ?_
  obtain ⟨t, ht, rfl⟩ := List.mem_map.1 hx
  exact Finset.sum_eq_zero fun k _ => if_neg fun hk => hi ⟨t, ht, k, hk⟩

theorem nodalAverage_eq (hd : DistinctNodes els) (sig : Tri6 n → Fin 6 → ℝ) (i : Fin n) :
    nodalAverage els sig i
      = if nodeSum els i (fun _ k => stressWeight k) ≠ 0 then
          nodeSum els i (fun t k => sig t k * stressWeight k)
            * (1 / nodeSum els i fun _ k => stressWeight k)
        else nodeSum els i fun t k => sig t k * stressWeight k := by
  unfold nodalAverage
  simp only [assembleVec_apply hd, nodeSum]

theorem nodalAverage_bounds (hd : DistinctNodes els) (sig : Tri6 n → Fin 6 → ℝ) {i : Fin n}
    (hi : ∃ t ∈ els, NodeOf i t) {lo hi' : ℝ}
    (hb : ∀ t ∈ els, ∀ k, t.nodeIds k = i → lo ≤ sig t k ∧ sig t k ≤ hi') :
    lo ≤ nodalAverage els sig i ∧ nodalAverage els sig i ≤ hi' := by
  have hw := nodeSum_pos stressWeight_pos hi
  rw [nodalAverage_eq hd, if_pos hw.ne', mul_one_div, le_div_iff₀ hw, div_le_iff₀ hw,
    ← nodeSum_smul, ← nodeSum_smul]
  exact ⟨nodeSum_mono fun t ht k hk =>
      mul_le_mul_of_nonneg_right (hb t ht k hk).1 (stressWeight_pos k).le,
    nodeSum_mono fun t ht k hk =>
      mul_le_mul_of_nonneg_right (hb t ht k hk).2 (stressWeight_pos k).le⟩

theorem nodalAverage_outside (hd : DistinctNodes els) (sig : Tri6 n → Fin 6 → ℝ) {i : Fin n}
    (hi : ¬ ∃ t ∈ els, NodeOf i t) : nodalAverage els sig i = 0 := by
  rw [nodalAverage_eq hd]; simp [nodeSum_none _ hi]

end

/-- **C26.**  Consider the result `r` of a stress analysis for the material group `g`, and one of its
individual stress components `f`.  At a node of an element of the group, `f` lies between any bounds of
the element stresses at that node (so between the smallest and the largest one, and it is the common
value if all elements of the group agree); at a node of no element of the group it is zero. -/
theorem C26_average {n : ℕ} (groups : List (MaterialGroup n)) (a : Actions) (env : StressEnv)
    (wf : WarpFields n) (m : ℕ) (g : MaterialGroup n) (hg : groups[m]? = some g)
    (hd : DistinctNodes g.elements) :
    ∃ r, (stressLoop groups a env wf)[m]? = some r ∧ r.material = g.material ∧
    ∀ f ∈ individual, ∀ i,
      ((∃ t ∈ g.elements, NodeOf i t) → ∀ lo hi,
        (∀ t ∈ g.elements, ∀ k, t.nodeIds k = i →
          lo ≤ f (elStress a env wf t k) ∧ f (elStress a env wf t k) ≤ hi) →
        lo ≤ f (r.comp i) ∧ f (r.comp i) ≤ hi) ∧
      ((¬ ∃ t ∈ g.elements, NodeOf i t) → f (r.comp i) = 0) := by
  refine ⟨_, by rw [stressLoop, List.getElem?_map, hg]; rfl, rfl, fun f hf i => ?_⟩
  have e : f (groupStress g.elements a env wf i)
      = nodalAverage g.elements (fun t k => f (elStress a env wf t k)) i := by
    simp only [individual, List.mem_cons, List.not_mem_nil, or_false] at hf
    rcases hf with rfl | rfl | rfl | rfl | rfl | rfl | rfl | rfl | rfl | rfl | rfl <;> rfl
  show (_ → ∀ lo hi, _ → lo ≤ f (groupStress g.elements a env wf i) ∧
    f (groupStress g.elements a env wf i) ≤ hi) ∧ (_ → f (groupStress g.elements a env wf i) = 0)
  rw [e]
  exact ⟨fun hi lo hi' hb => nodalAverage_bounds hd _ hi hb, fun hi => nodalAverage_outside hd _ hi⟩

/-- A case of `C26_average`: in the example section, node 1 belongs to an element of the first material
and to none of the second. -/
example (a : Actions) (env : StressEnv) (wf : WarpFields 9) :
    (∃ t ∈ ([exT0] : List (Tri6 9)), NodeOf 1 t) ∧ (¬ ∃ t ∈ ([exT1] : List (Tri6 9)), NodeOf 1 t) ∧
    ∃ r, (stressLoop exSection.groups a env wf)[1]? = some r ∧ (r.comp (1 : Fin 9)).zzMxx = 0 := by
  have hn : ¬ ∃ t ∈ ([exT1] : List (Tri6 9)), NodeOf 1 t := by
    rintro ⟨t, ht, k, hk⟩
    rw [List.mem_singleton.1 ht] at hk
    revert hk
    fin_cases k <;> simp [exT1]
  have hd : DistinctNodes ([exT1] : List (Tri6 9)) := by
    intro t ht
    rw [List.mem_singleton.1 ht]
    intro k l h
    revert h
    fin_cases k <;> fin_cases l <;> simp [exT1]
  refine ⟨⟨exT0, List.mem_singleton.2 rfl, 1, rfl⟩, hn, ?_⟩
  obtain ⟨r, hr, -, h⟩ := C26_average (n := 9) exSection.groups a env wf 1 ⟨⟨1, exSteel⟩, [exT1]⟩ rfl hd
  exact ⟨r, hr, (h (·.zzMxx) (by simp [individual]) 1).2 hn⟩

end SP
