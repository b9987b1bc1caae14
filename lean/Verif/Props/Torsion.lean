import Verif.Lemmas.Forms
import Verif.Props.Example
import Mathlib.LinearAlgebra.Matrix.ToLin
import Mathlib.LinearAlgebra.FiniteDimensional.Basic

/-!
# C17, C18, C19: the torsion problem
-/

namespace SP

open Spec MeasureTheory

variable {n : ℕ} {els : List (Tri6 n)}

/-! ### C17 -/

/-- **C17** the assembled system.  For every list of proper elements: the bordered matrix is symmetric
with zero corner; its block is the Dirichlet form of the finite element fields (so it is positive
semi-definite and constants are in its kernel); the load is the twisting load, and its entries sum to
zero. -/
theorem C17_system (hp : ∀ t ∈ els, Proper t.coords) (hd : DistinctNodes els)
    (hE : ∀ t ∈ els, 0 < t.material.elasticModulus) :
    let A := (assembleTorsion els).1
    let f := (assembleTorsion els).2
    (∀ i j, A i j = A j i) ∧ A (Fin.last n) (Fin.last n) = 0 ∧
    (∀ x y qx qy, FEField els x qx → FEField els y qy →
      ∑ i, ∑ j, x i * A (Fin.castSucc i) (Fin.castSucc j) * y j
        = wInt els fun t p => dX (qx t) p * dX (qy t) p + dY (qx t) p * dY (qy t) p) ∧
    (∀ x : Fin n → ℝ, 0 ≤ ∑ i, ∑ j, x i * A (Fin.castSucc i) (Fin.castSucc j) * x j) ∧
    (∀ i, ∑ j, A (Fin.castSucc i) (Fin.castSucc j) = 0) ∧
    (∀ x q, FEField els x q →
      ∑ i, x i * f i = wInt els fun t p => dX (q t) p * p.2 - dY (q t) p * p.1) ∧
    ∑ i, f i = 0 ∧
    (∀ x q, FEField els x q → ∑ i, x i * A (Fin.castSucc i) (Fin.last n) = wInt els q) := by
  refine ⟨?_, klg_corner els, ?_, ?_, ?_, ?_, load_sum hp hd, ?_⟩
  · intro i j
    induction i using Fin.lastCases with
    | last =>
      induction j using Fin.lastCases with
      | last => rfl
      | cast j => rw [klg_row, klg_col]
    | cast i =>
      induction j using Fin.lastCases with
      | last => rw [klg_row, klg_col]
      | cast j => rw [klg_block, klg_block, stiff_symm]
  · intro x y qx qy hx hy
    simp only [klg_block]
    exact stiff_dirichlet hp hx hy
  · intro x
    obtain ⟨q, hq⟩ := exists_feField hp x
    simp only [klg_block]
    rw [stiff_dirichlet hp hq hq]
    exact wInt_nonneg hE fun t _ p => add_nonneg (mul_self_nonneg _) (mul_self_nonneg _)
  · intro i
    simp only [klg_block]
    exact stiff_one hp i
  · intro x q hq
    exact load_form hp hd hq
  · intro x q hq
    simp only [klg_col]
    exact constr_form hp hd hq

/-- **C17** every exact solution of the bordered system with a load that sums to zero has multiplier
zero, solves the unconstrained equations, and has zero modulus-weighted mean. -/
theorem C17_solution (h : Physical els) (hd : DistinctNodes els) (b u : Fin n → ℝ) (μ : ℝ)
    (hb : ∑ i, b i = 0)
    (hu : (assembleTorsion els).1.mulVec (Fin.snoc (α := fun _ => ℝ) u μ)
      = Fin.snoc (α := fun _ => ℝ) b 0) :
    μ = 0 ∧ (∀ i, ∑ j, (assembleTorsion els).1 (Fin.castSucc i) (Fin.castSucc j) * u j = b i) ∧
    (∀ q, FEField els u q → wInt els q = 0) := by
  obtain ⟨h1, h2⟩ := (klg_mulVec els _ b 0).1 hu
  have hm := multiplier_zero h.proper hd h.ea_pos.ne' hb h1
  simp only [Fin.snoc_castSucc, Fin.snoc_last] at h1 h2 hm
  subst hm
  refine ⟨rfl, fun i => ?_, fun q hq => ?_⟩
  · have := h1 i
    simpa [klg_block] using this
  · rw [← constr_form h.proper hd hq, ← h2, dotN]
    exact Finset.sum_congr rfl fun i _ => mul_comm _ _

/-- **C17** the direct solver's multiplier check never rejects an exact solution: if the library solves
the assembled torsion system exactly, the warping solve succeeds and returns that solution. -/
theorem C17_direct (h : Physical els) (hd : DistinctNodes els) (sv : Solvers) (b : Fin n → ℝ)
    (hb : ∑ i, b i = 0)
    (hsv : (assembleTorsion els).1.mulVec
        (sv.spsolve (assembleTorsion els).1 (Fin.snoc (α := fun _ => ℝ) b 0))
      = Fin.snoc (α := fun _ => ℝ) b 0) :
    ∃ u, solveDirectLagrange sv (assembleTorsion els).1 b = .ok u ∧
      solveWarping sv .direct (assembleTorsion els).1 b = .ok u ∧
      SolvesBordered (assembleTorsion els).1 b u := by
  have hm := multiplier_zero h.proper hd h.ea_pos.ne' hb ((klg_mulVec els _ b 0).1 hsv).1
  have hok : solveDirectLagrange sv (assembleTorsion els).1 b
      = .ok fun i => sv.spsolve (assembleTorsion els).1 (Fin.snoc (α := fun _ => ℝ) b 0) i.castSucc := by
    simp only [solveDirectLagrange]
    rw [if_neg]
    rw [hm]
    simp only [abs_zero, zero_div, not_and_or, gt_iff_lt, not_lt]
    exact Or.inl (by norm_num)
  refine ⟨_, hok, hok, 0, ?_⟩
  generalize sv.spsolve (assembleTorsion els).1 (Fin.snoc (α := fun _ => ℝ) b 0) = u at *
  rw [← hsv]
  refine congrArg _ (Eq.trans ?_ (Fin.snoc_init_self (α := fun _ => ℝ) u))
  rw [hm]
  rfl

/-- The assembled torsion load itself is an admissible right hand side. -/
theorem torsion_load_sum (h : Physical els) (hd : DistinctNodes els) :
    ∑ i, (assembleTorsion els).2 i = 0 := load_sum h.proper hd

/-! ### C18 -/

theorem klg_zero_iff (u : Fin (n + 1) → ℝ) :
    (assembleTorsion els).1.mulVec u = 0 ↔
      (∀ i, ∑ j, stiff els i j * u (Fin.castSucc j)
        + assembleVec els Tri6.cEl i * u (Fin.last n) = 0) ∧
      ∑ j, assembleVec els Tri6.cEl j * u (Fin.castSucc j) = 0 := by
  have h0 : (0 : Fin (n + 1) → ℝ) = Fin.snoc (α := fun _ => ℝ) (fun _ => 0) 0 := by
    funext i
    induction i using Fin.lastCases <;> simp
  rw [h0]
  exact klg_mulVec els u _ 0

theorem kernel_trivial (h : Physical els) (hd : DistinctNodes els) (hc : ConnectedMesh els)
    {u : Fin (n + 1) → ℝ} (hu : (assembleTorsion els).1.mulVec u = 0) : u = 0 := by
  obtain ⟨h1, h2⟩ := (klg_zero_iff u).1 hu
  have hm := multiplier_zero h.proper hd h.ea_pos.ne' (by simp) h1
  obtain ⟨q, hq⟩ := exists_feField h.proper (fun i => u (Fin.castSucc i))
  have hen : dirichlet els q q = 0 := by
    rw [← stiff_dirichlet h.proper hq hq, weak_form (x := fun _ => 0)]
    · simp [dotN]
    · intro i
      have := h1 i
      rwa [hm, mul_zero, add_zero] at this
  have hel := energy_zero h.proper h.modulus hq hen
  have hcon : ∀ i j, u (Fin.castSucc i) = u (Fin.castSucc j) := by
    intro i j
    induction hc i j with
    | refl => rfl
    | tail _ hstep ih =>
      obtain ⟨t, ht, k, l, rfl, rfl⟩ := hstep
      exact ih.trans (hel t ht k l)
  have hz : ∀ i, u (Fin.castSucc i) = 0 := by
    intro i
    have : ∑ j, assembleVec els Tri6.cEl j * u (Fin.castSucc i) = 0 := by
      rw [← h2]
      exact Finset.sum_congr rfl fun j _ => by rw [hcon i j]
    rw [← Finset.sum_mul, constr_sum h.proper hd] at this
    exact (mul_eq_zero.1 this).resolve_left h.ea_pos.ne'
  funext i
  induction i using Fin.lastCases with
  | last => exact hm
  | cast i => exact hz i

/-- A vector that is constant on every element is in the kernel of the stiffness block. -/
theorem stiff_kernel (hp : ∀ t ∈ els, Proper t.coords) {v : Fin n → ℝ}
    (hv : ∀ t ∈ els, ∀ k l, v (t.nodeIds k) = v (t.nodeIds l)) (i : Fin n) :
    ∑ j, stiff els i j * v j = 0 := by
  obtain ⟨q, hq⟩ := exists_feField hp (fun k => if k = i then 1 else 0)
  have hr : FEField els v (fun t _ => v (t.nodeIds 0)) :=
    fun t ht => ⟨PolyLE.const 2 _, fun k => hv t ht 0 k⟩
  have h := stiff_dirichlet hp hq hr
  simp only [ite_mul, one_mul, zero_mul, Finset.sum_ite_irrel, Finset.sum_const_zero,
    Finset.sum_ite_eq', Finset.mem_univ, if_true] at h
  rw [h, dirichlet, wInt]
  refine List.sum_eq_zero fun w hw => ?_
  obtain ⟨t, -, rfl⟩ := List.mem_map.1 hw
  simp [dX_const, dY_const]

theorem linked_symm (els : List (Tri6 n)) {i j : Fin n}
    (h : Relation.ReflTransGen (NodeLinked els) i j) : Relation.ReflTransGen (NodeLinked els) j i := by
  induction h with
  | refl => exact .refl
  | tail _ hs ih =>
    obtain ⟨t, ht, k, l, hk, hl⟩ := hs
    exact .head ⟨t, ht, l, k, hl, hk⟩ ih

theorem connected_of_injective (h : Physical els) (hd : DistinctNodes els)
    (hinj : ∀ u : Fin (n + 1) → ℝ, (assembleTorsion els).1.mulVec u = 0 → u = 0) :
    ConnectedMesh els := by
  classical
  by_contra hcon
  simp only [ConnectedMesh] at hcon
  push Not at hcon
  obtain ⟨i, j, hij⟩ := hcon
  let S : Fin n → Prop := fun k => Relation.ReflTransGen (NodeLinked els) i k
  set c := assembleVec els Tri6.cEl with hcdef
  set cs := ∑ k, if S k then c k else 0 with hcs
  set ct := ∑ k, if S k then 0 else c k with hct
  have hsum : cs + ct = (geomSums els).ea := by
    rw [← constr_sum h.proper hd, hcs, hct, ← Finset.sum_add_distrib]
    refine Finset.sum_congr rfl fun k _ => ?_
    by_cases hk : S k <;> simp [hk, hcdef]
  let v : Fin n → ℝ := fun k => if S k then ct else -cs
  have hvel : ∀ t ∈ els, ∀ k l, v (t.nodeIds k) = v (t.nodeIds l) := by
    intro t ht k l
    have : S (t.nodeIds k) ↔ S (t.nodeIds l) :=
      ⟨fun hk => hk.tail ⟨t, ht, k, l, rfl, rfl⟩, fun hl => hl.tail ⟨t, ht, l, k, rfl, rfl⟩⟩
    simp only [v, this]
  have hker := hinj (Fin.snoc (α := fun _ => ℝ) v 0) <| by
    rw [klg_zero_iff]
    simp only [Fin.snoc_castSucc, Fin.snoc_last, mul_zero, add_zero]
    refine ⟨fun i => stiff_kernel h.proper hvel i, ?_⟩
    have : ∀ k, assembleVec els Tri6.cEl k * v k
        = ct * (if S k then c k else 0) - cs * (if S k then 0 else c k) := by
      intro k
      by_cases hk : S k <;> simp [v, hk, hcdef] <;> ring
    rw [Finset.sum_congr rfl fun k _ => this k, Finset.sum_sub_distrib, ← Finset.mul_sum,
      ← Finset.mul_sum, ← hcs, ← hct]
    ring
  have hi := congrFun hker i.castSucc
  have hj := congrFun hker j.castSucc
  simp only [Fin.snoc_castSucc, Pi.zero_apply] at hi hj
  have hSi : S i := .refl
  have hSj : ¬ S j := hij
  simp only [v, hSi, hSj, if_true, if_false] at hi hj
  have := h.ea_pos
  linarith

/-- **C18** The bordered torsion system has exactly one solution for every right hand side if and only
if the mesh is connected (every two nodes are joined through elements sharing nodes). -/
theorem C18_unique_iff_connected (h : Physical els) (hd : DistinctNodes els) :
    (∀ b : Fin (n + 1) → ℝ, ∃! u, (assembleTorsion els).1.mulVec u = b) ↔ ConnectedMesh els := by
  constructor
  · intro hu
    refine connected_of_injective h hd fun u hu0 => ?_
    obtain ⟨w, -, hw⟩ := hu 0
    rw [hw u hu0, hw 0 (Matrix.mulVec_zero _)]
  · intro hc b
    have hinj : Function.Injective (Matrix.mulVecLin (assembleTorsion els).1) := by
      rw [← LinearMap.ker_eq_bot, LinearMap.ker_eq_bot']
      exact fun u hu => kernel_trivial h hd hc hu
    have hsur := LinearMap.injective_iff_surjective.1 hinj
    obtain ⟨u, hu⟩ := hsur b
    exact ⟨u, hu, fun w hw => hinj (hw.trans hu.symm)⟩

/-- **C18** Disconnected case: if the elements fall into two non-empty groups that share no node, the
bordered matrix is singular, whatever the shapes and materials. -/
theorem C18_disjoint_singular (e1 e2 : List (Tri6 n)) (h1 : Physical e1) (h2 : Physical e2)
    (hd : DistinctNodes (e1 ++ e2))
    (hdis : ∀ t ∈ e1, ∀ t' ∈ e2, ∀ k l, t.nodeIds k ≠ t'.nodeIds l) :
    ∃ u : Fin (n + 1) → ℝ, u ≠ 0 ∧ (assembleTorsion (e1 ++ e2)).1.mulVec u = 0 := by
  have hphys : Physical (e1 ++ e2) := by
    refine ⟨fun h => h1.nonempty (List.append_eq_nil_iff.1 h).1, fun t ht => ?_, fun t ht => ?_⟩
    · rcases List.mem_append.1 ht with ht | ht
      · exact h1.proper t ht
      · exact h2.proper t ht
    · rcases List.mem_append.1 ht with ht | ht
      · exact h1.modulus t ht
      · exact h2.modulus t ht
  by_contra hno
  push Not at hno
  have hc := connected_of_injective hphys hd fun u hu => by
    by_contra hne
    exact hno u hne hu
  obtain ⟨a, ha⟩ := List.exists_mem_of_ne_nil _ h1.nonempty
  obtain ⟨b, hb⟩ := List.exists_mem_of_ne_nil _ h2.nonempty
  have key : ∀ j, Relation.ReflTransGen (NodeLinked (e1 ++ e2)) (a.nodeIds 0) j →
      ∃ t ∈ e1, ∃ k, t.nodeIds k = j := by
    intro j hj
    induction hj with
    | refl => exact ⟨a, ha, 0, rfl⟩
    | tail _ hs ih =>
      obtain ⟨t, ht, k, hk⟩ := ih
      obtain ⟨t', ht', k', l', hk', hl'⟩ := hs
      rcases List.mem_append.1 ht' with ht' | ht'
      · exact ⟨t', ht', l', hl'⟩
      · exact absurd (hk.trans hk'.symm) (hdis t ht t' ht' k k')
  obtain ⟨t, ht, k, hk⟩ := key _ (hc (a.nodeIds 0) (b.nodeIds 0))
  exact hdis t ht b hb k 0 hk

/-! ### C19 -/

theorem twistEnergy_eq (hp : ∀ t ∈ els, Proper t.coords) (hd : DistinctNodes els) {x : Fin n → ℝ}
    {q : Tri6 n → ℝ × ℝ → ℝ} (hq : FEField els x q) :
    twistEnergy els q = dirichlet els q q - 2 * dotN x (assembleTorsion els).2
      + ((geomSums els).ixxG + (geomSums els).iyyG) := by
  obtain ⟨-, -, m3, m4, -⟩ := wInt_moments hp
  rw [load_form hp hd hq, dirichlet, ← m3, ← m4, twistEnergy]
  have hx : ∀ t ∈ els, (fun p : ℝ × ℝ => dX (q t) p * dX (q t) p + dY (q t) p * dY (q t) p) ∈ PolyLE 2 :=
    fun t ht => Submodule.add_mem _ (poly_mul2 (dX_mem (hq t ht).1) (dX_mem (hq t ht).1))
      (poly_mul2 (dY_mem (hq t ht).1) (dY_mem (hq t ht).1))
  have hl : ∀ t ∈ els, (fun p : ℝ × ℝ => -2 * (dX (q t) p * p.2 - dY (q t) p * p.1)) ∈ PolyLE 2 :=
    fun t ht => Submodule.smul_mem _ _ (Submodule.sub_mem _ (poly_mul2 (dX_mem (hq t ht).1) PolyLE.snd)
      (poly_mul2 (dY_mem (hq t ht).1) PolyLE.fst))
  have hyy : (fun p : ℝ × ℝ => p.2 ^ 2) ∈ PolyLE 2 := by
    simpa only [pow_two] using poly_mul2 PolyLE.snd PolyLE.snd
  have hxx : (fun p : ℝ × ℝ => p.1 ^ 2) ∈ PolyLE 2 := by
    simpa only [pow_two] using poly_mul2 PolyLE.fst PolyLE.fst
  have e : wInt els (fun t p => (dX (q t) p - p.2) ^ 2 + (dY (q t) p + p.1) ^ 2)
      = wInt els fun t p => (dX (q t) p * dX (q t) p + dY (q t) p * dY (q t) p)
        + (-2 * (dX (q t) p * p.2 - dY (q t) p * p.1) + (p.2 ^ 2 + p.1 ^ 2)) :=
    wInt_congr fun t _ p => by ring
  rw [e, wInt_add (g := fun t p => -2 * (dX (q t) p * p.2 - dY (q t) p * p.1) + (p.2 ^ 2 + p.1 ^ 2)) hx
      (fun t ht => Submodule.add_mem _ (hl t ht) (Submodule.add_mem _ hyy hxx)),
    wInt_add (g := fun _ p => p.2 ^ 2 + p.1 ^ 2) hl (fun t ht => Submodule.add_mem _ hyy hxx),
    wInt_add (f := fun _ p => p.2 ^ 2) (g := fun _ p => p.1 ^ 2) (fun _ _ => hyy) (fun _ _ => hxx),
    wInt_smul]
  ring

theorem dirichlet_sub (hp : ∀ t ∈ els, Proper t.coords) {x y : Fin n → ℝ}
    {q r : Tri6 n → ℝ × ℝ → ℝ} (hq : FEField els x q) (hr : FEField els y r) :
    dirichlet els (fun t p => r t p + -1 * q t p) (fun t p => r t p + -1 * q t p)
      = dirichlet els r r - 2 * dirichlet els q r + dirichlet els q q := by
  have hs := feField_add hr (feField_smul (-1) hq)
  rw [← stiff_dirichlet hp hs hs, ← stiff_dirichlet hp hr hr, ← stiff_dirichlet hp hq hr,
    ← stiff_dirichlet hp hq hq]
  have hsym : ∑ i, ∑ j, y i * stiff els i j * x j = ∑ i, ∑ j, x i * stiff els i j * y j := by
    rw [Finset.sum_comm]
    refine Finset.sum_congr rfl fun i _ => Finset.sum_congr rfl fun j _ => ?_
    rw [stiff_symm els j i]; ring
  have e : ∀ i j, (y i + -1 * x i) * stiff els i j * (y j + -1 * x j)
      = y i * stiff els i j * y j - x i * stiff els i j * y j - y i * stiff els i j * x j
        + x i * stiff els i j * x j := fun i j => by ring
  simp only [e, Finset.sum_add_distrib, Finset.sum_sub_distrib]
  rw [hsym]; ring

theorem twistEnergy_pos (h : Physical els) {x : Fin n → ℝ} {q : Tri6 n → ℝ × ℝ → ℝ}
    (hq : FEField els x q) : 0 < twistEnergy els q := by
  refine lt_of_le_of_ne (wInt_nonneg h.modulus fun t _ p => by positivity) fun h0 => ?_
  obtain ⟨t, ht⟩ := List.exists_mem_of_ne_nil _ h.nonempty
  have h1 := wInt_zero_elem h.modulus (fun t _ p => by positivity) h0.symm t ht
  obtain ⟨a0, a1, a2, a3, a4, a5, hqq⟩ := polyLE2_quad (hq t ht).1
  have hX : (fun p : ℝ × ℝ => dX (q t) p - p.2) ∈ PolyLE 1 :=
    Submodule.sub_mem _ (dX_mem (hq t ht).1) PolyLE.snd
  have hY : (fun p : ℝ × ℝ => dY (q t) p + p.1) ∈ PolyLE 1 :=
    Submodule.add_mem _ (dY_mem (hq t ht).1) PolyLE.fst
  have h2 := affine_sq_zero (h.proper t ht) hX hY (by simpa only [pow_two] using h1)
  simp only [hqq, quad_dX, quad_dY] at h2
  have z1 := h2 (0, 0)
  have z2 := h2 (1, 0)
  have z3 := h2 (0, 1)
  norm_num at z1 z2 z3
  linarith [z1.1, z1.2, z2.2, z3.1]

/-- Fields of a successful warping analysis. -/
theorem warping_ok {sv : Solvers} {ty : SolverType} {w : WarpIn} {res : WarpResults n}
    (h : warpingAnalysis sv ty els w = .ok res) :
    solveWarping sv ty (assembleTorsion els).1 (assembleTorsion els).2 = .ok res.omega ∧
    solveShear sv ty (assembleTorsion els).1 (assembleShearLoad els w).1 = .ok res.psi ∧
    solveShear sv ty (assembleTorsion els).1 (assembleShearLoad els w).2 = .ok res.phiS ∧
    res.j = w.ixx + w.iyy - dotN res.omega (assembleTorsion els).2 ∧
    res.deltaS = w.deltaS ∧
    res.sc = shearCentres w (assembleTorsion els).2 res.psi res.phiS (scWarpingIntegrals els w res.omega) ∧
    res.gamma = warpingConstant w (scWarpingIntegrals els w res.omega) res.sc ∧
    res.areas = shearAreas w (shearDeformation els w res.psi res.phiS) ∧
    res.beta = betas w (monosymmetryInts els w.phi) res.sc := by
  unfold warpingAnalysis at h
  simp only at h
  split at h
  · simp at h
  · next omega h1 =>
    split at h
    · simp at h
    · next psi h2 =>
      split at h
      · simp at h
      · next phiS h3 =>
        simp only [Except.ok.injEq] at h
        subst h
        exact ⟨h1, h2, h3, rfl, rfl, rfl, rfl, rfl, rfl⟩

/-- **C19** For every section with proper elements and positive moduli, whichever solver returned the
warping function: if it solves the discrete equations exactly, the torsion constant is the strain energy
of unit twist about the centroid with that warping field, it is the smallest value among all finite
element fields on the mesh (hence the same for all solutions), it is positive and at most the polar
second moment of area. -/
theorem C19_torsion_constant (s : Section) (r : GeomResults) (hg : GoodSection s)
    (h : Physical s.elements) (hr : s.geometricAnalysis = .ok r) (sv : Solvers) (ty : SolverType)
    (w : WarpResults s.numNodes) (hw : s.warping sv ty r = .ok w)
    (hex : SolvesBordered (assembleTorsion (s.elements.map fun t => t.shiftBy r.cx r.cy)).1
      (assembleTorsion (s.elements.map fun t => t.shiftBy r.cx r.cy)).2 w.omega) :
    let els := s.elements.map fun t => t.shiftBy r.cx r.cy
    (∀ q, FEField els w.omega q → w.j = twistEnergy els q) ∧
    (∀ v q, FEField els v q → w.j ≤ twistEnergy els q) ∧
    0 < w.j ∧ w.j ≤ r.cent.ixxC + r.cent.iyyC := by
  obtain ⟨g1, g2, -, -, -, g6, g7⟩ := geom_ok hr
  obtain ⟨c1, c2, -⟩ := cent_ok g2
  intro els
  have hels : els = shifted s.elements r.cx r.cy := rfl
  have hP : Physical els := shifted_physical h r.cx r.cy
  have hD : DistinctNodes els := shifted_distinct (good_distinct hg) r.cx r.cy
  have hcen := shift_centroid h.straight h.ea_pos.ne'
  rw [← g1] at hcen
  simp only at hcen
  rw [← g6, ← g7, ← hels] at hcen
  obtain ⟨-, -, -, -, k5, k6, -⟩ := hcen
  obtain ⟨-, -, -, hj, -⟩ := warping_ok hw
  simp only [warpIn] at hj
  rw [c1, c2, ← k5, ← k6] at hj
  obtain ⟨μ, hμ⟩ := hex
  obtain ⟨-, hsol, -⟩ := C17_solution hP hD _ _ μ (load_sum hP.proper hD) hμ
  simp only [klg_block] at hsol
  have hen : ∀ q, FEField els w.omega q → dirichlet els q q = dotN w.omega (assembleTorsion els).2 := by
    intro q hq
    rw [← stiff_dirichlet hP.proper hq hq]
    exact weak_form hsol _
  have e1 : ∀ q, FEField els w.omega q → w.j = twistEnergy els q := by
    intro q hq
    rw [twistEnergy_eq hP.proper hD hq, hen q hq, hj]
    change _ - dotN w.omega (assembleTorsion els).2 = _
    ring
  obtain ⟨q0, hq0⟩ := exists_feField hP.proper w.omega
  have e2 : ∀ v q, FEField els v q → w.j ≤ twistEnergy els q := by
    intro v q hq
    have h1 := dirichlet_sub hP.proper hq0 hq
    have h2 : 0 ≤ dirichlet els (fun t p => q t p + -1 * q0 t p) (fun t p => q t p + -1 * q0 t p) :=
      wInt_nonneg hP.modulus fun t _ p => add_nonneg (mul_self_nonneg _) (mul_self_nonneg _)
    have h3 : dirichlet els q0 q = dotN v (assembleTorsion els).2 := by
      rw [← weak_form hsol v, stiff_dirichlet hP.proper hq hq0, dirichlet, dirichlet]
      exact wInt_congr fun t _ p => by ring
    rw [e1 q0 hq0, twistEnergy_eq hP.proper hD hq, twistEnergy_eq hP.proper hD hq0]
    have h4 := hen q0 hq0
    linarith
  refine ⟨e1, e2, ?_, ?_⟩
  · rw [e1 q0 hq0]
    exact twistEnergy_pos hP hq0
  · have h0 := e2 _ _ (feField_const els 0)
    rw [twistEnergy_eq hP.proper hD (feField_const els 0)] at h0
    have hz : dirichlet els (fun _ _ => 0) (fun _ _ => 0) = 0 := by
      rw [dirichlet, wInt]
      refine List.sum_eq_zero fun v hv => ?_
      obtain ⟨t, -, rfl⟩ := List.mem_map.1 hv
      simp [dX_const, dY_const]
    rw [hz] at h0
    simp only [dotN, zero_mul, Finset.sum_const_zero, mul_zero, sub_zero, zero_add] at h0
    rw [c1, c2, ← k5, ← k6]
    exact h0

/-! ### Non-vacuity -/

open Classical in
/-- A pair of exact solvers: they return a solution whenever there is one. -/
noncomputable def exactSolvers : Solvers where
  spsolve := fun A b => if h : ∃ u, A.mulVec u = b then h.choose else 0
  cgs := fun A b => (if h : ∃ u, A.mulVec u = b then h.choose else 0, 0)

theorem exactSolvers_spec {m : ℕ} {A : Matrix (Fin m) (Fin m) ℝ} {b : Fin m → ℝ}
    (h : ∃ u, A.mulVec u = b) : A.mulVec (exactSolvers.spsolve A b) = b := by
  simp only [exactSolvers]
  rw [dif_pos h]
  exact h.choose_spec

theorem ex_elements {P : Tri6 9 → Prop} (h0 : P exT0) (h1 : P exT1) :
    ∀ t ∈ exSection.elements, P t := by
  intro (t : Tri6 9) ht
  have ht : t ∈ [exT0, exT1] := ht
  rcases List.mem_cons.1 ht with rfl | ht
  · exact h0
  · rw [List.mem_singleton.1 ht]; exact h1

theorem exSection_physical : Physical exSection.elements := by
  refine ⟨by simp [exSection], exSection_good.proper, ex_elements ?_ ?_⟩
  · norm_num [exT0, exConcrete]
  · norm_num [exT1, exSteel]

theorem ex_linked (cx cy : ℝ) : ConnectedMesh ([exT0, exT1].map fun t => t.shiftBy cx cy) := by
  have hm0 : exT0.shiftBy cx cy ∈ [exT0, exT1].map fun t => t.shiftBy cx cy := List.mem_cons_self ..
  have hm1 : exT1.shiftBy cx cy ∈ [exT0, exT1].map fun t => t.shiftBy cx cy :=
    List.mem_cons_of_mem _ (List.mem_cons_self ..)
  have key : ∀ i, NodeLinked ([exT0, exT1].map fun t => t.shiftBy cx cy) 0 i := by
    intro i
    fin_cases i
    · exact ⟨_, hm0, 0, 0, rfl, rfl⟩
    · exact ⟨_, hm0, 0, 1, rfl, rfl⟩
    · exact ⟨_, hm0, 0, 2, rfl, rfl⟩
    · exact ⟨_, hm1, 0, 2, rfl, rfl⟩
    · exact ⟨_, hm0, 0, 3, rfl, rfl⟩
    · exact ⟨_, hm0, 0, 4, rfl, rfl⟩
    · exact ⟨_, hm0, 0, 5, rfl, rfl⟩
    · exact ⟨_, hm1, 0, 4, rfl, rfl⟩
    · exact ⟨_, hm1, 0, 5, rfl, rfl⟩
  intro i j
  exact (linked_symm _ (.single (key i))).trans (.single (key j))

/-- The composite rectangle, solved exactly with the direct solver: all hypotheses of C17, C18 and C19
hold, and the torsion constant is positive. -/
theorem ex_torsion : ∃ r, exSection.geometricAnalysis = .ok r ∧
    ∃ u, solveWarping exactSolvers .direct
        (assembleTorsion (exSection.elements.map fun t => t.shiftBy r.cx r.cy)).1
        (assembleTorsion (exSection.elements.map fun t => t.shiftBy r.cx r.cy)).2 = .ok u ∧
      SolvesBordered (assembleTorsion (exSection.elements.map fun t => t.shiftBy r.cx r.cy)).1
        (assembleTorsion (exSection.elements.map fun t => t.shiftBy r.cx r.cy)).2 u := by
  obtain ⟨r, hr⟩ := geometricAnalysis_ok exSection (by simp [exSection])
  refine ⟨r, hr, ?_⟩
  have hP := shifted_physical exSection_physical r.cx r.cy
  have hD := shifted_distinct (good_distinct exSection_good) r.cx r.cy
  have hu := (C18_unique_iff_connected hP hD).2 (ex_linked r.cx r.cy)
  obtain ⟨u, -, h1, h2⟩ := C17_direct hP hD exactSolvers _ (torsion_load_sum hP hD)
    (exactSolvers_spec (hu _).exists)
  exact ⟨u, h1, h2⟩

/-- Two elements of the example with separate node numbers: the hypotheses of the singular case. -/
example : ∃ e1 e2 : List (Tri6 12), Physical e1 ∧ Physical e2 ∧ DistinctNodes (e1 ++ e2) ∧
    ∀ t ∈ e1, ∀ t' ∈ e2, ∀ k l, t.nodeIds k ≠ t'.nodeIds l := by
  refine ⟨[⟨0, exT0.coords, Fin.castLE (by omega), exConcrete⟩],
    [⟨1, exT1.coords, Fin.natAdd 6, exSteel⟩], ?_, ?_, ?_, ?_⟩
  · have := exSection_good.proper exT0 (List.mem_cons_self ..)
    exact ⟨by simp, by simpa using this, by norm_num [exConcrete]⟩
  · have := exSection_good.proper exT1 (List.mem_cons_of_mem _ (List.mem_cons_self ..))
    exact ⟨by simp, by simpa using this, by norm_num [exSteel]⟩
  · intro t ht
    simp only [List.cons_append, List.nil_append, List.mem_cons, List.not_mem_nil, or_false] at ht
    rcases ht with rfl | rfl
    · exact Fin.castLE_injective (show 6 ≤ 12 by omega)
    · exact Fin.natAdd_injective 6 6
  · intro t ht t' ht' k l
    rw [List.mem_singleton.1 ht, List.mem_singleton.1 ht']
    intro h
    have := congrArg Fin.val h
    simp at this
    omega

end SP
