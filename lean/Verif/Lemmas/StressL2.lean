import Verif.Lemmas.GradLimit
import Verif.Props.BeamPoints
import Verif.Lemmas.QuadError

/-!
# Reported stresses in mean square
-/

namespace SP

open Spec MeasureTheory Set Topology

variable {n : ℕ} {c : Coords} {f : ℝ × ℝ → ℝ}

/-! ### Nodal values and mean squares of quadratic fields -/

theorem w2_gt : 0.1 < w2 := by
  obtain ⟨a1, a2⟩ := r10_bounds
  obtain ⟨b1, b2⟩ := q38_bounds
  rw [w2_eq]
  nlinarith

theorem w1_gt : 0.1 < w1 := by
  obtain ⟨a1, a2⟩ := r10_bounds
  obtain ⟨b1, b2⟩ := q38_bounds
  rw [w1_eq]
  nlinarith

theorem stress_weight_gt (k : Fin 6) : 0.1 < (gauss6pt k).w := by
  fin_cases k <;> simp [gauss6pt] <;> first | exact w1_gt | exact w2_gt

/-- The six point rule on an element. -/
theorem gauss6_integral (hp : Proper c) (hf : f ∈ PolyLE 4) :
    ∫ p in elemRegion c, f p = elemDet c / 2 * ∑ k, (gauss6pt k).w * f (localPos c (gauss6pt k)) := by
  have hD : cross2 (cornerA c) (cornerB c) (cornerC c) ≠ 0 := ne_of_gt hp.2
  have h := exact_gauss6.triangle hf hD
  have hD' : cross2 (cornerA c) (cornerB c) (cornerC c) = elemDet c := rfl
  rw [elemRegion, Spec.triangle, h, hD', abs_of_pos hp.2, gauss6, List.map_ofFn, List.sum_ofFn]
  congr 1
  refine Finset.sum_congr rfl fun k _ => ?_
  have hz : (gauss6pt k).zeta = 1 - (gauss6pt k).eta - (gauss6pt k).xi := by
    have := gauss6pt_bary k; unfold GaussPt.Bary at this; linarith
  have : triMap (cornerA c) (cornerB c) (cornerC c) ((gauss6pt k).eta, (gauss6pt k).xi) = localPos c (gauss6pt k) := by
    rw [localPos_eq]
    ext <;> simp [triMap, cornerA, cornerB, cornerC, posX, posY, hz] <;> ring
  simp only [Function.comp_apply, this]

theorem gauss_sq_le (hp : Proper c) (hf : f ∈ PolyLE 2) (k : Fin 6) :
    f (localPos c (gauss6pt k)) ^ 2 * elemDet c ≤ 20 * ∫ p in elemRegion c, f p ^ 2 := by
  have h2 : (fun p => f p ^ 2) ∈ PolyLE 4 := by
    have := PolyLE.mul hf hf
    convert this using 1
    funext p
    simp [pow_two]
  rw [gauss6_integral hp h2]
  have hd : 0 < elemDet c := hp.2
  have h1 : (gauss6pt k).w * f (localPos c (gauss6pt k)) ^ 2 ≤ ∑ k, (gauss6pt k).w * f (localPos c (gauss6pt k)) ^ 2 :=
    Finset.single_le_sum (f := fun k => (gauss6pt k).w * f (localPos c (gauss6pt k)) ^ 2)
      (fun i _ => mul_nonneg (by linarith [stress_weight_gt i]) (sq_nonneg _)) (Finset.mem_univ k)
  have h3 := mul_le_mul_of_nonneg_right (stress_weight_gt k).le (sq_nonneg (f (localPos c (gauss6pt k))))
  have h4 := mul_le_mul_of_nonneg_left (h3.trans h1) (show 0 ≤ 10 * elemDet c by linarith)
  linarith

theorem hInv_row (w : Fin 6 → ℝ) {M : ℝ} (h : ∀ k, |w k| ≤ M) (i : Fin 6) : |extrapolateToNodes w i| ≤ 3.6 * M := by
  have a0 := abs_le.1 (h 0)
  have a1 := abs_le.1 (h 1)
  have a2 := abs_le.1 (h 2)
  have a3 := abs_le.1 (h 3)
  have a4 := abs_le.1 (h 4)
  have a5 := abs_le.1 (h 5)
  rw [abs_le]
  unfold extrapolateToNodes
  fin_cases i <;> simp [Fin.sum_univ_six, hInv, -neg_add_rev, -tsub_le_iff_right] <;> constructor <;>
    linarith [a0.1, a0.2, a1.1, a1.2, a2.1, a2.2, a3.1, a3.2, a4.1, a4.2, a5.1, a5.2]

/-- A nodal value of a quadratic field is not large if the field is small in mean square. -/
theorem node_sq_le (hp : Proper c) (hf : f ∈ PolyLE 2) (k : Fin 6) :
    f (nodePos c k) ^ 2 * elemDet c ≤ 300 * ∫ p in elemRegion c, f p ^ 2 := by
  obtain ⟨i, -, hi⟩ := Finset.exists_max_image Finset.univ (fun k => |f (nodePos c k)|) ⟨0, Finset.mem_univ _⟩
  set B := |f (nodePos c i)| with hB
  have hd : 0 < elemDet c := hp.2
  have hI : 0 ≤ ∫ p in elemRegion c, f p ^ 2 := integral_nonneg fun p => sq_nonneg _
  set S := 20 * (∫ p in elemRegion c, f p ^ 2) / elemDet c with hS
  have hS0 : 0 ≤ S := by positivity
  have hM : ∀ k, |f (localPos c (gauss6pt k))| ≤ √S := fun k => by
    refine Real.abs_le_sqrt ?_
    rw [hS, le_div_iff₀ hd]
    exact gauss_sq_le hp hf k
  have h1 := hInv_row _ hM i
  have h2 := C27_extrapolate c hp.1 f hf gauss6pt (by simp [gaussPoints, gauss6]) B (fun k => hi k (Finset.mem_univ k)) i
  have hB0 : 0 ≤ B := abs_nonneg _
  have h3 : B ≤ 3.7 * √S := by
    have := abs_sub_abs_le_abs_sub (f (nodePos c i)) (extrapolateToNodes (fun k => f (localPos c (gauss6pt k))) i)
    rw [abs_sub_comm] at this
    have h5 := Real.sqrt_nonneg S
    linarith
  have h4 : f (nodePos c k) ^ 2 ≤ B ^ 2 := by
    rw [hB, sq_abs]
    exact sq_le_sq.2 (hi k (Finset.mem_univ k))
  have h5 : B ^ 2 ≤ 3.7 ^ 2 * S := by
    calc B ^ 2 ≤ (3.7 * √S) ^ 2 := pow_le_pow_left₀ hB0 h3 2
      _ = 3.7 ^ 2 * S := by rw [mul_pow, Real.sq_sqrt hS0]
  have h6 : S * elemDet c = 20 * ∫ p in elemRegion c, f p ^ 2 := by rw [hS]; field_simp
  have h7 := mul_le_mul_of_nonneg_right (h4.trans h5) hd.le
  calc _ ≤ 3.7 ^ 2 * S * elemDet c := h7
    _ = 3.7 ^ 2 * (20 * ∫ p in elemRegion c, f p ^ 2) := by rw [mul_assoc, h6]
    _ ≤ _ := by nlinarith

/-! ### Reported and exact element fields -/

/-- Interpolated nodal values that nearly are those of a quadratic field nearly are the field, in mean square. -/
theorem interp_near {t : Tri6 n} (hp : Proper t.coords) (hf : f ∈ PolyLE 2) {u : Fin 6 → ℝ}
    (h : ∀ B, (∀ k, |f (t.coords.x k, t.coords.y k)| ≤ B) → ∀ k, |u k - f (t.coords.x k, t.coords.y k)| ≤ 1e-12 * B) :
    ∫ p in elemRegion t.coords, (∑ i, u i * shapeFunctionOnly (t.localCoord p) i - f p) ^ 2
      ≤ 6e-21 * ∫ p in elemRegion t.coords, f p ^ 2 := by
  have hd : 0 < elemDet t.coords := hp.2
  have hI : 0 ≤ ∫ p in elemRegion t.coords, f p ^ 2 := integral_nonneg fun p => sq_nonneg _
  set S := 300 * (∫ p in elemRegion t.coords, f p ^ 2) / elemDet t.coords with hS
  have hS0 : 0 ≤ S := by positivity
  have hM : ∀ k, |f (t.coords.x k, t.coords.y k)| ≤ √S := fun k => by
    refine Real.abs_le_sqrt ?_
    rw [hS, le_div_iff₀ hd]
    exact node_sq_le hp hf k
  have hu := h _ hM
  have hq : Interpolates t.coords (fun k => f (t.coords.x k, t.coords.y k)) f := ⟨hf, fun k => rfl⟩
  have hpt : ∀ p ∈ elemRegion t.coords, (∑ i, u i * shapeFunctionOnly (t.localCoord p) i - f p) ^ 2 ≤ 36e-24 * S := by
    intro p hpm
    obtain ⟨hb, -⟩ := C28_local t hp.2.ne' p
    obtain ⟨b1, b2, b3⟩ := (C28_interp t hp.1 hp.2.ne' p).2.2 ((C28_within t hp.2.ne' p).2 hpm)
    rw [← interp_only hp hq, ← Finset.sum_sub_distrib]
    have h1 : |∑ i, (u i * shapeFunctionOnly (t.localCoord p) i
        - f (t.coords.x i, t.coords.y i) * shapeFunctionOnly (t.localCoord p) i)| ≤ 6e-12 * √S := by
      calc _ ≤ ∑ k, |u k * shapeFunctionOnly (t.localCoord p) k - f (t.coords.x k, t.coords.y k) * shapeFunctionOnly (t.localCoord p) k| :=
            Finset.abs_sum_le_sum_abs _ _
        _ ≤ ∑ _k : Fin 6, 1e-12 * √S := by
            refine Finset.sum_le_sum fun k _ => ?_
            rw [← sub_mul, abs_mul]
            calc _ ≤ 1e-12 * √S * 1 := mul_le_mul (hu k) (shape_abs_le b1 b2 b3 hb k) (abs_nonneg _) (by positivity)
              _ = _ := mul_one _
        _ = _ := by
            rw [Finset.sum_const, Finset.card_univ, Fintype.card_fin, nsmul_eq_mul]
            push_cast
            ring
    calc _ ≤ (6e-12 * √S) ^ 2 := sq_le_sq' (abs_le.1 h1).1 (abs_le.1 h1).2
      _ = 36e-24 * S := by rw [mul_pow, Real.sq_sqrt hS0]; norm_num
  obtain ⟨q, hq1⟩ := exists_interpolates hp u
  have cont : Continuous fun p => (∑ i, u i * shapeFunctionOnly (t.localCoord p) i - f p) ^ 2 := by
    simp only [interp_only hp hq1]
    exact ((PolyLE.continuous hq1.1).sub (PolyLE.continuous hf)).pow 2
  calc _ ≤ ∫ p in elemRegion t.coords, 36e-24 * S :=
        setIntegral_mono_on (elem_int cont _) (elem_int continuous_const _) (measurable_elemRegion _) hpt
    _ = elemDet t.coords / 2 * (36e-24 * S) := det_integral hp _
    _ = 18e-24 * (S * elemDet t.coords) := by ring
    _ = 18e-24 * (300 * ∫ p in elemRegion t.coords, f p ^ 2) := by congr 1; rw [hS]; field_simp
    _ ≤ _ := by nlinarith

/-- Three fields together. -/
theorem interp_near3 {t : Tri6 n} (hp : Proper t.coords) {f1 f2 f3 : ℝ × ℝ → ℝ} (hf1 : f1 ∈ PolyLE 2) (hf2 : f2 ∈ PolyLE 2)
    (hf3 : f3 ∈ PolyLE 2) {u1 u2 u3 : Fin 6 → ℝ}
    (h1 : ∀ B, (∀ k, |f1 (t.coords.x k, t.coords.y k)| ≤ B) → ∀ k, |u1 k - f1 (t.coords.x k, t.coords.y k)| ≤ 1e-12 * B)
    (h2 : ∀ B, (∀ k, |f2 (t.coords.x k, t.coords.y k)| ≤ B) → ∀ k, |u2 k - f2 (t.coords.x k, t.coords.y k)| ≤ 1e-12 * B)
    (h3 : ∀ B, (∀ k, |f3 (t.coords.x k, t.coords.y k)| ≤ B) → ∀ k, |u3 k - f3 (t.coords.x k, t.coords.y k)| ≤ 1e-12 * B) :
    ∫ p in elemRegion t.coords, (∑ i, u1 i * shapeFunctionOnly (t.localCoord p) i + (∑ i, u2 i * shapeFunctionOnly (t.localCoord p) i
        + ∑ i, u3 i * shapeFunctionOnly (t.localCoord p) i) - (f1 p + (f2 p + f3 p))) ^ 2
      ≤ 2e-20 * ((∫ p in elemRegion t.coords, f1 p ^ 2) + ((∫ p in elemRegion t.coords, f2 p ^ 2) + ∫ p in elemRegion t.coords, f3 p ^ 2)) := by
  have k1 := interp_near hp hf1 h1
  have k2 := interp_near hp hf2 h2
  have k3 := interp_near hp hf3 h3
  obtain ⟨q1, e1⟩ := exists_interpolates hp u1
  obtain ⟨q2, e2⟩ := exists_interpolates hp u2
  obtain ⟨q3, e3⟩ := exists_interpolates hp u3
  simp only [interp_only hp e1, interp_only hp e2, interp_only hp e3] at k1 k2 k3 ⊢
  have c1 := PolyLE.continuous e1.1
  have c2 := PolyLE.continuous e2.1
  have c3 := PolyLE.continuous e3.1
  have d1 := PolyLE.continuous hf1
  have d2 := PolyLE.continuous hf2
  have d3 := PolyLE.continuous hf3
  have a1 : Continuous fun p => (q1 p - f1 p) ^ 2 := by fun_prop
  have a2 : Continuous fun p => (q2 p - f2 p) ^ 2 := by fun_prop
  have a3 : Continuous fun p => (q3 p - f3 p) ^ 2 := by fun_prop
  have n1 : 0 ≤ ∫ p in elemRegion t.coords, f1 p ^ 2 := integral_nonneg fun p => sq_nonneg _
  have n2 : 0 ≤ ∫ p in elemRegion t.coords, f2 p ^ 2 := integral_nonneg fun p => sq_nonneg _
  have n3 : 0 ≤ ∫ p in elemRegion t.coords, f3 p ^ 2 := integral_nonneg fun p => sq_nonneg _
  have key : ∫ p in elemRegion t.coords, (q1 p + (q2 p + q3 p) - (f1 p + (f2 p + f3 p))) ^ 2
      ≤ ∫ p in elemRegion t.coords, 3 * (q1 p - f1 p) ^ 2 + (3 * (q2 p - f2 p) ^ 2 + 3 * (q3 p - f3 p) ^ 2) := by
    refine setIntegral_mono_on (elem_int (by fun_prop) _) (elem_int (by fun_prop) _) (measurable_elemRegion _) fun p _ => ?_
    nlinarith [sq_nonneg ((q1 p - f1 p) - (q2 p - f2 p)), sq_nonneg ((q2 p - f2 p) - (q3 p - f3 p)), sq_nonneg ((q1 p - f1 p) - (q3 p - f3 p))]
  rw [elem_int3 a1 a2 (a3.const_mul 3)] at key
  rw [integral_const_mul] at key
  linarith

/-- Coordinates from the centroid. -/
theorem localElementStress_shift (t : Tri6 n) (p : ℝ × ℝ) (a : Actions) (e : StressEnv) (o ps ph : Fin 6 → ℝ) :
    t.localElementStress p a e o ps ph =
      (t.shiftBy e.cx e.cy).localElementStress (p.1 - e.cx, p.2 - e.cy) a { e with cx := 0, cy := 0 } o ps ph := by
  have h1 : (t.shiftBy e.cx e.cy).coords.shift 0 0 = t.coords.shift e.cx e.cy := by
    simp [Coords.shift, Tri6.shiftBy]
  have h2 : (t.shiftBy e.cx e.cy).localCoord (p.1 - e.cx, p.2 - e.cy) = t.localCoord p := by
    simp [Tri6.localCoord, Tri6.shiftBy, Coords.shift, Coords.localM]
  have h3 : (t.shiftBy e.cx e.cy).elementStress a { e with cx := 0, cy := 0 } o ps ph = t.elementStress a e o ps ph := by
    funext i
    simp only [Tri6.elementStress, Tri6.stressAt, h1]
    rfl
  simp only [Tri6.localElementStress, h2, h3]

/-- The shear stresses of the exact element fields, in coordinates from the centroid. -/
noncomputable def exactShear (E : ℝ) (a : Actions) (e : StressEnv) (om ps ph : ℝ × ℝ → ℝ) (p : ℝ × ℝ) : ℝ × ℝ :=
  ((fieldAt E a e om ps ph p).zxMzz + ((fieldAt E a e om ps ph p).zxVx + (fieldAt E a e om ps ph p).zxVy),
    (fieldAt E a e om ps ph p).zyMzz + ((fieldAt E a e om ps ph p).zyVx + (fieldAt E a e om ps ph p).zyVy))

/-- The reported shear stresses in an element and the exact fields, in mean square. -/
theorem rep_near {t : Tri6 n} (hp : Proper t.coords) (a : Actions) {e : StressEnv} (hcx : e.cx = 0) (hcy : e.cy = 0) (wf : WarpFields n)
    {om ps ph : ℝ × ℝ → ℝ} (h1 : Interpolates t.coords (fun k => wf.omega (t.nodeIds k)) om)
    (h2 : Interpolates t.coords (fun k => wf.psi (t.nodeIds k)) ps) (h3 : Interpolates t.coords (fun k => wf.phiS (t.nodeIds k)) ph) :
    ((∫ p in elemRegion t.coords, ((t.localElementStress p a e (t.local wf.omega) (t.local wf.psi) (t.local wf.phiS)).2.1
        - (exactShear t.material.elasticModulus a e om ps ph p).1) ^ 2) ≤
      2e-20 * ((∫ p in elemRegion t.coords, (fieldAt t.material.elasticModulus a e om ps ph p).zxMzz ^ 2)
        + ((∫ p in elemRegion t.coords, (fieldAt t.material.elasticModulus a e om ps ph p).zxVx ^ 2)
          + ∫ p in elemRegion t.coords, (fieldAt t.material.elasticModulus a e om ps ph p).zxVy ^ 2))) ∧
    ((∫ p in elemRegion t.coords, ((t.localElementStress p a e (t.local wf.omega) (t.local wf.psi) (t.local wf.phiS)).2.2
        - (exactShear t.material.elasticModulus a e om ps ph p).2) ^ 2) ≤
      2e-20 * ((∫ p in elemRegion t.coords, (fieldAt t.material.elasticModulus a e om ps ph p).zyMzz ^ 2)
        + ((∫ p in elemRegion t.coords, (fieldAt t.material.elasticModulus a e om ps ph p).zyVx ^ 2)
          + ∫ p in elemRegion t.coords, (fieldAt t.material.elasticModulus a e om ps ph p).zyVy ^ 2))) := by
  have hs : t.coords.shift e.cx e.cy = t.coords := by simp [Coords.shift, hcx, hcy]
  have near : ∀ g ∈ individual, ∀ B, (∀ k, |g (fieldAt t.material.elasticModulus a e om ps ph (t.coords.x k, t.coords.y k))| ≤ B) →
      ∀ k, |g (elStress a e wf t k) - g (fieldAt t.material.elasticModulus a e om ps ph (t.coords.x k, t.coords.y k))| ≤ 1e-12 * B := by
    intro g hg B hB k
    have := elStress_field t hp a e wf (by rw [hs]; exact h1) (by rw [hs]; exact h2) (by rw [hs]; exact h3) g hg B
    simp only [hcx, hcy, sub_zero] at this
    exact this hB k
  have poly := fieldAt_poly t.material.elasticModulus a e h1.1 h2.1 h3.1
  constructor
  · exact interp_near3 hp (poly (·.zxMzz) (by simp [individual])) (poly (·.zxVx) (by simp [individual])) (poly (·.zxVy) (by simp [individual]))
      (near (·.zxMzz) (by simp [individual])) (near (·.zxVx) (by simp [individual])) (near (·.zxVy) (by simp [individual]))
  · exact interp_near3 hp (poly (·.zyMzz) (by simp [individual])) (poly (·.zyVx) (by simp [individual])) (poly (·.zyVy) (by simp [individual]))
      (near (·.zyMzz) (by simp [individual])) (near (·.zyVx) (by simp [individual])) (near (·.zyVy) (by simp [individual]))

/-! ### Stresses as square integrable functions -/

section
variable {α : Type*} [MeasurableSpace α] {μ : Measure α} {E F G ρ : α → ℝ} {b : ℝ}

/-- Modulus times factor times gradient and known part. -/
def scaled (E : α → ℝ) (k : ℝ) (F ρ : α → ℝ) (p : α) : ℝ := E p * (k * (F p + ρ p))

theorem scaled_memLp (hE : AEStronglyMeasurable E μ) (hb : ∀ᵐ p ∂μ, |E p| ≤ b) (hF : MemLp F 2 μ) (hρ : MemLp ρ 2 μ) (k : ℝ) :
    MemLp (scaled E k F ρ) 2 μ := by
  have h := (hF.add hρ).const_mul k
  refine h.of_le_mul (c := b) (hE.mul h.1) ?_
  filter_upwards [hb] with p hp
  rw [scaled, norm_mul]
  exact mul_le_mul_of_nonneg_right hp (norm_nonneg _)

/-- Nearby factors and gradients give nearby stresses. -/
theorem scaled_near (hE : AEStronglyMeasurable E μ) (hb : ∀ᵐ p ∂μ, |E p| ≤ b) (hF : MemLp F 2 μ) (hG : MemLp G 2 μ)
    (hρ : MemLp ρ 2 μ) (k k' : ℝ) :
    ∫ p, (scaled E k F ρ p - scaled E k' G ρ p) ^ 2 ∂μ
      ≤ 2 * b ^ 2 * k ^ 2 * (∫ p, (F p - G p) ^ 2 ∂μ) + 2 * b ^ 2 * (k - k') ^ 2 * ∫ p, (G p + ρ p) ^ 2 ∂μ := by
  have i1 := sq_int_sub hF hG
  have i2 : Integrable (fun p => (G p + ρ p) ^ 2) μ := memLp_sq_int (hG.add hρ)
  rw [← integral_const_mul, ← integral_const_mul, ← integral_add (i1.const_mul _) (i2.const_mul _)]
  refine integral_mono_ae (sq_int_sub (scaled_memLp hE hb hF hρ k) (scaled_memLp hE hb hG hρ k')) ((i1.const_mul _).add (i2.const_mul _)) ?_
  filter_upwards [hb] with p hp
  simp only [scaled]
  have h1 : E p ^ 2 ≤ b ^ 2 := sq_le_sq.2 (hp.trans (le_abs_self b))
  have h2 : (k * (F p - G p) + (k - k') * (G p + ρ p)) ^ 2 ≤ 2 * (k ^ 2 * (F p - G p) ^ 2) + 2 * ((k - k') ^ 2 * (G p + ρ p) ^ 2) := by
    nlinarith [sq_nonneg (k * (F p - G p) - (k - k') * (G p + ρ p))]
  calc (E p * (k * (F p + ρ p)) - E p * (k' * (G p + ρ p))) ^ 2 = E p ^ 2 * (k * (F p - G p) + (k - k') * (G p + ρ p)) ^ 2 := by ring
    _ ≤ b ^ 2 * (2 * (k ^ 2 * (F p - G p) ^ 2) + 2 * ((k - k') ^ 2 * (G p + ρ p) ^ 2)) :=
        mul_le_mul h1 h2 (sq_nonneg _) (sq_nonneg _)
    _ = _ := by ring

/-- A function close to the sum of three, each close to a limit. -/
theorem three_near {T f1 f2 f3 t1 t2 t3 : α → ℝ} (hT : MemLp T 2 μ) (h1 : MemLp f1 2 μ) (h2 : MemLp f2 2 μ) (h3 : MemLp f3 2 μ)
    (k1 : MemLp t1 2 μ) (k2 : MemLp t2 2 μ) (k3 : MemLp t3 2 μ)
    (h : ∫ p, (T p - (f1 p + (f2 p + f3 p))) ^ 2 ∂μ ≤ 2e-20 * ((∫ p, f1 p ^ 2 ∂μ) + ((∫ p, f2 p ^ 2 ∂μ) + ∫ p, f3 p ^ 2 ∂μ))) :
    ∫ p, (T p - (t1 p + (t2 p + t3 p))) ^ 2 ∂μ ≤ 1e-19 * ((∫ p, t1 p ^ 2 ∂μ) + ((∫ p, t2 p ^ 2 ∂μ) + ∫ p, t3 p ^ 2 ∂μ))
      + 7 * ((∫ p, (f1 p - t1 p) ^ 2 ∂μ) + ((∫ p, (f2 p - t2 p) ^ 2 ∂μ) + ∫ p, (f3 p - t3 p) ^ 2 ∂μ)) := by
  have m1 : MemLp (fun p => f1 p + (f2 p + f3 p)) 2 μ := h1.add (h2.add h3)
  have m2 : MemLp (fun p => t1 p + (t2 p + t3 p)) 2 μ := k1.add (k2.add k3)
  have e1 := sq_int_add hT m1 m2
  have z : MemLp (fun _ : α => (0 : ℝ)) 2 μ := MemLp.zero
  have s1 := sq_int_add h1 k1 z
  have s2 := sq_int_add h2 k2 z
  have s3 := sq_int_add h3 k3 z
  simp only [sub_zero] at s1 s2 s3
  have i1 := sq_int_sub h1 k1
  have i2 := sq_int_sub h2 k2
  have i3 := sq_int_sub h3 k3
  have e2 : ∫ p, ((f1 p + (f2 p + f3 p)) - (t1 p + (t2 p + t3 p))) ^ 2 ∂μ
      ≤ ∫ p, 3 * (f1 p - t1 p) ^ 2 + (3 * (f2 p - t2 p) ^ 2 + 3 * (f3 p - t3 p) ^ 2) ∂μ := by
    refine integral_mono (sq_int_sub m1 m2) ((i1.const_mul 3).add ((i2.const_mul 3).add (i3.const_mul 3))) fun p => ?_
    simp only
    nlinarith [sq_nonneg ((f1 p - t1 p) - (f2 p - t2 p)), sq_nonneg ((f2 p - t2 p) - (f3 p - t3 p)), sq_nonneg ((f1 p - t1 p) - (f3 p - t3 p))]
  have e3 : ∫ p, 3 * (f1 p - t1 p) ^ 2 + (3 * (f2 p - t2 p) ^ 2 + 3 * (f3 p - t3 p) ^ 2) ∂μ
      = 3 * (∫ p, (f1 p - t1 p) ^ 2 ∂μ) + (3 * (∫ p, (f2 p - t2 p) ^ 2 ∂μ) + 3 * ∫ p, (f3 p - t3 p) ^ 2 ∂μ) := by
    refine (integral_add (i1.const_mul 3) ((i2.const_mul 3).add (i3.const_mul 3))).trans ?_
    rw [integral_const_mul]
    congr 1
    refine (integral_add (i2.const_mul 3) (i3.const_mul 3)).trans ?_
    rw [integral_const_mul, integral_const_mul]
  rw [e3] at e2
  have n1 : 0 ≤ ∫ p, t1 p ^ 2 ∂μ := integral_nonneg fun p => sq_nonneg _
  have n2 : 0 ≤ ∫ p, t2 p ^ 2 ∂μ := integral_nonneg fun p => sq_nonneg _
  have n3 : 0 ≤ ∫ p, t3 p ^ 2 ∂μ := integral_nonneg fun p => sq_nonneg _
  have n4 : 0 ≤ ∫ p, (f1 p - t1 p) ^ 2 ∂μ := integral_nonneg fun p => sq_nonneg _
  have n5 : 0 ≤ ∫ p, (f2 p - t2 p) ^ 2 ∂μ := integral_nonneg fun p => sq_nonneg _
  have n6 : 0 ≤ ∫ p, (f3 p - t3 p) ^ 2 ∂μ := integral_nonneg fun p => sq_nonneg _
  linarith

end

/-- Element by element bounds add up. -/
theorem glue_near {els : List (Tri6 n)} (hno : NoOverlap els) {T f1 f2 f3 : Tri6 n → ℝ × ℝ → ℝ} (cT : ∀ t ∈ els, Continuous (T t))
    (c1 : ∀ t ∈ els, Continuous (f1 t)) (c2 : ∀ t ∈ els, Continuous (f2 t)) (c3 : ∀ t ∈ els, Continuous (f3 t))
    {T' g1 g2 g3 : ℝ × ℝ → ℝ} (sT : SameField els T T') (s1 : SameField els f1 g1) (s2 : SameField els f2 g2) (s3 : SameField els f3 g3)
    {K : ℝ} (h : ∀ t ∈ els, ∫ p in elemRegion t.coords, (T t p - (f1 t p + (f2 t p + f3 t p))) ^ 2
      ≤ K * ((∫ p in elemRegion t.coords, f1 t p ^ 2) + ((∫ p in elemRegion t.coords, f2 t p ^ 2) + ∫ p in elemRegion t.coords, f3 t p ^ 2))) :
    ∫ p in region els, (T' p - (g1 p + (g2 p + g3 p))) ^ 2
      ≤ K * ((∫ p in region els, g1 p ^ 2) + ((∫ p in region els, g2 p ^ 2) + ∫ p in region els, g3 p ^ 2)) := by
  have e0 := (glue_integral hno (f := fun t p => (T t p - (f1 t p + (f2 t p + f3 t p))) ^ 2)
    (F := fun p => (T' p - (g1 p + (g2 p + g3 p))) ^ 2)
    (fun t ht => by have := cT t ht; have := c1 t ht; have := c2 t ht; have := c3 t ht; fun_prop)
    fun t ht => by
      filter_upwards [sT t ht, s1 t ht, s2 t ht, s3 t ht] with p a0 a1 a2 a3 hp
      rw [a0 hp, a1 hp, a2 hp, a3 hp]).2
  have sq : ∀ {f : Tri6 n → ℝ × ℝ → ℝ} {g : ℝ × ℝ → ℝ}, (∀ t ∈ els, Continuous (f t)) → SameField els f g →
      (els.map fun t => ∫ p in elemRegion t.coords, f t p ^ 2).sum = ∫ p in region els, g p ^ 2 := fun {f g} c s =>
    (glue_integral hno (f := fun t p => f t p ^ 2) (F := fun p => g p ^ 2) (fun t ht => (c t ht).pow 2)
      fun t ht => (s t ht).mono fun p hp hpm => by rw [hp hpm]).2
  rw [← e0, ← sq c1 s1, ← sq c2 s2, ← sq c3 s3, ← List.sum_map_add, ← List.sum_map_add, ← List.sum_map_mul_left]
  exact List.sum_le_sum h

end SP
