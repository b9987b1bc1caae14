import Verif.Lemmas.ShiftStress

/-!
# Saint-Venant's stresses are unique

Two solutions differ by stresses in equilibrium with no load whose strains are the gradient of a displacement, so by stresses with no energy.
-/

namespace SP

open Spec MeasureTheory Set Topology Filter

variable {n : ℕ} {els : List (Tri6 n)} {E : ℝ × ℝ → ℝ} {c : ℝ × ℝ} {τ τ' σ g : ℝ × ℝ → ℝ × ℝ}

/-- The virtual work of stresses and strains. -/
noncomputable def virtualWork (R : Set (ℝ × ℝ)) (σ g : ℝ × ℝ → ℝ × ℝ) : ℝ := ∫ p in R, (σ p).1 * (g p).1 + (σ p).2 * (g p).2

section
variable {R : Set (ℝ × ℝ)}

theorem virtualWork_int (hσ : SquareInt R σ) (hg : SquareInt R g) :
    Integrable (fun p => (σ p).1 * (g p).1 + (σ p).2 * (g p).2) (volume.restrict R) := (mul_int hσ.1 hg.1).add (mul_int hσ.2 hg.2)

theorem virtualWork_le (hσ : SquareInt R σ) (hg : SquareInt R g) : |virtualWork R σ g| ≤ 2 * √(sizeSq R σ * sizeSq R g) := by
  have e : virtualWork R σ g = (∫ p in R, (σ p).1 * (g p).1) + ∫ p in R, (σ p).2 * (g p).2 :=
    integral_add (mul_int hσ.1 hg.1) (mul_int hσ.2 hg.2)
  have sz : ∀ {f : ℝ × ℝ → ℝ × ℝ}, SquareInt R f → sizeSq R f = (∫ p in R, (f p).1 ^ 2) + ∫ p in R, (f p).2 ^ 2 := fun hf =>
    integral_add (memLp_sq_int hf.1) (memLp_sq_int hf.2)
  have nn : ∀ f : ℝ × ℝ → ℝ, 0 ≤ ∫ p in R, f p ^ 2 := fun f => integral_nonneg fun p => sq_nonneg _
  have b1 := cs_sqrt hσ.1 hg.1
  have b2 := cs_sqrt hσ.2 hg.2
  have m1 : √((∫ p in R, (σ p).1 ^ 2) * ∫ p in R, (g p).1 ^ 2) ≤ √(sizeSq R σ * sizeSq R g) := Real.sqrt_le_sqrt (by
    rw [sz hσ, sz hg]
    exact mul_le_mul (by linarith [nn fun p => (σ p).2]) (by linarith [nn fun p => (g p).2]) (nn _) (by linarith [nn fun p => (σ p).1, nn fun p => (σ p).2]))
  have m2 : √((∫ p in R, (σ p).2 ^ 2) * ∫ p in R, (g p).2 ^ 2) ≤ √(sizeSq R σ * sizeSq R g) := Real.sqrt_le_sqrt (by
    rw [sz hσ, sz hg]
    exact mul_le_mul (by linarith [nn fun p => (σ p).1]) (by linarith [nn fun p => (g p).1]) (nn _) (by linarith [nn fun p => (σ p).1, nn fun p => (σ p).2]))
  rw [e]
  refine (abs_add_le _ _).trans ?_
  linarith

/-- Stresses in equilibrium with no load do no work on compatible strains. -/
theorem no_work (hσ : SquareInt R σ) (eq : ∀ v, Displacement R v → ∫ p in R, (σ p).1 * dX v p + (σ p).2 * dY v p = 0)
    (hg : SquareInt R g) (comp : Compatible R g) : virtualWork R σ g = 0 := by
  have sz0 : 0 ≤ sizeSq R σ := integral_nonneg fun p => by positivity
  have small : ∀ ε > 0, |virtualWork R σ g| ≤ 2 * √(sizeSq R σ * ε) := fun ε hε => by
    obtain ⟨w, hw, h1, h2⟩ := comp ε hε
    have e0 := eq w hw
    have i1 := virtualWork_int hσ hg
    have i2 := virtualWork_int hσ h1
    have e1 : ∫ p in R, (σ p).1 * dX w p + (σ p).2 * dY w p = virtualWork R σ g
        + virtualWork R σ fun p => ((dX w p, dY w p) : ℝ × ℝ) - g p := by
      refine Eq.trans ?_ (integral_add i1 i2)
      exact integral_congr_ae (ae_of_all _ fun p => by simp only [Prod.fst_sub, Prod.snd_sub]; ring)
    have e2 : virtualWork R σ g = -virtualWork R σ fun p => ((dX w p, dY w p) : ℝ × ℝ) - g p := by linarith
    rw [e2, abs_neg]
    refine (virtualWork_le hσ h1).trans ?_
    gcongr
  have lim : Tendsto (fun ε => 2 * √(sizeSq R σ * ε)) (𝓝[>] 0) (𝓝 (2 * √(sizeSq R σ * 0))) :=
    ((by fun_prop : Continuous fun ε => 2 * √(sizeSq R σ * ε)).tendsto 0).mono_left nhdsWithin_le_nhds
  rw [mul_zero, Real.sqrt_zero, mul_zero] at lim
  exact abs_nonpos_iff.1 (ge_of_tendsto lim (eventually_mem_nhdsWithin.mono fun ε hε => small ε hε))

/-- Stresses with no energy vanish. -/
theorem no_energy (hE : ∀ᵐ p ∂volume.restrict R, 0 < E p) (hi : Integrable (fun p => (σ p).1 * ((σ p).1 / E p) + (σ p).2 * ((σ p).2 / E p)) (volume.restrict R))
    (h : virtualWork R σ (fun p => ((σ p).1 / E p, (σ p).2 / E p)) = 0) : ∀ᵐ p ∂volume.restrict R, σ p = 0 := by
  have nn : ∀ᵐ p ∂volume.restrict R, 0 ≤ (σ p).1 * ((σ p).1 / E p) + (σ p).2 * ((σ p).2 / E p) := by
    filter_upwards [hE] with p hp
    have e1 : (σ p).1 * ((σ p).1 / E p) = (σ p).1 ^ 2 / E p := by ring
    have e2 : (σ p).2 * ((σ p).2 / E p) = (σ p).2 ^ 2 / E p := by ring
    rw [e1, e2]
    positivity
  have z := (integral_eq_zero_iff_of_nonneg_ae nn hi).1 h
  filter_upwards [z, hE] with p hp hEp
  have e1 : (σ p).1 * ((σ p).1 / E p) + (σ p).2 * ((σ p).2 / E p) = ((σ p).1 ^ 2 + (σ p).2 ^ 2) / E p := by ring
  rw [e1, Pi.zero_apply, div_eq_zero_iff] at hp
  have hs : (σ p).1 ^ 2 + (σ p).2 ^ 2 = 0 := hp.resolve_right hEp.ne'
  refine Prod.ext ?_ ?_
  · exact pow_eq_zero_iff two_ne_zero |>.1 (by nlinarith [sq_nonneg (σ p).1, sq_nonneg (σ p).2])
  · exact pow_eq_zero_iff two_ne_zero |>.1 (by nlinarith [sq_nonneg (σ p).1, sq_nonneg (σ p).2])

end

/-- The conditions on the modulus: positive, and not arbitrarily small. -/
structure Stiff (R : Set (ℝ × ℝ)) (E : ℝ × ℝ → ℝ) : Prop where
  measurable : AEStronglyMeasurable E (volume.restrict R)
  lower : ∃ e > 0, ∀ᵐ p ∂volume.restrict R, e ≤ E p

theorem Stiff.pos {R : Set (ℝ × ℝ)} (h : Stiff R E) : ∀ᵐ p ∂volume.restrict R, 0 < E p := by
  obtain ⟨e, he, hb⟩ := h.lower
  filter_upwards [hb] with p hp using he.trans_le hp

theorem Stiff.div {R : Set (ℝ × ℝ)} (h : Stiff R E) {f : ℝ × ℝ → ℝ} (hf : MemLp f 2 (volume.restrict R)) :
    MemLp (fun p => f p / E p) 2 (volume.restrict R) := by
  obtain ⟨e, he, hb⟩ := h.lower
  refine MemLp.of_le (hf.const_mul (1 / e)) (hf.1.div₀ h.measurable) ?_
  filter_upwards [hb] with p hp
  rw [norm_div, norm_mul, Real.norm_eq_abs (E p), abs_of_pos (he.trans_le hp), Real.norm_eq_abs (1 / e), abs_of_pos (by positivity),
    div_eq_mul_one_div, mul_comm]
  exact mul_le_mul_of_nonneg_right (one_div_le_one_div_of_le he hp) (norm_nonneg _)

theorem sqInt_sub {R : Set (ℝ × ℝ)} (h : SquareInt R τ) (h' : SquareInt R τ') : SquareInt R fun p => τ p - τ' p :=
  ⟨h.1.sub h'.1, h.2.sub h'.2⟩

theorem sqInt_work {R : Set (ℝ × ℝ)} (h : SquareInt R σ) {v : ℝ × ℝ → ℝ}
    (hv : MemLp (dX v) 2 (volume.restrict R) ∧ MemLp (dY v) 2 (volume.restrict R)) :
    Integrable (fun p => (σ p).1 * dX v p + (σ p).2 * dY v p) (volume.restrict R) := (mul_int h.1 hv.1).add (mul_int h.2 hv.2)

/-- The difference of two states in equilibrium with the same load. -/
theorem diff_equilibrium {R : Set (ℝ × ℝ)} (hτ : SquareInt R τ) (hτ' : SquareInt R τ')
    (sq : ∀ v, Displacement R v → MemLp (dX v) 2 (volume.restrict R) ∧ MemLp (dY v) 2 (volume.restrict R))
    {l : (ℝ × ℝ → ℝ) → ℝ} (h : ∀ v, Displacement R v → ∫ p in R, (τ p).1 * dX v p + (τ p).2 * dY v p = l v)
    (h' : ∀ v, Displacement R v → ∫ p in R, (τ' p).1 * dX v p + (τ' p).2 * dY v p = l v) (v : ℝ × ℝ → ℝ) (hv : Displacement R v) :
    ∫ p in R, (τ p - τ' p).1 * dX v p + (τ p - τ' p).2 * dY v p = 0 := by
  rw [← sub_self (l v)]
  nth_rewrite 1 [← h v hv]
  rw [← h' v hv, ← integral_sub (sqInt_work hτ (sq v hv)) (sqInt_work hτ' (sq v hv))]
  exact integral_congr_ae (ae_of_all _ fun p => by simp only [Prod.fst_sub, Prod.snd_sub]; ring)

section
variable (hE : Stiff (region els) E)
  (sq : ∀ v, Displacement (region els) v → MemLp (dX v) 2 (volume.restrict (region els)) ∧ MemLp (dY v) 2 (volume.restrict (region els)))
include hE

theorem twist_square {θ : ℝ} (hτ : SquareInt (region els) τ) :
    SquareInt (region els) fun p => ((τ p).1 / E p + θ * (p.2 - c.2), (τ p).2 / E p - θ * (p.1 - c.1)) :=
  ⟨(hE.div hτ.1).add (memLp_cont (by fun_prop) els), (hE.div hτ.2).sub (memLp_cont (by fun_prop) els)⟩

theorem strain_work {θ : ℝ} (hσ : SquareInt (region els) σ) (hτ : SquareInt (region els) τ) :
    virtualWork (region els) σ (fun p => ((τ p).1 / E p + θ * (p.2 - c.2), (τ p).2 / E p - θ * (p.1 - c.1)))
      = virtualWork (region els) σ (fun p => ((τ p).1 / E p, (τ p).2 / E p))
        - θ * ∫ p in region els, (p.1 - c.1) * (σ p).2 - (p.2 - c.2) * (σ p).1 := by
  have r1 : MemLp (fun p : ℝ × ℝ => p.1 - c.1) 2 (volume.restrict (region els)) := memLp_cont (by fun_prop) els
  have r2 : MemLp (fun p : ℝ × ℝ => p.2 - c.2) 2 (volume.restrict (region els)) := memLp_cont (by fun_prop) els
  have i1 := virtualWork_int hσ (g := fun p => ((τ p).1 / E p, (τ p).2 / E p)) ⟨hE.div hτ.1, hE.div hτ.2⟩
  have i2 : Integrable (fun p => (p.1 - c.1) * (σ p).2 - (p.2 - c.2) * (σ p).1) (volume.restrict (region els)) :=
    (mul_int r1 hσ.2).sub (mul_int r2 hσ.1)
  rw [← integral_const_mul]
  refine Eq.trans ?_ (integral_sub i1 (i2.const_mul θ))
  exact integral_congr_ae (ae_of_all _ fun p => by simp only; ring)

/-- The rate of twist is the energy of the stresses of a unit torque (Clapeyron). -/
theorem twist_energy {θ : ℝ} (hτ : SquareInt (region els) τ) (h : SaintVenantTorsion (region els) E c θ τ) :
    θ = virtualWork (region els) τ (fun p => ((τ p).1 / E p, (τ p).2 / E p)) := by
  have w := no_work hτ h.equilibrium (twist_square hE hτ) h.compatible
  rw [strain_work hE hτ hτ, h.torque] at w
  linarith

include sq in
theorem torsion_unique {θ θ' : ℝ} (hτ : SquareInt (region els) τ) (hτ' : SquareInt (region els) τ')
    (h : SaintVenantTorsion (region els) E c θ τ) (h' : SaintVenantTorsion (region els) E c θ' τ') :
    (∀ᵐ p ∂volume.restrict (region els), τ p = τ' p) ∧ θ = θ' := by
  have hσ := sqInt_sub hτ hτ'
  have eq := diff_equilibrium hτ hτ' sq h.equilibrium h'.equilibrium
  have w := no_work hσ eq (twist_square hE hτ) h.compatible
  have w' := no_work hσ eq (twist_square hE hτ') h'.compatible
  have r1 : MemLp (fun p : ℝ × ℝ => p.1 - c.1) 2 (volume.restrict (region els)) := memLp_cont (by fun_prop) els
  have r2 : MemLp (fun p : ℝ × ℝ => p.2 - c.2) 2 (volume.restrict (region els)) := memLp_cont (by fun_prop) els
  have tq : ∫ p in region els, (p.1 - c.1) * (τ p - τ' p).2 - (p.2 - c.2) * (τ p - τ' p).1 = 0 := by
    rw [← sub_self (1 : ℝ)]
    nth_rewrite 1 [← h.torque]
    rw [← h'.torque]
    refine Eq.trans ?_ (integral_sub ((mul_int r1 hτ.2).sub (mul_int r2 hτ.1)) ((mul_int r1 hτ'.2).sub (mul_int r2 hτ'.1)))
    exact integral_congr_ae (ae_of_all _ fun p => by simp only [Prod.fst_sub, Prod.snd_sub]; ring)
  rw [strain_work hE hσ hτ, tq] at w
  rw [strain_work hE hσ hτ', tq] at w'
  have i1 := virtualWork_int hσ (g := fun p => ((τ p).1 / E p, (τ p).2 / E p)) ⟨hE.div hτ.1, hE.div hτ.2⟩
  have i2 := virtualWork_int hσ (g := fun p => ((τ' p).1 / E p, (τ' p).2 / E p)) ⟨hE.div hτ'.1, hE.div hτ'.2⟩
  have e0 : ∀ᵐ p ∂volume.restrict (region els), τ p - τ' p = 0 := by
    refine no_energy hE.pos (σ := fun p => τ p - τ' p) (virtualWork_int hσ (g := fun p => ((τ p - τ' p).1 / E p, (τ p - τ' p).2 / E p))
      ⟨hE.div hσ.1, hE.div hσ.2⟩) ?_
    have : virtualWork (region els) (fun p => τ p - τ' p) (fun p => ((τ p - τ' p).1 / E p, (τ p - τ' p).2 / E p))
        = virtualWork (region els) (fun p => τ p - τ' p) (fun p => ((τ p).1 / E p, (τ p).2 / E p))
          - virtualWork (region els) (fun p => τ p - τ' p) (fun p => ((τ' p).1 / E p, (τ' p).2 / E p)) := by
      refine Eq.trans ?_ (integral_sub i1 i2)
      exact integral_congr_ae (ae_of_all _ fun p => by simp only [Prod.fst_sub, Prod.snd_sub]; ring)
    rw [this]
    linarith
  have ae : ∀ᵐ p ∂volume.restrict (region els), τ p = τ' p := e0.mono fun p hp => sub_eq_zero.1 hp
  refine ⟨ae, ?_⟩
  rw [twist_energy hE hτ h, twist_energy hE hτ' h']
  refine integral_congr_ae ?_
  filter_upwards [ae] with p hp
  rw [hp]

include sq in
theorem flexure_unique {ν a b : ℝ} {V V' : ℝ × ℝ} (hν : 1 + ν ≠ 0) (hτ : SquareInt (region els) τ) (hτ' : SquareInt (region els) τ')
    (h : SaintVenantFlexure (region els) E c ν a b V τ) (h' : SaintVenantFlexure (region els) E c ν a b V' τ') :
    ∀ᵐ p ∂volume.restrict (region els), τ p = τ' p := by
  have hσ := sqInt_sub hτ hτ'
  have eq := diff_equilibrium hτ hτ' sq (l := fun v => ∫ p in region els, E p * (a * (p.1 - c.1) + b * (p.2 - c.2)) * v p)
    h.equilibrium h'.equilibrium
  have sqg : ∀ {τ : ℝ × ℝ → ℝ × ℝ}, SquareInt (region els) τ → SquareInt (region els) fun p =>
      (2 * (1 + ν) * (τ p).1 / E p + ν / 2 * (a * ((p.1 - c.1) ^ 2 - (p.2 - c.2) ^ 2) + 2 * b * ((p.1 - c.1) * (p.2 - c.2))),
      2 * (1 + ν) * (τ p).2 / E p + ν / 2 * (2 * a * ((p.1 - c.1) * (p.2 - c.2)) - b * ((p.1 - c.1) ^ 2 - (p.2 - c.2) ^ 2))) := fun hτ =>
    ⟨(hE.div (hτ.1.const_mul _)).add (memLp_cont (by fun_prop) els), (hE.div (hτ.2.const_mul _)).add (memLp_cont (by fun_prop) els)⟩
  have w := no_work hσ eq (sqg hτ) h.compatible
  have w' := no_work hσ eq (sqg hτ') h'.compatible
  have i1 := virtualWork_int hσ (sqg hτ)
  have i2 := virtualWork_int hσ (sqg hτ')
  have e0 : ∀ᵐ p ∂volume.restrict (region els), τ p - τ' p = 0 := by
    refine no_energy hE.pos (σ := fun p => τ p - τ' p) (virtualWork_int hσ (g := fun p => ((τ p - τ' p).1 / E p, (τ p - τ' p).2 / E p))
      ⟨hE.div hσ.1, hE.div hσ.2⟩) ?_
    have : 2 * (1 + ν) * virtualWork (region els) (fun p => τ p - τ' p) (fun p => ((τ p - τ' p).1 / E p, (τ p - τ' p).2 / E p)) = 0 := by
      rw [← sub_self (0 : ℝ)]
      nth_rewrite 1 [← w]
      rw [← w', virtualWork, ← integral_const_mul]
      refine Eq.trans ?_ (integral_sub i1 i2)
      exact integral_congr_ae (ae_of_all _ fun p => by simp only [Prod.fst_sub, Prod.snd_sub]; ring)
    exact (mul_eq_zero.1 this).resolve_left (mul_ne_zero two_ne_zero hν)
  exact e0.mono fun p hp => sub_eq_zero.1 hp

end

end SP
