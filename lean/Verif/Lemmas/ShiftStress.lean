import Verif.Lemmas.WeakLimit
import Mathlib.Analysis.Calculus.Deriv.Shift
import Mathlib.Analysis.Calculus.FDeriv.Comp
import Mathlib.Analysis.Calculus.FDeriv.Add
import Mathlib.Analysis.Calculus.ContDiff.Operations

/-!
# Saint-Venant's stresses in other coordinates

Stresses in coordinates from the centroid, and the same stresses in the coordinates of the geometry.
-/

namespace SP

open Spec MeasureTheory Set

variable {R R' : Set (ℝ × ℝ)} {c : ℝ × ℝ} {E : ℝ × ℝ → ℝ} {τ g : ℝ × ℝ → ℝ × ℝ}

theorem dX_moved (w : ℝ × ℝ → ℝ) (c p : ℝ × ℝ) : dX (fun q => w (q - c)) p = dX w (p - c) :=
  deriv_comp_sub_const (fun x => w (x, p.2 - c.2)) c.1 p.1

theorem dY_moved (w : ℝ × ℝ → ℝ) (c p : ℝ × ℝ) : dY (fun q => w (q - c)) p = dY w (p - c) :=
  deriv_comp_sub_const (fun y => w (p.1 - c.1, y)) c.2 p.2

/-- `R'` is `R`, seen from `c`. -/
structure Moved (R R' : Set (ℝ × ℝ)) (c : ℝ × ℝ) : Prop where
  mem : ∀ p, p ∈ R ↔ p - c ∈ R'
  preserving : MeasurePreserving (fun p : ℝ × ℝ => p - c) (volume.restrict R) (volume.restrict R')

theorem moved_of (hR : MeasurableSet R') (h : ∀ p, p ∈ R ↔ p - c ∈ R') : Moved R R' c := by
  refine ⟨h, ?_⟩
  have k := (measurePreserving_sub_right (volume : Measure (ℝ × ℝ)) c).restrict_preimage hR
  have e : (fun p : ℝ × ℝ => p - c) ⁻¹' R' = R := by
    ext p
    exact (h p).symm
  rwa [e] at k

theorem Moved.int (h : Moved R R' c) (F : ℝ × ℝ → ℝ) : ∫ p in R, F (p - c) = ∫ p in R', F p :=
  h.preserving.integral_comp (MeasurableEquiv.subRight c).measurableEmbedding F

theorem Moved.square (h : Moved R R' c) (hg : SquareInt R' g) : SquareInt R fun p => g (p - c) :=
  ⟨hg.1.comp_measurePreserving h.preserving, hg.2.comp_measurePreserving h.preserving⟩

theorem displacement_moved (h : ∀ p, p ∈ R ↔ p - c ∈ R') {w : ℝ × ℝ → ℝ} (hw : Displacement R' w) : Displacement R fun p => w (p - c) := by
  obtain ⟨⟨G, hG⟩, hd⟩ := hw
  refine ⟨⟨G, fun a b hab => ?_⟩, ?_⟩
  · have := hG (a - c) (b - c) fun z hz => by
      have := (h _).1 (hab z hz)
      convert this using 1
      rw [sub_sub_sub_cancel_right]
      abel
    simpa using this
  · have q := (measurePreserving_sub_right (volume : Measure (ℝ × ℝ)) c).quasiMeasurePreserving.ae hd
    filter_upwards [q] with p hp hpR
    exact DifferentiableAt.comp p (hp ((h p).1 hpR)) (differentiableAt_id.sub_const c)

theorem Moved.displacement (h : Moved R R' c) {v : ℝ × ℝ → ℝ} (hv : Displacement R v) : Displacement R' fun p => v (p + c) := by
  have := displacement_moved (R := R') (R' := R) (c := -c) (fun p => by rw [h.mem]; simp) hv
  simpa only [sub_neg_eq_add] using this

theorem Moved.compatible (h : Moved R R' c) (hg : Compatible R' g) : Compatible R fun p => g (p - c) := by
  intro ε hε
  obtain ⟨w, hw, h1, h2⟩ := hg ε hε
  refine ⟨_, displacement_moved h.mem hw, ?_, ?_⟩
  · simp only [dX_moved, dY_moved]
    exact h.square h1
  · simp only [dX_moved, dY_moved]
    exact (h.int fun p => (((dX w p, dY w p) : ℝ × ℝ) - g p).1 ^ 2 + (((dX w p, dY w p) : ℝ × ℝ) - g p).2 ^ 2).le.trans h2

theorem Moved.virtual (h : Moved R R' c) (v : ℝ × ℝ → ℝ) : ∫ p in R, (τ (p - c)).1 * dX v p + (τ (p - c)).2 * dY v p
    = ∫ p in R', (τ p).1 * dX (fun q => v (q + c)) p + (τ p).2 * dY (fun q => v (q + c)) p := by
  rw [← h.int]
  have e := fun p => dX_moved (fun q => v (q + c)) c p
  have e' := fun p => dY_moved (fun q => v (q + c)) c p
  simp only [sub_add_cancel] at e e'
  simp only [← e, ← e']

theorem Moved.torsion (h : Moved R R' c) {θ : ℝ} (ht : SaintVenantTorsion R' (fun p => E (p + c)) 0 θ τ) :
    SaintVenantTorsion R E c θ fun p => τ (p - c) := by
  refine ⟨fun v hv => ?_, ?_, ?_⟩
  · rw [h.virtual]
    exact ht.equilibrium _ (h.displacement hv)
  · have := ht.torque
    simp only [Prod.fst_zero, Prod.snd_zero, sub_zero] at this
    rw [← this]
    exact h.int fun p => p.1 * (τ p).2 - p.2 * (τ p).1
  · have := h.compatible ht.compatible
    simpa only [Prod.fst_zero, Prod.snd_zero, sub_zero, sub_add_cancel, Prod.fst_sub, Prod.snd_sub] using this

theorem Moved.flexure (h : Moved R R' c) {ν a b : ℝ} {V : ℝ × ℝ} (ht : SaintVenantFlexure R' (fun p => E (p + c)) 0 ν a b V τ) :
    SaintVenantFlexure R E c ν a b V fun p => τ (p - c) := by
  refine ⟨fun v hv => ?_, ⟨?_, ?_⟩, ?_⟩
  · have e := ht.equilibrium (fun q => v (q + c)) (h.displacement hv)
    rw [h.virtual, e, ← h.int]
    simp
  · rw [← ht.resultant.1]
    exact h.int fun p => (τ p).1
  · rw [← ht.resultant.2]
    exact h.int fun p => (τ p).2
  · have := h.compatible ht.compatible
    simpa only [Prod.fst_zero, Prod.snd_zero, sub_zero, sub_add_cancel, Prod.fst_sub, Prod.snd_sub] using this

end SP
