import Verif.Lemmas.Outline
import Verif.Spec.OutlinePoly
import Mathlib.Data.Sign.Basic

/-!
# The outline of a polygon with holes
-/

namespace SP

open Spec MeasureTheory Set

abbrev DirEdge := (ℝ × ℝ) × (ℝ × ℝ)

theorem ringEdges_closed (r : List (ℝ × ℝ)) : ringEdges r = closedEdges r := by
  cases r with
  | nil => rfl
  | cons p ps => simp [ringEdges, closedEdges]

theorem closed_ring (r : List (ℝ × ℝ)) : ClosedOutline (closedEdges r) := by
  rw [ClosedOutline, closedEdges, List.map_fst_zip (by simp), List.map_snd_zip (by simp)]
  exact (List.rotate_perm r 1).symm

/-- The edges as they are, turned round, or none, according to the sign. -/
def orient (σ : SignType) (l : List DirEdge) : List DirEdge :=
  match σ with
  | .pos => l
  | .neg => l.map Prod.swap
  | .zero => []

theorem closed_orient (σ : SignType) {l : List DirEdge} (h : ClosedOutline l) : ClosedOutline (orient σ l) := by
  cases σ with
  | zero => exact List.Perm.refl _
  | pos => exact h
  | neg =>
    rw [ClosedOutline, orient, List.map_map, List.map_map]
    exact h.symm

theorem closed_append {l l' : List DirEdge} (h : ClosedOutline l) (h' : ClosedOutline l') : ClosedOutline (l ++ l') := by
  rw [ClosedOutline, List.map_append, List.map_append]
  exact h.append h'

theorem closed_flatMap {α : Type*} (L : List α) (F : α → List DirEdge) (h : ∀ a ∈ L, ClosedOutline (F a)) : ClosedOutline (L.flatMap F) := by
  induction L with
  | nil => exact List.Perm.refl _
  | cons a L ih =>
    rw [List.flatMap_cons]
    exact closed_append (h a (List.mem_cons_self ..)) (ih fun b hb => h b (List.mem_cons_of_mem _ hb))

theorem winding_append (l l' : List DirEdge) (p : ℝ × ℝ) : winding (l ++ l') p = winding l p + winding l' p := by
  simp [winding]

theorem winding_swap (l : List DirEdge) (p : ℝ × ℝ) : winding (l.map Prod.swap) p = - winding l p := by
  rw [winding, winding, List.map_map]
  induction l with
  | nil => simp
  | cons a l ih =>
    simp only [List.map_cons, List.sum_cons, ih, Function.comp, crosses_swap]
    ring

theorem winding_orient (σ : SignType) (l : List DirEdge) (p : ℝ × ℝ) : winding (orient σ l) p = (σ : ℤ) * winding l p := by
  cases σ with
  | zero => simp [orient, winding]
  | pos => simp [orient]
  | neg => simp [orient, winding_swap]

theorem winding_flatMap {α : Type*} (L : List α) (F : α → List DirEdge) (p : ℝ × ℝ) :
    winding (L.flatMap F) p = (L.map fun a => winding (F a) p).sum := by
  induction L with
  | nil => simp [winding]
  | cons a L ih => rw [List.flatMap_cons, winding_append, ih, List.map_cons, List.sum_cons]

/-- Sums over edges that change sign with the direction. -/
theorem edgeSum_orient (σ : SignType) (l : List DirEdge) {f : ℝ × ℝ → ℝ × ℝ → ℝ} (hf : ∀ a b, f b a = - f a b) :
    edgeSum (orient σ l) f = (σ : ℝ) * edgeSum l f := by
  cases σ with
  | zero => simp [orient, edgeSum]
  | pos => simp [orient]
  | neg =>
    simp only [orient, edgeSum, List.map_map]
    have : ∀ l : List DirEdge, (l.map ((fun e : DirEdge => f e.1 e.2) ∘ Prod.swap)).sum = -(l.map fun e => f e.1 e.2).sum := by
      intro l
      induction l with
      | nil => simp
      | cons a l ih =>
        simp only [List.map_cons, List.sum_cons, ih, Function.comp, Prod.fst_swap, Prod.snd_swap]
        rw [hf]; ring
    rw [this]
    simp

theorem edgeSum_append (l l' : List DirEdge) (f : ℝ × ℝ → ℝ × ℝ → ℝ) : edgeSum (l ++ l') f = edgeSum l f + edgeSum l' f := by
  simp [edgeSum]

theorem edgeSum_flatMap {α : Type*} (L : List α) (F : α → List DirEdge) (f : ℝ × ℝ → ℝ × ℝ → ℝ) :
    edgeSum (L.flatMap F) f = (L.map fun a => edgeSum (F a) f).sum := by
  induction L with
  | nil => simp [edgeSum]
  | cons a L ih => rw [List.flatMap_cons, edgeSum_append, ih, List.map_cons, List.sum_cons]

/-- The outline of a polygon with holes: the outer ring counter-clockwise, the inner rings clockwise. -/
noncomputable def polyEdges (p : Poly) : List DirEdge :=
  orient (SignType.sign (ringArea2 p.exterior)) (closedEdges p.exterior)
    ++ p.interiors.flatMap fun r => orient (- SignType.sign (ringArea2 r)) (closedEdges r)

theorem closed_poly (p : Poly) : ClosedOutline (polyEdges p) :=
  closed_append (closed_orient _ (closed_ring _)) (closed_flatMap _ _ fun _ _ => closed_orient _ (closed_ring _))

theorem ringArea2_outline (r : List (ℝ × ℝ)) : ringArea2 r = 2 * outlineArea (closedEdges r) := by
  rw [ringArea2, ringEdges_closed, outlineArea, edgeSum, ← List.sum_map_mul_left]
  congr 1
  exact List.map_congr_left fun e _ => by simp only [cross]; ring

/-- The sign of the area is the sense of a simple ring. -/
theorem simple_sign {r : List (ℝ × ℝ)} (h : SimpleRing r) :
    ∀ᵐ q, (winding (closedEdges r) q = 0 ∨ (SignType.sign (ringArea2 r) : ℤ) * winding (closedEdges r) q = 1) := by
  obtain ⟨σ, hσ⟩ := h
  obtain ⟨i1, -, -, -, -, -, i2, -⟩ := winding_int (closed_ring r)
  simp only [mul_one] at i1 i2
  rw [ringArea2_outline, ← i2]
  have hcast : ∀ᵐ q, (0 : ℝ) ≤ (σ : ℝ) * (winding (closedEdges r) q : ℝ) := by
    filter_upwards [hσ] with q hq
    rcases hq with hq | ⟨hq, -⟩
    · rw [hq]; simp
    · rw [hq]; exact mul_self_nonneg _
  by_cases h0 : ∫ q, (winding (closedEdges r) q : ℝ) = 0
  · have hz : ∫ q, (σ : ℝ) * (winding (closedEdges r) q : ℝ) = 0 := by rw [integral_const_mul, h0, mul_zero]
    have := (integral_eq_zero_iff_of_nonneg_ae hcast (i1.const_mul _)).1 hz
    filter_upwards [hσ, this] with q hq hq0
    rcases hq with hq | ⟨hq, ha⟩
    · exact .inl hq
    · exfalso
      simp only [hq, Pi.zero_apply, mul_self_eq_zero, Int.cast_eq_zero] at hq0
      rw [hq0] at ha
      simp at ha
  · have hs : (0 : ℝ) < (σ : ℝ) * ∫ q, (winding (closedEdges r) q : ℝ) := by
      rw [← integral_const_mul]
      refine lt_of_le_of_ne (integral_nonneg_of_ae hcast) fun hz => ?_
      rw [integral_const_mul] at hz
      have hσ0 : (σ : ℝ) = 0 := by
        rcases mul_eq_zero.1 hz.symm with h1 | h1
        · exact h1
        · exact absurd h1 h0
      apply h0
      rw [Int.cast_eq_zero] at hσ0
      have : (fun q => (winding (closedEdges r) q : ℝ)) =ᵐ[volume] fun _ => 0 := by
        filter_upwards [hσ] with q hq
        rcases hq with hq | ⟨hq, ha⟩
        · rw [hq]; simp
        · rw [hσ0] at ha; simp at ha
      rw [integral_congr_ae this, integral_zero]
    filter_upwards [hσ] with q hq
    rcases hq with hq | ⟨hq, ha⟩
    · exact .inl hq
    · right
      rw [hq]
      rcases (abs_eq zero_le_one).1 ha with h1 | h1
      · rw [h1] at hs ⊢
        rw [sign_pos (by simpa using hs)]
        simp
      · rw [h1] at hs ⊢
        rw [sign_neg (by push_cast at hs; linarith)]
        simp

open Classical in
/-- The outline of a valid polygon goes once round the points of the polygon. -/
theorem winding_poly {p : Poly} (h : ValidPoly p) : ∀ᵐ q, winding (polyEdges p) q = if q ∈ polyRegion p then 1 else 0 := by
  have hint : ∀ᵐ q, ∀ r ∈ p.interiors,
      (winding (closedEdges r) q = 0 ∨ (SignType.sign (ringArea2 r) : ℤ) * winding (closedEdges r) q = 1) := by
    have : ∀ L : List (List (ℝ × ℝ)), (∀ r ∈ L, SimpleRing r) → ∀ᵐ q, ∀ r ∈ L,
        (winding (closedEdges r) q = 0 ∨ (SignType.sign (ringArea2 r) : ℤ) * winding (closedEdges r) q = 1) := by
      intro L
      induction L with
      | nil => intro _; simp
      | cons a L ih =>
        intro hL
        filter_upwards [simple_sign (hL a (List.mem_cons_self ..)), ih fun r hr => hL r (List.mem_cons_of_mem _ hr)] with q h1 h2 r hr
        rcases List.mem_cons.1 hr with rfl | hr
        · exact h1
        · exact h2 r hr
    exact this _ h.interiors
  have hap : ∀ᵐ q, p.interiors.Pairwise fun r r' => winding (closedEdges r) q = 0 ∨ winding (closedEdges r') q = 0 := by
    have : ∀ L : List (List (ℝ × ℝ)), (L.Pairwise fun r r' => ∀ᵐ q, winding (closedEdges r) q = 0 ∨ winding (closedEdges r') q = 0) →
        ∀ᵐ q, L.Pairwise fun r r' => winding (closedEdges r) q = 0 ∨ winding (closedEdges r') q = 0 := by
      intro L
      induction L with
      | nil => intro _; simp
      | cons a L ih =>
        intro hL
        rw [List.pairwise_cons] at hL
        have h1 : ∀ᵐ q, ∀ r ∈ L, winding (closedEdges a) q = 0 ∨ winding (closedEdges r) q = 0 := by
          have : ∀ M : List (List (ℝ × ℝ)), (∀ r ∈ M, r ∈ L) → ∀ᵐ q, ∀ r ∈ M, winding (closedEdges a) q = 0 ∨ winding (closedEdges r) q = 0 := by
            intro M
            induction M with
            | nil => intro _; simp
            | cons b M ih' =>
              intro hM
              filter_upwards [hL.1 b (hM b (List.mem_cons_self ..)), ih' fun r hr => hM r (List.mem_cons_of_mem _ hr)] with q g1 g2 r hr
              rcases List.mem_cons.1 hr with rfl | hr
              · exact g1
              · exact g2 r hr
          exact this L fun _ h => h
        filter_upwards [h1, ih hL.2] with q g1 g2
        exact List.pairwise_cons.2 ⟨g1, g2⟩
    exact this _ h.apart
  filter_upwards [simple_sign h.exterior, hint, hap, h.within] with q h1 h2 h3 h4
  rw [polyEdges, winding_append, winding_orient, winding_flatMap]
  have hsum : (p.interiors.map fun r => winding (orient (- SignType.sign (ringArea2 r)) (closedEdges r)) q).sum
      = if (∃ r ∈ p.interiors, winding (closedEdges r) q ≠ 0) then -1 else 0 := by
    generalize p.interiors = L at h2 h3
    induction L with
    | nil => simp
    | cons a L ih =>
      rw [List.pairwise_cons] at h3
      have ih := ih (fun r hr => h2 r (List.mem_cons_of_mem _ hr)) h3.2
      rw [List.map_cons, List.sum_cons, ih, winding_orient]
      by_cases ha : winding (closedEdges a) q = 0
      · rw [ha, mul_zero, zero_add]
        congr 1
        refine propext ⟨fun ⟨r, hr, hw⟩ => ⟨r, List.mem_cons_of_mem _ hr, hw⟩, fun ⟨r, hr, hw⟩ => ?_⟩
        rcases List.mem_cons.1 hr with rfl | hr
        · exact absurd ha hw
        · exact ⟨r, hr, hw⟩
      · have h5 : ¬ ∃ r ∈ L, winding (closedEdges r) q ≠ 0 := fun ⟨r, hr, hw⟩ => (h3.1 r hr).elim ha hw
        rw [if_neg h5, if_pos ⟨a, List.mem_cons_self .., ha⟩, add_zero]
        have h6 := (h2 a (List.mem_cons_self ..)).resolve_left ha
        have : ((- SignType.sign (ringArea2 a) : SignType) : ℤ) = - (SignType.sign (ringArea2 a) : ℤ) := by
          cases SignType.sign (ringArea2 a) <;> rfl
        rw [this]
        linarith
  rw [hsum]
  by_cases ho : winding (closedEdges p.exterior) q = 0
  · have hno : ¬ ∃ r ∈ p.interiors, winding (closedEdges r) q ≠ 0 := fun hx => h4 hx ho
    rw [ho, if_neg hno, if_neg (fun hm : q ∈ polyRegion p => hm.1 ho)]
    simp
  · rw [h1.resolve_left ho]
    by_cases hx : ∃ r ∈ p.interiors, winding (closedEdges r) q ≠ 0
    · rw [if_pos hx, if_neg]
      · simp
      · rintro ⟨-, hm⟩
        obtain ⟨r, hr, hw⟩ := hx
        exact hw (hm r hr)
    · rw [if_neg hx, if_pos]
      · simp
      · refine ⟨ho, fun r hr => ?_⟩
        by_contra hw
        exact hx ⟨r, hr, hw⟩

end SP
