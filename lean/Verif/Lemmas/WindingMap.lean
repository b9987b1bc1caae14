import Verif.Lemmas.Convex
import Verif.Lemmas.Perturb
import Verif.Props.Transform

/-!
# Polygons under affine maps
-/

namespace SP

open Spec MeasureTheory Set

variable {a b c d : ℝ}

theorem signedArea2_affine (a b c d e f : ℝ) (u v w : ℝ × ℝ) :
    signedArea2 (affine a b c d e f u) (affine a b c d e f v) (affine a b c d e f w) = (a * d - b * c) * signedArea2 u v w := by
  simp only [signedArea2, affine]; ring

theorem triWinding_swap (u v w p : ℝ × ℝ) : triWinding u w v p = - triWinding u v w p := by
  have h1 := crosses_swap (u, v) p
  have h2 := crosses_swap (v, w) p
  have h3 := crosses_swap (w, u) p
  rw [Prod.swap_prod_mk] at h1 h2 h3
  rw [triWinding, triWinding, h1, h2, h3]
  ring

/-- How often a triangle goes round a generic point, from the signs of areas alone. -/
theorem triWinding_signs {u v w u' v' w' p p' : ℝ × ℝ} (h0 : 0 < signedArea2 u v w) (h1 : signedArea2 u v p ≠ 0)
    (h2 : signedArea2 v w p ≠ 0) (h3 : signedArea2 w u p ≠ 0) (h0' : 0 < signedArea2 u' v' w') (h1' : signedArea2 u' v' p' ≠ 0)
    (h2' : signedArea2 v' w' p' ≠ 0) (h3' : signedArea2 w' u' p' ≠ 0)
    (h : (0 < signedArea2 u' v' p' ∧ 0 < signedArea2 v' w' p' ∧ 0 < signedArea2 w' u' p') ↔
      (0 < signedArea2 u v p ∧ 0 < signedArea2 v w p ∧ 0 < signedArea2 w u p)) : triWinding u' v' w' p' = triWinding u v w p := by
  rcases triWinding_eq h0 h1 h2 h3 with ⟨k1, k2, k3, k⟩ | ⟨k0, k⟩ <;> rcases triWinding_eq h0' h1' h2' h3' with ⟨g1, g2, g3, g⟩ | ⟨g0, g⟩
  · rw [g, k]
  · exact absurd (h.2 ⟨k1, k2, k3⟩) g0
  · exact absurd (h.1 ⟨g1, g2, g3⟩) k0
  · rw [g, k]

theorem signedArea2_swap (x y z : ℝ × ℝ) : signedArea2 y x z = - signedArea2 x y z := by simp only [signedArea2]; ring

theorem signedArea2_swap' (x y z : ℝ × ℝ) : signedArea2 x z y = - signedArea2 x y z := by simp only [signedArea2]; ring

theorem triWinding_affine_pos (e f : ℝ) (hD : a * d - b * c ≠ 0) {u v w p : ℝ × ℝ} (h0 : 0 < signedArea2 u v w)
    (h1 : signedArea2 u v p ≠ 0) (h2 : signedArea2 v w p ≠ 0) (h3 : signedArea2 w u p ≠ 0) :
    triWinding (affine a b c d e f u) (affine a b c d e f v) (affine a b c d e f w) (affine a b c d e f p)
      = (SignType.sign (a * d - b * c) : ℤ) * triWinding u v w p := by
  rcases lt_or_gt_of_ne hD with h | h
  · rw [sign_neg h]
    have := triWinding_signs (p' := affine a b c d e f p) (u' := affine a b c d e f u) (v' := affine a b c d e f w)
      (w' := affine a b c d e f v) h0 h1 h2 h3 (by rw [signedArea2_affine, signedArea2_swap']; nlinarith)
      (by rw [signedArea2_affine, signedArea2_swap]; exact mul_ne_zero hD (neg_ne_zero.2 h3))
      (by rw [signedArea2_affine, signedArea2_swap]; exact mul_ne_zero hD (neg_ne_zero.2 h2))
      (by rw [signedArea2_affine, signedArea2_swap]; exact mul_ne_zero hD (neg_ne_zero.2 h1))
      (by
        simp only [signedArea2_affine]
        rw [signedArea2_swap w u, signedArea2_swap v w, signedArea2_swap u v]
        have k : ∀ x : ℝ, 0 < (a * d - b * c) * -x ↔ 0 < x := fun x => by
          rw [mul_neg, ← neg_mul, mul_pos_iff_of_pos_left (by linarith)]
        simp only [k]
        tauto)
    rw [triWinding_swap] at this
    simp only [SignType.coe_neg_one]
    omega
  · rw [sign_pos h, triWinding_signs h0 h1 h2 h3 (by rw [signedArea2_affine]; positivity)
      (by rw [signedArea2_affine]; exact mul_ne_zero hD h1) (by rw [signedArea2_affine]; exact mul_ne_zero hD h2)
      (by rw [signedArea2_affine]; exact mul_ne_zero hD h3) (by simp only [signedArea2_affine, mul_pos_iff_of_pos_left h])]
    simp

theorem triWinding_affine (e f : ℝ) (hD : a * d - b * c ≠ 0) {u v w p : ℝ × ℝ} (h0 : signedArea2 u v w ≠ 0) (h1 : signedArea2 u v p ≠ 0)
    (h2 : signedArea2 v w p ≠ 0) (h3 : signedArea2 w u p ≠ 0) :
    triWinding (affine a b c d e f u) (affine a b c d e f v) (affine a b c d e f w) (affine a b c d e f p)
      = (SignType.sign (a * d - b * c) : ℤ) * triWinding u v w p := by
  rcases lt_or_gt_of_ne h0 with h | h
  · rw [triWinding_swap _ (affine a b c d e f w), triWinding_swap u w v, triWinding_affine_pos e f hD (by rw [signedArea2_swap']; linarith)
      (by rw [signedArea2_swap]; exact neg_ne_zero.2 h3) (by rw [signedArea2_swap]; exact neg_ne_zero.2 h2)
      (by rw [signedArea2_swap]; exact neg_ne_zero.2 h1)]
    ring
  · exact triWinding_affine_pos e f hD h h1 h2 h3

/-- A closed outline as a fan of triangles. -/
theorem winding_fan {l : List DirEdge} (hl : ClosedOutline l) (o p : ℝ × ℝ) : winding l p = (l.map fun e => triWinding o e.1 e.2 p).sum := by
  have h1 : (l.map fun e : DirEdge => crosses (o, e.1) p).sum = (l.map fun e : DirEdge => crosses (o, e.2) p).sum := by
    have := (hl.map fun q => crosses (o, q) p).sum_eq
    simpa [List.map_map, Function.comp_def] using this
  have h2 : ∀ l : List DirEdge, (l.map fun e => triWinding o e.1 e.2 p).sum
      = winding l p + ((l.map fun e : DirEdge => crosses (o, e.1) p).sum - (l.map fun e : DirEdge => crosses (o, e.2) p).sum) := by
    intro l
    induction l with
    | nil => simp [winding]
    | cons e l ih =>
      have hs := crosses_swap (o, e.2) p
      rw [Prod.swap_prod_mk] at hs
      rw [List.map_cons, List.sum_cons, ih]
      simp only [List.map_cons, List.sum_cons, winding, triWinding, hs]
      ring
  rw [h2, h1]
  ring

theorem ae_off {u v : ℝ × ℝ} (h : u ≠ v) : ∀ᵐ p : ℝ × ℝ, signedArea2 u v p ≠ 0 := by
  have := signedArea_null h
  rwa [← compl_mem_ae_iff] at this

theorem ae_list {α : Type*} (l : List α) {P : α → ℝ × ℝ → Prop} (h : ∀ x ∈ l, ∀ᵐ p, P x p) : ∀ᵐ p, ∀ x ∈ l, P x p := by
  induction l with
  | nil => simp
  | cons x l ih =>
    filter_upwards [h x (List.mem_cons_self ..), ih fun y hy => h y (List.mem_cons_of_mem _ hy)] with p h1 h2 y hy
    rcases List.mem_cons.1 hy with rfl | hy
    · exact h1
    · exact h2 y hy

/-- Affine maps keep winding numbers, or change their sign if they change the sense. -/
theorem winding_affine (e f : ℝ) (hD : a * d - b * c ≠ 0) {l : List DirEdge} (hl : ClosedOutline l) :
    ∀ᵐ p, winding (l.map fun x => (affine a b c d e f x.1, affine a b c d e f x.2)) (affine a b c d e f p)
      = (SignType.sign (a * d - b * c) : ℤ) * winding l p := by
  -- a point that is on no line through an edge and is no end of an edge
  obtain ⟨o, ho1, ho2⟩ : ∃ o : ℝ × ℝ, (∀ x ∈ l, x.1 ≠ x.2 → signedArea2 x.1 x.2 o ≠ 0) ∧ ∀ x ∈ l, o ≠ x.1 ∧ o ≠ x.2 := by
    have h1 : ∀ᵐ o : ℝ × ℝ, ∀ x ∈ l, x.1 ≠ x.2 → signedArea2 x.1 x.2 o ≠ 0 :=
      ae_list l fun x _ => by
        by_cases h : x.1 = x.2
        · simp [h]
        · filter_upwards [ae_off h] with p hp _ using hp
    have h2 : ∀ᵐ o : ℝ × ℝ, ∀ x ∈ l, o ≠ x.1 ∧ o ≠ x.2 :=
      ae_list l fun x _ => by
        have hn : ∀ q : ℝ × ℝ, ∀ᵐ o : ℝ × ℝ, o ≠ q := fun q => by
          rw [ae_iff]
          simp
        filter_upwards [hn x.1, hn x.2] with p h1 h2 using ⟨h1, h2⟩
    exact (h1.and h2).exists
  have key : ∀ᵐ p : ℝ × ℝ, ∀ x ∈ l, x.1 ≠ x.2 → signedArea2 o x.1 p ≠ 0 ∧ signedArea2 x.1 x.2 p ≠ 0 ∧ signedArea2 x.2 o p ≠ 0 :=
    ae_list l fun x hx => by
      by_cases h : x.1 = x.2
      · simp [h]
      · filter_upwards [ae_off (ho2 x hx).1, ae_off h, ae_off (ho2 x hx).2.symm] with p h1 h2 h3 _ using ⟨h1, h2, h3⟩
  filter_upwards [key] with p hp
  have hl' : ClosedOutline (l.map fun x => (affine a b c d e f x.1, affine a b c d e f x.2)) := by
    have := List.Perm.map (affine a b c d e f) hl
    rw [ClosedOutline]
    simpa [List.map_map, Function.comp_def] using this
  rw [winding_fan hl' (affine a b c d e f o), winding_fan hl o, List.map_map, ← List.sum_map_mul_left]
  refine congrArg _ (List.map_congr_left fun x hx => ?_)
  by_cases h : x.1 = x.2
  · have z : ∀ o q p : ℝ × ℝ, triWinding o q q p = 0 := fun o q p => by
      have hs := crosses_swap (o, q) p
      rw [Prod.swap_prod_mk] at hs
      rw [triWinding, hs, crosses_flat (e := (q, q)) rfl]
      ring
    simp only [Function.comp, h, z, mul_zero]
  · obtain ⟨h1, h2, h3⟩ := hp x hx h
    refine triWinding_affine e f hD ?_ h1 h2 h3
    have := ho1 x hx h
    have e1 : signedArea2 o x.1 x.2 = signedArea2 x.1 x.2 o := by simp only [signedArea2]; ring
    rw [e1]
    exact this

theorem affine_surjective (e f : ℝ) (hD : a * d - b * c ≠ 0) : Function.Surjective (affine a b c d e f) := by
  intro q
  refine ⟨((d * (q.1 - e) - b * (q.2 - f)) / (a * d - b * c), (a * (q.2 - f) - c * (q.1 - e)) / (a * d - b * c)), ?_⟩
  simp only [affine]
  ext
  · simp only
    field_simp
    ring
  · have h : c * ((d * (q.1 - e) - b * (q.2 - f)) / (a * d - b * c)) + d * ((a * (q.2 - f) - c * (q.1 - e)) / (a * d - b * c)) + f
        = (a * d - b * c) * (q.2 - f) / (a * d - b * c) + f := by ring
    rw [mul_div_cancel_left₀ _ hD] at h
    simpa using h

theorem ae_of_affine (e f : ℝ) (hD : a * d - b * c ≠ 0) {P : ℝ × ℝ → Prop} (h : ∀ᵐ p, P (affine a b c d e f p)) : ∀ᵐ q, P q := by
  rw [ae_iff] at h ⊢
  refine measure_mono_null ?_ (null_image a b c d e f h)
  intro q hq
  obtain ⟨p, rfl⟩ := affine_surjective e f hD q
  exact ⟨p, hq, rfl⟩

theorem ring_affine (e f : ℝ) (hD : a * d - b * c ≠ 0) (r : List (ℝ × ℝ)) :
    ∀ᵐ p, winding (closedEdges (r.map (affine a b c d e f))) (affine a b c d e f p)
      = (SignType.sign (a * d - b * c) : ℤ) * winding (closedEdges r) p := by
  rw [closedEdges_mapped]
  exact winding_affine e f hD (closed_ring r)

theorem sign_int {x : ℝ} (hx : x ≠ 0) : ((SignType.sign x : SignType) : ℤ) = 1 ∨ ((SignType.sign x : SignType) : ℤ) = -1 := by
  rcases lt_or_gt_of_ne hx with h | h
  · right; rw [sign_neg h]; rfl
  · left; rw [sign_pos h]; rfl

theorem winding_zero_iff {x y s : ℤ} (hs : s = 1 ∨ s = -1) (h : y = s * x) : y = 0 ↔ x = 0 := by
  rcases hs with rfl | rfl <;> omega

theorem simpleRing_affine (e f : ℝ) (hD : a * d - b * c ≠ 0) {r : List (ℝ × ℝ)} (hr : SimpleRing r) :
    SimpleRing (r.map (affine a b c d e f)) := by
  obtain ⟨σ, hσ⟩ := hr
  refine ⟨(SignType.sign (a * d - b * c) : ℤ) * σ, ae_of_affine e f hD ?_⟩
  filter_upwards [hσ, ring_affine e f hD r] with p h1 h2
  rw [h2]
  rcases h1 with h | ⟨h, h'⟩
  · left; rw [h, mul_zero]
  · right
    refine ⟨by rw [h], ?_⟩
    rw [abs_mul, h', mul_one]
    rcases sign_int hD with s | s <;> rw [s] <;> norm_num

/-- Affine images of valid polygons are valid. -/
theorem validPoly_affine (e f : ℝ) (hD : a * d - b * c ≠ 0) {p : Poly} (hp : ValidPoly p) : ValidPoly (p.map (affine a b c d e f)) where
  exterior := simpleRing_affine e f hD hp.exterior
  interiors := by
    intro r hr
    obtain ⟨r0, h0, rfl⟩ := List.mem_map.1 hr
    exact simpleRing_affine e f hD (hp.interiors r0 h0)
  within := by
    refine ae_of_affine e f hD ?_
    filter_upwards [hp.within, ring_affine e f hD p.exterior, ae_list p.interiors fun r _ => ring_affine e f hD r] with q h1 h2 h3
    rintro ⟨r, hr, hne⟩
    obtain ⟨r0, h0, rfl⟩ := List.mem_map.1 hr
    have k := h1 ⟨r0, h0, fun h => hne ((winding_zero_iff (sign_int hD) (h3 r0 h0)).2 h)⟩
    exact fun h => k ((winding_zero_iff (sign_int hD) h2).1 h)
  apart := by
    refine List.pairwise_map.2 (hp.apart.imp fun {r r'} h => ae_of_affine e f hD ?_)
    filter_upwards [h, ring_affine e f hD r, ring_affine e f hD r'] with q h1 h2 h3
    rcases h1 with h1 | h1
    · exact .inl ((winding_zero_iff (sign_int hD) h2).2 h1)
    · exact .inr ((winding_zero_iff (sign_int hD) h3).2 h1)

/-- The points of the image of a polygon. -/
theorem polyRegion_affine (e f : ℝ) (hD : a * d - b * c ≠ 0) (p : Poly) :
    polyRegion (p.map (affine a b c d e f)) =ᵐ[volume] affine a b c d e f '' polyRegion p := by
  refine Filter.eventuallyEq_set.2 (ae_of_affine e f hD ?_)
  filter_upwards [ring_affine e f hD p.exterior, ae_list p.interiors fun r _ => ring_affine e f hD r] with q h2 h3
  rw [(affine_injective e f hD).mem_set_image]
  simp only [polyRegion, Poly.map, mem_ofPred_eq, List.forall_mem_map, ne_eq]
  rw [winding_zero_iff (sign_int hD) h2]
  refine and_congr_right fun _ => forall₂_congr fun r hr => winding_zero_iff (sign_int hD) (h3 r hr)

theorem poly_integral_affine (e f : ℝ) (hD : a * d - b * c ≠ 0) (p : Poly) (F : ℝ × ℝ → ℝ) :
    ∫ q in polyRegion (p.map (affine a b c d e f)), F q = |a * d - b * c| * ∫ q in polyRegion p, F (affine a b c d e f q) := by
  rw [setIntegral_congr_set (polyRegion_affine e f hD p), image_integral e f hD (measurable_polyRegion p)]

end SP
