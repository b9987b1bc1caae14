import Verif.Props.AddBars
import Verif.Model.Walls
import Verif.Spec.Walls
import Verif.Lemmas.Library
import Mathlib.Analysis.Convex.Combination

/-!
# Rectangles, and outlines cut out of rectangles
-/

namespace SP

open Spec MeasureTheory

/-! ### Regions up to null sets -/

theorem vertical_null (c : ℝ) : volume {p : Pt | p.1 = c} = 0 := by
  have : {p : Pt | p.1 = c} = {c} ×ˢ Set.univ := by ext p; simp
  rw [this, Measure.volume_eq_prod, Measure.prod_prod]
  simp

theorem horizontal_null (c : ℝ) : volume {p : Pt | p.2 = c} = 0 := by
  have : {p : Pt | p.2 = c} = Set.univ ×ˢ {c} := by ext p; simp
  rw [this, Measure.volume_eq_prod, Measure.prod_prod]
  simp

/-- Regions that agree outside of finitely many lines parallel to the axes are equal up to a null set. -/
theorem ae_of_lines {A B : Set Pt} (xs ys : List ℝ) (h : ∀ x y : ℝ, (∀ c ∈ xs, x ≠ c) → (∀ c ∈ ys, y ≠ c) → ((x, y) ∈ A ↔ (x, y) ∈ B)) :
    A =ᵐ[volume] B := by
  have h1 : ∀ᵐ p : Pt, ∀ c ∈ xs, p.1 ≠ c := by
    refine (ae_ball_iff (S := {c | c ∈ xs}) xs.finite_toSet.countable).2 fun c _ => ?_
    rw [ae_iff]
    simpa using vertical_null c
  have h2 : ∀ᵐ p : Pt, ∀ c ∈ ys, p.2 ≠ c := by
    refine (ae_ball_iff (S := {c | c ∈ ys}) ys.finite_toSet.countable).2 fun c _ => ?_
    rw [ae_iff]
    simpa using horizontal_null c
  filter_upwards [h1, h2] with p hp1 hp2
  exact propext (h p.1 p.2 hp1 hp2)

/-! ### Rectangles -/

/-- The corners of a rectangle. -/
def boxPts (x₀ y₀ x₁ y₁ : ℝ) : List Pt := [(x₀, y₀), (x₁, y₀), (x₁, y₁), (x₀, y₁)]

theorem hull_box (x₀ y₀ x₁ y₁ : ℝ) : convexHull ℝ {v | v ∈ boxPts x₀ y₀ x₁ y₁} = Set.uIcc x₀ x₁ ×ˢ Set.uIcc y₀ y₁ := by
  have : {v : Pt | v ∈ boxPts x₀ y₀ x₁ y₁} = ({x₀, x₁} : Set ℝ) ×ˢ ({y₀, y₁} : Set ℝ) := by
    ext ⟨a, b⟩
    simp only [boxPts, Set.mem_ofPred_eq, List.mem_cons, List.not_mem_nil, or_false, Prod.mk.injEq, Set.mem_prod,
      Set.mem_insert_iff, Set.mem_singleton_iff]
    constructor
    · rintro (⟨rfl, rfl⟩ | ⟨rfl, rfl⟩ | ⟨rfl, rfl⟩ | ⟨rfl, rfl⟩) <;> simp
    · rintro ⟨rfl | rfl, rfl | rfl⟩ <;> simp
  rw [this, convexHull_prod, convexHull_pair, convexHull_pair, segment_eq_uIcc, segment_eq_uIcc]

/-- The geometry `g` is the rectangle with the given corners. -/
structure BoxGeom (ops : GeomOps) (g : Geometry) (x₀ y₀ x₁ y₁ : ℝ) : Prop where
  built : Built ops g
  tol : g.tol = 12
  poly : g.poly = ⟨boxPts x₀ y₀ x₁ y₁, []⟩

theorem box_mk (ops : GeomOps) {x₀ y₀ x₁ y₁ : ℝ} (hx : x₀ ≠ x₁) (g1 : OnGrid 12 x₀) (g2 : OnGrid 12 y₀) (g3 : OnGrid 12 x₁)
    (g4 : OnGrid 12 y₁) (m : Material) (cp : Option Pt) : BoxGeom ops (mkGeometry ops ⟨boxPts x₀ y₀ x₁ y₁, []⟩ m cp 12) x₀ y₀ x₁ y₁ := by
  refine ⟨mk_built .., rfl, roundPoly_of_onGrid (p := ⟨boxPts x₀ y₀ x₁ y₁, []⟩) ?_ ?_⟩
  · intro r hr q hq
    simp only [Poly.rings, List.mem_cons, List.not_mem_nil, or_false] at hr
    subst hr
    simp only [boxPts, List.mem_cons, List.not_mem_nil, or_false] at hq
    rcases hq with rfl | rfl | rfl | rfl <;> exact ⟨by assumption, by assumption⟩
  · by_contra h
    push Not at h
    have h1 := congrArg Prod.fst (h (x₀, y₀) (by simp [boxPts]))
    have h2 := congrArg Prod.fst (h (x₁, y₀) (by simp [boxPts]))
    exact hx (h1.trans h2.symm)

theorem box_rect (ops : GeomOps) {d b : ℝ} (hb : b ≠ 0) (g1 : OnGrid 12 b) (g2 : OnGrid 12 d) (m : Material) :
    BoxGeom ops (rectangularSection ops d b m) 0 0 b d := box_mk ops (Ne.symm hb) (.zero _) (.zero _) g1 g2 m none

theorem BoxGeom.shift {ops : GeomOps} {g : Geometry} {x₀ y₀ x₁ y₁ : ℝ} (h : BoxGeom ops g x₀ y₀ x₁ y₁) {u v : ℝ} (hx : x₀ ≠ x₁)
    (g1 : OnGrid 12 (x₀ + u)) (g2 : OnGrid 12 (y₀ + v)) (g3 : OnGrid 12 (x₁ + u)) (g4 : OnGrid 12 (y₁ + v)) :
    BoxGeom ops (g.shift ops u v) (x₀ + u) (y₀ + v) (x₁ + u) (y₁ + v) := by
  rw [Geometry.shift, h.poly, h.tol]
  exact box_mk ops (by simpa using hx) g1 g2 g3 g4 ..

theorem BoxGeom.mirrorY {ops : GeomOps} {g : Geometry} {x₀ y₀ x₁ y₁ : ℝ} (h : BoxGeom ops g x₀ y₀ x₁ y₁) {c e : ℝ} (hx : x₀ ≠ x₁)
    (g1 : OnGrid 12 (2 * c - x₀)) (g2 : OnGrid 12 y₀) (g3 : OnGrid 12 (2 * c - x₁)) (g4 : OnGrid 12 y₁) :
    BoxGeom ops (g.mirror ops .y (.point (c, e))) (2 * c - x₀) y₀ (2 * c - x₁) y₁ := by
  have hp : (⟨boxPts x₀ y₀ x₁ y₁, []⟩ : Poly).map (scaleAbout (c, e) (-1) 1) = ⟨boxPts (2 * c - x₀) y₀ (2 * c - x₁) y₁, []⟩ := by
    simp only [Poly.map, boxPts, List.map_cons, List.map_nil, scaleAbout, Poly.mk.injEq, List.cons.injEq, Prod.mk.injEq, and_true]
    refine ⟨⟨?_, ?_⟩, ⟨?_, ?_⟩, ⟨?_, ?_⟩, ?_, ?_⟩ <;> ring
  rw [Geometry.mirror, h.poly, h.tol]
  simp only [mirrorFactors]
  rw [hp]
  exact box_mk ops (by simpa using hx) g1 g2 g3 g4 ..

theorem box_extents {ops : GeomOps} {g : Geometry} {x₀ y₀ x₁ y₁ : ℝ} (h : BoxGeom ops g x₀ y₀ x₁ y₁) (hx : x₀ < x₁) (hy : y₀ < y₁) :
    g.extents = (x₀, x₁, y₀, y₁) := by
  rw [Geometry.extents, h.poly]
  simp [boxPts, ringBounds, runMin, runMax, hx.le, hy.le]

theorem box_centroid {ops : GeomOps} {g : Geometry} {x₀ y₀ x₁ y₁ : ℝ} (h : BoxGeom ops g x₀ y₀ x₁ y₁) (hx : x₀ < x₁) (hy : y₀ < y₁) :
    g.poly.centroid = ((x₀ + x₁) / 2, (y₀ + y₁) / 2) := by
  have hA : ringArea2 (boxPts x₀ y₀ x₁ y₁) = 2 * ((x₁ - x₀) * (y₁ - y₀)) := by
    simp [ringArea2, ringEdges, boxPts]; ring
  have h0 : 0 < (x₁ - x₀) * (y₁ - y₀) := mul_pos (sub_pos.2 hx) (sub_pos.2 hy)
  have hs : (SignType.sign (2 * ((x₁ - x₀) * (y₁ - y₀))) : ℝ) = 1 := by
    rw [sign_pos (by linarith)]; rfl
  have hM : ringMoment6 (boxPts x₀ y₀ x₁ y₁) = (3 * (x₀ + x₁) * ((x₁ - x₀) * (y₁ - y₀)), 3 * (y₀ + y₁) * ((x₁ - x₀) * (y₁ - y₀))) := by
    simp only [ringMoment6, ringEdges, boxPts, List.cons_append, List.nil_append, List.zip_cons_cons, List.zip_nil_left,
      List.map_cons, List.map_nil, List.sum_cons, List.sum_nil, Prod.mk.injEq]
    constructor <;> ring
  rw [h.poly, Poly.centroid, Poly.moment, Poly.area]
  simp only [hM, hA, hs, List.map_nil, List.sum_nil, sub_zero]
  rw [abs_of_pos (by linarith)]
  have := h0.ne'
  generalize (x₁ - x₀) * (y₁ - y₀) = k at this
  ext <;> simp only <;> field_simp <;> ring

/-- `align_center` of one rectangle to another. -/
theorem BoxGeom.center {ops : GeomOps} {g o : Geometry} {x₀ y₀ x₁ y₁ u₀ v₀ u₁ v₁ : ℝ} (h : BoxGeom ops g x₀ y₀ x₁ y₁)
    (ho : BoxGeom ops o u₀ v₀ u₁ v₁) (hx : x₀ < x₁) (hy : y₀ < y₁) (hu : u₀ < u₁) (hv : v₀ < v₁)
    (g1 : OnGrid 12 x₀) (g2 : OnGrid 12 y₀) (g3 : OnGrid 12 x₁) (g4 : OnGrid 12 y₁) {p q : ℝ}
    (hp : p = roundTo 12 ((u₀ + u₁) / 2 - (x₀ + x₁) / 2)) (hq : q = roundTo 12 ((v₀ + v₁) / 2 - (y₀ + y₁) / 2)) :
    BoxGeom ops (g.alignCenterTo ops o) (x₀ + p) (y₀ + q) (x₁ + p) (y₁ + q) := by
  rw [Geometry.alignCenterTo, Geometry.alignCenter, box_centroid h hx hy, box_centroid ho hu hv, h.tol]
  simp only
  rw [← hp, ← hq]
  have gp : OnGrid 12 p := hp ▸ roundTo_onGrid ..
  have gq : OnGrid 12 q := hq ▸ roundTo_onGrid ..
  exact h.shift hx.ne (g1.add gp) (g2.add gq) (g3.add gp) (g4.add gq)

/-- `align_to(other, on="right", inner=True)` of one rectangle to another. -/
theorem BoxGeom.right {ops : GeomOps} {g o : Geometry} {x₀ y₀ x₁ y₁ u₀ v₀ u₁ v₁ : ℝ} (h : BoxGeom ops g x₀ y₀ x₁ y₁)
    (ho : BoxGeom ops o u₀ v₀ u₁ v₁) (hx : x₀ < x₁) (hy : y₀ < y₁) (hu : u₀ < u₁) (hv : v₀ < v₁)
    (g1 : OnGrid 12 x₀) (g2 : OnGrid 12 y₀) (g3 : OnGrid 12 x₁) (g4 : OnGrid 12 y₁) (g5 : OnGrid 12 u₁) :
    BoxGeom ops (g.alignTo ops (.geom o.extents) .right true) (x₀ + (u₁ - x₁)) y₀ u₁ y₁ := by
  rw [Geometry.alignTo, box_extents h hx hy, box_extents ho hu hv]
  simp only [alignOffset, otherAsGeomMap, extentAt, if_true, reduceCtorEq, or_self, if_false]
  have := h.shift (u := u₁ - x₁) (v := 0) hx.ne (g1.add (g5.sub g3)) (by simpa using g2) (by simpa using g5) (by simpa using g4)
  simpa using this

/-- `align_to(other, on="top")` of one rectangle to another. -/
theorem BoxGeom.top {ops : GeomOps} {g o : Geometry} {x₀ y₀ x₁ y₁ u₀ v₀ u₁ v₁ : ℝ} (h : BoxGeom ops g x₀ y₀ x₁ y₁)
    (ho : BoxGeom ops o u₀ v₀ u₁ v₁) (hx : x₀ < x₁) (hy : y₀ < y₁) (hu : u₀ < u₁) (hv : v₀ < v₁)
    (g1 : OnGrid 12 x₀) (g2 : OnGrid 12 y₀) (g3 : OnGrid 12 x₁) (g4 : OnGrid 12 y₁) (g5 : OnGrid 12 v₁) :
    BoxGeom ops (g.alignTo ops (.geom o.extents) .top false) x₀ v₁ x₁ (y₁ + (v₁ - y₀)) := by
  rw [Geometry.alignTo, box_extents h hx hy, box_extents ho hu hv]
  simp only [alignOffset, otherAsGeomMap, alignSelfMap, extentAt, true_or, if_true]
  have := h.shift (u := 0) (v := v₁ - y₀) hx.ne (by simpa using g1) (by simpa using g5) (by simpa using g3) (g4.add (g5.sub g2))
  simpa [alignSelfMap] using this

theorem BoxGeom.kind {ops : GeomOps} {g : Geometry} {x₀ y₀ x₁ y₁ : ℝ} (h : BoxGeom ops g x₀ y₀ x₁ y₁) {K : Poly → Prop}
    {reg : Poly → Set Pt} (hk : ConvexKind K reg) (hx : x₀ ≠ x₁) (hy : y₀ ≠ y₁)
    (g1 : OnGrid 12 x₀) (g2 : OnGrid 12 y₀) (g3 : OnGrid 12 x₁) (g4 : OnGrid 12 y₁) :
    K g.poly ∧ reg g.poly = Set.uIcc x₀ x₁ ×ˢ Set.uIcc y₀ y₁ := by
  have hK : K g.poly := by rw [h.poly]; exact hk.boxes _ _ _ _ g1 g2 g3 g4 hx hy
  refine ⟨hK, ?_⟩
  rw [hk.convex _ hK, h.poly]
  exact hull_box ..

/-! ### Subtracting several geometries -/

theorem sub_material (ops : GeomOps) {ov : OverlayOps} {G K : Poly → Prop} {reg : Poly → Set Pt} (hc : CutsExactly G K reg ov)
    {s b r : Shape} (hs : GoodShape ops G s) (hb : GoodShape ops K b) (hr : s.sub ops ov b = .ok r) {m : Material}
    (hm : ∀ g ∈ s.parts, g.material = m) : ∀ g ∈ r.parts, g.material = m := by
  obtain ⟨r', l, h1, _, h3, h4⟩ := sub_parts ops hc hs hb
  rw [hr] at h1
  obtain rfl := Except.ok.inj h1
  intro g hg
  rw [h3] at hg
  obtain ⟨s', k1, k2⟩ := List.mem_flatMap.1 hg
  obtain ⟨g₀, k3, k4⟩ := forall₂_mem_right h4 k1
  rw [k4.material g k2]
  exact hm g₀ k3

theorem subAll_good (ops : GeomOps) {ov : OverlayOps} {G K : Poly → Prop} {reg : Poly → Set Pt} (hc : CutsExactly G K reg ov)
    {m : Material} : ∀ (gs : List Geometry) {s : Shape}, GoodShape ops G s → (∀ g ∈ s.parts, g.material = m) →
    (∀ g ∈ gs, Built ops g ∧ g.tol = 12 ∧ K g.poly) →
    ∃ r, subAll ops ov s gs = .ok r ∧ GoodShape ops G r ∧ (∀ g ∈ r.parts, g.material = m) ∧
      occupied reg r =ᵐ[volume] (occupied reg s \ covered reg (gs.map (·.poly)) : Set Pt) ∧ (PartsApart reg s → PartsApart reg r)
  | [], s, hs, hm, _ => ⟨s, rfl, hs, hm, by rw [List.map_nil, covered_nil, Set.sdiff_empty]; exact ae_eq_refl _, id⟩
  | g :: gs, s, hs, hm, hK => by
    obtain ⟨k1, k2, k3⟩ := hK g (by simp)
    have hg : GoodShape ops K (.single g) := good_single k1 k2 k3
    obtain ⟨t, t1, t2, t3, t4, _⟩ := sub_good ops hc hs hg
    have tm := sub_material ops hc hs hg t1 hm
    obtain ⟨r, r1, r2, r3, r4, r5⟩ := subAll_good ops hc gs t2 tm fun h hh => hK h (by simp [hh])
    refine ⟨r, ?_, r2, r3, ?_, fun h => r5 (t4 h)⟩
    · rw [subAll, List.foldlM_cons, t1]
      exact r1
    · refine r4.trans ?_
      rw [List.map_cons, covered_cons, ← Set.sdiff_sdiff]
      refine Filter.EventuallyEq.diff ?_ (ae_eq_refl _)
      have := t3 m
      rw [madeOf_parts reg tm, madeOf_parts reg hm, if_pos rfl, if_pos rfl, occupied_single] at this
      exact this

end SP
