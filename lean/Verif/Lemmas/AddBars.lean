import Verif.Model.AddBars
import Verif.Spec.AddBars
import Verif.Props.Circle
import Verif.Props.SetOps
import Verif.Props.Align

/-!
# Lemmas on bars: their polygons, and cutting them in
-/

namespace SP

open Spec MeasureTheory

/-! ### The polygon of a bar -/

theorem ringArea2_perturb {l : List Pt} {X Y e : ℝ} (F : Pt → Pt) (hX : ∀ p ∈ l, |p.1| ≤ X) (hY : ∀ p ∈ l, |p.2| ≤ Y)
    (hF : ∀ p, |(F p).1 - p.1| ≤ e ∧ |(F p).2 - p.2| ≤ e) :
    |ringArea2 (l.map F) - ringArea2 l| ≤ l.length * (2 * e * (X + Y + e)) := by
  rw [ringArea2, ringArea2, ringEdges_prodMap, List.map_map, ← ringEdges_length l]
  refine list_sum_abs_sub_le _ _ _ fun a ha => ?_
  obtain ⟨h1, h2⟩ := ringEdges_mem ha
  simp only [Function.comp_apply, Prod.map_fst, Prod.map_snd]
  have k1 := prod_perturb (hF a.1).1 (hF a.2).2 (hX _ h1) (hY _ h2)
  have k2 := prod_perturb (hF a.2).1 (hF a.1).2 (hX _ h2) (hY _ h1)
  have : (F a.1).1 * (F a.2).2 - (F a.2).1 * (F a.1).2 - (a.1.1 * a.2.2 - a.2.1 * a.1.2)
      = ((F a.1).1 * (F a.2).2 - a.1.1 * a.2.2) - ((F a.2).1 * (F a.1).2 - a.2.1 * a.1.2) := by ring
  rw [this]
  refine (abs_sub _ _).trans ?_
  linarith

/-- The diameter: not too small, not too large, and right for the area. -/
theorem diameterOf_bounds {area : ℝ} (ha : 0 < area) {n : ℕ} (hn : 3 ≤ n) :
    √area ≤ diameterOf area n ∧ diameterOf area n ≤ 2 * √area ∧
    n * (1 / 2 * (diameterOf area n / 2) ^ 2 * Real.sin (2 * Real.pi / n)) = area := by
  obtain ⟨hD0, hD⟩ := diameterOf_sq ha hn
  have h2 := two_le_n_sin hn
  have hpi := Real.pi_le_four
  have hn' : (3 : ℝ) ≤ n := by exact_mod_cast hn
  have h3 : n * Real.sin (2 * Real.pi / n) ≤ 2 * Real.pi := by
    have := Real.sin_lt (show 0 < 2 * Real.pi / n by have := Real.pi_pos; positivity)
    rw [lt_div_iff₀ (by linarith)] at this
    linarith
  have hDa : area ≤ diameterOf area n ^ 2 := by nlinarith [sq_nonneg (diameterOf area n)]
  refine ⟨?_, ?_, by linear_combination hD / 8⟩
  · refine le_of_sq_le_sq ?_ hD0
    rw [Real.sq_sqrt ha.le]
    exact hDa
  · refine le_of_sq_le_sq ?_ (by positivity)
    rw [mul_pow, Real.sq_sqrt ha.le]
    nlinarith [sq_nonneg (diameterOf area n)]

/-- A polygon made of the vertices of the regular polygon, moved by `(x, y)` up to `k` units, is a bar. -/
theorem isBar_of_map {g : Geometry} {m : Material} {n : ℕ} {area x y k : ℝ} (F : Pt → Pt) (ha : 0 < area) (hn : 3 ≤ n)
    (hk : k ≤ 2) (hm : g.material = m)
    (hg : g.poly = ⟨(ellipsePts (diameterOf area n) (diameterOf area n) n).map F, []⟩)
    (hF : ∀ p, |(F p).1 - (p.1 + x)| ≤ k / 10 ^ 12 ∧ |(F p).2 - (p.2 + y)| ≤ k / 10 ^ 12) :
    IsBar k m n area x y g := by
  obtain ⟨d1, d2, d3⟩ := diameterOf_bounds ha hn
  set D := diameterOf area n with hD
  have hs : 0 < √area := Real.sqrt_pos.2 ha
  have hk0 : 0 ≤ k / 10 ^ 12 := (abs_nonneg _).trans (hF (0, 0)).1
  refine ⟨hm, by rw [hg], ⟨D / 2, by linarith, d3, ?_, fun i hi => ?_⟩, ?_⟩
  · rw [hg]; simp [ellipsePts]
  · refine ⟨F (ellipsePt D D n i), ?_, ?_, ?_⟩
    · rw [hg, ellipsePts_eq]; simp [hi]
    · have := (hF (ellipsePt D D n i)).1
      have e : (ellipsePt D D n i).1 = D / 2 * Real.cos (2 * Real.pi * i / n) := by
        simp only [ellipsePt]
      rw [e] at this
      rwa [add_comm x]
    · have := (hF (ellipsePt D D n i)).2
      have e : (ellipsePt D D n i).2 = D / 2 * Real.sin (2 * Real.pi * i / n) := by
        simp only [ellipsePt]
      rw [e] at this
      rwa [add_comm y]
  · have hb := ellipse_boxed (show 0 ≤ D by linarith) (show 0 ≤ D by linarith) n
    have hX : ∀ p ∈ ellipsePts D D n, |p.1| ≤ √area := fun p hp => by
      have := hb p hp
      rw [abs_le]; constructor <;> linarith [this.1, this.2.1]
    have hY : ∀ p ∈ ellipsePts D D n, |p.2| ≤ √area := fun p hp => by
      have := hb p hp
      rw [abs_le]; constructor <;> linarith [this.2.2.1, this.2.2.2]
    have hA : g.poly.area = |ringArea2 ((ellipsePts D D n).map fun p => translate (-x) (-y) (F p))| / 2 := by
      rw [hg]
      simp only [Poly.area, List.map_nil, List.sum_nil, sub_zero]
      rw [← ringArea2_translate (-x) (-y), List.map_map]
      rfl
    have h0 : |ringArea2 (ellipsePts D D n)| / 2 = area := by
      rw [ellipse_area2 _ _ (by omega), abs_half (inscribed_nonneg (by linarith) (by linarith) hn), inscribed]
      linear_combination d3
    have hp := ringArea2_perturb (fun p => translate (-x) (-y) (F p)) hX hY (e := k / 10 ^ 12) fun p => by
      have := hF p
      simp only [translate]
      constructor
      · rw [show (F p).1 + -x - p.1 = (F p).1 - (p.1 + x) by ring]; exact this.1
      · rw [show (F p).2 + -y - p.2 = (F p).2 - (p.2 + y) by ring]; exact this.2
    have hl : ((ellipsePts D D n).length : ℝ) = n := by simp [ellipsePts]
    rw [hl] at hp
    have h2 := abs_abs_sub_abs_le (ringArea2 ((ellipsePts D D n).map fun p => translate (-x) (-y) (F p)))
      (ringArea2 (ellipsePts D D n))
    rw [hA, ← h0, ← sub_div, abs_div, abs_two]
    have h3 := h2.trans hp
    have hn0 : (0 : ℝ) ≤ n := by positivity
    have he : k / 10 ^ 12 ≤ 2 := by
      rw [div_le_iff₀ (by positivity)]
      linarith
    have h4 : (n : ℝ) * (2 * (k / 10 ^ 12) * (√area + √area + k / 10 ^ 12))
        ≤ n * (2 * (k / 10 ^ 12) * (√area + √area + 2)) := by gcongr
    rw [h0]
    have h5 : k * (n * (2 * √area + 2)) / 10 ^ 12 = n * (2 * (k / 10 ^ 12) * (√area + √area + 2)) / 2 := by ring
    rw [h5]
    linarith

/-- The vertices of the regular polygon are far apart. -/
theorem ellipse_apart {area : ℝ} (ha : 1 / 10 ^ 20 < area) {n : ℕ} (hn : 3 ≤ n) {k : ℝ} (hk : k ≤ 1000) :
    Apart k 12 (ellipsePts (diameterOf area n) (diameterOf area n) n) := by
  have ha0 : 0 < area := lt_trans (by positivity) ha
  obtain ⟨d1, d2, d3⟩ := diameterOf_bounds ha0 hn
  set D := diameterOf area n
  have hs : 1 / 10 ^ 10 < √area := by
    rw [Real.lt_sqrt (by positivity)]
    norm_num at ha ⊢
    exact ha
  have hn0 : (0 : ℝ) < n := by exact_mod_cast (by omega : 0 < n)
  have hc : Real.cos (2 * Real.pi * (n / 2 : ℕ) / n) ≤ 0 := by
    have e1 : ((n / 2 : ℕ) : ℝ) ≤ n / 2 := Nat.cast_div_le
    have e2 : (n : ℝ) / 4 ≤ (n / 2 : ℕ) := by
      have : n ≤ 4 * (n / 2) := by omega
      have : (n : ℝ) ≤ 4 * (n / 2 : ℕ) := by exact_mod_cast this
      linarith
    have hpi := Real.pi_pos
    apply Real.cos_nonpos_of_pi_div_two_le_of_le
    · rw [le_div_iff₀ hn0]; nlinarith
    · rw [div_le_iff₀ hn0]; nlinarith
  refine ⟨ellipsePt D D n 0, ?_, ellipsePt D D n (n / 2), ?_, ?_⟩
  · rw [ellipsePts_eq]; exact List.mem_map_of_mem (List.mem_range.2 (by omega))
  · rw [ellipsePts_eq]; exact List.mem_map_of_mem (List.mem_range.2 (by omega))
  · have e0 : (ellipsePt D D n 0).1 = D / 2 := by simp [ellipsePt]
    have e1 : (ellipsePt D D n (n / 2)).1 = D / 2 * Real.cos (2 * Real.pi * (n / 2 : ℕ) / n) := by
      simp only [ellipsePt]
    have h1 : 1 / 10 ^ 10 / 2 ≤ (ellipsePt D D n 0).1 - (ellipsePt D D n (n / 2)).1 := by
      rw [e0, e1]
      nlinarith
    have h2 := mul_self_le_mul_self (by positivity) h1
    rw [sqd]
    have h3 := sq_nonneg ((ellipsePt D D n 0).2 - (ellipsePt D D n (n / 2)).2)
    norm_num at h2 ⊢
    nlinarith

theorem byArea_poly (ops : GeomOps) {area : ℝ} (ha : 1 / 10 ^ 20 < area) {n : ℕ} (hn : 3 ≤ n) (m : Material) :
    (circularSectionByArea ops area n m).poly
      = ⟨(ellipsePts (diameterOf area n) (diameterOf area n) n).map (roundPt 12), []⟩ :=
  roundPoly_of_apart (p := ⟨ellipsePts (diameterOf area n) (diameterOf area n) n, []⟩) (ellipse_apart ha hn (by norm_num))

theorem barAt_poly (ops : GeomOps) {area : ℝ} (ha : 1 / 10 ^ 20 < area) {n : ℕ} (hn : 3 ≤ n) (m : Material) (x y : ℝ) :
    (barAt ops area n m x y).poly
      = ⟨(ellipsePts (diameterOf area n) (diameterOf area n) n).map fun p => roundPt 12 (translate x y (roundPt 12 p)), []⟩ := by
  rw [barAt, Geometry.shift, byArea_poly ops ha hn]
  rw [show (circularSectionByArea ops area n m).tol = 12 from rfl]
  rw [move_poly ops (p := ⟨(ellipsePts (diameterOf area n) (diameterOf area n) n).map (roundPt 12), []⟩)
    (apart_round (ellipse_apart ha hn (by norm_num))) (iso_translate x y)]
  simp [Poly.map, Function.comp_def]

theorem round_shift_near (x y : ℝ) (p q : Pt) {e : ℝ} (h : |p.1 - q.1| ≤ e ∧ |p.2 - q.2| ≤ e) :
    |(roundPt 12 (translate x y p)).1 - (q.1 + x)| ≤ e + 1 / 2 / 10 ^ 12 ∧
    |(roundPt 12 (translate x y p)).2 - (q.2 + y)| ≤ e + 1 / 2 / 10 ^ 12 := by
  have r1 := roundTo_near 12 (p.1 + x)
  have r2 := roundTo_near 12 (p.2 + y)
  rw [HalfUnit] at r1 r2
  simp only [roundPt, translate]
  constructor
  · have := abs_add_le (roundTo 12 (p.1 + x) - (p.1 + x)) (p.1 - q.1)
    rw [show roundTo 12 (p.1 + x) - (p.1 + x) + (p.1 - q.1) = roundTo 12 (p.1 + x) - (q.1 + x) by ring] at this
    linarith [h.1]
  · have := abs_add_le (roundTo 12 (p.2 + y) - (p.2 + y)) (p.2 - q.2)
    rw [show roundTo 12 (p.2 + y) - (p.2 + y) + (p.2 - q.2) = roundTo 12 (p.2 + y) - (q.2 + y) by ring] at this
    linarith [h.2]

theorem barAt_isBar (ops : GeomOps) {area : ℝ} (ha : 1 / 10 ^ 20 < area) {n : ℕ} (hn : 3 ≤ n) (m : Material) (x y : ℝ) :
    IsBar 1 m n area x y (barAt ops area n m x y) := by
  refine isBar_of_map _ (lt_trans (by positivity) ha) hn (by norm_num) rfl (barAt_poly ops ha hn m x y) fun p => ?_
  have := round_shift_near x y (roundPt 12 p) p (e := 1 / 2 / 10 ^ 12) ⟨roundTo_near 12 p.1, roundTo_near 12 p.2⟩
  norm_num at this ⊢
  exact this

/-- The right bar of a pair. -/
theorem barRight_isBar (ops : GeomOps) {area : ℝ} (ha : 1 / 10 ^ 20 < area) {n : ℕ} (hn : 3 ≤ n) (m : Material) (x y a : ℝ) :
    IsBar (3 / 2) m n area (x + a) y ((barAt ops area n m x y).shift ops a 0) := by
  have hap : Apart 2 12 ((ellipsePts (diameterOf area n) (diameterOf area n) n).map fun p =>
      roundPt 12 (translate x y (roundPt 12 p))) := by
    obtain ⟨p, hp, q, hq, hd⟩ := ellipse_apart ha hn (k := 100) (by norm_num)
    refine ⟨_, List.mem_map.2 ⟨p, hp, rfl⟩, _, List.mem_map.2 ⟨q, hq, rfl⟩, ?_⟩
    have n1 := round_shift_near x y (roundPt 12 p) p (e := 1 / 2 / 10 ^ 12) ⟨roundTo_near 12 p.1, roundTo_near 12 p.2⟩
    have n2 := round_shift_near x y (roundPt 12 q) q (e := 1 / 2 / 10 ^ 12) ⟨roundTo_near 12 q.1, roundTo_near 12 q.2⟩
    have t := sqd_tri (translate x y p) (roundPt 12 (translate x y (roundPt 12 p))) (translate x y q)
      (roundPt 12 (translate x y (roundPt 12 q)))
    rw [iso_translate] at t
    have s1 : sqd (roundPt 12 (translate x y (roundPt 12 p))) (translate x y p) ≤ 2 * (1 / 10 ^ 12) ^ 2 := by
      have b1 := sq_le_sq' (by linarith [abs_nonneg ((roundPt 12 (translate x y (roundPt 12 p))).1 - (p.1 + x))]) n1.1
      have b2 := sq_le_sq' (by linarith [abs_nonneg ((roundPt 12 (translate x y (roundPt 12 p))).2 - (p.2 + y))]) n1.2
      rw [sq_abs] at b1 b2
      simp only [sqd]
      rw [show (translate x y p).1 = p.1 + x from rfl, show (translate x y p).2 = p.2 + y from rfl]
      norm_num at b1 b2 ⊢
      linarith
    have s2 : sqd (roundPt 12 (translate x y (roundPt 12 q))) (translate x y q) ≤ 2 * (1 / 10 ^ 12) ^ 2 := by
      have b1 := sq_le_sq' (by linarith [abs_nonneg ((roundPt 12 (translate x y (roundPt 12 q))).1 - (q.1 + x))]) n2.1
      have b2 := sq_le_sq' (by linarith [abs_nonneg ((roundPt 12 (translate x y (roundPt 12 q))).2 - (q.2 + y))]) n2.2
      rw [sq_abs] at b1 b2
      simp only [sqd]
      rw [show (translate x y q).1 = q.1 + x from rfl, show (translate x y q).2 = q.2 + y from rfl]
      norm_num at b1 b2 ⊢
      linarith
    have hu : (0 : ℝ) < (1 / 10 ^ 12) ^ 2 := by positivity
    linarith
  refine isBar_of_map (fun p => roundPt 12 (translate a 0 (roundPt 12 (translate x y (roundPt 12 p)))))
    (lt_trans (by positivity) ha) hn (by norm_num) rfl ?_ fun p => ?_
  · rw [Geometry.shift, barAt_poly ops ha hn]
    rw [show (barAt ops area n m x y).tol = 12 from rfl,
      move_poly ops (p := ⟨(ellipsePts (diameterOf area n) (diameterOf area n) n).map fun p =>
        roundPt 12 (translate x y (roundPt 12 p)), []⟩) hap (iso_translate a 0)]
    simp [Poly.map, Function.comp_def]
  · have h1 := round_shift_near x y (roundPt 12 p) p (e := 1 / 2 / 10 ^ 12) ⟨roundTo_near 12 p.1, roundTo_near 12 p.2⟩
    have h2 := round_shift_near a 0 (roundPt 12 (translate x y (roundPt 12 p))) (translate x y p)
      (e := 1 / 2 / 10 ^ 12 + 1 / 2 / 10 ^ 12) h1
    simp only [translate] at h2 ⊢
    rw [add_assoc, add_zero] at h2
    norm_num at h2 ⊢
    exact h2

/-! ### Cutting in -/

/-- A shape from the constructors, with polygons of the kind `G` and 12 decimals. -/
def GoodShape (ops : GeomOps) (G : Poly → Prop) (s : Shape) : Prop :=
  SBuilt ops s ∧ ∀ g ∈ s.parts, g.tol = 12 ∧ G g.poly

theorem GoodShape.mono {ops : GeomOps} {G K : Poly → Prop} {s : Shape} (h : GoodShape ops K s) (hK : ∀ p, K p → G p) :
    GoodShape ops G s := ⟨h.1, fun g hg => ⟨(h.2 g hg).1, hK _ (h.2 g hg).2⟩⟩

theorem Spec.CutsExactly.round {G K : Poly → Prop} {reg : Poly → Set Pt} {ov : OverlayOps} (h : CutsExactly G K reg ov) {p : Poly}
    (hp : G p) : roundPoly 12 p = p := by
  rcases h.grid p hp with rfl | ⟨h1, h2⟩
  · exact roundPoly_empty _
  · exact roundPoly_of_onGrid h1 h2

/-- The polygons of a polygon or multipolygon. -/
def PolyOrMulti.polys : PolyOrMulti → List Poly
  | .one p => [p]
  | .many ps => ps

theorem filter_polys {o : Overlay} (h : o ≠ .other) : ∃ q, filterNonPolygons o = .ok q ∧
    (q.polys = overlayPolys o ∨ overlayPolys o = [] ∧ q.polys = [⟨[], []⟩]) := by
  cases o with
  | polygon p => exact ⟨_, rfl, Or.inl rfl⟩
  | multi ps => exact ⟨_, rfl, Or.inl rfl⟩
  | collection items =>
    simp only [overlayPolys, filterNonPolygons]
    generalize items.filterMap id = l
    match l with
    | [] => exact ⟨_, rfl, Or.inr ⟨rfl, rfl⟩⟩
    | [p] => exact ⟨_, rfl, Or.inl rfl⟩
    | p :: q :: l => exact ⟨_, rfl, Or.inl rfl⟩
  | lineOrPoint => exact ⟨_, rfl, Or.inr ⟨rfl, rfl⟩⟩
  | other => exact absurd rfl h

/-- What remains of one part. -/
structure Remains (ops : GeomOps) (G : Poly → Prop) (reg : Poly → Set Pt) (B : Set Pt) (g : Geometry) (s : Shape) : Prop where
  good : GoodShape ops G s
  material : ∀ h ∈ s.parts, h.material = g.material
  region : occupied reg s =ᵐ[volume] (reg g.poly \ B : Set Pt)
  apart : PartsApart reg s

theorem sub_remains (ops : GeomOps) {ov : OverlayOps} {G K : Poly → Prop} {reg : Poly → Set Pt} (hc : CutsExactly G K reg ov)
    {g : Geometry} (ht : g.tol = 12) (hg : G g.poly) {b : Shape} (hb : ∀ h ∈ b.parts, K h.poly) :
    ∃ s, g.sub ops ov b = .ok s ∧ Remains ops G reg (occupied reg b) g s := by
  obtain ⟨d1, d2, d3⟩ := hc.diff g.poly (b.parts.map (·.poly)) hg (by
    intro q hq
    obtain ⟨h, h1, rfl⟩ := List.mem_map.1 hq
    exact hb h h1)
  rw [← occupied_eq] at d2
  obtain ⟨q, q1, q2⟩ := filter_polys d1
  have hG : ∀ p ∈ q.polys, G p := by
    rcases q2 with q2 | ⟨_, q2⟩
    · rw [q2]; exact d2.kind
    · rw [q2]; intro p hp; rw [List.mem_singleton] at hp; exact hp ▸ hc.nothing
  have hR : covered reg q.polys =ᵐ[volume] (reg g.poly \ occupied reg b : Set Pt) := by
    rcases q2 with q2 | ⟨q3, q2⟩
    · rw [q2]; exact d2.region
    · have := d2.region
      rw [q3] at this
      rw [q2]
      have e : covered reg [(⟨[], []⟩ : Poly)] = covered reg [] := by ext v; simp [covered, hc.empty]
      rw [e]; exact this
  have hP : q.polys.Pairwise fun a b => volume (reg a ∩ reg b) = 0 := by
    rcases q2 with q2 | ⟨_, q2⟩
    · rw [q2]; exact d3
    · rw [q2]; exact List.pairwise_singleton ..
  have fin : ∀ s : Shape, SBuilt ops s → (∀ h ∈ s.parts, h.material = g.material ∧ h.tol = 12) →
      s.parts.map (·.poly) = q.polys → Remains ops G reg (occupied reg b) g s := by
    intro s s1 s2 s3
    refine ⟨⟨s1, fun h hh => ⟨(s2 h hh).2, hG _ (s3 ▸ List.mem_map_of_mem hh)⟩⟩, fun h hh => (s2 h hh).1, ?_, ?_⟩
    · rw [occupied_eq, s3]; exact hR
    · rw [PartsApart, ← List.pairwise_map (f := fun g : Geometry => g.poly) (R := fun a b => volume (reg a ∩ reg b) = 0), s3]
      exact hP
  cases q with
  | one p =>
    have hr : roundPoly 12 p = p := hc.round (hG p (by simp [PolyOrMulti.polys]))
    let cp := match g.assigned with
      | some c => if ov.contains p c then some c else none
      | none => none
    refine ⟨.single (mkGeometry ops p g.material cp g.tol), by simp only [Geometry.sub, Shape.polys, q1]; rfl, ?_⟩
    refine fin _ (mk_built ..) ?_ ?_
    · simp [Shape.parts, mkGeometry, ht]
    · simp [Shape.parts, mkGeometry, ht, hr, PolyOrMulti.polys]
  | many ps =>
    have hr : ∀ p ∈ ps, roundPoly 12 p = p := fun p hp => hc.round (hG p hp)
    obtain ⟨c, c1, c2, c3⟩ := mkCompound_built ops (gs := ps.map fun p => mkGeometry ops p g.material none 12) (by
      intro h hh
      obtain ⟨p, _, rfl⟩ := List.mem_map.1 hh
      exact mk_built ..)
    refine ⟨.compound c, by simp [Geometry.sub, Shape.polys, q1, c1], ?_⟩
    refine fin _ c3 ?_ ?_
    · intro h hh
      rw [Shape.parts, c2] at hh
      obtain ⟨p, _, rfl⟩ := List.mem_map.1 hh
      exact ⟨rfl, rfl⟩
    · rw [Shape.parts, c2, List.map_map]
      exact (List.map_congr_left fun p hp => hr p hp).trans (List.map_id _)

/-- What `s - b` is made of: what remains of each part, in order. -/
theorem sub_parts (ops : GeomOps) {ov : OverlayOps} {G K : Poly → Prop} {reg : Poly → Set Pt} (hc : CutsExactly G K reg ov)
    {s b : Shape} (hs : GoodShape ops G s) (hb : GoodShape ops K b) :
    ∃ r l, s.sub ops ov b = .ok r ∧ SBuilt ops r ∧ r.parts = l.flatMap Shape.parts ∧
      List.Forall₂ (Remains ops G reg (occupied reg b)) s.parts l := by
  have hb' : ∀ h ∈ b.parts, K h.poly := fun h hh => (hb.2 h hh).2
  cases s with
  | single g =>
    obtain ⟨h1, h2⟩ := hs.2 g (by simp [Shape.parts])
    obtain ⟨r, r1, r2⟩ := sub_remains ops hc h1 h2 hb'
    exact ⟨r, [r], r1, r2.good.1, by simp, .cons r2 .nil⟩
  | compound c =>
    have hs' : ∀ g ∈ c.geoms, g.tol = 12 ∧ G g.poly := hs.2
    obtain ⟨l, l1, l2⟩ := mapM_ok_of (f := fun g => Geometry.sub ops ov g b) c.geoms fun g hg =>
      (sub_remains ops hc (hs' g hg).1 (hs' g hg).2 hb').imp fun r hr => hr.1
    have l3 : List.Forall₂ (Remains ops G reg (occupied reg b)) c.geoms l := by
      rw [List.forall₂_iff_get] at l2 ⊢
      refine ⟨l2.1, fun i hi hj => ?_⟩
      obtain ⟨r, h1, h2⟩ := sub_remains ops hc (hs' (c.geoms.get ⟨i, hi⟩) (List.get_mem ..)).1 (hs' _ (List.get_mem ..)).2 hb'
      have := l2.2 i hi hj
      rw [h1] at this
      obtain rfl := Except.ok.inj this
      exact h2
    obtain ⟨c', d1, d2, d3⟩ := mkCompound_built ops (gs := l.flatMap Shape.parts) (by
      intro g hg
      obtain ⟨s, hs, hg⟩ := List.mem_flatMap.1 hg
      obtain ⟨g', _, hb⟩ := forall₂_mem_right l3 hs
      exact hb.good.1.parts g hg)
    exact ⟨.compound c', l, by simp [Shape.sub, l1, mkCompoundOf, d1], d3, d2, l3⟩

theorem part_subset {reg : Poly → Set Pt} {s : Shape} {g : Geometry} (h : g ∈ s.parts) : reg g.poly ⊆ occupied reg s :=
  fun _ hq => ⟨g, h, hq⟩

theorem null_of_ae {A B C D : Set Pt} (h : A =ᵐ[volume] B) (hAC : C ⊆ A) (hD : volume (B ∩ D) = 0) : volume (C ∩ D) = 0 := by
  have h1 : (A ∩ D : Set Pt) =ᵐ[volume] (B ∩ D : Set Pt) := h.inter (ae_eq_refl _)
  have h2 : volume (A ∩ D) = 0 := by rw [measure_congr h1]; exact hD
  exact measure_mono_null (Set.inter_subset_inter_left _ hAC) h2

/-- `s - b`: the regions, and the absence of overlaps. -/
theorem sub_good (ops : GeomOps) {ov : OverlayOps} {G K : Poly → Prop} {reg : Poly → Set Pt} (hc : CutsExactly G K reg ov)
    {s b : Shape} (hs : GoodShape ops G s) (hb : GoodShape ops K b) :
    ∃ r, s.sub ops ov b = .ok r ∧ GoodShape ops G r ∧
      (∀ m, madeOf reg r m =ᵐ[volume] (madeOf reg s m \ occupied reg b : Set Pt)) ∧
      (PartsApart reg s → PartsApart reg r) ∧ ∀ g ∈ r.parts, volume (reg g.poly ∩ occupied reg b) = 0 := by
  obtain ⟨r, l, r1, r2, r3, r4⟩ := sub_parts ops hc hs hb
  have hmem : ∀ g ∈ r.parts, ∃ g₀ ∈ s.parts, ∃ s' ∈ l, g ∈ s'.parts ∧ Remains ops G reg (occupied reg b) g₀ s' := by
    intro g hg
    rw [r3] at hg
    obtain ⟨s', h1, h2⟩ := List.mem_flatMap.1 hg
    obtain ⟨g₀, h3, h4⟩ := forall₂_mem_right r4 h1
    exact ⟨g₀, h3, s', h1, h2, h4⟩
  refine ⟨r, r1, ⟨r2, fun g hg => ?_⟩, ?_, ?_, fun g hg => ?_⟩
  · obtain ⟨_, _, s', _, h2, h4⟩ := hmem g hg
    exact h4.good.2 g h2
  · intro m
    obtain ⟨r', e1, e2⟩ := C62_difference ops ov hc.empty s b (by
      intro g hg
      obtain ⟨d1, d2, d3⟩ := hc.diff g.poly (b.parts.map (·.poly)) (hs.2 g hg).2 (by
        intro q hq
        obtain ⟨h, h1, rfl⟩ := List.mem_map.1 hq
        exact (hb.2 h h1).2)
      rw [← occupied_eq] at d2
      rw [(hs.2 g hg).1]
      exact ⟨d1, d2.region, fun p hp => hc.grid p (d2.kind p hp)⟩)
    rw [r1] at e1
    obtain rfl := Except.ok.inj e1
    exact e2 m
  · intro hsa
    rw [PartsApart, r3, List.flatMap_def, List.pairwise_flatten]
    constructor
    · intro p hp
      obtain ⟨s', h1, rfl⟩ := List.mem_map.1 hp
      obtain ⟨g₀, h3, h4⟩ := forall₂_mem_right r4 h1
      exact h4.apart
    · rw [List.pairwise_map]
      rw [PartsApart] at hsa
      clear hmem r1 r2 r3 hs
      generalize s.parts = ps at r4 hsa
      induction r4 with
      | nil => exact List.Pairwise.nil
      | @cons g s' gs l' h1 h2 ih =>
        rw [List.pairwise_cons] at hsa ⊢
        refine ⟨fun t ht a ha b' hb' => ?_, ih hsa.2⟩
        obtain ⟨g₁, k1, k2⟩ := forall₂_mem_right h2 ht
        have k3 := hsa.1 g₁ k1
        refine null_of_ae h1.region (part_subset ha) ?_
        rw [Set.inter_comm]
        refine null_of_ae k2.region (part_subset hb') ?_
        refine measure_mono_null ?_ k3
        rintro q ⟨⟨q1, _⟩, ⟨q2, _⟩⟩
        exact ⟨q2, q1⟩
  · obtain ⟨_, _, s', _, h2, h4⟩ := hmem g hg
    refine null_of_ae h4.region (part_subset h2) ?_
    rw [Set.inter_comm, Set.inter_sdiff_self]
    exact measure_empty

theorem add_good (ops : GeomOps) {G : Poly → Prop} {a b : Shape} (ha : GoodShape ops G a) (hb : GoodShape ops G b) :
    ∃ c, a.add ops b = .ok c ∧ c.geoms = a.parts ++ b.parts ∧ GoodShape ops G (.compound c) := by
  obtain ⟨c, h1, h2, h3⟩ := mkCompound_built ops (gs := [a, b].flatMap Shape.parts) (by
    intro g hg
    simp only [List.flatMap_cons, List.flatMap_nil, List.append_nil, List.mem_append] at hg
    exact hg.elim (ha.1.parts g) (hb.1.parts g))
  have h4 : c.geoms = a.parts ++ b.parts := by simpa using h2
  refine ⟨c, by simp only [Shape.add, mkCompoundOf, h1], h4, h3, fun g hg => ?_⟩
  rw [Shape.parts, h4, List.mem_append] at hg
  exact hg.elim (ha.2 g) (hb.2 g)

theorem madeOf_append (reg : Poly → Set Pt) {a b : Shape} {c : Compound} (h : c.geoms = a.parts ++ b.parts) (m : Material) :
    madeOf reg (.compound c) m = madeOf reg a m ∪ madeOf reg b m := by
  ext q
  simp only [madeOf, Shape.parts, h, List.mem_append, Set.mem_ofPred_eq, Set.mem_union]
  constructor
  · rintro ⟨g, h | h, h'⟩
    exacts [Or.inl ⟨g, h, h'⟩, Or.inr ⟨g, h, h'⟩]
  · rintro (⟨g, h, h'⟩ | ⟨g, h, h'⟩)
    exacts [⟨g, Or.inl h, h'⟩, ⟨g, Or.inr h, h'⟩]

/-- Something is taken away, and bars of one material are put there. -/
theorem replaced_of {reg : Poly → Set Pt} {steel : Material} {s r b : Shape} {c : Compound} (hm : ∀ g ∈ b.parts, g.material = steel)
    (hr : ∀ m, madeOf reg r m =ᵐ[volume] (madeOf reg s m \ occupied reg b : Set Pt)) (hc : c.geoms = r.parts ++ b.parts) :
    ReplacedBy reg steel (occupied reg b) s (.compound c) := by
  constructor
  · intro m hne
    rw [madeOf_append reg hc, madeOf_parts reg hm, if_neg (Ne.symm hne), Set.union_empty]
    exact hr m
  · rw [madeOf_append reg hc, madeOf_parts reg hm, if_pos rfl]
    refine ((hr steel).union (ae_eq_refl _)).trans ?_
    rw [Set.sdiff_union_self]
    exact ae_eq_refl _

theorem apart_append {reg : Poly → Set Pt} {r b : Shape} {c : Compound} (hc : c.geoms = r.parts ++ b.parts)
    (hr : PartsApart reg r) (hb : PartsApart reg b) (h : ∀ g ∈ r.parts, volume (reg g.poly ∩ occupied reg b) = 0) :
    PartsApart reg (.compound c) := by
  rw [PartsApart, Shape.parts, hc, List.pairwise_append]
  exact ⟨hr, hb, fun a ha b' hb' => measure_mono_null (Set.inter_subset_inter_right _ (part_subset hb')) (h a ha)⟩

theorem cutIn_good (ops : GeomOps) {ov : OverlayOps} {G K : Poly → Prop} {reg : Poly → Set Pt} (hc : CutsExactly G K reg ov)
    {s b : Shape} (hs : GoodShape ops G s) (hb : GoodShape ops K b) {steel : Material} (hm : ∀ g ∈ b.parts, g.material = steel) :
    ∃ c : Compound, ∃ rest, cutIn ops ov s b = .ok (.compound c) ∧ GoodShape ops G (.compound c) ∧ c.geoms = rest ++ b.parts ∧
      ReplacedBy reg steel (occupied reg b) s (.compound c) ∧
      (PartsApart reg s → PartsApart reg b → PartsApart reg (.compound c)) := by
  obtain ⟨r, r1, r2, r3, r4, r5⟩ := sub_good ops hc hs hb
  obtain ⟨c, c1, c2, c3⟩ := add_good ops r2 (hb.mono hc.bars)
  exact ⟨c, r.parts, by simp [cutIn, r1, c1], c3, c2, replaced_of hm r3 c2, fun h h' => apart_append c2 (r4 h) h' r5⟩

theorem Spec.ReplacedBy.trans {reg : Poly → Set Pt} {steel : Material} {A B : Set Pt} {s t u : Shape}
    (h1 : ReplacedBy reg steel A s t) (h2 : ReplacedBy reg steel B t u) : ReplacedBy reg steel (A ∪ B) s u := by
  constructor
  · intro m hm
    refine (h2.others m hm).trans ?_
    rw [← Set.sdiff_sdiff]
    exact Filter.EventuallyEq.diff (h1.others m hm) (ae_eq_refl _)
  · refine h2.steel.trans ?_
    rw [← Set.union_assoc]
    exact Filter.EventuallyEq.union h1.steel (ae_eq_refl _)

theorem Spec.ReplacedBy.refl (reg : Poly → Set Pt) (steel : Material) (s : Shape) : ReplacedBy reg steel ∅ s s :=
  ⟨fun m _ => by rw [Set.sdiff_empty]; exact ae_eq_refl _, by rw [Set.union_empty]; exact ae_eq_refl _⟩

end SP
