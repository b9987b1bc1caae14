import Verif.Model.Hat1
import Verif.Lemmas.Walls
import Verif.Props.Recovery

/-!
# C76 continued: the HAT1 section

It is a compound of a hat and a plate, with the points on the one or the other.
-/

namespace SP

open Spec

/-- A polygon without holes. -/
structure SolidGeom (ops : GeomOps) (g : Geometry) (L : List Pt) : Prop where
  built : Built ops g
  tol : g.tol = 12
  poly : g.poly = ⟨L, []⟩

theorem solid_mk (ops : GeomOps) {L : List Pt} (hg : ∀ q ∈ L, OnGrid 12 q.1 ∧ OnGrid 12 q.2) (h0 : ∃ q ∈ L, q ≠ (0, 0)) (m : Material)
    (cp : Option Pt) : SolidGeom ops (mkGeometry ops ⟨L, []⟩ m cp 12) L := by
  refine ⟨mk_built .., rfl, roundPoly_of_onGrid (p := ⟨L, []⟩) ?_ h0⟩
  intro r hr q hq
  simp only [Poly.rings, List.mem_cons, List.not_mem_nil, or_false] at hr
  subst hr
  exact hg q hq

theorem SolidGeom.shift {ops : GeomOps} {g : Geometry} {L : List Pt} (h : SolidGeom ops g L) {u v : ℝ}
    (hg : ∀ q ∈ L, OnGrid 12 q.1 ∧ OnGrid 12 q.2) (gu : OnGrid 12 u) (gv : OnGrid 12 v) {p q : Pt} (hp : p ∈ L) (hq : q ∈ L)
    (hpq : p ≠ q) :
    SolidGeom ops (g.shift ops u v) (L.map (translate u v)) := by
  rw [Geometry.shift, h.poly, h.tol]
  refine solid_mk ops ?_ ?_ ..
  · intro r hr
    obtain ⟨r', h', rfl⟩ := List.mem_map.1 hr
    exact ⟨(hg r' h').1.add gu, (hg r' h').2.add gv⟩
  · by_contra hn
    push Not at hn
    have h1 := hn _ (List.mem_map_of_mem hp)
    have h2 := hn _ (List.mem_map_of_mem hq)
    simp only [translate, Prod.mk.injEq] at h1 h2
    exact hpq (Prod.ext (by linarith) (by linarith))

/-- The vertices of `nastran_hat`. -/
def hatPts (e h w t : ℝ) : List Pt :=
  [(0, 0), (e + t, 0), (e + t, h - t), (e + w - t, h - t), (e + w - t, 0), (2 * e + w, 0), (2 * e + w, t), (e + w, t), (e + w, h),
    (e, h), (e, t), (0, t)]

theorem hatPts_grid {e h w t : ℝ} (ge : OnGrid 12 e) (gh : OnGrid 12 h) (gw : OnGrid 12 w) (gt : OnGrid 12 t) :
    ∀ q ∈ hatPts e h w t, OnGrid 12 q.1 ∧ OnGrid 12 q.2 := by
  have g2 : OnGrid 12 (2 * e + w) := by rw [two_mul]; exact (ge.add ge).add gw
  intro q hq
  simp only [hatPts, List.mem_cons, List.not_mem_nil, or_false] at hq
  rcases hq with rfl | rfl | rfl | rfl | rfl | rfl | rfl | rfl | rfl | rfl | rfl | rfl <;> constructor <;>
    first
      | exact .zero _
      | assumption
      | exact ge.add gt
      | exact gh.sub gt
      | exact (ge.add gw).sub gt
      | exact ge.add gw

theorem hatPts_bounds {e h w t : ℝ} (he : 0 < e) (ht : 0 < t) (hh : 2 * t < h) (hw : 2 * t < w) :
    ringBounds (hatPts e h w t) = (0, 2 * e + w, 0, h) := by
  refine ringBounds_eq ?_ ⟨(0, 0), by simp [hatPts], rfl⟩ ⟨(2 * e + w, 0), by simp [hatPts], rfl⟩ ⟨(0, 0), by simp [hatPts], rfl⟩
    ⟨(e, h), by simp [hatPts], rfl⟩
  intro q hq
  simp only [hatPts, List.mem_cons, List.not_mem_nil, or_false] at hq
  rcases hq with rfl | rfl | rfl | rfl | rfl | rfl | rfl | rfl | rfl | rfl | rfl | rfl <;>
    refine ⟨?_, ?_, ?_, ?_⟩ <;> dsimp only <;> linarith

theorem hatPts_centroid {e h w t : ℝ} (he : 0 < e) (ht : 0 < t) (hh : 2 * t < h) (hw : 2 * t < w) :
    (⟨hatPts e h w t, []⟩ : Poly).centroid.1 = (2 * e + w) / 2 := by
  have hA : ringArea2 (hatPts e h w t) = 2 * (t * w + 2 * (t * (h - t)) + 2 * (t * e)) := by
    simp [ringArea2, ringEdges, hatPts]; ring
  have hA0 : 0 < t * w + 2 * (t * (h - t)) + 2 * (t * e) := by
    have := mul_pos ht (show 0 < w by linarith)
    have := mul_pos ht (show 0 < h - t by linarith)
    have := mul_pos ht he
    linarith
  have hM : (ringMoment6 (hatPts e h w t)).1 = 3 * (2 * e + w) * (t * w + 2 * (t * (h - t)) + 2 * (t * e)) := by
    simp only [ringMoment6, ringEdges, hatPts, List.cons_append, List.nil_append, List.zip_cons_cons, List.zip_nil_left,
      List.map_cons, List.map_nil, List.sum_cons, List.sum_nil]
    ring
  rw [Poly.centroid, Poly.moment, Poly.area]
  simp only [hA, hM, List.map_nil, List.sum_nil, sub_zero]
  rw [sign_pos (by linarith), abs_of_pos (by linarith)]
  generalize t * w + 2 * (t * (h - t)) + 2 * (t * e) = k at hA0
  have := hA0.ne'
  simp only [SignType.coe_one, one_mul]
  field_simp
  ring

/-- A hat, centred and put on a plate of the same width. -/
theorem hat_on_plate (ops : GeomOps) {e h w t b y : ℝ} {m : Material} (he : 0 < e) (ht : 0 < t) (hh : 2 * t < h) (hw : 2 * t < w)
    (ge : OnGrid 12 e) (gh : OnGrid 12 h) (gw : OnGrid 12 w) (gt : OnGrid 12 t) (hb : b = 2 * e + w) (gb : OnGrid 12 (b / 2))
    (hy : 0 < y) (gy : OnGrid 12 y) {plate : Geometry} (hp : BoxGeom ops plate (-b / 2) 0 (b / 2) y) :
    SolidGeom ops (((libGeom ops (hatPts e h w t) m).alignCenterTo ops plate).alignTo ops (.geom plate.extents) .top false)
      (hatAt b h w t y) := by
  have gL := hatPts_grid ge gh gw gt
  have ma : ((0, 0) : Pt) ∈ hatPts e h w t := by simp [hatPts]
  have mb : ((e, h) : Pt) ∈ hatPts e h w t := by simp [hatPts]
  have nab : ((0, 0) : Pt) ≠ (e, h) := fun H => he.ne (congrArg Prod.fst H)
  have s1 : SolidGeom ops (libGeom ops (hatPts e h w t) m) (hatPts e h w t) := solid_mk ops gL ⟨_, mb, nab.symm⟩ m none
  generalize libGeom ops (hatPts e h w t) m = hat at s1
  have hP : plate.poly.centroid = (0, y / 2) := by
    rw [box_centroid hp (by linarith) hy]
    ext <;> simp only <;> ring
  obtain ⟨q, gq, hcen⟩ : ∃ q, OnGrid 12 q ∧ hat.alignCenterTo ops plate = hat.shift ops (-(b / 2)) q := by
    refine ⟨roundTo 12 (y / 2 - hat.poly.centroid.2), roundTo_onGrid 12 _, ?_⟩
    have hC : hat.poly.centroid.1 = b / 2 := by rw [s1.poly, hatPts_centroid he ht hh hw, hb]
    rw [Geometry.alignCenterTo, Geometry.alignCenter, hP, hC, s1.tol]
    simp only
    rw [zero_sub, roundTo_of_onGrid gb.neg]
  have s2 := s1.shift gL gb.neg gq ma mb nab
  rw [← hcen] at s2
  generalize hat.alignCenterTo ops plate = hat2 at s2
  have gL2 : ∀ r ∈ (hatPts e h w t).map (translate (-(b / 2)) q), OnGrid 12 r.1 ∧ OnGrid 12 r.2 := by
    intro r hr
    obtain ⟨r', h', rfl⟩ := List.mem_map.1 hr
    exact ⟨(gL r' h').1.add gb.neg, (gL r' h').2.add gq⟩
  have bL2 : hat2.extents = (0 + -(b / 2), 2 * e + w + -(b / 2), 0 + q, h + q) := by
    rw [Geometry.extents, s2.poly]
    have := ringBounds_mono (f := fun x => x + -(b / 2)) (h := fun y => y + q) (fun _ _ h => by dsimp only; linarith)
      (fun _ _ h => by dsimp only; linarith) (l := hatPts e h w t) (List.ne_nil_of_mem ma)
    rw [hatPts_bounds he ht hh hw] at this
    exact this
  have s3 := s2.shift (u := 0) (v := y - (0 + q)) gL2 (.zero _) (gy.sub (by rw [zero_add]; exact gq)) (List.mem_map_of_mem ma)
    (List.mem_map_of_mem mb) (by
      simp only [translate, ne_eq, Prod.mk.injEq]
      rintro ⟨H, _⟩
      linarith)
  have hal : hat2.alignTo ops (.geom plate.extents) .top false = hat2.shift ops 0 (y - (0 + q)) := by
    rw [Geometry.alignTo, bL2, box_extents hp (by linarith) hy]
    simp [alignOffset, otherAsGeomMap, alignSelfMap, extentAt]
  rw [hal]
  have hpoly : ((hatPts e h w t).map (translate (-(b / 2)) q)).map (translate 0 (y - (0 + q))) = hatAt b h w t y := by
    subst hb
    simp only [hatPts, hatAt, List.map_cons, List.map_nil, translate, List.cons.injEq, Prod.mk.injEq, and_true]
    refine ⟨⟨?_, ?_⟩, ⟨?_, ?_⟩, ⟨?_, ?_⟩, ⟨?_, ?_⟩, ⟨?_, ?_⟩, ⟨?_, ?_⟩, ⟨?_, ?_⟩, ⟨?_, ?_⟩, ⟨?_, ?_⟩, ⟨?_, ?_⟩, ⟨?_, ?_⟩, ?_, ?_⟩ <;> ring
  rw [hpoly] at s3
  exact s3

/-- **C76, HAT1, and its shape.** For all dimensions with at most 11 decimals for which the section is possible, `nastran_hat1`
returns two parts: a plate of width `d1` and thickness `d5` whose bottom centre is the origin, as documented, and on it a hat of
thickness `d4`, as wide as the plate, with a top flange of width `d3`, up to the height `d2`.  The recovery points C and D are
vertices of the plate, and E and F vertices of the hat.  The code does not check that the legs of the hat do not overlap (`2 d4 < d3`). -/
theorem C76_nastran_hat1 (ops : GeomOps) {d1 d2 d3 d4 d5 : ℝ} (m : Material) (hs : Short [d1, d2, d3, d4, d5]) (h4 : 0 < d4)
    (h5 : 0 < d5) (hd : 2 * d4 + d5 < d2) (hw : d3 < d1) (hl : 2 * d4 < d3) :
    ∃ c hat plate, nastranHat1 ops d1 d2 d3 d4 d5 m = .ok c ∧ c.geoms = [hat, plate] ∧ hat.material = m ∧ plate.material = m ∧
      plate.poly = ⟨[(-d1 / 2, 0), (d1 / 2, 0), (d1 / 2, d5), (-d1 / 2, d5)], []⟩ ∧
      hat.poly = ⟨hatAt d1 (d2 - d5) d3 d4 d5, []⟩ ∧
      ∃ pC pD pE pF, recoveryHat1 d1 d2 d3 = [pC, pD, pE, pF] ∧ pC ∈ plate.poly.exterior ∧ pD ∈ plate.poly.exterior ∧
        pE ∈ hat.poly.exterior ∧ pF ∈ hat.poly.exterior := by
  shorts hs
  have g1 : OnGrid 12 (d1 / 2) := by grids
  have g2 : OnGrid 12 d2 := by grids
  have g3 : OnGrid 12 (d3 / 2) := by grids
  have g4 : OnGrid 12 d4 := by grids
  have g5 : OnGrid 12 d5 := by grids
  have g5' : OnGrid 12 (d5 / 2) := by grids
  have ge : OnGrid 12 (1 / 2 * (d1 - d3)) := by
    rw [show 1 / 2 * (d1 - d3) = d1 / 2 - d3 / 2 by ring]; exact g1.sub g3
  have gd3 : OnGrid 12 d3 := by grids
  have p1 : BoxGeom ops (nastranBar ops d1 d5 m) (-d1 / 2) (-d5 / 2) (d1 / 2) (d5 / 2) :=
    box_mk ops (by linarith) (by rw [neg_div]; exact g1.neg) (by rw [neg_div]; exact g5'.neg) g1 g5' m none
  have p2 := p1.shift (u := 0) (v := d5 / 2) (by linarith) (by rw [neg_div, add_zero]; exact g1.neg)
    (by rw [show -d5 / 2 + d5 / 2 = 0 by ring]; exact .zero _) (by rw [add_zero]; exact g1)
    (by rw [show d5 / 2 + d5 / 2 = d5 by ring]; exact g5)
  rw [add_zero, add_zero, show -d5 / 2 + d5 / 2 = 0 by ring, show d5 / 2 + d5 / 2 = d5 by ring] at p2
  have s := hat_on_plate ops (m := m) (e := 1 / 2 * (d1 - d3)) (h := d2 - d5) (by linarith) h4 (by linarith) hl ge (g2.sub g5) gd3 g4
    (by ring) g1 h5 g5 p2
  obtain ⟨c, c1, c2, _⟩ := mkCompound_built ops (gs := [_, (nastranBar ops d1 d5 m).shift ops 0 (d5 / 2)]) (by
    intro g hg
    simp only [List.mem_cons, List.not_mem_nil, or_false] at hg
    rcases hg with rfl | rfl
    exacts [s.built, p2.built])
  have hL : nastranHat ops (d2 - d5) d4 d3 (1 / 2 * (d1 - d3)) m = .ok (libGeom ops (hatPts (1 / 2 * (d1 - d3)) (d2 - d5) d3 d4) m) := by
    rw [nastranHat, if_neg (by push Not; linarith)]
    rfl
  refine ⟨c, _, _, ?_, c2, rfl, rfl, p2.poly, s.poly, (-1 / 2 * d1, 0), (1 / 2 * d1, 0), (-1 / 2 * d3, d2), (1 / 2 * d3, d2), rfl,
    ?_, ?_, ?_, ?_⟩
  · rw [nastranHat1, if_neg (by push Not; exact ⟨hd, hw⟩), hL]
    simp only [Shape.add, mkCompoundOf, List.flatMap_cons, List.flatMap_nil, Shape.parts, List.append_nil,
      List.cons_append, List.nil_append, c1]
  · rw [p2.poly, show -1 / 2 * d1 = -d1 / 2 by ring]
    simp [boxPts]
  · rw [p2.poly, show 1 / 2 * d1 = d1 / 2 by ring]
    simp [boxPts]
  · rw [s.poly, show -1 / 2 * d3 = -d3 / 2 by ring]
    simp [hatAt]
  · rw [s.poly, show 1 / 2 * d3 = d3 / 2 by ring]
    simp [hatAt]

/-- **C76, HAT1.** Other dimensions raise `ValueError`. -/
theorem C76_nastran_hat1_error (ops : GeomOps) {d1 d2 d3 d4 d5 : ℝ} (m : Material) (h : d2 ≤ 2 * d4 + d5 ∨ d1 ≤ d3) :
    nastranHat1 ops d1 d2 d3 d4 d5 m = .error .valueError := by
  rw [nastranHat1, if_pos]
  rcases h with h | h
  exacts [Or.inl (not_lt.2 h), Or.inr (not_lt.2 h)]

example := C76_nastran_hat1 exOps (d1 := 4) (d2 := 2) (d3 := 3 / 2) (d4 := 3 / 16) (d5 := 3 / 8) exSteel (by
  intro x hx
  simp only [List.mem_cons, List.not_mem_nil, or_false] at hx
  rcases hx with rfl | rfl | rfl | rfl | rfl
  exacts [⟨4 * 10 ^ 11, by norm_num⟩, ⟨2 * 10 ^ 11, by norm_num⟩, ⟨15 * 10 ^ 10, by norm_num⟩, ⟨1875 * 10 ^ 7, by norm_num⟩,
    ⟨375 * 10 ^ 8, by norm_num⟩]) (by norm_num) (by norm_num) (by norm_num) (by norm_num) (by norm_num)

end SP
