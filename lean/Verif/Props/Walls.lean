import Verif.Lemmas.Walls

/-!
# C86: concrete sections have the outline that their dimensions describe
-/

namespace SP

open Spec MeasureTheory

theorem walled (ops : GeomOps) {ov : OverlayOps} {G K : Poly → Prop} {reg : Poly → Set Pt} (hc : CutsExactly G K reg ov)
    (hk : ConvexKind K reg) {conc steel : Material} (hne : conc ≠ steel) {outer : Geometry} {b d : ℝ} (hb : 0 < b) (hd : 0 < d)
    (gb : OnGrid 12 b) (gd : OnGrid 12 d) (ho : BoxGeom ops outer 0 0 b d) (hm : outer.material = conc) {cutters : List Geometry}
    (hcut : ∀ g ∈ cutters, Built ops g ∧ g.tol = 12 ∧ K g.poly) {R : Set Pt}
    (hR : (rectangleOf b d \ covered reg (cutters.map (·.poly)) : Set Pt) =ᵐ[volume] R) {area : ℝ} (ha : 1 / 10 ^ 20 < area) {n : ℕ}
    (hn : 3 ≤ n) {ps : List Pt} (hK : ∀ p ∈ ps, K (barAt ops area n steel p.1 p.2).poly) :
    WallIs reg conc steel R n area ps (withBars ops ov (subAll ops ov (.single outer) cutters) (.ok ps) area steel n) := by
  obtain ⟨k1, k2⟩ := ho.kind hk hb.ne hd.ne (.zero _) (.zero _) gb gd
  have hrect : reg outer.poly = rectangleOf b d := by
    rw [k2, Set.uIcc_of_le hb.le, Set.uIcc_of_le hd.le]
    ext p
    simp only [rectangleOf, Set.mem_prod, Set.mem_Icc, Set.mem_ofPred_eq, and_assoc]
  obtain ⟨s, s1, s2, s3, s4, s5⟩ := subAll_good ops hc (m := conc) cutters (s := .single outer)
    (good_single ho.built ho.tol (hc.bars _ k1)) (by simpa [Shape.parts] using hm) hcut
  have hz : (ps.map (·.1)).zip (ps.map (·.2)) = ps := by
    rw [List.zip_map', ← List.map_id ps, List.map_map]
    rfl
  obtain ⟨r, rest, bars, h1, h2, _, h4, h5, h6⟩ := C85_add_bars_partial ops hc (s := s) (area := area) (xs := ps.map (·.1))
    (ys := ps.map (·.2)) (n := n) (m := steel) s2.1 s2.2 ha hn (by rw [hz]; exact hK)
  rw [hz] at h4
  rw [occupied_single, hrect] at s4
  have s6 := s4.trans hR
  refine ⟨.compound r, bars, ?_, h4, ⟨?_, ?_, fun m h1 h2 => ?_⟩, fun h => h6 (s5 (apart_single ..)) h⟩
  · simp only [withBars, s1, bind, Except.bind]
    exact h1
  · have := h5.others conc hne
    rw [madeOf_parts reg s3, if_pos rfl] at this
    exact this.trans (Filter.EventuallyEq.diff s6 (ae_eq_refl _))
  · have := h5.steel
    rwa [madeOf_parts reg s3, if_neg hne, Set.empty_union] at this
  · have := h5.others m h2
    rwa [madeOf_parts reg s3, if_neg (Ne.symm h1), Set.empty_sdiff] at this

/-- The lines along which the regions may differ, and the rest by linear arithmetic. -/
macro "regions" xs:term "," ys:term "using" hs:(ppSpace colGt ident)* : tactic => `(tactic| (
  refine ae_of_lines $xs $ys fun x y hx hy => ?_
  simp only [List.mem_cons, List.not_mem_nil, or_false, forall_eq_or_imp, forall_eq] at hx hy
  simp only [channelOf, teeOf, boxOf, twinBoxOf, withDoor, rectangleOf, Set.mem_sdiff, Set.mem_union,
    Set.mem_prod, Set.mem_uIcc, Set.mem_Icc, Set.mem_ofPred_eq]
  have hs := And.intro hx hy
  clear * - hs $hs*
  grind (splits := 40)))

/-- **C86, `cee_wall`.** If shapely subtracts exactly, then for all dimensions with at most 11 decimals with which a wall is
possible, the concrete is the channel with these dimensions less the bars, the bars are steel, and there is nothing else.  If no
two bars overlap, nothing is counted twice. -/
theorem C86_cee_wall (ops : GeomOps) {ov : OverlayOps} {G K : Poly → Prop} {reg : Poly → Set Pt} (hc : CutsExactly G K reg ov)
    (hk : ConvexKind K reg) {d b tf tw dia area s c : ℝ} {double : Bool} {n : ℕ} {conc steel : Material} (hne : conc ≠ steel)
    (hg : Short [d, b, tf, tw]) (hw : 0 < tw) (hwb : tw < b) (hf : 0 < tf) (hfd : 2 * tf < d) (ha : 1 / 10 ^ 20 < area)
    (hn : 3 ≤ n) {ps : List Pt} (hps : ceeWallBars d b tf tw dia s c double = .ok ps)
    (hK : ∀ p ∈ ps, K (barAt ops area n steel p.1 p.2).poly) :
    WallIs reg conc steel (channelOf b d tf tw) n area ps (ceeWall ops ov d b tf tw dia area s c double n conc steel) := by
  shorts hg
  have gd : OnGrid 12 d := by grids
  have gb : OnGrid 12 b := by grids
  have gf : OnGrid 12 tf := by grids
  have gw : OnGrid 12 tw := by grids
  have b1 := box_rect ops (m := conc) (d := d) (b := b) (by linarith) gb gd
  have b2 := box_rect ops (m := conc) (d := d - 2 * tf) (b := b - tw) (by linarith) (by grids) (by grids)
  have b3 := b2.center b1 (by linarith) (by linarith) (by linarith) (by linarith) (.zero _) (.zero _) (by grids) (by grids) rfl rfl
  have e : roundTo 12 ((0 + d) / 2 - (0 + (d - 2 * tf)) / 2) = tf := by
    rw [show (0 + d) / 2 - (0 + (d - 2 * tf)) / 2 = tf by ring]
    exact roundTo_of_onGrid gf
  rw [e] at b3
  generalize hq : roundTo 12 ((0 + b) / 2 - (0 + (b - tw)) / 2) = q at b3
  have gq : OnGrid 12 q := hq ▸ roundTo_onGrid ..
  have b4 := b3.right b1 (by linarith) (by linarith) (by linarith) (by linarith) (by grids) (by grids) (by grids) (by grids) (by grids)
  rw [show 0 + q + (b - (b - tw + q)) = tw by ring, zero_add, show d - 2 * tf + tf = d - tf by ring] at b4
  obtain ⟨k1, k2⟩ := b4.kind hk (by linarith) (by linarith) (by grids) (by grids) (by grids) (by grids)
  rw [ceeWall, hps]
  refine walled ops hc hk hne (by linarith) (by linarith) gb gd b1 rfl (cutters := [_]) ?_ ?_ ha hn hK
  · rintro g hg
    rw [List.mem_singleton] at hg
    subst hg
    exact ⟨b4.built, b4.tol, k1⟩
  · rw [List.map_cons, List.map_nil, covered_one, k2]
    rw [Set.uIcc_of_le hwb.le, Set.uIcc_of_le (by linarith)]
    regions [tw], [tf, d - tf] using hw hwb hf hfd

/-- **C86, `tee_wall`.** -/
theorem C86_tee_wall (ops : GeomOps) {ov : OverlayOps} {G K : Poly → Prop} {reg : Poly → Set Pt} (hc : CutsExactly G K reg ov)
    (hk : ConvexKind K reg) {d b tf tw dia area s c : ℝ} {double : Bool} {n : ℕ} {conc steel : Material} (hne : conc ≠ steel)
    (hg : Short [d, b, tf, tw]) (hw : 0 < tw) (hwb : tw < b) (hf : 0 < tf) (hfd : tf < d) (ha : 1 / 10 ^ 20 < area)
    (hn : 3 ≤ n) {ps : List Pt} (hps : teeWallBars d b tf tw dia s c double = .ok ps)
    (hK : ∀ p ∈ ps, K (barAt ops area n steel p.1 p.2).poly) :
    WallIs reg conc steel (teeOf b d tf tw) n area ps
      (teeWall ops ov d b tf tw dia area s c double n conc steel) := by
  shorts hg
  have gd : OnGrid 12 d := by grids
  have gb : OnGrid 12 b := by grids
  have gf : OnGrid 12 tf := by grids
  have gw : OnGrid 12 (1 / 2 * (b - tw)) := by
    rw [show 1 / 2 * (b - tw) = b / 2 - tw / 2 by ring]
    grids
  have b1 := box_rect ops (m := conc) (d := d) (b := b) (by linarith) gb gd
  have b2 := box_rect ops (m := defaultMaterial) (d := d - tf) (b := 1 / 2 * (b - tw)) (by linarith) gw (by grids)
  have b3 := b2.mirrorY (c := 1 / 2 * b) (e := 0) (by linarith) (by rw [show 2 * (1 / 2 * b) - 0 = b by ring]; exact gb) (.zero _)
    (by rw [show 2 * (1 / 2 * b) = b by ring]; grids) (by grids)
  rw [show 2 * (1 / 2 * b) - 0 = b by ring, show 2 * (1 / 2 * b) - 1 / 2 * (b - tw) = 1 / 2 * (b + tw) by ring] at b3
  obtain ⟨k1, k2⟩ := b2.kind hk (by linarith) (by linarith) (.zero _) (.zero _) gw (by grids)
  obtain ⟨k3, k4⟩ := b3.kind hk (by linarith) (by linarith) gb (.zero _)
    (by rw [show 1 / 2 * (b + tw) = b / 2 + tw / 2 by ring]; grids) (by grids)
  rw [teeWall, hps]
  refine walled ops hc hk hne (by linarith) (by linarith) gb gd b1 rfl (cutters := [_, _]) ?_ ?_ ha hn hK
  · rintro g hg
    simp only [List.mem_cons, List.not_mem_nil, or_false] at hg
    rcases hg with rfl | rfl
    exacts [⟨b2.built, b2.tol, k1⟩, ⟨b3.built, b3.tol, k3⟩]
  · rw [List.map_cons, List.map_cons, List.map_nil, covered_cons, covered_one, k2, k4]
    rw [Set.uIcc_of_le (by linarith), Set.uIcc_of_le (by linarith), Set.uIcc_of_ge (by linarith)]
    regions [1 / 2 * (b - tw), 1 / 2 * (b + tw)], [d - tf] using hw hwb hf hfd

/-- **C86, `single_lift_core`.** -/
theorem C86_single_lift_core (ops : GeomOps) {ov : OverlayOps} {G K : Poly → Prop} {reg : Poly → Set Pt} (hc : CutsExactly G K reg ov)
    (hk : ConvexKind K reg) {d b t1 t2 a dia area s c : ℝ} {double : Bool} {n : ℕ} {conc steel : Material} (hne : conc ≠ steel)
    (hg : Short [d, b, t1, t2, a]) (h1 : 0 < t1) (h1d : 2 * t1 < d) (h2 : 0 < t2) (h2b : 2 * t2 < b) (ha0 : 0 < a)
    (ha : 1 / 10 ^ 20 < area)
    (hn : 3 ≤ n) {ps : List Pt} (hps : singleLiftCoreBars d b t1 t2 a dia s c double = .ok ps)
    (hK : ∀ p ∈ ps, K (barAt ops area n steel p.1 p.2).poly) :
    WallIs reg conc steel (withDoor (boxOf b d t1 t2) b t2 ((d - a) / 2) a) n area ps
      (singleLiftCore ops ov d b t1 t2 a dia area s c double n conc steel) := by
  shorts hg
  have gd : OnGrid 12 d := by grids
  have gb : OnGrid 12 b := by grids
  have g1 : OnGrid 12 t1 := by grids
  have g2 : OnGrid 12 t2 := by grids
  have ga : OnGrid 12 a := by grids
  have b1 := box_rect ops (m := conc) (d := d) (b := b) (by linarith) gb gd
  have b2 := box_rect ops (m := conc) (d := d - 2 * t1) (b := b - 2 * t2) (by linarith) (by grids) (by grids)
  have b3 := b2.center b1 (by linarith) (by linarith) (by linarith) (by linarith) (.zero _) (.zero _) (by grids) (by grids)
    (p := t2) (q := t1) (by rw [show (0 + b) / 2 - (0 + (b - 2 * t2)) / 2 = t2 by ring]; exact (roundTo_of_onGrid g2).symm)
    (by rw [show (0 + d) / 2 - (0 + (d - 2 * t1)) / 2 = t1 by ring]; exact (roundTo_of_onGrid g1).symm)
  rw [zero_add, zero_add, show b - 2 * t2 + t2 = b - t2 by ring, show d - 2 * t1 + t1 = d - t1 by ring] at b3
  obtain ⟨k1, k2⟩ := b3.kind hk (by linarith) (by linarith) (by grids) (by grids) (by grids) (by grids)
  have b4 := box_rect ops (m := conc) (d := a) (b := t2) (by linarith) g2 ga
  have gda : OnGrid 12 ((d - a) / 2) := by rw [sub_div]; grids
  have b5 := b4.center b1 (by linarith) (by linarith) (by linarith) (by linarith) (.zero _) (.zero _) (by grids) (by grids) rfl
    (q := (d - a) / 2) (by rw [show (0 + d) / 2 - (0 + a) / 2 = (d - a) / 2 by ring]; exact (roundTo_of_onGrid gda).symm)
  generalize hq : roundTo 12 ((0 + b) / 2 - (0 + t2) / 2) = q at b5
  have gq : OnGrid 12 q := hq ▸ roundTo_onGrid ..
  have b6 := b5.right b1 (by linarith) (by linarith) (by linarith) (by linarith) (by grids) (by grids) (by grids) (by grids) (by grids)
  rw [show 0 + q + (b - (t2 + q)) = b - t2 by ring, zero_add] at b6
  obtain ⟨k3, k4⟩ := b6.kind hk (by linarith) (by linarith) (by grids) (by grids) (by grids) (by grids)
  rw [singleLiftCore, hps]
  refine walled ops hc hk hne (by linarith) (by linarith) gb gd b1 rfl (cutters := [_, _]) ?_ ?_ ha hn hK
  · rintro g hg
    simp only [List.mem_cons, List.not_mem_nil, or_false] at hg
    rcases hg with rfl | rfl
    exacts [⟨b3.built, b3.tol, k1⟩, ⟨b6.built, b6.tol, k3⟩]
  · rw [List.map_cons, List.map_cons, List.map_nil, covered_cons, covered_one, k2, k4]
    rw [Set.uIcc_of_le (by linarith), Set.uIcc_of_le (by linarith), Set.uIcc_of_le (by linarith), Set.uIcc_of_le (by linarith)]
    regions [t2, b - t2], [t1, d - t1, (d - a) / 2, a + (d - a) / 2] using h1 h1d h2 h2b ha0

/-- **C86, `double_lift_core_a`.** -/
theorem C86_double_lift_core_a (ops : GeomOps) {ov : OverlayOps} {G K : Poly → Prop} {reg : Poly → Set Pt} (hc : CutsExactly G K reg ov)
    (hk : ConvexKind K reg) {d b t1 t2 a1 a2 dia area s c : ℝ} {double : Bool} {n : ℕ} {conc steel : Material} (hne : conc ≠ steel)
    (hg : Short [d, b, t1, t2, a1, a2]) (h1 : 0 < t1) (h1d : 2 * t1 < d) (h2 : 0 < t2) (h2b : 2 * t2 < b) (ha1 : 0 < a1)
    (ha2 : 0 ≤ a2) (had : 2 * a1 + a2 ≤ d - 2 * t1) {nib : ℝ} (hnib : nib = (d - 2 * a1 - a2 - 2 * t1) / 2) (ha : 1 / 10 ^ 20 < area)
    (hn : 3 ≤ n) {ps : List Pt} (hps : doubleLiftCoreABars d b t1 t2 a1 a2 dia s c double = .ok ps)
    (hK : ∀ p ∈ ps, K (barAt ops area n steel p.1 p.2).poly) :
    WallIs reg conc steel (withDoor (withDoor (boxOf b d t1 t2) b t2 (t1 + nib) a1) b t2 (d - t1 - nib - a1) a1) n area ps
      (doubleLiftCoreA ops ov d b t1 t2 a1 a2 dia area s c double n conc steel) := by
  shorts hg
  have gd : OnGrid 12 d := by grids
  have gb : OnGrid 12 b := by grids
  have g1 : OnGrid 12 t1 := by grids
  have g2 : OnGrid 12 t2 := by grids
  have ga : OnGrid 12 a1 := by grids
  have b1 := box_rect ops (m := conc) (d := d) (b := b) (by linarith) gb gd
  have gn : OnGrid 12 nib := by
    rw [show nib = d / 2 - a1 - a2 / 2 - t1 by rw [hnib]; ring]
    grids
  have b2 := box_rect ops (m := conc) (d := d - 2 * t1) (b := b - 2 * t2) (by linarith) (by grids) (by grids)
  have b3 := b2.center b1 (by linarith) (by linarith) (by linarith) (by linarith) (.zero _) (.zero _) (by grids) (by grids)
    (p := t2) (q := t1) (by rw [show (0 + b) / 2 - (0 + (b - 2 * t2)) / 2 = t2 by ring]; exact (roundTo_of_onGrid g2).symm)
    (by rw [show (0 + d) / 2 - (0 + (d - 2 * t1)) / 2 = t1 by ring]; exact (roundTo_of_onGrid g1).symm)
  rw [zero_add, zero_add, show b - 2 * t2 + t2 = b - t2 by ring, show d - 2 * t1 + t1 = d - t1 by ring] at b3
  obtain ⟨k1, k2⟩ := b3.kind hk (by linarith) (by linarith) (by grids) (by grids) (by grids) (by grids)
  have b4 := box_rect ops (m := conc) (d := a1) (b := t2) (by linarith) g2 ga
  have b5 := b4.shift (u := b - t2) (v := d - t1 - nib - a1) (by linarith) (by grids) (by grids) (by grids) (by grids)
  have b6 := b4.shift (u := b - t2) (v := t1 + nib) (by linarith) (by grids) (by grids) (by grids) (by grids)
  obtain ⟨k3, k4⟩ := b5.kind hk (by linarith) (by linarith) (by grids) (by grids) (by grids) (by grids)
  obtain ⟨k5, k6⟩ := b6.kind hk (by linarith) (by linarith) (by grids) (by grids) (by grids) (by grids)
  have hn' : 1 / 2 * (d - 2 * a1 - a2 - 2 * t1) = nib := by rw [hnib]; ring
  rw [doubleLiftCoreA, if_neg (by linarith), hps, doubleLiftCoreAOutline]
  simp only [hn']
  refine walled ops hc hk hne (by linarith) (by linarith) gb gd b1 rfl (cutters := [_, _, _]) ?_ ?_ ha hn hK
  · rintro g hg
    simp only [List.mem_cons, List.not_mem_nil, or_false] at hg
    rcases hg with rfl | rfl | rfl
    exacts [⟨b3.built, b3.tol, k1⟩, ⟨b5.built, b5.tol, k3⟩, ⟨b6.built, b6.tol, k5⟩]
  · rw [List.map_cons, List.map_cons, List.map_cons, List.map_nil, covered_cons, covered_cons, covered_one, k2, k4, k6]
    regions [t2, b - t2], [t1, d - t1, t1 + nib, t1 + nib + a1, d - t1 - nib - a1, d - t1 - nib] using h1 h1d h2 h2b ha1 ha2 had hnib

/-- **C86, `double_lift_core_b`.** -/
theorem C86_double_lift_core_b (ops : GeomOps) {ov : OverlayOps} {G K : Poly → Prop} {reg : Poly → Set Pt} (hc : CutsExactly G K reg ov)
    (hk : ConvexKind K reg) {d b t1 t2 t3 a dia area s c : ℝ} {double : Bool} {n : ℕ} {conc steel : Material} (hne : conc ≠ steel)
    (hg : Short [d, b, t1, t2, t3, a]) (h1 : 0 < t1) (h2 : 0 < t2) (h2b : 2 * t2 < b) (h3 : 0 < t3) (ha0 : 0 < a)
    (had : a ≤ (d - 2 * t1 - t3) / 2) {nib : ℝ} (hnib : nib = (d - 2 * t1 - 2 * a - t3) / 4) (gn : OnGrid 12 nib) (ha : 1 / 10 ^ 20 < area)
    (hn : 3 ≤ n) {ps : List Pt} (hps : doubleLiftCoreBBars d b t1 t2 t3 a dia s c double = .ok ps)
    (hK : ∀ p ∈ ps, K (barAt ops area n steel p.1 p.2).poly) :
    WallIs reg conc steel (withDoor (withDoor (twinBoxOf b d t1 t2 t3) b t2 (t1 + nib) a) b t2 (d - t1 - nib - a) a) n area ps
      (doubleLiftCoreB ops ov d b t1 t2 t3 a dia area s c double n conc steel) := by
  shorts hg
  have gd : OnGrid 12 d := by grids
  have gb : OnGrid 12 b := by grids
  have g1 : OnGrid 12 t1 := by grids
  have g2 : OnGrid 12 t2 := by grids
  have ga : OnGrid 12 a := by grids
  have b1 := box_rect ops (m := conc) (d := d) (b := b) (by linarith) gb gd
  have gt : OnGrid 12 (1 / 2 * (d + t3)) := by rw [show 1 / 2 * (d + t3) = d / 2 + t3 / 2 by ring]; grids
  have gh : OnGrid 12 (1 / 2 * (d - 2 * t1 - t3)) := by rw [show 1 / 2 * (d - 2 * t1 - t3) = d / 2 - t1 - t3 / 2 by ring]; grids
  have b2 := box_rect ops (m := conc) (d := 1 / 2 * (d - 2 * t1 - t3)) (b := b - 2 * t2) (by linarith) (by grids) gh
  have b3 := b2.shift (u := t2) (v := t1) (by linarith) (by grids) (by grids) (by grids) (by grids)
  have b4 := b2.shift (u := t2) (v := 1 / 2 * (d + t3)) (by linarith) (by grids) (by grids) (by grids) (by grids)
  have b5 := box_rect ops (m := conc) (d := a) (b := t2) (by linarith) g2 ga
  have b6 := b5.shift (u := b - t2) (v := d - t1 - nib - a) (by linarith) (by grids) (by grids) (by grids) (by grids)
  have b7 := b5.shift (u := b - t2) (v := t1 + nib) (by linarith) (by grids) (by grids) (by grids) (by grids)
  obtain ⟨k1, k2⟩ := b3.kind hk (by linarith) (by linarith) (by grids) (by grids) (by grids) (by grids)
  obtain ⟨k3, k4⟩ := b4.kind hk (by linarith) (by linarith) (by grids) (by grids) (by grids) (by grids)
  obtain ⟨k5, k6⟩ := b6.kind hk (by linarith) (by linarith) (by grids) (by grids) (by grids) (by grids)
  obtain ⟨k7, k8⟩ := b7.kind hk (by linarith) (by linarith) (by grids) (by grids) (by grids) (by grids)
  have hn' : 1 / 4 * (d - 2 * t1 - 2 * a - t3) = nib := by rw [hnib]; ring
  rw [doubleLiftCoreB, if_neg (by linarith), hps, doubleLiftCoreBOutline]
  simp only [hn']
  refine walled ops hc hk hne (by linarith) (by linarith) gb gd b1 rfl (cutters := [_, _, _, _]) ?_ ?_ ha hn hK
  · rintro g hg
    simp only [List.mem_cons, List.not_mem_nil, or_false] at hg
    rcases hg with rfl | rfl | rfl | rfl
    exacts [⟨b3.built, b3.tol, k1⟩, ⟨b4.built, b4.tol, k3⟩, ⟨b6.built, b6.tol, k5⟩, ⟨b7.built, b7.tol, k7⟩]
  · simp only [List.map_cons, List.map_nil, covered_cons, covered_nil, Set.union_empty, k2, k4, k6, k8]
    regions [t2, b - t2], [t1, d - t1, t1 + nib, t1 + nib + a, d - t1 - nib - a, d - t1 - nib, (d - t3) / 2, (d + t3) / 2] using h1 h2 h2b h3 ha0 had hnib

/-- **C86, `stairwell`.** -/
theorem C86_stairwell (ops : GeomOps) {ov : OverlayOps} {G K : Poly → Prop} {reg : Poly → Set Pt} (hc : CutsExactly G K reg ov)
    (hk : ConvexKind K reg) {d b t1 t2 a dia area s c : ℝ} {double : Bool} {n : ℕ} {conc steel : Material} (hne : conc ≠ steel)
    (hg : Short [d, b, t1, t2, a]) (h1 : 0 < t1) (h1d : 2 * t1 < d) (h2 : 0 < t2) (h2b : 2 * t2 < b) (ha0 : 0 < a)
    (ha : 1 / 10 ^ 20 < area)
    (hn : 3 ≤ n) {ps : List Pt} (hps : stairwellBars d b t1 t2 a dia s c double = .ok ps)
    (hK : ∀ p ∈ ps, K (barAt ops area n steel p.1 p.2).poly) :
    WallIs reg conc steel (withDoor (boxOf b d t1 t2) b t2 (d - t1 - a) a) n area ps
      (stairwell ops ov d b t1 t2 a dia area s c double n conc steel) := by
  shorts hg
  have gd : OnGrid 12 d := by grids
  have gb : OnGrid 12 b := by grids
  have g1 : OnGrid 12 t1 := by grids
  have g2 : OnGrid 12 t2 := by grids
  have ga : OnGrid 12 a := by grids
  have b1 := box_rect ops (m := conc) (d := d) (b := b) (by linarith) gb gd
  have b2 := box_rect ops (m := conc) (d := d - 2 * t1) (b := b - 2 * t2) (by linarith) (by grids) (by grids)
  have b3 := b2.center b1 (by linarith) (by linarith) (by linarith) (by linarith) (.zero _) (.zero _) (by grids) (by grids)
    (p := t2) (q := t1) (by rw [show (0 + b) / 2 - (0 + (b - 2 * t2)) / 2 = t2 by ring]; exact (roundTo_of_onGrid g2).symm)
    (by rw [show (0 + d) / 2 - (0 + (d - 2 * t1)) / 2 = t1 by ring]; exact (roundTo_of_onGrid g1).symm)
  rw [zero_add, zero_add, show b - 2 * t2 + t2 = b - t2 by ring, show d - 2 * t1 + t1 = d - t1 by ring] at b3
  obtain ⟨k1, k2⟩ := b3.kind hk (by linarith) (by linarith) (by grids) (by grids) (by grids) (by grids)
  have b4 := box_rect ops (m := conc) (d := a) (b := t2) (by linarith) g2 ga
  have b5 := b4.shift (u := b - t2) (v := d - t1 - a) (by linarith) (by grids) (by grids) (by grids) (by grids)
  obtain ⟨k3, k4⟩ := b5.kind hk (by linarith) (by linarith) (by grids) (by grids) (by grids) (by grids)
  rw [stairwell, hps]
  refine walled ops hc hk hne (by linarith) (by linarith) gb gd b1 rfl (cutters := [_, _]) ?_ ?_ ha hn hK
  · rintro g hg
    simp only [List.mem_cons, List.not_mem_nil, or_false] at hg
    rcases hg with rfl | rfl
    exacts [⟨b3.built, b3.tol, k1⟩, ⟨b5.built, b5.tol, k3⟩]
  · rw [List.map_cons, List.map_cons, List.map_nil, covered_cons, covered_one, k2, k4]
    regions [t2, b - t2], [t1, d - t1, d - t1 - a] using h1 h1d h2 h2b ha0

/-- **C86, errors.** If the doors do not fit into the shaft, `double_lift_core_a` and `double_lift_core_b` raise `ValueError`. -/
theorem C86_no_room (ops : GeomOps) (ov : OverlayOps) (d b t1 t2 t3 a a1 a2 dia area s c : ℝ) (double : Bool) (n : ℕ)
    (conc steel : Material) :
    (d - 2 * t1 < 2 * a1 + a2 →
      doubleLiftCoreA ops ov d b t1 t2 a1 a2 dia area s c double n conc steel = .error .valueError) ∧
    ((d - 2 * t1 - t3) / 2 < a → doubleLiftCoreB ops ov d b t1 t2 t3 a dia area s c double n conc steel = .error .valueError) :=
  ⟨fun h => if_pos h, fun h => if_pos (by linarith)⟩

/-- **C86, `rectangular_wall`.** -/
theorem C86_rectangular_wall (ops : GeomOps) {ov : OverlayOps} {G K : Poly → Prop} {reg : Poly → Set Pt}
    (hc : CutsExactly G K reg ov) (hk : ConvexKind K reg) {d t dia area s c : ℝ} {double : Bool} {n : ℕ} {conc steel : Material}
    (hne : conc ≠ steel) (hg : Short [d, t]) (hd : 0 < d) (ht : 0 < t) (ha : 1 / 10 ^ 20 < area) (hn : 3 ≤ n) {ps : List Pt}
    (hps : rectangularWallBars d t dia s c double = .ok ps) (hK : ∀ p ∈ ps, K (barAt ops area n steel p.1 p.2).poly) :
    WallIs reg conc steel (rectangleOf t d) n area ps (rectangularWall ops ov d t dia area s c double n conc steel) := by
  shorts hg
  have gd : OnGrid 12 d := by grids
  have gt : OnGrid 12 t := by grids
  have := walled ops hc hk hne ht hd gt gd (box_rect ops (m := conc) ht.ne' gt gd) rfl (cutters := []) (by simp)
    (R := rectangleOf t d) (by rw [List.map_nil, covered_nil, Set.sdiff_empty]; exact ae_eq_refl _) ha hn hK
  rw [rectangularWall, hps]
  exact this

theorem Spec.ConcreteWith.congr {reg : Poly → Set Pt} {conc steel : Material} {r : Shape} {bars : List Geometry} {R S : Set Pt}
    (h : ConcreteWith reg conc steel S bars r) (hR : S =ᵐ[volume] R) : ConcreteWith reg conc steel R bars r :=
  ⟨h.inConcrete.trans (Filter.EventuallyEq.diff hR (ae_eq_refl _)), h.inSteel, h.nothingElse⟩

theorem Spec.Reinforced.with {reg : Poly → Set Pt} {conc steel : Material} {s r : Shape} {bars : List Geometry} {R : Set Pt}
    (h : Reinforced reg conc steel s bars r) (hR : occupied reg s =ᵐ[volume] R) :
    ConcreteWith reg conc steel R bars r ∧ PartsApart reg r :=
  ⟨⟨h.inConcrete.trans (Filter.EventuallyEq.diff hR (ae_eq_refl _)), h.inSteel, h.nothingElse⟩, h.once⟩

theorem rect_region (ops : GeomOps) {K : Poly → Prop} {reg : Poly → Set Pt} (hk : ConvexKind K reg) {d b : ℝ} {conc : Material}
    (hd : 0 < d) (hb : 0 < b) (gd : OnGrid 12 d) (gb : OnGrid 12 b) :
    K (rectangularSection ops d b conc).poly ∧ occupied reg (.single (rectangularSection ops d b conc)) = rectangleOf b d := by
  obtain ⟨k1, k2⟩ := (box_rect ops (m := conc) hb.ne' gb gd).kind hk hb.ne hd.ne (.zero _) (.zero _) gb gd
  refine ⟨k1, ?_⟩
  rw [occupied_single, k2, Set.uIcc_of_le hb.le, Set.uIcc_of_le hd.le]
  ext p
  simp only [rectangleOf, Set.mem_prod, Set.mem_Icc, Set.mem_ofPred_eq, and_assoc]

/-- **C86, `concrete_column_section`.** The concrete is the rectangle `b` by `d` less the bars, and nothing is counted twice. -/
theorem C86_column (ops : GeomOps) {ov : OverlayOps} {G K : Poly → Prop} {reg : Poly → Set Pt} (hc : CutsExactly G K reg ov)
    (hk : ConvexKind K reg) {d b dia area cover : ℝ} {nX nY : ℕ} {nCircle : ℕ} {filled : Bool} {conc steel : Material}
    (hne : conc ≠ steel) (hg : Short [d, b]) (hd : 0 < d) (hb : 0 < b) (ha : 1 / 10 ^ 20 < area) (hn : 3 ≤ nCircle) (hx : 2 ≤ nX)
    (hy : 2 ≤ nY) :
    ∃ ps, columnBars d b dia nX nY cover filled = .ok ps ∧ ((∀ p ∈ ps, K (barAt ops area nCircle steel p.1 p.2).poly) →
      ∃ r bars, concreteColumnSection ops ov d b dia area nX nY cover nCircle filled conc steel = .ok r ∧
        List.Forall₂ (fun p g => IsBar 1 steel nCircle area p.1 p.2 g) ps bars ∧
        ConcreteWith reg conc steel (rectangleOf b d) bars r ∧ PartsApart reg r) := by
  shorts hg
  have gd : OnGrid 12 d := by grids
  have gb : OnGrid 12 b := by grids
  obtain ⟨k1, k2⟩ := rect_region ops hk (conc := conc) hd hb gd gb
  obtain ⟨ps, p1, p2⟩ := C85_column ops hc (d := d) (b := b) (dia := dia) (cover := cover) (filled := filled) hne ha hn hx hy
    (hc.bars _ k1)
  refine ⟨ps, p1, fun h => ?_⟩
  obtain ⟨r, bars, r1, r2, r3⟩ := p2 h
  exact ⟨r, bars, r1, r2, r3.with (by rw [k2]; exact ae_eq_refl _)⟩

/-- **C86, `concrete_rectangular_section`.** -/
theorem C86_rectangular_beam (ops : GeomOps) {ov : OverlayOps} {G K : Poly → Prop} {reg : Poly → Set Pt}
    (hc : CutsExactly G K reg ov) (hk : ConvexKind K reg) {d b diaTop areaTop cTop diaBot areaBot cBot cSide : ℝ}
    {nTop nBot nSide nCircle : ℕ} {diaSide areaSide : Option ℝ} {conc steel : Material} {bars : BeamBars}
    (hbars : bars = rectangularBars d b diaTop nTop cTop diaBot nBot cBot diaSide areaSide nSide cSide) (hne : conc ≠ steel)
    (hg : Short [d, b]) (hd : 0 < d) (hb0 : 0 < b)
    (ht : 1 / 10 ^ 20 < areaTop) (hb : 1 / 10 ^ 20 < areaBot) (hs : ∀ a, areaSide = some a → a ≠ 0 → 1 / 10 ^ 20 < a)
    (hn : 3 ≤ nCircle) (hsome : 0 < nTop ∨ 0 < nBot)
    (hK1 : ∀ p ∈ bars.top, K (barAt ops areaTop nCircle steel p.1 p.2).poly)
    (hK2 : ∀ p ∈ bars.bot, K (barAt ops areaBot nCircle steel p.1 p.2).poly)
    (hK3 : ∀ p ∈ bars.side, ∀ a, K (barAt ops (areaSide.getD 0) nCircle steel p.1 p.2).poly ∧
      K ((barAt ops (areaSide.getD 0) nCircle steel p.1 p.2).shift ops a 0).poly) :
    ∃ r top bot side, concreteRectangularSection ops ov d b diaTop areaTop nTop cTop diaBot areaBot nBot cBot diaSide areaSide
        nSide cSide nCircle conc steel = .ok r ∧
      List.Forall₂ (fun p g => IsBar 1 steel nCircle areaTop p.1 p.2 g) bars.top top ∧
      List.Forall₂ (fun p g => IsBar 1 steel nCircle areaBot p.1 p.2 g) bars.bot bot ∧
      List.Forall₂ (fun p g => IsBar (3 / 2) steel nCircle (areaSide.getD 0) p.1 p.2 g) bars.side side ∧
      ConcreteWith reg conc steel (rectangleOf b d) (top ++ bot ++ side) r ∧
      (side.Pairwise (fun g h => volume (reg g.poly ∩ reg h.poly) = 0) → PartsApart reg r) := by
  shorts hg
  have gd : OnGrid 12 d := by grids
  have gb : OnGrid 12 b := by grids
  obtain ⟨k1, k2⟩ := rect_region ops hk (conc := conc) hd hb0 gd gb
  obtain ⟨r, top, bot, side, r1, r2, r3, r4, r5, r6⟩ := C85_rectangular_partial ops hc hbars hne ht hb hs hn hsome (hc.bars _ k1) hK1 hK2
    hK3
  exact ⟨r, top, bot, side, r1, r2, r3, r4, r5.congr (by rw [k2]; exact ae_eq_refl _), r6⟩

/-- The two rectangles of a tee beam. -/
theorem teeOutline_boxes (ops : GeomOps) {d b dF bF : ℝ} {conc : Material} (hg : Short [d, b, dF, bF]) (hb : 0 < b) (hbF : 0 < bF)
    (hdF : 0 < dF) (hd : dF < d) : ∃ c g1 g2, teeOutline ops d b dF bF conc = .ok c ∧ c.geoms = [g1, g2] ∧
    BoxGeom ops g1 (-b / 2) 0 (b / 2) (d - dF) ∧ BoxGeom ops g2 (-bF / 2) (d - dF) (bF / 2) d := by
  shorts hg
  have gd : OnGrid 12 d := by grids
  have gb : OnGrid 12 b := by grids
  have gdF : OnGrid 12 dF := by grids
  have gbF : OnGrid 12 bF := by grids
  have gb2 : OnGrid 12 (b / 2) := by grids
  have gbF2 : OnGrid 12 (bF / 2) := by grids
  have b1 := box_rect ops (m := conc) (d := d - dF) (b := b) (by linarith) gb (by grids)
  have b2 := box_rect ops (m := conc) (d := dF) (b := bF) (by linarith) gbF gdF
  have b3 := b2.top b1 hbF hdF hb (by linarith) (.zero _) (.zero _) gbF gdF (by grids)
  have b4 := b3.shift (u := -(bF / 2 - b / 2)) (v := 0) hbF.ne (by grids) (by grids) (by grids) (by grids)
  have e1 := b1.shift (u := -b / 2) (v := 0) hb.ne (by rw [neg_div]; grids) (by grids) (by rw [neg_div]; grids) (by grids)
  have e2 := b4.shift (u := -b / 2) (v := 0) (by linarith) (by rw [neg_div]; grids) (by grids) (by rw [neg_div]; grids) (by grids)
  rw [show 0 + -b / 2 = -b / 2 by ring, show b + -b / 2 = b / 2 by ring, add_zero, add_zero] at e1
  rw [show 0 + -(bF / 2 - b / 2) + -b / 2 = -bF / 2 by ring, show bF + -(bF / 2 - b / 2) + -b / 2 = bF / 2 by ring,
    show d - dF + 0 + 0 = d - dF by ring, show dF + (d - dF - 0) + 0 + 0 = d by ring] at e2
  obtain ⟨c0, c1, c2, _⟩ := mkCompound_built ops (gs := [_, _]) (by
    intro g hg
    simp only [List.mem_cons, List.not_mem_nil, or_false] at hg
    rcases hg with rfl | rfl
    exacts [b1.built, b4.built])
  obtain ⟨c, d1, d2, _⟩ := mkCompound_built ops (gs := c0.geoms.map fun g => g.shift ops (-b / 2) 0) (by
    intro g hg
    obtain ⟨g', _, rfl⟩ := List.mem_map.1 hg
    exact mk_built ..)
  refine ⟨c, _, _, ?_, ?_, e1, e2⟩
  · simp only [teeOutline, Shape.add, mkCompoundOf, List.flatMap_cons, List.flatMap_nil, Shape.parts, List.append_nil,
      List.cons_append, List.nil_append, c1, Compound.shift, d1]
  · rw [d2, c2, List.map_cons, List.map_cons, List.map_nil]

/-- **C86, `concrete_tee_section`.** -/
theorem C86_tee_beam (ops : GeomOps) {ov : OverlayOps} {G K : Poly → Prop} {reg : Poly → Set Pt}
    (hc : CutsExactly G K reg ov) (hk : ConvexKind K reg) {d b dF bF diaTop areaTop cTop diaBot areaBot cBot cSide : ℝ}
    {nTop nBot nSide nCircle : ℕ} {diaSide areaSide : Option ℝ} {conc steel : Material} {bars : BeamBars}
    (hbars : bars = teeBars d b bF diaTop nTop cTop diaBot nBot cBot diaSide areaSide nSide cSide) (hne : conc ≠ steel)
    (hg : Short [d, b, dF, bF]) (hb0 : 0 < b) (hbF : 0 < bF) (hdF : 0 < dF) (hd : dF < d)
    (ht : 1 / 10 ^ 20 < areaTop) (hb : 1 / 10 ^ 20 < areaBot) (hs : ∀ a, areaSide = some a → a ≠ 0 → 1 / 10 ^ 20 < a)
    (hn : 3 ≤ nCircle)
    (hK1 : ∀ p ∈ bars.top, K (barAt ops areaTop nCircle steel p.1 p.2).poly)
    (hK2 : ∀ p ∈ bars.bot, K (barAt ops areaBot nCircle steel p.1 p.2).poly)
    (hK3 : ∀ p ∈ bars.side, ∀ a, K (barAt ops (areaSide.getD 0) nCircle steel p.1 p.2).poly ∧
      K ((barAt ops (areaSide.getD 0) nCircle steel p.1 p.2).shift ops a 0).poly) :
    ∃ r top bot side, concreteTeeSection ops ov d b dF bF diaTop areaTop nTop cTop diaBot areaBot nBot cBot diaSide areaSide
        nSide cSide nCircle conc steel = .ok r ∧
      List.Forall₂ (fun p g => IsBar 1 steel nCircle areaTop p.1 p.2 g) bars.top top ∧
      List.Forall₂ (fun p g => IsBar 1 steel nCircle areaBot p.1 p.2 g) bars.bot bot ∧
      List.Forall₂ (fun p g => IsBar (3 / 2) steel nCircle (areaSide.getD 0) p.1 p.2 g) bars.side side ∧
      ConcreteWith reg conc steel (teeBeamOf b d bF dF) (top ++ bot ++ side) r ∧
      (side.Pairwise (fun g h => volume (reg g.poly ∩ reg h.poly) = 0) → PartsApart reg r) := by
  obtain ⟨c, g1, g2, c1, c2, c3, c4⟩ := teeOutline_boxes ops (conc := conc) hg hb0 hbF hdF hd
  shorts hg
  have gd : OnGrid 12 d := by grids
  have gdF : OnGrid 12 dF := by grids
  have gb2 : OnGrid 12 (b / 2) := by grids
  have gbF2 : OnGrid 12 (bF / 2) := by grids
  obtain ⟨k1, k2⟩ := c3.kind hk (by linarith) (by linarith) (by rw [neg_div]; grids) (.zero _) gb2 (by grids)
  obtain ⟨k3, k4⟩ := c4.kind hk (by linarith) (by linarith) (by rw [neg_div]; grids) (by grids) gbF2 gd
  rw [Set.uIcc_of_le (by linarith), Set.uIcc_of_le (by linarith)] at k2 k4
  obtain ⟨o, o1, _, o3⟩ := C85_tee_partial ops hc (dF := dF) hbars hne ht hb hs hn hK1 hK2 hK3
  rw [c1] at o1
  obtain rfl := Except.ok.inj o1
  obtain ⟨r, top, bot, side, r1, r2, r3, r4, r5, r6⟩ := o3 (by
    intro g hg
    rw [c2] at hg
    simp only [List.mem_cons, List.not_mem_nil, or_false] at hg
    rcases hg with rfl | rfl
    exacts [hc.bars _ k1, hc.bars _ k3]) (by
    rw [PartsApart, Shape.parts, c2, List.pairwise_pair, k2, k4]
    refine measure_mono_null ?_ (horizontal_null (d - dF))
    rintro p ⟨⟨_, _, h1⟩, ⟨_, h2, _⟩⟩
    exact le_antisymm h1 h2)
  refine ⟨r, top, bot, side, r1, r2, r3, r4, r5.congr ?_, r6⟩
  rw [occupied_eq, Shape.parts, c2, List.map_cons, List.map_cons, List.map_nil, covered_cons, covered_one, k2, k4]
  have : (Set.Icc (-b / 2) (b / 2) ×ˢ Set.Icc 0 (d - dF) ∪ Set.Icc (-bF / 2) (bF / 2) ×ˢ Set.Icc (d - dF) d : Set Pt)
      = teeBeamOf b d bF dF := by
    ext p
    simp only [teeBeamOf, Set.mem_union, Set.mem_prod, Set.mem_Icc, Set.mem_ofPred_eq, and_assoc]
  rw [this]
  exact ae_eq_refl _

end SP
