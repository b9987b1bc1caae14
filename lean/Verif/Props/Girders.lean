import Verif.Lemmas.Slopes

/-!
# C74: box girders, bulb flats and precast girders
-/

namespace SP

open Spec

/-! ### Box girders -/

/-- Horizontal thickness of a side wall. -/
noncomputable def wallX (d bt bb tw : ℝ) : ℝ := tw * √(d ^ 2 + ((bt - bb) / 2) ^ 2) / d

theorem girderInner_eq {d bt bb tft tfb tw : ℝ} (hd : 0 < d) (htw : 0 ≤ tw) :
    girderInner d bt bb tft tfb tw =
      [(max bt bb / 2 - bb / 2 - tfb * (bt - bb) / (2 * d) + wallX d bt bb tw, tfb),
       (max bt bb / 2 + bb / 2 + tfb * (bt - bb) / (2 * d) - wallX d bt bb tw, tfb),
       (max bt bb / 2 + bt / 2 - tft * (bt - bb) / (2 * d) - wallX d bt bb tw, d - tft),
       (max bt bb / 2 - bt / 2 + tft * (bt - bb) / (2 * d) + wallX d bt bb tw, d - tft)] := by
  have key : ∀ x : ℝ, Real.tan (arctan2 d x) = d / x ∧ Real.sin (arctan2 d x) = d / √(d ^ 2 + x ^ 2) := by
    intro x
    rw [arctan2]
    refine ⟨Complex.tan_arg _, ?_⟩
    rw [Complex.sin_arg, Complex.norm_def, Complex.normSq_apply]
    congr 2
    ring
  have hs : ∀ x : ℝ, 0 < √(d ^ 2 + x ^ 2) := fun x => Real.sqrt_pos.2 (by positivity)
  have hw : ∀ x : ℝ, |tw / (d / √(d ^ 2 + x ^ 2))| = tw * √(d ^ 2 + x ^ 2) / d := by
    intro x
    have := hs x
    rw [abs_of_nonneg (by positivity)]
    field_simp
  rw [girderInner, girderAngles, wallX]
  split_ifs with h
  · obtain ⟨k1, k2⟩ := key ((bb - bt) / 2)
    have e : ((bb - bt) / 2) ^ 2 = ((bt - bb) / 2) ^ 2 := by ring
    simp only [sub_sub_cancel, Real.tan_pi_sub, Real.sin_pi_sub, k1, k2, hw, e]
    have hne : bb - bt ≠ 0 := by linarith
    refine List.cons_eq_cons.2 ⟨?_, List.cons_eq_cons.2 ⟨?_, List.cons_eq_cons.2 ⟨?_, List.cons_eq_cons.2 ⟨?_, rfl⟩⟩⟩⟩ <;>
      (refine Prod.ext ?_ rfl; simp only; field_simp; ring)
  · obtain ⟨k1, k2⟩ := key ((bt - bb) / 2)
    simp only [sub_sub_cancel, Real.tan_pi_sub, k1, k2, hw]
    refine List.cons_eq_cons.2 ⟨?_, List.cons_eq_cons.2 ⟨?_, List.cons_eq_cons.2 ⟨?_, List.cons_eq_cons.2 ⟨?_, rfl⟩⟩⟩⟩ <;>
      (refine Prod.ext ?_ rfl; simp only; simp only [neg_div', div_neg, div_div_eq_mul_div]; field_simp; try ring)

theorem hollow_ok {ops : GeomOps} {L M : List Pt} {m : Material} {g : Geometry} (hcut : Cuts ops L [M])
    (hg : hollow ops L [M] m = .ok g) : g = mkGeometry ops ⟨L, [M]⟩ m none 12 := by
  rw [hollow, hcut] at hg
  exact (Except.ok.inj hg).symm

theorem C74_box_girder (ops : GeomOps) {d bt bb tft tfb tw : ℝ} (m : Material) (hd : 3 / 10 ^ 12 < d) (hbt : 0 < bt)
    (hbb : 0 < bb) (htft : 0 ≤ tft) (htfb : 0 ≤ tfb) (htw : 0 ≤ tw) (hh : tft + tfb ≤ d)
    (hcut : Cuts ops (girderOuter d bt bb) [girderInner d bt bb tft tfb tw]) :
    let W : ℝ → ℝ := fun y => bb + (bt - bb) * y / d - 2 * (tw * √(d ^ 2 + ((bt - bb) / 2) ^ 2) / d)
    0 ≤ W tfb → 0 ≤ W (d - tft) →
    ∃ g, boxGirderSection ops d bt bb tft tfb tw m = .ok g ∧
      Documented g (0, max bt bb, 0, d) (trapezium bb bt d - trapezium (W tfb) (W (d - tft)) (d - tft - tfb)) ∧
      ∃ L M P Q R S, Drawn g L ∧ DrawnHole g M ∧
        SymmetricUnder (fun p => (max bt bb - p.1, p.2)) L ∧ SymmetricUnder (fun p => (max bt bb - p.1, p.2)) M ∧
        L.length = 4 ∧ M.length = 4 ∧ Edge L P Q ∧ Edge M R S ∧
        P = ((max bt bb + bb) / 2, 0) ∧ Q = ((max bt bb + bt) / 2, d) ∧ R.2 = tfb ∧ S.2 = d - tft ∧
        R.1 ≤ P.1 + (Q.1 - P.1) * tfb / d ∧ lineDist P Q R = tw ∧ lineDist P Q S = tw := by
  intro W hw1 hw2
  have d0 : 0 < d := lt_trans (by norm_num) hd
  have hin := girderInner_eq (bt := bt) (bb := bb) (tft := tft) (tfb := tfb) d0 htw
  set h := √(d ^ 2 + ((bt - bb) / 2) ^ 2) with hh'
  have hpos : 0 < h := Real.sqrt_pos.2 (by positivity)
  set w := wallX d bt bb tw with hw
  have hwd : w * d = tw * h := by rw [hw, wallX, ← hh', div_mul_cancel₀ _ d0.ne']
  have hw0 : 0 ≤ w := by rw [hw, wallX]; positivity
  have eW : ∀ y, W y = bb + (bt - bb) * y / d - 2 * w := fun y => rfl
  rw [eW] at hw1 hw2
  have m1 := le_max_left bt bb
  have m2 := le_max_right bt bb
  set X := max bt bb with hX
  have l1 : 0 ≤ tfb / d := by positivity
  have l2 : tfb / d ≤ 1 := by rw [div_le_one d0]; linarith
  have l3 : 0 ≤ tft / d := by positivity
  have l4 : tft / d ≤ 1 := by rw [div_le_one d0]; linarith
  have e1 : tfb * (bt - bb) / (2 * d) = (tfb / d) * (bt - bb) / 2 := by field_simp
  have e2 : tft * (bt - bb) / (2 * d) = (tft / d) * (bt - bb) / 2 := by field_simp
  have e3 : (bt - bb) * tfb / d = (tfb / d) * (bt - bb) := by field_simp
  have e4 : (bt - bb) * (d - tft) / d = (bt - bb) - (tft / d) * (bt - bb) := by field_simp
  rw [e3] at hw1
  rw [e4] at hw2
  rw [e1, e2] at hin
  have f1 : bb + (tfb / d) * (bt - bb) ≤ X := by nlinarith
  have f2 : bt - (tft / d) * (bt - bb) ≤ X := by nlinarith
  have hroot : √(((((X + bt) / 2, d) : Pt).1 - (((X + bb) / 2, 0) : Pt).1) ^ 2
      + ((((X + bt) / 2, d) : Pt).2 - (((X + bb) / 2, 0) : Pt).2) ^ 2) = h := by
    rw [hh']; congr 1; simp only; ring
  have hsp : Spread 12 (girderOuter d bt bb) :=
    ⟨(X / 2 + bt / 2, d), by simp [girderOuter, ← hX], (X / 2 + bb / 2, 0), by simp [girderOuter, ← hX], by
      simp only; nlinarith [sq_nonneg (X / 2 + bt / 2 - (X / 2 + bb / 2))]⟩
  have key : ∃ g, boxGirderSection ops d bt bb tft tfb tw m = .ok g ∧ Fits g (0, X, 0, d)
      (trapezium bb bt d - trapezium (W tfb) (W (d - tft)) (d - tft - tfb)) False := by
    refine fits_hollow ops hcut ?_ ?_ ?_ ?_ ?_ ?_ ?_ (by right; linarith) (fun h => h.elim)
    · have a1 : ringArea2 (girderOuter d bt bb) = 2 * trapezium bb bt d := by
        simp only [girderOuter, trapezium]; shoelace
      have a2 : ringArea2 (girderInner d bt bb tft tfb tw) = 2 * trapezium (W tfb) (W (d - tft)) (d - tft - tfb) := by
        rw [hin, eW, eW, e3, e4]; simp only [trapezium]; shoelace
      have p1 : 0 ≤ trapezium bb bt d := by rw [trapezium]; positivity
      have p2 : 0 ≤ trapezium (W tfb) (W (d - tft)) (d - tft - tfb) := by
        rw [trapezium, eW, eW, e3, e4]
        exact mul_nonneg (by linarith) (by linarith)
      simp only [List.map_cons, List.map_nil, List.sum_cons, List.sum_nil, a1, a2]
      rw [abs_of_nonneg (by linarith), abs_of_nonneg (by linarith)]
      ring
    · unfold girderOuter
      simp only [← hX]
      boxes
    · intro r hr
      rw [List.mem_singleton] at hr
      rw [hr, hin]
      boxes
    · rcases max_choice bt bb with h | h
      · exact ⟨(X / 2 - bt / 2, d), by simp [girderOuter, ← hX], by rw [hX, h]; simp⟩
      · exact ⟨(X / 2 - bb / 2, 0), by simp [girderOuter, ← hX], by rw [hX, h]; simp⟩
    · rcases max_choice bt bb with h | h
      · exact ⟨(X / 2 + bt / 2, d), by simp [girderOuter, ← hX], by rw [hX, h]; simp⟩
      · exact ⟨(X / 2 + bb / 2, 0), by simp [girderOuter, ← hX], by rw [hX, h]; simp⟩
    · exact ⟨(X / 2 + bb / 2, 0), by simp [girderOuter, ← hX], rfl⟩
    · exact ⟨(X / 2 + bt / 2, d), by simp [girderOuter, ← hX], rfl⟩
  obtain ⟨g, hg, hf⟩ := key
  refine ⟨g, hg, hf.1, girderOuter d bt bb, girderInner d bt bb tft tfb tw, ((X + bb) / 2, 0), ((X + bt) / 2, d),
    (X / 2 + bb / 2 + tfb / d * (bt - bb) / 2 - w, tfb), (X / 2 + bt / 2 - tft / d * (bt - bb) / 2 - w, d - tft), ?_, ?_,
    ?_, ?_, rfl, by rw [hin]; rfl, ?_, ?_, rfl, rfl, rfl, rfl, ?_, ?_, ?_⟩
  · rw [hollow_ok hcut hg]; exact (drawn_hollow ops hsp).1
  · rw [hollow_ok hcut hg]; exact (drawn_hollow ops hsp).2
  · refine ⟨2, ?_⟩
    simp [girderOuter, ← hX]
    refine ⟨?_, ?_, ?_, ?_⟩ <;> ring
  · refine ⟨2, ?_⟩
    rw [hin]
    simp
    refine ⟨?_, ?_, ?_, ?_⟩ <;> ring
  · simp [Edge, closedEdges, girderOuter, ← hX]
    right; left
    constructor <;> ring
  · rw [hin]; simp [Edge, closedEdges]
  · simp only
    have : ((X + bt) / 2 - (X + bb) / 2) * tfb / d = tfb / d * (bt - bb) / 2 := by field_simp; ring
    rw [this]; linarith
  · rw [lineDist, hroot, div_eq_iff hpos.ne', ← hwd]
    have : ((X + bt) / 2 - (X + bb) / 2) * (tfb - 0) - (d - 0) * (X / 2 + bb / 2 + tfb / d * (bt - bb) / 2 - w - (X + bb) / 2)
        = w * d := by field_simp; ring
    simp only [this]
    exact abs_of_nonneg (by positivity)
  · rw [lineDist, hroot, div_eq_iff hpos.ne', ← hwd]
    have : ((X + bt) / 2 - (X + bb) / 2) * (d - tft - 0)
        - (d - 0) * (X / 2 + bt / 2 - tft / d * (bt - bb) / 2 - w - (X + bb) / 2) = w * d := by field_simp; ring
    simp only [this]
    exact abs_of_nonneg (by positivity)
example : ∃ g, boxGirderSection exOps 1200 1200 400 100 80 50 defaultMaterial = .ok g :=
  have h : √((1200 : ℝ) ^ 2 + ((1200 - 400) / 2) ^ 2) ≤ 1300 := by rw [Real.sqrt_le_left (by norm_num)]; norm_num
  have h0 := Real.sqrt_nonneg ((1200 : ℝ) ^ 2 + ((1200 - 400) / 2) ^ 2)
  let ⟨g, hg, _⟩ := C74_box_girder exOps (d := 1200) (bt := 1200) (bb := 400) (tft := 100) (tfb := 80) (tw := 50)
    defaultMaterial (by norm_num) (by norm_num) (by norm_num) (by norm_num) (by norm_num) (by norm_num) (by norm_num) rfl
    (by simp only; linarith) (by simp only; linarith)
  ⟨g, hg⟩

/-! ### Bulb flats -/

section
variable {d b t r : ℝ} {nr : ℕ}

/-- The bulb depth of a standard section. -/
theorem bulb_depth : r * Real.cos (Real.pi / 3) / Real.cos (Real.pi / 6) + r + b * Real.tan (Real.pi / 6)
    = r / √3 + r + b / √3 := by
  have : √(3 : ℝ) ≠ 0 := by positivity
  have h3 : √(3 : ℝ) ^ 2 = 3 := Real.sq_sqrt (by norm_num)
  rw [Real.cos_pi_div_three, Real.cos_pi_div_six, Real.tan_pi_div_six]
  field_simp

theorem bulbPts_eq (hn : r = 0 ∨ 2 ≤ nr) {db : ℝ} (db' : Option ℝ) (hdb : db'.getD (r / √3 + r + b / √3) = db) :
    bulbPts d b t r nr db' =
    [(-t / 2, 0), (t / 2, 0)] ++ drawRadius (t / 2 + r, d - db - r / √3) r Real.pi nr false (Real.pi / 3)
      ++ ((drawRadius (b + t / 2 - r, d - r) r (-Real.pi * 1 / 3) nr true (Real.pi / 3)).dropLast
      ++ quarter (b + t / 2 - r, d - r) r 0 nr true) ++ [(-t / 2, d)] := by
  have : √(3 : ℝ) ≠ 0 := by positivity
  have hs : Real.sin (2 / 3 * Real.pi / 2) = √3 / 2 := by
    rw [← Real.sin_pi_div_three]; congr 1; ring
  have hne : drawRadius (b + t / 2 - r, d - r) r (-Real.pi * 1 / 3) nr true (Real.pi / 3) ≠ [] := by
    have := (drawRadius_chain (pt := (b + t / 2 - r, d - r)) (θ := -Real.pi * 1 / 3) (ccw := true) (φ := Real.pi / 3) hn).1
    intro h
    rw [h] at this
    simp at this
  have e1 : r / (√3 / 2) * (√3 / 2) = r := by field_simp
  have e2 : r / (√3 / 2) * (1 / 2) = r / √3 := by field_simp
  rw [bulbPts, bulb_depth, hdb]
  rw [hs, Real.cos_pi_div_six, Real.cos_pi_div_three, e1, e2, List.append_assoc, ← List.append_assoc,
    List.dropLast_append_of_ne_nil hne]
  simp only [List.append_assoc]

/-- The arc in the corner between web and bulb. -/
theorem bulb_arc0 {pt : Pt} (hn : r = 0 ∨ 2 ≤ nr) : Chain (drawRadius pt r Real.pi nr false (Real.pi / 3))
    (pt.1 + r * -1, pt.2 + r * 0) (pt.1 + r * -(1 / 2), pt.2 + r * (√3 / 2))
    (pt.1 * (r * (√3 / 2) - r * 0) - pt.2 * (r * -(1 / 2) - r * -1) + -1 * sector2 r (Real.pi / 3) nr) := by
  refine arc_chain hn rfl Real.cos_pi Real.sin_pi ?_ ?_
  · rw [show Real.pi + -1 * (Real.pi / 3) = Real.pi - Real.pi / 3 by ring, Real.cos_pi_sub, Real.cos_pi_div_three]
  · rw [show Real.pi + -1 * (Real.pi / 3) = Real.pi - Real.pi / 3 by ring, Real.sin_pi_sub, Real.sin_pi_div_three]

/-- The arc at the tip of the bulb. -/
theorem bulb_arc1 {pt : Pt} (hn : r = 0 ∨ 2 ≤ nr) : Chain (drawRadius pt r (-Real.pi * 1 / 3) nr true (Real.pi / 3))
    (pt.1 + r * (1 / 2), pt.2 + r * -(√3 / 2)) (pt.1 + r * 1, pt.2 + r * 0)
    (pt.1 * (r * 0 - r * -(√3 / 2)) - pt.2 * (r * 1 - r * (1 / 2)) + 1 * sector2 r (Real.pi / 3) nr) := by
  refine arc_chain hn rfl ?_ ?_ ?_ ?_
  · rw [show -Real.pi * 1 / 3 = -(Real.pi / 3) by ring, Real.cos_neg, Real.cos_pi_div_three]
  · rw [show -Real.pi * 1 / 3 = -(Real.pi / 3) by ring, Real.sin_neg, Real.sin_pi_div_three]
  · rw [show -Real.pi * 1 / 3 + 1 * (Real.pi / 3) = 0 by ring, Real.cos_zero]
  · rw [show -Real.pi * 1 / 3 + 1 * (Real.pi / 3) = 0 by ring, Real.sin_zero]

/-- Both arcs of the tip, without the repeated point. -/
theorem bulb_tip {pt : Pt} (hn : r = 0 ∨ 2 ≤ nr) :
    Chain ((drawRadius pt r (-Real.pi * 1 / 3) nr true (Real.pi / 3)).dropLast ++ quarter pt r 0 nr true)
    (pt.1 + r * (1 / 2), pt.2 + r * -(√3 / 2)) (pt.1, pt.2 + r)
    ((pt.1 * (r * 0 - r * -(√3 / 2)) - pt.2 * (r * 1 - r * (1 / 2)) + 1 * sector2 r (Real.pi / 3) nr)
      + (pt.1 * r + pt.2 * r + sector2 r (Real.pi / 2) nr)) := by
  refine chain_glue (b := (pt.1 + r, pt.2)) ?_ (chain_ccw_zero hn)
  have := bulb_arc1 (pt := pt) hn
  simp only [mul_one, mul_zero, add_zero] at this ⊢
  exact this

theorem C74_bulb (ops : GeomOps) (m : Material) (hd : 3 / 10 ^ 12 < d) (ht : 0 < t) (hr : 0 ≤ r) (hn : r = 0 ∨ 2 ≤ nr)
    (hb : r ≤ b) (hh : r + (b + 2 * r) / √3 ≤ d) :
    let g := bulbSection ops d b t r nr none m
    let db := r + (b + r) / √3
    Documented g (-t / 2, b + t / 2, 0, d) (t * d + trapezium db (db - b / √3) b - fillet r nr) ∧
    ∃ L P Q, Drawn g L ∧ Edge L P Q ∧
      P.2 = d - db + (P.1 - t / 2) / √3 ∧ Q.2 = d - db + (Q.1 - t / 2) / √3 ∧
      (∃ y, (t / 2, y) ∈ L ∧ Touches (t / 2 + r, y) r P (√3 / 2, 1 / 2)) ∧
      Touches (b + t / 2 - r, d - r) r Q (√3 / 2, 1 / 2) ∧
      (b + t / 2, d - r) ∈ L ∧ (b + t / 2 - r, d) ∈ L := by
  intro g db
  have s0 : 0 < √(3 : ℝ) := by positivity
  have h3 : √(3 : ℝ) * √3 = 3 := Real.mul_self_sqrt (by norm_num)
  obtain ⟨q, hq⟩ : ∃ q, q = 1 / √(3 : ℝ) := ⟨_, rfl⟩
  have q0 : 0 < q := by rw [hq]; positivity
  have hdiv : ∀ x : ℝ, x / √3 = x * q := fun x => by rw [hq]; ring
  have hs : √(3 : ℝ) / 2 = 3 / 2 * q := by rw [hq]; field_simp; linarith
  have qq : q * q = 1 / 3 := by rw [hq, div_mul_div_comm, h3]; norm_num
  have q1 : q ≤ 1 := by nlinarith
  have edb : db = r + (b + r) * q := by rw [← hdiv]
  rw [hdiv] at hh
  have hL := bulbPts_eq (d := d) (b := b) (t := t) hn (db := db) none (by
    simp only [Option.getD_none, edb, hdiv]; ring)
  rw [hdiv] at hL
  have b0 : 0 ≤ b := hr.trans hb
  have rq : 0 ≤ r * q := by positivity
  have rq1 : r * q ≤ r := by nlinarith
  have bq : 0 ≤ b * q := by positivity
  have a0 := bulb_arc0 (pt := (t / 2 + r, d - db - r * q)) hn
  have a1 := bulb_tip (pt := (b + t / 2 - r, d - r)) hn
  have hbox : Boxed (-t / 2, b + t / 2, 0, d) (bulbPts d b t r nr none) := by
    rw [hL]
    with_reducible repeat' apply boxed_append
    · boxes
    · intro p hp
      obtain ⟨u, v, h1, h2, h3, h4, rfl⟩ := mem_arc_start hr (by linarith [Real.pi_pos]) (by linarith [Real.pi_pos]) rfl
        Real.cos_pi Real.sin_pi hp
      rw [Real.cos_pi_div_three] at h1
      rw [Real.sin_pi_div_three, hs] at h4
      simp at *
      refine ⟨?_, ?_, ?_, ?_⟩ <;> simp only <;> nlinarith
    · intro p hp
      obtain ⟨u, v, h1, h2, h3, h4, rfl⟩ := mem_arc_end (σ := 1) hr hn (by linarith [Real.pi_pos]) (by linarith [Real.pi_pos]) rfl
        (by rw [show -Real.pi * 1 / 3 + 1 * (Real.pi / 3) = 0 by ring, Real.cos_zero])
        (by rw [show -Real.pi * 1 / 3 + 1 * (Real.pi / 3) = 0 by ring, Real.sin_zero]) (List.mem_of_mem_dropLast hp)
      rw [Real.cos_pi_div_three] at h1
      rw [Real.sin_pi_div_three, hs] at h4
      refine ⟨?_, ?_, ?_, ?_⟩ <;> simp only <;> nlinarith
    · apply boxed_ccw_zero hr <;> dsimp only <;> nlinarith
    · boxes
  have harea : ringArea2 (bulbPts d b t r nr none)
      = 2 * (t * d + trapezium db (db - b / √3) b - fillet r nr) := by
    rw [hL, ringArea2_chain (chain_append (chain_append (chain_append (chain_cons _ (chain_one _)) a0) a1) (chain_one _))]
    simp only [crossP, sector2_fillet, hs, trapezium, hdiv, edb]
    ring
  have htip : (b + t / 2, d - r) ∈ bulbPts d b t r nr none := by
    rw [hL]
    have := (chain_ccw_zero (pt := (b + t / 2 - r, d - r)) hn).head_mem
    simp only [sub_add_cancel] at this
    simp only [List.mem_append, this, true_or, or_true]
  have hfl := fillet_le r hn
  refine ⟨(solid ops (m := m) harea ?_ hbox ⟨(-t / 2, 0), by simp [hL], rfl⟩
    ⟨(b + t / 2, d - r), ?_, rfl⟩ ⟨(-t / 2, 0), by simp [hL], rfl⟩ ⟨(-t / 2, d), by simp [hL], rfl⟩ (by right; linarith)).1, ?_⟩
  · have : 0 ≤ t * d := mul_nonneg ht.le (by linarith [(by norm_num : (0 : ℝ) < 3 / 10 ^ 12)])
    simp only [trapezium, hdiv, edb]
    nlinarith [mul_nonneg b0 rq, mul_nonneg b0 bq, mul_le_mul_of_nonneg_right hb hr, sq_nonneg r]
  · exact htip
  · refine ⟨bulbPts d b t r nr none, (t / 2 + r + r * -(1 / 2), d - db - r * q + r * (√3 / 2)),
      (b + t / 2 - r + r * (1 / 2), d - r + r * -(√3 / 2)),
      drawn_solid ops ⟨(-t / 2, d), by simp [hL], (-t / 2, 0), by simp [hL], by simp only; nlinarith⟩, ?_, ?_, ?_,
      ⟨d - db - r * q, ?_, ?_, ?_⟩, ⟨?_, ?_⟩, htip, ?_⟩
    · rw [hL, List.append_assoc]
      exact edge_append (chain_append (chain_cons _ (chain_one _)) a0).2.1 (chain_append a1 (chain_one _)).1
    · simp only [hdiv, hs]; ring
    · simp only [hdiv, hs, edb]; ring
    · rw [hL]
      have := a0.head_mem
      simp only [mul_zero, add_zero, mul_neg, mul_one, add_neg_cancel_right] at this
      simp only [List.mem_append, this, true_or, or_true]
    · simp only; linear_combination (r ^ 2 / 4) * h3
    · simp only; ring
    · simp only; linear_combination (r ^ 2 / 4) * h3
    · simp only; ring
    · rw [hL]
      have := (chain_ccw_zero (pt := (b + t / 2 - r, d - r)) hn).last_mem
      simp only [sub_add_cancel] at this
      simp only [List.mem_append, this, true_or, or_true]

example := C74_bulb exOps (d := 240) (b := 34) (t := 12) (r := 10) (nr := 16) defaultMaterial (by norm_num) (by norm_num)
  (by norm_num) (Or.inr (by norm_num)) (by norm_num) (by
    have : 1 ≤ √(3 : ℝ) := by rw [Real.le_sqrt'] <;> norm_num
    have h : (34 + 2 * 10) / √(3 : ℝ) ≤ 54 := by rw [div_le_iff₀ (by linarith)]; linarith
    linarith)

end

/-! ### Precast I girders -/

/-- A section without holes whose outline runs clockwise. -/
theorem solid_cw (ops : GeomOps) {L : List Pt} {m : Material} {x0 x1 y0 y1 A : ℝ}
    (hA : ringArea2 L = -(2 * A)) (hpos : 0 ≤ A) (hbox : Boxed (x0, x1, y0, y1) L)
    (h0 : ∃ p ∈ L, p.1 = x0) (h1 : ∃ p ∈ L, p.1 = x1) (h2 : ∃ p ∈ L, p.2 = y0) (h3 : ∃ p ∈ L, p.2 = y1)
    (hbig : 3 / 10 ^ 12 < x1 - x0 ∨ 3 / 10 ^ 12 < y1 - y0) :
    Documented (libGeom ops L m) (x0, x1, y0, y1) A ∧
      (GridPts L → Exactly (libGeom ops L m) (x0, x1, y0, y1) A) := by
  have hne : L ≠ [] := by
    obtain ⟨p, hp, _⟩ := h0
    exact List.ne_nil_of_mem hp
  have hb := ringBounds_eq hbox h0 h1 h2 h3
  have harea : (⟨L, []⟩ : Poly).area = A := by
    simp only [Poly.area, List.map_nil, List.sum_nil, sub_zero]
    rw [hA, abs_neg, abs_of_nonneg (by linarith)]; ring
  refine ⟨documented_of ops (p := ⟨L, []⟩) hb hne (by simp) harea hbig, fun hg => ?_⟩
  refine exactly_of ops (p := ⟨L, []⟩) hb hne harea ?_ ?_
  · have : (0 : ℝ) < 3 / 10 ^ 12 := by positivity
    rcases hbig with h | h
    · left; linarith
    · right; linarith
  · intro r hr q hq
    simp only [Poly.rings, List.mem_singleton] at hr
    subst hr
    exact hg q hq

/-- The girder for any table of dimensions. -/
theorem iGirder_of (ops : GeomOps) (m : Material) {g : GirderDims} (hs : Short [g.btf, g.bbf, g.bw, g.htf, g.hts, g.hw, g.hbs, g.hbf])
    (h1 : 0 < g.bw) (h2 : g.bw ≤ g.btf) (h3 : g.btf ≤ g.bbf) (h4 : 1 ≤ g.htf) (h5 : 0 ≤ g.hts) (h6 : 0 ≤ g.hw) (h7 : 0 ≤ g.hbs)
    (h8 : 0 ≤ g.hbf) :
    Exactly (libGeom ops (iGirderPts g) m) (-(g.bbf / 2), g.bbf / 2, -(g.htf + g.hts + g.hw + g.hbs + g.hbf), 0)
      (g.btf * g.htf + trapezium g.btf g.bw g.hts + g.bw * g.hw + trapezium g.bw g.bbf g.hbs + g.bbf * g.hbf) ∧
    Drawn (libGeom ops (iGirderPts g) m) (iGirderPts g) ∧ SymmetricUnder (fun p => (-p.1, p.2)) (iGirderPts g) := by
  refine ⟨(solid_cw ops (m := m) ?_ ?_ ?_ ⟨(-g.bbf / 2, -(g.htf + g.hts + g.hw + g.hbs + g.hbf)), by simp [iGirderPts], by simp only; ring⟩
    ⟨(g.bbf / 2, -(g.htf + g.hts + g.hw + g.hbs + g.hbf)), by simp [iGirderPts], rfl⟩
    ⟨(g.bbf / 2, -(g.htf + g.hts + g.hw + g.hbs + g.hbf)), by simp [iGirderPts], rfl⟩ ⟨(g.btf / 2, 0), by simp [iGirderPts], rfl⟩
    (by right; linarith [(by norm_num : (3 : ℝ) / 10 ^ 12 < 1)])).2 ?_, drawn_solid ops ⟨(g.btf / 2, 0), by simp [iGirderPts],
      (g.btf / 2, -g.htf), by simp [iGirderPts], by simp only; nlinarith⟩, 0, ?_⟩
  · simp only [iGirderPts, trapezium]; shoelace
  · simp only [trapezium]
    have := h1.le
    have : 0 ≤ g.btf := by linarith
    have : 0 ≤ g.bbf := by linarith
    have : 0 ≤ g.htf := by linarith
    positivity
  · unfold iGirderPts
    boxes
  · shorts hs
    unfold iGirderPts
    have half : ∀ {x : ℝ}, OnGrid 11 x → OnGrid 12 (-x / 2) := fun {x} h => by rw [neg_div]; exact h.half.neg
    dsimp only
    have e : ∀ x y : ℝ, x / 2 - (x - y) / 2 = y / 2 := fun x y => by ring
    have e' : ∀ x y : ℝ, -x / 2 + (x - y) / 2 = -y / 2 := fun x y => by ring
    simp only [e, e']
    (with_reducible repeat' (first
      | apply grid_cons | exact grid_nil | apply half
      | assumption | exact Spec.OnGrid.zero _ | refine ⟨?_, ?_⟩ | apply Spec.OnGrid.add | apply Spec.OnGrid.sub
      | apply Spec.OnGrid.neg | apply Spec.OnGrid.half | apply Spec.OnGrid.up))
  · simp [iGirderPts]
    (repeat' apply And.intro) <;> ring

theorem C74_i_girder (ops : GeomOps) (m : Material) :
    (∀ k : ℤ, k < 1 ∨ 4 < k → iGirderSection ops k m = .error .valueError) ∧
    ∀ (k : ℕ) (btf bbf bw htf hts hw hbs hbf : ℝ), precastI[k]? = some ((btf, bbf, bw), htf, hts, hw, hbs, hbf) →
      ∃ g L, iGirderSection ops (k + 1) m = .ok g ∧ g.material = m ∧
        Exactly g (-(bbf / 2), bbf / 2, -(htf + hts + hw + hbs + hbf), 0)
          (btf * htf + trapezium btf bw hts + bw * hw + trapezium bw bbf hbs + bbf * hbf) ∧
        Drawn g L ∧ SymmetricUnder (fun p => (-p.1, p.2)) L ∧ L.length = 12 ∧
        Edge L (btf / 2, 0) (btf / 2, -htf) ∧ Edge L (bw / 2, -(htf + hts)) (bw / 2, -(htf + hts + hw)) ∧
        Edge L (bbf / 2, -(htf + hts + hw + hbs)) (bbf / 2, -(htf + hts + hw + hbs + hbf)) := by
  refine ⟨fun k hk => if_pos hk, ?_⟩
  have key : ∀ (k : ℤ) (btf bbf bw htf hts hw hbs hbf : ℝ), 1 ≤ k → k ≤ 4 →
      iGirderDims k = some ⟨btf, bbf, bw, htf, hts, hw, hbs, hbf⟩ →
      Short [btf, bbf, bw, htf, hts, hw, hbs, hbf] → 0 < bw → bw ≤ btf → btf ≤ bbf → 1 ≤ htf → 0 ≤ hts → 0 ≤ hw → 0 ≤ hbs → 0 ≤ hbf →
      ∃ g L, iGirderSection ops k m = .ok g ∧ g.material = m ∧
        Exactly g (-(bbf / 2), bbf / 2, -(htf + hts + hw + hbs + hbf), 0)
          (btf * htf + trapezium btf bw hts + bw * hw + trapezium bw bbf hbs + bbf * hbf) ∧
        Drawn g L ∧ SymmetricUnder (fun p => (-p.1, p.2)) L ∧ L.length = 12 ∧
        Edge L (btf / 2, 0) (btf / 2, -htf) ∧ Edge L (bw / 2, -(htf + hts)) (bw / 2, -(htf + hts + hw)) ∧
        Edge L (bbf / 2, -(htf + hts + hw + hbs)) (bbf / 2, -(htf + hts + hw + hbs + hbf)) := by
    intro k btf bbf bw htf hts hw hbs hbf k1 k4 hk hs h1 h2 h3 h4 h5 h6 h7 h8
    obtain ⟨a, b, c⟩ := iGirder_of ops m (g := ⟨btf, bbf, bw, htf, hts, hw, hbs, hbf⟩) hs h1 h2 h3 h4 h5 h6 h7 h8
    refine ⟨_, _, by rw [iGirderSection, if_neg (by omega), hk], rfl, a, b, c, rfl, ?_, ?_, ?_⟩
    · simp [Edge, closedEdges, iGirderPts]
    · rw [← List.take_append_drop 3 (iGirderPts _)]
      refine edge_append ?_ ?_ <;> simp [iGirderPts] <;> constructor <;> ring
    · rw [← List.take_append_drop 5 (iGirderPts _)]
      refine edge_append ?_ ?_ <;> simp [iGirderPts] <;> ring
  have sh : ∀ n : ℕ, OnGrid 11 (n : ℝ) := fun n => ⟨n * 10 ^ 11, by push_cast; norm_num⟩
  intro k btf bbf bw htf hts hw hbs hbf hk
  have hlt : k < 4 := by
    have := (List.getElem?_eq_some_iff.1 hk).1
    simpa [precastI] using this
  have all : ∀ l : List ℝ, (∀ x ∈ l, ∃ n : ℕ, x = n) → Short l := fun l h x hx => by
    obtain ⟨n, rfl⟩ := h x hx; exact sh n
  have go : ∀ a b c d e f g h : ℕ, Short [(a : ℝ), b, c, d, e, f, g, h] := fun a b c d e f g h => all _ fun x hx => by
    simp only [List.mem_cons, List.not_mem_nil, or_false] at hx
    rcases hx with rfl | rfl | rfl | rfl | rfl | rfl | rfl | rfl <;> exact ⟨_, rfl⟩
  obtain rfl | rfl | rfl | rfl : k = 0 ∨ k = 1 ∨ k = 2 ∨ k = 3 := by omega
  all_goals
    simp only [precastI, List.getElem?_cons_zero, List.getElem?_cons_succ, Option.some.injEq, Prod.mk.injEq] at hk
    obtain ⟨⟨rfl, rfl, rfl⟩, rfl, rfl, rfl, rfl, rfl⟩ := hk
    refine key _ _ _ _ _ _ _ _ _ (by norm_num) (by norm_num) (by norm_num [iGirderDims]) ?_ (by norm_num) (by norm_num)
      (by norm_num) (by norm_num) (by norm_num) (by norm_num) (by norm_num) (by norm_num)
  · exact_mod_cast go 200 300 120 100 40 420 90 100
  · exact_mod_cast go 350 450 150 100 100 450 150 100
  · exact_mod_cast go 450 500 150 130 150 545 175 150
  · exact_mod_cast go 500 650 150 150 175 650 250 175

example : precastI[3]? = some ((500, 650, 150), 150, 175, 650, 250, 175) := rfl

end SP
