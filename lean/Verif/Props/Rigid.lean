import Verif.Lemmas.Bounds

/-!
# Rigid motions of geometries and compounds (C42, C59)
-/

namespace SP

open Spec

theorem Geometry.ext' {g h : Geometry} (h1 : g.poly = h.poly) (h2 : g.material = h.material)
    (h3 : g.assigned = h.assigned) (h4 : g.tol = h.tol) {ops : GeomOps} (hg : Built ops g) (hh : Built ops h) :
    g = h := by
  rw [hg.eq, hh.eq, h1, h2, h3, h4]

theorem spread_ne_nil {tol : ℕ} {l : List Pt} (h : Spread tol l) : l ≠ [] := by
  rintro rfl
  obtain ⟨p, hp, _⟩ := h
  simp at hp

/-- **C42, shifts.** Shifting by `(a, b)` and then by `(c, d)` gives the geometry shifted by the sum, and
shifting back gives the geometry itself: the same facets, control point and material, and vertices that
differ by at most one unit of the last decimal that is kept. -/
theorem C42_shift (ops : GeomOps) {g : Geometry} (hb : Built ops g) (hs : Spread g.tol g.poly.exterior)
    (a b c d : ℝ) :
    Same ((g.shift ops a b).shift ops c d) (g.shift ops (a + c) (b + d)) ∧
      Same ((g.shift ops a b).shift ops (-a) (-b)) g := by
  constructor
  · refine same_comp ops hs (iso_translate a b) (iso_translate c d) (iso_translate (a + c) (b + d)) ?_ _ _ _ ?_
    · intro p; simp only [translate, Prod.mk.injEq]; constructor <;> ring
    · change Option.map _ (Option.map _ _) = _
      rw [Option.map_map]
      congr 1; funext p; simp only [translate, Function.comp, Prod.mk.injEq]; constructor <;> ring
  · refine same_inv ops hb hs (iso_translate a b) (iso_translate (-a) (-b)) ?_ _ ?_
    · intro p; ext <;> simp [translate]
    · change Option.map _ (Option.map _ _) = _
      rw [Option.map_map]
      cases g.assigned <;> simp [translate]

/-- **C42, rotations about a point.** -/
theorem C42_rotate (ops : GeomOps) {g : Geometry} (hb : Built ops g) (hs : Spread g.tol g.poly.exterior)
    (s t : ℝ) (c : Pt) (rad : Bool) :
    Same ((g.rotate ops s (.point c) rad).rotate ops t (.point c) rad) (g.rotate ops (s + t) (.point c) rad) ∧
      Same ((g.rotate ops s (.point c) rad).rotate ops (-s) (.point c) rad) g := by
  have hr : ∀ s t, radians s rad + radians t rad = radians (s + t) rad := by
    intro s t; cases rad <;> simp only [radians, if_true, Bool.false_eq_true, if_false]; ring
  have h0 : ∀ p, rotateAbout c 0 p = p := by intro p; ext <;> simp [rotateAbout]
  have hz : radians (s + -s) rad = 0 := by cases rad <;> simp [radians]
  constructor
  · refine same_comp ops hs (iso_rotate c _) (iso_rotate c _) (iso_rotate c _) ?_ _ _ _ ?_
    · intro p; rw [rotate_rotate, hr]
    · change Option.map _ (Option.map _ _) = _
      rw [Option.map_map]
      congr 1; funext p; rw [Function.comp, rotate_rotate, hr]
  · refine same_inv ops hb hs (iso_rotate c _) (iso_rotate c _) ?_ _ ?_
    · intro p; rw [rotate_rotate, hr, hz, h0]
    · change Option.map _ (Option.map _ _) = _
      rw [Option.map_map]
      cases g.assigned <;> simp [rotate_rotate, hr]
      rename_i p
      rw [show radians 0 rad = 0 by cases rad <;> simp [radians], h0]

/-- **C42, mirroring twice about a point.** -/
theorem C42_mirror (ops : GeomOps) {g : Geometry} (hb : Built ops g) (hs : Spread g.tol g.poly.exterior)
    (ax : MirrorAxis) (c : Pt) :
    Same ((g.mirror ops ax (.point c)).mirror ops ax (.point c)) g := by
  refine same_inv ops hb hs (iso_mirror c ax) (iso_mirror c ax) (mirror_mirror c ax) _ ?_
  change Option.map _ (Option.map _ _) = _
  rw [Option.map_map]
  cases g.assigned <;> simp [mirror_mirror]

/-- The polygon of a shifted geometry. -/
theorem shift_poly (ops : GeomOps) {g : Geometry} (hs : Apart 2 g.tol g.poly.exterior) (a b : ℝ) :
    (g.shift ops a b).poly = g.poly.map fun q => roundPt g.tol (translate a b q) :=
  move_poly ops hs (iso_translate a b) _ _

theorem shift_poly_exact (ops : GeomOps) {g : Geometry} (hb : Built ops g) (hs : Apart 2 g.tol g.poly.exterior)
    {a b : ℝ} (ha : ¬ Tie g.tol a) (hbt : ¬ Tie g.tol b) :
    (g.shift ops a b).poly = g.poly.map (translate (roundTo g.tol a) (roundTo g.tol b)) := by
  rw [shift_poly ops hs]
  apply Poly.map_congr
  intro r hr q hq
  have h := hb.onGrid r hr q hq
  simp only [translate, roundPt]
  rw [roundTo_add h.1 ha, roundTo_add h.2 hbt]

/-- **C42, exact cases.** Unless an offset lies exactly half way between two numbers of `tol` decimals,
shifting back returns the very same geometry; likewise for mirroring twice, unless twice a coordinate of
the point lies half way between two such numbers; and mirroring twice about the centre always returns the
very same geometry. -/
theorem C42_exact (ops : GeomOps) {g : Geometry} (hb : Built ops g) (hs : Spread g.tol g.poly.exterior) :
    (∀ a b, ¬ Tie g.tol a → ¬ Tie g.tol b → (g.shift ops a b).shift ops (-a) (-b) = g) ∧
    (∀ ax c, ¬ Tie g.tol (2 * c.1) → ¬ Tie g.tol (2 * c.2) →
      (g.mirror ops ax (.point c)).mirror ops ax (.point c) = g) ∧
    (∀ ax, (g.mirror ops ax .center).mirror ops ax .center = g) := by
  have ha := spread_apart hs
  have h9 : Apart 2 g.tol g.poly.exterior := ha.mono (by norm_num)
  -- reflection at the number `k / 2`, rounded
  have hmir : ∀ (p : Poly) (c : Pt) (ax : MirrorAxis), p.OnGrid g.tol → Apart 2 g.tol p.exterior →
      ¬ Tie g.tol (2 * c.1) → ¬ Tie g.tol (2 * c.2) → ∀ m cp,
      (mkGeometry ops (p.map (scaleAbout c (mirrorFactors ax).1 (mirrorFactors ax).2)) m cp g.tol).poly
        = p.map (scaleAbout (roundTo g.tol (2 * c.1) / 2, roundTo g.tol (2 * c.2) / 2)
            (mirrorFactors ax).1 (mirrorFactors ax).2) := by
    intro p c ax hg hap h1 h2 m cp
    rw [move_poly ops hap (iso_mirror c ax)]
    apply Poly.map_congr
    intro r hr q hq
    have h := hg r hr q hq
    have e1 := roundTo_sub h.1 h1
    have e2 := roundTo_sub h.2 h2
    have z1 := roundTo_of_onGrid h.1
    have z2 := roundTo_of_onGrid h.2
    cases ax <;> simp only [scaleAbout, mirrorFactors, roundPt, Prod.mk.injEq] <;> constructor
    · rw [show c.1 + 1 * (q.1 - c.1) = q.1 by ring, z1]; ring
    · rw [show c.2 + -1 * (q.2 - c.2) = 2 * c.2 - q.2 by ring, e2]; ring
    · rw [show c.1 + -1 * (q.1 - c.1) = 2 * c.1 - q.1 by ring, e1]; ring
    · rw [show c.2 + 1 * (q.2 - c.2) = q.2 by ring, z2]; ring
    · rw [show c.1 + 1 * (q.1 - c.1) = q.1 by ring, z1]; ring
    · rw [show c.2 + 1 * (q.2 - c.2) = q.2 by ring, z2]; ring
  have hmirapart : ∀ (c : Pt) (ax : MirrorAxis), Apart 2 g.tol
      (g.poly.map (scaleAbout c (mirrorFactors ax).1 (mirrorFactors ax).2)).exterior :=
    fun c ax => apart_map (iso_mirror c ax) h9
  have hkey : ∀ (c : Pt) (ax : MirrorAxis) (cp cp' : Option Pt), ¬ Tie g.tol (2 * c.1) → ¬ Tie g.tol (2 * c.2) →
      (mkGeometry ops ((mkGeometry ops (g.poly.map (scaleAbout c (mirrorFactors ax).1 (mirrorFactors ax).2))
        g.material cp g.tol).poly.map (scaleAbout c (mirrorFactors ax).1 (mirrorFactors ax).2)) g.material cp' g.tol).poly
        = g.poly := by
    intro c ax cp cp' h1 h2
    have e1 := hmir g.poly c ax hb.onGrid h9 h1 h2 g.material cp
    have hgr := (mk_built ops (g.poly.map (scaleAbout c (mirrorFactors ax).1 (mirrorFactors ax).2))
      g.material cp g.tol).onGrid
    have hgr' : (mkGeometry ops (g.poly.map (scaleAbout c (mirrorFactors ax).1 (mirrorFactors ax).2))
      g.material cp g.tol).poly.OnGrid g.tol := hgr
    have hap : Apart 2 g.tol (mkGeometry ops (g.poly.map (scaleAbout c (mirrorFactors ax).1 (mirrorFactors ax).2))
      g.material cp g.tol).poly.exterior := by
      rw [e1]; exact hmirapart _ ax
    have e2 := hmir _ c ax hgr' hap h1 h2 g.material cp'
    rw [e2, e1, Poly.map_map]
    apply Poly.map_id'
    intro r _ q _
    exact mirror_mirror _ ax q
  refine ⟨fun a b hta htb => ?_, fun ax c h1 h2 => ?_, fun ax => ?_⟩
  · have hb1 : Built ops (g.shift ops a b) := mk_built ..
    have e1 := shift_poly_exact ops hb h9 hta htb
    have hap : Apart 2 (g.shift ops a b).tol (g.shift ops a b).poly.exterior := by
      rw [e1]; exact apart_map (iso_translate _ _) h9
    have e2 := shift_poly_exact ops hb1 hap (a := -a) (b := -b) (neg_not_tie hta) (neg_not_tie htb)
    refine Geometry.ext' (ops := ops) ?_ rfl ?_ rfl (mk_built ..) hb
    · have ht : (g.shift ops a b).tol = g.tol := rfl
      rw [e2, e1, ht, roundTo_neg hta, roundTo_neg htb, Poly.map_map]
      apply Poly.map_id'
      intro r _ q _
      ext <;> simp [translate]
    · change Option.map _ (Option.map _ _) = _
      rw [Option.map_map]
      cases g.assigned <;> simp [translate]
  · refine Geometry.ext' (ops := ops) (hkey c ax _ _ h1 h2) rfl ?_ rfl (mk_built ..) hb
    change Option.map _ (Option.map _ _) = _
    rw [Option.map_map]
    cases g.assigned <;> simp [mirror_mirror]
  · -- the centre stays where it is
    have hne := spread_ne_nil hs
    obtain ⟨_, ⟨p1, m1, q1⟩, ⟨p2, m2, q2⟩, ⟨p3, m3, q3⟩, ⟨p4, m4, q4⟩⟩ := ringBounds_spec hne
    have hr : g.poly.exterior ∈ g.poly.rings := by simp [Poly.rings]
    have o1 : OnGrid g.tol (2 * (boxCentre g.extents).1) := by
      have := (hb.onGrid _ hr _ m1).1.add (hb.onGrid _ hr _ m2).1
      rw [q1, q2] at this
      simpa [boxCentre, Geometry.extents, mul_div_cancel₀] using this
    have o2 : OnGrid g.tol (2 * (boxCentre g.extents).2) := by
      have := (hb.onGrid _ hr _ m3).2.add (hb.onGrid _ hr _ m4).2
      rw [q3, q4] at this
      simpa [boxCentre, Geometry.extents, mul_div_cancel₀] using this
    have t1 := not_tie_of_onGrid o1
    have t2 := not_tie_of_onGrid o2
    have e1 := hmir g.poly (boxCentre g.extents) ax hb.onGrid h9 t1 t2 g.material
      (g.assigned.map fun q => scaleAbout q (mirrorFactors ax).1 (mirrorFactors ax).2 q)
    rw [roundTo_of_onGrid o1, roundTo_of_onGrid o2] at e1
    have hc : boxCentre (g.mirror ops ax .center).extents = boxCentre g.extents := by
      have hm : (g.mirror ops ax .center).poly.exterior = g.poly.exterior.map
          (scaleAbout (boxCentre g.extents) (mirrorFactors ax).1 (mirrorFactors ax).2) := by
        have := congrArg Poly.exterior e1
        rw [Poly.map_exterior] at this
        refine this.trans ?_
        congr 1
        funext q
        simp [scaleAbout]
      rw [Geometry.extents, hm]
      set c := boxCentre g.extents with hcdef
      have hmono : Monotone fun x : ℝ => x := fun _ _ h => h
      cases ax
      · have e : (scaleAbout c (mirrorFactors .x).1 (mirrorFactors .x).2)
            = fun p : Pt => ((fun x => x) p.1, (fun y => 2 * c.2 - y) p.2) := by
          funext p; simp only [scaleAbout, mirrorFactors, Prod.mk.injEq]; constructor <;> ring
        rw [e, ringBounds_anti_snd hmono (fun x y h => sub_le_sub_left h _) hne]
        rw [hcdef]
        simp only [boxCentre, Geometry.extents, Prod.mk.injEq]
        refine ⟨trivial, ?_⟩
        ring
      · have e : (scaleAbout c (mirrorFactors .y).1 (mirrorFactors .y).2)
            = fun p : Pt => ((fun x => 2 * c.1 - x) p.1, (fun y => y) p.2) := by
          funext p; simp only [scaleAbout, mirrorFactors, Prod.mk.injEq]; constructor <;> ring
        rw [e, ringBounds_anti_fst (fun x y h => sub_le_sub_left h _) hmono hne]
        rw [hcdef]
        simp only [boxCentre, Geometry.extents, Prod.mk.injEq]
        refine ⟨?_, trivial⟩
        ring
      · have e : (scaleAbout c (mirrorFactors .other).1 (mirrorFactors .other).2) = id := by
          funext p; ext <;> simp [scaleAbout, mirrorFactors]
        rw [e, List.map_id]
        rfl
    refine Geometry.ext' (ops := ops) ?_ rfl ?_ rfl (mk_built ..) hb
    · have := hkey (boxCentre g.extents) ax
        (g.assigned.map fun q => scaleAbout q (mirrorFactors ax).1 (mirrorFactors ax).2 q)
        (Option.map (fun q => scaleAbout q (mirrorFactors ax).1 (mirrorFactors ax).2 q)
          (g.mirror ops ax .center).assigned) t1 t2
      have hm : (g.mirror ops ax .center).mirror ops ax .center
          = mkGeometry ops ((g.mirror ops ax .center).poly.map
              (scaleAbout (boxCentre (g.mirror ops ax .center).extents) (mirrorFactors ax).1 (mirrorFactors ax).2))
            g.material (Option.map (fun q => scaleAbout q (mirrorFactors ax).1 (mirrorFactors ax).2 q)
              (g.mirror ops ax .center).assigned) g.tol := rfl
      rw [hm, hc]
      exact this
    · change Option.map _ (Option.map _ _) = _
      rw [Option.map_map]
      cases g.assigned <;> simp [scaleAbout]

/-- Near vertices after a motion. -/
theorem near_move (ops : GeomOps) {p : Poly} {tol : ℕ} (h : Apart 2 tol p.exterior) {T U : Pt → Pt} (hT : Iso T)
    (hU : ∀ q, T q = U q) (m : Material) (cp : Option Pt) :
    NearRings tol ((mkGeometry ops (p.map T) m cp tol).poly.exterior :: (mkGeometry ops (p.map T) m cp tol).poly.interiors)
      ((p.exterior :: p.interiors).map (List.map U)) := by
  have e := move_poly ops h hT m cp
  have := nearRings_map tol (p.rings.map (List.map T))
  rw [List.map_map] at this
  have e2 : (mkGeometry ops (p.map T) m cp tol).poly.rings
      = p.rings.map (List.map (roundPt tol) ∘ List.map T) := by
    rw [e, Poly.map_rings]
    congr 1
    funext r
    simp [Function.comp_def]
  rw [← e2, show T = U from funext hU] at this
  rw [show T = U from funext hU]
  exact this

/-- **C42, what the motions do.** The vertices of the moved geometry are the images of the vertices under
the translation, the rotation (anticlockwise, by degrees or radians, about the point or about the centre
of the bounding box) or the reflection (`"x"`: at the horizontal line, `"y"`: at the vertical line
through the point), up to half a unit of the last decimal. -/
theorem C42_moves (ops : GeomOps) {g : Geometry} (hs : Spread g.tol g.poly.exterior) :
    let rings := fun h : Geometry => h.poly.exterior :: h.poly.interiors
    let rot := fun (c : Pt) (t : ℝ) (p : Pt) =>
      ((c.1 + ((p.1 - c.1) * Real.cos t - (p.2 - c.2) * Real.sin t),
        c.2 + ((p.1 - c.1) * Real.sin t + (p.2 - c.2) * Real.cos t)) : Pt)
    let centre : Pt := ((g.extents.1 + g.extents.2.1) / 2, (g.extents.2.2.1 + g.extents.2.2.2) / 2)
    (∀ a b, NearRings g.tol (rings (g.shift ops a b))
      ((rings g).map (List.map fun p => (p.1 + a, p.2 + b)))) ∧
    (∀ t c, NearRings g.tol (rings (g.rotate ops t (.point c) true)) ((rings g).map (List.map (rot c t)))) ∧
    (∀ t c, NearRings g.tol (rings (g.rotate ops t (.point c) false))
      ((rings g).map (List.map (rot c (t * Real.pi / 180))))) ∧
    (∀ t, NearRings g.tol (rings (g.rotate ops t .center true)) ((rings g).map (List.map (rot centre t)))) ∧
    (∀ t, NearRings g.tol (rings (g.rotate ops t .center false))
      ((rings g).map (List.map (rot centre (t * Real.pi / 180))))) ∧
    (∀ c, NearRings g.tol (rings (g.mirror ops .x (.point c)))
      ((rings g).map (List.map fun p => (p.1, 2 * c.2 - p.2)))) ∧
    (∀ c, NearRings g.tol (rings (g.mirror ops .y (.point c)))
      ((rings g).map (List.map fun p => (2 * c.1 - p.1, p.2)))) ∧
    NearRings g.tol (rings (g.mirror ops .x .center))
      ((rings g).map (List.map fun p => (p.1, 2 * centre.2 - p.2))) ∧
    NearRings g.tol (rings (g.mirror ops .y .center))
      ((rings g).map (List.map fun p => (2 * centre.1 - p.1, p.2))) := by
  intro rings rot centre
  have h9 : Apart 2 g.tol g.poly.exterior := (spread_apart hs).mono (by norm_num)
  have hx : ∀ (c q : Pt), scaleAbout c (mirrorFactors .x).1 (mirrorFactors .x).2 q = (q.1, 2 * c.2 - q.2) := by
    intro c q; simp only [scaleAbout, mirrorFactors, Prod.mk.injEq]; constructor <;> ring
  have hy : ∀ (c q : Pt), scaleAbout c (mirrorFactors .y).1 (mirrorFactors .y).2 q = (2 * c.1 - q.1, q.2) := by
    intro c q; simp only [scaleAbout, mirrorFactors, Prod.mk.injEq]; constructor <;> ring
  refine ⟨fun a b => ?_, fun t c => ?_, fun t c => ?_, fun t => ?_, fun t => ?_, fun c => ?_, fun c => ?_, ?_, ?_⟩
  · exact near_move ops h9 (iso_translate a b) (fun _ => rfl) _ _
  · exact near_move ops h9 (iso_rotate c _) (fun _ => rfl) _ _
  · exact near_move ops h9 (iso_rotate c _) (fun _ => rfl) _ _
  · exact near_move ops h9 (iso_rotate centre _) (fun _ => rfl) _ _
  · exact near_move ops h9 (iso_rotate centre _) (fun _ => rfl) _ _
  · exact near_move ops h9 (iso_mirror c .x) (hx c) _ _
  · exact near_move ops h9 (iso_mirror c .y) (hy c) _ _
  · exact near_move ops h9 (iso_mirror centre .x) (hx centre) _ _
  · exact near_move ops h9 (iso_mirror centre .y) (hy centre) _ _

/-- The square with a hole meets the hypotheses of these theorems. -/
theorem exFrame_geometry (m : Material) (cp : Option Pt) :
    Built exOps (mkGeometry exOps exFrame m cp 12) ∧
      Spread (mkGeometry exOps exFrame m cp 12).tol (mkGeometry exOps exFrame m cp 12).poly.exterior := by
  refine ⟨mk_built .., ?_⟩
  have e : (mkGeometry exOps exFrame m cp 12).poly = exFrame :=
    roundPoly_of_onGrid exFrame_onGrid ⟨(4, 0), by simp [exFrame], by simp⟩
  rw [e]
  exact ⟨(0, 0), by simp [exFrame], (4, 0), by simp [exFrame], by norm_num [mkGeometry]⟩

/-! ### Compounds -/

/-- A compound that came out of the constructor. -/
def CBuilt (ops : GeomOps) (c : Compound) : Prop :=
  (∀ g ∈ c.geoms, Built ops g) ∧ mkCompound ops c.geoms = .ok c

theorem mkCompound_built (ops : GeomOps) {gs : List Geometry} (h : ∀ g ∈ gs, Built ops g) :
    ∃ c, mkCompound ops gs = .ok c ∧ c.geoms = gs ∧ CBuilt ops c := by
  obtain ⟨c, h1, h2, _⟩ := C39_compile ops h
  exact ⟨c, h1, h2, by rw [CBuilt, h2]; exact ⟨h, h1⟩⟩

theorem mkCompound_map (ops : GeomOps) (gs : List Geometry) {f : Geometry → Geometry} (h : ∀ g, Built ops (f g)) :
    ∃ c, mkCompound ops (gs.map f) = .ok c ∧ c.geoms = gs.map f ∧ CBuilt ops c := by
  apply mkCompound_built
  intro g hg
  obtain ⟨g', _, rfl⟩ := List.mem_map.1 hg
  exact h g'

theorem rotate_built (ops : GeomOps) (g : Geometry) (t : ℝ) (o : Origin) (r : Bool) :
    Built ops (g.rotate ops t o r) := mk_built ..

theorem mirror_built (ops : GeomOps) (g : Geometry) (ax : MirrorAxis) (o : Origin) :
    Built ops (g.mirror ops ax o) := by
  cases o <;> exact mk_built ..

/-- **C42 for compounds.** Shifts, rotations (about a point, or about the centre of the common bounding
box) and reflections about a point move all parts together: the result exists and its parts are the moved
parts; and going back, or mirroring twice, returns the parts. -/
theorem C42_compound_partial (ops : GeomOps) {c : Compound} (hc : CBuilt ops c)
    (hs : ∀ g ∈ c.geoms, Spread g.tol g.poly.exterior) :
    (∀ a b, ∃ c1 c2, c.shift ops a b = .ok c1 ∧ c1.geoms = c.geoms.map (fun g => g.shift ops a b) ∧
      c1.shift ops (-a) (-b) = .ok c2 ∧ List.Forall₂ Same c2.geoms c.geoms) ∧
    (∀ t p rad, ∃ c1 c2, c.rotate ops t (.point p) rad = .ok c1 ∧
      c1.geoms = c.geoms.map (fun g => g.rotate ops t (.point p) rad) ∧
      c1.rotate ops (-t) (.point p) rad = .ok c2 ∧ List.Forall₂ Same c2.geoms c.geoms) ∧
    (∀ t rad, c.rotate ops t .center rad
      = c.rotate ops t (.point ((c.extents.1 + c.extents.2.1) / 2, (c.extents.2.2.1 + c.extents.2.2.2) / 2)) rad) ∧
    (∀ ax p, ∃ c1 c2, c.mirror ops ax (.point p) = .ok c1 ∧
      c1.geoms = c.geoms.map (fun g => g.mirror ops ax (.point p)) ∧
      c1.mirror ops ax (.point p) = .ok c2 ∧ List.Forall₂ Same c2.geoms c.geoms) := by
  have key : ∀ (f f' : Geometry → Geometry), (∀ g, Built ops (f g)) → (∀ g, Built ops (f' g)) →
      (∀ g ∈ c.geoms, Same (f' (f g)) g) →
      ∃ c1 c2, mkCompound ops (c.geoms.map f) = .ok c1 ∧ c1.geoms = c.geoms.map f ∧
        mkCompound ops (c1.geoms.map f') = .ok c2 ∧ List.Forall₂ Same c2.geoms c.geoms := by
    intro f f' hf hf' hinv
    obtain ⟨c1, h1, h2, _⟩ := mkCompound_map ops c.geoms hf
    obtain ⟨c2, h3, h4, _⟩ := mkCompound_map ops c1.geoms hf'
    refine ⟨c1, c2, h1, h2, h3, ?_⟩
    rw [h4, h2, List.map_map, List.forall₂_map_left_iff, List.forall₂_same]
    exact hinv
  refine ⟨fun a b => ?_, fun t p rad => ?_, fun t rad => rfl, fun ax p => ?_⟩
  · exact key _ _ (fun _ => mk_built ..) (fun _ => mk_built ..)
      fun g hg => (C42_shift ops (hc.1 g hg) (hs g hg) a b 0 0).2
  · exact key (fun g => g.rotate ops t (.point p) rad) (fun g => g.rotate ops (-t) (.point p) rad)
      (fun _ => mk_built ..) (fun _ => mk_built ..)
      fun g hg => (C42_rotate ops (hc.1 g hg) (hs g hg) t 0 p rad).2
  · exact key _ _ (fun _ => mirror_built ..) (fun _ => mirror_built ..)
      fun g hg => C42_mirror ops (hc.1 g hg) (hs g hg) ax p

/-- Two rectangles of different heights next to each other. -/
def exRect1 : Poly := ⟨[(0, 0), (1, 0), (1, 1), (0, 1)], []⟩
/-- The second rectangle. -/
def exRect2 : Poly := ⟨[(2, 0), (3, 0), (3, 2), (2, 2)], []⟩

/-- A polygon on the grid, not all at the origin, is kept by the constructor. -/
theorem mk_poly (ops : GeomOps) {p : Poly} {tol : ℕ} (h : p.OnGrid tol) (h0 : ∃ q ∈ p.exterior, q ≠ (0, 0))
    (m : Material) (cp : Option Pt) : (mkGeometry ops p m cp tol).poly = p := roundPoly_of_onGrid h h0

/-- Polygons with natural number coordinates are on every grid. -/
theorem onGrid_nat {p : Poly} (tol : ℕ) (h : ∀ r ∈ p.rings, ∀ q ∈ r, ∃ a b : ℕ, q = ((a : ℝ), (b : ℝ))) : p.OnGrid tol := by
  intro r hr q hq
  obtain ⟨a, b, rfl⟩ := h r hr q hq
  exact ⟨OnGrid.natCast tol a, OnGrid.natCast tol b⟩

theorem exRect1_onGrid : exRect1.OnGrid 12 := by
  apply onGrid_nat
  intro r hr q hq
  simp only [Poly.rings, exRect1, List.mem_cons, List.not_mem_nil, or_false] at hr
  subst hr
  simp only [List.mem_cons, List.not_mem_nil, or_false] at hq
  rcases hq with rfl | rfl | rfl | rfl
  exacts [⟨0, 0, by simp⟩, ⟨1, 0, by simp⟩, ⟨1, 1, by simp⟩, ⟨0, 1, by simp⟩]

theorem exRect2_onGrid : exRect2.OnGrid 12 := by
  apply onGrid_nat
  intro r hr q hq
  simp only [Poly.rings, exRect2, List.mem_cons, List.not_mem_nil, or_false] at hr
  subst hr
  simp only [List.mem_cons, List.not_mem_nil, or_false] at hq
  rcases hq with rfl | rfl | rfl | rfl
  exacts [⟨2, 0, by simp⟩, ⟨3, 0, by simp⟩, ⟨3, 2, by simp⟩, ⟨2, 2, by simp⟩]

theorem exRect1_poly (m : Material) : (mkGeometry exOps exRect1 m none 12).poly = exRect1 :=
  mk_poly _ exRect1_onGrid ⟨(1, 0), by simp [exRect1], by simp⟩ _ _

theorem exRect2_poly (m : Material) : (mkGeometry exOps exRect2 m none 12).poly = exRect2 :=
  mk_poly _ exRect2_onGrid ⟨(2, 0), by simp [exRect2], by simp⟩ _ _

/-- The hypotheses of `C42_compound_partial` are met by two rectangles. -/
theorem exPair (m : Material) : ∃ c, mkCompound exOps
    [mkGeometry exOps exRect1 m none 12, mkGeometry exOps exRect2 m none 12] = .ok c ∧
    c.geoms = [mkGeometry exOps exRect1 m none 12, mkGeometry exOps exRect2 m none 12] ∧ CBuilt exOps c ∧
    ∀ g ∈ c.geoms, Spread g.tol g.poly.exterior := by
  obtain ⟨c, h1, h2, h3⟩ := mkCompound_built exOps
    (gs := [mkGeometry exOps exRect1 m none 12, mkGeometry exOps exRect2 m none 12]) (by
      intro g hg
      simp only [List.mem_cons, List.not_mem_nil, or_false] at hg
      rcases hg with rfl | rfl <;> exact mk_built ..)
  refine ⟨c, h1, h2, h3, ?_⟩
  rw [h2]
  intro g hg
  simp only [List.mem_cons, List.not_mem_nil, or_false] at hg
  rcases hg with rfl | rfl
  · rw [exRect1_poly]
    exact ⟨(0, 0), by simp [exRect1], (1, 0), by simp [exRect1], by norm_num [mkGeometry]⟩
  · rw [exRect2_poly]
    exact ⟨(2, 0), by simp [exRect2], (3, 0), by simp [exRect2], by norm_num [mkGeometry]⟩

/-- **C42 is violated** by mirroring a compound about its centre: the parts stay in place and are mirrored
each about its own centre.  Two rectangles, `[0, 1] × [0, 1]` and `[2, 3] × [0, 2]`: the mirror image of the
vertex `(3, 2)` at the vertical line through the centre of the compound is not near any point of the
result. -/
theorem C42_compound_violated : ∃ (ops : GeomOps) (c c' : Compound), CBuilt ops c ∧
    (∀ g ∈ c.geoms, Spread g.tol g.poly.exterior) ∧ c.mirror ops .y .center = .ok c' ∧
    ∃ p ∈ c.points, ∀ q ∈ c'.points, ¬ OneUnit 12 (c.extents.1 + c.extents.2.1 - p.1, p.2) q := by
  obtain ⟨c, h1, h2, h3, h4⟩ := exPair defaultMaterial
  obtain ⟨c', h5, h6, h7⟩ := mkCompound_map exOps c.geoms (f := fun g => g.mirror exOps .y .center)
    (fun g => mirror_built ..)
  refine ⟨exOps, c, c', h3, h4, h5, (3, 2), ?_, ?_⟩
  · obtain ⟨c0, e1, _, _, e2, _⟩ := C39_compile exOps h3.1
    rw [h3.2] at e1
    obtain rfl := Except.ok.inj e1
    rw [e2, h2]
    refine ⟨_, List.mem_cons_of_mem _ (List.mem_cons_self ..), ?_⟩
    rw [(mk_built ..).points, exRect2_poly]
    simp [Poly.rings, exRect2]
  · have hext : c.extents = (0, 3, 0, 2) := by
      rw [Compound.extents, h2]
      simp only [List.flatMap_cons, List.flatMap_nil, exRect1_poly, exRect2_poly]
      simp [exRect1, exRect2, ringBounds, runMin, runMax]
      norm_num
    intro q hq
    obtain ⟨c0, e1, _, _, e2, _⟩ := C39_compile exOps h7.1
    rw [h7.2] at e1
    obtain rfl := Except.ok.inj e1
    rw [e2, h6, h2] at hq
    have hm1 : ((mkGeometry exOps exRect1 defaultMaterial none 12).mirror exOps .y .center).poly = exRect1.map fun p => (1 - p.1, p.2) := by
      have e : exRect1.map (scaleAbout (boxCentre (mkGeometry exOps exRect1 defaultMaterial none 12).extents) (-1) 1)
          = exRect1.map fun p => (1 - p.1, p.2) := by
        rw [Geometry.extents, exRect1_poly]
        apply Poly.map_congr
        intro r _ q _
        simp only [exRect1, ringBounds, boxCentre, runMin, runMax, scaleAbout]
        ext <;> simp
        ring
      have e' : (mkGeometry exOps exRect1 defaultMaterial none 12).mirror exOps .y .center
          = mkGeometry exOps ((mkGeometry exOps exRect1 defaultMaterial none 12).poly.map
            (scaleAbout (boxCentre (mkGeometry exOps exRect1 defaultMaterial none 12).extents) (-1) 1)) defaultMaterial none 12 := rfl
      rw [e', exRect1_poly, e]
      apply mk_poly
      · apply onGrid_nat
        intro r hr q hq
        rw [Poly.map_rings] at hr
        simp only [Poly.rings, exRect1, List.map_cons, List.map_nil, List.mem_cons, List.not_mem_nil, or_false] at hr
        subst hr
        simp only [List.mem_cons, List.not_mem_nil, or_false] at hq
        rcases hq with rfl | rfl | rfl | rfl
        exacts [⟨1, 0, by simp⟩, ⟨0, 0, by simp⟩, ⟨0, 1, by simp⟩, ⟨1, 1, by simp⟩]
      · exact ⟨(1, 0), by simp [exRect1, Poly.map], by simp⟩
    have hm2 : ((mkGeometry exOps exRect2 defaultMaterial none 12).mirror exOps .y .center).poly = exRect2.map fun p => (5 - p.1, p.2) := by
      have e : exRect2.map (scaleAbout (boxCentre (mkGeometry exOps exRect2 defaultMaterial none 12).extents) (-1) 1)
          = exRect2.map fun p => (5 - p.1, p.2) := by
        rw [Geometry.extents, exRect2_poly]
        apply Poly.map_congr
        intro r _ q _
        simp only [exRect2, ringBounds, boxCentre, runMin, runMax, scaleAbout]
        ext <;> simp
        ring
      have e' : (mkGeometry exOps exRect2 defaultMaterial none 12).mirror exOps .y .center
          = mkGeometry exOps ((mkGeometry exOps exRect2 defaultMaterial none 12).poly.map
            (scaleAbout (boxCentre (mkGeometry exOps exRect2 defaultMaterial none 12).extents) (-1) 1)) defaultMaterial none 12 := rfl
      rw [e', exRect2_poly, e]
      apply mk_poly
      · apply onGrid_nat
        intro r hr q hq
        rw [Poly.map_rings] at hr
        simp only [Poly.rings, exRect2, List.map_cons, List.map_nil, List.mem_cons, List.not_mem_nil, or_false] at hr
        subst hr
        simp only [List.mem_cons, List.not_mem_nil, or_false] at hq
        rcases hq with rfl | rfl | rfl | rfl
        exacts [⟨3, 0, by norm_num⟩, ⟨2, 0, by norm_num⟩, ⟨2, 2, by norm_num⟩, ⟨3, 2, by norm_num⟩]
      · refine ⟨(3, 0), ?_, by simp⟩
        simp only [exRect2, Poly.map, List.map_cons, List.mem_cons, Prod.mk.injEq]
        left; norm_num
    rw [hext]
    obtain ⟨g, hg, hq⟩ := hq
    simp only [List.map_cons, List.map_nil, List.mem_cons, List.not_mem_nil, or_false] at hg
    rintro ⟨d1, d2⟩
    simp only at d1 d2
    rw [abs_le] at d1 d2
    rcases hg with rfl | rfl
    · rw [(mirror_built ..).points, hm1, Poly.map_rings] at hq
      simp only [Poly.rings, exRect1, List.map_cons, List.map_nil, List.flatten_cons, List.flatten_nil, List.append_nil,
        List.mem_cons, List.not_mem_nil, or_false] at hq
      rcases hq with rfl | rfl | rfl | rfl <;>
        first | (norm_num at d1; done) | (norm_num at d2; done)
    · rw [(mirror_built ..).points, hm2, Poly.map_rings] at hq
      simp only [Poly.rings, exRect2, List.map_cons, List.map_nil, List.flatten_cons, List.flatten_nil, List.append_nil,
        List.mem_cons, List.not_mem_nil, or_false] at hq
      rcases hq with rfl | rfl | rfl | rfl <;>
        (norm_num at d1)

end SP
