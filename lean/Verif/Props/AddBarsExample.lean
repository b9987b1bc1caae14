import Verif.Props.AddBars

/-!
# C85: examples, and a violation
-/

namespace SP

open Spec MeasureTheory

/-- Region of a polygon with convex exterior and convex holes. -/
def punchedReg (p : Poly) : Set Pt := convexHull ℝ {v | v ∈ p.exterior} \ {q | ∃ r ∈ p.interiors, q ∈ convexHull ℝ {v | v ∈ r}}

/-- Shapely on polygons inside of others: what is subtracted becomes a hole. -/
noncomputable def exCut : OverlayOps where
  union ps qs := .multi (ps ++ qs)
  symDiff ps qs := .multi (ps ++ qs)
  diff ps qs := match ps with
    | [p] => if p.exterior = [] then .polygon ⟨[], []⟩ else .polygon ⟨p.exterior, p.interiors ++ qs.map (·.exterior)⟩
    | _ => .other
  inter ps qs := .multi (ps ++ qs)
  contains _ _ := true

/-- Polygons with 12 decimals. -/
def exKind (p : Poly) : Prop := p = ⟨[], []⟩ ∨
  (∀ r ∈ p.exterior :: p.interiors, ∀ v ∈ r, OnGrid 12 v.1 ∧ OnGrid 12 v.2) ∧ ∃ v ∈ p.exterior, v ≠ (0, 0)

/-- Polygons with 12 decimals without holes. -/
def exBarKind (p : Poly) : Prop := p.interiors = [] ∧ exKind p

theorem exCut_exactly : CutsExactly exKind exBarKind punchedReg exCut where
  empty := by simp [punchedReg]
  nothing := Or.inl rfl
  bars _ h := h.2
  grid _ h := h
  diff p qs hp hq := by
    by_cases he : p.exterior = []
    · have e : exCut.diff [p] qs = .polygon ⟨[], []⟩ := by simp [exCut, he]
      rw [e]
      refine ⟨nofun, ⟨?_, fun q hq => ?_⟩, List.pairwise_singleton ..⟩
      · have : punchedReg p = ∅ := by simp [punchedReg, he]
        rw [this, Set.empty_sdiff]
        have : covered punchedReg (overlayPolys (.polygon ⟨[], []⟩)) = ∅ := by ext; simp [covered, overlayPolys, punchedReg]
        rw [this]
        exact ae_eq_refl _
      · rw [overlayPolys, List.mem_singleton] at hq
        exact Or.inl hq
    · have e : exCut.diff [p] qs = .polygon ⟨p.exterior, p.interiors ++ qs.map (·.exterior)⟩ := by simp [exCut, he]
      rw [e]
      refine ⟨nofun, ⟨?_, fun q hq' => ?_⟩, List.pairwise_singleton ..⟩
      · have : covered punchedReg (overlayPolys (.polygon ⟨p.exterior, p.interiors ++ qs.map (·.exterior)⟩))
            = punchedReg p \ covered punchedReg qs := by
          have hcov : covered punchedReg qs = {v | ∃ r ∈ qs.map (·.exterior), v ∈ convexHull ℝ {w | w ∈ r}} := by
            ext v
            simp only [covered, Set.mem_ofPred_eq, List.mem_map, exists_exists_and_eq_and]
            refine exists_congr fun q => and_congr_right fun hm => ?_
            simp [punchedReg, (hq q hm).1]
          rw [hcov, overlayPolys, covered_one]
          ext v
          simp only [punchedReg, Set.mem_sdiff, Set.mem_ofPred_eq, List.mem_append]
          constructor
          · rintro ⟨h1, h2⟩
            exact ⟨⟨h1, fun ⟨r, hr, hv⟩ => h2 ⟨r, Or.inl hr, hv⟩⟩, fun ⟨r, hr, hv⟩ => h2 ⟨r, Or.inr hr, hv⟩⟩
          · rintro ⟨⟨h1, h2⟩, h3⟩
            exact ⟨h1, fun ⟨r, hr, hv⟩ => hr.elim (fun hr => h2 ⟨r, hr, hv⟩) fun hr => h3 ⟨r, hr, hv⟩⟩
        rw [this]
        exact ae_eq_refl _
      · rw [overlayPolys, List.mem_singleton] at hq'
        subst hq'
        rcases hp with rfl | ⟨h1, h2⟩
        · exact absurd rfl he
        · refine Or.inr ⟨?_, h2⟩
          intro r hr v hv
          rcases List.mem_cons.1 hr with rfl | hr
          · exact h1 _ (List.mem_cons_self ..) v hv
          · rcases List.mem_append.1 hr with hr | hr
            · exact h1 r (List.mem_cons_of_mem _ hr) v hv
            · obtain ⟨q, hm, rfl⟩ := List.mem_map.1 hr
              rcases (hq q hm).2 with rfl | ⟨k1, _⟩
              · simp at hv
              · exact k1 _ (List.mem_cons_self ..) v hv

/-- The polygons of all geometries are of this kind. -/
theorem built_kind {ops : GeomOps} (p : Poly) (m : Material) (cp : Option Pt) : exKind (mkGeometry ops p m cp 12).poly := by
  by_cases h : ∀ q ∈ p.exterior.map (roundPt 12), q = (0, 0)
  · left; exact if_pos h
  · right
    refine ⟨roundPoly_onGrid 12 p, ?_⟩
    have e : (mkGeometry ops p m cp 12).poly = p.map (roundPt 12) := if_neg h
    rw [e]
    push Not at h
    exact h

theorem bar_kind (ops : GeomOps) {area : ℝ} (ha : 1 / 10 ^ 20 < area) {n : ℕ} (hn : 3 ≤ n) (m : Material) (x y : ℝ) :
    exBarKind (barAt ops area n m x y).poly := ⟨by rw [barAt_poly ops ha hn], built_kind _ _ _⟩

theorem exMaterials_ne : exConcrete ≠ exSteel := by
  intro h
  have := congrArg Material.elasticModulus h
  norm_num [exSteel, exConcrete] at this

/-- `C85_add_bar` and `C85_add_bars_partial` apply to a square. -/
example := C85_add_bar exOps exCut_exactly (s := .single (rectangularSection exOps 10 10 exConcrete)) (area := 2) (x := 3) (y := 4)
  (n := 4) (m := exSteel) (mk_built ..) (good_single (mk_built exOps _ _ _ _) rfl (built_kind _ _ _)).2 (by norm_num) (by norm_num)
  (bar_kind _ (by norm_num) (by norm_num) ..)

example := C85_add_bars_partial exOps exCut_exactly (s := .single (rectangularSection exOps 10 10 exConcrete)) (area := 2)
  (xs := [3, 6]) (ys := [4, 4, 5]) (n := 4) (m := exSteel) (mk_built ..)
  (good_single (mk_built exOps _ _ _ _) rfl (built_kind _ _ _)).2 (by norm_num) (by norm_num)
  (fun _ _ => bar_kind _ (by norm_num) (by norm_num) ..)

/-- `C85_column`: a column with 3 by 6 bars. -/
example := C85_column exOps exCut_exactly (d := 600) (b := 300) (dia := 25) (area := 500) (cover := 35) (nX := 3) (nY := 6)
  (nCircle := 4) (filled := false) exMaterials_ne (by norm_num) (by norm_num) (by norm_num) (by norm_num) (built_kind _ _ _)

/-- `C85_circular`: a column with 7 bars. -/
example := C85_circular exOps exCut_exactly (d := 600) (areaConc := 280000) (dia := 20) (area := 310) (cover := 45) (nConc := 64)
  (nBar := 7) (nCircle := 4) exMaterials_ne (by norm_num) (by norm_num) (by norm_num) (built_kind _ _ _)

theorem pair_kind (ops : GeomOps) {area : ℝ} (ha : 1 / 10 ^ 20 < area) {n : ℕ} (hn : 3 ≤ n) (m : Material) (x y a : ℝ) :
    exBarKind (barAt ops area n m x y).poly ∧ exBarKind ((barAt ops area n m x y).shift ops a 0).poly :=
  ⟨bar_kind ops ha hn m x y, (barRight_isBar ops ha hn m x y a).solid, built_kind _ _ _⟩

/-- `C85_rectangular_partial` and `C85_tee_partial`: beams with top, bottom and side bars. -/
example := C85_rectangular_partial exOps exCut_exactly (d := 600) (b := 300) (diaTop := 16) (areaTop := 200) (nTop := 3) (cTop := 32)
  (diaBot := 20) (areaBot := 310) (nBot := 3) (cBot := 42) (diaSide := some 12) (areaSide := some 110) (nSide := 3) (cSide := 57)
  (nCircle := 16) rfl exMaterials_ne (by norm_num) (by norm_num) (by intro a h _; obtain rfl := Option.some.inj h; norm_num)
  (by norm_num) (by norm_num) (built_kind _ _ _) (fun _ _ => bar_kind _ (by norm_num) (by norm_num) ..)
  (fun _ _ => bar_kind _ (by norm_num) (by norm_num) ..) (fun _ _ _ => pair_kind _ (by norm_num) (by norm_num) ..)

example := C85_tee_partial exOps exCut_exactly (d := 900) (b := 300) (dF := 150) (bF := 1200) (diaTop := 24) (areaTop := 450)
  (nTop := 8) (cTop := 30) (diaBot := 28) (areaBot := 620) (nBot := 3) (cBot := 42) (diaSide := some 12) (areaSide := some 110)
  (nSide := 4) (cSide := 42) (nCircle := 16) rfl exMaterials_ne (by norm_num) (by norm_num)
  (by intro a h _; obtain rfl := Option.some.inj h; norm_num) (by norm_num) (fun _ _ => bar_kind _ (by norm_num) (by norm_num) ..)
  (fun _ _ => bar_kind _ (by norm_num) (by norm_num) ..) (fun _ _ _ => pair_kind _ (by norm_num) (by norm_num) ..)

/-! ### Overlapping bars -/

theorem exWall_bars : rectangularWallBars 6 4 2 2 1 true = .ok [(2, 2), (2, 2), (2, 4), (2, 4)] := by
  have h1 : wallRun 2 (6 - 2 * 1 - 2) (1 + 1 / 2 * 2) (6 - 1 - 1 / 2 * 2) = .ok [2, 4] := by
    have hc : ⌈((6 : ℝ) - 2 * 1 - 2) / 2⌉ = 1 := by
      rw [show ((6 : ℝ) - 2 * 1 - 2) / 2 = ((1 : ℤ) : ℝ) by norm_num, Int.ceil_intCast]
    rw [wallRun, if_neg (by norm_num), hc, linspace, if_neg (by norm_num)]
    simp [List.range_succ]
    norm_num
  rw [rectangularWallBars, h1]
  simp [bind, Except.bind, pure, Except.pure, gridYX]
  norm_num

theorem exWall_poly (m : Material) : (barAt exOps 2 4 m 2 2).poly = ⟨[(3, 2), (2, 3), (1, 2), (2, 1)], []⟩ := by
  have hD : diameterOf 2 4 = 2 := by
    obtain ⟨h1, h2⟩ := diameterOf_sq (a := 2) (by norm_num) (n := 4) (by norm_num)
    rw [show 2 * Real.pi / ((4 : ℕ) : ℝ) = Real.pi / 2 by push_cast; ring, Real.sin_pi_div_two] at h2
    push_cast at h2
    nlinarith
  have hpts : ellipsePts 2 2 4 = [(1, 0), (0, 1), (-1, 0), (0, -1)] := by
    have c3 : Real.cos (3 * 2 * Real.pi / 4) = 0 := by
      rw [show 3 * 2 * Real.pi / 4 = Real.pi / 2 + Real.pi by ring, Real.cos_add_pi, Real.cos_pi_div_two, neg_zero]
    have s3 : Real.sin (3 * 2 * Real.pi / 4) = -1 := by
      rw [show 3 * 2 * Real.pi / 4 = Real.pi / 2 + Real.pi by ring, Real.sin_add_pi, Real.sin_pi_div_two]
    have c2 : 2 * 2 * Real.pi / 4 = Real.pi := by ring
    have c1 : 2 * Real.pi / 4 = Real.pi / 2 := by ring
    simp [ellipsePts, List.range_succ, c1, c2, c3, s3]
  have hr : ∀ a b : ℤ, roundPt 12 ((a : ℝ), (b : ℝ)) = ((a : ℝ), (b : ℝ)) := fun a b =>
    roundPt_of_onGrid ⟨⟨a * 10 ^ 12, by push_cast; field_simp; norm_num⟩, ⟨b * 10 ^ 12, by push_cast; field_simp; norm_num⟩⟩
  have h1 := hr 1 0
  have h2 := hr 0 1
  have h3 := hr (-1) 0
  have h4 := hr 0 (-1)
  have k1 := hr 3 2
  have k2 := hr 2 3
  have k3 := hr 1 2
  have k4 := hr 2 1
  push_cast at h1 h2 h3 h4 k1 k2 k3 k4
  rw [barAt_poly exOps (by norm_num) (by norm_num), hD, hpts]
  simp only [List.map_cons, List.map_nil, h1, h2, h3, h4, translate]
  norm_num [k1, k2, k3, k4]

theorem exWall_region : volume (punchedReg ⟨[(3, 2), (2, 3), (1, 2), (2, 1)], []⟩) ≠ 0 := by
  have hsub : Set.Icc (7 / 4 : ℝ) (9 / 4) ×ˢ Set.Icc (7 / 4 : ℝ) (9 / 4) ⊆ punchedReg ⟨[(3, 2), (2, 3), (1, 2), (2, 1)], []⟩ := by
    rintro ⟨a, b⟩ ⟨⟨a1, a2⟩, ⟨b1, b2⟩⟩
    simp only at a1 a2 b1 b2
    refine ⟨?_, by simp⟩
    rw [mem_convexHull_iff]
    intro t ht hct
    have v1 : ((3, 2) : Pt) ∈ t := ht (by simp)
    have v2 : ((2, 3) : Pt) ∈ t := ht (by simp)
    have v3 : ((1, 2) : Pt) ∈ t := ht (by simp)
    have v4 : ((2, 1) : Pt) ∈ t := ht (by simp)
    have p : ((2 * a - 2, 2) : Pt) ∈ t := by
      have := hct v1 v3 (a := 1 / 2 + (a - 2)) (b := 1 / 2 - (a - 2)) (by linarith) (by linarith) (by ring)
      simp only [Prod.smul_mk, Prod.mk_add_mk, smul_eq_mul] at this
      convert this using 2 <;> ring
    have q : ((2, 2 * b - 2) : Pt) ∈ t := by
      have := hct v2 v4 (a := 1 / 2 + (b - 2)) (b := 1 / 2 - (b - 2)) (by linarith) (by linarith) (by ring)
      simp only [Prod.smul_mk, Prod.mk_add_mk, smul_eq_mul] at this
      convert this using 2 <;> ring
    have := hct p q (a := 1 / 2) (b := 1 / 2) (by norm_num) (by norm_num) (by norm_num)
    simp only [Prod.smul_mk, Prod.mk_add_mk, smul_eq_mul] at this
    convert this using 2 <;> ring
  intro h0
  have := measure_mono_null hsub h0
  rw [Measure.volume_eq_prod, Measure.prod_prod] at this
  simp only [Real.volume_Icc, mul_eq_zero, ENNReal.ofReal_eq_zero] at this
  norm_num at this

/-- **C85 is violated** by `rectangular_wall` (and `add_bars`) if bars overlap.  With `double=True` and a wall no thicker than the two
covers and a bar, the two curtains of bars coincide, and each bar becomes two parts at the same place: although shapely subtracts
exactly, and the bars are all as requested, the steel is counted twice. -/
theorem C85_wall_violated : ∃ (ops : GeomOps) (ov : OverlayOps) (G K : Poly → Prop) (reg : Poly → Set Pt)
    (conc steel : Material) (r : Shape), CutsExactly G K reg ov ∧ conc ≠ steel ∧
    G (rectangularSection ops 6 4 conc).poly ∧
    (∀ p ∈ ([(2, 2), (2, 2), (2, 4), (2, 4)] : List Pt), K (barAt ops 2 4 steel p.1 p.2).poly) ∧
    rectangularWall ops ov 6 4 2 2 2 1 true 4 conc steel = .ok r ∧ ¬ PartsApart reg r := by
  have hK : ∀ p ∈ ([(2, 2), (2, 2), (2, 4), (2, 4)] : List Pt), exBarKind (barAt exOps 2 4 exSteel p.1 p.2).poly :=
    fun p _ => bar_kind exOps (by norm_num) (by norm_num) ..
  have hG : exKind (rectangularSection exOps 6 4 exConcrete).poly := built_kind _ _ _
  obtain ⟨b, b1, b2, b3⟩ := mkCompound_built exOps (gs := ([(2, 2), (2, 2), (2, 4), (2, 4)] : List Pt).map fun p =>
    barAt exOps 2 4 exSteel p.1 p.2) (by
    intro g hg
    obtain ⟨p, _, rfl⟩ := List.mem_map.1 hg
    exact mk_built ..)
  obtain ⟨c, rest, h1, _, h3, _⟩ := cutIn_good exOps exCut_exactly (s := .single (rectangularSection exOps 6 4 exConcrete))
    (b := .compound b) (good_single (mk_built ..) rfl hG) ⟨b3, (by
    intro g hg
    rw [Shape.parts, b2] at hg
    obtain ⟨p, hp, rfl⟩ := List.mem_map.1 hg
    exact ⟨rfl, hK p hp⟩)⟩ (steel := exSteel) (by
    intro g hg
    rw [Shape.parts, b2] at hg
    obtain ⟨p, _, rfl⟩ := List.mem_map.1 hg
    rfl)
  refine ⟨exOps, exCut, exKind, exBarKind, punchedReg, exConcrete, exSteel, .compound c, exCut_exactly, exMaterials_ne, hG, hK, ?_, ?_⟩
  · simp only [rectangularWall, exWall_bars, bind, Except.bind, addBars, List.map_cons, List.map_nil, List.zip_cons_cons,
      List.zip_nil_left]
    simp only [List.map_cons, List.map_nil] at b1
    rw [b1]
    exact h1
  · intro hp
    rw [PartsApart, Shape.parts, h3, Shape.parts, b2, List.pairwise_append] at hp
    have h := hp.2.1
    simp only [List.map_cons, List.pairwise_cons] at h
    have := h.1 _ (List.mem_cons_self ..)
    rw [exWall_poly, Set.inter_self] at this
    exact exWall_region this

/-- A bar of area 2 with 4 vertices stays within 2 above and below its centre. -/
theorem exBar_within {m : Material} {x y : ℝ} {g : Geometry} (h : IsBar 1 m 4 2 x y g) :
    punchedReg g.poly ⊆ {q : Pt | y - 3 / 2 < q.2 ∧ q.2 < y + 3 / 2} := by
  obtain ⟨r, r0, hr, hl, hv⟩ := h.vertices
  rw [show 2 * Real.pi / ((4 : ℕ) : ℝ) = Real.pi / 2 by push_cast; ring, Real.sin_pi_div_two] at hr
  push_cast at hr
  have r1 : r = 1 := by nlinarith
  subst r1
  have hconv : Convex ℝ {q : Pt | y - 3 / 2 < q.2 ∧ q.2 < y + 3 / 2} := by
    intro p hp q hq a b ha hb hab
    obtain ⟨p1, p2⟩ := hp
    obtain ⟨q1, q2⟩ := hq
    have hb' : b = 1 - a := by linarith
    subst hb'
    simp only [Set.mem_ofPred_eq, Prod.snd_add, Prod.smul_snd, smul_eq_mul]
    rcases ha.eq_or_lt with rfl | ha
    · constructor <;> linarith
    · constructor <;> nlinarith
  refine fun q hq => convexHull_min (fun v hv' => ?_) hconv hq.1
  obtain ⟨i, hi, rfl⟩ := List.getElem_of_mem hv'
  obtain ⟨p, hp, _, h2⟩ := hv i (by omega)
  rw [List.getElem?_eq_getElem hi] at hp
  rw [Option.some.inj hp]
  obtain ⟨k1, k2⟩ := abs_le.1 h2
  have s1 := Real.sin_le_one (2 * Real.pi * i / (4 : ℕ))
  have s2 := Real.neg_one_le_sin (2 * Real.pi * i / (4 : ℕ))
  have e : (1 : ℝ) / 10 ^ 12 < 1 / 4 := by norm_num
  exact ⟨by linarith, by linarith⟩

theorem exWall8_bars : rectangularWallBars 8 4 2 4 1 false = .ok [(2, 2), (2, 6)] := by
  have h1 : wallRun 4 (8 - 2 * 1 - 2) (1 + 1 / 2 * 2) (8 - 1 - 1 / 2 * 2) = .ok [2, 6] := by
    have hc : ⌈((8 : ℝ) - 2 * 1 - 2) / 4⌉ = 1 := by
      rw [show ((8 : ℝ) - 2 * 1 - 2) / 4 = ((1 : ℤ) : ℝ) by norm_num, Int.ceil_intCast]
    rw [wallRun, if_neg (by norm_num), hc, linspace, if_neg (by norm_num)]
    simp [List.range_succ]
    norm_num
  rw [rectangularWallBars, h1]
  simp [bind, Except.bind, pure, Except.pure, gridYX]
  norm_num

/-- `C85_wall_partial` with bars that do not overlap: a longer wall with one curtain is reinforced as it should be. -/
example : ∃ r bars, rectangularWall exOps exCut 8 4 2 2 4 1 false 4 exConcrete exSteel = .ok r ∧
    List.Forall₂ (fun p g => IsBar 1 exSteel 4 2 p.1 p.2 g) [(2, 2), (2, 6)] bars ∧
    Reinforced punchedReg exConcrete exSteel (.single (rectangularSection exOps 8 4 exConcrete)) bars r := by
  obtain ⟨r, bars, h1, h2, _, h3, h4⟩ := C85_wall_partial exOps exCut_exactly (nCircle := 4) exMaterials_ne
    (area := 2) (by norm_num) (by norm_num) (built_kind _ _ _) exWall8_bars (fun _ _ => bar_kind exOps (by norm_num) (by norm_num) ..)
  refine ⟨r, bars, h1, h2, h3.inConcrete, h3.inSteel, h3.nothingElse, h4 ?_⟩
  match bars, h2 with
  | [a, b], .cons ha (.cons hb .nil) =>
    refine List.pairwise_pair.2 ?_
    have : punchedReg a.poly ∩ punchedReg b.poly = ∅ := by
      refine Set.eq_empty_of_forall_notMem fun q hq => ?_
      have k1 := (exBar_within ha hq.1).2
      have k2 := (exBar_within hb hq.2).1
      norm_num at k1 k2
      linarith
    rw [this, measure_empty]

end SP
