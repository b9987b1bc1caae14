import Verif.Lemmas.Pieces
import Verif.Props.Inertia
import Mathlib.MeasureTheory.Integral.DominatedConvergence

/-!
# C34, C35 (first part), C36: plastic axis and plastic moment
-/

namespace SP

open MeasureTheory Spec

/-! ### C36 -/

/-- **C36**: for every angle and every non-empty list of points, the extreme fibres are the smallest and
the largest value of the rotated coordinates, attained by points. -/
theorem C36_extreme_fibres (angle : ℝ) (points : List (ℝ × ℝ)) (hne : points ≠ []) :
    ∃ umin umax vmin vmax, extremeFibres angle points = .ok (umin, umax, vmin, vmax) ∧
      IsLeast {c | ∃ q ∈ points, c = rotX angle q.1 q.2} umin ∧
      IsGreatest {c | ∃ q ∈ points, c = rotX angle q.1 q.2} umax ∧
      IsLeast {c | ∃ q ∈ points, c = rotY angle q.1 q.2} vmin ∧
      IsGreatest {c | ∃ q ∈ points, c = rotY angle q.1 q.2} vmax := by
  cases points with
  | nil => exact absurd rfl hne
  | cons p ps =>
    have e1 : {c | ∃ q ∈ p :: ps, c = rotX angle q.1 q.2}
        = {x | x ∈ (principalCoordinate angle p.1 p.2).1 ::
            ps.map fun q => (principalCoordinate angle q.1 q.2).1} := by
      ext c
      simp [principalCoordinate, rotX, eq_comm]
    have e2 : {c | ∃ q ∈ p :: ps, c = rotY angle q.1 q.2}
        = {x | x ∈ (principalCoordinate angle p.1 p.2).2 ::
            ps.map fun q => (principalCoordinate angle q.1 q.2).2} := by
      ext c
      simp [principalCoordinate, rotY, eq_comm]
    refine ⟨_, _, _, _, rfl, ?_, ?_, ?_, ?_⟩
    · rw [e1]; exact runMin_isLeast _ _
    · rw [e1]; exact runMax_isGreatest _ _
    · rw [e2]; exact runMin_isLeast _ _
    · rw [e2]; exact runMax_isGreatest _ _

example : ([(0, 0), (1, 2)] : List (ℝ × ℝ)) ≠ [] := by simp

/-! ### Directions of the four axes -/

/-- Direction vector and number handed to `pc_algorithm` (plastic_section.py 84, 115, 143, 187). -/
noncomputable def axisDir (phi : ℝ) : Axis → ℝ × ℝ
  | .xx => (1, 0)
  | .yy => (0, 1)
  | .a11 => (Real.cos (phi * Real.pi / 180), Real.sin (phi * Real.pi / 180))
  | .a22 => (-Real.sin (phi * Real.pi / 180), Real.cos (phi * Real.pi / 180))
def axisNum : Axis → ℕ
  | .xx => 1
  | .yy => 2
  | .a11 => 1
  | .a22 => 2

/-- The function whose root is searched for an axis. -/
noncomputable def imbalance {P : Type*} (ps : PlasticSection P) (phi : ℝ) (a : Axis) :
    ℝ → Except PyErr ℝ :=
  evaluateForceEq ps (axisDir phi a) (perpVec (axisDir phi a) (axisNum a))

/-- The plastic centroid and plastic modulus computed for an axis. -/
noncomputable def axisPlastic {P : Type*} (br : Brentq) (ps : PlasticSection P) (phi : ℝ) :
    Axis → Except PyErr (ℝ × ℝ)
  | .xx => plasticX br ps
  | .yy => plasticY br ps
  | .a11 => plastic11 br ps phi
  | .a22 => plastic22 br ps phi

theorem axisDir_unit (phi : ℝ) (a : Axis) : (axisDir phi a).1 ^ 2 + (axisDir phi a).2 ^ 2 = 1 := by
  cases a <;> simp [axisDir]

theorem axisDir_usable (phi : ℝ) (a : Axis) :
    |(axisDir phi a).1| > 1e-12 ∨ (axisDir phi a).2 ≠ 0 := by
  by_cases h : (axisDir phi a).2 = 0
  · left
    have h1 := axisDir_unit phi a
    rw [h] at h1
    have h2 : |(axisDir phi a).1| = 1 := by
      rw [abs_eq (by norm_num)]
      exact mul_self_eq_one_iff.1 (by linear_combination h1)
    rw [h2]; norm_num
  · exact .inr h

theorem perp_coord (phi : ℝ) (a : Axis) (q : ℝ × ℝ) :
    (perpVec (axisDir phi a) (axisNum a)).1 * q.1 + (perpVec (axisDir phi a) (axisNum a)).2 * q.2
      = axisCoord phi q a := by
  cases a <;> simp [perpVec, axisDir, axisNum, axisCoord, rotX, rotY] <;> ring

/-- The axis coordinate relative to the line is a fixed multiple of the height over it. -/
theorem coord_height (phi : ℝ) (a : Axis) : ∃ c : ℝ, c ≠ 0 ∧ ∀ d q,
    axisCoord phi q a - d = c * height (d * (perpVec (axisDir phi a) (axisNum a)).1,
      d * (perpVec (axisDir phi a) (axisNum a)).2) (axisDir phi a) q := by
  have hu := axisDir_unit phi a
  have hp := perp_coord phi a
  generalize axisDir phi a = u at *
  have hk : axisNum a = 1 ∨ axisNum a = 2 := by cases a <;> simp [axisNum]
  by_cases h : u.1 = 0
  · have h2 : u.2 ≠ 0 := by intro h2; rw [h, h2] at hu; norm_num at hu
    rcases hk with hk | hk
    · refine ⟨-u.2, by simpa using h2, fun d q => ?_⟩
      rw [← hp q]
      simp only [hk, perpVec, if_true, height, h] at hu ⊢
      linear_combination d * hu
    · refine ⟨u.2, h2, fun d q => ?_⟩
      rw [← hp q]
      simp only [hk, perpVec, height, h, if_true] at hu ⊢
      norm_num
      linear_combination d * hu
  · rcases hk with hk | hk
    · refine ⟨u.1, h, fun d q => ?_⟩
      rw [← hp q]
      simp only [hk, perpVec, if_true, height, h, if_false] at hu ⊢
      field_simp
      linear_combination d * hu
    · refine ⟨-u.1, by simpa using h, fun d q => ?_⟩
      rw [← hp q]
      simp only [hk, perpVec, height, h, if_false] at hu ⊢
      norm_num
      field_simp
      linear_combination d * hu

/-! ### Forces on the two sides of an axis -/

variable {P : Type*} {ps : PlasticSection P} {reg : P → Set (ℝ × ℝ)}

theorem continuous_coord (phi : ℝ) (a : Axis) : Continuous fun q => axisCoord phi q a := by
  cases a <;> simp only [axisCoord, rotX, rotY] <;> fun_prop

theorem accum_sum {α : Type*} (l : List α) (f : α → ℝ) : accum l f = (l.map f).sum := by
  unfold accum
  rw [List.sum_eq_foldl, List.foldl_map]

theorem piece_forces {ops : PolyOps P} (h : ShapelyOk ops reg) (l : List (PGeom P)) :
    accum l (fun g => g.material.yieldStrength * ops.area g.poly) = yieldInt reg l fun _ => 1 := by
  rw [accum_sum, yieldInt]
  congr 1
  refine List.map_congr_left fun g _ => ?_
  rw [h.area]; simp

theorem force_one (geoms : List (PGeom P)) (A : Set (ℝ × ℝ)) :
    (geoms.map fun g => g.material.yieldStrength * ∫ _q in reg g.poly ∩ A, (1 : ℝ)).sum
      = yieldForce reg geoms A := by
  rw [yieldForce]
  congr 1
  refine List.map_congr_left fun g _ => ?_
  simp

theorem split_line {r : P} {f : ℝ × ℝ → ℝ}
    (hf : IntegrableOn f (reg r)) {p v : ℝ × ℝ} :
    (∫ q in reg r ∩ {q | 0 < height p v q}, f q) + (∫ q in reg r ∩ {q | height p v q < 0}, f q)
      = ∫ q in reg r, f q := by
  rw [← integral_inter_add_sdiff (measurableSet_lt measurable_const (measurable_height p v).measurable) hf]
  congr 1
  refine setIntegral_congr_set ?_
  have hnull : ∀ᵐ q : ℝ × ℝ, height p v q ≠ 0 := by
    rw [ae_iff]; simpa using line_null p v
  filter_upwards [hnull] with q hq
  apply propext
  constructor
  · rintro ⟨h1, h2⟩; exact ⟨h1, fun h3 => lt_asymm (show height p v q < 0 from h2) h3⟩
  · rintro ⟨h1, h2⟩; exact ⟨h1, lt_of_le_of_ne (not_lt.1 h2) hq⟩

/-- The sign with which the axis coordinate counts "above". -/
noncomputable def axisSign (phi : ℝ) (a : Axis) : ℝ := SignType.sign (coord_height phi a).choose

theorem axisSign_cases (phi : ℝ) (a : Axis) : axisSign phi a = 1 ∨ axisSign phi a = -1 := by
  have hc := (coord_height phi a).choose_spec.1
  unfold axisSign
  rcases lt_or_gt_of_ne hc with h | h
  · right; rw [sign_neg h]; rfl
  · left; rw [sign_pos h]; rfl

/-- Forces and force list of a cut at the coordinate `d`. -/
theorem force_ok (h : ShapelyOk ps.ops reg) (phi : ℝ) (a : Axis) (d : ℝ) :
    ∃ ft fb l, plasticForce ps (axisDir phi a) (d * (perpVec (axisDir phi a) (axisNum a)).1,
        d * (perpVec (axisDir phi a) (axisNum a)).2) = .ok (ft, fb, l) ∧
      ft - fb = axisSign phi a * (yieldForce reg ps.geoms {q | d < axisCoord phi q a}
        - yieldForce reg ps.geoms {q | axisCoord phi q a < d}) ∧
      ft + fb = yieldForce reg ps.geoms {q | d < axisCoord phi q a}
        + yieldForce reg ps.geoms {q | axisCoord phi q a < d} ∧
      ft + fb = yieldForce reg ps.geoms Set.univ ∧
      ∃ pieces : List (PGeom P), l = pieces.map (pieceForce ps.ops) ∧
        (∀ s ∈ pieces, ∃ g ∈ ps.geoms, s.material = g.material) ∧
        (∀ s ∈ pieces, (∀ q ∈ reg s.poly, d ≤ axisCoord phi q a) ∨
          (∀ q ∈ reg s.poly, axisCoord phi q a ≤ d)) ∧
        ∀ f, Continuous f → yieldInt reg pieces f = yieldInt reg ps.geoms f := by
  obtain ⟨hc, hcoord⟩ := (coord_height phi a).choose_spec
  generalize hcc : (coord_height phi a).choose = c at hc hcoord
  obtain ⟨top, bot, e, h1, h2, h3, h4⟩ := splitSection_ok h
    (d * (perpVec (axisDir phi a) (axisNum a)).1, d * (perpVec (axisDir phi a) (axisNum a)).2)
    (axisDir phi a) (axisDir_usable phi a) ps.geoms
  have h4' := h4 (fun _ => 1) continuous_const
  rw [force_one, force_one] at h4'
  have hcd := hcoord d
  generalize (d * (perpVec (axisDir phi a) (axisNum a)).1,
    d * (perpVec (axisDir phi a) (axisNum a)).2) = p at *
  have hsets : (0 < c ∧ {q | d < axisCoord phi q a} = {q | 0 < height p (axisDir phi a) q} ∧
        {q | axisCoord phi q a < d} = {q | height p (axisDir phi a) q < 0}) ∨
      (c < 0 ∧ {q | d < axisCoord phi q a} = {q | height p (axisDir phi a) q < 0} ∧
        {q | axisCoord phi q a < d} = {q | 0 < height p (axisDir phi a) q}) := by
    rcases lt_or_gt_of_ne hc with hn | hp
    · refine .inr ⟨hn, ?_, ?_⟩ <;> ext q <;> simp only [Set.mem_ofPred_eq]
      · rw [← sub_pos, hcd]
        constructor
        · intro hh; by_contra hcon; push Not at hcon; nlinarith
        · intro hh; nlinarith
      · rw [← sub_neg, hcd]
        constructor
        · intro hh; by_contra hcon; push Not at hcon; nlinarith
        · intro hh; nlinarith
    · refine .inl ⟨hp, ?_, ?_⟩ <;> ext q <;> simp only [Set.mem_ofPred_eq]
      · rw [← sub_pos, hcd]
        constructor
        · intro hh; by_contra hcon; push Not at hcon; nlinarith
        · intro hh; nlinarith
      · rw [← sub_neg, hcd]
        constructor
        · intro hh; by_contra hcon; push Not at hcon; nlinarith
        · intro hh; nlinarith
  refine ⟨accum top fun g => g.material.yieldStrength * ps.ops.area g.poly,
    accum bot fun g => g.material.yieldStrength * ps.ops.area g.poly,
    top.map (pieceForce ps.ops) ++ bot.map (pieceForce ps.ops), by simp only [plasticForce, e],
    ?_, ?_, ?_, top ++ bot, by rw [List.map_append], h3, ?_, ?_⟩
  · rw [piece_forces h, piece_forces h, h4'.1, h4'.2, axisSign, hcc]
    rcases hsets with ⟨hp, e1, e2⟩ | ⟨hn, e1, e2⟩
    · rw [sign_pos hp, e1, e2]; simp
    · rw [sign_neg hn, e1, e2]; simp
  · rw [piece_forces h, piece_forces h, h4'.1, h4'.2]
    rcases hsets with ⟨hp, e1, e2⟩ | ⟨hn, e1, e2⟩
    · rw [e1, e2]
    · rw [e1, e2, add_comm]
  · rw [piece_forces h, piece_forces h, (h4 _ continuous_const).1, (h4 _ continuous_const).2,
      ← List.sum_map_add, yieldForce]
    congr 1
    refine List.map_congr_left fun g _ => ?_
    rw [← mul_add, split_line (integrable_reg h g.poly continuous_const)]
    simp
  · intro s hs
    have hh : (∀ q ∈ reg s.poly, 0 ≤ height p (axisDir phi a) q) ∨
        (∀ q ∈ reg s.poly, height p (axisDir phi a) q ≤ 0) := by
      rcases List.mem_append.1 hs with hs | hs
      · exact .inl (h1 s hs)
      · exact .inr (h2 s hs)
    rcases hsets with ⟨hp, -, -⟩ | ⟨hn, -, -⟩ <;> rcases hh with hh | hh
    · left; intro q hq; have := hh q hq; have := hcd q; nlinarith
    · right; intro q hq; have := hh q hq; have := hcd q; nlinarith
    · right; intro q hq; have := hh q hq; have := hcd q; nlinarith
    · left; intro q hq; have := hh q hq; have := hcd q; nlinarith
  · intro f hf
    obtain ⟨a1, a2⟩ := h4 f hf
    have : yieldInt reg (top ++ bot) f = yieldInt reg top f + yieldInt reg bot f := by
      simp [yieldInt]
    rw [this, a1, a2, ← List.sum_map_add, yieldInt]
    congr 1
    refine List.map_congr_left fun g _ => ?_
    rw [← mul_add, split_line (integrable_reg h g.poly hf)]

/-- The section is loaded with meaningful data: yield strengths are not negative, the section can carry
some force, and all of it lies within the convex hull of the points of the geometry. -/
structure PlasticOk (ps : PlasticSection P) (reg : P → Set (ℝ × ℝ)) : Prop where
  shapely : ShapelyOk ps.ops reg
  strength : ∀ g ∈ ps.geoms, 0 ≤ g.material.yieldStrength
  force : 0 < yieldForce reg ps.geoms Set.univ
  hull : ∀ g ∈ ps.geoms, reg g.poly ⊆ convexHull ℝ {q | q ∈ ps.points}

theorem finite_reg {ops : PolyOps P} (h : ShapelyOk ops reg) (p : P) (A : Set (ℝ × ℝ)) :
    volume (reg p ∩ A) ≠ ⊤ := by
  have := integrable_reg h p (f := fun _ => (1 : ℝ)) continuous_const
  rw [integrableOn_const_iff] at this
  rcases this with h0 | h0
  · simp at h0
  · exact (lt_of_le_of_lt (measure_mono Set.inter_subset_left) h0).ne

theorem force_mono (h : PlasticOk ps reg) {A B : Set (ℝ × ℝ)} (hAB : A ⊆ B) :
    yieldForce reg ps.geoms A ≤ yieldForce reg ps.geoms B := by
  refine List.sum_le_sum fun g hg => mul_le_mul_of_nonneg_left ?_ (h.strength g hg)
  exact measureReal_mono (Set.inter_subset_inter_right _ hAB) (finite_reg h.shapely _ _)

theorem force_empty {A : Set (ℝ × ℝ)} (hA : ∀ g ∈ ps.geoms, ∀ q ∈ reg g.poly, q ∉ A) :
    yieldForce reg ps.geoms A = 0 := by
  refine List.sum_eq_zero fun x hx => ?_
  obtain ⟨g, hg, rfl⟩ := List.mem_map.1 hx
  have : reg g.poly ∩ A = ∅ := by
    ext q; simp only [Set.mem_inter_iff, Set.mem_empty_iff_false, iff_false, not_and]
    exact hA g hg q
  rw [this]; simp

theorem coord_ne (phi : ℝ) (a : Axis) (d : ℝ) : ∀ᵐ q : ℝ × ℝ, axisCoord phi q a ≠ d := by
  obtain ⟨c, hc, hcoord⟩ := coord_height phi a
  rw [ae_iff]
  have : {q : ℝ × ℝ | ¬ axisCoord phi q a ≠ d} = {q | height (d * (perpVec (axisDir phi a) (axisNum a)).1,
      d * (perpVec (axisDir phi a) (axisNum a)).2) (axisDir phi a) q = 0} := by
    ext q
    simp only [Set.mem_ofPred_eq, not_not]
    rw [← sub_eq_zero, hcoord, mul_eq_zero]
    simp [hc]
  rw [this]
  exact line_null _ _

theorem force_continuous (h : PlasticOk ps reg) (phi : ℝ) (a : Axis) :
    Continuous fun d => yieldForce reg ps.geoms {q | axisCoord phi q a < d} := by
  unfold yieldForce
  refine continuous_list_sum _ fun g _ => ?_
  refine continuous_const.mul ?_
  have hc := continuous_coord phi a
  have e : (fun d => volume.real (reg g.poly ∩ {q | axisCoord phi q a < d}))
      = fun d => ∫ q in reg g.poly, {q | axisCoord phi q a < d}.indicator (fun _ => (1 : ℝ)) q := by
    funext d
    rw [setIntegral_indicator (measurableSet_lt hc.measurable measurable_const)]
    simp
  rw [e]
  refine continuous_iff_continuousAt.2 fun d => ?_
  refine continuousAt_of_dominated (bound := fun _ => 1) ?_ ?_ ?_ ?_
  · refine Filter.Eventually.of_forall fun d => ?_
    exact (measurable_const.indicator
      (measurableSet_lt hc.measurable measurable_const)).aestronglyMeasurable
  · refine Filter.Eventually.of_forall fun d => Filter.Eventually.of_forall fun q => ?_
    by_cases hq : q ∈ {q | axisCoord phi q a < d} <;> simp [hq]
  · exact integrable_reg h.shapely g.poly (f := fun _ => (1 : ℝ)) continuous_const
  · refine ae_restrict_of_ae ?_
    filter_upwards [coord_ne phi a d] with q hq
    rcases lt_or_gt_of_ne hq with h1 | h1
    · refine (continuousAt_const (y := (1 : ℝ))).congr ?_
      filter_upwards [lt_mem_nhds h1] with x hx
      rw [Set.indicator_of_mem (show q ∈ {q | axisCoord phi q a < x} from hx)]
    · refine (continuousAt_const (y := (0 : ℝ))).congr ?_
      filter_upwards [gt_mem_nhds h1] with x hx
      rw [Set.indicator_of_notMem (show q ∉ {q | axisCoord phi q a < x} from not_lt.2 (le_of_lt hx))]

/-- **C34** (imbalance): for every axis there is a sign such that for every position `d` of the axis the
function handed to the root search is, without exception, that sign times the force above minus the
force below, divided by the total force. -/
theorem C34_imbalance (h : PlasticOk ps reg) (phi : ℝ) (a : Axis) :
    ∃ σ : ℝ, (σ = 1 ∨ σ = -1) ∧ ∀ d, imbalance ps phi a d = .ok (σ *
      (yieldForce reg ps.geoms {q | d < axisCoord phi q a}
        - yieldForce reg ps.geoms {q | axisCoord phi q a < d}) / yieldForce reg ps.geoms Set.univ) := by
  refine ⟨_, axisSign_cases phi a, fun d => ?_⟩
  obtain ⟨ft, fb, l, e, e1, -, e3, -⟩ := force_ok h.shapely phi a d
  simp only [imbalance, evaluateForceEq, e, e1, e3]

theorem force_total (h : PlasticOk ps reg) (phi : ℝ) (a : Axis) (d : ℝ) :
    yieldForce reg ps.geoms {q | d < axisCoord phi q a}
      + yieldForce reg ps.geoms {q | axisCoord phi q a < d} = yieldForce reg ps.geoms Set.univ := by
  obtain ⟨ft, fb, l, -, -, e2, e3, -⟩ := force_ok h.shapely phi a d
  rw [← e2, e3]

/-- Coordinates of the section lie between the extreme fibres. -/
theorem coord_range (h : PlasticOk ps reg) (phi : ℝ) (a : Axis) {lo hi : ℝ}
    (hlo : ∀ q ∈ ps.points, lo ≤ axisCoord phi q a) (hhi : ∀ q ∈ ps.points, axisCoord phi q a ≤ hi)
    {g : PGeom P} (hg : g ∈ ps.geoms) {q : ℝ × ℝ} (hq : q ∈ reg g.poly) :
    lo ≤ axisCoord phi q a ∧ axisCoord phi q a ≤ hi := by
  have hlin : IsLinearMap ℝ fun q => axisCoord phi q a := by
    constructor
    · intro x y; cases a <;> simp [axisCoord, rotX, rotY] <;> ring
    · intro c x; cases a <;> simp [axisCoord, rotX, rotY] <;> ring
  have hc := h.hull g hg hq
  exact ⟨convexHull_min (t := {q | lo ≤ axisCoord phi q a}) (fun r hr => hlo r hr)
      (convex_halfSpace_ge hlin lo) hc,
    convexHull_min (t := {q | axisCoord phi q a ≤ hi}) (fun r hr => hhi r hr)
      (convex_halfSpace_le hlin hi) hc⟩

theorem exists_geom (h : PlasticOk ps reg) : ∃ g, g ∈ ps.geoms := by
  by_contra hcon
  push Not at hcon
  have := h.force
  rw [yieldForce, List.eq_nil_iff_forall_not_mem.2 hcon] at this
  simp at this

theorem points_ne (h : PlasticOk ps reg) : ps.points ≠ [] := by
  obtain ⟨g, hg⟩ := exists_geom h
  intro h0
  have := h.hull g hg (interior_subset (h.shapely.rep g.poly))
  rw [h0] at this
  simp at this

/-- The bracket that is handed to the root search. -/
theorem axisPlastic_eq (h : PlasticOk ps reg) (br : Brentq) (phi : ℝ) (a : Axis) :
    ∃ lo hi, IsLeast {c | ∃ q ∈ ps.points, c = axisCoord phi q a} lo ∧
      IsGreatest {c | ∃ q ∈ ps.points, c = axisCoord phi q a} hi ∧
      axisPlastic br ps phi a =
        match pcAlgorithm br ps (axisDir phi a) (lo, hi) (axisNum a) with
        | .error e => .error e
        | .ok (d, l) => .ok (d, accum l fun q => q.1 * |axisCoord phi (q.2.1, q.2.2) a - d|) := by
  have hne := points_ne h
  obtain ⟨umin, umax, vmin, vmax, e, h1, h2, h3, h4⟩ := C36_extreme_fibres 0 ps.points hne
  obtain ⟨umin', umax', vmin', vmax', e', h1', h2', h3', h4'⟩ := C36_extreme_fibres phi ps.points hne
  simp only [rotX, rotY, zero_mul, zero_div, Real.cos_zero, Real.sin_zero, mul_one, mul_zero, add_zero,
    sub_zero] at h1 h2 h3 h4
  cases a with
  | xx => exact ⟨vmin, vmax, h3, h4, by simp only [axisPlastic, plasticX, e]; rfl⟩
  | yy => exact ⟨umin, umax, h1, h2, by simp only [axisPlastic, plasticY, e]; rfl⟩
  | a11 => exact ⟨vmin', vmax', h3', h4', by
      simp only [axisPlastic, plastic11, e', axisDir, axisNum]; rfl⟩
  | a22 => exact ⟨umin', umax', h1', h2', by
      simp only [axisPlastic, plastic22, e', axisDir, axisNum]; rfl⟩

/-- **C34** (bracket): the imbalance is `1` at one extreme fibre and `-1` at the other, is continuous,
and changes monotonically in between, so the root search is started on a bracket with a change of
sign. -/
theorem C34_bracket (h : PlasticOk ps reg) (phi : ℝ) (a : Axis) {lo hi : ℝ}
    (hlo : IsLeast {c | ∃ q ∈ ps.points, c = axisCoord phi q a} lo)
    (hhi : IsGreatest {c | ∃ q ∈ ps.points, c = axisCoord phi q a} hi) :
    lo < hi ∧ ∃ f : ℝ → ℝ, (∀ d, imbalance ps phi a d = .ok (f d)) ∧ Continuous f ∧
      ((f lo = 1 ∧ f hi = -1 ∧ Antitone f) ∨ (f lo = -1 ∧ f hi = 1 ∧ Monotone f)) := by
  have hlo' : ∀ q ∈ ps.points, lo ≤ axisCoord phi q a := fun q hq => hlo.2 ⟨q, hq, rfl⟩
  have hhi' : ∀ q ∈ ps.points, axisCoord phi q a ≤ hi := fun q hq => hhi.2 ⟨q, hq, rfl⟩
  have hr := fun g hg q hq => coord_range h phi a hlo' hhi' (g := g) hg (q := q) hq
  have hF := h.force
  obtain ⟨σ, hσ, hf⟩ := C34_imbalance h phi a
  have hlow : yieldForce reg ps.geoms {q | axisCoord phi q a < lo} = 0 :=
    force_empty fun g hg q hq hq' => absurd (hr g hg q hq).1 (not_le.2 hq')
  have hhigh : yieldForce reg ps.geoms {q | hi < axisCoord phi q a} = 0 :=
    force_empty fun g hg q hq hq' => absurd (hr g hg q hq).2 (not_le.2 hq')
  have t1 := force_total h phi a lo
  have t2 := force_total h phi a hi
  rw [hlow, add_zero] at t1
  rw [hhigh, zero_add] at t2
  have hanti : Antitone fun d => (yieldForce reg ps.geoms {q | d < axisCoord phi q a}
      - yieldForce reg ps.geoms {q | axisCoord phi q a < d}) / yieldForce reg ps.geoms Set.univ := by
    intro x y hxy
    have m1 := force_mono h (A := {q | y < axisCoord phi q a}) (B := {q | x < axisCoord phi q a})
      fun q hq => lt_of_le_of_lt hxy hq
    have m2 := force_mono h (A := {q | axisCoord phi q a < x}) (B := {q | axisCoord phi q a < y})
      fun q hq => lt_of_lt_of_le (show axisCoord phi q a < x from hq) hxy
    exact (div_le_div_iff_of_pos_right hF).2 (by linarith)
  constructor
  · rcases lt_or_ge lo hi with hl | hl
    · exact hl
    · exfalso
      obtain ⟨g, hg⟩ := exists_geom h
      have : yieldForce reg ps.geoms {q | lo < axisCoord phi q a} ≤ 0 := by
        rw [← hhigh]
        exact force_mono h fun q hq => lt_of_le_of_lt hl hq
      linarith
  · refine ⟨_, hf, ?_, ?_⟩
    · have hc := force_continuous h phi a
      have e : (fun d => σ * (yieldForce reg ps.geoms {q | d < axisCoord phi q a}
          - yieldForce reg ps.geoms {q | axisCoord phi q a < d}) / yieldForce reg ps.geoms Set.univ)
          = fun d => σ * (yieldForce reg ps.geoms Set.univ
            - 2 * yieldForce reg ps.geoms {q | axisCoord phi q a < d})
            / yieldForce reg ps.geoms Set.univ := by
        funext d
        rw [← force_total h phi a d]; ring
      rw [e]
      fun_prop
    · simp only [hlow, hhigh, t1, t2]
      rcases hσ with rfl | rfl
      · left
        refine ⟨by field_simp; ring, by field_simp; ring, ?_⟩
        simpa using hanti
      · right
        refine ⟨by field_simp; ring, by field_simp; ring, ?_⟩
        have := hanti.neg
        refine fun x y hxy => ?_
        have := this hxy
        simp only at this
        simp only [neg_mul, one_mul, neg_div]
        exact this

/-! ### The plastic moment -/

theorem piece_moment {ops : PolyOps P} (h : ShapelyOk ops reg) (phi : ℝ) (a : Axis) (p : P) (d d' : ℝ)
    (hside : (∀ q ∈ reg p, d' ≤ axisCoord phi q a) ∨ (∀ q ∈ reg p, axisCoord phi q a ≤ d')) :
    ops.area p * |axisCoord phi ((ops.centroid p).1, (ops.centroid p).2) a - d|
      ≤ ∫ q in reg p, |axisCoord phi q a - d| ∧
    ∫ q in reg p, |axisCoord phi q a - d| ≤
      ops.area p * |axisCoord phi ((ops.centroid p).1, (ops.centroid p).2) a - d|
        + 2 * |d - d'| * ops.area p := by
  have hA : 0 ≤ ops.area p := by rw [h.area]; exact measureReal_nonneg
  have hcc := continuous_coord phi a
  have hint : ∀ e, IntegrableOn (fun q => axisCoord phi q a - e) (reg p) := fun e =>
    integrable_reg h p (hcc.sub continuous_const)
  have hone : ∀ e : ℝ, ∫ _q in reg p, e = ops.area p * e := by
    intro e; rw [h.area]; simp
  have hmom : ∀ e, ∫ q in reg p, (axisCoord phi q a - e)
      = ops.area p * (axisCoord phi ((ops.centroid p).1, (ops.centroid p).2) a - e) := by
    intro e
    rw [integral_sub (integrable_reg h p hcc) (integrable_reg h p continuous_const), hone, mul_sub]
    congr 1
    have i1 := integrable_reg h p (f := fun q => q.1) continuous_fst
    have i2 := integrable_reg h p (f := fun q => q.2) continuous_snd
    have c1 := h.centroid p
    have c2 := h.centroid' p
    rw [← h.area] at c1 c2
    cases a with
    | xx => exact c2.symm
    | yy => exact c1.symm
    | a11 =>
      simp only [axisCoord, rotY]
      rw [integral_sub (i2.mul_const _) (i1.mul_const _), integral_mul_const, integral_mul_const, ← c1, ← c2]
      ring
    | a22 =>
      simp only [axisCoord, rotX]
      rw [integral_add (i1.mul_const _) (i2.mul_const _), integral_mul_const, integral_mul_const, ← c1, ← c2]
      ring
  have habs : ∀ e, ops.area p * |axisCoord phi ((ops.centroid p).1, (ops.centroid p).2) a - e|
      = |∫ q in reg p, (axisCoord phi q a - e)| := by
    intro e; rw [hmom, abs_mul, abs_of_nonneg hA]
  have hle : ∀ e, |∫ q in reg p, (axisCoord phi q a - e)| ≤ ∫ q in reg p, |axisCoord phi q a - e| :=
    fun e => abs_integral_le_integral_abs
  refine ⟨by rw [habs]; exact hle d, ?_⟩
  have hone' : ∫ q in reg p, |axisCoord phi q a - d'| = |∫ q in reg p, (axisCoord phi q a - d')| := by
    rcases hside with hs | hs
    · have : ∫ q in reg p, |axisCoord phi q a - d'| = ∫ q in reg p, (axisCoord phi q a - d') :=
        setIntegral_congr_fun (h.measurable p) fun q hq => abs_of_nonneg (sub_nonneg.2 (hs q hq))
      rw [this, abs_of_nonneg]
      exact setIntegral_nonneg (h.measurable p) fun q hq => sub_nonneg.2 (hs q hq)
    · have : ∫ q in reg p, |axisCoord phi q a - d'| = ∫ q in reg p, -(axisCoord phi q a - d') :=
        setIntegral_congr_fun (h.measurable p) fun q hq => abs_of_nonpos (sub_nonpos.2 (hs q hq))
      rw [this, integral_neg, abs_of_nonpos]
      exact setIntegral_nonpos (h.measurable p) fun q hq => sub_nonpos.2 (hs q hq)
  have hstep : ∫ q in reg p, |axisCoord phi q a - d|
      ≤ ∫ q in reg p, (|axisCoord phi q a - d'| + |d - d'|) := by
    refine integral_mono (hint d).abs
      ((hint d').abs.add (integrable_reg h p (f := fun _ => |d - d'|) continuous_const)) fun q => ?_
    have := abs_sub_le (axisCoord phi q a) d' d
    rw [abs_sub_comm d' d] at this
    exact this
  rw [integral_add (hint d').abs (integrable_reg h p (f := fun _ => |d - d'|) continuous_const), hone,
    hone', ← habs] at hstep
  have hlast : ops.area p * |axisCoord phi ((ops.centroid p).1, (ops.centroid p).2) a - d'|
      ≤ ops.area p * |axisCoord phi ((ops.centroid p).1, (ops.centroid p).2) a - d|
        + ops.area p * |d - d'| := by
    rw [← mul_add]
    exact mul_le_mul_of_nonneg_left (abs_sub_le _ _ _) hA
  linarith

/-- The plastic modulus computed from a cut at `d'` for an axis at `d`. -/
theorem moment_bounds (h : PlasticOk ps reg) (phi : ℝ) (a : Axis) (d d' : ℝ) {pieces : List (PGeom P)}
    (hm : ∀ s ∈ pieces, ∃ g ∈ ps.geoms, s.material = g.material)
    (hside : ∀ s ∈ pieces, (∀ q ∈ reg s.poly, d' ≤ axisCoord phi q a) ∨
      (∀ q ∈ reg s.poly, axisCoord phi q a ≤ d'))
    (hint : ∀ f, Continuous f → yieldInt reg pieces f = yieldInt reg ps.geoms f) :
    accum (pieces.map (pieceForce ps.ops)) (fun q => q.1 * |axisCoord phi (q.2.1, q.2.2) a - d|)
      ≤ yieldInt reg ps.geoms (fun q => |axisCoord phi q a - d|) ∧
    yieldInt reg ps.geoms (fun q => |axisCoord phi q a - d|) ≤
      accum (pieces.map (pieceForce ps.ops)) (fun q => q.1 * |axisCoord phi (q.2.1, q.2.2) a - d|)
        + 2 * |d - d'| * yieldForce reg ps.geoms Set.univ := by
  have hy : ∀ s ∈ pieces, 0 ≤ s.material.yieldStrength := by
    intro s hs
    obtain ⟨g, hg, e⟩ := hm s hs
    rw [e]; exact h.strength g hg
  have hF : yieldForce reg ps.geoms Set.univ
      = (pieces.map fun s => s.material.yieldStrength * ps.ops.area s.poly).sum := by
    have := hint (fun _ => 1) continuous_const
    rw [← piece_forces h.shapely, accum_sum] at this
    rw [this, yieldForce, yieldInt]
    simp
  have hcc := (continuous_coord phi a)
  have hi := hint (fun q => |axisCoord phi q a - d|) (by fun_prop)
  rw [accum_sum, List.map_map, hF, ← List.sum_map_mul_left, ← List.sum_map_add, ← hi]
  constructor
  · refine List.sum_le_sum fun s hs => ?_
    have := mul_le_mul_of_nonneg_left
      (piece_moment h.shapely phi a s.poly d d' (hside s hs)).1 (hy s hs)
    simp only [Function.comp, pieceForce]
    linarith
  · refine List.sum_le_sum fun s hs => ?_
    have := mul_le_mul_of_nonneg_left
      (piece_moment h.shapely phi a s.poly d d' (hside s hs)).2 (hy s hs)
    simp only [Function.comp, pieceForce]
    linarith

/-- **C34** (root) and **C35** (plastic moment): with a root finder that is accurate to `tol`, the
plastic analysis about every axis either reports that the search did not converge, or returns an axis
position within `tol` of one where the forces above and below are equal, and a modulus that is the
integral of yield strength times distance to the reported axis, up to `2 tol` times the total force. -/
theorem C34_plastic_axis (h : PlasticOk ps reg) {tol : ℝ → ℝ} {br : Brentq} (hbr : RootFinder tol br)
    (phi : ℝ) (a : Axis) :
    (axisPlastic br ps phi a = .error .runtimeError ∧ ∃ f lo hi r, br f lo hi = .ok r ∧ r.converged = false)
    ∨ ∃ d S, axisPlastic br ps phi a = .ok (d, S) ∧
      (∃ z, yieldForce reg ps.geoms {q | z < axisCoord phi q a}
          = yieldForce reg ps.geoms {q | axisCoord phi q a < z} ∧ |d - z| ≤ tol d) ∧
      0 ≤ S ∧ S ≤ yieldInt reg ps.geoms (fun q => |axisCoord phi q a - d|) ∧
      yieldInt reg ps.geoms (fun q => |axisCoord phi q a - d|) ≤
        S + 2 * tol d * yieldForce reg ps.geoms Set.univ := by
  obtain ⟨lo, hi, hlo, hhi, e⟩ := axisPlastic_eq h br phi a
  obtain ⟨hlt, f, hf, hcont, hends⟩ := C34_bracket h phi a hlo hhi
  obtain ⟨r, hr, hconv⟩ := hbr (imbalance ps phi a) f lo hi hlt hf hcont.continuousOn (by
    rcases hends with ⟨h1, h2, -⟩ | ⟨h1, h2, -⟩ <;> rw [h1, h2] <;> norm_num)
  have hr' : br (evaluateForceEq ps (axisDir phi a) (perpVec (axisDir phi a) (axisNum a))) lo hi = .ok r := hr
  cases hc : r.converged with
  | false =>
    left
    refine ⟨?_, _, lo, hi, r, hr, hc⟩
    rw [e]
    simp only [pcAlgorithm, hr', hc]
    rfl
  | true =>
    right
    obtain ⟨⟨z, -, hz, hzd⟩, hlast⟩ := hconv hc
    obtain ⟨ft, fb, l, e1, -, -, -, pieces, hl, hm, hside, hint⟩ := force_ok h.shapely phi a r.last
    refine ⟨r.root, accum l fun q => q.1 * |axisCoord phi (q.2.1, q.2.2) a - r.root|, ?_, ⟨z, ?_, hzd⟩, ?_, ?_⟩
    · rw [e]
      simp only [pcAlgorithm, hr', hc, if_true, e1]
    · obtain ⟨σ, hσ, hf'⟩ := C34_imbalance h phi a
      have := hf z
      rw [hf' z, hz, Except.ok.injEq, div_eq_zero_iff] at this
      rcases this with h0 | h0
      · rcases mul_eq_zero.1 h0 with h0 | h0
        · rcases hσ with rfl | rfl <;> norm_num at h0
        · linarith
      · exact absurd h0 h.force.ne'
    · rw [hl, accum_sum, List.map_map]
      refine List.sum_nonneg fun x hx => ?_
      obtain ⟨g, hg, rfl⟩ := List.mem_map.1 hx
      obtain ⟨g', hg', e'⟩ := hm g hg
      simp only [Function.comp, pieceForce]
      refine mul_nonneg (mul_nonneg ?_ ?_) (abs_nonneg _)
      · rw [e']; exact h.strength g' hg'
      · rw [h.shapely.area]; exact measureReal_nonneg
    · have hb := moment_bounds h phi a r.root r.last hm hside hint
      rw [hl]
      refine ⟨hb.1, hb.2.trans ?_⟩
      have := mul_le_mul_of_nonneg_right hlast h.force.le
      rw [abs_sub_comm] at this
      linarith

end SP
