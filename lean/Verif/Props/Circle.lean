import Verif.Props.LibraryNastran
import Mathlib.Topology.Algebra.Order.Field
import Mathlib.Analysis.SpecialFunctions.Trigonometric.Deriv

/-!
# C47: circles and ellipses, C48: fillets
-/

namespace SP

open Spec

/-! ### Ellipses -/

/-- Vertex `i` on the ellipse. -/
noncomputable def ellipsePt (dx dy : ℝ) (n i : ℕ) : Pt :=
  (dx / 2 * Real.cos (2 * Real.pi * i / n), dy / 2 * Real.sin (2 * Real.pi * i / n))

theorem ellipsePts_eq (dx dy : ℝ) (n : ℕ) : ellipsePts dx dy n = (List.range n).map (ellipsePt dx dy n) := by
  rw [ellipsePts]
  refine List.map_congr_left fun i _ => ?_
  rw [ellipsePt, show (i : ℝ) * 2 * Real.pi / n = 2 * Real.pi * i / n by ring]

theorem ellipse_area2 (dx dy : ℝ) {n : ℕ} (hn : n ≠ 0) :
    ringArea2 (ellipsePts dx dy n) = 2 * inscribed dx dy n := by
  have hn' : (n : ℝ) ≠ 0 := by exact_mod_cast hn
  have hf : ellipsePt dx dy n n = ellipsePt dx dy n 0 := by
    rw [ellipsePt, ellipsePt, mul_div_assoc, div_self hn']; simp
  rw [ellipsePts_eq, ringArea2_range _ hn hf]
  have : ∀ i ∈ Finset.range n, crossP (ellipsePt dx dy n i) (ellipsePt dx dy n (i + 1))
      = dx / 2 * (dy / 2) * Real.sin (2 * Real.pi / n) := by
    intro i _
    have e : 2 * Real.pi / n = 2 * Real.pi * ((i + 1 : ℕ) : ℝ) / n - 2 * Real.pi * i / n := by push_cast; ring
    rw [e, Real.sin_sub, crossP, ellipsePt, ellipsePt]
    ring
  rw [Finset.sum_congr rfl this, Finset.sum_const, Finset.card_range, nsmul_eq_mul, inscribed]
  ring

theorem ellipse_boxed {dx dy : ℝ} (hx : 0 ≤ dx) (hy : 0 ≤ dy) (n : ℕ) :
    Boxed (-dx / 2, dx / 2, -dy / 2, dy / 2) (ellipsePts dx dy n) := by
  intro p hp
  rw [ellipsePts_eq] at hp
  obtain ⟨i, -, rfl⟩ := List.mem_map.1 hp
  have c1 := Real.neg_one_le_cos (2 * Real.pi * i / n)
  have c2 := Real.cos_le_one (2 * Real.pi * i / n)
  have s1 := Real.neg_one_le_sin (2 * Real.pi * i / n)
  have s2 := Real.sin_le_one (2 * Real.pi * i / n)
  refine ⟨?_, ?_, ?_, ?_⟩ <;> simp only [ellipsePt] <;> nlinarith

theorem sin_pos_n {n : ℕ} (hn : 3 ≤ n) : 0 < Real.sin (2 * Real.pi / n) := by
  have hn' : (3 : ℝ) ≤ n := by exact_mod_cast hn
  have hpi := Real.pi_pos
  refine Real.sin_pos_of_pos_of_lt_pi (by positivity) ?_
  rw [div_lt_iff₀ (by linarith)]
  nlinarith

theorem inscribed_nonneg {dx dy : ℝ} (hx : 0 ≤ dx) (hy : 0 ≤ dy) {n : ℕ} (hn : 3 ≤ n) : 0 ≤ inscribed dx dy n := by
  have := (sin_pos_n hn).le
  rw [inscribed]; positivity

/-- The inscribed polygon is smaller than the ellipse. -/
theorem inscribed_lt {dx dy : ℝ} (hx : 0 < dx) (hy : 0 < dy) {n : ℕ} (hn : 3 ≤ n) :
    inscribed dx dy n < Real.pi * (dx / 2) * (dy / 2) := by
  have hn' : (3 : ℝ) ≤ n := by exact_mod_cast hn
  have hpi := Real.pi_pos
  have h := Real.sin_lt (show 0 < 2 * Real.pi / n by positivity)
  rw [lt_div_iff₀ (by linarith)] at h
  have hd : 0 < dx / 2 * (dy / 2) := by positivity
  rw [inscribed]
  nlinarith

/-- `n sin (2π / n)` is between 2 and 2π. -/
theorem two_le_n_sin {n : ℕ} (hn : 3 ≤ n) : 2 ≤ n * Real.sin (2 * Real.pi / n) := by
  have hn' : (3 : ℝ) ≤ n := by exact_mod_cast hn
  have hpi := Real.pi_pos
  rcases hn.eq_or_lt with h | h
  · subst h
    have e : (2 * Real.pi / (3 : ℕ) : ℝ) = Real.pi - Real.pi / 3 := by push_cast; ring
    rw [e, Real.sin_pi_sub, Real.sin_pi_div_three]
    have : (1.5 : ℝ) ≤ √3 := Real.le_sqrt_of_sq_le (by norm_num)
    push_cast
    linarith
  · have h4 : (4 : ℝ) ≤ n := by exact_mod_cast h
    have hx : 2 * Real.pi / n ≤ Real.pi / 2 := by
      rw [div_le_div_iff₀ (by linarith) (by norm_num)]; nlinarith
    have := Real.mul_le_sin (by positivity) hx
    have e : 2 / Real.pi * (2 * Real.pi / n) = 4 / n := by field_simp; norm_num
    rw [e, div_le_iff₀ (by linarith)] at this
    linarith

theorem roundPoly_of_far {p : Poly} (h : ∃ q ∈ p.exterior, 1 / 2 / 10 ^ 12 < |q.1|) :
    roundPoly 12 p = p.map (roundPt 12) := by
  rw [roundPoly, if_neg]
  intro hall
  obtain ⟨q, hq, hlt⟩ := h
  have h0 := hall _ (List.mem_map_of_mem (f := roundPt 12) hq)
  have h1 : roundTo 12 q.1 = 0 := congrArg Prod.fst h0
  have h2 : |roundTo 12 q.1 - q.1| ≤ 1 / 2 / 10 ^ 12 := roundTo_near 12 q.1
  rw [h1, zero_sub, abs_neg] at h2
  linarith

/-- The polygon of an ellipse: `n` vertices, each on the ellipse up to rounding; the area is that of the
inscribed polygon up to rounding. -/
theorem ellipse_props (ops : GeomOps) {dx dy : ℝ} {n : ℕ} (m : Material) (hx : 1 / 10 ^ 12 < dx) (hy : 0 < dy)
    (hn : 3 ≤ n) :
    (libGeom ops (ellipsePts dx dy n) m).points = (List.range n).map (fun i => roundPt 12 (ellipsePt dx dy n i)) ∧
    |(libGeom ops (ellipsePts dx dy n) m).poly.area - inscribed dx dy n| ≤ n * (dx / 2 + dy / 2 + 1) / (2 * 10 ^ 12) := by
  have hx0 : 0 < dx := lt_trans (by positivity) hx
  have hpoly : (libGeom ops (ellipsePts dx dy n) m).poly = (⟨ellipsePts dx dy n, []⟩ : Poly).map (roundPt 12) := by
    refine roundPoly_of_far ⟨ellipsePt dx dy n 0, ?_, ?_⟩
    · show ellipsePt dx dy n 0 ∈ ellipsePts dx dy n
      rw [ellipsePts_eq]
      exact List.mem_map_of_mem (List.mem_range.2 (by omega))
    · simp only [ellipsePt, Nat.cast_zero, mul_zero, zero_div, Real.cos_zero, mul_one]
      rw [abs_of_pos (by linarith)]
      linarith
  constructor
  · have := (mk_built ops ⟨ellipsePts dx dy n, []⟩ m none 12).points
    rw [libGeom, this]
    rw [libGeom] at hpoly
    rw [hpoly]
    simp [Poly.rings, Poly.map, ellipsePts_eq, Function.comp_def]
  · have hb := ellipse_boxed hx0.le hy.le n
    have hX : ∀ r ∈ (⟨ellipsePts dx dy n, []⟩ : Poly).rings, ∀ q ∈ r, |q.1| ≤ dx / 2 := by
      intro r hr q hq
      simp only [Poly.rings, List.mem_singleton] at hr
      subst hr
      have := hb q hq
      rw [abs_le]; exact ⟨by linarith [this.1], this.2.1⟩
    have hY : ∀ r ∈ (⟨ellipsePts dx dy n, []⟩ : Poly).rings, ∀ q ∈ r, |q.2| ≤ dy / 2 := by
      intro r hr q hq
      simp only [Poly.rings, List.mem_singleton] at hr
      subst hr
      have := hb q hq
      rw [abs_le]; exact ⟨by linarith [this.2.2.1], this.2.2.2⟩
    have h := Poly.area_round ⟨ellipsePts dx dy n, []⟩ hX hY
    have hA : (⟨ellipsePts dx dy n, []⟩ : Poly).area = inscribed dx dy n := by
      simp only [Poly.area, List.map_nil, List.sum_nil, sub_zero]
      rw [ellipse_area2 _ _ (by omega), abs_half (inscribed_nonneg hx0.le hy.le hn)]
    have hlen : ((⟨ellipsePts dx dy n, []⟩ : Poly).rings.flatten.length : ℝ) = n := by
      simp [Poly.rings, ellipsePts_eq]
    rw [hpoly, ← hA]
    rw [hlen] at h
    refine h.trans (le_of_eq ?_)
    ring

/-- **C47** `circular_section(d, n)`: vertex `i` lies, up to rounding, on the circle with diameter `d` at the
angle `2πi/n`; the area is, up to rounding, that of the inscribed regular polygon, which is smaller than the
circle. -/
theorem C47_circle (ops : GeomOps) {d : ℝ} {n : ℕ} (m : Material) (hd : 1 / 10 ^ 12 < d) (hn : 3 ≤ n) :
    (circularSection ops d n m).points.length = n ∧
    (∀ i < n, ∃ p, (circularSection ops d n m).points[i]? = some p ∧
      HalfUnit 12 p.1 (d / 2 * Real.cos (2 * Real.pi * i / n)) ∧
      HalfUnit 12 p.2 (d / 2 * Real.sin (2 * Real.pi * i / n))) ∧
    |(circularSection ops d n m).poly.area - n * (1 / 2 * (d / 2) ^ 2 * Real.sin (2 * Real.pi / n))|
      ≤ n * (d + 1) / (2 * 10 ^ 12) ∧
    n * (1 / 2 * (d / 2) ^ 2 * Real.sin (2 * Real.pi / n)) < Real.pi * (d / 2) ^ 2 := by
  have hd0 : 0 < d := lt_trans (by positivity) hd
  obtain ⟨h1, h2⟩ := ellipse_props ops m hd hd0 hn
  have e : inscribed d d n = n * (1 / 2 * (d / 2) ^ 2 * Real.sin (2 * Real.pi / n)) := by rw [inscribed]; ring
  have h3 := inscribed_lt hd0 hd0 hn
  rw [e] at h2 h3
  refine ⟨by rw [circularSection, h1]; simp, fun i hi => ?_, ?_, by linarith⟩
  · rw [circularSection, h1]
    refine ⟨roundPt 12 (ellipsePt d d n i), by simp [hi], ?_, ?_⟩
    · exact roundTo_near 12 _
    · exact roundTo_near 12 _
  · refine h2.trans (le_of_eq ?_)
    ring

example := C47_circle exOps (d := 50) (n := 64) defaultMaterial (by norm_num) (by norm_num)

/-- `elliptical_section(d_x, d_y, n)`. -/
theorem C47_ellipse (ops : GeomOps) {dx dy : ℝ} {n : ℕ} (m : Material) (hx : 1 / 10 ^ 12 < dx) (hy : 0 < dy)
    (hn : 3 ≤ n) :
    (ellipticalSection ops dx dy n m).points.length = n ∧
    (∀ i < n, ∃ p, (ellipticalSection ops dx dy n m).points[i]? = some p ∧
      HalfUnit 12 p.1 (dx / 2 * Real.cos (2 * Real.pi * i / n)) ∧
      HalfUnit 12 p.2 (dy / 2 * Real.sin (2 * Real.pi * i / n))) ∧
    |(ellipticalSection ops dx dy n m).poly.area - inscribed dx dy n| ≤ n * (dx / 2 + dy / 2 + 1) / (2 * 10 ^ 12) ∧
    inscribed dx dy n < Real.pi * (dx / 2) * (dy / 2) := by
  have hx0 : 0 < dx := lt_trans (by positivity) hx
  obtain ⟨h1, h2⟩ := ellipse_props ops m hx hy hn
  refine ⟨by rw [ellipticalSection, h1]; simp, fun i hi => ?_, h2, inscribed_lt hx0 hy hn⟩
  rw [ellipticalSection, h1]
  exact ⟨roundPt 12 (ellipsePt dx dy n i), by simp [hi], roundTo_near 12 _, roundTo_near 12 _⟩

example := C47_ellipse exOps (dx := 50) (dy := 25) (n := 40) defaultMaterial (by norm_num) (by norm_num) (by norm_num)

/-- The diameter computed from the area. -/
theorem diameterOf_sq {a : ℝ} (ha : 0 < a) {n : ℕ} (hn : 3 ≤ n) :
    0 ≤ diameterOf a n ∧ diameterOf a n ^ 2 * (n * Real.sin (2 * Real.pi / n)) = 8 * a := by
  have hn' : (3 : ℝ) ≤ n := by exact_mod_cast hn
  have hn0 : (0 : ℝ) < n := by linarith
  have hpi := Real.pi_pos
  have hx0 : 0 < Real.pi / n := by positivity
  have hx1 : Real.pi / n < Real.pi / 2 := by
    apply div_lt_div_of_pos_left hpi (by norm_num); linarith
  have ht : 0 < Real.tan (Real.pi / n) := Real.tan_pos_of_pos_of_lt_pi_div_two hx0 hx1
  have hs : 0 < Real.sin (Real.pi / n) := Real.sin_pos_of_pos_of_lt_pi hx0 (by linarith)
  have hc : 0 < Real.cos (Real.pi / n) := Real.cos_pos_of_mem_Ioo ⟨by linarith, hx1⟩
  constructor
  · rw [diameterOf]; positivity
  · have e1 : √(a / n) ^ 2 = a / n := Real.sq_sqrt (by positivity)
    have e2 : √(Real.tan (Real.pi / n)) ^ 2 = Real.tan (Real.pi / n) := Real.sq_sqrt ht.le
    rw [diameterOf, mul_pow, Real.sq_sqrt (by positivity)]
    have e3 : 2 * Real.pi / n = 2 * (Real.pi / n) := by ring
    rw [e3, Real.sin_two_mul]
    have hsq : (2 * √(a / n) * √(Real.tan (Real.pi / n))) ^ 2 = 4 * (a / n) * Real.tan (Real.pi / n) := by
      rw [mul_pow, mul_pow, e1, e2]; ring
    generalize 2 * √(a / n) * √(Real.tan (Real.pi / n)) = s at *
    have e4 : s / (2 * Real.tan (Real.pi / n)) * (s / (2 * Real.tan (Real.pi / n))) + s / 2 * (s / 2)
        = s ^ 2 * (1 / (4 * Real.tan (Real.pi / n) ^ 2) + 1 / 4) := by
      field_simp; ring
    rw [e4, hsq, Real.tan_eq_sin_div_cos]
    have h1 := Real.sin_sq_add_cos_sq (Real.pi / n)
    generalize Real.sin (Real.pi / n) = sn at *
    generalize Real.cos (Real.pi / n) = cs at *
    field_simp
    linear_combination (8 : ℝ) * h1

/-- **C47** `circular_section_by_area(area, n)`: the polygon has the requested area, up to what the rounding
of its vertices to 12 decimals can change. -/
theorem C47_by_area (ops : GeomOps) {area : ℝ} {n : ℕ} (m : Material) (ha : 1 / 10 ^ 24 < area) (hn : 3 ≤ n) :
    (circularSectionByArea ops area n m).points.length = n ∧
    |(circularSectionByArea ops area n m).poly.area - area| ≤ n * (2 * √area + 1) / (2 * 10 ^ 12) := by
  have ha0 : 0 < area := lt_trans (by positivity) ha
  obtain ⟨hD0, hD⟩ := diameterOf_sq ha0 hn
  have h2 := two_le_n_sin hn
  have hpi := Real.pi_le_four
  have hn' : (3 : ℝ) ≤ n := by exact_mod_cast hn
  have h3 : n * Real.sin (2 * Real.pi / n) ≤ 2 * Real.pi := by
    have := Real.sin_lt (show 0 < 2 * Real.pi / n by have := Real.pi_pos; positivity)
    rw [lt_div_iff₀ (by linarith)] at this
    linarith
  have hDa : area ≤ diameterOf area n ^ 2 := by nlinarith [sq_nonneg (diameterOf area n)]
  have hbig : 1 / 10 ^ 12 < diameterOf area n := by
    refine lt_of_pow_lt_pow_left₀ 2 hD0 ?_
    refine lt_of_lt_of_le ?_ hDa
    norm_num at ha ⊢
    linarith
  have hDle : diameterOf area n ≤ 2 * √area := by
    refine le_of_sq_le_sq ?_ (by positivity)
    rw [mul_pow, Real.sq_sqrt ha0.le]
    nlinarith [sq_nonneg (diameterOf area n)]
  have h := C47_circle ops m hbig hn
  refine ⟨h.1, ?_⟩
  have e : n * (1 / 2 * (diameterOf area n / 2) ^ 2 * Real.sin (2 * Real.pi / n)) = area := by
    linear_combination hD / 8
  have h' := h.2.2.1
  rw [e] at h'
  refine h'.trans ?_
  gcongr

example := C47_by_area exOps (area := 310) (n := 32) defaultMaterial (by norm_num) (by norm_num)

/-! ### Hollow circles and ellipses -/

theorem ellipse_touch (dx dy : ℝ) {k : ℕ} (hk : 0 < k) :
    (dx / 2, 0) ∈ ellipsePts dx dy (4 * k) ∧ (0, dy / 2) ∈ ellipsePts dx dy (4 * k) ∧
    (-dx / 2, 0) ∈ ellipsePts dx dy (4 * k) ∧ (0, -dy / 2) ∈ ellipsePts dx dy (4 * k) := by
  have hk' : (k : ℝ) ≠ 0 := by exact_mod_cast hk.ne'
  have mem : ∀ j < 4, ellipsePt dx dy (4 * k) (j * k) ∈ ellipsePts dx dy (4 * k) := by
    intro j hj
    rw [ellipsePts_eq]
    refine List.mem_map_of_mem (List.mem_range.2 ?_)
    nlinarith
  have ang : ∀ j : ℕ, 2 * Real.pi * ((j * k : ℕ) : ℝ) / ((4 * k : ℕ) : ℝ) = j * (Real.pi / 2) := by
    intro j; push_cast; field_simp; ring
  refine ⟨?_, ?_, ?_, ?_⟩
  · have := mem 0 (by norm_num); rw [ellipsePt, ang] at this; simpa using this
  · have := mem 1 (by norm_num); rw [ellipsePt, ang] at this; simpa using this
  · have := mem 2 (by norm_num); rw [ellipsePt, ang] at this
    rw [show ((2 : ℕ) : ℝ) * (Real.pi / 2) = Real.pi by push_cast; ring] at this
    simpa [neg_div] using this
  · have := mem 3 (by norm_num); rw [ellipsePt, ang] at this
    rw [show ((3 : ℕ) : ℝ) * (Real.pi / 2) = 3 / 2 * Real.pi by push_cast; ring, cos_three_half,
      sin_three_half] at this
    simpa [neg_div] using this

/-- `circular_section` and `elliptical_section` fill the box of their diameters if `n` is a multiple of four. -/
theorem C48_ellipse (ops : GeomOps) {dx dy : ℝ} {k : ℕ} (m : Material) (hx : 3 / 10 ^ 12 < dx) (hy : 0 < dy)
    (hk : 0 < k) :
    Documented (ellipticalSection ops dx dy (4 * k) m) (-dx / 2, dx / 2, -dy / 2, dy / 2)
      (inscribed dx dy (4 * k)) := by
  have hx0 : 0 < dx := lt_trans (by positivity) hx
  obtain ⟨t1, t2, t3, t4⟩ := ellipse_touch dx dy hk
  exact (fits_solid (E := False) ops (ellipse_area2 dx dy (by omega))
    (inscribed_nonneg hx0.le hy.le (by omega)) (ellipse_boxed hx0.le hy.le _) ⟨_, t3, rfl⟩ ⟨_, t1, rfl⟩ ⟨_, t4, rfl⟩
    ⟨_, t2, rfl⟩ (by left; linarith) (fun h => h.elim)).1

example := C48_ellipse exOps (dx := 50) (dy := 25) (k := 10) defaultMaterial (by norm_num) (by norm_num) (by norm_num)

/-- `elliptical_hollow_section`, and with `dx = dy` `circular_hollow_section`. -/
theorem C48_elliptical_hollow (ops : GeomOps) {dx dy t : ℝ} {k : ℕ} (m : Material) (hx : 3 / 10 ^ 12 < dx)
    (ht : 0 < t) (htx : 2 * t < dx) (hty : 2 * t < dy) (hk : 0 < k)
    (hcut : Cuts ops (ellipsePts dx dy (4 * k)) [ellipsePts (2 * (dx / 2 - t)) (2 * (dy / 2 - t)) (4 * k)]) :
    ∃ g, ellipticalHollowSection ops dx dy t (4 * k) m = .ok g ∧
      Documented g (-dx / 2, dx / 2, -dy / 2, dy / 2)
        (inscribed dx dy (4 * k) - inscribed (dx - 2 * t) (dy - 2 * t) (4 * k)) := by
  obtain ⟨t1, t2, t3, t4⟩ := ellipse_touch dx dy hk
  have hx0 : 0 ≤ dx := by linarith
  have hy0 : 0 ≤ dy := by linarith
  have ix : 0 ≤ 2 * (dx / 2 - t) := by linarith
  have iy : 0 ≤ 2 * (dy / 2 - t) := by linarith
  have := fits_hollow (E := False) ops (m := m) hcut (A := inscribed dx dy (4 * k) - inscribed (dx - 2 * t) (dy - 2 * t) (4 * k))
    (x0 := -dx / 2) (x1 := dx / 2) (y0 := -dy / 2) (y1 := dy / 2) ?_ (ellipse_boxed hx0 hy0 _) ?_ ⟨_, t3, rfl⟩
    ⟨_, t1, rfl⟩ ⟨_, t4, rfl⟩ ⟨_, t2, rfl⟩ (by left; linarith) (fun h => h.elim)
  · obtain ⟨g, h1, h2⟩ := this
    exact ⟨g, h1, h2.1⟩
  · simp only [List.map_cons, List.map_nil, List.sum_cons, List.sum_nil]
    rw [ellipse_area2 _ _ (by omega), ellipse_area2 _ _ (by omega), abs_half (inscribed_nonneg hx0 hy0 (by omega)),
      abs_half (inscribed_nonneg ix iy (by omega)), add_zero, show 2 * (dx / 2 - t) = dx - 2 * t by ring,
      show 2 * (dy / 2 - t) = dy - 2 * t by ring]
  · intro r hr p hp
    simp only [List.mem_singleton] at hr
    subst hr
    have := ellipse_boxed ix iy _ p hp
    simp only [InBox] at this ⊢
    refine ⟨?_, ?_, ?_, ?_⟩ <;> linarith [this.1, this.2.1, this.2.2.1, this.2.2.2]

example := C48_elliptical_hollow exOps (dx := 50) (dy := 25) (t := 2) (k := 16) defaultMaterial (by norm_num)
  (by norm_num) (by norm_num) (by norm_num) (by norm_num) rfl

theorem C48_circular_hollow (ops : GeomOps) {d t : ℝ} {k : ℕ} (m : Material) (hx : 3 / 10 ^ 12 < d)
    (ht : 0 < t) (htx : 2 * t < d) (hk : 0 < k)
    (hcut : Cuts ops (ellipsePts d d (4 * k)) [ellipsePts (2 * (d / 2 - t)) (2 * (d / 2 - t)) (4 * k)]) :
    ∃ g, circularHollowSection ops d t (4 * k) m = .ok g ∧
      Documented g (-d / 2, d / 2, -d / 2, d / 2)
        (inscribed d d (4 * k) - inscribed (d - 2 * t) (d - 2 * t) (4 * k)) :=
  C48_elliptical_hollow ops m hx ht htx htx hk hcut

example := C48_circular_hollow exOps (d := 48) (t := 16 / 5) (k := 16) defaultMaterial (by norm_num)
  (by norm_num) (by norm_num) (by norm_num) rfl

/-! ### Fillets -/

/-- **C48** The points that `draw_radius` creates lie on the circle about `pt` with radius `r`; there are `n`
of them, or the corner alone for radius zero. -/
theorem C48_fillet_points {pt : Pt} {r θ : ℝ} {n : ℕ} {ccw : Bool} {φ : ℝ} :
    (∀ p ∈ drawRadius pt r θ n ccw φ, (p.1 - pt.1) ^ 2 + (p.2 - pt.2) ^ 2 = r ^ 2) ∧
    (drawRadius pt r θ n ccw φ).length = if r = 0 then 1 else n := by
  constructor
  · intro p hp
    obtain ⟨s, -, -, rfl⟩ := mem_drawRadius hp
    simp only [onCircle]
    linear_combination r ^ 2 * Real.sin_sq_add_cos_sq (θ + (if ccw then 1 else -1) * s * φ)
  · rw [drawRadius]; split_ifs <;> simp

/-- **C48** The area of a fillet is at least that of the exact quarter circle fillet and at most that of a
straight one, and tends to the former with the number of points. -/
theorem C48_fillet_area (r : ℝ) :
    (∀ n, 2 ≤ n → (1 - Real.pi / 4) * r ^ 2 ≤ fillet r n ∧ fillet r n ≤ r ^ 2 / 2) ∧
    Filter.Tendsto (fillet r) Filter.atTop (nhds ((1 - Real.pi / 4) * r ^ 2)) := by
  refine ⟨fun n hn => ⟨le_fillet r n, fillet_le r (Or.inr hn)⟩, ?_⟩
  have key : Filter.Tendsto (fun k : ℕ => (k : ℝ) * Real.sin (Real.pi / 2 / k)) Filter.atTop (nhds (Real.pi / 2)) := by
    have hd : Filter.Tendsto (fun x : ℝ => Real.sin x / x) (nhdsWithin 0 {0}ᶜ) (nhds 1) := by
      have := (Real.hasDerivAt_sin 0).tendsto_slope
      rw [Real.cos_zero] at this
      refine this.congr fun x => ?_
      rw [slope_def_field, Real.sin_zero, sub_zero, sub_zero]
    have hx : Filter.Tendsto (fun k : ℕ => Real.pi / 2 / (k : ℝ)) Filter.atTop (nhdsWithin 0 {0}ᶜ) := by
      refine tendsto_nhdsWithin_iff.2 ⟨tendsto_const_div_atTop_nhds_zero_nat _, ?_⟩
      filter_upwards [Filter.eventually_gt_atTop 0] with k hk
      have : (0 : ℝ) < k := by exact_mod_cast hk
      have := Real.pi_pos
      simp only [Set.mem_compl_iff, Set.mem_singleton_iff]
      positivity
    have h := (hd.comp hx).const_mul (Real.pi / 2)
    rw [mul_one] at h
    refine h.congr' ?_
    filter_upwards [Filter.eventually_gt_atTop 0] with k hk
    have : (0 : ℝ) < k := by exact_mod_cast hk
    have := Real.pi_pos
    simp only [Function.comp_apply]
    field_simp
  have h2 := (key.comp (Filter.tendsto_sub_atTop_nat 1)).const_mul (1 / 2 * r ^ 2)
  have h3 := h2.const_sub (r ^ 2)
  have e : r ^ 2 - 1 / 2 * r ^ 2 * (Real.pi / 2) = (1 - Real.pi / 4) * r ^ 2 := by ring
  rw [e] at h3
  refine h3.congr fun n => ?_
  simp only [Function.comp_apply, fillet]
  ring

end SP
