import Verif.Props.Girders

/-!
# C75: Super-T girders
-/

namespace SP

open Spec

theorem superT_slope : ∃ h : ℝ, √(1 + (10.556 : ℝ) ^ 2) = h ∧ h ^ 2 = 1 + 10.556 ^ 2 ∧ 10.603 < h ∧ h < 10.604 := by
  refine ⟨_, rfl, Real.sq_sqrt (by norm_num), ?_, ?_⟩
  · rw [Real.lt_sqrt (by norm_num)]; norm_num
  · rw [Real.sqrt_lt' (by norm_num)]; norm_num

section
variable {sl wn d tb w tw tf : ℝ}

/-- The point where the inner faces of the webs meet the bottom slab. -/
theorem superT_inner (h1 : 5 ≤ sl) (x0 : ℝ) {y10 y20 pb : ℝ} (hpb : pb = x0 + y10 / 10.556) :
    ∃ u, u * (sl - 1 / 10.556) = x0 + y20 / 10.556 ∧
      1 / (1 / 10.556 - sl) * (y10 / 10.556 - y20 * sl - pb) = y20 + u ∧
      sl * (y20 - 1 / (1 / 10.556 - sl) * (y10 / 10.556 - y20 * sl - pb)) = -(sl * u) := by
  have hk : sl - 1 / 10.556 ≠ 0 := by norm_num; linarith
  have hk' : 1 / 10.556 - sl ≠ 0 := by norm_num; linarith
  have e : 1 / (1 / 10.556 - sl) * (y10 / 10.556 - y20 * sl - pb) = y20 + (x0 + y20 / 10.556) / (sl - 1 / 10.556) := by
    rw [one_div_mul_eq_div, div_eq_iff hk', show 1 / 10.556 - sl = -(sl - 1 / 10.556) by ring, hpb]
    have := div_mul_cancel₀ (x0 + y20 / 10.556) hk
    linear_combination this
  exact ⟨(x0 + y20 / 10.556) / (sl - 1 / 10.556), div_mul_cancel₀ _ hk, e, by rw [e]; ring⟩

end

/-- The girder exists, for every type, era and web thickness. -/
theorem superT_ok (ops : GeomOps) (m : Material) {k j : ℕ} {d tb tn wn sl w tf : ℝ} {tw : Option ℝ}
    (hk : superT[k]? = some (d, tb, tn)) (hj : superTEra[j]? = some (wn, sl)) (hkj : ¬ (k = 4 ∧ j = 0)) :
    superTSection ops (k + 1) (j + 1) w tw tf m = .ok (libGeom ops (superTPts sl wn d tb w (tw.getD tn) tf) m) ∧
      675 ≤ d ∧ d ≤ 1725 ∧ 240 ≤ tb ∧ tb ≤ 325 ∧ 100 ≤ tn ∧ tn ≤ 120 ∧ 920 ≤ wn ∧ wn ≤ 1027 ∧ 5 ≤ sl ∧ sl ≤ 5.347 := by
  have hkl : k < 5 := by
    have := (List.getElem?_eq_some_iff.1 hk).1
    simpa [superT] using this
  have hjl : j < 2 := by
    have := (List.getElem?_eq_some_iff.1 hj).1
    simpa [superTEra] using this
  obtain rfl | rfl : j = 0 ∨ j = 1 := by omega
  all_goals obtain rfl | rfl | rfl | rfl | rfl : k = 0 ∨ k = 1 ∨ k = 2 ∨ k = 3 ∨ k = 4 := by omega
  all_goals first | exact absurd ⟨rfl, rfl⟩ hkj | skip
  all_goals
    simp only [superT, superTEra, List.getElem?_cons_zero, List.getElem?_cons_succ, Option.some.injEq, Prod.mk.injEq] at hk hj
    obtain ⟨rfl, rfl, rfl⟩ := hk
    obtain ⟨rfl, rfl⟩ := hj
    norm_num [superTSection, superTDims]

/-- Distance from the inner face of a web. -/
theorem superT_dist {x0 y1 v h : ℝ} {P : Pt} (hv : 0 < v) (hh : √(1 + (10.556 : ℝ) ^ 2) = h) (h0 : 0 < h) :
    lineDist (x0 + y1 / 10.556, y1) (x0 + (y1 + v) / 10.556, y1 + v) P = |P.1 - (x0 + P.2 / 10.556)| * (10.556 / h) := by
  have e1 : √((x0 + (y1 + v) / 10.556 - (x0 + y1 / 10.556)) ^ 2 + (y1 + v - y1) ^ 2) = v / 10.556 * h := by
    rw [← hh, ← Real.sqrt_sq (show 0 ≤ v / 10.556 by positivity), ← Real.sqrt_mul (sq_nonneg _)]
    congr 1; ring
  rw [lineDist]
  simp only [e1]
  have e2 : 10.556 / h * (v / 10.556 * h) = |v| := by rw [abs_of_pos hv]; field_simp
  rw [div_eq_iff (by positivity), mul_assoc, e2, ← abs_mul, ← abs_neg]
  congr 1; ring

theorem superT_face (sl wn d tb w tw tf : ℝ) (hd : 675 ≤ d) (hd' : d ≤ 1725) (hb : 240 ≤ tb) (hb' : tb ≤ 325)
    (hw : 920 ≤ wn) (hw' : wn ≤ 1027) (hs : 5 ≤ sl) (ht : 0 ≤ tw) (ht' : tw ≤ 300) :
    ∃ u x0 h : ℝ, √(1 + (10.556 : ℝ) ^ 2) = h ∧ h ^ 2 = 1 + 10.556 ^ 2 ∧ 10.603 < h ∧ h < 10.604 ∧
      0 ≤ u ∧ u ≤ 110 ∧ x0 = wn / 2 - tw * 10.556 / h ∧ sl * u = x0 + (u - (d - tb)) / 10.556 ∧
      superTPts sl wn d tb w tw tf =
      [(x0 + (tf - 25) / 10.556, tf - 25), (x0 + (tf - 25) / 10.556 + 25, tf - 25), (x0 + (tf - 25) / 10.556 + 25, tf),
       (w / 2, tf), (w / 2, 13), (w / 2 - 13, 0), (wn / 2 + 100, 0), (wn / 2 - 75 / h, -75),
       (wn / 2 - 75 / h - d / 10.556 + 13 / 10.556, -(d - 13)), (wn / 2 - 75 / h - d / 10.556 - 13, -d),
       (-(wn / 2 - 75 / h - d / 10.556 - 13), -d), (-(wn / 2 - 75 / h - d / 10.556 + 13 / 10.556), -(d - 13)),
       (-(wn / 2 - 75 / h), -75), (-(wn / 2 + 100), 0), (-(w / 2 - 13), 0), (-(w / 2), 13), (-(w / 2), tf),
       (-(x0 + (tf - 25) / 10.556 + 25), tf), (-(x0 + (tf - 25) / 10.556 + 25), tf - 25), (-(x0 + (tf - 25) / 10.556), tf - 25),
       (-(sl * u), u - (d - tb)), (0, -(d - tb)), (sl * u, u - (d - tb))] := by
  obtain ⟨h, e, hsq, h1, h2⟩ := superT_slope
  obtain ⟨u, u1, u2, u3⟩ := superT_inner hs (wn / 2 - tw * 10.556 / h) (y10 := tf - 25) (y20 := -(d - tb)) rfl
  have hx : tw * 10.556 / h ≤ 300 := by
    rw [div_le_iff₀ (by linarith)]; nlinarith
  have hx' : 0 ≤ tw * 10.556 / h := div_nonneg (by linarith) (by linarith)
  have k1 : 0 < sl - 1 / 10.556 := by norm_num; linarith
  have k2 : -(d - tb) / 10.556 ≤ 0 := by apply div_nonpos_of_nonpos_of_nonneg <;> linarith
  have k3 : -150 ≤ -(d - tb) / 10.556 := by rw [le_div_iff₀ (by norm_num)]; linarith
  have u0 : 0 ≤ u := by
    by_contra hu
    nlinarith
  refine ⟨u, wn / 2 - tw * 10.556 / h, h, e, hsq, h1, h2, u0, ?_, rfl, ?_, ?_⟩
  · by_contra hu
    have : 4.9 ≤ sl - 1 / 10.556 := by norm_num; linarith
    nlinarith
  · linear_combination u1
  · unfold superTPts
    simp only [e, u2]
    simp only [List.cons.injEq, Prod.mk.injEq, and_true, true_and]
    (repeat' apply And.intro) <;> ring

/-- The thickness of the right web at both ends of its outer face. -/
theorem superT_webs {sl wn d tb tw tf h u x0 : ℝ} (hd : 675 ≤ d) (hb' : tb ≤ 325)
    (ht : 10 ≤ tw) (hf : 25 ≤ tf) (e : √(1 + (10.556 : ℝ) ^ 2) = h) (hsq : h ^ 2 = 1 + 10.556 ^ 2)
    (h1 : 10.603 < h) (h2 : h < 10.604) (u1 : u ≤ 110) (hx0 : x0 = wn / 2 - tw * 10.556 / h)
    (hu : sl * u = x0 + (u - (d - tb)) / 10.556) :
    lineDist (sl * u, u - (d - tb)) (x0 + (tf - 25) / 10.556, tf - 25) (wn / 2 - 75 / h, -75) =
      tw * (10.556 ^ 2 / (1 + 10.556 ^ 2)) + 75 * (h - 10.556) / (1 + 10.556 ^ 2) ∧
    lineDist (sl * u, u - (d - tb)) (x0 + (tf - 25) / 10.556, tf - 25)
        (wn / 2 - 75 / h - d / 10.556 + 13 / 10.556, -(d - 13)) =
      tw * (10.556 ^ 2 / (1 + 10.556 ^ 2)) - 75 * 10.556 / (1 + 10.556 ^ 2) := by
  have h0 : 0 < h := by linarith
  have dist := fun P : Pt => superT_dist (x0 := x0) (y1 := u - (d - tb)) (v := tf - 25 + (d - tb) - u) (P := P) (h := h)
    (by linarith) e h0
  rw [← hu, show u - (d - tb) + (tf - 25 + (d - tb) - u) = tf - 25 by ring] at dist
  rw [dist, dist]
  obtain ⟨q, hq⟩ : ∃ q, q = 1 / h := ⟨_, rfl⟩
  have hdiv : ∀ x : ℝ, x / h = x * q := fun x => by rw [hq]; ring
  have q0 : 0 < q := by rw [hq]; positivity
  have qh : q * h = 1 := by rw [hq]; field_simp
  have hqq : 1 / (1 + (10.556 : ℝ) ^ 2) = q ^ 2 := by rw [← hsq, hq, div_pow, one_pow]
  have hdv : ∀ x : ℝ, x / (1 + 10.556 ^ 2) = x * q ^ 2 := fun x => by rw [← hqq]; ring
  simp only [hdiv, hdv, hx0]
  constructor
  · rw [abs_of_nonneg]
    · linear_combination (-75 * q) * qh
    · nlinarith
  · rw [abs_of_nonneg]
    · ring
    · have : 0 ≤ (tw * 10.556 - 75) * q := mul_nonneg (by linarith) q0.le
      have e : wn / 2 - 75 * q - d / 10.556 + 13 / 10.556 - (wn / 2 - tw * 10.556 * q + -(d - 13) / 10.556)
        = (tw * 10.556 - 75) * q := by ring
      rw [e]; exact this

theorem superT_area_pos {wn d tb w tf u x0 a b c e z : ℝ} (hd : 675 ≤ d) (hd' : d ≤ 1725)
    (hb : 240 ≤ tb) (hb' : tb ≤ 325) (hw : 920 ≤ wn) (hf : 25 ≤ tf) (hww : wn + 226 ≤ w)
    (hx : 160 ≤ x0) (hx' : x0 ≤ wn / 2) (k1 : 0 ≤ e) (k2 : e ≤ 83) (k4 : a ≤ 7.1) (k6 : b ≤ 164)
    (k7 : 0 ≤ c) (k10 : z ≤ 0) (u0 : 0 ≤ u) (u1 : u ≤ 110)
    (hu : z * 10.556 = u - (d - tb)) (hdd : b * 10.556 = d) :
    0 ≤ w * tf - 13 ^ 2 + trapezium (wn + 200) (2 * (wn / 2 - a)) 75
        + trapezium (2 * (wn / 2 - a)) (2 * (wn / 2 - a - (b - c))) (d - 88)
        + trapezium (2 * (wn / 2 - a - (b - c))) (2 * (wn / 2 - a - b - 13)) 13
        - 25 * (2 * (x0 + e + 25))
        - trapezium (2 * (x0 + e)) (2 * (x0 + z)) (tf - 25 - (u - (d - tb))) - (x0 + z) * u := by
  have p1 : 0 ≤ w * tf - 13 ^ 2 - 25 * (2 * (x0 + e + 25)) - (2 * x0 + e) * (tf - 25) := by
    nlinarith [mul_nonneg (sub_nonneg.2 hww) (by linarith : 0 ≤ tf), mul_nonneg (by linarith : 0 ≤ wn - 2 * x0) (by linarith : 0 ≤ tf - 25),
      mul_nonneg (sub_nonneg.2 k2) (by linarith : 0 ≤ tf - 25)]
  have p2 : 0 ≤ (wn - 2 * a - b + c) * (d - 88) - (2 * x0 + z) * (d - tb - u) - (x0 + z) * u := by
    have q1 : (wn - 14.2 - b) * (d - 88) ≤ (wn - 2 * a - b + c) * (d - 88) :=
      mul_le_mul_of_nonneg_right (by linarith) (by linarith)
    have q2 : (2 * x0 + z) * (d - tb - u) + (x0 + z) * u ≤ (wn + z) * (d - tb) := by
      nlinarith [mul_nonneg (by linarith : 0 ≤ wn - 2 * x0) (by linarith : 0 ≤ d - tb), mul_nonneg (by linarith : 0 ≤ x0) u0]
    have q3 : (wn + z) * (d - tb) ≤ (wn + z) * (d - 240) := mul_le_mul_of_nonneg_left (by linarith) (by linarith)
    have q4 : z ≤ -(b - 435 / 10.556) := by
      have : z * 10.556 ≤ -(b - 435 / 10.556) * 10.556 := by
        rw [hu]; norm_num at *; linarith
      linarith
    have q5 : (wn + z) * (d - 240) ≤ (wn - (b - 435 / 10.556)) * (d - 240) :=
      mul_le_mul_of_nonneg_right (by linarith) (by linarith)
    subst hdd
    nlinarith
  have : 0 ≤ (wn + 200 + 2 * (wn / 2 - a)) / 2 * 75 := by nlinarith
  have : 0 ≤ (2 * (wn / 2 - a - (b - c)) + 2 * (wn / 2 - a - b - 13)) / 2 * 13 := by nlinarith
  simp only [trapezium]
  nlinarith

/-- The bounds and the area of the girder. -/
theorem superT_documented (ops : GeomOps) (m : Material) {sl wn d tb w tf h u x0 : ℝ} (hd : 675 ≤ d) (hd' : d ≤ 1725)
    (hb : 240 ≤ tb) (hb' : tb ≤ 325) (hw : 920 ≤ wn) (hf : 25 ≤ tf) (hf' : tf ≤ 900) (hww : wn + 226 ≤ w)
    (hx : 160 ≤ x0) (hx' : x0 ≤ wn / 2)
    (h1 : 10.603 < h) (h2 : h < 10.604) (u0 : 0 ≤ u) (u1 : u ≤ 110)
    (hu : sl * u = x0 + (u - (d - tb)) / 10.556) {L : List Pt}
    (hL : L = [(x0 + (tf - 25) / 10.556, tf - 25), (x0 + (tf - 25) / 10.556 + 25, tf - 25), (x0 + (tf - 25) / 10.556 + 25, tf),
       (w / 2, tf), (w / 2, 13), (w / 2 - 13, 0), (wn / 2 + 100, 0), (wn / 2 - 75 / h, -75),
       (wn / 2 - 75 / h - d / 10.556 + 13 / 10.556, -(d - 13)), (wn / 2 - 75 / h - d / 10.556 - 13, -d),
       (-(wn / 2 - 75 / h - d / 10.556 - 13), -d), (-(wn / 2 - 75 / h - d / 10.556 + 13 / 10.556), -(d - 13)),
       (-(wn / 2 - 75 / h), -75), (-(wn / 2 + 100), 0), (-(w / 2 - 13), 0), (-(w / 2), 13), (-(w / 2), tf),
       (-(x0 + (tf - 25) / 10.556 + 25), tf), (-(x0 + (tf - 25) / 10.556 + 25), tf - 25), (-(x0 + (tf - 25) / 10.556), tf - 25),
       (-(sl * u), u - (d - tb)), (0, -(d - tb)), (sl * u, u - (d - tb))]) :
    Documented (libGeom ops L m) (-(w / 2), w / 2, -d, tf)
      (w * tf - 13 ^ 2 + trapezium (wn + 200) (2 * (wn / 2 - 75 / h)) 75
        + trapezium (2 * (wn / 2 - 75 / h)) (2 * (wn / 2 - 75 / h - (d - 13) / 10.556)) (d - 88)
        + trapezium (2 * (wn / 2 - 75 / h - (d - 13) / 10.556)) (2 * (wn / 2 - 75 / h - d / 10.556 - 13)) 13
        - 25 * (2 * (x0 + (tf - 25) / 10.556 + 25))
        - trapezium (2 * (x0 + (tf - 25) / 10.556)) (2 * (sl * u)) (tf - 25 - (u - (d - tb))) - sl * u * u) := by
  have h0 : 0 < h := by linarith
  have k1 : 0 ≤ (tf - 25) / 10.556 := by apply div_nonneg <;> linarith
  have k2 : (tf - 25) / 10.556 ≤ 83 := by rw [div_le_iff₀ (by norm_num)]; linarith
  have k3 : 0 ≤ 75 / h := by positivity
  have k4 : 75 / h ≤ 7.1 := by rw [div_le_iff₀ h0]; linarith
  have k5 : 0 ≤ d / 10.556 := by apply div_nonneg <;> linarith
  have k6 : d / 10.556 ≤ 164 := by rw [div_le_iff₀ (by norm_num)]; linarith
  have k7 : (0 : ℝ) ≤ 13 / 10.556 := by norm_num
  have k8 : (13 : ℝ) / 10.556 ≤ 2 := by norm_num
  have k9 : -150 ≤ (u - (d - tb)) / 10.556 := by rw [le_div_iff₀ (by norm_num)]; linarith
  have k10 : (u - (d - tb)) / 10.556 ≤ 0 := by apply div_nonpos_of_nonpos_of_nonneg <;> linarith
  have k11 : (d - 13) / 10.556 = d / 10.556 - 13 / 10.556 := by ring
  refine (solid_cw ops (m := m) ?_ ?_ ?_ ⟨(-(w / 2), tf), by simp [hL], rfl⟩
    ⟨(w / 2, tf), by simp [hL], rfl⟩ ⟨(wn / 2 - 75 / h - d / 10.556 - 13, -d), by simp [hL], rfl⟩ ⟨(w / 2, tf), by simp [hL], rfl⟩
    (by right; linarith [(by norm_num : (3 : ℝ) / 10 ^ 12 < 1)])).1
  · rw [hL]
    simp only [k11]
    generalize 75 / h = a
    generalize d / 10.556 = b
    generalize (13 : ℝ) / 10.556 = c
    generalize (tf - 25) / 10.556 = e
    simp only [trapezium]
    shoelace
  · have hu' : (u - (d - tb)) / 10.556 * 10.556 = u - (d - tb) := by field_simp
    have hdd : d / 10.556 * 10.556 = d := by field_simp
    rw [k11, hu]
    exact superT_area_pos hd hd' hb hb' hw hf hww hx hx' k1 k2 k4 k6 k7 k10 u0 u1 hu' hdd
  · rw [hL]
    boxes

theorem C75_super_t_partial (ops : GeomOps) (m : Material) :
    (∀ (k j : ℤ) (w : ℝ) (tw : Option ℝ) (tf : ℝ), k < 1 ∨ 5 < k ∨ j < 1 ∨ 2 < j ∨ (k = 5 ∧ j = 1) →
      superTSection ops k j w tw tf m = .error .valueError) ∧
    ∀ (k j : ℕ) (d tb tn wn sl w : ℝ) (tw : Option ℝ) (tf : ℝ), superT[k]? = some (d, tb, tn) →
      superTEra[j]? = some (wn, sl) → ¬ (k = 4 ∧ j = 0) →
      10 ≤ tw.getD tn → tw.getD tn ≤ 300 → 25 ≤ tf → tf ≤ 900 → wn + 226 ≤ w →
      ∃ g L P Q R S, superTSection ops (k + 1) (j + 1) w tw tf m = .ok g ∧ g.material = m ∧
        Documented g (-(w / 2), w / 2, -d, tf)
          (w * tf - 13 ^ 2 + trapezium (wn + 200) (2 * P.1) 75 + trapezium (2 * P.1) (2 * Q.1) (d - 88)
            + trapezium (2 * Q.1) (2 * (Q.1 - 13 / 10.556 - 13)) 13
            - 25 * (2 * (S.1 + 25)) - trapezium (2 * S.1) (2 * R.1) (S.2 - R.2) - R.1 * (R.2 + (d - tb))) ∧
        Drawn g L ∧ SymmetricUnder (fun p => (-p.1, p.2)) L ∧ L.length = 23 ∧
        Edge L (w / 2, tf) (w / 2, 13) ∧ Edge L (wn / 2 + 100, 0) P ∧
        Edge L P Q ∧ P.2 = -75 ∧ Q.2 = -(d - 13) ∧ P.1 - Q.1 = (d - 13) / 10.556 ∧
        Edge L (0, -(d - tb)) R ∧ R.1 = sl * (R.2 + (d - tb)) ∧
        Edge L R S ∧ S.2 = tf - 25 ∧ S.1 - R.1 = (S.2 - R.2) / 10.556 ∧
        |lineDist R S P - tw.getD tn| ≤ tw.getD tn / 100 ∧ |lineDist R S Q - tw.getD tn| ≤ tw.getD tn / 100 + 7.05 := by
  refine ⟨fun k j w tw tf h => ?_, ?_⟩
  · rw [superTSection]
    by_cases c1 : k < 1 ∨ k > 5
    · rw [if_pos c1]
    · rw [if_neg c1]
      by_cases c2 : j = 1 ∨ j = 2
      · rw [if_neg (not_not.2 c2), if_pos (by omega)]
      · rw [if_pos c2]
  · intro k j d tb tn wn sl w tw tf hk hj hkj ht ht' hf hf' hw
    obtain ⟨hok, b1, b2, b3, b4, b5, b6, b7, b8, b9, b10⟩ := superT_ok ops m (w := w) (tf := tf) (tw := tw) hk hj hkj
    obtain ⟨u, x0, h, e, hsq, h1, h2, u0, u1, hx0, hu, hL⟩ := superT_face sl wn d tb w (tw.getD tn) tf b1 b2 b3 b4 b7 b8 b9
      (by linarith) ht'
    have h0 : 0 < h := by linarith
    have x1 : tw.getD tn * 10.556 / h ≤ 300 := by
      rw [div_le_iff₀ (by linarith)]; nlinarith
    have x2 : 0 ≤ tw.getD tn * 10.556 / h := div_nonneg (by linarith) (by linarith)
    have hdoc := superT_documented ops m (w := w) b1 b2 b3 b4 b7 hf hf' hw (by linarith) (by linarith) h1 h2 u0 u1 hu rfl
    obtain ⟨w1, w2⟩ := superT_webs b1 b4 ht hf e hsq h1 h2 u1 hx0 hu
    rw [hL] at hok
    refine ⟨_, _, (wn / 2 - 75 / h, -75), (wn / 2 - 75 / h - d / 10.556 + 13 / 10.556, -(d - 13)), (sl * u, u - (d - tb)),
      (x0 + (tf - 25) / 10.556, tf - 25), hok, rfl, ?_, drawn_solid ops ?_, ⟨3, ?_⟩, rfl, ?_, ?_, ?_, rfl, rfl, ?_, ?_, ?_, ?_, rfl,
      ?_, ?_, ?_⟩
    · convert hdoc using 1
      simp only [trapezium]
      ring
    · refine ⟨(wn / 2 - 75 / h, -75), by simp, (wn / 2 - 75 / h - d / 10.556 + 13 / 10.556, -(d - 13)), by simp, ?_⟩
      simp only
      nlinarith [sq_nonneg (wn / 2 - 75 / h - (wn / 2 - 75 / h - d / 10.556 + 13 / 10.556))]
    · simp
    · simp [Edge, closedEdges]
    · simp [Edge, closedEdges]
    · simp [Edge, closedEdges]
    · simp only; ring
    · simp [Edge, closedEdges]
    · simp only; ring
    · simp [Edge, closedEdges]
    · simp only; rw [hu]; ring
    · rw [w1, abs_le]
      constructor <;> norm_num <;> linarith
    · rw [w2, abs_le]
      constructor <;> norm_num <;> linarith

/-- The web of a Super-T girder is thinner than its thickness at both ends of the outer face, which is not parallel
to the inner face. -/
theorem C75_violated (ops : GeomOps) (m : Material) {k j : ℕ} {d tb tn wn sl : ℝ} (w : ℝ) (tw : Option ℝ) (tf : ℝ)
    (hk : superT[k]? = some (d, tb, tn)) (hj : superTEra[j]? = some (wn, sl)) (hkj : ¬ (k = 4 ∧ j = 0))
    (ht : 10 ≤ tw.getD tn) (ht' : tw.getD tn ≤ 300) (hf : 25 ≤ tf) :
    ∃ g L P Q R S, superTSection ops (k + 1) (j + 1) w tw tf m = .ok g ∧ Drawn g L ∧
      Edge L P Q ∧ P.2 = -75 ∧ Q.2 = -(d - 13) ∧ Edge L R S ∧ S.2 = tf - 25 ∧ R.2 < -75 ∧
      lineDist R S P < tw.getD tn ∧ lineDist R S Q < lineDist R S P - 7 := by
  obtain ⟨hok, b1, b2, b3, b4, b5, b6, b7, b8, b9, b10⟩ := superT_ok ops m (w := w) (tf := tf) (tw := tw) hk hj hkj
  obtain ⟨u, x0, h, e, hsq, h1, h2, u0, u1, hx0, hu, hL⟩ := superT_face sl wn d tb w (tw.getD tn) tf b1 b2 b3 b4 b7 b8 b9
    (by linarith) ht'
  have h0 : 0 < h := by linarith
  rw [hL] at hok
  obtain ⟨w1, w2⟩ := superT_webs b1 b4 ht hf e hsq h1 h2 u1 hx0 hu
  refine ⟨_, _, (wn / 2 - 75 / h, -75), (wn / 2 - 75 / h - d / 10.556 + 13 / 10.556, -(d - 13)), (sl * u, u - (d - tb)),
    (x0 + (tf - 25) / 10.556, tf - 25), hok, drawn_solid ops ?_, ?_, rfl, rfl, ?_, rfl, ?_, ?_, ?_⟩
  · refine ⟨(wn / 2 - 75 / h, -75), by simp, (wn / 2 - 75 / h - d / 10.556 + 13 / 10.556, -(d - 13)), by simp, ?_⟩
    simp only
    nlinarith [sq_nonneg (wn / 2 - 75 / h - (wn / 2 - 75 / h - d / 10.556 + 13 / 10.556))]
  · simp [Edge, closedEdges]
  · simp [Edge, closedEdges]
  · simp only; linarith
  · rw [w1]; norm_num; linarith
  · rw [w1, w2]; norm_num; linarith

example := (C75_super_t_partial exOps defaultMaterial).2 4 1 1725 325 120 1027 5.347 2100 none 75 rfl rfl (by simp)
  (by simp; norm_num) (by simp; norm_num) (by norm_num) (by norm_num) (by norm_num)
example := C75_violated exOps defaultMaterial (k := 4) (j := 1) 2100 none 75 rfl rfl (by simp)
  (by simp; norm_num) (by simp; norm_num) (by norm_num)

end SP
