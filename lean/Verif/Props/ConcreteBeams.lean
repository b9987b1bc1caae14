import Verif.Lemmas.Bars
import Mathlib.Tactic.NormNum

/-!
# C50: reinforcement of beams and columns
-/

namespace SP
open Spec

theorem layerXs_layer (off b dia cs cover y lo hi : ℝ) (n : ℕ)
    (hlo : lo = off + (if cs ≠ 0 then cs else cover) + dia / 2)
    (hhi : hi = off + b - (if cs ≠ 0 then cs else cover) - dia / 2) :
    Layer (rowAt y (layerXs off b dia cs cover n)) n y lo hi := by
  refine ⟨fun p hp => (mem_rowAt.mp hp).2, ?_, ?_⟩
  · rintro rfl
    subst hlo hhi
    simp only [rowAt, layerXs, if_true, List.range_one, List.map_cons, List.map_nil, Nat.cast_zero]
    congr 2
    ring
  · intro hn
    have e : (rowAt y (layerXs off b dia cs cover n)).map Prod.fst = layerXs off b dia cs cover n := by
      simp [rowAt, Function.comp_def]
    rw [e]
    refine ⟨by simp [layerXs], ?_⟩
    intro i hi'
    simp only [layerXs, if_neg hn, List.getElem_map, List.getElem_range]
    subst hlo hhi
    split <;> ring

/-- The positions of a layer lie between those of the outermost bars. -/
theorem layer_bounds {ps : List Pt} {n : ℕ} {y lo hi : ℝ} (h : Layer ps n y lo hi) (hle : lo ≤ hi) :
    ∀ p ∈ ps, lo ≤ p.1 ∧ p.1 ≤ hi ∧ p.2 = y := by
  intro p hp
  refine and_assoc.mp ⟨?_, h.1 p hp⟩
  by_cases hn : n = 1
  · rw [h.2.1 hn] at hp
    obtain rfl := List.mem_singleton.mp hp
    constructor <;> simp only <;> linarith
  · obtain ⟨hlen, he⟩ := h.2.2 hn
    have hm : p.1 ∈ ps.map Prod.fst := List.mem_map.mpr ⟨p, hp, rfl⟩
    obtain ⟨i, hi', hpi⟩ := List.getElem_of_mem hm
    rw [he i hi'] at hpi
    rw [← hpi]
    have hin : i + 1 ≤ n := by omega
    have hn2 : 2 ≤ n := by omega
    have hi1 : (i : ℝ) ≤ (n : ℝ) - 1 := by
      have : ((i + 1 : ℕ) : ℝ) ≤ n := by exact_mod_cast hin
      push_cast at this
      linarith
    have hn1 : (0 : ℝ) < (n : ℝ) - 1 := by
      have : (2 : ℝ) ≤ n := by exact_mod_cast hn2
      linarith
    have hg : 0 ≤ (hi - lo) / ((n : ℝ) - 1) := div_nonneg (by linarith) hn1.le
    have h1 := mul_le_mul_of_nonneg_right hi1 hg
    rw [mul_div_cancel₀ _ hn1.ne'] at h1
    have h2 : 0 ≤ (i : ℝ) * ((hi - lo) / ((n : ℝ) - 1)) := mul_nonneg (Nat.cast_nonneg i) hg
    constructor <;> linarith

/-- **C50 (`concrete_rectangular_section`).**  The requested number of bars is placed in each layer, equally spaced
between bars with the side cover, and with the clear covers to the faces. -/
theorem C50_rectangular_partial (d b diaTop : ℝ) (nTop : ℕ) (cTop diaBot : ℝ) (nBot : ℕ) (cBot : ℝ)
    (diaSide areaSide : Option ℝ) (nSide : ℕ) (cSide sTop sBot : ℝ)
    (hT : sTop = if cSide ≠ 0 then cSide else cTop) (hB : sBot = if cSide ≠ 0 then cSide else cBot)
    (h0 : 0 ≤ min cTop sTop + diaTop / 2) (h1 : 0 ≤ min cBot sBot + diaBot / 2)
    (hbT : 2 * (sTop + diaTop / 2) ≤ b) (hbB : 2 * (sBot + diaBot / 2) ≤ b) (hdT : 2 * (cTop + diaTop / 2) ≤ d)
    (hdB : 2 * (cBot + diaBot / 2) ≤ d) :
    let bars := rectangularBars d b diaTop nTop cTop diaBot nBot cBot diaSide areaSide nSide cSide
    Layer bars.top nTop (d - cTop - diaTop / 2) (sTop + diaTop / 2) (b - sTop - diaTop / 2) ∧
    Layer bars.bot nBot (cBot + diaBot / 2) (sBot + diaBot / 2) (b - sBot - diaBot / 2) ∧
    (∀ p ∈ bars.top, HasCover (rectangleOf b d) (min cTop sTop + diaTop / 2) p) ∧
    (∀ p ∈ bars.bot, HasCover (rectangleOf b d) (min cBot sBot + diaBot / 2) p) := by
  intro bars
  have l1 : Layer bars.top nTop (d - cTop - diaTop / 2) (sTop + diaTop / 2) (b - sTop - diaTop / 2) :=
    layerXs_layer 0 b diaTop cSide cTop _ _ _ nTop (by rw [← hT]; ring) (by rw [← hT]; ring)
  have l2 : Layer bars.bot nBot (cBot + diaBot / 2) (sBot + diaBot / 2) (b - sBot - diaBot / 2) :=
    layerXs_layer 0 b diaBot cSide cBot _ _ _ nBot (by rw [← hB]; ring) (by rw [← hB]; ring)
  have m1 := min_le_left cTop sTop
  have m2 := min_le_right cTop sTop
  have m3 := min_le_left cBot sBot
  have m4 := min_le_right cBot sBot
  refine ⟨l1, l2, ?_, ?_⟩
  · rintro ⟨x, y⟩ hp
    obtain ⟨e1, e2, e3⟩ := layer_bounds l1 (by linarith) _ hp
    simp only at e1 e2 e3
    apply hasCover_of_square h0
    intro u v _ _ _ _
    refine ⟨?_, ?_, ?_, ?_⟩ <;> simp only <;> linarith
  · rintro ⟨x, y⟩ hp
    obtain ⟨e1, e2, e3⟩ := layer_bounds l2 (by linarith) _ hp
    simp only at e1 e2 e3
    apply hasCover_of_square h1
    intro u v _ _ _ _
    refine ⟨?_, ?_, ?_, ?_⟩ <;> simp only <;> linarith

/-- The heights of the side bars divide the distance between the layers. -/
theorem sideY_bounds {yb yt : ℝ} (h : yb ≤ yt) {n i : ℕ} (hi : i < n) :
    yb ≤ yb + (yt - yb) / ((n : ℝ) + 1) * ((i : ℝ) + 1) ∧ yb + (yt - yb) / ((n : ℝ) + 1) * ((i : ℝ) + 1) ≤ yt := by
  have hn : (0 : ℝ) < (n : ℝ) + 1 := by positivity
  have hi' : (i : ℝ) + 1 ≤ (n : ℝ) + 1 := by
    have : (i : ℝ) ≤ n := by exact_mod_cast hi.le
    linarith
  have hg : 0 ≤ (yt - yb) / ((n : ℝ) + 1) := div_nonneg (by linarith) hn.le
  have h1 := mul_le_mul_of_nonneg_left hi' hg
  rw [div_mul_cancel₀ _ hn.ne'] at h1
  have h2 : 0 ≤ (yt - yb) / ((n : ℝ) + 1) * ((i : ℝ) + 1) := mul_nonneg hg (by positivity)
  constructor <;> linarith

/-- **C50 (side bars of `concrete_rectangular_section`).**  With their diameter and area given, `n` bars are placed on
each side, at the same distance from each other and from the top and bottom layers. -/
theorem C50_side_bars_partial (d b diaTop : ℝ) (nTop : ℕ) (cTop diaBot : ℝ) (nBot : ℕ) (cBot ds as : ℝ) (n : ℕ)
    (cSide yb yt : ℝ) (hds : ds ≠ 0) (has : as ≠ 0) (hyb : yb = cBot + diaBot / 2) (hyt : yt = d - cTop - diaTop / 2) :
    let side := (rectangularBars d b diaTop nTop cTop diaBot nBot cBot (some ds) (some as) n cSide).side
    side.length = 2 * n ∧
    (∀ i < n, side[2 * i]? = some (cSide + ds / 2, yb + (yt - yb) / ((n : ℝ) + 1) * ((i : ℝ) + 1)) ∧
      side[2 * i + 1]? = some (b - cSide - ds / 2, yb + (yt - yb) / ((n : ℝ) + 1) * ((i : ℝ) + 1))) ∧
    (0 ≤ yb → yb ≤ yt → yt ≤ d → 0 ≤ cSide + ds / 2 → 2 * (cSide + ds / 2) ≤ b →
      ∀ ρ, 0 ≤ ρ → ρ ≤ cSide + ds / 2 → ρ ≤ yb → ρ ≤ d - yt → ∀ p ∈ side, HasCover (rectangleOf b d) ρ p) := by
  intro side
  have key : side = (List.range n).flatMap fun i : ℕ =>
      [(cSide + ds / 2, yb + (yt - yb) / ((n : ℝ) + 1) * ((i : ℝ) + 1)),
       (b - cSide - ds / 2, yb + (yt - yb) / ((n : ℝ) + 1) * ((i : ℝ) + 1))] := by
    show (rectangularBars d b diaTop nTop cTop diaBot nBot cBot (some ds) (some as) n cSide).side = _
    unfold rectangularBars
    simp only
    rw [if_pos ⟨as, rfl, has⟩]
    rcases Nat.eq_zero_or_pos n with h | h
    · subst h
      rfl
    · rw [if_pos ⟨hds, h.ne'⟩]
      simp only [hyb, hyt]
      congr 1
      funext i
      refine List.cons_eq_cons.mpr ⟨?_, List.cons_eq_cons.mpr ⟨?_, rfl⟩⟩ <;>
        refine Prod.ext ?_ ?_ <;> simp only <;> ring
  have gen : ∀ (f g : ℕ → Pt) (n : ℕ), ((List.range n).flatMap fun i => [f i, g i]).length = 2 * n ∧
      ∀ i < n, ((List.range n).flatMap fun i => [f i, g i])[2 * i]? = some (f i) ∧
        ((List.range n).flatMap fun i => [f i, g i])[2 * i + 1]? = some (g i) := by
    intro f g n
    induction n with
    | zero => exact ⟨rfl, nofun⟩
    | succ n ih =>
      rw [List.range_succ, List.flatMap_append]
      have hl : ((List.range n).flatMap fun i => [f i, g i]).length = 2 * n := ih.1
      refine ⟨by rw [List.length_append, hl]; simp; ring, ?_⟩
      intro i hi
      rcases Nat.lt_succ_iff_lt_or_eq.mp hi with h | h
      · rw [List.getElem?_append_left (by omega), List.getElem?_append_left (by omega)]
        exact ih.2 i h
      · subst h
        rw [List.getElem?_append_right (by omega), List.getElem?_append_right (by omega), hl]
        simp
  refine ⟨?_, ?_, ?_⟩
  · rw [key]
    exact (gen _ _ n).1
  · rw [key]
    exact (gen _ _ n).2
  · intro h0 h1 h2 h3 h4 ρ hρ r1 r2 r3 p hp
    rw [key] at hp
    obtain ⟨i, hi, hp⟩ := List.mem_flatMap.mp hp
    obtain ⟨s1, s2⟩ := sideY_bounds h1 (List.mem_range.mp hi)
    simp only [List.mem_cons, List.not_mem_nil, or_false] at hp
    rcases hp with rfl | rfl
    all_goals
      apply hasCover_of_square hρ
      intro u v _ _ _ _
      refine ⟨?_, ?_, ?_, ?_⟩ <;> simp only <;> linarith

/-- A beam of 600 by 300 with 20 of clear cover satisfies the hypotheses. -/
example : (0 : ℝ) ≤ min 20 30 + 16 / 2 ∧ 2 * ((30 : ℝ) + 16 / 2) ≤ 300 ∧ 2 * ((20 : ℝ) + 16 / 2) ≤ 600 := by
  norm_num

/-- **C50 is violated for side bars whose diameter is not given**: the bars are placed on the left edge of the
section, both of each pair at the same place, and so without cover. -/
theorem C50_side_bars_violated :
    ∃ p ∈ (rectangularBars 600 300 16 3 20 20 3 30 none (some 110) 2 30).side,
      p.1 = 0 ∧ ¬ HasCover (rectangleOf 300 600) 1 p := by
  refine ⟨(0, 30 + 20 / 2 + 0 * (((0 : ℕ) : ℝ) + 1)), ?_, rfl, ?_⟩
  · unfold rectangularBars
    simp only
    rw [if_pos ⟨110, rfl, by norm_num⟩]
    exact List.mem_flatMap.mpr ⟨0, by simp, List.mem_cons_self ..⟩
  · intro h
    have := (h (-1, 30 + 20 / 2 + 0 * (((0 : ℕ) : ℝ) + 1)) (by norm_num)).1
    norm_num at this

/-- **C50 (`concrete_tee_section`).**  The top layer lies in the flange, the bottom layer and the side bars in the
web; both are centred on the `y` axis. -/
theorem C50_tee_partial (d b bF diaTop : ℝ) (nTop : ℕ) (cTop diaBot : ℝ) (nBot : ℕ) (cBot ds as : ℝ) (n : ℕ)
    (cSide sTop sBot yb yt : ℝ) (hds : ds ≠ 0) (has : as ≠ 0) (hT : sTop = if cSide ≠ 0 then cSide else cTop)
    (hB : sBot = if cSide ≠ 0 then cSide else cBot) (hyb : yb = cBot + diaBot / 2) (hyt : yt = d - cTop - diaTop / 2) :
    let bars := teeBars d b bF diaTop nTop cTop diaBot nBot cBot (some ds) (some as) n cSide
    Layer bars.top nTop yt (-(bF / 2) + sTop + diaTop / 2) (bF / 2 - sTop - diaTop / 2) ∧
    Layer bars.bot nBot yb (-(b / 2) + sBot + diaBot / 2) (b / 2 - sBot - diaBot / 2) ∧
    bars.side = (List.range n).flatMap fun i : ℕ =>
      [(-(b / 2) + cSide + ds / 2, yb + (yt - yb) / ((n : ℝ) + 1) * ((i : ℝ) + 1)),
       (b / 2 - cSide - ds / 2, yb + (yt - yb) / ((n : ℝ) + 1) * ((i : ℝ) + 1))] := by
  intro bars
  refine ⟨?_, ?_, ?_⟩
  · rw [hyt]
    exact layerXs_layer (-bF / 2) bF diaTop cSide cTop _ _ _ nTop (by rw [← hT]; ring) (by rw [← hT]; ring)
  · rw [hyb]
    exact layerXs_layer (-b / 2) b diaBot cSide cBot _ _ _ nBot (by rw [← hB]; ring) (by rw [← hB]; ring)
  · show (teeBars d b bF diaTop nTop cTop diaBot nBot cBot (some ds) (some as) n cSide).side = _
    unfold teeBars
    simp only
    rw [if_pos ⟨as, rfl, has⟩]
    rcases Nat.eq_zero_or_pos n with h | h
    · subst h
      rfl
    · rw [if_pos ⟨hds, h.ne'⟩]
      simp only [hyb, hyt]
      congr 1
      funext i
      refine List.cons_eq_cons.mpr ⟨?_, List.cons_eq_cons.mpr ⟨?_, rfl⟩⟩ <;>
        refine Prod.ext ?_ ?_ <;> simp only <;> ring

/-! ### Columns -/

theorem linspace_nat {n : ℕ} (hn : 2 ≤ n) (start stop : ℝ) :
    linspace start stop (n : ℤ) = .ok (runOf (n - 1) start stop) := by
  obtain ⟨m, rfl⟩ : ∃ m, n = m + 1 := ⟨n - 1, by omega⟩
  have := linspace_succ m start stop
  push_cast
  simpa using this

theorem runOf_length (n : ℕ) (a b : ℝ) : (runOf n a b).length = n + 1 := by simp [runOf]

theorem runOf_nodup {n : ℕ} {a b : ℝ} (h : a < b) : (runOf n a b).Nodup := by
  unfold runOf
  refine List.Nodup.map_on ?_ List.nodup_range
  intro i hi j hj he
  rcases Nat.eq_zero_or_pos n with h0 | h0
  · subst h0
    simp at hi hj
    omega
  have hg : 0 < (b - a) / (n : ℝ) := div_pos (by linarith) (by exact_mod_cast h0)
  have : (i : ℝ) = j := mul_right_cancel₀ hg.ne' (by linarith)
  exact_mod_cast this

theorem runOf_even {n : ℕ} (hn : 2 ≤ n) (a b : ℝ) : Even n a b (runOf (n - 1) a b) := by
  refine ⟨by rw [runOf_length]; omega, ?_⟩
  intro i hi
  simp only [runOf, List.getElem_map, List.getElem_range]
  rw [Nat.cast_sub (by omega), Nat.cast_one]

/-- What the slice `[1:-1]` keeps, for a run without repetitions. -/
theorem inner_spec {l : List ℝ} {a z : ℝ} (ha : ∃ t, l = a :: t) (hz : ∃ t, l = t ++ [z]) (hn : l.Nodup)
    (haz : a ≠ z) : (inner l).Nodup ∧ (inner l).length = l.length - 2 ∧ ∀ x, x ∈ inner l ↔ x ∈ l ∧ x ≠ a ∧ x ≠ z := by
  obtain ⟨t, rfl⟩ := ha
  obtain ⟨u, hu⟩ := hz
  cases u with
  | nil => exact absurd (by simpa using congrArg List.head? hu) haz
  | cons v u' =>
    have ht : t = u' ++ [z] := by simpa using congrArg List.tail hu
    subst ht
    have e : inner (a :: (u' ++ [z])) = u' := by
      unfold inner
      rw [List.drop_succ_cons, List.drop_zero, List.dropLast_concat]
    rw [e]
    rw [List.nodup_cons, List.nodup_append] at hn
    obtain ⟨h1, h2, -, h3⟩ := hn
    refine ⟨h2, by simp, fun x => ⟨fun hx => ⟨by simp [hx], ?_, ?_⟩, ?_⟩⟩
    · rintro rfl
      exact h1 (by simp [hx])
    · exact fun e => h3 x hx z (by simp) e
    · rintro ⟨hx, hxa, hxz⟩
      simpa [hxa, hxz] using hx

/-- **C50 (`concrete_column_section`, bars round the perimeter).**  There are `2 n_x + 2 n_y - 4` bars, no two at the
same place; the rows next to the top and bottom have `n_x` equally spaced bars, the columns next to the sides `n_y`;
all bars have the clear cover. -/
theorem C50_column_partial (d b dia c : ℝ) (nx ny : ℕ) (hx : 2 ≤ nx) (hy : 2 ≤ ny) (hρ : 0 ≤ c + dia / 2)
    (hb : 2 * (c + dia / 2) < b) (hd : 2 * (c + dia / 2) < d) :
    ∃ ps xs ys, columnBars d b dia nx ny c false = .ok ps ∧ ps.Nodup ∧ ps.length = 2 * nx + 2 * ny - 4 ∧
      (∀ p ∈ ps, HasCover (rectangleOf b d) (c + dia / 2) p) ∧
      Even nx (c + dia / 2) (b - c - dia / 2) xs ∧ Even ny (c + dia / 2) (d - c - dia / 2) ys ∧
      ∀ x y, (x, y) ∈ ps ↔ (x ∈ xs ∧ (y = c + dia / 2 ∨ y = d - c - dia / 2)) ∨
        ((x = c + dia / 2 ∨ x = b - c - dia / 2) ∧ y ∈ ys) := by
  classical
  set X := runOf (nx - 1) (c + dia / 2) (b - c - dia / 2) with hX
  set Y := runOf (ny - 1) (c + dia / 2) (d - c - dia / 2) with hY
  have e : columnBars d b dia nx ny c false = .ok
      (rowAt (d - c - dia / 2) X ++ rowAt (c + dia / 2) X ++ colAt (b - c - dia / 2) Y ++ colAt (c + dia / 2) Y).dedup := by
    unfold columnBars
    simp only [linspace_nat hx, linspace_nat hy]
    simp [bind, Except.bind, pure, Except.pure, ← hX, ← hY]
  have memiff : ∀ x y, (x, y) ∈ (rowAt (d - c - dia / 2) X ++ rowAt (c + dia / 2) X ++ colAt (b - c - dia / 2) Y
      ++ colAt (c + dia / 2) Y).dedup ↔ (x ∈ X ∧ (y = c + dia / 2 ∨ y = d - c - dia / 2)) ∨
        ((x = c + dia / 2 ∨ x = b - c - dia / 2) ∧ y ∈ Y) := by
    intro x y
    rw [List.mem_dedup]
    simp only [List.mem_append, mem_rowAt, mem_colAt]
    tauto
  refine ⟨_, X, Y, e, List.nodup_dedup _, ?_, ?_, runOf_even hx _ _, runOf_even hy _ _, memiff⟩
  · -- the same bars without repetitions
    have hXc := runOf_cons (nx - 1) (c + dia / 2) (b - c - dia / 2)
    have hYc := runOf_cons (ny - 1) (c + dia / 2) (d - c - dia / 2)
    have hYz := runOf_concat (n := ny - 1) (start := c + dia / 2) (stop := d - c - dia / 2) (by omega)
    obtain ⟨i1, i2, i3⟩ := inner_spec hYc hYz (runOf_nodup (by linarith)) (by linarith)
    rw [← hY] at i1 i2 i3
    have Xn : X.Nodup := runOf_nodup (by linarith)
    have x0 : c + dia / 2 ∈ X := runOf_start _ _ _
    have x1 : b - c - dia / 2 ∈ X := runOf_stop _ _ (by omega)
    have y0 : c + dia / 2 ∈ Y := runOf_start _ _ _
    have y1 : d - c - dia / 2 ∈ Y := runOf_stop _ _ (by omega)
    let L := rowAt (d - c - dia / 2) X ++ rowAt (c + dia / 2) X ++ colAt (b - c - dia / 2) (inner Y)
      ++ colAt (c + dia / 2) (inner Y)
    have rowN : ∀ y (l : List ℝ), l.Nodup → (rowAt y l).Nodup := fun y l hl =>
      hl.map (fun a b h => congrArg Prod.fst h)
    have colN : ∀ x (l : List ℝ), l.Nodup → (colAt x l).Nodup := fun x l hl =>
      hl.map (fun a b h => congrArg Prod.snd h)
    have Ln : L.Nodup := by
      refine List.Nodup.append (List.Nodup.append (List.Nodup.append (rowN _ _ Xn) (rowN _ _ Xn) ?_) (colN _ _ i1) ?_)
        (colN _ _ i1) ?_
      · intro p h1 h2
        rw [mem_rowAt] at h1 h2
        linarith [h1.2, h2.2]
      · intro p h1 h2
        rw [List.mem_append, mem_rowAt, mem_rowAt] at h1
        rw [mem_colAt, i3] at h2
        rcases h1 with h1 | h1
        · exact h2.2.2.2 h1.2
        · exact h2.2.2.1 h1.2
      · intro p h1 h2
        rw [List.mem_append, List.mem_append, mem_rowAt, mem_rowAt, mem_colAt] at h1
        rw [mem_colAt, i3] at h2
        rcases h1 with (h1 | h1) | h1
        · exact h2.2.2.2 h1.2
        · exact h2.2.2.1 h1.2
        · linarith [h1.1, h2.1]
    have perm : (rowAt (d - c - dia / 2) X ++ rowAt (c + dia / 2) X ++ colAt (b - c - dia / 2) Y
        ++ colAt (c + dia / 2) Y).dedup.Perm L := by
      rw [List.perm_ext_iff_of_nodup (List.nodup_dedup _) Ln]
      rintro ⟨x, y⟩
      rw [memiff]
      simp only [L, List.mem_append, mem_rowAt, mem_colAt, i3]
      constructor
      · rintro (⟨h1, h2 | h2⟩ | ⟨h1 | h1, h2⟩)
        · exact Or.inl (Or.inl (Or.inr ⟨h1, h2⟩))
        · exact Or.inl (Or.inl (Or.inl ⟨h1, h2⟩))
        · by_cases ha : y = c + dia / 2
          · exact Or.inl (Or.inl (Or.inr ⟨h1 ▸ x0, ha⟩))
          · by_cases hb' : y = d - c - dia / 2
            · exact Or.inl (Or.inl (Or.inl ⟨h1 ▸ x0, hb'⟩))
            · exact Or.inr ⟨h1, h2, ha, hb'⟩
        · by_cases ha : y = c + dia / 2
          · exact Or.inl (Or.inl (Or.inr ⟨h1 ▸ x1, ha⟩))
          · by_cases hb' : y = d - c - dia / 2
            · exact Or.inl (Or.inl (Or.inl ⟨h1 ▸ x1, hb'⟩))
            · exact Or.inl (Or.inr ⟨h1, h2, ha, hb'⟩)
      · rintro (((⟨h1, h2⟩ | ⟨h1, h2⟩) | ⟨h1, h2, -⟩) | ⟨h1, h2, -⟩)
        · exact Or.inl ⟨h1, Or.inr h2⟩
        · exact Or.inl ⟨h1, Or.inl h2⟩
        · exact Or.inr ⟨Or.inr h1, h2⟩
        · exact Or.inr ⟨Or.inl h1, h2⟩
    rw [perm.length_eq]
    simp only [L, List.length_append, rowAt, colAt, List.length_map, i2]
    rw [hX, hY, runOf_length, runOf_length]
    omega
  · rintro ⟨x, y⟩ hp
    rw [memiff] at hp
    have bX : ∀ x ∈ X, c + dia / 2 ≤ x ∧ x ≤ b - c - dia / 2 := fun x hx => runOf_mem (by linarith) hx
    have bY : ∀ y ∈ Y, c + dia / 2 ≤ y ∧ y ≤ d - c - dia / 2 := fun y hy => runOf_mem (by linarith) hy
    apply hasCover_of_square hρ
    intro u v _ _ _ _
    rcases hp with ⟨h1, h2⟩ | ⟨h1, h2⟩
    · obtain ⟨_, _⟩ := bX _ h1
      rcases h2 with h2 | h2 <;> refine ⟨?_, ?_, ?_, ?_⟩ <;> simp only <;> linarith
    · obtain ⟨_, _⟩ := bY _ h2
      rcases h1 with h1 | h1 <;> refine ⟨?_, ?_, ?_, ?_⟩ <;> simp only <;> linarith

/-- **C50 (`concrete_column_section`, filled).**  There are `n_x` times `n_y` bars, on a regular grid, all with the
clear cover. -/
theorem C50_column_filled_partial (d b dia c : ℝ) (nx ny : ℕ) (hx : 2 ≤ nx) (hy : 2 ≤ ny) (hρ : 0 ≤ c + dia / 2)
    (hb : 2 * (c + dia / 2) < b) (hd : 2 * (c + dia / 2) < d) :
    ∃ ps xs ys, columnBars d b dia nx ny c true = .ok ps ∧ ps.length = nx * ny ∧
      (∀ p ∈ ps, HasCover (rectangleOf b d) (c + dia / 2) p) ∧
      Even nx (c + dia / 2) (b - c - dia / 2) xs ∧ Even ny (c + dia / 2) (d - c - dia / 2) ys ∧
      ∀ x y, (x, y) ∈ ps ↔ x ∈ xs ∧ y ∈ ys := by
  set X := runOf (nx - 1) (c + dia / 2) (b - c - dia / 2) with hX
  set Y := runOf (ny - 1) (c + dia / 2) (d - c - dia / 2) with hY
  refine ⟨gridYX Y X, X, Y, ?_, ?_, ?_, runOf_even hx _ _, runOf_even hy _ _, fun x y => mem_gridYX⟩
  · unfold columnBars
    simp only [linspace_nat hx, linspace_nat hy]
    rfl
  · unfold gridYX
    rw [List.length_flatMap]
    simp only [List.length_map, List.map_const', List.sum_replicate, smul_eq_mul]
    rw [hX, hY, runOf_length, runOf_length, Nat.sub_add_cancel (by omega), Nat.sub_add_cancel (by omega), Nat.mul_comm]
  · refine forall_gridYX (within_run (by linarith)) fun x hxX y h1 h2 => ?_
    obtain ⟨_, _⟩ := runOf_mem (by linarith) hxX
    apply hasCover_of_square hρ
    intro u v _ _ _ _
    refine ⟨?_, ?_, ?_, ?_⟩ <;> simp only <;> linarith

/-- A column of 600 by 300 with 3 by 6 bars of diameter 25 and 35 of cover satisfies the hypotheses. -/
example : 2 * ((35 : ℝ) + 25 / 2) < 300 ∧ 2 * ((35 : ℝ) + 25 / 2) < 600 ∧ (0 : ℝ) ≤ 35 + 25 / 2 := by norm_num

/-- **C50 is violated for one bar across the width**: the documentation announces a `ValueError` for fewer than two
bars, but there is none, and all bars are on the left. -/
theorem C50_column_violated :
    ∃ ps, columnBars 600 300 25 1 6 35 true = .ok ps ∧ ps ≠ [] ∧ ∀ p ∈ ps, p.1 = 35 + 25 / 2 := by
  refine ⟨gridYX (runOf 5 (35 + 25 / 2) (600 - 35 - 25 / 2)) (runOf 0 (35 + 25 / 2) (300 - 35 - 25 / 2)), ?_, ?_, ?_⟩
  · unfold columnBars
    have e1 := linspace_succ 0 (35 + 25 / 2) (300 - 35 - 25 / 2)
    have e2 := linspace_succ 5 (35 + 25 / 2) (600 - 35 - 25 / 2)
    norm_num only at e1 e2 ⊢
    simp only [e1, e2]
    rfl
  · intro h
    have : ((35 : ℝ) + 25 / 2, (35 : ℝ) + 25 / 2) ∈ ([] : List Pt) := by
      rw [← h]
      exact mem_gridYX.mpr ⟨runOf_start _ _ _, runOf_start _ _ _⟩
    simp at this
  · intro p hp
    have := (mem_gridYX.mp hp).1
    simpa [runOf] using this

/-! ### Circular columns -/

/-- **C50 (`concrete_circular_section`).**  At least two bars are required; then the requested number of bars is
placed, each turned from the one before (the first from the last) by the same angle, with the clear cover in a circle of
the given diameter. -/
theorem C50_circular_partial (d dia c : ℝ) (n : ℕ) (hr : 0 ≤ d / 2 - c - dia / 2) (hρ : 0 ≤ c + dia / 2) :
    (n < 2 → circularBars d dia c n = .error .valueError) ∧
    (2 ≤ n → ∃ ps, circularBars d dia c n = .ok ps ∧ ps.length = n ∧
      (∀ p ∈ ps, HasCover (discOf (d / 2)) (c + dia / 2) p) ∧
      ps[0]? = some (d / 2 - c - dia / 2, 0) ∧
      ∀ i (h : i < ps.length), ps[(i + 1) % n]? = some (turned (2 * Real.pi / n) ps[i])) := by
  constructor
  · intro hn
    unfold circularBars
    rw [if_pos hn]
  · intro hn
    unfold circularBars
    rw [if_neg (by omega)]
    have hn0 : (n : ℝ) ≠ 0 := by
      have : n ≠ 0 := by omega
      exact_mod_cast this
    refine ⟨_, rfl, by simp, ?_, ?_, ?_⟩
    · intro p hp
      obtain ⟨i, -, rfl⟩ := List.mem_map.mp hp
      intro q hq
      simp only at hq
      show q.1 ^ 2 + q.2 ^ 2 ≤ (d / 2) ^ 2
      generalize (i : ℝ) * (2 * Real.pi / n) = θ at hq
      generalize hR : d / 2 - c - dia / 2 = r at hq hr
      generalize hP : c + dia / 2 = ρ at hq hρ
      have hd : d / 2 = r + ρ := by rw [← hR, ← hP]; ring
      rw [hd]
      have cs := Real.cos_sq_add_sin_sq θ
      -- Cauchy-Schwarz
      have key : ((q.1 - r * Real.cos θ) * Real.cos θ + (q.2 - r * Real.sin θ) * Real.sin θ) ≤ ρ := by
        apply le_of_sq_le_sq _ hρ
        nlinarith [sq_nonneg ((q.1 - r * Real.cos θ) * Real.sin θ - (q.2 - r * Real.sin θ) * Real.cos θ)]
      have k2 := mul_le_mul_of_nonneg_left key hr
      have e : q.1 ^ 2 + q.2 ^ 2 = ((q.1 - r * Real.cos θ) ^ 2 + (q.2 - r * Real.sin θ) ^ 2)
          + 2 * (r * ((q.1 - r * Real.cos θ) * Real.cos θ + (q.2 - r * Real.sin θ) * Real.sin θ))
          + r ^ 2 * (Real.cos θ ^ 2 + Real.sin θ ^ 2) := by ring
      rw [cs] at e
      rw [e]
      linarith [add_sq r ρ]
    · have h0 : (List.range n)[0]? = some 0 := by
        rw [List.getElem?_range (by omega)]
      rw [List.getElem?_map, h0]
      simp
    · intro i hi
      have hi' : i < n := by simpa using hi
      rw [List.getElem?_map, List.getElem?_range (Nat.mod_lt _ (by omega))]
      simp only [Option.map_some, List.getElem_map, List.getElem_range, turned]
      have hang : ∃ k : ℕ, ((i : ℝ) + 1) = (((i + 1) % n : ℕ) : ℝ) + k * n := by
        refine ⟨(i + 1) / n, ?_⟩
        have := Nat.mod_add_div (i + 1) n
        have h2 : (((i + 1) % n + n * ((i + 1) / n) : ℕ) : ℝ) = ((i + 1 : ℕ) : ℝ) := by rw [this]
        push_cast at h2
        linarith
      obtain ⟨k, hk⟩ := hang
      have ha : (((i + 1) % n : ℕ) : ℝ) * (2 * Real.pi / n) + k * (2 * Real.pi)
          = (i : ℝ) * (2 * Real.pi / n) + 2 * Real.pi / n := by
        have : (i : ℝ) * (2 * Real.pi / n) + 2 * Real.pi / n = ((i : ℝ) + 1) * (2 * Real.pi / n) := by ring
        rw [this, hk]
        field_simp
      have hc := Real.cos_add_nat_mul_two_pi ((((i + 1) % n : ℕ) : ℝ) * (2 * Real.pi / n)) k
      have hs := Real.sin_add_nat_mul_two_pi ((((i + 1) % n : ℕ) : ℝ) * (2 * Real.pi / n)) k
      rw [ha, Real.cos_add] at hc
      rw [ha, Real.sin_add] at hs
      rw [← hc, ← hs]
      congr 1
      refine Prod.ext ?_ ?_ <;> simp only <;> ring

/-- A column of diameter 450 with bars of 28 and 45 of cover satisfies the hypotheses. -/
example : (0 : ℝ) ≤ 450 / 2 - 45 - 28 / 2 ∧ (0 : ℝ) ≤ 45 + 28 / 2 := by norm_num

end SP
