import Verif.Lemmas.Library
import Verif.Props.Align
import Verif.Props.Example

/-!
# C49: the layers of `clt_rectangular_section`

The code moves layer `i` down by `(i + 1)` times its own thickness.  The layers lie on top of each other
exactly if all thicknesses are the same.
-/

namespace SP

open Spec

theorem onGrid_nat_mul {tol : ℕ} {x : ℝ} (h : OnGrid tol x) (n : ℕ) : OnGrid tol (n * x) := by
  obtain ⟨k, rfl⟩ := h
  exact ⟨n * k, by push_cast; ring⟩

theorem rect_poly (ops : GeomOps) {d b : ℝ} (m : Material) (hd : 0 < d) (hb : 0 < b) (gd : OnGrid 12 d)
    (gb : OnGrid 12 b) : (rectangularSection ops d b m).poly = ⟨[(0, 0), (b, 0), (b, d), (0, d)], []⟩ := by
  have r0 : roundTo 12 0 = 0 := roundTo_of_onGrid ⟨0, by simp⟩
  have : roundPoly 12 ⟨[(0, 0), (b, 0), (b, d), (0, d)], []⟩ = ⟨[(0, 0), (b, 0), (b, d), (0, d)], []⟩ := by
    simp [roundPoly, roundPt, Poly.map, roundTo_of_onGrid gd, roundTo_of_onGrid gb, r0, hb.ne', hd.ne']
  exact this

/-- The layer with number `i`. -/
theorem layer_facts (ops : GeomOps) {d b : ℝ} (m : Material) (hd : 0 < d) (hb : 0 < b) (gd : OnGrid 12 d)
    (gb : OnGrid 12 b) (i : ℕ) :
    ((rectangularSection ops d b m).shift ops 0 (-d * (i + 1))).extents = (0, b, -(d * (i + 1)), -(d * i)) ∧
    ((rectangularSection ops d b m).shift ops 0 (-d * (i + 1))).poly
      = ⟨[(0, -(d * (i + 1))), (b, -(d * (i + 1))), (b, -(d * i)), (0, -(d * i))], []⟩ ∧
    ((rectangularSection ops d b m).shift ops 0 (-d * (i + 1))).material = m := by
  have r0 : roundTo 12 0 = 0 := roundTo_of_onGrid ⟨0, by simp⟩
  have g1 : OnGrid 12 (-d * (i + 1)) := by
    have := (onGrid_nat_mul gd (i + 1)).neg
    rwa [show -(((i + 1 : ℕ) : ℝ) * d) = -d * (i + 1) by push_cast; ring] at this
  have g2 : OnGrid 12 (-(d * i)) := by
    have := (onGrid_nat_mul gd i).neg
    rwa [show -((i : ℝ) * d) = -(d * i) by ring] at this
  have hp : ((rectangularSection ops d b m).shift ops 0 (-d * (i + 1))).poly
      = ⟨[(0, -(d * (i + 1))), (b, -(d * (i + 1))), (b, -(d * i)), (0, -(d * i))], []⟩ := by
    have : ((rectangularSection ops d b m).shift ops 0 (-d * (i + 1))).poly
      = roundPoly 12 ((rectangularSection ops d b m).poly.map (translate 0 (-d * (i + 1)))) := rfl
    rw [this, rect_poly ops m hd hb gd gb]
    have e : d + -d * (i + 1) = -(d * i) := by ring
    simp only [Poly.map, List.map_cons, List.map_nil, translate, zero_add, add_zero, e]
    rw [show -(d * ((i : ℝ) + 1)) = -d * (i + 1) by ring]
    simp only [roundPoly, roundPt, Poly.map, List.map_cons, List.map_nil, r0, roundTo_of_onGrid gb,
      roundTo_of_onGrid g1, roundTo_of_onGrid g2]
    rw [if_neg]
    intro h
    have := h (b, -d * (i + 1)) (by simp)
    rw [Prod.mk.injEq] at this
    exact hb.ne' this.1
  refine ⟨?_, hp, rfl⟩
  rw [Geometry.extents, hp]
  have hi : 0 ≤ d * i := by positivity
  exact ringBounds_eq (by boxes) ⟨(0, -(d * i)), by simp, rfl⟩ ⟨(b, -(d * i)), by simp, rfl⟩
    ⟨(b, -(d * (i + 1))), by simp, rfl⟩ ⟨(b, -(d * i)), by simp, rfl⟩

theorem cltLayers_ok (ops : GeomOps) {b : ℝ} (hb : 0 < b) (gb : OnGrid 12 b) :
    ∀ (ds : List ℝ) (mats : List Material) (k : ℕ), (∀ d ∈ ds, 0 < d ∧ OnGrid 12 d) → ds.length ≤ mats.length →
      ∃ l, cltLayers ops b k ds mats = .ok l ∧ (∀ g ∈ l, Built ops g) ∧
        List.Forall₂ (fun (g : Geometry) (m : Material) => g.material = m) l (mats.take ds.length) ∧
        List.Forall₂ (fun (g : Geometry) (x : ℝ × ℕ) =>
          g.extents = (0, b, -(x.1 * (x.2 + 1)), -(x.1 * x.2)) ∧ g.poly =
            ⟨[(0, -(x.1 * (x.2 + 1))), (b, -(x.1 * (x.2 + 1))), (b, -(x.1 * x.2)), (0, -(x.1 * x.2))], []⟩) l
          (ds.zipIdx k)
  | [], mats, k, _, _ => ⟨[], rfl, by simp, by simp, by simp⟩
  | d :: ds, [], k, _, hl => by simp at hl
  | d :: ds, m :: ms, k, h, hl => by
    obtain ⟨l, h1, h2, h3, h4⟩ := cltLayers_ok ops hb gb ds ms (k + 1) (fun x hx => h x (List.mem_cons_of_mem _ hx))
      (by simpa using hl)
    obtain ⟨hd, gd⟩ := h d (List.mem_cons_self ..)
    obtain ⟨f1, f2, f3⟩ := layer_facts ops m hd hb gd gb k
    refine ⟨(rectangularSection ops d b m).shift ops 0 (-d * (k + 1)) :: l, by rw [cltLayers, h1], ?_, ?_, ?_⟩
    · intro g hg
      rcases List.mem_cons.1 hg with rfl | hg
      · exact mk_built ..
      · exact h2 g hg
    · simp only [List.length_cons, List.take_succ_cons]
      exact .cons f3 h3
    · rw [List.zipIdx_cons]
      exact .cons ⟨f1, f2⟩ h4

/-- The compound of the layers. -/
theorem clt_ok (ops : GeomOps) {b : ℝ} {ds : List ℝ} {mats : List Material} (hb : 0 < b) (gb : OnGrid 12 b)
    (hd : ∀ d ∈ ds, 0 < d ∧ OnGrid 12 d) (hm : mats.length = ds.length) :
    ∃ c, cltSection ops ds mats b = .ok c ∧ c.geoms.map (·.material) = mats ∧ c.geoms.length = ds.length ∧
      ∀ (i : ℕ) (g : Geometry), c.geoms[i]? = some g → ∃ d, ds[i]? = some d ∧
        g.extents = (0, b, -(d * (i + 1)), -(d * i)) ∧
        g.poly = ⟨[(0, -(d * (i + 1))), (b, -(d * (i + 1))), (b, -(d * i)), (0, -(d * i))], []⟩ := by
  obtain ⟨l, h1, h2, h3, h4⟩ := cltLayers_ok ops hb gb ds mats 0 hd hm.ge
  obtain ⟨c, c1, c2, -⟩ := mkCompound_built ops h2
  refine ⟨c, by rw [cltSection, h1]; exact c1, ?_, ?_, ?_⟩
  · rw [c2]
    rw [← hm, List.take_length] at h3
    clear h1 h2 h4 c2 c1 hm
    induction h3 with
    | nil => rfl
    | cons h _ ih => rw [List.map_cons, h, ih]
  · rw [c2, h4.length_eq, List.length_zipIdx]
  · rw [c2]
    intro i g hg
    have hi : i < l.length := (List.getElem?_eq_some_iff.1 hg).1
    have hi' : i < ds.length := by rwa [h4.length_eq, List.length_zipIdx] at hi
    have := List.forall₂_iff_get.1 h4 |>.2 i hi (by rwa [List.length_zipIdx])
    simp only [List.get_eq_getElem, List.getElem_zipIdx, zero_add] at this
    rw [(List.getElem?_eq_some_iff.1 hg).2] at this
    exact ⟨ds[i], List.getElem?_eq_getElem hi', this.1, this.2⟩

theorem sum_const_mul {t : ℝ} : ∀ (l : List ℝ), (∀ x ∈ l, x = t) → l.sum = t * l.length
  | [], _ => by simp
  | x :: l, h => by
    rw [List.sum_cons, sum_const_mul l fun y hy => h y (List.mem_cons_of_mem _ hy), h x (List.mem_cons_self ..),
      List.length_cons]
    push_cast; ring

/-- If each thickness times its number is the sum of the thicknesses before, all are the same. -/
theorem all_eq_of_sums {ds : List ℝ} (h : ∀ (i : ℕ) (d : ℝ), ds[i]? = some d → d * i = (ds.take i).sum) :
    ∀ (i : ℕ) (d : ℝ), ds[i]? = some d → d = ds.headD 0 := by
  intro i
  induction i using Nat.strong_induction_on with
  | _ i ih =>
    intro d hd
    rcases Nat.eq_zero_or_pos i with rfl | hi
    · cases ds with
      | nil => simp at hd
      | cons x xs => simpa using hd.symm
    · have hlt : i < ds.length := (List.getElem?_eq_some_iff.1 hd).1
      have hs := h i d hd
      rw [sum_const_mul (t := ds.headD 0) (ds.take i), List.length_take, min_eq_left hlt.le] at hs
      · exact mul_right_cancel₀ (by exact_mod_cast hi.ne') hs
      · intro x hx
        obtain ⟨j, hj⟩ := List.getElem?_of_mem hx
        rw [List.getElem?_take] at hj
        split at hj
        · exact ih j (by assumption) x hj
        · cases hj

/-- **C49.** `clt_rectangular_section` returns one layer for each thickness, with the materials in the
given order; the layers are stacked from the top down without gap or overlap if and only if all the
thicknesses are equal. -/
theorem C49_layered_iff (ops : GeomOps) {b : ℝ} {ds : List ℝ} {mats : List Material} (hb : 0 < b)
    (gb : OnGrid 12 b) (hd : ∀ d ∈ ds, 0 < d ∧ OnGrid 12 d) (hm : mats.length = ds.length) :
    ∃ c, cltSection ops ds mats b = .ok c ∧ c.geoms.map (·.material) = mats ∧ c.geoms.length = ds.length ∧
      (Layered b ds c.geoms ↔ ∀ x ∈ ds, ∀ y ∈ ds, x = y) := by
  obtain ⟨c, h1, h2, h3, h4⟩ := clt_ok ops hb gb hd hm
  refine ⟨c, h1, h2, h3, ?_, ?_⟩
  · rintro ⟨-, hl⟩
    have key : ∀ (i : ℕ) (d : ℝ), ds[i]? = some d → d * i = (ds.take i).sum := by
      intro i d hi
      have hlt : i < c.geoms.length := by rw [h3]; exact (List.getElem?_eq_some_iff.1 hi).1
      obtain ⟨d', e, f, -⟩ := h4 i _ (List.getElem?_eq_getElem hlt)
      rw [hi, Option.some_inj] at e
      subst e
      have := hl i _ (List.getElem?_eq_getElem hlt)
      rw [f, Prod.mk.injEq, Prod.mk.injEq, Prod.mk.injEq] at this
      exact neg_injective this.2.2.2
    have hall := all_eq_of_sums key
    intro x hx y hy
    obtain ⟨i, hi⟩ := List.getElem?_of_mem hx
    obtain ⟨j, hj⟩ := List.getElem?_of_mem hy
    rw [hall i x hi, hall j y hj]
  · intro hall
    refine ⟨h3, fun i g hg => ?_⟩
    obtain ⟨d, e, f, -⟩ := h4 i g hg
    have hlt := (List.getElem?_eq_some_iff.1 e).1
    have hmem : d ∈ ds := List.mem_of_getElem? e
    rw [f, sum_const_mul (t := d) (ds.take (i + 1)) fun x hx => hall x (List.mem_of_mem_take hx) d hmem,
      sum_const_mul (t := d) (ds.take i) fun x hx => hall x (List.mem_of_mem_take hx) d hmem,
      List.length_take, List.length_take, min_eq_left hlt.le, min_eq_left (Nat.succ_le_of_lt hlt)]
    push_cast
    rfl

/-- **C49, part.** Layers of the same thickness are stacked without gap or overlap, from the top down and
in the given order; what is missing is the case of unequal thicknesses, where it is false. -/
theorem C49_equal_layers_partial (ops : GeomOps) {b t : ℝ} {mats : List Material} (n : ℕ) (hb : 0 < b)
    (gb : OnGrid 12 b) (ht : 0 < t) (gt : OnGrid 12 t) (hm : mats.length = n) :
    ∃ c, cltSection ops (List.replicate n t) mats b = .ok c ∧ c.geoms.map (·.material) = mats ∧
      Layered b (List.replicate n t) c.geoms := by
  obtain ⟨c, h1, h2, -, h4⟩ := C49_layered_iff ops (ds := List.replicate n t) (mats := mats) hb gb
    (fun d hd => by rw [List.eq_of_mem_replicate hd]; exact ⟨ht, gt⟩) (by simpa using hm)
  exact ⟨c, h1, h2, h4.2 fun x hx y hy => by rw [List.eq_of_mem_replicate hx, List.eq_of_mem_replicate hy]⟩

example := C49_equal_layers_partial exOps (b := 1000) (t := 40) (mats := [exConcrete, exSteel, exConcrete]) 3
  (by norm_num) ⟨1000 * 10 ^ 12, by norm_num⟩ (by norm_num) ⟨40 * 10 ^ 12, by norm_num⟩ rfl

/-- **C49, violated.** With layers of 40, 20 and 40 the second layer lies inside the first one, and there
is a gap between the second and the third. -/
theorem C49_violated : ∃ c, cltSection exOps [40, 20, 40] [exConcrete, exSteel, exConcrete] 1000 = .ok c ∧
    c.geoms.map (·.extents) = [(0, 1000, -40, 0), (0, 1000, -40, -20), (0, 1000, -120, -80)] ∧
    ¬ Layered 1000 [40, 20, 40] c.geoms := by
  have hd : ∀ d ∈ ([40, 20, 40] : List ℝ), 0 < d ∧ OnGrid 12 d := by
    intro d hd
    simp only [List.mem_cons, List.not_mem_nil, or_false] at hd
    rcases hd with rfl | rfl | rfl
    · exact ⟨by norm_num, 40 * 10 ^ 12, by norm_num⟩
    · exact ⟨by norm_num, 20 * 10 ^ 12, by norm_num⟩
    · exact ⟨by norm_num, 40 * 10 ^ 12, by norm_num⟩
  have gb : OnGrid 12 (1000 : ℝ) := ⟨1000 * 10 ^ 12, by norm_num⟩
  obtain ⟨c, h1, -, h3, h4⟩ := clt_ok exOps (b := 1000) (mats := [exConcrete, exSteel, exConcrete])
    (by norm_num) gb hd rfl
  obtain ⟨c', k1, -, -, k4⟩ := C49_layered_iff exOps (b := 1000) (mats := [exConcrete, exSteel, exConcrete])
    (by norm_num) gb hd rfl
  rw [h1] at k1
  obtain rfl := Except.ok.inj k1
  refine ⟨c, h1, ?_, fun h => ?_⟩
  · obtain ⟨geoms, p, f, q, o⟩ := c
    simp only at h3 h4 ⊢
    match geoms, h3 with
    | [g0, g1, g2], _ =>
      obtain ⟨d0, a0, b0, -⟩ := h4 0 g0 rfl
      obtain ⟨d1, a1, b1, -⟩ := h4 1 g1 rfl
      obtain ⟨d2, a2, b2, -⟩ := h4 2 g2 rfl
      simp at a0 a1 a2
      subst a0 a1 a2
      simp only [List.map_cons, List.map_nil, b0, b1, b2]
      norm_num
  · have := k4.1 h 40 (by simp) 20 (by simp)
    norm_num at this

end SP
