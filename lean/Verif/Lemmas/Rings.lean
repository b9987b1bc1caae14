import Verif.Lemmas.Round

/-!
# Rings, facets and the polygon of a geometry
-/

namespace SP

open Spec

theorem createFacets_cycle (n s : ℕ) : createFacets n true s = cycle s n := by
  rw [createFacets, cycle]
  simp only [if_true]
  apply List.ext_getElem
  · simp; omega
  · intro i h1 h2
    have hi : i < n := by simpa using h2
    simp only [List.getElem_zip, List.getElem_map, List.getElem_range, Prod.mk.injEq]
    refine ⟨by omega, ?_⟩
    by_cases hl : i + 1 < n
    · rw [List.getElem_append_left (by simp; omega)]
      simp [Nat.mod_eq_of_lt hl]; omega
    · have : i + 1 = n := by omega
      rw [List.getElem_append_right (by simp; omega)]
      simp [this]

/-- Cycles over consecutive rings, the first one starting at `s`. -/
def cyclesFrom : ℕ → List (List Pt) → List (ℕ × ℕ)
  | _, [] => []
  | s, r :: rs => cycle s r.length ++ cyclesFrom (s + r.length) rs

theorem holePointsFacets_eq (tol start : ℕ) : ∀ (hs : List (List Pt)) (count idx : ℕ),
    (idx = 0 → count = start) →
    holePointsFacets tol start count idx hs
      = ((hs.map (List.map (roundPt tol))).flatten, cyclesFrom count hs)
  | [], _, _, _ => rfl
  | h :: hs, count, idx, hc => by
    rw [holePointsFacets, holePointsFacets_eq tol start hs _ _ (by omega)]
    have e : count * (if 0 < idx then 1 else 0) + start * (if idx < 1 then 1 else 0) = count := by
      rcases Nat.eq_zero_or_pos idx with h0 | h0
      · simp [h0, hc h0]
      · have : ¬ idx < 1 := by omega
        simp [h0, this]
    simp only [e, createFacets_cycle, List.map_cons, List.flatten_cons, cyclesFrom, List.length_map]

/-- All rings of a polygon. -/
def Poly.rings (p : Poly) : List (List Pt) := p.exterior :: p.interiors

theorem pointsAndFacets_eq (tol : ℕ) (p : Poly) :
    pointsAndFacets tol p = ((p.rings.map (List.map (roundPt tol))).flatten, cyclesFrom 0 p.rings) := by
  rw [pointsAndFacets, holePointsFacets_eq _ _ _ _ _ (fun _ => rfl)]
  simp [Poly.rings, createFacets_cycle, cyclesFrom]

theorem ringStart_cons (r : List Pt) (rs : List (List Pt)) (k : ℕ) :
    ringStart (r :: rs) (k + 1) = r.length + ringStart rs k := by
  simp [ringStart]

theorem cyclesFrom_eq : ∀ (rs : List (List Pt)) (s : ℕ),
    cyclesFrom s rs = (List.range rs.length).flatMap fun k =>
      cycle (s + ringStart rs k) (rs.getD k []).length
  | [], _ => rfl
  | r :: rs, s => by
    rw [cyclesFrom, cyclesFrom_eq rs, List.length_cons, List.range_succ_eq_map, List.flatMap_cons,
      List.flatMap_map]
    congr 1
    apply List.flatMap_congr
    intro k _
    simp [ringStart_cons, Nat.add_assoc]

theorem cyclesFrom_fst : ∀ (rs : List (List Pt)) (s : ℕ),
    (cyclesFrom s rs).map Prod.fst = (List.range rs.flatten.length).map (s + ·)
  | [], _ => rfl
  | r :: rs, s => by
    rw [cyclesFrom, List.map_append, cyclesFrom_fst rs, List.flatten_cons, List.length_append,
      List.range_add, List.map_append, List.map_map]
    congr 1
    · simp [cycle, Function.comp_def]
    · apply List.map_congr_left
      intro i _
      simp [Nat.add_assoc]

theorem cycle_snd_perm (s n : ℕ) : ((cycle s n).map Prod.snd).Perm ((List.range n).map (s + ·)) := by
  rcases n with _ | n
  · simp [cycle]
  · have : (cycle s (n + 1)).map Prod.snd = ((List.range (n + 1)).map (s + ·)).rotate 1 := by
      apply List.ext_getElem
      · simp [cycle]
      · intro i h1 h2
        simp [cycle, List.getElem_rotate]
    rw [this]
    exact List.rotate_perm _ _

theorem cyclesFrom_snd : ∀ (rs : List (List Pt)) (s : ℕ),
    ((cyclesFrom s rs).map Prod.snd).Perm ((List.range rs.flatten.length).map (s + ·))
  | [], _ => by simp [cyclesFrom]
  | r :: rs, s => by
    rw [cyclesFrom, List.map_append, List.flatten_cons, List.length_append,
      List.range_add, List.map_append, List.map_map]
    refine (cycle_snd_perm s r.length).append ?_
    refine (cyclesFrom_snd rs _).trans ?_
    have : List.map (s + r.length + ·) (List.range rs.flatten.length)
        = List.map ((s + ·) ∘ (r.length + ·)) (List.range rs.flatten.length) := by
      apply List.map_congr_left
      intro i _
      simp [Nat.add_assoc]
    rw [this]

theorem segmentsOf_append (pts : List Pt) (a b : List (ℕ × ℕ)) :
    segmentsOf pts (a ++ b) = segmentsOf pts a ++ segmentsOf pts b := by
  simp [segmentsOf]

theorem segmentsOf_eq_map (pts : List Pt) (fs : List (ℕ × ℕ))
    (h : ∀ f ∈ fs, f.1 < pts.length ∧ f.2 < pts.length) :
    segmentsOf pts fs = fs.map fun f => (pts.getD f.1 (0, 0), pts.getD f.2 (0, 0)) := by
  induction fs with
  | nil => rfl
  | cons f fs ih =>
    obtain ⟨h1, h2⟩ := h f (List.mem_cons_self ..)
    rw [List.map_cons, ← ih fun g hg => h g (List.mem_cons_of_mem _ hg)]
    simp [segmentsOf, List.getElem?_eq_getElem h1, List.getElem?_eq_getElem h2]

theorem cycle_mem {s n : ℕ} {f : ℕ × ℕ} (h : f ∈ cycle s n) : f.1 < s + n ∧ f.2 < s + n ∧ s ≤ f.1 ∧ s ≤ f.2 := by
  simp only [cycle, List.mem_map, List.mem_range] at h
  obtain ⟨i, hi, rfl⟩ := h
  have := Nat.mod_lt (i + 1) (by omega : 0 < n)
  exact ⟨by simp; omega, by simp; omega, by simp, by simp⟩

theorem segmentsOf_cycle (pre r post : List Pt) :
    segmentsOf (pre ++ (r ++ post)) (cycle pre.length r.length) = closedEdges r := by
  rw [segmentsOf_eq_map]
  · apply List.ext_getElem
    · simp [cycle, closedEdges]
    · intro i h1 h2
      have hi : i < r.length := by simpa [cycle] using h1
      have hm := Nat.mod_lt (i + 1) (by omega : 0 < r.length)
      simp only [cycle, List.map_map, List.getElem_map, List.getElem_range, Function.comp, closedEdges,
        List.getElem_zip, List.getElem_rotate, Prod.mk.injEq, List.getD_eq_getElem?_getD]
      constructor
      · rw [List.getElem?_append_right (by omega), List.getElem?_append_left (by omega)]
        simp [hi]
      · rw [List.getElem?_append_right (by omega), List.getElem?_append_left (by omega)]
        simp [hm]
  · intro f hf
    have := cycle_mem hf
    simp; omega

theorem segmentsOf_cyclesFrom : ∀ (rs : List (List Pt)) (pre : List Pt),
    segmentsOf (pre ++ rs.flatten) (cyclesFrom pre.length rs) = rs.flatMap closedEdges
  | [], pre => rfl
  | r :: rs, pre => by
    rw [cyclesFrom, segmentsOf_append, List.flatten_cons, segmentsOf_cycle, List.flatMap_cons]
    congr 1
    have := segmentsOf_cyclesFrom rs (pre ++ r)
    rw [List.length_append, List.append_assoc] at this
    exact this

/-! ### Rounded polygons -/

theorem roundPt_of_onGrid {tol : ℕ} {p : Pt} (h : OnGrid tol p.1 ∧ OnGrid tol p.2) : roundPt tol p = p := by
  rw [roundPt, roundTo_of_onGrid h.1, roundTo_of_onGrid h.2]

theorem roundPt_onGrid (tol : ℕ) (p : Pt) : OnGrid tol (roundPt tol p).1 ∧ OnGrid tol (roundPt tol p).2 :=
  ⟨roundTo_onGrid _ _, roundTo_onGrid _ _⟩

/-- All vertices are on the grid. -/
def Poly.OnGrid (tol : ℕ) (p : Poly) : Prop :=
  ∀ r ∈ p.rings, ∀ q ∈ r, Spec.OnGrid tol q.1 ∧ Spec.OnGrid tol q.2

theorem Poly.map_rings (f : Pt → Pt) (p : Poly) : (p.map f).rings = p.rings.map (List.map f) := by
  simp [Poly.map, Poly.rings]

theorem Poly.map_map (f g : Pt → Pt) (p : Poly) : (p.map f).map g = p.map (g ∘ f) := by
  simp [Poly.map, Function.comp_def]

theorem Poly.map_congr {f g : Pt → Pt} {p : Poly} (h : ∀ r ∈ p.rings, ∀ q ∈ r, f q = g q) :
    p.map f = p.map g := by
  have e : p.rings.map (List.map f) = p.rings.map (List.map g) :=
    List.map_congr_left fun r hr => List.map_congr_left (h r hr)
  simp only [Poly.rings, List.map_cons, List.cons.injEq] at e
  ext1 <;> simp [Poly.map, e.1, e.2]

theorem Poly.map_id' {f : Pt → Pt} {p : Poly} (h : ∀ r ∈ p.rings, ∀ q ∈ r, f q = q) : p.map f = p := by
  rw [Poly.map_congr (g := id) h]
  simp [Poly.map]

theorem roundPoly_onGrid (tol : ℕ) (p : Poly) : (roundPoly tol p).OnGrid tol := by
  rw [roundPoly]
  split_ifs
  · intro r hr q hq
    simp [Poly.rings] at hr
    simp [hr] at hq
  · intro r hr q hq
    rw [Poly.map_rings] at hr
    obtain ⟨r', _, rfl⟩ := List.mem_map.1 hr
    obtain ⟨q', _, rfl⟩ := List.mem_map.1 hq
    exact roundPt_onGrid _ _

/-- A polygon on the grid is left as it is by rounding, unless all of its exterior is at the origin. -/
theorem roundPoly_of_onGrid {tol : ℕ} {p : Poly} (h : p.OnGrid tol) (h0 : ∃ q ∈ p.exterior, q ≠ (0, 0)) :
    roundPoly tol p = p := by
  have e : ∀ r ∈ p.rings, ∀ q ∈ r, roundPt tol q = q := fun r hr q hq => roundPt_of_onGrid (h r hr q hq)
  rw [roundPoly, if_neg, Poly.map_id' e]
  intro hall
  obtain ⟨q, hq, hq0⟩ := h0
  refine hq0 (hall q ?_)
  exact List.mem_map.2 ⟨q, hq, e _ (by simp [Poly.rings]) q hq⟩

theorem roundPoly_idem (tol : ℕ) (p : Poly) : roundPoly tol (roundPoly tol p) = roundPoly tol p := by
  by_cases h : ∀ q ∈ p.exterior.map (roundPt tol), q = (0, 0)
  · rw [roundPoly, roundPoly, if_pos h]; simp
  · refine roundPoly_of_onGrid (roundPoly_onGrid _ _) ?_
    push Not at h
    rw [roundPoly, if_neg (by push Not; exact h)]
    exact h

/-- A geometry that came out of the constructor. -/
def Built (ops : GeomOps) (g : Geometry) : Prop := ∃ p m cp tol, g = mkGeometry ops p m cp tol

theorem Built.eq {ops : GeomOps} {g : Geometry} (h : Built ops g) :
    g = mkGeometry ops g.poly g.material g.assigned g.tol := by
  obtain ⟨p, m, cp, tol, rfl⟩ := h
  simp [mkGeometry, roundPoly_idem]

theorem mk_built (ops : GeomOps) (p : Poly) (m : Material) (cp : Option Pt) (tol : ℕ) :
    Built ops (mkGeometry ops p m cp tol) := ⟨_, _, _, _, rfl⟩

theorem Built.onGrid {ops : GeomOps} {g : Geometry} (h : Built ops g) : g.poly.OnGrid g.tol := by
  obtain ⟨p, m, cp, tol, rfl⟩ := h
  exact roundPoly_onGrid _ _

theorem Built.controlPoints {ops : GeomOps} {g : Geometry} (h : Built ops g) (he : g.poly.exterior ≠ []) :
    ∃ c, g.controlPoints = [c] := by
  obtain ⟨p, m, cp, tol, rfl⟩ := h
  cases cp
  · exact ⟨_, if_neg he⟩
  · exact ⟨_, rfl⟩

theorem mk_controlPoints (ops : GeomOps) {p : Poly} {m : Material} {tol : ℕ}
    (he : (mkGeometry ops p m none tol).poly.exterior ≠ []) :
    (mkGeometry ops p m none tol).controlPoints = [ops.rep (mkGeometry ops p m none tol).poly] := if_neg he

theorem Built.points {ops : GeomOps} {g : Geometry} (h : Built ops g) : g.points = g.poly.rings.flatten := by
  have hg := h.onGrid
  obtain ⟨p, m, cp, tol, rfl⟩ := h
  simp only [mkGeometry, pointsAndFacets_eq] at hg ⊢
  congr 1
  refine (List.map_congr_left fun r hr => ?_).trans (List.map_id _)
  exact (List.map_congr_left fun q hq => roundPt_of_onGrid (hg r hr q hq)).trans (List.map_id _)

theorem Built.facets {ops : GeomOps} {g : Geometry} (h : Built ops g) : g.facets = cyclesFrom 0 g.poly.rings := by
  obtain ⟨p, m, cp, tol, rfl⟩ := h
  simp only [mkGeometry, pointsAndFacets_eq]

end SP
