import Verif.Spec.SetOps
import Verif.Props.Rigid
import Verif.Props.Construct

/-!
# The operators `-`, `+`, `|`, `^`, `&` (C62)
-/

namespace SP

open Spec MeasureTheory Classical

theorem roundPoly_empty (tol : ℕ) : roundPoly tol ⟨[], []⟩ = ⟨[], []⟩ := by simp [roundPoly]

theorem Spec.Describes.round {reg : Poly → Set Pt} {tol : ℕ} {o : Overlay} {S : Set Pt}
    (h : Describes reg tol o S) {p : Poly} (hp : p ∈ overlayPolys o) {tol' : ℕ} (ht : tol ≤ tol') :
    roundPoly tol' p = p := by
  rcases h.grid p hp with rfl | ⟨h1, h2⟩
  · exact roundPoly_empty _
  · exact roundPoly_of_onGrid (fun r hr v hv => ⟨(h1 r hr v hv).1.mono ht, (h1 r hr v hv).2.mono ht⟩) h2

/-- What the code makes of a result of shapely. -/
theorem filter_ok {reg : Poly → Set Pt} (he : reg ⟨[], []⟩ = ∅) {tol : ℕ} {o : Overlay} {S : Set Pt}
    (h : Describes reg tol o S) :
    (∃ p, filterNonPolygons o = .ok (.one p) ∧ reg p =ᵐ[volume] S ∧ ∀ tol', tol ≤ tol' → roundPoly tol' p = p) ∨
    (∃ ps, filterNonPolygons o = .ok (.many ps) ∧ covered reg ps =ᵐ[volume] S ∧
      ∀ p ∈ ps, ∀ tol', tol ≤ tol' → roundPoly tol' p = p) := by
  have hr := h.region
  have hg := fun p hp tol' ht => h.round (p := p) hp (tol' := tol') ht
  have h1 : ∀ p, covered reg [p] = reg p := fun p => by ext q; simp [covered]
  have h0 : covered reg [] = ∅ := by ext q; simp [covered]
  cases o with
  | polygon p =>
    left
    refine ⟨p, rfl, ?_, fun tol' ht => hg p (by simp [overlayPolys]) tol' ht⟩
    rw [overlayPolys, h1] at hr
    exact hr
  | multi ps => exact Or.inr ⟨ps, rfl, hr, hg⟩
  | collection items =>
    simp only [overlayPolys] at hr hg
    simp only [filterNonPolygons]
    generalize items.filterMap id = l at hr hg
    match l with
    | [] =>
      left
      refine ⟨_, rfl, ?_, fun _ _ => roundPoly_empty _⟩
      rw [he, ← h0]
      exact hr
    | [p] =>
      left
      rw [h1] at hr
      exact ⟨_, rfl, hr, fun tol' ht => hg p (by simp) tol' ht⟩
    | p :: q :: l => exact Or.inr ⟨_, rfl, hr, hg⟩
  | lineOrPoint =>
    left
    refine ⟨_, rfl, ?_, fun _ _ => roundPoly_empty _⟩
    rw [he, ← h0]
    exact hr
  | other => exact absurd rfl h.usable

/-- Parts made from polygons that are on the grid. -/
theorem parts_ok (ops : GeomOps) {ps : List Poly} (m : Material) (h : ∀ p ∈ ps, roundPoly 12 p = p) :
    ∃ c, mkCompound ops (ps.map fun p => mkGeometry ops p m none 12) = .ok c ∧ CBuilt ops c ∧
      (∀ g ∈ c.geoms, g.material = m) ∧ c.geoms.map (·.poly) = ps := by
  obtain ⟨c, h1, h2, h3⟩ := mkCompound_built ops (gs := ps.map fun p => mkGeometry ops p m none 12) (by
    intro g hg
    obtain ⟨p, _, rfl⟩ := List.mem_map.1 hg
    exact mk_built ..)
  refine ⟨c, h1, h3, ?_, ?_⟩
  · rw [h2]
    intro g hg
    obtain ⟨p, _, rfl⟩ := List.mem_map.1 hg
    rfl
  · rw [h2, List.map_map]
    exact (List.map_congr_left fun p hp => h p hp).trans (List.map_id _)

theorem occupied_eq (reg : Poly → Set Pt) (s : Shape) : occupied reg s = covered reg (s.parts.map (·.poly)) := by
  ext q
  simp [occupied, covered]

/-- A shape that came out of the constructors. -/
def SBuilt (ops : GeomOps) : Shape → Prop
  | .single g => Built ops g
  | .compound c => CBuilt ops c

/-- The result of an operator: a shape all of whose parts are made of `m`, and that occupies `S`. -/
def Made (ops : GeomOps) (reg : Poly → Set Pt) (r : Except PyErr Shape) (m : Material) (S : Set Pt) : Prop :=
  ∃ s, r = .ok s ∧ SBuilt ops s ∧ (∀ g ∈ s.parts, g.material = m) ∧ occupied reg s =ᵐ[volume] S

theorem fromOverlay_ok (ops : GeomOps) {reg : Poly → Set Pt} (he : reg ⟨[], []⟩ = ∅) {o : Overlay} {S : Set Pt} {tol : ℕ}
    (h : Describes reg (min tol 12) o S) (m : Option Material) (cp : Option Pt) :
    Made ops reg (fromOverlay ops o m cp tol) (m.getD defaultMaterial) S := by
  rcases filter_ok he h with ⟨p, h1, h2, h3⟩ | ⟨ps, h1, h2, h3⟩
  · refine ⟨.single (mkGeometry ops p (m.getD defaultMaterial) cp tol), by simp [fromOverlay, h1], mk_built .., ?_, ?_⟩
    · simp [Shape.parts, mkGeometry]
    · rw [occupied_eq]
      have : covered reg ((Shape.single (mkGeometry ops p (m.getD defaultMaterial) cp tol)).parts.map (·.poly)) = reg p := by
        ext q
        simp [covered, Shape.parts, mkGeometry, h3 tol (min_le_left ..)]
      rw [this]
      exact h2
  · obtain ⟨c, c1, c2, c3, c4⟩ := parts_ok ops (m.getD defaultMaterial) fun p hp => h3 p hp 12 (min_le_right ..)
    refine ⟨.compound c, by simp [fromOverlay, h1, c1], c2, c3, ?_⟩
    rw [occupied_eq, Shape.parts, c4]
    exact h2

theorem fromOverlay_multi (ops : GeomOps) {ps : List Poly} (m : Option Material) (cp : Option Pt) (tol : ℕ)
    (h : ∀ p ∈ ps, roundPoly 12 p = p) :
    ∃ c, fromOverlay ops (.multi ps) m cp tol = .ok (.compound c) ∧ (∀ g ∈ c.geoms, g.material = m.getD defaultMaterial) ∧
      c.geoms.map (·.poly) = ps := by
  obtain ⟨c, c1, c2, c3, c4⟩ := parts_ok ops (m.getD defaultMaterial) h
  exact ⟨c, by simp [fromOverlay, filterNonPolygons, c1], c3, c4⟩

/-! ### Difference -/

theorem sub_single (ops : GeomOps) (ov : OverlayOps) {reg : Poly → Set Pt} (he : reg ⟨[], []⟩ = ∅) (g : Geometry) (b : Shape)
    (h : Describes reg (min g.tol 12) (ov.diff [g.poly] (b.parts.map (·.poly))) (reg g.poly \ occupied reg b)) :
    Made ops reg (g.sub ops ov b) g.material (reg g.poly \ occupied reg b) := by
  rcases filter_ok he h with ⟨p, h1, h2, h3⟩ | ⟨ps, h1, h2, h3⟩
  · let cp := match g.assigned with
      | some c => if ov.contains p c then some c else none
      | none => none
    refine ⟨.single (mkGeometry ops p g.material cp g.tol), by simp only [Geometry.sub, Shape.polys, h1]; rfl,
      mk_built .., ?_, ?_⟩
    · simp [Shape.parts, mkGeometry]
    · rw [occupied_eq]
      simp only [Shape.parts, mkGeometry, List.map_cons, List.map_nil, h3 g.tol (min_le_left ..)]
      have : covered reg [p] = reg p := by ext q; simp [covered]
      rw [this]
      exact h2
  · obtain ⟨c, c1, c2, c3, c4⟩ := parts_ok ops g.material fun p hp => h3 p hp 12 (min_le_right ..)
    refine ⟨.compound c, by simp [Geometry.sub, Shape.polys, h1, c1], c2, c3, ?_⟩
    rw [occupied_eq, Shape.parts, c4]
    exact h2

theorem SBuilt.parts {ops : GeomOps} {s : Shape} (h : SBuilt ops s) : ∀ g ∈ s.parts, Built ops g := by
  cases s with
  | single g =>
    intro g' hg'
    rw [Shape.parts, List.mem_singleton] at hg'
    exact hg' ▸ h
  | compound c => exact h.1

theorem mapM_ok_of {α β : Type} {f : α → Except PyErr β} : ∀ l : List α, (∀ a ∈ l, ∃ b, f a = .ok b) →
    ∃ r, l.mapM f = .ok r ∧ List.Forall₂ (fun a b => f a = .ok b) l r
  | [], _ => ⟨[], rfl, .nil⟩
  | a :: l, h => by
    obtain ⟨b, hb⟩ := h a (by simp)
    obtain ⟨r, h1, h2⟩ := mapM_ok_of l fun x hx => h x (by simp [hx])
    exact ⟨b :: r, by rw [List.mapM_cons, hb, h1]; rfl, .cons hb h2⟩

theorem madeOf_parts (reg : Poly → Set Pt) {s : Shape} {m : Material} (h : ∀ g ∈ s.parts, g.material = m) (m' : Material) :
    madeOf reg s m' = if m = m' then occupied reg s else ∅ := by
  ext q
  split
  · subst m'
    simp only [madeOf, occupied, Set.mem_ofPred_eq]
    exact ⟨fun ⟨g, h1, _, h3⟩ => ⟨g, h1, h3⟩, fun ⟨g, h1, h3⟩ => ⟨g, h1, h g h1, h3⟩⟩
  · simp only [madeOf, Set.mem_ofPred_eq, Set.mem_empty_iff_false, iff_false]
    rintro ⟨g, h1, h2, _⟩
    rw [h g h1] at h2
    contradiction

/-- **C62, difference.** If shapely subtracts correctly, then for all geometries and compounds `a` and `b`, `a - b`
exists, and for every material `m` the region made of `m` is, up to a null set, that of `a` less all that
`b` occupies: nothing else is lost, nothing is added, and no part changes its material. -/
theorem C62_difference (ops : GeomOps) (ov : OverlayOps) {reg : Poly → Set Pt} (he : reg ⟨[], []⟩ = ∅) (a b : Shape)
    (h : ∀ g ∈ a.parts, Describes reg (min g.tol 12) (ov.diff [g.poly] (b.parts.map (·.poly))) (reg g.poly \ occupied reg b)) :
    ∃ r, a.sub ops ov b = .ok r ∧ ∀ m, madeOf reg r m =ᵐ[volume] (madeOf reg a m \ occupied reg b : Set Pt) := by
  cases a with
  | single g =>
    obtain ⟨r, h1, _, h3, h4⟩ := sub_single ops ov he g b (h g (by simp [Shape.parts]))
    refine ⟨r, h1, fun m => ?_⟩
    have e : madeOf reg (.single g) m = if g.material = m then reg g.poly else ∅ := by
      ext q
      by_cases hm : g.material = m <;> simp [madeOf, Shape.parts, hm]
    rw [madeOf_parts reg h3, e]
    split
    · exact h4
    · simp
  | compound c =>
    simp only [Shape.parts] at h
    obtain ⟨l, l1, l2⟩ := mapM_ok_of (f := fun g => Geometry.sub ops ov g b) c.geoms fun g hg =>
      (sub_single ops ov he g b (h g hg)).imp fun r hr => hr.1
    have l3 : List.Forall₂ (fun g r => SBuilt ops r ∧ (∀ g' ∈ r.parts, g'.material = g.material) ∧
        occupied reg r =ᵐ[volume] (reg g.poly \ occupied reg b : Set Pt)) c.geoms l := by
      rw [List.forall₂_iff_get] at l2 ⊢
      refine ⟨l2.1, fun i hi hj => ?_⟩
      obtain ⟨r, h1, h2⟩ := sub_single ops ov he (c.geoms.get ⟨i, hi⟩) b (h _ (List.get_mem ..))
      have := l2.2 i hi hj
      rw [h1] at this
      obtain rfl := Except.ok.inj this
      exact h2
    obtain ⟨c', d1, d2, d3⟩ := mkCompound_built ops (gs := l.flatMap Shape.parts) (by
      intro g hg
      obtain ⟨s, hs, hg⟩ := List.mem_flatMap.1 hg
      obtain ⟨g', _, hb⟩ := forall₂_mem_right l3 hs
      exact hb.1.parts g hg)
    refine ⟨.compound c', by simp [Shape.sub, l1, mkCompoundOf, d1], fun m => ?_⟩
    have e1 : madeOf reg (.compound c') m = {q | ∃ s ∈ l, q ∈ madeOf reg s m} := by
      ext q
      simp only [madeOf, Shape.parts, d2, List.mem_flatMap, Set.mem_ofPred_eq]
      exact ⟨fun ⟨g, ⟨s, h1, h2⟩, h3⟩ => ⟨s, h1, g, h2, h3⟩, fun ⟨s, h1, g, h2, h3⟩ => ⟨g, ⟨s, h1, h2⟩, h3⟩⟩
    have e2 : madeOf reg (.compound c) m \ occupied reg b
        = {q | ∃ g ∈ c.geoms, q ∈ (if g.material = m then reg g.poly \ occupied reg b else ∅ : Set Pt)} := by
      ext q
      simp only [madeOf, Shape.parts, Set.mem_sdiff, Set.mem_ofPred_eq]
      constructor
      · rintro ⟨⟨g, h1, h2, h3⟩, h4⟩
        exact ⟨g, h1, by rw [if_pos h2]; exact ⟨h3, h4⟩⟩
      · rintro ⟨g, h1, h2⟩
        split at h2
        · rename_i h5
          exact ⟨⟨g, h1, h5, h2.1⟩, h2.2⟩
        · exact absurd h2 (by simp)
    rw [e1, e2]
    clear e1 e2 d1 d2 d3 l1 l2 h
    generalize c.geoms = gs at l3
    induction l3 with
    | nil => simp
    | @cons g s gs l h1 h2 ih =>
      have s1 : {q | ∃ s' ∈ s :: l, q ∈ madeOf reg s' m} = madeOf reg s m ∪ {q | ∃ s' ∈ l, q ∈ madeOf reg s' m} := by
        ext q; simp
      have s2 : {q | ∃ g' ∈ g :: gs, q ∈ (if g'.material = m then reg g'.poly \ occupied reg b else ∅ : Set Pt)}
          = (if g.material = m then reg g.poly \ occupied reg b else ∅ : Set Pt) ∪
            {q | ∃ g' ∈ gs, q ∈ (if g'.material = m then reg g'.poly \ occupied reg b else ∅ : Set Pt)} := by
        ext q; simp
      rw [s1, s2, madeOf_parts reg h1.2.1]
      refine Filter.EventuallyEq.union ?_ ih
      split
      · exact h1.2.2
      · rfl

/-- **C62, sum.** `a + b` exists, its parts are the parts of `a` followed by those of `b`, unchanged; so for every material
the region made of it is exactly the union of those of `a` and `b`. -/
theorem C62_sum (ops : GeomOps) (reg : Poly → Set Pt) {a b : Shape} (ha : SBuilt ops a) (hb : SBuilt ops b) :
    ∃ c, a.add ops b = .ok c ∧ c.geoms = a.parts ++ b.parts ∧
      ∀ m, madeOf reg (.compound c) m = madeOf reg a m ∪ madeOf reg b m := by
  obtain ⟨c, h1, h2, _⟩ := mkCompound_built ops (gs := [a, b].flatMap Shape.parts) (by
    intro g hg
    simp only [List.flatMap_cons, List.flatMap_nil, List.append_nil, List.mem_append] at hg
    exact hg.elim (ha.parts g) (hb.parts g))
  have h3 : c.geoms = a.parts ++ b.parts := by simpa using h2
  refine ⟨c, by simp only [Shape.add, mkCompoundOf, h1], h3, fun m => ?_⟩
  ext q
  simp only [madeOf, Shape.parts, h3, List.mem_append, Set.mem_ofPred_eq, Set.mem_union]
  constructor
  · rintro ⟨g, h | h, h'⟩
    exacts [Or.inl ⟨g, h, h'⟩, Or.inr ⟨g, h, h'⟩]
  · rintro (⟨g, h, h'⟩ | ⟨g, h, h'⟩)
    exacts [⟨g, Or.inl h, h'⟩, ⟨g, Or.inr h, h'⟩]

/-! ### Union, symmetric difference, intersection -/

/-- The material that the result of `|`, `^` and `&` has: that of the left operand if it is a single geometry, else
that of the right operand if it is one, else the default material. -/
def resultMaterial : Shape → Shape → Material
  | .single g, _ => g.material
  | .compound _, .single g => g.material
  | .compound _, .compound _ => defaultMaterial

theorem orMaterial_getD (a b : Shape) : (orMaterial a b).getD defaultMaterial = resultMaterial a b := by
  cases a <;> cases b <;> rfl

/-- **C62, union, symmetric difference, intersection (partial).** If shapely's result is right, then `a | b`, `a ^ b` and
`a & b` exist and occupy the union, the symmetric difference and the intersection; all parts have one material, that of `a` if
`a` is a single geometry.  Missing: what the materials are if `a` is a compound, see `C62_violated`. -/
theorem C62_overlay_partial (ops : GeomOps) (ov : OverlayOps) {reg : Poly → Set Pt} (he : reg ⟨[], []⟩ = ∅) (a b : Shape) :
    (Describes reg (min a.tol 12) (ov.union (a.parts.map (·.poly)) (b.parts.map (·.poly))) (occupied reg a ∪ occupied reg b) →
      a.controlPoints ≠ [] →
      Made ops reg (a.or ops ov b) (resultMaterial a b) (occupied reg a ∪ occupied reg b)) ∧
    (Describes reg (min a.tol 12) (ov.symDiff (a.parts.map (·.poly)) (b.parts.map (·.poly)))
        (symmDiff (occupied reg a) (occupied reg b)) →
      Made ops reg (a.xor ops ov b) (resultMaterial a b) (symmDiff (occupied reg a) (occupied reg b))) ∧
    (Describes reg (min a.tol 12) (ov.inter (a.parts.map (·.poly)) (b.parts.map (·.poly))) (occupied reg a ∩ occupied reg b) →
      Made ops reg (a.and ops ov b) (resultMaterial a b) (occupied reg a ∩ occupied reg b)) := by
  refine ⟨fun h hc => ?_, fun h => ?_, fun h => ?_⟩
  · have := fromOverlay_ok ops he h (orMaterial a b) a.controlPoints.head?
    rw [orMaterial_getD] at this
    simp only [Shape.or]
    split
    · rename_i h1
      rw [List.head?_eq_none_iff] at h1
      exact absurd h1 hc
    · exact this
  · have := fromOverlay_ok ops he h (orMaterial a b) none
    rw [orMaterial_getD] at this
    exact this
  · have := fromOverlay_ok ops he h (orMaterial a b) none
    rw [orMaterial_getD] at this
    exact this

/-- **C62, control points.** A control point that was assigned to a geometry is kept by `-` if it still lies in the result,
and `|` keeps the control point of its left operand, provided that the result is one polygon. -/
theorem C62_control_point (ops : GeomOps) (ov : OverlayOps) (b : Shape) :
    (∀ (g : Geometry) (p : Poly) (c : Pt), ov.diff [g.poly] (b.parts.map (·.poly)) = .polygon p → g.assigned = some c →
      ∃ r, (Shape.single g).sub ops ov b = .ok r ∧
        (ov.contains p c → r.controlPoints = [c]) ∧
        (ov.contains p c = false → ∀ q, r.parts.map (·.poly) = [q] → q.exterior ≠ [] → r.controlPoints = [ops.rep q])) ∧
    (∀ (a : Shape) (p : Poly) (c : Pt) (cs : List Pt), ov.union (a.parts.map (·.poly)) (b.parts.map (·.poly)) = .polygon p →
      a.controlPoints = c :: cs → ∃ r, a.or ops ov b = .ok r ∧ r.controlPoints = [c]) := by
  constructor
  · intro g p c h hc
    refine ⟨.single (mkGeometry ops p g.material (if ov.contains p c then some c else none) g.tol),
      by simp only [Shape.sub, Geometry.sub, Shape.polys, h, filterNonPolygons, hc], fun h1 => ?_, fun h1 q h2 h3 => ?_⟩
    · simp [Shape.controlPoints, mkGeometry, h1]
    · simp only [Shape.parts, List.map_cons, List.map_nil, List.cons.injEq, and_true] at h2
      subst h2
      simp only [h1, Bool.false_eq_true, if_false] at h3 ⊢
      exact mk_controlPoints _ h3
  · intro a p c cs h hc
    refine ⟨.single (mkGeometry ops p ((orMaterial a b).getD defaultMaterial) (some c) a.tol), ?_, rfl⟩
    simp only [Shape.or, Shape.polys, h, filterNonPolygons, hc, List.head?_cons, fromOverlay]

/-! ### Violations and examples -/

/-- Region of a convex polygon without holes. -/
def hullReg (p : Poly) : Set Pt := convexHull ℝ {v | v ∈ p.exterior}

theorem hullReg_empty : hullReg ⟨[], []⟩ = ∅ := by simp [hullReg]

/-- Shapely on some disjoint rectangles: the union of two lists that have nothing in common; the rest of one
polygon after subtraction of polygons that are this one, or have nothing in common with it; the intersection of equal lists. -/
noncomputable def exOv : OverlayOps where
  union ps qs := .multi (ps ++ qs)
  symDiff ps qs := .multi (ps ++ qs)
  diff ps qs := if ps = qs then .polygon ⟨[], []⟩ else .multi ps
  inter ps qs := if ps = qs then .multi ps else .collection [none]
  contains _ _ := true

theorem exRect1_ne : exRect1 ≠ exRect2 := by simp [exRect1, exRect2]

theorem exRect1_grid : (∀ r ∈ exRect1.exterior :: exRect1.interiors, ∀ v ∈ r, OnGrid 12 v.1 ∧ OnGrid 12 v.2) ∧
    ∃ v ∈ exRect1.exterior, v ≠ (0, 0) := ⟨exRect1_onGrid, (1, 0), by simp [exRect1], by simp⟩

theorem exRect2_grid : (∀ r ∈ exRect2.exterior :: exRect2.interiors, ∀ v ∈ r, OnGrid 12 v.1 ∧ OnGrid 12 v.2) ∧
    ∃ v ∈ exRect2.exterior, v ≠ (0, 0) := ⟨exRect2_onGrid, (2, 0), by simp [exRect2], by simp⟩

theorem covered_occupied (reg : Poly → Set Pt) {a b : Shape} {p q : Poly} (ha : a.parts.map (·.poly) = [p])
    (hb : b.parts.map (·.poly) = [q]) : occupied reg a = reg p ∧ occupied reg b = reg q ∧
      covered reg [p, q] = occupied reg a ∪ occupied reg b := by
  have h1 : occupied reg a = reg p := by rw [occupied_eq, ha]; ext; simp [covered]
  have h2 : occupied reg b = reg q := by rw [occupied_eq, hb]; ext; simp [covered]
  refine ⟨h1, h2, ?_⟩
  rw [h1, h2]
  ext x
  simp [covered]

/-- The two rectangles, each as a compound of one part. -/
theorem exOne (p : Poly) (m : Material) (h : roundPoly 12 p = p) : ∃ c, CBuilt exOps c ∧
    (∀ g ∈ c.geoms, g.material = m) ∧ c.geoms.map (·.poly) = [p] := by
  obtain ⟨c, _, h2, h3, h4⟩ := parts_ok exOps (ps := [p]) m (by simpa using h)
  exact ⟨c, h2, h3, h4⟩

theorem exRect1_round : roundPoly 12 exRect1 = exRect1 := roundPoly_of_onGrid exRect1_onGrid exRect1_grid.2
theorem exRect2_round : roundPoly 12 exRect2 = exRect2 := roundPoly_of_onGrid exRect2_onGrid exRect2_grid.2

/-- **C62 is violated** by `|`, `^` and `&` of compounds: the union of two compounds that are made of steel
throughout is made of the default material throughout, and the intersection of a compound made of steel with a
geometry of the default material is made of the default material. -/
theorem C62_violated : ∃ (ops : GeomOps) (ov : OverlayOps) (reg : Poly → Set Pt) (steel : Material) (a b g r r' : Shape),
    reg ⟨[], []⟩ = ∅ ∧ steel ≠ defaultMaterial ∧ SBuilt ops a ∧ SBuilt ops b ∧ SBuilt ops g ∧
    (∀ x ∈ a.parts ++ b.parts, x.material = steel) ∧
    Describes reg 12 (ov.union (a.parts.map (·.poly)) (b.parts.map (·.poly))) (occupied reg a ∪ occupied reg b) ∧
    a.or ops ov b = .ok r ∧ r.parts ≠ [] ∧ (∀ x ∈ r.parts, x.material = defaultMaterial) ∧
    Describes reg 12 (ov.inter (a.parts.map (·.poly)) (g.parts.map (·.poly))) (occupied reg a ∩ occupied reg g) ∧
    a.and ops ov g = .ok r' ∧ r'.parts ≠ [] ∧ (∀ x ∈ r'.parts, x.material = defaultMaterial) := by
  obtain ⟨c1, a1, a2, a3⟩ := exOne exRect1 exSteel exRect1_round
  obtain ⟨c2, b1, b2, b3⟩ := exOne exRect2 exSteel exRect2_round
  have hs : exSteel ≠ defaultMaterial := by
    intro h
    have := congrArg Material.elasticModulus h
    norm_num [exSteel, defaultMaterial] at this
  let g := mkGeometry exOps exRect1 defaultMaterial none 12
  have hg : (Shape.single g).parts.map (·.poly) = [exRect1] := by
    simp only [Shape.parts, List.map_cons, List.map_nil]
    rw [show g.poly = exRect1 from exRect1_poly _]
  have ha : (Shape.compound c1).parts.map (·.poly) = [exRect1] := a3
  have hb : (Shape.compound c2).parts.map (·.poly) = [exRect2] := b3
  have d1 : Describes hullReg 12 (exOv.union ((Shape.compound c1).parts.map (·.poly)) ((Shape.compound c2).parts.map (·.poly)))
      (occupied hullReg (.compound c1) ∪ occupied hullReg (.compound c2)) := by
    rw [← (covered_occupied hullReg ha hb).2.2, ha, hb]
    refine ⟨nofun, .rfl, ?_⟩
    intro p hp
    right
    simp only [exOv, overlayPolys, List.cons_append, List.nil_append, List.mem_cons, List.not_mem_nil, or_false] at hp
    rcases hp with rfl | rfl
    exacts [exRect1_grid, exRect2_grid]
  have d2 : Describes hullReg 12 (exOv.inter ((Shape.compound c1).parts.map (·.poly)) ((Shape.single g).parts.map (·.poly)))
      (occupied hullReg (.compound c1) ∩ occupied hullReg (.single g)) := by
    rw [(covered_occupied hullReg ha hg).1, (covered_occupied hullReg ha hg).2.1, ha, hg]
    simp only [exOv, if_true]
    refine ⟨nofun, ?_, ?_⟩
    · rw [Set.inter_self]
      have : covered hullReg (overlayPolys (.multi [exRect1])) = hullReg exRect1 := by ext; simp [covered, overlayPolys]
      rw [this]
      exact .rfl
    · intro p hp
      simp only [overlayPolys, List.mem_singleton] at hp
      exact Or.inr (hp ▸ exRect1_grid)
  obtain ⟨r, e1, e2, e3⟩ := fromOverlay_multi exOps (ps := [exRect1, exRect2]) (orMaterial (.compound c1) (.compound c2))
    (Shape.compound c1).controlPoints.head? 12 (by
      intro p hp
      simp only [List.mem_cons, List.not_mem_nil, or_false] at hp
      rcases hp with rfl | rfl
      exacts [exRect1_round, exRect2_round])
  obtain ⟨r', f1, f2, f3⟩ := fromOverlay_multi exOps (ps := [exRect1]) (orMaterial (.compound c1) (.single g)) none 12
    (by simpa using exRect1_round)
  rw [orMaterial_getD] at e2 f2
  refine ⟨exOps, exOv, hullReg, exSteel, .compound c1, .compound c2, .single g, .compound r, .compound r', hullReg_empty, hs,
    a1, b1, mk_built .., ?_, d1, ?_, ?_, e2, d2, ?_, ?_, f2⟩
  · intro x hx
    rcases List.mem_append.1 hx with h | h
    exacts [a2 x h, b2 x h]
  · have hu : exOv.union (Shape.compound c1).polys (Shape.compound c2).polys = .multi [exRect1, exRect2] := by
      rw [Shape.polys, Shape.polys, ha, hb]
      rfl
    simp only [Shape.or, hu, filterNonPolygons]
    exact e1
  · intro h0
    rw [Shape.parts] at h0
    simp [h0] at e3
  · have hu : exOv.inter (Shape.compound c1).polys (Shape.single g).polys = .multi [exRect1] := by
      rw [Shape.polys, Shape.polys, ha, hg]
      simp [exOv]
    rw [Shape.and, hu]
    exact f1
  · intro h0
    rw [Shape.parts] at h0
    simp [h0] at f3

/-- **C62, a further violation.** A part that is subtracted altogether stays in the compound as an empty part.  Here a
rectangle of steel and one of the default material are joined, and the first one is subtracted.  The region is right
(`C62_difference` applies), but the compound still lists two materials and has only one control point, so that `Section`
raises `ValueError` for every mesh with the requested regions. -/
theorem C62_empty_part_violated : ∃ (ops : GeomOps) (ov : OverlayOps) (reg : Poly → Set Pt) (a : Compound) (b : Geometry)
    (c : Compound), reg ⟨[], []⟩ = ∅ ∧ CBuilt ops a ∧ Built ops b ∧ a.geoms.map (·.poly) = [exRect1, exRect2] ∧
    b.poly = exRect1 ∧
    (∀ g ∈ a.geoms, Describes reg (min g.tol 12) (ov.diff [g.poly] [b.poly]) (reg g.poly \ reg b.poly)) ∧
    (Shape.compound a).sub ops ov (.single b) = .ok (.compound c) ∧
    c.geoms.map (·.poly) = [⟨[], []⟩, exRect2] ∧ c.controlPoints.length = 1 ∧
    ∀ s : GeomIn, s.materials.map (·.val) = c.geoms.map (·.material) → ∀ m, s.mesh = some m →
      (∀ k ∈ m.attributes, k < c.controlPoints.length) → Section.init s = .error .valueError := by
  have q1 : (mkGeometry exOps exRect1 exSteel none 12).poly = exRect1 := exRect1_poly _
  have q2 : (mkGeometry exOps exRect2 defaultMaterial none 12).poly = exRect2 := exRect2_poly _
  have qb : (mkGeometry exOps exRect1 defaultMaterial none 12).poly = exRect1 := exRect1_poly _
  have q0 : (mkGeometry exOps ⟨[], []⟩ exSteel none 12).poly = ⟨[], []⟩ := roundPoly_empty 12
  obtain ⟨a, _, a2, a3⟩ := mkCompound_built exOps (gs := [mkGeometry exOps exRect1 exSteel none 12,
    mkGeometry exOps exRect2 defaultMaterial none 12]) (by
      intro g hg
      simp only [List.mem_cons, List.not_mem_nil, or_false] at hg
      rcases hg with rfl | rfl <;> exact mk_built ..)
  obtain ⟨c, c1, c2, c3⟩ := mkCompound_built exOps (gs := [mkGeometry exOps ⟨[], []⟩ exSteel none 12,
    mkGeometry exOps exRect2 defaultMaterial none 12]) (by
      intro g hg
      simp only [List.mem_cons, List.not_mem_nil, or_false] at hg
      rcases hg with rfl | rfl <;> exact mk_built ..)
  obtain ⟨d, d1, d2, d3⟩ := mkCompound_built exOps (gs := [mkGeometry exOps exRect2 defaultMaterial none 12]) (by
      intro g hg
      simp only [List.mem_cons, List.not_mem_nil, or_false] at hg
      rcases hg with rfl
      exact mk_built ..)
  have hcp : c.controlPoints.length = 1 := by
    obtain ⟨c0, h1, _, _, _, _, _, _, h2, _⟩ := C39_compile exOps c3.1
    rw [c3.2] at h1
    obtain rfl := Except.ok.inj h1
    rw [h2, c2, List.flatMap_cons, List.flatMap_cons, List.flatMap_nil, 
      mk_controlPoints exOps (p := exRect2) (m := defaultMaterial) (tol := 12) (by rw [q2]; simp [exRect2])]
    simp [mkGeometry, roundPoly_empty]
  have hdisj : hullReg exRect2 \ hullReg exRect1 = hullReg exRect2 := by
    refine sdiff_eq_left.2 (Set.disjoint_left.2 fun q h2 h1 => ?_)
    have e1 : hullReg exRect1 ⊆ {q : Pt | q.1 ≤ 1} := by
      refine convexHull_min ?_ (convex_halfSpace_le (f := fun q : Pt => q.1) ⟨fun _ _ => rfl, fun _ _ => rfl⟩ 1)
      intro v hv
      simp only [exRect1, List.mem_cons, List.not_mem_nil, or_false, Set.mem_ofPred_eq] at hv
      rcases hv with rfl | rfl | rfl | rfl <;> norm_num
    have e2 : hullReg exRect2 ⊆ {q : Pt | 2 ≤ q.1} := by
      refine convexHull_min ?_ (convex_halfSpace_ge (f := fun q : Pt => q.1) ⟨fun _ _ => rfl, fun _ _ => rfl⟩ 2)
      intro v hv
      simp only [exRect2, List.mem_cons, List.not_mem_nil, or_false, Set.mem_ofPred_eq] at hv
      rcases hv with rfl | rfl | rfl | rfl <;> norm_num
    have h3 := e1 h1
    have h4 := e2 h2
    simp only [Set.mem_ofPred_eq] at h3 h4
    linarith
  have e12 : exOv.diff [exRect1] [exRect1] = .polygon ⟨[], []⟩ := by simp [exOv]
  have e22 : exOv.diff [exRect2] [exRect1] = .multi [exRect2] := by simp [exOv, exRect1_ne.symm]
  refine ⟨exOps, exOv, hullReg, a, mkGeometry exOps exRect1 defaultMaterial none 12, c, hullReg_empty, a3, mk_built ..,
    by simp [a2, q1, q2], qb, ?_, ?_, by simp [c2, q0, q2], hcp, ?_⟩
  · intro g hg
    simp only [a2, List.mem_cons, List.not_mem_nil, or_false] at hg
    rcases hg with rfl | rfl
    · rw [q1, qb, e12]
      refine ⟨nofun, ?_, ?_⟩
      · have : covered hullReg (overlayPolys (.polygon ⟨[], []⟩)) = ∅ := by
          ext; simp [covered, overlayPolys, hullReg_empty]
        rw [this, sdiff_self]
        exact .rfl
      · intro p hp
        simp only [overlayPolys, List.mem_singleton] at hp
        exact Or.inl hp
    · rw [q2, qb, e22, hdisj]
      refine ⟨nofun, ?_, ?_⟩
      · have : covered hullReg (overlayPolys (.multi [exRect2])) = hullReg exRect2 := by ext; simp [covered, overlayPolys]
        rw [this]
        exact .rfl
      · intro p hp
        simp only [overlayPolys, List.mem_singleton] at hp
        exact Or.inr (hp ▸ exRect2_grid)
  · have s1 : (mkGeometry exOps exRect1 exSteel none 12).sub exOps exOv (.single (mkGeometry exOps exRect1 defaultMaterial none 12))
        = .ok (.single (mkGeometry exOps ⟨[], []⟩ exSteel none 12)) := by
      simp only [Geometry.sub, Shape.polys, Shape.parts, List.map_cons, List.map_nil, q1, qb, e12, filterNonPolygons]
      rfl
    have s2 : (mkGeometry exOps exRect2 defaultMaterial none 12).sub exOps exOv
        (.single (mkGeometry exOps exRect1 defaultMaterial none 12)) = .ok (.compound d) := by
      simp only [Geometry.sub, Shape.polys, Shape.parts, List.map_cons, List.map_nil, q2, qb, e22, filterNonPolygons]
      rw [show (mkGeometry exOps exRect2 defaultMaterial none 12).material = defaultMaterial from rfl, d1]
    simp only [Shape.sub, a2, List.mapM_cons, List.mapM_nil, s1, s2, bind, Except.bind, pure, Except.pure, mkCompoundOf,
      List.flatMap_cons, List.flatMap_nil, Shape.parts, d2, List.append_nil, List.cons_append, List.nil_append, c1]
  · intro s hs m hm hk
    have hl : s.materials.length = 2 := by
      have := congrArg List.length hs
      simpa [c2] using this
    cases hx : m.attributes.max? with
    | none => simp [Section.init, hm, hx]
    | some mx =>
      refine ((C46_section_checks s).2 m hm).1 mx hx ?_
      have := hk mx (List.max?_mem hx)
      omega

/-- The hypotheses of `C62_difference` are met by two rectangles and the first of them. -/
example : ∃ (ops : GeomOps) (ov : OverlayOps) (reg : Poly → Set Pt) (a b : Shape), reg ⟨[], []⟩ = ∅ ∧ a.parts.length = 2 ∧
    ∀ g ∈ a.parts, Describes reg (min g.tol 12) (ov.diff [g.poly] (b.parts.map (·.poly))) (reg g.poly \ occupied reg b) := by
  obtain ⟨ops, ov, reg, a, b, c, h0, _, _, h1, _, h2, _⟩ := C62_empty_part_violated
  refine ⟨ops, ov, reg, .compound a, .single b, h0, ?_, fun g hg => ?_⟩
  · have := congrArg List.length h1
    simpa [Shape.parts] using this
  · have e : occupied reg (.single b) = reg b.poly := by ext q; simp [occupied, Shape.parts]
    rw [e]
    exact h2 g hg

/-- The hypotheses of `C62_overlay_partial` are met by two rectangles. -/
example : ∃ (a b : Shape), a.controlPoints ≠ [] ∧ hullReg ⟨[], []⟩ = ∅ ∧ a.material ≠ b.material ∧
    Describes hullReg (min a.tol 12) (exOv.union (a.parts.map (·.poly)) (b.parts.map (·.poly)))
      (occupied hullReg a ∪ occupied hullReg b) := by
  have ha : (Shape.single (mkGeometry exOps exRect1 exSteel (some (1, 1)) 12)).parts.map (·.poly) = [exRect1] := by
    simp only [Shape.parts, List.map_cons, List.map_nil]
    rw [show (mkGeometry exOps exRect1 exSteel (some (1, 1)) 12).poly = exRect1 from exRect1_round]
  have hb : (Shape.single (mkGeometry exOps exRect2 defaultMaterial none 12)).parts.map (·.poly) = [exRect2] := by
    simp only [Shape.parts, List.map_cons, List.map_nil]
    rw [show (mkGeometry exOps exRect2 defaultMaterial none 12).poly = exRect2 from exRect2_round]
  refine ⟨.single (mkGeometry exOps exRect1 exSteel (some (1, 1)) 12), .single (mkGeometry exOps exRect2 defaultMaterial none 12),
    ?_, hullReg_empty, ?_, ?_⟩
  rotate_left 2
  · rw [← (covered_occupied hullReg ha hb).2.2, ha, hb]
    refine ⟨nofun, .rfl, ?_⟩
    intro p hp
    right
    simp only [exOv, overlayPolys, List.cons_append, List.nil_append, List.mem_cons, List.not_mem_nil, or_false] at hp
    rcases hp with rfl | rfl
    exacts [exRect1_grid, exRect2_grid]
  · simp [Shape.controlPoints, mkGeometry]
  · intro h
    have := congrArg Material.elasticModulus (Option.some.inj h)
    norm_num [exSteel, defaultMaterial, mkGeometry] at this

end SP
