import Verif.Spec.Offset
import Verif.Props.SetOps

/-!
# `offset_perimeter` (C69)
-/

namespace SP

open Spec MeasureTheory Classical

variable {G : Poly → Prop} {reg B : Poly → Set Pt} {tol : ℕ} {ov : OverlayOps}

theorem Spec.Exact.round {buf : Poly → Overlay} (h : Exact G reg tol ov buf B) {p : Poly} (hp : G p) {tol' : ℕ}
    (ht : tol ≤ tol') : roundPoly tol' p = p := by
  rcases h.grid p hp with rfl | ⟨h1, h2⟩
  · exact roundPoly_empty _
  · exact roundPoly_of_onGrid (fun r hr v hv => ⟨(h1 r hr v hv).1.mono ht, (h1 r hr v hv).2.mono ht⟩) h2

theorem overlay_list (o : Overlay) : o.list = overlayPolys o := by cases o <;> rfl

theorem covered_append (reg : Poly → Set Pt) (l l' : List Poly) : covered reg (l ++ l') = covered reg l ∪ covered reg l' := by
  ext q
  simp only [covered, List.mem_append, Set.mem_ofPred_eq, Set.mem_union]
  constructor
  · rintro ⟨p, h | h, h'⟩
    exacts [Or.inl ⟨p, h, h'⟩, Or.inr ⟨p, h, h'⟩]
  · rintro (⟨p, h, h'⟩ | ⟨p, h, h'⟩)
    exacts [⟨p, Or.inl h, h'⟩, ⟨p, Or.inr h, h'⟩]

/-- A polygon or a multipolygon. -/
def Areal (o : Overlay) : Prop := (∃ p, o = .polygon p) ∨ ∃ l, o = .multi l

theorem bufferPolygon_covers {bf : BufferOps} {a : ℝ} {r : ℕ} (h : Exact G reg tol ov (fun p => bf.buffer p a r) B)
    (hG : G ⟨[], []⟩) {p : Poly} (hp : G p) :
    Covers G reg (bufferPolygon bf p a r).overlay (B p) ∧ Areal (bufferPolygon bf p a r).overlay ∧
      (bufferPolygon bf p a r).list = overlayPolys (bufferPolygon bf p a r).overlay := by
  have hb := h.buffer p hp
  refine ⟨?_, ?_, by cases bufferPolygon bf p a r <;> rfl⟩
  · simp only [bufferPolygon]
    have e0 : covered reg [⟨[], []⟩] = covered reg [] := by ext q; simp [covered, h.empty]
    generalize bf.buffer p a r = o at hb
    cases o with
    | polygon q => exact hb
    | multi qs => exact hb
    | collection items =>
      simp only
      have h1 := hb.region
      have h2 := hb.kind
      simp only [overlayPolys] at h1 h2
      generalize items.filterMap id = l at h1 h2
      match l with
      | [] => exact ⟨h1, h2⟩
      | [q] => exact ⟨h1, h2⟩
      | q :: q' :: l => exact ⟨h1, h2⟩
    | lineOrPoint =>
      refine ⟨?_, fun q hq => ?_⟩
      · simp only [PolyOrMulti.overlay, overlayPolys, e0]
        exact hb.region
      · simp only [PolyOrMulti.overlay, overlayPolys, List.mem_singleton] at hq
        exact hq ▸ hG
    | other =>
      refine ⟨?_, fun q hq => ?_⟩
      · simp only [PolyOrMulti.overlay, overlayPolys, e0]
        exact hb.region
      · simp only [PolyOrMulti.overlay, overlayPolys, List.mem_singleton] at hq
        exact hq ▸ hG
  · cases bufferPolygon bf p a r
    exacts [Or.inl ⟨_, rfl⟩, Or.inr ⟨_, rfl⟩]

theorem subtractAll_covers {buf : Poly → Overlay} (h : Exact G reg tol ov buf B) {ι : Type} (T : ι → Set Pt) (L : ι → List Poly)
    (l : List ι) : (∀ i ∈ l, (∀ p ∈ L i, G p) ∧ covered reg (L i) =ᵐ[volume] T i) → ∀ {o : Overlay} {S : Set Pt},
    Covers G reg o S → Areal o →
    Covers G reg (subtractAll ov o (l.map L)) (S \ {q | ∃ i ∈ l, q ∈ T i}) ∧ Areal (subtractAll ov o (l.map L)) := by
  induction l with
  | nil =>
    intro _ o S ho ha
    simpa [subtractAll] using ⟨ho, ha⟩
  | cons i l ih =>
    intro hl o S ho ha
    obtain ⟨d1, d2⟩ := h.diff o.list (L i) (by rw [overlay_list]; exact ho.kind) (hl i (by simp)).1
    have d3 : Covers G reg (ov.diff o.list (L i)) (S \ T i) := by
      refine ⟨d1.region.trans ?_, d1.kind⟩
      rw [overlay_list]
      exact ho.region.diff (hl i (by simp)).2
    obtain ⟨e1, e2⟩ := ih (fun j hj => hl j (by simp [hj])) d3 d2
    have : S \ {q | ∃ j ∈ i :: l, q ∈ T j} = (S \ T i) \ {q | ∃ j ∈ l, q ∈ T j} := by
      ext q
      simp [Set.mem_sdiff, and_assoc]
    rw [this]
    exact ⟨e1, e2⟩

/-- As `Made`, with polygons of the kind `G`. -/
def MadeIn (G : Poly → Prop) (ops : GeomOps) (reg : Poly → Set Pt) (r : Except PyErr Shape) (m : Material) (S : Set Pt) : Prop :=
  ∃ s, r = .ok s ∧ SBuilt ops s ∧ (∀ g ∈ s.parts, g.material = m) ∧ occupied reg s =ᵐ[volume] S ∧ ∀ g ∈ s.parts, G g.poly

theorem offsetResult_made (ops : GeomOps) {buf : Poly → Overlay} (h : Exact G reg tol ov buf B) (g : Geometry)
    (ht : tol ≤ g.tol) (ht' : tol ≤ 12) {o : Overlay} {S : Set Pt} (ho : Covers G reg o S) (ha : Areal o) :
    MadeIn G ops reg (offsetResult ops ov g o) g.material S := by
  rcases ha with ⟨p, rfl⟩ | ⟨ps, rfl⟩
  · have hp : G p := ho.kind p (by simp [overlayPolys])
    have key : ∀ cp, MadeIn G ops reg (.ok (.single (mkGeometry ops p g.material cp g.tol))) g.material S := by
      intro cp
      refine ⟨_, rfl, mk_built .., by simp [Shape.parts, mkGeometry], ?_, ?_⟩
      · rw [occupied_eq]
        simp only [Shape.parts, mkGeometry, List.map_cons, List.map_nil, h.round hp ht]
        exact ho.region
      · simpa [Shape.parts, mkGeometry, h.round hp ht] using hp
    simp only [offsetResult]
    split
    · split <;> exact key _
    · exact key _
  · obtain ⟨c, c1, c2, c3, c4⟩ := parts_ok ops g.material fun p hp => h.round (ho.kind p hp) ht'
    refine ⟨.compound c, ?_, c2, c3, ?_, ?_⟩
    · simp only [overlayPolys] at c1
      simp only [offsetResult, c1]
    · rw [occupied_eq, Shape.parts, c4]
      exact ho.region
    · intro x hx
      have : x.poly ∈ c.geoms.map (·.poly) := List.mem_map.2 ⟨x, hx, rfl⟩
      rw [c4] at this
      exact ho.kind _ this

theorem offset_made (ops : GeomOps) (bf : BufferOps) (g : Geometry) (a : ℝ) (r : ℕ) (whr : String)
    (h : Exact G reg tol ov (fun p => bf.buffer p a r) B) (hG : G ⟨[], []⟩) (hg : G g.poly)
    (ht : tol ≤ g.tol) (ht' : tol ≤ 12) (hw : whr = "exterior" ∨ whr = "all" ∨ whr = "interior" ∧ g.poly.interiors ≠ []) :
    MadeIn G ops reg (g.offsetPerimeter ops ov bf a whr r) g.material (offsetRegion reg B g.poly whr) := by
  obtain ⟨r1, r2, r3⟩ := h.rings g.poly hg
  rcases hw with rfl | rfl | ⟨rfl, hi⟩
  · have e1 : g.offsetPerimeter ops ov bf a "exterior" r
        = offsetResult ops ov g (subtractAll ov (bufferPolygon bf ⟨g.poly.exterior, []⟩ a r).overlay
            (g.poly.interiors.map fun i => [⟨i, []⟩])) := by
      simp [Geometry.offsetPerimeter]
    obtain ⟨b1, b2, _⟩ := bufferPolygon_covers h hG r1
    obtain ⟨s1, s2⟩ := subtractAll_covers h (fun i => reg ⟨i, []⟩) (fun i => [⟨i, []⟩]) g.poly.interiors (by
      intro i hi
      refine ⟨by simpa using r2 i hi, ?_⟩
      have : covered reg [⟨i, []⟩] = reg ⟨i, []⟩ := by ext q; simp [covered]
      rw [this]
      exact .rfl) b1 b2
    have := offsetResult_made ops h g ht ht' s1 s2
    rw [← e1] at this
    simpa [offsetRegion, MadeIn] using this
  · have e1 : g.offsetPerimeter ops ov bf a "all" r
        = offsetResult ops ov g (bufferPolygon bf g.poly a r).overlay := by
      simp [Geometry.offsetPerimeter]
    obtain ⟨b1, b2, _⟩ := bufferPolygon_covers h hG hg
    have := offsetResult_made ops h g ht ht' b1 b2
    rw [← e1] at this
    simpa [offsetRegion, MadeIn] using this
  · have e1 : g.offsetPerimeter ops ov bf a "interior" r
        = offsetResult ops ov g (subtractAll ov (.polygon ⟨g.poly.exterior, []⟩)
            (g.poly.interiors.map fun i => (bufferPolygon bf ⟨i, []⟩ a r).list)) := by
      simp [Geometry.offsetPerimeter, hi]
    have c0 : Covers G reg (.polygon ⟨g.poly.exterior, []⟩) (reg ⟨g.poly.exterior, []⟩) := by
      refine ⟨?_, by simpa [overlayPolys] using r1⟩
      have : covered reg (overlayPolys (.polygon ⟨g.poly.exterior, []⟩)) = reg ⟨g.poly.exterior, []⟩ := by
        ext q; simp [covered, overlayPolys]
      rw [this]
      exact .rfl
    obtain ⟨s1, s2⟩ := subtractAll_covers h (fun i => B ⟨i, []⟩) (fun i => (bufferPolygon bf ⟨i, []⟩ a r).list)
      g.poly.interiors (by
      intro i hi
      obtain ⟨b1, b2, b3⟩ := bufferPolygon_covers h hG (r2 i hi)
      rw [b3]
      exact ⟨b1.kind, b1.region⟩) c0 (Or.inl ⟨_, rfl⟩)
    have := offsetResult_made ops h g ht ht' s1 s2
    rw [← e1] at this
    simpa [offsetRegion, MadeIn] using this

/-- **C69, one geometry.** If shapely is exact on the polygons that occur, `offset_perimeter` of a geometry gives, for
`where = "exterior"` and `"all"`, and for `"interior"` if there is a hole, a geometry or compound of the same
material throughout, occupying: the buffered exterior without the holes; the buffered polygon; the exterior without
the buffered holes. -/
theorem C69_geometry (ops : GeomOps) (bf : BufferOps) (g : Geometry) (a : ℝ) (r : ℕ) (whr : String)
    (h : Exact G reg tol ov (fun p => bf.buffer p a r) B) (hG : G ⟨[], []⟩) (hg : G g.poly)
    (ht : tol ≤ g.tol) (ht' : tol ≤ 12) (hw : whr = "exterior" ∨ whr = "all" ∨ whr = "interior" ∧ g.poly.interiors ≠ []) :
    ∃ s, g.offsetPerimeter ops ov bf a whr r = .ok s ∧ SBuilt ops s ∧ (∀ x ∈ s.parts, x.material = g.material) ∧
      occupied reg s =ᵐ[volume] offsetRegion reg B g.poly whr := by
  obtain ⟨s, h1, h2, h3, h4, _⟩ := offset_made ops bf g a r whr h hG hg ht ht' hw
  exact ⟨s, h1, h2, h3, h4⟩

/-- **C69, arguments.** Any other `where` is a `ValueError`, and so is `"interior"` without a hole. -/
theorem C69_arguments (ops : GeomOps) (bf : BufferOps) (ov : OverlayOps) (g : Geometry) (a : ℝ) (r : ℕ) (whr : String) :
    (whr ≠ "exterior" → whr ≠ "interior" → whr ≠ "all" → g.offsetPerimeter ops ov bf a whr r = .error .valueError) ∧
    (g.poly.interiors = [] → g.offsetPerimeter ops ov bf a "interior" r = .error .valueError) := by
  constructor
  · intro h1 h2 h3
    simp [Geometry.offsetPerimeter, h1, h2, h3]
  · intro h
    simp [Geometry.offsetPerimeter, h]

/-- **C69, direction (partial).** If buffering by a positive amount enlarges polygons and by a negative amount makes them
smaller, then `offset_perimeter` with `where = "exterior"` or `"all"` enlarges the section for a positive and makes it
smaller for a negative amount.  Missing: `where = "interior"`, see `C69_interior_reversed` and `C69_violated`. -/
theorem C69_direction_partial (ops : GeomOps) (bf : BufferOps) (g : Geometry) (a : ℝ) (r : ℕ) (whr : String)
    (h : Exact G reg tol ov (fun p => bf.buffer p a r) B) (hG : G ⟨[], []⟩) (hg : G g.poly)
    (ht : tol ≤ g.tol) (ht' : tol ≤ 12) (hw : whr = "exterior" ∨ whr = "all")
    (hpos : 0 < a → ∀ p, G p → reg p ≤ᵐ[volume] B p) (hneg : a < 0 → ∀ p, G p → B p ≤ᵐ[volume] reg p) :
    ∃ s, g.offsetPerimeter ops ov bf a whr r = .ok s ∧
      (0 < a → reg g.poly ≤ᵐ[volume] occupied reg s) ∧ (a < 0 → occupied reg s ≤ᵐ[volume] reg g.poly) := by
  obtain ⟨s, h1, _, _, h4⟩ := C69_geometry ops bf g a r whr h hG hg ht ht' (hw.imp_right Or.inl)
  obtain ⟨r1, r2, r3⟩ := h.rings g.poly hg
  have r4 : covered reg (g.poly.interiors.map fun i => ⟨i, []⟩) = {q | ∃ i ∈ g.poly.interiors, q ∈ reg ⟨i, []⟩} := by
    ext q; simp [covered]
  rw [r4] at r3
  refine ⟨s, h1, fun ha => ?_, fun ha => ?_⟩
  · refine Filter.EventuallyLE.trans ?_ h4.symm.le
    rcases hw with rfl | rfl
    · refine r3.le.trans ?_
      simp only [offsetRegion, if_true]
      exact (hpos ha _ r1).diff (Filter.EventuallyLE.refl _ _)
    · simpa [offsetRegion] using hpos ha _ hg
  · refine Filter.EventuallyLE.trans h4.le ?_
    rcases hw with rfl | rfl
    · refine Filter.EventuallyLE.trans ?_ r3.symm.le
      simp only [offsetRegion, if_true]
      exact (hneg ha _ r1).diff (Filter.EventuallyLE.refl _ _)
    · simpa [offsetRegion] using hneg ha _ hg

/-- **C69, holes.** With `where = "interior"` it is the other way round: the holes are buffered by the amount, so that a
positive amount makes the section smaller and a negative amount enlarges it. -/
theorem C69_interior_reversed (ops : GeomOps) (bf : BufferOps) (g : Geometry) (a : ℝ) (r : ℕ)
    (h : Exact G reg tol ov (fun p => bf.buffer p a r) B) (hG : G ⟨[], []⟩) (hg : G g.poly)
    (ht : tol ≤ g.tol) (ht' : tol ≤ 12) (hi : g.poly.interiors ≠ [])
    (hpos : 0 < a → ∀ p, G p → reg p ≤ᵐ[volume] B p) (hneg : a < 0 → ∀ p, G p → B p ≤ᵐ[volume] reg p) :
    ∃ s, g.offsetPerimeter ops ov bf a "interior" r = .ok s ∧
      (0 < a → occupied reg s ≤ᵐ[volume] reg g.poly) ∧ (a < 0 → reg g.poly ≤ᵐ[volume] occupied reg s) := by
  obtain ⟨s, h1, _, _, h4⟩ := C69_geometry ops bf g a r "interior" h hG hg ht ht' (Or.inr (Or.inr ⟨rfl, hi⟩))
  obtain ⟨r1, r2, r3⟩ := h.rings g.poly hg
  have r4 : covered reg (g.poly.interiors.map fun i => ⟨i, []⟩) = {q | ∃ i ∈ g.poly.interiors, q ∈ reg ⟨i, []⟩} := by
    ext q; simp [covered]
  rw [r4] at r3
  have e : offsetRegion reg B g.poly "interior"
      = reg ⟨g.poly.exterior, []⟩ \ {q | ∃ i ∈ g.poly.interiors, q ∈ B ⟨i, []⟩} := by simp [offsetRegion]
  rw [e] at h4
  have key : ∀ (X Y : List Pt → Set Pt) (l : List (List Pt)), (∀ i ∈ l, X i ≤ᵐ[volume] Y i) →
      ({q | ∃ i ∈ l, q ∈ X i} : Set Pt) ≤ᵐ[volume] ({q | ∃ i ∈ l, q ∈ Y i} : Set Pt) := by
    intro X Y l hl
    induction l with
    | nil =>
      simp only [List.not_mem_nil, false_and, exists_false]
      exact Filter.EventuallyLE.refl _ _
    | cons i l ih =>
      have s1 : ∀ Z : List Pt → Set Pt, {q | ∃ j ∈ i :: l, q ∈ Z j} = Z i ∪ {q | ∃ j ∈ l, q ∈ Z j} := by
        intro Z; ext q; simp
      rw [s1, s1]
      exact (hl i (by simp)).union (ih fun j hj => hl j (by simp [hj]))
  refine ⟨s, h1, fun ha => ?_, fun ha => ?_⟩
  · refine h4.le.trans (Filter.EventuallyLE.trans ?_ r3.symm.le)
    exact (Filter.EventuallyLE.refl _ _).diff (key _ _ _ fun i hi => hpos ha _ (r2 i hi))
  · refine Filter.EventuallyLE.trans (r3.le.trans ?_) h4.symm.le
    exact (Filter.EventuallyLE.refl _ _).diff (key _ _ _ fun i hi => hneg ha _ (r2 i hi))

theorem offsetResult_control (ops : GeomOps) (ov : OverlayOps) {g : Geometry} (hb : Built ops g) {g' : Geometry} (o : Overlay)
    (ho : offsetResult ops ov g o = .ok (.single g')) :
    ∃ p, g'.poly = roundPoly g.tol p ∧ g'.material = g.material ∧ g'.tol = g.tol ∧
      (∀ c, g.assigned = some c → ov.contains p c → g'.controlPoints = [c]) ∧
      ((∀ c, g.assigned = some c → ov.contains p c = false) → g'.poly.exterior ≠ [] →
        g'.controlPoints = [ops.rep g'.poly]) := by
  cases o with
  | polygon p =>
    have hc : ∀ c, g.assigned = some c → g.controlPoints.head? = some c := by
      intro c hc
      rw [hb.eq, hc]
      rfl
    simp only [offsetResult] at ho
    cases ha : g.assigned with
    | none =>
      simp only [ha, Except.ok.injEq, Shape.single.injEq] at ho
      subst ho
      exact ⟨p, rfl, rfl, rfl, nofun, fun _ he => mk_controlPoints ops he⟩
    | some c =>
      simp only [ha] at ho
      split at ho
      · rename_i hk
        simp only [Except.ok.injEq, Shape.single.injEq, hc c ha] at ho
        subst ho
        refine ⟨p, rfl, rfl, rfl, ?_, fun h0 _ => ?_⟩
        · rintro c' h1 _
          obtain rfl := Option.some.inj h1
          rfl
        · rw [h0 c rfl] at hk
          exact absurd hk (by simp)
      · rename_i hk
        simp only [Except.ok.injEq, Shape.single.injEq] at ho
        subst ho
        refine ⟨p, rfl, rfl, rfl, ?_, fun _ he => mk_controlPoints ops he⟩
        rintro c' h1 h2
        obtain rfl := Option.some.inj h1
        exact absurd h2 hk
  | multi ps =>
    simp only [offsetResult] at ho
    split at ho <;> simp at ho
  | collection _ => simp [offsetResult] at ho
  | lineOrPoint => simp [offsetResult] at ho
  | other => simp [offsetResult] at ho

/-- **C69, control point.** If the result is one polygon, a control point that was assigned is kept if it lies in the
result, and replaced by the representative point if it does not. -/
theorem C69_control_point (ops : GeomOps) (ov : OverlayOps) (bf : BufferOps) {g : Geometry} (hb : Built ops g) (a : ℝ) (whr : String) (r : ℕ)
    {g' : Geometry} (h : g.offsetPerimeter ops ov bf a whr r = .ok (.single g')) :
    ∃ p, g'.poly = roundPoly g.tol p ∧ g'.material = g.material ∧ g'.tol = g.tol ∧
      (∀ c, g.assigned = some c → ov.contains p c → g'.controlPoints = [c]) ∧
      ((∀ c, g.assigned = some c → ov.contains p c = false) → g'.poly.exterior ≠ [] →
        g'.controlPoints = [ops.rep g'.poly]) := by
  rw [Geometry.offsetPerimeter] at h
  split at h
  · exact offsetResult_control ops ov hb _ h
  split at h
  · simp at h
  split at h
  · exact offsetResult_control ops ov hb _ h
  split at h
  · exact offsetResult_control ops ov hb _ h
  · simp at h

/-! ### Compounds -/

theorem empty_of_exterior {buf : Poly → Overlay} (h : Exact G reg tol ov buf B) {p : Poly} (hp : G p) (he : p.exterior = []) :
    p = ⟨[], []⟩ := by
  rcases h.grid p hp with h1 | ⟨_, v, hv, _⟩
  · exact h1
  · rw [he] at hv
    exact absurd hv (by simp)

theorem fromOverlay_polys (ops : GeomOps) {o : Overlay} {m : Option Material} {cp : Option Pt} {t : ℕ} {s : Shape}
    (h : fromOverlay ops o m cp t = .ok s) : ∀ x ∈ s.parts, ∃ p, (p = ⟨[], []⟩ ∨ p ∈ overlayPolys o) ∧
      (x.poly = roundPoly t p ∨ x.poly = roundPoly 12 p) := by
  have hf : ∀ r, filterNonPolygons o = .ok r → ∀ p ∈ r.list, p = ⟨[], []⟩ ∨ p ∈ overlayPolys o := by
    intro r hr p hp
    cases o with
    | polygon q => obtain rfl := Except.ok.inj hr; exact Or.inr hp
    | multi qs => obtain rfl := Except.ok.inj hr; exact Or.inr hp
    | collection items =>
      simp only [filterNonPolygons] at hr
      simp only [overlayPolys]
      generalize items.filterMap id = l at hr
      match l with
      | [] => obtain rfl := Except.ok.inj hr; exact Or.inl (by simpa [PolyOrMulti.list] using hp)
      | [q] => obtain rfl := Except.ok.inj hr; exact Or.inr hp
      | q :: q' :: l => obtain rfl := Except.ok.inj hr; exact Or.inr hp
    | lineOrPoint => obtain rfl := Except.ok.inj hr; exact Or.inl (by simpa [PolyOrMulti.list] using hp)
    | other => simp [filterNonPolygons] at hr
  intro x hx
  rw [fromOverlay] at h
  cases hr : filterNonPolygons o with
  | error e => simp [hr] at h
  | ok r =>
    have hf := hf r hr
    cases r with
    | one p =>
      simp only [hr, Except.ok.injEq] at h
      subst h
      simp only [Shape.parts, List.mem_singleton] at hx
      subst hx
      exact ⟨p, hf p (by simp [PolyOrMulti.list]), Or.inl rfl⟩
    | many ps =>
      simp only [hr] at h
      obtain ⟨c, c1, c2, _⟩ := mkCompound_built ops
        (gs := ps.map fun p => mkGeometry ops p (m.getD defaultMaterial) none 12) (by
          intro g hg
          obtain ⟨p, _, rfl⟩ := List.mem_map.1 hg
          exact mk_built ..)
      simp only [c1, Except.ok.injEq] at h
      subst h
      rw [Shape.parts, c2] at hx
      obtain ⟨p, hp, rfl⟩ := List.mem_map.1 hx
      exact ⟨p, hf p hp, Or.inr rfl⟩

/-- **C69, eroding a compound.** If shapely is exact and the union of the parts is one polygon `p`, then for a negative
amount, and a `where` that is possible for this union, the result exists and for every material `m` the region made of
`m` is what was made of `m` before and lies in the offset union; no part changes its material. -/
theorem C69_erode (ops : GeomOps) (bf : BufferOps) (c : Compound) (a : ℝ) (r : ℕ) (whr : String) (p : Poly)
    (h : Exact G reg tol ov (fun p => bf.buffer p a r) B) (hG : G ⟨[], []⟩) (hc : ∀ g ∈ c.geoms, G g.poly ∧ tol ≤ g.tol)
    (ht : tol ≤ 12) (ha : a < 0) (hu : bf.unaryUnion (c.geoms.map (·.poly)) = .polygon p) (hp : G p)
    (hw : whr = "exterior" ∨ whr = "all" ∨ whr = "interior" ∧ p.interiors ≠ []) :
    ∃ c', c.offsetPerimeter ops ov bf a whr r = .ok c' ∧
      (∀ m, madeOf reg (.compound c') m =ᵐ[volume] (madeOf reg (.compound c) m ∩ offsetRegion reg B p whr : Set Pt)) ∧
      (∀ s ∈ c'.geoms, ∃ g ∈ c.geoms, s.material = g.material) := by
  have hpoly : (mkGeometry ops p defaultMaterial none 12).poly = p := h.round hp ht
  obtain ⟨mask, m1, m2, m3, m4, m5⟩ := offset_made ops bf (mkGeometry ops p defaultMaterial none 12) a r whr h hG
    (by rw [hpoly]; exact hp) ht ht (by rw [hpoly]; exact hw)
  rw [hpoly] at m4
  have key : ∀ g ∈ c.geoms, MadeIn G ops reg ((Shape.single g).and ops ov mask) g.material
      (reg g.poly ∩ offsetRegion reg B p whr) := by
    intro g hg
    obtain ⟨d1, d2⟩ := h.inter [g.poly] mask.polys (by simpa using (hc g hg).1) (by
      intro q hq
      obtain ⟨x, hx, rfl⟩ := List.mem_map.1 hq
      exact m5 x hx)
    have e1 : covered reg [g.poly] = reg g.poly := by ext q; simp [covered]
    have hreg : covered reg (overlayPolys (ov.inter [g.poly] mask.polys)) =ᵐ[volume]
        (reg g.poly ∩ offsetRegion reg B p whr : Set Pt) := by
      refine d1.region.trans ?_
      rw [e1, Shape.polys, ← occupied_eq]
      exact Filter.EventuallyEq.rfl.inter m4
    have hd : Describes reg tol (ov.inter [g.poly] mask.polys) (reg g.poly ∩ offsetRegion reg B p whr) :=
      ⟨d2, hreg, fun q hq => h.grid q (d1.kind q hq)⟩
    have hk : (Shape.single g).and ops ov mask
        = fromOverlay ops (ov.inter [g.poly] mask.polys) (some g.material) none g.tol := rfl
    rw [hk]
    obtain ⟨s, s1, s2, s3, s4⟩ := fromOverlay_ok ops h.empty (tol := g.tol) (o := ov.inter [g.poly] mask.polys)
      ⟨hd.usable, hd.region, fun q hq => (hd.grid q hq).imp_right fun hx => ⟨fun r hr v hv =>
        ⟨(hx.1 r hr v hv).1.mono (le_min (hc g hg).2 ht), (hx.1 r hr v hv).2.mono (le_min (hc g hg).2 ht)⟩, hx.2⟩⟩
      (some g.material) none
    refine ⟨s, s1, s2, s3, s4, ?_⟩
    intro x hx
    obtain ⟨q, q1, q2⟩ := fromOverlay_polys ops s1 x hx
    have hq : G q := by
      rcases q1 with rfl | q1
      exacts [hG, d1.kind q q1]
    rcases q2 with q2 | q2
    · rw [q2, h.round hq (hc g hg).2]; exact hq
    · rw [q2, h.round hq ht]; exact hq
  obtain ⟨l, l1, l2⟩ := mapM_ok_of (f := fun g => (Shape.single g).and ops ov mask) c.geoms fun g hg =>
    (key g hg).imp fun _ hs => hs.1
  have l3 : List.Forall₂ (fun g s => SBuilt ops s ∧ (∀ g' ∈ s.parts, g'.material = g.material) ∧
      occupied reg s =ᵐ[volume] (reg g.poly ∩ offsetRegion reg B p whr : Set Pt) ∧ ∀ g' ∈ s.parts, G g'.poly) c.geoms l := by
    rw [List.forall₂_iff_get] at l2 ⊢
    refine ⟨l2.1, fun i hi hj => ?_⟩
    obtain ⟨s, h1, h2⟩ := key (c.geoms.get ⟨i, hi⟩) (List.get_mem ..)
    have := l2.2 i hi hj
    rw [h1] at this
    obtain rfl := Except.ok.inj this
    exact h2
  obtain ⟨c', d1, d2, d3⟩ := mkCompound_built ops (gs := (l.filter fun s => ¬ s.isEmpty).flatMap Shape.parts) (by
    intro g hg
    obtain ⟨s, hs, hg⟩ := List.mem_flatMap.1 hg
    obtain ⟨g', _, hb⟩ := forall₂_mem_right l3 (List.mem_filter.1 hs).1
    exact hb.1.parts g hg)
  refine ⟨c', ?_, fun m => ?_, ?_⟩
  · simp only [Compound.offsetPerimeter, ha, if_true, hu, m1, bind, Except.bind, l1, mkCompoundOf]
    exact d1
  · have e1 : madeOf reg (.compound c') m = {q | ∃ s ∈ l, q ∈ madeOf reg s m} := by
      ext q
      simp only [madeOf, Shape.parts, d2, List.mem_flatMap, Set.mem_ofPred_eq, List.mem_filter]
      constructor
      · rintro ⟨g, ⟨s, h1, h2⟩, h3⟩
        exact ⟨s, h1.1, g, h2, h3⟩
      · rintro ⟨s, h1, g, h2, h3, h4⟩
        refine ⟨g, ⟨s, ⟨h1, ?_⟩, h2⟩, h3, h4⟩
        simp only [decide_eq_true_eq]
        intro he
        obtain ⟨g', _, _, _, _, hk⟩ := forall₂_mem_right l3 h1
        have h5 := empty_of_exterior h (hk g h2) (he g.poly (List.mem_map.2 ⟨g, h2, rfl⟩))
        rw [h5, h.empty] at h4
        exact h4
    have e2 : madeOf reg (.compound c) m ∩ offsetRegion reg B p whr
        = {q | ∃ g ∈ c.geoms, q ∈ (if g.material = m then reg g.poly ∩ offsetRegion reg B p whr else ∅ : Set Pt)} := by
      ext q
      simp only [madeOf, Shape.parts, Set.mem_inter_iff, Set.mem_ofPred_eq]
      constructor
      · rintro ⟨⟨g, h1, h2, h3⟩, h4⟩
        exact ⟨g, h1, by rw [if_pos h2]; exact ⟨h3, h4⟩⟩
      · rintro ⟨g, h1, h2⟩
        split at h2
        · rename_i h5
          exact ⟨⟨g, h1, h5, h2.1⟩, h2.2⟩
        · exact absurd h2 (by simp)
    rw [e1, e2]
    clear e1 e2 d1 d2 d3 l1 l2 key hc hu
    generalize c.geoms = gs at l3
    induction l3 with
    | nil => simp
    | @cons g s gs l h1 h2 ih =>
      have s1 : {q | ∃ s' ∈ s :: l, q ∈ madeOf reg s' m} = madeOf reg s m ∪ {q | ∃ s' ∈ l, q ∈ madeOf reg s' m} := by
        ext q; simp
      have s2 : {q | ∃ g' ∈ g :: gs, q ∈ (if g'.material = m then reg g'.poly ∩ offsetRegion reg B p whr else ∅ : Set Pt)}
          = (if g.material = m then reg g.poly ∩ offsetRegion reg B p whr else ∅ : Set Pt) ∪
            {q | ∃ g' ∈ gs, q ∈ (if g'.material = m then reg g'.poly ∩ offsetRegion reg B p whr else ∅ : Set Pt)} := by
        ext q; simp
      rw [s1, s2, madeOf_parts reg h1.2.1]
      refine Filter.EventuallyEq.union ?_ ih
      split
      · exact h1.2.2.1
      · rfl
  · intro x hx
    rw [d2] at hx
    obtain ⟨s, hs, hx⟩ := List.mem_flatMap.1 hx
    obtain ⟨g, hg, hb⟩ := forall₂_mem_right l3 (List.mem_filter.1 hs).1
    exact ⟨g, hg, hb.2.1 x hx⟩

/-- If the parts of a compound do not form one polygon, it cannot be eroded; an amount of zero changes nothing. -/
theorem C69_erode_disjoint (ops : GeomOps) (bf : BufferOps) (ov : OverlayOps) (c : Compound) (a : ℝ) (r : ℕ) (whr : String) :
    (a < 0 → (∀ p, bf.unaryUnion (c.geoms.map (·.poly)) ≠ .polygon p) → c.offsetPerimeter ops ov bf a whr r = .error .runtimeError) ∧
    (a = 0 → c.offsetPerimeter ops ov bf a whr r = .ok c) := by
  constructor
  · intro ha hu
    simp only [Compound.offsetPerimeter, ha, if_true]
    generalize bf.unaryUnion (c.geoms.map (·.poly)) = o at hu
    cases o with
    | polygon p => exact absurd rfl (hu p)
    | multi _ => rfl
    | collection _ => rfl
    | lineOrPoint => rfl
    | other => rfl
  · rintro rfl
    simp [Compound.offsetPerimeter]

theorem networkKeys_of_two {n : ℕ} (h : 2 ≤ n) : networkKeys n = List.range n := by
  refine List.filter_eq_self.2 fun i hi => ?_
  rw [List.any_eq_true]
  rcases Nat.eq_zero_or_pos i with rfl | h0
  · exact ⟨1, by simpa using by omega, by simp⟩
  · exact ⟨0, by simpa using by omega, by simpa using by omega⟩

/-- **C69, dilating a compound (partial).** Let `T p l` be the region of the polygon `p` with the band of the given width
along the part of its outer edge that it does not share with the rings `l`, and let shapely find it as one
polygon.  For a compound of at least two parts and a positive amount, the result has the same number of parts, in order; each has
the material of the original part and is this part enlarged along the outer edges that are not shared with the outer edges
of the other parts that it touches.  Missing: compounds of one part (`C69_single_violated`), `where` (`C69_where_violated`), and edges
shared with the hole of another part (`C69_inclusion_violated`). -/
theorem C69_dilate_partial (ops : GeomOps) (ov : OverlayOps) (bf : BufferOps) (c : Compound) (a : ℝ) (r : ℕ) (whr : String)
    (reg : Poly → Set Pt) (T : Poly → List (List Pt) → Set Pt) (ha : 0 < a) (hn : 2 ≤ c.geoms.length)
    (h : ∀ g ∈ c.geoms, ∀ l, ∃ q, bf.dilated g.poly l a = .ok (.polygon q) ∧ reg q =ᵐ[volume] T g.poly l ∧
      (∀ r ∈ q.exterior :: q.interiors, ∀ v ∈ r, OnGrid 12 v.1 ∧ OnGrid 12 v.2) ∧ ∃ v ∈ q.exterior, v ≠ (0, 0)) :
    ∃ c', c.offsetPerimeter ops ov bf a whr r = .ok c' ∧ c'.geoms.length = c.geoms.length ∧
      ∀ (i : ℕ) (g g' : Geometry), c.geoms[i]? = some g → c'.geoms[i]? = some g' → g'.material = g.material ∧
        ∃ l, (∀ q, q ∈ l ↔ ∃ (j : ℕ) (x : Geometry), j ≠ i ∧ c.geoms[j]? = some x ∧ bf.touch g.poly x.poly ∧ q = x.poly.exterior) ∧
          reg g'.poly =ᵐ[volume] T g.poly l := by
  set n := c.geoms.length with hnn
  let polys := c.geoms.map (·.poly)
  let nb : ℕ → List (List Pt) := fun i => (networkGet n
      (fun i j => bf.touch (polys.getD i ⟨[], []⟩) (polys.getD j ⟨[], []⟩)) i).map fun j => (polys.getD j ⟨[], []⟩).exterior
  have hpoly : ∀ (j : ℕ) (x : Geometry), c.geoms[j]? = some x → polys.getD j ⟨[], []⟩ = x.poly := by
    intro j x hx
    simp [polys, List.getD_eq_getElem?_getD, hx]
  let one : ℕ → Except PyErr Geometry := fun i => do
    let u ← bf.dilated (polys.getD i ⟨[], []⟩) (nb i) a
    match u, c.geoms[i]? with
    | .polygon p, some g => .ok (mkGeometry ops p g.material none 12)
    | _, _ => .error .runtimeError
  have hone : ∀ i ∈ List.range n, ∃ g g', c.geoms[i]? = some g ∧ one i = .ok g' ∧ Built ops g' ∧ g'.material = g.material ∧
      reg g'.poly =ᵐ[volume] T g.poly (nb i) := by
    intro i hi
    rw [List.mem_range] at hi
    have hg : c.geoms[i]? = some c.geoms[i] := List.getElem?_eq_getElem hi
    obtain ⟨q, q1, q2, q3, q4⟩ := h c.geoms[i] (List.getElem_mem hi) (nb i)
    refine ⟨c.geoms[i], mkGeometry ops q c.geoms[i].material none 12, hg, ?_, mk_built .., rfl, ?_⟩
    · simp only [one, hpoly i _ hg, q1, hg, bind, Except.bind]
    · rw [show (mkGeometry ops q c.geoms[i].material none 12).poly = q from roundPoly_of_onGrid q3 q4]
      exact q2
  obtain ⟨acc, a1, a2⟩ := mapM_ok_of (f := one) (List.range n) fun i hi => by
    obtain ⟨g, g', _, h2, _⟩ := hone i hi
    exact ⟨g', h2⟩
  have alen : acc.length = n := by rw [← a2.length_eq, List.length_range]
  have aget : ∀ (i : ℕ) (g' : Geometry), acc[i]? = some g' → i < n ∧ one i = .ok g' := by
    intro i g' hg'
    obtain ⟨hi, rfl⟩ := List.getElem?_eq_some_iff.1 hg'
    have := (List.forall₂_iff_get.1 a2).2 i (by rw [List.length_range]; omega) hi
    simp only [List.get_eq_getElem, List.getElem_range] at this
    exact ⟨by omega, this⟩
  obtain ⟨c', d1, d2, _⟩ := mkCompound_built ops (gs := acc) (by
    intro g' hg'
    obtain ⟨i, hi⟩ := List.getElem?_of_mem hg'
    obtain ⟨h1, h2⟩ := aget i g' hi
    obtain ⟨g, g'', _, h4, h5, _⟩ := hone i (List.mem_range.2 h1)
    rw [h2] at h4
    obtain rfl := Except.ok.inj h4
    exact h5)
  refine ⟨c', ?_, by rw [d2, alen], ?_⟩
  · have e : c.offsetPerimeter ops ov bf a whr r = compoundDilation ops bf c.geoms a := by
      simp [Compound.offsetPerimeter, ha, ha.not_gt]
    have e2 : compoundDilation ops bf c.geoms a = (networkKeys n).mapM one >>= mkCompound ops := rfl
    rw [e, e2, networkKeys_of_two hn, a1]
    exact d1
  · intro i g g' hg hg'
    rw [d2] at hg'
    obtain ⟨h1, h2⟩ := aget i g' hg'
    obtain ⟨g0, g'', h3, h4, _, h5, h6⟩ := hone i (List.mem_range.2 h1)
    rw [h2] at h4
    obtain rfl := Except.ok.inj h4
    rw [hg] at h3
    obtain rfl := Option.some.inj h3
    refine ⟨h5, nb i, fun q => ?_, h6⟩
    simp only [nb, networkGet, h1, if_true, List.mem_map, List.mem_filter, List.mem_range, Bool.and_eq_true, bne_iff_ne]
    constructor
    · rintro ⟨j, ⟨j1, j2, j3⟩, rfl⟩
      have hj : c.geoms[j]? = some c.geoms[j] := List.getElem?_eq_getElem j1
      rw [hpoly i g hg, hpoly j _ hj] at j3
      exact ⟨j, _, j2, hj, j3, congrArg Poly.exterior (hpoly j _ hj)⟩
    · rintro ⟨j, x, j1, j2, j3, rfl⟩
      refine ⟨j, ⟨(List.getElem?_eq_some_iff.1 j2).1, j1, ?_⟩, congrArg Poly.exterior (hpoly j x j2)⟩
      rw [hpoly i g hg, hpoly j x j2]
      exact j3

/-- **C69 is violated** by a compound of one part: dilating it by any positive amount gives a compound without parts, whatever
the part is. -/
theorem C69_single_violated (ops : GeomOps) (ov : OverlayOps) (bf : BufferOps) (c : Compound) (a : ℝ) (r : ℕ) (whr : String)
    (ha : 0 < a) (h1 : c.geoms.length = 1) :
    ∃ c', c.offsetPerimeter ops ov bf a whr r = .ok c' ∧ c'.geoms = [] := by
  obtain ⟨c', d1, d2, _⟩ := mkCompound_built ops (gs := []) (by simp)
  refine ⟨c', ?_, d2⟩
  have e : networkKeys 1 = [] := by decide
  simp only [Compound.offsetPerimeter, ha, ha.not_gt, if_true, if_false, compoundDilation, h1, e, List.mapM_nil, bind, pure,
    Except.bind, Except.pure]
  exact d1

/-- **C69 is violated** by the argument `where` of compounds: for a positive amount it is ignored, also if it is not one of the
three values allowed. -/
theorem C69_where_violated (ops : GeomOps) (ov : OverlayOps) (bf : BufferOps) (c : Compound) (a : ℝ) (r r' : ℕ) (whr whr' : String)
    (ha : 0 < a) : c.offsetPerimeter ops ov bf a whr r = c.offsetPerimeter ops ov bf a whr' r' := by
  simp [Compound.offsetPerimeter, ha, ha.not_gt]

/-! ### A square tube -/

/-- The vertices of the square `[a, b] × [a, b]`. -/
def sqRing (a b : ℝ) : List Pt := [(a, a), (b, a), (b, b), (a, b)]

/-- Region of a polygon with convex rings. -/
def holeReg (p : Poly) : Set Pt := convexHull ℝ {v | v ∈ p.exterior} \ {q | ∃ i ∈ p.interiors, q ∈ convexHull ℝ {v | v ∈ i}}

theorem hull_sqRing {a b : ℝ} (h : a ≤ b) : convexHull ℝ {v | v ∈ sqRing a b} = Set.Icc a b ×ˢ Set.Icc a b := by
  have : {v : Pt | v ∈ sqRing a b} = ({a, b} : Set ℝ) ×ˢ ({a, b} : Set ℝ) := by
    ext ⟨x, y⟩
    simp only [sqRing, Set.mem_ofPred_eq, List.mem_cons, List.not_mem_nil, or_false, Prod.mk.injEq, Set.mem_prod,
      Set.mem_insert_iff, Set.mem_singleton_iff]
    tauto
  rw [this, convexHull_prod, convexHull_pair, segment_eq_Icc h]

/-- The squares of width 6, 4 and 2 with centre (3, 3), from the outside to the inside. -/
def exSq (k : Fin 3) : List Pt := sqRing (k : ℕ) (6 - (k : ℕ))

/-- The square number `k` as a set. -/
def exBox (k : ℕ) : Set Pt := Set.Icc (k : ℝ) (6 - k) ×ˢ Set.Icc (k : ℝ) (6 - k)

theorem exSq_hull (k : Fin 3) : convexHull ℝ {v | v ∈ exSq k} = exBox k := by
  rw [exSq, hull_sqRing, exBox]
  fin_cases k <;> norm_num

theorem exBox_anti {j k : ℕ} (h : j ≤ k) : exBox k ⊆ exBox j := by
  have h' : (j : ℝ) ≤ k := by exact_mod_cast h
  rintro ⟨x, y⟩ ⟨⟨h1, h2⟩, h3, h4⟩
  exact ⟨⟨h'.trans h1, h2.trans (by linarith)⟩, h'.trans h3, h4.trans (by linarith)⟩

/-- The parts into which the squares divide the outer one: two frames and the inner square. -/
def exPart (k : Fin 3) : Poly := ⟨exSq k, if h : (k : ℕ) + 1 < 3 then [exSq ⟨k + 1, h⟩] else []⟩

/-- The tube: the outer square without the inner one. -/
def exTube : Poly := ⟨exSq 0, [exSq 2]⟩

theorem sqRing_inj {a b a' b' : ℝ} (h : sqRing a b = sqRing a' b') : a = a' := by
  simp only [sqRing, List.cons.injEq, Prod.mk.injEq] at h
  exact h.1.1

theorem exSq_inj {j k : Fin 3} (h : exSq j = exSq k) : j = k := by
  have := sqRing_inj h
  exact Fin.ext (by exact_mod_cast this)

/-- The polygons of the example. -/
inductive ExKind : Poly → Finset (Fin 3) → Prop
  | empty : ExKind ⟨[], []⟩ ∅
  | square (k : Fin 3) : ExKind ⟨exSq k, []⟩ (Finset.univ.filter (k ≤ ·))
  | frame (k : Fin 3) : ExKind (exPart k) {k}
  | tube : ExKind exTube {0, 1}

/-- The region made of some of the parts. -/
def exRegion (s : Finset (Fin 3)) : Set Pt := {q | ∃ k ∈ s, q ∈ holeReg (exPart k)}

theorem exPart_region (k : Fin 3) : holeReg (exPart k) = exBox k \ if (k : ℕ) + 1 < 3 then exBox (k + 1) else ∅ := by
  ext q
  simp only [holeReg, exPart, exSq_hull]
  split
  · rename_i h
    simp [exSq_hull]
  · simp

theorem exPart_disjoint {j k : Fin 3} (h : j < k) {q : Pt} (hj : q ∈ holeReg (exPart j)) : q ∉ holeReg (exPart k) := by
  rw [exPart_region] at hj ⊢
  have h1 : (j : ℕ) + 1 < 3 := by omega
  rw [if_pos h1] at hj
  exact fun hk => hj.2 (exBox_anti (by omega) hk.1)

theorem exPart_unique {j k : Fin 3} {q : Pt} (hj : q ∈ holeReg (exPart j)) (hk : q ∈ holeReg (exPart k)) : j = k := by
  rcases lt_trichotomy j k with h | h | h
  · exact absurd hk (exPart_disjoint h hj)
  · exact h
  · exact absurd hj (exPart_disjoint h hk)

theorem mem_exRegion {s : Finset (Fin 3)} {k : Fin 3} {q : Pt} (hk : q ∈ holeReg (exPart k)) : q ∈ exRegion s ↔ k ∈ s :=
  ⟨fun ⟨_, h1, h2⟩ => exPart_unique h2 hk ▸ h1, fun h => ⟨k, h, hk⟩⟩

theorem exRegion_exists {s : Finset (Fin 3)} {q : Pt} (h : q ∈ exRegion s) : ∃ k, q ∈ holeReg (exPart k) :=
  ⟨_, h.choose_spec.2⟩

theorem mem_exRegion_three {s : Finset (Fin 3)} {q : Pt} : q ∈ exRegion s ↔
    (0 ∈ s ∧ q ∈ holeReg (exPart 0)) ∨ (1 ∈ s ∧ q ∈ holeReg (exPart 1)) ∨ (2 ∈ s ∧ q ∈ holeReg (exPart 2)) := by
  constructor
  · rintro ⟨k, h1, h2⟩
    fin_cases k
    exacts [Or.inl ⟨h1, h2⟩, Or.inr (Or.inl ⟨h1, h2⟩), Or.inr (Or.inr ⟨h1, h2⟩)]
  · rintro (h | h | h)
    exacts [⟨0, h⟩, ⟨1, h⟩, ⟨2, h⟩]

theorem exParts : holeReg (exPart 0) = exBox 0 \ exBox 1 ∧ holeReg (exPart 1) = exBox 1 \ exBox 2 ∧
    holeReg (exPart 2) = exBox 2 := by
  have a0 := exPart_region 0
  have a1 := exPart_region 1
  have a2 := exPart_region 2
  simp at a0 a1 a2
  exact ⟨a0, a1, a2⟩

theorem exBox_parts (k : Fin 3) : exBox k = exRegion (Finset.univ.filter (k ≤ ·)) := by
  obtain ⟨a0, a1, a2⟩ := exParts
  have b1 := exBox_anti (j := 0) (k := 1) (by omega)
  have b2 := exBox_anti (j := 1) (k := 2) (by omega)
  ext q
  have c1 := @b1 q
  have c2 := @b2 q
  rw [mem_exRegion_three, a0, a1, a2]
  fin_cases k
  · simp [Set.mem_sdiff]
    tauto
  · simp [Set.mem_sdiff]
    tauto
  · simp

theorem ExKind.region {p : Poly} {s : Finset (Fin 3)} (h : ExKind p s) : holeReg p = exRegion s := by
  cases h with
  | empty => ext q; simp [holeReg, exRegion]
  | square k =>
    rw [← exBox_parts, ← exSq_hull]
    simp [holeReg]
  | frame k => ext q; simp [exRegion]
  | tube =>
    obtain ⟨a0, a1, a2⟩ := exParts
    have b1 := exBox_anti (j := 0) (k := 1) (by omega)
    have b2 := exBox_anti (j := 1) (k := 2) (by omega)
    ext q
    have c1 := @b1 q
    have c2 := @b2 q
    rw [mem_exRegion_three, a0, a1, a2]
    simp [exTube, holeReg, exSq_hull, Set.mem_sdiff]
    tauto

/-- The polygons of the example. -/
def ExG (p : Poly) : Prop := ∃ s, ExKind p s

/-- The parts that a list of polygons covers. -/
noncomputable def exCover (ps : List Poly) : Finset (Fin 3) := Finset.univ.filter fun k => ∃ p ∈ ps, ∃ s, ExKind p s ∧ k ∈ s

theorem exCover_region {ps : List Poly} (h : ∀ p ∈ ps, ExG p) : covered holeReg ps = exRegion (exCover ps) := by
  ext q
  constructor
  · rintro ⟨p, hp, hq⟩
    obtain ⟨s, hs⟩ := h p hp
    rw [hs.region] at hq
    obtain ⟨k, h1, h2⟩ := hq
    exact ⟨k, by simp only [exCover, Finset.mem_filter, Finset.mem_univ, true_and]; exact ⟨p, hp, s, hs, h1⟩, h2⟩
  · rintro ⟨k, h1, h2⟩
    simp only [exCover, Finset.mem_filter, Finset.mem_univ, true_and] at h1
    obtain ⟨p, hp, s, hs, hk⟩ := h1
    exact ⟨p, hp, by rw [hs.region]; exact ⟨k, hk, h2⟩⟩

/-- Some of the parts, as a multipolygon. -/
def exMulti (s : Finset (Fin 3)) : Overlay := .multi (((List.finRange 3).filter (· ∈ s)).map exPart)

theorem exMulti_covers {s : Finset (Fin 3)} {S : Set Pt} (h : exRegion s = S) : Covers ExG holeReg (exMulti s) S := by
  constructor
  · have : covered holeReg (overlayPolys (exMulti s)) = S := by
      rw [← h]
      ext q
      simp [exMulti, overlayPolys, covered, exRegion]
    rw [this]
    exact .rfl
  · intro p hp
    simp only [exMulti, overlayPolys, List.mem_map] at hp
    obtain ⟨k, _, rfl⟩ := hp
    exact ⟨_, .frame k⟩

/-- Shapely on the polygons of the example. -/
noncomputable def exTubeOv : OverlayOps where
  union ps qs := exMulti (exCover ps ∪ exCover qs)
  symDiff ps qs := exMulti (symmDiff (exCover ps) (exCover qs))
  diff ps qs := exMulti (exCover ps \ exCover qs)
  inter ps qs := exMulti (exCover ps ∩ exCover qs)
  contains _ _ := false

/-- Buffering by -1: each square becomes the next one, and nothing is left of the inner square and of the frames and the
tube, which are no more than two units wide. -/
noncomputable def exBuffer (p : Poly) : Overlay :=
  if p = ⟨exSq 0, []⟩ then .polygon ⟨exSq 1, []⟩ else if p = ⟨exSq 1, []⟩ then .polygon ⟨exSq 2, []⟩ else .polygon ⟨[], []⟩

/-- The regions of the buffered polygons. -/
noncomputable def exB (p : Poly) : Set Pt :=
  if p = ⟨exSq 0, []⟩ then exBox 1 else if p = ⟨exSq 1, []⟩ then exBox 2 else ∅

theorem exOnGrid (k : Fin 3) : (∀ v ∈ exSq k, OnGrid 12 v.1 ∧ OnGrid 12 v.2) ∧ ∃ v ∈ exSq k, v ≠ ((0 : ℝ), (0 : ℝ)) := by
  have hg : ∀ n : ℤ, OnGrid 12 (n : ℝ) := fun n => ⟨n * 10 ^ 12, by push_cast; field_simp; norm_num⟩
  have g1 : OnGrid 12 ((k : ℕ) : ℝ) := by simpa using hg (k : ℕ)
  have g2 : OnGrid 12 (6 - ((k : ℕ) : ℝ)) := by simpa using hg (6 - (k : ℕ))
  constructor
  · intro v hv
    simp only [exSq, sqRing, List.mem_cons, List.not_mem_nil, or_false] at hv
    rcases hv with rfl | rfl | rfl | rfl
    exacts [⟨g1, g1⟩, ⟨g2, g1⟩, ⟨g2, g2⟩, ⟨g1, g2⟩]
  · refine ⟨(6 - (k : ℕ), 6 - (k : ℕ)), by simp [exSq, sqRing], ?_⟩
    intro h
    have := congrArg Prod.fst h
    simp only at this
    fin_cases k <;> norm_num at this

theorem exTube_exact : Exact ExG holeReg 12 exTubeOv exBuffer exB where
  empty := by simp [holeReg]
  grid := by
    rintro p ⟨s, h⟩
    cases h with
    | empty => exact Or.inl rfl
    | square k =>
      refine Or.inr ⟨?_, (exOnGrid k).2⟩
      simpa using (exOnGrid k).1
    | frame k =>
      refine Or.inr ⟨?_, (exOnGrid k).2⟩
      intro r hr
      simp only [exPart, List.mem_cons] at hr
      rcases hr with rfl | hr
      · exact (exOnGrid k).1
      · split at hr
        · simp only [List.mem_singleton] at hr
          exact hr ▸ (exOnGrid _).1
        · simp at hr
    | tube =>
      refine Or.inr ⟨?_, (exOnGrid 0).2⟩
      intro r hr
      simp only [exTube, List.mem_cons, List.not_mem_nil, or_false] at hr
      rcases hr with rfl | rfl
      exacts [(exOnGrid 0).1, (exOnGrid 2).1]
  rings := by
    intro p hp
    have hr : holeReg p = (holeReg ⟨p.exterior, []⟩ \ covered holeReg (p.interiors.map fun i => ⟨i, []⟩) : Set Pt) := by
      ext q; simp [holeReg, covered]
    refine ⟨?_, ?_, by rw [← hr]; exact .rfl⟩
    · obtain ⟨s, h⟩ := hp
      cases h with
      | empty => exact ⟨_, .empty⟩
      | square k => exact ⟨_, .square k⟩
      | frame k => exact ⟨_, .square k⟩
      | tube => exact ⟨_, .square 0⟩
    · obtain ⟨s, h⟩ := hp
      intro i hi
      cases h with
      | empty => simp at hi
      | square k => simp at hi
      | frame k =>
        simp only [exPart] at hi
        split at hi
        · simp only [List.mem_singleton] at hi
          exact hi ▸ ⟨_, .square _⟩
        · simp at hi
      | tube =>
        simp only [exTube, List.mem_singleton] at hi
        exact hi ▸ ⟨_, .square 2⟩
  buffer := by
    intro p _
    have hone : ∀ q : Poly, ExG q → Covers ExG holeReg (.polygon q) (holeReg q) := fun q hq => by
      refine ⟨?_, by simpa [overlayPolys] using hq⟩
      have : covered holeReg (overlayPolys (.polygon q)) = holeReg q := by ext; simp [covered, overlayPolys]
      rw [this]
      exact .rfl
    have hsq : ∀ k : Fin 3, holeReg ⟨exSq k, []⟩ = exBox k := fun k => by simp [holeReg, exSq_hull]
    simp only [exBuffer, exB]
    split
    · have := hone ⟨exSq 1, []⟩ ⟨_, .square 1⟩
      rw [hsq] at this
      exact this
    split
    · have := hone ⟨exSq 2, []⟩ ⟨_, .square 2⟩
      rw [hsq] at this
      exact this
    · have := hone ⟨[], []⟩ ⟨_, .empty⟩
      rwa [show holeReg ⟨[], []⟩ = ∅ by simp [holeReg]] at this
  diff := by
    intro ps qs hp hq
    refine ⟨exMulti_covers ?_, Or.inr ⟨_, rfl⟩⟩
    rw [exCover_region hp, exCover_region hq]
    ext q
    constructor
    · rintro ⟨k, h1, h2⟩
      rw [Finset.mem_sdiff] at h1
      exact ⟨⟨k, h1.1, h2⟩, fun h => h1.2 ((mem_exRegion h2).1 h)⟩
    · rintro ⟨⟨k, h1, h2⟩, h3⟩
      exact ⟨k, Finset.mem_sdiff.2 ⟨h1, fun h => h3 ⟨k, h, h2⟩⟩, h2⟩
  inter := by
    intro ps qs hp hq
    refine ⟨exMulti_covers ?_, nofun⟩
    rw [exCover_region hp, exCover_region hq]
    ext q
    constructor
    · rintro ⟨k, h1, h2⟩
      rw [Finset.mem_inter] at h1
      exact ⟨⟨k, h1.1, h2⟩, k, h1.2, h2⟩
    · rintro ⟨⟨k, h1, h2⟩, h3⟩
      exact ⟨k, Finset.mem_inter.2 ⟨h1, (mem_exRegion h2).1 h3⟩, h2⟩

/-- The oracles of the example; all parts of a compound form the outer square. -/
noncomputable def exTubeBf : BufferOps where
  buffer p _ _ := exBuffer p
  unaryUnion _ := .polygon ⟨exSq 0, []⟩
  dilated _ _ _ := .error .runtimeError
  touch _ _ := true

theorem exB_shrinks (p : Poly) : exB p ⊆ holeReg p := by
  have hsq : ∀ k : Fin 3, holeReg ⟨exSq k, []⟩ = exBox k := fun k => by simp [holeReg, exSq_hull]
  simp only [exB]
  split
  · rename_i h
    rw [h, hsq]
    exact exBox_anti (by omega)
  split
  · rename_i h
    rw [h, hsq]
    exact exBox_anti (by simp)
  · simp

theorem exTube_round : roundPoly 12 exTube = exTube :=
  exTube_exact.round (tol' := 12) ⟨_, .tube⟩ le_rfl

/-- The hypotheses of `C69_geometry`, `C69_direction_partial` and `C69_interior_reversed` are met by the square tube and
the amount -1; the result is not empty. -/
example : ∃ g : Geometry, Built exOps g ∧ g.poly = exTube ∧ g.tol = 12 ∧ g.poly.interiors ≠ [] ∧ ExG g.poly ∧ ExG ⟨[], []⟩ ∧
    Exact ExG holeReg 12 exTubeOv (fun p => exTubeBf.buffer p (-1) 12) exB ∧ (∀ p, ExG p → exB p ≤ᵐ[volume] holeReg p) ∧
    offsetRegion holeReg exB g.poly "exterior" = exBox 1 \ exBox 2 := by
  refine ⟨mkGeometry exOps exTube exSteel none 12, mk_built .., exTube_round, rfl, ?_, ?_, ⟨_, .empty⟩, exTube_exact,
    fun p _ => (exB_shrinks p).eventuallyLE, ?_⟩
  · rw [show (mkGeometry exOps exTube exSteel none 12).poly = exTube from exTube_round]
    simp [exTube]
  · rw [show (mkGeometry exOps exTube exSteel none 12).poly = exTube from exTube_round]
    exact ⟨_, .tube⟩
  · rw [show (mkGeometry exOps exTube exSteel none 12).poly = exTube from exTube_round]
    ext q
    simp [offsetRegion, exTube, exB, holeReg, exSq_hull]

/-- **C69 is violated** by `where = "interior"`: eroding (amount -1) the inside of a square tube of width 6 with a hole of
width 2 closes the hole, and the result is larger than the tube by an area that is not zero. -/
theorem C69_violated : ∃ (ops : GeomOps) (ov : OverlayOps) (bf : BufferOps) (G : Poly → Prop) (reg B : Poly → Set Pt) (g : Geometry)
    (s : Shape), Exact G reg 12 ov (fun p => bf.buffer p (-1) 12) B ∧ (∀ p, G p → B p ≤ᵐ[volume] reg p) ∧ G g.poly ∧ Built ops g ∧
    g.offsetPerimeter ops ov bf (-1) "interior" 12 = .ok s ∧ reg g.poly ≤ᵐ[volume] occupied reg s ∧
    volume (occupied reg s \ reg g.poly) ≠ 0 := by
  have hp : (mkGeometry exOps exTube exSteel none 12).poly = exTube := exTube_round
  have hG : ExG (mkGeometry exOps exTube exSteel none 12).poly := by rw [hp]; exact ⟨_, .tube⟩
  have hi : (mkGeometry exOps exTube exSteel none 12).poly.interiors ≠ [] := by rw [hp]; simp [exTube]
  have hB : ∀ p, ExG p → exB p ≤ᵐ[volume] holeReg p := fun p _ => (exB_shrinks p).eventuallyLE
  obtain ⟨s, h1, h2, h3, h4⟩ := C69_geometry exOps exTubeBf (mkGeometry exOps exTube exSteel none 12) (-1) 12 "interior"
    exTube_exact ⟨_, .empty⟩ hG le_rfl le_rfl (Or.inr (Or.inr ⟨rfl, hi⟩))
  obtain ⟨s', h1', _, h5⟩ := C69_interior_reversed exOps exTubeBf (mkGeometry exOps exTube exSteel none 12) (-1) 12
    exTube_exact ⟨_, .empty⟩ hG le_rfl le_rfl hi (fun h => absurd h (by norm_num)) (fun _ => hB)
  rw [h1] at h1'
  obtain rfl := Except.ok.inj h1'
  refine ⟨exOps, exTubeOv, exTubeBf, ExG, holeReg, exB, mkGeometry exOps exTube exSteel none 12, s, exTube_exact, hB, hG, mk_built ..,
    h1, h5 (by norm_num), ?_⟩
  rw [hp] at h4 ⊢
  have e : offsetRegion holeReg exB exTube "interior" \ holeReg exTube = exBox 2 := by
    have b2 := exBox_anti (j := 0) (k := 2) (by omega)
    have n0 : exSq 2 ≠ exSq 0 := by
      intro h
      have := exSq_inj h
      simp at this
    have n1 : exSq 2 ≠ exSq 1 := by
      intro h
      have := exSq_inj h
      simp at this
    ext q
    have c2 := @b2 q
    simp [offsetRegion, exTube, exB, n0, n1, holeReg, exSq_hull]
    tauto
  have e2 : (occupied holeReg s \ holeReg exTube : Set Pt) =ᵐ[volume] exBox 2 := by
    rw [← e]
    exact h4.diff .rfl
  rw [measure_congr e2, exBox, Measure.volume_eq_prod, Measure.prod_prod, Real.volume_Icc]
  norm_num

/-- The hypotheses of `C69_erode` are met by a compound of the three parts of the square, made of different materials. -/
example : ∃ (c : Compound), CBuilt exOps c ∧ c.geoms.length = 3 ∧ (∀ g ∈ c.geoms, ExG g.poly ∧ 12 ≤ g.tol) ∧
    exTubeBf.unaryUnion (c.geoms.map (·.poly)) = .polygon ⟨exSq 0, []⟩ ∧ ExG ⟨exSq 0, []⟩ ∧
    Exact ExG holeReg 12 exTubeOv (fun p => exTubeBf.buffer p (-1) 12) exB := by
  obtain ⟨c, c1, c2, c3⟩ := mkCompound_built exOps (gs := [mkGeometry exOps (exPart 0) exSteel none 12,
    mkGeometry exOps (exPart 1) defaultMaterial none 12, mkGeometry exOps (exPart 2) exSteel none 12]) (by
      intro g hg
      simp only [List.mem_cons, List.not_mem_nil, or_false] at hg
      rcases hg with rfl | rfl | rfl <;> exact mk_built ..)
  refine ⟨c, c3, by simp [c2], ?_, rfl, ⟨_, .square 0⟩, exTube_exact⟩
  have hr : ∀ k, roundPoly 12 (exPart k) = exPart k := fun k => exTube_exact.round (tol' := 12) ⟨_, .frame k⟩ le_rfl
  rw [c2]
  intro g hg
  simp only [List.mem_cons, List.not_mem_nil, or_false] at hg
  rcases hg with rfl | rfl | rfl
  all_goals
    simp only [mkGeometry, hr, le_refl, and_true]
    exact ⟨_, .frame _⟩

/-- Points of the plane at a distance of at most `d` from `S`. -/
def within (S : Set Pt) (d : ℝ) : Set Pt := {q | ∃ x ∈ S, (q.1 - x.1) ^ 2 + (q.2 - x.2) ^ 2 ≤ d ^ 2}

/-- The dilation of the example: the frame and the inner square grow by one unit. -/
noncomputable def exDilateBf : BufferOps where
  buffer p _ _ := exBuffer p
  unaryUnion _ := .polygon ⟨exSq 1, []⟩
  dilated p _ _ := if p = exPart 1 then .ok (.polygon exTube) else .ok (.polygon ⟨exSq 1, []⟩)
  touch _ _ := true

/-- **C69 is violated** by an inclusion, for example a tube filled with concrete: only outer edges are compared, so that the
core grows into the tube.  Here a square frame of width 4 with a hole of width 2 and the square that fills the hole are dilated
by 1.  Shapely removes nothing from a polygon, and covers the points outside of its (convex) outline up to at least half the
amount if the outline has no vertex in common with the given rings.  Before, the parts have no point in common, and
afterwards their intersection has an area that is not zero. -/
theorem C69_inclusion_violated : ∃ (ops : GeomOps) (ov : OverlayOps) (bf : BufferOps) (reg : Poly → Set Pt) (c c' : Compound)
    (g0 g1 g0' g1' : Geometry), CBuilt ops c ∧ c.geoms = [g0, g1] ∧
    (∀ x ∈ c.geoms, ∀ rings, ∃ q, bf.dilated x.poly rings 1 = .ok (.polygon q) ∧ reg x.poly ⊆ reg q ∧
      ((∀ r ∈ rings, ∀ v ∈ r, v ∉ x.poly.exterior) →
        within (convexHull ℝ {v | v ∈ x.poly.exterior}) (1 / 2) \ convexHull ℝ {v | v ∈ x.poly.exterior} ⊆ reg q)) ∧
    (∀ v ∈ g0.poly.exterior, v ∉ g1.poly.exterior) ∧ Disjoint (reg g0.poly) (reg g1.poly) ∧
    c.offsetPerimeter ops ov bf 1 "exterior" 12 = .ok c' ∧ c'.geoms = [g0', g1'] ∧
    volume (reg g0'.poly ∩ reg g1'.poly) ≠ 0 := by
  have hr : ∀ {p s}, ExKind p s → ∀ m, (mkGeometry exOps p m none 12).poly = p := fun {p s} hk m =>
    exTube_exact.round (tol' := 12) ⟨_, hk⟩ le_rfl
  obtain ⟨c, c1, c2, c3⟩ := mkCompound_built exOps (gs := [mkGeometry exOps (exPart 1) exSteel none 12,
    mkGeometry exOps (exPart 2) defaultMaterial none 12]) (by
      intro g hg
      simp only [List.mem_cons, List.not_mem_nil, or_false] at hg
      rcases hg with rfl | rfl <;> exact mk_built ..)
  obtain ⟨c', d1, d2, d3⟩ := mkCompound_built exOps (gs := [mkGeometry exOps exTube exSteel none 12,
    mkGeometry exOps ⟨exSq 1, []⟩ defaultMaterial none 12]) (by
      intro g hg
      simp only [List.mem_cons, List.not_mem_nil, or_false] at hg
      rcases hg with rfl | rfl <;> exact mk_built ..)
  have n21 : exPart 2 ≠ exPart 1 := by
    intro h
    have := exSq_inj (congrArg Poly.exterior h)
    simp at this
  have hin : ∀ k : Fin 3, 1 ≤ (k : ℕ) → within (exBox k) (1 / 2) ⊆ exBox (k - 1) := by
    rintro k hk ⟨x, y⟩ ⟨⟨u, v⟩, ⟨⟨h1, h2⟩, h3, h4⟩, h5⟩
    have e : (((k : ℕ) - 1 : ℕ) : ℝ) = (k : ℕ) - 1 := by push_cast [hk]; rfl
    simp only [exBox, Set.mem_prod, Set.mem_Icc, e] at h1 h2 h3 h4 h5 ⊢
    have a1 : |x - u| ≤ 1 / 2 := abs_le_of_sq_le_sq (by nlinarith [sq_nonneg (y - v)]) (by norm_num)
    have a2 : |y - v| ≤ 1 / 2 := abs_le_of_sq_le_sq (by nlinarith [sq_nonneg (x - u)]) (by norm_num)
    rw [abs_le] at a1 a2
    refine ⟨⟨?_, ?_⟩, ?_, ?_⟩ <;> linarith
  obtain ⟨a0, a1, a2⟩ := exParts
  have t0 : holeReg exTube = exBox 0 \ exBox 2 := by ext q; simp [exTube, holeReg, exSq_hull]
  have t1 : holeReg ⟨exSq 1, []⟩ = exBox 1 := by ext q; simp [holeReg, exSq_hull]
  have b1 := exBox_anti (j := 0) (k := 1) (by omega)
  have b2 := exBox_anti (j := 1) (k := 2) (by omega)
  refine ⟨exOps, exTubeOv, exDilateBf, holeReg, c, c', _, _, _, _, c3, c2, ?_, ?_, ?_, ?_, d2, ?_⟩
  · rw [c2]
    intro x hx rings
    simp only [List.mem_cons, List.not_mem_nil, or_false] at hx
    rcases hx with rfl | rfl
    · rw [hr (.frame 1)]
      refine ⟨exTube, by simp [exDilateBf], ?_, fun _ => ?_⟩
      · rw [a1, t0]
        exact fun q hq => ⟨b1 hq.1, hq.2⟩
      · rw [show (exPart 1).exterior = exSq 1 from rfl, exSq_hull, t0]
        exact fun q hq => ⟨hin 1 (by simp) hq.1, fun h => hq.2 (b2 h)⟩
    · rw [hr (.frame 2)]
      refine ⟨⟨exSq 1, []⟩, by simp [exDilateBf, n21], ?_, fun _ => ?_⟩
      · rw [a2, t1]
        exact b2
      · rw [show (exPart 2).exterior = exSq 2 from rfl, exSq_hull, t1]
        exact fun q hq => hin 2 (by simp) hq.1
  · rw [hr (.frame 1), hr (.frame 2)]
    intro v hv hv'
    simp only [exPart, exSq, sqRing, List.mem_cons, List.not_mem_nil, or_false] at hv hv'
    rcases hv with rfl | rfl | rfl | rfl <;> rcases hv' with h | h | h | h <;> norm_num at h
  · rw [hr (.frame 1), hr (.frame 2)]
    exact Set.disjoint_left.2 fun q h1 h2 => exPart_disjoint (by decide) h1 h2
  · have e : networkKeys 2 = [0, 1] := by decide
    simp only [Compound.offsetPerimeter, show ¬ ((1 : ℝ) < 0) by norm_num, show (1 : ℝ) > 0 by norm_num, if_true, if_false,
      compoundDilation, c2, List.length_cons, List.length_nil, Nat.reduceAdd, e, List.mapM_cons, List.mapM_nil, bind, Except.bind, pure,
      Except.pure, List.map_cons, List.map_nil, hr (.frame 1), hr (.frame 2), exDilateBf, List.getD_cons_zero, List.getD_cons_succ,
      n21, List.getElem?_cons_zero, List.getElem?_cons_succ]
    exact d1
  · rw [hr .tube, hr (.square 1), t0, t1]
    have e : (exBox 0 \ exBox 2) ∩ exBox 1 ⊇ Set.Icc (1 : ℝ) 5 ×ˢ Set.Icc (1 : ℝ) (3 / 2) := by
      rintro ⟨x, y⟩ ⟨⟨h1, h2⟩, h3, h4⟩
      simp only [exBox, Set.mem_inter_iff, Set.mem_sdiff, Set.mem_prod, Set.mem_Icc] at h1 h2 h3 h4 ⊢
      push_cast
      refine ⟨⟨⟨⟨by linarith, by linarith⟩, by linarith, by linarith⟩, fun h => ?_⟩, ⟨by linarith, by linarith⟩, by linarith, by linarith⟩
      linarith [h.2.1]
    intro h0
    have := measure_mono_null e h0
    rw [Measure.volume_eq_prod, Measure.prod_prod, Real.volume_Icc, Real.volume_Icc] at this
    norm_num at this

/-- The hypotheses of `C69_dilate_partial` are met by this compound, with the regions that the dilation gives. -/
example : ∃ (c : Compound) (T : Poly → List (List Pt) → Set Pt), CBuilt exOps c ∧ 2 ≤ c.geoms.length ∧
    ∀ g ∈ c.geoms, ∀ l, ∃ q, exDilateBf.dilated g.poly l 1 = .ok (.polygon q) ∧ holeReg q =ᵐ[volume] T g.poly l ∧
      (∀ r ∈ q.exterior :: q.interiors, ∀ v ∈ r, OnGrid 12 v.1 ∧ OnGrid 12 v.2) ∧ ∃ v ∈ q.exterior, v ≠ (0, 0) := by
  obtain ⟨c, c1, c2, c3⟩ := mkCompound_built exOps (gs := [mkGeometry exOps (exPart 1) exSteel none 12,
    mkGeometry exOps (exPart 2) defaultMaterial none 12]) (by
      intro g hg
      simp only [List.mem_cons, List.not_mem_nil, or_false] at hg
      rcases hg with rfl | rfl <;> exact mk_built ..)
  refine ⟨c, fun p _ => if p = exPart 1 then holeReg exTube else holeReg ⟨exSq 1, []⟩, c3, by simp [c2], ?_⟩
  intro g _ l
  have key : ∀ {p s}, ExKind p s → p ≠ ⟨[], []⟩ → (∀ r ∈ p.exterior :: p.interiors, ∀ v ∈ r, OnGrid 12 v.1 ∧ OnGrid 12 v.2) ∧
      ∃ v ∈ p.exterior, v ≠ ((0 : ℝ), (0 : ℝ)) := fun {p s} hk hne => (exTube_exact.grid p ⟨_, hk⟩).resolve_left hne
  by_cases h : g.poly = exPart 1
  · exact ⟨exTube, by simp [exDilateBf, h], by simp only [if_pos h]; exact .rfl, key .tube (by simp [exTube])⟩
  · refine ⟨⟨exSq 1, []⟩, by simp [exDilateBf, h], by simp only [if_neg h]; exact .rfl, key (.square 1) (by simp [exSq, sqRing])⟩

end SP
