import Verif.Lemmas.AddBars

/-!
# C85: reinforcing bars replace the material they are put in
-/

namespace SP

open Spec MeasureTheory

theorem Spec.IsBar.weaken {k k' : ℝ} {m : Material} {n : ℕ} {area x y : ℝ} {g : Geometry} (h : IsBar k m n area x y g) (hk : k ≤ k') :
    IsBar k' m n area x y g := by
  obtain ⟨h1, h2, ⟨r, r1, r2, r3, r4⟩, h4⟩ := h
  have hd : k / 10 ^ 12 ≤ k' / 10 ^ 12 := by gcongr
  refine ⟨h1, h2, ⟨r, r1, r2, r3, fun i hi => ?_⟩, h4.trans (by gcongr)⟩
  obtain ⟨p, p1, p2, p3⟩ := r4 i hi
  exact ⟨p, p1, p2.trans hd, p3.trans hd⟩

theorem barAt_good (ops : GeomOps) {K : Poly → Prop} {area : ℝ} {n : ℕ} {m : Material} {x y : ℝ}
    (h : K (barAt ops area n m x y).poly) : GoodShape ops K (.single (barAt ops area n m x y)) := by
  refine ⟨mk_built .., fun g hg => ?_⟩
  rw [Shape.parts, List.mem_singleton] at hg
  subst hg
  exact ⟨rfl, h⟩

theorem occupied_single (reg : Poly → Set Pt) (g : Geometry) : occupied reg (.single g) = reg g.poly := by
  ext q; simp [occupied, Shape.parts]

/-- **C85, `add_bar`.** If shapely subtracts the bar correctly, then for every geometry or compound `s`, every area,
position and material, `add_bar` succeeds.  The last part of the result is the bar: a polygon of the given material with `n`
vertices about the given position and the given area.  Where the bar is, whatever was there is gone; all else is as before, with its
material; and if no two parts of `s` overlap, no two parts of the result do. -/
theorem C85_add_bar (ops : GeomOps) {ov : OverlayOps} {G K : Poly → Prop} {reg : Poly → Set Pt} (hc : CutsExactly G K reg ov)
    {s : Shape} (hs : SBuilt ops s) (hg : ∀ g ∈ s.parts, g.tol = 12 ∧ G g.poly) {area x y : ℝ} {n : ℕ} {m : Material}
    (ha : 1 / 10 ^ 20 < area) (hn : 3 ≤ n) (hK : K (barAt ops area n m x y).poly) :
    ∃ (r : Compound) (rest : List Geometry) (bar : Geometry), addBar ops ov s area m x y n = .ok (.compound r) ∧
      r.geoms = rest ++ [bar] ∧ IsBar 1 m n area x y bar ∧ ReplacedBy reg m (reg bar.poly) s (.compound r) ∧
      (PartsApart reg s → PartsApart reg (.compound r)) := by
  obtain ⟨c, rest, h1, _, h3, h4, h5⟩ := cutIn_good ops hc (s := s) ⟨hs, hg⟩ (barAt_good ops hK) (steel := m) (by
    intro g hg
    rw [Shape.parts, List.mem_singleton] at hg
    subst hg
    rfl)
  rw [occupied_single] at h4
  exact ⟨c, rest, _, h1, h3, barAt_isBar ops ha hn m x y, h4, fun h => h5 h (List.pairwise_singleton ..)⟩

/-- **C85, `add_bars`.** The same for a list of bars: there is one bar for each pair of coordinates (the longer list is cut
off), and the bars are the last parts of the result.  That nothing is counted twice needs the assumption that the
bars do not overlap each other. -/
theorem C85_add_bars_partial (ops : GeomOps) {ov : OverlayOps} {G K : Poly → Prop} {reg : Poly → Set Pt}
    (hc : CutsExactly G K reg ov) {s : Shape} (hs : SBuilt ops s) (hg : ∀ g ∈ s.parts, g.tol = 12 ∧ G g.poly) {area : ℝ}
    {xs ys : List ℝ} {n : ℕ} {m : Material} (ha : 1 / 10 ^ 20 < area) (hn : 3 ≤ n)
    (hK : ∀ p ∈ xs.zip ys, K (barAt ops area n m p.1 p.2).poly) :
    ∃ (r : Compound) (rest bars : List Geometry), addBars ops ov s area m xs ys n = .ok (.compound r) ∧
      r.geoms = rest ++ bars ∧ bars.length = min xs.length ys.length ∧
      List.Forall₂ (fun p g => IsBar 1 m n area p.1 p.2 g) (xs.zip ys) bars ∧
      ReplacedBy reg m (covered reg (bars.map (·.poly))) s (.compound r) ∧
      (PartsApart reg s → bars.Pairwise (fun g h => volume (reg g.poly ∩ reg h.poly) = 0) →
        PartsApart reg (.compound r)) := by
  obtain ⟨b, b1, b2, b3⟩ := mkCompound_built ops (gs := (xs.zip ys).map fun p => barAt ops area n m p.1 p.2) (by
    intro g hg
    obtain ⟨p, _, rfl⟩ := List.mem_map.1 hg
    exact mk_built ..)
  obtain ⟨c, rest, h1, _, h3, h4, h5⟩ := cutIn_good ops hc (s := s) (b := .compound b) ⟨hs, hg⟩ ⟨b3, (by
    intro g hg
    rw [Shape.parts, b2] at hg
    obtain ⟨p, hp, rfl⟩ := List.mem_map.1 hg
    exact ⟨rfl, hK p hp⟩)⟩ (steel := m) (by
    intro g hg
    rw [Shape.parts, b2] at hg
    obtain ⟨p, _, rfl⟩ := List.mem_map.1 hg
    rfl)
  rw [occupied_eq] at h4
  refine ⟨c, rest, b.geoms, by simp only [addBars, b1]; exact h1, h3, by simp [b2], ?_, h4, h5⟩
  rw [b2, List.forall₂_map_right_iff, List.forall₂_same]
  exact fun p _ => barAt_isBar ops ha hn m p.1 p.2

/-! ### One bar after the other -/

theorem covered_concat (reg : Poly → Set Pt) (a b : List Poly) : covered reg (a ++ b) = covered reg a ∪ covered reg b := by
  ext q
  simp only [covered, List.mem_append, Set.mem_ofPred_eq, Set.mem_union]
  constructor
  · rintro ⟨p, h | h, h'⟩
    exacts [Or.inl ⟨p, h, h'⟩, Or.inr ⟨p, h, h'⟩]
  · rintro (⟨p, h, h'⟩ | ⟨p, h, h'⟩)
    exacts [⟨p, Or.inl h, h'⟩, ⟨p, Or.inr h, h'⟩]

theorem covered_nil (reg : Poly → Set Pt) : covered reg [] = ∅ := by ext q; simp [covered]

theorem covered_one (reg : Poly → Set Pt) (p : Poly) : covered reg [p] = reg p := by ext q; simp [covered]

theorem covered_cons (reg : Poly → Set Pt) (p : Poly) (l : List Poly) : covered reg (p :: l) = reg p ∪ covered reg l := by
  rw [← List.singleton_append, covered_concat, covered_one]

def IsCompound (s : Shape) : Prop := ∃ c, s = .compound c

/-- Bars have been added to `s`. -/
structure Added (ops : GeomOps) (G : Poly → Prop) (reg : Poly → Set Pt) (m : Material) (bars : List Geometry) (s r : Shape) :
    Prop where
  good : GoodShape ops G r
  replaced : ReplacedBy reg m (covered reg (bars.map (·.poly))) s r
  compound : IsCompound s ∨ bars ≠ [] → IsCompound r

theorem Added.trans {ops : GeomOps} {G : Poly → Prop} {reg : Poly → Set Pt} {m : Material} {a b : List Geometry}
    {s t u : Shape} (h1 : Added ops G reg m a s t) (h2 : Added ops G reg m b t u) : Added ops G reg m (a ++ b) s u := by
  refine ⟨h2.good, ?_, fun h => h2.compound ?_⟩
  · rw [List.map_append, covered_concat]
    exact h1.replaced.trans h2.replaced
  · by_cases hb : b = []
    · subst hb
      rw [List.append_nil] at h
      exact Or.inl (h1.compound h)
    · exact Or.inr hb

theorem addLayer_good (ops : GeomOps) {ov : OverlayOps} {G K : Poly → Prop} {reg : Poly → Set Pt} (hc : CutsExactly G K reg ov)
    {area : ℝ} {n : ℕ} {m : Material} : ∀ (ps : List Pt) {s : Shape}, GoodShape ops G s →
    (∀ p ∈ ps, K (barAt ops area n m p.1 p.2).poly) →
    ∃ r, addLayer ops ov area m n s ps = .ok r ∧ Added ops G reg m (ps.map fun p => barAt ops area n m p.1 p.2) s r ∧
      (PartsApart reg s → PartsApart reg r)
  | [], s, hs, _ => ⟨s, rfl, ⟨hs, by rw [List.map_nil, List.map_nil, covered_nil]; exact ReplacedBy.refl reg m s,
      fun h => h.elim id (by simp)⟩, id⟩
  | p :: ps, s, hs, hK => by
    obtain ⟨c, rest, h1, h2, h3, h4, h5⟩ := cutIn_good ops hc hs (barAt_good ops (hK p (by simp))) (steel := m) (by
      intro g hg
      rw [Shape.parts, List.mem_singleton] at hg
      subst hg
      rfl)
    rw [occupied_single] at h4
    obtain ⟨r, r1, r2, r3⟩ := addLayer_good ops hc ps (area := area) (n := n) (m := m) h2 fun q hq => hK q (by simp [hq])
    refine ⟨r, ?_, ?_, fun h => r3 (h5 h (List.pairwise_singleton ..))⟩
    · rw [addLayer, List.foldlM_cons, addBar, h1]
      exact r1
    · have : Added ops G reg m [barAt ops area n m p.1 p.2] s (.compound c) := by
        refine ⟨h2, ?_, fun _ => ⟨c, rfl⟩⟩
        rw [List.map_cons, List.map_nil, covered_one]
        exact h4
      exact this.trans r2

theorem addPair_good (ops : GeomOps) {ov : OverlayOps} {G K : Poly → Prop} {reg : Poly → Set Pt} (hc : CutsExactly G K reg ov)
    {area : ℝ} {n : ℕ} {m : Material} {s : Shape} (hs : GoodShape ops G s) (l r : Pt)
    (hl : K (barAt ops area n m l.1 l.2).poly)
    (hr : K ((barAt ops area n m l.1 l.2).shift ops (r.1 - l.1) 0).poly) :
    ∃ t, addPair ops ov area m n s l r = .ok t ∧
      Added ops G reg m [barAt ops area n m l.1 l.2, (barAt ops area n m l.1 l.2).shift ops (r.1 - l.1) 0] s t ∧
      (PartsApart reg s → volume (reg (barAt ops area n m l.1 l.2).poly ∩
        reg ((barAt ops area n m l.1 l.2).shift ops (r.1 - l.1) 0).poly) = 0 → PartsApart reg t) := by
  set L := barAt ops area n m l.1 l.2 with hL
  set R := L.shift ops (r.1 - l.1) 0 with hR
  have gL : GoodShape ops K (.single L) := barAt_good ops hl
  have gR : GoodShape ops K (.single R) := by
    refine ⟨mk_built .., fun g hg => ?_⟩
    rw [Shape.parts, List.mem_singleton] at hg
    subst hg
    exact ⟨rfl, hr⟩
  obtain ⟨s1, a1, a2, a3, a4, a5⟩ := sub_good ops hc hs gL
  obtain ⟨s2, b1, b2, b3, b4, b5⟩ := sub_good ops hc a2 gR
  obtain ⟨c1, c2, c3, c4⟩ := add_good ops b2 (gL.mono hc.bars)
  obtain ⟨d1, d2, d3, d4⟩ := add_good ops c4 (gR.mono hc.bars)
  have hgeoms : d1.geoms = s2.parts ++ [L, R] := by
    rw [d3]
    simp [Shape.parts, c3]
  have hreg : ∀ m', madeOf reg s2 m' =ᵐ[volume] (madeOf reg s m' \ (reg L.poly ∪ reg R.poly) : Set Pt) := by
    intro m'
    refine (b3 m').trans ?_
    rw [occupied_single, ← Set.sdiff_sdiff]
    have := a3 m'
    rw [occupied_single] at this
    exact Filter.EventuallyEq.diff this (ae_eq_refl _)
  refine ⟨.compound d1, ?_, ⟨d4, ?_, fun _ => ⟨d1, rfl⟩⟩, fun hsa hv => ?_⟩
  · simp only [addPair, ← hL, ← hR, a1, b1, c2, d2]
  · obtain ⟨b, e1, e2, e3⟩ := mkCompound_built ops (gs := [L, R]) (by
      intro g hg
      simp only [List.mem_cons, List.not_mem_nil, or_false] at hg
      rcases hg with rfl | rfl <;> exact mk_built ..)
    have hocc : occupied reg (.compound b) = reg L.poly ∪ reg R.poly := by
      rw [occupied_eq, Shape.parts, e2]
      rw [List.map_cons, List.map_cons, List.map_nil, covered_cons, covered_one]
    have := replaced_of (reg := reg) (steel := m) (s := s) (r := s2) (b := .compound b) (c := d1) (by
      intro g hg
      rw [Shape.parts, e2] at hg
      simp only [List.mem_cons, List.not_mem_nil, or_false] at hg
      rcases hg with rfl | rfl <;> rfl) (by rw [hocc]; exact hreg) (by rw [hgeoms, Shape.parts, e2])
    rw [hocc] at this
    rw [List.map_cons, List.map_cons, List.map_nil, covered_cons, covered_one]
    exact this
  · have v1 : ∀ g ∈ s2.parts, volume (reg g.poly ∩ reg L.poly) = 0 := by
      have hm : ∀ m', volume (madeOf reg s2 m' ∩ reg L.poly) = 0 := fun m' => by
        refine null_of_ae (hreg m') subset_rfl ?_
        refine measure_mono_null (t := ∅) ?_ measure_empty
        rintro q ⟨⟨_, q1⟩, q2⟩
        exact q1 (Or.inl q2)
      intro g hg
      have hsub : reg g.poly ⊆ madeOf reg s2 g.material := fun q hq => ⟨g, hg, rfl, hq⟩
      exact measure_mono_null (Set.inter_subset_inter_left _ hsub) (hm g.material)
    have v2 : ∀ g ∈ s2.parts, volume (reg g.poly ∩ reg R.poly) = 0 := fun g hg => by
      have := b5 g hg
      rwa [occupied_single] at this
    rw [PartsApart, Shape.parts, hgeoms, List.pairwise_append]
    refine ⟨b4 (a4 hsa), ?_, fun g hg h hh => ?_⟩
    · simp [hv]
    · simp only [List.mem_cons, List.not_mem_nil, or_false] at hh
      rcases hh with rfl | rfl
      exacts [v1 g hg, v2 g hg]

/-- The two bars of a pair. -/
noncomputable def pairBars (ops : GeomOps) (area : ℝ) (n : ℕ) (m : Material) (q : Pt × Pt) : List Geometry :=
  [barAt ops area n m q.1.1 q.1.2, (barAt ops area n m q.1.1 q.1.2).shift ops (q.2.1 - q.1.1) 0]

theorem addSides_good (ops : GeomOps) {ov : OverlayOps} {G K : Poly → Prop} {reg : Poly → Set Pt} (hc : CutsExactly G K reg ov)
    {area : ℝ} {n : ℕ} {m : Material} : ∀ (qs : List (Pt × Pt)) {s : Shape}, GoodShape ops G s →
    (∀ q ∈ qs, ∀ g ∈ pairBars ops area n m q, K g.poly) →
    ∃ r, addSides ops ov area m n s (qs.flatMap fun q => [q.1, q.2]) = .ok r ∧
      Added ops G reg m (qs.flatMap (pairBars ops area n m)) s r ∧
      (PartsApart reg s → (∀ q ∈ qs, (pairBars ops area n m q).Pairwise fun g h => volume (reg g.poly ∩ reg h.poly) = 0) →
        PartsApart reg r)
  | [], s, hs, _ => ⟨s, rfl, ⟨hs, by simp only [List.flatMap_nil, List.map_nil, covered_nil]; exact ReplacedBy.refl reg m s,
      fun h => h.elim id (by simp)⟩, fun h _ => h⟩
  | q :: qs, s, hs, hK => by
    obtain ⟨t, t1, t2, t3⟩ := addPair_good ops hc (area := area) (n := n) (m := m) hs q.1 q.2 (hK q (by simp) _ (by simp [pairBars]))
      (hK q (by simp) _ (by simp [pairBars]))
    obtain ⟨r, r1, r2, r3⟩ := addSides_good ops hc qs (area := area) (n := n) (m := m) t2.good
      fun p hp => hK p (by simp [hp])
    refine ⟨r, ?_, ?_, fun h hv => r3 (t3 h ?_) fun p hp => hv p (by simp [hp])⟩
    · simp only [List.flatMap_cons, List.cons_append, List.nil_append, addSides, t1]
      exact r1
    · rw [List.flatMap_cons]
      exact Added.trans t2 r2
    · have := hv q (by simp)
      simpa [pairBars] using this

/-- The material of a section, from bars added to an outline of one material. -/
theorem concreteWith_of {ops : GeomOps} {G : Poly → Prop} {reg : Poly → Set Pt} {conc steel : Material} {bars : List Geometry}
    {s r : Shape} (h : Added ops G reg steel bars s r) (hm : ∀ g ∈ s.parts, g.material = conc) (hne : conc ≠ steel) :
    ConcreteWith reg conc steel (occupied reg s) bars r := by
  refine ⟨?_, ?_, fun m h1 h2 => ?_⟩
  · have := h.replaced.others conc hne
    rwa [madeOf_parts reg hm, if_pos rfl] at this
  · have := h.replaced.steel
    rwa [madeOf_parts reg hm, if_neg hne, Set.empty_union] at this
  · have := h.replaced.others m h2
    rwa [madeOf_parts reg hm, if_neg (Ne.symm h1), Set.empty_sdiff] at this

/-- A reinforced section, from bars added to an outline of one material. -/
theorem reinforced_of {ops : GeomOps} {G : Poly → Prop} {reg : Poly → Set Pt} {conc steel : Material} {bars : List Geometry}
    {s r : Shape} (h : Added ops G reg steel bars s r) (hm : ∀ g ∈ s.parts, g.material = conc) (hne : conc ≠ steel)
    (ho : PartsApart reg r) : Reinforced reg conc steel s bars r :=
  ⟨(concreteWith_of h hm hne).inConcrete, (concreteWith_of h hm hne).inSteel, (concreteWith_of h hm hne).nothingElse, ho⟩

theorem apart_single (reg : Poly → Set Pt) (g : Geometry) : PartsApart reg (.single g) := List.pairwise_singleton ..

theorem good_single {ops : GeomOps} {G : Poly → Prop} {g : Geometry} (h1 : Built ops g) (h2 : g.tol = 12) (h3 : G g.poly) :
    GoodShape ops G (.single g) := by
  refine ⟨h1, fun g' hg => ?_⟩
  rw [Shape.parts, List.mem_singleton] at hg
  subst hg
  exact ⟨h2, h3⟩

theorem columnBars_ok (d b dia cover : ℝ) (filled : Bool) {nX nY : ℕ} (hx : 2 ≤ nX) (hy : 2 ≤ nY) :
    ∃ ps, columnBars d b dia nX nY cover filled = .ok ps ∧ ps ≠ [] := by
  have e : ∀ (k : ℕ) (a z : ℝ), 2 ≤ k → ∃ x l, linspace a z (k : ℤ) = .ok (x :: l) := by
    intro k a z hk
    obtain ⟨j, rfl⟩ : ∃ j, k = j + 1 := ⟨k - 1, by omega⟩
    rw [linspace, if_neg (by omega), Int.toNat_natCast, List.range_succ_eq_map, List.map_cons]
    exact ⟨_, _, rfl⟩
  obtain ⟨x, xs, h1⟩ := e nX (cover + dia / 2) (b - cover - dia / 2) hx
  obtain ⟨y, ys, h2⟩ := e nY (cover + dia / 2) (d - cover - dia / 2) hy
  cases filled with
  | true =>
    refine ⟨gridYX (y :: ys) (x :: xs), by simp [columnBars, h1, h2, bind, Except.bind, pure, Except.pure], ?_⟩
    simp [gridYX]
  | false =>
    refine ⟨_, by simp only [columnBars, h1, h2, bind, Except.bind, pure, Except.pure]; rfl, ?_⟩
    classical
    intro h0
    have : (x, d - cover - dia / 2) ∈ ([] : List Pt) := by
      rw [← h0]
      exact List.mem_dedup.2 (by simp [rowAt])
    simp at this

/-- **C85, columns.** If shapely subtracts correctly, `concrete_column_section` with two bars or more per side gives a reinforced
section: each bar at its position and of the given area, the rectangle less the bars made of concrete, the bars of steel, and
nothing counted twice. -/
theorem C85_column (ops : GeomOps) {ov : OverlayOps} {G K : Poly → Prop} {reg : Poly → Set Pt} (hc : CutsExactly G K reg ov)
    {d b dia area cover : ℝ} {nX nY : ℕ} {nCircle : ℕ} {filled : Bool} {conc steel : Material} (hne : conc ≠ steel)
    (ha : 1 / 10 ^ 20 < area) (hn : 3 ≤ nCircle) (hx : 2 ≤ nX) (hy : 2 ≤ nY)
    (hG : G (rectangularSection ops d b conc).poly) :
    ∃ ps, columnBars d b dia nX nY cover filled = .ok ps ∧ ((∀ p ∈ ps, K (barAt ops area nCircle steel p.1 p.2).poly) →
      ∃ r bars, concreteColumnSection ops ov d b dia area nX nY cover nCircle filled conc steel = .ok r ∧
        List.Forall₂ (fun p g => IsBar 1 steel nCircle area p.1 p.2 g) ps bars ∧
        Reinforced reg conc steel (.single (rectangularSection ops d b conc)) bars r) := by
  obtain ⟨ps, hps, hp0⟩ := columnBars_ok d b dia cover filled hx hy
  refine ⟨ps, hps, fun hK => ?_⟩
  obtain ⟨r, r1, r2, r3⟩ := addLayer_good ops hc ps (s := .single (rectangularSection ops d b conc))
    (good_single (mk_built ..) rfl hG) hK
  obtain ⟨c, rfl⟩ := r2.compound (Or.inr (by simpa using hp0))
  refine ⟨.compound c, _, ?_, ?_, reinforced_of r2 ?_ hne (r3 (apart_single ..))⟩
  · simp only [concreteColumnSection, hps, bind, Except.bind, r1, requireCompound]
  · rw [List.forall₂_map_right_iff, List.forall₂_same]
    exact fun p _ => barAt_isBar ops ha hn steel p.1 p.2
  · intro g hg
    rw [Shape.parts, List.mem_singleton] at hg
    subst hg
    rfl

/-- **C85, circular sections.** The same for `concrete_circular_section`; the outline is the regular polygon of the given area. -/
theorem C85_circular (ops : GeomOps) {ov : OverlayOps} {G K : Poly → Prop} {reg : Poly → Set Pt} (hc : CutsExactly G K reg ov)
    {d areaConc dia area cover : ℝ} {nConc nBar nCircle : ℕ} {conc steel : Material} (hne : conc ≠ steel)
    (ha : 1 / 10 ^ 20 < area) (hn : 3 ≤ nCircle) (h2 : 2 ≤ nBar)
    (hG : G (circularSectionByArea ops areaConc nConc conc).poly) :
    ∃ ps, circularBars d dia cover nBar = .ok ps ∧ ((∀ p ∈ ps, K (barAt ops area nCircle steel p.1 p.2).poly) →
      ∃ r bars, concreteCircularSection ops ov d areaConc nConc dia area nBar cover nCircle conc steel = .ok r ∧
        bars.length = nBar ∧ List.Forall₂ (fun p g => IsBar 1 steel nCircle area p.1 p.2 g) ps bars ∧
        Reinforced reg conc steel (.single (circularSectionByArea ops areaConc nConc conc)) bars r) := by
  have hps : ∃ ps, circularBars d dia cover nBar = .ok ps ∧ ps.length = nBar := by
    rw [circularBars, if_neg (by omega)]
    exact ⟨_, rfl, by simp⟩
  obtain ⟨ps, hps, hl⟩ := hps
  refine ⟨ps, hps, fun hK => ?_⟩
  obtain ⟨r, r1, r2, r3⟩ := addLayer_good ops hc ps (s := .single (circularSectionByArea ops areaConc nConc conc))
    (good_single (mk_built ..) rfl hG) hK
  obtain ⟨c, rfl⟩ := r2.compound (Or.inr (by
    intro h
    have := congrArg List.length h
    rw [List.length_map, hl, List.length_nil] at this
    omega))
  refine ⟨.compound c, _, ?_, by simp [hl], ?_, reinforced_of r2 ?_ hne (r3 (apart_single ..))⟩
  · simp only [concreteCircularSection, hps, bind, Except.bind, r1, requireCompound]
  · rw [List.forall₂_map_right_iff, List.forall₂_same]
    exact fun p _ => barAt_isBar ops ha hn steel p.1 p.2
  · intro g hg
    rw [Shape.parts, List.mem_singleton] at hg
    subst hg
    rfl

/-! ### Beams -/

/-- The bars of a beam: the top and bottom bars and the pairs of side bars `qs`, each pair at one height. -/
theorem reinforceBeam_good (ops : GeomOps) {ov : OverlayOps} {G K : Poly → Prop} {reg : Poly → Set Pt}
    (hc : CutsExactly G K reg ov) {s : Shape} (hs : GoodShape ops G s) {bars : BeamBars} {qs : List (Pt × Pt)}
    (hq : bars.side = qs.flatMap fun q => [q.1, q.2]) (hy : ∀ q ∈ qs, q.1.2 = q.2.2) {areaTop areaBot : ℝ} {areaSide : Option ℝ}
    {m : Material} {n : ℕ} (ha : 1 / 10 ^ 20 < areaTop) (hb : 1 / 10 ^ 20 < areaBot)
    (hsd : qs ≠ [] → 1 / 10 ^ 20 < areaSide.getD 0) (hn : 3 ≤ n)
    (hK1 : ∀ p ∈ bars.top, K (barAt ops areaTop n m p.1 p.2).poly)
    (hK2 : ∀ p ∈ bars.bot, K (barAt ops areaBot n m p.1 p.2).poly)
    (hK3 : ∀ q ∈ qs, ∀ g ∈ pairBars ops (areaSide.getD 0) n m q, K g.poly)
    (hsome : IsCompound s ∨ bars.top ≠ [] ∨ bars.bot ≠ [] ∨ bars.side ≠ []) :
    ∃ r top bot side, reinforceBeam ops ov s bars areaTop areaBot areaSide m n = .ok r ∧
      List.Forall₂ (fun p g => IsBar 1 m n areaTop p.1 p.2 g) bars.top top ∧
      List.Forall₂ (fun p g => IsBar 1 m n areaBot p.1 p.2 g) bars.bot bot ∧
      List.Forall₂ (fun p g => IsBar (3 / 2) m n (areaSide.getD 0) p.1 p.2 g) bars.side side ∧
      Added ops G reg m (top ++ bot ++ side) s r ∧
      (PartsApart reg s → side.Pairwise (fun g h => volume (reg g.poly ∩ reg h.poly) = 0) → PartsApart reg r) := by
  obtain ⟨s1, a1, a2, a3⟩ := addLayer_good ops hc bars.top hs hK1
  obtain ⟨s2, b1, b2, b3⟩ := addLayer_good ops hc bars.bot a2.good hK2
  obtain ⟨s3, c1, c2, c3⟩ := addSides_good ops hc qs b2.good hK3
  have hadd := (a2.trans b2).trans c2
  obtain ⟨c, rfl⟩ := hadd.compound (by
    rcases hsome with h | h | h | h
    · exact Or.inl h
    · right; intro h0; simp only [List.append_eq_nil_iff, List.map_eq_nil_iff] at h0; exact h h0.1.1
    · right; intro h0; simp only [List.append_eq_nil_iff, List.map_eq_nil_iff] at h0; exact h h0.1.2
    · right
      intro h0
      simp only [List.append_eq_nil_iff, List.flatMap_eq_nil_iff] at h0
      apply h
      rw [hq]
      cases qs with
      | nil => rfl
      | cons q qs => have := h0.2 q (by simp); simp [pairBars] at this)
  refine ⟨.compound c, _, _, _, ?_, ?_, ?_, ?_, hadd, ?_⟩
  · simp only [reinforceBeam, bind, Except.bind, a1, b1, hq, c1, requireCompound]
  · rw [List.forall₂_map_right_iff, List.forall₂_same]
    exact fun p _ => barAt_isBar ops ha hn m p.1 p.2
  · rw [List.forall₂_map_right_iff, List.forall₂_same]
    exact fun p _ => barAt_isBar ops hb hn m p.1 p.2
  · rw [hq]
    clear hq c1 c2 c3 hK3 hadd hsome
    induction qs with
    | nil => exact .nil
    | cons q qs ih =>
      have har := hsd (by simp)
      simp only [List.flatMap_cons]
      have h1 : List.Forall₂ (fun p g => IsBar (3 / 2) m n (areaSide.getD 0) p.1 p.2 g) [q.1, q.2]
          (pairBars ops (areaSide.getD 0) n m q) := by
        refine .cons ((barAt_isBar ops har hn m _ _).weaken (by norm_num)) (.cons ?_ .nil)
        have := barRight_isBar ops har hn m q.1.1 q.1.2 (q.2.1 - q.1.1)
        rw [add_sub_cancel, hy q (by simp)] at this
        rwa [hy q (by simp)]
      exact List.rel_append h1 (ih (fun p hp => hy p (by simp [hp])) fun _ => har)
  · intro h hv
    refine c3 (b3 (a3 h)) fun q hq' => ?_
    rw [List.flatMap_def, List.pairwise_flatten] at hv
    exact hv.1 _ (List.mem_map_of_mem hq')

/-- The side bars come in pairs at one height, and only if an area is given. -/
theorem side_pairs (areaSide : Option ℝ) (xl xr y0 sp : ℝ) (nSide : ℕ) :
    ∃ qs : List (Pt × Pt), (if ∃ a, areaSide = some a ∧ a ≠ 0 then
        (List.range nSide).flatMap fun i : ℕ =>
          [(xl, y0 + sp * ((i : ℝ) + 1)), (xl + (xr - xl), y0 + sp * ((i : ℝ) + 1))]
      else []) = qs.flatMap (fun q => [q.1, q.2]) ∧ (∀ q ∈ qs, q.1.2 = q.2.2) ∧ (qs ≠ [] → ∃ a, areaSide = some a ∧ a ≠ 0) := by
  by_cases h : ∃ a, areaSide = some a ∧ a ≠ 0
  · refine ⟨(List.range nSide).map fun i : ℕ => ((xl, y0 + sp * ((i : ℝ) + 1)), (xl + (xr - xl), y0 + sp * ((i : ℝ) + 1))),
      ?_, ?_, fun _ => h⟩
    · rw [if_pos h, List.flatMap_map]
    · intro q hq
      obtain ⟨i, _, rfl⟩ := List.mem_map.1 hq
      rfl
  · exact ⟨[], by rw [if_neg h]; rfl, by simp, by simp⟩

/-- **C85, rectangular beams.** If shapely subtracts correctly, `concrete_rectangular_section` with top and bottom bars (and
perhaps side bars) of given areas gives a reinforced section: each bar is at its position and has its area, the rectangle less the
bars is made of concrete and the bars of steel, and nothing is counted twice, provided that the side bars do not overlap each
other. -/
theorem C85_rectangular_partial (ops : GeomOps) {ov : OverlayOps} {G K : Poly → Prop} {reg : Poly → Set Pt}
    (hc : CutsExactly G K reg ov) {d b diaTop areaTop cTop diaBot areaBot cBot cSide : ℝ} {nTop nBot nSide nCircle : ℕ}
    {diaSide areaSide : Option ℝ} {conc steel : Material} {bars : BeamBars}
    (hbars : bars = rectangularBars d b diaTop nTop cTop diaBot nBot cBot diaSide areaSide nSide cSide) (hne : conc ≠ steel)
    (ht : 1 / 10 ^ 20 < areaTop) (hb : 1 / 10 ^ 20 < areaBot) (hs : ∀ a, areaSide = some a → a ≠ 0 → 1 / 10 ^ 20 < a)
    (hn : 3 ≤ nCircle) (hsome : 0 < nTop ∨ 0 < nBot) (hG : G (rectangularSection ops d b conc).poly)
    (hK1 : ∀ p ∈ bars.top, K (barAt ops areaTop nCircle steel p.1 p.2).poly)
    (hK2 : ∀ p ∈ bars.bot, K (barAt ops areaBot nCircle steel p.1 p.2).poly)
    (hK3 : ∀ p ∈ bars.side, ∀ a, K (barAt ops (areaSide.getD 0) nCircle steel p.1 p.2).poly ∧
      K ((barAt ops (areaSide.getD 0) nCircle steel p.1 p.2).shift ops a 0).poly) :
    ∃ r top bot side, concreteRectangularSection ops ov d b diaTop areaTop nTop cTop diaBot areaBot nBot cBot diaSide areaSide
        nSide cSide nCircle conc steel = .ok r ∧
      List.Forall₂ (fun p g => IsBar 1 steel nCircle areaTop p.1 p.2 g) bars.top top ∧
      List.Forall₂ (fun p g => IsBar 1 steel nCircle areaBot p.1 p.2 g) bars.bot bot ∧
      List.Forall₂ (fun p g => IsBar (3 / 2) steel nCircle (areaSide.getD 0) p.1 p.2 g) bars.side side ∧
      ConcreteWith reg conc steel (occupied reg (.single (rectangularSection ops d b conc))) (top ++ bot ++ side) r ∧
      (side.Pairwise (fun g h => volume (reg g.poly ∩ reg h.poly) = 0) → PartsApart reg r) := by
  obtain ⟨qs, q1, q2, q3⟩ : ∃ qs : List (Pt × Pt), bars.side = qs.flatMap (fun q => [q.1, q.2]) ∧ (∀ q ∈ qs, q.1.2 = q.2.2) ∧
      (qs ≠ [] → ∃ a, areaSide = some a ∧ a ≠ 0) := by
    rw [hbars]
    exact side_pairs _ _ _ _ _ _
  obtain ⟨r, top, bot, side, r1, r2, r3, r4, r5, r6⟩ := reinforceBeam_good ops hc
    (s := .single (rectangularSection ops d b conc)) (good_single (mk_built ..) rfl hG) q1 q2 (areaSide := areaSide) ht hb (by
      intro h
      obtain ⟨a, rfl, h0⟩ := q3 h
      exact hs a rfl h0) hn hK1 hK2 (by
      intro q hq g hg
      have := hK3 q.1 (by rw [q1]; exact List.mem_flatMap.2 ⟨q, hq, by simp⟩) (q.2.1 - q.1.1)
      simp only [pairBars, List.mem_cons, List.not_mem_nil, or_false] at hg
      rcases hg with rfl | rfl
      exacts [this.1, this.2]) (by
      right
      rw [hbars]
      rcases hsome with h | h
      · left; simp [rectangularBars, rowAt, layerXs]; omega
      · right; left; simp [rectangularBars, rowAt, layerXs]; omega)
  refine ⟨r, top, bot, side, ?_, r2, r3, r4, concreteWith_of r5 ?_ hne, r6 (apart_single ..)⟩
  · rw [concreteRectangularSection, ← hbars]
    exact r1
  · intro g hg
    rw [Shape.parts, List.mem_singleton] at hg
    subst hg
    rfl

/-- **C85, tee beams.** The same for `concrete_tee_section`: the concrete is that of the web and the flange. -/
theorem C85_tee_partial (ops : GeomOps) {ov : OverlayOps} {G K : Poly → Prop} {reg : Poly → Set Pt}
    (hc : CutsExactly G K reg ov) {d b dF bF diaTop areaTop cTop diaBot areaBot cBot cSide : ℝ} {nTop nBot nSide nCircle : ℕ}
    {diaSide areaSide : Option ℝ} {conc steel : Material} {bars : BeamBars}
    (hbars : bars = teeBars d b bF diaTop nTop cTop diaBot nBot cBot diaSide areaSide nSide cSide) (hne : conc ≠ steel)
    (ht : 1 / 10 ^ 20 < areaTop) (hb : 1 / 10 ^ 20 < areaBot) (hs : ∀ a, areaSide = some a → a ≠ 0 → 1 / 10 ^ 20 < a)
    (hn : 3 ≤ nCircle)
    (hK1 : ∀ p ∈ bars.top, K (barAt ops areaTop nCircle steel p.1 p.2).poly)
    (hK2 : ∀ p ∈ bars.bot, K (barAt ops areaBot nCircle steel p.1 p.2).poly)
    (hK3 : ∀ p ∈ bars.side, ∀ a, K (barAt ops (areaSide.getD 0) nCircle steel p.1 p.2).poly ∧
      K ((barAt ops (areaSide.getD 0) nCircle steel p.1 p.2).shift ops a 0).poly) :
    ∃ outline : Compound, teeOutline ops d b dF bF conc = .ok outline ∧ outline.geoms.length = 2 ∧
      ((∀ g ∈ outline.geoms, G g.poly) → PartsApart reg (.compound outline) →
      ∃ r top bot side, concreteTeeSection ops ov d b dF bF diaTop areaTop nTop cTop diaBot areaBot nBot cBot diaSide areaSide
          nSide cSide nCircle conc steel = .ok r ∧
        List.Forall₂ (fun p g => IsBar 1 steel nCircle areaTop p.1 p.2 g) bars.top top ∧
        List.Forall₂ (fun p g => IsBar 1 steel nCircle areaBot p.1 p.2 g) bars.bot bot ∧
        List.Forall₂ (fun p g => IsBar (3 / 2) steel nCircle (areaSide.getD 0) p.1 p.2 g) bars.side side ∧
        ConcreteWith reg conc steel (occupied reg (.compound outline)) (top ++ bot ++ side) r ∧
        (side.Pairwise (fun g h => volume (reg g.poly ∩ reg h.poly) = 0) → PartsApart reg r)) := by
  obtain ⟨qs, q1, q2, q3⟩ : ∃ qs : List (Pt × Pt), bars.side = qs.flatMap (fun q => [q.1, q.2]) ∧ (∀ q ∈ qs, q.1.2 = q.2.2) ∧
      (qs ≠ [] → ∃ a, areaSide = some a ∧ a ≠ 0) := by
    rw [hbars]
    exact side_pairs _ _ _ _ _ _
  obtain ⟨c0, c1, c2, c3⟩ := mkCompound_built ops (gs := [rectangularSection ops (d - dF) b conc,
    ((rectangularSection ops dF bF conc).alignTo ops (.geom (rectangularSection ops (d - dF) b conc).extents) .top false).shift ops
      (-(bF / 2 - b / 2)) 0]) (by
      intro g hg
      simp only [List.mem_cons, List.not_mem_nil, or_false] at hg
      rcases hg with rfl | rfl <;> exact mk_built ..)
  obtain ⟨c, e1, e2, e3⟩ := mkCompound_built ops (gs := c0.geoms.map fun g => g.shift ops (-b / 2) 0) (by
      intro g hg
      obtain ⟨g', _, rfl⟩ := List.mem_map.1 hg
      exact mk_built ..)
  have hout : teeOutline ops d b dF bF conc = .ok c := by
    simp only [teeOutline, Shape.add, mkCompoundOf, List.flatMap_cons, List.flatMap_nil, Shape.parts, List.append_nil,
      List.cons_append, List.nil_append, c1, Compound.shift, e1]
  have hprop : ∀ g ∈ c.geoms, g.tol = 12 ∧ g.material = conc := by
    intro g hg
    rw [e2, c2] at hg
    simp only [List.map_cons, List.map_nil, List.mem_cons, List.not_mem_nil, or_false] at hg
    rcases hg with rfl | rfl <;> exact ⟨rfl, rfl⟩
  refine ⟨c, hout, by simp [e2, c2], fun hG hap => ?_⟩
  obtain ⟨r, top, bot, side, r1, r2, r3, r4, r5, r6⟩ := reinforceBeam_good ops hc
    (s := .compound c) ⟨e3, fun g hg => ⟨(hprop g hg).1, hG g hg⟩⟩ q1 q2 (areaSide := areaSide) ht hb (by
      intro h
      obtain ⟨a, rfl, h0⟩ := q3 h
      exact hs a rfl h0) hn hK1 hK2 (by
      intro q hq g hg
      have := hK3 q.1 (by rw [q1]; exact List.mem_flatMap.2 ⟨q, hq, by simp⟩) (q.2.1 - q.1.1)
      simp only [pairBars, List.mem_cons, List.not_mem_nil, or_false] at hg
      rcases hg with rfl | rfl
      exacts [this.1, this.2]) (Or.inl ⟨c, rfl⟩)
  refine ⟨r, top, bot, side, ?_, r2, r3, r4, concreteWith_of r5 (fun g hg => (hprop g hg).2) hne, r6 hap⟩
  rw [concreteTeeSection, hout, ← hbars]
  exact r1

/-- **C85, beams without bars.** `concrete_rectangular_section` without any bars raises `ValueError`. -/
theorem C85_no_bars (ops : GeomOps) (ov : OverlayOps) (d b diaTop areaTop cTop diaBot areaBot cBot cSide : ℝ) (nCircle : ℕ)
    (diaSide areaSide : Option ℝ) (conc steel : Material) :
    concreteRectangularSection ops ov d b diaTop areaTop 0 cTop diaBot areaBot 0 cBot diaSide areaSide 0 cSide nCircle conc steel
      = .error .valueError := by
  have e : (rectangularBars d b diaTop 0 cTop diaBot 0 cBot diaSide areaSide 0 cSide).side = [] := by
    simp [rectangularBars]
  rw [concreteRectangularSection, reinforceBeam, e]
  simp [addLayer, rectangularBars, rowAt, layerXs, addSides, bind, Except.bind, requireCompound, pure, Except.pure]

/-- **C85, walls.** The same for `rectangular_wall`; nothing is counted twice provided that no two bars overlap. -/
theorem C85_wall_partial (ops : GeomOps) {ov : OverlayOps} {G K : Poly → Prop} {reg : Poly → Set Pt}
    (hc : CutsExactly G K reg ov) {d t dia area s c : ℝ} {double : Bool} {nCircle : ℕ} {conc steel : Material}
    (hne : conc ≠ steel) (ha : 1 / 10 ^ 20 < area) (hn : 3 ≤ nCircle) (hG : G (rectangularSection ops d t conc).poly) {ps : List Pt}
    (hps : rectangularWallBars d t dia s c double = .ok ps) (hK : ∀ p ∈ ps, K (barAt ops area nCircle steel p.1 p.2).poly) :
    ∃ r bars, rectangularWall ops ov d t dia area s c double nCircle conc steel = .ok r ∧
      List.Forall₂ (fun p g => IsBar 1 steel nCircle area p.1 p.2 g) ps bars ∧
      (∃ rest, r.parts = rest ++ bars) ∧
      ConcreteWith reg conc steel (occupied reg (.single (rectangularSection ops d t conc))) bars r ∧
      (bars.Pairwise (fun g h => volume (reg g.poly ∩ reg h.poly) = 0) → PartsApart reg r) := by
  have hz : (ps.map (·.1)).zip (ps.map (·.2)) = ps := by
    rw [List.zip_map', ← List.map_id ps, List.map_map]
    rfl
  obtain ⟨r, rest, bars, h1, h2, _, h4, h5, h6⟩ := C85_add_bars_partial ops hc (s := .single (rectangularSection ops d t conc))
    (area := area) (xs := ps.map (·.1)) (ys := ps.map (·.2)) (n := nCircle) (m := steel) (mk_built ..)
    (good_single (G := G) (mk_built ops _ _ _ _) rfl hG).2 ha hn (by rw [hz]; exact hK)
  rw [hz] at h4
  refine ⟨.compound r, bars, ?_, h4, ⟨rest, h2⟩, ?_, h6 (apart_single ..)⟩
  · simp only [rectangularWall, hps, bind, Except.bind]
    exact h1
  · have hm : ∀ g ∈ (Shape.single (rectangularSection ops d t conc)).parts, g.material = conc := by
      intro g hg
      rw [Shape.parts, List.mem_singleton] at hg
      subst hg
      rfl
    refine ⟨?_, ?_, fun m h1 h2 => ?_⟩
    · have := h5.others conc hne
      rwa [madeOf_parts reg hm, if_pos rfl] at this
    · have := h5.steel
      rwa [madeOf_parts reg hm, if_neg hne, Set.empty_union] at this
    · have := h5.others m h2
      rwa [madeOf_parts reg hm, if_neg (Ne.symm h1), Set.empty_sdiff] at this

end SP
