import Verif.Props.ShapeFactor
import Mathlib.Analysis.Convex.Measure
import Mathlib.Topology.Order.IntermediateValue

/-!
# What the plastic analysis assumes of shapely and brentq can be met

Exact operations on convex bodies and an exact root finder, used in the non-vacuity examples for
C34, C35 and C44.
-/

namespace SP

open MeasureTheory Spec Classical

/-- Convex bodies of the plane. -/
structure Body where
  set : Set (ℝ × ℝ)
  convex : Convex ℝ set
  compact : IsCompact set
  solid : (interior set).Nonempty

/-- The body if it is solid. -/
noncomputable def bodyOf (s : Set (ℝ × ℝ)) (h1 : Convex ℝ s) (h2 : IsCompact s) : List Body :=
  if h : (interior s).Nonempty then [⟨s, h1, h2, h⟩] else []

theorem convex_side (a b : ℝ × ℝ) :
    Convex ℝ {q | 0 ≤ signedArea2 a b q} ∧ Convex ℝ {q | signedArea2 a b q ≤ 0} := by
  have hl : IsLinearMap ℝ fun q : ℝ × ℝ => (b.1 - a.1) * q.2 - q.1 * (b.2 - a.2) := by
    constructor
    · intro x y; simp; ring
    · intro k x; simp; ring
  have e1 : {q | 0 ≤ signedArea2 a b q}
      = {q : ℝ × ℝ | (b.1 - a.1) * a.2 - a.1 * (b.2 - a.2) ≤ (b.1 - a.1) * q.2 - q.1 * (b.2 - a.2)} := by
    ext q
    simp only [signedArea2, Set.mem_ofPred_eq]
    constructor <;> intro h <;> linarith
  have e2 : {q | signedArea2 a b q ≤ 0}
      = {q : ℝ × ℝ | (b.1 - a.1) * q.2 - q.1 * (b.2 - a.2) ≤ (b.1 - a.1) * a.2 - a.1 * (b.2 - a.2)} := by
    ext q
    simp only [signedArea2, Set.mem_ofPred_eq]
    constructor <;> intro h <;> linarith
  rw [e1, e2]
  exact ⟨convex_halfSpace_ge hl _, convex_halfSpace_le hl _⟩

theorem continuous_signedArea (a b : ℝ × ℝ) : Continuous fun q => signedArea2 a b q := by
  unfold signedArea2; fun_prop

/-- Exact polygon operations on convex bodies. -/
noncomputable def bodyOps : PolyOps Body where
  area s := volume.real s.set
  centroid s := ((∫ q in s.set, q.1) / volume.real s.set, (∫ q in s.set, q.2) / volume.real s.set)
  rep s := s.solid.choose
  bounds s := (sInf (Prod.fst '' s.set), sSup (Prod.fst '' s.set), sInf (Prod.snd '' s.set),
    sSup (Prod.snd '' s.set))
  split s l :=
    (bodyOf (s.set ∩ {q | 0 ≤ signedArea2 l.1 l.2 q}) (s.convex.inter (convex_side l.1 l.2).1)
        (s.compact.inter_right (isClosed_le continuous_const (continuous_signedArea l.1 l.2)))
      ++ bodyOf (s.set ∩ {q | signedArea2 l.1 l.2 q ≤ 0}) (s.convex.inter (convex_side l.1 l.2).2)
        (s.compact.inter_right (isClosed_le (continuous_signedArea l.1 l.2) continuous_const))).map some

theorem flat_null {s : Set (ℝ × ℝ)} (h1 : Convex ℝ s) (h2 : IsCompact s) (h : ¬ (interior s).Nonempty) :
    volume s = 0 := by
  have := h1.addHaar_frontier volume
  rw [h2.isClosed.frontier_eq, Set.not_nonempty_iff_eq_empty.1 h, Set.sdiff_empty] at this
  exact this

theorem body_pos (s : Body) : 0 < volume.real s.set := by
  rw [measureReal_def, ENNReal.toReal_pos_iff]
  refine ⟨?_, s.compact.measure_lt_top⟩
  exact lt_of_lt_of_le (isOpen_interior.measure_pos _ s.solid) (measure_mono interior_subset)

theorem signedArea_null {a b : ℝ × ℝ} (h : a ≠ b) : volume {q | signedArea2 a b q = 0} = 0 := by
  have hsub : {q | signedArea2 a b q = 0} ⊆ {q | height a (b.1 - a.1, b.2 - a.2) q = 0} := by
    intro q hq
    simp only [Set.mem_ofPred_eq, signedArea2, height] at hq ⊢
    by_cases h0 : b.1 - a.1 = 0
    · rw [if_pos h0]
      have hb : b.2 - a.2 ≠ 0 := by
        intro h1
        exact h (Prod.ext (by linarith) (by linarith))
      rw [h0] at hq
      rcases mul_eq_zero.1 (show (q.1 - a.1) * (b.2 - a.2) = 0 by linarith) with h2 | h2
      · exact h2
      · exact absurd h2 hb
    · rw [if_neg h0]
      field_simp
      linarith
  exact measure_mono_null hsub (line_null _ _)

theorem bodyOps_ok : ShapelyOk bodyOps Body.set where
  measurable s := s.compact.isClosed.measurableSet
  inBounds s q hq := by
    have h1 : IsCompact (Prod.fst '' s.set) := s.compact.image continuous_fst
    have h2 : IsCompact (Prod.snd '' s.set) := s.compact.image continuous_snd
    exact ⟨csInf_le h1.bddBelow ⟨q, hq, rfl⟩, le_csSup h1.bddAbove ⟨q, hq, rfl⟩,
      csInf_le h2.bddBelow ⟨q, hq, rfl⟩, le_csSup h2.bddAbove ⟨q, hq, rfl⟩⟩
  area _ := rfl
  centroid s := mul_div_cancel₀ _ (body_pos s).ne'
  centroid' s := mul_div_cancel₀ _ (body_pos s).ne'
  rep s := s.solid.choose_spec
  split s a b hab _ := by
    refine ⟨_, rfl, ?_, ?_, ?_⟩
    · intro t ht
      rw [List.mem_append] at ht
      simp only [bodyOf] at ht
      rcases ht with ht | ht
      · left
        split_ifs at ht
        · rw [List.mem_singleton.1 ht]; exact fun q hq => hq.2
        · simp at ht
      · right
        split_ifs at ht
        · rw [List.mem_singleton.1 ht]; exact fun q hq => hq.2
        · simp at ht
    · simp only [bodyOf]
      split_ifs
      · simp only [List.cons_append, List.nil_append, List.pairwise_cons, List.mem_singleton,
          forall_eq, List.not_mem_nil, false_imp_iff, implies_true, List.Pairwise.nil, and_self, and_true]
        refine measure_mono_null ?_ (signedArea_null hab)
        rintro q ⟨⟨-, h1⟩, -, h2⟩
        exact le_antisymm h2 h1
      all_goals simp
    · have hsub : ∀ q ∈ s.set, q ∈ (s.set ∩ {q | 0 ≤ signedArea2 a b q}) ∨
          q ∈ (s.set ∩ {q | signedArea2 a b q ≤ 0}) := by
        intro q hq
        rcases le_total 0 (signedArea2 a b q) with h | h
        · exact .inl ⟨hq, h⟩
        · exact .inr ⟨hq, h⟩
      have hU := flat_null (s.convex.inter (convex_side a b).1)
        (s.compact.inter_right (isClosed_le continuous_const (continuous_signedArea a b)))
      have hL := flat_null (s.convex.inter (convex_side a b).2)
        (s.compact.inter_right (isClosed_le (continuous_signedArea a b) continuous_const))
      rw [ae_eq_set]
      constructor
      · by_cases h1 : (interior (s.set ∩ {q | 0 ≤ signedArea2 a b q})).Nonempty <;>
        by_cases h2 : (interior (s.set ∩ {q | signedArea2 a b q ≤ 0})).Nonempty <;>
        simp only [bodyOf, h1, h2, dif_pos, dif_neg, not_false_eq_true, List.append_nil,
          List.nil_append, List.cons_append, List.mem_cons, List.not_mem_nil, or_false, exists_eq_or_imp,
          exists_eq_left, false_and, exists_false]
        · refine measure_mono_null ?_ (measure_empty (μ := volume))
          rintro q ⟨hq, hn⟩
          exact hn (hsub q hq)
        · refine measure_mono_null ?_ (hL h2)
          rintro q ⟨hq, hn⟩
          exact (hsub q hq).resolve_left hn
        · refine measure_mono_null ?_ (hU h1)
          rintro q ⟨hq, hn⟩
          exact (hsub q hq).resolve_right hn
        · refine measure_mono_null ?_ (measure_union_null (hU h1) (hL h2))
          rintro q ⟨hq, hn⟩
          exact hsub q hq
      · refine measure_mono_null ?_ (measure_empty (μ := volume))
        rintro q ⟨⟨t, ht, hq⟩, hn⟩
        rw [List.mem_append] at ht
        simp only [bodyOf] at ht
        rcases ht with ht | ht <;> split_ifs at ht
        · rw [List.mem_singleton.1 ht] at hq; exact hn hq.1
        · simp at ht
        · rw [List.mem_singleton.1 ht] at hq; exact hn hq.1
        · simp at ht

/-- A root finder that returns exact roots. -/
noncomputable def exactRoot : Brentq := fun f a b =>
  if h : ∃ z, z ∈ Set.Icc a b ∧ f z = .ok 0 then .ok ⟨h.choose, true, h.choose⟩ else .error .valueError

theorem exactRoot_ok : RootFinder (fun _ => 0) exactRoot := by
  intro f g a b hab hf hc hs
  have hz : ∃ z, z ∈ Set.Icc a b ∧ f z = .ok 0 := by
    have hz : ∃ z ∈ Set.Icc a b, g z = 0 := by
      rcases mul_neg_iff.1 hs with ⟨h1, h2⟩ | ⟨h1, h2⟩
      · obtain ⟨z, hz, h⟩ := intermediate_value_Icc' hab.le hc (show (0 : ℝ) ∈ Set.Icc (g b) (g a) from
          ⟨h2.le, h1.le⟩)
        exact ⟨z, hz, h⟩
      · obtain ⟨z, hz, h⟩ := intermediate_value_Icc hab.le hc (show (0 : ℝ) ∈ Set.Icc (g a) (g b) from
          ⟨h1.le, h2.le⟩)
        exact ⟨z, hz, h⟩
    obtain ⟨z, hz, h⟩ := hz
    exact ⟨z, hz, by rw [hf, h]⟩
  refine ⟨⟨hz.choose, true, hz.choose⟩, ?_, fun _ => ⟨⟨hz.choose, hz.choose_spec.1, ?_, by simp⟩, by simp⟩⟩
  · rw [exactRoot, dif_pos hz]
  · have := hz.choose_spec.2
    rw [hf] at this
    exact Except.ok.inj this

variable {n : ℕ}

/-- The region of an element, moved by `-c`. -/
noncomputable def elemBody (t : Tri6 n) (c : ℝ × ℝ) (h : Proper t.coords) : Body where
  set := elemRegion (t.coords.shift c.1 c.2)
  convex := convex_convexHull ℝ _
  compact := isCompact_elemRegion _
  solid := by
    by_contra hn
    have h0 := flat_null (convex_convexHull ℝ _) (isCompact_elemRegion _) hn
    have h1 : (∫ _ in elemRegion (t.coords.shift c.1 c.2), (1 : ℝ)) = 0 :=
      setIntegral_measure_zero _ h0
    have hd : 0 < elemDet (t.coords.shift c.1 c.2) := by
      have := h.2
      simp only [elemDet, signedArea2, cornerA, cornerB, cornerC, Coords.shift] at this ⊢
      linarith
    rw [elemRegion, Spec.triangle, integral_triangle (by exact hd.ne')] at h1
    · have e : (∫ s in (0 : ℝ)..1, ∫ _ in (0 : ℝ)..(1 - s), (1 : ℝ)) = 1 / 2 := by
        simp only [intervalIntegral.integral_const, smul_eq_mul, mul_one, sub_zero]
        rw [intervalIntegral.integral_sub (by simp) (by simp)]
        norm_num
      rw [e] at h1
      have h2 : 0 < |elemDet (t.coords.shift c.1 c.2)| := abs_pos.2 hd.ne'
      have h3 : |elemDet (t.coords.shift c.1 c.2)| * (1 / 2) = 0 := h1
      linarith
    · exact continuous_const

/-- The elements of a section, moved by `-c`, as the geometry of a plastic analysis. -/
noncomputable def bodyPlastic (els : List (Tri6 n)) (h : ∀ t ∈ els, Proper t.coords) (c : ℝ × ℝ) :
    PlasticSection Body where
  ops := bodyOps
  geoms := els.attach.map fun t => ⟨elemBody t.1 c (h t.1 t.2), t.1.material⟩
  points := els.flatMap fun t => [cornerA (t.coords.shift c.1 c.2), cornerB (t.coords.shift c.1 c.2),
    cornerC (t.coords.shift c.1 c.2)]

theorem bodyPlastic_same (els : List (Tri6 n)) (h : ∀ t ∈ els, Proper t.coords) (c : ℝ × ℝ) :
    SameStrength Body.set (bodyPlastic els h c).geoms els c := by
  intro f _
  simp only [yieldInt, bodyPlastic, List.map_map]
  have : (els.map fun t => t.material.yieldStrength *
        ∫ p in elemRegion t.coords, f (p.1 - c.1, p.2 - c.2))
      = els.attach.map fun t => t.1.material.yieldStrength *
        ∫ p in elemRegion t.1.coords, f (p.1 - c.1, p.2 - c.2) := by
    rw [List.attach_map_val (f := fun t : Tri6 n => t.material.yieldStrength *
        ∫ p in elemRegion t.coords, f (p.1 - c.1, p.2 - c.2))]
  rw [this]
  congr 1
  refine List.map_congr_left fun t _ => ?_
  simp only [Function.comp, elemBody]
  rw [elemRegion_shift, image_integral _ _ (by norm_num) (measurable_elemRegion _)]
  simp [affine, sub_eq_add_neg]

theorem bodyPlastic_ok (els : List (Tri6 n)) (h : ∀ t ∈ els, Proper t.coords) (c : ℝ × ℝ)
    (hne : els ≠ []) (hy : ∀ t ∈ els, 0 < t.material.yieldStrength) :
    PlasticOk (bodyPlastic els h c) Body.set where
  shapely := bodyOps_ok
  strength g hg := by
    simp only [bodyPlastic, List.mem_map] at hg
    obtain ⟨t, -, rfl⟩ := hg
    exact (hy t.1 t.2).le
  force := by
    simp only [yieldForce, Set.inter_univ]
    refine List.sum_pos _ ?_ (by simpa [bodyPlastic] using hne)
    intro x hx
    obtain ⟨g, hg, rfl⟩ := List.mem_map.1 hx
    simp only [bodyPlastic, List.mem_map] at hg
    obtain ⟨t, -, rfl⟩ := hg
    exact mul_pos (hy t.1 t.2) (body_pos _)
  hull g hg := by
    simp only [bodyPlastic, List.mem_map] at hg
    obtain ⟨t, -, rfl⟩ := hg
    refine convexHull_mono ?_
    intro q hq
    simp only [Set.mem_insert_iff, Set.mem_singleton_iff] at hq
    show q ∈ List.flatMap _ _
    rw [List.mem_flatMap]
    exact ⟨t.1, t.2, by simpa using hq⟩

/-- The example environment with an exact plastic analysis around the point `c`. -/
noncomputable def exPlasticEnv (s : Section) (h : ∀ t ∈ s.elements, Proper t.coords) (c : ℝ × ℝ) : Env Body where
  sec := s
  perimeter := 6
  solvers := exactSolvers
  plastic := bodyPlastic s.elements h c
  brentq := exactRoot

theorem exSection_grouped : Grouped exSection := by
  refine C31_groups_partial exSection_init ?_ ?_ <;>
  · intro a ha b hb h
    simp only [exGeom, List.mem_cons, List.not_mem_nil, or_false] at ha hb
    rcases ha with rfl | rfl <;> rcases hb with rfl | rfl <;>
      first
      | rfl
      | (simp at h; done)
      | (exact absurd h exConcrete_ne)
      | (exact absurd h.symm exConcrete_ne)

theorem exPlain_grouped : Grouped exPlain := by
  refine C31_groups_partial exPlain_init ?_ ?_ <;>
  · intro a ha b hb h
    simp only [exPlainGeom, List.mem_cons, List.not_mem_nil, or_false] at ha hb
    rw [ha, hb]

/-- With exact polygon operations and an exact root finder the larger shape factor is at least one (less
`1e-12`, for sections whose principal angle is snapped). -/
theorem shape_factor_exact (sec : Section) (h : ∀ t ∈ sec.elements, Proper t.coords)
    (hg : GoodSection sec) (hph : Physical sec.elements) (hgr : Grouped sec)
    (hy : ∀ g ∈ sec.groups, 0 < g.material.val.yieldStrength ∧ 0 < g.material.val.elasticModulus)
    (hyt : ∀ t ∈ sec.elements, 0 < t.material.yieldStrength)
    (hmat : ∀ t ∈ sec.elements, ∃ m ∈ sec.materials, t.material = m.val) (hn : 0 < sec.numNodes) :
    ∃ r, sec.geometricAnalysis = .ok r ∧
    ∀ a, ∃ p m, (exec (exPlasticEnv sec h (r.cx, r.cy)).plasticAnalysis
        (Store.set (n := sec.numNodes) (Store.empty _) (geomValues 6 r))).2.val (axisFields a).2.2.1 = some p ∧
      (exec (exPlasticEnv sec h (r.cx, r.cy)).plasticAnalysis
        (Store.set (n := sec.numNodes) (Store.empty _) (geomValues 6 r))).2.val (axisFields a).2.2.2 = some m ∧
      1 - 1e-12 ≤ max p m := by
  obtain ⟨r, hr⟩ := geometricAnalysis_ok sec hn
  refine ⟨r, hr, fun a => ?_⟩
  have hC := C35_shape_factors (exPlasticEnv sec h (r.cx, r.cy)) (reg := Body.set) hg hph hr hgr hy hmat
    (bodyPlastic_same sec.elements h (r.cx, r.cy))
    (bodyPlastic_ok sec.elements h (r.cx, r.cy) hph.nonempty hyt) exactRoot_ok
    (holdsGeom_set 6 r (Store.empty sec.numNodes))
  rcases hC with ⟨-, f, lo, hi, q, hq, hcv⟩ | ⟨-, hall⟩
  · exfalso
    change exactRoot f lo hi = .ok q at hq
    unfold exactRoot at hq
    split_ifs at hq
    rw [← Except.ok.inj hq] at hcv
    simp at hcv
  · obtain ⟨d, S, p, m, -, -, h1, h2, -, -, -, h3, -⟩ := hall a
    refine ⟨p, m, h1, h2, ?_⟩
    simpa using h3

/-- Non-vacuity of `C34_bracket`, `C34_plastic_axis` and `C35_shape_factors`: the composite and the plain
example, with exact polygon operations and an exact root finder. -/
example : ∀ (sec : Section) (_ : sec = exSection ∨ sec = exPlain)
    (h : ∀ t ∈ sec.elements, Proper t.coords), ∃ r, sec.geometricAnalysis = .ok r ∧
    ∀ a, ∃ p m, (exec (exPlasticEnv sec h (r.cx, r.cy)).plasticAnalysis
        (Store.set (n := sec.numNodes) (Store.empty _) (geomValues 6 r))).2.val (axisFields a).2.2.1 = some p ∧
      (exec (exPlasticEnv sec h (r.cx, r.cy)).plasticAnalysis
        (Store.set (n := sec.numNodes) (Store.empty _) (geomValues 6 r))).2.val (axisFields a).2.2.2 = some m ∧
      1 - 1e-12 ≤ max p m := by
  intro sec hsec h
  rcases hsec with rfl | rfl
  · refine shape_factor_exact _ h exSection_good exSection_physical exSection_grouped ?_ ?_ ?_ (by simp [exSection])
    · intro (g : MaterialGroup 9) hg
      have hg : g ∈ ([⟨⟨0, exConcrete⟩, [exT0]⟩, ⟨⟨1, exSteel⟩, [exT1]⟩] : List (MaterialGroup 9)) := hg
      simp only [List.mem_cons, List.not_mem_nil, or_false] at hg
      rcases hg with rfl | rfl <;> simp [exConcrete, exSteel]
    · intro (t : Tri6 9) ht
      have ht : t ∈ [exT0, exT1] := ht
      simp only [List.mem_cons, List.not_mem_nil, or_false] at ht
      rcases ht with rfl | rfl <;> simp [exT0, exT1, exConcrete, exSteel]
    · intro (t : Tri6 9) ht
      have ht : t ∈ [exT0, exT1] := ht
      simp only [List.mem_cons, List.not_mem_nil, or_false] at ht
      rcases ht with rfl | rfl <;> simp [exT0, exT1, exSection, exGeom]
  · refine shape_factor_exact _ h exPlain_good exPlain_physical exPlain_grouped ?_ ?_ ?_ (by simp [exPlain])
    · intro (g : MaterialGroup 9) hg
      have hg : g ∈ ([⟨⟨0, defaultMaterial⟩, [exP0, exP1]⟩] : List (MaterialGroup 9)) := hg
      simp only [List.mem_cons, List.not_mem_nil, or_false] at hg
      rcases hg with rfl
      simp [defaultMaterial]
    · intro (t : Tri6 9) ht
      have ht : t ∈ [exP0, exP1] := ht
      simp only [List.mem_cons, List.not_mem_nil, or_false] at ht
      rcases ht with rfl | rfl <;> simp [exP0, exP1, defaultMaterial]
    · intro (t : Tri6 9) ht
      have ht : t ∈ [exP0, exP1] := ht
      simp only [List.mem_cons, List.not_mem_nil, or_false] at ht
      rcases ht with rfl | rfl <;> simp [exP0, exP1, exPlain, exPlainGeom]

end SP
