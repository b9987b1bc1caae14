import Verif.Lemmas.Extend
import Verif.Props.Torsion
import Verif.Props.WarpMoment
import Verif.Props.PlasticLimit
import Verif.Props.Exact

/-!
# C81: adding material
-/

namespace SP

open Spec MeasureTheory

variable {n m : ℕ} {els : List (Tri6 n)} {els' : List (Tri6 m)}

/-- **C81.** If a section is part of another one, whose material is at least as stiff wherever both have material, its
area, its axial rigidity and its second moments about its own centroid, about any axis through it and about the principal
axes, are at most those of the other. -/
theorem C81_second_moments (s s' : Section) (r r' : GeomResults) (h : Physical s.elements) (h' : Physical s'.elements)
    (hno : NoOverlap s.elements) (hno' : NoOverlap s'.elements) (hb : Below Material.elasticModulus s.elements s'.elements)
    (hr : s.geometricAnalysis = .ok r) (hr' : s'.geometricAnalysis = .ok r') :
    r.sums.area ≤ r'.sums.area ∧ r.sums.ea ≤ r'.sums.ea ∧
    r.cent.ixxC ≤ r'.cent.ixxC ∧ r.cent.iyyC ≤ r'.cent.iyyC ∧
    (∀ θ, momentAbout r.cent.ixxC r.cent.iyyC r.cent.ixyC θ ≤ momentAbout r'.cent.ixxC r'.cent.iyyC r'.cent.ixyC θ) ∧
    r.cent.i11 ≤ r'.cent.i11 ∧ r.cent.i22 ≤ r'.cent.i22 := by
  obtain ⟨g1, g2, -⟩ := geom_ok hr
  obtain ⟨g1', g2', -⟩ := geom_ok hr'
  obtain ⟨c1, c2, c3, c4, c5, -⟩ := cent_ok g2
  obtain ⟨c1', c2', c3', c4', c5', -⟩ := cent_ok g2'
  have hq := central_le h h' hno hno' hb
  rw [← g1, ← g1'] at hq
  obtain ⟨a1, -, a3, -⟩ := sums_fields h.proper
  obtain ⟨a1', -, a3', -⟩ := sums_fields h'.proper
  rw [c1, c2, c3, c4, c5, c1', c2', c3', c4', c5']
  obtain ⟨k1, k2⟩ := extremes_le hq
  refine ⟨?_, ?_, ?_, ?_, fun θ => ?_, k1, k2⟩
  · have hb1 : Below (fun _ => 1) s.elements s'.elements := by
      obtain ⟨E, E', -, -, hE⟩ := hb
      refine ⟨fun _ => 1, fun _ => 1, fun t _ => .of_forall fun p _ => rfl, fun t _ => .of_forall fun p _ => rfl, ?_⟩
      filter_upwards [hE] with p hp hm
      exact ⟨(hp hm).1, le_rfl⟩
    have := below_sum hno hno' hb1 (fun t _ => zero_le_one) (f := fun _ => 1) continuous_const fun _ => zero_le_one
    simpa only [g1, g1', a1, a1', mul_one] using this
  · have := below_sum hno hno' hb (fun t ht => (h'.modulus t ht).le) (f := fun _ => 1) continuous_const fun _ => zero_le_one
    simpa only [g1, g1', a3, a3'] using this
  · simpa [quadForm] using hq 0 1
  · simpa [quadForm] using hq 1 0
  · have := hq (-Real.sin θ) (Real.cos θ)
    simp only [quadForm, momentAbout] at this ⊢
    linarith

/-- **C81.** The mass of a section is at most that of every section it is part of, if densities do not decrease. -/
theorem C81_mass (s s' : Section) (r r' : GeomResults) (hp : ∀ t ∈ s.elements, Proper t.coords)
    (hp' : ∀ t ∈ s'.elements, Proper t.coords) (hno : NoOverlap s.elements) (hno' : NoOverlap s'.elements)
    (hd : ∀ t ∈ s'.elements, 0 ≤ t.material.density) (hb : Below Material.density s.elements s'.elements)
    (hr : s.geometricAnalysis = .ok r) (hr' : s'.geometricAnalysis = .ok r') : r.sums.mass ≤ r'.sums.mass := by
  obtain ⟨g1, -⟩ := geom_ok hr
  obtain ⟨g1', -⟩ := geom_ok hr'
  obtain ⟨-, a2, -⟩ := sums_fields hp
  obtain ⟨-, a2', -⟩ := sums_fields hp'
  have := below_sum hno hno' hb hd (f := fun _ => 1) continuous_const fun _ => zero_le_one
  simpa only [g1, g1', a2, a2'] using this

/-! ### Torsion -/

/-- A quadratic field seen from another origin, with the rotation about the difference of the origins. -/
theorem moved_field {q : ℝ × ℝ → ℝ} (hq : q ∈ PolyLE 2) (dx dy : ℝ) :
    (fun p : ℝ × ℝ => q (p.1 - dx, p.2 - dy) + (dy * p.1 - dx * p.2)) ∈ PolyLE 2 ∧
    ∀ p : ℝ × ℝ, dX (fun p : ℝ × ℝ => q (p.1 - dx, p.2 - dy) + (dy * p.1 - dx * p.2)) p = dX q (p.1 - dx, p.2 - dy) + dy ∧
      dY (fun p : ℝ × ℝ => q (p.1 - dx, p.2 - dy) + (dy * p.1 - dx * p.2)) p = dY q (p.1 - dx, p.2 - dy) - dx := by
  obtain ⟨a0, a1, a2, a3, a4, a5, rfl⟩ := polyLE2_quad hq
  have e : (fun p : ℝ × ℝ => quad a0 a1 a2 a3 a4 a5 (p.1 - dx, p.2 - dy) + (dy * p.1 - dx * p.2))
      = quad (a0 - a1 * dx - a2 * dy + a3 * dx ^ 2 + a4 * (dx * dy) + a5 * dy ^ 2)
        (a1 - 2 * a3 * dx - a4 * dy + dy) (a2 - a4 * dx - 2 * a5 * dy - dx) a3 a4 a5 := by
    funext p
    simp only [quad]
    ring
  rw [e]
  refine ⟨?_, fun p => ?_⟩
  · exact quad_mem _ _ _ _ _ _
  · rw [quad_dX, quad_dX, quad_dY, quad_dY]
    constructor <;> ring

theorem integral_shift (c : Coords) (dx dy : ℝ) (f : ℝ × ℝ → ℝ) :
    ∫ p in elemRegion (c.shift dx dy), f p = ∫ p in elemRegion c, f (p.1 - dx, p.2 - dy) := by
  have hm := measurePreserving_add_right (volume : Measure (ℝ × ℝ)) (-dx, -dy)
  have he : MeasurableEmbedding fun p : ℝ × ℝ => p + (-dx, -dy) := (MeasurableEquiv.addRight (-dx, -dy)).measurableEmbedding
  have hset : elemRegion c = (fun p : ℝ × ℝ => p + (-dx, -dy)) ⁻¹' elemRegion (c.shift dx dy) := by
    ext p
    rw [Set.mem_preimage, mem_region_shift]
    simp
  rw [hset, ← hm.setIntegral_preimage_emb he]
  simp only [sub_eq_add_neg]
  rfl

theorem shiftBy_shiftBy (t : Tri6 n) (a b c d : ℝ) : (t.shiftBy a b).shiftBy c d = t.shiftBy (a + c) (b + d) := by
  simp only [Tri6.shiftBy, Coords.shift, sub_sub]

/-- The twist energies about two points are those of the same fields up to a rigid rotation. -/
theorem twist_centre {pos : Fin n → ℝ × ℝ} (hpos : ∀ t ∈ els, ∀ k, (t.coords.x k, t.coords.y k) = pos (t.nodeIds k))
    (cx cy dx dy : ℝ) {v : Fin n → ℝ} {q : Tri6 n → ℝ × ℝ → ℝ} (hq : FEField (shifted els (cx + dx) (cy + dy)) v q) :
    ∃ v' q', FEField (shifted els cx cy) v' q' ∧
      twistEnergy (shifted els cx cy) q' = twistEnergy (shifted els (cx + dx) (cy + dy)) q := by
  refine ⟨fun i => v i + (dy * ((pos i).1 - cx) - dx * ((pos i).2 - cy)),
    fun t p => q (t.shiftBy dx dy) (p.1 - dx, p.2 - dy) + (dy * p.1 - dx * p.2), ?_, ?_⟩
  · intro t ht
    obtain ⟨u, hu, rfl⟩ := List.mem_map.1 ht
    simp only [shiftBy_shiftBy]
    obtain ⟨h1, h2⟩ := hq _ (List.mem_map_of_mem hu)
    refine ⟨(moved_field h1 dx dy).1, fun k => ?_⟩
    have h3 := h2 k
    have h4 := hpos u hu k
    simp only [Tri6.shiftBy, Coords.shift, Prod.ext_iff] at h3 h4 ⊢
    rw [sub_sub, sub_sub, h3, h4.1, h4.2]
  · simp only [twistEnergy, wInt, shifted, List.map_map]
    refine congrArg List.sum (List.map_congr_left fun u hu => ?_)
    simp only [Function.comp_apply]
    have hq1 := (hq _ (List.mem_map_of_mem hu)).1
    have hm : (u.shiftBy cx cy).material = (u.shiftBy (cx + dx) (cy + dy)).material := rfl
    rw [hm]
    congr 1
    rw [← shiftBy_shiftBy] at hq1 ⊢
    change _ = ∫ p in elemRegion ((u.shiftBy cx cy).coords.shift dx dy), _
    rw [integral_shift]
    refine integral_congr_ae (Filter.Eventually.of_forall fun p => ?_)
    obtain ⟨e1, e2⟩ := (moved_field hq1 dx dy).2 p
    simp only [e1, e2]
    ring

/-- **C81.** If every element of a section lies within an element, at least as stiff, of a conforming mesh of another
section, its torsion constant is at most that of the other. -/
theorem C81_torsion (s s' : Section) (r r' : GeomResults) (hg : GoodSection s) (hg' : GoodSection s')
    (h : Physical s.elements) (h' : Physical s'.elements) (hc : ConformingMesh s'.meshNodes s'.elements)
    (hW : FitsInto s.elements s'.elements) (hr : s.geometricAnalysis = .ok r) (hr' : s'.geometricAnalysis = .ok r')
    (sv sv' : Solvers) (ty ty' : SolverType) (w : WarpResults s.numNodes) (w' : WarpResults s'.numNodes)
    (hw : s.warping sv ty r = .ok w) (hw' : s'.warping sv' ty' r' = .ok w')
    (hex : SolvesBordered (assembleTorsion (s.elements.map fun t => t.shiftBy r.cx r.cy)).1
      (assembleTorsion (s.elements.map fun t => t.shiftBy r.cx r.cy)).2 w.omega)
    (hex' : SolvesBordered (assembleTorsion (s'.elements.map fun t => t.shiftBy r'.cx r'.cy)).1
      (assembleTorsion (s'.elements.map fun t => t.shiftBy r'.cx r'.cy)).2 w'.omega) :
    w.j ≤ w'.j := by
  obtain ⟨-, a2, -⟩ := C19_torsion_constant s r hg h hr sv ty w hw hex
  obtain ⟨b1, -⟩ := C19_torsion_constant s' r' hg' h' hr' sv' ty' w' hw' hex'
  obtain ⟨q, hq⟩ := exists_feField (shifted_proper h'.proper r'.cx r'.cy) w'.omega
  have hW' := within_shift hW r'.cx r'.cy
  have hP' := shifted_physical h' r'.cx r'.cy
  have hpar : ∀ t : Tri6 s.numNodes, ∃ t' : Tri6 s'.numNodes, t ∈ shifted s.elements r'.cx r'.cy →
      t' ∈ shifted s'.elements r'.cx r'.cy ∧ elemRegion t.coords ⊆ elemRegion t'.coords ∧
        t.material.elasticModulus ≤ t'.material.elasticModulus := by
    intro t
    by_cases ht : t ∈ shifted s.elements r'.cx r'.cy
    · obtain ⟨t', h1, h2, h3⟩ := hW'.inside t ht
      exact ⟨t', fun _ => ⟨h1, h2, h3⟩⟩
    · exact ⟨s'.elements.head h'.nonempty, fun h => absurd h ht⟩
  choose par hpar using hpar
  obtain ⟨v, hv⟩ := exists_sample (conforming_shift hc r'.cx r'.cy)
    (pos' := fun i => ((s.meshNodes i).1 - r'.cx, (s.meshNodes i).2 - r'.cy))
    (by
      intro t ht k
      obtain ⟨t, ht', rfl⟩ := List.mem_map.1 ht
      simp [Tri6.shiftBy, Coords.shift, hg'.coords t ht', gather])
    (by
      intro t ht k
      obtain ⟨t, ht', rfl⟩ := List.mem_map.1 ht
      simp [Tri6.shiftBy, Coords.shift, hg.coords t ht', gather])
    (shifted_proper h.proper r'.cx r'.cy) (fun t ht => ⟨(hpar t ht).1, (hpar t ht).2.1⟩) hq
  have e1 : r.cx + (r'.cx - r.cx) = r'.cx := by ring
  have e2 : r.cy + (r'.cy - r.cy) = r'.cy := by ring
  obtain ⟨v1, q1, h1, h2⟩ := twist_centre (els := s.elements) (pos := s.meshNodes)
    (fun t ht k => by simp [hg.coords t ht, gather]) r.cx r.cy (r'.cx - r.cx) (r'.cy - r.cy) (by rw [e1, e2]; exact hv)
  rw [e1, e2] at h2
  refine (a2 v1 q1 h1).trans ?_
  change twistEnergy (shifted s.elements r.cx r.cy) q1 ≤ _
  rw [h2, b1 q hq]
  refine wInt_within hW' hP'.proper hP'.modulus hpar
    (f := fun t p => (dX (q t) p - p.2) ^ 2 + (dY (q t) p + p.1) ^ 2) (fun t ht => ?_) fun t _ p =>
    add_nonneg (sq_nonneg _) (sq_nonneg _)
  have c1 := PolyLE.continuous (dX_mem (hq t ht).1)
  have c2 := PolyLE.continuous (dY_mem (hq t ht).1)
  fun_prop

/-! ### Plastic moments -/

theorem limit_le {phi phi' : ℝ} {a : Axis} (h : Physical els) (h' : Physical els')
    (hy : ∀ t ∈ els, 0 < t.material.yieldStrength) (hy' : ∀ t ∈ els', 0 < t.material.yieldStrength)
    (hno : NoOverlap els) (hno' : NoOverlap els') (hb : Below Material.yieldStrength els els')
    (ha : a = .xx ∨ a = .yy ∨ phi = phi') {M M' : ℝ} (hM : IsLimitMoment (strengthParts els) (fun q => axisCoord phi q a) M)
    (hM' : IsLimitMoment (strengthParts els') (fun q => axisCoord phi' q a) M') : M ≤ M' := by
  obtain ⟨z, hz⟩ := mesh_balanced h.proper h.nonempty hy phi a
  obtain ⟨z', hz'⟩ := mesh_balanced h'.proper h'.nonempty hy' phi' a
  obtain ⟨h1, h2⟩ := balanced_limit (goodParts_mesh hy) (continuous_coord phi a) hz
  obtain ⟨h1', -⟩ := balanced_limit (goodParts_mesh hy') (continuous_coord phi' a) hz'
  rw [hM.unique h1, hM'.unique h1']
  refine (h2 z').trans ?_
  have e : (fun q => axisCoord phi q a) = fun q => axisCoord phi' q a := by
    rcases ha with rfl | rfl | rfl <;> rfl
  rw [e]
  have := below_sum hno hno' hb (fun t ht => (hy' t ht).le) (f := fun q => |axisCoord phi' q a - z'|)
    (by have := continuous_coord phi' a; fun_prop) fun _ => abs_nonneg _
  simpa only [yieldDist, strengthParts, List.map_map, Function.comp_def, mul_comm] using this

/-- **C81.** If a section is part of another one, whose material is at least as strong wherever both have material, its
plastic moments about the given axes (and about the principal axes, if these have the same directions) are at most those of
the other, up to the tolerances of the root searches. -/
theorem C81_plastic {P P' : Type} (env : Env P) (env' : Env P') {r r' : GeomResults} {reg : P → Set (ℝ × ℝ)}
    {reg' : P' → Set (ℝ × ℝ)} {tol tol' : ℝ → ℝ} {st : Store env.sec.numNodes} {st' : Store env'.sec.numNodes}
    (h : PlasticSetup env r reg tol st) (h' : PlasticSetup env' r' reg' tol' st')
    (hok : (env.plasticAnalysis.run.run st).1 = .ok ()) (hok' : (env'.plasticAnalysis.run.run st').1 = .ok ())
    (hno : NoOverlap env.sec.elements) (hno' : NoOverlap env'.sec.elements)
    (hb : Below Material.yieldStrength env.sec.elements env'.sec.elements) (a : Axis)
    (ha : a = .xx ∨ a = .yy ∨ r.cent.phi = r'.cent.phi) :
    ∃ d S d' S',
      (env.plasticAnalysis.run.run st).2.val (axisFields a).1 = some d ∧
      (env.plasticAnalysis.run.run st).2.val (axisFields a).2.1 = some S ∧
      (env'.plasticAnalysis.run.run st').2.val (axisFields a).1 = some d' ∧
      (env'.plasticAnalysis.run.run st').2.val (axisFields a).2.1 = some S' ∧
      S ≤ S' + tol d * squashLoad (strengthParts env.sec.elements)
        + 2 * tol' d' * squashLoad (strengthParts env'.sec.elements) := by
  rcases C73_limit_moment env h with ⟨he, -⟩ | ⟨-, hall⟩
  · rw [hok] at he; cases he
  rcases C73_limit_moment env' h' with ⟨he, -⟩ | ⟨-, hall'⟩
  · rw [hok'] at he; cases he
  obtain ⟨d, S, M, h1, h2, h3, h4, -⟩ := hall a
  obtain ⟨d', S', M', h1', h2', h3', -, h5'⟩ := hall' a
  refine ⟨d, S, d', S', h1, h2, h1', h2', ?_⟩
  have := limit_le h.physical h'.physical h.yields h'.yields hno hno' hb ha h3 h3'
  linarith

end SP
