import Verif.Lemmas.PlasticLimit
import Verif.Props.StressTurn

/-!
# C73: the plastic moment is the largest moment within the yield strength
-/

namespace SP

open MeasureTheory Spec

theorem axisCoord_shift (phi : ℝ) (a : Axis) (p c : ℝ × ℝ) :
    axisCoord phi (p.1 - c.1, p.2 - c.2) a = axisCoord phi p a - axisCoord phi c a := by
  cases a <;> simp only [axisCoord, rotX, rotY] <;> ring

/-- The regions and yield strengths of the polygons of a plastic analysis. -/
def polyParts {P : Type*} (reg : P → Set (ℝ × ℝ)) (geoms : List (PGeom P)) : List (Set (ℝ × ℝ) × ℝ) :=
  geoms.map fun g => (reg g.poly, g.material.yieldStrength)

theorem goodParts_poly {P : Type*} {ps : PlasticSection P} {reg : P → Set (ℝ × ℝ)} (h : PlasticOk ps reg) :
    GoodParts (polyParts reg ps.geoms) := by
  refine ⟨?_, ?_, ?_⟩ <;> simp only [polyParts, List.mem_map, forall_exists_index, and_imp, forall_apply_eq_imp_iff₂]
  · exact fun g _ => h.shapely.measurable _
  · exact fun g hg => h.strength g hg
  · exact fun g _ f hf => integrable_reg h.shapely _ hf

theorem poly_mesh {n : ℕ} {P : Type*} {reg : P → Set (ℝ × ℝ)} {geoms : List (PGeom P)} {els : List (Tri6 n)}
    {c : ℝ × ℝ} (hs : SameStrength reg geoms els c) (phi : ℝ) (a : Axis) :
    yieldForce reg geoms Set.univ = squashLoad (strengthParts els) ∧
    ∀ d, yieldDist (polyParts reg geoms) (fun q => axisCoord phi q a) d
      = yieldDist (strengthParts els) (fun q => axisCoord phi q a) (d + axisCoord phi c a) := by
  constructor
  · have := hs (fun _ => 1) continuous_const
    simpa [yieldInt, yieldForce, squashLoad, strengthParts, Function.comp_def] using this
  · intro d
    have := hs (fun q => |axisCoord phi q a - d|) ((continuous_coord phi a).sub continuous_const).abs
    simp only [axisCoord_shift] at this
    simp only [yieldDist, polyParts, strengthParts, List.map_map, Function.comp_def]
    simp only [yieldInt] at this
    rw [this]
    refine congrArg List.sum (List.map_congr_left fun t _ => ?_)
    congr 1
    refine integral_congr_ae (Filter.Eventually.of_forall fun q => ?_)
    simp only
    congr 1
    ring

/-- One axis of a plastic analysis. -/
theorem limit_axis {n : ℕ} {P : Type*} {ps : PlasticSection P} {reg : P → Set (ℝ × ℝ)} (h : PlasticOk ps reg)
    {tol : ℝ → ℝ} {br : Brentq} (hbr : RootFinder tol br) {els : List (Tri6 n)} (hp : ∀ t ∈ els, Proper t.coords)
    (hne : els ≠ []) (hy : ∀ t ∈ els, 0 < t.material.yieldStrength) {c : ℝ × ℝ} (hs : SameStrength reg ps.geoms els c)
    (phi : ℝ) (a : Axis) {d S : ℝ} (hv : axisPlastic br ps phi a = .ok (d, S)) :
    ∃ M, IsLimitMoment (strengthParts els) (fun q => axisCoord phi q a) M ∧
      S - tol d * squashLoad (strengthParts els) ≤ M ∧ M ≤ S + 2 * tol d * squashLoad (strengthParts els) := by
  have hu := continuous_coord phi a
  obtain ⟨z', hz'⟩ := mesh_balanced hp hne hy phi a
  obtain ⟨hM, hmin⟩ := balanced_limit (goodParts_mesh hy) hu hz'
  refine ⟨_, hM, ?_⟩
  obtain ⟨hF, hY⟩ := poly_mesh hs phi a
  rcases C34_plastic_axis h hbr phi a with ⟨he, -⟩ | ⟨d', S', hv', ⟨z, hz, hzd⟩, -, hS1, hS2⟩
  · rw [hv] at he; cases he
  · rw [hv] at hv'
    obtain ⟨rfl, rfl⟩ : d = d' ∧ S = S' := by simpa using hv'
    have gp := goodParts_poly h
    obtain ⟨-, hmin'⟩ := balanced_limit gp hu (z := z) (by
      simpa [polyParts, yieldForce, Function.comp_def] using hz)
    have hI : yieldInt reg ps.geoms (fun q => |axisCoord phi q a - d|)
        = yieldDist (polyParts reg ps.geoms) (fun q => axisCoord phi q a) d := by
      simp [yieldInt, yieldDist, polyParts, Function.comp_def]
    have e : yieldDist (strengthParts els) (fun q => axisCoord phi q a) z'
        = yieldDist (polyParts reg ps.geoms) (fun q => axisCoord phi q a) z := by
      apply le_antisymm
      · rw [hY]; exact hmin _
      · have := hmin' (z' - axisCoord phi c a)
        rw [hY (z' - _), sub_add_cancel] at this
        exact this
    have hL := yieldDist_lipschitz gp hu d z
    have hF' : squashLoad (polyParts reg ps.geoms) = squashLoad (strengthParts els) := by
      rw [← hF]; simp [squashLoad, polyParts, yieldForce, Function.comp_def]
    have h0 : 0 ≤ squashLoad (strengthParts els) := by rw [← hF]; exact h.force.le
    rw [hF'] at hL
    rw [hF, hI] at hS2
    rw [hI] at hS1
    have := mul_le_mul_of_nonneg_right hzd h0
    have := hmin' d
    rw [e]
    constructor <;> linarith

/-- What a plastic analysis of a section needs: a proper mesh with positive strengths and moduli, polygons that are the meshed
region with the same strengths, polygon operations and a root finder that do what they promise, and the results
of the geometric analysis. -/
structure PlasticSetup {P : Type} (env : Env P) (r : GeomResults) (reg : P → Set (ℝ × ℝ)) (tol : ℝ → ℝ)
    (st : Store env.sec.numNodes) : Prop where
  good : GoodSection env.sec
  physical : Physical env.sec.elements
  geometric : env.sec.geometricAnalysis = .ok r
  grouped : Grouped env.sec
  strength : ∀ g ∈ env.sec.groups, 0 < g.material.val.yieldStrength ∧ 0 < g.material.val.elasticModulus
  materials : ∀ t ∈ env.sec.elements, ∃ m ∈ env.sec.materials, t.material = m.val
  same : ∃ c, SameStrength reg env.plastic.geoms env.sec.elements c
  plastic : PlasticOk env.plastic reg
  root : RootFinder tol env.brentq
  stored : HoldsGeom env.perimeter r st

theorem PlasticSetup.yields {P : Type} {env : Env P} {r : GeomResults} {reg : P → Set (ℝ × ℝ)} {tol : ℝ → ℝ}
    {st : Store env.sec.numNodes} (h : PlasticSetup env r reg tol st) :
    ∀ t ∈ env.sec.elements, 0 < t.material.yieldStrength := by
  intro t ht
  have := h.grouped.partition.mem_iff.2 ht
  rw [List.mem_flatMap] at this
  obtain ⟨g, hg, htg⟩ := this
  rw [h.grouped.material g hg t htg]
  exact (h.strength g hg).1

/-- **C73**: after a geometric analysis, a plastic analysis either raises `RuntimeError` because the root search did not
converge, or stores for every axis a plastic moment `S` (the plastic modulus if all strengths are one) that is the
largest moment of all stress distributions within the yield strength and without axial force, up to the tolerance of the
search. -/
theorem C73_limit_moment {P : Type} (env : Env P) {r : GeomResults} {reg : P → Set (ℝ × ℝ)} {tol : ℝ → ℝ}
    {st : Store env.sec.numNodes} (h : PlasticSetup env r reg tol st) :
    ((env.plasticAnalysis.run.run st).1 = .error .runtimeError ∧
      ∃ f lo hi q, env.brentq f lo hi = .ok q ∧ q.converged = false) ∨
    ((env.plasticAnalysis.run.run st).1 = .ok () ∧ ∀ a, ∃ d S M,
      (env.plasticAnalysis.run.run st).2.val (axisFields a).1 = some d ∧
      (env.plasticAnalysis.run.run st).2.val (axisFields a).2.1 = some S ∧
      IsLimitMoment (strengthParts env.sec.elements) (fun q => axisCoord r.cent.phi q a) M ∧
      S - tol d * squashLoad (strengthParts env.sec.elements) ≤ M ∧
      M ≤ S + 2 * tol d * squashLoad (strengthParts env.sec.elements)) := by
  obtain ⟨c, hsame⟩ := h.same
  rcases C35_shape_factors env h.good h.physical h.geometric h.grouped h.strength h.materials hsame h.plastic h.root
    h.stored with he | ⟨hok, hall⟩
  · exact .inl he
  · refine .inr ⟨hok, fun a => ?_⟩
    have hP := fun a => C34_plastic_axis h.plastic h.root r.cent.phi a
    have hv : ∀ a, ∃ v, axisPlastic env.brentq env.plastic r.cent.phi a = .ok v := by
      by_contra hn
      push Not at hn
      obtain ⟨a, ha⟩ := hn
      have hd : ∀ a, axisPlastic env.brentq env.plastic r.cent.phi a = .error .runtimeError ∨
          ∃ v, axisPlastic env.brentq env.plastic r.cent.phi a = .ok v := by
        intro a
        rcases hP a with ⟨he, -⟩ | ⟨d, S, hv, -⟩
        · exact .inl he
        · exact .inr ⟨_, hv⟩
      have := exec_plastic_error env hd ⟨a, (hd a).resolve_right (fun ⟨v, hv⟩ => ha v hv)⟩ h.stored
      rw [hok] at this
      cases this
    choose v hv using hv
    have hZ : ∀ a, 0 < (axisZ r a).1 ∧ 0 < (axisZ r a).2 := by
      intro a
      obtain ⟨dp, dm, h1, h2, -, -, hz⟩ := C12_moduli h.geometric h.physical h.good a
      have hI : 0 < axisInertia r a := by
        obtain ⟨-, -, h1, h2, h3, h4, h5, -⟩ := C09_positive h.geometric h.physical
        cases a
        · exact h1
        · exact h2
        · exact lt_of_lt_of_le h5 h4
        · exact h5
      rw [hz]
      exact ⟨div_pos hI h1, div_pos hI h2⟩
    have hst := exec_plastic env hv (fun a => ⟨(hZ a).1.ne', (hZ a).2.ne'⟩)
      (fun _ a => (yield_le h.good h.physical h.geometric h.grouped h.strength hsame a 0).1.ne') h.stored
    have hst : env.plasticAnalysis.run.run st = (.ok (), st.set (plasticValues env r v)) := hst
    obtain ⟨M, hM⟩ := limit_axis h.plastic h.root h.physical.proper h.physical.nonempty h.yields hsame r.cent.phi a
      (d := (v a).1) (S := (v a).2) (hv a)
    refine ⟨(v a).1, (v a).2, M, ?_, ?_, hM⟩ <;> rw [hst] <;>
      cases a <;> simp [set_val, axisFields, plasticValues, assign_cons, assign_nil]

/-! ### Images of sections -/

theorem yieldDist_image {n n' : ℕ} {a b c d : ℝ} (e f : ℝ) (hD : a * d - b * c ≠ 0) {els : List (Tri6 n)}
    {els' : List (Tri6 n')} (hno : NoOverlap els) (hno' : NoOverlap els')
    (him : ImageUnder (affine a b c d e f) els els') {u u' : ℝ × ℝ → ℝ} (hu : Continuous u) (hu' : Continuous u')
    {κ c0 : ℝ} (h : ∀ p, u' (affine a b c d e f p) = κ * u p + c0) (x : ℝ) :
    yieldDist (strengthParts els') u' (κ * x + c0)
      = |a * d - b * c| * |κ| * yieldDist (strengthParts els) u x := by
  obtain ⟨E, E', hE, hE', hEE⟩ := him.field Material.yieldStrength
  have e1 := (sum_integral hno hE (f := fun p => |u p - x|) (by fun_prop)).2
  have e2 := (sum_integral hno' hE' (f := fun p => |u' p - (κ * x + c0)|) (by fun_prop)).2
  simp only [yieldDist, strengthParts, List.map_map, Function.comp_def, mul_comm (Material.yieldStrength _)]
  rw [e1, e2, him.region, image_integral e f hD (measurable_region els), mul_assoc, ← integral_const_mul,
    ← integral_const_mul, ← integral_const_mul]
  refine integral_congr_ae (Filter.Eventually.of_forall fun p => ?_)
  simp only [hEE, h]
  rw [show κ * u p + c0 - (κ * x + c0) = κ * (u p - x) by ring, abs_mul]
  ring

theorem limit_image {n n' : ℕ} {a b c d : ℝ} (e f : ℝ) (hD : a * d - b * c ≠ 0) {els : List (Tri6 n)}
    {els' : List (Tri6 n')} (hno : NoOverlap els) (hno' : NoOverlap els')
    (him : ImageUnder (affine a b c d e f) els els') (hp : ∀ t ∈ els, Proper t.coords) (hne : els ≠ [])
    (hy : ∀ t ∈ els, 0 < t.material.yieldStrength) (hp' : ∀ t ∈ els', Proper t.coords) (hne' : els' ≠ [])
    (hy' : ∀ t ∈ els', 0 < t.material.yieldStrength) {phi phi' : ℝ} {ax ax' : Axis} {κ c0 : ℝ} (hκ : κ ≠ 0)
    (h : ∀ p, axisCoord phi' (affine a b c d e f p) ax' = κ * axisCoord phi p ax + c0) {M : ℝ}
    (hM : IsLimitMoment (strengthParts els) (fun q => axisCoord phi q ax) M) :
    IsLimitMoment (strengthParts els') (fun q => axisCoord phi' q ax') (|a * d - b * c| * |κ| * M) := by
  have hu := continuous_coord phi ax
  have hu' := continuous_coord phi' ax'
  obtain ⟨z, hz⟩ := mesh_balanced hp hne hy phi ax
  obtain ⟨hL, hmin⟩ := balanced_limit (goodParts_mesh hy) hu hz
  obtain ⟨z', hz'⟩ := mesh_balanced hp' hne' hy' phi' ax'
  obtain ⟨hL', hmin'⟩ := balanced_limit (goodParts_mesh hy') hu' hz'
  have hI := yieldDist_image e f hD hno hno' him hu hu' h
  have hpos : 0 < |a * d - b * c| * |κ| := mul_pos (abs_pos.2 hD) (abs_pos.2 hκ)
  rw [hM.unique hL]
  convert hL' using 1
  apply le_antisymm
  · have e1 : z' = κ * ((z' - c0) / κ) + c0 := by field_simp; ring
    rw [e1, hI]
    exact mul_le_mul_of_nonneg_left (hmin _) hpos.le
  · rw [← hI]
    exact hmin' _

/-- Two sections whose plastic analyses both succeed and have limit moments in the ratio `m`. -/
def LimitRatio {P P' : Type} (env : Env P) (env' : Env P') (r r' : GeomResults) (tol tol' : ℝ → ℝ)
    (st : Store env.sec.numNodes) (st' : Store env'.sec.numNodes) (ax ax' : Axis) (m : ℝ) : Prop :=
  ∃ d S d' S' M,
    (env.plasticAnalysis.run.run st).2.val (axisFields ax).1 = some d ∧
    (env.plasticAnalysis.run.run st).2.val (axisFields ax).2.1 = some S ∧
    (env'.plasticAnalysis.run.run st').2.val (axisFields ax').1 = some d' ∧
    (env'.plasticAnalysis.run.run st').2.val (axisFields ax').2.1 = some S' ∧
    IsLimitMoment (strengthParts env.sec.elements) (fun q => axisCoord r.cent.phi q ax) M ∧
    IsLimitMoment (strengthParts env'.sec.elements) (fun q => axisCoord r'.cent.phi q ax') (m * M) ∧
    |S - M| ≤ 2 * tol d * squashLoad (strengthParts env.sec.elements) ∧
    |S' - m * M| ≤ 2 * tol' d' * squashLoad (strengthParts env'.sec.elements)

theorem ratio_of_image {P P' : Type} {env : Env P} {env' : Env P'} {r r' : GeomResults} {reg : P → Set (ℝ × ℝ)}
    {reg' : P' → Set (ℝ × ℝ)} {tol tol' : ℝ → ℝ} {st : Store env.sec.numNodes} {st' : Store env'.sec.numNodes}
    (h : PlasticSetup env r reg tol st) (h' : PlasticSetup env' r' reg' tol' st')
    (hok : (env.plasticAnalysis.run.run st).1 = .ok ()) (hok' : (env'.plasticAnalysis.run.run st').1 = .ok ())
    (hno : NoOverlap env.sec.elements) (hno' : NoOverlap env'.sec.elements) {a b c d e f : ℝ} (hD : a * d - b * c ≠ 0)
    (him : ImageUnder (affine a b c d e f) env.sec.elements env'.sec.elements) {ax ax' : Axis} {κ c0 : ℝ} (hκ : κ ≠ 0)
    (hu : ∀ p, axisCoord r'.cent.phi (affine a b c d e f p) ax' = κ * axisCoord r.cent.phi p ax + c0) :
    LimitRatio env env' r r' tol tol' st st' ax ax' (|a * d - b * c| * |κ|) := by
  rcases C73_limit_moment env h with ⟨he, -⟩ | ⟨-, hall⟩
  · rw [hok] at he; cases he
  rcases C73_limit_moment env' h' with ⟨he, -⟩ | ⟨-, hall'⟩
  · rw [hok'] at he; cases he
  obtain ⟨x, S, M, g1, g2, g3, g4, g5⟩ := hall ax
  obtain ⟨x', S', M', k1, k2, k3, k4, k5⟩ := hall' ax'
  have hM := limit_image e f hD hno hno' him h.physical.proper h.physical.nonempty h.yields h'.physical.proper
    h'.physical.nonempty h'.yields hκ hu g3
  rw [k3.unique hM] at k4 k5
  refine ⟨x, S, x', S', M, g1, g2, k1, k2, g3, hM, ?_, ?_⟩ <;> rw [abs_le] <;> constructor <;> nlinarith

/-- **C73** (translation): shifting a section changes no plastic moment, up to the tolerance of the root search. -/
theorem C73_translation {P P' : Type} (dx dy : ℝ) {env : Env P} {env' : Env P'} {r r' : GeomResults}
    {reg : P → Set (ℝ × ℝ)} {reg' : P' → Set (ℝ × ℝ)} {tol tol' : ℝ → ℝ} {st : Store env.sec.numNodes}
    {st' : Store env'.sec.numNodes} (h : PlasticSetup env r reg tol st) (h' : PlasticSetup env' r' reg' tol' st')
    (hok : (env.plasticAnalysis.run.run st).1 = .ok ()) (hok' : (env'.plasticAnalysis.run.run st').1 = .ok ())
    (hno : NoOverlap env.sec.elements) (hno' : NoOverlap env'.sec.elements)
    (him : ImageUnder (translation dx dy) env.sec.elements env'.sec.elements) (ax : Axis) :
    LimitRatio env env' r r' tol tol' st st' ax ax 1 := by
  obtain ⟨-, -, -, -, -, -, -, -, -, -, -, -, -, -, hphi, -⟩ :=
    C06_translation dx dy h.geometric h'.geometric h.physical h'.physical hno hno' him
  have := ratio_of_image h h' hok hok' hno hno' (by norm_num) him (ax := ax) (ax' := ax) (κ := 1)
    (c0 := axisCoord r.cent.phi (dx, dy) ax) one_ne_zero (fun p => by
      rw [hphi]
      cases ax <;> simp only [axisCoord, affine, rotX, rotY] <;> ring)
  norm_num at this
  exact this

/-- **C73** (scaling): scaling a section by `k` multiplies all plastic moments by `k³`. -/
theorem C73_scaling {P P' : Type} {k : ℝ} (hk : 0 < k) {env : Env P} {env' : Env P'} {r r' : GeomResults}
    {reg : P → Set (ℝ × ℝ)} {reg' : P' → Set (ℝ × ℝ)} {tol tol' : ℝ → ℝ} {st : Store env.sec.numNodes}
    {st' : Store env'.sec.numNodes} (h : PlasticSetup env r reg tol st) (h' : PlasticSetup env' r' reg' tol' st')
    (hok : (env.plasticAnalysis.run.run st).1 = .ok ()) (hok' : (env'.plasticAnalysis.run.run st').1 = .ok ())
    (hno : NoOverlap env.sec.elements) (hno' : NoOverlap env'.sec.elements)
    (him : ImageUnder (scaling k) env.sec.elements env'.sec.elements) (ax : Axis) :
    LimitRatio env env' r r' tol tol' st st' ax ax (k ^ 3) := by
  obtain ⟨-, -, -, -, -, -, -, -, -, -, -, -, -, -, -, hphi, -⟩ :=
    C08_scaling hk h.geometric h'.geometric h.physical h'.physical hno hno' him
  have := ratio_of_image h h' hok hok' hno hno' (by nlinarith) him (ax := ax) (ax' := ax) (κ := k)
    (c0 := 0) hk.ne' (fun p => by
      rw [hphi]
      cases ax <;> simp only [axisCoord, affine, rotX, rotY] <;> ring)
  rwa [show |k * k - 0 * 0| * |k| = k ^ 3 by rw [mul_zero, sub_zero, abs_of_pos hk, abs_of_pos (mul_pos hk hk)]; ring]
    at this

/-- **C73** (rotation): turning a section changes no plastic moment about its principal axes, where these are
determined. -/
theorem C73_rotation {P P' : Type} (θ : ℝ) {env : Env P} {env' : Env P'} {r r' : GeomResults}
    {reg : P → Set (ℝ × ℝ)} {reg' : P' → Set (ℝ × ℝ)} {tol tol' : ℝ → ℝ} {st : Store env.sec.numNodes}
    {st' : Store env'.sec.numNodes} (h : PlasticSetup env r reg tol st) (h' : PlasticSetup env' r' reg' tol' st')
    (hok : (env.plasticAnalysis.run.run st).1 = .ok ()) (hok' : (env'.plasticAnalysis.run.run st').1 = .ok ())
    (hno : NoOverlap env.sec.elements) (hno' : NoOverlap env'.sec.elements)
    (him : ImageUnder (rotation θ) env.sec.elements env'.sec.elements) (hne : r.cent.i22 < r.cent.i11)
    (hbr : ¬ |r.cent.ixxC - r.cent.i11| < 1e-12 * r.cent.i11)
    (hbr' : ¬ |r'.cent.ixxC - r'.cent.i11| < 1e-12 * r'.cent.i11) :
    LimitRatio env env' r r' tol tol' st st' .a11 .a11 1 ∧ LimitRatio env env' r r' tol tol' st st' .a22 .a22 1 := by
  obtain ⟨m, hm⟩ := C07_angle θ h.geometric h'.geometric h.physical h'.physical hno hno' him hne hbr hbr'
  have hang : r'.cent.phi * Real.pi / 180 = r.cent.phi * Real.pi / 180 + θ + m * Real.pi := by
    rw [hm]
    have := Real.pi_ne_zero
    field_simp
  have hs0 : Real.sin (m * Real.pi) = 0 := Real.sin_int_mul_pi m
  have hκ : |Real.cos (m * Real.pi)| = 1 := Real.abs_cos_int_mul_pi m
  have hne : Real.cos (m * Real.pi) ≠ 0 := by intro h0; rw [h0] at hκ; norm_num at hκ
  have hdet : Real.cos θ * Real.cos θ - -Real.sin θ * Real.sin θ = 1 := by
    linarith [Real.sin_sq_add_cos_sq θ]
  have hsc := Real.sin_sq_add_cos_sq θ
  constructor
  · have := ratio_of_image h h' hok hok' hno hno' (by rw [hdet]; norm_num) him (ax := .a11) (ax' := .a11)
      (κ := Real.cos (m * Real.pi)) (c0 := 0) hne (fun p => by
        simp only [axisCoord, affine, rotY, hang, Real.cos_add, Real.sin_add, hs0]
        linear_combination Real.cos (m * Real.pi) * (Real.cos (r.cent.phi * Real.pi / 180) * p.2
          - Real.sin (r.cent.phi * Real.pi / 180) * p.1) * hsc)
    rwa [hdet, hκ, abs_one, one_mul] at this
  · have := ratio_of_image h h' hok hok' hno hno' (by rw [hdet]; norm_num) him (ax := .a22) (ax' := .a22)
      (κ := Real.cos (m * Real.pi)) (c0 := 0) hne (fun p => by
        simp only [axisCoord, affine, rotX, hang, Real.cos_add, Real.sin_add, hs0]
        linear_combination Real.cos (m * Real.pi) * (Real.cos (r.cent.phi * Real.pi / 180) * p.1
          + Real.sin (r.cent.phi * Real.pi / 180) * p.2) * hsc)
    rwa [hdet, hκ, abs_one, one_mul] at this

/-- **C73** (quarter turn and mirroring, geometric axes): mirroring a section keeps the plastic moments about both axes and
turning it by 90° exchanges them. -/
theorem C73_symmetry {P P' : Type} {env : Env P} {env' : Env P'} {r r' : GeomResults}
    {reg : P → Set (ℝ × ℝ)} {reg' : P' → Set (ℝ × ℝ)} {tol tol' : ℝ → ℝ} {st : Store env.sec.numNodes}
    {st' : Store env'.sec.numNodes} (h : PlasticSetup env r reg tol st) (h' : PlasticSetup env' r' reg' tol' st')
    (hok : (env.plasticAnalysis.run.run st).1 = .ok ()) (hok' : (env'.plasticAnalysis.run.run st').1 = .ok ())
    (hno : NoOverlap env.sec.elements) (hno' : NoOverlap env'.sec.elements) :
    (ImageUnder mirrorX env.sec.elements env'.sec.elements ∨ ImageUnder mirrorY env.sec.elements env'.sec.elements →
      LimitRatio env env' r r' tol tol' st st' .xx .xx 1 ∧ LimitRatio env env' r r' tol tol' st st' .yy .yy 1) ∧
    (ImageUnder (affine 0 (-1) 1 0 0 0) env.sec.elements env'.sec.elements →
      LimitRatio env env' r r' tol tol' st st' .xx .yy 1 ∧ LimitRatio env env' r r' tol tol' st st' .yy .xx 1) := by
  have key : ∀ {a b c d κ : ℝ} {ax ax' : Axis}, |a * d - b * c| = 1 → |κ| = 1 →
      ImageUnder (affine a b c d 0 0) env.sec.elements env'.sec.elements →
      (∀ p, axisCoord r'.cent.phi (affine a b c d 0 0 p) ax' = κ * axisCoord r.cent.phi p ax + 0) →
      LimitRatio env env' r r' tol tol' st st' ax ax' 1 := by
    intro a b c d κ ax ax' h1 h2 him hu
    have := ratio_of_image h h' hok hok' hno hno' (fun h0 => by rw [h0] at h1; norm_num at h1) him
      (fun h0 => by rw [h0] at h2; norm_num at h2) hu
    rwa [h1, h2, one_mul] at this
  refine ⟨?_, fun him => ⟨?_, ?_⟩⟩
  · rintro (him | him)
    · exact ⟨key (κ := -1) (by norm_num) (by norm_num) him fun p => by simp [axisCoord, affine],
        key (κ := 1) (by norm_num) (by norm_num) him fun p => by simp [axisCoord, affine]⟩
    · exact ⟨key (κ := 1) (by norm_num) (by norm_num) him fun p => by simp [axisCoord, affine],
        key (κ := -1) (by norm_num) (by norm_num) him fun p => by simp [axisCoord, affine]⟩
  · exact key (κ := -1) (by norm_num) (by norm_num) him fun p => by simp [axisCoord, affine]
  · exact key (κ := 1) (by norm_num) (by norm_num) him fun p => by simp [axisCoord, affine]

/-! ### Non-vacuity -/

/-- A section with exact polygon operations and an exact root finder: the plastic analysis succeeds. -/
theorem ex_plastic_setup (s : Section) (hg : GoodSection s) (hph : Physical s.elements) (hgr : Grouped s)
    (hy : ∀ g ∈ s.groups, 0 < g.material.val.yieldStrength ∧ 0 < g.material.val.elasticModulus)
    (hmat : ∀ t ∈ s.elements, ∃ m ∈ s.materials, t.material = m.val) (hn : 0 < s.numNodes) :
    ∃ (env : Env Body) (r : GeomResults) (st : Store env.sec.numNodes), env.sec = s ∧
      PlasticSetup env r Body.set (fun _ => 0) st ∧ (env.plasticAnalysis.run.run st).1 = .ok () := by
  obtain ⟨r, hr⟩ := geometricAnalysis_ok s hn
  have hyt : ∀ t ∈ s.elements, 0 < t.material.yieldStrength := by
    intro t ht
    have := hgr.partition.mem_iff.2 ht
    rw [List.mem_flatMap] at this
    obtain ⟨g, hg, htg⟩ := this
    rw [hgr.material g hg t htg]
    exact (hy g hg).1
  have hS : PlasticSetup (exPlasticEnv s hg.proper (r.cx, r.cy)) r Body.set (fun _ => 0)
      (Store.set (n := s.numNodes) (Store.empty _) (geomValues 6 r)) :=
    ⟨hg, hph, hr, hgr, hy, hmat, ⟨_, bodyPlastic_same s.elements hg.proper (r.cx, r.cy)⟩,
      bodyPlastic_ok s.elements hg.proper (r.cx, r.cy) hph.nonempty hyt, exactRoot_ok,
      holdsGeom_set 6 r (Store.empty s.numNodes)⟩
  refine ⟨_, r, _, rfl, hS, ?_⟩
  rcases C73_limit_moment _ hS with ⟨-, f, lo, hi, q, hq, hcv⟩ | ⟨hok, -⟩
  · exfalso
    change exactRoot f lo hi = .ok q at hq
    unfold exactRoot at hq
    split_ifs at hq
    rw [← Except.ok.inj hq] at hcv
    simp at hcv
  · exact hok

/-- The composite example with its elements changed by a map that keeps materials. -/
theorem ex_grouped_map (F : Tri6 9 → Tri6 9) (hF : ∀ t, (F t).material = t.material) (nodes : Fin 9 → ℝ × ℝ) :
    let s : Section := ⟨9, nodes, exSection.materials, [F exT0, F exT1],
      [⟨⟨0, exConcrete⟩, [F exT0]⟩, ⟨⟨1, exSteel⟩, [F exT1]⟩]⟩
    Grouped s ∧ (∀ g ∈ s.groups, 0 < g.material.val.yieldStrength ∧ 0 < g.material.val.elasticModulus) ∧
    (∀ t ∈ s.elements, ∃ m ∈ s.materials, t.material = m.val) := by
  refine ⟨⟨?_, by simp, ?_⟩, ?_, ?_⟩
  · simpa using exConcrete_ne
  · intro g hg
    simp only [List.mem_cons, List.not_mem_nil, or_false] at hg
    rcases hg with rfl | rfl <;> simp [hF, exT0, exT1]
  · intro g hg
    simp only [List.mem_cons, List.not_mem_nil, or_false] at hg
    rcases hg with rfl | rfl <;> simp [exConcrete, exSteel]
  · intro t ht
    simp only [List.mem_cons, List.not_mem_nil, or_false] at ht
    rcases ht with rfl | rfl <;> simp [hF, exT0, exT1, exSection, exGeom]

/-- The composite example and an image of it, with exact polygon operations and an exact root finder. -/
theorem ex_plastic_pair {φ : ℝ × ℝ → ℝ × ℝ} (F : Tri6 9 → Tri6 9) (hF : ∀ t, (F t).material = t.material)
    (nodes : Fin 9 → ℝ × ℝ) (q1 : Physical [F exT0, F exT1]) (q2 : NoOverlap [F exT0, F exT1])
    (q3 : ∀ t ∈ [F exT0, F exT1], t.coords = gather nodes t.nodeIds) (q5 : ImageUnder φ [exT0, exT1] [F exT0, F exT1]) :
    ∃ (env env' : Env Body) (r r' : GeomResults) (st : Store env.sec.numNodes) (st' : Store env'.sec.numNodes),
      env.sec = exSection ∧ PlasticSetup env r Body.set (fun _ => 0) st ∧ PlasticSetup env' r' Body.set (fun _ => 0) st' ∧
      (env.plasticAnalysis.run.run st).1 = .ok () ∧ (env'.plasticAnalysis.run.run st').1 = .ok () ∧
      NoOverlap env.sec.elements ∧ NoOverlap env'.sec.elements ∧ ImageUnder φ env.sec.elements env'.sec.elements := by
  obtain ⟨g1, g2, g3⟩ := ex_grouped_map id (fun _ => rfl) exV
  obtain ⟨g1', g2', g3'⟩ := ex_grouped_map F hF nodes
  obtain ⟨env, r, st, he, h1, h2⟩ := ex_plastic_setup exSection exSection_good exSection_physical g1 g2 g3
    (by simp [exSection])
  obtain ⟨env', r', st', he', h1', h2'⟩ := ex_plastic_setup _ ⟨q1.proper, q3⟩ q1 g1' g2' g3' (by simp)
  refine ⟨env, env', r, r', st, st', he, h1, h1', h2, h2', ?_, ?_, ?_⟩
  · rw [he]; exact exNoOverlap
  · rw [he']; exact q2
  · rw [he, he']; exact q5

theorem ex_plastic_affine {a b c d : ℝ} (x y : ℝ) (hD : 0 < a * d - b * c) :
    ∃ (env env' : Env Body) (r r' : GeomResults) (st : Store env.sec.numNodes) (st' : Store env'.sec.numNodes),
      env.sec = exSection ∧ PlasticSetup env r Body.set (fun _ => 0) st ∧ PlasticSetup env' r' Body.set (fun _ => 0) st' ∧
      (env.plasticAnalysis.run.run st).1 = .ok () ∧ (env'.plasticAnalysis.run.run st').1 = .ok () ∧
      NoOverlap env.sec.elements ∧ NoOverlap env'.sec.elements ∧
      ImageUnder (affine a b c d x y) env.sec.elements env'.sec.elements := by
  obtain ⟨q1, q2, q3, -, q5⟩ := map_image x y hD exSection_physical exNoOverlap exSection_good exNodesUsed
  exact ex_plastic_pair (Tri6.map (affine a b c d x y)) (fun _ => rfl) (fun i => affine a b c d x y (exV i)) q1 q2
    q3.coords q5

/-- The plastic moments of the composite example are the limit moments, and the example scaled by 2, shifted and mirrored
meets the hypotheses of the theorems on images. -/
example :
    ∃ (env : Env Body) (r : GeomResults) (st : Store env.sec.numNodes), env.sec = exSection ∧
      ∀ a, ∃ S, (env.plasticAnalysis.run.run st).2.val (axisFields a).2.1 = some S ∧
        IsLimitMoment (strengthParts env.sec.elements) (fun q => axisCoord r.cent.phi q a) S := by
  obtain ⟨env, -, r, -, st, -, he, h, -, hok, -⟩ := ex_plastic_affine (a := 1) (b := 0) (c := 0) (d := 1) 0 0 (by norm_num)
  refine ⟨env, r, st, he, fun a => ?_⟩
  rcases C73_limit_moment env h with ⟨hb, -⟩ | ⟨-, H⟩
  · rw [hok] at hb; simp at hb
  · obtain ⟨d, S, M, -, h2, h3, h4, h5⟩ := H a
    simp only [zero_mul, sub_zero, mul_zero, add_zero] at h4 h5
    exact ⟨S, h2, le_antisymm h4 h5 ▸ h3⟩

example : ∃ (env env' : Env Body) (r r' : GeomResults) (st : Store env.sec.numNodes) (st' : Store env'.sec.numNodes),
    env.sec = exSection ∧ ∀ ax, LimitRatio env env' r r' (fun _ => 0) (fun _ => 0) st st' ax ax (2 ^ 3) := by
  obtain ⟨env, env', r, r', st, st', he, h, h', hok, hok', hno, hno', him⟩ :=
    ex_plastic_affine (a := 2) (b := 0) (c := 0) (d := 2) 0 0 (by norm_num)
  exact ⟨env, env', r, r', st, st', he, C73_scaling two_pos h h' hok hok' hno hno' him⟩

example : ∃ (env env' : Env Body) (r r' : GeomResults) (st : Store env.sec.numNodes) (st' : Store env'.sec.numNodes),
    env.sec = exSection ∧ ∀ ax, LimitRatio env env' r r' (fun _ => 0) (fun _ => 0) st st' ax ax 1 := by
  obtain ⟨env, env', r, r', st, st', he, h, h', hok, hok', hno, hno', him⟩ :=
    ex_plastic_affine (a := 1) (b := 0) (c := 0) (d := 1) 5 (-3) (by norm_num)
  exact ⟨env, env', r, r', st, st', he, C73_translation 5 (-3) h h' hok hok' hno hno' him⟩

/-- A quarter turn: about the principal axes, and with the geometric axes exchanged. -/
example : ∃ (env env' : Env Body) (r r' : GeomResults) (st : Store env.sec.numNodes) (st' : Store env'.sec.numNodes),
    env.sec = exSection ∧ LimitRatio env env' r r' (fun _ => 0) (fun _ => 0) st st' .a11 .a11 1 ∧
    LimitRatio env env' r r' (fun _ => 0) (fun _ => 0) st st' .a22 .a22 1 ∧
    LimitRatio env env' r r' (fun _ => 0) (fun _ => 0) st st' .xx .yy 1 := by
  obtain ⟨env, env', r, r', st, st', he, h, h', hok, hok', hno, hno', him⟩ :=
    ex_plastic_affine (a := 0) (b := -1) (c := 1) (d := 0) 0 0 (by norm_num)
  have him2 : ImageUnder (rotation (Real.pi / 2)) env.sec.elements env'.sec.elements := by
    have : rotation (Real.pi / 2) = affine 0 (-1) 1 0 0 0 := by simp [rotation]
    rw [this]; exact him
  obtain ⟨i1, i2, i3, i4, i5, i6⟩ := ex_inertias (he ▸ h.geometric)
  obtain ⟨-, -, -, -, j1, -, -, j2, -⟩ :=
    C07_rotation (Real.pi / 2) h.geometric h'.geometric h.physical h'.physical hno hno' him2
  have j1 : r'.cent.ixxC = 12980 / 207 := by rw [j1, momentAbout, i1, i2, i3]; simp
  obtain ⟨k1, k2⟩ := C73_rotation (Real.pi / 2) h h' hok hok' hno hno' him2 (by linarith)
    (by rw [i1, abs_of_neg (by linarith)]; push Not; linarith)
    (by rw [j1, j2, abs_of_neg (by linarith)]; push Not; linarith)
  exact ⟨env, env', r, r', st, st', he, k1, k2, ((C73_symmetry h h' hok hok' hno hno').2 him).1⟩

example : ∃ (env env' : Env Body) (r r' : GeomResults) (st : Store env.sec.numNodes) (st' : Store env'.sec.numNodes),
    env.sec = exSection ∧ LimitRatio env env' r r' (fun _ => 0) (fun _ => 0) st st' .xx .xx 1 ∧
    LimitRatio env env' r r' (fun _ => 0) (fun _ => 0) st st' .yy .yy 1 := by
  obtain ⟨q1, q2, q5⟩ := mapFlip_image (a := -1) (b := 0) (c := 0) (d := 1) 0 0 (by norm_num) exSection_physical exNoOverlap
  obtain ⟨env, env', r, r', st, st', he, h, h', hok, hok', hno, hno', him⟩ :=
    ex_plastic_pair (Tri6.mapFlip mirrorY) (fun _ => rfl) (fun i => mirrorY (exV i)) q1 q2 (fun t ht => by
      obtain ⟨u, hu, rfl⟩ := List.mem_map.1 (show t ∈ [exT0, exT1].map (Tri6.mapFlip mirrorY) from ht)
      simp only [Tri6.mapFlip, exSection_good.coords u hu]
      rfl) q5
  exact ⟨env, env', r, r', st, st', he, (C73_symmetry h h' hok hok' hno hno').1 (.inr him)⟩

end SP
