import Verif.Props.Equilibrium

/-!
# C53, C54, C55: solver checks, translation of the warping results, monosymmetry constants
-/

namespace SP

open Spec MeasureTheory

variable {n : ℕ} {els : List (Tri6 n)}

/-! ### C53 -/

theorem maxAbs_isGreatest (u : Fin (n + 1) → ℝ) :
    IsGreatest (Set.range fun i => |u i|) (maxAbs u) := by
  have key : ∀ (l : List ℝ) (a : ℝ), (a ≤ l.foldl max a ∧ ∀ x ∈ l, x ≤ l.foldl max a) ∧
      (l.foldl max a = a ∨ l.foldl max a ∈ l) := by
    intro l
    induction l with
    | nil => intro a; simp
    | cons x l ih =>
      intro a
      obtain ⟨⟨h1, h2⟩, h3⟩ := ih (max a x)
      refine ⟨⟨le_trans (le_max_left _ _) h1, fun y hy => ?_⟩, ?_⟩
      · rcases List.mem_cons.1 hy with rfl | hy
        · exact le_trans (le_max_right _ _) h1
        · exact h2 y hy
      · rcases h3 with h3 | h3
        · rcases max_choice a x with h | h
          · left; rw [List.foldl_cons, h3, h]
          · right; rw [List.foldl_cons, h3, h]; exact List.mem_cons_self ..
        · right; exact List.mem_cons_of_mem _ h3
  obtain ⟨⟨h1, h2⟩, h3⟩ := key (List.ofFn fun i : Fin n => |u i.succ|) |u 0|
  refine ⟨?_, ?_⟩
  · rcases h3 with h3 | h3
    · exact ⟨0, h3.symm⟩
    · obtain ⟨i, hi⟩ := List.mem_ofFn.1 h3
      exact ⟨i.succ, hi⟩
  · rintro _ ⟨i, rfl⟩
    refine Fin.cases h1 (fun i => ?_) i
    exact h2 _ (List.mem_ofFn.2 ⟨i, rfl⟩)

/-- **C53** (what the iterative solver does): whatever vector and flag the conjugate gradient iteration
delivers for the bordered system with load `(f, 0)`,
* it raises `RuntimeError` if the flag is not zero;
* it raises `RuntimeError` if the *signed* multiplier exceeds `tol` times the largest component;
* otherwise it returns exactly the first `n` unknowns.
The missing part: a large *negative* multiplier is accepted, see `C53_violated`. -/
theorem C53_cgs_partial (sv : Solvers) (A : Matrix (Fin (n + 1)) (Fin (n + 1)) ℝ) (f : Fin n → ℝ)
    (tol : ℝ) (u : Fin (n + 1) → ℝ) (info : ℤ) (M : ℝ)
    (hu : sv.cgs A (Fin.snoc (α := fun _ => ℝ) f 0) = (u, info))
    (hM : IsGreatest (Set.range fun i => |u i|) M) (hM0 : 0 < M) :
    (info ≠ 0 → solveCgsLagrange sv A f tol = .error .runtimeError) ∧
    (tol * M < u (Fin.last n) → solveCgsLagrange sv A f tol = .error .runtimeError) ∧
    (info = 0 → u (Fin.last n) ≤ tol * M →
      solveCgsLagrange sv A f tol = .ok fun i => u i.castSucc) := by
  have hm : maxAbs u = M := (maxAbs_isGreatest u).unique hM
  simp only [solveCgsLagrange, hu, hm]
  refine ⟨fun h => if_pos h, fun h => ?_, fun h1 h2 => ?_⟩
  · by_cases hi : info ≠ 0
    · exact if_pos hi
    · rw [if_neg hi, if_pos ((lt_div_iff₀ hM0).2 h)]
  · rw [if_neg (not_not.2 h1), if_neg (not_lt.2 ((div_le_iff₀ hM0).2 h2))]

/-- **C53 violated**: the iterative solver accepts solutions with an arbitrarily wrong multiplier, as
long as it is negative: for every size, system, load and tolerance there is an iteration result with
flag zero whose multiplier has the magnitude of the largest unknown (relative error one), and the
solver returns its first components instead of raising. -/
theorem C53_violated (A : Matrix (Fin (n + 1)) (Fin (n + 1)) ℝ) (f v : Fin n → ℝ) (tol : ℝ)
    (htol : 0 ≤ tol) :
    ∃ (sv : Solvers) (u : Fin (n + 1) → ℝ),
      sv.cgs A (Fin.snoc (α := fun _ => ℝ) f 0) = (u, 0) ∧
      (∀ i, u i.castSucc = v i) ∧ u (Fin.last n) < 0 ∧
      IsGreatest (Set.range fun i => |u i|) |u (Fin.last n)| ∧
      solveCgsLagrange sv A f tol = .ok v := by
  let b : ℝ := 1 + ∑ i, |v i|
  have hb : 0 < b := by
    have : 0 ≤ ∑ i, |v i| := Finset.sum_nonneg fun _ _ => abs_nonneg _
    positivity
  let u : Fin (n + 1) → ℝ := Fin.snoc (α := fun _ => ℝ) v (-b)
  have hul : u (Fin.last n) = -b := Fin.snoc_last ..
  have huc : ∀ i, u (Fin.castSucc i) = v i := fun i => Fin.snoc_castSucc ..
  let sv : Solvers := ⟨fun _ b => b, fun {m} _ _ =>
    (fun k => if h : k.val < n + 1 then u ⟨k.val, h⟩ else 0, 0)⟩
  have hs : sv.cgs A (Fin.snoc (α := fun _ => ℝ) f 0) = (u, 0) := by
    refine Prod.ext (funext fun k => ?_) rfl
    simp only [sv]
    rw [dif_pos k.isLt]
  have hg : IsGreatest (Set.range fun i => |u i|) |u (Fin.last n)| := by
    refine ⟨⟨_, rfl⟩, ?_⟩
    rintro _ ⟨i, rfl⟩
    refine Fin.lastCases le_rfl (fun i => ?_) i
    simp only [hul, huc, abs_neg, abs_of_pos hb]
    have := Finset.single_le_sum (f := fun i => |v i|) (fun _ _ => abs_nonneg _) (Finset.mem_univ i)
    simp only [b]
    linarith
  have hpos : 0 < |u (Fin.last n)| := by rw [hul, abs_neg, abs_of_pos hb]; exact hb
  refine ⟨sv, u, hs, huc, by rw [hul]; linarith, hg, ?_⟩
  rw [(C53_cgs_partial sv A f tol u 0 _ hs hg hpos).2.2 rfl ?_]
  · exact congrArg _ (funext huc)
  · rw [hul]
    have := mul_nonneg htol (abs_nonneg (-b))
    linarith

/-- **C53** (direct solver): the direct solver tests the magnitude: it raises `RuntimeError` exactly
when the multiplier exceeds, in magnitude, both `1e-7` times the largest component and ten times the
machine epsilon, and otherwise returns the first `n` unknowns. -/
theorem C53_direct (sv : Solvers) (A : Matrix (Fin (n + 1)) (Fin (n + 1)) ℝ) (f : Fin n → ℝ)
    (u : Fin (n + 1) → ℝ) (M : ℝ) (hu : sv.spsolve A (Fin.snoc (α := fun _ => ℝ) f 0) = u)
    (hM : IsGreatest (Set.range fun i => |u i|) M) (hM0 : 0 < M) :
    (1e-7 * M < |u (Fin.last n)| ∧ 10 * (2⁻¹ ^ 52) < |u (Fin.last n)| →
      solveDirectLagrange sv A f = .error .runtimeError) ∧
    (|u (Fin.last n)| ≤ 1e-7 * M ∨ |u (Fin.last n)| ≤ 10 * (2⁻¹ ^ 52) →
      solveDirectLagrange sv A f = .ok fun i => u i.castSucc) := by
  have hm : maxAbs u = M := (maxAbs_isGreatest u).unique hM
  simp only [solveDirectLagrange, hu, hm, floatEps]
  refine ⟨fun h => if_pos ⟨(lt_div_iff₀ hM0).2 h.1, h.2⟩, fun h => if_neg ?_⟩
  rintro ⟨h1, h2⟩
  have h1 := (lt_div_iff₀ hM0).1 h1
  rcases h with h | h <;> linarith

/-- Non-vacuity: a system of two unknowns whose iteration result is accepted, and one rejected. -/
example : ∃ (sv : Solvers) (A : Matrix (Fin 3) (Fin 3) ℝ) (f : Fin 2 → ℝ),
    solveCgsLagrange sv A f 1e-5 = .ok ![1, 2] ∧ solveCgsLagrange sv 0 f 1e-5 = .error .runtimeError := by
  classical
  let sv : Solvers := ⟨fun _ b => b, fun {m} A _ =>
    if A = 0 then (fun _ => 1, 0) else (fun k => ([1, 2, 0] : List ℝ).getD k.val 0, 0)⟩
  have hA : (1 : Matrix (Fin 3) (Fin 3) ℝ) ≠ 0 := one_ne_zero
  refine ⟨sv, 1, ![0, 0], ?_, ?_⟩
  · have := (C53_cgs_partial sv 1 ![0, 0] 1e-5 (fun k => ([1, 2, 0] : List ℝ).getD k.val 0) 0 2
      (by simp only [sv]; rw [if_neg hA]) ⟨⟨1, by simp⟩, ?_⟩ (by norm_num)).2.2 rfl
      (by simp [Fin.last]; norm_num)
    · rw [this]; congr 1; funext i; fin_cases i <;> simp
    · rintro _ ⟨i, rfl⟩; fin_cases i <;> simp
  · exact (C53_cgs_partial sv 0 ![0, 0] 1e-5 (fun _ => 1) 0 1 (by simp [sv]) ⟨⟨0, by simp⟩, by
      rintro _ ⟨i, rfl⟩; simp⟩ (by norm_num)).2.1 (by norm_num)

/-! ### C54 -/

/-- **C54** Translating the section (same mesh, all nodes moved by `(dx, dy)`) leaves the complete
result of the warping analysis unchanged: torsion constant, warping constant, shear areas,
monosymmetry constants, the shear centres relative to the centroid and the three nodal functions; in
particular the analysis also fails in exactly the same cases.  This holds for both solvers and for every
behaviour of the linear algebra libraries. -/
theorem C54_translation (dx dy : ℝ) (s : Section) (hs : Physical s.elements)
    (hno : NoOverlap s.elements) {r r' : GeomResults} (hr : s.geometricAnalysis = .ok r)
    (hr' : (s.map (translation dx dy)).geometricAnalysis = .ok r') (sv : Solvers) (ty : SolverType) :
    (s.map (translation dx dy)).warping sv ty r' = s.warping sv ty r := by
  obtain ⟨i1, i2⟩ := image_of_elements (a := 1) (b := 0) (c := 0) (d := 1) dx dy (by norm_num)
    (Tri6.map (translation dx dy)) s.elements hno (fun t => elemRegion_map _ _ _ _ _ _ _) (fun t => rfl)
  have hs' : Physical (s.map (translation dx dy)).elements := by
    refine ⟨by simpa [Section.map] using hs.nonempty, fun t ht => ?_, fun t ht => ?_⟩
    · obtain ⟨u, hu, rfl⟩ := List.mem_map.1 ht
      exact proper_map dx dy (by norm_num) (hs.proper u hu)
    · obtain ⟨u, hu, rfl⟩ := List.mem_map.1 ht
      exact hs.modulus u hu
  obtain ⟨h1, h2, h3, -, h5, -, h7, -, -, h8, h9, h10, h11, h12, h13, -⟩ :=
    C06_translation dx dy hr hr' hs hs' hno i1 i2
  have hel : ((s.map (translation dx dy)).elements.map fun t => t.shiftBy r'.cx r'.cy)
      = s.elements.map fun t => t.shiftBy r.cx r.cy := by
    simp only [Section.map, List.map_map]
    refine List.map_congr_left fun t _ => ?_
    simp only [Function.comp_apply, Tri6.shiftBy, Tri6.map, Coords.map, Coords.shift, h1, h2,
      translation, affine]
    congr 2 <;> funext i <;> ring
  have hw : warpIn (s.map (translation dx dy)).materials r' = warpIn s.materials r := by
    simp only [warpIn, h3, h5, h7, h8, h9, h10, h11, h12, h13]
    rfl
  unfold Section.warping
  rw [hw]
  exact congrArg (fun l => warpingAnalysis sv ty l (warpIn s.materials r)) hel

/-- Non-vacuity: the composite example section and its translation by `(7, -3)`. -/
example : ∃ r r' w, exSection.geometricAnalysis = .ok r ∧
    (exSection.map (translation 7 (-3))).geometricAnalysis = .ok r' ∧
    exSection.warping exactSolvers .direct r = .ok w ∧
    (exSection.map (translation 7 (-3))).warping exactSolvers .direct r' = .ok w := by
  obtain ⟨r, hr⟩ := geometricAnalysis_ok exSection (by simp [exSection])
  obtain ⟨r', hr'⟩ := geometricAnalysis_ok (exSection.map (translation 7 (-3)))
    (by simp [exSection, Section.map])
  obtain ⟨w, hw, -⟩ := exact_warping exSection r exSection_good exSection_physical hr
    (ex_linked r.cx r.cy)
  exact ⟨r, r', w, hr, hr', hw, (C54_translation 7 (-3) exSection exSection_physical exNoOverlap
    hr hr' _ _).trans hw⟩

/-! ### C55 -/

/-- **C55** (pairs): after every warping analysis the constants of each axis are opposite numbers. -/
theorem C55_pairs (s : Section) (r : GeomResults) (sv : Solvers) (ty : SolverType)
    (w : WarpResults s.numNodes) (hw : s.warping sv ty r = .ok w) :
    w.beta.xPlus = -w.beta.xMinus ∧ w.beta.yPlus = -w.beta.yMinus ∧
    w.beta.b11Plus = -w.beta.b11Minus ∧ w.beta.b22Plus = -w.beta.b22Minus := by
  obtain ⟨-, -, -, -, -, -, -, -, h⟩ := warping_ok hw
  rw [h]
  refine ⟨?_, ?_, ?_, ?_⟩ <;> simp only [betas] <;> ring

/-- Integrals of functions that are odd under a symmetry of the section vanish. -/
theorem odd_integral {a b c d e f : ℝ} (hD : |a * d - b * c| = 1) (hno : NoOverlap els)
    (him : ImageUnder (affine a b c d e f) els els) {g : ℝ × ℝ → ℝ} (hg : Continuous g)
    (hodd : ∀ p, g (affine a b c d e f p) = -g p) :
    meshInt els (fun t p => t.material.elasticModulus * g p) = 0 := by
  obtain ⟨E, E', hE, hE', hEE⟩ := him.field Material.elasticModulus
  have e1 := (sum_integral hno hE hg).2
  have e2 := (sum_integral hno hE' hg).2
  have hD0 : a * d - b * c ≠ 0 := by
    intro h; rw [h, abs_zero] at hD; exact zero_ne_one hD
  have h3 : ∫ p in region els, E' p * g p = - ∫ p in region els, E p * g p := by
    conv_lhs => rw [him.region, image_integral e f hD0 (measurable_region els), hD, one_mul]
    simp only [hEE, hodd, mul_neg]
    exact integral_neg _
  have h4 : meshInt els (fun t p => t.material.elasticModulus * g p)
      = (els.map fun t => (∫ p in elemRegion t.coords, g p) * t.material.elasticModulus).sum := by
    unfold meshInt
    refine congrArg List.sum (List.map_congr_left fun t _ => ?_)
    rw [integral_const_mul, mul_comm]
  rw [h4]
  linarith

/-- The direction of the axis (radians, anticlockwise from the `x` axis) about which each pair of
monosymmetry constants is taken. -/
noncomputable def axisAngle (r : GeomResults) : Axis → ℝ
  | .xx => 0
  | .yy => Real.pi / 2
  | .a11 => r.cent.phi * Real.pi / 180
  | .a22 => r.cent.phi * Real.pi / 180 + Real.pi / 2

/-- The pair of constants of an axis. -/
def betaOf (w : WarpResults n) : Axis → ℝ × ℝ
  | .xx => (w.beta.xPlus, w.beta.xMinus)
  | .yy => (w.beta.yPlus, w.beta.yMinus)
  | .a11 => (w.beta.b11Plus, w.beta.b11Minus)
  | .a22 => (w.beta.b22Plus, w.beta.b22Minus)

theorem mono_form (hp : ∀ t ∈ els, Proper t.coords) (phi : ℝ) :
    (monosymmetryInts els phi).x = wInt els (fun _ p => p.1 * p.1 * p.2 + p.2 * p.2 * p.2) ∧
    (monosymmetryInts els phi).y = wInt els (fun _ p => p.2 * p.2 * p.1 + p.1 * p.1 * p.1) ∧
    (monosymmetryInts els phi).i11 = wInt els (fun _ p =>
      (principalCoordinate phi p.1 p.2).1 * (principalCoordinate phi p.1 p.2).1
        * (principalCoordinate phi p.1 p.2).2
      + (principalCoordinate phi p.1 p.2).2 * (principalCoordinate phi p.1 p.2).2
        * (principalCoordinate phi p.1 p.2).2) ∧
    (monosymmetryInts els phi).i22 = wInt els (fun _ p =>
      (principalCoordinate phi p.1 p.2).2 * (principalCoordinate phi p.1 p.2).2
        * (principalCoordinate phi p.1 p.2).1
      + (principalCoordinate phi p.1 p.2).1 * (principalCoordinate phi p.1 p.2).1
        * (principalCoordinate phi p.1 p.2).1) := by
  have c3 : ∀ {f g : ℝ × ℝ → ℝ}, f ∈ PolyLE 1 → g ∈ PolyLE 1 →
      (fun p => f p * f p * g p + g p * g p * g p) ∈ PolyLE 3 := by
    intro f g hf hg
    have e1 : (fun p => f p * f p * g p) = fun p => g p * (f p * f p) := by funext p; ring
    have e2 : (fun p => g p * g p * g p) = fun p => g p * (g p * g p) := by funext p; ring
    have h1 : (fun p => f p * f p * g p) ∈ PolyLE 3 := by
      rw [e1]; exact poly_mul3 hg (PolyLE.mul (d := 1) (e := 1) hf hf)
    have h2 : (fun p => g p * g p * g p) ∈ PolyLE 3 := by
      rw [e2]; exact poly_mul3 hg (PolyLE.mul (d := 1) (e := 1) hg hg)
    exact Submodule.add_mem _ h1 h2
  have q1 : (fun p : ℝ × ℝ => (principalCoordinate phi p.1 p.2).1) ∈ PolyLE 1 := by
    have := polyLE_affine 0 (Real.cos (phi * Real.pi / 180)) (Real.sin (phi * Real.pi / 180))
    convert this using 2 with p
    simp only [principalCoordinate]; ring
  have q2 : (fun p : ℝ × ℝ => (principalCoordinate phi p.1 p.2).2) ∈ PolyLE 1 := by
    have := polyLE_affine 0 (-Real.sin (phi * Real.pi / 180)) (Real.cos (phi * Real.pi / 180))
    convert this using 2 with p
    simp only [principalCoordinate]; ring
  refine ⟨?_, ?_, ?_, ?_⟩ <;>
    simp only [monosymmetryInts, accum_eq_sum els, Tri6.monosymmetryIntegrals]
  · refine sum_elem_quad hp (fun t _ => c3 PolyLE.fst PolyLE.snd) fun t ht gp hb => ?_
    rw [sf_nx (hp t ht).1 hb, sf_ny (hp t ht).1 hb]
  · refine sum_elem_quad hp (fun t _ => c3 PolyLE.snd PolyLE.fst) fun t ht gp hb => ?_
    rw [sf_nx (hp t ht).1 hb, sf_ny (hp t ht).1 hb]
  · refine sum_elem_quad hp (fun t _ => c3 q1 q2) fun t ht gp hb => ?_
    rw [sf_nx (hp t ht).1 hb, sf_ny (hp t ht).1 hb]
  · refine sum_elem_quad hp (fun t _ => c3 q2 q1) fun t ht gp hb => ?_
    rw [sf_nx (hp t ht).1 hb, sf_ny (hp t ht).1 hb]

/-- The third moment about a line of symmetry through the centroid vanishes. -/
theorem symmetric_moment {s : Section} {r : GeomResults} (hr : s.geometricAnalysis = .ok r)
    (h : Physical s.elements) (hno : NoOverlap s.elements) (θ : ℝ) (p0 : ℝ × ℝ)
    (him : ImageUnder (reflection θ p0) s.elements s.elements) :
    wInt (s.elements.map fun t => t.shiftBy r.cx r.cy) (fun _ p =>
      ((p.1 * Real.cos θ + p.2 * Real.sin θ) ^ 2 + (p.2 * Real.cos θ - p.1 * Real.sin θ) ^ 2)
        * (p.2 * Real.cos θ - p.1 * Real.sin θ)) = 0 := by
  have hsc := Real.sin_sq_add_cos_sq θ
  have hsc2 := Real.sin_sq_add_cos_sq (2 * θ)
  have hdet : Real.cos (2 * θ) * -Real.cos (2 * θ) - Real.sin (2 * θ) * Real.sin (2 * θ) = -1 := by
    linarith
  obtain ⟨hc, -⟩ := affine_cent _ _ (by rw [hdet]; norm_num) hr hr h h.proper hno hno him
  simp only [affine, Prod.mk.injEq] at hc
  obtain ⟨c1, c2⟩ := hc
  rw [← meshInt_shift s.elements r.cx r.cy (fun _ p =>
      ((p.1 * Real.cos θ + p.2 * Real.sin θ) ^ 2 + (p.2 * Real.cos θ - p.1 * Real.sin θ) ^ 2)
        * (p.2 * Real.cos θ - p.1 * Real.sin θ))]
  refine odd_integral (a := Real.cos (2 * θ)) (b := Real.sin (2 * θ)) (c := Real.sin (2 * θ))
    (d := -Real.cos (2 * θ)) (by rw [hdet]; norm_num) hno him (by fun_prop) fun p => ?_
  simp only [affine]
  have e1 : Real.cos (2 * θ) * p.1 + Real.sin (2 * θ) * p.2
      + (p0.1 - Real.cos (2 * θ) * p0.1 - Real.sin (2 * θ) * p0.2) - r.cx
      = Real.cos (2 * θ) * (p.1 - r.cx) + Real.sin (2 * θ) * (p.2 - r.cy) := by
    linear_combination -c1
  have e2 : Real.sin (2 * θ) * p.1 + -Real.cos (2 * θ) * p.2
      + (p0.2 - Real.sin (2 * θ) * p0.1 + Real.cos (2 * θ) * p0.2) - r.cy
      = Real.sin (2 * θ) * (p.1 - r.cx) - Real.cos (2 * θ) * (p.2 - r.cy) := by
    linear_combination -c2
  rw [e1, e2]
  generalize p.1 - r.cx = x
  generalize p.2 - r.cy = y
  have k1 : (Real.cos (2 * θ) * x + Real.sin (2 * θ) * y) * Real.cos θ
      + (Real.sin (2 * θ) * x - Real.cos (2 * θ) * y) * Real.sin θ
      = x * Real.cos θ + y * Real.sin θ := by
    rw [Real.cos_two_mul, Real.sin_two_mul]
    linear_combination (2 * x * Real.cos θ + 2 * y * Real.sin θ - 2 * x * Real.cos θ) * hsc * 0
      + (2 * Real.cos θ * x) * hsc
  have k2 : (Real.sin (2 * θ) * x - Real.cos (2 * θ) * y) * Real.cos θ
      - (Real.cos (2 * θ) * x + Real.sin (2 * θ) * y) * Real.sin θ
      = -(y * Real.cos θ - x * Real.sin θ) := by
    rw [Real.cos_two_mul, Real.sin_two_mul]
    linear_combination (-(2 * Real.cos θ * y)) * hsc
  rw [k1, k2]
  ring

/-- **C55** (symmetry): if the section, with its materials, is symmetric about a line parallel to one of
the four axes (however the mesh looks), and the reported shear centre lies on the axis, then both
monosymmetry constants of that axis are zero. -/
theorem C55_symmetric (s : Section) (r : GeomResults) (h : Physical s.elements)
    (hno : NoOverlap s.elements) (hr : s.geometricAnalysis = .ok r) (sv : Solvers) (ty : SolverType)
    (w : WarpResults s.numNodes) (hw : s.warping sv ty r = .ok w) (a : Axis) (p0 : ℝ × ℝ)
    (him : ImageUnder (reflection (axisAngle r a) p0) s.elements s.elements)
    (hsc : w.sc.ySe * Real.cos (axisAngle r a) - w.sc.xSe * Real.sin (axisAngle r a) = 0) :
    betaOf w a = (0, 0) := by
  have hm := symmetric_moment hr h hno _ p0 him
  obtain ⟨-, -, -, -, -, hs, -, -, hb⟩ := warping_ok hw
  obtain ⟨m1, m2, m3, m4⟩ := mono_form (shifted_proper h.proper r.cx r.cy)
    (warpIn s.materials r).phi
  have hphi : (warpIn s.materials r).phi = r.cent.phi := rfl
  have hpc : w.sc.x11Se = w.sc.xSe * Real.cos (r.cent.phi * Real.pi / 180)
        + w.sc.ySe * Real.sin (r.cent.phi * Real.pi / 180) ∧
      w.sc.y22Se = w.sc.ySe * Real.cos (r.cent.phi * Real.pi / 180)
        - w.sc.xSe * Real.sin (r.cent.phi * Real.pi / 180) := by
    rw [hs]; exact ⟨rfl, rfl⟩
  cases a with
  | xx =>
    simp only [axisAngle, Real.cos_zero, Real.sin_zero, mul_one, mul_zero, sub_zero, add_zero]
      at hm hsc
    have : (monosymmetryInts (shifted s.elements r.cx r.cy) (warpIn s.materials r).phi).x = 0 := by
      rw [m1, ← hm]
      exact wInt_congr fun t _ p => by ring
    simp only [betaOf, hb, betas]
    rw [show (monosymmetryInts (s.elements.map fun t => t.shiftBy r.cx r.cy)
      (warpIn s.materials r).phi).x = 0 from this, hsc]
    simp
  | yy =>
    simp only [axisAngle, Real.cos_pi_div_two, Real.sin_pi_div_two, mul_one, mul_zero, zero_sub,
      zero_add] at hm hsc
    have : (monosymmetryInts (shifted s.elements r.cx r.cy) (warpIn s.materials r).phi).y = 0 := by
      rw [m2, ← neg_eq_zero, ← hm, ← neg_one_mul, ← wInt_smul]
      exact wInt_congr fun t _ p => by ring
    simp only [betaOf, hb, betas]
    rw [show (monosymmetryInts (s.elements.map fun t => t.shiftBy r.cx r.cy)
      (warpIn s.materials r).phi).y = 0 from this, neg_eq_zero.1 hsc]
    simp
  | a11 =>
    simp only [axisAngle] at hm hsc
    have : (monosymmetryInts (shifted s.elements r.cx r.cy) (warpIn s.materials r).phi).i11 = 0 := by
      rw [m3, ← hm]
      exact wInt_congr fun t _ p => by simp only [principalCoordinate, hphi]; ring
    simp only [betaOf, hb, betas]
    rw [show (monosymmetryInts (s.elements.map fun t => t.shiftBy r.cx r.cy)
      (warpIn s.materials r).phi).i11 = 0 from this, hpc.2, hsc]
    simp
  | a22 =>
    simp only [axisAngle, Real.cos_add_pi_div_two, Real.sin_add_pi_div_two] at hm hsc
    have : (monosymmetryInts (shifted s.elements r.cx r.cy) (warpIn s.materials r).phi).i22 = 0 := by
      rw [m4, ← neg_eq_zero, ← hm, ← neg_one_mul, ← wInt_smul]
      exact wInt_congr fun t _ p => by simp only [principalCoordinate, hphi]; ring
    have hx : w.sc.x11Se = 0 := by rw [hpc.1]; linarith
    simp only [betaOf, hb, betas]
    rw [show (monosymmetryInts (s.elements.map fun t => t.shiftBy r.cx r.cy)
      (warpIn s.materials r).phi).i22 = 0 from this, hx]
    simp

end SP
