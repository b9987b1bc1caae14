import Verif.Props.Equilibrium

/-!
# C64: shear forces act through the reported shear centre
-/

namespace SP

open Classical Spec MeasureTheory

variable {n : ℕ}

theorem meshInt_add {d : ℕ} {els : List (Tri6 n)} {f g : Tri6 n → ℝ × ℝ → ℝ}
    (hf : ∀ t ∈ els, f t ∈ PolyLE d) (hg : ∀ t ∈ els, g t ∈ PolyLE d) :
    meshInt els (fun t p => f t p + g t p) = meshInt els f + meshInt els g := by
  rw [meshInt, meshInt, meshInt, ← List.sum_map_add]
  refine congrArg List.sum (List.map_congr_left fun t ht => ?_)
  rw [integral_add (integrable_poly _ (hf t ht)) (integrable_poly _ (hg t ht))]

theorem meshInt_smul (k : ℝ) (els : List (Tri6 n)) (f : Tri6 n → ℝ × ℝ → ℝ) :
    meshInt els (fun t p => k * f t p) = k * meshInt els f := by
  rw [meshInt, meshInt, ← List.sum_map_mul_left]
  refine congrArg List.sum (List.map_congr_left fun t ht => ?_)
  rw [integral_const_mul]

/-- Torque about another point. -/
theorem torque_about {els : List (Tri6 n)} {f g : Tri6 n → ℝ × ℝ → ℝ} (cx cy px py : ℝ)
    (hf : ∀ t ∈ els, f t ∈ PolyLE 2) (hg : ∀ t ∈ els, g t ∈ PolyLE 2) :
    torque els px py f g = torque els cx cy f g + (cx - px) * meshInt els g - (cy - py) * meshInt els f := by
  have m1 : ∀ t ∈ els, (fun p : ℝ × ℝ => (p.1 - cx) * g t p - (p.2 - cy) * f t p) ∈ PolyLE 3 := by
    intro t ht
    refine Submodule.sub_mem _ (poly_mul3 ?_ (hg t ht)) (poly_mul3 ?_ (hf t ht))
    · exact Submodule.sub_mem _ PolyLE.fst (PolyLE.const 1 cx)
    · exact Submodule.sub_mem _ PolyLE.snd (PolyLE.const 1 cy)
  have m2 : ∀ t ∈ els, (fun p : ℝ × ℝ => (cx - px) * g t p) ∈ PolyLE 3 := fun t ht =>
    PolyLE.mono (by omega) (Submodule.smul_mem _ (cx - px) (hg t ht))
  have m3 : ∀ t ∈ els, (fun p : ℝ × ℝ => -(cy - py) * f t p) ∈ PolyLE 3 := fun t ht =>
    PolyLE.mono (by omega) (Submodule.smul_mem _ (-(cy - py)) (hf t ht))
  have e : torque els px py f g = meshInt els fun t p => (((p.1 - cx) * g t p - (p.2 - cy) * f t p)
      + (cx - px) * g t p) + -(cy - py) * f t p := by
    unfold torque
    refine congrArg List.sum (List.map_congr_left fun t _ => ?_)
    refine integral_congr_ae (Filter.Eventually.of_forall fun p => ?_)
    simp only
    ring
  have m12 : ∀ t ∈ els, (fun p : ℝ × ℝ => (p.1 - cx) * g t p - (p.2 - cy) * f t p + (cx - px) * g t p)
      ∈ PolyLE 3 := fun t ht => Submodule.add_mem _ (m1 t ht) (m2 t ht)
  rw [e, meshInt_add m12 m3,
    meshInt_add m1 m2, meshInt_smul, meshInt_smul]
  unfold torque
  ring

theorem torque_add {els : List (Tri6 n)} {f g f' g' : Tri6 n → ℝ × ℝ → ℝ} (cx cy : ℝ)
    (hf : ∀ t ∈ els, f t ∈ PolyLE 2) (hg : ∀ t ∈ els, g t ∈ PolyLE 2)
    (hf' : ∀ t ∈ els, f' t ∈ PolyLE 2) (hg' : ∀ t ∈ els, g' t ∈ PolyLE 2) :
    torque els cx cy (fun t p => f t p + f' t p) (fun t p => g t p + g' t p)
      = torque els cx cy f g + torque els cx cy f' g' := by
  have m : ∀ {f g : Tri6 n → ℝ × ℝ → ℝ}, (∀ t ∈ els, f t ∈ PolyLE 2) → (∀ t ∈ els, g t ∈ PolyLE 2) →
      ∀ t ∈ els, (fun p : ℝ × ℝ => (p.1 - cx) * g t p - (p.2 - cy) * f t p) ∈ PolyLE 3 := by
    intro f g hf hg t ht
    refine Submodule.sub_mem _ (poly_mul3 ?_ (hg t ht)) (poly_mul3 ?_ (hf t ht))
    · exact Submodule.sub_mem _ PolyLE.fst (PolyLE.const 1 cx)
    · exact Submodule.sub_mem _ PolyLE.snd (PolyLE.const 1 cy)
  unfold torque
  rw [← meshInt_add (m hf hg) (m hf' hg')]
  refine congrArg List.sum (List.map_congr_left fun t _ => ?_)
  refine integral_congr_ae (Filter.Eventually.of_forall fun p => ?_)
  simp only
  ring

/-- **C64.**  On a section built from a geometry, after a geometric analysis, a warping analysis with exact
solutions of the linear systems, and a stress analysis for the actions `a`: `get_sc` returns a point `(X, Y)`,
and there is a stress field, quadratic on every element, whose nodal values are the reported stresses, such that

* the shear stresses due to `vx` and `vy` together are statically equivalent to the force `(vx, vy)` acting at
  `(X, Y)`: they have this resultant, and about every point of the plane the torque of this force; in
  particular no torque about `(X, Y)`;
* the shear stresses due to all actions are statically equivalent to that force and the couple `mzz`. -/
theorem C64_shear_centre {P : Type} (env : Env P) (g : GeomIn) (hi : Section.init g = .ok env.sec)
    (hg : GoodSection env.sec) (h : Physical env.sec.elements) (r : GeomResults)
    (hr : env.sec.geometricAnalysis = .ok r) (ty : SolverType) (w : WarpResults env.sec.numNodes)
    (hw : env.sec.warping env.solvers ty r = .ok w)
    (ho : SolvesBordered (assembleTorsion (env.sec.elements.map fun t => t.shiftBy r.cx r.cy)).1
      (assembleTorsion (env.sec.elements.map fun t => t.shiftBy r.cx r.cy)).2 w.omega)
    (hps : SolvesBordered (assembleTorsion (env.sec.elements.map fun t => t.shiftBy r.cx r.cy)).1
      (assembleShearLoad (env.sec.elements.map fun t => t.shiftBy r.cx r.cy)
        (warpIn env.sec.materials r)).1 w.psi)
    (hph : SolvesBordered (assembleTorsion (env.sec.elements.map fun t => t.shiftBy r.cx r.cy)).1
      (assembleShearLoad (env.sec.elements.map fun t => t.shiftBy r.cx r.cy)
        (warpIn env.sec.materials r)).2 w.phiS)
    (hnu : ∀ t ∈ env.sec.elements, -1 < t.material.poissonsRatio)
    (a : Actions) (s0 s1 s2 s3 : Store env.sec.numNodes) (l : List (GroupStress env.sec.numNodes))
    (run1 : env.geometric.run.run s0 = (.ok (), s1))
    (run2 : (env.warping ty).run.run s1 = (.ok (), s2))
    (run3 : (env.stress a).run.run s2 = (.ok l, s3)) :
    ∃ X Y, getSc s3 = .ok (X, Y) ∧ ∃ σ : Tri6 env.sec.numNodes → ℝ × ℝ → StressComp,
      Reports env.sec.groups l σ ∧
      (∀ t ∈ env.sec.elements, ∀ f ∈ individual, (fun p => f (σ t p)) ∈ PolyLE 2) ∧
      (let tx := fun t p => (σ t p).zxVx + (σ t p).zxVy
       let ty := fun t p => (σ t p).zyVx + (σ t p).zyVy
       ShearForce env.sec.elements tx ty a.vx a.vy ∧
       ∀ px py, torque env.sec.elements px py tx ty = (X - px) * a.vy - (Y - py) * a.vx) ∧
      (let tx := fun t p => (σ t p).zxMzz + ((σ t p).zxVx + (σ t p).zxVy)
       let ty := fun t p => (σ t p).zyMzz + ((σ t p).zyVx + (σ t p).zyVy)
       ShearForce env.sec.elements tx ty a.vx a.vy ∧
       ∀ px py, torque env.sec.elements px py tx ty = (X - px) * a.vy - (Y - py) * a.vx + a.mzz) := by
  have q1 : s1 = s0.set (geomValues env.perimeter r) :=
    (Prod.ext_iff.1 (run1.symm.trans (exec_geometric env hr s0))).2
  have H1 : HoldsGeom env.perimeter r s1 := by rw [q1]; exact holdsGeom_set _ r _
  have q2 : s2 = s1.setWarp w :=
    (Prod.ext_iff.1 (run2.symm.trans ((exec_warping env ty H1).1 w hw))).2
  have q3 : s3 = s2 := by
    have := (pres_stress env a s2).eq
    rw [← this]
    exact (congrArg Prod.snd run3).symm
  have H2 : HoldsGeom env.perimeter r s3 := by
    rw [q3, q2]
    exact holdsGeom_mono (l := warpValues w) H1 (by simp [geomValues, warpValues])
  have hx : s3.val .xSe = some w.sc.xSe ∧ s3.val .ySe = some w.sc.ySe := by
    rw [q3, q2]; simp [Store.setWarp, warpValues, assign_cons, assign_nil]
  have hcx : s3.val .cx = some r.cx := H2 (.cx, _) (by simp [geomValues])
  have hcy : s3.val .cy = some r.cy := H2 (.cy, _) (by simp [geomValues])
  obtain ⟨σ, n1, n2, -, -, -, -, -, -, vx, vy, mz, tz, tx, ty'⟩ :=
    C23_equilibrium env g hi hg h r hr ty w hw ho hps hph hnu a s0 s1 s2 s3 l run1 run2 run3
  refine ⟨w.sc.xSe + r.cx, w.sc.ySe + r.cy, by simp [getSc, hx.1, hx.2, hcx, hcy], σ, n1, n2, ?_⟩
  have p1 : ∀ t ∈ env.sec.elements, (fun p => (σ t p).zxVx) ∈ PolyLE 2 := fun t ht =>
    n2 t ht (·.zxVx) (by simp [individual])
  have p2 : ∀ t ∈ env.sec.elements, (fun p => (σ t p).zyVx) ∈ PolyLE 2 := fun t ht =>
    n2 t ht (·.zyVx) (by simp [individual])
  have p3 : ∀ t ∈ env.sec.elements, (fun p => (σ t p).zxVy) ∈ PolyLE 2 := fun t ht =>
    n2 t ht (·.zxVy) (by simp [individual])
  have p4 : ∀ t ∈ env.sec.elements, (fun p => (σ t p).zyVy) ∈ PolyLE 2 := fun t ht =>
    n2 t ht (·.zyVy) (by simp [individual])
  have p5 : ∀ t ∈ env.sec.elements, (fun p => (σ t p).zxMzz) ∈ PolyLE 2 := fun t ht =>
    n2 t ht (·.zxMzz) (by simp [individual])
  have p6 : ∀ t ∈ env.sec.elements, (fun p => (σ t p).zyMzz) ∈ PolyLE 2 := fun t ht =>
    n2 t ht (·.zyMzz) (by simp [individual])
  have p13 : ∀ t ∈ env.sec.elements, (fun p => (σ t p).zxVx + (σ t p).zxVy) ∈ PolyLE 2 := fun t ht =>
    Submodule.add_mem _ (p1 t ht) (p3 t ht)
  have p24 : ∀ t ∈ env.sec.elements, (fun p => (σ t p).zyVx + (σ t p).zyVy) ∈ PolyLE 2 := fun t ht =>
    Submodule.add_mem _ (p2 t ht) (p4 t ht)
  have f1 : meshInt env.sec.elements (fun t p => (σ t p).zxVx + (σ t p).zxVy) = a.vx := by
    rw [meshInt_add p1 p3, vx.1, vy.1, add_zero]
  have f2 : meshInt env.sec.elements (fun t p => (σ t p).zyVx + (σ t p).zyVy) = a.vy := by
    rw [meshInt_add p2 p4, vx.2, vy.2, zero_add]
  have f3 : torque env.sec.elements r.cx r.cy (fun t p => (σ t p).zxVx + (σ t p).zxVy)
      (fun t p => (σ t p).zyVx + (σ t p).zyVy) = w.sc.xSe * a.vy - w.sc.ySe * a.vx := by
    rw [torque_add _ _ p1 p2 p3 p4, tx, ty']; ring
  have F1 : meshInt env.sec.elements (fun t p => (σ t p).zxMzz + ((σ t p).zxVx + (σ t p).zxVy)) = a.vx := by
    rw [meshInt_add p5 p13, mz.1, f1, zero_add]
  have F2 : meshInt env.sec.elements (fun t p => (σ t p).zyMzz + ((σ t p).zyVx + (σ t p).zyVy)) = a.vy := by
    rw [meshInt_add p6 p24, mz.2, f2, zero_add]
  have F3 : torque env.sec.elements r.cx r.cy (fun t p => (σ t p).zxMzz + ((σ t p).zxVx + (σ t p).zxVy))
      (fun t p => (σ t p).zyMzz + ((σ t p).zyVx + (σ t p).zyVy))
      = a.mzz + (w.sc.xSe * a.vy - w.sc.ySe * a.vx) := by
    rw [torque_add _ _ p5 p6 p13 p24, tz, f3]
  have P1 : ∀ t ∈ env.sec.elements, (fun p => (σ t p).zxMzz + ((σ t p).zxVx + (σ t p).zxVy)) ∈ PolyLE 2 :=
    fun t ht => Submodule.add_mem _ (p5 t ht) (p13 t ht)
  have P2 : ∀ t ∈ env.sec.elements, (fun p => (σ t p).zyMzz + ((σ t p).zyVx + (σ t p).zyVy)) ∈ PolyLE 2 :=
    fun t ht => Submodule.add_mem _ (p6 t ht) (p24 t ht)
  refine ⟨⟨⟨f1, f2⟩, fun px py => ?_⟩, ⟨F1, F2⟩, fun px py => ?_⟩
  · rw [torque_about r.cx r.cy px py p13 p24, f3, f1, f2]; ring
  · rw [torque_about r.cx r.cy px py P1 P2, F3, F1, F2]
    ring

/-- The composite example meets the hypotheses, with shear and torsion. -/
example : ∃ r w s1 s2 l X Y, (exEnv exSection).geometric.run.run (Store.empty _) = (.ok (), s1) ∧
    ((exEnv exSection).warping .direct).run.run s1 = (.ok (), s2) ∧
    ((exEnv exSection).stress ⟨1, 5, 2, 3, 4, 2, 3, 4⟩).run.run s2 = (.ok l, s2) ∧
    getSc s2 = .ok (X, Y) ∧ (exEnv exSection).sec.geometricAnalysis = .ok r ∧
    (exEnv exSection).sec.warping (exEnv exSection).solvers .direct r = .ok w ∧
    ∃ σ : Tri6 exSection.numNodes → ℝ × ℝ → StressComp, Reports exSection.groups l σ ∧
      torque exSection.elements X Y (fun t p => (σ t p).zxVx + (σ t p).zxVy)
        (fun t p => (σ t p).zyVx + (σ t p).zyVy) = 0 ∧
      torque exSection.elements 0 0 (fun t p => (σ t p).zxVx + (σ t p).zxVy)
        (fun t p => (σ t p).zyVx + (σ t p).zyVy) = 4 * X - 3 * Y := by
  obtain ⟨hi, hg, hP, hnu, r, w, s1, s2, l, hr, hw, ⟨ho, h1, h2⟩, r1, r2, r3⟩ := ex_equilibrium
  obtain ⟨X, Y, hsc, σ, hσ, -, ⟨-, h3⟩, -⟩ := C64_shear_centre (exEnv exSection) exGeom hi hg hP r hr .direct w hw
    ho h1 h2 hnu _ _ s1 s2 s2 l r1 r2 r3
  refine ⟨r, w, s1, s2, l, X, Y, r1, r2, r3, hsc, hr, hw, σ, hσ, ?_, ?_⟩
  · exact (h3 X Y).trans (by ring)
  · exact (h3 0 0).trans (by ring)

end SP
