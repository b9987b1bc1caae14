import Verif.Props.RectPlastic

/-!
# C88: rectangles, I-sections and rectangular tubes
-/

namespace SP

open Spec MeasureTheory Set

variable {s : Section} {r : GeomResults} {E b d tf tw t x0 y0 : ℝ}

theorem null_height (c : ℝ) : volume {p : ℝ × ℝ | p.2 = c} = 0 := by
  have : {p : ℝ × ℝ | p.2 = c} = univ ×ˢ {c} := by ext p; simp
  rw [this, Measure.volume_eq_prod, Measure.prod_prod, measure_singleton, mul_zero]

theorem ae_height (c : ℝ) : ∀ᵐ p : ℝ × ℝ, p.2 ≠ c := by
  have := null_height c
  rwa [← compl_mem_ae_iff] at this

theorem inRects_const {n : ℕ} {ι : Type*} {els : List (Tri6 n)} {S : Finset ι} {R : ι → Rect} {prop : Material → ℝ}
    (h : ∀ t ∈ els, prop t.material = E) : InRects els S R prop fun _ => E := fun t ht _ _ _ => h t ht

/-- One rectangle. -/
def oneRect (x0 y0 b d : ℝ) : Unit → Rect := fun _ => ⟨x0, x0 + b, y0, y0 + d⟩

theorem rectangles_one {n : ℕ} {els : List (Tri6 n)} (hb : 0 < b) (hd : 0 < d)
    (h : region els =ᵐ[volume] Ioo x0 (x0 + b) ×ˢ Ioo y0 (y0 + d)) : Rectangles els {()} (oneRect x0 y0 b d) := by
  refine ⟨fun _ _ => by simpa [oneRect, Rect.width] using hb, fun _ _ => by simpa [oneRect, Rect.height] using hd,
    fun _ _ _ _ h => absurd rfl h, ?_⟩
  have e : ⋃ i ∈ ({()} : Finset Unit), (oneRect x0 y0 b d i).inside = Ioo x0 (x0 + b) ×ˢ Ioo y0 (y0 + d) := by
    ext p
    simp [Rect.inside, oneRect]
  rw [e]
  exact h

/-- The three rectangles of an I-section. -/
noncomputable def iRects (d b tf tw : ℝ) : Fin 3 → Rect :=
  ![⟨0, b, 0, tf⟩, ⟨(b - tw) / 2, (b + tw) / 2, tf, d - tf⟩, ⟨0, b, d - tf, d⟩]

theorem iRects_shape (htf : 0 < tf) (hb : tw < b) (hd : 2 * tf < d) :
    iShape d b tf tw =ᵐ[volume] ⋃ i ∈ (Finset.univ : Finset (Fin 3)), (iRects d b tf tw i).inside := by
  filter_upwards [ae_height tf, ae_height (d - tf)] with p h1 h2
  have key : p ∈ iShape d b tf tw ↔ p ∈ ⋃ i ∈ (Finset.univ : Finset (Fin 3)), (iRects d b tf tw i).inside := by
    simp only [iShape, mem_ofPred_eq, mem_iUnion, Finset.mem_univ, exists_prop, true_and, Fin.exists_fin_succ, iRects, Rect.inside,
      mem_prod, mem_Ioo, Matrix.cons_val_zero, Matrix.cons_val_succ, IsEmpty.exists_iff, or_false]
    constructor
    · rintro ⟨⟨a1, a2, a3, a4⟩, h⟩
      rcases lt_or_gt_of_ne h1 with b1 | b1
      · exact .inl ⟨⟨a1, a2⟩, a3, b1⟩
      · rcases lt_or_gt_of_ne h2 with b2 | b2
        · rcases h with h | h | h
          · linarith
          · linarith
          · exact .inr (.inl ⟨h, b1, b2⟩)
        · exact .inr (.inr ⟨⟨a1, a2⟩, b2, a4⟩)
    · rintro (⟨⟨a1, a2⟩, a3, a4⟩ | ⟨⟨a1, a2⟩, a3, a4⟩ | ⟨⟨a1, a2⟩, a3, a4⟩)
      · exact ⟨⟨a1, a2, a3, by linarith⟩, .inl a4⟩
      · exact ⟨⟨by linarith, by linarith, by linarith, by linarith⟩, .inr (.inr ⟨a1, a2⟩)⟩
      · exact ⟨⟨a1, a2, by linarith, a4⟩, .inr (.inl a3)⟩
  exact propext key

theorem rectangles_i {n : ℕ} {els : List (Tri6 n)} (htf : 0 < tf) (htw : 0 < tw) (hb : tw < b) (hd : 2 * tf < d)
    (h : region els =ᵐ[volume] iShape d b tf tw) : Rectangles els Finset.univ (iRects d b tf tw) := by
  refine ⟨?_, ?_, ?_, h.trans (iRects_shape htf hb hd)⟩
  · intro i _
    fin_cases i <;> simp [iRects, Rect.width] <;> linarith
  · intro i _
    fin_cases i <;> simp [iRects, Rect.height] <;> linarith
  · intro i _ j _ hij
    rw [Set.disjoint_left]
    intro p hp hq
    fin_cases i <;> fin_cases j <;> simp [iRects, Rect.inside] at hp hq hij <;> linarith

/-- The four rectangles of a tube. -/
noncomputable def tubeRects (d b t : ℝ) : Fin 4 → Rect :=
  ![⟨0, b, 0, t⟩, ⟨0, b, d - t, d⟩, ⟨0, t, t, d - t⟩, ⟨b - t, b, t, d - t⟩]

theorem rectangles_tube {n : ℕ} {els : List (Tri6 n)} (ht : 0 < t) (hb : 2 * t < b) (hd : 2 * t < d)
    (h : region els =ᵐ[volume] tubeShape d b t) : Rectangles els Finset.univ (tubeRects d b t) := by
  refine ⟨?_, ?_, ?_, h.trans ?_⟩
  · intro i _
    fin_cases i <;> simp [tubeRects, Rect.width] <;> linarith
  · intro i _
    fin_cases i <;> simp [tubeRects, Rect.height] <;> linarith
  · intro i _ j _ hij
    rw [Set.disjoint_left]
    intro p hp hq
    fin_cases i <;> fin_cases j <;> simp [tubeRects, Rect.inside] at hp hq hij <;> linarith
  · filter_upwards [ae_height t, ae_height (d - t)] with p h1 h2
    have key : p ∈ tubeShape d b t ↔ p ∈ ⋃ i ∈ (Finset.univ : Finset (Fin 4)), (tubeRects d b t i).inside := by
      simp only [tubeShape, mem_ofPred_eq, mem_iUnion, Finset.mem_univ, exists_prop, true_and, Fin.exists_fin_succ, tubeRects,
        Rect.inside, mem_prod, mem_Ioo, Matrix.cons_val_zero, Matrix.cons_val_succ, IsEmpty.exists_iff, or_false]
      constructor
      · rintro ⟨⟨a1, a2, a3, a4⟩, h⟩
        rcases lt_or_gt_of_ne h1 with b1 | b1
        · exact .inl ⟨⟨a1, a2⟩, a3, b1⟩
        · rcases lt_or_gt_of_ne h2 with b2 | b2
          · by_cases c1 : p.1 < t
            · exact .inr (.inr (.inl ⟨⟨a1, c1⟩, b1, b2⟩))
            · by_cases c2 : b - t < p.1
              · exact .inr (.inr (.inr ⟨⟨c2, a2⟩, b1, b2⟩))
              · exact absurd ⟨not_lt.1 c1, not_lt.1 c2, b1.le, b2.le⟩ h
          · exact .inr (.inl ⟨⟨a1, a2⟩, b2, a4⟩)
      · rintro (⟨⟨a1, a2⟩, a3, a4⟩ | ⟨⟨a1, a2⟩, a3, a4⟩ | ⟨⟨a1, a2⟩, a3, a4⟩ | ⟨⟨a1, a2⟩, a3, a4⟩)
        · exact ⟨⟨a1, a2, a3, by linarith⟩, fun h => by linarith [h.2.2.1]⟩
        · exact ⟨⟨a1, a2, by linarith, a4⟩, fun h => by linarith [h.2.2.2]⟩
        · exact ⟨⟨a1, by linarith, by linarith, by linarith⟩, fun h => by linarith [h.1]⟩
        · exact ⟨⟨by linarith, a2, by linarith, by linarith⟩, fun h => by linarith [h.2.1]⟩
    exact propext key

/-- Principal second moments if the axes are principal. -/
theorem principal_of_ixy (hr : s.geometricAnalysis = .ok r) (h0 : r.cent.ixyC = 0) :
    r.cent.i11 = max r.cent.ixxC r.cent.iyyC ∧ r.cent.i22 = min r.cent.ixxC r.cent.iyyC := by
  obtain ⟨-, hc, -⟩ := geom_ok hr
  obtain ⟨c1, c2, c3, c4, c5, -⟩ := cent_ok hc
  rw [← c1, ← c2, ← c3, h0] at c4 c5
  have hm : mohrDelta r.cent.ixxC r.cent.iyyC 0 = |r.cent.ixxC - r.cent.iyyC| / 2 := by
    rw [mohrDelta, show (0 : ℝ) ^ 2 = 0 by norm_num, add_zero, Real.sqrt_sq_eq_abs, abs_div, abs_two]
  rw [c4, c5, i11Of, i22Of, hm]
  constructor
  · rcases le_total r.cent.ixxC r.cent.iyyC with h | h
    · rw [max_eq_right h, abs_of_nonpos (by linarith)]; ring
    · rw [max_eq_left h, abs_of_nonneg (by linarith)]; ring
  · rcases le_total r.cent.ixxC r.cent.iyyC with h | h
    · rw [min_eq_left h, abs_of_nonpos (by linarith)]; ring
    · rw [min_eq_right h, abs_of_nonneg (by linarith)]; ring

/-- **C88** A rectangle of width `b` and depth `d`, whatever the mesh. -/
theorem C88_rectangle (hr : s.geometricAnalysis = .ok r) (h : Physical s.elements) (hg : GoodSection s) (hu : NodesUsed s)
    (hno : NoOverlap s.elements) (hb : 0 < b) (hd : 0 < d)
    (hreg : region s.elements =ᵐ[volume] Ioo x0 (x0 + b) ×ˢ Ioo y0 (y0 + d))
    (hE : ∀ t ∈ s.elements, t.material.elasticModulus = E) :
    r.sums.area = b * d ∧ r.sums.ea = E * (b * d) ∧ r.cx = x0 + b / 2 ∧ r.cy = y0 + d / 2 ∧
    r.cent.ixxC = E * (b * d ^ 3 / 12) ∧ r.cent.iyyC = E * (d * b ^ 3 / 12) ∧ r.cent.ixyC = 0 ∧
    r.cent.i11 = max (E * (b * d ^ 3 / 12)) (E * (d * b ^ 3 / 12)) ∧
    r.cent.i22 = min (E * (b * d ^ 3 / 12)) (E * (d * b ^ 3 / 12)) ∧
    r.cent.zxxPlus = E * (b * d ^ 2 / 6) ∧ r.cent.zxxMinus = E * (b * d ^ 2 / 6) ∧
    r.cent.zyyPlus = E * (d * b ^ 2 / 6) ∧ r.cent.zyyMinus = E * (d * b ^ 2 / 6) ∧
    r.cent.rx = d / √12 ∧ r.cent.ry = b / √12 := by
  have hR := rectangles_one hb hd hreg
  have hE' : InRects s.elements {()} (oneRect x0 y0 b d) Material.elasticModulus fun _ => E := inRects_const hE
  have hE0 : 0 < E := by
    obtain ⟨t, ht⟩ := List.exists_mem_of_ne_nil _ h.nonempty
    rw [← hE t ht]
    exact h.modulus t ht
  obtain ⟨a1, a2, -⟩ := C88_sums hr h.proper hno hR hE'
  obtain ⟨b1, b2, b3, b4, b5⟩ := C88_parallel_axis hr h hno hR hE'
  obtain ⟨-, -, z1, z2, z3, z4⟩ := C88_moduli hr h hg hu hR (right := x0 + b) (left := x0) (top := y0 + d) (bottom := y0)
    (by simp [oneRect]) (by simp [oneRect]) (by simp [oneRect]) (by simp [oneRect])
  simp only [Finset.sum_singleton, oneRect, Rect.area, Rect.width, Rect.height, Rect.midX, Rect.midY, add_sub_cancel_left]
    at a1 a2 b1 b2 b3 b4 b5
  have hcx : r.cx = x0 + b / 2 := by rw [b1]; field_simp; ring
  have hcy : r.cy = y0 + d / 2 := by rw [b2]; field_simp; ring
  have hix : r.cent.ixxC = E * (b * d ^ 3 / 12) := by rw [b3, hcy]; ring
  have hiy : r.cent.iyyC = E * (d * b ^ 3 / 12) := by rw [b4, hcx]; ring
  have hixy : r.cent.ixyC = 0 := by rw [b5, hcx, hcy]; ring
  obtain ⟨p1, p2⟩ := principal_of_ixy hr hixy
  rw [hix, hiy] at p1 p2
  obtain ⟨-, hc, -⟩ := geom_ok hr
  obtain ⟨c1, c2, -, -, -, -, c7, c8, -⟩ := cent_ok hc
  rw [← c1, hix, a2] at c7
  rw [← c2, hiy, a2] at c8
  refine ⟨a1, a2, hcx, hcy, hix, hiy, hixy, p1, p2, ?_, ?_, ?_, ?_, ?_, ?_⟩
  · rw [z1, hix, hcy, show y0 + d - (y0 + d / 2) = d / 2 by ring]; field_simp; norm_num
  · rw [z2, hix, hcy, add_sub_cancel_left]; field_simp; norm_num
  · rw [z3, hiy, hcx, show x0 + b - (x0 + b / 2) = b / 2 by ring]; field_simp; norm_num
  · rw [z4, hiy, hcx, add_sub_cancel_left]; field_simp; norm_num
  · rw [c7, show E * (b * d ^ 3 / 12) / (E * (b * d)) = d ^ 2 / 12 by field_simp, Real.sqrt_div (sq_nonneg d), Real.sqrt_sq hd.le]
  · rw [c8, show E * (d * b ^ 3 / 12) / (E * (b * d)) = b ^ 2 / 12 by field_simp, Real.sqrt_div (sq_nonneg b), Real.sqrt_sq hb.le]

/-- **C88** The torsion constant of a rectangle: between `5/18` and `6/18` of `b³ d³ / (b² + d²)`. -/
theorem C88_rectangle_torsion (hg : GoodSection s) (h : Physical s.elements) (hc : ConformingMesh s.meshNodes s.elements)
    (hu : NodesUsed s) (hno : NoOverlap s.elements) (hr : s.geometricAnalysis = .ok r) (sv : Solvers) (ty : SolverType)
    (w : WarpResults s.numNodes) (hw : s.warping sv ty r = .ok w)
    (hex : SolvesBordered (assembleTorsion (s.elements.map fun t => t.shiftBy r.cx r.cy)).1
      (assembleTorsion (s.elements.map fun t => t.shiftBy r.cx r.cy)).2 w.omega) (hb : 0 < b) (hd : 0 < d)
    (hreg : region s.elements =ᵐ[volume] Ioo x0 (x0 + b) ×ˢ Ioo y0 (y0 + d))
    (hE : ∀ t ∈ s.elements, t.material.elasticModulus = E) :
    E * (5 / 18 * (b ^ 3 * d ^ 3 / (b ^ 2 + d ^ 2))) ≤ w.j ∧ w.j ≤ E * (6 / 18 * (b ^ 3 * d ^ 3 / (b ^ 2 + d ^ 2))) := by
  have hE0 : 0 < E := by
    obtain ⟨t, ht⟩ := List.exists_mem_of_ne_nil _ h.nonempty
    rw [← hE t ht]
    exact h.modulus t ht
  obtain ⟨k1, k2⟩ := C88_torsion hg h hc hno hr sv ty w hw hex (rectangles_one hb hd hreg) (inRects_const hE)
  obtain ⟨-, -, -, -, hix, hiy, hixy, -⟩ := C88_rectangle hr h hg hu hno hb hd hreg hE
  simp only [Finset.sum_singleton, oneRect, Rect.width, Rect.height, add_sub_cancel_left] at k1
  refine ⟨k1, k2.trans (le_of_eq ?_)⟩
  rw [hix, hiy, hixy]
  field_simp
  ring

/-- **C88** The plastic moments of a rectangle of yield strength `f`: `f b d² / 4` and `f d b² / 4`, up to the tolerance of the
root search times the squash load. -/
theorem C88_rectangle_plastic {P : Type} (env : Env P) {r : GeomResults} {reg : P → Set (ℝ × ℝ)} {tol : ℝ → ℝ} {f : ℝ}
    {st : Store env.sec.numNodes} (h : PlasticSetup env r reg tol st) (hno : NoOverlap env.sec.elements) (hb : 0 < b) (hd : 0 < d)
    (hreg : region env.sec.elements =ᵐ[volume] Ioo x0 (x0 + b) ×ˢ Ioo y0 (y0 + d))
    (hf : ∀ t ∈ env.sec.elements, t.material.yieldStrength = f) :
    ((env.plasticAnalysis.run.run st).1 = .error .runtimeError ∧
      ∃ g lo hi q, env.brentq g lo hi = .ok q ∧ q.converged = false) ∨
    ((env.plasticAnalysis.run.run st).1 = .ok () ∧ ∃ dx dy Sx Sy,
      (env.plasticAnalysis.run.run st).2.val .yPc = some dy ∧ (env.plasticAnalysis.run.run st).2.val .sxx = some Sx ∧
      (env.plasticAnalysis.run.run st).2.val .xPc = some dx ∧ (env.plasticAnalysis.run.run st).2.val .syy = some Sy ∧
      Sx - tol dy * (f * (b * d)) ≤ f * (b * d ^ 2 / 4) ∧ f * (b * d ^ 2 / 4) ≤ Sx + 2 * tol dy * (f * (b * d)) ∧
      Sy - tol dx * (f * (b * d)) ≤ f * (d * b ^ 2 / 4) ∧ f * (d * b ^ 2 / 4) ≤ Sy + 2 * tol dx * (f * (b * d))) := by
  have key := C88_plastic env h hno (rectangles_one hb hd hreg) (inRects_const hf) (zx := x0 + b / 2) (zy := y0 + d / 2)
    (by simp [oneRect, show x0 + b - (x0 + b / 2) = b / 2 by ring])
    (by simp [oneRect, show y0 + d - (y0 + d / 2) = d / 2 by ring])
  have e1 : rectMomentX (oneRect x0 y0 b d ()) (y0 + d / 2) = b * d ^ 2 / 4 := by
    simp only [rectMomentX, oneRect, Rect.width]
    rw [show y0 + d - (y0 + d / 2) = d / 2 by ring, show y0 - (y0 + d / 2) = -(d / 2) by ring, abs_neg,
      abs_of_pos (by linarith)]
    ring
  have e2 : rectMomentY (oneRect x0 y0 b d ()) (x0 + b / 2) = d * b ^ 2 / 4 := by
    simp only [rectMomentY, oneRect, Rect.height]
    rw [show x0 + b - (x0 + b / 2) = b / 2 by ring, show x0 - (x0 + b / 2) = -(b / 2) by ring, abs_neg,
      abs_of_pos (by linarith)]
    ring
  have e3 : (oneRect x0 y0 b d ()).area = b * d := by
    simp [Rect.area, Rect.width, Rect.height, oneRect]
  simp only [Finset.sum_singleton, e1, e2, e3] at key
  exact key

/-- **C88** An I-section with sharp corners. -/
theorem C88_i_section (hr : s.geometricAnalysis = .ok r) (h : Physical s.elements) (hg : GoodSection s) (hu : NodesUsed s)
    (hno : NoOverlap s.elements) (htf : 0 < tf) (htw : 0 < tw) (hb : tw < b) (hd : 2 * tf < d)
    (hreg : region s.elements =ᵐ[volume] iShape d b tf tw) (hE : ∀ t ∈ s.elements, t.material.elasticModulus = E) :
    r.sums.area = 2 * b * tf + (d - 2 * tf) * tw ∧ r.cx = b / 2 ∧ r.cy = d / 2 ∧
    r.cent.ixxC = E * ((b * d ^ 3 - (b - tw) * (d - 2 * tf) ^ 3) / 12) ∧
    r.cent.iyyC = E * ((2 * tf * b ^ 3 + (d - 2 * tf) * tw ^ 3) / 12) ∧ r.cent.ixyC = 0 ∧
    r.cent.zxxPlus = r.cent.ixxC / (d / 2) ∧ r.cent.zxxMinus = r.cent.ixxC / (d / 2) ∧
    r.cent.zyyPlus = r.cent.iyyC / (b / 2) ∧ r.cent.zyyMinus = r.cent.iyyC / (b / 2) := by
  have hR := rectangles_i htf htw hb hd hreg
  have hE' : InRects s.elements Finset.univ (iRects d b tf tw) Material.elasticModulus fun _ => E := inRects_const hE
  have hE0 : 0 < E := by
    obtain ⟨t, ht⟩ := List.exists_mem_of_ne_nil _ h.nonempty
    rw [← hE t ht]
    exact h.modulus t ht
  obtain ⟨a1, -⟩ := C88_sums hr h.proper hno hR hE'
  obtain ⟨b1, b2, b3, b4, b5⟩ := C88_parallel_axis hr h hno hR hE'
  obtain ⟨-, -, z1, z2, z3, z4⟩ := C88_moduli hr h hg hu hR (right := b) (left := 0) (top := d) (bottom := 0)
    ⟨⟨0, by simp, rfl⟩, by rintro _ ⟨i, -, rfl⟩; fin_cases i <;> simp [iRects]; linarith⟩
    ⟨⟨0, by simp, rfl⟩, by rintro _ ⟨i, -, rfl⟩; fin_cases i <;> simp [iRects]; linarith⟩
    ⟨⟨2, by simp, rfl⟩, by rintro _ ⟨i, -, rfl⟩; fin_cases i <;> simp [iRects] <;> linarith⟩
    ⟨⟨0, by simp, rfl⟩, by rintro _ ⟨i, -, rfl⟩; fin_cases i <;> simp [iRects] <;> linarith⟩
  simp only [Fin.sum_univ_three, iRects, Matrix.cons_val_zero, Matrix.cons_val_one, Matrix.cons_val, Rect.area, Rect.width,
    Rect.height, Rect.midX, Rect.midY] at a1 b1 b2 b3 b4 b5
  have hA : 0 < 2 * b * tf + (d - 2 * tf) * tw := by
    have : 0 < d - 2 * tf := by linarith
    have : 0 < b := by linarith
    positivity
  have hA' : E * ((b - 0) * (tf - 0)) + E * (((b + tw) / 2 - (b - tw) / 2) * (d - tf - tf)) + E * ((b - 0) * (d - (d - tf)))
      = E * (2 * b * tf + (d - 2 * tf) * tw) := by ring
  have hne : E * (2 * b * tf + (d - 2 * tf) * tw) ≠ 0 := (mul_pos hE0 hA).ne'
  have hcx : r.cx = b / 2 := by rw [b1, hA', div_eq_iff hne]; ring
  have hcy : r.cy = d / 2 := by rw [b2, hA', div_eq_iff hne]; ring
  rw [hcx, sub_zero] at z4
  rw [hcy, sub_zero] at z2
  rw [hcx, sub_half] at z3
  rw [hcy, sub_half] at z1
  refine ⟨by rw [a1]; ring, hcx, hcy, ?_, ?_, ?_, z1, z2, z3, z4⟩
  · rw [b3, hcy]; ring
  · rw [b4, hcx]; ring
  · rw [b5, hcx, hcy]; ring

/-- **C88** The plastic moments of an I-section with sharp corners: `f (b tf (d - tf) + tw (d - 2 tf)² / 4)` and
`f (tf b² / 2 + (d - 2 tf) tw² / 4)`, up to the tolerance of the root search times the squash load. -/
theorem C88_i_section_plastic {P : Type} (env : Env P) {r : GeomResults} {reg : P → Set (ℝ × ℝ)} {tol : ℝ → ℝ} {f : ℝ}
    {st : Store env.sec.numNodes} (h : PlasticSetup env r reg tol st) (hno : NoOverlap env.sec.elements) (htf : 0 < tf)
    (htw : 0 < tw) (hb : tw < b) (hd : 2 * tf < d) (hreg : region env.sec.elements =ᵐ[volume] iShape d b tf tw)
    (hf : ∀ t ∈ env.sec.elements, t.material.yieldStrength = f) :
    ((env.plasticAnalysis.run.run st).1 = .error .runtimeError ∧
      ∃ g lo hi q, env.brentq g lo hi = .ok q ∧ q.converged = false) ∨
    ((env.plasticAnalysis.run.run st).1 = .ok () ∧ ∃ dx dy Sx Sy,
      (env.plasticAnalysis.run.run st).2.val .yPc = some dy ∧ (env.plasticAnalysis.run.run st).2.val .sxx = some Sx ∧
      (env.plasticAnalysis.run.run st).2.val .xPc = some dx ∧ (env.plasticAnalysis.run.run st).2.val .syy = some Sy ∧
      Sx - tol dy * (f * (2 * b * tf + (d - 2 * tf) * tw)) ≤ f * (b * tf * (d - tf) + tw * (d - 2 * tf) ^ 2 / 4) ∧
      f * (b * tf * (d - tf) + tw * (d - 2 * tf) ^ 2 / 4) ≤ Sx + 2 * tol dy * (f * (2 * b * tf + (d - 2 * tf) * tw)) ∧
      Sy - tol dx * (f * (2 * b * tf + (d - 2 * tf) * tw)) ≤ f * (tf * b ^ 2 / 2 + (d - 2 * tf) * tw ^ 2 / 4) ∧
      f * (tf * b ^ 2 / 2 + (d - 2 * tf) * tw ^ 2 / 4) ≤ Sy + 2 * tol dx * (f * (2 * b * tf + (d - 2 * tf) * tw))) := by
  have a1 : |b - b / 2| = b / 2 := by rw [abs_of_pos] <;> linarith
  have a2 : |0 - b / 2| = b / 2 := by rw [abs_of_neg] <;> linarith
  have a3 : |(b + tw) / 2 - b / 2| = tw / 2 := by rw [abs_of_pos] <;> linarith
  have a4 : |(b - tw) / 2 - b / 2| = tw / 2 := by rw [abs_of_neg] <;> linarith
  have a5 : |tf - d / 2| = d / 2 - tf := by rw [abs_of_neg] <;> linarith
  have a6 : |0 - d / 2| = d / 2 := by rw [abs_of_neg] <;> linarith
  have a7 : |d - d / 2| = d / 2 := by rw [abs_of_pos] <;> linarith
  have a8 : |d - tf - d / 2| = d / 2 - tf := by rw [abs_of_pos] <;> linarith
  have key := C88_plastic env h hno (rectangles_i htf htw hb hd hreg) (inRects_const hf) (zx := b / 2) (zy := d / 2)
    (by
      simp only [Fin.sum_univ_three, iRects, Matrix.cons_val_zero, Matrix.cons_val_one, Matrix.cons_val, a1, a2, a3, a4]
      ring)
    (by
      simp only [Fin.sum_univ_three, iRects, Matrix.cons_val_zero, Matrix.cons_val_one, Matrix.cons_val, Rect.width, a5, a6, a7, a8]
      ring)
  simp only [Fin.sum_univ_three, rectMomentX, rectMomentY, iRects, Matrix.cons_val_zero, Matrix.cons_val_one, Matrix.cons_val,
    Rect.area, Rect.width, Rect.height, a1, a2, a3, a4, a5, a6, a7, a8] at key
  rcases key with hk | ⟨h1, dx, dy, Sx, Sy, k1, k2, k3, k4, k5, k6, k7, k8⟩
  · exact Or.inl hk
  · refine Or.inr ⟨h1, dx, dy, Sx, Sy, k1, k2, k3, k4, ?_, ?_, ?_, ?_⟩
    · linear_combination k5
    · linear_combination k6
    · linear_combination k7
    · linear_combination k8

/-- **C88** A rectangular tube with sharp corners. -/
theorem C88_tube (hr : s.geometricAnalysis = .ok r) (h : Physical s.elements) (hg : GoodSection s) (hu : NodesUsed s)
    (hno : NoOverlap s.elements) (ht : 0 < t) (hb : 2 * t < b) (hd : 2 * t < d)
    (hreg : region s.elements =ᵐ[volume] tubeShape d b t) (hE : ∀ t ∈ s.elements, t.material.elasticModulus = E) :
    r.sums.area = b * d - (b - 2 * t) * (d - 2 * t) ∧ r.cx = b / 2 ∧ r.cy = d / 2 ∧
    r.cent.ixxC = E * ((b * d ^ 3 - (b - 2 * t) * (d - 2 * t) ^ 3) / 12) ∧
    r.cent.iyyC = E * ((d * b ^ 3 - (d - 2 * t) * (b - 2 * t) ^ 3) / 12) ∧ r.cent.ixyC = 0 ∧
    r.cent.zxxPlus = r.cent.ixxC / (d / 2) ∧ r.cent.zxxMinus = r.cent.ixxC / (d / 2) ∧
    r.cent.zyyPlus = r.cent.iyyC / (b / 2) ∧ r.cent.zyyMinus = r.cent.iyyC / (b / 2) := by
  have hR := rectangles_tube ht hb hd hreg
  have hE' : InRects s.elements Finset.univ (tubeRects d b t) Material.elasticModulus fun _ => E := inRects_const hE
  have hE0 : 0 < E := by
    obtain ⟨t, ht⟩ := List.exists_mem_of_ne_nil _ h.nonempty
    rw [← hE t ht]
    exact h.modulus t ht
  obtain ⟨a1, -⟩ := C88_sums hr h.proper hno hR hE'
  obtain ⟨b1, b2, b3, b4, b5⟩ := C88_parallel_axis hr h hno hR hE'
  obtain ⟨-, -, z1, z2, z3, z4⟩ := C88_moduli hr h hg hu hR (right := b) (left := 0) (top := d) (bottom := 0)
    ⟨⟨0, by simp, rfl⟩, by rintro _ ⟨i, -, rfl⟩; fin_cases i <;> simp [tubeRects]; linarith⟩
    ⟨⟨0, by simp, rfl⟩, by rintro _ ⟨i, -, rfl⟩; fin_cases i <;> simp [tubeRects]; linarith⟩
    ⟨⟨1, by simp, rfl⟩, by rintro _ ⟨i, -, rfl⟩; fin_cases i <;> simp [tubeRects] <;> linarith⟩
    ⟨⟨0, by simp, rfl⟩, by rintro _ ⟨i, -, rfl⟩; fin_cases i <;> simp [tubeRects] <;> linarith⟩
  simp only [Fin.sum_univ_four, tubeRects, Matrix.cons_val_zero, Matrix.cons_val_one, Matrix.cons_val, Rect.area, Rect.width,
    Rect.height, Rect.midX, Rect.midY] at a1 b1 b2 b3 b4 b5
  have hA : 0 < 2 * b * t + 2 * (d - 2 * t) * t := by
    have : 0 < d - 2 * t := by linarith
    have : 0 < b := by linarith
    positivity
  have hA' : E * ((b - 0) * (t - 0)) + E * ((b - 0) * (d - (d - t))) + E * ((t - 0) * (d - t - t))
      + E * ((b - (b - t)) * (d - t - t)) = E * (2 * b * t + 2 * (d - 2 * t) * t) := by ring
  have hne : E * (2 * b * t + 2 * (d - 2 * t) * t) ≠ 0 := (mul_pos hE0 hA).ne'
  have hcx : r.cx = b / 2 := by rw [b1, hA', div_eq_iff hne]; ring
  have hcy : r.cy = d / 2 := by rw [b2, hA', div_eq_iff hne]; ring
  rw [hcx, sub_zero] at z4
  rw [hcy, sub_zero] at z2
  rw [hcx, sub_half] at z3
  rw [hcy, sub_half] at z1
  refine ⟨by rw [a1]; ring, hcx, hcy, ?_, ?_, ?_, z1, z2, z3, z4⟩
  · rw [b3, hcy]; ring
  · rw [b4, hcx]; ring
  · rw [b5, hcx, hcy]; ring

end SP
