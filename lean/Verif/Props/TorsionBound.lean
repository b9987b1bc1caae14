import Verif.Props.WarpMoment
import Verif.Props.Shear

/-!
# C82: the torsion constant and the second moments
-/

namespace SP

open Spec MeasureTheory

/-- The quadratic warping field of an ellipse with the same second moments. -/
noncomputable def ellipseField (ixx iyy ixy : ℝ) : ℝ × ℝ → ℝ :=
  quad 0 0 0 (ixy / (ixx + iyy)) ((ixx - iyy) / (ixx + iyy)) (-(ixy / (ixx + iyy)))

/-- **C82.** The torsion constant is at most that of an ellipse with the same principal second moments, and hence at most four
times the smaller of these (exact solution of the system). -/
theorem C82_torsion_bound (s : Section) (r : GeomResults) (hg : GoodSection s)
    (h : Physical s.elements) (hr : s.geometricAnalysis = .ok r) (sv : Solvers) (ty : SolverType)
    (w : WarpResults s.numNodes) (hw : s.warping sv ty r = .ok w)
    (hex : SolvesBordered (assembleTorsion (s.elements.map fun t => t.shiftBy r.cx r.cy)).1
      (assembleTorsion (s.elements.map fun t => t.shiftBy r.cx r.cy)).2 w.omega) :
    w.j ≤ 4 * r.cent.i11 * r.cent.i22 / (r.cent.i11 + r.cent.i22) ∧
    w.j ≤ 4 * (r.cent.ixxC * r.cent.iyyC - r.cent.ixyC ^ 2) / (r.cent.ixxC + r.cent.iyyC) ∧ w.j < 4 * r.cent.i22 := by
  obtain ⟨-, a2, -⟩ := C19_torsion_constant s r hg h hr sv ty w hw hex
  have hS := centroidalSetup hg h hr
  obtain ⟨-, -, p1, p2, -, p4, p5, -⟩ := C09_positive hr h
  obtain ⟨-, g2, -⟩ := geom_ok hr
  obtain ⟨c1, c2, c3, c4, c5, -⟩ := cent_ok g2
  have hsum : r.cent.i11 + r.cent.i22 = r.cent.ixxC + r.cent.iyyC := by
    rw [c1, c2, c4, c5]; exact i11_add_i22 _ _ _
  have hprod : r.cent.i11 * r.cent.i22 = r.cent.ixxC * r.cent.iyyC - r.cent.ixyC ^ 2 := by
    rw [c1, c2, c3, c4, c5]; exact i11_mul_i22 _ _ _
  have hpos : 0 < r.cent.ixxC + r.cent.iyyC := by linarith
  set f := ellipseField r.cent.ixxC r.cent.iyyC r.cent.ixyC with hf
  have hF : FEField (s.elements.map fun t => t.shiftBy r.cx r.cy)
      (fun i => f ((s.meshNodes i).1 - r.cx, (s.meshNodes i).2 - r.cy)) fun _ => f := by
    intro t ht
    refine ⟨quad_mem _ _ _ _ _ _, fun k => ?_⟩
    have e1 := (hS.linX t ht).2 k
    have e2 := (hS.linY t ht).2 k
    simp only at e1 e2
    rw [e1, e2]
  have hE : twistEnergy (s.elements.map fun t => t.shiftBy r.cx r.cy) (fun _ => f)
      = 4 * (r.cent.ixxC * r.cent.iyyC - r.cent.ixyC ^ 2) / (r.cent.ixxC + r.cent.iyyC) := by
    rw [twistEnergy]
    set T := r.cent.ixxC + r.cent.iyyC with hT
    rw [wInt_congr (g := fun _ p =>
      ((2 * (r.cent.ixyC / T)) ^ 2 + (2 * (r.cent.ixxC / T)) ^ 2) * p.1 ^ 2
      + (-(8 * (r.cent.ixyC / T) * (r.cent.iyyC / T)) - 8 * (r.cent.ixyC / T) * (r.cent.ixxC / T)) * (p.1 * p.2)
      + ((2 * (r.cent.ixyC / T)) ^ 2 + (2 * (r.cent.iyyC / T)) ^ 2) * p.2 ^ 2) fun t _ p => ?_, wInt_quadmom, hS.ixx,
      hS.iyy, hS.ixy]
    · rw [hT]; field_simp; ring
    · have e1 : (r.cent.ixxC - r.cent.iyyC) / T = 2 * (r.cent.ixxC / T) - 1 := by rw [hT]; field_simp; ring
      have e2 : r.cent.iyyC / T = 1 - r.cent.ixxC / T := by rw [hT]; field_simp; ring
      simp only [hf, ellipseField, quad_dX, quad_dY, ← hT]
      rw [e1, e2]
      ring
  have hb := a2 _ _ hF
  rw [hE] at hb
  have hb1 : w.j ≤ 4 * r.cent.i11 * r.cent.i22 / (r.cent.i11 + r.cent.i22) := by
    rw [mul_assoc, hsum, hprod]; exact hb
  refine ⟨hb1, hb, lt_of_le_of_lt hb1 ?_⟩
  have h11 : 0 < r.cent.i11 := lt_of_lt_of_le p5 p4
  rw [div_lt_iff₀ (by linarith)]
  nlinarith [mul_pos p5 p5]

/-- The composite rectangle, with an exact solver. -/
example : ∃ r w, exSection.geometricAnalysis = .ok r ∧ exSection.warping exactSolvers .direct r = .ok w ∧
    w.j < 4 * r.cent.i22 := by
  obtain ⟨r, hr⟩ := geometricAnalysis_ok exSection (by simp [exSection])
  obtain ⟨w, hw, h1, -⟩ := exact_warping exSection r exSection_good exSection_physical hr (ex_linked r.cx r.cy)
  exact ⟨r, w, hr, hw,
    (C82_torsion_bound exSection r exSection_good exSection_physical hr _ _ w hw h1).2.2⟩

end SP
