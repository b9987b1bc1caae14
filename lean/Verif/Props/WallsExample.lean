import Verif.Props.Walls
import Verif.Props.AddBarsExample
import Verif.Props.ConcreteWalls
import Verif.Props.ConcreteCores

/-!
# C86: examples

Each theorem is applied to a section as it is built in the documentation's examples, with two layers of bars.
-/

namespace SP

open Spec MeasureTheory

theorem exConvex : ConvexKind exBarKind punchedReg where
  convex p h := by simp [punchedReg, h.1]
  boxes x₀ y₀ x₁ y₁ g1 g2 g3 g4 hx _ := by
    refine ⟨rfl, Or.inr ⟨?_, ?_⟩⟩
    · intro r hr v hv
      rw [List.mem_singleton] at hr
      subst hr
      simp only [List.mem_cons, List.not_mem_nil, or_false] at hv
      rcases hv with rfl | rfl | rfl | rfl <;> constructor <;> assumption
    · by_contra h
      push Not at h
      have h1 := h (x₀, y₀) (by simp)
      have h2 := h (x₁, y₀) (by simp)
      simp only [Prod.mk.injEq] at h1 h2
      exact hx (h1.1.trans h2.1.symm)

theorem exShort (l : List ℕ) : Short (l.map (Nat.cast : ℕ → ℝ)) := by
  intro x hx
  obtain ⟨n, _, rfl⟩ := List.mem_map.1 hx
  exact ⟨n * 10 ^ 11, by push_cast; field_simp; norm_num⟩

/-- A rectangular wall. -/
example : ∃ ps, WallIs punchedReg exConcrete exSteel (rectangleOf 180 1000) 16 110 ps
    (rectangularWall exOps exCut 1000 180 12 110 150 30 true 16 exConcrete exSteel) := by
  obtain ⟨ps, hps, _⟩ := C50_rectangular_wall_partial 1000 180 12 150 30 true (by norm_num) (by norm_num) (by norm_num) (by norm_num)
  refine ⟨ps, C86_rectangular_wall exOps exCut_exactly exConvex exMaterials_ne (by simpa using exShort [1000, 180]) (by norm_num)
    (by norm_num) (by norm_num) (by norm_num) hps fun _ _ => bar_kind _ (by norm_num) (by norm_num) ..⟩

/-- A cee wall: its bars, with the cover of C50, are in the very outline that C86 says is built. -/
example : ∃ ps, WallIs punchedReg exConcrete exSteel (channelOf 1500 2000 200 180) 16 110 ps
      (ceeWall exOps exCut 2000 1500 200 180 12 110 150 30 true 16 exConcrete exSteel) ∧
    ∀ p ∈ ps, HasCover (channelOf 1500 2000 200 180) 36 p := by
  obtain ⟨ps, hps, h, _⟩ := C50_cee_wall_double_partial 2000 1500 200 180 12 150 30 (by norm_num) (by norm_num) (by norm_num)
    (by norm_num) (by norm_num) (by norm_num)
  refine ⟨ps, C86_cee_wall exOps exCut_exactly exConvex exMaterials_ne (by simpa using exShort [2000, 1500, 200, 180]) (by norm_num)
    (by norm_num) (by norm_num) (by norm_num) (by norm_num) (by norm_num) hps fun _ _ => bar_kind _ (by norm_num) (by norm_num) .., ?_⟩
  norm_num at h
  exact fun p hp => h p.1 p.2 hp

/-- A tee wall. -/
example : ∃ ps, WallIs punchedReg exConcrete exSteel (teeOf 1000 1200 200 150) 16 110 ps
    (teeWall exOps exCut 1200 1000 200 150 12 110 150 30 true 16 exConcrete exSteel) := by
  obtain ⟨ps, hps, _⟩ := C50_tee_wall_double_partial 1200 1000 200 150 12 150 30 (by norm_num) (by norm_num) (by norm_num)
    (by norm_num) (by norm_num) (by norm_num)
  exact ⟨ps, C86_tee_wall exOps exCut_exactly exConvex exMaterials_ne (by simpa using exShort [1200, 1000, 200, 150]) (by norm_num)
    (by norm_num) (by norm_num) (by norm_num) (by norm_num) (by norm_num) hps fun _ _ => bar_kind _ (by norm_num) (by norm_num) ..⟩

/-- A single lift core. -/
example : ∃ ps, WallIs punchedReg exConcrete exSteel (withDoor (boxOf 1500 1500 200 200) 1500 200 ((1500 - 800) / 2) 800) 16 110 ps
    (singleLiftCore exOps exCut 1500 1500 200 200 800 12 110 150 30 true 16 exConcrete exSteel) := by
  obtain ⟨ps, hps, _⟩ := C50_single_lift_core_double_partial 1500 1500 200 200 800 12 150 30 (by norm_num) (by norm_num) (by norm_num)
    (by norm_num) (by norm_num) (by norm_num) (by norm_num)
  exact ⟨ps, C86_single_lift_core exOps exCut_exactly exConvex exMaterials_ne
    (by simpa using exShort [1500, 1500, 200, 200, 800]) (by norm_num) (by norm_num) (by norm_num) (by norm_num) (by norm_num)
    (by norm_num) (by norm_num) hps fun _ _ => bar_kind _ (by norm_num) (by norm_num) ..⟩

/-- A double lift core without an inner wall. -/
example : ∃ ps, WallIs punchedReg exConcrete exSteel
    (withDoor (withDoor (boxOf 1800 3200 200 180) 1800 180 (200 + 350) 900) 1800 180 (3200 - 200 - 350 - 900) 900) 16 110 ps
    (doubleLiftCoreA exOps exCut 3200 1800 200 180 900 300 12 110 150 30 true 16 exConcrete exSteel) := by
  obtain ⟨ps, hps, _⟩ := C50_double_lift_core_a_double_partial 3200 1800 200 180 900 300 12 150 30 350 (by norm_num) (by norm_num)
    (by norm_num) (by norm_num) (by norm_num) (by norm_num) (by norm_num) (by norm_num) (by norm_num)
  exact ⟨ps, C86_double_lift_core_a exOps exCut_exactly exConvex exMaterials_ne
    (by simpa using exShort [3200, 1800, 200, 180, 900, 300]) (by norm_num) (by norm_num) (by norm_num) (by norm_num) (by norm_num)
    (by norm_num) (by norm_num) (by norm_num) (by norm_num) (by norm_num) hps
    fun _ _ => bar_kind _ (by norm_num) (by norm_num) ..⟩

/-- A double lift core with an inner wall. -/
example : ∃ ps, WallIs punchedReg exConcrete exSteel
    (withDoor (withDoor (twinBoxOf 1800 3200 200 180 160) 1800 180 (200 + 210) 900) 1800 180 (3200 - 200 - 210 - 900) 900) 16 110 ps
    (doubleLiftCoreB exOps exCut 3200 1800 200 180 160 900 12 110 150 30 true 16 exConcrete exSteel) := by
  obtain ⟨ps, hps, _⟩ := C50_double_lift_core_b_double_partial 3200 1800 200 180 160 900 12 150 30 210 580 (by norm_num) (by norm_num)
    (by norm_num) (by norm_num) (by norm_num) (by norm_num) (by norm_num) (by norm_num) (by norm_num) (by norm_num) (by norm_num)
  exact ⟨ps, C86_double_lift_core_b exOps exCut_exactly exConvex exMaterials_ne
    (by simpa using exShort [3200, 1800, 200, 180, 160, 900]) (by norm_num) (by norm_num) (by norm_num) (by norm_num) (by norm_num)
    (by norm_num) (by norm_num) ⟨210 * 10 ^ 12, by push_cast; norm_num⟩ (by norm_num) (by norm_num) hps
    fun _ _ => bar_kind _ (by norm_num) (by norm_num) ..⟩

/-- A stairwell. -/
example : ∃ ps, WallIs punchedReg exConcrete exSteel (withDoor (boxOf 2500 5000 200 180) 2500 180 (5000 - 200 - 900) 900) 16 110 ps
    (stairwell exOps exCut 5000 2500 200 180 900 12 110 150 30 true 16 exConcrete exSteel) := by
  obtain ⟨ps, hps, _⟩ := C50_stairwell_double_partial 5000 2500 200 180 900 12 150 30 (by norm_num) (by norm_num) (by norm_num)
    (by norm_num) (by norm_num) (by norm_num) (by norm_num)
  exact ⟨ps, C86_stairwell exOps exCut_exactly exConvex exMaterials_ne
    (by simpa using exShort [5000, 2500, 200, 180, 900]) (by norm_num) (by norm_num) (by norm_num) (by norm_num) (by norm_num)
    (by norm_num) (by norm_num) hps fun _ _ => bar_kind _ (by norm_num) (by norm_num) ..⟩

/-- A column. -/
example : ∃ r bars, concreteColumnSection exOps exCut 600 300 25 500 3 6 35 4 false exConcrete exSteel = .ok r ∧
    ConcreteWith punchedReg exConcrete exSteel (rectangleOf 300 600) bars r ∧ PartsApart punchedReg r := by
  obtain ⟨ps, _, h⟩ := C86_column exOps exCut_exactly exConvex (d := 600) (b := 300) (dia := 25) (area := 500) (cover := 35) (nX := 3)
    (nY := 6) (nCircle := 4) (filled := false) exMaterials_ne (by simpa using exShort [600, 300]) (by norm_num) (by norm_num)
    (by norm_num) (by norm_num) (by norm_num) (by norm_num)
  obtain ⟨r, bars, h1, _, h2⟩ := h fun _ _ => bar_kind _ (by norm_num) (by norm_num) ..
  exact ⟨r, bars, h1, h2⟩

/-- Beams. -/
example := C86_rectangular_beam exOps exCut_exactly exConvex (d := 600) (b := 300) (diaTop := 16) (areaTop := 200) (nTop := 3)
  (cTop := 32) (diaBot := 20) (areaBot := 310) (nBot := 3) (cBot := 42) (diaSide := some 12) (areaSide := some 110) (nSide := 3)
  (cSide := 57) (nCircle := 16) rfl exMaterials_ne (by simpa using exShort [600, 300]) (by norm_num) (by norm_num) (by norm_num)
  (by norm_num) (by intro a h _; obtain rfl := Option.some.inj h; norm_num)
  (by norm_num) (by norm_num) (fun _ _ => bar_kind _ (by norm_num) (by norm_num) ..)
  (fun _ _ => bar_kind _ (by norm_num) (by norm_num) ..) (fun _ _ _ => pair_kind _ (by norm_num) (by norm_num) ..)

example := C86_tee_beam exOps exCut_exactly exConvex (d := 900) (b := 300) (dF := 150) (bF := 1200) (diaTop := 24) (areaTop := 450)
  (nTop := 8) (cTop := 30) (diaBot := 28) (areaBot := 620) (nBot := 3) (cBot := 42) (diaSide := none) (areaSide := none)
  (nSide := 0) (cSide := 42) (nCircle := 16) rfl exMaterials_ne (by simpa using exShort [900, 300, 150, 1200]) (by norm_num)
  (by norm_num) (by norm_num) (by norm_num) (by norm_num) (by norm_num)
  (by nofun) (by norm_num) (fun _ _ => bar_kind _ (by norm_num) (by norm_num) ..)
  (fun _ _ => bar_kind _ (by norm_num) (by norm_num) ..) (by simp [teeBars])

end SP
