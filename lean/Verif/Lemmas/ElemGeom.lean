import Verif.Lemmas.Element
import Verif.Model.Section

/-!
# Closed forms of the element integrals and elementary facts on sums over elements
-/

namespace SP

open Spec

variable {n : ℕ} {t : Tri6 n}

theorem geom_area (hs : Straight t.coords) :
    t.geometricProperties.area = elemDet t.coords / 2 := by
  have : t.geometricProperties.area = accum gauss4 fun gp => gp.w * (elemDet t.coords / 2) := by
    dsimp only [Tri6.geometricProperties]
    refine accum_gauss4_congr fun gp h => ?_
    simp only [sf_j hs (gauss4_bary gp h)]
  rw [this, accum_gauss4]; ring

theorem geom_qx (hs : Straight t.coords) : t.geometricProperties.qx
    = elemDet t.coords / 2 * ((t.coords.y 0 + t.coords.y 1 + t.coords.y 2) / 3) := by
  have : t.geometricProperties.qx
      = accum gauss4 fun gp => gp.w * (elemDet t.coords / 2) * posY t.coords gp := by
    dsimp only [Tri6.geometricProperties]
    refine accum_gauss4_congr fun gp h => ?_
    simp only [sf_j hs (gauss4_bary gp h), sf_ny hs (gauss4_bary gp h)]
  rw [this, accum_gauss4]; simp only [posY]; ring

theorem geom_qy (hs : Straight t.coords) : t.geometricProperties.qy
    = elemDet t.coords / 2 * ((t.coords.x 0 + t.coords.x 1 + t.coords.x 2) / 3) := by
  have : t.geometricProperties.qy
      = accum gauss4 fun gp => gp.w * (elemDet t.coords / 2) * posX t.coords gp := by
    dsimp only [Tri6.geometricProperties]
    refine accum_gauss4_congr fun gp h => ?_
    simp only [sf_j hs (gauss4_bary gp h), sf_nx hs (gauss4_bary gp h)]
  rw [this, accum_gauss4]; simp only [posX]; ring

/-- Mean of the product of two affine functions given by their corner values. -/
noncomputable def mean2 (a0 a1 a2 b0 b1 b2 : ℝ) : ℝ :=
  (a0 * b0 + a1 * b1 + a2 * b2 + (a0 + a1 + a2) * (b0 + b1 + b2)) / 12

theorem geom_ixx (hs : Straight t.coords) : t.geometricProperties.ixx
    = elemDet t.coords / 2 * mean2 (t.coords.y 0) (t.coords.y 1) (t.coords.y 2)
        (t.coords.y 0) (t.coords.y 1) (t.coords.y 2) := by
  have : t.geometricProperties.ixx
      = accum gauss4 fun gp => gp.w * (elemDet t.coords / 2) * posY t.coords gp ^ 2 := by
    dsimp only [Tri6.geometricProperties]
    refine accum_gauss4_congr fun gp h => ?_
    simp only [sf_j hs (gauss4_bary gp h), sf_ny hs (gauss4_bary gp h)]
  rw [this, accum_gauss4]; simp only [posY, mean2]; ring

theorem geom_iyy (hs : Straight t.coords) : t.geometricProperties.iyy
    = elemDet t.coords / 2 * mean2 (t.coords.x 0) (t.coords.x 1) (t.coords.x 2)
        (t.coords.x 0) (t.coords.x 1) (t.coords.x 2) := by
  have : t.geometricProperties.iyy
      = accum gauss4 fun gp => gp.w * (elemDet t.coords / 2) * posX t.coords gp ^ 2 := by
    dsimp only [Tri6.geometricProperties]
    refine accum_gauss4_congr fun gp h => ?_
    simp only [sf_j hs (gauss4_bary gp h), sf_nx hs (gauss4_bary gp h)]
  rw [this, accum_gauss4]; simp only [posX, mean2]; ring

theorem geom_ixy (hs : Straight t.coords) : t.geometricProperties.ixy
    = elemDet t.coords / 2 * mean2 (t.coords.x 0) (t.coords.x 1) (t.coords.x 2)
        (t.coords.y 0) (t.coords.y 1) (t.coords.y 2) := by
  have : t.geometricProperties.ixy = accum gauss4 fun gp =>
      gp.w * (elemDet t.coords / 2) * posY t.coords gp * posX t.coords gp := by
    dsimp only [Tri6.geometricProperties]
    refine accum_gauss4_congr fun gp h => ?_
    simp only [sf_j hs (gauss4_bary gp h), sf_nx hs (gauss4_bary gp h),
        sf_ny hs (gauss4_bary gp h)]
  rw [this, accum_gauss4]; simp only [posX, posY, mean2]; ring

/-! ### True integrals -/

theorem polyOne : (fun _ : ℝ × ℝ => (1 : ℝ)) ∈ PolyLE 3 := PolyLE.const 3 1
theorem polyX : (fun p : ℝ × ℝ => p.1) ∈ PolyLE 3 := PolyLE.mono (by omega) PolyLE.fst
theorem polyY : (fun p : ℝ × ℝ => p.2) ∈ PolyLE 3 := PolyLE.mono (by omega) PolyLE.snd
theorem polyXX : (fun p : ℝ × ℝ => p.1 ^ 2) ∈ PolyLE 3 :=
  PolyLE.mono (by omega) (PolyLE.pow PolyLE.fst 2)
theorem polyYY : (fun p : ℝ × ℝ => p.2 ^ 2) ∈ PolyLE 3 :=
  PolyLE.mono (by omega) (PolyLE.pow PolyLE.snd 2)
theorem polyXY : (fun p : ℝ × ℝ => p.1 * p.2) ∈ PolyLE 3 :=
  PolyLE.mono (by omega) (PolyLE.mul PolyLE.fst PolyLE.snd)

open MeasureTheory

theorem geom_area_int (hp : Proper t.coords) :
    t.geometricProperties.area = ∫ _p in elemRegion t.coords, (1 : ℝ) := by
  rw [← accum_gauss4_integral hp polyOne]
  dsimp only [Tri6.geometricProperties]
  refine accum_gauss4_congr fun gp h => ?_
  simp only [sf_j hp.1 (gauss4_bary gp h), mul_one]

theorem geom_qx_int (hp : Proper t.coords) :
    t.geometricProperties.qx = ∫ p in elemRegion t.coords, p.2 := by
  rw [← accum_gauss4_integral hp polyY]
  dsimp only [Tri6.geometricProperties]
  refine accum_gauss4_congr fun gp h => ?_
  simp only [sf_j hp.1 (gauss4_bary gp h), sf_ny hp.1 (gauss4_bary gp h)]

theorem geom_qy_int (hp : Proper t.coords) :
    t.geometricProperties.qy = ∫ p in elemRegion t.coords, p.1 := by
  rw [← accum_gauss4_integral hp polyX]
  dsimp only [Tri6.geometricProperties]
  refine accum_gauss4_congr fun gp h => ?_
  simp only [sf_j hp.1 (gauss4_bary gp h), sf_nx hp.1 (gauss4_bary gp h)]

theorem geom_ixx_int (hp : Proper t.coords) :
    t.geometricProperties.ixx = ∫ p in elemRegion t.coords, p.2 ^ 2 := by
  rw [← accum_gauss4_integral hp polyYY]
  dsimp only [Tri6.geometricProperties]
  refine accum_gauss4_congr fun gp h => ?_
  simp only [sf_j hp.1 (gauss4_bary gp h), sf_ny hp.1 (gauss4_bary gp h)]

theorem geom_iyy_int (hp : Proper t.coords) :
    t.geometricProperties.iyy = ∫ p in elemRegion t.coords, p.1 ^ 2 := by
  rw [← accum_gauss4_integral hp polyXX]
  dsimp only [Tri6.geometricProperties]
  refine accum_gauss4_congr fun gp h => ?_
  simp only [sf_j hp.1 (gauss4_bary gp h), sf_nx hp.1 (gauss4_bary gp h)]

theorem geom_ixy_int (hp : Proper t.coords) :
    t.geometricProperties.ixy = ∫ p in elemRegion t.coords, p.1 * p.2 := by
  rw [← accum_gauss4_integral hp polyXY]
  dsimp only [Tri6.geometricProperties]
  refine accum_gauss4_congr fun gp h => ?_
  simp only [sf_j hp.1 (gauss4_bary gp h), sf_nx hp.1 (gauss4_bary gp h),
      sf_ny hp.1 (gauss4_bary gp h)]
  ring

end SP
