import Verif.Model.Library
import Verif.Model.SetOps

/-!
# Model of the sections with sloping faces and of the bridge sections

`tapered_flange_i_section`, `tapered_flange_channel`, `box_girder_section`, `bulb_section` (steel_sections.py),
`super_t_girder_section`, `i_girder_section` (bridge_sections.py), `nastran_tube`, `nastran_tube2`
(nastran_sections.py).  The loops of the tapered sections compute the points of arcs with the same formula as
`draw_radius`, and the point they append for radius zero is the centre of that arc, so they are written with
`drawRadius`.
-/

namespace SP

open Classical

/-! ### steel_sections.py -/

/-- steel_sections.py 601-745: the points of `tapered_flange_i_section`; `a` is `alpha_rad`. -/
noncomputable def taperedIPts (d b tf tw rr rf a : ℝ) (nr : ℕ) : List Pt :=
  let x1 := b / 4 - tw / 4 - rf * (1 - Real.sin a)
  let y1 := x1 * Real.tan a
  let x2 := b / 4 - tw / 4 - rr * (1 - Real.sin a)
  let y2 := x2 * Real.tan a
  let yt := tf - y1 - rf * Real.cos a
  let φ := Real.pi * (1 / 2) - a
  [(0, 0), (b, 0)]
    ++ drawRadius (b - rf, yt) rf 0 nr true φ
    ++ drawRadius (b / 2 + tw / 2 + rr, tf + y2 + rr * Real.cos a) rr (3 / 2 * Real.pi - a) nr false φ
    ++ drawRadius (b / 2 + tw / 2 + rr, d - tf - y2 - rr * Real.cos a) rr Real.pi nr false φ
    ++ drawRadius (b - rf, d - yt) rf (3 / 2 * Real.pi + a) nr true φ
    ++ [(b, d), (0, d)]
    ++ drawRadius (rf, d - yt) rf Real.pi nr true φ
    ++ drawRadius (b / 2 - tw / 2 - rr, d - tf - y2 - rr * Real.cos a) rr (Real.pi * (1 / 2) - a) nr false φ
    ++ drawRadius (b / 2 - tw / 2 - rr, tf + y2 + rr * Real.cos a) rr 0 nr false φ
    ++ drawRadius (rf, yt) rf (Real.pi * (1 / 2) + a) nr true φ

/-- steel_sections.py 549-749. -/
noncomputable def taperedFlangeISection (ops : GeomOps) (d b tf tw rr rf alpha : ℝ) (nr : ℕ) (m : Material) : Geometry :=
  libGeom ops (taperedIPts d b tf tw rr rf (Real.pi * alpha / 180) nr) m

/-- steel_sections.py 871-951: the points of `tapered_flange_channel`; `a` is `alpha_rad`. -/
noncomputable def taperedChannelPts (d b tf tw rr rf a : ℝ) (nr : ℕ) : List Pt :=
  let x1 := b / 2 - tw / 2 - rf * (1 - Real.sin a)
  let y1 := x1 * Real.tan a
  let x2 := b / 2 - tw / 2 - rr * (1 - Real.sin a)
  let y2 := x2 * Real.tan a
  let yt := tf - y1 - rf * Real.cos a
  let φ := Real.pi * (1 / 2) - a
  [(0, 0), (b, 0)]
    ++ drawRadius (b - rf, yt) rf 0 nr true φ
    ++ drawRadius (tw + rr, tf + y2 + rr * Real.cos a) rr (3 / 2 * Real.pi - a) nr false φ
    ++ drawRadius (tw + rr, d - tf - y2 - rr * Real.cos a) rr Real.pi nr false φ
    ++ drawRadius (b - rf, d - yt) rf (3 / 2 * Real.pi + a) nr true φ
    ++ [(b, d), (0, d)]

/-- steel_sections.py 819-955. -/
noncomputable def taperedFlangeChannel (ops : GeomOps) (d b tf tw rr rf alpha : ℝ) (nr : ℕ) (m : Material) : Geometry :=
  libGeom ops (taperedChannelPts d b tf tw rr rf (Real.pi * alpha / 180) nr) m

/-- steel_sections.py 1513-1519: the angles `(phi_b, phi_t)` of the side walls. -/
noncomputable def girderAngles (d bt bb : ℝ) : ℝ × ℝ :=
  if bt < bb then
    let phiB := arctan2 d ((bb - bt) / 2)
    (phiB, Real.pi - phiB)
  else
    let phiT := arctan2 d ((bt - bb) / 2)
    (Real.pi - phiT, phiT)

/-- steel_sections.py 1526-1530. -/
noncomputable def girderOuter (d bt bb : ℝ) : List Pt :=
  let xc := max bt bb / 2
  [(xc - bb / 2, 0), (xc + bb / 2, 0), (xc + bt / 2, d), (xc - bt / 2, d)]

/-- steel_sections.py 1521-1524, 1532-1536.  For vertical walls `np.tan` of the rounded right angle is about `1.6e16`,
so that the offsets are zero up to rounding, as here, where the exact tangent is 0 and `x / 0 = 0`. -/
noncomputable def girderInner (d bt bb tft tfb tw : ℝ) : List Pt :=
  let xc := max bt bb / 2
  let ang := girderAngles d bt bb
  let xBot := tfb / Real.tan (Real.pi - ang.1)
  let xTop := tft / Real.tan (Real.pi - ang.2)
  let webX := |tw / Real.sin (Real.pi - ang.1)|
  [(xc - bb / 2 - xBot + webX, tfb), (xc + bb / 2 + xBot - webX, tfb),
   (xc + bt / 2 + xTop - webX, d - tft), (xc - bt / 2 - xTop + webX, d - tft)]

/-- steel_sections.py 1461-1546. -/
noncomputable def boxGirderSection (ops : GeomOps) (d bt bb tft tfb tw : ℝ) (m : Material) : Except PyErr Geometry :=
  hollow ops (girderOuter d bt bb) [girderInner d bt bb tft tfb tw] m

/-- steel_sections.py 1591-1629: the points of `bulb_section`. -/
noncomputable def bulbPts (d b t r : ℝ) (nr : ℕ) (db : Option ℝ) : List Pt :=
  let db := db.getD (r * Real.cos (Real.pi / 3) / Real.cos (Real.pi / 6) + r + b * Real.tan (Real.pi / 6))
  let dc := r / Real.sin (2 / 3 * Real.pi / 2)
  let ptb0 : Pt := (t / 2 + dc * Real.cos (Real.pi / 6), d - db - dc * Real.cos (Real.pi / 3))
  let ptb : Pt := (b + t / 2 - r, d - r)
  ([(-t / 2, 0), (t / 2, 0)] ++ drawRadius ptb0 r Real.pi nr false (Real.pi / 3)
      ++ drawRadius ptb r (-Real.pi * 1 / 3) nr true (Real.pi / 3)).dropLast
    ++ quarter ptb r 0 nr true ++ [(-t / 2, d)]

/-- steel_sections.py 1549-1633. -/
noncomputable def bulbSection (ops : GeomOps) (d b t r : ℝ) (nr : ℕ) (db : Option ℝ) (m : Material) : Geometry :=
  libGeom ops (bulbPts d b t r nr db) m

/-! ### bridge_sections.py -/

/-- bridge_sections.py 203-228: `get_super_t_girder_dims`, `(d, t_b, t_w)`; `none` is a `KeyError`, which cannot happen
after the check of the type. -/
noncomputable def superTDims (girderType : ℤ) : Option (ℝ × ℝ × ℝ) :=
  if girderType = 1 then some (675, 240, 100)
  else if girderType = 2 then some (925, 240, 100)
  else if girderType = 3 then some (1125, 260, 100)
  else if girderType = 4 then some (1425, 260, 100)
  else if girderType = 5 then some (1725, 325, 120)
  else none

/-- bridge_sections.py 66-136: the points of `super_t_girder_section`, for the dimensions of the type and the
constants `flg_slope` and `w_nom` of the subtype. -/
noncomputable def superTPts (flgSlope wNom d tb w tw tf : ℝ) : List Pt :=
  let webSlope : ℝ := 10.556
  let webHyp := √(1 + webSlope ^ 2)
  let webHoriz := tw * webSlope / webHyp
  let xFillet := wNom / 2 - 75 * 1 / webHyp
  let ptB := wNom / 2 - webHoriz + (tf - 25) / webSlope
  let ptA := ptB + 25
  let btm := xFillet - d / webSlope
  let y10 := tf - 25
  let y20 := -(d - tb)
  let yInner := 1 / (1 / webSlope - flgSlope) * (y10 / webSlope - y20 * flgSlope - ptB)
  let xInner := flgSlope * (y20 - yInner)
  [(ptB, tf - 25), (ptA, tf - 25), (ptA, tf),
   (w / 2, tf), (w / 2, 13), (w / 2 - 13, 0), (wNom / 2 + 100, 0), (xFillet, -75),
   (btm + 13 / webSlope, -(d - 13)), (btm - 13, -d), (-btm + 13, -d), (-btm - 13 / webSlope, -(d - 13)),
   (-xFillet, -75), (-wNom / 2 - 100, 0), (-w / 2 + 13, 0), (-w / 2, 13), (-w / 2, tf),
   (-ptA, tf), (-ptA, tf - 25), (-ptB, tf - 25),
   (xInner, yInner), (0, y20), (-xInner, yInner)]

/-- bridge_sections.py 12-138: `super_t_girder_section`. -/
noncomputable def superTSection (ops : GeomOps) (girderType subtype : ℤ) (w : ℝ) (tw : Option ℝ) (tf : ℝ) (m : Material) :
    Except PyErr Geometry :=
  if girderType < 1 ∨ girderType > 5 then .error .valueError
  else if ¬ (subtype = 1 ∨ subtype = 2) then .error .valueError
  else if girderType = 5 ∧ subtype = 1 then .error .valueError
  else
    match superTDims girderType with
    | none => .error .indexError
    | some (d, tb, twNom) =>
      .ok (libGeom ops (superTPts (if subtype = 1 then 5 else 5.347) (if subtype = 1 then 920 else 1027) d tb w
        (tw.getD twNom) tf) m)

/-- The dimensions of a precast I girder (bridge_sections.py 242-283). -/
structure GirderDims where
  btf : ℝ
  bbf : ℝ
  bw : ℝ
  htf : ℝ
  hts : ℝ
  hw : ℝ
  hbs : ℝ
  hbf : ℝ

/-- bridge_sections.py 231-296: `get_i_girder_dims`; `none` is a `KeyError`, which cannot happen after the check of the
type. -/
noncomputable def iGirderDims (girderType : ℤ) : Option GirderDims :=
  if girderType = 1 then some ⟨200, 300, 120, 100, 40, 420, 90, 100⟩
  else if girderType = 2 then some ⟨350, 450, 150, 100, 100, 450, 150, 100⟩
  else if girderType = 3 then some ⟨450, 500, 150, 130, 150, 545, 175, 150⟩
  else if girderType = 4 then some ⟨500, 650, 150, 150, 175, 650, 250, 175⟩
  else none

/-- bridge_sections.py 179-198: the points of `i_girder_section`. -/
noncomputable def iGirderPts (g : GirderDims) : List Pt :=
  let d := g.htf + g.hts + g.hw + g.hbs + g.hbf
  let inset := (g.btf - g.bw) / 2
  [(g.btf / 2, 0), (g.btf / 2, -g.htf), (g.btf / 2 - inset, -g.htf - g.hts), (g.btf / 2 - inset, -g.htf - g.hts - g.hw),
   (g.bbf / 2, -d + g.hbf), (g.bbf / 2, -d), (-g.bbf / 2, -d), (-g.bbf / 2, -d + g.hbf),
   (-g.btf / 2 + inset, -g.htf - g.hts - g.hw), (-g.btf / 2 + inset, -g.htf - g.hts), (-g.btf / 2, -g.htf), (-g.btf / 2, 0)]

/-- bridge_sections.py 141-200: `i_girder_section`. -/
noncomputable def iGirderSection (ops : GeomOps) (girderType : ℤ) (m : Material) : Except PyErr Geometry :=
  if girderType < 1 ∨ girderType > 4 then .error .valueError
  else
    match iGirderDims girderType with
    | none => .error .indexError
    | some g => .ok (libGeom ops (iGirderPts g) m)

/-! ### nastran_sections.py -/

/-- nastran_sections.py 1542-1562, 1614-1634: `exterior - interior` for the outer radius `r` and the wall `t`. -/
noncomputable def tubeOf (ops : GeomOps) (ov : OverlayOps) (r t : ℝ) (n : ℕ) (m : Material) : Except PyErr Shape :=
  let d := 2 * r
  (libGeom ops (ellipsePts d d n) m).sub ops ov (.single (libGeom ops (ellipsePts (2 * (d / 2 - t)) (2 * (d / 2 - t)) n) m))

/-- nastran_sections.py 1502-1570: `nastran_tube`, outer radius `d1`, inner radius `d2`. -/
noncomputable def nastranTube (ops : GeomOps) (ov : OverlayOps) (d1 d2 : ℝ) (n : ℕ) (m : Material) : Except PyErr Shape :=
  if ¬ d2 < d1 then .error .valueError else tubeOf ops ov d1 (d1 - d2) n m

/-- nastran_sections.py 1573-1642: `nastran_tube2`, outer radius `d1`, wall thickness `d2`. -/
noncomputable def nastranTube2 (ops : GeomOps) (ov : OverlayOps) (d1 d2 : ℝ) (n : ℕ) (m : Material) : Except PyErr Shape :=
  if ¬ d2 < d1 then .error .valueError else tubeOf ops ov d1 d2 n m

end SP
