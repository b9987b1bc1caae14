import Verif.Model.Geometry
import Mathlib.Analysis.SpecialFunctions.Trigonometric.Basic

/-!
# Model of the section library `pre/library`

Primitive, steel, timber and NASTRAN sections.  The factors `0.5` and `0.25` are written as divisions.
`Polygon(points)` raises `ValueError` for one or two points; the models return the degenerate polygon
instead, the theorems are about three and more points.  Recovery points of the NASTRAN sections are kept
where a theorem is about them.
-/

namespace SP

open Classical

/-- utils.py 8-51: `draw_radius`. -/
noncomputable def drawRadius (pt : Pt) (r θ : ℝ) (n : ℕ) (ccw : Bool) (φ : ℝ) : List Pt :=
  if r = 0 then [pt]
  else
    let mult : ℝ := if ccw then 1 else -1
    (List.range n).map fun i : ℕ =>
      let t := θ + mult * i / (max 1 (n - 1) : ℕ) * φ
      (pt.1 + r * Real.cos t, pt.2 + r * Real.sin t)

/-- `draw_radius` with the default `phi = pi / 2`.  (utils.py 8-51.) -/
noncomputable def quarter (pt : Pt) (r θ : ℝ) (n : ℕ) (ccw : Bool) : List Pt :=
  drawRadius pt r θ n ccw (Real.pi / 2)

/-- utils.py 54-75: `rotate`. -/
noncomputable def rotatePt (p : Pt) (a : ℝ) : Pt :=
  (Real.cos a * p.1 - Real.sin a * p.2, Real.sin a * p.1 + Real.cos a * p.2)

/-- `geometry.Geometry(geom=Polygon(points), material=material)`.
(such as primitive_sections.py 47 and the last line of each builder of pre/library.) -/
noncomputable def libGeom (ops : GeomOps) (pts : List Pt) (m : Material) : Geometry :=
  mkGeometry ops ⟨pts, []⟩ m none 12

/-- `Polygon(outer) - Polygon(inner)`, then `Geometry` of it if it is a polygon, else `RuntimeError`
(steel_sections.py 68-76 and in the other hollow sections). -/
noncomputable def hollow (ops : GeomOps) (outer : List Pt) (inners : List (List Pt)) (m : Material) :
    Except PyErr Geometry :=
  match ops.punch outer inners with
  | none => .error .runtimeError
  | some p => .ok (mkGeometry ops p m none 12)

/-! ### primitive_sections.py -/

/-- primitive_sections.py 13-47. -/
noncomputable def rectangularSection (ops : GeomOps) (d b : ℝ) (m : Material) : Geometry :=
  libGeom ops [(0, 0), (b, 0), (b, d), (0, d)] m

/-- primitive_sections.py 162-172 and, with `dx = dy`, 77-93: the points on an ellipse. -/
noncomputable def ellipsePts (dx dy : ℝ) (n : ℕ) : List Pt :=
  (List.range n).map fun i : ℕ =>
    let θ := i * 2 * Real.pi / n
    (dx / 2 * Real.cos θ, dy / 2 * Real.sin θ)

/-- primitive_sections.py 50-98. -/
noncomputable def circularSection (ops : GeomOps) (d : ℝ) (n : ℕ) (m : Material) : Geometry :=
  libGeom ops (ellipsePts d d n) m

/-- primitive_sections.py 132-134: the diameter computed from the area. -/
noncomputable def diameterOf (area : ℝ) (n : ℕ) : ℝ :=
  let s := 2 * √(area / n) * √(Real.tan (Real.pi / n))
  let a := s / (2 * Real.tan (Real.pi / n))
  √(a * a + (s / 2) * (s / 2)) * 2

/-- primitive_sections.py 101-136. -/
noncomputable def circularSectionByArea (ops : GeomOps) (area : ℝ) (n : ℕ) (m : Material) : Geometry :=
  circularSection ops (diameterOf area n) n m

/-- primitive_sections.py 139-189. -/
noncomputable def ellipticalSection (ops : GeomOps) (dx dy : ℝ) (n : ℕ) (m : Material) : Geometry :=
  libGeom ops (ellipsePts dx dy n) m

/-- primitive_sections.py 192-224. -/
noncomputable def triangularSection (ops : GeomOps) (b h : ℝ) (m : Material) : Geometry :=
  libGeom ops [(0, 0), (b, 0), (0, h)] m

/-- primitive_sections.py 227-264. -/
noncomputable def triangularRadiusSection (ops : GeomOps) (b : ℝ) (nr : ℕ) (m : Material) : Geometry :=
  libGeom ops ((0, 0) :: quarter (b, b) b (3 * Real.pi / 2) nr false) m

/-- primitive_sections.py 305-338. -/
noncomputable def cruciformPts (d b t r : ℝ) (nr : ℕ) : List Pt :=
  [(-t / 2, -d / 2), (t / 2, -d / 2)] ++ quarter (t / 2 + r, -t / 2 - r) r Real.pi nr false
    ++ [(b / 2, -t / 2), (b / 2, t / 2)] ++ quarter (t / 2 + r, t / 2 + r) r (3 / 2 * Real.pi) nr false
    ++ [(t / 2, d / 2), (-t / 2, d / 2)] ++ quarter (-t / 2 - r, t / 2 + r) r 0 nr false
    ++ [(-b / 2, t / 2), (-b / 2, -t / 2)] ++ quarter (-t / 2 - r, -t / 2 - r) r (1 / 2 * Real.pi) nr false

/-- primitive_sections.py 267-342. -/
noncomputable def cruciformSection (ops : GeomOps) (d b t r : ℝ) (nr : ℕ) (m : Material) : Geometry :=
  libGeom ops (cruciformPts d b t r nr) m

/-! ### steel_sections.py -/

/-- steel_sections.py 13-76. -/
noncomputable def circularHollowSection (ops : GeomOps) (d t : ℝ) (n : ℕ) (m : Material) :
    Except PyErr Geometry :=
  hollow ops (ellipsePts d d n) [ellipsePts (2 * (d / 2 - t)) (2 * (d / 2 - t)) n] m

/-- steel_sections.py 79-145. -/
noncomputable def ellipticalHollowSection (ops : GeomOps) (dx dy t : ℝ) (n : ℕ) (m : Material) :
    Except PyErr Geometry :=
  hollow ops (ellipsePts dx dy n) [ellipsePts (2 * (dx / 2 - t)) (2 * (dy / 2 - t)) n] m

/-- steel_sections.py 216-219: a rectangle with rounded corners, from `(x0, y0)` to `(x1, y1)`. -/
noncomputable def roundedRect (x0 x1 y0 y1 r : ℝ) (nr : ℕ) : List Pt :=
  quarter (x0 + r, y0 + r) r Real.pi nr true ++ quarter (x1 - r, y0 + r) r (3 / 2 * Real.pi) nr true
    ++ quarter (x1 - r, y1 - r) r 0 nr true ++ quarter (x0 + r, y1 - r) r (1 / 2 * Real.pi) nr true

/-- steel_sections.py 148-244. -/
noncomputable def rectangularHollowSection (ops : GeomOps) (d b t rOut : ℝ) (nr : ℕ) (rIn : Option ℝ)
    (m : Material) (tw : Option ℝ) : Except PyErr Geometry :=
  let tw := tw.getD t
  let rIn := rIn.getD (max (rOut - max t tw) 0)
  hollow ops (roundedRect 0 b 0 d rOut nr) [roundedRect tw (b - tw) t (d - t) rIn nr] m

/-- steel_sections.py 348-369: `n_r` points of one corner, repeated `n_sides` times with rotation. -/
noncomputable def polygonPts (straight a r alpha rot : ℝ) (nSides nr : ℕ) : List Pt :=
  let base := (List.range nr).map fun i : ℕ =>
    let θ := 1 / 2 * Real.pi + i / (max 1 (nr - 1) : ℕ) * alpha
    ((straight / 2 - r * Real.cos θ, -a + r - r * Real.sin θ) : Pt)
  (List.range nSides).flatMap fun i : ℕ => base.map fun p => rotatePt p (alpha * i + rot)

/-- steel_sections.py 247-379. -/
noncomputable def polygonHollowSection (ops : GeomOps) (d t : ℝ) (nSides : ℕ) (rIn : ℝ) (nr : ℕ) (rot : ℝ)
    (m : Material) : Except PyErr Geometry :=
  if nSides < 3 then .error .valueError
  else
    let rot := rot * Real.pi / 180
    let alpha := 2 * Real.pi / nSides
    let aOut := d / 2 * Real.cos (alpha / 2)
    let aIn := aOut - t
    let sideOut := d * Real.sin (alpha / 2)
    let sideIn := aIn / aOut * sideOut
    let rIn := if rIn > aIn then aIn else rIn
    let rOut := if rIn = 0 then 0 else rIn + t
    let nr := if rIn = 0 then 1 else nr
    let cOut := rOut * (sideOut / 2) / aOut
    let cIn := rIn * (sideIn / 2) / aIn
    hollow ops (polygonPts (sideOut - 2 * cOut) aOut rOut alpha rot nSides nr)
      [polygonPts (sideIn - 2 * cIn) aIn rIn alpha rot nSides nr] m

/-- steel_sections.py 423-453. -/
noncomputable def iPts (d b tf tw r : ℝ) (nr : ℕ) : List Pt :=
  [(0, 0), (b, 0), (b, tf)] ++ quarter (b / 2 + tw / 2 + r, tf + r) r (3 / 2 * Real.pi) nr false
    ++ quarter (b / 2 + tw / 2 + r, d - tf - r) r Real.pi nr false
    ++ [(b, d - tf), (b, d), (0, d), (0, d - tf)]
    ++ quarter (b / 2 - tw / 2 - r, d - tf - r) r (1 / 2 * Real.pi) nr false
    ++ quarter (b / 2 - tw / 2 - r, tf + r) r 0 nr false ++ [(0, tf)]

/-- steel_sections.py 382-457. -/
noncomputable def iSection (ops : GeomOps) (d b tf tw r : ℝ) (nr : ℕ) (m : Material) : Geometry :=
  libGeom ops (iPts d b tf tw r nr) m

/-- steel_sections.py 509-542. -/
noncomputable def monoIPts (d bt bb tft tfb tw r : ℝ) (nr : ℕ) : List Pt :=
  let xc := max bt bb / 2
  [(xc - bb / 2, 0), (xc + bb / 2, 0), (xc + bb / 2, tfb)]
    ++ quarter (xc + tw / 2 + r, tfb + r) r (3 / 2 * Real.pi) nr false
    ++ quarter (xc + tw / 2 + r, d - tft - r) r Real.pi nr false
    ++ [(xc + bt / 2, d - tft), (xc + bt / 2, d), (xc - bt / 2, d), (xc - bt / 2, d - tft)]
    ++ quarter (xc - tw / 2 - r, d - tft - r) r (1 / 2 * Real.pi) nr false
    ++ quarter (xc - tw / 2 - r, tfb + r) r 0 nr false ++ [(xc - bb / 2, tfb)]

/-- steel_sections.py 460-546. -/
noncomputable def monoISection (ops : GeomOps) (d bt bb tft tfb tw r : ℝ) (nr : ℕ) (m : Material) : Geometry :=
  libGeom ops (monoIPts d bt bb tft tfb tw r nr) m

/-- steel_sections.py 794-812. -/
noncomputable def channelPts (d b tf tw r : ℝ) (nr : ℕ) : List Pt :=
  [(0, 0), (b, 0), (b, tf)] ++ quarter (tw + r, tf + r) r (3 / 2 * Real.pi) nr false
    ++ quarter (tw + r, d - tf - r) r Real.pi nr false ++ [(b, d - tf), (b, d), (0, d)]

/-- steel_sections.py 752-816. -/
noncomputable def channelSection (ops : GeomOps) (d b tf tw r : ℝ) (nr : ℕ) (m : Material) : Geometry :=
  libGeom ops (channelPts d b tf tw r nr) m

/-- steel_sections.py 999-1017. -/
noncomputable def teePts (d b tf tw r : ℝ) (nr : ℕ) : List Pt :=
  [(b / 2 - tw / 2, 0), (b / 2 + tw / 2, 0)] ++ quarter (b / 2 + tw / 2 + r, d - tf - r) r Real.pi nr false
    ++ [(b, d - tf), (b, d), (0, d), (0, d - tf)]
    ++ quarter (b / 2 - tw / 2 - r, d - tf - r) r (1 / 2 * Real.pi) nr false

/-- steel_sections.py 958-1021. -/
noncomputable def teeSection (ops : GeomOps) (d b tf tw r : ℝ) (nr : ℕ) (m : Material) : Geometry :=
  libGeom ops (teePts d b tf tw r nr) m

/-- `np.isclose(a, b)` with the default tolerances: `|a - b| <= atol + rtol |b|`.  (steel_sections.py 1077, 1093.) -/
def npIsclose (a b : ℝ) : Prop := |a - b| ≤ 1 / 10 ^ 8 + 1 / 10 ^ 5 * |b|

/-- steel_sections.py 1072-1094. -/
noncomputable def anglePts (d b t rr rt : ℝ) (nr : ℕ) : List Pt :=
  [(0, 0)] ++ (if npIsclose t rt then [] else [(b, 0)]) ++ quarter (b - rt, t - rt) rt 0 nr true
    ++ quarter (t + rr, t + rr) rr (3 / 2 * Real.pi) nr false ++ quarter (t - rt, d - rt) rt 0 nr true
    ++ (if npIsclose t rt then [] else [(0, d)])

/-- steel_sections.py 1024-1098. -/
noncomputable def angleSection (ops : GeomOps) (d b t rr rt : ℝ) (nr : ℕ) (m : Material) :
    Except PyErr Geometry :=
  if rt > t then .error .valueError else .ok (libGeom ops (anglePts d b t rr rt nr) m)

/-- steel_sections.py 1144-1274. -/
noncomputable def ceePts (d b l t rOut : ℝ) (nr : ℕ) : List Pt :=
  let rIn := max (rOut - t) 0
  let rInL := max (l - t) 0
  quarter (rOut, rOut) rOut Real.pi nr true
    ++ (if l > rOut then
          quarter (b - rOut, rOut) rOut (3 / 2 * Real.pi) nr true ++ [(b, l), (b - t, l)]
            ++ quarter (b - t - rIn, t + rIn) rIn 0 nr false
        else if l > t then
          quarter (b - l, l) l (3 / 2 * Real.pi) nr true ++ quarter (b - t - rInL, t + rInL) rInL 0 nr false
        else [(b, 0), (b, t)])
    ++ quarter (t + rIn, t + rIn) rIn (3 / 2 * Real.pi) nr false
    ++ quarter (t + rIn, d - t - rIn) rIn Real.pi nr false
    ++ (if l > rOut then
          quarter (b - t - rIn, d - t - rIn) rIn (1 / 2 * Real.pi) nr false ++ [(b - t, d - l), (b, d - l)]
            ++ quarter (b - rOut, d - rOut) rOut 0 nr true
        else if l > t then
          quarter (b - t - rInL, d - t - rInL) rInL (1 / 2 * Real.pi) nr false
            ++ quarter (b - l, d - l) l 0 nr true
        else [(b, d - t), (b, d)])
    ++ quarter (rOut, d - rOut) rOut (1 / 2 * Real.pi) nr true

/-- steel_sections.py 1101-1278. -/
noncomputable def ceeSection (ops : GeomOps) (d b l t rOut : ℝ) (nr : ℕ) (m : Material) : Geometry :=
  libGeom ops (ceePts d b l t rOut nr) m

/-- steel_sections.py 1329-1454. -/
noncomputable def zedPts (d bl br l t rOut : ℝ) (nr : ℕ) : List Pt :=
  let rIn := max (rOut - t) 0
  let rInL := max (l - t) 0
  quarter (rOut, rOut) rOut Real.pi nr true
    ++ (if l > rOut then
          quarter (br - rOut, rOut) rOut (3 / 2 * Real.pi) nr true ++ [(br, l), (br - t, l)]
            ++ quarter (br - t - rIn, t + rIn) rIn 0 nr false
        else if l > t then
          quarter (br - l, l) l (3 / 2 * Real.pi) nr true ++ quarter (br - t - rInL, t + rInL) rInL 0 nr false
        else [(br, 0), (br, t)])
    ++ quarter (t + rIn, t + rIn) rIn (3 / 2 * Real.pi) nr false
    ++ quarter (t - rOut, d - rOut) rOut 0 nr true
    ++ (if l > rOut then
          quarter (t - bl + rOut, d - rOut) rOut (1 / 2 * Real.pi) nr true ++ [(t - bl, d - l), (t - bl + t, d - l)]
            ++ quarter (2 * t - bl + rIn, d - t - rIn) rIn Real.pi nr false
        else if l > t then
          quarter (t - bl + l, d - l) l (1 / 2 * Real.pi) nr true
            ++ quarter (2 * t - bl + rInL, d - t - rInL) rInL Real.pi nr false
        else [(t - bl, d), (t - bl, d - t)])
    ++ quarter (-rIn, d - t - rIn) rIn (1 / 2 * Real.pi) nr false

/-- steel_sections.py 1281-1458. -/
noncomputable def zedSection (ops : GeomOps) (d bl br l t rOut : ℝ) (nr : ℕ) (m : Material) : Geometry :=
  libGeom ops (zedPts d bl br l t rOut nr) m

/-! ### timber_sections.py -/

/-- timber_sections.py 65-77: the loop over the layers, from layer `idx` on; `IndexError` if there are
fewer materials than thicknesses. -/
noncomputable def cltLayers (ops : GeomOps) (b : ℝ) : ℕ → List ℝ → List Material → Except PyErr (List Geometry)
  | _, [], _ => .ok []
  | _, _ :: _, [] => .error .indexError
  | idx, di :: ds, m :: ms =>
    let layer := (rectangularSection ops di b m).shift ops 0 (-di * (idx + 1))
    match cltLayers ops b (idx + 1) ds ms with
    | .error e => .error e
    | .ok l => .ok (layer :: l)

/-- timber_sections.py 10-80. -/
noncomputable def cltSection (ops : GeomOps) (d : List ℝ) (mats : List Material) (b : ℝ) : Except PyErr Compound :=
  match cltLayers ops b 0 d mats with
  | .error e => .error e
  | .ok l => mkCompound ops l

/-! ### nastran_sections.py -/

/-- nastran_sections.py 13-59: the points. -/
noncomputable def barPts (d1 d2 : ℝ) : List Pt :=
  [(-d1 / 2, -d2 / 2), (d1 / 2, -d2 / 2), (d1 / 2, d2 / 2), (-d1 / 2, d2 / 2)]

/-- nastran_sections.py 13-59. -/
noncomputable def nastranBar (ops : GeomOps) (d1 d2 : ℝ) (m : Material) : Geometry := libGeom ops (barPts d1 d2) m

/-- nastran_sections.py 62-134. -/
noncomputable def nastranBox (ops : GeomOps) (d1 d2 d3 d4 : ℝ) (m : Material) : Except PyErr Geometry :=
  if ¬ 2 * d4 < d1 ∨ ¬ 2 * d3 < d2 then .error .valueError
  else hollow ops (barPts d1 d2)
    [[(-d1 / 2 + d4, -d2 / 2 + d3), (d1 / 2 - d4, -d2 / 2 + d3), (d1 / 2 - d4, d2 / 2 - d3),
      (-d1 / 2 + d4, d2 / 2 - d3)]] m

/-- nastran_sections.py 137-212. -/
noncomputable def nastranBox1 (ops : GeomOps) (d1 d2 d3 d4 d5 d6 : ℝ) (m : Material) : Except PyErr Geometry :=
  if ¬ d5 + d6 < d1 ∨ ¬ d3 + d4 < d2 then .error .valueError
  else hollow ops [(0, 0), (d1, 0), (d1, d2), (0, d2)]
    [[(d6, d4), (d1 - d5, d4), (d1 - d5, d2 - d3), (d6, d2 - d3)]] m

/-- nastran_sections.py 215-276. -/
noncomputable def nastranChan (ops : GeomOps) (d1 d2 d3 d4 : ℝ) (m : Material) : Except PyErr Geometry :=
  if ¬ 2 * d4 < d2 ∨ ¬ d3 < d1 then .error .valueError
  else .ok (libGeom ops [(0, 0), (d1, 0), (d1, d4), (d3, d4), (d3, d2 - d4), (d1, d2 - d4), (d1, d2), (0, d2)] m)

/-- nastran_sections.py 279-340. -/
noncomputable def nastranChan1 (ops : GeomOps) (d1 d2 d3 d4 : ℝ) (m : Material) : Except PyErr Geometry :=
  if ¬ d4 > d3 then .error .valueError
  else
    let tf := (d4 - d3) / 2
    .ok (libGeom ops [(0, 0), (d1 + d2, 0), (d1 + d2, tf), (d2, tf), (d2, tf + d3), (d2 + d1, tf + d3),
      (d2 + d1, d4), (0, d4)] m)

/-- nastran_sections.py 343-403. -/
noncomputable def nastranChan2 (ops : GeomOps) (d1 d2 d3 d4 : ℝ) (m : Material) : Except PyErr Geometry :=
  if ¬ d4 > 2 * d1 ∨ ¬ d3 > d2 then .error .valueError
  else .ok (libGeom ops [(0, 0), (d4, 0), (d4, d3), (d4 - d1, d3), (d4 - d1, d2), (d1, d2), (d1, d3), (0, d3)] m)

/-- nastran_sections.py 406-471. -/
noncomputable def nastranCross (ops : GeomOps) (d1 d2 d3 d4 : ℝ) (m : Material) : Except PyErr Geometry :=
  if ¬ d4 < d3 then .error .valueError
  else
    let d := (d3 - d4) / 2
    .ok (libGeom ops [(d1 / 2, 0), (d1 / 2 + d2, 0), (d1 / 2 + d2, d), (d1 + d2, d), (d1 + d2, d + d4),
      (d1 / 2 + d2, d + d4), (d1 / 2 + d2, d3), (d1 / 2, d3), (d1 / 2, d + d4), (0, d + d4), (0, d),
      (d1 / 2, d)] m)

/-- nastran_sections.py 474-571. -/
noncomputable def nastranFcross (ops : GeomOps) (d1 d2 d3 d4 d5 d6 d7 d8 : ℝ) (m : Material) :
    Except PyErr Geometry :=
  if ¬ d5 > d3 ∨ ¬ d7 > d4 ∨ ¬ d7 < d1 ∨ ¬ d5 < d2 ∨ ¬ d8 < d2 / 2 - d3 / 2 ∨ ¬ d6 < d1 / 2 - d4 / 2 then
    .error .valueError
  else .ok (libGeom ops
    [(d3 / 2, -d4 / 2), (d2 / 2 - d8, -d4 / 2), (d2 / 2 - d8, -d7 / 2), (d2 / 2, -d7 / 2), (d2 / 2, d7 / 2),
     (d2 / 2 - d8, d7 / 2), (d2 / 2 - d8, d4 / 2), (d3 / 2, d4 / 2), (d3 / 2, d1 / 2 - d6),
     (d5 / 2, d1 / 2 - d6), (d5 / 2, d1 / 2), (-d5 / 2, d1 / 2), (-d5 / 2, d1 / 2 - d6),
     (-d3 / 2, d1 / 2 - d6), (-d3 / 2, d4 / 2), (-d2 / 2 + d8, d4 / 2), (-d2 / 2 + d8, d7 / 2),
     (-d2 / 2, d7 / 2), (-d2 / 2, -d7 / 2), (-d2 / 2 + d8, -d7 / 2), (-d2 / 2 + d8, -d4 / 2),
     (-d3 / 2, -d4 / 2), (-d3 / 2, -d1 / 2 + d6), (-d5 / 2, -d1 / 2 + d6), (-d5 / 2, -d1 / 2),
     (d5 / 2, -d1 / 2), (d5 / 2, -d1 / 2 + d6), (d3 / 2, -d1 / 2 + d6)] m)

/-- nastran_sections.py 574-674; the two cells are subtracted at once. -/
noncomputable def nastranDbox (ops : GeomOps) (d1 d2 d3 d4 d5 d6 d7 d8 d9 d10 : ℝ) (m : Material) :
    Except PyErr Geometry :=
  if ¬ d4 + d5 + d6 < d1 ∨ ¬ d4 + d5 / 2 < d3 ∨ ¬ d7 + d8 < d2 ∨ ¬ d9 + d10 < d2 then .error .valueError
  else hollow ops [(0, 0), (d1, 0), (d1, d2), (0, d2)]
    [[(d4, d8), (d3 - d5 / 2, d8), (d3 - d5 / 2, d2 - d7), (d4, d2 - d7)],
     [(d3 + d5 / 2, d10), (d1 - d6, d10), (d1 - d6, d2 - d9), (d3 + d5 / 2, d2 - d9)]] m

/-- nastran_sections.py 677-762. -/
noncomputable def nastranGbox (ops : GeomOps) (d1 d2 d3 d4 d5 d6 : ℝ) (m : Material) : Except PyErr Geometry :=
  if ¬ d3 + d4 < d2 ∨ ¬ 2 * d5 + d6 < d1 then .error .valueError
  else
    let d := (d1 - d6 - 2 * d5) / 2
    hollow ops [(0, 0), (d1, 0), (d1, d4), (d + 2 * d5 + d6, d4), (d + 2 * d5 + d6, d2 - d3), (d1, d2 - d3),
      (d1, d2), (0, d2), (0, d2 - d3), (d, d2 - d3), (d, d4), (0, d4)]
      [[(d + d5, d4), (d + d5 + d6, d4), (d + d5 + d6, d2 - d3), (d + d5, d2 - d3)]] m

/-- nastran_sections.py 765-834. -/
noncomputable def nastranH (ops : GeomOps) (d1 d2 d3 d4 : ℝ) (m : Material) : Except PyErr Geometry :=
  if ¬ d4 < d3 then .error .valueError
  else
    let e1 := (d3 - d4) / 2
    let e2 := d2 / 2
    .ok (libGeom ops [(0, 0), (e2, 0), (e2, e1), (e2 + d1, e1), (e2 + d1, 0), (d1 + d2, 0), (d1 + d2, d3),
      (d1 + d2 - e2, d3), (d1 + d2 - e2, e1 + d4), (e2, e1 + d4), (e2, d3), (0, d3)] m)

/-- nastran_sections.py 837-901. -/
noncomputable def nastranHat (ops : GeomOps) (d1 d2 d3 d4 : ℝ) (m : Material) : Except PyErr Geometry :=
  if ¬ 2 * d2 < d1 then .error .valueError
  else .ok (libGeom ops [(0, 0), (d4 + d2, 0), (d4 + d2, d1 - d2), (d4 + d3 - d2, d1 - d2), (d4 + d3 - d2, 0),
      (2 * d4 + d3, 0), (2 * d4 + d3, d2), (d4 + d3, d2), (d4 + d3, d1), (d4, d1), (d4, d2), (0, d2)] m)

/-- nastran_sections.py 978-1034. -/
noncomputable def nastranHexa (ops : GeomOps) (d1 d2 d3 : ℝ) (m : Material) : Except PyErr Geometry :=
  if ¬ d2 > d1 then .error .valueError
  else .ok (libGeom ops [(d1, 0), (d2 - d1, 0), (d2, d3 / 2), (d2 - d1, d3), (d1, d3), (0, d3 / 2)] m)

/-- nastran_sections.py 1037-1107. -/
noncomputable def nastranI (ops : GeomOps) (d1 d2 d3 d4 d5 d6 : ℝ) (m : Material) : Except PyErr Geometry :=
  if ¬ d5 + d6 < d1 ∨ ¬ d4 < d3 ∨ ¬ d4 < d2 then .error .valueError
  else
    let db := (d2 - d4) / 2
    let dt := (d3 - d4) / 2
    .ok (libGeom ops [(0, 0), (d2, 0), (d2, d5), (db + d4, d5), (db + d4, d1 - d6), (db + d4 + dt, d1 - d6),
      (db + d4 + dt, d1), (db - dt, d1), (db - dt, d1 - d6), (db, d1 - d6), (db, d5), (0, d5)] m)

/-- nastran_sections.py 1110-1175. -/
noncomputable def nastranI1 (ops : GeomOps) (d1 d2 d3 d4 : ℝ) (m : Material) : Except PyErr Geometry :=
  if ¬ d4 > d3 then .error .valueError
  else
    let t := (d4 - d3) / 2
    .ok (libGeom ops [(0, 0), (d1 + d2, 0), (d1 + d2, t), (d1 / 2 + d2, t), (d1 / 2 + d2, t + d3),
      (d1 + d2, t + d3), (d1 + d2, d4), (0, d4), (0, t + d3), (d1 / 2, t + d3), (d1 / 2, t), (0, t)] m)

/-- nastran_sections.py 1178-1236. -/
noncomputable def nastranL (ops : GeomOps) (d1 d2 d3 d4 : ℝ) (m : Material) : Except PyErr Geometry :=
  if ¬ d4 < d1 ∨ ¬ d3 < d2 then .error .valueError
  else .ok (libGeom ops [(0, 0), (d1, 0), (d1, d3), (d4, d3), (d4, d2), (0, d2)] m)

/-- nastran_sections.py 1239-1293. -/
noncomputable def nastranRod (ops : GeomOps) (d1 : ℝ) (n : ℕ) (m : Material) : Geometry :=
  libGeom ops (ellipsePts (2 * d1) (2 * d1) n) m

/-- nastran_sections.py 1296-1371. -/
noncomputable def nastranTee (ops : GeomOps) (d1 d2 d3 d4 : ℝ) (m : Material) : Except PyErr Geometry :=
  if ¬ d4 < d1 ∨ ¬ d3 < d2 then .error .valueError else .ok (libGeom ops (teePts d2 d1 d3 d4 0 1) m)

/-- nastran_sections.py 1374-1435. -/
noncomputable def nastranTee1 (ops : GeomOps) (d1 d2 d3 d4 : ℝ) (m : Material) : Except PyErr Geometry :=
  if ¬ d4 < d1 then .error .valueError
  else
    let e1 := (d1 - d4) / 2
    .ok (libGeom ops [(0, 0), (d3, 0), (d3, d1), (0, d1), (0, e1 + d4), (-d2, e1 + d4), (-d2, e1), (0, e1)] m)

/-- nastran_sections.py 1438-1499. -/
noncomputable def nastranTee2 (ops : GeomOps) (d1 d2 d3 d4 : ℝ) (m : Material) : Except PyErr Geometry :=
  if ¬ d4 < d1 ∨ ¬ d3 < d2 then .error .valueError
  else
    let e1 := (d1 - d4) / 2
    .ok (libGeom ops [(0, 0), (d1, 0), (d1, d3), (d1 - e1, d3), (d1 - e1, d2), (e1, d2), (e1, d3), (0, d3)] m)

/-- nastran_sections.py 1645-1707. -/
noncomputable def nastranZed (ops : GeomOps) (d1 d2 d3 d4 : ℝ) (m : Material) : Except PyErr Geometry :=
  if ¬ d4 > d3 then .error .valueError
  else
    let t := (d4 - d3) / 2
    .ok (libGeom ops [(d1, 0), (2 * d1 + d2, 0), (2 * d1 + d2, t), (d1 + d2, t), (d1 + d2, d4), (0, d4),
      (0, d4 - t), (d1, d4 - t)] m)

end SP
