import Verif.Model.SetOps
import Verif.Model.Concrete

/-!
# Model of how reinforcing bars are put into a section: `pre/library/concrete_sections.py`

The positions of the bars are in `Verif.Model.Concrete`, the polygons in `Verif.Model.Library`, and the operators `-` and
`+` in `Verif.Model.SetOps`.
-/

namespace SP

/-- concrete_sections.py 2415-2419 (and 165-172, 177-184, 190-197, 516-523, 528-535, 541-548, 663-670, 2450-2452):
`circular_section_by_area(area, n, material).shift_section(x_offset=x, y_offset=y)`. -/
noncomputable def barAt (ops : GeomOps) (area : ℝ) (n : ℕ) (m : Material) (x y : ℝ) : Geometry :=
  (circularSectionByArea ops area n m).shift ops x y

/-- concrete_sections.py 2421 and 2457 (and 173, 185, 524, 536, 671): `(geometry - bar) + bar`. -/
noncomputable def cutIn (ops : GeomOps) (ov : OverlayOps) (s b : Shape) : Except PyErr Shape :=
  match s.sub ops ov b with
  | .error e => .error e
  | .ok r =>
    match r.add ops b with
    | .error e => .error e
    | .ok c => .ok (.compound c)

/-- concrete_sections.py 2391-2421: `add_bar`. -/
noncomputable def addBar (ops : GeomOps) (ov : OverlayOps) (s : Shape) (area : ℝ) (m : Material) (x y : ℝ) (n : ℕ) :
    Except PyErr Shape :=
  cutIn ops ov s (.single (barAt ops area n m x y))

/-- concrete_sections.py 2424-2457: `add_bars`; `zip(x, y, strict=False)` stops with the shorter list. -/
noncomputable def addBars (ops : GeomOps) (ov : OverlayOps) (s : Shape) (area : ℝ) (m : Material) (xs ys : List ℝ)
    (n : ℕ) : Except PyErr Shape :=
  match mkCompound ops ((xs.zip ys).map fun p => barAt ops area n m p.1 p.2) with
  | .error e => .error e
  | .ok bars => cutIn ops ov s (.compound bars)

/-- concrete_sections.py 164-173, 176-185 (and 515-524, 527-536, 662-671, 339-347): one bar after the other. -/
noncomputable def addLayer (ops : GeomOps) (ov : OverlayOps) (area : ℝ) (m : Material) (n : ℕ) (s : Shape)
    (ps : List Pt) : Except PyErr Shape :=
  ps.foldlM (fun s p => addBar ops ov s area m p.1 p.2 n) s

/-- concrete_sections.py 190-200 (and 541-551): a pair of side bars,
`(geom - bar_left - bar_right) + bar_left + bar_right`; the right bar is the left one shifted. -/
noncomputable def addPair (ops : GeomOps) (ov : OverlayOps) (area : ℝ) (m : Material) (n : ℕ) (s : Shape) (l r : Pt) :
    Except PyErr Shape :=
  let barLeft := barAt ops area n m l.1 l.2
  let barRight := barLeft.shift ops (r.1 - l.1) 0
  match s.sub ops ov (.single barLeft) with
  | .error e => .error e
  | .ok s1 =>
    match s1.sub ops ov (.single barRight) with
    | .error e => .error e
    | .ok s2 =>
      match s2.add ops (.single barLeft) with
      | .error e => .error e
      | .ok c =>
        match (Shape.compound c).add ops (.single barRight) with
        | .error e => .error e
        | .ok c => .ok (.compound c)

/-- concrete_sections.py 189-200 (and 540-551): the side bars, in pairs. -/
noncomputable def addSides (ops : GeomOps) (ov : OverlayOps) (area : ℝ) (m : Material) (n : ℕ) :
    Shape → List Pt → Except PyErr Shape
  | s, l :: r :: ps =>
    match addPair ops ov area m n s l r with
    | .error e => .error e
    | .ok s => addSides ops ov area m n s ps
  | s, _ => .ok s

/-- concrete_sections.py 202-206 (and 349-353, 553-557, 673-677): only a compound is returned. -/
def requireCompound : Shape → Except PyErr Shape
  | .compound c => .ok (.compound c)
  | .single _ => .error .valueError

/-- concrete_sections.py 163-206 and 514-557: the bars of a beam are added to the concrete: top, bottom, side bars. -/
noncomputable def reinforceBeam (ops : GeomOps) (ov : OverlayOps) (outline : Shape) (bars : BeamBars)
    (areaTop areaBot : ℝ) (areaSide : Option ℝ) (m : Material) (n : ℕ) : Except PyErr Shape := do
  let s ← addLayer ops ov areaTop m n outline bars.top
  let s ← addLayer ops ov areaBot m n s bars.bot
  let s ← addSides ops ov (areaSide.getD 0) m n s bars.side
  requireCompound s

/-- concrete_sections.py 14-206: `concrete_rectangular_section`. -/
noncomputable def concreteRectangularSection (ops : GeomOps) (ov : OverlayOps) (d b diaTop areaTop : ℝ) (nTop : ℕ)
    (cTop diaBot areaBot : ℝ) (nBot : ℕ) (cBot : ℝ) (diaSide areaSide : Option ℝ) (nSide : ℕ) (cSide : ℝ) (nCircle : ℕ)
    (conc steel : Material) : Except PyErr Shape :=
  reinforceBeam ops ov (.single (rectangularSection ops d b conc))
    (rectangularBars d b diaTop nTop cTop diaBot nBot cBot diaSide areaSide nSide cSide) areaTop areaBot areaSide steel
    nCircle

/-- concrete_sections.py 472-478: the concrete of `concrete_tee_section`: web and flange, next to each other. -/
noncomputable def teeOutline (ops : GeomOps) (d b dF bF : ℝ) (conc : Material) : Except PyErr Compound :=
  let beam := rectangularSection ops (d - dF) b conc
  let flange := rectangularSection ops dF bF conc
  match (Shape.single beam).add ops
      (.single ((flange.alignTo ops (.geom beam.extents) .top false).shift ops (-(bF / 2 - b / 2)) 0)) with
  | .error e => .error e
  | .ok c => c.shift ops (-b / 2) 0

/-- concrete_sections.py 356-557: `concrete_tee_section`. -/
noncomputable def concreteTeeSection (ops : GeomOps) (ov : OverlayOps) (d b dF bF diaTop areaTop : ℝ) (nTop : ℕ)
    (cTop diaBot areaBot : ℝ) (nBot : ℕ) (cBot : ℝ) (diaSide areaSide : Option ℝ) (nSide : ℕ) (cSide : ℝ) (nCircle : ℕ)
    (conc steel : Material) : Except PyErr Shape :=
  match teeOutline ops d b dF bF conc with
  | .error e => .error e
  | .ok c =>
    reinforceBeam ops ov (.compound c)
      (teeBars d b bF diaTop nTop cTop diaBot nBot cBot diaSide areaSide nSide cSide) areaTop areaBot areaSide steel nCircle

/-- concrete_sections.py 209-353: `concrete_column_section`. -/
noncomputable def concreteColumnSection (ops : GeomOps) (ov : OverlayOps) (d b dia area : ℝ) (nX nY : ℤ) (cover : ℝ)
    (nCircle : ℕ) (filled : Bool) (conc steel : Material) : Except PyErr Shape := do
  let ps ← columnBars d b dia nX nY cover filled
  let s ← addLayer ops ov area steel nCircle (.single (rectangularSection ops d b conc)) ps
  requireCompound s

/-- concrete_sections.py 560-677: `concrete_circular_section`. -/
noncomputable def concreteCircularSection (ops : GeomOps) (ov : OverlayOps) (d areaConc : ℝ) (nConc : ℕ) (dia area : ℝ)
    (nBar : ℕ) (cover : ℝ) (nCircle : ℕ) (conc steel : Material) : Except PyErr Shape := do
  let ps ← circularBars d dia cover nBar
  let s ← addLayer ops ov area steel nCircle (.single (circularSectionByArea ops areaConc nConc conc)) ps
  requireCompound s

/-- concrete_sections.py 680-800: `rectangular_wall`. -/
noncomputable def rectangularWall (ops : GeomOps) (ov : OverlayOps) (d t dia area s c : ℝ) (double : Bool) (nCircle : ℕ)
    (conc steel : Material) : Except PyErr Shape := do
  let ps ← rectangularWallBars d t dia s c double
  addBars ops ov (.single (rectangularSection ops d t conc)) area steel (ps.map (·.1)) (ps.map (·.2)) nCircle

end SP
