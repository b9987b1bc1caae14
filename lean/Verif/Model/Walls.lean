import Verif.Model.AddBars

/-!
# Model of walls, lift cores and stairwells: `pre/library/concrete_sections.py`

The outline is a rectangle from which rectangles are subtracted; `add_bars` then adds the bars, whose positions are in
`Verif.Model.Concrete`.
-/

namespace SP

/-- `geom - a - b - ...` (concrete_sections.py 912, 1120, 1321, 1602, 1910-1916, 2245). -/
noncomputable def subAll (ops : GeomOps) (ov : OverlayOps) (s : Shape) (gs : List Geometry) : Except PyErr Shape :=
  gs.foldlM (fun s g => s.sub ops ov (.single g)) s

/-- `align_center(align_to=other)`: geometry.py 651-654. -/
noncomputable def Geometry.alignCenterTo (ops : GeomOps) (g other : Geometry) : Geometry :=
  g.alignCenter ops other.poly.centroid

/-- concrete_sections.py 904-912: the concrete of `cee_wall`. -/
noncomputable def ceeWallOutline (ops : GeomOps) (ov : OverlayOps) (d b tf tw : ℝ) (conc : Material) : Except PyErr Shape :=
  let outer := rectangularSection ops d b conc
  let hollow := ((rectangularSection ops (d - 2 * tf) (b - tw) conc).alignCenterTo ops outer).alignTo ops (.geom outer.extents)
    .right true
  subAll ops ov (.single outer) [hollow]

/-- concrete_sections.py 1113-1120: the concrete of `tee_wall`.  (The rectangle on the left is given no material.) -/
noncomputable def teeWallOutline (ops : GeomOps) (ov : OverlayOps) (d b tf tw : ℝ) (conc : Material) : Except PyErr Shape :=
  let outer := rectangularSection ops d b conc
  let left := rectangularSection ops (d - tf) (1 / 2 * (b - tw)) defaultMaterial
  let right := left.mirror ops .y (.point (1 / 2 * b, 0))
  subAll ops ov (.single outer) [left, right]

/-- concrete_sections.py 1312-1321: the concrete of `single_lift_core`. -/
noncomputable def singleLiftCoreOutline (ops : GeomOps) (ov : OverlayOps) (d b t1 t2 a : ℝ) (conc : Material) :
    Except PyErr Shape :=
  let outer := rectangularSection ops d b conc
  let hollow := (rectangularSection ops (d - 2 * t1) (b - 2 * t2) conc).alignCenterTo ops outer
  let door := ((rectangularSection ops a t2 conc).alignCenterTo ops outer).alignTo ops (.geom outer.extents) .right true
  subAll ops ov (.single outer) [hollow, door]

/-- concrete_sections.py 1594-1602: the concrete of `double_lift_core_a`. -/
noncomputable def doubleLiftCoreAOutline (ops : GeomOps) (ov : OverlayOps) (d b t1 t2 a1 a2 : ℝ) (conc : Material) :
    Except PyErr Shape :=
  let outer := rectangularSection ops d b conc
  let hollow := (rectangularSection ops (d - 2 * t1) (b - 2 * t2) conc).alignCenterTo ops outer
  let door := rectangularSection ops a1 t2 conc
  let nib := 1 / 2 * (d - 2 * a1 - a2 - 2 * t1)
  let doorTop := door.shift ops (b - t2) (d - t1 - nib - a1)
  let doorBottom := door.shift ops (b - t2) (t1 + nib)
  subAll ops ov (.single outer) [hollow, doorTop, doorBottom]

/-- concrete_sections.py 1900-1916: the concrete of `double_lift_core_b`. -/
noncomputable def doubleLiftCoreBOutline (ops : GeomOps) (ov : OverlayOps) (d b t1 t2 t3 a : ℝ) (conc : Material) :
    Except PyErr Shape :=
  let nib := 1 / 4 * (d - 2 * t1 - 2 * a - t3)
  let outer := rectangularSection ops d b conc
  let hollow := rectangularSection ops (1 / 2 * (d - 2 * t1 - t3)) (b - 2 * t2) conc
  let door := rectangularSection ops a t2 conc
  subAll ops ov (.single outer) [hollow.shift ops t2 t1, hollow.shift ops t2 (1 / 2 * (d + t3)),
    door.shift ops (b - t2) (d - t1 - nib - a), door.shift ops (b - t2) (t1 + nib)]

/-- concrete_sections.py 2238-2245: the concrete of `stairwell`. -/
noncomputable def stairwellOutline (ops : GeomOps) (ov : OverlayOps) (d b t1 t2 a : ℝ) (conc : Material) :
    Except PyErr Shape :=
  let outer := rectangularSection ops d b conc
  let hollow := (rectangularSection ops (d - 2 * t1) (b - 2 * t2) conc).alignCenterTo ops outer
  let door := (rectangularSection ops a t2 conc).shift ops (b - t2) (d - t1 - a)
  subAll ops ov (.single outer) [hollow, door]

/-- concrete_sections.py 1007-1009 (and 1201-1203, 1472-1474, 1779-1781, 2127-2129, 2386-2388): the bars are added. -/
noncomputable def withBars (ops : GeomOps) (ov : OverlayOps) (outline : Except PyErr Shape) (bars : Except PyErr (List Pt))
    (area : ℝ) (steel : Material) (nCircle : ℕ) : Except PyErr Shape := do
  let s ← outline
  let ps ← bars
  addBars ops ov s area steel (ps.map (·.1)) (ps.map (·.2)) nCircle

/-- concrete_sections.py 803-1009: `cee_wall`. -/
noncomputable def ceeWall (ops : GeomOps) (ov : OverlayOps) (d b tf tw dia area s c : ℝ) (double : Bool) (nCircle : ℕ)
    (conc steel : Material) : Except PyErr Shape :=
  withBars ops ov (ceeWallOutline ops ov d b tf tw conc) (ceeWallBars d b tf tw dia s c double) area steel nCircle

/-- concrete_sections.py 1012-1203: `tee_wall`. -/
noncomputable def teeWall (ops : GeomOps) (ov : OverlayOps) (d b tf tw dia area s c : ℝ) (double : Bool) (nCircle : ℕ)
    (conc steel : Material) : Except PyErr Shape :=
  withBars ops ov (teeWallOutline ops ov d b tf tw conc) (teeWallBars d b tf tw dia s c double) area steel nCircle

/-- concrete_sections.py 1206-1474: `single_lift_core`. -/
noncomputable def singleLiftCore (ops : GeomOps) (ov : OverlayOps) (d b t1 t2 a dia area s c : ℝ) (double : Bool)
    (nCircle : ℕ) (conc steel : Material) : Except PyErr Shape :=
  withBars ops ov (singleLiftCoreOutline ops ov d b t1 t2 a conc) (singleLiftCoreBars d b t1 t2 a dia s c double) area steel
    nCircle

/-- concrete_sections.py 1477-1781: `double_lift_core_a`. -/
noncomputable def doubleLiftCoreA (ops : GeomOps) (ov : OverlayOps) (d b t1 t2 a1 a2 dia area s c : ℝ) (double : Bool)
    (nCircle : ℕ) (conc steel : Material) : Except PyErr Shape :=
  if 2 * a1 + a2 > d - 2 * t1 then .error .valueError
  else withBars ops ov (doubleLiftCoreAOutline ops ov d b t1 t2 a1 a2 conc)
    (doubleLiftCoreABars d b t1 t2 a1 a2 dia s c double) area steel nCircle

/-- concrete_sections.py 1784-2129: `double_lift_core_b`. -/
noncomputable def doubleLiftCoreB (ops : GeomOps) (ov : OverlayOps) (d b t1 t2 t3 a dia area s c : ℝ) (double : Bool)
    (nCircle : ℕ) (conc steel : Material) : Except PyErr Shape :=
  if a > 1 / 2 * (d - 2 * t1 - t3) then .error .valueError
  else withBars ops ov (doubleLiftCoreBOutline ops ov d b t1 t2 t3 a conc)
    (doubleLiftCoreBBars d b t1 t2 t3 a dia s c double) area steel nCircle

/-- concrete_sections.py 2132-2388: `stairwell`. -/
noncomputable def stairwell (ops : GeomOps) (ov : OverlayOps) (d b t1 t2 a dia area s c : ℝ) (double : Bool)
    (nCircle : ℕ) (conc steel : Material) : Except PyErr Shape :=
  withBars ops ov (stairwellOutline ops ov d b t1 t2 a conc) (stairwellBars d b t1 t2 a dia s c double) area steel nCircle

end SP
