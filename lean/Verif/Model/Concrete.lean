import Verif.Model.Library
import Mathlib.Algebra.Order.Floor.Ring
import Mathlib.Analysis.SpecialFunctions.Trigonometric.Basic

/-!
# Model of the bar positions in `pre/library/concrete_sections.py`

Only where the bars are placed is modelled here (for the rest see `Model/AddBars`): each builder makes a concrete outline, and then (lines 2391-2457, and
the loops of the beam and column sections) cuts a polygon of the requested area, made by
`circular_section_by_area` and shifted to the position, out of the concrete and adds it as a region of steel.  The
polygon is in `Verif.Model.Library`; the cut is done by shapely.
-/

namespace SP

/-- `np.linspace(start, stop, num).tolist()`.  (concrete_sections.py 312, 787, 928 and the other calls.) -/
noncomputable def linspace (start stop : ℝ) (num : ℤ) : Except PyErr (List ℝ) :=
  if num < 0 then .error .valueError
  else .ok ((List.range num.toNat).map fun i : ℕ => start + (i : ℝ) * ((stop - start) / ((num : ℝ) - 1)))

/-- concrete_sections.py 781-787 and all similar places: `n = ceil(length / spacing) + 1` and
`np.linspace(start, stop, n)`. -/
noncomputable def wallRun (spacing length start stop : ℝ) : Except PyErr (List ℝ) :=
  if spacing = 0 then .error .zeroDivision else linspace start stop (⌈length / spacing⌉ + 1)

/-- The slice `l[1:-1]`.  (concrete_sections.py 942, 972, 1003, 1361.) -/
def inner (l : List ℝ) : List ℝ := (l.drop 1).dropLast
/-- The slice `l[1:]`  (concrete_sections.py 1366). -/
def tailOf (l : List ℝ) : List ℝ := l.drop 1
/-- The slice `l[:-1]`  (concrete_sections.py 1147, 1196, 1371). -/
def initOf (l : List ℝ) : List ℝ := l.dropLast

/-- `for x in xs: xs.append(x); ys.append(y)`.  (concrete_sections.py, the loops over one row of bars, such as 942-944.) -/
def rowAt (y : ℝ) (xs : List ℝ) : List Pt := xs.map fun x => (x, y)
/-- `for y in ys: xs.append(x); ys.append(y)`.  (concrete_sections.py, the loops over one column of bars, such as 1361-1364.) -/
def colAt (x : ℝ) (ys : List ℝ) : List Pt := ys.map fun y => (x, y)
/-- Two nested loops, the first one outside.  (concrete_sections.py, the nested loops of walls, such as 793-796.) -/
def gridXY (xs ys : List ℝ) : List Pt := xs.flatMap fun x => ys.map fun y => (x, y)
/-- Two nested loops, `y` outside.  (concrete_sections.py, the nested loops of walls and cores.) -/
def gridYX (ys xs : List ℝ) : List Pt := ys.flatMap fun y => xs.map fun x => (x, y)

/-! ### Beams and columns -/

/-- concrete_sections.py 129-139 and 141-150 (and, with `c = -b / 2`, 480-501): first position and spacing of a layer
of `n` bars; `off` is the position of the left edge. -/
noncomputable def layerXs (off b dia cSide cover : ℝ) (n : ℕ) : List ℝ :=
  let x0 := if n = 1 then off + b / 2 else if cSide ≠ 0 then off + cSide + dia / 2 else off + cover + dia / 2
  let sp := if n = 1 then 0 else
    if cSide ≠ 0 then (b - 2 * cSide - dia) / ((n : ℝ) - 1) else (b - 2 * cover - dia) / ((n : ℝ) - 1)
  (List.range n).map fun i : ℕ => x0 + sp * (i : ℝ)

/-- The bars of a beam section: top, bottom and side bars.  (concrete_sections.py 152-200.) -/
structure BeamBars where
  top : List Pt
  bot : List Pt
  side : List Pt

/-- concrete_sections.py 126-200: the bars of `concrete_rectangular_section`.  `diaSide = none` and
`areaSide = none` are the defaults; a given value of zero is treated as `None` is by the tests of lines 153 and
188. -/
noncomputable def rectangularBars (d b diaTop : ℝ) (nTop : ℕ) (cTop diaBot : ℝ) (nBot : ℕ) (cBot : ℝ)
    (diaSide areaSide : Option ℝ) (nSide : ℕ) (cSide : ℝ) : BeamBars :=
  let side := match diaSide with
    | some ds => if ds ≠ 0 ∧ nSide ≠ 0 then
        some (cSide + ds / 2, (d - cTop - cBot - diaTop / 2 - diaBot / 2) / ((nSide : ℝ) + 1)) else none
    | none => none
  let xl := match side with | some p => p.1 | none => 0
  let xr := match side with | some p => b - p.1 | none => 0
  let sp := match side with | some p => p.2 | none => 0
  { top := rowAt (d - cTop - diaTop / 2) (layerXs 0 b diaTop cSide cTop nTop)
    bot := rowAt (cBot + diaBot / 2) (layerXs 0 b diaBot cSide cBot nBot)
    side := if ∃ a, areaSide = some a ∧ a ≠ 0 then
        (List.range nSide).flatMap fun i : ℕ =>
          [(xl, cBot + diaBot / 2 + sp * ((i : ℝ) + 1)), (xl + (xr - xl), cBot + diaBot / 2 + sp * ((i : ℝ) + 1))]
      else [] }

/-- concrete_sections.py 478-551: the bars of `concrete_tee_section`; the web is centred on the `y` axis. -/
noncomputable def teeBars (d b bF diaTop : ℝ) (nTop : ℕ) (cTop diaBot : ℝ) (nBot : ℕ) (cBot : ℝ)
    (diaSide areaSide : Option ℝ) (nSide : ℕ) (cSide : ℝ) : BeamBars :=
  let side := match diaSide with
    | some ds => if ds ≠ 0 ∧ nSide ≠ 0 then
        some (-b / 2 + cSide + ds / 2, (d - cTop - cBot - diaTop / 2 - diaBot / 2) / ((nSide : ℝ) + 1)) else none
    | none => none
  let xl := match side with | some p => p.1 | none => 0
  let xr := match side with | some p => -p.1 | none => 0
  let sp := match side with | some p => p.2 | none => 0
  { top := rowAt (d - cTop - diaTop / 2) (layerXs (-bF / 2) bF diaTop cSide cTop nTop)
    bot := rowAt (cBot + diaBot / 2) (layerXs (-b / 2) b diaBot cSide cBot nBot)
    side := if ∃ a, areaSide = some a ∧ a ≠ 0 then
        (List.range nSide).flatMap fun i : ℕ =>
          [(xl, cBot + diaBot / 2 + sp * ((i : ℝ) + 1)), (xl + (xr - xl), cBot + diaBot / 2 + sp * ((i : ℝ) + 1))]
      else [] }

/-- concrete_sections.py 307-337: the bars of `concrete_column_section`.  The extents of the inward offset of the
rectangle are taken to be those of the smaller rectangle (the offset is done by shapely).  Python's `set` removes
repeated positions; the order of the result is not modelled (`List.dedup`). -/
noncomputable def columnBars (d b dia : ℝ) (nX nY : ℤ) (cover : ℝ) (filled : Bool) : Except PyErr (List Pt) := by
  classical
  exact do
    let xMin := cover + dia / 2
    let xMax := b - cover - dia / 2
    let yMin := cover + dia / 2
    let yMax := d - cover - dia / 2
    let xs ← linspace xMin xMax nX
    let ys ← linspace yMin yMax nY
    if filled then pure (gridYX ys xs)
    else pure (rowAt yMax xs ++ rowAt yMin xs ++ colAt xMax ys ++ colAt xMin ys).dedup

/-- concrete_sections.py 649-671: the bars of `concrete_circular_section`. -/
noncomputable def circularBars (d dia cover : ℝ) (nBar : ℕ) : Except PyErr (List Pt) :=
  if nBar < 2 then .error .valueError
  else
    let r := d / 2 - cover - dia / 2
    let dθ := 2 * Real.pi / (nBar : ℝ)
    .ok ((List.range nBar).map fun i : ℕ => (r * Real.cos ((i : ℝ) * dθ), r * Real.sin ((i : ℝ) * dθ)))

/-! ### Walls -/

/-- concrete_sections.py 776-796: `rectangular_wall`. -/
noncomputable def rectangularWallBars (d t dia s c : ℝ) (double : Bool) : Except PyErr (List Pt) := do
  let ys ← wallRun s (d - 2 * c - dia) (c + 1 / 2 * dia) (d - c - 1 / 2 * dia)
  let xs := if double then [c + 1 / 2 * dia, t - c - 1 / 2 * dia] else [1 / 2 * t]
  pure (gridYX ys xs)

/-- concrete_sections.py 914-1005: `cee_wall`. -/
noncomputable def ceeWallBars (d b tf tw dia s c : ℝ) (double : Bool) : Except PyErr (List Pt) :=
  if double then do
    let xo ← wallRun s (b - 2 * c - dia) (c + 1 / 2 * dia) (b - c - 1 / 2 * dia)
    let yo ← wallRun s (d - 2 * c - dia) (c + 1 / 2 * dia) (d - c - 1 / 2 * dia)
    let xi ← wallRun s (b - tw) (tw - c - 1 / 2 * dia) (b - c - 1 / 2 * dia)
    let yi ← wallRun s (d - 2 * tf + 2 * c + dia) (tf - c - 1 / 2 * dia) (d - tf + c + 1 / 2 * dia)
    pure (rowAt (c + 1 / 2 * dia) xo ++ rowAt (d - c - 1 / 2 * dia) xo ++ colAt (c + 1 / 2 * dia) (inner yo)
      ++ rowAt (tf - c - 1 / 2 * dia) xi ++ rowAt (d - tf + c + 1 / 2 * dia) xi
      ++ colAt (tw - c - 1 / 2 * dia) (inner yi))
  else do
    let xs ← wallRun s (b - c - 1 / 2 * dia - 1 / 2 * tw) (1 / 2 * tw) (b - c - 1 / 2 * dia)
    let ys ← wallRun s (d - tf) (1 / 2 * tf) (d - 1 / 2 * tf)
    pure (rowAt (1 / 2 * tf) xs ++ rowAt (d - 1 / 2 * tf) xs ++ colAt (1 / 2 * tw) (inner ys))

/-- concrete_sections.py 1122-1199: `tee_wall`. -/
noncomputable def teeWallBars (d b tf tw dia s c : ℝ) (double : Bool) : Except PyErr (List Pt) :=
  if double then do
    let xo ← wallRun s (b - 2 * c - dia) (c + 1 / 2 * dia) (b - c - 1 / 2 * dia)
    let xl ← wallRun s (1 / 2 * (b - tw)) (c + 1 / 2 * dia) (1 / 2 * (b - tw) + c + 1 / 2 * dia)
    let xr ← wallRun s (1 / 2 * (b - tw)) (1 / 2 * (b + tw) - c - 1 / 2 * dia) (b - c - 1 / 2 * dia)
    let ys ← wallRun s (d - tf) (c + 1 / 2 * dia) (d - tf + c + 1 / 2 * dia)
    pure (rowAt (d - c - 1 / 2 * dia) xo ++ rowAt (d - tf + c + 1 / 2 * dia) (xl ++ xr)
      ++ gridYX (initOf ys) [1 / 2 * (b - tw) + c + 1 / 2 * dia, 1 / 2 * (b + tw) - c - 1 / 2 * dia])
  else do
    let xs ← wallRun s (b - 2 * c - dia) (c + 1 / 2 * dia) (b - c - 1 / 2 * dia)
    let ys ← wallRun s (d - 1 / 2 * tf - c - 1 / 2 * dia) (c + 1 / 2 * dia) (d - 1 / 2 * tf)
    pure (rowAt (d - 1 / 2 * tf) xs ++ colAt (1 / 2 * b) (initOf ys))

/-- concrete_sections.py 1323-1470: `single_lift_core`. -/
noncomputable def singleLiftCoreBars (d b t1 t2 a dia s c : ℝ) (double : Bool) : Except PyErr (List Pt) :=
  if double then do
    let xo ← wallRun s (b - 2 * c - dia) (c + 1 / 2 * dia) (b - c - 1 / 2 * dia)
    let xi ← wallRun s (b - 2 * t2 + 2 * c + dia) (t2 - c - 1 / 2 * dia) (b - t2 + c + 1 / 2 * dia)
    let yo ← wallRun s (d - 2 * c - dia) (c + 1 / 2 * dia) (d - c - 1 / 2 * dia)
    let yi ← wallRun s (d - 2 * t1 + 2 * c + dia) (t1 - c - 1 / 2 * dia) (d - t1 + c + 1 / 2 * dia)
    let rob ← wallRun s (1 / 2 * (d - a) - 2 * c - dia) (c + 1 / 2 * dia) (1 / 2 * (d - a) - c - 1 / 2 * dia)
    let rot ← wallRun s (1 / 2 * (d - a) - 2 * c - dia) (1 / 2 * (d + a) + c + 1 / 2 * dia) (d - c - 1 / 2 * dia)
    let rib ← wallRun s (1 / 2 * (d - a) - t1) (t1 - c - 1 / 2 * dia) (1 / 2 * (d - a) - c - 1 / 2 * dia)
    let rit ← wallRun s (1 / 2 * (d - a) - t1) (1 / 2 * (d + a) + c + 1 / 2 * dia) (d - t1 + c + 1 / 2 * dia)
    pure (gridXY xo [c + 1 / 2 * dia, d - c - 1 / 2 * dia]
      ++ gridXY xi [t1 - c - 1 / 2 * dia, d - t1 + c + 1 / 2 * dia]
      ++ colAt (c + 1 / 2 * dia) (inner yo) ++ colAt (t2 - c - 1 / 2 * dia) (inner yi)
      ++ colAt (b - c - 1 / 2 * dia) (inner (rob ++ rot)) ++ colAt (b - t2 + c + 1 / 2 * dia) (inner (rib ++ rit)))
  else do
    let xs ← wallRun s (b - t2) (1 / 2 * t2) (b - 1 / 2 * t2)
    let yl ← wallRun s (d - t1) (1 / 2 * t1) (d - 1 / 2 * t1)
    let yb ← wallRun s (1 / 2 * (d - a) - 1 / 2 * t1 - c - 1 / 2 * dia) (1 / 2 * t1) (1 / 2 * (d - a) - c - 1 / 2 * dia)
    let yt ← wallRun s (1 / 2 * (d - a) - 1 / 2 * t1 - c - 1 / 2 * dia) (1 / 2 * (d + a) + c + 1 / 2 * dia)
      (d - 1 / 2 * t1)
    pure (rowAt (1 / 2 * t1) xs ++ rowAt (d - 1 / 2 * t1) xs ++ colAt (1 / 2 * t2) (inner yl)
      ++ colAt (b - 1 / 2 * t2) (tailOf yb) ++ colAt (b - 1 / 2 * t2) (initOf yt))

/-- concrete_sections.py 1588-1777: `double_lift_core_a`. -/
noncomputable def doubleLiftCoreABars (d b t1 t2 a1 a2 dia s c : ℝ) (double : Bool) : Except PyErr (List Pt) :=
  if 2 * a1 + a2 > d - 2 * t1 then .error .valueError
  else
    let nib := 1 / 2 * (d - 2 * a1 - a2 - 2 * t1)
    if double then do
      let xo ← wallRun s (b - 2 * c - dia) (c + 1 / 2 * dia) (b - c - 1 / 2 * dia)
      let xi ← wallRun s (b - 2 * t2 + 2 * c + dia) (t2 - c - 1 / 2 * dia) (b - t2 + c + 1 / 2 * dia)
      let yo ← wallRun s (d - 2 * c - dia) (c + 1 / 2 * dia) (d - c - 1 / 2 * dia)
      let yi ← wallRun s (d - 2 * t1 + 2 * c + dia) (t1 - c - 1 / 2 * dia) (d - t1 + c + 1 / 2 * dia)
      let rob ← wallRun s (nib + t1 - 2 * c - dia) (c + 1 / 2 * dia) (t1 + nib - c - 1 / 2 * dia)
      let rot ← wallRun s (nib + t1 - 2 * c - dia) (d - t1 - nib + c + 1 / 2 * dia) (d - c - 1 / 2 * dia)
      let rib ← wallRun s nib (t1 - c - 1 / 2 * dia) (t1 + nib - c - 1 / 2 * dia)
      let rit ← wallRun s nib (d - t1 - nib + c + 1 / 2 * dia) (d - t1 + c + 1 / 2 * dia)
      let pier ← wallRun s (a2 - 2 * c - dia) (1 / 2 * (d - a2) + c + 1 / 2 * dia) (1 / 2 * (d + a2) - c - 1 / 2 * dia)
      pure (gridXY xo [c + 1 / 2 * dia, d - c - 1 / 2 * dia]
        ++ gridXY xi [t1 - c - 1 / 2 * dia, d - t1 + c + 1 / 2 * dia]
        ++ colAt (c + 1 / 2 * dia) (inner yo) ++ colAt (t2 - c - 1 / 2 * dia) (inner yi)
        ++ colAt (b - c - 1 / 2 * dia) (inner (rob ++ rot)) ++ colAt (b - t2 + c + 1 / 2 * dia) (inner (rib ++ rit))
        ++ gridYX pier [b - t2 + c + 1 / 2 * dia, b - c - 1 / 2 * dia])
    else do
      let xs ← wallRun s (b - t2) (1 / 2 * t2) (b - 1 / 2 * t2)
      let ys ← wallRun s (d - t1) (1 / 2 * t1) (d - 1 / 2 * t1)
      let nb ← wallRun s (nib + 1 / 2 * t1) (1 / 2 * t1) (t1 + nib - c - 1 / 2 * dia)
      let nt ← wallRun s (nib + 1 / 2 * t1) (d - t1 - nib + c + 1 / 2 * dia) (d - 1 / 2 * t1)
      let pier ← wallRun s (a2 - 2 * c - dia) (1 / 2 * (d - a2) + c + 1 / 2 * dia) (1 / 2 * (d + a2) - c - 1 / 2 * dia)
      pure (rowAt (1 / 2 * t1) xs ++ rowAt (d - 1 / 2 * t1) xs ++ colAt (1 / 2 * t2) (inner ys)
        ++ colAt (b - 1 / 2 * t2) (tailOf nb) ++ colAt (b - 1 / 2 * t2) (initOf nt) ++ colAt (b - 1 / 2 * t2) pier)

/-- concrete_sections.py 1895-2125: `double_lift_core_b`. -/
noncomputable def doubleLiftCoreBBars (d b t1 t2 t3 a dia s c : ℝ) (double : Bool) : Except PyErr (List Pt) :=
  if a > 1 / 2 * (d - 2 * t1 - t3) then .error .valueError
  else
    let nib := 1 / 4 * (d - 2 * t1 - 2 * a - t3)
    let a2 := 2 * nib + t3
    if double then do
      let xo ← wallRun s (b - 2 * c - dia) (c + 1 / 2 * dia) (b - c - 1 / 2 * dia)
      let xi ← wallRun s (b - 2 * t2 + 2 * c + dia) (t2 - c - 1 / 2 * dia) (b - t2 + c + 1 / 2 * dia)
      let yo ← wallRun s (d - 2 * c - dia) (c + 1 / 2 * dia) (d - c - 1 / 2 * dia)
      let yib ← wallRun s (1 / 2 * (d - 2 * t1 - t3) + 2 * c + dia) (t1 - c - 1 / 2 * dia)
        (1 / 2 * (d - t3) + c + 1 / 2 * dia)
      let yit ← wallRun s (1 / 2 * (d - 2 * t1 - t3) + 2 * c + dia) (1 / 2 * (d + t3) - c - 1 / 2 * dia)
        (d - t1 + c + 1 / 2 * dia)
      let rob ← wallRun s (nib + t1 - 2 * c - dia) (c + 1 / 2 * dia) (t1 + nib - c - 1 / 2 * dia)
      let rot ← wallRun s (nib + t1 - 2 * c - dia) (d - t1 - nib + c + 1 / 2 * dia) (d - c - 1 / 2 * dia)
      let rib ← wallRun s nib (t1 - c - 1 / 2 * dia) (t1 + nib - c - 1 / 2 * dia)
      let rit ← wallRun s nib (d - t1 - nib + c + 1 / 2 * dia) (d - t1 + c + 1 / 2 * dia)
      let pier ← wallRun s (a2 - 2 * c - dia) (1 / 2 * (d - a2) + c + 1 / 2 * dia) (1 / 2 * (d + a2) - c - 1 / 2 * dia)
      let pb ← wallRun s (nib - 2 * c - dia) (1 / 2 * (d - a2) + c + 1 / 2 * dia) (1 / 2 * d - c - 1 / 2 * dia)
      let pt ← wallRun s (nib - 2 * c - dia) (1 / 2 * d + c + 1 / 2 * dia) (1 / 2 * (d + a2) - c - 1 / 2 * dia)
      pure (gridXY xo [c + 1 / 2 * dia, d - c - 1 / 2 * dia]
        ++ gridXY xi [t1 - c - 1 / 2 * dia, 1 / 2 * (d - t3) + c + 1 / 2 * dia, 1 / 2 * (d + t3) - c - 1 / 2 * dia,
          d - t1 + c + 1 / 2 * dia]
        ++ colAt (c + 1 / 2 * dia) (inner yo) ++ colAt (t2 - c - 1 / 2 * dia) (inner yib ++ inner yit)
        ++ colAt (b - c - 1 / 2 * dia) (inner (rob ++ rot)) ++ colAt (b - t2 + c + 1 / 2 * dia) (inner (rib ++ rit))
        ++ colAt (b - c - 1 / 2 * dia) pier ++ colAt (b - t2 + c + 1 / 2 * dia) (initOf pb ++ tailOf pt))
    else do
      let xs ← wallRun s (b - t2) (1 / 2 * t2) (b - 1 / 2 * t2)
      let ys ← wallRun s (d - t1) (1 / 2 * t1) (d - 1 / 2 * t1)
      let nb ← wallRun s (nib + 1 / 2 * t1) (1 / 2 * t1) (t1 + nib - c - 1 / 2 * dia)
      let nt ← wallRun s (nib + 1 / 2 * t1) (d - t1 - nib + c + 1 / 2 * dia) (d - 1 / 2 * t1)
      let pier ← wallRun s (a2 - 2 * c - dia) (1 / 2 * (d - a2) + c + 1 / 2 * dia) (1 / 2 * (d + a2) - c - 1 / 2 * dia)
      pure (rowAt (1 / 2 * t1) xs ++ rowAt (1 / 2 * d) (inner xs) ++ rowAt (d - 1 / 2 * t1) xs
        ++ colAt (1 / 2 * t2) (inner ys) ++ colAt (b - 1 / 2 * t2) (tailOf nb) ++ colAt (b - 1 / 2 * t2) (initOf nt)
        ++ colAt (b - 1 / 2 * t2) pier)

/-- concrete_sections.py 2247-2384: `stairwell`. -/
noncomputable def stairwellBars (d b t1 t2 a dia s c : ℝ) (double : Bool) : Except PyErr (List Pt) :=
  if double then do
    let xo ← wallRun s (b - 2 * c - dia) (c + 1 / 2 * dia) (b - c - 1 / 2 * dia)
    let xit ← wallRun s (b - t2) (t2 - c - 1 / 2 * dia) (b - c - 1 / 2 * dia)
    let xib ← wallRun s (b - 2 * t2 + 2 * c + dia) (t2 - c - 1 / 2 * dia) (b - t2 + c + 1 / 2 * dia)
    let yo ← wallRun s (d - 2 * c - dia) (c + 1 / 2 * dia) (d - c - 1 / 2 * dia)
    let yi ← wallRun s (d - 2 * t1 + 2 * c + dia) (t1 - c - 1 / 2 * dia) (d - t1 + c + 1 / 2 * dia)
    let ri ← wallRun s (d - 2 * t1 - a) (t1 - c - 1 / 2 * dia) (d - t1 - a - c - 1 / 2 * dia)
    let ro ← wallRun s (d - t1 - a - c - 1 / 2 * dia) (c + 1 / 2 * dia) (d - t1 - a - c - 1 / 2 * dia)
    pure (gridXY xo [c + 1 / 2 * dia, d - c - 1 / 2 * dia] ++ rowAt (d - t1 + c + 1 / 2 * dia) xit
      ++ rowAt (t1 - c - 1 / 2 * dia) xib ++ colAt (c + 1 / 2 * dia) (inner yo)
      ++ colAt (t2 - c - 1 / 2 * dia) (inner yi) ++ colAt (b - t2 + c + 1 / 2 * dia) (tailOf ri)
      ++ colAt (b - c - 1 / 2 * dia) (tailOf ro))
  else do
    let xs ← wallRun s (b - t2) (1 / 2 * t2) (b - 1 / 2 * t2)
    let yl ← wallRun s (d - t1) (1 / 2 * t1) (d - 1 / 2 * t1)
    let yr ← wallRun s (d - 3 / 2 * t1 - a - c - 1 / 2 * dia) (1 / 2 * t1) (d - t1 - a - c - 1 / 2 * dia)
    pure (rowAt (1 / 2 * t1) xs ++ rowAt (d - 1 / 2 * t1) xs ++ colAt (1 / 2 * t2) (inner yl)
      ++ colAt (b - 1 / 2 * t2) (tailOf yr))

end SP
