import Verif.Model.Analyses
import Verif.Model.AxisPlot

/-!
# Model of the plots of a section: section.py 1607-1666 (`plot_mesh`), 1709-1781 (`plot_centroids`), 1810-1845
(`plot_warping_function`)

What is modelled is what is handed to matplotlib: marked points with their labels, the angle and the centre of
the drawn axes, element colours and legend entries.  Mesh outlines, colours of marks and the plotting context
are not modelled.
-/

namespace SP

/-- `try: ... except RuntimeError: pass`.  (section.py 1719-1778.) -/
def ignoreRuntime {α : Type} : Except PyErr α → Except PyErr (Option α)
  | .ok a => .ok (some a)
  | .error .runtimeError => .ok none
  | .error e => .error e

/-- The marked points with labels, and angle (in radians) and centre handed to `draw_principal_axis`.  (section.py 1719-1778.) -/
structure CentroidPlot where
  marks : List (String × (ℝ × ℝ))
  axes : Option (ℝ × (ℝ × ℝ))

/-- A mark, if there is a point.  (section.py 1719-1766.) -/
def mark (label : String) : Option (ℝ × ℝ) → List (String × (ℝ × ℝ))
  | some p => [(label, p)]
  | none => []

/-- section.py 1709-1781: `plot_centroids`. -/
noncomputable def plotCentroids {n : ℕ} (p : Store n) : Except PyErr CentroidPlot := do
  let c ← ignoreRuntime (getC p)
  let sc ← ignoreRuntime (getSc p)
  let pc ← ignoreRuntime (getPc p)
  let pcp ← ignoreRuntime (getPcP p)
  let ax ← ignoreRuntime (do
    let phi ← getPhi p
    let c ← getC p
    pure (phi * Real.pi / 180, c))
  .ok ⟨mark "Elastic centroid" c ++ mark "Shear centre" sc ++ mark "Global plastic centroid" pc
    ++ mark "Principal plastic centroid" pcp, ax⟩

/-- section.py 1810-1845: `plot_warping_function`: the values over the nodes that are plotted. -/
def plotWarpingFunction {n : ℕ} (p : Store n) : Except PyErr (Fin n → ℝ) :=
  match p.omega with
  | none => .error .runtimeError
  | some om => .ok om

/-- `Normalize` and `ListedColormap` of matplotlib: the index of the colour for the value `v`, when the values
`vs` are plotted with a list of `k` colours.  The values are scaled so that the smallest becomes 0 and the
largest 1 (all become 0 if there is only one); the interval is divided into `k` equal parts.  (section.py 1638-1645.) -/
noncomputable def colourIndex (k : ℕ) (vs : List ℕ) (v : ℕ) : ℕ :=
  let lo : ℕ := vs.foldl min (vs.headD 0)
  let hi : ℕ := vs.foldl max 0
  if lo = hi then 0 else
  let x : ℝ := ((v : ℝ) - lo) / ((hi : ℝ) - lo) * k
  if x = k then k - 1 else ⌊x⌋₊

/-- `ax.tripcolor(triang, c, cmap=cmap)` with `c = [0, 1, ...]`: indices and colours of the drawn triangles;
masked triangles are left out, together with their values, before the values are scaled.  (section.py 1641-1645.) -/
noncomputable def tripcolor (colours : List String) (mask : Option (List Bool)) : List (ℕ × String) :=
  let c := (List.range colours.length).filter fun i => !(mask.getD []).getD i false
  c.map fun i => (i, colours.getD (colourIndex colours.length c i) "")

/-- What `plot_mesh` draws in colour: the elements (by index), and the legend entries (colour and name).  (section.py 1618-1652.) -/
structure MeshColours where
  elements : List (ℕ × String)
  legend : List (String × String)

open Classical in
/-- section.py 1622-1656: the colours of `plot_mesh`; nothing is coloured with `materials=False` or without
materials. -/
noncomputable def plotMesh (s : Section) (materials : Bool) (mask : Option (List Bool)) : Option MeshColours :=
  if materials = false ∨ s.materials = [] then none else
  some ⟨tripcolor (s.elements.map (·.material.color)) mask,
    (s.materials.zipIdx.filter fun p =>
        decide (p.2 = 0 ∨ p.1.val ∉ (s.materials.take p.2).map (·.val))).map
      fun p => (p.1.val.color, p.1.val.name)⟩

end SP
