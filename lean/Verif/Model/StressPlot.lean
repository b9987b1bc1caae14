import Verif.Model.StressPost

/-!
# Model of the stress plots: stress_post.py 59-375 (`plot_stress`) and 377-554 (`plot_stress_vector`)

What is modelled is what is handed to matplotlib: for each material group the values at the nodes and the
triangles that are shown, the contour levels, the ticks of the colour bar, the title.  The drawing itself,
the colour map and the plotting context (figure, axes) are not modelled.
-/

namespace SP

open Classical

/-- The exceptions of the plots: `KeyError` of a dictionary, `ValueError` of `min([])`, `IndexError` of
`sigxs[0]`.  (stress_post.py 297-322, 489.) -/
inductive PlotErr where
  | keyError
  | valueError
  | indexError
  deriving DecidableEq

/-- `d[key]`.  (stress_post.py 297-305.) -/
def pyItem {α : Type} (d : List (String × α)) (key : String) : Except PlotErr α :=
  match d.lookup key with
  | some x => .ok x
  | none => .error .keyError

/-- `min(x)` of a list of floats.  (stress_post.py 321, 490.) -/
noncomputable def pyMin : List ℝ → Except PlotErr ℝ
  | [] => .error .valueError
  | x :: l => .ok (runMin x l)

/-- `max(x)` of a list of floats.  (stress_post.py 322, 491.) -/
noncomputable def pyMax : List ℝ → Except PlotErr ℝ
  | [] => .error .valueError
  | x :: l => .ok (runMax x l)

/-- stress_post.py 906-984: the attributes of a `StressResult`. -/
def GroupStress.attr {n : ℕ} (g : GroupStress n) : List (String × (Fin n → ℝ)) := [
  ("sig_zz_n", fun i => (g.comp i).zzN), ("sig_zz_mxx", fun i => (g.comp i).zzMxx),
  ("sig_zz_myy", fun i => (g.comp i).zzMyy), ("sig_zz_m11", fun i => (g.comp i).zzM11),
  ("sig_zz_m22", fun i => (g.comp i).zzM22), ("sig_zx_mzz", fun i => (g.comp i).zxMzz),
  ("sig_zy_mzz", fun i => (g.comp i).zyMzz), ("sig_zx_vx", fun i => (g.comp i).zxVx),
  ("sig_zy_vx", fun i => (g.comp i).zyVx), ("sig_zx_vy", fun i => (g.comp i).zxVy),
  ("sig_zy_vy", fun i => (g.comp i).zyVy), ("sig_zz_m", fun i => (g.comb i).zzM),
  ("sig_zxy_mzz", fun i => (g.comb i).zxyMzz), ("sig_zxy_vx", fun i => (g.comb i).zxyVx),
  ("sig_zxy_vy", fun i => (g.comb i).zxyVy), ("sig_zx_v", fun i => (g.comb i).zxV),
  ("sig_zy_v", fun i => (g.comb i).zyV), ("sig_zxy_v", fun i => (g.comb i).zxyV),
  ("sig_zz", fun i => (g.comb i).zz), ("sig_zx", fun i => (g.comb i).zx),
  ("sig_zy", fun i => (g.comb i).zy), ("sig_zxy", fun i => (g.comb i).zxy),
  ("sig_11", fun i => (g.comb i).s11), ("sig_33", fun i => (g.comb i).s33),
  ("sig_vm", fun i => (g.comb i).vm)]

/-- stress_post.py 188-289: `stress_dict` of `plot_stress`: attribute and default title. -/
def plotStressDict : List (String × (String × String)) := [
  ("n_zz", "sig_zz_n", "Stress Contour Plot - $\\sigma_{zz,N}$"),
  ("mxx_zz", "sig_zz_mxx", "Stress Contour Plot - $\\sigma_{zz,Mxx}$"),
  ("myy_zz", "sig_zz_myy", "Stress Contour Plot - $\\sigma_{zz,Myy}$"),
  ("m11_zz", "sig_zz_m11", "Stress Contour Plot - $\\sigma_{zz,M11}$"),
  ("m22_zz", "sig_zz_m22", "Stress Contour Plot - $\\sigma_{zz,M22}$"),
  ("m_zz", "sig_zz_m", "Stress Contour Plot - $\\sigma_{zz,\\Sigma M}$"),
  ("mzz_zx", "sig_zx_mzz", "Stress Contour Plot - $\\sigma_{zx,Mzz}$"),
  ("mzz_zy", "sig_zy_mzz", "Stress Contour Plot - $\\sigma_{zy,Mzz}$"),
  ("mzz_zxy", "sig_zxy_mzz", "Stress Contour Plot - $\\sigma_{zxy,Mzz}$"),
  ("vx_zx", "sig_zx_vx", "Stress Contour Plot - $\\sigma_{zx,Vx}$"),
  ("vx_zy", "sig_zy_vx", "Stress Contour Plot - $\\sigma_{zy,Vx}$"),
  ("vx_zxy", "sig_zxy_vx", "Stress Contour Plot - $\\sigma_{zxy,Vx}$"),
  ("vy_zx", "sig_zx_vy", "Stress Contour Plot - $\\sigma_{zx,Vy}$"),
  ("vy_zy", "sig_zy_vy", "Stress Contour Plot - $\\sigma_{zy,Vy}$"),
  ("vy_zxy", "sig_zxy_vy", "Stress Contour Plot - $\\sigma_{zxy,Vy}$"),
  ("v_zx", "sig_zx_v", "Stress Contour Plot - $\\sigma_{zx,\\Sigma V}$"),
  ("v_zy", "sig_zy_v", "Stress Contour Plot - $\\sigma_{zy,\\Sigma V}$"),
  ("v_zxy", "sig_zxy_v", "Stress Contour Plot - $\\sigma_{zxy,\\Sigma V}$"),
  ("zz", "sig_zz", "Stress Contour Plot - $\\sigma_{zz}$"),
  ("zx", "sig_zx", "Stress Contour Plot - $\\sigma_{zx}$"),
  ("zy", "sig_zy", "Stress Contour Plot - $\\sigma_{zy}$"),
  ("zxy", "sig_zxy", "Stress Contour Plot - $\\sigma_{zxy}$"),
  ("11", "sig_11", "Stress Contour Plot - $\\sigma_{11}$"),
  ("33", "sig_33", "Stress Contour Plot - $\\sigma_{33}$"),
  ("vm", "sig_vm", "Stress Contour Plot - $\\sigma_{vM}$")]

/-- The material group of a `StressPost` object (stress_post.py 54-57, section.py 3459-3510): material,
`el_ids` and stored results.  The results of a stress analysis are stored group by group. -/
structure PostGroup (n : ℕ) where
  material : Material
  elIds : List ℕ
  result : GroupStress n

/-- section.py 1362-1453, stress_post.py 54-57: the groups of the `StressPost` object returned by a stress
analysis with results `l`. -/
def postGroups (s : Section) (l : List (GroupStress s.numNodes)) : List (PostGroup s.numNodes) :=
  s.groups.zipWith (fun g r => ⟨g.material.val, g.elements.map (·.elId), r⟩) l

/-- One call of `ax.tricontourf`: values at the nodes, and for each element whether it is masked
(stress_post.py 347-353). -/
structure ContourLayer (n : ℕ) where
  values : Fin n → ℝ
  mask : List Bool

/-- The contour levels: a list of values, or their number (stress_post.py 327-333). -/
inductive Levels where
  | list (v : List ℝ)
  | number (k : ℕ)

/-- What `plot_stress` draws (stress_post.py 303-375): the title, one contour plot for each material group and the levels. -/
structure ContourPlot (n : ℕ) where
  title : String
  layers : List (ContourLayer n)
  levels : Levels

/-- stress_post.py 297, 343: `material_list and group.material not in material_list`; an empty list is
false.  Materials are compared field by field. -/
noncomputable def skipMaterial (mats : Option (List Material)) (m : Material) : Bool :=
  match mats with
  | none => false
  | some l => !l.isEmpty && !decide (m ∈ l)

/-- stress_post.py 347-349: all true, except at the element numbers of the group. -/
def maskArray (numEls : ℕ) (elIds : List ℕ) : List Bool :=
  (List.range numEls).map fun i => !decide (i ∈ elIds)

/-- `np.linspace(start, stop, num=15, endpoint=True)`.  (stress_post.py 327.) -/
noncomputable def linspace15 (a b : ℝ) : List ℝ := (List.range 15).map fun k : ℕ => a + (k : ℝ) * ((b - a) / 14)

/-- stress_post.py 303-305: `if not title: title = default`. -/
def pyTitle (title : Option String) (default : Except PlotErr String) : Except PlotErr String :=
  match title with
  | none => default
  | some t => if t = "" then default else .ok t

/-- stress_post.py 319-333: the contour levels. -/
noncomputable def contourLevels {n : ℕ} (limits : Option (ℝ × ℝ)) (sigs : List (Fin n → ℝ)) :
    Except PlotErr Levels := do
  let (sigMin, sigMax) ← match limits with
    | none => do
      let mins ← sigs.mapM fun x => pyMin (List.ofFn x)
      let lo ← pyMin mins
      let maxs ← sigs.mapM fun x => pyMax (List.ofFn x)
      let hi ← pyMax maxs
      pure (lo - 1 / 10 ^ 12, hi + 1 / 10 ^ 12)
    | some lim => pure lim
  if |sigMin - sigMax| ≤ 1 / 10 ^ 12 + 1 / 10 ^ 5 * |sigMax| then .ok (.number 15)
  else .ok (.list (linspace15 sigMin sigMax))

/-- stress_post.py 291-375: `plot_stress` on the groups of a `StressPost` object for a section with
`numEls` elements.  Colours, the colour bar (its ticks are the levels) and the mesh outlines are left out. -/
noncomputable def plotStress {n : ℕ} (numEls : ℕ) (groups : List (PostGroup n)) (stress : String)
    (title : Option String) (limits : Option (ℝ × ℝ)) (mats : Option (List Material)) :
    Except PlotErr (ContourPlot n) := do
  let plotted := groups.filter fun g => !skipMaterial mats g.material
  let sigs ← plotted.mapM fun g => do
    let e ← pyItem plotStressDict stress
    pyItem g.result.attr e.1
  let title ← pyTitle title (do let e ← pyItem plotStressDict stress; pure e.2)
  let levels ← contourLevels limits sigs
  let layers := (plotted.zip sigs).filterMap fun p =>
    if skipMaterial mats p.1.material then none else some ⟨p.2, maskArray numEls p.1.elIds⟩
  .ok ⟨title, layers, levels⟩

/-- stress_post.py 434-460: `stress_dict` of `plot_stress_vector`. -/
def plotVectorDict : List (String × (String × String × String)) := [
  ("mzz_zxy", "sig_zx_mzz", "sig_zy_mzz", "Stress Vector Plot - $\\sigma_{zxy,Mzz}$"),
  ("vx_zxy", "sig_zx_vx", "sig_zy_vx", "Stress Vector Plot - $\\sigma_{zxy,Vx}$"),
  ("vy_zxy", "sig_zx_vy", "sig_zy_vy", "Stress Vector Plot - $\\sigma_{zxy,Vy}$"),
  ("v_zxy", "sig_zx_v", "sig_zy_v", "Stress Vector Plot - $\\sigma_{zxy,\\Sigma V}$"),
  ("zxy", "sig_zx", "sig_zy", "Stress Vector Plot - $\\sigma_{zxy}$")]

/-- One call of `ax.quiver` (stress_post.py 494-509): the components of the arrows at the nodes and the
values `c` that determine their colours. -/
structure Arrows (n : ℕ) where
  x : Fin n → ℝ
  y : Fin n → ℝ
  c : Fin n → ℝ

/-- What `plot_stress_vector` draws (stress_post.py 462-554): the title, the arrows of each material group and the ticks of the colour bar. -/
structure VectorPlot (n : ℕ) where
  title : String
  arrows : List (Arrows n)
  ticks : List ℝ

/-- stress_post.py 462-554: `plot_stress_vector`.  The common scale of the arrows (510-526) is left out. -/
noncomputable def plotStressVector {n : ℕ} (groups : List (PostGroup n)) (stress : String)
    (title : Option String) : Except PlotErr (VectorPlot n) := do
  let sigs ← groups.mapM fun g => do
    let e ← pyItem plotVectorDict stress
    let sx ← pyItem g.result.attr e.1
    let sy ← pyItem g.result.attr e.2.1
    pure (sx, sy)
  let title ← pyTitle title (do let e ← pyItem plotVectorDict stress; pure e.2.2)
  match sigs with
  | [] => .error .indexError
  | p :: ps =>
    let c := fun q : (Fin n → ℝ) × (Fin n → ℝ) => fun i => √(q.1 i ^ 2 + q.2 i ^ 2)
    let cMin ← pyMin (List.ofFn (c p))
    let cMax ← pyMax (List.ofFn (c p))
    let mins ← (p :: ps).mapM fun q => pyMin (List.ofFn (c q))
    let maxs ← (p :: ps).mapM fun q => pyMax (List.ofFn (c q))
    .ok ⟨title, (p :: ps).map fun q => ⟨q.1, q.2, c q⟩,
      linspace15 (runMin cMin mins - 1 / 10 ^ 12) (runMax cMax maxs + 1 / 10 ^ 12)⟩

end SP
