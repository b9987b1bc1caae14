import Verif.Model.Fea
import Mathlib.Analysis.SpecialFunctions.Complex.Arg

/-!
# Model of `analysis/section.py`: construction and geometric analysis

Also the derived properties of `post/post.py` 226-331.
-/

namespace SP

open Classical

/-! ### Construction, section.py 63-174 -/

/-- A Python `Material` object: its identity (what `is` compares) and its value (what `==`
compares, the dataclass is frozen with the default field-wise `__eq__`).  (pre.py 11-79.) -/
structure MatObj where
  addr : ℕ
  val : Material

/-- The mesh dictionary returned by `triangle.triangulate` (pre/pre.py 141-146):
`vertices`, `triangles` (six node indices in the mesher's order), `triangle_attributes`. -/
structure MeshData where
  numNodes : ℕ
  vertices : Fin numNodes → ℝ × ℝ
  triangles : List (Fin 6 → Fin numNodes)
  attributes : List ℕ

/-- What `Section.__init__` reads of a (compound) geometry: the material objects of its parts
(section.py 94-97) and the mesh, if any. -/
structure GeomIn where
  materials : List MatObj
  mesh : Option MeshData

/-- section.py 3459-3500: `MaterialGroup` (without the result store). -/
structure MaterialGroup (n : ℕ) where
  material : MatObj
  elements : List (Tri6 n)

/-- section.py 63-174: the attributes of a `Section`. -/
structure Section where
  numNodes : ℕ
  meshNodes : Fin numNodes → ℝ × ℝ
  materials : List MatObj
  elements : List (Tri6 numNodes)
  groups : List (MaterialGroup numNodes)

/-- section.py 107: `mesh_elements[:, [3, 4, 5]] = mesh_elements[:, [5, 3, 4]]`. -/
def reorder {α : Type*} (t : Fin 6 → α) : Fin 6 → α := ![t 0, t 1, t 2, t 5, t 3, t 4]

/-- section.py 142: `coords = mesh_nodes[node_ids, :].transpose()`. -/
def gather {n : ℕ} (v : Fin n → ℝ × ℝ) (ids : Fin 6 → Fin n) : Coords :=
  ⟨fun i => (v (ids i)).1, fun i => (v (ids i)).2⟩

/-- section.py 140-157, one element: attribute lookup, material lookup, `Tri6(...)`.  Returns the
material object as well, because line 161 looks at its identity. -/
noncomputable def mkElement (mats : List MatObj) (m : MeshData) (tri : Fin 6 → Fin m.numNodes)
    (i : ℕ) : Except PyErr (Tri6 m.numNodes × MatObj) :=
  match m.attributes[i]? with
  | none => .error .indexError
  | some a =>
    match mats[a]? with
    | none => .error .indexError
    | some mat =>
      let ids := reorder tri
      .ok (⟨i, gather m.vertices ids, ids, mat.val⟩, mat)

/-- section.py 123-134: one group per material that is not equal (`not in` uses `==`) to an earlier
one. -/
noncomputable def groupMaterials (mats : List MatObj) : List MatObj :=
  (mats.zipIdx.filter fun p =>
    decide (p.2 = 0 ∨ ∀ q ∈ mats.take p.2, q.val ≠ p.1.val)).map Prod.fst

/-- section.py 160-163: the element goes into the first group with `material is group.material`. -/
def addToGroup {n : ℕ} (t : Tri6 n) (mat : MatObj) :
    List (MaterialGroup n) → List (MaterialGroup n)
  | [] => []
  | g :: gs =>
    if mat.addr = g.material.addr then ⟨g.material, g.elements ++ [t]⟩ :: gs
    else g :: addToGroup t mat gs

/-- section.py 63-174: `Section.__init__`.  The search tree (165-171) is not modelled. -/
noncomputable def Section.init (g : GeomIn) : Except PyErr Section :=
  match g.mesh with
  | none => .error .valueError
  | some m =>
    match m.attributes.max? with
    | none => .error .valueError
    | some mx =>
      if g.materials.length ≠ mx + 1 then .error .valueError
      else
        match m.triangles.zipIdx.mapM (fun p => mkElement g.materials m p.1 p.2) with
        | .error e => .error e
        | .ok els =>
          let groups0 : List (MaterialGroup m.numNodes) :=
            (groupMaterials g.materials).map fun mat => ⟨mat, []⟩
          .ok { numNodes := m.numNodes
                meshNodes := m.vertices
                materials := g.materials
                elements := els.map Prod.fst
                groups := els.foldl (fun gs p => addToGroup p.1 p.2 gs) groups0 }

/-- section.py 1906-1915: `is_composite`: `list(set(materials)) != [DEFAULT_MATERIAL]`. -/
def isComposite (mats : List MatObj) : Prop :=
  ¬ (mats ≠ [] ∧ ∀ m ∈ mats, m.val = defaultMaterial)

/-! ### Geometric analysis, section.py 208-342 -/

/-- The sums accumulated over the elements (section.py 210-253). -/
@[ext] structure GeomSums where
  area : ℝ
  mass : ℝ
  ea : ℝ
  ga : ℝ
  qx : ℝ
  qy : ℝ
  ixxG : ℝ
  iyyG : ℝ
  ixyG : ℝ

/-- section.py 233-253: the element loop of `calculate_geometric_properties`. -/
noncomputable def geomSums {n : ℕ} (els : List (Tri6 n)) : GeomSums :=
  { area := accum els fun t => t.geometricProperties.area
    mass := accum els fun t => t.geometricProperties.area * t.geometricProperties.rho
    ea := accum els fun t => t.geometricProperties.area * t.geometricProperties.e
    ga := accum els fun t => t.geometricProperties.area * t.geometricProperties.g
    qx := accum els fun t => t.geometricProperties.qx * t.geometricProperties.e
    qy := accum els fun t => t.geometricProperties.qy * t.geometricProperties.e
    ixxG := accum els fun t => t.geometricProperties.ixx * t.geometricProperties.e
    iyyG := accum els fun t => t.geometricProperties.iyy * t.geometricProperties.e
    ixyG := accum els fun t => t.geometricProperties.ixy * t.geometricProperties.e }

/-- section.py 258-262: effective properties `(nu_eff, e_eff, g_eff)`. -/
noncomputable def GeomSums.nuEff (s : GeomSums) : ℝ := s.ea / (2 * s.ga) - 1
/-- section.py 261. -/
noncomputable def GeomSums.eEff (s : GeomSums) : ℝ := s.ea / s.area
/-- section.py 262. -/
noncomputable def GeomSums.gEff (s : GeomSums) : ℝ := s.ga / s.area

/-- post.py 226-237: `calculate_elastic_centroid`: `cx = qy / ea`. -/
noncomputable def GeomSums.cx (s : GeomSums) : ℝ := s.qy / s.ea
/-- post.py 226-237: `cy = qx / ea`. -/
noncomputable def GeomSums.cy (s : GeomSums) : ℝ := s.qx / s.ea

/-- post.py 261. -/
noncomputable def GeomSums.ixxC (s : GeomSums) : ℝ := s.ixxG - s.qx ^ 2 / s.ea
/-- post.py 262. -/
noncomputable def GeomSums.iyyC (s : GeomSums) : ℝ := s.iyyG - s.qy ^ 2 / s.ea
/-- post.py 263. -/
noncomputable def GeomSums.ixyC (s : GeomSums) : ℝ := s.ixyG - s.qx * s.qy / s.ea

/-- post.py 281 (section.py 976): the radius of Mohr's circle of inertia. `** 0.5` is `√`. -/
noncomputable def mohrDelta (ixx iyy ixy : ℝ) : ℝ := √(((ixx - iyy) / 2) ^ 2 + ixy ^ 2)

/-- post.py 282. -/
noncomputable def i11Of (ixx iyy ixy : ℝ) : ℝ := (ixx + iyy) / 2 + mohrDelta ixx iyy ixy
/-- post.py 283. -/
noncomputable def i22Of (ixx iyy ixy : ℝ) : ℝ := (ixx + iyy) / 2 - mohrDelta ixx iyy ixy

/-- `np.arctan2(y, x)` in radians, in `(-π, π]` (signed zeros are not modelled).  (section.py 984, post.py 288.) -/
noncomputable def arctan2 (y x : ℝ) : ℝ := Complex.arg ⟨x, y⟩

/-- post.py 285-289 (and section.py 981-984): the principal axis angle in degrees. -/
noncomputable def phiOf (ixx iyy ixy : ℝ) : ℝ :=
  if |ixx - i11Of ixx iyy ixy| < 1e-12 * i11Of ixx iyy ixy then 0
  else arctan2 (ixx - i11Of ixx iyy ixy) ixy * 180 / Real.pi

/-- Results of `calculate_centroidal_properties` (post.py 239-331). -/
@[ext] structure CentroidalProps where
  ixxC : ℝ
  iyyC : ℝ
  ixyC : ℝ
  zxxPlus : ℝ
  zxxMinus : ℝ
  zyyPlus : ℝ
  zyyMinus : ℝ
  rx : ℝ
  ry : ℝ
  i11 : ℝ
  i22 : ℝ
  phi : ℝ
  z11Plus : ℝ
  z11Minus : ℝ
  z22Plus : ℝ
  z22Minus : ℝ
  r11 : ℝ
  r22 : ℝ

/-- post.py 266-269 `nodes[:, 0].max()` etc. and 305-320: running `max` starting from the first
entry. -/
noncomputable def runMax (a : ℝ) (l : List ℝ) : ℝ := l.foldl max a
/-- Running `min` starting from the first entry.  (post.py 239-330, plastic_section.py 296-329.) -/
noncomputable def runMin (a : ℝ) (l : List ℝ) : ℝ := l.foldl min a

/-- post.py 239-331: `calculate_centroidal_properties(node_list)`; an empty node list makes
`ndarray.max` raise `ValueError`. -/
noncomputable def centroidalProps (s : GeomSums) : List (ℝ × ℝ) → Except PyErr CentroidalProps
  | [] => .error .valueError
  | p :: ps =>
    let ixx := s.ixxC
    let iyy := s.iyyC
    let ixy := s.ixyC
    let xmax := runMax p.1 (ps.map Prod.fst)
    let xmin := runMin p.1 (ps.map Prod.fst)
    let ymax := runMax p.2 (ps.map Prod.snd)
    let ymin := runMin p.2 (ps.map Prod.snd)
    let i11 := i11Of ixx iyy ixy
    let i22 := i22Of ixx iyy ixy
    let phi := phiOf ixx iyy ixy
    let pr := fun q : ℝ × ℝ => principalCoordinate phi (q.1 - s.cx) (q.2 - s.cy)
    let x1max := runMax (pr p).1 (ps.map fun q => (pr q).1)
    let x1min := runMin (pr p).1 (ps.map fun q => (pr q).1)
    let y2max := runMax (pr p).2 (ps.map fun q => (pr q).2)
    let y2min := runMin (pr p).2 (ps.map fun q => (pr q).2)
    .ok
      { ixxC := ixx, iyyC := iyy, ixyC := ixy
        zxxPlus := ixx / |ymax - s.cy|
        zxxMinus := ixx / |ymin - s.cy|
        zyyPlus := iyy / |xmax - s.cx|
        zyyMinus := iyy / |xmin - s.cx|
        rx := √(ixx / s.ea)
        ry := √(iyy / s.ea)
        i11 := i11, i22 := i22, phi := phi
        z11Plus := i11 / |y2max|
        z11Minus := i11 / |y2min|
        z22Plus := i22 / |x1max|
        z22Minus := i22 / |x1min|
        r11 := √(i11 / s.ea)
        r22 := √(i22 / s.ea) }

/-! ### Yield moments, section.py 270-342 -/

/-- The four unit-moment stresses at one coordinate (section.py 316-330). -/
structure UnitStress where
  mxx : ℝ
  myy : ℝ
  m11 : ℝ
  m22 : ℝ

/-- section.py 314-330. -/
noncomputable def unitStress (em cx cy phi ixx iyy ixy i11 i22 : ℝ) (p : ℝ × ℝ) : UnitStress :=
  let x := p.1 - cx
  let y := p.2 - cy
  let pc := principalCoordinate phi x y
  { mxx := em * (-ixy / (ixx * iyy - ixy ^ 2) * x + iyy / (ixx * iyy - ixy ^ 2) * y)
    myy := em * (-ixx / (ixx * iyy - ixy ^ 2) * x + ixy / (ixx * iyy - ixy ^ 2) * y)
    m11 := em / i11 * pc.2
    m22 := -em / i22 * pc.1 }

/-- The points visited by the loops of section.py 307-314: every node coordinate of every element of
every group, together with the group's material. -/
def yieldPoints {n : ℕ} (groups : List (MaterialGroup n)) : List (Material × (ℝ × ℝ)) :=
  groups.flatMap fun g => g.elements.flatMap fun t =>
    (List.finRange 6).map fun i => (g.material.val, (t.coords.x i, t.coords.y i))

/-- section.py 285-336: a yield index, the running `max(index, abs(sig / fy))` from `0.0`. -/
noncomputable def yieldIndex (pts : List (Material × (ℝ × ℝ)))
    (sig : Material → ℝ × ℝ → ℝ) : ℝ :=
  pts.foldl (fun acc q => max acc |sig q.1 q.2 / q.1.yieldStrength|) 0

/-- section.py 339-342: `my = 1.0 / yield_index`. -/
noncomputable def yieldMoment (pts : List (Material × (ℝ × ℝ)))
    (sig : Material → ℝ × ℝ → ℝ) : ℝ :=
  1 / yieldIndex pts sig

/-- Everything `calculate_geometric_properties` stores (section.py 208-342), except the perimeter,
which is computed by the geometry object. -/
@[ext] structure GeomResults where
  sums : GeomSums
  nuEff : ℝ
  eEff : ℝ
  gEff : ℝ
  cx : ℝ
  cy : ℝ
  cent : CentroidalProps
  myXX : ℝ
  myYY : ℝ
  my11 : ℝ
  my22 : ℝ

/-- section.py 208-342: `calculate_geometric_properties` as a function of the section. -/
noncomputable def Section.geometricAnalysis (s : Section) : Except PyErr GeomResults :=
  let sums := geomSums s.elements
  match centroidalProps sums (List.ofFn s.meshNodes) with
  | .error e => .error e
  | .ok c =>
    let us := fun (m : Material) (p : ℝ × ℝ) =>
      unitStress m.elasticModulus sums.cx sums.cy c.phi c.ixxC c.iyyC c.ixyC c.i11 c.i22 p
    let pts := yieldPoints s.groups
    .ok
      { sums := sums
        nuEff := sums.nuEff, eEff := sums.eEff, gEff := sums.gEff
        cx := sums.cx, cy := sums.cy
        cent := c
        myXX := yieldMoment pts fun m p => (us m p).mxx
        myYY := yieldMoment pts fun m p => (us m p).myy
        my11 := yieldMoment pts fun m p => (us m p).m11
        my22 := yieldMoment pts fun m p => (us m p).m22 }

end SP
