# Formal model of section-properties: design

Source modelled: `/repo` (robbievanleeuwen/section-properties, pinned commit), read as text.
Prover: Lean 4.33.0 with Mathlib. Project: `/verif/lean`.

## 1. Layout

* `Verif/Model/*.lean`  – the model: one Lean definition per Python function (or per documented
  fragment of a long function), each with a comment citing file and lines and listing simplifications.
* `Verif/Spec/*.lean`   – small, separate specifications written without the model's helpers
  (true integrals over triangles, reachability, closed loops, ...).
* `Verif/Lemmas/*.lean` – helper lemmas.
* `Verif/Props/*.lean`  – the property theorems, one section per property `Cnn`, each followed by an
  `example` showing that a concrete non-trivial case meets the hypotheses.
* `MANIFEST.json`       – maps `Cnn` to theorem names.
* `seeded/LOG.jsonl`    – wrong-program experiments.

## 2. Modelling decisions (apply everywhere)

* **Numbers.** Python floats / numpy float64 are modelled by exact reals `ℝ`. Rounding, overflow, NaN
  and infinities are *not* modelled. Where the code itself rounds (`round(x, tol)`) the rounding is
  a parameter with the hypothesis `|rnd x - x| ≤ ε`.
* **Exceptions** are values: `Except PyErr α` with the constructors `valueError`, `runtimeError`,
  `typeError`, `indexError`, `zeroDivision`. Lean's totalised division is never relied on: theorems
  either have the non-zero hypothesis or prove it.
* **Meshes.** `triangle` (CyTriangle) is an external program. A mesh is any finite node list and any list of
  6-node elements. The facts assumed of the mesher are explicit hypotheses
  (`Straight`: mid-nodes are edge midpoints; `CCW`: positive orientation; `TilesRegion`: triangles
  overlap in measure zero and cover the region).
* **Linear solvers.** `spsolve`, `pypardiso` and `cgs` are oracles. Theorems take as hypothesis that the vector
  returned solves the assembled linear system exactly; the acceptance checks of the code are modelled as written.
* **shapely.** Boolean operations, buffering, `representative_point`, `split` are oracles. Affine transforms, ring
  coordinates, extents, areas and centroids are modelled at the level of rings of points.
* **brentq** is an oracle: a value in the bracket together with a convergence flag.
* **Plotting (except the data handed to matplotlib by the stress plots, Mohr's circles, `plot_centroids`,
  `plot_warping_function`, `plot_geometry` and the colours of `plot_mesh`; and matplotlib's scaling of values to a list of colours), progress bars, numba, caching** are not modelled; a formatted
  number is a parameter `fmt : ℝ → String` (`@cache` is referentially transparent here
  because every cached function is pure and its results are not mutated).

## 3. Properties: what is modelled, how it is proved

| id | plan |
|----|------|
| C01 | `Tri6.geometric_properties` as the literal loop over the four Gauss rows using `shape_function` (3x3 Jacobian determinant etc). Spec: Lebesgue integral over `convexHull ℝ {A,B,C}`. Prove change of variables + exactness; sum over the mesh. |
| C02 | Corollary of C01: every derived value is a function of the six integrals. |
| C03 | `gauss_points` branch by branch into `Except`. Exactness for all polynomials of degree ≤ 1/2/3/4 against the Lebesgue integral; the six-point rule needs algebra in nested radicals. |
| C04 | Model of `shape_function`; inverse of the 3x3 Jacobian by adjugate (`np.linalg.solve`). Algebra. |
| C05 | Weighted means with positive element weights; convexity. |
| C06, C07, C08 | Transport the mesh through the map; use per-element laws, then sum and derive. |
| C09 | Variance form of the integrals; strict Cauchy–Schwarz on one non-degenerate triangle. |
| C10 | `arctan2` through `Complex.arg`; trigonometric identities; both branches of the tolerance test. |
| C11 | Trigonometry. |
| C12 | Fold invariants for min/max over nodes. |
| C13, C14 | Sums over elements. |
| C15 | Sums over lists are permutation invariant; state machine overwrites all geometric fields. |
| C16 | Both code paths modelled separately, then proved equal. |
| C17 | COO assembly into a matrix; bilinear form = sum of element forms; shape-function identities. |
| C18 | Kernel of the form = constants on connected components, by induction along paths of elements. |
| C19 | Energy identity, minimality. |
| C20 | Partition of unity; centroidal first moments vanish. |
| C21 | Symmetry of K and solutions of the two systems. |
| C22 | Cauchy–Schwarz for the energy form against linear fields; tensor rotation. Violated for a Poisson ratio other than zero on a coarse mesh: see Findings. For any Poisson ratio on fine meshes the quadrature error of the fourth-degree terms, a quadratic form in the direction, is small against the lower bound of the exact energy (`C22_fine_partial`, `C22_rectangle_partial`). |
| C23 | Integrals of the stress fields by the (exact) rule; linear fields as test functions; torques by Betti's reciprocity with the torsion load. |
| C24 | Linearity in the actions, including the `!= 0` guards. |
| C25 | Algebra of the combined stress; characteristic polynomial of the 3x3 tensor. |
| C26 | Accumulation loops as folds; convex combinations; numpy fancy-index addition modelled. |
| C27 | Rational interval bounds of the nested radicals; 36 entries. |
| C28 | Barycentric algebra vs `convexHull`. |
| C29 | List map; decision logic; bounding-tree candidates as an oracle superset. |
| C30 | Fold of maxima. |
| C31 | Python `==` versus `is`: materials carry an object identity. The property is violated when two equal but distinct material objects are used: prove the negation on a witness and the property under the aliasing hypothesis (`_partial`). |
| C32, C33 | State machine of the property store with `Option` fields; induction over call histories. |
| C34, C35 | Plastic forces as finite lists of pieces (split oracle), measure-theoretic version for bracket and shape factor. |
| C36 | Fold invariants. |
| C37, C38, C39 | List-level models of the facet code; induction. |
| C40 | Decision tables; `inner=True` with a point target is wrong in the code for three sides: negation + `_partial`. |
| C41 | Rounding oracle. |
| C42 | Affine maps; compound mirror about centre is violated (each part is mirrored about its own centre): negation + `_partial`. |
| C43 | `abs_x if abs_x else` treats 0.0 as "not given": negation + `_partial`. |
| C44 | Line algebra; pieces whose representative point is on the line are dropped: negation + `_partial`. |
| C45 | DFS as structural recursion with fuel proved sufficient; single region is reported disjoint: negation + `_partial`. |
| C46 | List code. |
| C47 | Shoelace area of the regular polygon, any n; trigonometric sums. |
| C48 | Shoelace area and extents of symbolic vertex lists. |
| C49 | Code shifts by `-d[i]*(i+1)`; violated for unequal thickness: negation + `_partial`. |
| C50 | Closed formulas of bar positions; induction over bar index. |
| C51 | List code; sums from C01. |
| C52 | Sequential global text replacement: negation on a witness + `_partial`. |
| C53 | Signed comparison in the CGS check: negation + `_partial`. |
| C54 | Centroidal shift makes the element coordinates equal. |
| C55 | Algebra; symmetric meshes. |
| C56 | Violated: the four-point rule has a negative weight and degree 3 only: negation by a witness + `_partial` for linear fields. The error is bounded by the square of the element size times the energy of the field (`C56_error_partial`, `C56_analysis_partial`). |
| C57 | Index bookkeeping. |
| C58 | The analyses as programs over the store that keep their writes when they raise; frame conditions per analysis. `calculate_frame_properties` is a counterexample: negation + `_partial`. |
| C59 | Affine maps on the assigned control point; `mirror_section("center")` and `shift_points` are counterexamples: negation + `_partial`. |
| C60 | Induction over the tag loop; the width is never respected at a line break: negation + a proved bound on the excess. |
| C61 | Corollary of C17 for the cells of the export. |
| C62 | Shapely's overlay is an oracle whose result is assumed right for the operands at hand (`Describes`); regions per material almost everywhere; induction over the parts. Negations with witnesses for compounds. |
| C63 | Model of the facet loop, the classification of rings and the punching of holes; induction over the rings. Negation for rings that start at the same point. |
| C64 | Resultants and torques of the fields that calculate_stress reports (from C23), moved from the centroid to any reference point. |
| C65 | Values at the Gauss points of the turned and scaled elements; the loads turn as a vector; uniqueness of the exact solutions (C18). |
| C66 | The tables as lists of (name, text) built from blocks with `except RuntimeError`; equality with the documented table for every state of the store; names distinct; with C33 for histories. |
| C67 | The dictionaries as association lists; each component depends on one action only, so that the entry is the total of the analysis with the part of the actions; C25 and C26 for totals and zeros. |
| C68 | Triangle finder, linear interpolation and `np.linalg.eig` are oracles with stated properties; eigenvalues from trace, determinant and trace of the square; columns for different eigenvalues are orthogonal. |
| C69 | `buffer`, `unary_union`, `difference` and `intersection` are oracles, exact on the polygons that occur (`Spec.Exact`, met by a concrete example); the result covers the specified region, each part with its material. Violations: see Findings. |
| C70 | Length of a closed polyline as a sum over indices; bounds by the triangle inequality along both arcs; rounding by 1-Lipschitz distances. |
| C71 | Integration rules are invariant under permuting the corners, so element matrices are permuted; assembly commutes with renumbering; the exact solution is unique (C18), so it is permuted too; a symmetric mesh gives results equal to their own reflections. An inclined axis is turned to a horizontal one with C65. |
| C72 | The warping functions of the turned or scaled section are those of C65; the shape function gradients turn; so each term of the stress at an integration point turns or stays the same; extrapolation and nodal averages are linear with coefficients that do not depend on the geometry. |
| C73 | For any admissible stress of zero axial force and any shift x, the moment is the integral of stress times (u - x), so at most the integral of yield strength times distance from x; the fully yielded distribution about a balanced axis attains it. The distance integral of an image follows from the change of variables for affine maps. |
| C74 | Outlines as chains of straight parts and arcs with the shoelace sum of each part; tangency and slopes from trigonometric identities; symmetry as equality of outlines up to rotation and reversal. |
| C75 | Explicit outline; distances between points and lines by algebra. The web thickness is violated: see Findings. |
| C76 | The points and the outline of each section as explicit lists; each point is a vertex or lies on an edge. Violated for the sections that are not drawn around the documented origin: see Findings. |
| C77 | The end points of the two lines, with the sort of numpy given by its property. The limits of each coordinate bound the parameter of the line; after sorting the four bounds the middle two are the tighter ones. |
| C78 | The check with the area of the union from shapely as an argument; the areas of the polygons and of the union are those of measurable regions (hypothesis). By induction on the list, with inclusion and exclusion for two sets. |
| C79 | The fields on a conforming mesh are continuous, so each of them is also a field on the refinement, and integrals over the mesh are integrals over the refinement. The torsion constant is a minimum over fields (C19), the shear deformation coefficients are maxima (C22). For exact solutions of the systems. |
| C80 | Beam stresses are linear in the coordinates, so extrapolation (C27), averaging (C26) and interpolation (C28) keep them. The links to yield moment and section modulus use C30 and C12. |
| C81 | Each quantity is a smallest value over all centres (second moments), all finite element fields (torsion, C19) or all neutral axes (plastic moments, C73) of an integral that grows with the section; the smallest value for the larger section bounds that of the smaller. The change of the centre of twist is a rigid rotation. |
| C82 | The quadratic field that is the warping function of an ellipse with the same second moments is one of the fields over which the torsion constant is a minimum (C19). |
| C83 | Layers (values and element mask), levels, titles and arrows are modelled as handed to matplotlib; the table of plot names is compared with the keys of `get_stress`. The levels fit the visible stresses only with one material group (`C83_violated`), and an empty material list plots everything (`C83_empty_list`). |
| C84 | Marks and axes against the getters for every store; invariants over histories (fields no call of a kind writes, fields that never disappear, the warping function is a solver answer). The colours of the mesh go through a model of matplotlib's scaling of values to a list of colours, which is right without a mask and wrong with one (`C84_mask_violated`). |
| C85 | `add_bar`, `add_bars` and five builders are modelled on top of C62's set operations. `CutsExactly` is the assumption on shapely: the bars are subtracted exactly and the results are apart. The regions of all materials are then followed bar by bar (`ReplacedBy` is transitive). Bars of one `add_bars` call, and the two bars of a side pair, may overlap and then count twice (`C85_wall_violated`). |
| C86 | The six wall and core builders are modelled as a whole, including alignment and mirroring of the rectangles that are subtracted. `CutsExactly` (C85) and `ConvexKind` (rectangles are regions of their vertices and may be subtracted) are assumed of shapely. Each rectangle is followed to its place (`BoxGeom`), and the resulting region equals the outline in which C50 shows the cover of the bars, up to the edges. The walls of C85 follow for the documented regions. |
| C87 | `StressFunction`: twice continuously differentiable, compact support, gradient zero outside the region (constant on each hole). The finite element warping field is continuous across conforming meshes (C20), so the product with the gradient of ψ turned by a right angle integrates to zero over the mesh (Fubini and integration by parts on each line, Lemmas/Green); Cauchy-Schwarz then gives the bound (Thomson's principle). Discs, rings and rectangles follow with smoothed hills (Lemmas/Soft) and a limit. Exact solution of the bordered system is assumed of the solver, conforming meshes of the mesher. |
| C88 | `Rectangles`: the region of the elements is, up to null sets, a finite union of disjoint open rectangles, and `InRects` gives the modulus or strength in each. The element sums are integrals over the region (C01), so they split into integrals over rectangles by Fubini, whatever the mesh (elements may cross from one rectangle to the next of the same material). Extreme fibres follow because the union of the elements is the closure of the rectangles. Plastic moments: the closed formula is the limit moment of C73 because its distance function has a zero slope at the balancing line. Torsion: bounds of C87 and C30. RectExample builds, for every finite family of disjoint rectangles, a mesh that meets the hypotheses. |
| C89 | The points of a polygon are those with a winding number other than 0 round the outer ring and 0 round the inner ones; the winding number is the signed number of edges that a ray to the right meets (Spec/Outline). Green's theorem for it: `winding_integral`, the integral of `f` times the winding number is the sum over the edges of the line integral of a primitive. With `C01` (element sums are integrals) this gives the polygon formulas, which are those of shapely (`Poly.area`, `Poly.moment`). `C89_mesh`: winding numbers add up over triangles, inner edges cancel, so a boundary that is the outline implies no overlap and full cover. Round sections: rings in convex position wind once round their points; trigonometric sums. Coordinates are those before rounding to 12 digits. `cornersSection` builds meshes for every number of points. |
| C90 | Upper bound: `C82_torsion_bound` (J is at most the harmonic mean of the principal moments, times 4) with the moments from `C89`. Lower bound: `C87_hill` with the stress function `1 - x²/a² - y²/b²` of the ellipse (`C90_contains_ellipse`) or `C87_ring`; the ellipse or ring lies in the polygon because every point of it is on the left of all edges (`ellipse_inside`, `circle_outside`). `C90_limit`: the bounds meet as n grows. Exact solution of the linear system and conforming mesh are hypotheses; a triangle and an eight-element ring meet them. |
| C91 | Complementary energy. `Spec/ShearFlow`: stresses `(fx, fy)` that vanish outside the region, are continuous along almost every line in their own direction (they may jump across it) and satisfy `∂fx/∂x + ∂fy/∂y + E·(strain rate) = 0`. `C91_resultant`, `C91_shear_flow`: integrate by parts against the finite element solution (Fubini and the fundamental theorem with countably many exceptional points) and complete the square; upper bounds are in C22. `C91_symmetric`: the flow of the elementary theory, from the wings of each slice to a spine of constant width and along the spine, is such a flow; its energy is computed slice by slice. `C91_layered`, `C91_rectangle`, `C91_i_section` evaluate it. The Poisson ratio that the code uses is 0 unless the section is composite, and then the theorems assume that the effective one is 0. |
| C92 | Galerkin approximation. `Spec/Converge` states the boundary value problems in weak form without nodes or shape functions (all fields that are smooth on every element and continuous), the third order remainder `Expands` and mesh fineness `FineMesh h κ`. `best_approx`: the discrete solution minimises the energy of the error (Céa); `interp_grad`: the gradient of the nodal interpolant differs from that of the function by at most `21 κ M h²` (proved from barycentric coordinates, not quoted). Together `C92_torsion`, `C92_shear`. `C92_rectangle`, `C92_rectangle_limit`: the cubic warping function of a rectangle in shear, for every mesh. `C92_grid`: the `k × k` meshes of a rectangle, made by the constructor, meet all hypotheses for every `k` (so the limit is not vacuous) and the exact solver's shear areas converge. `torsionSolution_of_prandtl`: a warping function whose stresses come from a hill that is zero on the edge solves the torsion problem (dominated convergence); `C92_triangle` uses it. |
| C93 | `Spec/Body`: `MeshOf Ω mat els` says that the elements do not overlap, cover Ω up to a null set and carry the materials of the body. `sample_close`: a finite element field of one mesh, sampled at the nodes of any other fine mesh of the same body, has nearly the same energy and loads; elements of the fine mesh that cross an edge of the first mesh lie in a thin neighbourhood of its edges, whose area tends to zero (no regularity, no nesting). With the minimum principles (C82) the torsion constants of any two fine meshes differ by little and the infimum over all meshes is the limit (`C93_torsion`; positive by the bound of C82). `C93_shear` is the same for the four shear areas. `C93_rectangle` applies it to the meshes made by the constructor, which shows that the hypotheses are met by ever finer meshes. Positivity of the limiting shear areas is not claimed: it fails for bodies that hang together at a point only. |
| C94 | `MeshLimit Ω mat c f l` says that f is within any tolerance of l on all solved meshes of the body that are fine enough with bounded element shapes. The results here are not energies, so the minimum principle of C93 does not do. `Lemmas/Poincare`, `Lemmas/Tied`: a Poincaré inequality with one constant for all meshes of a connected body, got by chaining the elements of one mesh over common edges. `Lemmas/BodyLimit`: with it the balanced loads are bounded by the energy uniformly, the energies converge (C93), hence the solutions of any two fine meshes are close in energy, and so are all bounded functionals of them (`body_limit`) and their mean squares (`body_norm_limit`). `Lemmas/QuadError`: the error of the four point rule is at most 192 h² times the energy for the square of a quadratic field, and tends to zero for continuous functions. The shear centre, monosymmetry and warping constants and the shear coefficients are combinations of these. `C94_rectangle` applies it to the meshes made by the constructor. The hypothesis is that the interior of the meshed region is connected; `connected_body` derives it from a connected open Ω. |
| C95 | `Section.warpingNow s now r` (`Model/Remesh`) is the warping analysis of a section `s` whose geometry has changed so that line 431 of section.py makes the section `now`; `Env.warpingNow` is the same on the store. `C95_unchanged`: nothing changed. `C95_node_count`: another number of nodes always raises. `C95_remeshed_partial`: another mesh of the same body with equally many nodes gives the scalar results of a section made from the new mesh. `C95_modulus_partial`: after multiplication of the moduli by k the torsion constant is I - k (I - J), by linearity and uniqueness of the solution. `C95_material_violated`: a section for which that is negative. `C95_fields_violated`: a renumbered mesh, after which a stress has the wrong sign. |
| C96 | Edge formulas of C89 for the moments about a point `c` (`poly_moments`; going from the origin to `c` changes each edge term by a difference of a function of its ends, which cancels round a closed outline). Each edge term changes by at most `2 h^k d` if its ends move by at most `d` (`StableTerm`, by expanding products). Rings larger than this keep their sense (`round_sign`), so the sums over a polygon change by at most n times that (`round_edges_near`). `C96_area` needs no such condition: areas are absolute values, and a polygon that vanishes was small. `C96_centroidal` takes the centroid of the drawn polygons as `c`. `C96_elliptical` removes from C89 the restriction to coordinates before rounding for round sections of the library. Assumed: the rounded polygons are valid and do not overlap, and the mesh fills them (`Meshes`). |
| C97 | The calls of `ax.plot` and `ax.annotate` as data. `Spec.Shows` says what they must be in terms of the rings of the polygons; the facets are those of C37 (one geometry) and C39 (compound). Line widths, sizes and the drawing itself are not modelled. |
| C98 | What `cad_to_shapely` and `rhino3dm` find in a file is an arbitrary list. `ImportOf` relates parts and polygons one for one, up to rounding (C37). Missing libraries (`ImportError`) are not modelled. Violated by `from_rhino_encoding`. |
| C99 | `Spec.MovedGeometries` (same material, all vertices mapped and then rounded), `Spec.MovedResults` (what must hold of the results). Winding numbers of affine images (an outline is a fan of triangles; signs of areas) show that images of valid polygons are valid and cover the image; C96 bounds the effect of rounding, C89 gives the results as integrals. `WellSized` excludes polygons that are so small that rounding spoils them. Complements C02/C42, which compare meshes and geometries. |
| C100 | `Spec.SquareInt`, `Spec.sizeSq`, `Spec.superposed`. The gradients of the finite element solutions on all meshes form a Cauchy family in the energy norm (as in C93/C94), so they have limits in L²; the stress that the code computes inside an element is the scaled gradient plus a polynomial, interpolated by the shape functions from its values at the nodes, so it equals the field up to the rounding of the extrapolation matrix. `C100_points` links the field to `get_stress_at_points` (almost every point lies in one element only). `C100_rectangle` runs the whole chain for a rectangle. |
| C101 | `Spec.SaintVenantTorsion` and `Spec.SaintVenantFlexure`: equilibrium (virtual work with all Lipschitz displacements that are differentiable almost everywhere), resultant, compatibility (the strains are limits of gradients of continuous displacements). Equilibrium passes to the limit because the nodal interpolant of a displacement is admissible on every mesh, has bounded gradients, and these converge almost everywhere; the moment follows from the formula of the torsion constant, the resultants from equilibrium and the second moments. `C101_rectangle` runs it for a rectangle of any material. Solutions are unique (stresses without load on compatible strains do no work), so `C101_every_solution` gives convergence to any solution, and `C101_energy` the torsion constant by its energy. |
| C102 | `Spec.rectShear`. The parabola is shown to solve Saint-Venant's problem of flexure for a rectangle with Poisson's ratio zero: equilibrium by integration by parts along the fibres (displacements are absolutely continuous there), compatibility with a cubic warping displacement. Uniqueness (C101) makes it the limit of the reported stresses. `C102_grid` runs the whole chain for grids. |
| C103 | The symmetry is `Spec.signs ex ey tx ty` (signs and a translation) mapping the body onto itself. The image of a mesh is constructed (elements turned round if the map reverses orientation) and shown to be a conforming mesh of the same body; its results are the reflected ones (C71), so the limits of C94 equal their own negatives. `C103_rectangle` runs it for a rectangle of any material. |
| C104 | `Spec/LayerShear.lean` states beam theory for a modulus `e y`. The fields are shown to solve Saint-Venant's problem (`SaintVenantFlexure`: integration by parts along the fibres, with absolutely continuous first moments), so by the uniqueness and convergence of C101 they are the limit. `C104_slab` runs it through constructor and analyses for a slab of two materials. |
| C105 | The shear coefficient of a mesh is the energy of its exact shear stresses up to the error of the quadrature (`kappa_split`), which tends to zero; the stresses converge in mean square (C100), so do the energies (`dir_limit`), and uniqueness (C101) names the limit. `C105_slab` and `C105_slab_energy` run it through constructor and analyses for slabs of two materials. For the mixed area (`C105_mixed`), the stresses of two forces are superposed (`flexure_add`) and the energies polarised. |
| C106 | On every mesh the torque of the exact shear stresses about the centroid is that of the force at the reported shear centre (`dir_torque`, from the lemma behind C64); torques are continuous in mean square, so the identity passes to the limit (`dir_limit`), where uniqueness (C101) names the stresses. `C106_slab` shows the hypotheses met for slabs of two materials. `C106_layered` applies it to the stresses of beam theory of layered rectangles, and `C106_slab_centre` runs that through constructor and analyses. |
| C107 | `Spec/Twist.lean` gives the warping function of a twist about another axis (same shear strains: `C107_same_strains`) and what it means to have no axial force and moments. The first moments of the warping function are exact integrals (C21's lemma), so the condition is a linear system whose one solution is the reported point; the energy splits by orthogonality. Nothing is asked of the solver. `C107_warping_constant` adds the bound on the quadrature error of the warping constant (behind C94) for exact solutions; `C107_slab` runs it through constructor and analyses. |

## 4. Trusted base

Lean's kernel; the axioms `propext`, `Classical.choice`, `Quot.sound` (checked by `#print axioms`); the
faithfulness of `Verif/Model` to `/repo`, which is by reading. No further axioms are added.

## 5. Findings

Places where the code does not do what the property says. Each has a theorem with a concrete witness
(suffix `_violated`), unless marked "by reading".

* C22: the four point rule, of degree three and with a negative weight, is used for integrands of degree four in the shear
  coefficients. With a Poisson ratio different from zero (composite analyses) a coarse mesh of a flat section can have a
  negative shear area: one steel triangle of six nodes, 36 wide and 3 high, has `a_sy` about minus a quarter of its area.
* C31: elements are put into material groups by identity (`is`), groups are made by equality. Two equal but distinct
  `Material` objects lose the elements of the second one from stresses and yield moments. Reachable through
  `shift_points`, which copies the material.
* C40: `align_to(point, on, inner=True)` uses the index of the point's coordinate (0 or 1) as an index into the
  four extents; right, bottom and top are wrong.
* C42: `CompoundGeometry.mirror_section("center")` mirrors each part about its own centre.
* C43: `shift_points(abs_x=0.0)` is ignored (`abs_x if abs_x else`).
* C44 (by reading, excluded by the hypothesis `Usable`): a direction with `|v.x| <= 1e-12` and `v.y = 0`
  divides by zero. A polygon whose representative point is exactly on the line is dropped.
* C45: `check_geometry_disjoint` of a single polygon is `True`.
* C49: `clt_rectangular_section` shifts layer `i` by `-d[i] * (i + 1)`; layers of unequal thickness overlap or leave gaps.
* C50: `double_lift_core_b` distributes the bars of the inner pier over `nib - 2 c - dia`, which is not the distance between
  the first and the last of them, so that the spacing exceeds the given one (and `np.linspace` raises `ValueError` if the
  length is negative enough). Side bars with an area but without a diameter are placed at `x = 0`, outside the cover.
  `concrete_column_section` does not raise the documented `ValueError` for fewer than two bars per side.
* C52: the material mapping of the fibre export is a sequence of global text replacements; names that are part of other
  names, of keywords (`section`, `Cell2D`) or of numbers are replaced too; an empty name inserts the tag everywhere.
* C53: the check of `solve_cgs_lagrange` compares the signed multiplier: large negative ones are accepted.
* C56: the four point rule has a negative weight and degree three; `i_omega` is not exact, and can be negative.
* C58: when the solver fails in `calculate_frame_properties`, `j` has been set to `0.0` and `get_j()` returns it.
* C59: `mirror_section` about the centre leaves an assigned control point where it is; `shift_points` keeps the
  old control point although it may be outside of the new region (and drops `tol`).
* C60: `max_width` is compared after the tag has been appended: no continued line respects it.
* C62: `|`, `^`, `&` with a compound on the left take one material for the whole result: that of the right operand if it is a single geometry, else the default material. A part that `-` removes altogether stays in the compound as an empty part without control point, so that `Section` raises `ValueError` (number of materials and regions differ).
* C63: `CompoundGeometry.from_points` takes a polygon that starts at the point where the previous one started for its continuation, and rejects the input.
* C69: with `where="interior"` a positive amount buffers the holes and so makes the section smaller, a negative one enlarges it, contrary to the documentation. Dilating a compound of one part gives a compound without parts. Dilating a compound ignores `where`, even if it is not one of the three words. A part that fills the hole of another one is dilated into it, because only the outer rings are compared.
* C75: the outer face of a web of a Super-T girder starts at the depth of the fillet (75), but its lower end is computed as if
  it started at the flange, so that the faces are not parallel: the web is about 7 thinner at the bottom than at the top.
  The horizontal width of the web is `t_w cos` instead of `t_w / cos`, so that it is about 1 % thinner than `t_w` at the top.
* C76: the recovery points refer to the origin that the docstrings promise, but 17 of the NASTRAN sections (BOX1, CHAN, CHAN1,
  CHAN2, CROSS, DBOX, GBOX, H, HAT, HEXA, I, I1, L, T, T1, T2, Z) are drawn from another point, so that one of the points always
  lies outside the section; the theorems give the offset that puts the points on the outline. For CHAN and I that offset is
  not the documented origin either. The points D and E of I use the width of the top flange at the bottom flange.
  The points of ROD, TUBE and TUBE2 are on the outline only if the number of points on the circle is a multiple of four.
* **Contour levels of `plot_stress` count nodes outside the plotted material** (C83, `C83_violated`). The stress
  arrays of a material group cover all nodes and are zero where the material does not occur; the smallest and
  largest values for the levels are taken over the whole arrays. In a composite section under uniform tension
  all visible stresses are at least 30 but the scale starts at 0.
* **`plot_stress(material_list=[])` plots every material** (C83, `C83_empty_list`): the list is tested for truth,
  not for `None`.
* **`plot_mesh(mask=...)` colours elements wrongly** (C84, `C84_mask_violated`). Colours are looked up by element
  index after matplotlib scales the indices of the elements left to the whole colour list. If the first or last
  element is masked, elements can be drawn in the colour of another material. (The doc string also says the mask
  has one entry per node; matplotlib expects one per triangle.)
* By reading: in `plot_stress_vector` each quiver is normalised by its own range (the common minimum and maximum
  are used for the ticks only), so in composite sections equal colours mean different stresses and the colour bar
  belongs to the last group.
* **Bars that are added together and overlap count twice** (C85, `C85_wall_violated`). `add_bars` subtracts all
  bars at once and then adds them all. In a `rectangular_wall` with `double=True` and `t = 2 c + dia` the two
  curtains coincide and every bar is there twice. By reading, the same holds for the two side bars of a beam that meet.
* `concrete_rectangular_section` without any bar raises `ValueError` (C85, `C85_no_bars`), because the
  result is a single geometry.
* **A section reads its geometry again for the warping analysis** (C95, `C95_material_violated`, `C95_fields_violated`).
  `calculate_warping_properties` makes a second `Section` from `self.geometry`. If the material of the geometry has been
  replaced in between, the torsion constant mixes old second moments and new moduli and can be negative. If the geometry has been
  meshed again with equally many nodes, the warping function is numbered like the new mesh and the stress analysis reads it
  with the node numbers of the old one; with another number of nodes an obscure `IndexError` or `ValueError` is raised.
* **`from_rhino_encoding` drops all but the first polygon** (C98, `C98_encoding_violated`) without an error. It is documented for
  a single surface; `Geometry.from_3dm` raises `RuntimeError` in the same situation.
* `plot_geometry(labels=("points"))` (without comma, as the doc string has it) passes a string; the code compares its characters with the
  names, so nothing is numbered (C97, `C97_string_labels`).
* By reading, not stated as properties: NASTRAN builders accept degenerate dimensions (`nastran_hexa` checks only
  `dim_2 > dim_1`, `nastran_hat` does not check `2 dim_2 < dim_3`, `nastran_dbox` does not check
  `dim_3 + dim_5 / 2 < dim_1 - dim_6`); `angle_section` drops its corners when `np.isclose(t, r_t)`; cee and zed sections
  with `r_out < l < t` cross themselves; `Compound.create_mesh` ignores surplus mesh sizes.

## 6. Coverage

Modelled (files of `/repo/src/sectionproperties`):

| file | modelled | not modelled |
|------|----------|--------------|
| `analysis/fea.py` | all functions (Gauss rules, shape functions, `Tri6` methods, extrapolation, coordinates) | caching, numba |
| `analysis/section.py` | construction, all `calculate_*` methods, `assemble_torsion`, `get_stress_at_points`, all getters, `display_results`, `display_transformed_results`, the warning about overlapping regions, `display_mesh_info`, data of `plot_centroids`, `plot_warping_function`, colours of `plot_mesh` | other plotting, the construction of the search tree |
| `analysis/solver.py` | the acceptance checks | the linear algebra itself (oracle) |
| `analysis/plastic_section.py` | everything | `brentq` (oracle), printing |
| `pre/pre.py` | `Material` values, input of the mesher | the mesher |
| `pre/geometry.py` | construction, facets, both `from_points`, transformations, alignment, `shift_points`, splitting, compounds, set operators, `offset_perimeter`, `calculate_perimeter`, mesh requests, disjointness and overlap checks, data of `plot_geometry`, decisions of `from_dxf`, both `from_3dm` and `from_rhino_encoding` | reading DXF and Rhino files, drawing |
| `pre/bisect_section.py` | everything | shapely's `split` (oracle) |
| `pre/library/*.py` | primitive, steel, timber, NASTRAN sections with polygonal or filleted outlines; tapered flanges, box girder, bulb and bridge sections; bar positions of all concrete sections; `add_bar`, `add_bars` and all concrete builders as a whole; NASTRAN recovery points | nothing |
| `post/post.py` | centroid and centroidal properties, both result tables, the end points of drawn principal axes | other plotting |
| `post/stress_post.py` | combined stresses, `get_stress`, the data of `plot_stress`, `plot_stress_vector` and `plot_mohrs_circles` | drawing |
| `post/fibre.py` | everything (`f"{x:.8e}"` is a parameter) | writing the file |

Wrong programs: `seeded/LOG.jsonl` has one line per experiment. Each edits the model in a scratch copy and rebuilds. A
theorem of `Lemmas` or `Props` that fails there is listed; the modules importing it are then not built. In entries
before `ag20` an error that Lean reports at a declaration's doc comment may be listed under the declaration before it.
