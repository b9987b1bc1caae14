{"id": "C01", "title": "Geometric properties are the exact area integrals of the meshed region", "statement": "After a geometric analysis, the reported area, first moments and second moments about the global axes (modulus weighted for composite sections) equal the true Lebesgue integrals of 1, y, x, y^2, x^2, xy (times the local elastic modulus) over the region covered by the mesh: the numerical quadrature introduces no discretisation error.", "quantifier": "every mesh (any number of straight-sided triangles of any shape, size and position that do not overlap) and every assignment of materials to triangles", "why_tests_cant": "a test can compare a few shapes with hand formulas; it cannot cover all triangle shapes and all meshes", "anchors": ["src/sectionproperties/analysis/fea.py:Tri6.geometric_properties", "src/sectionproperties/analysis/fea.py:gauss_points", "src/sectionproperties/analysis/fea.py:shape_function", "src/sectionproperties/analysis/section.py:Section.calculate_geometric_properties"]}
{"id": "C02", "title": "Mesh independence of geometric properties", "statement": "Two different meshes of the same material regions give identical area, mass, axial rigidity, moments, centroid, centroidal moments, principal moments and principal angle.", "quantifier": "every pair of non-overlapping straight-sided triangulations covering the same regions up to measure zero", "why_tests_cant": "there are infinitely many pairs of meshes; tests only sample mesh sizes and use tolerances", "anchors": ["src/sectionproperties/analysis/section.py:Section.calculate_geometric_properties", "src/sectionproperties/post/post.py:SectionProperties.calculate_centroidal_properties"]}
{"id": "C03", "title": "Quadrature rules are exact to their advertised degree and invalid rules are rejected", "statement": "gauss_points(n) raises ValueError unless n is 1, 3, 4 or 6. For these n the weights sum to one, every row is a barycentric point inside the triangle, and the rule integrates exactly every polynomial of degree up to 1, 2, 3 and 4 respectively on every triangle.", "quantifier": "all n, all triangles, all polynomials up to the stated degree", "why_tests_cant": "exactness is a statement about an infinite-dimensional family of integrands and triangles", "anchors": ["src/sectionproperties/analysis/fea.py:gauss_points"]}
{"id": "C04", "title": "Shape functions interpolate: partition of unity, nodal values, linear and quadratic reproduction", "statement": "On every non-degenerate straight-sided element the shape functions sum to 1, are 1 at their own node and 0 at the others, map local coordinates to the right global point, and their derivative matrix returns the exact gradient of every quadratic field interpolated at the nodes; on a degenerate element the derivative matrix is zero rather than an exception.", "quantifier": "all elements, all local points, all nodal fields", "why_tests_cant": "universally quantified over real coordinates", "anchors": ["src/sectionproperties/analysis/fea.py:shape_function", "src/sectionproperties/analysis/fea.py:shape_function_only"]}
{"id": "C05", "title": "Elastic centroid lies inside the bounding box of the section", "statement": "The reported centroid is the modulus-weighted mean position, and lies within the bounding box of the mesh nodes (and in every half plane that contains all nodes) when all moduli are positive.", "quantifier": "all meshes of counter-clockwise straight-sided triangles, all positive moduli", "why_tests_cant": "all meshes, all moduli", "anchors": ["src/sectionproperties/post/post.py:SectionProperties.calculate_elastic_centroid", "src/sectionproperties/analysis/section.py:Section.get_c"]}
{"id": "C06", "title": "Translation covariance", "statement": "Translating the whole mesh by (dx, dy) shifts the reported centroid by exactly (dx, dy) and leaves area, mass, effective material properties, centroidal moments, radii of gyration, principal moments, principal angle and section moduli unchanged.", "quantifier": "all meshes, all translations", "why_tests_cant": "real-valued quantifiers", "anchors": ["src/sectionproperties/analysis/section.py:Section.calculate_geometric_properties", "src/sectionproperties/post/post.py:SectionProperties.calculate_centroidal_properties", "src/sectionproperties/pre/geometry.py:Geometry.shift_section"]}
{"id": "C07", "title": "Rotation covariance", "statement": "Rotating the whole mesh by any angle leaves area, mass and both principal moments unchanged, rotates the centroid, and transforms the centroidal inertia tensor by the rotation.", "quantifier": "all meshes, all angles", "why_tests_cant": "real-valued quantifiers", "anchors": ["src/sectionproperties/analysis/section.py:Section.calculate_geometric_properties", "src/sectionproperties/pre/geometry.py:Geometry.rotate_section"]}
{"id": "C08", "title": "Scaling and mirroring laws", "statement": "Scaling the mesh by k>0 scales area by k^2, first moments by k^3, second moments by k^4, section moduli by k^3, radii and centroid by k; mirroring about an axis through the origin negates the product of inertia and keeps the other second moments.", "quantifier": "all meshes, all scale factors", "why_tests_cant": "real-valued quantifiers", "anchors": ["src/sectionproperties/analysis/section.py:Section.calculate_geometric_properties", "src/sectionproperties/post/post.py:SectionProperties.calculate_centroidal_properties"]}
{"id": "C09", "title": "Inertia tensor is positive definite, so no later division is by zero", "statement": "For every non-empty mesh of positive area and positive moduli: ixx_c > 0, iyy_c > 0, ixx_c*iyy_c > ixy_c^2, i11 >= i22 > 0, and the radii of gyration are real and positive.", "quantifier": "all non-empty meshes of counter-clockwise straight-sided triangles, all positive moduli", "why_tests_cant": "every mesh", "anchors": ["src/sectionproperties/post/post.py:SectionProperties.calculate_centroidal_properties", "src/sectionproperties/analysis/fea.py:Tri6.element_stress", "src/sectionproperties/analysis/section.py:Section.calculate_warping_properties"]}
{"id": "C10", "title": "Principal axes diagonalise the inertia tensor", "statement": "The reported angle and principal moments are consistent: the second moments of the section about the axes rotated by phi are i11 and i22 and the product of inertia about them is zero (within the code's own 1e-12 relative tolerance branch), i11+i22 = ixx_c+iyy_c and i11*i22 = ixx_c*iyy_c-ixy_c^2, and i11/i22 are the extreme second moments over all axis directions.", "quantifier": "all inertia tensors (hence all sections), all axis directions", "why_tests_cant": "all real tensors incl. branch cuts of arctan2", "anchors": ["src/sectionproperties/post/post.py:SectionProperties.calculate_centroidal_properties", "src/sectionproperties/analysis/section.py:Section.get_phi", "src/sectionproperties/analysis/section.py:Section.get_ip"]}
{"id": "C11", "title": "Principal/global coordinate conversions are mutually inverse isometries", "statement": "global_coordinate undoes principal_coordinate and vice versa for every angle, and both preserve distances and cross products; a point is reported above a line exactly when it is on the left side of the directed line.", "quantifier": "all angles, all points", "why_tests_cant": "real-valued quantifiers", "anchors": ["src/sectionproperties/analysis/fea.py:principal_coordinate", "src/sectionproperties/analysis/fea.py:global_coordinate", "src/sectionproperties/analysis/fea.py:point_above_line"]}
{"id": "C12", "title": "Section moduli are inertia over true extreme fibre distance", "statement": "Each elastic section modulus equals the centroidal (principal) moment divided by the distance to the extreme node on that side, so the bending stress at no node exceeds M/min(z+, z-), with equality at some node.", "quantifier": "all meshes, all moments", "why_tests_cant": "max/min over arbitrary node lists", "anchors": ["src/sectionproperties/post/post.py:SectionProperties.calculate_centroidal_properties", "src/sectionproperties/analysis/section.py:Section.get_z", "src/sectionproperties/analysis/section.py:Section.get_zp"]}
{"id": "C13", "title": "Effective material properties are consistent averages", "statement": "e_eff*area = sum(E_i A_i), g_eff*area = sum(G_i A_i), e_eff and g_eff lie between the extreme material values, e_eff = 2 g_eff (1+nu_eff), mass = sum(rho_i A_i), and a section whose materials all share E and nu reports exactly that E and nu.", "quantifier": "all meshes and material assignments", "why_tests_cant": "arbitrary number of materials", "anchors": ["src/sectionproperties/analysis/section.py:Section.calculate_geometric_properties", "src/sectionproperties/pre/pre.py:Material.shear_modulus", "src/sectionproperties/analysis/section.py:Section.get_nu_eff"]}
{"id": "C14", "title": "Modulus scaling and reference modulus", "statement": "Multiplying every elastic modulus by k scales all rigidities (EA, EQ, EI, EJ load terms) by k and leaves centroid, principal angle and radii unchanged; transformed getters with a reference modulus e_ref return the rigidity divided by e_ref, so choosing e_ref=E on a single-material section returns the purely geometric property.", "quantifier": "all meshes, all positive k and e_ref", "why_tests_cant": "all meshes", "anchors": ["src/sectionproperties/analysis/section.py:Section.get_e_ref", "src/sectionproperties/analysis/section.py:Section.get_eic", "src/sectionproperties/analysis/section.py:Section.get_ea"]}
{"id": "C15", "title": "Order and history independence of geometric analysis", "statement": "The result of the geometric analysis does not depend on element order, node numbering, or on analyses run before; running it twice gives the same values.", "quantifier": "all permutations of elements, all renumberings, all histories of previous analyses", "why_tests_cant": "factorially many orders and unboundedly long histories", "anchors": ["src/sectionproperties/analysis/section.py:Section.calculate_geometric_properties"]}
{"id": "C16", "title": "Frame analysis agrees with geometric plus warping analysis", "statement": "calculate_frame_properties returns the same area, ixx_c, iyy_c, ixy_c, j, phi that a geometric analysis followed by a warping analysis stores, for composite and non-composite sections.", "quantifier": "all meshes, materials", "why_tests_cant": "duplicated code paths must agree on every input", "anchors": ["src/sectionproperties/analysis/section.py:Section.calculate_frame_properties", "src/sectionproperties/analysis/section.py:Section.calculate_warping_properties"]}
{"id": "C17", "title": "Torsion system is symmetric, positive semidefinite and self-equilibrated", "statement": "The assembled stiffness matrix is symmetric positive semidefinite, annihilates constant vectors, and the torsion load vector sums to zero, so every exact solution of the bordered system has zero Lagrange multiplier and solves the unconstrained warping problem with zero modulus-weighted mean; the direct solver's error check can then never fire.", "quantifier": "all meshes, materials, origins", "why_tests_cant": "arbitrary-size linear systems", "anchors": ["src/sectionproperties/analysis/section.py:Section.assemble_torsion", "src/sectionproperties/analysis/fea.py:Tri6.torsion_properties", "src/sectionproperties/analysis/solver.py:solve_direct_lagrange"]}
{"id": "C18", "title": "Warping solution is unique exactly when the mesh is connected", "statement": "When all elements are connected through shared nodes the bordered warping system has exactly one solution; when the mesh consists of two groups of elements without shared nodes it is singular, so warping analysis of disjoint regions is meaningless.", "quantifier": "all meshes", "why_tests_cant": "quantifies over all meshes and all node vectors", "anchors": ["src/sectionproperties/analysis/section.py:Section.assemble_torsion", "src/sectionproperties/analysis/section.py:Section.calculate_warping_properties"]}
{"id": "C19", "title": "St. Venant torsion constant bounds", "statement": "The reported torsion constant satisfies 0 <= J <= Ixx+Iyy (centroidal polar moment), it is the minimum of the torsional energy over all warping fields, and it does not depend on which solution of the system the solver returned.", "quantifier": "all meshes, materials", "why_tests_cant": "variational statement over all fields", "anchors": ["src/sectionproperties/analysis/section.py:Section.calculate_warping_properties", "src/sectionproperties/analysis/section.py:Section.calculate_frame_properties", "src/sectionproperties/analysis/section.py:Section.get_j"]}
{"id": "C20", "title": "Shear function loads are self-equilibrated in centroidal coordinates", "statement": "The shear function load vectors sum to zero whenever the coordinates are centroidal, so the Lagrange multipliers of both shear solves vanish and the functions solve the unconstrained problem.", "quantifier": "all meshes, materials, Poisson ratios", "why_tests_cant": "arbitrary meshes", "anchors": ["src/sectionproperties/analysis/fea.py:Tri6.shear_load_vectors", "src/sectionproperties/analysis/section.py:Section.calculate_warping_properties"]}
{"id": "C21", "title": "Elastic and Trefftz shear centres coincide for zero Poisson ratio", "statement": "For non-composite sections (effective Poisson ratio 0) the elastic shear centre and the Trefftz shear centre reported by the warping analysis are equal.", "quantifier": "all meshes", "why_tests_cant": "identity between two separately coded formulas, for every mesh", "anchors": ["src/sectionproperties/analysis/section.py:Section.calculate_warping_properties", "src/sectionproperties/analysis/section.py:Section.get_sc", "src/sectionproperties/analysis/section.py:Section.get_sc_t"]}
{"id": "C22", "title": "Shear areas are positive, bounded by the area, and transform as a tensor", "statement": "For zero Poisson ratio 0 < a_sx <= area, 0 < a_sy <= area and likewise in the principal axes; for any Poisson ratio 1/a_s11 + 1/a_s22 = 1/a_sx + 1/a_sy, kappa_xy^2 <= kappa_x*kappa_y.", "quantifier": "all meshes", "why_tests_cant": "inequality on all meshes", "anchors": ["src/sectionproperties/analysis/fea.py:Tri6.shear_coefficients", "src/sectionproperties/analysis/section.py:Section.calculate_warping_properties", "src/sectionproperties/analysis/section.py:Section.get_as"]}
{"id": "C23", "title": "Stress fields are in equilibrium with the applied actions", "statement": "The axial and bending stresses integrate to exactly the applied axial force and moments (and the applied principal moments), with no other resultant; the shear stresses integrate to the applied shear forces, and the torsional shear stresses have zero net force and torque equal to the applied torsion.", "quantifier": "all meshes, materials and actions", "why_tests_cant": "integral identity on all meshes", "anchors": ["src/sectionproperties/analysis/fea.py:Tri6.element_stress", "src/sectionproperties/analysis/section.py:Section.calculate_stress"]}
{"id": "C24", "title": "Stresses superpose linearly", "statement": "Every individual and combined normal/shear stress component is linear in the design actions: stresses from the sum of two load cases are the sum of the stresses, and scaling the actions scales the stresses.", "quantifier": "all sections, all pairs of load cases, all scale factors", "why_tests_cant": "continuum of load cases, special cases at zero actions", "anchors": ["src/sectionproperties/analysis/fea.py:Tri6.element_stress", "src/sectionproperties/analysis/section.py:Section.calculate_stress", "src/sectionproperties/post/stress_post.py:StressResult.calculate_combined_stresses"]}
{"id": "C25", "title": "Principal and von Mises stresses are those of the stress tensor", "statement": "At each node sig_11 >= 0 >= sig_33 are the extreme eigenvalues of the 3D stress tensor, sig_11*sig_33 = -tau^2, sig_11+sig_33 = sig_zz, sig_vm^2 = sig_zz^2+3 tau^2 equals the von Mises norm of the tensor, and sig_vm is zero only in an unstressed state.", "quantifier": "all nodal stress states", "why_tests_cant": "real-valued quantifiers", "anchors": ["src/sectionproperties/post/stress_post.py:StressResult.calculate_combined_stresses", "src/sectionproperties/post/stress_post.py:StressPost.plot_mohrs_circles"]}
{"id": "C26", "title": "Nodal averaging is a weighted mean with positive weights", "statement": "The averaged stress at a node lies between the smallest and largest element stress at that node within the material, a field on which all elements agree is returned unchanged, and nodes outside the material report zero.", "quantifier": "all meshes, groups, stress fields", "why_tests_cant": "arbitrary valence", "anchors": ["src/sectionproperties/analysis/section.py:Section.calculate_stress", "src/sectionproperties/analysis/fea.py:gauss_points"]}
{"id": "C27", "title": "Extrapolation from Gauss points reproduces quadratic fields", "statement": "extrapolate_to_nodes applied to the values of any quadratic field at the six Gauss points returns its nodal values up to a relative error of 1e-12.", "quantifier": "all quadratic fields", "why_tests_cant": "a property of 36 hard-coded decimals for every field", "anchors": ["src/sectionproperties/analysis/fea.py:extrapolate_to_nodes", "src/sectionproperties/analysis/fea.py:h_inv"]}
{"id": "C28", "title": "Point location and local coordinates", "statement": "A point is reported inside an element exactly when it lies in the closed triangle of its three corners, and the local coordinates returned for it are its barycentric coordinates, i.e. interpolating the element coordinates at them returns the point.", "quantifier": "all non-degenerate elements, all points", "why_tests_cant": "real-valued quantifiers", "anchors": ["src/sectionproperties/analysis/fea.py:Tri6.point_within_element", "src/sectionproperties/analysis/fea.py:Tri6.local_coord"]}
{"id": "C29", "title": "get_stress_at_points keeps shape, order and reports None exactly outside", "statement": "The returned list has one entry per requested point in the same order, is None exactly for the points in no element, and the stress of a point in a single element is that element's interpolated stress; at a corner node of one element it equals the element's nodal stress.", "quantifier": "all lists of points, all meshes", "why_tests_cant": "unbounded lists", "anchors": ["src/sectionproperties/analysis/section.py:Section.get_stress_at_points", "src/sectionproperties/analysis/fea.py:Tri6.local_element_stress"]}
{"id": "C30", "title": "Yield moment is the largest moment keeping every node elastic", "statement": "Applying the reported yield moment about an axis gives |stress| <= yield strength at every node of every element that belongs to a material group with equality at some node; any larger moment exceeds yield somewhere.", "quantifier": "all meshes and materials", "why_tests_cant": "max over arbitrary meshes", "anchors": ["src/sectionproperties/analysis/section.py:Section.calculate_geometric_properties", "src/sectionproperties/analysis/section.py:Section.get_my"]}
{"id": "C31", "title": "Every element is assigned to exactly one material group", "statement": "After constructing a Section every mesh element belongs to exactly one material group, whose material equals the element's material.", "quantifier": "all lists of materials and attribute maps", "why_tests_cant": "aliasing (identity versus equality) of arbitrary material lists", "anchors": ["src/sectionproperties/analysis/section.py:Section.__init__", "src/sectionproperties/analysis/section.py:MaterialGroup"]}
{"id": "C32", "title": "Getters are gated: value iff computed and of the right kind", "statement": "Each get_* method returns the stored value when it has been computed and the section kind (composite or not) matches, and raises RuntimeError otherwise; it never returns None. Geometric-only getters reject composite sections; composite-only getters reject plain sections.", "quantifier": "all property stores, all getters", "why_tests_cant": "about fifty getters times all states", "anchors": ["src/sectionproperties/analysis/section.py:Section.is_composite", "src/sectionproperties/analysis/section.py:Section.get_ic", "src/sectionproperties/analysis/section.py:Section.get_eic"]}
{"id": "C33", "title": "Analysis ordering is enforced", "statement": "In every history of API calls: warping, plastic and stress analyses raise RuntimeError and store nothing unless a geometric or frame analysis was called before; a stress analysis additionally requires a geometric analysis, and with shear or torsion a warping analysis; after a geometric analysis all geometric getters return, forever, the values a fresh section would give, and stress analyses without shear and torsion succeed; after a successful warping analysis all stress analyses succeed.", "quantifier": "all finite histories of analysis calls", "why_tests_cant": "unbounded histories", "anchors": ["src/sectionproperties/analysis/section.py:Section.calculate_warping_properties", "src/sectionproperties/analysis/section.py:Section.calculate_plastic_properties", "src/sectionproperties/analysis/section.py:Section.calculate_stress", "src/sectionproperties/analysis/section.py:Section.calculate_frame_properties"]}
{"id": "C34", "title": "Plastic axis bracket is valid and the plastic axis balances forces", "statement": "For every axis the normalised force imbalance is +1 at one extreme fibre and -1 at the other, continuous and monotone in between, so the root search is always started on a valid bracket with a sign change; the position it returns is, within the tolerance of the search, one where the plastic forces on both sides are equal; a search that does not converge is reported as RuntimeError.", "quantifier": "all geometries and yield strengths, all axis angles", "why_tests_cant": "all geometries", "anchors": ["src/sectionproperties/analysis/plastic_section.py:PlasticSection.pc_algorithm", "src/sectionproperties/analysis/plastic_section.py:PlasticSection.evaluate_force_eq", "src/sectionproperties/analysis/plastic_section.py:PlasticSection.calculate_plastic_force"]}
{"id": "C35", "title": "Plastic modulus dominates elastic moment: shape factor at least one", "statement": "The plastic moment (plastic modulus without materials) equals, within the tolerance of the search, the integral of yield strength times distance to the plastic axis, independent of how the two sides are cut into pieces, and is at least the moment at first yield, so the larger of the two shape factors of every axis is at least one.", "quantifier": "all sections", "why_tests_cant": "inequality over all shapes", "anchors": ["src/sectionproperties/analysis/plastic_section.py:PlasticSection.calculate_plastic_properties", "src/sectionproperties/analysis/section.py:Section.get_s", "src/sectionproperties/analysis/section.py:Section.get_sf"]}
{"id": "C36", "title": "Extreme fibres are true extremes", "statement": "calculate_extreme_fibres returns, for every angle, the minimum and maximum of the rotated coordinates over all geometry points, each attained by a point.", "quantifier": "all non-empty point lists, all angles", "why_tests_cant": "unbounded lists", "anchors": ["src/sectionproperties/analysis/plastic_section.py:PlasticSection.calculate_extreme_fibres"]}
{"id": "C37", "title": "Facets form closed loops over valid points", "statement": "The points and facets extracted from a polygon with any number of holes index existing points only, each ring is a single closed cycle through all of its points in order, and rings are disjoint in index space.", "quantifier": "all rings and hole lists", "why_tests_cant": "unbounded sizes", "anchors": ["src/sectionproperties/pre/geometry.py:create_facets", "src/sectionproperties/pre/geometry.py:create_points_and_facets"]}
{"id": "C38", "title": "Points/facets round trip", "statement": "Rebuilding a geometry with from_points from the points, facets, holes and control point of a polygon returns the same exterior ring and the same interior rings.", "quantifier": "all polygons with any number of holes", "why_tests_cant": "unbounded sizes", "anchors": ["src/sectionproperties/pre/geometry.py:Geometry.from_points", "src/sectionproperties/pre/geometry.py:create_points_and_facets"]}
{"id": "C39", "title": "Compound compilation deduplicates points and preserves segments", "statement": "After compiling a compound geometry the point list has no duplicates and contains exactly the points of all sub-geometries, all facet indices are valid, and the facets describe exactly the segments of the sub-geometries; control points (one per part) are concatenated in order, and the holes are those of the union of the parts.", "quantifier": "all lists of sub-geometries", "why_tests_cant": "unbounded sizes", "anchors": ["src/sectionproperties/pre/geometry.py:CompoundGeometry.compile_geometry"]}
{"id": "C40", "title": "align_to puts the geometry flush with the target", "statement": "g.align_to(other, on=side) moves g by a pure translation along one axis such that its opposing (inner: same) edge coincides with other's edge; aligning to a point puts the corresponding edge on the point's coordinate.", "quantifier": "all geometries, targets, sides", "why_tests_cant": "all extents", "anchors": ["src/sectionproperties/pre/geometry.py:Geometry.align_to", "src/sectionproperties/pre/geometry.py:Geometry.calculate_extents"]}
{"id": "C41", "title": "align_center puts the centroid on the target", "statement": "After g.align_center(target) the centroid of g is at the target's centroid / point / origin within the rounding tolerance; for compounds the modulus-weighted centroid is used.", "quantifier": "all geometries, targets", "why_tests_cant": "all centroids", "anchors": ["src/sectionproperties/pre/geometry.py:Geometry.align_center", "src/sectionproperties/pre/geometry.py:CompoundGeometry.align_center"]}
{"id": "C42", "title": "Rigid transformations of geometries compose and invert", "statement": "shift by (a,b) then (-a,-b), rotate by t then -t about a point, and mirroring twice about the same point return the same points, holes and control points; mirroring a compound about its centre mirrors the compound as a whole.", "quantifier": "all geometries, all parameters", "why_tests_cant": "real-valued quantifiers", "anchors": ["src/sectionproperties/pre/geometry.py:Geometry.shift_section", "src/sectionproperties/pre/geometry.py:Geometry.rotate_section", "src/sectionproperties/pre/geometry.py:Geometry.mirror_section", "src/sectionproperties/pre/geometry.py:CompoundGeometry.mirror_section"]}
{"id": "C43", "title": "shift_points moves exactly the selected points to the requested place", "statement": "shift_points with absolute coordinates puts the selected points at exactly these coordinates, with relative coordinates moves them by that offset, and leaves all other points unchanged.", "quantifier": "all point lists, indices, offsets including zero", "why_tests_cant": "boundary values such as 0.0 among a continuum", "anchors": ["src/sectionproperties/pre/geometry.py:Geometry.shift_points"]}
{"id": "C44", "title": "Splitting by a line partitions the polygons", "statement": "split_section's cutting segment lies on the line through the given point with the given direction and contains every point of this line within the bounds; every resulting polygon is returned in exactly one of the two lists, the list of the side on which it lies, with the material of its geometry; the polygons do not overlap and together fill the geometry.", "quantifier": "all lines, bounds, polygon lists", "why_tests_cant": "continuum of lines", "anchors": ["src/sectionproperties/pre/bisect_section.py:create_line_segment", "src/sectionproperties/pre/bisect_section.py:group_top_and_bottom_polys", "src/sectionproperties/pre/bisect_section.py:line_mx_plus_b", "src/sectionproperties/pre/geometry.py:Geometry.split_section"]}
{"id": "C45", "title": "Disjointness check is graph reachability", "statement": "check_geometry_disjoint reports True exactly when the touching-graph of the regions is not connected.", "quantifier": "all finite lists of regions and touching relations", "why_tests_cant": "all graphs", "anchors": ["src/sectionproperties/pre/geometry.py:check_geometry_disjoint", "src/sectionproperties/pre/geometry.py:build_geometry_network"]}
{"id": "C46", "title": "Meshing request covers all regions with their own mesh size", "statement": "create_mesh passes one region per control point, with the attribute of its index and its requested mesh size; a scalar or single mesh size applies to all regions; Section rejects meshes whose region count differs from the number of materials.", "quantifier": "all control point lists and mesh size lists", "why_tests_cant": "unbounded lists", "anchors": ["src/sectionproperties/pre/geometry.py:CompoundGeometry.create_mesh", "src/sectionproperties/pre/geometry.py:Geometry.create_mesh", "src/sectionproperties/pre/pre.py:create_mesh", "src/sectionproperties/analysis/section.py:Section.__init__"]}
{"id": "C47", "title": "circular_section_by_area reproduces the requested area exactly", "statement": "The polygon returned by circular_section_by_area(area, n) has exactly the requested area for every n >= 3; the polygon of circular_section(d, n) has all vertices on the circle of diameter d and area smaller than the circle's.", "quantifier": "all areas > 0, all n >= 3", "why_tests_cant": "all n, all areas", "anchors": ["src/sectionproperties/pre/library/primitive_sections.py:circular_section_by_area", "src/sectionproperties/pre/library/primitive_sections.py:circular_section"]}
{"id": "C48", "title": "Library shapes have the documented dimensions and area", "statement": "Rectangular, triangular, cruciform, I, channel, tee, angle, box sections (fillet radius 0) occupy exactly the documented width and depth and have the textbook area; fillet points lie on the fillet circle.", "quantifier": "all dimensions", "why_tests_cant": "real-valued parameters", "anchors": ["src/sectionproperties/pre/library/primitive_sections.py:rectangular_section", "src/sectionproperties/pre/library/steel_sections.py:i_section", "src/sectionproperties/pre/library/steel_sections.py:rectangular_hollow_section", "src/sectionproperties/pre/library/utils.py:draw_radius", "src/sectionproperties/pre/library/nastran_sections.py:nastran_i"]}
{"id": "C49", "title": "CLT layers stack without gaps or overlaps", "statement": "clt_rectangular_section places layer i directly below layer i-1 without overlap or gap, for all layer thicknesses.", "quantifier": "all thickness lists", "why_tests_cant": "all lists", "anchors": ["src/sectionproperties/pre/library/timber_sections.py:clt_rectangular_section"]}
{"id": "C50", "title": "Reinforcing bars respect cover, count and spacing", "statement": "Concrete section builders place the requested number of bars, each inside the section with at least the requested clear cover, uniformly spaced; wall builders never exceed the requested maximum spacing.", "quantifier": "all dimensions, bar counts, covers", "why_tests_cant": "real-valued parameters and all bar counts", "anchors": ["src/sectionproperties/pre/library/concrete_sections.py:concrete_rectangular_section", "src/sectionproperties/pre/library/concrete_sections.py:concrete_circular_section", "src/sectionproperties/pre/library/concrete_sections.py:rectangular_wall"]}
{"id": "C51", "title": "Fibre export has unique tags and preserves area and first moments", "statement": "to_fibre_section emits one cell per element with pairwise distinct tags different from the main tag, each tag listed exactly once in order in the main command, and the cells' areas and first moments sum to those of the section.", "quantifier": "all meshes, main tags, line widths", "why_tests_cant": "unbounded sizes", "anchors": ["src/sectionproperties/post/fibre.py:to_fibre_section", "src/sectionproperties/post/fibre.py:Cell.__init__"]}
{"id": "C52", "title": "Material names are mapped to tags and nothing else is changed", "statement": "to_fibre_section with a material mapping replaces each material name by its tag and leaves the rest of the text unchanged, independent of dictionary order.", "quantifier": "all mappings", "why_tests_cant": "all strings", "anchors": ["src/sectionproperties/post/fibre.py:to_fibre_section"]}
{"id": "C53", "title": "Iterative solver rejects inaccurate Lagrange solutions", "statement": "solve_cgs_lagrange raises RuntimeError when the iteration did not converge or when the magnitude of the Lagrange multiplier relative to the solution exceeds the tolerance, and otherwise returns the first N unknowns.", "quantifier": "all solver outputs", "why_tests_cant": "both signs of the multiplier", "anchors": ["src/sectionproperties/analysis/solver.py:solve_cgs_lagrange", "src/sectionproperties/analysis/solver.py:solve_direct_lagrange"]}
{"id": "C54", "title": "Warping constants are invariant under translation of the section", "statement": "Torsion constant, warping constant, shear areas, monosymmetry constants and the shear centre relative to the centroid do not change when the section is translated.", "quantifier": "all meshes, all translations", "why_tests_cant": "continuum of translations", "anchors": ["src/sectionproperties/analysis/section.py:Section.calculate_warping_properties"]}
{"id": "C55", "title": "Monosymmetry constants are antisymmetric pairs and vanish for symmetric sections", "statement": "beta_plus = -beta_minus for all four axes; for a section symmetric about an axis whose shear centre lies on it the corresponding constant is zero.", "quantifier": "all meshes", "why_tests_cant": "all meshes", "anchors": ["src/sectionproperties/analysis/section.py:Section.calculate_warping_properties", "src/sectionproperties/analysis/section.py:Section.get_beta", "src/sectionproperties/analysis/fea.py:Tri6.monosymmetry_integrals"]}
{"id": "C56", "title": "Warping integral of a real warping field is non-negative and exact", "statement": "The quadrature used for the warping constant integrates the squared warping field exactly, so the second warping moment is never negative.", "quantifier": "all meshes, all warping fields", "why_tests_cant": "continuum of fields", "anchors": ["src/sectionproperties/analysis/fea.py:Tri6.shear_warping_integrals", "src/sectionproperties/analysis/fea.py:gauss_points"]}
{"id": "C57", "title": "Mid-node reordering matches the element's node convention", "statement": "For every mesh in the mesher's 6-node order (mid-nodes opposite to corners 0,1,2), the Section's elements have mid-nodes on edges 01, 12, 20 as the shape functions require.", "quantifier": "all meshes", "why_tests_cant": "all meshes", "anchors": ["src/sectionproperties/analysis/section.py:Section.__init__", "src/sectionproperties/analysis/fea.py:shape_function"]}
{"id": "C58", "title": "A failed analysis leaves no value that was not computed", "statement": "An analysis call that raises does not make any getter return a value that no analysis computed, and does not destroy results of earlier analyses.", "quantifier": "all histories, all points of failure", "why_tests_cant": "unbounded histories and all failure points of the solvers", "anchors": ["src/sectionproperties/analysis/section.py:Section.calculate_frame_properties", "src/sectionproperties/analysis/section.py:Section.calculate_warping_properties", "src/sectionproperties/analysis/section.py:Section.calculate_plastic_properties"]}
{"id": "C59", "title": "Control points follow their region", "statement": "A control point assigned to a geometry is transformed exactly as the geometry is by shift, rotate and mirror, so it stays in the region it marks; moving boundary points leaves a control point that marks the new region.", "quantifier": "all geometries, assigned control points and transformations", "why_tests_cant": "continuum of geometries and transformations", "anchors": ["src/sectionproperties/pre/geometry.py:Geometry.shift_section", "src/sectionproperties/pre/geometry.py:Geometry.rotate_section", "src/sectionproperties/pre/geometry.py:Geometry.mirror_section", "src/sectionproperties/pre/geometry.py:Geometry.shift_points", "src/sectionproperties/pre/geometry.py:Geometry.assign_control_point"]}
{"id": "C60", "title": "Lines of the fibre export are no wider than max_width", "statement": "No line of the text that to_fibre_section returns is wider than the given maximum width; the list of cell tags is continued on a new line instead.", "quantifier": "all sections, main tags and widths", "why_tests_cant": "unbounded numbers of elements and widths", "anchors": ["src/sectionproperties/post/fibre.py:to_fibre_section"]}
{"id": "C61", "title": "Exported fibre cells with warping are in equilibrium under twist", "statement": "The warping derivatives that to_fibre_section exports for a 3DOS section are those of the solved warping function at the cell positions, and the shear strains of a unit twist computed from them have no net resultant over the cells.", "quantifier": "all meshes, materials and exact solutions of the torsion problem", "why_tests_cant": "continuum of sections", "anchors": ["src/sectionproperties/post/fibre.py:Cell.__init__", "src/sectionproperties/post/fibre.py:to_fibre_section"]}
{"id": "C62", "title": "Set operators give the right region and materials", "statement": "a - b, a + b, a | b, a ^ b and a & b of geometries and compounds occupy the difference, union, symmetric difference and intersection of the regions, and each point keeps the material that it had in its operand (for +, -) or in the left operand (for |, ^, &); the result can be meshed and analysed.", "quantifier": "all geometries and compounds, all materials, all results of shapely that are right", "why_tests_cant": "continuum of regions, unbounded numbers of parts", "anchors": ["src/sectionproperties/pre/geometry.py:Geometry.__sub__", "src/sectionproperties/pre/geometry.py:Geometry.__add__", "src/sectionproperties/pre/geometry.py:Geometry.__or__", "src/sectionproperties/pre/geometry.py:Geometry.__xor__", "src/sectionproperties/pre/geometry.py:Geometry.__and__", "src/sectionproperties/pre/geometry.py:filter_non_polygons"]}
{"id": "C63", "title": "A compound from points and facets has the regions, holes and materials that were given", "statement": "CompoundGeometry.from_points, given facets that go round polygons one after the other, returns one part for each polygon that is not a hole, with the holes cut out, and with the control point and the material of the same number; numbers that do not match are rejected with ValueError.", "quantifier": "all numbers of polygons and holes, all points, control points and materials", "why_tests_cant": "unbounded numbers of polygons of unbounded size", "anchors": ["src/sectionproperties/pre/geometry.py:CompoundGeometry.from_points"]}
{"id": "C64", "title": "Shear forces act through the reported shear centre", "statement": "get_sc returns the point through which the transverse shear forces act: for every Vx, Vy the shear stresses that calculate_stress reports for them have the resultant (Vx, Vy) and the torque of that force, applied at the reported shear centre, about every point; with a torsion moment Mzz the torque of all reported shear stresses is larger by exactly Mzz.", "quantifier": "all meshes, all exact solutions of the warping problems, all forces, all reference points", "why_tests_cant": "continuum of sections, forces and reference points", "anchors": ["src/sectionproperties/analysis/section.py:Section.get_sc", "src/sectionproperties/analysis/section.py:Section.calculate_warping_properties", "src/sectionproperties/analysis/section.py:Section.calculate_stress", "src/sectionproperties/analysis/fea.py:Tri6.shear_warping_integrals"]}
{"id": "C65", "title": "Warping results turn and scale with the section", "statement": "When the section (with its mesh) is rotated, the torsion and warping constants do not change, the shear centre rotates with it, the shear flexibilities 1/A_s rotate as a tensor, and shear areas and monosymmetry constants about the principal axes stay the same (up to the sense of the axes). When it is scaled by k (a change of the length unit), j scales by k^4, gamma by k^6, shear centre and monosymmetry constants by k, shear areas by k^2.", "quantifier": "all meshes and material distributions (also with a Poisson effect), all angles and factors, all exact solutions of the linear systems", "why_tests_cant": "continuum of angles, factors and sections", "anchors": ["src/sectionproperties/analysis/section.py:Section.calculate_warping_properties", "src/sectionproperties/analysis/fea.py:Tri6.shear_load_vectors", "src/sectionproperties/analysis/fea.py:Tri6.shear_warping_integrals", "src/sectionproperties/analysis/fea.py:Tri6.shear_coefficients", "src/sectionproperties/analysis/fea.py:Tri6.monosymmetry_integrals"]}
{"id": "C66", "title": "The printed tables show every computed result under its name", "statement": "display_results never raises; its table shows, in a fixed order and under the documented names, exactly the groups of quantities that have been computed and that a section of this kind has, each with the value its getter reports. display_transformed_results shows rigidities divided by the reference modulus and raises RuntimeError for a section that is not composite. No name occurs twice. Once a geometric analysis was called, every later table shows all geometric quantities with unchanged values.", "quantifier": "all sections, materials, states of the property store, histories of calls, reference moduli and number formats", "why_tests_cant": "unbounded histories, 2^75 patterns of computed quantities", "anchors": ["src/sectionproperties/post/post.py:print_results", "src/sectionproperties/post/post.py:print_transformed_results", "src/sectionproperties/analysis/section.py:Section.display_results", "src/sectionproperties/analysis/section.py:Section.display_transformed_results"]}
{"id": "C67", "title": "The stress dictionaries split the stress by action", "statement": "StressPost.get_stress returns one dictionary per material with exactly the documented keys. The entry for the stress resulting from some of the actions equals, at every node, the total stress reported if only those actions are applied. The totals belong together: resultant shear, principal and von Mises stresses are those of the tensor of sig_zz, sig_zx, sig_zy. Entries are zero at nodes where the material does not occur.", "quantifier": "all sections, all states after any analyses, all combinations of the eight actions, all nodes", "why_tests_cant": "continuum of actions, unbounded meshes", "anchors": ["src/sectionproperties/post/stress_post.py:StressPost.get_stress", "src/sectionproperties/post/stress_post.py:StressResult.calculate_combined_stresses", "src/sectionproperties/analysis/section.py:Section.calculate_stress"]}
{"id": "C68", "title": "Mohr's circles show the stress at the point", "statement": "plot_mohrs_circles raises ValueError exactly if the point lies outside the mesh. Otherwise the stresses are those of a material group that contains the point, interpolated linearly in the element; the three circles have as diameters the pairs of principal stresses (the intermediate one is zero), and the three points are normal stress and magnitude of shear stress on the X-, Y- and Z-face.", "quantifier": "all conforming meshes, nodal stresses and points, all right triangle finders and eigenvalue solvers", "why_tests_cant": "continuum of points and stress states", "anchors": ["src/sectionproperties/post/stress_post.py:StressPost.plot_mohrs_circles"]}
{"id": "C69", "title": "Offsetting moves the chosen boundary and keeps materials", "statement": "offset_perimeter of a geometry with where='exterior', 'interior' or 'all' gives the region bounded by the offset of the chosen boundary and the other boundary as it was, with the material and tolerance of the original; a positive amount enlarges the section, a negative one makes it smaller; any other where raises ValueError, and so does 'interior' without holes. An assigned control point is kept if it is inside the result. Eroding a compound trims each part to the eroded union; dilating a compound adds a band to the outside and changes nothing inside, each part keeps its material.", "quantifier": "all geometries and compounds, all amounts, resolutions and values of where", "why_tests_cant": "continuum of polygons and amounts, any number of parts and holes", "anchors": ["src/sectionproperties/pre/geometry.py:Geometry.offset_perimeter", "src/sectionproperties/pre/geometry.py:CompoundGeometry.offset_perimeter", "src/sectionproperties/pre/geometry.py:buffer_polygon"]}
{"id": "C70", "title": "The perimeter is the length of the outer boundary", "statement": "calculate_perimeter of a geometry is the sum of the distances of successive vertices of the outer boundary, whatever holes there are; for a compound whose parts form one polygon it is the length of the outer boundary of that polygon, and -1 otherwise. It is at least twice the distance of any two vertices, twice the width and twice the height. Shifting, rotating and mirroring does not change it beyond the rounding of the vertices. It is 2(b+d) for a rectangle and that of the inscribed polygon, less than pi d, for a circle.", "quantifier": "all geometries, all moves, all rectangles and circles", "why_tests_cant": "continuum of vertices, any number of them", "anchors": ["src/sectionproperties/pre/geometry.py:Geometry.calculate_perimeter", "src/sectionproperties/pre/geometry.py:CompoundGeometry.calculate_perimeter", "src/sectionproperties/pre/library/primitive_sections.py:rectangular_section", "src/sectionproperties/pre/library/primitive_sections.py:circular_section"]}
{"id": "C71", "title": "Warping results do not depend on numbering and follow reflections; symmetric sections have symmetric results", "statement": "Renumbering the nodes, reordering the triangles and starting each triangle at another corner changes none of the warping results (torsion and warping constants, shear centres, shear areas, monosymmetry constants; warping functions are the same at corresponding nodes). Reflecting a section keeps torsion constant, warping constant and shear areas and reflects the shear centres. For a mesh that is symmetric about any line the centroid and both shear centres lie on the line and the monosymmetry constants about it are zero; for a horizontal or vertical axis the product of inertia and 1/A_s,xy vanish; for point symmetry the shear centre is the centroid.", "quantifier": "all meshes, numberings, reflections and material distributions", "why_tests_cant": "all permutations of nodes, elements and corners; continuum of meshes", "anchors": ["src/sectionproperties/analysis/section.py:Section.calculate_warping_properties", "src/sectionproperties/analysis/section.py:Section.assemble_torsion", "src/sectionproperties/analysis/fea.py:Tri6"]}
{"id": "C72", "title": "Stresses turn and scale with the section", "statement": "Shifting a section changes no stress. Turning a section together with the applied moments and shear forces gives, at every node and for every material, the same normal stress, the shear stress vector turned by the same angle, and the same principal and von Mises stresses; this includes moments about the principal axes, up to their common sense. Scaling a section by k, its forces by k^2 and its moments by k^3 gives exactly the same stresses.", "quantifier": "all meshes, material distributions, angles, scale factors, shifts and actions", "why_tests_cant": "continuum of meshes, angles, factors and load combinations", "anchors": ["src/sectionproperties/analysis/section.py:Section.calculate_stress", "src/sectionproperties/analysis/fea.py:Tri6.element_stress"]}
{"id": "C73", "title": "The plastic moment is the largest moment within the yield strength", "statement": "The plastic moment (or, for one material of unit strength, the plastic modulus) reported about an axis is the largest moment that any stress distribution can have which nowhere exceeds the yield strength of its material and has no resulting axial force, within what the tolerance of the neutral axis search allows. So it does not change when the section is shifted, is multiplied by k^3 when the section is scaled by k, is the same about the principal axes when the section is turned, and about the geometric axes when it is mirrored; a quarter turn exchanges the two geometric axes.", "quantifier": "all meshes, material distributions, stress distributions, angles and scale factors", "why_tests_cant": "the maximum is over all integrable stress distributions, an infinite dimensional set", "anchors": ["src/sectionproperties/analysis/plastic_section.py:PlasticSection.calculate_plastic_properties", "src/sectionproperties/analysis/plastic_section.py:PlasticSection.pc_algorithm", "src/sectionproperties/analysis/section.py:Section.calculate_plastic_properties"]}
{"id": "C74", "title": "Sections with sloping faces have the documented shape", "statement": "tapered_flange_i_section, tapered_flange_channel, box_girder_section, bulb_section (with the default bulb depth) and i_girder_section return a polygon that fills the box of the given width and depth and has the area of the drawing: the flange thickness is measured half way between web and toe, the flange faces have the given slope and are tangents of the toe and root arcs, the side walls of a box girder have the given thickness measured at right angles to them, the lower face of a bulb rises at 30 degrees and is a tangent of both arcs, and a precast girder has the widths and heights of its type. The outlines of the doubly or singly symmetric ones are symmetric. An invalid girder type raises ValueError.", "quantifier": "all dimensions for which the drawing is possible, numbers of arc points, materials", "why_tests_cant": "the dimensions are real numbers and the number of arc points is unbounded", "anchors": ["src/sectionproperties/pre/library/steel_sections.py:tapered_flange_i_section", "src/sectionproperties/pre/library/steel_sections.py:tapered_flange_channel", "src/sectionproperties/pre/library/steel_sections.py:box_girder_section", "src/sectionproperties/pre/library/steel_sections.py:bulb_section", "src/sectionproperties/pre/library/bridge_sections.py:i_girder_section", "src/sectionproperties/pre/library/bridge_sections.py:get_i_girder_dims"]}
{"id": "C75", "title": "Super-T girders have the documented shape", "statement": "super_t_girder_section raises ValueError for a type other than 1 to 5, an era other than 1 and 2, and type 5 of era 1. Otherwise it returns a symmetric polygon of width w and depth d + t_f with a flange of thickness t_f, a bottom slab of the thickness of the type on the centre line, and two webs of thickness t_w (by default that of the type) between parallel faces of slope 1 in 10.556.", "quantifier": "all types, eras, flange widths, web and flange thicknesses for which the drawing is possible", "why_tests_cant": "the dimensions are real numbers; the web thickness is not visible in any single coordinate", "anchors": ["src/sectionproperties/pre/library/bridge_sections.py:super_t_girder_section", "src/sectionproperties/pre/library/bridge_sections.py:get_super_t_girder_dims"]}
{"id": "C76", "title": "Stress recovery points of NASTRAN sections lie on the section", "statement": "The four stress recovery points that a NASTRAN section function stores on the geometry it returns lie on the outline of that geometry.", "quantifier": "all NASTRAN section functions and all dimensions they accept", "why_tests_cant": "the dimensions are real numbers; a test of the coordinates of one set of points does not relate them to the outline", "anchors": ["src/sectionproperties/pre/geometry.py:Geometry.recovery_points", "src/sectionproperties/pre/library/nastran_sections.py"]}
{"id": "C77", "title": "The principal axes are drawn in full and through the centroid", "statement": "When the principal axes are drawn on a plot, each is one straight line that consists of exactly the points of the line through the centroid at the principal angle (and at right angles to it) that lie within the limits of the plot.", "quantifier": "all principal angles, all plot limits and all centroids within them", "why_tests_cant": "the angle is a real number and the axis leaves the plot through any pair of its sides", "anchors": ["src/sectionproperties/post/post.py:draw_principal_axis"]}
{"id": "C78", "title": "The plastic analysis warns about regions that are counted twice", "statement": "calculate_plastic_properties warns about overlapping regions exactly if more than a billionth of the summed area of the parts is counted several times: never if no two parts have an area in common, and always if two parts have more than that in common.", "quantifier": "all compound geometries with any number of parts, in any order", "why_tests_cant": "the parts are arbitrary polygons in any number; a test shows the warning for one overlapping pair", "anchors": ["src/sectionproperties/analysis/section.py:Section.calculate_plastic_properties", "src/sectionproperties/pre/geometry.py:check_geometry_overlaps"]}
{"id": "C79", "title": "Refining the mesh never increases the torsion constant or the shear areas", "statement": "If a mesh is refined, i.e. every element of the new mesh lies within one of the old mesh and has its material, the torsion constant of the section computed on the new mesh is not larger; neither are the four shear areas if the Poisson's ratio of the analysis is zero, as it is for all sections without materials.", "quantifier": "all sections with conforming meshes and all refinements of these, of any sizes, with any number of materials", "why_tests_cant": "a convergence study compares a few meshes of one section; the claim is about all pairs of meshes", "anchors": ["src/sectionproperties/analysis/section.py:Section.calculate_warping_properties", "src/sectionproperties/analysis/fea.py:Tri6.torsion_properties", "src/sectionproperties/analysis/fea.py:Tri6.shear_load_vectors", "src/sectionproperties/analysis/fea.py:Tri6.shear_coefficients"]}
{"id": "C80", "title": "Normal stresses follow beam theory and agree with yield moments and section moduli", "statement": "At every node of every material group calculate_stress reports the axial stress E N / EA and for each bending moment the stress of beam theory with the reported centroid and second moments of area, and get_stress_at_points returns the same for any point of the section, up to rounding of a constant matrix (1e-12 relative). Under the reported yield moment about an axis the largest reported stress is the yield strength; in a section of one modulus the largest stress under a moment about a principal axis is the moment divided by the smaller section modulus of that axis (times E).", "quantifier": "all sections, all actions, all histories of analyses with a geometric analysis, all nodes and points", "why_tests_cant": "stresses are extrapolated from integration points with a hard-coded matrix and averaged over elements; tests compare a few nodes of a few sections", "anchors": ["src/sectionproperties/analysis/section.py:Section.calculate_stress", "src/sectionproperties/analysis/section.py:Section.get_stress_at_points", "src/sectionproperties/analysis/fea.py:Tri6.element_stress", "src/sectionproperties/analysis/fea.py:extrapolate_to_nodes"]}
{"id": "C81", "title": "Adding material never decreases the stiffness or the strength of a section", "statement": "If a section is part of another one, and wherever both have material that of the other is at least as stiff (dense, strong), then area, axial rigidity, mass, second moments about the own centroid (about every direction and about the principal axes) and plastic moments about the given axes (up to the tolerance of the root search) are at most those of the other section. The same holds for the torsion constant if the mesh of the first fits into the mesh of the other.", "quantifier": "all pairs of sections, all materials, all meshes (for the torsion constant: meshes that fit into each other), all solvers", "why_tests_cant": "a comparison of all pairs of sections; the centroid, the principal axes and the plastic neutral axis all move when material is added, so no single number can be compared directly", "anchors": ["src/sectionproperties/analysis/section.py:Section.calculate_geometric_properties", "src/sectionproperties/analysis/section.py:Section.calculate_warping_properties", "src/sectionproperties/analysis/section.py:Section.calculate_plastic_properties"]}
{"id": "C82", "title": "The torsion constant is bounded by the second moments of area", "statement": "The torsion constant of a section is at most 4 I11 I22 / (I11 + I22), the torsion constant of an ellipse with the same principal second moments of area; in particular it is less than four times the smaller one. For a composite section all three are the quantities weighted with the elastic modulus that the analyses report.", "quantifier": "all sections with positive areas and moduli, all meshes, all solvers that solve their system", "why_tests_cant": "a relation between quantities computed by a finite element solution and by integrals that holds for all shapes", "anchors": ["src/sectionproperties/analysis/section.py:Section.calculate_warping_properties", "src/sectionproperties/analysis/section.py:Section.calculate_geometric_properties"]}
{"id": "C83", "title": "Stress plots show the reported stresses of the chosen materials", "statement": "For every documented stress, plot_stress draws, for exactly the chosen materials (all if none are chosen) and on exactly their elements, the stress that get_stress reports under the corresponding key; plot_stress_vector draws the reported components and resultant. Without limits the contour levels are evenly spaced and extend from the smallest to the largest stress that can be seen; with limits they extend from the one to the other. Any other name raises KeyError.", "quantifier": "all sections, all material groups, all load cases, all documented stresses, all material lists, limits and titles", "why_tests_cant": "a relation between two outputs for every key, section and choice of materials; image comparison tests sample single pictures", "anchors": ["src/sectionproperties/post/stress_post.py:StressPost.plot_stress", "src/sectionproperties/post/stress_post.py:StressPost.plot_stress_vector", "src/sectionproperties/post/stress_post.py:StressPost.get_stress"]}
{"id": "C84", "title": "Plots of a section show what has been computed", "statement": "After any sequence of analyses, failed ones included, plot_centroids raises nothing, marks exactly the centres that get_c, get_sc, get_pc and get_pc_p report, where they report them, and draws the principal axes exactly if centroid and angle are reported. The elastic centroid is marked exactly if a geometric or frame analysis was called, the others only after the analysis that computes them and always after it succeeded. plot_warping_function raises RuntimeError before any warping or frame analysis and afterwards plots the solution of the torsion problem about the elastic centroid. plot_mesh draws every element not masked in the colour of its own material, with a legend of the different materials.", "quantifier": "all sections, all sequences of calls including failing ones, all solvers, all masks", "why_tests_cant": "holds for all call histories; the plots swallow exceptions, so a wrong or missing mark raises nothing", "anchors": ["src/sectionproperties/analysis/section.py:Section.plot_centroids", "src/sectionproperties/analysis/section.py:Section.plot_mesh", "src/sectionproperties/analysis/section.py:Section.plot_warping_function"]}
{"id": "C85", "title": "Reinforcing bars replace the material they are put in", "statement": "add_bar and add_bars, and the concrete beam, tee, column, circular and rectangular wall builders, return a section in which each bar is a polygon without holes of the requested number of vertices, area and material about the requested position, the region of the bars is made of the bar material, every other material is exactly where it was less the bars, and no point is counted twice.", "quantifier": "all geometries and compounds, all bar areas, positions and numbers of points, all arguments of the builders; bars may overlap and stick out", "why_tests_cant": "a statement about regions for every geometry and every arrangement of bars; tests compare a few areas", "anchors": ["src/sectionproperties/pre/library/concrete_sections.py:add_bar", "src/sectionproperties/pre/library/concrete_sections.py:add_bars", "src/sectionproperties/pre/library/concrete_sections.py:concrete_rectangular_section", "src/sectionproperties/pre/library/concrete_sections.py:concrete_tee_section", "src/sectionproperties/pre/library/concrete_sections.py:concrete_column_section", "src/sectionproperties/pre/library/concrete_sections.py:concrete_circular_section", "src/sectionproperties/pre/library/concrete_sections.py:rectangular_wall"]}
{"id": "C86", "title": "Concrete sections have the outline their dimensions describe", "statement": "The concrete of a rectangular beam, column or wall, of a tee beam, of a cee or tee wall, of a single or double lift core and of a stairwell occupies exactly the region that the documentation describes by the dimensions (rectangle, channel, tee, box with door openings, box with an inner wall and door openings), less the bars; the steel occupies exactly the bars and there is nothing else. Doors that do not fit into a double lift core raise ValueError.", "quantifier": "all dimensions with at most 11 decimals for which the section is possible, all spacings, covers and bar areas, single or double layers", "why_tests_cant": "a statement about regions for all dimensions; tests compare a few areas", "anchors": ["src/sectionproperties/pre/library/concrete_sections.py:cee_wall", "src/sectionproperties/pre/library/concrete_sections.py:tee_wall", "src/sectionproperties/pre/library/concrete_sections.py:single_lift_core", "src/sectionproperties/pre/library/concrete_sections.py:double_lift_core_a", "src/sectionproperties/pre/library/concrete_sections.py:double_lift_core_b", "src/sectionproperties/pre/library/concrete_sections.py:stairwell", "src/sectionproperties/pre/library/concrete_sections.py:concrete_tee_section", "src/sectionproperties/pre/library/concrete_sections.py:concrete_rectangular_section", "src/sectionproperties/pre/library/concrete_sections.py:concrete_column_section", "src/sectionproperties/pre/library/concrete_sections.py:rectangular_wall"]}
{"id": "C87", "title": "The torsion constant is never below what a stress function or a contained shape gives", "statement": "The torsion constant that get_j reports is at least (twice the volume under psi)^2 divided by the integral of |grad psi|^2 / E over the section, for every smooth function psi that is level outside the material, whatever the mesh. So a section that contains a disc or a ring has at least its polar second moment, pi/2 (ro^4 - ri^4), and a section that contains rectangles side by side has at least the sum of 5/18 w^3 h^3 / (w^2 + h^2), each times the least modulus there: a closed tube is never mistaken for an open one, and the reported value is caught between this and the bound 4 Ixx Iyy / (Ixx + Iyy).", "quantifier": "all sections, conforming meshes without overlap, materials, stress functions, discs, rings and finite sets of disjoint rectangles in the section", "why_tests_cant": "holds for all shapes and meshes; tests compare single values at single meshes", "anchors": ["src/sectionproperties/analysis/section.py:Section.calculate_warping_properties", "src/sectionproperties/analysis/section.py:Section.get_j", "src/sectionproperties/analysis/section.py:Section.assemble_torsion", "src/sectionproperties/analysis/fea.py:Tri6.torsion_properties"]}
{"id": "C88", "title": "Sections made of rectangles have the textbook values", "statement": "For a section whose region is, up to edges, a finite set of rectangles side by side, each of its own modulus and strength, the reported area, centroid, second moments and elastic moduli are those of the parallel axis theorem, exactly and whatever the mesh: b d, b d^3/12, b d^2/6 and radius d/sqrt(12) for a rectangle, (b d^3 - (b - tw)(d - 2 tf)^3)/12 for an I-section and (b d^3 - (b - 2t)(d - 2t)^3)/12 for a tube with sharp corners. The plastic moments are the sums of the moments of the yielded rectangles about the lines that balance them, b d^2/4 for a rectangle and b tf (d - tf) + tw (d - 2 tf)^2/4 for an I-section, up to the tolerance of the root search. The torsion constant of a rectangle lies between 5/18 and 6/18 of b^3 d^3/(b^2 + d^2).", "quantifier": "all sections whose region is a finite set of rectangles, all sizes, moduli, strengths and meshes without overlap; for torsion all conforming meshes", "why_tests_cant": "holds for all sizes and all meshes; tests compare a few sizes at one mesh each to a tolerance", "anchors": ["src/sectionproperties/analysis/section.py:Section.calculate_geometric_properties", "src/sectionproperties/analysis/section.py:Section.calculate_plastic_properties", "src/sectionproperties/analysis/section.py:Section.calculate_warping_properties", "src/sectionproperties/post/post.py:SectionProperties.calculate_centroidal_properties", "src/sectionproperties/analysis/plastic_section.py:PlasticSection.calculate_plastic_properties", "src/sectionproperties/analysis/fea.py:Tri6.geometric_properties"]}
{"id": "C89", "title": "The results follow from the outline, and agree with the geometry", "statement": "For every mesh that fills the polygons of a geometry, the reported area is what calculate_area gives (summed over the parts), the centroid is what calculate_centroid gives if all parts have one modulus and is the point that align_center uses in any case, mass and axial rigidity are the sums over the parts, and the second moments are given by the polygon formulas applied to the outline, with holes. A mesh of proper triangles whose boundary edges are the outline, possibly divided, and whose other edges are shared in opposite directions, fills the polygon without overlaps. For circular and elliptical sections and circular hollow sections with n points the values are n sin(2 pi/n)/2 instead of pi and n sin(2 pi/n)(2 + cos(2 pi/n))/24 instead of pi/4, hence below those of the true circle and tending to them.", "quantifier": "all geometries with valid polygons, with any number of holes and parts, and all meshes that fill them; all sizes and numbers of points for round sections", "why_tests_cant": "holds for all outlines and meshes; tests compare a few shapes at one mesh each", "anchors": ["src/sectionproperties/pre/geometry.py:Geometry.calculate_area", "src/sectionproperties/pre/geometry.py:Geometry.calculate_centroid", "src/sectionproperties/pre/geometry.py:CompoundGeometry.align_center", "src/sectionproperties/analysis/section.py:Section.calculate_geometric_properties", "src/sectionproperties/pre/library/primitive_sections.py:circular_section", "src/sectionproperties/pre/library/steel_sections.py:circular_hollow_section"]}
{"id": "C90", "title": "Torsion constant of round sections", "statement": "For every conforming mesh of an elliptical or circular section with n points, the reported torsion constant J is less than that of the true ellipse, E pi a^3 b^3 / (a^2 + b^2), and at least cos(pi/n)^4 times it. For a circular hollow section it is less than that of the true ring and at least that of the ring whose outer radius is reduced by cos(pi/n). In general a section that contains an ellipse has at least the torsion constant of that ellipse.", "quantifier": "all diameters, thicknesses, numbers of points from 3 and all conforming meshes that fill the polygon", "why_tests_cant": "holds for all sizes, numbers of points and meshes; tests compare one circle at one mesh with a tolerance", "anchors": ["src/sectionproperties/analysis/section.py:Section.calculate_warping_properties", "src/sectionproperties/pre/library/primitive_sections.py:circular_section", "src/sectionproperties/pre/library/primitive_sections.py:elliptical_section", "src/sectionproperties/pre/library/steel_sections.py:circular_hollow_section"]}
{"id": "C91", "title": "Shear areas and shear flows", "statement": "Each reported shear area (along x, along y and along both principal axes) is at least the unit shear force squared over the energy of any shear stresses that are in equilibrium with the bending stresses, and such stresses always have the applied shear force as their resultant. In consequence, for every conforming mesh: a rectangle of one material has all shear areas between 5/6 of its area and its area; a rectangle made of horizontal layers has at least 5/6 of its area along the layers, and across them at least what the shear flow formula VS/(Ib) gives; an I-section, and any section symmetric about a vertical axis, has at least the shear areas given by the elementary shear flow in its web and wings.", "quantifier": "all sections of one material without Poisson ratio effect, all composite sections with effective Poisson ratio 0, all conforming meshes, all equilibrium stresses, all dimensions", "why_tests_cant": "holds for all meshes, sizes and stress fields; tests compare a few sections with tabulated values to a tolerance", "anchors": ["src/sectionproperties/analysis/section.py:Section.calculate_warping_properties", "src/sectionproperties/analysis/fea.py:Tri6.shear_load_vectors", "src/sectionproperties/analysis/fea.py:Tri6.shear_coefficients"]}
{"id": "C92", "title": "Convergence under mesh refinement", "statement": "As the mesh gets finer with bounded element shapes, the torsion constant and the shear areas converge to the values of the boundary value problems they stand for, at the fourth power of the element size wherever the exact warping function is three times differentiable, and the discrete values err on one side only: the torsion constant is never below the exact one and the shear areas are never below theirs. In particular every sequence of ever finer meshes of a rectangle gives shear areas that tend to 5/6 of its area in all directions, with an element size that depends only on the sides, the element shape and the tolerance; and the torsion constant of an equilateral triangle with side a lies between sqrt(3)/80 a^4 and that plus an explicit constant times the fourth power of the element size.", "quantifier": "all conforming meshes of all sizes, all sections of one material without Poisson ratio effect (torsion: any materials), all tolerances", "why_tests_cant": "a limit over all meshes; tests run a few mesh sizes and compare to a tolerance", "anchors": ["src/sectionproperties/analysis/section.py:Section.calculate_warping_properties", "src/sectionproperties/analysis/fea.py:Tri6.torsion_properties", "src/sectionproperties/analysis/fea.py:Tri6.shear_load_vectors", "src/sectionproperties/analysis/fea.py:Tri6.shear_coefficients"]}
{"id": "C93", "title": "Refinement leads to one answer per body", "statement": "For every body (the material region, with any materials in it) there is one torsion constant J > 0 such that every mesh of the body, whatever its nodes and triangles, gives a torsion constant not below J, and every mesh that is fine enough with bounded element shapes gives one within any prescribed tolerance of J; so two fine meshes made in different ways agree, whether or not one refines the other and although nothing is assumed about the exact solution. The same holds for each of the four shear areas of a section without Poisson ratio effect. For a rectangle b x d this J lies between 5/18 and 6/18 of b^3 d^3 / (b^2 + d^2) and is the limit of the torsion constants of its k x k meshes.", "quantifier": "all plane bodies that can be meshed with straight six-node triangles, all pairs of conforming meshes of them, all tolerances", "why_tests_cant": "a statement about all pairs of meshes and a limit that has no closed form; tests compare a few mesh sizes", "anchors": ["src/sectionproperties/analysis/section.py:Section.calculate_warping_properties", "src/sectionproperties/analysis/fea.py:Tri6.torsion_properties", "src/sectionproperties/analysis/fea.py:Tri6.shear_load_vectors", "src/sectionproperties/analysis/fea.py:Tri6.shear_coefficients"]}
{"id": "C94", "title": "Refinement leads to one answer for every warping result of a connected section", "statement": "For every connected body with any materials in it, each of the following results of the warping analysis comes within any prescribed tolerance of one number, which depends on the body only, on every mesh of it that is fine enough with bounded element shapes: the coordinates of the elastic shear centre in the given and the principal axes and of Trefftz's shear centre, the eight monosymmetry constants, the warping constant, the four shear areas along the given and the principal axes for any effective Poisson's ratio other than -1 (their limits are positive), and the reciprocal of the mixed shear area. This is so although the quadrature of the second warping moment and of the Poisson's ratio terms is not exact. If Poisson's ratio has no effect, the warping constant of fine meshes is not negative but for a tolerance.", "quantifier": "all connected plane bodies that can be meshed with straight six-node triangles, all assignments of materials, all pairs of conforming meshes, all tolerances", "why_tests_cant": "a statement about all pairs of meshes and limits that have no closed form; tests compare a few mesh sizes", "anchors": ["src/sectionproperties/analysis/section.py:Section.calculate_warping_properties", "src/sectionproperties/analysis/fea.py:Tri6.shear_warping_integrals", "src/sectionproperties/analysis/fea.py:Tri6.shear_load_vectors", "src/sectionproperties/analysis/fea.py:Tri6.shear_coefficients", "src/sectionproperties/analysis/fea.py:Tri6.monosymmetry_integrals"]}
{"id": "C95", "title": "A section is unaffected by later changes of the geometry it was made from", "statement": "After a Section has been made from a geometry, meshing that geometry again or assigning it another material leaves the analyses of the section as they were: calculate_warping_properties and calculate_stress report the values of the mesh and materials the section was made with, or raise; they never combine the old and the new state. (Violated: the warping analysis takes mesh and moduli from the geometry as it is then, but centroid and second moments from the section. Proved are the cases in which the results are still right, the cases in which it raises, and the exact value otherwise.)", "quantifier": "all sections, all later states of the mesh and of the materials of the geometry, all solvers and their answers", "why_tests_cant": "depends on the order of construction, changes of the geometry and analyses; no test changes a geometry after making a section", "anchors": ["src/sectionproperties/analysis/section.py:Section.calculate_warping_properties", "src/sectionproperties/analysis/section.py:Section.__init__", "src/sectionproperties/analysis/section.py:Section.calculate_stress", "src/sectionproperties/pre/geometry.py:Geometry.create_mesh"]}
{"id": "C96", "title": "Rounding the vertices changes the results only a little", "statement": "Geometry rounds the vertices of a polygon to tol decimals. The area that calculate_area reports, and the area, mass, axial rigidity and first and second moments of every section made from such geometries, differ from the exact integrals over the polygons as given by at most n h^k 10^-tol (weighted with the modulus), where n is the number of vertices, h half the side of a square round the section, and k = 1 for areas, 2 for first and 3 for second moments. Centroid and centroidal second moments differ by amounts of the same order.", "quantifier": "all valid polygons with any number of vertices and holes, all numbers of parts and materials, all tol, all reference points, all meshes", "why_tests_cant": "tests compare a few shapes with a tolerance; they cannot bound the effect of rounding for every polygon and tol", "anchors": ["src/sectionproperties/pre/geometry.py:round_polygon_vertices", "src/sectionproperties/pre/geometry.py:Geometry.__init__", "src/sectionproperties/pre/geometry.py:Geometry.calculate_area", "src/sectionproperties/pre/library/primitive_sections.py:elliptical_section", "src/sectionproperties/analysis/section.py:Section.calculate_geometric_properties"]}
{"id": "C97", "title": "Plots of a geometry show exactly its boundary, holes, control points and the labels asked for", "statement": "plot_geometry of every geometry and compound succeeds and draws the edges of all its outlines and holes and nothing else, a cross at each hole, a dot at each control point if cp is set, one entry in the legend for each kind of thing that is there, and the numbers of exactly the points, facets, control points and holes whose kind is in labels, each at its place. display_mesh_info reports the number of nodes and elements of the mesh and as many regions as materials.", "quantifier": "all geometries and compounds that can be built, with any number of parts, holes and vertices; all lists of labels; all sections", "why_tests_cant": "tests check that plotting does not raise; they cannot compare what is drawn with the geometry for every geometry and choice of labels", "anchors": ["src/sectionproperties/pre/geometry.py:Geometry.plot_geometry", "src/sectionproperties/analysis/section.py:Section.display_mesh_info"]}
{"id": "C98", "title": "Imports use every polygon that was found or raise an error", "statement": "from_dxf returns all polygons found in the file, one part each, in order, with the default material, as Geometry if there is one and as CompoundGeometry otherwise; it raises ValueError exactly if the file does not exist and RuntimeError exactly if nothing or something other than a polygon was found. CompoundGeometry.from_3dm returns all polygons and raises RuntimeError exactly if there are none. Geometry.from_3dm returns the polygon if there is exactly one and raises RuntimeError otherwise. from_rhino_encoding returns the polygon of the encoded surface and raises an error if it cannot return all of them.", "quantifier": "all lists of polygons (and other objects) that the import libraries may find in a file", "why_tests_cant": "tests read a handful of files; they cannot cover every number and kind of objects in a file", "anchors": ["src/sectionproperties/pre/geometry.py:load_dxf", "src/sectionproperties/pre/geometry.py:Geometry.from_3dm", "src/sectionproperties/pre/geometry.py:CompoundGeometry.from_3dm", "src/sectionproperties/pre/geometry.py:Geometry.from_rhino_encoding", "src/sectionproperties/pre/rhino.py:load_3dm", "src/sectionproperties/pre/rhino.py:load_brep_encoding"]}
{"id": "C99", "title": "Moving a geometry moves the results", "statement": "If a geometry or compound is shifted, rotated about a point or about the centre of its bounding box, in degrees or radians, or mirrored about an axis (compounds: through a point), and both are meshed in any way, then the section of the moved geometry has the same area, mass and rigidity, the moved centroid, and centroidal second moments that follow the transformation of a tensor, up to an explicit bound for the rounding of coordinates to the decimals that the geometry keeps.", "quantifier": "all geometries and compounds of valid polygons (with holes, any number of vertices and parts), all offsets, angles, centres and axes, all meshes of both, all numbers of decimals for which the polygons are not degenerate", "why_tests_cant": "tests rotate a few sections; they cannot quantify over all polygons, angles and meshes, nor separate rounding from error", "anchors": ["src/sectionproperties/pre/geometry.py:Geometry.shift_section", "src/sectionproperties/pre/geometry.py:Geometry.rotate_section", "src/sectionproperties/pre/geometry.py:Geometry.mirror_section", "src/sectionproperties/pre/geometry.py:CompoundGeometry.shift_section", "src/sectionproperties/pre/geometry.py:CompoundGeometry.rotate_section", "src/sectionproperties/pre/geometry.py:CompoundGeometry.mirror_section", "src/sectionproperties/analysis/section.py:Section.calculate_geometric_properties"]}
{"id": "C100", "title": "Shear stresses settle under refinement", "statement": "For a connected body with any materials there are three fixed fields of shear stress, of a unit torque and of unit shear forces, such that for every combination of torque and shear forces the shear stresses that a stress analysis reports, taken from the element in which each point lies, come arbitrarily close in mean square over the body to the superposition of these fields on every mesh with small enough elements of bounded aspect, up to the share 1e-19 that the rounded extrapolation matrix costs; get_stress_at_points returns these stresses at almost every point.", "quantifier": "all connected bodies and materials, all torques and shear forces, all meshes of the body (any two meshes, not only refinements of each other) with elements of bounded aspect, all solvers that solve the equations exactly", "why_tests_cant": "tests compare stresses on one or two meshes with tabulated values; whether they settle on all fine meshes, for all sections, is a statement about infinitely many meshes", "anchors": ["src/sectionproperties/analysis/fea.py:Tri6.element_stress", "src/sectionproperties/analysis/fea.py:Tri6.local_element_stress", "src/sectionproperties/analysis/fea.py:extrapolate_to_nodes", "src/sectionproperties/analysis/section.py:Section.calculate_stress", "src/sectionproperties/analysis/section.py:Section.get_stress_at_points", "src/sectionproperties/analysis/section.py:Section.calculate_warping_properties"]}
{"id": "C101", "title": "Shear stresses tend to Saint-Venant's stresses", "statement": "The fields to which the reported shear stresses settle are those of Saint-Venant's theory of beams: for a torque they are in equilibrium with no axial load and free lateral surfaces, have the torque as their moment about the centroid, and their strains come from a warping displacement and a twist whose rate is the torque over the limit of the reported torsion constants; for a shear force they are in equilibrium with the bending stresses that grow along the axis, have the shear force as their resultant, and their strains come from a warping displacement and the anticlastic curvature due to the effective Poisson's ratio. These conditions have one solution only, so the results converge to every solution of them, and the torsion constants to the reciprocal of its rate of twist for a unit torque.", "quantifier": "all connected bodies and materials, all meshes of the body with small enough elements of bounded aspect, all solvers that solve the equations exactly", "why_tests_cant": "tests compare stresses with tabulated values of a few shapes; equilibrium, resultants and compatibility of the limit are statements about all virtual displacements and all fine meshes", "anchors": ["src/sectionproperties/analysis/fea.py:Tri6.element_stress", "src/sectionproperties/analysis/fea.py:Tri6.torsion_properties", "src/sectionproperties/analysis/fea.py:Tri6.shear_load_vectors", "src/sectionproperties/analysis/section.py:Section.calculate_stress", "src/sectionproperties/analysis/section.py:Section.calculate_warping_properties"]}
{"id": "C102", "title": "Rectangle shear parabola", "statement": "For a rectangular section with an effective Poisson's ratio of zero (a section of the default material, or a material with that ratio) under shear forces Vx and Vy, the reported shear stresses come as close as one likes in mean square to the parabola of beam theory, 3 V / (2 A) (1 - (2 y / d)^2) along each axis, zero at the faces and 3 V / (2 A) in the middle.", "quantifier": "all rectangles anywhere in the plane, all shear forces, all meshes with small enough elements of bounded aspect, all solvers that solve the equations exactly", "why_tests_cant": "tests compare the stress at a few points of one mesh; that every fine mesh gives the parabola is a statement about all of them", "anchors": ["src/sectionproperties/analysis/fea.py:Tri6.element_stress", "src/sectionproperties/analysis/fea.py:Tri6.shear_load_vectors", "src/sectionproperties/analysis/section.py:Section.calculate_stress", "src/sectionproperties/analysis/section.py:Section.calculate_warping_properties"]}
{"id": "C103", "title": "Symmetric sections on any mesh", "statement": "A section whose region and materials are symmetric about a vertical line, a horizontal line or a point has its centroid on that line or at that point on every mesh, and a zero product of inertia if it has a line of symmetry. On fine meshes, which need not be symmetric, the elastic and the Trefftz shear centres come as close as one likes to the line or point, the monosymmetry constants that measure the asymmetry about it to zero, and with a line of symmetry the reciprocal of the mixed shear area to zero unless Poisson's ratio is -1.", "quantifier": "all connected symmetric bodies and materials, all meshes with small enough elements of bounded aspect, all solvers that solve the equations exactly", "why_tests_cant": "tests look at a few symmetric shapes on one mesh each; an unstructured mesh is never symmetric itself, so the claim is about the limit over all of them", "anchors": ["src/sectionproperties/analysis/section.py:Section.calculate_geometric_properties", "src/sectionproperties/analysis/section.py:Section.calculate_warping_properties", "src/sectionproperties/analysis/fea.py:Tri6.monosymmetry_integrals", "src/sectionproperties/analysis/fea.py:Tri6.shear_warping_integrals"]}
{"id": "C104", "title": "Layered rectangles", "statement": "For a rectangle whose elastic modulus depends on the height only, such as a slab of layers of several materials or a graded material, without an effect of Poisson's ratio, the shear stresses reported for shear forces come as close as one likes in mean square, on fine meshes, to those of beam theory: V S / (I b) with weighted moments for the force across the layers, and for the force along them the parabola over the width, shared out to the layers in proportion to their moduli.", "quantifier": "all sizes and places of the rectangle, all moduli bounded above and away from zero with countably many jumps, all shear forces, all meshes with small enough elements of bounded aspect", "why_tests_cant": "tests compare a few stresses of homogeneous sections on one mesh; the claim is about the limit over all meshes and all layouts of layers", "anchors": ["src/sectionproperties/analysis/fea.py:Tri6.element_stress", "src/sectionproperties/analysis/fea.py:Tri6.shear_load_vectors", "src/sectionproperties/analysis/section.py:Section.calculate_stress", "src/sectionproperties/analysis/section.py:Section.calculate_warping_properties"]}
{"id": "C105", "title": "Shear areas and the energy of the shear stresses", "statement": "For a connected body of any materials, the shear area in a direction (x, y and the principal axes) on fine meshes tends to 1 / integral of (tau_zx^2 + tau_zy^2) / E, where tau are the shear stresses of Saint-Venant's theory for a unit shear force in that direction, and the reciprocal of the mixed shear area tends to the integral of the product of the stresses of unit forces along x and along y over E. For a rectangle whose modulus depends on the height only, without an effect of Poisson's ratio, it tends to 5/6 of the axial rigidity along the layers and to the value of the stresses S / (I b) of beam theory across them.", "quantifier": "all connected bodies with arbitrarily fine meshes of bounded aspect, all materials and Poisson's ratios other than an effective one of -1, all four directions, all meshes with small enough elements", "why_tests_cant": "tests compare shear areas with tabulated values on one mesh; the claim is about the limit over all meshes of all bodies and its meaning as an energy", "anchors": ["src/sectionproperties/analysis/section.py:Section.calculate_warping_properties", "src/sectionproperties/analysis/fea.py:Tri6.shear_coefficients", "src/sectionproperties/analysis/fea.py:Tri6.element_stress"]}
{"id": "C106", "title": "Shear centre and the shear stresses", "statement": "For a connected body of any materials, the point that get_sc returns on fine meshes tends to a point about which the shear stresses of Saint-Venant's theory have no torque, for a shear force of any size and direction. It is the only such point: if the stresses of a force along x and of one along y have no torque about a point, the reported shear centres tend to it. For a rectangle whose modulus depends on the height only, without an effect of Poisson's ratio, they tend to the elastic centroid.", "quantifier": "all connected bodies with arbitrarily fine meshes of bounded aspect, all materials and Poisson's ratios other than an effective one of -1, all shear forces, all meshes with small enough elements", "why_tests_cant": "tests compare shear centres with tabulated values on one mesh; the claim is about the limit over all meshes of all bodies and what it means for the stresses", "anchors": ["src/sectionproperties/analysis/section.py:Section.calculate_warping_properties", "src/sectionproperties/analysis/section.py:Section.get_sc", "src/sectionproperties/analysis/fea.py:Tri6.shear_warping_integrals", "src/sectionproperties/analysis/fea.py:Tri6.element_stress"]}
{"id": "C107", "title": "Trefftz's shear centre and the centre of twist", "statement": "The point that get_sc_t returns is the centre of twist of the reported warping function: it is the only point such that the axial stresses of a non-uniform twist about it have no bending moments, and (with the right constant) no axial force, and of all axes of twist the one through it takes the least axial energy. The shear strains do not depend on the axis. On fine meshes of a connected body, without an effect of Poisson's ratio, the reported warping constant is as close as one likes to that least energy.", "quantifier": "all meshes, materials and warping functions, whatever the solver returned, and all axes of twist", "why_tests_cant": "tests compare the point with the elastic shear centre or a tabulated value on a few shapes; the claim compares it with every other axis of twist on every mesh", "anchors": ["src/sectionproperties/analysis/section.py:Section.calculate_warping_properties", "src/sectionproperties/analysis/section.py:Section.get_sc_t", "src/sectionproperties/analysis/fea.py:Tri6.shear_warping_integrals"]}
