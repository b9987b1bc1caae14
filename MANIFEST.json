{
 "claims": [
  {
   "property": "C01",
   "status": "proved",
   "theorems": [
    "SP.C01_exact",
    "SP.C01_centroidal"
   ],
   "note": ""
  },
  {
   "property": "C02",
   "status": "proved",
   "theorems": [
    "SP.C02_mesh_independent"
   ],
   "note": ""
  },
  {
   "property": "C03",
   "status": "proved",
   "theorems": [
    "SP.C03_rejects",
    "SP.C03_exact"
   ],
   "note": ""
  },
  {
   "property": "C04",
   "status": "proved",
   "theorems": [
    "SP.C04_partition",
    "SP.C04_nodal",
    "SP.C04_position",
    "SP.C04_jacobian",
    "SP.C04_value",
    "SP.C04_gradient",
    "SP.C04_degenerate"
   ],
   "note": ""
  },
  {
   "property": "C05",
   "status": "proved",
   "theorems": [
    "SP.C05_half_plane",
    "SP.C05_bounding_box"
   ],
   "note": ""
  },
  {
   "property": "C06",
   "status": "proved",
   "theorems": [
    "SP.C06_translation",
    "SP.C06_section_moduli"
   ],
   "note": ""
  },
  {
   "property": "C07",
   "status": "proved",
   "theorems": [
    "SP.C07_rotation",
    "SP.C07_angle"
   ],
   "note": ""
  },
  {
   "property": "C08",
   "status": "proved",
   "theorems": [
    "SP.C08_scaling",
    "SP.C08_scaling_moduli",
    "SP.C08_mirror"
   ],
   "note": ""
  },
  {
   "property": "C09",
   "status": "proved",
   "theorems": [
    "SP.C09_positive"
   ],
   "note": ""
  },
  {
   "property": "C10",
   "status": "proved",
   "theorems": [
    "SP.C10_diagonal",
    "SP.C10_tolerance",
    "SP.C10_extreme",
    "SP.C10_section"
   ],
   "note": ""
  },
  {
   "property": "C11",
   "status": "proved",
   "theorems": [
    "SP.C11_inverse",
    "SP.C11_rigid",
    "SP.C11_above"
   ],
   "note": ""
  },
  {
   "property": "C12",
   "status": "proved",
   "theorems": [
    "SP.C12_moduli",
    "SP.C12_stress",
    "SP.C12_region"
   ],
   "note": ""
  },
  {
   "property": "C13",
   "status": "proved",
   "theorems": [
    "SP.C13_effective"
   ],
   "note": ""
  },
  {
   "property": "C14",
   "status": "proved",
   "theorems": [
    "SP.C14_modulus_scaling",
    "SP.C14_element_scaling",
    "SP.C14_reference"
   ],
   "note": ""
  },
  {
   "property": "C15",
   "status": "proved",
   "theorems": [
    "SP.C15_history",
    "SP.C15_order"
   ],
   "note": ""
  },
  {
   "property": "C16",
   "status": "proved",
   "theorems": [
    "SP.C16_frame"
   ],
   "note": ""
  },
  {
   "property": "C17",
   "status": "proved",
   "theorems": [
    "SP.C17_system",
    "SP.C17_solution",
    "SP.C17_direct"
   ],
   "note": ""
  },
  {
   "property": "C18",
   "status": "proved",
   "theorems": [
    "SP.C18_unique_iff_connected",
    "SP.C18_disjoint_singular"
   ],
   "note": ""
  },
  {
   "property": "C19",
   "status": "proved",
   "theorems": [
    "SP.C19_torsion_constant"
   ],
   "note": ""
  },
  {
   "property": "C20",
   "status": "proved",
   "theorems": [
    "SP.C20_self_equilibrated",
    "SP.C20_multipliers"
   ],
   "note": ""
  },
  {
   "property": "C21",
   "status": "proved",
   "theorems": [
    "SP.C21_shear_centres"
   ],
   "note": ""
  },
  {
   "property": "C22",
   "status": "partial",
   "theorems": [
    "SP.C22_bounds_partial",
    "SP.C22_trace",
    "SP.C22_noncomposite_area",
    "SP.C22_fine_partial",
    "SP.C22_rectangle_partial",
    "SP.C22_violated"
   ],
   "note": "Proved for zero Poisson ratio of the analysis (all non-composite sections) and exact solves: bounds, Cauchy-Schwarz inequality and trace identity (the latter for any Poisson ratio). C22_violated: for a single steel element 36 wide and 3 high, effective Poisson ratio 3/10, all systems solved exactly, the reported a_sy is negative and kappa_xy^2 <= kappa_x*kappa_y fails, because the four point rule (with its negative weight) does not integrate the fourth-degree terms exactly. C22_fine_partial: for any Poisson's ratio but -1 all fine enough meshes of a body report positive shear areas, at most the weighted area plus any given tolerance, and kappa_xy^2 < kappa_x*kappa_y; C22_rectangle_partial runs it for a rectangle of any material on the grids that the code analyses. Missing, and false, is the statement for coarse meshes with a non-zero Poisson's ratio."
  },
  {
   "property": "C23",
   "status": "proved",
   "theorems": [
    "SP.C23_equilibrium"
   ],
   "note": ""
  },
  {
   "property": "C24",
   "status": "proved",
   "theorems": [
    "SP.C24_superposition"
   ],
   "note": ""
  },
  {
   "property": "C25",
   "status": "proved",
   "theorems": [
    "SP.C25_principal"
   ],
   "note": ""
  },
  {
   "property": "C26",
   "status": "proved",
   "theorems": [
    "SP.C26_average"
   ],
   "note": ""
  },
  {
   "property": "C27",
   "status": "proved",
   "theorems": [
    "SP.C27_extrapolate"
   ],
   "note": ""
  },
  {
   "property": "C28",
   "status": "proved",
   "theorems": [
    "SP.C28_within",
    "SP.C28_local",
    "SP.C28_interp"
   ],
   "note": ""
  },
  {
   "property": "C29",
   "status": "proved",
   "theorems": [
    "SP.C29_points",
    "SP.C29_node"
   ],
   "note": ""
  },
  {
   "property": "C30",
   "status": "proved",
   "theorems": [
    "SP.C30_yield_moment"
   ],
   "note": ""
  },
  {
   "property": "C31",
   "status": "partial",
   "theorems": [
    "SP.C31_groups_partial",
    "SP.C31_violated"
   ],
   "note": "Violated by the code for equal but distinct Material objects (C31_violated); proved when equal materials are the same object."
  },
  {
   "property": "C32",
   "status": "proved",
   "theorems": [
    "SP.C32_getters"
   ],
   "note": ""
  },
  {
   "property": "C33",
   "status": "proved",
   "theorems": [
    "SP.C33_needs_geometric",
    "SP.C33_stress_needs_geometric",
    "SP.C33_shear_needs_warping",
    "SP.C33_geometric_getters",
    "SP.C33_stress_enabled"
   ],
   "note": ""
  },
  {
   "property": "C34",
   "status": "proved",
   "theorems": [
    "SP.C34_imbalance",
    "SP.C34_bracket",
    "SP.C34_plastic_axis"
   ],
   "note": ""
  },
  {
   "property": "C35",
   "status": "proved",
   "theorems": [
    "SP.C35_shape_factors"
   ],
   "note": ""
  },
  {
   "property": "C36",
   "status": "proved",
   "theorems": [
    "SP.C36_extreme_fibres"
   ],
   "note": ""
  },
  {
   "property": "C37",
   "status": "proved",
   "theorems": [
    "SP.C37_facets"
   ],
   "note": ""
  },
  {
   "property": "C38",
   "status": "proved",
   "theorems": [
    "SP.C38_round_trip"
   ],
   "note": ""
  },
  {
   "property": "C39",
   "status": "proved",
   "theorems": [
    "SP.C39_compile"
   ],
   "note": ""
  },
  {
   "property": "C40",
   "status": "partial",
   "theorems": [
    "SP.C40_align_to_partial",
    "SP.C40_violated"
   ],
   "note": "Violated for a point target with inner=True on right, bottom and top (C40_violated); proved for all geometry targets and for points otherwise."
  },
  {
   "property": "C41",
   "status": "proved",
   "theorems": [
    "SP.C41_align_center",
    "SP.C41_align_center_compound"
   ],
   "note": ""
  },
  {
   "property": "C42",
   "status": "partial",
   "theorems": [
    "SP.C42_shift",
    "SP.C42_rotate",
    "SP.C42_mirror",
    "SP.C42_exact",
    "SP.C42_moves",
    "SP.C42_compound_partial",
    "SP.C42_compound_violated"
   ],
   "note": "Violated for CompoundGeometry.mirror_section about the centre (C42_compound_violated); proved for all other transformations."
  },
  {
   "property": "C43",
   "status": "partial",
   "theorems": [
    "SP.C43_shift_points_partial",
    "SP.C43_violated"
   ],
   "note": "Violated when an absolute coordinate is 0.0 (C43_violated); proved for all other arguments."
  },
  {
   "property": "C44",
   "status": "proved",
   "theorems": [
    "SP.C44_segment",
    "SP.C44_partition",
    "SP.C44_line"
   ],
   "note": ""
  },
  {
   "property": "C45",
   "status": "partial",
   "theorems": [
    "SP.C45_disjoint_partial",
    "SP.C45_violated"
   ],
   "note": "Violated for a single region, which is reported as disjoint (C45_violated); proved for two or more regions and any traversal order of the sets."
  },
  {
   "property": "C46",
   "status": "proved",
   "theorems": [
    "SP.C46_section_checks",
    "SP.C46_mesh_geometry",
    "SP.C46_mesh_compound"
   ],
   "note": ""
  },
  {
   "property": "C47",
   "status": "proved",
   "theorems": [
    "SP.C47_circle",
    "SP.C47_ellipse",
    "SP.C47_by_area"
   ],
   "note": ""
  },
  {
   "property": "C48",
   "status": "proved",
   "theorems": [
    "SP.C48_ellipse",
    "SP.C48_elliptical_hollow",
    "SP.C48_circular_hollow",
    "SP.C48_fillet_points",
    "SP.C48_fillet_area",
    "SP.C48_rectangular",
    "SP.C48_triangular",
    "SP.C48_triangular_radius",
    "SP.C48_cruciform",
    "SP.C48_i",
    "SP.C48_mono_i",
    "SP.C48_channel",
    "SP.C48_tee",
    "SP.C48_nastran_bar",
    "SP.C48_nastran_box",
    "SP.C48_nastran_box1",
    "SP.C48_nastran_chan",
    "SP.C48_nastran_chan1",
    "SP.C48_nastran_chan2",
    "SP.C48_nastran_cross",
    "SP.C48_nastran_fcross",
    "SP.C48_nastran_dbox",
    "SP.C48_nastran_gbox",
    "SP.C48_nastran_h",
    "SP.C48_nastran_hat",
    "SP.C48_nastran_hexa",
    "SP.C48_nastran_i",
    "SP.C48_nastran_i1",
    "SP.C48_nastran_l",
    "SP.C48_nastran_tee",
    "SP.C48_nastran_tee1",
    "SP.C48_nastran_tee2",
    "SP.C48_nastran_zed",
    "SP.C48_nastran_refused",
    "SP.C48_angle",
    "SP.C48_angle_refused",
    "SP.C48_rectangular_hollow",
    "SP.C48_cee",
    "SP.C48_cee_short_lip",
    "SP.C48_cee_no_lip",
    "SP.C48_zed",
    "SP.C48_zed_short_lip",
    "SP.C48_zed_no_lip"
   ],
   "note": ""
  },
  {
   "property": "C49",
   "status": "partial",
   "theorems": [
    "SP.C49_layered_iff",
    "SP.C49_equal_layers_partial",
    "SP.C49_violated"
   ],
   "note": "Violated for layers of unequal thickness (C49_violated); C49_layered_iff says exactly when the layers fit, C49_equal_layers_partial is the positive case."
  },
  {
   "property": "C50",
   "status": "partial",
   "theorems": [
    "SP.C50_rectangular_partial",
    "SP.C50_side_bars_partial",
    "SP.C50_side_bars_violated",
    "SP.C50_tee_partial",
    "SP.C50_column_partial",
    "SP.C50_column_filled_partial",
    "SP.C50_column_violated",
    "SP.C50_circular_partial",
    "SP.C50_double_lift_core_a_double_partial",
    "SP.C50_double_lift_core_a_single_partial",
    "SP.C50_double_lift_core_b_single_partial",
    "SP.C50_double_lift_core_b_double_partial",
    "SP.C50_double_lift_core_b_violated",
    "SP.C50_rectangular_wall_partial",
    "SP.C50_cee_wall_double_partial",
    "SP.C50_cee_wall_single_partial",
    "SP.C50_tee_wall_double_partial",
    "SP.C50_tee_wall_single_partial",
    "SP.C50_single_lift_core_double_partial",
    "SP.C50_single_lift_core_single_partial",
    "SP.C50_stairwell_double_partial",
    "SP.C50_stairwell_single_partial"
   ],
   "note": "Violated by the inner pier spacing of double_lift_core_b, by side bars given an area but no diameter, and by concrete_column_section with fewer than two bars per side; proved for all other builders and arguments. The cut of the bars out of the concrete is in C85 and C86."
  },
  {
   "property": "C51",
   "status": "proved",
   "theorems": [
    "SP.C51_export",
    "SP.C51_totals",
    "SP.C51_success"
   ],
   "note": ""
  },
  {
   "property": "C52",
   "status": "partial",
   "theorems": [
    "SP.C52_only_materials_partial",
    "SP.C52_mapping_partial",
    "SP.C52_order_partial",
    "SP.C52_violated",
    "SP.C52_keyword_violated",
    "SP.C52_export_partial"
   ],
   "note": "Violated when one name is part of another (order of the dictionary matters) or part of a keyword; proved for names that occur nowhere else."
  },
  {
   "property": "C53",
   "status": "partial",
   "theorems": [
    "SP.C53_cgs_partial",
    "SP.C53_violated",
    "SP.C53_direct"
   ],
   "note": "Violated: the iterative solver's check compares the signed multiplier (C53_violated); proved for the direct solver and for non-negative multipliers."
  },
  {
   "property": "C54",
   "status": "proved",
   "theorems": [
    "SP.C54_translation"
   ],
   "note": ""
  },
  {
   "property": "C55",
   "status": "proved",
   "theorems": [
    "SP.C55_pairs",
    "SP.C55_symmetric"
   ],
   "note": ""
  },
  {
   "property": "C56",
   "status": "partial",
   "theorems": [
    "SP.C56_error_partial",
    "SP.C56_analysis_partial",
    "SP.C56_moments_partial",
    "SP.C56_violated",
    "SP.C56_negative_violated"
   ],
   "note": "Violated: the four point rule is not exact for the square of the warping function and can give a negative value (C56_violated, C56_negative_violated); the first moments of the warping function are proved exact. C56_error_partial, C56_analysis_partial: for every mesh the error of the second warping moment is at most 192 h^2 times the energy of the field, and that of the reported warping constant at most 192 h^2 (ixx + iyy - j), where h is the size of the largest element."
  },
  {
   "property": "C57",
   "status": "proved",
   "theorems": [
    "SP.C57_midnodes"
   ],
   "note": ""
  },
  {
   "property": "C58",
   "status": "partial",
   "theorems": [
    "SP.C58_failed_frame_violated",
    "SP.C58_failed_partial"
   ],
   "note": "Violated: a calculate_frame_properties call whose solve fails leaves j = 0.0 in the store (C58_failed_frame_violated). Proved for every call, failed or not: stress calls change nothing, plastic and warping calls touch only their own fields, and a getter that returned a value goes on returning one."
  },
  {
   "property": "C59",
   "status": "partial",
   "theorems": [
    "SP.C59_control_point_partial",
    "SP.C59_violated",
    "SP.C59_shift_points_violated"
   ],
   "note": "Violated for mirror_section about the centre and for shift_points; proved for shifts, rotations and reflections about a point."
  },
  {
   "property": "C60",
   "status": "partial",
   "theorems": [
    "SP.C60_violated",
    "SP.C60_bound_partial"
   ],
   "note": "Violated: a line is ended only after it has exceeded the width (C60_violated); the excess is bounded by the length of a tag plus two."
  },
  {
   "property": "C61",
   "status": "proved",
   "theorems": [
    "SP.C61_no_resultant"
   ],
   "note": ""
  },
  {
   "property": "C62",
   "status": "partial",
   "theorems": [
    "SP.C62_difference",
    "SP.C62_sum",
    "SP.C62_overlay_partial",
    "SP.C62_control_point",
    "SP.C62_violated",
    "SP.C62_empty_part_violated"
   ],
   "note": "Difference and sum proved with materials; | ^ & proved for regions and, for a single left operand, material. Violated for compounds (materials replaced by those of the right operand or the default, C62_violated) and for parts that are subtracted altogether (C62_empty_part_violated)."
  },
  {
   "property": "C63",
   "status": "partial",
   "theorems": [
    "SP.C63_from_points",
    "SP.C63_rejects",
    "SP.C63_violated"
   ],
   "note": "Proved for consecutive polygons that start at different points; violated (rejected) if they start at the same point (C63_violated). Polygon overlay and containment are shapely's."
  },
  {
   "property": "C64",
   "status": "proved",
   "theorems": [
    "SP.C64_shear_centre"
   ],
   "note": ""
  },
  {
   "property": "C65",
   "status": "proved",
   "theorems": [
    "SP.C65_rotation",
    "SP.C65_rotation_principal",
    "SP.C65_scaling"
   ],
   "note": ""
  },
  {
   "property": "C66",
   "status": "proved",
   "theorems": [
    "SP.C66_display",
    "SP.C66_transformed",
    "SP.C66_names",
    "SP.C66_geometric"
   ],
   "note": ""
  },
  {
   "property": "C67",
   "status": "proved",
   "theorems": [
    "SP.C67_keys",
    "SP.C67_parts",
    "SP.C67_totals",
    "SP.C67_zero"
   ],
   "note": ""
  },
  {
   "property": "C68",
   "status": "proved",
   "theorems": [
    "SP.C68_outside",
    "SP.C68_circles"
   ],
   "note": ""
  },
  {
   "property": "C69",
   "status": "partial",
   "theorems": [
    "SP.C69_geometry",
    "SP.C69_arguments",
    "SP.C69_direction_partial",
    "SP.C69_interior_reversed",
    "SP.C69_control_point",
    "SP.C69_erode",
    "SP.C69_erode_disjoint",
    "SP.C69_dilate_partial",
    "SP.C69_single_violated",
    "SP.C69_where_violated",
    "SP.C69_violated",
    "SP.C69_inclusion_violated"
   ],
   "note": "Proved: one geometry, arguments, control point, eroding a compound, dilating a compound of at least two parts none of which fills a hole. Violated: direction for where='interior' (C69_interior_reversed), one-part compounds, ignored where, inclusions. Buffering and overlay are shapely's, assumed exact."
  },
  {
   "property": "C70",
   "status": "proved",
   "theorems": [
    "SP.C70_length",
    "SP.C70_compound",
    "SP.C70_bound",
    "SP.C70_box",
    "SP.C70_moves",
    "SP.C70_rectangle",
    "SP.C70_circle"
   ],
   "note": ""
  },
  {
   "property": "C71",
   "status": "proved",
   "theorems": [
    "SP.C71_numbering",
    "SP.C71_reflection",
    "SP.C71_symmetry",
    "SP.C71_renumbered",
    "SP.C71_axis",
    "SP.C71_monosymmetry"
   ],
   "note": ""
  },
  {
   "property": "C72",
   "status": "proved",
   "theorems": [
    "SP.C72_rotation",
    "SP.C72_rotation_principal",
    "SP.C72_scaling",
    "SP.C72_translation"
   ],
   "note": ""
  },
  {
   "property": "C73",
   "status": "proved",
   "theorems": [
    "SP.C73_limit_moment",
    "SP.C73_translation",
    "SP.C73_scaling",
    "SP.C73_rotation",
    "SP.C73_symmetry"
   ],
   "note": ""
  },
  {
   "property": "C74",
   "status": "proved",
   "theorems": [
    "SP.C74_box_girder",
    "SP.C74_bulb",
    "SP.C74_i_girder",
    "SP.C74_tapered_i",
    "SP.C74_tapered_channel"
   ],
   "note": ""
  },
  {
   "property": "C75",
   "status": "partial",
   "theorems": [
    "SP.C75_super_t_partial",
    "SP.C75_violated"
   ],
   "note": "Violated: the faces of a web are not parallel and the web is thinner than t_w (C75_violated); errors, box, area, symmetry, slab and slopes are proved, and bounds of the web thickness."
  },
  {
   "property": "C76",
   "status": "partial",
   "theorems": [
    "SP.C76_nastran_hat1",
    "SP.C76_nastran_hat1_error",
    "SP.C76_nastran_box1_partial",
    "SP.C76_nastran_dbox_partial",
    "SP.C76_nastran_gbox_partial",
    "SP.C76_nastran_chan_partial",
    "SP.C76_nastran_chan1_partial",
    "SP.C76_nastran_chan2_partial",
    "SP.C76_nastran_cross_partial",
    "SP.C76_nastran_h_partial",
    "SP.C76_nastran_hat_partial",
    "SP.C76_nastran_hexa_partial",
    "SP.C76_nastran_i1_partial",
    "SP.C76_nastran_l_partial",
    "SP.C76_nastran_tee1_partial",
    "SP.C76_nastran_tee2_partial",
    "SP.C76_nastran_zed_partial",
    "SP.C76_nastran_bar",
    "SP.C76_nastran_box",
    "SP.C76_nastran_fcross",
    "SP.C76_nastran_tee_partial",
    "SP.C76_nastran_i_partial",
    "SP.C76_violated",
    "SP.C76_nastran_rod",
    "SP.C76_nastran_tube",
    "SP.C76_nastran_tube2"
   ],
   "note": "Holds for BAR, BOX, FCROSS and HAT1. For ROD, TUBE and TUBE2 the points are on the outline exactly if the number of points is a multiple of four; otherwise each is within pi d1 / n of a vertex. Violated for 17 sections drawn away from the documented origin (C76_violated and the last part of each partial theorem); there the offset to the outline is proved, for I only if the top flange is not wider than the bottom one."
  },
  {
   "property": "C77",
   "status": "proved",
   "theorems": [
    "SP.C77_principal_axes"
   ],
   "note": ""
  },
  {
   "property": "C78",
   "status": "proved",
   "theorems": [
    "SP.C78_overlap_warning",
    "SP.C78_no_warning"
   ],
   "note": ""
  },
  {
   "property": "C79",
   "status": "proved",
   "theorems": [
    "SP.C79_torsion",
    "SP.C79_shear_areas"
   ],
   "note": ""
  },
  {
   "property": "C80",
   "status": "proved",
   "theorems": [
    "SP.C80_points",
    "SP.C80_beam_theory",
    "SP.C80_yield_moment",
    "SP.C80_section_modulus"
   ],
   "note": ""
  },
  {
   "property": "C81",
   "status": "proved",
   "theorems": [
    "SP.C81_second_moments",
    "SP.C81_mass",
    "SP.C81_torsion",
    "SP.C81_plastic"
   ],
   "note": ""
  },
  {
   "property": "C82",
   "status": "proved",
   "theorems": [
    "SP.C82_torsion_bound"
   ],
   "note": ""
  },
  {
   "property": "C83",
   "status": "partial",
   "theorems": [
    "SP.C83_contours",
    "SP.C83_empty_list",
    "SP.C83_levels",
    "SP.C83_errors",
    "SP.C83_fitting_partial",
    "SP.C83_violated",
    "SP.C83_vectors"
   ],
   "note": "The levels do not fit the visible stresses in composite sections, because nodes outside a group count as 0 (C83_violated); proved for one group (C83_fitting_partial). material_list=[] plots everything (C83_empty_list). All other parts are proved for all sections."
  },
  {
   "property": "C84",
   "status": "partial",
   "theorems": [
    "SP.C84_centroids",
    "SP.C84_history",
    "SP.C84_warping_function",
    "SP.C84_mesh",
    "SP.C84_mask_partial",
    "SP.C84_mask_violated"
   ],
   "note": "With a mask that hides the first or last element the colours of plot_mesh are wrong (C84_mask_violated); proved for other masks and without a mask. All other parts are proved."
  },
  {
   "property": "C85",
   "status": "partial",
   "theorems": [
    "SP.C85_add_bar",
    "SP.C85_add_bars_partial",
    "SP.C85_column",
    "SP.C85_circular",
    "SP.C85_rectangular_partial",
    "SP.C85_tee_partial",
    "SP.C85_no_bars",
    "SP.C85_wall_partial",
    "SP.C85_wall_violated"
   ],
   "note": "Bars of one add_bars call and the two bars of a side pair may overlap and are then counted twice (C85_wall_violated); proved if these do not overlap. add_bar, columns and circular columns need no such condition. The walls and cores with openings are in C86. Subtraction is shapely's, assumed exact."
  },
  {
   "property": "C86",
   "status": "proved",
   "theorems": [
    "SP.C86_cee_wall",
    "SP.C86_tee_wall",
    "SP.C86_single_lift_core",
    "SP.C86_double_lift_core_a",
    "SP.C86_double_lift_core_b",
    "SP.C86_stairwell",
    "SP.C86_no_room",
    "SP.C86_rectangular_wall",
    "SP.C86_column",
    "SP.C86_rectangular_beam",
    "SP.C86_tee_beam"
   ],
   "note": ""
  },
  {
   "property": "C87",
   "status": "proved",
   "theorems": [
    "SP.C87_stress_function",
    "SP.C87_hill",
    "SP.C87_rectangles",
    "SP.C87_ring"
   ],
   "note": ""
  },
  {
   "property": "C88",
   "status": "proved",
   "theorems": [
    "SP.C88_limit_moment",
    "SP.C88_plastic",
    "SP.C88_rectangle",
    "SP.C88_rectangle_torsion",
    "SP.C88_rectangle_plastic",
    "SP.C88_i_section",
    "SP.C88_i_section_plastic",
    "SP.C88_tube",
    "SP.C88_sums",
    "SP.C88_parallel_axis",
    "SP.C88_moduli",
    "SP.C88_torsion"
   ],
   "note": ""
  },
  {
   "property": "C89",
   "status": "proved",
   "theorems": [
    "SP.C89_sums",
    "SP.C89_centroidal",
    "SP.C89_geometry",
    "SP.C89_centroid",
    "SP.C89_centroid_homogeneous",
    "SP.C89_centroid_single",
    "SP.C89_mesh",
    "SP.C89_ellipse",
    "SP.C89_hollow",
    "SP.C89_factors"
   ],
   "note": ""
  },
  {
   "property": "C90",
   "status": "proved",
   "theorems": [
    "SP.C90_contains_ellipse",
    "SP.C90_ellipse",
    "SP.C90_hollow",
    "SP.C90_limit"
   ],
   "note": ""
  },
  {
   "property": "C91",
   "status": "proved",
   "theorems": [
    "SP.C91_resultant",
    "SP.C91_shear_flow",
    "SP.C91_layered",
    "SP.C91_rectangle",
    "SP.C91_i_section",
    "SP.C91_symmetric"
   ],
   "note": ""
  },
  {
   "property": "C92",
   "status": "proved",
   "theorems": [
    "SP.C92_torsion",
    "SP.C92_shear",
    "SP.C92_grid",
    "SP.C92_rectangle",
    "SP.C92_rectangle_limit",
    "SP.C92_triangle"
   ],
   "note": ""
  },
  {
   "property": "C93",
   "status": "proved",
   "theorems": [
    "SP.C93_torsion",
    "SP.C93_shear",
    "SP.C93_rectangle"
   ],
   "note": ""
  },
  {
   "property": "C94",
   "status": "proved",
   "theorems": [
    "SP.C94_shear_centre",
    "SP.C94_monosymmetry",
    "SP.C94_warping_constant",
    "SP.C94_warping_sign",
    "SP.C94_shear_areas",
    "SP.C94_shear_mixed",
    "SP.C94_rectangle",
    "SP.C94_slab"
   ],
   "note": ""
  },
  {
   "property": "C95",
   "status": "partial",
   "theorems": [
    "SP.C95_unchanged",
    "SP.C95_node_count",
    "SP.C95_remeshed_partial",
    "SP.C95_modulus_partial",
    "SP.C95_material_violated",
    "SP.C95_fields_violated"
   ],
   "note": "The code violates the property: the warping analysis reads the geometry again (C95_material_violated: negative torsion constant after a change of material; C95_fields_violated: stress of the wrong sign after meshing again). Proved: unchanged geometry, another number of nodes (always raises), the same body meshed again (scalar results right), all moduli multiplied (exact value). Other changes of materials are not covered by a formula."
  },
  {
   "property": "C96",
   "status": "proved",
   "theorems": [
    "SP.C96_area",
    "SP.C96_sums",
    "SP.C96_centroidal",
    "SP.C96_elliptical"
   ],
   "note": ""
  },
  {
   "property": "C97",
   "status": "proved",
   "theorems": [
    "SP.C97_geometry",
    "SP.C97_compound",
    "SP.C97_string_labels",
    "SP.C97_mesh_info"
   ],
   "note": ""
  },
  {
   "property": "C98",
   "status": "partial",
   "theorems": [
    "SP.C98_from_3dm",
    "SP.C98_compound_from_3dm",
    "SP.C98_from_dxf",
    "SP.C98_encoding_partial",
    "SP.C98_encoding_violated"
   ],
   "note": "from_dxf and both from_3dm in full; from_rhino_encoding drops all polygons but the first (C98_encoding_violated), and is proved for a single one."
  },
  {
   "property": "C99",
   "status": "proved",
   "theorems": [
    "SP.C99_moved",
    "SP.C99_shift",
    "SP.C99_rotate",
    "SP.C99_mirror_x",
    "SP.C99_mirror_y",
    "SP.C99_compound_shift",
    "SP.C99_compound_rotate",
    "SP.C99_compound_mirror"
   ],
   "note": ""
  },
  {
   "property": "C100",
   "status": "proved",
   "theorems": [
    "SP.C100_shear_stress",
    "SP.C100_points",
    "SP.C100_rectangle"
   ],
   "note": ""
  },
  {
   "property": "C101",
   "status": "proved",
   "theorems": [
    "SP.C101_every_solution",
    "SP.C101_energy",
    "SP.C101_rectangle",
    "SP.C101_saint_venant"
   ],
   "note": ""
  },
  {
   "property": "C102",
   "status": "proved",
   "theorems": [
    "SP.C102_parabola",
    "SP.C102_grid"
   ],
   "note": ""
  },
  {
   "property": "C103",
   "status": "proved",
   "theorems": [
    "SP.C103_centroid",
    "SP.C103_shear_centre",
    "SP.C103_mixed",
    "SP.C103_rectangle",
    "SP.C103_rectangle_mixed"
   ],
   "note": ""
  },
  {
   "property": "C104",
   "status": "proved",
   "theorems": [
    "SP.C104_layered",
    "SP.C104_slab"
   ],
   "note": ""
  },
  {
   "property": "C105",
   "status": "proved",
   "theorems": [
    "SP.C105_energy",
    "SP.C105_layered",
    "SP.C105_mixed",
    "SP.C105_slab_mixed",
    "SP.C105_slab",
    "SP.C105_slab_energy"
   ],
   "note": ""
  },
  {
   "property": "C106",
   "status": "proved",
   "theorems": [
    "SP.C106_shear_centre",
    "SP.C106_only_point",
    "SP.C106_slab",
    "SP.C106_layered",
    "SP.C106_slab_centre"
   ],
   "note": ""
  },
  {
   "property": "C107",
   "status": "proved",
   "theorems": [
    "SP.C107_same_strains",
    "SP.C107_centre_of_twist",
    "SP.C107_least_warping",
    "SP.C107_warping_constant",
    "SP.C107_slab"
   ],
   "note": ""
  }
 ]
}