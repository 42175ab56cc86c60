{
 "claims": [
  {
   "property": "C01",
   "status": "proved",
   "theorems": [
    "Zeo.C01_inner",
    "Zeo.C01_outer",
    "Zeo.C01_outer_orthogonal",
    "Zeo.C01_outer_antisymm",
    "Zeo.C01_outer_sqrNorm",
    "Zeo.C01_grassmann_det",
    "Zeo.C01_triple",
    "Zeo.C01_jacobi",
    "Zeo.C01_2D",
    "Zeo.C01_linear"
   ],
   "note": ""
  },
  {
   "property": "C02",
   "status": "partial",
   "theorems": [
    "Zeo.C02_vec2",
    "Zeo.C02_vec2_distinct",
    "Zeo.C02_vec3",
    "Zeo.C02_vec3_outer",
    "Zeo.C02_vec3_proj",
    "Zeo.C02_mat2",
    "Zeo.C02_mat2_products",
    "Zeo.C02_mat2_distinct",
    "Zeo.C02_mat3",
    "Zeo.C02_mat3_products",
    "Zeo.C02_rotMat3",
    "Zeo.C02_mat3_distinct",
    "Zeo.C02_ep",
    "Zeo.C02_xform",
    "Zeo.C02_frame3",
    "Zeo.C02_frame2",
    "Zeo.C02_coord2",
    "Zeo.C02_vec6",
    "Zeo.C02_vec2_hazards",
    "Zeo.C02_vec2_interDiv_first",
    "Zeo.C02_vec3_hazards",
    "Zeo.C02_mat2_hazards",
    "Zeo.C02_mat3_hazards",
    "Zeo.C02_ep_hazards",
    "Zeo.C02_frame_hazards",
    "Zeo.C02_coord2_cascadeDRC",
    "Zeo.C02_coord2_cascadeDRC_iff",
    "Zeo.C02_coord2_hazards",
    "Zeo.C02_div",
    "Zeo.C02_vec6_sums",
    "Zeo.C02_vec6_div",
    "Zeo.C02_mat6_products",
    "Zeo.C02_mat6_add",
    "Zeo.C02_mat3_vec6",
    "Zeo.C02_mat3_vec6_hazard",
    "Zeo.C02_normalize",
    "Zeo.C02_twist"
   ],
   "note": "Complete classification of the modelled memory operations: which outputs may coincide with which operands (C02_vec2 ... C02_vec6), and for every other aliasing a memory on which the result is wrong (C02_*_hazards). Division, normalisation, difference quotients, 6D sums and products and the twist of a frame are in C02Six (C02_div, C02_normalize, C02_vec6_sums, C02_vec6_div, C02_mat6_products, C02_mat6_add, C02_mat3_vec6, C02_twist). The property fails where a hazard is shown."
  },
  {
   "property": "C03",
   "status": "proved",
   "theorems": [
    "Zeo.C03_vec2",
    "Zeo.C03_vec3",
    "Zeo.C03_vec6",
    "Zeo.C03_coord2",
    "Zeo.C03_mat2",
    "Zeo.C03_mat3",
    "Zeo.C03_mat6",
    "Zeo.C03_dif",
    "Zeo.C03_dif6",
    "Zeo.C03_difEP"
   ],
   "note": ""
  },
  {
   "property": "C04",
   "status": "proved",
   "theorems": [
    "Zeo.C04_vec3_success",
    "Zeo.C04_vec3_degenerate",
    "Zeo.C04_vec2_success",
    "Zeo.C04_vec2_degenerate",
    "Zeo.C04_proj2"
   ],
   "note": ""
  },
  {
   "property": "C05",
   "status": "partial",
   "theorems": [
    "Zeo.C05_balance_defined",
    "Zeo.C05_inv_partial",
    "Zeo.C05_solve_vec_partial",
    "Zeo.C05_solve_mat_partial",
    "Zeo.C05_exact",
    "Zeo.C05_singular_not_reported",
    "Zeo.C05_singular_garbage",
    "Zeo.C05_zero_row_nan"
   ],
   "note": "Correctness for invertible matrices; the NULL-on-singular promise is refuted (C05_singular_not_reported)."
  },
  {
   "property": "C06",
   "status": "proved",
   "theorems": [
    "Zeo.C06_mat3_products",
    "Zeo.C06_mat3_linear",
    "Zeo.C06_mat3_updates",
    "Zeo.C06_mat3_det_adj",
    "Zeo.C06_mat3_laws",
    "Zeo.C06_mat2_products",
    "Zeo.C06_mat2_linear",
    "Zeo.C06_mat2_laws"
   ],
   "note": ""
  },
  {
   "property": "C07",
   "status": "proved",
   "theorems": [
    "Zeo.C07_rejects",
    "Zeo.C07_rejects_singular",
    "Zeo.C07_inv",
    "Zeo.C07_solve_vec",
    "Zeo.C07_solve_mat"
   ],
   "note": ""
  },
  {
   "property": "C08",
   "status": "proved",
   "theorems": [
    "Zeo.C08_fromZYX",
    "Zeo.C08_fromZYZ",
    "Zeo.C08_fromEP",
    "Zeo.C08_fromAA",
    "Zeo.C08_fromAA_rodrigues",
    "Zeo.C08_mat2",
    "Zeo.C08_rotRPY",
    "Zeo.C08_rot"
   ],
   "note": ""
  },
  {
   "property": "C09",
   "status": "proved",
   "theorems": [
    "Zeo.C09_zyx",
    "Zeo.C09_zyz",
    "Zeo.C09_zyx_recover",
    "Zeo.C09_zyz_recover"
   ],
   "note": ""
  },
  {
   "property": "C10",
   "status": "partial",
   "theorems": [
    "Zeo.C10_roundtrip_partial",
    "Zeo.C10_roundtrip_exact",
    "Zeo.C10_length",
    "Zeo.C10_vec3Rot",
    "Zeo.C10_ofAA",
    "Zeo.C10_EPtoAA",
    "Zeo.C10_error_cascade",
    "Zeo.C10_flattened"
   ],
   "note": "Round trip within the tolerance for every rotation (C10_roundtrip_partial) and exactly away from the half turn; exactness for half turns whose attitude is off by less than the tolerance is not claimed."
  },
  {
   "property": "C11",
   "status": "proved",
   "theorems": [
    "Zeo.C11_rotVec",
    "Zeo.C11_norm",
    "Zeo.C11_cascade",
    "Zeo.C11_ofMat",
    "Zeo.C11_two_to_one",
    "Zeo.C11_vel",
    "Zeo.C11_vel'"
   ],
   "note": ""
  },
  {
   "property": "C12",
   "status": "proved",
   "theorems": [
    "Zeo.C12_unit",
    "Zeo.C12_endpoints",
    "Zeo.C12_speed",
    "Zeo.C12_mat"
   ],
   "note": ""
  },
  {
   "property": "C13",
   "status": "proved",
   "theorems": [
    "Zeo.C13_xform_inv",
    "Zeo.C13_xform_affine",
    "Zeo.C13_cascade",
    "Zeo.C13_inv",
    "Zeo.C13_closed",
    "Zeo.C13_chain",
    "Zeo.C13_isometry",
    "Zeo.C13_isometry_dist",
    "Zeo.C13_2D",
    "Zeo.C13_2D_opMul_not_cascade"
   ],
   "note": ""
  },
  {
   "property": "C14",
   "status": "proved",
   "theorems": [
    "Zeo.C14_mulVec",
    "Zeo.C14_mulMat",
    "Zeo.C14_mulTMat",
    "Zeo.C14_mulMatT",
    "Zeo.C14_linear",
    "Zeo.C14_row_col",
    "Zeo.C14_vec",
    "Zeo.C14_create_put",
    "Zeo.C14_ctor_ne_create"
   ],
   "note": ""
  },
  {
   "property": "C15",
   "status": "proved",
   "theorems": [
    "Zeo.C15_shift",
    "Zeo.C15_shift_adjoint",
    "Zeo.C15_shift_comp",
    "Zeo.C15_xform_adjoint",
    "Zeo.C15_xform",
    "Zeo.C15_chain"
   ],
   "note": ""
  },
  {
   "property": "C16",
   "status": "proved",
   "theorems": [
    "Zeo.C16_zyx_inverse",
    "Zeo.C16_zyx_singular",
    "Zeo.C16_zyz_inverse",
    "Zeo.C16_zyz_singular",
    "Zeo.C16_zyx_kinematics",
    "Zeo.C16_zyz_kinematics"
   ],
   "note": ""
  },
  {
   "property": "C17",
   "status": "proved",
   "theorems": [
    "Zeo.C17_constructors",
    "Zeo.C17_closest",
    "Zeo.C17_zero_iff",
    "Zeo.C17_sqrDist",
    "Zeo.C17_dist",
    "Zeo.C17_2D",
    "Zeo.C17_inside",
    "Zeo.C17_inside_plane",
    "Zeo.C17_upper_differ"
   ],
   "note": ""
  },
  {
   "property": "C18",
   "status": "proved",
   "theorems": [
    "Zeo.C18_closest",
    "Zeo.C18_dist",
    "Zeo.C18_inside",
    "Zeo.C18_xform",
    "Zeo.C18_toAABox",
    "Zeo.C18_ofAABox"
   ],
   "note": "The header's 'negative inside' distance is not what the code computes; the code's value (0 inside) is proved."
  },
  {
   "property": "C19",
   "status": "proved",
   "theorems": [
    "Zeo.C19_fromOrigin",
    "Zeo.C19_fromOrigin2",
    "Zeo.C19_closest",
    "Zeo.C19_closest2",
    "Zeo.C19_degenerate",
    "Zeo.C19_pointIsOn",
    "Zeo.C19_contigVert"
   ],
   "note": ""
  },
  {
   "property": "C20",
   "status": "partial",
   "theorems": [
    "Zeo.C20_fromOrigin",
    "Zeo.C20_closest_partial",
    "Zeo.C20_pointIsInside",
    "Zeo.C20_signedClosest",
    "Zeo.C20_contigVert",
    "Zeo.C20_small_triangle_wrong"
   ],
   "note": "Nearest point for every triangle whose edges are longer than the tolerance allows (C20_closest_partial); refuted for sub-tolerance triangles (C20_small_triangle_wrong)."
  },
  {
   "property": "C21",
   "status": "partial",
   "theorems": [
    "Zeo.C21_fromOrigin",
    "Zeo.C21_closest_partial",
    "Zeo.C21_degenerate",
    "Zeo.C21_tri2_fromOrigin",
    "Zeo.C21_tri2_closest"
   ],
   "note": "Nearest point for tetrahedra whose facets and edges are not degenerate with respect to the tolerance (C21_closest_partial); facets below the tolerance inherit the failure of C20."
  },
  {
   "property": "C22",
   "status": "proved",
   "theorems": [
    "Zeo.C22_distFromPoint",
    "Zeo.C22_closest",
    "Zeo.C22_pointIsInside",
    "Zeo.C22_disk",
    "Zeo.C22_from2",
    "Zeo.C22_from3",
    "Zeo.C22_from4",
    "Zeo.C22_from4_coplanar",
    "Zeo.C22_disk_from2",
    "Zeo.C22_disk_from3",
    "Zeo.C22_xform"
   ],
   "note": ""
  },
  {
   "property": "C23",
   "status": "proved",
   "theorems": [
    "Zeo.C23_barycenter",
    "Zeo.C23_circumcenter",
    "Zeo.C23_orthocenter",
    "Zeo.C23_incenter",
    "Zeo.C23_circumcenter2",
    "Zeo.C23_orthocenter2",
    "Zeo.C23_incenter2"
   ],
   "note": ""
  },
  {
   "property": "C24",
   "status": "partial",
   "theorems": [
    "Zeo.C24_planeProj",
    "Zeo.C24_lineProj",
    "Zeo.C24_line2Proj",
    "Zeo.C24_intersectPlane_partial",
    "Zeo.C24_intersectPlane_dangling",
    "Zeo.C24_parallelPlanes",
    "Zeo.C24_commonPerp",
    "Zeo.C24_pointIsOn_not_distance",
    "Zeo.C24_pointIsOn_sound",
    "Zeo.C24_intersectLine2",
    "Zeo.C24_commonPerpLine",
    "Zeo.C24_commonPerpLine_false",
    "Zeo.C24_twoPoints"
   ],
   "note": "Intersection of planes proved for a non-parallel pair; the returned line points into a local variable of the function (C24_intersectPlane_dangling), and the margin of zPlane3DPointIsOn is not a distance (C24_pointIsOn_not_distance). The common perpendicular as a line is proved for lines apart (C24_commonPerpLine) and refuted for lines that meet, where it has no direction (C24_commonPerpLine_false)."
  },
  {
   "property": "C25",
   "status": "partial",
   "theorems": [
    "Zeo.C25_cyl_closest_partial",
    "Zeo.C25_cyl_return",
    "Zeo.C25_cyl_negative_distance",
    "Zeo.C25_cyl_dist",
    "Zeo.C25_cyl_degenerate",
    "Zeo.C25_cyl_inside",
    "Zeo.C25_capsule_closest",
    "Zeo.C25_capsule_dist_partial",
    "Zeo.C25_capsule_inside_inverted",
    "Zeo.C25_capsule_inside_wrong",
    "Zeo.C25_capsule_degenerate",
    "Zeo.C25_cone_closest",
    "Zeo.C25_cone_inside"
   ],
   "note": "Nearest point proved for all; refuted: sign of the distance inside a cylinder (C25_cyl_negative_distance), inside test of the capsule (C25_capsule_inside_inverted, C25_capsule_inside_wrong)."
  },
  {
   "property": "C26",
   "status": "proved",
   "theorems": [
    "Zeo.C26_merge",
    "Zeo.C26_colChk",
    "Zeo.C26_colChk_complete",
    "Zeo.C26_intersect",
    "Zeo.C26_enlarge",
    "Zeo.C26_expand",
    "Zeo.C26_volume",
    "Zeo.C26_vert",
    "Zeo.C26_rect",
    "Zeo.C26_rect_inside"
   ],
   "note": ""
  },
  {
   "property": "C27",
   "status": "proved",
   "theorems": [
    "Zeo.C27_never_misses",
    "Zeo.C27_no_collision_disjoint",
    "Zeo.C27_aligned_exact"
   ],
   "note": ""
  },
  {
   "property": "C28",
   "status": "proved",
   "theorems": [
    "Zeo.C28_size_and_ids",
    "Zeo.C28_node_iff",
    "Zeo.C28_ids_nodup",
    "Zeo.C28_wellFormed",
    "Zeo.C28_add",
    "Zeo.C28_toArray",
    "Zeo.C28_toList",
    "Zeo.C28_part",
    "Zeo.C28_noMemory_false"
   ],
   "note": "For every sequence of insertions with memory. When memory runs out, searches stay correct, but the size is one too large and the array made from the tree has a vector that was never added (C28_noMemory_false)."
  },
  {
   "property": "C29",
   "status": "proved",
   "theorems": [
    "Zeo.C29_nn"
   ],
   "note": ""
  },
  {
   "property": "C30",
   "status": "proved",
   "theorems": [
    "Zeo.C30_vicinity",
    "Zeo.C30_vicinity_neg",
    "Zeo.C30_mem"
   ],
   "note": ""
  },
  {
   "property": "C31",
   "status": "proved",
   "theorems": [
    "Zeo.C31_points",
    "Zeo.C31_shape",
    "Zeo.C31_accept",
    "Zeo.C31_budget",
    "Zeo.C31_change_total",
    "Zeo.C31_boxes"
   ],
   "note": ""
  },
  {
   "property": "C32",
   "status": "partial",
   "theorems": [
    "Zeo.C32_nn_bound",
    "Zeo.C32_nn_partial",
    "Zeo.C32_nn_tolerance",
    "Zeo.C32_nn_empty",
    "Zeo.C32_not_exact_outside"
   ],
   "note": "Exact for points inside the region; the code also accepts points outside within the tolerance, where the answer is off by at most the proved bound (C32_nn_bound) and not exact (C32_not_exact_outside)."
  },
  {
   "property": "C33",
   "status": "partial",
   "theorems": [
    "Zeo.C33_vicinity_bound",
    "Zeo.C33_vicinity_partial",
    "Zeo.C33_vicinity_tolerance",
    "Zeo.C33_not_exact_outside"
   ],
   "note": "As C32: exact inside the region, bounded outside, refuted outside (C33_not_exact_outside)."
  },
  {
   "property": "C34",
   "status": "partial",
   "theorems": [
    "Zeo.C34_unify_keeps_partial",
    "Zeo.C34_unify_loses_points",
    "Zeo.C34_unify_example",
    "Zeo.C34_add_after_unify_missed",
    "Zeo.C34_nn_ignores_below"
   ],
   "note": "Holds for trees without thin octants (C34_unify_keeps_partial); refuted in general (C34_unify_loses_points, C34_add_after_unify_missed, C34_nn_ignores_below)."
  },
  {
   "property": "C35",
   "status": "partial",
   "theorems": [
    "Zeo.C35_shows_unique",
    "Zeo.C35_list",
    "Zeo.C35_list_accepts",
    "Zeo.C35_array_partial",
    "Zeo.C35_array_fill",
    "Zeo.C35_array_capacity",
    "Zeo.C35_array_rewind_add",
    "Zeo.C35_readonly",
    "Zeo.C35_list_needs_rewind",
    "Zeo.C35_loop",
    "Zeo.C35_wf",
    "Zeo.C35_toAddrList",
    "Zeo.C35_xform",
    "Zeo.C35_find",
    "Zeo.C35_mem_life",
    "Zeo.C35_mem_ball",
    "Zeo.C35_toAddrList_false"
   ],
   "note": "All kinds and all operations, except additions to an array after a rewind, for which the claim is false (C35_array_rewind_add). Memory: defined for all sequences of operations, and all memory is given back exactly if nothing is replaced while owned, whatever allocation fails (C35_mem_life); the local dataset of the bounding ball of shapes is given back on every path (C35_mem_ball). Refuted: toAddrList of the class calls the assignment instead of the conversion and loses the memory of the dataset (C35_toAddrList_false)."
  },
  {
   "property": "C36",
   "status": "proved",
   "theorems": [
    "Zeo.C36_nn",
    "Zeo.C36_nn2D",
    "Zeo.C36_vicinity",
    "Zeo.C36_vicinity2D",
    "Zeo.C36_supportMap",
    "Zeo.C36_supportMap2D"
   ],
   "note": ""
  },
  {
   "property": "C37",
   "status": "proved",
   "theorems": [
    "Zeo.C37_aabb",
    "Zeo.C37_smallest",
    "Zeo.C37_empty",
    "Zeo.C37_xform",
    "Zeo.C37_aabb2D"
   ],
   "note": ""
  },
  {
   "property": "C38",
   "status": "partial",
   "theorems": [
    "Zeo.C38_first_point_only",
    "Zeo.C38_single_partial",
    "Zeo.C38_pairs_missing",
    "Zeo.C38_origin_lost"
   ],
   "note": "Refuted for every first set of at least two points (C38_pairs_missing); holds for at most one point (C38_single_partial)."
  },
  {
   "property": "C39",
   "status": "proved",
   "theorems": [
    "Zeo.C39_loop",
    "Zeo.C39_terminates",
    "Zeo.C39_run",
    "Zeo.C39_first_try",
    "Zeo.C39_bounds",
    "Zeo.C39_bounds2D",
    "Zeo.C39_contacts",
    "Zeo.C39_smallest_two_contacts",
    "Zeo.C39_contacts2D",
    "Zeo.C39_smallest2D",
    "Zeo.C39_total2D",
    "Zeo.C39_direct_contains",
    "Zeo.C39_recursive",
    "Zeo.C39_recursive2D",
    "Zeo.C39_recursive2D_none",
    "Zeo.C39_recursive3D",
    "Zeo.C39_recursive2D_wrong"
   ],
   "note": ""
  },
  {
   "property": "C40",
   "status": "proved",
   "theorems": [
    "Zeo.C40_apex",
    "Zeo.C40_cone",
    "Zeo.C40_scale",
    "Zeo.C40_flip",
    "Zeo.C40_mirror",
    "Zeo.C40_xform",
    "Zeo.C40_open_depends"
   ],
   "note": ""
  },
  {
   "property": "C41",
   "status": "partial",
   "theorems": [
    "Zeo.C41_box",
    "Zeo.C41_cyl",
    "Zeo.C41_cone",
    "Zeo.C41_torus",
    "Zeo.C41_flip",
    "Zeo.C41_capsule",
    "Zeo.C41_capsule_unassigned",
    "Zeo.C41_sphere_filled",
    "Zeo.C41_sphere_not_closed",
    "Zeo.C41_sphere_partial",
    "Zeo.C41_lathe_filled",
    "Zeo.C41_lathe_not_closed",
    "Zeo.C41_div_one_overflow",
    "Zeo.C41_box_volume",
    "Zeo.C41_box_volume_rot",
    "Zeo.C41_cyl_volume",
    "Zeo.C41_cone_volume",
    "Zeo.C41_sphere_orientation",
    "Zeo.C41_torus_mesh",
    "Zeo.C41_torus_normals_flipped",
    "Zeo.C41_torus_normals_stale",
    "Zeo.C41_torus_stale_example"
   ],
   "note": "Box, cylinder, cone, capsule (divisions by 4) and torus are closed and consistently oriented; refuted for the sphere (C41_sphere_not_closed) and the lathe (C41_lathe_not_closed); torus facet normals may be stale (C41_torus_normals_stale)."
  },
  {
   "property": "C42",
   "status": "partial",
   "theorems": [
    "Zeo.C42_count",
    "Zeo.C42_corners",
    "Zeo.C42_area_partial",
    "Zeo.C42_convex",
    "Zeo.C42_square",
    "Zeo.C42_area_wrong",
    "Zeo.C42_extreme",
    "Zeo.C42_align"
   ],
   "note": "Number of triangles, corners, convex loops, and area whenever an ear is found at each step (C42_area_partial); refuted otherwise (C42_area_wrong)."
  },
  {
   "property": "C43",
   "status": "proved",
   "theorems": [
    "Zeo.C43_minimiser",
    "Zeo.C43_variance"
   ],
   "note": ""
  },
  {
   "property": "C44",
   "status": "partial",
   "theorems": [
    "Zeo.C44_in_range",
    "Zeo.C44_out_of_range_partial",
    "Zeo.C44_out_of_range_updates",
    "Zeo.C44_ident_stale",
    "Zeo.C44_geometry",
    "Zeo.C44_allocRegion"
   ],
   "note": "In-range updates proved; cells beside the border are updated by points outside the region (C44_out_of_range_updates), and the plane of a cell may be stale (C44_ident_stale)."
  },
  {
   "property": "C45",
   "status": "partial",
   "theorems": [
    "Zeo.C45_between_partial",
    "Zeo.C45_grid_point",
    "Zeo.C45_out_of_region",
    "Zeo.C45_no_bad_read",
    "Zeo.C45_last_row_bad_read",
    "Zeo.C45_last_column_wrong_cell",
    "Zeo.C45_last_column_effect",
    "Zeo.C45_flat_nan",
    "Zeo.C45_flat_nan_reachable",
    "Zeo.C45_flat_nan_example"
   ],
   "note": "Interior cells proved (C45_between_partial, C45_grid_point); refuted in the last row and column and for flat maps (C45_last_row_bad_read, C45_last_column_wrong_cell, C45_flat_nan)."
  },
  {
   "property": "C46",
   "status": "partial",
   "theorems": [
    "Zeo.C46_roundtrip",
    "Zeo.C46_roundtrip_hsv",
    "Zeo.C46_hue360_violation",
    "Zeo.C46_negative_hue_untouched"
   ],
   "note": "Round trip proved for hue in [0,360); the documented closed range includes 360, where the code fails (C46_hue360_violation)."
  },
  {
   "property": "C47",
   "status": "partial",
   "theorems": [
    "Zeo.C47_set",
    "Zeo.C47_mul",
    "Zeo.C47_blend",
    "Zeo.C47_grayscale",
    "Zeo.C47_hsv",
    "Zeo.C47_hex_partial",
    "Zeo.C47_hex_undefined",
    "Zeo.C47_name",
    "Zeo.C47_name_primaries",
    "Zeo.C47_unclamped_setters",
    "Zeo.C47_optic",
    "Zeo.C47_optic_blend",
    "Zeo.C47_string",
    "Zeo.C47_string_false"
   ],
   "note": "Clamping operations stay in [0,1]; setters that do not clamp are refuted by C47_unclamped_setters. Strings: C47_string; a ratio that does not begin with a digit is black (C47_string_false)."
  },
  {
   "property": "C48",
   "status": "proved",
   "theorems": [
    "Zeo.C48_axisStr",
    "Zeo.C48_axisFromStr",
    "Zeo.C48_axis_roundtrip",
    "Zeo.C48_axis_invalid",
    "Zeo.C48_dirStr",
    "Zeo.C48_dirFromStr",
    "Zeo.C48_dir_roundtrip",
    "Zeo.C48_dirRev"
   ],
   "note": ""
  },
  {
   "property": "C49",
   "status": "proved",
   "theorems": [
    "Zeo.C49_cone_volume_integral",
    "Zeo.C49_cone_barycenter_integral",
    "Zeo.C49_cone_inertia_integral",
    "Zeo.C49_apex",
    "Zeo.C49_volume_integral",
    "Zeo.C49_barycenter_integral",
    "Zeo.C49_inertia_integral",
    "Zeo.C49_symmetric",
    "Zeo.C49_parallel_axis",
    "Zeo.C49_mass",
    "Zeo.C49_shape_inertia",
    "Zeo.C49_barycenter_xform",
    "Zeo.C49_baryInertia_xform",
    "Zeo.C49_zero_volume"
   ],
   "note": ""
  },
  {
   "property": "C50",
   "status": "proved",
   "theorems": [
    "Zeo.C50_DH",
    "Zeo.C50_DH_point",
    "Zeo.C50_fromPos",
    "Zeo.C50_vec6_roundtrip",
    "Zeo.C50_views",
    "Zeo.C50_twist_error",
    "Zeo.C50_lookAt"
   ],
   "note": ""
  },
  {
   "property": "C51",
   "status": "partial",
   "theorems": [
    "Zeo.C51_empty",
    "Zeo.C51_result",
    "Zeo.C51_contact_near",
    "Zeo.C51_contact",
    "Zeo.C51_nearest_partial",
    "Zeo.C51_point",
    "Zeo.C51_return_partial",
    "Zeo.C51_false_contact",
    "Zeo.C51_missed_contact"
   ],
   "note": "Witness points, separation bound and the full-simplex case are proved for every run with 0<=tolerance<=1/4; nearest pair and termination at zero tolerance (C51_nearest_partial). The Boolean claim is false in the code and refuted for every tolerance in (0,1/10): C51_false_contact, C51_missed_contact. At zero tolerance the return value is characterised by C51_return_partial; empty sets are a NULL dereference (C51_empty)."
  },
  {
   "property": "C52",
   "status": "partial",
   "theorems": [
    "Zeo.C52_edge_plane",
    "Zeo.C52_intersectEdgePlane",
    "Zeo.C52_tri_plane",
    "Zeo.C52_intersectTriPlane",
    "Zeo.C52_four_points",
    "Zeo.C52_edge_tri",
    "Zeo.C52_edge_tri_check",
    "Zeo.C52_edge_tri_missed",
    "Zeo.C52_tri_sound",
    "Zeo.C52_tri_complete_partial",
    "Zeo.C52_tri_overflow",
    "Zeo.C52_tri_missed",
    "Zeo.C52_planeBox",
    "Zeo.C52_planeBox_complete_partial",
    "Zeo.C52_planeBox_missed",
    "Zeo.C52_triBox_plane_dead",
    "Zeo.C52_triBox_sound",
    "Zeo.C52_triBox_missed",
    "Zeo.C52_sphere_aabox",
    "Zeo.C52_sphere_box"
   ],
   "note": "Soundness of every routine, completeness for edge/plane, triangle/plane and sphere/box, and the bound of six plane/box points are proved; completeness for two triangles and plane/box under stated conditions (_partial). The rest is false in the code and refuted: four points overrun v[2][3] (C52_four_points), zColChkTri3D overruns ip[2] on equal triangles (C52_tri_overflow), coplanar overlaps are missed (C52_edge_tri_missed, C52_tri_missed), a plane through corners is missed (C52_planeBox_missed), a large triangle cutting a box is missed (C52_triBox_plane_dead, C52_triBox_missed)."
  },
  {
   "property": "C53",
   "status": "partial",
   "theorems": [
    "Zeo.C53_optic",
    "Zeo.C53_optic_toZTK_partial",
    "Zeo.C53_optic_toZTK_wrong",
    "Zeo.C53_optic_simple_wrong",
    "Zeo.C53_round",
    "Zeo.C53_axes",
    "Zeo.C53_axes_unit",
    "Zeo.C53_ecyl",
    "Zeo.C53_ecyl_same",
    "Zeo.C53_ecyl_ref_first",
    "Zeo.C53_foreign_keys",
    "Zeo.C53_ph",
    "Zeo.C53_ph_read",
    "Zeo.C53_ph_negative",
    "Zeo.C53_ph_face_first",
    "Zeo.C53_shape",
    "Zeo.C53_shape_read"
   ],
   "note": "Round trips of optical information (FPrintZTK), spheres, cylinders, capsules, cones, boxes, ellipsoids, elliptic cylinders, polyhedra and named shapes, and validity of whatever is read, are proved. zOpticalInfoToZTK loses black colours and transparency (C53_optic_toZTK_wrong); negative face indices are not rejected (C53_ph_negative); key order matters for elliptic cylinders and polyhedra. Loops, prisms and pyramids are in C88, imports in C93, transformation keys in C86."
  },
  {
   "property": "C54",
   "status": "proved",
   "theorems": [
    "Zeo.C54_map_identification",
    "Zeo.C54_ident_loop",
    "Zeo.C54_form",
    "Zeo.C54_travs",
    "Zeo.C54_zRange",
    "Zeo.C54_new_map",
    "Zeo.C54_ident_one"
   ],
   "note": ""
  },
  {
   "property": "C55",
   "status": "partial",
   "theorems": [
    "Zeo.C55_contigVert",
    "Zeo.C55_aabb",
    "Zeo.C55_aabb_loose",
    "Zeo.C55_pointIsInside",
    "Zeo.C55_hull_inside",
    "Zeo.C55_closest",
    "Zeo.C55_closest_convex",
    "Zeo.C55_coplanar_wrong",
    "Zeo.C55_surface_wrong",
    "Zeo.C55_inside_nonconvex"
   ],
   "note": "Proved: nearest vertex (C55_contigVert); the box is the smallest around the vertices and the origin (C55_aabb); inside test and nearest point for convex polyhedra covered by their faces (C55_pointIsInside, C55_hull_inside, C55_closest_convex), and what the nearest-point loop delivers for any mesh (C55_closest). Refuted: the box is not the smallest around the polyhedron (C55_aabb_loose); a point on the surface can get a positive distance when faces are coplanar (C55_coplanar_wrong, C55_surface_wrong); the inside test rejects interior points of non-convex solids (C55_inside_nonconvex)."
  },
  {
   "property": "C56",
   "status": "partial",
   "theorems": [
    "Zeo.C56_cyl_volume",
    "Zeo.C56_cyl_inertia",
    "Zeo.C56_cone_volume",
    "Zeo.C56_cone_inertia",
    "Zeo.C56_capsule_volume",
    "Zeo.C56_capsule_height",
    "Zeo.C56_capsule_inertia",
    "Zeo.C56_sphere",
    "Zeo.C56_box",
    "Zeo.C56_ellips",
    "Zeo.C56_ecyl",
    "Zeo.C56_ecyl_ref",
    "Zeo.C56_ecyl_noref_wrong"
   ],
   "note": "All seven solids proved. The last clause is refuted: without a reference vector the second radial vector of an elliptic cylinder has the length of the axis (C56_ecyl_noref_wrong); with one it is proved (C56_ecyl_ref)."
  },
  {
   "property": "C57",
   "status": "partial",
   "theorems": [
    "Zeo.C57_ellipse_closest",
    "Zeo.C57_ellipse_inside",
    "Zeo.C57_ellipse_margin_not_distance",
    "Zeo.C57_ellips_inside",
    "Zeo.C57_ellips_closest",
    "Zeo.C57_ecyl_closest",
    "Zeo.C57_ecyl_inside",
    "Zeo.C57_ecyl_noref_inside_wrong"
   ],
   "note": "Proved for exact roots (the ZM root finder is a parameter). The last clause is refuted: an elliptic cylinder created without a reference vector accepts points outside it (C57_ecyl_noref_inside_wrong). The margin is not a distance (C57_ellipse_margin_not_distance)."
  },
  {
   "property": "C58",
   "status": "partial",
   "theorems": [
    "Zeo.C58_xform",
    "Zeo.C58_xformInv",
    "Zeo.C58_roundtrip",
    "Zeo.C58_mirror",
    "Zeo.C58_mirror_box",
    "Zeo.C58_mirror_twice",
    "Zeo.C58_volume",
    "Zeo.C58_mirror_ecyl",
    "Zeo.C58_mirror_lefthanded"
   ],
   "note": "All point-set, round-trip and volume clauses proved for all seven shapes; elliptic cylinders keep their handedness (C58_mirror_ecyl). The last clause is false in the code for boxes and ellipsoids: the mirrored axes are orthonormal with determinant -1 (C58_mirror_lefthanded)."
  },
  {
   "property": "C59",
   "status": "partial",
   "theorems": [
    "Zeo.C59_symEig",
    "Zeo.C59_residual",
    "Zeo.C59_eigenvalue",
    "Zeo.C59_symEigMin",
    "Zeo.C59_svd",
    "Zeo.C59_svd_columns",
    "Zeo.C59_svd_singular_wrong",
    "Zeo.C59_svd_rank_wrong"
   ],
   "note": "Eigensystem, minimum eigenvector, reconstruction, and the columns of the decomposition are proved. Refuted: v is not orthogonal for any singular matrix (C59_svd_singular_wrong), and the returned rank is not the number of non-zero singular values, because their squares are compared with the tolerance (C59_svd_rank_wrong)."
  },
  {
   "property": "C60",
   "status": "proved",
   "theorems": [
    "Zeo.C60_empty",
    "Zeo.C60_barycenter",
    "Zeo.C60_cov",
    "Zeo.C60_baryCov",
    "Zeo.C60_pca",
    "Zeo.C60_baryPCA",
    "Zeo.C60_pcaFrame",
    "Zeo.C60_meanNormal",
    "Zeo.C60_meanPlane"
   ],
   "note": "All routines of src/zeo_vec3d_pca.c, for positive tolerance (mean plane: at most 1/2)."
  },
  {
   "property": "C61",
   "status": "partial",
   "theorems": [
    "Zeo.C61_ident_null",
    "Zeo.C61_ident_similar",
    "Zeo.C61_ident_rigid",
    "Zeo.C61_ident_scale_wrong",
    "Zeo.C61_ident_mirror_wrong",
    "Zeo.C61_ident_coplanar_wrong",
    "Zeo.C61_ident_three_points_wrong",
    "Zeo.C61_normal_vicinity",
    "Zeo.C61_normalVecTree",
    "Zeo.C61_normal_zero_radius",
    "Zeo.C61_icp",
    "Zeo.C61_icp_translation",
    "Zeo.C61_icp_mem_false"
   ],
   "note": "Proved: normals for positive radius, error reports, identification of rotation and position for sets that spread in every direction (C61_ident_rigid, C61_ident_similar), error bound of the iteration, exact translations. Refuted: three points or coplanar sets never give a rotation (C61_ident_three_points_wrong, C61_ident_coplanar_wrong), mirrored sets give a reflection (C61_ident_mirror_wrong), scaled sets are misplaced (C61_ident_scale_wrong), radius 0 gives uninitialised normals (C61_normal_zero_radius). The octree variant of the normals is in C84. Memory: every registration that reaches its tolerance loses its two lists of samples (C61_icp_mem_false)."
  },
  {
   "property": "C62",
   "status": "partial",
   "theorems": [
    "Zeo.C62_closest_partial",
    "Zeo.C62_multi_min",
    "Zeo.C62_multi_closest_partial",
    "Zeo.C62_multi_closest_wrong",
    "Zeo.C62_inside_partial",
    "Zeo.C62_multi_inside_partial",
    "Zeo.C62_multi_inside_wrong",
    "Zeo.C62_mass",
    "Zeo.C62_xform",
    "Zeo.C62_xform_type",
    "Zeo.C62_mirror",
    "Zeo.C62_contigVert",
    "Zeo.C62_contigVert_defined",
    "Zeo.C62_boundingBall",
    "Zeo.C62_grid",
    "Zeo.C62_octree_partial"
   ],
   "note": "Proved for proper shapes at regular points (C62_closest_partial, C62_multi_closest_partial), inside tests without capsules, mass properties of all types but polyhedra (those: C40, C49), motions, mirror images, nearest vertices, bounding balls. Refuted: the negative distance of a cylinder wins over nearer shapes (C62_multi_closest_wrong), a capsule inverts the inside test (C62_multi_inside_wrong). Octree: the points before the octants are unified (C62_octree_partial, C34)."
  },
  {
   "property": "C63",
   "status": "partial",
   "theorems": [
    "Zeo.C63_vertices",
    "Zeo.C63_order",
    "Zeo.C63_degenerate",
    "Zeo.C63_exact",
    "Zeo.C63_convexLoop",
    "Zeo.C63_ph",
    "Zeo.C63_hullPH",
    "Zeo.C63_closest_sound",
    "Zeo.C63_closest_few",
    "Zeo.C63_closest_inside",
    "Zeo.C63_closest_partial",
    "Zeo.C63_closest_triangle",
    "Zeo.C63_closest_wrong"
   ],
   "note": "Hull and polyhedron proved for all planar sets in exact arithmetic (tolerance zero) and for sets resolved by the tolerance. Nearest point: every finite answer is a point of the hull with its distance (C63_closest_sound) and is the nearest one for points of the plane outside the hull if the edge from the last corner to the first does not face the point or at most two edges do (C63_closest_partial). Refuted: infinity instead of zero inside and above the hull (C63_closest_inside); the early stop misses the nearest edge (C63_closest_wrong). The sort routine of ZEDA is a parameter."
  },
  {
   "property": "C64",
   "status": "partial",
   "theorems": [
    "Zeo.C64_polar",
    "Zeo.C64_angle2",
    "Zeo.C64_angle3",
    "Zeo.C64_aaError_partial",
    "Zeo.C64_aaError_opposite",
    "Zeo.C64_mat2",
    "Zeo.C64_coord2",
    "Zeo.C64_isRot",
    "Zeo.C64_aaErr",
    "Zeo.C64_sphere_ellips",
    "Zeo.C64_cyl_ecyl"
   ],
   "note": "Everything holds except zVec3DAAError: for opposite vectors it reports no error (C64_aaError_opposite), so the claim is proved only when the cross product is outside of the tolerance (C64_aaError_partial)."
  },
  {
   "property": "C65",
   "status": "partial",
   "theorems": [
    "Zeo.C65_empty",
    "Zeo.C65_false",
    "Zeo.C65_true_partial",
    "Zeo.C65_depth",
    "Zeo.C65_ends_partial",
    "Zeo.C65_contact",
    "Zeo.C65_hang",
    "Zeo.C65_false_contact"
   ],
   "note": "Proved for every run: a false answer (C65_false), the depth bound (C65_depth), the NULL dereference for an empty set (C65_empty). In general position (Spec.GenPos): a true answer (C65_true_partial), the refinement ends (C65_ends_partial), zMPRDepth agrees and its point is common to both hulls (C65_contact). Refuted for every tolerance in (0,1/1000]: the search of the first portal runs for ever (C65_hang), a contact is reported for disjoint hulls (C65_false_contact)."
  },
  {
   "property": "C66",
   "status": "proved",
   "theorems": [
    "Zeo.C66_sound",
    "Zeo.C66_exact",
    "Zeo.C66_closed",
    "Zeo.C66_toPH",
    "Zeo.C66_roundtrip",
    "Zeo.C66_inBox"
   ],
   "note": "Allocation is assumed to succeed. zPH3D2BREPInBox keeps the faces that zColChkTriAABox3D reports (C66_inBox); what that test misses is in C52_triBox_missed and C68_side_missed."
  },
  {
   "property": "C67",
   "status": "partial",
   "theorems": [
    "Zeo.C67_trunc",
    "Zeo.C67_trunc_zero",
    "Zeo.C67_untouched",
    "Zeo.C67_gone",
    "Zeo.C67_closed",
    "Zeo.C67_truncPH",
    "Zeo.C67_phTrunc",
    "Zeo.C67_degenerate",
    "Zeo.C67_mem",
    "Zeo.C67_mem_false"
   ],
   "note": "Everything holds for one plane (C67_trunc, C67_trunc_zero, C67_untouched, C67_gone, C67_closed) and for polyhedra with unit normal vectors (C67_truncPH, C67_phTrunc). Refuted for a polyhedron with a face without a plane: the uninitialised plane is used (C67_degenerate). Memory, with allocation failing anywhere: if truncation succeeds, exactly the arrays of the result are in use in addition (C67_mem); refuted: if it fails while cutting, all cells of the boundary representation are lost (C67_mem_false)."
  },
  {
   "property": "C68",
   "status": "partial",
   "theorems": [
    "Zeo.C68_merge",
    "Zeo.C68_merge_sound_iff",
    "Zeo.C68_intersect",
    "Zeo.C68_intersect_zero",
    "Zeo.C68_fast_partial",
    "Zeo.C68_side_missed",
    "Zeo.C68_fast_boxes",
    "Zeo.C68_fast_cubes",
    "Zeo.C68_mem",
    "Zeo.C68_mem_false",
    "Zeo.C68_dangling",
    "Zeo.C68_self"
   ],
   "note": "Proved: the faces and vertices of the merged solid (C68_merge), the surface of the intersection (C68_intersect, C68_intersect_zero), what the fast version returns is part of it (C68_fast_partial). Refuted: the merged solid is sound exactly if no edge has one end in common (C68_merge_sound_iff, C68_dangling: pointer to a freed vertex); the intersection of a convex polyhedron with itself has each face twice and twice the volume (C68_self); the fast version returns nothing for two overlapping axis-aligned boxes (C68_fast_boxes, C68_fast_cubes). Memory, with allocation failing anywhere: if the intersection succeeds, exactly the arrays of the result are in use in addition (C68_mem); refuted: if it fails while cutting, all cells of both boundary representations are lost (C68_mem_false)."
  },
  {
   "property": "C69",
   "status": "proved",
   "theorems": [
    "Zeo.C69_some",
    "Zeo.C69_mesh",
    "Zeo.C69_faces",
    "Zeo.C69_hull",
    "Zeo.C69_vertices",
    "Zeo.C69_surface",
    "Zeo.C69_exact",
    "Zeo.C69_margin",
    "Zeo.C69_moment",
    "Zeo.C69_line",
    "Zeo.C69_flat",
    "Zeo.C69_null",
    "Zeo.C69_coarse"
   ],
   "note": "For every finite list of points that the tolerance resolves (Spec.Resolves): every list at tolerance zero (C69_exact), every list at all tolerances up to some positive one (C69_margin). Outside of that range the hull can be lost (C69_coarse). NULL just for points on a line is proved at tolerance zero (C69_null); at a resolved positive tolerance points on a line give NULL (C69_line) and points in a plane give the result of the planar algorithm (C69_flat, see C63). At tolerance zero a vertex that is not extreme is possible when four points are in a plane, so C69_vertices asks for a positive tolerance or no four points in a plane."
  },
  {
   "property": "C70",
   "status": "proved",
   "theorems": [
    "Zeo.C70_box",
    "Zeo.C70_null",
    "Zeo.C70_height",
    "Zeo.C70_rect",
    "Zeo.C70_volume_wrong"
   ],
   "note": "At zero tolerance, for every point set: NULL just for points on a line, the box encloses the data and is tight at all six sides, right-handed axes, least height among supporting planes with three points, least base among all directions across that axis (C70_box, C70_null, C70_height, C70_rect). The box of a regular tetrahedron has at least twice the volume of a cube that encloses it (C70_volume_wrong)."
  },
  {
   "property": "C71",
   "status": "partial",
   "theorems": [
    "Zeo.C71_delaunay",
    "Zeo.C71_rest",
    "Zeo.C71_margin",
    "Zeo.C71_resolves",
    "Zeo.C71_small",
    "Zeo.C71_refused",
    "Zeo.C71_fails",
    "Zeo.C71_hull_wrong",
    "Zeo.C71_empty",
    "Zeo.C71_single",
    "Zeo.C71_mem",
    "Zeo.C71_mem_false"
   ],
   "note": "For all sets of different points, if the bounding disk has the data within 3/2 of its radius and the tolerance resolves them: success within 4n+5 rounds of repair per point, ccw triangles with disjoint interiors and empty circles, completeness for circles that also have the corners of the enclosing triangle outside, consistent neighbours (C71_delaunay, C71_rest); small tolerances always resolve (C71_margin, C71_small). Refuted: success on all data (C71_fails, from the wrong bounding disk of C39_recursive2D_wrong; C71_refused in general), filling of the hull (C71_hull_wrong), neighbour pointers (always some lead to freed triangles, third part of C71_rest), one point (C71_single), no points (C71_empty). Memory, with allocation failing anywhere: the stack of edges is given back and the list can be destroyed if all or none of the three triangles of each point can be allocated (C71_mem); refuted: if some but not all can, the list that is left holds freed cells (C71_mem_false)."
  },
  {
   "property": "C72",
   "status": "partial",
   "theorems": [
    "Zeo.C72_voronoi",
    "Zeo.C72_small",
    "Zeo.C72_near",
    "Zeo.C72_uncovered",
    "Zeo.C72_false",
    "Zeo.C72_fails",
    "Zeo.C72_empty",
    "Zeo.C72_mem",
    "Zeo.C72_mem_false",
    "Zeo.C72_nodes_false"
   ],
   "note": "For all sets of different points, if the bounding disk has the data within 3/2 of its radius and the tolerance resolves them: success, one cell per point in order, closed convex clockwise polygons on bisectors, spanning exactly the cells of the Voronoi diagram of the data and the three corners of the enclosing triangle (C72_voronoi; small tolerances C72_small); near the data, in particular in a bounding disk that has the data in it, these are the cells of the data alone (C72_near). Refuted: cells of the data alone in the whole plane (C72_uncovered), success on all data (C72_fails); no data is undefined (C72_empty). Memory, with allocation failing anywhere: the triangulation is given back and destroying the list gives back the rest if all or none of the three triangles of each point can be allocated (C72_mem); refuted: otherwise the diagram frees triangles twice (C72_mem_false), and without memory for the nodes it reports success with cells without nodes (C72_nodes_false)."
  },
  {
   "property": "C73",
   "status": "partial",
   "theorems": [
    "Zeo.C73_hull",
    "Zeo.C73_corner",
    "Zeo.C73_xform",
    "Zeo.C73_xformInv",
    "Zeo.C73_mirror",
    "Zeo.C73_copy",
    "Zeo.C73_alloc",
    "Zeo.C73_clone",
    "Zeo.C73_tangent",
    "Zeo.C73_ph",
    "Zeo.C73_closest_partial",
    "Zeo.C73_closest_param_false",
    "Zeo.C73_closest_false",
    "Zeo.C73_ph_false",
    "Zeo.C73_text_partial",
    "Zeo.C73_text_curve_false"
   ],
   "note": "All surfaces with sound knots and weights above the tolerance, all parameters: hull (C73_hull), corners (C73_corner), tangents and normal off the knots (C73_tangent; the tangents are the velocities times the sum of weights, same directions), transformations (C73_xform, C73_xformInv, C73_mirror), copy, clone, allocation, tessellation (C73_ph), text of surfaces of positive orders (C73_text_partial), and of the closest point that it is on the surface at the stated distance (C73_closest_partial). Refuted: nearest point (C73_closest_false: a stationary point is accepted), parameters of the returned point (C73_closest_param_false), tessellation with a zero weight (C73_ph_false), text of curves (C73_text_curve_false)."
  },
  {
   "property": "C74",
   "status": "partial",
   "theorems": [
    "Zeo.C74_ellips",
    "Zeo.C74_sphere",
    "Zeo.C74_torus",
    "Zeo.C74_cone",
    "Zeo.C74_ecyl_partial",
    "Zeo.C74_ecyl_false",
    "Zeo.C74_cyl_false",
    "Zeo.C74_box_partial",
    "Zeo.C74_box_false"
   ],
   "note": "Sphere, ellipsoid, torus and cone: the surface is exactly the boundary (C74_sphere, C74_ellips, C74_torus, C74_cone). Elliptic cylinder, cylinder and box: only the two ends (C74_ecyl_partial, C74_box_partial); that the side is there is refuted (C74_ecyl_false, C74_cyl_false, C74_box_false): a double knot at order 1 makes the surface jump from end to end."
  },
  {
   "property": "C75",
   "status": "partial",
   "theorems": [
    "Zeo.C75_dual",
    "Zeo.C75_base",
    "Zeo.C75_base_inside",
    "Zeo.C75_shallow",
    "Zeo.C75_disjoint",
    "Zeo.C75_intersect_partial",
    "Zeo.C75_small_partial",
    "Zeo.C75_contains",
    "Zeo.C75_clamp_false",
    "Zeo.C75_collision_partial",
    "Zeo.C75_contact",
    "Zeo.C75_ch_init",
    "Zeo.C75_mem"
   ],
   "note": "The result is exactly the intersection if the base point is at least 1e-5 (ZEO_TRI3D_DUALXFORM_MIN_OFFSET) behind every face (C75_intersect_partial, C75_small_partial, for every result of zGJKDepth, which is a parameter here; see C76 for the depth itself); in general it contains the intersection and exceeds it by at most 1e-5 at each face (C75_dual, C75_contains). That it is always the intersection is refuted (C75_clamp_false). NULL for polyhedra that do not overlap or are shallow: proved (C75_disjoint, C75_shallow). zColChkPH3D: C75_collision_partial, C75_contact. Memory: the local polyhedron is always initialised when it is destroyed (C75_ch_init), and the dataset is given back on every path (C75_mem)."
  },
  {
   "property": "C76",
   "status": "partial",
   "theorems": [
    "Zeo.C76_linScale",
    "Zeo.C76_depth_partial",
    "Zeo.C76_shortest",
    "Zeo.C76_first_false",
    "Zeo.C76_intersect_false",
    "Zeo.C76_intersect_partial"
   ],
   "note": "At tolerance zero, for overlapping sets of which no three differences have the origin in their triangle, zGJKDepth returns true with the exact depth and ends (C76_depth_partial, C76_shortest). That overlapping sets always have a depth is refuted: with equal first points zGJKDepth returns false and zIntersectPH3D returns NULL, e.g. for a polyhedron and itself (C76_first_false, C76_intersect_false). zIntersectPH3D with this depth: C76_intersect_partial. zTri3DLinScale: C76_linScale. Open: positive tolerances; the start from two or three slots."
  },
  {
   "property": "C77",
   "status": "partial",
   "theorems": [
    "Zeo.C77_read_partial",
    "Zeo.C77_write_read_partial",
    "Zeo.C77_first_vertex_false",
    "Zeo.C77_no_name_false",
    "Zeo.C77_empty_name_false",
    "Zeo.C77_few_vertices_undefined",
    "Zeo.C77_many_vertices",
    "Zeo.C77_empty_null",
    "Zeo.C77_no_end_null",
    "Zeo.C77_merge_false",
    "Zeo.C77_binary_partial",
    "Zeo.C77_short_name_undefined",
    "Zeo.C77_binary_empty_null",
    "Zeo.C77_truncated_false"
   ],
   "note": "Text and binary files are read and written back faithfully (C77_read_partial, C77_write_read_partial, C77_binary_partial) when the uninitialised point of the empty tree does not happen to be the first vertex; otherwise the first vertex is lost (C77_first_vertex_false). Also refuted: a solid without a name, or written with an empty name, loses its first facet (C77_no_name_false, C77_empty_name_false); a facet with two vertices is read with uninitialised coordinates (C77_few_vertices_undefined); vertices within the tolerance may both be kept (C77_merge_false); a truncated binary file is filled with copies of the last facet (C77_truncated_false); writing a binary file reads 80 bytes from the name (C77_short_name_undefined). Splitting a file into words and parsing numbers belong to ZEDA and are outside the model."
  },
  {
   "property": "C78",
   "status": "partial",
   "theorems": [
    "Zeo.C78_read_partial",
    "Zeo.C78_write_read",
    "Zeo.C78_write_read_binary",
    "Zeo.C78_polygon_false",
    "Zeo.C78_fan",
    "Zeo.C78_no_z_false",
    "Zeo.C78_range_grid_false",
    "Zeo.C78_index_undefined",
    "Zeo.C78_faces_first_undefined",
    "Zeo.C78_property_first_undefined",
    "Zeo.C78_null",
    "Zeo.C78_vertex_index_null",
    "Zeo.C78_corners_undefined",
    "Zeo.C78_elements"
   ],
   "note": "Files of triangles are read faithfully for all columns, types, encodings and byte orders (C78_read_partial) and written files are read back (C78_write_read, C78_write_read_binary). Refuted: a polygon with more than three corners is cut into triangles that all share its first edge and do not cover it (C78_polygon_false, C78_fan); a file without a column z is accepted with the first column as z (C78_no_z_false); the element of a range grid is misread in binary files (C78_range_grid_false); indices outside the vertices and faces before vertices are undefined (C78_index_undefined, C78_faces_first_undefined), and so is a property before an element (C78_property_first_undefined). Cutting a line into words and converting bytes belong to ZEDA."
  },
  {
   "property": "C79",
   "status": "partial",
   "theorems": [
    "Zeo.C79_read_partial",
    "Zeo.C79_polygon_cut",
    "Zeo.C79_polygon_false",
    "Zeo.C79_relative_undefined",
    "Zeo.C79_index_undefined",
    "Zeo.C79_faces_first_false",
    "Zeo.C79_two_corners_false",
    "Zeo.C79_valid"
   ],
   "note": "Files of triangles with positive references to earlier vertices are read faithfully (C79_read_partial). Refuted: a face keeps only its first three corners (C79_polygon_cut, C79_polygon_false); relative references and references beyond the vertices are undefined (C79_relative_undefined, C79_index_undefined); a face before its vertices gets a normal from uninitialised memory (C79_faces_first_false); a face with two corners gets vertex 1 as its third (C79_two_corners_false). Cutting a line into words belongs to ZEDA."
  },
  {
   "property": "C80",
   "status": "partial",
   "theorems": [
    "Zeo.C80_read_text",
    "Zeo.C80_read_binary",
    "Zeo.C80_read_binary_partial",
    "Zeo.C80_extra_point_false",
    "Zeo.C80_viewpoint_ident",
    "Zeo.C80_write_read_text",
    "Zeo.C80_write_read_binary",
    "Zeo.C80_write_none",
    "Zeo.C80_blank_line_false",
    "Zeo.C80_key_undefined",
    "Zeo.C80_order_undefined",
    "Zeo.C80_no_type_undefined",
    "Zeo.C80_refused"
   ],
   "note": "Texts are read faithfully (C80_read_text), binary files when all points are finite and as many as announced (C80_read_binary_partial), and written files are read back (C80_write_read_text, C80_write_read_binary). Refuted: a binary file with a point that is not finite, or that is short, is read with an additional point at the viewpoint (C80_extra_point_false); an empty line in a text is read as a point and the last point is lost (C80_blank_line_false); an unknown key, a key out of order and a missing TYPE line are undefined (C80_key_undefined, C80_order_undefined, C80_no_type_undefined). Compressed files need a library that is off by default and are not modelled."
  },
  {
   "property": "C81",
   "status": "partial",
   "theorems": [
    "Zeo.C81_prism_partial",
    "Zeo.C81_prism_total",
    "Zeo.C81_pyramid_total",
    "Zeo.C81_pyramid_partial",
    "Zeo.C81_prism_convex",
    "Zeo.C81_pyramid_convex",
    "Zeo.C81_prism_open"
   ],
   "note": "Proved for planar loops in which every search for an ear succeeds (C81_prism_partial, C81_pyramid_partial), which strictly convex loops are (C81_prism_convex, C81_pyramid_convex); a solid is always made from three or more vertices (C81_prism_total, C81_pyramid_total). Refuted: on a square with the midpoint of its left side as first vertex the surface of the prism is not closed (C81_prism_open); with less than three vertices a face that was not stored is read (C81_prism_total, C81_pyramid_total)."
  },
  {
   "property": "C82",
   "status": "partial",
   "theorems": [
    "Zeo.C82_orthonormalize",
    "Zeo.C82_orthonormalize_null",
    "Zeo.C82_orthonormalize_negative",
    "Zeo.C82_orthonormalize_parallel",
    "Zeo.C82_symmetric",
    "Zeo.C82_dif",
    "Zeo.C82_dif_recover",
    "Zeo.C82_power",
    "Zeo.C82_power_limit",
    "Zeo.C82_power_near",
    "Zeo.C82_power_false",
    "Zeo.C82_power_inv",
    "Zeo.C82_power_inv_singular"
   ],
   "note": "Proved: orthonormalization for columns independent beyond the tolerance, in place or not, with the sign of the determinant (C82_orthonormalize, C82_orthonormalize_null); the angular velocity between attitudes for zero tolerance (C82_dif, C82_dif_recover); convergence with rate of both power iterations for zero tolerance, an orthonormal eigenbasis with a strictly extreme eigenvalue and a start vector with a component along it (C82_power, C82_power_limit, C82_power_inv), and for every tolerance the distance to an eigenvalue when the iteration stops by itself (C82_power_near). Refuted: a negative axis reads outside the matrix (C82_orthonormalize_negative); parallel columns give a singular matrix without error (C82_orthonormalize_parallel); eigenvalues of opposite signs give a value that is no eigenvalue (C82_power_false); a singular matrix is not reported by the inverse iteration (C82_power_inv_singular)."
  },
  {
   "property": "C83",
   "status": "partial",
   "theorems": [
    "Zeo.C83_terra",
    "Zeo.C83_terra_exact",
    "Zeo.C83_estimator_lost",
    "Zeo.C83_read",
    "Zeo.C83_order_false",
    "Zeo.C83_grid_first",
    "Zeo.C83_map",
    "Zeo.C83_net",
    "Zeo.C83_net_none",
    "Zeo.C83_net_failure"
   ],
   "note": "Proved: the round trips of terrains, maps and nets for every number format (C83_terra, C83_map, C83_net), with everything but the estimators restored by exact notation (C83_terra_exact), soundness of everything read (C83_read), refusal of files without maps or with grids before the size (C83_net_none, C83_grid_first). Refuted: the estimators of the cells are not written (C83_estimator_lost); with the size before origin and resolution the bounds are wrong (C83_order_false); a net with a map that cannot be read is returned without error, and the maps behind it are missing (C83_net_failure)."
  },
  {
   "property": "C84",
   "status": "partial",
   "theorems": [
    "Zeo.C84_initAuto",
    "Zeo.C84_auto_leaf",
    "Zeo.C84_addData",
    "Zeo.C84_addData_outside",
    "Zeo.C84_normals",
    "Zeo.C84_octant_normal",
    "Zeo.C84_octant_empty",
    "Zeo.C84_octant_normal_false",
    "Zeo.C84_mem_life",
    "Zeo.C84_mem_twice_false",
    "Zeo.C84_mem_init_false",
    "Zeo.C84_mem_divide_false",
    "Zeo.C84_update",
    "Zeo.C84_life",
    "Zeo.C84_refine_false",
    "Zeo.C84_unify_norm_false"
   ],
   "note": "Proved: the region of zVec3DOctreeInitAuto (C84_initAuto) and the leaf cubes of exactly the resolution (C84_auto_leaf); adding a set of points, with all accepted and with one outside (C84_addData, C84_addData_outside); equality of the normals by octree and by k-d tree (C84_normals, non-empty sets); the normal of an octant is a unit vector of least second moment about the center of the octant within twice the tolerance, on the side of the previous one (C84_octant_normal, C84_octant_empty). Refuted: that it is the normal of the points (C84_octant_normal_false): coplanar points off the center of the octant get a vector within their plane. The whole update: C84_update; normals do not influence where points are: C84_life. Refuted: refining counts the moments twice (C84_refine_false); the normal of a unified octant is no unit vector (C84_unify_norm_false). Memory: nothing is freed twice through any sequence of additions, divisions and mergings, and destroying gives back exactly what was taken (C84_mem_life). Refuted: destroying twice, as the C++ destructor does after destroy(), is undefined exactly if there is a suboctant (C84_mem_twice_false); initialising an octree in use loses its memory (C84_mem_init_false); if memory runs out while octants are divided a point is lost with its memory (C84_mem_divide_false)."
  },
  {
   "property": "C85",
   "status": "partial",
   "theorems": [
    "Zeo.C85_alloc",
    "Zeo.C85_setCoord",
    "Zeo.C85_setFace",
    "Zeo.C85_clone_partial",
    "Zeo.C85_clone_false",
    "Zeo.C85_clone_null",
    "Zeo.C85_read",
    "Zeo.C85_read_empty",
    "Zeo.C85_index_ignored",
    "Zeo.C85_negative",
    "Zeo.C85_beyond",
    "Zeo.C85_depth_zero",
    "Zeo.C85_roundtrip",
    "Zeo.C85_mem_life"
   ],
   "note": "Proved: allocation and element access (C85_alloc, C85_setCoord, C85_setFace); soundness of everything read (C85_read), refusal of files without coordinates and of indices beyond them (C85_read_empty, C85_beyond); the round trip under the assumption that ZEDA reads the parenthesised pairs of zVec2DFPrint as two numbers (C85_roundtrip). Refuted: a clone copies neither coordinates nor faces nor depth, bump identifier and image size (C85_clone_false; C85_clone_partial is what holds), textures without file name, coordinates or faces cannot be cloned (C85_clone_null); negative vertex indices are used (C85_negative); the index of a coordinate in the file is not used (C85_index_ignored); a depth of zero is refused (C85_depth_zero). Not modelled: functions that read image files, faces with vertices outside the texture. Memory: defined for all sequences of operations, and all memory is given back exactly if no pointer in use is set anew (C85_mem_life)."
  },
  {
   "property": "C86",
   "status": "partial",
   "theorems": [
    "Zeo.C86_agrees",
    "Zeo.C86_place",
    "Zeo.C86_solid",
    "Zeo.C86_rot",
    "Zeo.C86_mirror",
    "Zeo.C86_mirror_axis",
    "Zeo.C86_mirror_unknown",
    "Zeo.C86_mirror_self",
    "Zeo.C86_mirror_name_lost",
    "Zeo.C86_mirror_then_type",
    "Zeo.C86_mirror_optic",
    "Zeo.C86_order",
    "Zeo.C86_pos_twice"
   ],
   "note": "Proved: without these keys the reader agrees with the one of C52/C53 (C86_agrees); fields of placement in any order among the others, at most one position, attitude and frame (C86_place, C86_solid, C86_rot); mirror images, placed or not (C86_mirror), invalid axes (C86_mirror_axis), unknown references (C86_mirror_unknown). Refuted: a type before the mirror field loses name, optical information and texture (C86_mirror_name_lost); a type after it leaves an unread body (C86_mirror_then_type); optical information before the mirror field is replaced (C86_mirror_optic); a rotation before an attitude is lost (C86_order); a shape of an array that mirrors itself is undefined (C86_mirror_self); a second position is ignored (C86_pos_twice). Imports are in C93. Not modelled: braced matrices, parenthesised axes of rotations."
  },
  {
   "property": "C87",
   "status": "partial",
   "theorems": [
    "Zeo.C87_roundtrip",
    "Zeo.C87_read",
    "Zeo.C87_empty",
    "Zeo.C87_failed_false",
    "Zeo.C87_optic_after",
    "Zeo.C87_body",
    "Zeo.C87_clone_partial",
    "Zeo.C87_clone_texture",
    "Zeo.C87_clone_no_optic",
    "Zeo.C87_clone_no_file"
   ],
   "note": "Proved: the round trip (C87_roundtrip), distinct names and valid references for any file (C87_read), files without shapes (C87_empty), clones of the classes (C87_body), clones of compounds but for textures (C87_clone_partial). Refuted: a section that cannot be read is not reported, the rest is not read (C87_failed_false); optical information after the shape is not found (C87_optic_after); shapes of a clone refer to the textures of the original, and the faces of the clone's textures are NULL (C87_clone_texture); a shape without optical information (C87_clone_no_optic) or a texture without file (C87_clone_no_file) spoils the clone."
  },
  {
   "property": "C88",
   "status": "partial",
   "theorems": [
    "Zeo.C88_loop",
    "Zeo.C88_arc_small",
    "Zeo.C88_arc_small_false",
    "Zeo.C88_arc_half",
    "Zeo.C88_arc_half_false",
    "Zeo.C88_prism",
    "Zeo.C88_prism_verts",
    "Zeo.C88_face",
    "Zeo.C88_both",
    "Zeo.C88_order_false",
    "Zeo.C88_agrees",
    "Zeo.C88_order_vert"
   ],
   "note": "Proved: loops whose arcs have more than half of the chord as radius (C88_loop), prisms and pyramids over loops and vertices (C88_prism, C88_prism_verts), faces refused (C88_face), agreement with the reader of vertices and faces (C88_agrees), the second solid ignored (C88_both). Refuted: a half circle given as clockwise runs counterclockwise (C88_arc_half, C88_arc_half_false); an arc of too small a radius silently ends the loop (C88_arc_small, C88_arc_small_false); a prism before its loop or its vertices (C88_order_false, C88_order_vert)."
  },
  {
   "property": "C89",
   "status": "partial",
   "theorems": [
    "Zeo.C89_read",
    "Zeo.C89_count",
    "Zeo.C89_move_false",
    "Zeo.C89_grow_false",
    "Zeo.C89_turns_false",
    "Zeo.C89_matrix_false",
    "Zeo.C89_twice_false",
    "Zeo.C89_hidden_false",
    "Zeo.C89_library_false",
    "Zeo.C89_polygon_false",
    "Zeo.C89_source_false",
    "Zeo.C89_accessor_false"
   ],
   "note": "Proved: files of triangles, each geometry shown once, with translations, at most one rotation and scales in this order or a matrix (C89_read); every geometry is read exactly once whatever the scene (C89_count). Refuted: translations after rotations or scales (C89_move_false, C89_grow_false), two rotations (C89_turns_false), a matrix after other transformations (C89_matrix_false), a geometry shown twice (C89_twice_false) or not at all (C89_hidden_false), polygons (C89_polygon_false), files without geometries or that are no COLLADA files (C89_library_false), missing arrays (C89_source_false), arrays with four named parameters, the last of which is written behind its field (C89_accessor_false)."
  },
  {
   "property": "C90",
   "status": "proved",
   "theorems": [
    "Zeo.C90_fit",
    "Zeo.C90_stationary"
   ],
   "note": "zLESolveErrorMin is assumed to satisfy the equations whenever that is possible (C90_fit) and to minimise the squared error (C90_stationary); zVecIsTiny to accept only corrections up to the tolerance."
  },
  {
   "property": "C91",
   "status": "partial",
   "theorems": [
    "Zeo.C91_inscribed",
    "Zeo.C91_divisions",
    "Zeo.C91_ellips",
    "Zeo.C91_convert",
    "Zeo.C91_refused",
    "Zeo.C91_ecyl_false",
    "Zeo.C91_multi",
    "Zeo.C91_multi_fail",
    "Zeo.C91_multi_false",
    "Zeo.C91_tip_false"
   ],
   "note": "Proved: sizes, places of vertices, indices and containment of faces for every proper shape with a fitting number of divisions (C91_inscribed), which are the only ones converted (C91_divisions); one by one and idempotent (C91_multi); refusal leaves the shape (C91_refused, C91_convert). Refuted: an elliptic cylinder without length is accepted (C91_ecyl_false); a failure in a list is not undone (C91_multi_false, described by C91_multi_fail); the polyhedron need not reach the tips of the shape (C91_tip_false)."
  },
  {
   "property": "C92",
   "status": "partial",
   "theorems": [
    "Zeo.C92_shapes",
    "Zeo.C92_empty_false",
    "Zeo.C92_unify_partial",
    "Zeo.C92_unify_false"
   ],
   "note": "Proved: boxes for every history with at least one point (C92_shapes); unifying uncovers nothing, and covers nothing else when no octant is thin (C92_unify_partial). Refuted: an octree without points gives a box as large as its region (C92_empty_false); unifying may fill free space (C92_unify_false)."
  },
  {
   "property": "C93",
   "status": "partial",
   "theorems": [
    "Zeo.C93_import",
    "Zeo.C93_refused",
    "Zeo.C93_readFile",
    "Zeo.C93_ztk_false",
    "Zeo.C93_ztk_behind",
    "Zeo.C93_scale_false",
    "Zeo.C93_self_false",
    "Zeo.C93_suffix_false"
   ],
   "note": "Proved: import of polyhedra (C93_import), refusal (C93_refused), zShape3DReadFile (C93_readFile). Refuted: importing a ZTK file forgets name and optical information read before (C93_ztk_false; behind it they are kept, C93_ztk_behind); a scale on an imported shape other than a polyhedron (C93_scale_false) and a file importing itself (C93_self_false) are undefined; so is zShape3DReadFile on a name without suffix (C93_suffix_false)."
  },
  {
   "property": "C94",
   "status": "partial",
   "theorems": [
    "Zeo.C94_match",
    "Zeo.C94_equal",
    "Zeo.C94_isTol",
    "Zeo.C94_refl_symm",
    "Zeo.C94_drift",
    "Zeo.C94_trans_false",
    "Zeo.C94_xform",
    "Zeo.C94_xform_plane",
    "Zeo.C94_ident",
    "Zeo.C94_ep",
    "Zeo.C94_ep_false",
    "Zeo.C94_expand",
    "Zeo.C94_createFromSize",
    "Zeo.C94_vert",
    "Zeo.C94_sort"
   ],
   "note": "Proved: match, equal, tiny, drift, action of equal frames, identities, boxes in the plane, comparison functions of sorts. Refuted: equality is not transitive (C94_trans_false); zEPIsIdent rejects the quadruple (-1,0,0,0), which rotates nothing (C94_ep_false)."
  },
  {
   "property": "C95",
   "status": "partial",
   "theorems": [
    "Zeo.C95_div",
    "Zeo.C95_div_zero",
    "Zeo.C95_div_false",
    "Zeo.C95_transpose",
    "Zeo.C95_transpose_false",
    "Zeo.C95_inv",
    "Zeo.C95_inv_plane",
    "Zeo.C95_inv_false",
    "Zeo.C95_mulT",
    "Zeo.C95_mulT_false",
    "Zeo.C95_frame",
    "Zeo.C95_ep",
    "Zeo.C95_nearest"
   ],
   "note": "Proved: division by nonzero numbers, transposes, inverses (3D with the balanced determinant above the tolerance), products with transposes, frames, Euler parameters, nearest neighbour. Refuted: v /= 0 differs from v = v / 0 and zVec6D::div(0) follows NULL (C95_div_false); zMat2D::transpose() changes its object (C95_transpose_false); zMat2D::inv exchanges object and argument (C95_inv_false); zMat3D::mulT of a 6D vector multiplies by the matrix itself (C95_mulT_false); four zeros and octrees without points make invalid references (C95_ep, C95_nearest)."
  },
  {
   "property": "C96",
   "status": "partial",
   "theorems": [
    "Zeo.C96_defined",
    "Zeo.C96_leaks",
    "Zeo.C96_life",
    "Zeo.C96_life_false",
    "Zeo.C96_leaks_false",
    "Zeo.C96_twice",
    "Zeo.C96_once",
    "Zeo.C96_read",
    "Zeo.C96_read_false",
    "Zeo.C96_mirror",
    "Zeo.C96_mirror_false",
    "Zeo.C96_ph_destroy",
    "Zeo.C96_ph_clone",
    "Zeo.C96_ph_mirror",
    "Zeo.C96_ph_new"
   ],
   "note": "Proved for the seven types whose _destroy is empty: exact condition for definedness and number of blocks lost over all sequences of calls, shapes read from files, mirror images. Refuted: a shape only declared, one whose type is unknown and one declared with the name of a type cannot be destroyed (C96_life_false); creating twice loses a body (C96_leaks_false); a file with an unknown type is read with success and cannot be destroyed (C96_read_false); mirroring onto itself and invalid axes (C96_mirror_false); a NURBS destroyed twice (C96_twice). Polyhedra, whose bodies own further blocks: C96_ph_new, C96_ph_destroy, C96_ph_clone, C96_ph_mirror. Missing: the blocks of NURBS."
  },
  {
   "property": "C97",
   "status": "partial",
   "theorems": [
    "Zeo.C97_alloc",
    "Zeo.C97_alloc_false",
    "Zeo.C97_clone",
    "Zeo.C97_mirror_false",
    "Zeo.C97_xform",
    "Zeo.C97_xform_false",
    "Zeo.C97_closest_partial",
    "Zeo.C97_inside_false",
    "Zeo.C97_inertia_false"
   ],
   "note": "Proved: allocation for orders below the sizes, clones, images under frames into shapes of the same sizes and back, agreement of distance and closest point. Refuted: allocation with too large orders is reported as a success (C97_alloc_false); no NURBS shape can be mirrored, and the destination cannot be destroyed afterwards (C97_mirror_false); transforming into a shape of other sizes does nothing and returns the destination (C97_xform_false); no point is inside (C97_inside_false); zShape3DInertiaMass and zShape3DInertia return values of uninitialised variables (C97_inertia_false). Missing: that the closest point is closest, which is false (C73_closest_false)."
  },
  {
   "property": "C98",
   "status": "partial",
   "theorems": [
    "Zeo.C98_map",
    "Zeo.C98_init",
    "Zeo.C98_net",
    "Zeo.C98_used_false"
   ],
   "note": "Proved: after initialisation or reading of any text, failing or not, a map and a net of maps can be destroyed, a map more than once, and the memory is as before. Refuted: reading into a map in use loses its name, body and grid (C98_used_false). A map on which nothing was done cannot be destroyed (C98_init). Missing: failures of allocation."
  },
  {
   "property": "C99",
   "status": "partial",
   "theorems": [
    "Zeo.C99_clone",
    "Zeo.C99_mirror",
    "Zeo.C99_scale",
    "Zeo.C99_flip",
    "Zeo.C99_self_false",
    "Zeo.C99_xform_self",
    "Zeo.C99_xform",
    "Zeo.C99_xform_false"
   ],
   "note": "Proved for all sound polyhedra: clones, mirrored, scaled and flipped copies are deep; zPH3DXform in place and into a clone. Refuted: cloning into itself is undefined with faces and loses the vertices without (C99_self_false); zPH3DXform into a polyhedron of more vertices reads behind the source (C99_xform_false). Missing: failures of allocation."
  }
 ]
}