# Axioms used by each theorem of MANIFEST.json

Output of `#print axioms`, grouped.

## Classical.choice, Quot.sound, propext (895 theorems)

Zeo.C01_inner, Zeo.C01_outer_orthogonal, Zeo.C01_outer_sqrNorm, Zeo.C01_grassmann_det, Zeo.C01_triple, Zeo.C01_2D, Zeo.C01_linear, Zeo.C02_vec2, Zeo.C02_vec2_distinct, Zeo.C02_vec3, Zeo.C02_vec3_outer, Zeo.C02_vec3_proj, Zeo.C02_mat2, Zeo.C02_mat2_products, Zeo.C02_mat2_distinct, Zeo.C02_mat3_products, Zeo.C02_rotMat3, Zeo.C02_ep, Zeo.C02_coord2, Zeo.C02_vec2_hazards, Zeo.C02_vec3_hazards, Zeo.C02_mat2_hazards, Zeo.C02_mat3_hazards, Zeo.C02_ep_hazards, Zeo.C02_frame_hazards, Zeo.C02_coord2_cascadeDRC, Zeo.C02_coord2_cascadeDRC_iff, Zeo.C02_coord2_hazards, Zeo.C02_div, Zeo.C02_mat6_products, Zeo.C02_mat3_vec6, Zeo.C02_mat3_vec6_hazard, Zeo.C02_normalize, Zeo.C02_twist, Zeo.C03_vec2, Zeo.C03_vec3, Zeo.C03_vec6, Zeo.C03_coord2, Zeo.C03_mat2, Zeo.C03_mat3, Zeo.C03_mat6, Zeo.C03_dif, Zeo.C03_dif6, Zeo.C03_difEP, Zeo.C04_vec3_success, Zeo.C04_vec3_degenerate, Zeo.C04_vec2_success, Zeo.C04_vec2_degenerate, Zeo.C04_proj2, Zeo.C05_balance_defined, Zeo.C05_inv_partial, Zeo.C05_solve_vec_partial, Zeo.C05_solve_mat_partial, Zeo.C05_exact, Zeo.C05_singular_garbage, Zeo.C05_zero_row_nan, Zeo.C06_mat3_products, Zeo.C06_mat3_linear, Zeo.C06_mat3_updates, Zeo.C06_mat3_det_adj, Zeo.C06_mat2_products, Zeo.C06_mat2_linear, Zeo.C07_rejects, Zeo.C07_rejects_singular, Zeo.C07_inv, Zeo.C07_solve_vec, Zeo.C07_solve_mat, Zeo.C08_fromZYX, Zeo.C08_fromZYZ, Zeo.C08_fromEP, Zeo.C08_fromAA, Zeo.C08_fromAA_rodrigues, Zeo.C08_mat2, Zeo.C08_rotRPY, Zeo.C08_rot, Zeo.C09_zyx, Zeo.C09_zyz, Zeo.C09_zyx_recover, Zeo.C09_zyz_recover, Zeo.C10_roundtrip_partial, Zeo.C10_roundtrip_exact, Zeo.C10_length, Zeo.C10_vec3Rot, Zeo.C10_ofAA, Zeo.C10_EPtoAA, Zeo.C10_error_cascade, Zeo.C10_flattened, Zeo.C11_rotVec, Zeo.C11_norm, Zeo.C11_cascade, Zeo.C11_ofMat, Zeo.C11_two_to_one, Zeo.C11_vel, Zeo.C11_vel', Zeo.C12_unit, Zeo.C12_endpoints, Zeo.C12_speed, Zeo.C12_mat, Zeo.C13_xform_inv, Zeo.C13_xform_affine, Zeo.C13_inv, Zeo.C13_closed, Zeo.C13_isometry, Zeo.C13_isometry_dist, Zeo.C13_2D, Zeo.C13_2D_opMul_not_cascade, Zeo.C14_mulVec, Zeo.C14_mulMat, Zeo.C14_mulTMat, Zeo.C14_mulMatT, Zeo.C14_linear, Zeo.C14_row_col, Zeo.C14_vec, Zeo.C14_create_put, Zeo.C14_ctor_ne_create, Zeo.C15_xform, Zeo.C15_chain, Zeo.C16_zyx_inverse, Zeo.C16_zyx_singular, Zeo.C16_zyz_inverse, Zeo.C16_zyz_singular, Zeo.C16_zyx_kinematics, Zeo.C16_zyz_kinematics, Zeo.C17_constructors, Zeo.C17_closest, Zeo.C17_zero_iff, Zeo.C17_dist, Zeo.C17_2D, Zeo.C17_inside, Zeo.C17_inside_plane, Zeo.C18_closest, Zeo.C18_dist, Zeo.C18_inside, Zeo.C18_xform, Zeo.C18_toAABox, Zeo.C18_ofAABox, Zeo.C19_fromOrigin, Zeo.C19_fromOrigin2, Zeo.C19_closest, Zeo.C19_closest2, Zeo.C19_degenerate, Zeo.C19_pointIsOn, Zeo.C19_contigVert, Zeo.C20_fromOrigin, Zeo.C20_closest_partial, Zeo.C20_pointIsInside, Zeo.C20_signedClosest, Zeo.C20_contigVert, Zeo.C20_small_triangle_wrong, Zeo.C21_fromOrigin, Zeo.C21_closest_partial, Zeo.C21_degenerate, Zeo.C21_tri2_fromOrigin, Zeo.C21_tri2_closest, Zeo.C22_distFromPoint, Zeo.C22_closest, Zeo.C22_pointIsInside, Zeo.C22_disk, Zeo.C22_from2, Zeo.C22_from3, Zeo.C22_from4, Zeo.C22_from4_coplanar, Zeo.C22_disk_from2, Zeo.C22_disk_from3, Zeo.C22_xform, Zeo.C23_barycenter, Zeo.C23_circumcenter, Zeo.C23_orthocenter, Zeo.C23_incenter, Zeo.C23_circumcenter2, Zeo.C23_orthocenter2, Zeo.C23_incenter2, Zeo.C24_planeProj, Zeo.C24_lineProj, Zeo.C24_line2Proj, Zeo.C24_intersectPlane_partial, Zeo.C24_intersectPlane_dangling, Zeo.C24_parallelPlanes, Zeo.C24_commonPerp, Zeo.C24_pointIsOn_not_distance, Zeo.C24_pointIsOn_sound, Zeo.C24_intersectLine2, Zeo.C24_commonPerpLine, Zeo.C24_commonPerpLine_false, Zeo.C24_twoPoints, Zeo.C25_cyl_closest_partial, Zeo.C25_cyl_return, Zeo.C25_cyl_negative_distance, Zeo.C25_cyl_dist, Zeo.C25_cyl_degenerate, Zeo.C25_cyl_inside, Zeo.C25_capsule_closest, Zeo.C25_capsule_dist_partial, Zeo.C25_capsule_inside_inverted, Zeo.C25_capsule_inside_wrong, Zeo.C25_capsule_degenerate, Zeo.C25_cone_closest, Zeo.C25_cone_inside, Zeo.C26_colChk, Zeo.C26_expand, Zeo.C26_volume, Zeo.C26_vert, Zeo.C26_rect, Zeo.C26_rect_inside, Zeo.C27_never_misses, Zeo.C27_no_collision_disjoint, Zeo.C27_aligned_exact, Zeo.C28_size_and_ids, Zeo.C28_node_iff, Zeo.C28_ids_nodup, Zeo.C28_wellFormed, Zeo.C28_add, Zeo.C28_toArray, Zeo.C28_toList, Zeo.C28_part, Zeo.C28_noMemory_false, Zeo.C29_nn, Zeo.C30_vicinity, Zeo.C30_vicinity_neg, Zeo.C30_mem, Zeo.C31_points, Zeo.C31_shape, Zeo.C31_accept, Zeo.C31_budget, Zeo.C31_change_total, Zeo.C31_boxes, Zeo.C32_nn_bound, Zeo.C32_nn_partial, Zeo.C32_nn_tolerance, Zeo.C32_nn_empty, Zeo.C32_not_exact_outside, Zeo.C33_vicinity_bound, Zeo.C33_vicinity_partial, Zeo.C33_vicinity_tolerance, Zeo.C33_not_exact_outside, Zeo.C34_unify_keeps_partial, Zeo.C34_unify_loses_points, Zeo.C34_unify_example, Zeo.C34_add_after_unify_missed, Zeo.C34_nn_ignores_below, Zeo.C35_array_capacity, Zeo.C35_array_rewind_add, Zeo.C35_loop, Zeo.C35_toAddrList, Zeo.C35_xform, Zeo.C35_find, Zeo.C35_mem_life, Zeo.C35_mem_ball, Zeo.C35_toAddrList_false, Zeo.C36_nn, Zeo.C36_nn2D, Zeo.C36_vicinity, Zeo.C36_vicinity2D, Zeo.C36_supportMap, Zeo.C36_supportMap2D, Zeo.C37_aabb, Zeo.C37_smallest, Zeo.C37_empty, Zeo.C37_xform, Zeo.C37_aabb2D, Zeo.C38_first_point_only, Zeo.C38_single_partial, Zeo.C38_pairs_missing, Zeo.C38_origin_lost, Zeo.C39_loop, Zeo.C39_terminates, Zeo.C39_run, Zeo.C39_first_try, Zeo.C39_bounds, Zeo.C39_bounds2D, Zeo.C39_contacts, Zeo.C39_smallest_two_contacts, Zeo.C39_contacts2D, Zeo.C39_smallest2D, Zeo.C39_total2D, Zeo.C39_direct_contains, Zeo.C39_recursive2D, Zeo.C39_recursive2D_none, Zeo.C39_recursive3D, Zeo.C39_recursive2D_wrong, Zeo.C40_apex, Zeo.C40_cone, Zeo.C40_scale, Zeo.C40_flip, Zeo.C40_mirror, Zeo.C40_xform, Zeo.C40_open_depends, Zeo.C41_box, Zeo.C41_cyl, Zeo.C41_cone, Zeo.C41_torus, Zeo.C41_flip, Zeo.C41_capsule, Zeo.C41_capsule_unassigned, Zeo.C41_sphere_filled, Zeo.C41_sphere_not_closed, Zeo.C41_sphere_partial, Zeo.C41_lathe_filled, Zeo.C41_lathe_not_closed, Zeo.C41_box_volume, Zeo.C41_box_volume_rot, Zeo.C41_cyl_volume, Zeo.C41_cone_volume, Zeo.C41_sphere_orientation, Zeo.C41_torus_mesh, Zeo.C41_torus_normals_flipped, Zeo.C41_torus_normals_stale, Zeo.C41_torus_stale_example, Zeo.C42_count, Zeo.C42_corners, Zeo.C42_area_partial, Zeo.C42_convex, Zeo.C42_square, Zeo.C42_area_wrong, Zeo.C42_extreme, Zeo.C42_align, Zeo.C43_minimiser, Zeo.C43_variance, Zeo.C44_in_range, Zeo.C44_out_of_range_partial, Zeo.C44_out_of_range_updates, Zeo.C44_ident_stale, Zeo.C44_allocRegion, Zeo.C45_between_partial, Zeo.C45_grid_point, Zeo.C45_out_of_region, Zeo.C45_no_bad_read, Zeo.C45_last_row_bad_read, Zeo.C45_last_column_wrong_cell, Zeo.C45_last_column_effect, Zeo.C45_flat_nan, Zeo.C45_flat_nan_reachable, Zeo.C45_flat_nan_example, Zeo.C46_roundtrip, Zeo.C46_roundtrip_hsv, Zeo.C46_hue360_violation, Zeo.C46_negative_hue_untouched, Zeo.C47_mul, Zeo.C47_blend, Zeo.C47_grayscale, Zeo.C47_hsv, Zeo.C47_hex_undefined, Zeo.C47_name_primaries, Zeo.C47_unclamped_setters, Zeo.C47_optic, Zeo.C47_optic_blend, Zeo.C47_string, Zeo.C47_string_false, Zeo.C48_axisStr, Zeo.C48_axisFromStr, Zeo.C48_dirStr, Zeo.C49_cone_volume_integral, Zeo.C49_cone_barycenter_integral, Zeo.C49_cone_inertia_integral, Zeo.C49_apex, Zeo.C49_volume_integral, Zeo.C49_barycenter_integral, Zeo.C49_inertia_integral, Zeo.C49_symmetric, Zeo.C49_parallel_axis, Zeo.C49_mass, Zeo.C49_shape_inertia, Zeo.C49_barycenter_xform, Zeo.C49_baryInertia_xform, Zeo.C49_zero_volume, Zeo.C50_DH, Zeo.C50_DH_point, Zeo.C50_fromPos, Zeo.C50_vec6_roundtrip, Zeo.C50_views, Zeo.C50_twist_error, Zeo.C50_lookAt, Zeo.C51_empty, Zeo.C51_result, Zeo.C51_contact_near, Zeo.C51_contact, Zeo.C51_nearest_partial, Zeo.C51_point, Zeo.C51_return_partial, Zeo.C51_false_contact, Zeo.C51_missed_contact, Zeo.C52_edge_plane, Zeo.C52_intersectEdgePlane, Zeo.C52_tri_plane, Zeo.C52_intersectTriPlane, Zeo.C52_four_points, Zeo.C52_edge_tri, Zeo.C52_edge_tri_check, Zeo.C52_edge_tri_missed, Zeo.C52_tri_sound, Zeo.C52_tri_complete_partial, Zeo.C52_tri_overflow, Zeo.C52_tri_missed, Zeo.C52_planeBox, Zeo.C52_planeBox_complete_partial, Zeo.C52_planeBox_missed, Zeo.C52_triBox_plane_dead, Zeo.C52_triBox_sound, Zeo.C52_triBox_missed, Zeo.C52_sphere_aabox, Zeo.C52_sphere_box, Zeo.C53_optic, Zeo.C53_optic_toZTK_partial, Zeo.C53_optic_toZTK_wrong, Zeo.C53_optic_simple_wrong, Zeo.C53_round, Zeo.C53_axes, Zeo.C53_axes_unit, Zeo.C53_ecyl, Zeo.C53_ecyl_same, Zeo.C53_ecyl_ref_first, Zeo.C53_ph, Zeo.C53_ph_read, Zeo.C53_ph_negative, Zeo.C53_ph_face_first, Zeo.C53_shape, Zeo.C53_shape_read, Zeo.C54_map_identification, Zeo.C54_form, Zeo.C54_travs, Zeo.C54_zRange, Zeo.C54_new_map, Zeo.C55_contigVert, Zeo.C55_aabb, Zeo.C55_aabb_loose, Zeo.C55_pointIsInside, Zeo.C55_hull_inside, Zeo.C55_closest, Zeo.C55_closest_convex, Zeo.C55_coplanar_wrong, Zeo.C55_surface_wrong, Zeo.C55_inside_nonconvex, Zeo.C56_cyl_volume, Zeo.C56_cyl_inertia, Zeo.C56_cone_volume, Zeo.C56_cone_inertia, Zeo.C56_capsule_volume, Zeo.C56_capsule_height, Zeo.C56_capsule_inertia, Zeo.C56_sphere, Zeo.C56_box, Zeo.C56_ellips, Zeo.C56_ecyl, Zeo.C56_ecyl_ref, Zeo.C56_ecyl_noref_wrong, Zeo.C57_ellipse_closest, Zeo.C57_ellipse_inside, Zeo.C57_ellipse_margin_not_distance, Zeo.C57_ellips_inside, Zeo.C57_ellips_closest, Zeo.C57_ecyl_closest, Zeo.C57_ecyl_inside, Zeo.C57_ecyl_noref_inside_wrong, Zeo.C58_xform, Zeo.C58_xformInv, Zeo.C58_roundtrip, Zeo.C58_mirror, Zeo.C58_mirror_box, Zeo.C58_mirror_twice, Zeo.C58_volume, Zeo.C58_mirror_ecyl, Zeo.C58_mirror_lefthanded, Zeo.C59_symEig, Zeo.C59_residual, Zeo.C59_eigenvalue, Zeo.C59_symEigMin, Zeo.C59_svd, Zeo.C59_svd_columns, Zeo.C59_svd_singular_wrong, Zeo.C59_svd_rank_wrong, Zeo.C60_empty, Zeo.C60_barycenter, Zeo.C60_cov, Zeo.C60_baryCov, Zeo.C60_pca, Zeo.C60_baryPCA, Zeo.C60_pcaFrame, Zeo.C60_meanNormal, Zeo.C60_meanPlane, Zeo.C61_ident_null, Zeo.C61_ident_similar, Zeo.C61_ident_rigid, Zeo.C61_ident_scale_wrong, Zeo.C61_ident_mirror_wrong, Zeo.C61_ident_coplanar_wrong, Zeo.C61_ident_three_points_wrong, Zeo.C61_normal_vicinity, Zeo.C61_normalVecTree, Zeo.C61_normal_zero_radius, Zeo.C61_icp, Zeo.C61_icp_translation, Zeo.C61_icp_mem_false, Zeo.C62_closest_partial, Zeo.C62_multi_min, Zeo.C62_multi_closest_partial, Zeo.C62_multi_closest_wrong, Zeo.C62_inside_partial, Zeo.C62_multi_inside_partial, Zeo.C62_multi_inside_wrong, Zeo.C62_mass, Zeo.C62_xform, Zeo.C62_xform_type, Zeo.C62_mirror, Zeo.C62_contigVert, Zeo.C62_contigVert_defined, Zeo.C62_boundingBall, Zeo.C62_grid, Zeo.C62_octree_partial, Zeo.C63_vertices, Zeo.C63_order, Zeo.C63_degenerate, Zeo.C63_exact, Zeo.C63_convexLoop, Zeo.C63_ph, Zeo.C63_hullPH, Zeo.C63_closest_sound, Zeo.C63_closest_few, Zeo.C63_closest_inside, Zeo.C63_closest_partial, Zeo.C63_closest_triangle, Zeo.C63_closest_wrong, Zeo.C64_polar, Zeo.C64_angle2, Zeo.C64_angle3, Zeo.C64_aaError_partial, Zeo.C64_aaError_opposite, Zeo.C64_mat2, Zeo.C64_coord2, Zeo.C64_isRot, Zeo.C64_aaErr, Zeo.C64_sphere_ellips, Zeo.C64_cyl_ecyl, Zeo.C65_empty, Zeo.C65_false, Zeo.C65_true_partial, Zeo.C65_depth, Zeo.C65_ends_partial, Zeo.C65_contact, Zeo.C65_hang, Zeo.C65_false_contact, Zeo.C66_sound, Zeo.C66_exact, Zeo.C66_closed, Zeo.C66_toPH, Zeo.C66_roundtrip, Zeo.C66_inBox, Zeo.C67_trunc, Zeo.C67_trunc_zero, Zeo.C67_untouched, Zeo.C67_gone, Zeo.C67_closed, Zeo.C67_truncPH, Zeo.C67_phTrunc, Zeo.C67_degenerate, Zeo.C67_mem, Zeo.C67_mem_false, Zeo.C68_merge, Zeo.C68_merge_sound_iff, Zeo.C68_intersect, Zeo.C68_intersect_zero, Zeo.C68_fast_partial, Zeo.C68_side_missed, Zeo.C68_fast_boxes, Zeo.C68_fast_cubes, Zeo.C68_mem, Zeo.C68_mem_false, Zeo.C68_dangling, Zeo.C68_self, Zeo.C69_some, Zeo.C69_mesh, Zeo.C69_faces, Zeo.C69_hull, Zeo.C69_vertices, Zeo.C69_surface, Zeo.C69_exact, Zeo.C69_margin, Zeo.C69_moment, Zeo.C69_line, Zeo.C69_flat, Zeo.C69_null, Zeo.C69_coarse, Zeo.C70_box, Zeo.C70_null, Zeo.C70_height, Zeo.C70_rect, Zeo.C70_volume_wrong, Zeo.C71_delaunay, Zeo.C71_rest, Zeo.C71_margin, Zeo.C71_resolves, Zeo.C71_small, Zeo.C71_refused, Zeo.C71_fails, Zeo.C71_hull_wrong, Zeo.C71_empty, Zeo.C71_single, Zeo.C71_mem, Zeo.C71_mem_false, Zeo.C72_voronoi, Zeo.C72_small, Zeo.C72_near, Zeo.C72_uncovered, Zeo.C72_false, Zeo.C72_fails, Zeo.C72_empty, Zeo.C72_mem, Zeo.C72_mem_false, Zeo.C72_nodes_false, Zeo.C73_hull, Zeo.C73_corner, Zeo.C73_xform, Zeo.C73_xformInv, Zeo.C73_mirror, Zeo.C73_copy, Zeo.C73_alloc, Zeo.C73_clone, Zeo.C73_tangent, Zeo.C73_ph, Zeo.C73_closest_partial, Zeo.C73_closest_param_false, Zeo.C73_closest_false, Zeo.C73_ph_false, Zeo.C73_text_partial, Zeo.C73_text_curve_false, Zeo.C74_ellips, Zeo.C74_sphere, Zeo.C74_torus, Zeo.C74_cone, Zeo.C74_ecyl_partial, Zeo.C74_ecyl_false, Zeo.C74_cyl_false, Zeo.C74_box_partial, Zeo.C74_box_false, Zeo.C75_dual, Zeo.C75_base, Zeo.C75_base_inside, Zeo.C75_shallow, Zeo.C75_disjoint, Zeo.C75_intersect_partial, Zeo.C75_small_partial, Zeo.C75_contains, Zeo.C75_clamp_false, Zeo.C75_collision_partial, Zeo.C75_contact, Zeo.C75_ch_init, Zeo.C75_mem, Zeo.C76_linScale, Zeo.C76_depth_partial, Zeo.C76_shortest, Zeo.C76_first_false, Zeo.C76_intersect_false, Zeo.C76_intersect_partial, Zeo.C77_read_partial, Zeo.C77_write_read_partial, Zeo.C77_first_vertex_false, Zeo.C77_no_name_false, Zeo.C77_empty_name_false, Zeo.C77_few_vertices_undefined, Zeo.C77_many_vertices, Zeo.C77_empty_null, Zeo.C77_no_end_null, Zeo.C77_merge_false, Zeo.C77_binary_partial, Zeo.C77_short_name_undefined, Zeo.C77_binary_empty_null, Zeo.C77_truncated_false, Zeo.C78_read_partial, Zeo.C78_write_read, Zeo.C78_write_read_binary, Zeo.C78_polygon_false, Zeo.C78_no_z_false, Zeo.C78_range_grid_false, Zeo.C78_index_undefined, Zeo.C78_faces_first_undefined, Zeo.C78_property_first_undefined, Zeo.C78_null, Zeo.C78_vertex_index_null, Zeo.C78_corners_undefined, Zeo.C78_elements, Zeo.C79_read_partial, Zeo.C79_polygon_cut, Zeo.C79_polygon_false, Zeo.C79_relative_undefined, Zeo.C79_index_undefined, Zeo.C79_faces_first_false, Zeo.C79_two_corners_false, Zeo.C79_valid, Zeo.C80_read_text, Zeo.C80_read_binary, Zeo.C80_read_binary_partial, Zeo.C80_extra_point_false, Zeo.C80_viewpoint_ident, Zeo.C80_write_read_text, Zeo.C80_write_read_binary, Zeo.C80_write_none, Zeo.C80_blank_line_false, Zeo.C80_key_undefined, Zeo.C80_order_undefined, Zeo.C80_no_type_undefined, Zeo.C80_refused, Zeo.C81_prism_partial, Zeo.C81_prism_total, Zeo.C81_pyramid_total, Zeo.C81_pyramid_partial, Zeo.C81_prism_convex, Zeo.C81_pyramid_convex, Zeo.C81_prism_open, Zeo.C82_orthonormalize, Zeo.C82_orthonormalize_null, Zeo.C82_orthonormalize_negative, Zeo.C82_orthonormalize_parallel, Zeo.C82_symmetric, Zeo.C82_dif, Zeo.C82_dif_recover, Zeo.C82_power, Zeo.C82_power_limit, Zeo.C82_power_near, Zeo.C82_power_false, Zeo.C82_power_inv, Zeo.C82_power_inv_singular, Zeo.C83_terra, Zeo.C83_terra_exact, Zeo.C83_estimator_lost, Zeo.C83_read, Zeo.C83_order_false, Zeo.C83_grid_first, Zeo.C83_map, Zeo.C83_net, Zeo.C83_net_none, Zeo.C83_net_failure, Zeo.C84_initAuto, Zeo.C84_auto_leaf, Zeo.C84_addData, Zeo.C84_addData_outside, Zeo.C84_normals, Zeo.C84_octant_normal, Zeo.C84_octant_empty, Zeo.C84_octant_normal_false, Zeo.C84_mem_life, Zeo.C84_mem_twice_false, Zeo.C84_mem_init_false, Zeo.C84_mem_divide_false, Zeo.C84_update, Zeo.C84_life, Zeo.C84_refine_false, Zeo.C84_unify_norm_false, Zeo.C85_alloc, Zeo.C85_setCoord, Zeo.C85_setFace, Zeo.C85_clone_partial, Zeo.C85_clone_false, Zeo.C85_clone_null, Zeo.C85_read, Zeo.C85_read_empty, Zeo.C85_index_ignored, Zeo.C85_negative, Zeo.C85_beyond, Zeo.C85_depth_zero, Zeo.C85_roundtrip, Zeo.C85_mem_life, Zeo.C86_agrees, Zeo.C86_place, Zeo.C86_solid, Zeo.C86_rot, Zeo.C86_mirror, Zeo.C86_mirror_axis, Zeo.C86_mirror_unknown, Zeo.C86_mirror_self, Zeo.C86_mirror_name_lost, Zeo.C86_mirror_then_type, Zeo.C86_mirror_optic, Zeo.C86_order, Zeo.C86_pos_twice, Zeo.C87_roundtrip, Zeo.C87_read, Zeo.C87_empty, Zeo.C87_failed_false, Zeo.C87_optic_after, Zeo.C87_body, Zeo.C87_clone_partial, Zeo.C87_clone_texture, Zeo.C87_clone_no_optic, Zeo.C87_clone_no_file, Zeo.C88_loop, Zeo.C88_arc_small, Zeo.C88_arc_small_false, Zeo.C88_arc_half, Zeo.C88_arc_half_false, Zeo.C88_prism, Zeo.C88_prism_verts, Zeo.C88_face, Zeo.C88_both, Zeo.C88_order_false, Zeo.C88_agrees, Zeo.C88_order_vert, Zeo.C89_read, Zeo.C89_count, Zeo.C89_move_false, Zeo.C89_grow_false, Zeo.C89_turns_false, Zeo.C89_matrix_false, Zeo.C89_twice_false, Zeo.C89_hidden_false, Zeo.C89_library_false, Zeo.C89_polygon_false, Zeo.C89_source_false, Zeo.C89_accessor_false, Zeo.C90_fit, Zeo.C90_stationary, Zeo.C91_inscribed, Zeo.C91_divisions, Zeo.C91_ellips, Zeo.C91_convert, Zeo.C91_refused, Zeo.C91_ecyl_false, Zeo.C91_multi, Zeo.C91_multi_fail, Zeo.C91_multi_false, Zeo.C91_tip_false, Zeo.C92_shapes, Zeo.C92_empty_false, Zeo.C92_unify_partial, Zeo.C92_unify_false, Zeo.C93_import, Zeo.C93_refused, Zeo.C93_readFile, Zeo.C93_ztk_false, Zeo.C93_ztk_behind, Zeo.C93_scale_false, Zeo.C93_self_false, Zeo.C93_suffix_false, Zeo.C94_match, Zeo.C94_equal, Zeo.C94_isTol, Zeo.C94_refl_symm, Zeo.C94_drift, Zeo.C94_trans_false, Zeo.C94_xform, Zeo.C94_xform_plane, Zeo.C94_ident, Zeo.C94_ep, Zeo.C94_ep_false, Zeo.C94_expand, Zeo.C94_createFromSize, Zeo.C94_vert, Zeo.C94_sort, Zeo.C95_div, Zeo.C95_div_zero, Zeo.C95_div_false, Zeo.C95_transpose, Zeo.C95_transpose_false, Zeo.C95_inv, Zeo.C95_inv_plane, Zeo.C95_inv_false, Zeo.C95_mulT, Zeo.C95_mulT_false, Zeo.C95_frame, Zeo.C95_ep, Zeo.C95_nearest, Zeo.C96_defined, Zeo.C96_leaks, Zeo.C96_life, Zeo.C96_life_false, Zeo.C96_leaks_false, Zeo.C96_twice, Zeo.C96_once, Zeo.C96_read, Zeo.C96_read_false, Zeo.C96_mirror, Zeo.C96_mirror_false, Zeo.C96_ph_destroy, Zeo.C96_ph_clone, Zeo.C96_ph_mirror, Zeo.C96_ph_new, Zeo.C97_alloc, Zeo.C97_alloc_false, Zeo.C97_clone, Zeo.C97_mirror_false, Zeo.C97_xform, Zeo.C97_xform_false, Zeo.C97_closest_partial, Zeo.C97_inside_false, Zeo.C97_inertia_false, Zeo.C98_map, Zeo.C98_init, Zeo.C98_net, Zeo.C98_used_false, Zeo.C99_clone, Zeo.C99_mirror, Zeo.C99_scale, Zeo.C99_flip, Zeo.C99_self_false, Zeo.C99_xform_self, Zeo.C99_xform, Zeo.C99_xform_false

## Quot.sound, propext (43 theorems)

Zeo.C01_outer, Zeo.C01_outer_antisymm, Zeo.C01_jacobi, Zeo.C02_mat3, Zeo.C02_mat3_distinct, Zeo.C02_xform, Zeo.C02_frame3, Zeo.C02_frame2, Zeo.C02_vec6, Zeo.C02_vec2_interDiv_first, Zeo.C02_vec6_sums, Zeo.C02_vec6_div, Zeo.C02_mat6_add, Zeo.C05_singular_not_reported, Zeo.C06_mat3_laws, Zeo.C06_mat2_laws, Zeo.C13_cascade, Zeo.C13_chain, Zeo.C15_shift, Zeo.C15_shift_adjoint, Zeo.C15_shift_comp, Zeo.C15_xform_adjoint, Zeo.C17_sqrDist, Zeo.C17_upper_differ, Zeo.C26_merge, Zeo.C26_colChk_complete, Zeo.C26_intersect, Zeo.C26_enlarge, Zeo.C35_shows_unique, Zeo.C35_list, Zeo.C35_array_partial, Zeo.C35_array_fill, Zeo.C35_readonly, Zeo.C35_wf, Zeo.C39_recursive, Zeo.C44_geometry, Zeo.C47_set, Zeo.C47_hex_partial, Zeo.C47_name, Zeo.C53_foreign_keys, Zeo.C54_ident_loop, Zeo.C54_ident_one, Zeo.C78_fan

## propext (6 theorems)

Zeo.C35_list_accepts, Zeo.C35_list_needs_rewind, Zeo.C48_axis_roundtrip, Zeo.C48_axis_invalid, Zeo.C48_dir_roundtrip, Zeo.C48_dirRev

## none (2 theorems)

Zeo.C41_div_one_overflow, Zeo.C48_dirFromStr
