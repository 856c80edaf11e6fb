# Axioms of each theorem

From `#print axioms` on every theorem named in `MANIFEST.json`.

## none

`Verif.Errors.C96_null_fails`, `Verif.Errors.C97_dimension`

## `Classical.choice`, `Quot.sound`, `propext`

`Verif.BoostGeo.C90_boolean_partial`, `Verif.BoostGeo.C90_empty_fails`, `Verif.BoostGeo.C90_holes_fails`, `Verif.BoostGeo.C90_queries`, `Verif.BoostGeo.C90_reduce_partial`, `Verif.BoostGeo.C91_clip_partial`, `Verif.BoostGeo.C91_clip_several`, `Verif.BoostGeo.C91_outside_fails`, `Verif.BoostGeo.C91_shared_fails`, `Verif.CApi.C74_export`, `Verif.CApi.C74_hull_fails`, `Verif.CApi.C74_lost_fails`, `Verif.CApi.C74_roundtrip_partial`, `Verif.CApi.C74_shared_fails`, `Verif.CApi.C75_empty_fails`, `Verif.CApi.C75_iff`, `Verif.CApi.C75_safe_partial`, `Verif.CApi.C76_history`, `Verif.CApi.C76_holes`, `Verif.CApi.C76_invalid`, `Verif.CApi.C76_nodes`, `Verif.Canned.C88_cylinder_collision_fails`, `Verif.Canned.C88_cylinder_noshift_fails`, `Verif.Canned.C88_cylinder_partial`, `Verif.Canned.C88_one_ring_fails`, `Verif.Canned.C88_sphere_collision_fails`, `Verif.Canned.C88_sphere_noshift_fails`, `Verif.Canned.C88_sphere_partial`, `Verif.Canned.C88_sphere_points`, `Verif.Canned.C88_undefined_fails`, `Verif.Canned.C88_zero_radius_fails`, `Verif.Cells1d.C95_cells`, `Verif.Cells1d.C95_few_fails`, `Verif.Cells1d.C95_outside_fails`, `Verif.Cells1d.C95_repeated_fails`, `Verif.Cells1d.C95_sort`, `Verif.Cells1d.C95_sorted`, `Verif.Check.C50_applies_to_C66`, `Verif.Check.C50_ok_iff`, `Verif.Check.C50_report_fails`, `Verif.Check.C50_same_partial`, `Verif.Csg.C42_3d`, `Verif.Csg.C42_partial`, `Verif.Csg.C42_reversed_fails`, `Verif.Csg.C43_exchange`, `Verif.Csg.C43_exchange_3d`, `Verif.Csg.C44_clip`, `Verif.Csg.C44_clipTo`, `Verif.Csg.C44_clipTo_3d`, `Verif.Csg.C44_clip_3d`, `Verif.Csg.C44_halfspace`, `Verif.Csg.C45_add`, `Verif.Csg.C45_add_3d`, `Verif.Csg.C45_build`, `Verif.Csg.C45_build_3d`, `Verif.Csg.C63_holes_fails`, `Verif.Csg.C63_intersect_partial`, `Verif.Csg.C63_reversed_fails`, `Verif.Csg.C63_subtract_partial`, `Verif.Csg.C63_union_partial`, `Verif.Csg.C64_chain_fails`, `Verif.Csg.C64_disjoint_fails`, `Verif.Csg.C64_orientation_fails`, `Verif.Csg.C67_any_intersect_boundary_partial`, `Verif.Csg.C67_any_intersect_partial`, `Verif.Csg.C67_any_subtract_boundary_partial`, `Verif.Csg.C67_any_subtract_partial`, `Verif.Csg.C67_any_union_boundary_partial`, `Verif.Csg.C67_any_union_partial`, `Verif.Csg.C67_intersect_partial`, `Verif.Csg.C67_returns_fails`, `Verif.Csg.C67_subtract_partial`, `Verif.Csg.C67_undefined_fails`, `Verif.Csg.C67_union_partial`, `Verif.Driver.C72_bounded_partial`, `Verif.Driver.C72_box_partial`, `Verif.Driver.C73_bounded_partial`, `Verif.Driver.C73_box`, `Verif.Driver.C73_order_fails`, `Verif.Driver.C73_orphans_fails`, `Verif.Driver.C73_success_partial`, `Verif.Driver3.C103_checked_fails`, `Verif.Driver3.C103_degenerate_box_fails`, `Verif.Driver3.C103_degenerate_fails`, `Verif.Driver3.C103_degenerate_silent_fails`, `Verif.Driver3.C103_silent_fails`, `Verif.Driver3.C103_unchecked_fails`, `Verif.Editor.C10_delete_cells_fails`, `Verif.Editor.C10_delete_cells_partial`, `Verif.Editor.C51_clean_mesh_unchanged`, `Verif.Editor.C51_matching`, `Verif.Editor.C51_removed_are_short`, `Verif.Editor.C53_again_fails`, `Verif.Editor.C53_three_sides_fails`, `Verif.Editor.C53_valid_mesh_partial`, `Verif.Editor.C84_boundary_fails`, `Verif.Editor.C84_clean_together_partial`, `Verif.Editor.C84_lifetime_fails`, `Verif.Editor.C84_no_neighbour_fails`, `Verif.Editor.C84_several_neighbours_fails`, `Verif.Editor.C84_several_neighbours_release_fails`, `Verif.Errors.C96_all`, `Verif.Errors.C96_continue_fails`, `Verif.Errors.C96_delaunay`, `Verif.Errors.C96_delivery`, `Verif.Errors.C97_box`, `Verif.Errors.C97_name_fails`, `Verif.Errors.C97_plc`, `Verif.Errors.C97_unbounded`, `Verif.Exch.C48_applies_to_C47`, `Verif.Exch.C48_exchange_partial`, `Verif.Exch.C48_identical_partial`, `Verif.Exch.C49_default_fails`, `Verif.Exch.C65_generators_partial`, `Verif.Exch.C65_owners_partial`, `Verif.Exch.C66_faces`, `Verif.Exch.C66_key3_fails`, `Verif.Exch.C66_lists`, `Verif.Exch.C66_sharing`, `Verif.Exch.C66_ties_fails`, `Verif.Geom.C22_all_used_partial`, `Verif.Geom.C22_facets_partial`, `Verif.Geom.C22_holes_fails`, `Verif.Geom.C23_box2`, `Verif.Geom.C23_box3`, `Verif.Geom.C24_circle`, `Verif.Geom.C24_circle_area`, `Verif.Geom.C24_too_few`, `Verif.Geom.C25_cell2`, `Verif.Geom.C25_cell3`, `Verif.Geom.C26_circumcenter`, `Verif.Geom.C26_circumcenter2d`, `Verif.Geom.C26_circumcenter3d`, `Verif.Geom.C26_tiny_triangle_fails`, `Verif.Geom.C26_triangle3d_partial`, `Verif.Geom.C27_area`, `Verif.Geom.C28_listing`, `Verif.Geom.C28_listing3`, `Verif.Geom.C28_polygon`, `Verif.Geom.C28_polyhedron`, `Verif.Geom.C28_polyhedron_result`, `Verif.Geom.C28_translate`, `Verif.Geom.C28_translate3`, `Verif.Geom.C29_nearestPoint`, `Verif.Geom.C29_no_facets`, `Verif.Geom.C29_segment_near`, `Verif.Geom.C29_segment_partial`, `Verif.Geom.C29_short_segment_fails`, `Verif.Geom.C30_complete`, `Verif.Geom.C30_exact`, `Verif.Geom.C30_near_miss_fails`, `Verif.Geom.C30_sound_partial`, `Verif.Geom.C31_box`, `Verif.Geom.C31_convex`, `Verif.Geom.C31_convex_cw`, `Verif.Geom.C31_crossings`, `Verif.Geom.C31_cut`, `Verif.Geom.C31_direction`, `Verif.Geom.C31_even_odd`, `Verif.Geom.C31_region`, `Verif.Geom.C31_start`, `Verif.Geom.C31_translate`, `Verif.Geom.C31_triangle`, `Verif.Geom.C32_intersect`, `Verif.Geom.C32_self_fails`, `Verif.Geom.C32_touch_fails`, `Verif.Geom.C32_within`, `Verif.Geom.C33_coarse_fails`, `Verif.Geom.C33_grid_partial`, `Verif.Geom.C33_hull_partial`, `Verif.Geom.C33_line`, `Verif.Geom.C33_order_fails`, `Verif.Geom.C33_snap`, `Verif.Geom.C34_box_axis_fails`, `Verif.Geom.C34_box_outside_fails`, `Verif.Geom.C34_box_partial`, `Verif.Geom.C34_circle`, `Verif.Geom.C34_circle_outside_fails`, `Verif.Geom.C34_plane_inside_fails`, `Verif.Geom.C34_plane_parallel_fails`, `Verif.Geom.C34_plane_partial`, `Verif.Geom.C34_sphere`, `Verif.Geom.C36_3d_bounds_fails`, `Verif.Geom.C36_3d_debug_fails`, `Verif.Geom.C36_3d_partial`, `Verif.Geom.C36_below_fails`, `Verif.Geom.C36_boundary`, `Verif.Geom.C36_bounds`, `Verif.Geom.C36_ends`, `Verif.Geom.C36_flat_fails`, `Verif.Geom.C36_monotone`, `Verif.Geom.C36_outside_fails`, `Verif.Geom.C36_point`, `Verif.Geom.C36_quantize`, `Verif.Geom.C36_stable`, `Verif.Geom.C39_consistent`, `Verif.Geom.C39_fill`, `Verif.Geom.C39_refill_fails`, `Verif.Geom.C39_uses`, `Verif.Geom.C54_degenerate_face_fails`, `Verif.Geom.C54_short_edge_fails`, `Verif.Geom.C54_volume`, `Verif.Geom.C55_horizontal_fails`, `Verif.Geom.C55_sound_partial`, `Verif.Geom.C56_cloud_2d`, `Verif.Geom.C56_cloud_partial`, `Verif.Geom.C56_three_points_fails`, `Verif.Geom.C57_complete2_partial`, `Verif.Geom.C57_complete_partial`, `Verif.Geom.C57_short2_fails`, `Verif.Geom.C57_short_fails`, `Verif.Geom.C57_sound`, `Verif.Geom.C57_sound2`, `Verif.Geom.C58_complete`, `Verif.Geom.C58_near_fails`, `Verif.Geom.C58_sound_partial`, `Verif.Geom.C59_facets_ignored`, `Verif.Geom.C59_shape_partial`, `Verif.Geom.C59_start_fails`, `Verif.Geom.C59_within_partial`, `Verif.Geom.C60_disjoint_partial`, `Verif.Geom.C60_edge_fails`, `Verif.Geom.C60_intersect_facets_only`, `Verif.Geom.C60_normal_fails`, `Verif.Geom.C60_within_fails`, `Verif.Geom.C60_within_partial`, `Verif.Geom.C60_zero_normal_fails`, `Verif.Geom.C62_tet`, `Verif.Geom.C62_triangle`, `Verif.Hash.C21_fails`, `Verif.Hash.C21_partial`, `Verif.Hash.C21_undefined_fails`, `Verif.Hash.C37_3d_undefined_fails`, `Verif.Hash.C37_collision_fails`, `Verif.Hash.C37_hash_partial`, `Verif.Hash.C37_outer_fails`, `Verif.Hash.C37_undefined_fails`, `Verif.Hash.C37_unhash_fails`, `Verif.Hash.C37_unhash_partial`, `Verif.Hull3.C79_collision_fails`, `Verif.Hull3.C79_defined`, `Verif.Hull3.C79_partial`, `Verif.Hull3.C79_repeats_fails`, `Verif.Hull3.C79_undefined_fails`, `Verif.Internal.C14_remove_exact`, `Verif.Internal.C15_ascending`, `Verif.Internal.C15_descending_fails`, `Verif.Internal.C15_descending_partial`, `Verif.Internal.C15_descending_release`, `Verif.Internal.C16_dense_numbering`, `Verif.Internal.C17_hashEdge`, `Verif.Internal.C17_signed_ids`, `Verif.Internal.C20_closed`, `Verif.Internal.C20_gap_fails`, `Verif.Internal.C20_gap_partial`, `Verif.Mesh.C04_delete_consistent`, `Verif.Mesh.C04_result_shape`, `Verif.Mesh.C05_adjacency_unchanged`, `Verif.Mesh.C05_survivors_unchanged`, `Verif.Mesh.C06_no_orphans`, `Verif.Mesh.C07_two_step`, `Verif.Mesh.C08_domains_still_agree`, `Verif.Mesh.C08_shared_lists`, `Verif.Mesh.C09_boundary_lists_fails`, `Verif.Mesh.C09_boundary_lists_partial`, `Verif.Mesh.C09_boundary_lists_untouched`, `Verif.Mesh.C11_converse`, `Verif.Mesh.C11_nodeCells`, `Verif.Mesh.C12_after_delete`, `Verif.Mesh.C12_boundary_exact`, `Verif.Nbr.C101_boundary`, `Verif.Nbr.C101_cells_partial`, `Verif.Nbr.C101_copy`, `Verif.Nbr.C77_adjacent_partial`, `Verif.Nbr.C77_exact`, `Verif.Nbr.C77_exchange`, `Verif.Nbr.C77_overlap`, `Verif.Nbr.C77_some`, `Verif.Nbr.C77_symmetric`, `Verif.Nbr.C78_cells_partial`, `Verif.Nbr.C78_disjoint`, `Verif.Nbr.C78_exchange_partial`, `Verif.Nbr.C78_local`, `Verif.Nbr.C78_serial`, `Verif.Nbr.C78_sharing_partial`, `Verif.Nbr.Ex.C77_hidden_fails`, `Verif.Nbr.Ex.C78_hidden_fails`, `Verif.Oogl.C82_2d_fails`, `Verif.Oogl.C82_2d_partial`, `Verif.Oogl.C82_3d_partial`, `Verif.Oogl.C82_holes_fails`, `Verif.Par.C46_empty_process_fails`, `Verif.Par.C46_owner`, `Verif.Par.C46_partition_partial`, `Verif.Par.C47_agree`, `Verif.PointMap.C18_clusters`, `Verif.PointMap.C18_have_3d_fails`, `Verif.PointMap.C18_have_complete`, `Verif.PointMap.C18_have_partial`, `Verif.PointMap.C18_history`, `Verif.PointMap.C18_release_total`, `Verif.Points.C19_3d_fails`, `Verif.Points.C19_debug_partial`, `Verif.Points.C19_distinct_partial`, `Verif.Points.C19_interleave_partial`, `Verif.Points.C19_wide_fails`, `Verif.Points.C52_fuzzy_fails`, `Verif.Points.C52_fuzzy_partial`, `Verif.Poly.C92_boundary`, `Verif.Poly.C92_convex`, `Verif.Poly.C92_edge`, `Verif.Poly.C92_inside`, `Verif.Poly.C92_overlap_fails`, `Verif.Poly.C92_vertex`, `Verif.Poly.C93_closest`, `Verif.Poly.C93_distance_fails`, `Verif.Poly.C93_nearest_fails`, `Verif.Poly.C93_parallel_fails`, `Verif.Poly.C93_project_fails`, `Verif.Poly.C93_project_partial`, `Verif.Props.C102_clip_partial`, `Verif.Props.C102_touching_fails`, `Verif.Props.C104_add`, `Verif.Props.C104_assertValid_aborts_fails`, `Verif.Props.C104_edgeFaces`, `Verif.Props.C104_faceCells`, `Verif.Props.C104_faces_partial`, `Verif.Props.C104_nodeEdges`, `Verif.Props.C104_position_flat_fails`, `Verif.Props.C104_position_partial`, `Verif.Props.C104_same_id`, `Verif.Props.C105_assertions`, `Verif.Props.C105_on_line_fails`, `Verif.Props.C105_topology_partial`, `Verif.Props.C106_reported_partial`, `Verif.Props.C106_through_fails`, `Verif.Props.C107_coarsen_fails`, `Verif.Props.C107_subscript`, `Verif.Props.C107_undo`, `Verif.Props.C108_area_partial`, `Verif.Props.C108_corners_partial`, `Verif.Props.C108_erased_fails`, `Verif.Props.C108_holes_fails`, `Verif.Props.C108_long_facets_partial`, `Verif.Props.C108_rectangle_fails`, `Verif.Props.C108_short_facets_fails`, `Verif.Props.C109_boundary_partial`, `Verif.Props.C109_reused_fails`, `Verif.Props.C110_each_lost_fails`, `Verif.Props.C110_each_partial`, `Verif.Props.C110_lost_fails`, `Verif.Props.C110_many_partial`, `Verif.Props.C110_neighborhood_fails`, `Verif.Props.C110_no_neighbor_fails`, `Verif.Props.C110_others`, `Verif.Props.C110_single_partial`, `Verif.Props.C110_snap`, `Verif.Props.C86_collinear_fails`, `Verif.Props.C86_exact_fails`, `Verif.Props.C86_exact_padded`, `Verif.Props.C86_exactinit`, `Verif.Props.C86_flat_fails`, `Verif.Props.C86_orient2d_decides_partial`, `Verif.Props.C86_orient2d_padded`, `Verif.Props.C86_orient2d_partial`, `Verif.Props.C86_orient2dfast`, `Verif.Props.C86_orient2dfast_fails`, `Verif.Props.C86_uninitialised_fast`, `Verif.Props.C86_uninitialised_orient2d`, `Verif.Props.C86_wrong_sign_fails`, `Verif.Props.C87_expansion_sum`, `Verif.Props.C87_fast_two_sum`, `Verif.Props.C87_two_diff`, `Verif.Props.C87_two_product`, `Verif.Props.C87_two_product_uninitialised_fails`, `Verif.Props.C87_two_sum`, `Verif.Props.C98_exactinit`, `Verif.Props.C98_incircle_decides_partial`, `Verif.Props.C98_incircle_on_circle_fails`, `Verif.Props.C98_incircle_own_partial`, `Verif.Props.C98_incircle_partial`, `Verif.Props.C98_incirclefast`, `Verif.Props.C98_insphere_decides_partial`, `Verif.Props.C98_insphere_on_sphere_fails`, `Verif.Props.C98_insphere_own_partial`, `Verif.Props.C98_insphere_partial`, `Verif.Props.C98_inspherefast`, `Verif.Props.C98_orient3d_decides_partial`, `Verif.Props.C98_orient3d_exact_partial`, `Verif.Props.C98_orient3d_full_fails`, `Verif.Props.C98_orient3d_last_fails`, `Verif.Props.C98_orient3d_lattice_partial`, `Verif.Props.C98_orient3d_partial`, `Verif.Props.C98_orient3dfast`, `Verif.Props.C98_scale`, `Verif.Props.C98_uninitialised_fails`, `Verif.Py.C100_empty_fails`, `Verif.Py.C100_hull_partial`, `Verif.Py.C100_short_fails`, `Verif.Py.C100_write2_partial`, `Verif.Py.C100_write3_partial`, `Verif.Py.C99_cellToNodes`, `Verif.Py.C99_coords2`, `Verif.Py.C99_coords3`, `Verif.Py.C99_zone2`, `Verif.Py.C99_zone3`, `Verif.QC.C94_boundary`, `Verif.QC.C94_boundary3_fails`, `Verif.QC.C94_degeneracy_fails`, `Verif.QC.C94_disc`, `Verif.QC.C94_expand`, `Verif.QC.C94_expand_mpi`, `Verif.QC.C94_expands`, `Verif.QC.C94_flat_fails`, `Verif.QC.C94_history`, `Verif.QC.C94_initialize`, `Verif.QC.C94_inner`, `Verif.QC.C94_inner_quantize`, `Verif.QC.C94_modified`, `Verif.QC.C94_mpi_fails`, `Verif.QC.C94_origin_fails`, `Verif.QC.C94_overflow_fails`, `Verif.QC.C94_project`, `Verif.QC.C94_quantize`, `Verif.QC.C94_roundtrip`, `Verif.QC.C94_separates`, `Verif.QC.C94_sphere_fails`, `Verif.QC.C94_stale_fails`, `Verif.QC.C94_two_fails`, `Verif.Readout.C38_boost`, `Verif.Readout.C38_boost_closed`, `Verif.Readout.C38_boost_mesh`, `Verif.Readout.C38_boost_shared`, `Verif.Readout.C38_clip_partial`, `Verif.Readout.C38_orphans_fails`, `Verif.Readout.C38_unbounded_fails`, `Verif.Readout.C40_abort_iff`, `Verif.Readout.C40_compact`, `Verif.Readout.C40_keeps_used`, `Verif.Serialize.C01_injective`, `Verif.Serialize.C01_round_trip`, `Verif.Serialize.C02_stream_round_trip`, `Verif.Serialize.C02_stream_round_trip_at`, `Verif.Serialize.C02_truncated_rejected`, `Verif.Serialize.C03_replace_partial`, `Verif.Serialize.C03_vector_appends`, `Verif.Silo.C80_2d_partial`, `Verif.Silo.C80_3d_partial`, `Verif.Silo.C80_edge_fields_fails`, `Verif.Silo.C80_lengths_fails`, `Verif.Silo.C80_same_file_2d`, `Verif.Silo.C80_same_file_3d`, `Verif.Silo.C81_cycle`, `Verif.Silo.C81_directory_fails`, `Verif.Silo.C81_file_name`, `Verif.Silo.C81_iff`, `Verif.Silo.C81_names_fails`, `Verif.Silo.C81_partial`, `Verif.Silo.C81_shared_file_fails`, `Verif.Silo.C83_2d_partial`, `Verif.Silo.C83_3d_partial`, `Verif.Silo.C83_describes_2d_partial`, `Verif.Silo.C83_describes_3d_partial`, `Verif.Silo.C83_hull_fails`, `Verif.Silo.C83_leak_fails`, `Verif.Silo.C83_plain`, `Verif.Simplify.C85_holes_fails`, `Verif.Simplify.C85_orientation_fails`, `Verif.Simplify.C85_short_sides_fails`, `Verif.Simplify.C85_simplify_partial`, `Verif.Simplify3.C89_annulus_fails`, `Verif.Simplify3.C89_flats`, `Verif.Simplify3.C89_holes_fails`, `Verif.Simplify3.C89_order_fails`, `Verif.Simplify3.C89_orientation_fails`, `Verif.Simplify3.C89_pinch_fails`, `Verif.Simplify3.C89_simplify3_partial`, `Verif.Simplify3.C89_small_fails`, `Verif.Simplify3.C89_tiny_fails`, `Verif.Snap.C41_3d_fails`, `Verif.Snap.C41_checked`, `Verif.Snap.C41_release_partial`, `Verif.Snap.C41_success`, `Verif.Snap.C41_tie_fails`, `Verif.Tri.C68_dual`, `Verif.Tri.C68_mesh`, `Verif.Tri.C69_direction_fails`, `Verif.Tri.C69_direction_partial`, `Verif.Tri.C69_length_fails`, `Verif.Tri.C70_left_out_fails`, `Verif.Tri.C70_one_place_fails`, `Verif.Tri.C70_tessellate_partial`, `Verif.Tri.C71_box`, `Verif.Tri.C72_degenerate_partial`, `Verif.Tri.C72_merged_fails`

## `Quot.sound`, `propext`

`Verif.CApi.C74_import_partial`, `Verif.Csg.C43_twice`, `Verif.Csg.C43_twice_3d`, `Verif.Editor.C10_bad_id_aborts`, `Verif.Errors.C97_mesh_dimension_fails`, `Verif.Errors.C97_plc_dimension_fails`, `Verif.Exch.C48_no_neighbour_fails`, `Verif.Exch.C49_removal_partial`, `Verif.Exch.C65_no_neighbour_fails`, `Verif.Exch.C66_after_C65`, `Verif.Exch.C66_key2`, `Verif.Geom.C22_out_of_range`, `Verif.Geom.C23_makeBox2_partial`, `Verif.Geom.C26_circumcenter3d_flat`, `Verif.Geom.C30_parallel`, `Verif.Geom.C35_boundary`, `Verif.Geom.C35_box`, `Verif.Geom.C35_expand`, `Verif.Geom.C35_expand_global`, `Verif.Geom.C35_global`, `Verif.Geom.C35_split`, `Verif.Geom.C35_unbounded`, `Verif.Geom.C61_valid2`, `Verif.Geom.C61_valid3`, `Verif.Hash.C37_3d_collision_fails`, `Verif.Internal.C15_empty_fails`, `Verif.Mesh.C11_cellToNodes`, `Verif.Nbr.C101_history`, `Verif.Nbr.C101_holes_fails`, `Verif.Nbr.C78_cover`, `Verif.Points.C19_undefined_fails`, `Verif.Poly.C93_last_fails`, `Verif.Props.C102_outside_fails`, `Verif.Props.C102_self_fails`, `Verif.Props.C102_self_partial`, `Verif.Props.C104_assertValid_fails`, `Verif.Props.C104_backwards_fails`, `Verif.Props.C104_position_flat_z`, `Verif.Props.C107_coarsen_partial`, `Verif.Props.C107_division_undefined`, `Verif.Props.C107_negative_fails`, `Verif.Props.C107_negative_partial`, `Verif.Props.C107_plane`, `Verif.Props.C107_space`, `Verif.Props.C109_order_fails`, `Verif.Props.C109_rings`, `Verif.Py.C100_box_long_fails`, `Verif.Py.C100_box_partial`, `Verif.Py.C100_box_short`, `Verif.Py.C100_coords_fails`, `Verif.Py.C100_coords_partial`, `Verif.Py.C99_faces_fails`, `Verif.Py.C99_faces_partial`, `Verif.Serialize.C01_needs_small`, `Verif.Serialize.C02_corrupt_safe`, `Verif.Serialize.C03_replace_fails`, `Verif.Silo.C80_conn_fails`, `Verif.Silo.C80_empty_cell_fails`, `Verif.Silo.C80_facecells_fails`, `Verif.Silo.C80_tags_fails`

## `propext`

`Verif.CApi.C75_print_fails`, `Verif.Geom.C23_makeBox3_fails`, `Verif.Geom.C56_two_points_fails`, `Verif.Geom.C61_empty`, `Verif.Internal.C17_equal_ids_abort`, `Verif.Mesh.C13_clear`, `Verif.Mesh.C13_empty_iff`, `Verif.Mesh.C13_empty_ignores_comm`, `Verif.Points.C52_point2`, `Verif.Points.C52_point3`, `Verif.Py.C99_z2`, `Verif.Serialize.C01_only_appends`
