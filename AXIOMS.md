# Axioms of the theorems

Output of `#print axioms` for every theorem of `MANIFEST.json`, by the axioms it depends on. `propext`,
`Classical.choice` and `Quot.sound` are the axioms of Lean itself.

## no axioms

* C57: `Freud.Compute.C57_cluster_counterexample`
* C60: `Freud.Interface.C60_default_neighbors_counterexample`
* C88: `Freud.C88_no_points_counterexample`, `Freud.C88_no_equivalents_counterexample`

## `propext`

* C09: `Freud.C09_flat_access`
* C12: `Freud.C12_storage_needs_zero_counterexample`
* C51: `Freud.C51_index_absent_counterexample`, `Freud.C51_assignment_counterexample`
* C56: `Freud.Compute.C56_reads_do_not_matter`
* C57: `Freud.Compute.C57_checks_first`, `Freud.Compute.C57_validate_first`
* C58: `Freud.Parallel.C58_constructed_earlier_counterexample`, `Freud.Parallel.C58_reentered_counterexample`, `Freud.Parallel.C58_too_large_counterexample`
* C60: `Freud.Interface.C60_failed_compute`

## `Quot.sound`, `propext`

* C01: `Freud.C01_constructed_valid`, `Freud.C01_wrap_aperiodic`
* C07: `Freud.C07_volume_is_det`, `Freud.C07_matrix_columns`
* C08: `Freud.C08_copy_partial`, `Freud.C08_cpp_copy`
* C09: `Freud.C09_boundary_counterexample`
* C11: `Freud.C11_wrong_dimension`
* C13: `Freud.C13_read_idempotent`
* C29: `Freud.C29_raises_iff`
* C33: `Freud.C33_canonical_unique`
* C37: `Freud.C37_dimension_change_raises`, `Freud.C37_grid`, `Freud.C37_constructor`
* C38: `Freud.C38_grid`, `Freud.C38_dimension_change_raises`
* C39: `Freud.C39_constructor`
* C40: `Freud.C40_wrong_dimension_2D`, `Freud.C40_changed_number_raises`, `Freud.C40_wrong_dimension_3D`, `Freud.C40_same_number_accepted`, `Freud.C40_r12_exchange`, `Freud.C40_xyz_coordinates`
* C48: `Freud.C48_sizes_differ`, `Freud.C48_no_vectors`
* C51: `Freud.C51_bijection`, `Freud.C51_emplace`, `Freud.C51_lookups`, `Freud.C51_index_present`
* C52: `Freud.C52_sizes_differ`
* C53: `Freud.C53_rotate_is_rotation`, `Freud.C53_composition`, `Freud.C53_matrix`
* C56: `Freud.Compute.C56_available_iff`
* C57: `Freud.Compute.C57_histogram_partial`
* C61: `Freud.C61_assignments_consistent_partial`, `Freud.C61_constructed`, `Freud.C61_assignment_visible`
* C88: `Freud.C88_default_values_counterexample`, `Freud.C88_cluster_counterexample`, `Freud.C88_projection_counterexample`, `Freud.C88_angular_separation_counterexample`
* C102: `Freud.C102_equivalence`, `Freud.C102_equal_means_same_partial`
* C105: `Freud.C105_box_color_partial`, `Freud.C105_box_color_counterexample`
* C107: `Freud.C107_argument`

## `Classical.choice`, `Quot.sound`, `propext`

* C01: `Freud.C01_wrap_in_box`
* C02: `Freud.C02_wrap_idempotent`, `Freud.C02_wrap_translation`, `Freud.C02_wrap_eq_iff`
* C03: `Freud.C03_frac_abs_inverse`, `Freud.C03_fractional_meaning`
* C04: `Freud.C04_unwrap_wrap_partial`, `Freud.C04_contains_wrap_partial`, `Freud.C04_unwrap_counterexample`
* C05: `Freud.C05_distance_translation`, `Freud.C05_distance_zero_iff`, `Freud.C05_distance_symm_partial`, `Freud.C05_symmetry_counterexample`
* C06: `Freud.C06_orthorhombic_min_image`, `Freud.C06_short_image_is_min`, `Freud.C06_tilted_counterexample`, `Freud.C06_plane_distance_meaning`
* C07: `Freud.C07_matrix_roundtrip`, `Freud.C07_matrix_roundtrip_2D`, `Freud.C07_lengths_angles_roundtrip`
* C08: `Freud.C08_scale_partial`, `Freud.C08_periodicity_counterexample`
* C09: `Freud.C09_index_bijection`, `Freud.C09_checked_index_partial`, `Freud.C09_read_write`, `Freud.C09_new_array`
* C10: `Freud.C10_bin_iff`, `Freud.C10_overflow_iff`, `Freud.C10_edges`, `Freud.C10_centers`
* C11: `Freud.C11_counts_exact`, `Freud.C11_out_of_range_ignored`
* C12: `Freud.C12_thread_storage`, `Freud.C12_histogram`, `Freud.C12_equals_sequential`
* C13: `Freud.C13_counts_since_reset`, `Freud.C13_reads_ignored`, `Freud.C13_reset_forgets`
* C14: `Freud.C14_accepts_iff`, `Freud.C14_stores_bonds`
* C15: `Freud.C15_segments`, `Freud.C15_find_first_index`
* C16: `Freud.C16_filter`, `Freud.C16_short_mask_counterexample`, `Freud.C16_filter_r`, `Freud.C16_filter_r_raises_iff`
* C17: `Freud.C17_all_pairs`, `Freud.C17_pairs_exactly`, `Freud.C17_direction_counterexample`
* C18: `Freud.C18_reads_current`, `Freud.C18_copies_independent`, `Freud.C18_copy_equal`
* C19: `Freud.C19_by_distance`, `Freud.C19_by_index`, `Freud.C19_same_columns`, `Freud.C19_deterministic`, `Freud.C19_sort_exists`, `Freud.C19_index_order_counterexample`, `Freud.C19_vector_order_counterexample`
* C20: `Freud.C20_holds_found_bonds`, `Freud.C20_schedule_independent`, `Freud.C20_columns_schedule_independent`, `Freud.C20_result_exists`
* C21: `Freud.C21_every_point_once`, `Freud.C21_traversal`, `Freud.C21_equals_brute_force`
* C22: `Freud.C22_single_raises_iff`, `Freud.C22_ball_raises_iff`, `Freud.C22_ball_exact`, `Freud.C22_ball_nodup`, `Freud.C22_ball_min_image`
* C23: `Freud.C23_nearest_partial`, `Freud.C23_returns`, `Freud.C23_orthorhombic_reachable`, `Freud.C23_query_partial`, `Freud.C23_r_max_counterexample`, `Freud.C23_scale_counterexample`, `Freud.C23_r_guess_counterexample`, `Freud.C23_tilt_counterexample`
* C24: `Freud.CellShell.C24_every_offset_once`, `Freud.CellShell.C24_outwards`, `Freud.CellShell.C24_shell_start`
* C25: `Freud.LinkCell.C25_cells_partition`, `Freud.LinkCell.C25_cell_contains_point`, `Freud.LinkCell.C25_ball_exact`, `Freud.LinkCell.C25_ball_nodup`, `Freud.LinkCell.C25_ball_returns_iff`, `Freud.LinkCell.C25_constructed`, `Freud.LinkCell.C25_ball_brute_force`, `Freud.LinkCell.C25_agrees_with_AABBQuery`
* C26: `Freud.LinkCell.C26_nearest_partial`, `Freud.LinkCell.C26_enough_near_partial`, `Freud.LinkCell.C26_equal_planes_partial`, `Freud.LinkCell.C26_returns`, `Freud.LinkCell.C26_long_box_counterexample`
* C27: `Freud.C27_raises_iff`, `Freud.C27_ball_exact`, `Freud.C27_ball_brute_force`, `Freud.C27_agrees_with_AABBQuery`, `Freud.C27_sequence`, `Freud.C27_interleaved_partial`, `Freud.C27_interleaved_counterexample`, `Freud.C27_aperiodic_counterexample`
* C28: `Freud.C28_mode_inference`, `Freud.C28_bad_combinations_raise`, `Freud.C28_bad_numbers_raise_partial`, `Freud.C28_user_values_kept_partial`, `Freud.C28_validated_twice`, `Freud.C28_validation_idempotent`, `Freud.C28_non_periodic_raises`, `Freud.C28_valid_nearest_accepted`, `Freud.C28_valid_ball_accepted`, `Freud.C28_sentinel_counterexample`, `Freud.C28_tuple_not_periodic_counterexample`
* C29: `Freud.C29_buffer_box`, `Freud.C29_distance_exact`, `Freud.C29_distance_nodup`, `Freud.C29_images_exact`, `Freud.C29_images_nodup`, `Freud.C29_grouped`, `Freud.C29_images_ids`, `Freud.C29_contains_input`, `Freud.C29_aperiodic_counterexample`, `Freud.C29_upper_face_counterexample`
* C30: `Freud.C30_shell`, `Freud.C30_raises_iff`, `Freud.C30_wrong_size_raises`, `Freud.C30_schedule_independent`, `Freud.C30_result_exists`
* C31: `Freud.C31_open_exact`, `Freud.C31_closed_exact`, `Freud.C31_closed_subset_open`, `Freud.C31_closed_raises_iff`, `Freud.C31_open_never_raises`, `Freud.C31_schedule_independent`, `Freud.C31_result_exists`, `Freud.C31_blocking_is_geometric`
* C32: `Freud.C32_components`, `Freud.C32_never_blocked`, `Freud.C32_terminates`, `Freud.C32_finishes`, `Freud.C32_connected_when_done`
* C33: `Freud.C33_cluster_labels`, `Freud.C33_result_exists`
* C34: `Freud.C34_sizes_and_masses`, `Freud.C34_center`, `Freud.C34_center_of_mass_partial`, `Freud.C34_equal_masses_partial`, `Freud.C34_inertia`, `Freud.C34_gyration`, `Freud.C34_radius_of_gyration`, `Freud.C34_mass_counterexample`
* C35: `Freud.C35_constructor`, `Freud.C35_shell_volumes`, `Freud.C35_rdf`, `Freud.C35_n_r`, `Freud.C35_mean_of_frames`, `Freud.C35_varying_frames_counterexample`, `Freud.C35_stale_mode_counterexample`, `Freud.C35_n_r_misses_inner_counterexample`
* C36: `Freud.C36_constructor`, `Freud.C36_correlation`, `Freud.C36_default_query_values_counterexample`
* C37: `Freud.C37_marked_is_covered`, `Freud.C37_marked_iff_covered_partial`, `Freud.C37_missed_voxel_counterexample`
* C38: `Freud.C38_density_partial`, `Freud.C38_density_at_most_once`, `Freud.C38_distance_exists`, `Freud.C38_missed_voxel_counterexample`, `Freud.C38_double_count_counterexample`
* C39: `Freud.C39_local_density`, `Freud.C39_overlap`, `Freud.C39_bounds`, `Freud.C39_default_query`, `Freud.C39_far_neighbor_counterexample`
* C40: `Freud.C40_constructor_xy`, `Freud.C40_constructor_xyt`, `Freud.C40_constructor_r12`, `Freud.C40_constructor_xyz`, `Freud.C40_xy`, `Freud.C40_xyt`, `Freud.C40_r12`, `Freud.C40_xyz`, `Freud.C40_xy_coordinates`, `Freud.C40_xyt_coordinates`, `Freud.C40_r12_coordinates`, `Freud.C40_failed_call_fixes_number_counterexample`, `Freud.C40_zero_range_counterexample`
* C41: `Freud.C41_window`, `Freud.C41_direct`, `Freud.C41_nonneg_zero`
* C42: `Freud.C42_after_history`, `Freud.C42_batches_equal_one_call`, `Freud.C42_concatenated`, `Freud.C42_concatenated_images`, `Freud.C42_reset_forgets`, `Freud.C42_different_frames_counterexample`, `Freud.C42_images`, `Freud.C42_images_without_box_counterexample`
* C43: `Freud.C43_tensors`, `Freud.C43_symmetric_traceless`, `Freud.C43_flip_rescale`, `Freud.C43_permutation`, `Freud.C43_order_parameter`, `Freud.C43_aligned`, `Freud.C43_solver_failure`
* C44: `Freud.C44_bonds`, `Freud.C44_clusters`, `Freud.C44_clusters_exist`, `Freud.C44_normalized_range`, `Freud.C44_different_sizes_raise_counterexample`
* C45: `Freud.C45_unrotated_partial`, `Freud.C45_overflow_counterexample`
* C46: `Freud.AngSep.C46_min_angle`, `Freud.AngSep.C46_invariance`, `Freud.AngSep.C46_range`, `Freud.AngSep.C46_zero_iff`, `Freud.AngSep.C46_default_counterexample`, `Freud.AngSep.C46_global`
* C47: `Freud.AngSep.C47_what_is_computed`, `Freud.AngSep.C47_shapes`, `Freud.AngSep.C47_same_set_partial`, `Freud.AngSep.C47_swapped_counterexample`, `Freud.AngSep.C47_more_query_points_counterexample`, `Freud.AngSep.C47_out_of_bounds_counterexample`
* C48: `Freud.C48_matching`, `Freud.C48_found_partial`, `Freud.C48_greedy_counterexample`
* C49: `Freud.C49_history_partial`, `Freud.C49_second_compute_counterexample`, `Freud.C49_motif_history_partial`, `Freud.C49_rmsd_history_partial`
* C50: `Freud.C50_partition`, `Freud.C50_components`
* C52: `Freud.C52_tries_every_tuple`, `Freud.C52_matching_is_bijection`, `Freud.C52_not_minimal_counterexample`, `Freud.C52_registration`, `Freud.C52_empty_counterexample`
* C54: `Freud.Debye.C54_guards`, `Freud.Debye.C54_k_values`, `Freud.Debye.C54_one_value_counterexample`, `Freud.Debye.C54_mean`, `Freud.Debye.C54_no_frames`, `Freud.Debye.C54_zero`, `Freud.Debye.C54_bound`, `Freud.Debye.C54_first_value`, `Freud.Debye.C54_min_valid_k_counterexample`
* C55: `Freud.Direct.C55_guards`, `Freud.Direct.C55_mean`, `Freud.Direct.C55_range`, `Freud.Direct.C55_values`
* C56: `Freud.Compute.C56_applies`, `Freud.Compute.C56_msd_counterexample`
* C57: `Freud.Compute.C57_reset_first_counterexample`, `Freud.Compute.C57_box_replaced_counterexample`, `Freud.Compute.C57_msd_counterexample`
* C58: `Freud.Parallel.C58_reported_is_used`, `Freud.Parallel.C58_with_block`, `Freud.Parallel.C58_nested`, `Freud.Parallel.C58_with_object_partial`
* C59: `Freud.C59_exact`, `Freud.C59_count`, `Freud.C59_raises_iff`, `Freud.C59_noise`, `Freud.C59_fractional_partial`, `Freud.C59_fractional_counterexample`
* C60: `Freud.C60_listing_unique`, `Freud.Interface.C60_interface`, `Freud.Interface.C60_from_query`
* C61: `Freud.C61_dimensions_counterexample`
* C62: `Freud.C62_com_image_invariant`, `Freud.C62_com_coincident`, `Freud.C62_com_translation`, `Freud.C62_center_at_origin`, `Freud.C62_com_perm`, `Freud.C62_aperiodic_counterexample`
* C64: `Freud.C64_sann_data`, `Freud.C64_sann_sizes_partial`, `Freud.C64_rad_partial`, `Freud.C64_num_points_counterexample`, `Freud.C64_rad_data_counterexample`
* C66: `Freud.C66_per_point`, `Freud.C66_all_points`, `Freud.C66_schedule_independent`
* C67: `Freud.LBP.C67_max_projection`, `Freud.LBP.C67_invariance`, `Freud.LBP.C67_rows`, `Freud.LBP.C67_normalized_range`
* C68: `Freud.C68_kabsch_is_optimal`
* C69: `Freud.C69_aligned`, `Freud.C69_not_turned`
* C70: `Freud.C70_motif_match`, `Freud.C70_complete_partial`
* C71: `Freud.C71_rmsd`, `Freud.C71_sizes`
* C72: `Freud.C72_value_partial`, `Freud.C72_range_partial`, `Freud.C72_one_iff_partial`, `Freud.C72_relative_partial`, `Freud.C72_invariances`, `Freud.C72_sign`
* C73: `Freud.KPoints.C73_sound`, `Freud.KPoints.C73_nodup`, `Freud.KPoints.C73_complete_partial`, `Freud.KPoints.C73_octant_counterexample`, `Freud.KPoints.C73_tilted_counterexample`
* C74: `Freud.KPoints.C74_translation`, `Freud.KPoints.C74_opposite`, `Freud.KPoints.C74_order`, `Freud.KPoints.C74_images`, `Freud.KPoints.C74_wrap`, `Freud.KPoints.C74_read`, `Freud.KPoints.C74_incommensurate_counterexample`
* C75: `Freud.C75_value`, `Freud.C75_three_dimensional`, `Freud.C75_range`, `Freud.C75_perfect`, `Freud.C75_rotation`, `Freud.C75_reflection`, `Freud.C75_images`, `Freud.C75_regular`, `Freud.C75_foreign_list_counterexample`
* C76: `Freud.C76_harmonics`, `Freud.C76_value`, `Freud.C76_range`, `Freud.C76_nan`, `Freud.C76_deterministic`, `Freud.C76_images`, `Freud.C76_rotation`, `Freud.C76_ql_average_counterexample`
* C77: `Freud.C77_value`, `Freud.C77_odd`, `Freud.C77_large`
* C78: `Freud.C78_table`, `Freud.C78_large`
* C79: `Freud.C79_constructor`, `Freud.C79_solid_angles`, `Freud.C79_value`, `Freud.C79_total_partial`, `Freud.C79_directions`, `Freud.C79_rotation`, `Freud.C79_symmetric_list`, `Freud.C79_down_counterexample`, `Freud.C79_lbod_frame_counterexample`
* C80: `Freud.C80_neighbor_list`, `Freud.C80_vectors`, `Freud.C80_polytopes`, `Freud.C80_polygons`, `Freud.C80_surface`
* C81: `Freud.C81_value`, `Freud.C81_bounds`, `Freud.C81_voronoi`, `Freud.C81_arguments`, `Freud.C81_documentation_counterexample`
* C82: `Freud.C82_width`, `Freud.C82_value`, `Freud.C82_rotation_particle_local`, `Freud.C82_rotation_neighborhood`, `Freud.C82_more_query_points_counterexample`, `Freud.C82_errors`
* C83: `Freud.C83_value`, `Freud.C83_range`, `Freud.C83_symmetries`, `Freud.C83_best`, `Freud.C83_one_replicate`, `Freud.C83_schedule_counterexample`, `Freud.C83_arguments`
* C84: `Freud.C84_center`, `Freud.C84_range`, `Freud.C84_accepted`, `Freud.C84_value`, `Freud.C84_structure_factor`, `Freud.C84_images`, `Freud.C84_average`, `Freud.C84_wave_vectors`, `Freud.C84_transposed_counterexample`, `Freud.C84_images_counterexample`, `Freud.C84_failed_call_counterexample`, `Freud.C84_negative_weights_counterexample`
* C85: `Freud.C85_for_loop`, `Freud.C85_while_loop`, `Freud.C85_python_loop`, `Freud.C85_no_query_points_counterexample`, `Freud.C85_found_bonds`, `Freud.C85_same_neighbor_list`, `Freud.C85_same_bonds`, `Freud.C85_accepted_iff`, `Freud.C85_rdf`
* C63: `Freud.C63_saved_array`, `Freud.C63_saved_results_stay`, `Freud.C63_reads_do_not_change`, `Freud.C63_objects_independent`, `Freud.C63_no_reset_counterexample`, `Freud.C63_bond_arrays_stay`, `Freud.C63_sort_counterexample`, `Freud.C63_voronoi_list_counterexample`
* C65: `Freud.C65_sann_point`, `Freud.C65_sann`, `Freud.C65_rad_closed_point`, `Freud.C65_rad_closed`, `Freud.C65_rad_open`, `Freud.C65_unfiltered`, `Freud.C65_sann_end_to_end`, `Freud.C65_rad_closed_end_to_end`, `Freud.C65_rad_open_end_to_end`, `Freud.C65_sann_vectors_reversed`
* C86: `Freud.C86_bonds`, `Freud.C86_shift_and_wrap`, `Freud.C86_rdf`, `Freud.C86_neighbor_lists`, `Freud.C86_local_density`, `Freud.C86_hexatic`, `Freud.C86_cluster`, `Freud.C86_outside_counterexample`, `Freud.C86_steinhardt`
* C87: `Freud.C87_points`, `Freud.C87_points_raise_iff`, `Freud.C87_query_single_point`, `Freud.C87_box`, `Freud.C87_required_dimensions`, `Freud.C87_from_box_dimensions`, `Freud.C87_forms_partial`, `Freud.C87_same_system_partial`, `Freud.C87_mdanalysis_counterexample`, `Freud.C87_rotated_counterexample`, `Freud.C87_neighbors`, `Freud.C87_call_bonds`, `Freud.C87_call_accepted`
* C88: `Freud.C88_checked`, `Freud.C88_suitable_partial`, `Freud.C88_pair_values_iff`, `Freud.C88_orientations_iff`, `Freud.C88_bond_order_refuses`, `Freud.C88_masses_counterexample`
* C89: `Freud.C89_bonds`, `Freud.C89_neighbor_lists`, `Freud.C89_rdf`, `Freud.C89_local_density`, `Freud.C89_hexatic`, `Freud.C89_cluster`, `Freud.C89_steinhardt`, `Freud.C89_msd`, `Freud.C89_times`, `Freud.C89_times_counterexample`
* C90: `Freud.C90_rounding`, `Freud.C90_bin_exists_partial`, `Freud.C90_monotone`, `Freud.C90_outside`, `Freud.C90_first`, `Freud.C90_within_one_partial`, `Freud.C90_powers_of_two`, `Freud.C90_edges_counterexample`, `Freud.C90_missing_bin_counterexample`
* C91: `Freud.C91_wrap_in_box_partial`, `Freud.C91_wrap_error`, `Freud.C91_images_partial`, `Freud.C91_images_counterexample`, `Freud.C91_idempotent_counterexample`, `Freud.C91_tilted_counterexample`
* C92: `Freud.C92_sum_error`, `Freud.C92_schedules`, `Freud.C92_counts`, `Freud.C92_schedules_counterexample`, `Freud.C92_counts_counterexample`
* C93: `Freud.C93_tree`, `Freud.C93_neighbors`, `Freud.C93_cells_partial`, `Freud.C93_cells_counterexample`, `Freud.C93_mutual_counterexample`
* C94: `Freud.C94_correlation`, `Freud.C94_correlation_scaled`, `Freud.C94_bond_order`, `Freud.C94_bond_order_scaled`, `Freud.C94_pmft_xy`, `Freud.C94_pmft_xy_scaled`, `Freud.C94_pmft_xyt`, `Freud.C94_pmft_xyt_scaled`, `Freud.C94_pmft_r12`, `Freud.C94_pmft_r12_scaled`, `Freud.C94_pmft_xyz`, `Freud.C94_pmft_xyz_scaled`
* C95: `Freud.C95_bonds`, `Freud.C95_neighbor_lists`, `Freud.C95_rdf`, `Freud.C95_correlation`, `Freud.C95_bond_order`, `Freud.C95_bond_order_cell`, `Freud.C95_pmft_xy`, `Freud.C95_pmft_xyt`, `Freud.C95_pmft_r12`, `Freud.C95_pmft_xyz`, `Freud.C95_local_density`, `Freud.C95_cluster`, `Freud.C95_hexatic`, `Freud.C95_steinhardt`, `Freud.C95_accepted_counterexample`
* C96: `Freud.C96_new_array`, `Freud.C96_output_array`, `Freud.C96_accepted_iff`, `Freud.C96_in_place`, `Freud.C96_unwrap`, `Freud.C96_images`, `Freud.C96_contains`, `Freud.C96_distances`, `Freud.C96_all_distances`, `Freud.C96_center_masses`, `Freud.C96_center`, `Freud.C96_overlap_counterexample`, `Freud.C96_flat_output_counterexample`
* C97: `Freud.C97_angles`, `Freud.C97_quaternions`, `Freud.C97_quaternions_accepted_iff`, `Freud.C97_quaternions_counterexample`, `Freud.C97_not_misread`, `Freud.C97_default_range_xy_partial`, `Freud.C97_default_range_xyz_partial`, `Freud.C97_default_range_r12`, `Freud.C97_default_range_counterexample`, `Freud.C97_shift_args`, `Freud.C97_shift_list_counterexample`, `Freud.C97_shift_center_counterexample`, `Freud.C97_shift_frame_counterexample`
* C98: `Freud.C98_sc`, `Freud.C98_bcc`, `Freud.C98_fcc`, `Freud.C98_square`, `Freud.C98_hex`, `Freud.C98_graphene`, `Freud.C98_hcp`, `Freud.C98_rectangular`, `Freud.C98_centered`, `Freud.C98_oblique`, `Freud.C98_hex_order`, `Freud.C98_square_order`, `Freud.C98_random`
* C99: `Freud.C99_bonds`, `Freud.C99_mutual`, `Freud.C99_bond_order_directions`, `Freud.C99_rdf`, `Freud.C99_correlation`, `Freud.C99_pmft_r12`
* C100: `Freud.C100_bonds_points`, `Freud.C100_bonds_query`, `Freud.C100_alone`, `Freud.C100_rdf_points`, `Freud.C100_rdf_kinds`, `Freud.C100_pmft_xy`, `Freud.C100_pmft_xyt`, `Freud.C100_pmft_r12`
* C101: `Freud.C101_harmonics`, `Freud.C101_fsph`, `Freud.C101_w_invariant`, `Freud.C101_value`, `Freud.C101_rotation`
* C102: `Freud.C102_equal_counterexample`, `Freud.C102_scale`, `Freud.C102_written_partial`, `Freud.C102_written_counterexample`, `Freud.C102_matrix`, `Freud.C102_cube`
* C103: `Freud.C103_constructor`, `Freud.C103_shape_partial`, `Freud.C103_density_shape_partial`, `Freud.C103_shape_counterexample`, `Freud.C103_tilted_partial`, `Freud.C103_tilted_counterexample`
* C104: `Freud.C104_value`, `Freud.C104_range`, `Freud.C104_symmetric`, `Freud.C104_rotation`, `Freud.C104_crystal`, `Freud.C104_clusters`, `Freud.C104_constructor`, `Freud.C104_nlist_counterexample`
* C105: `Freud.C105_box_edges`, `Freud.C105_box_edges_2d`, `Freud.C105_box_limits_partial`, `Freud.C105_box_limits_counterexample`, `Freud.C105_system_limits`, `Freud.C105_clusters`, `Freud.C105_cluster_plot`, `Freud.C105_density`, `Freud.C105_pmft_partial`, `Freud.C105_pmft_counterexample`, `Freud.C105_diffraction_partial`, `Freud.C105_diffraction_counterexample`, `Freud.C105_voronoi_sides`, `Freud.C105_voronoi_area_counterexample`
* C106: `Freud.C106_same_surroundings`, `Freud.C106_sc_q4`, `Freud.C106_sc_solid4`, `Freud.C106_sc_q6`, `Freud.C106_sc_solid6`, `Freud.C106_bcc_q4`, `Freud.C106_bcc_solid4`, `Freud.C106_bcc_q6`, `Freud.C106_bcc_solid6`, `Freud.C106_fcc_q4`, `Freud.C106_fcc_solid4`, `Freud.C106_fcc_q6`, `Freud.C106_fcc_solid6`, `Freud.C106_hcp_q4`, `Freud.C106_hcp_solid4`, `Freud.C106_hcp_q6`, `Freud.C106_hcp_solid6`, `Freud.C106_sc_odd`, `Freud.C106_bcc_odd`, `Freud.C106_fcc_odd`, `Freud.C106_sc_cluster`, `Freud.C106_bcc_cluster`, `Freud.C106_fcc_cluster`, `Freud.C106_hcp_cluster`, `Freud.C106_square_cluster`, `Freud.C106_hex_cluster`, `Freud.C106_square_order`, `Freud.C106_hex_order`
* C107: `Freud.C107_columns`, `Freud.C107_large`, `Freud.C107_shapes`
* C108: `Freud.C108_r12_rdf`, `Freud.C108_xyt_xy`, `Freud.C108_constant`
* C109: `Freud.C109_neighbors`, `Freud.C109_bonds`, `Freud.C109_rdf`, `Freud.C109_correlation`, `Freud.C109_pmft_xy`, `Freud.C109_pmft_xyt`, `Freud.C109_pmft_r12`, `Freud.C109_pmft_xyz`, `Freud.C109_generate`, `Freud.C109_local_density`, `Freud.C109_hexatic`, `Freud.C109_steinhardt`
* C110: `Freud.C110_range`, `Freud.C110_filter_r`, `Freud.C110_rdf`, `Freud.C110_correlation`, `Freud.C110_cluster`, `Freud.C110_more_bonds`, `Freud.C110_neighbors`, `Freud.C110_local_density`, `Freud.C110_hexatic`, `Freud.C110_steinhardt`
* C111: `Freud.C111_pmft_xy`, `Freud.C111_pmft_xyt`, `Freud.C111_pmft_r12`, `Freud.C111_pmft_xyz`, `Freud.C111_bond_order`, `Freud.C111_local_bond_projection`, `Freud.C111_local_descriptors`, `Freud.C111_cubatic`, `Freud.C111_diffraction`
* C112: `Freud.C112_correlation_query`, `Freud.C112_correlation_values`, `Freud.C112_gaussian`, `Freud.C112_hexatic`, `Freud.C112_steinhardt`, `Freud.C112_diffraction`, `Freud.C112_diffraction_equal`
* C113: `Freud.C113_bins`, `Freud.C113_pmft_xy`, `Freud.C113_pmft_xyt`, `Freud.C113_pmft_xyz`, `Freud.C113_pmft_r12`, `Freud.C113_rdf`, `Freud.C113_correlation`, `Freud.C113_direct`, `Freud.C113_bond_order`
* C114: `Freud.C114_nearest`, `Freud.C114_voxels`, `Freud.C114_local_density`, `Freud.C114_solid_liquid`, `Freud.C114_environments_partial`, `Freud.C114_threshold_counterexample`
* C115: `Freud.C115_covers_partial`, `Freud.C115_neighbors_partial`, `Freud.C115_orthorhombic`, `Freud.C115_argument`, `Freud.C115_tilted_counterexample`
* C116: `Freud.C116_larger_cell`, `Freud.C116_bragg`, `Freud.C116_read`, `Freud.C116_sc`, `Freud.C116_square`, `Freud.C116_bcc`, `Freud.C116_fcc`, `Freud.C116_hex`, `Freud.C116_rectangular`, `Freud.C116_graphene`, `Freud.C116_hcp`, `Freud.C116_oblique`
* C117: `Freud.C117_rdf`
* C118: `Freud.C118_rejects`, `Freud.C118_accepts`, `Freud.C118_query_radii`, `Freud.C118_ratios`, `Freud.C118_growth`, `Freud.C118_growth_closed_counterexample`
* C119: `Freud.C119_inertia`, `Freud.C119_gyration`, `Freud.C119_trace_inertia`, `Freud.C119_equal_masses`, `Freud.C119_single`, `Freud.C119_mass_unit`
* C120: `Freud.C120_moved`, `Freud.C120_reversed`, `Freud.C120_reversed_direct_counterexample`, `Freud.C120_permuted`, `Freud.C120_constant_velocity`, `Freud.C120_last`, `Freud.C120_bounded`
* C121: `Freud.C121_one_cluster`, `Freud.C121_environments`, `Freud.C121_motif`, `Freud.C121_other_motif`, `Freud.C121_sc`, `Freud.C121_bcc`, `Freud.C121_fcc`, `Freud.C121_square`, `Freud.C121_hex`
* C122: `Freud.C122_mean_const`, `Freud.C122_average_nearest`, `Freud.C122_average`, `Freud.C122_read`, `Freud.C122_nonneg`, `Freud.C122_periodic_counterexample`
* C123: `Freud.C123_all`, `Freud.C123_distance`, `Freud.C123_kmin_counterexample`, `Freud.C123_chance`, `Freud.C123_members`, `Freud.C123_expected`
* C124: `Freud.C124_sc`, `Freud.C124_bcc`, `Freud.C124_fcc`, `Freud.C124_hcp`, `Freud.C124_square`, `Freud.C124_hex`, `Freud.C124_graphene`, `Freud.C124_fcc_q6`, `Freud.C124_ball`, `Freud.C124_bonds`, `Freud.C124_engines`, `Freud.C124_same_neighbor_list`, `Freud.C124_ball_list`, `Freud.C124_ball_bonds`, `Freud.C124_turned`, `Freud.C124_scaled`, `Freud.C124_accepted_iff`
* C125: `Freud.C125_fcc_sann`, `Freud.C125_bcc_sann`, `Freud.C125_sc_sann`, `Freud.C125_hcp_sann`, `Freud.C125_square_sann`, `Freud.C125_hex_sann`, `Freud.C125_graphene_sann`, `Freud.C125_fcc_rad`, `Freud.C125_bcc_rad`, `Freud.C125_sc_rad`, `Freud.C125_hcp_rad`, `Freud.C125_square_rad`, `Freud.C125_hex_rad`, `Freud.C125_graphene_rad`
* C126: `Freud.C126_perfect`
* C127: `Freud.C127_extreme`
* C128: `Freud.C128_images`, `Freud.C128_volumes`, `Freud.C128_mutual`
* C129: `Freud.C129_diagram`
* C130: `Freud.C130_between`, `Freud.C130_closest`
* C131: `Freud.C131_sc`, `Freud.C131_square`, `Freud.C131_fcc`, `Freud.C131_bcc`, `Freud.C131_hex`, `Freud.C131_neighbors`, `Freud.C131_volumes`
* C132: `Freud.C132_units`
* C133: `Freud.C133_symmetry`, `Freud.C133_sc`, `Freud.C133_square`, `Freud.C133_fcc`, `Freud.C133_bcc_near`, `Freud.C133_bcc_next`, `Freud.C133_hex`, `Freud.C133_coordination_sc`, `Freud.C133_coordination_square`, `Freud.C133_coordination_fcc`, `Freud.C133_coordination_hex`
* C134: `Freud.C134_sc_q4`, `Freud.C134_sc_q6`, `Freud.C134_sc_odd`, `Freud.C134_fcc_q4`, `Freud.C134_fcc_q6`, `Freud.C134_fcc_odd`, `Freud.C134_sc_solid6`, `Freud.C134_sc_solid4`, `Freud.C134_fcc_solid4`, `Freud.C134_fcc_solid6`, `Freud.C134_square_order`, `Freud.C134_hex_order`
* C135: `Freud.C135_larger_cell`, `Freud.C135_coordination`, `Freud.C135_generate`
* C136: `Freud.C136_bcc_q4`, `Freud.C136_bcc_q6`, `Freud.C136_bcc_odd`, `Freud.C136_bcc_solid4`, `Freud.C136_bcc_solid6`, `Freud.C136_same_surroundings`, `Freud.C136_bcc_q4_weighted`, `Freud.C136_bcc_q6_weighted`, `Freud.C136_bcc_odd_weighted`
