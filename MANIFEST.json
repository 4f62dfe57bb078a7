{
 "claims": [
  {
   "property": "C01",
   "status": "proved",
   "theorems": [
    "Freud.C01_constructed_valid",
    "Freud.C01_wrap_in_box",
    "Freud.C01_wrap_aperiodic"
   ],
   "note": ""
  },
  {
   "property": "C02",
   "status": "proved",
   "theorems": [
    "Freud.C02_wrap_idempotent",
    "Freud.C02_wrap_translation",
    "Freud.C02_wrap_eq_iff"
   ],
   "note": ""
  },
  {
   "property": "C03",
   "status": "proved",
   "theorems": [
    "Freud.C03_frac_abs_inverse",
    "Freud.C03_fractional_meaning"
   ],
   "note": ""
  },
  {
   "property": "C04",
   "status": "partial",
   "theorems": [
    "Freud.C04_unwrap_wrap_partial",
    "Freud.C04_contains_wrap_partial",
    "Freud.C04_unwrap_counterexample"
   ],
   "note": "False at points with a box coordinate that is an integer <= 0: exact iff characterisation proved, counterexample given."
  },
  {
   "property": "C05",
   "status": "partial",
   "theorems": [
    "Freud.C05_distance_translation",
    "Freud.C05_distance_zero_iff",
    "Freud.C05_distance_symm_partial",
    "Freud.C05_symmetry_counterexample"
   ],
   "note": "Invariance and zero-iff proved in full. Symmetry is false in tilted boxes for separations exactly on a face (counterexample); proved otherwise."
  },
  {
   "property": "C06",
   "status": "proved",
   "theorems": [
    "Freud.C06_orthorhombic_min_image",
    "Freud.C06_short_image_is_min",
    "Freud.C06_tilted_counterexample",
    "Freud.C06_plane_distance_meaning"
   ],
   "note": "Proved; the plane distances of the code are shown to be the geometric face distances."
  },
  {
   "property": "C07",
   "status": "proved",
   "theorems": [
    "Freud.C07_matrix_roundtrip",
    "Freud.C07_matrix_roundtrip_2D",
    "Freud.C07_volume_is_det",
    "Freud.C07_matrix_columns",
    "Freud.C07_lengths_angles_roundtrip"
   ],
   "note": ""
  },
  {
   "property": "C08",
   "status": "partial",
   "theorems": [
    "Freud.C08_copy_partial",
    "Freud.C08_scale_partial",
    "Freud.C08_cpp_copy",
    "Freud.C08_periodicity_counterexample"
   ],
   "note": "False of the code: from_box and multiplication drop the periodic flags (counterexample); everything else is proved to be kept."
  },
  {
   "property": "C09",
   "status": "partial",
   "theorems": [
    "Freud.C09_index_bijection",
    "Freud.C09_checked_index_partial",
    "Freud.C09_boundary_counterexample",
    "Freud.C09_read_write",
    "Freud.C09_new_array",
    "Freud.C09_flat_access"
   ],
   "note": "The full claim for the checked multi-index accessor is false of the code: it accepts an index equal to the dimension (C09_boundary_counterexample). Proved in full for every in-range index, and rejection is proved for every index strictly beyond the dimension."
  },
  {
   "property": "C10",
   "status": "proved",
   "theorems": [
    "Freud.C10_bin_iff",
    "Freud.C10_overflow_iff",
    "Freud.C10_edges",
    "Freud.C10_centers"
   ],
   "note": ""
  },
  {
   "property": "C11",
   "status": "proved",
   "theorems": [
    "Freud.C11_counts_exact",
    "Freud.C11_wrong_dimension",
    "Freud.C11_out_of_range_ignored"
   ],
   "note": ""
  },
  {
   "property": "C12",
   "status": "proved",
   "theorems": [
    "Freud.C12_thread_storage",
    "Freud.C12_storage_needs_zero_counterexample",
    "Freud.C12_histogram",
    "Freud.C12_equals_sequential"
   ],
   "note": "Proved for ThreadLocalHistogram and ThreadStorage for every execution and reduction order. The ThreadStorage reduction needs a zeroed result array (shown necessary), which all callers provide."
  },
  {
   "property": "C13",
   "status": "proved",
   "theorems": [
    "Freud.C13_counts_since_reset",
    "Freud.C13_reads_ignored",
    "Freud.C13_read_idempotent",
    "Freud.C13_reset_forgets"
   ],
   "note": "Proved for all histories and schedules."
  },
  {
   "property": "C14",
   "status": "proved",
   "theorems": [
    "Freud.C14_accepts_iff",
    "Freud.C14_stores_bonds"
   ],
   "note": "Proved."
  },
  {
   "property": "C15",
   "status": "proved",
   "theorems": [
    "Freud.C15_segments",
    "Freud.C15_find_first_index"
   ],
   "note": ""
  },
  {
   "property": "C16",
   "status": "proved",
   "theorems": [
    "Freud.C16_filter",
    "Freud.C16_short_mask_counterexample",
    "Freud.C16_filter_r",
    "Freud.C16_filter_r_raises_iff"
   ],
   "note": "Proved for masks with an entry per bond; the code does not check the mask length (C16_short_mask_counterexample)."
  },
  {
   "property": "C17",
   "status": "proved",
   "theorems": [
    "Freud.C17_all_pairs",
    "Freud.C17_pairs_exactly",
    "Freud.C17_direction_counterexample"
   ],
   "note": "Proved. The stored vector points from the point to the query point, opposite to the documentation (C17_direction_counterexample)."
  },
  {
   "property": "C18",
   "status": "proved",
   "theorems": [
    "Freud.C18_reads_current",
    "Freud.C18_copies_independent",
    "Freud.C18_copy_equal"
   ],
   "note": "Histories of filter, filter_r, sort, copy and reads over any number of list objects, with arrays as heap cells shared by reference."
  },
  {
   "property": "C19",
   "status": "proved",
   "theorems": [
    "Freud.C19_by_distance",
    "Freud.C19_by_index",
    "Freud.C19_same_columns",
    "Freud.C19_deterministic",
    "Freud.C19_sort_exists",
    "Freud.C19_index_order_counterexample",
    "Freud.C19_vector_order_counterexample"
   ],
   "note": "The documented order (distance third) is not the order of the code, which compares the weight first: C19_index_order_counterexample. Two orders of the same bonds sort to the same list whenever the sort keys determine the bonds; otherwise (equal keys, different vectors) they may differ: C19_vector_order_counterexample. The columns the keys contain are always equal."
  },
  {
   "property": "C20",
   "status": "proved",
   "theorems": [
    "Freud.C20_holds_found_bonds",
    "Freud.C20_schedule_independent",
    "Freud.C20_columns_schedule_independent",
    "Freud.C20_result_exists"
   ],
   "note": "Same list for every schedule when keys determine the bonds; the key columns agree for every schedule without condition. The ties case is the C19 counterexample."
  },
  {
   "property": "C21",
   "status": "proved",
   "theorems": [
    "Freud.C21_every_point_once",
    "Freud.C21_traversal",
    "Freud.C21_equals_brute_force"
   ],
   "note": ""
  },
  {
   "property": "C22",
   "status": "proved",
   "theorems": [
    "Freud.C22_single_raises_iff",
    "Freud.C22_ball_raises_iff",
    "Freud.C22_ball_exact",
    "Freud.C22_ball_nodup",
    "Freud.C22_ball_min_image"
   ],
   "note": "Exact for every box, in-box points and r_min >= 0. The raw (box, points) path is covered by the same theorems (ballSingle)."
  },
  {
   "property": "C23",
   "status": "partial",
   "theorems": [
    "Freud.C23_nearest_partial",
    "Freud.C23_returns",
    "Freud.C23_orthorhombic_reachable",
    "Freud.C23_query_partial",
    "Freud.C23_r_max_counterexample",
    "Freud.C23_scale_counterexample",
    "Freud.C23_r_guess_counterexample",
    "Freud.C23_tilt_counterexample"
   ],
   "note": "Proved: the query ends; with r_guess at most half the smallest plane distance (the default always is) and boxes whose shortest images are at most one box away (all orthorhombic boxes), the returned bonds are the nearest ones, sorted, each point once, and no omitted point is nearer. False of the code, with witnesses: that fewer than k are returned only if r_max holds no more (search stops before r_max; search stops at the box size for large scale), that no point repeats for large r_guess, and that the shortest copy is found in strongly tilted boxes."
  },
  {
   "property": "C24",
   "status": "proved",
   "theorems": [
    "Freud.CellShell.C24_every_offset_once",
    "Freud.CellShell.C24_outwards",
    "Freud.CellShell.C24_shell_start"
   ],
   "note": ""
  },
  {
   "property": "C25",
   "status": "proved",
   "theorems": [
    "Freud.LinkCell.C25_cells_partition",
    "Freud.LinkCell.C25_cell_contains_point",
    "Freud.LinkCell.C25_ball_exact",
    "Freud.LinkCell.C25_ball_nodup",
    "Freud.LinkCell.C25_ball_returns_iff",
    "Freud.LinkCell.C25_constructed",
    "Freud.LinkCell.C25_ball_brute_force",
    "Freud.LinkCell.C25_agrees_with_AABBQuery"
   ],
   "note": "Distances are those of Box.compute_distances (wrapped separation); below half the plane distances this is the brute-force minimum image (C25_ball_brute_force). Points and query point are in the box; cell width is non-negative."
  },
  {
   "property": "C26",
   "status": "partial",
   "theorems": [
    "Freud.LinkCell.C26_nearest_partial",
    "Freud.LinkCell.C26_enough_near_partial",
    "Freud.LinkCell.C26_equal_planes_partial",
    "Freud.LinkCell.C26_returns",
    "Freud.LinkCell.C26_long_box_counterexample"
   ],
   "note": "Partial: the search ends after a number of shells computed from the smallest plane distance, so in elongated boxes nearer points can be missed (C26_long_box_counterexample). Proved: right up to half the smallest plane distance, right if k points are that near, right in boxes with about equal plane distances."
  },
  {
   "property": "C27",
   "status": "partial",
   "theorems": [
    "Freud.C27_raises_iff",
    "Freud.C27_ball_exact",
    "Freud.C27_ball_brute_force",
    "Freud.C27_agrees_with_AABBQuery",
    "Freud.C27_sequence",
    "Freud.C27_interleaved_partial",
    "Freud.C27_interleaved_counterexample",
    "Freud.C27_aperiodic_counterexample"
   ],
   "note": "Proved: a loop over a query result is exact (each neighbor pair once, with vector and distance), after any earlier queries on the object, and equals AABBQuery in fully periodic boxes; when queries raise. Interleaving with another query of the same cutoff is harmless (partial). Two disagreements with the claim are proved as counterexamples: a query with another cutoff during a loop rebuilds the shared grid and the loop loses bonds; boxes that are not fully periodic are accepted and treated as fully periodic."
  },
  {
   "property": "C28",
   "status": "partial",
   "theorems": [
    "Freud.C28_mode_inference",
    "Freud.C28_bad_combinations_raise",
    "Freud.C28_bad_numbers_raise_partial",
    "Freud.C28_user_values_kept_partial",
    "Freud.C28_validated_twice",
    "Freud.C28_validation_idempotent",
    "Freud.C28_non_periodic_raises",
    "Freud.C28_valid_nearest_accepted",
    "Freud.C28_valid_ball_accepted",
    "Freud.C28_sentinel_counterexample",
    "Freud.C28_tuple_not_periodic_counterexample"
   ],
   "note": "Modes, user values, bad combinations and bad numbers, acceptance of valid arguments, and idempotence of the repeated validation are proved. Two parts are false of the code and shown by counterexamples: the reserved value -1 given by the user for r_max or scale is accepted (C28_sentinel_counterexample), and (box, points) tuples skip the check of periodicity (C28_tuple_not_periodic_counterexample)."
  },
  {
   "property": "C29",
   "status": "partial",
   "theorems": [
    "Freud.C29_raises_iff",
    "Freud.C29_buffer_box",
    "Freud.C29_distance_exact",
    "Freud.C29_distance_nodup",
    "Freud.C29_images_exact",
    "Freud.C29_images_nodup",
    "Freud.C29_grouped",
    "Freud.C29_images_ids",
    "Freud.C29_contains_input",
    "Freud.C29_aperiodic_counterexample",
    "Freud.C29_upper_face_counterexample"
   ],
   "note": "Exact for translations along all three directions. Two disagreements are proved as counterexamples: boxes with aperiodic directions are replicated along them too (C29_aperiodic_counterexample); points on an upper face, which wrap never returns, lose their copy (C29_upper_face_counterexample)."
  },
  {
   "property": "C30",
   "status": "proved",
   "theorems": [
    "Freud.C30_shell",
    "Freud.C30_raises_iff",
    "Freud.C30_wrong_size_raises",
    "Freud.C30_schedule_independent",
    "Freud.C30_result_exists"
   ],
   "note": "Any list (sorted, indices in range), any execution of the parallel loop, any outcome of the unstable sorts. A list with no bonds at all is undefined behaviour in the code (max_element of an empty range) and excluded."
  },
  {
   "property": "C31",
   "status": "proved",
   "theorems": [
    "Freud.C31_open_exact",
    "Freud.C31_closed_exact",
    "Freud.C31_closed_subset_open",
    "Freud.C31_closed_raises_iff",
    "Freud.C31_open_never_raises",
    "Freud.C31_schedule_independent",
    "Freud.C31_result_exists",
    "Freud.C31_blocking_is_geometric"
   ],
   "note": "Blocking is stated with the stored distances; C31_blocking_is_geometric shows it is the solid-angle criterion when these are the lengths of the wrapped separations."
  },
  {
   "property": "C32",
   "status": "proved",
   "theorems": [
    "Freud.C32_components",
    "Freud.C32_never_blocked",
    "Freud.C32_terminates",
    "Freud.C32_finishes",
    "Freud.C32_connected_when_done"
   ],
   "note": ""
  },
  {
   "property": "C33",
   "status": "proved",
   "theorems": [
    "Freud.C33_cluster_labels",
    "Freud.C33_result_exists",
    "Freud.C33_canonical_unique"
   ],
   "note": ""
  },
  {
   "property": "C34",
   "status": "partial",
   "theorems": [
    "Freud.C34_sizes_and_masses",
    "Freud.C34_center",
    "Freud.C34_center_of_mass_partial",
    "Freud.C34_equal_masses_partial",
    "Freud.C34_inertia",
    "Freud.C34_gyration",
    "Freud.C34_radius_of_gyration",
    "Freud.C34_mass_counterexample"
   ],
   "note": "Sizes, masses, geometric centers, inertia (about the reported center of mass), gyration and radii proved for all label arrays. Centers of mass are false of the code for unequal masses and labels that are not sorted (C34_mass_counterexample); proved for sorted labels and for equal masses."
  },
  {
   "property": "C35",
   "status": "proved",
   "theorems": [
    "Freud.C35_constructor",
    "Freud.C35_shell_volumes",
    "Freud.C35_rdf",
    "Freud.C35_n_r",
    "Freud.C35_mean_of_frames",
    "Freud.C35_varying_frames_counterexample",
    "Freud.C35_stale_mode_counterexample",
    "Freud.C35_n_r_misses_inner_counterexample"
   ],
   "note": "Proved for every history: g(r), n_r, shell volumes. The normalization uses only the last frame's box and point counts (C35_varying_frames_counterexample shows the mean over frames with different boxes or sizes is not returned), a mode changed between compute and read is picked up or not depending on caching (C35_stale_mode_counterexample), and n_r misses neighbors below r_min (C35_n_r_misses_inner_counterexample). Shell volumes in 2D/3D with pi as a parameter."
  },
  {
   "property": "C36",
   "status": "proved",
   "theorems": [
    "Freud.C36_constructor",
    "Freud.C36_correlation",
    "Freud.C36_default_query_values_counterexample"
   ],
   "note": "Proved for every history of frames, every schedule and every read order. Omitting query_values with more query points than points reads out of bounds (C36_default_query_values_counterexample)."
  },
  {
   "property": "C37",
   "status": "partial",
   "theorems": [
    "Freud.C37_marked_is_covered",
    "Freud.C37_marked_iff_covered_partial",
    "Freud.C37_dimension_change_raises",
    "Freud.C37_grid",
    "Freud.C37_constructor",
    "Freud.C37_missed_voxel_counterexample"
   ],
   "note": "Soundness holds for every box and radius. Completeness is proved for orthorhombic boxes when frac(r_max/voxel) <= 1/2 on each axis (the code truncates the half-width to whole voxels); a concrete missed voxel is exhibited otherwise."
  },
  {
   "property": "C38",
   "status": "partial",
   "theorems": [
    "Freud.C38_grid",
    "Freud.C38_density_partial",
    "Freud.C38_density_at_most_once",
    "Freud.C38_distance_exists",
    "Freud.C38_dimension_change_raises",
    "Freud.C38_missed_voxel_counterexample",
    "Freud.C38_double_count_counterexample"
   ],
   "note": "Exact value proved when r_max is below half the box and the voxel half-width condition of C37 holds; missed voxels and double counting at r_max = L/2 are exhibited."
  },
  {
   "property": "C39",
   "status": "proved",
   "theorems": [
    "Freud.C39_local_density",
    "Freud.C39_overlap",
    "Freud.C39_bounds",
    "Freud.C39_default_query",
    "Freud.C39_constructor",
    "Freud.C39_far_neighbor_counterexample"
   ],
   "note": "Exact for every neighbor list and schedule; bounds need neighbors within r_max + diameter/2, the reach of the default query. A custom list with a farther neighbor contributes a negative count (counterexample)."
  },
  {
   "property": "C40",
   "status": "proved",
   "theorems": [
    "Freud.C40_constructor_xy",
    "Freud.C40_constructor_xyt",
    "Freud.C40_constructor_r12",
    "Freud.C40_constructor_xyz",
    "Freud.C40_xy",
    "Freud.C40_xyt",
    "Freud.C40_r12",
    "Freud.C40_xyz",
    "Freud.C40_wrong_dimension_2D",
    "Freud.C40_changed_number_raises",
    "Freud.C40_wrong_dimension_3D",
    "Freud.C40_same_number_accepted",
    "Freud.C40_xy_coordinates",
    "Freud.C40_xyt_coordinates",
    "Freud.C40_r12_coordinates",
    "Freud.C40_r12_exchange",
    "Freud.C40_xyz_coordinates",
    "Freud.C40_failed_call_fixes_number_counterexample",
    "Freud.C40_zero_range_counterexample"
   ],
   "note": "Values proved for all four classes and every history. Normalisation uses box and counts of the last frame. Exceptions exhibited: a failed 2D call fixes the number of equivalent orientations; constructors accept a zero range."
  },
  {
   "property": "C41",
   "status": "proved",
   "theorems": [
    "Freud.C41_window",
    "Freud.C41_direct",
    "Freud.C41_nonneg_zero"
   ],
   "note": ""
  },
  {
   "property": "C42",
   "status": "proved",
   "theorems": [
    "Freud.C42_after_history",
    "Freud.C42_batches_equal_one_call",
    "Freud.C42_concatenated",
    "Freud.C42_concatenated_images",
    "Freud.C42_reset_forgets",
    "Freud.C42_different_frames_counterexample",
    "Freud.C42_images",
    "Freud.C42_images_without_box_counterexample"
   ],
   "note": ""
  },
  {
   "property": "C43",
   "status": "proved",
   "theorems": [
    "Freud.C43_tensors",
    "Freud.C43_symmetric_traceless",
    "Freud.C43_flip_rescale",
    "Freud.C43_permutation",
    "Freud.C43_order_parameter",
    "Freud.C43_aligned",
    "Freud.C43_solver_failure"
   ],
   "note": ""
  },
  {
   "property": "C44",
   "status": "proved",
   "theorems": [
    "Freud.C44_bonds",
    "Freud.C44_clusters",
    "Freud.C44_clusters_exist",
    "Freud.C44_normalized_range",
    "Freud.C44_different_sizes_raise_counterexample"
   ],
   "note": ""
  },
  {
   "property": "C45",
   "status": "partial",
   "theorems": [
    "Freud.C45_unrotated_partial",
    "Freud.C45_overflow_counterexample"
   ],
   "note": "Proved for l up to 8. From l = 10 on the statement is false: products of 32-bit factorials overflow (counterexample)."
  },
  {
   "property": "C46",
   "status": "proved",
   "theorems": [
    "Freud.AngSep.C46_min_angle",
    "Freud.AngSep.C46_invariance",
    "Freud.AngSep.C46_range",
    "Freud.AngSep.C46_zero_iff",
    "Freud.AngSep.C46_default_counterexample",
    "Freud.AngSep.C46_global"
   ],
   "note": ""
  },
  {
   "property": "C47",
   "status": "partial",
   "theorems": [
    "Freud.AngSep.C47_what_is_computed",
    "Freud.AngSep.C47_shapes",
    "Freud.AngSep.C47_same_set_partial",
    "Freud.AngSep.C47_swapped_counterexample",
    "Freud.AngSep.C47_more_query_points_counterexample",
    "Freud.AngSep.C47_out_of_bounds_counterexample"
   ],
   "note": "Exact values and bounds proved for every input the code reads correctly; the stated meaning only when points and query points are the same set. The class exchanges the roles of points and query points (counterexamples)."
  },
  {
   "property": "C48",
   "status": "partial",
   "theorems": [
    "Freud.C48_matching",
    "Freud.C48_sizes_differ",
    "Freud.C48_found_partial",
    "Freud.C48_greedy_counterexample",
    "Freud.C48_no_vectors"
   ],
   "note": "Soundness proved for all environments. Completeness only for environments without ambiguous vectors: greedy matching misses matches otherwise (counterexample)."
  },
  {
   "property": "C49",
   "status": "partial",
   "theorems": [
    "Freud.C49_history_partial",
    "Freud.C49_second_compute_counterexample",
    "Freud.C49_motif_history_partial",
    "Freud.C49_rmsd_history_partial"
   ],
   "note": "Proved for the first compute of an object; false for later ones, environments accumulate over calls (counterexample)."
  },
  {
   "property": "C50",
   "status": "proved",
   "theorems": [
    "Freud.C50_partition",
    "Freud.C50_components"
   ],
   "note": ""
  },
  {
   "property": "C51",
   "status": "proved",
   "theorems": [
    "Freud.C51_bijection",
    "Freud.C51_emplace",
    "Freud.C51_lookups",
    "Freud.C51_index_present",
    "Freud.C51_index_absent_counterexample",
    "Freud.C51_assignment_counterexample"
   ],
   "note": ""
  },
  {
   "property": "C52",
   "status": "proved",
   "theorems": [
    "Freud.C52_tries_every_tuple",
    "Freud.C52_matching_is_bijection",
    "Freud.C52_not_minimal_counterexample",
    "Freud.C52_registration",
    "Freud.C52_sizes_differ",
    "Freud.C52_empty_counterexample"
   ],
   "note": ""
  },
  {
   "property": "C53",
   "status": "proved",
   "theorems": [
    "Freud.C53_rotate_is_rotation",
    "Freud.C53_composition",
    "Freud.C53_matrix"
   ],
   "note": "Proved over every field for the quaternion and matrix operations of VectorMath.h."
  },
  {
   "property": "C54",
   "status": "proved",
   "theorems": [
    "Freud.Debye.C54_guards",
    "Freud.Debye.C54_k_values",
    "Freud.Debye.C54_one_value_counterexample",
    "Freud.Debye.C54_mean",
    "Freud.Debye.C54_no_frames",
    "Freud.Debye.C54_zero",
    "Freud.Debye.C54_bound",
    "Freud.Debye.C54_first_value",
    "Freud.Debye.C54_min_valid_k_counterexample"
   ],
   "note": ""
  },
  {
   "property": "C55",
   "status": "proved",
   "theorems": [
    "Freud.Direct.C55_guards",
    "Freud.Direct.C55_mean",
    "Freud.Direct.C55_range",
    "Freud.Direct.C55_values"
   ],
   "note": ""
  },
  {
   "property": "C56",
   "status": "proved",
   "theorems": [
    "Freud.Compute.C56_available_iff",
    "Freud.Compute.C56_reads_do_not_matter",
    "Freud.Compute.C56_applies",
    "Freud.Compute.C56_msd_counterexample"
   ],
   "note": ""
  },
  {
   "property": "C57",
   "status": "partial",
   "theorems": [
    "Freud.Compute.C57_checks_first",
    "Freud.Compute.C57_validate_first",
    "Freud.Compute.C57_histogram_partial",
    "Freud.Compute.C57_reset_first_counterexample",
    "Freud.Compute.C57_box_replaced_counterexample",
    "Freud.Compute.C57_cluster_counterexample",
    "Freud.Compute.C57_msd_counterexample"
   ],
   "note": "Proved for the failing calls that leave the object unchanged; false for the others: accumulated data are erased, the box is replaced or the computed flag is set (counterexamples)."
  },
  {
   "property": "C58",
   "status": "partial",
   "theorems": [
    "Freud.Parallel.C58_reported_is_used",
    "Freud.Parallel.C58_with_block",
    "Freud.Parallel.C58_nested",
    "Freud.Parallel.C58_with_object_partial",
    "Freud.Parallel.C58_constructed_earlier_counterexample",
    "Freud.Parallel.C58_reentered_counterexample",
    "Freud.Parallel.C58_too_large_counterexample"
   ],
   "note": "Proved for context managers constructed where they are entered; false for objects constructed earlier, re-entered or with too large a number (counterexamples)."
  },
  {
   "property": "C59",
   "status": "partial",
   "theorems": [
    "Freud.C59_exact",
    "Freud.C59_count",
    "Freud.C59_raises_iff",
    "Freud.C59_noise",
    "Freud.C59_fractional_partial",
    "Freud.C59_fractional_counterexample"
   ],
   "note": "Blocks, counts, positions, box and errors proved in full. The fractional coordinates are only proved when directions tilted against each other have replica counts of equal parity (partial): otherwise the shift, computed per Cartesian component, is not a half box vector (C59_fractional_counterexample)."
  },
  {
   "property": "C60",
   "status": "proved",
   "theorems": [
    "Freud.C60_listing_unique",
    "Freud.Interface.C60_interface",
    "Freud.Interface.C60_from_query",
    "Freud.Interface.C60_failed_compute",
    "Freud.Interface.C60_default_neighbors_counterexample"
   ],
   "note": ""
  },
  {
   "property": "C61",
   "status": "partial",
   "theorems": [
    "Freud.C61_assignments_consistent_partial",
    "Freud.C61_constructed",
    "Freud.C61_assignment_visible",
    "Freud.C61_dimensions_counterexample"
   ],
   "note": "False for assignments to dimensions (counterexample); proved for all histories in which a length is assigned after the last change of dimension."
  },
  {
   "property": "C62",
   "status": "proved",
   "theorems": [
    "Freud.C62_com_image_invariant",
    "Freud.C62_com_coincident",
    "Freud.C62_com_translation",
    "Freud.C62_center_at_origin",
    "Freud.C62_com_perm",
    "Freud.C62_aperiodic_counterexample"
   ],
   "note": "Proved for fully periodic boxes; counterexample for boxes with a non-periodic axis."
  },
  {
   "property": "C64",
   "status": "partial",
   "theorems": [
    "Freud.C64_sann_data",
    "Freud.C64_sann_sizes_partial",
    "Freud.C64_rad_partial",
    "Freud.C64_num_points_counterexample",
    "Freud.C64_rad_data_counterexample"
   ],
   "note": "Proved: SANN keeps the data unchanged and the number of query points; RAD keeps indices and distances. False as a whole, with witnesses: the number of points of the result is the largest surviving index plus one, so the size check of later analyses may reject it; RAD reverses vectors and resets weights."
  },
  {
   "property": "C66",
   "status": "proved",
   "theorems": [
    "Freud.C66_per_point",
    "Freud.C66_all_points",
    "Freud.C66_schedule_independent"
   ],
   "note": "Proved for every sorted neighbor list and every order of the parallel loop."
  },
  {
   "property": "C67",
   "status": "proved",
   "theorems": [
    "Freud.LBP.C67_max_projection",
    "Freud.LBP.C67_invariance",
    "Freud.LBP.C67_rows",
    "Freud.LBP.C67_normalized_range"
   ],
   "note": ""
  },
  {
   "property": "C68",
   "status": "proved",
   "theorems": [
    "Freud.C68_kabsch_is_optimal"
   ],
   "note": ""
  },
  {
   "property": "C69",
   "status": "proved",
   "theorems": [
    "Freud.C69_aligned",
    "Freud.C69_not_turned"
   ],
   "note": ""
  },
  {
   "property": "C70",
   "status": "partial",
   "theorems": [
    "Freud.C70_motif_match",
    "Freud.C70_complete_partial"
   ],
   "note": "Which points match is proved for motifs and environments without ambiguous vectors; false without this condition by the counterexample of C48."
  },
  {
   "property": "C71",
   "status": "proved",
   "theorems": [
    "Freud.C71_rmsd",
    "Freud.C71_sizes"
   ],
   "note": ""
  },
  {
   "property": "C72",
   "status": "partial",
   "theorems": [
    "Freud.C72_value_partial",
    "Freud.C72_range_partial",
    "Freud.C72_one_iff_partial",
    "Freud.C72_relative_partial",
    "Freud.C72_invariances",
    "Freud.C72_sign"
   ],
   "note": "Proved for l up to 8; false from l = 10 on by the counterexample of C45 (overflow of 32-bit factorials)."
  },
  {
   "property": "C73",
   "status": "partial",
   "theorems": [
    "Freud.KPoints.C73_sound",
    "Freud.KPoints.C73_nodup",
    "Freud.KPoints.C73_complete_partial",
    "Freud.KPoints.C73_octant_counterexample",
    "Freud.KPoints.C73_tilted_counterexample"
   ],
   "note": "Soundness proved for all boxes; completeness for one octant and boxes without tilt. The code samples one octant only and has a wrong sign in tilted boxes (counterexamples)."
  },
  {
   "property": "C74",
   "status": "proved",
   "theorems": [
    "Freud.KPoints.C74_translation",
    "Freud.KPoints.C74_opposite",
    "Freud.KPoints.C74_order",
    "Freud.KPoints.C74_images",
    "Freud.KPoints.C74_wrap",
    "Freud.KPoints.C74_read",
    "Freud.KPoints.C74_incommensurate_counterexample"
   ],
   "note": ""
  },
  {
   "property": "C75",
   "status": "proved",
   "theorems": [
    "Freud.C75_value",
    "Freud.C75_three_dimensional",
    "Freud.C75_range",
    "Freud.C75_perfect",
    "Freud.C75_rotation",
    "Freud.C75_reflection",
    "Freud.C75_images",
    "Freud.C75_regular",
    "Freud.C75_foreign_list_counterexample"
   ],
   "note": ""
  },
  {
   "property": "C76",
   "status": "proved",
   "theorems": [
    "Freud.C76_harmonics",
    "Freud.C76_value",
    "Freud.C76_range",
    "Freud.C76_nan",
    "Freud.C76_deterministic",
    "Freud.C76_images",
    "Freud.C76_rotation",
    "Freud.C76_ql_average_counterexample"
   ],
   "note": ""
  },
  {
   "property": "C77",
   "status": "proved",
   "theorems": [
    "Freud.C77_value",
    "Freud.C77_odd",
    "Freud.C77_large"
   ],
   "note": ""
  },
  {
   "property": "C78",
   "status": "proved",
   "theorems": [
    "Freud.C78_table",
    "Freud.C78_large"
   ],
   "note": ""
  },
  {
   "property": "C79",
   "status": "partial",
   "theorems": [
    "Freud.C79_constructor",
    "Freud.C79_solid_angles",
    "Freud.C79_value",
    "Freud.C79_total_partial",
    "Freud.C79_directions",
    "Freud.C79_rotation",
    "Freud.C79_symmetric_list",
    "Freud.C79_down_counterexample",
    "Freud.C79_lbod_frame_counterexample"
   ],
   "note": "The total is proved for bonds that do not point straight down; those are not counted, and lbod uses the frame of the neighbor (counterexamples)."
  },
  {
   "property": "C80",
   "status": "proved",
   "theorems": [
    "Freud.C80_neighbor_list",
    "Freud.C80_vectors",
    "Freud.C80_polytopes",
    "Freud.C80_polygons",
    "Freud.C80_surface"
   ],
   "note": ""
  },
  {
   "property": "C81",
   "status": "proved",
   "theorems": [
    "Freud.C81_value",
    "Freud.C81_bounds",
    "Freud.C81_voronoi",
    "Freud.C81_arguments",
    "Freud.C81_documentation_counterexample"
   ],
   "note": ""
  },
  {
   "property": "C82",
   "status": "proved",
   "theorems": [
    "Freud.C82_width",
    "Freud.C82_value",
    "Freud.C82_rotation_particle_local",
    "Freud.C82_rotation_neighborhood",
    "Freud.C82_more_query_points_counterexample",
    "Freud.C82_errors"
   ],
   "note": ""
  },
  {
   "property": "C83",
   "status": "proved",
   "theorems": [
    "Freud.C83_value",
    "Freud.C83_range",
    "Freud.C83_symmetries",
    "Freud.C83_best",
    "Freud.C83_one_replicate",
    "Freud.C83_schedule_counterexample",
    "Freud.C83_arguments"
   ],
   "note": ""
  },
  {
   "property": "C84",
   "status": "proved",
   "theorems": [
    "Freud.C84_center",
    "Freud.C84_range",
    "Freud.C84_accepted",
    "Freud.C84_value",
    "Freud.C84_structure_factor",
    "Freud.C84_images",
    "Freud.C84_average",
    "Freud.C84_wave_vectors",
    "Freud.C84_transposed_counterexample",
    "Freud.C84_images_counterexample",
    "Freud.C84_failed_call_counterexample",
    "Freud.C84_negative_weights_counterexample"
   ],
   "note": ""
  },
  {
   "property": "C85",
   "status": "proved",
   "theorems": [
    "Freud.C85_for_loop",
    "Freud.C85_while_loop",
    "Freud.C85_python_loop",
    "Freud.C85_no_query_points_counterexample",
    "Freud.C85_found_bonds",
    "Freud.C85_same_neighbor_list",
    "Freud.C85_same_bonds",
    "Freud.C85_accepted_iff",
    "Freud.C85_rdf"
   ],
   "note": ""
  },
  {
   "property": "C63",
   "status": "proved",
   "theorems": [
    "Freud.C63_saved_array",
    "Freud.C63_saved_results_stay",
    "Freud.C63_reads_do_not_change",
    "Freud.C63_objects_independent",
    "Freud.C63_no_reset_counterexample",
    "Freud.C63_bond_arrays_stay",
    "Freud.C63_sort_counterexample",
    "Freud.C63_voronoi_list_counterexample"
   ],
   "note": ""
  },
  {
   "property": "C65",
   "status": "proved",
   "theorems": [
    "Freud.C65_sann_point",
    "Freud.C65_sann",
    "Freud.C65_rad_closed_point",
    "Freud.C65_rad_closed",
    "Freud.C65_rad_open",
    "Freud.C65_unfiltered",
    "Freud.C65_sann_end_to_end",
    "Freud.C65_rad_closed_end_to_end",
    "Freud.C65_rad_open_end_to_end",
    "Freud.C65_sann_vectors_reversed"
   ],
   "note": ""
  },
  {
   "property": "C86",
   "status": "proved",
   "theorems": [
    "Freud.C86_bonds",
    "Freud.C86_shift_and_wrap",
    "Freud.C86_rdf",
    "Freud.C86_neighbor_lists",
    "Freud.C86_local_density",
    "Freud.C86_hexatic",
    "Freud.C86_cluster",
    "Freud.C86_outside_counterexample",
    "Freud.C86_steinhardt"
   ],
   "note": ""
  },
  {
   "property": "C87",
   "status": "partial",
   "theorems": [
    "Freud.C87_points",
    "Freud.C87_points_raise_iff",
    "Freud.C87_query_single_point",
    "Freud.C87_box",
    "Freud.C87_required_dimensions",
    "Freud.C87_from_box_dimensions",
    "Freud.C87_forms_partial",
    "Freud.C87_same_system_partial",
    "Freud.C87_mdanalysis_counterexample",
    "Freud.C87_rotated_counterexample",
    "Freud.C87_neighbors",
    "Freud.C87_call_bonds",
    "Freud.C87_call_accepted"
   ],
   "note": "Proved for the forms whose cells are in standard orientation; false for rotated cells and tilted MDAnalysis cells (counterexamples)."
  },
  {
   "property": "C88",
   "status": "partial",
   "theorems": [
    "Freud.C88_checked",
    "Freud.C88_suitable_partial",
    "Freud.C88_pair_values_iff",
    "Freud.C88_orientations_iff",
    "Freud.C88_bond_order_refuses",
    "Freud.C88_default_values_counterexample",
    "Freud.C88_cluster_counterexample",
    "Freud.C88_masses_counterexample",
    "Freud.C88_no_points_counterexample",
    "Freud.C88_projection_counterexample",
    "Freud.C88_no_equivalents_counterexample",
    "Freud.C88_angular_separation_counterexample"
   ],
   "note": "The code does not check enough: the exact conditions for reads inside the arrays are proved as equivalences, with a counterexample for each missing check."
  },
  {
   "property": "C89",
   "status": "proved",
   "theorems": [
    "Freud.C89_bonds",
    "Freud.C89_neighbor_lists",
    "Freud.C89_rdf",
    "Freud.C89_local_density",
    "Freud.C89_hexatic",
    "Freud.C89_cluster",
    "Freud.C89_steinhardt",
    "Freud.C89_msd",
    "Freud.C89_times",
    "Freud.C89_times_counterexample"
   ],
   "note": ""
  },
  {
   "property": "C90",
   "status": "partial",
   "theorems": [
    "Freud.C90_rounding",
    "Freud.C90_bin_exists_partial",
    "Freud.C90_monotone",
    "Freud.C90_outside",
    "Freud.C90_first",
    "Freud.C90_within_one_partial",
    "Freud.C90_powers_of_two",
    "Freud.C90_edges_counterexample",
    "Freud.C90_missing_bin_counterexample"
   ],
   "note": "Edges, monotonicity and the error of the bin proved for all precisions; existence of the bin for numbers of bins below a bound, false above it (counterexamples)."
  },
  {
   "property": "C91",
   "status": "partial",
   "theorems": [
    "Freud.C91_wrap_in_box_partial",
    "Freud.C91_wrap_error",
    "Freud.C91_images_partial",
    "Freud.C91_images_counterexample",
    "Freud.C91_idempotent_counterexample",
    "Freud.C91_tilted_counterexample"
   ],
   "note": "Error bounds proved for all boxes; staying in the box without tilt. Images near faces and wrapping in tilted boxes are false (counterexamples)."
  },
  {
   "property": "C92",
   "status": "proved",
   "theorems": [
    "Freud.C92_sum_error",
    "Freud.C92_schedules",
    "Freud.C92_counts",
    "Freud.C92_schedules_counterexample",
    "Freud.C92_counts_counterexample"
   ],
   "note": ""
  },
  {
   "property": "C93",
   "status": "partial",
   "theorems": [
    "Freud.C93_tree",
    "Freud.C93_neighbors",
    "Freud.C93_cells_partial",
    "Freud.C93_cells_counterexample",
    "Freud.C93_mutual_counterexample"
   ],
   "note": "Ball query proved for all boxes and precisions; cells in boxes without tilt, false with tilt (counterexample)."
  },
  {
   "property": "C94",
   "status": "proved",
   "theorems": [
    "Freud.C94_correlation",
    "Freud.C94_correlation_scaled",
    "Freud.C94_bond_order",
    "Freud.C94_bond_order_scaled",
    "Freud.C94_pmft_xy",
    "Freud.C94_pmft_xy_scaled",
    "Freud.C94_pmft_xyt",
    "Freud.C94_pmft_xyt_scaled",
    "Freud.C94_pmft_r12",
    "Freud.C94_pmft_r12_scaled",
    "Freud.C94_pmft_xyz",
    "Freud.C94_pmft_xyz_scaled"
   ],
   "note": "Proved for CorrelationFunction, BondOrder (all four modes) and the four PMFT classes, for every number of frames and every way to get the neighbors. Bonds of length zero are excluded for BondOrder, whose direction is not defined."
  },
  {
   "property": "C95",
   "status": "proved",
   "theorems": [
    "Freud.C95_bonds",
    "Freud.C95_neighbor_lists",
    "Freud.C95_rdf",
    "Freud.C95_correlation",
    "Freud.C95_bond_order",
    "Freud.C95_bond_order_cell",
    "Freud.C95_pmft_xy",
    "Freud.C95_pmft_xyt",
    "Freud.C95_pmft_r12",
    "Freud.C95_pmft_xyz",
    "Freud.C95_local_density",
    "Freud.C95_cluster",
    "Freud.C95_hexatic",
    "Freud.C95_steinhardt",
    "Freud.C95_accepted_counterexample"
   ],
   "note": "Proved for bonds and neighbor lists, RDF, CorrelationFunction, the PMFT classes, BondOrder, LocalDensity, Cluster, Hexatic and Steinhardt q_l. Bonds of length zero are excluded where an angle or a direction is computed. BondOrder in the modes bod and obcd depends on the rotation by definition, there only the cell is changed. C95_accepted_counterexample: the accepted cutoffs depend on the cell."
  },
  {
   "property": "C96",
   "status": "proved",
   "theorems": [
    "Freud.C96_new_array",
    "Freud.C96_output_array",
    "Freud.C96_accepted_iff",
    "Freud.C96_in_place",
    "Freud.C96_unwrap",
    "Freud.C96_images",
    "Freud.C96_contains",
    "Freud.C96_distances",
    "Freud.C96_all_distances",
    "Freud.C96_center_masses",
    "Freud.C96_center",
    "Freud.C96_overlap_counterexample",
    "Freud.C96_flat_output_counterexample"
   ],
   "note": "Proved for all nine methods, with every interleaving of the accesses. C96_overlap_counterexample and C96_flat_output_counterexample state the limits. Arrays that share memory under different types are not modelled."
  },
  {
   "property": "C97",
   "status": "partial",
   "theorems": [
    "Freud.C97_angles",
    "Freud.C97_quaternions",
    "Freud.C97_quaternions_accepted_iff",
    "Freud.C97_quaternions_counterexample",
    "Freud.C97_not_misread",
    "Freud.C97_default_range_xy_partial",
    "Freud.C97_default_range_xyz_partial",
    "Freud.C97_default_range_r12",
    "Freud.C97_default_range_counterexample",
    "Freud.C97_shift_args",
    "Freud.C97_shift_list_counterexample",
    "Freud.C97_shift_center_counterexample",
    "Freud.C97_shift_frame_counterexample"
   ],
   "note": "The range theorems exclude the single point at the lower corner of the range, where the claim is false (C97_default_range_counterexample). C97_quaternions_accepted_iff says exactly which quaternions about z are accepted; C97_quaternions_counterexample and C97_shift_list_counterexample state the limits. rowan.to_axis_angle is modelled from its documentation."
  },
  {
   "property": "C98",
   "status": "proved",
   "theorems": [
    "Freud.C98_sc",
    "Freud.C98_bcc",
    "Freud.C98_fcc",
    "Freud.C98_square",
    "Freud.C98_hex",
    "Freud.C98_graphene",
    "Freud.C98_hcp",
    "Freud.C98_rectangular",
    "Freud.C98_centered",
    "Freud.C98_oblique",
    "Freud.C98_hex_order",
    "Freud.C98_square_order",
    "Freud.C98_random"
   ],
   "note": "Exact real arithmetic (the code uses floats). from_cif is not modelled (external parser)."
  },
  {
   "property": "C99",
   "status": "proved",
   "theorems": [
    "Freud.C99_bonds",
    "Freud.C99_mutual",
    "Freud.C99_bond_order_directions",
    "Freud.C99_rdf",
    "Freud.C99_correlation",
    "Freud.C99_pmft_r12"
   ],
   "note": "Exact real arithmetic; cutoffs below half of the nearest plane distance."
  },
  {
   "property": "C100",
   "status": "proved",
   "theorems": [
    "Freud.C100_bonds_points",
    "Freud.C100_bonds_query",
    "Freud.C100_alone",
    "Freud.C100_rdf_points",
    "Freud.C100_rdf_kinds",
    "Freud.C100_pmft_xy",
    "Freud.C100_pmft_xyt",
    "Freud.C100_pmft_r12"
   ],
   "note": "Exact real arithmetic; cutoffs below half of the nearest plane distance. With the exclusion of self-pairs only for the two-kinds decomposition."
  },
  {
   "property": "C101",
   "status": "proved",
   "theorems": [
    "Freud.C101_harmonics",
    "Freud.C101_fsph",
    "Freud.C101_w_invariant",
    "Freud.C101_value",
    "Freud.C101_rotation"
   ],
   "note": "Exact real arithmetic except for the digits of the table, which are as in the code. That the library fsph returns the spherical harmonics is a hypothesis (FsphOK), now shown satisfiable for every l."
  },
  {
   "property": "C102",
   "status": "partial",
   "theorems": [
    "Freud.C102_equivalence",
    "Freud.C102_equal_means_same_partial",
    "Freud.C102_equal_counterexample",
    "Freud.C102_scale",
    "Freud.C102_written_partial",
    "Freud.C102_written_counterexample",
    "Freud.C102_matrix",
    "Freud.C102_cube"
   ],
   "note": "Two parts are false of the code: after an assignment to dimensions equal boxes may differ, and the written forms lose the periodicity. The number of digits printed by __repr__ is not modelled."
  },
  {
   "property": "C103",
   "status": "partial",
   "theorems": [
    "Freud.C103_constructor",
    "Freud.C103_shape_partial",
    "Freud.C103_density_shape_partial",
    "Freud.C103_shape_counterexample",
    "Freud.C103_tilted_partial",
    "Freud.C103_tilted_counterexample"
   ],
   "note": "False of the code in two ways: squeezing drops axes of length one in 2D, and in a tilted box spheres that cross a face along y or z mark the wrong voxels."
  },
  {
   "property": "C104",
   "status": "proved",
   "theorems": [
    "Freud.C104_value",
    "Freud.C104_range",
    "Freud.C104_symmetric",
    "Freud.C104_rotation",
    "Freud.C104_crystal",
    "Freud.C104_clusters",
    "Freud.C104_constructor",
    "Freud.C104_nlist_counterexample"
   ],
   "note": "C104: `nlist` is documented as the list of solid-like bonds and is the full list (C104_nlist_counterexample). The class documentation says a particle needs more than S_threshold bonds; the code (and the description of the argument) asks for at least that many, which is what is proved."
  },
  {
   "property": "C105",
   "status": "partial",
   "theorems": [
    "Freud.C105_box_edges",
    "Freud.C105_box_edges_2d",
    "Freud.C105_box_color_partial",
    "Freud.C105_box_color_counterexample",
    "Freud.C105_box_limits_partial",
    "Freud.C105_box_limits_counterexample",
    "Freud.C105_system_limits",
    "Freud.C105_clusters",
    "Freud.C105_cluster_plot",
    "Freud.C105_density",
    "Freud.C105_pmft_partial",
    "Freud.C105_pmft_counterexample",
    "Freud.C105_diffraction_partial",
    "Freud.C105_diffraction_counterexample",
    "Freud.C105_voronoi_sides",
    "Freud.C105_voronoi_area_counterexample"
   ],
   "note": "Proved in full for the edges, system axes, cluster bars, densities and colors by sides; the box color, box limits, PMFT picture, diffraction picture and colors by area hold only under the stated restrictions, with counterexamples for the rest."
  },
  {
   "property": "C106",
   "status": "proved",
   "theorems": [
    "Freud.C106_same_surroundings",
    "Freud.C106_sc_q4",
    "Freud.C106_sc_solid4",
    "Freud.C106_sc_q6",
    "Freud.C106_sc_solid6",
    "Freud.C106_bcc_q4",
    "Freud.C106_bcc_solid4",
    "Freud.C106_bcc_q6",
    "Freud.C106_bcc_solid6",
    "Freud.C106_fcc_q4",
    "Freud.C106_fcc_solid4",
    "Freud.C106_fcc_q6",
    "Freud.C106_fcc_solid6",
    "Freud.C106_hcp_q4",
    "Freud.C106_hcp_solid4",
    "Freud.C106_hcp_q6",
    "Freud.C106_hcp_solid6",
    "Freud.C106_sc_odd",
    "Freud.C106_bcc_odd",
    "Freud.C106_fcc_odd",
    "Freud.C106_sc_cluster",
    "Freud.C106_bcc_cluster",
    "Freud.C106_fcc_cluster",
    "Freud.C106_hcp_cluster",
    "Freud.C106_square_cluster",
    "Freud.C106_hex_cluster",
    "Freud.C106_square_order",
    "Freud.C106_hex_order"
   ],
   "note": "Exact values for the first shell of sc, bcc, fcc, hcp (l = 4, 6), all odd l for sc, bcc, fcc; SolidLiquid, clusters, and all k of Hexatic for hex and square. C106 is stated for the first shell. In hcp the two kinds of sites see opposite directions, so averaging over neighbors is covered for even l only."
  },
  {
   "property": "C107",
   "status": "proved",
   "theorems": [
    "Freud.C107_columns",
    "Freud.C107_large",
    "Freud.C107_argument",
    "Freud.C107_shapes"
   ],
   "note": "For all lists of l, flags, histories and schedules."
  },
  {
   "property": "C108",
   "status": "proved",
   "theorems": [
    "Freud.C108_r12_rdf",
    "Freud.C108_xyt_xy",
    "Freud.C108_constant"
   ],
   "note": "Proved for all frames, orientations, bins and schedules: PMFTR12 averaged over angles is the RDF, PMFTXYT averaged over its angle is PMFTXY, a correlation function of constants is that constant where the RDF is not zero. Real arithmetic."
  },
  {
   "property": "C109",
   "status": "proved",
   "theorems": [
    "Freud.C109_neighbors",
    "Freud.C109_bonds",
    "Freud.C109_rdf",
    "Freud.C109_correlation",
    "Freud.C109_pmft_xy",
    "Freud.C109_pmft_xyt",
    "Freud.C109_pmft_r12",
    "Freud.C109_pmft_xyz",
    "Freud.C109_generate",
    "Freud.C109_local_density",
    "Freud.C109_hexatic",
    "Freud.C109_steinhardt"
   ],
   "note": "Proved for all boxes, repetitions, frames and schedules; generated systems with more replicas are instances. RDF in the finite_size mode is multiplied by m(N-1)/(mN-1), as its correction for the number of particles demands. Real arithmetic."
  },
  {
   "property": "C110",
   "status": "proved",
   "theorems": [
    "Freud.C110_range",
    "Freud.C110_filter_r",
    "Freud.C110_rdf",
    "Freud.C110_correlation",
    "Freud.C110_cluster",
    "Freud.C110_more_bonds",
    "Freud.C110_neighbors",
    "Freud.C110_local_density",
    "Freud.C110_hexatic",
    "Freud.C110_steinhardt"
   ],
   "note": "Proved for all periodic systems, ranges, engines and schedules. Real arithmetic."
  },
  {
   "property": "C111",
   "status": "proved",
   "theorems": [
    "Freud.C111_pmft_xy",
    "Freud.C111_pmft_xyt",
    "Freud.C111_pmft_r12",
    "Freud.C111_pmft_xyz",
    "Freud.C111_bond_order",
    "Freud.C111_local_bond_projection",
    "Freud.C111_local_descriptors",
    "Freud.C111_cubatic",
    "Freud.C111_diffraction"
   ],
   "note": "For directors (Nematic) see C43_flip_rescale, for RotationalAutocorrelation C72. AngularSeparation depends on the sign unless the equivalent orientations contain both (C46 and its counterexample)."
  },
  {
   "property": "C112",
   "status": "proved",
   "theorems": [
    "Freud.C112_correlation_query",
    "Freud.C112_correlation_values",
    "Freud.C112_gaussian",
    "Freud.C112_hexatic",
    "Freud.C112_steinhardt",
    "Freud.C112_diffraction",
    "Freud.C112_diffraction_equal"
   ],
   "note": "GaussianDensity: with r_max below half of the box, as in C38_density_at_most_once."
  },
  {
   "property": "C113",
   "status": "proved",
   "theorems": [
    "Freud.C113_bins",
    "Freud.C113_pmft_xy",
    "Freud.C113_pmft_xyt",
    "Freud.C113_pmft_xyz",
    "Freud.C113_pmft_r12",
    "Freud.C113_rdf",
    "Freud.C113_correlation",
    "Freud.C113_direct",
    "Freud.C113_bond_order"
   ],
   "note": "In exact arithmetic; in floating-point arithmetic the edges are rounded (C90)."
  },
  {
   "property": "C114",
   "status": "partial",
   "theorems": [
    "Freud.C114_nearest",
    "Freud.C114_voxels",
    "Freud.C114_local_density",
    "Freud.C114_solid_liquid",
    "Freud.C114_environments_partial",
    "Freud.C114_threshold_counterexample"
   ],
   "note": "Missing: environment matching with a larger threshold when a vector has several possible partners (false: C114_threshold_counterexample) or with registration; nearest-neighbor queries under the conditions of C23_nearest_partial (first radius at most half the smallest plane distance, shortest image at most one box away)."
  },
  {
   "property": "C115",
   "status": "partial",
   "theorems": [
    "Freud.C115_covers_partial",
    "Freud.C115_neighbors_partial",
    "Freud.C115_orthorhombic",
    "Freud.C115_argument",
    "Freud.C115_tilted_counterexample"
   ],
   "note": "Missing: tilted boxes with a buffer equal to the radius (false: C115_tilted_counterexample); the proved form asks that the faces move outwards by at least the radius, which C115_orthorhombic shows for boxes without tilt."
  },
  {
   "property": "C116",
   "status": "proved",
   "theorems": [
    "Freud.C116_larger_cell",
    "Freud.C116_bragg",
    "Freud.C116_read",
    "Freud.C116_sc",
    "Freud.C116_square",
    "Freud.C116_bcc",
    "Freud.C116_fcc",
    "Freud.C116_hex",
    "Freud.C116_rectangular",
    "Freud.C116_graphene",
    "Freud.C116_hcp",
    "Freud.C116_oblique"
   ],
   "note": "For systems without noise and without separate query points."
  },
  {
   "property": "C117",
   "status": "proved",
   "theorems": [
    "Freud.C117_rdf"
   ],
   "note": "Up to the second shell; further shells are not stated."
  },
  {
   "property": "C118",
   "status": "proved",
   "theorems": [
    "Freud.C118_rejects",
    "Freud.C118_accepts",
    "Freud.C118_query_radii",
    "Freud.C118_ratios",
    "Freud.C118_growth",
    "Freud.C118_growth_closed_counterexample"
   ],
   "note": "Growth is claimed for the open mode; the counterexample shows that the closed mode differs. Conversion to float32 is not modelled."
  },
  {
   "property": "C119",
   "status": "proved",
   "theorems": [
    "Freud.C119_inertia",
    "Freud.C119_gyration",
    "Freud.C119_trace_inertia",
    "Freud.C119_equal_masses",
    "Freud.C119_single",
    "Freud.C119_mass_unit"
   ],
   "note": "The center of mass in the statements is the reported one; C34 says when it is the right one."
  },
  {
   "property": "C120",
   "status": "proved",
   "theorems": [
    "Freud.C120_moved",
    "Freud.C120_reversed",
    "Freud.C120_reversed_direct_counterexample",
    "Freud.C120_permuted",
    "Freud.C120_constant_velocity",
    "Freud.C120_last",
    "Freud.C120_bounded"
   ],
   "note": "Exact real arithmetic; the FFT is the DFT. C120_moved and C120_permuted also compare different boxes and different splits into batches."
  },
  {
   "property": "C121",
   "status": "proved",
   "theorems": [
    "Freud.C121_one_cluster",
    "Freud.C121_environments",
    "Freud.C121_motif",
    "Freud.C121_other_motif",
    "Freud.C121_sc",
    "Freud.C121_bcc",
    "Freud.C121_fcc",
    "Freud.C121_square",
    "Freud.C121_hex"
   ],
   "note": "One cluster, equal environments and motif matches for sc, bcc, fcc, square and hex of any size, and for all points with equal, well separated environments. hcp, which has two kinds of environments, is not treated; registration is off."
  },
  {
   "property": "C122",
   "status": "proved",
   "theorems": [
    "Freud.C122_mean_const",
    "Freud.C122_average_nearest",
    "Freud.C122_average",
    "Freud.C122_read",
    "Freud.C122_nonneg",
    "Freud.C122_periodic_counterexample"
   ],
   "note": "Exact averages over all directions, by integrals; the direct class itself samples wave vectors (C55), which is not compared. The exact identity needs a system smaller than half of the box; for others it holds with the minimum image separations."
  },
  {
   "property": "C123",
   "status": "proved",
   "theorems": [
    "Freud.C123_all",
    "Freud.C123_distance",
    "Freud.C123_kmin_counterexample",
    "Freud.C123_chance",
    "Freud.C123_members",
    "Freud.C123_expected"
   ],
   "note": "The number of kept vectors is the integral over the continuous density of wave vectors; its difference from the sum over the lattice, which C123_expected gives exactly, is not bounded. The boundary case D = 0 in 3D depends on signed zeros and is left out. The generator of random numbers is a parameter."
  },
  {
   "property": "C124",
   "status": "proved",
   "theorems": [
    "Freud.C124_sc",
    "Freud.C124_bcc",
    "Freud.C124_fcc",
    "Freud.C124_hcp",
    "Freud.C124_square",
    "Freud.C124_hex",
    "Freud.C124_graphene",
    "Freud.C124_fcc_q6",
    "Freud.C124_ball",
    "Freud.C124_bonds",
    "Freud.C124_engines",
    "Freud.C124_same_neighbor_list",
    "Freud.C124_ball_list",
    "Freud.C124_ball_bonds",
    "Freud.C124_turned",
    "Freud.C124_scaled",
    "Freud.C124_accepted_iff"
   ],
   "note": "C124 needs `r_max` and `r_guess` not given and `scale` at most 2 (the default is 1.1): beyond that C23 has counterexamples."
  },
  {
   "property": "C125",
   "status": "proved",
   "theorems": [
    "Freud.C125_fcc_sann",
    "Freud.C125_bcc_sann",
    "Freud.C125_sc_sann",
    "Freud.C125_hcp_sann",
    "Freud.C125_square_sann",
    "Freud.C125_hex_sann",
    "Freud.C125_graphene_sann",
    "Freud.C125_fcc_rad",
    "Freud.C125_bcc_rad",
    "Freud.C125_sc_rad",
    "Freud.C125_hcp_rad",
    "Freud.C125_square_rad",
    "Freud.C125_hex_rad",
    "Freud.C125_graphene_rad"
   ],
   "note": ""
  },
  {
   "property": "C126",
   "status": "proved",
   "theorems": [
    "Freud.C126_perfect"
   ],
   "note": "For l >= 1 and positive weights. Plain, averaged and system values, each with an exact condition."
  },
  {
   "property": "C127",
   "status": "proved",
   "theorems": [
    "Freud.C127_extreme"
   ],
   "note": "Both extreme values, for normalize_q."
  },
  {
   "property": "C128",
   "status": "proved",
   "theorems": [
    "Freud.C128_images",
    "Freud.C128_volumes",
    "Freud.C128_mutual"
   ],
   "note": "Given that the external library voro++ returns the cells of the periodic diagram of the container it is given."
  },
  {
   "property": "C129",
   "status": "proved",
   "theorems": [
    "Freud.C129_diagram"
   ],
   "note": "Given that the external library voro++ returns the cells of the periodic diagram of the container it is given; the area of a facet is any function of sets that rigid motions leave unchanged."
  },
  {
   "property": "C130",
   "status": "proved",
   "theorems": [
    "Freud.C130_between",
    "Freud.C130_closest"
   ],
   "note": "Given that the external library voro++ returns the cells of the periodic diagram of the container it is given."
  },
  {
   "property": "C131",
   "status": "proved",
   "theorems": [
    "Freud.C131_sc",
    "Freud.C131_square",
    "Freud.C131_fcc",
    "Freud.C131_bcc",
    "Freud.C131_hex",
    "Freud.C131_neighbors",
    "Freud.C131_volumes"
   ],
   "note": "Given that the external library voro++ returns the cells of the periodic diagram of the container it is given: facets of no extent are not among its ridges."
  },
  {
   "property": "C132",
   "status": "proved",
   "theorems": [
    "Freud.C132_units"
   ],
   "note": "Given that the external library voro++ returns the cells of the periodic diagram of the container it is given. The measure of facets is any function that does not change under translations and is multiplied as areas (for upright facets in 2D: as lengths) are."
  },
  {
   "property": "C133",
   "status": "proved",
   "theorems": [
    "Freud.C133_symmetry",
    "Freud.C133_sc",
    "Freud.C133_square",
    "Freud.C133_fcc",
    "Freud.C133_bcc_near",
    "Freud.C133_bcc_next",
    "Freud.C133_hex",
    "Freud.C133_coordination_sc",
    "Freud.C133_coordination_square",
    "Freud.C133_coordination_fcc",
    "Freud.C133_coordination_hex"
   ],
   "note": "Full statement. Areas are any measure of facets that is invariant under rigid motions; for the coordination numbers it must be positive and the pyramids over the facets must fill each cell, both of which are facts about areas of convex polytopes that voro++ is trusted for (the example shows them for the unit cube)."
  },
  {
   "property": "C134",
   "status": "proved",
   "theorems": [
    "Freud.C134_sc_q4",
    "Freud.C134_sc_q6",
    "Freud.C134_sc_odd",
    "Freud.C134_fcc_q4",
    "Freud.C134_fcc_q6",
    "Freud.C134_fcc_odd",
    "Freud.C134_sc_solid6",
    "Freud.C134_sc_solid4",
    "Freud.C134_fcc_solid4",
    "Freud.C134_fcc_solid6",
    "Freud.C134_square_order",
    "Freud.C134_hex_order"
   ],
   "note": "sc and fcc (3D), square and hex (2D). bcc, whose 14 facets have two different areas, is C136. The hypothesis that the box is more than twice as large as the nearest distance is needed, because Steinhardt and Hexatic take the wrapped difference of positions and not the vector of the bond."
  },
  {
   "property": "C135",
   "status": "proved",
   "theorems": [
    "Freud.C135_larger_cell",
    "Freud.C135_coordination",
    "Freud.C135_generate"
   ],
   "note": "C135_larger_cell (volumes and bonds), C135_coordination, C135_generate (for generate_system). Both systems must be periodic in all directions, as the container always is."
  },
  {
   "property": "C136",
   "status": "proved",
   "theorems": [
    "Freud.C136_bcc_q4",
    "Freud.C136_bcc_q6",
    "Freud.C136_bcc_odd",
    "Freud.C136_bcc_solid4",
    "Freud.C136_bcc_solid6",
    "Freud.C136_same_surroundings",
    "Freud.C136_bcc_q4_weighted",
    "Freud.C136_bcc_q6_weighted",
    "Freud.C136_bcc_odd_weighted"
   ],
   "note": "With weights the values are given as functions of the areas of the hexagonal and of the square facets, since the model leaves the areas themselves to voro++."
  }
 ]
}