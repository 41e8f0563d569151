{
 "claims": [
  {
   "property": "C01",
   "status": "proved",
   "theorems": [
    "Verif.Extraction.C01_convolution_values",
    "Verif.Extraction.C01_convolution_rejects"
   ],
   "note": "All signal and weight lengths; odd weight as in the code."
  },
  {
   "property": "C02",
   "status": "proved",
   "theorems": [
    "Verif.Extraction.C02_curvature_values",
    "Verif.Extraction.C02_curvature_rejects",
    "Verif.Extraction.C02_padding_refused",
    "Verif.Extraction.C02_curvature_shift",
    "Verif.Extraction.C02_curvature_scale",
    "Verif.Extraction.C02_curvature_affine",
    "Verif.Extraction.C02_curvature_nonneg"
   ],
   "note": "Exact arithmetic over any commutative ring / linearly ordered field."
  },
  {
   "property": "C03",
   "status": "partial",
   "theorems": [
    "Verif.Extraction.C03_blocks_partition",
    "Verif.Extraction.C03_construction_rejects",
    "Verif.Extraction.C03_block_number_checked",
    "Verif.Extraction.C03_rounded_partial",
    "Verif.Extraction.C03_rounded_violated"
   ],
   "note": "Proved in exact arithmetic (C03_blocks_partition). With the rounding of the code it holds if there are more points than blocks (C03_rounded_partial); with as many points as blocks a block can be empty (C03_rounded_violated)."
  },
  {
   "property": "C04",
   "status": "partial",
   "theorems": [
    "Verif.Extraction.C04_blocks_balanced",
    "Verif.Extraction.C04_rounded_partial",
    "Verif.Extraction.C04_rounded_violated"
   ],
   "note": "Proved in exact arithmetic (C04_blocks_balanced). With the rounding of the code it holds if the number of points is no multiple of the number of blocks, otherwise the lengths differ by at most two (C04_rounded_partial), and two is reached (C04_rounded_violated)."
  },
  {
   "property": "C05",
   "status": "proved",
   "theorems": [
    "Verif.Extraction.C05_rounding_safe"
   ],
   "note": "Every floating-point operation goes through an arbitrary rounding function with the IEEE error bound; when blocks are non-empty under rounding is in C03."
  },
  {
   "property": "C06",
   "status": "proved",
   "theorems": [
    "Verif.Extraction.C06_fill_from_left",
    "Verif.Extraction.C06_fill_from_left_rejects",
    "Verif.Extraction.C06_empty_interval_writes_outside"
   ],
   "note": "Any neighbour test (possibly throwing outside the interval); the empty interval is shown to write outside it (C06_empty_interval_writes_outside)."
  },
  {
   "property": "C07",
   "status": "proved",
   "theorems": [
    "Verif.Extraction.C07_fill_from_right",
    "Verif.Extraction.C07_fill_from_right_rejects",
    "Verif.Extraction.C07_empty_interval_writes_outside"
   ],
   "note": "As C06, mirrored."
  },
  {
   "property": "C08",
   "status": "proved",
   "theorems": [
    "Verif.Extraction.C08_fill_neighbors",
    "Verif.Extraction.C08_sizes_checked"
   ],
   "note": "All rings, indices, paddings."
  },
  {
   "property": "C09",
   "status": "proved",
   "theorems": [
    "Verif.Extraction.C09_edges_strong_and_separated"
   ],
   "note": "Any std::sort tie order (IsArgsort); exact comparison."
  },
  {
   "property": "C10",
   "status": "proved",
   "theorems": [
    "Verif.Extraction.C10_suppression_justified"
   ],
   "note": "Any std::sort tie order."
  },
  {
   "property": "C11",
   "status": "proved",
   "theorems": [
    "Verif.Extraction.C11_surfaces_flat_separated_complete"
   ],
   "note": "Any std::sort tie order."
  },
  {
   "property": "C12",
   "status": "proved",
   "theorems": [
    "Verif.Extraction.C12_surface_keeps_edges"
   ],
   "note": "Any std::sort tie order."
  },
  {
   "property": "C13",
   "status": "proved",
   "theorems": [
    "Verif.Extraction.C13_ends_untouched",
    "Verif.Extraction.C13_block_local"
   ],
   "note": "Two-run statement; block arithmetic exact or rounded within the bounds of C05."
  },
  {
   "property": "C14",
   "status": "proved",
   "theorems": [
    "Verif.Extraction.C14_occlusion_exact",
    "Verif.Extraction.C14_occlusion_interior"
   ],
   "note": "Ring with more than padding points, fewer than 2^64; unsigned loop bound modelled modulo 2^64."
  },
  {
   "property": "C15",
   "status": "proved",
   "theorems": [
    "Verif.Extraction.C15_out_of_range_exact"
   ],
   "note": "Exact arithmetic."
  },
  {
   "property": "C16",
   "status": "proved",
   "theorems": [
    "Verif.Extraction.C16_parallel_beam_exact"
   ],
   "note": "Exact arithmetic; division by zero range handled as in IEEE (infinity / NaN)."
  },
  {
   "property": "C17",
   "status": "proved",
   "theorems": [
    "Verif.Extraction.C17_published_features",
    "Verif.Extraction.C17_node"
   ],
   "note": "Generic over the point operations (GeometryOK, proved for the node's real geometry in nodeGeometry_ok) and every admissible platform (sort tie order, hash order, rounding within C05 bounds)."
  },
  {
   "property": "C18",
   "status": "proved",
   "theorems": [
    "Verif.Extraction.C18_published_once"
   ],
   "note": "As C17; index lists witness that no input point appears twice."
  },
  {
   "property": "C19",
   "status": "partial",
   "theorems": [
    "Verif.Extraction.C19_callback_returns_partial",
    "Verif.Extraction.C19_callback_violated",
    "Verif.Extraction.C19_only_failure_is_comparator",
    "Verif.Extraction.C19_rings_independent"
   ],
   "note": "Returns for every cloud without two distinct points of one ring on the positive x half-axis; on the others std::sort has undefined behaviour (C19_callback_violated). Ring independence is unconditional."
  },
  {
   "property": "C20",
   "status": "partial",
   "theorems": [
    "Verif.Extraction.C20_split_partitions",
    "Verif.Extraction.C20_rings_sorted",
    "Verif.Extraction.C20_rings_defined_partial",
    "Verif.Extraction.C20_rings_defined_violated",
    "Verif.Extraction.C20_angles_nondecreasing_partial",
    "Verif.Extraction.C20_remove_sparse"
   ],
   "note": "Partition and sparse-ring removal unconditional; sorting is defined exactly off the positive-x-axis collisions (C20_rings_defined_violated)."
  },
  {
   "property": "C21",
   "status": "partial",
   "theorems": [
    "Verif.Extraction.C21_comparator_violated",
    "Verif.Extraction.C21_comparator_partial",
    "Verif.Extraction.C21_strict_weak_partial"
   ],
   "note": "Comparator equals the atan2 order except for two distinct points on the positive x half-axis, where it says 'less' both ways (C21_comparator_violated)."
  },
  {
   "property": "C22",
   "status": "proved",
   "theorems": [
    "Verif.Extraction.C22_neighbor_is_angle",
    "Verif.Extraction.C22_neighbor_symmetric",
    "Verif.Extraction.C22_neighbor_at_origin",
    "Verif.Extraction.C22_node_threshold"
   ],
   "note": "Exact real arithmetic."
  },
  {
   "property": "C23",
   "status": "partial",
   "theorems": [
    "Verif.Extraction.C23_range_interval_partial",
    "Verif.Extraction.C23_range_interval_ignores_begin",
    "Verif.Extraction.C23_range_interval_violated"
   ],
   "note": "False for begin != 0 (C23_range_interval_violated); proved for begin = 0; what is returned in general is also proved."
  },
  {
   "property": "C24",
   "status": "partial",
   "theorems": [
    "Verif.Extraction.C24_color_total",
    "Verif.Extraction.C24_edge_surface_colour_violated",
    "Verif.Extraction.C24_colours_partial",
    "Verif.Extraction.C24_value_colour_partial",
    "Verif.Extraction.C24_value_colour_defined",
    "Verif.Extraction.C24_points_by_value_partial",
    "Verif.Extraction.C24_value_colour_violated"
   ],
   "note": "Edge and surface share a colour; ValueToColor leaves the byte range or the grey scale unless 0 <= 256*min < max; proved as violations, and exactly for which intervals colouring by value is defined and is right (C24_value_colour_partial, C24_value_colour_defined)."
  },
  {
   "property": "C25",
   "status": "proved",
   "theorems": [
    "Verif.Lib.C25_sort_three"
   ],
   "note": "Any linear order; exact comparison (no NaN)."
  },
  {
   "property": "C26",
   "status": "proved",
   "theorems": [
    "Verif.Lib.C26_median_is_median",
    "Verif.Lib.C26_median_empty",
    "Verif.Lib.C26_median_order_independent",
    "Verif.Lib.C26_median_halves",
    "Verif.Lib.C26_median_between",
    "Verif.Lib.C26_median_affine"
   ],
   "note": "std::nth_element is a parameter constrained only by the standard's postcondition; exact arithmetic over any linearly ordered field."
  },
  {
   "property": "C27",
   "status": "proved",
   "theorems": [
    "Verif.Lib.C27_matrix_entry",
    "Verif.Lib.C27_array_entry",
    "Verif.Lib.C27_round_trip"
   ],
   "note": "All 36-entry arrays and 6x6 matrices."
  },
  {
   "property": "C28",
   "status": "proved",
   "theorems": [
    "Verif.Ekf.C28_aged_queue",
    "Verif.Ekf.C28_exactly_max_age_times",
    "Verif.Ekf.C28_message_independent",
    "Verif.Ekf.C28_clear",
    "Verif.Ekf.C28_pop_defined"
   ],
   "note": "All clear-free call sequences with distinct messages by an inductive invariant; C28_message_independent extends to equal messages and C28_clear to clears. Single-threaded use, as in the node (callbacks of one executor thread)."
  },
  {
   "property": "C29",
   "status": "partial",
   "theorems": [
    "Verif.Ekf.C29_considered_once_partial",
    "Verif.Ekf.C29_skipped_violated",
    "Verif.Ekf.C29_skipped_default_violated",
    "Verif.Ekf.C29_considered_prefix_partial",
    "Verif.Ekf.C29_considered_all_partial",
    "Verif.Ekf.C29_considered_soon_partial"
   ],
   "note": "False as stated: the loop bound messages_.size() shrinks when messages expire (C29_skipped_violated, also with the default smoothing step 5). Proved: exactly how long a prefix is considered, that all are considered iff no message before the last expires, and that a message with k others before it is considered within t ticks if k + 1 < 2^t, whatever arrives in between."
  },
  {
   "property": "C30",
   "status": "partial",
   "theorems": [
    "Verif.Ekf.C30_first_interval",
    "Verif.Ekf.C30_interval_partial",
    "Verif.Ekf.C30_zero_interval_violated"
   ],
   "note": "False as stated: a clock reading equal to the previous one gives an interval of 0 (C30_zero_interval_violated). Proved: the first interval is positive and at most 10 s; after any readings, a backward reading throws and changes nothing, and a later one gives the time since the latest accepted reading, cut at 10 s."
  },
  {
   "property": "C31",
   "status": "partial",
   "theorems": [
    "Verif.Ekf.C31_delay_step",
    "Verif.Ekf.C31_no_delay",
    "Verif.Ekf.C31_monotone",
    "Verif.Ekf.C31_zero_interval_violated",
    "Verif.Ekf.C31_beyond_history"
   ],
   "note": "Exact quotient; the conversion to int is undefined for dt = 0 or quotients beyond int (C31_zero_interval_violated). Discarding is proved on the shared loop body of both measurement updates."
  },
  {
   "property": "C32",
   "status": "proved",
   "theorems": [
    "Verif.Kalman.C32_covariance",
    "Verif.Kalman.C32_state",
    "Verif.Kalman.C32_state_nonlinear"
   ],
   "note": "All dimensions and history lengths, exact arithmetic. The nonlinear state prediction is C32_state_nonlinear."
  },
  {
   "property": "C33",
   "status": "proved",
   "theorems": [
    "Verif.Kalman.C33_blocks",
    "Verif.Kalman.C33_rejected",
    "Verif.Kalman.C33_augmented"
   ],
   "note": "All dimensions, exact arithmetic; a singular innovation covariance is a rejection."
  },
  {
   "property": "C34",
   "status": "proved",
   "theorems": [
    "Verif.Kalman.C34_psd",
    "Verif.Kalman.C34_latest_psd",
    "Verif.Kalman.C34_update_decreases",
    "Verif.Kalman.C34_accepted",
    "Verif.Kalman.C34_plain_filter"
   ],
   "note": "All operation sequences by induction, exact arithmetic."
  },
  {
   "property": "C35",
   "status": "proved",
   "theorems": [
    "Verif.Kalman.C35_history"
   ],
   "note": "All prediction sequences and history lengths."
  },
  {
   "property": "C36",
   "status": "proved",
   "theorems": [
    "Verif.Ekf.C36_outcome",
    "Verif.Ekf.C36_not_finite",
    "Verif.Ekf.C36_outside_gate",
    "Verif.Ekf.C36_refused",
    "Verif.Ekf.C36_pose_not_finite",
    "Verif.Ekf.C36_twist_not_finite",
    "Verif.Ekf.C36_tick"
   ],
   "note": "Every rejection path, for the loop body shared by pose and twist, and for a whole tick. Requires dt > 0 and a delay step that fits an int (otherwise C31_zero_interval_violated)."
  },
  {
   "property": "C37",
   "status": "proved",
   "theorems": [
    "Verif.Ekf.C37_motion_model",
    "Verif.Ekf.C37_jacobian",
    "Verif.Ekf.C37_jacobian_wrapped",
    "Verif.Ekf.C37_process_noise_psd"
   ],
   "note": "HasFDerivAt at every state and time step, with and without wrapping (away from the cut)."
  },
  {
   "property": "C38",
   "status": "proved",
   "theorems": [
    "Verif.Ekf.C38_range",
    "Verif.Ekf.C38_fixes",
    "Verif.Ekf.C38_idempotent",
    "Verif.Ekf.C38_congruent",
    "Verif.Ekf.C38_predicted_yaw"
   ],
   "note": "All real angles; atan2 as Complex.arg."
  },
  {
   "property": "C39",
   "status": "partial",
   "theorems": [
    "Verif.Ekf.C39_first",
    "Verif.Ekf.C39_update_partial",
    "Verif.Ekf.C39_sequence_partial",
    "Verif.Ekf.C39_nan_violated",
    "Verif.Ekf.C39_nan_forever_violated"
   ],
   "note": "False as stated: predicted and observed variance both zero give 0/0 = NaN, which is never left again (C39_nan_violated, C39_nan_forever_violated). Proved: the first observation; one update when the variances do not sum to zero; and for any sequence of finite observations with positive deviations and arbitrary stamps, the value lies between the extreme observations."
  },
  {
   "property": "C40",
   "status": "partial",
   "theorems": [
    "Verif.Ekf.C40_silent",
    "Verif.Ekf.C40_forgets_partial",
    "Verif.Ekf.C40_reset",
    "Verif.Ekf.C40_height_kept_violated"
   ],
   "note": "Silence before the first initial pose is proved for all event sequences. Forgetting is false for height, roll and pitch (C40_height_kept_violated) and proved for everything else (C40_forgets_partial: equal to the run without its earlier pose and twist messages). Initial poses with non-finite coordinates are not modelled."
  },
  {
   "property": "C41",
   "status": "partial",
   "theorems": [
    "Verif.Ekf.C41_missing_transform_violated",
    "Verif.Ekf.C41_found_partial"
   ],
   "note": "False: when all 50 lookups fail the callback dereferences an empty optional (C41_missing_transform_violated). C41_found_partial covers the case that a lookup succeeds."
  },
  {
   "property": "C42",
   "status": "partial",
   "theorems": [
    "Verif.Ekf.C42_empty_violated",
    "Verif.Ekf.C42_names_partial"
   ],
   "note": "False for the empty name (C42_empty_violated); proved for all non-empty names."
  },
  {
   "property": "C43",
   "status": "proved",
   "theorems": [
    "Verif.Ekf.C43_pose_entries",
    "Verif.Ekf.C43_pose_zero",
    "Verif.Ekf.C43_twist_entries",
    "Verif.Ekf.C43_twist_zero",
    "Verif.Ekf.C43_round_trip",
    "Verif.Ekf.C43_measurement_psd"
   ],
   "note": "All matrices, entry by entry, and round trip through the measurement code."
  },
  {
   "property": "C44",
   "status": "partial",
   "theorems": [
    "Verif.Opt.C44_run",
    "Verif.Opt.C44_success",
    "Verif.Opt.C44_unchanged",
    "Verif.Opt.C44_rigid",
    "Verif.Opt.C44_descent_partial",
    "Verif.Opt.C44_larger_error",
    "Verif.Opt.C44_larger_error_violated"
   ],
   "note": "All problems with well-formed blocks, all limits and rigid initial poses; exact arithmetic; Cholesky solver and nth_element only by specification. The last clause of the property is false: a run that stops because of a larger error returns the worse pose (C44_larger_error, witness C44_larger_error_violated). C44_descent_partial is what remains of it."
  },
  {
   "property": "C45",
   "status": "proved",
   "theorems": [
    "Verif.Opt.C45_textbook",
    "Verif.Opt.C45_derivative",
    "Verif.Opt.C45_weight",
    "Verif.Opt.C45_loss",
    "Verif.Opt.C45_optimizer_weights"
   ],
   "note": "All errors and k > 0, the switch point included."
  },
  {
   "property": "C46",
   "status": "proved",
   "theorems": [
    "Verif.Opt.C46_step",
    "Verif.Opt.C46_degenerate",
    "Verif.Opt.C46_sizes"
   ],
   "note": "All well-formed blocks, positive weights, unit quaternions; strict minimality (unique minimiser). Exact eigenvalues and arithmetic."
  },
  {
   "property": "C47",
   "status": "proved",
   "theorems": [
    "Verif.Rot.C47_product",
    "Verif.Rot.C47_commute",
    "Verif.Rot.C47_orthogonal",
    "Verif.Rot.C47_round_trip"
   ],
   "note": "All real quaternions; orthogonality for unit ones. Quaternion product compared with Mathlib's quaternions."
  },
  {
   "property": "C48",
   "status": "proved",
   "theorems": [
    "Verif.Rot.C48_hat"
   ],
   "note": "All vectors."
  },
  {
   "property": "C49",
   "status": "proved",
   "theorems": [
    "Verif.Rot.C49_derivative"
   ],
   "note": "All quaternions (also non-unit) and points; Frechet derivative of p -> q p q*."
  },
  {
   "property": "C50",
   "status": "proved",
   "theorems": [
    "Verif.Rot.C50_rpy"
   ],
   "note": "All angles."
  },
  {
   "property": "C51",
   "status": "proved",
   "theorems": [
    "Verif.Rot.C51_unit",
    "Verif.Rot.C51_near_zero",
    "Verif.Rot.C51_rodrigues",
    "Verif.Rot.C51_opposite"
   ],
   "note": "All rotation vectors. Below length 1e-8 the code returns the identity (C51_near_zero); Rodrigues' formula from 1e-8 on."
  },
  {
   "property": "C52",
   "status": "proved",
   "theorems": [
    "Verif.Loc.C52_zero_iff",
    "Verif.Loc.C52_distance",
    "Verif.Loc.C52_jacobian",
    "Verif.Loc.C52_triplet_cross"
   ],
   "note": "All points, all lines through two distinct points, all poses with unit quaternion for the derivative."
  },
  {
   "property": "C53",
   "status": "proved",
   "theorems": [
    "Verif.Loc.C53_distance",
    "Verif.Loc.C53_jacobian"
   ],
   "note": "All dimensions for the distance; zero normal is a non-finite outcome."
  },
  {
   "property": "C54",
   "status": "proved",
   "theorems": [
    "Verif.Store.C54_contents",
    "Verif.Store.C54_size",
    "Verif.Store.C54_order",
    "Verif.Store.C54_closest",
    "Verif.Store.C54_empty"
   ],
   "note": "All histories, any linearly ordered times. An empty store is the outcome undefined behaviour (C54_empty), excluded by C56."
  },
  {
   "property": "C55",
   "status": "partial",
   "theorems": [
    "Verif.Store.C55_removes_newer_partial",
    "Verif.Store.C55_all_newer_undefined",
    "Verif.Store.C55_keeps_old",
    "Verif.Store.C55_violated",
    "Verif.Store.C55_undefined_violated",
    "Verif.Store.C55_node_undefined_violated",
    "Verif.Store.C55_unbounded_violated"
   ],
   "note": "False: the code removes the newer entries. C55_removes_newer_partial says exactly what is removed; calls with only newer entries are undefined behaviour; the store grows without bound."
  },
  {
   "property": "C56",
   "status": "proved",
   "theorems": [
    "Verif.Store.C56_query_nonempty",
    "Verif.Store.C56_no_prior",
    "Verif.Store.C56_failures"
   ],
   "note": "All interleavings of the locked operations; C56_failures lists everything that can go wrong."
  },
  {
   "property": "C57",
   "status": "proved",
   "theorems": [
    "Verif.Store.C57_published",
    "Verif.Store.C57_only_publish",
    "Verif.Store.C57_two_runs",
    "Verif.Store.C57_localizer"
   ],
   "note": "All reachable states, and a two-run theorem; the optimiser is an arbitrary function of scan and prior."
  },
  {
   "property": "C58",
   "status": "proved",
   "theorems": [
    "Verif.Mapping.C58_recent",
    "Verif.Mapping.C58_negative"
   ],
   "note": "All histories of fewer than 2^31 scans (int conversion) and n >= 0; a negative n is undefined behaviour (C58_negative)."
  },
  {
   "property": "C59",
   "status": "proved",
   "theorems": [
    "Verif.Mapping.C59_threshold",
    "Verif.Mapping.C59_unique",
    "Verif.Mapping.C59_map",
    "Verif.Mapping.C59_garbage",
    "Verif.Mapping.C59_empty"
   ],
   "note": "All histories of rigid poses for the threshold; independence of the uninitialised member for all poses. Exact arithmetic over the reals."
  },
  {
   "property": "C60",
   "status": "proved",
   "theorems": [
    "Verif.Mapping.C60_path"
   ],
   "note": "All sequences of messages."
  },
  {
   "property": "C61",
   "status": "proved",
   "theorems": [
    "Verif.Convert.C61_reads",
    "Verif.Convert.C61_round_trip",
    "Verif.Convert.C61_never_wraps",
    "Verif.Convert.C61_byte_order"
   ],
   "note": "All layouts with increasing non-overlapping fields, both byte orders, all representable values. Python's struct is transcribed; floats are an arbitrary encoding."
  },
  {
   "property": "C62",
   "status": "partial",
   "theorems": [
    "Verif.Convert.C62_converted_partial",
    "Verif.Convert.C62_packed_violated",
    "Verif.Convert.C62_silent_violated"
   ],
   "note": "False for fields that overlap byte 12 to 15: exception (C62_packed_violated, every non-empty cloud of that layout) or silently wrong values (C62_silent_violated). C62_converted_partial: the claim for every accepted layout."
  },
  {
   "property": "C63",
   "status": "partial",
   "theorems": [
    "Verif.Mapping.C63_centroid_partial",
    "Verif.Mapping.C63_empty_violated"
   ],
   "note": "Non-empty maps of fewer than 2^32 points; the empty map gives NaN (C63_empty_violated)."
  },
  {
   "property": "C64",
   "status": "proved",
   "theorems": [
    "Verif.Opt.C64_degenerate",
    "Verif.Opt.C64_reliable"
   ],
   "note": "All symmetric matrices of any size and thresholds; all arrangements of the three eigenvalues."
  },
  {
   "property": "C65",
   "status": "partial",
   "theorems": [
    "Verif.Ekf.C65_translation_partial",
    "Verif.Ekf.C65_turn_partial",
    "Verif.Ekf.C65_rotation_violated"
   ],
   "note": "False for frames rotated against each other (C65_rotation_violated, for every tf2). Proved for transforms without rotation, and exactly for turns about the vertical axis: right iff there is no turn or the position is the origin (C65_turn_partial)."
  },
  {
   "property": "C66",
   "status": "partial",
   "theorems": [
    "Verif.Ekf.C66_yaw_residual_partial",
    "Verif.Ekf.C66_violated",
    "Verif.Ekf.C66_residual_violated",
    "Verif.Ekf.C66_node_violated"
   ],
   "note": "False: the innovation is not wrapped. C66_node_violated is a run of the node (initial heading -3 rad, measured heading 3 rad, published heading within 0.01 rad of 0); C66_violated and C66_residual_violated are at the filter. Proved: residual zero for equal headings when the estimate is normalised, and correct while the difference stays within half a turn."
  },
  {
   "property": "C67",
   "status": "proved",
   "theorems": [
    "Verif.Ekf.C67_distance",
    "Verif.Ekf.C67_monotone",
    "Verif.Ekf.C67_accepts_equal"
   ],
   "note": "All dimensions, positive definite covariances, exact arithmetic."
  },
  {
   "property": "C68",
   "status": "proved",
   "theorems": [
    "Verif.Ekf.C68_lookup"
   ],
   "note": "All sequences of lookup results."
  },
  {
   "property": "C69",
   "status": "proved",
   "theorems": [
    "Verif.Ekf.C69_published_psd"
   ],
   "note": "All event sequences in which no callback fails, all history lengths. Exact real arithmetic; the solver is a parameter (invertible or not)."
  },
  {
   "property": "C70",
   "status": "proved",
   "theorems": [
    "Verif.Ekf.C70_no_failure"
   ],
   "note": "All event sequences meeting WellFormed: named frames, transforms found within 50 tries, finite initial poses, timer readings at least L seconds apart, measurements younger than 2147483647 L. The outputs are characterised by kind, stamp and frames, in order. Frame names without a percent sign, if warnings are logged (C118)."
  },
  {
   "property": "C71",
   "status": "proved",
   "theorems": [
    "Verif.Rot.C71_matrix_to_quaternion"
   ],
   "note": "All rotation matrices. Eigen's conversion is transcribed (it is not in /repo)."
  },
  {
   "property": "C72",
   "status": "proved",
   "theorems": [
    "Verif.Loc.C72_alignment"
   ],
   "note": "All unit quaternions, translations and points."
  },
  {
   "property": "C73",
   "status": "proved",
   "theorems": [
    "Verif.Opt.C73_scale",
    "Verif.Opt.C73_scale_affine",
    "Verif.Opt.C73_scale_robust"
   ],
   "note": "All lists, all implementations of nth_element."
  },
  {
   "property": "C74",
   "status": "proved",
   "theorems": [
    "Verif.Opt.C74_velocity",
    "Verif.Opt.C74_end_point",
    "Verif.Opt.C74_chain"
   ],
   "note": "All quaternions, axes, step lengths; the code's rotation equals the end point of the curve for steps of length >= 1e-8 (below, the code returns the identity)."
  },
  {
   "property": "C75",
   "status": "partial",
   "theorems": [
    "Verif.Opt.C75_degenerate_success",
    "Verif.Opt.C75_degenerate_violated"
   ],
   "note": "False: every run that begins at a degenerate pose reports success (C75_degenerate_success), concrete witness in C75_degenerate_violated."
  },
  {
   "property": "C76",
   "status": "partial",
   "theorems": [
    "Verif.Opt.C76_reported_error_partial",
    "Verif.Opt.C76_reported_error_violated"
   ],
   "note": "Holds for runs stopped by larger error or scale; false for converged runs (witness)."
  },
  {
   "property": "C77",
   "status": "partial",
   "theorems": [
    "Verif.Store.C77_closest_received_partial",
    "Verif.Store.C77_violated"
   ],
   "note": "False: handling a scan deletes priors more than a second newer, which later scans need (C77_violated). Partial: holds if no received prior is more than a second newer than a handled scan."
  },
  {
   "property": "C78",
   "status": "proved",
   "theorems": [
    "Verif.Mapping.C78_odometry"
   ],
   "note": "All scan sequences (fewer than 2^31) and all pose estimators."
  },
  {
   "property": "C79",
   "status": "proved",
   "theorems": [
    "Verif.Extraction.C79_ring_labelling_complete"
   ],
   "note": "Exact and rounded block arithmetic; same padding for both passes, as in the node. Applies before the occlusion, range and parallel-beam filters, which run afterwards."
  },
  {
   "property": "C80",
   "status": "partial",
   "theorems": [
    "Verif.Loam.C80_nearest_partial",
    "Verif.Loam.C80_small_map",
    "Verif.Loam.C80_refused",
    "Verif.Loam.C80_small_map_violated"
   ],
   "note": "Maps with at least k points: proved for every search meeting KnnSpec. Violated for smaller maps: the result is filled up with copies of the first point of the map; empty maps fail an assertion."
  },
  {
   "property": "C81",
   "status": "proved",
   "theorems": [
    "Verif.Loam.C81_best_line",
    "Verif.Loam.C81_covariance",
    "Verif.Loam.C81_edge_residual"
   ],
   "note": "Eigen's eigensolver and nanoflann are parameters meeting EigSpec and KnnSpec; exact arithmetic."
  },
  {
   "property": "C82",
   "status": "partial",
   "theorems": [
    "Verif.Loam.C82_least_squares",
    "Verif.Loam.C82_exact",
    "Verif.Loam.C82_centroid",
    "Verif.Loam.C82_surface_residual",
    "Verif.Loam.C82_misses_origin",
    "Verif.Loam.C82_origin_violated",
    "Verif.Loam.C82_check"
   ],
   "note": "Proved for neighbours that span the space and whose centroid is not the origin (QrSpec). Violated for planes through the origin of the map, which the equation w.x + 1 = 0 cannot describe; a centroid at the origin gives a non-finite residual (C82_centroid, C82_surface_residual)."
  },
  {
   "property": "C83",
   "status": "partial",
   "theorems": [
    "Verif.Loam.C83_blocks",
    "Verif.Loam.C83_empty_map_violated",
    "Verif.Loam.C83_empty_scan"
   ],
   "note": "Proved for maps with an edge point and regular surface neighbourhoods, any voxel grid filter. Violated for an empty edge map: assertion failure."
  },
  {
   "property": "C84",
   "status": "proved",
   "theorems": [
    "Verif.Loam.C84_scan_matching"
   ],
   "note": "Surface neighbourhoods are assumed regular everywhere (span the space, centroid not at the origin); 15 neighbours as in the code."
  },
  {
   "property": "C85",
   "status": "proved",
   "theorems": [
    "Verif.Loam.C85_fixed_point",
    "Verif.Loam.C85_true_pose"
   ],
   "note": "Both for abstract problems with vanishing residuals and for the scan matching problem; nothing is assumed about other poses."
  },
  {
   "property": "C86",
   "status": "proved",
   "theorems": [
    "Verif.Ekf.C86_refines",
    "Verif.Ekf.C86_well_formed"
   ],
   "note": "Refinement of a reference filter by simulation; the smoothing queue is the one specified by C28 and C29. Nothing is said about events at which a step fails (C31, C41). tf2's yaw extraction is a parameter."
  },
  {
   "property": "C87",
   "status": "proved",
   "theorems": [
    "Verif.Kalman.C87_prediction",
    "Verif.Kalman.C87_optimal_gain",
    "Verif.Kalman.C87_least_squares",
    "Verif.Kalman.C87_delayed_optimal_gain",
    "Verif.Kalman.C87_delayed_least_squares"
   ],
   "note": "Populations are finite with any weights that sum to one; prior covariance and measurement noise positive definite for the least squares claim."
  },
  {
   "property": "C88",
   "status": "proved",
   "theorems": [
    "Verif.Align.C88_blocks"
   ],
   "note": "Equal sizes are an assertion in the code; the derivative is stated at rigid poses."
  },
  {
   "property": "C89",
   "status": "partial",
   "theorems": [
    "Verif.Align.C89_downhill_partial",
    "Verif.Align.C89_first",
    "Verif.Align.C89_two_signs",
    "Verif.Align.C89_reversed",
    "Verif.Align.C89_alignment",
    "Verif.Align.C89_scan_matching",
    "Verif.Align.C89_uphill_violated"
   ],
   "note": "Proved where the quaternion of the iterate is the one at which the problem takes derivatives (always so in the first iteration). Violated otherwise: the rotation of the step is reversed and the run ends with success far from the solution."
  },
  {
   "property": "C90",
   "status": "proved",
   "theorems": [
    "Verif.Align.C90_translation"
   ],
   "note": "Spread is stated on the source points alone, with the threshold of the degeneracy check; the squared error must not exceed the largest double."
  },
  {
   "property": "C91",
   "status": "partial",
   "theorems": [
    "Verif.Align.C91_translation",
    "Verif.Align.C91_first_step_partial",
    "Verif.Align.C91_rotation_violated"
   ],
   "note": "Proved for translations (whole run) and for rotations in the first step. Violated for rotations in later steps."
  },
  {
   "property": "C92",
   "status": "proved",
   "theorems": [
    "Verif.Align.C92_alignment",
    "Verif.Align.C92_scan_matching"
   ],
   "note": "Scan matching: under the hypotheses of C84, and for downsampled surface scans that are permutations of one another."
  },
  {
   "property": "C93",
   "status": "proved",
   "theorems": [
    "Verif.Align.C93_degenerate",
    "Verif.Align.C93_unchanged",
    "Verif.Align.C93_line"
   ],
   "note": "The unchanged result needs an initial error and scale that do not exceed the largest double."
  },
  {
   "property": "C94",
   "status": "proved",
   "theorems": [
    "Verif.Loc.C94_rows"
   ],
   "note": "rows as Frechet derivatives, all lists"
  },
  {
   "property": "C95",
   "status": "proved",
   "theorems": [
    "Verif.Loc.C95_moves",
    "Verif.Loc.C95_compose",
    "Verif.Loc.C95_inverse"
   ],
   "note": "action laws, vectors of any length"
  },
  {
   "property": "C96",
   "status": "partial",
   "theorems": [
    "Verif.Msg.C96_reads",
    "Verif.Msg.C96_round_trip",
    "Verif.Msg.C96_back",
    "Verif.Msg.C96_transform",
    "Verif.Msg.C96_covariance",
    "Verif.Msg.C96_twist",
    "Verif.Msg.C96_rigid_iff_partial",
    "Verif.Msg.C96_not_normalised_violated",
    "Verif.Msg.C96_checked"
   ],
   "note": "holds for unit quaternions; messages with other quaternions give poses that are not rigid (C96_not_normalised_violated)"
  },
  {
   "property": "C97",
   "status": "partial",
   "theorems": [
    "Verif.Store.C97_rigid_partial",
    "Verif.Store.C97_scaled_violated"
   ],
   "note": "holds if the prior messages have unit quaternions; false otherwise (C97_scaled_violated)"
  },
  {
   "property": "C98",
   "status": "proved",
   "theorems": [
    "Verif.Msg.C98_markers"
   ],
   "note": "all call sequences"
  },
  {
   "property": "C99",
   "status": "proved",
   "theorems": [
    "Verif.Msg.C99_filter"
   ],
   "note": "all lists"
  },
  {
   "property": "C100",
   "status": "proved",
   "theorems": [
    "Verif.Msg.C100_indices",
    "Verif.Msg.C100_deviation",
    "Verif.Msg.C100_laws"
   ],
   "note": "pairwise characterisation and laws; shuffle is any permutation"
  },
  {
   "property": "C101",
   "status": "proved",
   "theorems": [
    "Verif.Msg.C101_stack",
    "Verif.Msg.C101_get",
    "Verif.Msg.C101_nonempty"
   ],
   "note": "all sizes, any previous memory contents"
  },
  {
   "property": "C102",
   "status": "partial",
   "theorems": [
    "Verif.Apps.C102_mapping",
    "Verif.Apps.C102_start",
    "Verif.Apps.C102_pipeline_partial",
    "Verif.Apps.C102_no_surface_violated",
    "Verif.Apps.C102_loader",
    "Verif.Apps.C102_missing_violated",
    "Verif.Apps.C102_edge_surface",
    "Verif.Apps.C102_edge_surface_recent",
    "Verif.Apps.C102_edge_surface_empty"
   ],
   "note": "no program writes the surface map that localization requires (C102_no_surface_violated); the map loader does not report a missing file (C102_missing_violated)"
  },
  {
   "property": "C103",
   "status": "proved",
   "theorems": [
    "Verif.Extraction.C103_occlusion_mirror",
    "Verif.Extraction.C103_out_of_range_mirror",
    "Verif.Extraction.C103_parallel_beam_mirror",
    "Verif.Extraction.C103_curvature_mirror"
   ],
   "note": "filters and curvature; the block labelling is not mirror symmetric because its block boundaries are not"
  },
  {
   "property": "C104",
   "status": "proved",
   "theorems": [
    "Verif.Store.C104_conversion_error",
    "Verif.Store.C104_small_exact",
    "Verif.Store.C104_order_kept",
    "Verif.Store.C104_prior_nearly_closest",
    "Verif.Store.C104_simulated_time",
    "Verif.Store.C104_not_exact"
   ],
   "note": "IEEE rounding of 64-bit integers modelled; C104_not_exact shows that the bound cannot be zero"
  },
  {
   "property": "C105",
   "status": "partial",
   "theorems": [
    "Verif.Launch.C105_localization_partial",
    "Verif.Launch.C105_sensor",
    "Verif.Launch.C105_maps",
    "Verif.Launch.C105_namespace_violated",
    "Verif.Launch.C105_namespace_sensor_violated",
    "Verif.Launch.C105_namespace_partial",
    "Verif.Launch.C105_absolute",
    "Verif.Launch.C105_mapping",
    "Verif.Launch.C105_odometry_violated",
    "Verif.Launch.C105_odometry_path",
    "Verif.Launch.C105_path",
    "Verif.Launch.C105_map_frame",
    "Verif.Launch.C105_map_frame_namespace_violated",
    "Verif.Launch.C105_view",
    "Verif.Launch.C105_view_default",
    "Verif.Launch.C105_debug_view",
    "Verif.Launch.C105_mapping_view",
    "Verif.Launch.C105_view_initial_violated",
    "Verif.Launch.C105_view_initial",
    "Verif.Launch.C105_debug_path_violated"
   ],
   "note": "holds for localization.launch.py, mapping.launch.py and map_tf_generator.launch.xml run by themselves; fails in a namespace (C105_namespace_violated, C105_map_frame_namespace_violated), for odometry.launch.py (C105_odometry_violated), and for the initial pose and the path of the shipped views with the default arguments (C105_view_initial_violated, C105_debug_path_violated)"
  },
  {
   "property": "C106",
   "status": "proved",
   "theorems": [
    "Verif.Extraction.C106_heights_ignored",
    "Verif.Extraction.C106_attachments_carried"
   ],
   "note": "naturality of the whole callback in the point type"
  },
  {
   "property": "C107",
   "status": "proved",
   "theorems": [
    "Verif.Sync.C107_pairs_share_stamp",
    "Verif.Sync.C107_every_scan_once",
    "Verif.Sync.C107_extraction_to_localization",
    "Verif.Sync.C107_lag_needed"
   ],
   "note": "the synchroniser is library code, modelled from its known behaviour; C107_lag_needed shows that the bound on the lag is needed"
  },
  {
   "property": "C108",
   "status": "proved",
   "theorems": [
    "Verif.Sync.C108_exact_pairs",
    "Verif.Sync.C108_increasing",
    "Verif.Sync.C108_all_common",
    "Verif.Sync.C108_interleaving",
    "Verif.Sync.C108_mapping"
   ],
   "note": "refinement of the stateful synchroniser to a specification by history; library code modelled from its known behaviour"
  },
  {
   "property": "C109",
   "status": "proved",
   "theorems": [
    "Verif.Store.C109_every_scan_published",
    "Verif.Store.C109_topics_to_poses"
   ],
   "note": "schedules in which nothing fails; failures are characterised in C56"
  },
  {
   "property": "C110",
   "status": "proved",
   "theorems": [
    "Verif.Extraction.C110_order_of_points"
   ],
   "note": "the hypothesis (no two points of a ring in the same direction) is shown to be needed by an example; ties between equal curvatures are broken alike (the same sorting function in both runs)"
  },
  {
   "property": "C111",
   "status": "proved",
   "theorems": [
    "Verif.Extraction.C111_unit_of_length"
   ],
   "note": "the sort of curvatures may look at comparisons only, as std::sort does; exact arithmetic"
  },
  {
   "property": "C112",
   "status": "proved",
   "theorems": [
    "Verif.Ekf.C112_origin"
   ],
   "note": "translations of the map frame and shifts of time; rotations are excluded because headings are not unwrapped (C66)"
  },
  {
   "property": "C113",
   "status": "partial",
   "theorems": [
    "Verif.Loam.C113_translation_partial",
    "Verif.Loam.C113_edges",
    "Verif.Loam.C113_origin_violated"
   ],
   "note": "the plane w.x = -1 depends on the origin; the case that fails is C113_origin_violated; neighbour search may depend on differences of points only"
  },
  {
   "property": "C114",
   "status": "proved",
   "theorems": [
    "Verif.Kalman.C114_in_time",
    "Verif.Kalman.C114_order"
   ],
   "note": "about the filter class with a linear process; the node's own process is not linear and its gate looks at the current state, so its results may depend on when a measurement arrives"
  },
  {
   "property": "C115",
   "status": "proved",
   "theorems": [
    "Verif.Kalman.C115_smoothing",
    "Verif.Kalman.C115_node_covariance"
   ],
   "note": "about the filter class with a linear process; that the node may process a message fewer times than intended is C29"
  },
  {
   "property": "C116",
   "status": "proved",
   "theorems": [
    "Verif.Extraction.C116_ring",
    "Verif.Extraction.C116_thresholds",
    "Verif.Extraction.C116_surface_threshold_keeps_edges"
   ],
   "note": "padding and number of blocks are the same in both settings; a higher edge threshold may add surface points, as an example shows"
  },
  {
   "property": "C117",
   "status": "proved",
   "theorems": [
    "Verif.Ekf.C117_truth_is_kept",
    "Verif.Ekf.C117_at_rest",
    "Verif.Ekf.C117_well_formed"
   ],
   "note": "the true heading lies in (-pi, pi]; the initial pose must give exactly that heading since the node does not normalise it (C38)"
  },
  {
   "property": "C118",
   "status": "partial",
   "theorems": [
    "Verif.Ekf.C118_forget",
    "Verif.Ekf.C118_harmless_partial",
    "Verif.Ekf.C118_no_failure_partial",
    "Verif.Ekf.C118_format_violated"
   ],
   "note": "violated: the text is used as a printf format, so that a message from a frame called %s is undefined behaviour; proved for texts without a percent sign, and unconditionally that a node that runs with logging does the same without"
  },
  {
   "property": "C119",
   "status": "proved",
   "theorems": [
    "Verif.Ekf.C119_reported",
    "Verif.Ekf.C119_silent"
   ],
   "note": "on requests for warnings; which of them are shown is C120"
  },
  {
   "property": "C120",
   "status": "partial",
   "theorems": [
    "Verif.Ekf.C120_throttle_partial",
    "Verif.Ekf.C120_not_silent_partial",
    "Verif.Ekf.C120_hidden_violated",
    "Verif.Ekf.C120_starved_violated"
   ],
   "note": "violated: all throttled warnings share one throttle, with the duration of the first one ever asked for; as long as poses come from another frame (and there are no twists), no other throttled warning is ever shown when the clock stands still during a callback. Proved: exactly when a warning is shown, and that some warning is shown at least every two seconds"
  },
  {
   "property": "C121",
   "status": "proved",
   "theorems": [
    "Verif.Extraction.C121_numbers",
    "Verif.Extraction.C121_block_number",
    "Verif.Extraction.C121_neighbor",
    "Verif.Extraction.C121_fill",
    "Verif.Extraction.C121_span",
    "Verif.Extraction.C121_too_few"
   ],
   "note": "fmt's formatting of integers and std::to_string are modelled as decimal notation; that it reads back as the number is proved. The text of the constructor of IndexRange lacks its last parenthesis (DESIGN.md section 4)"
  },
  {
   "property": "C122",
   "status": "proved",
   "theorems": [
    "Verif.Extraction.C122_forget",
    "Verif.Extraction.C122_reported"
   ],
   "note": "the second half (no harm) holds for all inputs and parameters; e.what() as a format string is harmless because no text of the extraction contains a percent sign"
  },
  {
   "property": "C123",
   "status": "proved",
   "theorems": [
    "Verif.Kalman.C123_variance",
    "Verif.Kalman.C123_residual",
    "Verif.Ekf.C123_published_pose",
    "Verif.Ekf.C123_published_twist"
   ],
   "note": "C123_variance and C123_residual cover delayed measurements; for the node the claim is about poses and twists that are not delayed, whatever other messages are used at the same tick."
  },
  {
   "property": "C124",
   "status": "proved",
   "theorems": [
    "Verif.Kalman.C124_more_information",
    "Verif.Kalman.C124_variances"
   ],
   "note": "noise that is only positive semidefinite does not suffice (singular_noise_refused): see DESIGN.md section 4"
  },
  {
   "property": "C125",
   "status": "proved",
   "theorems": [
    "Verif.Ekf.C125_goes_on",
    "Verif.Ekf.C125_within_reach",
    "Verif.Ekf.C125_straight",
    "Verif.Ekf.C125_queues_run_empty"
   ],
   "note": "C125_goes_on is the exact statement, C125_within_reach and C125_straight follow from it by induction over the ticks; C125_queues_run_empty shows that the hypothesis of empty queues is reached. The draining time is counted in messages times smoothing steps because a tick may skip messages (C29)."
  },
  {
   "property": "C126",
   "status": "proved",
   "theorems": [
    "Verif.Extraction.C126_ring_local",
    "Verif.Extraction.C126_one_ring",
    "Verif.Extraction.C126_union"
   ],
   "note": "presumes that std::sort is defined on each ring (no two different points of a ring on the positive x half-axis): otherwise one ring spoils the whole callback, which is the violation recorded under C19; ties between equal curvatures are broken alike (the same sorting function in both runs)"
  },
  {
   "property": "C127",
   "status": "proved",
   "theorems": [
    "Verif.Frames.C127_tree",
    "Verif.Frames.C127_clouds",
    "Verif.Frames.C127_maps",
    "Verif.Frames.C127_scans",
    "Verif.Frames.C127_poses"
   ],
   "note": "the extraction names its frame whatever the frame of the sensor's cloud is; pose_frame_id and map_frame have their default map"
  },
  {
   "property": "C128",
   "status": "partial",
   "theorems": [
    "Verif.Param.C128_extraction_partial",
    "Verif.Param.C128_ekf_partial",
    "Verif.Param.C128_other_names",
    "Verif.Param.C128_started_extraction_works",
    "Verif.Param.C128_reduced",
    "Verif.Param.C128_shipped_file",
    "Verif.Param.C128_padding_violated",
    "Verif.Param.C128_ranges_violated",
    "Verif.Param.C128_ekf_steps_violated",
    "Verif.Param.C128_started_ekf_works",
    "Verif.Param.C128_map_loader",
    "Verif.Param.C128_map_frame"
   ],
   "note": "violated for integers outside the range of int, for extend_state_step ≤ 0 and for min_range > max_range; partial theorems state exactly when the nodes start"
  },
  {
   "property": "C129",
   "status": "proved",
   "theorems": [
    "Verif.Opt.C129_pull",
    "Verif.Opt.C129_step",
    "Verif.Align.C129_alignment"
   ],
   "note": "Bound of one iteration; the spread of the majority is a hypothesis (without it the step is not determined, or the code's degeneracy test returns no step). Exact arithmetic."
  },
  {
   "property": "C130",
   "status": "partial",
   "theorems": [
    "Verif.Extraction.C130_range",
    "Verif.Extraction.C130_curvature",
    "Verif.Extraction.C130_extraction_partial",
    "Verif.Extraction.C130_same_direction_violated",
    "Verif.Extraction.C130_sort_violated"
   ],
   "note": "Partial: equality outside the margins is proved; inside them it fails (NaN angle of two points in the same direction, undefined behaviour of the sort with the float comparator; both proved). Simplification: no overflow, no underflow, no contraction of product and sum."
  },
  {
   "property": "C131",
   "status": "partial",
   "theorems": [
    "Verif.Extraction.C131_complete_partial",
    "Verif.Extraction.C131_strongest",
    "Verif.Extraction.C131_hidden_violated"
   ],
   "note": "Partial: complete up to points beside one that took their place and was filtered out; the code does lose those (C131_hidden_violated, a round pole in front of a wall)."
  },
  {
   "property": "C132",
   "status": "partial",
   "theorems": [
    "Verif.Extraction.C132_turn_partial",
    "Verif.Extraction.C132_seam_lost",
    "Verif.Extraction.C132_seam_violated"
   ],
   "note": "Partial: equivariance holds for turns that carry no point over the seam; a feature at the seam is lost (C132_seam_lost for every scene, C132_seam_violated with a published edge)."
  },
  {
   "property": "C133",
   "status": "proved",
   "theorems": [
    "Verif.Align.C133_step",
    "Verif.Align.C133_converges",
    "Verif.Align.C133_neighbourhood"
   ],
   "note": "Exact arithmetic; the neighbourhood is stated explicitly through the spread of the points and the robust weights, and the iteration limit enters only as the number of steps taken."
  },
  {
   "property": "C134",
   "status": "proved",
   "theorems": [
    "Verif.Loam.C134_step",
    "Verif.Loam.C134_converges",
    "Verif.Loam.C134_neighbourhood",
    "Verif.Loam.C134_neighbours"
   ],
   "note": "lines and planes are those fitted to the neighbours; that an exact line or plane is such a fit is proved beside it"
  },
  {
   "property": "C135",
   "status": "partial",
   "theorems": [
    "Verif.Pcl.C135_read",
    "Verif.Pcl.C135_types",
    "Verif.Pcl.C135_sent",
    "Verif.Pcl.C135_round_trip",
    "Verif.Pcl.C135_features",
    "Verif.Pcl.C135_curvature_violated",
    "Verif.Pcl.C135_converted_partial",
    "Verif.Pcl.C135_ring_type_violated",
    "Verif.Pcl.C135_byte_order_violated",
    "Verif.Pcl.C135_between_violated",
    "Verif.Pcl.C135_short_violated"
   ],
   "note": "PCL's conversion functions are modelled from their known definition (field matching, joining of adjacent fields, memcpy)"
  },
  {
   "property": "C136",
   "status": "partial",
   "theorems": [
    "Verif.Wire.C136_float32",
    "Verif.Wire.C136_refines",
    "Verif.Wire.C136_end_to_end_partial",
    "Verif.Wire.C136_dense_violated"
   ],
   "note": "coordinates are the exact values of the IEEE bit patterns, arithmetic after decoding is exact; struct's float32 round trip is assumed to keep values"
  },
  {
   "property": "C137",
   "status": "partial",
   "theorems": [
    "Verif.Dyn.C137_plain_constructor",
    "Verif.Dyn.C137_plain_init",
    "Verif.Dyn.C137_plain_predict_refused",
    "Verif.Dyn.C137_plain_predict",
    "Verif.Dyn.C137_plain_predict_accepted",
    "Verif.Dyn.C137_plain_twice",
    "Verif.Dyn.C137_plain_update_refused",
    "Verif.Dyn.C137_plain_same",
    "Verif.Dyn.C137_delay_constructor",
    "Verif.Dyn.C137_delay_constructor_refused",
    "Verif.Dyn.C137_delay_predict",
    "Verif.Dyn.C137_delay_predict_partial",
    "Verif.Dyn.C137_delay_predict_violated",
    "Verif.Dyn.C137_delay_update_refused",
    "Verif.Dyn.C137_delay_same",
    "Verif.Dyn.C137_delay_sizes"
   ],
   "note": "refused means that an assertion of the code or of Eigen fails, which needs a build with assertions; exact arithmetic, sizes below 2^31"
  },
  {
   "property": "C138",
   "status": "proved",
   "theorems": [
    "Verif.Ekf.C138_read",
    "Verif.Ekf.C138_message",
    "Verif.Ekf.C138_rebuild",
    "Verif.Ekf.C138_scale",
    "Verif.Ekf.C138_length"
   ],
   "note": "tf2's getYaw and getRPY are modelled from their known behaviour; exact arithmetic; no claim for a vehicle that points almost straight up or down"
  },
  {
   "property": "C139",
   "status": "proved",
   "theorems": [
    "Verif.Loop.C139_place",
    "Verif.Loop.C139_at_rest",
    "Verif.Loop.C139_failures",
    "Verif.Loop.C139_progress",
    "Verif.Loop.C139_scans"
   ],
   "note": "exact arithmetic; that scans fit is the hypothesis of C85, shown to suffice in C139_scans; an execution in which a node fails ends there"
  },
  {
   "property": "C140",
   "status": "proved",
   "theorems": [
    "Verif.Ekf.C140_reached",
    "Verif.Ekf.C140_geometric",
    "Verif.Ekf.C140_published",
    "Verif.Ekf.C140_published_geometric",
    "Verif.Ekf.C140_eventually"
   ],
   "note": "exact arithmetic; variances positive after the first message (C39 shows what zero variances do)"
  },
  {
   "property": "C141",
   "status": "proved",
   "theorems": [
    "Verif.Loam.C141_map",
    "Verif.Loam.C141_starts",
    "Verif.Loam.C141_stays",
    "Verif.Loam.C141_converges"
   ],
   "note": "exact arithmetic; the surface map is given, as no program of the repository writes one (C102)"
  },
  {
   "property": "C142",
   "status": "proved",
   "theorems": [
    "Verif.Loam.C142_tracks",
    "Verif.Loam.C142_answers",
    "Verif.Loam.C142_session"
   ],
   "note": "exact arithmetic; without the assumption that no prior is more than a second newer than a scan the claim fails (C55, C77)"
  },
  {
   "property": "C143",
   "status": "proved",
   "theorems": [
    "Verif.Ekf.C143_update",
    "Verif.Ekf.C143_run",
    "Verif.Ekf.C143_exact",
    "Verif.Ekf.C143_stuck",
    "Verif.Ekf.C143_overshoot"
   ],
   "note": "no overflow and no underflow; no contraction of a product and a sum to one operation; the node sets process deviations 1.0 and 0.1, so its filters are freed again when time goes on"
  },
  {
   "property": "C144",
   "status": "partial",
   "theorems": [
    "Verif.Extraction.C144_too_few",
    "Verif.Extraction.C144_enough",
    "Verif.Extraction.C144_rounded_partial",
    "Verif.Extraction.C144_rounded_violated",
    "Verif.Extraction.C144_shipped"
   ],
   "note": "violated with rounding for exactly 2 * padding + 2 * n_blocks points (C144_rounded_violated)"
  },
  {
   "property": "C145",
   "status": "partial",
   "theorems": [
    "Verif.Extraction.C145_numbers",
    "Verif.Extraction.C145_defined_partial",
    "Verif.Extraction.C145_violated",
    "Verif.Extraction.C145_node_violated",
    "Verif.Wire.C145_sensor_violated"
   ],
   "note": "violated: a missing point in an ordinary ring is undefined behaviour (C145_violated, C145_node_violated, C145_sensor_violated); C145_defined_partial gives the exact domain; points with only x NaN and infinite coordinates are not covered"
  },
  {
   "property": "C146",
   "status": "proved",
   "theorems": [
    "Verif.Align.C146_steady",
    "Verif.Loam.C146_arrives",
    "Verif.Loam.C146_converges"
   ],
   "note": "exact arithmetic; the neighbourhood is a hypothesis (Scene.Basin); basin_clear shows that it follows from clear surroundings, and an example with a start ten centimetres off meets it"
  },
  {
   "property": "C147",
   "status": "proved",
   "theorems": [
    "Verif.Loam.C147_tracks",
    "Verif.Loam.C147_guided",
    "Verif.Loam.C147_updates"
   ],
   "note": "that the priors are near the truth is a hypothesis (Guided; C147_guided gives a condition on the messages alone); exact arithmetic; extends C142 to noise and many iterations"
  },
  {
   "property": "C148",
   "status": "partial",
   "theorems": [
    "Verif.Ekf.C148_stuck_violated",
    "Verif.Ekf.C148_error_law",
    "Verif.Ekf.C148_corrected_partial",
    "Verif.Ekf.C148_rate"
   ],
   "note": "violated: beyond gate times the standard deviation of the initial pose the correct messages are thrown away for ever, as nothing adds uncertainty sideways while the vehicle stands (C148_stuck_violated). Within it C148_corrected_partial; C148_error_law holds in either case for covariances that are the same in x and y; exact arithmetic"
  },
  {
   "property": "C149",
   "status": "proved",
   "theorems": [
    "Verif.Ekf.C149_ahead",
    "Verif.Ekf.C149_heading"
   ],
   "note": "contrast with C148: sideways an error beyond the gate is kept for ever. Covariances of messages without cross correlation and equal in x and y; smoothing 1; the bound on the ticks is from (sigma L)^2 being added to the variance of the heading per tick; exact arithmetic"
  },
  {
   "property": "C150",
   "status": "partial",
   "theorems": [
    "Verif.EkfNaN.C150_numbers_partial",
    "Verif.EkfNaN.C150_recovers",
    "Verif.EkfNaN.C150_pose_coordinates",
    "Verif.EkfNaN.C150_twist_speeds",
    "Verif.EkfNaN.C150_pose_covariance",
    "Verif.EkfNaN.C150_twist_covariance",
    "Verif.EkfNaN.C150_initial_violated",
    "Verif.EkfNaN.C150_variance_violated",
    "Verif.EkfNaN.C150_height_violated",
    "Verif.EkfNaN.C150_refines",
    "Verif.EkfNaN.C150_runs",
    "Verif.EkfNaN.C150_spread"
   ],
   "note": "violated for initial poses and for the height; holds for x, y, yaw, speeds and covariances if the initial poses are numbers. No infinities and no overflow; the library's inverse is specified only by what it does to regular, singular and NaN matrices. C150_refines: on numbers the model is Model/EkfNode"
  },
  {
   "property": "C151",
   "status": "partial",
   "theorems": [
    "Verif.Ekf.C151_queues_partial",
    "Verif.Ekf.C151_before_start",
    "Verif.Ekf.C151_clock_behind",
    "Verif.Ekf.C151_before_start_violated",
    "Verif.Ekf.C151_clock_violated",
    "Verif.Store.C151_priors_violated",
    "Verif.Sync.C151_pending"
   ],
   "note": "violated: before the first initial pose, when the clock has gone back, and by the store of priors (C55); holds of the filter node's queues otherwise and of the synchronisers. Sizes are numbers of messages; what the middleware and tf2 buffer is not modelled. The path generator and the map builder keep their history on purpose (C60, C59)"
  },
  {
   "property": "C152",
   "status": "partial",
   "theorems": [
    "Verif.Ekf.C152_publishes_partial",
    "Verif.Ekf.C152_silent_violated"
   ],
   "note": "violated: the initial pose does not reset the object that measures intervals (C152_silent_violated). C152_publishes_partial says exactly which ticks publish; C70 has the conditions under which no callback fails"
  },
  {
   "property": "C153",
   "status": "partial",
   "theorems": [
    "Verif.History.C153_order",
    "Verif.History.C153_newest",
    "Verif.History.C153_lossless_partial",
    "Verif.History.C153_keep_all",
    "Verif.History.C153_five_violated",
    "Verif.History.C153_one_violated",
    "Verif.History.C153_prior_violated",
    "Verif.History.C153_late_map",
    "Verif.History.C153_late_map_readers",
    "Verif.History.C153_late_path",
    "Verif.History.C153_late_violated"
   ],
   "note": "violated by the depths chosen (C153_five_violated, C153_one_violated, C153_prior_violated, C153_late_violated). C153_lossless_partial says exactly when a subscription of a given depth loses nothing"
  },
  {
   "property": "C154",
   "status": "partial",
   "theorems": [
    "Verif.Loc.C154_quartile",
    "Verif.Loc.C154_scale",
    "Verif.Loc.C154_normal",
    "Verif.Loc.C154_edge_derivative",
    "Verif.Loc.C154_edge",
    "Verif.Loc.C154_edge_gradient_partial",
    "Verif.Loc.C154_edge_gradient_violated",
    "Verif.Loc.C154_mean_partial",
    "Verif.Loc.C154_mean_violated",
    "Verif.Loc.C154_covariance",
    "Verif.Loc.C154_principal",
    "Verif.Loc.C154_surface_partial",
    "Verif.Loc.C154_surface_violated",
    "Verif.Loc.C154_loss",
    "Verif.Loc.C154_weights",
    "Verif.Loc.C154_step_partial",
    "Verif.Loc.C154_step_violated"
   ],
   "note": "the documentation disagrees with the code in four formulas (C154_edge_gradient_violated, C154_mean_violated, C154_surface_violated, C154_step_violated); the code is right in the first three (C52, C81, C53). The partial theorems say what holds"
  },
  {
   "property": "C155",
   "status": "partial",
   "theorems": [
    "Verif.Ekf.C155_certain_partial",
    "Verif.Ekf.C155_kept_partial",
    "Verif.Ekf.C155_variance_violated",
    "Verif.Ekf.C155_estimated_violated"
   ],
   "note": "violated (C155_estimated_violated: a run from the start with the parameter false after which the bias is positive and published; C155_variance_violated: for every initial pose). C155_certain_partial and C155_kept_partial say what holds"
  },
  {
   "property": "C156",
   "status": "partial",
   "theorems": [
    "Verif.Ekf.C156_nearest_partial",
    "Verif.Ekf.C156_confirmed_partial",
    "Verif.Ekf.C156_refused_violated",
    "Verif.Ekf.C156_moved_violated"
   ],
   "note": "violated (C156_moved_violated: a run from the start; C156_refused_violated: whatever the pose says). C156_nearest_partial and C156_confirmed_partial say what holds when the ticks are regular enough"
  },
  {
   "property": "C157",
   "status": "partial",
   "theorems": [
    "Verif.Ekf.C157_variance",
    "Verif.Ekf.C157_rate_violated",
    "Verif.Ekf.C157_straight_partial",
    "Verif.Ekf.C157_turn_violated"
   ],
   "note": "violated (C157_rate_violated: for every estimate and every two different rates; C157_turn_violated: for every estimate that moves and turns). C157_variance is the exact law of growth, C157_straight_partial says what holds"
  },
  {
   "property": "C158",
   "status": "partial",
   "theorems": [
    "Verif.Param.C158_heeded",
    "Verif.Param.C158_ignored_violated",
    "Verif.Param.C158_defaults_partial",
    "Verif.Param.C158_defaults_violated",
    "Verif.Launch.C158_inputs_violated",
    "Verif.Launch.C158_inputs_instead",
    "Verif.Launch.C158_outputs_violated"
   ],
   "note": "violated (C158_ignored_violated, C158_defaults_violated, C158_inputs_violated, C158_outputs_violated). C158_heeded says exactly which names matter; C158_defaults_partial says which defaults are as documented. The README is transcribed as a specification; C158_inputs_instead: what arrives on which topics"
  },
  {
   "property": "C159",
   "status": "partial",
   "theorems": [
    "Verif.Ekf.C159_pose_partial",
    "Verif.Ekf.C159_twist_partial",
    "Verif.Ekf.C159_late_violated"
   ],
   "note": "violated (C159_late_violated). C159_pose_partial and C159_twist_partial: right if the uncertainty has not changed since the time of the message"
  },
  {
   "property": "C160",
   "status": "partial",
   "theorems": [
    "Verif.Ekf.C160_pose_partial",
    "Verif.Ekf.C160_twist_partial",
    "Verif.Ekf.C160_wide_violated"
   ],
   "note": "violated (C160_wide_violated). C160_pose_partial and C160_twist_partial: what is used would also be accepted by a gate that counts both uncertainties"
  },
  {
   "property": "C161",
   "status": "partial",
   "theorems": [
    "Verif.MappingNaN.C161_numbers",
    "Verif.MappingNaN.C161_clean_partial",
    "Verif.MappingNaN.C161_spoiled_violated",
    "Verif.MappingNaN.C161_next_violated",
    "Verif.MappingNaN.C161_recovers",
    "Verif.MappingNaN.C161_centre_violated"
   ],
   "note": "violated (C161_spoiled_violated, C161_next_violated, C161_centre_violated). C161_numbers: on numbers the model with NaN is the model of C59. C161_clean_partial and C161_recovers: what holds"
  },
  {
   "property": "C162",
   "status": "partial",
   "theorems": [
    "Verif.Ekf.C162_order_partial",
    "Verif.Ekf.C162_order_violated"
   ],
   "note": "violated (C162_order_violated). C162_order_partial: what holds when no pose is thrown away in either order"
  },
  {
   "property": "C163",
   "status": "partial",
   "theorems": [
    "Verif.Ekf.C163_kinds",
    "Verif.Ekf.C163_same_time_partial",
    "Verif.Ekf.C163_mirror",
    "Verif.Ekf.C163_late_violated"
   ],
   "note": "violated (C163_late_violated; C163_mirror says why). C163_kinds and C163_same_time_partial: what holds"
  },
  {
   "property": "C164",
   "status": "partial",
   "theorems": [
    "Verif.Ekf.C164_upright_partial",
    "Verif.Ekf.C164_upside_down_violated"
   ],
   "note": "violated (C164_upside_down_violated). C164_upright_partial: what holds"
  },
  {
   "property": "C165",
   "status": "partial",
   "theorems": [
    "Verif.Ekf.C165_pose_partial",
    "Verif.Ekf.C165_twist_partial",
    "Verif.Ekf.C165_between_violated"
   ],
   "note": "violated (C165_between_violated). C165_pose_partial, C165_twist_partial: what holds when the message comes again with nothing in between"
  },
  {
   "property": "C166",
   "status": "partial",
   "theorems": [
    "Verif.Ekf.C166_tick_partial",
    "Verif.Ekf.C166_twist_partial",
    "Verif.Ekf.C166_height_violated",
    "Verif.Ekf.C166_waits_violated"
   ],
   "note": "violated (C166_height_violated, C166_waits_violated). C166_tick_partial: what holds of poses in a tick in which all waiting poses are to be used again; C166_twist_partial: what holds of twists in a tick in which all waiting twists are to be used again"
  },
  {
   "property": "C167",
   "status": "partial",
   "theorems": [
    "Verif.Ekf.C167_names_partial",
    "Verif.Ekf.C167_elsewhere_violated"
   ],
   "note": "violated (C167_elsewhere_violated). C167_names_partial: runs that differ in frame names only publish the same"
  },
  {
   "property": "C168",
   "status": "partial",
   "theorems": [
    "Verif.Ekf.C168_pairs",
    "Verif.Ekf.C168_still_partial",
    "Verif.Ekf.C168_only_stamps",
    "Verif.Ekf.C168_moved_on_violated"
   ],
   "note": "violated (C168_moved_on_violated). C168_pairs, C168_only_stamps: proved; C168_still_partial: what holds of a clock that stands still during a callback"
  },
  {
   "property": "C169",
   "status": "partial",
   "theorems": [
    "Verif.Ekf.C169_as_said",
    "Verif.Ekf.C169_height_partial",
    "Verif.Ekf.C169_height_violated",
    "Verif.Ekf.C169_correlation_partial",
    "Verif.Ekf.C169_uncertainty_partial",
    "Verif.Ekf.C169_uncertainty_violated"
   ],
   "note": "violated (C169_height_violated, C169_uncertainty_violated). C169_as_said: proved of all transforms; C169_height_partial, C169_correlation_partial, C169_uncertainty_partial say exactly when the result is right for the transforms named there. Frames tilted against each other are covered by C169_as_said only"
  }
 ]
}
