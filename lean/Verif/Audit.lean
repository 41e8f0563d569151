/-
The axioms every property theorem depends on, printed during the build.
-/
import Verif.Props.C01
import Verif.Props.C02
import Verif.Props.C03
import Verif.Props.C03R
import Verif.Props.C05
import Verif.Props.C06
import Verif.Props.C09
import Verif.Props.C102
import Verif.Props.C103
import Verif.Props.C104
import Verif.Props.C105
import Verif.Props.C106
import Verif.Props.C107
import Verif.Props.C108
import Verif.Props.C109
import Verif.Props.C110
import Verif.Props.C111
import Verif.Props.C112
import Verif.Props.C113
import Verif.Props.C114
import Verif.Props.C116
import Verif.Props.C117
import Verif.Props.C118
import Verif.Props.C119
import Verif.Props.C120
import Verif.Props.C121
import Verif.Props.C122
import Verif.Props.C123
import Verif.Props.C124
import Verif.Props.C125
import Verif.Props.C126
import Verif.Props.C127
import Verif.Props.C128
import Verif.Props.C129
import Verif.Props.C13
import Verif.Props.C130
import Verif.Props.C131
import Verif.Props.C132
import Verif.Props.C133
import Verif.Props.C134
import Verif.Props.C135
import Verif.Props.C136
import Verif.Props.C137
import Verif.Props.C138
import Verif.Props.C139
import Verif.Props.C14
import Verif.Props.C140
import Verif.Props.C141
import Verif.Props.C142
import Verif.Props.C143
import Verif.Props.C144
import Verif.Props.C145
import Verif.Props.C146
import Verif.Props.C147
import Verif.Props.C148
import Verif.Props.C149
import Verif.Props.C150
import Verif.Props.C151
import Verif.Props.C152
import Verif.Props.C153
import Verif.Props.C154
import Verif.Props.C155
import Verif.Props.C156
import Verif.Props.C157
import Verif.Props.C158
import Verif.Props.C159
import Verif.Props.C160
import Verif.Props.C161
import Verif.Props.C162
import Verif.Props.C163
import Verif.Props.C164
import Verif.Props.C165
import Verif.Props.C166
import Verif.Props.C167
import Verif.Props.C168
import Verif.Props.C169
import Verif.Props.C17
import Verif.Props.C19
import Verif.Props.C20
import Verif.Props.C21
import Verif.Props.C23
import Verif.Props.C25
import Verif.Props.C28
import Verif.Props.C30
import Verif.Props.C32
import Verif.Props.C36
import Verif.Props.C37
import Verif.Props.C39
import Verif.Props.C40
import Verif.Props.C44
import Verif.Props.C45
import Verif.Props.C46
import Verif.Props.C47
import Verif.Props.C52
import Verif.Props.C54
import Verif.Props.C58
import Verif.Props.C61
import Verif.Props.C66
import Verif.Props.C69
import Verif.Props.C79
import Verif.Props.C80
import Verif.Props.C81
import Verif.Props.C82
import Verif.Props.C83
import Verif.Props.C86
import Verif.Props.C87
import Verif.Props.C88
import Verif.Props.C89
import Verif.Props.C89W
import Verif.Props.C90
import Verif.Props.C91
import Verif.Props.C92
import Verif.Props.C94
import Verif.Props.C96
import Verif.Props.C97
import Verif.Props.C98

#print axioms Verif.Extraction.C01_convolution_values
#print axioms Verif.Extraction.C01_convolution_rejects
#print axioms Verif.Extraction.C02_curvature_values
#print axioms Verif.Extraction.C02_curvature_rejects
#print axioms Verif.Extraction.C02_padding_refused
#print axioms Verif.Extraction.C02_curvature_shift
#print axioms Verif.Extraction.C02_curvature_scale
#print axioms Verif.Extraction.C02_curvature_affine
#print axioms Verif.Extraction.C02_curvature_nonneg
#print axioms Verif.Extraction.C03_blocks_partition
#print axioms Verif.Extraction.C03_construction_rejects
#print axioms Verif.Extraction.C03_block_number_checked
#print axioms Verif.Extraction.C03_rounded_partial
#print axioms Verif.Extraction.C03_rounded_violated
#print axioms Verif.Extraction.C04_blocks_balanced
#print axioms Verif.Extraction.C04_rounded_partial
#print axioms Verif.Extraction.C04_rounded_violated
#print axioms Verif.Extraction.C05_rounding_safe
#print axioms Verif.Extraction.C06_fill_from_left
#print axioms Verif.Extraction.C06_fill_from_left_rejects
#print axioms Verif.Extraction.C06_empty_interval_writes_outside
#print axioms Verif.Extraction.C07_fill_from_right
#print axioms Verif.Extraction.C07_fill_from_right_rejects
#print axioms Verif.Extraction.C07_empty_interval_writes_outside
#print axioms Verif.Extraction.C08_fill_neighbors
#print axioms Verif.Extraction.C08_sizes_checked
#print axioms Verif.Extraction.C09_edges_strong_and_separated
#print axioms Verif.Extraction.C10_suppression_justified
#print axioms Verif.Extraction.C11_surfaces_flat_separated_complete
#print axioms Verif.Extraction.C12_surface_keeps_edges
#print axioms Verif.Extraction.C13_ends_untouched
#print axioms Verif.Extraction.C13_block_local
#print axioms Verif.Extraction.C14_occlusion_exact
#print axioms Verif.Extraction.C14_occlusion_interior
#print axioms Verif.Extraction.C15_out_of_range_exact
#print axioms Verif.Extraction.C16_parallel_beam_exact
#print axioms Verif.Extraction.C17_published_features
#print axioms Verif.Extraction.C17_node
#print axioms Verif.Extraction.C18_published_once
#print axioms Verif.Extraction.C19_callback_returns_partial
#print axioms Verif.Extraction.C19_callback_violated
#print axioms Verif.Extraction.C19_only_failure_is_comparator
#print axioms Verif.Extraction.C19_rings_independent
#print axioms Verif.Extraction.C20_split_partitions
#print axioms Verif.Extraction.C20_rings_sorted
#print axioms Verif.Extraction.C20_rings_defined_partial
#print axioms Verif.Extraction.C20_rings_defined_violated
#print axioms Verif.Extraction.C20_angles_nondecreasing_partial
#print axioms Verif.Extraction.C20_remove_sparse
#print axioms Verif.Extraction.C21_comparator_violated
#print axioms Verif.Extraction.C21_comparator_partial
#print axioms Verif.Extraction.C21_strict_weak_partial
#print axioms Verif.Extraction.C22_neighbor_is_angle
#print axioms Verif.Extraction.C22_neighbor_symmetric
#print axioms Verif.Extraction.C22_neighbor_at_origin
#print axioms Verif.Extraction.C22_node_threshold
#print axioms Verif.Extraction.C23_range_interval_partial
#print axioms Verif.Extraction.C23_range_interval_ignores_begin
#print axioms Verif.Extraction.C23_range_interval_violated
#print axioms Verif.Extraction.C24_color_total
#print axioms Verif.Extraction.C24_edge_surface_colour_violated
#print axioms Verif.Extraction.C24_colours_partial
#print axioms Verif.Extraction.C24_value_colour_partial
#print axioms Verif.Extraction.C24_value_colour_defined
#print axioms Verif.Extraction.C24_points_by_value_partial
#print axioms Verif.Extraction.C24_value_colour_violated
#print axioms Verif.Lib.C25_sort_three
#print axioms Verif.Lib.C26_median_is_median
#print axioms Verif.Lib.C26_median_empty
#print axioms Verif.Lib.C26_median_order_independent
#print axioms Verif.Lib.C26_median_halves
#print axioms Verif.Lib.C26_median_between
#print axioms Verif.Lib.C26_median_affine
#print axioms Verif.Lib.C27_matrix_entry
#print axioms Verif.Lib.C27_array_entry
#print axioms Verif.Lib.C27_round_trip
#print axioms Verif.Ekf.C28_aged_queue
#print axioms Verif.Ekf.C28_exactly_max_age_times
#print axioms Verif.Ekf.C28_message_independent
#print axioms Verif.Ekf.C28_clear
#print axioms Verif.Ekf.C28_pop_defined
#print axioms Verif.Ekf.C29_considered_once_partial
#print axioms Verif.Ekf.C29_skipped_violated
#print axioms Verif.Ekf.C29_skipped_default_violated
#print axioms Verif.Ekf.C29_considered_prefix_partial
#print axioms Verif.Ekf.C29_considered_all_partial
#print axioms Verif.Ekf.C29_considered_soon_partial
#print axioms Verif.Ekf.C30_first_interval
#print axioms Verif.Ekf.C30_interval_partial
#print axioms Verif.Ekf.C30_zero_interval_violated
#print axioms Verif.Ekf.C31_delay_step
#print axioms Verif.Ekf.C31_no_delay
#print axioms Verif.Ekf.C31_monotone
#print axioms Verif.Ekf.C31_zero_interval_violated
#print axioms Verif.Ekf.C31_beyond_history
#print axioms Verif.Kalman.C32_covariance
#print axioms Verif.Kalman.C32_state
#print axioms Verif.Kalman.C32_state_nonlinear
#print axioms Verif.Kalman.C33_blocks
#print axioms Verif.Kalman.C33_rejected
#print axioms Verif.Kalman.C33_augmented
#print axioms Verif.Kalman.C34_psd
#print axioms Verif.Kalman.C34_latest_psd
#print axioms Verif.Kalman.C34_update_decreases
#print axioms Verif.Kalman.C34_accepted
#print axioms Verif.Kalman.C34_plain_filter
#print axioms Verif.Kalman.C35_history
#print axioms Verif.Ekf.C36_outcome
#print axioms Verif.Ekf.C36_not_finite
#print axioms Verif.Ekf.C36_outside_gate
#print axioms Verif.Ekf.C36_refused
#print axioms Verif.Ekf.C36_pose_not_finite
#print axioms Verif.Ekf.C36_twist_not_finite
#print axioms Verif.Ekf.C36_tick
#print axioms Verif.Ekf.C37_motion_model
#print axioms Verif.Ekf.C37_jacobian
#print axioms Verif.Ekf.C37_jacobian_wrapped
#print axioms Verif.Ekf.C37_process_noise_psd
#print axioms Verif.Ekf.C38_range
#print axioms Verif.Ekf.C38_fixes
#print axioms Verif.Ekf.C38_idempotent
#print axioms Verif.Ekf.C38_congruent
#print axioms Verif.Ekf.C38_predicted_yaw
#print axioms Verif.Ekf.C39_first
#print axioms Verif.Ekf.C39_update_partial
#print axioms Verif.Ekf.C39_sequence_partial
#print axioms Verif.Ekf.C39_nan_violated
#print axioms Verif.Ekf.C39_nan_forever_violated
#print axioms Verif.Ekf.C40_silent
#print axioms Verif.Ekf.C40_forgets_partial
#print axioms Verif.Ekf.C40_reset
#print axioms Verif.Ekf.C40_height_kept_violated
#print axioms Verif.Ekf.C41_missing_transform_violated
#print axioms Verif.Ekf.C41_found_partial
#print axioms Verif.Ekf.C42_empty_violated
#print axioms Verif.Ekf.C42_names_partial
#print axioms Verif.Ekf.C43_pose_entries
#print axioms Verif.Ekf.C43_pose_zero
#print axioms Verif.Ekf.C43_twist_entries
#print axioms Verif.Ekf.C43_twist_zero
#print axioms Verif.Ekf.C43_round_trip
#print axioms Verif.Ekf.C43_measurement_psd
#print axioms Verif.Opt.C44_run
#print axioms Verif.Opt.C44_success
#print axioms Verif.Opt.C44_unchanged
#print axioms Verif.Opt.C44_rigid
#print axioms Verif.Opt.C44_descent_partial
#print axioms Verif.Opt.C44_larger_error
#print axioms Verif.Opt.C44_larger_error_violated
#print axioms Verif.Opt.C45_textbook
#print axioms Verif.Opt.C45_derivative
#print axioms Verif.Opt.C45_weight
#print axioms Verif.Opt.C45_loss
#print axioms Verif.Opt.C45_optimizer_weights
#print axioms Verif.Opt.C46_step
#print axioms Verif.Opt.C46_degenerate
#print axioms Verif.Opt.C46_sizes
#print axioms Verif.Rot.C47_product
#print axioms Verif.Rot.C47_commute
#print axioms Verif.Rot.C47_orthogonal
#print axioms Verif.Rot.C47_round_trip
#print axioms Verif.Rot.C48_hat
#print axioms Verif.Rot.C49_derivative
#print axioms Verif.Rot.C50_rpy
#print axioms Verif.Rot.C51_unit
#print axioms Verif.Rot.C51_near_zero
#print axioms Verif.Rot.C51_rodrigues
#print axioms Verif.Rot.C51_opposite
#print axioms Verif.Loc.C52_zero_iff
#print axioms Verif.Loc.C52_distance
#print axioms Verif.Loc.C52_jacobian
#print axioms Verif.Loc.C52_triplet_cross
#print axioms Verif.Loc.C53_distance
#print axioms Verif.Loc.C53_jacobian
#print axioms Verif.Store.C54_contents
#print axioms Verif.Store.C54_size
#print axioms Verif.Store.C54_order
#print axioms Verif.Store.C54_closest
#print axioms Verif.Store.C54_empty
#print axioms Verif.Store.C55_removes_newer_partial
#print axioms Verif.Store.C55_all_newer_undefined
#print axioms Verif.Store.C55_keeps_old
#print axioms Verif.Store.C55_violated
#print axioms Verif.Store.C55_undefined_violated
#print axioms Verif.Store.C55_node_undefined_violated
#print axioms Verif.Store.C55_unbounded_violated
#print axioms Verif.Store.C56_query_nonempty
#print axioms Verif.Store.C56_no_prior
#print axioms Verif.Store.C56_failures
#print axioms Verif.Store.C57_published
#print axioms Verif.Store.C57_only_publish
#print axioms Verif.Store.C57_two_runs
#print axioms Verif.Store.C57_localizer
#print axioms Verif.Mapping.C58_recent
#print axioms Verif.Mapping.C58_negative
#print axioms Verif.Mapping.C59_threshold
#print axioms Verif.Mapping.C59_unique
#print axioms Verif.Mapping.C59_map
#print axioms Verif.Mapping.C59_garbage
#print axioms Verif.Mapping.C59_empty
#print axioms Verif.Mapping.C60_path
#print axioms Verif.Convert.C61_reads
#print axioms Verif.Convert.C61_round_trip
#print axioms Verif.Convert.C61_never_wraps
#print axioms Verif.Convert.C61_byte_order
#print axioms Verif.Convert.C62_converted_partial
#print axioms Verif.Convert.C62_packed_violated
#print axioms Verif.Convert.C62_silent_violated
#print axioms Verif.Mapping.C63_centroid_partial
#print axioms Verif.Mapping.C63_empty_violated
#print axioms Verif.Opt.C64_degenerate
#print axioms Verif.Opt.C64_reliable
#print axioms Verif.Ekf.C65_translation_partial
#print axioms Verif.Ekf.C65_turn_partial
#print axioms Verif.Ekf.C65_rotation_violated
#print axioms Verif.Ekf.C66_yaw_residual_partial
#print axioms Verif.Ekf.C66_violated
#print axioms Verif.Ekf.C66_residual_violated
#print axioms Verif.Ekf.C66_node_violated
#print axioms Verif.Ekf.C67_distance
#print axioms Verif.Ekf.C67_monotone
#print axioms Verif.Ekf.C67_accepts_equal
#print axioms Verif.Ekf.C68_lookup
#print axioms Verif.Ekf.C69_published_psd
#print axioms Verif.Ekf.C70_no_failure
#print axioms Verif.Rot.C71_matrix_to_quaternion
#print axioms Verif.Loc.C72_alignment
#print axioms Verif.Opt.C73_scale
#print axioms Verif.Opt.C73_scale_affine
#print axioms Verif.Opt.C73_scale_robust
#print axioms Verif.Opt.C74_velocity
#print axioms Verif.Opt.C74_end_point
#print axioms Verif.Opt.C74_chain
#print axioms Verif.Opt.C75_degenerate_success
#print axioms Verif.Opt.C75_degenerate_violated
#print axioms Verif.Opt.C76_reported_error_partial
#print axioms Verif.Opt.C76_reported_error_violated
#print axioms Verif.Store.C77_closest_received_partial
#print axioms Verif.Store.C77_violated
#print axioms Verif.Mapping.C78_odometry
#print axioms Verif.Extraction.C79_ring_labelling_complete
#print axioms Verif.Loam.C80_nearest_partial
#print axioms Verif.Loam.C80_small_map
#print axioms Verif.Loam.C80_refused
#print axioms Verif.Loam.C80_small_map_violated
#print axioms Verif.Loam.C81_best_line
#print axioms Verif.Loam.C81_covariance
#print axioms Verif.Loam.C81_edge_residual
#print axioms Verif.Loam.C82_least_squares
#print axioms Verif.Loam.C82_exact
#print axioms Verif.Loam.C82_centroid
#print axioms Verif.Loam.C82_surface_residual
#print axioms Verif.Loam.C82_misses_origin
#print axioms Verif.Loam.C82_origin_violated
#print axioms Verif.Loam.C82_check
#print axioms Verif.Loam.C83_blocks
#print axioms Verif.Loam.C83_empty_map_violated
#print axioms Verif.Loam.C83_empty_scan
#print axioms Verif.Loam.C84_scan_matching
#print axioms Verif.Loam.C85_fixed_point
#print axioms Verif.Loam.C85_true_pose
#print axioms Verif.Ekf.C86_refines
#print axioms Verif.Ekf.C86_well_formed
#print axioms Verif.Kalman.C87_prediction
#print axioms Verif.Kalman.C87_optimal_gain
#print axioms Verif.Kalman.C87_least_squares
#print axioms Verif.Kalman.C87_delayed_optimal_gain
#print axioms Verif.Kalman.C87_delayed_least_squares
#print axioms Verif.Align.C88_blocks
#print axioms Verif.Align.C89_downhill_partial
#print axioms Verif.Align.C89_first
#print axioms Verif.Align.C89_two_signs
#print axioms Verif.Align.C89_reversed
#print axioms Verif.Align.C89_alignment
#print axioms Verif.Align.C89_scan_matching
#print axioms Verif.Align.C89_uphill_violated
#print axioms Verif.Align.C90_translation
#print axioms Verif.Align.C91_translation
#print axioms Verif.Align.C91_first_step_partial
#print axioms Verif.Align.C91_rotation_violated
#print axioms Verif.Align.C92_alignment
#print axioms Verif.Align.C92_scan_matching
#print axioms Verif.Align.C93_degenerate
#print axioms Verif.Align.C93_unchanged
#print axioms Verif.Align.C93_line
#print axioms Verif.Loc.C94_rows
#print axioms Verif.Loc.C95_moves
#print axioms Verif.Loc.C95_compose
#print axioms Verif.Loc.C95_inverse
#print axioms Verif.Msg.C96_reads
#print axioms Verif.Msg.C96_round_trip
#print axioms Verif.Msg.C96_back
#print axioms Verif.Msg.C96_transform
#print axioms Verif.Msg.C96_covariance
#print axioms Verif.Msg.C96_twist
#print axioms Verif.Msg.C96_rigid_iff_partial
#print axioms Verif.Msg.C96_not_normalised_violated
#print axioms Verif.Msg.C96_checked
#print axioms Verif.Store.C97_rigid_partial
#print axioms Verif.Store.C97_scaled_violated
#print axioms Verif.Msg.C98_markers
#print axioms Verif.Msg.C99_filter
#print axioms Verif.Msg.C100_indices
#print axioms Verif.Msg.C100_deviation
#print axioms Verif.Msg.C100_laws
#print axioms Verif.Msg.C101_stack
#print axioms Verif.Msg.C101_get
#print axioms Verif.Msg.C101_nonempty
#print axioms Verif.Apps.C102_mapping
#print axioms Verif.Apps.C102_start
#print axioms Verif.Apps.C102_pipeline_partial
#print axioms Verif.Apps.C102_no_surface_violated
#print axioms Verif.Apps.C102_loader
#print axioms Verif.Apps.C102_missing_violated
#print axioms Verif.Apps.C102_edge_surface
#print axioms Verif.Apps.C102_edge_surface_recent
#print axioms Verif.Apps.C102_edge_surface_empty
#print axioms Verif.Extraction.C103_occlusion_mirror
#print axioms Verif.Extraction.C103_out_of_range_mirror
#print axioms Verif.Extraction.C103_parallel_beam_mirror
#print axioms Verif.Extraction.C103_curvature_mirror
#print axioms Verif.Store.C104_conversion_error
#print axioms Verif.Store.C104_small_exact
#print axioms Verif.Store.C104_order_kept
#print axioms Verif.Store.C104_prior_nearly_closest
#print axioms Verif.Store.C104_simulated_time
#print axioms Verif.Store.C104_not_exact
#print axioms Verif.Launch.C105_localization_partial
#print axioms Verif.Launch.C105_sensor
#print axioms Verif.Launch.C105_maps
#print axioms Verif.Launch.C105_namespace_violated
#print axioms Verif.Launch.C105_namespace_sensor_violated
#print axioms Verif.Launch.C105_namespace_partial
#print axioms Verif.Launch.C105_absolute
#print axioms Verif.Launch.C105_mapping
#print axioms Verif.Launch.C105_odometry_violated
#print axioms Verif.Launch.C105_odometry_path
#print axioms Verif.Launch.C105_path
#print axioms Verif.Launch.C105_map_frame
#print axioms Verif.Launch.C105_map_frame_namespace_violated
#print axioms Verif.Launch.C105_view
#print axioms Verif.Launch.C105_view_default
#print axioms Verif.Launch.C105_debug_view
#print axioms Verif.Launch.C105_mapping_view
#print axioms Verif.Launch.C105_view_initial_violated
#print axioms Verif.Launch.C105_view_initial
#print axioms Verif.Launch.C105_debug_path_violated
#print axioms Verif.Extraction.C106_heights_ignored
#print axioms Verif.Extraction.C106_attachments_carried
#print axioms Verif.Sync.C107_pairs_share_stamp
#print axioms Verif.Sync.C107_every_scan_once
#print axioms Verif.Sync.C107_extraction_to_localization
#print axioms Verif.Sync.C107_lag_needed
#print axioms Verif.Sync.C108_exact_pairs
#print axioms Verif.Sync.C108_increasing
#print axioms Verif.Sync.C108_all_common
#print axioms Verif.Sync.C108_interleaving
#print axioms Verif.Sync.C108_mapping
#print axioms Verif.Store.C109_every_scan_published
#print axioms Verif.Store.C109_topics_to_poses
#print axioms Verif.Extraction.C110_order_of_points
#print axioms Verif.Extraction.C111_unit_of_length
#print axioms Verif.Ekf.C112_origin
#print axioms Verif.Loam.C113_translation_partial
#print axioms Verif.Loam.C113_edges
#print axioms Verif.Loam.C113_origin_violated
#print axioms Verif.Kalman.C114_in_time
#print axioms Verif.Kalman.C114_order
#print axioms Verif.Kalman.C115_smoothing
#print axioms Verif.Kalman.C115_node_covariance
#print axioms Verif.Extraction.C116_ring
#print axioms Verif.Extraction.C116_thresholds
#print axioms Verif.Extraction.C116_surface_threshold_keeps_edges
#print axioms Verif.Ekf.C117_truth_is_kept
#print axioms Verif.Ekf.C117_at_rest
#print axioms Verif.Ekf.C117_well_formed
#print axioms Verif.Ekf.C118_forget
#print axioms Verif.Ekf.C118_harmless_partial
#print axioms Verif.Ekf.C118_no_failure_partial
#print axioms Verif.Ekf.C118_format_violated
#print axioms Verif.Ekf.C119_reported
#print axioms Verif.Ekf.C119_silent
#print axioms Verif.Ekf.C120_throttle_partial
#print axioms Verif.Ekf.C120_not_silent_partial
#print axioms Verif.Ekf.C120_hidden_violated
#print axioms Verif.Ekf.C120_starved_violated
#print axioms Verif.Extraction.C121_numbers
#print axioms Verif.Extraction.C121_block_number
#print axioms Verif.Extraction.C121_neighbor
#print axioms Verif.Extraction.C121_fill
#print axioms Verif.Extraction.C121_span
#print axioms Verif.Extraction.C121_too_few
#print axioms Verif.Extraction.C122_forget
#print axioms Verif.Extraction.C122_reported
#print axioms Verif.Kalman.C123_variance
#print axioms Verif.Kalman.C123_residual
#print axioms Verif.Ekf.C123_published_pose
#print axioms Verif.Ekf.C123_published_twist
#print axioms Verif.Kalman.C124_more_information
#print axioms Verif.Kalman.C124_variances
#print axioms Verif.Ekf.C125_goes_on
#print axioms Verif.Ekf.C125_within_reach
#print axioms Verif.Ekf.C125_straight
#print axioms Verif.Ekf.C125_queues_run_empty
#print axioms Verif.Extraction.C126_ring_local
#print axioms Verif.Extraction.C126_one_ring
#print axioms Verif.Extraction.C126_union
#print axioms Verif.Frames.C127_tree
#print axioms Verif.Frames.C127_clouds
#print axioms Verif.Frames.C127_maps
#print axioms Verif.Frames.C127_scans
#print axioms Verif.Frames.C127_poses
#print axioms Verif.Param.C128_extraction_partial
#print axioms Verif.Param.C128_ekf_partial
#print axioms Verif.Param.C128_other_names
#print axioms Verif.Param.C128_started_extraction_works
#print axioms Verif.Param.C128_reduced
#print axioms Verif.Param.C128_shipped_file
#print axioms Verif.Param.C128_padding_violated
#print axioms Verif.Param.C128_ranges_violated
#print axioms Verif.Param.C128_ekf_steps_violated
#print axioms Verif.Param.C128_started_ekf_works
#print axioms Verif.Param.C128_map_loader
#print axioms Verif.Param.C128_map_frame
#print axioms Verif.Opt.C129_pull
#print axioms Verif.Opt.C129_step
#print axioms Verif.Align.C129_alignment
#print axioms Verif.Extraction.C130_range
#print axioms Verif.Extraction.C130_curvature
#print axioms Verif.Extraction.C130_extraction_partial
#print axioms Verif.Extraction.C130_same_direction_violated
#print axioms Verif.Extraction.C130_sort_violated
#print axioms Verif.Extraction.C131_complete_partial
#print axioms Verif.Extraction.C131_strongest
#print axioms Verif.Extraction.C131_hidden_violated
#print axioms Verif.Extraction.C132_turn_partial
#print axioms Verif.Extraction.C132_seam_lost
#print axioms Verif.Extraction.C132_seam_violated
#print axioms Verif.Align.C133_step
#print axioms Verif.Align.C133_converges
#print axioms Verif.Align.C133_neighbourhood
#print axioms Verif.Loam.C134_step
#print axioms Verif.Loam.C134_converges
#print axioms Verif.Loam.C134_neighbourhood
#print axioms Verif.Loam.C134_neighbours
#print axioms Verif.Pcl.C135_read
#print axioms Verif.Pcl.C135_types
#print axioms Verif.Pcl.C135_sent
#print axioms Verif.Pcl.C135_round_trip
#print axioms Verif.Pcl.C135_features
#print axioms Verif.Pcl.C135_curvature_violated
#print axioms Verif.Pcl.C135_converted_partial
#print axioms Verif.Pcl.C135_ring_type_violated
#print axioms Verif.Pcl.C135_byte_order_violated
#print axioms Verif.Pcl.C135_between_violated
#print axioms Verif.Pcl.C135_short_violated
#print axioms Verif.Wire.C136_float32
#print axioms Verif.Wire.C136_refines
#print axioms Verif.Wire.C136_end_to_end_partial
#print axioms Verif.Wire.C136_dense_violated
#print axioms Verif.Dyn.C137_plain_constructor
#print axioms Verif.Dyn.C137_plain_init
#print axioms Verif.Dyn.C137_plain_predict_refused
#print axioms Verif.Dyn.C137_plain_predict
#print axioms Verif.Dyn.C137_plain_predict_accepted
#print axioms Verif.Dyn.C137_plain_twice
#print axioms Verif.Dyn.C137_plain_update_refused
#print axioms Verif.Dyn.C137_plain_same
#print axioms Verif.Dyn.C137_delay_constructor
#print axioms Verif.Dyn.C137_delay_constructor_refused
#print axioms Verif.Dyn.C137_delay_predict
#print axioms Verif.Dyn.C137_delay_predict_partial
#print axioms Verif.Dyn.C137_delay_predict_violated
#print axioms Verif.Dyn.C137_delay_update_refused
#print axioms Verif.Dyn.C137_delay_same
#print axioms Verif.Dyn.C137_delay_sizes
#print axioms Verif.Ekf.C138_read
#print axioms Verif.Ekf.C138_message
#print axioms Verif.Ekf.C138_rebuild
#print axioms Verif.Ekf.C138_scale
#print axioms Verif.Ekf.C138_length
#print axioms Verif.Loop.C139_place
#print axioms Verif.Loop.C139_at_rest
#print axioms Verif.Loop.C139_failures
#print axioms Verif.Loop.C139_progress
#print axioms Verif.Loop.C139_scans
#print axioms Verif.Ekf.C140_reached
#print axioms Verif.Ekf.C140_geometric
#print axioms Verif.Ekf.C140_published
#print axioms Verif.Ekf.C140_published_geometric
#print axioms Verif.Ekf.C140_eventually
#print axioms Verif.Loam.C141_map
#print axioms Verif.Loam.C141_starts
#print axioms Verif.Loam.C141_stays
#print axioms Verif.Loam.C141_converges
#print axioms Verif.Loam.C142_tracks
#print axioms Verif.Loam.C142_answers
#print axioms Verif.Loam.C142_session
#print axioms Verif.Ekf.C143_update
#print axioms Verif.Ekf.C143_run
#print axioms Verif.Ekf.C143_exact
#print axioms Verif.Ekf.C143_stuck
#print axioms Verif.Ekf.C143_overshoot
#print axioms Verif.Extraction.C144_too_few
#print axioms Verif.Extraction.C144_enough
#print axioms Verif.Extraction.C144_rounded_partial
#print axioms Verif.Extraction.C144_rounded_violated
#print axioms Verif.Extraction.C144_shipped
#print axioms Verif.Extraction.C145_numbers
#print axioms Verif.Extraction.C145_defined_partial
#print axioms Verif.Extraction.C145_violated
#print axioms Verif.Extraction.C145_node_violated
#print axioms Verif.Wire.C145_sensor_violated
#print axioms Verif.Align.C146_steady
#print axioms Verif.Loam.C146_arrives
#print axioms Verif.Loam.C146_converges
#print axioms Verif.Loam.C147_tracks
#print axioms Verif.Loam.C147_guided
#print axioms Verif.Loam.C147_updates
#print axioms Verif.Ekf.C148_stuck_violated
#print axioms Verif.Ekf.C148_error_law
#print axioms Verif.Ekf.C148_corrected_partial
#print axioms Verif.Ekf.C148_rate
#print axioms Verif.Ekf.C149_ahead
#print axioms Verif.Ekf.C149_heading
#print axioms Verif.EkfNaN.C150_numbers_partial
#print axioms Verif.EkfNaN.C150_recovers
#print axioms Verif.EkfNaN.C150_pose_coordinates
#print axioms Verif.EkfNaN.C150_twist_speeds
#print axioms Verif.EkfNaN.C150_pose_covariance
#print axioms Verif.EkfNaN.C150_twist_covariance
#print axioms Verif.EkfNaN.C150_initial_violated
#print axioms Verif.EkfNaN.C150_variance_violated
#print axioms Verif.EkfNaN.C150_height_violated
#print axioms Verif.EkfNaN.C150_refines
#print axioms Verif.EkfNaN.C150_runs
#print axioms Verif.EkfNaN.C150_spread
#print axioms Verif.Ekf.C151_queues_partial
#print axioms Verif.Ekf.C151_before_start
#print axioms Verif.Ekf.C151_clock_behind
#print axioms Verif.Ekf.C151_before_start_violated
#print axioms Verif.Ekf.C151_clock_violated
#print axioms Verif.Store.C151_priors_violated
#print axioms Verif.Sync.C151_pending
#print axioms Verif.Ekf.C152_publishes_partial
#print axioms Verif.Ekf.C152_silent_violated
#print axioms Verif.History.C153_order
#print axioms Verif.History.C153_newest
#print axioms Verif.History.C153_lossless_partial
#print axioms Verif.History.C153_keep_all
#print axioms Verif.History.C153_five_violated
#print axioms Verif.History.C153_one_violated
#print axioms Verif.History.C153_prior_violated
#print axioms Verif.History.C153_late_map
#print axioms Verif.History.C153_late_map_readers
#print axioms Verif.History.C153_late_path
#print axioms Verif.History.C153_late_violated
#print axioms Verif.Loc.C154_quartile
#print axioms Verif.Loc.C154_scale
#print axioms Verif.Loc.C154_normal
#print axioms Verif.Loc.C154_edge_derivative
#print axioms Verif.Loc.C154_edge
#print axioms Verif.Loc.C154_edge_gradient_partial
#print axioms Verif.Loc.C154_edge_gradient_violated
#print axioms Verif.Loc.C154_mean_partial
#print axioms Verif.Loc.C154_mean_violated
#print axioms Verif.Loc.C154_covariance
#print axioms Verif.Loc.C154_principal
#print axioms Verif.Loc.C154_surface_partial
#print axioms Verif.Loc.C154_surface_violated
#print axioms Verif.Loc.C154_loss
#print axioms Verif.Loc.C154_weights
#print axioms Verif.Loc.C154_step_partial
#print axioms Verif.Loc.C154_step_violated
#print axioms Verif.Ekf.C155_certain_partial
#print axioms Verif.Ekf.C155_kept_partial
#print axioms Verif.Ekf.C155_variance_violated
#print axioms Verif.Ekf.C155_estimated_violated
#print axioms Verif.Ekf.C156_nearest_partial
#print axioms Verif.Ekf.C156_confirmed_partial
#print axioms Verif.Ekf.C156_refused_violated
#print axioms Verif.Ekf.C156_moved_violated
#print axioms Verif.Ekf.C157_variance
#print axioms Verif.Ekf.C157_rate_violated
#print axioms Verif.Ekf.C157_straight_partial
#print axioms Verif.Ekf.C157_turn_violated
#print axioms Verif.Param.C158_heeded
#print axioms Verif.Param.C158_ignored_violated
#print axioms Verif.Param.C158_defaults_partial
#print axioms Verif.Param.C158_defaults_violated
#print axioms Verif.Launch.C158_inputs_violated
#print axioms Verif.Launch.C158_inputs_instead
#print axioms Verif.Launch.C158_outputs_violated
#print axioms Verif.Ekf.C159_pose_partial
#print axioms Verif.Ekf.C159_twist_partial
#print axioms Verif.Ekf.C159_late_violated
#print axioms Verif.Ekf.C160_pose_partial
#print axioms Verif.Ekf.C160_twist_partial
#print axioms Verif.Ekf.C160_wide_violated
#print axioms Verif.MappingNaN.C161_numbers
#print axioms Verif.MappingNaN.C161_clean_partial
#print axioms Verif.MappingNaN.C161_spoiled_violated
#print axioms Verif.MappingNaN.C161_next_violated
#print axioms Verif.MappingNaN.C161_recovers
#print axioms Verif.MappingNaN.C161_centre_violated
#print axioms Verif.Ekf.C162_order_partial
#print axioms Verif.Ekf.C162_order_violated
#print axioms Verif.Ekf.C163_kinds
#print axioms Verif.Ekf.C163_same_time_partial
#print axioms Verif.Ekf.C163_mirror
#print axioms Verif.Ekf.C163_late_violated
#print axioms Verif.Ekf.C164_upright_partial
#print axioms Verif.Ekf.C164_upside_down_violated
#print axioms Verif.Ekf.C165_pose_partial
#print axioms Verif.Ekf.C165_twist_partial
#print axioms Verif.Ekf.C165_between_violated
#print axioms Verif.Ekf.C166_tick_partial
#print axioms Verif.Ekf.C166_twist_partial
#print axioms Verif.Ekf.C166_height_violated
#print axioms Verif.Ekf.C166_waits_violated
#print axioms Verif.Ekf.C167_names_partial
#print axioms Verif.Ekf.C167_elsewhere_violated
#print axioms Verif.Ekf.C168_pairs
#print axioms Verif.Ekf.C168_still_partial
#print axioms Verif.Ekf.C168_only_stamps
#print axioms Verif.Ekf.C168_moved_on_violated
#print axioms Verif.Ekf.C169_as_said
#print axioms Verif.Ekf.C169_height_partial
#print axioms Verif.Ekf.C169_height_violated
#print axioms Verif.Ekf.C169_correlation_partial
#print axioms Verif.Ekf.C169_uncertainty_partial
#print axioms Verif.Ekf.C169_uncertainty_violated
