'Vio.C01_constant_shift' depends on axioms: [propext, Classical.choice, Quot.sound]
'Vio.C01_stored_shift' depends on axioms: [propext, Classical.choice, Quot.sound]
'Vio.C02_imu_acceptance' depends on axioms: [propext, Classical.choice, Quot.sound]
'Vio.C02_features_acceptance' depends on axioms: [propext, Classical.choice, Quot.sound]
'Vio.C03_queue_can_be_unsorted' depends on axioms: [propext, Classical.choice, Quot.sound]
'Vio.C03_queues_sorted_partial' depends on axioms: [propext, Classical.choice, Quot.sound]
'Vio.C04_fifo' depends on axioms: [propext, Classical.choice, Quot.sound]
'Vio.C05_popOne_rule' depends on axioms: [propext, Classical.choice, Quot.sound]
'Vio.C06_drain_can_be_unsorted' depends on axioms: [propext, Classical.choice, Quot.sound]
'Vio.C06_drain_sorted_partial' depends on axioms: [propext, Classical.choice, Quot.sound]
'Vio.C07_packet_contract' depends on axioms: [propext, Classical.choice, Quot.sound]
'Vio.C07_failed_request' depends on axioms: [propext, Classical.choice, Quot.sound]
'Vio.C07_search_stops' depends on axioms: [propext, Classical.choice, Quot.sound]
'Vio.C08_interpolation_convex' depends on axioms: [propext, Classical.choice, Quot.sound]
'Vio.C09_clear_does_not_restart' depends on axioms: [propext, Classical.choice, Quot.sound]
'Vio.C09_clear_restarts_partial' depends on axioms: [propext, Classical.choice, Quot.sound]
'Vio.C10_freed_read' depends on axioms: [propext, Classical.choice, Quot.sound]
'Vio.C10_live_storage_partial' depends on axioms: [propext, Quot.sound]
'Vio.C11_consecutive_ids' depends on axioms: [propext, Classical.choice, Quot.sound]
'Vio.C11_first_id' depends on axioms: [propext]
'Vio.C12_remove' depends on axioms: [propext, Classical.choice, Quot.sound]
'Vio.C12_remove_out_of_range' does not depend on any axioms
'Vio.C13_getFrame' depends on axioms: [propext, Classical.choice, Quot.sound]
'Vio.C13_getMaxFrameID' depends on axioms: [propext]
'Vio.C14_new_frame_pose' depends on axioms: [propext]
'Vio.C14_first_frame_pose' depends on axioms: [propext]
'Vio.C15_observeNum' depends on axioms: [propext, Classical.choice, Quot.sound]
'Vio.C16_refines_log' depends on axioms: [propext, Classical.choice, Quot.sound]
'Vio.C16_subnew_of_two_breaks' depends on axioms: [propext, Classical.choice, Quot.sound]
'Vio.C17_lifetime' depends on axioms: [propext, Classical.choice, Quot.sound]
'Vio.C18_refound_track_misplaced' depends on axioms: [propext, Classical.choice, Quot.sound]
'Vio.C18_lookup_partial' depends on axioms: [propext, Classical.choice, Quot.sound]
'Vio.C19_getNorm' depends on axioms: [propext, Quot.sound]
'Vio.C20_mismatch' depends on axioms: [propext]
'Vio.C20_output' depends on axioms: [propext, Classical.choice, Quot.sound]
'Vio.C21_covisible' depends on axioms: [propext, Classical.choice, Quot.sound]
'Vio.C21_symmetric' depends on axioms: [propext, Classical.choice, Quot.sound]
'Vio.C21_addFeatures' depends on axioms: [propext, Classical.choice, Quot.sound]
'Vio.C21_links' depends on axioms: [propext, Classical.choice, Quot.sound]
'Vio.C22_keyframe' depends on axioms: [propext, Quot.sound]
'Vio.C22_keyframe_defined' depends on axioms: [propext, Quot.sound]
'Vio.C23_parallax_ignored' depends on axioms: [propext, Quot.sound]
'Vio.C23_other_criteria_partial' depends on axioms: [propext, Classical.choice, Quot.sound]
'Vio.C23_parallax_sum' depends on axioms: [propext, Quot.sound]
'Vio.C24_sorted' depends on axioms: [propext, Classical.choice, Quot.sound]
'Vio.C24_refused' depends on axioms: [propext, Classical.choice, Quot.sound]
'Vio.C24_refusal_no_change' depends on axioms: [propext, Classical.choice, Quot.sound]
'Vio.C24_accepted' depends on axioms: [propext, Classical.choice, Quot.sound]
'Vio.C25_nearest' depends on axioms: [propext, Classical.choice, Quot.sound]
'Vio.C25_success_iff' depends on axioms: [propext, Classical.choice, Quot.sound]
'Vio.C25_empty' depends on axioms: [propext]
'Vio.C26_single_newer_fails' depends on axioms: [propext, Quot.sound]
'Vio.C26_single_partial' depends on axioms: [propext, Quot.sound]
'Vio.C27_clean' depends on axioms: [propext, Quot.sound]
'Vio.C27_ub_iff' depends on axioms: [propext, Quot.sound]
'Vio.C27_filter' depends on axioms: [propext, Classical.choice, Quot.sound]
'Vio.C28_unit_partial' depends on axioms: [propext, Classical.choice, Quot.sound]
'Vio.C28_free_fall_nan' depends on axioms: [propext, Classical.choice, Quot.sound]
'Vio.C29_parallel_start_nan' depends on axioms: [propext, Classical.choice, Quot.sound]
'Vio.C29_level_start_stored' depends on axioms: [propext, Classical.choice, Quot.sound]
'Vio.C29_off_axis_partial' depends on axioms: [propext, Classical.choice, Quot.sound]
'Vio.C30_never_aligned' depends on axioms: [propext, Classical.choice, Quot.sound]
'Vio.C30_alignment_partial' depends on axioms: [propext, Classical.choice, Quot.sound]
'Vio.C31_opposite_directions' depends on axioms: [propext, Classical.choice, Quot.sound]
'Vio.C31_agree_partial' depends on axioms: [propext, Classical.choice, Quot.sound]
'Vio.C32_unit' depends on axioms: [propext, Classical.choice, Quot.sound]
'Vio.C32_no_division_by_zero' depends on axioms: [propext, Classical.choice, Quot.sound]
'Vio.C32_finite' depends on axioms: [propext, Classical.choice, Quot.sound]
'Vio.C33_stationary' depends on axioms: [propext, Classical.choice, Quot.sound]
'Vio.C33_at_rest_from_empty' depends on axioms: [propext, Classical.choice, Quot.sound]
'Vio.C34_joint_psd' depends on axioms: [propext, Classical.choice, Quot.sound]
'Vio.C34_from_start' depends on axioms: [propext, Classical.choice, Quot.sound]
'Vio.C35_F_history_free' depends on axioms: [propext, Classical.choice, Quot.sound]
'Vio.C35_G_history_free' depends on axioms: [propext, Classical.choice, Quot.sound]
'Vio.C35_same_after_any_two' depends on axioms: [propext, Classical.choice, Quot.sound]
'Vio.C36_equals_live' depends on axioms: [propext, Classical.choice, Quot.sound]
'Vio.C36_samples_kept' depends on axioms: [propext, Classical.choice, Quot.sound]
'Vio.C36_frame' depends on axioms: [propext, Classical.choice, Quot.sound]
'Vio.C36_idempotent' depends on axioms: [propext, Classical.choice, Quot.sound]
'Vio.C36_fixed_when_unchanged' depends on axioms: [propext, Classical.choice, Quot.sound]
'Vio.C37_reset' depends on axioms: [propext, Quot.sound]
'Vio.C37_filter' depends on axioms: [propext, Classical.choice, Quot.sound]
'Vio.C38_first_sample' depends on axioms: [propext, Classical.choice, Quot.sound]
'Vio.C38_init_ignored' depends on axioms: [propext, Classical.choice, Quot.sound]
'Vio.C39_unpack_pack' does not depend on any axioms
'Vio.C39_pack_unpack' depends on axioms: [propext, Classical.choice, Quot.sound]
'Vio.Update.C40_within' depends on axioms: [propext, Quot.sound]
'Vio.Update.C40_overfull' depends on axioms: [propext, Quot.sound]
'Vio.Update.C40_never_newest' depends on axioms: [propext, Quot.sound]
'Vio.Update.C40_defined' depends on axioms: [propext, Quot.sound]
'Vio.Update.C40_two_frames' depends on axioms: [propext, Quot.sound]
'Vio.Update.C40_zero_size_undefined' depends on axioms: [propext, Classical.choice, Quot.sound]
'Vio.Update.C41_assembly' depends on axioms: [propext, Classical.choice, Quot.sound]
'Vio.Update.C41_symmetric' depends on axioms: [propext, Quot.sound]
'Vio.Update.C42_entries' depends on axioms: [propext, Classical.choice, Quot.sound]
'Vio.Update.C42_expand' depends on axioms: [propext, Classical.choice, Quot.sound]
'Vio.Update.C43_none' does not depend on any axioms
'Vio.Update.C43_reduce' depends on axioms: [propext, Classical.choice, Quot.sound]
'Vio.Update.C43_window' depends on axioms: [propext, Classical.choice, Quot.sound]
'Vio.Update.C43_blocks' depends on axioms: [propext, Classical.choice, Quot.sound]
'Vio.Update.C44_kalman' depends on axioms: [propext, Classical.choice, Quot.sound]
'Vio.Update.C45_generalised_inverse' depends on axioms: [propext, Classical.choice, Quot.sound]
'Vio.Update.C45_inverse' depends on axioms: [propext, Classical.choice, Quot.sound]
'Vio.Update.C46_projection' depends on axioms: [propext, Classical.choice, Quot.sound]
'Vio.Update.C46_landmark_removed' depends on axioms: [propext, Classical.choice, Quot.sound]
'Vio.Update.C46_noise_white' depends on axioms: [propext, Classical.choice, Quot.sound]
'Vio.Update.C47_compression' depends on axioms: [propext, Classical.choice, Quot.sound]
'Vio.Update.C48_blocks' depends on axioms: [propext, Classical.choice, Quot.sound]
'Vio.Update.C48_rows' depends on axioms: [propext, Classical.choice, Quot.sound]
'Vio.Update.C49_correction' depends on axioms: [propext, Classical.choice, Quot.sound]
'Vio.Update.C50_selection' depends on axioms: [propext, Classical.choice, Quot.sound]
'Vio.Update.C51_feature' depends on axioms: [propext, Classical.choice, Quot.sound]
'Vio.Update.C51_stack' depends on axioms: [propext, Classical.choice, Quot.sound]
'Vio.Update.C51_selected' depends on axioms: [propext, Classical.choice, Quot.sound]
'Vio.Update.C52_sizes' depends on axioms: [propext, Classical.choice, Quot.sound]
'Vio.Triang.C53_few_views' depends on axioms: [propext, Classical.choice, Quot.sound]
'Vio.Triang.C53_defined' depends on axioms: [propext, Classical.choice, Quot.sound]
'Vio.Triang.C53_depth_partial' depends on axioms: [propext, Classical.choice, Quot.sound]
'Vio.Triang.C53_success_iff' depends on axioms: [propext, Classical.choice, Quot.sound]
'Vio.Triang.C53_nan_accepted' depends on axioms: [propext, Classical.choice, Quot.sound]
'Vio.Triang.C54_exact_partial' depends on axioms: [propext, Classical.choice, Quot.sound]
'Vio.Triang.C54_exact_rank_partial' depends on axioms: [propext, Classical.choice, Quot.sound]
'Vio.Triang.C54_two_rays_partial' depends on axioms: [propext, Classical.choice, Quot.sound]
'Vio.Triang.C54_far_point_rejected' depends on axioms: [propext, Classical.choice, Quot.sound]
'Vio.Triang.C54_far_witness' depends on axioms: [propext, Classical.choice, Quot.sound]
'Vio.Triang.C55_iterations' depends on axioms: [propext, Classical.choice, Quot.sound]
'Vio.Triang.C55_cost' depends on axioms: [propext, Classical.choice, Quot.sound]
'Vio.Triang.C55_cost_partial' depends on axioms: [propext, Classical.choice, Quot.sound]
'Vio.Triang.C55_zero_z' depends on axioms: [propext, Classical.choice, Quot.sound]
'Vio.Triang.C55_zero_z_witness' depends on axioms: [propext, Classical.choice, Quot.sound]
'Vio.Triang.C55_damping' depends on axioms: [propext, Classical.choice, Quot.sound]
'Vio.Triang.C55_defined' depends on axioms: [propext, Classical.choice, Quot.sound]
'Vio.Triang.C56_jacobian' depends on axioms: [propext, Classical.choice, Quot.sound]
'Vio.Triang.C56_residual' depends on axioms: [propext, Classical.choice, Quot.sound]
'Vio.Pnp.C57_rejected' depends on axioms: [propext, Classical.choice, Quot.sound]
'Vio.Pnp.C57_accepted' depends on axioms: [propext, Classical.choice, Quot.sound]
'Vio.Pnp.C57_false_iff' depends on axioms: [propext, Classical.choice, Quot.sound]
'Vio.Pnp.C57_unit_partial' depends on axioms: [propext, Classical.choice, Quot.sound]
'Vio.Pnp.C57_zero_quaternion' depends on axioms: [propext, Classical.choice, Quot.sound]
'Vio.Pnp.C58_fixed_point' depends on axioms: [propext, Classical.choice, Quot.sound]
'Vio.Pnp.C59_jacobian' depends on axioms: [propext, Classical.choice, Quot.sound]
'Vio.Pnp.C60_terminates_partial' depends on axioms: [propext, Classical.choice, Quot.sound]
'Vio.Pnp.C60_diverges' depends on axioms: [propext, Classical.choice, Quot.sound]
'Vio.Pnp.C61_worse_model_returned' depends on axioms: [propext, Classical.choice, Quot.sound]
'Vio.Pnp.w_solver' depends on axioms: [propext, Classical.choice, Quot.sound]
'Vio.Pnp.C61_returns_newest' depends on axioms: [propext, Classical.choice, Quot.sound]
'Vio.Pnp.C61_early_stop_partial' depends on axioms: [propext, Classical.choice, Quot.sound]
'Vio.Pnp.C62_flags' depends on axioms: [propext, Classical.choice, Quot.sound]
'Vio.Pnp.C62_call' depends on axioms: [propext, Classical.choice, Quot.sound]
'Vio.Pnp.C62_exact_partial' depends on axioms: [propext, Classical.choice, Quot.sound]
'Vio.Pnp.C62_stale_flag' depends on axioms: [propext, Classical.choice, Quot.sound]
'Vio.Pnp.C62_nan_inlier' depends on axioms: [propext, Classical.choice, Quot.sound]
'Vio.Pnp.C63_cauchy' depends on axioms: [propext, Classical.choice, Quot.sound]
'Vio.Pnp.C63_huber_partial' depends on axioms: [propext, Classical.choice, Quot.sound]
'Vio.Pnp.C63_huber_negative' depends on axioms: [propext, Classical.choice, Quot.sound]
'Vio.Conf.C64_missing' depends on axioms: [propext, Quot.sound]
'Vio.Conf.C64_exact' depends on axioms: [propext, Classical.choice, Quot.sound]
'Vio.Conf.C65_too_many_rows' depends on axioms: [propext, Classical.choice, Quot.sound]
'Vio.Conf.C65_stale_value' depends on axioms: [propext, Classical.choice, Quot.sound]
'Vio.Conf.C65_short_partial' depends on axioms: [propext, Classical.choice, Quot.sound]
'Vio.Conf.C65_memory' depends on axioms: [propext]
'Vio.Conf.C66_read' depends on axioms: [propext, Classical.choice, Quot.sound]
'Vio.Conf.C66_defaults' depends on axioms: [propext, Classical.choice, Quot.sound]
'Vio.Backend.C67_config' depends on axioms: [propext, Classical.choice, Quot.sound]
'Vio.Backend.C67_no_ub' depends on axioms: [propext, Classical.choice, Quot.sound]
'Vio.Backend.C68_no_ub_partial' depends on axioms: [propext, Classical.choice, Quot.sound]
'Vio.Backend.C68_tracker_partial' depends on axioms: [propext, Classical.choice, Quot.sound]
'Vio.Backend.C68_ieee_partial' depends on axioms: [propext, Classical.choice, Quot.sound]
'Vio.Backend.C68_configured' depends on axioms: [propext, Classical.choice, Quot.sound]
'Vio.Backend.C68_freed_read' depends on axioms: [propext, Classical.choice, Quot.sound]
'Vio.Backend.C69_unknown_camera' depends on axioms: [propext, Classical.choice, Quot.sound]
'Vio.Backend.C69_empty_observation' depends on axioms: [propext, Classical.choice, Quot.sound]
'Vio.Backend.C69_repeated_id' depends on axioms: [propext, Classical.choice, Quot.sound]
'Vio.Backend.C69_refound_track' depends on axioms: [propext, Classical.choice, Quot.sound]
'Vio.Backend.C69_uneven_partial' depends on axioms: [propext, Classical.choice, Quot.sound]
'Vio.Backend.C70_bound' depends on axioms: [propext, Classical.choice, Quot.sound]
'Vio.Backend.C70_one_frame' depends on axioms: [propext, Classical.choice, Quot.sound]
'Vio.Backend.C71_becomes_initialised' depends on axioms: [propext, Classical.choice, Quot.sound]
'Vio.Backend.C71_goes_back' depends on axioms: [propext, Classical.choice, Quot.sound]
'Vio.Backend.C71_imu_only' depends on axioms: [propext, Classical.choice, Quot.sound]
'Vio.Backend.C71_other_calls' depends on axioms: [propext, Classical.choice, Quot.sound]
'Vio.Backend.C72_propagate' depends on axioms: [propext, Quot.sound]
'Vio.Backend.C72_update' depends on axioms: [propext, Quot.sound]
'Vio.Backend.C72_no_change' depends on axioms: [propext, Classical.choice, Quot.sound]
'Vio.Backend.C73_result' depends on axioms: [propext, Classical.choice, Quot.sound]
'Vio.Backend.C74_one_message' depends on axioms: [propext, Classical.choice, Quot.sound]
'Vio.Backend.C74_all_consumed' depends on axioms: [propext, Classical.choice, Quot.sound]
'Vio.Backend.C75_covariance' depends on axioms: [propext, Classical.choice, Quot.sound]
'Vio.Backend.C75_tracker' depends on axioms: [propext, Classical.choice, Quot.sound]
'Vio.Backend.C76_stuck' depends on axioms: [propext, Classical.choice, Quot.sound]
'Vio.Backend.C76_not_fresh' depends on axioms: [propext, Classical.choice, Quot.sound]
'Vio.Backend.C76_reaches_stuck' depends on axioms: [propext, Classical.choice, Quot.sound]
'Vio.Backend.C76_reset_partial' does not depend on any axioms
'Vio.Backend.C77_twice' depends on axioms: [propext, Classical.choice, Quot.sound]
'Vio.Backend.C77_once_partial' depends on axioms: [propext, Classical.choice, Quot.sound]
'Vio.Backend.C77_served_partial' depends on axioms: [propext, Classical.choice, Quot.sound]
'Vio.Backend.C78_initialise' depends on axioms: [propext, Classical.choice, Quot.sound]
'Vio.Backend.C79_published_time' depends on axioms: [propext, Classical.choice, Quot.sound]
'Vio.Backend.C79_published_time_invariant' depends on axioms: [propext, Classical.choice, Quot.sound]
'Vio.Backend.C79_ieee' depends on axioms: [propext, Classical.choice, Quot.sound]
'Vio.C80_skew' depends on axioms: [propext, Classical.choice, Quot.sound]
'Vio.C80_skew_transpose' depends on axioms: [propext, Classical.choice, Quot.sound]
'Vio.C80_qleft' depends on axioms: [propext, Classical.choice, Quot.sound]
'Vio.C80_qright' depends on axioms: [propext, Classical.choice, Quot.sound]
'Vio.C80_transform_acts' depends on axioms: [propext, Classical.choice, Quot.sound]
'Vio.C80_transform_compose' depends on axioms: [propext, Classical.choice, Quot.sound]
'Vio.C80_transform_inverse' depends on axioms: [propext, Classical.choice, Quot.sound]
'Vio.C80_inverse' depends on axioms: [propext, Classical.choice, Quot.sound]
'Vio.C80_normalized' depends on axioms: [propext, Classical.choice, Quot.sound]
'Vio.C81_quaternion_angle' depends on axioms: [propext, Classical.choice, Quot.sound]
'Vio.C81_quaternion' depends on axioms: [propext, Classical.choice, Quot.sound]
'Vio.C81_quaternion_defined' depends on axioms: [propext, Classical.choice, Quot.sound]
'Vio.C81_vector' depends on axioms: [propext, Classical.choice, Quot.sound]
'Vio.C81_vector_defined_iff' depends on axioms: [propext, Classical.choice, Quot.sound]
'Vio.Backend.C82_dead_reckoning' depends on axioms: [propext, Classical.choice, Quot.sound]
'Vio.Backend.C82_sample_added' depends on axioms: [propext, Classical.choice, Quot.sound]
'Vio.Update.C83_best_gain' depends on axioms: [propext, Classical.choice, Quot.sound]
'Vio.Update.C83_map' depends on axioms: [propext, Classical.choice, Quot.sound]
'Vio.Update.C83_cutoff' depends on axioms: [propext, Classical.choice, Quot.sound]
'Vio.Backend.C84_scores' depends on axioms: [propext, Classical.choice, Quot.sound]
'Vio.Update.C84_selected' depends on axioms: [propext, Classical.choice, Quot.sound]
'Vio.Backend.C84_collision' depends on axioms: [propext, Classical.choice, Quot.sound]
'Vio.Update.C85_update' depends on axioms: [propext, Classical.choice, Quot.sound]
'Vio.Update.C85_projection' depends on axioms: [propext, Classical.choice, Quot.sound]
'Vio.Update.C85_needs_rank' depends on axioms: [propext, Classical.choice, Quot.sound]
'Vio.C86_memory' depends on axioms: [propext, Classical.choice, Quot.sound]
'Vio.PropQueue.C87_uniform' depends on axioms: [propext, Classical.choice, Quot.sound]
'Vio.PropQueue.C87_from_empty' depends on axioms: [propext, Classical.choice, Quot.sound]
'Vio.C88_queue' depends on axioms: [propext, Classical.choice, Quot.sound]
'Vio.C88_from_start' depends on axioms: [propext, Classical.choice, Quot.sound]
'Vio.Reckon.C88_along' depends on axioms: [propext, Classical.choice, Quot.sound]
'Vio.C89_first_order' depends on axioms: [propext, Classical.choice, Quot.sound]
'Vio.C89_chart' depends on axioms: [propext, Classical.choice, Quot.sound]
'Vio.C89_not_exact' depends on axioms: [propext, Classical.choice, Quot.sound]
'Vio.Triang.C90_weight_small' depends on axioms: [propext, Classical.choice, Quot.sound]
'Vio.Triang.C90_weight_large' depends on axioms: [propext, Classical.choice, Quot.sound]
'Vio.Triang.C90_influence' depends on axioms: [propext, Classical.choice, Quot.sound]
'Vio.Triang.C90_upweighted' depends on axioms: [propext, Classical.choice, Quot.sound]
'Vio.Triang.C90_weight_bound' depends on axioms: [propext, Classical.choice, Quot.sound]
'Vio.Triang.C90_normal' depends on axioms: [propext, Classical.choice, Quot.sound]
'Vio.Triang.C90_posdef' depends on axioms: [propext, Classical.choice, Quot.sound]
'Vio.Triang.C90_gradient' depends on axioms: [propext, Classical.choice, Quot.sound]
'Vio.Triang.C90_descent' depends on axioms: [propext, Classical.choice, Quot.sound]
'Vio.Triang.C90_descent_plain' depends on axioms: [propext, Classical.choice, Quot.sound]
'Vio.Triang.C90_cost' depends on axioms: [propext, Classical.choice, Quot.sound]
'Vio.Triang.C90_inner' depends on axioms: [propext, Classical.choice, Quot.sound]
'Vio.Triang.C90_body' depends on axioms: [propext, Classical.choice, Quot.sound]
'Vio.Triang.C90_exact_start' depends on axioms: [propext, Classical.choice, Quot.sound]
'Vio.Triang.C90_robust_rejected' depends on axioms: [propext, Classical.choice, Quot.sound]
'Vio.Update.C91_exact_is_kept' depends on axioms: [propext, Classical.choice, Quot.sound]
'Vio.Backend.C92_noise_free' depends on axioms: [propext, Classical.choice, Quot.sound]
'Vio.Backend.C92_reachable' depends on axioms: [propext, Classical.choice, Quot.sound]
'Vio.Utility.C93_euler' depends on axioms: [propext, Classical.choice, Quot.sound]
'Vio.Utility.C93_degrees' depends on axioms: [propext, Classical.choice, Quot.sound]
'Vio.Utility.C93_not_degrees' depends on axioms: [propext, Classical.choice, Quot.sound]
'Vio.Utility.C93_range' depends on axioms: [propext, Classical.choice, Quot.sound]
'Vio.Utility.C93_gimbal_lock' depends on axioms: [propext, Classical.choice, Quot.sound]
'Vio.C94_matrix' depends on axioms: [propext, Classical.choice, Quot.sound]
'Vio.C94_inverse' depends on axioms: [propext, Classical.choice, Quot.sound]
'Vio.C94_cameras' depends on axioms: [propext, Classical.choice, Quot.sound]
'Vio.Backend.C95_camera_pose' depends on axioms: [propext, Classical.choice, Quot.sound]
'Vio.Backend.C95_success_iff' depends on axioms: [propext, Classical.choice, Quot.sound]
'Vio.Backend.C95_standing' depends on axioms: [propext, Classical.choice, Quot.sound]
'Vio.Demo.C96_messages' depends on axioms: [propext, Classical.choice, Quot.sound]
'Vio.Demo.C96_program' depends on axioms: [propext, Classical.choice, Quot.sound]
'Vio.Demo.C96_short_line' depends on axioms: [propext, Classical.choice, Quot.sound]
'Vio.Demo.C97_defined_partial' depends on axioms: [propext, Classical.choice, Quot.sound]
'Vio.Demo.C97_main_partial' depends on axioms: [propext, Classical.choice, Quot.sound]
'Vio.Demo.C97_short_line' depends on axioms: [propext, Classical.choice, Quot.sound]
'Vio.Demo.C97_one_camera' depends on axioms: [propext, Classical.choice, Quot.sound]
'Vio.Demo.C98_rows' depends on axioms: [propext, Classical.choice, Quot.sound]
'Vio.Demo.C98_file' depends on axioms: [propext, Classical.choice, Quot.sound]
'Vio.Demo.C99_drained' depends on axioms: [propext, Classical.choice, Quot.sound]
'Vio.Demo.C99_left_over' depends on axioms: [propext, Classical.choice, Quot.sound]
'Vio.Demo.C100_rotation' depends on axioms: [propext, Classical.choice, Quot.sound]
'Vio.Demo.C100_shipped' depends on axioms: [propext, Classical.choice, Quot.sound]
'Vio.Demo.C100_texts' depends on axioms: [propext, Classical.choice, Quot.sound]
'Vio.Demo.C100_sight' depends on axioms: [propext, Classical.choice, Quot.sound]
'Vio.C101_update' depends on axioms: [propext, Classical.choice, Quot.sound]
'Vio.Backend.C101_extrinsics' depends on axioms: [propext, Classical.choice, Quot.sound]
'Vio.Backend.C101_first_frame' depends on axioms: [propext, Classical.choice, Quot.sound]
'Vio.Backend.C101_origin' depends on axioms: [propext, Classical.choice, Quot.sound]
'Vio.Update.C102_predict' depends on axioms: [propext, Classical.choice, Quot.sound]
'Vio.Update.C102_observation' depends on axioms: [propext, Classical.choice, Quot.sound]
'Vio.Update.C102_feature' depends on axioms: [propext, Classical.choice, Quot.sound]
'Vio.Update.C102_measure' depends on axioms: [propext, Classical.choice, Quot.sound]
'Vio.Update.C102_kalman' depends on axioms: [propext, Classical.choice, Quot.sound]
'Vio.Update.C102_solve' depends on axioms: [propext, Classical.choice, Quot.sound]
'Vio.Tests.C103_analytic' depends on axioms: [propext, Classical.choice, Quot.sound]
'Vio.Tests.C103_iterative' depends on axioms: [propext, Classical.choice, Quot.sound]
'Vio.Tests.C103_iterative_blind' depends on axioms: [propext, Classical.choice, Quot.sound]
'Vio.Tests.C103_rotation' depends on axioms: [propext, Classical.choice, Quot.sound]
'Vio.Tests.C104_data' depends on axioms: [propext, Classical.choice, Quot.sound]
'Vio.Tests.C104_ends' depends on axioms: [propext, Classical.choice, Quot.sound]
'Vio.Tests.C104_score' depends on axioms: [propext, Classical.choice, Quot.sound]
'Vio.Tests.C104_found' depends on axioms: [propext, Classical.choice, Quot.sound]
'Vio.Tests.C104_bias' depends on axioms: [propext, Classical.choice, Quot.sound]
'Vio.Tests.C104_leaves' depends on axioms: [propext, Classical.choice, Quot.sound]
'Vio.Backend.C105_heading' depends on axioms: [propext, Classical.choice, Quot.sound]
'Vio.Backend.C105_library' depends on axioms: [propext, Classical.choice, Quot.sound]
'Vio.Backend.C105_reached' depends on axioms: [propext, Classical.choice, Quot.sound]
'Vio.Backend.C106_unit' depends on axioms: [propext, Classical.choice, Quot.sound]
'Vio.Backend.C106_first_sample' depends on axioms: [propext, Classical.choice, Quot.sound]
'Vio.Triang.C107_origin_matters' depends on axioms: [propext, Classical.choice, Quot.sound]
'Vio.Triang.C107_exact_partial' depends on axioms: [propext, Classical.choice, Quot.sound]
'Vio.C108_filter' depends on axioms: [propext, Classical.choice, Quot.sound]
'Vio.C108_from_start' depends on axioms: [propext, Classical.choice, Quot.sound]
'Vio.C108_loader' depends on axioms: [propext, Classical.choice, Quot.sound]
'Vio.C109_attitudes' depends on axioms: [propext, Classical.choice, Quot.sound]
'Vio.C109_step' depends on axioms: [propext, Classical.choice, Quot.sound]
'Vio.C109_overflow' depends on axioms: [propext, Classical.choice, Quot.sound]
'Vio.C110_for_ever' depends on axioms: [propext, Classical.choice, Quot.sound]
'Vio.C110_sample' depends on axioms: [propext, Classical.choice, Quot.sound]
'Vio.C110_first' depends on axioms: [propext, Classical.choice, Quot.sound]
'Vio.C110_published' depends on axioms: [propext, Classical.choice, Quot.sound]
'Vio.C110_level_start' depends on axioms: [propext, Classical.choice, Quot.sound]
'Vio.Backend.C111_kept_partial' depends on axioms: [propext, Classical.choice, Quot.sound]
'Vio.Backend.C111_never_cleaned' depends on axioms: [propext, Classical.choice, Quot.sound]
'Vio.Backend.C111_unbounded' depends on axioms: [propext, Classical.choice, Quot.sound]
'Vio.Backend.C112_sizes' depends on axioms: [propext, Classical.choice, Quot.sound]
'Vio.Backend.C113_order' depends on axioms: [propext, Classical.choice, Quot.sound]
'Vio.Backend.C113_limit' depends on axioms: [propext, Classical.choice, Quot.sound]
'Vio.runH_id' depends on axioms: [propext, Classical.choice, Quot.sound]
'Vio.C114_copy' depends on axioms: [propext, Classical.choice, Quot.sound]
'Vio.C114_null' depends on axioms: [propext, Classical.choice, Quot.sound]
'Vio.C114_twice' depends on axioms: [propext, Classical.choice, Quot.sound]
'Vio.C114_two_loaders' depends on axioms: [propext, Classical.choice, Quot.sound]
'Vio.C114_packet' depends on axioms: [propext, Classical.choice, Quot.sound]
'Vio.C115_tiles' depends on axioms: [propext, Classical.choice, Quot.sound]
'Vio.C115_sorted' depends on axioms: [propext, Classical.choice, Quot.sound]
'Vio.C115_time' depends on axioms: [propext, Classical.choice, Quot.sound]
'Vio.C116_derivative' depends on axioms: [propext, Classical.choice, Quot.sound]
'Vio.C116_normal' depends on axioms: [propext, Classical.choice, Quot.sound]
'Vio.C116_solvable' depends on axioms: [propext, Classical.choice, Quot.sound]
'Vio.C116_minimum' depends on axioms: [propext, Classical.choice, Quot.sound]
'Vio.C116_descent' depends on axioms: [propext, Classical.choice, Quot.sound]
'Vio.C116_stationary' depends on axioms: [propext, Classical.choice, Quot.sound]
'Vio.C116_step' depends on axioms: [propext, Classical.choice, Quot.sound]
'Vio.C116_stop' depends on axioms: [propext, Classical.choice, Quot.sound]
'Vio.C117_filter' depends on axioms: [propext, Classical.choice, Quot.sound]
'Vio.C117_from_start' depends on axioms: [propext, Classical.choice, Quot.sound]
'Vio.C117_reuse' depends on axioms: [propext, Classical.choice, Quot.sound]
'Vio.Backend.C117_any_order' depends on axioms: [propext, Classical.choice, Quot.sound]
'Vio.Backend.C117_collision' depends on axioms: [propext, Classical.choice, Quot.sound]
'Vio.Backend.C118_no_ub' depends on axioms: [propext, Classical.choice, Quot.sound]
'Vio.Backend.C118_tracker' depends on axioms: [propext, Classical.choice, Quot.sound]
'Vio.Backend.C118_ieee' depends on axioms: [propext, Classical.choice, Quot.sound]
'Vio.Backend.C118_state_ignored' depends on axioms: [propext, Classical.choice, Quot.sound]
'Vio.Backend.C118_stale' depends on axioms: [propext, Classical.choice, Quot.sound]
'Vio.Backend.C119_falls_back_iff' depends on axioms: [propext, Classical.choice, Quot.sound]
'Vio.Backend.C119_stays' depends on axioms: [propext, Classical.choice, Quot.sound]
'Vio.Backend.C119_running' depends on axioms: [propext, Classical.choice, Quot.sound]
'Vio.Backend.C119_gap' depends on axioms: [propext, Classical.choice, Quot.sound]
'Vio.Backend.C119_ieee' depends on axioms: [propext, Classical.choice, Quot.sound]
'Vio.Backend.C120_second_image' depends on axioms: [propext, Classical.choice, Quot.sound]
'Vio.Backend.C120_runs_on' depends on axioms: [propext, Classical.choice, Quot.sound]
'Vio.Backend.C121_cameras' depends on axioms: [propext, Classical.choice, Quot.sound]
'Vio.Backend.C121_all_maps' depends on axioms: [propext, Classical.choice, Quot.sound]
'Vio.rank_of_rays' depends on axioms: [propext, Classical.choice, Quot.sound]
'Vio.exists_svdOfColumns' depends on axioms: [propext, Classical.choice, Quot.sound]
'Vio.MProc.C122_alone' depends on axioms: [propext, Classical.choice, Quot.sound]
'Vio.MProc.C122_safe' depends on axioms: [propext, Classical.choice, Quot.sound]
'Vio.MProc.C122_one' depends on axioms: [propext, Classical.choice, Quot.sound]
'Vio.MProc.C122_config' depends on axioms: [propext, Classical.choice, Quot.sound]
'Vio.MProc.C122_lost' depends on axioms: [propext, Classical.choice, Quot.sound]
'Vio.MProc.C122_lost_image' depends on axioms: [propext, Classical.choice, Quot.sound]
'Vio.MProc.C122_gravity' depends on axioms: [propext, Classical.choice, Quot.sound]
'Vio.C123_away' depends on axioms: [propext, Classical.choice, Quot.sound]
'Vio.C123_diverges' depends on axioms: [propext, Classical.choice, Quot.sound]
'Vio.C123_lost' depends on axioms: [propext, Classical.choice, Quot.sound]
'Vio.Backend.C123_run' depends on axioms: [propext, Classical.choice, Quot.sound]
'Vio.C123_aligned_partial' depends on axioms: [propext, Classical.choice, Quot.sound]
'Vio.C124_growth' depends on axioms: [propext, Classical.choice, Quot.sound]
'Vio.C124_rate_dependent' depends on axioms: [propext, Classical.choice, Quot.sound]
'Vio.C124_vanishes' depends on axioms: [propext, Classical.choice, Quot.sound]
'Vio.Backend.C124_configured' depends on axioms: [propext, Classical.choice, Quot.sound]
'Vio.Backend.C124_shipped' depends on axioms: [propext, Classical.choice, Quot.sound]
'Vio.C124_constant_period_partial' depends on axioms: [propext, Classical.choice, Quot.sound]
'Vio.Update.C125_all_rows' depends on axioms: [propext, Classical.choice, Quot.sound]
'Vio.Update.C125_oldest_stays' depends on axioms: [propext, Classical.choice, Quot.sound]
'Vio.Update.C125_reused' depends on axioms: [propext, Classical.choice, Quot.sound]
'Vio.Update.C125_repeated' depends on axioms: [propext, Classical.choice, Quot.sound]
'Vio.Update.C125_as_if_better' depends on axioms: [propext, Classical.choice, Quot.sound]
'Vio.Update.C125_overconfident' depends on axioms: [propext, Classical.choice, Quot.sound]
'Vio.Update.C125_once_per_update_partial' depends on axioms: [propext, Classical.choice, Quot.sound]
'Vio.C126_bounds' depends on axioms: [propext, Classical.choice, Quot.sound]
'Vio.C126_converges' depends on axioms: [propext, Classical.choice, Quot.sound]
'Vio.Conv.Flight.step' depends on axioms: [propext, Classical.choice, Quot.sound]
'Vio.C127_turn' depends on axioms: [propext, Classical.choice, Quot.sound]
'Vio.C127_short' depends on axioms: [propext, Classical.choice, Quot.sound]
'Vio.C128_gain' depends on axioms: [propext, Classical.choice, Quot.sound]
'Vio.C128_linear' depends on axioms: [propext, Classical.choice, Quot.sound]
'Vio.C128_unbounded' depends on axioms: [propext, Classical.choice, Quot.sound]
'Vio.Backend.C129_published' depends on axioms: [propext, Classical.choice, Quot.sound]
'Vio.Drift.along_bounds' depends on axioms: [propext, Classical.choice, Quot.sound]
'Vio.C130_sequential' depends on axioms: [propext, Classical.choice, Quot.sound]
'Vio.C131_scale' depends on axioms: [propext, Classical.choice, Quot.sound]
'Vio.C132_feature' depends on axioms: [propext, Classical.choice, Quot.sound]
'Vio.C132_window_partial' depends on axioms: [propext, Classical.choice, Quot.sound]
'Vio.C132_refound' depends on axioms: [propext, Classical.choice, Quot.sound]
'Vio.C132_features' depends on axioms: [propext, Classical.choice, Quot.sound]
'Vio.C132_frames' depends on axioms: [propext, Classical.choice, Quot.sound]
'Vio.C132_packet' depends on axioms: [propext, Classical.choice, Quot.sound]
'Vio.C132_message' depends on axioms: [propext, Classical.choice, Quot.sound]
'Vio.C132_made' depends on axioms: [propext, Classical.choice, Quot.sound]
'Vio.C132_config' depends on axioms: [propext, Classical.choice, Quot.sound]
'Vio.C132_quiet_update' depends on axioms: [propext, Classical.choice, Quot.sound]
'Vio.Backend.C132_quiet' depends on axioms: [propext, Classical.choice, Quot.sound]
'Vio.Backend.C133_unused' depends on axioms: [propext, Classical.choice, Quot.sound]
'Vio.Backend.C133_run' depends on axioms: [propext, Classical.choice, Quot.sound]
'Vio.Backend.C133_never_learned' depends on axioms: [propext, Classical.choice, Quot.sound]
'Vio.Update.C134_update_partial' depends on axioms: [propext, Classical.choice, Quot.sound]
'Vio.Update.C134_single_partial' depends on axioms: [propext, Classical.choice, Quot.sound]
'Vio.F32.C134_propagation' depends on axioms: [propext, Classical.choice, Quot.sound]
'Vio.F32.rnd_eq' depends on axioms: [propext, Classical.choice, Quot.sound]
'Vio.Yaw.C135_partial' depends on axioms: [propext, Classical.choice, Quot.sound]
'Vio.Yaw.C135_meaning' depends on axioms: [propext, Classical.choice, Quot.sound]
'Vio.Yaw.C135_defect' depends on axioms: [propext, Classical.choice, Quot.sound]
'Vio.Yaw.C135_turning' depends on axioms: [propext, Classical.choice, Quot.sound]
'Vio.Yaw.C135_accelerating' depends on axioms: [propext, Classical.choice, Quot.sound]
'Vio.Clock.C136_elapsed' depends on axioms: [propext, Classical.choice, Quot.sound]
'Vio.Clock.C136_queue' depends on axioms: [propext, Classical.choice, Quot.sound]
'Vio.Clock.C136_rounded_once' depends on axioms: [propext, Classical.choice, Quot.sound]
'Vio.Clock.C136_moves' depends on axioms: [propext, Classical.choice, Quot.sound]
'Vio.Clock.C136_other_order' depends on axioms: [propext, Classical.choice, Quot.sound]
'Vio.Variance.C137_first_partial' depends on axioms: [propext, Classical.choice, Quot.sound]
'Vio.Variance.C137_negative' depends on axioms: [propext, Classical.choice, Quot.sound]
'Vio.Variance.C137_propagation' depends on axioms: [propext, Classical.choice, Quot.sound]
'Vio.Mixing.C138_interpolate' depends on axioms: [propext, Classical.choice, Quot.sound]
'Vio.Mixing.C138_histories' depends on axioms: [propext, Classical.choice, Quot.sound]
'Vio.Mixing.C138_bounded' depends on axioms: [propext, Classical.choice, Quot.sound]
'Vio.Stall.C139_stalls' depends on axioms: [propext, Classical.choice, Quot.sound]
'Vio.Stall.C139_lost' depends on axioms: [propext, Classical.choice, Quot.sound]
'Vio.Stall.C139_lost_histories' depends on axioms: [propext, Classical.choice, Quot.sound]
'Vio.Stall.C139_partial' depends on axioms: [propext, Classical.choice, Quot.sound]
'Vio.Stall.C139_histories_partial' depends on axioms: [propext, Classical.choice, Quot.sound]
'Vio.Timer.C140_set_back' depends on axioms: [propext, Classical.choice, Quot.sound]
'Vio.Timer.C140_sum' depends on axioms: [propext, Classical.choice, Quot.sound]
'Vio.Timer.C140_partial' depends on axioms: [propext, Classical.choice, Quot.sound] 
