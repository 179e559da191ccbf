{
 "claims": [
  {
   "property": "C01",
   "status": "proved",
   "theorems": [
    "Vio.C01_constant_shift",
    "Vio.C01_stored_shift"
   ],
   "note": "All histories of a process with any number of loaders."
  },
  {
   "property": "C02",
   "status": "proved",
   "theorems": [
    "Vio.C02_imu_acceptance",
    "Vio.C02_features_acceptance"
   ],
   "note": ""
  },
  {
   "property": "C03",
   "status": "partial",
   "theorems": [
    "Vio.C03_queue_can_be_unsorted",
    "Vio.C03_queues_sorted_partial"
   ],
   "note": "False of the code (acceptance compares with the previous push, not with the newest queued message); proved when pushed times increase."
  },
  {
   "property": "C04",
   "status": "proved",
   "theorems": [
    "Vio.C04_fifo"
   ],
   "note": ""
  },
  {
   "property": "C05",
   "status": "proved",
   "theorems": [
    "Vio.C05_popOne_rule"
   ],
   "note": ""
  },
  {
   "property": "C06",
   "status": "partial",
   "theorems": [
    "Vio.C06_drain_can_be_unsorted",
    "Vio.C06_drain_sorted_partial"
   ],
   "note": "False of the code when two images are closer than one IMU period; proved under the spacing assumption."
  },
  {
   "property": "C07",
   "status": "proved",
   "theorems": [
    "Vio.C07_packet_contract",
    "Vio.C07_failed_request",
    "Vio.C07_search_stops"
   ],
   "note": ""
  },
  {
   "property": "C08",
   "status": "proved",
   "theorems": [
    "Vio.C08_interpolation_convex"
   ],
   "note": ""
  },
  {
   "property": "C09",
   "status": "partial",
   "theorems": [
    "Vio.C09_clear_does_not_restart",
    "Vio.C09_clear_restarts_partial"
   ],
   "note": "False of the code (process-wide static time stamps survive Clear and are shared by instances); proved when the first pushes after Clear are newer."
  },
  {
   "property": "C10",
   "status": "partial",
   "theorems": [
    "Vio.C10_freed_read",
    "Vio.C10_live_storage_partial"
   ],
   "note": "False of the code; the partial theorem characterises exactly when the freed slot is read."
  },
  {
   "property": "C11",
   "status": "proved",
   "theorems": [
    "Vio.C11_consecutive_ids",
    "Vio.C11_first_id"
   ],
   "note": "All histories shorter than 2^32 calls."
  },
  {
   "property": "C12",
   "status": "proved",
   "theorems": [
    "Vio.C12_remove",
    "Vio.C12_remove_out_of_range"
   ],
   "note": ""
  },
  {
   "property": "C13",
   "status": "proved",
   "theorems": [
    "Vio.C13_getFrame",
    "Vio.C13_getMaxFrameID"
   ],
   "note": ""
  },
  {
   "property": "C14",
   "status": "proved",
   "theorems": [
    "Vio.C14_new_frame_pose",
    "Vio.C14_first_frame_pose"
   ],
   "note": ""
  },
  {
   "property": "C15",
   "status": "proved",
   "theorems": [
    "Vio.C15_observeNum"
   ],
   "note": "Count as a uint32_t; all histories with arbitrary arguments, no undefined behaviour."
  },
  {
   "property": "C16",
   "status": "proved",
   "theorems": [
    "Vio.C16_refines_log",
    "Vio.C16_subnew_of_two_breaks"
   ],
   "note": "Second-newest marginalisation with at least three frames, newest with at least two, as the backend does; the second theorem shows the two-frame case would break."
  },
  {
   "property": "C17",
   "status": "proved",
   "theorems": [
    "Vio.C17_lifetime"
   ],
   "note": "Same histories as C16."
  },
  {
   "property": "C18",
   "status": "partial",
   "theorems": [
    "Vio.C18_refound_track_misplaced",
    "Vio.C18_lookup_partial"
   ],
   "note": "False of the code: concrete lost and re-found track. Holds without reuse of lost tracks."
  },
  {
   "property": "C19",
   "status": "proved",
   "theorems": [
    "Vio.C19_getNorm"
   ],
   "note": ""
  },
  {
   "property": "C20",
   "status": "proved",
   "theorems": [
    "Vio.C20_mismatch",
    "Vio.C20_output"
   ],
   "note": ""
  },
  {
   "property": "C21",
   "status": "proved",
   "theorems": [
    "Vio.C21_covisible",
    "Vio.C21_symmetric",
    "Vio.C21_addFeatures",
    "Vio.C21_links"
   ],
   "note": ""
  },
  {
   "property": "C22",
   "status": "proved",
   "theorems": [
    "Vio.C22_keyframe",
    "Vio.C22_keyframe_defined"
   ],
   "note": ""
  },
  {
   "property": "C23",
   "status": "partial",
   "theorems": [
    "Vio.C23_parallax_ignored",
    "Vio.C23_other_criteria_partial",
    "Vio.C23_parallax_sum"
   ],
   "note": "False of the code: the threshold never influences the decision."
  },
  {
   "property": "C24",
   "status": "proved",
   "theorems": [
    "Vio.C24_sorted",
    "Vio.C24_refused",
    "Vio.C24_refusal_no_change",
    "Vio.C24_accepted"
   ],
   "note": "all histories of samples, cleanings and bias changes; NaN-aware comparison laws only"
  },
  {
   "property": "C25",
   "status": "proved",
   "theorems": [
    "Vio.C25_nearest",
    "Vio.C25_success_iff",
    "Vio.C25_empty"
   ],
   "note": "all time ordered queues of at least two items; any monotone rounded time subtraction"
  },
  {
   "property": "C26",
   "status": "partial",
   "theorems": [
    "Vio.C26_single_newer_fails",
    "Vio.C26_single_partial"
   ],
   "note": "false as stated: a single item newer than the asked time is never found; the partial theorem gives the exact result"
  },
  {
   "property": "C27",
   "status": "proved",
   "theorems": [
    "Vio.C27_clean",
    "Vio.C27_ub_iff",
    "Vio.C27_filter"
   ],
   "note": "undefined behaviour characterised exactly"
  },
  {
   "property": "C28",
   "status": "partial",
   "theorems": [
    "Vio.C28_unit_partial",
    "Vio.C28_free_fall_nan"
   ],
   "note": "false as stated: a later zero accelerometer sample gives NaN; the partial theorem adds that later samples are non-zero"
  },
  {
   "property": "C29",
   "status": "partial",
   "theorems": [
    "Vio.C29_parallel_start_nan",
    "Vio.C29_level_start_stored",
    "Vio.C29_off_axis_partial"
   ],
   "note": "false: every parallel start is accepted and stores NaN; off the axis it is a finite unit quaternion"
  },
  {
   "property": "C30",
   "status": "partial",
   "theorems": [
    "Vio.C30_never_aligned",
    "Vio.C30_alignment_partial"
   ],
   "note": "false for every start off the gravity axis; the partial theorem bounds the misalignment by theta^3/12"
  },
  {
   "property": "C31",
   "status": "partial",
   "theorems": [
    "Vio.C31_opposite_directions",
    "Vio.C31_agree_partial"
   ],
   "note": "False of the code: the attitude estimator applies the inverse rotation of the propagator; they agree exactly when there is no rotation."
  },
  {
   "property": "C32",
   "status": "proved",
   "theorems": [
    "Vio.C32_unit",
    "Vio.C32_no_division_by_zero",
    "Vio.C32_finite"
   ],
   "note": "all histories of samples, resets, repropagations and corrections with unit attitude; with a NaN value nothing becomes NaN"
  },
  {
   "property": "C33",
   "status": "proved",
   "theorems": [
    "Vio.C33_stationary",
    "Vio.C33_at_rest_from_empty"
   ],
   "note": "the position moves on with the constant velocity, so it is unchanged exactly for zero velocity"
  },
  {
   "property": "C34",
   "status": "proved",
   "theorems": [
    "Vio.C34_joint_psd",
    "Vio.C34_from_start"
   ],
   "note": "all histories; the corrections put in by the filter update must be PSD, which is C44 / C75"
  },
  {
   "property": "C35",
   "status": "proved",
   "theorems": [
    "Vio.C35_F_history_free",
    "Vio.C35_G_history_free",
    "Vio.C35_same_after_any_two"
   ],
   "note": ""
  },
  {
   "property": "C36",
   "status": "proved",
   "theorems": [
    "Vio.C36_equals_live",
    "Vio.C36_samples_kept",
    "Vio.C36_frame",
    "Vio.C36_idempotent",
    "Vio.C36_fixed_when_unchanged"
   ],
   "note": ""
  },
  {
   "property": "C37",
   "status": "proved",
   "theorems": [
    "Vio.C37_reset",
    "Vio.C37_filter"
   ],
   "note": ""
  },
  {
   "property": "C38",
   "status": "proved",
   "theorems": [
    "Vio.C38_first_sample",
    "Vio.C38_init_ignored"
   ],
   "note": ""
  },
  {
   "property": "C39",
   "status": "proved",
   "theorems": [
    "Vio.C39_unpack_pack",
    "Vio.C39_pack_unpack"
   ],
   "note": ""
  },
  {
   "property": "C40",
   "status": "proved",
   "theorems": [
    "Vio.Update.C40_within",
    "Vio.Update.C40_overfull",
    "Vio.Update.C40_never_newest",
    "Vio.Update.C40_defined",
    "Vio.Update.C40_two_frames",
    "Vio.Update.C40_zero_size_undefined"
   ],
   "note": "distinct frame addresses; also: a window size of zero is undefined behaviour"
  },
  {
   "property": "C41",
   "status": "proved",
   "theorems": [
    "Vio.Update.C41_assembly",
    "Vio.Update.C41_symmetric"
   ],
   "note": ""
  },
  {
   "property": "C42",
   "status": "proved",
   "theorems": [
    "Vio.Update.C42_entries",
    "Vio.Update.C42_expand"
   ],
   "note": ""
  },
  {
   "property": "C43",
   "status": "proved",
   "theorems": [
    "Vio.Update.C43_none",
    "Vio.Update.C43_reduce",
    "Vio.Update.C43_window",
    "Vio.Update.C43_blocks"
   ],
   "note": ""
  },
  {
   "property": "C44",
   "status": "proved",
   "theorems": [
    "Vio.Update.C44_kalman"
   ],
   "note": "for every eigen decomposition that meets the specification of the library; such decompositions exist (exists_goodExt)"
  },
  {
   "property": "C45",
   "status": "proved",
   "theorems": [
    "Vio.Update.C45_generalised_inverse",
    "Vio.Update.C45_inverse"
   ],
   "note": ""
  },
  {
   "property": "C46",
   "status": "proved",
   "theorems": [
    "Vio.Update.C46_projection",
    "Vio.Update.C46_landmark_removed",
    "Vio.Update.C46_noise_white"
   ],
   "note": ""
  },
  {
   "property": "C47",
   "status": "proved",
   "theorems": [
    "Vio.Update.C47_compression"
   ],
   "note": "every noise level and every QR and eigen decomposition that meets the library specification"
  },
  {
   "property": "C48",
   "status": "proved",
   "theorems": [
    "Vio.Update.C48_blocks",
    "Vio.Update.C48_rows"
   ],
   "note": ""
  },
  {
   "property": "C49",
   "status": "proved",
   "theorems": [
    "Vio.Update.C49_correction"
   ],
   "note": ""
  },
  {
   "property": "C50",
   "status": "proved",
   "theorems": [
    "Vio.Update.C50_selection"
   ],
   "note": ""
  },
  {
   "property": "C51",
   "status": "proved",
   "theorems": [
    "Vio.Update.C51_feature",
    "Vio.Update.C51_stack",
    "Vio.Update.C51_selected"
   ],
   "note": ""
  },
  {
   "property": "C52",
   "status": "proved",
   "theorems": [
    "Vio.Update.C52_sizes"
   ],
   "note": ""
  },
  {
   "property": "C53",
   "status": "partial",
   "theorems": [
    "Vio.Triang.C53_few_views",
    "Vio.Triang.C53_defined",
    "Vio.Triang.C53_depth_partial",
    "Vio.Triang.C53_success_iff",
    "Vio.Triang.C53_nan_accepted"
   ],
   "note": "holds without NaN for any SVD result; with NaN it is false of the code: an all-NaN point is accepted"
  },
  {
   "property": "C54",
   "status": "partial",
   "theorems": [
    "Vio.Triang.C54_exact_partial",
    "Vio.Triang.C54_exact_rank_partial",
    "Vio.Triang.C54_two_rays_partial",
    "Vio.Triang.C54_far_point_rejected",
    "Vio.Triang.C54_far_witness"
   ],
   "note": "false of the code beyond 1+|p|^2 > 1e12; otherwise proved for every decomposition that meets the SVD specification"
  },
  {
   "property": "C55",
   "status": "partial",
   "theorems": [
    "Vio.Triang.C55_iterations",
    "Vio.Triang.C55_cost",
    "Vio.Triang.C55_cost_partial",
    "Vio.Triang.C55_zero_z",
    "Vio.Triang.C55_zero_z_witness",
    "Vio.Triang.C55_damping",
    "Vio.Triang.C55_defined"
   ],
   "note": "false of the code for a start point with zero world z (NaN is returned as success); otherwise proved, NaN included, any linear solver"
  },
  {
   "property": "C56",
   "status": "proved",
   "theorems": [
    "Vio.Triang.C56_jacobian",
    "Vio.Triang.C56_residual"
   ],
   "note": ""
  },
  {
   "property": "C57",
   "status": "partial",
   "theorems": [
    "Vio.Pnp.C57_rejected",
    "Vio.Pnp.C57_accepted",
    "Vio.Pnp.C57_false_iff",
    "Vio.Pnp.C57_unit_partial",
    "Vio.Pnp.C57_zero_quaternion"
   ],
   "note": "only the zero start quaternion breaks the unit norm"
  },
  {
   "property": "C58",
   "status": "proved",
   "theorems": [
    "Vio.Pnp.C58_fixed_point"
   ],
   "note": "unit start quaternion; linear solver that maps zero to zero"
  },
  {
   "property": "C59",
   "status": "proved",
   "theorems": [
    "Vio.Pnp.C59_jacobian"
   ],
   "note": ""
  },
  {
   "property": "C60",
   "status": "partial",
   "theorems": [
    "Vio.Pnp.C60_terminates_partial",
    "Vio.Pnp.C60_diverges"
   ],
   "note": "false of the code for one or two points: it never returns; proved for three and more"
  },
  {
   "property": "C61",
   "status": "partial",
   "theorems": [
    "Vio.Pnp.C61_worse_model_returned",
    "Vio.Pnp.w_solver",
    "Vio.Pnp.C61_returns_newest",
    "Vio.Pnp.C61_early_stop_partial"
   ],
   "note": "false of the code: the model tried last is returned; the best one only when the run stops early"
  },
  {
   "property": "C62",
   "status": "partial",
   "theorems": [
    "Vio.Pnp.C62_flags",
    "Vio.Pnp.C62_call",
    "Vio.Pnp.C62_exact_partial",
    "Vio.Pnp.C62_stale_flag",
    "Vio.Pnp.C62_nan_inlier"
   ],
   "note": "false of the code for a reused vector and for NaN"
  },
  {
   "property": "C63",
   "status": "partial",
   "theorems": [
    "Vio.Pnp.C63_cauchy",
    "Vio.Pnp.C63_huber_partial",
    "Vio.Pnp.C63_huber_negative"
   ],
   "note": "Cauchy proved for all parameters; Huber is negative for some parameters above four"
  },
  {
   "property": "C64",
   "status": "proved",
   "theorems": [
    "Vio.Conf.C64_missing",
    "Vio.Conf.C64_exact"
   ],
   "note": ""
  },
  {
   "property": "C65",
   "status": "partial",
   "theorems": [
    "Vio.Conf.C65_too_many_rows",
    "Vio.Conf.C65_stale_value",
    "Vio.Conf.C65_short_partial",
    "Vio.Conf.C65_memory"
   ],
   "note": "False of the code: a blank or short file leaves the value of the previously read file in the static matrix and it is taken as this parameter (C65_stale_value); what holds is that surplus rows are an Eigen assertion (C65_too_many_rows) and that entries read from the file are those of the file and all others those left by the previous file (C65_short_partial, C65_memory)."
  },
  {
   "property": "C66",
   "status": "proved",
   "theorems": [
    "Vio.Conf.C66_read",
    "Vio.Conf.C66_defaults"
   ],
   "note": ""
  },
  {
   "property": "C67",
   "status": "proved",
   "theorems": [
    "Vio.Backend.C67_config",
    "Vio.Backend.C67_no_ub"
   ],
   "note": ""
  },
  {
   "property": "C68",
   "status": "partial",
   "theorems": [
    "Vio.Backend.C68_no_ub_partial",
    "Vio.Backend.C68_tracker_partial",
    "Vio.Backend.C68_ieee_partial",
    "Vio.Backend.C68_configured",
    "Vio.Backend.C68_freed_read"
   ],
   "note": "Proved: no container, null-pointer or matrix-size error in any well-formed history, in terms of the input alone (C68_tracker_partial). Missing, because false of the code: PopOneMessage reads its message through a reference to a queue slot that it has already popped (C68_freed_read, a well-formed history); RunOnce is modelled as if the slot still held its value. C68_ieee_partial is the same for IEEE single precision scalars, infinities and NaN included, with finite double precision times. Also times are not NaN and fewer than 2^32 - 1 features messages are pushed."
  },
  {
   "property": "C69",
   "status": "partial",
   "theorems": [
    "Vio.Backend.C69_unknown_camera",
    "Vio.Backend.C69_empty_observation",
    "Vio.Backend.C69_repeated_id",
    "Vio.Backend.C69_refound_track",
    "Vio.Backend.C69_uneven_partial"
   ],
   "note": "False of the code: each of the four kinds of malformed message has a history that ends in undefined behaviour (the first four theorems). What holds: messages whose ids and observations differ in number are dropped on arrival and change nothing (C69_uneven_partial)."
  },
  {
   "property": "C70",
   "status": "proved",
   "theorems": [
    "Vio.Backend.C70_bound",
    "Vio.Backend.C70_one_frame"
   ],
   "note": "also when Reset is called"
  },
  {
   "property": "C71",
   "status": "proved",
   "theorems": [
    "Vio.Backend.C71_becomes_initialised",
    "Vio.Backend.C71_goes_back",
    "Vio.Backend.C71_imu_only",
    "Vio.Backend.C71_other_calls"
   ],
   "note": ""
  },
  {
   "property": "C72",
   "status": "proved",
   "theorems": [
    "Vio.Backend.C72_propagate",
    "Vio.Backend.C72_update",
    "Vio.Backend.C72_no_change"
   ],
   "note": ""
  },
  {
   "property": "C73",
   "status": "proved",
   "theorems": [
    "Vio.Backend.C73_result"
   ],
   "note": ""
  },
  {
   "property": "C74",
   "status": "proved",
   "theorems": [
    "Vio.Backend.C74_one_message",
    "Vio.Backend.C74_all_consumed"
   ],
   "note": ""
  },
  {
   "property": "C75",
   "status": "proved",
   "theorems": [
    "Vio.Backend.C75_covariance",
    "Vio.Backend.C75_tracker"
   ],
   "note": "exact arithmetic, every defined history, Reset and malformed messages included; for every QR and eigen decomposition that meets the specification of the library. C75_tracker adds that well-formed histories are defined."
  },
  {
   "property": "C76",
   "status": "partial",
   "theorems": [
    "Vio.Backend.C76_stuck",
    "Vio.Backend.C76_not_fresh",
    "Vio.Backend.C76_reaches_stuck",
    "Vio.Backend.C76_reset_partial"
   ],
   "note": "False of the code: Reset keeps the queued states, whose covariance has the size of the old window, so every later initialisation is undone by the update that follows it (C76_stuck, reached in C76_reaches_stuck; a fresh backend succeeds on the same data, C76_not_fresh). What holds: Reset changes the status and nothing else (C76_reset_partial)."
  },
  {
   "property": "C77",
   "status": "partial",
   "theorems": [
    "Vio.Backend.C77_twice",
    "Vio.Backend.C77_once_partial",
    "Vio.Backend.C77_served_partial"
   ],
   "note": "False of the code: at a re-initialisation after an update the replayed attitudes have had their bias removed by the attitude estimator and the propagator removes it again (C77_twice). What holds: from a fresh backend without restart every queued state carries the raw readings of a pushed sample, so the bias that the propagator subtracts is removed once (C77_once_partial). C77_served_partial states it in terms of the input: samples in time order, each image pushed after a sample at most the IMU period older."
  },
  {
   "property": "C78",
   "status": "proved",
   "theorems": [
    "Vio.Backend.C78_initialise"
   ],
   "note": "the seeded queue is described for a queue that was empty before; see C76 for the other case"
  },
  {
   "property": "C79",
   "status": "proved",
   "theorems": [
    "Vio.Backend.C79_published_time",
    "Vio.Backend.C79_published_time_invariant",
    "Vio.Backend.C79_ieee"
   ],
   "note": "also when Reset is called; times are not NaN. C79_ieee: for the types of the program, single precision scalars with infinities and NaN, double precision times"
  },
  {
   "property": "C80",
   "status": "proved",
   "theorems": [
    "Vio.C80_skew",
    "Vio.C80_skew_transpose",
    "Vio.C80_qleft",
    "Vio.C80_qright",
    "Vio.C80_transform_acts",
    "Vio.C80_transform_compose",
    "Vio.C80_transform_inverse",
    "Vio.C80_inverse",
    "Vio.C80_normalized"
   ],
   "note": ""
  },
  {
   "property": "C81",
   "status": "proved",
   "theorems": [
    "Vio.C81_quaternion_angle",
    "Vio.C81_quaternion",
    "Vio.C81_quaternion_defined",
    "Vio.C81_vector",
    "Vio.C81_vector_defined_iff"
   ],
   "note": ""
  },
  {
   "property": "C82",
   "status": "proved",
   "theorems": [
    "Vio.Backend.C82_dead_reckoning",
    "Vio.Backend.C82_sample_added"
   ],
   "note": "any scalar type; the step of dead reckoning is defined in Verif/Spec/Reckon"
  },
  {
   "property": "C83",
   "status": "proved",
   "theorems": [
    "Vio.Update.C83_best_gain",
    "Vio.Update.C83_map",
    "Vio.Update.C83_cutoff"
   ],
   "note": "for every eigen decomposition that meets the specification of the library; C83_cutoff shows that the bound on the noise is needed"
  },
  {
   "property": "C84",
   "status": "proved",
   "theorems": [
    "Vio.Backend.C84_scores",
    "Vio.Update.C84_selected",
    "Vio.Backend.C84_collision"
   ],
   "note": "exact arithmetic; C84_collision shows that different scores are needed"
  },
  {
   "property": "C85",
   "status": "proved",
   "theorems": [
    "Vio.Update.C85_update",
    "Vio.Update.C85_projection",
    "Vio.Update.C85_needs_rank"
   ],
   "note": "exact arithmetic, for one update; the singular vectors used by triangulation are the same in both libraries. C85_needs_rank shows that the rank is needed."
  },
  {
   "property": "C86",
   "status": "proved",
   "theorems": [
    "Vio.C86_memory"
   ],
   "note": "any scalar type; the eigenvalue solver reads only the entries of its matrix"
  },
  {
   "property": "C87",
   "status": "proved",
   "theorems": [
    "Vio.PropQueue.C87_uniform",
    "Vio.PropQueue.C87_from_empty"
   ],
   "note": "exact arithmetic"
  },
  {
   "property": "C88",
   "status": "proved",
   "theorems": [
    "Vio.C88_queue",
    "Vio.C88_from_start",
    "Vio.Reckon.C88_along"
   ],
   "note": "exact arithmetic; gravity must be fixed by the rotation"
  },
  {
   "property": "C89",
   "status": "proved",
   "theorems": [
    "Vio.C89_first_order",
    "Vio.C89_chart",
    "Vio.C89_not_exact"
   ],
   "note": "exact arithmetic; F and G hold no stale entries in every reachable queue (clean_run). C89_not_exact shows that F is not the derivative itself."
  },
  {
   "property": "C90",
   "status": "proved",
   "theorems": [
    "Vio.Triang.C90_weight_small",
    "Vio.Triang.C90_weight_large",
    "Vio.Triang.C90_influence",
    "Vio.Triang.C90_upweighted",
    "Vio.Triang.C90_weight_bound",
    "Vio.Triang.C90_normal",
    "Vio.Triang.C90_posdef",
    "Vio.Triang.C90_gradient",
    "Vio.Triang.C90_descent",
    "Vio.Triang.C90_descent_plain",
    "Vio.Triang.C90_cost",
    "Vio.Triang.C90_inner",
    "Vio.Triang.C90_body",
    "Vio.Triang.C90_exact_start",
    "Vio.Triang.C90_robust_rejected"
   ],
   "note": "exact arithmetic, except C90_inner and C90_body, which hold for any scalar type and solver. C90_upweighted and C90_robust_rejected are findings."
  },
  {
   "property": "C91",
   "status": "proved",
   "theorems": [
    "Vio.Update.C91_exact_is_kept"
   ],
   "note": "exact arithmetic; the singular vectors of triangulation meet the specification of the library. The concrete case is the one of C92, whose update it is applied to."
  },
  {
   "property": "C92",
   "status": "proved",
   "theorems": [
    "Vio.Backend.C92_noise_free",
    "Vio.Backend.C92_reachable"
   ],
   "note": "exact arithmetic; each image shows the world at the time of the sample with which the filter aligns it (AlignedAt). The SVD specification is satisfiable: Spec.exists_svd."
  },
  {
   "property": "C93",
   "status": "proved",
   "theorems": [
    "Vio.Utility.C93_euler",
    "Vio.Utility.C93_degrees",
    "Vio.Utility.C93_not_degrees",
    "Vio.Utility.C93_range",
    "Vio.Utility.C93_gimbal_lock"
   ],
   "note": "Exact arithmetic. C93_gimbal_lock is the exception that the property names."
  },
  {
   "property": "C94",
   "status": "proved",
   "theorems": [
    "Vio.C94_matrix",
    "Vio.C94_inverse",
    "Vio.C94_cameras"
   ],
   "note": "exact arithmetic; matrices that are not rotations are not covered"
  },
  {
   "property": "C95",
   "status": "proved",
   "theorems": [
    "Vio.Backend.C95_camera_pose",
    "Vio.Backend.C95_success_iff",
    "Vio.Backend.C95_standing"
   ],
   "note": "exact arithmetic; the singular vectors of triangulation meet the specification of the library and the solver of the normal equation maps 0 to 0. Concrete case: exRest, ten features seen by two cameras."
  },
  {
   "property": "C96",
   "status": "proved",
   "theorems": [
    "Vio.Demo.C96_messages",
    "Vio.Demo.C96_program",
    "Vio.Demo.C96_short_line"
   ],
   "note": "any scalar type; lines are read by the same scanner as the configuration. Printing is not modelled."
  },
  {
   "property": "C97",
   "status": "partial",
   "theorems": [
    "Vio.Demo.C97_defined_partial",
    "Vio.Demo.C97_main_partial",
    "Vio.Demo.C97_short_line",
    "Vio.Demo.C97_one_camera"
   ],
   "note": "complete files, two cameras. Missing, because false: short lines (C97_short_line), one camera (C97_one_camera), and the read through a removed queue slot (C68_freed_read)."
  },
  {
   "property": "C98",
   "status": "proved",
   "theorems": [
    "Vio.Demo.C98_rows",
    "Vio.Demo.C98_file"
   ],
   "note": "any scalar type; times are not NaN"
  },
  {
   "property": "C99",
   "status": "proved",
   "theorems": [
    "Vio.Demo.C99_drained",
    "Vio.Demo.C99_left_over"
   ],
   "note": "any time type; C99_left_over shows a run that leaves a sample behind"
  },
  {
   "property": "C100",
   "status": "proved",
   "theorems": [
    "Vio.Demo.C100_rotation",
    "Vio.Demo.C100_shipped",
    "Vio.Demo.C100_texts",
    "Vio.Demo.C100_sight"
   ],
   "note": "exact arithmetic. The quaternions of the shipped camera poses have unit length only up to the six printed digits."
  },
  {
   "property": "C101",
   "status": "proved",
   "theorems": [
    "Vio.C101_update",
    "Vio.Backend.C101_extrinsics",
    "Vio.Backend.C101_first_frame",
    "Vio.Backend.C101_origin"
   ],
   "note": "exact arithmetic; C101_extrinsics for every defined history of a configured backend with unit camera rotations, C101_first_frame for histories without Reset whose messages meet the conditions of C68 and windows of at least two frames. Concrete case: the filter of C92."
  },
  {
   "property": "C102",
   "status": "proved",
   "theorems": [
    "Vio.Update.C102_predict",
    "Vio.Update.C102_observation",
    "Vio.Update.C102_feature",
    "Vio.Update.C102_measure",
    "Vio.Update.C102_kalman",
    "Vio.Update.C102_solve"
   ],
   "note": "exact arithmetic, solvers meeting their contract; turns need frames with unit quaternions, shifts and stretches do not. worldMove_moves: every window has every move."
  },
  {
   "property": "C103",
   "status": "proved",
   "theorems": [
    "Vio.Tests.C103_analytic",
    "Vio.Tests.C103_iterative",
    "Vio.Tests.C103_iterative_blind",
    "Vio.Tests.C103_rotation"
   ],
   "note": "C103_iterative for any scalar type and solver; the others with exact arithmetic and the real sine and cosine. That the second test compares nothing is a finding."
  },
  {
   "property": "C104",
   "status": "proved",
   "theorems": [
    "Vio.Tests.C104_data",
    "Vio.Tests.C104_ends",
    "Vio.Tests.C104_score",
    "Vio.Tests.C104_found",
    "Vio.Tests.C104_bias",
    "Vio.Tests.C104_leaves"
   ],
   "note": "C104_data and C104_ends for any scalar type, the others with exact arithmetic. C104_leaves needs a solver that answers zero only to zero."
  },
  {
   "property": "C105",
   "status": "proved",
   "theorems": [
    "Vio.Backend.C105_heading",
    "Vio.Backend.C105_library",
    "Vio.Backend.C105_reached"
   ],
   "note": "exact arithmetic. The turned run uses library results turned in the same way (ExtTurned); C105_library: for every library that reads only the matrix it is given there is such a partner, and it keeps the promises of the library (Ext.Correct). Its orthogonal factor zeroes the rows below the square part, which is all the filter relies on, but need not give a triangular matrix. Concrete case: the filter of C92 and a quarter turn."
  },
  {
   "property": "C106",
   "status": "proved",
   "theorems": [
    "Vio.Backend.C106_unit",
    "Vio.Backend.C106_first_sample"
   ],
   "note": "exact arithmetic; unit camera rotations, libraries that read only the matrix they are given"
  },
  {
   "property": "C107",
   "status": "partial",
   "theorems": [
    "Vio.Triang.C107_origin_matters",
    "Vio.Triang.C107_exact_partial"
   ],
   "note": "the result is not displaced along with the world in general (witness proved); it is for exact observations from two rays that are not parallel"
  },
  {
   "property": "C108",
   "status": "proved",
   "theorems": [
    "Vio.C108_filter",
    "Vio.C108_from_start",
    "Vio.C108_loader"
   ],
   "note": "every scalar type; times whose differences and comparisons do not change under the shift (reals, rationals); doubles round differences near large epochs, so there it holds only as far as the shift is exact"
  },
  {
   "property": "C109",
   "status": "proved",
   "theorems": [
    "Vio.C109_attitudes",
    "Vio.C109_step",
    "Vio.C109_overflow"
   ],
   "note": "rounded arithmetic (Arith; fp32 and fp64 are instances), library functions arbitrary, sign of zero left out. C109_overflow is a finding: a gyroscope reading of 2^100 makes the attitude zero, and it stays zero."
  },
  {
   "property": "C110",
   "status": "proved",
   "theorems": [
    "Vio.C110_for_ever",
    "Vio.C110_sample",
    "Vio.C110_first",
    "Vio.C110_published",
    "Vio.C110_level_start"
   ],
   "note": "any floating point format (Arith); library functions arbitrary, sign of zero left out. A finding: the first attitude divides by the length of a cross product that is zero when the device is exactly level."
  },
  {
   "property": "C111",
   "status": "partial",
   "theorems": [
    "Vio.Backend.C111_kept_partial",
    "Vio.Backend.C111_never_cleaned",
    "Vio.Backend.C111_unbounded"
   ],
   "note": "False of the code: cleaning is only done when the window has two frames, and a failed initialisation leaves one. C111_never_cleaned: while images show fewer than ten features no attitude is ever removed, in any history; C111_unbounded: a run with n images and n attitudes for every n. C111_kept_partial: what holds when two frames remain."
  },
  {
   "property": "C112",
   "status": "proved",
   "theorems": [
    "Vio.Backend.C112_sizes"
   ],
   "note": "For every history, by the same invariant as C68. Attitude samples are not included, see C111."
  },
  {
   "property": "C113",
   "status": "proved",
   "theorems": [
    "Vio.Backend.C113_order",
    "Vio.Backend.C113_limit",
    "Vio.runH_id"
   ],
   "note": "Exact arithmetic. C113_limit: where more features are triangulated than may be used, the order decides which are used. runH_id ties the model with reorderings to the model. The order of the cameras inside an observation is C121."
  },
  {
   "property": "C114",
   "status": "proved",
   "theorems": [
    "Vio.C114_copy",
    "Vio.C114_null",
    "Vio.C114_twice",
    "Vio.C114_two_loaders",
    "Vio.C114_packet"
   ],
   "note": "C114_copy: same values and same moments of undefined behaviour for a careful caller. The other theorems are concrete histories of a caller that is not careful; the second push of one object is accepted because its time was moved by the first one."
  },
  {
   "property": "C115",
   "status": "proved",
   "theorems": [
    "Vio.C115_tiles",
    "Vio.C115_sorted",
    "Vio.C115_time"
   ],
   "note": "C115_tiles for all time types with the laws of IEEE comparison; C115_time in exact time arithmetic."
  },
  {
   "property": "C116",
   "status": "proved",
   "theorems": [
    "Vio.C116_derivative",
    "Vio.C116_normal",
    "Vio.C116_solvable",
    "Vio.C116_minimum",
    "Vio.C116_descent",
    "Vio.C116_stationary",
    "Vio.C116_step",
    "Vio.C116_stop"
   ],
   "note": "Exact arithmetic; C116_step for a library that solves solvable equations; C116_stop for every scalar type and library."
  },
  {
   "property": "C117",
   "status": "proved",
   "theorems": [
    "Vio.C117_filter",
    "Vio.C117_from_start",
    "Vio.C117_reuse",
    "Vio.Backend.C117_any_order",
    "Vio.Backend.C117_collision"
   ],
   "note": "C117_filter, C117_from_start and C117_reuse for every scalar type; C117_any_order joins C113 in exact arithmetic, since other ids mean another hash order."
  },
  {
   "property": "C118",
   "status": "proved",
   "theorems": [
    "Vio.Backend.C118_no_ub",
    "Vio.Backend.C118_tracker",
    "Vio.Backend.C118_ieee",
    "Vio.Backend.C118_state_ignored",
    "Vio.Backend.C118_stale"
   ],
   "note": "Same hypotheses as C68 without the exclusion of Reset; C118_tracker is in terms of the input alone, C118_ieee for IEEE arithmetic with NaN. C118_stale: a concrete history in which the filter runs on from the old state after Reset and publishes another position than a fresh start."
  },
  {
   "property": "C119",
   "status": "proved",
   "theorems": [
    "Vio.Backend.C119_falls_back_iff",
    "Vio.Backend.C119_stays",
    "Vio.Backend.C119_running",
    "Vio.Backend.C119_gap",
    "Vio.Backend.C119_ieee"
   ],
   "note": "C119_ieee is C119_running for single precision scalars with infinities and NaN and double precision times. The others: every scalar type; times with the laws of TimeLaws (exact or rounded, not NaN). C119_running is in terms of the input alone. RunOnceTest, which throws messages away, and Reset are left out. C119_gap: a concrete history in which an image without its sample ends the run."
  },
  {
   "property": "C120",
   "status": "proved",
   "theorems": [
    "Vio.Backend.C120_second_image",
    "Vio.Backend.C120_runs_on"
   ],
   "note": "Exact arithmetic; the decomposition used by the triangulation meets its specification, the other library results are arbitrary. C120_runs_on joins C119. A concrete history meets the hypotheses."
  },
  {
   "property": "C121",
   "status": "proved",
   "theorems": [
    "Vio.Backend.C121_cameras",
    "Vio.Backend.C121_all_maps",
    "Vio.rank_of_rays",
    "Vio.exists_svdOfColumns"
   ],
   "note": "Exact arithmetic. The condition on the landmarks is RankedRun; rank_of_rays gives it from two rays that are not parallel (C85_needs_rank: without it an update depends on the choice of the decomposition). exists_svdOfColumns: a library that meets all specifications and the condition exists. C121_all_maps puts it together with C113 and C117: camera order, map order, feature ids, scores and memory at once. The concrete history handles one image, the condition on the landmarks is met in a separate concrete case."
  },
  {
   "property": "C122",
   "status": "proved",
   "theorems": [
    "Vio.MProc.C122_alone",
    "Vio.MProc.C122_safe",
    "Vio.MProc.C122_one",
    "Vio.MProc.C122_config",
    "Vio.MProc.C122_lost",
    "Vio.MProc.C122_lost_image",
    "Vio.MProc.C122_gravity"
   ],
   "note": "C122_alone, C122_safe, C122_one, C122_config, C122_lost and C122_lost_image in any arithmetic; the only law used is that -1 is not NaN. C122_gravity is a concrete history over the reals. Calls do not overlap in time."
  },
  {
   "property": "C123",
   "status": "partial",
   "theorems": [
    "Vio.C123_away",
    "Vio.C123_diverges",
    "Vio.C123_lost",
    "Vio.Backend.C123_run",
    "Vio.C123_aligned_partial"
   ],
   "note": "False of the code: the correction has the wrong sign, each sample turns the attitude further away from gravity until the error exceeds a right angle (C123_away, C123_diverges; C123_lost bounds the number of samples). Only an error of exactly zero is kept (C123_aligned_partial), and C30 says that no start off the gravity axis has it. Exact arithmetic."
  },
  {
   "property": "C124",
   "status": "partial",
   "theorems": [
    "Vio.C124_growth",
    "Vio.C124_rate_dependent",
    "Vio.C124_vanishes",
    "Vio.Backend.C124_configured",
    "Vio.Backend.C124_shipped",
    "Vio.C124_constant_period_partial"
   ],
   "note": "False of the code: the variance grows by the configured figure itself, not squared, times the sum of the squared sample periods (C124_growth), so it depends on the rate and vanishes as the rate grows. C124_configured and C124_shipped: the same for what the configuration file says. C124_constant_period_partial: the part that holds, at one fixed period the growth is proportional to the span."
  },
  {
   "property": "C125",
   "status": "partial",
   "theorems": [
    "Vio.Update.C125_all_rows",
    "Vio.Update.C125_oldest_stays",
    "Vio.Update.C125_reused",
    "Vio.Update.C125_repeated",
    "Vio.Update.C125_as_if_better",
    "Vio.Update.C125_overconfident",
    "Vio.Update.C125_once_per_update_partial"
   ],
   "note": "False of the code: an update takes all observations of a selected feature in the window, not only those of the newest image or of features that end (C125_all_rows), and images stay in the window (C125_oldest_stays); C125_reused is a concrete history. C125_repeated and C125_as_if_better: k uses of one measurement give the covariance of one use with k times less noise variance. What holds: no observation is used twice within one update."
  },
  {
   "property": "C126",
   "status": "proved",
   "theorems": [
    "Vio.C126_bounds",
    "Vio.C126_converges",
    "Vio.Conv.Flight.step"
   ],
   "note": "Exact arithmetic; Vec3.norm_toH: the distances are the lengths of the code, attitudes are compared as quaternions. Concrete case: a device on a circle."
  },
  {
   "property": "C127",
   "status": "proved",
   "theorems": [
    "Vio.C127_turn",
    "Vio.C127_short"
   ],
   "note": "Exact arithmetic. The increment is built with the small angle formula 1 + x/2 and normalised, so large steps are cut: a step of four radians turns by 2 atan 2."
  },
  {
   "property": "C128",
   "status": "proved",
   "theorems": [
    "Vio.C128_gain",
    "Vio.C128_linear",
    "Vio.C128_unbounded"
   ],
   "note": "About the filter step on a stacked system; outliers are only looked for before, by the tests of the triangulation (C53)."
  },
  {
   "property": "C129",
   "status": "proved",
   "theorems": [
    "Vio.Backend.C129_published",
    "Vio.Drift.along_bounds"
   ],
   "note": "Exact arithmetic. C126 with imperfect samples, combined with C82. That the updated attitude is a unit quaternion is C106."
  },
  {
   "property": "C130",
   "status": "proved",
   "theorems": [
    "Vio.C130_sequential"
   ],
   "note": "Exact arithmetic. The Jacobian is the same in both organisations; the code would linearise the second block anew."
  },
  {
   "property": "C131",
   "status": "proved",
   "theorems": [
    "Vio.C131_scale"
   ],
   "note": "Exact arithmetic. Both noises above the cut-off of the inverse, see C128."
  },
  {
   "property": "C132",
   "status": "partial",
   "theorems": [
    "Vio.C132_feature",
    "Vio.C132_window_partial",
    "Vio.C132_refound",
    "Vio.C132_features",
    "Vio.C132_frames",
    "Vio.C132_packet",
    "Vio.C132_message",
    "Vio.C132_made",
    "Vio.C132_config",
    "Vio.C132_quiet_update",
    "Vio.Backend.C132_quiet"
   ],
   "note": "False for interrupted tracks: C132_refound prints an observation for a frame in which the tracker did not see the feature (as C18). C132_window_partial is for histories in which no lost track is reused. The rest holds as stated."
  },
  {
   "property": "C133",
   "status": "proved",
   "theorems": [
    "Vio.Backend.C133_unused",
    "Vio.Backend.C133_run",
    "Vio.Backend.C133_never_learned"
   ],
   "note": "Exact arithmetic. C133_unused from a fresh start, C133_run from any state with the invariants of a history. The whole history version of C102 for shifts. After the filter lost its state and started again both runs have the same covariance."
  },
  {
   "property": "C134",
   "status": "partial",
   "theorems": [
    "Vio.Update.C134_update_partial",
    "Vio.Update.C134_single_partial",
    "Vio.F32.C134_propagation",
    "Vio.F32.rnd_eq"
   ],
   "note": "Every update that used features leaves the covariance and its stored parts exactly symmetric, infinities and NaN included, in every arithmetic with idempotent rounding, from any state, symmetric or not. False of the propagation (C134_propagation): in single precision the first step from a zero covariance already gives an asymmetric one; the witness is evaluated in a computable arithmetic whose rounding is that of IEEE single precision on all normal numbers (F32.rnd_eq). The cross covariance of the stored parts is kept once, so it has nothing to be symmetric with."
  },
  {
   "property": "C135",
   "status": "partial",
   "theorems": [
    "Vio.Yaw.C135_partial",
    "Vio.Yaw.C135_meaning",
    "Vio.Yaw.C135_defect",
    "Vio.Yaw.C135_turning",
    "Vio.Yaw.C135_accelerating"
   ],
   "note": "C135_defect is the exact difference for every step; C135_partial: without rotation rate the property holds if and only if the velocity across gravity is unchanged. False of every step with a rotation about another axis than gravity (C135_turning) and of every step without rotation that changes the horizontal velocity (C135_accelerating). C135_meaning shows that the direction is the derivative of the error in the turned world. The measurement is blind to it at the current estimate (C102), so what F makes of it is taken for information."
  },
  {
   "property": "C136",
   "status": "proved",
   "theorems": [
    "Vio.Clock.C136_elapsed",
    "Vio.Clock.C136_queue",
    "Vio.Clock.C136_rounded_once",
    "Vio.Clock.C136_moves",
    "Vio.Clock.C136_other_order"
   ],
   "note": "IEEE double and single precision with rounding to nearest even, overflow included; times are finite doubles (Clock.isDouble_sub: what the loader stores is one). C136_queue: for the items of a queue in time order. The example at 1.6e9 s shows that converting first would give a step of zero."
  },
  {
   "property": "C137",
   "status": "partial",
   "theorems": [
    "Vio.Variance.C137_first_partial",
    "Vio.Variance.C137_negative",
    "Vio.Variance.C137_propagation"
   ],
   "note": "C137_first_partial: the first step from a zero covariance gives no negative variance in any arithmetic with idempotent rounding, infinities and NaN included. False of the update (C137_negative): with the measurement noise of the recorded runs a variance of 4.625 measured with coefficient 9.4375 comes out negative in single precision and the covariance test prints its error. The form (I - KH)P is exact-arithmetic only (C44); false of later propagation steps too (C137_propagation): from a positive semidefinite covariance that ties position and velocity, one step of 4 ms gives a negative variance."
  },
  {
   "property": "C138",
   "status": "proved",
   "theorems": [
    "Vio.Mixing.C138_interpolate",
    "Vio.Mixing.C138_histories",
    "Vio.Mixing.C138_bounded"
   ],
   "note": "Time stamps are doubles without overflow; samples are IEEE single precision with infinities and NaN."
  },
  {
   "property": "C139",
   "status": "partial",
   "theorems": [
    "Vio.Stall.C139_stalls",
    "Vio.Stall.C139_lost",
    "Vio.Stall.C139_lost_histories",
    "Vio.Stall.C139_partial",
    "Vio.Stall.C139_histories_partial"
   ],
   "note": "False of the code (C139_stalls): a kilometre from the origin a motion of 5 mm/s sampled at 200 Hz never changes the position, after any number of samples. The same for every motion whose way in a sample is at most 2^-27 of the distance from the origin (C139_lost), in every history. What holds: the position is the sum of the velocities up to 2^-21 times the bound of positions and velocities for each sample, for every queue of every history whose numbers are finite."
  },
  {
   "property": "C140",
   "status": "partial",
   "theorems": [
    "Vio.Timer.C140_set_back",
    "Vio.Timer.C140_sum",
    "Vio.Timer.C140_partial"
   ],
   "note": "False of the code when the system clock is set back (C140_set_back: a negative time). The sum holds for every clock in exact arithmetic (C140_sum); sign and accuracy hold in double and single precision when the clock is not set back (C140_partial)."
  }
 ]
}