#!/usr/bin/env python3
"""Writes MANIFEST.json.  One entry per property: (status, theorems, note)."""
import json, os
C = {}
def c(pid, status, thms, note=""):
    C[pid] = {"property": pid, "status": status, "theorems": ["Vio." + t for t in thms], "note": note}

c("C01", "proved", ["C01_constant_shift", "C01_stored_shift"], "All histories of a process with any number of loaders.")
c("C02", "proved", ["C02_imu_acceptance", "C02_features_acceptance"])
c("C03", "partial", ["C03_queue_can_be_unsorted", "C03_queues_sorted_partial"],
  "False of the code (acceptance compares with the previous push, not with the newest queued message); proved when pushed times increase.")
c("C04", "proved", ["C04_fifo"])
c("C05", "proved", ["C05_popOne_rule"])
c("C06", "partial", ["C06_drain_can_be_unsorted", "C06_drain_sorted_partial"],
  "False of the code when two images are closer than one IMU period; proved under the spacing assumption.")
c("C07", "proved", ["C07_packet_contract", "C07_failed_request", "C07_search_stops"])
c("C08", "proved", ["C08_interpolation_convex"])
c("C09", "partial", ["C09_clear_does_not_restart", "C09_clear_restarts_partial"],
  "False of the code (process-wide static time stamps survive Clear and are shared by instances); proved when the first pushes after Clear are newer.")
c("C10", "partial", ["C10_freed_read", "C10_live_storage_partial"],
  "False of the code; the partial theorem characterises exactly when the freed slot is read.")

c("C11", "proved", ["C11_consecutive_ids", "C11_first_id"], "All histories shorter than 2^32 calls.")
c("C12", "proved", ["C12_remove", "C12_remove_out_of_range"])
c("C13", "proved", ["C13_getFrame", "C13_getMaxFrameID"])
c("C14", "proved", ["C14_new_frame_pose", "C14_first_frame_pose"])
c("C15", "proved", ["C15_observeNum"], "Count as a uint32_t; all histories with arbitrary arguments, no undefined behaviour.")
c("C16", "proved", ["C16_refines_log", "C16_subnew_of_two_breaks"],
  "Second-newest marginalisation with at least three frames, newest with at least two, as the backend does; the second theorem shows the two-frame case would break.")
c("C17", "proved", ["C17_lifetime"], "Same histories as C16.")
c("C18", "partial", ["C18_refound_track_misplaced", "C18_lookup_partial"], "False of the code: concrete lost and re-found track. Holds without reuse of lost tracks.")
c("C19", "proved", ["C19_getNorm"])
c("C20", "proved", ["C20_mismatch", "C20_output"])
c("C21", "proved", ["C21_covisible", "C21_symmetric", "C21_addFeatures", "C21_links"])
c("C22", "proved", ["C22_keyframe", "C22_keyframe_defined"])
c("C23", "partial", ["C23_parallax_ignored", "C23_other_criteria_partial", "C23_parallax_sum"], "False of the code: the threshold never influences the decision.")

c("C24", "proved", ["C24_sorted", "C24_refused", "C24_refusal_no_change", "C24_accepted"], "all histories of samples, cleanings and bias changes; NaN-aware comparison laws only")
c("C25", "proved", ["C25_nearest", "C25_success_iff", "C25_empty"], "all time ordered queues of at least two items; any monotone rounded time subtraction")
c("C26", "partial", ["C26_single_newer_fails", "C26_single_partial"], "false as stated: a single item newer than the asked time is never found; the partial theorem gives the exact result")
c("C27", "proved", ["C27_clean", "C27_ub_iff", "C27_filter"], "undefined behaviour characterised exactly")
c("C28", "partial", ["C28_unit_partial", "C28_free_fall_nan"], "false as stated: a later zero accelerometer sample gives NaN; the partial theorem adds that later samples are non-zero")
c("C29", "partial", ["C29_parallel_start_nan", "C29_level_start_stored", "C29_off_axis_partial"], "false: every parallel start is accepted and stores NaN; off the axis it is a finite unit quaternion")
c("C30", "partial", ["C30_never_aligned", "C30_alignment_partial"], "false for every start off the gravity axis; the partial theorem bounds the misalignment by theta^3/12")

c("C31", "partial", ["C31_opposite_directions", "C31_agree_partial"], "False of the code: the attitude estimator applies the inverse rotation of the propagator; they agree exactly when there is no rotation.")
c("C32", "proved", ["C32_unit", "C32_no_division_by_zero", "C32_finite"], "all histories of samples, resets, repropagations and corrections with unit attitude; with a NaN value nothing becomes NaN")
c("C33", "proved", ["C33_stationary", "C33_at_rest_from_empty"], "the position moves on with the constant velocity, so it is unchanged exactly for zero velocity")
c("C34", "proved", ["C34_joint_psd", "C34_from_start"], "all histories; the corrections put in by the filter update must be PSD, which is C44 / C75")
c("C35", "proved", ["C35_F_history_free", "C35_G_history_free", "C35_same_after_any_two"])
c("C36", "proved", ["C36_equals_live", "C36_samples_kept", "C36_frame", "C36_idempotent", "C36_fixed_when_unchanged"])
c("C37", "proved", ["C37_reset", "C37_filter"])
c("C38", "proved", ["C38_first_sample", "C38_init_ignored"])
c("C39", "proved", ["C39_unpack_pack", "C39_pack_unpack"])
c("C80", "proved", ["C80_skew", "C80_skew_transpose", "C80_qleft", "C80_qright", "C80_transform_acts", "C80_transform_compose", "C80_transform_inverse", "C80_inverse", "C80_normalized"])
c("C81", "proved", ["C81_quaternion_angle", "C81_quaternion", "C81_quaternion_defined", "C81_vector", "C81_vector_defined_iff"])
c("C53", "partial", ["Triang.C53_few_views", "Triang.C53_defined", "Triang.C53_depth_partial", "Triang.C53_success_iff", "Triang.C53_nan_accepted"], "holds without NaN for any SVD result; with NaN it is false of the code: an all-NaN point is accepted")
c("C54", "partial", ["Triang.C54_exact_partial", "Triang.C54_exact_rank_partial", "Triang.C54_two_rays_partial", "Triang.C54_far_point_rejected", "Triang.C54_far_witness"], "false of the code beyond 1+|p|^2 > 1e12; otherwise proved for every decomposition that meets the SVD specification")
c("C55", "partial", ["Triang.C55_iterations", "Triang.C55_cost", "Triang.C55_cost_partial", "Triang.C55_zero_z", "Triang.C55_zero_z_witness", "Triang.C55_damping", "Triang.C55_defined"], "false of the code for a start point with zero world z (NaN is returned as success); otherwise proved, NaN included, any linear solver")
c("C56", "proved", ["Triang.C56_jacobian", "Triang.C56_residual"])
c("C57", "partial", ["Pnp.C57_rejected", "Pnp.C57_accepted", "Pnp.C57_false_iff", "Pnp.C57_unit_partial", "Pnp.C57_zero_quaternion"], "only the zero start quaternion breaks the unit norm")
c("C58", "proved", ["Pnp.C58_fixed_point"], "unit start quaternion; linear solver that maps zero to zero")
c("C59", "proved", ["Pnp.C59_jacobian"])
c("C60", "partial", ["Pnp.C60_terminates_partial", "Pnp.C60_diverges"], "false of the code for one or two points: it never returns; proved for three and more")
c("C61", "partial", ["Pnp.C61_worse_model_returned", "Pnp.w_solver", "Pnp.C61_returns_newest", "Pnp.C61_early_stop_partial"], "false of the code: the model tried last is returned; the best one only when the run stops early")
c("C62", "partial", ["Pnp.C62_flags", "Pnp.C62_call", "Pnp.C62_exact_partial", "Pnp.C62_stale_flag", "Pnp.C62_nan_inlier"], "false of the code for a reused vector and for NaN")
c("C63", "partial", ["Pnp.C63_cauchy", "Pnp.C63_huber_partial", "Pnp.C63_huber_negative"], "Cauchy proved for all parameters; Huber is negative for some parameters above four")
c("C40", "proved", ["Update.C40_within", "Update.C40_overfull", "Update.C40_never_newest", "Update.C40_defined", "Update.C40_two_frames", "Update.C40_zero_size_undefined"], "distinct frame addresses; also: a window size of zero is undefined behaviour")
c("C41", "proved", ["Update.C41_assembly", "Update.C41_symmetric"])
c("C42", "proved", ["Update.C42_entries", "Update.C42_expand"])
c("C43", "proved", ["Update.C43_none", "Update.C43_reduce", "Update.C43_window", "Update.C43_blocks"])
c("C44", "proved", ["Update.C44_kalman"], "for every eigen decomposition that meets the specification of the library; such decompositions exist (exists_goodExt)")
c("C45", "proved", ["Update.C45_generalised_inverse", "Update.C45_inverse"])
c("C46", "proved", ["Update.C46_projection", "Update.C46_landmark_removed", "Update.C46_noise_white"])
c("C47", "proved", ["Update.C47_compression"], "every noise level and every QR and eigen decomposition that meets the library specification")
c("C49", "proved", ["Update.C49_correction"])
c("C48", "proved", ["Update.C48_blocks", "Update.C48_rows"])
c("C50", "proved", ["Update.C50_selection"])
c("C51", "proved", ["Update.C51_feature", "Update.C51_stack", "Update.C51_selected"])
c("C52", "proved", ["Update.C52_sizes"])
c("C64","proved",["Conf.C64_missing","Conf.C64_exact"])
c("C65","partial",["Conf.C65_too_many_rows","Conf.C65_stale_value","Conf.C65_short_partial","Conf.C65_memory"],"False of the code: a blank or short file leaves the value of the previously read file in the static matrix and it is taken as this parameter (C65_stale_value); what holds is that surplus rows are an Eigen assertion (C65_too_many_rows) and that entries read from the file are those of the file and all others those left by the previous file (C65_short_partial, C65_memory).")
c("C66","proved",["Conf.C66_read","Conf.C66_defaults"])
c("C67","proved",["Backend.C67_config","Backend.C67_no_ub"])
c("C71","proved",["Backend.C71_becomes_initialised","Backend.C71_goes_back","Backend.C71_imu_only","Backend.C71_other_calls"])
c("C72","proved",["Backend.C72_propagate","Backend.C72_update","Backend.C72_no_change"])
c("C73","proved",["Backend.C73_result"])
c("C74","proved",["Backend.C74_one_message","Backend.C74_all_consumed"])
c("C78","proved",["Backend.C78_initialise"],"the seeded queue is described for a queue that was empty before; see C76 for the other case")

c("C68","partial",["Backend.C68_no_ub_partial","Backend.C68_tracker_partial","Backend.C68_ieee_partial","Backend.C68_configured","Backend.C68_freed_read"],"Proved: no container, null-pointer or matrix-size error in any well-formed history, in terms of the input alone (C68_tracker_partial). Missing, because false of the code: PopOneMessage reads its message through a reference to a queue slot that it has already popped (C68_freed_read, a well-formed history); RunOnce is modelled as if the slot still held its value. C68_ieee_partial is the same for IEEE single precision scalars, infinities and NaN included, with finite double precision times. Also times are not NaN and fewer than 2^32 - 1 features messages are pushed.")
c("C69","partial",["Backend.C69_unknown_camera","Backend.C69_empty_observation","Backend.C69_repeated_id","Backend.C69_refound_track","Backend.C69_uneven_partial"],"False of the code: each of the four kinds of malformed message has a history that ends in undefined behaviour (the first four theorems). What holds: messages whose ids and observations differ in number are dropped on arrival and change nothing (C69_uneven_partial).")
c("C70","proved",["Backend.C70_bound","Backend.C70_one_frame"],"also when Reset is called")
c("C75","proved",["Backend.C75_covariance","Backend.C75_tracker"],"exact arithmetic, every defined history, Reset and malformed messages included; for every QR and eigen decomposition that meets the specification of the library. C75_tracker adds that well-formed histories are defined.")
c("C76","partial",["Backend.C76_stuck","Backend.C76_not_fresh","Backend.C76_reaches_stuck","Backend.C76_reset_partial"],"False of the code: Reset keeps the queued states, whose covariance has the size of the old window, so every later initialisation is undone by the update that follows it (C76_stuck, reached in C76_reaches_stuck; a fresh backend succeeds on the same data, C76_not_fresh). What holds: Reset changes the status and nothing else (C76_reset_partial).")
c("C77","partial",["Backend.C77_twice","Backend.C77_once_partial","Backend.C77_served_partial"],"False of the code: at a re-initialisation after an update the replayed attitudes have had their bias removed by the attitude estimator and the propagator removes it again (C77_twice). What holds: from a fresh backend without restart every queued state carries the raw readings of a pushed sample, so the bias that the propagator subtracts is removed once (C77_once_partial). C77_served_partial states it in terms of the input: samples in time order, each image pushed after a sample at most the IMU period older.")
c("C79","proved",["Backend.C79_published_time","Backend.C79_published_time_invariant","Backend.C79_ieee"],"also when Reset is called; times are not NaN. C79_ieee: for the types of the program, single precision scalars with infinities and NaN, double precision times")

c("C82","proved",["Backend.C82_dead_reckoning","Backend.C82_sample_added"],"any scalar type; the step of dead reckoning is defined in Verif/Spec/Reckon")
c("C83","proved",["Update.C83_best_gain","Update.C83_map","Update.C83_cutoff"],"for every eigen decomposition that meets the specification of the library; C83_cutoff shows that the bound on the noise is needed")

c("C84","proved",["Backend.C84_scores","Update.C84_selected","Backend.C84_collision"],"exact arithmetic; C84_collision shows that different scores are needed")
c("C85","proved",["Update.C85_update","Update.C85_projection","Update.C85_needs_rank"],"exact arithmetic, for one update; the singular vectors used by triangulation are the same in both libraries. C85_needs_rank shows that the rank is needed.")
c("C86","proved",["C86_memory"],"any scalar type; the eigenvalue solver reads only the entries of its matrix")

c("C87","proved",["PropQueue.C87_uniform","PropQueue.C87_from_empty"],"exact arithmetic")
c("C88","proved",["C88_queue","C88_from_start","Reckon.C88_along"],"exact arithmetic; gravity must be fixed by the rotation")
c("C89","proved",["C89_first_order","C89_chart","C89_not_exact"],"exact arithmetic; F and G hold no stale entries in every reachable queue (clean_run). C89_not_exact shows that F is not the derivative itself.")
c("C90","proved",["Triang.C90_weight_small","Triang.C90_weight_large","Triang.C90_influence","Triang.C90_upweighted","Triang.C90_weight_bound","Triang.C90_normal","Triang.C90_posdef","Triang.C90_gradient","Triang.C90_descent","Triang.C90_descent_plain","Triang.C90_cost","Triang.C90_inner","Triang.C90_body","Triang.C90_exact_start","Triang.C90_robust_rejected"],"exact arithmetic, except C90_inner and C90_body, which hold for any scalar type and solver. C90_upweighted and C90_robust_rejected are findings.")
c("C91","proved",["Update.C91_exact_is_kept"],"exact arithmetic; the singular vectors of triangulation meet the specification of the library. The concrete case is the one of C92, whose update it is applied to.")
c("C92","proved",["Backend.C92_noise_free","Backend.C92_reachable"],"exact arithmetic; each image shows the world at the time of the sample with which the filter aligns it (AlignedAt). The SVD specification is satisfiable: Spec.exists_svd.")
c("C93","proved",["Utility.C93_euler","Utility.C93_degrees","Utility.C93_not_degrees","Utility.C93_range","Utility.C93_gimbal_lock"],"Exact arithmetic. C93_gimbal_lock is the exception that the property names.")
c("C94","proved",["C94_matrix","C94_inverse","C94_cameras"],"exact arithmetic; matrices that are not rotations are not covered")
c("C95","proved",["Backend.C95_camera_pose","Backend.C95_success_iff","Backend.C95_standing"],"exact arithmetic; the singular vectors of triangulation meet the specification of the library and the solver of the normal equation maps 0 to 0. Concrete case: exRest, ten features seen by two cameras.")
c("C96","proved",["Demo.C96_messages","Demo.C96_program","Demo.C96_short_line"],"any scalar type; lines are read by the same scanner as the configuration. Printing is not modelled.")
c("C97","partial",["Demo.C97_defined_partial","Demo.C97_main_partial","Demo.C97_short_line","Demo.C97_one_camera"],"complete files, two cameras. Missing, because false: short lines (C97_short_line), one camera (C97_one_camera), and the read through a removed queue slot (C68_freed_read).")
c("C98","proved",["Demo.C98_rows","Demo.C98_file"],"any scalar type; times are not NaN")
c("C99","proved",["Demo.C99_drained","Demo.C99_left_over"],"any time type; C99_left_over shows a run that leaves a sample behind")
c("C100","proved",["Demo.C100_rotation","Demo.C100_shipped","Demo.C100_texts","Demo.C100_sight"],"exact arithmetic. The quaternions of the shipped camera poses have unit length only up to the six printed digits.")
c("C101","proved",["C101_update","Backend.C101_extrinsics","Backend.C101_first_frame","Backend.C101_origin"],"exact arithmetic; C101_extrinsics for every defined history of a configured backend with unit camera rotations, C101_first_frame for histories without Reset whose messages meet the conditions of C68 and windows of at least two frames. Concrete case: the filter of C92.")
c("C102","proved",["Update.C102_predict","Update.C102_observation","Update.C102_feature","Update.C102_measure","Update.C102_kalman","Update.C102_solve"],"exact arithmetic, solvers meeting their contract; turns need frames with unit quaternions, shifts and stretches do not. worldMove_moves: every window has every move.")
c("C103","proved",["Tests.C103_analytic","Tests.C103_iterative","Tests.C103_iterative_blind","Tests.C103_rotation"],"C103_iterative for any scalar type and solver; the others with exact arithmetic and the real sine and cosine. That the second test compares nothing is a finding.")
c("C104","proved",["Tests.C104_data","Tests.C104_ends","Tests.C104_score","Tests.C104_found","Tests.C104_bias","Tests.C104_leaves"],"C104_data and C104_ends for any scalar type, the others with exact arithmetic. C104_leaves needs a solver that answers zero only to zero.")
c("C105","proved",["Backend.C105_heading","Backend.C105_library","Backend.C105_reached"],"exact arithmetic. The turned run uses library results turned in the same way (ExtTurned); C105_library: for every library that reads only the matrix it is given there is such a partner, and it keeps the promises of the library (Ext.Correct). Its orthogonal factor zeroes the rows below the square part, which is all the filter relies on, but need not give a triangular matrix. Concrete case: the filter of C92 and a quarter turn.")
c("C106","proved",["Backend.C106_unit","Backend.C106_first_sample"],"exact arithmetic; unit camera rotations, libraries that read only the matrix they are given")
c("C107","partial",["Triang.C107_origin_matters","Triang.C107_exact_partial"],"the result is not displaced along with the world in general (witness proved); it is for exact observations from two rays that are not parallel")
c("C108","proved",["C108_filter","C108_from_start","C108_loader"],"every scalar type; times whose differences and comparisons do not change under the shift (reals, rationals); doubles round differences near large epochs, so there it holds only as far as the shift is exact")
c("C109","proved",["C109_attitudes","C109_step","C109_overflow"],"rounded arithmetic (Arith; fp32 and fp64 are instances), library functions arbitrary, sign of zero left out. C109_overflow is a finding: a gyroscope reading of 2^100 makes the attitude zero, and it stays zero.")
c("C110","proved",["C110_for_ever","C110_sample","C110_first","C110_published","C110_level_start"],"any floating point format (Arith); library functions arbitrary, sign of zero left out. A finding: the first attitude divides by the length of a cross product that is zero when the device is exactly level.")
c("C111","partial",["Backend.C111_kept_partial","Backend.C111_never_cleaned","Backend.C111_unbounded"],"False of the code: cleaning is only done when the window has two frames, and a failed initialisation leaves one. C111_never_cleaned: while images show fewer than ten features no attitude is ever removed, in any history; C111_unbounded: a run with n images and n attitudes for every n. C111_kept_partial: what holds when two frames remain.")
c("C112","proved",["Backend.C112_sizes"],"For every history, by the same invariant as C68. Attitude samples are not included, see C111.")
c("C113","proved",["Backend.C113_order","Backend.C113_limit","runH_id"],"Exact arithmetic. C113_limit: where more features are triangulated than may be used, the order decides which are used. runH_id ties the model with reorderings to the model. The order of the cameras inside an observation is C121.")
c("C114","proved",["C114_copy","C114_null","C114_twice","C114_two_loaders","C114_packet"],"C114_copy: same values and same moments of undefined behaviour for a careful caller. The other theorems are concrete histories of a caller that is not careful; the second push of one object is accepted because its time was moved by the first one.")
c("C115","proved",["C115_tiles","C115_sorted","C115_time"],"C115_tiles for all time types with the laws of IEEE comparison; C115_time in exact time arithmetic.")
c("C116","proved",["C116_derivative","C116_normal","C116_solvable","C116_minimum","C116_descent","C116_stationary","C116_step","C116_stop"],"Exact arithmetic; C116_step for a library that solves solvable equations; C116_stop for every scalar type and library.")
c("C117","proved",["C117_filter","C117_from_start","C117_reuse","Backend.C117_any_order","Backend.C117_collision"],"C117_filter, C117_from_start and C117_reuse for every scalar type; C117_any_order joins C113 in exact arithmetic, since other ids mean another hash order.")
c("C118","proved",["Backend.C118_no_ub","Backend.C118_tracker","Backend.C118_ieee","Backend.C118_state_ignored","Backend.C118_stale"],"Same hypotheses as C68 without the exclusion of Reset; C118_tracker is in terms of the input alone, C118_ieee for IEEE arithmetic with NaN. C118_stale: a concrete history in which the filter runs on from the old state after Reset and publishes another position than a fresh start.")
c("C119","proved",["Backend.C119_falls_back_iff","Backend.C119_stays","Backend.C119_running","Backend.C119_gap","Backend.C119_ieee"],"C119_ieee is C119_running for single precision scalars with infinities and NaN and double precision times. The others: every scalar type; times with the laws of TimeLaws (exact or rounded, not NaN). C119_running is in terms of the input alone. RunOnceTest, which throws messages away, and Reset are left out. C119_gap: a concrete history in which an image without its sample ends the run.")
c("C120","proved",["Backend.C120_second_image","Backend.C120_runs_on"],"Exact arithmetic; the decomposition used by the triangulation meets its specification, the other library results are arbitrary. C120_runs_on joins C119. A concrete history meets the hypotheses.")
c("C121","proved",["Backend.C121_cameras","Backend.C121_all_maps","rank_of_rays","exists_svdOfColumns"],"Exact arithmetic. The condition on the landmarks is RankedRun; rank_of_rays gives it from two rays that are not parallel (C85_needs_rank: without it an update depends on the choice of the decomposition). exists_svdOfColumns: a library that meets all specifications and the condition exists. C121_all_maps puts it together with C113 and C117: camera order, map order, feature ids, scores and memory at once. The concrete history handles one image, the condition on the landmarks is met in a separate concrete case.")
c("C122","proved",["MProc.C122_alone","MProc.C122_safe","MProc.C122_one","MProc.C122_config","MProc.C122_lost","MProc.C122_lost_image","MProc.C122_gravity"],"C122_alone, C122_safe, C122_one, C122_config, C122_lost and C122_lost_image in any arithmetic; the only law used is that -1 is not NaN. C122_gravity is a concrete history over the reals. Calls do not overlap in time.")
c("C123","partial",["C123_away","C123_diverges","C123_lost","Backend.C123_run","C123_aligned_partial"],"False of the code: the correction has the wrong sign, each sample turns the attitude further away from gravity until the error exceeds a right angle (C123_away, C123_diverges; C123_lost bounds the number of samples). Only an error of exactly zero is kept (C123_aligned_partial), and C30 says that no start off the gravity axis has it. Exact arithmetic.")
c("C124","partial",["C124_growth","C124_rate_dependent","C124_vanishes","Backend.C124_configured","Backend.C124_shipped","C124_constant_period_partial"],"False of the code: the variance grows by the configured figure itself, not squared, times the sum of the squared sample periods (C124_growth), so it depends on the rate and vanishes as the rate grows. C124_configured and C124_shipped: the same for what the configuration file says. C124_constant_period_partial: the part that holds, at one fixed period the growth is proportional to the span.")
c("C125","partial",["Update.C125_all_rows","Update.C125_oldest_stays","Update.C125_reused","Update.C125_repeated","Update.C125_as_if_better","Update.C125_overconfident","Update.C125_once_per_update_partial"],"False of the code: an update takes all observations of a selected feature in the window, not only those of the newest image or of features that end (C125_all_rows), and images stay in the window (C125_oldest_stays); C125_reused is a concrete history. C125_repeated and C125_as_if_better: k uses of one measurement give the covariance of one use with k times less noise variance. What holds: no observation is used twice within one update.")
c("C126","proved",["C126_bounds","C126_converges","Conv.Flight.step"],"Exact arithmetic; Vec3.norm_toH: the distances are the lengths of the code, attitudes are compared as quaternions. Concrete case: a device on a circle.")
c("C127","proved",["C127_turn","C127_short"],"Exact arithmetic. The increment is built with the small angle formula 1 + x/2 and normalised, so large steps are cut: a step of four radians turns by 2 atan 2.")
c("C128","proved",["C128_gain","C128_linear","C128_unbounded"],"About the filter step on a stacked system; outliers are only looked for before, by the tests of the triangulation (C53).")
c("C129","proved",["Backend.C129_published","Drift.along_bounds"],"Exact arithmetic. C126 with imperfect samples, combined with C82. That the updated attitude is a unit quaternion is C106.")
c("C130","proved",["C130_sequential"],"Exact arithmetic. The Jacobian is the same in both organisations; the code would linearise the second block anew.")
c("C131","proved",["C131_scale"],"Exact arithmetic. Both noises above the cut-off of the inverse, see C128.")

c("C132","partial",["C132_feature","C132_window_partial","C132_refound","C132_features","C132_frames","C132_packet","C132_message","C132_made","C132_config","C132_quiet_update","Backend.C132_quiet"],"False for interrupted tracks: C132_refound prints an observation for a frame in which the tracker did not see the feature (as C18). C132_window_partial is for histories in which no lost track is reused. The rest holds as stated.")

c("C133","proved",["Backend.C133_unused","Backend.C133_run","Backend.C133_never_learned"],"Exact arithmetic. C133_unused from a fresh start, C133_run from any state with the invariants of a history. The whole history version of C102 for shifts. After the filter lost its state and started again both runs have the same covariance.")
c("C134","partial",["Update.C134_update_partial","Update.C134_single_partial","F32.C134_propagation","F32.rnd_eq"],"Every update that used features leaves the covariance and its stored parts exactly symmetric, infinities and NaN included, in every arithmetic with idempotent rounding, from any state, symmetric or not. False of the propagation (C134_propagation): in single precision the first step from a zero covariance already gives an asymmetric one; the witness is evaluated in a computable arithmetic whose rounding is that of IEEE single precision on all normal numbers (F32.rnd_eq). The cross covariance of the stored parts is kept once, so it has nothing to be symmetric with.")
c("C135","partial",["Yaw.C135_partial","Yaw.C135_meaning","Yaw.C135_defect","Yaw.C135_turning","Yaw.C135_accelerating"],"C135_defect is the exact difference for every step; C135_partial: without rotation rate the property holds if and only if the velocity across gravity is unchanged. False of every step with a rotation about another axis than gravity (C135_turning) and of every step without rotation that changes the horizontal velocity (C135_accelerating). C135_meaning shows that the direction is the derivative of the error in the turned world. The measurement is blind to it at the current estimate (C102), so what F makes of it is taken for information.")
c("C136","proved",["Clock.C136_elapsed","Clock.C136_queue","Clock.C136_rounded_once","Clock.C136_moves","Clock.C136_other_order"],"IEEE double and single precision with rounding to nearest even, overflow included; times are finite doubles (Clock.isDouble_sub: what the loader stores is one). C136_queue: for the items of a queue in time order. The example at 1.6e9 s shows that converting first would give a step of zero.")
c("C137","partial",["Variance.C137_first_partial","Variance.C137_negative","Variance.C137_propagation"],"C137_first_partial: the first step from a zero covariance gives no negative variance in any arithmetic with idempotent rounding, infinities and NaN included. False of the update (C137_negative): with the measurement noise of the recorded runs a variance of 4.625 measured with coefficient 9.4375 comes out negative in single precision and the covariance test prints its error. The form (I - KH)P is exact-arithmetic only (C44); false of later propagation steps too (C137_propagation): from a positive semidefinite covariance that ties position and velocity, one step of 4 ms gives a negative variance.")
c("C138", "proved", ["Mixing.C138_interpolate", "Mixing.C138_histories", "Mixing.C138_bounded"],
  "Time stamps are doubles without overflow; samples are IEEE single precision with infinities and NaN.")

c("C139", "partial", ["Stall.C139_stalls", "Stall.C139_lost", "Stall.C139_lost_histories", "Stall.C139_partial", "Stall.C139_histories_partial"],
  "False of the code (C139_stalls): a kilometre from the origin a motion of 5 mm/s sampled at 200 Hz never changes the position, after any number of samples. The same for every motion whose way in a sample is at most 2^-27 of the distance from the origin (C139_lost), in every history. What holds: the position is the sum of the velocities up to 2^-21 times the bound of positions and velocities for each sample, for every queue of every history whose numbers are finite.")

c("C140", "partial", ["Timer.C140_set_back", "Timer.C140_sum", "Timer.C140_partial"],
  "False of the code when the system clock is set back (C140_set_back: a negative time). The sum holds for every clock in exact arithmetic (C140_sum); sign and accuracy hold in double and single precision when the clock is not set back (C140_partial).")


root = os.path.join(os.path.dirname(os.path.abspath(__file__)), "..")
ids = [json.loads(l)["id"] for l in open(os.path.join(root, "properties.jsonl"))]
for i in C:
    assert i in ids, i
with open(os.path.join(root, "MANIFEST.json"), "w") as f:
    json.dump({"claims": [C[i] for i in ids if i in C]}, f, indent=1)
print(len(C), "of", len(ids), "missing:", [i for i in ids if i not in C])
