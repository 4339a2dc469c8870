{
 "claims": [
  {
   "property": "C01",
   "status": "proved",
   "theorems": [
    "KD.C01_screw_is_rigid",
    "KD.C01_screw_zero",
    "KD.C01_screw_add",
    "KD.C01_screw_neg",
    "KD.C01_rotation_fixes_axis",
    "KD.C01_screw_action",
    "KD.C01_axis_direction"
   ],
   "note": "All axes, origins, angles; near-zero axes are covered because the constructor normalises them to a fixed unit vector."
  },
  {
   "property": "C02",
   "status": "proved",
   "theorems": [
    "KD.C02_changeBase_conjugates",
    "KD.C02_changeBase_iterated"
   ],
   "note": "One change of base and any sequence of them."
  },
  {
   "property": "C03",
   "status": "proved",
   "theorems": [
    "KD.C03_evaluate_rejects_size",
    "KD.C03_evaluate_is_product",
    "KD.C03_evaluate_is_rigid"
   ],
   "note": "Any number of terms; failure keeps the output."
  },
  {
   "property": "C04",
   "status": "proved",
   "theorems": [
    "KD.C04_append",
    "KD.C04_append_at_tool",
    "KD.C04_append_term",
    "KD.C04_changeBaseFrame",
    "KD.C04_changeToolFrame"
   ],
   "note": "append (POE and single term), changeBaseFrame, changeToolFrame."
  },
  {
   "property": "C05",
   "status": "proved",
   "theorems": [
    "KD.C05_reverse_inverts",
    "KD.C05_makeReverse_eq",
    "KD.C05_reverse_reverse"
   ],
   "note": "makeReverse equals reverseSelf; reversing twice restores the POE itself."
  },
  {
   "property": "C06",
   "status": "proved",
   "theorems": [
    "KD.C06_toChain_fk",
    "KD.C06_toChain_size"
   ],
   "note": "Any number of terms; KDL chain semantics are part of the trusted base."
  },
  {
   "property": "C07",
   "status": "proved",
   "theorems": [
    "KD.C07_fromChain_fk",
    "KD.C07_fromChain_terms",
    "KD.C07_round_trip",
    "KD.C07_scaled_joint_counterexample"
   ],
   "note": "Unit joint scale as KDL constructors default to; C07_scaled_joint_counterexample shows that scaled joints are not preserved."
  },
  {
   "property": "C08",
   "status": "proved",
   "theorems": [
    "KD.C08_normalisation_error",
    "KD.C08_pk1_sound",
    "KD.C08_pk1_range",
    "KD.C08_pk1_flag",
    "KD.C08_pk1_success_bound"
   ],
   "note": "Success, exact angle, range and the success criterion. Angles closer than eps to pi are snapped to pi by normalizeAngle; C08_normalisation_error bounds the effect."
  },
  {
   "property": "C09",
   "status": "proved",
   "theorems": [
    "KD.C09_pk2_sound",
    "KD.C09_pk2_tangent",
    "KD.C09_pk2_always_two",
    "KD.C09_pk2_success_bound"
   ],
   "note": "Exact and complete when the out-of-plane coordinate squared is at least eps or exactly zero; in between C09_pk2_success_bound bounds the error."
  },
  {
   "property": "C10",
   "status": "partial",
   "theorems": [
    "KD.C10_pk3_sound_partial",
    "KD.C10_pk3_near_tangent",
    "KD.C10_pk3_unreachable",
    "KD.C10_pk3_far_tangent_counterexample",
    "KD.C10_pk3_on_axis_reports_failure"
   ],
   "note": "The far tangent case answers the wrong angle with success (C10_pk3_far_tangent_counterexample); points on the axis are always reported as failures."
  },
  {
   "property": "C11",
   "status": "partial",
   "theorems": [
    "KD.C11_pg1_sound_partial",
    "KD.C11_pg1_closest",
    "KD.C11_pg1_unreachable_counterexample"
   ],
   "note": "Soundness and optimality proved; success is also reported for unreachable targets (C11_pg1_unreachable_counterexample)."
  },
  {
   "property": "C12",
   "status": "proved",
   "theorems": [
    "KD.C12_pg2_sound",
    "KD.C12_pg2_off_plane_instability"
   ],
   "note": "Exact for targets in the plane. C12_pg2_off_plane_instability shows the answer is discontinuous there."
  },
  {
   "property": "C13",
   "status": "partial",
   "theorems": [
    "KD.C13_pg3_sound_partial",
    "KD.C13_pg3_tangent",
    "KD.C13_pg3_unreachable",
    "KD.C13_pg3_tangent_counterexample"
   ],
   "note": "Proved away from tangency and for tangency ahead; C13_pg3_tangent_counterexample shows the sign is lost for tangency behind."
  },
  {
   "property": "C14",
   "status": "partial",
   "theorems": [
    "KD.C14_pg4_sound_partial",
    "KD.C14_pg4_tangent_counterexample"
   ],
   "note": "Proved for axes at least eps apart and circles not externally tangent; C14_pg4_tangent_counterexample shows the tangent branch answers a wrong sign with success."
  },
  {
   "property": "C15",
   "status": "proved",
   "theorems": [
    "KD.C15_count_is_product",
    "KD.C15_solution_count",
    "KD.C15_output_content_irrelevant",
    "KD.C15_no_subproblem",
    "KD.C15_revolute_joints_within_half_turn"
   ],
   "note": "For every well formed problem (valid distinct ids, non-degenerate PK2/PG2/PG4 geometry). Without subproblems one zero array is returned although none is announced: C15_no_subproblem."
  },
  {
   "property": "C16",
   "status": "proved",
   "theorems": [
    "KD.C16_every_combination",
    "KD.C16_positions_distinct"
   ],
   "note": "Complete enumeration of branches; positions are mixed radix numbers, first step fastest."
  },
  {
   "property": "C17",
   "status": "proved",
   "theorems": [
    "KD.C17_moved_terms_keep_equation",
    "KD.C17_point_equation"
   ],
   "note": "Exact equivalence with forward kinematics for every branch and step. Of the trailing terms only the last one is moved by the code; the equation holds all the same."
  },
  {
   "property": "C18",
   "status": "partial",
   "theorems": [
    "KD.C18_reachable_flag_not_sound",
    "KD.C18_points_reached_partial",
    "KD.C18_pose_reached_partial",
    "KD.C18_planar_arm_counterexample"
   ],
   "note": "False in general: a single linear axis uses a subproblem that reports every target reachable (C18_reachable_flag_not_sound), and the two-link arm of the tests tells reachable and gives a solution at another pose (C18_planar_arm_counterexample). Proved for arms with rotational joints built by the library: when the flag is true every returned joint array brings each point settled by a step to where the target asks within an explicit tolerance, and three such points that are not in a line give the whole pose. Missing: arms with linear joints, steps that are not placed as SettlesPoint asks, and arms with fewer than three settled points."
  },
  {
   "property": "C19",
   "status": "proved",
   "theorems": [
    "KD.C19_search_terminates",
    "KD.C19_build_returns",
    "KD.C19_covers_joints_exactly_once",
    "KD.C19_built_problem_wellformed"
   ],
   "note": "Termination of build assumes a random source whose values keep differing by more than the tolerance; the search loop terminates unconditionally."
  },
  {
   "property": "C20",
   "status": "partial",
   "theorems": [
    "KD.C20_trailing_rotations",
    "KD.C20_trailing_rotations_exact",
    "KD.C20_leading_rotations",
    "KD.C20_leading_rotations_exact",
    "KD.C20_plane_partial",
    "KD.C20_plane_neighbours_partial",
    "KD.C20_plane_test_not_transitive"
   ],
   "note": "Trailing and leading rotations proved in full (with the tolerance and exactly). Plane equation: proved when the dropped terms move along the plane; false in general because only neighbours are compared (C20_plane_test_not_transitive)."
  },
  {
   "property": "C21",
   "status": "proved",
   "theorems": [
    "KD.C21_least_displacement",
    "KD.C21_failure_keeps_choice_open"
   ],
   "note": ""
  },
  {
   "property": "C22",
   "status": "proved",
   "theorems": [
    "KD.C22_choice_is_kept",
    "KD.C22_never_out_of_limits",
    "KD.C22_smaller_set_undefined"
   ],
   "note": "For candidate sets of constant size; C22_smaller_set_undefined shows why the size must not shrink."
  },
  {
   "property": "C23",
   "status": "proved",
   "theorems": [
    "KD.C23_gait_constraints",
    "KD.C23_factory_refuses",
    "KD.C23_guess_refused"
   ],
   "note": ""
  },
  {
   "property": "C24",
   "status": "partial",
   "theorems": [
    "KD.C24_call_output",
    "KD.C24_history_in_limits",
    "KD.C24_calls_defined",
    "KD.C24_null_selector_undefined",
    "KD.C24_forward",
    "KD.C24_forward_restored",
    "KD.C24_restore_partial",
    "KD.C24_restore_fails"
   ],
   "note": "Success implies values inside the limits over any call history, and calls are defined. Restoring the original chain does restore forward kinematics but not inverse kinematics after a failed update (C24_restore_fails)."
  },
  {
   "property": "C25",
   "status": "partial",
   "theorems": [
    "KD.C25_error_keeps_output",
    "KD.C25_in_limits_partial",
    "KD.C25_nan_at_target",
    "KD.C25_step_optimal",
    "KD.C25_update_keeps_limits",
    "KD.C25_configured_limits"
   ],
   "note": "Success yields finite values in limits unless the transposed Jacobian annihilates the error; then every joint is NaN with code 0, e.g. when the target is the current pose (C25_nan_at_target)."
  },
  {
   "property": "C26",
   "status": "partial",
   "theorems": [
    "KD.C26_encode_keeps_pose_partial",
    "KD.C26_decode_keeps_pose_partial",
    "KD.C26_round_trip_partial",
    "KD.C26_scaled_exact",
    "KD.C26_canonical_ranges",
    "KD.C26_eulerYZ_loses_rotation"
   ],
   "note": "Encoding and decoding keep the rigid transform outside 1e-6 bands around singular rotations; exact for rotation vectors; canonical ranges proved for all inputs; EULER_YZ loses the first angle (counterexample proved)."
  },
  {
   "property": "C27",
   "status": "proved",
   "theorems": [
    "KD.C27_encodePose_in_place",
    "KD.C27_decodePose_in_place",
    "KD.C27_encodeVelocity_in_place",
    "KD.C27_decodeVelocity_in_place"
   ],
   "note": "All four conversions, all sizes and contents; velocity conversions in RPY need a pose that is long enough."
  },
  {
   "property": "C28",
   "status": "proved",
   "theorems": [
    "KD.C28_encodePose_units",
    "KD.C28_decodePose_units",
    "KD.C28_encodeVelocity_units",
    "KD.C28_decodeVelocity_units"
   ],
   "note": "All four conversions."
  },
  {
   "property": "C29",
   "status": "partial",
   "theorems": [
    "KD.C29_short_input_rejected_partial",
    "KD.C29_pose_conversions_defined",
    "KD.C29_unsupported_changes_output",
    "KD.C29_short_pose_undefined",
    "KD.C29_names"
   ],
   "note": "Short input rejected with output kept, and pose conversions never out of bounds; unsupported representations change the output and RPY velocity reads a short pose out of bounds (counterexamples proved)."
  },
  {
   "property": "C30",
   "status": "partial",
   "theorems": [
    "KD.C30_scaled_round_trip",
    "KD.C30_axis_angle_round_trip_partial",
    "KD.C30_axis_angle_wraps",
    "KD.C30_rpy_round_trip_partial",
    "KD.C30_rpy_rates_not_undone",
    "KD.C30_roll_rate_about_z"
   ],
   "note": "Holds for rotation vectors, for axis-angle below pi and for RPY without pitch; counterexamples proved for the rest."
  },
  {
   "property": "C31",
   "status": "partial",
   "theorems": [
    "KD.C31_twist_wrench_round_trip",
    "KD.C31_vector_round_trip",
    "KD.C31_wrong_size",
    "KD.C31_frame_round_trip_partial",
    "KD.C31_frame_small_rotation",
    "KD.C31_pose_vector_round_trip_partial"
   ],
   "note": "Twists, wrenches, wrong sizes in full; frames outside the band next to a half turn, with an error bound near zero rotation."
  },
  {
   "property": "C32",
   "status": "proved",
   "theorems": [
    "KD.C32_elementary_rotations",
    "KD.C32_angles_add",
    "KD.C32_euler_homogeneous",
    "KD.C32_axis_angle_homogeneous",
    "KD.C32_elementary_agree",
    "KD.C32_euler_agree",
    "KD.C32_axis_must_be_unit"
   ],
   "note": "All angles and axes."
  },
  {
   "property": "C33",
   "status": "partial",
   "theorems": [
    "KD.Ctrl.C33_failed_cycle_stops_partial",
    "KD.Ctrl.C33_good_cycle_keeps_success",
    "KD.Ctrl.C33_pending_wait_false",
    "KD.Ctrl.C33_refused_command_ignored"
   ],
   "note": "Every failure the loop detects (limits, control mode, robot or solver query, joint speed) aborts the movement, and a pending wait then returns false. A motion command that the robot refuses is only logged: C33_refused_command_ignored."
  },
  {
   "property": "C34",
   "status": "partial",
   "theorems": [
    "KD.Ctrl.C34_twenty_failures_skipped_partial",
    "KD.Ctrl.C34_good_read_resets",
    "KD.Ctrl.C34_next_movement_first_failure_aborts"
   ],
   "note": "Exact count over all histories of commands and cycles; but the count is not restarted by a new movement, so after an abort the first failing read aborts the next movement: C34_next_movement_first_failure_aborts."
  },
  {
   "property": "C35",
   "status": "partial",
   "theorems": [
    "KD.Ctrl.C35_refused_command_keeps_state",
    "KD.Ctrl.C35_accepted_command_in_state_partial",
    "KD.Ctrl.C35_modes_of_all_joints",
    "KD.Ctrl.C35_true_but_other_movement_goes_on",
    "KD.Ctrl.C35_refused_movl_replaces_path"
   ],
   "note": "Refused commands keep the state (all six commands, all answers); accepted ones end in the state and mode of the movement, except a joint movement to the present position, which returns true and changes nothing (C35_true_but_other_movement_goes_on). A refused movl replaces the path of the running one (C35_refused_movl_replaces_path)."
  },
  {
   "property": "C36",
   "status": "partial",
   "theorems": [
    "KD.Ctrl.C36_no_change_while_moving",
    "KD.Ctrl.C36_set_changes_only_its_key",
    "KD.Ctrl.C36_get_reports_last_set_partial",
    "KD.Ctrl.C36_whole_numbers_kept",
    "KD.Ctrl.C36_period_truncated_to_zero",
    "KD.Ctrl.C36_streaming_command_lost",
    "KD.Ctrl.C36_refused_group_changes_some",
    "KD.Ctrl.C36_set_several",
    "KD.Ctrl.C36_getParameters_reports_all",
    "KD.Ctrl.C36_getParameters_keeps_old_entries"
   ],
   "note": "Nothing changes while moving and the last set value is reported over all histories, for every key but the streaming command (which any movement or stop unsets) and up to truncation of the periods to whole milliseconds; witnesses of truncation to a zero period, of the lost streaming command and of a refused group that changes some keys."
  },
  {
   "property": "C37",
   "status": "partial",
   "theorems": [
    "KD.Ctrl.C37_pose_checked_partial",
    "KD.Ctrl.C37_twist_checked_partial",
    "KD.Ctrl.C37_wrench_checked_partial",
    "KD.Ctrl.C37_zero_torques_on_failure",
    "KD.Ctrl.C37_pose_target_out_of_limits"
   ],
   "note": "Every motion command of pose, twist and wrench passes the checks for its kind (all inputs, states, answers); but twist and wrench send zero velocities/torques instead of nothing on failure, and the target of pose is not checked against joint or velocity limits (witnesses)."
  },
  {
   "property": "C38",
   "status": "partial",
   "theorems": [
    "KD.Ctrl.C38_all_joints_same_time_partial",
    "KD.Ctrl.C38_moving_joint_arrives_at_common_time",
    "KD.Ctrl.C38_zero_reference_speed_never_arrives"
   ],
   "note": "Proved for every joint with a positive reference speed; a joint with a reference speed that is not positive is commanded to its target with speed zero (C38_zero_reference_speed_never_arrives)."
  },
  {
   "property": "C39",
   "status": "partial",
   "theorems": [
    "KD.Ctrl.C39_speeds_restored_when_done_partial",
    "KD.Ctrl.C39_stop_leaves_speeds",
    "KD.Ctrl.C39_failure_leaves_speeds",
    "KD.Ctrl.C39_second_movement_leaves_speeds"
   ],
   "note": "Proved when the motion completes and no other joint movement was commanded meanwhile; stop, failure and a second joint movement leave other speeds (three witnesses)."
  },
  {
   "property": "C40",
   "status": "partial",
   "theorems": [
    "KD.Ctrl.C40_velocity_commands_safe_partial",
    "KD.Ctrl.C40_checks_defined_partial",
    "KD.Ctrl.C40_user_limits_undefined",
    "KD.Ctrl.C40_robot_limits_kept",
    "KD.Ctrl.C40_fixed_joint_not_protected"
   ],
   "note": "Over all histories every velocity command is zero or safe at the joint positions just read, and the checks are defined, for configurations with limits from the robot and ranges above the tolerance; with user-supplied limits the checks read out of bounds, and joints with a single-point range are not protected (theorems)."
  },
  {
   "property": "C41",
   "status": "partial",
   "theorems": [
    "KD.Ctrl.C41_accepted_path_checked_partial",
    "KD.Ctrl.C41_too_fast_accepted",
    "KD.Ctrl.C41_redundant_robot_undefined"
   ],
   "note": "An accepted movl has a solution and joint limits at every sample of its path, for all trajectories and sampling counts, and steps within the numbers of the speed limits; but steps are not divided by time (a movement at 8 times the allowed speed is accepted) and with more than 6 joints per end effector the check writes outside its buffer (theorems)."
  },
  {
   "property": "C42",
   "status": "partial",
   "theorems": [
    "KD.Ctrl.C42_wait_tells_how_it_ended_partial",
    "KD.Ctrl.C42_timeout_stops",
    "KD.Ctrl.C42_timeout_true",
    "KD.Ctrl.C42_failed_before_wait"
   ],
   "note": "wait and the control loop interleave freely. Proved: unless wait stopped the robot itself or never saw the movement, its result is true exactly if the loop heard that the movement is finished; an expired timeout always stops the robot. Refuted to the letter: on timeout it returns true, and a movement that failed before the first look counts as success."
  },
  {
   "property": "C43",
   "status": "partial",
   "theorems": [
    "KD.Ctrl.C43_at_most_one_motion_partial",
    "KD.Ctrl.C43_no_call_between_cycles_partial",
    "KD.Ctrl.C43_motion_after_stop"
   ],
   "note": "Proved for all interleavings: after stopControl has returned the loop sends at most one motion command, and none (no call at all) if it is between two cycles. Refuted to the letter: the cycle in flight can send a velocity command after stopControl has returned."
  },
  {
   "property": "C44",
   "status": "partial",
   "theorems": [
    "KD.Ctrl.C44_commands_defined_partial",
    "KD.Ctrl.C44_relj_too_long",
    "KD.Ctrl.C44_movl_too_long",
    "KD.Ctrl.C44_movv_too_long",
    "KD.Ctrl.C44_histories_defined_partial",
    "KD.Ctrl.C44_force_of_any_size",
    "KD.Ctrl.C44_short_velocity"
   ],
   "note": "Histories of commands with six elements per end effector, storable parameters and cycles, of any length, never leave a vector, and every vector handed to robot or solver has the right size, for solver answers of the promised sizes; single commands also with shorter vectors. Refuted otherwise (general theorems): relj, movl and movv with longer vectors access memory outside of vectors; movv with short and forc with any vectors are accepted and reach the solver in the next cycle."
  },
  {
   "property": "C45",
   "status": "partial",
   "theorems": [
    "KD.Net.C45_remote_is_local_partial",
    "KD.Net.C45_histories_partial",
    "KD.Net.C45_empty_vector_refused",
    "KD.Net.C45_empty_map_refused",
    "KD.Net.C45_group_key_found",
    "KD.Net.C45_fraction_cut",
    "KD.Net.C45_state_taken_for_failure"
   ],
   "note": "Proved for arbitrary controllers and histories of any length: the same answers and the same controller states. Refuted to the letter for empty vectors and maps (refused by the server), the key of the parameter groups, fractional frame values and states equal to the failure mark."
  },
  {
   "property": "C46",
   "status": "partial",
   "theorems": [
    "KD.Net.C46_rejection_is_failure_partial",
    "KD.Net.C46_refusal_is_failure_partial",
    "KD.Net.C46_lost_command_succeeds",
    "KD.Net.C46_lost_query_succeeds"
   ],
   "note": "Proved: every rejection and refusal is heard as failure. Refuted: if the request or the reply is lost, every command reports success and stat throws."
  },
  {
   "property": "C47",
   "status": "partial",
   "theorems": [
    "KD.Net.C47_stream_partial",
    "KD.Net.C47_malformed_dropped",
    "KD.Net.C47_wellformed_called",
    "KD.Net.C47_empty_vector_dropped",
    "KD.Net.C47_words_become_zeros"
   ],
   "note": "Proved for all sequences of delivered messages; every other message causes no call. Refuted for empty vectors (dropped) and words in place of numbers (become zeros)."
  },
  {
   "property": "C48",
   "status": "partial",
   "theorems": [
    "KD.Net.C48_no_publication",
    "KD.Net.C48_latest_message_partial",
    "KD.Net.C48_stat_partial",
    "KD.Net.C48_accepts_nothing",
    "KD.Net.C48_nothing_received",
    "KD.Net.C48_failure_writes_old_pose",
    "KD.Net.C48_short_message_throws"
   ],
   "note": "Proved for all histories of published messages and arrival times, composed with the publishing side. Refuted: before the first message, with a clock that starts at zero, stat succeeds with an empty pose."
  },
  {
   "property": "C49",
   "status": "partial",
   "theorems": [
    "KD.Net.C49_command_partial",
    "KD.Net.C49_inv_partial",
    "KD.Net.C49_short_vector_refused",
    "KD.Net.C49_stat_partial",
    "KD.Net.C49_round_trip_partial",
    "KD.Net.C49_velocity_taken_for_pose",
    "KD.Net.C49_second_pose_lost"
   ],
   "note": "Proved: commands and states keep the rigid transform outside of the singular bands of C26, and round trips. Refuted: velocities and forces are converted as poses, and all but the first end effector are dropped."
  },
  {
   "property": "C50",
   "status": "partial",
   "theorems": [
    "KD.Net.C50_published_state_partial",
    "KD.Net.C50_stream_partial",
    "KD.Net.C50_attached_controller_used",
    "KD.Net.C50_subdevice_used",
    "KD.Net.C50_request_before_attach",
    "KD.Net.C50_request_after_detach",
    "KD.Net.C50_misspelt_option"
   ],
   "note": "Proved for all histories: the published state comes from the attached controller, streamed commands never read an unset pointer, while attached all ports use that controller. Refuted: requests before attach read an unset pointer, requests after detach reach the old controller, a misspelt option leaves the responder unset."
  },
  {
   "property": "C51",
   "status": "partial",
   "theorems": [
    "KD.Net.C51_set_group_partial",
    "KD.Net.C51_get_group_partial",
    "KD.Net.C51_first_duplicate_wins"
   ],
   "note": "Proved for maps of all sizes; frame and streaming values must be 32-bit integers, the empty map is refused."
  },
  {
   "property": "C52",
   "status": "proved",
   "theorems": [
    "KD.Asibot.C52_asibot_history_partial",
    "KD.Asibot.C52_asibot_restore",
    "KD.KdlSolver.C52_tool_history",
    "KD.KdlSolver.C52_restore_undoes",
    "KD.KdlSolver.C52_append_postmultiplies",
    "KD.KdlSolver.C52_malformed_pose_ignored"
   ],
   "note": "Every history of appended poses and restorations; the appended poses compose in order after the original chain. Only the chain solver; a pose of the wrong size is ignored without an error."
  },
  {
   "property": "C53",
   "status": "partial",
   "theorems": [
    "KD.Asibot.C53_asibot_change_origin_partial",
    "KD.Asibot.C53_asibot_pose_diff_partial",
    "KD.KdlSolver.C53_change_origin_composes_partial",
    "KD.KdlSolver.C53_change_origin_associative_partial",
    "KD.KdlSolver.C53_change_origin_identity_partial",
    "KD.KdlSolver.C53_change_origin_invertible_partial",
    "KD.KdlSolver.C53_pose_diff_of_equal",
    "KD.KdlSolver.C53_pose_diff_integrates_partial",
    "KD.KdlSolver.C53_pose_diff_zero_iff_partial",
    "KD.KdlSolver.C53_small_difference_lost"
   ],
   "note": "Composition, associativity, identity, inverse, and the integral of the difference hold outside the 1e-6 bands of the KDL rotation vector; within them a difference is lost (witness)."
  },
  {
   "property": "C54",
   "status": "partial",
   "theorems": [
    "KD.KdlSolver.C54_fwdKin_degrees_partial",
    "KD.KdlSolver.C54_prismatic_taken_for_degrees",
    "KD.KdlSolver.C54_invKin_units",
    "KD.KdlSolver.C54_invKin_units_tcp",
    "KD.KdlSolver.C54_diffInvKin_units_partial",
    "KD.KdlSolver.C54_diffInvKin_units_tcp_partial"
   ],
   "note": "Rotational joints: proved for fwdKin, invKin and diffInvKin (with the Jacobian proved to be the derivative). Prismatic joints are scaled by degrees to radians as well, which contradicts the documented meters (witness for every value)."
  },
  {
   "property": "C55",
   "status": "partial",
   "theorems": [
    "KD.KdlTreeSolver.C55_fwdKin_blocks",
    "KD.KdlTreeSolver.C55_changeOrigin_blocks",
    "KD.KdlTreeSolver.C55_poseDiff_blocks",
    "KD.KdlTreeSolver.C55_short_vectors_undefined",
    "KD.KdlTreeSolver.C55_inverse_blocks",
    "KD.KdlTreeSolver.C55_inverse_blocks_tcp",
    "KD.KdlTreeSolver.C55_inverse_blocks_partial",
    "KD.KdlTreeSolver.C55_merged_blocks_shift",
    "KD.KdlTreeSolver.C55_self_merge",
    "KD.KdlTreeSolver.C55_accepted_merges"
   ],
   "note": "Blocks belong to TCPs for fwdKin, changeOrigin and poseDiff always, and for invKin and diffInvKin when no TCPs are merged. With merged TCPs the blocks of the inverse methods are counted over unmerged TCPs only (general theorem), which contradicts the others (witness); a TCP merged with itself is accepted and asked for the null pose (witness)."
  },
  {
   "property": "C56",
   "status": "partial",
   "theorems": [
    "KD.Asibot.C56_forward_partial",
    "KD.Asibot.C56_behind_wrong",
    "KD.Asibot.C56_inverse_partial",
    "KD.Asibot.C56_round_trip_partial",
    "KD.Asibot.C56_tcp_frame",
    "KD.Asibot.C56_reversed_disagree",
    "KD.Asibot.C56_inward_wrong",
    "KD.Asibot.C56_vertical_roll_lost",
    "KD.Asibot.C56_vertical_witness",
    "KD.Asibot.C56_inward_witness"
   ],
   "note": "Positive and general when the arm reaches ahead and the hand points away; reversed configurations, vertical and inward hands are proved wrong."
  },
  {
   "property": "C57",
   "status": "partial",
   "theorems": [
    "KD.Asibot.C57_base_jacobian",
    "KD.Asibot.C57_tcp_jacobian",
    "KD.Asibot.C57_base_motion_partial",
    "KD.Asibot.C57_tcp_motion_partial",
    "KD.Asibot.C57_rotated_tool_wrong",
    "KD.Asibot.C57_tcp_tool_wrong"
   ],
   "note": "Both Jacobians are derivatives for every configuration and link lengths, without tool; with a tool the whole call is right only for tools whose rotation keeps the translation, and wrong witnesses are proved."
  },
  {
   "property": "C58",
   "status": "partial",
   "theorems": [
    "KD.Asibot.C58_choice",
    "KD.Asibot.C58_some",
    "KD.Asibot.C58_runner_up_partial",
    "KD.Asibot.C58_least_partial",
    "KD.Asibot.C58_invKin",
    "KD.Asibot.C58_tie_wrong",
    "KD.Asibot.C58_wide_limits_wrong"
   ],
   "note": "Choice and limits for all inputs; ties and limits beyond half a turn are proved wrong."
  },
  {
   "property": "C59",
   "status": "partial",
   "theorems": [
    "KD.Traj.C59_linear",
    "KD.Traj.C59_linear_within",
    "KD.Traj.C59_linear_speed_check_partial",
    "KD.Traj.C59_linear_acceleration_check",
    "KD.Traj.C59_linear_speed_check_wrong",
    "KD.Traj.C59_cubic_ends",
    "KD.Traj.C59_rest_to_rest_ends",
    "KD.Traj.C59_cubic_derivatives",
    "KD.Traj.C59_after_end_wrong",
    "KD.Traj.C59_no_overshoot",
    "KD.Traj.C59_monotone",
    "KD.Traj.C59_cubic_speed_check_partial",
    "KD.Traj.C59_cubic_checks_wrong",
    "KD.Traj.C59_acceleration_never_refused",
    "KD.Traj.C59_overshoot_with_velocities"
   ],
   "note": "Ends, derivatives up to the end, absence of overshoot and monotony are proved, and the velocity checks for increasing trajectories. Refuted with witnesses: velocity checks of decreasing trajectories, the acceleration check of cubic ones (never refuses), velocity and acceleration reported after the end."
  },
  {
   "property": "C60",
   "status": "partial",
   "theorems": [
    "KD.Sdc.C60_labels",
    "KD.Sdc.C60_velocity_partial",
    "KD.Sdc.C60_pose_partial",
    "KD.Sdc.C60_fixed_for_ever_partial",
    "KD.Sdc.C60_leap_partial",
    "KD.Sdc.C60_leap_rotation_wrong",
    "KD.Sdc.C60_wiimote_wrong",
    "KD.Sdc.C60_centroid_wrong"
   ],
   "note": "Proved over all histories for the SpaceNavigator in velocity and pose mode without the centroid transform, and for each reading of the Leap's position. Refuted with witnesses: rotations of the Leap (fixing one fixes all, none is scaled), the Wiimote (fixed axes ignored) and the centroid transform (moves along fixed axes)."
  },
  {
   "property": "C61",
   "status": "partial",
   "theorems": [
    "KD.Sdc.C61_high_alert",
    "KD.Sdc.C61_no_reading",
    "KD.Sdc.C61_stop_once",
    "KD.Sdc.C61_low_alert_partial",
    "KD.Sdc.C61_pose_half_partial",
    "KD.Sdc.C61_wiimote_speed_kept",
    "KD.Sdc.C61_leap_not_stopped",
    "KD.Sdc.C61_leap_jump",
    "KD.Sdc.C61_alert_forgotten"
   ],
   "note": "No command under a high alert and one single stop are proved for all devices and histories; halving is proved for the SpaceNavigator. Refuted with witnesses: the Wiimote keeps its speed, the Leap is never stopped and jumps at a low alert; an alert only covers the cycle in which it is reported."
  },
  {
   "property": "C62",
   "status": "partial",
   "theorems": [
    "KD.Sdc.C62_release_partial",
    "KD.Sdc.C62_stop_only_after_press",
    "KD.Sdc.C62_obstacle_withholds_stop"
   ],
   "note": "Exactly one stop after the release is proved whenever some cycle is attended; refuted while obstacles stay near, when the stop is withheld for ever."
  },
  {
   "property": "C63",
   "status": "proved",
   "theorems": [
    "KD.Ft.C63_size",
    "KD.Ft.C63_continuous",
    "KD.Ft.C63_contact",
    "KD.Ft.C63_unchanged",
    "KD.Ft.C63_negative_deadband"
   ],
   "note": "For deadbands that are not negative, as the property states; C63_negative_deadband shows what the lack of a check for negative ones leads to."
  },
  {
   "property": "C64",
   "status": "partial",
   "theorems": [
    "KD.Kbd.C64_limits",
    "KD.Kbd.C64_target",
    "KD.Kbd.C64_cartesian_to_joint",
    "KD.Kbd.C64_joint_to_cartesian_partial",
    "KD.Kbd.C64_joints_never_stopped",
    "KD.Kbd.C64_velocity",
    "KD.Kbd.C64_failed_stop_ignored",
    "KD.Kbd.C64_negative_step",
    "KD.Kbd.C64_typed_limits",
    "KD.Kbd.C64_help",
    "KD.Kbd.C64_other_characters_stop",
    "KD.Kbd.C64_print_keys",
    "KD.Kbd.C64_escape"
   ],
   "note": "Limits and the stop of the Cartesian controller are proved for all key sequences and all characters typed (C64_typed_limits, C64_help, C64_other_characters_stop, C64_escape); refuted: switching from joint to Cartesian mode does not stop the joints, a failed stop is ignored, and a negative step lets the velocity be driven with the wrong sign."
  },
  {
   "property": "C65",
   "status": "partial",
   "theorems": [
    "KD.Sdc.C65_only_fresh",
    "KD.Sdc.C65_approach",
    "KD.Sdc.C65_turn",
    "KD.Sdc.C65_no_approach",
    "KD.Sdc.C65_away_sent",
    "KD.Sdc.C65_pose_mode_wrong",
    "KD.Haar.C65_haar_target",
    "KD.Haar.C65_haar_stop_once",
    "KD.Haar.C65_haar_lost",
    "KD.Haar.C65_haar_centred_wrong"
   ],
   "note": "Freshness, the approach and turning directions, and stopping once when the target is lost are proved; refuted: in pose mode the correction is an absolute pose, motion away from the camera is sent as is, and a centred Haar target cannot be told from none, so the robot is stopped."
  },
  {
   "property": "C66",
   "status": "partial",
   "theorems": [
    "KD.Ft.C66_ready_partial",
    "KD.Ft.C66_never_ready",
    "KD.Ft.C66_ready_at_last"
   ],
   "note": "Proved for sensors that become ready before the last attempt; refuted: a sensor that is never ready is accepted, and one that becomes ready at the tenth attempt is refused."
  },
  {
   "property": "C67",
   "status": "partial",
   "theorems": [
    "KD.Ft.C67_command",
    "KD.Ft.C67_pull_partial",
    "KD.Ft.C67_pushes_away"
   ],
   "note": "The command of every cycle is proved; that it pulls back is proved only if the axes of the TCP are those of the base; refuted otherwise: the displacement in base axes is sent in TCP axes."
  },
  {
   "property": "C68",
   "status": "partial",
   "theorems": [
    "KD.Ft.C68_silent",
    "KD.Ft.C68_interrupt",
    "KD.Ft.C68_not_stopped"
   ],
   "note": "No more commands after a loss and the stop on interruption are proved; refuted: nothing stops the robot when the sensor or the controller are lost."
  },
  {
   "property": "C69",
   "status": "partial",
   "theorems": [
    "KD.Kbd.C69_sum_partial",
    "KD.Kbd.C69_no_limit",
    "KD.Kbd.C69_failed_thread",
    "KD.Kbd.C69_thread_known"
   ],
   "note": "The sum and the stop are proved for all sequences of Cartesian keys; refuted: the velocity has no limit, and a failure to prepare the poses leaves the program counting with a velocity that was not commanded."
  },
  {
   "property": "C70",
   "status": "partial",
   "theorems": [
    "KD.Net.C70_denoted_request",
    "KD.Net.C70_other_messages",
    "KD.Net.C70_answered",
    "KD.Net.C70_one_request",
    "KD.Net.C70_texts_are_zeros",
    "KD.Net.C70_remark_taken_for_success"
   ],
   "note": "Which messages reach the controller, and that all others do not, is proved for all messages; refuted: texts in the place of coordinates are taken for zeros, and the client takes the remark about an unknown command for a success."
  },
  {
   "property": "C71",
   "status": "partial",
   "theorems": [
    "KD.Ctrl.C71_commands_serve_partial",
    "KD.Ctrl.C71_tool_frame_mixed"
   ],
   "note": "movl, movv, gcmp and forc over all histories; refuted for movv in the TCP frame (C71_tool_frame_mixed: desired twist and correction are in different axes)."
  },
  {
   "property": "C72",
   "status": "partial",
   "theorems": [
    "KD.Sdc.C72_leap_velocity",
    "KD.Sdc.C72_leap_travel",
    "KD.Sdc.C72_leap_first",
    "KD.Sdc.C72_wiimote",
    "KD.Sdc.C72_wiimote_negative_step"
   ],
   "note": "Leap velocities and Wiimote commands; refuted for a negative step (C72_wiimote_negative_step); the Leap jumps after a low alert (C61_leap_jump)."
  },
  {
   "property": "C73",
   "status": "partial",
   "theorems": [
    "KD.Kbd.C73_poses_partial",
    "KD.Kbd.C73_pose_after_stop",
    "KD.Kbd.C73_crash"
   ],
   "note": "Proved when no call overtakes a run of the thread; refuted otherwise: C73_pose_after_stop, C73_crash."
  },
  {
   "property": "C74",
   "status": "partial",
   "theorems": [
    "KD.DynSolver.C74_torques_balance_gravity",
    "KD.DynSolver.C74_newton_base",
    "KD.DynSolver.C74_newton_tcp",
    "KD.DynSolver.C74_configured_body",
    "KD.DynSolver.C74_tool_without_mass",
    "KD.DynSolver.C74_restored",
    "KD.DynSolver.C74_linear_joint_counterexample"
   ],
   "note": "All theorems hold for the chain solver; the statement fails for linear joints, whose units are taken for degrees (C74_linear_joint_counterexample). The tree solver is in C80."
  },
  {
   "property": "C75",
   "status": "partial",
   "theorems": [
    "KD.KdlConfig.C75_forward_kinematics_partial",
    "KD.KdlConfig.C75_opens",
    "KD.KdlConfig.C75_limits",
    "KD.KdlConfig.C75_short_matrix",
    "KD.KdlConfig.C75_rejected",
    "KD.KdlConfig.C75_missing_link",
    "KD.KdlConfig.C75_bodies",
    "KD.KdlConfig.C75_slide_counterexample",
    "KD.KdlConfig.C75_unknown_type_counterexample",
    "KD.KdlConfig.C75_mass_counterexample",
    "KD.KdlConfig.C75_reopen_counterexample",
    "KD.KdlConfig.C75_gravity_counterexample"
   ],
   "note": "Forward kinematics is proved for links that turn; linear joints, unknown joint types, incomplete dynamic parameters, gravity that is not a list and opening a device that was closed are refuted (counterexample theorems)."
  },
  {
   "property": "C76",
   "status": "partial",
   "theorems": [
    "KD.Ctrl.C76_straight_partial",
    "KD.Ctrl.C76_smooth",
    "KD.Ctrl.C76_duration",
    "KD.Ctrl.C76_shortest",
    "KD.Ctrl.C76_end_position",
    "KD.Ctrl.C76_tiny_astray",
    "KD.Ctrl.C76_negative_duration",
    "KD.Ctrl.C76_movl_partial",
    "KD.Ctrl.C76_cut_short"
   ],
   "note": "straight, smooth, shortest, and combined with the control loop; except for displacements and rotations that KDL does not tell apart. Refuted: several end effectors with too short a duration are cut short (C76_cut_short); tiny displacements go astray"
  },
  {
   "property": "C77",
   "status": "partial",
   "theorems": [
    "KD.Ctrl.C77_keeps_velocity_partial",
    "KD.Ctrl.C77_still",
    "KD.Ctrl.C77_ends",
    "KD.Ctrl.C77_limited",
    "KD.Ctrl.C77_wrong_way",
    "KD.Ctrl.C77_movv_partial",
    "KD.Ctrl.C77_keyboard_partial"
   ],
   "note": "kept within the first ten units of path, up to 10 units of speed and a half turn per second; refuted beyond (C77_ends, C77_limited, C77_wrong_way)"
  },
  {
   "property": "C78",
   "status": "partial",
   "theorems": [
    "KD.C78_posture_found_partial",
    "KD.C78_posture_found_by_hand_partial",
    "KD.C78_near_half_turn_counterexample"
   ],
   "note": "Proved for postures that are not singular for a step (Poised); the order of the steps must be tidy, as for C18. Refuted within a tolerance of half a turn (C78_near_half_turn_counterexample)."
  },
  {
   "property": "C79",
   "status": "partial",
   "theorems": [
    "KD.KdlTreeConfig.C79_opens",
    "KD.KdlTreeConfig.C79_forward_kinematics_partial",
    "KD.KdlTreeConfig.C79_missing_link",
    "KD.KdlTreeConfig.C79_reopen_counterexample",
    "KD.KdlTreeConfig.C79_missing_section_counterexample",
    "KD.KdlTreeConfig.C79_slide_counterexample"
   ],
   "note": "Proved: a described robot opens exactly if it can be put together; forward kinematics for joints that turn; joint numbering, TCPs, limits, gravity; missing links are reported. Refuted with witnesses: linear joints are read as degrees, a limb without a section is accepted, a device that has been closed cannot be opened again."
  },
  {
   "property": "C80",
   "status": "partial",
   "theorems": [
    "KD.KdlTreeConfig.C80_bodies",
    "KD.KdlTreeConfig.C80_places",
    "KD.KdlTreeConfig.C80_tcps",
    "KD.KdlTreeConfig.C80_self_merge_counterexample",
    "KD.TreeDynSolver.C80_torques_balance_gravity",
    "KD.TreeDynSolver.C80_newton_tcp",
    "KD.TreeDynSolver.C80_newton_base",
    "KD.TreeDynSolver.C80_linear_joint_counterexample"
   ],
   "note": "Proved for every tree that is put together by adding segments, with joints that turn, and that the solver opened from a configuration is such a tree with the masses configured. Refuted with witnesses: linear joints are read as degrees; a TCP that goes with itself loses its wrench."
  },
  {
   "property": "C81",
   "status": "partial",
   "theorems": [
    "KD.Ctrl.C81_opened",
    "KD.Ctrl.C81_parameters_partial",
    "KD.Ctrl.C81_limits",
    "KD.Ctrl.C81_opens",
    "KD.Ctrl.C81_rejected",
    "KD.Ctrl.C81_kdl_limits",
    "KD.Ctrl.C81_histories_partial",
    "KD.Ctrl.C81_kdl_opens",
    "KD.Ctrl.C81_stat_partial",
    "KD.Ctrl.C81_user_limits_undefined",
    "KD.Ctrl.C81_zero_period_undefined",
    "KD.Ctrl.C81_partial_limits_counterexample",
    "KD.Ctrl.C81_flag_counterexample",
    "KD.Ctrl.C81_unchecked_parameters",
    "KD.Ctrl.C81_text_parameter_counterexample",
    "KD.Ctrl.C81_axes_undefined",
    "KD.Ctrl.C81_period_partial",
    "KD.Ctrl.C81_fraction_counterexample"
   ],
   "note": "Parameters, interfaces, numbers of joints, limits of the robot, what opens and what is refused, histories from opening on, the period and the pose reported with the KDL solver are proved. Not true of the code: user limits (C81_user_limits_undefined, C81_partial_limits_counterexample), flags with a false value, unchecked parameters (zero period undefined), getAxes failures, fractions of a millisecond in the reported period. The pose reported is for joints that turn (see C75)."
  },
  {
   "property": "C82",
   "status": "partial",
   "theorems": [
    "KD.Ctrl.C82_line_partial",
    "KD.Ctrl.C82_ray_partial",
    "KD.Ctrl.C82_defined_partial",
    "KD.Ctrl.C82_stat_partial",
    "KD.Ctrl.C82_movj_partial",
    "KD.Ctrl.C82_pose_partial",
    "KD.Ctrl.C82_twist_partial",
    "KD.Ctrl.C82_movl_partial",
    "KD.Ctrl.C82_movv_partial",
    "KD.Ctrl.C82_gcmp_partial",
    "KD.Ctrl.C82_forc_partial"
   ],
   "note": "For every configuration of revolute arms, and all histories, with the chain solver answering the calls of the controller; lines and velocities are those of the arm (C82_line_partial, C82_ray_partial). Missing: the inverse solvers are any that reach what they accept, as close as assumed; prismatic joints are not covered, as the controller scales them like angles; movv in the tool frame mixes frames (C71)."
  },
  {
   "property": "C83",
   "status": "partial",
   "theorems": [
    "KD.Ctrl.C83_preset_commands_carried_out_partial",
    "KD.Sdc.C83_device_obeyed_partial",
    "KD.Ft.C83_compensation_obeyed_partial",
    "KD.Ctrl.C83_stream_dead_after_stop",
    "KD.Ctrl.C83_stop_dropped",
    "KD.Haar.C83_haar_does_not_start",
    "KD.Haar.C83_haar_never_moves",
    "KD.Haar.C83_haar_interrupt_stops",
    "KD.Haar.C83_haar_target_stops"
   ],
   "note": "Commands of the device controller and of force compensation reach the joints as long as no other client commands the controller (C83_device_obeyed_partial, C83_compensation_obeyed_partial). What is missing fails: the face follower does not start, and would never move the robot, since it sets no preset; after a stop by anyone all streamed commands are ignored without notice; a joint that leaves the mode makes the controller drop even the command to stop."
  },
  {
   "property": "C84",
   "status": "partial",
   "theorems": [
    "KD.Net.C84_one_server_partial",
    "KD.Net.C84_client_opens_iff",
    "KD.Net.C84_server_opens_iff",
    "KD.Net.C84_stays_connected",
    "KD.Net.C84_restart_loses_clients",
    "KD.Net.C84_defaults_counterexample"
   ],
   "note": "Proved for every history of openings and closings while both devices stay open (C84_one_server_partial, C84_stays_connected), with exact conditions for opening. What is missing fails: default names of client and server differ, and a client is not reconnected to a server that was restarted."
  },
  {
   "property": "C85",
   "status": "partial",
   "theorems": [
    "KD.Ctrl.WithAsibot.C85_solver_opens",
    "KD.Ctrl.WithAsibot.C85_solver_opened",
    "KD.Ctrl.WithAsibot.C85_deployed",
    "KD.Ctrl.WithAsibot.C85_defined",
    "KD.Ctrl.WithAsibot.C85_stat_partial",
    "KD.Ctrl.WithAsibot.C85_stat_behind_wrong",
    "KD.Ctrl.WithAsibot.C85_movj_partial",
    "KD.Ctrl.WithAsibot.C85_pose_partial",
    "KD.Ctrl.WithAsibot.C85_twist_partial",
    "KD.Ctrl.WithAsibot.C85_gcmp_never",
    "KD.Ctrl.WithAsibot.C85_forc_never",
    "KD.Ctrl.WithAsibot.C85_wrench_zero",
    "KD.Ctrl.WithAsibot.C85_movl_partial",
    "KD.Ctrl.WithAsibot.C85_movv_partial",
    "KD.Ctrl.WithAsibot.C85_opens",
    "KD.Ctrl.WithAsibot.C85_move_then_stat_counterexample"
   ],
   "note": "Opening, the reported pose, movj, pose, twist, movl, movv and definedness are proved for every history, where the solver is meant for the pose; behind the base axis stat is refuted (C85_stat_behind_wrong, C85_move_then_stat_counterexample), force commands are accepted and never served (C85_gcmp_never, C85_forc_never, C85_wrench_zero). Missing: tools with velocities, where C57 refutes it."
  },
  {
   "property": "C86",
   "status": "partial",
   "theorems": [
    "KD.Ctrl.C86_line_partial",
    "KD.Ctrl.C86_stat_partial",
    "KD.Ctrl.C86_limits",
    "KD.Ctrl.C86_movj_partial",
    "KD.Ctrl.C86_pose_partial",
    "KD.Ctrl.C86_defined_partial",
    "KD.Ctrl.C86_opened",
    "KD.Ctrl.C86_unreachable_counterexample",
    "KD.Ctrl.C86_orientation_counterexample",
    "KD.Ctrl.C86_inverted_counterexample",
    "KD.Ctrl.C86_gait_counterexample",
    "KD.Ctrl.C86_tool_counterexample"
   ],
   "note": "Opening, the reported pose, joint limits of everything that is sent (C86_limits), soundness of movj, pose and lines of joint positions where all steps found the pose within reach, and definedness for the default strategy with tools that leave the problem alike are proved for every history; refuted: poses out of reach are refused, orientation is reached, inverted joints, the gait strategy is checked at opening, a tool can be taken off again (the C86_*_counterexample theorems)."
  },
  {
   "property": "C87",
   "status": "partial",
   "theorems": [
    "KD.StDemo.C87_line",
    "KD.StDemo.C87_commands_partial",
    "KD.StDemo.C87_limits_never_checked",
    "KD.StDemo.C87_near_partial",
    "KD.StDemo.C87_cut_short_counterexample",
    "KD.StDemo.C87_more_axes_counterexample",
    "KD.StDemo.C87_stretched_counterexample"
   ],
   "note": "The line, its speed, acceleration and duration; commands are configurations of the pose of the line, first the closest, then of the same branch; distance to the line when the pose is within reach. Refuted: joint limits are not kept, the line may be cut short, a stretched arm is told to fold its elbow, more than six axes are undefined."
  },
  {
   "property": "C88",
   "status": "partial",
   "theorems": [
    "KD.Cuboid.C88_outer_box",
    "KD.Cuboid.C88_contains_start",
    "KD.Cuboid.C88_not_smaller_partial",
    "KD.Cuboid.C88_all_reachable",
    "KD.Cuboid.C88_heights_reachable",
    "KD.Cuboid.C88_a_layer",
    "KD.Cuboid.C88_unreachable_counterexample",
    "KD.Cuboid.C88_at_the_edge_counterexample"
   ],
   "note": "Proved: where the outer box ends, the cuboid contains the initial position and lies in the outer box, it is not smaller than any reachable cuboid that starts before the initial position on every axis, and it is the whole grid if all of it is reachable. Refuted: all its points are reachable, and cuboids that start at the initial position are considered. The heights of the cuboid that is found are those of a reachable one (C88_heights_reachable)."
  },
  {
   "property": "C89",
   "status": "partial",
   "theorems": [
    "KD.C89_found_partial",
    "KD.C89_never_null_partial",
    "KD.KdlConfig.C89_file_opens_partial"
   ],
   "note": "The right problem is found whatever is drawn and the device opens; draws that hit a crossing of axes are left out."
  },
  {
   "property": "C90",
   "status": "partial",
   "theorems": [
    "KD.C90_success_at_other_pose_counterexample",
    "KD.C90_stretched_counterexample",
    "KD.C90_own_posture_partial"
   ],
   "note": "Refuted for the two-link arm of the library's own test, whatever is drawn: a request answered with the code of success at another pose, and the pose of any stretched posture answered with zeros. Proved for every arm: the posture given as the guess is answered when its pose is asked for, if no step is singular there."
  },
  {
   "property": "C91",
   "status": "partial",
   "theorems": [
    "KD.KdlTreeConfig.C91_forward_kinematics_partial",
    "KD.KdlTreeConfig.C91_inverse_dynamics_partial",
    "KD.KdlTreeConfig.C91_inverse_kinematics_partial",
    "KD.KdlTreeConfig.C91_poses_partial",
    "KD.KdlTreeConfig.C91_uncounted"
   ],
   "note": "All methods agree for robots of one limb with both devices open, at least one joint and vectors of six numbers (C91_forward_kinematics_partial, C91_inverse_dynamics_partial, C91_inverse_kinematics_partial, C91_poses_partial). Refuted without the key numLinks (C91_uncounted)."
  },
  {
   "property": "C92",
   "status": "partial",
   "theorems": [
    "KD.Ctrl.C92_one_after_another_partial",
    "KD.Ctrl.C92_client_one_after_another_partial",
    "KD.Ctrl.C92_no_trouble_partial",
    "KD.Ctrl.C92_late_speeds",
    "KD.Ctrl.C92_late_stop"
   ],
   "note": "For every list of poses, robot and interleaving: no movement is ordered before the control loop has heard that the previous one is done or has met trouble; without trouble nobody stops the robot. The full claim fails: the last calls of the control loop for a movement can come during the next one (speeds overwritten, or the next movement stopped)."
  },
  {
   "property": "C93",
   "status": "partial",
   "theorems": [
    "KD.DhTable.C93_words_replaced",
    "KD.DhTable.C93_lengths",
    "KD.DhTable.C93_joints_clear",
    "KD.DhTable.C93_prints_pose_partial",
    "KD.DhTable.C93_goes_to_configuration",
    "KD.DhTable.C93_viewer_partial",
    "KD.DhTable.C93_longer_names",
    "KD.DhTable.C93_joint_28"
   ],
   "note": "words replaced one after another, the pose printed and its way into a configuration, and the viewer's segments for all tables whose names can be told apart; refuted for a name that begins with an earlier one and for joints above 27"
  },
  {
   "property": "C94",
   "status": "partial",
   "theorems": [
    "KD.Kbd.C94_starts_iff",
    "KD.Kbd.C94_typed_admitted",
    "KD.Kbd.C94_only_what_is_asked",
    "KD.Kbd.C94_starts_at_rest",
    "KD.Kbd.C94_frame_followed",
    "KD.Kbd.C94_label_names_representation",
    "KD.Kbd.C94_printed_pose_partial",
    "KD.Kbd.C94_polar_prints_radians",
    "KD.Kbd.C94_polar_witness",
    "KD.Kbd.C94_printed_joints_partial",
    "KD.Kbd.C94_no_encoders_shows_zeros",
    "KD.Kbd.C94_period_unchecked"
   ],
   "note": "Exact condition to start, rest at the start, limits of the robot for whatever is typed, devices not asked for never called, frame followed, label and printed numbers proved. Partial: a pose that polarAzimuth cannot express is printed in radians under the label for degrees, zeros are shown if the robot does not answer, and the period of the thread is not checked (witnesses)."
  },
  {
   "property": "C95",
   "status": "partial",
   "theorems": [
    "KD.Sdc.C95_starts_iff",
    "KD.Sdc.C95_started_as_asked",
    "KD.Sdc.C95_obeyed_partial",
    "KD.Sdc.C95_rotations_as_asked",
    "KD.Sdc.C95_never_divides_partial",
    "KD.Sdc.C95_scaling_unchecked",
    "KD.Sdc.C95_leap_frame_unchecked",
    "KD.Sdc.C95_threshold_kept_partial",
    "KD.Sdc.C95_threshold_cut",
    "KD.Sdc.C95_refused_unchanged_partial",
    "KD.Sdc.C95_refused_too_late",
    "KD.Sdc.C95_pose_assumed"
   ],
   "note": "Proved: the exact condition to start; a started program is at rest, sends the kind of command, holds the axes and uses the sensors asked for; everything it sends is carried out; no division by zero unless the scaling is zero or a Leap sensor sends velocities; no movement beyond the threshold. Refuted with witnesses: late refusals change the controller, a malformed leapFrameRPY crashes, zero scaling is accepted, thresholds lose their fractions, an unknown pose is taken to be the origin."
  },
  {
   "property": "C96",
   "status": "partial",
   "theorems": [
    "KD.Life.C96_ends_well_partial",
    "KD.Life.C96_signal_while_starting",
    "KD.Life.C96_early_moments",
    "KD.Life.C96_exact_moments",
    "KD.Life.C96_answers",
    "KD.Life.C96_stops_robot",
    "KD.Life.C96_stops_only",
    "KD.Life.C96_terminal_partial",
    "KD.Life.C96_refused_answers_zero",
    "KD.Life.C96_no_network",
    "KD.Life.C96_late_signal",
    "KD.Life.C96_terminal_zeroed"
   ],
   "note": "Proved: without signals while starting, no undefined behaviour and everything closed whatever fails; exact moments at which a signal during the start is undefined behaviour; who is told to stop; the number answered; settings of the terminal. Refuted with witnesses: refused starts that answer 0, undefined behaviour without a network (streaming), for signals too early or after close, terminal left non-blocking."
  },
  {
   "property": "C97",
   "status": "partial",
   "theorems": [
    "KD.Ctrl.C97_stop_holds_partial",
    "KD.Ctrl.C97_silence_partial",
    "KD.Ctrl.C97_stopped_then_moved",
    "KD.Ctrl.C97_streamed_after_stop"
   ],
   "note": "With any number of clients that only ask, set parameters other than the streaming command, wait, attach tools or stop, and any stream of commands, at most two motion commands follow the answer to a stop, and the controller stays stopped; none if the loop and the stream were at rest. Refuted for a movement that another client had ordered before the stop (C97_stopped_then_moved), and for a streamed command in progress (C97_streamed_after_stop)."
  },
  {
   "property": "C98",
   "status": "partial",
   "theorems": [
    "KD.Asibot.C98_alone",
    "KD.Asibot.C98_at_once_partial",
    "KD.Asibot.C98_tool_lost",
    "KD.Asibot.C98_unreachable_halfway"
   ],
   "note": "Proved for one thread that changes the tool and calls anything, beside any number of threads that ask for poses, joints for poses in the base frame, changes of origin and differences (C98_at_once_partial), and for calls that are alone (C98_alone). Refuted for two threads that attach tools (C98_tool_lost) and for poses in the frame of the tool while another thread attaches one (C98_unreachable_halfway)."
  },
  {
   "property": "C99",
   "status": "partial",
   "theorems": [
    "KD.Ctrl.WithAsibot.C99_old_none_or_new_partial",
    "KD.Ctrl.WithAsibot.C99_each_answer_partial",
    "KD.Ctrl.WithAsibot.C99_moving_or_not",
    "KD.Ctrl.WithAsibot.C99_bare_halfway",
    "KD.Ctrl.WithAsibot.C99_line_jumps"
   ],
   "note": "Proved: at every moment of every interleaving the solver has the old tool, none, or the new one alone, and the new one once the call has returned with success (C99_old_none_or_new_partial); every answer to any thread is right for one of these (C99_each_answer_partial); in any state the change succeeds and leaves the state of the controller as it is (C99_moving_or_not). Refuted: another client sees the bare hand in between (C99_bare_halfway), and a movement in progress is disturbed (C99_line_jumps)."
  },
  {
   "property": "C100",
   "status": "partial",
   "theorems": [
    "KD.C100_chain_frames",
    "KD.C100_chain_kinematics",
    "KD.C100_chain_dynamics",
    "KD.C100_tree_frames_partial",
    "KD.C100_tree_frames_undefined",
    "KD.C100_tree_kinematics",
    "KD.C100_tree_fwdKin_failure",
    "KD.C100_tree_dynamics",
    "KD.C100_asibot_frames",
    "KD.C100_asibot_kinematics",
    "KD.C100_asibot_long_velocity_undefined",
    "KD.C100_append_another",
    "KD.C100_append_itself_never_ends"
   ],
   "note": "Proved for every method of the chain and ASIBOT solvers and, in the tree solver, for the inverse and differential kinematics, the dynamics and a forward kinematics that succeeds (inverse solvers of KDL fill arrays of as many joints as the chain; ASIBOT velocities of up to six elements, the rest being zero). Refuted for changeOrigin and poseDiff of the tree solver (undefined when the result is an argument), for its fwdKin when it fails (result changed), for longer ASIBOT velocities (undefined) and for an expression appended to itself (never ends)."
  },
  {
   "property": "C101",
   "status": "partial",
   "theorems": [
    "KD.C101_kinematics_at_once_partial",
    "KD.C101_torques_at_once_or_refused_partial",
    "KD.C101_no_race_attaching",
    "KD.C101_no_race_same_tool",
    "KD.C101_restore_races",
    "KD.C101_attach_races",
    "KD.C101_torques_refused",
    "KD.C101_wrench_of_two_tools"
   ],
   "note": "Proved up to a data race for all calls but inverse dynamics (C101_kinematics_at_once_partial), and with it, but for wrenches in the base frame, as if done at once or refused (C101_torques_at_once_or_refused_partial); no data race if tools are only attached and no torques asked for, or if the tool stays as it is. Refuted: data races of restoreOriginalChain and of appendLink beside inverse dynamics, torques refused for no reason, a base-frame wrench of one tool applied to another."
  },
  {
   "property": "C102",
   "status": "partial",
   "theorems": [
    "KD.C102_same_movement_partial",
    "KD.C102_stump_options",
    "KD.C102_impedance_counterexample"
   ],
   "note": "Proved without impedance for every rotation, whatever happens (C102_same_movement_partial), and for the two ways of describing the stump (C102_stump_options). Refuted with impedance (C102_impedance_counterexample)."
  },
  {
   "property": "C103",
   "status": "partial",
   "theorems": [
    "KD.C103_forward_kinematics",
    "KD.C103_inverse_dynamics",
    "KD.C103_velocities",
    "KD.C103_positions_partial",
    "KD.C103_differential_solver",
    "KD.C103_opens"
   ],
   "note": "Opening, forward kinematics, inverse dynamics, velocities (for solvers that choose by the miss) and the differential position solver proved for every placement; that the other position solvers answer alike for robot and target moved together is a hypothesis."
  },
  {
   "property": "C104",
   "status": "partial",
   "theorems": [
    "KD.C104_forward_kinematics",
    "KD.C104_inverse_dynamics",
    "KD.C104_velocities",
    "KD.C104_differential_solver"
   ],
   "note": "Forward kinematics, inverse dynamics, velocities (for the solver of the shortest of the closest speeds) and the differential position solver proved for every set of reversed joints; the screw theory solver and the position solvers of KDL are missing."
  },
  {
   "property": "C105",
   "status": "partial",
   "theorems": [
    "KD.DynSolver.C105_power_base",
    "KD.DynSolver.C105_power_tcp",
    "KD.DynSolver.C105_braking",
    "KD.DynSolver.C105_no_torque",
    "KD.DynSolver.C105_released",
    "KD.DynSolver.C105_linear_joint_counterexample"
   ],
   "note": "Proved for every chain of bodies with proper frames and axes: the rate of the energy is the power of the torques plus that of the wrench, in base and TCP axes; energy kept with no torques, never gained while braking, never above the release. Refuted for linear joints in their documented units (C105_linear_joint_counterexample: free fall in meters is given a force)."
  },
  {
   "property": "C106",
   "status": "proved",
   "theorems": [
    "KD.DynSolver.C106_superposition",
    "KD.DynSolver.C106_faster",
    "KD.DynSolver.C106_inertia",
    "KD.DynSolver.C106_symmetric",
    "KD.DynSolver.C106_positive"
   ],
   "note": "Superposition and pace for every chain and request that the solver answers; symmetry and sign for every chain whose inertias are those of bodies with proper frames and axes."
  },
  {
   "property": "C107",
   "status": "proved",
   "theorems": [
    "KD.DynSolver.C107_tcp",
    "KD.DynSolver.C107_base",
    "KD.DynSolver.C107_tools",
    "KD.DynSolver.C107_no_force"
   ],
   "note": "For every chain with proper frames and at least one segment, any list of tools in base axes (C107_tools), each tool in the axes of its tip (C107_tcp), and no forces (C107_no_force)."
  },
  {
   "property": "C108",
   "status": "proved",
   "theorems": [
    "KD.DynSolver.C108_jacobian_base",
    "KD.DynSolver.C108_jacobian_tcp",
    "KD.DynSolver.C108_diffInvKin"
   ],
   "note": "For every chain whose inertias are those of bodies with proper frames; for any joint speeds with the Jacobian (C108_jacobian_base, C108_jacobian_tcp), and for those that diffInvKin answers where the velocity solver finds the wanted velocity (C108_diffInvKin)."
  },
  {
   "property": "C109",
   "status": "proved",
   "theorems": [
    "KD.TreeDynSolver.C109_superposition",
    "KD.TreeDynSolver.C109_faster",
    "KD.TreeDynSolver.C109_still",
    "KD.TreeDynSolver.C109_inertia",
    "KD.TreeDynSolver.C109_symmetric",
    "KD.TreeDynSolver.C109_positive"
   ],
   "note": "Props/TreeTorques.lean: superposition, faster, still, inertia, symmetric and positive, for every tree, TCPs and frame of reference; revolute units (degrees), as everywhere in the API."
  },
  {
   "property": "C110",
   "status": "partial",
   "theorems": [
    "KD.TreeDynSolver.C110_power_base",
    "KD.TreeDynSolver.C110_power_tcp",
    "KD.TreeDynSolver.C110_braking",
    "KD.TreeDynSolver.C110_no_torque",
    "KD.TreeDynSolver.C110_released"
   ],
   "note": "Props/TreeEnergy.lean: power in base and TCP axes, braking, no torque and release, for every tree and motion in the units the solver uses inside. Missing: linear joints in meters, refuted by C80_linear_joint_counterexample."
  },
  {
   "property": "C111",
   "status": "proved",
   "theorems": [
    "KD.TreeDynSolver.C111_forces_base",
    "KD.TreeDynSolver.C111_forces_tcp"
   ],
   "note": "Props/TreeDuality.lean: in base axes and in those of the TCPs, for all trees, TCPs and merges."
  }
 ]
}