{
 "claims": [
  {
   "property": "C01",
   "status": "proved",
   "theorems": [
    "Verif.Props.c01_safe_sum_exact",
    "Verif.Props.c01_safe_difference_exact",
    "Verif.Props.c01_safe_abs_exact",
    "Verif.Props.c01_no_ub"
   ],
   "note": "All int64 inputs; exact result or throw, never UB."
  },
  {
   "property": "C02",
   "status": "proved",
   "theorems": [
    "Verif.Props.c02_safe_sum_message",
    "Verif.Props.c02_safe_difference_message"
   ],
   "note": "The message names the direction of the overflow."
  },
  {
   "property": "C03",
   "status": "proved",
   "theorems": [
    "Verif.Props.c03_num_samples_least",
    "Verif.Props.c03_num_samples_throws",
    "Verif.Props.c03_num_samples_no_ub",
    "Verif.Props.c03_equal_bounds"
   ],
   "note": "Count is the least feasible one for distinct bounds; equal bounds give 1 or 2 (shown by c03_equal_bounds)."
  },
  {
   "property": "C04",
   "status": "proved",
   "theorems": [
    "Verif.Props.c04_sample_interval_walks",
    "Verif.Props.c04_equal_bounds"
   ],
   "note": "Endpoints exact, steps monotone and at most max_dt."
  },
  {
   "property": "C05",
   "status": "partial",
   "theorems": [
    "Verif.Props.c05_forward_nearest_partial",
    "Verif.Props.c05_backward_not_nearest",
    "Verif.Props.c05_backward_within_one_partial"
   ],
   "note": "Nearest for forward intervals; backward intervals truncate (c05_backward_not_nearest is a counterexample), only within one step unit."
  },
  {
   "property": "C06",
   "status": "partial",
   "theorems": [
    "Verif.Props.c06_completes_partial",
    "Verif.Props.c06_account",
    "Verif.Props.c06_not_ub_free",
    "Verif.Props.c06_throws_midway"
   ],
   "note": "The code overflows after the last sample for extreme intervals (c06_not_ub_free) and can throw midway (c06_throws_midway); completion proved when the interval leaves room."
  },
  {
   "property": "C07",
   "status": "proved",
   "theorems": [
    "Verif.Props.c07_covers",
    "Verif.Props.c07_ub_iff",
    "Verif.Props.c07_throw_iff"
   ],
   "note": "Over real arithmetic instead of doubles; the int cast is checked and out-of-range casts are UB (c07_ub_iff)."
  },
  {
   "property": "C08",
   "status": "proved",
   "theorems": [
    "Verif.Props.c08_round_trip",
    "Verif.Props.c08_canonical_recovered",
    "Verif.Props.c08_from_ub_iff"
   ],
   "note": "Round trip of (secs, nanos) for every int64 timestamp."
  },
  {
   "property": "C09",
   "status": "partial",
   "theorems": [
    "Verif.Props.c09_nanos_range_partial",
    "Verif.Props.c09_negative_nanos_iff"
   ],
   "note": "Range -1e9 < nanos < 1e9; nanos are negative exactly for non-whole times before the epoch."
  },
  {
   "property": "C10",
   "status": "partial",
   "theorems": [
    "Verif.Props.c10_within_one_ns_partial",
    "Verif.Props.c10_whole_seconds_exact",
    "Verif.Props.c10_round_trip_fails"
   ],
   "note": "Round trip is false (15 ns becomes 14 ns); within one ns for small durations and exact for whole seconds."
  },
  {
   "property": "C11",
   "status": "proved",
   "theorems": [
    "Verif.Props.c11_as_seconds_mono",
    "Verif.Props.c11_as_seconds_strict",
    "Verif.Props.c11_collapse"
   ],
   "note": "Monotone for all durations, strict up to 2^52 ns; distinct durations collapse above (c11_collapse)."
  },
  {
   "property": "C12",
   "status": "proved",
   "theorems": [
    "Verif.Props.c12_refines_stable_list",
    "Verif.Props.c12_comparator_strict_weak"
   ],
   "note": "For any priority queue meeting the std::priority_queue contract (structure PriorityQueue); a concrete instance is exhibited."
  },
  {
   "property": "C13",
   "status": "proved",
   "theorems": [
    "Verif.Props.c13_conservation"
   ],
   "note": "Multiset conservation over every history."
  },
  {
   "property": "C14",
   "status": "proved",
   "theorems": [
    "Verif.Props.c14_drain_stable",
    "Verif.Props.c14_drain_sorted"
   ],
   "note": "Draining is a stable sort by time."
  },
  {
   "property": "C15",
   "status": "proved",
   "theorems": [
    "Verif.Props.c15_exhaustion",
    "Verif.Props.c15_sequence_numbers_distinct"
   ],
   "note": "The 2^64-1 bound on sequence numbers is explicit."
  },
  {
   "property": "C16",
   "status": "proved",
   "theorems": [
    "Verif.Props.c16_ub_iff_empty",
    "Verif.Props.c16_guarded_history_safe"
   ],
   "note": "top/pop on an empty schedule is undefined behaviour in the code, and only that."
  },
  {
   "property": "C17",
   "status": "proved",
   "theorems": [
    "Verif.Props.c17_print_parse",
    "Verif.Props.c17_parse_print",
    "Verif.Props.c17_equalities",
    "Verif.Props.c17_pack_unpack",
    "Verif.Props.c17_null",
    "Verif.Props.c17_printed_canonical"
   ],
   "note": "NUL-free strings for the parse-then-print direction; see C18 for embedded NULs."
  },
  {
   "property": "C18",
   "status": "partial",
   "theorems": [
    "Verif.Props.c18_accepts_prefix",
    "Verif.Props.c18_accepts_iff_canonical_partial",
    "Verif.Props.c18_embedded_nul_accepted"
   ],
   "note": "Exact for NUL-free strings; the code accepts a canonical prefix followed by NUL and anything (c18_embedded_nul_accepted)."
  },
  {
   "property": "C19",
   "status": "partial",
   "theorems": [
    "Verif.Props.c19_chain_partial",
    "Verif.Props.c19_chain_returns_partial",
    "Verif.Props.c19_chain_value_partial",
    "Verif.Props.c19_undefined_iff",
    "Verif.Props.c19_temporary",
    "Verif.Props.c19_value_iff_ok",
    "Verif.Props.c19_constructors",
    "Verif.Props.c19_text",
    "Verif.Props.c19_check",
    "Verif.Props.c19_check_expr_partial",
    "Verif.Props.c19_check_twice",
    "Verif.Props.c19_example_wrapping",
    "Verif.Props.c19_example_undefined",
    "Verif.Props.c19_example_named_partial"
   ],
   "note": "For chains whose RETURN_OR_ASSIGN arguments outlive the statement, and CHECK_STATUS_OK of expressions without effects. RETURN_OR_ASSIGN of a call that returns by value uses a destroyed temporary (c19_undefined_iff, c19_temporary); CHECK_STATUS_OK evaluates its argument twice (c19_check_twice). The shipped example runs into the former (c19_example_undefined)."
  },
  {
   "property": "C20",
   "status": "proved",
   "theorems": [
    "Verif.Props.c20_never_half_framed",
    "Verif.Props.c20_half_framed_refused",
    "Verif.Props.c20_from_rotation",
    "Verif.Props.c20_set_frames"
   ],
   "note": "Induction over every sequence of public operations (Obtainable)."
  },
  {
   "property": "C21",
   "status": "proved",
   "theorems": [
    "Verif.Props.c21_composition_frames"
   ],
   "note": ""
  },
  {
   "property": "C23",
   "status": "partial",
   "theorems": [
    "Verif.Props.c23_bracketing_partial",
    "Verif.Props.c23_mixed_bracketing_differs"
   ],
   "note": "Holds when all three operands are framed or all unframed; mixed operands depend on bracketing (c23_mixed_bracketing_differs)."
  },
  {
   "property": "C22",
   "status": "proved",
   "theorems": [
    "Verif.Props.c22_so3_group_laws",
    "Verif.Props.c22_se3_group_laws",
    "Verif.Props.c22_matrix_meaning"
   ],
   "note": "Exact real arithmetic; for values that are proper rotations (see C24 for reachability)."
  },
  {
   "property": "C24",
   "status": "proved",
   "theorems": [
    "Verif.Props.c24_so3_action",
    "Verif.Props.c24_se3_action",
    "Verif.Props.c24_reachable_rotations",
    "Verif.Props.c24_reachable_poses"
   ],
   "note": "Exact real arithmetic."
  },
  {
   "property": "C25",
   "status": "proved",
   "theorems": [
    "Verif.Props.c25_rotate",
    "Verif.Props.c25_add",
    "Verif.Props.c25_scale",
    "Verif.Props.c25_rotate_linear",
    "Verif.Props.c25_so3_rotate_linear",
    "Verif.Props.c25_se3_rotate_linear",
    "Verif.Props.c25_eq",
    "Verif.Props.c25_rotate_composition",
    "Verif.Props.c25_so3_rotate_composition",
    "Verif.Props.c25_se3_rotate_composition"
   ],
   "note": "Frame checks for any group class; composition also for SO3 and SE3."
  },
  {
   "property": "C26",
   "status": "proved",
   "theorems": [
    "Verif.Props.c26_so3_adjoint",
    "Verif.Props.c26_se3_adjoint"
   ],
   "note": "Exact real arithmetic; group conjugation for SE3 only outside the small-angle region, where exp is exact."
  },
  {
   "property": "C27",
   "status": "proved",
   "theorems": [
    "Verif.Props.c27_so3_exp",
    "Verif.Props.c27_se3_exp"
   ],
   "note": "Exact real arithmetic against Mathlib's matrix exponential."
  },
  {
   "property": "C28",
   "status": "proved",
   "theorems": [
    "Verif.Props.c28_tiny_coefficients",
    "Verif.Props.c28_zero",
    "Verif.Props.c28_exact_above"
   ],
   "note": "Exact real arithmetic."
  },
  {
   "property": "C29",
   "status": "proved",
   "theorems": [
    "Verif.Props.c29_exp_log",
    "Verif.Props.c29_log_exp",
    "Verif.Props.c29_log_exp_iff",
    "Verif.Props.c29_half_turn"
   ],
   "note": "Exact real arithmetic; Eigen's matrix to quaternion to angle-axis algorithm is modelled with all its branches. c29_log_exp_iff says exactly which vectors come back, half turns included."
  },
  {
   "property": "C30",
   "status": "partial",
   "theorems": [
    "Verif.Props.c30_exp_log_partial",
    "Verif.Props.c30_log_exp_partial",
    "Verif.Props.c30_small_angle_close_partial",
    "Verif.Props.c30_small_angle_fails"
   ],
   "note": "Exact for angle zero or at least 0.002; false in between because of a wrong series coefficient (c30_small_angle_fails), where the error is bounded by 1e-15 of the translation."
  },
  {
   "property": "C31",
   "status": "partial",
   "theorems": [
    "Verif.Props.c31_so3_interp",
    "Verif.Props.c31_se3_interp_partial",
    "Verif.Props.c31_interp_new_from",
    "Verif.Props.c31_se3_close_partial",
    "Verif.Props.c31_se3_close",
    "Verif.Props.c31_se3_add"
   ],
   "note": "SO3 in full. SE3: end point and additivity exact only for angles outside the small-angle region; for every angle and fraction the rotation is exact and the position is off one exact screw motion, and additivity fails, by at most 4e-15 of the distance covered. Two-argument form proved for any group class."
  },
  {
   "property": "C32",
   "status": "partial",
   "theorems": [
    "Verif.Props.c32_inverse_distance",
    "Verif.Props.c32_distance_partial",
    "Verif.Props.c32_distance_metric",
    "Verif.Props.c32_distance_fails"
   ],
   "note": "se3_inverse_distance in full; se3_distance is a metric but is not the documented quantity when the rotations differ (c32_distance_fails)."
  },
  {
   "property": "C33",
   "status": "proved",
   "theorems": [
    "Verif.Props.c33_so3",
    "Verif.Props.c33_se3",
    "Verif.Props.c33_identity_frames"
   ],
   "note": "Exact real arithmetic, frames included."
  },
  {
   "property": "C34",
   "status": "proved",
   "theorems": [
    "Verif.Props.c34_so3",
    "Verif.Props.c34_se3"
   ],
   "note": "Exact real arithmetic, frames included."
  },
  {
   "property": "C35",
   "status": "proved",
   "theorems": [
    "Verif.Props.c35_so3",
    "Verif.Props.c35_se3"
   ],
   "note": "Against true matrix derivatives of arbitrary motions."
  },
  {
   "property": "C36",
   "status": "proved",
   "theorems": [
    "Verif.Props.c36_hermite"
   ],
   "note": "Against Mathlib polynomials and their formal derivatives."
  },
  {
   "property": "C37",
   "status": "partial",
   "theorems": [
    "Verif.Props.c37_construct",
    "Verif.Props.c37_so3",
    "Verif.Props.c37_se3_partial",
    "Verif.Props.c37_se3_close_partial",
    "Verif.Props.c37_se3_small_angle_fails",
    "Verif.Props.c38_se3_close"
   ],
   "note": "SO3 in full. SE3: start always, end exact when the relative rotation is zero or at least 0.002; below that off by at most 1e-15 of the distance, and a witness shows it is not exact. All along, every answer is within rounding-sized distances of one exact motion (c38_se3_close)."
  },
  {
   "property": "C38",
   "status": "partial",
   "theorems": [
    "Verif.Props.c38_so3",
    "Verif.Props.c38_se3_partial",
    "Verif.Props.c38_se3_ends",
    "Verif.Props.c38_se3_close",
    "Verif.Props.c38_se3_small_angle_fails"
   ],
   "note": "SO3 in full. SE3: exact at every time when no term is strictly inside the small-angle region, which includes both ends; exactness is false inside it (c38_se3_small_angle_fails). At all turns and times the answers are within rounding-sized distances of a motion with exactly the stated derivatives (c38_se3_close)."
  },
  {
   "property": "C39",
   "status": "partial",
   "theorems": [
    "Verif.Props.c39_so3",
    "Verif.Props.c39_so3_everywhere",
    "Verif.Props.c39_se3_partial",
    "Verif.Props.c39_se3_close_partial",
    "Verif.Props.c39_se3_small_angle_fails",
    "Verif.Props.c70_se3_close"
   ],
   "note": "SO3 in full, and continuity at all times. SE3 exactly when neighbouring controls differ by no rotation or by more than 0.002; for every angle with a translation off by at most 1e-15 of the distance, all else exact. A witness shows exactness fails in between."
  },
  {
   "property": "C40",
   "status": "proved",
   "theorems": [
    "Verif.Props.c40_invariant",
    "Verif.Props.c40_append",
    "Verif.Props.c40_append_list",
    "Verif.Props.c40_construct",
    "Verif.Props.c40_reported"
   ],
   "note": "All append histories, list append and constructor included."
  },
  {
   "property": "C41",
   "status": "proved",
   "theorems": [
    "Verif.Props.c41_domain",
    "Verif.Props.c41_segment"
   ],
   "note": "The binary search is modelled and proved correct."
  },
  {
   "property": "C70",
   "status": "partial",
   "theorems": [
    "Verif.Props.c70_so3",
    "Verif.Props.c70_se3_partial",
    "Verif.Props.c70_se3_close",
    "Verif.Props.c70_se3_small_angle_fails"
   ],
   "note": "SO3 in full. SE3 exactly at control times and at times outside the small-angle region, for well separated rotations; exactness is false inside (c70_se3_small_angle_fails). For all turns and times the answers are within rounding-sized distances of one motion that passes exactly through all controls and has exactly the stated derivatives (c70_se3_close)."
  },
  {
   "property": "C42",
   "status": "proved",
   "theorems": [
    "Verif.Props.c42_arc_lengths",
    "Verif.Props.c42_se3_arc_lengths",
    "Verif.Props.c42_append",
    "Verif.Props.c42_append_list",
    "Verif.Props.c42_construct"
   ],
   "note": "All append histories; list append keeps the accepted prefix."
  },
  {
   "property": "C43",
   "status": "partial",
   "theorems": [
    "Verif.Props.c43_through_controls_partial",
    "Verif.Props.c43_close_partial",
    "Verif.Props.c43_small_angle_fails"
   ],
   "note": "Controls are reached and the pose is continuous there, for steps that do not turn or turn by more than 0.002. For every angle up to 1e-15 of the step; a witness shows exactness fails for some small turn."
  },
  {
   "property": "C44",
   "status": "partial",
   "theorems": [
    "Verif.Props.c44_unit_speed_partial",
    "Verif.Props.c44_travelled_partial",
    "Verif.Props.c44_switch",
    "Verif.Props.c44_switch_fails"
   ],
   "note": "Unit speed exactly outside the small-angle part of a step and within 1e-24 inside it; the integral of the speed is s up to that factor. At the single point of a step at which exp switches formulas the speed is one exactly if the step is along its axis (c44_switch), and otherwise the position jumps there (c44_switch_fails)."
  },
  {
   "property": "C45",
   "status": "partial",
   "theorems": [
    "Verif.Props.c45_domain_partial",
    "Verif.Props.c45_single_control_fails",
    "Verif.Props.c45_zero_length_fails"
   ],
   "note": "False as stated: a one-control curve throws at 0 and a first step without length divides by zero at 0. The exact domain is proved."
  },
  {
   "property": "C46",
   "status": "partial",
   "theorems": [
    "Verif.Props.c46_frames_partial",
    "Verif.Props.c46_reported",
    "Verif.Props.c46_unframed_first_fails"
   ],
   "note": "Proved when the first control is framed; false when it is unframed, by a witness."
  },
  {
   "property": "C47",
   "status": "proved",
   "theorems": [
    "Verif.Props.c47_writes",
    "Verif.Props.c47_reading_determines",
    "Verif.Props.c47_constructors"
   ],
   "note": "Refinement to five independent variables under any sequence of setter calls."
  },
  {
   "property": "C48",
   "status": "proved",
   "theorems": [
    "Verif.Props.c48_body_kinematics",
    "Verif.Props.c48_unique",
    "Verif.Props.c48_position_acceleration"
   ],
   "note": "Against true derivatives of arbitrary motions; an equivalence."
  },
  {
   "property": "C49",
   "status": "proved",
   "theorems": [
    "Verif.Props.c49_relative_state",
    "Verif.Props.c49_self",
    "Verif.Props.c49_motions"
   ],
   "note": "Exact real arithmetic, frames included; also the meaning for moving bodies."
  },
  {
   "property": "C50",
   "status": "proved",
   "theorems": [
    "Verif.Props.c50_start_time",
    "Verif.Props.c50_first",
    "Verif.Props.c50_append",
    "Verif.Props.c50_undefined_iff",
    "Verif.Props.c50_later_exactly",
    "Verif.Props.c50_invariant",
    "Verif.Props.c50_append_list",
    "Verif.Props.c50_later_refused",
    "Verif.Props.c50_construct",
    "Verif.Props.c50_construct_iff"
   ],
   "note": "All append histories with int64 timestamps and binary64 rounding of seconds. A later timestamp is refused beyond 2^53 ns (c50_later_refused), as the statement says."
  },
  {
   "property": "C51",
   "status": "partial",
   "theorems": [
    "Verif.Props.c51_inside",
    "Verif.Props.c51_outside",
    "Verif.Props.c51_short",
    "Verif.Props.c51_control_partial",
    "Verif.Props.c51_close_partial"
   ],
   "note": "Queries succeed on the whole span and throw outside. The value at a control timestamp is the control for orientations that differ by no rotation or by more than 0.002, and for all orientations up to 1e-15 of the distance moved in position, all else exact (curve arithmetic over the reals)."
  },
  {
   "property": "C52",
   "status": "partial",
   "theorems": [
    "Verif.Props.c52_end_time_partial",
    "Verif.Props.c52_end_time_fails",
    "Verif.Props.c52_duration",
    "Verif.Props.c52_whole_seconds",
    "Verif.Props.c52_empty"
   ],
   "note": "False: 15 ns after the start end_time is 1 ns early (c52_end_time_fails). Never later and at most 1 ns earlier; exact for whole seconds; time_duration is always end minus start."
  },
  {
   "property": "C53",
   "status": "proved",
   "theorems": [
    "Verif.Props.c53_round_trip",
    "Verif.Props.c53_content",
    "Verif.Props.c53_injective",
    "Verif.Props.c53_errors"
   ],
   "note": "Every shape and element type; storage order column after column."
  },
  {
   "property": "C54",
   "status": "proved",
   "theorems": [
    "Verif.Props.c54_frame",
    "Verif.Props.c54_framed_vector",
    "Verif.Props.c54_rejected"
   ],
   "note": "Null frame included; prior message content arbitrary."
  },
  {
   "property": "C55",
   "status": "partial",
   "theorems": [
    "Verif.Props.c55_so3",
    "Verif.Props.c55_se3_partial",
    "Verif.Props.c55_se3_near",
    "Verif.Props.c55_se3_fails",
    "Verif.Props.c55_rejected"
   ],
   "note": "SO3 in full. SE3 exactly for rotation angles that are zero or at least 0.002; below, the translation comes back up to 1e-15 of its length, and a witness shows it is not exact."
  },
  {
   "property": "C56",
   "status": "partial",
   "theorems": [
    "Verif.Props.c56_two_jetl_so3",
    "Verif.Props.c56_two_jetr_so3",
    "Verif.Props.c56_two_jetl_se3_partial",
    "Verif.Props.c56_two_jetr_se3_partial",
    "Verif.Props.c56_tcurve_so3",
    "Verif.Props.c56_tcurve_se3_partial",
    "Verif.Props.c56_tcurve_se3_near",
    "Verif.Props.c56_dcurve_partial",
    "Verif.Props.c56_dcurve_near",
    "Verif.Props.c56_trajectory_partial",
    "Verif.Props.c56_trajectory_near",
    "Verif.Props.c56_revalidated"
   ],
   "note": "SO3 curves and two-jets in full. SE3 curves, distance curves and trajectories exactly under the angle condition of C55, otherwise with near poses and everything else exact."
  },
  {
   "property": "C57",
   "status": "partial",
   "theorems": [
    "Verif.Props.c57_round_trip",
    "Verif.Props.c57_round_trip_partial",
    "Verif.Props.c57_near",
    "Verif.Props.c57_empty_name_lost",
    "Verif.Props.c57_unset"
   ],
   "note": "False for the empty name, which comes back as no name (witness). Exact otherwise under the angle condition of C55; near for all primitives."
  },
  {
   "property": "C58",
   "status": "partial",
   "theorems": [
    "Verif.Props.c58_round_trip",
    "Verif.Props.c58_round_trip_partial",
    "Verif.Props.c58_near"
   ],
   "note": "Order and multiplicity for every update; the primitives themselves as in C57."
  },
  {
   "property": "C59",
   "status": "proved",
   "theorems": [
    "Verif.Props.c59_exactly_once",
    "Verif.Props.c59_flush_delivers",
    "Verif.Props.c59_program_order",
    "Verif.Props.c59_all_finished"
   ],
   "note": "Any number of threads and any schedule; objects are abstract (that identifiers are unique is not modelled)."
  },
  {
   "property": "C60",
   "status": "partial",
   "theorems": [
    "Verif.Props.c60_view_handed_over_partial",
    "Verif.Props.c60_view_delivered_partial",
    "Verif.Props.c60_single_thread_partial",
    "Verif.Props.c60_no_failure_partial",
    "Verif.Props.c60_false_threads",
    "Verif.Props.c60_false_retry"
   ],
   "note": "False: another thread's failed flush can take the object (c60_false_threads), and a failed update is not kept (c60_false_retry). Proved: handed over during the call; delivered on one thread; everything delivered as long as nothing failed."
  },
  {
   "property": "C61",
   "status": "proved",
   "theorems": [
    "Verif.Props.c61_reports",
    "Verif.Props.c61_silent_throws",
    "Verif.Props.c61_no_duplicates",
    "Verif.Props.c61_sent_once",
    "Verif.Props.c61_no_client"
   ],
   "note": "All histories of view, flush and set_client on any number of threads."
  },
  {
   "property": "C71",
   "status": "proved",
   "theorems": [
    "Verif.Props.c71_no_deadlock",
    "Verif.Props.c71_bounded",
    "Verif.Props.c71_completes"
   ],
   "note": "Assumes that the client's send returns or throws."
  },
  {
   "property": "C62",
   "status": "partial",
   "theorems": [
    "Verif.Props.c62_session_first",
    "Verif.Props.c62_one_session_partial",
    "Verif.Props.c62_two_sessions"
   ],
   "note": "The first request of a client creates a session and updates carry its id. One session for the client's life is false: a server answering with a blank session id gets a new session each send (c62_two_sessions); proved for sessions with an id."
  },
  {
   "property": "C63",
   "status": "proved",
   "theorems": [
    "Verif.Props.c63_increasing",
    "Verif.Props.c63_same_request"
   ],
   "note": "All histories of sends, failed ones included."
  },
  {
   "property": "C64",
   "status": "proved",
   "theorems": [
    "Verif.Props.c64_attempts",
    "Verif.Props.c64_retries",
    "Verif.Props.c64_okay_iff",
    "Verif.Props.c64_no_base"
   ],
   "note": "All response sequences; also a base address that is missing."
  },
  {
   "property": "C65",
   "status": "proved",
   "theorems": [
    "Verif.Props.c65_contacts_iff",
    "Verif.Props.c65_answers",
    "Verif.Props.c65_fetches",
    "Verif.Props.c65_refresh",
    "Verif.Props.c65_cached",
    "Verif.Props.c65_history"
   ],
   "note": "Histories of get_jwt, refresh and restarts. File system outcomes are inputs; the file is removed and written by nobody else."
  },
  {
   "property": "C66",
   "status": "partial",
   "theorems": [
    "Verif.Props.c66_nonempty_partial",
    "Verif.Props.c66_fetched_nonempty",
    "Verif.Props.c66_empty_file",
    "Verif.Props.c66_cut_file"
   ],
   "note": "False: an existing empty token file gives an empty token (c66_empty_file), and a failed write can leave such a file (c66_cut_file). Proved as long as no file is empty."
  },
  {
   "property": "C67",
   "status": "proved",
   "theorems": [
    "Verif.Props.c67_token_iff",
    "Verif.Props.c67_ends",
    "Verif.Props.c67_polls",
    "Verif.Props.c67_terminates",
    "Verif.Props.c67_bounded"
   ],
   "note": "All answer sequences and clocks; termination for clocks that pass the deadline, with a bound on the polls if the clock advances by the sleeps. Never undefined."
  },
  {
   "property": "C68",
   "status": "partial",
   "theorems": [
    "Verif.Props.c68_covariance_partial",
    "Verif.Props.c68_row_count_wraps",
    "Verif.Props.c68_mean",
    "Verif.Props.c68_semidefinite",
    "Verif.Props.c68_affine",
    "Verif.Props.c68_shift",
    "Verif.Props.c68_zero_variance"
   ],
   "note": "Any number of columns and fewer than 2^32 rows; beyond, the row count wraps and 2^32 rows throw (c68_row_count_wraps). Exact real arithmetic."
  },
  {
   "property": "C69",
   "status": "proved",
   "theorems": [
    "Verif.Props.c69_reproduces",
    "Verif.Props.c69_accepted_iff",
    "Verif.Props.c69_semidefinite_accepted",
    "Verif.Props.c69_clamped",
    "Verif.Props.c69_nearly_symmetric",
    "Verif.Props.c69_asymmetric_rejected",
    "Verif.Props.c69_dimensions",
    "Verif.Props.c69_no_convergence_accepted"
   ],
   "note": "For every solver that returns an orthogonal eigendecomposition; exact real arithmetic. Random numbers are an input. A solver that did not converge is not noticed by the code (c69_no_convergence_accepted)."
  },
  {
   "property": "C72",
   "status": "proved",
   "theorems": [
    "Verif.Props.c72_acknowledged",
    "Verif.Props.c72_acknowledged_exact",
    "Verif.Props.c72_addresses"
   ],
   "note": "View, its client and packing composed; programs of view and flush. Bodies are messages: the wire format is protobuf's. Up to the accuracy of C58; exact for objects that pack exactly."
  },
  {
   "property": "C73",
   "status": "partial",
   "theorems": [
    "Verif.Props.c73_view_acknowledged_partial",
    "Verif.Props.c73_all_acknowledged"
   ],
   "note": "One thread with any failures, and any number of threads with a server that answers; false for several threads with failures (c60_false_threads)."
  },
  {
   "property": "C74",
   "status": "proved",
   "theorems": [
    "Verif.Props.c74_differential",
    "Verif.Props.c74_small_angle_close"
   ],
   "note": "Exact real arithmetic; the error bound is for the truncated series the code uses below 0.002."
  },
  {
   "property": "C75",
   "status": "partial",
   "theorems": [
    "Verif.Props.c75_count_partial",
    "Verif.Props.c75_samples_partial",
    "Verif.Props.c75_ordered_partial",
    "Verif.Props.c75_outside",
    "Verif.Props.c75_unordered",
    "Verif.Props.c75_step_too_long",
    "Verif.Props.c75_not_a_number",
    "Verif.Props.c75_far_apart",
    "Verif.Props.c75_false"
   ],
   "note": "binary64 with exponent range and subnormals. Proved: exact ends, finiteness, count and positions up to relative errors 2^-51 and 2^-50, order and membership when the spacing exceeds twice the error. The full claim C75 is refuted: samples can leave the interval, be out of order, exceed the step, or be NaN."
  },
  {
   "property": "C76",
   "status": "partial",
   "theorems": [
    "Verif.Props.c76_pieces",
    "Verif.Props.c76_primitive_partial",
    "Verif.Props.c76_undefined_iff",
    "Verif.Props.c76_update_partial",
    "Verif.Props.c76_repack",
    "Verif.Props.c76_valid_timestamp_undefined"
   ],
   "note": "Exact real arithmetic; messages as parsed structures, not bytes. False for trajectories whose start time overflows 64 bits of nanoseconds, including timestamps that protobuf allows (c76_valid_timestamp_undefined); c76_undefined_iff says exactly when."
  },
  {
   "property": "C77",
   "status": "proved",
   "theorems": [
    "Verif.Props.c77_rigid",
    "Verif.Props.c77_distances",
    "Verif.Props.c77_all_rigid"
   ],
   "note": "Exact real arithmetic; clients do not write through the pointers a DCurve hands out. Every rigid motion can be obtained (c77_all_rigid)."
  },
  {
   "property": "C78",
   "status": "partial",
   "theorems": [
    "Verif.Props.c78_self",
    "Verif.Props.c78_symmetric",
    "Verif.Props.c78_frames",
    "Verif.Props.c78_rotation_angle",
    "Verif.Props.c78_points",
    "Verif.Props.c78_reference_partial",
    "Verif.Props.c78_zero",
    "Verif.Props.c78_not_transitive",
    "Verif.Props.c78_pose_reference"
   ],
   "note": "Exact real arithmetic. The invariance under a change of reference frame holds for rotations only: false for poses (c78_pose_reference). Not transitive (c78_not_transitive); zero is approximately equal to zero only (c78_zero)."
  },
  {
   "property": "C79",
   "status": "partial",
   "theorems": [
    "Verif.Props.c79_compare_partial",
    "Verif.Props.c79_add_partial",
    "Verif.Props.c79_approx_ignores_frame",
    "Verif.Props.c79_add_in_place_unchecked",
    "Verif.Props.c79_difference_unchecked"
   ],
   "note": "False: isApprox ignores the frame of an argument that is not const (c79_approx_ignores_frame) += checks nothing (c79_add_in_place_unchecked) and - gives a plain vector whatever the frames (c79_difference_unchecked). Proved for ==, for + and for isApprox with a const argument. Overload resolution is modelled by hand from the C++ standard."
  },
  {
   "property": "C80",
   "status": "partial",
   "theorems": [
    "Verif.Props.c80_angle_axis",
    "Verif.Props.c80_quaternion",
    "Verif.Props.c80_quaternion_of",
    "Verif.Props.c80_quaternion_back",
    "Verif.Props.c80_rotation_iff",
    "Verif.Props.c80_unchecked",
    "Verif.Props.c80_frames"
   ],
   "note": "Exact real arithmetic. All but the last part: no constructor refuses anything (c80_unchecked); c80_rotation_iff says exactly which numbers give a rotation."
  },
  {
   "property": "C81",
   "status": "partial",
   "theorems": [
    "Verif.Props.c81_values_partial",
    "Verif.Props.c81_append_elsewhere_partial",
    "Verif.Props.c81_write_shared",
    "Verif.Props.c81_stale"
   ],
   "note": "Proved for programs that do not write through the shared pointers that control_pts() and segments() hand out without const; with such writes it is false (c81_write_shared, c81_stale)."
  },
  {
   "property": "C82",
   "status": "partial",
   "theorems": [
    "Verif.Props.c82_so3",
    "Verif.Props.c82_so3_iff",
    "Verif.Props.c82_straight",
    "Verif.Props.c82_se3_partial",
    "Verif.Props.c82_se3_close_partial",
    "Verif.Props.c82_trajectory_partial",
    "Verif.Props.c82_circle_partial",
    "Verif.Props.c82_wide_turn_fails"
   ],
   "note": "Exact real arithmetic. At most half a turn between neighbouring controls; at exactly half a turn it depends on the sign of the largest component of the axis, and beyond it is false (c82_so3_iff says exactly when, c82_wide_turn_fails is a concrete case). Rotations and straight lines are exact; for screws the orientation is exact, the rest is exact outside the small-angle region, and the position is within 2e-15 of the size of the data everywhere."
  },
  {
   "property": "C83",
   "status": "proved",
   "theorems": [
    "Verif.Props.c83_so3",
    "Verif.Props.c83_se3",
    "Verif.Props.c83_trajectory",
    "Verif.Props.c83_distance"
   ],
   "note": "Exact real arithmetic; SO3 and SE3, no small-angle exception. Control poses are rotations or rigid motions, which C77 shows for all a client can obtain."
  },
  {
   "property": "C84",
   "status": "proved",
   "theorems": [
    "Verif.Props.c84_later_controls",
    "Verif.Props.c84_append",
    "Verif.Props.c84_neighbours",
    "Verif.Props.c84_later_poses",
    "Verif.Props.c84_append_pose",
    "Verif.Props.c84_neighbouring_poses",
    "Verif.Props.c84_append_state",
    "Verif.Props.c84_neighbouring_states"
   ],
   "note": "Equality of outcomes, frames included. Neighbouring controls of trajectories: same start time, and times within 2^52 ns of it, so that rounding to seconds keeps them apart."
  },
  {
   "property": "C85",
   "status": "proved",
   "theorems": [
    "Verif.Props.c85_curve",
    "Verif.Props.c85_trajectory"
   ],
   "note": "Trajectories: equality of outcomes, with binary64 rounding of times. Curves: exact real arithmetic, any group."
  },
  {
   "property": "C86",
   "status": "proved",
   "theorems": [
    "Verif.Props.c86_curve",
    "Verif.Props.c86_trajectory",
    "Verif.Props.c86_distance"
   ],
   "note": "Exact real arithmetic, including the small-angle branches of exp and log."
  },
  {
   "property": "C87",
   "status": "proved",
   "theorems": [
    "Verif.Props.c87_timestamps",
    "Verif.Props.c87_doubles",
    "Verif.Props.c87_count_wraps"
   ],
   "note": "Values and step widths in exact real arithmetic; intervals of less than 2^62 ns, beyond which sampling itself may fail (C06). The count that does not fit in int is shown to give a wrong sign (c87_count_wraps)."
  },
  {
   "property": "C88",
   "status": "proved",
   "theorems": [
    "Verif.Props.c88_expression",
    "Verif.Props.c88_point",
    "Verif.Props.c88_linear",
    "Verif.Props.c88_computed",
    "Verif.Props.c88_exact_rotations"
   ],
   "note": "binary64 with round to nearest even and subnormals; overflow is not modelled. Every evaluation order and fusing of inner products is admitted. c88_exact_rotations shows that apart from the 24 turns of the axes no matrix of doubles is a rotation exactly."
  },
  {
   "property": "C89",
   "status": "partial",
   "theorems": [
    "Verif.Props.c89_piece_partial",
    "Verif.Props.c89_helix_partial",
    "Verif.Props.c89_length_iff",
    "Verif.Props.c89_helix_near",
    "Verif.Props.c89_small_turn_short",
    "Verif.Props.c89_dcurve_circle",
    "Verif.Props.c89_tcurve_circle",
    "Verif.Props.c89_trajectory_circle",
    "Verif.Props.c89_shipped_curve",
    "Verif.Props.c89_unit_circle",
    "Verif.Props.c89_orbit",
    "Verif.Props.c89_orbit_wrong_side"
   ],
   "note": "Exact for steps that turn by nothing or at least 0.002, or run along their axis; for other steps it is false of the code, which measures them too short (c89_length_iff says exactly when, c89_small_turn_short is a concrete curve), by at most 1e-15 of their length: c89_helix_near covers every turn below half a turn up to that. c89_orbit_wrong_side: the shipped trajectory example, whose controls are half a turn apart, passes its check but runs round the wrong side in exact arithmetic."
  },
  {
   "property": "C90",
   "status": "proved",
   "theorems": [
    "Verif.Props.c90_smooth"
   ],
   "note": "Times in binary64, geometry in exact real arithmetic. That the answers themselves are not exactly differentiable inside the small-angle region is c70_se3_small_angle_fails."
  },
  {
   "property": "C91",
   "status": "proved",
   "theorems": [
    "Verif.Props.c91_so3",
    "Verif.Props.c91_se3",
    "Verif.Props.c91_trajectory",
    "Verif.Props.c91_distance",
    "Verif.Props.c91_half_turn",
    "Verif.Props.c91_recipe",
    "Verif.Props.c91_example02",
    "Verif.Props.c91_example03",
    "Verif.Props.c91_example03_offset"
   ],
   "note": "Exact real arithmetic; trajectory times in binary64. c91_half_turn: neighbouring controls exactly half a turn apart are excluded for good reason. c91_example03_offset: the shipped recipe translate_t_curve keeps the body's velocities, which is wrong for a sensor off the turning axis (DESIGN section 5)."
  },
  {
   "property": "C92",
   "status": "proved",
   "theorems": [
    "Verif.Props.c92_frames",
    "Verif.Props.c92_so3",
    "Verif.Props.c92_back_so3",
    "Verif.Props.c92_across",
    "Verif.Props.c92_se3",
    "Verif.Props.c92_back_se3"
   ],
   "note": "Exact real arithmetic. c92_back_so3 also shows that at exactly half a turn the way back is another one; c92_across is the guide's example for every axis and every distance from half a turn. For SE3 the path is a screw motion with the position within 4e-15 of the distance; the SE3 form of the statement is the exactness of rotations and this closeness of positions."
  },
  {
   "property": "C93",
   "status": "proved",
   "theorems": [
    "Verif.Props.c93_degenerate",
    "Verif.Props.c93_comment_false",
    "Verif.Props.c93_small",
    "Verif.Props.c93_equal_iff",
    "Verif.Props.c93_guide_angles",
    "Verif.Props.c93_parts",
    "Verif.Props.c93_exp_log",
    "Verif.Props.c93_frames"
   ],
   "note": "Exact real arithmetic. The guide's comment is shown false twice: for angles of whole turns (c93_comment_false) and for very small angles (c93_small); for angles of less than half a turn exact equality is characterised (c93_equal_iff)."
  },
  {
   "property": "C94",
   "status": "proved",
   "theorems": [
    "Verif.Props.c94_order",
    "Verif.Props.c94_total",
    "Verif.Props.c94_exact",
    "Verif.Props.c94_default",
    "Verif.Props.c94_accepted",
    "Verif.Props.c94_rejected",
    "Verif.Props.c94_forgotten",
    "Verif.Props.c94_to_double",
    "Verif.Props.c94_documented",
    "Verif.Props.c94_mutable",
    "Verif.Props.c94_reference",
    "Verif.Props.c94_rvalue_reference",
    "Verif.Props.c94_return_types"
   ],
   "note": "Overload resolution modelled for bool, char, int, float, double and classes without conversions, and for parameters by value, by the three kinds of reference, and auto by value. c94_forgotten, c94_return_types, c94_reference and c94_rvalue_reference show where the documentation's rules are not what is enforced (DESIGN section 5)."
  },
  {
   "property": "C95",
   "status": "proved",
   "theorems": [
    "Verif.Props.c95_only",
    "Verif.Props.c95_safe",
    "Verif.Props.c95_same",
    "Verif.Props.c95_alias",
    "Verif.Props.c95_documented"
   ],
   "note": "Function bodies are all programs that use their wrapped parameters in any order, depending on what they read; by induction on the body. Wrappers stored beyond the call are not modelled."
  },
  {
   "property": "C96",
   "status": "proved",
   "theorems": [
    "Verif.Props.c96_defined",
    "Verif.Props.c96_so3",
    "Verif.Props.c96_se3",
    "Verif.Props.c96_constant_so3",
    "Verif.Props.c96_constant_se3",
    "Verif.Props.c96_adjoint_derivative",
    "Verif.Props.c96_adjoint_jacobian"
   ],
   "note": "Exact real arithmetic. The SO3 and SE3 limits are equivalences; the series branch of SE3::log near zero, although not exact (C28), has the exact derivative. For SE3 the constant velocity motion is within 1e-18 of the distance covered, exact when the turn is none or at least 0.002."
  },
  {
   "property": "C97",
   "status": "partial",
   "theorems": [
    "Verif.Props.c97_accepts",
    "Verif.Props.c97_accepts_finite",
    "Verif.Props.c97_answers",
    "Verif.Props.c97_too_short",
    "Verif.Props.c97_nan",
    "Verif.Props.c97_fraction_partial",
    "Verif.Props.c97_order_partial",
    "Verif.Props.c97_end",
    "Verif.Props.c97_extremes",
    "Verif.Props.c97_infinite",
    "Verif.Props.c97_trajectory"
   ],
   "note": "Binary64 arithmetic with infinities and not-a-number, signs of zero aside. The full statement fails of the code: not-a-number passes the range check (c97_nan), the normalised time at the end of a segment can be one unit below 1 (c97_end), and controls closer than 2^-1021 or further apart than 2^1021 can make an answer not-a-number (c97_extremes); for the times of trajectories none of the extremes occur (c97_trajectory)."
  },
  {
   "property": "C98",
   "status": "partial",
   "theorems": [
    "Verif.Props.c98_answers",
    "Verif.Props.c98_lengths",
    "Verif.Props.c98_fraction_partial",
    "Verif.Props.c98_nan",
    "Verif.Props.c98_order",
    "Verif.Props.c98_absorbed"
   ],
   "note": "Binary64 arithmetic with infinities and not-a-number; segment lengths are arbitrary doubles, finite and not negative where stated. The full statement fails where the first segment has no length (c98_nan, exactly there), and a later segment whose length is lost in the rounded sum is never evaluated (c98_absorbed)."
  },
  {
   "property": "C99",
   "status": "partial",
   "theorems": [
    "Verif.Props.c99_one",
    "Verif.Props.c99_two",
    "Verif.Props.c99_parentheses",
    "Verif.Props.c99_verbatim_partial",
    "Verif.Props.c99_not_verbatim",
    "Verif.Props.c99_template",
    "Verif.Props.c99_three",
    "Verif.Props.c99_effects"
   ],
   "note": "Tokens with object-like macros; function-like macros in the arguments are not expanded. The condition is shown verbatim if it names no macro and is on one line without comments; otherwise not (c99_not_verbatim). Three arguments assert nothing (c99_three), and commas in angle brackets or braces cut the condition (c99_template)."
  },
  {
   "property": "C100",
   "status": "partial",
   "theorems": [
    "Verif.Props.c100_rotations",
    "Verif.Props.c100_poses_partial",
    "Verif.Props.c100_no_large_vector",
    "Verif.Props.c100_two_jets_equal",
    "Verif.Props.c100_distinct",
    "Verif.Props.c100_blind"
   ],
   "note": "Over the reals, for any pseudo-random numbers from -1 to 1. The full statement fails of the code: no vector is large (c100_no_large_vector), and the velocity and acceleration of each test two-jet are equal (c100_two_jets_equal, c100_blind). For poses that turn by less than 0.002 only the rotation is shown to come back."
  },
  {
   "property": "C101",
   "status": "proved",
   "theorems": [
    "Verif.Props.c101_construct",
    "Verif.Props.c101_apart",
    "Verif.Props.c101_destroy",
    "Verif.Props.c101_restores",
    "Verif.Props.c101_file_path",
    "Verif.Props.c101_file_path_unique",
    "Verif.Props.c101_file_path_slash"
   ],
   "note": "Links, permissions and the passage of time within one call are left out; living directories are not removed by others. Test file names need an extension without a slash (c101_file_path_slash)."
  },
  {
   "property": "C102",
   "status": "proved",
   "theorems": [
    "Verif.Props.c102_headers",
    "Verif.Props.c102_answers",
    "Verif.Props.c102_receives_iff",
    "Verif.Props.c102_sends",
    "Verif.Props.c102_all_received",
    "Verif.Props.c102_refused",
    "Verif.Props.c102_view",
    "Verif.Props.c102_view_all"
   ],
   "note": "Of httplib what is used is modelled: first handler whose pattern matches the whole path, 404 otherwise, 500 if the handler throws; headers arrive as sent. Parsing is the inverse of serializing. The doubling is part of what is proved (finding 40)."
  },
  {
   "property": "C103",
   "status": "proved",
   "theorems": [
    "Verif.Props.c103_poll",
    "Verif.Props.c103_lifetime",
    "Verif.Props.c103_token_iff",
    "Verif.Props.c103_throws_iff",
    "Verif.Props.c103_fresh"
   ],
   "note": "The accesses to the flag are taken one after the other (the code does not synchronise them); JSON and the text of requests are left out."
  },
  {
   "property": "C104",
   "status": "proved",
   "theorems": [
    "Verif.Props.c104_time_circle",
    "Verif.Props.c104_time_circle_exact",
    "Verif.Props.c104_exact_times",
    "Verif.Props.c104_distance_circle"
   ],
   "note": "double is read as a real number with exact sine and cosine, so the bounds are those of the series switches of the code, not of rounding."
  },
  {
   "property": "C105",
   "status": "proved",
   "theorems": [
    "Verif.Props.c105_bends",
    "Verif.Props.c105_built",
    "Verif.Props.c105_not_back",
    "Verif.Props.c105_turn"
   ],
   "note": "The claims of the comments of the example that fail are refuted by c105_not_back and c105_turn; double is read as a real number."
  },
  {
   "property": "C106",
   "status": "proved",
   "theorems": [
    "Verif.Props.c106_counts",
    "Verif.Props.c106_source_keeps"
   ],
   "note": "int is modelled by Nat (fewer than 2^31 transfers); destruction is left out."
  },
  {
   "property": "C107",
   "status": "proved",
   "theorems": [
    "Verif.Props.c107_wrap",
    "Verif.Props.c107_travel_reference",
    "Verif.Props.c107_travel_bad",
    "Verif.Props.c107_travel_value",
    "Verif.Props.c107_value",
    "Verif.Props.c107_value_trip",
    "Verif.Props.c107_reference_trip",
    "Verif.Props.c107_return_or_assign",
    "Verif.Props.c107_name_is_moved_from",
    "Verif.Props.c107_assign"
   ],
   "note": "The rules of C++ for overload resolution, reference binding, decltype and defaulted members are written into the model; objects are never destroyed, so dangling is left to C19."
  },
  {
   "property": "C108",
   "status": "partial",
   "theorems": [
    "Verif.Props.c108_generated_partial",
    "Verif.Props.c108_framed_vectors",
    "Verif.Props.c108_own_frames",
    "Verif.Props.c108_first_curve_empty",
    "Verif.Props.c108_sent",
    "Verif.Props.c108_primitive"
   ],
   "note": "Framed vectors are not checked for their number and always have frames, against the comment; c108_framed_vectors says what is the case. Counts fit an int."
  },
  {
   "property": "C109",
   "status": "proved",
   "theorems": [
    "Verif.Props.c109_rotation",
    "Verif.Props.c109_coefficients",
    "Verif.Props.c109_motion",
    "Verif.Props.c109_differential",
    "Verif.Props.c109_expression",
    "Verif.Props.c109_computed"
   ],
   "note": "Tangent vectors with rotation part up to 2^500; overflow beyond is not modelled. The accuracy of sqrt, sin and cos of the C library is assumed, see DESIGN."
  },
  {
   "property": "C110",
   "status": "proved",
   "theorems": [
    "Verif.Props.c110_rotation",
    "Verif.Props.c110_motion",
    "Verif.Props.c110_forward",
    "Verif.Props.c110_forward_rotation",
    "Verif.Props.c110_exp_log",
    "Verif.Props.c110_log_exp",
    "Verif.Props.c110_interp",
    "Verif.Props.c110_interp_rotation",
    "Verif.Props.c110_arc_length",
    "Verif.Props.c110_computed"
   ],
   "note": "Stored rotations within 1/1000 of a rotation. Round trips from the group hold at every angle; forward errors are stated for turns up to half a turn less 160 times the input error and 950 roundings, because the logarithm is discontinuous at half a turn. The accuracy of sqrt, sin, cos and atan2 is assumed, see DESIGN."
  },
  {
   "property": "C111",
   "status": "proved",
   "theorems": [
    "Verif.Props.c111_distances",
    "Verif.Props.c111_point",
    "Verif.Props.c111_computed"
   ],
   "note": "Poses stored up to a relative error of at most 1e-5, at most 2^40 segments, lengths that do not overflow, and less than half a turn from one pose to the next (by a margin of 330 input errors and 4300 roundings). The distance 0 has no answer where the first two poses coincide: see C98. The accuracy of sqrt, sin, cos and atan2 is assumed as in C110."
  },
  {
   "property": "C112",
   "status": "proved",
   "theorems": [
    "Verif.Props.c112_segment",
    "Verif.Props.c112_curve",
    "Verif.Props.c112_computed"
   ],
   "note": "Data stored up to a relative error of at most 9e-11; between two controls less than half a turn (by a margin of 330 input errors and 31030 roundings), velocities and accelerations that turn by at most 10 and move by at most B in the time between them, and steps between 2^-1021 and 2^100. The answer is compared with the exact curve at a time within 2^-50 of the length of the piece (see C97). The accuracy of sqrt, sin, cos and atan2 is assumed as in C110."
  },
  {
   "property": "C113",
   "status": "proved",
   "theorems": [
    "Verif.Props.c113_state",
    "Verif.Props.c113_computed"
   ],
   "note": "Data as in C112, with states stored up to a relative error of at most 4e-11; times are those of the trajectory, integers of nanoseconds turned into doubles of seconds, and the answer is compared with the exact motion at a time within 2^-50 of the length of the piece. Frames are left out here (see C50-C52). The accuracy of sqrt, sin, cos and atan2 is assumed as in C110."
  },
  {
   "property": "C114",
   "status": "proved",
   "theorems": [
    "Verif.Props.c114_mean",
    "Verif.Props.c114_covariance",
    "Verif.Props.c114_accepted",
    "Verif.Props.c114_constant",
    "Verif.Props.c114_rejected",
    "Verif.Props.line_covariance"
   ],
   "note": "Fewer than 2^32 samples. The mean of a column has one value within a call of covariance; the eigenvalue solver is assumed exact; sums do not overflow. Acceptance is proved for samples that are spread out and not close to a hyperplane; two samples on a line are a proved counterexample to acceptance without that condition."
  },
  {
   "property": "C115",
   "status": "proved",
   "theorems": [
    "Verif.Props.c115_composed",
    "Verif.Props.c115_relative",
    "Verif.Props.c115_roundtrip",
    "Verif.Props.c115_computed"
   ],
   "note": "Rates turn by up to 10 per second and translations, speeds and accelerations are up to a bound B that scales the errors; overflow is not modelled; frames are left out (their checks are C49)."
  },
  {
   "property": "C116",
   "status": "proved",
   "theorems": [
    "Verif.Props.c116_rotation",
    "Verif.Props.c116_transform",
    "Verif.Props.c116_state",
    "Verif.Props.c116_curve",
    "Verif.Props.c116_distance_controls",
    "Verif.Props.c116_distance_point",
    "Verif.Props.c116_trajectory",
    "Verif.Props.c116_computed"
   ],
   "note": "The bound on the number of messages is that the error stays below 1e-3 (transforms), 1e-5 (distance curves), 9e-11 (time curves) or 8e-11 (trajectories). Frames are left out here (they are kept, C55); that numbers and times are kept is C53 and C56. The accuracy of sqrt, sin, cos and atan2 is assumed as in C110."
  },
  {
   "property": "C117",
   "status": "proved",
   "theorems": [
    "Verif.Props.c117_yes",
    "Verif.Props.c117_no",
    "Verif.Props.c117_same",
    "Verif.Props.c117_zero",
    "Verif.Props.c117_tiny",
    "Verif.Props.c117_not_relative",
    "Verif.Props.c117_rotations",
    "Verif.Props.c117_rotation_means",
    "Verif.Props.c117_transforms",
    "Verif.Props.c117_transform_means",
    "Verif.Props.c117_jet_means",
    "Verif.Props.c117_state_means",
    "Verif.Props.c117_not_identity",
    "Verif.Props.c117_relay_rotation",
    "Verif.Props.c117_relay",
    "Verif.Props.c117_relay_jet",
    "Verif.Props.c117_relay_state",
    "Verif.Props.c117_relay_exp",
    "Verif.Props.c117_relays",
    "Verif.Props.c117_computed"
   ],
   "note": "Eigen isApprox is modelled from its documented formula, with the default precision 1e-12; overflow of the squares is not modelled. Frames are left out here (their comparison is exact, C78 and C79). The accuracy of sqrt, sin, cos and atan2 is assumed as in C110. Translations of a length between 0 and 1e-147 are excluded from the statements on round trips."
  },
  {
   "property": "C118",
   "status": "proved",
   "theorems": [
    "Verif.Props.c118_angle_axis",
    "Verif.Props.c118_normalized",
    "Verif.Props.c118_quaternion",
    "Verif.Props.c118_quaternion_of",
    "Verif.Props.c118_quaternion_trip",
    "Verif.Props.c118_quaternion_approx",
    "Verif.Props.c118_quaternion_back",
    "Verif.Props.c118_sign",
    "Verif.Props.c118_euler",
    "Verif.Props.c118_computed"
   ],
   "note": "Eigen's conversions are modelled from their documented formulas; overflow is not modelled. The accuracy of sqrt, sin and cos is assumed as in C110. The axis must be a unit vector up to 3.6 roundings (as normalized() leaves it) and the quaternion of squared length within 1/10 of one, as neither is checked (C80). Frames are left out here."
  },
  {
   "property": "C119",
   "status": "proved",
   "theorems": [
    "Verif.Props.c119_between_any",
    "Verif.Props.c119_between",
    "Verif.Props.c119_between_approx",
    "Verif.Props.c119_half_turn",
    "Verif.Props.c119_parts",
    "Verif.Props.c119_halves",
    "Verif.Props.c119_computed"
   ],
   "note": "The accuracy of sqrt, sin, cos and atan2 is assumed as in C110; overflow is not modelled; frames are left out here (C93 has them). In two parts the logarithm is computed once, as the code runs the same operations on the same numbers. Translations of a length between 0 and 1e-147 are excluded. The remaining assertion of the guide on approximate equality, of a random tangent vector and the logarithm of its exponential, is C120."
  },
  {
   "property": "C120",
   "status": "proved",
   "theorems": [
    "Verif.Props.c120_rotation",
    "Verif.Props.c120_motion",
    "Verif.Props.c120_tiny",
    "Verif.Props.c120_approx",
    "Verif.Props.c120_guide",
    "Verif.Props.c120_computed"
   ],
   "note": "The accuracy of sqrt, sin, cos and atan2 is assumed as in C110; overflow is not modelled. Below 2^-50 radians only an absolute error is shown for the rotation part: the assumed accuracy of one unit in the last place of the cosine does not give more. Tangent vectors with a rotation part below 2^-50 and a translation part shorter than 1 are left out of the statement on approximate equality."
  },
  {
   "property": "C121",
   "status": "proved",
   "theorems": [
    "Verif.Props.c121_precise",
    "Verif.Props.c121_any",
    "Verif.Props.c121_symmetric",
    "Verif.Props.c121_zero",
    "Verif.Props.c121_zero_fails",
    "Verif.Props.c121_triangle",
    "Verif.Props.c121_inverse_composed",
    "Verif.Props.c121_composed",
    "Verif.Props.c121_composed_fails"
   ],
   "note": "sqrt is assumed correctly rounded, overflow is not modelled, the frame checks are C32. A distance of zero does not imply equal translations (c121_zero_fails): the squares underflow below 2^-538. For se3_distance the agreement with the composed pose holds up to the difference of the orientations times the distance of the reference frame; that it fails otherwise is c121_composed_fails (exactly: c32_distance_fails)."
  },
  {
   "property": "C122",
   "status": "proved",
   "theorems": [
    "Verif.Props.c122_sample",
    "Verif.Props.c122_roots",
    "Verif.Props.c122_tolerance",
    "Verif.Props.c122_covariance"
   ],
   "note": "sqrt is assumed correctly rounded, overflow is not modelled. That the eigenvalues and eigenvectors that Eigen returns reproduce the covariance is an assumption with an explicit error; the generator is arbitrary. Dimensions below 2^32."
  },
  {
   "property": "C123",
   "status": "partial",
   "theorems": [
    "Verif.Props.c123_reproducible",
    "Verif.Props.c123_copy",
    "Verif.Props.c123_draws",
    "Verif.Props.c123_one_by_one_partial",
    "Verif.Props.c123_one_by_one_fails"
   ],
   "note": "Engine and distribution are arbitrary deterministic machines; what is computed from the numbers is C69 and C122. Everything but the last part; that is false in general (c123_one_by_one_fails) and proved for one dimension and a distribution that keeps nothing between draws (c123_one_by_one_partial)."
  },
  {
   "property": "C124",
   "status": "proved",
   "theorems": [
    "Verif.Props.c124_expression",
    "Verif.Props.c124_places",
    "Verif.Props.c124_any_path",
    "Verif.Props.c124_joined",
    "Verif.Props.c124_extra",
    "Verif.Props.c124_composition_example",
    "Verif.Props.c124_view_example"
   ],
   "note": "Exact real arithmetic; the rotations of the links are rotations, which C24 shows of all that can be had; frames of different names are different and not null (new frames are random identifiers)."
  },
  {
   "property": "C125",
   "status": "proved",
   "theorems": [
    "Verif.Props.c125_two_jet",
    "Verif.Props.c125_rotation_curve",
    "Verif.Props.c125_pose_curve",
    "Verif.Props.c125_refused",
    "Verif.Props.c125_numbers",
    "Verif.Props.c125_successive",
    "Verif.Props.c125_usable",
    "Verif.Props.c125_order"
   ],
   "note": "Exact real arithmetic; the numbers of a seed are an arbitrary sequence between -1 and 1; both orders of evaluating the two arguments are covered. Left two-jets only (the right ones are made by the same code). The fixed frames of the helpers are not null, as new frames are random identifiers."
  },
  {
   "property": "C126",
   "status": "proved",
   "theorems": [
    "Verif.Props.c126_tokens",
    "Verif.Props.c126_no_throw",
    "Verif.Props.c126_recovers",
    "Verif.Props.c126_locked_out"
   ],
   "note": "The server is an arbitrary state machine. Logging, and the parsing of the answer for it, are left out as in C62. Packing is a parameter; where it is said so, it does not fail."
  },
  {
   "property": "C127",
   "status": "proved",
   "theorems": [
    "Verif.Props.c127_meaning",
    "Verif.Props.c127_self",
    "Verif.Props.c127_symmetric",
    "Verif.Props.c127_blind",
    "Verif.Props.c127_round_trip_test",
    "Verif.Props.c127_round_trip_test_blind",
    "Verif.Props.c127_pack_test",
    "Verif.Props.c127_library"
   ],
   "note": "Exact real arithmetic. The two tests are modelled with the functions under test as parameters; that the library itself passes is shown for every pose its messages keep exactly (the condition of C55)."
  },
  {
   "property": "C128",
   "status": "proved",
   "theorems": [
    "Verif.Props.c128_match",
    "Verif.Props.c128_match_prints",
    "Verif.Props.c128_match_default",
    "Verif.Props.c128_gaussian",
    "Verif.Props.c128_file",
    "Verif.Props.c128_rigid_transform"
   ],
   "note": "Exact real arithmetic. Eigen's solver is any one that works in the sense of C69, the numbers drawn are an input, and so is how a number is written."
  },
  {
   "property": "C129",
   "status": "proved",
   "theorems": [
    "Verif.Props.c129_strong",
    "Verif.Props.c129_t_curve",
    "Verif.Props.c129_t_curve_history",
    "Verif.Props.c129_t_curve_half",
    "Verif.Props.c129_value"
   ],
   "note": "The exceptions are those of the modelled checks; running out of memory is not modelled. Real arithmetic."
  },
  {
   "property": "C130",
   "status": "proved",
   "theorems": [
    "Verif.Props.c130_no_hijack",
    "Verif.Props.c130_dispatch",
    "Verif.Props.c130_derived",
    "Verif.Props.c130_guard_needed",
    "Verif.Props.c130_not_deduced",
    "Verif.Props.c130_unwrap",
    "Verif.Props.c130_own_template"
   ],
   "note": "The C++ rules are modelled for calls with one argument, without using declarations, inline namespaces and friends."
  }
 ]
}