{
 "claims": [
  {
   "property": "C01",
   "status": "proved",
   "theorems": [
    "Uni.FootPrint.C01_addStep",
    "Uni.FootPrint.C01_history",
    "Uni.FootPrint.C01_unnamed"
   ],
   "note": "addStep refuses exactly negative times and labels the step with the footprint's own name; every history keeps non-negative times and the name. No order in time is enforced by the code, and none is claimed."
  },
  {
   "property": "C02",
   "status": "proved",
   "theorems": [
    "Uni.FootPrint.C02_none",
    "Uni.FootPrint.C02_some",
    "Uni.FootPrint.C02_exhaustive",
    "Uni.FootPrint.C02_reachable",
    "Uni.FootPrint.C02_from_steps",
    "Uni.FootPrint.C02_negative_time_loses_steps"
   ],
   "note": "Full characterisation of keepOnlyPresentStep on every reachable footprint; a negative time can lose all steps (C02_negative_time_loses_steps)."
  },
  {
   "property": "C03",
   "status": "proved",
   "theorems": [
    "Uni.FootPrint.C03_refines",
    "Uni.FootPrint.C03_history"
   ],
   "note": "Refinement of every operation and history to a log specification."
  },
  {
   "property": "C04",
   "status": "proved",
   "theorems": [
    "Uni.Foot.C04_fails",
    "Uni.Foot.C04_roundtrip",
    "Uni.Foot.C04_roundtrip_step",
    "Uni.Foot.C04_queries",
    "Uni.Foot.C04_setters"
   ],
   "note": "Over the reals; the refusals (C04_queries) and the setters (C04_setters) in any field."
  },
  {
   "property": "C05",
   "status": "proved",
   "theorems": [
    "Uni.Foot.C05_fails",
    "Uni.Foot.C05_parallel"
   ],
   "note": "Over the reals."
  },
  {
   "property": "C06",
   "status": "proved",
   "theorems": [
    "Uni.Foot.C06_iff",
    "Uni.Foot.C06_stay",
    "Uni.Foot.C06_zero_threshold",
    "Uni.Foot.C06_full_turn_not_tiny"
   ],
   "note": "Angles are compared without wrapping: C06_full_turn_not_tiny."
  },
  {
   "property": "C07",
   "status": "proved",
   "theorems": [
    "Uni.BaseCtrl.C07_limits",
    "Uni.BaseCtrl.C07_settings",
    "Uni.BaseCtrl.C07_unset"
   ],
   "note": "All setter histories of a new controller."
  },
  {
   "property": "C08",
   "status": "proved",
   "theorems": [
    "Uni.BaseCtrl.C08_identity",
    "Uni.BaseCtrl.C08_idempotent",
    "Uni.BaseCtrl.C08_monotone",
    "Uni.BaseCtrl.C08_sign"
   ],
   "note": "Any ordered field."
  },
  {
   "property": "C09",
   "status": "proved",
   "theorems": [
    "Uni.DirectCtrl.C09_inactive",
    "Uni.DirectCtrl.C09_active",
    "Uni.DirectCtrl.C09_still",
    "Uni.DirectCtrl.C09_until"
   ],
   "note": "Forward-Euler integration is the external contract of the integrator."
  },
  {
   "property": "C10",
   "status": "proved",
   "theorems": [
    "Uni.PersonCtrl.C10_sorted",
    "Uni.PersonCtrl.C10_instance"
   ],
   "note": "std::sort is modelled as any sorted permutation."
  },
  {
   "property": "C11",
   "status": "proved",
   "theorems": [
    "Uni.PersonCtrl.C11_reference",
    "Uni.PersonCtrl.C11_at_points"
   ],
   "note": "Any ordered field; division by zero is a distinct outcome and excluded."
  },
  {
   "property": "C12",
   "status": "partial",
   "theorems": [
    "Uni.PersonCtrl.C12_not_held",
    "Uni.PersonCtrl.C12_held_partial"
   ],
   "note": "Violated by the code: refuted in C12_not_held (the reference is interpolated). What remains true is C12_held_partial."
  },
  {
   "property": "C13",
   "status": "proved",
   "theorems": [
    "Uni.PersonCtrl.C13_clear",
    "Uni.Planner.C13_planner",
    "Uni.Planner.C13_clear_all",
    "Uni.Planner.C13_history"
   ],
   "note": "Any ordered field. C13_history assumes that the integrator leaves the desired trajectory as it is (KeepsReference). C13_clear_all: clearDesiredTrajectory removes the whole reference and nothing else."
  },
  {
   "property": "C14",
   "status": "proved",
   "theorems": [
    "Uni.PersonCtrl.C14_linearised",
    "Uni.PersonCtrl.C14_offset_nonzero"
   ],
   "note": "Over the reals, as a derivative along any motion with the saturated velocities."
  },
  {
   "property": "C15",
   "status": "proved",
   "theorems": [
    "Uni.PersonCtrl.C15_reference_inside",
    "Uni.PersonCtrl.C15_no_ellipse"
   ],
   "note": "For ellipses set through axes; for shear matrices accepted by the other setter see C19."
  },
  {
   "property": "C16",
   "status": "proved",
   "theorems": [
    "Uni.Ellipse.C16_inside",
    "Uni.Ellipse.C16_set_and_default"
   ],
   "note": "Over the reals."
  },
  {
   "property": "C17",
   "status": "proved",
   "theorems": [
    "Uni.Ellipse.C17_inside",
    "Uni.Ellipse.C17_regular",
    "Uni.Ellipse.C17_identity",
    "Uni.Ellipse.C17_on_segment"
   ],
   "note": "Also: the projection is on the segment to the projection centre."
  },
  {
   "property": "C18",
   "status": "proved",
   "theorems": [
    "Uni.Ellipse.C18_boundary",
    "Uni.Ellipse.C18_exact",
    "Uni.Ellipse.C18_line",
    "Uni.Ellipse.C18_closest"
   ],
   "note": "C18_line holds for all points and ellipses: the threshold 1e-15 on the coefficients moves the intersections by at most 1e-15 M^2 / |p - q| from the line, M being the longest semi-axis, and a failure means that the points nearly coincide or that the line misses the ellipse up to the same tolerance. C18_exact: without error if no coefficient is non-zero and below 1e-15."
  },
  {
   "property": "C19",
   "status": "partial",
   "theorems": [
    "Uni.Ellipse.C19_steep_always_refused",
    "Uni.Ellipse.C19_shear_accepted",
    "Uni.Ellipse.C19_shallow_partial"
   ],
   "note": "Violated by the code: C19_steep_always_refused and C19_shear_accepted refute it; C19_shallow_partial is what holds."
  },
  {
   "property": "C20",
   "status": "partial",
   "theorems": [
    "Uni.Ellipse.C20_tangent_partial",
    "Uni.Ellipse.C20_garbage_not_tangent"
   ],
   "note": "Violated by the code (uninitialised entry): C20_garbage_not_tangent; holds if that memory is zero."
  },
  {
   "property": "C21",
   "status": "proved",
   "theorems": [
    "Uni.Problem.C21_constraints",
    "Uni.Problem.C21_strict",
    "Uni.Problem.C21_diagnosis_incomplete"
   ],
   "note": "Decision logic of areConstraintsSatisfied after any setter history; also shows that the printed diagnosis omits the backward bound."
  },
  {
   "property": "C22",
   "status": "proved",
   "theorems": [
    "Uni.Planner.C22_terminates",
    "Uni.Planner.C22_fuel_irrelevant",
    "Uni.Planner.C22_zero_period_never_returns",
    "Uni.Planner.C22_zero_period_reachable"
   ],
   "note": "Termination with an explicit bound for a positive period; with period 0 (accepted by the setter) some requests never return: C22_zero_period_never_returns, C22_zero_period_reachable."
  },
  {
   "property": "C23",
   "status": "proved",
   "theorems": [
    "Uni.Planner.C23_alternation"
   ],
   "note": "Appended steps alternate feet; first foot as prescribed."
  },
  {
   "property": "C24",
   "status": "proved",
   "theorems": [
    "Uni.Planner.C24_minimum_duration",
    "Uni.Planner.C24_increasing",
    "Uni.Planner.C24_sorted"
   ],
   "note": "Durations at least the minimum; landing times strictly increase and footprints stay sorted."
  },
  {
   "property": "C25",
   "status": "proved",
   "theorems": [
    "Uni.Planner.C25_feasible",
    "Uni.Planner.C25_terminal"
   ],
   "note": "Every optimised step respects the bounds; of a complete terminal step (two landings) the first one does too. The closing parallel step is not claimed."
  },
  {
   "property": "C26",
   "status": "proved",
   "theorems": [
    "Uni.Planner.C26_cost",
    "Uni.Planner.C26_optimal"
   ],
   "note": "Each landing is the least-cost admissible sample, ties resolved as stated. C26_cost states the cost in terms of the duration, the two steps and the configured weights (it assumes cos^2 + sin^2 = 1)."
  },
  {
   "property": "C27",
   "status": "proved",
   "theorems": [
    "Uni.Planner.C27_maximum_duration",
    "Uni.Planner.C27_without_pause"
   ],
   "note": "With and without pauses."
  },
  {
   "property": "C28",
   "status": "proved",
   "theorems": [
    "Uni.Planner.C28_append_only",
    "Uni.Planner.C28_nonneg"
   ],
   "note": "Footprints are only extended at the end, also on failure, with the single exception in the statement (realigned landing time)."
  },
  {
   "property": "C29",
   "status": "proved",
   "theorems": [
    "Uni.Planner.C29_window"
   ],
   "note": "Landing instants lie in the requested window."
  },
  {
   "property": "C30",
   "status": "proved",
   "theorems": [
    "Uni.Planner.C30_parallel_feet"
   ],
   "note": "Feet parallel at the end when the terminal step is requested."
  },
  {
   "property": "C31",
   "status": "partial",
   "theorems": [
    "Uni.Planner.C31_inconsistent_bounds",
    "Uni.Planner.C31_past",
    "Uni.Planner.C31_negative",
    "Uni.Planner.C31_empty_interval_partial",
    "Uni.Planner.C31_reasons",
    "Uni.Planner.C31_empty_interval_violated"
   ],
   "note": "Rejections proved; an empty interval with two empty feet is accepted by the code (C31_empty_interval_violated)."
  },
  {
   "property": "C32",
   "status": "proved",
   "theorems": [
    "Uni.Planner.C32_values",
    "Uni.Planner.C32_cost_weights",
    "Uni.Planner.C32_consistent",
    "Uni.Planner.C32_timed",
    "Uni.Planner.C32_controllers"
   ],
   "note": "After every history of settings and planning requests; 0 <= pi is the only assumption on the trigonometric functions. C32_controllers: the three controllers get the last accepted gains and saturations. C32_cost_weights: the weights of the cost (the position weight also from a refused call, see C33)."
  },
  {
   "property": "C33",
   "status": "partial",
   "theorems": [
    "Uni.Planner.C33_rejected_unchanged_partial",
    "Uni.Planner.C33_cost_weights_violated",
    "Uni.Planner.C33_integrator_step_violated",
    "Uni.Planner.C33_free_space_violated",
    "Uni.Planner.C33_inner_offset_violated"
   ],
   "note": "Violated by setCostWeights, setFreeSpaceEllipse, setInnerFreeSpaceEllipseOffset(s), setMaximumIntegratorStepSize (each refuted); proved for all other configuration methods of the planner."
  },
  {
   "property": "C34",
   "status": "proved",
   "theorems": [
    "Uni.Gen.C34_partition"
   ],
   "note": "Every footprint pair, setting and tie order."
  },
  {
   "property": "C35",
   "status": "proved",
   "theorems": [
    "Uni.Gen.C35_complementary",
    "Uni.Gen.C35_support"
   ],
   "note": "Every sample."
  },
  {
   "property": "C36",
   "status": "partial",
   "theorems": [
    "Uni.Gen.C36_settings",
    "Uni.Gen.C36_no_wrap_partial",
    "Uni.Gen.C36_only_two_ways",
    "Uni.Gen.C36_standing",
    "Uni.Gen.C36_past_walk_witness",
    "Uni.Gen.C36_no_sample_witness"
   ],
   "note": "Proved: only two undefined behaviours are possible and neither occurs when the final double support has a sample and the walk is not entirely in the past. Both do occur otherwise (C36_past_walk_witness, C36_no_sample_witness), so the full statement is false of the code."
  },
  {
   "property": "C37",
   "status": "proved",
   "theorems": [
    "Uni.Gen.C37_no_drift",
    "Uni.Gen.C37_all_steps"
   ],
   "note": "Half a sample for every step; every step of the footprints but the first of each foot has its swing."
  },
  {
   "property": "C38",
   "status": "partial",
   "theorems": [
    "Uni.Gen.C38_inside",
    "Uni.Gen.C38_nondecreasing_partial",
    "Uni.Gen.C38_strict",
    "Uni.Gen.C38_decreasing_witness"
   ],
   "note": "Every merge point is in the double support of its step; strictly increasing and in range if no phase is empty; non-decreasing if the final double support has a sample. Otherwise false: C38_decreasing_witness."
  },
  {
   "property": "C39",
   "status": "proved",
   "theorems": [
    "Uni.Gen.C39_ordered",
    "Uni.Gen.C39_simultaneous_refused",
    "Uni.Gen.C39_unnoticed_tie_witness"
   ],
   "note": "Ties involving the first two steps are not noticed and the outcome then depends on the sort: C39_unnoticed_tie_witness."
  },
  {
   "property": "C40",
   "status": "proved",
   "theorems": [
    "Uni.Gen.C40_corrected",
    "Uni.Gen.C40_close_angle",
    "Uni.Gen.C40_turns"
   ],
   "note": "Over the reals, with atan2 the principal argument; any number of turns."
  },
  {
   "property": "C41",
   "status": "proved",
   "theorems": [
    "Uni.C41_rest_to_rest",
    "Uni.C41_between",
    "Uni.C41_monotone",
    "Uni.C41_derivatives"
   ],
   "note": "End points, range, monotonicity and speed bound over any ordered field, derivatives over the reals."
  },
  {
   "property": "C42",
   "status": "partial",
   "theorems": [
    "Uni.MinJerk.C42_settings",
    "Uni.MinJerk.C42_not_ready",
    "Uni.MinJerk.C42_succeeds_partial",
    "Uni.MinJerk.C42_heights",
    "Uni.MinJerk.C42_empty_switch_witness",
    "Uni.MinJerk.C42_empty_end_witness"
   ],
   "note": "Heights proved for all inputs; success proved for generated timelines without empty phases. C42_empty_switch_witness and C42_empty_end_witness: false when a phase has no samples."
  },
  {
   "property": "C43",
   "status": "partial",
   "theorems": [
    "Uni.CubicFeet.C43_spline_succeeds_partial",
    "Uni.CubicFeet.C43_spline_contact_partial",
    "Uni.CubicFeet.C43_spline_swing_partial",
    "Uni.CubicFeet.C43_spline_late_witness",
    "Uni.MinJerk.C43_contact_partial",
    "Uni.MinJerk.C43_swing_partial",
    "Uni.MinJerk.C43_last_partial",
    "Uni.MinJerk.C43_empty_swing_witness",
    "Uni.MinJerk.C43_late_witness"
   ],
   "note": "Both feet generators, timelines without empty phases. C43_empty_swing_witness, C43_late_witness and C43_spline_late_witness: false when a swing has no samples."
  },
  {
   "property": "C44",
   "status": "partial",
   "theorems": [
    "Uni.Zmp.C44_complementary",
    "Uni.Zmp.C44_single_support",
    "Uni.Zmp.C44_transfer",
    "Uni.Zmp.C44_pause",
    "Uni.Zmp.C44_unit_partial",
    "Uni.Zmp.C44_later",
    "Uni.Zmp.C44_moving_start",
    "Uni.Zmp.C44_succeeds",
    "Uni.C44_overshoot_witness",
    "Uni.C44_short_transfer_witness",
    "Uni.C44_same_foot_witness"
   ],
   "note": "Weights are complementary; exactly 0/1 in single support; double supports follow the cubic from start to target (with and without a pause); within [0,1] for walks that start at rest. Missing: a moving initial state can leave [0,1] (C44_overshoot_witness), so the bound cannot hold for all initial states. After the first double support they are, whatever the initial state (C44_later)."
  },
  {
   "property": "C45",
   "status": "partial",
   "theorems": [
    "Uni.Zmp.C45_average",
    "Uni.Zmp.C45_first",
    "Uni.Zmp.C45_start",
    "Uni.Zmp.C45_average_all",
    "Uni.Zmp.C45_hull",
    "Uni.Zmp.C45_velocity_partial",
    "Uni.Zmp.C45_velocity_off",
    "Uni.Zmp.C45_velocity_witness"
   ],
   "note": "After the first double support the position is the weighted average of the feet ZMPs in the world; in the first one each point moves from the previous steps to the present ones. On the segment of the two feet ZMPs for walks without previous steps that start at rest with a weight in [0,1]. The velocity is right in the first double support without pause; afterwards, in phases without a pause, it is off by exactly the weighted feet positions (C45_velocity_off, C45_velocity_witness)."
  },
  {
   "property": "C46",
   "status": "proved",
   "theorems": [
    "Uni.Dcm.C46_dynamics",
    "Uni.Dcm.C46_stance",
    "Uni.Dcm.C46_same_foot_witness",
    "Uni.Dcm.C46_arc",
    "Uni.Dcm.C46_curve"
   ],
   "note": "C46_dynamics: in every sample of every successful call velocity = omega*(position - ZMP) if omega is not zero. C46_stance: at every sample of a single support the ZMP is the offset of the stance foot brought to the world with the contact reached after its landings so far. C46_curve (reals): the samples lie on a curve whose velocity is its derivative and obeys the dynamics with that ZMP at all times of the single support. Hypotheses of the last two: valid timings, no empty phase, names left/right, omega > 0, stillness in [0,1), every part of a pause and the final motion last a sample, feet take turns. C46_same_foot_witness: if a foot steps twice in a row the ZMP is under the foot in the air."
  },
  {
   "property": "C47",
   "status": "proved",
   "theorems": [
    "Uni.Dcm.C47_chain",
    "Uni.Dcm.C47_sampled",
    "Uni.Dcm.C47_start",
    "Uni.Dcm.C47_end",
    "Uni.Dcm.C47_still",
    "Uni.Dcm.C47_curve"
   ],
   "note": "For valid timings, no empty phase, names left/right, omega > 0, stillness in [0,1): C47_chain (contiguous, agreeing in position and velocity, from 0 to the last instant; one sample per instant), C47_start (given initial state in first piece and first sample), C47_end (feet take turns: at rest in the middle of the ZMPs of the last contacts), C47_still (samples of the last part of the last double support), C47_sampled, C47_curve (reals: C1 curve through all samples). The assertion in the constructors that the pieces have positive length is part of the lemmas. Real numbers, not doubles."
  },
  {
   "property": "C48",
   "status": "proved",
   "theorems": [
    "Uni.Dcm.C48_valid",
    "Uni.Dcm.C48_follow",
    "Uni.Dcm.C48_reproduce",
    "Uni.Dcm.C48_mean"
   ],
   "note": "C48_valid: every pair of weights of every successful call is in [0,1] and sums to one. C48_follow: one pair per sample; stance foot carries everything in single support; formula in double support with the contacts after the landings so far. C48_reproduce, C48_mean (reals): the weighted mean of the ZMPs of the feet is the ZMP in single support and wherever the ZMP is between those of the feet."
  },
  {
   "property": "C49",
   "status": "partial",
   "theorems": [
    "Uni.Dcm.C49_lastOffset",
    "Uni.Dcm.C49_alpha_stillness_violation",
    "Uni.Dcm.C49_omega_partial",
    "Uni.Dcm.C49_omega_zero_violation"
   ],
   "note": "C49_alpha_stillness_violation: setAlpha and setStillnessPercentage accept every value; C49_omega_zero_violation: setOmega accepts zero. What holds: C49_omega_partial (negative refused, positive accepted) and C49_lastOffset (accepted exactly in [0,1])."
  },
  {
   "property": "C50",
   "status": "proved",
   "theorems": [
    "Uni.NavCtrl.C50_index_in_range",
    "Uni.NavCtrl.C50_blind",
    "Uni.NavCtrl.C50_index_monotone",
    "Uni.NavCtrl.C50_starts_at_second_pose",
    "Uni.NavCtrl.C50_no_path_out_of_range"
   ],
   "note": "Includes absence of uninitialised reads and divisions by zero once a feedback was given; before that C50_blind: the read of the uninitialised state. Also the exception without a path."
  },
  {
   "property": "C51",
   "status": "proved",
   "theorems": [
    "Uni.CoMHeight.C51_settings",
    "Uni.CoMHeight.C51_accepts",
    "Uni.CoMHeight.C51_succeeds",
    "Uni.CoMHeight.C51_double",
    "Uni.CoMHeight.C51_between",
    "Uni.CoMHeight.C51_single",
    "Uni.CoMHeight.C51_empty_switch_witness"
   ],
   "note": "Bounds, double support and single support profile for every generated timeline; success for timelines without empty phases (C51_empty_switch_witness otherwise)."
  },
  {
   "property": "C52",
   "status": "partial",
   "theorems": [
    "Uni.Gen.C52_contacts_partial",
    "Uni.Gen.C52_first_steps",
    "Uni.Gen.C52_no_left_contact",
    "Uni.Gen.C52_no_right_contact",
    "Uni.Gen.C52_unset_dcm",
    "Uni.Gen.C52_negative_measure_loses_contact",
    "Uni.Gen.C52_plain"
   ],
   "note": "Full characterisation of what is kept (C52_contacts_partial): position and angle of the other foot are unchanged. Its landing time is not always: with the DCM at rest both contacts get the latest landing time (the code's reset), so 'unchanged' holds of the pose only. Failing calls can lose steps (C52_no_right_contact, C52_negative_measure_loses_contact)."
  },
  {
   "property": "C53",
   "status": "partial",
   "theorems": [
    "Uni.Threads.C53_calls_alone",
    "Uni.Threads.C53_setters_alone",
    "Uni.Threads.C53_linearizable_partial",
    "Uni.Threads.C53_own_mutex",
    "Uni.Threads.C53_one_planning_thread",
    "Uni.Threads.C53_generate_witness",
    "Uni.Threads.C53_settings_witness"
   ],
   "note": "Linearisability for any number of calls and all interleavings of generateFromFootPrints, the locked setters and getters of generator and planner, and the methods of one trajectory generator. It does not hold of generate/reGenerate (C53_generate_witness) nor when the settings of two trajectory generators change during a generation (C53_settings_witness). Two ways to have it are proved: a mutex of the callers around all calls (C53_own_mutex), and one planning thread with others that set timings, read outputs or use one of the feet/height generators (C53_one_planning_thread). C53_calls_alone and C53_setters_alone tie the code with locks to the sequential model."
  },
  {
   "property": "C54",
   "status": "proved",
   "theorems": [
    "Uni.NavCtrl.C54_stops_at_last_pose"
   ],
   "note": "The stop is absorbing until a new path or time step is set."
  },
  {
   "property": "C55",
   "status": "partial",
   "theorems": [
    "Uni.NavCtrl.C55_lateral_limit_exceeded",
    "Uni.NavCtrl.C55_limits_heading_zero_partial"
   ],
   "note": "Violated in general (counterexample proved); proved for heading 0."
  },
  {
   "property": "C56",
   "status": "proved",
   "theorems": [
    "Uni.Planner.C56_refines",
    "Uni.Planner.C56_deterministic"
   ],
   "note": "Refinement to a relational specification of the plan, and determinism."
  },
  {
   "property": "C57",
   "status": "proved",
   "theorems": [
    "Uni.Planner.C57_integrated"
   ],
   "note": "The integrator is an arbitrary function; the theorem identifies its arguments."
  },
  {
   "property": "C58",
   "status": "proved",
   "theorems": [
    "Uni.Planner.C58_valid_requests_succeed",
    "Uni.Planner.C58_one_empty_foot_undefined"
   ],
   "note": "Includes the proof that one empty footprint is undefined behaviour."
  },
  {
   "property": "C59",
   "status": "proved",
   "theorems": [
    "Uni.Planner.C59_configuration_kept"
   ],
   "note": "All result branches."
  },
  {
   "property": "C60",
   "status": "partial",
   "theorems": [
    "Uni.Gen.C60_past_end_iff",
    "Uni.Gen.C60_in_bounds_partial",
    "Uni.Gen.C60_past_end_witness"
   ],
   "note": "Exact characterisation: the access past the end happens iff the walk ends with a right step (C60_past_end_iff, witness); proved absent otherwise."
  },
  {
   "property": "C61",
   "status": "partial",
   "theorems": [
    "Uni.Gen.C61_rejected_keep",
    "Uni.Gen.C61_after_success_partial",
    "Uni.Gen.C61_before"
   ],
   "note": "Holds once a generation succeeded (C61_after_success_partial); C61_before proves the dereference of null pointers for every history of requests refused on arrival."
  },
  {
   "property": "C62",
   "status": "proved",
   "theorems": [
    "Uni.Gen.C62_accepted",
    "Uni.Gen.C62_replan_accepted",
    "Uni.Gen.C62_too_close_witness"
   ],
   "note": "C62_accepted for the first planning, C62_replan_accepted for re-planning; C62_too_close_witness shows that the bound on the sampling period is needed."
  },
  {
   "property": "C63",
   "status": "partial",
   "theorems": [
    "Uni.Gen.C63_after_success_partial",
    "Uni.Gen.C63_failed",
    "Uni.Gen.C63_rejected_keep",
    "Uni.Gen.C63_stale_contacts_witness"
   ],
   "note": "Proved after successful generations and for requests refused on arrival; C63_stale_contacts_witness: false after a generation that fails while assigning the phases."
  },
  {
   "property": "C64",
   "status": "proved",
   "theorems": [
    "Uni.MinJerk.C64_rise_and_fall",
    "Uni.MinJerk.C64_jump_witness"
   ],
   "note": "For timelines without empty phases (with an empty phase the generator may fail, see C42). C64_jump_witness shows the case in which the first sample is not on the ground."
  },
  {
   "property": "C65",
   "status": "proved",
   "theorems": [
    "Uni.CubicFeet.C65_spline_twist",
    "Uni.MinJerk.C65_twist"
   ],
   "note": "Minimum jerk: per half swing. Cubic splines: over the whole swing. Uses the iDynTree formulas for the RPY derivative (contract in DESIGN)."
  },
  {
   "property": "C66",
   "status": "partial",
   "theorems": [
    "Uni.CubicFeet.C66_spline_landing_partial",
    "Uni.MinJerk.C66_landing_velocity_ignored"
   ],
   "note": "Proved for the cubic-spline generator; the minimum-jerk generator accepts every value and ignores it (C66_landing_velocity_ignored)."
  },
  {
   "property": "C67",
   "status": "proved",
   "theorems": [
    "Uni.C67_frame",
    "Uni.C67_speed",
    "Uni.C67_straight",
    "Uni.C67_turn"
   ],
   "note": "The integration theorems use the forward-Euler contract of the integrator."
  },
  {
   "property": "C68",
   "status": "partial",
   "theorems": [
    "Uni.CubicFeet.C68_heights_partial",
    "Uni.CubicFeet.C68_landing_partial",
    "Uni.CubicFeet.C68_first_sample",
    "Uni.CubicFeet.C68_overshoot_witness",
    "Uni.CubicFeet.C68_penetration_witness",
    "Uni.CubicFeet.C68_jump_witness"
   ],
   "note": "Proved for a zero buffer entry and zero (or moderate downward) landing velocity, with the exact bound of the overshoot; four witnesses of violation otherwise."
  },
  {
   "property": "C69",
   "status": "proved",
   "theorems": [
    "Uni.Zmp.C69_states",
    "Uni.Zmp.C69_start",
    "Uni.Zmp.C69_continuity",
    "Uni.Zmp.C69_one_shot",
    "Uni.C69_acceleration_witness"
   ],
   "note": "Merge states are the samples; a generation starts from the given weight and velocity, used once. The given acceleration is ignored (C69_acceleration_witness)."
  },
  {
   "property": "C70",
   "status": "proved",
   "theorems": [
    "Uni.Zmp.C70_segment",
    "Uni.Zmp.C70_stance",
    "Uni.Zmp.C70_back"
   ],
   "note": "All four phases, for every sample of a successful generation, in exact arithmetic (see C72 for rounding)."
  },
  {
   "property": "C71",
   "status": "proved",
   "theorems": [
    "Uni.Zmp.C71_contact"
   ],
   "note": "For walks with alternating feet and non-empty phases."
  },
  {
   "property": "C72",
   "status": "partial",
   "theorems": [
    "Uni.Ieee.C72_overrun_witness",
    "Uni.Ieee.C72_half_partial",
    "Uni.Ieee.C72_one_partial",
    "Uni.Ieee.C72_dyadic_partial"
   ],
   "note": "Rounding to nearest even with unbounded exponents. Never past the end except in the last phase, there by at most one sample, and not at all if the period is a power of two; C72_overrun_witness is a reachable overrun."
  },
  {
   "property": "C73",
   "status": "proved",
   "theorems": [
    "Uni.Dcm.C73_succeeds",
    "Uni.Dcm.C73_defined",
    "Uni.Dcm.C73_no_room_witness",
    "Uni.Dcm.C73_omega_zero_witness"
   ],
   "note": "C73_succeeds: the call succeeds for valid timings, no empty phase, names left/right, omega > 0, stillness in [0,1), parts of a pause and final motion of at least a sample, and an initial state if one is announced. C73_defined: without the condition on the lengths the behaviour is still defined. C73_no_room_witness: then it can fail. C73_omega_zero_witness: omega = 0 is accepted and leads to a division by zero."
  },
  {
   "property": "C74",
   "status": "partial",
   "theorems": [
    "Uni.Dcm.C74_once",
    "Uni.Dcm.C74_kept",
    "Uni.Dcm.C74_default",
    "Uni.Dcm.C74_default_partial",
    "Uni.Dcm.C74_default_violation"
   ],
   "note": "C47_start (given state is the first sample), C74_once, C74_kept. C74_default: what the default is; C74_default_partial: it is the middle of the ZMPs if the first contacts have angle zero; C74_default_violation: it is not if both feet are turned by the same angle and have the same offset, not zero."
  },
  {
   "property": "C75",
   "status": "proved",
   "theorems": [
    "Uni.Dcm.C75_pause"
   ],
   "note": "C75_pause, for samples; hypotheses as C46_stance, pauses active, and a double support before a step that is longer than both the maximal duration and the sum of switch time and nominal duration (the condition of the code). The pause after the last step is C47_still."
  },
  {
   "property": "C76",
   "status": "partial",
   "theorems": [
    "Uni.Dcm.C76_last_offset",
    "Uni.Dcm.C76_meet",
    "Uni.Dcm.C76_alpha_partial",
    "Uni.Dcm.C76_alpha_violation"
   ],
   "note": "C76_last_offset: proved for samples. C76_meet: the arcs of consecutive single supports meet at alpha times the sum of the two instants; C76_alpha_partial: for alpha = 1/2 this is the middle of the double support; C76_alpha_violation: for alpha = 1 arcs with different ZMPs meet only after the double support."
  },
  {
   "property": "C77",
   "status": "proved",
   "theorems": [
    "Uni.Planner.C77_method",
    "Uni.Planner.C77_accepted"
   ],
   "note": "For histories in which every ellipse given is accepted (C77_accepted: with FOOTSTEPS_ONLY it always is). What happens when the second controller of a refused ellipse has kept it is C33."
  },
  {
   "property": "C78",
   "status": "partial",
   "theorems": [
    "Uni.NavCtrl.C78_until",
    "Uni.NavCtrl.C78_towards",
    "Uni.NavCtrl.C78_long_way_violation",
    "Uni.NavCtrl.C78_aligned_violation"
   ],
   "note": "Silence and direction proved for all histories and feedbacks; the short way for feedbacks within 3 pi of zero. Two negations: after two and a half turns the long way is taken; an aligned unicycle is turned at the maximal rate."
  },
  {
   "property": "C79",
   "status": "proved",
   "theorems": [
    "Uni.NavCtrl.C79_arrives",
    "Uni.NavCtrl.C79_rests"
   ],
   "note": "Over the reals. Assumptions beside acceptance: headings of the path in [-pi, pi], a positive backward factor, speed limits of at least twice the tolerance of the controller (1e-6), at most half a turn in a step, integrator step equal to the step of the controller."
  },
  {
   "property": "C80",
   "status": "partial",
   "theorems": [
    "Uni.Spec.C80_generate_contacts",
    "Uni.Walker.C80_generate",
    "Uni.Walker.C80_valid_requests_succeed",
    "Uni.Walker.C80_regenerate_partial",
    "Uni.Walker.C80_late_witness"
   ],
   "note": "generate: proved for every reachable state of the object in which the robot stands still (C80_generate, C80_valid_requests_succeed) or stands on one contact per foot, if no step can be due less than the shortest step time after the request (C80_generate_contacts); with more than three contacts before the request it always fails (C90). reGenerate: proved over the reals for requests after which the first step still takes the shortest step time (Timely). Negation: a request just before a landing is accepted by the planner and then fails (C80_late_witness; rational stand-ins for the trigonometric functions, which play no role when going straight)."
  },
  {
   "property": "C81",
   "status": "proved",
   "theorems": [
    "Uni.Walker.C81_complete"
   ],
   "note": "For every reachable state, every kind of request, every input."
  },
  {
   "property": "C82",
   "status": "partial",
   "theorems": [
    "Uni.Walker.C82_settings_keep",
    "Uni.Walker.C82_refused_keep_partial",
    "Uni.Walker.C82_not_planned_keep_partial",
    "Uni.Walker.C82_not_replanned_keep_partial",
    "Uni.Walker.C82_mixture_witness"
   ],
   "note": "Proved for setters, for requests refused on arrival and for requests the planner refuses. Negation with a walk whose contacts have 17 samples and whose heights still have the 33 of the walk before (C82_mixture_witness; rational stand-ins for the trigonometric functions). What a failing generator leaves in its own vectors is C106 and C108."
  },
  {
   "property": "C83",
   "status": "proved",
   "theorems": [
    "Uni.Walker.C83_feet"
   ],
   "note": "Composition of C34, C42/C43, C58 and the planner theorems; the room for the phases that C42 and C43 assume is proved from the settings."
  },
  {
   "property": "C84",
   "status": "proved",
   "theorems": [
    "Uni.Threads.C84_no_deadlock",
    "Uni.Threads.C84_all_return"
   ],
   "note": "No reachable deadlock for any family of calls; with finitely many calls every execution ends and can be completed with all calls returned. Calls of the planner are one access here: that planning itself ends is C22."
  },
  {
   "property": "C85",
   "status": "partial",
   "theorems": [
    "Uni.Threads.C85_no_race_partial",
    "Uni.Threads.C85_unlocked_witness",
    "Uni.Threads.C85_generate_witness"
   ],
   "note": "No race between methods that lock (any number of calls). The methods without lock and generate race: C85_unlocked_witness (in every state), C85_generate_witness. Objects are whole classes' states (the footprints are one object)."
  },
  {
   "property": "C86",
   "status": "proved",
   "theorems": [
    "Uni.Walker.C86_timings",
    "Uni.Walker.C86_planner",
    "Uni.Walker.C86_generators",
    "Uni.Walker.C86_accepted"
   ],
   "note": ""
  },
  {
   "property": "C87",
   "status": "proved",
   "theorems": [
    "Uni.MinJerk.C87_with_the_height",
    "Uni.CubicFeet.C87_spline"
   ],
   "note": "For timelines without empty phases, as C64."
  },
  {
   "property": "C88",
   "status": "proved",
   "theorems": [
    "Uni.Walker.C88_corrected",
    "Uni.Walker.C88_measured",
    "Uni.Walker.C88_feet",
    "Uni.Walker.C88_height",
    "Uni.Walker.C88_dcm",
    "Uni.Walker.C88_zmp",
    "Uni.Walker.C88_zmp_same",
    "Uni.Walker.C88_zmp_half",
    "Uni.Walker.C88_landing_witness",
    "Uni.Walker.C88_zmp_witness"
   ],
   "note": "Two generating calls around a merge point, over any ordered field: DCM, loads, height, feet (with and without measurements) and ZMP. The conditions on the feet and on the ZMP are needed: C88_landing_witness, C88_zmp_witness. The velocity of the ZMP is not covered (it is wrong, see C45), nor is the acceleration of the load (C69)."
  },
  {
   "property": "C89",
   "status": "partial",
   "theorems": [
    "Uni.Spec.C89_fromFootPrints_partial",
    "Uni.Spec.C89_call_partial",
    "Uni.Spec.C89_settings_partial",
    "Uni.Spec.C89_history_partial",
    "Uni.Spec.C89_new",
    "Uni.Spec.C89_integrator_partial",
    "Uni.Spec.C89_sort",
    "Uni.Spec.C89_displaced",
    "Uni.Spec.C89_navigation_witness",
    "Uni.Spec.C89_origin",
    "Uni.Spec.C89_origin_witness"
   ],
   "note": "Settings, requests and histories from a new generator (or any two displaced ones). The planner is covered if its integrator does not feel the displacement; this is proved for Euler integration of the direct and person following controllers. Missing: navigation controller (false: C89_navigation_witness), walks without any contact (false: C89_origin_witness), DCM that starts from the default with offsets in the feet (C74), velocity and acceleration of the world ZMP (C45), switching to the person following controller, times before zero."
  },
  {
   "property": "C90",
   "status": "proved",
   "theorems": [
    "Uni.Spec.C90_contacts_before",
    "Uni.Spec.C90_again",
    "Uni.Spec.C90_never",
    "Uni.Spec.C90_fails"
   ],
   "note": "C90_contacts_before for all three generating calls; C90_again and C90_never for generate with footprints that hold at least four contacts in chronological order with non-negative times (as every planned walk with at least two steps); C90_fails says how it fails, assuming half a sample fits into the final contact."
  },
  {
   "property": "C91",
   "status": "partial",
   "theorems": [
    "Uni.Spec.C91_footprints_partial",
    "Uni.Spec.C91_generate",
    "Uni.Spec.C91_regenerate",
    "Uni.Spec.C91_history_partial",
    "Uni.Spec.C91_tie_witness"
   ],
   "note": "Proved for footprints whose first contacts precede the later ones, for planned walks, re-planning and histories of them. For other footprints the code violates the claim: C91_tie_witness."
  },
  {
   "property": "C92",
   "status": "proved",
   "theorems": [
    "Uni.Rounded.C92_exact",
    "Uni.Rounded.C92_ieee",
    "Uni.Rounded.C92_settings",
    "Uni.Rounded.C92_only_two_ways",
    "Uni.Rounded.C92_no_wrap",
    "Uni.Rounded.C92_partition",
    "Uni.Rounded.C92_complementary",
    "Uni.Rounded.C92_all_steps",
    "Uni.Rounded.C92_drift",
    "Uni.Rounded.C92_ieee_drift",
    "Uni.Rounded.C92_merges"
   ],
   "note": "For every rounding with the stated properties; rounding doubles to nearest (any rule for ties, subnormal numbers included) is shown to be one and to exist. Overflow, NaN and extended precision are not modelled. The two situations of C36 in which lengths wrap or a negative number is converted remain (C92_only_two_ways), so the absence of wrapping is proved outside them. Only the computation of the phases is modelled with rounding, not the trajectory generators."
  },
  {
   "property": "C93",
   "status": "partial",
   "theorems": [
    "Uni.Spec.C93_mirror_partial",
    "Uni.Spec.C93_any_order_partial",
    "Uni.Spec.C93_succeeds",
    "Uni.Spec.C93_history_partial",
    "Uni.Spec.C93_parity",
    "Uni.Spec.C93_standing_witness",
    "Uni.Spec.C93_weights_witness"
   ],
   "note": "Proved for all inputs for which the claim holds; the code violates it in two situations, with witnesses: C93_standing_witness, C93_weights_witness. About generate(left, right, ...); planned walks are C101."
  },
  {
   "property": "C94",
   "status": "partial",
   "theorems": [
    "Uni.Planner.C94_inside",
    "Uni.Planner.C94_always",
    "Uni.Planner.C94_person_partial",
    "Uni.Planner.C94_late_violation",
    "Uni.Planner.C94_early_violation",
    "Uni.Planner.C94_step_witness"
   ],
   "note": "That a planning call reads the motion inside the interval only is proved for all integrators and histories; the answer of getPersonPosition in the range too (C94_person_partial). The refusal of other instants is violated by the code (assertions only): C94_late_violation, C94_early_violation; C94_step_witness."
  },
  {
   "property": "C95",
   "status": "partial",
   "theorems": [
    "Uni.Planner.C95_after",
    "Uni.Planner.C95_failed",
    "Uni.Planner.C95_alternation",
    "Uni.Planner.C95_configured",
    "Uni.Planner.C95_getter_violation",
    "Uni.Planner.C95_plan_witness"
   ],
   "note": "All of it is proved except the last sentence, which the code violates: C95_getter_violation, C95_plan_witness; what the getter really returns is in C95_after. C95_alternation assumes a positive minimum step duration and that both feet have a contact."
  },
  {
   "property": "C96",
   "status": "proved",
   "theorems": [
    "Uni.Follow.C96_reference",
    "Uni.Follow.C96_converges",
    "Uni.Follow.C96_reaches",
    "Uni.Follow.C96_backward_violation",
    "Uni.Follow.C96_long_step_violation",
    "Uni.Follow.C96_exact"
   ],
   "note": "Over the reals; the integrator is the fixed-step Euler contract. The violations show that the conditions on the backward factor and on the steps cannot be dropped."
  },
  {
   "property": "C97",
   "status": "proved",
   "theorems": [
    "Uni.C97_swing",
    "Uni.C97_standing",
    "Uni.C97_spline_swing",
    "Uni.C97_spline_standing"
   ],
   "note": "The height itself can jump by a sample when the apex is very early (C64_jump_witness): the bounds on successive samples are about the motion on the ground."
  },
  {
   "property": "C98",
   "status": "proved",
   "theorems": [
    "Uni.Dcm.C98_hull"
   ],
   "note": "Only for alpha = 1/2, the default; for other values the arcs do not meet where documented (C76). Nothing is claimed about the double supports, whose polynomials may overshoot."
  },
  {
   "property": "C99",
   "status": "proved",
   "theorems": [
    "Uni.Planner.C99_motion",
    "Uni.Planner.C99_landings",
    "Uni.Planner.C99_standing"
   ],
   "note": "For the direct controller and the model of the fixed step (forward Euler) integrator, in real arithmetic; commands that turn and move at once are not covered."
  },
  {
   "property": "C100",
   "status": "partial",
   "theorems": [
    "Uni.Spec.C100_straight_partial",
    "Uni.Spec.C100_settings",
    "Uni.Spec.C100_new",
    "Uni.Spec.C100_history",
    "Uni.Spec.C100_motion",
    "Uni.Spec.C100_direct_partial",
    "Uni.Spec.C100_width_violated",
    "Uni.Spec.C100_turning_violated"
   ],
   "note": "proved for motions that do not turn and feet pointing ahead (any integrator that commutes with the reflection; the direct control with the Euler integrator does), for all settings and histories; for turning motions the claim is false of the code: C100_width_violated, C100_turning_violated"
  },
  {
   "property": "C101",
   "status": "partial",
   "theorems": [
    "Uni.Spec.C101_settings",
    "Uni.Spec.C101_new",
    "Uni.Spec.C101_generate_partial",
    "Uni.Spec.C101_regenerate_partial",
    "Uni.Spec.C101_call_partial",
    "Uni.Spec.C101_history_partial"
   ],
   "note": "Proved for requests during which the robot does not turn (and measured contacts that leave the feet parallel); for turning motions the claim is false of the planner (C100_turning_violated), and the exclusions of C93 remain (phases of a standing robot, DCM weights in double support)."
  },
  {
   "property": "C102",
   "status": "partial",
   "theorems": [
    "Uni.Dcm.C102_zmp",
    "Uni.Dcm.C102_between_partial",
    "Uni.Dcm.C102_last",
    "Uni.Dcm.C102_last_between",
    "Uni.Dcm.C102_last_violated",
    "Uni.Dcm.C102_first",
    "Uni.Dcm.C102_behind_witness",
    "Uni.Dcm.C102_last_witness"
   ],
   "note": "The full statement is false: C102_behind_witness is a walk whose ZMP leaves the feet to the rear, the ZMP is off the line between the feet whenever the meeting point of the arcs is, and with the default offset every walk brakes with the ZMP beyond the last support (C102_last_violated, C102_last_witness). C102_zmp, C102_last and C102_first give the ZMP of every sample exactly; C102_between_partial bounds the distance from the segment when omega times the duration is at most two; C102_last_between gives the offsets with which the ZMP stays between the feet in the last double support, sharp below. Double supports with a pause are in C75; a first double support made of a quintic is not covered."
  },
  {
   "property": "C103",
   "status": "partial",
   "theorems": [
    "Uni.Shared.C103_independent",
    "Uni.Shared.C103_fresh",
    "Uni.Shared.C103_copy",
    "Uni.Shared.C103_call",
    "Uni.Shared.C103_moved",
    "Uni.Shared.C103_copy_violated",
    "Uni.Shared.C103_name_witness"
   ],
   "note": "The full statement (Values) is false: C103_copy_violated, a copy shares its steps with the original. C103_independent and C103_fresh prove it for every object that alone points to its list and is used only by its methods, in every program; C103_copy and C103_call say what copies do; C103_moved what a moved-from object does."
  },
  {
   "property": "C104",
   "status": "proved",
   "theorems": [
    "Uni.Planner.C104_circle",
    "Uni.Planner.C104_motion",
    "Uni.Planner.C104_landings",
    "Uni.Planner.C104_rings"
   ],
   "note": "C104_circle: the circle is the motion with the commanded velocities. C104_motion and C104_landings: the planned unicycle and the contacts; C104_rings: the rings of the two feet. The integrator is the fixed step forward Euler contract (FixedStep)."
  },
  {
   "property": "C105",
   "status": "proved",
   "theorems": [
    "Uni.C105_order",
    "Uni.CoMHeight.C105_height",
    "Uni.Zmp.C105_load_rates",
    "Uni.Zmp.C105_load",
    "Uni.C105_attained"
   ],
   "note": "Rates of the load (velocity, acceleration, change per sample, with and without a pause, for both feet, across changes of phase) and of the CoM height; order of the phases; C105_attained: the bounds on velocity and acceleration are reached. That the feet alternate is needed: C44_same_foot_witness."
  },
  {
   "property": "C106",
   "status": "proved",
   "theorems": [
    "Uni.CoMHeight.C106_height_unset",
    "Uni.CoMHeight.C106_height_done",
    "Uni.CoMHeight.C106_height",
    "Uni.CoMHeight.C106_height_mixed",
    "Uni.CubicFeet.C106_cubic_unset",
    "Uni.CubicFeet.C106_cubic",
    "Uni.CubicFeet.C106_cubic_done",
    "Uni.MinJerk.C106_minJerk_unset",
    "Uni.MinJerk.C106_minJerk",
    "Uni.MinJerk.C106_minJerk_done",
    "Uni.C106_walk",
    "Uni.C106_feet_mixed",
    "Uni.C106_minJerk_mixed"
   ],
   "note": "The CoM height and both feet generators; the ZMP and DCM generators are C108."
  },
  {
   "property": "C107",
   "status": "proved",
   "theorems": [
    "Uni.C107_planner",
    "Uni.C107_call",
    "Uni.C107_equal_names",
    "Uni.C107_dcm",
    "Uni.C107_zmp",
    "Uni.C107_swapped",
    "Uni.C107_renamed"
   ],
   "note": "C107_planner for any renaming, C107_call for injective renamings without a DCM generator, C107_equal_names, C107_zmp, C107_dcm; witnesses C107_swapped (DCM) and C107_renamed (ZMP reads out of range). The sort of orderSteps is any sort that commutes with the renaming (insertion_blind: a sort by impact time does)."
  },
  {
   "property": "C108",
   "status": "proved",
   "theorems": [
    "Uni.Zmp.C108_weights",
    "Uni.Zmp.C108_local",
    "Uni.Zmp.C108_zmp",
    "Uni.Zmp.C108_zmp_done",
    "Uni.Dcm.C108_dcm_weights",
    "Uni.Dcm.C108_dcm",
    "Uni.Dcm.C108_dcm_done",
    "Uni.Dcm.C108_dcm_walk",
    "Uni.C108_dcm_witness"
   ],
   "note": "All vectors of both generators, and the states at the merge points. What a failing call leaves in the members that are no output (previous steps) is not covered."
  },
  {
   "property": "C109",
   "status": "proved",
   "theorems": [
    "Uni.Special.C109_rounding",
    "Uni.Special.C109_settings",
    "Uni.Special.C109_finite",
    "Uni.Special.C109_refines",
    "Uni.Special.C109_numbers",
    "Uni.Special.C109_period",
    "Uni.Special.C109_terminal",
    "Uni.Special.C109_times",
    "Uni.Special.C109_sort",
    "Uni.Special.C109_standing",
    "Uni.Special.C109_setters",
    "Uni.Special.C109_infinite"
   ],
   "note": "phases with IEEE special values: what is generated is finite and refines C92; NaN is stored and leads to undefined behaviour (exact causes proved); the sign of zero is not modelled; the trajectory generators are not covered"
  },
  {
   "property": "C110",
   "status": "proved",
   "theorems": [
    "Uni.RoundedPlan.C110_exact",
    "Uni.RoundedPlan.C110_ends",
    "Uni.RoundedPlan.C110_never",
    "Uni.RoundedPlan.C110_absorbed",
    "Uni.RoundedPlan.C110_progress",
    "Uni.RoundedPlan.C110_ieee",
    "Uni.RoundedPlan.C110_never_witness",
    "Uni.RoundedPlan.C110_landings",
    "Uni.RoundedPlan.C110_increasing",
    "Uni.RoundedPlan.C110_faithful"
   ],
   "note": "The violation (a positive period that is absorbed, so that the call never returns) is part of the statement and has a witness for every rounding to nearest. Overflow is not part of this model."
  },
  {
   "property": "C111",
   "status": "proved",
   "theorems": [
    "Uni.Walker.C111_clock",
    "Uni.Walker.C111_support",
    "Uni.Walker.C111_feet",
    "Uni.Walker.C111_corrected",
    "Uni.Walker.C111_height",
    "Uni.Walker.C111_load",
    "Uni.Walker.C111_rate",
    "Uni.Walker.C111_load_planned"
   ],
   "note": "Over any ordered field, with and without measurements. The conditions on where walks are replaced are those of C88. The rate bounds needed by C111_load always exist (C111_rate). Slipping is about the planar position and the yaw."
  },
  {
   "property": "C112",
   "status": "proved",
   "theorems": [
    "Uni.Walker.C112_stands",
    "Uni.Walker.C112_moves",
    "Uni.Walker.C112_first",
    "Uni.Walker.C112_keeps_distance",
    "Uni.Walker.C112_keeps_beside",
    "Uni.Walker.C112_keeps_turn",
    "Uni.Walker.C112_distance",
    "Uni.Walker.C112_turn",
    "Uni.Walker.C112_beside"
   ],
   "note": "Over ℝ for the exact geometry (C112_distance, C112_turn, C112_beside); C112_stands and C112_moves are for any relation that the settings keep. Walks without empty phases, minimum step time positive, as in C111."
  },
  {
   "property": "C113",
   "status": "proved",
   "theorems": [
    "Uni.Walker.C113_turns",
    "Uni.Walker.C113_never_twice",
    "Uni.Walker.C113_first",
    "Uni.Walker.C113_at_rest",
    "Uni.Walker.C113_contacts",
    "Uni.Walker.C113_measured_times"
   ],
   "note": "Theorem over all executions C113_turns (with C113_never_twice and C113_first); C113_at_rest and C113_measured_times tell what happens without the condition on the landing times; C113_contacts needs none of the conditions."
  },
  {
   "property": "C114",
   "status": "proved",
   "theorems": [
    "Uni.Walker.C114_samples",
    "Uni.Walker.C114_dynamics",
    "Uni.Walker.C114_curve"
   ],
   "note": "Theorem over all executions C114_curve, with C114_samples (one sample of the DCM per executed sample) and C114_dynamics; over the reals."
  },
  {
   "property": "C115",
   "status": "proved",
   "theorems": [
    "Uni.Walker.C115_begins",
    "Uni.Walker.C115_goes_on",
    "Uni.Walker.C115_in_time",
    "Uni.Walker.C115_forever",
    "Uni.Walker.C115_end_witness"
   ],
   "note": "C115_begins (the first walk), C115_goes_on (one replacement), C115_in_time (requests at the end of a walk or while standing are not late), C115_forever (any number of walks); over the reals. At other merge points the condition that the request is not late is a hypothesis, see C80_late_witness; C115_end_witness shows that without a DCM generator it fails even at the end of a walk."
  },
  {
   "property": "C116",
   "status": "proved",
   "theorems": [
    "Uni.Walker.C116_pace",
    "Uni.Walker.C116_creeps",
    "Uni.Walker.C116_speed",
    "Uni.Walker.C116_next"
   ],
   "note": "For relations between the feet that bound the strides (C116_pace, C116_creeps), and with the maximum step length and rotation of the settings (C116_speed, C116_next)."
  },
  {
   "property": "C117",
   "status": "proved",
   "theorems": [
    "Uni.Walker.C117_others",
    "Uni.Walker.C117_ground",
    "Uni.Walker.C117_steps",
    "Uni.Walker.C117_dcm_witness",
    "Uni.Walker.C117_fail_witness"
   ],
   "note": "C117_dcm_witness shows why the DCM generator is not among them, C117_fail_witness why the calls have to succeed"
  },
  {
   "property": "C118",
   "status": "proved",
   "theorems": [
    "Uni.Planner.C118_motion",
    "Uni.Planner.C118_landings",
    "Uni.Planner.C118_reach",
    "Uni.Planner.C118_forgotten"
   ],
   "note": "C118_motion, C118_landings, C118_reach; C118_forgotten is the point of the past that is dropped against the documentation."
  },
  {
   "property": "C119",
   "status": "proved",
   "theorems": [
    "Uni.Planner.C119_motion",
    "Uni.Planner.C119_landings"
   ],
   "note": "C119_motion, C119_landings."
  },
  {
   "property": "C120",
   "status": "proved",
   "theorems": [
    "Uni.Planner.C120_stored",
    "Uni.Planner.C120_grows",
    "Uni.Planner.C120_pursued",
    "Uni.Planner.C120_past",
    "Uni.Planner.C120_abandoned",
    "Uni.Planner.C120_unbounded"
   ],
   "note": "Over R (stored points: any ordered field). Integrator assumed only to feed the controllers."
  },
  {
   "property": "C121",
   "status": "proved",
   "theorems": [
    "Uni.Planner.C121_arrives",
    "Uni.Planner.C121_done",
    "Uni.Planner.C121_stuck",
    "Uni.Planner.C121_again"
   ],
   "note": "The code then leaves the robot in the middle of the path if the walk is replaced before the path is walked; see DESIGN.md."
  },
  {
   "property": "C122",
   "status": "proved",
   "theorems": [
    "Uni.Planner.C122_walks",
    "Uni.Planner.C122_first_plan"
   ],
   "note": "With the exception stated: in the first plan no step is taken at velocities at which a step of the nominal duration is too long; see DESIGN.md."
  },
  {
   "property": "C123",
   "status": "proved",
   "theorems": [
    "Uni.Planner.C123_turns"
   ],
   "note": "Turning and walking at the same time is not covered; C104 tells where the feet land then."
  },
  {
   "property": "C124",
   "status": "proved",
   "theorems": [
    "Uni.Planner.C124_curve",
    "Uni.Planner.C124_way"
   ],
   "note": "Constant forward and angular velocity, no lateral velocity; the width of the curve and the constraints are hypotheses (CurveFits)."
  },
  {
   "property": "C125",
   "status": "proved",
   "theorems": [
    "Uni.Planner.C125_order",
    "Uni.Planner.C125_marches",
    "Uni.Walker.C125_stops",
    "Uni.Walker.C125_for_good",
    "Uni.Walker.C125_ends_standing"
   ],
   "note": "Single replacement: C125_stops. Any number of replacements: C125_for_good. C125_order: the order that stops the robot. C125_ends_standing: the end of a walk that comes to rest is a moment between steps, as C125_for_good needs. C125_marches: with a minimum length or angle of zero (accepted by the setters) a standing robot told to stand still marches on the spot."
  },
  {
   "property": "C126",
   "status": "proved",
   "theorems": [
    "Uni.Planner.C126_walks",
    "Uni.Planner.C126_progress",
    "Uni.Walker.C126_line",
    "Uni.Walker.C126_advances"
   ],
   "note": "Any number of replacements: C126_line (contacts beside one line), C126_advances (order of the contacts). Single plan: C126_walks (the robot makes steps and the order is kept), C126_progress (how far it gets). The example for C126_advances has one replacement."
  }
 ]
}