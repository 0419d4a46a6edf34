{
 "C01": {
  "status": "proved",
  "note": "addStep refuses exactly negative times and labels the step with the footprint's own name; every history keeps non-negative times and the name. No order in time is enforced by the code, and none is claimed."
 },
 "C02": {
  "status": "proved",
  "note": "Full characterisation of keepOnlyPresentStep on every reachable footprint; a negative time can lose all steps (C02_negative_time_loses_steps)."
 },
 "C03": {
  "status": "proved",
  "note": "Refinement of every operation and history to a log specification."
 },
 "C04": {
  "status": "proved",
  "note": "Over the reals; the refusals (C04_queries) and the setters (C04_setters) in any field."
 },
 "C05": {
  "status": "proved",
  "note": "Over the reals."
 },
 "C06": {
  "status": "proved",
  "note": "Angles are compared without wrapping: C06_full_turn_not_tiny."
 },
 "C07": {
  "status": "proved",
  "note": "All setter histories of a new controller."
 },
 "C08": {
  "status": "proved",
  "note": "Any ordered field."
 },
 "C09": {
  "status": "proved",
  "note": "Forward-Euler integration is the external contract of the integrator."
 },
 "C10": {
  "status": "proved",
  "note": "std::sort is modelled as any sorted permutation."
 },
 "C11": {
  "status": "proved",
  "note": "Any ordered field; division by zero is a distinct outcome and excluded."
 },
 "C12": {
  "status": "partial",
  "note": "Violated by the code: refuted in C12_not_held (the reference is interpolated). What remains true is C12_held_partial."
 },
 "C13": {
  "status": "proved",
  "note": "Any ordered field. C13_history assumes that the integrator leaves the desired trajectory as it is (KeepsReference). C13_clear_all: clearDesiredTrajectory removes the whole reference and nothing else."
 },
 "C14": {
  "status": "proved",
  "note": "Over the reals, as a derivative along any motion with the saturated velocities."
 },
 "C15": {
  "status": "proved",
  "note": "For ellipses set through axes; for shear matrices accepted by the other setter see C19."
 },
 "C16": {
  "status": "proved",
  "note": "Over the reals."
 },
 "C17": {
  "status": "proved",
  "note": "Also: the projection is on the segment to the projection centre."
 },
 "C18": {
  "status": "proved",
  "note": "C18_line holds for all points and ellipses: the threshold 1e-15 on the coefficients moves the intersections by at most 1e-15 M^2 / |p - q| from the line, M being the longest semi-axis, and a failure means that the points nearly coincide or that the line misses the ellipse up to the same tolerance. C18_exact: without error if no coefficient is non-zero and below 1e-15."
 },
 "C19": {
  "status": "partial",
  "note": "Violated by the code: C19_steep_always_refused and C19_shear_accepted refute it; C19_shallow_partial is what holds."
 },
 "C20": {
  "status": "partial",
  "note": "Violated by the code (uninitialised entry): C20_garbage_not_tangent; holds if that memory is zero."
 },
 "C21": {
  "status": "proved",
  "note": "Decision logic of areConstraintsSatisfied after any setter history; also shows that the printed diagnosis omits the backward bound."
 },
 "C22": {
  "status": "proved",
  "note": "Termination with an explicit bound for a positive period; with period 0 (accepted by the setter) some requests never return: C22_zero_period_never_returns, C22_zero_period_reachable."
 },
 "C23": {
  "status": "proved",
  "note": "Appended steps alternate feet; first foot as prescribed."
 },
 "C24": {
  "status": "proved",
  "note": "Durations at least the minimum; landing times strictly increase and footprints stay sorted."
 },
 "C25": {
  "status": "proved",
  "note": "Every optimised step respects the bounds; of a complete terminal step (two landings) the first one does too. The closing parallel step is not claimed."
 },
 "C26": {
  "status": "proved",
  "note": "Each landing is the least-cost admissible sample, ties resolved as stated. C26_cost states the cost in terms of the duration, the two steps and the configured weights (it assumes cos^2 + sin^2 = 1)."
 },
 "C27": {
  "status": "proved",
  "note": "With and without pauses."
 },
 "C28": {
  "status": "proved",
  "note": "Footprints are only extended at the end, also on failure, with the single exception in the statement (realigned landing time)."
 },
 "C29": {
  "status": "proved",
  "note": "Landing instants lie in the requested window."
 },
 "C30": {
  "status": "proved",
  "note": "Feet parallel at the end when the terminal step is requested."
 },
 "C31": {
  "status": "partial",
  "note": "Rejections proved; an empty interval with two empty feet is accepted by the code (C31_empty_interval_violated)."
 },
 "C32": {
  "status": "proved",
  "note": "After every history of settings and planning requests; 0 <= pi is the only assumption on the trigonometric functions. C32_controllers: the three controllers get the last accepted gains and saturations. C32_cost_weights: the weights of the cost (the position weight also from a refused call, see C33)."
 },
 "C33": {
  "status": "partial",
  "note": "Violated by setCostWeights, setFreeSpaceEllipse, setInnerFreeSpaceEllipseOffset(s), setMaximumIntegratorStepSize (each refuted); proved for all other configuration methods of the planner."
 },
 "C34": {
  "status": "proved",
  "note": "Every footprint pair, setting and tie order."
 },
 "C35": {
  "status": "proved",
  "note": "Every sample."
 },
 "C36": {
  "status": "partial",
  "note": "Proved: only two undefined behaviours are possible and neither occurs when the final double support has a sample and the walk is not entirely in the past. Both do occur otherwise (C36_past_walk_witness, C36_no_sample_witness), so the full statement is false of the code."
 },
 "C37": {
  "status": "proved",
  "note": "Half a sample for every step; every step of the footprints but the first of each foot has its swing."
 },
 "C38": {
  "status": "partial",
  "note": "Every merge point is in the double support of its step; strictly increasing and in range if no phase is empty; non-decreasing if the final double support has a sample. Otherwise false: C38_decreasing_witness."
 },
 "C39": {
  "status": "proved",
  "note": "Ties involving the first two steps are not noticed and the outcome then depends on the sort: C39_unnoticed_tie_witness."
 },
 "C40": {
  "status": "proved",
  "note": "Over the reals, with atan2 the principal argument; any number of turns."
 },
 "C41": {
  "status": "proved",
  "note": "End points, range, monotonicity and speed bound over any ordered field, derivatives over the reals."
 },
 "C42": {
  "status": "partial",
  "note": "Heights proved for all inputs; success proved for generated timelines without empty phases. C42_empty_switch_witness and C42_empty_end_witness: false when a phase has no samples."
 },
 "C43": {
  "status": "partial",
  "note": "Both feet generators, timelines without empty phases. C43_empty_swing_witness, C43_late_witness and C43_spline_late_witness: false when a swing has no samples."
 },
 "C44": {
  "status": "partial",
  "note": "Weights are complementary; exactly 0/1 in single support; double supports follow the cubic from start to target (with and without a pause); within [0,1] for walks that start at rest. Missing: a moving initial state can leave [0,1] (C44_overshoot_witness), so the bound cannot hold for all initial states. After the first double support they are, whatever the initial state (C44_later)."
 },
 "C45": {
  "status": "partial",
  "note": "After the first double support the position is the weighted average of the feet ZMPs in the world; in the first one each point moves from the previous steps to the present ones. On the segment of the two feet ZMPs for walks without previous steps that start at rest with a weight in [0,1]. The velocity is right in the first double support without pause; afterwards, in phases without a pause, it is off by exactly the weighted feet positions (C45_velocity_off, C45_velocity_witness)."
 },
 "C46": {
  "status": "proved",
  "note": "C46_dynamics: in every sample of every successful call velocity = omega*(position - ZMP) if omega is not zero. C46_stance: at every sample of a single support the ZMP is the offset of the stance foot brought to the world with the contact reached after its landings so far. C46_curve (reals): the samples lie on a curve whose velocity is its derivative and obeys the dynamics with that ZMP at all times of the single support. Hypotheses of the last two: valid timings, no empty phase, names left/right, omega > 0, stillness in [0,1), every part of a pause and the final motion last a sample, feet take turns. C46_same_foot_witness: if a foot steps twice in a row the ZMP is under the foot in the air."
 },
 "C47": {
  "status": "proved",
  "note": "For valid timings, no empty phase, names left/right, omega > 0, stillness in [0,1): C47_chain (contiguous, agreeing in position and velocity, from 0 to the last instant; one sample per instant), C47_start (given initial state in first piece and first sample), C47_end (feet take turns: at rest in the middle of the ZMPs of the last contacts), C47_still (samples of the last part of the last double support), C47_sampled, C47_curve (reals: C1 curve through all samples). The assertion in the constructors that the pieces have positive length is part of the lemmas. Real numbers, not doubles."
 },
 "C48": {
  "status": "proved",
  "note": "C48_valid: every pair of weights of every successful call is in [0,1] and sums to one. C48_follow: one pair per sample; stance foot carries everything in single support; formula in double support with the contacts after the landings so far. C48_reproduce, C48_mean (reals): the weighted mean of the ZMPs of the feet is the ZMP in single support and wherever the ZMP is between those of the feet."
 },
 "C49": {
  "status": "partial",
  "note": "C49_alpha_stillness_violation: setAlpha and setStillnessPercentage accept every value; C49_omega_zero_violation: setOmega accepts zero. What holds: C49_omega_partial (negative refused, positive accepted) and C49_lastOffset (accepted exactly in [0,1])."
 },
 "C50": {
  "status": "proved",
  "note": "Includes absence of uninitialised reads and divisions by zero once a feedback was given; before that C50_blind: the read of the uninitialised state. Also the exception without a path."
 },
 "C51": {
  "status": "proved",
  "note": "Bounds, double support and single support profile for every generated timeline; success for timelines without empty phases (C51_empty_switch_witness otherwise)."
 },
 "C52": {
  "status": "partial",
  "note": "Full characterisation of what is kept (C52_contacts_partial): position and angle of the other foot are unchanged. Its landing time is not always: with the DCM at rest both contacts get the latest landing time (the code's reset), so 'unchanged' holds of the pose only. Failing calls can lose steps (C52_no_right_contact, C52_negative_measure_loses_contact)."
 },
 "C53": {
  "status": "partial",
  "note": "Linearisability for any number of calls and all interleavings of generateFromFootPrints, the locked setters and getters of generator and planner, and the methods of one trajectory generator. It does not hold of generate/reGenerate (C53_generate_witness) nor when the settings of two trajectory generators change during a generation (C53_settings_witness). Two ways to have it are proved: a mutex of the callers around all calls (C53_own_mutex), and one planning thread with others that set timings, read outputs or use one of the feet/height generators (C53_one_planning_thread). C53_calls_alone and C53_setters_alone tie the code with locks to the sequential model."
 },
 "C54": {
  "status": "proved",
  "note": "The stop is absorbing until a new path or time step is set."
 },
 "C55": {
  "status": "partial",
  "note": "Violated in general (counterexample proved); proved for heading 0."
 },
 "C56": {
  "status": "proved",
  "note": "Refinement to a relational specification of the plan, and determinism."
 },
 "C57": {
  "status": "proved",
  "note": "The integrator is an arbitrary function; the theorem identifies its arguments."
 },
 "C58": {
  "status": "proved",
  "note": "Includes the proof that one empty footprint is undefined behaviour."
 },
 "C59": {
  "status": "proved",
  "note": "All result branches."
 },
 "C60": {
  "status": "partial",
  "note": "Exact characterisation: the access past the end happens iff the walk ends with a right step (C60_past_end_iff, witness); proved absent otherwise."
 },
 "C61": {
  "status": "partial",
  "note": "Holds once a generation succeeded (C61_after_success_partial); C61_before proves the dereference of null pointers for every history of requests refused on arrival."
 },
 "C62": {
  "status": "proved",
  "note": "C62_accepted for the first planning, C62_replan_accepted for re-planning; C62_too_close_witness shows that the bound on the sampling period is needed."
 },
 "C63": {
  "status": "partial",
  "note": "Proved after successful generations and for requests refused on arrival; C63_stale_contacts_witness: false after a generation that fails while assigning the phases."
 },
 "C64": {
  "status": "proved",
  "note": "For timelines without empty phases (with an empty phase the generator may fail, see C42). C64_jump_witness shows the case in which the first sample is not on the ground."
 },
 "C65": {
  "status": "proved",
  "note": "Minimum jerk: per half swing. Cubic splines: over the whole swing. Uses the iDynTree formulas for the RPY derivative (contract in DESIGN)."
 },
 "C66": {
  "status": "partial",
  "note": "Proved for the cubic-spline generator; the minimum-jerk generator accepts every value and ignores it (C66_landing_velocity_ignored)."
 },
 "C67": {
  "status": "proved",
  "note": "The integration theorems use the forward-Euler contract of the integrator."
 },
 "C68": {
  "status": "partial",
  "note": "Proved for a zero buffer entry and zero (or moderate downward) landing velocity, with the exact bound of the overshoot; four witnesses of violation otherwise."
 },
 "C69": {
  "status": "proved",
  "note": "Merge states are the samples; a generation starts from the given weight and velocity, used once. The given acceleration is ignored (C69_acceleration_witness)."
 },
 "C70": {
  "status": "proved",
  "note": "All four phases, for every sample of a successful generation, in exact arithmetic (see C72 for rounding)."
 },
 "C71": {
  "status": "proved",
  "note": "For walks with alternating feet and non-empty phases."
 },
 "C72": {
  "status": "partial",
  "note": "Rounding to nearest even with unbounded exponents. Never past the end except in the last phase, there by at most one sample, and not at all if the period is a power of two; C72_overrun_witness is a reachable overrun."
 },
 "C73": {
  "status": "proved",
  "note": "C73_succeeds: the call succeeds for valid timings, no empty phase, names left/right, omega > 0, stillness in [0,1), parts of a pause and final motion of at least a sample, and an initial state if one is announced. C73_defined: without the condition on the lengths the behaviour is still defined. C73_no_room_witness: then it can fail. C73_omega_zero_witness: omega = 0 is accepted and leads to a division by zero."
 },
 "C74": {
  "status": "partial",
  "note": "C47_start (given state is the first sample), C74_once, C74_kept. C74_default: what the default is; C74_default_partial: it is the middle of the ZMPs if the first contacts have angle zero; C74_default_violation: it is not if both feet are turned by the same angle and have the same offset, not zero."
 },
 "C75": {
  "status": "proved",
  "note": "C75_pause, for samples; hypotheses as C46_stance, pauses active, and a double support before a step that is longer than both the maximal duration and the sum of switch time and nominal duration (the condition of the code). The pause after the last step is C47_still."
 },
 "C76": {
  "status": "partial",
  "note": "C76_last_offset: proved for samples. C76_meet: the arcs of consecutive single supports meet at alpha times the sum of the two instants; C76_alpha_partial: for alpha = 1/2 this is the middle of the double support; C76_alpha_violation: for alpha = 1 arcs with different ZMPs meet only after the double support."
 },
 "C77": {
  "status": "proved",
  "note": "For histories in which every ellipse given is accepted (C77_accepted: with FOOTSTEPS_ONLY it always is). What happens when the second controller of a refused ellipse has kept it is C33."
 },
 "C78": {
  "status": "partial",
  "note": "Silence and direction proved for all histories and feedbacks; the short way for feedbacks within 3 pi of zero. Two negations: after two and a half turns the long way is taken; an aligned unicycle is turned at the maximal rate."
 },
 "C79": {
  "status": "proved",
  "note": "Over the reals. Assumptions beside acceptance: headings of the path in [-pi, pi], a positive backward factor, speed limits of at least twice the tolerance of the controller (1e-6), at most half a turn in a step, integrator step equal to the step of the controller."
 },
 "C80": {
  "status": "partial",
  "note": "generate: proved for every reachable state of the object in which the robot stands still (C80_generate, C80_valid_requests_succeed) or stands on one contact per foot, if no step can be due less than the shortest step time after the request (C80_generate_contacts); with more than three contacts before the request it always fails (C90). reGenerate: proved over the reals for requests after which the first step still takes the shortest step time (Timely). Negation: a request just before a landing is accepted by the planner and then fails (C80_late_witness; rational stand-ins for the trigonometric functions, which play no role when going straight)."
 },
 "C81": {
  "status": "proved",
  "note": "For every reachable state, every kind of request, every input."
 },
 "C82": {
  "status": "partial",
  "note": "Proved for setters, for requests refused on arrival and for requests the planner refuses. Negation with a walk whose contacts have 17 samples and whose heights still have the 33 of the walk before (C82_mixture_witness; rational stand-ins for the trigonometric functions). What a failing generator leaves in its own vectors is C106 and C108."
 },
 "C83": {
  "status": "proved",
  "note": "Composition of C34, C42/C43, C58 and the planner theorems; the room for the phases that C42 and C43 assume is proved from the settings."
 },
 "C84": {
  "status": "proved",
  "note": "No reachable deadlock for any family of calls; with finitely many calls every execution ends and can be completed with all calls returned. Calls of the planner are one access here: that planning itself ends is C22."
 },
 "C85": {
  "status": "partial",
  "note": "No race between methods that lock (any number of calls). The methods without lock and generate race: C85_unlocked_witness (in every state), C85_generate_witness. Objects are whole classes' states (the footprints are one object)."
 },
 "C86": {
  "status": "proved",
  "note": ""
 },
 "C87": {
  "status": "proved",
  "note": "For timelines without empty phases, as C64."
 },
 "C88": {
  "status": "proved",
  "note": "Two generating calls around a merge point, over any ordered field: DCM, loads, height, feet (with and without measurements) and ZMP. The conditions on the feet and on the ZMP are needed: C88_landing_witness, C88_zmp_witness. The velocity of the ZMP is not covered (it is wrong, see C45), nor is the acceleration of the load (C69)."
 },
 "C89": {
  "status": "partial",
  "note": "Settings, requests and histories from a new generator (or any two displaced ones). The planner is covered if its integrator does not feel the displacement; this is proved for Euler integration of the direct and person following controllers. Missing: navigation controller (false: C89_navigation_witness), walks without any contact (false: C89_origin_witness), DCM that starts from the default with offsets in the feet (C74), velocity and acceleration of the world ZMP (C45), switching to the person following controller, times before zero."
 },
 "C90": {
  "status": "proved",
  "note": "C90_contacts_before for all three generating calls; C90_again and C90_never for generate with footprints that hold at least four contacts in chronological order with non-negative times (as every planned walk with at least two steps); C90_fails says how it fails, assuming half a sample fits into the final contact."
 },
 "C91": {
  "status": "partial",
  "note": "Proved for footprints whose first contacts precede the later ones, for planned walks, re-planning and histories of them. For other footprints the code violates the claim: C91_tie_witness."
 },
 "C92": {
  "status": "proved",
  "note": "For every rounding with the stated properties; rounding doubles to nearest (any rule for ties, subnormal numbers included) is shown to be one and to exist. Overflow, NaN and extended precision are not modelled. The two situations of C36 in which lengths wrap or a negative number is converted remain (C92_only_two_ways), so the absence of wrapping is proved outside them. Only the computation of the phases is modelled with rounding, not the trajectory generators."
 },
 "C93": {
  "status": "partial",
  "note": "Proved for all inputs for which the claim holds; the code violates it in two situations, with witnesses: C93_standing_witness, C93_weights_witness. About generate(left, right, ...); planned walks are C101."
 },
 "C94": {
  "status": "partial",
  "note": "That a planning call reads the motion inside the interval only is proved for all integrators and histories; the answer of getPersonPosition in the range too (C94_person_partial). The refusal of other instants is violated by the code (assertions only): C94_late_violation, C94_early_violation; C94_step_witness."
 },
 "C95": {
  "status": "partial",
  "note": "All of it is proved except the last sentence, which the code violates: C95_getter_violation, C95_plan_witness; what the getter really returns is in C95_after. C95_alternation assumes a positive minimum step duration and that both feet have a contact."
 },
 "C96": {
  "status": "proved",
  "note": "Over the reals; the integrator is the fixed-step Euler contract. The violations show that the conditions on the backward factor and on the steps cannot be dropped."
 },
 "C97": {
  "status": "proved",
  "note": "The height itself can jump by a sample when the apex is very early (C64_jump_witness): the bounds on successive samples are about the motion on the ground."
 },
 "C98": {
  "status": "proved",
  "note": "Only for alpha = 1/2, the default; for other values the arcs do not meet where documented (C76). Nothing is claimed about the double supports, whose polynomials may overshoot."
 },
 "C99": {
  "status": "proved",
  "note": "For the direct controller and the model of the fixed step (forward Euler) integrator, in real arithmetic; commands that turn and move at once are not covered."
 },
 "C100": {
  "status": "partial",
  "note": "proved for motions that do not turn and feet pointing ahead (any integrator that commutes with the reflection; the direct control with the Euler integrator does), for all settings and histories; for turning motions the claim is false of the code: C100_width_violated, C100_turning_violated"
 },
 "C101": {
  "status": "partial",
  "note": "Proved for requests during which the robot does not turn (and measured contacts that leave the feet parallel); for turning motions the claim is false of the planner (C100_turning_violated), and the exclusions of C93 remain (phases of a standing robot, DCM weights in double support)."
 },
 "C102": {
  "status": "partial",
  "note": "The full statement is false: C102_behind_witness is a walk whose ZMP leaves the feet to the rear, the ZMP is off the line between the feet whenever the meeting point of the arcs is, and with the default offset every walk brakes with the ZMP beyond the last support (C102_last_violated, C102_last_witness). C102_zmp, C102_last and C102_first give the ZMP of every sample exactly; C102_between_partial bounds the distance from the segment when omega times the duration is at most two; C102_last_between gives the offsets with which the ZMP stays between the feet in the last double support, sharp below. Double supports with a pause are in C75; a first double support made of a quintic is not covered."
 },
 "C103": {
  "status": "partial",
  "note": "The full statement (Values) is false: C103_copy_violated, a copy shares its steps with the original. C103_independent and C103_fresh prove it for every object that alone points to its list and is used only by its methods, in every program; C103_copy and C103_call say what copies do; C103_moved what a moved-from object does."
 },
 "C104": {
  "status": "proved",
  "note": "C104_circle: the circle is the motion with the commanded velocities. C104_motion and C104_landings: the planned unicycle and the contacts; C104_rings: the rings of the two feet. The integrator is the fixed step forward Euler contract (FixedStep)."
 },
 "C105": {
  "status": "proved",
  "note": "Rates of the load (velocity, acceleration, change per sample, with and without a pause, for both feet, across changes of phase) and of the CoM height; order of the phases; C105_attained: the bounds on velocity and acceleration are reached. That the feet alternate is needed: C44_same_foot_witness."
 },
 "C106": {
  "status": "proved",
  "note": "The CoM height and both feet generators; the ZMP and DCM generators are C108."
 },
 "C107": {
  "status": "proved",
  "note": "C107_planner for any renaming, C107_call for injective renamings without a DCM generator, C107_equal_names, C107_zmp, C107_dcm; witnesses C107_swapped (DCM) and C107_renamed (ZMP reads out of range). The sort of orderSteps is any sort that commutes with the renaming (insertion_blind: a sort by impact time does)."
 },
 "C108": {
  "status": "proved",
  "note": "All vectors of both generators, and the states at the merge points. What a failing call leaves in the members that are no output (previous steps) is not covered."
 },
 "C109": {
  "status": "proved",
  "note": "phases with IEEE special values: what is generated is finite and refines C92; NaN is stored and leads to undefined behaviour (exact causes proved); the sign of zero is not modelled; the trajectory generators are not covered"
 },
 "C110": {
  "status": "proved",
  "note": "The violation (a positive period that is absorbed, so that the call never returns) is part of the statement and has a witness for every rounding to nearest. Overflow is not part of this model."
 },
 "C111": {
  "status": "proved",
  "note": "Over any ordered field, with and without measurements. The conditions on where walks are replaced are those of C88. The rate bounds needed by C111_load always exist (C111_rate). Slipping is about the planar position and the yaw."
 },
 "C112": {
  "status": "proved",
  "note": "Over ℝ for the exact geometry (C112_distance, C112_turn, C112_beside); C112_stands and C112_moves are for any relation that the settings keep. Walks without empty phases, minimum step time positive, as in C111."
 },
 "C113": {
  "status": "proved",
  "note": "Theorem over all executions C113_turns (with C113_never_twice and C113_first); C113_at_rest and C113_measured_times tell what happens without the condition on the landing times; C113_contacts needs none of the conditions."
 },
 "C114": {
  "status": "proved",
  "note": "Theorem over all executions C114_curve, with C114_samples (one sample of the DCM per executed sample) and C114_dynamics; over the reals."
 },
 "C115": {
  "status": "proved",
  "note": "C115_begins (the first walk), C115_goes_on (one replacement), C115_in_time (requests at the end of a walk or while standing are not late), C115_forever (any number of walks); over the reals. At other merge points the condition that the request is not late is a hypothesis, see C80_late_witness; C115_end_witness shows that without a DCM generator it fails even at the end of a walk."
 },
 "C116": {
  "status": "proved",
  "note": "For relations between the feet that bound the strides (C116_pace, C116_creeps), and with the maximum step length and rotation of the settings (C116_speed, C116_next)."
 },
 "C117": {
  "status": "proved",
  "note": "C117_dcm_witness shows why the DCM generator is not among them, C117_fail_witness why the calls have to succeed"
 },
 "C118": {
  "status": "proved",
  "note": "C118_motion, C118_landings, C118_reach; C118_forgotten is the point of the past that is dropped against the documentation."
 },
 "C119": {
  "status": "proved",
  "note": "C119_motion, C119_landings."
 },
 "C120": {
  "status": "proved",
  "note": "Over R (stored points: any ordered field). Integrator assumed only to feed the controllers."
 },
 "C121": {
  "status": "proved",
  "note": "The code then leaves the robot in the middle of the path if the walk is replaced before the path is walked; see DESIGN.md."
 },
 "C122": {
  "status": "proved",
  "note": "With the exception stated: in the first plan no step is taken at velocities at which a step of the nominal duration is too long; see DESIGN.md."
 },
 "C123": {
  "status": "proved",
  "note": "Turning and walking at the same time is not covered; C104 tells where the feet land then."
 },
 "C124": {
  "status": "proved",
  "note": "Constant forward and angular velocity, no lateral velocity; the width of the curve and the constraints are hypotheses (CurveFits)."
 },
 "C125": {
  "status": "proved",
  "note": "Single replacement: C125_stops. Any number of replacements: C125_for_good. C125_order: the order that stops the robot. C125_ends_standing: the end of a walk that comes to rest is a moment between steps, as C125_for_good needs. C125_marches: with a minimum length or angle of zero (accepted by the setters) a standing robot told to stand still marches on the spot."
 },
 "C126": {
  "status": "proved",
  "note": "Any number of replacements: C126_line (contacts beside one line), C126_advances (order of the contacts). Single plan: C126_walks (the robot makes steps and the order is kept), C126_progress (how far it gets). The example for C126_advances has one replacement."
 }
}