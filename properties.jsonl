{"id": "C01", "title": "Stored steps always have a non-negative impact time and carry the footprint's name", "statement": "Starting from a default-constructed FootPrint whose name has been set, after any sequence of addStep / dropPastSteps / keepOnlyPresentStep / clearSteps / clearLastStep calls every step returned by getSteps() has impactTime >= 0 and the footprint's name, whatever name the Step passed to addStep carried. addStep returns false and changes nothing exactly when the impact time is negative.", "quantifier": "every finite sequence of FootPrint calls and every argument value", "why_tests_cant": "the sequences and the real-valued arguments are unbounded", "anchors": ["src/FootPrint.cpp:FootPrint::addStep", "src/FootPrint.cpp:FootPrint::keepOnlyPresentStep", "src/FootPrint.cpp:FootPrint::dropPastSteps"]}
{"id": "C02", "title": "keepOnlyPresentStep keeps exactly the step on the ground at the given time", "statement": "keepOnlyPresentStep(t) returns false and leaves the footprint unchanged if no stored step has impactTime <= t. Otherwise exactly one step is left: the most recently added step with impactTime <= t, which, for a footprint filled in time order, is the step with the greatest impact time not exceeding t.", "quantifier": "every reachable footprint and every time t", "why_tests_cant": "holds for lists of any length and every t, including ties and times between steps", "anchors": ["src/FootPrint.cpp:FootPrint::keepOnlyPresentStep"]}
{"id": "C03", "title": "The footprint behaves as a time-stamped log with last-element access", "statement": "getLastStep returns the most recently accepted step that was not removed; clearLastStep removes exactly that step; dropPastSteps keeps exactly that step; numberOfSteps counts the remaining steps. dropPastSteps, clearLastStep and getLastStep return false exactly on the empty footprint.", "quantifier": "every finite sequence of FootPrint calls", "why_tests_cant": "unbounded call histories", "anchors": ["src/FootPrint.cpp:FootPrint::getLastStep", "src/FootPrint.cpp:FootPrint::clearLastStep", "src/FootPrint.cpp:FootPrint::dropPastSteps", "src/FootPrint.cpp:FootPrint::numberOfSteps"]}
{"id": "C04", "title": "Unicycle pose -> step -> unicycle pose is the identity", "statement": "If addStepFromUnicycle(p, theta, t) succeeds, getUnicycleStateFromStep of the stored step returns exactly (p, theta), for any feet distance and yaw offset; conversely a step rebuilt from the unicycle state derived from it is the same step. Steps cannot be added and the foot position cannot be queried before the distance from the unicycle has been set; setting distance or yaw offset changes no stored step.", "quantifier": "all unicycle poses, feet distances, yaw offsets and impact times", "why_tests_cant": "real-valued inputs; needs the rotation identity for every angle", "anchors": ["src/UnicycleFoot.cpp:UnicycleFoot::addStepFromUnicycle", "src/UnicycleFoot.cpp:UnicycleFoot::getUnicycleStateFromStep", "src/UnicycleFoot.cpp:UnicycleFoot::getFootPositionFromUnicycle"]}
{"id": "C05", "title": "A parallel step puts the foot beside the other one", "statement": "After a successful addParallelStep(other, t) the unicycle state derived from the new step equals the one derived from the other foot's last step; hence the two feet are at the nominal relative offset in the unicycle frame and their distance is the distance between the two configured offsets. It fails, without change, exactly when t is negative or the other foot has no step.", "quantifier": "all poses, offsets, yaw offsets and histories of both feet", "why_tests_cant": "real-valued inputs over every pose", "anchors": ["src/UnicycleFoot.cpp:UnicycleFoot::addParallelStep"]}
{"id": "C06", "title": "Tiny steps are recognised", "statement": "isTinyStep(pose) is true iff the foot has a last step and the step that addStepFromUnicycle would create moves by less than the minimum length and rotates by less than the minimum angle from it. In particular, with positive thresholds, a pose already realised by the last step is always tiny, so standing still never creates a step.", "quantifier": "all poses, thresholds and footprints", "why_tests_cant": "real-valued inputs", "anchors": ["src/UnicycleFoot.cpp:UnicycleFoot::isTinyStep", "src/UnicycleFoot.cpp:UnicycleFoot::setTinyStepLength", "src/UnicycleFoot.cpp:UnicycleFoot::setTinyStepAngle"]}
{"id": "C07", "title": "Commanded unicycle velocities never exceed the saturations", "statement": "Once setSaturations(maxLinear, maxAngular) has succeeded, every velocity produced by a unicycle controller satisfies |w| <= maxAngular, -backwardFactor*L <= v <= L with L = maxLinear/(1+slowWhenTurningGain*|w|) <= maxLinear, and |lateral| <= sidewaysFactor*maxLinear, whatever the concrete control law returns and whatever sequence of setter calls (accepted or rejected) was made before or after.", "quantifier": "every control law output and every history of setter calls", "why_tests_cant": "quantifies over arbitrary controller outputs and setter histories", "anchors": ["src/UnicycleBaseController.cpp:UnicycleBaseController::doControl", "src/UnicycleBaseController.cpp:UnicycleBaseController::saturate"]}
{"id": "C08", "title": "Saturation is the identity inside the limits and never reverses a command", "statement": "A command inside the limits passes unchanged, saturating twice equals saturating once, the saturation is monotone, and a saturated command never has the opposite sign of the requested one.", "quantifier": "all commands and all non-negative limits", "why_tests_cant": "real-valued inputs", "anchors": ["src/UnicycleBaseController.cpp:UnicycleBaseController::saturate"]}
{"id": "C09", "title": "The direct controller is silent until its activation time", "statement": "For every time smaller than the end of the deactivation interval the direct controller outputs zero velocities; from that time on it outputs exactly the last control set. Consequently the integrated unicycle pose is constant over the whole inactive interval.", "quantifier": "all times, controls, deactivation times and integration steps", "why_tests_cant": "real-valued time, integration sequences of any length", "anchors": ["src/UnicycleDirectController.cpp:UnicycleDirectController::doUnicycleControl", "src/UnicycleDirectController.cpp:UnicycleDirectController::setInactiveUntil", "src/ControlledUnicycle.cpp:ControlledUnicycle::dynamics"]}
{"id": "C10", "title": "Desired points are kept in time order and none is lost", "statement": "After any sequence of setDesiredPoint calls the stored trajectory is sorted by initial time and is a permutation of the accepted points; a point is rejected exactly when its initial time is negative.", "quantifier": "every sequence of desired points", "why_tests_cant": "unbounded sequences", "anchors": ["src/PersonFollowingController.cpp:PersonFollowingController::setDesiredPoint"]}
{"id": "C11", "title": "The desired reference is the piecewise-linear interpolation of the desired points", "statement": "For a stored trajectory with distinct times, the reference at time t exists iff t >= 0 and t is not before the first point; it equals a desired point at that point's time, is constant after the last point, and between two consecutive points lies on the segment joining them at the proportional position; no division by zero can occur.", "quantifier": "all stored trajectories and all times", "why_tests_cant": "trajectories of any length, all real times", "anchors": ["src/PersonFollowingController.cpp:PersonFollowingController::getDesiredPoint"]}
{"id": "C12", "title": "Desired points are held constant until the next one (header contract)", "statement": "UnicyclePlanner.h documents that the desired values are kept constant from the initTime of a point to the initTime of the next one. (The code interpolates linearly instead: the contract is violated.)", "quantifier": "all trajectories with at least two different points", "why_tests_cant": "a statement about every time between two points", "anchors": ["include/UnicyclePlanner.h:UnicyclePlanner::addPersonFollowingDesiredTrajectoryPoint", "src/PersonFollowingController.cpp:PersonFollowingController::getDesiredPoint"]}
{"id": "C13", "title": "Clearing the past of the desired trajectory does not change the future", "statement": "If clearDesiredTrajectoryUpTo(t) succeeds then for every t' >= t the reference at t' is exactly the same as before the call, and no stored point is older than t; if it fails the trajectory is unchanged. The same holds for UnicyclePlanner::clearDesiredTrajectoryUpTo, after every history of settings, plans and clearings. clearDesiredTrajectory removes the whole reference and nothing else.", "quantifier": "all sorted trajectories and all times t <= t'", "why_tests_cant": "trajectories of any length, all real times", "anchors": ["src/PersonFollowingController.cpp:PersonFollowingController::clearDesiredTrajectoryUpTo", "src/UnicyclePlanner.cpp:UnicyclePlanner::clearDesiredTrajectoryUpTo"]}
{"id": "C14", "title": "The person-following law linearises the followed point", "statement": "When no saturation is active and no ellipse is set, moving the unicycle with the computed velocities makes the velocity of the followed point exactly ydot_d - gain*(y - y_d), provided the x offset of the followed point is not zero.", "quantifier": "all poses, references, gains and point offsets with non-zero x", "why_tests_cant": "real-valued inputs", "anchors": ["src/PersonFollowingController.cpp:PersonFollowingController::doUnicycleControl", "src/PersonFollowingController.cpp:PersonFollowingController::setPersonDistance", "src/ControlledUnicycle.cpp:ControlledUnicycle::dynamics"]}
{"id": "C15", "title": "The reference tracked inside a free-space ellipse never leaves it", "statement": "Whenever a free-space ellipse has been set through its axes/angle/centre, the reference actually tracked by the person-following controller is inside that ellipse, whatever the raw reference, the unicycle pose, the blending (including its uninitialised matrix entry) and the sequence of ellipse/offset/factor setter calls, accepted or rejected.", "quantifier": "all raw references, poses and setter histories", "why_tests_cant": "unbounded histories and real-valued inputs", "anchors": ["src/PersonFollowingController.cpp:PersonFollowingController::getDesiredPointInFreeSpaceEllipse", "src/PersonFollowingController.cpp:PersonFollowingController::setFreeSpaceEllipse", "src/PersonFollowingController.cpp:PersonFollowingController::setInnerFreeSpaceEllipseOffsets"]}
{"id": "C16", "title": "isPointInside decides membership of the ellipse", "statement": "For an ellipse with semi-axes a, b, rotation theta and centre c, isPointInside(p) is true iff p = c + R(theta) (a u, b v) for some u^2+v^2 <= 1; with no ellipse set every point is inside.", "quantifier": "all ellipses accepted by setEllipse and all points", "why_tests_cant": "real-valued inputs", "anchors": ["src/FreeSpaceEllipse.cpp:FreeSpaceEllipse::isPointInside", "src/FreeSpaceEllipse.cpp:FreeSpaceEllipse::computeGenerators", "src/FreeSpaceEllipse.cpp:FreeSpaceEllipse::setEllipse"]}
{"id": "C17", "title": "Projecting onto the ellipse yields a point of the ellipse", "statement": "projectPointInsideEllipse always returns a point inside the ellipse; a point already inside is returned unchanged.", "quantifier": "all ellipses, projection points and test points", "why_tests_cant": "real-valued inputs", "anchors": ["src/FreeSpaceEllipse.cpp:FreeSpaceEllipse::projectPointInsideEllipse"]}
{"id": "C18", "title": "Line intersections are correct", "statement": "When getIntersectionsWithLine succeeds both returned points lie on the boundary of the ellipse and, up to the 1e-15 coefficient threshold, on the line through the two given points; it fails only if the line misses the ellipse or the two points (nearly) coincide.", "quantifier": "all ellipses and pairs of points", "why_tests_cant": "real-valued inputs", "anchors": ["src/FreeSpaceEllipse.cpp:FreeSpaceEllipse::getIntersectionsWithLine", "src/FreeSpaceEllipse.cpp:FreeSpaceEllipse::getClosestIntersectionsWithLine"]}
{"id": "C19", "title": "The image-matrix form of setEllipse accepts every proper ellipse and only those", "statement": "setEllipse(R(theta) diag(a,b), c) with a,b not tiny succeeds for every theta and recovers the ellipse; matrices that are not of this form are rejected. (Violated: rotations beyond 45 degrees are rejected because of a wrong sign, and shear matrices are accepted.)", "quantifier": "all rotations, axes and 2x2 matrices", "why_tests_cant": "real-valued inputs", "anchors": ["src/FreeSpaceEllipse.cpp:FreeSpaceEllipse::setEllipse"]}
{"id": "C20", "title": "The tangent vector is tangent to the ellipse", "statement": "getTangentVector returns a vector tangent to the scaled ellipse through the given point. (Violated: one entry of the rotation matrix used is never initialised.)", "quantifier": "all ellipses and points", "why_tests_cant": "depends on the value of uninitialised memory", "anchors": ["src/FreeSpaceEllipse.cpp:FreeSpaceEllipse::getTangentVector"]}
{"id": "C21", "title": "A step is accepted only if it satisfies every configured bound", "statement": "areConstraintsSatisfied returns true iff the step length is < the maximum length, the lateral distance is > the minimum width, the absolute rotation is < the maximum angle, the new foot position is inside the ellipse (if set) and, for steps going backward, the length is < the backward maximum (if set); never-configured bounds do not constrain.", "quantifier": "all steps and all configurations", "why_tests_cant": "real-valued inputs", "anchors": ["src/UnicycleOptimization.cpp:UnicycleOptimization::areConstraintsSatisfied", "src/UnicycleOptimization.cpp"]}
{"id": "C22", "title": "Planning terminates", "statement": "With a positive planner period computeNewSteps returns for every configuration, footprint history, reference and time interval, although its time cursor is moved backward whenever an optimal step is placed; the number of iterations is bounded by a function of (endTime-initTime)/dT only. With a zero period, which setPlannerPeriod accepts, it never returns.", "quantifier": "all configurations, trajectories and time intervals", "why_tests_cant": "termination for every input; non-termination cannot be observed by a test", "anchors": ["src/UnicyclePlanner.cpp:UnicyclePlanner::computeNewSteps", "src/UnicyclePlanner.cpp:UnicyclePlanner::setPlannerPeriod"]}
{"id": "C23", "title": "Planned steps alternate between the feet", "statement": "The steps added by one computeNewSteps call, taken in the order they were added, strictly alternate left/right; the first one is taken by the foot that has been on the ground longest (by the configured starting foot if both landed together).", "quantifier": "all configurations, trajectories, histories", "why_tests_cant": "plans of any length", "anchors": ["src/UnicyclePlanner.cpp:UnicyclePlanner::computeNewSteps", "src/UnicyclePlanner.cpp:UnicyclePlanner::addTerminalStep"]}
{"id": "C24", "title": "Impact times increase and respect the minimum step duration", "statement": "Each planned step lands at least the minimum step duration after the previous landing; with a positive minimum duration, impact times are strictly increasing.", "quantifier": "all configurations, trajectories, histories", "why_tests_cant": "plans of any length", "anchors": ["src/UnicyclePlanner.cpp:UnicyclePlanner::computeNewSteps", "src/UnicyclePlanner.cpp:UnicyclePlanner::addTerminalStep"]}
{"id": "C25", "title": "Planned steps are feasible", "statement": "Every step placed by the optimisation (not a parallel or terminal step) is shorter than the maximum length, wider than the minimum width, rotates less than the maximum angle and is inside the free-space ellipse when required, measured with respect to the stance foot on which it is taken.", "quantifier": "all configurations, trajectories, histories", "why_tests_cant": "every step of plans of any length", "anchors": ["src/UnicyclePlanner.cpp:UnicyclePlanner::computeNewSteps", "src/UnicyclePlanner.cpp:UnicyclePlanner::get_rPl", "src/UnicycleOptimization.cpp:UnicycleOptimization::areConstraintsSatisfied"]}
{"id": "C26", "title": "The chosen step time is optimal", "statement": "The time at which an optimised step is placed has minimal cost among all the sampled times that were feasible for that step since the previous landing; among ties the latest is chosen. The cost of a time is the time weight over the square of the duration of the step (net of the pause) plus the position weight times the squared distance between the new step and the stance foot, with the weights configured.", "quantifier": "all configurations, trajectories, histories", "why_tests_cant": "optimality over every alternative", "anchors": ["src/UnicyclePlanner.cpp:UnicyclePlanner::computeNewSteps", "src/UnicycleOptimization.cpp:UnicycleOptimization::getCostValue"]}
{"id": "C27", "title": "Steps are not longer than the maximum duration", "statement": "The duration of an optimised step, net of the time spent standing still, is positive and at most the maximum step duration.", "quantifier": "all configurations, trajectories, histories", "why_tests_cant": "plans of any length", "anchors": ["src/UnicyclePlanner.cpp:UnicyclePlanner::computeNewSteps"]}
{"id": "C28", "title": "Planning never rewrites the steps already planned", "statement": "computeNewSteps only appends to the footprints. The single exception: if no step was added and the two feet did not land together, the impact time (only) of the older last step is set to that of the newer one.", "quantifier": "all configurations, trajectories, histories, including failing calls", "why_tests_cant": "every history", "anchors": ["src/UnicyclePlanner.cpp:UnicyclePlanner::computeNewSteps"]}
{"id": "C29", "title": "Planned steps lie in the requested window", "statement": "Every non-terminal step lands strictly after initTime and not after endTime; when the feet start together, strictly after initTime plus the nominal step duration.", "quantifier": "all configurations, trajectories, histories", "why_tests_cant": "plans of any length", "anchors": ["src/UnicyclePlanner.cpp:UnicyclePlanner::computeNewSteps"]}
{"id": "C30", "title": "With the terminal step the robot ends with parallel feet", "statement": "If the terminal step is enabled, after a successful call the two last steps correspond to the same unicycle pose, or the closing step was skipped because it would have been tiny.", "quantifier": "all configurations, trajectories, histories", "why_tests_cant": "plans of any length and every final pose", "anchors": ["src/UnicyclePlanner.cpp:UnicyclePlanner::addTerminalStep"]}
{"id": "C31", "title": "Invalid planning requests are rejected without side effects on the footprints", "statement": "computeNewSteps returns false and leaves both footprints untouched when initTime > endTime, when the configured bounds are inconsistent (nominal width larger than a length bound, minimum angle not smaller than the maximum), or when initTime precedes a step already taken.", "quantifier": "all configurations and histories", "why_tests_cant": "every invalid input combination", "anchors": ["src/UnicyclePlanner.cpp:UnicyclePlanner::computeNewSteps", "src/UnicyclePlanner.cpp:UnicyclePlanner::getInitialStateFromFeet"]}
{"id": "C32", "title": "Planner settings remain mutually consistent", "statement": "After any sequence of setter calls 0 <= minTime <= nominalTime <= maxTime, planner period, lengths, angles, widths and tiny-step thresholds are non-negative and every value equals the last accepted one (or its default).", "quantifier": "every sequence of setter calls", "why_tests_cant": "unbounded histories", "anchors": ["src/UnicyclePlanner.cpp:UnicyclePlanner::setStepTimings", "src/UnicyclePlanner.cpp"]}
{"id": "C33", "title": "A rejected setter call has no effect", "statement": "A setter returning false leaves the configuration unchanged. (Violated by setCostWeights, PersonFollowingController::setFreeSpaceEllipse / setInnerFreeSpaceEllipseOffsets and setMaximumIntegratorStepSize; proved for the others.)", "quantifier": "all setter calls and states", "why_tests_cant": "every argument value", "anchors": ["src/UnicyclePlanner.cpp:UnicyclePlanner::setCostWeights", "src/PersonFollowingController.cpp:PersonFollowingController::setFreeSpaceEllipse", "src/UnicyclePlanner.cpp:UnicyclePlanner::setMaximumIntegratorStepSize"]}
{"id": "C34", "title": "Both feet phase sequences have the same length and are partitioned by the phase shifts", "statement": "After a successful generation both phase vectors have the length announced by the last phase shift, the phase shifts start at zero and never decrease, and between two consecutive shifts the phase of each foot is constant.", "quantifier": "all footprints and generator settings", "why_tests_cant": "walks of any length", "anchors": ["src/UnicycleGenerator.cpp:UnicycleGenerator::UnicycleGeneratorImplementation::createPhasesTimings"]}
{"id": "C35", "title": "At every instant at least one foot is on the ground", "statement": "At every sample the two feet are in complementary phases (Swing with Stance, SwitchIn with SwitchOut): never both swinging, exactly one of them is the fixed foot, and the fixed foot is in contact; the standing-period flag is false exactly during Swing.", "quantifier": "every sample of every generated walk", "why_tests_cant": "walks of any length", "anchors": ["src/UnicycleGenerator.cpp:UnicycleGenerator::UnicycleGeneratorImplementation::createPhasesTimings", "src/UnicycleGenerator.cpp:UnicycleGenerator::UnicycleGeneratorImplementation::fillLeftFixedVector", "src/UnicycleGenerator.cpp:UnicycleGenerator::UnicycleGeneratorImplementation::fillFeetStandingPeriodsVectors"]}
{"id": "C36", "title": "No sample count underflows", "statement": "For every configuration accepted by the setters the unsigned subtractions in the phase computation (swing samples, merge points) never wrap and no negative duration is converted to a size.", "quantifier": "all footprints and accepted settings", "why_tests_cant": "integer underflow at rounding boundaries", "anchors": ["src/UnicycleGenerator.cpp:UnicycleGenerator::UnicycleGeneratorImplementation::createPhasesTimings"]}
{"id": "C37", "title": "Landings do not drift from the planned impact times", "statement": "The end of the k-th swing phase, converted to time, differs from the impact time of the k-th planned step by at most half a sample, for every k: rounding errors do not accumulate.", "quantifier": "every step of every walk", "why_tests_cant": "unbounded number of steps", "anchors": ["src/UnicycleGenerator.cpp:UnicycleGenerator::UnicycleGeneratorImplementation::createPhasesTimings"]}
{"id": "C38", "title": "Merge points fall inside the double support phases", "statement": "Every merge point added for a step lies between the start and the end of the double support preceding that step's swing, merge points are non-decreasing and, when phases are not empty, smaller than the trajectory length.", "quantifier": "all footprints and accepted settings", "why_tests_cant": "walks of any length", "anchors": ["src/UnicycleGenerator.cpp:UnicycleGenerator::UnicycleGeneratorImplementation::createPhasesTimings", "src/UnicycleGenerator.cpp:UnicycleGenerator::setMergePointRatio"]}
{"id": "C39", "title": "Steps are ordered by time and simultaneous landings are refused", "statement": "The merged step list is a time-sorted permutation of the steps of both feet; two steps after the first two with the same impact time make the generation fail.", "quantifier": "all footprints, whatever order the unstable sort gives to ties", "why_tests_cant": "std::sort leaves tie order unspecified", "anchors": ["src/UnicycleGenerator.cpp:UnicycleGenerator::UnicycleGeneratorImplementation::orderSteps"]}
{"id": "C40", "title": "Correcting a step with a measured pose keeps yaw continuity", "statement": "The corrected step has the measured position and an angle equal to the measured one modulo a full turn and at most half a turn away from the planned one.", "quantifier": "all angles, any number of turns apart", "why_tests_cant": "real-valued angles, unbounded turns", "anchors": ["src/UnicycleGenerator.cpp:UnicycleGenerator::UnicycleGeneratorImplementation::editStepFromMeasured"]}
{"id": "C41", "title": "The minimum-jerk profile is a monotone rest-to-rest motion", "statement": "The interpolation starts and ends exactly at the two given points with zero velocity and acceleration, stays between them, moves monotonically, and the reported velocity and acceleration are the exact derivatives.", "quantifier": "all end points, durations and times", "why_tests_cant": "real-valued inputs", "anchors": ["src/FeetMinimumJerkGenerator.cpp:FeetMinimumJerkGenerator::FeetMinimumJerkGeneratorImplementation::minimumJerk"]}
{"id": "C42", "title": "Swing feet never penetrate the ground nor exceed the step height", "statement": "In the minimum-jerk generator every sample of a foot has 0 <= z <= stepHeight, z = 0 with zero velocity whenever the foot is not swinging, and the interpolation never fails because of rounding.", "quantifier": "all walks, step heights, apex times and periods", "why_tests_cant": "every sample of walks of any length", "anchors": ["src/FeetMinimumJerkGenerator.cpp:FeetMinimumJerkGenerator::FeetMinimumJerkGeneratorImplementation::interpolateFoot"]}
{"id": "C43", "title": "A foot on the ground stays on its planned step", "statement": "In every sample of a contact phase the foot pose is exactly that of the last step landed, and each swing leads from one planned step of that foot to the next one.", "quantifier": "all walks", "why_tests_cant": "every sample of walks of any length", "anchors": ["src/FeetMinimumJerkGenerator.cpp:FeetMinimumJerkGenerator::FeetMinimumJerkGeneratorImplementation::interpolateFoot", "src/FeetCubicSplineGenerator.cpp"]}
{"id": "C44", "title": "Foot weights are complementary and follow the support", "statement": "At each sample the left and right weights sum to one and their derivatives to zero; the weight of a swinging foot is 0, that of a stance foot 1, and during double support it stays between 0 and 1.", "quantifier": "all walks", "why_tests_cant": "every sample of walks of any length", "anchors": ["src/ZMPTrajectoryGenerator.cpp:ZMPTrajectoryGenerator::ZMPTrajectoryGeneratorImplementation::computeFootWeightPortion"]}
{"id": "C45", "title": "The world ZMP is in the convex hull of the two feet ZMPs and its derivatives are consistent", "statement": "The reported ZMP is the weighted average of the ZMPs of the two feet in world coordinates; the reported velocity is its time derivative. (The velocity claim is violated: velocities are transformed as points.)", "quantifier": "all walks and samples", "why_tests_cant": "every sample, every foot pose", "anchors": ["src/ZMPTrajectoryGenerator.cpp:ZMPTrajectoryGenerator::ZMPTrajectoryGeneratorImplementation::computeGlobalZMP"]}
{"id": "C46", "title": "The DCM trajectory obeys the DCM dynamics in single support", "statement": "During single support the reported DCM velocity is the derivative of the reported position and equals omega*(DCM - ZMP) with the ZMP of the stance foot.", "quantifier": "all walks in which the feet take turns and every phase has samples, omega > 0, all times", "why_tests_cant": "real-valued analysis", "anchors": ["src/DCMTrajectoryGeneratorHelper.cpp:SingleSupportTrajectory"]}
{"id": "C47", "title": "The DCM trajectory is C1", "statement": "Consecutive sub-trajectories are contiguous in time and agree in position and velocity at the junction; the whole trajectory starts from the given initial state and ends at rest at the midpoint of the two feet ZMPs.", "quantifier": "all walks in which every phase has samples, stillness in [0,1), any alpha and offset; for the final position the feet take turns", "why_tests_cant": "walks of any length", "anchors": ["src/DCMTrajectoryGeneratorHelper.cpp:DCMTrajectoryGeneratorHelper::generateDCMTrajectory", "src/DCMTrajectoryGeneratorHelper.cpp:DoubleSupportTrajectory"]}
{"id": "C48", "title": "DCM weights are valid", "statement": "The feet weights reported with the DCM trajectory are in [0,1] and sum to one.", "quantifier": "all walks and samples", "why_tests_cant": "every sample", "anchors": ["src/DCMTrajectoryGeneratorHelper.cpp:DCMTrajectoryGeneratorHelper::computeFeetWeight"]}
{"id": "C49", "title": "DCM parameters outside their range are rejected", "statement": "setAlpha and the stillness percentage accept exactly values in [0,1]; setOmega accepts exactly positive values. (Violated: the range tests can never be true, and omega = 0 is accepted.)", "quantifier": "all parameter values", "why_tests_cant": "all real values", "anchors": ["src/DCMTrajectoryGeneratorHelper.cpp:DCMTrajectoryGeneratorHelper::setAlpha", "src/DCMTrajectoryGeneratorHelper.cpp:DCMTrajectoryGeneratorHelper::setOmega", "src/DCMTrajectoryGenerator.cpp"]}
{"id": "C50", "title": "The navigation controller never reads outside the path", "statement": "After setNavigationPath has accepted a path, the index of the pose being tracked always refers to an existing pose and never decreases until a new path is given; without a path the control law reads outside the (empty) path. The control law also needs the state of the unicycle (setStateFeedback): before the first feedback it uses an uninitialised state.", "quantifier": "all sequences of path updates and control evaluations", "why_tests_cant": "unbounded histories", "anchors": ["src/UnicycleNavigationController.cpp:UnicycleNavigationController::doUnicycleControl", "src/UnicycleNavigationController.cpp:UnicycleNavigationController::setNavigationPath"]}
{"id": "C51", "title": "The generated CoM height is bounded and rests in double support", "statement": "The CoM height has one sample per phase sample, is the nominal height in double support and stays between the nominal height and the nominal height plus the configured delta in single support.", "quantifier": "all walks and settings", "why_tests_cant": "every sample of walks of any length", "anchors": ["src/CoMHeightTrajectoryGenerator.cpp"]}
{"id": "C52", "title": "Re-planning while walking keeps the present contacts", "statement": "When a trajectory is re-generated during a walk at a time at which both feet have landed a step, each footprint is first reduced to the step on the ground at that time, the measured correction is applied to exactly the requested foot, and the other foot is unchanged.", "quantifier": "all footprints, times and measurements", "why_tests_cant": "every history", "anchors": ["src/UnicycleGenerator.cpp:UnicycleGenerator::reGenerate", "src/UnicycleGenerator.cpp:UnicycleGenerator::UnicycleGeneratorImplementation::computeNewStepsFromMeasuredSteps"]}
{"id": "C53", "title": "Generation is atomic with respect to concurrent callers", "statement": "A generate call and a concurrent setter or generation behave as if executed one after the other. (Violated: generate runs in two critical sections and some setters take no lock.)", "quantifier": "all interleavings of two threads", "why_tests_cant": "schedules cannot be enumerated by tests", "anchors": ["src/UnicycleGenerator.cpp:UnicycleGenerator::generate", "src/UnicyclePlanner.cpp:UnicyclePlanner::setNavigationPath"]}
{"id": "C54", "title": "Navigation stops at the last pose", "statement": "Once the navigation controller has reached the last pose of the path, every later control evaluation commands zero velocity until a new path (or time step) is set.", "quantifier": "every sequence of feedback, control and setting calls after arrival", "why_tests_cant": "unbounded histories", "anchors": ["src/UnicycleNavigationController.cpp:UnicycleNavigationController::doUnicycleControl"]}
{"id": "C55", "title": "Navigation commands respect the forward and lateral speed limits", "statement": "The velocities requested by the navigation controller never exceed the forward and lateral limits derived from the saturations. (Violated when the robot heading differs from the world x axis: limits are projected in the world frame.)", "quantifier": "all poses, goals and limits", "why_tests_cant": "real-valued inputs", "anchors": ["src/UnicycleNavigationController.cpp:UnicycleNavigationController::computeDesiredVelocities"]}
{"id": "C56", "title": "The plan is the one prescribed, and it is unique", "statement": "A planning request that succeeds appends exactly the steps prescribed by the search rule: from each stance, the landing of least cost among the admissible sampled instants, feet alternating, plus the terminal step if requested; nothing else depends on hidden state, so equal planners, footprints and integrated trajectories give equal plans.", "quantifier": "every configuration, footprints, interval and integrated trajectory", "why_tests_cant": "refinement over all trajectories and unbounded numbers of steps", "anchors": ["src/UnicyclePlanner.cpp:UnicyclePlanner::computeNewSteps"]}
{"id": "C57", "title": "The reference trajectory starts from the stance pose", "statement": "The trajectory from which the steps of a request are chosen is the one integrated from the unicycle pose corresponding to the stance foot over the requested interval, with the saturations derived from the configured step limits and the conservative factors.", "quantifier": "every accepted request", "why_tests_cant": "every configuration and footprint", "anchors": ["src/UnicyclePlanner.cpp:UnicyclePlanner::computeNewSteps", "src/UnicyclePlanner.cpp:UnicyclePlanner::initializePlanner"]}
{"id": "C58", "title": "Valid requests succeed", "statement": "A request with consistent settings, a non-empty interval not before the last landing, an available reference, a successful integration and two non-empty (or two empty with a pose) footprints returns true. (Undefined behaviour if exactly one footprint is empty.)", "quantifier": "every valid request", "why_tests_cant": "no failure on any input", "anchors": ["src/UnicyclePlanner.cpp:UnicyclePlanner::computeNewSteps", "src/UnicyclePlanner.cpp:UnicyclePlanner::initializePlanner"]}
{"id": "C59", "title": "Planning keeps the configuration", "statement": "A planning request, successful or not, changes no setting of the planner except the starting foot.", "quantifier": "every request and every configuration", "why_tests_cant": "every execution path", "anchors": ["src/UnicyclePlanner.cpp:UnicyclePlanner::computeNewSteps"]}
{"id": "C60", "title": "The phase computation stays inside the step lists", "statement": "While assigning the phases the generator never accesses an element past the end of a foot's step list. (Violated: it does, on the left list, exactly for the walks that end with a right step.)", "quantifier": "all footprints and generator settings", "why_tests_cant": "the access is undefined but silent unless the standard library is built with assertions", "anchors": ["src/UnicycleGenerator.cpp:UnicycleGenerator::UnicycleGeneratorImplementation::createPhasesTimings"]}
{"id": "C61", "title": "Step phases can be read without a generation", "statement": "getStepPhases never dereferences a null pointer: once a generation has succeeded the phases can be read whatever happens afterwards. (Violated before: on a generator all of whose requests were refused on arrival it dereferences null.)", "quantifier": "all sequences of generation requests", "why_tests_cant": "arbitrary histories of accepted and refused requests", "anchors": ["src/UnicycleGenerator.cpp:UnicycleGenerator::getStepPhases", "src/UnicycleGenerator.cpp:UnicycleGenerator::generateFromFootPrints"]}
{"id": "C62", "title": "Planned walks are accepted", "statement": "The steps planned from two contacts, at the first planning or at a re-planning, are accepted by the generator for every order that the sort may give to simultaneous steps, provided that half a sample is not longer than the minimum step duration and than the final double support.", "quantifier": "all planner configurations, references, horizons and sampling periods", "why_tests_cant": "the composition of planner, sort and rounding over arbitrary horizons", "anchors": ["src/UnicycleGenerator.cpp:UnicycleGenerator::generateFromFootPrints", "src/UnicyclePlanner.cpp:UnicyclePlanner::computeNewSteps"]}
{"id": "C63", "title": "All outputs of the generator describe the same horizon", "statement": "After a successful generation the phases, the contact flags and the fixed-foot flags have one entry per sample and agree with each other; a request refused on arrival changes none of them. (Violated after a generation that fails while assigning the phases: new phases next to old contact flags.)", "quantifier": "all sequences of generation requests", "why_tests_cant": "arbitrary histories of accepted and refused requests", "anchors": ["src/UnicycleGenerator.cpp:UnicycleGenerator::getStepPhases", "src/UnicycleGenerator.cpp:UnicycleGenerator::getFeetStandingPeriods", "src/UnicycleGenerator.cpp:UnicycleGenerator::getWhenUseLeftAsFixed"]}
{"id": "C64", "title": "A swinging foot rises to the step height and then comes down", "statement": "During each swing of n samples of the minimum-jerk generator the height strictly increases for round(n*apex) samples, is the step height at the following sample and strictly decreases afterwards; the first sample of the swing is on the ground exactly if n*apex >= 1/2. (Otherwise the foot jumps to the step height at once.)", "quantifier": "all walks in which every phase has samples, positive step heights, apex ratios and swing lengths", "why_tests_cant": "every sample of swings of any length", "anchors": ["src/FeetMinimumJerkGenerator.cpp:FeetMinimumJerkGenerator::FeetMinimumJerkGeneratorImplementation::interpolateFoot"]}
{"id": "C65", "title": "The reported twist and acceleration of a foot are the derivatives of its pose", "statement": "Within each half of each swing the samples are taken from a smooth curve of poses whose linear and angular velocity in world axes are the reported twist, and whose derivative is the reported acceleration.", "quantifier": "all walks, all pairs of steps, all instants", "why_tests_cant": "real analysis on rotation matrices", "anchors": ["src/FeetMinimumJerkGenerator.cpp:FeetMinimumJerkGenerator::FeetMinimumJerkGeneratorImplementation::interpolateFoot"]}
{"id": "C66", "title": "The landing velocity of the foot is honoured", "statement": "The vertical velocity with which a swinging foot reaches the ground is the one set with setFootLandingVelocity. (Violated by the minimum-jerk generator, which accepts any value and ignores it.)", "quantifier": "all settings and walks", "why_tests_cant": "all real values", "anchors": ["src/FeetMinimumJerkGenerator.cpp:FeetMinimumJerkGenerator::setFootLandingVelocity", "src/FeetCubicSplineGenerator.cpp"]}
{"id": "C67", "title": "The unicycle moves with the commanded velocities in its own frame", "statement": "Seen from the unicycle, its velocity is the commanded forward and lateral velocity and it turns with the commanded angular velocity; a constant command without rotation moves it on a straight line along the heading, one without translation turns it in place.", "quantifier": "all poses, commands, integration steps and numbers of steps", "why_tests_cant": "real-valued inputs, integrations of any length", "anchors": ["src/ControlledUnicycle.cpp:ControlledUnicycle::dynamics"]}
{"id": "C68", "title": "The cubic-spline foot stays above the ground and below the step height", "statement": "In the cubic-spline generator every sample of a foot has 0 <= z <= stepHeight and a swing starts on the ground. (Violated: the start height is read from a buffer entry that is never written; an apex away from half time exceeds the step height, an upward landing velocity penetrates the ground.)", "quantifier": "all walks, step heights, apex times, landing velocities and periods", "why_tests_cant": "every sample of swings of any length, and memory contents", "anchors": ["src/FeetCubicSplineGenerator.cpp:FeetCubicSplineGenerator::FeetCubicSplineGeneratorImplementation::interpolateFoot"]}
{"id": "C69", "title": "The weight trajectory can be resumed at every merge point", "statement": "The state reported for a merge point is the sample of the weight at that instant; a walk generated with setWeightInitialState starts from the given weight and velocity, otherwise from half of the weight at rest; the given state is used for one generation only. (Not its acceleration, which is ignored.)", "quantifier": "all merge points, initial states and histories of generations of walks in which every phase has samples", "why_tests_cant": "every merge point of walks of any length", "anchors": ["src/ZMPTrajectoryGenerator.cpp:ZMPTrajectoryGenerator::ZMPTrajectoryGeneratorImplementation::computeFootWeightPortion", "src/ZMPTrajectoryGenerator.cpp:ZMPTrajectoryGenerator::setWeightInitialState"]}
{"id": "C70", "title": "The ZMP in the frame of a foot moves between its two offsets", "statement": "In the frame of a foot the ZMP is always on the segment between the stance and the switch offset of that foot: it rests on the stance offset while the foot swings or starts to take the weight, goes to the switch offset while the foot is the only support and returns when the support ends.", "quantifier": "all generated walks, offsets and samples", "why_tests_cant": "every sample of walks of any length", "anchors": ["src/ZMPTrajectoryGenerator.cpp:ZMPTrajectoryGenerator::ZMPTrajectoryGeneratorImplementation::computeLocalZMP"]}
{"id": "C71", "title": "The ZMP is expressed with the contact on which the foot really is", "statement": "Whenever a foot carries weight, the step used to bring its ZMP to the world is the one reached by the trajectory of that foot, i.e. its number is the number of landings of the foot so far.", "quantifier": "all samples of walks with alternating feet in which every phase has samples", "why_tests_cant": "impact times and sampling instants differ by fractions of the period", "anchors": ["src/ZMPTrajectoryGenerator.cpp:ZMPTrajectoryGenerator::ZMPTrajectoryGeneratorImplementation::computeGlobalZMP"]}
{"id": "C72", "title": "The generated ZMP stays inside its vectors despite rounding", "statement": "With IEEE doubles, the loop that brings the ZMP of a foot back at the end of its support writes no sample past the end of the phase. (Violated in the last phase: for a period of 0.01 s and a terminal half switch of 0.07 s it writes one element past the end of the vectors.)", "quantifier": "all periods and phase lengths", "why_tests_cant": "depends on the rounding of two operations for each period and length", "anchors": ["src/ZMPTrajectoryGenerator.cpp:ZMPTrajectoryGenerator::ZMPTrajectoryGeneratorImplementation::computeLocalZMP"]}
{"id": "C73", "title": "The DCM can be generated for every valid walk", "statement": "For valid settings, feet with the expected names and a timeline without empty phases, the generation of the DCM succeeds if the parts of a pause and the final motion last a sample at least; if they do not it may return false, but its behaviour is defined. (With setOmega(0), which is accepted, the ZMP is a quotient by zero.)", "quantifier": "all such walks, settings and initial states", "why_tests_cant": "the sub-trajectory that contains a sample is found by an iterator that advances once per sample; whether it keeps up depends on the lengths of all the pieces", "anchors": ["src/DCMTrajectoryGeneratorHelper.cpp:DCMTrajectoryGeneratorHelper::evaluateDCMTrajectory", "src/DCMTrajectoryGeneratorHelper.cpp:DCMTrajectoryGeneratorHelper::generateDCMTrajectory", "src/DCMTrajectoryGenerator.cpp:DCMTrajectoryGenerator::computeNewTrajectories"]}
{"id": "C74", "title": "The initial state of the DCM is used once and has a sensible default", "statement": "A state given with setDCMInitialState is the first sample of the next generation that succeeds and of no later one; it survives a generation that fails. Without it the DCM begins at rest in the middle of the ZMPs of the first contacts. (The last part is violated: the offsets of the ZMPs are not rotated with the feet.)", "quantifier": "all sequences of calls and walks", "why_tests_cant": "depends on the history of the calls; feet parallel to the axes hide the missing rotation", "anchors": ["src/DCMTrajectoryGenerator.cpp:DCMTrajectoryGenerator::computeNewTrajectories", "src/DCMTrajectoryGenerator.cpp:DCMTrajectoryGenerator::setDCMInitialState"]}
{"id": "C75", "title": "In a pause the DCM rests between the feet", "statement": "In a double support that is long enough for a pause, from the switch time after its beginning to the nominal duration before its end, DCM and ZMP are at rest in the middle of the ZMPs of the contacts of the two feet at that moment.", "quantifier": "all double supports before a step, the first included, of walks in which the feet take turns", "why_tests_cant": "every double support of walks of any length", "anchors": ["src/DCMTrajectoryGeneratorHelper.cpp:DCMTrajectoryGeneratorHelper::addNewStep", "src/DCMTrajectoryGeneratorHelper.cpp:DCMTrajectoryGeneratorHelper::addFirstDoubleSupportPhase"]}
{"id": "C76", "title": "Last step offset and alpha act as documented", "statement": "At the end of the last single support the DCM divides the segment from the ZMP of the stance foot to the ZMP of the foot that lands in the ratio given by setLastStepDCMOffsetPercentage. The arcs of consecutive single supports meet at the fraction alpha of the double support between them. (The second part is violated unless alpha is one half: the arcs meet at alpha times the sum of the two instants, which for alpha = 1 lies after the double support.)", "quantifier": "all walks, all values of the parameters in [0,1]", "why_tests_cant": "only the default alpha is exercised; walks of any length", "anchors": ["src/DCMTrajectoryGeneratorHelper.cpp:DCMTrajectoryGeneratorHelper::generateDCMTrajectory", "src/DCMTrajectoryGeneratorHelper.cpp:DCMTrajectoryGeneratorHelper::addLastStep"]}
{"id": "C77", "title": "The free-space method decides who obeys the free space", "statement": "Choosing a method with setFreeSpaceEllipseMethod frees everybody from the free space given before. An ellipse given and accepted afterwards confines the footsteps exactly if the last method is REFERENCE_AND_FOOTSTEPS or FOOTSTEPS_ONLY, and the reference of the person-following controller exactly if it is REFERENCE_AND_FOOTSTEPS or REFERENCE_ONLY.", "quantifier": "all sequences of configuration calls in which the ellipses given are accepted", "why_tests_cant": "depends on the order of the calls", "anchors": ["src/UnicyclePlanner.cpp:UnicyclePlanner::setFreeSpaceEllipse", "src/UnicyclePlanner.cpp:UnicyclePlanner::setFreeSpaceEllipseMethod"]}
{"id": "C78", "title": "Navigation heads for the tracked pose, the short way, and is silent while inactive", "statement": "Until the instant given to setInactiveUntil the navigation controller asks for zero velocity. Afterwards it tracks a pose of its path: it turns on the spot or asks for a velocity that points from the unicycle to the pose; it turns the short way towards the heading of the pose, and does not turn if the heading is right. (Violated: the heading of the feedback is corrected by a single turn, so that after several turns the long way is taken; a unicycle with the right heading is turned at the maximal rate.)", "quantifier": "all histories of calls, all feedbacks, all paths", "why_tests_cant": "headings beyond a turn and exact alignments are not exercised; continuous inputs", "anchors": ["src/UnicycleNavigationController.cpp:UnicycleNavigationController::doUnicycleControl", "src/UnicycleNavigationController.cpp:UnicycleNavigationController::setUnicycleStateFeedback", "src/UnicycleNavigationController.cpp:UnicycleNavigationController::computeDesiredVelocities"]}
{"id": "C79", "title": "Navigation reaches the end of the path and stays there", "statement": "With accepted saturations and path the unicycle driven by the navigation controller (explicit Euler steps of the time step of the controller) reaches the last pose of the path in finitely many steps, up to the motion of one step, from wherever it starts; from then on it is asked to stand still.", "quantifier": "all paths with headings in [-pi, pi], all initial states, all speed limits", "why_tests_cant": "liveness: termination for all continuous initial states", "anchors": ["src/UnicycleNavigationController.cpp:UnicycleNavigationController::computeDesiredVelocities", "src/ControlledUnicycle.cpp:ControlledUnicycle::dynamics"]}
{"id": "C80", "title": "Requests that make sense are served", "statement": "In every state in which a UnicycleGenerator can be: if the settings leave room for a sample in every phase of the shortest step, the heights and the DCM parameters have been given and the robot stands on both feet, then generate succeeds whenever the planner does (it does unless there is a listed reason to refuse, C58), with the planned footsteps and with every attached trajectory. The same for the reGenerate methods during a walk. (Violated by late requests: shortly before a step lands the feet generators find no sample for it and the whole request fails although the planner accepted it.)", "quantifier": "all histories of calls, all settings, all sampling periods, all sorts, all integrators", "why_tests_cant": "success has to be shown for all combinations of timings and sampling periods", "anchors": ["src/UnicycleGenerator.cpp:UnicycleGenerator::generate", "src/UnicycleGenerator.cpp:UnicycleGenerator::reGenerate", "src/UnicycleGenerator.cpp:UnicycleGenerator::generateFromFootPrints"]}
{"id": "C81", "title": "A served request delivers everything, on one horizon", "statement": "After generate, reGenerate or generateFromFootPrints has returned true every attached trajectory generator has a new trajectory, and all of them, the phases and the contacts have the same number of samples.", "quantifier": "all histories of calls, all inputs", "why_tests_cant": "five generators with different loops, all combinations", "anchors": ["src/UnicycleGenerator.cpp:UnicycleGenerator::generateFromFootPrints"]}
{"id": "C82", "title": "A request that fails leaves the last walk in place", "statement": "After generate, reGenerate or generateFromFootPrints has returned false the contacts, phases and trajectories are those of the last successful request; so are they after any setter. (Violated: if a trajectory generator fails the phases, the contacts and the trajectories of the generators that ran before are already new, the others old.)", "quantifier": "all histories of calls", "why_tests_cant": "needs failures in the middle of a generation", "anchors": ["src/UnicycleGenerator.cpp:UnicycleGenerator::generateFromFootPrints"]}
{"id": "C83", "title": "The feet follow the plan, end to end", "statement": "After a generate from a robot that stands still has returned true, with settings as in C80, the feet trajectories follow the footsteps that the planner returned: in contact a foot is at rest on the step on which it landed last, it starts on the first step and arrives on the last one.", "quantifier": "all histories of calls, all settings with room for the phases, both feet generators", "why_tests_cant": "composition of planner, timings and interpolation for all inputs", "anchors": ["src/UnicycleGenerator.cpp:UnicycleGenerator::generate", "src/FeetCubicSplineGenerator.cpp:FeetCubicSplineGenerator::computeNewTrajectories", "src/FeetMinimumJerkGenerator.cpp:FeetMinimumJerkGenerator::computeNewTrajectories"]}
{"id": "C84", "title": "Concurrent calls never deadlock", "statement": "Whatever methods of the generator, of its planner and of its trajectory generators are called at the same time by any number of threads, nobody waits for ever: some call can always go on, and every execution that has begun ends, with all calls returned, after finitely many operations.", "quantifier": "all families of concurrent calls, all states, all interleavings", "why_tests_cant": "schedules cannot be enumerated by tests", "anchors": ["src/UnicycleGenerator.cpp:UnicycleGenerator::generateFromFootPrints", "src/UnicycleGenerator.cpp:UnicycleGenerator::reGenerate", "src/UnicyclePlanner.cpp:UnicyclePlanner::computeNewSteps"]}
{"id": "C85", "title": "Concurrent calls have no data race", "statement": "Calls of the public methods by several threads never access the same object at the same time, one of them writing. (Violated: setPauseActive, setMergePointRatio, the getters and methods of the footprints, setNavigationPath and startWithLeft take no lock; generate reads the pointers to the footprints between its two critical sections.)", "quantifier": "all families of concurrent calls, all states, all interleavings", "why_tests_cant": "races need an unlucky schedule and may not be visible", "anchors": ["src/UnicycleGenerator.cpp:UnicycleGenerator::setPauseActive", "src/UnicycleGenerator.cpp:UnicycleGenerator::generate", "src/UnicyclePlanner.cpp:UnicyclePlanner::startWithLeft"]}
{"id": "C86", "title": "The settings in force are the last acceptable ones", "statement": "At any moment each setting of the generator, of its planner and of its feet, CoM height, ZMP and DCM generators has the value passed by the last call of its setter with an acceptable value (angles converted from degrees), or its default if there was none; refused calls, other setters and the generating calls change nothing. Trajectory generators are those added so far.", "quantifier": "all histories of calls", "why_tests_cant": "setters interleave in unboundedly many orders", "anchors": ["src/UnicycleGenerator.cpp:UnicycleGenerator::setSwitchOverSwingRatio", "src/FeetMinimumJerkGenerator.cpp:FeetMinimumJerkGenerator::setPitchDelta", "src/DCMTrajectoryGenerator.cpp:DCMTrajectoryGenerator::setOmega"]}
{"id": "C87", "title": "The pitch of a swinging foot", "statement": "During a swing the pitch of the foot starts and ends flat and passes through the value set with setPitchDelta: with the minimum jerk generator it is proportional to the height of the foot at every sample, rises until the apex sample and falls afterwards; with the cubic splines it follows a curve with a continuous second derivative that is at rest at both ends and goes through the set value at the apex.", "quantifier": "all walks without empty phases, all settings, all swings", "why_tests_cant": "real-valued curves for all durations", "anchors": ["src/FeetMinimumJerkGenerator.cpp:FeetMinimumJerkGenerator::computeNewTrajectories", "src/FeetCubicSplineGenerator.cpp:FeetCubicSplineGenerator::computeNewTrajectories"]}
{"id": "C88", "title": "A walk planned again at a merge point continues the walk in execution", "statement": "If, after a successful generation, the user gives the ZMP and DCM generators the state they report at a merge point and calls reGenerate for the time of that sample, then the first sample of the new trajectories equals the sample of the old ones at the merge point: the DCM in position and velocity; the load of each foot with its rate; the height of the centre of mass; the pose of both feet, if no foot lands exactly at that sample, except that a foot with a measurement is at the measured position with the measured orientation, written in the turn closest to its angle, and the other foot stays where it is; the ZMP, with or without corrections, if the double support is past its half (or the stance and switch offsets agree).", "quantifier": "all histories, settings, changes of the planner in between, merge points in double supports, sampling periods, walks without empty phases", "why_tests_cant": "all pairs of walks and merge points", "anchors": ["src/UnicycleGenerator.cpp:UnicycleGenerator::reGenerate", "src/UnicycleGenerator.cpp:UnicycleGenerator::getMergePoints", "src/ZMPTrajectoryGenerator.cpp:ZMPTrajectoryGenerator::getInitialStatesAtMergePoints", "src/ZMPTrajectoryGenerator.cpp:ZMPTrajectoryGenerator::setPreviousSteps", "src/DCMTrajectoryGenerator.cpp:DCMTrajectoryGenerator::setDCMInitialState"]}
{"id": "C89", "title": "The same walk elsewhere, later", "statement": "If everything that refers to a place, a direction of the world or an instant (footsteps, desired trajectory, free space, initial DCM, announced previous steps, times of the requests) is displaced by a rotation and translation of the plane and by a delay, then every request has the same outcome and everything it produces is displaced in the same way: planned footsteps, poses of the feet, ZMP, DCM; phases, contact flags, loads and heights are the same.", "quantifier": "all displacements with a non-negative delay, all histories of settings and requests that do not refer to times before zero", "why_tests_cant": "relates two executions for all histories and all displacements", "anchors": ["src/UnicycleGenerator.cpp:UnicycleGenerator::generate", "src/UnicycleGenerator.cpp:UnicycleGenerator::reGenerate", "src/UnicycleGenerator.cpp:UnicycleGenerator::generateFromFootPrints", "src/UnicyclePlanner.cpp:UnicyclePlanner::computeNewSteps", "src/PersonFollowingController.cpp:PersonFollowingController::doUnicycleControl", "src/FreeSpaceEllipse.cpp:FreeSpaceEllipse::isPointInside"]}
{"id": "C90", "title": "A new walk needs clean footprints", "statement": "When a walk is generated, at most two of its contacts are before the initial time and at most one more is at the initial time itself. Hence, as long as the footprints still hold a walk (four contacts or more, chronological), generate for a new walk never succeeds, however many times it is called and whatever settings are changed in between: the planner appends its steps to the old ones, the call returns false and no trajectory generator runs.", "quantifier": "all reachable states of the generator, times, sampling periods, integrators, sequences of settings and attempts", "why_tests_cant": "all histories and all sequences of attempts", "anchors": ["src/UnicycleGenerator.cpp:UnicycleGenerator::generate", "src/UnicycleGenerator.cpp:UnicycleGenerator::generateFromFootPrints", "src/UnicycleGenerator.cpp:UnicycleGenerator::UnicycleGeneratorImplementation::createPhasesTimings", "src/UnicyclePlanner.cpp:UnicyclePlanner::computeNewSteps"]}
{"id": "C91", "title": "Simultaneous contacts: the order chosen by the sort does not matter", "statement": "std::sort leaves contacts with the same impact time in an unspecified order. Nevertheless the return value, the phases, the merge points and all the trajectories are the same for every order it may choose, for footprints in which the first contact of each foot comes before the later contacts of both feet, in particular for every walk planned from at most one contact per foot, for every re-planning request, and along whole histories of settings and such requests.", "quantifier": "all states of the generator, footprints, times, sampling periods, orders of simultaneous contacts, histories", "why_tests_cant": "a test sees only the order chosen by the standard library it runs with", "anchors": ["src/UnicycleGenerator.cpp:UnicycleGenerator::UnicycleGeneratorImplementation::orderSteps", "src/UnicycleGenerator.cpp:UnicycleGenerator::generateFromFootPrints", "src/ZMPTrajectoryGenerator.cpp", "src/DCMTrajectoryGenerator.cpp"]}
{"id": "C92", "title": "The phases with floating point arithmetic", "statement": "With every floating point operation of the phase computation rounded (to the nearest double, or by any other rounding that respects the order and keeps 0, 1/2, 1, 2 and twice its results), the settings left by any sequence of setter calls remain usable, no unsigned length wraps and no negative duration is converted (except in the two situations of C36), the phase vectors and shifts fit together, the feet are in complementary phases, every step has its double support and swing, and the merge points lie where they should. The landing of the k-th step, converted to time, is within half a sample of the planned one, plus two rounding errors per step: with doubles, walks up to 2^r seconds and a period of at least 2^(r-51), at most (k+1) 2^(r-50) seconds.", "quantifier": "all roundings, settings, sequences of setter calls, footprints, initial times, sampling periods, numbers of steps", "why_tests_cant": "rounding errors depend on every value; accumulated error over arbitrarily many steps", "anchors": ["src/UnicycleGenerator.cpp:UnicycleGenerator::UnicycleGeneratorImplementation::createPhasesTimings", "src/UnicycleGenerator.cpp:UnicycleGenerator::generateFromFootPrints", "src/UnicycleGenerator.cpp:UnicycleGenerator::setSwitchOverSwingRatio", "src/UnicycleGenerator.cpp:UnicycleGenerator::setPauseConditions", "src/UnicycleGenerator.cpp:UnicycleGenerator::setMergePointRatio"]}
{"id": "C93", "title": "A walk in the mirror", "statement": "Exchange left and right: reflect all contacts in the axis of the abscissae, give them to the other foot, and do the same with the ZMP offsets, foot origin offsets, previous steps, initial DCM and initial weight. Then generate(left, right, t, dT) succeeds if and only if it succeeded before, with the same phases, merge points, contacts and fixed foot (exchanged), the poses of the feet of both generators exchanged and reflected, the weights of the ZMP generator exchanged, the local ZMPs exchanged and reflected, the world ZMP, the DCM and all its pieces reflected, the height unchanged. The same holds for every history of settings and satisfied requests. Not so for the phases of a robot that stands on two contacts made at the same time, nor for the weights reported with the DCM in double support.", "quantifier": "all footprints, settings of the five generators, initial times, sampling periods, orders of simultaneous contacts, histories", "why_tests_cant": "relates all walks to their mirror images; left and right are treated by separate pieces of code", "anchors": ["src/UnicycleGenerator.cpp:UnicycleGenerator::generateFromFootPrints", "src/UnicycleGenerator.cpp:UnicycleGenerator::UnicycleGeneratorImplementation::createPhasesTimings", "src/FeetGenerator.cpp", "src/FeetCubicSplineGenerator.cpp", "src/FeetMinimumJerkGenerator.cpp", "src/ZMPTrajectoryGenerator.cpp", "src/DCMTrajectoryGeneratorHelper.cpp", "src/CoMHeightTrajectoryGenerator.cpp"]}
{"id": "C94", "title": "The integrated motion is only read where it was integrated", "statement": "A planning call reads the integrated motion only at instants of the interval it was asked to plan. After it, getPersonPosition(t) gives the position of the person in front of the robot at the stored instant nearest to t; an instant outside of the plan, or a query before there is a plan, is refused.", "quantifier": "all planners, integrators, footprints, intervals, histories, stored motions and instants", "why_tests_cant": "every instant at which the loop looks at the motion, for every configuration; the checks of the range are assertions that release builds do not contain", "anchors": ["src/UnicyclePlanner.cpp:UnicyclePlanner::getIntegratorSolution", "src/UnicyclePlanner.cpp:UnicyclePlanner::getPersonPosition", "src/UnicyclePlanner.cpp:UnicyclePlanner::computeNewSteps"]}
{"id": "C95", "title": "The foot that starts", "statement": "startWithLeft(bool) decides which foot starts when both feet landed together and no lateral velocity is commanded. With resetStartingFootIfStill(true) this remains the last value set, through all plans and settings. Without it nothing interrupts the alternation of the feet: over any sequence of planning requests, successful or not, with pauses or not, all landings added to the footprints alternate, and a pause that realigns the feet lets the foot start whose turn it was. A request that fails does not change the starting foot. startWithLeft() tells with which foot the plan starts.", "quantifier": "all planners, footprints, integrators, and histories of requests and settings", "why_tests_cant": "unbounded sequences of plans; the alternation depends on landing times, flags and on what the realignment writes", "anchors": ["src/UnicyclePlanner.cpp:UnicyclePlanner::computeNewSteps", "src/UnicyclePlanner.cpp:UnicyclePlanner::getInitialStateFromFeet", "src/UnicyclePlanner.cpp:UnicyclePlanner::startWithLeft", "src/UnicyclePlanner.cpp:UnicyclePlanner::resetStartingFootIfStill"]}
{"id": "C96", "title": "Person following reaches its target", "statement": "With the person-following controller, a followed point straight ahead of the unicycle, positive velocity limits and backward factor, and a free space that does not interfere, the motion integrated by the planner towards a fixed reference brings the followed point to the reference: the distance never grows, decays at least exponentially at a rate given by the gain and the limits, and gets below every bound. This needs integration steps that are short compared with the gain and the distance (h·gain ≤ 1/2 and h·gain·distance ≤ distance of the followed point), as with the default gain and 10 ms steps up to two metres. The last point of the desired trajectory is such a reference from its time on. In continuous time and within the limits the error decays exactly as exp(-gain·t), for moving references too. A backward factor 0, which is accepted, or longer steps can prevent convergence.", "quantifier": "all planners of this kind, all targets, initial states, and sequences of integration steps", "why_tests_cant": "a limit over unbounded time and a real-valued contraction argument over all states, gains and limits", "anchors": ["src/PersonFollowingController.cpp:PersonFollowingController::doUnicycleControl", "src/UnicycleBaseController.cpp:UnicycleBaseController::doControl", "src/ControlledUnicycle.cpp:ControlledUnicycle::dynamics"]}
{"id": "C97", "title": "How fast the feet move", "statement": "In every swing of a generated walk the foot moves on the ground and turns at most 15/8 times (minimum jerk) or 3/2 times (cubic splines) as fast as on average over the swing; its horizontal acceleration is at most 10/sqrt(3) times (respectively 6 times) the step length over the square of the swing duration; from one sample to the next, including the one of the landing, it covers at most the same multiple of the mean way; between a sample on the ground and the next one it does not move. With minimum jerk the vertical speed is at most 15/8 of the step height over the time to the apex, and then over the time from the apex to the landing.", "quantifier": "all footprints accepted by the generator, settings, periods, swings and samples (no empty phase)", "why_tests_cant": "a bound over all samples of all walks, with constants that are attained only at particular samples", "anchors": ["src/FeetMinimumJerkGenerator.cpp:interpolateFoot", "src/FeetMinimumJerkGenerator.cpp:minimumJerk", "src/FeetCubicSplineGenerator.cpp:interpolateFoot"]}
{"id": "C98", "title": "The DCM stays among the supports", "statement": "With alpha equal to one half (the default) and the offset of the last step between zero and one, in every single support, ends included, the position of the DCM is in the convex hull of the desired ZMPs of the feet that are the support in this and in the later single supports and of the last contacts of the two feet: the DCM never leaves the area that the remaining footsteps can capture, and contacts that have been left do not influence it.", "quantifier": "all accepted footprints with feet that take turns, settings, periods, natural frequencies, offsets, single supports and samples (no empty phase, room for the parts of the double supports)", "why_tests_cant": "a geometric bound over all samples of all walks, by backward induction over the single supports", "anchors": ["src/DCMTrajectoryGeneratorHelper.cpp:addNewStep", "src/DCMTrajectoryGeneratorHelper.cpp:addLastStep", "src/DCMTrajectoryGenerator.cpp:computeNewTrajectories"]}
{"id": "C99", "title": "A constant command", "statement": "If the robot is driven directly by velocities that stay the same and that are within the limits (straight, sideways or backward without turning, or turning on the spot), then with the fixed step integrator the planned unicycle moves from its initial state exactly along the commanded straight line (or turns on the spot exactly at the commanded rate); the time it has moved is the time since the command is executed, up to one and a half integration steps. Every contact that a successful planning adds is beside a pose of this motion, with the heading of the motion; an optimised contact is beside the pose of its impact time, up to one and a half integration steps. With a zero command, and positive minimum step and angle, at most one contact is added, and none if both feet stand parallel: a standing robot does not march in place.", "quantifier": "all planners, footprints, intervals, integration step sizes, fuels and commands without simultaneous turning and moving", "why_tests_cant": "an exact relation between the commands and all the contacts of all plans, for all commands and configurations", "anchors": ["src/UnicyclePlanner.cpp:computeNewSteps", "src/UnicycleDirectController.cpp:doUnicycleControl", "src/ControlledUnicycle.cpp:dynamics"]}
{"id": "C100", "title": "A plan in the mirror", "statement": "If left and right are exchanged in the footprints and in all the settings of the planner (reflected trajectories, commands, paths and ellipses, exchanged and opposite foot yaw offsets, the other starting foot), every setting is accepted or refused as before, and computeNewSteps returns the same value and the reflected contacts of the other foot, at the same times.", "quantifier": "all planners, histories of settings, footprints, intervals, fuels and integrators that themselves commute with the reflection", "why_tests_cant": "relates two complete runs of the search, for all configurations; a defect shows only on one side and in turns", "anchors": ["src/UnicyclePlanner.cpp:computeNewSteps", "src/UnicyclePlanner.cpp:get_rPl", "src/UnicyclePlanner.cpp:getInitialStateFromFeet"]}
{"id": "C101", "title": "A request in the mirror", "statement": "If left and right are exchanged in the footprints, in the measured contacts, and in all the settings of the generator, of its planner and of its trajectory generators, then whenever generate or reGenerate succeeds it also succeeds in the mirror, and footprints, phases, contacts and trajectories are those of the mirror.", "quantifier": "all generators reached by any history of settings and requests, all requests, all orders of simultaneous contacts, all integrators that commute with the reflection", "why_tests_cant": "relates two complete executions of planner and trajectory generators over whole histories", "anchors": ["src/UnicycleGenerator.cpp:generate", "src/UnicycleGenerator.cpp:reGenerate", "src/UnicycleGenerator.cpp:computeNewStepsFromMeasuredSteps"]}
{"id": "C102", "title": "The ZMP in double support", "statement": "In a double support without pause between two single supports, and in the last one until the DCM rests, the ZMP is on the segment between the desired ZMPs of the two supporting feet, so that the load can be shared between them.", "quantifier": "all walks with feet that take turns, all settings in range (alpha one half between two single supports), all double supports, all samples", "why_tests_cant": "relates a cubic polynomial of time with exponential coefficients to the position of the feet for every duration and every gait; the bound fails only beyond a threshold of omega times the duration", "anchors": ["src/DCMTrajectoryGeneratorHelper.cpp:DoubleSupportTrajectory", "src/DCMTrajectoryGeneratorHelper.cpp:addNewStep", "src/DCMTrajectoryGeneratorHelper.cpp:DoubleSupportTrajectory::getZMPPosition"]}
{"id": "C103", "title": "Footprints are independent objects", "statement": "A call on one FootPrint object changes that object only: what getSteps() and getFootName() return for another one is decided by the calls made on that other one.", "quantifier": "all programs that construct, copy, assign, move and use any number of footprints and step lists", "why_tests_cant": "the objects share storage behind the interface; independence is about every interleaving of calls on every number of objects", "anchors": ["include/FootPrint.h:FootPrint", "src/FootPrint.cpp:FootPrint::FootPrint", "src/FootPrint.cpp:getSteps"]}
{"id": "C104", "title": "A constant command with turning", "statement": "If the robot is driven directly by velocities that stay the same, that are within the limits and that turn, then with the fixed step integrator the planned unicycle follows the circle of the commanded motion during the whole horizon, however long: at every instant its heading is exactly that of the circle and its position is that of the circle up to 2.5 times the distance covered in one integration step; the time it has moved is the time since the command is executed, up to one and a half integration steps. Every contact that a successful planning adds is beside such a pose; without lateral velocity the contacts of each foot are on a ring around the common centre, half the nominal width inside or outside the circle of the unicycle. (The angular velocity times the integration step is at most one radian.)", "quantifier": "all planner settings, footprints, commands within the limits, horizons and instants", "why_tests_cant": "a bound that holds for every horizon and every command; a test sees a few circles for a few seconds", "anchors": ["src/UnicyclePlanner.cpp:computeNewSteps", "src/ControlledUnicycle.cpp:dynamics", "src/UnicycleDirectController.cpp:doUnicycleControl"]}
{"id": "C105", "title": "Load and CoM height change gradually", "statement": "A foot goes through its phases in the order switch in, stance, switch out, swing, and changes phase exactly at the phase shifts. During a double support of n samples without a pause the load on a foot changes at most 3/(2n) from a sample to the next, its velocity is at most 3/(2 n dT) and its acceleration at most 6/(n dT)^2; with a pause the same holds of the two halves, of the terminal time and of the nominal switch time (the sample in which the middle is reached may change half as much again). In single support it does not change, and there is no jump where the phase changes. The initial velocity of the load adds to the bounds of the first double support. During a single support of n samples the CoM height changes at most 3|delta|/n from a sample to the next, its velocity is at most 3|delta|/(n dT) and its acceleration at most 24|delta|/(n dT)^2. The bounds are attained.", "quantifier": "all walks without empty phases in which the feet alternate (the bounds on velocity and acceleration and those on the height: all walks), all samples, all initial states of the load between 0 and 1", "why_tests_cant": "a bound for every sample of walks of any length and any timing", "anchors": ["src/ZMPTrajectoryGenerator.cpp:ZMPTrajectoryGenerator::ZMPTrajectoryGeneratorImplementation::computeFootWeightPortion", "src/CoMHeightTrajectoryGenerator.cpp", "src/UnicycleGenerator.cpp:createPhasesTimings"]}
{"id": "C106", "title": "A generator that fails leaves a mixture of two walks in its vectors", "statement": "If the CoM height generator or one of the feet generators has no height set, a call fails and the getters return what they returned before. Otherwise a call that succeeds replaces everything, and a call that fails leaves vectors of the size of the new walk: the samples before the phase at which it stopped are those of a successful call for the phases before it, the others are those that were there before, or new elements (zero for the CoM height) where there was nothing. The CoM height stops only at an empty phase that a single support follows; a foot only at a swing: with cubic splines at an empty phase that a swing follows or at a swing to a missing step, with minimum jerk curves only at a swing to a missing step. If the left foot fails nothing of the right foot has changed; if the right foot fails the left one is complete.", "quantifier": "all previous contents, phases and shifts beginning with 0 (the left phases as long as the last shift for the feet), step lists, positive sampling times; for the feet all swing apexes strictly between 0 and 1", "why_tests_cant": "needs failures in the middle of a generation after any history", "anchors": ["src/CoMHeightTrajectoryGenerator.cpp:CoMHeightTrajectoryGenerator::computeNewTrajectories", "src/FeetCubicSplineGenerator.cpp:interpolateFoot", "src/FeetMinimumJerkGenerator.cpp:interpolateFoot"]}
{"id": "C107", "title": "What the names of the feet are good for", "statement": "The planner ignores the names of the footprints: with any other names it plans the same steps with the same outcome. The feet, ZMP and CoM height generators only tell the names apart: if both footprints are renamed, different names staying different, every call has the same outcome and produces the same phases and trajectories; the names inside the measured steps given to reGenerate have no effect. Footprints with equal names are refused and nothing is generated. With a ZMP generator a request succeeds only if some step carries the name of each footprint; renaming a footprint after its steps were added makes the generator read out of range. With a DCM generator a request succeeds only if every step to be made is called \"left\" or \"right\"; if each foot has the name of the other one it succeeds with another DCM.", "quantifier": "all renamings, states of the generator, footprints, requests and ways of sorting that do not look at the names", "why_tests_cant": "relates the runs of two differently named robots over all histories and plans", "anchors": ["src/FootPrint.cpp:FootPrint::setFootName", "src/UnicycleGenerator.cpp:UnicycleGenerator::generateFromFootPrints", "src/ZMPTrajectoryGenerator.cpp:computeGlobalZMP", "src/DCMTrajectoryGeneratorHelper.cpp:DCMTrajectoryGeneratorHelper::getZMPGlobalPosition"]}
{"id": "C108", "title": "What a ZMP or DCM generator that fails leaves in its vectors", "statement": "The vectors are written one after the other; a successful call replaces them all. ZMP: left weights, right weights, left local ZMP, right local ZMP, ZMP in the world; a call that fails has not touched the ZMP in the world, the vectors before the one in which it stops are new, those after it old. The weights stop only in a double support without samples or in a pause that has no time to begin or to end, and are then new up to that double support (in the last case up to its end) and old from there on; so are the states at the merge points. The local ZMP stops only in a stance or a later switch out without samples or in a pause without time to begin, and is new up to there. DCM: a call that fails was refused and changed nothing, or has replaced the pieces only, or the pieces and the first samples, or everything but the last weights: these stop only in a single support after which the swinging foot has no step, and are new up to its end. On a timeline made by UnicycleGenerator with accepted settings the DCM fails only while it takes the samples: the weights are then still those of the walk before, beside fewer new positions than the walk has samples.", "quantifier": "all previous contents, settings, phases, step lists and phase shifts beginning with 0 (the left phases as long as the last shift), positive sampling times", "why_tests_cant": "needs failures in the middle of a generation after any history", "anchors": ["src/ZMPTrajectoryGenerator.cpp:ZMPTrajectoryGenerator::computeNewTrajectories", "src/ZMPTrajectoryGenerator.cpp:computeFootWeightPortion", "src/DCMTrajectoryGenerator.cpp:DCMTrajectoryGenerator::computeNewTrajectories", "src/DCMTrajectoryGeneratorHelper.cpp:DCMTrajectoryGeneratorHelper::computeFeetWeight"]}
{"id": "C109", "title": "Infinite times and NaN never yield the phases of a walk", "statement": "With the infinities and NaN of IEEE 754 and any overflow: when UnicycleGenerator generates the phases of a walk, the sampling period, the initial time, the share of the double support, the terminal half switch time and the landing times after the first two are numbers (with two steps or more the merge point ratios too), and, no landing time being NaN or minus infinity, the phases, shifts and merge points are those computed with numbers only. With numbers only and no overflow the outcome is that of C92, unless a number of samples does not fit in size_t. NaN is however not refused: the setters and FootPrint::addStep store it, setSwitchOverSwingRatio stores it for an infinite ratio, and a request with a NaN sampling period, a terminal half switch time that is no number or, for a walk, an initial time or a last landing time that is no number is undefined behaviour, as is the sort if a landing time is NaN and two others differ. When there is no step to make, the initial time is used by its check only and may be NaN.", "quantifier": "all roundings with overflow, all settings reachable with the setters, all footprints, initial times and sampling periods, special values included", "why_tests_cant": "undefined behaviour shows nothing reliable; special values in every argument at once", "anchors": ["src/UnicycleGenerator.cpp:createPhasesTimings", "src/UnicycleGenerator.cpp:orderSteps", "src/UnicycleGenerator.cpp:UnicycleGenerator::generateFromFootPrints", "src/UnicycleGenerator.cpp:UnicycleGenerator::setSwitchOverSwingRatio", "src/FootPrint.cpp:FootPrint::addStep"]}
{"id": "C110", "title": "Planning steps with floating point times", "statement": "With every operation of UnicyclePlanner::computeNewSteps on times rounded to doubles and whatever the geometry (rounded or not) answers: the loop over the times ends if and only if the rounded times pass the end of the request (or the geometry makes the call fail), in a number of iterations quadratic in the number of periods; rounding to nearest, this holds when the period is at least 2^(e-53) for times below 2^e. The landings it adds alternate between the feet beginning with the swing foot, lie at times at which the planner looks and not after the end, follow one another by at least the minimum step duration as far as the rounded difference shows, and are strictly increasing if that duration is positive. A positive period can however be absorbed: with a period of 2^-54 a request beginning at time one never returns.", "quantifier": "all roundings (ToNearest for the IEEE parts), all settings, all geometries, all initial steps", "why_tests_cant": "non-termination cannot be observed; every rounding of every intermediate time", "anchors": ["src/UnicyclePlanner.cpp:UnicyclePlanner::computeNewSteps"]}
{"id": "C111", "title": "Walking on and on", "statement": "When the walk in execution is replaced at a merge point by one planned again from there, any number of times and with new orders to the planner each time, then what is executed of all these walks together, from the first sample to the last, is as good as a single walk: the time advances by one period per sample; at every sample a foot is in contact; a foot in contact does not move from one sample to the next, in place and orientation, unless it is measured to be elsewhere, and then by no more than the measurement says (walks replaced while both feet stand, not at the sample of a landing); the height of the centre of mass changes by at most 3 times the height variation divided by the number of samples of the shortest phase, per sample; the load of each foot changes at a bounded rate (walks replaced after their first step), the bound being the same however many walks are replaced.", "quantifier": "all reachable states, all numbers of replacements, all integrators, all sorts, all settings", "why_tests_cant": "unbounded number of re-plannings", "anchors": ["src/UnicycleGenerator.cpp:UnicycleGenerator::reGenerate", "src/UnicycleGenerator.cpp:UnicycleGenerator::getMergePoints", "src/ZMPTrajectoryGenerator.cpp:ZMPTrajectoryGenerator::setWeightInitialState"]}
{"id": "C112", "title": "The stride stays within the limits", "statement": "When the walk in execution is replaced at merge points any number of times, with new orders each time, then at every executed sample, also while a foot swings, the trajectories of the feet have them at most the maximum step length apart, and turned with respect to each other, net of the yaw offsets, by at most the maximum rotation; and at every sample at which both feet are in contact the left foot is on the left of the right one by at least the minimum width (right foot without yaw offset). This holds for every kind of step: placed by the optimisation, closing the feet, or terminal. The measurements given must respect the limits, and the contacts of the first walk must, which is the case if it was planned with no step yet.", "quantifier": "all reachable states, all numbers of replacements, all integrators, all sorts, all settings", "why_tests_cant": "unbounded number of re-plannings, continuum of trajectories", "anchors": ["src/UnicyclePlanner.cpp:UnicyclePlanner::computeNewSteps", "src/UnicycleGenerator.cpp:UnicycleGenerator::reGenerate", "src/UnicycleOptimization.cpp:UnicycleOptimization::areConstraintsSatisfied", "src/FeetMinimumJerkGenerator.cpp:FeetMinimumJerkGenerator::computeNewTrajectories", "src/FeetCubicSplineGenerator.cpp:FeetCubicSplineGenerator::computeNewTrajectories"]}
{"id": "C113", "title": "The feet take turns, however often the walk is replaced", "statement": "When the walk in execution is replaced at merge points any number of times, with new orders and measured poses of the feet, then over everything that is executed (getFeetStandingPeriods of each walk up to where it is left, then of the last one) the feet leave the ground in turns, no foot twice in a row, beginning with the foot whose turn it is at the beginning. Needed: resetStartingFootIfStill(false) and the starting foot is not changed while the feet have landed together; the robot follows a person or is driven with no lateral velocity; no walk is replaced during a swing or at the sample of a landing; the replacements keep the landing times (no measured steps with their own landing times, the DCM not at rest). If the DCM is at rest the configured foot begins. The contacts of every walk that is planned this way are made in turns without any of these conditions.", "quantifier": "all reachable states, all numbers of replacements, all integrators that do not change the commanded velocity, all sorts, all settings", "why_tests_cant": "unbounded number of re-plannings, each at any merge point", "anchors": ["src/UnicycleGenerator.cpp:UnicycleGenerator::reGenerate", "src/UnicycleGenerator.cpp:computeNewStepsFromMeasuredSteps", "src/UnicyclePlanner.cpp:UnicyclePlanner::computeNewSteps", "src/UnicyclePlanner.cpp:UnicyclePlanner::getInitialStateFromFeet", "src/UnicycleGenerator.cpp:UnicycleGenerator::getFeetStandingPeriods"]}
{"id": "C114", "title": "The DCM over everything that is executed is one smooth curve", "statement": "When the walk in execution is replaced at merge points any number of times (the DCM at the merge point given with setDCMInitialState), then the executed positions and velocities of the DCM are samples, dT apart, of a single curve in the plane and of its derivative, and that derivative is continuous: the DCM and its velocity never jump, within a walk or between walks. There is exactly one sample of the DCM for each sample that is executed, and each obeys the dynamics velocity = omega (DCM - ZMP) with the same omega. Needed: parameters of the DCM generator in their range, a sample in every phase and in the parts of the double supports.", "quantifier": "all reachable states, all numbers of replacements, all integrators, all sorts, all settings", "why_tests_cant": "unbounded number of re-plannings, a continuum between the samples", "anchors": ["src/DCMTrajectoryGenerator.cpp:DCMTrajectoryGenerator::computeNewTrajectories", "src/DCMTrajectoryGenerator.cpp:DCMTrajectoryGenerator::setDCMInitialState", "src/DCMTrajectoryGeneratorHelper.cpp:DCMTrajectoryGeneratorHelper::generateDCMTrajectory", "src/UnicycleGenerator.cpp:UnicycleGenerator::reGenerate"]}
{"id": "C115", "title": "A walk can always be continued", "statement": "A robot that stands still and begins to walk can replace its walk at any merge point, as often as it likes: generate or reGenerate succeeds each time, and the walk it yields can be continued again. Needed: usable settings of the generators (each phase has room for a sample), the planner has no reason to refuse (consistent limits and a unicycle that can be integrated), the measured landing times are not negative and the request does not come so late that the first new step would have to land at once. Requests at the end of a walk, when the DCM rests, and while the robot stands are never late; so the robot can go on for any number of walks, however the unicycle moves.", "quantifier": "all reachable states, all numbers of replacements, all integrators that do not fail, all sorts, all orders to the planner in between", "why_tests_cant": "unbounded number of re-plannings, each at any merge point", "anchors": ["src/UnicycleGenerator.cpp:UnicycleGenerator::generate", "src/UnicycleGenerator.cpp:UnicycleGenerator::reGenerate", "src/UnicyclePlanner.cpp:UnicyclePlanner::computeNewSteps", "src/DCMTrajectoryGenerator.cpp:DCMTrajectoryGenerator::computeNewTrajectories"]}
{"id": "C116", "title": "The feet never move fast", "statement": "However often the walk is replaced, at every executed sample the speed of each foot on the ground is at most 3 d / T with the cubic splines (15/4 d / T with the minimum-jerk polynomials), where d is the maximum step length and T the duration of the shortest phase; its turning rate is at most 3 a / T (15/4 a / T) with a the maximum rotation, and its acceleration at most 12 d / T^2 (sqrt(400/3) d / T^2). From one executed sample to the next one, also across a replacement, a foot without measurements moves by at most 3 d / n (15/4 d / n) and turns by at most 3 a / n (15/4 a / n), n being the number of samples of the shortest phase. Needed: the limits hold for the contacts of the first walk and for the measurements, the landing height is set, and the walk is replaced while both feet are in contact.", "quantifier": "all reachable states, all numbers of replacements, all integrators, all sorts, all settings and measurements", "why_tests_cant": "unbounded number of re-plannings, continuum of poses", "anchors": ["src/FeetMinimumJerkGenerator.cpp", "src/FeetCubicSplineGenerator.cpp", "src/UnicyclePlanner.cpp:UnicyclePlanner::computeNewSteps", "src/UnicycleGenerator.cpp:UnicycleGenerator::reGenerate"]}
{"id": "C117", "title": "The trajectory generators do not interfere with each other", "statement": "Two users make the same calls on new objects, except for those that attach or configure one of the generators of feet, ZMP and CoM height. If all generating calls of both succeed then in the end settings, planner, footprints, phases, merge points, contacts and everything the other generators keep and return are equal; and x, y, yaw of the feet with their velocities and accelerations are equal too, whatever step height, pitch, apex time and landing velocity are set. Without a DCM generator the settings, planner, footprints, phases, merge points and contacts are equal even if the users treat all four generators differently and the calls fail. The DCM generator is different: the same calls with and without it can give different steps.", "quantifier": "all sequences of calls and handle uses of any length, all settings, footprints, integrators and sorts", "why_tests_cant": "two-run property over unbounded sequences of calls", "anchors": ["src/UnicycleGenerator.cpp:UnicycleGenerator::generateFromFootPrints", "src/UnicycleGenerator.cpp:UnicycleGenerator::reGenerate", "src/FeetMinimumJerkGenerator.cpp:FeetMinimumJerkGenerator::computeNewTrajectories", "src/FeetCubicSplineGenerator.cpp:FeetCubicSplineGenerator::computeNewTrajectories"]}
{"id": "C118", "title": "The robot walks to the person", "statement": "With the person-following controller and a desired point at rest, whose time is later than the beginning of the plan and than the end of the shortest first step, the steps lead to the person: from the time of that point on, the point carried by the unicycle never moves away from the target along the planned motion and its distance decreases exponentially (up to one integration step); the same holds from any decided step to any later one, for the unicycle to which the foot belongs. Given the initial state only, the distance from the target is bounded by an explicit exponential. A desired point whose time has passed when the plan begins has no effect if the robot has steps, although it is documented to be kept until the next one: the robot stays, takes at most one step to bring its feet side by side, and none if they are.", "quantifier": "all planners, desired points, footprints, horizons and fixed integration steps that are short for the gain; followed point straight ahead, free space not interfering", "why_tests_cant": "continuum of targets, gains and horizons; unbounded number of steps", "anchors": ["src/UnicyclePlanner.cpp:UnicyclePlanner::computeNewSteps", "src/PersonFollowingController.cpp:PersonFollowingController::doUnicycleControl", "src/PersonFollowingController.cpp:PersonFollowingController::getDesiredPoint", "include/UnicyclePlanner.h:UnicyclePlanner::addPersonFollowingDesiredTrajectoryPoint"]}
{"id": "C119", "title": "The planned unicycle keeps to the velocity limits", "statement": "Whatever velocities are commanded directly or whatever points the person is to be at, between any two instants of a plan the unicycle moves at most the largest speed (from maximum step length, nominal width, minimum step duration, conservative factors and the factors for moving backward and sideways) times the time between them and one integration step, and turns at most the largest rotation per minimum step duration times the same time. It starts from its initial state. The same bounds hold from the initial state to every decided step and from any decided step to any later one, for the unicycle to which the foot belongs.", "quantifier": "all planners with the direct or the person-following controller, commands, desired points, free spaces, footprints, horizons and fixed integration steps", "why_tests_cant": "continuum of commands and instants; unbounded number of steps", "anchors": ["src/UnicyclePlanner.cpp:UnicyclePlanner::computeNewSteps", "src/UnicycleBaseController.cpp:UnicycleBaseController::doControl", "src/UnicyclePlanner.cpp:UnicyclePlanner::getIntegratorSolution", "src/ControlledUnicycle.cpp"]}
{"id": "C120", "title": "From plan to plan a person is pursued until their time, and the stored points accumulate", "statement": "A successful plan does not spoil the request to meet a person at a place from a given time on: the planner still goes to the same place by the same time in every later plan that begins early enough. Once that time is over, a plan that begins later with the robot on its way does not move the unicycle any more, wherever the robot is, and takes at most one step. Every successful plan for a robot that has steps stores one or two more desired points, whichever controller is used, and drops none: after any number n of plans at least n points have been added, unless the user clears them.", "quantifier": "all planners, targets, times, footprints and horizons; any number of plans in a row; any integrator that only feeds the controllers with states (fixed integration steps for the part that tells that the unicycle does not move)", "why_tests_cant": "unbounded number of plans; continuum of targets and times", "anchors": ["src/UnicyclePlanner.cpp:UnicyclePlanner::initializePlanner", "src/UnicyclePlanner.cpp:UnicyclePlanner::computeNewSteps", "src/PersonFollowingController.cpp:PersonFollowingController::setDesiredPoint", "include/UnicyclePlanner.h:UnicyclePlanner::clearPersonFollowingDesiredTrajectoryUpTo"]}
{"id": "C121", "title": "A planner that is given a path goes to its end, once", "statement": "A planner with the navigation controller that was given a path makes the unicycle go to the last pose of that path: after a number of integration steps that does not depend on the horizon, the planned unicycle is at the last pose, up to the motion of two integration steps, and stays there, and every step decided from then on puts the foot beside that pose. After such a plan the planner takes the path for completed, although the robot has not walked yet: a later plan, whatever the footprints it is given (also ones that end in the middle of the path), does not move the unicycle and takes at most one step, and none if the feet are parallel. Giving the path again makes the planner follow it again from its beginning.", "quantifier": "all paths of at least two poses with headings in [-pi, pi]; all planners whose velocity limits are positive; all footprints, initial times and horizons that are long enough; any integrator that on the navigation controller is the explicit Euler one with fixed steps", "why_tests_cant": "continuum of paths, poses and limits; unbounded number of integration steps", "anchors": ["src/UnicycleNavigationController.cpp:UnicycleNavigationController::doUnicycleControl", "src/UnicycleNavigationController.cpp:UnicycleNavigationController::setNavigationPath", "src/UnicyclePlanner.cpp:UnicyclePlanner::computeNewSteps", "src/UnicyclePlanner.cpp:UnicyclePlanner::setNavigationPath"]}
{"id": "C122", "title": "A robot told to walk straight on walks", "statement": "With the direct controller and a constant command to go straight on (forward, backward, sideways or in between) at which a step of the minimum duration, or of the time the unicycle needs for the minimum length (plus a period of the planner and three integration steps), satisfies the constraints, a plan from footprints whose feet are not ahead of the unicycle fills the horizon with steps: every decided step is chosen by the optimisation (only the last one, at the very end of the horizon, may bring the feet together instead), from one landing to the next it takes at most the maximum duration plus a period plus the time the unicycle needs for the minimum length, and after the last landing there remains at most the nominal duration plus the same. In the first plan (empty footprints) this holds for velocities at which a step of the nominal duration is possible; at higher forward velocities, although they are within the limits, no step is taken at all.", "quantifier": "all planners, velocities, footprints, initial times and horizons with these settings; any integrator that is the explicit Euler one with fixed steps", "why_tests_cant": "continuum of velocities, settings and horizons; unbounded number of steps", "anchors": ["src/UnicyclePlanner.cpp:UnicyclePlanner::computeNewSteps", "src/UnicyclePlanner.cpp:UnicyclePlanner::getInitialStateFromFeet", "src/UnicycleDirectController.cpp:UnicycleDirectController::setInactiveUntil", "src/UnicycleOptimization.cpp:UnicycleOptimization::areConstraintsSatisfied"]}
{"id": "C123", "title": "A robot told to turn turns", "statement": "With the direct controller and a constant command to turn on the spot at which a step of the minimum duration (of the nominal duration in the first plan), or of the time the unicycle needs for the minimum angle (plus a period of the planner and three integration steps), satisfies the constraints, a plan from footprints whose feet are not turned ahead of the unicycle fills the horizon with steps: every decided step is chosen by the optimisation (only the last one, at the very end of the horizon, may bring the feet together instead), from one landing to the next it takes at most the maximum duration plus a period plus the time the unicycle needs for the minimum angle, and after the last landing there remains at most the nominal duration plus the same.", "quantifier": "all planners, velocities, footprints, initial times and horizons with these settings; any integrator that is the explicit Euler one with fixed steps", "why_tests_cant": "continuum of velocities, settings and horizons; unbounded number of steps", "anchors": ["src/UnicyclePlanner.cpp:UnicyclePlanner::computeNewSteps", "src/UnicyclePlanner.cpp:UnicyclePlanner::getInitialStateFromFeet", "src/UnicycleDirectController.cpp:UnicycleDirectController::setInactiveUntil", "src/UnicycleOptimization.cpp:UnicycleOptimization::areConstraintsSatisfied"]}
{"id": "C124", "title": "A robot told to walk along a curve walks along it", "statement": "With the direct controller and a constant command to go forward or backward and to turn at the same time, along a curve that is wide enough for both feet to go in the direction of the unicycle, and at which a step of the minimum duration (of the nominal duration in the first plan), or of the time a foot needs for the minimum length (plus a period of the planner and three integration steps), satisfies the constraints, a plan from footprints whose feet are not ahead of the unicycle on that curve fills the horizon with steps: every decided step is chosen by the optimisation (only the last one, at the very end of the horizon, may bring the feet together instead), from one landing to the next it takes at most the maximum duration plus a period plus the time a foot needs for the minimum length, and after the last landing there remains at most the nominal duration plus the same.", "quantifier": "all planners, velocities, footprints, initial times and horizons with these settings, and all bounds of at most a right angle for the turn during a step; any integrator that is the explicit Euler one with fixed steps", "why_tests_cant": "continuum of velocities, curvatures, settings and horizons; unbounded number of steps", "anchors": ["src/UnicyclePlanner.cpp:UnicyclePlanner::computeNewSteps", "src/UnicyclePlanner.cpp:UnicyclePlanner::getInitialStateFromFeet", "src/UnicycleDirectController.cpp:UnicycleDirectController::setInactiveUntil", "src/UnicycleOptimization.cpp:UnicycleOptimization::areConstraintsSatisfied", "src/ControlledUnicycle.cpp:ControlledUnicycle::dynamics"]}
{"id": "C125", "title": "A robot told to stop stops", "statement": "If, at a merge point, the walk is replaced with the direct controller commanded to stand still (zero forward, angular and lateral velocity), the new walk has at most one step, whatever the robot was doing; that step brings the foot beside the other one. If the feet are side by side already and no measurement is given, the new walk has no step. The robot stops for good: however often its walk is replaced from then on, between steps, with the command unchanged and without measurements, at most one foot leaves the ground, at most once, in the whole execution. The positive minimums are needed: zero is accepted for both, but with either of them zero a robot whose feet are side by side and that is told to stand still marches on the spot up to the end of the horizon.", "quantifier": "all walks and all orders of the user before, all merge points, all numbers of replacements, all settings with positive minimum duration, minimum step length and minimum angle; any integrator that is the explicit Euler one with fixed steps under direct control", "why_tests_cant": "unbounded number of replacements; continuum of configurations of the feet and settings", "anchors": ["src/UnicyclePlanner.cpp:UnicyclePlanner::setDesiredDirectControl", "src/UnicyclePlanner.cpp:UnicyclePlanner::computeNewSteps", "src/UnicycleGenerator.cpp:UnicycleGenerator::reGenerate", "src/UnicycleDirectController.cpp:UnicycleDirectController::doUnicycleControl", "src/UnicyclePlanner.cpp:UnicyclePlanner::setMinimumStepLength", "src/UnicycleFoot.cpp:UnicycleFoot::isTinyStep"]}
{"id": "C126", "title": "Told the same over and over again, the robot walks along one line", "statement": "A robot whose feet are beside a line (in particular side by side) is commanded by the direct controller to go straight forward or backward, or to turn on the spot. However often its walk is replaced from then on, at any merge points, with the command unchanged and without measurements, every contact of every walk is the one of a pose that the unicycle reaches from the first pose by the command: there is no drift from the line, and no rotation, nor any displacement when turning on the spot. No contact is ever behind one that was made before, if all these walks have steps and, whenever a walk is replaced, the landing times are kept (DCM not at rest) or the feet are side by side. In a single plan with a long enough horizon, a robot that goes straight and whose feet are in this order always makes steps, up to the end of the horizon, and the order is kept. It gets as far as the time allows: some contact of the plan is at the place that the command reaches in the time from the execution of the command to the end of the horizon, less the maximum duration of a step, the time in which the minimum step length is covered, a period of the planner and four and a half integration steps; no later contact is behind it.", "quantifier": "all walks and all orders of the user before, all merge points, all numbers of replacements, all commands within the velocity limits, all settings with positive minimum duration; any integrator that is the explicit Euler one with fixed steps under direct control", "why_tests_cant": "unbounded number of replacements; continuum of commands, merge points and settings; accumulation of small errors shows only in the long run", "anchors": ["src/UnicyclePlanner.cpp:UnicyclePlanner::computeNewSteps", "src/UnicyclePlanner.cpp:UnicyclePlanner::getInitialStateFromFeet", "src/UnicycleGenerator.cpp:UnicycleGenerator::reGenerate", "src/FootPrint.cpp:keepOnlyPresentStep", "src/UnicycleDirectController.cpp:UnicycleDirectController::doUnicycleControl"]}
