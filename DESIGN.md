# Design of the formal model of unicycle-footstep-planner

The source in `/repo` is read as text. Nothing in it is built, run or changed.
This file says what is modelled, how every property of `properties.jsonl` is
proved, what is trusted, and where the code disagrees with a property.

## 1. Trusted base

* Lean 4.33.0's kernel. Mathlib is used only through its kernel-checked theorems.
* Axioms: every property theorem depends only on `propext`, `Classical.choice`
  and `Quot.sound` (Lean/Mathlib's standard ones). No axiom is added; no
  `sorry`, `native_decide`, `bv_decide`, `implemented_by` or `unsafe` is used.
* The claim that the Lean definitions describe the C++ code. Every definition in
  `Verif/Model/*` cites the file and lines it models; simplifications are stated
  in the comment next to it.
* The contracts of external code (section 3).

## 2. Modelling conventions

* **Numbers.** `double` is modelled by an ordered field `K` (definitions are
  generic, so that they can be *run* with `K = Rat` and reasoned about with
  `K = Real`). Rounding, overflow, `NaN` and infinities of IEEE doubles are
  outside the model, with two exceptions. `Verif/Model/Ieee.lean` rounds
  one loop bound (C72; exponents unbounded). `Verif/Model/Rounded.lean` is the computation of
  the phases (settings, sample counts, shifts, merge points) a second time, with every floating point operation rounded by a
  function `fl` (C92; overflow, `NaN` and infinities are in `Model/Special`, C109), the times of the planner in `Model/RoundedPlan` (C110); with `fl = id` it is the function used everywhere else
  (`C92_exact`). All other values are exact in the model. `sin`, `cos`, `sqrt`, `exp`, `tanh`, `atan2` come from a class `Trig K`
  without laws; the theorems that need their laws are stated for `Real`, with
  Mathlib's functions.
* **Unsigned integers.** `size_t` is `Nat`. A subtraction that would wrap, a
  conversion of a negative double to an unsigned, and an out-of-range index are
  a distinct outcome `Out.ub` of the model, never a default value, and
  theorems prove that this outcome does not occur under stated preconditions.
* **Division by zero** is never hidden behind Lean's `x/0 = 0`: theorems
  either carry the hypothesis that makes the divisor non-zero, prove that the
  divisor is non-zero, or the model returns `ub`.
* **Returning false.** A C++ method returning `bool` and mutating `this` becomes
  a function returning the Boolean *and* the state after the call, so that
  partial updates of failing calls are visible.
* **Loops.** `while` loops without an evident bound (`computeNewSteps`) are
  modelled with a fuel argument and a distinct `outOfFuel` outcome; termination is
  a separate theorem: enough fuel exists, and more fuel does not change the result.
* **Unstable sort.** `std::sort` may put ties in any order. The result of the
  sort is an argument constrained only to be a sorted permutation, so theorems
  hold for every tie order. (Where a deterministic function is needed a stable
  insertion is used and the comment says so.)
* **Pointers** to steps (`const Step*`) are modelled as (foot, index) pairs.
  Footprints are value types. `Model/Shared` has the pointer to the list, and C103 proves when the value is right:
  no copy has been made and nobody writes through the mutable reference that `getSteps` returns. The other models use the value.
* **Threads** (C53, C84, C85). A call is a sequence of lock operations and of accesses to whole objects (the settings of the
  generator, the planner, each trajectory generator...), interleaved in any way; memory is sequentially consistent, which C++
  promises to programs without data races. `std::mutex` is not recursive. What the methods compute is the sequential model.
  A mutex that is released by an exception, and objects that are destroyed while they are used, are not modelled.
* **Error messages** on `std::cerr` are not modelled.

## 3. External code: contracts used

| external | contract |
|---|---|
| iDynTree `Integrator` (ForwardEuler) | an arbitrary function from sampled times to unicycle states (planner theorems quantify over *all* such functions). C09, C79 and C89 use the Euler formula x+h f(x,t) (`Model/Integrate` for the controllers of the planner, with arbitrary step durations). |
| iDynTree `OptimalControlProblem::isFeasiblePoint` | the conjunction of the added constraints; the base class `Constraint::isFeasiblePoint` compares with the bounds that were set. |
| iDynTree `CubicSpline` | with two knots and given end velocities: the cubic Hermite polynomial through them; with three knots: the two cubics through them with continuous second derivative; end conditions are zero unless set; `setData` fails unless knot times strictly increase. |
| iDynTree `Rotation::RPY`, `RPYRightTrivializedDerivative` and its rate of change | Rz(yaw) Ry(pitch) Rx(roll); the matrix that maps RPY rates to the angular velocity in world axes; its derivative. The roll is zero everywhere. C65 proves that the formulas used are consistent with this rotation matrix. |
| iDynTree `VectorDynSize(n)` | contents unspecified until written. |
| `std::sort`, `std::find_if`, `std::deque`, `std::round`, `std::ceil` | the standard. |
| Eigen fixed-size algebra | exact matrix algebra. |

## 4. Not modelled

Plotting/printing code, `tests/`, the iDynTree conversions
(`iDynTree::Transform`, `Twist`, `SpatialAcc` are represented by the planar position, the height,
the yaw and their derivatives), memory management, `std::cerr` output, time cost.

* Assertions are modelled as absent (`NDEBUG`), since they are in a release build.
* Validity of iterators: `PersonFollowingController::clearDesiredTrajectoryUpTo` compares with an `end()` obtained before
  `pop_front`; removing the last element of a deque formally invalidates it. The model compares with the current end.
* The objects handed out by `UnicycleGenerator` (`getLeftFootPrint`, `getRightFootPrint`, `unicyclePlanner`) may be used at any time
  between two calls; in the model of a history this is `Walker.Handle`.
* The integrator may change the controllers while it integrates. `C13_history` assumes that it leaves the desired trajectory as it
  is (`KeepsReference`), which the control laws do.

## 5. Properties: what is modelled and how it is proved

| id | model | proof |
|---|---|---|
| C01 | `Model/FootPrint`: all mutating methods as functions on (steps,name) | invariant by induction over an arbitrary list of operations |
| C02 | `keepOnlyPresentStep` with the reverse `find_if` | spec: split of the list at the last step with impact <= t; case analysis |
| C03 | same | refinement to an abstract log |
| C04 | `Model/UnicycleFoot` over Real | rotation is orthogonal |
| C05 | `addParallelStep` | as C04 |
| C06 | `isTinyStep` | decision logic; zero displacement |
| C07 | `Model/BaseController`: saturate/doControl and setters | bounds for arbitrary inner law; invariant over setter histories |
| C08 | `saturate` | order lemmas |
| C09 | `Model/DirectController`, `ControlledUnicycle.dynamics`, Euler | induction over Euler steps |
| C10 | `Model/PersonFollowing.setDesiredPoint`, sort as arbitrary sorted permutation | induction over calls |
| C11 | `getDesiredPoint` | spec: piecewise-linear interpolation stated on list splits |
| C12 | same | negation with a concrete witness |
| C13 | `clearDesiredTrajectoryUpTo` | induction on the list, affine identity |
| C14 | `doUnicycleControl` and `dynamics` over Real | HasDerivAt of the followed point / algebra |
| C15 | ellipse + `getDesiredPointInFreeSpaceEllipse`; uninitialised entry = arbitrary value | convexity; invariant inner subset outer over setter histories |
| C16 | `Model/Ellipse` | inverse of R diag(a,b) |
| C17 | `projectPointInsideEllipse` | the returned point has generators of norm <= 1 |
| C18 | `getIntersectionsWithLine` | quadratic formula algebra, three branches; a coefficient below the threshold is treated as a perturbation of the line equation |
| C19 | `setEllipseMatrix` | negation witnesses; partial: |sin|<=|cos| |
| C20 | `getTangentVector` with an arbitrary value for the uninitialised entry | negation; partial: entry = 0 |
| C21 | `Model/Optimization` | decision logic |
| C22 | `Model/Planner` loop with fuel | lexicographic measure; explicit bound; dT = 0 diverges |
| C23-C29 | planner loop | loop invariant by induction on fuel, existential log of appended steps |
| C30 | `addTerminalStep` | case analysis, uses C04/C05 |
| C31 | `computeNewSteps` guards | case analysis |
| C32 | planner setters as operations on a configuration record | invariant over histories |
| C33 | same | per setter; negation with witness for the non-atomic ones |
| C34-C38 | `Model/Generator.createPhasesTimings` | loop invariant by induction over the ordered steps |
| C39 | `orderSteps` | sorted permutation + adjacent check |
| C60 | `createPhasesTimings`, ghost flag `pastEnd` | counting of the steps of each foot |
| C40 | `editStepFromMeasured` | round to nearest turn |
| C41 | `Model/MinJerk` | polynomial algebra, derivative, monotonicity |
| C42,C43 | `Model/Loop` (the loop over the phases, shared by four generators) and `interpolateFoot` | the loop on a timetable is a run over its segments (`Lemmas/Loop`); `FootRun` describes the samples of a foot |
| C64 | same | monotonicity of the minimum-jerk polynomial |
| C65 | `sampleOf` | derivatives of the rotation matrix, `Spec.Kinematic` |
| C66 | setter | the field is not read |
| C68 | `Model/CubicFeet`, `Model/Spline` | algebra of Hermite polynomials; bounds of the two halves |
| C67 | `dynamics`, Euler | rotation is orthogonal; induction over the integration steps |
| C44, C69 | `Model/ZMP.weightBody`, `recordStates` | each sample is traced to its phase; Hermite polynomial bounds; counting of the merge points |
| C45 | `world`, with the backward scan of the steps | the scan finds the step on which a foot stands (`Spec.Standing`); derivatives of the pieces; negation witness for the velocity |
| C70 | `localBody` | as C44 |
| C72 | `Model/Ieee.BackLoop` | relative error of rounding to nearest; doubles closer than half a unit for the witness |
| C71 | `world` and the phases | the scan and the landings differ at most at the first sample after a landing, where the weight is zero |
| C46 | `Model/DCM`: `Piece`, `evaluate` | every sample comes from a piece; the pieces of the single supports are listed with the step they stand on (`Lemmas/DCM.slots`), which is the contact of the stance foot if the feet take turns; `HasDerivAt` for the curve over ℝ |
| C47 | `pieces` (construction from the last step backwards) | induction over the steps with an invariant on the pieces built so far (`Lemmas/DCM.Inv`, `Whole`); the pieces are glued to a C1 curve (`chain_curve`) |
| C48 | `feetWeights` | bounds on every sample; timetable as in C44; over ℝ the weights reproduce the ZMP |
| C73 | `evaluate`, `computeNewTrajectories` | the iterator keeps up if every piece lasts a sample; otherwise the outcome is a failure, not undefined |
| C74 | `setInitial` | case analysis of the call; negation for feet that are turned |
| C75 | `doubleSupport`, `addFirst` | the piece at rest is in the list (`Whole.rests`, `rest0`) |
| C76 | `walkPieces`, `addSteps` | boundary conditions of the pieces; arcs meet at most once, hence the negation for alpha = 1 |
| C49 | setters | negation with witness |
| C50 | `Model/Navigation` | invariant over histories; UB witness |
| C51 | `Model/CoMHeight` | each sample is traced to its phase (`phaseLoop_at`), cubic bounds |
| C52 | `computeNewStepsFromMeasuredSteps`, `reGenerate` | uses C02 |
| C61, C63 | `outputsAfter` (`Model/Replan`): members read by the getters after a run, also after a failing one | induction over histories of requests |
| C62 | planner + `timeline` | planned steps are `WellSpaced` (from the refinement of the planner); well spaced steps are accepted |
| C80-C83 | `Model/Walker`: the whole `UnicycleGenerator` with its planner and its five trajectory generators; `Reached`: the states it can be in | invariant over histories (`Lemmas/WalkerRun.History`); `Spec/Fine`: settings that leave room for a sample in every phase of a planned walk; composition of the theorems of the parts |
| C53, C84, C85 | `Model/Locks`: interleavings of any number of calls; `Model/Threads`: every method with its locks and its accesses | alone, every method does what `Model/Walker` says; two-phase locking implies linearisability; mutexes are taken in the order of a rank; guards of the objects; negations with interleavings |
| C86 | `Spec/History`: what a list of calls sets; `Used`: histories with their calls | induction over histories; every generating call keeps the settings (`Lemmas/Used.Kept`) |
| C87 | the pitch of `Model/MinJerk` and `Model/CubicFeet` | same curves as the height (C64, C68) |
| C88 | `Spec/Merge`: two generating calls of `Model/Walker` around a merge point | the contact kept by `keepOnlyPresentStep` is the one the old samples stand on (landings and impact times, C39); then the start of each generator (C43, C45, C47, C51, C69, C70) |
| C89 | `Spec/Moved`: displaced situations (`WalkerMoved`), settings and requests; `Model/Integrate`: Euler integration of the planner's controllers | two executions side by side (`Lemmas/Moved*`), one lemma per function, from the timeline to the planner's loop; then induction over histories |
| C90 | `Spec/Again`: footprints that hold a walk; attempts in a row | counting the contacts before the initial time: an accepted timeline has at most three, the planner keeps all the old ones (C28); induction over the attempts |
| C91 | `Spec/Ties`: only the first contacts can be simultaneous | two sorted lists differ at most in the order of the two heads; after them the order is unique; ZMP and DCM read the heads only when the robot stands, symmetrically; induction over the history |
| C92 | `Model/Rounded`, `Spec/Rounded`: what is required of a rounding, doubles with subnormal numbers and rounding to nearest | monotonicity replaces the field inequalities of C36 and C38; the timetable of C34 does not depend on the rounding; drift by induction over the steps with an error bound; existence and error of rounding to nearest by a grid argument |
| C93 | `Spec/Mirror`: the mirror image of every input and output | left and right phases are opposite and constant between two shifts; simulation of every generator, loop by loop; the names of the feet decide what the DCM generator uses; exchanging twice gives the converse; histories by induction, ties by C91 |
| C94 | `getIntegratorSolution`, `getPersonPosition` (`Model/Integrate`), `Spec/Solution` | invariant of the loop: the current and the best instant are in the interval, hence two motions that agree there give the same plan; nearest instant by the laws of `floor`; witnesses outside of the range |
| C95 | `startLeft`, `swingLeft`, `resetStartingFoot` of the planner; `Spec/Start`: whose turn it is, sessions | the refinement of C56 extended with the flags at the end of a call; one request hands the turn over; induction over sessions |
| C96 | `controlAt`, `trajectory` (controller, limits and Euler integrator) over ℝ; `Spec/Follow` | in the frame of the unicycle each component of the error is multiplied by a factor in [α, 1] of the gain; one step contracts the squared distance (`Lemmas/Follow.contract`); induction over the steps; in continuous time the derivative of exp(kt)·error vanishes |
| C97 | feet generators; `Spec/Speed` | slope bounds of the two profiles (polynomial inequalities), transferred to the samples through `FootRun` |
| C98 | `Model/DCM`; `Spec/Hull` | convex hull as the intersection of half planes; an arc of a single support is, before an instant, between its ZMP and its point at that instant; backward induction from the last single support through the meeting points of C76 |
| C99 | `Model/Planner`, `Model/Integrate`; `Spec/Steady` | Euler steps under a plain command compose exactly; the instants of the fixed step integrator bound the time moved; every landing of a plan is beside the base state or a later one; a stationary unicycle never makes a step valid, so only the closing step remains |
| C100 | `Model/Planner`, `Model/PlannerSettings`, `Model/Integrate`; `Spec/MirrorPlan` | the loop, the terminal step, the initialisation and each setter commute with the reflection that exchanges the feet; while both feet and the unicycle keep one direction `get_rPl` is symmetric. False for turning motions (witness) |
| C101 | `Model/Replan`, `Model/Walker`; `Spec/MirrorWalk` | C100 for the planning part, C93 for the rest; the corrections with measured contacts commute with the mirror as long as the feet stay parallel; histories by induction. Only successful requests: when a request fails the left footprint has been pruned before the right one is looked at (C52), which is not symmetric |
| C102 | `Model/DCM`; `Spec/Hull`, `Spec/DoubleSupport` | the cubic that joins the two arcs is written in the frame of the two ZMPs and of the point where the arcs meet (C76); two weights, functions of half `omega * T` and of the phase of the double support, are bounded with the power series of cosh and sinh |
| C103 | `Model/Shared` (footprints with the list they point to: default construction, construction from a list, copy, assignment, move, methods, writes behind the back); `Spec/Shared` | an object that alone points to its list refines the value of `Model/FootPrint`, by induction over programs; two objects that share a list go on doing so |
| C104 | `Model/Integrate`, `Model/Planner`; `Spec/Circle` | the planned unicycle is driven through equal Euler steps and a last one (`constant_command`, shared with C99); in complex numbers the error after equal steps, times a chord, is the error of one step times a chord, hence bounded for ever; landings as in C99 |
| C105 | `Model/ZMP`, `Model/CoMHeight`; `Spec/Rates` | bounds on the cubic pieces in terms of the fraction of their duration (`Lemmas/Rates`); the order of the phases from the timetable gives the value at the start of the next phase; every sample and every pair of consecutive samples is in one phase or at a change of phase |
| C106 | `Model/Residue`; `Spec/Residue` | `phaseWrites` are the samples the loop assigns before it ends or stops; induction on the shifts: the loop that fails is a loop that succeeds on the phases before (`phaseLoop_fail`), the rest of the vector is what `resize` leaves.  The CoM height and the feet; the ZMP and the DCM are C108 |
| C107 | `Spec/Names` (the same objects with other names) | renaming commutes with every function of the planner, of the timeline and of the feet, ZMP and height generators (`Lemmas/Names`, `Lemmas/NamesWalk`): the planner for any renaming, the rest for injective ones.  For the DCM generator: every step but the first one is passed to `zmpOf` (induction on the phase shifts); for the ZMP generator: `backTo` returns only at a step with the name |
| C108 | `Model/ResidueBalance`; `Spec/Residue` | as C106 (`phaseLoop_stops`), with the samples that a phase that fails has already assigned (`weightWrites`: a pause of the ZMP generator, a single support of the DCM generator); the vectors are written one after the other, so the cases are those of the first one that is not complete.  On a timeline the pieces of the DCM always exist (`pieces_whole`) and the weights never fail (`weights_of`) |
| C109 | `Model/Special`; `Spec/Special` | operations on doubles that give a number have numbers as operands (a division by an infinity apart), so every conversion to `size_t` that is defined passes finiteness on: simulation of the rounded model step by step (`addStep_num`, `create_num`); the other direction by a relation between outcomes that is kept by sequencing (`Agree.bind`) |
| C110 | `Model/RoundedPlan`; `Spec/RoundedPlan` | the loop with arbitrary rounding and an arbitrary geometry only ever looks at the times `sampleTime fl p n`; measure (landings still possible, samples left) for termination; log of landings as loop invariant (`loop_made`); `fl (1 + 2 ^ -54) = 1` from the definition of the format |
| C111 | `Spec/Executed` on `Model/Walker` | induction over the walks that replaced one another; a chain of samples that is left where another one begins is a chain (`chain_joint`), the joints by C88, the walks by C97 and C105; the rate of the load at a joint after the first step is bounded by the walk that is left, so it does not add up |
| C112 | `Spec/Stride` on `Model/Walker` | a relation between contacts that are on the ground at the same time is kept when a step is appended (`Paired.snoc_left`), hence by a plan (`PlanOf.paired`) and by a plan from the contacts of another one (`paired_next`); at every sample the contacts of the two feet are on the ground at the same time (`sample_paired`); during a swing both ends of the swing are related to the contact of the other foot (`swing_paired`), and so is the straight way between them if the relation is convex; the relations over ℝ follow from the constraints (C05, C25) and from C32 |
| C113 | `Spec/Turns` on `Model/Walker` | the contacts of a plan from one contact of each foot are made in turns (`plan_turns`), so the steps of its timeline are (`slots_turns`: two merges of the same two increasing sequences are equal); the take-offs up to a sample with both feet down are the first steps of the timeline (`takeoffs_take`), and the foot of the last one landed last (`contacts_after`), so the next plan starts with the other foot (`turns_next`); induction on the replacements |
| C114 | `Spec/Curve` on `Model/Walker` | one `C^1` curve per walk (`C47_curve`), glued at the merge points, where position and velocity agree (`C88_dcm`); induction on the replacements |
| C115 | `Spec/GoesOn` on `Model/Walker` | `Continuable` is preserved: the planner does not refuse (`replan_succeeds`, with C58), the generators do not fail (`C80_regenerate_partial`), the new steps leave room for every phase (`shifts_increasing`); at the end of a walk the DCM is at rest (`rests`), so the landing times are aligned and the request is not late |
| C116 | `Spec/Pace` on `Model/Walker` | per swing the bounds of C97 with the stride of C112 (`pace`), a swing is as long as its phase (`long_swing`, from C34); induction on the replacements with `foot_joint` |
| C117 | `Spec/Separate` on `Model/Walker` | simulation between two sequences of calls that differ in the calls of one generator (`Simulates.ran`); the planner's result does not depend on the fuel (`computeNewSteps_fuel`); per swing the ground components do not read the settings |
| C118 | `Spec/GoTo` on `Model/Planner`, `Model/Integrate`, `Model/PersonFollowing` | the reference after the last desired point (`served`), C96 applied to the integrated motion from any of its samples on (`trajectory_drop`), samples read at the nearest instant; for points of the past, the planner's own reference point makes the command zero |
| C119 | `Spec/SpeedLimit` on the same | limits of one command, then induction over the integration steps |
| C120 | `Spec/Pursuit` on the same | the controllers after a call are those of the integration, fed with states (`person_after`); the points added by a plan are earlier than the time of the target; induction over the plans for the growth |
| C121 | `Model/NavIntegrate`, `Spec/WalkPath` on the same | the solution is the explicit Euler one over the navigation controller, as C115 for the controller alone; after the arrival the command is zero and the controller does not change (`rest_step`), so a longer horizon only adds states at rest (`trajectory_split`, `trajectory_rests`) |
| C122, C123 | `Spec/Forward`, `Lemmas/SearchFirst`, `Lemmas/Striding` on the model of C99 | the progress along the way is monotone and, up to three integration steps, the time since the command is executed; the first sample at which the step is neither too early nor tiny is a possible landing, so the search ends with a landing within the maximum duration (`First.settles`); invariant over the run: the stance foot is on the way, the swing foot behind it; the geometry of a step (straight on, turning) enters only through `Steadily` |
| C124 | `Spec/Forward` (`track`, `CurveFits`), `Lemmas/Track`, `Lemmas/Striding` | The integrated way is a chain of straight pieces, each in the direction of the heading at its beginning (`track`, defined for the past too). While the heading stays within an acute angle, all pieces have a positive component along each other; the foot beside the unicycle turns with it, so as long as the curve is wide with respect to the nominal width the distance of a foot from where it stood grows, at a rate of at least `footSpeed`. This gives the hypotheses of `steadily_walks`, the same argument as for C122 and C123, which is now made for `track`. Bounds of the position of the new foot in the frame of the other one give the constraints. |
| C125 | `Spec/Stop` (`ToldToStop`, `SideBySide`, `SameStance`), `Lemmas/Turns` | One plan by C99 (`C99_standing`: no step if the feet are parallel, otherwise one that makes them so), with the contacts of the replaced walk as its beginning (`replanned_with`). Steps and take-offs of a walk correspond one to one (`takeoffs_count`); when a walk is left between steps, the contacts then present are the ones after the take-offs executed (`takeoffs_stand`). Induction on the replacements: the take-offs so far plus the steps still planned are at most one, and after a take-off the feet are side by side. Not needed: that the controller had been the direct one before. Needed: positive minimum length and angle (`C125_marches`, by the argument of C122 with steps that are never too small). |
| C126 | `Spec/Line` (`ToldTo`, `BesideWay`, `Advances`) | One plan by C99 (`C99_landings`: every landing belongs to a pose on the commanded way from the initial state, which is the pose of one of the two contacts). Poses on the way compose (`goOn_add`), so the contacts of the new plan are beside the way on which the old ones were. Order: landings come in the order of their times, and so do the poses; the first ones are not behind the contacts from which the plan starts (`advance_plan`). Induction on the replacements. `C126_walks` adds C122: the feet are in order, hence neither is ahead of the unicycle, hence the robot keeps walking. `C126_progress`: the last landing chosen by the optimisation is late, since the time between landings is bounded, and its pose is that of the command at its time (`landings_of`). A walk without steps may give the older contact the time of the newer one (`Realigned`), hence the condition in `C126_advances` that the walks have steps; likewise a replacement while the DCM rests, hence `KeepsTimes` or feet side by side. |
| C54, C55 | `Model/Navigation` | invariant over histories; algebra at heading 0 and counterexample otherwise |
| C77 | `setFreeSpaceEllipse`, `setFreeSpaceEllipseMethod` | invariant over histories against `Spec/Settings.space` |
| C78 | `Model/Navigation` over ℝ | case analysis of the control law (`Lemmas/Navigate.Aim`); negations with witnesses |
| C79 | `navigate` (controller and Euler integrator in a loop) | potential function: distance and heading error to the tracked pose, then induction over the poses |
| C56-C59 | whole planning call | refinement of the loop to `Spec/PlanRun` (searches and landings), case analysis of the call |

The planner theorems C22-C31 and C56-C59 go through one refinement: `Spec/Search`, `Spec/Plan` and
`Spec/PlanRun` describe a plan as a sequence of searches over the sampled instants, each ending in a landing;
`Lemmas/PlannerRefine` proves that the loop of `computeNewSteps` computes exactly that, for every fuel that suffices.
The generator theorems C34-C39 go through `Spec/Phases`: a `Timetable` (one slot per step: double support, single
support; then the final double support) from which phases and shifts are expanded; `Lemmas/Timeline` proves that a
successful generation always yields the expansion of a timetable.
`Spec.Refused` lists the reasons of a refusal. The integrator returns the controllers as it leaves them, since the
control law has internal state.

## 6. Where the code disagrees with the expected property

(Each is proved as a negation with a concrete witness, with a positive `_partial` theorem beside it.)

* C12 header says desired values are held constant; the code interpolates.
* C19 `FreeSpaceEllipse.cpp` `b = M(0,1)/sin` has the wrong sign; shear matrices are accepted.
* C20 `R_pi_2(1,1)` is never initialised.
* C22 `setPlannerPeriod(0)` is accepted and planning never returns.
* C31 an empty interval is accepted if both footprints are empty.
* C33 non-atomic failing setters (five of them, each refuted).
* C36 a walk entirely in the past converts a negative duration to `size_t` before the check that refuses it;
  with no sample at all `phaseShift.back() - 1` wraps.
* C38 the last merge point can be smaller than the previous one when the last phases round to no sample.
* C60 `leftList[leftIndex]` is one past the end when the walk ends with a right step.
* C42/C43 phases without samples: an empty swing leaves the foot one step late for the rest of the walk, an empty double
  support makes the interpolation fail, an empty final double support makes it read past the phases.
* C64 if the apex falls within the first half sample the foot jumps to the step height.
* C68 `zPositionsBuffer(0)` of `FeetCubicSplineGenerator` is never written; the pitch spline gets its initial conditions twice
  and its final ones never; overshoot for an apex away from half time; penetration for upward landing velocities.
* C66 `FeetMinimumJerkGenerator` ignores the landing velocity.
* C44 an initial weight that moves fast drives the weight out of [0,1]; with a pause and a transfer shorter than half a period
  the generation fails after the timeline was accepted; two steps of the same foot in a row make the weight jump.
* C45 velocities and accelerations are transformed as points (`H * v` adds the position of the foot); right in the first double
  support only.
* C69 the acceleration of the initial weight is ignored.
* C72 `ceil((n*dT)/dT)` is `n + 1` in doubles for some `n` (7 with dT = 0.01): one element is written past the end of the vectors.
* C49 `x < 0 && x > 1` can never hold; `setOmega(0)` accepted.
* C46 if a foot makes two steps in a row the ZMP of the second single support is in the contact the foot has left (`C46_same_foot_witness`).
* C73 with little room in the last double support (stillness near one) the generation fails (`C73_no_room_witness`).  `setOmega(0)` is accepted, and
  then the ZMP of a double support is a quotient by zero (`C73_omega_zero_witness`).
* C74 the default initial DCM adds the offsets of the ZMPs to the positions of the feet without rotating them.
* C76 the boundary instant of consecutive single supports is `(a + b) * alpha` instead of `b + (a - b) * alpha`.
* C50 no path: out-of-range read; `m_state` is not initialised before the first `setStateFeedback` (`C50_blind`).
* C94 `getIntegratorSolution` checks the range with assertions only: a late instant gives the end of the motion, an early one
  converts a negative number to `size_t`, and without a plan an empty container is read; `setMaximumIntegratorStepSize` after the
  plan changes the answers (`C94_late_violation`, `C94_early_violation`, `C94_step_witness`).
* C55 limits are projected in the world frame.
* C78 headings are corrected by one turn only (`C78_long_way_violation`); an aligned unicycle is turned at the maximal rate.
* C58 exactly one empty footprint: an uninitialised step is used.
* C52 with the DCM at rest the landing time of the foot that is not corrected changes too; a refused request can
  lose steps of the left foot; a negative measured time loses the contact; a DCM generator that never ran is read
  uninitialised.
* C80 a re-planning request shortly before a landing is accepted by the planner and then fails, since the feet generators find no
  sample for the phases of the first step (`C80_late_witness`).
* C82 after a failure of a trajectory generator contacts and trajectories belong to different walks (`C82_mixture_witness`).
* C61 `getStepPhases` on a generator that never assigned phases dereferences null.
* C63 a generation that fails while assigning the phases leaves new phases next to old contact flags.
* C53 `generate` has two critical sections: a `generateFromFootPrints` in between makes it use the wrong footprints
  (`C53_generate_witness`); settings of two trajectory generators changed during a generation are seen out of order
  (`C53_settings_witness`).
* C85 getters and setters without lock, and the pointers to the footprints read without lock, race with the generation
  (`C85_unlocked_witness`, `C85_generate_witness`).
* C88 a merge point can be the sample at which a foot lands (ratio 0); if the step is due after that sample the new walk starts from
  the contact before and the foot jumps back a whole step (`C88_landing_witness`); in the first half of a double support the ZMP
  jumps if the stance offset differs from the switch offset (`C88_zmp_witness`); the velocity of the ZMP jumps because of C45.
* C89 the navigation controller applies the limits of the robot's forward and lateral speed to the axes of the world: the command
  depends on the direction of the goal in the world (`C89_navigation_witness`). Without any contact the planner begins at the origin
  of the world (`C89_origin_witness`). The default start of the DCM adds the offsets of the feet in world axes (C74).
* C91: a later contact of one foot simultaneous with the first contact of the other foot: `orderSteps` accepts the contacts ("The
  head is not considered"), and whether the walk is generated depends on the order in which `std::sort` leaves the two
  (`C91_tie_witness`).
* C93: if a robot stands and its two contacts were made at the same time, `createPhasesTimings` always takes the left foot for
  the one to be lifted (`C93_standing_witness`); in double support the weight on the left foot is computed from the distance of the
  ZMP from the left foot and the other one is what remains, which is not symmetric unless the ZMP is between the feet
  (`C93_weights_witness`).
* C95 `startWithLeft() const` returns the foot the search would move next (`m_swingLeft`), not the foot that starts: before the first
  plan it is always left, whatever was set (`C95_getter_violation`), and after a plan it is the foot after the last decided landing
  (`C95_plan_witness`).
* C96 the condition on the backward factor is needed (`C96_backward_violation`: 0 is accepted, then a unicycle that has passed its
  target stays where it is), and so is the one on the steps (`C96_long_step_violation`).  The integrator is the Euler contract.
* C100: `get_rPl` (src/UnicyclePlanner.cpp:216-256) measures the distance between the feet, compared with the minimum width, in the frame of
  the foot on the ground if the left foot swings and in the frame of the unicycle after the step if the right foot does. In turns the
  planner therefore treats left and right differently: `C100_turning_violated` is a command for which the robot walks, and whose mirror
  image makes it stand still.
* C102: the cubic of a double support (src/DCMTrajectoryGeneratorHelper.cpp:384-533) fixes position and velocity of the DCM at its ends and
  nothing about the ZMP in between.  `C102_zmp` is the exact ZMP.  For `omega * T` up to 2 it is a point between the two supports up to an
  error bounded by 3/200 of the cube of `omega * T` (`C102_between_partial`); for longer double supports it first moves behind the foot that the robot
  leaves (`C102_behind_witness`, with `omega * T` equal to 8; the default `omega` of 19.62 makes that a double support of 0.41 seconds).
  In the last double support the ZMP is on the line through the ZMPs of the feet, in the position that `C102_last` gives; with `a` the
  product of `omega` and of the time that the DCM takes to stop, it never goes beyond the last support on the wrong side if and only if
  the offset of the DCM (`setLastStepDCMOffsetPercentage`) is at least `3 / (a^2 + 4 a + 6)` (`settle_nonneg_iff`,
  `C102_last_between`).  The default offset is zero, which is never enough (`C102_last_violated`, `C102_last_witness`): the robot stops with
  the ZMP outside the feet.  `C102_first` is the exact ZMP of the first double support, when it is a cubic.
* C103: a copy of a `FootPrint` shares the steps with the original (include/FootPrint.h:26, no copy constructor), so a step added to one
  appears in the other, with the name of the one it was added to (`C103_copy_violated`, `C103_name_witness`).  What holds is
  `C103_independent`.
* C107: `setFootName` is part of the public interface, but the DCM generator knows only the names "left" and "right"
  (src/DCMTrajectoryGeneratorHelper.cpp:783-805): other names are refused although all the other generators accept them, and
  feet that carry each other's name get each other's ZMP offset (`C107_swapped`).  A footprint renamed after steps were added
  makes the ZMP generator read before the beginning of the ordered steps (`C107_renamed`).
* C108: a DCM generator that fails has already replaced the positions, but not the weights: after a failing call for a walk of
  ten samples there are nine positions beside ten weights (`C108_dcm_witness`).
* C109: nothing that takes a `double` looks for values that are not numbers: `dT <= 0`, `ratio <= 0`, `impactTime < 0` are false for
  them.  The setters and `FootPrint::addStep` store them, `setSwitchOverSwingRatio` stores one for an infinite ratio, and a request
  made with them converts `NaN` to `size_t` or sorts with a comparison that is no order (`C109_period`, `C109_terminal`,
  `C109_times`, `C109_sort`): undefined behaviour where the return value should be `false`.
* C110: `computeNewSteps` refuses a period that is not positive but not one that is absorbed: beginning at time one with a period of
  `2 ^ -54` the loop never ends (`C110_never_witness`), since `t + dT == t`.
* C113 needs that the replacements keep the landing times. Measured steps given with their own landing times need not
  (`C113_measured_times`: the left foot steps twice in a row). Nor does a replacement while the DCM is at rest:
  `computeNewStepsFromMeasuredSteps` then aligns the landing times, and the configured foot begins, also with
  `resetStartingFootIfStill(false)` (`C113_at_rest`).
* C115 the request at the end of a walk is not late since the DCM rests there and the landing times are aligned. That needs a DCM
  generator whose last double support ends with at least one sample of rest (`ComesToRest`); at other merge points the condition on the
  times (`Timely`) stays a hypothesis (`C80_late_witness` tells what happens without it). Without a DCM generator the landing times are
  never aligned, and a walk whose last double support is long cannot be continued at its end (`C115_end_witness`).
* C116 bounds the velocities in the samples for every foot, but the displacement from one sample to the next one only for a foot
  without measurements: a measured foot is moved to where it was measured (C111_corrected bounds that).
* C117 leaves the generator of the DCM out because `reGenerate` reads the velocity of the DCM (`C117_dcm_witness`: the same calls with and
  without it give different steps), and it needs that the generating calls succeed because the first generator that fails keeps the
  following ones from running (`C117_fail_witness`).
* C118 (`C118_forgotten`): include/UnicyclePlanner.h:89 says that a desired point is kept until the time of the next one.  When the robot
  has steps, src/UnicyclePlanner.cpp:121-138 adds the present position of the person as a desired point at the beginning of the plan (and,
  feet together, when the first step may end); a point of the user with an earlier time no longer has any effect, so the robot stays.  The
  user has to give a point with a later time before every plan.
* C120 (`C120_stored`, `C120_grows`, `C120_unbounded`): the points that src/UnicyclePlanner.cpp:119-138 adds for its own use are never
  removed, whichever controller is used; unless the user calls `clearPersonFollowingDesiredTrajectory` or
  `clearPersonFollowingDesiredTrajectoryUpTo`, the stored trajectory (which is sorted at every plan, and searched at every integration
  step) grows by one or two points with every plan, also with the direct and the navigation controller.
* C121 (`C121_done`, `C121_stuck`): the navigation controller keeps the progress that it makes while the plan is integrated
  (`m_poseIndex`, `m_ETA`, src/UnicycleNavigationController.cpp:64-85), and the integration goes to the end of the horizon. After one
  plan that reaches the end of the path, the planner takes the path for completed although the robot has not walked yet. If the walk is
  then replaced (`generate` with footprints that are cut at the merge point, in the middle of the path), the robot stays where those
  footprints leave it, until `setNavigationPath` is called again (`C121_again`). Nothing in the documentation of
  `setNavigationPath` tells the user to repeat the call.
* C122: only when the footprints have steps is the command held until the first step may end (src/UnicyclePlanner.cpp:117-142); in the
  first plan (22-51) it is not, while the first landing is delayed by the nominal duration all the same (822-826, 837). At velocities at
  which the unicycle goes further than the maximum step in that time (with the default settings, at the velocity limit: 0.9·4/3 of the
  longest step) the first plan has no step at all (`C122_first_plan`). The property is stated with this exception.
* C125: `setMinimumStepLength(0)` and `setMinimumAngleForNewSteps(0)` are accepted (only negative values are refused), but `isTinyStep`
  (src/UnicycleFoot.cpp:136-152) asks for both a length *below* the minimum and an angle *below* the minimum. With one of the two zero no
  step is ever too small, not even one of length zero: a robot standing with its feet side by side and told not to move steps on the spot
  for the whole horizon (`C125_marches`). Setting only one of them to zero, to make the other one alone decide, has the opposite effect.
* C90 is no violation of the documentation (the footprints are handed out "to modify [them] before calling the planner"), but a
  consequence a user should know: a second `generate` fails until the footprints are cleared, and every attempt adds steps.
