# Formal model of kinematics-dynamics: design

The properties are listed in `properties.jsonl` (C01...). This file says what is
modelled, how each property is proved, what is trusted and where the code and
the property disagree. `MANIFEST.json` maps properties to theorem names.

## 1. Layout

| Directory (under `lean/Verif/`) | Contents |
|---|---|
| `Kdl/` | the fragment of the external KDL library that the code calls (vectors, rotations, frames, joints, chains) |
| `Screw/` | `ScrewTheoryLib`: matrix exponentials, POE, subproblems, IK problem, builder, selectors |
| `Repr/` | `KinematicRepresentationLib`, `KdlVectorConverterLib`, `YarpTinyMathLib` |
| `Ctrl/` | `BasicCartesianControl`: commands, control loop, parameters, interleavings |
| `Net/` | `CartesianControlClient` and `CartesianControlServer`: RPC, streaming, wrapper life cycle |
| `Solver/` | `KdlSolver`, `KdlTreeSolver`, `AsibotSolver`, `TrajGen` |
| `Programs/` | the application programs (streaming devices, force compensation, keyboard, vision), the trajectory example, the example of a client and the script for reachable cuboids |
| `Conformance/` | assertions of the unit tests of the repository, checked on the model (fidelity of the transcription, not property theorems) |
| `Props/` | property theorems only, one file per group, each with non-vacuity examples |

Model files hold definitions (each citing file and lines in `/repo`). Helper
lemmas live in files named `*Lemmas.lean`. Property theorems live in `Props/`
and are named after the claim they settle.

## 2. Trusted base

* Lean 4.33.0's kernel, and the axioms `propext`, `Classical.choice` and
  `Quot.sound` (checked with `#print axioms`; nothing else is used). No
  `sorry`, no `native_decide`, no `bv_decide`, no axioms of our own.
* The transcription from C++ (and Python for some scripts) to Lean, done by hand and by reading. Each
  definition cites its source lines so that it can be reviewed. As a check of it, the numbers that the unit tests in
  `/repo/tests` assert are derived from the model in `Conformance/` (screw theory subproblems and exponentials; forward
  kinematics and inverse dynamics of the solver device, from its configuration; every conversion between pose
  representations; forward and inverse kinematics of the ASIBOT solver, from its configuration, but for two tests whose
  answer hangs on rounding; the controller of `testBasicCartesianControl.cpp`, opened from its configuration, asked for its
  pose, for inverse kinematics and with tools).
* **Arithmetic is idealised**: `double` is modelled by the real numbers.
  Rounding, overflow, signed zeros and NaN propagation are not modelled, except
  where a NaN or a division by zero decides the outcome; there the model has an
  explicit outcome for it. `std::atan2(y, x)` is `Complex.arg (x + iy)` (value in
  `(-pi, pi]`, `atan2(0, 0) = 0`). `sin`, `cos`, `acos`, `asin`, `sqrt` are Mathlib's.
* **Undefined behaviour** of the C++ code (out-of-range reads and writes, null
  dereference, use of uninitialised variables, conversions that do not fit) is
  a distinct outcome of the model, never a default value.
* **External libraries** are represented by their documented behaviour, since
  none of them is present in `/repo`. Motor boards, sensors, solvers behind
  interfaces and the network are arbitrary: theorems quantify over everything
  they may answer. In detail:
  * KDL (1.4/1.5): `Vector`, `Rotation` (`Rot`, `Rot2`, `GetRot`, `RPY`, `GetRPY`,
    `EulerZYZ`, `GetEulerZYZ`), `Frame`, `Twist`, `Wrench`, `diff`, `addDelta`,
    `Joint`, `Segment`, `Chain`, `Tree`, `Equal` with `epsilon = 1e-6`, `Normalize`,
    `ChainFkSolverPos_recursive`, `ChainJntToJacSolver`, `Path_Line`,
    `RotationalInterpolation_SingleAxis`, `VelocityProfile_Trap`, `VelocityProfile_Rectangular`. The iterative solvers
    (`ChainIkSolverPos_NR_JL`, `_LMA`, `ChainIkSolverVel_pinv`, tree solvers) are
    arbitrary functions. `ChainIdSolver_RNE` is modelled
    (`Kdl/Dynamics.lean`); the other dynamics solvers are not used by the code that is modelled.
  * YARP 3: `Value` conversions (`asFloat64` of a vocab or an integer is its number,
    of a string zero; `asVocab32` of a string is its code), `Bottle::get` past the end
    is a null value, `axis2dcm`/`dcm2axis`/`pinv`/`luinv` compute what their names say,
    the network hands over bottles unchanged, ports open, `PeriodicThread` calls
    `run` again and again, `RFModule` does not call `interruptModule` when
    `updateModule` returns false.
  * Eigen: `lu().solve`, `colPivHouseholderQr` by their defining equations.
* **Concurrency** (C42, C43): one user thread and the control loop. Each read or write
  of a member and each call to a device is one step, steps of both threads
  interleave freely. Members that the code accesses without synchronisation are
  taken to be read and written atomically: their data races are undefined
  behaviour in C++, which is outside the model. The message stored by the client's
  stream port is read and written under one mutex, hence atomic.
  For C97 (`Ctrl/Pool.lean`): any number of client threads, the stream and the control loop. YARP answers each connection
  of an RPC port in its own thread and calls the responders without a lock; the callback of the stream reads one message
  at a time. That YARP does so is trusted.
  For C98 (`Solver/AsibotThreads.lean`): any number of threads in the ASIBOT solver. Each access to the tool is made under
  its mutex and is one step. `KdlTreeSolver` has no mutex, and cannot change its tool either: no property is stated about
  calls of it that overlap, which share the memory of the solvers of KDL.
  For C101 (`Solver/KdlThreads.lean`): any number of threads in the chain solver. What is done with its mutex taken is one
  step. The chain is also read without it: such a read begins with one step and ends with another one, and a write of
  what is read in between is a data race, after which the model says nothing. `KDL::Chain::operator=` is taken to reset
  and count joints and segments anew, `addSegment` to change the segments and to leave the number of joints alone for a
  fixed joint. The forward kinematics that `invDyn` computes without the mutex shares no memory with other calls.

### What is modelled

| Code | Model |
|---|---|
| `ScrewTheoryLib`: `MatrixExponential`, `ProductOfExponentials`, `PadenKahanSubproblems`, `PardosGotorSubproblems`, `ScrewTheoryIkProblem(Builder)`, `ConfigurationSelector*` | all of it |
| `ScrewTheoryLib`: `ChainFkSolverPos_ST`, `ChainIkSolverPos_ST`, `ChainIkSolverPos_ID` | all of it |
| `KinematicRepresentationLib`, `KdlVectorConverterLib`, `YarpTinyMathLib` | all of it |
| `BasicCartesianControl` | all commands, the control loop, parameters, look-ahead; `open` (robot and solver are what their `open` gives; time stamps and log messages left out) |
| `CartesianControlClient`, `CartesianControlServer` | all calls, responders, the publisher, `open` with the names of ports and the connections, `attach`, `detach`, `close`; YARP itself as described in `Net/Names.lean` |
| `KdlSolver`, `KdlTreeSolver` | `appendLink`, `restoreOriginalChain`, `changeOrigin`, `fwdKin`, `poseDiff`, `invKin`, `diffInvKin`; `invDyn` and `open` (configuration) of both; trees of KDL and their solvers (`TreeFkSolverPos_recursive`, `TreeIdSolver_RNE`) as external behaviour in `Kdl/Tree` |
| `AsibotSolver` | all, with its configuration (`Solver/AsibotConfig.lean`) |
| `TrajGen` | all of it |
| `streamingDeviceController` | `configure` with its options and `initialize` of each device (names of ports left out), all three devices, the centroid transform and `update`; one reading of the clock per cycle |
| `haarDetectionController` | `configure`, the message callback, the grasp sequence and interruption; not the opening of ports |
| `ftCompensation` | `configure` after the devices are open, `run`, `interruptModule`; periods are not null |
| `keyboardController` | `configure` with all its options, every typed character, all keys that move the robot and the pose thread (`suspend` does not wait for a `run` in progress), and the numbers printed for joints and pose; the calls that change control modes, the terminal and the other texts are left out |
| `main`, order of the calls in `configure`, `interruptModule`, `close` and destructors of the four programs | `Programs/Lifecycle.lean`: pointers, devices, thread and terminal; signals are taken between two calls; `RFModule` as described there |
| `exampleScrewTheoryTrajectory` | `main` from the first answer of the robot on, and the thread |
| `exampleCartesianControlClient` (C++) | `main` once the device is open; the calls to the controller are taken to arrive |
| `scripts/python/find-reachable-cuboid.py` | all of it, over the reals |
| `scripts/python/kdl-from-csv.py`, `roboview-from-csv.py` | all of it, over the reals, from the rows of `csv.reader` on; `eval`, `float` and `str` of Python are parameters; `'%.15f'` rounds ties up |
| other programs and examples, tests (but for the robots of `testScrewTheory.cpp` and the file of `testKdlSolverFromFile.cpp`), Python bindings, visualisation, plugin registration, log output | nothing |

## 3. Plan per property

Screw theory (real-number geometry; vectors, 3x3 matrices and frames as
structures of reals; proofs by ring identities, `sin^2+cos^2=1`, polar form of
`arg`, induction over lists of screws):

* C01, C02: `asFrame` and `changeBase` as functions; Rodrigues matrix; ring proofs.
* C03-C05: POE as list of screws plus tool frame; induction over the list.
* C06, C07: KDL chain as list of segments; FK as a fold; induction.
* C08-C14: each `solve` transcribed branch by branch, returning a flag and a list of
  `(joint id, value)` lists. Soundness in terms of `asFrame` acting on points.
* C15-C17: `solve`/`recalculateFrames`/`transformPoint` as loops over lists, with
  subproblems as arbitrary functions of a fixed number of solutions.
* C18: end-to-end on top of C08-C17 and C19. The builder's placement of its steps in
  the chain is an invariant of the search (`Screw/BuilderPlaced`). Together with the
  per-step accuracy of C08 and C09 it bounds the error at every point a step settles, and
  three such points that are not in a line bound the error of the whole pose.
* C19, C20: the builder's search as a total function (fuel-free, by well-founded
  recursion on the number of unknown terms and the candidate list).
* C21-C23: selector as a state machine over call histories.
* C24, C25: the two KDL-based IK solver wrappers as state machines.

Representations:

* C26-C31: every branch of the four conversions as total functions on lists of
  reals, with the output vector as explicit in/out argument.
* C32: homogeneous matrices, ring proofs.

Controller:

* C33-C44: the controller as a state machine (`State`, one step per API call or
  control cycle) with devices answering arbitrarily; invariants by induction on
  histories; an interleaving semantics for C42 and C43.

Client and server:

* C45-C51: messages as lists of values (`Bottle`), client encoders, server
  dispatch and handlers, over an arbitrary controller; refinement to direct calls.

Solvers:

* C52-C55: KDL and tree solvers over abstract chains; slices as list operations.
* C56-C59: Asibot closed forms, Jacobians through Mathlib derivatives, 1-DOF
  trajectories as polynomials.

Programs:

* C60-C69: per-cycle functions and state machines over input histories.
* C70: an inductive relation says which request a message stands for; the responder is proved against it.
* C71: a ghost state remembers the last command; invariant over histories of cycles (`Ctrl/Ghost`).
* C72: the commands of a run of cycles are compared with the displacements of the hand, by induction.
* C73: keyboard and pose thread as one system; refinement to a run where each `run` of the thread is atomic.
* C74: bodies are finite sets of point masses that move with the segments; accelerations of each of them
  are second derivatives. The recursion of Newton and Euler is compared with the sum of the virtual works of
  all forces (d'Alembert), by induction on the chain.
* C75: a robot is a list of descriptions (`Desc`), each one placing a frame; the configuration declares it
  (`Robot`). Forward kinematics of what `open` builds is the product of these, by induction on the links.
* C76, C77: the KDL trajectories (`Path_Line`, `VelocityProfile_Trap`, `VelocityProfile_Rectangular`) as functions
  of time; the profile is shown to be twice a squared positive part, its optimality by comparison of
  derivatives; combined with C71 (any history of the loop) and C73 (keyboard).
* C78: on the branch of the search that follows the posture, what each step is asked is the product of the
  exponentials at that posture (induction over the steps, from the account of `solve` in C16); each subproblem
  has that posture among its local solutions by the second half of C08-C14.
* C79: a robot is a list of limbs, each one with the place it is hooked to and its links as in C75; the tree
  that `open` builds is shown to place each limb as described, by induction on limbs and links.
* C80: virtual work as in C74, for a tree: each segment collects the wrenches of those hooked to it, and the
  sum over the segments is taken apart by induction in the order they were added (`Kdl/TreeDynamics`).
* C81: `open` of the controller on a robot and a solver that are arbitrary functions of the options they are given;
  what opens is described in terms of the configuration. Composed with C44 (histories from opening on) and with
  C75 (the opened KDL solver), so that `stat` is read against the configuration.
* C82: controller and chain solver together (`Ctrl/WithKdl.lean`). The solver is a state that each call of the
  controller reads or, for `tool`, changes; the histories of C71 are restricted to the answers it gives. Its chain is
  that of the configuration with the last tool, by induction over the history. Then each command is C71 (what is sent
  after which answer), C23, C54 and C74 (what the answer means), and C75 and C81 (the arm and masses of the
  configuration). The iterative inverse solvers stay arbitrary up to what they promise. With C76, C77 and the round trip
  of poses (C31) the trajectories become lines and velocities of the arm (`Props/Lines.lean`).
* C83: programs in front of the controller (`Programs/Sessions.lean`): the calls made at the start and for each
  message are commands of the histories of C44; the preset and the frame stay set through all streamed commands and
  questions (induction), and every device keeps to the one kind of command it was started with.
* C84: a network of named ports with owners and connections (`Net/Names.lean`), on which `open` of client and server
  act; by induction over histories of opening and closing it is the one given by the list of open devices.
* C85: like C82 with the ASIBOT solver in place of the chain solver (`Ctrl/WithAsibot.lean`), its configuration read
  as `open` does (`Solver/AsibotConfig.lean`); C56-C59 say what its answers mean.
* C86: as C82, with the position solver of screw theory and its state in the device (`Ctrl/WithSt.lean`). Limits follow
  from the checks of the configuration (C21) and from where the controller gets positions from (`Ctrl/Positions.lean`);
  poses from the soundness of solutions (C18) and of the problems that are built (C19), and lines of joint positions
  from both and the trajectory of C76 (`Props/LinesSt.lean`); definedness from the invariant that the
  kept branch is one of the branches of the problem at hand.
* C87: the example program as a function of what the robot answers (`Programs/ScrewTrajectory.lean`): the line from
  C76, configurations from C15 and C21, by induction over the runs of the thread. The problem that the builder makes
  for the arm with the numbers the GNU library draws first is found by the kernel on a copy of the builder over
  the rationals, which is proved to agree with the model over the reals (`Screw/Exact.lean`); C18 then bounds the
  distance of each command from the line.
* C88: the script as written, over the reals (`Programs/ReachableCuboid.lean`). Its three nested searches have the same
  shape and share one definition; the walks along the axes are a relation, as they may not end. Proved by induction on
  the loops, for any set of reachable positions.
* C89: what the search does depends on the points only through the axes that they lie on. A search over such marks
  instead of points (`Screw/Signature.lean`) is proved to follow the builder step by step, for any points of the given
  kinds, in any order (`Screw/SignatureSearch.lean`); all its states are enumerated by the kernel for each robot, with
  the exact coordinates (`Screw/Arms.lean`, `Programs/TestRobots.lean`). Partial: numbers drawn must not put a point
  of an axis on another that crosses it.
* C90: the problem that the builder finds for the two-link arm of `tests/testKdlSolver.cpp` is calculated for every
  sequence of random numbers (`Programs/PlanarArm.lean`); its only step does not tell all postures apart. For any arm:
  C78 (the posture is one of the solutions), C15 (angles within half a turn) and C21 (least displacement) give that the
  own posture is answered. Partial.
* C91: induction over the links from the root: the way back of Newton-Euler on the tree, which starts at the tip, gives the
  torques and the reaction that the recursion of the chain solver gives (`Kdl/OneChain.lean`).
* C92: invariant over all interleavings of the program with the control loop, with a ghost for the stage of the cycle
  (`Ctrl/Consecutive.lean`), induction over the list of poses; two schedules as counterexamples (`Ctrl/Schedules.lean`).
  Partial.
* C93: a text is split into words and the characters between them; induction over the pieces and over the dictionary
  shows that replacing names one after another changes whole words, if no name hides in a longer word that does not come
  before it. A printed number is read back by a separate specification of decimals. Partial: see section 4.
* C94: `configure` with the answers of both devices (`Programs/KeyboardConfigure.lean`): exact condition to start; with
  C64 (limits) for what is typed, induction over the characters for the frame and for devices that are not used, and C26
  for the pose that is printed. Partial: see section 4.
* C95: `configure` with the answers of the outside world (`Programs/StreamingConfigure.lean`), with the calls that change
  the controller as part of the outcome: exact condition to start, and the state it starts with; with C83 for what is
  sent, induction over the cycles for divisions, and C61 for the thresholds. Partial: see section 4.
* C96: the calls of `configure` in their order, with what `interruptModule`, `close` and the destructor depend on
  (`Programs/Lifecycle.lean`): by induction over the calls for any place of failure and any signals; exact moments at
  which a signal is too early. Partial: see section 4.
* C97: the programs of the controller in any number of threads (`Ctrl/Pool.lean`); invariant over all interleavings:
  the object stays stopped, and each thread has a number of motion commands left (one for the loop and for the stream,
  none for the others). Partial: see section 4.
* C98: each call as a tree of accesses to the tool; forward simulation to a solver that does each call at once, for one
  thread that changes the tool beside any number that look once. Partial: see section 4.
* C99: the same threads as C97 beside the two calls of `tool`, answered by the model of the ASIBOT solver; invariant over all
  interleavings: only these two calls change the tool, so it is the old one, none, or the new one.
* C100: every method of the solvers as a program on the vectors of its caller, by address (`Solver/InPlace.lean`); each is
  shown to give what the function of the other models gives for the contents before the call, for all addresses, equal or
  not; the loop of `append` by induction on its passes. Partial: see section 4.
* C101: each call as a tree of reads of the chain without the mutex and of steps with it (`Solver/KdlThreads.lean`);
  forward simulation to a solver that does each call at once, at its step with the mutex; invariant over all
  interleavings for the absence of data races. Partial: see section 4.
* C102: two runs of the model of the force compensation side by side, by induction over the cycles: every step commutes
  with a rotation, since the deadband depends on norms only. Partial: see section 4.
* C103: the base is a fixed first segment of the chain, so that poses, Jacobian and recursive Newton-Euler of both robots
  are compared past it, by induction over the segments; the changes of the tool by induction over the calls. Partial: that
  a position solver answers alike for robot and target moved together is shown of the differential solver
  (`C103_differential_solver`) and a hypothesis of `C103_positions_partial` for the others; velocity solvers are
  characterised as those that choose by the squared miss (`ByMiss`), as KDL's least squares do.
* C104: a relation between the two chains, segment by segment (same pose and twist once the sign is changed), by induction
  over the configuration; poses, Jacobian and recursive Newton-Euler by induction over the relation. Velocity solvers are
  characterised as those that give the shortest of the closest speeds (`Shortest`); such a solver exists
  (`shortest_exists`) and is unique. Partial: of the position solvers, only the differential one.
* C105: the energy is that of point masses (`kinetic`, `potential`). By induction over the chain each place moves smoothly twice,
  and along the virtual displacement that follows the speeds it moves as along the motion; so the virtual work of C74 is
  the rate of the energy. What holds for all later times follows from the mean value theorem. Motions are in the units
  the solver uses inside; linear joints in meters are refuted, as in C74.
* C106: both loops of recursive Newton-Euler at three speeds side by side, by induction over the chain (`rneLoop_mix`);
  for the symmetry, a motion that starts from rest accelerates each mass with its velocity along the accelerations
  (`place_start`), so that the virtual work of C74 is a symmetric sum over the masses.
* C107: a fixed segment without mass at the end of the chain hands its wrench on to the one before, by induction over the
  chain (`rneLoop_lever`); the tools by induction over their list.
* C108: the difference of two virtual works of C74, along the joint speeds; the velocity of the tip there is unique
  (`moves_unique`) and that of the Jacobian.
* C109: as C106, by induction over the segments of a tree (`sweep`, `collect`), over the map of wrenches (`fill`,
  `toBase`), and by the virtual work of C80 for a motion that starts from rest.
* C110: as C105; the velocity of a segment is that of the virtual displacement along the speeds (`sweep_virtual`), so the
  virtual work of C80 is the rate of the energy. Linear joints in meters are refuted by `C80_linear_joint_counterexample`.
* C111: as C108, from C80 twice: the work of the masses is the same for both sets of forces, and the velocity of each
  TCP is unique. Along joint speeds in the units the solver uses inside (`Props/TreeDuality.lean`).

## 4. Where the code and the property disagree

Each disagreement is a theorem about a concrete run of the model (a witness), next to
a theorem for the part of the property that does hold. Names are those in `Props/`.

* **C10** A point that can only get close to the requested distance by turning away from
  the reference (far tangency) gets the opposite angle, reported as a success:
  `C10_pk3_far_tangent_counterexample`.
* **C11** `PardosGotorOne` reports success for every target, reachable or not:
  `C11_pg1_unreachable_counterexample`. **C18** fails for the same reason:
  `C18_reachable_flag_not_sound`. What holds for arms with rotational joints is
  `C18_points_reached_partial` and `C18_pose_reached_partial`.
* **C13** Tangency behind the point loses the sign of the displacement:
  `C13_pg3_tangent_counterexample`.
* **C14** External tangency of both circles answers a wrong sign with success:
  `C14_pg4_tangent_counterexample`.
* **C07** KDL joints with a scale other than one are not preserved (the property is about
  the default scale): `C07_scaled_joint_counterexample`.
* **C15** A problem without subproblems announces no solution and returns one:
  `C15_no_subproblem`.
* **C20** The planarity test compares neighbours only and is not transitive:
  `C20_plane_test_not_transitive`.
* **C22** A smaller set of candidates than the first one is read out of bounds:
  `C22_smaller_set_undefined`.
* **C24** After an update that failed, restoring the chain leaves inverse kinematics failing:
  `C24_restore_fails`.
* **C25** At the target (or wherever the transposed Jacobian annihilates the error) the step
  is 0/0 and every joint is NaN, with code 0: `C25_nan_at_target`.
* **C26** `EULER_YZ` forgets the first angle; **C29** unsupported representations change the output
  and RPY velocities read a short pose out of bounds; **C30** transposed matrices are used as
  inverses for RPY rates, and axis-angle velocities lose information at pi.
* **C33** A motion command that the robot refuses is only logged:
  `C33_refused_command_ignored`.
* **C34** The count of encoder failures survives the movement that it aborted:
  `C34_next_movement_first_failure_aborts`.
* **C35** `movj` to the present position returns true and changes nothing, even in another
  movement; a refused `movl` has already replaced the path of the running one.
* **C36** Periods are truncated to milliseconds (down to zero), a refused group may have changed some keys.
* **C37** `twist` and `wrench` send zeros on failure; the target of `pose` is not checked against limits.
* **C38** A joint with a reference speed that is not positive is sent off at speed zero.
* **C39** A stop, a failure or another `movj` leave the isochronous speeds in force.
* **C40** Limits given by the user are read out of bounds (`open` does not fill both vectors), and a joint
  whose range is one point is not protected.
* **C41** The look-ahead compares displacements (not divided by time) with speeds; with more than six
  joints per end effector it writes outside its buffer.
* **C42** `wait` returns true on timeout, and true for a movement that failed before the first look.
* **C43** The cycle in flight may command a velocity after `stopControl` has returned.
* **C44** `relj`, `movl` and `movv` with too many elements access memory outside of vectors. Vectors that are
  too short are accepted by `movv` and those of any size by `forc`, and reach the solver with the next cycle.
* **C45-C47** Empty vectors and maps are refused or dropped by the server; a lost request or reply is
  heard as success; words in place of numbers become zeros.
* **C48** Before the first message, with a clock that starts at zero, `stat` succeeds with an empty pose.
* **C49** At the transform port velocities and forces are converted as if they were poses, and only the first
  end effector is kept.
* **C50** RPC responders read an unset pointer before `attach`, and keep the old controller after `detach`.
* **C53** Differences smaller than 1e-6 rad are lost in the rotation vector.
* **C54** Prismatic joints are scaled by pi/180.
* **C55** With merged TCPs the blocks of the inverse methods are numbered differently from those of the others.
* **C56** Reversed configurations, vertical and inward hands of ASIBOT are wrong. **C57** Jacobians with a tool
  are wrong unless the rotation of the tool keeps its translation. **C58** Ties and limits beyond half a turn.
* **C59** The velocity check of decreasing trajectories and the acceleration check of cubic ones never refuse;
  velocity and acceleration are not zero after the end.
* **C60** Leap: fixing one rotation fixes all, none is scaled; Wiimote ignores fixed axes; the centroid
  transform moves along fixed axes.
* **C61** Wiimote keeps its speed under a low alert, the Leap is never stopped; an alert covers one cycle only.
* **C62** No stop for the gripper as long as obstacles stay near.
* **C64** Changing from joint to Cartesian keys does not stop the joints, a failed stop is ignored, a negative
  step drives the velocity the wrong way.
* **C65** In pose mode the correction is an absolute pose, motion away from the camera is sent as is, and a
  centred Haar target stops the robot.
* **C66** A sensor that is never ready is accepted; one that becomes ready at the tenth attempt is refused.
* **C67** The displacement in base axes is sent in TCP axes. **C68** Nothing stops the robot when the sensor is lost.
* **C69** Cartesian keyboard velocities have no limit; a failure leaves the program with another velocity than commanded.
* **C70** Texts in the place of coordinates are taken for zeros; the client takes the remark about an unknown command for a success.
* **C71** In the TCP frame `movv` mixes a desired twist in tool axes with a correction in base axes.
* **C72** A negative step makes the forward button of the Wiimote go back; the jumps of C61 hold for the Leap.
* **C73** `suspend` does not wait for a `run` on its way: a pose can be sent after the stop, and
  changing the frame meanwhile makes `run` use a trajectory that does not exist.
* **C74** Linear joints: positions, velocities and accelerations in meters are multiplied by pi/180 as if
  they were degrees: `C74_linear_joint_counterexample`.
* **C75** The same for the positions and limits of linear joints: `C75_slide_counterexample`. A link with an
  unknown joint type is left out and `open` succeeds: `C75_unknown_type_counterexample`. The mass of a link
  without centre of mass or inertia is dropped: `C75_mass_counterexample`. Gravity not given as a list
  reads a null pointer: `C75_gravity_counterexample`. `close` keeps the chain, so opening again appends a
  second copy of the links: `C75_reopen_counterexample`.
* **C76** With several end effectors and too short a duration the movement stops when the first one arrives,
  the others being left on their way: `C76_cut_short`. Displacements shorter than a millionth go along x:
  `C76_tiny_astray`. A negative duration in the configuration is accepted and nothing moves: `C76_negative_duration`.
* **C77** The velocity is zero after ten units of path: `C77_ends`. Velocities above 10 units are scaled down:
  `C77_limited`. Rotations by more than a half turn per second go the other way: `C77_wrong_way`.
* **C78** A joint closer than the tolerance to half a turn is reported as half a turn:
  `C78_near_half_turn_counterexample`.
* **C79** Linear joints as in C75: `C79_slide_counterexample`. A limb whose section is missing is accepted
  as one without links: `C79_missing_section_counterexample`. `close` keeps the tree, so opening the same
  configuration again fails: `C79_reopen_counterexample`.
* **C80** Linear joints as in C74: `C80_linear_joint_counterexample`. A TCP that goes with itself is accepted by
  `open`, and the wrench on it has no effect: `C80_self_merge_counterexample`.
* **C81** Limits that the user gives are used by the solver only; the controller is left with empty lists and its
  first cycle is undefined: `C81_user_limits_undefined`. Limits of positions without those of velocities are ignored:
  `C81_partial_limits_counterexample`. A flag set to false is on: `C81_flag_counterexample`. Values that
  `setParameter` refuses are accepted by `open`: `C81_unchecked_parameters`; a text is read as zero:
  `C81_text_parameter_counterexample`; with a period of zero the first cycle of `movv` divides by it:
  `C81_zero_period_undefined`. A failing `getAxes` is not noticed: `C81_axes_undefined`. A period given as a
  fraction of a millisecond is reported cut to whole ones: `C81_fraction_counterexample`.
* **C83** The face follower does not start with this controller, which refuses `act`: `C83_haar_does_not_start`; it
  sets no preset, so that none of its velocities would be carried out: `C83_haar_never_moves`. A stop by any
  client ends the preset, and the programs go on sending without an effect: `C83_stream_dead_after_stop`. If a joint has
  left the mode, the command to stand still is dropped and the other joints go on: `C83_stop_dropped`.
* **C84** With default names client and server do not find each other: `C84_defaults_counterexample`. A server
  that is closed and opened again is lost for the clients it had: `C84_restart_loses_clients`.
* **C85** While the arm reaches behind its base axis, `stat` reports a wrong orientation
  (`C85_stat_behind_wrong`), even right after a `movj` that went where it was asked to
  (`C85_move_then_stat_counterexample`). Gravity compensation and force control are accepted and then aborted by the
  first cycle (`C85_gcmp_never`, `C85_forc_never`); streamed forces only ever send zero torques (`C85_wrench_zero`).
* **C86** A pose out of reach is accepted and the joints move towards it, since positive return values of the position
  solver are no failure for `invKin`: `C86_unreachable_counterexample`. For an arm whose steps settle only a point, the
  orientation asked for is ignored: `C86_orientation_counterexample`. An arm with inverted joints goes to a mirror
  image of the pose: `C86_inverted_counterexample`. With the strategy for a humanoid leg and an arm that has not
  six joints the controller opens, and the first movement is undefined: `C86_gait_counterexample`. A tool for which
  no problem is found is accepted, and then no movement to a pose works any more, even with the tool taken off:
  `C86_tool_counterexample`.
* **C87** The limits of the joints, in degrees, are compared with radians: limits beyond four degrees are never checked
  (`C87_limits_never_checked`), and unreachable poses are sent all the same. An arm that hangs down stretched is told
  to fold its elbow by half a turn at once (`C87_stretched_counterexample`, see C10). The thread is stopped after the
  duration asked for, even if the speed limit makes the line longer: `C87_cut_short_counterexample`. A robot part with
  more than six axes is undefined behaviour: `C87_more_axes_counterexample`.
* **C88** The cuboid has unreachable points in general: the searches for rectangles and segments start from the best
  cuboid so far (a global variable) instead of from nothing, so that the result always has as many points as a whole
  layer of the outer box (`C88_a_layer`, `C88_unreachable_counterexample`). Cuboids that start at the initial position
  are not considered, and nothing is found if that position is at the lower edge on X: `C88_at_the_edge_counterexample`.
* **C90, C18** For the two-link arm of `tests/testKdlSolver.cpp` the builder always finds one Pardos-Gotor 4 step whose
  test point is on the first axis. Asked for the pose of (0°, 90°) from (-90°, -90°) it answers (-90°, -90°) with code 0,
  two metres away: `C90_success_at_other_pose_counterexample`, `C18_planar_arm_counterexample`. With the second joint at
  zero the step does not see the first joint: `C90_stretched_counterexample`. The tests `InvKin1` and `InvKin2` assert
  what rounding makes of this case; `InvKin1` asserts (90°, 0°) for the pose that `FwdKin1` gives for (0°, 0°).
* **C91** Without `numLinks` the chain device takes one link and the tree device none: `C91_uncounted`.
* **C92** The control loop declares the movement over before it has done its last calls for it (`handleMovj` sets the
  state before it restores the reference speeds, `stopControl` before it stops the robot), so `wait` can return in
  between. A program that then orders the next movement has the speeds of this one overwritten, and the original ones
  are lost (`C92_late_speeds`), or has this one stopped (`C92_late_stop`); it ends as if all poses had been reached.
* **C93** Names are replaced by `str.replace` in the order of the file, also inside longer names: with `l1` before `l10`
  the cell `l10` is evaluated as the length of `l1` followed by a zero (`C93_longer_names`). Joints above 27 are not known
  and `q28` becomes `0.08` (`C93_joint_28`).
* **C94** The answers of the conversion and of the encoders are not looked at before printing. With `polarAzimuth`, a pose
  whose rotation axis has a component along z is printed as a rotation vector in radians under the label
  `degrees (polarAzimuth)` (`C94_polar_prints_radians`); a robot that does not answer is shown with all joints at zero
  (`C94_no_encoders_shows_zeros`). The period of the thread is taken as given, also zero or negative
  (`C94_period_unchecked`).
* **C95** Options are checked after the controller has been changed: a start that is refused for an option of the camera
  leaves the frame and the kind of command changed (`C95_refused_too_late`). `leapFrameRPY` that is not a list is a null
  pointer that is followed, and a list of the wrong length is ignored (`C95_leap_frame_unchecked`). A scaling of zero is
  accepted (`C95_scaling_unchecked`). Thresholds are kept as whole numbers (`C95_threshold_cut`). With poses and a
  controller that cannot tell where the robot is, the first pose is close to the origin (`C95_pose_assumed`).
* **C96** A refused start answers 0 in the keyboard controller and the streaming device controller
  (`C96_refused_answers_zero`). Without a network, the latter deletes a pointer that has no value (`C96_no_network`). A
  signal that comes while a program is starting follows a pointer that has no value yet, in all four programs
  (`C96_signal_while_starting`, `C96_early_moments`), and one that comes after `close` one of a closed device, in three
  of them (`C96_late_signal`). After the keyboard controller the terminal stays non-blocking (`C96_terminal_partial`); a
  signal before the terminal was set up zeroes its settings (`C96_terminal_zeroed`).
* **C97** Another client's joint movement that was being prepared starts after the stop has been answered
  (`C97_stopped_then_moved`), and a streamed velocity in progress is sent to the joints after it
  (`C97_streamed_after_stop`).
* **C98** Of two tools attached at the same time one is lost, though both calls succeed (`C98_tool_lost`): the mutex is
  given back between reading the tool and writing it. A pose in the frame of the tool is answered with two different tools
  if one is attached meanwhile, and is refused though it can be reached with either (`C98_unreachable_halfway`).
* **C99** `tool` takes the old tool off before it puts the new one on, so another client may be given the pose of the bare
  hand though both tools are the same (`C99_bare_halfway`). It does not look at the state either: during a `movl` the path
  planned for the old tip is followed with the new one, and a robot at rest is suddenly ordered to move
  (`C99_line_jumps`).
* **C100** `changeOrigin` and `poseDiff` of the tree solver clear the result before they read the arguments: with the
  same vector, they read past its end (`C100_tree_frames_undefined`), where the other solvers give the right answer.
  `fwdKin` of the tree solver changes the result also when it fails (`C100_tree_fwdKin_failure`). A product of
  exponentials appended to itself grows forever (`C100_append_itself_never_ends`). `diffInvKin` of the ASIBOT solver
  copies a request of more than six elements past the end of a vector (`C100_asibot_long_velocity_undefined`).
* **C101** The chain solver has a mutex, but counts joints and segments without it: taking the tools off races with any
  other call (`C101_restore_races`), attaching one with inverse dynamics (`C101_attach_races`). Without a race, torques
  asked for while a tool is attached may be refused (`C101_torques_refused`), since the list of wrenches has the length of
  the chain before; and a wrench in the frame of the base may be turned into the axes of one tool and applied to another,
  which gives the opposite of the right torque (`C101_wrench_of_two_tools`).
* **C102** With impedance the movement depends on how the axes of the TCP are chosen, up to its sign
  (`C102_impedance_counterexample`), for the reason given for C67.

## 5. Seeded bugs

`seeded/LOG.jsonl` has one line per deliberate error put into a scratch copy of the model: the definition,
the edit, the claim that it breaks, what no longer builds, and the theorems that had to be tightened because they
survived. How to read it:

* `theorems_failed` are property theorems, and `lemmas_failed` other declarations, whose own proofs were seen to fail.
* A build stops at the first modules that fail. When that is a lemma, the property theorems above it were not checked
  again. `theorems_depending_on_those_lemmas` are those whose proofs use it in the present sources. They are inferred,
  not observed: a lemma may fail where the property still holds. About half of the lines are of this kind only.
* `properties` are those of both lists.
* A `note` tells of edits that no theorem noticed, that only an example noticed, or that did not compile.
* Edits with an empty `claim` were made by a script, not chosen to break a given claim.
