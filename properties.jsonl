{"id": "C01", "title": "Joint screws are one-parameter rigid motions", "statement": "For every screw built by MatrixExponential(motion, axis, origin), asFrame(theta) is a rigid motion (orthonormal rotation of determinant 1), asFrame(0) is the identity, asFrame(a)*asFrame(b) = asFrame(a+b), asFrame(-a) is the inverse of asFrame(a), and a ROTATION screw leaves every point of its axis line fixed.", "quantifier": "all axes (including near-zero ones), all origins, both motion types, all magnitudes a, b", "why_tests_cant": "A group law over a continuum of axes, points and angles; samples only show it at the sampled values.", "anchors": ["libraries/ScrewTheoryLib/MatrixExponential.cpp: MatrixExponential, asFrame"]}
{"id": "C02", "title": "Change of base of a screw is conjugation", "statement": "Re-expressing a screw in another base frame (cloneWithBase/changeBase) conjugates its motion: the new screw evaluated at theta equals H * old(theta) * H^-1, for every rigid H.", "quantifier": "all screws, all rigid transforms H, all magnitudes", "why_tests_cant": "Holds or fails for a continuum of rigid transforms and screws.", "anchors": ["libraries/ScrewTheoryLib/MatrixExponential.cpp: changeBase, cloneWithBase"]}
{"id": "C03", "title": "POE evaluation is the ordered product of its terms, and rejects wrong sizes", "statement": "evaluate(q, H) returns false when q does not have one value per term; otherwise it returns true and H is term_1(q_1)*...*term_n(q_n)*H_S_T, a rigid motion whenever the tool transform is rigid.", "quantifier": "POEs of every length, all joint arrays of every size", "why_tests_cant": "Unbounded number of terms and continuous joint values.", "anchors": ["libraries/ScrewTheoryLib/ProductOfExponentials.cpp: PoeExpression::evaluate"]}
{"id": "C04", "title": "POE composition matches composition of forward kinematics", "statement": "Appending a POE to another (with an optional new transform) yields a POE whose forward kinematics on the concatenated joint values is the composition of both; changeBaseFrame premultiplies the forward kinematics by the new base, changeToolFrame postmultiplies it by the new tool.", "quantifier": "all POEs of every length, all rigid frames, all joint arrays", "why_tests_cant": "Law over unbounded lists of screws and continuous values.", "anchors": ["libraries/ScrewTheoryLib/ProductOfExponentials.cpp: append, changeBaseFrame, evaluate", "libraries/ScrewTheoryLib/ProductOfExponentials.hpp: append, changeToolFrame, cloneWithBase"]}
{"id": "C05", "title": "Reversing a POE inverts its forward kinematics", "statement": "The reversed POE, evaluated on the negated and reversed joint values, gives the inverse of the original forward kinematics; makeReverse() agrees with reverseSelf() on a copy; reversing twice is the identity on forward kinematics.", "quantifier": "all POEs of every length with a rigid tool frame, all joint arrays", "why_tests_cant": "Law over unbounded lists of screws and continuous values.", "anchors": ["libraries/ScrewTheoryLib/ProductOfExponentials.cpp: reverseSelf, makeReverse"]}
{"id": "C06", "title": "POE to chain conversion preserves forward kinematics", "statement": "toChain() produces a KDL chain whose forward kinematics equals evaluate() for every joint array, and the chain has one joint per POE term.", "quantifier": "all non-empty POEs whose screws have unit axes and a rigid tool frame, all joint arrays", "why_tests_cant": "Unbounded chain lengths, continuous geometry.", "anchors": ["libraries/ScrewTheoryLib/ProductOfExponentials.cpp: PoeExpression::toChain"]}
{"id": "C07", "title": "Chain to POE conversion preserves forward kinematics", "statement": "fromChain(chain) produces a POE with one term per movable joint of the chain whose evaluate() equals the chain's forward kinematics, including fixed joints, joint offsets and tool segments; ChainFkSolverPos_ST therefore agrees with recursive KDL FK.", "quantifier": "all chains of every length mixing fixed, rotational and translational joints about arbitrary unit axes, all joint arrays", "why_tests_cant": "Unbounded chain lengths, continuous geometry.", "anchors": ["libraries/ScrewTheoryLib/ProductOfExponentials.cpp: PoeExpression::fromChain", "libraries/YarpPlugins/KdlSolver/ChainFkSolverPos_ST.cpp: JntToCart"]}
{"id": "C08", "title": "Paden-Kahan 1 solves rotation about one axis", "statement": "When the subproblem reports success for points that some rotation about the axis maps onto one another, the reported angle maps one onto the other; the angle always lies in (-pi, pi]; and it reports success exactly when both projections onto the axis and both distances to it agree within the tolerance.", "quantifier": "all unit axes, origins, points, right-hand-side frames and point transforms", "why_tests_cant": "Continuum of geometric configurations including points on the axis.", "anchors": ["libraries/ScrewTheoryLib/PadenKahanSubproblems.cpp: PadenKahanOne::solve"]}
{"id": "C09", "title": "Paden-Kahan 2 solves two rotations about crossing axes", "statement": "For two non-parallel axes that meet, whenever the two circles properly intersect the subproblem reports success and both reported angle pairs (theta1, theta2) satisfy e1(theta1) e2(theta2) f = k; when the circles do not meet it reports failure but still yields two pairs.", "quantifier": "all pairs of crossing non-parallel unit axes, all points reachable by some pair of angles", "why_tests_cant": "Continuum of geometric configurations; both branches of the quadratic have to be right for every one.", "anchors": ["libraries/ScrewTheoryLib/PadenKahanSubproblems.cpp: PadenKahanTwo::solve"]}
{"id": "C10", "title": "Paden-Kahan 3 solves rotation to a given distance", "statement": "Whenever the target distance is attained by exactly two rotations, both reported angles bring the point to the requested distance from the reference point; in the tangent cases the single angle reported with success also attains that distance.", "quantifier": "all unit axes, origins, pairs of points off the axis, all distances", "why_tests_cant": "Continuum of geometric configurations, including the two tangent cases (nearest and farthest).", "anchors": ["libraries/ScrewTheoryLib/PadenKahanSubproblems.cpp: PadenKahanThree::solve"]}
{"id": "C11", "title": "Pardos-Gotor 1 solves translation along one axis", "statement": "If the target point differs from the start point by a translation along the axis, the reported displacement translates one onto the other; success is reported only for such reachable targets.", "quantifier": "all unit axes, all pairs of points", "why_tests_cant": "Continuum of inputs; unreachable targets are exactly the ones samples tend to skip.", "anchors": ["libraries/ScrewTheoryLib/PardosGotorSubproblems.cpp: PardosGotorOne::solve"]}
{"id": "C12", "title": "Pardos-Gotor 2 solves translation along two axes", "statement": "For two non-parallel translation axes and a target in their plane, the two reported displacements carry the start point onto the target.", "quantifier": "all pairs of non-parallel unit axes, all start points, all targets reachable by some pair of displacements", "why_tests_cant": "Continuum of inputs and a sign decision that depends on an exact comparison of a dot product with a product of norms.", "anchors": ["libraries/ScrewTheoryLib/PardosGotorSubproblems.cpp: PardosGotorTwo::solve"]}
{"id": "C13", "title": "Pardos-Gotor 3 solves translation to a given distance", "statement": "Both reported displacements bring the point to the requested distance from the reference point whenever success is reported.", "quantifier": "all unit axes, all points, all distances", "why_tests_cant": "Continuum of inputs, including tangency with a negative projection.", "anchors": ["libraries/ScrewTheoryLib/PardosGotorSubproblems.cpp: PardosGotorThree::solve"]}
{"id": "C14", "title": "Pardos-Gotor 4 solves rotation about two parallel axes", "statement": "For two distinct parallel axes, whenever the two circles properly intersect both reported angle pairs carry the start point onto the target and success is reported.", "quantifier": "all pairs of distinct parallel unit axes, all points in the same normal plane", "why_tests_cant": "Continuum of inputs, two branches plus tangency.", "anchors": ["libraries/ScrewTheoryLib/PardosGotorSubproblems.cpp: PardosGotorFour::solve"]}
{"id": "C15", "title": "IK always yields the announced number of solutions", "statement": "For a problem with at least one subproblem, solve() returns exactly solutions() joint arrays, each with one value per POE term, whatever the target pose and whatever the output vector contained before; the count is the product of the subproblems' counts.", "quantifier": "all sequences of subproblems of every length, all targets, reachable or not, all previous contents of the output vector", "why_tests_cant": "Unbounded number of steps with multiplicative growth of the solution vector by in-place resizing.", "anchors": ["libraries/ScrewTheoryLib/ScrewTheoryIkProblem.cpp: solve, computeSolutions", "libraries/ScrewTheoryLib/ScrewTheoryIkProblem.hpp: solutions"]}
{"id": "C16", "title": "Every IK solution combines one local choice per step", "statement": "In every returned joint array, each joint handled by some subproblem carries a value that this subproblem produced for the values assigned by the earlier subproblems in the same array; all combinations of local choices appear; joints never written stay zero. With a reversed problem the values are negated and stored at mirrored positions.", "quantifier": "all sequences of subproblems with valid joint ids, all targets, both reversed and direct problems", "why_tests_cant": "Unbounded sequences; the index arithmetic j + previousSize*k has to be right for every combination.", "anchors": ["libraries/ScrewTheoryLib/ScrewTheoryIkProblem.cpp: solve"]}
{"id": "C17", "title": "Known terms are moved across the POE equation soundly", "statement": "While solving, moving already solved leading and trailing terms to the right-hand side preserves the equation: the terms not yet moved multiply to the current right-hand side iff the full product of exponentials reaches the target.", "quantifier": "all POEs of every length, all patterns of solved joints, all joint values", "why_tests_cant": "Unbounded lists and every order in which joints can become known.", "anchors": ["libraries/ScrewTheoryLib/ScrewTheoryIkProblem.cpp: recalculateFrames"]}
{"id": "C18", "title": "IK solutions reach the target", "statement": "If solve() reports that the target is reachable, forward kinematics of every returned joint array is the requested pose.", "quantifier": "all problems produced by the builder, all target poses", "why_tests_cant": "Continuum of poses and unbounded combinations of subproblems.", "anchors": ["libraries/ScrewTheoryLib/ScrewTheoryIkProblem.cpp: solve", "libraries/ScrewTheoryLib/ScrewTheoryIkProblemBuilder.cpp: build"]}
{"id": "C19", "title": "The IK builder terminates and covers every joint exactly once", "statement": "build() always terminates; when it returns a problem, the joint ids of its subproblems are a permutation of the POE's joints (no joint is solved twice and none is left out); otherwise it returns null.", "quantifier": "all POEs of every length and geometry", "why_tests_cant": "Backtracking search over points and simplification depths on arbitrary geometry.", "anchors": ["libraries/ScrewTheoryLib/ScrewTheoryIkProblemBuilder.cpp: build, searchSolutions, trySolve, refreshSimplificationState"]}
{"id": "C20", "title": "Builder simplifications preserve the characteristic equation", "statement": "A term dropped while looking for a subproblem does not alter the equation for the chosen characteristic points: trailing rotations whose axis holds the point, leading rotations in a distance equation whose axis holds the reference point, and leading rotations in a plane equation whose axes are all normal to that plane.", "quantifier": "all POEs, all test points, all joint values of the dropped terms", "why_tests_cant": "Continuum of geometry; the dropped terms range over unbounded runs.", "anchors": ["libraries/ScrewTheoryLib/ScrewTheoryIkProblemBuilder.cpp: simplify, simplifyWithPadenKahanOne, simplifyWithPadenKahanThree, simplifyWithPardosOne"]}
{"id": "C21", "title": "Configuration selection respects joint limits and is optimal the first time", "statement": "On the first successful selection the chosen configuration is within the joint limits (with tolerance epsilon) and no other configuration within limits has a smaller sum of absolute joint displacements from the guess (ties go to the lowest index); selection fails iff no configuration is within limits.", "quantifier": "all non-empty sets of candidate solutions of every size, all limits, all guesses", "why_tests_cant": "Unbounded number of candidates and joints.", "anchors": ["libraries/ScrewTheoryLib/ConfigurationSelector.cpp: configure, validate", "libraries/ScrewTheoryLib/ConfigurationSelectorLeastOverallAngularDisplacement.cpp: findOptimalConfiguration"]}
{"id": "C22", "title": "Configuration selection sticks to its first choice", "statement": "After the first success every later selection either returns the candidate with the same index or fails; it never silently switches to another configuration, and never returns joint values out of limits.", "quantifier": "all histories of configure/findOptimalConfiguration calls with candidate sets of constant size", "why_tests_cant": "Property of unbounded call histories.", "anchors": ["libraries/ScrewTheoryLib/ConfigurationSelectorLeastOverallAngularDisplacement.cpp: findOptimalConfiguration"]}
{"id": "C23", "title": "Humanoid gait selection never returns a non-human-like pose", "statement": "A configuration selected by the humanoid gait strategy has hip and ankle joints within +-90 degrees and a non-negative knee, in addition to being within joint limits; the factory refuses anything that does not have six joints and selection refuses guesses of another size.", "quantifier": "all candidate sets, all guesses, all call histories", "why_tests_cant": "Unbounded candidates and histories.", "anchors": ["libraries/ScrewTheoryLib/ConfigurationSelectorHumanoidGait.cpp: findOptimalConfiguration, applyConstraints", "libraries/ScrewTheoryLib/ConfigurationSelector.hpp: ConfigurationSelectorHumanoidGaitFactory"]}
{"id": "C24", "title": "Screw-theory IK solver contract", "statement": "CartToJnt of the screw-theory solver outputs joint values within limits whenever it does not report an error, keeps the output untouched otherwise, and restoring the original kinematic chain restores the original behaviour after any tool change.", "quantifier": "all histories of CartToJnt/updateInternalDataStructures calls on arbitrary chains", "why_tests_cant": "Histories of chain updates, including the ones whose IK cannot be solved.", "anchors": ["libraries/YarpPlugins/KdlSolver/ChainIkSolverPos_ST.cpp: CartToJnt, updateInternalDataStructures"]}
{"id": "C25", "title": "Infinitesimal-displacement IK solver stays within joint limits", "statement": "The one-step Jacobian-transpose solver returns, whenever it reports success, finite joint values inside [qMin, qMax] for every joint, whatever the target and the initial guess.", "quantifier": "all chains, guesses, targets and limits with qMin <= qMax", "why_tests_cant": "Continuum of inputs, including the target being already reached (zero error).", "anchors": ["libraries/YarpPlugins/KdlSolver/ChainIkSolverPos_ID.cpp: CartToJnt, computeDiffInvKin"]}
{"id": "C26", "title": "Pose encoding followed by decoding returns the same pose", "statement": "For every coordinate system, orientation system and angular unit, encodePose and decodePose are inverse to each other: decoding and then re-encoding a pose gives the same rigid transform, and a decoded pose has canonical angle ranges.", "quantifier": "all poses (six reals), all 3 x 6 x 2 combinations of representations accepted by the functions", "why_tests_cant": "Continuum of poses, with singular configurations in each representation.", "anchors": ["libraries/KinematicRepresentationLib/KinematicRepresentation.cpp: encodePose, decodePose"]}
{"id": "C27", "title": "In-place conversion equals out-of-place conversion", "statement": "encodePose/decodePose/encodeVelocity/decodeVelocity called with the same vector as input and output give the same result as with distinct vectors.", "quantifier": "all inputs of admissible size, all combinations of representations", "why_tests_cant": "Aliasing hazards depend on the order of every read and write along each branch.", "anchors": ["libraries/KinematicRepresentationLib/KinematicRepresentation.cpp: encodePose, decodePose, encodeVelocity, decodeVelocity"]}
{"id": "C28", "title": "Angular units only scale the angles", "statement": "Asking for degrees gives the same result as asking for radians with the angles converted, for encoding and decoding; scaled axis-angle vectors are scaled in all three components.", "quantifier": "all inputs and all combinations of representations", "why_tests_cant": "Continuum of inputs, per-branch unit handling.", "anchors": ["libraries/KinematicRepresentationLib/KinematicRepresentation.cpp: encodePose, decodePose, degToRad, radToDeg"]}
{"id": "C29", "title": "Conversions reject malformed input and never touch the output then", "statement": "A pose/velocity vector that is too short for the requested representation makes the conversion return false, and the output vector keeps its previous contents whenever false is returned.", "quantifier": "all input vectors of all sizes, all combinations of representations", "why_tests_cant": "Unbounded sizes; each branch must check before it writes.", "anchors": ["libraries/KinematicRepresentationLib/KinematicRepresentation.cpp: checkVectorSize, encodePose, decodePose, encodeVelocity, decodeVelocity"]}
{"id": "C30", "title": "Velocity encoding and decoding are inverse", "statement": "decodeVelocity undoes encodeVelocity at the same pose, for every representation both functions accept.", "quantifier": "all poses, all velocities, all supported representation pairs", "why_tests_cant": "Continuum of poses; the mapping matrix is only orthogonal on a measure-zero set of poses.", "anchors": ["libraries/KinematicRepresentationLib/KinematicRepresentation.cpp: encodeVelocity, decodeVelocity"]}
{"id": "C31", "title": "Vector/KDL converters round-trip", "statement": "A twist or wrench survives conversion to a 6-vector and back, and a 6-vector survives the opposite trip; a rigid frame survives frame->vector->frame; vectors whose size is not 6 convert to the identity/zero.", "quantifier": "all vectors of all sizes, all twists/wrenches, all rigid frames", "why_tests_cant": "Continuum, including rotations by 0 and pi.", "anchors": ["libraries/KdlVectorConverterLib/KdlVectorConverter.cpp: vectorToFrame, frameToVector, vectorToTwist, twistToVector, vectorToWrench, wrenchToVector"]}
{"id": "C32", "title": "Tiny math builders produce rigid transforms that agree with each other", "statement": "rotX/rotY/rotZ/eulerZYZtoH/eulerYZtoH yield rotation matrices (orthonormal, determinant 1), add angles about a common axis, and agree with axisAngleToH about the corresponding unit axis; axisAngleToH is a rotation for every unit axis.", "quantifier": "all angles, all unit axes", "why_tests_cant": "Continuum of angles.", "anchors": ["libraries/YarpTinyMathLib/YarpTinyMath.cpp: rotX, rotY, rotZ, eulerZYZtoH, eulerYZtoH, axisAngleToH"]}
{"id": "C33", "title": "A failing movement always ends in the stopped state and is reported by wait", "statement": "If any cycle of the control loop fails during a point-to-point or linear movement, the controller stops the robot, leaves the controlling state, and the success flag reported by a pending wait() is false.", "quantifier": "all device responses in every cycle, all movement kinds, all histories", "why_tests_cant": "Every failure point of the loop and every history of commands.", "anchors": ["libraries/YarpPlugins/BasicCartesianControl/PeriodicThreadImpl.cpp: run, handleMovj, handleMovlVel, handleMovlPosd, handleMovv, handleGcmp, handleForc", "libraries/YarpPlugins/BasicCartesianControl/BasicCartesianControl.hpp: StateWatcher"]}
{"id": "C34", "title": "A bounded number of encoder failures is tolerated", "statement": "During a movement up to 20 consecutive encoder read failures are skipped without any command being sent, the following one aborts the movement, and any successful read resets the count.", "quantifier": "all sequences of encoder successes and failures of every length, across movements", "why_tests_cant": "Unbounded sequences and histories across several movements.", "anchors": ["libraries/YarpPlugins/BasicCartesianControl/PeriodicThreadImpl.cpp: run, MAX_ENCODER_ERRORS"]}
{"id": "C35", "title": "Movement commands leave a consistent controller state", "statement": "Each movement command (movj, relj, movl, movv, gcmp, forc) either returns false and leaves the controller state as it was before, or returns true with the controller in the state that corresponds to the movement and all joints in the control mode it needs.", "quantifier": "all histories of commands, all device responses, all inputs", "why_tests_cant": "Unbounded histories and every failure point of each command.", "anchors": ["libraries/YarpPlugins/BasicCartesianControl/ICartesianControlImpl.cpp: movj, relj, movl, movv, gcmp, forc, stopControl", "libraries/YarpPlugins/BasicCartesianControl/BasicCartesianControl.cpp: setControlModes"]}
{"id": "C36", "title": "Controller parameters are frozen while controlling", "statement": "setParameter/setParameters never change any parameter and return false while a movement is in progress; otherwise a successful setParameter makes getParameter return the stored value until the next successful set of the same key.", "quantifier": "all histories of commands and parameter calls, all keys and values", "why_tests_cant": "Unbounded histories, continuous values.", "anchors": ["libraries/YarpPlugins/BasicCartesianControl/ICartesianControlImpl.cpp: setParameter, getParameter, setParameters, getParameters"]}
{"id": "C37", "title": "Streaming commands act only under their preset", "statement": "pose/twist/wrench send a motion command only if the streaming command they need is active, joint limits and velocity limits hold and the solver succeeds; otherwise nothing reaches the motors.", "quantifier": "all inputs, all controller histories, all solver and device responses", "why_tests_cant": "Unbounded histories and every failure point.", "anchors": ["libraries/YarpPlugins/BasicCartesianControl/ICartesianControlImpl.cpp: pose, twist, wrench", "libraries/YarpPlugins/BasicCartesianControl/BasicCartesianControl.cpp: presetStreamingCommand, checkJointLimits, checkJointVelocities"]}
{"id": "C38", "title": "Joint movements are isochronous and never exceed reference speeds", "statement": "The speeds computed for movj make every moving joint take the same time to reach its target, and no joint gets a speed above its configured reference speed; joints that do not move get zero speed.", "quantifier": "all numbers of joints, all current and target positions, all reference speeds", "why_tests_cant": "Unbounded joints and continuous positions.", "anchors": ["libraries/YarpPlugins/BasicCartesianControl/BasicCartesianControl.cpp: computeIsocronousSpeeds"]}
{"id": "C39", "title": "movj restores the previous reference speeds", "statement": "After a joint movement ends, for whatever reason, the reference speeds of all joints are those that were in force before it was commanded.", "quantifier": "all histories of commands and loop cycles", "why_tests_cant": "Unbounded histories: overlapping and aborted movements.", "anchors": ["libraries/YarpPlugins/BasicCartesianControl/ICartesianControlImpl.cpp: movj", "libraries/YarpPlugins/BasicCartesianControl/PeriodicThreadImpl.cpp: handleMovj"]}
{"id": "C40", "title": "Joint limit checks are conservative", "statement": "A velocity command is sent only if every joint is strictly inside its range (minus tolerance), or moves away from the limit it is at; the checks never read outside the configured limits and are defined for every valid configuration.", "quantifier": "all joint configurations, limits, velocities and configurations of the device", "why_tests_cant": "Continuum of values and all device configurations.", "anchors": ["libraries/YarpPlugins/BasicCartesianControl/BasicCartesianControl.cpp: checkJointLimits, checkJointVelocities", "libraries/YarpPlugins/BasicCartesianControl/DeviceDriverImpl.cpp: open"]}
{"id": "C41", "title": "Linear movements are checked beforehand for limits along the path", "statement": "movl accepts a trajectory only if, at every sampled point of the look-ahead, inverse kinematics exists, joint limits hold and joint velocities stay within limits.", "quantifier": "all trajectories, all solver responses, all sampling counts", "why_tests_cant": "Unbounded number of samples.", "anchors": ["libraries/YarpPlugins/BasicCartesianControl/BasicCartesianControl.cpp: doFailFastChecks", "libraries/YarpPlugins/BasicCartesianControl/ICartesianControlImpl.cpp: movl"]}
{"id": "C42", "title": "wait reports the outcome of the movement it waited for", "statement": "wait(timeout) returns true only if the awaited movement finished successfully; it returns false if it failed, and stops the robot if the timeout expires.", "quantifier": "all interleavings of the waiting thread with the control loop and other clients, all timeouts", "why_tests_cant": "Schedules and timing.", "anchors": ["libraries/YarpPlugins/BasicCartesianControl/ICartesianControlImpl.cpp: wait"]}
{"id": "C43", "title": "stopControl is final", "statement": "Once stopControl() has returned and no other command is issued, no further motion command is sent to the robot by the control loop.", "quantifier": "all interleavings of stopControl with a running control cycle", "why_tests_cant": "Schedules: the control cycle may be in the middle of its work.", "anchors": ["libraries/YarpPlugins/BasicCartesianControl/ICartesianControlImpl.cpp: stopControl", "libraries/YarpPlugins/BasicCartesianControl/PeriodicThreadImpl.cpp: run"]}
{"id": "C44", "title": "Caller-supplied vectors of any size are handled safely", "statement": "No command (relj, movl, movv, forc, ...) accesses memory outside the vectors supplied by the caller, whatever their size.", "quantifier": "all vector sizes, all numbers of TCPs and joints", "why_tests_cant": "Unbounded sizes; out-of-range reads may go unnoticed when tested.", "anchors": ["libraries/YarpPlugins/BasicCartesianControl/ICartesianControlImpl.cpp: relj, movl, movv, forc, pose, twist", "libraries/YarpPlugins/BasicCartesianControl/BasicCartesianControl.cpp: doFailFastChecks"]}
{"id": "C45", "title": "Remote calls behave like local calls", "statement": "Every ICartesianControl call made through the client and served by the server has the same effect on the controller and the same results as calling the controller directly.", "quantifier": "all methods, all arguments of all sizes, all controllers (arbitrary state machine behind the server)", "why_tests_cant": "Arbitrary controllers and unbounded vectors.", "anchors": ["libraries/YarpPlugins/CartesianControlClient/ICartesianControlImpl.cpp", "libraries/YarpPlugins/CartesianControlServer/RpcResponder.cpp: respond and handlers"]}
{"id": "C46", "title": "A remote call that was not served is reported as failure", "statement": "If the request does not reach the server or the server rejects it, the client method returns false.", "quantifier": "all methods, all arguments, all network outcomes", "why_tests_cant": "Crash/disconnection can happen at any call.", "anchors": ["libraries/YarpPlugins/CartesianControlClient/ICartesianControlImpl.cpp: checkSuccess, handleRpcRunnableCmd, handleRpcConsumerCmd, handleRpcFunctionCmd", "libraries/YarpPlugins/CartesianControlServer/RpcResponder.cpp: respond"]}
{"id": "C47", "title": "Streamed commands reach the controller unchanged", "statement": "A pose/twist/wrench streamed by the client makes the server call the same method on the controller with the same vector; malformed messages cause no call.", "quantifier": "all vectors of all sizes, all messages", "why_tests_cant": "Unbounded message contents.", "anchors": ["libraries/YarpPlugins/CartesianControlClient/ICartesianControlImpl.cpp: pose, twist, wrench", "libraries/YarpPlugins/CartesianControlServer/StreamResponder.cpp: onRead"]}
{"id": "C48", "title": "Published state is fresh and consistent", "statement": "stat() through the streaming port returns the pose, state and timestamp of one and the same published message, the most recent one received, and fails if no message arrived within the timeout.", "quantifier": "all sequences of messages and queries, all arrival times", "why_tests_cant": "Unbounded histories of arrivals and queries.", "anchors": ["libraries/YarpPlugins/CartesianControlClient/FkStreamResponder.cpp: onRead, getLastStatData", "libraries/YarpPlugins/CartesianControlClient/ICartesianControlImpl.cpp: stat", "libraries/YarpPlugins/CartesianControlServer/PeriodicThreadImpl.cpp: run"]}
{"id": "C49", "title": "Coordinate transformation at the RPC port is transparent", "statement": "On the transformed RPC port, poses are converted with encodePose on the way in and decodePose on the way out, so that a client using that representation observes the same controller as through the plain port.", "quantifier": "all representations, all poses, all commands", "why_tests_cant": "Continuum of poses, every command.", "anchors": ["libraries/YarpPlugins/CartesianControlServer/RpcResponder.cpp: transformIncomingData, transformOutgoingData", "libraries/YarpPlugins/CartesianControlServer/DeviceDriverImpl.cpp: open"]}
{"id": "C50", "title": "The server never uses a controller that is not attached", "statement": "Requests served before a controller is attached or after it is detached fail without touching any controller.", "quantifier": "all histories of open/attach/detach and requests, all configurations", "why_tests_cant": "Histories, configuration-dependent initialisation.", "anchors": ["libraries/YarpPlugins/CartesianControlServer/IWrapperImpl.cpp: attach, detach, configureHandle", "libraries/YarpPlugins/CartesianControlServer/DeviceDriverImpl.cpp: open", "libraries/YarpPlugins/CartesianControlServer/CartesianControlServer.hpp: RpcResponder, StreamResponder"]}
{"id": "C51", "title": "Parameter groups survive the remote trip", "statement": "setParameters/getParameters through the network transfer the same key/value map; keys are preserved and each key has the value given.", "quantifier": "all parameter maps of all sizes", "why_tests_cant": "Unbounded maps with mixed value encodings.", "anchors": ["libraries/YarpPlugins/CartesianControlClient/ICartesianControlImpl.cpp: setParameters, getParameters", "libraries/YarpPlugins/CartesianControlServer/RpcResponder.cpp: handleParameterSetterGroup, handleParameterGetterGroup"]}
{"id": "C52", "title": "Tool changes compose and can be undone", "statement": "appendLink postmultiplies forward kinematics by the given pose, successive calls compose in order, restoreOriginalChain undoes any number of them, and neither changes the number of joints.", "quantifier": "all chains, all sequences of appended poses", "why_tests_cant": "Unbounded histories of tool changes.", "anchors": ["libraries/YarpPlugins/KdlSolver/ICartesianSolverImpl.cpp: appendLink, restoreOriginalChain, fwdKin", "libraries/YarpPlugins/AsibotSolver/ICartesianSolverImpl.cpp: appendLink, restoreOriginalChain"]}
{"id": "C53", "title": "changeOrigin and poseDiff obey frame algebra", "statement": "changeOrigin composes poses (associative, identity-preserving, invertible); poseDiff(a, b) is zero iff the poses agree and integrating it from b leads to a.", "quantifier": "all poses", "why_tests_cant": "Continuum of poses.", "anchors": ["libraries/YarpPlugins/KdlSolver/ICartesianSolverImpl.cpp: changeOrigin, poseDiff", "libraries/YarpPlugins/AsibotSolver/ICartesianSolverImpl.cpp: changeOrigin, poseDiff"]}
{"id": "C54", "title": "Joint units follow the documentation", "statement": "fwdKin, invKin and diffInvKin interpret rotational joints in degrees and prismatic joints in meters, and invKin of a pose returned by fwdKin is expressed in the same units.", "quantifier": "all chains mixing rotational and prismatic joints, all joint values", "why_tests_cant": "Continuum and all chain types.", "anchors": ["libraries/YarpPlugins/KdlSolver/ICartesianSolverImpl.cpp: fwdKin, invKin, diffInvKin"]}
{"id": "C55", "title": "Tree solver maps each 6-vector block to its own TCP", "statement": "With several TCPs, the i-th 6-vector block of a command refers to the i-th TCP for all methods (fwdKin, invKin, diffInvKin, changeOrigin, poseDiff), also when TCPs are merged.", "quantifier": "all numbers of TCPs, all merge maps, all vectors", "why_tests_cant": "Unbounded numbers of TCPs and merge patterns.", "anchors": ["libraries/YarpPlugins/KdlTreeSolver/ICartesianSolverImpl.cpp: fwdKin, invKin, diffInvKin, changeOrigin, poseDiff"]}
{"id": "C56", "title": "Asibot IK is a right inverse of FK", "statement": "Whenever invKin succeeds, forward kinematics of the returned joints is the requested pose; both elbow configurations and both base orientations are consistent.", "quantifier": "all link lengths, all reachable poses, all guesses", "why_tests_cant": "Continuum of poses.", "anchors": ["libraries/YarpPlugins/AsibotSolver/ICartesianSolverImpl.cpp: fwdKin, invKin", "libraries/YarpPlugins/AsibotSolver/AsibotConfiguration.cpp: configure"]}
{"id": "C57", "title": "Asibot Jacobians are the derivatives of FK", "statement": "The base-frame and TCP-frame Jacobians used by diffInvKin are the true derivatives of forward kinematics (linear and angular) for every joint configuration.", "quantifier": "all joint configurations and link lengths, with and without tool", "why_tests_cant": "Continuum of configurations.", "anchors": ["libraries/YarpPlugins/AsibotSolver/ICartesianSolverImpl.cpp: computeBaseFrameDiffInvKin, computeTcpFrameDiffInvKin, diffInvKin"]}
{"id": "C58", "title": "Asibot configuration choice is valid and near-optimal", "statement": "The selected configuration is within joint limits (with tolerance) and has the least total displacement among those within limits, except that between the two best ones with the same base orientation the one with less travel of joint 2 is preferred.", "quantifier": "all IK results, limits and guesses", "why_tests_cant": "Continuum of values with ties.", "anchors": ["libraries/YarpPlugins/AsibotSolver/AsibotConfiguration.cpp: configure, checkJointsInLimits, normalizeAngle", "libraries/YarpPlugins/AsibotSolver/AsibotConfigurationLeastOverallAngularDisplacement.cpp: findOptimalConfiguration"]}
{"id": "C59", "title": "1-DOF trajectories meet their boundary conditions and bounds", "statement": "A configured trajectory starts and ends at the requested position (and velocity), its velocity and acceleration are the derivatives of its position, the rest-to-rest cubic never overshoots, and the maximum velocity/acceleration checks are correct.", "quantifier": "all end points, velocities, durations T > 0 and instants", "why_tests_cant": "Continuum of parameters and instants.", "anchors": ["libraries/YarpPlugins/AsibotSolver/TrajGen.hpp: OrderOneTraj, OrderThreeTraj"]}
{"id": "C60", "title": "Fixed axes never move", "statement": "With a streaming device configured with fixed axes, the commands sent never carry motion along those axes, and all other axes carry the sensor data divided by the scaling factor.", "quantifier": "all sensor data, all fixed-axes configurations, all scaling factors, all histories", "why_tests_cant": "Unbounded histories.", "anchors": ["programs/streamingDeviceController/StreamingDevice.cpp: transformData, configureFixedAxes", "programs/streamingDeviceController/SpnavSensorDevice.cpp: transformData, sendMovementCommand"]}
{"id": "C61", "title": "Proximity alert stops the robot", "statement": "When a proximity reading exceeds the high threshold no motion command is sent in that cycle, the device is told to stop exactly once until motion resumes, and low-level alerts halve the speed.", "quantifier": "all sequences of sensor readings, proximity readings and device data", "why_tests_cant": "Unbounded sequences.", "anchors": ["programs/streamingDeviceController/StreamingDeviceController.cpp: update"]}
{"id": "C62", "title": "Gripper commands are always followed by a stop", "statement": "After open/close buttons are released the gripper receives exactly one stop command and then none, whatever the sequence of button presses.", "quantifier": "all button histories", "why_tests_cant": "Unbounded histories.", "anchors": ["programs/streamingDeviceController/SpnavSensorDevice.cpp: getActuatorState", "programs/streamingDeviceController/LeapMotionSensorDevice.cpp: getActuatorState"]}
{"id": "C63", "title": "Force compensation has a continuous deadband and cancels the initial offset", "statement": "Sensor readings inside the deadband produce no command; outside, the command has the direction of the (compensated) reading, its magnitude grows continuously from zero and is gain*(norm - deadband); with an unchanged reading and pose the command is zero.", "quantifier": "all sensor readings, deadbands >= 0, gains, poses", "why_tests_cant": "Continuum of readings.", "anchors": ["programs/ftCompensation/FtCompensation.cpp: run, readSensor, compensateTool"]}
{"id": "C64", "title": "Keyboard joint commands never leave the limits", "statement": "Joint targets and velocities commanded from the keyboard stay within the position and velocity limits read from the robot, and switching between joint and Cartesian modes always stops the other one first.", "quantifier": "all key sequences, all limits and encoder readings", "why_tests_cant": "Unbounded key sequences.", "anchors": ["programs/keyboardController/KeyboardController.cpp: incrementOrDecrementJointCommand, incrementOrDecrementCartesianCommand, issueStop"]}
{"id": "C65", "title": "Visual servoing only approaches the target", "statement": "The vision-guided corrections (centroid transform, Haar detection) are applied only when fresh data is available and, for the centroid transform, never command motion away from the camera direction; losing the target stops the robot once.", "quantifier": "all centroid messages, timings and commands", "why_tests_cant": "Continuum and unbounded sequences.", "anchors": ["programs/streamingDeviceController/CentroidTransform.cpp: acceptBottle, processStoredBottle", "programs/haarDetectionController/GrabberResponder.cpp: onRead"]}
{"id": "C66", "title": "Force compensation starts only with a ready sensor", "statement": "The force compensation program starts sending commands only if the force/torque sensor reported to be working during start-up, and it starts whenever the sensor reports so at one of the ten attempts.", "quantifier": "all sequences of sensor states during start-up and all configurations", "why_tests_cant": "The sensor may become ready at any attempt or never; tests have no control over the timing of the hardware.", "anchors": ["programs/ftCompensation/FtCompensation.cpp: configure"]}
{"id": "C67", "title": "Impedance pulls back to the initial pose", "statement": "With impedance enabled, the wrench commanded in each cycle is the compensated contact wrench minus stiffness times the displacement from the initial pose minus damping times the velocity; without contact and at rest it pulls the robot towards the initial pose.", "quantifier": "all poses, stiffness and damping factors, histories of cycles and sensor readings", "why_tests_cant": "Continuum of poses and unbounded histories.", "anchors": ["programs/ftCompensation/FtCompensation.cpp: applyImpedance, run"]}
{"id": "C68", "title": "Losing the sensor or the robot stops the compensation", "statement": "When the sensor or the controller stop answering, the force compensation program sends no more commands, and the robot is told to stop when the program is interrupted or has to give up.", "quantifier": "all histories of cycles, with failures at any cycle", "why_tests_cant": "The failure may happen at any cycle of an unbounded history.", "anchors": ["programs/ftCompensation/FtCompensation.cpp: run, interruptModule, close"]}
{"id": "C69", "title": "Cartesian keyboard velocities add up", "statement": "The Cartesian velocity commanded after any sequence of Cartesian keys is, along each axis, the speed step times the number of increments minus the number of decrements; when it gets null the robot is stopped; it stays within some limit and the program knows the velocity in force.", "quantifier": "all sequences of Cartesian keys of any length, with the answers of the controller", "why_tests_cant": "Unbounded key sequences with accumulated rounding.", "anchors": ["programs/keyboardController/KeyboardController.cpp: incrementOrDecrementCartesianCommand", "programs/keyboardController/LinearTrajectoryThread.cpp: configure"]}
{"id": "C70", "title": "Only well-formed requests reach the controller", "statement": "A message at the RPC port that stands for a request makes the controller see exactly that request, once; any other message is answered without the controller being called, with a failure if it begins with a known command; only numbers are taken for numbers, and the client takes no answer to something else for a success.", "quantifier": "all messages (lists of numbers, words, texts and nested lists of any size) and all controllers behind the port", "why_tests_cant": "The messages are an infinite set of nested lists and the port is open to anyone.", "anchors": ["libraries/YarpPlugins/CartesianControlServer/RpcResponder.cpp: respond, handleStatMsg, handleWaitMsg, handleActMsg, handleRunnableCmdMsg, handleConsumerCmdMsg, handleFunctionCmdMsg, handleParameterSetter, handleParameterGetter"]}
{"id": "C71", "title": "The control loop does what was commanded", "statement": "After an accepted movl, movv, gcmp or forc and until another movement is commanded, every motion command of the control loop serves it: the velocity (or position) follows at the elapsed time the path from the pose at the start to the target, with a correction proportional to the error, understood in the selected reference frame; the torques hold the weight of the robot, or hold it against the requested force.", "quantifier": "all accepted commands, all histories of cycles, parameter changes, queries and waits after it, and all answers of the robot and the solver", "why_tests_cant": "Unbounded histories of cycles with arbitrary answers of robot, clock and solver.", "anchors": ["libraries/YarpPlugins/BasicCartesianControl/PeriodicThreadImpl.cpp: run, handleMovlVel, handleMovlPosd, handleMovv, handleGcmp, handleForc", "libraries/YarpPlugins/BasicCartesianControl/ICartesianControlImpl.cpp: movl, movv, gcmp, forc"]}
{"id": "C72", "title": "Streaming devices command what the hand does", "statement": "Moving the hand over a Leap Motion makes the streaming program command, in velocity mode, velocities that take the robot along the displacements of the hand in the time between readings; with the Wiimote, one button advances along the tool axis, the other one goes back, both together only turn, with the rotations given by the inclination of the device, and none of them does not move the robot.", "quantifier": "all readings, scaling factors, times and sequences of cycles", "why_tests_cant": "Continuum of readings and unbounded histories.", "anchors": ["programs/streamingDeviceController/LeapMotionSensorDevice.cpp: acquireData, transformData, sendMovementCommand", "programs/streamingDeviceController/WiimoteSensorDevice.cpp: acquireData, transformData, sendMovementCommand", "programs/streamingDeviceController/StreamingDeviceController.cpp: update"]}
{"id": "C73", "title": "Poses streamed by the keyboard follow the velocity", "statement": "With the keyboard program in pose mode, while a Cartesian velocity is in force the thread that streams poses sends, each time it is due, the pose that this velocity reaches in the elapsed time from the pose of the robot at the last key; once the robot has been stopped no pose is sent; the thread never runs without a trajectory.", "quantifier": "all key sequences, answers of the controller and interleavings of the keyboard with the thread", "why_tests_cant": "The thread and the keyboard interleave at arbitrary points.", "anchors": ["programs/keyboardController/LinearTrajectoryThread.cpp: configure, run", "programs/keyboardController/KeyboardController.cpp: incrementOrDecrementCartesianCommand, toggleReferenceFrame, issueStop"]}
{"id": "C74", "title": "Inverse dynamics obeys Newton's laws", "statement": "The torques given by inverse dynamics are those that hold the robot against gravity at rest, and those of the motion asked for under the forces at the end, in base or tool frame: for every virtual displacement of the joints they do the work of all the forces on all the masses; a tool appended to the chain changes nothing, for it has no mass.", "quantifier": "all chains and bodies, joint positions, velocities and accelerations, gravity and external forces", "why_tests_cant": "Continuum of configurations and motions, and unbounded chains.", "anchors": ["libraries/YarpPlugins/KdlSolver/ICartesianSolverImpl.cpp: invDyn, appendLink"]}
{"id": "C75", "title": "The chain solver is the robot of its configuration", "statement": "A solver that opens has forward kinematics, joint limits, masses and gravity as the configuration file describes them, one joint for each link; it opens if the description is complete, and refuses the configuration if something is missing or out of order.", "quantifier": "all configurations, with any number of links of any kind, and all joint positions", "why_tests_cant": "Infinitely many robots can be described.", "anchors": ["libraries/YarpPlugins/KdlSolver/DeviceDriverImpl.cpp: open, getMatrixFromProperties, retrieveJointLimits"]}
{"id": "C76", "title": "A linear movement goes straight to the target", "statement": "An accepted movl takes each end effector from its pose to its target along a straight line, turning about one axis by the shortest way and in the same proportion, from rest to rest without jumps, in the time configured or, if this is too short for speeds and accelerations of 10 units, in the shortest time possible.", "quantifier": "all poses and targets, durations, numbers of end effectors, times and histories of the control loop after the command", "why_tests_cant": "Continuum of poses and times; the shape of the movement is between the samples.", "anchors": ["libraries/YarpPlugins/BasicCartesianControl/ICartesianControlImpl.cpp: movl", "libraries/YarpPlugins/BasicCartesianControl/PeriodicThreadImpl.cpp: handleMovlVel, handleMovlPosd"]}
{"id": "C77", "title": "A velocity movement keeps the velocity", "statement": "An accepted movv has each end effector move with the commanded velocity from its pose on, until the movement is stopped; the same for the poses that the keyboard streams.", "quantifier": "all poses, velocities, times and histories of the control loop after the command", "why_tests_cant": "Continuum of velocities and times, without bound.", "anchors": ["libraries/YarpPlugins/BasicCartesianControl/ICartesianControlImpl.cpp: movv", "programs/keyboardController/LinearTrajectoryThread.cpp: configure"]}
{"id": "C78", "title": "Inverse kinematics find the posture the arm is in", "statement": "For an arm the builder finds a solution for, solving for the pose of the tool in some posture returns that posture among the solutions, up to full turns of the joints that rotate, unless the posture is singular for one of the steps of the solution.", "quantifier": "all arms, sequences of subproblems and postures", "why_tests_cant": "Continuum of arms and postures; a test only finds that some solution reaches the pose.", "anchors": ["libraries/ScrewTheoryLib/ScrewTheoryIkProblem.cpp: solve, recalculateFrames, transformPoint", "libraries/ScrewTheoryLib/PadenKahanSubproblems.cpp: solve", "libraries/ScrewTheoryLib/PardosGotorSubproblems.cpp: solve", "libraries/ScrewTheoryLib/ScrewTheoryIkProblemBuilder.cpp: build"]}
{"id": "C79", "title": "The tree solver is the robot of its configuration", "statement": "A tree solver that opens has forward kinematics as its configuration describes: each limb starts at the place it is hooked to, joints are numbered limb after limb, the poses given are those of the limbs marked as TCPs in their order; limits and gravity are those configured. It opens just for robots that can be put together (hooks known before they are used, no name used twice, TCPs merged with known ones) with limits for every joint; it can be opened again after it has been closed.", "quantifier": "all configurations, with any number of limbs and links of any kind, and all joint positions", "why_tests_cant": "Infinitely many robots can be described.", "anchors": ["libraries/YarpPlugins/KdlTreeSolver/DeviceDriverImpl.cpp: open, close, getMatrixFromProperties, retrieveJointLimits", "libraries/YarpPlugins/KdlTreeSolver/ICartesianSolverImpl.cpp: fwdKin, getNumJoints, getNumTcps"]}
{"id": "C80", "title": "Inverse dynamics of the tree solver obey Newton's laws", "statement": "The torques given by the tree solver are those that hold a robot with several arms against gravity at rest, and those of the motion asked for with a wrench on each TCP, in base or TCP axes: for every virtual displacement of the joints they do the work of all the forces on all the masses. The masses are those of the configuration, TCPs that go with another one carry the same wrench.", "quantifier": "all trees and bodies, configurations, joint positions, velocities and accelerations, gravity and external wrenches", "why_tests_cant": "Continuum of configurations and motions, and unbounded trees.", "anchors": ["libraries/YarpPlugins/KdlTreeSolver/ICartesianSolverImpl.cpp: invDyn", "libraries/YarpPlugins/KdlTreeSolver/DeviceDriverImpl.cpp: open"]}
{"id": "C81", "title": "A controller that opens is the one of its configuration", "statement": "A controller that opens has the parameters of its configuration, a robot with every interface that movements need, a solver for as many joints as that robot, and the limits of the robot or, if the user gives them, those of the user; the solver has the same limits. From then on its movements stay within their vectors, and what it reports is where the arm of the configuration is. It opens just for consistent configurations.", "quantifier": "all configurations, robots and solvers, and all histories from opening on", "why_tests_cant": "Infinitely many configurations and robots can be described.", "anchors": ["libraries/YarpPlugins/BasicCartesianControl/DeviceDriverImpl.cpp: open", "libraries/YarpPlugins/BasicCartesianControl/ICartesianControlImpl.cpp: stat, getParameter, setParameter"]}
{"id": "C82", "title": "The controller with the chain solver drives the arm it is configured for", "statement": "A controller that opened with the chain solver reports the pose of the arm of its configuration, with the last tool. Movements to a pose, along a line and with a velocity, and the streaming commands, send joints or joint speeds that take that arm, with that tool, to that pose or twist in the chosen frame of reference, as close as the inverse solver goes. Gravity compensation sends the torques that balance the weight of the links of the configuration, and a force command the ones that by Newton's law accelerate these links as they move and exert that force. No command is undefined.", "quantifier": "all configurations of the chain solver, tools, commands, readings of the robot, and histories of commands and control cycles", "why_tests_cant": "Continuum of arms, tools and poses, and unbounded histories; it takes the controller and the solver together.", "anchors": ["libraries/YarpPlugins/BasicCartesianControl/ICartesianControlImpl.cpp: stat, movj, movl, movv, gcmp, forc, tool, pose, twist", "libraries/YarpPlugins/BasicCartesianControl/PeriodicThreadImpl.cpp: run, handleMovlVel, handleMovlPosd, handleMovv, handleGcmp, handleForc", "libraries/YarpPlugins/KdlSolver/ICartesianSolverImpl.cpp: fwdKin, invKin, diffInvKin, invDyn, appendLink, restoreOriginalChain", "libraries/YarpPlugins/KdlSolver/DeviceDriverImpl.cpp: open"]}
{"id": "C83", "title": "What a streaming program sends is carried out", "statement": "Once the programs that stream commands (device controller, force compensation, face following) have started, every command they send, whatever their sensors read, reaches the joints: the controller looks at the control modes of the joints, and if they are those of the command, sends the joints what the solver computes for it in the frame of the program, or tells them to stand still. In particular a stop of the program stops the robot.", "quantifier": "all programs of the three kinds, histories of sensor readings, robots and controller configurations, with questions of other clients and control cycles in between", "why_tests_cant": "Unbounded histories of readings; it takes program and controller together.", "anchors": ["programs/streamingDeviceController/StreamingDeviceController.cpp: updateModule", "programs/streamingDeviceController/SpnavSensorDevice.cpp: initialize, sendMovementCommand, stopMotion", "programs/ftCompensation/FtCompensation.cpp: configure, run", "programs/haarDetectionController/HaarDetectionController.cpp: configure, updateModule, interruptModule", "programs/haarDetectionController/GrabberResponder.cpp: onRead", "libraries/YarpPlugins/BasicCartesianControl/ICartesianControlImpl.cpp: setParameter, pose, twist, wrench, act"]}
{"id": "C84", "title": "Clients and servers find each other by their names", "statement": "A client opens just if a server with its remote name is open and no client has its local name; a server opens just if no server has its name. Requests and streamed commands of a client arrive at the server of its remote name and nowhere else, and the state it reads is that of this server, whatever other devices are opened and closed, as long as client and server are open.", "quantifier": "all histories in which servers and clients, with any names and options, are opened and closed", "why_tests_cant": "Infinitely many histories of devices and names.", "anchors": ["libraries/YarpPlugins/CartesianControlServer/DeviceDriverImpl.cpp: open, close", "libraries/YarpPlugins/CartesianControlClient/DeviceDriverImpl.cpp: open, close"]}
{"id": "C85", "title": "The controller with the ASIBOT solver drives the ASIBOT of its configuration", "statement": "A controller that opened with the ASIBOT solver reports the pose of the arm whose link lengths are in its configuration, with the last tool. Movements to a pose send joints that put that arm, with that tool, at that pose, within the joint limits; lines, velocities and streamed twists send joint speeds that move it with the twist asked for, in the chosen frame of reference. Commands the solver cannot serve are refused or aborted, without moving the robot. No command is undefined.", "quantifier": "all configurations of the ASIBOT solver, tools, commands, readings of the robot, and histories of commands and control cycles", "why_tests_cant": "Continuum of arms, tools and poses, and unbounded histories; it takes the controller and the solver together.", "anchors": ["libraries/YarpPlugins/AsibotSolver/DeviceDriverImpl.cpp: open", "libraries/YarpPlugins/AsibotSolver/ICartesianSolverImpl.cpp: fwdKin, invKin, diffInvKin, invDyn, poseDiff, changeOrigin, appendLink, restoreOriginalChain", "libraries/YarpPlugins/BasicCartesianControl/ICartesianControlImpl.cpp: stat, movj, movl, movv, gcmp, forc, tool, pose, twist, wrench", "libraries/YarpPlugins/BasicCartesianControl/PeriodicThreadImpl.cpp: run"]}
{"id": "C86", "title": "The controller with the default inverse kinematics reaches the poses it accepts", "statement": "A controller that opened with the chain solver and the screw theory solver for inverse kinematics (the default) reports the pose of the arm of its configuration with the last tool. Whatever is asked of it, it never sends the joints to positions that are not within the limits the robot reported. Movements to a pose, streamed or not, send joints that put that arm, with that tool, at that pose in the chosen frame of reference, or are refused. No command is undefined.", "quantifier": "all configurations of the chain solver with the default inverse kinematics, tools, commands, readings of the robot, and histories of commands and control cycles", "why_tests_cant": "Continuum of arms, tools and poses, random test points, and unbounded histories; it takes the controller and both solvers together.", "anchors": ["libraries/YarpPlugins/KdlSolver/ChainIkSolverPos_ST.cpp: create, CartToJnt, updateInternal", "libraries/YarpPlugins/KdlSolver/ICartesianSolverImpl.cpp: invKin, appendLink, restoreOriginalChain", "libraries/YarpPlugins/KdlSolver/DeviceDriverImpl.cpp: open", "libraries/ScrewTheoryLib/ScrewTheoryIkProblem.cpp: solve", "libraries/ScrewTheoryLib/ScrewTheoryIkProblemBuilder.cpp: build", "libraries/YarpPlugins/BasicCartesianControl/ICartesianControlImpl.cpp: stat, movj, pose, tool"]}
{"id": "C87", "title": "The screw theory trajectory example moves the arm along its line", "statement": "The example program leads the left arm of TEO along a straight line from where it is, from rest to rest, without turning, within its speed limit and an acceleration of 0.2, and in the time asked for. Each command it sends lies within the joint limits, is a configuration of the arm for the pose of the line at that time, at the start the one closest to the encoders and then always of the same branch, so the arm does not jump. The program is defined for every robot that answers.", "quantifier": "all robots (encoders, limits, control modes), durations and speed limits, random points of the problem builder, and times at which the thread runs", "why_tests_cant": "Continuum of poses and times, and unbounded runs; it takes trajectory, problem builder, inverse kinematics and selection of configurations together.", "anchors": ["examples/cpp/exampleScrewTheoryTrajectory/exampleScrewTheoryTrajectory.cpp: main, makeTeoLeftArmKinematics", "examples/cpp/exampleScrewTheoryTrajectory/TrajectoryThread.cpp: run", "libraries/ScrewTheoryLib/ScrewTheoryIkProblem.cpp: solve", "libraries/ScrewTheoryLib/ScrewTheoryIkProblemBuilder.cpp: build", "libraries/ScrewTheoryLib/ConfigurationSelectorLeastOverallAngularDisplacement.cpp: findOptimalConfiguration"]}
{"id": "C88", "title": "The script for reachable cuboids finds the largest one", "statement": "The script that looks for a reachable cuboid around an initial position first bounds each axis where the first failure is met. Among the points of that box it then finds the largest cuboid that contains the initial position and all whose points are reachable, whatever the arm.", "quantifier": "all arms (any set of reachable positions), initial positions, steps and bounds", "why_tests_cant": "Infinitely many sets of reachable positions and grid sizes.", "anchors": ["scripts/python/find-reachable-cuboid.py: find_largest_segment, find_largest_area, main program"]}
{"id": "C89", "title": "The problem builder works for the supported robots, whatever it draws", "statement": "For each of the robots that the tests and examples describe (PUMA, Stanford, three ABB arms, right arm and right leg of TEO, left arm of TEO by exponentials and by the configuration file), building the inverse kinematics problem returns a problem, and it has the expected number of solutions, no matter which random test points are drawn. The solver device with the default inverse kinematics opens for every configuration that declares the links of that file.", "quantifier": "all sequences of random numbers, the eight robots, and all configurations with the links of the file and joint limits in order", "why_tests_cant": "The tests run with one sequence of random numbers of the C library; there are infinitely many, and a solver that fails to open for some of them is a failure at run time.", "anchors": ["tests/testScrewTheory.cpp: makePumaKinematicsFromPoE, makeStanfordKinematicsFromPoE, makeAbbIrb120KinematicsFromPoE, makeAbbIrb910scKinematicsFromPoE, makeAbbIrb6620lxFromPoE, makeTeoRightArmKinematicsFromPoE, makeTeoRightLegKinematicsFromPoE, checkRobotKinematics", "share/contexts/testKdlSolverFromFile.ini", "libraries/ScrewTheoryLib/ScrewTheoryIkProblemBuilder.cpp: build, searchPoints, searchSolutions, trySolve, simplify", "libraries/YarpPlugins/KdlSolver/ChainIkSolverPos_ST.cpp: create", "libraries/YarpPlugins/KdlSolver/DeviceDriverImpl.cpp: open"]}
{"id": "C90", "title": "A successful inverse kinematics call gives the pose asked for", "statement": "When the default inverse kinematics of the chain solver answers a request with its code for a reachable pose, the joints it gives place the tool at the pose asked for. In particular, asked for the pose of the posture that is given as the guess, it answers that posture.", "quantifier": "all arms for which a problem is built, postures, guesses, joint limits and random numbers drawn", "why_tests_cant": "Continuum of arms, postures and guesses; the test of this call asserts joint values that come from rounding.", "anchors": ["libraries/YarpPlugins/KdlSolver/ChainIkSolverPos_ST.cpp: create, CartToJnt", "libraries/ScrewTheoryLib/ScrewTheoryIkProblem.cpp: solve", "libraries/ScrewTheoryLib/PardosGotorSubproblems.cpp: PardosGotorFour::solve", "libraries/ScrewTheoryLib/ConfigurationSelectorLeastOverallAngularDisplacement.cpp: findOptimalConfiguration", "tests/testKdlSolver.cpp: InvKin1, InvKin2"]}
{"id": "C91", "title": "A robot that is one chain is answered alike by both KDL devices", "statement": "For a robot with a single limb the chain solver device and the tree solver device, opened with the same description of the links and the same gravity, give the same number of joints, the same forward kinematics, torques, changes of origin and differences of poses, and hand the same problems to their inverse kinematics, in every frame of reference.", "quantifier": "all configurations of one limb with both devices open, all joint positions, velocities, accelerations, forces and poses", "why_tests_cant": "Continuum of robots and inputs; two independent implementations of the same interface.", "anchors": ["libraries/YarpPlugins/KdlSolver/DeviceDriverImpl.cpp: open", "libraries/YarpPlugins/KdlTreeSolver/DeviceDriverImpl.cpp: open", "libraries/YarpPlugins/KdlSolver/ICartesianSolverImpl.cpp: fwdKin, invKin, diffInvKin, invDyn, changeOrigin, poseDiff", "libraries/YarpPlugins/KdlTreeSolver/ICartesianSolverImpl.cpp: fwdKin, invKin, diffInvKin, invDyn, changeOrigin, poseDiff"]}
{"id": "C92", "title": "A program that moves and waits orders one movement at a time", "statement": "A program that orders joint movements one after another, each after the call that waits for the previous one has returned, as the example of a client does, has one movement at a time: when it orders a movement, the previous one is done or has been stopped, nothing that the control loop still does for the previous one affects the new one, and at the end the reference speeds are those of the beginning.", "quantifier": "all lists of poses, robots, answers of the robot and of the solver, and interleavings of the program with the control loop", "why_tests_cant": "There are unboundedly many interleavings of the two threads; the tests run one movement at a time and never order one in the middle of a cycle.", "anchors": ["examples/cpp/exampleCartesianControlClient/exampleCartesianControlClient.cpp: main", "libraries/YarpPlugins/BasicCartesianControl/ICartesianControlImpl.cpp: movj, wait, stopControl", "libraries/YarpPlugins/BasicCartesianControl/PeriodicThreadImpl.cpp: run, handleMovj"]}
{"id": "C93", "title": "The scripts for DH tables read the arm of the table", "statement": "Given a file of named lengths in millimetres and a table of DH parameters whose cells are expressions with the names of joints and lengths, the script that prints a matrix prints the pose of that arm with all joints at zero, to fifteen decimals and in the form the solvers read; the script for the viewer gives it the segments of that arm. A name in a cell stands for its own value, whatever other names there are.", "quantifier": "all files of lengths and tables, all names and expressions", "why_tests_cant": "There are unboundedly many sets of names and expressions; the scripts have no tests.", "anchors": ["scripts/python/kdl-from-csv.py", "scripts/python/roboview-from-csv.py", "libraries/YarpPlugins/KdlSolver/DeviceDriverImpl.cpp: getMatrixFromProperties"]}
{"id": "C94", "title": "The keyboard controller starts within the robot's limits and shows where it is", "statement": "The keyboard controller starts exactly when the devices it was asked for open, have what it needs (at most nine axes with known limits, a known frame, the thread if asked for) and its options are known words; it starts at rest, in the joint mode and frame asked for. Whatever is typed then, every joint command goes to an existing joint within the limits that the robot reported at the start, a device that was not asked for is never called, and the program goes by the frame that the controller was last told. The joint positions and the pose it prints are those that the robot reports, in the representation and units of the label.", "quantifier": "all options, answers of both devices, sequences of typed characters and reported poses", "why_tests_cant": "Unboundedly many options and key sequences and a continuum of limits and poses; the program has no tests.", "anchors": ["programs/keyboardController/KeyboardController.cpp: configure, updateModule, issueStop, printJointPositions, printCartesianPositions, roundZeroes", "libraries/KinematicRepresentationLib/KinematicRepresentation.cpp: decodePose, parseEnumerator"]}
{"id": "C95", "title": "The streaming device controller starts as it is told, or leaves the controller alone", "statement": "The streaming device controller starts exactly when its device is a known one, opens and has usable options, the Cartesian controller answers, and every port asked for connects. It then is at rest, sends the kind of command and holds the axes that were asked for, looks at proximity sensors and camera only if told to, stops beyond the thresholds that were given and not before, never computes with an undefined number, and has put the controller into the mode and frame that its messages need. If it does not start, it leaves the controller as it was.", "quantifier": "all options, all answers of device, controller and network, and all sequences of readings afterwards", "why_tests_cant": "Unboundedly many options and sequences of readings; the program has no tests.", "anchors": ["programs/streamingDeviceController/StreamingDeviceController.cpp: configure, update", "programs/streamingDeviceController/StreamingDevice.cpp: makeDevice, StreamingDevice", "programs/streamingDeviceController/SpnavSensorDevice.cpp: initialize", "programs/streamingDeviceController/LeapMotionSensorDevice.cpp: LeapMotionSensorDevice, initialize", "programs/streamingDeviceController/WiimoteSensorDevice.cpp: WiimoteSensorDevice, initialize", "programs/streamingDeviceController/CentroidTransform.cpp: setTcpToCameraRotation"]}
{"id": "C96", "title": "The programs end as they should, whatever fails and whenever they are interrupted", "statement": "Each of the four programs ends without undefined behaviour, whichever call fails while it starts and whenever a signal arrives: both devices are closed, its own objects are deleted, its thread has ended, the robot has been told to stop if the program had started, and the terminal is as it was found. The number it answers is zero exactly if it could start.", "quantifier": "all programs, options, failing calls and moments at which signals arrive", "why_tests_cant": "A signal can arrive between any two calls, and any call to the outside world can fail; the programs have no tests.", "anchors": ["programs/keyboardController/main.cpp: main", "programs/streamingDeviceController/main.cpp: main", "programs/haarDetectionController/main.cpp: main", "programs/ftCompensation/main.cpp: main", "programs/keyboardController/KeyboardController.cpp: configure, interruptModule, close, issueStop, ttyset, ttyreset", "programs/streamingDeviceController/StreamingDeviceController.cpp: configure, interruptModule, close", "programs/haarDetectionController/HaarDetectionController.cpp: configure, updateModule, interruptModule, close", "programs/ftCompensation/FtCompensation.cpp: configure, updateModule, interruptModule, close"]}
{"id": "C97", "title": "A stop holds against other clients and the stream", "statement": "Once the call that stops the robot has returned, the robot is not moved by the control loop, by commands that are still being streamed, or by what other clients asked for before, until some client orders a movement or prepares streaming anew.", "quantifier": "all robots, any number of clients and streamed commands, whatever each of them was doing when the stop was asked for, all answers and all interleavings of their threads with the control loop", "why_tests_cant": "There are unboundedly many interleavings of one thread per connection, the stream and the control loop; the tests use one thread.", "anchors": ["libraries/YarpPlugins/BasicCartesianControl/ICartesianControlImpl.cpp: stopControl, pose, twist, wrench, movj, stat, inv, wait, tool, setParameter", "libraries/YarpPlugins/BasicCartesianControl/PeriodicThreadImpl.cpp: run", "libraries/YarpPlugins/CartesianControlServer/StreamResponder.cpp: onRead", "libraries/YarpPlugins/CartesianControlServer/RpcResponder.cpp: respond", "libraries/YarpPlugins/CartesianControlServer/DeviceDriverImpl.cpp: open"]}
{"id": "C98", "title": "Calls of the ASIBOT solver from several threads are each done at once", "statement": "Whatever threads call the ASIBOT solver at the same time, the calls answer and leave the tool as if each had been done at once, at some moment between its beginning and its return.", "quantifier": "any number of threads, all sequences of calls with all arguments, and all interleavings of their accesses to the tool", "why_tests_cant": "There are unboundedly many interleavings of the accesses; the tests use one thread.", "anchors": ["libraries/YarpPlugins/AsibotSolver/AsibotSolver.cpp: getTcpFrame, setTcpFrame", "libraries/YarpPlugins/AsibotSolver/ICartesianSolverImpl.cpp: appendLink, restoreOriginalChain, changeOrigin, fwdKin, poseDiff, invKin, diffInvKin"]}
{"id": "C99", "title": "A change of the tool is seen at once, and does not disturb a movement", "statement": "While a client changes the tool through the controller, the control loop, the stream and other clients are answered by the solver for the tool before or for the tool after, and for nothing else; once the call has returned, it has succeeded and they are answered for the new tool alone. A movement that is in progress is not disturbed.", "quantifier": "all tools, states of the controller, requests of any number of clients and streamed commands, whatever each of them was doing when the change was asked for, and all interleavings with the control loop, with the ASIBOT solver", "why_tests_cant": "There are unboundedly many interleavings and a continuum of tools; the tests use one thread and no tool.", "anchors": ["libraries/YarpPlugins/BasicCartesianControl/ICartesianControlImpl.cpp: tool, stat, movl", "libraries/YarpPlugins/BasicCartesianControl/PeriodicThreadImpl.cpp: run, handleMovlVel", "libraries/YarpPlugins/AsibotSolver/ICartesianSolverImpl.cpp: restoreOriginalChain, appendLink, fwdKin, poseDiff, diffInvKin"]}
{"id": "C100", "title": "A result may be stored in the place of an argument", "statement": "Every method of the three solvers takes its arguments and its result as references to vectors of the caller. Whichever vectors are passed, also the same one as argument and as result, the method returns what it would return with different vectors, leaves in the vector of the result what it would leave there, and changes no other vector; after a returned false no vector has changed. Likewise an expression may be appended to any expression, itself included.", "quantifier": "all contents and lengths of the vectors, all choices of the same or different vectors for arguments and result, all chains and trees, both frames of reference, all inverse solvers", "why_tests_cant": "The tests pass different vectors for arguments and results; the number of contents and of choices is unbounded, and a read past the end often goes unnoticed.", "anchors": ["libraries/YarpPlugins/KdlSolver/ICartesianSolverImpl.cpp: changeOrigin, fwdKin, poseDiff, invKin, diffInvKin, invDyn", "libraries/YarpPlugins/KdlTreeSolver/ICartesianSolverImpl.cpp: changeOrigin, fwdKin, poseDiff, invKin, diffInvKin, invDyn", "libraries/YarpPlugins/AsibotSolver/ICartesianSolverImpl.cpp: changeOrigin, fwdKin, poseDiff, invKin, diffInvKin", "libraries/ScrewTheoryLib/ProductOfExponentials.cpp: PoeExpression::append"]}
{"id": "C101", "title": "Calls of the chain solver from several threads are each done at once", "statement": "Whatever threads call the chain solver at the same time, no data race happens, and the calls answer and leave the tools as if each had been done at once, at some moment between its beginning and its return.", "quantifier": "any number of threads, all chains, sequences of calls with all arguments, all inverse solvers, and all interleavings of what is done with and without the mutex", "why_tests_cant": "There are unboundedly many interleavings, and a data race may go unnoticed for years; the tests use one thread.", "anchors": ["libraries/YarpPlugins/KdlSolver/KdlSolver.hpp: KdlSolver", "libraries/YarpPlugins/KdlSolver/ICartesianSolverImpl.cpp: getNumJoints, appendLink, restoreOriginalChain, changeOrigin, fwdKin, poseDiff, invKin, diffInvKin, invDyn"]}
{"id": "C102", "title": "Force compensation does not depend on how the axes of the tip are chosen", "statement": "If the axes of the TCP are turned in the description of the robot, and the rotation of the sensor and the centre of mass of the tool are given in the new axes, then the program starts or refuses as before and moves the robot exactly as before, whatever the sensor measures. In particular the two ways of describing the stump that its configuration file offers are the same.", "quantifier": "all rotations, gains, deadbands, tools, both modes, all positions of the arm and sequences of measurements and failures", "why_tests_cant": "There is a continuum of rotations and measurements; the program has no tests.", "anchors": ["programs/ftCompensation/FtCompensation.cpp: configure, readSensor, compensateTool, applyImpedance, run", "share/contexts/ftCompensation-stump.ini: sensorFrameRPY, HN"]}
{"id": "C103", "title": "A robot that is placed elsewhere behaves alike", "statement": "If two configurations of the chain solver differ only in where the robot stands (the base frame is moved by a rigid motion, and gravity is given as seen from there), then after any changes of the tool both robots have as many joints, the same joints bring the tip to the pose moved in the same way, the same torques hold and move the robot, and inverse kinematics of positions and velocities gives the same joints, with targets, velocities and forces given in the axes of the tip, or in those of the base and moved likewise.", "quantifier": "all configurations, rigid motions, gravities, sequences of tools appended and removed, joints, velocities, accelerations, forces, targets and guesses", "why_tests_cant": "There is a continuum of placements; the tests have the base at the origin.", "anchors": ["libraries/YarpPlugins/KdlSolver/DeviceDriverImpl.cpp: open, getMatrixFromProperties", "libraries/YarpPlugins/KdlSolver/ICartesianSolverImpl.cpp: appendLink, restoreOriginalChain, fwdKin, invKin, diffInvKin, invDyn", "libraries/YarpPlugins/KdlSolver/ChainIkSolverPos_ID.cpp: CartToJnt, computeDiffInvKin"]}
{"id": "C104", "title": "A joint described in the other direction changes only its sign", "statement": "If two configurations of the chain solver differ only in the direction in which some of the joints turn or slide, then after any changes of the tool, the joints with those signs changed bring the tip to the same pose, and torques, joint velocities and the solutions of inverse kinematics are the same but for those signs (the joint limits being told as seen from the other direction).", "quantifier": "all configurations, sets of reversed joints, sequences of tools appended and removed, joints, velocities, accelerations, forces, targets, guesses and limits", "why_tests_cant": "There are unboundedly many robots and a continuum of movements; no test has a reversed joint.", "anchors": ["libraries/YarpPlugins/KdlSolver/DeviceDriverImpl.cpp: open", "libraries/YarpPlugins/KdlSolver/ICartesianSolverImpl.cpp: appendLink, restoreOriginalChain, fwdKin, diffInvKin, invDyn", "libraries/YarpPlugins/KdlSolver/ChainIkSolverPos_ID.cpp: CartToJnt, computeDiffInvKin"]}
{"id": "C105", "title": "What the torques do becomes energy of the robot", "statement": "Along any smooth motion of the joints, the energy of the robot (kinetic and potential, of all its masses) grows at each instant at the power of the torques that inverse dynamics gives plus that of the force and moment on the tip. So a robot that moves with no torques keeps its energy, one whose torques only brake never gains energy, and, released at rest, never rises above where it was.", "quantifier": "all chains of bodies, smooth motions of the joints, instants, forces and moments on the tip, and both axes in which these are given", "why_tests_cant": "There is a continuum of bodies and motions, and the claim is about derivatives and all later times; the tests check torques at rest in single points.", "anchors": ["libraries/YarpPlugins/KdlSolver/ICartesianSolverImpl.cpp: invDyn", "libraries/YarpPlugins/KdlSolver/DeviceDriverImpl.cpp: open"]}
{"id": "C106", "title": "Torques add up, grow with the square of the pace, and push the way the joints accelerate", "statement": "At given joints and speeds, the torques of inverse dynamics for accelerations and forces on a line between two requests are those on the line between both answers. A motion played k times faster takes, beyond the torques that hold the robot, k squared times the torques. For a robot at rest, the additional torques that accelerations take act on the joints symmetrically (those that one joint's acceleration takes from another are those that the other's takes from it), and their work along the accelerations is never negative, and none only if no mass moves.", "quantifier": "all chains, joints, speeds, accelerations, forces of six elements, both frames, all real factors; for the last part all chains whose inertias are those of bodies", "why_tests_cant": "There is a continuum of motions and of robots; the tests check single torques of robots at rest.", "anchors": ["libraries/YarpPlugins/KdlSolver/ICartesianSolverImpl.cpp: invDyn", "libraries/YarpPlugins/KdlSolver/DeviceDriverImpl.cpp: open"]}
{"id": "C107", "title": "A force on the tip of a tool acts on the hand with the lever of the tool", "statement": "After any number of tools have been appended, inverse dynamics with a force and moment on the tip gives the torques that it gave without tools for the same force and the moment that has, in addition, the lever from the hand to the tip as forward kinematics tells them. With no force, tools change no torques, however the robot moves.", "quantifier": "all chains with at least one segment and proper frames, lists of tools, joints, speeds, accelerations, forces and moments; in base axes, and, for each tool, in the axes of its tip", "why_tests_cant": "There is a continuum of tools, postures and forces; the tests of inverse dynamics use no tools.", "anchors": ["libraries/YarpPlugins/KdlSolver/ICartesianSolverImpl.cpp: appendLink, fwdKin, invDyn"]}
{"id": "C108", "title": "Velocities and torques of a robot agree at the tip", "statement": "At any joints, speeds and accelerations, the additional torques that inverse dynamics gives for a force and moment on the tip do, at the joint speeds that differential inverse kinematics answers for a velocity of the tip, the opposite of the power of that force and moment at that velocity; with force and velocity both in base axes, or both in those of the tip.", "quantifier": "all chains whose inertias are those of bodies, joints, speeds, accelerations, forces, moments, velocities of the tip, and velocity solvers that find joint speeds for that velocity", "why_tests_cant": "There is a continuum of postures, forces and velocities; no test uses both methods together.", "anchors": ["libraries/YarpPlugins/KdlSolver/ICartesianSolverImpl.cpp: diffInvKin, invDyn"]}
{"id": "C109", "title": "Torques of a tree of limbs depend on accelerations, forces and pace as Newton says", "statement": "For a robot with any number of limbs and TCPs: at given joints and speeds, torques for accelerations and forces on the line through two requests are on the line through both answers; a motion played k times faster takes, beyond the torques at rest, k squared times the torques; and what starting to move takes, beyond holding the robot, is the inertia of its masses, so that joints (also of different limbs) act on each other alike and starting to move never takes negative work.", "quantifier": "all trees whose inertias are those of bodies, TCPs and merges, joints, speeds, accelerations, forces, frames of reference and factors", "why_tests_cant": "There is a continuum of trees, postures, accelerations and forces; tests compare single numbers.", "anchors": ["libraries/YarpPlugins/KdlTreeSolver/ICartesianSolverImpl.cpp: invDyn"]}
{"id": "C110", "title": "What the torques of a tree of limbs do becomes energy of the robot", "statement": "For a robot with any number of limbs and TCPs: along any smooth motion of the joints, with any forces and moments on the TCPs, the energy of the robot (kinetic and potential, of all its masses) grows at each instant at the power of the torques that inverse dynamics gives plus the power of those forces and moments; so torques that only brake never give energy, with no torque and no forces the energy stays for ever, and a robot released at rest whose torques only brake never rises above where it was. Linear joints are in meters.", "quantifier": "all trees whose inertias are those of bodies, TCPs and merges, smooth motions of the joints, forces and moments, and instants", "why_tests_cant": "There is a continuum of trees, motions and forces; a statement about all later times cannot be sampled.", "anchors": ["libraries/YarpPlugins/KdlTreeSolver/ICartesianSolverImpl.cpp: invDyn"]}
{"id": "C111", "title": "Forces on the TCPs of a tree of limbs take the torques that do their work", "statement": "For a robot with any number of limbs and TCPs, at given joints, speeds and accelerations: when the forces and moments on the TCPs change, the torques of inverse dynamics change so that along any joint speeds their power changes by the opposite of the power of the change of the forces and moments, each on its own TCP, moving as forward kinematics tells; in base axes as in those of the TCPs.", "quantifier": "all trees whose inertias are those of bodies, TCPs and merges, joints, speeds, accelerations and pairs of sets of forces and moments", "why_tests_cant": "There is a continuum of trees, postures and forces; tests compare single numbers.", "anchors": ["libraries/YarpPlugins/KdlTreeSolver/ICartesianSolverImpl.cpp: invDyn, fwdKin"]}
