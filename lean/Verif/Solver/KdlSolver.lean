import Verif.Repr.Converters

/-!
# Chain solver of KDL

/repo/libraries/YarpPlugins/KdlSolver/ICartesianSolverImpl.cpp. The forward solver is
`ChainFkSolverPos_recursive`; the inverse position and velocity solvers are parameters (the screw
theory and differential ones are in `Verif/Solver`). Locks and log messages are left out; the
two `invDyn` methods are in `Verif/Solver/KdlDynamics.lean`. A method gives `none` when a joint vector is read past its end (undefined
behaviour), and `some none` for a returned `false`.
-/

namespace KD

open KdlVectorConverter

/-- `KDL::deg2rad`. `degToRad`, /repo/libraries/KinematicRepresentationLib/KinematicRepresentation.cpp:516. -/
noncomputable def deg2rad : ℝ := Real.pi / 180

/-- `KDL::rad2deg`. `radToDeg`, /repo/libraries/KinematicRepresentationLib/KinematicRepresentation.cpp:523. -/
noncomputable def rad2deg : ℝ := 180 / Real.pi

/-- `ICartesianSolver::reference_frame`, /repo/libraries/YarpPlugins/ICartesianSolver.h: base, TCP or any
other value of the enumeration. -/
inductive SolverFrame | base | tcp | other
  deriving DecidableEq

/-- Members `chain` and `originalChain` of /repo/libraries/YarpPlugins/KdlSolver/KdlSolver.hpp. -/
structure KdlSolver where
  chain : Chain
  original : Chain

/-- `ikSolverPos->CartToJnt`: joints of the initial guess and the requested frame, giving an error code
and the joints.
External: `KDL::ChainIkSolverPos`, called at /repo/libraries/YarpPlugins/KdlSolver/ICartesianSolverImpl.cpp:145. -/
abbrev PosSolver := Chain → List ℝ → Frame → ℤ × List ℝ

/-- `ikSolverVel->CartToJnt`: joints and twist, giving an error code and joint speeds.
External: `KDL::ChainIkSolverVel`, called at /repo/libraries/YarpPlugins/KdlSolver/ICartesianSolverImpl.cpp:201. -/
abbrev VelSolver := Chain → List ℝ → Twist → ℤ × List ℝ

namespace KdlSolver

/-- End of `open`, /repo/libraries/YarpPlugins/KdlSolver/DeviceDriverImpl.cpp:147-450: the chain read from
the configuration, kept twice. -/
def opened (c : Chain) : KdlSolver := ⟨c, c⟩

/-- `getNumJoints`, /repo/libraries/YarpPlugins/KdlSolver/ICartesianSolverImpl.cpp:16-21. -/
def numJoints (s : KdlSolver) : ℕ := s.chain.nJoints

/-- `appendLink`, /repo/libraries/YarpPlugins/KdlSolver/ICartesianSolverImpl.cpp:33-47. -/
noncomputable def appendLink (s : KdlSolver) (x : List ℝ) : KdlSolver :=
  { s with chain := s.chain ++ [Segment.make Joint.fixed (vectorToFrame x)] }

/-- `restoreOriginalChain`, /repo/libraries/YarpPlugins/KdlSolver/ICartesianSolverImpl.cpp:51-63. -/
def restore (s : KdlSolver) : KdlSolver := { s with chain := s.original }

/-- `changeOrigin`, /repo/libraries/YarpPlugins/KdlSolver/ICartesianSolverImpl.cpp:67-76. -/
noncomputable def changeOrigin (xOldObj xNewOld : List ℝ) : List ℝ :=
  frameToVector (vectorToFrame xNewOld * vectorToFrame xOldObj)

/-- `poseDiff`, /repo/libraries/YarpPlugins/KdlSolver/ICartesianSolverImpl.cpp:103-112. -/
noncomputable def poseDiff (xLhs xRhs : List ℝ) : List ℝ :=
  twistToVector (frameDiff (vectorToFrame xRhs) (vectorToFrame xLhs))

/-- The loops `qInRad(motor) = q[motor] * KDL::deg2rad` over the joints of the chain, as in
/repo/libraries/YarpPlugins/KdlSolver/ICartesianSolverImpl.cpp:82-87. -/
noncomputable def toRadians (n : ℕ) (q : List ℝ) : Option (List ℝ) :=
  if n ≤ q.length then some ((q.take n).map (· * deg2rad)) else none

/-- `fwdKin`, /repo/libraries/YarpPlugins/KdlSolver/ICartesianSolverImpl.cpp:80-99; always succeeds. -/
noncomputable def fwdKin (s : KdlSolver) (q : List ℝ) : Option (List ℝ) := do
  let qInRad ← toRadians s.numJoints q
  let f ← s.chain.fk qInRad
  return frameToVector f

/-- `invKin`, /repo/libraries/YarpPlugins/KdlSolver/ICartesianSolverImpl.cpp:116-165. -/
noncomputable def invKin (ik : PosSolver) (s : KdlSolver) (xd qGuess : List ℝ) (frame : SolverFrame) :
    Option (Option (List ℝ)) := do
  let frameXd := vectorToFrame xd
  let qGuessInRad ← toRadians s.numJoints qGuess
  match frame with
  | .other => return none
  | .tcp =>
    let f ← s.chain.fk qGuessInRad
    let (ret, kdlq) := ik s.chain qGuessInRad (f * frameXd)
    return if ret < 0 then none else some (kdlq.map (· * rad2deg))
  | .base =>
    let (ret, kdlq) := ik s.chain qGuessInRad frameXd
    return if ret < 0 then none else some (kdlq.map (· * rad2deg))

/-- `diffInvKin`, /repo/libraries/YarpPlugins/KdlSolver/ICartesianSolverImpl.cpp:169-221. -/
noncomputable def diffInvKin (ik : VelSolver) (s : KdlSolver) (q xdot : List ℝ) (frame : SolverFrame) :
    Option (Option (List ℝ)) := do
  let qInRad ← toRadians s.numJoints q
  let kdlxdot := vectorToTwist xdot
  match frame with
  | .other => return none
  | .tcp =>
    let f ← s.chain.fk qInRad
    let (ret, qdot) := ik s.chain qInRad (Twist.rotate f.M kdlxdot)
    return if ret < 0 then none else some (qdot.map (· * rad2deg))
  | .base =>
    let (ret, qdot) := ik s.chain qInRad kdlxdot
    return if ret < 0 then none else some (qdot.map (· * rad2deg))

end KdlSolver

end KD
