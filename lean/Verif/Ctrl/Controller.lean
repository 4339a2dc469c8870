import Verif.Ctrl.Prog
import Verif.Repr.Converters
import Mathlib.Algebra.Order.Round
import Mathlib.Data.Real.Archimedean

/-!
# The Cartesian controller

/repo/libraries/YarpPlugins/BasicCartesianControl. The robot, the solver, the clock and the thread
library are the environment: their answers are free, except that a joint device fills in exactly the
buffer of `numJoints` elements it is given. Logging is left out. Numbers are reals. The KDL trajectory
objects are values of `Traj` made by functions of the configuration. Each field of the object is read
and written in one step (in the code only the state is behind a mutex, and no field but `cmcSuccess`
and the state may be used by two threads at once without a data race).
-/

namespace KD.Ctrl

open scoped Classical

/-- The control modes of a joint, `VOCAB_CM_*`; any other mode is `other`.
Used at /repo/libraries/YarpPlugins/BasicCartesianControl/BasicCartesianControl.cpp:188-223. -/
inductive Mode | position | positionDirect | velocity | torque | other
  deriving DecidableEq

/-- `ICartesianSolver::reference_frame`, /repo/libraries/YarpPlugins/ICartesianSolver.h:29-33. -/
inductive RefFrame | base | tcp
  deriving DecidableEq

/-- The controller states `VOCAB_CC_*_CONTROLLING` and `VOCAB_CC_NOT_CONTROLLING`,
/repo/libraries/YarpPlugins/ICartesianControl.h. -/
inductive CState | notControlling | movj | movl | movv | gcmp | forc
  deriving DecidableEq

/-- `yarp::os::createVocab32`: four characters, the first in the lowest byte.
Used by every vocabulary of /repo/libraries/YarpPlugins/ICartesianControl.h:35-135. -/
def vocab (a b c d : Char) : ℤ := a.toNat + 256 * (b.toNat + 256 * (c.toNat + 256 * d.toNat))

/-- `VOCAB_CC_NOT_SET`, `VOCAB_CC_POSE`, `VOCAB_CC_MOVI`, `VOCAB_CC_TWIST`, `VOCAB_CC_WRENCH` and the
reference frames.
/repo/libraries/YarpPlugins/ICartesianControl.h:39, 76-82 and /repo/libraries/YarpPlugins/ICartesianSolver.h:26. -/
def vocabNotSet : ℤ := vocab 'n' 's' 'e' 't'
/-- `VOCAB_CC_POSE`. /repo/libraries/YarpPlugins/ICartesianControl.h:76. -/
def vocabPose : ℤ := vocab 'p' 'o' 's' 'e'
/-- `VOCAB_CC_MOVI`. /repo/libraries/YarpPlugins/ICartesianControl.h:79. -/
def vocabMovi : ℤ := vocab 'm' 'o' 'v' 'i'
/-- `VOCAB_CC_TWIST`. /repo/libraries/YarpPlugins/ICartesianControl.h:81. -/
def vocabTwist : ℤ := vocab 't' 'w' 's' 't'
/-- `VOCAB_CC_WRENCH`. /repo/libraries/YarpPlugins/ICartesianControl.h:82. -/
def vocabWrench : ℤ := vocab 'w' 'r' 'n' 'c'
/-- `BASE_FRAME`. /repo/libraries/YarpPlugins/ICartesianSolver.h:26. -/
def vocabBaseFrame : ℤ := vocab 'c' 'p' 'f' 'b'
/-- `TCP_FRAME`. /repo/libraries/YarpPlugins/ICartesianSolver.h:26. -/
def vocabTcpFrame : ℤ := vocab 'c' 'p' 'f' 't'

/-- A `KDL::Trajectory_Segment`: its duration and the pose and velocity at each time.
Made at /repo/libraries/YarpPlugins/BasicCartesianControl/ICartesianControlImpl.cpp:213-226 and 271-285; used at /repo/libraries/YarpPlugins/BasicCartesianControl/PeriodicThreadImpl.cpp:135-136 and 262-263. -/
structure Traj where
  duration : ℝ
  pos : ℝ → Frame
  vel : ℝ → Twist

/-- What does not change after `open`. `line` makes the trajectory of `movl` from the start and end
poses and the duration, `ray` that of `movv` from the start pose and the twist.
/repo/libraries/YarpPlugins/BasicCartesianControl/BasicCartesianControl.hpp:180-215. -/
structure Cfg where
  numJoints : ℕ
  numTcps : ℕ
  usePosdMovl : Bool
  enableFailFast : Bool
  qMin : List ℝ
  qMax : List ℝ
  qdotMin : List ℝ
  qdotMax : List ℝ
  qRefSpeeds : List ℝ
  line : Frame → Frame → ℝ → Traj
  ray : Frame → Twist → Traj

/-- The fields of the controller object,
/repo/libraries/YarpPlugins/BasicCartesianControl/BasicCartesianControl.hpp:185-225, and the period of
its thread. -/
structure Ctl where
  frame : RefFrame
  gain : ℝ
  duration : ℝ
  cmcPeriodMs : ℤ
  waitPeriodMs : ℤ
  period : ℝ
  state : CState
  streaming : ℤ
  movementStartTime : ℝ
  vmoStored : List ℝ
  trajectories : List Traj
  fd : List ℝ
  encoderErrors : ℕ
  cmcSuccess : Bool

/-- Calls to the robot, the solver, the clock and the thread.
The calls made by /repo/libraries/YarpPlugins/BasicCartesianControl/ICartesianControlImpl.cpp, /repo/libraries/YarpPlugins/BasicCartesianControl/PeriodicThreadImpl.cpp and /repo/libraries/YarpPlugins/BasicCartesianControl/BasicCartesianControl.cpp:181-230. -/
inductive Call
  | getEncoders
  | getEncoderSpeeds
  | getEncoderAccelerations
  | getControlModes
  | setControlModes (joints : List ℕ) (mode : Mode)
  | getRefSpeeds
  | setRefSpeeds (v : List ℝ)
  | positionMove (q : List ℝ)
  | checkMotionDone
  | stop
  | setPositions (q : List ℝ)
  | velocityMove (v : List ℝ)
  | setRefTorques (t : List ℝ)
  | fwdKin (q : List ℝ)
  | invKin (x q : List ℝ) (frame : RefFrame)
  | diffInvKin (q xdot : List ℝ) (frame : RefFrame)
  | poseDiff (lhs rhs : List ℝ)
  | changeOrigin (xOldObj xNewOld : List ℝ)
  | invDynStatic (q : List ℝ)
  | invDyn (q qdot qdotdot f : List ℝ) (frame : RefFrame)
  | restoreOriginalChain
  | appendLink (x : List ℝ)
  | now
  | delay (t : ℝ)
  | setPeriod (t : ℝ)

/-- Answers; `none` and `false` are failures. `poseDiff` may write its output even if it fails.
The calls made by /repo/libraries/YarpPlugins/BasicCartesianControl/ICartesianControlImpl.cpp, /repo/libraries/YarpPlugins/BasicCartesianControl/PeriodicThreadImpl.cpp and /repo/libraries/YarpPlugins/BasicCartesianControl/BasicCartesianControl.cpp:181-230. -/
def Call.Resp : Call → Type
  | getEncoders => Option (List ℝ)
  | getEncoderSpeeds => Option (List ℝ)
  | getEncoderAccelerations => Option (List ℝ)
  | getControlModes => Option (List Mode)
  | setControlModes _ _ => Bool
  | getRefSpeeds => Option (List ℝ)
  | setRefSpeeds _ => Bool
  | positionMove _ => Bool
  | checkMotionDone => Option Bool
  | stop => Bool
  | setPositions _ => Bool
  | velocityMove _ => Bool
  | setRefTorques _ => Bool
  | fwdKin _ => Option (List ℝ)
  | invKin _ _ _ => Option (List ℝ)
  | diffInvKin _ _ _ => Option (List ℝ)
  | poseDiff _ _ => Bool × List ℝ
  | changeOrigin _ _ => Option (List ℝ)
  | invDynStatic _ => Option (List ℝ)
  | invDyn _ _ _ _ _ => Option (List ℝ)
  | restoreOriginalChain => Bool
  | appendLink _ => Bool
  | now => ℝ
  | delay _ => Unit
  | setPeriod _ => Bool

/-- A call with its answer. No code of its own: a line of the record of calls to the devices of /repo. -/
inductive Ev
  | getEncoders (ans : Option (List ℝ))
  | getEncoderSpeeds (ans : Option (List ℝ))
  | getEncoderAccelerations (ans : Option (List ℝ))
  | getControlModes (ans : Option (List Mode))
  | setControlModes (joints : List ℕ) (mode : Mode) (ans : Bool)
  | getRefSpeeds (ans : Option (List ℝ))
  | setRefSpeeds (v : List ℝ) (ans : Bool)
  | positionMove (q : List ℝ) (ans : Bool)
  | checkMotionDone (ans : Option Bool)
  | stop (ans : Bool)
  | setPositions (q : List ℝ) (ans : Bool)
  | velocityMove (v : List ℝ) (ans : Bool)
  | setRefTorques (t : List ℝ) (ans : Bool)
  | fwdKin (q : List ℝ) (ans : Option (List ℝ))
  | invKin (x q : List ℝ) (frame : RefFrame) (ans : Option (List ℝ))
  | diffInvKin (q xdot : List ℝ) (frame : RefFrame) (ans : Option (List ℝ))
  | poseDiff (lhs rhs : List ℝ) (ans : Bool × List ℝ)
  | changeOrigin (xOldObj xNewOld : List ℝ) (ans : Option (List ℝ))
  | invDynStatic (q : List ℝ) (ans : Option (List ℝ))
  | invDyn (q qdot qdotdot f : List ℝ) (frame : RefFrame) (ans : Option (List ℝ))
  | restoreOriginalChain (ans : Bool)
  | appendLink (x : List ℝ) (ans : Bool)
  | now (ans : ℝ)
  | delay (t : ℝ) (ans : Unit)
  | setPeriod (t : ℝ) (ans : Bool)

/-- The event of a call and its answer. No code of its own: it keeps the record of calls to the devices of /repo. -/
def record : (c : Call) → c.Resp → Ev
  | .getEncoders, r => Ev.getEncoders r
  | .getEncoderSpeeds, r => Ev.getEncoderSpeeds r
  | .getEncoderAccelerations, r => Ev.getEncoderAccelerations r
  | .getControlModes, r => Ev.getControlModes r
  | .setControlModes joints mode, r => Ev.setControlModes joints mode r
  | .getRefSpeeds, r => Ev.getRefSpeeds r
  | .setRefSpeeds v, r => Ev.setRefSpeeds v r
  | .positionMove q, r => Ev.positionMove q r
  | .checkMotionDone, r => Ev.checkMotionDone r
  | .stop, r => Ev.stop r
  | .setPositions q, r => Ev.setPositions q r
  | .velocityMove v, r => Ev.velocityMove v r
  | .setRefTorques t, r => Ev.setRefTorques t r
  | .fwdKin q, r => Ev.fwdKin q r
  | .invKin x q frame, r => Ev.invKin x q frame r
  | .diffInvKin q xdot frame, r => Ev.diffInvKin q xdot frame r
  | .poseDiff lhs rhs, r => Ev.poseDiff lhs rhs r
  | .changeOrigin xOldObj xNewOld, r => Ev.changeOrigin xOldObj xNewOld r
  | .invDynStatic q, r => Ev.invDynStatic q r
  | .invDyn q qdot qdotdot f frame, r => Ev.invDyn q qdot qdotdot f frame r
  | .restoreOriginalChain, r => Ev.restoreOriginalChain r
  | .appendLink x, r => Ev.appendLink x r
  | .now, r => Ev.now r
  | .delay t, r => Ev.delay t r
  | .setPeriod t, r => Ev.setPeriod t r

/-- Programs of the controller. The member functions of /repo/libraries/YarpPlugins/BasicCartesianControl/. -/
abbrev P := Prog Ctl Call Call.Resp

open Prog (op read modify lift)

/-! Each call as a program. -/

namespace Dev

/-- The call `getEncoders`.
/repo/libraries/YarpPlugins/BasicCartesianControl/ICartesianControlImpl.cpp:41, 72, 93, /repo/libraries/YarpPlugins/BasicCartesianControl/PeriodicThreadImpl.cpp:33. -/
def getEncoders : P (Option (List ℝ)) := op (S := Ctl) (R := Call.Resp) (Call.getEncoders)
/-- The call `getEncoderSpeeds`. /repo/libraries/YarpPlugins/BasicCartesianControl/ICartesianControlImpl.cpp:533. -/
def getEncoderSpeeds : P (Option (List ℝ)) := op (S := Ctl) (R := Call.Resp) (Call.getEncoderSpeeds)
/-- The call `getEncoderAccelerations`.
/repo/libraries/YarpPlugins/BasicCartesianControl/ICartesianControlImpl.cpp:539. -/
def getEncoderAccelerations : P (Option (List ℝ)) := op (S := Ctl) (R := Call.Resp) (Call.getEncoderAccelerations)
/-- The call `getControlModes`.
/repo/libraries/YarpPlugins/BasicCartesianControl/BasicCartesianControl.cpp:188, 203. -/
def getControlModes : P (Option (List Mode)) := op (S := Ctl) (R := Call.Resp) (Call.getControlModes)
/-- The call `setControlModes`. /repo/libraries/YarpPlugins/BasicCartesianControl/BasicCartesianControl.cpp:223. -/
def setControlModes (joints : List ℕ) (mode : Mode) : P (Bool) := op (S := Ctl) (R := Call.Resp) (Call.setControlModes joints mode)
/-- The call `getRefSpeeds`. /repo/libraries/YarpPlugins/BasicCartesianControl/ICartesianControlImpl.cpp:109. -/
def getRefSpeeds : P (Option (List ℝ)) := op (S := Ctl) (R := Call.Resp) (Call.getRefSpeeds)
/-- The call `setRefSpeeds`. /repo/libraries/YarpPlugins/BasicCartesianControl/ICartesianControlImpl.cpp:115. -/
def setRefSpeeds (v : List ℝ) : P (Bool) := op (S := Ctl) (R := Call.Resp) (Call.setRefSpeeds v)
/-- The call `positionMove`. /repo/libraries/YarpPlugins/BasicCartesianControl/ICartesianControlImpl.cpp:128. -/
def positionMove (q : List ℝ) : P (Bool) := op (S := Ctl) (R := Call.Resp) (Call.positionMove q)
/-- The call `checkMotionDone`. /repo/libraries/YarpPlugins/BasicCartesianControl/PeriodicThreadImpl.cpp:92. -/
def checkMotionDone : P (Option Bool) := op (S := Ctl) (R := Call.Resp) (Call.checkMotionDone)
/-- The call `stop` of the position interface.
/repo/libraries/YarpPlugins/BasicCartesianControl/ICartesianControlImpl.cpp:361. -/
def stop : P (Bool) := op (S := Ctl) (R := Call.Resp) (Call.stop)
/-- The call `setPositions`. /repo/libraries/YarpPlugins/BasicCartesianControl/ICartesianControlImpl.cpp:467. -/
def setPositions (q : List ℝ) : P (Bool) := op (S := Ctl) (R := Call.Resp) (Call.setPositions q)
/-- The call `velocityMove`. /repo/libraries/YarpPlugins/BasicCartesianControl/ICartesianControlImpl.cpp:507. -/
def velocityMove (v : List ℝ) : P (Bool) := op (S := Ctl) (R := Call.Resp) (Call.velocityMove v)
/-- The call `setRefTorques`. /repo/libraries/YarpPlugins/BasicCartesianControl/ICartesianControlImpl.cpp:565. -/
def setRefTorques (t : List ℝ) : P (Bool) := op (S := Ctl) (R := Call.Resp) (Call.setRefTorques t)
/-- The call `fwdKin` of the solver.
/repo/libraries/YarpPlugins/BasicCartesianControl/ICartesianControlImpl.cpp:52. -/
def fwdKin (q : List ℝ) : P (Option (List ℝ)) := op (S := Ctl) (R := Call.Resp) (Call.fwdKin q)
/-- The call `invKin` of the solver.
/repo/libraries/YarpPlugins/BasicCartesianControl/ICartesianControlImpl.cpp:78, 99. -/
def invKin (x q : List ℝ) (frame : RefFrame) : P (Option (List ℝ)) := op (S := Ctl) (R := Call.Resp) (Call.invKin x q frame)
/-- The call `diffInvKin` of the solver.
/repo/libraries/YarpPlugins/BasicCartesianControl/ICartesianControlImpl.cpp:493. -/
def diffInvKin (q xdot : List ℝ) (frame : RefFrame) : P (Option (List ℝ)) := op (S := Ctl) (R := Call.Resp) (Call.diffInvKin q xdot frame)
/-- The call `poseDiff` of the solver.
/repo/libraries/YarpPlugins/BasicCartesianControl/PeriodicThreadImpl.cpp:155, 274. -/
def poseDiff (lhs rhs : List ℝ) : P (Bool × List ℝ) := op (S := Ctl) (R := Call.Resp) (Call.poseDiff lhs rhs)
/-- The call `changeOrigin` of the solver.
/repo/libraries/YarpPlugins/BasicCartesianControl/ICartesianControlImpl.cpp:199. -/
def changeOrigin (xOldObj xNewOld : List ℝ) : P (Option (List ℝ)) := op (S := Ctl) (R := Call.Resp) (Call.changeOrigin xOldObj xNewOld)
/-- The call `invDyn` of the solver for gravity alone.
/repo/libraries/YarpPlugins/BasicCartesianControl/PeriodicThreadImpl.cpp:319. -/
def invDynStatic (q : List ℝ) : P (Option (List ℝ)) := op (S := Ctl) (R := Call.Resp) (Call.invDynStatic q)
/-- The call `invDyn` of the solver with external forces.
/repo/libraries/YarpPlugins/BasicCartesianControl/ICartesianControlImpl.cpp:557. -/
def invDyn (q qdot qdotdot f : List ℝ) (frame : RefFrame) : P (Option (List ℝ)) := op (S := Ctl) (R := Call.Resp) (Call.invDyn q qdot qdotdot f frame)
/-- The call `restoreOriginalChain` of the solver.
/repo/libraries/YarpPlugins/BasicCartesianControl/ICartesianControlImpl.cpp:404. -/
def restoreOriginalChain : P (Bool) := op (S := Ctl) (R := Call.Resp) (Call.restoreOriginalChain)
/-- The call `appendLink` of the solver.
/repo/libraries/YarpPlugins/BasicCartesianControl/ICartesianControlImpl.cpp:410. -/
def appendLink (x : List ℝ) : P (Bool) := op (S := Ctl) (R := Call.Resp) (Call.appendLink x)
/-- The call `yarp::os::Time::now`.
/repo/libraries/YarpPlugins/BasicCartesianControl/ICartesianControlImpl.cpp:382. -/
def now : P (ℝ) := op (S := Ctl) (R := Call.Resp) (Call.now)
/-- The call `yarp::os::Time::delay`.
/repo/libraries/YarpPlugins/BasicCartesianControl/ICartesianControlImpl.cpp:393. -/
def delay (t : ℝ) : P (Unit) := op (S := Ctl) (R := Call.Resp) (Call.delay t)
/-- The call `yarp::os::PeriodicThread::setPeriod`.
/repo/libraries/YarpPlugins/BasicCartesianControl/ICartesianControlImpl.cpp:600. -/
def setPeriod (t : ℝ) : P (Bool) := op (S := Ctl) (R := Call.Resp) (Call.setPeriod t)

end Dev

/-- Joint devices fill in the buffer they are given, which has `numJoints` elements.
External: the devices and the solver called by /repo/libraries/YarpPlugins/BasicCartesianControl/. -/
def DeviceOk (cfg : Cfg) : (c : Call) → c.Resp → Prop
  | .getEncoders, r => ∀ l, r = some l → l.length = cfg.numJoints
  | .getEncoderSpeeds, r => ∀ l, r = some l → l.length = cfg.numJoints
  | .getEncoderAccelerations, r => ∀ l, r = some l → l.length = cfg.numJoints
  | .getControlModes, r => ∀ l, r = some l → l.length = cfg.numJoints
  | .getRefSpeeds, r => ∀ l, r = some l → l.length = cfg.numJoints
  | _, _ => True

/-- The robot, the solver and the clock as an environment.
External: the devices and the solver called by /repo/libraries/YarpPlugins/BasicCartesianControl/. -/
def robot (cfg : Cfg) : Env Call Call.Resp Ev := ⟨DeviceOk cfg, record⟩

/-- A vector handed over as a pointer: the callee reads `numJoints` elements.
The vectors given to the devices at /repo/libraries/YarpPlugins/BasicCartesianControl/ICartesianControlImpl.cpp:107-128, 361-507 and /repo/libraries/YarpPlugins/BasicCartesianControl/BasicCartesianControl.cpp:181-223. -/
def buffer (cfg : Cfg) (l : List ℝ) : Option (List ℝ) :=
  if l.length < cfg.numJoints then none else some (l.take cfg.numJoints)

/-- Conversion from `double` to `int`: towards zero, undefined if it does not fit.
The conversions at /repo/libraries/YarpPlugins/BasicCartesianControl/ICartesianControlImpl.cpp:573-640. -/
noncomputable def toInt (v : ℝ) : Option ℤ :=
  let i : ℤ := if 0 ≤ v then ⌊v⌋ else ⌈v⌉
  if -2147483648 ≤ i ∧ i ≤ 2147483647 then some i else none

/-- `epsilon`, /repo/libraries/YarpPlugins/BasicCartesianControl/BasicCartesianControl.cpp:32. -/
noncomputable def tol : ℝ := 1 / 100000

/-- `sgn`, /repo/libraries/YarpPlugins/BasicCartesianControl/BasicCartesianControl.cpp:23-29. -/
noncomputable def sgn (v : ℝ) : ℤ := (if 0 < v then 1 else 0) - (if v < 0 then 1 else 0)

/-- `for (joint = j; joint < j + k; joint++)` with an early exit returning false.
The loops over joints of /repo/libraries/YarpPlugins/BasicCartesianControl/BasicCartesianControl.cpp:55, 76, 101. -/
def forJoints (f : ℕ → Option Bool) : ℕ → ℕ → Option Bool
  | _, 0 => some true
  | j, k + 1 =>
    match f j with
    | none => none
    | some false => some false
    | some true => forJoints f (j + 1) k

/-- `checkJointLimits(q)`, /repo/libraries/YarpPlugins/BasicCartesianControl/BasicCartesianControl.cpp:53-70. -/
noncomputable def checkJointLimits (cfg : Cfg) (q : List ℝ) : Option Bool :=
  forJoints (fun j => do
    let value ← q[j]?
    let lo ← cfg.qMin[j]?
    let hi ← cfg.qMax[j]?
    if value < lo + tol ∨ value > hi - tol then some false else some true) 0 cfg.numJoints

/-- `checkJointLimits(q, qdot)`, /repo/libraries/YarpPlugins/BasicCartesianControl/BasicCartesianControl.cpp:74-95. -/
noncomputable def checkJointLimitsDir (cfg : Cfg) (q qdot : List ℝ) : Option Bool :=
  forJoints (fun j => do
    let value ← q[j]?
    let lo ← cfg.qMin[j]?
    let hi ← cfg.qMax[j]?
    if value < lo + tol ∨ value > hi - tol then
      let v ← qdot[j]?
      if sgn (value - (hi + lo) / 2) = sgn v then some false else some true
    else some true) 0 cfg.numJoints

/-- `checkJointVelocities`, /repo/libraries/YarpPlugins/BasicCartesianControl/BasicCartesianControl.cpp:99-123. -/
noncomputable def checkJointVelocities (cfg : Cfg) (qdot : List ℝ) : Option Bool :=
  forJoints (fun j => do
    let value ← qdot[j]?
    let lo ← cfg.qdotMin[j]?
    let hi ← cfg.qdotMax[j]?
    if lo = 0 then
      if |value| > hi then some false else some true
    else
      if value < lo ∨ value > hi then some false else some true) 0 cfg.numJoints

/-- `setCurrentState`, /repo/libraries/YarpPlugins/BasicCartesianControl/BasicCartesianControl.cpp:44-49. -/
def setCurrentState (st : CState) : P Unit :=
  modify fun s => { s with state := st, streaming := vocabNotSet }

/-- `getCurrentState`, /repo/libraries/YarpPlugins/BasicCartesianControl/BasicCartesianControl.cpp:36-40. -/
def getCurrentState : P CState := do
  let s ← read
  return s.state

/-- `checkControlModes`, /repo/libraries/YarpPlugins/BasicCartesianControl/BasicCartesianControl.cpp:184-195. -/
def checkControlModes (mode : Mode) : P Bool := do
  match ← Dev.getControlModes with
  | none => return false
  | some (modes : List Mode) => return modes.all (· = mode)

/-- The retry loop at the end of `setControlModes`,
/repo/libraries/YarpPlugins/BasicCartesianControl/BasicCartesianControl.cpp:229-239. -/
noncomputable def retryModes (mode : Mode) : ℕ → P Bool
  | 0 => return false
  | n + 1 => do
    let _ ← (Dev.delay (1 / 10))
    if ← checkControlModes mode then return true else retryModes mode n

/-- The joints that are not in the wanted mode,
/repo/libraries/YarpPlugins/BasicCartesianControl/BasicCartesianControl.cpp:209-217. -/
def jointsNotIn (mode : Mode) (modes : List Mode) : List ℕ :=
  (List.range modes.length).filter fun i => modes[i]? ≠ some mode

/-- `setControlModes`, /repo/libraries/YarpPlugins/BasicCartesianControl/BasicCartesianControl.cpp:199-244. -/
noncomputable def setControlModes (mode : Mode) : P Bool := do
  match ← Dev.getControlModes with
  | none => return false
  | some (modes : List Mode) =>
    let ids := jointsNotIn mode modes
    if ids = [] then retryModes mode 11
    else
      let (ok : Bool) ← (Dev.setControlModes ids mode)
      if ok then retryModes mode 11 else return false

/-- `presetStreamingCommand`, /repo/libraries/YarpPlugins/BasicCartesianControl/BasicCartesianControl.cpp:248-266. -/
noncomputable def presetStreamingCommand (command : ℤ) : P Bool := do
  setCurrentState .notControlling
  if command = vocabPose ∨ command = vocabMovi then setControlModes .positionDirect
  else if command = vocabTwist then setControlModes .velocity
  else if command = vocabWrench then setControlModes .torque
  else return false

/-! ## Speeds of a joint movement -/

/-- First loop of `computeIsocronousSpeeds`,
/repo/libraries/YarpPlugins/BasicCartesianControl/BasicCartesianControl.cpp:275-295: the distances and the
longest time, from joint `j` on for `k` joints. -/
noncomputable def isoDeltas (cfg : Cfg) (q qd : List ℝ) : ℕ → ℕ → ℝ → Option (List ℝ × ℝ)
  | _, 0, maxTime => some ([], maxTime)
  | j, k + 1, maxTime => do
    let ref ← cfg.qRefSpeeds[j]?
    if ref ≤ 0 then
      let (ds, m) ← isoDeltas cfg q qd (j + 1) k maxTime
      some (0 :: ds, m)
    else
      let a ← qd[j]?
      let b ← q[j]?
      let delta := |a - b|
      let targetTime := delta / ref
      let (ds, m) ← isoDeltas cfg q qd (j + 1) k (if targetTime > maxTime then targetTime else maxTime)
      some (delta :: ds, m)

/-- `computeIsocronousSpeeds`, /repo/libraries/YarpPlugins/BasicCartesianControl/BasicCartesianControl.cpp:270-315: the
speeds and whether there is
motion. -/
noncomputable def computeIsocronousSpeeds (cfg : Cfg) (q qd : List ℝ) : Option (List ℝ × Bool) := do
  let (deltas, maxTime) ← isoDeltas cfg q qd 0 cfg.numJoints 0
  if maxTime = 0 then some (deltas.map fun _ => 0, false)
  else some (deltas.map fun d => d / maxTime, true)

/-! ## Movement commands -/

/-- `stat`, /repo/libraries/YarpPlugins/BasicCartesianControl/ICartesianControlImpl.cpp:37-64, without
the time stamp. -/
def stat : P (Option (List ℝ × CState)) := do
  match ← Dev.getEncoders with
  | none => return none
  | some (q : List ℝ) =>
    match ← (Dev.fwdKin q) with
    | none => return none
    | some (x : List ℝ) => do
      let st ← getCurrentState
      return some (x, st)

/-- `inv`, /repo/libraries/YarpPlugins/BasicCartesianControl/ICartesianControlImpl.cpp:68-85. -/
def inv (xd : List ℝ) : P (Option (List ℝ)) := do
  match ← Dev.getEncoders with
  | none => return none
  | some (q : List ℝ) =>
    let s ← read
    (Dev.invKin xd q s.frame)

/-- `std::vector::resize`.
`std::vector::resize`, /repo/libraries/YarpPlugins/BasicCartesianControl/ICartesianControlImpl.cpp:107. -/
def resize (n : ℕ) (l : List ℝ) : List ℝ := l.take n ++ List.replicate (n - l.length) 0

/-- `movj`, /repo/libraries/YarpPlugins/BasicCartesianControl/ICartesianControlImpl.cpp:89-146. A failing
`getRefSpeeds` is taken not to write. -/
noncomputable def movj (cfg : Cfg) (xd : List ℝ) : P Bool := do
  match ← Dev.getEncoders with
  | none => return false
  | some (q : List ℝ) =>
    let s ← read
    match ← (Dev.invKin xd q s.frame) with
    | none => return false
    | some (qd : List ℝ) =>
      let (vmo, moves) ← lift (computeIsocronousSpeeds cfg q qd)
      if moves then
        modify fun s => { s with vmoStored := resize cfg.numJoints s.vmoStored }
        match ← Dev.getRefSpeeds with
        | none => return false
        | some (refs : List ℝ) =>
          modify fun s => { s with vmoStored := refs }
          let (ok : Bool) ← (Dev.setRefSpeeds vmo)
          if ok then
            if ← setControlModes .position then
              let target ← lift (buffer cfg qd)
              let (ok : Bool) ← (Dev.positionMove target)
              if ok then
                modify fun s => { s with cmcSuccess := true }
                setCurrentState .movj
                return true
              else return false
            else return false
          else return false
      else return true

/-- `for (i < xd.size()) x[i] += xd[i]`,
/repo/libraries/YarpPlugins/BasicCartesianControl/ICartesianControlImpl.cpp:165-168. -/
def addPrefix : List ℝ → List ℝ → Option (List ℝ)
  | x, [] => some x
  | [], _ :: _ => none
  | x :: xs, d :: ds => (addPrefix xs ds).map ((x + d) :: ·)

/-- `relj`, /repo/libraries/YarpPlugins/BasicCartesianControl/ICartesianControlImpl.cpp:150-171. -/
noncomputable def relj (cfg : Cfg) (xd : List ℝ) : P Bool := do
  let s ← read
  if s.frame = .tcp then movj cfg xd
  else
    match ← Dev.getEncoders with
    | none => return false
    | some (q : List ℝ) =>
      match ← (Dev.fwdKin q) with
      | none => return false
      | some (x : List ℝ) =>
        let x' ← lift (addPrefix x xd)
        movj cfg x'

/-- The six elements of slice `i` of a vector.
/repo/libraries/YarpPlugins/BasicCartesianControl/ICartesianControlImpl.cpp:215-216 and 273-274. -/
def slice (l : List ℝ) (i : ℕ) : Option (List ℝ) :=
  if l.length < (i + 1) * 6 then none else some ((l.drop (i * 6)).take 6)

/-- The trajectories of `movl`, /repo/libraries/YarpPlugins/BasicCartesianControl/ICartesianControlImpl.cpp:213-226,
from slice `i` on for `k` slices. -/
noncomputable def lineTrajs (cfg : Cfg) (duration : ℝ) (xStart xEnd : List ℝ) :
    ℕ → ℕ → Option (List Traj)
  | _, 0 => some []
  | i, k + 1 => do
    let a ← slice xStart i
    let b ← slice xEnd i
    let rest ← lineTrajs cfg duration xStart xEnd (i + 1) k
    some (cfg.line (KdlVectorConverter.vectorToFrame a) (KdlVectorConverter.vectorToFrame b) duration
      :: rest)

/-- The trajectories of `movv`, /repo/libraries/YarpPlugins/BasicCartesianControl/ICartesianControlImpl.cpp:271-285. -/
noncomputable def rayTrajs (cfg : Cfg) (xStart xdot : List ℝ) : ℕ → ℕ → Option (List Traj)
  | _, 0 => some []
  | i, k + 1 => do
    let a ← slice xStart i
    let b ← slice xdot i
    let rest ← rayTrajs cfg xStart xdot (i + 1) k
    some (cfg.ray (KdlVectorConverter.vectorToFrame a) (KdlVectorConverter.vectorToTwist b) :: rest)

/-- The poses of all trajectories at one time, as `doFailFastChecks` and `handleMovlPosd` gather
them, /repo/libraries/YarpPlugins/BasicCartesianControl/BasicCartesianControl.cpp:154-161. -/
noncomputable def posesAt (ts : List Traj) (t : ℝ) : List ℝ :=
  ts.flatMap fun tr => KdlVectorConverter.frameToVector (tr.pos t)

/-- The velocities of all trajectories at one time.
/repo/libraries/YarpPlugins/BasicCartesianControl/PeriodicThreadImpl.cpp:136 and 263. -/
noncomputable def twistsAt (ts : List Traj) (t : ℝ) : List ℝ :=
  ts.flatMap fun tr => KdlVectorConverter.twistToVector (tr.vel t)

/-- `std::transform(newQ..., oldQ.cbegin(), qdot.begin(), std::minus)`,
/repo/libraries/YarpPlugins/BasicCartesianControl/BasicCartesianControl.cpp:169,
where `qdot` is a buffer of fixed size. -/
def displacement (newQ oldQ qdot : List ℝ) : Option (List ℝ) :=
  if newQ.length ≤ oldQ.length ∧ newQ.length ≤ qdot.length then
    some (List.zipWith (· - ·) newQ oldQ ++ qdot.drop newQ.length)
  else none

/-- The loop of `doFailFastChecks`,
/repo/libraries/YarpPlugins/BasicCartesianControl/BasicCartesianControl.cpp:152-178, over the sampled times. -/
noncomputable def failFastLoop (cfg : Cfg) (ts : List Traj) :
    List ℝ → List ℝ → List ℝ → P Bool
  | [], _, _ => return true
  | t :: rest, oldQ, qdot => do
    match ← (Dev.invKin (posesAt ts t) oldQ .base) with
    | none => return false
    | some (newQ : List ℝ) =>
      let qdot' ← lift (displacement newQ oldQ qdot)
      let ok1 ← lift (checkJointLimits cfg newQ)
      if ok1 then
        let ok2 ← lift (checkJointVelocities cfg qdot')
        if ok2 then failFastLoop cfg ts rest newQ qdot' else return false
      else return false

/-- The longest duration, /repo/libraries/YarpPlugins/BasicCartesianControl/BasicCartesianControl.cpp:145-150. -/
noncomputable def maxDuration (ts : List Traj) : ℝ := ts.foldl (fun m t => max m t.duration) 0

/-- The sampled times `0, timestep, 2·timestep, … ≤ maxDuration`,
/repo/libraries/YarpPlugins/BasicCartesianControl/BasicCartesianControl.cpp:152, for a
positive time step; no rounding of the accumulated sum. -/
noncomputable def sampleTimes (timestep maxDur : ℝ) : List ℝ :=
  (List.range (⌊maxDur / timestep⌋₊ + 1)).map fun i : ℕ => i * timestep

/-- `doFailFastChecks`, /repo/libraries/YarpPlugins/BasicCartesianControl/BasicCartesianControl.cpp:127-180. A period
that is not positive makes the
loop endless. -/
noncomputable def doFailFastChecks (cfg : Cfg) (initialQ : List ℝ) : P Bool := do
  let s ← read
  if s.trajectories = [] then return false
  else if s.period ≤ 0 then Prog.ub
  else
    failFastLoop cfg s.trajectories (sampleTimes (s.period * (1 / 2)) (maxDuration s.trajectories))
      initialQ (List.replicate (cfg.numTcps * 6) 0)

/-- The control mode of a linear movement,
/repo/libraries/YarpPlugins/BasicCartesianControl/ICartesianControlImpl.cpp:234. -/
def movlMode (cfg : Cfg) : Mode := if cfg.usePosdMovl then .positionDirect else .velocity

/-- Second half of `movl`, /repo/libraries/YarpPlugins/BasicCartesianControl/ICartesianControlImpl.cpp:228-246. -/
noncomputable def movlStart (cfg : Cfg) (q : List ℝ) : P Bool := do
  let ok ← if cfg.enableFailFast then doFailFastChecks cfg q else pure true
  if ok then
    if ← setControlModes (movlMode cfg) then
      let (t : ℝ) ← Dev.now
      modify fun s => { s with movementStartTime := t }
      modify fun s => { s with cmcSuccess := true }
      setCurrentState .movl
      return true
    else return false
  else return false

/-- `movl`, /repo/libraries/YarpPlugins/BasicCartesianControl/ICartesianControlImpl.cpp:175-247. The trajectories are
built in one step. -/
noncomputable def movl (cfg : Cfg) (xd : List ℝ) : P Bool := do
  match ← Dev.getEncoders with
  | none => return false
  | some (q : List ℝ) =>
    match ← (Dev.fwdKin q) with
    | none => return false
    | some (x : List ℝ) =>
      let s ← read
      let (obj : Option (List ℝ)) ←
        if s.frame = .tcp then (Dev.changeOrigin xd x) else pure (some xd)
      match obj with
      | none => return false
      | some xdObj =>
        modify fun s => { s with trajectories := [] }
        let s ← read
        let ts ← lift (lineTrajs cfg s.duration x xdObj 0 (xd.length / 6))
        modify fun s => { s with trajectories := ts }
        movlStart cfg q

/-- `movv`, /repo/libraries/YarpPlugins/BasicCartesianControl/ICartesianControlImpl.cpp:251-302. -/
noncomputable def movv (cfg : Cfg) (xdotd : List ℝ) : P Bool := do
  match ← Dev.getEncoders with
  | none => return false
  | some (q : List ℝ) =>
    match ← (Dev.fwdKin q) with
    | none => return false
    | some (x : List ℝ) =>
      modify fun s => { s with trajectories := [] }
      let ts ← lift (rayTrajs cfg x xdotd 0 (xdotd.length / 6))
      modify fun s => { s with trajectories := ts }
      if ← setControlModes .velocity then
        let (t : ℝ) ← Dev.now
        modify fun s => { s with movementStartTime := t }
        modify fun s => { s with cmcSuccess := true }
        setCurrentState .movv
        return true
      else return false

/-- `gcmp`, /repo/libraries/YarpPlugins/BasicCartesianControl/ICartesianControlImpl.cpp:306-316. -/
noncomputable def gcmp : P Bool := do
  if ← setControlModes .torque then
    setCurrentState .gcmp
    return true
  else return false

/-- `forc`, /repo/libraries/YarpPlugins/BasicCartesianControl/ICartesianControlImpl.cpp:320-344. -/
noncomputable def forc (fd : List ℝ) : P Bool := do
  let s ← read
  if s.frame = .tcp then return false
  else
    modify fun s => { s with fd := fd.map fun v => -v }
    if ← setControlModes .torque then
      setCurrentState .forc
      return true
    else return false

/-- `stopControl`, /repo/libraries/YarpPlugins/BasicCartesianControl/ICartesianControlImpl.cpp:348-369. -/
noncomputable def stopControl : P Bool := do
  setCurrentState .notControlling
  let _ ← setControlModes .position
  let (_ : Bool) ← Dev.stop
  modify fun s => { s with trajectories := [] }
  return true

/-- The loop of `wait`, /repo/libraries/YarpPlugins/BasicCartesianControl/ICartesianControlImpl.cpp:384-397, for at
most `n` turns (`none`: still
waiting). -/
noncomputable def waitLoop (timeout start : ℝ) : ℕ → CState → P (Option Bool)
  | 0, _ => return none
  | n + 1, st => do
    if st = .notControlling then
      let s ← read
      return some s.cmcSuccess
    else
      let expired ← if timeout ≠ 0 then do
          let (t : ℝ) ← Dev.now
          pure (decide (t - start > timeout))
        else pure false
      if expired then
        let _ ← stopControl
        let s ← read
        return some s.cmcSuccess
      else
        let s ← read
        let _ ← (Dev.delay (s.waitPeriodMs / 1000))
        let st' ← getCurrentState
        waitLoop timeout start n st'

/-- `wait`, /repo/libraries/YarpPlugins/BasicCartesianControl/ICartesianControlImpl.cpp:373-398, with at most `n` turns
of its loop. -/
noncomputable def wait (timeout : ℝ) (n : ℕ) : P (Option Bool) := do
  let st ← getCurrentState
  if st ≠ .movj ∧ st ≠ .movl then return some true
  else
    let (start : ℝ) ← Dev.now
    waitLoop timeout start n st

/-- `tool`, /repo/libraries/YarpPlugins/BasicCartesianControl/ICartesianControlImpl.cpp:402-417. -/
def tool (x : List ℝ) : P Bool := do
  let (ok : Bool) ← Dev.restoreOriginalChain
  if ok then (Dev.appendLink x) else return false

/-! ## Streaming commands -/

/-- `qdiff`, /repo/libraries/YarpPlugins/BasicCartesianControl/ICartesianControlImpl.cpp:454-459. -/
def jointDiff (cfg : Cfg) (q currentQ : List ℝ) : Option (List ℝ) :=
  if q.length < cfg.numJoints ∨ currentQ.length < cfg.numJoints then none
  else some (List.zipWith (· - ·) (q.take cfg.numJoints) (currentQ.take cfg.numJoints))

/-- The condition at the beginning of `pose`, `twist` and `wrench`: not controlling, one of the
streaming commands set, all joints in the mode.
/repo/libraries/YarpPlugins/BasicCartesianControl/ICartesianControlImpl.cpp:431-434, 477-478, 517-518. -/
def streamingReady (cmds : List ℤ) (mode : Mode) : P Bool := do
  let st ← getCurrentState
  if st ≠ .notControlling then return false
  else
    let s ← read
    if s.streaming ∈ cmds then checkControlModes mode else return false

/-- `pose`, /repo/libraries/YarpPlugins/BasicCartesianControl/ICartesianControlImpl.cpp:429-471. -/
noncomputable def pose (cfg : Cfg) (x : List ℝ) : P Unit := do
  if ← streamingReady [vocabPose, vocabMovi] .positionDirect then
    match ← Dev.getEncoders with
    | none => return ()
    | some (currentQ : List ℝ) =>
      let s ← read
      match ← (Dev.invKin x currentQ s.frame) with
      | none => return ()
      | some (q : List ℝ) =>
        let qdiff ← lift (jointDiff cfg q currentQ)
        let ok ← lift (checkJointLimitsDir cfg currentQ qdiff)
        if ok then
          let target ← lift (buffer cfg q)
          let (_ : Bool) ← (Dev.setPositions target)
          return ()
        else return ()

/-- The body of `twist`, /repo/libraries/YarpPlugins/BasicCartesianControl/ICartesianControlImpl.cpp:487-510; false:
the watcher is not suppressed. -/
noncomputable def twistBody (cfg : Cfg) (xdot : List ℝ) : P Bool := do
  match ← Dev.getEncoders with
  | none => return false
  | some (currentQ : List ℝ) =>
    let s ← read
    match ← (Dev.diffInvKin currentQ xdot s.frame) with
    | none => return false
    | some (qdot : List ℝ) =>
      let ok1 ← lift (checkJointLimitsDir cfg currentQ qdot)
      if ok1 then
        let ok2 ← lift (checkJointVelocities cfg qdot)
        if ok2 then
          let v ← lift (buffer cfg qdot)
          let (_ : Bool) ← (Dev.velocityMove v)
          return true
        else return false
      else return false

/-- `twist`, /repo/libraries/YarpPlugins/BasicCartesianControl/ICartesianControlImpl.cpp:475-511. -/
noncomputable def twist (cfg : Cfg) (xdot : List ℝ) : P Unit := do
  if ← streamingReady [vocabTwist] .velocity then
    if ← twistBody cfg xdot then return ()
    else
      let (_ : Bool) ← (Dev.velocityMove (List.replicate cfg.numJoints 0))
      return ()

/-- The body of `wrench`, /repo/libraries/YarpPlugins/BasicCartesianControl/ICartesianControlImpl.cpp:527-568. -/
noncomputable def wrenchBody (cfg : Cfg) (w : List ℝ) : P Bool := do
  match ← Dev.getEncoders with
  | none => return false
  | some (q : List ℝ) =>
    match ← Dev.getEncoderSpeeds with
    | none => return false
    | some (qdot : List ℝ) =>
      match ← Dev.getEncoderAccelerations with
      | none => return false
      | some (qdotdot : List ℝ) =>
        let ok ← lift (checkJointLimits cfg q)
        if ok then
          let s ← read
          match ← (Dev.invDyn q qdot qdotdot (w.map fun v => -v) s.frame) with
          | none => return false
          | some (t : List ℝ) =>
            let t' ← lift (buffer cfg t)
            let (_ : Bool) ← (Dev.setRefTorques t')
            return true
        else return false

/-- `wrench`, /repo/libraries/YarpPlugins/BasicCartesianControl/ICartesianControlImpl.cpp:515-569. -/
noncomputable def wrench (cfg : Cfg) (w : List ℝ) : P Unit := do
  if ← streamingReady [vocabWrench] .torque then
    if ← wrenchBody cfg w then return ()
    else
      let (_ : Bool) ← (Dev.setRefTorques (List.replicate cfg.numJoints 0))
      return ()

/-! ## Parameters -/

/-- The parameter keys `VOCAB_CC_CONFIG_*`; any other key is `unknown`.
/repo/libraries/YarpPlugins/ICartesianControl.h:129-135. -/
inductive Key | gain | duration | cmcPeriod | waitPeriod | frame | streaming | unknown
  deriving DecidableEq

/-- `setParameter`, /repo/libraries/YarpPlugins/BasicCartesianControl/ICartesianControlImpl.cpp:573-637. -/
noncomputable def setParameter (key : Key) (value : ℝ) : P Bool := do
  let st ← getCurrentState
  if st ≠ .notControlling then return false
  else
    match key with
    | .gain =>
      if value < 0 then return false
      else
        modify fun s => { s with gain := value }
        return true
    | .duration =>
      if value ≤ 0 then return false
      else
        modify fun s => { s with duration := value }
        return true
    | .cmcPeriod =>
      let (ok : Bool) ← (Dev.setPeriod (value * (1 / 1000)))
      if ok then
        modify fun s => { s with period := value * (1 / 1000) }
        let i ← lift (toInt value)
        modify fun s => { s with cmcPeriodMs := i }
        return true
      else return false
    | .waitPeriod =>
      if value ≤ 0 then return false
      else
        let i ← lift (toInt value)
        modify fun s => { s with waitPeriodMs := i }
        return true
    | .frame =>
      if value ≠ vocabBaseFrame ∧ value ≠ vocabTcpFrame then return false
      else
        modify fun s => { s with frame := if value = vocabTcpFrame then .tcp else .base }
        return true
    | .streaming =>
      let i ← lift (toInt value)
      if ← presetStreamingCommand i then
        modify fun s => { s with streaming := i }
        return true
      else return false
    | .unknown => return false

/-- The number reported for a reference frame. /repo/libraries/YarpPlugins/ICartesianSolver.h:26. -/
def RefFrame.vocab : RefFrame → ℤ
  | .base => vocabBaseFrame
  | .tcp => vocabTcpFrame

/-- What `getParameter` reports, /repo/libraries/YarpPlugins/BasicCartesianControl/ICartesianControlImpl.cpp:641-669. -/
noncomputable def param (s : Ctl) : Key → Option ℝ
  | .gain => some s.gain
  | .duration => some s.duration
  | .cmcPeriod => some s.cmcPeriodMs
  | .waitPeriod => some s.waitPeriodMs
  | .frame => some s.frame.vocab
  | .streaming => some s.streaming
  | .unknown => none

/-- `getParameter`. /repo/libraries/YarpPlugins/BasicCartesianControl/ICartesianControlImpl.cpp:641. -/
noncomputable def getParameter (key : Key) : P (Option ℝ) := do
  let s ← read
  return param s key

/-- `getParameters`, /repo/libraries/YarpPlugins/BasicCartesianControl/ICartesianControlImpl.cpp:693-702, on a map
given by the caller: `emplace` does not
touch entries that exist. -/
noncomputable def getParameters (params : Key → Option ℝ) : P (Key → Option ℝ) := do
  let s ← read
  return fun k => (params k).or (param s k)

/-- The loop of `setParameters`, /repo/libraries/YarpPlugins/BasicCartesianControl/ICartesianControlImpl.cpp:681-688. -/
noncomputable def setAll : List (Key × ℝ) → Bool → P Bool
  | [], ok => return ok
  | (k, v) :: rest, ok => do
    let b ← setParameter k v
    setAll rest (ok && b)

/-- `setParameters`, /repo/libraries/YarpPlugins/BasicCartesianControl/ICartesianControlImpl.cpp:673-689; a map is the
list of its entries in the order
of the keys. -/
noncomputable def setParameters (params : List (Key × ℝ)) : P Bool := do
  let st ← getCurrentState
  if st ≠ .notControlling then return false else setAll params true

/-! ## The control loop -/

/-- `handleMovj`, /repo/libraries/YarpPlugins/BasicCartesianControl/PeriodicThreadImpl.cpp:82-109; the
result tells whether the watcher was suppressed. -/
noncomputable def handleMovj (cfg : Cfg) : P Bool := do
  if ← checkControlModes .position then
    match ← Dev.checkMotionDone with
    | none => return false
    | some (done : Bool) =>
      if done then
        setCurrentState .notControlling
        let s ← read
        let v ← lift (buffer cfg s.vmoStored)
        let (_ : Bool) ← (Dev.setRefSpeeds v)
        return true
      else return true
  else return false

/-- The control law, /repo/libraries/YarpPlugins/BasicCartesianControl/PeriodicThreadImpl.cpp:156-160, 279-283:
undefined if the desired velocities are
fewer; not a number if the period is zero. -/
noncomputable def controlLaw (gain : ℝ) (periodMs : ℤ) (diff desired : List ℝ) : Option (List ℝ) :=
  if diff = [] then some []
  else if periodMs = 0 ∨ desired.length < diff.length then none
  else some (List.zipWith (fun d v => d * (gain * (1000 / periodMs)) + v) diff desired)

/-- The end of `handleMovlVel` and `handleMovv`,
/repo/libraries/YarpPlugins/BasicCartesianControl/PeriodicThreadImpl.cpp:152-185, 275-304. -/
noncomputable def sendVelocity (cfg : Cfg) (q currentX desiredX desiredXdot : List ℝ)
    (frame : RefFrame) : P Bool := do
  let ((_, diff) : Bool × List ℝ) ← (Dev.poseDiff desiredX currentX)
  let s ← read
  let xdot ← lift (controlLaw s.gain s.cmcPeriodMs diff desiredXdot)
  match ← (Dev.diffInvKin q xdot frame) with
  | none => return false
  | some (qdot : List ℝ) =>
    let ok ← lift (checkJointVelocities cfg qdot)
    if ok then
      let v ← lift (buffer cfg qdot)
      let (_ : Bool) ← (Dev.velocityMove v)
      return true
    else return false

/-- `handleMovlVel`, /repo/libraries/YarpPlugins/BasicCartesianControl/PeriodicThreadImpl.cpp:113-186. -/
noncomputable def handleMovlVel (cfg : Cfg) (q : List ℝ) : P Bool := do
  if ← checkControlModes .velocity then
    let (t : ℝ) ← Dev.now
    let s ← read
    let time := t - s.movementStartTime
    if s.trajectories.any (fun tr => decide (time > tr.duration)) then
      let _ ← stopControl
      return true
    else
      match ← (Dev.fwdKin q) with
      | none => return false
      | some (currentX : List ℝ) =>
        sendVelocity cfg q currentX (posesAt s.trajectories time) (twistsAt s.trajectories time) .base
  else return false

/-- `handleMovlPosd`, /repo/libraries/YarpPlugins/BasicCartesianControl/PeriodicThreadImpl.cpp:190-234. -/
noncomputable def handleMovlPosd (cfg : Cfg) (q : List ℝ) : P Bool := do
  if ← checkControlModes .positionDirect then
    let (t : ℝ) ← Dev.now
    let s ← read
    let time := t - s.movementStartTime
    if s.trajectories.any (fun tr => decide (time > tr.duration)) then
      let _ ← stopControl
      return true
    else
      match ← (Dev.invKin (posesAt s.trajectories time) q .base) with
      | none => return false
      | some (commandQ : List ℝ) =>
        let v ← lift (buffer cfg commandQ)
        let (_ : Bool) ← (Dev.setPositions v)
        return true
  else return false

/-- `handleMovv`, /repo/libraries/YarpPlugins/BasicCartesianControl/PeriodicThreadImpl.cpp:238-305. -/
noncomputable def handleMovv (cfg : Cfg) (q : List ℝ) : P Bool := do
  if ← checkControlModes .velocity then
    let (t : ℝ) ← Dev.now
    match ← (Dev.fwdKin q) with
    | none => return false
    | some (currentX : List ℝ) =>
      let s ← read
      let time := t - s.movementStartTime
      sendVelocity cfg q currentX (posesAt s.trajectories time) (twistsAt s.trajectories time) s.frame
  else return false

/-- `handleGcmp`, /repo/libraries/YarpPlugins/BasicCartesianControl/PeriodicThreadImpl.cpp:309-331. -/
noncomputable def handleGcmp (cfg : Cfg) (q : List ℝ) : P Bool := do
  if ← checkControlModes .torque then
    match ← (Dev.invDynStatic q) with
    | none => return false
    | some (t : List ℝ) =>
      let v ← lift (buffer cfg t)
      let (_ : Bool) ← (Dev.setRefTorques v)
      return true
  else return false

/-- `handleForc`, /repo/libraries/YarpPlugins/BasicCartesianControl/PeriodicThreadImpl.cpp:335-358. -/
noncomputable def handleForc (cfg : Cfg) (q qdot qdotdot : List ℝ) : P Bool := do
  if ← checkControlModes .torque then
    let s ← read
    match ← (Dev.invDyn q qdot qdotdot s.fd s.frame) with
    | none => return false
    | some (t : List ℝ) =>
      let v ← lift (buffer cfg t)
      let (_ : Bool) ← (Dev.setRefTorques v)
      return true
  else return false

/-- The three encoder reads of `run`, /repo/libraries/YarpPlugins/BasicCartesianControl/PeriodicThreadImpl.cpp:33. -/
def readEncoders : P (Option (List ℝ × List ℝ × List ℝ)) := do
  match ← Dev.getEncoders with
  | none => return none
  | some (q : List ℝ) =>
    match ← Dev.getEncoderSpeeds with
    | none => return none
    | some (qdot : List ℝ) =>
      match ← Dev.getEncoderAccelerations with
      | none => return none
      | some (qdotdot : List ℝ) => return some (q, qdot, qdotdot)

/-- `MAX_ENCODER_ERRORS`, /repo/libraries/YarpPlugins/BasicCartesianControl/PeriodicThreadImpl.cpp:13. -/
def maxEncoderErrors : ℕ := 20

/-- The dispatch of `run`, /repo/libraries/YarpPlugins/BasicCartesianControl/PeriodicThreadImpl.cpp:57-77. -/
noncomputable def dispatch (cfg : Cfg) (st : CState) (q qdot qdotdot : List ℝ) : P Bool :=
  match st with
  | .movj => handleMovj cfg
  | .movl => if cfg.usePosdMovl then handleMovlPosd cfg q else handleMovlVel cfg q
  | .movv => handleMovv cfg q
  | .gcmp => handleGcmp cfg q
  | .forc => handleForc cfg q qdot qdotdot
  | .notControlling => return false

/-- The part of `run` watched by the state watcher,
/repo/libraries/YarpPlugins/BasicCartesianControl/PeriodicThreadImpl.cpp:29-78. -/
noncomputable def runBody (cfg : Cfg) (st : CState) : P Bool := do
  match ← readEncoders with
  | none =>
    modify fun s => { s with encoderErrors := s.encoderErrors + 1 }
    let s ← read
    return decide (s.encoderErrors ≤ maxEncoderErrors)
  | some (q, qdot, qdotdot) =>
    modify fun s => { s with encoderErrors := 0 }
    let ok ← lift (checkJointLimits cfg q)
    if ok then dispatch cfg st q qdot qdotdot else return false

/-- One cycle of the control loop: `run`,
/repo/libraries/YarpPlugins/BasicCartesianControl/PeriodicThreadImpl.cpp:18-78, with the state watcher of
line 27 (/repo/libraries/YarpPlugins/BasicCartesianControl/BasicCartesianControl.hpp:144-159). -/
noncomputable def run (cfg : Cfg) : P Unit := do
  let st ← getCurrentState
  if st = .notControlling then return ()
  else
    if ← runBody cfg st then return ()
    else
      modify fun s => { s with cmcSuccess := false }
      let _ ← stopControl
      return ()

/-! ## Opening the device -/

/-- The joint limits kept by `open`, /repo/libraries/YarpPlugins/BasicCartesianControl/DeviceDriverImpl.cpp:130-188:
the ones of the robot, unless the
user's configuration has `mins`, `maxs` and `maxvels`, when nothing is stored. -/
def openLimits (userLimits : Bool) (robotMin robotMax robotVelMin robotVelMax : List ℝ) :
    List ℝ × List ℝ × List ℝ × List ℝ :=
  if userLimits then ([], [], [], []) else (robotMin, robotMax, robotVelMin, robotVelMax)

end KD.Ctrl
