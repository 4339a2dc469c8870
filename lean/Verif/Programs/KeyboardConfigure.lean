import Verif.Programs.KeyboardSession
import Verif.Solver.KdlConfig
import Verif.Repr.KinRepresentation
import Verif.Ctrl.Controller

/-!
# How the keyboard controller starts, and what it prints

`configure`, `printJointPositions` and `printCartesianPositions` of
/repo/programs/keyboardController/KeyboardController.cpp. Both devices are external: what they answer while the program
starts is a `Board` and a `Client`. The settings of the terminal and the help text are left out. Reals stand for
`double` and for the steps, which are read as `float`.
-/

namespace KD.Kbd

open scoped Classical
open KdlConfig (Val Group)

/-- What the remote control board answers, /repo/programs/keyboardController/KeyboardController.cpp:142-203: the
interfaces that it has, the number of axes, and the limits of position and velocity of each. `none` is an answer of
`false`; a negative number of axes is not modelled. -/
structure Board where
  encoders : Bool := true
  controlMode : Bool := true
  controlLimits : Bool := true
  positionControl : Bool := true
  velocityControl : Bool := true
  axes : Option ℕ
  limits : ℕ → Option (ℝ × ℝ)
  velLimits : ℕ → Option (ℝ × ℝ)

/-- What the Cartesian client answers, /repo/programs/keyboardController/KeyboardController.cpp:242-297: whether it has
the interface, its parameter for the reference frame, whether it tells its parameters, and whether the system starts
the thread. -/
structure Client where
  cartesian : Bool := true
  frame : Option ℝ
  params : Bool := true
  thread : Bool := true

/-- The network: what is found by the local and the remote name. `none` is a device that does not open.
External: `PolyDriver::open`, used in /repo/programs/keyboardController/KeyboardController.cpp:136 and 236. -/
structure Net where
  board : String → Val → Option Board
  client : String → Val → Option Client

/-- What the part of `configure` for the control board sets, lines 128-226. Members that are not set keep the initial
values of /repo/programs/keyboardController/KeyboardController.hpp:78-107. -/
structure BoardPart where
  axes : ℕ
  minPos : ℕ → ℝ
  maxPos : ℕ → ℝ
  maxVel : ℕ → ℝ
  jointMode : JointMode
  posStep : ℝ
  velStep : ℝ

/-- The loop that asks for the limits of joints `i`, `i + 1`, …, `i + n - 1`,
/repo/programs/keyboardController/KeyboardController.cpp:182-204: lower and upper limits of the position and highest
velocity. The lowest velocity is not kept. `none` is a returned `false`. -/
def readLimits (b : Board) (i : ℕ) : ℕ → Option (List (ℝ × ℝ × ℝ))
  | 0 => some []
  | n + 1 => do
    let (lo, hi) ← b.limits i
    let (_, v) ← b.velLimits i
    let l ← readLimits b (i + 1) n
    return (lo, hi, v) :: l

/-- `jointMode`, /repo/programs/keyboardController/KeyboardController.cpp:208-222. -/
def parseJointMode (s : String) : Option JointMode :=
  if s = "pos" then some .position
  else if s = "vel" then some .velocity
  else none

/-- `configure` if the option `remoteRobot` is given, /repo/programs/keyboardController/KeyboardController.cpp:142-226;
`none` is a returned `false`. -/
noncomputable def configureBoard (o : Group) (b : Board) : Option BoardPart :=
  if !b.encoders || !b.controlMode || !b.controlLimits || !b.positionControl || !b.velocityControl then none
  else
    b.axes.bind fun n =>
    if n > 9 then none
    else
      (readLimits b 0 n).bind fun l =>
      (parseJointMode (o.check "jointMode" (.str "vel")).asString).map fun m =>
      { axes := n
        minPos := fun j => (l.getD j (0, 0, 0)).1
        maxPos := fun j => (l.getD j (0, 0, 0)).2.1
        maxVel := fun j => (l.getD j (0, 0, 0)).2.2
        jointMode := m
        posStep := (o.check "jointPosStep" (.num 1)).asFloat
        velStep := (o.check "jointVelStep" (.num (1 / 2))).asFloat }

/-- What the part of `configure` for the Cartesian controller sets, lines 228-299: whether the frame is that of the
tool, the name printed with a pose, the representation used for it, whether the thread is used, and its period in
milliseconds. /repo/programs/keyboardController/KeyboardController.hpp:78-107. -/
structure CartPart where
  tcpFrame : Bool
  label : String
  orient : KinRepr.Orient
  usingThread : Bool
  period : ℤ

/-- `configure` if the option `remoteCartesian` is given,
/repo/programs/keyboardController/KeyboardController.cpp:242-299; `none` is a returned `false`. -/
noncomputable def configureCart (o : Group) (c : Client) : Option CartPart :=
  if !c.cartesian then none
  else
    c.frame.bind fun frame =>
    if frame ≠ Ctrl.vocabBaseFrame ∧ frame ≠ Ctrl.vocabTcpFrame then none
    else
      let name := (o.check "angleRepr" (.str "axisAngle")).asString
      let parsed := KinRepr.parseOrient name .axisAngle
      let label := if parsed.1 then name else "axisAngle"
      let usingThread := (o "pose").isSome || (o "movi").isSome
      let period := (o.check "posePeriodMs" (o.check "moviPeriodMs" (.int 50))).asInt
      if usingThread && !c.params then none
      else if usingThread && !c.thread then none
      else some ⟨decide (frame = Ctrl.vocabTcpFrame), label, parsed.2, usingThread, period⟩

/-- The program after a successful `configure`: what stays, what changes, and the calls made so far.
/repo/programs/keyboardController/KeyboardController.hpp:78-107. -/
structure Started where
  cfg : Cfg
  st : St
  cart : Option CartPart
  calls : List Ev

/-- Whether the control board is used, and what is known of it then.
/repo/programs/keyboardController/KeyboardController.cpp:128-140. -/
noncomputable def startBoard (o : Group) (w : Net) (name : String) : Option (Option BoardPart) :=
  match o "remoteRobot" with
  | none => some none
  | some v => (w.board (name ++ "/joint") v).bind fun b => (configureBoard o b).map some

/-- Whether the Cartesian controller is used, and what is known of it then.
/repo/programs/keyboardController/KeyboardController.cpp:228-240. -/
noncomputable def startCart (o : Group) (w : Net) (name : String) : Option (Option CartPart) :=
  match o "remoteCartesian" with
  | none => some none
  | some v => (w.client (name ++ "/cartesian") v).bind fun c => (configureCart o c).map some

/-- `configure`, /repo/programs/keyboardController/KeyboardController.cpp:113-306: both parts, and a stop at the end,
whose answers are `a`. The thread is started suspended, lines 291-293. `none` is a returned `false`; nothing has been
asked of the robot but its limits and parameters then. -/
noncomputable def configure (o : Group) (w : Net) (a : Ans) : Option Started :=
  if (o "remoteRobot").isNone && (o "remoteCartesian").isNone then none
  else
    let name := (o.check "local" (.str "/keyboardController")).asString
    (startBoard o w name).bind fun b =>
    (startCart o w name).map fun c =>
    let cfg : Cfg := {
      board := b.isSome
      cart := c.isSome
      axes := (b.map BoardPart.axes).getD 0
      minPos := (b.map BoardPart.minPos).getD fun _ => 0
      maxPos := (b.map BoardPart.maxPos).getD fun _ => 0
      maxVel := (b.map BoardPart.maxVel).getD fun _ => 0
      posStep := (b.map BoardPart.posStep).getD 0
      velStep := (b.map BoardPart.velStep).getD 0
      usingThread := (c.map CartPart.usingThread).getD false }
    let st : St := {
      jointMode := (b.map BoardPart.jointMode).getD .velocity
      tcpFrame := (c.map CartPart.tcpFrame).getD false }
    ⟨cfg, (issueStop cfg st a).1, c, (issueStop cfg st a).2⟩

/-- `roundZeroes` on a vector of any size, /repo/programs/keyboardController/KeyboardController.cpp:71-86. -/
noncomputable def roundAll (l : List ℝ) : List ℝ := l.map fun v => if |v| < 1 / 1000000 then 0 else v

/-- The numbers that `printJointPositions` shows, /repo/programs/keyboardController/KeyboardController.cpp:733-737:
`encoders` is what the board answers, `none` if it fails, which leaves the zeros the vector was made with. The answer
itself is not looked at. -/
noncomputable def printedJoints (axes : ℕ) (encoders : Option (ℕ → ℝ)) : List ℝ :=
  roundAll ((List.range axes).map fun j => (encoders.map fun q => q j).getD 0)

/-- The numbers that `printCartesianPositions` shows, /repo/programs/keyboardController/KeyboardController.cpp:749-754:
`x` is the vector after `stat`, which stays empty if that fails. It is converted in place, and the answer of the
conversion is not looked at. `none` is undefined behaviour. -/
noncomputable def printedPose (p : CartPart) (x : List ℝ) : Option (List ℝ) :=
  (KinRepr.decodePose .cartesian p.orient .degrees ⟨[], x, true⟩).map fun r => roundAll r.2.dst

end KD.Kbd
