import Verif.Ctrl.History
import Verif.Solver.KdlConfig

/-!
# Opening the controller

`open` of /repo/libraries/YarpPlugins/BasicCartesianControl/DeviceDriverImpl.cpp on a new device. Options go from
device to device as texts (lines 65, 127, 181-183), taken here to be read back as they were. The robot and the
solver are whatever their `open` gives for the options; log messages and the time stamps of the robot (lines
110-113) are left out.
-/

namespace KD.Ctrl

open KdlConfig (Val Group Config)

/-- `Property::put`.
`yarp::os::Property::put`, used in /repo/libraries/YarpPlugins/BasicCartesianControl/DeviceDriverImpl.cpp. -/
def putOption (c : Config) (key : String) (v : Val) : Config where
  top := fun k => if k = key then some v else c.top k
  group := c.group

/-- The opened device of the robot: the interfaces it has, and what it answers while the controller is opened.
The interfaces viewed in /repo/libraries/YarpPlugins/BasicCartesianControl/DeviceDriverImpl.cpp. -/
structure RobotDevice where
  encoders : Bool
  positionControl : Bool
  positionDirect : Bool
  velocityControl : Bool
  torqueControl : Bool
  controlMode : Bool
  controlLimits : Bool
  /-- `IEncoders::getAxes`, `none` if it fails. -/
  axes : Option ℕ
  /-- `IPositionControl::getRefSpeeds` for that many axes. -/
  refSpeeds : ℕ → Option (List ℝ)
  /-- `IControlLimits::getLimits`. -/
  limits : ℕ → Option (ℝ × ℝ)
  /-- `IControlLimits::getVelLimits`. -/
  velLimits : ℕ → Option (ℝ × ℝ)

/-- What the controller is opened amid: `open` of the robot and of the solver for the given options (of the solver the
numbers of joints and end effectors; outer `none`: its `open` has undefined behaviour), whether threads start, and
the trajectories of KDL. What /repo/libraries/YarpPlugins/BasicCartesianControl/DeviceDriverImpl.cpp asks. -/
structure World where
  robot : Config → Option RobotDevice
  solver : Config → Option (Option (ℕ × ℕ))
  starts : Bool
  line : Frame → Frame → ℝ → Traj
  ray : Frame → Twist → Traj

/-- The loop over the limits of the robot,
/repo/libraries/YarpPlugins/BasicCartesianControl/DeviceDriverImpl.cpp:150-179, from joint `j` on for `k` joints:
positions
and velocities; `none` is a returned `false`. -/
def readLimits (r : RobotDevice) : ℕ → ℕ → Option (List ((ℝ × ℝ) × (ℝ × ℝ)))
  | _, 0 => some []
  | j, k + 1 => do
    let p ← r.limits j
    let v ← r.velLimits j
    let rest ← readLimits r (j + 1) k
    return (p, v) :: rest

/-- The options of the robot, /repo/libraries/YarpPlugins/BasicCartesianControl/DeviceDriverImpl.cpp:61-66. -/
def robotOptions (c : Config) : Config :=
  putOption c "device" (.str (c.top.check "robot" (.str "remote_controlboard")).asString)

/-- The options of the solver, /repo/libraries/YarpPlugins/BasicCartesianControl/DeviceDriverImpl.cpp:62, 126-128. -/
def solverOptions (c : Config) : Config :=
  putOption c "device" (.str (c.top.check "solver" (.str "KdlSolver")).asString)

/-- The same with the limits of the robot, /repo/libraries/YarpPlugins/BasicCartesianControl/DeviceDriverImpl.cpp:148,
176-183. -/
def limitOptions (c : Config) (ls : List ((ℝ × ℝ) × (ℝ × ℝ))) : Config :=
  putOption (putOption (putOption c "mins" (.list (ls.map (·.1.1)))) "maxs" (.list (ls.map (·.1.2))))
    "maxvels" (.list (ls.map (·.2.2)))

/-- Limits as they are kept, and the options that the solver is opened with,
/repo/libraries/YarpPlugins/BasicCartesianControl/DeviceDriverImpl.cpp:126-188; `none` is a
returned `false`. -/
def takeLimits (r : RobotDevice) (c : Config) (n : ℕ) : Option (List ((ℝ × ℝ) × (ℝ × ℝ)) × Config) :=
  if (c.top "mins").isNone ∨ (c.top "maxs").isNone ∨ (c.top "maxvels").isNone then
    if r.controlLimits then do
      let ls ← readLimits r 0 n
      return (ls, limitOptions (solverOptions c) ls)
    else none
  else some ([], solverOptions c)

/-- The reference frame, /repo/libraries/YarpPlugins/BasicCartesianControl/DeviceDriverImpl.cpp:44-59; `none` is a
returned `false`. -/
def frameOption (c : Config) : Option RefFrame :=
  let name := (c.top.check "referenceFrame" (.str "base")).asString
  if name = "base" then some .base else if name = "tcp" then some .tcp else none

/-- The robot with the interfaces that are asked for,
/repo/libraries/YarpPlugins/BasicCartesianControl/DeviceDriverImpl.cpp:64-108; `none` is a returned `false`. -/
def openRobot (w : World) (c : Config) : Option RobotDevice := do
  let r ← w.robot (robotOptions c)
  if r.encoders && r.positionControl && r.positionDirect && r.velocityControl && r.torqueControl && r.controlMode then
    return r
  else none

/-- The controller that is left with these devices,
/repo/libraries/YarpPlugins/BasicCartesianControl/DeviceDriverImpl.cpp:23-36, 115-120, 142-172, 202-217. -/
noncomputable def opened (w : World) (c : Config) (frame : RefFrame) (n tcps : ℕ) (refs : List ℝ)
    (ls : List ((ℝ × ℝ) × (ℝ × ℝ))) : Cfg × Ctl :=
  let gain := (c.top.check "controllerGain" (.num (5 / 100))).asFloat
  let duration := (c.top.check "trajectoryDuration" (.num 10)).asFloat
  let cmcPeriodMs := (c.top.check "cmcPeriodMs" (.int 50)).asInt
  let waitPeriodMs := (c.top.check "waitPeriodMs" (.int 30)).asInt
  (⟨n, tcps, (c.top "usePosdMovl").isSome, (c.top "enableFailFast").isSome, ls.map (·.1.1), ls.map (·.1.2),
      ls.map (·.2.1), ls.map (·.2.2), refs, w.line, w.ray⟩,
    Ctl.initial frame gain duration cmcPeriodMs waitPeriodMs (cmcPeriodMs * (1 / 1000)))

/-- `open`, /repo/libraries/YarpPlugins/BasicCartesianControl/DeviceDriverImpl.cpp:21-220. Outer `none`: undefined
behaviour (the number of joints is used although
`getAxes` failed, lines 115-118, or that of the solver); inner `none`: a returned `false`. -/
noncomputable def openController (w : World) (c : Config) : Option (Option (Cfg × Ctl)) :=
  if (c.top "enableFailFast").isSome ∧ ¬(c.top "usePosdMovl").isSome then some none
  else
    match frameOption c with
    | none => some none
    | some frame =>
      match openRobot w c with
      | none => some none
      | some r =>
        match r.axes with
        | none => none
        | some n =>
          match r.refSpeeds n with
          | none => some none
          | some refs =>
            match takeLimits r c n with
            | none => some none
            | some (ls, options) =>
              match w.solver options with
              | none => none
              | some none => some none
              | some (some (joints, tcps)) =>
                if joints = n ∧ w.starts = true then some (some (opened w c frame n tcps refs ls)) else some none

end KD.Ctrl
