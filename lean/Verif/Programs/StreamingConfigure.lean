import Verif.Programs.Streaming
import Mathlib.Algebra.Order.Floor.Ring
import Mathlib.Algebra.Order.Archimedean.Real.Basic

/-!
# How the streaming device controller starts

`configure` of /repo/programs/streamingDeviceController/StreamingDeviceController.cpp with `makeDevice` and the
constructors and `initialize` of the three devices. Options are taken as already read: a number, a text or a list where
the program asks for one. Names of ports and carriers are left out, and so is the text of messages.
-/

namespace KD.Sdc

open scoped Classical

/-- The group of options named as the device, read at
/repo/programs/streamingDeviceController/StreamingDevice.cpp:49-54,
/repo/programs/streamingDeviceController/WiimoteSensorDevice.cpp:22 and
/repo/programs/streamingDeviceController/LeapMotionSensorDevice.cpp:26-42. `leapFrameRPY` is `none` if it is not
given, and `some none` if it is given but is not a list. -/
structure DeviceOpts where
  fixedAxes : Option (List String) := none
  step : Option ℝ := none
  leapFrameRPY : Option (Option (List ℝ)) := none

/-- The options of the program, /repo/programs/streamingDeviceController/StreamingDeviceController.cpp:35-202.
`centroidRPY` as `leapFrameRPY` above. -/
structure Opts where
  device : Option String := none
  group : DeviceOpts := { }
  scaling : Option ℝ := none
  gain : Option ℝ := none
  pose : Bool := false
  movi : Bool := false
  sensorsPort : Bool := false
  thresholdAlertHigh : Option ℝ := none
  thresholdAlertLow : Option ℝ := none
  disableSensorsLowLevel : Bool := false
  remoteCentroid : Bool := false
  centroidRPY : Option (Option (List ℝ)) := none
  centroidPermTime : Option ℝ := none
  syncPort : Bool := false

/-- What the outside world answers while the program starts,
/repo/programs/streamingDeviceController/StreamingDeviceController.cpp:46-199. -/
structure World where
  /-- the driver of the device opens -/
  opens : Bool := true
  /-- the driver has the interface of an analog sensor -/
  views : Bool := true
  /-- the Cartesian client opens and has its interface -/
  client : Bool := true
  /-- answer to `getParameters`: whether there is one for the streaming command -/
  params : Option Bool := some true
  setStreaming : Bool := true
  setFrame : Bool := true
  stat : Option Six := none
  /-- the first reading of the Leap sensor -/
  read : List ℝ := []
  /-- each port opens and connects -/
  sensors : Bool := true
  centroid : Bool := true
  sync : Bool := true

/-- Calls of `setParameter` with the streaming command and the reference frame.
/repo/programs/streamingDeviceController/SpnavSensorDevice.cpp:40-55,
/repo/programs/streamingDeviceController/LeapMotionSensorDevice.cpp:61-76,
/repo/programs/streamingDeviceController/WiimoteSensorDevice.cpp:46-61. -/
inductive Param
  | streaming (pose : Bool)
  | frame (tcp : Bool)
  deriving DecidableEq

/-- Outcome of `configure`, with the parameters changed: `false`, `true`, or a null pointer followed.
/repo/programs/streamingDeviceController/StreamingDeviceController.cpp:35-202. -/
inductive Start
  | refused (calls : List Param)
  | started (c : Ctl) (synced : Bool) (calls : List Param)
  | crash

/-- `usingPose`, /repo/programs/streamingDeviceController/StreamingDevice.cpp:18-19. -/
def Opts.usingPose (o : Opts) : Bool := o.pose || o.movi

/-- Degrees to radians as written at /repo/programs/streamingDeviceController/CentroidTransform.cpp:31-33 and
/repo/programs/streamingDeviceController/LeapMotionSensorDevice.cpp:34-36. -/
noncomputable def rpyOf (l : List ℝ) : Option (ℝ × ℝ × ℝ) :=
  match l with
  | [r, p, y] => some (r * Real.pi / 180, p * Real.pi / 180, y * Real.pi / 180)
  | _ => none

/-- A number that is assigned to an `int`, e.g.
/repo/programs/streamingDeviceController/StreamingDeviceController.cpp:113-116: fractions are dropped. Numbers out of
the range of `int` are not modelled. -/
noncomputable def toInt (r : ℝ) : ℤ := if 0 ≤ r then ⌊r⌋ else ⌈r⌉

/-- The calls that all devices make first in `initialize`, `Param.streaming` only if the controller has that parameter:
the calls made, and whether they succeed.
/repo/programs/streamingDeviceController/SpnavSensorDevice.cpp:40-55,
/repo/programs/streamingDeviceController/LeapMotionSensorDevice.cpp:61-76,
/repo/programs/streamingDeviceController/WiimoteSensorDevice.cpp:46-61. -/
def setParams (w : World) (preset pose tcp : Bool) : List Param × Bool :=
  if preset then
    if !w.setStreaming then ([.streaming pose], false)
    else ([.streaming pose, .frame tcp], w.setFrame)
  else ([.frame tcp], w.setFrame)

/-- `initialize` of the device, with the constructor: the parameters changed, and the device if it succeeds.
/repo/programs/streamingDeviceController/SpnavSensorDevice.cpp:10-64,
/repo/programs/streamingDeviceController/LeapMotionSensorDevice.cpp:18-105,
/repo/programs/streamingDeviceController/WiimoteSensorDevice.cpp:13-64. -/
noncomputable def initDevice (o : Opts) (w : World) (preset : Bool) (name : String) : List Param × Option Device :=
  let pose := o.usingPose
  if name = "SpaceNavigator" then
    match Spnav.init pose (o.gain.getD 0) o.group.fixedAxes w.stat with
    | none => ([], none)
    | some d =>
      let r := setParams w preset pose false
      (r.1, if r.2 then some (.spnav d) else none)
  else if name = "LeapMotionSensor" then
    let r := setParams w preset pose false
    (r.1, if r.2 then
      (Leap.init pose o.group.fixedAxes ((o.group.leapFrameRPY.getD none).bind rpyOf) w.stat w.read).map .leap
      else none)
  else
    match Wiimote.init pose (o.group.step.getD (1 / 100)) o.group.fixedAxes with
    | none => ([], none)
    | some d =>
      let r := setParams w preset pose true
      (r.1, if r.2 then some (.wiimote d) else none)

/-- The proximity sensors, /repo/programs/streamingDeviceController/StreamingDeviceController.cpp:96-133: `none` is a
returned `false`, and `some none` that they are not used. -/
noncomputable def startSensors (o : Opts) (w : World) : Option (Option (ℤ × ℤ × Bool)) :=
  if o.sensorsPort then
    if w.sensors then
      some (some (toInt (o.thresholdAlertHigh.getD 800), toInt (o.thresholdAlertLow.getD 100),
        o.disableSensorsLowLevel))
    else none
  else some none

/-- The rotation of the camera, /repo/programs/streamingDeviceController/StreamingDeviceController.cpp:146-153 and
/repo/programs/streamingDeviceController/CentroidTransform.cpp:23-40: a value that is not a list is not looked at. -/
noncomputable def cameraRot (v : Option (Option (List ℝ))) : Option Mat3 :=
  match v with
  | some (some l) => (rpyOf l).map fun a => Mat3.rpy a.1 a.2.1 a.2.2
  | _ => some 1

/-- The centroid transform, /repo/programs/streamingDeviceController/StreamingDeviceController.cpp:135-178. -/
noncomputable def startCentroid (o : Opts) (w : World) (d : Device) : Option (Option Centroid) :=
  if o.remoteCentroid then
    match d with
    | .spnav _ =>
      match cameraRot o.centroidRPY with
      | none => none
      | some r =>
        if o.centroidPermTime.getD 0 < 0 then none
        else if w.centroid then some (some ⟨r, o.centroidPermTime.getD 0, (0, 0), 0⟩)
        else none
    | _ => none
  else some none

/-- Names that `makeDevice` knows, /repo/programs/streamingDeviceController/StreamingDevice.cpp:26-43. -/
def knownDevice (name : String) : Bool :=
  name = "SpaceNavigator" || name = "LeapMotionSensor" || name = "WiimoteSensor"

/-- The constructor of the Leap device follows the pointer that `asList` gives, null if the value is not a list.
/repo/programs/streamingDeviceController/LeapMotionSensorDevice.cpp:26-32. -/
def constructorCrashes (o : Opts) (name : String) : Bool :=
  match o.group.leapFrameRPY with
  | some none => name = "LeapMotionSensor"
  | _ => false

/-- `configure`, /repo/programs/streamingDeviceController/StreamingDeviceController.cpp:35-202. -/
noncomputable def configure (o : Opts) (w : World) : Start :=
  let name := o.device.getD "SpaceNavigator"
  if constructorCrashes o name then .crash
  else if !knownDevice name || !w.opens then .refused []
  else if !w.views then .refused []
  else if !w.client then .refused []
  else
    match w.params with
    | none => .refused []
    | some preset =>
      let r := initDevice o w preset name
      match r.2 with
      | none => .refused r.1
      | some d =>
        match startSensors o w with
        | none => .refused r.1
        | some p =>
          match startCentroid o w d with
          | none => .refused r.1
          | some c =>
            if o.syncPort && !w.sync then .refused r.1
            else .started ⟨d, o.scaling.getD 10, p, c, true⟩ o.syncPort r.1

end KD.Sdc
