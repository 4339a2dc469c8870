import Mathlib.Data.Fin.VecNotation
import Verif.Repr.Converters

/-!
# The streaming device controller

/repo/programs/streamingDeviceController: the three sensor devices, the centroid transform and the
periodic `update`. Everything the outside world answers during one cycle is gathered in `Cycle`;
everything the program tells the Cartesian controller is recorded as a list of events. Answers of
the controller to `pose`, `twist` and `act` are ignored by the program. Log messages are left out.
A division by zero, which yields infinities or NaN in the code, makes the outcome `none`.
-/

namespace KD.Sdc

open scoped Classical

/-- Six numbers, `std::vector<double>` of size six. `data` of the SpaceNavigator and Leap devices is
resized to six elements at /repo/programs/streamingDeviceController/StreamingDevice.cpp:50 and only
ever replaced by vectors of six. -/
abbrev Six := Fin 6 → ℝ

/-- The elements in order.
The `std::vector` of six numbers of /repo/programs/streamingDeviceController/StreamingDevice.hpp. -/
def Six.toList (d : Six) : List ℝ := [d 0, d 1, d 2, d 3, d 4, d 5]

/-- `frameToVector` gives six elements.
Used at /repo/programs/streamingDeviceController/SpnavSensorDevice.cpp:93-115. -/
noncomputable def sixOfFrame (f : Frame) : Six :=
  let r := f.M.getRot
  ![f.p.x, f.p.y, f.p.z, r.x, r.y, r.z]

/-- Actuator vocabs, /repo/libraries/YarpPlugins/ICartesianControl.h. -/
inductive Grip
  | none
  | close
  | open
  | stop
  deriving DecidableEq

/-- A message of the program to the Cartesian controller that moves the robot.
/repo/programs/streamingDeviceController/StreamingDevice.cpp and the three devices of /repo/programs/streamingDeviceController/. -/
inductive Cmd
  | twist (x : Six)
  | pose (x : Six)

/-- What `update` does: `act` of the controller, `sendMovementCommand` and `stopMotion` of the device
with the messages those two send. /repo/programs/streamingDeviceController/StreamingDeviceController.cpp:228-323. -/
inductive Ev
  | act (a : Grip)
  | move (c : List Cmd)
  | stop (c : List Cmd)

/-- `configureFixedAxes`, /repo/programs/streamingDeviceController/StreamingDevice.cpp:97-139. `none`
is a value that is not a list. -/
def configureFixedAxes : Option (List String) → Fin 6 → Bool
  | none => fun _ => false
  | some l => l.foldl (fun f s =>
      if s = "x" then Function.update f 0 true
      else if s = "y" then Function.update f 1 true
      else if s = "z" then Function.update f 2 true
      else if s = "rotx" then Function.update f 3 true
      else if s = "roty" then Function.update f 4 true
      else if s = "rotz" then Function.update f 5 true
      else f) (fun _ => false)

/-- `StreamingDevice::transformData`, /repo/programs/streamingDeviceController/StreamingDevice.cpp:62-77. -/
noncomputable def baseTransform (fixed : Fin 6 → Bool) (scaling : ℝ) (data : Six) : Option Six :=
  if scaling = 0 then none
  else some fun i => if !fixed i then data i / scaling else 0

/-- `StreamingDevice::hasValidMovementData`,
/repo/programs/streamingDeviceController/StreamingDevice.cpp:79-95. -/
noncomputable def baseValid (grip : Grip) (data : Six) : Bool :=
  if grip ≠ .none then false else decide (∃ i, data i ≠ 0)

/-- `getActuatorState` of the SpaceNavigator and the Leap,
/repo/programs/streamingDeviceController/SpnavSensorDevice.cpp:117-144 and
/repo/programs/streamingDeviceController/LeapMotionSensorDevice.cpp:185-209: the next state from the two buttons. -/
def nextGrip (close open' : Bool) (g : Grip) : Grip :=
  if close then .close
  else if open' then .open
  else if g ≠ .none then
    if g ≠ .stop then .stop else .none
  else .none

/-! ## SpaceNavigator -/

/-- Members of `SpnavSensorDevice`, /repo/programs/streamingDeviceController/SpnavSensorDevice.hpp.
`currentX` is taken to have six elements: what `stat` delivers. -/
structure Spnav where
  usingPose : Bool
  gain : ℝ
  fixed : Fin 6 → Bool
  data : Six
  grip : Grip
  currentX : Six
  buttonClose : Bool
  buttonOpen : Bool

/-- Constructor and `initialize`, /repo/programs/streamingDeviceController/SpnavSensorDevice.cpp:10-64:
`none` when it refuses to start. `stat` is the pose the controller tells. Failures of
`setParameter` are left out. -/
noncomputable def Spnav.init (usingPose : Bool) (gain : ℝ) (axes : Option (List String)) (stat : Option Six) :
    Option Spnav :=
  if usingPose && decide (gain ≤ 0) then none
  else some ⟨usingPose, gain, configureFixedAxes axes, fun _ => 0, .none,
    if usingPose then stat.getD (fun _ => 0) else fun _ => 0, false, false⟩

/-- `acquireData`, /repo/programs/streamingDeviceController/SpnavSensorDevice.cpp:66-91; `none` is
`false`. -/
noncomputable def Spnav.acquire (d : Spnav) : List ℝ → Option Spnav
  | [a, b, c, u, v, w] => some { d with data := ![a, b, c, u, v, w] }
  | [a, b, c, u, v, w, p, q] => some { d with
      data := ![a, b, c, u, v, w], buttonClose := decide (p = 1), buttonOpen := decide (q = 1) }
  | _ => none

/-- `transformData`, /repo/programs/streamingDeviceController/SpnavSensorDevice.cpp:93-115. -/
noncomputable def Spnav.transform (d : Spnav) (scaling : ℝ) : Option Spnav :=
  if d.usingPose then
    if scaling = 0 then none
    else
      let x : Six := fun i =>
        if !d.fixed i then d.currentX i + (d.gain / scaling) * d.data i else d.currentX i
      some { d with data := x }
  else (baseTransform d.fixed scaling d.data).map fun x => { d with data := x }

/-- `hasValidMovementData`, /repo/programs/streamingDeviceController/SpnavSensorDevice.cpp:146-164. -/
noncomputable def Spnav.valid (d : Spnav) : Bool :=
  if d.usingPose then decide (∃ i, d.fixed i = false ∧ d.data i ≠ d.currentX i)
  else baseValid d.grip d.data

/-- `sendMovementCommand`, /repo/programs/streamingDeviceController/SpnavSensorDevice.cpp:166-181. -/
def Spnav.send (d : Spnav) : Spnav × List Cmd :=
  if d.usingPose then ({ d with currentX := d.data }, [.pose d.data]) else (d, [.twist d.data])

/-- `stopMotion`, /repo/programs/streamingDeviceController/SpnavSensorDevice.cpp:183-190. -/
def Spnav.stop (d : Spnav) : List Cmd := if !d.usingPose then [.twist fun _ => 0] else []

/-! ## Leap Motion -/

/-- Members of `LeapMotionSensorDevice`,
/repo/programs/streamingDeviceController/LeapMotionSensorDevice.hpp. -/
structure Leap where
  usingPose : Bool
  fixed : Fin 6 → Bool
  data : Six
  grip : Grip
  initial : Six
  baseLeap : Frame
  leapEe : Frame
  previousPose : Frame
  previousTimestamp : ℝ
  hasActuator : Bool
  grab : Bool
  pinch : Bool

/-- `acquireData`, /repo/programs/streamingDeviceController/LeapMotionSensorDevice.cpp:107-139. -/
noncomputable def Leap.acquire (d : Leap) : List ℝ → Option Leap
  | [a, b, c, u, v, w] =>
    some { d with data := ![a * (1 / 1000), b * (1 / 1000), c * (1 / 1000), u, v, w] }
  | [a, b, c, u, v, w, p, q] => some { d with
      data := ![a * (1 / 1000), b * (1 / 1000), c * (1 / 1000), u, v, w]
      hasActuator := true, grab := decide (p = 1), pinch := decide (q = 1) }
  | _ => none

/-- `frame_ee_leap`, /repo/programs/streamingDeviceController/LeapMotionSensorDevice.cpp:26-43. -/
noncomputable def leapFrame : Option (ℝ × ℝ × ℝ) → Frame
  | none => 1
  | some (r, p, y) => ⟨Mat3.rpy r p y, 0⟩

/-- Constructor and `initialize`,
/repo/programs/streamingDeviceController/LeapMotionSensorDevice.cpp:18-105. `rpy` is the optional
`leapFrameRPY` in radians, `stat` the pose the controller tells, `read` the first reading of the
sensor; `none` when it refuses to start. Failures of `setParameter` are left out. -/
noncomputable def Leap.init (usingPose : Bool) (axes : Option (List String)) (rpy : Option (ℝ × ℝ × ℝ))
    (stat : Option Six) (read : List ℝ) : Option Leap :=
  match stat with
  | none => none
  | some x =>
    let d : Leap := ⟨usingPose, configureFixedAxes axes, fun _ => 0, .none, fun _ => 0,
      KdlVectorConverter.vectorToFrame x.toList * leapFrame rpy, (leapFrame rpy).inv, 1, 0, false, false, false⟩
    (d.acquire read).map fun d => { d with initial := d.data }

/-- `transformData`, /repo/programs/streamingDeviceController/LeapMotionSensorDevice.cpp:141-176. -/
noncomputable def Leap.transform (d : Leap) (scaling : ℝ) : Option Leap :=
  if scaling = 0 ∧ ∃ i : Fin 6, i.val < 3 ∧ d.fixed i = false then none
  else
    let x : Six := fun i =>
      if d.fixed i then 0
      else if i.val < 3 then (d.data i - d.initial i) / scaling else d.data i - d.initial i
    let rot := if !d.fixed 3 && !d.fixed 4 && !d.fixed 5 then Mat3.rpy (x 3) (x 4) (x 5) else 1
    let hand : Frame := ⟨rot, ⟨x 0, x 1, x 2⟩⟩
    some { d with data := sixOfFrame (d.baseLeap * hand * d.leapEe) }

/-- `sendMovementCommand`,
/repo/programs/streamingDeviceController/LeapMotionSensorDevice.cpp:212-231. -/
noncomputable def Leap.send (d : Leap) (timestamp : ℝ) : Option (Leap × List Cmd) :=
  if d.usingPose then some (d, [.pose d.data])
  else
    let cur := KdlVectorConverter.vectorToFrame d.data.toList
    let d' := { d with previousPose := cur, previousTimestamp := timestamp }
    if d.previousTimestamp ≠ 0 then
      if timestamp = d.previousTimestamp then none
      else
        let t := frameDiff d.previousPose cur
        let k := 1 / (timestamp - d.previousTimestamp)
        some (d', [.twist ![k * t.vel.x, k * t.vel.y, k * t.vel.z, k * t.rot.x, k * t.rot.y, k * t.rot.z]])
    else some (d', [])

/-! ## Wiimote -/

/-- `cmode`, /repo/programs/streamingDeviceController/WiimoteSensorDevice.hpp. -/
inductive WiiMode
  | none
  | fwd
  | bkwd
  | rot
  deriving DecidableEq

/-- Members of `WiimoteSensorDevice`, /repo/programs/streamingDeviceController/WiimoteSensorDevice.hpp.
`fixed` is inherited. -/
structure Wiimote where
  usingPose : Bool
  step : ℝ
  fixed : Fin 6 → Bool
  mode : WiiMode
  data : Fin 3 → ℝ
  buffer : Fin 5 → ℝ

/-- Constructor and `initialize`,
/repo/programs/streamingDeviceController/WiimoteSensorDevice.cpp:13-64. -/
noncomputable def Wiimote.init (usingPose : Bool) (step : ℝ) (axes : Option (List String)) : Option Wiimote :=
  if usingPose && decide (step ≤ 0) then none
  else some ⟨usingPose, step, configureFixedAxes axes, .none, fun _ => 0, fun _ => 0⟩

/-- `acquireData`, /repo/programs/streamingDeviceController/WiimoteSensorDevice.cpp:66-85. -/
def Wiimote.acquire (d : Wiimote) : List ℝ → Option Wiimote
  | [a, b, c, u, v] => some { d with buffer := ![a, b, c, u, v] }
  | _ => none

/-- `transformData`, /repo/programs/streamingDeviceController/WiimoteSensorDevice.cpp:87-125. -/
noncomputable def Wiimote.transform (d : Wiimote) (scaling : ℝ) : Option Wiimote :=
  let a := decide (d.buffer 2 = 1)
  let b := decide (d.buffer 3 = 1)
  let m : WiiMode := if a && b then .rot else if a then .fwd else if b then .bkwd else .none
  if m = .none then some { d with mode := m }
  else if scaling = 0 then none
  else
    let x := -d.buffer 1 / scaling
    some { d with
      mode := m
      data := if d.buffer 4 = 1 then ![0, x, d.buffer 0 / scaling] else ![d.buffer 0 / scaling, x, 0] }

/-- `sendMovementCommand`, /repo/programs/streamingDeviceController/WiimoteSensorDevice.cpp:132-160. -/
def Wiimote.send (d : Wiimote) : List Cmd :=
  let out (z : ℝ) : List Cmd :=
    let x : Six := ![0, 0, z, d.data 0, d.data 1, d.data 2]
    if d.usingPose then [.pose x] else [.twist x]
  match d.mode with
  | .fwd => out d.step
  | .bkwd => out (-d.step)
  | .rot => out 0
  | .none => []

/-- `stopMotion`, /repo/programs/streamingDeviceController/WiimoteSensorDevice.cpp:162-169. -/
def Wiimote.stop (d : Wiimote) : List Cmd := if !d.usingPose then [.twist fun _ => 0] else []

/-! ## The common interface -/

/-- `makeDevice`, /repo/programs/streamingDeviceController/StreamingDevice.cpp:19-44. -/
inductive Device
  | spnav (d : Spnav)
  | leap (d : Leap)
  | wiimote (d : Wiimote)

namespace Device

/-- `acquireData` of each device.
The virtual function of /repo/programs/streamingDeviceController/StreamingDevice.hpp. -/
noncomputable def acquire : Device → List ℝ → Option Device
  | spnav d, l => (d.acquire l).map spnav
  | leap d, l => (d.acquire l).map leap
  | wiimote d, l => (d.acquire l).map wiimote

/-- `getActuatorState` of each device: the new state and the answer.
/repo/programs/streamingDeviceController/LeapMotionSensorDevice.cpp:178-183 for a sensor without
buttons; the Wiimote inherits the answer of /repo/programs/streamingDeviceController/StreamingDevice.hpp, always none. -/
def actuator : Device → Device × Grip
  | spnav d =>
    let g := nextGrip d.buttonClose d.buttonOpen d.grip
    (spnav { d with grip := g }, g)
  | leap d =>
    if !d.hasActuator then (leap d, .none)
    else
      let g := nextGrip d.grab d.pinch d.grip
      (leap { d with grip := g }, g)
  | wiimote d => (wiimote d, .none)

/-- `transformData` of each device.
The virtual function of /repo/programs/streamingDeviceController/StreamingDevice.hpp. -/
noncomputable def transform : Device → ℝ → Option Device
  | spnav d, s => (d.transform s).map spnav
  | leap d, s => (d.transform s).map leap
  | wiimote d, s => (d.transform s).map wiimote

/-- `hasValidMovementData` of each device; the Leap inherits that of the base class, the Wiimote's is
/repo/programs/streamingDeviceController/WiimoteSensorDevice.cpp:127-130. -/
noncomputable def valid : Device → Bool
  | spnav d => d.valid
  | leap d => baseValid d.grip d.data
  | wiimote d => d.mode ≠ .none

/-- `sendMovementCommand` of each device.
The virtual function of /repo/programs/streamingDeviceController/StreamingDevice.hpp. -/
noncomputable def send : Device → ℝ → Option (Device × List Cmd)
  | spnav d, _ => some (spnav d.send.1, d.send.2)
  | leap d, t => (d.send t).map fun r => (leap r.1, r.2)
  | wiimote d, _ => some (wiimote d, d.send)

/-- `stopMotion` of each device; the Leap's is empty,
/repo/programs/streamingDeviceController/LeapMotionSensorDevice.hpp. -/
def stop : Device → List Cmd
  | spnav d => d.stop
  | leap _ => []
  | wiimote d => d.stop

end Device

/-! ## Centroid transform -/

/-- Members of `CentroidTransform`, /repo/programs/streamingDeviceController/CentroidTransform.hpp.
The stored bottle is empty at first and its elements read as zero; the time stamp is zero at
first. -/
structure Centroid where
  rot : Mat3
  permanenceTime : ℝ
  last : ℝ × ℝ
  lastTime : ℝ

/-- `acceptBottle`, /repo/programs/streamingDeviceController/CentroidTransform.cpp:42-58. The elements
of the bottle are what `asFloat64` reads; the two readings of the clock are taken as one. -/
noncomputable def Centroid.accept (c : Centroid) (b : Option (List ℝ)) (now : ℝ) : Centroid × Bool :=
  match b with
  | some [x, y] => ({ c with last := (x, y), lastTime := now }, true)
  | some _ => (c, false)
  | none => (c, decide (now - c.lastTime ≤ c.permanenceTime))

/-- `processStoredBottle`, /repo/programs/streamingDeviceController/CentroidTransform.cpp:60-103: the new
data of the device, `none` when it returns `false` and leaves the data alone. -/
noncomputable def Centroid.process (c : Centroid) (stat : Option (List ℝ)) (data : Six) : Option Six :=
  match stat with
  | none => none
  | some x =>
    let h := KdlVectorConverter.vectorToFrame x
    let v := (h.M * c.rot).mulVec ⟨0, 0, 1⟩
    let target := KdlVectorConverter.vectorToFrame data.toList
    let norm := Vec3.dot target.p v
    if norm ≤ 0 then none
    else
      let coords : Vec3 := ⟨c.last.1, c.last.2, 0⟩
      let axis := (h.M * c.rot).mulVec ((Mat3.rotZ (Real.pi / 2)).mulVec coords)
      some (sixOfFrame ⟨Mat3.rot axis (coords.norm * (1 / 10)), norm • v⟩)

/-! ## The controller -/

/-- What the outside world answers during one cycle.
/repo/programs/streamingDeviceController/StreamingDeviceController.cpp:204-312. -/
structure Cycle where
  /-- reading of the streaming device -/
  sensor : List ℝ
  /-- message on the proximity port, if there is a new one -/
  proximity : Option (List ℝ) := none
  /-- message on the centroid port, if there is a new one -/
  centroid : Option (List ℝ) := none
  /-- answer of the controller to `stat` -/
  stat : Option (List ℝ) := none
  /-- the time -/
  now : ℝ := 0

/-- Members of `StreamingDeviceController`,
/repo/programs/streamingDeviceController/StreamingDeviceController.hpp. The proximity part gathers
`thresholdAlertHigh`, `thresholdAlertLow` and `disableSensorsLowLevel`, and is `none` when the port is
closed; so is the centroid part. -/
structure Ctl where
  device : Device
  scaling : ℝ
  proximity : Option (ℤ × ℤ × Bool) := none
  centroid : Option Centroid := none
  isStopped : Bool := true

/-- The loop over the bottle at /repo/programs/streamingDeviceController/StreamingDeviceController.cpp:244-252. -/
noncomputable def alertLevel (l : List ℝ) : ℝ := l.foldl (fun m x => if x > m then x else m) 0

/-- How dangerous the surroundings are,
/repo/programs/streamingDeviceController/StreamingDeviceController.cpp:238-272. -/
inductive Alert
  | high
  | low
  | clear

/-- The decision at /repo/programs/streamingDeviceController/StreamingDeviceController.cpp:238-272. -/
noncomputable def alert (prox : Option (ℤ × ℤ × Bool)) (msg : Option (List ℝ)) : Alert :=
  match prox, msg with
  | some (hi, lo, disableLow), some (x :: l) =>
    if alertLevel (x :: l) > hi then .high
    else if !disableLow ∧ alertLevel (x :: l) > lo then .low
    else .clear
  | _, _ => .clear

/-- Application of the centroid transform,
/repo/programs/streamingDeviceController/StreamingDeviceController.cpp:287-295; `configure` accepts it
with the SpaceNavigator only (:135-143). -/
noncomputable def applyCentroid (c : Option Centroid) (y : Cycle) (d : Device) : Option Centroid × Device :=
  match c, d with
  | some c, .spnav s =>
    let r := c.accept y.centroid y.now
    if r.2 then
      match r.1.process y.stat s.data with
      | some x => (some r.1, .spnav { s with data := x })
      | none => (some r.1, d)
    else (some r.1, d)
  | c, d => (c, d)

/-- `act` is called unless the state is none,
/repo/programs/streamingDeviceController/StreamingDeviceController.cpp:274-279. -/
def actEvents (g : Grip) : List Ev := if g ≠ .none then [.act g] else []

/-- The end of `update`, /repo/programs/streamingDeviceController/StreamingDeviceController.cpp:297-310. -/
noncomputable def finish (c : Ctl) (now : ℝ) : Option (Ctl × List Ev) :=
  if c.device.valid then
    (c.device.send now).map fun r => ({ c with device := r.1, isStopped := false }, [.move r.2])
  else
    some ({ c with isStopped := true }, if !c.isStopped then [.stop c.device.stop] else [])

/-- `update`, /repo/programs/streamingDeviceController/StreamingDeviceController.cpp:228-313. -/
noncomputable def update (c : Ctl) (y : Cycle) : Option (Ctl × List Ev) :=
  match c.device.acquire y.sensor with
  | none => some (c, [])
  | some d =>
    let go (s : ℝ) : Option (Ctl × List Ev) :=
      let g := d.actuator
      match g.1.transform s with
      | none => none
      | some d' =>
        let r := applyCentroid c.centroid y d'
        (finish { c with device := r.2, centroid := r.1 } y.now).map fun z =>
          (z.1, actEvents g.2 ++ z.2)
    match alert c.proximity y.proximity with
    | .high =>
      some ({ c with device := d, isStopped := true }, if !c.isStopped then [.stop d.stop] else [])
    | .low => go (c.scaling * 2)
    | .clear => go c.scaling

/-- Consecutive cycles, with what each of them does. `none` as soon as a number is divided by zero.
/repo/programs/streamingDeviceController/StreamingDeviceController.cpp:204-312, once for every period. -/
noncomputable def run (c : Ctl) : List Cycle → Option (Ctl × List (List Ev))
  | [] => some (c, [])
  | y :: l => match update c y with
    | none => none
    | some (c', e) => (run c' l).map fun r => (r.1, e :: r.2)

end KD.Sdc
