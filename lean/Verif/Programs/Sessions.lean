import Verif.Programs.Haar
import Verif.Programs.FtCompensation
import Verif.Ctrl.History

/-!
# Programs in front of the controller

What the streaming programs ask of the Cartesian controller, as commands of `Verif.Ctrl.History`: the calls
made when they start, and the calls for each message. The client and the server in between are those of
`Verif.Net`; here every message arrives.
-/

namespace KD

/-! ## Streaming devices -/

namespace Sdc

/-- The command the device was told to send, /repo/programs/streamingDeviceController/StreamingDevice.cpp:21-23. -/
def Device.usesPose : Device → Bool
  | .spnav d => d.usingPose
  | .leap d => d.usingPose
  | .wiimote d => d.usingPose

/-- The frame the device asks for: /repo/programs/streamingDeviceController/SpnavSensorDevice.cpp:50,
/repo/programs/streamingDeviceController/LeapMotionSensorDevice.cpp:71 and
/repo/programs/streamingDeviceController/WiimoteSensorDevice.cpp:57, in /repo/programs/streamingDeviceController. -/
def Device.frame : Device → Ctrl.RefFrame
  | .spnav _ => .base
  | .leap _ => .base
  | .wiimote _ => .tcp

/-- The calls of `initialize` that configure the controller:
/repo/programs/streamingDeviceController/SpnavSensorDevice.cpp:38-54,
/repo/programs/streamingDeviceController/LeapMotionSensorDevice.cpp:59-75 and
/repo/programs/streamingDeviceController/WiimoteSensorDevice.cpp:44-61. The controller reports the parameter
of the streaming command (/repo/libraries/YarpPlugins/BasicCartesianControl/ICartesianControlImpl.cpp:700), so
that `usingStreamingPreset` is true (/repo/programs/streamingDeviceController/StreamingDeviceController.cpp:86). -/
noncomputable def Device.start (d : Device) : List Ctrl.Op :=
  [.setParameter .streaming ((if d.usesPose then Ctrl.vocabPose else Ctrl.vocabTwist : ℤ) : ℝ),
   .setParameter .frame (d.frame.vocab : ℤ)]

/-- The call for a message. -/
def Cmd.op : Cmd → Ctrl.Op
  | .twist x => .twist x.toList
  | .pose x => .pose x.toList

/-- The messages of an event. `act` is refused by the controller, without any effect
(/repo/libraries/YarpPlugins/BasicCartesianControl/ICartesianControlImpl.cpp:421-425). -/
def Ev.cmds : Ev → List Cmd
  | .act _ => []
  | .move c => c
  | .stop c => c

/-- All messages of a history, in order. The commands sent by /repo/programs/streamingDeviceController. -/
def sent (es : List (List Ev)) : List Cmd := es.flatten.flatMap Ev.cmds

end Sdc

/-! ## Force compensation -/

namespace Ft

/-- The calls of `configure` that configure the controller, /repo/programs/ftCompensation/FtCompensation.cpp:276-299;
`modeVocab` is set at lines 40-56. -/
noncomputable def start (c : Cfg) : List Ctrl.Op :=
  [.setParameter .streaming ((if c.wrenchMode then Ctrl.vocabWrench else Ctrl.vocabTwist : ℤ) : ℝ),
   .setParameter .frame (Ctrl.RefFrame.vocab .tcp : ℤ)]

/-- The call for a command. -/
def Cmd.op : Cmd → Ctrl.Op
  | .twist x => .twist x
  | .wrench x => .wrench x
  | .stopControl => .stopControl

end Ft

/-! ## The Haar detection controller -/

namespace Haar

/-- The call for a command. -/
def Call.op : Call → Ctrl.Op
  | .twist x => .twist x.toList
  | .stopControl => .stopControl

/-- What `configure` finds: whether the client and the sensors (asked for unless `disableSensors`) open,
what the controller answers to `act` and `setParameter`, and whether the vision port can be connected.
/repo/programs/haarDetectionController/HaarDetectionController.cpp:25-113. -/
structure Start where
  client : Bool
  disableSensors : Bool
  sensors : Bool
  act : Bool
  noMove : Bool
  frame : Bool
  vision : Bool

/-- `configure`, /repo/programs/haarDetectionController/HaarDetectionController.cpp:24-113. -/
def configure (e : Start) : Bool :=
  if !e.client then false
  else if !e.disableSensors && !e.sensors then false
  else if !e.act then false
  else if !e.noMove then
    if !e.frame then false else e.vision
  else true

/-- The call of `configure` that configures the controller,
/repo/programs/haarDetectionController/HaarDetectionController.cpp:92-96. -/
noncomputable def start : List Ctrl.Op := [.setParameter .frame (Ctrl.RefFrame.vocab .tcp : ℤ)]

/-- What happens to the running program: a message of the vision program, a turn of `updateModule`, or an
interruption. `target` is what the sensors answer, `turns` how often the loop of lines 130-134 goes round.
/repo/programs/haarDetectionController/HaarDetectionController.cpp:116-163. -/
inductive Happens
  | message (b : List ℝ)
  | update (target : Bool) (turns : ℕ)
  | interrupt

/-- What the program asks of the controller: a call of the callback, `act` to close the gripper, or
`stopControl`. /repo/programs/haarDetectionController/HaarDetectionController.cpp:116-163. -/
inductive Asked
  | call (c : Call)
  | closeGripper

/-- The program: the state of the callback, whether the port of the callback listens, whether the sensors
are open, and whether the module runs. /repo/programs/haarDetectionController/HaarDetectionController.cpp:116-163. -/
structure Module where
  responder : Responder := {}
  listening : Bool := true
  sensors : Bool := true
  running : Bool := true

/-- `updateModule` and `interruptModule`, /repo/programs/haarDetectionController/HaarDetectionController.cpp:115-154,
and the callback, which is not
called after the port was interrupted. -/
noncomputable def Module.step (m : Module) : Happens → Module × List Asked
  | .message b =>
    if m.listening then
      ({ m with responder := (onRead m.responder b).1 }, (onRead m.responder b).2.map .call)
    else (m, [])
  | .update target turns =>
    if m.running && m.sensors && target then
      ({ m with listening := false, sensors := false, running := false },
        .call .stopControl :: List.replicate turns .closeGripper)
    else (m, [])
  | .interrupt => ({ m with listening := false, running := false }, [.call .stopControl])

/-- All that the program asks during a history.
/repo/programs/haarDetectionController/HaarDetectionController.cpp:116-163. -/
noncomputable def Module.asks (m : Module) : List Happens → List Asked
  | [] => []
  | h :: l => (m.step h).2 ++ (m.step h).1.asks l

/-- The calls for what was asked; `act` is refused by the controller, without any effect.
/repo/programs/haarDetectionController/HaarDetectionController.cpp:116-163. -/
def Asked.ops : Asked → List Ctrl.Op
  | .call c => [c.op]
  | .closeGripper => []

end Haar

end KD
