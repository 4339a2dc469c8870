import Verif.Repr.Converters
import Verif.Kdl.Twist

/-!
# The force and torque compensation program

/repo/programs/ftCompensation. Reals stand for `double`; `none` is undefined behaviour or the production of
a NaN. Devices are taken to open, and the parameters to be well formed; what they hold is in `Cfg`.
-/

namespace KD.Ft

open scoped Classical
open KdlVectorConverter

/-- Configuration, /repo/programs/ftCompensation/FtCompensation.cpp:38-244. -/
structure Cfg where
  /-- command `wrench`, otherwise `twist` -/
  wrenchMode : Bool
  dryRun : Bool
  /-- some stiffness or damping is configured -/
  impedance : Bool
  linGain : ℝ
  rotGain : ℝ
  linStiffness : ℝ
  rotStiffness : ℝ
  linDamping : ℝ
  rotDamping : ℝ
  forceDeadband : ℝ
  torqueDeadband : ℝ
  period : ℝ
  /-- `R_N_sensor` -/
  sensorRot : Mat3
  /-- `toolCoM_N` and the force of `toolWeight_0`, if both are given -/
  tool : Option (Vec3 × Vec3)

/-- Members that change, /repo/programs/ftCompensation/FtCompensation.hpp; `running` tells whether the
periodic thread has not been asked to stop. -/
structure St where
  initialOffset : Wrench
  initialPose : Frame
  previousPose : Frame
  running : Bool

/-- What a cycle gets from outside: the measurement of the sensor, and the answers to the (up to two) calls
of `stat`; `none` is a failed call. /repo/programs/ftCompensation/FtCompensation.cpp:330-380. -/
structure Input where
  sensor : Option (List ℝ)
  statTool : Option (List ℝ) := none
  statImpedance : Option (List ℝ) := none

/-- Commands sent to the Cartesian controller. /repo/programs/ftCompensation/FtCompensation.cpp:248-320 and 429-443. -/
inductive Cmd
  | twist (v : List ℝ)
  | wrench (v : List ℝ)
  | stopControl

/-- `KDL::Rotation * KDL::Wrench`. Used at /repo/programs/ftCompensation/FtCompensation.cpp:357. -/
def rotWrench (m : Mat3) (w : Wrench) : Wrench := ⟨m.mulVec w.force, m.mulVec w.torque⟩

/-- `KDL::Wrench::RefPoint`. Used at /repo/programs/ftCompensation/FtCompensation.cpp:358. -/
def refPoint (w : Wrench) (v : Vec3) : Wrench := ⟨w.force, w.torque + w.force.cross v⟩

/-- `KDL::Wrench operator-`. Used at /repo/programs/ftCompensation/FtCompensation.cpp:358-400. -/
def subWrench (a b : Wrench) : Wrench := ⟨a.force - b.force, a.torque - b.torque⟩

/-- `readSensor`, /repo/programs/ftCompensation/FtCompensation.cpp:328-344. The outer `none` is a read
beyond the end of the measurement, the inner one the answer `false`. -/
def readSensor (c : Cfg) : Option (List ℝ) → Option (Option Wrench)
  | none => some none
  | some (a :: b :: d :: e :: f :: g :: _) => some (some (rotWrench c.sensorRot ⟨⟨a, b, d⟩, ⟨e, f, g⟩⟩))
  | some _ => none

/-- `compensateTool`, /repo/programs/ftCompensation/FtCompensation.cpp:346-362. -/
noncomputable def compensateTool (com weight : Vec3) (stat : Option (List ℝ)) (w : Wrench) : Option Wrench :=
  stat.map fun x =>
    subWrench w (refPoint (rotWrench (vectorToFrame x).M.transpose ⟨weight, 0⟩) (-com))

/-- Lines 389 and 301: the tool is compensated only when there is one.
/repo/programs/ftCompensation/FtCompensation.cpp:346-362. -/
noncomputable def compensate (c : Cfg) (stat : Option (List ℝ)) (w : Wrench) : Option Wrench :=
  match c.tool with
  | none => some w
  | some (com, weight) => compensateTool com weight stat w

/-- /repo/programs/ftCompensation/FtCompensation.cpp:400-408 and 410-418. The division by a null norm, which
a negative deadband lets through, gives NaN. -/
noncomputable def deadband (db gain : ℝ) (v : Vec3) : Option Vec3 :=
  if v.norm > db then
    if v.norm = 0 then none else some (gain • (v - db • ((1 / v.norm) • v)))
  else some 0

/-- `KDL::diff(f1, f2, dt)`: the difference of both frames divided by the time.
Used at /repo/programs/ftCompensation/FtCompensation.cpp:375-376. -/
noncomputable def frameDiffDt (f1 f2 : Frame) (dt : ℝ) : Twist :=
  ⟨(1 / dt) • (frameDiff f1 f2).vel, (1 / dt) • (frameDiff f1 f2).rot⟩

/-- `applyImpedance`, /repo/programs/ftCompensation/FtCompensation.cpp:364-383. Periods are not null. -/
noncomputable def applyImpedance (c : Cfg) (s : St) (stat : Option (List ℝ)) (w : Wrench) :
    Option (St × Wrench) :=
  stat.map fun x =>
    let currentPose := vectorToFrame x
    let displacement := frameDiff s.initialPose currentPose
    let twist := frameDiffDt s.previousPose currentPose c.period
    ({ s with previousPose := currentPose },
      ⟨w.force - (c.linStiffness • displacement.vel + c.linDamping • twist.vel),
       w.torque - (c.rotStiffness • displacement.rot + c.rotDamping • twist.rot)⟩)

/-- Line 420: impedance only if enabled. /repo/programs/ftCompensation/FtCompensation.cpp:364-382. -/
noncomputable def impede (c : Cfg) (s : St) (stat : Option (List ℝ)) (w : Wrench) : Option (St × Wrench) :=
  if c.impedance then applyImpedance c s stat w else some (s, w)

/-- /repo/programs/ftCompensation/FtCompensation.cpp:426-432. -/
def command (c : Cfg) (w : Wrench) : List Cmd :=
  if c.dryRun then []
  else if c.wrenchMode then [.wrench (wrenchToVector w)] else [.twist (wrenchToVector w)]

/-- `run`, /repo/programs/ftCompensation/FtCompensation.cpp:385-433. -/
noncomputable def cycle (c : Cfg) (s : St) (i : Input) : Option (St × List Cmd) :=
  match readSensor c i.sensor with
  | none => none
  | some none => some ({ s with running := false }, [])
  | some (some w) =>
    match compensate c i.statTool w with
    | none => some ({ s with running := false }, [])
    | some w =>
      let w := subWrench w s.initialOffset
      match deadband c.forceDeadband c.linGain w.force, deadband c.torqueDeadband c.rotGain w.torque with
      | some f, some t =>
        match impede c s i.statImpedance ⟨f, t⟩ with
        | none => some ({ s with running := false }, [])
        | some (s', w') => some (s', command c w')
      | _, _ => none

/-- The periodic thread: cycles go on until it is asked to stop.
/repo/programs/ftCompensation/FtCompensation.cpp:384-433, once for every period. -/
noncomputable def run (c : Cfg) (s : St) : List Input → Option (St × List (List Cmd))
  | [] => some (s, [])
  | i :: l =>
    if s.running then do
      let (s1, e) ← cycle c s i
      let (s2, es) ← run c s1 l
      pure (s2, e :: es)
    else some (s, [])

/-- `interruptModule`, /repo/programs/ftCompensation/FtCompensation.cpp:440-444. -/
def interrupt (c : Cfg) (s : St) : St × List Cmd :=
  ({ s with running := false }, if c.dryRun then [] else [.stopControl])

/-- The loop at /repo/programs/ftCompensation/FtCompensation.cpp:188-192 and the final value of `retry`;
`ok k` tells whether the sensor is ready when asked for the time number `k`, counted from zero. -/
def retries (ok : ℕ → Bool) (k : ℕ) : ℕ :=
  if ok k then k
  else if k < 10 then retries ok (k + 1)
  else k + 1
termination_by 10 - k

/-- What `configure` gets from outside. /repo/programs/ftCompensation/FtCompensation.cpp:248-323. -/
structure Start where
  ok : ℕ → Bool
  sensor : Option (List ℝ)
  statTool : Option (List ℝ) := none
  statImpedance : Option (List ℝ) := none

/-- `configure`, /repo/programs/ftCompensation/FtCompensation.cpp:34-326: the outer `none` is a read beyond
the end of the measurement, the inner one a refusal. The calls that configure the Cartesian controller are
taken to succeed. -/
noncomputable def configure (c : Cfg) (e : Start) : Option (Option St) :=
  if c.impedance && !c.wrenchMode then some none
  else if retries e.ok 0 = 10 then some none
  else
    match readSensor c e.sensor with
    | none => none
    | some none => some none
    | some (some w) =>
      match compensate c e.statTool w with
      | none => some none
      | some w =>
        if c.impedance then
          match e.statImpedance with
          | none => some none
          | some x => some (some ⟨w, vectorToFrame x, vectorToFrame x, true⟩)
        else some (some ⟨w, vectorToFrame [], vectorToFrame [], true⟩)

end KD.Ft
