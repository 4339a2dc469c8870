import Verif.Screw.Builder
import Verif.Screw.ConfigSelector
import Verif.Ctrl.Trajectory

/-!
# The screw theory trajectory example

/repo/examples/cpp/exampleScrewTheoryTrajectory: a program that moves the left arm of TEO along a straight line by
means of the screw theory library. Messages, and ports and devices that cannot be opened, are left out. `none` is
undefined behaviour (or a value that is not a number).
-/

namespace KD.StDemo

open Real Mat3

/-- `makeTeoLeftArmKinematics`,
/repo/examples/cpp/exampleScrewTheoryTrajectory/exampleScrewTheoryTrajectory.cpp:72-89. -/
noncomputable def teoLeftArm : Poe :=
  let H_S_0 : Frame := ⟨rotY (-π / 2) * rotX (-π / 2), ⟨0, 0.34692, 0.1932 + 0.305⟩⟩
  let H_0_T : Frame := ⟨1, ⟨-0.63401, 0, 0⟩⟩
  let poe := Poe.empty H_0_T
  let poe := poe.appendExp (.make .rotation ⟨0, 0, 1⟩ 0) 1
  let poe := poe.appendExp (.make .rotation ⟨0, 1, 0⟩ 0) 1
  let poe := poe.appendExp (.make .rotation ⟨1, 0, 0⟩ 0) 1
  let poe := poe.appendExp (.make .rotation ⟨0, 0, 1⟩ ⟨-0.32901, 0, 0⟩) 1
  let poe := poe.appendExp (.make .rotation ⟨1, 0, 0⟩ ⟨-0.32901, 0, 0⟩) 1
  let poe := poe.appendExp (.make .rotation ⟨0, 0, 1⟩ ⟨-0.54401, 0, 0⟩) 1
  poe.changeBaseFrame H_S_0

/-- `KDL::deg2rad` times. Used by /repo/examples/cpp/exampleScrewTheoryTrajectory/. -/
noncomputable def toRad (x : ℝ) : ℝ := π / 180 * x

/-- `KDL::rad2deg` times. Used by /repo/examples/cpp/exampleScrewTheoryTrajectory/. -/
noncomputable def toDeg (x : ℝ) : ℝ := x * (180 / π)

/-- What the robot answers to `main`: the positions once `getEncoders` succeeds, as many as there are axes; the limits
of each joint, if told; whether the control mode changes. Used by /repo/examples/cpp/exampleScrewTheoryTrajectory/. -/
structure Robot where
  encoders : List ℝ
  limits : ℕ → Option (ℝ × ℝ)
  modes : Bool

/-- What the thread is given, /repo/examples/cpp/exampleScrewTheoryTrajectory/TrajectoryThread.hpp:27-36. -/
structure Demo where
  problem : IkProblem
  selector : Selector
  traj : Ctrl.Traj

/-- The line to follow,
/repo/examples/cpp/exampleScrewTheoryTrajectory/exampleScrewTheoryTrajectory.cpp:204-210. -/
noncomputable def line (start : Frame) (maxVel duration : ℝ) : Option Ctrl.Traj :=
  let stop : Frame := ⟨start.M, start.p + ⟨0.15, 0.1, 0.1⟩⟩
  let path := PathLine.between start stop 0.1
  (Trap.setDuration maxVel 0.2 0 path.length duration).map fun p => .segment path p.duration p.pos p.vel

/-- `main` until the thread starts,
/repo/examples/cpp/exampleScrewTheoryTrajectory/exampleScrewTheoryTrajectory.cpp:140-220; `some none` if it gives up.
The first six positions are read, which have to exist; `setControlModes` reads a mode for each axis of the robot
out of an array of six. -/
noncomputable def main (rnd : ℕ → ℝ) (r : Robot) (maxVel duration : ℝ) : Option (Option Demo) :=
  let poe := teoLeftArm
  let axes := poe.exps.length
  if r.encoders.length < axes then none
  else
    let fk := poe.evaluate ((r.encoders.take axes).map toRad) 1
    if fk.1 = false then some none
    else do
      match ← Builder.build rnd poe with
      | none => some none
      | some (pb, _) =>
        match (List.range axes).mapM r.limits with
        | none => some none
        | some lims =>
          match Selector.createLeast (lims.map Prod.fst) (lims.map Prod.snd) with
          | none => none
          | some sel =>
            let traj ← line fk.2 maxVel duration
            if axes < r.encoders.length then none
            else if r.modes then some (some ⟨pb, sel, traj⟩)
            else some none

/-- `run`, /repo/examples/cpp/exampleScrewTheoryTrajectory/TrajectoryThread.cpp:33-80, at the given time since the
start and with the answer to `getEncoders`: the positions sent, if any. `setPositions` reads a position for each
axis. -/
noncomputable def Demo.run (d : Demo) (time : ℝ) (encoders : Option (List ℝ)) : Option (Option (List ℝ) × Demo) := do
  let (_, solutions) ← d.problem.solve (d.traj.pos time) []
  let (ok, sel) ← d.selector.configure solutions
  if ok = false then some (none, { d with selector := sel })
  else match encoders with
    | none => some (none, { d with selector := sel })
    | some q => do
      let (ok, sel) ← sel.find (q.map toRad)
      if ok = false then some (none, { d with selector := sel })
      else do
        let solution ← sel.retrievePose
        if solution.length < q.length then none
        else some (some (solution.map toDeg), { d with selector := sel })

/-- The thread, which is run at the given times. Used by /repo/examples/cpp/exampleScrewTheoryTrajectory/. -/
noncomputable def Demo.runs (d : Demo) : List (ℝ × Option (List ℝ)) → Option (List (Option (List ℝ)))
  | [] => some []
  | (time, encoders) :: l => do
    let (sent, d) ← d.run time encoders
    let rest ← d.runs l
    some (sent :: rest)

end KD.StDemo
