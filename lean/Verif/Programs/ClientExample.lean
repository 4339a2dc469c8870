import Verif.Ctrl.Controller

/-!
# The example of a client

/repo/examples/cpp/exampleCartesianControlClient/exampleCartesianControlClient.cpp: one movement after another. The
program talks to the controller over the network; the commands are taken to arrive, so that it is the thread of the
server that calls the controller on its behalf.
-/

namespace KD.Ctrl

open Prog (read modify lift)

/-- Movements one after another, each followed by `wait()`, whose result is not looked at
(/repo/examples/cpp/exampleCartesianControlClient/exampleCartesianControlClient.cpp:66-134): the poses, each with the
number of turns that its `wait` may take. `some false`: a movement is refused and the program ends with 1; `none`: a
`wait` is still waiting. -/
noncomputable def moves (cfg : Cfg) : List (List ℝ × ℕ) → P (Option Bool)
  | [] => return some true
  | (x, n) :: l => do
    if ← movj cfg x then
      match ← wait 0 n with
      | none => return none
      | some _ => moves cfg l
    else return some false

/-- The poses, /repo/examples/cpp/exampleCartesianControlClient/exampleCartesianControlClient.cpp:68, 78, 88, 98, 108,
118 and 128. -/
noncomputable def clientPoses : List (List ℝ) := [
  [0.4025, -0.3469, 0.1692, 0.0, 1.5708, 0.0],
  [0.5, -0.3469, 0.1692, 0.0, 1.5708, 0.0],
  [0.5, -0.4, 0.1692, 0.0, 1.5708, 0.0],
  [0.5, -0.4, 0.1692, 0.0, 1.36, 0.0],
  [0.5, -0.4, 0.1692, 0.6139, 1.4822, 0.6139],
  [0.4025, -0.3469, 0.1692, 0.0, 1.5708, 0.0],
  [0.0, -0.3469, -0.2333, 0.0, 3.1416, 0.0]]

/-- `main` once the device is open, /repo/examples/cpp/exampleCartesianControlClient/exampleCartesianControlClient.cpp:61-137. -/
noncomputable def client (cfg : Cfg) (turns : ℕ → ℕ) : P (Option Bool) := do
  let _ ← stat
  moves cfg (clientPoses.zipIdx.map fun p => (p.1, turns p.2))

end KD.Ctrl
