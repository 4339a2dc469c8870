import Verif.Programs.Streaming

/-!
# The Haar detection controller

/repo/programs/haarDetectionController: the callback for messages of the vision program. The start of
the program and the grasp sequence that follows a detection by the proximity sensors are in
`Verif.Programs.Sessions`.
-/

namespace KD.Haar

open scoped Classical

/-- Members of `GrabberResponder`, /repo/programs/haarDetectionController/GrabberResponder.hpp:20-44. -/
structure Responder where
  isStopped : Bool := true
  noApproach : Bool := false

/-- Calls of the Cartesian controller. /repo/programs/haarDetectionController/GrabberResponder.cpp:59-65. -/
inductive Call
  | twist (x : Sdc.Six)
  | stopControl

/-- `onRead`, /repo/programs/haarDetectionController/GrabberResponder.cpp:22-72; `STEP_X`, `STEP_Y` and
`STEP_Z` are 0.0001, 0.0001 and 0.01, the deadbands are zero. The elements of the message are what
`asFloat64` reads. -/
noncomputable def onRead (r : Responder) : List ℝ → Responder × List Call
  | [inputX, inputY] =>
    let targetX := if |inputX| > 0 then inputX * (1 / 10000) else 0
    let targetY := if |inputY| > 0 then inputY * (1 / 10000) else 0
    if |inputX| > 0 ∨ |inputY| > 0 then
      ({ r with isStopped := false },
        [.twist ![targetX, -targetY, if r.noApproach then 0 else 1 / 100, 0, 0, 0]])
    else if !r.isStopped then ({ r with isStopped := true }, [.stopControl])
    else ({ r with isStopped := true }, [])
  | _ => (r, [])

/-- A sequence of messages and the calls they cause.
/repo/programs/haarDetectionController/GrabberResponder.cpp:22-70, once for every message. -/
noncomputable def run (r : Responder) : List (List ℝ) → Responder × List (List Call)
  | [] => (r, [])
  | b :: l => ((run (onRead r b).1 l).1, (onRead r b).2 :: (run (onRead r b).1 l).2)

end KD.Haar
