import Verif.Programs.Keyboard
import Verif.Repr.Converters

/-!
# The thread of the keyboard controller that sends poses

/repo/programs/keyboardController/LinearTrajectoryThread.cpp, together with the calls that the keyboard
controller makes. `yarp::os::PeriodicThread` is supposed to look at the flag set by `suspend` and cleared by
`resume` before each call of `run`, and not to wait in `suspend` for a `run` that has begun. The streaming preset
and the answer to `stat` at lines 50-54 and 68-74 are part of the answer `Ans.configure`.
-/

namespace KD.Kbd

open scoped Classical

/-- Members, /repo/programs/keyboardController/LinearTrajectoryThread.hpp:38-46, and the flag of
`yarp::os::PeriodicThread`. `line` is the trajectory, as the pose at each time since `startTime`. -/
structure Thread where
  period : ℝ
  tcp : Bool
  suspended : Bool := true
  deltaX : List ℝ := []
  line : Option (ℝ → Frame) := none
  startTime : ℝ := 0

/-- Six coordinates as `std::vector`.
No code of its own: the `std::vector` of six numbers used by /repo/programs/keyboardController/LinearTrajectoryThread.cpp. -/
def coords (v : Fin 6 → ℝ) : List ℝ := [v 0, v 1, v 2, v 3, v 4, v 5]

/-- `configure` once nothing failed, /repo/programs/keyboardController/LinearTrajectoryThread.cpp:56-93: `x` is the
pose told by the controller, `now` the time. `ray` makes the trajectory out of `Path_Line` and
`VelocityProfile_Rectangular`. -/
noncomputable def Thread.configure (ray : Frame → Twist → ℝ → Frame) (t : Thread) (v : Fin 6 → ℝ) (x : List ℝ)
    (now : ℝ) : Thread :=
  if t.tcp then { t with deltaX := (coords v).map fun y => t.period / 1000 * y }
  else
    { t with
      line := some (ray (KdlVectorConverter.vectorToFrame x) (KdlVectorConverter.vectorToTwist (coords v)))
      startTime := now }

/-- What a call of the keyboard controller does to the thread: `suspend`, `configure` followed by `resume`
(/repo/programs/keyboardController/KeyboardController.cpp:615-621), and `useTcpFrame` (:697-700). -/
noncomputable def Thread.call (ray : Frame → Twist → ℝ → Frame) (t : Thread) (x : List ℝ) (now : ℝ) : Ev → Thread
  | .suspend => { t with suspended := true }
  | .poses v => { t.configure ray v x now with suspended := false }
  | .setFrame b => { t with tcp := b }
  | _ => t

/-- `run`, /repo/programs/keyboardController/LinearTrajectoryThread.cpp:96-117: the vector given to `pose`, `none`
when the missing trajectory is used. -/
noncomputable def Thread.body (t : Thread) (now : ℝ) : Option (List ℝ) :=
  if t.tcp then some t.deltaX
  else t.line.map fun l => KdlVectorConverter.frameToVector (l (now - t.startTime))

/-- What the two threads of the program do, in the order in which it happens.
/repo/programs/keyboardController/LinearTrajectoryThread.cpp:48-117. -/
inductive Act
  /-- the keyboard thread makes its next call; the pose that the controller tells, and the time -/
  | call (x : List ℝ) (now : ℝ)
  /-- the periodic thread is due, looks at the flag, and begins `run` if not suspended -/
  | wake
  /-- the body of the `run` that has begun -/
  | body (now : ℝ)

/-- What is seen from outside: calls of the keyboard thread, with the pose told and the time, and poses sent.
/repo/programs/keyboardController/LinearTrajectoryThread.cpp:48-117. -/
inductive Obs
  | call (e : Ev) (x : List ℝ) (now : ℝ)
  | pose (x : List ℝ) (now : ℝ)

/-- Both threads: `todo` are the calls that the keyboard thread still has to make, `begun` tells that `run` has
begun. /repo/programs/keyboardController/LinearTrajectoryThread.cpp:48-117. -/
structure Sys where
  thread : Thread
  todo : List Ev
  begun : Bool := false

/-- One step; `none` is undefined behaviour. Steps that are not possible do nothing.
/repo/programs/keyboardController/LinearTrajectoryThread.cpp:48-117. -/
noncomputable def Sys.step (ray : Frame → Twist → ℝ → Frame) (s : Sys) : Act → Option (Sys × List Obs)
  | .call x now => match s.todo with
    | [] => some (s, [])
    | e :: l => some ({ s with thread := s.thread.call ray x now e, todo := l }, [.call e x now])
  | .wake => some ({ s with begun := s.begun || !s.thread.suspended }, [])
  | .body now =>
    if s.begun then (s.thread.body now).map fun x => ({ s with begun := false }, [.pose x now])
    else some (s, [])

/-- A schedule of both threads. /repo/programs/keyboardController/LinearTrajectoryThread.cpp:48-117. -/
noncomputable def Sys.run (ray : Frame → Twist → ℝ → Frame) (s : Sys) : List Act → Option (Sys × List Obs)
  | [] => some (s, [])
  | a :: l => do
    let (s1, o) ← s.step ray a
    let (s2, os) ← s1.run ray l
    pure (s2, o ++ os)

end KD.Kbd
