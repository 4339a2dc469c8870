import Verif.Kdl.Trajectory
import Verif.Ctrl.Controller

/-!
# The trajectories that the controller and the keyboard build

`Cfg.line` and `Cfg.ray` of the controller are any trajectories. Here are the ones that the code builds with KDL.
-/

namespace KD.Ctrl

/-- `KDL::Trajectory_Segment` of a path and a profile: `Pos` and `Vel`. -/
noncomputable def Traj.segment (path : PathLine) (duration : ℝ) (pos vel : ℝ → ℝ) : Traj :=
  ⟨duration, fun t => path.pos (pos t), fun t => path.vel (vel t)⟩

/-- The trajectory of `movl` from the pose `a` to the pose `b`,
/repo/libraries/YarpPlugins/BasicCartesianControl/ICartesianControlImpl.cpp:218-225: the constructor of the segment
asks the profile to cover the path in the given duration. `none` if it has coefficients that are not numbers. -/
noncomputable def line? (a b : Frame) (duration : ℝ) : Option Traj :=
  let path := PathLine.between a b 1
  (Trap.setDuration 10 10 0 path.length duration).map fun p => .segment path p.duration p.pos p.vel

/-- The trajectory of `movv` from the pose `a` with the velocity `w`,
/repo/libraries/YarpPlugins/BasicCartesianControl/ICartesianControlImpl.cpp:276-284, and that of the keyboard's thread,
/repo/programs/keyboardController/LinearTrajectoryThread.cpp:87-90. The duration is infinite for a null velocity; it
is not read then or ever, and is zero here. -/
noncomputable def ray (a : Frame) (w : Twist) : Traj :=
  open Classical in
  let path := PathLine.along a w 1
  let p := Rect.setDuration 10 0 10 (if path.length = 0 then none else some (10 / path.length))
  .segment path (p.d.getD 0) p.pos p.vel

end KD.Ctrl
