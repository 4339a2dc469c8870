import Verif.Kdl.Basic

/-!
# Trajectories of one degree of freedom

/repo/libraries/YarpPlugins/AsibotSolver/TrajGen.hpp. `configure` gives `none` for a null duration, for which
the code divides by zero. `dump`, which prints, is left out.
-/

namespace KD

open scoped Classical

namespace Traj

/-- `OrderOneTraj`, /repo/libraries/YarpPlugins/AsibotSolver/TrajGen.hpp:45-103. -/
structure OrderOne where
  T : ℝ
  m : ℝ
  b : ℝ

namespace OrderOne

/-- `OrderOneTraj::configure`, /repo/libraries/YarpPlugins/AsibotSolver/TrajGen.hpp:50-56. The overload with velocities
(58-61) always fails. -/
noncomputable def configure (xi xf T : ℝ) : Option OrderOne :=
  if T = 0 then none else some ⟨T, (xf - xi) / T, xi⟩

/-- `OrderOneTraj::get`, /repo/libraries/YarpPlugins/AsibotSolver/TrajGen.hpp:63-66. -/
noncomputable def get (r : OrderOne) (t : ℝ) : ℝ := r.b + r.m * t

/-- `OrderOneTraj::getdot`, /repo/libraries/YarpPlugins/AsibotSolver/TrajGen.hpp:68-71. -/
noncomputable def getdot (r : OrderOne) (_ : ℝ) : ℝ := r.m

/-- `OrderOneTraj::getdotdot`, /repo/libraries/YarpPlugins/AsibotSolver/TrajGen.hpp:73-76. -/
noncomputable def getdotdot (_ : OrderOne) (_ : ℝ) : ℝ := 0

/-- `OrderOneTraj::maxVelBelow`, /repo/libraries/YarpPlugins/AsibotSolver/TrajGen.hpp:78-81. -/
noncomputable def maxVelBelow (r : OrderOne) (thres : ℝ) : Bool := decide (r.m < thres)

/-- `OrderOneTraj::maxAccBelow`, /repo/libraries/YarpPlugins/AsibotSolver/TrajGen.hpp:83-86. -/
noncomputable def maxAccBelow (_ : OrderOne) (thres : ℝ) : Bool := decide (0 < thres)

end OrderOne

/-- `OrderThreeTraj`, /repo/libraries/YarpPlugins/AsibotSolver/TrajGen.hpp:110-215. -/
structure OrderThree where
  a3 : ℝ
  a2 : ℝ
  a1 : ℝ
  a0 : ℝ
  T : ℝ

namespace OrderThree

/-- `OrderThreeTraj::configure` with null velocities at both ends,
/repo/libraries/YarpPlugins/AsibotSolver/TrajGen.hpp:118-126. -/
noncomputable def configure (xi xf T : ℝ) : Option OrderThree :=
  if T = 0 then none
  else
    let a3 := 2 * (xi - xf) / (T * T * T)
    some ⟨a3, (xf - xi) / (T * T) - a3 * T, 0, xi, T⟩

/-- `OrderThreeTraj::configure` with velocities, /repo/libraries/YarpPlugins/AsibotSolver/TrajGen.hpp:131-139. -/
noncomputable def configureVel (xi xf xdoti xdotf T : ℝ) : Option OrderThree :=
  if T = 0 then none
  else
    let a3 := 2 * (xi - xf) / (T * T * T) + (xdotf + xdoti) / (T * T)
    some ⟨a3, (xf - xi - xdoti * T) / (T * T) - a3 * T, xdoti, xi, T⟩

/-- `OrderThreeTraj::get`, /repo/libraries/YarpPlugins/AsibotSolver/TrajGen.hpp:144-151. -/
noncomputable def get (r : OrderThree) (t : ℝ) : ℝ :=
  if t > r.T then r.a3 * r.T * r.T * r.T + r.a2 * r.T * r.T + r.a1 * r.T + r.a0
  else r.a3 * t * t * t + r.a2 * t * t + r.a1 * t + r.a0

/-- `OrderThreeTraj::getdot`, /repo/libraries/YarpPlugins/AsibotSolver/TrajGen.hpp:156-163. -/
noncomputable def getdot (r : OrderThree) (t : ℝ) : ℝ :=
  if t > r.T then 3 * r.a3 * r.T * r.T + 2 * r.a2 * r.T + r.a1
  else 3 * r.a3 * t * t + 2 * r.a2 * t + r.a1

/-- `OrderThreeTraj::getdotdot`, /repo/libraries/YarpPlugins/AsibotSolver/TrajGen.hpp:168-175. -/
noncomputable def getdotdot (r : OrderThree) (t : ℝ) : ℝ :=
  if t > r.T then 6 * r.a3 * r.T + 2 * r.a2 else 6 * r.a3 * t + 2 * r.a2

/-- `OrderThreeTraj::maxVelBelow`, /repo/libraries/YarpPlugins/AsibotSolver/TrajGen.hpp:180-183. -/
noncomputable def maxVelBelow (r : OrderThree) (thres : ℝ) : Bool := decide (r.getdot (r.T / 2) < thres)

/-- `OrderThreeTraj::maxAccBelow`, /repo/libraries/YarpPlugins/AsibotSolver/TrajGen.hpp:188-191. -/
noncomputable def maxAccBelow (r : OrderThree) (thres : ℝ) : Bool := decide (r.getdotdot (r.T / 2) < thres)

end OrderThree

end Traj

end KD
