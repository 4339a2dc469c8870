import Verif.Solver.Asibot
import Verif.Solver.KdlConfig

/-!
# Configuration of the ASIBOT solver

`open` of /repo/libraries/YarpPlugins/AsibotSolver/DeviceDriverImpl.cpp on a new device. Log messages are left out.
-/

namespace KD

namespace Asibot

open KdlConfig (Val Group Config)

open scoped Classical in
/-- The loop over the limits, /repo/libraries/YarpPlugins/AsibotSolver/DeviceDriverImpl.cpp:64-79, for lists of five
elements; `none` is a returned `false`.
Limits that are equal are only warned about. -/
noncomputable def readLimits (mins maxs : List ℝ) : Option (Joints × Joints) := do
  let lo ← Joints.read mins
  let hi ← Joints.read maxs
  if lo.q1 > hi.q1 ∨ lo.q2 > hi.q2 ∨ lo.q3 > hi.q3 ∨ lo.q4 > hi.q4 ∨ lo.q5 > hi.q5 then none
  else some (lo, hi)

/-- Name of the only strategy, /repo/libraries/YarpPlugins/AsibotSolver/DeviceDriverImpl.cpp:26. -/
def strategyName : String := "leastOverallAngularDisplacement"

/-- `open`, /repo/libraries/YarpPlugins/AsibotSolver/DeviceDriverImpl.cpp:30-98; `none` is a returned `false`. -/
noncomputable def openSolver (c : Config) : Option Solver :=
  let A0 := (c.top.check "A0" (.num (3 / 10))).asFloat
  let A1 := (c.top.check "A1" (.num (4 / 10))).asFloat
  let A2 := (c.top.check "A2" (.num (4 / 10))).asFloat
  let A3 := (c.top.check "A3" (.num (3 / 10))).asFloat
  match (c.top "mins").bind Val.asList, (c.top "maxs").bind Val.asList with
  | some mins, some maxs =>
    if mins.length ≠ 5 ∨ maxs.length ≠ 5 then none
    else
      match readLimits mins maxs with
      | none => none
      | some (qMin, qMax) =>
        if (c.top.check "invKinStrategy" (.str strategyName)).asString = strategyName then
          some ⟨A0, A1, A2, A3, qMin, qMax, false, 1⟩
        else none
  | _, _ => none

end Asibot

end KD
