import Verif.Ctrl.WithKdl
import Verif.Solver.AsibotConfig

/-!
# The controller with the ASIBOT solver

The calls that the controller makes to its solver (`iCartesianSolver->…` in
/repo/libraries/YarpPlugins/BasicCartesianControl) answered by the methods of
/repo/libraries/YarpPlugins/AsibotSolver/ICartesianSolverImpl.cpp.
-/

namespace KD.Ctrl.WithAsibot

open KD.Asibot (Solver Pinv)

/-- The functions of YARP that the solver uses: the singular vector in `dcm2axis` and `pinv`.
Used by /repo/libraries/YarpPlugins/AsibotSolver/ICartesianSolverImpl.cpp. -/
structure Libs where
  svd : Mat3 → Vec3
  pinv : Pinv

/-- The call is within what the solver is defined for,
/repo/libraries/YarpPlugins/AsibotSolver/ICartesianSolverImpl.cpp:202-483. -/
def Within (l : Libs) (k : Solver) : Ev → Prop
  | .fwdKin q _ => Asibot.fwdKin l.svd k q ≠ none
  | .invKin x q f _ => Asibot.invKin l.svd k x q f.solver ≠ none
  | .diffInvKin q x f _ => x.length = 6 ∧
      Asibot.diffInvKin l.svd l.pinv k q (KdlVectorConverter.vectorToTwist x) f.solver ≠ none
  | .poseDiff a b _ => Asibot.poseDiff l.svd a b ≠ none
  | .changeOrigin a b _ => Asibot.changeOrigin l.svd a b ≠ none
  | .appendLink x _ => k.appendLink x ≠ none
  | _ => True

/-- One call of the controller: what the solver answers and how its tool changes,
/repo/libraries/YarpPlugins/AsibotSolver/ICartesianSolverImpl.cpp:188-500.
Dynamics is not implemented, lines 487-500. Calls to others do not matter to it. -/
def Answers (l : Libs) (k : Solver) : Ev → Solver → Prop
  | .fwdKin q ans, k' => k' = k ∧ ∃ x, Asibot.fwdKin l.svd k q = some x ∧ ans = some x
  | .invKin x q f ans, k' => k' = k ∧ Asibot.invKin l.svd k x q f.solver = some ans
  | .diffInvKin q x f ans, k' => k' = k ∧ x.length = 6 ∧
      ∃ v, Asibot.diffInvKin l.svd l.pinv k q (KdlVectorConverter.vectorToTwist x) f.solver = some v ∧
        ans = v.map Asibot.Joints.toList
  | .poseDiff a b ans, k' => k' = k ∧ ∃ x, Asibot.poseDiff l.svd a b = some x ∧ ans = (true, x)
  | .changeOrigin a b ans, k' => k' = k ∧ ∃ x, Asibot.changeOrigin l.svd a b = some x ∧ ans = some x
  | .invDynStatic _ ans, k' => k' = k ∧ ans = none
  | .invDyn _ _ _ _ _ ans, k' => k' = k ∧ ans = none
  | .restoreOriginalChain ans, k' => k' = k.restore ∧ ans = true
  | .appendLink x ans, k' => k.appendLink x = some k' ∧ ans = true
  | _, k' => k' = k

/-- The calls one after another.
No code of its own: the calls of /repo/libraries/YarpPlugins/BasicCartesianControl/ in the order made. -/
inductive Answered (l : Libs) : Solver → List Ev → Solver → Prop
  | nil (k) : Answered l k [] k
  | cons {k e k1 es k'} : Answers l k e k1 → Answered l k1 es k' → Answered l k (e :: es) k'

end KD.Ctrl.WithAsibot
