import Verif.Ctrl.Open
import Verif.Ctrl.Contract
import Verif.Solver.KdlDynamics

/-!
# The controller with the chain solver of KDL

The calls that the controller makes to its solver (`iCartesianSolver->…` in
/repo/libraries/YarpPlugins/BasicCartesianControl) answered by the methods of
/repo/libraries/YarpPlugins/KdlSolver/ICartesianSolverImpl.cpp. The inverse solvers of KDL may keep a state of their
own (the one of screw theory does), so each call may be answered by another function.
-/

namespace KD.Ctrl

/-- The inverse solvers: how they may answer a call.
Called at /repo/libraries/YarpPlugins/KdlSolver/ICartesianSolverImpl.cpp:116-221. -/
structure Inverse where
  pos : PosSolver → Prop
  vel : VelSolver → Prop

/-- The chains of the solver, for the methods of kinematics.
The members used by /repo/libraries/YarpPlugins/KdlSolver/ICartesianSolverImpl.cpp:19-221. -/
def _root_.KD.DynSolver.kin (k : DynSolver) : KdlSolver := ⟨k.chain, k.original.map (·.seg)⟩

/-- The reference frame as the solver is told. /repo/libraries/YarpPlugins/ICartesianSolver.h:26. -/
def RefFrame.solver : RefFrame → SolverFrame
  | .base => .base
  | .tcp => .tcp

/-- The call is within what the solver is defined for, /repo/libraries/YarpPlugins/KdlSolver/ICartesianSolverImpl.cpp. -/
def Within (i : Inverse) (k : DynSolver) : Ev → Prop
  | .fwdKin q _ => k.kin.fwdKin q ≠ none
  | .invKin x q f _ => ∀ pos, i.pos pos → k.kin.invKin pos x q f.solver ≠ none
  | .diffInvKin q x f _ => ∀ vel, i.vel vel → k.kin.diffInvKin vel q x f.solver ≠ none
  | .invDynStatic q _ => k.invDynStatic q ≠ none
  | .invDyn q v a w f _ => k.invDyn q v a w f.solver ≠ none
  | _ => True

/-- One call of the controller: what the solver answers and how its chain changes,
/repo/libraries/YarpPlugins/KdlSolver/ICartesianSolverImpl.cpp:33-338.
Calls to others do not matter to it. -/
def Answers (i : Inverse) (k : DynSolver) : Ev → DynSolver → Prop
  | .fwdKin q ans, k' => k' = k ∧ ∃ x, k.kin.fwdKin q = some x ∧ ans = some x
  | .invKin x q f ans, k' => k' = k ∧ ∃ pos, i.pos pos ∧ k.kin.invKin pos x q f.solver = some ans
  | .diffInvKin q x f ans, k' => k' = k ∧ ∃ vel, i.vel vel ∧ k.kin.diffInvKin vel q x f.solver = some ans
  | .poseDiff a b ans, k' => k' = k ∧ ans = (true, KdlSolver.poseDiff a b)
  | .changeOrigin a b ans, k' => k' = k ∧ ans = some (KdlSolver.changeOrigin a b)
  | .invDynStatic q ans, k' => k' = k ∧ k.invDynStatic q = some ans
  | .invDyn q v a w f ans, k' => k' = k ∧ k.invDyn q v a w f.solver = some ans
  | .restoreOriginalChain ans, k' => k' = k.restore ∧ ans = true
  | .appendLink x ans, k' => k' = k.appendLink x ∧ ans = true
  | _, k' => k' = k

/-- The calls one after another.
No code of its own: the calls of /repo/libraries/YarpPlugins/BasicCartesianControl/ in the order made. -/
inductive Answered (i : Inverse) : DynSolver → List Ev → DynSolver → Prop
  | nil (k) : Answered i k [] k
  | cons {k e k1 es k'} : Answers i k e k1 → Answered i k1 es k' → Answered i k (e :: es) k'

/-- The calls of a history, in their order. -/
def callsOf (ds : List Done) : List Ev := ds.flatMap (·.calls)

end KD.Ctrl
