import Verif.Solver.KdlSolver
import Verif.Kdl.Dynamics

/-!
# Inverse dynamics of the chain solver of KDL

The two `invDyn` methods of /repo/libraries/YarpPlugins/KdlSolver/ICartesianSolverImpl.cpp. As in
`Verif/Solver/KdlSolver.lean`, `none` is a read past the end of a vector and `some none` a returned `false`.
-/

namespace KD

open KdlVectorConverter KdlSolver

/-- Members `chain` (with the inertias of its segments), `originalChain` and `idSolver` (which keeps the
gravity) of /repo/libraries/YarpPlugins/KdlSolver/KdlSolver.hpp. -/
structure DynSolver where
  links : List Link
  original : List Link
  gravity : Vec3

namespace DynSolver

/-- The chain without its inertias. The member `chain` of /repo/libraries/YarpPlugins/KdlSolver/KdlSolver.hpp. -/
def chain (s : DynSolver) : Chain := s.links.map (·.seg)

/-- `appendLink`, /repo/libraries/YarpPlugins/KdlSolver/ICartesianSolverImpl.cpp:33-47: the new segment has no mass. -/
noncomputable def appendLink (s : DynSolver) (x : List ℝ) : DynSolver :=
  { s with links := s.links ++ [⟨Segment.make Joint.fixed (vectorToFrame x), Inertia.zero⟩] }

/-- `restoreOriginalChain`, /repo/libraries/YarpPlugins/KdlSolver/ICartesianSolverImpl.cpp:51-63. -/
def restore (s : DynSolver) : DynSolver := { s with links := s.original }

/-- `invDyn(q, t)`, /repo/libraries/YarpPlugins/KdlSolver/ICartesianSolverImpl.cpp:225-263: no speeds, accelerations
nor external wrenches. -/
noncomputable def invDynStatic (s : DynSolver) (q : List ℝ) : Option (Option (List ℝ)) := do
  let n := s.chain.nJoints
  let qInRad ← toRadians n q
  return rne s.links s.gravity qInRad (List.replicate n 0) (List.replicate n 0)
    (List.replicate s.links.length 0)

/-- The vector `wrenches`, /repo/libraries/YarpPlugins/KdlSolver/ICartesianSolverImpl.cpp:292,310: null but for the
last segment
(`wrenches.back()`, undefined for a chain without segments). -/
def wrenches (s : DynSolver) (w : Wrench) : Option (List Wrench) :=
  if s.links.isEmpty then none else some (List.replicate (s.links.length - 1) 0 ++ [w])

/-- `invDyn(q, qdot, qdotdot, ftip, t, frame)`, /repo/libraries/YarpPlugins/KdlSolver/ICartesianSolverImpl.cpp:267-338. -/
noncomputable def invDyn (s : DynSolver) (q qdot qdotdot ftip : List ℝ) (frame : SolverFrame) :
    Option (Option (List ℝ)) := do
  let n := s.chain.nJoints
  let qInRad ← toRadians n q
  let qdotInRad ← toRadians n qdot
  let qdotdotInRad ← toRadians n qdotdot
  let kdlftip := vectorToWrench ftip
  match frame with
  | .other => return none
  | .base =>
    let f ← s.chain.fk qInRad
    let wrenches ← s.wrenches (Wrench.rotate f.M.transpose kdlftip)
    return rne s.links s.gravity qInRad qdotInRad qdotdotInRad wrenches
  | .tcp =>
    let wrenches ← s.wrenches kdlftip
    return rne s.links s.gravity qInRad qdotInRad qdotdotInRad wrenches

end DynSolver

end KD
