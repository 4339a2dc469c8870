import Verif.Solver.KdlTreeConfig
import Verif.Solver.KdlDynamics
import Verif.Solver.Asibot
import Verif.Screw.Poe

/-!
# The solvers on the vectors of their caller

In `Verif/Solver/KdlSolver.lean`, `Verif/Solver/KdlTreeSolver.lean` and `Verif/Solver/Asibot.lean` a method is a
function of its arguments. In the code, arguments and result are references to vectors of the caller, and nothing
keeps the caller from passing the same vector twice: `solver->fwdKin(v, v)`. Here the methods are programs on a
memory of vectors, with every read and write in the order of the code, so that a method may find its argument
changed by its own writes.

Locks and log messages are left out. Numbers are real.
-/

namespace KD.InPlace

open KdlVectorConverter

/-- The vectors of the caller, by address: the references `const std::vector<double> &` and `std::vector<double> &`
of /repo/libraries/YarpPlugins/ICartesianSolver.h. -/
abbrev Mem := ℕ → List ℝ

/-- Code that reads and writes the vectors of the caller; `none` is undefined behaviour (an access past the end).
The bodies of the methods of /repo/libraries/YarpPlugins/KdlSolver/ICartesianSolverImpl.cpp. -/
def Code (α : Type) := Mem → Option (α × Mem)

/-- One statement after another.
/repo/libraries/YarpPlugins/KdlSolver/ICartesianSolverImpl.cpp. -/
instance : Monad Code where
  pure a := fun m => some (a, m)
  bind p k := fun m => (p m).bind fun r => k r.1 r.2

/-- The contents of a vector: a copy, or a call of a function that only reads it, as
/repo/libraries/YarpPlugins/KdlSolver/ICartesianSolverImpl.cpp:69. -/
def vec (a : ℕ) : Code (List ℝ) := fun m => some (m a, m)

/-- `v[i]`, as in /repo/libraries/YarpPlugins/KdlSolver/ICartesianSolverImpl.cpp:86. -/
def at' (a i : ℕ) : Code ℝ := fun m => ((m a)[i]?).map fun v => (v, m)

/-- `v[i] = value`, as in /repo/libraries/YarpPlugins/KdlSolver/ICartesianSolverImpl.cpp:161. -/
def put (a i : ℕ) (v : ℝ) : Code Unit := fun m =>
  if i < (m a).length then some ((), Function.update m a ((m a).set i v)) else none

/-- `v.resize(n)`, as in /repo/libraries/YarpPlugins/KdlSolver/ICartesianSolverImpl.cpp:157. -/
def resize (a n : ℕ) : Code Unit := fun m =>
  some ((), Function.update m a ((m a).take n ++ List.replicate (n - (m a).length) 0))

/-- `v = other`, and `v.clear()` with an empty one, as in
/repo/libraries/YarpPlugins/KdlSolver/ICartesianSolverImpl.cpp:73 and
/repo/libraries/YarpPlugins/KdlTreeSolver/ICartesianSolverImpl.cpp:52. -/
def assign (a : ℕ) (l : List ℝ) : Code Unit := fun m => some ((), Function.update m a l)

/-- `v.insert(v.end(), l.cbegin(), l.cend())`, as in
/repo/libraries/YarpPlugins/KdlTreeSolver/ICartesianSolverImpl.cpp:65. -/
def insertEnd (a : ℕ) (l : List ℝ) : Code Unit := fun m => some ((), Function.update m a (m a ++ l))

/-- A computation on local variables only, where `none` is undefined behaviour.
/repo/libraries/YarpPlugins/KdlSolver/ICartesianSolverImpl.cpp:89-94. -/
def local' {α : Type} (o : Option α) : Code α := fun m => o.map fun a => (a, m)

/-- The loops `qInRad(motor) = q[motor] * KDL::deg2rad`, from element `i` on, as in
/repo/libraries/YarpPlugins/KdlSolver/ICartesianSolverImpl.cpp:84-87. -/
noncomputable def toRad (q : ℕ) : ℕ → ℕ → Code (List ℝ)
  | _, 0 => pure []
  | i, n + 1 => do
    let v ← at' q i
    let rest ← toRad q (i + 1) n
    return v * deg2rad :: rest

/-- The loops `q[motor] = kdlq(motor) * KDL::rad2deg` and `t[motor] = kdlt(motor)`, from element `i` on, as in
/repo/libraries/YarpPlugins/KdlSolver/ICartesianSolverImpl.cpp:159-162. -/
def storeFrom (out : ℕ) (f : ℝ → ℝ) (vals : List ℝ) : ℕ → ℕ → Code Unit
  | _, 0 => pure ()
  | i, n + 1 => do
    let v ← local' vals[i]?
    put out i (f v)
    storeFrom out f vals (i + 1) n

/-- `resize` and the loop after it, as in /repo/libraries/YarpPlugins/KdlSolver/ICartesianSolverImpl.cpp:157-162. -/
def store (out n : ℕ) (f : ℝ → ℝ) (vals : List ℝ) : Code Unit := do
  resize out n
  storeFrom out f vals 0 n

/-- The end of `invKin` and `diffInvKin` after the call of the solver of KDL, as in
/repo/libraries/YarpPlugins/KdlSolver/ICartesianSolverImpl.cpp:147-164: nothing is stored after an error. -/
noncomputable def finish (out n : ℕ) (r : ℤ × List ℝ) : Code Bool :=
  if r.1 < 0 then pure false
  else do
    store out n (· * rad2deg) r.2
    return true

/-- The end of `invDyn` after the call of the solver of KDL, as in
/repo/libraries/YarpPlugins/KdlSolver/ICartesianSolverImpl.cpp:245-262: nothing is stored after an error. -/
def finishDyn (out n : ℕ) : Option (List ℝ) → Code Bool
  | none => pure false
  | some t => do
    store out n id t
    return true

/-! ## The chain solver -/

namespace Kdl

/-- `changeOrigin`, /repo/libraries/YarpPlugins/KdlSolver/ICartesianSolverImpl.cpp:67-76. -/
noncomputable def changeOrigin (xOldObj xNewOld xNewObj : ℕ) : Code Bool := do
  let hOldObj := vectorToFrame (← vec xOldObj)
  let hNewOld := vectorToFrame (← vec xNewOld)
  assign xNewObj (frameToVector (hNewOld * hOldObj))
  return true

/-- `fwdKin`, /repo/libraries/YarpPlugins/KdlSolver/ICartesianSolverImpl.cpp:80-99. -/
noncomputable def fwdKin (s : KdlSolver) (q x : ℕ) : Code Bool := do
  let qInRad ← toRad q 0 s.numJoints
  let f ← local' (s.chain.fk qInRad)
  assign x (frameToVector f)
  return true

/-- `poseDiff`, /repo/libraries/YarpPlugins/KdlSolver/ICartesianSolverImpl.cpp:103-112. -/
noncomputable def poseDiff (xLhs xRhs xOut : ℕ) : Code Bool := do
  let fLhs := vectorToFrame (← vec xLhs)
  let fRhs := vectorToFrame (← vec xRhs)
  assign xOut (twistToVector (frameDiff fRhs fLhs))
  return true

/-- `invKin`, /repo/libraries/YarpPlugins/KdlSolver/ICartesianSolverImpl.cpp:116-165. -/
noncomputable def invKin (ik : PosSolver) (s : KdlSolver) (xd qGuess q : ℕ) (frame : SolverFrame) : Code Bool := do
  let frameXd := vectorToFrame (← vec xd)
  let qGuessInRad ← toRad qGuess 0 s.numJoints
  match frame with
  | .other => return false
  | .tcp =>
    let f ← local' (s.chain.fk qGuessInRad)
    finish q s.numJoints (ik s.chain qGuessInRad (f * frameXd))
  | .base => finish q s.numJoints (ik s.chain qGuessInRad frameXd)

/-- `diffInvKin`, /repo/libraries/YarpPlugins/KdlSolver/ICartesianSolverImpl.cpp:169-221. -/
noncomputable def diffInvKin (ik : VelSolver) (s : KdlSolver) (q xdot qdot : ℕ) (frame : SolverFrame) :
    Code Bool := do
  let qInRad ← toRad q 0 s.numJoints
  let kdlxdot := vectorToTwist (← vec xdot)
  match frame with
  | .other => return false
  | .tcp =>
    let f ← local' (s.chain.fk qInRad)
    finish qdot s.numJoints (ik s.chain qInRad (Twist.rotate f.M kdlxdot))
  | .base => finish qdot s.numJoints (ik s.chain qInRad kdlxdot)

/-- `invDyn(q, t)`, /repo/libraries/YarpPlugins/KdlSolver/ICartesianSolverImpl.cpp:225-263. -/
noncomputable def invDynStatic (s : DynSolver) (q t : ℕ) : Code Bool := do
  let n := s.chain.nJoints
  let qInRad ← toRad q 0 n
  finishDyn t n (rne s.links s.gravity qInRad (List.replicate n 0) (List.replicate n 0)
    (List.replicate s.links.length 0))

/-- `invDyn(q, qdot, qdotdot, ftip, t, frame)`,
/repo/libraries/YarpPlugins/KdlSolver/ICartesianSolverImpl.cpp:267-338. -/
noncomputable def invDyn (s : DynSolver) (q qdot qdotdot ftip t : ℕ) (frame : SolverFrame) : Code Bool := do
  let n := s.chain.nJoints
  let qInRad ← toRad q 0 n
  let qdotInRad ← toRad qdot 0 n
  let qdotdotInRad ← toRad qdotdot 0 n
  let kdlftip := vectorToWrench (← vec ftip)
  match frame with
  | .other => return false
  | .base =>
    let f ← local' (s.chain.fk qInRad)
    let wrenches ← local' (s.wrenches (Wrench.rotate f.M.transpose kdlftip))
    finishDyn t n (rne s.links s.gravity qInRad qdotInRad qdotdotInRad wrenches)
  | .tcp =>
    let wrenches ← local' (s.wrenches kdlftip)
    finishDyn t n (rne s.links s.gravity qInRad qdotInRad qdotdotInRad wrenches)

end Kdl

/-! ## The tree solver -/

namespace Tree

/-- The loops of `changeOrigin` and `poseDiff` over the endpoints, from `i` on: two blocks are read, one is added to
the result. /repo/libraries/YarpPlugins/KdlTreeSolver/ICartesianSolverImpl.cpp:55-66 and 108-120. -/
noncomputable def blocks (f : List ℝ → List ℝ → List ℝ) (a b out : ℕ) : ℕ → ℕ → Code Unit
  | _, 0 => pure ()
  | i, n + 1 => do
    let ai ← local' (KdlTreeSolver.block (← vec a) i)
    let bi ← local' (KdlTreeSolver.block (← vec b) i)
    insertEnd out (f ai bi)
    blocks f a b out (i + 1) n

/-- `changeOrigin`, /repo/libraries/YarpPlugins/KdlTreeSolver/ICartesianSolverImpl.cpp:50-69: the result is cleared
first. -/
noncomputable def changeOrigin (s : KdlTreeSolver) (xOldObj xNewOld xNewObj : ℕ) : Code Bool := do
  assign xNewObj []
  blocks KdlSolver.changeOrigin xOldObj xNewOld xNewObj 0 s.tcps.endpoints.length
  return true

/-- `poseDiff`, /repo/libraries/YarpPlugins/KdlTreeSolver/ICartesianSolverImpl.cpp:103-123: the result is cleared
first. -/
noncomputable def poseDiff (s : KdlTreeSolver) (xLhs xRhs xOut : ℕ) : Code Bool := do
  assign xOut []
  blocks KdlSolver.poseDiff xLhs xRhs xOut 0 s.tcps.endpoints.length
  return true

/-- The loop of `fwdKin` over the endpoints, /repo/libraries/YarpPlugins/KdlTreeSolver/ICartesianSolverImpl.cpp:85-98. -/
noncomputable def poses (s : KdlTreeSolver) (qInRad : List ℝ) (x : ℕ) : List String → Code Bool
  | [] => pure true
  | e :: es =>
    match s.fk qInRad e with
    | none => pure false
    | some f => do
      insertEnd x (frameToVector f)
      poses s qInRad x es

/-- `fwdKin`, /repo/libraries/YarpPlugins/KdlTreeSolver/ICartesianSolverImpl.cpp:73-99: the joints are read before the
result is cleared. -/
noncomputable def fwdKin (s : KdlTreeSolver) (q x : ℕ) : Code Bool := do
  let qInRad ← toRad q 0 s.nJoints
  assign x []
  poses s qInRad x s.tcps.endpoints

/-- `invKin`, /repo/libraries/YarpPlugins/KdlTreeSolver/ICartesianSolverImpl.cpp:127-189. -/
noncomputable def invKin (ik : TreePosSolver) (s : KdlTreeSolver) (xd qGuess q : ℕ) (frame : SolverFrame) :
    Code Bool := do
  let frames ← local' (KdlTreeSolver.fill s.tcps vectorToFrame 1 (← vec xd) s.tcps.endpoints 0 fun _ => none)
  let qGuessInRad ← toRad qGuess 0 s.nJoints
  match (match frame with
    | .base => some frames
    | .tcp => s.toBase qGuessInRad (· * ·) s.tcps.endpoints frames
    | .other => none) with
  | none => return false
  | some frames => finish q s.nJoints (ik qGuessInRad frames)

/-- `diffInvKin`, /repo/libraries/YarpPlugins/KdlTreeSolver/ICartesianSolverImpl.cpp:193-258. -/
noncomputable def diffInvKin (ik : TreeVelSolver) (s : KdlTreeSolver) (q xdot qdot : ℕ) (frame : SolverFrame) :
    Code Bool := do
  let twists ← local' (KdlTreeSolver.fill s.tcps vectorToTwist 0 (← vec xdot) s.tcps.endpoints 0 fun _ => none)
  let qInRad ← toRad q 0 s.nJoints
  match (match frame with
    | .base => some twists
    | .tcp => s.toBase qInRad (fun f w => Twist.rotate f.M w) s.tcps.endpoints twists
    | .other => none) with
  | none => return false
  | some twists => finish qdot s.nJoints (ik qInRad twists)

/-- `invDyn(q, t)`, /repo/libraries/YarpPlugins/KdlTreeSolver/ICartesianSolverImpl.cpp:262-295. -/
noncomputable def invDynStatic (s : TreeDynSolver) (q t : ℕ) : Code Bool := do
  let wrenches := fun e => if e ∈ s.tcps.endpoints then some (0 : Wrench) else none
  let qInRad ← toRad q 0 s.tree.nJoints
  let zeros := List.replicate s.tree.nJoints (0 : ℝ)
  finishDyn t s.tree.nJoints (s.tree.rne s.gravity qInRad zeros zeros wrenches)

/-- `invDyn(q, qdot, qdotdot, ftip, t, frame)`,
/repo/libraries/YarpPlugins/KdlTreeSolver/ICartesianSolverImpl.cpp:299-379. -/
noncomputable def invDyn (s : TreeDynSolver) (q qdot qdotdot ftip t : ℕ) (frame : SolverFrame) : Code Bool := do
  let wrenches ← local' (KdlTreeSolver.fill s.tcps vectorToWrench 0 (← vec ftip) s.tcps.endpoints 0 fun _ => none)
  let qInRad ← toRad q 0 s.tree.nJoints
  let qdotInRad ← toRad qdot 0 s.tree.nJoints
  let qdotdotInRad ← toRad qdotdot 0 s.tree.nJoints
  match (match frame with
    | .base => s.kinematics.toBase qInRad (fun f w => Wrench.rotate f.M.transpose w) s.tcps.endpoints wrenches
    | .tcp => some wrenches
    | .other => none) with
  | none => return false
  | some wrenches => finishDyn t s.tree.nJoints (s.tree.rne s.gravity qInRad qdotInRad qdotdotInRad wrenches)

end Tree

/-! ## The solver of ASIBOT -/

namespace Asib

open Asibot
open KinRepr (degToRad radToDeg encodePose)

/-- `matrixToVector(H, v, true)`, /repo/libraries/YarpPlugins/AsibotSolver/ICartesianSolverImpl.cpp:59-78; the order
of the writes does not matter, as nothing is read. -/
noncomputable def matrixToVector (svd : Mat3 → Vec3) (h : Frame) (v : ℕ) : Code Unit :=
  assign v (Asibot.matrixToVector svd h)

/-- `changeOrigin`, /repo/libraries/YarpPlugins/AsibotSolver/ICartesianSolverImpl.cpp:227-236. -/
noncomputable def changeOrigin (svd : Mat3 → Vec3) (xOldObj xNewOld xNewObj : ℕ) : Code Bool := do
  let hOldObj ← local' (vectorToMatrix (← vec xOldObj))
  let hNewOld ← local' (vectorToMatrix (← vec xNewOld))
  matrixToVector svd (hNewOld * hOldObj) xNewObj
  return true

/-- The end of `fwdKin`, /repo/libraries/YarpPlugins/AsibotSolver/ICartesianSolverImpl.cpp:273-283: the pose is
encoded in place and taken to the tool. -/
noncomputable def fwdKinEnd (svd : Mat3 → Vec3) (s : Solver) (x : ℕ) : Code Bool := do
  let encoded ← local' (encodePose .cartesian .eulerYZ .degrees ⟨[], ← vec x, true⟩)
  assign x encoded.2.dst
  if s.hasFrame then
    let h ← local' (vectorToMatrix (← vec x))
    matrixToVector svd (h * s.frameTcp) x
    return true
  else return true

/-- `fwdKin`, /repo/libraries/YarpPlugins/AsibotSolver/ICartesianSolverImpl.cpp:240-284. The fifth joint is read when
four elements of the result are already written. -/
noncomputable def fwdKin (svd : Mat3 → Vec3) (s : Solver) (q x : ℕ) : Code Bool := do
  let q0 ← at' q 0
  let q1 ← at' q 1
  let q2 ← at' q 2
  let q3 ← at' q 3
  let prP := s.A1 * Real.sin (degToRad q1) + s.A2 * Real.sin (degToRad q1 + degToRad q2) +
    s.A3 * Real.sin (degToRad q1 + degToRad q2 + degToRad q3)
  let phP := s.A1 * Real.cos (degToRad q1) + s.A2 * Real.cos (degToRad q1 + degToRad q2) +
    s.A3 * Real.cos (degToRad q1 + degToRad q2 + degToRad q3)
  let oyP := (← at' q 1) + (← at' q 2) + (← at' q 3)
  resize x 5
  put x 0 (prP * Real.cos (degToRad q0))
  put x 1 (prP * Real.sin (degToRad q0))
  put x 2 (phP + s.A0)
  put x 3 oyP
  put x 4 (← at' q 4)
  fwdKinEnd svd s x

/-- `poseDiff`, /repo/libraries/YarpPlugins/AsibotSolver/ICartesianSolverImpl.cpp:288-310. The rotations of the two
poses are read when half of the result is already written. -/
noncomputable def poseDiff (svd : Mat3 → Vec3) (xLhs xRhs xOut : ℕ) : Code Bool := do
  resize xOut 6
  put xOut 0 ((← at' xLhs 0) - (← at' xRhs 0))
  put xOut 1 ((← at' xLhs 1) - (← at' xRhs 1))
  put xOut 2 ((← at' xLhs 2) - (← at' xRhs 2))
  let rotLhs := (← local' (vectorToMatrix (← vec xLhs))).M
  let rotRhs := (← local' (vectorToMatrix (← vec xRhs))).M
  let rotd := rotRhs.mulVec (rotVector svd (rotRhs.transpose * rotLhs))
  put xOut 3 rotd.x
  put xOut 4 rotd.y
  put xOut 5 rotd.z
  return true

/-- `invKin`, /repo/libraries/YarpPlugins/AsibotSolver/ICartesianSolverImpl.cpp:314-417. Everything is computed in
local variables, the guess is last read at line 408, and `q = {_q1, _q2, _q3, _q4, _q5}` comes after that
(/repo/libraries/YarpPlugins/AsibotSolver/AsibotConfiguration.cpp:126-129). -/
noncomputable def invKin (svd : Mat3 → Vec3) (s : Solver) (xd qGuess q : ℕ) (frame : SolverFrame) : Code Bool := do
  match ← local' (Asibot.invKin svd s (← vec xd) (← vec qGuess) frame) with
  | none => return false
  | some v =>
    assign q v
    return true

/-- The loop `xdotv[i] = xdot[i]` over the elements of the request, `n` of them from `i` on, into a local vector:
/repo/libraries/YarpPlugins/AsibotSolver/ICartesianSolverImpl.cpp:466-469. Past the end of that vector it is undefined. -/
def copyFrom (xdot : ℕ) : ℕ → ℕ → List ℝ → Code (List ℝ)
  | _, 0, xdotv => pure xdotv
  | i, n + 1, xdotv => do
    let v ← at' xdot i
    let xdotv ← local' (if i < xdotv.length then some (xdotv.set i v) else none)
    copyFrom xdot (i + 1) n xdotv

/-- `diffInvKin`, /repo/libraries/YarpPlugins/AsibotSolver/ICartesianSolverImpl.cpp:421-483: the request is copied into
a local vector of six zeros, the result computed in the local `qdotv`, then stored. -/
noncomputable def diffInvKin (svd : Mat3 → Vec3) (pinv : Pinv) (s : Solver) (q xdot qdot : ℕ)
    (frame : SolverFrame) : Code Bool := do
  match ← local' (jacobian svd s (← vec q) frame) with
  | none => return false
  | some ja =>
    let xdotv ← copyFrom xdot 0 (← vec xdot).length (List.replicate 6 0)
    let qdotv := pinv ja (vectorToTwist xdotv)
    store qdot 5 radToDeg qdotv.toList
    return true

end Asib

/-! ## Products of exponentials -/

/-- Expressions of the caller, by address: the references `PoeExpression &` of
/repo/libraries/ScrewTheoryLib/ProductOfExponentials.hpp. -/
abbrev Poes := ℕ → Poe

/-- The loop of `append(poe, H_new_old)`, /repo/libraries/ScrewTheoryLib/ProductOfExponentials.cpp:60-63, from `i` on:
the number of terms of `poe` is asked for before every pass. `none` is a loop still going on after that many passes
(the code has no such bound). -/
noncomputable def appendLoop (this poe : ℕ) (H : Frame) : ℕ → ℕ → Poes → Option Poes
  | 0, _, _ => none
  | passes + 1, i, m =>
    match (m poe).exps[i]? with
    | none => some m
    | some e => appendLoop this poe H passes (i + 1) (Function.update m this ((m this).appendExp e H))

/-- `append(poe, H_new_old)`, /repo/libraries/ScrewTheoryLib/ProductOfExponentials.cpp:58-66, within a number of
passes. -/
noncomputable def append (this poe : ℕ) (H : Frame) (passes : ℕ) (m : Poes) : Option Poes :=
  (appendLoop this poe H passes 0 m).map fun m =>
    Function.update m this { m this with tool := H * (m poe).tool }

end KD.InPlace
