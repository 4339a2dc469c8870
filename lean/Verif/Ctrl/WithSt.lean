import Verif.Ctrl.WithKdl
import Verif.Solver.StSolver

/-!
# The controller with the chain solver of KDL and the solver of screw theory

As `Verif/Ctrl/WithKdl.lean`, with the position solver that is used unless another one is asked for
(/repo/libraries/YarpPlugins/KdlSolver/ChainIkSolverPos_ST.cpp): the configuration it keeps to and the problem that it
built for the chain are part of the device.
-/

namespace KD.Ctrl

open KdlVectorConverter

/-- `KdlSolver` with a `ChainIkSolverPos_ST` as its `ikSolverPos`.
/repo/libraries/YarpPlugins/KdlSolver/KdlSolver.hpp with the solver of /repo/libraries/YarpPlugins/KdlSolver/ChainIkSolverPos_ST.cpp. -/
structure StDevice where
  dyn : DynSolver
  st : StSolver

/-- What is left open: how the velocity solver answers and which random numbers the builder of problems may draw.
External to /repo/libraries/YarpPlugins/BasicCartesianControl/. -/
structure Outside where
  vel : VelSolver → Prop
  draws : (ℕ → ℝ) → Prop

namespace StDevice

/-- The end of `invKin`, /repo/libraries/YarpPlugins/KdlSolver/ICartesianSolverImpl.cpp:144-164: the solver is called for
a frame seen from the base, with an array of zeros for the result; one value for each joint is read from it. `none` is
undefined behaviour. -/
noncomputable def reach (d : StDevice) (qGuessInRad : List ℝ) (target : Frame) : Option (Option (List ℝ) × StDevice) := do
  let n := d.dyn.kin.numJoints
  let (ret, kdlq, st) ← d.st.cartToJnt qGuessInRad target (List.replicate n 0)
  if ret < 0 then return (none, { d with st := st })
  else if n ≤ kdlq.length then return (some ((kdlq.take n).map (· * rad2deg)), { d with st := st })
  else none

/-- `invKin`, /repo/libraries/YarpPlugins/KdlSolver/ICartesianSolverImpl.cpp:116-165. -/
noncomputable def invKin (d : StDevice) (xd qGuess : List ℝ) (frame : RefFrame) : Option (Option (List ℝ) × StDevice) := do
  let frameXd := vectorToFrame xd
  let qGuessInRad ← KdlSolver.toRadians d.dyn.kin.numJoints qGuess
  match frame with
  | .tcp =>
    let fOutCart ← d.dyn.chain.fk qGuessInRad
    d.reach qGuessInRad (fOutCart * frameXd)
  | .base => d.reach qGuessInRad frameXd

/-- `appendLink`, /repo/libraries/YarpPlugins/KdlSolver/ICartesianSolverImpl.cpp:33-47, with the numbers drawn. -/
noncomputable def appendLink (d : StDevice) (rnd : ℕ → ℝ) (x : List ℝ) : Option StDevice := do
  let dyn := d.dyn.appendLink x
  let st ← d.st.update rnd dyn.chain
  return ⟨dyn, st⟩

/-- `restoreOriginalChain`, /repo/libraries/YarpPlugins/KdlSolver/ICartesianSolverImpl.cpp:51-63, with the numbers drawn. -/
noncomputable def restore (d : StDevice) (rnd : ℕ → ℝ) : Option StDevice := do
  let dyn := d.dyn.restore
  let st ← d.st.update rnd dyn.chain
  return ⟨dyn, st⟩

/-- The call is within what the device is defined for. -/
def Within (a : Outside) (d : StDevice) : Ev → Prop
  | .invKin x q f _ => d.invKin x q f ≠ none
  | .restoreOriginalChain _ => ∀ rnd, a.draws rnd → d.restore rnd ≠ none
  | .appendLink x _ => ∀ rnd, a.draws rnd → d.appendLink rnd x ≠ none
  | e => Ctrl.Within ⟨fun _ => False, a.vel⟩ d.dyn e

/-- One call of the controller: what the device answers and how it changes.
/repo/libraries/YarpPlugins/KdlSolver/ICartesianSolverImpl.cpp. -/
def Answers (a : Outside) (d : StDevice) : Ev → StDevice → Prop
  | .invKin x q f ans, d' => d.invKin x q f = some (ans, d')
  | .restoreOriginalChain ans, d' => ans = true ∧ ∃ rnd, a.draws rnd ∧ d.restore rnd = some d'
  | .appendLink x ans, d' => ans = true ∧ ∃ rnd, a.draws rnd ∧ d.appendLink rnd x = some d'
  | e, d' => d'.st = d.st ∧ Ctrl.Answers ⟨fun _ => False, a.vel⟩ d.dyn e d'.dyn

/-- The calls one after another.
No code of its own: the calls of /repo/libraries/YarpPlugins/BasicCartesianControl/ in the order made. -/
inductive Answered (a : Outside) : StDevice → List Ev → StDevice → Prop
  | nil (d) : Answered a d [] d
  | cons {d e d1 es d'} : d.Answers a e d1 → Answered a d1 es d' → Answered a d (e :: es) d'

end StDevice

/-- The solver of screw theory as it is left by `open` for a chain, joint limits (in radians) and the name of a strategy,
/repo/libraries/YarpPlugins/KdlSolver/DeviceDriverImpl.cpp:390-424. -/
noncomputable def createSt (rnd : ℕ → ℝ) (chain : Chain) (lo hi : List ℝ) (strategy : String) : Option (Option StSolver) :=
  if strategy = "leastOverallAngularDisplacement" then StSolver.create rnd chain (Selector.createLeast lo hi)
  else if strategy = "humanoidGait" then StSolver.create rnd chain (Selector.createGait lo hi)
  else some none

end KD.Ctrl
