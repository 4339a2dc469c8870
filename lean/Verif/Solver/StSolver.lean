import Verif.Screw.Builder
import Verif.Screw.ConfigSelector

/-!
# /repo/libraries/YarpPlugins/KdlSolver/ChainIkSolverPos_ST.{hpp,cpp} and ChainFkSolverPos_ST.{hpp,cpp}

The solvers hold a reference to the chain owned by the `KdlSolver` device; here the chain is passed
to `update`, which `KdlSolver` calls after every change
(/repo/libraries/YarpPlugins/KdlSolver/ICartesianSolverImpl.cpp:33-63). The random numbers drawn by
the builder are a parameter of each call that builds a problem.

Undefined behaviour (null selector, reads past the end of a vector, endless search) is `none`.
-/

namespace KD

/-- `E_SOLUTION_NOT_FOUND`, /repo/libraries/YarpPlugins/KdlSolver/ChainIkSolverPos_ST.hpp:72. -/
def eSolutionNotFound : ℤ := -100

/-- `E_OUT_OF_LIMITS`, /repo/libraries/YarpPlugins/KdlSolver/ChainIkSolverPos_ST.hpp:75. -/
def eOutOfLimits : ℤ := -101

/-- `E_NOT_REACHABLE`, /repo/libraries/YarpPlugins/KdlSolver/ChainIkSolverPos_ST.hpp:78. -/
def eNotReachable : ℤ := 100

/-- `ChainIkSolverPos_ST`, /repo/libraries/YarpPlugins/KdlSolver/ChainIkSolverPos_ST.hpp:23-89; `error`
is inherited from `KDL::SolverI`. `config = none` is the null pointer a factory may return. -/
structure StSolver where
  problem : IkProblem
  config : Option Selector
  error : ℤ

namespace StSolver

/-- `create`, /repo/libraries/YarpPlugins/KdlSolver/ChainIkSolverPos_ST.cpp:82-102; outer `none` if the
search does not end, inner `none` is the null pointer. `factory` is the result of
`configFactory.create()`. -/
noncomputable def create (rnd : ℕ → ℝ) (chain : Chain) (factory : Option Selector) :
    Option (Option StSolver) := do
  match ← Builder.build rnd (Poe.fromChain chain) with
  | none => return none
  | some (pb, _) => return some ⟨pb, factory, 0⟩

/-- `updateInternalDataStructures`, /repo/libraries/YarpPlugins/KdlSolver/ChainIkSolverPos_ST.cpp:64-78. -/
noncomputable def update (s : StSolver) (rnd : ℕ → ℝ) (chain : Chain) : Option StSolver := do
  match ← Builder.build rnd (Poe.fromChain chain) with
  | none => return { s with error := eSolutionNotFound }
  | some (pb, _) => return { s with problem := pb }

/-- `CartToJnt`, /repo/libraries/YarpPlugins/KdlSolver/ChainIkSolverPos_ST.cpp:36-60: return code, output
array and new state. -/
noncomputable def cartToJnt (s : StSolver) (qInit : List ℝ) (target : Frame) (qOut : List ℝ) :
    Option (ℤ × List ℝ × StSolver) :=
  if s.error = eSolutionNotFound then some (s.error, qOut, s)
  else do
    let (ret, solutions) ← s.problem.solve target []
    let config ← s.config
    let (pose, config) ← config.select solutions qInit
    match pose with
    | none => return (eOutOfLimits, qOut, { s with config := some config, error := eOutOfLimits })
    | some q =>
      let code := if ret then 0 else eNotReachable
      return (code, q, { s with config := some config, error := code })

end StSolver

/-- `ChainFkSolverPos_ST`, /repo/libraries/YarpPlugins/KdlSolver/ChainFkSolverPos_ST.hpp. -/
structure StFk where
  poe : Poe

namespace StFk

/-- `create`, /repo/libraries/YarpPlugins/KdlSolver/ChainFkSolverPos_ST.cpp:9-12,63-66. -/
noncomputable def create (chain : Chain) : StFk := ⟨Poe.fromChain chain⟩

/-- `updateInternalDataStructures`, /repo/libraries/YarpPlugins/KdlSolver/ChainFkSolverPos_ST.cpp:40-43. -/
noncomputable def update (_ : StFk) (chain : Chain) : StFk := ⟨Poe.fromChain chain⟩

/-- `JntToCart`, /repo/libraries/YarpPlugins/KdlSolver/ChainFkSolverPos_ST.cpp:16-29: return code and
output frame. -/
noncomputable def jntToCart (s : StFk) (q : List ℝ) (out : Frame) (segmentNr : ℤ) : ℤ × Frame :=
  if segmentNr ≥ 0 then (-100, out)
  else
    let r := s.poe.evaluate q out
    if r.1 then (0, r.2) else (-101, r.2)

end StFk

end KD
