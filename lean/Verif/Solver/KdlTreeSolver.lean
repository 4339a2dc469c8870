import Verif.Solver.KdlSolver

/-!
# Tree solver of KDL

/repo/libraries/YarpPlugins/KdlTreeSolver/ICartesianSolverImpl.cpp and the part of
/repo/libraries/YarpPlugins/KdlTreeSolver/DeviceDriverImpl.cpp that collects the TCPs. The KDL solvers on
the tree are parameters here; `Verif/Solver/KdlTreeConfig.lean` puts those of `Verif/Kdl/Tree.lean` in their place and
has the two `invDyn` methods. As in `Verif/Solver/KdlSolver.lean`, a
method gives `none` when a vector is read past its end and `some none` for a returned `false`.
-/

namespace KD

open KdlVectorConverter

/-- A chain of the configuration as far as TCPs are concerned: its name, whether it is an endpoint, and
the name of the TCP to merge with. /repo/libraries/YarpPlugins/KdlTreeSolver/DeviceDriverImpl.cpp:312-340. -/
structure ChainOptions where
  name : String
  endpoint : Bool
  mergeWith : Option String

/-- Members `endpoints` and `mergedEndpoints` (a `std::map`) of
/repo/libraries/YarpPlugins/KdlTreeSolver/KdlTreeSolver.hpp. -/
structure Tcps where
  endpoints : List String
  merged : String → Option String

namespace Tcps

/-- Nothing read yet.
The members `endpoints` and `mergedEndpoints` of /repo/libraries/YarpPlugins/KdlTreeSolver/KdlTreeSolver.hpp. -/
def empty : Tcps := ⟨[], fun _ => none⟩

/-- One turn of the loop over the chains in `open`,
/repo/libraries/YarpPlugins/KdlTreeSolver/DeviceDriverImpl.cpp:316-334; `none` is a failure. The
name goes into the list before the other one is looked up in it. `emplace` keeps an existing entry. -/
def addChain (t : Tcps) (c : ChainOptions) : Option Tcps :=
  if c.endpoint then
    let t := { t with endpoints := t.endpoints ++ [c.name] }
    match c.mergeWith with
    | none => some t
    | some other =>
      if other ∈ t.endpoints then
        some { t with merged := fun e => if e = c.name ∧ t.merged e = none then some other else t.merged e }
      else none
  else some t

/-- The loop over the chains in `open`, /repo/libraries/YarpPlugins/KdlTreeSolver/DeviceDriverImpl.cpp:169-335. -/
def read (t : Tcps) : List ChainOptions → Option Tcps
  | [] => some t
  | c :: cs => (t.addChain c).bind fun t => read t cs

end Tcps

/-- The solver: TCPs, `tree.getNrOfJoints()`, and `fkSolverPos->JntToCart`, where `none` is an error
code. /repo/libraries/YarpPlugins/KdlTreeSolver/KdlTreeSolver.hpp. -/
structure KdlTreeSolver where
  tcps : Tcps
  nJoints : ℕ
  fk : List ℝ → String → Option Frame

/-- `ikSolverPos->CartToJnt` with the map from TCPs to frames.
External: `KDL::TreeIkSolverPos`, called at /repo/libraries/YarpPlugins/KdlTreeSolver/ICartesianSolverImpl.cpp:176. -/
abbrev TreePosSolver := List ℝ → (String → Option Frame) → ℤ × List ℝ

/-- `ikSolverVel->CartToJnt` with the map from TCPs to twists.
External: `KDL::TreeIkSolverVel`, called at /repo/libraries/YarpPlugins/KdlTreeSolver/ICartesianSolverImpl.cpp:245. -/
abbrev TreeVelSolver := List ℝ → (String → Option Twist) → ℤ × List ℝ

namespace KdlTreeSolver

/-- `std::vector<double> sub(x.cbegin() + i * 6, x.cbegin() + (i + 1) * 6)`.
/repo/libraries/YarpPlugins/KdlTreeSolver/ICartesianSolverImpl.cpp:127-150. -/
def block (x : List ℝ) (i : ℕ) : Option (List ℝ) :=
  if (i + 1) * 6 ≤ x.length then some ((x.drop (i * 6)).take 6) else none

/-- The loops of `changeOrigin` and `poseDiff` over the endpoints, from `i` on.
/repo/libraries/YarpPlugins/KdlTreeSolver/ICartesianSolverImpl.cpp:50-70 and 103-124. -/
noncomputable def blockwise (f : List ℝ → List ℝ → List ℝ) (a b : List ℝ) : ℕ → ℕ → Option (List ℝ)
  | _, 0 => some []
  | i, n + 1 => do
    let ai ← block a i
    let bi ← block b i
    let rest ← blockwise f a b (i + 1) n
    return f ai bi ++ rest

/-- `changeOrigin`, /repo/libraries/YarpPlugins/KdlTreeSolver/ICartesianSolverImpl.cpp:50-69. -/
noncomputable def changeOrigin (s : KdlTreeSolver) (xOldObj xNewOld : List ℝ) : Option (List ℝ) :=
  blockwise KdlSolver.changeOrigin xOldObj xNewOld 0 s.tcps.endpoints.length

/-- `poseDiff`, /repo/libraries/YarpPlugins/KdlTreeSolver/ICartesianSolverImpl.cpp:103-123. -/
noncomputable def poseDiff (s : KdlTreeSolver) (xLhs xRhs : List ℝ) : Option (List ℝ) :=
  blockwise KdlSolver.poseDiff xLhs xRhs 0 s.tcps.endpoints.length

/-- The loop of `fwdKin` over the endpoints, /repo/libraries/YarpPlugins/KdlTreeSolver/ICartesianSolverImpl.cpp:85-96. -/
noncomputable def poses (s : KdlTreeSolver) (q : List ℝ) : List String → Option (List ℝ)
  | [] => some []
  | e :: es => do
    let f ← s.fk q e
    let rest ← poses s q es
    return frameToVector f ++ rest

/-- `fwdKin`, /repo/libraries/YarpPlugins/KdlTreeSolver/ICartesianSolverImpl.cpp:73-99. -/
noncomputable def fwdKin (s : KdlTreeSolver) (q : List ℝ) : Option (Option (List ℝ)) := do
  let qInRad ← KdlSolver.toRadians s.nJoints q
  return s.poses qInRad s.tcps.endpoints

/-- The loop that fills the map from TCPs to frames or twists,
/repo/libraries/YarpPlugins/KdlTreeSolver/ICartesianSolverImpl.cpp:131-144 and 197-210:
`i` counts the blocks read so far. `operator[]` creates a missing entry with the default value, and
`emplace` keeps an existing entry. -/
def fill {α : Type} (t : Tcps) (convert : List ℝ → α) (default : α) (x : List ℝ) :
    List String → ℕ → (String → Option α) → Option (String → Option α)
  | [], _, m => some m
  | e :: es, i, m =>
    match t.merged e with
    | some other =>
      let v := (m other).getD default
      let m := fun k => if k = other then some v else m k
      let m := fun k => if k = e ∧ m e = none then some v else m k
      fill t convert default x es i m
    | none =>
      match block x i with
      | none => none
      | some sub =>
        let m := fun k => if k = e ∧ m e = none then some (convert sub) else m k
        fill t convert default x es (i + 1) m

/-- The loops over the endpoints under `TCP_FRAME`,
/repo/libraries/YarpPlugins/KdlTreeSolver/ICartesianSolverImpl.cpp:153-167 and 219-237; `none` is a
failure of forward kinematics. -/
noncomputable def toBase {α : Type} (s : KdlTreeSolver) (q : List ℝ) (apply : Frame → α → α) :
    List String → (String → Option α) → Option (String → Option α)
  | [], m => some m
  | e :: es, m => do
    let f ← s.fk q e
    toBase s q apply es fun k => if k = e then (m k).map (apply f) else m k

/-- `invKin`, /repo/libraries/YarpPlugins/KdlTreeSolver/ICartesianSolverImpl.cpp:127-189. -/
noncomputable def invKin (ik : TreePosSolver) (s : KdlTreeSolver) (xd qGuess : List ℝ)
    (frame : SolverFrame) : Option (Option (List ℝ)) := do
  let frames ← fill s.tcps vectorToFrame 1 xd s.tcps.endpoints 0 fun _ => none
  let qGuessInRad ← KdlSolver.toRadians s.nJoints qGuess
  let frames := match frame with
    | .base => some frames
    | .tcp => s.toBase qGuessInRad (· * ·) s.tcps.endpoints frames
    | .other => none
  return frames.bind fun frames =>
    let (ret, kdlq) := ik qGuessInRad frames
    if ret < 0 then none else some (kdlq.map (· * rad2deg))

/-- `diffInvKin`, /repo/libraries/YarpPlugins/KdlTreeSolver/ICartesianSolverImpl.cpp:193-258. -/
noncomputable def diffInvKin (ik : TreeVelSolver) (s : KdlTreeSolver) (q xdot : List ℝ)
    (frame : SolverFrame) : Option (Option (List ℝ)) := do
  let twists ← fill s.tcps vectorToTwist 0 xdot s.tcps.endpoints 0 fun _ => none
  let qInRad ← KdlSolver.toRadians s.nJoints q
  let twists := match frame with
    | .base => some twists
    | .tcp => s.toBase qInRad (fun f w => Twist.rotate f.M w) s.tcps.endpoints twists
    | .other => none
  return twists.bind fun twists =>
    let (ret, qdot) := ik qInRad twists
    if ret < 0 then none else some (qdot.map (· * rad2deg))

end KdlTreeSolver

end KD
