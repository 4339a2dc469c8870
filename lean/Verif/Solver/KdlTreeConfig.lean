import Verif.Kdl.Tree
import Verif.Solver.KdlTreeSolver
import Verif.Solver.KdlConfig

/-!
# Configuration and inverse dynamics of the tree solver of KDL

`open` and `close` of /repo/libraries/YarpPlugins/KdlTreeSolver/DeviceDriverImpl.cpp and the `invDyn` methods of
/repo/libraries/YarpPlugins/KdlTreeSolver/ICartesianSolverImpl.cpp. The configuration file and the options given
by the caller are one set of keys here (`fullConfig`,
/repo/libraries/YarpPlugins/KdlTreeSolver/DeviceDriverImpl.cpp:142-144); log messages are left out,
and so are the weights, precision and speeds that are handed to the solvers of inverse kinematics.
-/

namespace KD

open KdlVectorConverter KdlConfig

/-- Members `tree`, `endpoints`, `mergedEndpoints` and `idSolver` (which keeps the gravity) of
/repo/libraries/YarpPlugins/KdlTreeSolver/KdlTreeSolver.hpp. -/
structure TreeDynSolver where
  tree : Tree
  tcps : Tcps
  gravity : Vec3

namespace TreeDynSolver

/-- The part of the solver without dynamics.
The members used by /repo/libraries/YarpPlugins/KdlTreeSolver/ICartesianSolverImpl.cpp. -/
noncomputable def kinematics (s : TreeDynSolver) : KdlTreeSolver := ⟨s.tcps, s.tree.nJoints, s.tree.fk⟩

/-- `invDyn(q, t)`, /repo/libraries/YarpPlugins/KdlTreeSolver/ICartesianSolverImpl.cpp:262-295: no speeds,
accelerations nor external wrenches. -/
noncomputable def invDynStatic (s : TreeDynSolver) (q : List ℝ) : Option (Option (List ℝ)) := do
  let wrenches := fun e => if e ∈ s.tcps.endpoints then some (0 : Wrench) else none
  let qInRad ← KdlSolver.toRadians s.tree.nJoints q
  let zeros := List.replicate s.tree.nJoints (0 : ℝ)
  return s.tree.rne s.gravity qInRad zeros zeros wrenches

/-- `invDyn(q, qdot, qdotdot, ftip, t, frame)`,
/repo/libraries/YarpPlugins/KdlTreeSolver/ICartesianSolverImpl.cpp:299-379. -/
noncomputable def invDyn (s : TreeDynSolver) (q qdot qdotdot ftip : List ℝ) (frame : SolverFrame) :
    Option (Option (List ℝ)) := do
  let wrenches ← KdlTreeSolver.fill s.tcps vectorToWrench 0 ftip s.tcps.endpoints 0 fun _ => none
  let qInRad ← KdlSolver.toRadians s.tree.nJoints q
  let qdotInRad ← KdlSolver.toRadians s.tree.nJoints qdot
  let qdotdotInRad ← KdlSolver.toRadians s.tree.nJoints qdotdot
  let wrenches := match frame with
    | .base => s.kinematics.toBase qInRad (fun f w => Wrench.rotate f.M.transpose w) s.tcps.endpoints wrenches
    | .tcp => some wrenches
    | .other => none
  return wrenches.bind fun wrenches => s.tree.rne s.gravity qInRad qdotInRad qdotdotInRad wrenches

end TreeDynSolver

namespace KdlTreeConfig

/-- `Value::asBool()`; the words `true` and `false` of a file are numbers here.
`yarp::os::Value::asBool`, /repo/libraries/YarpPlugins/KdlTreeSolver/DeviceDriverImpl.cpp:318. -/
def asBool : Val → Bool
  | .int n => n ≠ 0
  | _ => false

/-- The whole configuration: values, names after the key `chain`, and the groups of the chains with their own
groups. /repo/libraries/YarpPlugins/KdlTreeSolver/DeviceDriverImpl.cpp:129-410. -/
structure TreeConfig where
  top : Group
  chains : List String
  group : String → Option Config

/-- A group that is not there: `findGroup` gives a null bottle.
/repo/libraries/YarpPlugins/KdlTreeSolver/DeviceDriverImpl.cpp:169-177. -/
def nullGroup : Config := ⟨fun _ => none, fun _ => none⟩

/-- One pass of the loop over the links, /repo/libraries/YarpPlugins/KdlTreeSolver/DeviceDriverImpl.cpp:201-295, with
the names of the segments; `none` is a
returned `false`. -/
noncomputable def link (name : String) (c : Config) (i : ℕ) : Option (List (String × Link)) :=
  match c.group ("link_" ++ toString i) with
  | some g => some [(name ++ "_" ++ ("link_" ++ toString i), dhLink g)]
  | none =>
    match c.group ("xyzLink_" ++ toString i) with
    | some g => some ((xyzLink g).map fun l => (name ++ "_" ++ ("xyzLink_" ++ toString i), l))
    | none => none

/-- The loop over the links: those from `i` on, `n` of them.
/repo/libraries/YarpPlugins/KdlTreeSolver/DeviceDriverImpl.cpp:195-298. -/
noncomputable def links (name : String) (c : Config) : ℕ → ℕ → Option (List (String × Link))
  | _, 0 => some []
  | i, n + 1 => do
    let l ← link name c i
    let ls ← links name c (i + 1) n
    return l ++ ls

/-- The segments of a chain, /repo/libraries/YarpPlugins/KdlTreeSolver/DeviceDriverImpl.cpp:171-307. -/
noncomputable def chain (name : String) (c : Config) : Option (List (String × Link)) := do
  let numLinks := (c.top.check "numLinks" (.int 0)).asInt
  let ls ← links name c 0 numLinks.toNat
  return (name ++ "_H0", fixedLink (matrix c.top "H0")) :: ls ++ [(name, fixedLink (matrix c.top "HN"))]

/-- What the configuration says about the TCP of a chain,
/repo/libraries/YarpPlugins/KdlTreeSolver/DeviceDriverImpl.cpp:318-324. -/
def options (name : String) (c : Config) : ChainOptions :=
  ⟨name, asBool (c.top.check "endpoint" (.int 0)), (c.top "mergeWith").map Val.asString⟩

/-- Members that `open` fills in chain by chain.
The members `tree`, `endpoints` and `mergedEndpoints` of /repo/libraries/YarpPlugins/KdlTreeSolver/KdlTreeSolver.hpp. -/
structure Members where
  tree : Tree
  tcps : Tcps

/-- Those of a new device.
The members `tree`, `endpoints` and `mergedEndpoints` of /repo/libraries/YarpPlugins/KdlTreeSolver/KdlTreeSolver.hpp. -/
def Members.new : Members := ⟨Tree.empty, Tcps.empty⟩

/-- One turn of the loop over the chains, /repo/libraries/YarpPlugins/KdlTreeSolver/DeviceDriverImpl.cpp:169-336:
success, and the members as they are left. -/
noncomputable def addChain (c : TreeConfig) (m : Members) (name : String) : Bool × Members :=
  let cc := (c.group name).getD nullGroup
  match chain name cc with
  | none => (false, m)
  | some segs =>
    match m.tree.addChain segs (cc.top.check "hook" (.str "root")).asString with
    | (false, tree) => (false, { m with tree := tree })
    | (true, tree) =>
      match m.tcps.addChain (options name cc) with
      | none => (false, ⟨tree, { m.tcps with endpoints := m.tcps.endpoints ++ [name] }⟩)
      | some tcps => (true, ⟨tree, tcps⟩)

/-- The loop over the chains. /repo/libraries/YarpPlugins/KdlTreeSolver/DeviceDriverImpl.cpp:169-340. -/
noncomputable def addChains (c : TreeConfig) : Members → List String → Bool × Members
  | m, [] => (true, m)
  | m, name :: names =>
    match addChain c m name with
    | (false, m) => (false, m)
    | (true, m) => addChains c m names

/-- `retrieveJointLimits`, /repo/libraries/YarpPlugins/KdlTreeSolver/DeviceDriverImpl.cpp:75-124, for a tree of `n`
joints; `none` is a returned `false`. -/
noncomputable def jointLimits (c : TreeConfig) (n : ℕ) : Option (List ℝ × List ℝ × List ℝ) :=
  open Classical in
  match (c.top "mins").bind Val.asList, (c.top "maxs").bind Val.asList, (c.top "maxvels").bind Val.asList with
  | some mins, some maxs, some maxvels =>
    if maxs.length ≠ n ∨ mins.length ≠ n ∨ maxvels.length ≠ n then none
    else
      let qMin := mins.map (· * deg2rad)
      let qMax := maxs.map (· * deg2rad)
      if (List.zip qMin qMax).any (fun p => p.1 > p.2) then none
      else some (qMin, qMax, maxvels.map (· * deg2rad))
  | _, _, _ => none

/-- What a successful `open` leaves behind. /repo/libraries/YarpPlugins/KdlTreeSolver/DeviceDriverImpl.cpp:129-410. -/
structure Opened where
  solver : TreeDynSolver
  limits : List ℝ × List ℝ × List ℝ
  ik : String

/-- `open`, /repo/libraries/YarpPlugins/KdlTreeSolver/DeviceDriverImpl.cpp:129-409, on a device whose members are `m`.
Outer `none`: a null pointer is read
(`gravity` is not a list, lines 164-166). Otherwise the members as they are left, and `none` for a returned
`false`. -/
noncomputable def openFrom (m : Members) (c : TreeConfig) : Option (Members × Option Opened) :=
  if c.chains = [] then some (m, none)
  else do
    let g ← (c.top.check "gravity" (.list [0, 0, -9.81])).asList
    let gravity : Vec3 := ⟨get g 0, get g 1, get g 2⟩
    match addChains c m c.chains with
    | (false, m) => return (m, none)
    | (true, m) =>
      match jointLimits c m.tree.nJoints with
      | none => return (m, none)
      | some limits =>
        let ik := (c.top.check "ik" (.str "nrjl")).asString
        if ik = "nrjl" ∨ ik = "online" then return (m, some ⟨⟨m.tree, m.tcps, gravity⟩, limits, ik⟩)
        else return (m, none)

/-- `open` on a new device. /repo/libraries/YarpPlugins/KdlTreeSolver/DeviceDriverImpl.cpp:129-410. -/
noncomputable def openSolver (c : TreeConfig) : Option (Option Opened) := (openFrom Members.new c).map (·.2)

/-- `close`, /repo/libraries/YarpPlugins/KdlTreeSolver/DeviceDriverImpl.cpp:413-428: the solvers are deleted; these
members are kept. -/
def close (m : Members) : Members := m

end KdlTreeConfig

end KD
