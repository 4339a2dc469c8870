import Verif.Solver.KdlDynamics

/-!
# Configuration of the chain solver of KDL

`open` of /repo/libraries/YarpPlugins/KdlSolver/DeviceDriverImpl.cpp. The configuration file and the options
given by the caller are one set of keys here (`fullConfig`, lines 162-164); log messages are left out. The
solvers for positions and velocities are only told apart by their names; whether the screw theory solver
can be made for a chain is a parameter.
-/

namespace KD

open KdlSolver

namespace KdlConfig

/-- `yarp::os::Value`, as far as it is read: integers, floating-point numbers, texts and lists of numbers.
External: `yarp::os::Value` and `Searchable`, used in /repo/libraries/YarpPlugins/KdlSolver/DeviceDriverImpl.cpp. -/
inductive Val
  | int (n : ℤ)
  | num (r : ℝ)
  | str (s : String)
  | list (l : List ℝ)

/-- `Value::asFloat64()`: zero for anything that is not a number.
External: `yarp::os::Value` and `Searchable`, used in /repo/libraries/YarpPlugins/KdlSolver/DeviceDriverImpl.cpp. -/
def Val.asFloat : Val → ℝ
  | .int n => n
  | .num r => r
  | _ => 0

/-- `Value::asInt32()`: fractions are dropped; zero for anything that is not a number.
External: `yarp::os::Value` and `Searchable`, used in /repo/libraries/YarpPlugins/KdlSolver/DeviceDriverImpl.cpp. -/
noncomputable def Val.asInt : Val → ℤ
  | .int n => n
  | .num r => if 0 ≤ r then ⌊r⌋ else ⌈r⌉
  | _ => 0

/-- `Value::asString()`: empty for anything that is not a text.
External: `yarp::os::Value` and `Searchable`, used in /repo/libraries/YarpPlugins/KdlSolver/DeviceDriverImpl.cpp. -/
def Val.asString : Val → String
  | .str s => s
  | _ => ""

/-- `Value::asList()`: a null pointer for anything that is not a list.
External: `yarp::os::Value` and `Searchable`, used in /repo/libraries/YarpPlugins/KdlSolver/DeviceDriverImpl.cpp. -/
def Val.asList : Val → Option (List ℝ)
  | .list l => some l
  | _ => none

/-- `yarp::os::Searchable` without groups: the value of each key that is present.
External: `yarp::os::Value` and `Searchable`, used in /repo/libraries/YarpPlugins/KdlSolver/DeviceDriverImpl.cpp. -/
abbrev Group := String → Option Val

/-- `check(key, default)`.
External: `yarp::os::Value` and `Searchable`, used in /repo/libraries/YarpPlugins/KdlSolver/DeviceDriverImpl.cpp. -/
def Group.check (g : Group) (key : String) (default : Val) : Val := (g key).getD default

/-- The whole configuration: values and groups.
External: `yarp::os::Value` and `Searchable`, used in /repo/libraries/YarpPlugins/KdlSolver/DeviceDriverImpl.cpp. -/
structure Config where
  top : Group
  group : String → Option Group

/-- `Bottle::get(i).asFloat64()`: zero past the end.
`Bottle::get`, used in /repo/libraries/YarpPlugins/KdlSolver/DeviceDriverImpl.cpp. -/
def get (l : List ℝ) (i : ℕ) : ℝ := l.getD i 0

/-- `getMatrixFromProperties` with a matrix of 4 x 4 that holds the identity,
/repo/libraries/YarpPlugins/KdlSolver/DeviceDriverImpl.cpp:52-80: the elements given, in rows; the rest are kept. Of
the result only the first
three rows are used, lines 193-194 and 299-300. A list that is missing leaves the identity. -/
def matrix (g : Group) (tag : String) : Frame :=
  match (g tag).bind Val.asList with
  | none => 1
  | some l =>
    let at_ := fun i d => l.getD i d
    ⟨⟨at_ 0 1, at_ 1 0, at_ 2 0, at_ 4 0, at_ 5 1, at_ 6 0, at_ 8 0, at_ 9 0, at_ 10 1⟩,
      ⟨at_ 3 0, at_ 7 0, at_ 11 0⟩⟩

/-- `KDL::Frame::DH(a, alpha, d, theta)`.
External: `KDL::Frame::DH`, used in /repo/libraries/YarpPlugins/KdlSolver/DeviceDriverImpl.cpp:210-240. -/
noncomputable def dhFrame (a alpha d theta : ℝ) : Frame :=
  let ct := Real.cos theta
  let st := Real.sin theta
  let ca := Real.cos alpha
  let sa := Real.sin alpha
  ⟨⟨ct, -st * ca, st * sa, st, ct * ca, -ct * sa, 0, sa, ca⟩, ⟨a * ct, a * st, d⟩⟩

/-- `KDL::Joint(type, scale)`.
External: `KDL::Joint`, used in /repo/libraries/YarpPlugins/KdlSolver/DeviceDriverImpl.cpp:210-290. -/
def joint (t : JointType) (scale : ℝ) : Joint := ⟨t, scale, 0, 0, 0⟩

/-- A group `link_i` with DH parameters, /repo/libraries/YarpPlugins/KdlSolver/DeviceDriverImpl.cpp:203-236. -/
noncomputable def dhLink (g : Group) : Link :=
  let linkOffset := (g.check "offset" (.num 0)).asFloat
  let linkD := (g.check "D" (.num 0)).asFloat
  let linkA := (g.check "A" (.num 0)).asFloat
  let linkAlpha := (g.check "alpha" (.num 0)).asFloat
  let seg := Segment.make (joint .rotZ 1) (dhFrame linkA (linkAlpha * deg2rad) linkD (linkOffset * deg2rad))
  match g "mass", g "cog", g "inertia" with
  | some mass, some cog, some inertia =>
    let c := cog.asList.getD []
    let i := inertia.asList.getD []
    ⟨seg, Inertia.make mass.asFloat ⟨get c 0, get c 1, get c 2⟩ ⟨get i 0, get i 1, get i 2⟩⟩
  | _, _, _ => ⟨seg, Inertia.zero⟩

/-- The joint of a group `xyzLink_i`, /repo/libraries/YarpPlugins/KdlSolver/DeviceDriverImpl.cpp:259-285; no joint for
other names. -/
def xyzJoint (type : String) : Option Joint :=
  if type = "RotX" then some (joint .rotX 1)
  else if type = "RotY" then some (joint .rotY 1)
  else if type = "RotZ" then some (joint .rotZ 1)
  else if type = "InvRotX" then some (joint .rotX (-1))
  else if type = "InvRotY" then some (joint .rotY (-1))
  else if type = "InvRotZ" then some (joint .rotZ (-1))
  else if type = "TransX" then some (joint .transX 1)
  else if type = "TransY" then some (joint .transY 1)
  else if type = "TransZ" then some (joint .transZ 1)
  else if type = "InvTransX" then some (joint .transX (-1))
  else if type = "InvTransY" then some (joint .transY (-1))
  else if type = "InvTransZ" then some (joint .transZ (-1))
  else none

/-- A group `xyzLink_i`, /repo/libraries/YarpPlugins/KdlSolver/DeviceDriverImpl.cpp:250-287: nothing is added for an
unknown type. -/
noncomputable def xyzLink (g : Group) : List Link :=
  let linkX := (g.check "x" (.num 0)).asFloat
  let linkY := (g.check "y" (.num 0)).asFloat
  let linkZ := (g.check "z" (.num 0)).asFloat
  match xyzJoint (g.check "Type" (.str "NULL")).asString with
  | some j => [⟨Segment.make j (Frame.trans ⟨linkX, linkY, linkZ⟩), Inertia.zero⟩]
  | none => []

/-- One pass of the loop over the links, /repo/libraries/YarpPlugins/KdlSolver/DeviceDriverImpl.cpp:198-289; `none` is
a returned `false`. -/
noncomputable def link (c : Config) (i : ℕ) : Option (List Link) :=
  match c.group ("link_" ++ toString i) with
  | some g => some [dhLink g]
  | none =>
    match c.group ("xyzLink_" ++ toString i) with
    | some g => some (xyzLink g)
    | none => none

/-- The loop over the links, /repo/libraries/YarpPlugins/KdlSolver/DeviceDriverImpl.cpp:198-289: the links from `i` on,
`n` of them. -/
noncomputable def links (c : Config) : ℕ → ℕ → Option (List Link)
  | _, 0 => some []
  | i, n + 1 => do
    let l ← link c i
    let ls ← links c (i + 1) n
    return l ++ ls

/-- A fixed segment. /repo/libraries/YarpPlugins/KdlSolver/DeviceDriverImpl.cpp:188-196 and 294-300. -/
noncomputable def fixedLink (f : Frame) : Link := ⟨Segment.make Joint.fixed f, Inertia.zero⟩

/-- The whole chain, /repo/libraries/YarpPlugins/KdlSolver/DeviceDriverImpl.cpp:168-301. -/
noncomputable def chain (c : Config) : Option (List Link) := do
  let numLinks := (c.top.check "numLinks" (.int 1)).asInt
  let ls ← links c 0 numLinks.toNat
  return fixedLink (matrix c.top "H0") :: ls ++ [fixedLink (matrix c.top "HN")]

/-- `retrieveJointLimits`, /repo/libraries/YarpPlugins/KdlSolver/DeviceDriverImpl.cpp:98-143, for a chain of `n`
joints; `none` is a returned
`false`. A key without a list after it is told from a missing key only by the message. -/
noncomputable def jointLimits (c : Config) (n : ℕ) : Option (List ℝ × List ℝ) :=
  open Classical in
  match (c.top "mins").bind Val.asList, (c.top "maxs").bind Val.asList with
  | some mins, some maxs =>
    if maxs.length ≠ n ∨ mins.length ≠ n then none
    else
      let qMin := mins.map (· * deg2rad)
      let qMax := maxs.map (· * deg2rad)
      if (List.zip qMin qMax).any (fun p => p.1 > p.2) then none
      else some (qMin, qMax)
  | _, _ => none

/-- What `open` leaves behind. /repo/libraries/YarpPlugins/KdlSolver/DeviceDriverImpl.cpp:148-452. -/
structure Opened where
  solver : DynSolver
  ikVel : String
  ikPos : String
  limits : Option (List ℝ × List ℝ)

/-- The choice of the position solver, /repo/libraries/YarpPlugins/KdlSolver/DeviceDriverImpl.cpp:354-446, as far as it
can fail: the name and
the joint limits that the solver keeps. `st` stands for `ChainIkSolverPos_ST::create`, whose result may be a
null pointer; `weightsOk` for the parsing of the weights of the LMA algorithm. -/
noncomputable def positionSolver (st : List Link → Bool) (weightsOk : Bool) (c : Config) (ls : List Link) :
    Option (String × Option (List ℝ × List ℝ)) :=
  let n := Chain.nJoints (ls.map (·.seg))
  let ikPos := (c.top.check "ikPos" (c.top.check "ik" (.str "st"))).asString
  if ikPos = "lma" then if weightsOk then some (ikPos, none) else none
  else if ikPos = "nrjl" then (jointLimits c n).map fun l => (ikPos, some l)
  else if ikPos = "st" then do
    let l ← jointLimits c n
    let strategy := (c.top.check "invKinStrategy" (.str "leastOverallAngularDisplacement")).asString
    if strategy = "leastOverallAngularDisplacement" ∨ strategy = "humanoidGait" then
      if st ls then some (ikPos, some l) else none
    else none
  else if ikPos = "id" then (jointLimits c n).map fun l => (ikPos, some l)
  else none

/-- `open`, /repo/libraries/YarpPlugins/KdlSolver/DeviceDriverImpl.cpp:148-451, on a device whose member `chain`
already holds `before`: links are added
to it, lines 195-301. Outer `none`: a null pointer is read (`gravity` is not a list, lines 180-182); inner
`none`: a returned `false`. -/
noncomputable def openFrom (before : List Link) (st : List Link → Bool) (weightsOk : Bool) (c : Config) :
    Option (Option Opened) := do
  let g ← (c.top.check "gravity" (.list [0, 0, -9.81])).asList
  let gravity : Vec3 := ⟨get g 0, get g 1, get g 2⟩
  match chain c with
  | none => return none
  | some added =>
    let ls := before ++ added
    let ikVel := (c.top.check "ikVel" (.str "pinv")).asString
    if ikVel = "pinv" ∨ ikVel = "wdls" then
      match positionSolver st weightsOk c ls with
      | none => return none
      | some (ikPos, limits) => return some ⟨⟨ls, ls, gravity⟩, ikVel, ikPos, limits⟩
    else return none

/-- `open` on a new device. /repo/libraries/YarpPlugins/KdlSolver/DeviceDriverImpl.cpp:148-452. -/
noncomputable def openSolver (st : List Link → Bool) (weightsOk : Bool) (c : Config) : Option (Option Opened) :=
  openFrom [] st weightsOk c

/-- `close` and then `open` again on a device that is open: `close`,
/repo/libraries/YarpPlugins/KdlSolver/DeviceDriverImpl.cpp:455-470, deletes the
solvers and keeps the chain. -/
noncomputable def reopen (st : List Link → Bool) (weightsOk : Bool) (o : Opened) (c : Config) :
    Option (Option Opened) :=
  openFrom o.solver.links st weightsOk c

end KdlConfig

end KD
