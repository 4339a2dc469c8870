import Verif.Props.PlanarArm
import Verif.Solver.KdlDynamics
import Verif.Props.KdlConfig
import Verif.Solver.KdlSolver

/-!
# The assertions of /repo/tests/testKdlSolver.cpp, on the model

From the configuration of lines 26-35 to the numbers asserted in the tests `ChainSize`, `FwdKin1`, `FwdKin2` and
`InvDyn1` to `InvDyn5`. The tests `InvKin1` and `InvKin2` are left out: what they assert depends on how the
processor rounds (see `Verif.Props.PlanarArm`).
-/

namespace KD.Conformance

open Real KdlConfig KdlSolver Angles

/-- Values by key. -/
def values (l : List (String × Val)) : Group := fun k => (l.find? (·.1 = k)).map (·.2)

/-- The options of the device, /repo/tests/testKdlSolver.cpp:26-35. -/
noncomputable def options : KdlConfig.Config where
  top := values [("device", .str "KdlSolver"), ("gravity", .list [0, -10, 0]), ("numLinks", .int 2),
    ("mins", .list [-180, -180]), ("maxs", .list [180, 180])]
  group k :=
    if k = "link_0" then some (values [("offset", .num 0), ("D", .num 0), ("A", .num 1), ("alpha", .num 0),
      ("mass", .num 1), ("cog", .list [-0.5, 0, 0]), ("inertia", .list [1, 1, 1])])
    else if k = "link_1" then some (values [("offset", .num 90), ("D", .num 0), ("A", .num 1), ("alpha", .num 0),
      ("mass", .num 1), ("cog", .list [-0.5, 0, 0]), ("inertia", .list [1, 1, 1])])
    else none

/-- The links that are made of them. -/
noncomputable def made : List Link :=
  [fixedLink 1, ⟨Dh.seg (0, 0, 1, 0), Inertia.make 1 ⟨-0.5, 0, 0⟩ ⟨1, 1, 1⟩⟩,
    ⟨Dh.seg (90, 0, 1, 0), Inertia.make 1 ⟨-0.5, 0, 0⟩ ⟨1, 1, 1⟩⟩, fixedLink 1]

theorem options_made : chain options = some made := rfl

/-- The device opens, as the screw theory solver exists for this arm (`Planar.built`). -/
noncomputable def device : Opened := ⟨⟨made, made, ⟨0, -10, 0⟩⟩, "pinv", "st", some ([-180 * deg2rad, -180 * deg2rad], [180 * deg2rad, 180 * deg2rad])⟩

example (w : Bool) : openSolver (fun _ => true) w options = some (some device) := by
  unfold openSolver openFrom
  have h1 : (options.top.check "gravity" (.list [0, 0, -9.81])).asList = some [0, -10, 0] := rfl
  have h2 : (options.top.check "ikVel" (.str "pinv")).asString = "pinv" := rfl
  have h3 : (options.top.check "ikPos" (options.top.check "ik" (.str "st"))).asString = "st" := rfl
  have h4 : (options.top.check "invKinStrategy" (.str "leastOverallAngularDisplacement")).asString =
    "leastOverallAngularDisplacement" := rfl
  have h5 : Chain.nJoints (made.map (·.seg)) = 2 := rfl
  have h6 : jointLimits options 2 = some ([-180 * deg2rad, -180 * deg2rad], [180 * deg2rad, 180 * deg2rad]) := by
    have a1 : (options.top "mins").bind Val.asList = some [-180, -180] := rfl
    have a2 : (options.top "maxs").bind Val.asList = some [180, 180] := rfl
    have : (0 : ℝ) < deg2rad := by unfold deg2rad; positivity
    simp only [jointLimits, a1, a2]
    simp
    linarith
  simp only [h1, h2, options_made, positionSolver, h3, h4, List.nil_append, h5, h6]
  simp [KdlConfig.get, device]

theorem chain_same : device.solver.chain = Planar.chain := rfl

/-- `ChainSize`. -/
example : (KdlSolver.opened device.solver.chain).numJoints = 2 := rfl

theorem d90' : (-90 : ℝ) * deg2rad = -(π / 2) := by unfold deg2rad; ring

theorem dneg : (-90 : ℝ) * deg2rad = -(π / 2) := by unfold deg2rad; ring

theorem getRot_quarter : Mat3.getRot ⟨0, -1, 0, 1, 0, 0, 0, 0, 1⟩ = ⟨0, 0, π / 2⟩ := by
  have h : Mat3.getRotAngle ⟨0, -1, 0, 1, 0, 0, 0, 0, 1⟩ = (⟨0, 0, 1⟩, π / 2) := by
    norm_num [Mat3.getRotAngle, eps, Vec3.norm, Vec3.dot, sqrt_four, atan2_up]
  rw [Mat3.getRot, h]
  ext <;> simp

/-- `FwdKin1`. -/
example : (KdlSolver.opened Planar.chain).fwdKin [0, 0] = some [1, 1, 0, 0, 0, π / 2] := by
  have hn : (KdlSolver.opened Planar.chain).numJoints = 2 := rfl
  have hf : Planar.chain.fk [0, 0] = some ⟨⟨0, -1, 0, 1, 0, 0, 0, 0, 1⟩, ⟨1, 1, 0⟩⟩ := by
    rw [Planar.chain_fk, C03_evaluate_is_product _ _ _ rfl, Option.some.injEq]
    ext <;> simp [Planar.arm, Planar.e1, Planar.e2, MatrixExp.asFrame, Mat3.rot2]
  unfold fwdKin
  rw [hn]
  simp only [toRadians, List.length_cons, List.length_nil, List.take, List.map, zero_mul, le_refl, if_true]
  simp only [opened, hf, Option.bind_eq_bind, Option.bind_some]
  simp [KdlVectorConverter.frameToVector, getRot_quarter]

/-- `FwdKin2`. -/
example : (KdlSolver.opened Planar.chain).fwdKin [-90, 0] = some [1, -1, 0, 0, 0, 0] := by
  have hn : (KdlSolver.opened Planar.chain).numJoints = 2 := rfl
  have hf : Planar.chain.fk [-(π / 2), 0] = some ⟨1, ⟨1, -1, 0⟩⟩ := by
    rw [Planar.chain_fk, C03_evaluate_is_product _ _ _ rfl, Option.some.injEq]
    ext <;> simp [Planar.arm, Planar.e1, Planar.e2, MatrixExp.asFrame, Mat3.rot2]
  unfold fwdKin
  rw [hn]
  simp only [toRadians, List.length_cons, List.length_nil, List.take, List.map, zero_mul, le_refl, if_true, dneg]
  simp only [opened, hf, Option.bind_eq_bind, Option.bind_some]
  simp [KdlVectorConverter.frameToVector, getRot_one]

/-- Calculates the torques. -/
local macro "dyn" : tactic => `(tactic| (
  have hj : device.solver.chain.nJoints = 2 := rfl
  first | unfold DynSolver.invDynStatic | unfold DynSolver.invDyn
  rw [hj]
  simp [toRadians, d90, dneg, rne, rneLoop, device, made, Dh.seg, Dh.frame, dhFrame, joint, fixedLink, Joint.fixed,
    Inertia.zero, Segment.make, Link.sweep, Link.force, Joint.pose, Inertia.make,
    Segment.pose, Segment.twist, Joint.twist, Twist.rotate, Twist.refPoint, Frame.invTwist, Frame.mulWrench,
    Inertia.mul, Twist.crossTwist, Twist.crossWrench, Twist.power, Vec3.dot, Mat3.rotZ, Mat3.transpose, Frame.inv,
    Vec3.cross, DynSolver.wrenches, KdlVectorConverter.vectorToWrench, Wrench.rotate, DynSolver.chain, Chain.fk, Chain.fkLoop]
  try norm_num))

/-- `InvDyn1`. -/
example : device.solver.invDynStatic [90, -90] = some (some [0, 0]) := by dyn

/-- `InvDyn2`. -/
example : device.solver.invDynStatic [0, 0] = some (some [15, 0]) := by dyn

/-- `InvDyn3`. -/
example : device.solver.invDyn [0, 0] [0, 0] [0, 0] [0, 0, 0, 0, 0, 0] .base = some (some [15, 0]) := by dyn

/-- `InvDyn4`. -/
example : device.solver.invDyn [0, 0] [0, 0] [0, 0] [0, 1, 0, 0, 0, 0] .base = some (some [14, 0]) := by dyn

/-- `InvDyn5`. -/
example : device.solver.invDyn [0, -90] [0, 0] [0, 0] [0, 1, 0, 0, 0, 0] .base = some (some [18, 4]) := by dyn

end KD.Conformance
