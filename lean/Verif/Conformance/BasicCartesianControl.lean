import Verif.Props.WithStCases
import Verif.Conformance.KdlSolver

/-!
# The assertions of /repo/tests/testBasicCartesianControl.cpp, on the model

From the configuration of lines 23-33 to the numbers asserted in the tests. The robot is the one that
`fakeMotionControl` simulates: all interfaces, one joint, at zero. As the configuration brings all limits, the
controller has none of its own (C81), which these tests do not notice.
-/

namespace KD.Conformance

open Real KdlVectorConverter Angles Ctrl
open KdlConfig (Val Group)
open Prog (can can_run)

/-- The options of the device, /repo/tests/testBasicCartesianControl.cpp:23-33. -/
noncomputable def controlOptions : KdlConfig.Config where
  top := values [("device", .str "BasicCartesianControl"), ("robot", .str "fakeMotionControl"),
    ("solver", .str "KdlSolver"), ("numLinks", .int 1), ("mins", .list [-100]), ("maxs", .list [100]),
    ("maxvels", .list [100])]
  group k := if k = "link_0" then some (values [("A", .int 1)]) else none

/-- The robot and the solver that these options open, and trajectories that the tests do not use. -/
noncomputable def fakeWorld : World where
  robot c := if (c.top.check "device" (.str "")).asString = "fakeMotionControl" then some simRobot else none
  solver o := (KdlConfig.openSolver (fun _ => true) true o).map (·.map (fun k => (k.solver.chain.nJoints, 1)))
  starts := true
  line := simWorld.line
  ray := simWorld.ray

/-- The controller that is opened. -/
noncomputable def testCfg : Cfg :=
  ⟨1, 1, false, false, [], [], [], [], [2], simWorld.line, simWorld.ray⟩

/-- Its state. -/
noncomputable def testCtl : Ctl := Ctl.initial .base (5 / 100) 10 50 30 (50 * (1 / 1000))

/-- The solver as it is opened. -/
noncomputable def testDyn : DynSolver := ⟨tableLinks, tableLinks, ⟨0, 0, -9.81⟩⟩

/-- Its limits. -/
noncomputable def testLimits : Selector := Selector.make false [-100 * deg2rad] [100 * deg2rad]

theorem test_chain : KdlConfig.chain (solverOptions controlOptions) = some tableLinks := by
  have h : KdlConfig.chain (solverOptions controlOptions) = some [KdlConfig.fixedLink 1,
    ⟨Segment.make (KdlConfig.joint .rotZ 1) (KdlConfig.dhFrame ((1 : ℤ) : ℝ) (0 * deg2rad) 0 (0 * deg2rad)), Inertia.zero⟩,
    KdlConfig.fixedLink 1] := rfl
  rw [h, Int.cast_one]
  rfl

/-- `SetUp`: the solver. -/
theorem test_solver : KdlConfig.openSolver (fun _ => true) true (solverOptions controlOptions) =
    some (some ⟨testDyn, "pinv", "st", some ([-100 * deg2rad], [100 * deg2rad])⟩) := by
  unfold KdlConfig.openSolver KdlConfig.openFrom
  have h1 : ((solverOptions controlOptions).top.check "gravity" (.list [0, 0, -9.81])).asList = some [0, 0, -9.81] := rfl
  have h2 : ((solverOptions controlOptions).top.check "ikVel" (.str "pinv")).asString = "pinv" := rfl
  have h3 : ((solverOptions controlOptions).top.check "ikPos" ((solverOptions controlOptions).top.check "ik" (.str "st"))).asString = "st" := rfl
  have h4 : ((solverOptions controlOptions).top.check "invKinStrategy" (.str "leastOverallAngularDisplacement")).asString =
    "leastOverallAngularDisplacement" := rfl
  have h5 : Chain.nJoints (tableLinks.map (·.seg)) = 1 := rfl
  have h6 : KdlConfig.jointLimits (solverOptions controlOptions) 1 = some ([-100 * deg2rad], [100 * deg2rad]) := by
    have a1 : ((solverOptions controlOptions).top "mins").bind Val.asList = some [-100] := rfl
    have a2 : ((solverOptions controlOptions).top "maxs").bind Val.asList = some [100] := rfl
    have : (0 : ℝ) < deg2rad := by unfold deg2rad; positivity
    simp only [KdlConfig.jointLimits, a1, a2]
    simp
    linarith
  simp only [h1, h2, test_chain, KdlConfig.positionSolver, h3, h4, List.nil_append, h5, h6]
  simp [KdlConfig.get, testDyn]

/-- `SetUp`: the inverse kinematics, with the numbers drawn in `turn_build`. -/
theorem test_st : createSt oneTwoThree testDyn.chain [-100 * deg2rad] [100 * deg2rad] "leastOverallAngularDisplacement" =
    some (some ⟨turnProblem, some testLimits, 0⟩) := by
  have hp : Poe.fromChain testDyn.chain = ⟨[turnExp], Frame.trans ⟨1, 0, 0⟩⟩ := by
    have := table_poe []
    rw [List.append_nil] at this
    exact this
  unfold createSt StSolver.create
  rw [if_pos rfl, hp, turn_build]
  rfl

/-- `SetUp`: the controller. -/
theorem test_opens : openController fakeWorld controlOptions = some (some (testCfg, testCtl)) := by
  have h := opened_of_steps (w := fakeWorld) (c := controlOptions) (r := simRobot) (n := 1)
    (frame := .base) (refs := [2]) (ls := []) (options := solverOptions controlOptions) (tcps := 1)
    (fun h => by cases h) (frameOption_base (Or.inr ⟨rfl, rfl⟩))
    (by simp [fakeWorld, robotOptions, putOption, Group.check, Val.asString, controlOptions, values]) ⟨rfl, rfl, rfl, rfl, rfl, rfl⟩ rfl rfl
    (by
      unfold takeLimits
      rw [if_neg]
      simp [controlOptions, values])
    (by
      show (KdlConfig.openSolver (fun _ => true) true _).map _ = _
      rw [test_solver]
      rfl) rfl
  rw [h]
  simp [opened, testCfg, testCtl, controlOptions, values, fakeWorld, Group.check, Val.asFloat, Val.asInt]

/-- Where the arm is with the given tool, as the solver tells. -/
theorem test_fwdKin (x : List ℝ) : (testDyn.appendLink x).kin.fwdKin [0] =
    some (frameToVector (Frame.trans ⟨1, 0, 0⟩ * vectorToFrame x)) := by
  have hf : (testDyn.appendLink x).chain.fk [0] = some (Frame.trans ⟨1, 0, 0⟩ * vectorToFrame x) := by
    have h1 : Chain.fk [Segment.make Joint.fixed 1, Segment.make (KdlConfig.joint .rotZ 1) (Frame.trans ⟨1, 0, 0⟩),
        Segment.make Joint.fixed 1, Segment.make Joint.fixed (vectorToFrame x)] [0] =
        some (Frame.trans ⟨1, 0, 0⟩ * vectorToFrame x) := by
      unfold Chain.fk
      simp only [Chain.fkLoop, fixed_pose, turn_pose]
      simp [Segment.make, Joint.fixed, KdlConfig.joint]
    rw [← h1, ← dh_one]
    rfl
  have hn : (testDyn.appendLink x).kin.numJoints = 1 := rfl
  unfold KdlSolver.fwdKin
  rw [hn]
  simp only [KdlSolver.toRadians, List.length_cons, List.length_nil, List.take, List.map, zero_mul, le_refl, if_true]
  simp only [DynSolver.kin, hf, Option.bind_eq_bind, Option.bind_some]
  simp

/-- The same for tools that turn by less than a half turn. -/
theorem test_tool (x y z : ℝ) {w : Vec3} (h : Turnable w) : (testDyn.appendLink [x, y, z, w.x, w.y, w.z]).kin.fwdKin [0] =
    some [1 + x, y, z, w.x, w.y, w.z] := by
  have he : w = 0 ∨ eps ≤ w.norm := h.imp id fun h => by
    have : (0 : ℝ) < eps := by norm_num [eps]
    linarith [h.1]
  have hv : vectorToFrame [x, y, z, w.x, w.y, w.z] = ⟨Mat3.expRot w, ⟨x, y, z⟩⟩ := by
    rw [← Mat3.rot_norm he]
    rfl
  have hm : (Frame.trans ⟨1, 0, 0⟩ * (⟨Mat3.expRot w, ⟨x, y, z⟩⟩ : Frame)) = ⟨Mat3.expRot w, ⟨1 + x, y, z⟩⟩ := by
    ext <;> simp [Frame.trans]
    ring
  rw [test_fwdKin, hv, hm]
  simp only [frameToVector, getRot_expRot h]

/-- Asking for the pose, with a solver that answers `x`. -/
theorem run_stat (x : List ℝ) : Exec testCfg stat testCtl [Ev.getEncoders (some [0]), Ev.fwdKin [0] (some x)]
    (.ok (some (x, .notControlling))) testCtl := by
  have hc : can (robot testCfg) stat (fun o s tr => o = .ok (some (x, .notControlling)) ∧ s = testCtl ∧ tr =
      [Ev.getEncoders (some [0]), Ev.fwdKin [0] (some x)]) testCtl [] := by
    unfold stat getCurrentState
    can_simp
    refine ⟨some [0], some_length (by simp [testCfg]), ?_⟩
    can_simp
    refine ⟨some x, ?_⟩
    dsimp only
    can_simp
    simp [testCtl, Ctl.initial]
  obtain ⟨tr, o, s', hx, rfl, rfl, rfl⟩ := can_run hc
  exact hx

/-- Changing the tool, with a solver that agrees. -/
theorem run_tool (x : List ℝ) : Exec testCfg (tool x) testCtl [Ev.restoreOriginalChain true, Ev.appendLink x true]
    (.ok true) testCtl := by
  have hc : can (robot testCfg) (tool x) (fun o s tr => o = .ok true ∧ s = testCtl ∧ tr =
      [Ev.restoreOriginalChain true, Ev.appendLink x true]) testCtl [] := by
    unfold tool
    can_simp
    refine ⟨true, ?_⟩
    exact Or.inl ⟨rfl, true, trivial, rfl, rfl, rfl⟩
  obtain ⟨tr, o, s', hx, rfl, rfl, rfl⟩ := can_run hc
  exact hx

/-- `BasicCartesianControlStat`: the state and the pose. -/
example : Exec testCfg stat testCtl [Ev.getEncoders (some [0]), Ev.fwdKin [0] (some [1, 0, 0, 0, 0, 0])]
      (.ok (some ([1, 0, 0, 0, 0, 0], .notControlling))) testCtl ∧
    Answered exact testDyn [Ev.getEncoders (some [0]), Ev.fwdKin [0] (some [1, 0, 0, 0, 0, 0])] testDyn := by
  refine ⟨run_stat _, .cons rfl (.cons ⟨rfl, _, ?_, rfl⟩ (.nil _))⟩
  have hf : testDyn.chain.fk [0] = some (Frame.trans ⟨1, 0, 0⟩) := by
    have h1 : Chain.fk [Segment.make Joint.fixed 1, Segment.make (KdlConfig.joint .rotZ 1) (Frame.trans ⟨1, 0, 0⟩),
        Segment.make Joint.fixed 1] [0] = some (Frame.trans ⟨1, 0, 0⟩) := by
      unfold Chain.fk
      simp only [Chain.fkLoop, fixed_pose, turn_pose]
      simp [Segment.make, Joint.fixed, KdlConfig.joint]
    rw [← h1, ← dh_one]
    rfl
  have hn : testDyn.kin.numJoints = 1 := rfl
  unfold KdlSolver.fwdKin
  rw [hn]
  simp only [KdlSolver.toRadians, List.length_cons, List.length_nil, List.take, List.map, zero_mul, le_refl, if_true]
  simp only [DynSolver.kin, hf, Option.bind_eq_bind, Option.bind_some]
  simp [frameToVector, Frame.trans, getRot_one]

/-- A tool that turns about the first axis. -/
theorem turn_x : Turnable ⟨π / 4, 0, 0⟩ := by
  have hpi := Real.two_le_pi
  have h : Vec3.norm ⟨π / 4, 0, 0⟩ = π / 4 := by
    unfold Vec3.norm Vec3.dot
    simp only [mul_zero, add_zero]
    exact sqrt_mul_self (by positivity)
  refine Or.inr ?_
  rw [h]
  constructor <;> norm_num [eps] <;> linarith

/-- A tool that turns about the second axis. -/
theorem turn_y : Turnable ⟨0, π / 4, 0⟩ := by
  have hpi := Real.two_le_pi
  have h : Vec3.norm ⟨0, π / 4, 0⟩ = π / 4 := by
    unfold Vec3.norm Vec3.dot
    simp only [mul_zero, add_zero, zero_add]
    exact sqrt_mul_self (by positivity)
  refine Or.inr ?_
  rw [h]
  constructor <;> norm_num [eps] <;> linarith

/-- `BasicCartesianControlTool`: two tools, and none. -/
example : ∃ kA kB k0,
    Exec testCfg (tool [0, 0, 1, π / 4, 0, 0]) testCtl [Ev.restoreOriginalChain true, Ev.appendLink [0, 0, 1, π / 4, 0, 0] true]
      (.ok true) testCtl ∧
    Answered exact testDyn [Ev.restoreOriginalChain true, Ev.appendLink [0, 0, 1, π / 4, 0, 0] true] kA ∧
    Exec testCfg stat testCtl [Ev.getEncoders (some [0]), Ev.fwdKin [0] (some [1, 0, 1, π / 4, 0, 0])]
      (.ok (some ([1, 0, 1, π / 4, 0, 0], .notControlling))) testCtl ∧
    Answered exact kA [Ev.getEncoders (some [0]), Ev.fwdKin [0] (some [1, 0, 1, π / 4, 0, 0])] kA ∧
    Exec testCfg (tool [1, 0, 0, 0, π / 4, 0]) testCtl [Ev.restoreOriginalChain true, Ev.appendLink [1, 0, 0, 0, π / 4, 0] true]
      (.ok true) testCtl ∧
    Answered exact kA [Ev.restoreOriginalChain true, Ev.appendLink [1, 0, 0, 0, π / 4, 0] true] kB ∧
    Exec testCfg stat testCtl [Ev.getEncoders (some [0]), Ev.fwdKin [0] (some [2, 0, 0, 0, π / 4, 0])]
      (.ok (some ([2, 0, 0, 0, π / 4, 0], .notControlling))) testCtl ∧
    Answered exact kB [Ev.getEncoders (some [0]), Ev.fwdKin [0] (some [2, 0, 0, 0, π / 4, 0])] kB ∧
    Exec testCfg (tool [0, 0, 0, 0, 0, 0]) testCtl [Ev.restoreOriginalChain true, Ev.appendLink [0, 0, 0, 0, 0, 0] true]
      (.ok true) testCtl ∧
    Answered exact kB [Ev.restoreOriginalChain true, Ev.appendLink [0, 0, 0, 0, 0, 0] true] k0 ∧
    Exec testCfg stat testCtl [Ev.getEncoders (some [0]), Ev.fwdKin [0] (some [1, 0, 0, 0, 0, 0])]
      (.ok (some ([1, 0, 0, 0, 0, 0], .notControlling))) testCtl ∧
    Answered exact k0 [Ev.getEncoders (some [0]), Ev.fwdKin [0] (some [1, 0, 0, 0, 0, 0])] k0 := by
  have hA := test_tool 0 0 1 turn_x
  have hB := test_tool 1 0 0 turn_y
  have h0 := test_tool 0 0 0 (w := 0) (Or.inl rfl)
  norm_num at hA hB h0
  refine ⟨testDyn.appendLink [0, 0, 1, π / 4, 0, 0], testDyn.appendLink [1, 0, 0, 0, π / 4, 0],
    testDyn.appendLink [0, 0, 0, 0, 0, 0], run_tool _, .cons ⟨rfl, rfl⟩ (.cons ⟨rfl, rfl⟩ (.nil _)), run_stat _,
    .cons rfl (.cons ⟨rfl, _, hA, rfl⟩ (.nil _)), run_tool _, .cons ⟨rfl, rfl⟩ (.cons ⟨rfl, rfl⟩ (.nil _)), run_stat _,
    .cons rfl (.cons ⟨rfl, _, hB, rfl⟩ (.nil _)), run_tool _, .cons ⟨rfl, rfl⟩ (.cons ⟨rfl, rfl⟩ (.nil _)), run_stat _,
    .cons rfl (.cons ⟨rfl, _, h0, rfl⟩ (.nil _))⟩

/-- The only step of the problem, for the point where the arm is. -/
theorem test_solve_ahead {T : Frame} (hT : T.p = ⟨1, 0, 0⟩) : turnProblem.solve T [] = some (true, [[0]]) := by
  have hstep : (Subproblem.pk1 0 turnExp ⟨1, 0, 0⟩).toStep.solve (turnProblem.initialRhs T) 1 = some (true, [[(0, 0)]]) := by
    show pk1 0 turnExp ⟨1, 0, 0⟩ (turnProblem.initialRhs T) 1 = _
    have u1 : (⟨1, 0, 0⟩ : Vec3) - turnExp.origin = ⟨1, 0, 0⟩ := by ext <;> simp [turnExp]
    have v1 : Vec3.dot turnExp.axis ⟨1, 0, 0⟩ • turnExp.axis = 0 := by ext <;> simp [turnExp, Vec3.dot]
    have ha : angleAbout turnExp.axis ⟨1, 0, 0⟩ ⟨1, 0, 0⟩ = 0 := by
      unfold angleAbout atan2
      simp only [turnExp, Vec3.dot, Vec3.cross]
      norm_num
      exact Complex.arg_one
    have hn : normalizeAngle 0 = 0 := by
      unfold normalizeAngle EqualR
      have hpi := Real.two_le_pi
      rw [abs_zero, zero_sub (Real.pi), abs_neg, abs_of_pos Real.pi_pos, if_neg, if_neg, if_neg]
      · linarith
      · linarith
      · norm_num [eps]; linarith
    simp only [pk1, Option.some.injEq, Prod.mk.injEq, decide_eq_true_eq]
    simp only [turn_rhs, hT, axisProj_eq, Frame.act_one, u1, v1, sub_zero, ha, hn]
    simp [Vec3.Equal, EqualR]
    norm_num [eps]
  simp only [IkProblem.solve]
  generalize turnProblem.initialRhs T = rhs at *
  simp [turnProblem, IkProblem.stepsLoop, IkProblem.branchLoop, IkProblem.branchBody,
    IkProblem.transformPoint, IkProblem.storeLoop, IkProblem.writePairs, writeAt,
    IkProblem.transformLoop, IkProblem.termFrames, hstep]

/-- The solver of inverse kinematics when the step has one answer within the limits. -/
theorem test_inv {b : Bool} {φ : ℝ} {x : List ℝ} (h : turnProblem.solve (vectorToFrame x) [] = some (b, [[φ]]))
    (h1 : -100 * deg2rad ≤ φ) (h2 : φ ≤ 100 * deg2rad) :
    ∃ d', (⟨testDyn, ⟨turnProblem, some testLimits, 0⟩⟩ : StDevice).invKin x [0] .base = some (some [φ * rad2deg], d') := by
  have hf : testLimits.Fits 1 := ⟨rfl, rfl, by simp [testLimits, Selector.make]⟩
  have hin : testLimits.Acceptable [φ] := by
    refine ⟨?_, by simp [testLimits, Selector.make]⟩
    intro k a lo hi ha hlo hhi
    cases k with
    | zero =>
      simp only [testLimits, Selector.make, List.getElem?_cons_zero, Option.some.injEq] at ha hlo hhi
      subst ha hlo hhi
      have : (0:ℝ) ≤ eps := by norm_num [eps]
      constructor <;> linarith
    | succ k => simp at ha
  have hg : KdlSolver.toRadians 1 [0] = some [0] := by simp [KdlSolver.toRadians, deg2rad]
  have hsel : ∃ s', testLimits.select [[φ]] [0] = some (some [φ], s') := by
    rcases Selector.select_fresh (sols := [[φ]]) (guess := [0]) hf rfl (by simp) rfl with
      ⟨s', _, _, _, _, _, h⟩ | ⟨i, q, s', g1, g2, _⟩
    · exact absurd hin (h [φ] (by simp))
    · have := List.mem_of_getElem? g1
      rw [List.mem_singleton] at this
      exact ⟨s', this ▸ g2⟩
  obtain ⟨s', hsel⟩ := hsel
  have hc : StSolver.cartToJnt ⟨turnProblem, some testLimits, 0⟩ [0] (vectorToFrame x) [0] =
      some (if b then 0 else eNotReachable, [φ], ⟨turnProblem, some s', if b then 0 else eNotReachable⟩) := by
    unfold StSolver.cartToJnt
    rw [if_neg (by norm_num [eSolutionNotFound])]
    simp only [h, hsel, Option.bind_eq_bind, Option.bind_some, Option.pure_def]
  refine ⟨⟨testDyn, ⟨turnProblem, some s', if b then 0 else eNotReachable⟩⟩, ?_⟩
  have hn : testDyn.kin.numJoints = 1 := rfl
  unfold StDevice.invKin
  dsimp only
  rw [hn, hg]
  show StDevice.reach _ _ _ = _
  unfold StDevice.reach
  dsimp only
  rw [hn, show List.replicate 1 (0 : ℝ) = [0] from rfl, hc]
  cases b <;> simp [eNotReachable]

/-- Asking for the joints, with a solver that answers `q`. -/
theorem run_inv (x q : List ℝ) : Exec testCfg (inv x) testCtl [Ev.getEncoders (some [0]), Ev.invKin x [0] .base (some q)]
    (.ok (some q)) testCtl := by
  have hc : can (robot testCfg) (inv x) (fun o s tr => o = .ok (some q) ∧ s = testCtl ∧ tr =
      [Ev.getEncoders (some [0]), Ev.invKin x [0] .base (some q)]) testCtl [] := by
    unfold inv
    can_simp
    refine ⟨some [0], some_length (by simp [testCfg]), ?_⟩
    exact ⟨some q, trivial, rfl, rfl, rfl⟩
  obtain ⟨tr, o, s', hx, rfl, rfl, rfl⟩ := can_run hc
  exact hx

/-- `BasicCartesianControlInv1`. -/
example : ∃ d', Exec testCfg (inv [1, 0, 0, 0, 0, 0]) testCtl
      [Ev.getEncoders (some [0]), Ev.invKin [1, 0, 0, 0, 0, 0] [0] .base (some [0])] (.ok (some [0])) testCtl ∧
    (⟨testDyn, ⟨turnProblem, some testLimits, 0⟩⟩ : StDevice).Answered counted
      [Ev.getEncoders (some [0]), Ev.invKin [1, 0, 0, 0, 0, 0] [0] .base (some [0])] d' := by
  have : (0 : ℝ) < deg2rad := by unfold deg2rad; positivity
  obtain ⟨d', h⟩ := test_inv (x := [1, 0, 0, 0, 0, 0]) (test_solve_ahead rfl) (by linarith) (by linarith)
  rw [zero_mul] at h
  exact ⟨d', run_inv _ _, .cons ⟨rfl, rfl⟩ (.cons h (.nil _))⟩

/-- `BasicCartesianControlInv2`. -/
example : ∃ d', Exec testCfg (inv [0, 1, 0, 0, 0, π / 2]) testCtl
      [Ev.getEncoders (some [0]), Ev.invKin [0, 1, 0, 0, 0, π / 2] [0] .base (some [90])] (.ok (some [90])) testCtl ∧
    (⟨testDyn, ⟨turnProblem, some testLimits, 0⟩⟩ : StDevice).Answered counted
      [Ev.getEncoders (some [0]), Ev.invKin [0, 1, 0, 0, 0, π / 2] [0] .base (some [90])] d' := by
  have hpi := pi_pos
  obtain ⟨b, φ, h1, -, -, h4⟩ := turn_solve (vectorToFrame [0, 1, 0, 0, 0, π / 2])
  obtain ⟨rfl, -⟩ := h4 1 rfl one_pos
  obtain ⟨d', h⟩ := test_inv h1 (by unfold deg2rad; linarith) (by unfold deg2rad; linarith)
  rw [show π / 2 * rad2deg = 90 by unfold rad2deg; field_simp; norm_num] at h
  exact ⟨d', run_inv _ _, .cons ⟨rfl, rfl⟩ (.cons h (.nil _))⟩

end KD.Conformance
