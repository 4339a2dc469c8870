import Verif.Conformance.KdlSolver
import Verif.Conformance.KinRepresentation
import Verif.Props.AsibotChoice
import Verif.Solver.AsibotConfig

/-!
# Assertions of /repo/tests/testAsibotSolverFromFile.cpp, on the model

The device is opened with the file and the limits of the tests. The numbers of the tests are rounded to nine digits;
here they are exact. `InvKin3` and `InvKin4` are left out: without rounding both elbows are equally far there.
-/

namespace KD.Conformance

open Real KinRepr Angles Asibot

/-- /repo/share/contexts/testAsibotSolverFromFile.ini and the limits of /repo/tests/testAsibotSolverFromFile.cpp:43. -/
noncomputable def asibotOptions : KdlConfig.Config where
  top := values [("A0", .num 0.3), ("A1", .num 0.4), ("A2", .num 0.4), ("A3", .num 0.3),
    ("invKinStrategy", .str "leastOverallAngularDisplacement"), ("device", .str "AsibotSolver"),
    ("mins", .list [-180, -135, -135, -135, -180]), ("maxs", .list [180, 135, 135, 135, 180])]
  group _ := none

/-- The device. -/
noncomputable def asibot : Solver :=
  ⟨0.3, 0.4, 0.4, 0.3, ⟨-180, -135, -135, -135, -180⟩, ⟨180, 135, 135, 135, 180⟩, false, 1⟩

theorem asibot_opens : openSolver asibotOptions = some asibot := by
  have h1 : (asibotOptions.top.check "A0" (.num (3 / 10))).asFloat = 0.3 := rfl
  have h2 : (asibotOptions.top.check "A1" (.num (4 / 10))).asFloat = 0.4 := rfl
  have h3 : (asibotOptions.top.check "A2" (.num (4 / 10))).asFloat = 0.4 := rfl
  have h4 : (asibotOptions.top.check "A3" (.num (3 / 10))).asFloat = 0.3 := rfl
  have h5 : (asibotOptions.top "mins").bind KdlConfig.Val.asList = some [-180, -135, -135, -135, -180] := rfl
  have h6 : (asibotOptions.top "maxs").bind KdlConfig.Val.asList = some [180, 135, 135, 135, 180] := rfl
  have h7 : (asibotOptions.top.check "invKinStrategy" (.str strategyName)).asString = strategyName := rfl
  unfold openSolver
  simp only [h1, h2, h3, h4, h5, h6, h7]
  norm_num [readLimits, Joints.read, asibot]

/-! ## Forward kinematics -/

/-- `AsibotSolverFwdKin1`: the arm stands upright. -/
theorem asibot_fwdKin1 (svd : Mat3 → Vec3) : fwdKin svd asibot [0, 0, 0, 0, 0] = some [0, 0, 1.4, 0, 0, 0] := by
  rw [fwdKin_no_tool svd rfl rfl, arm_p]
  have h1 : codedRot asibot ⟨0, 0, 0, 0, 0⟩ = 1 := by
    simp [codedRot, Joints.inRadians, rad_zero, radial, atan2_zero]
    ext <;> simp [Mat3.eulerZYZ, Mat3.rotZ, Mat3.rotY]
  have h2 : Mat3.getRot 1 = 0 := by
    simp only [Mat3.getRot, Mat3.getRotAngle, Mat3.one_xx, Mat3.one_yy, Mat3.one_zz]
    rw [if_pos (by norm_num [eps])]
    ext <;> simp
  rw [h1, h2]
  simp [sixOf, Joints.inRadians, rad_zero, radial, height]
  norm_num [asibot]

/-- What a pose is decoded to in the representation of the tests. -/
theorem decoded {a b c d e f β γ : ℝ} (h : Mat3.getEulerZYZ (Mat3.rot ⟨d, e, f⟩ (Vec3.norm ⟨d, e, f⟩)) = (α, β, γ)) :
    decodePose .cartesian .eulerYZ .degrees ⟨[a, b, c, d, e, f], [], false⟩ =
      some (true, ⟨[a, b, c, d, e, f], [a, b, c, radToDeg β, radToDeg γ], false⟩) := by
  simp [decodePose, decodeOrient, decodeCoord, copyPos, checkVectorSize, coordSize, orientSize, offset, grow, resize,
    resizeList, rd, wr, Mem.input, bind, Act.andThen, pure, outRad, h]

/-- The pose of `AsibotSolverFwdKin1`, as decoded in the test. -/
example : decodePose .cartesian .eulerYZ .degrees ⟨[0, 0, 1.4, 0, 0, 0], [], false⟩ =
    some (true, ⟨[0, 0, 1.4, 0, 0, 0], [0, 0, 1.4, 0, 0], false⟩) := by
  have h : Mat3.rot ⟨0, 0, 0⟩ (Vec3.norm ⟨0, 0, 0⟩) = 1 := by
    have : Vec3.norm ⟨0, 0, 0⟩ = 0 := by simp [Vec3.norm, Vec3.dot]
    rw [this, Mat3.rot]
    ext <;> simp [Mat3.rot2]
  have he : Mat3.getEulerZYZ 1 = (0, 0, 0) := by
    simp only [Mat3.getEulerZYZ, Mat3.one_zz, Mat3.one_yx, Mat3.one_xx, abs_one]
    rw [if_pos (by norm_num [Mat3.singEps]), if_pos (by norm_num), atan2_ahead one_pos]
  rw [decoded (h ▸ he), deg_zero]

/-- The rotation of the second posture is a half turn about the bisector of y and z. -/
theorem asibot_turn : Mat3.getRot ⟨-1, 0, 0, 0, 0, 1, 0, 1, 0⟩ = ⟨0, π / √2, π / √2⟩ := by
  have h : √(1 / 2 : ℝ) = 1 / √2 := by rw [sqrt_div (by norm_num), sqrt_one]
  simp only [Mat3.getRot, Mat3.getRotAngle]
  rw [if_neg (by norm_num [eps]), if_pos (by norm_num [eps])]
  norm_num [h]
  ext <;> simp [div_eq_mul_inv]

/-- `AsibotSolverFwdKin2`: `0.865685425` is `0.3 + 0.4 √2`. -/
theorem asibot_fwdKin2 (svd : Mat3 → Vec3) : fwdKin svd asibot [90, 45, 90, -45, 90] =
    some [0, 0.3 + 0.4 * √2, 0.3, 0, π / √2, π / √2] := by
  have hs := sqrt_two_gt
  have e2 : degToRad 45 + degToRad 90 = π - π / 4 := by rw [quarter, right]; ring
  have e3 : degToRad 45 + degToRad 90 + degToRad (-45) = π / 2 := by
    rw [show degToRad (-45) = -(π / 4) by unfold degToRad; ring, quarter, right]; ring
  have hr : radial asibot (Joints.inRadians ⟨90, 45, 90, -45, 90⟩) = 0.3 + 0.4 * √2 := by
    simp only [radial, Joints.inRadians, asibot]
    rw [e3, e2, sin_pi_sub, quarter, sin_pi_div_four, sin_pi_div_two]
    ring
  have hh : height asibot (Joints.inRadians ⟨90, 45, 90, -45, 90⟩) = 0 := by
    simp only [height, Joints.inRadians, asibot]
    rw [e3, e2, cos_pi_sub, quarter, cos_pi_div_four, cos_pi_div_two]
    ring
  rw [fwdKin_no_tool svd rfl rfl]
  have hm : codedRot asibot ⟨90, 45, 90, -45, 90⟩ = ⟨-1, 0, 0, 0, 0, 1, 0, 1, 0⟩ := by
    rw [codedRot_ahead (by rw [hr]; positivity), arm_M]
    simp only [Joints.inRadians]
    rw [e3, right]
    ext <;> simp [Mat3.eulerZYZ, Mat3.rotZ, Mat3.rotY]
  rw [hm, asibot_turn, arm_p, hr, hh]
  simp [sixOf, Joints.inRadians, right, asibot]

/-- Its pose, as decoded in the test. -/
example : decodePose .cartesian .eulerYZ .degrees ⟨[0, 0.3 + 0.4 * √2, 0.3, 0, π / √2, π / √2], [], false⟩ =
    some (true, ⟨[0, 0.3 + 0.4 * √2, 0.3, 0, π / √2, π / √2], [0, 0.3 + 0.4 * √2, 0.3, 90, 90], false⟩) := by
  have h := demoPose_euler
  rw [standard_eq, ← Mat3.rot_norm (Or.inr demoPose_size)] at h
  have h' : Mat3.getEulerZYZ (Mat3.rot ⟨0, π / √2, π / √2⟩ (Vec3.norm ⟨0, π / √2, π / √2⟩)) = (π / 2, π / 2, π / 2) := h
  rw [decoded h']
  rw [show radToDeg (π / 2) = 90 by unfold radToDeg; field_simp; norm_num]

/-- `0.3 + 0.4 √2` is the number of the test up to its tolerance. -/
example : |(0.3 + 0.4 * √2) - 0.865685425| < (1e-6 : ℝ) := by
  have h1 : (1.4142135 : ℝ) < √2 := lt_sqrt_of_sq_lt (by norm_num)
  have h2 : √2 < (1.4142136 : ℝ) := by rw [sqrt_lt' (by norm_num)]; norm_num
  rw [abs_lt]
  constructor <;> norm_num <;> linarith

/-! ## Inverse kinematics -/

/-- The pose of `AsibotSolverInvKin1`: `0.494974746` is `0.35 √2`. -/
noncomputable def asked : List ℝ := [0.35 * √2, 0, 0.7 + 0.35 * √2, 0, π / 4, 0]

theorem asked_rot : rotOf asked = (π / 4) • (⟨0, 1, 0⟩ : Vec3) := by
  simp only [rotOf, asked]
  ext <;> simp

theorem asked_size : eps ≤ (rotOf asked).norm := by
  have := two_le_pi
  rw [asked_rot, Vec3.norm_smul, Vec3.norm, show Vec3.dot ⟨0, 1, 0⟩ ⟨0, 1, 0⟩ = 1 by simp [Vec3.dot], sqrt_one,
    abs_of_nonneg (by positivity), mul_one]
  norm_num [eps]; linarith

theorem asked_standard : standard asked = ⟨⟨√2 / 2, 0, √2 / 2, 0, 1, 0, -(√2 / 2), 0, √2 / 2⟩,
    ⟨0.35 * √2, 0, 0.7 + 0.35 * √2⟩⟩ := by
  rw [standard_eq, asked_rot, Mat3.expRot_smul (by simp [Vec3.dot]) (by positivity)]
  refine Frame.ext ?_ ?_
  · simp only [Mat3.rot2, cos_pi_div_four, sin_pi_div_four]
    ext <;> simp
  · ext <;> simp [asked]

theorem asked_euler : (standard asked).M.getEulerZYZ = (0, π / 4, 0) := by
  have h1 := sqrt_two_lt
  rw [asked_standard]
  have hp : (0 : ℝ) < √2 / 2 := by positivity
  simp only [Mat3.getEulerZYZ, neg_neg]
  rw [if_neg (by rw [abs_of_pos hp]; norm_num [Mat3.singEps] at *; linarith), atan2_ahead hp]
  rw [← cos_pi_div_four, arccos_cos (by positivity) (by linarith [pi_pos])]

/-- A turn of 45 degrees about y. -/
theorem getRot_y : Mat3.getRot (Mat3.rot2 ⟨0, 1, 0⟩ (π / 4)) = ⟨0, π / 4, 0⟩ := by
  have h1 := sqrt_two_gt
  have h2 := sqrt_two_lt
  norm_num at h1 h2
  have hp : (0 : ℝ) < √2 := by positivity
  have hs : √2 / 2 + √2 / 2 = √2 := by ring
  have hn : Vec3.norm ⟨0, √2, 0⟩ = √2 := by simp [Vec3.norm, Vec3.dot]
  have hc : (√2 / 2 + 1 + √2 / 2 - 1) / 2 = √2 / 2 := by ring
  have e : Mat3.rot2 ⟨0, 1, 0⟩ (π / 4) = ⟨√2 / 2, 0, √2 / 2, 0, 1, 0, -(√2 / 2), 0, √2 / 2⟩ := by
    simp [Mat3.rot2, cos_pi_div_four, sin_pi_div_four]
  have h : Mat3.getRotAngle ⟨√2 / 2, 0, √2 / 2, 0, 1, 0, -(√2 / 2), 0, √2 / 2⟩ = (⟨0, 1, 0⟩, π / 4) := by
    simp only [Mat3.getRotAngle]
    rw [if_neg (by norm_num [eps]; linarith), if_neg (by norm_num [eps]; linarith)]
    simp only [sub_zero, sub_neg_eq_add, hs, hn, hc]
    rw [atan2_quarter (by positivity)]
    simp [hp.ne']
  rw [e, Mat3.getRot, h]
  ext <;> simp

/-- The encoded request of the test is that pose. -/
example : encodePose .cartesian .eulerYZ .degrees ⟨[0.35 * √2, 0, 0.7 + 0.35 * √2, 45, 0], [], false⟩ =
    some (true, ⟨[0.35 * √2, 0, 0.7 + 0.35 * √2, 45, 0], asked, false⟩) := by
  have h1 : atan2 0 (0.35 * √2) = 0 := atan2_ahead (by positivity)
  have h2 : Mat3.eulerZYZ 0 (π / 4) 0 = Mat3.rot2 ⟨0, 1, 0⟩ (π / 4) := by
    ext <;> simp [Mat3.eulerZYZ, Mat3.rotZ, Mat3.rotY, Mat3.rot2]
  have h3 : Mat3.getRot (Mat3.rot2 ⟨0, 1, 0⟩ (π / 4)) = ⟨0, π / 4, 0⟩ := getRot_y
  simp [encodePose, encodeOrient, encodeCoord, copyPos, wrRot, checkVectorSize, coordSize, orientSize, grow,
    resize, resizeList, rd, wr, Mem.input, bind, Act.andThen, pure, inRad, quarter, rad_zero, h1, h2, h3, asked]

theorem asibot_plane : planeAngles 0.4 0.4 (0.2 * √2) (0.4 + 0.2 * √2) = some ⟨0, π / 4, π / 4⟩ := by
  have h2 : √2 * √2 = (2 : ℝ) := mul_self_sqrt (by norm_num)
  have hp : (0 : ℝ) < √2 := by positivity
  have hl : (0.4 + 0.2 * √2) * (0.4 + 0.2 * √2) + 0.2 * √2 * (0.2 * √2) = 0.16 * (2 + √2) := by
    linear_combination 0.08 * h2
  have hc : (0.16 * (2 + √2) - 0.4 * 0.4 - 0.4 * 0.4) / (2 * 0.4 * 0.4) = √2 / 2 := by
    field_simp; ring
  have hs : √(1 - √2 / 2 * (√2 / 2)) = √2 / 2 := by
    rw [show 1 - √2 / 2 * (√2 / 2) = √2 / 2 * (√2 / 2) by linear_combination (-1 / 2 : ℝ) * h2]
    exact sqrt_mul_self (by positivity)
  unfold planeAngles
  simp only [hl, hc, hs]
  have h0 : (0 : ℝ) < 0.16 * (2 + √2) := by positivity
  rw [if_neg (by
    rintro (h | h | h)
    · norm_num at h
    · nlinarith
    · linarith)]
  have e1 : ((0.4 + 0.4 * (√2 / 2)) * (0.2 * √2) - 0.4 * (√2 / 2) * (0.4 + 0.2 * √2)) / (0.16 * (2 + √2)) = 0 := by
    rw [div_eq_zero_iff]; left; ring
  have e2 : ((0.4 + 0.4 * (√2 / 2)) * (0.4 + 0.2 * √2) + 0.4 * (√2 / 2) * (0.2 * √2)) / (0.16 * (2 + √2)) = 1 := by
    rw [div_eq_one_iff_eq h0.ne']; linear_combination 0.08 * h2
  have e3 : ((0.4 + 0.4 * (√2 / 2)) * (0.2 * √2) + 0.4 * (√2 / 2) * (0.4 + 0.2 * √2)) / (0.16 * (2 + √2)) = √2 / 2 := by
    rw [div_eq_iff h0.ne']; ring
  have e4 : ((0.4 + 0.4 * (√2 / 2)) * (0.4 + 0.2 * √2) - 0.4 * (√2 / 2) * (0.2 * √2)) / (0.16 * (2 + √2)) = √2 / 2 := by
    rw [div_eq_iff h0.ne']; linear_combination (-0.08) * h2
  rw [e1, e2, e3, e4, atan2_ahead one_pos, atan2_quarter (by positivity)]

theorem asibot_configure : configure asibot 0 0 45 45 0 45 0 = some
    [⟨⟨0, 0, 45, 0, 0⟩, .forward, .up, true⟩, ⟨⟨0, 45, -45, 45, 0⟩, .forward, .down, true⟩,
     ⟨⟨180, 0, -45, 0, 180⟩, .reversed, .up, true⟩, ⟨⟨180, -45, 45, -45, 180⟩, .reversed, .down, true⟩] := by
  norm_num [configure, storeAngles, Asibot.normalizeAngle, degEps, jointsInLimits, inLimits, asibot]

/-- `AsibotSolverInvKin1`. -/
example (svd : Mat3 → Vec3) : invKin svd asibot asked [0, 0, 90, 0, 0] .base = some (some [0, 0, 45, 0, 0]) := by
  have h : invKin svd asibot asked [0, 0, 90, 0, 0] .base = solve asibot asked ⟨0, 0, 90, 0, 0⟩ := rfl
  have h2 : √2 * √2 = (2 : ℝ) := mul_self_sqrt (by norm_num)
  have hq := sqrt_two_lt
  rw [h, solve_eq _ (by simp [asked]) (Or.inr asked_size), asked_euler, asked_standard]
  unfold solveDecoded
  have e1 : √(0.35 * √2 * (0.35 * √2) + 0 * 0 : ℝ) = 0.35 * √2 := by
    rw [mul_zero, add_zero]; exact sqrt_mul_self (by positivity)
  simp only [e1, cos_pi_div_four, sin_pi_div_four]
  have a : 0.35 * √2 - asibot.A3 * (√2 / 2) = 0.2 * √2 := by simp only [asibot]; ring
  have b : 0.7 + 0.35 * √2 - asibot.A0 - asibot.A3 * (√2 / 2) = 0.4 + 0.2 * √2 := by simp only [asibot]; ring
  rw [a, b, if_neg, if_neg, show asibot.A1 = 0.4 from rfl, show asibot.A2 = 0.4 from rfl, asibot_plane]
  · simp only [Option.bind_some]
    rw [atan2_ahead (by positivity), deg_zero, quarter_deg, show π / 4 - 0 - π / 4 = 0 by ring,
      show π / 4 - π / 4 + π / 4 = π / 4 by ring, deg_zero, quarter_deg, asibot_configure]
    norm_num [findOptimal, fillMap, insertMap, total, diffs, Joints.toList]
  · simp only [asibot]
    rw [gt_iff_lt, not_lt]
    apply sqrt_le_iff.mpr
    constructor
    · norm_num
    · nlinarith
  · simp only [asibot]
    rw [gt_iff_lt, not_lt]
    apply sqrt_le_iff.mpr
    constructor
    · norm_num
    · nlinarith

end KD.Conformance
