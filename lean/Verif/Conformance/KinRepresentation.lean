import Verif.Repr.KinRepresentation
import Verif.Screw.Angles

/-!
# The assertions of /repo/tests/testKinRepresentation.cpp, on the model

Each test calls a conversion with an empty output vector.
-/

namespace KD.Conformance

open Real KinRepr Angles

theorem quarter : degToRad 45 = π / 4 := by unfold degToRad; ring

theorem quarter_deg : radToDeg (π / 4) = 45 := by
  unfold radToDeg
  field_simp
  norm_num

theorem right : degToRad 90 = π / 2 := by unfold degToRad; ring

theorem rad_zero : degToRad 0 = 0 := by simp [degToRad]

theorem deg_zero : radToDeg 0 = 0 := by simp [radToDeg]

theorem atan2_quarter {r : ℝ} (h : 0 < r) : atan2 r r = π / 4 := by
  have := atan2_polar (ρ := √2 * r) (θ := π / 4) (by positivity) (by linarith [pi_pos]) (by linarith [pi_pos])
  have h2 : √2 * √2 = (2 : ℝ) := mul_self_sqrt (by norm_num)
  rw [sin_pi_div_four, cos_pi_div_four, show √2 * r * (√2 / 2) = r by linear_combination r / 2 * h2] at this
  exact this

/-- A turn of 45 degrees about z. -/
theorem getRot_z : Mat3.getRot ⟨√2 / 2, -(√2 / 2), 0, √2 / 2, √2 / 2, 0, 0, 0, 1⟩ = ⟨0, 0, π / 4⟩ := by
  have h1 := sqrt_two_gt
  have h2 := sqrt_two_lt
  norm_num at h1 h2
  have hp : (0 : ℝ) < √2 := by positivity
  have hs : √2 / 2 + √2 / 2 = √2 := by ring
  have hn : Vec3.norm ⟨0, 0, √2⟩ = √2 := by simp [Vec3.norm, Vec3.dot]
  have h : Mat3.getRotAngle ⟨√2 / 2, -(√2 / 2), 0, √2 / 2, √2 / 2, 0, 0, 0, 1⟩ = (⟨0, 0, 1⟩, π / 4) := by
    simp only [Mat3.getRotAngle]
    rw [if_neg (by norm_num [eps]; linarith), if_neg (by norm_num [eps]; linarith)]
    simp only [sub_zero, sub_neg_eq_add, hs, hn, add_sub_cancel_right]
    rw [atan2_quarter (by positivity)]
    simp [hp.ne']
  rw [Mat3.getRot, h]
  ext <;> simp

/-- A turn of -45 degrees about x. -/
theorem getRot_x : Mat3.getRot ⟨1, 0, 0, 0, √2 / 2, √2 / 2, 0, -(√2 / 2), √2 / 2⟩ = ⟨-(π / 4), 0, 0⟩ := by
  have h1 := sqrt_two_gt
  have h2 := sqrt_two_lt
  norm_num at h1 h2
  have hp : (0 : ℝ) < √2 := by positivity
  have hs : -(√2 / 2) - √2 / 2 = -√2 := by ring
  have hn : Vec3.norm ⟨-√2, 0, 0⟩ = √2 := by simp [Vec3.norm, Vec3.dot]
  have hc : (1 + √2 / 2 + √2 / 2 - 1) / 2 = √2 / 2 := by ring
  have h : Mat3.getRotAngle ⟨1, 0, 0, 0, √2 / 2, √2 / 2, 0, -(√2 / 2), √2 / 2⟩ = (⟨-1, 0, 0⟩, π / 4) := by
    simp only [Mat3.getRotAngle]
    rw [if_neg (by norm_num [eps]; linarith), if_neg (by norm_num [eps]; linarith)]
    simp only [sub_zero, hs, hn, hc]
    rw [atan2_quarter (by positivity)]
    simp [hp.ne']
  rw [Mat3.getRot, h]
  ext <;> simp

/-- A turn of 45 degrees about z as the conversions make it. -/
theorem turn_z : Mat3.rotZ (π / 4) = ⟨√2 / 2, -(√2 / 2), 0, √2 / 2, √2 / 2, 0, 0, 0, 1⟩ := by
  simp [Mat3.rotZ, cos_pi_div_four, sin_pi_div_four]

theorem unit_z : (⟨0, 0, 1⟩ : Vec3).normalize = ⟨0, 0, 1⟩ := Vec3.normalize_of_unit (by simp [Vec3.dot])

theorem rot_z : Mat3.rot2 ⟨0, 0, 1⟩ (π / 4) = ⟨√2 / 2, -(√2 / 2), 0, √2 / 2, √2 / 2, 0, 0, 0, 1⟩ := by
  simp [Mat3.rot2, cos_pi_div_four, sin_pi_div_four]

theorem rot_x : Mat3.rot2 ⟨-1, 0, 0⟩ (π / 4) = ⟨1, 0, 0, 0, √2 / 2, √2 / 2, 0, -(√2 / 2), √2 / 2⟩ := by
  simp [Mat3.rot2, cos_pi_div_four, sin_pi_div_four]

theorem norm_z : Vec3.norm ⟨0, 0, π / 4⟩ = π / 4 := by
  simp only [Vec3.norm, Vec3.dot, mul_zero, zero_add]
  exact sqrt_mul_self (by positivity)

theorem normalize_z : Vec3.normalize ⟨0, 0, π / 4⟩ = ⟨0, 0, 1⟩ := by
  have h := two_le_pi
  rw [Vec3.normalize, norm_z, if_neg (by norm_num [eps]; linarith)]
  ext <;> simp [pi_ne_zero]

theorem rpy_z : Mat3.rpy 0 0 (π / 4) = ⟨√2 / 2, -(√2 / 2), 0, √2 / 2, √2 / 2, 0, 0, 0, 1⟩ := by
  rw [Mat3.rpy, turn_z]
  ext <;> simp [Mat3.rotX, Mat3.rotY]

theorem zyz_z : Mat3.eulerZYZ (π / 4) 0 0 = ⟨√2 / 2, -(√2 / 2), 0, √2 / 2, √2 / 2, 0, 0, 0, 1⟩ := by
  rw [Mat3.eulerZYZ, turn_z]
  ext <;> simp [Mat3.rotZ, Mat3.rotY]

theorem one_one : atan2 1 1 = π / 4 := atan2_quarter one_pos

theorem getRPY_z : Mat3.getRPY ⟨√2 / 2, -(√2 / 2), 0, √2 / 2, √2 / 2, 0, 0, 0, 1⟩ = (0, 0, π / 4) := by
  have h2 : √2 / 2 * (√2 / 2) + √2 / 2 * (√2 / 2) = (1 : ℝ) := by
    linear_combination (1 / 2 : ℝ) * (mul_self_sqrt (by norm_num : (0 : ℝ) ≤ 2))
  have h := two_le_pi
  simp only [Mat3.getRPY, neg_zero, h2, sqrt_one, atan2_ahead one_pos, abs_zero]
  rw [if_neg (by norm_num [Mat3.singEps]; linarith), atan2_quarter (by positivity)]

theorem getZYZ_z : Mat3.getEulerZYZ ⟨√2 / 2, -(√2 / 2), 0, √2 / 2, √2 / 2, 0, 0, 0, 1⟩ = (π / 4, 0, 0) := by
  simp only [Mat3.getEulerZYZ, abs_one]
  rw [if_pos (by norm_num [Mat3.singEps]), if_pos (by norm_num), atan2_quarter (by positivity)]

/-- Runs a conversion. -/
local macro "convert_pose" : tactic => `(tactic|
  simp [encodePose, decodePose, encodeOrient, decodeOrient, encodeCoord, decodeCoord, copyPos, wrRot, checkVectorSize,
    coordSize, orientSize, offset, grow, resize, resizeList, rd, wr, Mem.input, bind, Act.andThen, pure, inRad, outRad,
    quarter, quarter_deg, right, rad_zero, deg_zero, Mat3.rot, unit_z, rot_z, rot_x, getRot_z, getRot_x, norm_z,
    normalize_z, rpy_z, zyz_z, one_one, getRPY_z, getZYZ_z])

/-- `KinRepresentationEncodePoseAxisAngle`. -/
example : encodePose .cartesian .axisAngle .degrees ⟨[1, 1, 2, 0, 0, 1, 45], [], false⟩ =
    some (true, ⟨[1, 1, 2, 0, 0, 1, 45], [1, 1, 2, 0, 0, π / 4], false⟩) := by convert_pose

/-- `KinRepresentationEncodePoseAxisAngleScaled`. -/
example : encodePose .cartesian .axisAngleScaled .degrees ⟨[1, 1, 2, 0, 0, 45], [], false⟩ =
    some (true, ⟨[1, 1, 2, 0, 0, 45], [1, 1, 2, 0, 0, π / 4], false⟩) := by convert_pose

/-- `KinRepresentationEncodePoseRPY`. -/
example : encodePose .cartesian .rpy .degrees ⟨[1, 1, 2, 0, 0, 45], [], false⟩ =
    some (true, ⟨[1, 1, 2, 0, 0, 45], [1, 1, 2, 0, 0, π / 4], false⟩) := by convert_pose

/-- `KinRepresentationEncodePoseEulerYZ`. -/
example : encodePose .cartesian .eulerYZ .degrees ⟨[1, 1, 2, 0, 0], [], false⟩ =
    some (true, ⟨[1, 1, 2, 0, 0], [1, 1, 2, 0, 0, π / 4], false⟩) := by convert_pose

/-- `KinRepresentationEncodePoseEulerZYZ`. -/
example : encodePose .cartesian .eulerZYZ .degrees ⟨[1, 1, 2, 45, 0, 0], [], false⟩ =
    some (true, ⟨[1, 1, 2, 45, 0, 0], [1, 1, 2, 0, 0, π / 4], false⟩) := by convert_pose

/-- `KinRepresentationEncodePosePolarAzimuth`. -/
example : encodePose .cartesian .polarAzimuth .degrees ⟨[1, 1, 2, 45, 90], [], false⟩ =
    some (true, ⟨[1, 1, 2, 45, 90], [1, 1, 2, -(π / 4), 0, 0], false⟩) := by convert_pose

/-- `KinRepresentationEncodePoseRadians`. -/
example : encodePose .cartesian .axisAngleScaled .radians ⟨[1, 1, 2, 0, 0, π / 4], [], false⟩ =
    some (true, ⟨[1, 1, 2, 0, 0, π / 4], [1, 1, 2, 0, 0, π / 4], false⟩) := by convert_pose

/-- `KinRepresentationDecodePoseAxisAngle`. -/
example : decodePose .cartesian .axisAngle .degrees ⟨[1, 1, 2, 0, 0, π / 4], [], false⟩ =
    some (true, ⟨[1, 1, 2, 0, 0, π / 4], [1, 1, 2, 0, 0, 1, 45], false⟩) := by convert_pose

/-- `KinRepresentationDecodePoseAxisAngleScaled`. -/
example : decodePose .cartesian .axisAngleScaled .degrees ⟨[1, 1, 2, 0, 0, π / 4], [], false⟩ =
    some (true, ⟨[1, 1, 2, 0, 0, π / 4], [1, 1, 2, 0, 0, 45], false⟩) := by convert_pose

/-- `KinRepresentationDecodePoseRPY`. -/
example : decodePose .cartesian .rpy .degrees ⟨[1, 1, 2, 0, 0, π / 4], [], false⟩ =
    some (true, ⟨[1, 1, 2, 0, 0, π / 4], [1, 1, 2, 0, 0, 45], false⟩) := by convert_pose

/-- `KinRepresentationDecodePoseEulerYZ`. -/
example : decodePose .cartesian .eulerYZ .degrees ⟨[1, 1, 2, 0, 0, π / 4], [], false⟩ =
    some (true, ⟨[1, 1, 2, 0, 0, π / 4], [1, 1, 2, 0, 0], false⟩) := by convert_pose

/-- `KinRepresentationDecodePoseEulerZYZ`. -/
example : decodePose .cartesian .eulerZYZ .degrees ⟨[1, 1, 2, 0, 0, π / 4], [], false⟩ =
    some (true, ⟨[1, 1, 2, 0, 0, π / 4], [1, 1, 2, 45, 0, 0], false⟩) := by convert_pose

theorem norm_diagonal : Vec3.norm ⟨√2 / 2 * π / 4, √2 / 2 * π / 4, 0⟩ = π / 4 := by
  rw [Vec3.norm, Vec3.dot]
  have : √2 / 2 * π / 4 * (√2 / 2 * π / 4) + √2 / 2 * π / 4 * (√2 / 2 * π / 4) + 0 * 0 = (π / 4) ^ 2 := by
    linear_combination π ^ 2 / 32 * (mul_self_sqrt (by norm_num : (0 : ℝ) ≤ 2))
  rw [this, sqrt_sq (by positivity)]

theorem down_right {r : ℝ} (h : 0 < r) : atan2 (-r) r = -(π / 4) := by
  have := atan2_polar (ρ := √2 * r) (θ := -(π / 4)) (by positivity) (by linarith [pi_pos]) (by linarith [pi_pos])
  have h2 : √2 * √2 = (2 : ℝ) := mul_self_sqrt (by norm_num)
  rw [sin_neg, cos_neg, sin_pi_div_four, cos_pi_div_four, show √2 * r * -(√2 / 2) = -r by linear_combination -r / 2 * h2,
    show √2 * r * (√2 / 2) = r by linear_combination r / 2 * h2] at this
  exact this

theorem minus_deg : radToDeg (-(π / 4)) = -45 := by
  have := quarter_deg
  unfold radToDeg at this ⊢
  linarith

/-- `KinRepresentationDecodePosePolarAzimuth`. -/
example : decodePose .cartesian .polarAzimuth .degrees ⟨[1, 1, 2, √2 / 2 * π / 4, √2 / 2 * π / 4, 0], [], false⟩ =
    some (true, ⟨[1, 1, 2, √2 / 2 * π / 4, √2 / 2 * π / 4, 0], [1, 1, 2, 45, -45], false⟩) := by
  have hp : 0 < √2 / 2 * π / 4 := by positivity
  have := down_right hp
  have he : ¬ eps < 0 := by norm_num [eps]
  generalize hr : √2 / 2 * π / 4 = r at *
  have hn := norm_diagonal
  rw [hr] at hn
  simp [decodePose, decodeOrient, decodeCoord, copyPos, checkVectorSize, he,
    coordSize, orientSize, offset, grow, resize, resizeList, rd, wr, Mem.input, bind, Act.andThen, pure, outRad,
    quarter_deg, minus_deg, hn, this]

/-- `KinRepresentationDecodePoseRadians`. -/
example : decodePose .cartesian .axisAngleScaled .radians ⟨[1, 1, 2, 0, 0, π / 4], [], false⟩ =
    some (true, ⟨[1, 1, 2, 0, 0, π / 4], [1, 1, 2, 0, 0, π / 4], false⟩) := by convert_pose

end KD.Conformance
