import Verif.Repr.Converters
import Verif.Props.ReprUnits

/-!
# C31, C32: vector converters and homogeneous matrices
-/

namespace KD

open Real

/-! ## C31 -/

open KdlVectorConverter

/-- C31: twists and wrenches survive the way to a vector and back. -/
theorem C31_twist_wrench_round_trip (t : Twist) (w : Wrench) :
    vectorToTwist (twistToVector t) = t ∧ vectorToWrench (wrenchToVector w) = w := ⟨rfl, rfl⟩

/-- C31: vectors of six elements survive the opposite way. -/
theorem C31_vector_round_trip (x : List ℝ) (h : x.length = 6) :
    twistToVector (vectorToTwist x) = x ∧ wrenchToVector (vectorToWrench x) = x := by
  match x, h with
  | [_, _, _, _, _, _], _ => exact ⟨rfl, rfl⟩

/-- C31: vectors of any other size give the identity, the null twist and the null wrench. -/
theorem C31_wrong_size (x : List ℝ) (h : x.length ≠ 6) :
    vectorToFrame x = 1 ∧ vectorToTwist x = ⟨0, 0⟩ ∧ vectorToWrench x = ⟨0, 0⟩ := by
  match x, h with
  | [], _ => exact ⟨rfl, rfl, rfl⟩
  | [_], _ => exact ⟨rfl, rfl, rfl⟩
  | [_, _], _ => exact ⟨rfl, rfl, rfl⟩
  | [_, _, _], _ => exact ⟨rfl, rfl, rfl⟩
  | [_, _, _, _], _ => exact ⟨rfl, rfl, rfl⟩
  | [_, _, _, _, _], _ => exact ⟨rfl, rfl, rfl⟩
  | [_, _, _, _, _, _], h => exact absurd rfl h
  | _ :: _ :: _ :: _ :: _ :: _ :: _ :: _, _ => exact ⟨rfl, rfl, rfl⟩

/-- C31: a rigid frame survives the way to a vector and back. Partial: rotations whose angle is within
`1e-6` of zero or a half turn, but not exactly so, are left out; see the next theorem for the first
band. -/
theorem C31_frame_round_trip_partial {f : Frame} (hf : f.IsRigid) (hr : f.M.Regular) :
    vectorToFrame (frameToVector f) = f := by
  have h1 := Mat3.IsRot.expRot_getRot hf hr
  have h2 := Mat3.rot_norm (Mat3.IsRot.getRot_cases hf hr)
  show (⟨Mat3.rot f.M.getRot f.M.getRot.norm, f.p⟩ : Frame) = f
  rw [h2, h1]

/-- C31 within the band around no rotation: the rotation is dropped, the position survives, and the
rotation matrices differ by at most `√2 * 1e-6` in Frobenius norm. -/
theorem C31_frame_small_rotation {f : Frame} (hf : f.IsRigid) (hr : 1 - eps * eps / 2 < f.M.cosAngle) :
    vectorToFrame (frameToVector f) = ⟨1, f.p⟩ ∧
    (f.M.xx - 1) ^ 2 + f.M.xy ^ 2 + f.M.xz ^ 2 + f.M.yx ^ 2 + (f.M.yy - 1) ^ 2 + f.M.yz ^ 2 +
      f.M.zx ^ 2 + f.M.zy ^ 2 + (f.M.zz - 1) ^ 2 ≤ 2 * eps ^ 2 := by
  constructor
  · have h0 : f.M.getRot = 0 := by
      have : f.M.getRotAngle.2 = 0 := by
        unfold Mat3.getRotAngle
        simp only
        rw [if_pos (by simpa [Mat3.cosAngle] using hr)]
      rw [Mat3.getRot, this, zero_smul]
    show (⟨Mat3.rot f.M.getRot f.M.getRot.norm, f.p⟩ : Frame) = _
    rw [h0, Mat3.rot_norm (Or.inl rfl), Mat3.expRot_zero]
  · have r1 := congrArg Mat3.xx hf.right
    have r2 := congrArg Mat3.yy hf.right
    have r3 := congrArg Mat3.zz hf.right
    simp at r1 r2 r3
    rw [Mat3.cosAngle] at hr
    nlinarith

/-- C31: pose vectors survive the opposite way if the rotation vector is null, or its length is between
`1e-6` and `π - 1e-6` as measured by the cosine. -/
theorem C31_pose_vector_round_trip_partial (x y z : ℝ) (v : Vec3)
    (hv : v = 0 ∨ (v.norm < π ∧ eps ≤ v.norm ∧ cos v.norm ≤ 1 - eps * eps / 2 ∧
      -1 + eps * eps / 2 ≤ cos v.norm)) :
    frameToVector (vectorToFrame [x, y, z, v.x, v.y, v.z]) = [x, y, z, v.x, v.y, v.z] := by
  have key : (Mat3.rot v v.norm).getRot = v := by
    rcases hv with rfl | ⟨h1, h2, h3⟩
    · rw [Mat3.rot_norm (Or.inl rfl), Mat3.expRot_zero, getRot_one]
    · rw [Mat3.rot_norm (Or.inr h2)]
      have h0 : v.norm ≠ 0 := by
        intro h0; rw [h0] at h2; norm_num [eps] at h2
      have hpos : 0 < v.norm := lt_of_le_of_ne (Vec3.norm_nonneg v) h0.symm
      have hR := Mat3.expRot_isRot v
      have hreg : (Mat3.expRot v).Regular := by
        left; rw [Mat3.expRot_cosAngle]; exact h3
      obtain ⟨g1, g2, g3, g4, -⟩ := hR.getRotAngle_spec hreg
      obtain ⟨k1, k2⟩ := axis_angle_unique g1 (Mat3.dir_unit h0) g2 g3 hpos h1 g4
      rw [Mat3.getRot, k1, k2, smul_smul, mul_one_div_cancel h0, one_smul]
  show [x, y, z, (Mat3.rot v v.norm).getRot.x, (Mat3.rot v v.norm).getRot.y, (Mat3.rot v v.norm).getRot.z] = _
  rw [key]

/-- A frame turned by a quarter, and one turned by a half, meet the hypotheses. -/
example : (⟨Mat3.rotZ (π / 2), ⟨1, 2, 3⟩⟩ : Frame).IsRigid ∧ (Mat3.rotZ (π / 2)).Regular ∧
    (⟨Mat3.rotZ π, ⟨1, 2, 3⟩⟩ : Frame).IsRigid ∧ (Mat3.rotZ π).Regular := by
  refine ⟨Mat3.rotZ_isRot _, Or.inl ?_, Mat3.rotZ_isRot _, Or.inr (Or.inr ?_)⟩
  · norm_num [Mat3.cosAngle, Mat3.rotZ, eps]
  · norm_num [Mat3.cosAngle, Mat3.rotZ]

/-! ## C32 -/

open TinyMath

/-- The matrix is a rigid transform: rotation, position and the constant last row. -/
def IsHomogeneous (h : Mat4) (x : Vec3) : Prop :=
  h.M.IsRot ∧ h.p = x ∧ h.r0 = 0 ∧ h.r1 = 0 ∧ h.r2 = 0 ∧ h.r3 = 1

theorem tinyX (d : ℝ) : TinyMath.rotX d = Mat3.rotX (toRad d) := rfl
theorem tinyY (d : ℝ) : TinyMath.rotY d = Mat3.rotY (toRad d) := rfl
theorem tinyZ (d : ℝ) : TinyMath.rotZ d = Mat3.rotZ (toRad d) := rfl

/-- C32: the elementary rotations are rotations for every angle. -/
theorem C32_elementary_rotations (d : ℝ) :
    (TinyMath.rotX d).IsRot ∧ (TinyMath.rotY d).IsRot ∧ (TinyMath.rotZ d).IsRot :=
  ⟨Mat3.rotX_isRot _, Mat3.rotY_isRot _, Mat3.rotZ_isRot _⟩

/-- C32: angles about a common axis add up. -/
theorem C32_angles_add (a b : ℝ) :
    TinyMath.rotX (a + b) = TinyMath.rotX a * TinyMath.rotX b ∧
    TinyMath.rotY (a + b) = TinyMath.rotY a * TinyMath.rotY b ∧
    TinyMath.rotZ (a + b) = TinyMath.rotZ a * TinyMath.rotZ b := by
  have h : toRad (a + b) = toRad a + toRad b := by simp [toRad]; ring
  refine ⟨?_, ?_, ?_⟩
  · ext <;> simp [TinyMath.rotX, h, cos_add, sin_add] <;> ring
  · ext <;> simp [TinyMath.rotY, h, cos_add, sin_add] <;> ring
  · ext <;> simp [TinyMath.rotZ, h, cos_add, sin_add] <;> ring

/-- C32: Euler angles give rigid transforms at the requested position. -/
theorem C32_euler_homogeneous (x : Vec3) (a b g : ℝ) :
    IsHomogeneous (eulerZYZtoH x a b g) x ∧ IsHomogeneous (eulerYZtoH x b g) x :=
  ⟨⟨Mat3.eulerZYZ_isRot (toRad a) (toRad b) (toRad g), rfl, rfl, rfl, rfl, rfl⟩,
    ⟨Mat3.eulerZYZ_isRot _ (toRad b) (toRad g), rfl, rfl, rfl, rfl, rfl⟩⟩

theorem axisAngleToH_M (x o : Vec3) (θ : ℝ) : (axisAngleToH x o θ).M = Mat3.rot2 o θ := by
  ext <;> simp [axisAngleToH, xUpdateH, Mat3.rot2] <;> ring

/-- C32: a unit axis and an angle give a rigid transform at the requested position. -/
theorem C32_axis_angle_homogeneous (x : Vec3) {o : Vec3} (ho : Vec3.dot o o = 1) (θ : ℝ) :
    IsHomogeneous (axisAngleToH x o θ) x :=
  ⟨axisAngleToH_M x o θ ▸ Mat3.rot2_isRot ho θ, rfl, rfl, rfl, rfl, rfl⟩

/-- C32: the elementary rotations are the rotations about the coordinate axes. -/
theorem C32_elementary_agree (x : Vec3) (d : ℝ) :
    (axisAngleToH x ⟨1, 0, 0⟩ (toRad d)).M = TinyMath.rotX d ∧
    (axisAngleToH x ⟨0, 1, 0⟩ (toRad d)).M = TinyMath.rotY d ∧
    (axisAngleToH x ⟨0, 0, 1⟩ (toRad d)).M = TinyMath.rotZ d := by
  refine ⟨?_, ?_, ?_⟩ <;> ext <;> simp [axisAngleToH, xUpdateH, TinyMath.rotX, TinyMath.rotY, TinyMath.rotZ]

/-- C32: Euler angles are three rotations about coordinate axes, one after another; with two of them
only, the first turns the x axis towards the position. -/
theorem C32_euler_agree (x : Vec3) (a b g : ℝ) :
    (eulerZYZtoH x a b g).M = (axisAngleToH 0 ⟨0, 0, 1⟩ (toRad a)).M *
      (axisAngleToH 0 ⟨0, 1, 0⟩ (toRad b)).M * (axisAngleToH 0 ⟨0, 0, 1⟩ (toRad g)).M ∧
    (eulerYZtoH x b g).M = (axisAngleToH 0 ⟨0, 0, 1⟩ (atan2 x.y x.x)).M *
      (axisAngleToH 0 ⟨0, 1, 0⟩ (toRad b)).M * (axisAngleToH 0 ⟨0, 0, 1⟩ (toRad g)).M := by
  have h : toRad (toDeg (atan2 x.y x.x)) = atan2 x.y x.x := by
    simp only [toRad, toDeg]; field_simp
  have ha : (axisAngleToH 0 ⟨0, 0, 1⟩ (atan2 x.y x.x)).M = TinyMath.rotZ (toDeg (atan2 x.y x.x)) := by
    rw [← (C32_elementary_agree 0 (toDeg (atan2 x.y x.x))).2.2, h]
  rw [ha, (C32_elementary_agree 0 a).2.2, (C32_elementary_agree 0 b).2.1, (C32_elementary_agree 0 g).2.2]
  exact ⟨rfl, rfl⟩

/-- C32 needs the unit axis: with an axis of length two the result is no rotation. -/
theorem C32_axis_must_be_unit : ¬ (axisAngleToH 0 ⟨2, 0, 0⟩ π).M.IsRot := by
  intro h
  have := congrArg Mat3.xx h.left
  norm_num [axisAngleToH, xUpdateH] at this

example : Vec3.dot (⟨3 / 5, 0, 4 / 5⟩ : Vec3) ⟨3 / 5, 0, 4 / 5⟩ = 1 := by norm_num [Vec3.dot]

end KD
