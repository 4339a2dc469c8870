import Verif.Kdl.Rotations

/-!
# Converters between vectors and geometry types

/repo/libraries/KdlVectorConverterLib/KdlVectorConverter.cpp and
/repo/libraries/YarpTinyMathLib/YarpTinyMath.cpp. Warnings are left out.
-/

namespace KD

/-- `KDL::Wrench`.
External: `KDL::Wrench`, used at /repo/libraries/KdlVectorConverterLib/KdlVectorConverter.cpp:100-137. -/
@[ext] structure Wrench where
  force : Vec3
  torque : Vec3

namespace KdlVectorConverter

/-- `vectorToFrame`, /repo/libraries/KdlVectorConverterLib/KdlVectorConverter.cpp:18-37. -/
noncomputable def vectorToFrame : List ℝ → Frame
  | [x, y, z, a, b, c] => ⟨Mat3.rot ⟨a, b, c⟩ (Vec3.norm ⟨a, b, c⟩), ⟨x, y, z⟩⟩
  | _ => 1

/-- `frameToVector`, /repo/libraries/KdlVectorConverterLib/KdlVectorConverter.cpp:41-56. -/
noncomputable def frameToVector (f : Frame) : List ℝ :=
  let r := f.M.getRot
  [f.p.x, f.p.y, f.p.z, r.x, r.y, r.z]

/-- `vectorToTwist`, /repo/libraries/KdlVectorConverterLib/KdlVectorConverter.cpp:60-79. -/
def vectorToTwist : List ℝ → Twist
  | [x, y, z, a, b, c] => ⟨⟨x, y, z⟩, ⟨a, b, c⟩⟩
  | _ => ⟨0, 0⟩

/-- `twistToVector`, /repo/libraries/KdlVectorConverterLib/KdlVectorConverter.cpp:83-96. -/
def twistToVector (t : Twist) : List ℝ := [t.vel.x, t.vel.y, t.vel.z, t.rot.x, t.rot.y, t.rot.z]

/-- `vectorToWrench`, /repo/libraries/KdlVectorConverterLib/KdlVectorConverter.cpp:100-119. -/
def vectorToWrench : List ℝ → Wrench
  | [x, y, z, a, b, c] => ⟨⟨x, y, z⟩, ⟨a, b, c⟩⟩
  | _ => ⟨0, 0⟩

/-- `wrenchToVector`, /repo/libraries/KdlVectorConverterLib/KdlVectorConverter.cpp:123-136. -/
def wrenchToVector (w : Wrench) : List ℝ :=
  [w.force.x, w.force.y, w.force.z, w.torque.x, w.torque.y, w.torque.z]

end KdlVectorConverter

namespace TinyMath

/-- A 4x4 `yarp::sig::Matrix`: the upper left block, the last column and the last row.
External: `yarp::sig::Matrix` of /repo/libraries/YarpTinyMathLib/YarpTinyMath.cpp. -/
@[ext] structure Mat4 where
  M : Mat3
  p : Vec3
  r0 : ℝ
  r1 : ℝ
  r2 : ℝ
  r3 : ℝ

/-- `toDeg`, /repo/libraries/YarpTinyMathLib/YarpTinyMath.cpp:9-12. -/
noncomputable def toDeg (r : ℝ) : ℝ := r * 180 / Real.pi

/-- `toRad`, /repo/libraries/YarpTinyMathLib/YarpTinyMath.cpp:16-19. -/
noncomputable def toRad (d : ℝ) : ℝ := d * Real.pi / 180

/-- `xUpdateH`, /repo/libraries/YarpTinyMathLib/YarpTinyMath.cpp:23-28. -/
def xUpdateH (x : Vec3) (h : Mat4) : Mat4 := { h with p := x }

/-- `rotX`, /repo/libraries/YarpTinyMathLib/YarpTinyMath.cpp:32-43. -/
noncomputable def rotX (d : ℝ) : Mat3 :=
  let c := Real.cos (toRad d)
  let s := Real.sin (toRad d)
  ⟨1, 0, 0, 0, c, -s, 0, s, c⟩

/-- `rotY`, /repo/libraries/YarpTinyMathLib/YarpTinyMath.cpp:47-58. -/
noncomputable def rotY (d : ℝ) : Mat3 :=
  let c := Real.cos (toRad d)
  let s := Real.sin (toRad d)
  ⟨c, 0, s, 0, 1, 0, -s, 0, c⟩

/-- `rotZ`, /repo/libraries/YarpTinyMathLib/YarpTinyMath.cpp:62-73. -/
noncomputable def rotZ (d : ℝ) : Mat3 :=
  let c := Real.cos (toRad d)
  let s := Real.sin (toRad d)
  ⟨c, -s, 0, s, c, 0, 0, 0, 1⟩

/-- `eulerZYZtoH`, /repo/libraries/YarpTinyMathLib/YarpTinyMath.cpp:77-84; `Matrix::resize` keeps the
elements and fills up with zeros. The orientation vector is taken to have three elements. -/
noncomputable def eulerZYZtoH (x : Vec3) (o0 o1 o2 : ℝ) : Mat4 :=
  let result : Mat4 := ⟨rotZ o0 * rotY o1 * rotZ o2, 0, 0, 0, 0, 0⟩
  xUpdateH x { result with r3 := 1 }

/-- `eulerYZtoH`, /repo/libraries/YarpTinyMathLib/YarpTinyMath.cpp:88-95. -/
noncomputable def eulerYZtoH (x : Vec3) (o0 o1 : ℝ) : Mat4 :=
  eulerZYZtoH x (toDeg (atan2 x.y x.x)) o0 o1

/-- `axisAngleToH`, /repo/libraries/YarpTinyMathLib/YarpTinyMath.cpp:99-132; the axis is `o[0..2]` and
the angle, in radians, is `o[3]`. -/
noncomputable def axisAngleToH (x : Vec3) (o : Vec3) (theta : ℝ) : Mat4 :=
  let c := Real.cos theta
  let s := Real.sin theta
  let C := 1 - c
  let xs := o.x * s
  let ys := o.y * s
  let zs := o.z * s
  let xC := o.x * C
  let yC := o.y * C
  let zC := o.z * C
  let xyC := o.x * yC
  let yzC := o.y * zC
  let zxC := o.z * xC
  xUpdateH x ⟨⟨o.x * xC + c, xyC - zs, zxC + ys, xyC + zs, o.y * yC + c, yzC - xs,
    zxC - ys, yzC + xs, o.z * zC + c⟩, 0, 0, 0, 0, 1⟩

end TinyMath

end KD
