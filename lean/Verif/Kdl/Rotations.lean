import Verif.Kdl.Twist

/-!
# Rotation builders and extractors of KDL

As `Verif/Kdl/Basic.lean`: external code, modelled after `kdl/frames.{hpp,cpp}`.
-/

namespace KD

namespace Mat3

/-- `KDL::Rotation::RPY(roll, pitch, yaw)`: fixed axes x, y, z. -/
noncomputable def rpy (r p y : ℝ) : Mat3 := rotZ y * rotY p * rotX r

/-- `KDL::Rotation::EulerZYZ(alpha, beta, gamma)`: moving axes z, y, z. -/
noncomputable def eulerZYZ (a b g : ℝ) : Mat3 := rotZ a * rotY b * rotZ g

/-- Tolerance at the singularities, `1E-12` in `kdl/frames.cpp`. -/
noncomputable def singEps : ℝ := 1 / 1000000000000

/-- `KDL::Rotation::GetRPY`: roll, pitch and yaw. -/
noncomputable def getRPY (m : Mat3) : ℝ × ℝ × ℝ :=
  open Classical in
  let pitch := atan2 (-m.zx) (√(m.xx * m.xx + m.yx * m.yx))
  if |pitch| > Real.pi / 2 - singEps then (0, pitch, atan2 (-m.xy) m.yy)
  else (atan2 m.zy m.zz, pitch, atan2 m.yx m.xx)

/-- `KDL::Rotation::GetEulerZYZ`: alpha, beta and gamma. -/
noncomputable def getEulerZYZ (m : Mat3) : ℝ × ℝ × ℝ :=
  open Classical in
  if |m.zz| > 1 - singEps then
    if m.zz > 0 then (atan2 m.yx m.xx, 0, 0) else (atan2 (-m.yx) (-m.xx), Real.pi, 0)
  else (atan2 m.yz m.xz, Real.arccos m.zz, atan2 m.zy (-m.zx))

end Mat3

end KD
