import Verif.Repr.KinRepresentation
import Verif.Solver.KdlSolver

/-!
# Analytic solver of the ASIBOT arm

/repo/libraries/YarpPlugins/AsibotSolver/{ICartesianSolverImpl,AsibotConfiguration,
AsibotConfigurationLeastOverallAngularDisplacement,AsibotSolver}.cpp. Log messages are left
out, and so are the two `invDyn` methods, which are not implemented. Here each call is alone; the accesses
of several threads to the tool are in `Verif.Solver.AsibotThreads`. A method gives `none` when a vector is
read past its end (undefined behaviour), and `some none` for a returned `false`.

Three functions of YARP are used. `axis2dcm` is Rodrigues' formula. `dcm2axis` reads the axis off the
antisymmetric part of the matrix, and takes the right singular vector of the least singular value of
`R - I` if that part is null: this vector is the parameter `svd`. `pinv` is a parameter, too.
-/

namespace KD

namespace Asibot

open KinRepr

/-- Five joint values.
The `std::vector` of five numbers of /repo/libraries/YarpPlugins/AsibotSolver/ICartesianSolverImpl.cpp. -/
@[ext]
structure Joints where
  q1 : ℝ
  q2 : ℝ
  q3 : ℝ
  q4 : ℝ
  q5 : ℝ

namespace Joints

/-- The first five elements of a vector; `none` if there are fewer.
The `std::vector` of five numbers of /repo/libraries/YarpPlugins/AsibotSolver/ICartesianSolverImpl.cpp. -/
def read : List ℝ → Option Joints
  | q1 :: q2 :: q3 :: q4 :: q5 :: _ => some ⟨q1, q2, q3, q4, q5⟩
  | _ => none

/-- As a vector.
The `std::vector` of five numbers of /repo/libraries/YarpPlugins/AsibotSolver/ICartesianSolverImpl.cpp. -/
def toList (q : Joints) : List ℝ := [q.q1, q.q2, q.q3, q.q4, q.q5]

end Joints

/-- Members of /repo/libraries/YarpPlugins/AsibotSolver/AsibotSolver.hpp: link lengths, joint limits in
degrees and the tool (`AsibotTcpFrame`). -/
structure Solver where
  A0 : ℝ
  A1 : ℝ
  A2 : ℝ
  A3 : ℝ
  qMin : Joints
  qMax : Joints
  hasFrame : Bool
  frameTcp : Frame

/-! ## Vectors and matrices -/

open scoped Classical in
/-- `vectorToMatrix`, /repo/libraries/YarpPlugins/AsibotSolver/ICartesianSolverImpl.cpp:22-57, with the translation.
Below the threshold the code
asks for a rotation about the null axis by a tiny angle, which is `cos θ` times the identity: taken to be
the identity, as `cos θ` is 1 in floating point. -/
noncomputable def vectorToMatrix (x : List ℝ) : Option Frame :=
  match x with
  | a :: b :: c :: d :: e :: f :: _ =>
    let v : Vec3 := ⟨d, e, f⟩
    some ⟨if v.norm > 1 / 1000000000 then Mat3.rot2 ((1 / v.norm) • v) v.norm else 1, ⟨a, b, c⟩⟩
  | _ => none

open scoped Classical in
/-- `yarp::math::dcm2axis` times the angle: the rotation vector.
/repo/libraries/YarpPlugins/AsibotSolver/ICartesianSolverImpl.cpp:59-78. -/
noncomputable def rotVector (svd : Mat3 → Vec3) (m : Mat3) : Vec3 :=
  let v : Vec3 := ⟨m.zy - m.yz, m.xz - m.zx, m.yx - m.xy⟩
  let r := v.norm
  let θ := atan2 (1 / 2 * r) (1 / 2 * (m.xx + m.yy + m.zz - 1))
  if r < 1 / 1000000000 then θ • ((1 / (svd m).norm) • svd m) else θ • ((1 / r) • v)

/-- `matrixToVector`, /repo/libraries/YarpPlugins/AsibotSolver/ICartesianSolverImpl.cpp:59-78, with the translation. -/
noncomputable def matrixToVector (svd : Mat3 → Vec3) (h : Frame) : List ℝ :=
  let v := rotVector svd h.M
  [h.p.x, h.p.y, h.p.z, v.x, v.y, v.z]

namespace Solver

/-! ## Tools and frame algebra -/

/-- `appendLink`, /repo/libraries/YarpPlugins/AsibotSolver/ICartesianSolverImpl.cpp:202-212. -/
noncomputable def appendLink (s : Solver) (x : List ℝ) : Option Solver :=
  (vectorToMatrix x).map fun f => { s with hasFrame := true, frameTcp := s.frameTcp * f }

/-- `restoreOriginalChain`, /repo/libraries/YarpPlugins/AsibotSolver/ICartesianSolverImpl.cpp:216-223. -/
noncomputable def restore (s : Solver) : Solver := { s with hasFrame := false, frameTcp := 1 }

end Solver

/-- `changeOrigin`, /repo/libraries/YarpPlugins/AsibotSolver/ICartesianSolverImpl.cpp:227-236. -/
noncomputable def changeOrigin (svd : Mat3 → Vec3) (xOldObj xNewOld : List ℝ) : Option (List ℝ) := do
  let hOldObj ← vectorToMatrix xOldObj
  let hNewOld ← vectorToMatrix xNewOld
  return matrixToVector svd (hNewOld * hOldObj)

/-- `poseDiff`, /repo/libraries/YarpPlugins/AsibotSolver/ICartesianSolverImpl.cpp:288-310. -/
noncomputable def poseDiff (svd : Mat3 → Vec3) (xLhs xRhs : List ℝ) : Option (List ℝ) := do
  let lhs ← vectorToMatrix xLhs
  let rhs ← vectorToMatrix xRhs
  let d := lhs.p - rhs.p
  let rotd := rhs.M.mulVec (rotVector svd (rhs.M.transpose * lhs.M))
  return [d.x, d.y, d.z, rotd.x, rotd.y, rotd.z]

/-! ## Forward kinematics -/

/-- Radial coordinate of the end effector, `prP` of
/repo/libraries/YarpPlugins/AsibotSolver/ICartesianSolverImpl.cpp:261. Joints in radians. -/
noncomputable def radial (s : Solver) (q : Joints) : ℝ :=
  s.A1 * Real.sin q.q2 + s.A2 * Real.sin (q.q2 + q.q3) + s.A3 * Real.sin (q.q2 + q.q3 + q.q4)

/-- Height of the end effector over the second joint, `phP` of
/repo/libraries/YarpPlugins/AsibotSolver/ICartesianSolverImpl.cpp:262. -/
noncomputable def height (s : Solver) (q : Joints) : ℝ :=
  s.A1 * Real.cos q.q2 + s.A2 * Real.cos (q.q2 + q.q3) + s.A3 * Real.cos (q.q2 + q.q3 + q.q4)

/-- All joints in radians, e.g. /repo/libraries/YarpPlugins/AsibotSolver/ICartesianSolverImpl.cpp:242-247. -/
noncomputable def Joints.inRadians (q : Joints) : Joints :=
  ⟨degToRad q.q1, degToRad q.q2, degToRad q.q3, degToRad q.q4, degToRad q.q5⟩

/-- `fwdKin`, /repo/libraries/YarpPlugins/AsibotSolver/ICartesianSolverImpl.cpp:240-284; always succeeds. The result of
`encodePose` is not
looked at. -/
noncomputable def fwdKin (svd : Mat3 → Vec3) (s : Solver) (q : List ℝ) : Option (List ℝ) := do
  let qd ← Joints.read q
  let qr := qd.inRadians
  let prP := radial s qr
  let phP := height s qr
  let x := [prP * Real.cos qr.q1, prP * Real.sin qr.q1, phP + s.A0, qd.q2 + qd.q3 + qd.q4, qd.q5]
  let (_, m) ← encodePose .cartesian .eulerYZ .degrees ⟨[], x, true⟩
  if s.hasFrame then
    let h ← vectorToMatrix m.dst
    return matrixToVector svd (h * s.frameTcp)
  else return m.dst

/-! ## Configurations -/

/-- Tolerance in degrees, /repo/libraries/YarpPlugins/AsibotSolver/AsibotConfiguration.cpp:17. -/
noncomputable def degEps : ℝ := 1 / 1000

open scoped Classical in
/-- `normalizeAngle`, /repo/libraries/YarpPlugins/AsibotSolver/AsibotConfiguration.cpp:24-44. -/
noncomputable def normalizeAngle (q : ℝ) : ℝ :=
  if q > 180 then q - 360
  else if q ≤ -180 then q + 360
  else if |q| < degEps then 0
  else q

/-- `Pose::orientation`, /repo/libraries/YarpPlugins/AsibotSolver/AsibotConfiguration.hpp:82. -/
inductive Orientation | forward | reversed
  deriving DecidableEq

/-- `Pose::elbow`, /repo/libraries/YarpPlugins/AsibotSolver/AsibotConfiguration.hpp:85. -/
inductive Elbow | up | down
  deriving DecidableEq

/-- `AsibotConfiguration::Pose`, /repo/libraries/YarpPlugins/AsibotSolver/AsibotConfiguration.hpp:79-109. -/
structure Pose where
  q : Joints
  orient : Orientation
  elb : Elbow
  valid : Bool

/-- `checkJointInLimits`, /repo/libraries/YarpPlugins/AsibotSolver/AsibotConfiguration.cpp:19-22. -/
def inLimits (q qMin qMax : ℝ) : Prop := q ≥ qMin - degEps ∧ q ≤ qMax + degEps

/-- `checkJointsInLimits`, /repo/libraries/YarpPlugins/AsibotSolver/AsibotConfiguration.cpp:107-124. -/
def jointsInLimits (q qMin qMax : Joints) : Prop :=
  inLimits q.q1 qMin.q1 qMax.q1 ∧ inLimits q.q2 qMin.q2 qMax.q2 ∧ inLimits q.q3 qMin.q3 qMax.q3 ∧
    inLimits q.q4 qMin.q4 qMax.q4 ∧ inLimits q.q5 qMin.q5 qMax.q5

open scoped Classical in
/-- `storeAngles` followed by the check of the limits,
/repo/libraries/YarpPlugins/AsibotSolver/AsibotConfiguration.cpp:95-105 and, e.g., 56-61.
The configuration is a new object at every call, thus valid at first. -/
noncomputable def storeAngles (s : Solver) (q1 q2 q3 q4 q5 : ℝ) (o : Orientation) (e : Elbow) : Pose :=
  let q : Joints :=
    ⟨normalizeAngle q1, normalizeAngle q2, normalizeAngle q3, normalizeAngle q4, normalizeAngle q5⟩
  ⟨q, o, e, decide (jointsInLimits q s.qMin s.qMax)⟩

open scoped Classical in
/-- `configure`, /repo/libraries/YarpPlugins/AsibotSolver/AsibotConfiguration.cpp:47-93: the four configurations, in
the order in which they are
compared later; `none` for a returned `false`. -/
noncomputable def configure (s : Solver) (q1 q2u q2d q3 q4u q4d q5 : ℝ) : Option (List Pose) :=
  if |(q2u + q3 + q4u) - (q2d - q3 + q4d)| > degEps then none
  else
    let poses :=
      [storeAngles s q1 q2u q3 q4u q5 .forward .up,
       storeAngles s q1 q2d (-q3) q4d q5 .forward .down,
       storeAngles s (q1 + 180) (-q2u) (-q3) (-q4u) (q5 + 180) .reversed .up,
       storeAngles s (q1 + 180) (-q2d) q3 (-q4d) (q5 + 180) .reversed .down]
    if poses.any (·.valid) then some poses else none

/-- `getDiffs`, /repo/libraries/YarpPlugins/AsibotSolver/AsibotConfigurationLeastOverallAngularDisplacement.cpp:85-94. -/
def diffs (g q : Joints) : Joints :=
  ⟨|g.q1 - q.q1|, |g.q2 - q.q2|, |g.q3 - q.q3|, |g.q4 - q.q4|, |g.q5 - q.q5|⟩

/-- `std::accumulate` of the differences.
/repo/libraries/YarpPlugins/AsibotSolver/AsibotConfigurationLeastOverallAngularDisplacement.cpp:16-48, 85-95. -/
def total (g q : Joints) : ℝ :=
  let d := diffs g q
  d.q1 + d.q2 + d.q3 + d.q4 + d.q5

open scoped Classical in
/-- `std::map<double, const Pose *>::insert`: sorted by key, keeps the present element if the key is
there already.
/repo/libraries/YarpPlugins/AsibotSolver/AsibotConfigurationLeastOverallAngularDisplacement.cpp:16-48. -/
noncomputable def insertMap (k : ℝ) (p : Pose) : List (ℝ × Pose) → List (ℝ × Pose)
  | [] => [(k, p)]
  | (k', p') :: m =>
    if k < k' then (k, p) :: (k', p') :: m
    else if k' < k then (k', p') :: insertMap k p m
    else (k', p') :: m

/-- The four insertions,
/repo/libraries/YarpPlugins/AsibotSolver/AsibotConfigurationLeastOverallAngularDisplacement.cpp:22-48. -/
noncomputable def fillMap (g : Joints) : List Pose → List (ℝ × Pose) → List (ℝ × Pose)
  | [], m => m
  | p :: ps, m => fillMap g ps (if p.valid then insertMap (total g p.q) p m else m)

open scoped Classical in
/-- `findOptimalConfiguration`,
/repo/libraries/YarpPlugins/AsibotSolver/AsibotConfigurationLeastOverallAngularDisplacement.cpp:16-83. -/
noncomputable def findOptimal (g : Joints) (poses : List Pose) : Option Pose :=
  match fillMap g poses [] with
  | [] => none
  | [(_, best)] => some best
  | (_, best) :: (_, alt) :: _ =>
    if alt.orient = best.orient ∧
        ((diffs g alt.q).q2 < (diffs g best.q).q2 ∨
          ((diffs g alt.q).q2 = (diffs g best.q).q2 ∧ alt.elb = .up)) then some alt
    else some best

/-! ## Inverse kinematics -/

/-- The joints of the arm plane, in radians: `t1uRad`, `t1dRad` and `t2Rad` of
/repo/libraries/YarpPlugins/AsibotSolver/ICartesianSolverImpl.cpp:373-389. -/
structure PlaneAngles where
  t1u : ℝ
  t1d : ℝ
  t2 : ℝ

open scoped Classical in
/-- /repo/libraries/YarpPlugins/AsibotSolver/ICartesianSolverImpl.cpp:373-389. `none` if a division by zero or the root
of a negative number makes
some of the angles not a number. -/
noncomputable def planeAngles (A1 A2 prWd phWd : ℝ) : Option PlaneAngles :=
  let len2 := phWd * phWd + prWd * prWd
  let ct2 := (len2 - A1 * A1 - A2 * A2) / (2 * A1 * A2)
  if 2 * A1 * A2 = 0 ∨ 1 - ct2 * ct2 < 0 ∨ len2 = 0 then none
  else
    let st2 := √(1 - ct2 * ct2)
    let st1u := ((A1 + A2 * ct2) * prWd - A2 * st2 * phWd) / len2
    let ct1u := ((A1 + A2 * ct2) * phWd + A2 * st2 * prWd) / len2
    let st1d := ((A1 + A2 * ct2) * prWd + A2 * st2 * phWd) / len2
    let ct1d := ((A1 + A2 * ct2) * phWd - A2 * st2 * prWd) / len2
    some ⟨atan2 st1u ct1u, atan2 st1d ct1d, atan2 st2 ct2⟩

open scoped Classical in
/-- /repo/libraries/YarpPlugins/AsibotSolver/ICartesianSolverImpl.cpp:342-416: the part of `invKin` after the request
has been referred to the base
and the tool removed. If some angle is not a number, it is out of its limits in all four configurations
(comparisons give false) and `configure` fails. -/
noncomputable def solve (s : Solver) (xd : List ℝ) (g : Joints) : Option (Option (List ℝ)) := do
  let (ok, m) ← decodePose .cartesian .eulerYZ .radians ⟨xd, [], false⟩
  if ok = false then return none
  else
    match m.dst with
    | x :: y :: z :: oyPd :: oz :: _ =>
      let ozd := atan2 y x
      let prPd := √(x * x + y * y)
      let phPd := z - s.A0
      if √(prPd * prPd + phPd * phPd) > s.A1 + s.A2 + s.A3 then return none
      else
        let prWd := prPd - s.A3 * Real.sin oyPd
        let phWd := phPd - s.A3 * Real.cos oyPd
        if √(phWd * phWd + prWd * prWd) > s.A1 + s.A2 then return none
        else
          match planeAngles s.A1 s.A2 prWd phWd with
          | none => return none
          | some t =>
            let t3u := oyPd - t.t1u - t.t2
            let t3d := oyPd - t.t1d + t.t2
            match configure s (radToDeg ozd) (radToDeg t.t1u) (radToDeg t.t1d) (radToDeg t.t2)
                (radToDeg t3u) (radToDeg t3d) (radToDeg oz) with
            | none => return none
            | some poses =>
              match findOptimal g poses with
              | none => return none
              | some p => return some p.q.toList
    | _ => none

/-- `invKin`, /repo/libraries/YarpPlugins/AsibotSolver/ICartesianSolverImpl.cpp:314-417. `yarp::math::luinv` of the
tool is taken to be the inverse
of a rigid frame. The guess is always read in full by `getDiffs`, or by `fwdKin` before that (for requests
that fail on the way, the model asks more of the guess than the code). -/
noncomputable def invKin (svd : Mat3 → Vec3) (s : Solver) (xd qGuess : List ℝ) (frame : SolverFrame) :
    Option (Option (List ℝ)) := do
  let g ← Joints.read qGuess
  match frame with
  | .other => return none
  | .tcp =>
    let xBaseTcp ← fwdKin svd s qGuess
    let xBaseObj ← changeOrigin svd xd xBaseTcp
    if s.hasFrame then
      let h ← vectorToMatrix xBaseObj
      solve s (matrixToVector svd (h * s.frameTcp.inv)) g
    else solve s xBaseObj g
  | .base =>
    if s.hasFrame then
      let h ← vectorToMatrix xd
      solve s (matrixToVector svd (h * s.frameTcp.inv)) g
    else solve s xd g

/-! ## Differential inverse kinematics -/

/-- `computeBaseFrameDiffInvKin`, /repo/libraries/YarpPlugins/AsibotSolver/ICartesianSolverImpl.cpp:80-128, by columns.
Joints in radians. -/
noncomputable def baseJacobian (s : Solver) (q : Joints) : List Twist :=
  let s1 := Real.sin q.q1
  let c1 := Real.cos q.q1
  let s2 := Real.sin q.q2
  let c2 := Real.cos q.q2
  let s23 := Real.sin (q.q2 + q.q3)
  let c23 := Real.cos (q.q2 + q.q3)
  let s234 := Real.sin (q.q2 + q.q3 + q.q4)
  let c234 := Real.cos (q.q2 + q.q3 + q.q4)
  [⟨⟨-s1 * (s.A3 * s234 + s.A2 * s23 + s.A1 * s2), c1 * (s.A3 * s234 + s.A2 * s23 + s.A1 * s2), 0⟩,
    ⟨0, 0, 1⟩⟩,
   ⟨⟨c1 * (s.A3 * c234 + s.A2 * c23 + s.A1 * c2), s1 * (s.A3 * c234 + s.A2 * c23 + s.A1 * c2),
      -s.A3 * s234 - s.A2 * s23 - s.A1 * s2⟩, ⟨-s1, c1, 0⟩⟩,
   ⟨⟨c1 * (s.A3 * c234 + s.A2 * c23), s1 * (s.A3 * c234 + s.A2 * c23), -s.A3 * s234 - s.A2 * s23⟩,
    ⟨-s1, c1, 0⟩⟩,
   ⟨⟨c1 * s.A3 * c234, s1 * s.A3 * c234, -s.A3 * s234⟩, ⟨-s1, c1, 0⟩⟩,
   ⟨⟨0, 0, 0⟩, ⟨c1 * s234, s1 * s234, c234⟩⟩]

/-- `computeTcpFrameDiffInvKin`, /repo/libraries/YarpPlugins/AsibotSolver/ICartesianSolverImpl.cpp:130-183, by columns.
Joints in radians. -/
noncomputable def tcpJacobian (s : Solver) (q : Joints) : List Twist :=
  let s2 := Real.sin q.q2
  let s4 := Real.sin q.q4
  let c4 := Real.cos q.q4
  let s5 := Real.sin q.q5
  let c5 := Real.cos q.q5
  let s23 := Real.sin (q.q2 + q.q3)
  let s34 := Real.sin (q.q3 + q.q4)
  let c34 := Real.cos (q.q3 + q.q4)
  let s234 := Real.sin (q.q2 + q.q3 + q.q4)
  let c234 := Real.cos (q.q2 + q.q3 + q.q4)
  [⟨⟨s5 * (s.A3 * s234 + s.A2 * s23 + s.A1 * s2), c5 * (s.A3 * s234 + s.A2 * s23 + s.A1 * s2), 0⟩,
    ⟨-s234 * c5, s234 * s5, c234⟩⟩,
   ⟨⟨c5 * (s.A3 + s.A2 * c4 + s.A1 * c34), -s5 * (s.A3 + s.A2 * c4 + s.A1 * c34),
      s.A2 * s4 + s.A1 * s34⟩, ⟨s5, c5, 0⟩⟩,
   ⟨⟨c5 * (s.A3 + s.A2 * c4), -s5 * (s.A3 + s.A2 * c4), s.A2 * s4⟩, ⟨s5, c5, 0⟩⟩,
   ⟨⟨c5 * s.A3, -s5 * s.A3, 0⟩, ⟨s5, c5, 0⟩⟩,
   ⟨⟨0, 0, 0⟩, ⟨0, 0, 1⟩⟩]

/-- `yarp::math::crossProductMatrix`. /repo/libraries/YarpPlugins/AsibotSolver/ICartesianSolverImpl.cpp:421-484. -/
def crossMatrix (v : Vec3) : Mat3 := ⟨0, -v.z, v.y, v.z, 0, -v.x, -v.y, v.x, 0⟩

/-- `(-1) * m`. /repo/libraries/YarpPlugins/AsibotSolver/ICartesianSolverImpl.cpp:421-484. -/
def negMat (m : Mat3) : Mat3 := ⟨-m.xx, -m.xy, -m.xz, -m.yx, -m.yy, -m.yz, -m.zx, -m.zy, -m.zz⟩

/-- `Ja = S * Ja` for one column, /repo/libraries/YarpPlugins/AsibotSolver/ICartesianSolverImpl.cpp:450-461: `r0N` is
the rotation of the
forward kinematics and `transl` the translation of the tool. -/
def shiftColumn (r0N : Mat3) (transl : Vec3) (c : Twist) : Twist :=
  ⟨c.vel + (negMat (r0N * crossMatrix transl * r0N.transpose)).mulVec c.rot, c.rot⟩

/-- The matrix that `diffInvKin` inverts, /repo/libraries/YarpPlugins/AsibotSolver/ICartesianSolverImpl.cpp:423-462. -/
noncomputable def jacobian (svd : Mat3 → Vec3) (s : Solver) (q : List ℝ) (frame : SolverFrame) :
    Option (Option (List Twist)) := do
  let qd ← Joints.read q
  let ja : Option (List Twist) :=
    match frame with
    | .base => some (baseJacobian s qd.inRadians)
    | .tcp => some (tcpJacobian s qd.inRadians)
    | .other => none
  match ja with
  | none => return none
  | some ja =>
    if s.hasFrame then
      let x ← fwdKin svd s q
      let h ← vectorToMatrix x
      return some (ja.map (shiftColumn h.M s.frameTcp.p))
    else return some ja

/-- `yarp::math::pinv(Ja, 1e-2) * xdotv`. /repo/libraries/YarpPlugins/AsibotSolver/ICartesianSolverImpl.cpp:421-484. -/
abbrev Pinv := List Twist → Twist → Joints

/-- `diffInvKin`, /repo/libraries/YarpPlugins/AsibotSolver/ICartesianSolverImpl.cpp:421-483, for requests of six
elements. -/
noncomputable def diffInvKin (svd : Mat3 → Vec3) (pinv : Pinv) (s : Solver) (q : List ℝ) (xdot : Twist)
    (frame : SolverFrame) : Option (Option Joints) := do
  match ← jacobian svd s q frame with
  | none => return none
  | some ja =>
    let v := pinv ja xdot
    return some ⟨radToDeg v.q1, radToDeg v.q2, radToDeg v.q3, radToDeg v.q4, radToDeg v.q5⟩

end Asibot

end KD
