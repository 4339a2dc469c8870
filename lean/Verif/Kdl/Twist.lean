import Verif.Kdl.Chain

/-!
# Twists, rotation vectors, frame differences and Jacobians of KDL

As `Verif/Kdl/Basic.lean`: external code, modelled after its documented behaviour
(`kdl/frames.{hpp,cpp,inl}`, `kdl/joint.cpp`, `kdl/segment.cpp`, `kdl/chainjnttojacsolver.cpp`).
-/

namespace KD

/-- `KDL::Twist`. -/
@[ext]
structure Twist where
  vel : Vec3
  rot : Vec3

namespace Twist

/-- `KDL::Twist::Zero()`. -/
instance : Zero Twist := ⟨⟨0, 0⟩⟩
/-- `KDL::Twist operator+`. -/
instance : Add Twist := ⟨fun a b => ⟨a.vel + b.vel, a.rot + b.rot⟩⟩
/-- `KDL::Twist operator-`. -/
instance : Sub Twist := ⟨fun a b => ⟨a.vel - b.vel, a.rot - b.rot⟩⟩
/-- `KDL::Twist * double`. -/
instance : SMul ℝ Twist := ⟨fun s a => ⟨s • a.vel, s • a.rot⟩⟩

@[simp] theorem zero_vel : (0 : Twist).vel = 0 := rfl
@[simp] theorem zero_rot : (0 : Twist).rot = 0 := rfl
@[simp] theorem add_vel (a b : Twist) : (a + b).vel = a.vel + b.vel := rfl
@[simp] theorem add_rot (a b : Twist) : (a + b).rot = a.rot + b.rot := rfl
@[simp] theorem sub_vel (a b : Twist) : (a - b).vel = a.vel - b.vel := rfl
@[simp] theorem sub_rot (a b : Twist) : (a - b).rot = a.rot - b.rot := rfl
@[simp] theorem smul_vel (s : ℝ) (a : Twist) : (s • a).vel = s • a.vel := rfl
@[simp] theorem smul_rot (s : ℝ) (a : Twist) : (s • a).rot = s • a.rot := rfl

/-- Dot product of the two as 6-vectors. -/
def dot (a b : Twist) : ℝ := Vec3.dot a.vel b.vel + Vec3.dot a.rot b.rot

/-- `KDL::Twist::RefPoint(v)`. -/
def refPoint (t : Twist) (v : Vec3) : Twist := ⟨t.vel + Vec3.cross t.rot v, t.rot⟩

/-- `KDL::Rotation * KDL::Twist`: change of basis, same reference point. -/
def rotate (m : Mat3) (t : Twist) : Twist := ⟨m.mulVec t.vel, m.mulVec t.rot⟩

end Twist

namespace Mat3

/-- `KDL::Rotation::GetRotAngle(axis)`: axis and angle in `[0, pi]`, with a fixed axis for rotations
by (almost) zero and a special formula around `pi`. -/
noncomputable def getRotAngle (m : Mat3) : Vec3 × ℝ :=
  open Classical in
  let ca := (m.xx + m.yy + m.zz - 1) / 2
  let t := eps * eps / 2
  if ca > 1 - t then (⟨0, 0, 1⟩, 0)
  else if ca < -1 + t then
    let x := √((m.xx + 1) / 2)
    let y := √((m.yy + 1) / 2)
    let z := √((m.zz + 1) / 2)
    let x := if m.xz < 0 then -x else x
    let y := if m.zy < 0 then -y else y
    let x := if x * y * m.xy < 0 then -x else x
    (⟨x, y, z⟩, Real.pi)
  else
    let a : Vec3 := ⟨m.zy - m.yz, m.xz - m.zx, m.yx - m.xy⟩
    (⟨a.x / a.norm, a.y / a.norm, a.z / a.norm⟩, atan2 (a.norm / 2) ca)

/-- `KDL::Rotation::GetRot()`: the rotation vector. -/
noncomputable def getRot (m : Mat3) : Vec3 := m.getRotAngle.2 • m.getRotAngle.1

/-- `KDL::Rotation::Rot(axis, angle)`: normalises the axis first. -/
noncomputable def rot (axis : Vec3) (angle : ℝ) : Mat3 := rot2 axis.normalize angle

end Mat3

/-- `KDL::diff(F_a_b1, F_a_b2, dt = 1)`: the twist that takes the first frame to the second in a
unit of time. -/
noncomputable def frameDiff (f1 f2 : Frame) : Twist :=
  ⟨f2.p - f1.p, f1.M.mulVec (f1.M.transpose * f2.M).getRot⟩

namespace Joint

/-- `KDL::Joint::twist(qdot)`. -/
noncomputable def twist (j : Joint) (qdot : ℝ) : Twist :=
  let v := j.scale * qdot
  match j.type with
  | .rotAxis => ⟨0, v • j.axis⟩
  | .rotX => ⟨0, ⟨v, 0, 0⟩⟩
  | .rotY => ⟨0, ⟨0, v, 0⟩⟩
  | .rotZ => ⟨0, ⟨0, 0, v⟩⟩
  | .transAxis => ⟨v • j.axis, 0⟩
  | .transX => ⟨⟨v, 0, 0⟩, 0⟩
  | .transY => ⟨⟨0, v, 0⟩, 0⟩
  | .transZ => ⟨⟨0, 0, v⟩, 0⟩
  | .none => 0

end Joint

/-- `KDL::Segment::twist(q, qdot)`. -/
noncomputable def Segment.twist (s : Segment) (q qdot : ℝ) : Twist :=
  (s.joint.twist qdot).refPoint ((s.joint.pose q).M.mulVec s.fTip.p)

namespace Chain

/-- Loop of `KDL::ChainJntToJacSolver::JntToJac`: the columns so far are moved to the new reference
point before a column is added. -/
noncomputable def jacLoop : Chain → List ℝ → Frame → List Twist → Option (List Twist)
  | [], [], _, cols => some cols
  | [], _ :: _, _, _ => none
  | s :: c, qs, acc, cols =>
    if s.joint.type ≠ .none then
      match qs with
      | [] => none
      | q :: qs =>
        let total := acc * s.pose q
        jacLoop c qs total (cols.map (·.refPoint (total.p - acc.p)) ++ [Twist.rotate acc.M (s.twist q 1)])
    else
      let total := acc * s.pose 0
      jacLoop c qs total (cols.map (·.refPoint (total.p - acc.p)))

/-- `KDL::ChainJntToJacSolver::JntToJac`: the columns of the Jacobian; `none` is an error code. -/
noncomputable def jacobian (c : Chain) (q : List ℝ) : Option (List Twist) := jacLoop c q 1 []

end Chain

end KD
