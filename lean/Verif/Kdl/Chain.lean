import Verif.Kdl.Basic

/-!
# KDL joints, segments and chains

External library behaviour (`kdl/joint.cpp`, `kdl/segment.cpp`,
`kdl/chainfksolverpos_recursive.cpp`), as relied on by
/repo/libraries/ScrewTheoryLib/ProductOfExponentials.cpp:138-193.
-/

namespace KD

/-- `KDL::Joint::JointType`. -/
inductive JointType
  | rotAxis | rotX | rotY | rotZ | transAxis | transX | transY | transZ | none
  deriving DecidableEq

/-- `KDL::Joint`. `axis` and `origin` are meaningful for `rotAxis` and `transAxis`
only (inertia, damping and stiffness are left out). -/
structure Joint where
  type : JointType
  scale : ℝ
  offset : ℝ
  axis : Vec3
  origin : Vec3

namespace Joint

/-- `KDL::Joint(origin, axis, type)`: the axis is divided by its norm; scale one, offset zero. -/
noncomputable def ofAxis (origin axis : Vec3) (type : JointType) : Joint :=
  ⟨type, 1, 0, (1 / axis.norm) • axis, origin⟩

/-- `KDL::Joint(KDL::Joint::None)`. -/
def fixed : Joint := ⟨.none, 1, 0, 0, 0⟩

/-- `KDL::Joint::pose(q)`. -/
noncomputable def pose (j : Joint) (q : ℝ) : Frame :=
  let v := j.scale * q + j.offset
  match j.type with
  | .rotAxis => ⟨Mat3.rot2 j.axis v, j.origin⟩
  | .rotX => ⟨Mat3.rotX v, 0⟩
  | .rotY => ⟨Mat3.rotY v, 0⟩
  | .rotZ => ⟨Mat3.rotZ v, 0⟩
  | .transAxis => Frame.trans (j.origin + v • j.axis)
  | .transX => Frame.trans ⟨v, 0, 0⟩
  | .transY => Frame.trans ⟨0, v, 0⟩
  | .transZ => Frame.trans ⟨0, 0, v⟩
  | .none => 1

/-- `KDL::Joint::JointAxis()`. -/
def jointAxis (j : Joint) : Vec3 :=
  match j.type with
  | .rotAxis | .transAxis => j.axis
  | .rotX | .transX => ⟨1, 0, 0⟩
  | .rotY | .transY => ⟨0, 1, 0⟩
  | .rotZ | .transZ => ⟨0, 0, 1⟩
  | .none => 0

/-- `KDL::Joint::JointOrigin()`: the stored origin; joints of the fixed-axis types have
the zero vector there. -/
def jointOrigin (j : Joint) : Vec3 :=
  match j.type with
  | .rotAxis | .transAxis => j.origin
  | _ => 0

end Joint

/-- `KDL::Segment`: joint followed by a constant frame. -/
structure Segment where
  joint : Joint
  fTip : Frame

namespace Segment

/-- `KDL::Segment(joint, f_tip)`: stores `joint.pose(0).Inverse() * f_tip`. -/
noncomputable def make (j : Joint) (f : Frame) : Segment := ⟨j, (j.pose 0).inv * f⟩

/-- `KDL::Segment::pose(q)`. -/
noncomputable def pose (s : Segment) (q : ℝ) : Frame := s.joint.pose q * s.fTip

end Segment

/-- `KDL::Chain`. -/
abbrev Chain := List Segment

namespace Chain

/-- `KDL::Chain::getNrOfJoints()`: segments whose joint is not fixed. -/
def nJoints (c : Chain) : ℕ := (c.filter fun s => s.joint.type ≠ .none).length

/-- Loop of `KDL::ChainFkSolverPos_recursive::JntToCart`; `none` is the size mismatch error. -/
noncomputable def fkLoop : Chain → List ℝ → Frame → Option Frame
  | [], [], acc => some acc
  | [], _ :: _, _ => none
  | s :: c, qs, acc =>
    if s.joint.type ≠ .none then
      match qs with
      | [] => none
      | q :: qs => fkLoop c qs (acc * s.pose q)
    else fkLoop c qs (acc * s.pose 0)

/-- `KDL::ChainFkSolverPos_recursive::JntToCart`. -/
noncomputable def fk (c : Chain) (q : List ℝ) : Option Frame := fkLoop c q 1

end Chain

end KD
