import Verif.Repr.Converters
import Verif.Kdl.Twist

/-!
# Rigid body inertias and recursive Newton-Euler of KDL

External library behaviour (`kdl/rigidbodyinertia.{hpp,cpp}`, `kdl/rotationalinertia.hpp`, `kdl/frames.inl`,
`kdl/chainidsolver_recursive_newton_euler.cpp`), as relied on by the `invDyn` methods of
/repo/libraries/YarpPlugins/KdlSolver/ICartesianSolverImpl.cpp:225-338.
-/

namespace KD

namespace Wrench

/-- `KDL::Wrench::Zero()`. -/
instance : Zero Wrench := ⟨⟨0, 0⟩⟩
/-- `KDL::Wrench operator+`. -/
instance : Add Wrench := ⟨fun a b => ⟨a.force + b.force, a.torque + b.torque⟩⟩
/-- `KDL::Wrench operator-`. -/
instance : Sub Wrench := ⟨fun a b => ⟨a.force - b.force, a.torque - b.torque⟩⟩

@[simp] theorem zero_force : (0 : Wrench).force = 0 := rfl
@[simp] theorem zero_torque : (0 : Wrench).torque = 0 := rfl
@[simp] theorem add_force (a b : Wrench) : (a + b).force = a.force + b.force := rfl
@[simp] theorem add_torque (a b : Wrench) : (a + b).torque = a.torque + b.torque := rfl
@[simp] theorem sub_force (a b : Wrench) : (a - b).force = a.force - b.force := rfl
@[simp] theorem sub_torque (a b : Wrench) : (a - b).torque = a.torque - b.torque := rfl

/-- `KDL::Rotation * KDL::Wrench`: change of basis, same reference point. -/
def rotate (m : Mat3) (w : Wrench) : Wrench := ⟨m.mulVec w.force, m.mulVec w.torque⟩

end Wrench

namespace Twist

/-- `KDL::dot(Twist, Wrench)`: the power of the wrench. -/
def power (t : Twist) (w : Wrench) : ℝ := Vec3.dot t.vel w.force + Vec3.dot t.rot w.torque

/-- `KDL::Twist operator*(Twist, Twist)`: spatial cross product. -/
def crossTwist (a b : Twist) : Twist :=
  ⟨Vec3.cross a.vel b.rot + Vec3.cross a.rot b.vel, Vec3.cross a.rot b.rot⟩

/-- `KDL::Wrench operator*(Twist, Wrench)`: its dual. -/
def crossWrench (a : Twist) (w : Wrench) : Wrench :=
  ⟨Vec3.cross a.rot w.force, Vec3.cross a.rot w.torque + Vec3.cross a.vel w.force⟩

end Twist

namespace Frame

/-- `KDL::Frame::Inverse(Twist)`. -/
def invTwist (f : Frame) (t : Twist) : Twist :=
  ⟨f.M.transpose.mulVec (t.vel - Vec3.cross f.p t.rot), f.M.transpose.mulVec t.rot⟩

/-- `KDL::Frame * KDL::Wrench`. -/
def mulWrench (f : Frame) (w : Wrench) : Wrench :=
  ⟨f.M.mulVec w.force, f.M.mulVec w.torque + Vec3.cross f.p (f.M.mulVec w.force)⟩

end Frame

/-- `KDL::RigidBodyInertia`: mass, first moment of mass and rotational inertia, both about the origin of
the frame of the segment. -/
structure Inertia where
  mass : ℝ
  moment : Vec3
  rot : Mat3

namespace Inertia

/-- `KDL::RigidBodyInertia::Zero()`, the one of segments without dynamic parameters. -/
def zero : Inertia := ⟨0, 0, ⟨0, 0, 0, 0, 0, 0, 0, 0, 0⟩⟩

/-- `KDL::RigidBodyInertia(m, oc, Ic)` with `KDL::RotationalInertia(Ixx, Iyy, Izz)`, whose products of
inertia are zero: the rotational inertia given about the centre of mass is moved to the origin. -/
noncomputable def make (m : ℝ) (c : Vec3) (i : Vec3) : Inertia :=
  ⟨m, m • c,
    ⟨i.x + m * (Vec3.dot c c - c.x * c.x), - (m * (c.x * c.y)), - (m * (c.x * c.z)),
     - (m * (c.x * c.y)), i.y + m * (Vec3.dot c c - c.y * c.y), - (m * (c.y * c.z)),
     - (m * (c.x * c.z)), - (m * (c.y * c.z)), i.z + m * (Vec3.dot c c - c.z * c.z)⟩⟩

/-- `KDL::RigidBodyInertia * KDL::Twist`. -/
def mul (i : Inertia) (t : Twist) : Wrench :=
  ⟨i.mass • t.vel - Vec3.cross i.moment t.rot, i.rot.mulVec t.rot + Vec3.cross i.moment t.vel⟩

end Inertia

/-- `KDL::Segment` with its inertia. -/
structure Link where
  seg : Segment
  inertia : Inertia

/-- One pass of the first loop of `KDL::ChainIdSolver_RNE::CartToJnt`, kinematics: from the velocity and
acceleration of the previous segment, those of this one, in its own frame. -/
noncomputable def Link.sweep (s : Segment) (q qd qdd : ℝ) (v a : Twist) : Twist × Twist :=
  let X := s.pose q
  let vj := Twist.rotate X.M.transpose (s.twist q qd)
  let S := Twist.rotate X.M.transpose (s.twist q 1)
  let v' := X.invTwist v + vj
  (v', X.invTwist a + qdd • S + v'.crossTwist vj)

/-- First loop, forces: what the segment needs to move so, less what it gets from outside. External:
`KDL::ChainIdSolver_RNE::CartToJnt`. -/
noncomputable def Link.force (i : Inertia) (v a : Twist) (ext : Wrench) : Wrench :=
  i.mul a + v.crossWrench (i.mul v) - ext

/-- Both loops of `KDL::ChainIdSolver_RNE::CartToJnt`. The loop from the base to the tip computes velocities,
accelerations and forces; the loop back adds to the force of each segment that of the next one, in its own
frame. Here the first loop is the way into the recursion and the second one the way out; the results are
the torques of the remaining joints and the force on the previous segment. Joints have no inertia of
their own, as the constructor of `KDL::Joint` leaves it. Lists of other sizes are an error (`none`). -/
noncomputable def rneLoop : List Link → List ℝ → List ℝ → List ℝ → List Wrench → Twist → Twist →
    Option (List ℝ × Wrench)
  | [], [], [], [], [], _, _ => some ([], 0)
  | l :: ls, qs, qds, qdds, e :: es, v, a =>
    if l.seg.joint.type ≠ .none then
      match qs, qds, qdds with
      | q :: qs, qd :: qds, qdd :: qdds => do
        let (v', a') := Link.sweep l.seg q qd qdd v a
        let (ts, f) ← rneLoop ls qs qds qdds es v' a'
        let f := Link.force l.inertia v' a' e + f
        let S := Twist.rotate (l.seg.pose q).M.transpose (l.seg.twist q 1)
        return (S.power f :: ts, (l.seg.pose q).mulWrench f)
      | _, _, _ => none
    else do
      let (v', a') := Link.sweep l.seg 0 0 0 v a
      let (ts, f) ← rneLoop ls qs qds qdds es v' a'
      let f := Link.force l.inertia v' a' e + f
      return (ts, (l.seg.pose 0).mulWrench f)
  | _, _, _, _, _, _, _ => none

/-- `KDL::ChainIdSolver_RNE::CartToJnt`; the base is at rest and accelerated against gravity. -/
noncomputable def rne (links : List Link) (gravity : Vec3) (q qd qdd : List ℝ) (ext : List Wrench) :
    Option (List ℝ) :=
  (rneLoop links q qd qdd ext 0 ⟨-gravity, 0⟩).map (·.1)

end KD
