import Mathlib.Analysis.SpecialFunctions.Complex.Arg
import Mathlib.Tactic.Ring
import Mathlib.Tactic.Linarith
import Mathlib.Tactic.LinearCombination
import Mathlib.Tactic.FieldSimp
import Mathlib.Tactic.Positivity

/-!
# The fragment of KDL used by the code base

KDL is an external dependency and is not part of `/repo`. These definitions
follow its documented behaviour (`kdl/frames.hpp`, `kdl/frames.inl`,
`kdl/utilities/utility.h`). Reals stand for `double`.
-/

namespace KD

open Real

/-- `KDL::epsilon` (kdl/utilities/utility.cpp): default tolerance of `KDL::Equal`,
used e.g. at /repo/libraries/ScrewTheoryLib/ScrewTheoryTools.hpp:66. -/
noncomputable def eps : ℝ := 1 / 1000000

theorem eps_pos : 0 < eps := by norm_num [eps]

/-- `KDL::Equal(double, double)`: absolute difference below `epsilon`
(used at /repo/libraries/ScrewTheoryLib/PadenKahanSubproblems.cpp:44). -/
def EqualR (a b : ℝ) : Prop := |a - b| < eps

/-- `KDL::Vector`. -/
@[ext]
structure Vec3 where
  x : ℝ
  y : ℝ
  z : ℝ

namespace Vec3

/-- `KDL::Vector::Zero()`. -/
instance : Zero Vec3 := ⟨⟨0, 0, 0⟩⟩
/-- `KDL::Vector operator+`. -/
instance : Add Vec3 := ⟨fun a b => ⟨a.x + b.x, a.y + b.y, a.z + b.z⟩⟩
/-- `KDL::Vector operator-`. -/
instance : Sub Vec3 := ⟨fun a b => ⟨a.x - b.x, a.y - b.y, a.z - b.z⟩⟩
/-- `KDL::Vector operator-` (unary). -/
instance : Neg Vec3 := ⟨fun a => ⟨-a.x, -a.y, -a.z⟩⟩
/-- `double * KDL::Vector` and `KDL::Vector * double`. -/
instance : SMul ℝ Vec3 := ⟨fun s a => ⟨s * a.x, s * a.y, s * a.z⟩⟩

@[simp] theorem zero_x : (0 : Vec3).x = 0 := rfl
@[simp] theorem zero_y : (0 : Vec3).y = 0 := rfl
@[simp] theorem zero_z : (0 : Vec3).z = 0 := rfl
@[simp] theorem add_x (a b : Vec3) : (a + b).x = a.x + b.x := rfl
@[simp] theorem add_y (a b : Vec3) : (a + b).y = a.y + b.y := rfl
@[simp] theorem add_z (a b : Vec3) : (a + b).z = a.z + b.z := rfl
@[simp] theorem sub_x (a b : Vec3) : (a - b).x = a.x - b.x := rfl
@[simp] theorem sub_y (a b : Vec3) : (a - b).y = a.y - b.y := rfl
@[simp] theorem sub_z (a b : Vec3) : (a - b).z = a.z - b.z := rfl
@[simp] theorem neg_x (a : Vec3) : (-a).x = -a.x := rfl
@[simp] theorem neg_y (a : Vec3) : (-a).y = -a.y := rfl
@[simp] theorem neg_z (a : Vec3) : (-a).z = -a.z := rfl
@[simp] theorem smul_x (s : ℝ) (a : Vec3) : (s • a).x = s * a.x := rfl
@[simp] theorem smul_y (s : ℝ) (a : Vec3) : (s • a).y = s * a.y := rfl
@[simp] theorem smul_z (s : ℝ) (a : Vec3) : (s • a).z = s * a.z := rfl

/-- `KDL::dot`. -/
def dot (a b : Vec3) : ℝ := a.x * b.x + a.y * b.y + a.z * b.z

/-- `KDL::Vector operator*(Vector, Vector)`: the cross product. -/
def cross (a b : Vec3) : Vec3 :=
  ⟨a.y * b.z - a.z * b.y, a.z * b.x - a.x * b.z, a.x * b.y - a.y * b.x⟩

@[simp] theorem cross_x (a b : Vec3) : (cross a b).x = a.y * b.z - a.z * b.y := rfl
@[simp] theorem cross_y (a b : Vec3) : (cross a b).y = a.z * b.x - a.x * b.z := rfl
@[simp] theorem cross_z (a b : Vec3) : (cross a b).z = a.x * b.y - a.y * b.x := rfl

/-- `KDL::Vector::Norm()`. -/
noncomputable def norm (a : Vec3) : ℝ := √(dot a a)

/-- `KDL::Vector::Normalize(eps)`: vectors shorter than `epsilon` become the
first unit vector, any other is divided by its norm. Called by the constructor
at /repo/libraries/ScrewTheoryLib/MatrixExponential.cpp:31. -/
noncomputable def normalize (a : Vec3) : Vec3 :=
  open Classical in
  if a.norm < eps then ⟨1, 0, 0⟩ else (1 / a.norm) • a

/-- `KDL::Equal(Vector, Vector)`: componentwise comparison with tolerance. -/
def Equal (a b : Vec3) : Prop := EqualR a.x b.x ∧ EqualR a.y b.y ∧ EqualR a.z b.z

end Vec3

/-- `KDL::Rotation`: a 3x3 matrix; nothing forces it to be orthonormal. -/
@[ext]
structure Mat3 where
  xx : ℝ
  xy : ℝ
  xz : ℝ
  yx : ℝ
  yy : ℝ
  yz : ℝ
  zx : ℝ
  zy : ℝ
  zz : ℝ

namespace Mat3

/-- `KDL::Rotation::Identity()`. -/
instance : One Mat3 := ⟨⟨1, 0, 0, 0, 1, 0, 0, 0, 1⟩⟩

/-- Elementwise difference, /repo/libraries/ScrewTheoryLib/MatrixExponential.cpp:16-21. -/
instance : Sub Mat3 := ⟨fun a b =>
  ⟨a.xx - b.xx, a.xy - b.xy, a.xz - b.xz,
   a.yx - b.yx, a.yy - b.yy, a.yz - b.yz,
   a.zx - b.zx, a.zy - b.zy, a.zz - b.zz⟩⟩

/-- `KDL::Rotation operator*`: matrix product. -/
instance : Mul Mat3 := ⟨fun a b =>
  ⟨a.xx * b.xx + a.xy * b.yx + a.xz * b.zx,
   a.xx * b.xy + a.xy * b.yy + a.xz * b.zy,
   a.xx * b.xz + a.xy * b.yz + a.xz * b.zz,
   a.yx * b.xx + a.yy * b.yx + a.yz * b.zx,
   a.yx * b.xy + a.yy * b.yy + a.yz * b.zy,
   a.yx * b.xz + a.yy * b.yz + a.yz * b.zz,
   a.zx * b.xx + a.zy * b.yx + a.zz * b.zx,
   a.zx * b.xy + a.zy * b.yy + a.zz * b.zy,
   a.zx * b.xz + a.zy * b.yz + a.zz * b.zz⟩⟩

/-- `KDL::Rotation * KDL::Vector`. -/
def mulVec (m : Mat3) (v : Vec3) : Vec3 :=
  ⟨m.xx * v.x + m.xy * v.y + m.xz * v.z,
   m.yx * v.x + m.yy * v.y + m.yz * v.z,
   m.zx * v.x + m.zy * v.y + m.zz * v.z⟩

/-- Transpose; `KDL::Rotation::Inverse()` returns it. -/
def transpose (m : Mat3) : Mat3 :=
  ⟨m.xx, m.yx, m.zx, m.xy, m.yy, m.zy, m.xz, m.yz, m.zz⟩

/-- Determinant (specification only). -/
def det (m : Mat3) : ℝ :=
  m.xx * (m.yy * m.zz - m.yz * m.zy) - m.xy * (m.yx * m.zz - m.yz * m.zx)
    + m.xz * (m.yx * m.zy - m.yy * m.zx)

/-- Specification: orthonormal with determinant one. -/
structure IsRot (m : Mat3) : Prop where
  left : m.transpose * m = 1
  right : m * m.transpose = 1
  det : m.det = 1

section simps
variable (a b m : Mat3) (v : Vec3)
@[simp] theorem one_xx : (1 : Mat3).xx = 1 := rfl
@[simp] theorem one_xy : (1 : Mat3).xy = 0 := rfl
@[simp] theorem one_xz : (1 : Mat3).xz = 0 := rfl
@[simp] theorem one_yx : (1 : Mat3).yx = 0 := rfl
@[simp] theorem one_yy : (1 : Mat3).yy = 1 := rfl
@[simp] theorem one_yz : (1 : Mat3).yz = 0 := rfl
@[simp] theorem one_zx : (1 : Mat3).zx = 0 := rfl
@[simp] theorem one_zy : (1 : Mat3).zy = 0 := rfl
@[simp] theorem one_zz : (1 : Mat3).zz = 1 := rfl
@[simp] theorem sub_xx : (a - b).xx = a.xx - b.xx := rfl
@[simp] theorem sub_xy : (a - b).xy = a.xy - b.xy := rfl
@[simp] theorem sub_xz : (a - b).xz = a.xz - b.xz := rfl
@[simp] theorem sub_yx : (a - b).yx = a.yx - b.yx := rfl
@[simp] theorem sub_yy : (a - b).yy = a.yy - b.yy := rfl
@[simp] theorem sub_yz : (a - b).yz = a.yz - b.yz := rfl
@[simp] theorem sub_zx : (a - b).zx = a.zx - b.zx := rfl
@[simp] theorem sub_zy : (a - b).zy = a.zy - b.zy := rfl
@[simp] theorem sub_zz : (a - b).zz = a.zz - b.zz := rfl
@[simp] theorem mul_xx : (a * b).xx = a.xx * b.xx + a.xy * b.yx + a.xz * b.zx := rfl
@[simp] theorem mul_xy : (a * b).xy = a.xx * b.xy + a.xy * b.yy + a.xz * b.zy := rfl
@[simp] theorem mul_xz : (a * b).xz = a.xx * b.xz + a.xy * b.yz + a.xz * b.zz := rfl
@[simp] theorem mul_yx : (a * b).yx = a.yx * b.xx + a.yy * b.yx + a.yz * b.zx := rfl
@[simp] theorem mul_yy : (a * b).yy = a.yx * b.xy + a.yy * b.yy + a.yz * b.zy := rfl
@[simp] theorem mul_yz : (a * b).yz = a.yx * b.xz + a.yy * b.yz + a.yz * b.zz := rfl
@[simp] theorem mul_zx : (a * b).zx = a.zx * b.xx + a.zy * b.yx + a.zz * b.zx := rfl
@[simp] theorem mul_zy : (a * b).zy = a.zx * b.xy + a.zy * b.yy + a.zz * b.zy := rfl
@[simp] theorem mul_zz : (a * b).zz = a.zx * b.xz + a.zy * b.yz + a.zz * b.zz := rfl
@[simp] theorem mulVec_x : (m.mulVec v).x = m.xx * v.x + m.xy * v.y + m.xz * v.z := rfl
@[simp] theorem mulVec_y : (m.mulVec v).y = m.yx * v.x + m.yy * v.y + m.yz * v.z := rfl
@[simp] theorem mulVec_z : (m.mulVec v).z = m.zx * v.x + m.zy * v.y + m.zz * v.z := rfl
@[simp] theorem transpose_xx : m.transpose.xx = m.xx := rfl
@[simp] theorem transpose_xy : m.transpose.xy = m.yx := rfl
@[simp] theorem transpose_xz : m.transpose.xz = m.zx := rfl
@[simp] theorem transpose_yx : m.transpose.yx = m.xy := rfl
@[simp] theorem transpose_yy : m.transpose.yy = m.yy := rfl
@[simp] theorem transpose_yz : m.transpose.yz = m.zy := rfl
@[simp] theorem transpose_zx : m.transpose.zx = m.xz := rfl
@[simp] theorem transpose_zy : m.transpose.zy = m.yz := rfl
@[simp] theorem transpose_zz : m.transpose.zz = m.zz := rfl
end simps

/-- `KDL::Rotation::Rot2(v, angle)`: Rodrigues' formula; the caller guarantees
that `v` is a unit vector. Called at
/repo/libraries/ScrewTheoryLib/MatrixExponential.cpp:43. -/
noncomputable def rot2 (v : Vec3) (θ : ℝ) : Mat3 :=
  let ct := cos θ
  let st := sin θ
  let vt := 1 - ct
  ⟨ct + vt * v.x * v.x, -(v.z * st) + vt * v.x * v.y, v.y * st + vt * v.x * v.z,
   v.z * st + vt * v.x * v.y, ct + vt * v.y * v.y, -(v.x * st) + vt * v.y * v.z,
   -(v.y * st) + vt * v.x * v.z, v.x * st + vt * v.y * v.z, ct + vt * v.z * v.z⟩

/-- `KDL::Rotation::RotX(angle)`. -/
noncomputable def rotX (θ : ℝ) : Mat3 := ⟨1, 0, 0, 0, cos θ, -sin θ, 0, sin θ, cos θ⟩
/-- `KDL::Rotation::RotY(angle)`. -/
noncomputable def rotY (θ : ℝ) : Mat3 := ⟨cos θ, 0, sin θ, 0, 1, 0, -sin θ, 0, cos θ⟩
/-- `KDL::Rotation::RotZ(angle)`. -/
noncomputable def rotZ (θ : ℝ) : Mat3 := ⟨cos θ, -sin θ, 0, sin θ, cos θ, 0, 0, 0, 1⟩

end Mat3

/-- `KDL::Frame`: rotation `M` and translation `p`. -/
@[ext]
structure Frame where
  M : Mat3
  p : Vec3

namespace Frame

/-- `KDL::Frame::Identity()`, also the default constructor. -/
instance : One Frame := ⟨⟨1, 0⟩⟩

/-- `KDL::Frame operator*`. -/
instance : Mul Frame := ⟨fun a b => ⟨a.M * b.M, a.M.mulVec b.p + a.p⟩⟩

/-- `KDL::Frame::Inverse()`: uses the transpose of the rotation. -/
def inv (a : Frame) : Frame := ⟨a.M.transpose, -(a.M.transpose.mulVec a.p)⟩

/-- `KDL::Frame * KDL::Vector`: action on points. -/
def act (a : Frame) (v : Vec3) : Vec3 := a.M.mulVec v + a.p

/-- `KDL::Frame(Vector)`: pure translation. -/
def trans (v : Vec3) : Frame := ⟨1, v⟩

@[simp] theorem one_M : (1 : Frame).M = 1 := rfl
@[simp] theorem one_p : (1 : Frame).p = 0 := rfl
@[simp] theorem mul_M (a b : Frame) : (a * b).M = a.M * b.M := rfl
@[simp] theorem mul_p (a b : Frame) : (a * b).p = a.M.mulVec b.p + a.p := rfl
@[simp] theorem inv_M (a : Frame) : a.inv.M = a.M.transpose := rfl
@[simp] theorem inv_p (a : Frame) : a.inv.p = -(a.M.transpose.mulVec a.p) := rfl
@[simp] theorem trans_M (v : Vec3) : (trans v).M = 1 := rfl
@[simp] theorem trans_p (v : Vec3) : (trans v).p = v := rfl

/-- Specification: a rigid motion. -/
def IsRigid (a : Frame) : Prop := a.M.IsRot

end Frame

/-- `std::atan2(y, x)`: the argument of `x + iy`, in `(-pi, pi]`, zero at the origin. -/
noncomputable def atan2 (y x : ℝ) : ℝ := Complex.arg ⟨x, y⟩

end KD
