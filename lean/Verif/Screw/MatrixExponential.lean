import Verif.Kdl.Basic

/-! # /repo/libraries/ScrewTheoryLib/MatrixExponential.{hpp,cpp} and
/repo/libraries/ScrewTheoryLib/ScrewTheoryTools.hpp -/

namespace KD

/-- `MatrixExponential::motion` (/repo/libraries/ScrewTheoryLib/MatrixExponential.hpp:22-26). -/
inductive Motion
  | rotation | translation
  deriving DecidableEq

/-- `MatrixExponential`: motion type, axis and origin
(/repo/libraries/ScrewTheoryLib/MatrixExponential.hpp, private members). -/
@[ext]
structure MatrixExp where
  motion : Motion
  axis : Vec3
  origin : Vec3

namespace MatrixExp

/-- Constructor, /repo/libraries/ScrewTheoryLib/MatrixExponential.cpp:26-32. -/
noncomputable def make (m : Motion) (axis origin : Vec3) : MatrixExp := ⟨m, axis.normalize, origin⟩

/-- `asFrame`, /repo/libraries/ScrewTheoryLib/MatrixExponential.cpp:36-54. The default
branch of the switch is unreachable: the enumeration has two members. -/
noncomputable def asFrame (e : MatrixExp) (θ : ℝ) : Frame :=
  match e.motion with
  | .rotation =>
    let M := Mat3.rot2 e.axis θ
    ⟨M, (1 - M).mulVec (Vec3.cross (Vec3.cross e.axis e.origin) e.axis)⟩
  | .translation => ⟨1, θ • e.axis⟩

/-- `changeBase` and `cloneWithBase`,
/repo/libraries/ScrewTheoryLib/MatrixExponential.cpp:58-75. -/
def changeBase (e : MatrixExp) (H : Frame) : MatrixExp :=
  match e.motion with
  | .rotation => ⟨.rotation, H.M.mulVec e.axis, H.act e.origin⟩
  | .translation => ⟨.translation, H.M.mulVec e.axis, e.origin⟩

end MatrixExp

/-- `vectorPow2`, /repo/libraries/ScrewTheoryLib/ScrewTheoryTools.hpp:46-51. -/
def vectorPow2 (v : Vec3) : Mat3 :=
  ⟨v.x * v.x, v.x * v.y, v.x * v.z,
   v.x * v.y, v.y * v.y, v.y * v.z,
   v.x * v.z, v.y * v.z, v.z * v.z⟩

/-- `normalizeAngle`, /repo/libraries/ScrewTheoryLib/ScrewTheoryTools.hpp:64-82. -/
noncomputable def normalizeAngle (a : ℝ) : ℝ :=
  open Classical in
  if EqualR |a| Real.pi then Real.pi
  else if a > Real.pi then a - 2 * Real.pi
  else if a < -Real.pi then a + 2 * Real.pi
  else a

end KD
