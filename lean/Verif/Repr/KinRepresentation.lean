import Verif.Kdl.Rotations

/-!
# /repo/libraries/KinematicRepresentationLib/KinematicRepresentation.{hpp,cpp}

The conversion functions are written against a small memory of two `std::vector<double>`, the source
and the destination, that may be one and the same object ("in-place transformation"). Accessing an
element out of bounds is undefined behaviour and has no result (`none`). Reals stand for `double`;
logging is left out; enumerators out of range are not modelled.
-/

namespace KD

namespace KinRepr

/-- `coordinate_system`, /repo/libraries/KinematicRepresentationLib/KinematicRepresentation.hpp:26-32. -/
inductive Coord
  | cartesian | cylindrical | spherical | none
  deriving DecidableEq

/-- `orientation_system`, /repo/libraries/KinematicRepresentationLib/KinematicRepresentation.hpp:35-44. -/
inductive Orient
  | axisAngle | axisAngleScaled | rpy | eulerYZ | eulerZYZ | polarAzimuth | none
  deriving DecidableEq

/-- `angular_units`, /repo/libraries/KinematicRepresentationLib/KinematicRepresentation.hpp:47-51. -/
inductive Units
  | degrees | radians
  deriving DecidableEq

/-- `degToRad`, /repo/libraries/KinematicRepresentationLib/KinematicRepresentation.cpp:516-519;
`KDL::deg2rad` is taken to be exact. -/
noncomputable def degToRad (deg : ℝ) : ℝ := deg * (Real.pi / 180)

/-- `radToDeg`, /repo/libraries/KinematicRepresentationLib/KinematicRepresentation.cpp:523-526;
`KDL::rad2deg` is taken to be exact. -/
noncomputable def radToDeg (rad : ℝ) : ℝ := rad * (180 / Real.pi)

/-- `degToRadHelper`, /repo/libraries/KinematicRepresentationLib/KinematicRepresentation.cpp:19-22. -/
noncomputable def inRad (u : Units) (v : ℝ) : ℝ := if u = .radians then v else degToRad v

/-- `radToDegHelper`, /repo/libraries/KinematicRepresentationLib/KinematicRepresentation.cpp:24-27. -/
noncomputable def outRad (u : Units) (v : ℝ) : ℝ := if u = .radians then v else radToDeg v

/-- Elements of the translational part, /repo/libraries/KinematicRepresentationLib/KinematicRepresentation.cpp:33-44. -/
def coordSize : Coord → ℕ
  | .none => 0
  | _ => 3

/-- Elements of the rotational part, /repo/libraries/KinematicRepresentationLib/KinematicRepresentation.cpp:46-64. -/
def orientSize : Orient → ℕ
  | .axisAngle => 4
  | .axisAngleScaled | .rpy | .eulerZYZ => 3
  | .eulerYZ | .polarAzimuth => 2
  | .none => 0

/-- Source and destination vectors. If they are the same object, `src` is not used.
The vectors of /repo/libraries/KinematicRepresentationLib/KinematicRepresentation.cpp:80-510. -/
structure Mem where
  src : List ℝ
  dst : List ℝ
  same : Bool

namespace Mem

/-- Current contents of the source.
The vectors of /repo/libraries/KinematicRepresentationLib/KinematicRepresentation.cpp:80-510. -/
def input (m : Mem) : List ℝ := if m.same then m.dst else m.src

end Mem

/-- A piece of a conversion function; `none` is undefined behaviour.
The vectors of /repo/libraries/KinematicRepresentationLib/KinematicRepresentation.cpp:80-510. -/
abbrev Act (α : Type) := Mem → Option (α × Mem)

/-- One piece after another.
The vectors of /repo/libraries/KinematicRepresentationLib/KinematicRepresentation.cpp:80-510. -/
def Act.andThen {α β : Type} (a : Act α) (f : α → Act β) : Act β := fun m =>
  match a m with
  | some (v, m') => f v m'
  | none => none

instance : Monad Act where
  pure v := fun m => some (v, m)
  bind := Act.andThen

/-- `x_in[i]`. The vectors of /repo/libraries/KinematicRepresentationLib/KinematicRepresentation.cpp:80-510. -/
def rd (i : ℕ) : Act ℝ := fun m =>
  if i < m.input.length then some (m.input.getD i 0, m) else none

/-- `x_out[i] = v`. The vectors of /repo/libraries/KinematicRepresentationLib/KinematicRepresentation.cpp:80-510. -/
def wr (i : ℕ) (v : ℝ) : Act Unit := fun m =>
  if i < m.dst.length then some ((), { m with dst := m.dst.set i v }) else none

/-- `std::vector::resize`: truncates or appends zeros.
`std::vector::resize`, used in /repo/libraries/KinematicRepresentationLib/KinematicRepresentation.cpp:80-510. -/
def resizeList (n : ℕ) (l : List ℝ) : List ℝ := l.take n ++ List.replicate (n - l.length) 0

/-- `x_out.resize(n)`.
`std::vector::resize`, used in /repo/libraries/KinematicRepresentationLib/KinematicRepresentation.cpp:80-510. -/
def resize (n : ℕ) : Act Unit := fun m => some ((), { m with dst := resizeList n m.dst })

/-- `x_out.resize(std::max<int>(n, x_out.size()))`: never truncates.
Used in /repo/libraries/KinematicRepresentationLib/KinematicRepresentation.cpp:80-510. -/
def grow (n : ℕ) : Act Unit := fun m =>
  some ((), { m with dst := resizeList (max n m.dst.length) m.dst })

/-- `checkVectorSize`, /repo/libraries/KinematicRepresentationLib/KinematicRepresentation.cpp:29-68. -/
def checkVectorSize (c : Coord) (o : Orient) : Act Bool := fun m =>
  some (decide (coordSize c + orientSize o ≤ m.input.length), m)

/-- `off`, /repo/libraries/KinematicRepresentationLib/KinematicRepresentation.cpp:87,196,318,412. -/
def offset : Coord → ℕ
  | .none => 0
  | _ => 3

/-- Writes a rotation vector at indices 3 to 5, e.g.
/repo/libraries/KinematicRepresentationLib/KinematicRepresentation.cpp:95-97. -/
def wrRot (v : Vec3) : Act Bool := do
  wr 3 v.x
  wr 4 v.y
  wr 5 v.z
  pure true

/-- First switch of `encodePose`, /repo/libraries/KinematicRepresentationLib/KinematicRepresentation.cpp:89-156. -/
noncomputable def encodeOrient (c : Coord) (o : Orient) (u : Units) : Act Bool :=
  let off := offset c
  match o with
  | .axisAngle => do
    let x ← rd (0 + off)
    let y ← rd (1 + off)
    let z ← rd (2 + off)
    let θ ← rd (3 + off)
    wrRot (Mat3.rot ⟨x, y, z⟩ (inRad u θ)).getRot
  | .axisAngleScaled => do
    let a ← rd (0 + off)
    wr 3 (inRad u a)
    let b ← rd (1 + off)
    wr 4 (inRad u b)
    let c ← rd (2 + off)
    wr 5 (inRad u c)
    pure true
  | .rpy => do
    let r ← rd (0 + off)
    let p ← rd (1 + off)
    let y ← rd (2 + off)
    wrRot (Mat3.rpy (inRad u r) (inRad u p) (inRad u y)).getRot
  | .eulerYZ =>
    if c = .none then pure false
    else do
      let py ← rd 1
      let px ← rd 0
      let b ← rd 3
      let g ← rd 4
      wrRot (Mat3.eulerZYZ (atan2 py px) (inRad u b) (inRad u g)).getRot
  | .eulerZYZ => do
    let a ← rd (0 + off)
    let b ← rd (1 + off)
    let g ← rd (2 + off)
    wrRot (Mat3.eulerZYZ (inRad u a) (inRad u b) (inRad u g)).getRot
  | .polarAzimuth => do
    let az ← rd (1 + off)
    let po ← rd (0 + off)
    wrRot (Mat3.rot2 ⟨-Real.sin (inRad u az), Real.cos (inRad u az), 0⟩ (inRad u po)).getRot
  | .none => wrRot 0

/-- Copies the position, /repo/libraries/KinematicRepresentationLib/KinematicRepresentation.cpp:164-166,285-287. -/
def copyPos : Act Bool := do
  let a ← rd 0
  wr 0 a
  let b ← rd 1
  wr 1 b
  let c ← rd 2
  wr 2 c
  pure true

/-- Second switch of `encodePose`, /repo/libraries/KinematicRepresentationLib/KinematicRepresentation.cpp:161-180. -/
def encodeCoord : Coord → Act Bool
  | .cartesian => copyPos
  | .cylindrical => pure false
  | .spherical => pure false
  | .none => do
    wr 2 0
    wr 1 0
    wr 0 0
    pure true

/-- `encodePose`, /repo/libraries/KinematicRepresentationLib/KinematicRepresentation.cpp:76-183. -/
noncomputable def encodePose (c : Coord) (o : Orient) (u : Units) : Act Bool := do
  let ok ← checkVectorSize c o
  if ok = false then pure false
  else
    grow 6
    let ok ← encodeOrient c o u
    if ok = false then pure false
    else
      resize 6
      encodeCoord c

open scoped Classical in
/-- First switch of `decodePose`, /repo/libraries/KinematicRepresentationLib/KinematicRepresentation.cpp:198-280. -/
noncomputable def decodeOrient (c : Coord) (o : Orient) (u : Units) : Act Bool :=
  let off := offset c
  match o with
  | .axisAngle => do
    grow (4 + off)
    let x ← rd 3
    let y ← rd 4
    let z ← rd 5
    let axis : Vec3 := ⟨x, y, z⟩
    wr (3 + off) (outRad u axis.norm)
    wr (0 + off) axis.normalize.x
    wr (1 + off) axis.normalize.y
    wr (2 + off) axis.normalize.z
    resize (4 + off)
    pure true
  | .axisAngleScaled => do
    grow (3 + off)
    let x ← rd 3
    wr (0 + off) (outRad u x)
    let y ← rd 4
    wr (1 + off) (outRad u y)
    let z ← rd 5
    wr (2 + off) (outRad u z)
    resize (3 + off)
    pure true
  | .rpy => do
    grow (3 + off)
    let x ← rd 3
    let y ← rd 4
    let z ← rd 5
    let axis : Vec3 := ⟨x, y, z⟩
    let a := (Mat3.rot axis axis.norm).getRPY
    wr (0 + off) (outRad u a.1)
    wr (1 + off) (outRad u a.2.1)
    wr (2 + off) (outRad u a.2.2)
    resize (3 + off)
    pure true
  | .eulerYZ => do
    grow (2 + off)
    let x ← rd 3
    let y ← rd 4
    let z ← rd 5
    let axis : Vec3 := ⟨x, y, z⟩
    let a := (Mat3.rot axis axis.norm).getEulerZYZ
    wr (0 + off) (outRad u a.2.1)
    wr (1 + off) (outRad u a.2.2)
    resize (2 + off)
    pure true
  | .eulerZYZ => do
    grow (3 + off)
    let x ← rd 3
    let y ← rd 4
    let z ← rd 5
    let axis : Vec3 := ⟨x, y, z⟩
    let a := (Mat3.rot axis axis.norm).getEulerZYZ
    wr (0 + off) (outRad u a.1)
    wr (1 + off) (outRad u a.2.1)
    wr (2 + off) (outRad u a.2.2)
    resize (3 + off)
    pure true
  | .polarAzimuth => do
    let z ← rd 5
    if |z| > eps then pure false
    else
      grow (2 + off)
      let x ← rd 3
      let y ← rd 4
      let z ← rd 5
      let axis : Vec3 := ⟨x, y, z⟩
      wr (0 + off) (outRad u axis.norm)
      wr (1 + off) (outRad u (atan2 (-axis.x) axis.y))
      resize (2 + off)
      pure true
  | .none => do
    resize off
    pure true

/-- Second switch of `decodePose`, /repo/libraries/KinematicRepresentationLib/KinematicRepresentation.cpp:282-300. -/
def decodeCoord : Coord → Act Bool
  | .cartesian => copyPos
  | .cylindrical => pure false
  | .spherical => pure false
  | .none => pure true

/-- `decodePose`, /repo/libraries/KinematicRepresentationLib/KinematicRepresentation.cpp:187-303. -/
noncomputable def decodePose (c : Coord) (o : Orient) (u : Units) : Act Bool := do
  let ok ← checkVectorSize .cartesian .axisAngleScaled
  if ok = false then pure false
  else
    let ok ← decodeOrient c o u
    if ok = false then pure false
    else decodeCoord c

/-! ## Velocities -/

/-- `x_in[i]` of the velocity conversions: the pose, a vector of its own (never the destination).
/repo/libraries/KinematicRepresentationLib/KinematicRepresentation.cpp:268-510. -/
def rdPose (pose : List ℝ) (i : ℕ) : Act ℝ := fun m =>
  if i < pose.length then some (pose.getD i 0, m) else none

/-- The matrix both velocity conversions use for roll-pitch-yaw rates,
/repo/libraries/KinematicRepresentationLib/KinematicRepresentation.cpp:341-350 and 437-442; its
columns are the fixed z axis, the y axis after the yaw and the x axis after the yaw and the pitch. -/
noncomputable def rpyRates (pitch yaw : ℝ) : Mat3 :=
  let colX : Vec3 := ⟨0, 0, 1⟩
  let colY := (Mat3.rotZ yaw).mulVec ⟨0, 1, 0⟩
  let colZ := (Mat3.rotZ yaw).mulVec ((Mat3.rotY pitch).mulVec ⟨1, 0, 0⟩)
  ⟨colX.x, colY.x, colZ.x, colX.y, colY.y, colZ.y, colX.z, colY.z, colZ.z⟩

/-- First switch of `encodeVelocity`, /repo/libraries/KinematicRepresentationLib/KinematicRepresentation.cpp:320-372. -/
noncomputable def encodeVelOrient (pose : List ℝ) (c : Coord) (o : Orient) (u : Units) : Act Bool :=
  let off := offset c
  match o with
  | .axisAngle => do
    let x ← rd (0 + off)
    let y ← rd (1 + off)
    let z ← rd (2 + off)
    let θ ← rd (3 + off)
    wrRot (Mat3.rot ⟨x, y, z⟩ (inRad u θ)).getRot
  | .axisAngleScaled => do
    let a ← rd (0 + off)
    wr 3 (inRad u a)
    let b ← rd (1 + off)
    wr 4 (inRad u b)
    let c ← rd (2 + off)
    wr 5 (inRad u c)
    pure true
  | .rpy => do
    let yaw ← rdPose pose (2 + off)
    let pitch ← rdPose pose (1 + off)
    let a ← rd (0 + off)
    let b ← rd (1 + off)
    let g ← rd (2 + off)
    wrRot ((rpyRates (inRad u pitch) (inRad u yaw)).mulVec ⟨inRad u a, inRad u b, inRad u g⟩)
  | .eulerYZ => pure false
  | .eulerZYZ => pure false
  | .polarAzimuth => pure false
  | .none => wrRot 0

/-- `encodeVelocity`, /repo/libraries/KinematicRepresentationLib/KinematicRepresentation.cpp:307-399. -/
noncomputable def encodeVelocity (pose : List ℝ) (c : Coord) (o : Orient) (u : Units) : Act Bool := do
  let ok ← checkVectorSize c o
  if ok = false then pure false
  else
    grow 6
    let ok ← encodeVelOrient pose c o u
    if ok = false then pure false
    else
      resize 6
      encodeCoord c

/-- First switch of `decodeVelocity`, /repo/libraries/KinematicRepresentationLib/KinematicRepresentation.cpp:414-469. -/
noncomputable def decodeVelOrient (pose : List ℝ) (c : Coord) (o : Orient) (u : Units) : Act Bool :=
  let off := offset c
  match o with
  | .axisAngle => do
    grow (4 + off)
    let x ← rd 3
    let y ← rd 4
    let z ← rd 5
    let axis : Vec3 := ⟨x, y, z⟩
    wr (3 + off) (outRad u axis.norm)
    wr (0 + off) axis.normalize.x
    wr (1 + off) axis.normalize.y
    wr (2 + off) axis.normalize.z
    resize (4 + off)
    pure true
  | .axisAngleScaled => do
    grow (3 + off)
    let x ← rd 3
    wr (0 + off) (outRad u x)
    let y ← rd 4
    wr (1 + off) (outRad u y)
    let z ← rd 5
    wr (2 + off) (outRad u z)
    resize (3 + off)
    pure true
  | .rpy => do
    grow (3 + off)
    let yaw ← rdPose pose 5
    let pitch ← rdPose pose 4
    let x ← rd 3
    let y ← rd 4
    let z ← rd 5
    let v := (rpyRates pitch yaw).transpose.mulVec ⟨x, y, z⟩
    wr (0 + off) (outRad u v.x)
    wr (1 + off) (outRad u v.y)
    wr (2 + off) (outRad u v.z)
    resize (3 + off)
    pure true
  | .eulerYZ => pure false
  | .eulerZYZ => pure false
  | .polarAzimuth => pure false
  | .none => do
    resize off
    pure true

/-- `decodeVelocity`, /repo/libraries/KinematicRepresentationLib/KinematicRepresentation.cpp:403-492. -/
noncomputable def decodeVelocity (pose : List ℝ) (c : Coord) (o : Orient) (u : Units) : Act Bool := do
  let ok ← checkVectorSize .cartesian .axisAngleScaled
  if ok = false then pure false
  else
    let ok ← decodeVelOrient pose c o u
    if ok = false then pure false
    else decodeCoord c

/-- `encodeAcceleration` and `decodeAcceleration`,
/repo/libraries/KinematicRepresentationLib/KinematicRepresentation.cpp:496-512: not implemented. -/
def convertAcceleration : Act Bool := pure false

/-- `parseEnumerator` for coordinate systems: match flag and value,
/repo/libraries/KinematicRepresentationLib/KinematicRepresentation.cpp:530-555. -/
def parseCoord (s : String) (fallback : Coord) : Bool × Coord :=
  if s = "cartesian" then (true, .cartesian)
  else if s = "cylindrical" then (true, .cylindrical)
  else if s = "spherical" then (true, .spherical)
  else if s = "none" then (true, .none)
  else (false, fallback)

/-- `parseEnumerator` for orientation systems,
/repo/libraries/KinematicRepresentationLib/KinematicRepresentation.cpp:559-596. -/
def parseOrient (s : String) (fallback : Orient) : Bool × Orient :=
  if s = "axisAngle" then (true, .axisAngle)
  else if s = "axisAngleScaled" then (true, .axisAngleScaled)
  else if s = "RPY" then (true, .rpy)
  else if s = "eulerYZ" then (true, .eulerYZ)
  else if s = "eulerZYZ" then (true, .eulerZYZ)
  else if s = "polarAzimuth" then (true, .polarAzimuth)
  else if s = "none" then (true, .none)
  else (false, fallback)

/-- `parseEnumerator` for angular units,
/repo/libraries/KinematicRepresentationLib/KinematicRepresentation.cpp:600-617. -/
def parseUnits (s : String) (fallback : Units) : Bool × Units :=
  if s = "degrees" then (true, .degrees)
  else if s = "radians" then (true, .radians)
  else (false, fallback)

end KinRepr

end KD
