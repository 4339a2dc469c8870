import Verif.Kdl.RotVec
import Verif.Repr.KinRepresentation

/-!
# What a pose vector means

Written from the documentation of the representations
(/repo/libraries/KinematicRepresentationLib/KinematicRepresentation.hpp:25-51), not from the
conversion functions.
-/

namespace KD

namespace KinRepr

/-- An angle, in radians. -/
noncomputable def angle (u : Units) (v : ℝ) : ℝ :=
  match u with
  | .radians => v
  | .degrees => v * Real.pi / 180

/-- Index of the first orientation element. -/
def firstOrient : Coord → ℕ
  | .none => 0
  | _ => 3

/-- Rotation described by the orientation elements of `x`; they start at index `n`. -/
noncomputable def orientation (o : Orient) (u : Units) (x : List ℝ) (n : ℕ) : Mat3 :=
  let raw := fun i => x.getD (i + n) 0
  let a := fun i => angle u (raw i)
  match o with
  | .axisAngle =>
    let v : Vec3 := ⟨raw 0, raw 1, raw 2⟩
    Mat3.rot2 ((1 / v.norm) • v) (a 3)
  | .axisAngleScaled => Mat3.expRot ⟨a 0, a 1, a 2⟩
  | .rpy => Mat3.rotZ (a 2) * Mat3.rotY (a 1) * Mat3.rotX (a 0)
  | .eulerYZ => Mat3.rotZ (atan2 (x.getD 1 0) (x.getD 0 0)) * Mat3.rotY (a 0) * Mat3.rotZ (a 1)
  | .eulerZYZ => Mat3.rotZ (a 0) * Mat3.rotY (a 1) * Mat3.rotZ (a 2)
  | .polarAzimuth => Mat3.rot2 ⟨-Real.sin (a 1), Real.cos (a 1), 0⟩ (a 0)
  | .none => 1

/-- Rigid transform described by a pose vector in Cartesian coordinates, or in none. -/
noncomputable def meaning (c : Coord) (o : Orient) (u : Units) (x : List ℝ) : Frame :=
  ⟨orientation o u x (firstOrient c), if c = .none then 0 else ⟨x.getD 0 0, x.getD 1 0, x.getD 2 0⟩⟩

/-- The representation everything is converted to and from: a position and a rotation vector. -/
noncomputable def standard (x : List ℝ) : Frame := meaning .cartesian .axisAngleScaled .radians x

/-- Does element `i` of a pose or velocity vector hold an angle (or an angular speed)? -/
def isAngle (c : Coord) (o : Orient) (i : ℕ) : Bool :=
  match o with
  | .axisAngle => i == firstOrient c + 3
  | .none => false
  | _ => decide (firstOrient c ≤ i)

/-- All angles of a vector multiplied by a factor. -/
def scaleAngles (k : ℝ) (c : Coord) (o : Orient) (x : List ℝ) : List ℝ :=
  x.mapIdx fun i v => if isAngle c o i then v * k else v

end KinRepr

end KD
