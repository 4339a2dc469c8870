import Verif.Kdl.Twist

/-!
# Trajectories of KDL

`Path_Line`, `RotationalInterpolation_SingleAxis`, `VelocityProfile_Trap`, `VelocityProfile_Rectangular` and
`Trajectory_Segment`, as used at
/repo/libraries/YarpPlugins/BasicCartesianControl/ICartesianControlImpl.cpp:221-225 and :279-284, and
/repo/programs/keyboardController/LinearTrajectoryThread.cpp:87-90. KDL is not part of /repo: these
definitions follow its documentation and its public source.
-/

namespace KD

/-- `KDL::RotationalInterpolation_SingleAxis`: orientation at the start, axis of the rotation to the end (in the
frame of the start) and its angle.
External to /repo (KDL); used at /repo/libraries/YarpPlugins/BasicCartesianControl/ICartesianControlImpl.cpp:213-226 and 271-285. -/
structure SingleAxis where
  start : Mat3
  axis : Vec3
  angle : ℝ

namespace SingleAxis

/-- `SetStartEnd(start, end)`.
External to /repo (KDL); used at /repo/libraries/YarpPlugins/BasicCartesianControl/ICartesianControlImpl.cpp:213-226 and 271-285. -/
noncomputable def between (a b : Mat3) : SingleAxis :=
  let r := (a.transpose * b).getRot
  ⟨a, r.normalize, r.norm⟩

/-- `Pos(theta)`.
External to /repo (KDL); used at /repo/libraries/YarpPlugins/BasicCartesianControl/ICartesianControlImpl.cpp:213-226 and 271-285. -/
noncomputable def pos (o : SingleAxis) (θ : ℝ) : Mat3 := o.start * Mat3.rot2 o.axis θ

/-- `Vel(theta, thetad)`.
External to /repo (KDL); used at /repo/libraries/YarpPlugins/BasicCartesianControl/ICartesianControlImpl.cpp:213-226 and 271-285. -/
def vel (o : SingleAxis) (θd : ℝ) : Vec3 := o.start.mulVec (θd • o.axis)

end SingleAxis

/-- `KDL::Path_Line`.
External to /repo (KDL); used at /repo/libraries/YarpPlugins/BasicCartesianControl/ICartesianControlImpl.cpp:213-226 and 271-285. -/
structure PathLine where
  orient : SingleAxis
  start : Vec3
  dir : Vec3
  length : ℝ
  scaleRot : ℝ
  scaleLin : ℝ

namespace PathLine

/-- What both constructors do once the ends are known; `radius` is the equivalent radius.
External to /repo (KDL); used at /repo/libraries/YarpPlugins/BasicCartesianControl/ICartesianControlImpl.cpp:213-226 and 271-285. -/
noncomputable def make (orient : SingleAxis) (start stop : Vec3) (radius : ℝ) : PathLine :=
  open Classical in
  let v := stop - start
  let dist := v.norm
  let alpha := orient.angle
  if alpha ≠ 0 ∧ alpha * radius > dist then
    ⟨orient, start, v.normalize, alpha * radius, 1 / radius, dist / (alpha * radius)⟩
  else if dist ≠ 0 then ⟨orient, start, v.normalize, dist, alpha / dist, 1⟩
  else ⟨orient, start, v.normalize, 0, 1, 1⟩

/-- `Path_Line(startpos, endpos, orient, eqradius)`.
External to /repo (KDL); used at /repo/libraries/YarpPlugins/BasicCartesianControl/ICartesianControlImpl.cpp:213-226 and 271-285. -/
noncomputable def between (a b : Frame) (radius : ℝ) : PathLine :=
  make (SingleAxis.between a.M b.M) a.p b.p radius

/-- `Path_Line(startpos, starttwist, orient, eqradius)`: the end is where the twist, in the orientation of the
base, takes the start in a unit of time.
External to /repo (KDL); used at /repo/libraries/YarpPlugins/BasicCartesianControl/ICartesianControlImpl.cpp:213-226 and 271-285. -/
noncomputable def along (a : Frame) (t : Twist) (radius : ℝ) : PathLine :=
  make (SingleAxis.between a.M (Mat3.rot t.rot t.rot.norm * a.M)) a.p (a.p + t.vel) radius

/-- `Pos(s)`.
External to /repo (KDL); used at /repo/libraries/YarpPlugins/BasicCartesianControl/ICartesianControlImpl.cpp:213-226 and 271-285. -/
noncomputable def pos (l : PathLine) (s : ℝ) : Frame :=
  ⟨l.orient.pos (s * l.scaleRot), l.start + (s * l.scaleLin) • l.dir⟩

/-- `Vel(s, sd)`.
External to /repo (KDL); used at /repo/libraries/YarpPlugins/BasicCartesianControl/ICartesianControlImpl.cpp:213-226 and 271-285. -/
noncomputable def vel (l : PathLine) (sd : ℝ) : Twist :=
  ⟨(sd * l.scaleLin) • l.dir, l.orient.vel (sd * l.scaleRot)⟩

end PathLine

/-- A velocity profile: where and how fast at each time.
External to /repo (KDL); used at /repo/libraries/YarpPlugins/BasicCartesianControl/ICartesianControlImpl.cpp:213-226 and 271-285. -/
structure Profile where
  duration : ℝ
  pos : ℝ → ℝ
  vel : ℝ → ℝ

/-- Members of `KDL::VelocityProfile_Trap` but for its limits.
External to /repo (KDL); used at /repo/libraries/YarpPlugins/BasicCartesianControl/ICartesianControlImpl.cpp:213-226 and 271-285. -/
structure Trap where
  startPos : ℝ
  endPos : ℝ
  t1 : ℝ
  t2 : ℝ
  duration : ℝ
  a1 : ℝ
  a2 : ℝ
  a3 : ℝ
  b1 : ℝ
  b2 : ℝ
  b3 : ℝ
  c1 : ℝ
  c2 : ℝ
  c3 : ℝ

namespace Trap

/-- The polynomials that go with the times, in `SetProfile`.
External to /repo (KDL); used at /repo/libraries/YarpPlugins/BasicCartesianControl/ICartesianControlImpl.cpp:213-226 and 271-285. -/
noncomputable def poly (maxAcc s pos1 pos2 t1 t2 duration : ℝ) : Trap :=
  let a3 := s * maxAcc / 2
  let a2 : ℝ := 0
  let a1 := pos1
  let b3 : ℝ := 0
  let b2 := a2 + 2 * a3 * t1 - 2 * b3 * t1
  let b1 := a1 + t1 * (a2 + a3 * t1) - t1 * (b2 + t1 * b3)
  let c3 := -s * maxAcc / 2
  let c2 := b2 + 2 * b3 * t2 - 2 * c3 * t2
  let c1 := b1 + t2 * (b2 + b3 * t2) - t2 * (c2 + t2 * c3)
  ⟨pos1, pos2, t1, t2, duration, a1, a2, a3, b1, b2, b3, c1, c2, c3⟩

/-- `SetProfile(pos1, pos2)`, for limits that are not zero.
External to /repo (KDL); used at /repo/libraries/YarpPlugins/BasicCartesianControl/ICartesianControlImpl.cpp:213-226 and 271-285. -/
noncomputable def set (maxVel maxAcc pos1 pos2 : ℝ) : Trap :=
  open Classical in
  let t1 := maxVel / maxAcc
  let s : ℝ := if pos2 - pos1 < 0 then -1 else 1
  let deltax1 := s * maxAcc * (t1 * t1) / 2
  let deltaT := (pos2 - pos1 - 2 * deltax1) / (s * maxVel)
  if deltaT > 0 then
    poly maxAcc s pos1 pos2 t1 (2 * t1 + deltaT - t1) (2 * t1 + deltaT)
  else
    let t1 := √((pos2 - pos1) / s / maxAcc)
    poly maxAcc s pos1 pos2 t1 t1 (t1 * 2)

/-- The change of time scale in `SetProfileDuration`. For a factor of zero the new times `t1` and `t2` are
not numbers, and no time is less than them; here they are zero, to the same effect in `pos` and `vel`.
External to /repo (KDL); used at /repo/libraries/YarpPlugins/BasicCartesianControl/ICartesianControlImpl.cpp:213-226 and 271-285. -/
noncomputable def scale (p : Trap) (factor newDuration : ℝ) : Trap :=
  { p with
    a2 := p.a2 * factor, a3 := p.a3 * (factor * factor)
    b2 := p.b2 * factor, b3 := p.b3 * (factor * factor)
    c2 := p.c2 * factor, c3 := p.c3 * (factor * factor)
    duration := newDuration, t1 := p.t1 / factor, t2 := p.t2 / factor }

/-- `SetProfileDuration(pos1, pos2, newduration)`; `none` if the coefficients are not numbers (nowhere to go in
no time).
External to /repo (KDL); used at /repo/libraries/YarpPlugins/BasicCartesianControl/ICartesianControlImpl.cpp:213-226 and 271-285. -/
noncomputable def setDuration (maxVel maxAcc pos1 pos2 newDuration : ℝ) : Option Trap :=
  open Classical in
  let p := set maxVel maxAcc pos1 pos2
  if newDuration = 0 then if p.duration = 0 then none else some p
  else
    let factor := p.duration / newDuration
    if factor > 1 then some p else some (p.scale factor newDuration)

/-- `Pos(time)`.
External to /repo (KDL); used at /repo/libraries/YarpPlugins/BasicCartesianControl/ICartesianControlImpl.cpp:213-226 and 271-285. -/
noncomputable def pos (p : Trap) (t : ℝ) : ℝ :=
  open Classical in
  if t < 0 then p.startPos
  else if t < p.t1 then p.a1 + t * (p.a2 + p.a3 * t)
  else if t < p.t2 then p.b1 + t * (p.b2 + p.b3 * t)
  else if t ≤ p.duration then p.c1 + t * (p.c2 + p.c3 * t)
  else p.endPos

/-- `Vel(time)`.
External to /repo (KDL); used at /repo/libraries/YarpPlugins/BasicCartesianControl/ICartesianControlImpl.cpp:213-226 and 271-285. -/
noncomputable def vel (p : Trap) (t : ℝ) : ℝ :=
  open Classical in
  if t < 0 then 0
  else if t < p.t1 then p.a2 + 2 * p.a3 * t
  else if t < p.t2 then p.b2 + 2 * p.b3 * t
  else if t ≤ p.duration then p.c2 + 2 * p.c3 * t
  else 0

/-- The profile.
External to /repo (KDL); used at /repo/libraries/YarpPlugins/BasicCartesianControl/ICartesianControlImpl.cpp:213-226 and 271-285. -/
noncomputable def profile (p : Trap) : Profile := ⟨p.duration, p.pos, p.vel⟩

end Trap

/-- `KDL::VelocityProfile_Rectangular`: members `p`, `v` and `d`, the duration being `none` if infinite.
External to /repo (KDL); used at /repo/libraries/YarpPlugins/BasicCartesianControl/ICartesianControlImpl.cpp:213-226 and 271-285. -/
structure Rect where
  p : ℝ
  v : ℝ
  d : Option ℝ

namespace Rect

/-- `SetProfileDuration(pos1, pos2, duration)` with `maxvel`; a duration of `none` is infinite, as in the quotient
by a null length of the path. With `v` equal to zero (infinite duration) the quotient `d` is infinite.
External to /repo (KDL); used at /repo/libraries/YarpPlugins/BasicCartesianControl/ICartesianControlImpl.cpp:213-226 and 271-285. -/
noncomputable def setDuration (maxVel pos1 pos2 : ℝ) (duration : Option ℝ) : Rect :=
  open Classical in
  let diff := pos2 - pos1
  if diff ≠ 0 then
    match duration with
    | none => ⟨pos1, 0, none⟩
    | some duration =>
      let v := if duration = 0 then maxVel else if diff / duration > maxVel then maxVel else diff / duration
      ⟨pos1, v, some (diff / v)⟩
  else ⟨pos1, 0, duration⟩

/-- `Pos(time)`.
External to /repo (KDL); used at /repo/libraries/YarpPlugins/BasicCartesianControl/ICartesianControlImpl.cpp:213-226 and 271-285. -/
noncomputable def pos (p : Rect) (t : ℝ) : ℝ :=
  open Classical in
  if t < 0 then p.p
  else match p.d with
    | none => p.v * t + p.p
    | some d => if t > d then p.v * d + p.p else p.v * t + p.p

/-- `Vel(time)`.
External to /repo (KDL); used at /repo/libraries/YarpPlugins/BasicCartesianControl/ICartesianControlImpl.cpp:213-226 and 271-285. -/
noncomputable def vel (p : Rect) (t : ℝ) : ℝ :=
  open Classical in
  if t < 0 then 0
  else match p.d with
    | none => p.v
    | some d => if t > d then 0 else p.v

end Rect

end KD
