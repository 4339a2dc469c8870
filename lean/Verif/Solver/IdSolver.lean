import Verif.Kdl.Twist

/-!
# /repo/libraries/YarpPlugins/KdlSolver/ChainIkSolverPos_ID.{hpp,cpp}

The chain is a reference to the one owned by the device, so it is an argument of each call. The
forward kinematics solver is KDL's recursive one, as set up at
/repo/libraries/YarpPlugins/KdlSolver/DeviceDriverImpl.cpp:302,444.

Reals stand for `double`, except that `0.0 / 0.0` is a NaN: a joint value is `none` then. A NaN is
contagious through sums and products and compares false with anything. Overflow is not modelled.
-/

namespace KD

open scoped Classical

/-- `ChainIkSolverPos_ID`. /repo/libraries/YarpPlugins/KdlSolver/ChainIkSolverPos_ID.hpp. -/
structure IdSolver where
  nj : ℕ
  qMin : List ℝ
  qMax : List ℝ

/-- Jacobian transposed times a twist: one entry per column.
/repo/libraries/YarpPlugins/KdlSolver/ChainIkSolverPos_ID.cpp:80-104. -/
def jacTranspose (cols : List Twist) (e : Twist) : List ℝ := cols.map fun c => Twist.dot c e

/-- Jacobian times a joint vector. /repo/libraries/YarpPlugins/KdlSolver/ChainIkSolverPos_ID.cpp:80-104. -/
noncomputable def jacApply : List Twist → List ℝ → Twist
  | c :: cs, a :: as => a • c + jacApply cs as
  | _, _ => 0

/-- `computeDiffInvKin`, /repo/libraries/YarpPlugins/KdlSolver/ChainIkSolverPos_ID.cpp:80-103; `none` if
the quotient is zero over zero (see C25 on why a non-zero numerator cannot occur then). -/
noncomputable def computeDiffInvKin (cols : List Twist) (e : Twist) : Option (List ℝ) :=
  let jjte := jacApply cols (jacTranspose cols e)
  if Twist.dot jjte jjte = 0 then none
  else
    let alpha := Twist.dot e jjte / Twist.dot jjte jjte
    some ((jacTranspose cols e).map fun a => alpha * a)

/-- `KDL::Add`, with NaN. /repo/libraries/YarpPlugins/KdlSolver/ChainIkSolverPos_ID.cpp:55-75. -/
noncomputable def addNan (q : List ℝ) (dq : Option (List ℝ)) : List (Option ℝ) :=
  match dq with
  | none => q.map fun _ => none
  | some dq => List.zipWith (fun a b => some (a + b)) q dq

/-- First clamping loop, /repo/libraries/YarpPlugins/KdlSolver/ChainIkSolverPos_ID.cpp:59-65. -/
noncomputable def clampLow (v : Option ℝ) (lo : ℝ) : Option ℝ := v.map fun a => if a < lo then lo else a

/-- Second clamping loop, /repo/libraries/YarpPlugins/KdlSolver/ChainIkSolverPos_ID.cpp:67-73. -/
noncomputable def clampHigh (v : Option ℝ) (hi : ℝ) : Option ℝ := v.map fun a => if a > hi then hi else a

namespace IdSolver

/-- Constructor, /repo/libraries/YarpPlugins/KdlSolver/ChainIkSolverPos_ID.cpp:16-25. -/
def create (chain : Chain) (qMin qMax : List ℝ) : IdSolver := ⟨chain.nJoints, qMin, qMax⟩

/-- `updateInternalDataStructures`, /repo/libraries/YarpPlugins/KdlSolver/ChainIkSolverPos_ID.cpp:107-115;
`dblMin` and `dblMax` are `std::numeric_limits<double>::min()` and `max()`. -/
def update (s : IdSolver) (dblMin dblMax : ℝ) (chain : Chain) : IdSolver :=
  let n := chain.nJoints
  ⟨n, s.qMin.take n ++ List.replicate (n - s.qMin.length) dblMin,
    s.qMax.take n ++ List.replicate (n - s.qMax.length) dblMax⟩

/-- `CartToJnt`, /repo/libraries/YarpPlugins/KdlSolver/ChainIkSolverPos_ID.cpp:29-76: return code and
output array. -/
noncomputable def cartToJnt (s : IdSolver) (chain : Chain) (qInit : List ℝ) (target : Frame)
    (qOut : List (Option ℝ)) : ℤ × List (Option ℝ) :=
  if s.nj ≠ chain.nJoints then (-3, qOut)
  else if s.nj ≠ qInit.length ∨ s.nj ≠ qOut.length ∨ s.nj ≠ s.qMin.length ∨ s.nj ≠ s.qMax.length then
    (-4, qOut)
  else
    match chain.fk qInit with
    | none => (-100, qOut)
    | some f =>
      let e := frameDiff f target
      match chain.jacobian qInit with
      | none => (-101, qOut)
      | some cols =>
        let q := addNan qInit (computeDiffInvKin cols e)
        let q := List.zipWith clampLow q s.qMin
        let q := List.zipWith clampHigh q s.qMax
        (0, q)

end IdSolver

/-- `retrieveJointLimits`, /repo/libraries/YarpPlugins/KdlSolver/DeviceDriverImpl.cpp:97-143, after the
options were found; degrees to radians. -/
noncomputable def retrieveJointLimits (n : ℕ) (mins maxs : List ℝ) : Option (List ℝ × List ℝ) :=
  if maxs.length ≠ n ∨ mins.length ≠ n then none
  else
    let qMin := mins.map fun a => a * (Real.pi / 180)
    let qMax := maxs.map fun a => a * (Real.pi / 180)
    if ∃ p ∈ qMin.zip qMax, p.1 > p.2 then none else some (qMin, qMax)

end KD
