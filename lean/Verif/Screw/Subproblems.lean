import Verif.Screw.MatrixExponential

/-!
# /repo/libraries/ScrewTheoryLib/PadenKahanSubproblems.cpp and /repo/libraries/ScrewTheoryLib/PardosGotorSubproblems.cpp

Every `solve(rhs, pointTransform, solutions)` is a function of the geometry, `rhs` and
`pointTransform` that returns the flag and the vector of local solutions, each a list of
`(joint id, value)` pairs. `none` means that a division by zero made the result
non-finite (NaN or infinity).
-/

namespace KD

open Real Vec3

/-- `ScrewTheoryIkSubproblem::JointIdsToSolutions`
(/repo/libraries/ScrewTheoryLib/ScrewTheoryIkProblem.hpp:28-32). -/
abbrev LocalSol := List (ℕ × ℝ)

/-- Outcome of a local `solve`: return value and local solutions
(/repo/libraries/ScrewTheoryLib/ScrewTheoryIkProblem.hpp:34-76). -/
abbrev LocalResult := Option (Bool × List LocalSol)

/-- Projection on a unit axis, `axisPow * v` in the sources
(e.g. /repo/libraries/ScrewTheoryLib/PadenKahanSubproblems.cpp:33). -/
def axisProj (a v : Vec3) : Vec3 := (vectorPow2 a).mulVec v

/-- `v - axisPow * v`, e.g. /repo/libraries/ScrewTheoryLib/PadenKahanSubproblems.cpp:36. -/
def axisRej (a v : Vec3) : Vec3 := v - axisProj a v

/-- `std::atan2(KDL::dot(axis, u * v), KDL::dot(u, v))`, e.g.
/repo/libraries/ScrewTheoryLib/PadenKahanSubproblems.cpp:39. -/
noncomputable def angleAbout (a u v : Vec3) : ℝ := atan2 (dot a (cross u v)) (dot u v)

open Classical in
/-- `PadenKahanOne::solve`, /repo/libraries/ScrewTheoryLib/PadenKahanSubproblems.cpp:22-45. -/
noncomputable def pk1 (id : ℕ) (e : MatrixExp) (p : Vec3) (rhs H : Frame) : LocalResult :=
  let f := H.act p
  let k := rhs.act p
  let u := f - e.origin
  let v := k - e.origin
  let u_w := axisProj e.axis u
  let v_w := axisProj e.axis v
  let u_p := u - u_w
  let v_p := v - v_w
  let θ := angleAbout e.axis u_p v_p
  some (decide (Vec3.Equal u_w v_w ∧ EqualR u_p.norm v_p.norm), [[(id, normalizeAngle θ)]])

open Classical in
/-- `PadenKahanTwo::solve`, /repo/libraries/ScrewTheoryLib/PadenKahanSubproblems.cpp:64-147
(members initialised at 49-60). Parallel axes make `den` zero. -/
noncomputable def pk2 (id1 id2 : ℕ) (e1 e2 : MatrixExp) (p r : Vec3) (rhs H : Frame) :
    LocalResult :=
  let a1 := e1.axis
  let a2 := e2.axis
  let axesCross := cross a1 a2
  let axesDot := dot a1 a2
  let f := H.act p
  let k := rhs.act p
  let u := f - r
  let v := k - r
  let u_p := axisRej a2 u
  let v_p := axisRej a1 v
  let axis1dot := dot a1 v
  let axis2dot := dot a2 u
  let den := axesDot ^ 2 - 1
  if den = 0 then none else
  let alpha := (axesDot * axis2dot - axis1dot) / den
  let beta := (axesDot * axis1dot - axis2dot) / den
  let term1 := r + alpha • a1 + beta • a2
  let gamma2 := (u.norm ^ 2 - alpha ^ 2 - beta ^ 2 - 2 * alpha * beta * axesDot)
    / axesCross.norm ^ 2
  if ¬ EqualR gamma2 0 ∧ gamma2 > 0 then
    let gamma := √gamma2
    let term2 := gamma • axesCross
    let d := term1 + term2
    let c := term1 - term2
    let m := c - r
    let n := d - r
    let m1_p := axisRej a1 m
    let m2_p := axisRej a2 m
    let n1_p := axisRej a1 n
    let n2_p := axisRej a2 n
    let θ1_1 := angleAbout a1 m1_p v_p
    let θ2_1 := angleAbout a2 u_p m2_p
    let θ1_2 := angleAbout a1 n1_p v_p
    let θ2_2 := angleAbout a2 u_p n2_p
    some (decide (EqualR m1_p.norm v_p.norm),
      [[(id1, normalizeAngle θ1_1), (id2, normalizeAngle θ2_1)],
       [(id1, normalizeAngle θ1_2), (id2, normalizeAngle θ2_2)]])
  else
    let n := term1 - r
    let n1_p := axisRej a1 n
    let n2_p := axisRej a2 n
    let θ1 := angleAbout a1 n1_p v_p
    let θ2 := angleAbout a2 u_p n2_p
    some (decide (EqualR gamma2 0 ∧ EqualR n1_p.norm v_p.norm),
      [[(id1, normalizeAngle θ1), (id2, normalizeAngle θ2)],
       [(id1, normalizeAngle θ1), (id2, normalizeAngle θ2)]])

open Classical in
/-- `PadenKahanThree::solve`, /repo/libraries/ScrewTheoryLib/PadenKahanSubproblems.cpp:161-213.
When one of the points lies on the axis, `betaCos` is NaN or infinite: both
comparisons are false, so the else branch is taken with `beta_zero = false`. -/
noncomputable def pk3 (id : ℕ) (e : MatrixExp) (p k : Vec3) (rhs H : Frame) : LocalResult :=
  let f := H.act p
  let rhsAsVector := rhs.act p - k
  let delta := rhsAsVector.norm
  let u := f - e.origin
  let v := k - e.origin
  let u_p := axisRej e.axis u
  let v_p := axisRej e.axis v
  let alpha := angleAbout e.axis u_p v_p
  let delta_p_2 := delta ^ 2 - dot e.axis (f - k) ^ 2
  let den := 2 * u_p.norm * v_p.norm
  if den = 0 then
    some (false, [[(id, normalizeAngle alpha)], [(id, normalizeAngle alpha)]])
  else
  let betaCos := (u_p.norm ^ 2 + v_p.norm ^ 2 - delta_p_2) / den
  if ¬ EqualR |betaCos| 1 ∧ |betaCos| < 1 then
    let betaCosCapped := max (-1) (min 1 betaCos)
    let beta := arccos betaCosCapped
    some (true, [[(id, normalizeAngle (alpha + beta))], [(id, normalizeAngle (alpha - beta))]])
  else
    some (decide (EqualR |betaCos| 1),
      [[(id, normalizeAngle alpha)], [(id, normalizeAngle alpha)]])

/-- `PardosGotorOne::solve`, /repo/libraries/ScrewTheoryLib/PardosGotorSubproblems.cpp:32-47. -/
noncomputable def pg1 (id : ℕ) (e : MatrixExp) (p : Vec3) (rhs H : Frame) : LocalResult :=
  let f := H.act p
  let k := rhs.act p
  let diff := k - f
  let θ := dot e.axis diff
  some (true, [[(id, θ)]])

open Classical in
/-- `PardosGotorTwo::solve`, /repo/libraries/ScrewTheoryLib/PardosGotorSubproblems.cpp:63-94
(members initialised at 51-59). Parallel axes make `crossPr2Norm` zero. -/
noncomputable def pg2 (id1 id2 : ℕ) (e1 e2 : MatrixExp) (p : Vec3) (rhs H : Frame) :
    LocalResult :=
  let crossPr2 := cross e2.axis e1.axis
  let crossPr2Norm := crossPr2.norm
  let f := H.act p
  let k := rhs.act p
  let crossPr1 := cross e2.axis (f - k)
  let crossPr1Norm := crossPr1.norm
  if crossPr2Norm = 0 then none else
  let c :=
    if dot crossPr1 crossPr2 ≥ crossPr1Norm * crossPr2Norm then
      k + (crossPr1Norm / crossPr2Norm) • e1.axis
    else
      k - (crossPr1Norm / crossPr2Norm) • e1.axis
  let θ1 := dot e1.axis (k - c)
  let θ2 := dot e2.axis (c - f)
  some (true, [[(id1, θ1), (id2, θ2)]])

open Classical in
/-- `PardosGotorThree::solve`,
/repo/libraries/ScrewTheoryLib/PardosGotorSubproblems.cpp:107-144. -/
noncomputable def pg3 (id : ℕ) (e : MatrixExp) (p k : Vec3) (rhs H : Frame) : LocalResult :=
  let f := H.act p
  let rhsAsVector := rhs.act p - k
  let delta := rhsAsVector.norm
  let diff := k - f
  let dotPr := dot e.axis diff
  let sq2 := dotPr ^ 2 - diff.norm ^ 2 + delta ^ 2
  if ¬ EqualR sq2 0 ∧ sq2 > 0 then
    let sq := √|sq2|
    some (true, [[(id, dotPr + sq)], [(id, dotPr - sq)]])
  else
    let proy := axisProj e.axis diff
    some (decide (EqualR sq2 0), [[(id, proy.norm)], [(id, proy.norm)]])

/-- `computeNormal`, /repo/libraries/ScrewTheoryLib/PardosGotorSubproblems.cpp:13-19. -/
noncomputable def pg4Normal (e1 e2 : MatrixExp) : Vec3 :=
  let diff := e2.origin - e1.origin
  let normal := (cross (cross e1.axis diff) e1.axis).normalize
  axisProj normal diff

open Classical in
/-- `PardosGotorFour::solve`, /repo/libraries/ScrewTheoryLib/PardosGotorSubproblems.cpp:160-253
(members initialised at 148-156). A zero `c_norm` is divided by in the first branch only. -/
noncomputable def pg4 (id1 id2 : ℕ) (e1 e2 : MatrixExp) (p : Vec3) (rhs H : Frame) :
    LocalResult :=
  let n := pg4Normal e1 e2
  let a := e1.axis
  let f := H.act p
  let k := rhs.act p
  let u := f - e2.origin
  let v := k - e1.origin
  let u_p := axisRej a u
  let v_p := axisRej a v
  let c1₀ := e1.origin + v - v_p
  let c2 := e2.origin + u - u_p
  let samePlane : Prop := Vec3.Equal (c2 - c1₀) n
  let c_diff := if samePlane then c2 - c1₀ else n
  let c1 := if samePlane then c1₀ else c2 - c_diff
  let c_norm := c_diff.norm
  let u_p_norm := u_p.norm
  let v_p_norm := v_p.norm
  let c_test := u_p_norm + v_p_norm - c_norm
  if ¬ EqualR c_test 0 ∧ c_test > 0 then
    if c_norm = 0 then none else
    let omega_a := (1 / c_norm) • c_diff
    let omega_h := cross a omega_a
    let s := (c_norm ^ 2 - u_p_norm ^ 2 + v_p_norm ^ 2) / (2 * c_norm)
    let h := √|v_p.norm ^ 2 - s ^ 2|
    let term1 := c1 + s • omega_a
    let term2 := h • omega_h
    let c := term1 + term2
    let d := term1 - term2
    let m1_p := axisRej a (c - e1.origin)
    let m2_p := axisRej a (c - e2.origin)
    let n1_p := axisRej a (d - e1.origin)
    let n2_p := axisRej a (d - e2.origin)
    let θ1_1 := angleAbout e1.axis m1_p v_p
    let θ2_1 := angleAbout e2.axis u_p m2_p
    let θ1_2 := angleAbout e1.axis n1_p v_p
    let θ2_2 := angleAbout e2.axis u_p n2_p
    some (decide (samePlane ∧ EqualR m1_p.norm v_p_norm),
      [[(id1, normalizeAngle θ1_1), (id2, normalizeAngle θ2_1)],
       [(id1, normalizeAngle θ1_2), (id2, normalizeAngle θ2_2)]])
  else
    let θ1 := atan2 (dot e1.axis (cross c_diff v_p)) (dot c_diff v_p)
    let θ2 := atan2 (dot e2.axis (cross u_p c_diff)) (dot (-c_diff) u_p)
    some (decide (EqualR c_test 0),
      [[(id1, normalizeAngle θ1), (id2, normalizeAngle θ2)],
       [(id1, normalizeAngle θ1), (id2, normalizeAngle θ2)]])

/-- The subproblems, with the geometry their constructors take
(/repo/libraries/ScrewTheoryLib/ScrewTheoryIkSubproblems.hpp). -/
inductive Subproblem
  | pk1 (id : ℕ) (e : MatrixExp) (p : Vec3)
  | pk2 (id1 id2 : ℕ) (e1 e2 : MatrixExp) (p r : Vec3)
  | pk3 (id : ℕ) (e : MatrixExp) (p k : Vec3)
  | pg1 (id : ℕ) (e : MatrixExp) (p : Vec3)
  | pg2 (id1 id2 : ℕ) (e1 e2 : MatrixExp) (p : Vec3)
  | pg3 (id : ℕ) (e : MatrixExp) (p k : Vec3)
  | pg4 (id1 id2 : ℕ) (e1 e2 : MatrixExp) (p : Vec3)

namespace Subproblem

/-- Virtual `solve`. The virtual function of /repo/libraries/ScrewTheoryLib/ScrewTheoryIkProblem.hpp. -/
noncomputable def solve : Subproblem → Frame → Frame → LocalResult
  | .pk1 id e p => KD.pk1 id e p
  | .pk2 i j e1 e2 p r => KD.pk2 i j e1 e2 p r
  | .pk3 id e p k => KD.pk3 id e p k
  | .pg1 id e p => KD.pg1 id e p
  | .pg2 i j e1 e2 p => KD.pg2 i j e1 e2 p
  | .pg3 id e p k => KD.pg3 id e p k
  | .pg4 i j e1 e2 p => KD.pg4 i j e1 e2 p

/-- Virtual `solutions()`,
/repo/libraries/ScrewTheoryLib/ScrewTheoryIkSubproblems.hpp:37,76,114,150,187,225,263. -/
def count : Subproblem → ℕ
  | .pk1 .. => 1
  | .pk2 .. => 2
  | .pk3 .. => 2
  | .pg1 .. => 1
  | .pg2 .. => 1
  | .pg3 .. => 2
  | .pg4 .. => 2

/-- The joint ids a subproblem solves for, in the order of its local solutions.
The indices of the solutions in /repo/libraries/ScrewTheoryLib/PadenKahanSubproblems.cpp and PardosGotorSubproblems.cpp. -/
def ids : Subproblem → List ℕ
  | .pk1 id _ _ => [id]
  | .pk2 i j .. => [i, j]
  | .pk3 id .. => [id]
  | .pg1 id .. => [id]
  | .pg2 i j .. => [i, j]
  | .pg3 id .. => [id]
  | .pg4 i j .. => [i, j]

end Subproblem

end KD
