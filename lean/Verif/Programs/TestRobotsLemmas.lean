import Verif.Programs.TestRobots
import Verif.Screw.Arms

/-!
# The robots of the tests with rational coordinates
-/

namespace KD.TestRobots

open Real Mat3 Sig Exact

/-- An axis of rotation. -/
def t (axis origin : V) : J := ⟨true, ⟨axis, origin⟩⟩

/-- An axis of translation. -/
def s (axis : V) : J := ⟨false, ⟨axis, zero⟩⟩

def ex : V := ⟨1, 0, 0⟩
def ey : V := ⟨0, 1, 0⟩
def ez : V := ⟨0, 0, 1⟩
def my : V := ⟨0, -1, 0⟩

def teoRightArmQ : Arm := ⟨[t ez zero, t ey zero, t ex zero, t ez ⟨-32901 / 100000, 0, 0⟩, t ex ⟨-32901 / 100000, 0, 0⟩,
  t ez ⟨-54401 / 100000, 0, 0⟩], ex, ey, ez, ⟨-63401 / 100000, 0, 0⟩⟩

def teoRightLegQ : Arm := ⟨[t ez zero, t my zero, t ex zero, t ex ⟨0, 0, -33 / 100⟩, t ex ⟨175 / 10000, 0, -63 / 100⟩,
  t my ⟨175 / 10000, 0, -63 / 100⟩], my, ⟨0, 0, -1⟩, ex, ⟨175 / 10000, 0, -753005 / 1000000⟩⟩

def abbIrb120Q : Arm := ⟨[t ey zero, t ez ⟨0, 29 / 100, 0⟩, t ez ⟨0, 56 / 100, 0⟩, t ex ⟨302 / 1000, 63 / 100, 0⟩,
  t ez ⟨302 / 1000, 63 / 100, 0⟩, t my ⟨302 / 1000, 63 / 100, 0⟩], my, ⟨0, 0, -1⟩, ex, ⟨302 / 1000, 47 / 100, 0⟩⟩

def pumaQ : Arm := ⟨[t ey zero, t ex ⟨0, 2, 0⟩, t ex ⟨0, 3, 0⟩, t ey ⟨0, 3, 0⟩, t ex ⟨0, 5, 0⟩, t ez ⟨0, 5, 0⟩],
  ex, ey, ez, ⟨0, 5, 1⟩⟩

def stanfordQ : Arm := ⟨[t ey zero, t ex ⟨0, 2, 0⟩, s ey, t ey ⟨0, 2, 0⟩, t ex ⟨0, 5, 0⟩, t ez ⟨0, 5, 0⟩],
  ex, ey, ez, ⟨0, 5, 1⟩⟩

def abbIrb910scQ : Arm := ⟨[t ey zero, t ey ⟨4 / 10, 0, 0⟩, s my, t my ⟨65 / 100, 0, 0⟩], ex, ⟨0, 0, -1⟩, ey,
  ⟨65 / 100, 125 / 1000, 0⟩⟩

def abbIrb6620lxQ : Arm := ⟨[s ez, t ez ⟨1468 / 1000, 25 / 10, 0⟩, t ez ⟨2443 / 1000, 25 / 10, 0⟩,
  t my ⟨2643 / 1000, 1613 / 1000, 0⟩, t ez ⟨2643 / 1000, 1613 / 1000, 0⟩, t ex ⟨2643 / 1000, 1613 / 1000, 0⟩],
  ez, ey, ⟨-1, 0, 0⟩, ⟨3, 1613 / 1000, 0⟩⟩

theorem nx : (⟨1, 0, 0⟩ : Vec3).normalize = ⟨1, 0, 0⟩ := Vec3.normalize_of_unit (by simp [Vec3.dot])
theorem ny : (⟨0, 1, 0⟩ : Vec3).normalize = ⟨0, 1, 0⟩ := Vec3.normalize_of_unit (by simp [Vec3.dot])
theorem nz : (⟨0, 0, 1⟩ : Vec3).normalize = ⟨0, 0, 1⟩ := Vec3.normalize_of_unit (by simp [Vec3.dot])
theorem nmy : (⟨0, -1, 0⟩ : Vec3).normalize = ⟨0, -1, 0⟩ := Vec3.normalize_of_unit (by simp [Vec3.dot])

theorem changeBase_one (e : MatrixExp) : e.changeBase 1 = e := by
  obtain ⟨m, a, o⟩ := e
  cases m <;> simp [MatrixExp.changeBase, Frame.act]

macro "arm_eq" "[" d:ident "," q:ident "]" : tactic => `(tactic|
  (simp only [$d:ident, $q:ident, turn, slide, Poe.appendExp, Poe.empty, changeBase_one, MatrixExp.make, nx, ny, nz, nmy,
    Arm.real, List.nil_append, List.cons_append, List.map_cons, List.map_nil, J.real, t, s, ex, ey, ez, my, zero, V.real]
   congr 1
   · simp only [if_true, Bool.false_eq_true, if_false, List.cons.injEq, MatrixExp.mk.injEq, true_and, and_true, Vec3.ext_iff,
      Vec3.zero_x, Vec3.zero_y, Vec3.zero_z]
     norm_num
   · ext <;> simp [rotX, rotY, rotZ, cos_pi_div_two, sin_pi_div_two, neg_div, cos_neg, sin_neg] <;> norm_num))

theorem teoRightArm_real : teoRightArm = teoRightArmQ.real := by arm_eq [teoRightArm, teoRightArmQ]
theorem teoRightLeg_real : teoRightLeg = teoRightLegQ.real := by arm_eq [teoRightLeg, teoRightLegQ]
theorem abbIrb120_real : abbIrb120 = abbIrb120Q.real := by arm_eq [abbIrb120, abbIrb120Q]
theorem puma_real : puma = pumaQ.real := by arm_eq [puma, pumaQ]
theorem stanford_real : stanford = stanfordQ.real := by arm_eq [stanford, stanfordQ]
theorem abbIrb910sc_real : abbIrb910sc = abbIrb910scQ.real := by arm_eq [abbIrb910sc, abbIrb910scQ]
theorem abbIrb6620lx_real : abbIrb6620lx = abbIrb6620lxQ.real := by arm_eq [abbIrb6620lx, abbIrb6620lxQ]

/-! ## What the search meets -/

/-- A problem of this number of solutions is found, if at all, and it is. -/
def passes (a : Arm) (N : ℕ) : Bool := a.holds N && (a.goes || a.rev.holds N && a.rev.goes)

/-- The axes have unit length. -/
def unit (a : Arm) : Bool := a.joints.all fun j => j.e.axis.dot j.e.axis == 1

theorem unit_real {a : Arm} (h : unit a = true) : ∀ e ∈ a.real.exps, e.Unit := by
  intro e he
  obtain ⟨j, hj, rfl⟩ := List.mem_map.mp he
  have := List.all_eq_true.mp h j hj
  rw [beq_iff_eq] at this
  show j.e.axis.real.dot j.e.axis.real = 1
  rw [← V.real_dot, this, Rat.cast_one]

/-- The rows and columns of the tool are orthonormal, and the hand is right. -/
def rigid (a : Arm) : Bool :=
  a.x.dot a.x == 1 && a.y.dot a.y == 1 && a.z.dot a.z == 1 && a.x.dot a.y == 0 && a.x.dot a.z == 0 && a.y.dot a.z == 0 &&
  a.col1.dot a.col1 == 1 && a.col2.dot a.col2 == 1 && a.col3.dot a.col3 == 1 && a.col1.dot a.col2 == 0 &&
  a.col1.dot a.col3 == 0 && a.col2.dot a.col3 == 0 && a.x.dot (a.y.cross a.z) == 1

theorem rigid_real {a : Arm} (h : rigid a = true) : a.real.tool.IsRigid := by
  simp only [rigid, Bool.and_eq_true, beq_iff_eq, Arm.col1, Arm.col2, Arm.col3, V.dot, V.cross] at h
  obtain ⟨⟨⟨⟨⟨⟨⟨⟨⟨⟨⟨⟨r1, r2⟩, r3⟩, r4⟩, r5⟩, r6⟩, c1⟩, c2⟩, c3⟩, c4⟩, c5⟩, c6⟩, d⟩ := h
  have r1 := congrArg (Rat.cast (K := ℝ)) r1
  have r2 := congrArg (Rat.cast (K := ℝ)) r2
  have r3 := congrArg (Rat.cast (K := ℝ)) r3
  have r4 := congrArg (Rat.cast (K := ℝ)) r4
  have r5 := congrArg (Rat.cast (K := ℝ)) r5
  have r6 := congrArg (Rat.cast (K := ℝ)) r6
  have c1 := congrArg (Rat.cast (K := ℝ)) c1
  have c2 := congrArg (Rat.cast (K := ℝ)) c2
  have c3 := congrArg (Rat.cast (K := ℝ)) c3
  have c4 := congrArg (Rat.cast (K := ℝ)) c4
  have c5 := congrArg (Rat.cast (K := ℝ)) c5
  have c6 := congrArg (Rat.cast (K := ℝ)) c6
  have d := congrArg (Rat.cast (K := ℝ)) d
  push_cast at r1 r2 r3 r4 r5 r6 c1 c2 c3 c4 c5 c6 d
  refine ⟨?_, ?_, ?_⟩
  · ext <;> simp only [Arm.real, mul_xx, mul_xy, mul_xz, mul_yx, mul_yy, mul_yz, mul_zx, mul_zy, mul_zz, transpose, one_xx, one_xy, one_xz,
      one_yx, one_yy, one_yz, one_zx, one_zy, one_zz] <;> linarith
  · ext <;> simp only [Arm.real, mul_xx, mul_xy, mul_xz, mul_yx, mul_yy, mul_yz, mul_zx, mul_zy, mul_zz, transpose, one_xx, one_xy, one_xz,
      one_yx, one_yy, one_yz, one_zx, one_zy, one_zz] <;> linarith
  · simp only [Arm.real, det]; linarith

/-- The way from an axis to a point of another. -/
def way (f e : J) (q : ℚ) : V := ((e.e.origin.add (e.e.axis.smul q)).sub f.e.origin).cross f.e.axis

/-- Both well above zero, or both well below. -/
def apart (a b : ℚ) : Bool := 1 / 1000 ≤ a && 1 / 1000 ≤ b || a ≤ -1 / 1000 && b ≤ -1 / 1000

/-- No point of an axis between these two places is on an axis not parallel to it. -/
def off (a : Arm) (l h : ℚ) : Bool := a.joints.all fun e => a.joints.all fun f =>
  !e.rot || !f.rot || par f.e e.e || apart (way f e l).x (way f e h).x || apart (way f e l).y (way f e h).y ||
    apart (way f e l).z (way f e h).z

theorem apart_between {c d l h q : ℚ} (hl : l ≤ q) (hh : q ≤ h) (ha : apart (c + l * d) (c + h * d) = true) :
    near (c + q * d) 0 = false := by
  simp only [apart, Bool.or_eq_true, Bool.and_eq_true, decide_eq_true_iff] at ha
  rw [← Bool.not_eq_true, near, Bool.and_eq_true, decide_eq_true_iff, decide_eq_true_iff]
  rintro ⟨h1, h2⟩
  rcases le_total 0 d with hd | hd
  · have g1 := mul_le_mul_of_nonneg_right hl hd
    have g2 := mul_le_mul_of_nonneg_right hh hd
    rcases ha with ha | ha <;> linarith [ha.1, ha.2]
  · have g1 := mul_le_mul_of_nonpos_right hl hd
    have g2 := mul_le_mul_of_nonpos_right hh hd
    rcases ha with ha | ha <;> linarith [ha.1, ha.2]

theorem way_affine (f e : J) (q : ℚ) :
    (way f e q).x = (way f e 0).x + q * (e.e.axis.cross f.e.axis).x ∧
    (way f e q).y = (way f e 0).y + q * (e.e.axis.cross f.e.axis).y ∧
    (way f e q).z = (way f e 0).z + q * (e.e.axis.cross f.e.axis).z := by
  simp only [way, V.cross, V.add, V.sub, V.smul]
  refine ⟨?_, ?_, ?_⟩ <;> ring

theorem off_real {a : Arm} {v : ℕ → ℚ} {l h : ℚ} (ho : off a l h = true) (hv : ∀ n, l ≤ v n ∧ v n ≤ h) :
    OffCrossings (fun n => (v n : ℝ)) a.real := by
  intro n e he f hf hme hmf hp hl
  obtain ⟨e, he', rfl⟩ := List.mem_map.mp he
  obtain ⟨f, hf', rfl⟩ := List.mem_map.mp hf
  have := List.all_eq_true.mp (List.all_eq_true.mp ho e he') f hf'
  rw [J.motion_iff] at hme hmf
  rw [← J.par_iff] at hp
  have hd : Builder.drawn (fun n => (v n : ℝ)) e.real n = (e.e.origin.add (e.e.axis.smul (v n))).real := by
    rw [V.real_add, V.real_smul]; rfl
  rw [hd, ← J.on_iff] at hl
  have h2 : nearV (way f e (v n)) zero = true := hl
  simp only [nearV, Bool.and_eq_true, zero] at h2
  rw [hme, hmf, Bool.eq_false_iff.mpr hp] at this
  simp only [Bool.not_true, Bool.false_or, Bool.or_eq_true] at this
  obtain ⟨x1, y1, z1⟩ := way_affine f e l
  obtain ⟨x2, y2, z2⟩ := way_affine f e h
  obtain ⟨x3, y3, z3⟩ := way_affine f e (v n)
  rw [x1, x2, y1, y2, z1, z2] at this
  rw [x3, y3, z3] at h2
  rcases this with (this | this) | this
  · rw [apart_between (hv n).1 (hv n).2 this] at h2; simp at h2
  · rw [apart_between (hv n).1 (hv n).2 this] at h2; simp at h2
  · rw [apart_between (hv n).1 (hv n).2 this] at h2; simp at h2

/-- Draws for an example: forty-nine numbers, over and over. -/
def someDraw (n : ℕ) : ℚ := (n % 49 : ℕ) / 10000 + 3 / 1000

theorem someDraw_spread {N : ℕ} (hN : N ≤ 49) : Builder.Spread (fun n => (someDraw n : ℝ)) N := by
  intro k
  refine ⟨fun i => 49 * k + i, fun i => by dsimp only; omega, fun i j hij => ?_⟩
  have hi : (49 * k + (i : ℕ)) % 49 = i := by omega
  have hj : (49 * k + (j : ℕ)) % 49 = j := by omega
  simp only [someDraw, hi, hj]
  push_cast
  have hne : (i : ℕ) ≠ j := fun h => hij (Fin.ext h)
  have h1 : (1 : ℝ) ≤ |((i : ℕ) : ℝ) - ((j : ℕ) : ℝ)| := by
    rcases lt_or_gt_of_ne hne with h | h
    · have : ((i : ℕ) : ℝ) + 1 ≤ ((j : ℕ) : ℝ) := by exact_mod_cast h
      rw [abs_of_nonpos (by linarith)]
      linarith
    · have : ((j : ℕ) : ℝ) + 1 ≤ ((i : ℕ) : ℝ) := by exact_mod_cast h
      rw [abs_of_nonneg (by linarith)]
      linarith
  rw [show ((i : ℕ) : ℝ) / 10000 + 3 / 1000 - (((j : ℕ) : ℝ) / 10000 + 3 / 1000) =
    (((i : ℕ) : ℝ) - ((j : ℕ) : ℝ)) / 10000 by ring, abs_div, abs_of_pos (by norm_num : (0 : ℝ) < 10000)]
  unfold eps
  linarith

/-- The draws of the example meet no crossing. -/
def clear (a : Arm) : Bool := off a (3 / 1000) (8 / 1000)

theorem clear_real {a : Arm} (h : clear a = true) : OffCrossings (fun n => (someDraw n : ℝ)) a.real :=
  off_real h fun n => by
    have h1 : (((n % 49 : ℕ) : ℕ) : ℚ) < 49 := by exact_mod_cast Nat.mod_lt _ (by norm_num)
    have h2 : (0 : ℚ) ≤ ((n % 49 : ℕ) : ℕ) := by positivity
    unfold someDraw
    constructor <;> linarith

/-- All that is checked of an arm. -/
def sound (a : Arm) (N : ℕ) : Bool := !a.joints.isEmpty && unit a && rigid a && passes a N && clear a && clear a.rev

theorem teoRightArm_sound : sound teoRightArmQ 8 = true := by decide +kernel
theorem teoRightLeg_sound : sound teoRightLegQ 8 = true := by decide +kernel
theorem abbIrb120_sound : sound abbIrb120Q 8 = true := by decide +kernel
theorem puma_sound : sound pumaQ 8 = true := by decide +kernel
theorem stanford_sound : sound stanfordQ 8 = true := by decide +kernel
theorem abbIrb910sc_sound : sound abbIrb910scQ 2 = true := by decide +kernel
theorem abbIrb6620lx_sound : sound abbIrb6620lxQ 4 = true := by decide +kernel

end KD.TestRobots
