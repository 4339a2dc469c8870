import Verif.Screw.Subproblems
import Verif.Screw.Angles
import Verif.Screw.Poe
import Verif.Screw.PoeLemmas

/-!
# The assertions of /repo/tests/testScrewTheory.cpp, on the model

The tests of matrix exponentials, of products of exponentials and of each subproblem: the model gives the very
values and flags that the tests assert of the code. `checkSolutions` of the tests compares solutions in any order;
here they are in the order of the model. The robots of the tests are in `Verif.Props.Robots`.
-/

namespace KD
namespace Conformance
open Real Vec3 Angles

/-- Rotation about the unit vector along y through a point, as the tests make it. -/
noncomputable def turnY (o : Vec3) : MatrixExp := .make .rotation ⟨0, 1, 0⟩ o
/-- Rotation about x. -/
noncomputable def turnX (o : Vec3) : MatrixExp := .make .rotation ⟨1, 0, 0⟩ o
/-- Translation along y. -/
noncomputable def slideY : MatrixExp := .make .translation ⟨0, 1, 0⟩ 0
/-- Translation along x. -/
noncomputable def slideX : MatrixExp := .make .translation ⟨1, 0, 0⟩ 0

theorem turnY_eq (o : Vec3) : turnY o = ⟨.rotation, ⟨0, 1, 0⟩, o⟩ := by
  rw [turnY, MatrixExp.make, normalize_of_unit (by simp [dot])]
theorem turnX_eq (o : Vec3) : turnX o = ⟨.rotation, ⟨1, 0, 0⟩, o⟩ := by
  rw [turnX, MatrixExp.make, normalize_of_unit (by simp [dot])]
theorem slideY_eq : slideY = ⟨.translation, ⟨0, 1, 0⟩, 0⟩ := by
  rw [slideY, MatrixExp.make, normalize_of_unit (by simp [dot])]
theorem slideX_eq : slideX = ⟨.translation, ⟨1, 0, 0⟩, 0⟩ := by
  rw [slideX, MatrixExp.make, normalize_of_unit (by simp [dot])]

/-- Evaluates a subproblem on numbers. -/
macro "evaluate" : tactic => `(tactic|
  norm_num [turnY_eq, turnX_eq, slideX_eq, slideY_eq, axisRej, axisProj, vectorPow2, angleAbout, dot, Frame.act,
    Vec3.norm, Vec3.Equal, EqualR, eps, atan2_up, atan2_down, atan2_back, atan2_ahead, atan2_corner,
    norm_up, norm_down, norm_back, normalizeAngle_half, sqrt_four, half_five])

/-! ### PadenKahanOne, lines 557-593 -/

example : pk1 0 (turnY ⟨1, 0, 0⟩) ⟨0, 1, 0⟩ (.trans (⟨1, 1, 1⟩ - ⟨0, 1, 0⟩)) 1 = some (true, [[(0, π / 2)]]) := by
  unfold pk1; evaluate

example : pk1 0 (turnY ⟨1, 0, 0⟩) ⟨0, 1, 0⟩ (.trans (⟨1, 1, 1⟩ + ⟨0, 0, 1⟩ - ⟨0, 1, 0⟩)) 1 = some (false, [[(0, π / 2)]]) := by
  unfold pk1; evaluate

example : pk1 0 (turnY ⟨1, 0, 0⟩) ⟨0, 1, 0⟩ (.trans (⟨1, 1, 1⟩ + ⟨0, 1, 0⟩ - ⟨0, 1, 0⟩)) 1 = some (false, [[(0, π / 2)]]) := by
  unfold pk1; evaluate

/-! ### PadenKahanTwo, lines 595-647 -/

example : pk2 0 1 (turnX ⟨1, 0, 0⟩) (turnY ⟨1, 0, 0⟩) ⟨0, 1, 0⟩ ⟨1, 0, 0⟩ (.trans (⟨1, -1, 1⟩ - ⟨0, 1, 0⟩)) 1 =
    some (true, [[(0, π), (1, -(π / 2))], [(0, π / 2), (1, π / 2)]]) := by
  unfold pk2; evaluate

example : pk2 0 1 (turnX ⟨1, 0, 0⟩) (turnY ⟨1, 0, 0⟩) ⟨0, 1, 0⟩ ⟨1, 0, 0⟩ (.trans (⟨1, -1, 1⟩ + ⟨1, 0, 0⟩ - ⟨0, 1, 0⟩)) 1 =
    some (false, [[(0, 3 * π / 4), (1, π)], [(0, 3 * π / 4), (1, π)]]) := by
  unfold pk2; evaluate
  exact far_two

example : pk2 0 1 (turnX ⟨1, 0, 0⟩) (turnY ⟨1, 0, 0⟩) (⟨0, 1, 0⟩ + ⟨0.5, 0, 0⟩) ⟨1, 0, 0⟩
    (.trans (⟨1, -1, 1⟩ + ⟨1, 0, 0⟩ - (⟨0, 1, 0⟩ + ⟨0.5, 0, 0⟩))) 1 =
    some (false, [[(0, 3 * π / 4), (1, π)], [(0, 3 * π / 4), (1, π)]]) := by
  unfold pk2; evaluate

/-! ### PadenKahanThree, lines 649-691 -/

example : pk3 0 (turnY ⟨1, 0, 0⟩) ⟨0, 1, 0⟩ ⟨2, 1, 1⟩ (.trans (⟨-1, 0, 0⟩ - (⟨0, 1, 0⟩ - ⟨2, 1, 1⟩))) 1 =
    some (true, [[(0, π)], [(0, π / 2)]]) := by
  have h1 := sqrt_two_gt
  have h2 := sqrt_two_lt
  have ha : |√2 / 2| = √2 / 2 := abs_of_pos (by positivity)
  have hb : arccos (√2 / 2) = π / 4 := by
    rw [← cos_pi_div_four, arccos_cos (by linarith [pi_pos]) (by linarith [pi_pos])]
  have hc : min 1 (√2 / 2) = √2 / 2 := min_eq_right (by norm_num at h2; linarith)
  have hd : max (-1) (√2 / 2) = √2 / 2 := max_eq_right (by linarith)
  have he : normalizeAngle (3 * π / 4 + π / 4) = π := by
    rw [show 3 * π / 4 + π / 4 = π by ring, normalizeAngle_half]
  have hf : normalizeAngle (3 * π / 4 - π / 4) = π / 2 := by
    rw [show 3 * π / 4 - π / 4 = π / 2 by ring, norm_up]
  unfold pk3; evaluate
  rw [two_over, ha, hc, hd, hb, he, hf, if_pos]
  norm_num at h1 h2
  refine ⟨?_, by linarith⟩
  rw [abs_sub_comm, le_abs]; left; linarith

example : pk3 0 (turnY ⟨1, 0, 0⟩) ⟨0, 1, 0⟩ (⟨2, 1, 1⟩ + ⟨1, 0, 1⟩) (.trans (⟨-1, 0, 0⟩ - (⟨0, 1, 0⟩ - (⟨2, 1, 1⟩ + ⟨1, 0, 1⟩)))) 1 =
    some (false, [[(0, 3 * π / 4)], [(0, 3 * π / 4)]]) := by
  have h1 := sqrt_two_gt
  have h : √2 * √2 = (2 : ℝ) := mul_self_sqrt (by norm_num)
  have he : 8 / (2 * √8) = √2 := by
    have : √(2 : ℝ) ≠ 0 := by norm_num
    rw [sqrt_eight]; field_simp; linear_combination -4 * h
  have ha : |√(2 : ℝ)| = √2 := abs_of_pos (by positivity)
  norm_num at h1
  unfold pk3; evaluate
  rw [he, ha, if_neg (by intro h; linarith [h.2]), decide_eq_false]
  rw [not_lt, le_abs]; left; linarith

/-! ### PardosOne, lines 693-717 -/

example : pg1 0 slideY ⟨1, 0, 0⟩ (.trans (⟨1, 1, 0⟩ - ⟨1, 0, 0⟩)) 1 = some (true, [[(0, 1)]]) := by
  unfold pg1; evaluate

/-! ### PardosTwo, lines 719-746 -/

example : pg2 0 1 slideY slideX ⟨1, 1, 0⟩ (.trans (⟨2, 3, 0⟩ - ⟨1, 1, 0⟩)) 1 = some (true, [[(0, 3 - 1), (1, 2 - 1)]]) := by
  unfold pg2; evaluate

/-! ### PardosThree, lines 748-790 -/

example : pg3 0 slideY ⟨1, 0, 0⟩ ⟨1, 2, 0⟩ (.trans (⟨0, 1, 0⟩ - (⟨1, 0, 0⟩ - ⟨1, 2, 0⟩))) 1 = some (true, [[(0, 3)], [(0, 1)]]) := by
  unfold pg3; evaluate

example : pg3 0 slideY ⟨1, 0, 0⟩ (⟨1, 2, 0⟩ + ⟨2, 0, 0⟩) (.trans (⟨0, 1, 0⟩ - (⟨1, 0, 0⟩ - (⟨1, 2, 0⟩ + ⟨2, 0, 0⟩)))) 1 = some (false, [[(0, 2)], [(0, 2)]]) := by
  unfold pg3; evaluate

/-! ### PardosFour, lines 792-844 -/

theorem normal_eq : pg4Normal (turnY ⟨2, 0, 0⟩) (turnY ⟨1, 0, 0⟩) = ⟨-1, 0, 0⟩ := by
  have h : (cross (cross (turnY ⟨2, 0, 0⟩).axis ((turnY ⟨1, 0, 0⟩).origin - (turnY ⟨2, 0, 0⟩).origin))
      (turnY ⟨2, 0, 0⟩).axis).normalize = ⟨-1, 0, 0⟩ := by
    rw [normalize_of_unit]
    · ext <;> norm_num [turnY_eq]
    · norm_num [turnY_eq, dot]
  have h' : pg4Normal (turnY ⟨2, 0, 0⟩) (turnY ⟨1, 0, 0⟩) =
      axisProj ⟨-1, 0, 0⟩ ((turnY ⟨1, 0, 0⟩).origin - (turnY ⟨2, 0, 0⟩).origin) := by rw [← h]; rfl
  rw [h']
  ext <;> norm_num [turnY_eq, axisProj, vectorPow2]

example : pg4 0 1 (turnY ⟨2, 0, 0⟩) (turnY ⟨1, 0, 0⟩) ⟨0, 1, 0⟩ (.trans (⟨3, 1, 1⟩ - ⟨0, 1, 0⟩)) 1 =
   some (true, [[(0, π / 2), (1, π / 2)], [(0, π), (1, -(π / 2))]]) := by
  unfold pg4; rw [normal_eq]; evaluate
  exact fun h => absurd h (not_lt.mpr big_two)

example : pg4 0 1 (turnY ⟨2, 0, 0⟩) (turnY ⟨1, 0, 0⟩) ⟨0, 1, 0⟩ (.trans (⟨3, 1, 1⟩ + ⟨0, 1, 0⟩ - ⟨0, 1, 0⟩)) 1 =
   some (false, [[(0, π / 2), (1, π / 2)], [(0, π), (1, -(π / 2))]]) := by
  unfold pg4; rw [normal_eq]; evaluate
  exact fun h => absurd h (not_lt.mpr big_two)

example : pg4 0 1 (turnY ⟨2, 0, 0⟩) (turnY ⟨1, 0, 0⟩) (⟨0, 1, 0⟩ + ⟨0.75, 0, 0⟩) (.trans (⟨3, 1, 1⟩ + ⟨-0.75, 0, -0.75⟩ - (⟨0, 1, 0⟩ + ⟨0.75, 0, 0⟩))) 1 =
   some (false, [[(0, 3 * π / 4), (1, π)], [(0, 3 * π / 4), (1, π)]]) := by
  have h1 := sqrt_two_lt
  have h : √2 * √2 = (2 : ℝ) := mul_self_sqrt (by norm_num)
  have h16 : (√16)⁻¹ = (1 / 4 : ℝ) := by
    rw [show (16 : ℝ) = 4 ^ 2 by norm_num, sqrt_sq (by norm_num)]; norm_num
  have h8 : (√8)⁻¹ = √2 / 4 := by
    have : √(2 : ℝ) ≠ 0 := by norm_num
    rw [sqrt_eight]; field_simp; linear_combination -2 * h
  norm_num at h1
  unfold pg4; rw [normal_eq]; evaluate
  rw [h16, h8, if_neg (by intro h; linarith [h.2]), decide_eq_false]
  rw [not_lt, abs_sub_comm, le_abs]; left; linarith

/-! ### MatrixExponentialInit, lines 381-405 -/

/-- The base frame of the tests, line 394. -/
noncomputable def newBase : Frame := ⟨.rotZ (π / 2), ⟨-1, 0, 0⟩⟩

example : (turnX ⟨1, 1, 1⟩).motion = .rotation ∧ (turnX ⟨1, 1, 1⟩).axis = ⟨1, 0, 0⟩ ∧ (turnX ⟨1, 1, 1⟩).origin = ⟨1, 1, 1⟩ := by
  simp [turnX_eq]

example : (turnX ⟨1, 1, 1⟩).changeBase newBase = ⟨.rotation, ⟨0, 1, 0⟩, ⟨-2, 1, 1⟩⟩ := by
  rw [turnX_eq]; ext <;> norm_num [MatrixExp.changeBase, newBase, Mat3.rotZ, Frame.act]

/-! ### MatrixExponentialRotation and MatrixExponentialTranslation, lines 407-427 -/

/-- Rotation about z. -/
noncomputable def turnZ (o : Vec3) : MatrixExp := .make .rotation ⟨0, 0, 1⟩ o
theorem turnZ_eq (o : Vec3) : turnZ o = ⟨.rotation, ⟨0, 0, 1⟩, o⟩ := by
  rw [turnZ, MatrixExp.make, normalize_of_unit (by simp [dot])]

example : (turnZ ⟨1, 0, 0⟩).asFrame (π / 2) = ⟨.rotZ (π / 2), ⟨1, -1, 0⟩⟩ := by
  rw [turnZ_eq]; ext <;> norm_num [MatrixExp.asFrame, Mat3.rotZ, Mat3.rot2]

example : (MatrixExp.make .translation ⟨0, 0, 1⟩ 0).asFrame π = ⟨1, π • ⟨0, 0, 1⟩⟩ := by
  rw [MatrixExp.make, normalize_of_unit (by simp [dot])]; rfl

/-! ### ProductOfExponentialsInit, lines 429-467 -/

/-- One rotation seen from another base, and a tool. -/
noncomputable def poeA : Poe := (((Poe.empty 1).appendExp (turnX ⟨1, 1, 1⟩) 1).changeBaseFrame newBase).changeToolFrame (.trans ⟨0, 0, 1⟩)

theorem poeA_eq : poeA = ⟨[⟨.rotation, ⟨0, 1, 0⟩, ⟨-2, 1, 1⟩⟩], ⟨.rotZ (π / 2), ⟨-1, 0, 1⟩⟩⟩ := by
  rw [poeA, turnX_eq, Poe.mk.injEq]
  constructor
  · norm_num [Poe.empty, Poe.appendExp, Poe.changeBaseFrame, Poe.changeToolFrame, MatrixExp.changeBase, newBase, Mat3.rotZ, Frame.act]
    constructor <;> ext <;> norm_num
  · ext <;> norm_num [Poe.empty, Poe.appendExp, Poe.changeBaseFrame, Poe.changeToolFrame, MatrixExp.changeBase, newBase, Mat3.rotZ, Frame.act]

example (H : Frame) : poeA.evaluate [π / 2] H = (true, ⟨.rotZ (π / 2) * .rotX (π / 2), ⟨-2, 0, 0⟩⟩) := by
  rw [poeA_eq, Poe.evaluate, if_neg (by simp), Prod.mk.injEq]
  refine ⟨rfl, ?_⟩
  ext <;> norm_num [Poe.evalLoop, MatrixExp.asFrame, Mat3.rotZ, Mat3.rotX, Mat3.rot2]

/-- Another arm. -/
noncomputable def poeB : Poe := (Poe.empty ⟨.rotX (π / 2), ⟨0, 1, 0⟩⟩).appendExp (turnY ⟨1, 0, 0⟩) 1
/-- Both, one after the other. -/
noncomputable def poeC : Poe := poeA.append poeB ⟨.rotZ (π / 2), ⟨0, 0, 1⟩⟩

theorem poeC_tool : poeC.tool = ⟨.rotZ (π / 2) * .rotX (π / 2), ⟨-1, 0, 1⟩⟩ := by
  rw [poeC, poeA_eq, poeB, turnY_eq]
  ext <;> norm_num [Poe.empty, Poe.append, Poe.appendExp, Mat3.rotZ, Mat3.rotX]

theorem poeC_exps : poeC.exps = [⟨.rotation, ⟨0, 1, 0⟩, ⟨-2, 1, 1⟩⟩, ⟨.rotation, ⟨-1, 0, 0⟩, ⟨0, 1, 1⟩⟩] := by
  rw [poeC, poeA_eq, poeB, turnY_eq]
  norm_num [Poe.empty, Poe.append, Poe.appendExp, Mat3.rotZ, Mat3.rotX, MatrixExp.changeBase, Frame.act]
  constructor <;> ext <;> norm_num

example (H : Frame) : poeC.exps.length = 2 ∧ poeC.evaluate [π / 2, -(π / 2)] H = (true, ⟨.rotX π, ⟨-3, 1, 0⟩⟩) := by
  refine ⟨by rw [poeC_exps]; rfl, ?_⟩
  rw [Poe.evaluate, if_neg (by rw [poeC_exps]; simp), Prod.mk.injEq, poeC_exps, poeC_tool]
  refine ⟨rfl, ?_⟩
  ext <;> norm_num [Poe.evalLoop, MatrixExp.asFrame, Mat3.rotZ, Mat3.rotX, Mat3.rot2]
end Conformance
end KD
