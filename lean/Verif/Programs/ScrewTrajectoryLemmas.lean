import Verif.Programs.ScrewTrajectory
import Verif.Screw.Exact
import Verif.Props.Builder

/-!
# The arm of the screw theory trajectory example
-/

namespace KD.StDemo

open Real Mat3 Exact Builder

/-- The terms, from the base. -/
def forward : List E := [
  ⟨⟨0, 1, 0⟩, ⟨0, 34692 / 100000, 4982 / 10000⟩⟩, ⟨⟨1, 0, 0⟩, ⟨0, 34692 / 100000, 4982 / 10000⟩⟩,
  ⟨⟨0, 0, 1⟩, ⟨0, 34692 / 100000, 4982 / 10000⟩⟩, ⟨⟨0, 1, 0⟩, ⟨0, 34692 / 100000, 16919 / 100000⟩⟩,
  ⟨⟨0, 0, 1⟩, ⟨0, 34692 / 100000, 16919 / 100000⟩⟩, ⟨⟨0, 1, 0⟩, ⟨0, 34692 / 100000, -4581 / 100000⟩⟩]

/-- The terms, from the tool. -/
def backward : List E := [
  ⟨⟨0, 0, 1⟩, ⟨9 / 100, 0, 0⟩⟩, ⟨⟨1, 0, 0⟩, ⟨305 / 1000, 0, 0⟩⟩, ⟨⟨0, 0, 1⟩, ⟨305 / 1000, 0, 0⟩⟩,
  ⟨⟨1, 0, 0⟩, ⟨63401 / 100000, 0, 0⟩⟩, ⟨⟨0, 1, 0⟩, ⟨63401 / 100000, 0, 0⟩⟩, ⟨⟨0, 0, 1⟩, ⟨63401 / 100000, 0, 0⟩⟩]

theorem base_rotation : rotY (-π / 2) * rotX (-π / 2) = (⟨0, 1, 0, 0, 0, 1, 1, 0, 0⟩ : Mat3) := by
  have h1 : cos (-π / 2) = 0 := by rw [neg_div, cos_neg, cos_pi_div_two]
  have h2 : sin (-π / 2) = -1 := by rw [neg_div, sin_neg, sin_pi_div_two]
  ext <;> simp [rotX, rotY, h1, h2]

theorem teo_tool : teoLeftArm.tool = ⟨⟨0, 1, 0, 0, 0, 1, 1, 0, 0⟩, ⟨0, 0.34692, -0.13581⟩⟩ := by
  simp only [teoLeftArm, Poe.changeBaseFrame, Poe.appendExp, Poe.empty, base_rotation]
  ext <;> simp; norm_num

theorem teo_exps : teoLeftArm.exps = forward.map E.real := by
  have n1 : (⟨0, 0, 1⟩ : Vec3).normalize = ⟨0, 0, 1⟩ := Vec3.normalize_of_unit (by simp [Vec3.dot])
  have n2 : (⟨0, 1, 0⟩ : Vec3).normalize = ⟨0, 1, 0⟩ := Vec3.normalize_of_unit (by simp [Vec3.dot])
  have n3 : (⟨1, 0, 0⟩ : Vec3).normalize = ⟨1, 0, 0⟩ := Vec3.normalize_of_unit (by simp [Vec3.dot])
  simp only [teoLeftArm, Poe.changeBaseFrame, Poe.appendExp, Poe.empty, base_rotation, MatrixExp.make, n1, n2, n3,
    MatrixExp.changeBase, List.nil_append, List.cons_append, List.map_cons, List.map_nil, forward, E.real, V.real,
    List.cons.injEq, MatrixExp.mk.injEq, true_and, and_true]
  refine ⟨⟨?_, ?_⟩, ⟨?_, ?_⟩, ⟨?_, ?_⟩, ⟨?_, ?_⟩, ⟨?_, ?_⟩, ?_, ?_⟩ <;> ext <;> simp [Frame.act] <;> norm_num

theorem teo_back_exps : teoLeftArm.reverseSelf.exps = backward.map E.real := by
  simp only [Poe.reverseSelf, teo_exps, teo_tool, forward, backward, List.map_cons, List.map_nil, E.real, V.real,
    MatrixExp.changeBase, List.reverse_cons, List.reverse_nil, List.nil_append, List.cons_append, List.cons.injEq,
    MatrixExp.mk.injEq, true_and, and_true]
  refine ⟨⟨?_, ?_⟩, ⟨?_, ?_⟩, ⟨?_, ?_⟩, ⟨?_, ?_⟩, ⟨?_, ?_⟩, ?_, ?_⟩ <;> ext <;> simp [Frame.act, Frame.inv] <;> norm_num

theorem teo_length : teoLeftArm.exps.length = 6 := by rw [teo_exps]; rfl

theorem teo_rotations : ∀ e ∈ teoLeftArm.exps, e.motion = .rotation := by
  rw [teo_exps]
  intro e he
  obtain ⟨e, -, rfl⟩ := List.mem_map.mp he
  rfl

theorem teo_unit : ∀ e ∈ teoLeftArm.exps, e.Unit := by
  rw [teo_exps]
  intro e he
  simp only [forward, List.map_cons, List.map_nil, List.mem_cons, List.not_mem_nil, or_false] at he
  rcases he with rfl | rfl | rfl | rfl | rfl | rfl <;> norm_num [MatrixExp.Unit, E.real, V.real, Vec3.dot]

theorem teo_rigid : teoLeftArm.tool.IsRigid := by
  rw [teo_tool]
  constructor
  · ext <;> simp
  · ext <;> simp
  · simp [Mat3.det]

theorem forward_margin : margin forward = true := by decide +kernel

theorem backward_margin : margin backward = true := by decide +kernel

/-- The parallel axes of the arm are apart, also when its problem is set up from the tool. -/
theorem teo_margin {rnd : ℕ → ℝ} {pb : IkProblem} {subs : List Subproblem}
    (h : build rnd teoLeftArm = some (some (pb, subs))) : Margin pb.poe.exps := by
  obtain ⟨-, h2, -⟩ := C19_covers_joints_exactly_once rnd _ pb subs h
  intro e1 h1 e2 h2' _ _ hp
  rcases h2 with ⟨-, h2⟩ | ⟨-, h2⟩
  · rw [h2, teo_exps] at h1 h2'
    exact margin_real forward_margin e1 h1 e2 h2' hp
  · rw [h2, teo_back_exps] at h1 h2'
    exact margin_real backward_margin e1 h1 e2 h2' hp

/-- What `std::rand` of the GNU C library gives in a program that does not seed it. -/
def gnuRand : List ℕ := [1804289383, 846930886, 1681692777, 1714636915, 1957747793, 424238335, 719885386, 1649760492,
  596516649, 1189641421, 1025202362, 1350490027]

/-- `KDL::random`. -/
def gnuDraw (n : ℕ) : ℚ := 198 / 100 * (gnuRand.getD n 0 : ℚ) / 2147483647 - 99 / 100

/-- The point on the axis of the third joint. -/
def drawnPoint : V := ⟨63401 / 100000, 0, 54796144293 / 214748364700⟩

/-- The subproblems of the arm. -/
def teoSteps : List S := [
  .pk3 2 ⟨⟨0, 0, 1⟩, ⟨305 / 1000, 0, 0⟩⟩ ⟨63401 / 100000, 0, 0⟩ ⟨9 / 100, 0, 0⟩,
  .pk2 0 1 ⟨⟨0, 0, 1⟩, ⟨9 / 100, 0, 0⟩⟩ ⟨⟨1, 0, 0⟩, ⟨305 / 1000, 0, 0⟩⟩ ⟨63401 / 100000, 0, 0⟩ ⟨9 / 100, 0, 0⟩,
  .pk2 3 4 ⟨⟨1, 0, 0⟩, ⟨63401 / 100000, 0, 0⟩⟩ ⟨⟨0, 1, 0⟩, ⟨63401 / 100000, 0, 0⟩⟩ drawnPoint ⟨63401 / 100000, 0, 0⟩,
  .pk1 5 ⟨⟨0, 0, 1⟩, ⟨63401 / 100000, 0, 0⟩⟩ ⟨0, 0, 0⟩]

theorem forward_attempt : Exact.attempt gnuDraw 0 forward ⟨0, 34692 / 100000, -13581 / 100000⟩ = some (6, none) := by
  decide +kernel

theorem backward_attempt : Exact.attempt gnuDraw 6 backward ⟨13581 / 100000, 0, -34692 / 100000⟩ =
    some (12, some teoSteps) := by
  decide +kernel

/-- The problem that the example builds. -/
noncomputable def teoProblem : IkProblem :=
  ⟨teoLeftArm.reverseSelf, (teoSteps.map S.real).map Subproblem.toStep, true⟩

theorem teo_build : build (fun n => (gnuDraw n : ℝ)) teoLeftArm = some (some (teoProblem, teoSteps.map S.real)) := by
  have h1 := attempt_real gnuDraw (poe := teoLeftArm) teo_exps
    (by rw [teo_tool]; ext <;> simp [V.real] <;> norm_num) forward_attempt
  have h2 := attempt_real gnuDraw (poe := teoLeftArm.reverseSelf) teo_back_exps
    (by
      simp only [Poe.reverseSelf, teo_tool, Frame.inv, V.real]
      ext <;> simp <;> norm_num) backward_attempt
  unfold build
  rw [h1]
  simp only [Option.bind_eq_bind, Option.bind_some, Option.map_none]
  rw [h2]
  rfl

end KD.StDemo
