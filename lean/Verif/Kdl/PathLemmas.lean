import Verif.Kdl.TrajectoryLemmas
import Verif.Kdl.DynamicsLemmas

/-!
# Lemmas about straight paths
-/

namespace KD

namespace Vec3

theorem norm_smul_normalize {v : Vec3} (h : v = 0 ∨ eps ≤ v.norm) : v.norm • v.normalize = v := by
  rcases h with rfl | h
  · rw [norm_zero]; ext <;> simp
  · unfold normalize
    rw [if_neg (not_lt.mpr h), smul_smul]
    have h0 : v.norm ≠ 0 := by intro h0; rw [h0] at h; norm_num [eps] at h
    rw [mul_one_div_cancel h0]
    ext <;> simp

end Vec3

namespace PathLine

/-- Length of a path, and where it leads; `u` is the part of the path that was covered. -/
theorem make_pos {o : SingleAxis} (ho : 0 ≤ o.angle) (a b : Vec3) :
    (make o a b 1).length = max (b - a).norm o.angle ∧
    (0 < (make o a b 1).length →
      (∀ u : ℝ, (make o a b 1).pos (u * (make o a b 1).length) =
        ⟨o.pos (u * o.angle), a + (u * (b - a).norm) • (b - a).normalize⟩) ∧
      ∀ u : ℝ, (make o a b 1).vel (u * (make o a b 1).length) =
        ⟨(u * (b - a).norm) • (b - a).normalize, o.vel (u * o.angle)⟩) ∧
    (make o a b 1).pos 0 = ⟨o.pos 0, a⟩ := by
  have hd := Vec3.norm_nonneg (b - a)
  have h0 : ∀ l : PathLine, l.orient = o → l.start = a → l.pos 0 = ⟨o.pos 0, a⟩ := by
    rintro l rfl rfl
    unfold pos
    rw [zero_mul, zero_mul]
    congr 1
    ext <;> simp
  unfold make
  simp only [mul_one]
  by_cases h1 : o.angle ≠ 0 ∧ o.angle > (b - a).norm
  · rw [if_pos h1]
    obtain ⟨h1, h2⟩ := h1
    refine ⟨(max_eq_right h2.le).symm, fun _ => ⟨fun u => ?_, fun u => ?_⟩, h0 _ rfl rfl⟩
    · simp only [pos, div_one, mul_one]
      rw [mul_assoc, mul_div_cancel₀ _ h1]
    · simp only [vel, div_one, mul_one]
      rw [mul_assoc, mul_div_cancel₀ _ h1]
  · rw [if_neg h1]
    have h2 : o.angle ≤ (b - a).norm := by
      by_contra hn
      push Not at hn
      exact h1 ⟨by linarith, hn⟩
    by_cases h3 : (b - a).norm ≠ 0
    · rw [if_pos h3]
      refine ⟨(max_eq_left h2).symm, fun _ => ⟨fun u => ?_, fun u => ?_⟩, h0 _ rfl rfl⟩
      · simp only [pos, mul_one]
        rw [mul_assoc, mul_div_cancel₀ _ h3]
      · simp only [vel, mul_one]
        rw [mul_assoc, mul_div_cancel₀ _ h3]
    · rw [if_neg h3]
      push Not at h3
      refine ⟨?_, fun h => absurd h (lt_irrefl _), h0 _ rfl rfl⟩
      show 0 = max _ _
      rw [h3] at h2 ⊢
      exact (max_eq_left h2).symm

/-- The velocity of a path is the derivative of its pose. -/
theorem movesWith (l : PathLine) (ha : Vec3.dot l.orient.axis l.orient.axis = 1) (hs : l.orient.start.IsRot) (s : ℝ) :
    Frame.MovesWith l.pos (l.vel 1) s := by
  constructor
  · refine ⟨?_, ?_, ?_⟩
    · exact ((((hasDerivAt_id s).mul_const l.scaleLin).mul_const l.dir.x).const_add l.start.x).congr_deriv (by simp [vel])
    · exact ((((hasDerivAt_id s).mul_const l.scaleLin).mul_const l.dir.y).const_add l.start.y).congr_deriv (by simp [vel])
    · exact ((((hasDerivAt_id s).mul_const l.scaleLin).mul_const l.dir.z).const_add l.start.z).congr_deriv (by simp [vel])
  · intro v
    have h1 := (rot2_movesWith ha 0 (s * l.scaleRot)).comp_fun (g := fun x => x * l.scaleRot)
      ((hasDerivAt_id s).mul_const l.scaleRot)
    have h2 := (Frame.MovesWith.const ⟨l.orient.start, 0⟩ s).mulVec (h1.turn v)
    simp only at h2
    simp only [pos, vel, SingleAxis.pos, SingleAxis.vel, Mat3.mulVec_mul]
    refine h2.congr ?_
    rw [hs.cross]
    have : ∀ w : Vec3, Vec3.cross (0 : Twist).rot w = 0 := by
      intro w; ext <;> simp
    rw [this]
    ext <;> simp

theorem vel_smul (l : PathLine) (sd : ℝ) : sd • l.vel 1 = l.vel sd := by
  have : ∀ v, l.orient.start.mulVec (sd • v) = sd • l.orient.start.mulVec v := fun v => Mat3.mulVec_smul _ _ _
  simp only [vel, SingleAxis.vel]
  ext <;> simp [Mat3.mulVec] <;> ring

end PathLine

end KD
