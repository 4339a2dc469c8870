import Verif.Screw.MatrixExponential
import Verif.Screw.PlaneLemmas

/-! # Angles of some vectors -/

namespace KD.Angles

open Real

theorem atan2_polar {ρ θ : ℝ} (h : 0 < ρ) (h1 : -π < θ) (h2 : θ ≤ π) :
    atan2 (ρ * sin θ) (ρ * cos θ) = θ := by
  have := Complex.arg_mul_cos_add_sin_mul_I h ⟨h1, h2⟩
  unfold atan2
  refine Eq.trans ?_ this
  congr 1
  apply Complex.ext <;> simp [Complex.cos_ofReal_re, Complex.sin_ofReal_re]

/-- Angles away from a half turn are left alone. -/
theorem normalizeAngle_id {θ : ℝ} (h1 : -(3 * π / 4) ≤ θ) (h2 : θ ≤ 3 * π / 4) :
    normalizeAngle θ = θ := by
  have hpi := two_le_pi
  have ha : |θ| ≤ 3 * π / 4 := abs_le.mpr ⟨h1, h2⟩
  have hb : ¬ EqualR |θ| π := by
    unfold EqualR eps
    rw [abs_sub_comm, abs_of_nonneg (by linarith)]
    linarith
  unfold normalizeAngle
  rw [if_neg hb, if_neg (by linarith), if_neg (by linarith)]

theorem normalizeAngle_half : normalizeAngle π = π := by
  unfold normalizeAngle
  rw [if_pos]
  unfold EqualR
  rw [abs_of_pos pi_pos, sub_self, abs_zero]
  exact eps_pos

theorem norm_up : normalizeAngle (π / 2) = π / 2 :=
  normalizeAngle_id (by linarith [pi_pos]) (by linarith [pi_pos])
theorem norm_down : normalizeAngle (-(π / 2)) = -(π / 2) :=
  normalizeAngle_id (by linarith [pi_pos]) (by linarith [pi_pos])
theorem norm_back : normalizeAngle (3 * π / 4) = 3 * π / 4 :=
  normalizeAngle_id (by linarith [pi_pos]) le_rfl

theorem atan2_up {r : ℝ} (h : 0 < r) : atan2 r 0 = π / 2 := by
  have := atan2_polar h (θ := π / 2) (by linarith [pi_pos]) (by linarith [pi_pos])
  simpa using this
theorem atan2_down {r : ℝ} (h : 0 < r) : atan2 (-r) 0 = -(π / 2) := by
  have := atan2_polar h (θ := -(π / 2)) (by linarith [pi_pos]) (by linarith [pi_pos])
  simpa using this
theorem atan2_back {r : ℝ} (h : 0 < r) : atan2 0 (-r) = π := by
  have := atan2_polar h (θ := π) (by linarith [pi_pos]) le_rfl
  simpa using this
theorem atan2_ahead {r : ℝ} (h : 0 < r) : atan2 0 r = 0 := by
  have := atan2_polar h (θ := 0) (by linarith [pi_pos]) pi_pos.le
  simpa using this
theorem atan2_corner {r : ℝ} (h : 0 < r) : atan2 r (-r) = 3 * π / 4 := by
  have := atan2_polar (ρ := r * √2) (θ := π - π / 4) (by positivity) (by linarith [pi_pos])
    (by linarith [pi_pos])
  rw [sin_pi_sub, cos_pi_sub, sin_pi_div_four, cos_pi_div_four] at this
  have h2 : √2 * √2 = 2 := mul_self_sqrt (by norm_num)
  have e1 : r * √2 * (√2 / 2) = r := by linear_combination r / 2 * h2
  have e2 : r * √2 * -(√2 / 2) = -r := by linear_combination -r / 2 * h2
  rw [e1, e2] at this
  rw [this]; ring
theorem atan2_zero : atan2 0 0 = 0 := by
  unfold atan2
  exact Complex.arg_zero

theorem norm_zero : normalizeAngle 0 = 0 :=
  normalizeAngle_id (by linarith [pi_pos]) (by linarith [pi_pos])

theorem sqrt_four : √(4 : ℝ) = 2 := by
  rw [show (4 : ℝ) = 2 ^ 2 by norm_num, sqrt_sq (by norm_num)]

theorem sqrt_two_gt : (1.41 : ℝ) < √2 := lt_sqrt_of_sq_lt (by norm_num)
theorem sqrt_two_lt : √(2 : ℝ) < 1.42 := by rw [sqrt_lt' (by norm_num)]; norm_num
theorem far_two : (1 / 1000000 : ℝ) ≤ |1 - √2| := by
  have := sqrt_two_gt
  rw [abs_sub_comm, le_abs]; left; norm_num at this; linarith
theorem big_two : (1 / 1000000 : ℝ) ≤ |√2| := by
  have := sqrt_two_gt
  rw [le_abs]; left; norm_num at this; linarith
theorem half_five : (√5 / 2) ^ 2 = (5 / 4 : ℝ) := by rw [div_pow, sq_sqrt (by norm_num)]; norm_num
theorem two_over : (2 / (2 * √2) : ℝ) = √2 / 2 := by
  have h : √2 * √2 = (2 : ℝ) := mul_self_sqrt (by norm_num)
  have h' := sqrt_two_gt
  have : √(2 : ℝ) ≠ 0 := by norm_num
  field_simp
  linear_combination -h
theorem sqrt_eight : √(8 : ℝ) = 2 * √2 := by
  rw [show (8 : ℝ) = 2 ^ 2 * 2 by norm_num, sqrt_mul (by norm_num), sqrt_sq (by norm_num)]

end KD.Angles
