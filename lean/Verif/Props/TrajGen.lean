import Verif.Solver.TrajGen
import Mathlib.Analysis.Calculus.Deriv.Pow
import Mathlib.Analysis.Calculus.Deriv.Mul
import Mathlib.Analysis.Calculus.Deriv.Add

/-!
# C59: trajectories of one degree of freedom
-/

namespace KD

namespace Traj

/-! ## Order one -/

/-- C59: the linear trajectory starts and ends where requested, and its velocity and acceleration are
the derivatives at every instant. -/
theorem C59_linear (xi xf T : ℝ) (hT : 0 < T) :
    ∃ r, OrderOne.configure xi xf T = some r ∧ r.T = T ∧ r.get 0 = xi ∧ r.get T = xf ∧
      ∀ t, HasDerivAt r.get (r.getdot t) t ∧ HasDerivAt r.getdot (r.getdotdot t) t := by
  refine ⟨⟨T, (xf - xi) / T, xi⟩, if_neg hT.ne', rfl, ?_, ?_, fun t => ⟨?_, ?_⟩⟩
  · simp [OrderOne.get]
  · simp only [OrderOne.get]; field_simp; ring
  · have := ((hasDerivAt_id t).const_mul ((xf - xi) / T)).const_add xi
    exact this.congr_deriv (mul_one _)
  · exact hasDerivAt_const _ _

/-- C59: the linear trajectory stays between its ends. -/
theorem C59_linear_within (xi xf T : ℝ) (hT : 0 < T) (r : OrderOne)
    (hr : OrderOne.configure xi xf T = some r) (t : ℝ) (h0 : 0 ≤ t) (h1 : t ≤ T) :
    min xi xf ≤ r.get t ∧ r.get t ≤ max xi xf := by
  have hr' : r = ⟨T, (xf - xi) / T, xi⟩ := by
    rw [OrderOne.configure, if_neg hT.ne', Option.some.injEq] at hr
    exact hr.symm
  subst hr'
  have hs0 : 0 ≤ t / T := by positivity
  have hs1 : t / T ≤ 1 := by rw [div_le_one hT]; exact h1
  have e : (OrderOne.mk T ((xf - xi) / T) xi).get t = xi + (xf - xi) * (t / T) := by
    simp only [OrderOne.get]; ring
  rw [e]
  constructor
  · rcases le_total xi xf with h | h
    · rw [min_eq_left h]; nlinarith
    · rw [min_eq_right h]; nlinarith
  · rcases le_total xi xf with h | h
    · rw [max_eq_right h]; nlinarith
    · rw [max_eq_left h]; nlinarith

/-- C59: the check of the velocity is right for increasing trajectories. Partial: see
`C59_linear_speed_check_wrong` for decreasing ones. -/
theorem C59_linear_speed_check_partial (xi xf T thres : ℝ) (hT : 0 < T) (hx : xi ≤ xf) (r : OrderOne)
    (hr : OrderOne.configure xi xf T = some r) :
    r.maxVelBelow thres = true ↔ ∀ t, 0 ≤ t → t ≤ T → |r.getdot t| < thres := by
  have hr' : r = ⟨T, (xf - xi) / T, xi⟩ := by
    rw [OrderOne.configure, if_neg hT.ne', Option.some.injEq] at hr
    exact hr.symm
  subst hr'
  have hm : 0 ≤ (xf - xi) / T := div_nonneg (by linarith) hT.le
  simp only [OrderOne.maxVelBelow, OrderOne.getdot, decide_eq_true_eq, abs_of_nonneg hm]
  exact ⟨fun h _ _ _ => h, fun h => h 0 (le_refl _) hT.le⟩

/-- C59: the check of the acceleration is right. -/
theorem C59_linear_acceleration_check (r : OrderOne) (thres T : ℝ) (hT : 0 < T) :
    r.maxAccBelow thres = true ↔ ∀ t, 0 ≤ t → t ≤ T → |r.getdotdot t| < thres := by
  simp only [OrderOne.maxAccBelow, OrderOne.getdotdot, decide_eq_true_eq, abs_zero]
  exact ⟨fun h _ _ _ => h, fun h => h 0 (le_refl _) hT.le⟩

/-- C59 fails for decreasing trajectories: ten meters back in a second pass as slower than one meter per
second. -/
theorem C59_linear_speed_check_wrong :
    ∃ r, OrderOne.configure 10 0 1 = some r ∧ r.maxVelBelow 1 = true ∧ |r.getdot 0| = 10 := by
  refine ⟨⟨1, (0 - 10) / 1, 10⟩, if_neg one_ne_zero, ?_, ?_⟩
  · simp only [OrderOne.maxVelBelow]; norm_num
  · simp only [OrderOne.getdot]; norm_num

/-! ## Order three -/

theorem configure_some {xi xf T : ℝ} (hT : T ≠ 0) : OrderThree.configure xi xf T =
    some ⟨2 * (xi - xf) / (T * T * T), (xf - xi) / (T * T) - 2 * (xi - xf) / (T * T * T) * T, 0, xi, T⟩ :=
  if_neg hT

theorem configureVel_some {xi xf vi vf T : ℝ} (hT : T ≠ 0) : OrderThree.configureVel xi xf vi vf T =
    some ⟨2 * (xi - xf) / (T * T * T) + (vf + vi) / (T * T), (xf - xi - vi * T) / (T * T) -
      (2 * (xi - xf) / (T * T * T) + (vf + vi) / (T * T)) * T, vi, xi, T⟩ :=
  if_neg hT

/-- The rest-to-rest trajectory is the one with null velocities. -/
theorem configure_eq_vel (xi xf T : ℝ) :
    OrderThree.configure xi xf T = OrderThree.configureVel xi xf 0 0 T := by
  simp [OrderThree.configure, OrderThree.configureVel]

/-- C59: the cubic trajectory meets the positions and the velocities requested at both ends, and holds
its last position afterwards. -/
theorem C59_cubic_ends (xi xf vi vf T : ℝ) (hT : 0 < T) :
    ∃ r, OrderThree.configureVel xi xf vi vf T = some r ∧ r.T = T ∧ r.get 0 = xi ∧ r.get T = xf ∧
      r.getdot 0 = vi ∧ r.getdot T = vf ∧ ∀ t, T ≤ t → r.get t = xf := by
  refine ⟨_, configureVel_some hT.ne', rfl, ?_, ?_, ?_, ?_, ?_⟩
  · simp [OrderThree.get, not_lt.mpr hT.le]
  · simp only [OrderThree.get, gt_iff_lt, lt_irrefl, if_false]
    field_simp; ring
  · simp [OrderThree.getdot, not_lt.mpr hT.le]
  · simp only [OrderThree.getdot, gt_iff_lt, lt_irrefl, if_false]
    field_simp; ring
  · intro t ht
    unfold OrderThree.get
    rcases ht.eq_or_lt with rfl | ht
    · simp only [gt_iff_lt, lt_irrefl, if_false]
      field_simp; ring
    · rw [if_pos ht]
      simp only
      field_simp; ring

/-- C59: the rest-to-rest trajectory meets the positions requested, and rests at both ends. -/
theorem C59_rest_to_rest_ends (xi xf T : ℝ) (hT : 0 < T) :
    ∃ r, OrderThree.configure xi xf T = some r ∧ r.T = T ∧ r.get 0 = xi ∧ r.get T = xf ∧
      r.getdot 0 = 0 ∧ r.getdot T = 0 ∧ ∀ t, T ≤ t → r.get t = xf := by
  rw [configure_eq_vel]
  exact C59_cubic_ends xi xf 0 0 T hT

/-- C59: velocity and acceleration are the derivatives of position and velocity up to the end. -/
theorem C59_cubic_derivatives (r : OrderThree) (t : ℝ) (ht : t < r.T) :
    HasDerivAt r.get (r.getdot t) t ∧ HasDerivAt r.getdot (r.getdotdot t) t := by
  have hev : ∀ᶠ s in nhds t, ¬ s > r.T := by
    filter_upwards [Iio_mem_nhds ht] with s hs
    exact not_lt.mpr (le_of_lt hs)
  have hn : ¬ t > r.T := not_lt.mpr ht.le
  have hid := hasDerivAt_id t
  constructor
  · have h : HasDerivAt (fun s => r.a3 * s * s * s + r.a2 * s * s + r.a1 * s + r.a0)
        (3 * r.a3 * t * t + 2 * r.a2 * t + r.a1) t := by
      have h3 := ((hid.const_mul r.a3).mul hid).mul hid
      have h2 := (hid.const_mul r.a2).mul hid
      have h1 := hid.const_mul r.a1
      refine (((h3.add h2).add h1).add_const r.a0).congr_deriv ?_
      simp only [id_eq, mul_one, Pi.mul_apply]; ring
    rw [OrderThree.getdot, if_neg hn]
    refine h.congr_of_eventuallyEq ?_
    filter_upwards [hev] with s hs
    rw [OrderThree.get, if_neg hs]
  · have h : HasDerivAt (fun s => 3 * r.a3 * s * s + 2 * r.a2 * s + r.a1)
        (6 * r.a3 * t + 2 * r.a2) t := by
      have h2 := (hid.const_mul (3 * r.a3)).mul hid
      have h1 := hid.const_mul (2 * r.a2)
      refine ((h2.add h1).add_const r.a1).congr_deriv ?_
      simp only [id_eq, mul_one]; ring
    rw [OrderThree.getdotdot, if_neg hn]
    refine h.congr_of_eventuallyEq ?_
    filter_upwards [hev] with s hs
    rw [OrderThree.getdot, if_neg hs]

/-- C59 fails after the end: the trajectory has come to rest, yet a velocity and an acceleration are
reported that are not null. Even at rest on both ends, the acceleration is wrong. -/
theorem C59_after_end_wrong :
    (∃ r, OrderThree.configure 0 1 1 = some r ∧ (∀ t, 1 ≤ t → r.get t = 1) ∧ r.getdot 2 = 0 ∧
      r.getdotdot 2 = -6) ∧
    (∃ r, OrderThree.configureVel 0 1 0 2 1 = some r ∧ (∀ t, 1 ≤ t → r.get t = 1) ∧
      r.getdot 2 = 2) := by
  constructor
  · obtain ⟨r, h, -, -, -, -, -, h7⟩ := C59_rest_to_rest_ends 0 1 1 one_pos
    refine ⟨r, h, h7, ?_, ?_⟩ <;>
    · rw [configure_some one_ne_zero, Option.some.injEq] at h
      subst h
      norm_num [OrderThree.getdot, OrderThree.getdotdot]
  · obtain ⟨r, h, -, -, -, -, -, h7⟩ := C59_cubic_ends 0 1 0 2 1 one_pos
    refine ⟨r, h, h7, ?_⟩
    rw [configureVel_some one_ne_zero, Option.some.injEq] at h
    subst h
    norm_num [OrderThree.getdot]

/-- The rest-to-rest trajectory in terms of the fraction of time elapsed. -/
theorem rest_to_rest_get {xi xf T : ℝ} (hT : 0 < T) {r : OrderThree}
    (hr : OrderThree.configure xi xf T = some r) {t : ℝ} (ht : t ≤ T) :
    r.get t = xi + (xf - xi) * ((t / T) ^ 2 * (3 - 2 * (t / T))) ∧
    r.getdot t = (xf - xi) / T * (6 * (t / T) * (1 - t / T)) ∧
    r.getdotdot t = (xf - xi) / T ^ 2 * (6 - 12 * (t / T)) := by
  rw [configure_some hT.ne', Option.some.injEq] at hr
  subst hr
  have hn : ¬ t > T := not_lt.mpr ht
  simp only [OrderThree.get, OrderThree.getdot, OrderThree.getdotdot, if_neg hn]
  refine ⟨?_, ?_, ?_⟩ <;> field_simp <;> ring

/-- C59: the rest-to-rest trajectory never leaves the interval between its ends. -/
theorem C59_no_overshoot (xi xf T : ℝ) (hT : 0 < T) (r : OrderThree)
    (hr : OrderThree.configure xi xf T = some r) (t : ℝ) (h0 : 0 ≤ t) :
    min xi xf ≤ r.get t ∧ r.get t ≤ max xi xf := by
  rcases le_total t T with ht | ht
  · rw [(rest_to_rest_get hT hr ht).1]
    have hs0 : 0 ≤ t / T := by positivity
    have hs1 : t / T ≤ 1 := by rw [div_le_one hT]; exact ht
    set s := t / T
    have u0 : 0 ≤ s ^ 2 * (3 - 2 * s) := mul_nonneg (sq_nonneg s) (by linarith)
    have u1 : s ^ 2 * (3 - 2 * s) ≤ 1 := by
      have : 0 ≤ (1 - s) ^ 2 * (1 + 2 * s) := mul_nonneg (sq_nonneg _) (by linarith)
      nlinarith
    set u := s ^ 2 * (3 - 2 * s)
    constructor
    · rcases le_total xi xf with h | h
      · rw [min_eq_left h]; nlinarith
      · rw [min_eq_right h]; nlinarith
    · rcases le_total xi xf with h | h
      · rw [max_eq_right h]; nlinarith
      · rw [max_eq_left h]; nlinarith
  · obtain ⟨r', h, -, -, -, -, -, h7⟩ := C59_rest_to_rest_ends xi xf T hT
    rw [hr, Option.some.injEq] at h
    subst h
    rw [h7 t ht]
    exact ⟨min_le_right _ _, le_max_right _ _⟩

/-- C59: it moves in one direction only. -/
theorem C59_monotone (xi xf T : ℝ) (hT : 0 < T) (hx : xi ≤ xf) (r : OrderThree)
    (hr : OrderThree.configure xi xf T = some r) (t : ℝ) (h0 : 0 ≤ t) (h1 : t ≤ T) :
    0 ≤ r.getdot t ∧ r.getdot t ≤ r.getdot (T / 2) := by
  have hs0 : 0 ≤ t / T := by positivity
  have hs1 : t / T ≤ 1 := by rw [div_le_one hT]; exact h1
  have hm : 0 ≤ (xf - xi) / T := div_nonneg (by linarith) hT.le
  rw [(rest_to_rest_get hT hr h1).2.1, (rest_to_rest_get hT hr (by linarith : T / 2 ≤ T)).2.1]
  have e : T / 2 / T = 1 / 2 := by field_simp
  rw [e]
  set s := t / T
  constructor
  · exact mul_nonneg hm (mul_nonneg (by linarith) (by linarith))
  · apply mul_le_mul_of_nonneg_left _ hm
    nlinarith [sq_nonneg (s - 1 / 2)]

/-- C59: the check of the velocity is right for increasing rest-to-rest trajectories. Partial: see
`C59_cubic_checks_wrong`. -/
theorem C59_cubic_speed_check_partial (xi xf T thres : ℝ) (hT : 0 < T) (hx : xi ≤ xf) (r : OrderThree)
    (hr : OrderThree.configure xi xf T = some r) :
    r.maxVelBelow thres = true ↔ ∀ t, 0 ≤ t → t ≤ T → |r.getdot t| < thres := by
  have hrT : r.T = T := by
    obtain ⟨r', h, h', -⟩ := C59_rest_to_rest_ends xi xf T hT
    rw [hr, Option.some.injEq] at h
    rw [h, h']
  simp only [OrderThree.maxVelBelow, decide_eq_true_eq, hrT]
  constructor
  · intro h t h0 h1
    obtain ⟨a, b⟩ := C59_monotone xi xf T hT hx r hr t h0 h1
    rw [abs_of_nonneg a]
    linarith
  · intro h
    have := h (T / 2) (by linarith) (by linarith)
    exact lt_of_le_of_lt (le_abs_self _) this

/-- C59 fails for the other checks of the cubic trajectory. A decreasing one passes any check of its
velocity; the acceleration is read where it is null, so that every rest-to-rest trajectory passes; and
with velocities at the ends, the middle is not where the velocity is greatest. -/
theorem C59_cubic_checks_wrong :
    (∃ r, OrderThree.configure 10 0 1 = some r ∧ r.maxVelBelow 1 = true ∧ |r.getdot (1 / 2)| = 15) ∧
    (∃ r, OrderThree.configure 0 10 1 = some r ∧ r.maxAccBelow 1 = true ∧ |r.getdotdot 0| = 60) ∧
    (∃ r, OrderThree.configureVel 0 1 0 2 1 = some r ∧ r.maxVelBelow (3 / 2) = true ∧ r.getdot 1 = 2) := by
  refine ⟨⟨_, configure_some one_ne_zero, ?_, ?_⟩, ⟨_, configure_some one_ne_zero, ?_, ?_⟩,
    ⟨_, configureVel_some one_ne_zero, ?_, ?_⟩⟩ <;>
  norm_num [OrderThree.maxVelBelow, OrderThree.maxAccBelow, OrderThree.getdot, OrderThree.getdotdot, abs_of_neg]

/-- C59: every rest-to-rest trajectory passes every check of the acceleration, however short it is. -/
theorem C59_acceleration_never_refused (xi xf T thres : ℝ) (hT : 0 < T) (ht : 0 < thres) (r : OrderThree)
    (hr : OrderThree.configure xi xf T = some r) : r.maxAccBelow thres = true := by
  have hrT : r.T = T := by
    obtain ⟨r', h, h', -⟩ := C59_rest_to_rest_ends xi xf T hT
    rw [hr, Option.some.injEq] at h
    rw [h, h']
  simp only [OrderThree.maxAccBelow, decide_eq_true_eq, hrT]
  rw [(rest_to_rest_get hT hr (by linarith : T / 2 ≤ T)).2.2]
  have e : T / 2 / T = 1 / 2 := by field_simp
  rw [e]
  norm_num
  exact ht

/-- C59: with velocities at the ends there may be an overshoot, as documented. -/
theorem C59_overshoot_with_velocities :
    ∃ r, OrderThree.configureVel 0 1 8 0 1 = some r ∧ r.get (1 / 2) = 3 / 2 := by
  refine ⟨_, configureVel_some one_ne_zero, ?_⟩
  norm_num [OrderThree.get]

/-- A trajectory that meets the hypotheses. -/
example : ∃ r, OrderThree.configure 1 3 2 = some r ∧ r.get 1 = 2 ∧ r.getdot 1 = 3 / 2 := by
  refine ⟨_, configure_some two_ne_zero, ?_, ?_⟩ <;> norm_num [OrderThree.get, OrderThree.getdot]

end Traj

end KD
