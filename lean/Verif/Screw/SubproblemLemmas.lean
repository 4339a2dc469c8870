import Verif.Screw.PlaneLemmas

/-! Helper lemmas for the soundness of the Paden-Kahan and Pardos-Gotor subproblems. -/

namespace KD

open Real Vec3

theorem rotation_eta {e : MatrixExp} (hm : e.motion = .rotation) :
    e = ⟨.rotation, e.axis, e.origin⟩ := by
  rcases e with ⟨m, a, o⟩; simp only at hm; subst hm; rfl

theorem translation_eta {e : MatrixExp} (hm : e.motion = .translation) :
    e = ⟨.translation, e.axis, e.origin⟩ := by
  rcases e with ⟨m, a, o⟩; simp only at hm; subst hm; rfl

theorem act_rot {e : MatrixExp} (hm : e.motion = .rotation) (he : e.Unit) (θ : ℝ) (x : Vec3) :
    (e.asFrame θ).act x = e.origin + (Mat3.rot2 e.axis θ).mulVec (x - e.origin) := by
  rw [rotation_eta hm]; exact MatrixExp.asFrame_act_rotation he θ x

theorem act_trans {e : MatrixExp} (hm : e.motion = .translation) (θ : ℝ) (x : Vec3) :
    (e.asFrame θ).act x = x + θ • e.axis := by
  rw [translation_eta hm]; exact MatrixExp.asFrame_act_translation _ _ θ x

/-- Any point of the axis serves as origin. -/
theorem act_rot_at {e : MatrixExp} (hm : e.motion = .rotation) (he : e.Unit) {r : Vec3} {t : ℝ}
    (hr : r = e.origin + t • e.axis) (θ : ℝ) (x : Vec3) :
    (e.asFrame θ).act x = r + (Mat3.rot2 e.axis θ).mulVec (x - r) := by
  have h1 : x - e.origin = (x - r) + t • e.axis := by rw [hr]; abel
  rw [act_rot hm he, h1, Mat3.mulVec_add, Mat3.mulVec_smul, Mat3.rot2_axis he, hr]
  abel

theorem rot_height {e : MatrixExp} (hm : e.motion = .rotation) (he : e.Unit) {r : Vec3} {t : ℝ}
    (hr : r = e.origin + t • e.axis) (θ : ℝ) (x : Vec3) :
    dot e.axis ((e.asFrame θ).act x - r) = dot e.axis (x - r) := by
  rw [act_rot_at hm he hr, add_sub_cancel_left, dot_axis_rot he]

theorem rot_dist {e : MatrixExp} (hm : e.motion = .rotation) (he : e.Unit) {r : Vec3} {t : ℝ}
    (hr : r = e.origin + t • e.axis) (θ : ℝ) (x : Vec3) :
    dot ((e.asFrame θ).act x - r) ((e.asFrame θ).act x - r) = dot (x - r) (x - r) := by
  rw [act_rot_at hm he hr, add_sub_cancel_left, (Mat3.rot2_isRot he θ).dot]

/-- Version of `rotate_point` for an arbitrary point of the axis. -/
theorem rotate_point_at {e : MatrixExp} (hm : e.motion = .rotation) (he : e.Unit) {r : Vec3} {t : ℝ}
    (hr : r = e.origin + t • e.axis) {f k : Vec3}
    (hh : dot e.axis (f - r) = dot e.axis (k - r))
    (hd : (axisRej e.axis (f - r)).norm = (axisRej e.axis (k - r)).norm) :
    (e.asFrame (angleAbout e.axis (axisRej e.axis (f - r)) (axisRej e.axis (k - r)))).act f = k := by
  rw [act_rot_at hm he hr, rot_decomp he, align_eq he (dot_axisRej he _) (dot_axisRej he _) hd, hh,
    axisRej_eq]
  abel

/-- The part of a point normal to an axis does not depend on the point of the axis. -/
theorem axisRej_at {a o r : Vec3} {t : ℝ} (ha : dot a a = 1) (hr : r = o + t • a) (x : Vec3) :
    axisRej a (x - r) = axisRej a (x - o) := by
  have : x - r = (x - o) - t • a := by rw [hr]; abel
  rw [this, axisRej_sub, axisRej_smul_axis ha, sub_zero]

/-- When only the distances to the axis differ, so do the positions after the rotation. -/
theorem rotate_point_err {e : MatrixExp} (hm : e.motion = .rotation) (he : e.Unit) {r : Vec3} {t : ℝ}
    (hr : r = e.origin + t • e.axis) (f k : Vec3) :
    ((e.asFrame (angleAbout e.axis (axisRej e.axis (f - r)) (axisRej e.axis (k - r)))).act f
      - k).norm
    ≤ |(axisRej e.axis (f - r)).norm - (axisRej e.axis (k - r)).norm|
      + (axisProj e.axis (f - r) - axisProj e.axis (k - r)).norm := by
  have ha : dot e.axis e.axis = 1 := he
  set a := e.axis with hadef
  set u := axisRej a (f - r) with hu
  set v := axisRej a (k - r) with hv
  have hal := align ha (dot_axisRej ha (f - r)) (dot_axisRej ha (k - r))
  rw [← hu, ← hv] at hal
  rw [act_rot_at hm he hr, rot_decomp he, ← hadef, ← hu]
  have hk : k = r + (v + dot a (k - r) • a) := by
    rw [hv, axisRej_eq]; abel
  have e1 : r + ((Mat3.rot2 a (angleAbout a u v)).mulVec u + dot a (f - r) • a) - k
      = ((Mat3.rot2 a (angleAbout a u v)).mulVec u - v)
        + (axisProj a (f - r) - axisProj a (k - r)) := by
    conv_lhs => rw [hk]
    rw [axisProj_eq, axisProj_eq]
    abel
  rw [e1]
  refine (Vec3.norm_add_le _ _).trans ?_
  refine add_le_add_left ?_ _
  -- |R u - v| = ||u| - |v||
  set R := (Mat3.rot2 a (angleAbout a u v)) with hR
  have hRn : (R.mulVec u).norm = u.norm := (Mat3.rot2_isRot ha _).norm u
  by_cases h0 : v.norm = 0
  · have hv0 : v = 0 := norm_eq_zero h0
    rw [h0, hv0, sub_zero, sub_zero, hRn, abs_of_nonneg (norm_nonneg u)]
  · have hRu : R.mulVec u = (u.norm / v.norm) • v := by
      have := congrArg (fun w => (v.norm)⁻¹ • w) hal
      simp only [smul_smul, inv_mul_cancel₀ h0, one_smul] at this
      rw [this, div_eq_inv_mul]
    have : R.mulVec u - v = ((u.norm - v.norm) / v.norm) • v := by
      rw [hRu, sub_div, div_self h0, sub_smul, one_smul]
    rw [this, Vec3.norm_smul, abs_div, abs_of_nonneg (norm_nonneg v), div_mul_cancel₀ _ h0]

theorem norm_le_of_equal {a b : Vec3} (h : Vec3.Equal a b) : (a - b).norm ≤ √3 * eps := by
  obtain ⟨h1, h2, h3⟩ := h
  unfold EqualR at h1 h2 h3
  have hx : (a.x - b.x) ^ 2 ≤ eps ^ 2 := sq_le_sq' (by linarith [(abs_lt.mp h1).1]) (abs_lt.mp h1).2.le
  have hy : (a.y - b.y) ^ 2 ≤ eps ^ 2 := sq_le_sq' (by linarith [(abs_lt.mp h2).1]) (abs_lt.mp h2).2.le
  have hz : (a.z - b.z) ^ 2 ≤ eps ^ 2 := sq_le_sq' (by linarith [(abs_lt.mp h3).1]) (abs_lt.mp h3).2.le
  have hsq : (a - b).norm ^ 2 ≤ (√3 * eps) ^ 2 := by
    rw [norm_sq, mul_pow, sq_sqrt (by norm_num)]
    simp only [dot, sub_x, sub_y, sub_z]
    nlinarith
  exact (abs_le_of_sq_le_sq' hsq (mul_nonneg (sqrt_nonneg _) eps_pos.le)).2

theorem Vec3.Equal.refl (a : Vec3) : Vec3.Equal a a := by
  simp [Vec3.Equal, EqualR, eps_pos]

theorem EqualR.refl (a : ℝ) : EqualR a a := by simp [EqualR, eps_pos]

/-! ### Two crossing axes -/

theorem gram (w a b : Vec3) : dot w (cross a b) ^ 2
    = dot w w * dot a a * dot b b + 2 * dot w a * dot w b * dot a b - dot w w * dot a b ^ 2
      - dot a a * dot w b ^ 2 - dot b b * dot w a ^ 2 := by
  simp [dot]; ring

theorem cross_norm_sq {a b : Vec3} (ha : dot a a = 1) (hb : dot b b = 1) :
    (cross a b).norm ^ 2 = 1 - dot a b ^ 2 := by
  rw [norm_sq, lagrange, ha, hb]; ring

theorem den_ne_zero {a b : Vec3} (ha : dot a a = 1) (hb : dot b b = 1) (h : cross a b ≠ 0) :
    dot a b ^ 2 - 1 ≠ 0 := by
  intro h0
  apply h
  apply Vec3.norm_eq_zero
  have := cross_norm_sq ha hb
  have h2 : (cross a b).norm ^ 2 = 0 := by linarith
  exact pow_eq_zero_iff (two_ne_zero) |>.mp h2

/-- The point with prescribed heights along two axes and prescribed out-of-plane coordinate. -/
theorem mixed_point {a b : Vec3} (ha : dot a a = 1) (hb : dot b b = 1)
    (hd : dot a b ^ 2 - 1 ≠ 0) (p q g : ℝ) :
    let α := (dot a b * q - p) / (dot a b ^ 2 - 1)
    let β := (dot a b * p - q) / (dot a b ^ 2 - 1)
    let m := α • a + β • b + g • cross a b
    dot a m = p ∧ dot b m = q ∧
    dot m m = α ^ 2 + β ^ 2 + 2 * α * β * dot a b + g ^ 2 * (1 - dot a b ^ 2) := by
  intro α β m
  have e1 : dot a m = α + β * dot a b := by
    simp only [m, dot_add_right, dot_smul_right, ha, dot_cross_self_left]; ring
  have e2 : dot b m = α * dot a b + β := by
    simp only [m, dot_add_right, dot_smul_right, hb, dot_cross_self_right, dot_comm b a]; ring
  refine ⟨?_, ?_, ?_⟩
  · rw [e1]; simp only [α, β]; field_simp; ring
  · rw [e2]; simp only [α, β]; field_simp; ring
  · have hx : dot (cross a b) (cross a b) = 1 - dot a b ^ 2 := by
      rw [lagrange, ha, hb]; ring
    simp only [m, dot_add_left, dot_add_right, dot_smul_left, dot_smul_right, ha, hb, hx,
      dot_cross_self_left, dot_cross_self_right, dot_comm b a, dot_comm (cross a b) a,
      dot_comm (cross a b) b]
    ring

/-- Out-of-plane coordinate of a point in terms of its heights and length. -/
theorem gamma_sq {a b : Vec3} (ha : dot a a = 1) (hb : dot b b = 1)
    (hd : dot a b ^ 2 - 1 ≠ 0) (w : Vec3) :
    let α := (dot a b * dot b w - dot a w) / (dot a b ^ 2 - 1)
    let β := (dot a b * dot a w - dot b w) / (dot a b ^ 2 - 1)
    (dot w w - α ^ 2 - β ^ 2 - 2 * α * β * dot a b) / (1 - dot a b ^ 2)
      = (dot w (cross a b) / (1 - dot a b ^ 2)) ^ 2 := by
  intro α β
  have hd' : 1 - dot a b ^ 2 ≠ 0 := by intro h; apply hd; linarith
  have hg := gram w a b
  rw [ha, hb, dot_comm w a, dot_comm w b] at hg
  rw [div_pow (dot w (cross a b)), hg]
  have e : dot a b ^ 2 - 1 = -(1 - dot a b ^ 2) := by ring
  simp only [α, β, e]
  field_simp
  ring

theorem axisRej_norm_congr {a v w : Vec3} (ha : dot a a = 1) (h1 : dot a v = dot a w)
    (h2 : dot v v = dot w w) : (axisRej a v).norm = (axisRej a w).norm := by
  apply norm_eq_of_sq
  rw [← norm_sq, ← norm_sq, axisRej_norm_sq ha, axisRej_norm_sq ha, h1, h2]

end KD
