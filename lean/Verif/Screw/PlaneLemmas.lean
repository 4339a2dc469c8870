import Verif.Screw.Subproblems
import Verif.Screw.PoeLemmas
import Mathlib.Analysis.SpecialFunctions.Trigonometric.Bounds

/-! Helper lemmas on rotations in the plane normal to an axis, angles and tolerances. -/

namespace KD

open Real Vec3

namespace Vec3

theorem cross_cross (a b c : Vec3) : cross a (cross b c) = dot a c • b - dot a b • c := by
  ext <;> simp [dot] <;> ring

theorem cross_cross' (a b c : Vec3) : cross (cross a b) c = dot a c • b - dot b c • a := by
  ext <;> simp [dot] <;> ring

theorem cross_self (a : Vec3) : cross a a = 0 := by ext <;> simp <;> ring
theorem cross_zero (a : Vec3) : cross a 0 = 0 := by ext <;> simp
theorem cross_smul (s : ℝ) (a b : Vec3) : cross a (s • b) = s • cross a b := by
  ext <;> simp <;> ring
theorem cross_smul_left (s : ℝ) (a b : Vec3) : cross (s • a) b = s • cross a b := by
  ext <;> simp <;> ring
theorem cross_add (a b c : Vec3) : cross a (b + c) = cross a b + cross a c := by
  ext <;> simp <;> ring
theorem cross_sub (a b c : Vec3) : cross a (b - c) = cross a b - cross a c := by
  ext <;> simp <;> ring

theorem lagrange (a b : Vec3) :
    dot (cross a b) (cross a b) = dot a a * dot b b - dot a b ^ 2 := by
  simp [dot]; ring

theorem norm_smul (s : ℝ) (a : Vec3) : (s • a).norm = |s| * a.norm := by
  rw [norm, dot_smul_left, dot_smul_right, ← mul_assoc, ← sq, sqrt_mul (sq_nonneg s), sqrt_sq_eq_abs,
    norm]

theorem norm_neg (a : Vec3) : (-a).norm = a.norm := by
  rw [norm, dot_neg_left, dot_neg_right, neg_neg, norm]

theorem dot_le_norm_mul (a b : Vec3) : dot a b ≤ a.norm * b.norm := by
  have h := lagrange a b
  have h0 := dot_self_nonneg (cross a b)
  have : dot a b ^ 2 ≤ (a.norm * b.norm) ^ 2 := by
    rw [mul_pow, norm_sq, norm_sq]; linarith
  exact le_of_sq_le_sq_right this (mul_nonneg (norm_nonneg a) (norm_nonneg b))
where
  le_of_sq_le_sq_right {x y : ℝ} (h : x ^ 2 ≤ y ^ 2) (hy : 0 ≤ y) : x ≤ y := by
    exact (abs_le_of_sq_le_sq' h hy).2

theorem norm_add_le (a b : Vec3) : (a + b).norm ≤ a.norm + b.norm := by
  have h : (a + b).norm ^ 2 ≤ (a.norm + b.norm) ^ 2 := by
    rw [norm_sq, dot_add_left, dot_add_right, dot_add_right, dot_comm b a]
    have := dot_le_norm_mul a b
    nlinarith [norm_sq a, norm_sq b]
  exact (abs_le_of_sq_le_sq' h (add_nonneg (norm_nonneg a) (norm_nonneg b))).2

theorem norm_sub_le (a b c : Vec3) : (a - c).norm ≤ (a - b).norm + (b - c).norm := by
  have : a - c = (a - b) + (b - c) := by abel
  rw [this]; exact norm_add_le _ _

theorem norm_eq_of_sq {a b : Vec3} (h : dot a a = dot b b) : a.norm = b.norm := by
  rw [norm, norm, h]

end Vec3

theorem axisProj_eq (a v : Vec3) : axisProj a v = dot a v • a := by
  ext <;> simp [axisProj, vectorPow2, dot] <;> ring

theorem axisRej_eq (a v : Vec3) : axisRej a v = v - dot a v • a := by
  rw [axisRej, axisProj_eq]

theorem dot_axisRej {a : Vec3} (ha : dot a a = 1) (v : Vec3) : dot a (axisRej a v) = 0 := by
  rw [axisRej_eq, dot_sub_right, dot_smul_right, ha]; ring

theorem axisRej_norm_sq {a : Vec3} (ha : dot a a = 1) (v : Vec3) :
    (axisRej a v).norm ^ 2 = dot v v - dot a v ^ 2 := by
  rw [norm_sq, axisRej_eq, dot_sub_left, dot_sub_right, dot_sub_right, dot_smul_left,
    dot_smul_right, dot_smul_left, dot_smul_right, ha, dot_comm v a]; ring

theorem axisRej_of_perp {a v : Vec3} (h : dot a v = 0) : axisRej a v = v := by
  rw [axisRej_eq, h, zero_smul, sub_zero]

theorem axisRej_add (a v w : Vec3) : axisRej a (v + w) = axisRej a v + axisRej a w := by
  simp only [axisRej_eq, dot_add_right, add_smul]; abel

theorem axisRej_sub (a v w : Vec3) : axisRej a (v - w) = axisRej a v - axisRej a w := by
  simp only [axisRej_eq, dot_sub_right, sub_smul]; abel

theorem axisRej_smul_axis {a : Vec3} (ha : dot a a = 1) (t : ℝ) : axisRej a (t • a) = 0 := by
  rw [axisRej_eq, dot_smul_right, ha, mul_one, sub_self]

theorem axisRej_decomp (a v : Vec3) : v = axisRej a v + dot a v • a := by
  rw [axisRej_eq]; abel

/-- Rotation acts on the two components separately. -/
theorem rot_decomp {a : Vec3} (ha : dot a a = 1) (θ : ℝ) (v : Vec3) :
    (Mat3.rot2 a θ).mulVec v = (Mat3.rot2 a θ).mulVec (axisRej a v) + dot a v • a := by
  conv_lhs => rw [axisRej_decomp a v, Mat3.mulVec_add, Mat3.mulVec_smul, Mat3.rot2_axis ha]

theorem dot_axis_rot {a : Vec3} (ha : dot a a = 1) (θ : ℝ) (v : Vec3) :
    dot a ((Mat3.rot2 a θ).mulVec v) = dot a v := by
  conv_lhs => rw [← Mat3.rot2_axis ha θ]
  conv_lhs => rw [Mat3.rot2_axis ha θ]
  rw [Mat3.rot2_mulVec, dot_add_right, dot_add_right, dot_smul_right, dot_smul_right,
    dot_smul_right, dot_cross_self_left, ha]
  ring

/-! ### Angles -/

theorem atan2_cos_mul {y x ρ : ℝ} (h : x ^ 2 + y ^ 2 = ρ ^ 2) (hρ : 0 ≤ ρ) :
    ρ * cos (atan2 y x) = x := by
  have hn : ‖(⟨x, y⟩ : ℂ)‖ = ρ := by
    rw [Complex.norm_eq_sqrt_sq_add_sq, h, sqrt_sq hρ]
  have := Complex.norm_mul_cos_arg (⟨x, y⟩ : ℂ)
  rw [hn] at this
  exact this

theorem atan2_sin_mul {y x ρ : ℝ} (h : x ^ 2 + y ^ 2 = ρ ^ 2) (hρ : 0 ≤ ρ) :
    ρ * sin (atan2 y x) = y := by
  have hn : ‖(⟨x, y⟩ : ℂ)‖ = ρ := by
    rw [Complex.norm_eq_sqrt_sq_add_sq, h, sqrt_sq hρ]
  have := Complex.norm_mul_sin_arg (⟨x, y⟩ : ℂ)
  rw [hn] at this
  exact this

theorem atan2_le_pi (y x : ℝ) : atan2 y x ≤ π := Complex.arg_le_pi _
theorem neg_pi_lt_atan2 (y x : ℝ) : -π < atan2 y x := Complex.neg_pi_lt_arg _

/-- In the plane normal to `a`, `u x v` is along `a`. -/
theorem cross_of_perp {a u v : Vec3} (ha : dot a a = 1) (hu : dot a u = 0) (hv : dot a v = 0) :
    cross u v = dot a (cross u v) • a := by
  have h1 : cross a (cross u v) = 0 := by
    rw [cross_cross, hu, hv, zero_smul, zero_smul, sub_zero]
  have h2 : cross (cross a (cross u v)) a = cross u v - dot a (cross u v) • a := by
    rw [cross_cross', ha, one_smul, dot_comm (cross u v) a]
  rw [h1] at h2
  have h3 : cross (0 : Vec3) a = 0 := by ext <;> simp
  rw [h3] at h2
  exact (sub_eq_zero.mp h2.symm)

theorem plane_identity {a u v : Vec3} (ha : dot a a = 1) (hu : dot a u = 0) (hv : dot a v = 0) :
    dot u u • v = dot u v • u + dot a (cross u v) • cross a u := by
  have h := congrArg (fun w => cross w u) (cross_of_perp ha hu hv)
  simp only [cross_cross', cross_smul_left] at h
  rw [← h, dot_comm v u]; abel

theorem plane_norm {a u v : Vec3} (ha : dot a a = 1) (hu : dot a u = 0) (hv : dot a v = 0) :
    dot u v ^ 2 + dot a (cross u v) ^ 2 = (u.norm * v.norm) ^ 2 := by
  have h := lagrange u v
  rw [cross_of_perp ha hu hv, dot_smul_left, dot_smul_right, ha] at h
  rw [mul_pow, norm_sq, norm_sq]
  linarith

/-- The angle about the axis aligns `u` with `v`. -/
theorem align {a u v : Vec3} (ha : dot a a = 1) (hu : dot a u = 0) (hv : dot a v = 0) :
    v.norm • (Mat3.rot2 a (angleAbout a u v)).mulVec u = u.norm • v := by
  have hn := plane_norm ha hu hv
  have hρ := mul_nonneg (norm_nonneg u) (norm_nonneg v)
  have hc : u.norm * v.norm * cos (angleAbout a u v) = dot u v := atan2_cos_mul hn hρ
  have hs : u.norm * v.norm * sin (angleAbout a u v) = dot a (cross u v) := atan2_sin_mul hn hρ
  by_cases h0 : u.norm = 0
  · have : u = 0 := norm_eq_zero h0
    subst this
    simp
  · have key : (u.norm * v.norm) • (Mat3.rot2 a (angleAbout a u v)).mulVec u
        = (u.norm * u.norm) • v := by
      rw [Mat3.rot2_mulVec, hu, mul_zero, zero_smul, add_zero, smul_add, smul_smul, smul_smul, hc,
        hs, norm_mul_self, plane_identity ha hu hv]
    rw [mul_smul, mul_smul] at key
    have := congrArg (fun w => (u.norm)⁻¹ • w) key
    simpa [smul_smul, inv_mul_cancel₀ h0, ← mul_assoc] using this

theorem align_eq {a u v : Vec3} (ha : dot a a = 1) (hu : dot a u = 0) (hv : dot a v = 0)
    (h : u.norm = v.norm) : (Mat3.rot2 a (angleAbout a u v)).mulVec u = v := by
  have hal := align ha hu hv
  by_cases h0 : v.norm = 0
  · have hv0 : v = 0 := norm_eq_zero h0
    have hu0 : u = 0 := norm_eq_zero (h.trans h0)
    subst hv0; subst hu0; simp
  · rw [h] at hal
    have := congrArg (fun w => (v.norm)⁻¹ • w) hal
    simpa [smul_smul, inv_mul_cancel₀ h0] using this

/-- Rotation about a line: if heights and distances agree, the angle maps one point on the other. -/
theorem rotate_point {e : MatrixExp} (hm : e.motion = .rotation) (he : e.Unit) {f k : Vec3}
    (hh : dot e.axis (f - e.origin) = dot e.axis (k - e.origin))
    (hd : (axisRej e.axis (f - e.origin)).norm = (axisRej e.axis (k - e.origin)).norm) :
    (e.asFrame (angleAbout e.axis (axisRej e.axis (f - e.origin))
      (axisRej e.axis (k - e.origin)))).act f = k := by
  rcases e with ⟨m, a, o⟩
  simp only at hm
  subst hm
  have ha : dot a a = 1 := he
  simp only at hh hd ⊢
  rw [MatrixExp.asFrame_act_rotation ha, rot_decomp ha,
    align_eq ha (dot_axisRej ha _) (dot_axisRej ha _) hd, hh, axisRej_eq]
  abel

/-! ### Angle normalisation -/

/-- `φ` is `θ` up to whole turns, or was snapped to `π` from closer than `eps`. -/
def SameAngle (φ θ : ℝ) : Prop :=
  ∃ n : ℤ, |φ - (θ + 2 * π * n)| < eps ∧ (φ ≠ π → φ = θ + 2 * π * n)

theorem SameAngle.refl (θ : ℝ) : SameAngle θ θ :=
  ⟨0, by simp [eps_pos], by simp⟩

theorem normalizeAngle_same (θ : ℝ) : SameAngle (normalizeAngle θ) θ := by
  unfold normalizeAngle
  split_ifs with h1 h2 h3
  · unfold EqualR at h1
    rcases le_or_gt 0 θ with hp | hn
    · rw [abs_of_nonneg hp] at h1
      refine ⟨0, ?_, fun h => absurd rfl h⟩
      rw [abs_sub_comm]; simpa using h1
    · rw [abs_of_neg hn] at h1
      refine ⟨1, ?_, fun h => absurd rfl h⟩
      have : π - (θ + 2 * π * (1 : ℤ)) = -θ - π := by push_cast; ring
      rw [this]; exact h1
  · exact ⟨-1, by push_cast; simp [eps_pos, sub_eq_add_neg], by push_cast; intro _; ring⟩
  · exact ⟨1, by push_cast; simp [eps_pos], by push_cast; intro _; ring⟩
  · exact ⟨0, by simp [eps_pos], by simp⟩

theorem normalizeAngle_range {θ : ℝ} (h1 : -(3 * π) < θ) (h2 : θ ≤ 3 * π) :
    -π < normalizeAngle θ ∧ normalizeAngle θ ≤ π := by
  have hpi := pi_pos
  unfold normalizeAngle
  split_ifs with a b c
  · constructor <;> linarith
  · constructor <;> linarith
  · constructor <;> linarith
  · refine ⟨lt_of_le_of_ne (not_lt.mp c) ?_, not_lt.mp b⟩
    intro h
    apply a
    rw [← h, abs_neg, abs_of_pos hpi, EqualR, sub_self, abs_zero]
    exact eps_pos

/-- A rotation by a slightly different angle moves a point by at most that angle times its distance
to the axis. -/
theorem rot_lipschitz {e : MatrixExp} (hm : e.motion = .rotation) (he : e.Unit) (φ θ : ℝ)
    (x : Vec3) :
    ((e.asFrame φ).act x - (e.asFrame θ).act x).norm
      ≤ |φ - θ| * (axisRej e.axis (x - e.origin)).norm := by
  rcases e with ⟨m, a, o⟩
  simp only at hm
  subst hm
  have ha : dot a a = 1 := he
  simp only
  rw [MatrixExp.asFrame_act_rotation ha, MatrixExp.asFrame_act_rotation ha, rot_decomp ha φ,
    rot_decomp ha θ]
  set w := axisRej a (x - o) with hw
  have hp : dot a w = 0 := dot_axisRej ha _
  have e1 : o + ((Mat3.rot2 a φ).mulVec w + dot a (x - o) • a)
      - (o + ((Mat3.rot2 a θ).mulVec w + dot a (x - o) • a))
      = (cos φ - cos θ) • w + (sin φ - sin θ) • cross a w := by
    rw [Mat3.rot2_mulVec, Mat3.rot2_mulVec, hp]
    simp only [mul_zero, zero_smul, add_zero, sub_smul]
    abel
  rw [e1]
  have hsq : ((cos φ - cos θ) • w + (sin φ - sin θ) • cross a w).norm ^ 2
      = ((cos φ - cos θ) ^ 2 + (sin φ - sin θ) ^ 2) * w.norm ^ 2 := by
    have hcw : dot w (cross a w) = 0 := dot_cross_self_right a w
    have hcc : dot (cross a w) (cross a w) = dot w w := by
      rw [lagrange, ha, hp]; ring
    rw [norm_sq, norm_sq, dot_add_left, dot_add_right, dot_add_right]
    simp only [dot_smul_left, dot_smul_right, hcw, hcc, dot_comm (cross a w) w]
    ring
  have hchord : (cos φ - cos θ) ^ 2 + (sin φ - sin θ) ^ 2 ≤ |φ - θ| ^ 2 := by
    have h1 : (cos φ - cos θ) ^ 2 + (sin φ - sin θ) ^ 2 = 2 - 2 * cos (φ - θ) := by
      rw [cos_sub]
      nlinarith [sin_sq_add_cos_sq φ, sin_sq_add_cos_sq θ]
    rw [h1, sq_abs]
    have := one_sub_sq_div_two_le_cos (x := φ - θ)
    linarith
  have hfin : ((cos φ - cos θ) • w + (sin φ - sin θ) • cross a w).norm ^ 2
      ≤ (|φ - θ| * w.norm) ^ 2 := by
    rw [hsq, mul_pow]
    exact mul_le_mul_of_nonneg_right hchord (sq_nonneg _)
  exact (abs_le_of_sq_le_sq' hfin (mul_nonneg (abs_nonneg _) (norm_nonneg _))).2

theorem rot2_periodic (a : Vec3) (θ : ℝ) (n : ℤ) :
    Mat3.rot2 a (θ + 2 * π * n) = Mat3.rot2 a θ := by
  have h1 : cos (θ + 2 * π * n) = cos θ := by
    rw [mul_comm (2 * π)]; exact cos_add_int_mul_two_pi θ n
  have h2 : sin (θ + 2 * π * n) = sin θ := by
    rw [mul_comm (2 * π)]; exact sin_add_int_mul_two_pi θ n
  simp only [Mat3.rot2, h1, h2]

theorem asFrame_periodic {e : MatrixExp} (hm : e.motion = .rotation) (θ : ℝ) (n : ℤ) :
    e.asFrame (θ + 2 * π * n) = e.asFrame θ := by
  rcases e with ⟨m, a, o⟩
  simp only at hm
  subst hm
  simp only [MatrixExp.asFrame, rot2_periodic]

/-- Angles related by `SameAngle` move points to the same place, up to `eps` times the distance
to the axis; exactly so unless the reported angle is `π`. -/
theorem SameAngle.act {e : MatrixExp} (hm : e.motion = .rotation) (he : e.Unit) {φ θ : ℝ}
    (h : SameAngle φ θ) (x : Vec3) :
    ((e.asFrame φ).act x - (e.asFrame θ).act x).norm ≤ eps * (axisRej e.axis (x - e.origin)).norm
    ∧ (φ ≠ π → e.asFrame φ = e.asFrame θ) := by
  obtain ⟨n, hn, hne⟩ := h
  constructor
  · rw [← asFrame_periodic hm θ n]
    refine (rot_lipschitz hm he _ _ x).trans ?_
    exact mul_le_mul_of_nonneg_right hn.le (norm_nonneg _)
  · intro hφ
    rw [hne hφ, asFrame_periodic hm]

end KD
