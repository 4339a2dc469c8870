import Verif.Kdl.Rotations
import Verif.Screw.PlaneLemmas
import Verif.Screw.PoeLemmas
import Mathlib.Analysis.SpecialFunctions.Trigonometric.Bounds

/-!
# Rotation vectors
-/

namespace KD

open Real

namespace Mat3

/-- Specification: the rotation a rotation vector stands for. Its direction is the axis and its
length the angle; the null vector is no rotation. -/
noncomputable def expRot (v : Vec3) : Mat3 := rot2 ((1 / v.norm) • v) v.norm

theorem expRot_zero : expRot 0 = 1 := by
  simp [expRot, rot2_zero]

theorem expRot_smul {u : Vec3} (hu : Vec3.dot u u = 1) {θ : ℝ} (hθ : 0 ≤ θ) :
    expRot (θ • u) = rot2 u θ := by
  have hn : u.norm = 1 := by rw [Vec3.norm, hu, Real.sqrt_one]
  have h1 : (θ • u).norm = θ := by rw [Vec3.norm_smul, hn, abs_of_nonneg hθ, mul_one]
  rcases hθ.eq_or_lt with h0 | h0
  · rw [← h0, rot2_zero]
    have : (0 : ℝ) • u = 0 := by ext <;> simp
    rw [this, expRot_zero]
  · have h2 : (1 / θ) • (θ • u) = u := by
      ext <;> simp <;> field_simp
    rw [expRot, h1, h2]

/-- The direction of a non-zero vector is a unit vector. -/
theorem dir_unit {v : Vec3} (hv : v.norm ≠ 0) : Vec3.dot ((1 / v.norm) • v) ((1 / v.norm) • v) = 1 := by
  rw [Vec3.dot_smul_left, Vec3.dot_smul_right, ← Vec3.norm_mul_self]
  field_simp

theorem expRot_isRot (v : Vec3) : (expRot v).IsRot := by
  by_cases hv : v.norm = 0
  · rw [Vec3.norm_eq_zero hv, expRot_zero]; exact IsRot.one
  · exact rot2_isRot (dir_unit hv) _

/-- `Rot(v, v.Norm())` is the rotation of the vector, unless it is too short to be normalised. -/
theorem rot_norm {v : Vec3} (hv : v = 0 ∨ eps ≤ v.norm) : rot v v.norm = expRot v := by
  rcases hv with rfl | hv
  · rw [expRot_zero, rot, Vec3.norm_zero, rot2_zero]
  · unfold rot expRot Vec3.normalize
    rw [if_neg (not_lt.mpr hv)]

/-- Cosine of the rotation angle. -/
noncomputable def cosAngle (m : Mat3) : ℝ := (m.xx + m.yy + m.zz - 1) / 2

theorem rot2_cosAngle {a : Vec3} (ha : Vec3.dot a a = 1) (θ : ℝ) : (rot2 a θ).cosAngle = cos θ := by
  simp only [Vec3.dot] at ha
  simp only [cosAngle, rot2]
  linear_combination (1 - cos θ) / 2 * ha

theorem expRot_cosAngle (v : Vec3) : (expRot v).cosAngle = cos v.norm := by
  by_cases hv : v.norm = 0
  · rw [hv, Vec3.norm_eq_zero hv, expRot_zero]; norm_num [cosAngle]
  · exact rot2_cosAngle (dir_unit hv) _

/-- Squares and products of the components of the antisymmetric part. -/
theorem IsRot.antisym {m : Mat3} (h : m.IsRot) :
    (m.zy - m.yz) ^ 2 = 4 * (1 + m.cosAngle) * (m.xx - m.cosAngle) ∧
    (m.xz - m.zx) ^ 2 = 4 * (1 + m.cosAngle) * (m.yy - m.cosAngle) ∧
    (m.yx - m.xy) ^ 2 = 4 * (1 + m.cosAngle) * (m.zz - m.cosAngle) ∧
    (m.zy - m.yz) * (m.xz - m.zx) = 2 * (1 + m.cosAngle) * (m.xy + m.yx) ∧
    (m.zy - m.yz) * (m.yx - m.xy) = 2 * (1 + m.cosAngle) * (m.xz + m.zx) ∧
    (m.xz - m.zx) * (m.yx - m.xy) = 2 * (1 + m.cosAngle) * (m.yz + m.zy) := by
  obtain ⟨c1, c2, c3, c4, c5, c6, c7, c8, c9⟩ := h.cofactor
  have r1 := congrArg Mat3.xx h.right
  have r2 := congrArg Mat3.yy h.right
  have r3 := congrArg Mat3.zz h.right
  have l1 := congrArg Mat3.xx h.left
  have l2 := congrArg Mat3.yy h.left
  have l3 := congrArg Mat3.zz h.left
  have r12 := congrArg Mat3.xy h.right
  have r13 := congrArg Mat3.xz h.right
  have r23 := congrArg Mat3.yz h.right
  have l12 := congrArg Mat3.xy h.left
  have l13 := congrArg Mat3.xz h.left
  have l23 := congrArg Mat3.yz h.left
  simp at r1 r2 r3 l1 l2 l3 r12 r13 r23 l12 l13 l23
  simp only [cosAngle]
  refine ⟨?_, ?_, ?_, ?_, ?_, ?_⟩
  · linear_combination r2 + r3 - l1 + 2 * c1
  · linear_combination r1 + r3 - l2 + 2 * c5
  · linear_combination r1 + r2 - l3 + 2 * c9
  · linear_combination c2 + c4 - r12 - l12
  · linear_combination c3 + c7 - r13 - l13
  · linear_combination c6 + c8 - r23 - l23

theorem IsRot.antisym_norm {m : Mat3} (h : m.IsRot) :
    (m.zy - m.yz) ^ 2 + (m.xz - m.zx) ^ 2 + (m.yx - m.xy) ^ 2 = 4 * (1 - m.cosAngle ^ 2) := by
  obtain ⟨h1, h2, h3, -⟩ := h.antisym
  rw [h1, h2, h3]
  simp only [cosAngle]
  ring

theorem IsRot.cosAngle_le {m : Mat3} (h : m.IsRot) : m.cosAngle ≤ 1 := by
  have := h.antisym_norm
  nlinarith [sq_nonneg (m.zy - m.yz), sq_nonneg (m.xz - m.zx), sq_nonneg (m.yx - m.xy)]

theorem IsRot.neg_one_le_cosAngle {m : Mat3} (h : m.IsRot) : -1 ≤ m.cosAngle := by
  have := h.antisym_norm
  nlinarith [sq_nonneg (m.zy - m.yz), sq_nonneg (m.xz - m.zx), sq_nonneg (m.yx - m.xy)]

/-- Rodrigues' formula read backwards. -/
theorem IsRot.eq_rot2 {m : Mat3} (h : m.IsRot) {θ : ℝ} (hc : cos θ = m.cosAngle) {n : ℝ}
    (hn : n ≠ 0) (hs : sin θ = n / 2) :
    m = rot2 ⟨(m.zy - m.yz) / n, (m.xz - m.zx) / n, (m.yx - m.xy) / n⟩ θ := by
  obtain ⟨h1, h2, h3, h4, h5, h6⟩ := h.antisym
  have hn2 : n ^ 2 = 4 * (1 - m.cosAngle ^ 2) := by
    have := sin_sq_add_cos_sq θ
    rw [hs, hc] at this
    linarith
  have hq : (1 - m.cosAngle) * (1 + m.cosAngle) ≠ 0 := by
    intro h0
    have : n ^ 2 = 0 := by rw [hn2]; linarith
    exact hn (by simpa using this)
  have hq1 : 1 - m.cosAngle ≠ 0 := left_ne_zero_of_mul hq
  have hq2 : 1 + m.cosAngle ≠ 0 := right_ne_zero_of_mul hq
  have key : ∀ a b s : ℝ, a * b = 2 * (1 + m.cosAngle) * s →
      (1 - m.cosAngle) * (a / n) * (b / n) = s / 2 := by
    intro a b s hab
    have : (1 - m.cosAngle) * (a / n) * (b / n) = (1 - m.cosAngle) * (a * b) / n ^ 2 := by
      field_simp
    have hn3 : n ^ 2 = 4 * ((1 - m.cosAngle) * (1 + m.cosAngle)) := by rw [hn2]; ring
    rw [this, hab, hn3]
    field_simp
    ring
  have e1 := key _ _ (2 * (m.xx - m.cosAngle)) (by rw [← sq, h1]; ring)
  have e2 := key _ _ (2 * (m.yy - m.cosAngle)) (by rw [← sq, h2]; ring)
  have e3 := key _ _ (2 * (m.zz - m.cosAngle)) (by rw [← sq, h3]; ring)
  have e4 := key _ _ _ h4
  have e5 := key _ _ _ h5
  have e6 := key _ _ _ h6
  have d : ∀ a : ℝ, a / n * (n / 2) = a / 2 := by intro a; field_simp
  ext <;> simp only [rot2, hc, hs]
  · rw [e1]; ring
  · rw [e4, d]; ring
  · rw [e5, d]; ring
  · rw [e4, d]; ring
  · rw [e2]; ring
  · rw [e6, d]; ring
  · rw [e5, d]; ring
  · rw [e6, d]; ring
  · rw [e3]; ring

private theorem unit_bound {a b c : ℝ} (h : a * a + b * b + c * c = 1) : 0 ≤ a + 1 := by
  nlinarith [sq_nonneg b, sq_nonneg c]

private theorem zero_of_sq {a b c : ℝ} (h : a ^ 2 + b ^ 2 + c ^ 2 = 0) : a = 0 ∧ b = 0 ∧ c = 0 := by
  refine ⟨?_, ?_, ?_⟩ <;> nlinarith [sq_nonneg a, sq_nonneg b, sq_nonneg c]

private theorem zero_of_sq2 {a b : ℝ} (h : a ^ 2 + b ^ 2 = 0) : a = 0 ∧ b = 0 := by
  constructor <;> nlinarith [sq_nonneg a, sq_nonneg b]

/-- Signs of the square roots in the formula for half turns. -/
private theorem half_turn_signs {X Y Z a b c : ℝ} (Z0 : 0 ≤ Z)
    (XY : X * Y = |a| / 2) (XZ : X * Z = |b| / 2) (YZ : Y * Z = |c| / 2) (hs : 0 ≤ a * c * b)
    {x1 y1 x2 : ℝ} (hx1 : x1 = if b < 0 then -X else X) (hy1 : y1 = if c < 0 then -Y else Y)
    (hx2 : x2 = if x1 * y1 * a < 0 then -x1 else x1) :
    x2 * y1 = a / 2 ∧ x2 * Z = b / 2 ∧ y1 * Z = c / 2 ∧ x2 ^ 2 = X ^ 2 ∧ y1 ^ 2 = Y ^ 2 := by
  have e1 : x1 * Z = b / 2 := by
    rw [hx1]; split_ifs with hc
    · rw [abs_of_neg hc] at XZ; linarith
    · rw [abs_of_nonneg (not_lt.mp hc)] at XZ; linarith
  have e2 : y1 * Z = c / 2 := by
    rw [hy1]; split_ifs with hc
    · rw [abs_of_neg hc] at YZ; linarith
    · rw [abs_of_nonneg (not_lt.mp hc)] at YZ; linarith
  have x1sq : x1 ^ 2 = X ^ 2 := by rw [hx1]; split_ifs <;> ring
  have y1sq : y1 ^ 2 = Y ^ 2 := by rw [hy1]; split_ifs <;> ring
  have e3 : (x1 * y1) ^ 2 = (a / 2) ^ 2 := by
    rw [mul_pow, x1sq, y1sq, ← mul_pow, XY, div_pow, sq_abs, div_pow]
  have f : x2 * y1 = a / 2 ∧ x2 * Z = b / 2 ∧ x2 ^ 2 = X ^ 2 := by
    rw [hx2]
    clear hx1 hy1 hx2 XY XZ YZ
    split_ifs with hc
    · have hz : b = 0 := by
        by_contra hne
        have h4 : a * c * b = 4 * Z ^ 2 * (x1 * y1 * a) := by
          have a1 : b = 2 * (x1 * Z) := by linarith
          have a2 : c = 2 * (y1 * Z) := by linarith
          rw [a1, a2]; ring
        have hZp : 0 < Z ^ 2 := by
          rcases Z0.eq_or_lt with h0 | h0
          · rw [← h0] at e1; exfalso; apply hne; linarith
          · positivity
        have : 4 * Z ^ 2 * (x1 * y1 * a) < 0 := mul_neg_of_pos_of_neg (by linarith) hc
        linarith
      refine ⟨?_, by rw [hz] at e1 ⊢; linarith, by rw [neg_sq, x1sq]⟩
      rcases sq_eq_sq_iff_eq_or_eq_neg.mp e3 with hh | hh
      · rw [hh] at hc; nlinarith [sq_nonneg a]
      · linarith
    · refine ⟨?_, e1, x1sq⟩
      rcases sq_eq_sq_iff_eq_or_eq_neg.mp e3 with hh | hh
      · exact hh
      · rw [hh] at hc ⊢
        have h0 : a = 0 := by nlinarith [sq_nonneg a]
        rw [h0]; ring
  exact ⟨f.1, f.2.1, e2, f.2.2, y1sq⟩

theorem IsRot.eq_one {m : Mat3} (h : m.IsRot) (hc : m.cosAngle = 1) : m = 1 := by
  obtain ⟨h1, h2, h3, h4, h5, h6⟩ := h.antisym
  have hn := h.antisym_norm
  rw [hc] at h1 h2 h3 h4 h5 h6 hn
  obtain ⟨a1, a2, a3⟩ := zero_of_sq (hn.trans (by norm_num))
  rw [a1, a2] at h4
  rw [a1, a3] at h5
  rw [a2, a3] at h6
  rw [a1] at h1
  rw [a2] at h2
  rw [a3] at h3
  ext <;> simp only [one_xx, one_xy, one_xz, one_yx, one_yy, one_yz, one_zx, one_zy, one_zz] <;> linarith

/-- Half turns. -/
theorem IsRot.half_turn {m : Mat3} (h : m.IsRot) (hc : m.cosAngle = -1) :
    m.yx = m.xy ∧ m.zx = m.xz ∧ m.zy = m.yz ∧
    m.xy ^ 2 = (m.xx + 1) * (m.yy + 1) ∧ m.xz ^ 2 = (m.xx + 1) * (m.zz + 1) ∧
    m.yz ^ 2 = (m.yy + 1) * (m.zz + 1) ∧ 0 ≤ m.xx + 1 ∧ 0 ≤ m.yy + 1 ∧ 0 ≤ m.zz + 1 ∧
    0 ≤ m.xy * m.yz * m.xz := by
  have hn := h.antisym_norm
  rw [hc] at hn
  obtain ⟨b1, b2, b3⟩ := zero_of_sq (hn.trans (by norm_num))
  have a1 : m.zy = m.yz := by linarith
  have a2 : m.zx = m.xz := by linarith
  have a3 : m.yx = m.xy := by linarith
  obtain ⟨c1, c2, c3, c4, c5, c6, c7, c8, c9⟩ := h.cofactor
  have r1 := congrArg Mat3.xx h.right
  have r2 := congrArg Mat3.yy h.right
  have r3 := congrArg Mat3.zz h.right
  simp at r1 r2 r3
  simp only [cosAngle] at hc
  have p1 : 0 ≤ m.xx + 1 := unit_bound r1
  have p2 : 0 ≤ m.yy + 1 := unit_bound (by linarith : m.yy * m.yy + m.yx * m.yx + m.yz * m.yz = 1)
  have p3 : 0 ≤ m.zz + 1 := unit_bound (by linarith : m.zz * m.zz + m.zx * m.zx + m.zy * m.zy = 1)
  simp only [a1, a2, a3] at c1 c3 c5 c9
  have t1 : m.xx = -1 - m.yy - m.zz := by linarith
  refine ⟨a3, a2, a1, by rw [t1] at c9 ⊢; linear_combination -c9,
    by rw [t1] at c5 ⊢; linear_combination -c5, by rw [t1] at c1; linear_combination -c1,
    p1, p2, p3, ?_⟩
  have : m.xy * m.yz * m.xz = m.xz ^ 2 * (m.yy + 1) := by linear_combination m.xz * c3
  rw [this]
  positivity

/-- The rotation has a well conditioned axis, is none at all, or is a half turn. The two bands that
are left out are narrower than `epsilon` radians. -/
def Regular (m : Mat3) : Prop :=
  (m.cosAngle ≤ 1 - eps * eps / 2 ∧ -1 + eps * eps / 2 ≤ m.cosAngle) ∨ m.cosAngle = 1 ∨ m.cosAngle = -1

/-- Axis and angle extraction is right for regular rotations. -/
theorem IsRot.getRotAngle_spec {m : Mat3} (h : m.IsRot) (hr : m.Regular) :
    Vec3.dot m.getRotAngle.1 m.getRotAngle.1 = 1 ∧ 0 ≤ m.getRotAngle.2 ∧ m.getRotAngle.2 ≤ π ∧
    rot2 m.getRotAngle.1 m.getRotAngle.2 = m ∧ cos m.getRotAngle.2 = m.cosAngle := by
  have ee : 0 < eps * eps / 2 := by norm_num [eps]
  have ee1 : eps * eps / 2 < 1 := by norm_num [eps]
  rcases hr with ⟨h1, h2⟩ | h1 | h1
  · have hval : m.getRotAngle = (⟨(m.zy - m.yz) / Vec3.norm ⟨m.zy - m.yz, m.xz - m.zx, m.yx - m.xy⟩,
        (m.xz - m.zx) / Vec3.norm ⟨m.zy - m.yz, m.xz - m.zx, m.yx - m.xy⟩,
        (m.yx - m.xy) / Vec3.norm ⟨m.zy - m.yz, m.xz - m.zx, m.yx - m.xy⟩⟩,
        atan2 (Vec3.norm ⟨m.zy - m.yz, m.xz - m.zx, m.yx - m.xy⟩ / 2) m.cosAngle) := by
      unfold getRotAngle
      simp only
      rw [if_neg (by simp only [cosAngle] at h1; linarith), if_neg (by simp only [cosAngle] at h2; linarith)]
      rfl
    set n := Vec3.norm ⟨m.zy - m.yz, m.xz - m.zx, m.yx - m.xy⟩ with hnd
    have hn2 : n ^ 2 = 4 * (1 - m.cosAngle ^ 2) := by
      rw [hnd, Vec3.norm_sq, ← h.antisym_norm]
      simp only [Vec3.dot]; ring
    have hn0 : 0 ≤ n := Vec3.norm_nonneg _
    have hnp : n ≠ 0 := by
      intro h0
      rw [h0] at hn2
      nlinarith
    have hsq : m.cosAngle ^ 2 + (n / 2) ^ 2 = 1 ^ 2 := by linarith
    have hcos := atan2_cos_mul hsq zero_le_one
    have hsin := atan2_sin_mul hsq zero_le_one
    rw [one_mul] at hcos hsin
    rw [hval]
    refine ⟨?_, ?_, atan2_le_pi _ _, (h.eq_rot2 hcos hnp hsin).symm, hcos⟩
    · simp only [Vec3.dot]
      have := h.antisym_norm
      field_simp
      linarith
    · exact Complex.arg_nonneg_iff.mpr (by simpa using by positivity)
  · have hval : m.getRotAngle = (⟨0, 0, 1⟩, 0) := by
      unfold getRotAngle
      simp only
      rw [if_pos (by simp only [cosAngle] at h1; linarith)]
    rw [hval]
    refine ⟨by simp [Vec3.dot], le_refl _, pi_pos.le, ?_, by simpa using h1.symm⟩
    rw [rot2_zero, h.eq_one h1]
  · obtain ⟨s1, s2, s3, q1, q2, q3, p1, p2, p3, hsgn⟩ := h.half_turn h1
    set X := √((m.xx + 1) / 2) with hX
    set Y := √((m.yy + 1) / 2) with hY
    set Z := √((m.zz + 1) / 2) with hZ
    have X0 : 0 ≤ X := sqrt_nonneg _
    have Y0 : 0 ≤ Y := sqrt_nonneg _
    have Z0 : 0 ≤ Z := sqrt_nonneg _
    have X2 : X ^ 2 = (m.xx + 1) / 2 := sq_sqrt (by linarith)
    have Y2 : Y ^ 2 = (m.yy + 1) / 2 := sq_sqrt (by linarith)
    have Z2 : Z ^ 2 = (m.zz + 1) / 2 := sq_sqrt (by linarith)
    have XY : X * Y = |m.xy| / 2 := by
      rw [← abs_of_nonneg (mul_nonneg X0 Y0), ← abs_of_nonneg (by positivity : (0 : ℝ) ≤ |m.xy| / 2)]
      rw [← sq_eq_sq_iff_abs_eq_abs, mul_pow, X2, Y2, div_pow, sq_abs, q1]; ring
    have XZ : X * Z = |m.xz| / 2 := by
      rw [← abs_of_nonneg (mul_nonneg X0 Z0), ← abs_of_nonneg (by positivity : (0 : ℝ) ≤ |m.xz| / 2)]
      rw [← sq_eq_sq_iff_abs_eq_abs, mul_pow, X2, Z2, div_pow, sq_abs, q2]; ring
    have YZ : Y * Z = |m.yz| / 2 := by
      rw [← abs_of_nonneg (mul_nonneg Y0 Z0), ← abs_of_nonneg (by positivity : (0 : ℝ) ≤ |m.yz| / 2)]
      rw [← sq_eq_sq_iff_abs_eq_abs, mul_pow, Y2, Z2, div_pow, sq_abs, q3]; ring
    set x1 := if m.xz < 0 then -X else X with hx1
    set y1 := if m.zy < 0 then -Y else Y with hy1
    set x2 := if x1 * y1 * m.xy < 0 then -x1 else x1 with hx2
    have hval : m.getRotAngle = (⟨x2, y1, Z⟩, π) := by
      unfold getRotAngle
      simp only
      rw [if_neg (by simp only [cosAngle] at h1; linarith), if_pos (by simp only [cosAngle] at h1; linarith)]
    obtain ⟨f1, f2, f3, f4, f5⟩ := half_turn_signs Z0 XY XZ YZ hsgn hx1 (by rw [hy1, s3]) hx2
    rw [X2] at f4
    rw [Y2] at f5
    clear_value x2 y1 Z x1 X Y
    rw [hval]
    simp only [cosAngle] at h1
    refine ⟨?_, pi_pos.le, le_refl _, ?_, ?_⟩
    · simp only [Vec3.dot]
      linear_combination f4 + f5 + Z2 + h1
    · ext <;> simp only [rot2, cos_pi, sin_pi]
      · linear_combination 2 * f4
      · linear_combination 2 * f1
      · linear_combination 2 * f2
      · linear_combination 2 * f1 - s1
      · linear_combination 2 * f5
      · linear_combination 2 * f3
      · linear_combination 2 * f2 - s2
      · linear_combination 2 * f3 - s3
      · linear_combination 2 * Z2
    · rw [cos_pi, cosAngle, h1]

/-- The rotation vector extracted from a regular rotation stands for it. -/
theorem IsRot.expRot_getRot {m : Mat3} (h : m.IsRot) (hr : m.Regular) : expRot m.getRot = m := by
  obtain ⟨h1, h2, -, h4, -⟩ := h.getRotAngle_spec hr
  rw [getRot, expRot_smul h1 h2, h4]

theorem IsRot.norm_getRot {m : Mat3} (h : m.IsRot) (hr : m.Regular) : m.getRot.norm = m.getRotAngle.2 := by
  obtain ⟨h1, h2, -, -⟩ := h.getRotAngle_spec hr
  rw [getRot, Vec3.norm_smul, abs_of_nonneg h2, Vec3.norm, h1, Real.sqrt_one, mul_one]

theorem IsRot.norm_getRot_le {m : Mat3} (h : m.IsRot) (hr : m.Regular) : m.getRot.norm ≤ π := by
  rw [h.norm_getRot hr]
  exact (h.getRotAngle_spec hr).2.2.1

/-- It is long enough to be normalised or null. -/
theorem IsRot.getRot_cases {m : Mat3} (h : m.IsRot) (hr : m.Regular) :
    m.getRot = 0 ∨ eps ≤ m.getRot.norm := by
  obtain ⟨h1, h2, h3, h4, h5⟩ := h.getRotAngle_spec hr
  rw [h.norm_getRot hr]
  rcases hr with ⟨a, b⟩ | a | a
  · right
    have := one_sub_sq_div_two_le_cos (x := m.getRotAngle.2)
    have : eps ^ 2 ≤ m.getRotAngle.2 ^ 2 := by nlinarith
    exact abs_le_of_sq_le_sq' this h2 |>.2
  · left
    have : m.getRotAngle.2 = 0 := by
      rw [a] at h5
      exact (cos_eq_one_iff_of_lt_of_lt (by linarith [pi_pos]) (by linarith [pi_pos])).mp h5
    rw [getRot, this]
    ext <;> simp
  · right
    have : m.getRotAngle.2 = π := by
      rw [a] at h5
      rw [← cos_pi] at h5
      exact injOn_cos ⟨h2, h3⟩ ⟨pi_pos.le, le_refl _⟩ h5
    rw [this]
    have := two_le_pi
    norm_num [eps]; linarith

theorem rotX_isRot (θ : ℝ) : (rotX θ).IsRot := by
  rw [rotX_eq]; exact rot2_isRot (by simp [Vec3.dot]) θ

theorem rotY_isRot (θ : ℝ) : (rotY θ).IsRot := by
  rw [rotY_eq]; exact rot2_isRot (by simp [Vec3.dot]) θ

theorem rotZ_isRot (θ : ℝ) : (rotZ θ).IsRot := by
  rw [rotZ_eq]; exact rot2_isRot (by simp [Vec3.dot]) θ

theorem rpy_isRot (r p y : ℝ) : (rpy r p y).IsRot :=
  ((rotZ_isRot y).mul (rotY_isRot p)).mul (rotX_isRot r)

theorem eulerZYZ_isRot (a b g : ℝ) : (eulerZYZ a b g).IsRot :=
  ((rotZ_isRot a).mul (rotY_isRot b)).mul (rotZ_isRot g)

/-- Entries of a rotation that the following proofs need. -/
private theorem IsRot.eqs {m : Mat3} (h : m.IsRot) :
    m.xx * m.zx + m.xy * m.zy + m.xz * m.zz = 0 ∧ m.yx * m.zx + m.yy * m.zy + m.yz * m.zz = 0 ∧
    m.zx ^ 2 + m.zy ^ 2 + m.zz ^ 2 = 1 ∧ m.xx ^ 2 + m.yx ^ 2 + m.zx ^ 2 = 1 ∧
    m.xy ^ 2 + m.yy ^ 2 + m.zy ^ 2 = 1 ∧ m.xz ^ 2 + m.yz ^ 2 + m.zz ^ 2 = 1 := by
  have r1 := congrArg Mat3.xz h.right
  have r2 := congrArg Mat3.yz h.right
  have r3 := congrArg Mat3.zz h.right
  have l1 := congrArg Mat3.xx h.left
  have l2 := congrArg Mat3.yy h.left
  have l3 := congrArg Mat3.zz h.left
  simp at r1 r2 r3 l1 l2 l3
  exact ⟨r1, r2, by linarith, by linarith, by linarith, by linarith⟩

/-- Outside a band around the singularity: the pitch is not within `1e-12` of a quarter turn, unless
it is exactly one. -/
def RpyRegular (m : Mat3) : Prop :=
  |m.getRPY.2.1| ≤ π / 2 - singEps ∨ (m.xx = 0 ∧ m.yx = 0)

theorem getRPY_pitch (m : Mat3) : m.getRPY.2.1 = atan2 (-m.zx) (√(m.xx * m.xx + m.yx * m.yx)) := by
  unfold getRPY
  simp only
  split_ifs <;> rfl

/-- Extracting roll, pitch and yaw and building the rotation again. -/
theorem IsRot.rpy_getRPY {m : Mat3} (h : m.IsRot) (hr : m.RpyRegular) :
    rpy m.getRPY.1 m.getRPY.2.1 m.getRPY.2.2 = m := by
  obtain ⟨o1, o2, o3, o4, o5, o6⟩ := h.eqs
  obtain ⟨c1, c2, c3, c4, c5, c6, c7, c8, c9⟩ := h.cofactor
  set ρ := √(m.xx * m.xx + m.yx * m.yx) with hρ
  have ρ0 : 0 ≤ ρ := sqrt_nonneg _
  have ρ2 : ρ ^ 2 = m.xx ^ 2 + m.yx ^ 2 := by
    rw [hρ, sq_sqrt (by nlinarith [sq_nonneg m.xx, sq_nonneg m.yx])]; ring
  have hp : ρ ^ 2 + (-m.zx) ^ 2 = 1 ^ 2 := by rw [ρ2]; linarith
  have cp := atan2_cos_mul hp zero_le_one
  have sp := atan2_sin_mul hp zero_le_one
  rw [one_mul] at cp sp
  have hpi := pi_pos
  rcases hr with hr | ⟨hx, hy⟩
  · rw [getRPY_pitch, ← hρ] at hr
    have hval : m.getRPY = (atan2 m.zy m.zz, atan2 (-m.zx) ρ, atan2 m.yx m.xx) := by
      unfold getRPY
      simp only
      rw [if_neg (not_lt.mpr hr)]
    have ρp : 0 < ρ := by
      rw [← cp]
      have := abs_le.mp hr
      apply cos_pos_of_mem_Ioo
      have se : 0 < singEps := by norm_num [singEps]
      constructor <;> linarith [this.1, this.2]
    have hyw : m.xx ^ 2 + m.yx ^ 2 = ρ ^ 2 := ρ2.symm
    have hrl : m.zz ^ 2 + m.zy ^ 2 = ρ ^ 2 := by rw [ρ2]; linarith
    have cy := atan2_cos_mul hyw ρ0
    have sy := atan2_sin_mul hyw ρ0
    have cr := atan2_cos_mul hrl ρ0
    have sr := atan2_sin_mul hrl ρ0
    have hz2 : ρ ^ 2 = 1 - m.zx ^ 2 := by linarith
    have ρ2' : ρ ^ 2 ≠ 0 := by positivity
    rw [hval]
    generalize atan2 m.zy m.zz = r at *
    generalize atan2 (-m.zx) ρ = p at *
    generalize atan2 m.yx m.xx = y at *
    clear hρ
    clear_value ρ
    ext <;> simp [rpy, rotX, rotY, rotZ]
    · rw [cp, ← cy]; ring
    · apply mul_left_cancel₀ ρ2'
      have : ρ ^ 2 * (-(sin y * cos r) + cos y * sin p * sin r) =
        (ρ * cos y) * sin p * (ρ * sin r) - (ρ * sin y) * (ρ * cos r) := by ring
      rw [this, cy, sy, cr, sr, sp, hz2]
      linear_combination (-m.zy) * o1 + m.zz * c4 + m.xy * o3
    · apply mul_left_cancel₀ ρ2'
      have : ρ ^ 2 * (sin y * sin r + cos y * sin p * cos r) =
        (ρ * cos y) * sin p * (ρ * cos r) + (ρ * sin y) * (ρ * sin r) := by ring
      rw [this, cy, sy, cr, sr, sp, hz2]
      linear_combination (-m.zz) * o1 - m.zy * c4 + m.xz * o3
    · rw [cp, ← sy]; ring
    · apply mul_left_cancel₀ ρ2'
      have : ρ ^ 2 * (cos y * cos r + sin y * sin p * sin r) =
        (ρ * sin y) * sin p * (ρ * sin r) + (ρ * cos y) * (ρ * cos r) := by ring
      rw [this, cy, sy, cr, sr, sp, hz2]
      linear_combination (-m.zy) * o2 - m.zz * c1 + m.yy * o3
    · apply mul_left_cancel₀ ρ2'
      have : ρ ^ 2 * (-(cos y * sin r) + sin y * sin p * cos r) =
        (ρ * sin y) * sin p * (ρ * cos r) - (ρ * cos y) * (ρ * sin r) := by ring
      rw [this, cy, sy, cr, sr, sp, hz2]
      linear_combination (-m.zz) * o2 + m.zy * c1 + m.yz * o3
    · linarith
    · rw [cp, sr]
    · rw [cp, cr]
  · have ρz : ρ = 0 := by
      have : ρ ^ 2 = 0 := by rw [ρ2, hx, hy]; ring
      simpa using this
    have hzx : m.zx ^ 2 = 1 := by rw [hx, hy] at o4; linarith
    obtain ⟨hzy, hzz⟩ := zero_of_sq2 (by linarith : m.zy ^ 2 + m.zz ^ 2 = 0)
    have hpq : |atan2 (-m.zx) ρ| > π / 2 - singEps := by
      have hc0 : cos (atan2 (-m.zx) ρ) = 0 := by rw [cp, ρz]
      by_contra hcon
      have := abs_le.mp (not_lt.mp hcon)
      have se : 0 < singEps := by norm_num [singEps]
      have := cos_pos_of_mem_Ioo (x := atan2 (-m.zx) ρ) ⟨by linarith [this.1], by linarith [this.2]⟩
      linarith
    have hval : m.getRPY = (0, atan2 (-m.zx) ρ, atan2 (-m.xy) m.yy) := by
      unfold getRPY
      simp only
      rw [if_pos hpq]
    have hyw : m.yy ^ 2 + (-m.xy) ^ 2 = 1 ^ 2 := by rw [hzy] at o5; linarith
    have cy := atan2_cos_mul hyw zero_le_one
    have sy := atan2_sin_mul hyw zero_le_one
    rw [one_mul] at cy sy
    rw [hval]
    generalize atan2 (-m.zx) ρ = p at *
    rw [ρz] at cp
    ext <;> simp [rpy, rotX, rotY, rotZ, cp, sp, cy, sy, hx, hy, hzy, hzz]
    · rw [← c3, hy]; simp
    · rw [← c6, hx]; simp

/-- Outside a band around the singularity: the cosine of beta is not within `1e-12` of one in
absolute value, unless it is one. -/
def EulerRegular (m : Mat3) : Prop := |m.zz| ≤ 1 - singEps ∨ |m.zz| = 1

/-- Extracting the Euler angles and building the rotation again. -/
theorem IsRot.eulerZYZ_get {m : Mat3} (h : m.IsRot) (hr : m.EulerRegular) :
    eulerZYZ m.getEulerZYZ.1 m.getEulerZYZ.2.1 m.getEulerZYZ.2.2 = m := by
  obtain ⟨o1, o2, o3, o4, o5, o6⟩ := h.eqs
  obtain ⟨c1, c2, c3, c4, c5, c6, c7, c8, c9⟩ := h.cofactor
  have se : 0 < singEps := by norm_num [singEps]
  rcases hr with hr | hr
  · have hval : m.getEulerZYZ = (atan2 m.yz m.xz, arccos m.zz, atan2 m.zy (-m.zx)) := by
      unfold getEulerZYZ
      rw [if_neg (not_lt.mpr hr)]
    have hz := abs_le.mp hr
    have hcb : cos (arccos m.zz) = m.zz := cos_arccos (by linarith) (by linarith)
    have hsb0 : 0 ≤ sin (arccos m.zz) := by rw [sin_arccos]; exact sqrt_nonneg _
    have hsb2 : sin (arccos m.zz) ^ 2 = 1 - m.zz ^ 2 := by
      have := sin_sq_add_cos_sq (arccos m.zz)
      rw [hcb] at this; linarith
    have hsb : sin (arccos m.zz) ^ 2 ≠ 0 := by rw [hsb2]; nlinarith
    have ha : m.xz ^ 2 + m.yz ^ 2 = sin (arccos m.zz) ^ 2 := by rw [hsb2]; linarith
    have hg : (-m.zx) ^ 2 + m.zy ^ 2 = sin (arccos m.zz) ^ 2 := by rw [hsb2]; linarith
    have ca := atan2_cos_mul ha hsb0
    have sa := atan2_sin_mul ha hsb0
    have cg := atan2_cos_mul hg hsb0
    have sg := atan2_sin_mul hg hsb0
    rw [hval]
    generalize atan2 m.yz m.xz = a at *
    generalize atan2 m.zy (-m.zx) = g at *
    generalize arccos m.zz = b at *
    ext <;> simp [eulerZYZ, rotY, rotZ]
    · apply mul_left_cancel₀ hsb
      have : sin b ^ 2 * (cos a * cos b * cos g + -(sin a * sin g)) =
        (sin b * cos a) * cos b * (sin b * cos g) - (sin b * sin a) * (sin b * sin g) := by ring
      rw [this, ca, sa, cg, sg, hcb, hsb2]
      linear_combination (-m.zx) * o1 + m.zy * c6 + m.xx * o3
    · apply mul_left_cancel₀ hsb
      have : sin b ^ 2 * (-(cos a * cos b * sin g) + -(sin a * cos g)) =
        -((sin b * cos a) * cos b * (sin b * sin g)) - (sin b * sin a) * (sin b * cos g) := by ring
      rw [this, ca, sa, cg, sg, hcb, hsb2]
      linear_combination (-m.zy) * o1 - m.zx * c6 + m.xy * o3
    · linarith
    · apply mul_left_cancel₀ hsb
      have : sin b ^ 2 * (sin a * cos b * cos g + cos a * sin g) =
        (sin b * sin a) * cos b * (sin b * cos g) + (sin b * cos a) * (sin b * sin g) := by ring
      rw [this, ca, sa, cg, sg, hcb, hsb2]
      linear_combination (-m.zx) * o2 - m.zy * c3 + m.yx * o3
    · apply mul_left_cancel₀ hsb
      have : sin b ^ 2 * (-(sin a * cos b * sin g) + cos a * cos g) =
        -((sin b * sin a) * cos b * (sin b * sin g)) + (sin b * cos a) * (sin b * cos g) := by ring
      rw [this, ca, sa, cg, sg, hcb, hsb2]
      linear_combination (-m.zy) * o2 + m.zx * c3 + m.yy * o3
    · linarith
    · linarith
    · linarith
    · exact hcb
  · have hz2 : m.zz ^ 2 = 1 := by rw [← sq_abs, hr]; norm_num
    obtain ⟨hzx, hzy⟩ := zero_of_sq2 (by linarith : m.zx ^ 2 + m.zy ^ 2 = 0)
    obtain ⟨hxz, hyz⟩ := zero_of_sq2 (by linarith : m.xz ^ 2 + m.yz ^ 2 = 0)
    rcases eq_or_eq_neg_of_abs_eq hr with h1 | h1
    · have hval : m.getEulerZYZ = (atan2 m.yx m.xx, 0, 0) := by
        unfold getEulerZYZ
        rw [if_pos (by rw [hr]; linarith), if_pos (by linarith)]
      have ha : m.xx ^ 2 + m.yx ^ 2 = 1 ^ 2 := by rw [hzx] at o4; linarith
      have ca := atan2_cos_mul ha zero_le_one
      have sa := atan2_sin_mul ha zero_le_one
      rw [one_mul] at ca sa
      rw [hval]
      ext <;> simp [eulerZYZ, rotY, rotZ, ca, sa, hzx, hzy, hxz, hyz, h1]
      · rw [← c2, hzx, h1]; ring
      · rw [← c5, hzx, h1]; ring
    · have hval : m.getEulerZYZ = (atan2 (-m.yx) (-m.xx), π, 0) := by
        unfold getEulerZYZ
        rw [if_pos (by rw [hr]; linarith), if_neg (by linarith)]
      have ha : (-m.xx) ^ 2 + (-m.yx) ^ 2 = 1 ^ 2 := by rw [hzx] at o4; linarith
      have ca := atan2_cos_mul ha zero_le_one
      have sa := atan2_sin_mul ha zero_le_one
      rw [one_mul] at ca sa
      rw [hval]
      ext <;> simp [eulerZYZ, rotY, rotZ, ca, sa, hzx, hzy, hxz, hyz, h1]
      · rw [← c2, hzx, h1]; ring
      · rw [← c5, hzx, h1]; ring

end Mat3

theorem getRot_one : Mat3.getRot 1 = 0 := by
  have : ((1 : Mat3).getRotAngle).2 = 0 := by
    unfold Mat3.getRotAngle
    simp only [Mat3.one_xx, Mat3.one_yy, Mat3.one_zz]
    rw [if_pos (by norm_num [eps])]
  unfold Mat3.getRot
  rw [this, zero_smul]

/-- The difference between equal rigid frames is zero. -/
theorem frameDiff_self {f : Frame} (hf : f.IsRigid) : frameDiff f f = 0 := by
  unfold frameDiff
  rw [hf.left, getRot_one]
  ext <;> simp

end KD
