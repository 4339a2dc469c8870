import Verif.Kdl.Basic

/-! Algebra of the KDL fragment: helper lemmas. -/

namespace KD

open Real

namespace Vec3

theorem dot_comm (a b : Vec3) : dot a b = dot b a := by simp [dot]; ring
theorem dot_self_nonneg (a : Vec3) : 0 ≤ dot a a := by
  simp only [dot]; nlinarith [mul_self_nonneg a.x, mul_self_nonneg a.y, mul_self_nonneg a.z]
theorem norm_nonneg (a : Vec3) : 0 ≤ a.norm := sqrt_nonneg _
theorem norm_sq (a : Vec3) : a.norm ^ 2 = dot a a := by
  rw [norm, sq_sqrt (dot_self_nonneg a)]
theorem norm_mul_self (a : Vec3) : a.norm * a.norm = dot a a := by rw [← norm_sq, sq]
theorem dot_self_eq_zero {a : Vec3} (h : dot a a = 0) : a = 0 := by
  simp only [dot] at h
  have hx : a.x * a.x = 0 := by
    nlinarith [mul_self_nonneg a.x, mul_self_nonneg a.y, mul_self_nonneg a.z]
  have hy : a.y * a.y = 0 := by
    nlinarith [mul_self_nonneg a.x, mul_self_nonneg a.y, mul_self_nonneg a.z]
  have hz : a.z * a.z = 0 := by
    nlinarith [mul_self_nonneg a.x, mul_self_nonneg a.y, mul_self_nonneg a.z]
  ext <;> simp_all
theorem norm_eq_zero {a : Vec3} (h : a.norm = 0) : a = 0 := by
  apply dot_self_eq_zero; rw [← norm_sq, h]; norm_num
@[simp] theorem norm_zero : (0 : Vec3).norm = 0 := by simp [norm, dot]

theorem dot_add_left (a b c : Vec3) : dot (a + b) c = dot a c + dot b c := by simp [dot]; ring
theorem dot_add_right (a b c : Vec3) : dot a (b + c) = dot a b + dot a c := by simp [dot]; ring
theorem dot_sub_left (a b c : Vec3) : dot (a - b) c = dot a c - dot b c := by simp [dot]; ring
theorem dot_sub_right (a b c : Vec3) : dot a (b - c) = dot a b - dot a c := by simp [dot]; ring
theorem dot_smul_left (s : ℝ) (a b : Vec3) : dot (s • a) b = s * dot a b := by simp [dot]; ring
theorem dot_smul_right (s : ℝ) (a b : Vec3) : dot a (s • b) = s * dot a b := by simp [dot]; ring
theorem dot_neg_left (a b : Vec3) : dot (-a) b = -dot a b := by simp [dot]; ring
theorem dot_neg_right (a b : Vec3) : dot a (-b) = -dot a b := by simp [dot]; ring
@[simp] theorem dot_zero_left (a : Vec3) : dot 0 a = 0 := by simp [dot]
@[simp] theorem dot_zero_right (a : Vec3) : dot a 0 = 0 := by simp [dot]
theorem dot_cross_self_left (a b : Vec3) : dot a (cross a b) = 0 := by simp [dot]; ring
theorem dot_cross_self_right (a b : Vec3) : dot b (cross a b) = 0 := by simp [dot]; ring

instance : AddCommGroup Vec3 where
  add_assoc a b c := by ext <;> simp <;> ring
  zero_add a := by ext <;> simp
  add_zero a := by ext <;> simp
  nsmul := nsmulRec
  zsmul := zsmulRec
  neg_add_cancel a := by ext <;> simp
  add_comm a b := by ext <;> simp <;> ring
  sub_eq_add_neg a b := by ext <;> simp <;> ring

instance : Module ℝ Vec3 where
  one_smul a := by ext <;> simp
  mul_smul a b c := by ext <;> simp <;> ring
  smul_zero a := by ext <;> simp
  smul_add a b c := by ext <;> simp <;> ring
  add_smul a b c := by ext <;> simp <;> ring
  zero_smul a := by ext <;> simp

/-- Length of the normalised vector: always one. -/
theorem normalize_unit (a : Vec3) : dot a.normalize a.normalize = 1 := by
  unfold normalize
  split_ifs with h
  · simp [dot]
  · have hpos : 0 < a.norm := lt_of_lt_of_le eps_pos (not_lt.mp h)
    rw [dot_smul_left, dot_smul_right, ← norm_mul_self]
    field_simp

theorem normalize_of_unit {a : Vec3} (h : dot a a = 1) : a.normalize = a := by
  unfold normalize
  have hn : a.norm = 1 := by rw [norm, h, sqrt_one]
  rw [hn, if_neg (by norm_num [eps])]
  ext <;> simp

end Vec3

namespace Mat3

theorem mul_assoc' (a b c : Mat3) : a * b * c = a * (b * c) := by ext <;> simp <;> ring

instance : Monoid Mat3 where
  mul_assoc := mul_assoc'
  one_mul a := by ext <;> simp
  mul_one a := by ext <;> simp

@[simp] theorem mulVec_one (v : Vec3) : (1 : Mat3).mulVec v = v := by ext <;> simp
@[simp] theorem mulVec_zero (m : Mat3) : m.mulVec 0 = 0 := by ext <;> simp
theorem mulVec_mul (a b : Mat3) (v : Vec3) : (a * b).mulVec v = a.mulVec (b.mulVec v) := by
  ext <;> simp <;> ring
theorem mulVec_add (a : Mat3) (v w : Vec3) : a.mulVec (v + w) = a.mulVec v + a.mulVec w := by
  ext <;> simp <;> ring
theorem mulVec_sub (a : Mat3) (v w : Vec3) : a.mulVec (v - w) = a.mulVec v - a.mulVec w := by
  ext <;> simp <;> ring
theorem mulVec_neg (a : Mat3) (v : Vec3) : a.mulVec (-v) = -a.mulVec v := by
  ext <;> simp <;> ring
theorem mulVec_smul (a : Mat3) (s : ℝ) (v : Vec3) : a.mulVec (s • v) = s • a.mulVec v := by
  ext <;> simp <;> ring
theorem sub_mulVec (a b : Mat3) (v : Vec3) : (a - b).mulVec v = a.mulVec v - b.mulVec v := by
  ext <;> simp <;> ring
@[simp] theorem transpose_transpose (a : Mat3) : a.transpose.transpose = a := by ext <;> simp
theorem transpose_mul (a b : Mat3) : (a * b).transpose = b.transpose * a.transpose := by
  ext <;> simp <;> ring
@[simp] theorem transpose_one : (1 : Mat3).transpose = 1 := by ext <;> simp
theorem det_mul (a b : Mat3) : (a * b).det = a.det * b.det := by simp [det]; ring
theorem det_transpose (a : Mat3) : a.transpose.det = a.det := by simp [det]; ring
@[simp] theorem det_one : (1 : Mat3).det = 1 := by simp [det]

theorem IsRot.one : IsRot 1 := ⟨by simp, by simp, by simp⟩

theorem IsRot.mul {a b : Mat3} (ha : a.IsRot) (hb : b.IsRot) : (a * b).IsRot := by
  refine ⟨?_, ?_, by rw [det_mul, ha.det, hb.det, one_mul]⟩
  · rw [transpose_mul, mul_assoc, ← mul_assoc a.transpose, ha.left, one_mul, hb.left]
  · rw [transpose_mul, mul_assoc, ← mul_assoc b, hb.right, one_mul, ha.right]

theorem IsRot.transpose {a : Mat3} (ha : a.IsRot) : a.transpose.IsRot :=
  ⟨by rw [transpose_transpose]; exact ha.right, by rw [transpose_transpose]; exact ha.left,
   by rw [det_transpose]; exact ha.det⟩

theorem IsRot.dot {a : Mat3} (ha : a.IsRot) (v w : Vec3) :
    Vec3.dot (a.mulVec v) (a.mulVec w) = Vec3.dot v w := by
  have h := ha.left
  have e1 := congrArg Mat3.xx h
  have e2 := congrArg Mat3.xy h
  have e3 := congrArg Mat3.xz h
  have e4 := congrArg Mat3.yy h
  have e5 := congrArg Mat3.yz h
  have e6 := congrArg Mat3.zz h
  simp at e1 e2 e3 e4 e5 e6
  simp only [Vec3.dot, mulVec_x, mulVec_y, mulVec_z]
  linear_combination (v.x * w.x) * e1 + (v.x * w.y + v.y * w.x) * e2 + (v.x * w.z + v.z * w.x) * e3
    + v.y * w.y * e4 + (v.y * w.z + v.z * w.y) * e5 + v.z * w.z * e6

theorem IsRot.norm {a : Mat3} (ha : a.IsRot) (v : Vec3) : (a.mulVec v).norm = v.norm := by
  rw [Vec3.norm, ha.dot, Vec3.norm]

/-- The adjugate of a rotation is its transpose; rows are cross products of each other. -/
theorem IsRot.cofactor {a : Mat3} (ha : a.IsRot) :
    a.yy * a.zz - a.yz * a.zy = a.xx ∧ a.yz * a.zx - a.yx * a.zz = a.xy ∧
    a.yx * a.zy - a.yy * a.zx = a.xz ∧ a.xz * a.zy - a.xy * a.zz = a.yx ∧
    a.xx * a.zz - a.xz * a.zx = a.yy ∧ a.xy * a.zx - a.xx * a.zy = a.yz ∧
    a.xy * a.yz - a.xz * a.yy = a.zx ∧ a.xz * a.yx - a.xx * a.yz = a.zy ∧
    a.xx * a.yy - a.xy * a.yx = a.zz := by
  have h := ha.right
  have d := ha.det
  have e1 := congrArg Mat3.xx h
  have e2 := congrArg Mat3.xy h
  have e3 := congrArg Mat3.xz h
  have e4 := congrArg Mat3.yy h
  have e5 := congrArg Mat3.yz h
  have e6 := congrArg Mat3.zz h
  have e7 := congrArg Mat3.yx h
  have e8 := congrArg Mat3.zx h
  have e9 := congrArg Mat3.zy h
  simp at e1 e2 e3 e4 e5 e6 e7 e8 e9
  simp only [Mat3.det] at d
  refine ⟨?_, ?_, ?_, ?_, ?_, ?_, ?_, ?_, ?_⟩
  · linear_combination (-1 : ℝ) * (a.yy * a.zz - a.yz * a.zy) * e1 - (a.xz * a.zy - a.xy * a.zz) * e2
      - (a.xy * a.yz - a.xz * a.yy) * e3 + a.xx * d
  · linear_combination (-1 : ℝ) * (a.yz * a.zx - a.yx * a.zz) * e1 - (a.xx * a.zz - a.xz * a.zx) * e2
      - (a.xz * a.yx - a.xx * a.yz) * e3 + a.xy * d
  · linear_combination (-1 : ℝ) * (a.yx * a.zy - a.yy * a.zx) * e1 - (a.xy * a.zx - a.xx * a.zy) * e2
      - (a.xx * a.yy - a.xy * a.yx) * e3 + a.xz * d
  · linear_combination (-1 : ℝ) * (a.yy * a.zz - a.yz * a.zy) * e2 - (a.xz * a.zy - a.xy * a.zz) * e4
      - (a.xy * a.yz - a.xz * a.yy) * e5 + a.yx * d
  · linear_combination (-1 : ℝ) * (a.yz * a.zx - a.yx * a.zz) * e2 - (a.xx * a.zz - a.xz * a.zx) * e4
      - (a.xz * a.yx - a.xx * a.yz) * e5 + a.yy * d
  · linear_combination (-1 : ℝ) * (a.yx * a.zy - a.yy * a.zx) * e2 - (a.xy * a.zx - a.xx * a.zy) * e4
      - (a.xx * a.yy - a.xy * a.yx) * e5 + a.yz * d
  · linear_combination (-1 : ℝ) * (a.yy * a.zz - a.yz * a.zy) * e3 - (a.xz * a.zy - a.xy * a.zz) * e5
      - (a.xy * a.yz - a.xz * a.yy) * e6 + a.zx * d
  · linear_combination (-1 : ℝ) * (a.yz * a.zx - a.yx * a.zz) * e3 - (a.xx * a.zz - a.xz * a.zx) * e5
      - (a.xz * a.yx - a.xx * a.yz) * e6 + a.zy * d
  · linear_combination (-1 : ℝ) * (a.yx * a.zy - a.yy * a.zx) * e3 - (a.xy * a.zx - a.xx * a.zy) * e5
      - (a.xx * a.yy - a.xy * a.yx) * e6 + a.zz * d

theorem IsRot.cross {a : Mat3} (ha : a.IsRot) (v w : Vec3) :
    Vec3.cross (a.mulVec v) (a.mulVec w) = a.mulVec (Vec3.cross v w) := by
  obtain ⟨h1, h2, h3, h4, h5, h6, h7, h8, h9⟩ := ha.cofactor
  ext
  · simp only [Vec3.cross_x, Vec3.cross_y, Vec3.cross_z, mulVec_x, mulVec_y, mulVec_z]
    linear_combination (v.y * w.z - v.z * w.y) * h1 + (v.z * w.x - v.x * w.z) * h2
      + (v.x * w.y - v.y * w.x) * h3
  · simp only [Vec3.cross_x, Vec3.cross_y, Vec3.cross_z, mulVec_x, mulVec_y, mulVec_z]
    linear_combination (v.y * w.z - v.z * w.y) * h4 + (v.z * w.x - v.x * w.z) * h5
      + (v.x * w.y - v.y * w.x) * h6
  · simp only [Vec3.cross_x, Vec3.cross_y, Vec3.cross_z, mulVec_x, mulVec_y, mulVec_z]
    linear_combination (v.y * w.z - v.z * w.y) * h7 + (v.z * w.x - v.x * w.z) * h8
      + (v.x * w.y - v.y * w.x) * h9

/-- Rodrigues' formula as an action on vectors. -/
theorem rot2_mulVec (a : Vec3) (θ : ℝ) (v : Vec3) :
    (rot2 a θ).mulVec v = cos θ • v + sin θ • Vec3.cross a v
      + ((1 - cos θ) * Vec3.dot a v) • a := by
  ext <;> simp [rot2, Vec3.dot] <;> ring

theorem rot2_zero (a : Vec3) : rot2 a 0 = 1 := by
  ext <;> simp [rot2]

theorem rot2_add {a : Vec3} (ha : Vec3.dot a a = 1) (θ φ : ℝ) :
    rot2 a θ * rot2 a φ = rot2 a (θ + φ) := by
  simp only [Vec3.dot] at ha
  have hz : a.z * a.z = 1 - a.x * a.x - a.y * a.y := by linarith
  ext <;> simp only [rot2, mul_xx, mul_xy, mul_xz, mul_yx, mul_yy, mul_yz, mul_zx, mul_zy,
    mul_zz, cos_add, sin_add]
  · linear_combination (-(sin θ * sin φ) + (1 - cos θ) * (1 - cos φ) * a.x * a.x) * ha
  · linear_combination ((1 - cos θ) * (1 - cos φ) * a.x * a.y) * ha
  · linear_combination ((1 - cos θ) * (1 - cos φ) * a.x * a.z) * ha
  · linear_combination ((1 - cos θ) * (1 - cos φ) * a.x * a.y) * ha
  · linear_combination (-(sin θ * sin φ) + (1 - cos θ) * (1 - cos φ) * a.y * a.y) * ha
  · linear_combination ((1 - cos θ) * (1 - cos φ) * a.y * a.z) * ha
  · linear_combination ((1 - cos θ) * (1 - cos φ) * a.x * a.z) * ha
  · linear_combination ((1 - cos θ) * (1 - cos φ) * a.y * a.z) * ha
  · linear_combination (-(sin θ * sin φ) + (1 - cos θ) * (1 - cos φ) * a.z * a.z) * ha

theorem rot2_transpose (a : Vec3) (θ : ℝ) : (rot2 a θ).transpose = rot2 a (-θ) := by
  ext <;> simp [rot2]

theorem rot2_det {a : Vec3} (ha : Vec3.dot a a = 1) (θ : ℝ) : (rot2 a θ).det = 1 := by
  simp only [Vec3.dot] at ha
  have hs := sin_sq_add_cos_sq θ
  have hz : a.z ^ 2 = 1 - a.x ^ 2 - a.y ^ 2 := by linarith
  have hs2 : sin θ ^ 2 = 1 - cos θ ^ 2 := by linarith
  simp only [det, rot2]
  have key : ∀ c s x y z : ℝ, s ^ 2 = 1 - c ^ 2 → z ^ 2 = 1 - x ^ 2 - y ^ 2 →
      (c + (1 - c) * x * x) * ((c + (1 - c) * y * y) * (c + (1 - c) * z * z)
        - (-(x * s) + (1 - c) * y * z) * (x * s + (1 - c) * y * z))
      - (-(z * s) + (1 - c) * x * y) * ((z * s + (1 - c) * x * y) * (c + (1 - c) * z * z)
        - (-(x * s) + (1 - c) * y * z) * (-(y * s) + (1 - c) * x * z))
      + (y * s + (1 - c) * x * z) * ((z * s + (1 - c) * x * y) * (x * s + (1 - c) * y * z)
        - (c + (1 - c) * y * y) * (-(y * s) + (1 - c) * x * z)) = 1 := by
    intro c s x y z h1 h2
    have e : (c + (1 - c) * x * x) * ((c + (1 - c) * y * y) * (c + (1 - c) * z * z)
        - (-(x * s) + (1 - c) * y * z) * (x * s + (1 - c) * y * z))
      - (-(z * s) + (1 - c) * x * y) * ((z * s + (1 - c) * x * y) * (c + (1 - c) * z * z)
        - (-(x * s) + (1 - c) * y * z) * (-(y * s) + (1 - c) * x * z))
      + (y * s + (1 - c) * x * z) * ((z * s + (1 - c) * x * y) * (x * s + (1 - c) * y * z)
        - (c + (1 - c) * y * y) * (-(y * s) + (1 - c) * x * z))
      = c ^ 3 + c ^ 2 * (1 - c) * (x ^ 2 + y ^ 2 + z ^ 2) + c * s ^ 2 * (x ^ 2 + y ^ 2 + z ^ 2)
        + (1 - c) * s ^ 2 * (x ^ 2 + y ^ 2 + z ^ 2) ^ 2 := by ring
    rw [e, h2, h1]; ring
  exact key _ _ _ _ _ hs2 hz

theorem rot2_isRot {a : Vec3} (ha : Vec3.dot a a = 1) (θ : ℝ) : (rot2 a θ).IsRot := by
  refine ⟨?_, ?_, rot2_det ha θ⟩
  · rw [rot2_transpose, rot2_add ha, neg_add_cancel, rot2_zero]
  · rw [rot2_transpose, rot2_add ha, add_neg_cancel, rot2_zero]

theorem rot2_axis {a : Vec3} (ha : Vec3.dot a a = 1) (θ : ℝ) : (rot2 a θ).mulVec a = a := by
  rw [rot2_mulVec, ha]
  ext <;> simp <;> ring

/-- Rotating the axis conjugates the rotation. -/
theorem rot2_conj {m : Mat3} (hm : m.IsRot) (a : Vec3) (θ : ℝ) (v : Vec3) :
    (rot2 (m.mulVec a) θ).mulVec (m.mulVec v) = m.mulVec ((rot2 a θ).mulVec v) := by
  rw [rot2_mulVec, rot2_mulVec, hm.dot, hm.cross]
  simp only [mulVec_add, mulVec_smul]

theorem ext_mulVec {a b : Mat3} (h : ∀ v, a.mulVec v = b.mulVec v) : a = b := by
  have h1 := h ⟨1, 0, 0⟩
  have h2 := h ⟨0, 1, 0⟩
  have h3 := h ⟨0, 0, 1⟩
  simp [Vec3.ext_iff] at h1 h2 h3
  ext <;> tauto

theorem IsRot.mulVec_transpose {m : Mat3} (hm : m.IsRot) (v : Vec3) :
    m.mulVec (m.transpose.mulVec v) = v := by
  rw [← mulVec_mul, hm.right, mulVec_one]

theorem IsRot.transpose_mulVec {m : Mat3} (hm : m.IsRot) (v : Vec3) :
    m.transpose.mulVec (m.mulVec v) = v := by
  rw [← mulVec_mul, hm.left, mulVec_one]

end Mat3

namespace Frame

instance : Monoid Frame where
  mul_assoc a b c := by
    ext1
    · simp [mul_assoc]
    · simp [Mat3.mulVec_mul, Mat3.mulVec_add, add_assoc]
  one_mul a := by ext1 <;> simp
  mul_one a := by ext1 <;> simp

theorem act_mul (a b : Frame) (v : Vec3) : (a * b).act v = a.act (b.act v) := by
  simp [act, Mat3.mulVec_mul, Mat3.mulVec_add, add_assoc]

@[simp] theorem act_one (v : Vec3) : (1 : Frame).act v = v := by simp [act]

theorem act_sub (a : Frame) (v w : Vec3) : a.act v - a.act w = a.M.mulVec (v - w) := by
  simp [act, Mat3.mulVec_sub]

theorem IsRigid.one : IsRigid 1 := Mat3.IsRot.one
theorem IsRigid.mul {a b : Frame} (ha : a.IsRigid) (hb : b.IsRigid) : (a * b).IsRigid :=
  Mat3.IsRot.mul ha hb
theorem IsRigid.inv {a : Frame} (ha : a.IsRigid) : a.inv.IsRigid := Mat3.IsRot.transpose ha
theorem isRigid_trans (v : Vec3) : (trans v).IsRigid := Mat3.IsRot.one

theorem IsRigid.inv_mul {a : Frame} (ha : a.IsRigid) : a.inv * a = 1 := by
  ext1
  · exact ha.left
  · simp
theorem IsRigid.mul_inv {a : Frame} (ha : a.IsRigid) : a * a.inv = 1 := by
  ext1
  · exact ha.right
  · simp [Mat3.mulVec_neg, ha.mulVec_transpose]

theorem inv_mul_rev {a b : Frame} (ha : a.IsRigid) : (a * b).inv = b.inv * a.inv := by
  ext1
  · simp [Mat3.transpose_mul]
  · simp only [inv_p, mul_M, mul_p, inv_M, Mat3.transpose_mul, Mat3.mulVec_mul, Mat3.mulVec_add,
      Mat3.mulVec_neg, ha.transpose_mulVec]
    abel

@[simp] theorem inv_one : (1 : Frame).inv = 1 := by
  ext1
  · simp
  · simp

theorem IsRigid.inv_inv {a : Frame} (ha : a.IsRigid) : a.inv.inv = a := by
  ext1
  · simp
  · simp [Mat3.mulVec_neg, ha.mulVec_transpose]

theorem IsRigid.eq_inv_of_mul {a b : Frame} (ha : a.IsRigid) (h : a * b = 1) : b = a.inv := by
  have := congrArg (a.inv * ·) h
  simpa [← mul_assoc, ha.inv_mul] using this

theorem IsRigid.dist {a : Frame} (ha : a.IsRigid) (v w : Vec3) :
    (a.act v - a.act w).norm = (v - w).norm := by
  rw [act_sub, Mat3.IsRot.norm ha]

theorem IsRigid.act_inv_act {a : Frame} (ha : a.IsRigid) (v : Vec3) : a.inv.act (a.act v) = v := by
  rw [← act_mul, ha.inv_mul, act_one]

theorem IsRigid.act_act_inv {a : Frame} (ha : a.IsRigid) (v : Vec3) : a.act (a.inv.act v) = v := by
  rw [← act_mul, ha.mul_inv, act_one]

theorem ext_act {a b : Frame} (h : ∀ v, a.act v = b.act v) : a = b := by
  have hp : a.p = b.p := by simpa [act] using h 0
  have hM : a.M = b.M := Mat3.ext_mulVec fun v => by
    have := h v
    simp only [act, hp] at this
    exact add_right_cancel this
  exact Frame.ext hM hp

end Frame

end KD
