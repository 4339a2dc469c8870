import Verif.Solver.Asibot
import Verif.Kdl.Jacobian
import Verif.Repr.ReprMeaning

/-! # Lemmas about the ASIBOT solver -/

namespace KD

namespace Asibot

open Real KinRepr

/-! ## Specification -/

/-- Turn about the z axis. -/
noncomputable def turnZ (θ : ℝ) : Frame := ⟨Mat3.rotZ θ, 0⟩
/-- Turn about the y axis. -/
noncomputable def turnY (θ : ℝ) : Frame := ⟨Mat3.rotY θ, 0⟩
/-- A link along the z axis. -/
noncomputable def link (a : ℝ) : Frame := Frame.trans ⟨0, 0, a⟩

/-- Specification: the ASIBOT arm without tool. A vertical joint, three parallel horizontal ones and one
along the last link. Joints in radians. -/
noncomputable def arm (s : Solver) (q : Joints) : Frame :=
  turnZ q.q1 * link s.A0 * turnY q.q2 * link s.A1 * turnY q.q3 * link s.A2 * turnY q.q4 * link s.A3 *
    turnZ q.q5

/-- Specification: the end effector for joints in degrees. -/
noncomputable def tcp (s : Solver) (q : Joints) : Frame := arm s q.inRadians * s.frameTcp

/-- What `svd` is required to do: find a unit vector on the axis of symmetric rotations. -/
def GoodSvd (svd : Mat3 → Vec3) : Prop :=
  ∀ m : Mat3, m.IsRot → m.transpose = m → Vec3.dot (svd m) (svd m) = 1 ∧ m.mulVec (svd m) = svd m

/-! ## The arm -/

theorem arm_M (s : Solver) (q : Joints) :
    (arm s q).M = Mat3.eulerZYZ q.q1 (q.q2 + q.q3 + q.q4) q.q5 := by
  simp only [arm, turnZ, turnY, link, Frame.mul_M, Frame.trans_M, mul_one, Mat3.eulerZYZ]
  rw [rotY_eq, rotY_eq, rotY_eq, rotY_eq, mul_assoc (Mat3.rotZ q.q1), Mat3.rot2_add (by simp [Vec3.dot]),
    mul_assoc (Mat3.rotZ q.q1), Mat3.rot2_add (by simp [Vec3.dot])]

theorem arm_p (s : Solver) (q : Joints) :
    (arm s q).p = ⟨radial s q * cos q.q1, radial s q * sin q.q1, height s q + s.A0⟩ := by
  ext
  · simp [arm, turnZ, turnY, link, radial, Mat3.rotZ, Mat3.rotY, sin_add, cos_add]; ring
  · simp [arm, turnZ, turnY, link, radial, Mat3.rotZ, Mat3.rotY, sin_add, cos_add]; ring
  · simp [arm, turnZ, turnY, link, height, Mat3.rotZ, Mat3.rotY, sin_add, cos_add]; ring

theorem arm_rigid (s : Solver) (q : Joints) : (arm s q).IsRigid := by
  unfold Frame.IsRigid
  rw [arm_M]
  exact Mat3.eulerZYZ_isRot _ _ _

theorem rotZ_turn (θ : ℝ) (k : ℤ) : Mat3.rotZ (θ + k * (2 * π)) = Mat3.rotZ θ := by
  simp [Mat3.rotZ, cos_add_int_mul_two_pi, sin_add_int_mul_two_pi]

theorem rotY_turn (θ : ℝ) (k : ℤ) : Mat3.rotY (θ + k * (2 * π)) = Mat3.rotY θ := by
  simp [Mat3.rotY, cos_add_int_mul_two_pi, sin_add_int_mul_two_pi]

theorem degToRad_turn (d : ℝ) (k : ℤ) : degToRad (d + k * 360) = degToRad d + k * (2 * π) := by
  unfold degToRad; ring

/-- Equal up to full turns, in degrees. -/
def SameAngle (a b : ℝ) : Prop := ∃ k : ℤ, a = b + k * 360

theorem arm_turns (s : Solver) {a b : Joints} (h1 : SameAngle a.q1 b.q1) (h2 : SameAngle a.q2 b.q2)
    (h3 : SameAngle a.q3 b.q3) (h4 : SameAngle a.q4 b.q4) (h5 : SameAngle a.q5 b.q5) :
    arm s a.inRadians = arm s b.inRadians := by
  obtain ⟨k1, h1⟩ := h1
  obtain ⟨k2, h2⟩ := h2
  obtain ⟨k3, h3⟩ := h3
  obtain ⟨k4, h4⟩ := h4
  obtain ⟨k5, h5⟩ := h5
  simp only [arm, Joints.inRadians, h1, h2, h3, h4, h5, degToRad_turn, turnZ, turnY, rotZ_turn, rotY_turn]

/-- Half a turn of the base, the mirrored arm plane and half a turn of the hand. -/
theorem arm_reversed (s : Solver) (q1 q2 q3 q4 q5 : ℝ) :
    arm s ⟨q1 + π, -q2, -q3, -q4, q5 + π⟩ = arm s ⟨q1, q2, q3, q4, q5⟩ := by
  have hm : -q2 + -q3 + -q4 = -(q2 + q3 + q4) := by ring
  have hn : -q2 + -q3 = -(q2 + q3) := by ring
  refine Frame.ext ?_ ?_
  · rw [arm_M, arm_M]
    simp only [hm]
    generalize q2 + q3 + q4 = b
    ext <;> simp [Mat3.eulerZYZ, Mat3.rotZ, Mat3.rotY]
  · rw [arm_p, arm_p]
    have hrad : radial s ⟨q1 + π, -q2, -q3, -q4, q5 + π⟩ = -radial s ⟨q1, q2, q3, q4, q5⟩ := by
      simp only [radial]
      rw [hm, hn, sin_neg, sin_neg, sin_neg]; ring
    have hhei : height s ⟨q1 + π, -q2, -q3, -q4, q5 + π⟩ = height s ⟨q1, q2, q3, q4, q5⟩ := by
      simp only [height]
      rw [hm, hn, cos_neg, cos_neg, cos_neg]
    rw [hrad, hhei]
    simp only [cos_add_pi, sin_add_pi, neg_mul_neg]

/-! ## Vectors and matrices -/

theorem vectorToMatrix_six {p v : Vec3} (hv : v = 0 ∨ eps ≤ v.norm) :
    vectorToMatrix (sixOf p v) = some ⟨Mat3.expRot v, p⟩ := by
  simp only [vectorToMatrix, sixOf]
  rcases hv with rfl | hv
  · rw [Mat3.expRot_zero, if_neg (by
      have : (⟨(0 : Vec3).x, (0 : Vec3).y, (0 : Vec3).z⟩ : Vec3) = 0 := rfl
      rw [this, Vec3.norm_zero]; norm_num)]
  · have h : (1 : ℝ) / 1000000000 < v.norm := lt_of_lt_of_le (by norm_num [eps]) hv
    rw [if_pos h]
    rfl

theorem vectorToMatrix_eq {x : List ℝ} (hl : 6 ≤ x.length) (hv : rotOf x = 0 ∨ eps ≤ (rotOf x).norm) :
    vectorToMatrix x = some (standard x) := by
  obtain ⟨a, b, c, d, e, f, t, rfl⟩ := cons_form6 hl
  have := vectorToMatrix_six (p := ⟨a, b, c⟩) hv
  rw [standard_eq]
  simp only [vectorToMatrix, sixOf, rotOf] at this ⊢
  simpa using this

private theorem half_turn_flip (k : Vec3) {d : ℝ} (h : d * d = 1) :
    Mat3.rot2 (d • k) π = Mat3.rot2 k π := by
  simp only [Mat3.rot2, cos_pi, sin_pi, Vec3.smul_x, Vec3.smul_y, Vec3.smul_z]
  ext
  · linear_combination (2 * k.x * k.x) * h
  · linear_combination (2 * k.x * k.y) * h
  · linear_combination (2 * k.x * k.z) * h
  · linear_combination (2 * k.x * k.y) * h
  · linear_combination (2 * k.y * k.y) * h
  · linear_combination (2 * k.y * k.z) * h
  · linear_combination (2 * k.x * k.z) * h
  · linear_combination (2 * k.y * k.z) * h
  · linear_combination (2 * k.z * k.z) * h

/-- The rotation vector of YARP is exact for regular rotations. -/
theorem rotVector_spec {svd : Mat3 → Vec3} (hs : GoodSvd svd) {m : Mat3} (h : m.IsRot) (hr : m.Regular) :
    ∃ (a : Vec3) (θ : ℝ), rotVector svd m = θ • a ∧ Vec3.dot a a = 1 ∧ 0 ≤ θ ∧ θ ≤ π ∧
      Mat3.rot2 a θ = m ∧ cos θ = m.cosAngle := by
  set v : Vec3 := ⟨m.zy - m.yz, m.xz - m.zx, m.yx - m.xy⟩ with hv
  have hr2 : v.norm ^ 2 = 4 * (1 - m.cosAngle ^ 2) := by
    rw [Vec3.norm_sq, ← h.antisym_norm]; simp only [Vec3.dot, hv]; ring
  have hn := Vec3.norm_nonneg v
  have hcs : m.cosAngle ^ 2 + (1 / 2 * v.norm) ^ 2 = 1 ^ 2 := by nlinarith
  have hca : 1 / 2 * (m.xx + m.yy + m.zz - 1) = m.cosAngle := by unfold Mat3.cosAngle; ring
  have hc := atan2_cos_mul hcs zero_le_one
  have hsn := atan2_sin_mul hcs zero_le_one
  rw [one_mul] at hc hsn
  set θ := atan2 (1 / 2 * v.norm) m.cosAngle with hθ
  have hθ0 : 0 ≤ θ := by
    rw [hθ, atan2, Complex.arg_nonneg_iff]
    show 0 ≤ 1 / 2 * v.norm
    positivity
  have hθp : θ ≤ π := atan2_le_pi _ _
  have hval : rotVector svd m =
      if v.norm < 1 / 1000000000 then θ • ((1 / (svd m).norm) • svd m) else θ • ((1 / v.norm) • v) := by
    unfold rotVector
    simp only [hca]
    rfl
  rcases hr with ⟨hr1, hr3⟩ | hr | hr
  · have hbig : ¬ v.norm < 1 / 1000000000 := by
      intro hlt
      have e1 : eps * eps / 2 = 1 / 2000000000000 := by norm_num [eps]
      rw [e1] at hr1 hr3
      have : v.norm ^ 2 < (1 / 1000000000) ^ 2 := by
        rw [sq, sq]; exact mul_self_lt_mul_self hn hlt
      nlinarith
    have hpos : v.norm ≠ 0 := by
      intro h0; rw [h0] at hbig; norm_num at hbig
    refine ⟨(1 / v.norm) • v, θ, by rw [hval, if_neg hbig], Mat3.dir_unit hpos, hθ0, hθp, ?_, hc⟩
    have := h.eq_rot2 hc hpos (by rw [hsn]; ring)
    conv_rhs => rw [this]
    congr 1
    ext <;> simp [hv] <;> ring
  · have h1 := h.eq_one hr
    subst h1
    have hθ0' : θ = 0 := by
      have h0 : v.norm = 0 := by
        have : v.norm ^ 2 = 0 := by rw [hr2, hr]; norm_num
        exact pow_eq_zero_iff (two_ne_zero) |>.mp this
      rw [hθ, h0, hr]
      simp [atan2]
      exact Complex.arg_one
    refine ⟨⟨1, 0, 0⟩, 0, ?_, by simp [Vec3.dot], le_refl _, pi_nonneg, Mat3.rot2_zero _, ?_⟩
    · rw [hval, hθ0']
      split_ifs <;> ext <;> simp
    · rw [hr, cos_zero]
  · have h0 : v.norm = 0 := by
      have : v.norm ^ 2 = 0 := by rw [hr2, hr]; norm_num
      exact pow_eq_zero_iff (two_ne_zero) |>.mp this
    have hθπ : θ = π := by
      rw [hθ, h0, hr]
      have : (⟨-1, 1 / 2 * 0⟩ : ℂ) = -1 := Complex.ext (by simp) (by simp)
      rw [atan2, this, Complex.arg_neg_one]
    have hsym : m.transpose = m := by
      obtain ⟨s1, s2, s3, -⟩ := h.half_turn hr
      ext <;> simp [s1, s2, s3]
    obtain ⟨u1, u2⟩ := hs m h hsym
    have un : (svd m).norm = 1 := by rw [Vec3.norm, u1, sqrt_one]
    obtain ⟨k1, -, -, k4, k5⟩ := h.getRotAngle_spec (Or.inr (Or.inr hr))
    obtain ⟨k2, k3⟩ : 0 ≤ m.getRotAngle.2 ∧ m.getRotAngle.2 ≤ π :=
      ⟨(h.getRotAngle_spec (Or.inr (Or.inr hr))).2.1, (h.getRotAngle_spec (Or.inr (Or.inr hr))).2.2.1⟩
    have kπ : m.getRotAngle.2 = π := by
      rw [hr, ← cos_pi] at k5
      exact injOn_cos ⟨k2, k3⟩ ⟨pi_nonneg, le_refl _⟩ k5
    rw [kπ] at k4
    refine ⟨svd m, π, ?_, u1, pi_nonneg, le_refl _, ?_, by rw [cos_pi, hr]⟩
    · rw [hval, if_pos (by rw [h0]; norm_num), hθπ, un]
      ext <;> simp
    · generalize m.getRotAngle.1 = k at *
      generalize svd m = a at *
      rw [← k4, Mat3.rot2_mulVec] at u2
      simp only [cos_pi, sin_pi] at u2
      have e : Vec3.dot k a • k = a := by
        have hx := congrArg Vec3.x u2
        have hy := congrArg Vec3.y u2
        have hz := congrArg Vec3.z u2
        simp at hx hy hz
        ext <;> simp <;> linarith
      have d1 : Vec3.dot k a ^ 2 = 1 := by
        have := u1
        rw [← e, Vec3.dot_smul_left, Vec3.dot_smul_right, k1] at this
        linarith
      rw [← k4]
      conv_lhs => rw [← e]
      generalize Vec3.dot k a = d at *
      have d2 : d * d = 1 := by rw [← sq]; exact d1
      exact half_turn_flip k d2

theorem rotVector_cases {svd : Mat3 → Vec3} (hs : GoodSvd svd) {m : Mat3} (h : m.IsRot) (hr : m.Regular) :
    rotVector svd m = 0 ∨ eps ≤ (rotVector svd m).norm := by
  obtain ⟨a, θ, h1, h2, h3, h4, h5, h6⟩ := rotVector_spec hs h hr
  have hk := h.getRot_cases hr
  obtain ⟨k1, k2, k3, k4, k5⟩ := h.getRotAngle_spec hr
  have he : m.getRotAngle.2 = θ := injOn_cos ⟨k2, k3⟩ ⟨h3, h4⟩ (by rw [k5, h6])
  have hn : (rotVector svd m).norm = m.getRot.norm := by
    rw [h.norm_getRot hr, he, h1, Vec3.norm_smul, abs_of_nonneg h3, Vec3.norm, h2, sqrt_one, mul_one]
  rcases hk with hk | hk
  · left
    apply Vec3.norm_eq_zero
    rw [hn, hk, Vec3.norm_zero]
  · right; rw [hn]; exact hk

theorem expRot_rotVector {svd : Mat3 → Vec3} (hs : GoodSvd svd) {m : Mat3} (h : m.IsRot) (hr : m.Regular) :
    Mat3.expRot (rotVector svd m) = m := by
  obtain ⟨a, θ, h1, h2, h3, h4, h5, h6⟩ := rotVector_spec hs h hr
  rw [h1, Mat3.expRot_smul h2 h3, h5]

theorem matrixToVector_six (svd : Mat3 → Vec3) (f : Frame) :
    matrixToVector svd f = sixOf f.p (rotVector svd f.M) := rfl

theorem standard_matrixToVector {svd : Mat3 → Vec3} (hs : GoodSvd svd) {f : Frame} (h : f.IsRigid)
    (hr : f.M.Regular) : standard (matrixToVector svd f) = f := by
  rw [matrixToVector_six, standard_six, expRot_rotVector hs h hr]

theorem rotOf_six (p v : Vec3) : rotOf (sixOf p v) = v := by simp [rotOf, sixOf]

/-! ## The arm plane -/

/-- Two links of lengths `A1` and `A2` reach the point `(pr, ph)` with both pairs of angles. -/
theorem planeAngles_spec {A1 A2 pr ph : ℝ} {t : PlaneAngles} (h : planeAngles A1 A2 pr ph = some t) :
    (A1 * sin t.t1u + A2 * sin (t.t1u + t.t2) = pr ∧ A1 * cos t.t1u + A2 * cos (t.t1u + t.t2) = ph) ∧
    (A1 * sin t.t1d + A2 * sin (t.t1d - t.t2) = pr ∧ A1 * cos t.t1d + A2 * cos (t.t1d - t.t2) = ph) := by
  unfold planeAngles at h
  extract_lets len2 ct2 st2 st1u ct1u st1d ct1d at h
  split_ifs at h with hn
  simp only [not_or, not_lt] at hn
  obtain ⟨hA, hneg, hlen⟩ := hn
  simp only [Option.some.injEq] at h
  subst h
  have hst : st2 * st2 = 1 - ct2 * ct2 := mul_self_sqrt hneg
  have hct : 2 * A1 * A2 * ct2 = len2 - A1 * A1 - A2 * A2 := mul_div_cancel₀ _ hA
  have hl : ph * ph + pr * pr = len2 := rfl
  have h2 := atan2_cos_mul (y := st2) (x := ct2) (ρ := 1) (by linear_combination hst) zero_le_one
  have h2' := atan2_sin_mul (y := st2) (x := ct2) (ρ := 1) (by linear_combination hst) zero_le_one
  have eu : ct1u ^ 2 + st1u ^ 2 = 1 ^ 2 := by
    simp only [ct1u, st1u]
    field_simp
    linear_combination (A2 ^ 2 * len2) * hst + len2 * hct +
      ((A1 + A2 * ct2) ^ 2 + A2 ^ 2 * st2 ^ 2) * hl
  have ed : ct1d ^ 2 + st1d ^ 2 = 1 ^ 2 := by
    simp only [ct1d, st1d]
    field_simp
    linear_combination (A2 ^ 2 * len2) * hst + len2 * hct +
      ((A1 + A2 * ct2) ^ 2 + A2 ^ 2 * st2 ^ 2) * hl
  have hu := atan2_cos_mul eu zero_le_one
  have hu' := atan2_sin_mul eu zero_le_one
  have hd := atan2_cos_mul ed zero_le_one
  have hd' := atan2_sin_mul ed zero_le_one
  rw [one_mul] at h2 h2' hu hu' hd hd'
  simp only [sin_add, cos_add, sin_sub, cos_sub, h2, h2', hu, hu', hd, hd']
  refine ⟨⟨?_, ?_⟩, ⟨?_, ?_⟩⟩
  · simp only [ct1u, st1u]
    field_simp
    linear_combination (A2 ^ 2 * pr) * hst + pr * hct
  · simp only [ct1u, st1u]
    field_simp
    linear_combination (A2 ^ 2 * ph) * hst + ph * hct
  · simp only [ct1d, st1d]
    field_simp
    linear_combination (A2 ^ 2 * pr) * hst + pr * hct
  · simp only [ct1d, st1d]
    field_simp
    linear_combination (A2 ^ 2 * ph) * hst + ph * hct

/-! ## Configurations -/

/-- The returned value of a joint against an exact solution: equal, or null instead of a value below the
tolerance. -/
def Snapped (q e : ℝ) : Prop := q = e ∨ (q = 0 ∧ |e| < 1 / 1000)

theorem normalizeAngle_spec (q : ℝ) : ∃ e, SameAngle e q ∧ Snapped (normalizeAngle q) e := by
  unfold normalizeAngle
  split_ifs with h1 h2 h3
  · exact ⟨q - 360, ⟨-1, by push_cast; ring⟩, Or.inl rfl⟩
  · exact ⟨q + 360, ⟨1, by push_cast; ring⟩, Or.inl rfl⟩
  · exact ⟨q, ⟨0, by simp⟩, Or.inr ⟨rfl, h3⟩⟩
  · exact ⟨q, ⟨0, by simp⟩, Or.inl rfl⟩

/-- The joints of one exact solution. -/
structure Near (q e : Joints) : Prop where
  q1 : Snapped q.q1 e.q1
  q2 : Snapped q.q2 e.q2
  q3 : Snapped q.q3 e.q3
  q4 : Snapped q.q4 e.q4
  q5 : Snapped q.q5 e.q5

theorem storeAngles_spec (s : Solver) (q1 q2 q3 q4 q5 : ℝ) (o : Orientation) (e : Elbow) :
    ∃ x : Joints, Near (storeAngles s q1 q2 q3 q4 q5 o e).q x ∧
      arm s x.inRadians = arm s (Joints.mk q1 q2 q3 q4 q5).inRadians := by
  obtain ⟨e1, a1, b1⟩ := normalizeAngle_spec q1
  obtain ⟨e2, a2, b2⟩ := normalizeAngle_spec q2
  obtain ⟨e3, a3, b3⟩ := normalizeAngle_spec q3
  obtain ⟨e4, a4, b4⟩ := normalizeAngle_spec q4
  obtain ⟨e5, a5, b5⟩ := normalizeAngle_spec q5
  exact ⟨⟨e1, e2, e3, e4, e5⟩, ⟨b1, b2, b3, b4, b5⟩, arm_turns s a1 a2 a3 a4 a5⟩

/-- Keys of the map in increasing order, each the displacement of its pose. -/
def MapOk (g : Joints) (m : List (ℝ × Pose)) : Prop :=
  m.Pairwise (fun a b => a.1 < b.1) ∧ ∀ kp ∈ m, kp.1 = total g kp.2.q

theorem insertMap_mem {k : ℝ} {p : Pose} : ∀ {m : List (ℝ × Pose)} {kp : ℝ × Pose},
    kp ∈ insertMap k p m → kp = (k, p) ∨ kp ∈ m
  | [], kp, h => by simpa [insertMap] using h
  | (k', p') :: m, kp, h => by
    unfold insertMap at h
    split_ifs at h with h1 h2
    · simpa using h
    · rcases List.mem_cons.mp h with h | h
      · exact Or.inr (by simp [h])
      · rcases insertMap_mem h with h | h
        · exact Or.inl h
        · exact Or.inr (by simp [h])
    · exact Or.inr h

theorem mem_insertMap {k : ℝ} {p : Pose} : ∀ {m : List (ℝ × Pose)} {kp : ℝ × Pose},
    kp ∈ m → kp ∈ insertMap k p m
  | (k', p') :: m, kp, h => by
    unfold insertMap
    split_ifs with h1 h2
    · simp [h]
    · rcases List.mem_cons.mp h with h | h
      · simp [h]
      · exact List.mem_cons_of_mem _ (mem_insertMap h)
    · exact h

theorem insertMap_key {k : ℝ} {p : Pose} : ∀ {m : List (ℝ × Pose)},
    ∃ kp ∈ insertMap k p m, kp.1 = k
  | [] => ⟨(k, p), by simp [insertMap], rfl⟩
  | (k', p') :: m => by
    unfold insertMap
    split_ifs with h1 h2
    · exact ⟨(k, p), by simp, rfl⟩
    · obtain ⟨kp, h, e⟩ := insertMap_key (k := k) (p := p) (m := m)
      exact ⟨kp, List.mem_cons_of_mem _ h, e⟩
    · exact ⟨(k', p'), by simp, le_antisymm (not_lt.mp h1) (not_lt.mp h2)⟩

theorem insertMap_ok {g : Joints} {p : Pose} : ∀ {m : List (ℝ × Pose)}, MapOk g m →
    MapOk g (insertMap (total g p.q) p m)
  | [], _ => by simp [MapOk, insertMap]
  | (k', p') :: m, h => by
    have hm : MapOk g m := ⟨(List.pairwise_cons.mp h.1).2, fun kp hk => h.2 kp (List.mem_cons_of_mem _ hk)⟩
    have hk' := h.2 (k', p') (by simp)
    have ho := (List.pairwise_cons.mp h.1).1
    unfold insertMap
    split_ifs with h1 h2
    · refine ⟨List.pairwise_cons.mpr ⟨fun a ha => ?_, h.1⟩, fun kp hk => ?_⟩
      · rcases List.mem_cons.mp ha with rfl | ha
        · exact h1
        · exact lt_trans h1 (ho a ha)
      · rcases List.mem_cons.mp hk with rfl | hk
        · rfl
        · exact h.2 kp hk
    · have ih := insertMap_ok (p := p) hm
      refine ⟨List.pairwise_cons.mpr ⟨fun a ha => ?_, ih.1⟩, fun kp hk => ?_⟩
      · rcases insertMap_mem ha with rfl | ha
        · exact h2
        · exact ho a ha
      · rcases List.mem_cons.mp hk with rfl | hk
        · exact hk'
        · exact ih.2 kp hk
    · exact h

theorem fillMap_ok {g : Joints} : ∀ (ps : List Pose) {m : List (ℝ × Pose)}, MapOk g m →
    MapOk g (fillMap g ps m)
  | [], _, h => h
  | p :: ps, m, h => by
    unfold fillMap
    refine fillMap_ok ps ?_
    split_ifs
    · exact insertMap_ok h
    · exact h

theorem fillMap_mem {g : Joints} : ∀ (ps : List Pose) {m : List (ℝ × Pose)} {kp : ℝ × Pose},
    kp ∈ fillMap g ps m → kp ∈ m ∨ (kp.2 ∈ ps ∧ kp.2.valid = true)
  | [], _, _, h => Or.inl h
  | p :: ps, m, kp, h => by
    unfold fillMap at h
    rcases fillMap_mem ps h with h | ⟨h1, h2⟩
    · split_ifs at h with hv
      · rcases insertMap_mem h with rfl | h
        · exact Or.inr ⟨by simp, hv⟩
        · exact Or.inl h
      · exact Or.inl h
    · exact Or.inr ⟨List.mem_cons_of_mem _ h1, h2⟩

theorem mem_fillMap {g : Joints} : ∀ (ps : List Pose) {m : List (ℝ × Pose)} {kp : ℝ × Pose},
    kp ∈ m → kp ∈ fillMap g ps m
  | [], _, _, h => h
  | p :: ps, m, kp, h => by
    unfold fillMap
    refine mem_fillMap ps ?_
    split_ifs
    · exact mem_insertMap h
    · exact h

/-- Every valid pose has its displacement among the keys. -/
theorem fillMap_key {g : Joints} : ∀ (ps : List Pose) {m : List (ℝ × Pose)} {p : Pose},
    p ∈ ps → p.valid = true → ∃ kp ∈ fillMap g ps m, kp.1 = total g p.q
  | p' :: ps, m, p, h, hv => by
    unfold fillMap
    rcases List.mem_cons.mp h with rfl | h
    · rw [if_pos hv]
      obtain ⟨kp, h1, h2⟩ := insertMap_key (k := total g p.q) (p := p) (m := m)
      exact ⟨kp, mem_fillMap ps h1, h2⟩
    · exact fillMap_key ps h hv

theorem findOptimal_mem {g : Joints} {ps : List Pose} {p : Pose} (h : findOptimal g ps = some p) :
    p ∈ ps ∧ p.valid = true := by
  have key : ∀ {k b}, (k, b) ∈ fillMap g ps [] → b ∈ ps ∧ b.valid = true := by
    intro k b hb
    rcases fillMap_mem ps hb with hb | hb
    · simp at hb
    · exact hb
  unfold findOptimal at h
  split at h
  · simp at h
  · rename_i k b hm
    simp only [Option.some.injEq] at h
    subst h
    exact key (k := k) (by rw [hm]; simp)
  · rename_i k b k' b' r hm
    split_ifs at h with hc
    · simp only [Option.some.injEq] at h
      subst h
      exact key (k := k') (by rw [hm]; simp)
    · simp only [Option.some.injEq] at h
      subst h
      exact key (k := k) (by rw [hm]; simp)

theorem configure_mem {s : Solver} {q1 q2u q2d q3 q4u q4d q5 : ℝ} {ps : List Pose}
    (h : configure s q1 q2u q2d q3 q4u q4d q5 = some ps) :
    ps = [storeAngles s q1 q2u q3 q4u q5 .forward .up,
       storeAngles s q1 q2d (-q3) q4d q5 .forward .down,
       storeAngles s (q1 + 180) (-q2u) (-q3) (-q4u) (q5 + 180) .reversed .up,
       storeAngles s (q1 + 180) (-q2d) q3 (-q4d) (q5 + 180) .reversed .down] := by
  unfold configure at h
  split_ifs at h with h1
  simp only at h
  split_ifs at h
  exact (Option.some.inj h).symm

/-! ## Forward kinematics -/

theorem inRadians_sum (q : Joints) :
    degToRad (q.q2 + q.q3 + q.q4) = q.inRadians.q2 + q.inRadians.q3 + q.inRadians.q4 := by
  simp only [Joints.inRadians, degToRad]; ring

/-- The rotation that `fwdKin` encodes. -/
noncomputable def codedRot (s : Solver) (q : Joints) : Mat3 :=
  Mat3.eulerZYZ (atan2 (radial s q.inRadians * sin q.inRadians.q1) (radial s q.inRadians * cos q.inRadians.q1))
    (q.inRadians.q2 + q.inRadians.q3 + q.inRadians.q4) q.inRadians.q5

theorem codedRot_isRot (s : Solver) (q : Joints) : (codedRot s q).IsRot := Mat3.eulerZYZ_isRot _ _ _

private theorem coded (s : Solver) (qd : Joints) : ∃ m : Mem, encodePose .cartesian .eulerYZ .degrees
    ⟨[], [radial s qd.inRadians * cos qd.inRadians.q1, radial s qd.inRadians * sin qd.inRadians.q1,
      height s qd.inRadians + s.A0, qd.q2 + qd.q3 + qd.q4, qd.q5], true⟩ = some (true, m) ∧
    m.dst = sixOf (arm s qd.inRadians).p (codedRot s qd).getRot := by
  obtain ⟨m, h1, h2⟩ := encodePose_ok (c := .cartesian) (o := .eulerYZ) .degrees ⟨Or.inl rfl, by simp⟩
    ⟨[], [radial s qd.inRadians * cos qd.inRadians.q1, radial s qd.inRadians * sin qd.inRadians.q1,
      height s qd.inRadians + s.A0, qd.q2 + qd.q3 + qd.q4, qd.q5], true⟩
    (by simp [Mem.input, coordSize, orientSize])
  refine ⟨m, h1, ?_⟩
  rw [h2, arm_p]
  simp only [Mem.input, if_true, posOf, encodedRot, offset, List.getD_cons_succ, List.getD_cons_zero, inRad,
    reduceCtorEq, if_false, codedRot, ← inRadians_sum]
  rfl

theorem fwdKin_no_tool (svd : Mat3 → Vec3) {s : Solver} (ht : s.hasFrame = false) {q : List ℝ} {qd : Joints}
    (hq : Joints.read q = some qd) :
    fwdKin svd s q = some (sixOf (arm s qd.inRadians).p (codedRot s qd).getRot) := by
  obtain ⟨m, h1, h2⟩ := coded s qd
  unfold fwdKin
  rw [hq]
  simp only [Option.bind_eq_bind, Option.bind_some, ht]
  rw [h1]
  simp only [Option.bind_some, Bool.false_eq_true, if_false, Option.pure_def, Option.some.injEq]
  exact h2

theorem fwdKin_tool (svd : Mat3 → Vec3) {s : Solver} (ht : s.hasFrame = true) {q : List ℝ} {qd : Joints}
    (hq : Joints.read q = some qd) :
    fwdKin svd s q = (vectorToMatrix (sixOf (arm s qd.inRadians).p (codedRot s qd).getRot)).bind
      fun h => some (matrixToVector svd (h * s.frameTcp)) := by
  obtain ⟨m, h1, h2⟩ := coded s qd
  unfold fwdKin
  rw [hq]
  simp only [Option.bind_eq_bind, Option.bind_some, ht]
  rw [h1]
  simp only [Option.bind_some, if_true, Option.pure_def]
  rw [h2]

/-- Ahead of the base axis the first Euler angle is the first joint. -/
theorem codedRot_ahead {s : Solver} {q : Joints} (h : 0 < radial s q.inRadians) :
    codedRot s q = (arm s q.inRadians).M := by
  rw [arm_M, codedRot]
  generalize radial s q.inRadians = r at *
  generalize q.inRadians.q1 = a
  have e : (r * cos a) ^ 2 + (r * sin a) ^ 2 = r ^ 2 := by
    linear_combination r ^ 2 * sin_sq_add_cos_sq a
  have hc := mul_left_cancel₀ h.ne' (atan2_cos_mul e h.le)
  have hs := mul_left_cancel₀ h.ne' (atan2_sin_mul e h.le)
  simp only [Mat3.eulerZYZ, Mat3.rotZ, hc, hs]

/-- Behind it, it is off by half a turn. -/
theorem codedRot_behind {s : Solver} {q : Joints} (h : radial s q.inRadians < 0) :
    codedRot s q = Mat3.eulerZYZ (q.inRadians.q1 + π) (q.inRadians.q2 + q.inRadians.q3 + q.inRadians.q4)
      q.inRadians.q5 := by
  rw [codedRot]
  generalize radial s q.inRadians = r at *
  generalize q.inRadians.q1 = a
  have e : (r * cos a) ^ 2 + (r * sin a) ^ 2 = (-r) ^ 2 := by
    linear_combination r ^ 2 * sin_sq_add_cos_sq a
  have hr : 0 < -r := by linarith
  have hc := atan2_cos_mul e hr.le
  have hs := atan2_sin_mul e hr.le
  have hc' : cos (atan2 (r * sin a) (r * cos a)) = cos (a + π) := by
    rw [cos_add_pi]; apply mul_left_cancel₀ hr.ne'; rw [hc]; ring
  have hs' : sin (atan2 (r * sin a) (r * cos a)) = sin (a + π) := by
    rw [sin_add_pi]; apply mul_left_cancel₀ hr.ne'; rw [hs]; ring
  simp only [Mat3.eulerZYZ, Mat3.rotZ, hc', hs']

/-! ## Inverse kinematics -/

/-- The request that `solve` sees, as a frame: the hand may only point away from the base axis, in the
vertical plane through it and the end effector. -/
structure Solvable (f : Frame) : Prop where
  euler : f.M.EulerRegular
  plane : f.M.getEulerZYZ.1 = atan2 f.p.y f.p.x

theorem radToDeg_rad (v : ℝ) : degToRad (radToDeg v) = v := by
  unfold degToRad radToDeg; field_simp

theorem degToRad_half (v : ℝ) : degToRad (radToDeg v + 180) = v + π := by
  unfold degToRad radToDeg; field_simp

theorem degToRad_neg (v : ℝ) : degToRad (-radToDeg v) = -v := by
  unfold degToRad radToDeg; field_simp

open scoped Classical in
/-- `solve` for a decoded request. -/
noncomputable def solveDecoded (s : Solver) (p : Vec3) (b c : ℝ) (g : Joints) : Option (List ℝ) :=
  if √(√(p.x * p.x + p.y * p.y) * √(p.x * p.x + p.y * p.y) + (p.z - s.A0) * (p.z - s.A0)) >
      s.A1 + s.A2 + s.A3 then none
  else if √((p.z - s.A0 - s.A3 * cos b) * (p.z - s.A0 - s.A3 * cos b) +
      (√(p.x * p.x + p.y * p.y) - s.A3 * sin b) * (√(p.x * p.x + p.y * p.y) - s.A3 * sin b)) >
      s.A1 + s.A2 then none
  else
    (planeAngles s.A1 s.A2 (√(p.x * p.x + p.y * p.y) - s.A3 * sin b) (p.z - s.A0 - s.A3 * cos b)).bind fun t =>
      (configure s (radToDeg (atan2 p.y p.x)) (radToDeg t.t1u) (radToDeg t.t1d) (radToDeg t.t2)
        (radToDeg (b - t.t1u - t.t2)) (radToDeg (b - t.t1d + t.t2)) (radToDeg c)).bind fun poses =>
        (findOptimal g poses).map fun pose => pose.q.toList

theorem solve_eq {s : Solver} {xd : List ℝ} (g : Joints) (hl : 6 ≤ xd.length)
    (hv : rotOf xd = 0 ∨ eps ≤ (rotOf xd).norm) :
    solve s xd g = some (solveDecoded s (standard xd).p (standard xd).M.getEulerZYZ.2.1
      (standard xd).M.getEulerZYZ.2.2 g) := by
  obtain ⟨m, h1, h2⟩ := decodePose_ok (c := .cartesian) (o := .eulerYZ) .radians ⟨xd, [], false⟩
    ⟨Or.inl rfl, by simp⟩ (by simpa [Mem.input] using hl)
  have hM : Mat3.rot (rotOf xd) (rotOf xd).norm = (standard xd).M := by
    rw [Mat3.rot_norm hv, standard_eq]
  have hp : (standard xd).p = ⟨xd.getD 0 0, xd.getD 1 0, xd.getD 2 0⟩ := by rw [standard_eq]
  have hdst : m.dst = [(standard xd).p.x, (standard xd).p.y, (standard xd).p.z,
      (standard xd).M.getEulerZYZ.2.1, (standard xd).M.getEulerZYZ.2.2] := by
    rw [h2, hp, ← hM]
    simp [Mem.input, decodedPos, decodedRot, outRad]
  unfold solve
  rw [h1]
  simp only [Option.bind_eq_bind, Option.bind_some, Bool.true_eq_false, if_false, hdst, Option.pure_def]
  generalize (standard xd).p = p at *
  generalize (standard xd).M.getEulerZYZ.2.1 = b at *
  generalize (standard xd).M.getEulerZYZ.2.2 = c at *
  unfold solveDecoded
  split_ifs with c1 c2
  · rfl
  · rfl
  cases planeAngles s.A1 s.A2 (√(p.x * p.x + p.y * p.y) - s.A3 * sin b) (p.z - s.A0 - s.A3 * cos b) with
  | none => rfl
  | some t =>
    simp only [Option.bind_some]
    cases configure s (radToDeg (atan2 p.y p.x)) (radToDeg t.t1u) (radToDeg t.t1d) (radToDeg t.t2)
      (radToDeg (b - t.t1u - t.t2)) (radToDeg (b - t.t1d + t.t2)) (radToDeg c) with
    | none => rfl
    | some poses =>
      simp only [Option.bind_some]
      cases findOptimal g poses with
      | none => rfl
      | some pose => rfl

/-- What `solve` computes, in terms of exact solutions: the pose of an arm with the third and following
elements of the decoded request. -/
theorem solve_spec {s : Solver} {xd : List ℝ} {g : Joints} {q : List ℝ}
    (hv : rotOf xd = 0 ∨ eps ≤ (rotOf xd).norm) (h : solve s xd g = some (some q)) :
    ∃ qj e : Joints, q = qj.toList ∧ Near qj e ∧ (arm s e.inRadians).p = (standard xd).p ∧
      (arm s e.inRadians).M = Mat3.eulerZYZ (atan2 (standard xd).p.y (standard xd).p.x)
        (standard xd).M.getEulerZYZ.2.1 (standard xd).M.getEulerZYZ.2.2 ∧
      jointsInLimits qj s.qMin s.qMax := by
  have hl : 6 ≤ xd.length := by
    by_contra hn
    unfold solve at h
    rw [decodePose_short _ _ _ _ (by simpa [Mem.input] using hn)] at h
    simp at h
  rw [solve_eq g hl hv, Option.some.injEq] at h
  generalize (standard xd).p = p at *
  generalize (standard xd).M.getEulerZYZ.2.1 = b at *
  generalize (standard xd).M.getEulerZYZ.2.2 = c at *
  unfold solveDecoded at h
  split_ifs at h with c1 c2
  revert h
  cases ht : planeAngles s.A1 s.A2 (√(p.x * p.x + p.y * p.y) - s.A3 * sin b) (p.z - s.A0 - s.A3 * cos b) with
  | none => simp
  | some t =>
    simp only [Option.bind_some]
    cases hc : configure s (radToDeg (atan2 p.y p.x)) (radToDeg t.t1u) (radToDeg t.t1d) (radToDeg t.t2)
      (radToDeg (b - t.t1u - t.t2)) (radToDeg (b - t.t1d + t.t2)) (radToDeg c) with
    | none => simp
    | some poses =>
      simp only [Option.bind_some]
      cases ho : findOptimal g poses with
      | none => simp
      | some pose =>
        simp only [Option.map_some, Option.some.injEq]
        rintro rfl
        obtain ⟨⟨pu1, pu2⟩, ⟨pd1, pd2⟩⟩ := planeAngles_spec ht
        obtain ⟨hmem, hval⟩ := findOptimal_mem ho
        rw [configure_mem hc] at hmem
        have hcos := atan2_cos_mul (y := p.y) (x := p.x) (ρ := √(p.x * p.x + p.y * p.y))
          (by rw [sq_sqrt (add_nonneg (mul_self_nonneg _) (mul_self_nonneg _))]; ring) (sqrt_nonneg _)
        have hsin := atan2_sin_mul (y := p.y) (x := p.x) (ρ := √(p.x * p.x + p.y * p.y))
          (by rw [sq_sqrt (add_nonneg (mul_self_nonneg _) (mul_self_nonneg _))]; ring) (sqrt_nonneg _)
        -- the two exact solutions
        have up : ∀ q1 q5, (arm s ⟨q1, t.t1u, t.t2, b - t.t1u - t.t2, q5⟩).M = Mat3.eulerZYZ q1 b q5 ∧
            (q1 = atan2 p.y p.x → (arm s ⟨q1, t.t1u, t.t2, b - t.t1u - t.t2, q5⟩).p = p) := by
          intro q1 q5
          have e : t.t1u + t.t2 + (b - t.t1u - t.t2) = b := by ring
          refine ⟨by rw [arm_M]; simp only [e], ?_⟩
          rintro rfl
          rw [arm_p]
          simp only [radial, height, e, pu1, pu2]
          ext
          · simp only [sub_add_cancel, hcos]
          · simp only [sub_add_cancel, hsin]
          · simp only; ring
        have down : ∀ q1 q5, (arm s ⟨q1, t.t1d, -t.t2, b - t.t1d + t.t2, q5⟩).M = Mat3.eulerZYZ q1 b q5 ∧
            (q1 = atan2 p.y p.x → (arm s ⟨q1, t.t1d, -t.t2, b - t.t1d + t.t2, q5⟩).p = p) := by
          intro q1 q5
          have e : t.t1d + -t.t2 + (b - t.t1d + t.t2) = b := by ring
          have e' : t.t1d + -t.t2 = t.t1d - t.t2 := by ring
          refine ⟨by rw [arm_M]; simp only [e], ?_⟩
          rintro rfl
          rw [arm_p]
          simp only [radial, height, e]
          rw [e', pd1, pd2]
          ext
          · simp only [sub_add_cancel, hcos]
          · simp only [sub_add_cancel, hsin]
          · simp only; ring
        have key : ∃ e : Joints, Near pose.q e ∧
            (arm s e.inRadians = arm s ⟨atan2 p.y p.x, t.t1u, t.t2, b - t.t1u - t.t2, c⟩ ∨
              arm s e.inRadians = arm s ⟨atan2 p.y p.x, t.t1d, -t.t2, b - t.t1d + t.t2, c⟩) := by
          simp only [List.mem_cons, List.not_mem_nil, or_false] at hmem
          rcases hmem with rfl | rfl | rfl | rfl
          · obtain ⟨e, n, a⟩ := storeAngles_spec s (radToDeg (atan2 p.y p.x)) (radToDeg t.t1u) (radToDeg t.t2)
              (radToDeg (b - t.t1u - t.t2)) (radToDeg c) .forward .up
            refine ⟨e, n, Or.inl (a.trans ?_)⟩
            simp only [Joints.inRadians, radToDeg_rad]
          · obtain ⟨e, n, a⟩ := storeAngles_spec s (radToDeg (atan2 p.y p.x)) (radToDeg t.t1d) (-radToDeg t.t2)
              (radToDeg (b - t.t1d + t.t2)) (radToDeg c) .forward .down
            refine ⟨e, n, Or.inr (a.trans ?_)⟩
            simp only [Joints.inRadians, radToDeg_rad, degToRad_neg]
          · obtain ⟨e, n, a⟩ := storeAngles_spec s (radToDeg (atan2 p.y p.x) + 180) (-radToDeg t.t1u)
              (-radToDeg t.t2) (-radToDeg (b - t.t1u - t.t2)) (radToDeg c + 180) .reversed .up
            refine ⟨e, n, Or.inl (a.trans (Eq.trans ?_ (arm_reversed s _ _ _ _ _)))⟩
            simp only [Joints.inRadians, degToRad_half, degToRad_neg]
          · obtain ⟨e, n, a⟩ := storeAngles_spec s (radToDeg (atan2 p.y p.x) + 180) (-radToDeg t.t1d)
              (radToDeg t.t2) (-radToDeg (b - t.t1d + t.t2)) (radToDeg c + 180) .reversed .down
            refine ⟨e, n, Or.inr (a.trans (Eq.trans ?_ (arm_reversed s _ _ _ _ _)))⟩
            simp only [Joints.inRadians, degToRad_half, degToRad_neg, radToDeg_rad, neg_neg]
        have hlim : jointsInLimits pose.q s.qMin s.qMax := by
          simp only [List.mem_cons, List.not_mem_nil, or_false] at hmem
          rcases hmem with rfl | rfl | rfl | rfl <;> simpa [storeAngles] using hval
        obtain ⟨e, n, a | a⟩ := key
        · exact ⟨pose.q, e, rfl, n, by rw [a]; exact (up _ _).2 rfl, by rw [a]; exact (up _ _).1, hlim⟩
        · exact ⟨pose.q, e, rfl, n, by rw [a]; exact (down _ _).2 rfl, by rw [a]; exact (down _ _).1, hlim⟩

theorem exists_goodSvd : ∃ svd, GoodSvd svd := by
  have h : ∀ m : Mat3, ∃ v : Vec3, m.IsRot → m.transpose = m → Vec3.dot v v = 1 ∧ m.mulVec v = v := by
    intro m
    by_cases hm : m.IsRot ∧ m.transpose = m
    · obtain ⟨hr, hs⟩ := hm
      have h1 : m.yx = m.xy := congrArg Mat3.xy hs
      have h2 : m.zx = m.xz := congrArg Mat3.xz hs
      have h3 : m.zy = m.yz := congrArg Mat3.yz hs
      have hc : m.cosAngle ^ 2 = 1 := by
        have := hr.antisym_norm
        rw [h1, h2, h3] at this
        linarith
      have hreg : m.Regular := by
        rcases mul_self_eq_one_iff.mp ((sq _).symm.trans hc) with h | h
        · exact Or.inr (Or.inl h)
        · exact Or.inr (Or.inr h)
      obtain ⟨k1, -, -, k4, -⟩ := hr.getRotAngle_spec hreg
      refine ⟨m.getRotAngle.1, fun _ _ => ⟨k1, ?_⟩⟩
      have := Mat3.rot2_axis k1 m.getRotAngle.2
      rwa [k4] at this
    · exact ⟨0, fun a b => absurd ⟨a, b⟩ hm⟩
  choose svd hsvd using h
  exact ⟨svd, hsvd⟩

theorem solve_exact {s : Solver} {xd : List ℝ} {g : Joints} {q : List ℝ}
    (hv : rotOf xd = 0 ∨ eps ≤ (rotOf xd).norm) (hs : Solvable (standard xd))
    (h : solve s xd g = some (some q)) :
    ∃ qj e : Joints, q = qj.toList ∧ Near qj e ∧ arm s e.inRadians = standard xd ∧
      jointsInLimits qj s.qMin s.qMax := by
  obtain ⟨qj, e, h1, h2, h3, h4, h5⟩ := solve_spec hv h
  refine ⟨qj, e, h1, h2, Frame.ext ?_ h3, h5⟩
  rw [h4, ← hs.plane]
  have : (standard xd).M.IsRot := by rw [standard_eq]; exact Mat3.expRot_isRot _
  exact this.eulerZYZ_get hs.euler

end Asibot

end KD
