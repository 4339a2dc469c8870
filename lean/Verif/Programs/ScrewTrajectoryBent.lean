import Verif.Props.IkReach
import Verif.Props.IkComplete
import Verif.Programs.ScrewTrajectoryLemmas

/-!
# The left arm of TEO with the elbow bent by a right angle

Lemmas to evaluate the inverse kinematics there.
-/

namespace KD.StDemo

open Real Mat3 Exact Builder

/-! ## Terms -/

/-- About z, through the given point of the x axis. -/
def aboutZ (o : ℝ) : MatrixExp := ⟨.rotation, ⟨0, 0, 1⟩, ⟨o, 0, 0⟩⟩

/-- About x. -/
def aboutX (o : ℝ) : MatrixExp := ⟨.rotation, ⟨1, 0, 0⟩, ⟨o, 0, 0⟩⟩

/-- About y. -/
def aboutY (o : ℝ) : MatrixExp := ⟨.rotation, ⟨0, 1, 0⟩, ⟨o, 0, 0⟩⟩

theorem aboutZ_unit (o : ℝ) : (aboutZ o).Unit := by norm_num [aboutZ, MatrixExp.Unit, Vec3.dot]

theorem aboutX_unit (o : ℝ) : (aboutX o).Unit := by norm_num [aboutX, MatrixExp.Unit, Vec3.dot]

theorem aboutY_unit (o : ℝ) : (aboutY o).Unit := by norm_num [aboutY, MatrixExp.Unit, Vec3.dot]

theorem actZ (o t x y z : ℝ) : ((aboutZ o).asFrame t).act ⟨x, y, z⟩ =
    ⟨o + cos t * (x - o) - sin t * y, sin t * (x - o) + cos t * y, z⟩ := by
  rw [act_rot rfl (aboutZ_unit o), Mat3.rot2_mulVec]
  ext <;> simp [aboutZ, Vec3.dot] <;> ring

theorem actX (o t x y z : ℝ) : ((aboutX o).asFrame t).act ⟨x, y, z⟩ =
    ⟨x, cos t * y - sin t * z, sin t * y + cos t * z⟩ := by
  rw [act_rot rfl (aboutX_unit o), Mat3.rot2_mulVec]
  ext <;> simp [aboutX, Vec3.dot] <;> ring

theorem actY (o t x y z : ℝ) : ((aboutY o).asFrame t).act ⟨x, y, z⟩ =
    ⟨o + cos t * (x - o) + sin t * z, y, -sin t * (x - o) + cos t * z⟩ := by
  rw [act_rot rfl (aboutY_unit o), Mat3.rot2_mulVec]
  ext <;> simp [aboutY, Vec3.dot] <;> ring

/-! ## Angles -/

theorem normalize_small {t : ℝ} (h : |t| ≤ π - 1 / 100) : normalizeAngle t = t := by
  have hp := pi_pos
  have h1 : ¬ EqualR |t| π := by
    rw [EqualR, abs_sub_comm, abs_of_nonneg (by linarith), not_lt, eps]
    norm_num
    linarith
  obtain ⟨h2, h3⟩ := abs_le.mp h
  unfold normalizeAngle
  rw [if_neg h1, if_neg (by linarith), if_neg (by linarith)]

theorem normalize_pi : normalizeAngle π = π := by
  unfold normalizeAngle
  rw [if_pos]
  rw [EqualR, abs_of_pos pi_pos, sub_self, abs_zero]
  norm_num [eps]

theorem normalize_neg_turn {t : ℝ} (h0 : π + 1 / 100 ≤ t) : normalizeAngle t = t - 2 * π := by
  have hp := pi_pos
  have h1 : ¬ EqualR |t| π := by
    have ht : |t| = t := abs_of_pos (by linarith)
    rw [EqualR, ht, abs_of_nonneg (by linarith), not_lt, eps]
    norm_num
    linarith
  unfold normalizeAngle
  rw [if_neg h1, if_pos (by linarith)]

theorem angle_zero {a v : Vec3} : angleAbout a v v = 0 := by
  rw [angleAbout, Vec3.cross_self, Vec3.dot_zero_right]
  exact Complex.arg_ofReal_of_nonneg (Vec3.dot_self_nonneg v)

theorem angle_opposite {a u v : Vec3} (h : Vec3.cross u v = 0) (hd : Vec3.dot u v < 0) : angleAbout a u v = π := by
  rw [angleAbout, h, Vec3.dot_zero_right]
  exact Complex.arg_ofReal_of_neg hd

/-! ## Steps -/

theorem norm_x (x : ℝ) : Vec3.norm ⟨x, 0, 0⟩ = |x| := by
  rw [Vec3.norm, show Vec3.dot ⟨x, 0, 0⟩ ⟨x, 0, 0⟩ = x ^ 2 by simp [Vec3.dot]; ring, sqrt_sq_eq_abs]

theorem norm_y (x : ℝ) : Vec3.norm ⟨0, x, 0⟩ = |x| := by
  rw [Vec3.norm, show Vec3.dot ⟨0, x, 0⟩ ⟨0, x, 0⟩ = x ^ 2 by simp [Vec3.dot]; ring, sqrt_sq_eq_abs]

theorem norm_z (x : ℝ) : Vec3.norm ⟨0, 0, x⟩ = |x| := by
  rw [Vec3.norm, show Vec3.dot ⟨0, 0, x⟩ ⟨0, 0, x⟩ = x ^ 2 by simp [Vec3.dot]; ring, sqrt_sq_eq_abs]

open Classical in
/-- The elbow: the wrist is as far from the shoulder as with a right angle. -/
theorem bent_elbow {F : Frame} (hF : F.act ⟨0.63401, 0, 0⟩ = ⟨0.305, 0.32901, 0⟩) :
    pk3 2 (aboutZ 0.305) ⟨0.63401, 0, 0⟩ ⟨0.09, 0, 0⟩ F 1 = some (true, [[(2, -(π / 2))], [(2, π / 2)]]) := by
  have rej : ∀ x : ℝ, axisRej ⟨0, 0, 1⟩ ⟨x, 0, 0⟩ = ⟨x, 0, 0⟩ := by
    intro x; rw [axisRej_eq]; ext <;> simp [Vec3.dot]
  have sub : ∀ x y : ℝ, (⟨x, 0, 0⟩ : Vec3) - ⟨y, 0, 0⟩ = ⟨x - y, 0, 0⟩ := by intro x y; ext <;> simp
  have sub' : (⟨0.305, 0.32901, 0⟩ : Vec3) - ⟨0.09, 0, 0⟩ = ⟨0.215, 0.32901, 0⟩ := by ext <;> simp; norm_num
  have hang : angleAbout ⟨0, 0, 1⟩ ⟨0.63401 - 0.305, 0, 0⟩ ⟨0.09 - 0.305, 0, 0⟩ = π := by
    apply angle_opposite
    · ext <;> simp
    · norm_num [Vec3.dot]
  have e0 : ∀ x, Vec3.dot (⟨0, 0, 1⟩ : Vec3) ⟨x, 0, 0⟩ = 0 := by simp [Vec3.dot]
  have hn : Vec3.norm ⟨0.215, 0.32901, 0⟩ ^ 2 = 0.215 ^ 2 + 0.32901 ^ 2 := by
    rw [Vec3.norm_sq]
    norm_num [Vec3.dot]
  have hb : (|(0.63401 - 0.305 : ℝ)| ^ 2 + |(0.09 - 0.305 : ℝ)| ^ 2 - (0.215 ^ 2 + 0.32901 ^ 2 - 0 ^ 2)) /
      (2 * |(0.63401 - 0.305 : ℝ)| * |(0.09 - 0.305 : ℝ)|) = 0 := by
    rw [div_eq_zero_iff]
    left
    simp only [sq_abs]
    norm_num
  have hp := two_le_pi
  unfold aboutZ
  simp only [pk3, Frame.act_one, hF, sub, sub', rej, norm_x, hang, e0, hn, hb]
  rw [if_neg (by norm_num [abs_of_neg, abs_of_pos]), if_pos (by norm_num [EqualR, eps])]
  norm_num only [min_eq_right, max_eq_right, arccos_zero]
  rw [normalize_neg_turn (by linarith), normalize_small (by rw [abs_of_pos (by linarith)]; linarith)]
  congr 5
  · ring_nf
  · ring_nf

theorem small_of_cos {t : ℝ} (h1 : |t| ≤ π) (h : -0.9 ≤ cos t) : |t| ≤ π - 1 / 100 := by
  by_contra hc
  have hc := not_le.mp hc
  have hp := two_le_pi
  have h2 : cos |t| < cos (π - 1 / 100) :=
    cos_lt_cos_of_nonneg_of_le_pi (by linarith) h1 hc
  rw [cos_abs, cos_pi_sub] at h2
  have h3 := one_sub_sq_div_two_le_cos (x := 1 / 100)
  linarith

/-- The angle from one direction of the plane to its mirror image. -/
theorem mirror : let ψ := angleAbout ⟨0, 0, 1⟩ ⟨0.215, -0.32901, 0⟩ ⟨0.215, 0.32901, 0⟩
    normalizeAngle ψ = ψ ∧ cos ψ * (0.215 ^ 2 + 0.32901 ^ 2) = 0.215 ^ 2 - 0.32901 ^ 2 ∧
      sin ψ * (0.215 ^ 2 + 0.32901 ^ 2) = 2 * 0.215 * 0.32901 := by
  intro ψ
  set z : ℂ := ⟨0.215 ^ 2 - 0.32901 ^ 2, 2 * 0.215 * 0.32901⟩ with hz
  have hψ : ψ = z.arg := by
    show atan2 _ _ = _
    unfold atan2
    congr 1
    simp only [hz, Vec3.dot, Vec3.cross]
    congr 1 <;> norm_num
  have hn : ‖z‖ = 0.215 ^ 2 + 0.32901 ^ 2 := by
    rw [Complex.norm_eq_sqrt_sq_add_sq, hz]
    rw [show ((0.215 : ℝ) ^ 2 - 0.32901 ^ 2) ^ 2 + (2 * 0.215 * 0.32901) ^ 2 = (0.215 ^ 2 + 0.32901 ^ 2) ^ 2 by norm_num]
    exact sqrt_sq (by norm_num)
  have h0 : z ≠ 0 := by
    intro h
    rw [h, norm_zero] at hn
    norm_num at hn
  have hc : cos ψ * (0.215 ^ 2 + 0.32901 ^ 2) = 0.215 ^ 2 - 0.32901 ^ 2 := by
    rw [hψ, Complex.cos_arg h0, hn]
    exact div_mul_cancel₀ _ (by norm_num)
  have hs : sin ψ * (0.215 ^ 2 + 0.32901 ^ 2) = 2 * 0.215 * 0.32901 := by
    rw [hψ, Complex.sin_arg, hn]
    exact div_mul_cancel₀ _ (by norm_num)
  refine ⟨normalize_small (small_of_cos (by rw [hψ]; exact Complex.abs_arg_le_pi z) ?_), hc, hs⟩
  norm_num at hc
  linarith

/-- A half turn or none, by the sign of the result. -/
theorem half_turn {a : Vec3} {u v : Vec3} {c : ℝ} (hv : v = c • u) (hc : c = 1 ∨ c = -1) (hu : 0 < Vec3.dot u u) :
    sin (normalizeAngle (angleAbout a u v)) = 0 ∧ cos (normalizeAngle (angleAbout a u v)) = c := by
  rcases hc with rfl | rfl
  · rw [one_smul] at hv
    rw [hv, angle_zero, normalize_small (by rw [abs_zero]; linarith [two_le_pi])]
    simp
  · rw [angle_opposite (u := u) (v := v) (by rw [hv]; ext <;> simp <;> ring) (by
      rw [hv, Vec3.dot_smul_right]; linarith), normalize_pi]
    simp

open Classical in
/-- The wrist. -/
theorem bent_wrist {F H : Frame} {s : ℝ} (hs : s = 1 ∨ s = -1) (hF : F.act ⟨0.63401, 0, 0⟩ = ⟨0.305, 0.32901, 0⟩)
    (hH : H.act ⟨0.63401, 0, 0⟩ = ⟨0.305, s * 0.32901, 0⟩) :
    ∃ ψ τ τ', pk2 0 1 (aboutZ 0.09) (aboutX 0.305) ⟨0.63401, 0, 0⟩ ⟨0.09, 0, 0⟩ F H =
        some (true, [[(0, ψ), (1, τ)], [(0, 0), (1, τ')]]) ∧
      cos ψ * (0.215 ^ 2 + 0.32901 ^ 2) = 0.215 ^ 2 - 0.32901 ^ 2 ∧
      sin ψ * (0.215 ^ 2 + 0.32901 ^ 2) = 2 * 0.215 * 0.32901 ∧
      sin τ = 0 ∧ cos τ = -s ∧ sin τ' = 0 ∧ cos τ' = s := by
  have hs2 : s * s = 1 := by rcases hs with rfl | rfl <;> norm_num
  obtain ⟨m1, m2, m3⟩ := mirror
  have rz : ∀ x y z : ℝ, axisRej ⟨0, 0, 1⟩ ⟨x, y, z⟩ = ⟨x, y, 0⟩ := by
    intro x y z; rw [axisRej_eq]; ext <;> simp [Vec3.dot]
  have rx : ∀ x y z : ℝ, axisRej ⟨1, 0, 0⟩ ⟨x, y, z⟩ = ⟨0, y, z⟩ := by
    intro x y z; rw [axisRej_eq]; ext <;> simp [Vec3.dot]
  have sub : ∀ y : ℝ, (⟨0.305, y, 0⟩ : Vec3) - ⟨0.09, 0, 0⟩ = ⟨0.215, y, 0⟩ := by intro y; ext <;> simp; norm_num
  have hcr : Vec3.cross (⟨0, 0, 1⟩ : Vec3) ⟨1, 0, 0⟩ = ⟨0, 1, 0⟩ := by ext <;> simp
  have hdt : Vec3.dot (⟨0, 0, 1⟩ : Vec3) ⟨1, 0, 0⟩ = 0 := by simp [Vec3.dot]
  have hd1 : ∀ x y : ℝ, Vec3.dot (⟨0, 0, 1⟩ : Vec3) ⟨x, y, 0⟩ = 0 := by simp [Vec3.dot]
  have hd2 : ∀ x y : ℝ, Vec3.dot (⟨1, 0, 0⟩ : Vec3) ⟨x, y, 0⟩ = x := by simp [Vec3.dot]
  have hn : Vec3.norm ⟨0.215, s * 0.32901, 0⟩ ^ 2 = 0.215 ^ 2 + 0.32901 ^ 2 := by
    rw [Vec3.norm_sq]
    simp only [Vec3.dot]
    linear_combination 0.32901 ^ 2 * hs2
  have hg : ((0.215 ^ 2 + 0.32901 ^ 2 - ((0 * 0.215 - 0) / (0 ^ 2 - 1) : ℝ) ^ 2 - ((0 * 0 - 0.215) / (0 ^ 2 - 1)) ^ 2 -
      2 * ((0 * 0.215 - 0) / (0 ^ 2 - 1)) * ((0 * 0 - 0.215) / (0 ^ 2 - 1)) * 0) / |1| ^ 2) = 0.32901 ^ 2 := by norm_num
  have hc : (⟨0.09, 0, 0⟩ : Vec3) + ((0 * 0.215 - 0) / (0 ^ 2 - 1) : ℝ) • ⟨0, 0, 1⟩ + ((0 * 0 - 0.215) / (0 ^ 2 - 1) : ℝ) • ⟨1, 0, 0⟩ -
      (0.32901 : ℝ) • ⟨0, 1, 0⟩ - ⟨0.09, 0, 0⟩ = ⟨0.215, -0.32901, 0⟩ := by ext <;> simp
  have hd : (⟨0.09, 0, 0⟩ : Vec3) + ((0 * 0.215 - 0) / (0 ^ 2 - 1) : ℝ) • ⟨0, 0, 1⟩ + ((0 * 0 - 0.215) / (0 ^ 2 - 1) : ℝ) • ⟨1, 0, 0⟩ +
      (0.32901 : ℝ) • ⟨0, 1, 0⟩ - ⟨0.09, 0, 0⟩ = ⟨0.215, 0.32901, 0⟩ := by ext <;> simp
  have hsq : √((0.32901 : ℝ) ^ 2) = 0.32901 := sqrt_sq (by norm_num)
  have hnn : Vec3.norm ⟨0.215, -0.32901, 0⟩ = Vec3.norm ⟨0.215, 0.32901, 0⟩ := by
    simp only [Vec3.norm, Vec3.dot]
    norm_num
  obtain ⟨t1, t2⟩ := half_turn (a := ⟨1, 0, 0⟩) (u := ⟨0, s * 0.32901, 0⟩) (v := ⟨0, -0.32901, 0⟩) (c := -s)
    (by ext <;> simp; linear_combination (-0.32901) * hs2) (by rcases hs with rfl | rfl <;> norm_num) (by
      simp only [Vec3.dot]; nlinarith)
  obtain ⟨t3, t4⟩ := half_turn (a := ⟨1, 0, 0⟩) (u := ⟨0, s * 0.32901, 0⟩) (v := ⟨0, 0.32901, 0⟩) (c := s)
    (by ext <;> simp; linear_combination (-0.32901) * hs2) hs (by simp only [Vec3.dot]; nlinarith)
  refine ⟨_, _, _, ?_, m2, m3, t1, t2, t3, t4⟩
  unfold aboutZ aboutX
  simp only [pk2, hF, hH, sub, hcr, hdt, hd1, hd2, rz, rx, norm_y, hn, hg]
  rw [if_neg (by norm_num), if_pos (by norm_num [EqualR, eps]), hsq, hc, hd]
  simp only [hnn, angle_zero]
  rw [m1, normalize_small (t := 0) (by rw [abs_zero]; linarith [two_le_pi])]
  simp [EqualR.refl]

open Classical in
/-- The first two joints of the shoulder. -/
theorem bent_shoulder {F H : Frame} {h σ : ℝ} (h0 : 0.1 < h) (hσ : σ = 1 ∨ σ = -1)
    (hF : F.act ⟨0.63401, 0, h⟩ = ⟨0.63401, 0, σ * h⟩) (hH : H.act ⟨0.63401, 0, h⟩ = ⟨0.63401, 0, h⟩) :
    ∃ τ υ τ' υ', pk2 3 4 (aboutX 0.63401) (aboutY 0.63401) ⟨0.63401, 0, h⟩ ⟨0.63401, 0, 0⟩ F H =
        some (true, [[(3, τ), (4, υ)], [(3, τ'), (4, υ')]]) ∧
      sin τ = 0 ∧ cos τ = -σ ∧ sin υ = 0 ∧ cos υ = -1 ∧ sin τ' = 0 ∧ cos τ' = σ ∧ sin υ' = 0 ∧ cos υ' = 1 := by
  have hσ2 : σ * σ = 1 := by rcases hσ with rfl | rfl <;> norm_num
  have ry : ∀ x y z : ℝ, axisRej ⟨0, 1, 0⟩ ⟨x, y, z⟩ = ⟨x, 0, z⟩ := by
    intro x y z; rw [axisRej_eq]; ext <;> simp [Vec3.dot]
  have rx : ∀ x y z : ℝ, axisRej ⟨1, 0, 0⟩ ⟨x, y, z⟩ = ⟨0, y, z⟩ := by
    intro x y z; rw [axisRej_eq]; ext <;> simp [Vec3.dot]
  have sub : ∀ z : ℝ, (⟨0.63401, 0, z⟩ : Vec3) - ⟨0.63401, 0, 0⟩ = ⟨0, 0, z⟩ := by intro z; ext <;> simp
  have hcr : Vec3.cross (⟨1, 0, 0⟩ : Vec3) ⟨0, 1, 0⟩ = ⟨0, 0, 1⟩ := by ext <;> simp
  have hdt : Vec3.dot (⟨1, 0, 0⟩ : Vec3) ⟨0, 1, 0⟩ = 0 := by simp [Vec3.dot]
  have hd1 : ∀ z : ℝ, Vec3.dot (⟨1, 0, 0⟩ : Vec3) ⟨0, 0, z⟩ = 0 := by simp [Vec3.dot]
  have hd2 : ∀ z : ℝ, Vec3.dot (⟨0, 1, 0⟩ : Vec3) ⟨0, 0, z⟩ = 0 := by simp [Vec3.dot]
  have hg : ((|h| ^ 2 - ((0 * 0 - 0) / (0 ^ 2 - 1) : ℝ) ^ 2 - ((0 * 0 - 0) / (0 ^ 2 - 1)) ^ 2 -
      2 * ((0 * 0 - 0) / (0 ^ 2 - 1)) * ((0 * 0 - 0) / (0 ^ 2 - 1)) * 0) / |1| ^ 2) = h ^ 2 := by simp
  have hc : (⟨0.63401, 0, 0⟩ : Vec3) + ((0 * 0 - 0) / (0 ^ 2 - 1) : ℝ) • ⟨1, 0, 0⟩ + ((0 * 0 - 0) / (0 ^ 2 - 1) : ℝ) • ⟨0, 1, 0⟩ -
      h • ⟨0, 0, 1⟩ - ⟨0.63401, 0, 0⟩ = ⟨0, 0, -h⟩ := by ext <;> simp
  have hd : (⟨0.63401, 0, 0⟩ : Vec3) + ((0 * 0 - 0) / (0 ^ 2 - 1) : ℝ) • ⟨1, 0, 0⟩ + ((0 * 0 - 0) / (0 ^ 2 - 1) : ℝ) • ⟨0, 1, 0⟩ +
      h • ⟨0, 0, 1⟩ - ⟨0.63401, 0, 0⟩ = ⟨0, 0, h⟩ := by ext <;> simp
  have hsq : √(h ^ 2) = h := sqrt_sq (by linarith)
  have hnn : |σ * h| = |h| := by
    rw [abs_mul]
    rcases hσ with rfl | rfl <;> simp
  have hh : 0 < h * h := by nlinarith
  have hpos : ∀ z : ℝ, z * z = h * h → 0 < Vec3.dot (⟨0, 0, z⟩ : Vec3) ⟨0, 0, z⟩ := by
    intro z hz
    simp only [Vec3.dot]
    linarith
  obtain ⟨t1, t2⟩ := half_turn (a := ⟨1, 0, 0⟩) (u := ⟨0, 0, -h⟩) (v := ⟨0, 0, σ * h⟩) (c := -σ)
    (by ext <;> simp) (by rcases hσ with rfl | rfl <;> norm_num) (hpos _ (by ring))
  obtain ⟨t3, t4⟩ := half_turn (a := ⟨0, 1, 0⟩) (u := ⟨0, 0, h⟩) (v := ⟨0, 0, -h⟩) (c := -1)
    (by ext <;> simp) (Or.inr rfl) (hpos _ (by ring))
  obtain ⟨t5, t6⟩ := half_turn (a := ⟨1, 0, 0⟩) (u := ⟨0, 0, h⟩) (v := ⟨0, 0, σ * h⟩) (c := σ)
    (by ext <;> simp) hσ (hpos _ (by ring))
  obtain ⟨t7, t8⟩ := half_turn (a := ⟨0, 1, 0⟩) (u := ⟨0, 0, h⟩) (v := ⟨0, 0, h⟩) (c := 1)
    (by ext <;> simp) (Or.inl rfl) (hpos _ (by ring))
  refine ⟨_, _, _, _, ?_, t1, t2, t3, t4, t5, t6, t7, t8⟩
  unfold aboutX aboutY
  simp only [pk2, hF, hH, sub, hcr, hdt, hd1, hd2, ry, rx, norm_z, hg]
  have hgt : ¬ EqualR (h ^ 2) 0 ∧ h ^ 2 > 0 := by
    constructor
    · rw [EqualR, sub_zero, abs_of_pos (by positivity), not_lt, eps]
      norm_num
      nlinarith
    · positivity
  rw [if_neg (by norm_num), if_pos hgt, hsq, hc, hd]
  simp only [norm_z, hnn, abs_neg]
  simp [EqualR.refl]

open Classical in
/-- The last joint of the shoulder. -/
theorem bent_roll {F H : Frame} {w : Vec3} (hF : F.act 0 = w) (hH : H.act 0 = 0) (hz : w.z = 0)
    (hn : (w - ⟨0.63401, 0, 0⟩).norm = 0.63401) :
    ∃ φ, pk1 5 (aboutZ 0.63401) 0 F H = some (true, [[(5, φ)]]) := by
  obtain ⟨x, y, z⟩ := w
  simp only at hz
  subst hz
  have e1 : (0 : Vec3) - ⟨0.63401, 0, 0⟩ = ⟨-0.63401, 0, 0⟩ := by ext <;> simp
  have e2 : (⟨x, y, 0⟩ : Vec3) - ⟨0.63401, 0, 0⟩ = ⟨x - 0.63401, y, 0⟩ := by ext <;> simp
  rw [e2] at hn
  have pz : ∀ x y : ℝ, axisProj ⟨0, 0, 1⟩ ⟨x, y, 0⟩ = 0 := by
    intro x y; rw [axisProj_eq]; ext <;> simp [Vec3.dot]
  have e3 : ∀ v : Vec3, v - 0 = v := by intro v; ext <;> simp
  unfold aboutZ
  have hdec : Vec3.Equal 0 0 ∧ EqualR |(-0.63401 : ℝ)| 0.63401 := by
    refine ⟨⟨EqualR.refl _, EqualR.refl _, EqualR.refl _⟩, ?_⟩
    rw [abs_neg, abs_of_pos (by norm_num)]
    exact EqualR.refl _
  simp only [pk1, hF, hH, e1, e2, pz, e3, hn, norm_x, hdec]
  exact ⟨_, rfl⟩

/-! ## Branches -/

theorem back_terms : teoProblem.poe.exps = [aboutZ 0.09, aboutX 0.305, aboutZ 0.305, aboutX 0.63401, aboutY 0.63401,
    aboutZ 0.63401] := by
  rw [show teoProblem.poe.exps = backward.map E.real from teo_back_exps]
  simp only [backward, List.map_cons, List.map_nil, E.real, V.real, aboutX, aboutY, aboutZ]
  norm_num

theorem real_steps : teoSteps.map S.real = [.pk3 2 (aboutZ 0.305) ⟨0.63401, 0, 0⟩ ⟨0.09, 0, 0⟩,
    .pk2 0 1 (aboutZ 0.09) (aboutX 0.305) ⟨0.63401, 0, 0⟩ ⟨0.09, 0, 0⟩,
    .pk2 3 4 (aboutX 0.63401) (aboutY 0.63401) ⟨0.63401, 0, 54796144293 / 214748364700⟩ ⟨0.63401, 0, 0⟩,
    .pk1 5 (aboutZ 0.63401) 0] := by
  have h0 : (⟨0, 0, 0⟩ : Vec3) = 0 := rfl
  simp only [teoSteps, List.map_cons, List.map_nil, S.real, E.real, V.real, aboutX, aboutY, aboutZ, drawnPoint]
  norm_num [h0]

/-- The right-hand side for the elbow bent by a right angle. -/
noncomputable def bent : Frame := (aboutZ 0.305).asFrame (π / 2)

theorem bent_act (x y z : ℝ) : bent.act ⟨x, y, z⟩ = ⟨0.305 - y, x - 0.305, z⟩ := by
  unfold bent
  rw [actZ]
  simp

theorem asFrame_fixes {e : MatrixExp} : e.asFrame (-0) = 1 := by rw [neg_zero]; exact MatrixExp.asFrame_zero e

open IkProblem in
theorem branch_cons {pb : IkProblem} {s : Step} {ids : List ℕ} {ss : List (Step × List ℕ)} {k : ℕ} {ks : List ℕ}
    {first zero : Bool} {ts ts1 : List TermState} {q q1 : List ℝ} {F F1 : Frame} {ls : List LocalSol} {l : LocalSol}
    (e1 : (if first then ts else nextTerms ts) = ts1) (e2 : (if first then F else pb.rebase ts q F) = F1)
    (h1 : s.solve F1 (pb.transformPoint q (if zero then ts1 else markKnown ts1 ids)) = some (true, ls))
    (h2 : ls[k]? = some l) (e3 : writeVals pb.poe.exps.length pb.reversed l q = q1)
    (h3 : ∀ z, ∃ oks q', runBranch pb ss ks false z (markKnown ts1 ids) q1 F1 = some (oks, q') ∧ ∀ o ∈ oks, o = true) :
    ∃ oks q', runBranch pb ((s, ids) :: ss) (k :: ks) first zero ts q F = some (oks, q') ∧ ∀ o ∈ oks, o = true := by
  obtain ⟨oks, q', g1, g2⟩ := h3 (zero && k == 0)
  refine ⟨true :: oks, q', ?_, ?_⟩
  · unfold runBranch
    simp only [e1, e2, h1, Option.bind_eq_bind, Option.bind_some]
    rw [h2]
    simp only [Option.bind_some, e3, g1]
    rfl
  · intro o ho
    rcases List.mem_cons.mp ho with rfl | ho
    · rfl
    · exact g2 o ho

open IkProblem in
theorem point_frame (q0 q1 q2 q3 q4 q5 : ℝ) (ts : List TermState) :
    teoProblem.transformPoint [q0, q1, q2, q3, q4, q5] ts = transformLoop (ts.zip [(aboutZ 0.09).asFrame (-q5),
      (aboutX 0.305).asFrame (-q4), (aboutZ 0.305).asFrame (-q3), (aboutX 0.63401).asFrame (-q2),
      (aboutY 0.63401).asFrame (-q1), (aboutZ 0.63401).asFrame (-q0)]).reverse 1 false false := by
  unfold transformPoint termFrames
  rw [back_terms]
  rfl

open IkProblem in
theorem rebase_elbow (q : List ℝ) (F : Frame) :
    teoProblem.rebase [.unknown, .unknown, .known, .unknown, .unknown, .unknown] q F = F := by
  unfold rebase
  rw [back_terms]
  show Frame.inv 1 * F * Frame.inv 1 = F
  rw [Frame.inv_one, one_mul, mul_one]

open IkProblem in
theorem rebase_wrist (q0 q1 q2 t p r : ℝ) (F : Frame) :
    teoProblem.rebase [.known, .known, .known, .unknown, .unknown, .unknown] [q0, q1, q2, -t, -p, -r] F =
      ((aboutZ 0.09).asFrame r * ((aboutX 0.305).asFrame p * ((aboutZ 0.305).asFrame t * 1))).inv * F * Frame.inv 1 := by
  unfold rebase
  rw [back_terms, show teoProblem.reversed = true from rfl]
  simp [leadFrame, trailFrame, IkProblem.advance, getTheta]

open IkProblem in
theorem rebase_shoulder (q0 u t q3 q4 q5 : ℝ) (F : Frame) :
    teoProblem.rebase [.computed, .computed, .computed, .known, .known, .unknown] [q0, -u, -t, q3, q4, q5] F =
      ((aboutX 0.63401).asFrame t * ((aboutY 0.63401).asFrame u * 1)).inv * F * Frame.inv 1 := by
  unfold rebase
  rw [back_terms, show teoProblem.reversed = true from rfl]
  simp [leadFrame, trailFrame, IkProblem.advance, getTheta]

open IkProblem in
theorem point_shoulder (z : Bool) (q3 q4 q5 : ℝ) (v : Vec3) :
    (teoProblem.transformPoint [0, 0, 0, q3, q4, q5] (if z = true then [.computed, .computed, .computed, .unknown, .unknown, .unknown]
      else [.computed, .computed, .computed, .known, .known, .unknown])).act v = v := by
  have hz : ∀ e : MatrixExp, e.asFrame (-0) = 1 := fun e => by rw [neg_zero]; exact MatrixExp.asFrame_zero e
  rw [point_frame]
  cases z <;>
  · simp only [List.zip_cons_cons, List.zip_nil_left, List.reverse_cons, List.reverse_nil, List.nil_append,
      List.cons_append, transformLoop, Bool.false_eq_true, ↓reduceIte, hz, mul_one]
    simp

open IkProblem in
theorem point_roll (z : Bool) (q1 q2 q3 q4 q5 : ℝ) (v : Vec3) :
    (teoProblem.transformPoint [0, q1, q2, q3, q4, q5] (if z = true then [.computed, .computed, .computed, .computed, .computed, .unknown]
      else [.computed, .computed, .computed, .computed, .computed, .known])).act v = v := by
  have hz : ∀ e : MatrixExp, e.asFrame (-0) = 1 := fun e => by rw [neg_zero]; exact MatrixExp.asFrame_zero e
  rw [point_frame]
  cases z <;>
  · simp only [List.zip_cons_cons, List.zip_nil_left, List.reverse_cons, List.reverse_nil, List.nil_append,
      List.cons_append, transformLoop, Bool.false_eq_true, ↓reduceIte, hz, mul_one]
    simp

open IkProblem in
theorem bent_branch {ks : List ℕ} (hks : Choices [2, 2, 2, 1] ks) :
    ∃ oks q, runBranch teoProblem ((teoSteps.map S.real).map fun s => (s.toStep, s.ids)) ks true true
        (List.replicate 6 .unknown) (List.replicate 6 0) bent = some (oks, q) ∧ ∀ o ∈ oks, o = true := by
  have hn : teoProblem.poe.exps.length = 6 := by rw [back_terms]; rfl
  have hrev : teoProblem.reversed = true := rfl
  unfold Choices at hks
  obtain ⟨k0, k1, k2, k3, rfl⟩ : ∃ k0 k1 k2 k3, ks = [k0, k1, k2, k3] := by
    match ks, hks with
    | [k0, k1, k2, k3], _ => exact ⟨k0, k1, k2, k3, rfl⟩
  simp only [List.forall₂_cons, List.forall₂_nil_right_iff, and_true] at hks
  obtain ⟨h0, h1, h2, h3⟩ := hks
  rw [real_steps]
  simp only [List.map_cons, List.map_nil]
  have hz : ∀ e : MatrixExp, e.asFrame (-0) = 1 := fun e => by rw [neg_zero]; exact MatrixExp.asFrame_zero e
  -- the elbow
  obtain ⟨t2, hl1, hc2, hs2⟩ : ∃ t2 : ℝ, ([[(2, -(π / 2))], [(2, π / 2)]] : List LocalSol)[k0]? = some [(2, t2)] ∧
      cos t2 = 0 ∧ (sin t2 = 1 ∨ sin t2 = -1) := by
    match k0, h0 with
    | 0, _ => exact ⟨_, rfl, by simp, by simp⟩
    | 1, _ => exact ⟨_, rfl, by simp, by simp⟩
  refine branch_cons (ts1 := List.replicate 6 .unknown) (F1 := bent) (q1 := [0, 0, 0, -t2, 0, 0]) rfl rfl ?_ hl1
    (by rw [hn, hrev]; rfl) fun z1 => ?_
  · rw [if_pos rfl, show (List.replicate 6 (0 : ℝ)) = [0, 0, 0, 0, 0, 0] from rfl, point_frame]
    simp only [List.replicate, List.zip_cons_cons, List.zip_nil_left, List.reverse_cons, List.reverse_nil, List.nil_append,
      List.cons_append, transformLoop, Bool.false_eq_true, ↓reduceIte]
    exact bent_elbow (by rw [bent_act]; norm_num)
  -- the wrist
  have hH : ∀ z : Bool, (teoProblem.transformPoint [0, 0, 0, -t2, 0, 0] (if z = true then [.unknown, .unknown, .known, .unknown, .unknown, .unknown]
      else [.known, .known, .known, .unknown, .unknown, .unknown])).act ⟨0.63401, 0, 0⟩ = ⟨0.305, sin t2 * 0.32901, 0⟩ := by
    intro z
    have key : ((aboutZ 0.305).asFrame t2).act ⟨0.63401, 0, 0⟩ = ⟨0.305, sin t2 * 0.32901, 0⟩ := by
      rw [actZ, hc2]
      ext <;> norm_num
    rw [point_frame]
    cases z <;>
    · simp only [List.zip_cons_cons, List.zip_nil_left, List.reverse_cons, List.reverse_nil, List.nil_append,
        List.cons_append, transformLoop, Bool.false_eq_true, ↓reduceIte, neg_neg, hz, one_mul, mul_one]
      exact key
  obtain ⟨ψ, τ, τ', w1, w2, w3, w4, w5, w6, w7⟩ := bent_wrist hs2 (F := bent) (by rw [bent_act]; norm_num) (hH z1)
  obtain ⟨ψa, τa, hl2, hB, b1, b2⟩ : ∃ ψa τa : ℝ, ([[(0, ψ), (1, τ)], [(0, 0), (1, τ')]] : List LocalSol)[k1]? = some [(0, ψa), (1, τa)] ∧
      ((aboutZ 0.09).asFrame ψa).act ⟨0.305, cos τa * (sin t2 * 0.32901), 0⟩ = ⟨0.305, 0.32901, 0⟩ ∧
      sin τa = 0 ∧ (cos τa = 1 ∨ cos τa = -1) := by
    have hsq : sin t2 * sin t2 = 1 := by rcases hs2 with h | h <;> rw [h] <;> norm_num
    match k1, h1 with
    | 0, _ =>
      refine ⟨_, _, rfl, ?_, w4, ?_⟩
      · rw [actZ, w5, show -sin t2 * (sin t2 * 0.32901) = -0.32901 by linear_combination (-0.32901) * hsq]
        ext
        · simp only
          norm_num at w2 w3 ⊢
          linarith
        · simp only
          norm_num at w2 w3 ⊢
          linarith
        · rfl
      · rw [w5]; rcases hs2 with h | h <;> rw [h] <;> norm_num
    | 1, _ =>
      refine ⟨_, _, rfl, ?_, w6, ?_⟩
      · rw [actZ, w7, cos_zero, sin_zero, show sin t2 * (sin t2 * 0.32901) = 0.32901 by linear_combination 0.32901 * hsq]
        ext <;> norm_num
      · rw [w7]; exact hs2
  refine branch_cons (ts1 := [.unknown, .unknown, .known, .unknown, .unknown, .unknown]) (F1 := bent) (q1 := [0, 0, 0, -t2, -τa, -ψa])
    rfl ?_ w1 hl2 (by rw [hn, hrev]; rfl) fun z2 => ?_
  · exact rebase_elbow _ _
  -- the shoulder
  set B : Frame := (aboutZ 0.09).asFrame ψa * ((aboutX 0.305).asFrame τa * ((aboutZ 0.305).asFrame t2 * 1)) with hBdef
  have rB : B.IsRigid := (MatrixExp.asFrame_rigid (aboutZ_unit _) _).mul ((MatrixExp.asFrame_rigid (aboutX_unit _) _).mul
    ((MatrixExp.asFrame_rigid (aboutZ_unit _) _).mul Frame.IsRigid.one))
  have actB : ∀ v : Vec3, (B.act v).z = cos τa * v.z := by
    rintro ⟨x, y, z⟩
    rw [hBdef, mul_one, Frame.act_mul, Frame.act_mul, actZ 0.305, actX, actZ, b1]
    simp
  have cc : cos τa * cos τa = 1 := by rcases b2 with h | h <;> rw [h] <;> norm_num
  have hS : ∀ h : ℝ, B.act ⟨0.63401, 0, cos τa * h⟩ = bent.act ⟨0.63401, 0, h⟩ := by
    intro h
    rw [hBdef, mul_one, Frame.act_mul, Frame.act_mul, actZ 0.305, actX, b1, hc2, bent_act]
    rw [show (⟨0.305 + 0 * (0.63401 - 0.305) - sin t2 * 0, cos τa * (sin t2 * (0.63401 - 0.305) + 0 * 0) - 0 * (cos τa * h),
      0 * (sin t2 * (0.63401 - 0.305) + 0 * 0) + cos τa * (cos τa * h)⟩ : Vec3) = ⟨0.305, cos τa * (sin t2 * 0.32901), h⟩ by
        ext
        · norm_num
        · norm_num
        · simp only; linear_combination h * cc]
    rw [actZ] at hB ⊢
    have hx := congrArg Vec3.x hB
    have hy := congrArg Vec3.y hB
    simp only at hx hy
    ext
    · simp only; linarith
    · simp only; linarith
    · rfl
  set F1 : Frame := B.inv * bent * Frame.inv 1 with hF1
  have hF1S : ∀ h : ℝ, F1.act ⟨0.63401, 0, h⟩ = ⟨0.63401, 0, cos τa * h⟩ := by
    intro h
    rw [hF1, Frame.inv_one, mul_one, Frame.act_mul, ← hS, rB.act_inv_act]
  have rF1 : F1.IsRigid := (rB.inv.mul (MatrixExp.asFrame_rigid (aboutZ_unit _) _)).mul Frame.IsRigid.one.inv
  have hF10 : (F1.act 0).z = 0 := by
    have h : B.act (F1.act 0) = bent.act 0 := by
      rw [hF1, Frame.inv_one, mul_one, Frame.act_mul B.inv, rB.act_act_inv]
    have h' : (bent.act 0).z = 0 := by rw [show (0 : Vec3) = ⟨0, 0, 0⟩ from rfl, bent_act]
    rw [← h, actB] at h'
    rcases b2 with g | g <;> rw [g] at h' <;> linarith
  obtain ⟨τ, υ, τ', υ', s1, s2⟩ := bent_shoulder (h := 54796144293 / 214748364700) (by norm_num) b2 (hF1S _) (point_shoulder z2 (-t2) (-τa) (-ψa) _)
  obtain ⟨τb, υb, hl3, d1, d2, d3, d4⟩ : ∃ τb υb : ℝ, ([[(3, τ), (4, υ)], [(3, τ'), (4, υ')]] : List LocalSol)[k2]? = some [(3, τb), (4, υb)] ∧
      sin τb = 0 ∧ cos τb ≠ 0 ∧ sin υb = 0 ∧ cos υb ≠ 0 := by
    have hne : cos τa ≠ 0 := by rcases b2 with h | h <;> rw [h] <;> norm_num
    obtain ⟨s2, s3, s4, s5, s6, s7, s8, s9⟩ := s2
    match k2, h2 with
    | 0, _ => exact ⟨_, _, rfl, s2, by rw [s3]; simpa using hne, s4, by rw [s5]; norm_num⟩
    | 1, _ => exact ⟨_, _, rfl, s6, by rw [s7]; exact hne, s8, by rw [s9]; norm_num⟩
  refine branch_cons (ts1 := [.computed, .computed, .computed, .unknown, .unknown, .unknown]) (F1 := F1)
    (q1 := [0, -υb, -τb, -t2, -τa, -ψa]) rfl ?_ s1 hl3 (by rw [hn, hrev]; rfl) fun z3 => ?_
  · exact rebase_wrist _ _ _ _ _ _ _
  -- the roll
  set C : Frame := (aboutX 0.63401).asFrame τb * ((aboutY 0.63401).asFrame υb * 1) with hCdef
  have rC : C.IsRigid := (MatrixExp.asFrame_rigid (aboutX_unit _) _).mul ((MatrixExp.asFrame_rigid (aboutY_unit _) _).mul Frame.IsRigid.one)
  have hC : ∀ v : Vec3, (C.act v).z = cos τb * (cos υb * v.z) := by
    rintro ⟨x, y, z⟩
    rw [hCdef, mul_one, Frame.act_mul, actY, actX, d1, d3]
    simp
  have hCS : C.act ⟨0.63401, 0, 0⟩ = ⟨0.63401, 0, 0⟩ := by
    rw [hCdef, mul_one, Frame.act_mul, actY, actX, d1, d3]
    ext <;> simp
  set F2 : Frame := C.inv * F1 * Frame.inv 1 with hF2
  have hw : (F2.act 0).z = 0 := by
    have h : C.act (F2.act 0) = F1.act 0 := by
      rw [hF2, Frame.inv_one, mul_one, Frame.act_mul C.inv, rC.act_act_inv]
    have h' := hC (F2.act 0)
    rw [h, hF10] at h'
    have := mul_eq_zero.mp h'.symm
    rcases this with g | g
    · exact absurd g d2
    · rcases mul_eq_zero.mp g with g | g
      · exact absurd g d4
      · exact g
  have hF2S : F2.act ⟨0.63401, 0, 0⟩ = ⟨0.63401, 0, 0⟩ := by
    have := hF1S 0
    rw [mul_zero] at this
    rw [hF2, Frame.inv_one, mul_one, Frame.act_mul, this]
    conv_lhs => rw [← hCS]
    exact rC.act_inv_act _
  have rF2 : F2.IsRigid := (rC.inv.mul rF1).mul Frame.IsRigid.one.inv
  have hd : (F2.act 0 - ⟨0.63401, 0, 0⟩).norm = 0.63401 := by
    have := rF2.dist 0 ⟨0.63401, 0, 0⟩
    rw [hF2S] at this
    rw [this, show (0 : Vec3) - ⟨0.63401, 0, 0⟩ = ⟨-0.63401, 0, 0⟩ by ext <;> simp, norm_x, abs_neg]
    exact abs_of_pos (by norm_num)
  obtain ⟨φ, hφ⟩ := bent_roll (F := F2) rfl (point_roll z3 (-υb) (-τb) (-t2) (-τa) (-ψa) 0) hw hd
  have hl4 : ([[(5, φ)]] : List LocalSol)[k3]? = some [(5, φ)] := by
    match k3, h3 with
    | 0, _ => rfl
  refine branch_cons (ts1 := [.computed, .computed, .computed, .computed, .computed, .unknown]) (F1 := F2)
    rfl ?_ hφ hl4 rfl fun z4 => ⟨[], _, rfl, by simp⟩
  · exact rebase_shoulder _ _ _ _ _ _ _

/-- With the elbow bent by a right angle, the inverse kinematics tells that the pose is within reach. -/
theorem bent_reachable {out T : Frame} (hT : teoLeftArm.evaluate [0, 0, 0, -(π / 2), 0, 0] out = (true, T)) :
    ∃ sols, teoProblem.solve T [] = some (true, sols) := by
  have hwf := C19_built_problem_wellformed _ _ teo_unit teo_rigid _ _ teo_build (teo_margin teo_build)
  obtain ⟨ok, sols, g1, -, -, g4⟩ := IkProblem.solve_eq hwf.stepsPair hwf.stepsOK T []
  have hn : teoProblem.poe.exps.length = 6 := by rw [back_terms]; rfl
  obtain ⟨-, hg⟩ := goal_of_posture teo_unit teo_rigid (pb := teoProblem) (Or.inr ⟨rfl, rfl⟩) hT
  have hF : teoProblem.initialRhs T = bent := by
    have : teoProblem.initialRhs T = teoProblem.goal T * teoProblem.poe.tool.inv := rfl
    rw [this, ← hg, back_terms]
    unfold IkProblem.values
    rw [if_pos (show teoProblem.reversed = true from rfl)]
    simp [Poe.expProd, bent, MatrixExp.asFrame_zero]
  rw [hF, hn] at g4
  refine ⟨sols, ?_⟩
  rw [g1, g4.mpr fun ks hks => bent_branch ?_]
  simpa [real_steps, Subproblem.toStep, Subproblem.count] using hks

end KD.StDemo
