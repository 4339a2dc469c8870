import Verif.Ctrl.Trajectory
import Verif.Kdl.PathLemmas
import Verif.Props.VisualServo
import Verif.Props.FtCompensation
import Verif.Props.Tracking
import Verif.Props.KeyboardThread

/-!
# C76: linear movements go straight to the target; C77: velocity movements keep the velocity
-/

namespace KD.Ctrl

open Real Mat3 Prog

/-! ## Specification -/

/-- From the pose `a` to the pose `b` along a straight line, and turning about a fixed axis by the shortest way, both
in the same proportion `k`, which never decreases. -/
def GoesStraight (a b : Frame) (traj : Traj) : Prop :=
  ∃ (r : Vec3) (k : ℝ → ℝ), a.M * expRot r = b.M ∧ r.norm ≤ π ∧ Monotone k ∧ (∀ t ≤ 0, k t = 0) ∧
    (∀ t, traj.duration ≤ t → k t = 1) ∧
    ∀ t, traj.pos t = ⟨a.M * expRot (k t • r), a.p + k t • (b.p - a.p)⟩

/-- The velocity that goes with the pose, without jumps and within limits. -/
structure Smooth (traj : Traj) (speed accel : ℝ) : Prop where
  moves : ∀ t, Frame.MovesWith traj.pos (traj.vel t) t
  rest : ∀ t, t ≤ 0 ∨ traj.duration ≤ t → traj.vel t = 0
  slow : ∀ t, (traj.vel t).vel.norm ≤ speed ∧ (traj.vel t).rot.norm ≤ speed
  soft : ∀ s t, ((traj.vel t).vel - (traj.vel s).vel).norm ≤ accel * |t - s| ∧
    ((traj.vel t).rot - (traj.vel s).rot).norm ≤ accel * |t - s|

/-- Shortest time to cover a distance from rest to rest with speed and acceleration up to 10 units. -/
noncomputable def shortest (l : ℝ) : ℝ :=
  open Classical in
  if 10 < l then 1 + l / 10 else 2 * √(l / 10)

/-- Angle of a rotation. -/
noncomputable def angleOf (m : Mat3) : ℝ := arccos m.cosAngle

/-- Displacements that KDL can tell the direction of. -/
def Clear (v : Vec3) : Prop := v = 0 ∨ eps ≤ v.norm

/-! ## Lemmas -/

theorem set_duration {l : ℝ} (hl : 0 ≤ l) : (Trap.set 10 10 0 l).duration = shortest l := by
  unfold Trap.set shortest
  simp only [sub_zero, if_neg (not_lt.mpr hl), one_mul, div_one]
  by_cases h : 10 < l
  · rw [if_pos (by norm_num; linarith), if_pos h]
    simp only [Trap.poly]
    norm_num
    ring
  · rw [if_neg (by norm_num; linarith), if_neg h]
    simp only [Trap.poly]
    ring

theorem shortest_pos {l : ℝ} (hl : 0 < l) : 0 < shortest l := by
  unfold shortest
  split_ifs
  · linarith
  · have := Real.sqrt_pos.mpr (show 0 < l / 10 by linarith)
    linarith

/-- The trajectory of a movement: how far along the path. -/
theorem line_motion {a b : Frame} {T : ℝ} (hT : 0 < T) : ∃ (x v : ℝ → ℝ),
    let path := PathLine.between a b 1
    line? a b T = some (.segment path (max T (shortest path.length)) x v) ∧
    Trap.Motion 10 10 path.length (max T (shortest path.length)) x v ∧ ∀ t, 0 ≤ v t := by
  dsimp only
  set path := PathLine.between a b 1 with hpath
  have hl : path.length = _ := (PathLine.make_pos (Vec3.norm_nonneg _) a.p b.p).1
  have hl0 : 0 ≤ path.length := by rw [hl]; exact le_max_of_le_left (Vec3.norm_nonneg _)
  unfold line?
  rcases hl0.eq_or_lt with h0 | h0
  · obtain ⟨p, h1, h2, h3⟩ := Trap.setDuration_still (V := 10) (A := 10) (by norm_num) (by norm_num) hT
    have hs : shortest path.length = 0 := by rw [← h0]; simp [shortest]
    have hx : p.pos = fun _ => 0 := funext fun t => (h2 t).1
    have hv : p.vel = fun _ => 0 := funext fun t => (h2 t).2
    refine ⟨p.pos, p.vel, ?_, ?_, fun t => (h2 t).2.ge⟩
    · rw [hs, max_eq_left hT.le]
      show (Trap.setDuration 10 10 0 path.length T).map _ = _
      rw [← h0, h1, ← h3]
      rfl
    · rw [hx, hv, ← h0]
      exact ⟨fun t => hasDerivAt_const _ _, by norm_num, fun s t => by simp, fun _ _ => ⟨rfl, rfl⟩,
        fun _ _ => ⟨rfl, rfl⟩⟩
  · obtain ⟨p, h1, h2, h3, h4, h5⟩ := Trap.setDuration_motion (V := 10) (A := 10) (by norm_num) (by norm_num) h0 hT
    rw [set_duration h0.le] at h5
    refine ⟨p.pos, p.vel, ?_, h5 ▸ h2, h3⟩
    rw [← h5]
    show (Trap.setDuration 10 10 0 path.length T).map _ = _
    rw [h1]
    rfl

theorem Motion.mono {V A L D : ℝ} {x v : ℝ → ℝ} (h : Trap.Motion V A L D x v) (h0 : ∀ t, 0 ≤ v t) : Monotone x :=
  monotone_of_deriv_nonneg (fun t => (h.deriv t).differentiableAt) fun t => by rw [(h.deriv t).deriv]; exact h0 t

theorem between_length (a b : Frame) :
    (PathLine.between a b 1).length = max (b.p - a.p).norm (a.M.transpose * b.M).getRot.norm :=
  (PathLine.make_pos (Vec3.norm_nonneg _) a.p b.p).1

theorem angleOf_getRot {m : Mat3} (h : m.IsRot) (hr : m.Regular) : m.getRot.norm = angleOf m := by
  obtain ⟨h1, h2, h3, h4, h5⟩ := h.getRotAngle_spec hr
  rw [h.norm_getRot hr, angleOf, ← h5, arccos_cos h2 h3]

/-- Where the path leads, for poses that KDL tells apart. -/
theorem between_pos {a b : Frame} (ha : a.IsRigid) (hb : b.IsRigid) (hr : (a.M.transpose * b.M).Regular)
    (hd : Clear (b.p - a.p)) (hl : 0 < (PathLine.between a b 1).length) {u : ℝ} (hu : 0 ≤ u) :
    (PathLine.between a b 1).pos (u * (PathLine.between a b 1).length) =
      ⟨a.M * expRot (u • (a.M.transpose * b.M).getRot), a.p + u • (b.p - a.p)⟩ := by
  obtain ⟨-, h2, -⟩ := PathLine.make_pos (o := SingleAxis.between a.M b.M) (Vec3.norm_nonneg _) a.p b.p
  have := (h2 hl).1 u
  refine this.trans ?_
  have hm := (Mat3.IsRot.transpose ha).mul hb
  have h3 := Vec3.norm_smul_normalize (hm.getRot_cases hr)
  congr 1
  · unfold SingleAxis.pos SingleAxis.between
    simp only
    congr 1
    rw [← expRot_smul (Vec3.normalize_unit _) (mul_nonneg hu (Vec3.norm_nonneg _)), ← smul_smul, h3]
  · rw [← smul_smul, Vec3.norm_smul_normalize hd]

theorem line_straight {a b : Frame} {T : ℝ} (ha : a.IsRigid) (hb : b.IsRigid)
    (hr : (a.M.transpose * b.M).Regular) (hd : Clear (b.p - a.p)) (hT : 0 < T) :
    ∃ traj, line? a b T = some traj ∧ GoesStraight a b traj := by
  obtain ⟨x, v, h1, h2, h3⟩ := line_motion (a := a) (b := b) hT
  refine ⟨_, h1, ?_⟩
  set path := PathLine.between a b 1 with hpath
  have hlen : path.length = _ := between_length a b
  have hm := (Mat3.IsRot.transpose ha).mul hb
  have hturn : a.M * expRot (a.M.transpose * b.M).getRot = b.M := by
    rw [hm.expRot_getRot hr, ← mul_assoc, Mat3.IsRot.right ha, one_mul]
  have hmono := Motion.mono h2 h3
  have hl0 : 0 ≤ path.length := by rw [hlen]; exact le_max_of_le_left (Vec3.norm_nonneg _)
  rcases hl0.eq_or_lt with h0 | h0
  · have hd0 : (b.p - a.p) = 0 := Vec3.norm_eq_zero (le_antisymm (by rw [h0, hlen]; exact le_max_left _ _)
      (Vec3.norm_nonneg _))
    have hr0 : (a.M.transpose * b.M).getRot = 0 := Vec3.norm_eq_zero (le_antisymm
      (by rw [h0, hlen]; exact le_max_right _ _) (Vec3.norm_nonneg _))
    have hx : ∀ t, x t = 0 := by
      intro t
      rcases le_total t 0 with ht | ht
      · exact (h2.before t ht).1
      · refine le_antisymm ?_ ?_
        · have := hmono (le_max_left t (max T (shortest path.length)))
          rw [(h2.after _ (le_max_right _ _)).1, ← h0] at this
          exact this
        · have := hmono ht
          rwa [(h2.before 0 le_rfl).1] at this
    refine ⟨_, fun t => if t ≤ 0 then 0 else 1, hturn, hm.norm_getRot_le hr, ?_, fun t ht => if_pos ht, fun t ht => ?_,
      fun t => ?_⟩
    · intro s t hst
      by_cases h1 : t ≤ 0
      · simp only [if_pos h1, if_pos (hst.trans h1), le_refl]
      · simp only [if_neg h1]
        split_ifs <;> norm_num
    · have : T ≤ t := (le_max_left _ _).trans ht
      exact if_neg (by linarith)
    · show path.pos (x t) = _
      rw [hx, hr0, hd0]
      have := (PathLine.make_pos (o := SingleAxis.between a.M b.M) (Vec3.norm_nonneg _) a.p b.p).2.2
      refine this.trans ?_
      have e1 : ∀ k : ℝ, k • (0 : Vec3) = 0 := fun k => by ext <;> simp
      rw [e1, expRot_zero]
      congr 1
      · simp [SingleAxis.pos, SingleAxis.between, rot2_zero]
      · ext <;> simp
  · refine ⟨_, fun t => x t / path.length, hturn, hm.norm_getRot_le hr, ?_, fun t ht => ?_, fun t ht => ?_, fun t => ?_⟩
    · intro s t hst
      exact div_le_div_of_nonneg_right (hmono hst) h0.le
    · simp only [(h2.before t ht).1, zero_div]
    · simp only [(h2.after t ht).1, div_self h0.ne']
    · have hx0 : 0 ≤ x t := by
        rcases le_total t 0 with ht | ht
        · exact (h2.before t ht).1.ge
        · have := hmono ht
          rwa [(h2.before 0 le_rfl).1] at this
      have := between_pos ha hb hr hd h0 (div_nonneg hx0 h0.le)
      rw [div_mul_cancel₀ _ h0.ne'] at this
      exact this

/-- Norms of the velocity along a path. -/
theorem between_speed {a b : Frame} (ha : a.IsRigid) (sd : ℝ) :
    ((PathLine.between a b 1).vel sd).vel.norm ≤ |sd| ∧ ((PathLine.between a b 1).vel sd).rot.norm ≤ |sd| ∨
      (PathLine.between a b 1).length = 0 := by
  obtain ⟨h1, h2, -⟩ := PathLine.make_pos (o := SingleAxis.between a.M b.M) (Vec3.norm_nonneg _) a.p b.p
  have hl0 : 0 ≤ (PathLine.between a b 1).length := by
    rw [between_length]; exact le_max_of_le_left (Vec3.norm_nonneg _)
  rcases hl0.eq_or_lt with h0 | h0
  · exact Or.inr h0.symm
  left
  have h3 : (PathLine.between a b 1).vel (sd / (PathLine.between a b 1).length * (PathLine.between a b 1).length) = _ :=
    (h2 h0).2 (sd / (PathLine.between a b 1).length)
  rw [div_mul_cancel₀ _ h0.ne'] at h3
  rw [h3]
  have hn : ∀ v : Vec3, v.normalize.norm = 1 := fun v => by rw [Vec3.norm, Vec3.normalize_unit, Real.sqrt_one]
  have hb : ∀ d : ℝ, 0 ≤ d → d ≤ (PathLine.between a b 1).length →
      |sd / (PathLine.between a b 1).length * d| ≤ |sd| := by
    intro d hd hle
    rw [abs_mul, abs_div, abs_of_pos h0, abs_of_nonneg hd, div_mul_eq_mul_div, div_le_iff₀ h0]
    exact mul_le_mul_of_nonneg_left hle (abs_nonneg _)
  constructor
  · show (_ • _ : Vec3).norm ≤ _
    rw [Vec3.norm_smul, hn, mul_one]
    exact hb _ (Vec3.norm_nonneg _) (by rw [between_length]; exact le_max_left _ _)
  · show (a.M.mulVec (_ • Vec3.normalize _)).norm ≤ _
    rw [Mat3.IsRot.norm ha, Vec3.norm_smul, hn, mul_one]
    exact hb _ (Vec3.norm_nonneg _) (by rw [between_length]; exact le_max_right _ _)

theorem line_smooth {a b : Frame} {T : ℝ} (ha : a.IsRigid) (hT : 0 < T) :
    ∃ traj, line? a b T = some traj ∧ Smooth traj 10 10 ∧ (∀ t ≤ 0, traj.pos t = a) ∧
      traj.duration = max T (shortest (PathLine.between a b 1).length) := by
  obtain ⟨x, v, h1, h2, h3⟩ := line_motion (a := a) (b := b) hT
  refine ⟨_, h1, ?_, ?_, rfl⟩
  · have hv0 : ∀ path : PathLine, path.vel 0 = 0 := by
      intro path
      ext <;> simp [PathLine.vel, SingleAxis.vel]
    have hsub : ∀ (path : PathLine) (p q : ℝ), (path.vel p).vel - (path.vel q).vel = (path.vel (p - q)).vel ∧
        (path.vel p).rot - (path.vel q).rot = (path.vel (p - q)).rot := by
      intro path p q
      constructor <;> ext <;> simp [PathLine.vel, SingleAxis.vel] <;> ring
    have hnull : (PathLine.between a b 1).length = 0 → ∀ t, v t = 0 := by
      intro hl t
      rw [hl] at h2
      have hx : x = fun _ => 0 := by
        funext t
        have hmono := Motion.mono h2 h3
        rcases le_total t 0 with ht | ht
        · exact (h2.before t ht).1
        · refine le_antisymm ?_ ?_
          · have := hmono (le_max_left t (max T (shortest 0)))
            rwa [(h2.after _ (le_max_right _ _)).1] at this
          · have := hmono ht
            rwa [(h2.before 0 le_rfl).1] at this
      have := h2.deriv t
      rw [hx] at this
      exact this.unique (hasDerivAt_const _ _)
    have hn0 : (0 : Twist).vel.norm = 0 ∧ (0 : Twist).rot.norm = 0 := ⟨Vec3.norm_zero, Vec3.norm_zero⟩
    refine ⟨fun t => ?_, fun t ht => ?_, fun t => ?_, fun s t => ?_⟩
    · have hm := (PathLine.movesWith (PathLine.between a b 1) (by
        unfold PathLine.between PathLine.make
        dsimp only
        split_ifs <;> exact Vec3.normalize_unit _) (by
        unfold PathLine.between PathLine.make
        dsimp only
        split_ifs <;> exact ha) (x t)).comp_fun (h2.deriv t)
      rw [PathLine.vel_smul] at hm
      exact hm
    · have : v t = 0 := by
        rcases ht with ht | ht
        · exact (h2.before t ht).2
        · exact (h2.after t ht).2
      show PathLine.vel _ (v t) = 0
      rw [this, hv0]
    · show (PathLine.vel _ (v t)).vel.norm ≤ _ ∧ (PathLine.vel _ (v t)).rot.norm ≤ _
      rcases between_speed (b := b) ha (v t) with ⟨g1, g2⟩ | g
      · exact ⟨g1.trans (h2.slow t), g2.trans (h2.slow t)⟩
      · rw [hnull g, hv0, hn0.1, hn0.2]; norm_num
    · show ((PathLine.vel _ (v t)).vel - (PathLine.vel _ (v s)).vel).norm ≤ _ ∧
        ((PathLine.vel _ (v t)).rot - (PathLine.vel _ (v s)).rot).norm ≤ _
      rw [(hsub _ _ _).1, (hsub _ _ _).2]
      rcases between_speed (b := b) ha (v t - v s) with ⟨g1, g2⟩ | g
      · exact ⟨g1.trans (h2.soft s t), g2.trans (h2.soft s t)⟩
      · rw [hnull g, hnull g, sub_zero, hv0, hn0.1, hn0.2]; constructor <;> positivity
  · intro t ht
    show PathLine.pos _ (x t) = a
    rw [(h2.before t ht).1]
    refine ((PathLine.make_pos (o := SingleAxis.between a.M b.M) (Vec3.norm_nonneg _) a.p b.p).2.2).trans ?_
    simp [SingleAxis.pos, SingleAxis.between, rot2_zero]

/-! ## C76 -/

/-- **C76.** From any pose to any target that KDL tells apart from it, and for any duration, the trajectory of a linear
movement goes straight to the target. Partial: `Clear` leaves out displacements shorter than a millionth, and `Regular`
rotations by less than a millionth of a radian and those that are that close to a half turn without being one. -/
theorem C76_straight_partial {a b : Frame} {T : ℝ} (ha : a.IsRigid) (hb : b.IsRigid)
    (hr : (a.M.transpose * b.M).Regular) (hd : Clear (b.p - a.p)) (hT : 0 < T) :
    ∃ traj, line? a b T = some traj ∧ GoesStraight a b traj :=
  line_straight ha hb hr hd hT

/-- **C76.** Whatever the target, the trajectory of a linear movement starts at the pose of the robot, from rest, ends at
rest, has no jumps, and the velocities handed to the solver are those of its poses. Neither linear nor angular speeds
and accelerations exceed 10 units. -/
theorem C76_smooth {a b : Frame} {T : ℝ} (ha : a.IsRigid) (hT : 0 < T) :
    ∃ traj, line? a b T = some traj ∧ Smooth traj 10 10 ∧ ∀ t ≤ 0, traj.pos t = a := by
  obtain ⟨traj, h1, h2, h3, -⟩ := line_smooth (b := b) ha hT
  exact ⟨traj, h1, h2, h3⟩

/-- **C76.** A linear movement takes the time it is asked to, or the shortest possible if there is not enough. -/
theorem C76_duration {a b : Frame} {T : ℝ} (ha : a.IsRigid) (hb : b.IsRigid)
    (hr : (a.M.transpose * b.M).Regular) (hT : 0 < T) :
    ∃ traj, line? a b T = some traj ∧
      traj.duration = max T (shortest (max (b.p - a.p).norm (angleOf (a.M.transpose * b.M)))) := by
  obtain ⟨traj, h1, -, -, h4⟩ := line_smooth (b := b) ha hT
  rw [between_length, angleOf_getRot ((Mat3.IsRot.transpose ha).mul hb) hr] at h4
  exact ⟨traj, h1, h4⟩

/-- **C76.** `shortest` is the shortest: no way to cover the distance `l` from rest to rest, with speed and acceleration
up to 10, takes less. -/
theorem C76_shortest {l D : ℝ} (hl : 0 < l) (hD : 0 ≤ D) {x v : ℝ → ℝ} (hx : ∀ t, HasDerivAt x (v t) t)
    (hv : ∀ t, |v t| ≤ 10) (ha : ∀ s t, |v t - v s| ≤ 10 * |t - s|) (h0 : ∀ t ≤ 0, x t = 0 ∧ v t = 0)
    (h1 : ∀ t, D ≤ t → x t = l ∧ v t = 0) : shortest l ≤ D := by
  rw [← set_duration hl.le]
  exact Trap.set_shortest (by norm_num) (by norm_num) hl hD ⟨hx, hv, ha, h0, h1⟩

/-- **C76.** Whatever the target, once the time is over the position is the one of the target up to two millionths. -/
theorem C76_end_position {a b : Frame} {T : ℝ} (ha : a.IsRigid) (hT : 0 < T) :
    ∃ traj, line? a b T = some traj ∧ ∀ t, traj.duration ≤ t → ((traj.pos t).p - b.p).norm < 2 * eps := by
  obtain ⟨x, v, h1, h2, h3⟩ := line_motion (a := a) (b := b) hT
  refine ⟨_, h1, fun t ht => ?_⟩
  show (((PathLine.between a b 1).pos (x t)).p - b.p).norm < _
  rw [(h2.after t ht).1]
  obtain ⟨-, g2, g3⟩ := PathLine.make_pos (o := SingleAxis.between a.M b.M) (Vec3.norm_nonneg _) a.p b.p
  have hl0 : 0 ≤ (PathLine.between a b 1).length := by
    rw [between_length]; exact le_max_of_le_left (Vec3.norm_nonneg _)
  have he : (0 : ℝ) < 2 * eps := by norm_num [eps]
  rcases hl0.eq_or_lt with h0 | h0
  · have hd0 : (b.p - a.p) = 0 := Vec3.norm_eq_zero (le_antisymm (by rw [h0, between_length]; exact le_max_left _ _)
      (Vec3.norm_nonneg _))
    have e : ((PathLine.between a b 1).pos 0).p = a.p := by
      have := congrArg Frame.p g3
      exact this
    rw [← h0, e]
    have : a.p - b.p = 0 := by
      have hx := congrArg Vec3.x hd0
      have hy := congrArg Vec3.y hd0
      have hz := congrArg Vec3.z hd0
      simp at hx hy hz
      ext <;> simp <;> linarith
    rw [this, Vec3.norm_zero]
    exact he
  · have e : ((PathLine.between a b 1).pos (1 * (PathLine.between a b 1).length)).p =
        a.p + (1 * (b.p - a.p).norm) • (b.p - a.p).normalize := congrArg Frame.p ((g2 h0).1 1)
    rw [one_mul, one_mul] at e
    rw [e]
    by_cases hc : eps ≤ (b.p - a.p).norm
    · rw [Vec3.norm_smul_normalize (Or.inr hc)]
      have : a.p + (b.p - a.p) - b.p = 0 := by ext <;> simp
      rw [this, Vec3.norm_zero]
      exact he
    · push Not at hc
      have e2 : a.p + (b.p - a.p).norm • (b.p - a.p).normalize - b.p =
          (b.p - a.p).norm • (b.p - a.p).normalize + -(b.p - a.p) := by
        ext <;> simp <;> ring
      rw [e2]
      refine (Vec3.norm_add_le _ _).trans_lt ?_
      rw [Vec3.norm_neg, Vec3.norm_smul, abs_of_nonneg (Vec3.norm_nonneg _)]
      have hn : (b.p - a.p).normalize.norm = 1 := by rw [Vec3.norm, Vec3.normalize_unit, Real.sqrt_one]
      rw [hn]
      linarith

/-- The hypotheses of `C76_straight_partial` are met: a quarter of a turn about the z axis and one unit upwards. -/
example : (1 : Frame).IsRigid ∧ (⟨rotZ (π / 2), ⟨0, 0, 1⟩⟩ : Frame).IsRigid ∧
    ((1 : Frame).M.transpose * (⟨rotZ (π / 2), ⟨0, 0, 1⟩⟩ : Frame).M).Regular ∧
    Clear ((⟨rotZ (π / 2), ⟨0, 0, 1⟩⟩ : Frame).p - (1 : Frame).p) := by
  refine ⟨Frame.IsRigid.one, rotZ_isRot _, Or.inl ?_, Or.inr ?_⟩
  · have : (1 : Frame).M.transpose = 1 := by ext <;> simp
    rw [this, one_mul]
    simp [cosAngle, rotZ, eps]
    norm_num
  · norm_num [Vec3.norm, Vec3.dot, eps]

/-- C76 in its full form has no exceptions. A displacement of a tenth of a millionth along y goes along x instead. -/
theorem C76_tiny_astray : ∃ traj, line? 1 (Frame.trans ⟨0, 1 / 10000000, 0⟩) 1 = some traj ∧
    ∀ t, traj.duration ≤ t → (traj.pos t).p = ⟨1 / 10000000, 0, 0⟩ := by
  obtain ⟨x, v, h1, h2, h3⟩ := line_motion (a := 1) (b := Frame.trans ⟨0, 1 / 10000000, 0⟩) (T := 1) one_pos
  refine ⟨_, h1, fun t ht => ?_⟩
  have hd : (Frame.trans ⟨0, 1 / 10000000, 0⟩).p - (1 : Frame).p = ⟨0, 1 / 10000000, 0⟩ := by
    ext <;> simp [Frame.trans]
  have hn : (⟨0, 1 / 10000000, 0⟩ : Vec3).norm = 1 / 10000000 := by
    have : Vec3.dot ⟨0, 1 / 10000000, 0⟩ ⟨0, 1 / 10000000, 0⟩ = (1 / 10000000 : ℝ) ^ 2 := by
      simp [Vec3.dot]; norm_num
    rw [Vec3.norm, this, Real.sqrt_sq (by norm_num)]
  obtain ⟨-, g2, -⟩ := PathLine.make_pos (o := SingleAxis.between (1 : Frame).M (Frame.trans ⟨0, 1 / 10000000, 0⟩).M)
    (Vec3.norm_nonneg _) (1 : Frame).p (Frame.trans ⟨0, 1 / 10000000, 0⟩).p
  have h0 : 0 < (PathLine.between 1 (Frame.trans ⟨0, 1 / 10000000, 0⟩) 1).length := by
    rw [between_length, hd, hn]
    exact lt_max_of_lt_left (by norm_num)
  show ((PathLine.between 1 (Frame.trans ⟨0, 1 / 10000000, 0⟩) 1).pos (x t)).p = _
  rw [(h2.after t ht).1]
  have e : ((PathLine.between 1 (Frame.trans ⟨0, 1 / 10000000, 0⟩) 1).pos
      (1 * (PathLine.between 1 (Frame.trans ⟨0, 1 / 10000000, 0⟩) 1).length)).p = _ := congrArg Frame.p ((g2 h0).1 1)
  rw [one_mul] at e
  rw [e, hd, hn]
  have : (⟨0, 1 / 10000000, 0⟩ : Vec3).normalize = ⟨1, 0, 0⟩ := by
    unfold Vec3.normalize
    rw [hn, if_pos (by norm_num [eps])]
  rw [this]
  ext <;> simp

/-- With the duration that `open` takes from its configuration, which unlike the parameter may be negative, the movement
is over before it starts: the trajectory lasts less than no time, whatever the target. -/
theorem C76_negative_duration {a b : Frame} {T : ℝ} (hT : T < 0) :
    ∃ traj, line? a b T = some traj ∧ traj.duration = T := by
  unfold line? Trap.setDuration
  dsimp only
  have hl0 : 0 ≤ (PathLine.between a b 1).length := by
    rw [between_length]; exact le_max_of_le_left (Vec3.norm_nonneg _)
  have hs : 0 ≤ shortest (PathLine.between a b 1).length := by
    rcases hl0.eq_or_lt with h | h
    · rw [← h]; norm_num [shortest]
    · exact (shortest_pos h).le
  rw [if_neg hT.ne, set_duration hl0, if_neg]
  · exact ⟨_, rfl, rfl⟩
  · have := div_nonpos_of_nonneg_of_nonpos hs hT.le
    linarith

/-! ### The whole movement -/

/-- The coordinates of the `i`-th end effector. -/
noncomputable def poseOf (x : List ℝ) (i : ℕ) : Frame := KdlVectorConverter.vectorToFrame ((x.drop (6 * i)).take 6)

/-- The controller builds its linear trajectories with KDL. -/
def BuildsLines (cfg : Cfg) : Prop := ∀ a b T traj, line? a b T = some traj → cfg.line a b T = traj

/-- **C76.** Once `movl` was accepted, there is one trajectory for each end effector, from the pose that forward
kinematics gave to the target, straight, and every motion command of the loop until another movement is commanded
follows them, each at the time of the cycle. Partial: the same exceptions as `C76_straight_partial`, and with several
end effectors the commands cease when the first one arrives, see `C76_cut_short`. -/
theorem C76_movl_partial {cfg : Cfg} (hcfg : BuildsLines cfg) {xd : List ℝ} {s s' : Ctl} {tr : List Ev}
    (hT : 0 < s.duration) (h : Exec cfg (Op.prog cfg (.movl xd)) s tr (.ok (some true)) s') :
    ∃ (q x target : List ℝ) (paths : List Traj) (start : ℝ),
      Ev.getEncoders (some q) ∈ tr ∧ Ev.fwdKin q (some x) ∈ tr ∧ Ev.now start ∈ tr ∧
      (if s.frame = .tcp then Ev.changeOrigin xd x (some target) ∈ tr else target = xd) ∧
      paths.length = xd.length / 6 ∧
      (∀ i < xd.length / 6, ∃ traj, paths[i]? = some traj ∧ Smooth traj 10 10 ∧
        (∀ t ≤ 0, traj.pos t = poseOf x i) ∧
        (∀ t, traj.duration ≤ t → ((traj.pos t).p - (poseOf target i).p).norm < 2 * eps) ∧
        (((poseOf x i).M.transpose * (poseOf target i).M).Regular → Clear ((poseOf target i).p - (poseOf x i).p) →
          GoesStraight (poseOf x i) (poseOf target i) traj ∧
          traj.duration = max s.duration (shortest (max ((poseOf target i).p - (poseOf x i).p).norm
            (angleOf ((poseOf x i).M.transpose * (poseOf target i).M)))))) ∧
      ∀ ds s2, Hist cfg s' ds s2 → (∀ d ∈ ds, d.op.target = none) →
        ∀ d ∈ ds, d.op = .cycle → ∀ e ∈ d.calls, IsMotion e →
          Serves cfg ⟨s.gain * (1000 / s.cmcPeriodMs), s.frame⟩ (.line paths start) d.calls e := by
  obtain ⟨plan, hp, hs⟩ := C71_commands_serve_partial (st := .movl) rfl (by simp) h
  cases plan with
  | line paths start =>
    obtain ⟨xd', q, x, target, e, h1, h2, h3, h4, h5⟩ := hp
    cases e
    refine ⟨q, x, target, paths, start, h1, h2, h3, h4, h5.count, fun i hi => ?_, hs⟩
    obtain ⟨a, b, -, -, rfl, rfl, h6⟩ := h5.each i hi
    have ha : (poseOf x i).IsRigid := Sdc.vectorToFrame_isRigid _
    have hb : (poseOf target i).IsRigid := Sdc.vectorToFrame_isRigid _
    obtain ⟨traj, g1, g2, g3⟩ := C76_smooth (b := poseOf target i) ha hT
    refine ⟨traj, by rw [h6]; exact congrArg some (hcfg _ _ _ _ g1), g2, g3, ?_, fun hr hd => ⟨?_, ?_⟩⟩
    · obtain ⟨t2, k1, k2⟩ := C76_end_position (b := poseOf target i) ha hT
      rw [g1] at k1
      cases k1
      exact k2
    · obtain ⟨t2, k1, k2⟩ := C76_straight_partial ha hb hr hd hT
      rw [g1] at k1
      cases k1
      exact k2
    · obtain ⟨t2, k1, k2⟩ := C76_duration ha hb hr hT
      rw [g1] at k1
      cases k1
      exact k2
  | ray paths start => obtain ⟨_, _, _, e, -⟩ := hp; cases e
  | weight => cases hp
  | push f => cases hp

theorem abs_x_le_norm (v : Vec3) : |v.x| ≤ v.norm := by
  rw [Vec3.norm]
  refine Real.abs_le_sqrt ?_
  simp only [Vec3.dot]
  nlinarith [sq_nonneg v.y, sq_nonneg v.z]

theorem Smooth.slow_start {traj : Traj} {V : ℝ} (h : Smooth traj V 10) {t : ℝ} (ht : 0 ≤ t) :
    (traj.pos t).p.x ≤ (traj.pos 0).p.x + 5 * t ^ 2 := by
  have hd : ∀ t, HasDerivAt (fun t => 5 * t ^ 2 - (traj.pos t).p.x) (10 * t - (traj.vel t).vel.x) t := fun t =>
    ((((hasDerivAt_id t).pow 2).const_mul 5).sub (h.moves t).origin.1).congr_deriv (by simp; ring)
  have hm : MonotoneOn (fun t => 5 * t ^ 2 - (traj.pos t).p.x) (Set.Ici 0) := by
    refine monotoneOn_of_deriv_nonneg (convex_Ici 0) (fun t _ => (hd t).continuousAt.continuousWithinAt)
      (fun t _ => (hd t).differentiableAt.differentiableWithinAt) fun t ht => ?_
    rw [interior_Ici] at ht
    have ht : 0 < t := ht
    rw [(hd t).deriv]
    have h1 := (h.soft 0 t).1
    rw [h.rest 0 (Or.inl le_rfl), sub_zero, abs_of_pos ht] at h1
    have h2 := (abs_x_le_norm _).trans h1
    have h3 := le_abs_self ((traj.vel t).vel - (0 : Twist).vel).x
    simp at h3 h2
    linarith
  have := hm (Set.mem_Ici.mpr le_rfl) (Set.mem_Ici.mpr ht) ht
  simp only at this
  linarith

/-- Targets for two end effectors: the first one stays, the second goes one unit along x. -/
def stayAndGo : List ℝ := [0, 0, 0, 0, 0, 0, 1, 0, 0, 0, 0, 0]

/-- C76 in its full form makes each end effector reach its target. With two of them and a duration too short for one, it
does not: the commands cease once the other has arrived. Here the second end effector has to go one unit, the first
none, and a tenth of a second was asked for. No command of the movement asks the second one for more than a twentieth
of its way, and all of them are at most a tenth of a second after the start. -/
theorem C76_cut_short {cfg : Cfg} (hcfg : BuildsLines cfg) {s s' : Ctl} {tr : List Ev}
    (hT : s.duration = 1 / 10) (hf : s.frame = .base)
    (hx : ∀ q x, Ev.fwdKin q (some x) ∈ tr → x = [0, 0, 0, 0, 0, 0, 0, 0, 0, 0, 0, 0])
    (h : Exec cfg (Op.prog cfg (.movl stayAndGo)) s tr (.ok (some true)) s') :
    ∃ (p1 p2 : Traj) (start : ℝ), Ev.now start ∈ tr ∧ (∀ t, p2.duration ≤ t → (p2.pos t).p = ⟨1, 0, 0⟩) ∧
      1 / 2 < p2.duration ∧
      ∀ ds s2, Hist cfg s' ds s2 → (∀ d ∈ ds, d.op.target = none) →
        ∀ d ∈ ds, d.op = .cycle → ∀ e ∈ d.calls, IsMotion e → ∃ t, Ev.now t ∈ d.calls ∧ t - start ≤ 1 / 10 ∧
          (p2.pos (t - start)).p.x ≤ 1 / 20 ∧
          if cfg.usePosdMovl then PositionAt cfg (posesAt [p1, p2] (t - start)) d.calls e
          else VelocityTowards cfg (s.gain * (1000 / s.cmcPeriodMs)) .base (posesAt [p1, p2] (t - start))
            (twistsAt [p1, p2] (t - start)) d.calls e := by
  obtain ⟨q, x, target, paths, start, -, h2, h3, h4, h5, h6, h7⟩ := C76_movl_partial hcfg (by rw [hT]; norm_num) h
  have hx' := hx q x h2
  rw [hf, if_neg (by simp)] at h4
  subst hx' h4
  obtain ⟨p1, e1, -, -, -, g1⟩ := h6 0 (by simp [stayAndGo])
  obtain ⟨p2, e2, sm, at0, -, g2⟩ := h6 1 (by simp [stayAndGo])
  have hpaths : paths = [p1, p2] := by
    have hl : paths.length = 2 := by simpa [stayAndGo] using h5
    match paths, hl with
    | [a, b], _ => simp at e1 e2; rw [e1, e2]
  have hr0 : rot 0 0 = 1 := by simp [rot, rot2_zero]
  have z : (⟨0, 0, 0⟩ : Vec3) = 0 := rfl
  have f0 : poseOf [0, 0, 0, 0, 0, 0, 0, 0, 0, 0, 0, 0] 0 = 1 := by
    simp [poseOf, KdlVectorConverter.vectorToFrame, z, Vec3.norm_zero, hr0]
    rfl
  have f1 : poseOf [0, 0, 0, 0, 0, 0, 0, 0, 0, 0, 0, 0] 1 = 1 := by
    simp [poseOf, KdlVectorConverter.vectorToFrame, z, Vec3.norm_zero, hr0]
    rfl
  have f2 : poseOf stayAndGo 0 = 1 := by
    simp [poseOf, stayAndGo, KdlVectorConverter.vectorToFrame, z, Vec3.norm_zero, hr0]
    rfl
  have f3 : poseOf stayAndGo 1 = Frame.trans ⟨1, 0, 0⟩ := by
    simp [poseOf, stayAndGo, KdlVectorConverter.vectorToFrame, z, Vec3.norm_zero, hr0]
    rfl
  rw [f0, f2] at g1
  rw [f1, f3] at g2
  rw [f1] at at0
  have d1 : p1.duration = 1 / 10 := by
    have ht : (1 : Frame).M.transpose * (1 : Frame).M = 1 := (Frame.IsRigid.one : (1 : Frame).M.IsRot).left
    have hz : (1 : Frame).p - (1 : Frame).p = 0 := by ext <;> simp
    have hc : (1 : Mat3).cosAngle = 1 := by norm_num [cosAngle]
    have := (g1 (Or.inr (Or.inl (by rw [ht, hc]))) (Or.inl hz)).2
    rw [ht, hz, Vec3.norm_zero, angleOf, hc, arccos_one, max_self, hT] at this
    rw [this]
    norm_num [shortest]
  have hz2 : (Frame.trans ⟨1, 0, 0⟩).p - (1 : Frame).p = ⟨1, 0, 0⟩ := by ext <;> simp [Frame.trans]
  have hn2 : (⟨1, 0, 0⟩ : Vec3).norm = 1 := by simp [Vec3.norm, Vec3.dot]
  have ht2 : (1 : Frame).M.transpose * (Frame.trans ⟨1, 0, 0⟩).M = 1 :=
    (Frame.IsRigid.one : (1 : Frame).M.IsRot).left
  have hc : (1 : Mat3).cosAngle = 1 := by norm_num [cosAngle]
  obtain ⟨⟨r, k, -, -, -, -, k1, k2⟩, d2⟩ := g2 (Or.inr (Or.inl (by rw [ht2, hc])))
    (Or.inr (by rw [hz2, hn2]; norm_num [eps]))
  refine ⟨p1, p2, start, h3, fun t ht => ?_, ?_, fun ds s2 hist hno d hd hc e he hm => ?_⟩
  · rw [k2, k1 t ht, hz2]
    ext <;> simp
  · rw [d2]
    refine lt_max_of_lt_right ?_
    rw [hz2, hn2, ht2, angleOf, hc, arccos_one, max_eq_left zero_le_one, shortest, if_neg (by norm_num)]
    have : (1 / 4 : ℝ) < √(1 / 10) := Real.lt_sqrt_of_sq_lt (by norm_num)
    linarith
  · have := h7 ds s2 hist hno d hd hc e he hm
    rw [hpaths] at this
    obtain ⟨t, k3, k4, k5⟩ := this
    have k6 : t - start ≤ 1 / 10 := by rw [← d1]; exact k4 p1 (by simp)
    refine ⟨t, k3, k6, ?_, k5⟩
    have z0 : (p2.pos 0).p.x = 0 := by rw [at0 0 le_rfl]; rfl
    rcases le_total (t - start) 0 with hle | hge
    · rw [at0 _ hle]
      norm_num
    · have := sm.slow_start hge
      rw [z0] at this
      nlinarith

/-- A robot with one joint whose controller builds its trajectories with KDL. -/
noncomputable def kdlJoint : Cfg := { oneJoint with
  line := fun a b T => (line? a b T).getD ⟨0, fun _ => a, fun _ => 0⟩
  ray := ray }

theorem kdlJoint_lines : BuildsLines kdlJoint := by
  intro a b T traj h
  show (line? a b T).getD _ = traj
  rw [h]
  rfl

/-- Ready to move, with a tenth of a second. -/
noncomputable def hurried : Ctl := { ready with duration := 1 / 10 }

/-- The hypotheses of `C76_cut_short`, and thus those of `C76_movl_partial`, are met. -/
example : ∃ tr s', Exec kdlJoint (Op.prog kdlJoint (.movl stayAndGo)) hurried tr (.ok (some true)) s' ∧
    hurried.duration = 1 / 10 ∧ hurried.frame = .base ∧
    ∀ q x, Ev.fwdKin q (some x) ∈ tr → x = [0, 0, 0, 0, 0, 0, 0, 0, 0, 0, 0, 0] := by
  obtain ⟨tr, o, s', hr, rfl, h⟩ := can_run (env := robot kdlJoint)
    (p := Op.prog kdlJoint (.movl stayAndGo)) (s := hurried) (tr0 := [])
    (Q := fun o s' tr => o = .ok (some true) ∧
      ∀ q x, Ev.fwdKin q (some x) ∈ tr → x = [0, 0, 0, 0, 0, 0, 0, 0, 0, 0, 0, 0]) (by
      show can (robot kdlJoint) (Prog.bind (movl kdlJoint _) _) _ _ _
      unfold movl movlStart setCurrentState
      can_simp
      refine ⟨some [0], some_length rfl, ?_⟩
      can_simp
      refine ⟨some [0, 0, 0, 0, 0, 0, 0, 0, 0, 0, 0, 0], ?_⟩
      can_simp
      refine Or.inr ⟨by simp [hurried, ready, Ctl.initial], ?_⟩
      refine Or.inr ⟨_, by simp only [stayAndGo]; rfl, ?_⟩
      refine Or.inr ⟨by simp [kdlJoint, oneJoint], ?_⟩
      refine Or.inl ⟨trivial, can_setModes' [movlMode kdlJoint] rfl (by simp) ?_⟩
      can_simp
      refine Or.inl ⟨trivial, 0, trivial, ?_⟩
      intro q x hx
      simp at hx
      exact hx.2)
  exact ⟨tr, s', by simpa using hr, rfl, rfl, by simpa using h⟩

/-! ## C77 -/

/-- Rotation vectors that KDL tells from no rotation and that are less than a half turn. -/
def Turnable (w : Vec3) : Prop := w = 0 ∨ (2 * eps ≤ w.norm ∧ w.norm ≤ π - 2 * eps)

theorem getRot_expRot {w : Vec3} (h : Turnable w) : (expRot w).getRot = w := by
  rcases h with rfl | ⟨h1, h2⟩
  · rw [expRot_zero, getRot_one]
  · have he : eps ≤ w.norm := by have : (0 : ℝ) < eps := by norm_num [eps]
                                 linarith
    have h0 : 0 < w.norm := lt_of_lt_of_le (by norm_num [eps]) he
    have hpi : w.norm < π := lt_of_le_of_lt h2 (by norm_num [eps])
    have hq : 2 / π ^ 2 * (2 * eps) ^ 2 ≥ eps * eps / 2 := by
      have h4 : π ^ 2 ≤ 4 ^ 2 := pow_le_pow_left₀ pi_pos.le pi_le_four 2
      have : 2 / π ^ 2 ≥ 2 / 4 ^ 2 := div_le_div_of_nonneg_left (by norm_num) (by positivity) h4
      have e0 : (0 : ℝ) ≤ eps * eps := by norm_num [eps]
      nlinarith
    have hb : ∀ x, 2 * eps ≤ x → x ≤ π → cos x ≤ 1 - eps * eps / 2 := by
      intro x hx hx'
      have hx0 : 0 ≤ x := le_trans (by norm_num [eps]) hx
      have := cos_le_one_sub_mul_cos_sq (x := x) (by rw [abs_of_nonneg hx0]; exact hx')
      have h5 : (2 * eps) ^ 2 ≤ x ^ 2 := pow_le_pow_left₀ (by norm_num [eps]) hx 2
      have h6 : 2 / π ^ 2 * (2 * eps) ^ 2 ≤ 2 / π ^ 2 * x ^ 2 := mul_le_mul_of_nonneg_left h5 (by positivity)
      linarith
    rw [← rot_norm (Or.inr he), Sdc.getRot_rot he h0 hpi (hb _ h1 hpi.le) ?_, div_self h0.ne']
    · ext <;> simp
    · have := hb (π - w.norm) (by linarith) (by linarith)
      rw [cos_pi_sub] at this
      linarith

/-- The path of a velocity command. -/
theorem along_turn {a : Frame} {w : Twist} (ha : a.IsRigid) (hw : Turnable w.rot) :
    (a.M.transpose * (rot w.rot w.rot.norm * a.M)).getRot = a.M.transpose.mulVec w.rot := by
  have hc : w.rot = 0 ∨ eps ≤ w.rot.norm := by
    rcases hw with h | ⟨h, -⟩
    · exact Or.inl h
    · right
      have : (0 : ℝ) < eps := by norm_num [eps]
      linarith
  have hm := Mat3.IsRot.transpose ha
  rw [rot_norm hc, ← mul_assoc, ← Ft.expRot_conj hm, mul_assoc, Mat3.IsRot.left ha, mul_one]
  refine getRot_expRot ?_
  rcases hw with h | h
  · left; rw [h]; ext <;> simp
  · right; rwa [hm.norm]

theorem along_eq (a : Frame) (w : Twist) :
    PathLine.along a w 1 = PathLine.between a ⟨rot w.rot w.rot.norm * a.M, a.p + w.vel⟩ 1 := rfl

theorem along_length {a : Frame} {w : Twist} (ha : a.IsRigid) (hw : Turnable w.rot) :
    (PathLine.along a w 1).length = max w.vel.norm w.rot.norm := by
  rw [along_eq, between_length]
  dsimp only
  rw [along_turn ha hw, (Mat3.IsRot.transpose ha).norm]
  congr 2
  ext <;> simp

theorem along_pos {a : Frame} {w : Twist} (ha : a.IsRigid) (hw : Turnable w.rot) (hv : Clear w.vel)
    (hl : 0 < (PathLine.along a w 1).length) {u : ℝ} (hu : 0 ≤ u) :
    (PathLine.along a w 1).pos (u * (PathLine.along a w 1).length) =
      ⟨expRot (u • w.rot) * a.M, a.p + u • w.vel⟩ ∧
    (PathLine.along a w 1).vel (u * (PathLine.along a w 1).length) = u • w := by
  have hvel : a.p + w.vel - a.p = w.vel := by ext <;> simp
  have hm := Mat3.IsRot.transpose ha
  have hw' : a.M.transpose.mulVec w.rot = 0 ∨ eps ≤ (a.M.transpose.mulVec w.rot).norm := by
    rw [hm.norm]
    rcases hw with h | ⟨h, -⟩
    · left; rw [h]; ext <;> simp
    · right
      have : (0 : ℝ) < eps := by norm_num [eps]
      linarith
  obtain ⟨-, h2, -⟩ := PathLine.make_pos (o := SingleAxis.between a.M (rot w.rot w.rot.norm * a.M))
    (Vec3.norm_nonneg _) a.p (a.p + w.vel)
  obtain ⟨h3, h4⟩ := h2 hl
  have hn := Vec3.norm_smul_normalize hw'
  constructor
  · refine (h3 u).trans ?_
    congr 1
    · unfold SingleAxis.pos SingleAxis.between
      dsimp only
      rw [along_turn ha hw, ← expRot_smul (Vec3.normalize_unit _) (mul_nonneg hu (Vec3.norm_nonneg _)), ← smul_smul, hn,
        ← Ft.expRot_conj ha, Mat3.mulVec_smul, Mat3.IsRot.mulVec_transpose ha]
    · rw [hvel, ← smul_smul, Vec3.norm_smul_normalize hv]
  · refine (h4 u).trans ?_
    have e : (SingleAxis.between a.M (rot w.rot w.rot.norm * a.M)).vel
        (u * (SingleAxis.between a.M (rot w.rot w.rot.norm * a.M)).angle) = u • w.rot := by
      unfold SingleAxis.vel SingleAxis.between
      dsimp only
      rw [along_turn ha hw, ← smul_smul, hn, Mat3.mulVec_smul, Mat3.IsRot.mulVec_transpose ha]
    rw [e, hvel, ← smul_smul, Vec3.norm_smul_normalize hv]
    rfl

/-- The profile of a velocity command. -/
theorem rect_eq {l : ℝ} (hl : 0 < l) :
    Rect.setDuration 10 0 10 (some (10 / l)) = ⟨0, min l 10, some (10 / min l 10)⟩ := by
  unfold Rect.setDuration
  norm_num [hl.ne']
  by_cases h : 10 < l
  · rw [if_pos h, min_eq_right h.le]; norm_num
  · rw [if_neg h, min_eq_left (not_lt.mp h)]; simp

theorem ray_eq {a : Frame} {w : Twist} (hl : 0 < (PathLine.along a w 1).length) (t : ℝ) (ht : 0 ≤ t) :
    let m := min (PathLine.along a w 1).length 10
    (t ≤ 10 / m → (ray a w).pos t = (PathLine.along a w 1).pos (m * t) ∧
      (ray a w).vel t = (PathLine.along a w 1).vel m) ∧
    (10 / m < t → (ray a w).pos t = (ray a w).pos (10 / m) ∧ (ray a w).vel t = 0) := by
  intro m
  have hm : 0 < m := lt_min hl (by norm_num)
  have hp : ∀ t, 0 ≤ t → (ray a w).pos t = (PathLine.along a w 1).pos (if t > 10 / m then m * (10 / m) + 0 else m * t + 0) := by
    intro t ht
    simp only [ray, if_neg hl.ne', rect_eq hl, Traj.segment, Rect.pos, if_neg (not_lt.mpr ht)]
    rfl
  have hv : ∀ t, 0 ≤ t → (ray a w).vel t = (PathLine.along a w 1).vel (if t > 10 / m then 0 else m) := by
    intro t ht
    simp only [ray, if_neg hl.ne', rect_eq hl, Traj.segment, Rect.vel, if_neg (not_lt.mpr ht)]
    rfl
  have h0 : 0 ≤ 10 / m := by positivity
  refine ⟨fun h => ⟨?_, ?_⟩, fun h => ⟨?_, ?_⟩⟩
  · rw [hp t ht, if_neg (not_lt.mpr h), add_zero]
  · rw [hv t ht, if_neg (not_lt.mpr h)]
  · rw [hp t ht, hp _ h0, if_pos h, if_neg (lt_irrefl _)]
  · rw [hv t ht, if_pos h]
    ext <;> simp [PathLine.vel, SingleAxis.vel]

/-- What a velocity command gives, for velocities that KDL tells apart: all speeds are limited in the same proportion, so
that none exceeds 10 units, and the movement ends after ten units. -/
theorem ray_spec {a : Frame} {w : Twist} (ha : a.IsRigid) (hw : Turnable w.rot) (hv : Clear w.vel)
    (hl : 0 < max w.vel.norm w.rot.norm) {t : ℝ} (ht : 0 ≤ t) :
    let l := max w.vel.norm w.rot.norm
    let k := min l 10 / l
    (t ≤ 10 / min l 10 → (ray a w).pos t = ⟨expRot ((k * t) • w.rot) * a.M, a.p + (k * t) • w.vel⟩ ∧
      (ray a w).vel t = k • w) ∧
    (10 / min l 10 < t → (ray a w).pos t = (ray a w).pos (10 / min l 10) ∧ (ray a w).vel t = 0) := by
  intro l k
  have hlen : (PathLine.along a w 1).length = l := along_length ha hw
  have hl' : 0 < (PathLine.along a w 1).length := by rw [hlen]; exact hl
  obtain ⟨h1, h2⟩ := ray_eq hl' t ht
  simp only [hlen] at h1 h2
  have hk : 0 ≤ k := div_nonneg (le_min hl.le (by norm_num)) hl.le
  refine ⟨fun h => ?_, h2⟩
  obtain ⟨h3, h4⟩ := h1 h
  constructor
  · rw [h3, ← (along_pos ha hw hv hl' (mul_nonneg hk ht)).1, hlen]
    congr 1
    show _ = min l 10 / l * t * l
    have : l ≠ 0 := hl.ne'
    field_simp
  · rw [h4, ← (along_pos ha hw hv hl' hk).2, hlen]
    congr 1
    show _ = min l 10 / l * l
    rw [div_mul_cancel₀ _ hl.ne']

/-- **C77.** From any pose, and with any velocity that KDL tells apart from none, is not faster than 10 units and turns by
less than a half turn per second, the trajectory of a velocity movement has this velocity, and its pose is the one that
this velocity leads to. Partial: this lasts until ten units of path are covered only, see `C77_ends`; and faster
velocities are not kept, see `C77_limited` and `C77_wrong_way`. -/
theorem C77_keeps_velocity_partial {a : Frame} {w : Twist} (ha : a.IsRigid) (hw : Turnable w.rot) (hv : Clear w.vel)
    (h0 : 0 < max w.vel.norm w.rot.norm) (h10 : max w.vel.norm w.rot.norm ≤ 10) {t : ℝ} (ht : 0 ≤ t)
    (ht' : t ≤ 10 / max w.vel.norm w.rot.norm) :
    (ray a w).vel t = w ∧ (ray a w).pos t = ⟨expRot (t • w.rot) * a.M, a.p + t • w.vel⟩ := by
  obtain ⟨h1, -⟩ := ray_spec ha hw hv h0 ht
  rw [min_eq_left h10, div_self h0.ne', one_mul] at h1
  obtain ⟨h2, h3⟩ := h1 ht'
  refine ⟨?_, h2⟩
  rw [h3]
  ext <;> simp

/-- **C77.** With no velocity, the robot is to stay where it is. -/
theorem C77_still {a : Frame} (ha : a.IsRigid) (t : ℝ) : (ray a 0).pos t = a ∧ (ray a 0).vel t = 0 := by
  have hl : (PathLine.along a 0 1).length = 0 := by
    rw [along_length ha (Or.inl rfl)]
    have : (0 : Twist).vel.norm = 0 ∧ (0 : Twist).rot.norm = 0 := ⟨Vec3.norm_zero, Vec3.norm_zero⟩
    rw [this.1, this.2, max_self]
  have hd : Rect.setDuration 10 0 10 none = ⟨0, 0, none⟩ := by
    unfold Rect.setDuration
    norm_num
  have hp : ∀ t, Rect.pos ⟨0, 0, none⟩ t = 0 := by
    intro t
    unfold Rect.pos
    split_ifs <;> simp
  have hv : ∀ t, Rect.vel ⟨0, 0, none⟩ t = 0 := by
    intro t
    unfold Rect.vel
    split_ifs <;> simp
  simp only [ray, if_pos hl, hd, Traj.segment, hp, hv]
  constructor
  · refine ((PathLine.make_pos (o := SingleAxis.between a.M (rot (0 : Twist).rot (0 : Twist).rot.norm * a.M))
      (Vec3.norm_nonneg _) a.p (a.p + (0 : Twist).vel)).2.2).trans ?_
    simp [SingleAxis.pos, SingleAxis.between, rot2_zero]
  · ext <;> simp [PathLine.vel, SingleAxis.vel]

/-- The hypotheses of `C77_keeps_velocity_partial` are met: half a unit per second upwards and a quarter of a turn per
second. -/
example : let w : Twist := ⟨⟨0, 0, 1 / 2⟩, ⟨0, 0, π / 2⟩⟩
    Turnable w.rot ∧ Clear w.vel ∧ 0 < max w.vel.norm w.rot.norm ∧ max w.vel.norm w.rot.norm ≤ 10 ∧
      (1 : ℝ) ≤ 10 / max w.vel.norm w.rot.norm := by
  intro w
  have n1 : w.vel.norm = 1 / 2 := by
    show (⟨0, 0, 1 / 2⟩ : Vec3).norm = _
    rw [show (⟨0, 0, 1 / 2⟩ : Vec3) = (1 / 2 : ℝ) • ⟨0, 0, 1⟩ by ext <;> simp, Vec3.norm_smul]
    norm_num [Vec3.norm, Vec3.dot]
  have n2 : w.rot.norm = π / 2 := by
    show (⟨0, 0, π / 2⟩ : Vec3).norm = _
    rw [show (⟨0, 0, π / 2⟩ : Vec3) = (π / 2) • ⟨0, 0, 1⟩ by ext <;> simp, Vec3.norm_smul, abs_of_pos (by positivity)]
    norm_num [Vec3.norm, Vec3.dot]
  have h2 := two_le_pi
  have h4 := pi_le_four
  have hm : max w.vel.norm w.rot.norm = π / 2 := by rw [n1, n2]; exact max_eq_right (by linarith)
  refine ⟨Or.inr ⟨?_, ?_⟩, Or.inr ?_, ?_, ?_, ?_⟩
  · rw [n2]; norm_num [eps]; linarith
  · rw [n2]; norm_num [eps]; linarith
  · rw [n1]; norm_num [eps]
  · rw [hm]; positivity
  · rw [hm]; linarith
  · rw [hm, le_div_iff₀ (by positivity)]; linarith

/-- C77 in its full form has the velocity kept until the movement is stopped. It is not: after ten units of path (metres,
or radians if these are more) the velocity is zero and the pose the last one, for any velocity whatsoever. The
controller goes on with the movement and holds the robot there. -/
theorem C77_ends {a : Frame} {w : Twist} (ha : a.IsRigid) (hw : Turnable w.rot) (hv : Clear w.vel)
    (h0 : 0 < max w.vel.norm w.rot.norm) {t : ℝ} (ht : 10 / min (max w.vel.norm w.rot.norm) 10 < t) :
    (ray a w).vel t = 0 ∧ (ray a w).pos t = (ray a w).pos (10 / min (max w.vel.norm w.rot.norm) 10) := by
  have hp : 0 ≤ 10 / min (max w.vel.norm w.rot.norm) 10 := by
    have := lt_min h0 (show (0 : ℝ) < 10 by norm_num)
    positivity
  obtain ⟨-, h2⟩ := ray_spec ha hw hv h0 (hp.trans ht.le)
  exact ⟨(h2 ht).2, (h2 ht).1⟩

/-- A case of it: at a tenth of a radian per second, the arm stops turning after a hundred seconds. -/
example : (ray 1 ⟨0, ⟨0, 0, 1 / 10⟩⟩).vel 101 = 0 := by
  have n : (⟨0, 0, 1 / 10⟩ : Vec3).norm = 1 / 10 := by
    rw [show (⟨0, 0, 1 / 10⟩ : Vec3) = (1 / 10 : ℝ) • ⟨0, 0, 1⟩ by ext <;> simp, Vec3.norm_smul]
    norm_num [Vec3.norm, Vec3.dot]
  have h2 := two_le_pi
  refine (C77_ends (a := 1) (w := ⟨0, ⟨0, 0, 1 / 10⟩⟩) Frame.IsRigid.one (Or.inr ⟨?_, ?_⟩) (Or.inl rfl) ?_ ?_).1
  · dsimp only; rw [n]; norm_num [eps]
  · dsimp only; rw [n]; norm_num [eps]; linarith
  · dsimp only; rw [n, Vec3.norm_zero]; norm_num
  · dsimp only; rw [n, Vec3.norm_zero]; norm_num

/-- C77 in its full form has any velocity kept. Faster ones than 10 units are scaled down to 10, without notice. -/
theorem C77_limited {a : Frame} {w : Twist} (ha : a.IsRigid) (hw : Turnable w.rot) (hv : Clear w.vel)
    (h10 : 10 < max w.vel.norm w.rot.norm) {t : ℝ} (ht : 0 ≤ t) (ht' : t ≤ 1) :
    (ray a w).vel t = (10 / max w.vel.norm w.rot.norm) • w := by
  obtain ⟨h1, -⟩ := ray_spec ha hw hv (lt_trans (by norm_num) h10) ht
  rw [min_eq_right h10.le] at h1
  exact (h1 (by linarith)).2

/-- The hypotheses of `C77_limited` are met. -/
example : Turnable (⟨⟨20, 0, 0⟩, 0⟩ : Twist).rot ∧ Clear (⟨⟨20, 0, 0⟩, 0⟩ : Twist).vel ∧
    10 < max (⟨⟨20, 0, 0⟩, 0⟩ : Twist).vel.norm (⟨⟨20, 0, 0⟩, 0⟩ : Twist).rot.norm := by
  have n : (⟨20, 0, 0⟩ : Vec3).norm = 20 := by
    rw [show (⟨20, 0, 0⟩ : Vec3) = (20 : ℝ) • ⟨1, 0, 0⟩ by ext <;> simp, Vec3.norm_smul]
    norm_num [Vec3.norm, Vec3.dot]
  refine ⟨Or.inl rfl, Or.inr ?_, lt_max_of_lt_left ?_⟩
  · dsimp only; rw [n]; norm_num [eps]
  · dsimp only; rw [n]; norm_num

/-- More than a half turn per second goes the other way: three quarters of a turn per second about the z axis come out as
a quarter of a turn per second in the opposite sense. -/
theorem C77_wrong_way {a : Frame} (ha : a.IsRigid) {t : ℝ} (ht : 0 ≤ t) (ht' : t ≤ 5) :
    (ray a ⟨0, ⟨0, 0, 3 * π / 2⟩⟩).vel t = ⟨0, ⟨0, 0, -(π / 2)⟩⟩ := by
  have hpi := pi_pos
  have n1 : (⟨0, 0, 3 * π / 2⟩ : Vec3).norm = 3 * π / 2 := by
    rw [show (⟨0, 0, 3 * π / 2⟩ : Vec3) = (3 * π / 2) • ⟨0, 0, 1⟩ by ext <;> simp, Vec3.norm_smul,
      abs_of_pos (by positivity)]
    norm_num [Vec3.norm, Vec3.dot]
  have n2 : (⟨0, 0, -(π / 2)⟩ : Vec3).norm = π / 2 := by
    rw [show (⟨0, 0, -(π / 2)⟩ : Vec3) = (π / 2) • ⟨0, 0, -1⟩ by ext <;> simp, Vec3.norm_smul,
      abs_of_pos (by positivity)]
    norm_num [Vec3.norm, Vec3.dot]
  have h2 := two_le_pi
  have h4 := pi_le_four
  have he : rot ⟨0, 0, 3 * π / 2⟩ (3 * π / 2) = rot ⟨0, 0, -(π / 2)⟩ (π / 2) := by
    have c : cos (3 * π / 2) = 0 := by
      rw [show 3 * π / 2 = π / 2 + π by ring, cos_add_pi, cos_pi_div_two, neg_zero]
    have s : sin (3 * π / 2) = -1 := by
      rw [show 3 * π / 2 = π / 2 + π by ring, sin_add_pi, sin_pi_div_two]
    have u1 : (⟨0, 0, 3 * π / 2⟩ : Vec3).normalize = ⟨0, 0, 1⟩ := by
      unfold Vec3.normalize
      rw [n1, if_neg (by norm_num [eps]; linarith)]
      ext <;> simp [hpi.ne']
    have u2 : (⟨0, 0, -(π / 2)⟩ : Vec3).normalize = ⟨0, 0, -1⟩ := by
      unfold Vec3.normalize
      rw [n2, if_neg (by norm_num [eps]; linarith)]
      ext <;> simp [hpi.ne']
    rw [rot, rot, u1, u2]
    ext <;> simp [rot2, c, s]
  have hr : ray a ⟨0, ⟨0, 0, 3 * π / 2⟩⟩ = ray a ⟨0, ⟨0, 0, -(π / 2)⟩⟩ := by
    have : PathLine.along a ⟨0, ⟨0, 0, 3 * π / 2⟩⟩ 1 = PathLine.along a ⟨0, ⟨0, 0, -(π / 2)⟩⟩ 1 := by
      unfold PathLine.along
      dsimp only
      rw [n1, n2, he]
    unfold ray
    rw [this]
  have hmax : max (0 : Vec3).norm (⟨0, 0, -(π / 2)⟩ : Vec3).norm = π / 2 := by
    rw [n2, Vec3.norm_zero]
    exact max_eq_right (by positivity)
  rw [hr]
  refine (C77_keeps_velocity_partial (w := ⟨0, ⟨0, 0, -(π / 2)⟩⟩) ha (Or.inr ⟨?_, ?_⟩) (Or.inl rfl) ?_ ?_ ht ?_).1
  · dsimp only; rw [n2]; norm_num [eps]; linarith
  · dsimp only; rw [n2]; norm_num [eps]; linarith
  · dsimp only; rw [hmax]; positivity
  · dsimp only; rw [hmax]; linarith
  · dsimp only; rw [hmax, le_div_iff₀ (by positivity)]; nlinarith

/-! ### The whole movement -/

/-- **C77.** Once `movv` was accepted, there is one trajectory for each end effector, from the pose that forward
kinematics gave and with the velocity commanded, and every motion command of the loop until another movement is
commanded follows them, each at the time of the cycle. Partial: the same exceptions as `C77_keeps_velocity_partial`, and
the one of `C71_commands_serve_partial`. -/
theorem C77_movv_partial {cfg : Cfg} (hcfg : cfg.ray = ray) {xd : List ℝ} {s s' : Ctl} {tr : List Ev}
    (h : Exec cfg (Op.prog cfg (.movv xd)) s tr (.ok (some true)) s') :
    ∃ (q x : List ℝ) (paths : List Traj) (start : ℝ),
      Ev.getEncoders (some q) ∈ tr ∧ Ev.fwdKin q (some x) ∈ tr ∧ Ev.now start ∈ tr ∧
      paths.length = xd.length / 6 ∧
      (∀ i < xd.length / 6, ∃ traj w, paths[i]? = some traj ∧
        w = KdlVectorConverter.vectorToTwist ((xd.drop (6 * i)).take 6) ∧
        (Turnable w.rot → Clear w.vel → max w.vel.norm w.rot.norm ≤ 10 →
          ∀ t, 0 ≤ t → t * max w.vel.norm w.rot.norm ≤ 10 →
            traj.vel t = w ∧
            traj.pos t = ⟨expRot (t • w.rot) * (poseOf x i).M, (poseOf x i).p + t • w.vel⟩)) ∧
      ∀ ds s2, Hist cfg s' ds s2 → (∀ d ∈ ds, d.op.target = none) →
        ∀ d ∈ ds, d.op = .cycle → ∀ e ∈ d.calls, IsMotion e →
          Serves cfg ⟨s.gain * (1000 / s.cmcPeriodMs), s.frame⟩ (.ray paths start) d.calls e := by
  obtain ⟨plan, hp, hs⟩ := C71_commands_serve_partial (st := .movv) rfl (by simp) h
  cases plan with
  | ray paths start =>
    obtain ⟨xd', q, x, e, h1, h2, h3, h5⟩ := hp
    cases e
    refine ⟨q, x, paths, start, h1, h2, h3, h5.count, fun i hi => ?_, hs⟩
    obtain ⟨a, b, -, -, rfl, rfl, h6⟩ := h5.each i hi
    have ha : (poseOf x i).IsRigid := Sdc.vectorToFrame_isRigid _
    refine ⟨_, _, h6, rfl, ?_⟩
    rw [hcfg]
    generalize KdlVectorConverter.vectorToTwist _ = w
    intro hw hv h10 t ht ht'
    rcases (le_max_of_le_left (Vec3.norm_nonneg w.vel) : 0 ≤ max w.vel.norm w.rot.norm).eq_or_lt with h0 | h0
    · have e1 : w.vel = 0 := Vec3.norm_eq_zero (le_antisymm (h0 ▸ le_max_left _ _) (Vec3.norm_nonneg _))
      have e2 : w.rot = 0 := Vec3.norm_eq_zero (le_antisymm (h0 ▸ le_max_right _ _) (Vec3.norm_nonneg _))
      obtain rfl : w = 0 := by
        cases w
        cases e1
        cases e2
        rfl
      obtain ⟨g1, g2⟩ := C77_still ha t
      refine ⟨g2, g1.trans ?_⟩
      have e3 : t • (0 : Twist).rot = 0 ∧ t • (0 : Twist).vel = 0 := by constructor <;> ext <;> simp
      rw [e3.1, e3.2, expRot_zero, one_mul]
      ext <;> simp
    · exact C77_keeps_velocity_partial ha hw hv h0 h10 ht (by rwa [le_div_iff₀ h0])
  | line paths start => obtain ⟨_, _, _, _, e, -⟩ := hp; cases e
  | weight => cases hp
  | push f => cases hp

/-- **C77.** The thread of the keyboard, in the base frame: each pose it commands is the one at which the velocities of the
last change have led from the pose told then. Here `due` are the poses that `C73_poses_partial` shows to be sent.
Partial: the same exceptions. -/
theorem C77_keyboard_partial {period now t0 : ℝ} {v : Fin 6 → ℝ} {x : List ℝ}
    (hw : Turnable ⟨v 3, v 4, v 5⟩) (hv : Clear ⟨v 0, v 1, v 2⟩)
    (h0 : 0 < max (⟨v 0, v 1, v 2⟩ : Vec3).norm (⟨v 3, v 4, v 5⟩ : Vec3).norm)
    (h10 : max (⟨v 0, v 1, v 2⟩ : Vec3).norm (⟨v 3, v 4, v 5⟩ : Vec3).norm ≤ 10) (ht : t0 ≤ now)
    (ht' : now - t0 ≤ 10 / max (⟨v 0, v 1, v 2⟩ : Vec3).norm (⟨v 3, v 4, v 5⟩ : Vec3).norm) :
    Kbd.due (fun a w t => (ray a w).pos t) period false now (some (v, x, t0)) =
      [.pose (KdlVectorConverter.frameToVector
        ⟨expRot ((now - t0) • ⟨v 3, v 4, v 5⟩) * (KdlVectorConverter.vectorToFrame x).M,
          (KdlVectorConverter.vectorToFrame x).p + (now - t0) • ⟨v 0, v 1, v 2⟩⟩) now] := by
  have ha : (KdlVectorConverter.vectorToFrame x).IsRigid := Sdc.vectorToFrame_isRigid _
  have := (C77_keeps_velocity_partial (w := ⟨⟨v 0, v 1, v 2⟩, ⟨v 3, v 4, v 5⟩⟩) ha hw hv h0 h10
    (sub_nonneg.mpr ht) ht').2
  simp only [Kbd.due, ← this]
  rfl

end KD.Ctrl
