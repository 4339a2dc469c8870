import Verif.Programs.Haar
import Verif.Props.FixedAxes
import Mathlib.Analysis.SpecialFunctions.Trigonometric.Bounds

/-!
# C65: visual servoing
-/

namespace KD.Sdc

open scoped Classical

/-! ## Freshness -/

/-- The message is a pair of coordinates. -/
def IsTarget (b : Option (List ℝ)) : Prop := ∃ x y, b = some [x, y]

/-- Where the stored target comes from: a cycle of the history, or the start. -/
theorem centroid_source {l : List Cycle} : ∀ {c c' : Ctl} {es : List (List Ev)} {k : Centroid},
    c.centroid = some k → run c l = some (c', es) →
    ∃ k', c'.centroid = some k' ∧ k'.rot = k.rot ∧ k'.permanenceTime = k.permanenceTime ∧
      ((k'.last = k.last ∧ k'.lastTime = k.lastTime) ∨
        ∃ y ∈ l, y.centroid = some [k'.last.1, k'.last.2] ∧ k'.lastTime = y.now) := by
  induction l with
  | nil =>
    intro c c' es k hk h
    cases h
    exact ⟨k, hk, rfl, rfl, Or.inl ⟨rfl, rfl⟩⟩
  | cons y l ih =>
    intro c c' es k hk h
    obtain ⟨c1, e, es', h1, h2, rfl⟩ := run_cons h
    have step : ∃ k1, c1.centroid = some k1 ∧ k1.rot = k.rot ∧ k1.permanenceTime = k.permanenceTime ∧
        ((k1.last = k.last ∧ k1.lastTime = k.lastTime) ∨
          (y.centroid = some [k1.last.1, k1.last.2] ∧ k1.lastTime = y.now)) := by
      rcases update_cases h1 with ⟨-, rfl, -⟩ | ⟨d, -, ⟨-, rfl, -⟩ | ⟨-, s, -, hp⟩⟩
      · exact ⟨k, hk, rfl, rfl, Or.inl ⟨rfl, rfl⟩⟩
      · exact ⟨k, hk, rfl, rfl, Or.inl ⟨rfl, rfl⟩⟩
      · obtain ⟨d', e', -, hf, -⟩ := proceed_cases hp
        have hc : c1.centroid = (applyCentroid c.centroid y d').1 := by
          rcases finish_cases hf with ⟨-, d'', m, -, rfl, -⟩ | ⟨-, rfl, -⟩ <;> rfl
        rw [hc, hk]
        have key : ∃ k1, (applyCentroid (some k) y d').1 = some k1 ∧ (k1 = k ∨ k1 = (k.accept y.centroid y.now).1) := by
          cases d' with
          | spnav s =>
            simp only [applyCentroid]
            split_ifs
            · split <;> exact ⟨_, rfl, Or.inr rfl⟩
            · exact ⟨_, rfl, Or.inr rfl⟩
          | leap s => exact ⟨k, rfl, Or.inl rfl⟩
          | wiimote s => exact ⟨k, rfl, Or.inl rfl⟩
        obtain ⟨k1, hk1, rfl | rfl⟩ := key
        · exact ⟨k1, hk1, rfl, rfl, Or.inl ⟨rfl, rfl⟩⟩
        · refine ⟨_, hk1, ?_⟩
          unfold Centroid.accept
          split
          · rename_i a b hy
            exact ⟨rfl, rfl, Or.inr ⟨hy, rfl⟩⟩
          · exact ⟨rfl, rfl, Or.inl ⟨rfl, rfl⟩⟩
          · exact ⟨rfl, rfl, Or.inl ⟨rfl, rfl⟩⟩
    obtain ⟨k1, a1, a2, a3, a4⟩ := step
    obtain ⟨k', b1, b2, b3, b4⟩ := ih a1 h2
    refine ⟨k', b1, b2.trans a2, b3.trans a3, ?_⟩
    rcases b4 with ⟨b4, b5⟩ | ⟨z, hz, b4, b5⟩
    · rcases a4 with ⟨a4, a5⟩ | ⟨a4, a5⟩
      · exact Or.inl ⟨b4.trans a4, b5.trans a5⟩
      · exact Or.inr ⟨y, List.mem_cons_self, by rw [b4]; exact a4, b5.trans a5⟩
    · exact Or.inr ⟨z, List.mem_cons_of_mem _ hz, b4, b5⟩

/-- Without an accepted message the centroid transform does nothing. -/
theorem update_not_accepted {c : Ctl} {k : Centroid} {y : Cycle} (hk : c.centroid = some k)
    (h : (k.accept y.centroid y.now).2 = false) :
    (update c y).map Prod.snd = (update { c with centroid := none } y).map Prod.snd := by
  have hap : ∀ d : Device, (applyCentroid (some k) y d).2 = d := by
    intro d
    cases d with
    | spnav s => simp [applyCentroid, h]
    | leap s => rfl
    | wiimote s => rfl
  have hpr : ∀ d s, (proceed c y d s).map Prod.snd =
      (proceed { c with centroid := none } y d s).map Prod.snd := by
    intro d s
    unfold proceed
    cases d.actuator.1.transform s with
    | none => rfl
    | some d' =>
      have h0 : (applyCentroid none y d').2 = d' := by cases d' <;> rfl
      simp only [hk, hap, h0]
      unfold finish
      simp only
      cases d'.valid with
      | true =>
        simp only [if_true]
        cases d'.send y.now <;> rfl
      | false => rfl
  cases ha : c.device.acquire y.sensor with
  | none =>
    rw [update_none ha, update_none (c := { c with centroid := none }) ha]
    rfl
  | some d =>
    cases hal : alert c.proximity y.proximity with
    | high =>
      rw [update_high ha hal, update_high (c := { c with centroid := none }) ha hal]
      rfl
    | low =>
      rw [update_low ha hal, update_low (c := { c with centroid := none }) ha hal]
      exact hpr _ _
    | clear =>
      rw [update_clear ha hal, update_clear (c := { c with centroid := none }) ha hal]
      exact hpr _ _

/-- **C65.** Over every history: if the camera tells no target in a cycle, and did not tell one in any
earlier cycle within the permanence time, the program does in that cycle exactly what it would do
without the centroid transform. The clock is supposed to be beyond the permanence time when the program
starts, as seconds since 1970 are. -/
theorem C65_only_fresh {c c' : Ctl} {k : Centroid} {l : List Cycle} {es : List (List Ev)} {y : Cycle}
    (hk : c.centroid = some k) (hstart : k.permanenceTime < y.now - k.lastTime)
    (h : run c l = some (c', es)) (hno : ¬ IsTarget y.centroid)
    (hold : ∀ z ∈ l, IsTarget z.centroid → k.permanenceTime < y.now - z.now) :
    (update c' y).map Prod.snd = (update { c' with centroid := none } y).map Prod.snd := by
  obtain ⟨k', h1, -, h3, h4⟩ := centroid_source hk h
  refine update_not_accepted h1 ?_
  have hlt : k'.permanenceTime < y.now - k'.lastTime := by
    rw [h3]
    rcases h4 with ⟨-, h4⟩ | ⟨z, hz, h4, h5⟩
    · rw [h4]; exact hstart
    · rw [h5]; exact hold z hz ⟨_, _, h4⟩
  unfold Centroid.accept
  split
  · rename_i a b hb
    exact absurd ⟨a, b, hb⟩ hno
  · rfl
  · simp only [decide_eq_false_iff_not, not_le]; exact hlt

/-- A SpaceNavigator with a camera. -/
noncomputable def freshDemo : Ctl where
  device := .spnav (axesDemo false)
  scaling := 10
  centroid := some ⟨1, 1, (0, 0), 0⟩

/-- A cycle with a target. -/
noncomputable def freshCycle : Cycle where
  sensor := [1, 2, 3, 4, 5, 6]
  now := 100
  centroid := some [1, 0]

/-- The hypotheses of `C65_only_fresh` are met: a target was seen at time 100, permanence is one second,
and at time 102 there is no message. -/
example : ∃ c' es, run freshDemo [freshCycle] = some (c', es) ∧ ¬ IsTarget none ∧
    (1 : ℝ) < 102 - freshCycle.now ∧ (1 : ℝ) < 102 - 0 := by
  obtain ⟨c', es, h⟩ := spnav_run_defined [freshCycle] freshDemo _ rfl (by norm_num [freshDemo])
  refine ⟨c', es, h, ?_, by norm_num [freshCycle], by norm_num⟩
  rintro ⟨_, _, h⟩
  cases h

/-! ## The corrected command -/

/-- Direction the camera looks at, in the base frame. -/
noncomputable def cameraAxis (c : Centroid) (x : List ℝ) : Vec3 :=
  (KdlVectorConverter.vectorToFrame x).M.mulVec (c.rot.mulVec ⟨0, 0, 1⟩)

/-- Where a point of the image is, seen from the base: its offset from the middle of the image. -/
noncomputable def imageOffset (c : Centroid) (x : List ℝ) (cx cy : ℝ) : Vec3 :=
  (KdlVectorConverter.vectorToFrame x).M.mulVec (c.rot.mulVec ⟨cx, cy, 0⟩)

theorem rotZ_half_mulVec (a b : ℝ) : (Mat3.rotZ (Real.pi / 2)).mulVec ⟨a, b, 0⟩ = ⟨-b, a, 0⟩ := by
  simp [Mat3.rotZ, Mat3.mulVec]

theorem getRot_rot {a : Vec3} {θ : ℝ} (ha : eps ≤ a.norm) (h0 : 0 < θ) (hpi : θ < Real.pi)
    (h1 : Real.cos θ ≤ 1 - eps * eps / 2) (h2 : -1 + eps * eps / 2 ≤ Real.cos θ) :
    (Mat3.rot a θ).getRot = (θ / a.norm) • a := by
  have h0' : a.norm ≠ 0 := by intro h; rw [h] at ha; norm_num [eps] at ha
  have hn : a.normalize = (1 / a.norm) • a := by
    unfold Vec3.normalize
    rw [if_neg (not_lt.2 ha)]
  have hu := Mat3.dir_unit h0'
  have hR : (Mat3.rot a θ).IsRot := Mat3.rot_isRot a θ
  have he : Mat3.rot a θ = Mat3.rot2 ((1 / a.norm) • a) θ := by rw [Mat3.rot, hn]
  have hreg : (Mat3.rot a θ).Regular := by
    left
    rw [he, Mat3.rot2_cosAngle hu]
    exact ⟨h1, h2⟩
  obtain ⟨g1, g2, g3, g4, -⟩ := hR.getRotAngle_spec hreg
  rw [he] at g4
  rw [← he] at g4
  obtain ⟨k1, k2⟩ := axis_angle_unique g1 hu g2 g3 h0 hpi (g4.trans he)
  rw [Mat3.getRot, k1, k2, smul_smul]
  congr 1
  ring

/-- **C65.** When the centroid transform takes over, the linear velocity it commands points along the
direction the camera looks at, never backwards: it is the device's command projected onto that direction,
and its length is positive. -/
theorem C65_approach {c : Centroid} {x : List ℝ} {data out : Six} (hc : c.rot.IsRot)
    (h : c.process (some x) data = some out) :
    ∃ k : ℝ, 0 < k ∧ (⟨out 0, out 1, out 2⟩ : Vec3) = k • cameraAxis c x ∧
      k = Vec3.dot ⟨data 0, data 1, data 2⟩ (cameraAxis c x) ∧
      0 < Vec3.dot ⟨out 0, out 1, out 2⟩ (cameraAxis c x) := by
  have hM := (vectorToFrame_isRigid x).mul hc
  have hv : ((KdlVectorConverter.vectorToFrame x).M * c.rot).mulVec ⟨0, 0, 1⟩ = cameraAxis c x := by
    rw [Mat3.mulVec_mul]; rfl
  have hone : Vec3.dot (cameraAxis c x) (cameraAxis c x) = 1 := by
    rw [← hv, hM.dot]; simp [Vec3.dot]
  have hp : (KdlVectorConverter.vectorToFrame data.toList).p = ⟨data 0, data 1, data 2⟩ := rfl
  unfold Centroid.process at h
  simp only [hv, hp] at h
  split_ifs at h with hn
  cases h
  refine ⟨_, lt_of_not_ge hn, rfl, rfl, ?_⟩
  show 0 < Vec3.dot ((Vec3.dot ⟨data 0, data 1, data 2⟩ (cameraAxis c x)) • cameraAxis c x) (cameraAxis c x)
  rw [Vec3.dot_smul_left, hone, mul_one]
  exact lt_of_not_ge hn

/-- **C65.** When the centroid transform takes over, the rotation it commands turns the camera towards the
target: the speed of the camera's direction under the commanded angular velocity is one tenth of the
offset of the target in the image. Stated for an offset of at least `1e-4` and at most 10 in units of
half the image. -/
theorem C65_turn {c : Centroid} {x : List ℝ} {data out : Six} (hc : c.rot.IsRot)
    (h : c.process (some x) data = some out)
    (h1 : 1 / 10000 ≤ (⟨c.last.1, c.last.2, 0⟩ : Vec3).norm) (h2 : (⟨c.last.1, c.last.2, 0⟩ : Vec3).norm ≤ 10) :
    Vec3.cross ⟨out 3, out 4, out 5⟩ (cameraAxis c x) =
      (1 / 10 : ℝ) • imageOffset c x c.last.1 c.last.2 := by
  have hM := (vectorToFrame_isRigid x).mul hc
  have hv : ((KdlVectorConverter.vectorToFrame x).M * c.rot).mulVec ⟨0, 0, 1⟩ = cameraAxis c x := by
    rw [Mat3.mulVec_mul]; rfl
  have ho : ((KdlVectorConverter.vectorToFrame x).M * c.rot).mulVec ⟨c.last.1, c.last.2, 0⟩ =
      imageOffset c x c.last.1 c.last.2 := by
    rw [Mat3.mulVec_mul]; rfl
  have hnorm : (((KdlVectorConverter.vectorToFrame x).M * c.rot).mulVec
      ((Mat3.rotZ (Real.pi / 2)).mulVec ⟨c.last.1, c.last.2, 0⟩)).norm = (⟨c.last.1, c.last.2, 0⟩ : Vec3).norm := by
    rw [hM.norm, (Mat3.rotZ_isRot _).norm]
  unfold Centroid.process at h
  simp only at h
  split_ifs at h with hn
  cases h
  set n := (⟨c.last.1, c.last.2, 0⟩ : Vec3).norm with hndef
  set R := (KdlVectorConverter.vectorToFrame x).M * c.rot with hR
  set ax := R.mulVec ((Mat3.rotZ (Real.pi / 2)).mulVec ⟨c.last.1, c.last.2, 0⟩) with hax
  have hpi := Real.two_le_pi
  have hpi4 := Real.pi_le_four
  have hcos := Real.cos_le_one_sub_mul_cos_sq (x := n * (1 / 10)) (by rw [abs_of_nonneg] <;> linarith)
  have hcos' : 0 ≤ Real.cos (n * (1 / 10)) := Real.cos_nonneg_of_neg_pi_div_two_le_of_le (by linarith) (by linarith)
  have hq : (1 / 8 : ℝ) ≤ 2 / Real.pi ^ 2 := by
    rw [le_div_iff₀ (by positivity)]
    nlinarith
  have hg := getRot_rot (a := ax) (θ := n * (1 / 10)) (by rw [hnorm]; norm_num [eps]; linarith) (by linarith)
    (by linarith) (by
      have : (1 / 100000 : ℝ) ^ 2 ≤ (n * (1 / 10)) ^ 2 := pow_le_pow_left₀ (by norm_num) (by linarith) 2
      have h3 : (1 / 8 : ℝ) * (1 / 100000) ^ 2 ≤ 2 / Real.pi ^ 2 * (n * (1 / 10)) ^ 2 :=
        mul_le_mul hq this (by norm_num) (by positivity)
      norm_num [eps] at h3 ⊢
      linarith) (by norm_num [eps]; linarith)
  show Vec3.cross (Mat3.rot ax (n * (1 / 10))).getRot (cameraAxis c x) = _
  have hn0 : n ≠ 0 := by intro h0; rw [h0] at h1; norm_num at h1
  rw [hg, hnorm, ← hv, ← ho, hax, rotZ_half_mulVec]
  have hk : n * (1 / 10) / n = 1 / 10 := by field_simp
  rw [hk]
  have hcr : Vec3.cross ((1 / 10 : ℝ) • R.mulVec ⟨-c.last.2, c.last.1, 0⟩) (R.mulVec ⟨0, 0, 1⟩) =
      (1 / 10 : ℝ) • Vec3.cross (R.mulVec ⟨-c.last.2, c.last.1, 0⟩) (R.mulVec ⟨0, 0, 1⟩) := by
    ext <;> simp [Vec3.cross] <;> ring
  rw [hcr, hM.cross]
  congr 2
  ext <;> simp [Vec3.cross]

/-- The camera looks along z of the base and sees a target to its right. -/
noncomputable def cameraDemo : Centroid := ⟨1, 1, (1, 0), 0⟩

theorem cameraDemo_axis : cameraAxis cameraDemo [0, 0, 0, 0, 0, 0] = ⟨0, 0, 1⟩ := by
  have h := Mat3.rot_norm (v := 0) (Or.inl rfl)
  rw [Mat3.expRot_zero] at h
  have h1 : (KdlVectorConverter.vectorToFrame [0, 0, 0, 0, 0, 0]).M = 1 := h
  simp [cameraAxis, cameraDemo, h1]

/-- The hypotheses of `C65_approach` and `C65_turn` are met by a device that moves forwards. -/
example : ∃ out, cameraDemo.process (some [0, 0, 0, 0, 0, 0]) ![1, 0, 2, 0, 0, 0] = some out ∧
    cameraDemo.rot.IsRot ∧ 1 / 10000 ≤ (⟨cameraDemo.last.1, cameraDemo.last.2, 0⟩ : Vec3).norm ∧
    (⟨cameraDemo.last.1, cameraDemo.last.2, 0⟩ : Vec3).norm ≤ 10 := by
  have hv : ((KdlVectorConverter.vectorToFrame [0, 0, 0, 0, 0, 0]).M * cameraDemo.rot).mulVec ⟨0, 0, 1⟩ =
      ⟨0, 0, 1⟩ := by
    rw [Mat3.mulVec_mul]; exact cameraDemo_axis
  have hd : ¬ Vec3.dot (KdlVectorConverter.vectorToFrame (Six.toList ![1, 0, 2, 0, 0, 0])).p ⟨0, 0, 1⟩ ≤ 0 := by
    show ¬ Vec3.dot ⟨1, 0, 2⟩ ⟨0, 0, 1⟩ ≤ 0
    norm_num [Vec3.dot]
  refine ⟨_, by unfold Centroid.process; simp only [hv]; rw [if_neg hd], Mat3.IsRot.one, ?_, ?_⟩
  · norm_num [cameraDemo, Vec3.norm, Vec3.dot]
  · norm_num [cameraDemo, Vec3.norm, Vec3.dot]

/-- **C65.** A command of the device that does not approach is left alone: nothing is corrected. -/
theorem C65_no_approach {c : Centroid} {x : List ℝ} {data : Six}
    (h : Vec3.dot ⟨data 0, data 1, data 2⟩ (cameraAxis c x) ≤ 0) : c.process (some x) data = none := by
  have hv : ((KdlVectorConverter.vectorToFrame x).M * c.rot).mulVec ⟨0, 0, 1⟩ = cameraAxis c x := by
    rw [Mat3.mulVec_mul]; rfl
  unfold Centroid.process
  simp only [hv]
  exact if_pos h

/-- A SpaceNavigator with that camera, moving away from what the camera sees. -/
noncomputable def awayDemo : Ctl where
  device := .spnav ⟨false, 1, fun _ => false, fun _ => 0, .none, fun _ => 0, false, false⟩
  scaling := 1
  centroid := some cameraDemo

/-- A cycle of it, with a fresh target. -/
noncomputable def awayCycle : Cycle where
  sensor := [0, 0, -1, 0, 0, 0]
  centroid := some [1, 0]
  stat := some [0, 0, 0, 0, 0, 0]

/-- **C65 does not hold for the robot as a whole.** A target is in sight, and the device asks to move away
from it: that very motion is commanded, opposite to the direction the camera looks at. -/
theorem C65_away_sent :
    cameraAxis cameraDemo [0, 0, 0, 0, 0, 0] = ⟨0, 0, 1⟩ ∧
    (update awayDemo awayCycle).map Prod.snd = some [.move [.twist ![0, 0, -1, 0, 0, 0]]] := by
  refine ⟨cameraDemo_axis, ?_⟩
  have hacq : awayDemo.device.acquire [0, 0, -1, 0, 0, 0] =
      some (.spnav ⟨false, 1, fun _ => false, ![0, 0, -1, 0, 0, 0], .none, fun _ => 0, false, false⟩) := rfl
  rw [update_clear (c := awayDemo) (y := awayCycle) hacq rfl]
  have ht : Spnav.transform ⟨false, 1, fun _ => false, ![0, 0, -1, 0, 0, 0], .none, fun _ => 0, false, false⟩ 1 =
      some ⟨false, 1, fun _ => false, ![0, 0, -1, 0, 0, 0], .none, fun _ => 0, false, false⟩ := by
    simp only [Spnav.transform, baseTransform, Bool.false_eq_true, if_false, one_ne_zero, Option.map_some,
      Option.some.injEq, Spnav.mk.injEq, true_and, and_true]
    funext i
    simp
  have hproc : Centroid.process ⟨1, 1, (1, 0), 0⟩ (some [0, 0, 0, 0, 0, 0]) ![0, 0, -1, 0, 0, 0] = none := by
    refine C65_no_approach ?_
    show Vec3.dot _ (cameraAxis cameraDemo [0, 0, 0, 0, 0, 0]) ≤ 0
    rw [cameraDemo_axis]
    simp [Vec3.dot]
  have hval : Spnav.valid ⟨false, 1, fun _ => false, ![0, 0, -1, 0, 0, 0], .none,
      fun _ => 0, false, false⟩ = true := by
    simp only [Spnav.valid, baseValid, Bool.false_eq_true, if_false, ne_eq, not_true, decide_eq_true_eq]
    exact ⟨2, by simp⟩
  have hg : nextGrip false false .none = .none := rfl
  simp only [proceed, awayDemo, awayCycle, cameraDemo, Device.actuator, hg, Device.transform, ht, Option.map_some,
    applyCentroid, Centroid.accept, if_true, hproc, finish, Device.valid, hval, Device.send, Spnav.send,
    Bool.false_eq_true, if_false, actEvents]
  simp

/-- **C65 fails when the device commands poses.** The device commands poses and is not touched, so its data
is the pose of the robot: position `p`, ahead of the base as the camera sees it. With a target in the
middle of the image, the position commanded is the shadow of `p` on the line through the origin of the
base along the direction of the camera. So the robot is sent sideways, away from where it is, unless it is
on that line. -/
theorem C65_pose_mode_wrong {c : Centroid} {x : Six} (hx : 0 < Vec3.dot ⟨x 0, x 1, x 2⟩ (cameraAxis c x.toList)) :
    ∃ out, c.process (some x.toList) x = some out ∧
      (⟨out 0, out 1, out 2⟩ : Vec3) =
        Vec3.dot ⟨x 0, x 1, x 2⟩ (cameraAxis c x.toList) • cameraAxis c x.toList := by
  have hv : ((KdlVectorConverter.vectorToFrame x.toList).M * c.rot).mulVec ⟨0, 0, 1⟩ = cameraAxis c x.toList := by
    rw [Mat3.mulVec_mul]; rfl
  unfold Centroid.process
  simp only [hv]
  have hx' : ¬ Vec3.dot (KdlVectorConverter.vectorToFrame x.toList).p (cameraAxis c x.toList) ≤ 0 := not_le.2 hx
  rw [if_neg hx']
  exact ⟨_, rfl, rfl⟩

/-- For instance the robot at `(1, 0, 1)` with the camera looking along z is sent to `(0, 0, 1)`. -/
example : 0 < Vec3.dot ⟨1, 0, 1⟩ (cameraAxis cameraDemo (Six.toList ![1, 0, 1, 0, 0, 0])) ∧
    Vec3.dot ⟨1, 0, 1⟩ (cameraAxis cameraDemo (Six.toList ![1, 0, 1, 0, 0, 0])) •
      cameraAxis cameraDemo (Six.toList ![1, 0, 1, 0, 0, 0]) = (⟨0, 0, 1⟩ : Vec3) := by
  have h : cameraAxis cameraDemo (Six.toList ![1, 0, 1, 0, 0, 0]) = ⟨0, 0, 1⟩ := cameraDemo_axis
  rw [h]
  constructor
  · norm_num [Vec3.dot]
  · ext <;> norm_num [Vec3.dot]

end KD.Sdc

/-! ## Haar detection -/

namespace KD.Haar

open scoped Classical

/-- **C65.** A message with a target off the middle of the image makes the robot move towards it, in
proportion to its offset, and forwards unless told not to approach; it never moves backwards or turns. -/
theorem C65_haar_target {r : Responder} {x y : ℝ} (h : x ≠ 0 ∨ y ≠ 0) :
    (onRead r [x, y]).2 =
      [.twist ![x / 10000, -(y / 10000), if r.noApproach then 0 else 1 / 100, 0, 0, 0]] ∧
    (onRead r [x, y]).1.isStopped = false := by
  have hx : (if |x| > 0 then x * (1 / 10000) else 0) = x / 10000 := by
    split_ifs with hx
    · ring
    · have : x = 0 := by by_contra hc; exact hx (abs_pos.2 hc)
      rw [this]; simp
  have hy : (if |y| > 0 then y * (1 / 10000) else 0) = y / 10000 := by
    split_ifs with hy
    · ring
    · have : y = 0 := by by_contra hc; exact hy (abs_pos.2 hc)
      rw [this]; simp
  have hm : |x| > 0 ∨ |y| > 0 := h.imp abs_pos.2 abs_pos.2
  simp only [onRead, hx, hy]
  rw [if_pos hm]
  exact ⟨rfl, rfl⟩

/-- The robot was set in motion and not stopped since. -/
def Moving (e : List Call) : Prop := ∃ pre x, e = pre ++ [.twist x]

theorem onRead_spec (r : Responder) (b : List ℝ) :
    ((onRead r b).2 = [] ∧ (onRead r b).1.isStopped = r.isStopped) ∨
    ((onRead r b).2 = [.stopControl] ∧ r.isStopped = false ∧ (onRead r b).1.isStopped = true) ∨
    (∃ x, (onRead r b).2 = [.twist x] ∧ (onRead r b).1.isStopped = false) := by
  unfold onRead
  split
  · rename_i a b
    simp only
    by_cases h1 : |a| > 0 ∨ |b| > 0
    · rw [if_pos h1]
      exact Or.inr (Or.inr ⟨_, rfl, rfl⟩)
    · rw [if_neg h1]
      cases h2 : r.isStopped with
      | false => exact Or.inr (Or.inl ⟨rfl, rfl, rfl⟩)
      | true => exact Or.inl ⟨rfl, rfl⟩
  · exact Or.inl ⟨rfl, rfl⟩

theorem run_calls {l : List (List ℝ)} : ∀ {r : Responder} {e : List Call},
    (r.isStopped = false ↔ Moving e) →
    (∀ pre post, e = pre ++ .stopControl :: post → Moving pre) →
    ∀ pre post, e ++ (run r l).2.flatten = pre ++ .stopControl :: post → Moving pre := by
  induction l with
  | nil =>
    intro r e _ h2 pre post h
    exact h2 pre post (by simpa [run] using h)
  | cons b l ih =>
    intro r e h1 h2 pre post h
    replace h : e ++ ((onRead r b).2 ++ (run (onRead r b).1 l).2.flatten) = pre ++ .stopControl :: post := by
      simpa [run] using h
    rw [← List.append_assoc] at h
    refine ih ?_ ?_ pre post h
    · rcases onRead_spec r b with ⟨k1, k2⟩ | ⟨k1, k2, k3⟩ | ⟨x, k1, k2⟩
      · rw [k1, k2, List.append_nil]; exact h1
      · rw [k1, k3]
        simp only [Bool.true_eq_false, false_iff]
        rintro ⟨p, x, hp⟩
        have := (List.append_inj' hp rfl).2
        simp at this
      · rw [k1, k2]
        exact ⟨fun _ => ⟨e, x, rfl⟩, fun _ => rfl⟩
    · intro p q hpq
      rcases onRead_spec r b with ⟨k1, k2⟩ | ⟨k1, k2, k3⟩ | ⟨x, k1, k2⟩
      · rw [k1, List.append_nil] at hpq; exact h2 p q hpq
      · rw [k1] at hpq
        rcases List.eq_nil_or_concat q with rfl | ⟨q', a, rfl⟩
        · rw [← (List.append_inj' hpq rfl).1]; exact h1.1 k2
        · rw [List.concat_eq_append] at hpq
          have h3 : e ++ [Call.stopControl] = (p ++ .stopControl :: q') ++ [a] := by rw [hpq]; simp
          exact h2 p q' (List.append_inj' h3 rfl).1
      · rw [k1] at hpq
        rcases List.eq_nil_or_concat q with rfl | ⟨q', a, rfl⟩
        · have := (List.append_inj' hpq rfl).2
          simp at this
        · rw [List.concat_eq_append] at hpq
          have h3 : e ++ [Call.twist x] = (p ++ .stopControl :: q') ++ [a] := by rw [hpq]; simp
          exact h2 p q' (List.append_inj' h3 rfl).1

/-- **C65.** Over every sequence of messages, garbled ones included, each stop directly follows a motion
command: losing the target stops the robot once. -/
theorem C65_haar_stop_once (noApproach : Bool) (l : List (List ℝ)) (pre post : List Call)
    (h : (run ⟨true, noApproach⟩ l).2.flatten = pre ++ .stopControl :: post) :
    ∃ pre' x, pre = pre' ++ [.twist x] := by
  refine run_calls (r := ⟨true, noApproach⟩) (e := []) ?_ ?_ pre post (by simpa using h)
  · simp only [Bool.true_eq_false, false_iff]
    rintro ⟨p, x, hp⟩
    simp at hp
  · intro p q hpq
    simp at hpq

/-- **C65.** When the message tells that there is no offset, a moving robot is stopped at once. -/
theorem C65_haar_lost {r : Responder} (h : r.isStopped = false) :
    (onRead r [0, 0]).2 = [.stopControl] ∧ (onRead r [0, 0]).1.isStopped = true := by
  simp [onRead, h]

/-- **C65, a consequence.** A target exactly in the middle of the image cannot be told from no target: the
robot is stopped and does not approach it. Nothing at all happens while no message arrives. -/
theorem C65_haar_centred_wrong :
    (run ⟨true, false⟩ [[1, 0], [0, 0], [0, 0]]).2 =
      [[.twist ![1 / 10000, -(0 / 10000), 1 / 100, 0, 0, 0]], [.stopControl], []] := by
  obtain ⟨h1, h2⟩ := C65_haar_target (r := ⟨true, false⟩) (x := 1) (y := 0) (Or.inl one_ne_zero)
  obtain ⟨h3, h4⟩ := C65_haar_lost h2
  have h5 : ∀ r : Responder, r.isStopped = true → (onRead r [0, 0]).2 = [] := by
    intro r hr; simp [onRead, hr]
  simp only [run, h1, h3, h5 _ h4]
  simp

end KD.Haar
