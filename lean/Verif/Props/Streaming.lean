import Verif.Props.ControlLoop

/-!
# C37: streamed commands
-/

namespace KD.Ctrl

open scoped Classical
open Prog (wp wp_bind wp_of_run wp_sound can can_bind can_run Run)

/-- No movement is in progress, the user has set one of the streaming commands `cmds`, and all joints
are in the control mode it needs. -/
structure StreamActive (s : Ctl) (cmds : List ℤ) (mode : Mode) (tr : List Ev) : Prop where
  idle : s.state = .notControlling
  active : s.streaming ∈ cmds
  modes : ∃ ms, Ev.getControlModes (some ms) ∈ tr ∧ ∀ m ∈ ms, m = mode

/-- Joint by joint difference. -/
def minus (a b : List ℝ) : List ℝ := List.zipWith (· - ·) a b

theorem LimitsOrAway.congr {cfg : Cfg} {q v w : List ℝ} (h : LimitsOrAway cfg q v)
    (e : ∀ j < cfg.numJoints, v[j]? = w[j]?) : LimitsOrAway cfg q w := by
  intro j hj
  obtain ⟨a, lo, hi, h1, h2, h3, h4⟩ := h j hj
  exact ⟨a, lo, hi, h1, h2, h3, by rwa [← e j hj]⟩

/-- `pose` sends a motion command only if streaming of poses is active, the encoders were read, inverse
kinematics gave a solution and every joint is inside its range or is sent away from its limit; the
command is the solution, in position direct mode. -/
theorem C37_pose_checked_partial {cfg : Cfg} {x : List ℝ} {s s' : Ctl} {tr : List Ev} {o : Out Unit}
    (h : Exec cfg (pose cfg x) s tr o s') (e : Ev) (he : e ∈ tr) (hm : IsMotion e) :
    StreamActive s [vocabPose, vocabMovi] .positionDirect tr ∧ ∃ q sol r,
      Ev.getEncoders (some q) ∈ tr ∧ Ev.invKin x q s.frame (some sol) ∈ tr ∧
      LimitsOrAway cfg q (minus sol q) ∧ e = Ev.setPositions (sol.take cfg.numJoints) r := by
  refine wp_sound (Q := fun _ _ tr => ∀ e ∈ tr, IsMotion e →
    StreamActive s [vocabPose, vocabMovi] .positionDirect tr ∧ ∃ q sol r,
      Ev.getEncoders (some q) ∈ tr ∧ Ev.invKin x q s.frame (some sol) ∈ tr ∧
      LimitsOrAway cfg q (minus sol q) ∧ e = Ev.setPositions (sol.take cfg.numJoints) r) ?_ h e he hm
  clear h he hm
  unfold pose streamingReady getCurrentState
  dev_simp
  refine ⟨by simp, fun hst => ⟨fun hs => ?_, by simp⟩⟩
  rw [wp_checkControlModes]
  refine ⟨by dev_simp; simp [IsMotion], fun ms hms => ?_⟩
  dev_simp
  refine ⟨fun hall => ⟨by simp [IsMotion], fun q hq => ⟨by simp [IsMotion], fun sol => ?_⟩⟩,
    by simp [IsMotion]⟩
  refine ⟨by simp [IsMotion], fun d hd => ⟨by simp [IsMotion], fun b hb => ⟨?_, by simp [IsMotion]⟩⟩⟩
  rintro rfl
  refine ⟨by simp [IsMotion], fun target ht r => ?_⟩
  intro e he hm
  refine ⟨⟨not_not.mp hst, by simpa using hs, ms, by simp, by simpa using hall⟩, q, sol, r, by simp,
    by simp, ?_, ?_⟩
  · unfold jointDiff at hd
    split at hd
    · simp at hd
    · rename_i hlen
      push Not at hlen
      rw [← Option.some.inj hd] at hb
      refine ((checkJointLimitsDir_iff _ _ _).mp hb).congr fun j hj => ?_
      simp only [minus, List.getElem?_zipWith, List.getElem?_take, hj, if_true]
  · have hb2 : target = sol.take cfg.numJoints := by
      unfold buffer at ht
      split at ht
      · simp at ht
      · exact (Option.some.inj ht).symm
    simp only [List.mem_append, List.mem_cons, List.not_mem_nil, or_false, false_or] at he
    rcases he with (((rfl | rfl) | rfl)) | rfl <;> simp_all [IsMotion]

/-- `twist` sends a motion command only if streaming of velocities is active. It is either the solution
of the differential inverse kinematics, with every joint inside its range or moving away from its limit
and every joint speed within its limits, or the order to stand still. -/
theorem C37_twist_checked_partial {cfg : Cfg} {x : List ℝ} {s s' : Ctl} {tr : List Ev} {o : Out Unit}
    (h : Exec cfg (twist cfg x) s tr o s') (e : Ev) (he : e ∈ tr) (hm : IsMotion e) :
    StreamActive s [vocabTwist] .velocity tr ∧
      ((∃ q sol r, Ev.getEncoders (some q) ∈ tr ∧ Ev.diffInvKin q x s.frame (some sol) ∈ tr ∧
        LimitsOrAway cfg q sol ∧ InVelLimits cfg sol ∧
        e = Ev.velocityMove (sol.take cfg.numJoints) r) ∨
      ∃ r, e = Ev.velocityMove (List.replicate cfg.numJoints 0) r) := by
  refine wp_sound (Q := fun _ _ tr => ∀ e ∈ tr, IsMotion e → StreamActive s [vocabTwist] .velocity tr ∧
      ((∃ q sol r, Ev.getEncoders (some q) ∈ tr ∧ Ev.diffInvKin q x s.frame (some sol) ∈ tr ∧
        LimitsOrAway cfg q sol ∧ InVelLimits cfg sol ∧
        e = Ev.velocityMove (sol.take cfg.numJoints) r) ∨
      ∃ r, e = Ev.velocityMove (List.replicate cfg.numJoints 0) r)) ?_ h e he hm
  clear h he hm
  unfold twist streamingReady getCurrentState
  dev_simp
  refine ⟨by simp, fun hst => ⟨fun hs => ?_, by simp⟩⟩
  rw [wp_checkControlModes]
  refine ⟨by dev_simp; simp [IsMotion], fun ms hms => ?_⟩
  dev_simp
  refine ⟨fun hall => ?_, by simp [IsMotion]⟩
  have hact : ∀ tr, StreamActive s [vocabTwist] .velocity ([Ev.getControlModes (some ms)] ++ tr) :=
    fun tr => ⟨not_not.mp hst, by simpa using hs, ms, by simp, by simpa using hall⟩
  unfold twistBody
  dev_simp
  refine ⟨⟨by simp, fun _ r => ?_⟩, fun q hq => ⟨⟨by simp, fun _ r => ?_⟩, fun sol => ⟨by simp [IsMotion],
    fun b1 hb1 => ⟨fun h1 => ⟨by simp [IsMotion], fun b2 hb2 => ⟨fun h2 => ⟨by simp [IsMotion],
      fun v hv r => ⟨fun _ => ?_, by simp⟩⟩, fun h2 => ⟨by simp, fun _ r => ?_⟩⟩⟩,
      fun h1 => ⟨by simp, fun _ r => ?_⟩⟩⟩⟩⟩
  all_goals
    intro e he hm
    refine ⟨by simpa using hact _, ?_⟩
    simp only [List.mem_append, List.mem_cons, List.not_mem_nil, or_false, false_or] at he
  · rcases he with (rfl | rfl) | rfl <;> first | (simp [IsMotion] at hm; done) | exact Or.inr ⟨r, rfl⟩
  · rcases he with ((rfl | rfl) | rfl) | rfl <;> first | (simp [IsMotion] at hm; done) | exact Or.inr ⟨r, rfl⟩
  · left
    have hb : v = sol.take cfg.numJoints := by
      unfold buffer at hv
      split at hv
      · simp at hv
      · exact (Option.some.inj hv).symm
    rw [h1] at hb1
    rw [h2] at hb2
    refine ⟨q, sol, r, by simp, by simp, (checkJointLimitsDir_iff _ _ _).mp hb1,
      (checkJointVelocities_iff _ _).mp hb2, ?_⟩
    rcases he with ((rfl | rfl) | rfl) | rfl <;> first | (simp [IsMotion] at hm; done) | rw [hb]
  · rcases he with ((rfl | rfl) | rfl) | rfl <;> first | (simp [IsMotion] at hm; done) | exact Or.inr ⟨r, rfl⟩
  · rcases he with ((rfl | rfl) | rfl) | rfl <;> first | (simp [IsMotion] at hm; done) | exact Or.inr ⟨r, rfl⟩

/-- `wrench` sends a motion command only if streaming of forces is active. It is either the solution of
the inverse dynamics, with every joint inside its range, or zero torques. -/
theorem C37_wrench_checked_partial {cfg : Cfg} {w : List ℝ} {s s' : Ctl} {tr : List Ev} {o : Out Unit}
    (h : Exec cfg (wrench cfg w) s tr o s') (e : Ev) (he : e ∈ tr) (hm : IsMotion e) :
    StreamActive s [vocabWrench] .torque tr ∧
      ((∃ q v a sol r, Ev.getEncoders (some q) ∈ tr ∧ Ev.getEncoderSpeeds (some v) ∈ tr ∧
        Ev.getEncoderAccelerations (some a) ∈ tr ∧ InLimits cfg q ∧
        Ev.invDyn q v a (w.map fun f => -f) s.frame (some sol) ∈ tr ∧
        e = Ev.setRefTorques (sol.take cfg.numJoints) r) ∨
      ∃ r, e = Ev.setRefTorques (List.replicate cfg.numJoints 0) r) := by
  refine wp_sound (Q := fun _ _ tr => ∀ e ∈ tr, IsMotion e → StreamActive s [vocabWrench] .torque tr ∧
      ((∃ q v a sol r, Ev.getEncoders (some q) ∈ tr ∧ Ev.getEncoderSpeeds (some v) ∈ tr ∧
        Ev.getEncoderAccelerations (some a) ∈ tr ∧ InLimits cfg q ∧
        Ev.invDyn q v a (w.map fun f => -f) s.frame (some sol) ∈ tr ∧
        e = Ev.setRefTorques (sol.take cfg.numJoints) r) ∨
      ∃ r, e = Ev.setRefTorques (List.replicate cfg.numJoints 0) r)) ?_ h e he hm
  clear h he hm
  unfold wrench streamingReady getCurrentState
  dev_simp
  refine ⟨by simp, fun hst => ⟨fun hs => ?_, by simp⟩⟩
  rw [wp_checkControlModes]
  refine ⟨by dev_simp; simp [IsMotion], fun ms hms => ?_⟩
  dev_simp
  refine ⟨fun hall => ?_, by simp [IsMotion]⟩
  have hact : ∀ tr, StreamActive s [vocabWrench] .torque ([Ev.getControlModes (some ms)] ++ tr) :=
    fun tr => ⟨not_not.mp hst, by simpa using hs, ms, by simp, by simpa using hall⟩
  unfold wrenchBody
  dev_simp
  refine ⟨⟨by simp, fun _ r => ?_⟩, fun q hq => ⟨⟨by simp, fun _ r => ?_⟩, fun v hv => ⟨⟨by simp, fun _ r => ?_⟩,
    fun a ha => ⟨by simp [IsMotion], fun b hb => ⟨fun hb1 => ⟨⟨by simp, fun _ r => ?_⟩, fun sol =>
      ⟨by simp [IsMotion], fun t ht r => ⟨fun _ => ?_, by simp⟩⟩⟩, fun hb1 => ⟨by simp, fun _ r => ?_⟩⟩⟩⟩⟩⟩
  all_goals
    intro e he hm
    refine ⟨by simpa using hact _, ?_⟩
    simp only [List.mem_append, List.mem_cons, List.not_mem_nil, or_false, false_or] at he
  · rcases he with (rfl | rfl) | rfl <;> first | (simp [IsMotion] at hm; done) | exact Or.inr ⟨r, rfl⟩
  · rcases he with ((rfl | rfl) | rfl) | rfl <;> first | (simp [IsMotion] at hm; done) | exact Or.inr ⟨r, rfl⟩
  · rcases he with (((rfl | rfl) | rfl) | rfl) | rfl <;> first | (simp [IsMotion] at hm; done) | exact Or.inr ⟨r, rfl⟩
  · rcases he with ((((rfl | rfl) | rfl) | rfl) | rfl) | rfl <;> first | (simp [IsMotion] at hm; done) | exact Or.inr ⟨r, rfl⟩
  · left
    have hbt : t = sol.take cfg.numJoints := by
      unfold buffer at ht
      split at ht
      · simp at ht
      · exact (Option.some.inj ht).symm
    rw [hb1] at hb
    refine ⟨q, v, a, sol, r, by simp, by simp, by simp, (checkJointLimits_iff _ _).mp hb, by simp, ?_⟩
    rcases he with ((((rfl | rfl) | rfl) | rfl) | rfl) | rfl <;>
      first | (simp [IsMotion] at hm; done) | rw [hbt]
  · rcases he with (((rfl | rfl) | rfl) | rfl) | rfl <;> first | (simp [IsMotion] at hm; done) | exact Or.inr ⟨r, rfl⟩

/-- A controller on which the user has set a streaming command. -/
noncomputable def streamingOf (cmd : ℤ) : Ctl := { ready with streaming := cmd }

/-- The hypotheses are met: a twist is followed. -/
example : ∃ tr s', Exec oneJoint (twist oneJoint [1, 0, 0, 0, 0, 0]) (streamingOf vocabTwist) tr (.ok ()) s' ∧
    Ev.velocityMove [3] true ∈ tr := by
  have h : can (robot oneJoint) (twist oneJoint [1, 0, 0, 0, 0, 0]) (fun o _ tr => o = .ok () ∧
      Ev.velocityMove [3] true ∈ tr) (streamingOf vocabTwist) [] := by
    unfold twist streamingReady getCurrentState checkControlModes twistBody
    can_simp
    refine Or.inr ⟨by simp [streamingOf, ready, Ctl.initial], Or.inl ⟨by simp [streamingOf], some [.velocity],
      some_length rfl, ?_⟩⟩
    can_simp
    refine Or.inl ⟨by simp, some [0], some_length rfl, ?_⟩
    can_simp
    refine ⟨some [3], ?_⟩
    can_simp
    refine Or.inr ⟨true, (checkJointLimitsDir_iff _ _ _).mpr ?_, Or.inl ⟨rfl, Or.inr ⟨true,
      (checkJointVelocities_iff _ _).mpr ?_, Or.inl ⟨rfl, Or.inr ⟨[3], by simp [buffer, oneJoint], true,
        Or.inl ⟨trivial, trivial, by simp⟩⟩⟩⟩⟩⟩
    · intro j hj
      obtain ⟨v, lo, hi, h1, h2, h3, h4⟩ := oneJoint_inLimits (v := 0) (by norm_num) (by norm_num) j hj
      exact ⟨v, lo, hi, h1, h2, h3, Or.inl h4⟩
    · exact oneJoint_inVelLimits (by norm_num)
  obtain ⟨tr, o, s', hr, rfl, h⟩ := can_run h
  exact ⟨tr, s', hr, h⟩

/-- Not nothing: when inverse dynamics fails, `wrench` orders zero torques, which lets the arm fall. -/
theorem C37_zero_torques_on_failure : ∃ tr s' q v a w f,
    Exec oneJoint (wrench oneJoint [0, 0, 0, 0, 0, 0]) (streamingOf vocabWrench) tr (.ok ()) s' ∧
    Ev.invDyn q v a w f none ∈ tr ∧ Ev.setRefTorques [0] true ∈ tr := by
  have h : can (robot oneJoint) (wrench oneJoint [0, 0, 0, 0, 0, 0]) (fun o _ tr => o = .ok () ∧
      ∃ q v a w f, Ev.invDyn q v a w f none ∈ tr ∧ Ev.setRefTorques [0] true ∈ tr)
      (streamingOf vocabWrench) [] := by
    unfold wrench streamingReady getCurrentState checkControlModes wrenchBody
    can_simp
    refine Or.inr ⟨by simp [streamingOf, ready, Ctl.initial], Or.inl ⟨by simp [streamingOf], some [.torque],
      some_length rfl, ?_⟩⟩
    can_simp
    refine Or.inl ⟨by simp, some [0], some_length rfl, ?_⟩
    can_simp
    refine ⟨some [0], some_length rfl, ?_⟩
    can_simp
    refine ⟨some [0], some_length rfl, ?_⟩
    can_simp
    refine Or.inr ⟨true, (checkJointLimits_iff _ _).mpr (oneJoint_inLimits (by norm_num) (by norm_num)), Or.inl ⟨rfl,
      none, ?_⟩⟩
    can_simp
    exact Or.inr ⟨by simp, true, trivial, [0], [0], [0], _, _, by simp; exact ⟨rfl, rfl⟩, by simp [oneJoint]⟩
  obtain ⟨tr, o, s', hr, rfl, q, v, a, w, f, h⟩ := can_run h
  exact ⟨tr, s', q, v, a, w, f, hr, h⟩

/-- The target of `pose` is not checked: a joint with a range of ±10 is sent to 100. -/
theorem C37_pose_target_out_of_limits : ∃ tr s' x,
    Exec oneJoint (pose oneJoint x) (streamingOf vocabPose) tr (.ok ()) s' ∧
    Ev.setPositions [100] true ∈ tr ∧ ¬InLimits oneJoint [100] := by
  have h : can (robot oneJoint) (pose oneJoint [0, 0, 0, 0, 0, 0]) (fun o _ tr => o = .ok () ∧
      Ev.setPositions [100] true ∈ tr) (streamingOf vocabPose) [] := by
    unfold pose streamingReady getCurrentState checkControlModes
    can_simp
    refine Or.inr ⟨by simp [streamingOf, ready, Ctl.initial], Or.inl ⟨by simp [streamingOf],
      some [.positionDirect], some_length rfl, ?_⟩⟩
    can_simp
    refine Or.inl ⟨by simp, some [0], some_length rfl, ?_⟩
    can_simp
    refine ⟨some [100], ?_⟩
    can_simp
    refine Or.inr ⟨[100 - 0], by simp [jointDiff, oneJoint], Or.inr ⟨true,
      (checkJointLimitsDir_iff _ _ _).mpr ?_, Or.inl ⟨rfl, Or.inr ⟨[100], by simp [buffer, oneJoint], true,
        trivial, by simp⟩⟩⟩⟩
    intro j hj
    obtain ⟨v, lo, hi, h1, h2, h3, h4⟩ := oneJoint_inLimits (v := 0) (by norm_num) (by norm_num) j hj
    exact ⟨v, lo, hi, h1, h2, h3, Or.inl h4⟩
  obtain ⟨tr, o, s', hr, rfl, h⟩ := can_run h
  refine ⟨tr, s', _, hr, h, fun hl => ?_⟩
  obtain ⟨v, lo, hi, h1, h2, h3, h4, h5⟩ := hl 0 (by simp [oneJoint])
  simp only [oneJoint, List.getElem?_cons_zero, Option.some.injEq] at h1 h3
  subst h1 h3
  norm_num [tol] at h5

end KD.Ctrl
