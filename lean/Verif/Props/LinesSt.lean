import Verif.Props.Lines
import Verif.Props.WithStCases

/-!
# C86: lines of joint positions from the default inverse kinematics
-/

namespace KD.Ctrl

open KdlConfig (Val Group)
open KdlVectorConverter
open Prog (can can_run can_mono can_bind)

variable {a : Outside} {w : World} {st : List Link → Bool} {wt : Bool} {c : KdlConfig.Config} {cfg : Cfg} {s0 : Ctl}
  {d0 : StDevice} {base tip : Frame} {descs : List KdlConfig.Desc}

/-- C86: after a line was accepted (`movl`) by a controller that sends joint positions, the commands that the loop sends,
however many cycles and other calls later, are within the limits; if the solver found the pose of the line for that time
within reach, they put the arm at this pose, at the points that the steps settle. Partial: as for single poses; other
points are not settled, and for a pose out of reach the joints move to something near it. With joint velocities, the
position solver has no part and C82 applies. -/
theorem C86_line_partial (h : DeployedSt a w st wt c cfg s0 d0) (hrob : KdlConfig.Robot c base descs tip)
    (hb : base.IsRigid) (htip : tip.IsRigid) (hp : ∀ d ∈ descs, d.Plain) (hl : BuildsLines cfg) (hposd : cfg.usePosdMovl = true)
    {s s1 s2 : Ctl} {ds ds2 : List Done} (hh : Hist cfg s0 ds s) {xd : List ℝ} (hxd : xd.length = 6) (hT : 0 < s.duration)
    {tr : List Ev} (hx : Exec cfg (Op.prog cfg (.movl xd)) s tr (.ok (some true)) s1) (hh2 : Hist cfg s1 ds2 s2)
    (hno : ∀ d ∈ ds2, d.op.target = none) {d' : StDevice}
    (hd : d0.Answered a (callsOf (ds ++ ⟨.movl xd, tr, some true⟩ :: ds2)) d') :
    ∃ q start, Ev.getEncoders (some q) ∈ tr ∧ Ev.now start ∈ tr ∧
      let A := arm base descs tip (lastTool ds) q
      let B := aim s.frame A (vectorToFrame xd)
      A.M.Regular → B.M.Regular → (A.M.transpose * B.M).Regular → Clear (B.p - A.p) →
      ∃ traj, GoesStraight A B traj ∧ Smooth traj 10 10 ∧
        traj.duration = max s.duration (shortest (max (B.p - A.p).norm (angleOf (A.M.transpose * B.M)))) ∧
        ∀ pre d post, ds2 = pre ++ d :: post → d.op = .cycle → ∀ e ∈ d.calls, IsMotion e →
          ∃ t v b, Ev.now t ∈ d.calls ∧ e = .setPositions v b ∧ WithinLimits cfg v ∧
            ((traj.pos (t - start)).M.Regular → ∃ d1 rnd pb subs ok,
              d0.Answered a (callsOf (ds ++ ⟨.movl xd, tr, some true⟩ :: pre)) d1 ∧
              Solution a d1.dyn (traj.pos (t - start)) v rnd pb subs ok ∧ (ok = true → Margin pb.poe.exps →
                NearTarget descs.length pb subs (traj.pos (t - start))
                  (arm base descs tip (lastTool (ds ++ ⟨.movl xd, tr, some true⟩ :: pre)) v))) := by
  obtain ⟨plan, hpl, hc⟩ := C71_commands_serve_partial (st := .movl) rfl (by simp) hx
  cases plan with
  | ray => obtain ⟨xd, q, x, hp, -⟩ := hpl; cases hp
  | push | weight => cases hpl
  | line paths start =>
    have hn := (h.deployed.facts hrob).1
    have hd0 := hd
    rw [callsOf_append] at hd0
    obtain ⟨k1, f1, f2⟩ := StDevice.answered_append hd0
    rw [show callsOf (⟨.movl xd, tr, some true⟩ :: ds2) = tr ++ callsOf ds2 by simp [callsOf]] at f2
    obtain ⟨k2, f3, -⟩ := StDevice.answered_append f2
    obtain ⟨q, h1, h2, h3⟩ := h.deployed.line hrob hb htip (plain_turns hp) hl hh hxd hT hx (StDevice.forget_all f1)
      (StDevice.forget_all f3) hpl
    refine ⟨q, start, h1, h2, fun hA hB hAB hcl => ?_⟩
    obtain ⟨traj, rfl, g2, g3, g4, g5⟩ := h3 hA hB hAB hcl
    refine ⟨traj, g2, g3, g4, fun pre d post hds hcy e he hm => ?_⟩
    obtain ⟨t, ht1, -, ht2⟩ := hc ds2 s2 hh2 hno d (by simp [hds]) hcy e he hm
    rw [if_pos hposd] at ht2
    obtain ⟨q', v, r, e1, e2, rfl⟩ := ht2
    subst hds
    -- the solver before that cycle
    obtain ⟨s3, s4, m1, m2, -⟩ := hist_split hh2
    have hh3 : Hist cfg s0 (ds ++ ⟨.movl xd, tr, some true⟩ :: pre) s3 := hist_append hh (.cons hx m1)
    rw [show ds ++ (⟨.movl xd, tr, some true⟩ : Done) :: (pre ++ d :: post) =
      (ds ++ ⟨.movl xd, tr, some true⟩ :: pre) ++ d :: post by simp, callsOf_append] at hd
    obtain ⟨d1, n1, n2⟩ := StDevice.answered_append hd
    rw [show callsOf (d :: post) = d.calls ++ callsOf post by simp [callsOf]] at n2
    obtain ⟨d2, n3, -⟩ := StDevice.answered_append n2
    have hq := encoders_sized m2 e1
    obtain ⟨j1, j2⟩ := h.reach hrob hh3 n1 m2 n3 e2 hq
    rw [List.take_of_length_le j1.1.le]
    refine ⟨t, v, r, ht1, rfl, j1, fun hreg => ?_⟩
    obtain ⟨rnd, pb, subs, ok, j3⟩ := j2 (plain_turns hp)
    have e9 : vectorToFrame (posesAt [traj] (t - start)) = traj.pos (t - start) := by
      simp only [posesAt, List.flatMap_cons, List.flatMap_nil, List.append_nil]
      exact C31_frame_round_trip_partial (g5 _) hreg
    rw [show aim .base (arm base descs tip (lastTool (ds ++ ⟨.movl xd, tr, some true⟩ :: pre)) q')
      (vectorToFrame (posesAt [traj] (t - start))) = traj.pos (t - start) from e9] at j3
    refine ⟨d1, rnd, pb, subs, ok, n1, j3, ?_⟩
    rintro rfl hmar
    exact h.deployed.near hrob hb htip hp hh3 (StDevice.forget_all n1) (g5 _) (j1.1.trans hn) j3 hmar

/-! ## The hypotheses are met -/

/-- A link of length one that turns, moved with joint positions. -/
noncomputable def posdTable : KdlConfig.Config where
  top := KdlConfig.group [("numLinks", .int 1), ("usePosdMovl", .int 1)]
  group := table.group

theorem posd_robot : KdlConfig.Robot posdTable 1 [.dh 0 0 1 0] 1 := by
  refine ⟨rfl, Or.inr ⟨rfl, rfl⟩, fun i d hd => ?_, Or.inr ⟨rfl, rfl⟩⟩
  match i with
  | 0 =>
    rw [← Option.some.inj hd]
    exact .dh (g := KdlConfig.group [("A", .num 1)]) rfl (Or.inr ⟨rfl, rfl⟩) (Or.inr ⟨rfl, rfl⟩) (Or.inl rfl) (Or.inr ⟨rfl, rfl⟩)
  | i + 1 => simp at hd

theorem posd_opens : ∃ cfg s0 d0, OneJoint posdTable cfg s0 d0 ∧ d0.st = ⟨turnProblem, some turnLimits, 0⟩ := by
  have hp : Poe.fromChain (tableLinks.map (·.seg)) = ⟨[turnExp], Frame.trans ⟨1, 0, 0⟩⟩ := by
    rw [← List.append_nil (List.map _ _), table_poe]
    rfl
  have hc : KdlConfig.chain posdTable = some tableLinks := rfl
  obtain ⟨cfg, s0, d0, h⟩ := one_deployed (c := posdTable) (Or.inr (Or.inr rfl)) rfl hc hp
  obtain ⟨h1, h2, -⟩ := h.solver hc hp
  exact ⟨cfg, s0, d0, h, h2 rfl⟩

theorem quarter_regular : (arm 1 [.dh 0 0 1 0] 1 1 [90]).M.Regular := by
  have : (arm 1 [.dh 0 0 1 0] 1 1 [90]).M.cosAngle = 0 := by
    simp only [arm, List.zipWith_cons_cons, List.zipWith_nil_left, List.prod_cons, List.prod_nil, KdlConfig.Desc.place,
      zero_mul, Mat3.rot2_zero, mul_one, one_mul, add_zero, right_angle]
    simp [Mat3.cosAngle, Frame.trans, Mat3.rot2]
  refine Or.inl ⟨?_, ?_⟩ <;> rw [this] <;> norm_num [eps]

/-- A line along the second axis, away from where the arm points, and its first cycle: the joint is sent where it was. -/
example : ∃ cfg s0 d0, DeployedSt counted turnWorld (fun _ => true) true posdTable cfg s0 d0 ∧
    KdlConfig.Robot posdTable 1 [.dh 0 0 1 0] 1 ∧ BuildsLines cfg ∧ cfg.usePosdMovl = true ∧ 0 < s0.duration ∧
    ∃ xd tr s1 tr2 s2 d', xd.length = 6 ∧ Exec cfg (Op.prog cfg (.movl xd)) s0 tr (.ok (some true)) s1 ∧
      Hist cfg s1 [⟨.cycle, tr2, none⟩] s2 ∧
      d0.Answered counted (callsOf ([] ++ ⟨.movl xd, tr, some true⟩ :: [⟨.cycle, tr2, none⟩])) d' ∧
      d'.st.error = 0 ∧ Ev.setPositions [90] true ∈ tr2 ∧ ∀ q, Ev.getEncoders (some q) ∈ tr →
        let A := arm 1 [.dh 0 0 1 0] 1 1 q
        let B := aim s0.frame A (vectorToFrame xd)
        A.M.Regular ∧ B.M.Regular ∧ (A.M.transpose * B.M).Regular ∧ B.p - A.p = ⟨0, 1, 0⟩ := by
  obtain ⟨cfg, s0, d0, h, hst⟩ := posd_opens
  have hpo : cfg.usePosdMovl = true := by rw [h.posd]; rfl
  set A := arm 1 [.dh 0 0 1 0] 1 1 [90] with hA
  have rA : A.IsRigid := arm_isRigid .one .one _ [] _
  have gA : A.M.Regular := quarter_regular
  have pA : A.p = ⟨0, 1, 0⟩ := by rw [hA, table_arm, right_angle, Real.cos_pi_div_two, Real.sin_pi_div_two]
  let B : Frame := ⟨A.M, ⟨0, 2, 0⟩⟩
  have rB : B.IsRigid := rA
  have eA := C31_frame_round_trip_partial rA gA
  have eB : vectorToFrame (frameToVector B) = B := C31_frame_round_trip_partial rB gA
  have hAB : (A.M.transpose * B.M).Regular := by
    show (A.M.transpose * A.M).Regular
    rw [rA.left]
    exact one_regular
  obtain ⟨path, p1, -, p3⟩ := C76_smooth (a := A) (b := B) (T := 10) rA (by norm_num)
  have p4 : 0 ≤ path.duration := by
    obtain ⟨t2, m1, m2⟩ := C76_duration (a := A) (b := B) (T := 10) rA rB hAB (by norm_num)
    rw [p1] at m1
    cases m1
    rw [m2]
    exact le_max_of_le_left (by norm_num)
  have hline : lineTrajs cfg s0.duration (frameToVector A) (frameToVector B) 0 ((frameToVector B).length / 6) = some [path] := by
    have l1 : (frameToVector A).length = 6 := rfl
    have l2 : (frameToVector B).length = 6 := rfl
    have := h.lines _ _ _ _ p1
    rw [l2]
    show lineTrajs cfg s0.duration (frameToVector A) (frameToVector B) 0 1 = _
    simp only [lineTrajs, slice, l1, l2, h.duration, Nat.zero_mul, List.drop_zero]
    rw [List.take_of_length_le l1.le, List.take_of_length_le l2.le]
    simp [eA, eB, this]
  let mid : Ctl := { s0 with trajectories := [path], movementStartTime := 0, cmcSuccess := true, state := .movl,
                             streaming := vocabNotSet }
  have hc : can (robot cfg) (Op.prog cfg (.movl (frameToVector B))) (fun o s' tr => o = .ok (some true) ∧ s' = mid ∧ tr =
      [Ev.getEncoders (some [90]), Ev.fwdKin [90] (some (frameToVector A)),
      Ev.getControlModes (some [.positionDirect]),
      Ev.delay (1 / 10) (), Ev.getControlModes (some [.positionDirect]), Ev.now 0]) s0 [] := by
    show can (robot cfg) (Prog.bind (movl cfg _) _) _ _ _
    unfold movl movlStart setCurrentState
    can_simp
    refine ⟨some [90], some_length (by simp [h.joints]), ?_⟩
    can_simp
    refine ⟨some (frameToVector A), ?_⟩
    dsimp only
    can_simp
    refine Or.inr ⟨by simp [h.frame], Or.inr ⟨[path], hline, Or.inr ⟨by simp [h.slow], ?_⟩⟩⟩
    rw [show movlMode cfg = .positionDirect by simp [movlMode, hpo]]
    refine Or.inl ⟨trivial, can_setModes' [.positionDirect] (by simp [h.joints]) (by simp) ?_⟩
    can_simp
    exact Or.inl ⟨trivial, 0, trivial, rfl, by simp⟩
  obtain ⟨tr, o, s1, hx, rfl, rfl, rfl⟩ := can_run hc
  have hin : InLimits cfg [0] := by
    intro j hj
    match j, hj with
    | 0, _ => exact ⟨0, -200, 200, rfl, by rw [h.low]; rfl, by rw [h.high]; rfl, by norm_num [tol], by norm_num [tol]⟩
    | j + 1, hj => rw [h.joints] at hj; omega
  have hc2 : can (robot cfg) (Op.prog cfg .cycle) (fun o s' tr => o = .ok none ∧ tr =
      [Ev.getEncoders (some [0]), Ev.getEncoderSpeeds (some [0]), Ev.getEncoderAccelerations (some [0]),
      Ev.getControlModes (some [.positionDirect]), Ev.now 0, Ev.invKin (frameToVector A) [0] .base (some [90]),
      Ev.setPositions [90] true]) mid [] := by
    show can (robot cfg) (Prog.bind (run cfg) _) _ _ _
    unfold run getCurrentState runBody readEncoders
    can_simp
    refine Or.inr ⟨by simp [mid], some [0], some_length (by simp [h.joints]), ?_⟩
    can_simp
    refine ⟨some [0], some_length (by simp [h.joints]), ?_⟩
    can_simp
    refine ⟨some [0], some_length (by simp [h.joints]), ?_⟩
    can_simp
    refine Or.inr ⟨true, (checkJointLimits_iff cfg _).mpr hin, Or.inl ⟨rfl, ?_⟩⟩
    rw [show dispatch cfg .movl [0] [0] [0] = handleMovlPosd cfg [0] by simp [dispatch, hpo]]
    unfold handleMovlPosd
    can_simp
    refine can_checkModes [.positionDirect] (by simp [h.joints]) ?_
    can_simp
    refine Or.inl ⟨by simp, 0, Or.inr ⟨?_, some [90], ?_⟩⟩
    · simp [mid, p4]
    can_simp
    refine Or.inr ⟨[90], by simp [buffer, h.joints], true, ?_⟩
    have : posesAt mid.trajectories (-mid.movementStartTime) = frameToVector A := by
      simp [mid, posesAt, p3 0 le_rfl]
    simpa [mid] using this
  obtain ⟨tr2, o, s2, hx2, rfl, rfl⟩ := can_run hc2
  obtain ⟨d', hd', he⟩ := turn_reach (dyn := d0.dyn) h.count (x := frameToVector A) (y := 1) (by rw [eA, pA]) (by norm_num)
  have e0 : d0 = ⟨d0.dyn, ⟨turnProblem, some turnLimits, 0⟩⟩ := by cases d0; cases hst; rfl
  rw [← e0] at hd'
  obtain ⟨-, -, hj, -, hfk⟩ := h.deployed.deployed.facts posd_robot
  have hfw : d0.dyn.kin.fwdKin [90] = some (frameToVector A) := by
    rw [fwdKin_kin hj (by rw [h.joints]; rfl), hfk (by simp [KdlConfig.Desc.Turns]) _ rfl]
    rfl
  refine ⟨cfg, s0, d0, h.deployed, posd_robot, h.lines, hpo, by rw [h.duration]; norm_num, frameToVector B, _, mid, _, s2, d', rfl,
    hx, .cons hx2 (.nil _), ?_, he (by norm_num [eps]), by simp, ?_⟩
  · exact .cons ⟨rfl, rfl⟩ (.cons ⟨rfl, rfl, frameToVector A, hfw, rfl⟩ (.cons ⟨rfl, rfl⟩ (.cons ⟨rfl, rfl⟩ (.cons ⟨rfl, rfl⟩
      (.cons ⟨rfl, rfl⟩ (.cons ⟨rfl, rfl⟩ (.cons ⟨rfl, rfl⟩ (.cons ⟨rfl, rfl⟩ (.cons ⟨rfl, rfl⟩ (.cons ⟨rfl, rfl⟩
      (.cons hd' (.cons ⟨rfl, rfl⟩ (.nil _)))))))))))))
  · intro q hq
    have : q = [90] := by simpa using hq
    subst this
    show A.M.Regular ∧ (aim s0.frame A (vectorToFrame (frameToVector B))).M.Regular ∧
      (A.M.transpose * (aim s0.frame A (vectorToFrame (frameToVector B))).M).Regular ∧
      (aim s0.frame A (vectorToFrame (frameToVector B))).p - A.p = ⟨0, 1, 0⟩
    rw [eB, h.frame]
    refine ⟨gA, gA, hAB, ?_⟩
    show (⟨0, 2, 0⟩ : Vec3) - A.p = _
    rw [pA]
    ext <;> norm_num

end KD.Ctrl
