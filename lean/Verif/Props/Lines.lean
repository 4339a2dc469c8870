import Verif.Props.WithKdl
import Verif.Props.LinearMotion

/-!
# C82: lines of the arm

What `C82_movl_partial` says about the poses of the controller, and `C76_movl_partial` about its trajectories, put
together as a statement about the arm.
-/

namespace KD.Ctrl

open KdlConfig (Config)
open KdlVectorConverter
open Prog (can can_run can_mono can_bind)

/-! ## Lemmas -/

theorem place_isRigid (d : KdlConfig.Desc) (q : ℝ) : (d.place q).IsRigid := by
  have hax : ∀ a, Vec3.dot (KdlConfig.unitAxis a) (KdlConfig.unitAxis a) = 1 := by
    intro a
    fin_cases a <;> simp [KdlConfig.unitAxis, Vec3.dot]
  have htr : ∀ v, (Frame.trans v).IsRigid := fun v => (Frame.IsRigid.one : (1 : Frame).M.IsRot)
  have hrot : ∀ a x, Vec3.dot a a = 1 → (⟨Mat3.rot2 a x, 0⟩ : Frame).IsRigid := fun a x h => Mat3.rot2_isRot h x
  cases d with
  | dh offset d a alpha =>
    exact (((hrot _ _ (by simp [Vec3.dot])).mul (htr _)).mul (htr _)).mul (hrot _ _ (by simp [Vec3.dot]))
  | turn axis inv x y z => exact (hrot _ _ (hax axis)).mul (htr _)
  | slide axis inv x y z => exact (htr _).mul (htr _)

theorem lastTool_isRigid (ds : List Done) : (lastTool ds).IsRigid := by
  have : ∀ (ds : List Done) (f : Frame), f.IsRigid → (ds.foldl (fun f d => d.op.toolAfter f) f).IsRigid := by
    intro ds
    induction ds with
    | nil => exact fun f hf => hf
    | cons d ds ih =>
      intro f hf
      refine ih _ ?_
      dsimp only
      unfold Op.toolAfter
      split
      · exact KD.vectorToFrame_rigid _
      · exact hf
  exact this ds 1 Frame.IsRigid.one

theorem arm_isRigid {base tip : Frame} (hb : base.IsRigid) (ht : tip.IsRigid) (descs : List KdlConfig.Desc) (ds : List Done)
    (q : List ℝ) : (arm base descs tip (lastTool ds) q).IsRigid := by
  have : ∀ (l : List KdlConfig.Desc) (q : List ℝ), (List.zipWith (fun (d : KdlConfig.Desc) x => d.place x) l q).prod.IsRigid := by
    intro l
    induction l with
    | nil => intro q; exact Frame.IsRigid.one
    | cons d l ih =>
      intro q
      cases q with
      | nil => exact Frame.IsRigid.one
      | cons x q =>
        rw [List.zipWith_cons_cons, List.prod_cons]
        exact (place_isRigid d x).mul (ih q)
  exact ((hb.mul (this descs q)).mul ht).mul (lastTool_isRigid ds)

theorem GoesStraight.rigid {a b : Frame} {traj : Traj} (h : GoesStraight a b traj) (ha : a.IsRigid) (t : ℝ) : (traj.pos t).IsRigid := by
  obtain ⟨r, k, -, -, -, -, -, h⟩ := h
  rw [h t]
  exact Mat3.IsRot.mul ha (Mat3.expRot_isRot _)

/-- The twist of a path, with a correction that leads from the pose `now` back to the path. -/
noncomputable def Traj.tracked (traj : Traj) (rate : ℝ) (now : Frame) (t : ℝ) : Twist :=
  ⟨rate • (frameDiff now (traj.pos t)).vel + (traj.vel t).vel, rate • (frameDiff now (traj.pos t)).rot + (traj.vel t).rot⟩

theorem corrected_tracked {traj : Traj} {rate t : ℝ} {now : Frame} (h1 : (traj.pos t).IsRigid) (h2 : (traj.pos t).M.Regular)
    (h3 : now.IsRigid) (h4 : now.M.Regular) :
    corrected rate now (posesAt [traj] t) (twistsAt [traj] t) = traj.tracked rate now t := by
  unfold corrected posesAt twistsAt KdlSolver.poseDiff
  simp only [List.flatMap_cons, List.flatMap_nil, List.append_nil]
  rw [C31_frame_round_trip_partial h1 h2, C31_frame_round_trip_partial h3 h4]
  simp only [twistToVector, List.zipWith_cons_cons, List.zipWith_nil_left, vectorToTwist, Traj.tracked]
  congr 1

theorem ray_keeps {a : Frame} {w : Twist} (ha : a.IsRigid) (hw : Turnable w.rot) (hv : Clear w.vel)
    (h10 : max w.vel.norm w.rot.norm ≤ 10) {t : ℝ} (ht : 0 ≤ t) (ht' : t * max w.vel.norm w.rot.norm ≤ 10) :
    (ray a w).vel t = w ∧ (ray a w).pos t = ⟨Mat3.expRot (t • w.rot) * a.M, a.p + t • w.vel⟩ := by
  rcases (le_max_of_le_left (Vec3.norm_nonneg w.vel) : 0 ≤ max w.vel.norm w.rot.norm).eq_or_lt with h0 | h0
  · have e1 : w.vel = 0 := Vec3.norm_eq_zero (le_antisymm (h0 ▸ le_max_left _ _) (Vec3.norm_nonneg _))
    have e2 : w.rot = 0 := Vec3.norm_eq_zero (le_antisymm (h0 ▸ le_max_right _ _) (Vec3.norm_nonneg _))
    obtain rfl : w = 0 := by
      cases w
      cases e1
      cases e2
      rfl
    obtain ⟨g1, g2⟩ := C77_still ha t
    refine ⟨g2, g1.trans ?_⟩
    have e3 : t • (0 : Twist).rot = 0 ∧ t • (0 : Twist).vel = 0 := by constructor <;> ext <;> simp
    rw [e3.1, e3.2, Mat3.expRot_zero, one_mul]
    ext <;> simp
  · exact C77_keeps_velocity_partial ha hw hv h0 h10 ht (by rwa [le_div_iff₀ h0])

variable {w : World} {st : List Link → Bool} {wt : Bool} {c : Config} {cfg : Cfg} {s0 : Ctl} {k0 : DynSolver} {i : Inverse}
  {base tip : Frame} {descs : List KdlConfig.Desc}

/-- The trajectory that an accepted line leaves behind. -/
theorem Deployed.line (h : Deployed w st wt c cfg s0 k0)
    (hrob : KdlConfig.Robot c base descs tip) (hb : base.IsRigid) (htip : tip.IsRigid) (ht : ∀ d ∈ descs, d.Turns)
    (hl : BuildsLines cfg) {s s1 : Ctl} {ds : List Done}
    (hh : Hist cfg s0 ds s) {xd : List ℝ} (hxd : xd.length = 6) (hT : 0 < s.duration) {tr : List Ev}
    (hx : Exec cfg (Op.prog cfg (.movl xd)) s tr (.ok (some true)) s1) {k1 k2 : DynSolver}
    (f1 : Answered i k0 (callsOf ds) k1) (f3 : Answered i k1 tr k2) {paths : List Traj} {start : ℝ}
    (hp : Asked cfg s (.movl xd) tr (.line paths start)) :
    ∃ q, Ev.getEncoders (some q) ∈ tr ∧ Ev.now start ∈ tr ∧
      let A := arm base descs tip (lastTool ds) q
      let B := aim s.frame A (vectorToFrame xd)
      A.M.Regular → B.M.Regular → (A.M.transpose * B.M).Regular → Clear (B.p - A.p) →
      ∃ traj, paths = [traj] ∧ GoesStraight A B traj ∧ Smooth traj 10 10 ∧
        traj.duration = max s.duration (shortest (max (B.p - A.p).norm (angleOf (A.M.transpose * B.M)))) ∧
        ∀ t, (traj.pos t).IsRigid := by
  obtain ⟨xd', q, x, target, e, h1, h2, h3, h4, h5⟩ := hp
  cases e
  refine ⟨q, h1, h3, fun hA hB hAB hcl => ?_⟩
  have f4 := (op_same (fun x => by simp) hx f3).2
  obtain ⟨j1, -, j2⟩ := h.after hrob hh f1
  have hq := encoders_sized hx h1
  have hn := (h.facts hrob).1
  obtain ⟨-, x', e1, e2⟩ := f4 _ h2
  rw [fwdKin_kin j1 hq, j2 ht q (hq.trans hn)] at e1
  obtain rfl := Option.some.inj e2
  obtain rfl := Option.some.inj e1
  set A := arm base descs tip (lastTool ds) q with hAdef
  have rA : A.IsRigid := arm_isRigid hb htip descs ds q
  have eA := C31_frame_round_trip_partial rA hA
  have lt : target.length = 6 ∧ vectorToFrame target = aim s.frame A (vectorToFrame xd) := by
    cases hf : s.frame with
    | base =>
      rw [if_neg (by simp [hf])] at h4
      subst h4
      exact ⟨hxd, rfl⟩
    | tcp =>
      rw [if_pos hf] at h4
      obtain ⟨-, e3⟩ := f4 _ h4
      obtain rfl := Option.some.inj e3
      refine ⟨rfl, ?_⟩
      unfold KdlSolver.changeOrigin
      rw [eA]
      rw [hf] at hB
      exact C31_frame_round_trip_partial (rA.mul (KD.vectorToFrame_rigid xd)) hB
  have rB : (aim s.frame A (vectorToFrame xd)).IsRigid := by rw [← lt.2]; exact KD.vectorToFrame_rigid _
  obtain ⟨traj, g1, g2⟩ := C76_straight_partial rA rB hAB hcl hT
  have hpaths : paths = [traj] := by
    have hc1 := h5.count
    rw [hxd] at hc1
    obtain ⟨p, rfl⟩ : ∃ p, paths = [p] := List.length_eq_one_iff.mp hc1
    obtain ⟨a, b, -, -, rfl, rfl, h6⟩ := h5.each 0 (by rw [hxd]; norm_num)
    have h6 := Option.some.inj h6
    rw [h6, mul_zero, List.drop_zero, List.drop_zero, List.take_of_length_le (by simp [frameToVector]),
      List.take_of_length_le lt.1.le, eA, lt.2, hl _ _ _ _ g1]
  refine ⟨traj, hpaths, g2, ?_, ?_, fun t => g2.rigid rA t⟩
  · obtain ⟨t2, m1, m2, -⟩ := C76_smooth (b := aim s.frame A (vectorToFrame xd)) rA hT
    rw [g1] at m1
    cases m1
    exact m2
  · obtain ⟨t2, m1, m2⟩ := C76_duration rA rB hAB hT
    rw [g1] at m1
    cases m1
    exact m2

/-- C82: a line that is accepted (`movl`) leads straight, in the given time or the shortest that is possible, from where
the arm is to the pose asked for, in the frame that was chosen. The commands that the loop sends, however many cycles
and other calls later, put the arm on this line, or move it along the line. Partial: rotations by angles
below a millionth or as close to a half turn, that KDL does not tell from none. -/
theorem C82_line_partial {close : Frame → Frame → Prop} {closeT : Twist → Twist → Prop} (h : Deployed w st wt c cfg s0 k0)
    (hrob : KdlConfig.Robot c base descs tip) (hb : base.IsRigid) (htip : tip.IsRigid) (ht : ∀ d ∈ descs, d.Turns)
    (hi : i.Sized) (hr : i.Reaching close) (hv : i.Following closeT) (hl : BuildsLines cfg) {s s1 s2 : Ctl} {ds ds2 : List Done}
    (hh : Hist cfg s0 ds s) {xd : List ℝ} (hxd : xd.length = 6) (hT : 0 < s.duration) {tr : List Ev}
    (hx : Exec cfg (Op.prog cfg (.movl xd)) s tr (.ok (some true)) s1) (hh2 : Hist cfg s1 ds2 s2)
    (hno : ∀ d ∈ ds2, d.op.target = none) {k' : DynSolver}
    (hk : Answered i k0 (callsOf (ds ++ ⟨.movl xd, tr, some true⟩ :: ds2)) k') :
    ∃ q start, Ev.getEncoders (some q) ∈ tr ∧ Ev.now start ∈ tr ∧
      let A := arm base descs tip (lastTool ds) q
      let B := aim s.frame A (vectorToFrame xd)
      A.M.Regular → B.M.Regular → (A.M.transpose * B.M).Regular → Clear (B.p - A.p) →
      ∃ traj, GoesStraight A B traj ∧ Smooth traj 10 10 ∧
        traj.duration = max s.duration (shortest (max (B.p - A.p).norm (angleOf (A.M.transpose * B.M)))) ∧
        ∀ pre d post, ds2 = pre ++ d :: post → d.op = .cycle → ∀ e ∈ d.calls, IsMotion e →
          ∃ t q', Ev.now t ∈ d.calls ∧ Ev.getEncoders (some q') ∈ d.calls ∧
            let place := arm base descs tip (lastTool (ds ++ ⟨.movl xd, tr, some true⟩ :: pre))
            if cfg.usePosdMovl then ∃ v b, e = .setPositions v b ∧ v.length = descs.length ∧
              ((traj.pos (t - start)).M.Regular → close (place v) (traj.pos (t - start)))
            else ∃ v b W, e = .velocityMove v b ∧ v.length = descs.length ∧
              ArmMoves base descs tip (lastTool (ds ++ ⟨.movl xd, tr, some true⟩ :: pre)) q' v W ∧
              ((traj.pos (t - start)).M.Regular → (place q').M.Regular →
                closeT W (traj.tracked (s.gain * (1000 / s.cmcPeriodMs)) (place q') (t - start))) := by
  obtain ⟨paths, start, hp, hd⟩ := C82_movl_partial h hrob hb htip ht hi hr hv hh hx hh2 hno hk
  rw [callsOf_append] at hk
  obtain ⟨k1, f1, f2⟩ := answered_split hk
  rw [show callsOf (⟨.movl xd, tr, some true⟩ :: ds2) = tr ++ callsOf ds2 by simp [callsOf]] at f2
  obtain ⟨k2, f3, -⟩ := answered_split f2
  obtain ⟨q, h1, h2, h3⟩ := h.line hrob hb htip ht hl hh hxd hT hx f1 f3 hp
  refine ⟨q, start, h1, h2, fun hA hB hAB hcl => ?_⟩
  obtain ⟨traj, rfl, g2, g3, g4, g5⟩ := h3 hA hB hAB hcl
  refine ⟨traj, g2, g3, g4, fun pre d post hds hc e he hm => ?_⟩
  obtain ⟨t, q', n1, n2, n3⟩ := hd pre d post hds hc e he hm
  refine ⟨t, q', n1, n2, ?_⟩
  dsimp only at n3 ⊢
  have rt := g5 (t - start)
  split_ifs at n3 ⊢ with hpos
  · obtain ⟨v, b, rfl, n4, n5⟩ := n3
    refine ⟨v, b, rfl, n4, fun hreg => ?_⟩
    have e9 : vectorToFrame (posesAt [traj] (t - start)) = traj.pos (t - start) := by
      simp only [posesAt, List.flatMap_cons, List.flatMap_nil, List.append_nil]
      exact C31_frame_round_trip_partial rt hreg
    rwa [e9] at n5
  · obtain ⟨v, b, W, rfl, n4, n5, n6⟩ := n3
    refine ⟨v, b, W, rfl, n4, n5, fun hreg hreg2 => ?_⟩
    rwa [corrected_tracked rt hreg (arm_isRigid hb htip _ _ _) hreg2] at n6

/-- C82: a velocity that is accepted (`movv`) and is no more than ten units leads the arm from where it is with this
velocity: the commands that the loop sends, until the path has ten units, move the arm with it, corrected towards the
pose that the velocity has led to by then. Partial: this last pose is in the base frame, and so is the velocity that leads
to it, even if the other frame was chosen (see C71); velocities that KDL does not tell from none, or half a turn per
second. -/
theorem C82_ray_partial {closeT : Twist → Twist → Prop} (h : Deployed w st wt c cfg s0 k0)
    (hrob : KdlConfig.Robot c base descs tip) (hb : base.IsRigid) (htip : tip.IsRigid) (ht : ∀ d ∈ descs, d.Turns)
    (hi : i.Sized) (hv : i.Following closeT) (hl : cfg.ray = ray) {s s1 s2 : Ctl} {ds ds2 : List Done}
    (hh : Hist cfg s0 ds s) {xd : List ℝ} (hxd : xd.length = 6) {tr : List Ev}
    (hx : Exec cfg (Op.prog cfg (.movv xd)) s tr (.ok (some true)) s1) (hh2 : Hist cfg s1 ds2 s2)
    (hno : ∀ d ∈ ds2, d.op.target = none) {k' : DynSolver}
    (hk : Answered i k0 (callsOf (ds ++ ⟨.movv xd, tr, some true⟩ :: ds2)) k')
    (hw : Turnable (vectorToTwist xd).rot) (hc : Clear (vectorToTwist xd).vel)
    (h10 : max (vectorToTwist xd).vel.norm (vectorToTwist xd).rot.norm ≤ 10) :
    ∃ q start, Ev.getEncoders (some q) ∈ tr ∧ Ev.now start ∈ tr ∧
      let A := arm base descs tip (lastTool ds) q
      let V := vectorToTwist xd
      let led := fun u : ℝ => (⟨Mat3.expRot (u • V.rot) * A.M, A.p + u • V.vel⟩ : Frame)
      A.M.Regular → ∀ pre d post, ds2 = pre ++ d :: post → d.op = .cycle → ∀ e ∈ d.calls, IsMotion e →
        ∃ t q' v b W, Ev.now t ∈ d.calls ∧ Ev.getEncoders (some q') ∈ d.calls ∧ e = .velocityMove v b ∧
          v.length = descs.length ∧
          ArmMoves base descs tip (lastTool (ds ++ ⟨.movv xd, tr, some true⟩ :: pre)) q' v W ∧
          let now := arm base descs tip (lastTool (ds ++ ⟨.movv xd, tr, some true⟩ :: pre)) q'
          let rate := s.gain * (1000 / s.cmcPeriodMs)
          (start ≤ t → (t - start) * max V.vel.norm V.rot.norm ≤ 10 → (led (t - start)).M.Regular → now.M.Regular →
            closeT W (turned s.frame now ⟨rate • (frameDiff now (led (t - start))).vel + V.vel,
              rate • (frameDiff now (led (t - start))).rot + V.rot⟩)) := by
  obtain ⟨paths, start, hp, hd⟩ := C82_movv_partial h hrob hb htip ht hi hv hh hx hh2 hno hk
  obtain ⟨xd', q, x, e, h1, h2, h3, h5⟩ := hp
  cases e
  refine ⟨q, start, h1, h3, fun hA pre d post hds hcy e he hm => ?_⟩
  -- the solver during `movv`
  rw [callsOf_append] at hk
  obtain ⟨k1, f1, f2⟩ := answered_split hk
  rw [show callsOf (⟨.movv xd, tr, some true⟩ :: ds2) = tr ++ callsOf ds2 by simp [callsOf]] at f2
  obtain ⟨k2, f3, -⟩ := answered_split f2
  have f4 := (op_same (fun x => by simp) hx f3).2
  obtain ⟨j1, -, j2⟩ := h.after hrob hh f1
  have hq := encoders_sized hx h1
  have hn := (h.facts hrob).1
  obtain ⟨-, x', e1, e2⟩ := f4 _ h2
  rw [fwdKin_kin j1 hq, j2 ht q (hq.trans hn)] at e1
  obtain rfl := Option.some.inj e2
  obtain rfl := Option.some.inj e1
  set A := arm base descs tip (lastTool ds) q with hAdef
  have rA : A.IsRigid := arm_isRigid hb htip descs ds q
  have eA := C31_frame_round_trip_partial rA hA
  have hpaths : paths = [ray A (vectorToTwist xd)] := by
    have hc1 := h5.count
    rw [hxd] at hc1
    obtain ⟨p, rfl⟩ : ∃ p, paths = [p] := List.length_eq_one_iff.mp hc1
    obtain ⟨a, b, -, -, rfl, rfl, h6⟩ := h5.each 0 (by rw [hxd]; norm_num)
    have h6 := Option.some.inj h6
    rw [h6, mul_zero, List.drop_zero, List.drop_zero, List.take_of_length_le (by simp [frameToVector]),
      List.take_of_length_le hxd.le, eA, hl]
  subst hpaths
  obtain ⟨t, q', n1, n2, v, b, W, rfl, n4, n5, n6⟩ := hd pre d post hds hcy e he hm
  refine ⟨t, q', v, b, W, n1, n2, rfl, n4, n5, fun ht0 ht1 hreg hreg2 => ?_⟩
  obtain ⟨g1, g2⟩ := ray_keeps rA hw hc h10 (sub_nonneg.mpr ht0) ht1
  replace hreg : ((ray A (vectorToTwist xd)).pos (t - start)).M.Regular := by rw [g2]; exact hreg
  dsimp only
  rw [← g2]
  have rt : ((ray A (vectorToTwist xd)).pos (t - start)).IsRigid := by
    rw [g2]
    exact Mat3.IsRot.mul (Mat3.expRot_isRot _) rA
  rw [corrected_tracked rt hreg (arm_isRigid hb htip _ _ _) hreg2] at n6
  simpa only [Traj.tracked, g1] using n6

/-! ## The hypotheses are met -/

/-- A robot for the arm with two links, with the trajectories of KDL. -/
noncomputable def linedWorld : World := { planarWorld with
  robot := fun _ => some { simRobot with axes := some 2, limits := fun _ => some (-200, 200) }
  line := kdlJoint.line
  ray := ray }

theorem lined_deployed : ∃ cfg s0 k0, Deployed linedWorld (fun _ => true) true KdlConfig.planar cfg s0 k0 ∧
    cfg.numJoints = 2 ∧ InLimits cfg [-45, -45] ∧ InVelLimits cfg [0, 0] ∧ s0.state = .notControlling ∧
    cfg.usePosdMovl = false ∧ cfg.enableFailFast = false ∧ BuildsLines cfg ∧ s0.cmcPeriodMs = 50 ∧ s0.duration = 10 ∧
    InLimits cfg [45, -135] ∧ cfg.ray = ray ∧ s0.frame = .base ∧ s0.gain = 5 / 100 := by
  obtain ⟨cfg, s0, h, h1, h2⟩ := C81_kdl_opens (w := linedWorld) (st := fun _ => true) (wt := true) (c := KdlConfig.planar)
      (r := { simRobot with axes := some 2, limits := fun _ => some (-200, 200) })
      (dr := "remote_controlboard") (ds := "KdlSolver") (fun _ => rfl) KdlConfig.planar_robot
      (fun h => absurd rfl h) (Or.inl (Or.inr ⟨rfl, rfl⟩)) (Or.inr ⟨rfl, rfl⟩) (Or.inr ⟨rfl, rfl⟩) (fun _ _ => rfl)
      ⟨rfl, rfl, rfl, rfl, rfl, rfl⟩ rfl (by simp [simRobot]) (Or.inr (Or.inr rfl)) rfl
      (fun _ _ => ⟨-200, 200, -5, 5, ⟨rfl, rfl⟩, by norm_num⟩) rfl rfl rfl rfl (Or.inl rfl) rfl
  obtain ⟨k0, hk⟩ := deployed (d := "KdlSolver") (st := fun _ => true) (wt := true) (fun _ => rfl) h (Or.inr ⟨rfl, rfl⟩)
  refine ⟨cfg, s0, k0, hk, h1, ?_⟩
  obtain ⟨frame, r, n, refs, ls, options, tcps, -, h2, h3, -, h5, h6, h7, -, -, h10⟩ := open_steps h
  cases Option.some.inj h3
  cases Option.some.inj h5
  cases Option.some.inj h6
  cases Option.some.inj h2
  obtain ⟨-, hr, -⟩ := takeLimits_robot (Or.inr (Or.inr rfl)) h7
  cases Option.some.inj hr
  obtain ⟨rfl, rfl⟩ := Prod.mk.inj h10
  refine ⟨fun j hj => ?_, fun j hj => ?_, rfl, rfl, rfl, kdlJoint_lines, rfl, rfl, fun j hj => ?_, rfl, rfl, rfl⟩
  · match j, hj with
    | 0, _ => exact ⟨-45, -200, 200, rfl, rfl, rfl, by norm_num [tol], by norm_num [tol]⟩
    | 1, _ => exact ⟨-45, -200, 200, rfl, rfl, rfl, by norm_num [tol], by norm_num [tol]⟩
  · match j, hj with
    | 0, _ => exact ⟨0, -5, 5, rfl, rfl, rfl, by norm_num, by norm_num⟩
    | 1, _ => exact ⟨0, -5, 5, rfl, rfl, rfl, by norm_num, by norm_num⟩
  · match j, hj with
    | 0, _ => exact ⟨45, -200, 200, rfl, rfl, rfl, by norm_num [tol], by norm_num [tol]⟩
    | 1, _ => exact ⟨-135, -200, 200, rfl, rfl, rfl, by norm_num [tol], by norm_num [tol]⟩

theorem one_regular : (1 : Mat3).Regular := Or.inr (Or.inl (by norm_num [Mat3.cosAngle]))

/-- The tool frame is chosen, a line of length one is asked for along its first axis, and the first cycle of it runs. -/
example : ∃ cfg s0 k0, Deployed linedWorld (fun _ => true) true KdlConfig.planar cfg s0 k0 ∧
    KdlConfig.Robot KdlConfig.planar 1 twoLinks 1 ∧ (∀ d ∈ twoLinks, d.Turns) ∧ BuildsLines cfg ∧
    ∃ s ds tr s1 tr2 s2, Hist cfg s0 ds s ∧ s.frame = .tcp ∧ 0 < s.duration ∧
      Exec cfg (Op.prog cfg (.movl [1, 0, 0, 0, 0, 0])) s tr (.ok (some true)) s1 ∧
      Hist cfg s1 [⟨.cycle, tr2, none⟩] s2 ∧
      Answered exact k0 (callsOf (ds ++ ⟨.movl [1, 0, 0, 0, 0, 0], tr, some true⟩ :: [⟨.cycle, tr2, none⟩])) k0 ∧
      Ev.velocityMove [0, 0] true ∈ tr2 ∧ ∀ q, Ev.getEncoders (some q) ∈ tr →
        let A := arm 1 twoLinks 1 (lastTool ds) q
        let B := aim s.frame A (vectorToFrame [1, 0, 0, 0, 0, 0])
        A.M.Regular ∧ B.M.Regular ∧ (A.M.transpose * B.M).Regular ∧ Clear (B.p - A.p) := by
  obtain ⟨cfg, s0, k0, h, h1, h4, h5, h6, h7, h8, h9, h10, h11, -⟩ := lined_deployed
  have hr : KdlConfig.Robot KdlConfig.planar 1 twoLinks 1 := KdlConfig.planar_robot
  have ht : ∀ d ∈ twoLinks, d.Turns := by simp [twoLinks, KdlConfig.Desc.Turns]
  obtain ⟨-, -, hj, -, hfk⟩ := h.facts hr
  refine ⟨cfg, s0, k0, h, hr, ht, h9, ?_⟩
  let s : Ctl := { s0 with frame := .tcp }
  have hc0 : can (robot cfg) (Op.prog cfg (.setParameter .frame ((RefFrame.tcp.vocab : ℤ) : ℝ)))
      (fun o s' tr => o = .ok (some true) ∧ s' = s ∧ tr = []) s0 [] := by
    show can (robot cfg) (Prog.bind (setParameter .frame _) _) _ _ _
    unfold setParameter getCurrentState
    can_simp
    refine Or.inr ⟨by simp [h6], Or.inr ⟨fun h => h.2 rfl, ?_⟩⟩
    rw [if_pos (show ((RefFrame.tcp.vocab : ℤ) : ℝ) = (vocabTcpFrame : ℝ) from rfl)]
    simp [s]
  obtain ⟨tr0, o, s', hx0, rfl, rfl, rfl⟩ := can_run hc0
  have hone : vectorToFrame [1, 0, 0, 0, 0, 0] = Frame.trans ⟨1, 0, 0⟩ := by
    have : Vec3.norm ⟨0, 0, 0⟩ = 0 := Vec3.norm_zero
    simp only [vectorToFrame, this, Mat3.rot, Mat3.rot2_zero]
    rfl
  let target : List ℝ := [Real.cos (45 * deg2rad) + 2 + 1, -Real.sin (45 * deg2rad), 0, 0, 0, 0]
  have htar : KdlSolver.changeOrigin [1, 0, 0, 0, 0, 0] straight = target := by
    unfold KdlSolver.changeOrigin
    rw [hone, straight_frame]
    have : (Frame.trans ⟨Real.cos (45 * deg2rad) + 2, -Real.sin (45 * deg2rad), 0⟩ * Frame.trans ⟨1, 0, 0⟩ : Frame) =
        ⟨1, ⟨Real.cos (45 * deg2rad) + 2 + 1, -Real.sin (45 * deg2rad), 0⟩⟩ := by
      rw [Frame.ext_iff]
      constructor <;> ext <;> simp [Frame.trans] <;> ring
    rw [this]
    show [_, _, _, (Mat3.getRot 1).x, (Mat3.getRot 1).y, (Mat3.getRot 1).z] = _
    rw [getRot_one]
    rfl
  obtain ⟨path, p1, p2, p3⟩ := C76_smooth (a := vectorToFrame straight) (b := vectorToFrame target) (T := 10)
    (KD.vectorToFrame_rigid _) (by norm_num)
  have p4 : 0 ≤ path.duration := by
    obtain ⟨t2, m1, m2⟩ := C76_duration (a := vectorToFrame straight) (b := vectorToFrame target) (T := 10)
      (KD.vectorToFrame_rigid _) (KD.vectorToFrame_rigid _) (by
        have : (vectorToFrame straight).M = 1 ∧ (vectorToFrame target).M = 1 := by
          have : Vec3.norm ⟨0, 0, 0⟩ = 0 := Vec3.norm_zero
          constructor <;> simp only [straight, target, vectorToFrame, this, Mat3.rot, Mat3.rot2_zero]
        rw [this.1, this.2, show (1 : Mat3).transpose * 1 = 1 from (Frame.IsRigid.one : (1 : Frame).M.IsRot).left]
        exact one_regular) (by norm_num)
    rw [p1] at m1
    cases m1
    rw [m2]
    exact le_max_of_le_left (by norm_num)
  let mid : Ctl := { s with trajectories := [path], movementStartTime := 0, cmcSuccess := true, state := .movl,
                            streaming := vocabNotSet }
  have hline : lineTrajs cfg s.duration straight target 0 (([1, 0, 0, 0, 0, 0] : List ℝ).length / 6) = some [path] := by
    show lineTrajs cfg s0.duration straight target 0 1 = _
    have := h9 _ _ _ _ p1
    simp only [lineTrajs, slice, straight, target, h11, List.length_cons, List.length_nil,
      List.drop, List.take]
    simpa [straight, target] using this
  have hc : can (robot cfg) (Op.prog cfg (.movl [1, 0, 0, 0, 0, 0])) (fun o s' tr => o = .ok (some true) ∧ s' = mid ∧ tr =
      [Ev.getEncoders (some [-45, -45]), Ev.fwdKin [-45, -45] (some straight),
      Ev.changeOrigin [1, 0, 0, 0, 0, 0] straight (some target),
      Ev.getControlModes (some [.velocity, .velocity]),
      Ev.delay (1 / 10) (), Ev.getControlModes (some [.velocity, .velocity]), Ev.now 0]) s [] := by
    show can (robot cfg) (Prog.bind (movl cfg _) _) _ _ _
    unfold movl movlStart setCurrentState
    can_simp
    refine ⟨some [-45, -45], some_length (by simp [h1]), ?_⟩
    can_simp
    refine ⟨some straight, ?_⟩
    dsimp only
    can_simp
    refine Or.inl ⟨rfl, some target, ?_⟩
    dsimp only
    can_simp
    refine Or.inr ⟨[path], hline, Or.inr ⟨by simp [h8], ?_⟩⟩
    rw [show movlMode cfg = .velocity by simp [movlMode, h7]]
    refine Or.inl ⟨trivial, can_setModes' [.velocity, .velocity] (by simp [h1]) (by simp) ?_⟩
    can_simp
    exact Or.inl ⟨trivial, 0, trivial, rfl, by simp⟩
  obtain ⟨tr, o, s1, hx, rfl, rfl, rfl⟩ := can_run hc
  have hlaw : controlLaw s0.gain 50 KdlSolver.origin [0, 0, 0, 0, 0, 0] = some [0, 0, 0, 0, 0, 0] := by
    simp [controlLaw, KdlSolver.origin]
  have hc2 : can (robot cfg) (Op.prog cfg .cycle) (fun o s' tr => o = .ok none ∧ tr =
      [Ev.getEncoders (some [-45, -45]), Ev.getEncoderSpeeds (some [0, 0]), Ev.getEncoderAccelerations (some [0, 0]),
      Ev.getControlModes (some [.velocity, .velocity]), Ev.now 0, Ev.fwdKin [-45, -45] (some straight),
      Ev.poseDiff straight straight (true, KdlSolver.origin), Ev.diffInvKin [-45, -45] [0, 0, 0, 0, 0, 0] .base (some [0, 0]),
      Ev.velocityMove [0, 0] true]) mid [] := by
    show can (robot cfg) (Prog.bind (run cfg) _) _ _ _
    unfold run getCurrentState runBody readEncoders
    can_simp
    refine Or.inr ⟨by simp [mid], some [-45, -45], some_length (by simp [h1]), ?_⟩
    can_simp
    refine ⟨some [0, 0], some_length (by simp [h1]), ?_⟩
    can_simp
    refine ⟨some [0, 0], some_length (by simp [h1]), ?_⟩
    can_simp
    refine Or.inr ⟨true, (checkJointLimits_iff cfg _).mpr h4, Or.inl ⟨rfl, ?_⟩⟩
    rw [show dispatch cfg .movl [-45, -45] [0, 0] [0, 0] = handleMovlVel cfg [-45, -45] by simp [dispatch, h7]]
    unfold handleMovlVel
    can_simp
    refine can_checkModes [.velocity, .velocity] (by simp [h1]) ?_
    can_simp
    refine Or.inl ⟨by simp, 0, Or.inr ⟨?_, some straight, ?_⟩⟩
    · simp [mid, p4]
    unfold sendVelocity
    can_simp
    refine ⟨(true, KdlSolver.origin), Or.inr ⟨[0, 0, 0, 0, 0, 0], ?_, some [0, 0], ?_⟩⟩
    · have : twistsAt mid.trajectories (0 - mid.movementStartTime) = [0, 0, 0, 0, 0, 0] := by
        have := p2.rest 0 (Or.inl le_rfl)
        simp [mid, twistsAt, KdlVectorConverter.twistToVector, this]
      rw [this, ← hlaw, ← h10]
    can_simp
    refine Or.inr ⟨true, (checkJointVelocities_iff cfg _).mpr h5, Or.inl ⟨rfl, Or.inr ⟨[0, 0], by simp [buffer, h1], true, ?_⟩⟩⟩
    have : posesAt mid.trajectories (-mid.movementStartTime) = straight := by
      have := p3 0 le_rfl
      simp [mid, posesAt, this, straight_vector]
    simpa [mid] using this
  obtain ⟨tr2, o, s2, hx2, rfl, rfl⟩ := can_run hc2
  refine ⟨s, _, _, mid, _, s2, .cons hx0 (.nil _), rfl, by show 0 < s0.duration; rw [h11]; norm_num, hx, .cons hx2 (.nil _),
    ?_, by simp, ?_⟩
  · have hfw : k0.kin.fwdKin [-45, -45] = some straight := by
      rw [fwdKin_kin hj (by rw [h1]; rfl), hfk ht _ rfl, straight_arm, Option.map_some, straight_vector]
    refine .cons rfl (.cons ⟨rfl, straight, hfw, rfl⟩ (.cons ⟨rfl, by rw [htar]⟩ (.cons rfl (.cons rfl (.cons rfl (.cons rfl
      (.cons rfl (.cons rfl (.cons rfl
      (.cons rfl (.cons rfl (.cons ⟨rfl, straight, hfw, rfl⟩ (.cons ⟨rfl, ?_⟩ (.cons ⟨rfl, staying, staying_exact, ?_⟩
      (.cons rfl (.nil _))))))))))))))))
    · rw [KdlSolver.C53_pose_diff_of_equal _ _ rfl]
    · obtain ⟨now, -, t, e0, e⟩ := diffInvKin_eq hj staying [0, 0, 0, 0, 0, 0] [-45, -45] .base (by rw [h1]; rfl)
      rw [e]
      have : t = 0 := e0
      have hn : k0.chain.nJoints = 2 := hj.now.trans h1
      simp [staying, this, hn]
  · intro q hq
    have : q = [-45, -45] := by simpa using hq
    subst this
    have e : arm 1 twoLinks 1 1 [-45, -45] = Frame.trans ⟨Real.cos (45 * deg2rad) + 2, -Real.sin (45 * deg2rad), 0⟩ := by
      rw [straight_arm, straight_frame]
    show (arm 1 twoLinks 1 1 [-45, -45]).M.Regular ∧ (arm 1 twoLinks 1 1 [-45, -45] * vectorToFrame [1, 0, 0, 0, 0, 0]).M.Regular ∧
      ((arm 1 twoLinks 1 1 [-45, -45]).M.transpose * (arm 1 twoLinks 1 1 [-45, -45] * vectorToFrame [1, 0, 0, 0, 0, 0]).M).Regular ∧
      Clear ((arm 1 twoLinks 1 1 [-45, -45] * vectorToFrame [1, 0, 0, 0, 0, 0]).p - (arm 1 twoLinks 1 1 [-45, -45]).p)
    rw [e, hone]
    have e1 : (1 : Mat3) * 1 = 1 := one_mul 1
    have e2 : (1 : Mat3).transpose * 1 = 1 := (Frame.IsRigid.one : (1 : Frame).M.IsRot).left
    refine ⟨one_regular, ?_, ?_, Or.inr ?_⟩
    · show ((1 : Mat3) * 1).Regular
      rw [e1]; exact one_regular
    · show ((1 : Mat3).transpose * ((1 : Mat3) * 1)).Regular
      rw [e1, e2]; exact one_regular
    · have : ((Frame.trans ⟨Real.cos (45 * deg2rad) + 2, -Real.sin (45 * deg2rad), 0⟩ * Frame.trans ⟨1, 0, 0⟩ : Frame).p -
          (Frame.trans ⟨Real.cos (45 * deg2rad) + 2, -Real.sin (45 * deg2rad), 0⟩).p) = ⟨1, 0, 0⟩ := by
        ext <;> simp [Frame.trans]
      rw [this]
      norm_num [Vec3.norm, Vec3.dot, eps]

/-- Where the arm is with its first joint turned to the other side. -/
noncomputable def raised : List ℝ := [Real.cos (45 * deg2rad) + 2, Real.sin (45 * deg2rad), 0, 0, 0, 0]

theorem raised_frame : vectorToFrame raised = Frame.trans ⟨Real.cos (45 * deg2rad) + 2, Real.sin (45 * deg2rad), 0⟩ := by
  have : Vec3.norm ⟨0, 0, 0⟩ = 0 := Vec3.norm_zero
  simp only [raised, vectorToFrame, this, Mat3.rot, Mat3.rot2_zero]
  rfl

theorem raised_arm : arm 1 twoLinks 1 1 [45, -135] = vectorToFrame raised := by
  rw [raised_frame]
  have h1 : Real.cos (45 * deg2rad) ^ 2 + Real.sin (45 * deg2rad) ^ 2 = 1 := Real.cos_sq_add_sin_sq _
  have e1 : (45 + 0) * deg2rad = 45 * deg2rad := by ring
  have e2 : (-135 + 90) * deg2rad = -(45 * deg2rad) := by ring
  simp only [arm, twoLinks, List.zipWith_cons_cons, List.zipWith_nil_left, List.prod_cons, List.prod_nil, KdlConfig.Desc.place,
    zero_mul, Mat3.rot2_zero, e1, e2, mul_one, one_mul]
  generalize 45 * deg2rad = a at *
  rw [Frame.ext_iff]
  constructor
  · ext <;> simp [Frame.trans, Mat3.rot2] <;> nlinarith
  · ext <;> simp [Frame.trans, Mat3.rot2] <;> nlinarith

theorem raised_vector : frameToVector (vectorToFrame raised) = raised := by
  rw [raised_frame]
  show [_, _, _, (Mat3.getRot 1).x, (Mat3.getRot 1).y, (Mat3.getRot 1).z] = _
  rw [getRot_one]
  rfl

/-- A velocity along the second axis is asked for, and the arm runs ahead: it is as far away as the velocity leads in a
second, and it is told to wait. -/
example : ∃ cfg s0 k0, Deployed linedWorld (fun _ => true) true KdlConfig.planar cfg s0 k0 ∧
    KdlConfig.Robot KdlConfig.planar 1 twoLinks 1 ∧ (∀ d ∈ twoLinks, d.Turns) ∧ cfg.ray = ray ∧
    ∃ xd tr s1 tr2 s2, xd = [0, 2 * Real.sin (45 * deg2rad), 0, 0, 0, 0] ∧
      Exec cfg (Op.prog cfg (.movv xd)) s0 tr (.ok (some true)) s1 ∧
      Hist cfg s1 [⟨.cycle, tr2, none⟩] s2 ∧
      Answered exact k0 (callsOf ([] ++ ⟨.movv xd, tr, some true⟩ :: [⟨.cycle, tr2, none⟩])) k0 ∧
      Ev.velocityMove [0, 0] true ∈ tr2 ∧ Turnable (vectorToTwist xd).rot ∧ Clear (vectorToTwist xd).vel ∧
      max (vectorToTwist xd).vel.norm (vectorToTwist xd).rot.norm ≤ 10 ∧
      (arm 1 twoLinks 1 1 [-45, -45]).M.Regular ∧ (arm 1 twoLinks 1 1 [45, -135]).M.Regular := by
  obtain ⟨cfg, s0, k0, h, h1, h4, h5, h6, h7, h8, h9, h10, h11, h12, h13, h14, h15⟩ := lined_deployed
  have hr : KdlConfig.Robot KdlConfig.planar 1 twoLinks 1 := KdlConfig.planar_robot
  have ht : ∀ d ∈ twoLinks, d.Turns := by simp [twoLinks, KdlConfig.Desc.Turns]
  obtain ⟨-, -, hj, -, hfk⟩ := h.facts hr
  refine ⟨cfg, s0, k0, h, hr, ht, h13, ?_⟩
  have hsin : 2 * Real.sin (45 * deg2rad) = √2 := by
    rw [show 45 * deg2rad = Real.pi / 4 by unfold deg2rad; ring, Real.sin_pi_div_four]
    ring
  have hs1 : (1 : ℝ) ≤ √2 := Real.one_le_sqrt.mpr (by norm_num)
  have hs2 : √2 ≤ (2 : ℝ) := by rw [Real.sqrt_le_left (by norm_num)]; norm_num
  set xd : List ℝ := [0, 2 * Real.sin (45 * deg2rad), 0, 0, 0, 0] with hxd
  have hV : vectorToTwist xd = ⟨⟨0, √2, 0⟩, 0⟩ := by rw [hxd, hsin]; rfl
  have hn1 : (⟨0, √2, 0⟩ : Vec3).norm = √2 := by
    simp [Vec3.norm, Vec3.dot]
  have hT : Turnable (vectorToTwist xd).rot := by rw [hV]; exact Or.inl rfl
  have hC : Clear (vectorToTwist xd).vel := by
    rw [hV]
    refine Or.inr ?_
    dsimp only
    rw [hn1]
    have : eps ≤ 1 := by norm_num [eps]
    linarith
  have hM : max (vectorToTwist xd).vel.norm (vectorToTwist xd).rot.norm ≤ 10 := by
    rw [hV]
    dsimp only
    rw [hn1, Vec3.norm_zero]
    exact max_le (by linarith) (by norm_num)
  let path := ray (vectorToFrame straight) (vectorToTwist xd)
  obtain ⟨p1, p2⟩ := ray_keeps (KD.vectorToFrame_rigid straight) hT hC hM le_rfl (by norm_num)
  have p3 : path.pos 0 = vectorToFrame straight := by
    show (ray _ _).pos 0 = _
    rw [p2]
    have : (0 : ℝ) • (vectorToTwist xd).rot = 0 ∧ (0 : ℝ) • (vectorToTwist xd).vel = 0 := by constructor <;> ext <;> simp
    rw [this.1, this.2, Mat3.expRot_zero, one_mul]
    ext <;> simp
  let mid : Ctl := { s0 with trajectories := [path], movementStartTime := 0, cmcSuccess := true, state := .movv,
                             streaming := vocabNotSet }
  have hrays : rayTrajs cfg straight xd 0 (xd.length / 6) = some [path] := by
    rw [show xd.length / 6 = 1 by simp [hxd]]
    simp [rayTrajs, slice, h13, path, hxd, straight]
  have hc : can (robot cfg) (Op.prog cfg (.movv xd)) (fun o s' tr => o = .ok (some true) ∧ s' = mid ∧ tr =
      [Ev.getEncoders (some [-45, -45]), Ev.fwdKin [-45, -45] (some straight),
      Ev.getControlModes (some [.velocity, .velocity]),
      Ev.delay (1 / 10) (), Ev.getControlModes (some [.velocity, .velocity]), Ev.now 0]) s0 [] := by
    show can (robot cfg) (Prog.bind (movv cfg _) _) _ _ _
    unfold movv setCurrentState
    can_simp
    refine ⟨some [-45, -45], some_length (by simp [h1]), ?_⟩
    can_simp
    refine ⟨some straight, ?_⟩
    dsimp only
    can_simp
    refine Or.inr ⟨[path], hrays, can_setModes' [.velocity, .velocity] (by simp [h1]) (by simp) ?_⟩
    can_simp
    exact Or.inl ⟨trivial, 0, trivial, rfl, by simp⟩
  obtain ⟨tr, o, s1, hx, rfl, rfl, rfl⟩ := can_run hc
  let back : List ℝ := [0, -(2 * Real.sin (45 * deg2rad)), 0, 0, 0, 0]
  have hdiff : KdlSolver.poseDiff straight raised = back := by
    unfold KdlSolver.poseDiff
    rw [straight_frame, raised_frame]
    have e : frameDiff (Frame.trans ⟨Real.cos (45 * deg2rad) + 2, Real.sin (45 * deg2rad), 0⟩)
        (Frame.trans ⟨Real.cos (45 * deg2rad) + 2, -Real.sin (45 * deg2rad), 0⟩) =
        ⟨⟨0, -(2 * Real.sin (45 * deg2rad)), 0⟩, 0⟩ := by
      have e2 : (1 : Mat3).transpose * 1 = 1 := (Frame.IsRigid.one : (1 : Frame).M.IsRot).left
      rw [Twist.ext_iff]
      constructor
      · ext <;> simp [frameDiff, Frame.trans]
        ring
      · show (1 : Mat3).mulVec ((1 : Mat3).transpose * 1).getRot = 0
        rw [e2, getRot_one]
        ext <;> simp
    rw [e]
    rfl
  have hlaw : controlLaw s0.gain 50 back xd = some [0, 0, 0, 0, 0, 0] := by
    rw [h15]
    simp only [controlLaw, back, hxd]
    norm_num
    exact fun h => absurd h (by simp)
  have hc2 : can (robot cfg) (Op.prog cfg .cycle) (fun o s' tr => o = .ok none ∧ tr =
      [Ev.getEncoders (some [45, -135]), Ev.getEncoderSpeeds (some [0, 0]), Ev.getEncoderAccelerations (some [0, 0]),
      Ev.getControlModes (some [.velocity, .velocity]), Ev.now 0, Ev.fwdKin [45, -135] (some raised),
      Ev.poseDiff straight raised (true, back), Ev.diffInvKin [45, -135] [0, 0, 0, 0, 0, 0] .base (some [0, 0]),
      Ev.velocityMove [0, 0] true]) mid [] := by
    show can (robot cfg) (Prog.bind (run cfg) _) _ _ _
    unfold run getCurrentState runBody readEncoders
    can_simp
    refine Or.inr ⟨by simp [mid], some [45, -135], some_length (by simp [h1]), ?_⟩
    can_simp
    refine ⟨some [0, 0], some_length (by simp [h1]), ?_⟩
    can_simp
    refine ⟨some [0, 0], some_length (by simp [h1]), ?_⟩
    can_simp
    refine Or.inr ⟨true, (checkJointLimits_iff cfg _).mpr h12, Or.inl ⟨rfl, ?_⟩⟩
    rw [show dispatch cfg .movv [45, -135] [0, 0] [0, 0] = handleMovv cfg [45, -135] by simp [dispatch]]
    unfold handleMovv
    can_simp
    refine can_checkModes [.velocity, .velocity] (by simp [h1]) ?_
    can_simp
    refine Or.inl ⟨by simp, 0, some raised, ?_⟩
    unfold sendVelocity
    can_simp
    refine ⟨(true, back), Or.inr ⟨[0, 0, 0, 0, 0, 0], ?_, some [0, 0], ?_⟩⟩
    · have : twistsAt mid.trajectories (0 - mid.movementStartTime) = xd := by
        have e : path.vel 0 = vectorToTwist xd := p1
        simp [mid, twistsAt, e, hxd, vectorToTwist, twistToVector]
      rw [this, ← hlaw, ← h10]
    can_simp
    refine Or.inr ⟨true, (checkJointVelocities_iff cfg _).mpr h5, Or.inl ⟨rfl, Or.inr ⟨[0, 0], by simp [buffer, h1], true, ?_⟩⟩⟩
    have : posesAt mid.trajectories (-mid.movementStartTime) = straight := by
      simp [mid, posesAt, p3, straight_vector]
    simpa [mid, h14] using this
  obtain ⟨tr2, o, s2, hx2, rfl, rfl⟩ := can_run hc2
  refine ⟨xd, _, mid, _, s2, rfl, hx, .cons hx2 (.nil _), ?_, by simp, hT, hC, hM, ?_, ?_⟩
  · have hfw : k0.kin.fwdKin [-45, -45] = some straight := by
      rw [fwdKin_kin hj (by rw [h1]; rfl), hfk ht _ rfl, straight_arm, Option.map_some, straight_vector]
    have hfw2 : k0.kin.fwdKin [45, -135] = some raised := by
      rw [fwdKin_kin hj (by rw [h1]; rfl), hfk ht _ rfl, raised_arm, Option.map_some, raised_vector]
    refine .cons rfl (.cons ⟨rfl, straight, hfw, rfl⟩ (.cons rfl (.cons rfl (.cons rfl (.cons rfl
      (.cons rfl (.cons rfl (.cons rfl
      (.cons rfl (.cons rfl (.cons ⟨rfl, raised, hfw2, rfl⟩ (.cons ⟨rfl, ?_⟩ (.cons ⟨rfl, staying, staying_exact, ?_⟩
      (.cons rfl (.nil _)))))))))))))))
    · rw [hdiff]
    · obtain ⟨now, -, t, e0, e⟩ := diffInvKin_eq hj staying [0, 0, 0, 0, 0, 0] [45, -135] .base (by rw [h1]; rfl)
      rw [e]
      have : t = 0 := e0
      have hn : k0.chain.nJoints = 2 := hj.now.trans h1
      simp [staying, this, hn]
  · rw [straight_arm, straight_frame]; exact one_regular
  · rw [raised_arm, raised_frame]; exact one_regular

end KD.Ctrl
