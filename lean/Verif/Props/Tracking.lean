import Verif.Props.Parameters
import Verif.Props.LookAhead
import Verif.Props.Stopping
import Verif.Props.Commands

/-!
# C71: the control loop does what was commanded
-/

namespace KD.Ctrl

open scoped Classical
open Prog (wp wp_bind wp_of_run wp_sound can can_bind can_run Run Writes run_keeps)

/-- What the user asked for: to go along some paths that start at the time `start` (up to their end, or
for ever), to hold the own weight, or to push with some force. -/
inductive Plan
  | line (paths : List Traj) (start : ℝ)
  | ray (paths : List Traj) (start : ℝ)
  | weight
  | push (force : List ℝ)

/-- Settings that have to do with it: the gain times the frequency of the loop, and the reference frame. -/
structure Setting where
  rate : ℝ
  frame : RefFrame

/-- The command `e` of the calls `tr` makes the robot follow the poses `x` and the velocities `xdot`: they
are its velocities, plus what corrects the difference between the pose wanted and the pose of the robot, in
joint space by the solver. -/
def VelocityTowards (cfg : Cfg) (rate : ℝ) (frame : RefFrame) (x xdot : List ℝ) (tr : List Ev) (e : Ev) :
    Prop :=
  ∃ (q now diff : List ℝ) (ok : Bool) (v : List ℝ) (r : Bool),
    Ev.getEncoders (some q) ∈ tr ∧ Ev.fwdKin q (some now) ∈ tr ∧ Ev.poseDiff x now (ok, diff) ∈ tr ∧
    Ev.diffInvKin q (List.zipWith (fun d v => rate * d + v) diff xdot) frame (some v) ∈ tr ∧
    diff.length ≤ xdot.length ∧
    e = Ev.velocityMove (v.take cfg.numJoints) r

/-- The command `e` sends the robot to the poses `x`. -/
def PositionAt (cfg : Cfg) (x : List ℝ) (tr : List Ev) (e : Ev) : Prop :=
  ∃ (q v : List ℝ) (r : Bool), Ev.getEncoders (some q) ∈ tr ∧ Ev.invKin x q .base (some v) ∈ tr ∧
    e = Ev.setPositions (v.take cfg.numJoints) r

/-- The command `e` of the calls `tr` of a cycle is the one that serves the plan. -/
def Serves (cfg : Cfg) (set : Setting) (plan : Plan) (tr : List Ev) (e : Ev) : Prop :=
  match plan with
  | .line paths start => ∃ t, Ev.now t ∈ tr ∧ (∀ p ∈ paths, t - start ≤ p.duration) ∧
      if cfg.usePosdMovl then PositionAt cfg (posesAt paths (t - start)) tr e
      else VelocityTowards cfg set.rate .base (posesAt paths (t - start)) (twistsAt paths (t - start)) tr e
  | .ray paths start => ∃ t, Ev.now t ∈ tr ∧
      VelocityTowards cfg set.rate set.frame (posesAt paths (t - start)) (twistsAt paths (t - start)) tr e
  | .weight => ∃ (q τ : List ℝ) (r : Bool), Ev.getEncoders (some q) ∈ tr ∧
      Ev.invDynStatic q (some τ) ∈ tr ∧ e = Ev.setRefTorques (τ.take cfg.numJoints) r
  | .push force => ∃ (q v a τ : List ℝ) (r : Bool), Ev.getEncoders (some q) ∈ tr ∧
      Ev.getEncoderSpeeds (some v) ∈ tr ∧ Ev.getEncoderAccelerations (some a) ∈ tr ∧
      Ev.invDyn q v a (force.map fun f => -f) set.frame (some τ) ∈ tr ∧
      e = Ev.setRefTorques (τ.take cfg.numJoints) r

/-- The controller is carrying out the plan. -/
structure Doing (set : Setting) (plan : Plan) (s : Ctl) : Prop where
  rate : s.gain * (1000 / s.cmcPeriodMs) = set.rate
  frame : s.frame = set.frame
  what : match plan with
    | .line paths start => s.state = .movl ∧ s.trajectories = paths ∧ s.movementStartTime = start
    | .ray paths start => s.state = .movv ∧ s.trajectories = paths ∧ s.movementStartTime = start
    | .weight => s.state = .gcmp
    | .push force => s.state = .forc ∧ s.fd = force.map fun f => -f

theorem Doing.active {set : Setting} {plan : Plan} {s : Ctl} (h : Doing set plan s) :
    s.state ≠ .notControlling := by
  have := h.what
  cases plan <;> simp_all

theorem controlLaw_some {gain : ℝ} {p : ℤ} {diff v x : List ℝ} (h : controlLaw gain p diff v = some x) :
    x = List.zipWith (fun d v => gain * (1000 / p) * d + v) diff v ∧ diff.length ≤ v.length := by
  unfold controlLaw at h
  split_ifs at h with h1 h2
  · subst h1; simpa using h.symm
  · push Not at h2
    rw [← Option.some.inj h]
    simp only [mul_comm]
    exact ⟨trivial, h2.2⟩

/-- Every motion command among the calls serves the plan. -/
def AllServe (cfg : Cfg) (set : Setting) (plan : Plan) (tr : List Ev) : Prop :=
  ∀ e ∈ tr, IsMotion e → Serves cfg set plan tr e

theorem NoMotion.allServe {cfg : Cfg} {set : Setting} {plan : Plan} {tr : List Ev} (h : NoMotion tr) :
    AllServe cfg set plan tr := fun e he hm => absurd hm (h e he)

/-- Calls after it do not matter. -/
theorem Serves.mono {cfg : Cfg} {set : Setting} {plan : Plan} {tr tr' : List Ev} {e : Ev}
    (h : Serves cfg set plan tr e) (hs : ∀ x ∈ tr, x ∈ tr') : Serves cfg set plan tr' e := by
  cases plan with
  | line paths start =>
    obtain ⟨t, h1, h2, h3⟩ := h
    refine ⟨t, hs _ h1, h2, ?_⟩
    split_ifs at h3 ⊢
    · obtain ⟨q, v, r, h4, h5, h6⟩ := h3
      exact ⟨q, v, r, hs _ h4, hs _ h5, h6⟩
    · obtain ⟨q, now, diff, ok, v, r, h4, h5, h6, h7, h8, h9⟩ := h3
      exact ⟨q, now, diff, ok, v, r, hs _ h4, hs _ h5, hs _ h6, hs _ h7, h8, h9⟩
  | ray paths start =>
    obtain ⟨t, h1, q, now, diff, ok, v, r, h4, h5, h6, h7, h8, h9⟩ := h
    exact ⟨t, hs _ h1, q, now, diff, ok, v, r, hs _ h4, hs _ h5, hs _ h6, hs _ h7, h8, h9⟩
  | weight =>
    obtain ⟨q, τ, r, h1, h2, h3⟩ := h
    exact ⟨q, τ, r, hs _ h1, hs _ h2, h3⟩
  | push force =>
    obtain ⟨q, v, a, τ, r, h1, h2, h3, h4, h5⟩ := h
    exact ⟨q, v, a, τ, r, hs _ h1, hs _ h2, hs _ h3, hs _ h4, h5⟩

theorem AllServe.append {cfg : Cfg} {set : Setting} {plan : Plan} {tr es : List Ev}
    (h : AllServe cfg set plan tr) (hes : NoMotion es) : AllServe cfg set plan (tr ++ es) := by
  intro e he hm
  rcases List.mem_append.mp he with he | he
  · exact (h e he hm).mono fun x hx => List.mem_append_left _ hx
  · exact absurd hm (hes e he)

theorem NoMotion.snoc {tr : List Ev} {e : Ev} (h : NoMotion tr) (he : ¬IsMotion e) : NoMotion (tr ++ [e]) :=
  h.append (by simpa [NoMotion] using he)

theorem allServe_last {cfg : Cfg} {set : Setting} {plan : Plan} {tr : List Ev} {e : Ev} (h : NoMotion tr)
    (he : Serves cfg set plan (tr ++ [e]) e) : AllServe cfg set plan (tr ++ [e]) := by
  intro e' he' hm
  rcases List.mem_append.mp he' with h' | h'
  · exact absurd hm (h e' h')
  · obtain rfl := List.mem_singleton.mp h'
    exact he

theorem sendVelocity_serves {cfg : Cfg} {set : Setting} {plan : Plan} {s : Ctl} {q x dx dxdot : List ℝ}
    {frame : RefFrame} {tr : List Ev} (hrate : s.gain * (1000 / s.cmcPeriodMs) = set.rate) (hno : NoMotion tr)
    (hq : Ev.getEncoders (some q) ∈ tr) (hx : Ev.fwdKin q (some x) ∈ tr)
    (hs : ∀ e tr', (∀ e ∈ tr, e ∈ tr') → VelocityTowards cfg set.rate frame dx dxdot tr' e →
      Serves cfg set plan tr' e) :
    wp (robot cfg) (sendVelocity cfg q x dx dxdot frame) (fun _ _ tr => AllServe cfg set plan tr) s tr := by
  unfold sendVelocity
  dev_simp
  rintro ⟨ok, diff⟩
  have h1 := hno.snoc (e := Ev.poseDiff dx x (ok, diff)) (by simp [IsMotion])
  refine ⟨fun _ => h1.allServe, fun xdot hl => ⟨(h1.snoc (by simp [IsMotion])).allServe, fun l => ?_⟩⟩
  have h2 := h1.snoc (e := Ev.diffInvKin q xdot frame (some l)) (by simp [IsMotion])
  refine ⟨fun _ => h2.allServe, fun b _ => ⟨fun _ => ⟨fun _ => h2.allServe, fun v hv r => ?_⟩, fun _ => h2.allServe⟩⟩
  refine allServe_last h2 (hs _ _ (fun e he => by simp [he]) ?_)
  obtain ⟨hl, hlen⟩ := controlLaw_some hl
  rw [hrate] at hl
  exact ⟨q, x, diff, ok, l, r, by simp [hq], by simp [hx], by simp, by simp [hl], hlen, by rw [buffer_some hv]⟩

theorem dispatch_serves {cfg : Cfg} {set : Setting} {plan : Plan} {s : Ctl} (hd : Doing set plan s)
    (q v a : List ℝ) : wp (robot cfg) (dispatch cfg s.state q v a)
      (fun _ _ tr => AllServe cfg set plan tr) s (goodRead q v a) := by
  have hno := goodRead_noMotion q v a
  have hq : Ev.getEncoders (some q) ∈ goodRead q v a := by simp [goodRead]
  have hv : Ev.getEncoderSpeeds (some v) ∈ goodRead q v a := by simp [goodRead]
  have ha : Ev.getEncoderAccelerations (some a) ∈ goodRead q v a := by simp [goodRead]
  generalize goodRead q v a = pre at hno hq hv ha ⊢
  obtain ⟨hrate, hframe, hw⟩ := hd
  cases plan with
  | line paths start =>
    obtain ⟨hst, rfl, rfl⟩ := hw
    rw [hst]
    show wp (robot cfg) (if cfg.usePosdMovl then handleMovlPosd cfg q else handleMovlVel cfg q) _ _ _
    rcases hp : cfg.usePosdMovl with _ | _
    · rw [if_neg (by simp)]
      unfold handleMovlVel
      dev_simp
      simp only [wp_checkControlModes]
      dev_simp
      refine ⟨⟨fun h => by simp at h, fun _ => (hno.snoc (by simp [IsMotion])).allServe⟩, fun modes _ => ⟨fun _ t => ?_,
        fun _ => (hno.snoc (by simp [IsMotion])).allServe⟩⟩
      have h1 := (hno.snoc (e := Ev.getControlModes (some modes)) (by simp [IsMotion])).snoc (e := Ev.now t)
        (by simp [IsMotion])
      refine ⟨fun _ => wp_stop' fun es r hes => ?_, fun hdur => ⟨(h1.snoc (by simp [IsMotion])).allServe,
        fun x => sendVelocity_serves hrate (h1.snoc (by simp [IsMotion])) (by simp [hq]) (by simp)
          fun e tr' hsub hvel => ⟨t, hsub _ (by simp), ?_, ?_⟩⟩⟩
      · dev_simp
        exact (h1.append (stop_noMotion hes r)).allServe
      · simpa using hdur
      · rw [if_neg (by simp [hp])]
        exact hvel
    · rw [if_pos rfl]
      unfold handleMovlPosd
      dev_simp
      simp only [wp_checkControlModes]
      dev_simp
      refine ⟨⟨fun h => by simp at h, fun _ => (hno.snoc (by simp [IsMotion])).allServe⟩, fun modes _ => ⟨fun _ t => ?_,
        fun _ => (hno.snoc (by simp [IsMotion])).allServe⟩⟩
      have h1 := (hno.snoc (e := Ev.getControlModes (some modes)) (by simp [IsMotion])).snoc (e := Ev.now t)
        (by simp [IsMotion])
      refine ⟨fun _ => wp_stop' fun es r hes => ?_, fun hdur => ⟨(h1.snoc (by simp [IsMotion])).allServe,
        fun l => ⟨fun _ => (h1.snoc (by simp [IsMotion])).allServe, fun b hb r =>
          allServe_last (h1.snoc (by simp [IsMotion])) ⟨t, by simp, ?_, ?_⟩⟩⟩⟩
      · dev_simp
        exact (h1.append (stop_noMotion hes r)).allServe
      · simpa using hdur
      · rw [if_pos hp]
        exact ⟨q, l, r, by simp [hq], by simp, by rw [buffer_some hb]⟩
  | ray paths start =>
    obtain ⟨hst, rfl, rfl⟩ := hw
    rw [hst]
    show wp (robot cfg) (handleMovv cfg q) _ _ _
    unfold handleMovv
    dev_simp
    simp only [wp_checkControlModes]
    dev_simp
    refine ⟨⟨fun h => by simp at h, fun _ => (hno.snoc (by simp [IsMotion])).allServe⟩, fun modes _ => ⟨fun _ t => ?_,
      fun _ => (hno.snoc (by simp [IsMotion])).allServe⟩⟩
    have h1 := (hno.snoc (e := Ev.getControlModes (some modes)) (by simp [IsMotion])).snoc (e := Ev.now t)
      (by simp [IsMotion])
    refine ⟨(h1.snoc (by simp [IsMotion])).allServe,
      fun x => sendVelocity_serves hrate (h1.snoc (by simp [IsMotion])) (by simp [hq]) (by simp)
        fun e tr' hsub hvel => ⟨t, hsub _ (by simp), ?_⟩⟩
    rw [← hframe]
    exact hvel
  | weight =>
    rw [show s.state = .gcmp from hw]
    show wp (robot cfg) (handleGcmp cfg q) _ _ _
    unfold handleGcmp
    dev_simp
    simp only [wp_checkControlModes]
    dev_simp
    refine ⟨⟨fun h => by simp at h, fun _ => (hno.snoc (by simp [IsMotion])).allServe⟩, fun modes _ => ⟨fun _ => ?_,
      fun _ => (hno.snoc (by simp [IsMotion])).allServe⟩⟩
    have h1 := hno.snoc (e := Ev.getControlModes (some modes)) (by simp [IsMotion])
    exact ⟨(h1.snoc (by simp [IsMotion])).allServe, fun l => ⟨fun _ => (h1.snoc (by simp [IsMotion])).allServe,
      fun b hb r => allServe_last (h1.snoc (by simp [IsMotion]))
        ⟨q, l, r, by simp [hq], by simp, by rw [buffer_some hb]⟩⟩⟩
  | push force =>
    obtain ⟨hst, hfd⟩ := hw
    rw [hst]
    show wp (robot cfg) (handleForc cfg q v a) _ _ _
    unfold handleForc
    dev_simp
    simp only [wp_checkControlModes]
    dev_simp
    refine ⟨⟨fun h => by simp at h, fun _ => (hno.snoc (by simp [IsMotion])).allServe⟩, fun modes _ => ⟨fun _ => ?_,
      fun _ => (hno.snoc (by simp [IsMotion])).allServe⟩⟩
    have h1 := hno.snoc (e := Ev.getControlModes (some modes)) (by simp [IsMotion])
    exact ⟨(h1.snoc (by simp [IsMotion])).allServe, fun l => ⟨fun _ => (h1.snoc (by simp [IsMotion])).allServe,
      fun b hb r => allServe_last (h1.snoc (by simp [IsMotion]))
        ⟨q, v, a, l, r, by simp [hq], by simp [hv], by simp [ha], by simp [hframe, hfd],
          by rw [buffer_some hb]⟩⟩⟩

/-- A cycle of the loop while a plan is carried out. -/
theorem cycle_serves {cfg : Cfg} {set : Setting} {plan : Plan} {s s' : Ctl} {tr : List Ev} {o : Out Unit}
    (hd : Doing set plan s) (h : Exec cfg (run cfg) s tr o s') : AllServe cfg set plan tr := by
  refine wp_sound (Q := fun _ _ tr => AllServe cfg set plan tr) ?_ h
  clear h
  unfold run getCurrentState
  dev_simp
  refine ⟨fun e => absurd e hd.active, fun _ => ?_⟩
  have hstop : ∀ (s : Ctl) (tr : List Ev), AllServe cfg set plan tr →
      wp (robot cfg) (Prog.bind stopControl fun _ => Prog.pure ()) (fun _ _ tr => AllServe cfg set plan tr) s tr := by
    intro s tr h
    refine wp_stop' fun es r hes => ?_
    dev_simp
    exact h.append (stop_noMotion hes r)
  have hnil : ∀ e, ¬IsMotion e → NoMotion [e] := fun e he => by simpa [NoMotion] using he
  unfold runBody readEncoders
  dev_simp
  refine ⟨⟨fun _ => ?_, fun _ => hstop _ _ ?_⟩, fun q hq => ⟨⟨fun _ => ?_, fun _ => hstop _ _ ?_⟩, fun v hv =>
    ⟨⟨fun _ => ?_, fun _ => hstop _ _ ?_⟩, fun a ha => ⟨fun _ => ?_, fun ok hok => ⟨fun hk => ?_, fun hk => ?_⟩⟩⟩⟩⟩
  iterate 7 exact NoMotion.allServe (by simp [NoMotion, IsMotion])
  · rw [wp_bind]
    have hd' : Doing set plan { s with encoderErrors := 0 } := ⟨hd.rate, hd.frame, hd.what⟩
    have := dispatch_serves (cfg := cfg) hd' q v a
    refine Prog.wp_mono ?_ this
    rintro (b | _) s1 tr1 h1
    · simp only [Prog.Out.andThen]
      dev_simp
      exact ⟨fun _ => h1, fun _ => hstop _ _ h1⟩
    · exact h1
  · refine ⟨fun _ => NoMotion.allServe (by simp [NoMotion, IsMotion]), fun _ => hstop _ _ (NoMotion.allServe (by simp [NoMotion, IsMotion]))⟩

/-- How the paths of a movement are made: one per end effector, each from the six coordinates of the pose
at the beginning and the six of the argument. -/
structure PathsOf (make : Frame → List ℝ → Traj) (x arg : List ℝ) (n : ℕ) (paths : List Traj) : Prop where
  count : paths.length = n
  each : ∀ i < n, ∃ a b, a.length = 6 ∧ b.length = 6 ∧ a = (x.drop (6 * i)).take 6 ∧
    b = (arg.drop (6 * i)).take 6 ∧ paths[i]? = some (make (KdlVectorConverter.vectorToFrame a) b)

/-- What a command asks for, in view of the calls that it made. -/
def Asked (cfg : Cfg) (s : Ctl) (op : Op) (tr : List Ev) : Plan → Prop
  | .line paths start => ∃ (xd q x target : List ℝ), op = .movl xd ∧ Ev.getEncoders (some q) ∈ tr ∧
      Ev.fwdKin q (some x) ∈ tr ∧ Ev.now start ∈ tr ∧
      (if s.frame = .tcp then Ev.changeOrigin xd x (some target) ∈ tr else target = xd) ∧
      PathsOf (fun a b => cfg.line a (KdlVectorConverter.vectorToFrame b) s.duration) x target (xd.length / 6) paths
  | .ray paths start => ∃ (xd q x : List ℝ), op = .movv xd ∧ Ev.getEncoders (some q) ∈ tr ∧
      Ev.fwdKin q (some x) ∈ tr ∧ Ev.now start ∈ tr ∧
      PathsOf (fun a b => cfg.ray a (KdlVectorConverter.vectorToTwist b)) x xd (xd.length / 6) paths
  | .weight => op = .gcmp
  | .push force => op = .forc force

theorem slice_some {l a : List ℝ} {i : ℕ} (h : slice l i = some a) :
    a.length = 6 ∧ a = (l.drop (6 * i)).take 6 := by
  unfold slice at h
  split_ifs at h with h1
  rw [← Option.some.inj h, mul_comm 6 i]
  refine ⟨?_, rfl⟩
  rw [List.length_take, List.length_drop]
  omega

theorem lineTrajs_some {cfg : Cfg} {d : ℝ} {x y : List ℝ} {k : ℕ} : ∀ {i : ℕ} {ts : List Traj},
    lineTrajs cfg d x y i k = some ts → ts.length = k ∧ ∀ j < k, ∃ a b, a.length = 6 ∧ b.length = 6 ∧
      a = (x.drop (6 * (i + j))).take 6 ∧ b = (y.drop (6 * (i + j))).take 6 ∧
      ts[j]? = some (cfg.line (KdlVectorConverter.vectorToFrame a) (KdlVectorConverter.vectorToFrame b) d) := by
  induction k with
  | zero =>
    intro i ts h
    rw [lineTrajs] at h
    rw [← Option.some.inj h]
    simp
  | succ k ih =>
    intro i ts h
    rw [lineTrajs] at h
    simp only [Option.bind_eq_bind, Option.bind_eq_some_iff] at h
    obtain ⟨a, ha, b, hb, rest, hr, h⟩ := h
    obtain ⟨h1, h2⟩ := ih hr
    rw [← Option.some.inj h]
    refine ⟨by simp [h1], fun j hj => ?_⟩
    rcases j with _ | j
    · obtain ⟨ha1, ha2⟩ := slice_some ha
      obtain ⟨hb1, hb2⟩ := slice_some hb
      exact ⟨a, b, ha1, hb1, ha2, hb2, rfl⟩
    · obtain ⟨a', b', h3, h4, h5, h6, h7⟩ := h2 j (by omega)
      rw [show i + (j + 1) = i + 1 + j by omega]
      exact ⟨a', b', h3, h4, h5, h6, by simpa using h7⟩

theorem rayTrajs_some {cfg : Cfg} {x y : List ℝ} {k : ℕ} : ∀ {i : ℕ} {ts : List Traj},
    rayTrajs cfg x y i k = some ts → ts.length = k ∧ ∀ j < k, ∃ a b, a.length = 6 ∧ b.length = 6 ∧
      a = (x.drop (6 * (i + j))).take 6 ∧ b = (y.drop (6 * (i + j))).take 6 ∧
      ts[j]? = some (cfg.ray (KdlVectorConverter.vectorToFrame a) (KdlVectorConverter.vectorToTwist b)) := by
  induction k with
  | zero =>
    intro i ts h
    rw [rayTrajs] at h
    rw [← Option.some.inj h]
    simp
  | succ k ih =>
    intro i ts h
    rw [rayTrajs] at h
    simp only [Option.bind_eq_bind, Option.bind_eq_some_iff] at h
    obtain ⟨a, ha, b, hb, rest, hr, h⟩ := h
    obtain ⟨h1, h2⟩ := ih hr
    rw [← Option.some.inj h]
    refine ⟨by simp [h1], fun j hj => ?_⟩
    rcases j with _ | j
    · obtain ⟨ha1, ha2⟩ := slice_some ha
      obtain ⟨hb1, hb2⟩ := slice_some hb
      exact ⟨a, b, ha1, hb1, ha2, hb2, rfl⟩
    · obtain ⟨a', b', h3, h4, h5, h6, h7⟩ := h2 j (by omega)
      rw [show i + (j + 1) = i + 1 + j by omega]
      exact ⟨a', b', h3, h4, h5, h6, by simpa using h7⟩

/-- The settings of the controller. -/
noncomputable def Ctl.setting (s : Ctl) : Setting := ⟨s.gain * (1000 / s.cmcPeriodMs), s.frame⟩

theorem movlStart_plan (cfg : Cfg) (q : List ℝ) (s : Ctl) (pre : List Ev) : wp (robot cfg) (movlStart cfg q)
    (fun o s' tr => o = .ok true → (∀ e ∈ pre, e ∈ tr) ∧ ∃ t, Ev.now t ∈ tr ∧
      Doing s.setting (.line s.trajectories t) s') s pre := by
  unfold movlStart setCurrentState
  have key : ∀ (ok : Bool) (tr : List Ev), (∀ e ∈ pre, e ∈ tr) →
      wp (robot cfg) (if ok = true then Prog.bind (setControlModes (movlMode cfg)) fun b =>
        if b = true then Prog.bind Dev.now fun t : ℝ =>
          Prog.bind (Prog.modify fun s => { s with movementStartTime := t }) fun _ =>
          Prog.bind (Prog.modify fun s => { s with cmcSuccess := true }) fun _ =>
          Prog.bind (Prog.modify fun s => { s with state := .movl, streaming := vocabNotSet }) fun _ =>
          Prog.pure true
        else Prog.pure false else Prog.pure false) (fun o s' tr => o = .ok true → (∀ e ∈ pre, e ∈ tr) ∧
          ∃ t, Ev.now t ∈ tr ∧ Doing s.setting (.line s.trajectories t) s') s tr := by
    intro ok tr hsub
    cases ok
    · dev_simp
      simp
    · rw [if_pos rfl]
      refine wp_setModes fun b es _ _ => ?_
      cases b
      · dev_simp
        simp
      · rw [if_pos rfl]
        dev_simp
        exact fun t _ => ⟨fun e he => by simp [hsub e he], t, by simp, rfl, rfl, rfl, rfl, rfl⟩
  split_ifs
  · rw [Prog.bind_eq, wp_bind]
    refine wp_of_run fun tr o s' hr => ?_
    obtain ⟨rfl, -, -⟩ := run_failFast hr
    rcases o with ok | _
    · exact key ok _ (by simp +contextual)
    · simp [Prog.Out.andThen]
  · exact key true _ fun _ h => h

/-- The plan in force after a command is the one asked for. -/
theorem command_plan {cfg : Cfg} {op : Op} {st : CState} (hop : op.target = some st) (hst : st ≠ .movj)
    {s s' : Ctl} {tr : List Ev} (h : Exec cfg (op.prog cfg) s tr (.ok (some true)) s') :
    ∃ plan, Asked cfg s op tr plan ∧ Doing s.setting plan s' := by
  cases op <;> simp [Op.target] at hop <;> subst hop
  case movj => exact absurd rfl hst
  case relj => exact absurd rfl hst
  case movl xd =>
    refine wp_sound (Q := fun o s' tr => o = .ok true → ∃ plan, Asked cfg s (.movl xd) tr plan ∧
      Doing s.setting plan s') ?_ (run_answer h) rfl
    clear h
    unfold movl
    dev_simp
    refine ⟨by simp, fun q _ => ⟨by simp, fun x => ⟨fun hf => ⟨by simp, fun target => ⟨by simp, fun ts hts =>
      Prog.wp_mono ?_ (movlStart_plan cfg q _ _)⟩⟩, fun hf => ⟨by simp, fun ts hts =>
      Prog.wp_mono ?_ (movlStart_plan cfg q _ _)⟩⟩⟩⟩
    · intro o s1 tr1 h1 ho
      obtain ⟨hsub, t, ht, hd⟩ := h1 ho
      obtain ⟨h2, h3⟩ := lineTrajs_some hts
      refine ⟨.line ts t, ⟨xd, q, x, target, rfl, hsub _ (by simp), hsub _ (by simp), ht, ?_, h2, fun i hi => ?_⟩, hd⟩
      · rw [if_pos hf]; exact hsub _ (by simp)
      · simpa using h3 i hi
    · intro o s1 tr1 h1 ho
      obtain ⟨hsub, t, ht, hd⟩ := h1 ho
      obtain ⟨h2, h3⟩ := lineTrajs_some hts
      refine ⟨.line ts t, ⟨xd, q, x, xd, rfl, hsub _ (by simp), hsub _ (by simp), ht, ?_, h2, fun i hi => ?_⟩, hd⟩
      · rw [if_neg hf]
      · simpa using h3 i hi
  case movv xd =>
    refine wp_sound (Q := fun o s' tr => o = .ok true → ∃ plan, Asked cfg s (.movv xd) tr plan ∧
      Doing s.setting plan s') ?_ (run_answer h) rfl
    clear h
    unfold movv setCurrentState
    dev_simp
    refine ⟨by simp, fun q _ => ⟨by simp, fun x => ⟨by simp, fun ts hts => wp_setModes fun b es _ _ => ?_⟩⟩⟩
    dev_simp
    refine ⟨fun _ t _ => ?_, by simp⟩
    obtain ⟨h2, h3⟩ := rayTrajs_some hts
    exact ⟨.ray ts t, ⟨xd, q, x, rfl, by simp, by simp, by simp, h2, fun i hi => by simpa using h3 i hi⟩,
      rfl, rfl, rfl, rfl, rfl⟩
  case gcmp =>
    refine wp_sound (Q := fun o s' tr => o = .ok true → ∃ plan, Asked cfg s .gcmp tr plan ∧
      Doing s.setting plan s') ?_ (run_answer h) rfl
    clear h
    unfold gcmp setCurrentState
    dev_simp
    refine wp_setModes fun b es _ _ => ?_
    dev_simp
    exact ⟨fun _ _ => ⟨.weight, rfl, rfl, rfl, rfl⟩, by simp⟩
  case forc fd =>
    refine wp_sound (Q := fun o s' tr => o = .ok true → ∃ plan, Asked cfg s (.forc fd) tr plan ∧
      Doing s.setting plan s') ?_ (run_answer h) rfl
    clear h
    unfold forc setCurrentState
    dev_simp
    refine ⟨by simp, fun _ => wp_setModes fun b es _ _ => ?_⟩
    dev_simp
    exact ⟨fun _ _ => ⟨.push fd, rfl, rfl, rfl, rfl, rfl⟩, by simp⟩

/-! ## Until the next movement -/

/-- The plan is carried out, or nothing is. -/
def DoingOrIdle (set : Setting) (plan : Plan) (s : Ctl) : Prop :=
  s.state = .notControlling ∨ Doing set plan s

theorem keepsIdle_params : ParamWrites KeepsIdle :=
  ⟨fun _ _ h => h, fun _ _ h => h, fun _ _ h => h, fun _ _ h => h, fun _ _ h => h, fun _ _ h => h,
    fun _ _ h => h, fun _ _ => rfl⟩

theorem waitLoop_stays (cfg : Cfg) (timeout start : ℝ) (s : Ctl) (n : ℕ) : ∀ (st : CState) (tr : List Ev),
    wp (robot cfg) (waitLoop timeout start n st) (fun _ s' _ => s' = s ∨ s' = s.stopped) s tr := by
  induction n with
  | zero => intro st tr; exact Or.inl rfl
  | succ n ih =>
    intro st tr
    unfold waitLoop getCurrentState
    dev_simp
    refine ⟨fun _ => Or.inl trivial, fun _ => ⟨fun _ t => ⟨fun _ => wp_stop' fun es r _ => ?_, fun _ _ => ih _ _⟩,
      fun _ => ⟨fun h => by simp at h, fun _ _ => ih _ _⟩⟩⟩
    dev_simp
    exact Or.inr trivial

/-- The other commands, and the loop, go on with the plan or end it. -/
theorem op_keeps {cfg : Cfg} {set : Setting} {plan : Plan} {op : Op} (hop : op.target = none) {s s' : Ctl}
    {tr : List Ev} {b : Option Bool} (h : Exec cfg (op.prog cfg) s tr (.ok b) s')
    (hs : DoingOrIdle set plan s) : DoingOrIdle set plan s' := by
  have same : Writes (fun _ => False) (op.prog cfg) → DoingOrIdle set plan s' := fun hw =>
    run_keeps (I := DoingOrIdle set plan) (fun f hf => hf.elim) h hw hs
  cases op <;> simp [Op.target] at hop
  case stat => exact same (Prog.writes_bind writes_stat fun _ => True.intro)
  case inv => exact same (Prog.writes_bind writes_inv fun _ => True.intro)
  case tool => exact same (Prog.writes_bind writes_tool fun _ => True.intro)
  case pose => exact same (Prog.writes_bind writes_pose fun _ => True.intro)
  case twist => exact same (Prog.writes_bind writes_twist fun _ => True.intro)
  case wrench => exact same (Prog.writes_bind writes_wrench fun _ => True.intro)
  case getParameter => exact same (Prog.writes_bind writes_getParameter fun _ => True.intro)
  case setParameter k v =>
    rcases hs with hs | hs
    · exact Or.inl (run_keeps (W := KeepsIdle) (I := fun s => s.state = .notControlling) (fun f hf => hf) h
        (Prog.writes_bind (writes_setParameter keepsIdle_params) fun _ => True.intro) hs)
    · rcases Prog.run_bind.mp h with ⟨a, s1, t1, t2, h1, h2, rfl⟩ | ⟨-, h⟩
      · obtain ⟨-, -, rfl⟩ := C36_no_change_while_moving hs.active k v [] (Or.inl h1)
        cases h2
        exact Or.inr hs
      · simp at h
  case setParameters ps =>
    rcases hs with hs | hs
    · exact Or.inl (run_keeps (W := KeepsIdle) (I := fun s => s.state = .notControlling) (fun f hf => hf) h
        (Prog.writes_bind (writes_setParameters keepsIdle_params) fun _ => True.intro) hs)
    · rcases Prog.run_bind.mp h with ⟨a, s1, t1, t2, h1, h2, rfl⟩ | ⟨-, h⟩
      · obtain ⟨-, -, rfl⟩ := C36_no_change_while_moving hs.active .gain 0 ps (Or.inr h1)
        cases h2
        exact Or.inr hs
      · simp at h
  case stopControl =>
    refine wp_sound (Q := fun _ s' _ => DoingOrIdle set plan s') (wp_stop' fun es r _ => ?_) h
    exact Or.inl rfl
  case wait timeout n =>
    refine wp_sound (Q := fun _ s' _ => DoingOrIdle set plan s') ?_ h
    show wp (robot cfg) (wait timeout n) _ _ _
    unfold wait getCurrentState
    dev_simp
    refine ⟨fun _ => hs, fun _ t => Prog.wp_mono ?_ (waitLoop_stays cfg timeout t s n _ _)⟩
    rintro o s1 tr1 (rfl | rfl)
    · exact hs
    · exact Or.inl rfl
  case cycle =>
    rcases Prog.run_bind.mp h with ⟨a, s1, t1, t2, h1, h2, rfl⟩ | ⟨-, h⟩
    swap
    · simp at h
    cases h2
    rcases hs with hs | hs
    · obtain ⟨-, -, rfl⟩ := run_idle hs h1
      exact Or.inl hs
    · have hd : ∀ n, Doing set plan { s with encoderErrors := n } := fun n => ⟨hs.rate, hs.frame, hs.what⟩
      cases run_cycle hs.active h1 with
      | skipped _ _ => exact Or.inr (hd _)
      | gaveUp _ _ _ _ => exact Or.inl rfl
      | limits _ _ _ _ _ _ _ _ => exact Or.inl rfl
      | failed _ _ _ _ _ _ _ _ _ => exact Or.inl rfl
      | went _ _ _ _ _ _ _ he =>
        rcases he.moves rfl with rfl | ⟨h, -⟩
        · exact Or.inr (hd _)
        · exact Or.inl h

/-- C71, from a command to the following ones: after `movl`, `movv`, `gcmp` or `forc` was accepted, and until
another movement is commanded, every motion command that the loop sends serves what was asked for, whatever
else is called meanwhile (`wait`, `stopControl`, queries, streaming, parameters). Partial: `Serves` hands the
correction of `movv` over in the reference frame of the controller, where it should be in the base frame. -/
theorem C71_commands_serve_partial {cfg : Cfg} {op : Op} {st : CState} (hop : op.target = some st) (hst : st ≠ .movj)
    {s s' : Ctl} {tr : List Ev} (h : Exec cfg (op.prog cfg) s tr (.ok (some true)) s') :
    ∃ plan, Asked cfg s op tr plan ∧ ∀ ds s2, Hist cfg s' ds s2 → (∀ d ∈ ds, d.op.target = none) →
      ∀ d ∈ ds, d.op = .cycle → ∀ e ∈ d.calls, IsMotion e →
        Serves cfg ⟨s.gain * (1000 / s.cmcPeriodMs), s.frame⟩ plan d.calls e := by
  obtain ⟨plan, hp, hd⟩ := command_plan hop hst h
  refine ⟨plan, hp, fun ds s2 hist => ?_⟩
  clear h
  replace hd : DoingOrIdle s.setting plan s' := Or.inr hd
  induction hist with
  | nil => simp
  | @cons s1 op1 tr1 b1 s3 ds s4 h1 _ ih =>
    intro hno d hmem hc e he hm
    rcases List.mem_cons.mp hmem with rfl | hmem
    · dsimp only at hc he ⊢
      subst hc
      rcases Prog.run_bind.mp h1 with ⟨a, s5, t1, t2, h2, h3, rfl⟩ | ⟨-, h⟩
      · cases h3
        rw [List.append_nil] at he ⊢
        rcases hd with hd | hd
        · obtain ⟨-, rfl, -⟩ := run_idle hd h2
          simp at he
        · exact cycle_serves hd h2 e he hm
      · simp at h
    · exact ih (op_keeps (hno _ List.mem_cons_self) h1 hd) (fun d hd => hno d (List.mem_cons_of_mem _ hd)) d hmem hc e he hm

/-! ## The tool frame -/

/-- A controller whose commands are in the frame of the tool. -/
noncomputable def readyTool : Ctl := { ready with frame := .tcp }

/-- The same after `movv`. -/
noncomputable def movingTool : Ctl where
  frame := .tcp
  gain := ready.gain
  duration := ready.duration
  cmcPeriodMs := ready.cmcPeriodMs
  waitPeriodMs := ready.waitPeriodMs
  period := ready.period
  state := .movv
  streaming := vocabNotSet
  movementStartTime := 0
  vmoStored := []
  trajectories := [⟨1, fun _ => 1, fun _ => ⟨0, 0⟩⟩]
  fd := []
  encoderErrors := 0
  cmcSuccess := true

/-- The calls of the next cycle. -/
noncomputable def toolCalls : List Ev := goodRead [0] [0] [0] ++
  [.getControlModes (some [.velocity]), .now 1, .fwdKin [0] (some [0, 0, 0, 0, 0, 0]),
   .poseDiff (posesAt movingTool.trajectories 1) [0, 0, 0, 0, 0, 0] (true, [2, 0, 0, 0, 0, 0]),
   .diffInvKin [0] [2, 0, 0, 0, 0, 0] .tcp (some [3]), .velocityMove [3] true]

theorem movv_accepted : ∃ tr, Exec oneJoint (Op.prog oneJoint (.movv [1, 0, 0, 0, 0, 0])) readyTool tr
    (.ok (some true)) movingTool := by
  obtain ⟨tr, o, s1, hr, rfl, rfl⟩ := can_run (env := robot oneJoint)
    (p := Op.prog oneJoint (.movv [1, 0, 0, 0, 0, 0])) (s := readyTool) (tr0 := [])
    (Q := fun o s' _ => o = .ok (some true) ∧ s' = movingTool) (by
      show can (robot oneJoint) (Prog.bind (movv oneJoint _) _) _ _ _
      unfold movv setCurrentState
      can_simp
      refine ⟨some [0], some_length rfl, ?_⟩
      can_simp
      refine ⟨some [0, 0, 0, 0, 0, 0], ?_⟩
      can_simp
      refine Or.inr ⟨[⟨1, fun _ => 1, fun _ => ⟨0, 0⟩⟩], by simp [rayTrajs, slice, oneJoint], ?_⟩
      refine can_setModes' [.velocity] rfl (by simp) ?_
      can_simp
      exact Or.inl ⟨trivial, 0, trivial, rfl⟩)
  exact ⟨tr, hr⟩

theorem movv_cycle : Exec oneJoint (run oneJoint) movingTool toolCalls (.ok ()) movingTool := by
  obtain ⟨tr', o, s2, hr', rfl, rfl, h⟩ := can_run (env := robot oneJoint)
    (p := run oneJoint) (s := movingTool) (tr0 := [])
    (Q := fun o s' tr => o = .ok () ∧ s' = movingTool ∧ tr = toolCalls) (by
      refine can_cycle [0] [0] [0] (by simp [movingTool]) rfl rfl rfl
        (oneJoint_inLimits (by norm_num) (by norm_num)) ?_
      show can (robot oneJoint) (handleMovv oneJoint [0]) _ _ _
      unfold handleMovv
      can_simp
      refine can_checkModes [.velocity] rfl ?_
      can_simp
      refine Or.inl ⟨by simp, 1, some [0, 0, 0, 0, 0, 0], ?_⟩
      unfold sendVelocity
      can_simp
      refine ⟨(true, [2, 0, 0, 0, 0, 0]), Or.inr ⟨[2, 0, 0, 0, 0, 0], ?_, some [3], ?_⟩⟩
      · have : twistsAt movingTool.trajectories (1 - movingTool.movementStartTime) = [0, 0, 0, 0, 0, 0] := by
          simp [twistsAt, movingTool, KdlVectorConverter.twistToVector]
        rw [this]
        norm_num [controlLaw, movingTool, ready, Ctl.initial]
      can_simp
      refine Or.inr ⟨true, (checkJointVelocities_iff _ _).mpr (oneJoint_inVelLimits (by norm_num)), ?_⟩
      refine Or.inl ⟨rfl, Or.inr ⟨[3], by simp [buffer, oneJoint], true, ?_⟩⟩
      simp [movingTool, toolCalls])
  simpa [← h] using hr'

/-- C71 in its full form asks that velocities and corrections, which are in the base frame, are handed to the
solver as such. `movv` with the tool as reference frame does not: the difference between poses in the base frame
goes to the solver as a velocity in the frame of the tool. The two `example`s of reachability are part of it:
the movement was accepted, and the cycle ran. -/
theorem C71_tool_frame_mixed : ∃ tr, Exec oneJoint (Op.prog oneJoint (.movv [1, 0, 0, 0, 0, 0])) readyTool tr
      (.ok (some true)) movingTool ∧
    Exec oneJoint (run oneJoint) movingTool toolCalls (.ok ()) movingTool ∧
    Ev.velocityMove [3] true ∈ toolCalls ∧
    (∃ x now diff, Ev.poseDiff x now (true, diff) ∈ toolCalls ∧ ∃ v, Ev.diffInvKin [0] diff .tcp v ∈ toolCalls) ∧
    ∀ q x v, Ev.diffInvKin q x .base v ∉ toolCalls := by
  obtain ⟨tr, h⟩ := movv_accepted
  exact ⟨tr, h, movv_cycle, by simp [toolCalls], ⟨posesAt movingTool.trajectories 1, [0, 0, 0, 0, 0, 0],
    [2, 0, 0, 0, 0, 0], by simp [toolCalls], some [3], by simp [toolCalls]⟩, by simp [toolCalls, goodRead]⟩

/-- The hypotheses of `C71_commands_serve_partial` are met by the same run: a cycle with a motion command after an
accepted command. -/
example : ∃ tr d s2, Exec oneJoint (Op.prog oneJoint (.movv [1, 0, 0, 0, 0, 0])) readyTool tr
      (.ok (some true)) movingTool ∧ Hist oneJoint movingTool [d] s2 ∧ d.op = .cycle ∧
    ∃ e ∈ d.calls, IsMotion e := by
  obtain ⟨tr, h⟩ := movv_accepted
  exact ⟨tr, ⟨.cycle, toolCalls, none⟩, movingTool, h, hist_cycle movv_cycle, rfl, .velocityMove [3] true,
    by simp [toolCalls], trivial⟩

end KD.Ctrl
