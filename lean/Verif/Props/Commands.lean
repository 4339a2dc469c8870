import Verif.Props.JointSpeeds
import Verif.Props.ControlLoop

/-!
# C35 and C39: how movements are accepted, and the reference speeds after a joint movement
-/

namespace KD.Ctrl

open Prog (wp wp_bind wp_of_run wp_sound can can_bind can_run Run Writes run_keeps)

/-! ## C35 -/

/-- A movement command that returns false leaves the state of the controller as it was (with the
streaming command and the success flag); the only motion command it may have sent is a position move
that the robot refused. -/
theorem C35_refused_command_keeps_state {cfg : Cfg} {op : Op} {st : CState} (hop : op.target = some st)
    {s s' : Ctl} {tr : List Ev} (h : Exec cfg (op.prog cfg) s tr (.ok (some false)) s') :
    s'.state = s.state ∧ s'.streaming = s.streaming ∧ s'.cmcSuccess = s.cmcSuccess ∧
      ∀ e ∈ tr, IsMotion e → ∃ q, e = Ev.positionMove q false :=
  (run_command hop h).refused rfl

/-- A movement command that returns true leaves the controller in the state of the movement, with all
joints in its control mode; except that a joint movement whose target is the present position does
nothing. -/
theorem C35_accepted_command_in_state_partial {cfg : Cfg} {op : Op} {st : CState}
    (hop : op.target = some st) {s s' : Ctl} {tr : List Ev}
    (h : Exec cfg (op.prog cfg) s tr (.ok (some true)) s') :
    (s'.state = st ∧ ∃ mode, neededMode cfg st = some mode ∧ InMode mode tr) ∨
    (st = .movj ∧ s' = s ∧ NoMotion tr ∧ ∃ x q f qd, Ev.getEncoders (some q) ∈ tr ∧
      Ev.invKin x q f (some qd) ∈ tr ∧ AtTarget cfg q qd) :=
  (run_command hop h).accepted rfl

/-- In that statement the modes are those of all joints. -/
theorem C35_modes_of_all_joints {cfg : Cfg} {α : Type} {p : P α} {s s' : Ctl} {tr : List Ev} {o : Out α}
    (h : Exec cfg p s tr o s') {modes : List Mode} (hm : Ev.getControlModes (some modes) ∈ tr) :
    modes.length = cfg.numJoints :=
  exec_modes_length h hm

/-- Both outcomes happen. -/
example : (∃ tr s', Exec oneJoint (Op.prog oneJoint .gcmp) ready tr (.ok (some true)) s') ∧
    ∃ tr s', Exec oneJoint (Op.prog oneJoint .gcmp) ready tr (.ok (some false)) s' := by
  constructor
  · obtain ⟨tr, h⟩ := gcmp_starts true 0
    cases h with
    | cons hx _ => exact ⟨_, _, hx⟩
  · have : can (robot oneJoint) (Op.prog oneJoint .gcmp) (fun o _ _ => o = .ok (some false)) ready [] := by
      show can (robot oneJoint) (Prog.bind gcmp _) _ _ _
      unfold gcmp setCurrentState
      can_simp
      refine can_setModes_none ?_
      can_simp
      exact Or.inr ⟨by simp, trivial⟩
    obtain ⟨tr, o, s', hr, rfl⟩ := can_run this
    exact ⟨tr, s', hr⟩

/-- C35 does not hold to the letter: during a linear movement, a joint movement to the present position
returns true and the linear movement goes on. -/
theorem C35_true_but_other_movement_goes_on : ∃ tr,
    Exec oneJoint (Op.prog oneJoint (.movj [0, 0, 0, 0, 0, 0])) midMovl tr (.ok (some true)) midMovl ∧
    midMovl.state = .movl := by
  have : can (robot oneJoint) (Op.prog oneJoint (.movj [0, 0, 0, 0, 0, 0]))
      (fun o s' _ => o = .ok (some true) ∧ s' = midMovl) midMovl [] := by
    show can (robot oneJoint) (Prog.bind (movj oneJoint _) _) _ _ _
    unfold movj
    can_simp
    refine ⟨some [0], some_length rfl, ?_⟩
    can_simp
    refine ⟨some [0], ?_⟩
    can_simp
    refine Or.inr ⟨([0], false), ?_, Or.inr ⟨by simp, trivial, trivial⟩⟩
    norm_num [computeIsocronousSpeeds, isoDeltas, oneJoint, Option.bind_eq_bind]
  obtain ⟨tr, o, s', hr, rfl, rfl⟩ := can_run this
  exact ⟨tr, hr, rfl⟩

/-- A refused linear movement takes the place of the one in progress: the state is as before, but the
control loop follows the refused path from then on. -/
theorem C35_refused_movl_replaces_path : ∃ tr s',
    Exec oneJoint (Op.prog oneJoint (.movl [5, 0, 0, 0, 0, 0])) midMovl tr (.ok (some false)) s' ∧
    s'.state = .movl ∧ posesAt midMovl.trajectories 1 = KdlVectorConverter.frameToVector 1 ∧
    posesAt s'.trajectories 1 =
      KdlVectorConverter.frameToVector (KdlVectorConverter.vectorToFrame [5, 0, 0, 0, 0, 0]) := by
  have : can (robot oneJoint) (Op.prog oneJoint (.movl [5, 0, 0, 0, 0, 0]))
      (fun o s' _ => o = .ok (some false) ∧ s'.state = .movl ∧ posesAt s'.trajectories 1 =
        KdlVectorConverter.frameToVector (KdlVectorConverter.vectorToFrame [5, 0, 0, 0, 0, 0]))
      midMovl [] := by
    show can (robot oneJoint) (Prog.bind (movl oneJoint _) _) _ _ _
    unfold movl movlStart
    can_simp
    refine ⟨some [0], some_length rfl, ?_⟩
    can_simp
    refine ⟨some [0, 0, 0, 0, 0, 0], ?_⟩
    can_simp
    refine Or.inr ⟨by simp [midMovl, ready, Ctl.initial], ?_⟩
    refine Or.inr ⟨[oneJoint.line (KdlVectorConverter.vectorToFrame [0, 0, 0, 0, 0, 0])
      (KdlVectorConverter.vectorToFrame [5, 0, 0, 0, 0, 0]) 10], ?_, ?_⟩
    · simp [lineTrajs, slice, midMovl, ready, Ctl.initial]
    · refine Or.inr ⟨by simp [oneJoint], Or.inl ⟨trivial, can_setModes_none ?_⟩⟩
      can_simp
      exact Or.inr ⟨by simp, trivial, rfl, by simp [posesAt, oneJoint]⟩
  obtain ⟨tr, o, s', hr, rfl, h1, h2⟩ := can_run this
  exact ⟨tr, s', hr, h1, by simp [posesAt, midMovl], h2⟩

/-! ## C39 -/

/-- All calls of a history. -/
def allCalls (ds : List Done) : List Ev := ds.flatMap Done.calls

/-- The reference speeds in force after some calls (`v` before them): the last ones that the robot
accepted. -/
def speedsAfter (v : List ℝ) : List Ev → List ℝ
  | [] => v
  | .setRefSpeeds w true :: es => speedsAfter w es
  | _ :: es => speedsAfter v es

/-- The robot reports the speeds in force. -/
def Truthful (v : List ℝ) (tr : List Ev) : Prop :=
  ∀ pre post refs, tr = pre ++ Ev.getRefSpeeds (some refs) :: post → refs = speedsAfter v pre

theorem speedsAfter_append (v : List ℝ) (a b : List Ev) :
    speedsAfter v (a ++ b) = speedsAfter (speedsAfter v a) b := by
  induction a generalizing v with
  | nil => rfl
  | cons e a ih =>
    cases e
    case setRefSpeeds w r => cases r <;> simp [speedsAfter, ih]
    all_goals simp [speedsAfter, ih]

/-- What an accepted joint movement stores: the speeds reported before it changes any. -/
theorem movj_stored (cfg : Cfg) (xd : List ℝ) (s : Ctl) : wp (robot cfg) (movj cfg xd)
    (fun o s' tr => o = .ok true → s' = s ∨ ∃ refs pre post, s'.vmoStored = refs ∧
      refs.length = cfg.numJoints ∧ s'.cmcSuccess = true ∧ tr = pre ++ Ev.getRefSpeeds (some refs) :: post ∧
      (∀ v r, Ev.setRefSpeeds v r ∉ pre)) s [] := by
  unfold movj setCurrentState
  dev_simp
  refine ⟨by simp, fun q _ => ⟨by simp, fun qd => ⟨by simp, fun ⟨vmo, mv⟩ hmv => ⟨fun hk => ⟨by simp,
    fun refs hl b => ⟨fun _ => wp_setModes fun b' es hes hin => ?_, by simp⟩⟩, fun _ _ => Or.inl trivial⟩⟩⟩⟩
  dev_simp
  refine ⟨fun hb => ⟨by simp, fun v hv b2 => ⟨fun h2 _ => ?_, by simp⟩⟩, by simp⟩
  exact Or.inr ⟨refs, [Ev.getEncoders (some q), Ev.invKin xd q s.frame (some qd)],
    [Ev.setRefSpeeds vmo b] ++ es ++ [Ev.positionMove v b2], rfl, hl, trivial, by simp, by simp⟩

theorem relj_stored (cfg : Cfg) (xd : List ℝ) (s : Ctl) : wp (robot cfg) (relj cfg xd)
    (fun o s' tr => o = .ok true → s' = s ∨ ∃ refs pre post, s'.vmoStored = refs ∧
      refs.length = cfg.numJoints ∧ s'.cmcSuccess = true ∧ tr = pre ++ Ev.getRefSpeeds (some refs) :: post ∧
      (∀ v r, Ev.setRefSpeeds v r ∉ pre)) s [] := by
  unfold relj
  dev_simp
  refine ⟨fun _ => movj_stored cfg xd s, fun _ => ⟨by simp, fun q _ => ⟨by simp, fun x => ⟨by simp,
    fun x' hx => ?_⟩⟩⟩⟩
  refine wp_of_run fun tr o s' hr ho => ?_
  rcases wp_sound (movj_stored cfg x' s) hr ho with h | ⟨refs, pre, post, h1, h2, h3, rfl, h4⟩
  · exact Or.inl h
  · exact Or.inr ⟨refs, [Ev.getEncoders (some q), Ev.fwdKin q (some x)] ++ pre, post, h1, h2, h3,
      by simp, by simpa using h4⟩

/-- Writes that leave the stored speeds alone. -/
def NotStored (f : Ctl → Ctl) : Prop := ∀ s, (f s).vmoStored = s.vmoStored

/-- Commands of joint movements. -/
def Op.isJoint : Op → Prop
  | .movj _ => True
  | .relj _ => True
  | _ => False

theorem stored_kept {cfg : Cfg} {s s' : Ctl} {ds : List Done} (h : Hist cfg s ds s')
    (hno : ∀ d ∈ ds, ¬d.op.isJoint) : s'.vmoStored = s.vmoStored := by
  induction h with
  | nil => rfl
  | @cons s op tr b s1 ds s' hx _ ih =>
    rw [ih fun d hd => hno d (List.mem_cons_of_mem _ hd)]
    have hop := hno _ List.mem_cons_self
    refine run_keeps (W := NotStored) (I := fun t => t.vmoStored = s.vmoStored)
      (fun f hf t ht => (hf t).trans ht) hx ?_ rfl
    by_cases hc : op = .cycle
    · subst hc
      refine writes_cycle ?_ cfg
      constructor <;> intro s <;> rfl
    · refine writes_command ?_ ?_ cfg op hc ?_
      · constructor <;> intros <;> intro s <;> rfl
      · constructor <;> intros <;> intro s <;> rfl
      · rintro ⟨x, rfl | rfl⟩ <;> exact absurd trivial hop

/-- Let a joint movement be accepted, any commands other than joint movements and any cycles follow, and
then a cycle find the motion done. The last thing that cycle does is to set the reference speeds to
those in force before the movement was commanded. -/
theorem C39_speeds_restored_when_done_partial {cfg : Cfg} {op : Op} (hop : op.isJoint) {v : List ℝ}
    {s s1 s2 s3 : Ctl} {tr0 tr : List Ev} {ds : List Done}
    (h0 : Exec cfg (op.prog cfg) s tr0 (.ok (some true)) s1) (hne : s1 ≠ s) (htrue : Truthful v tr0)
    (hist : Hist cfg s1 ds s2) (hno : ∀ d ∈ ds, ¬d.op.isJoint) (hst : s2.state = .movj)
    (hcycle : Exec cfg (run cfg) s2 tr (.ok ()) s3) (hend : s3.state = .notControlling)
    (hok : s3.cmcSuccess = true) : ∃ r, tr.getLast? = some (Ev.setRefSpeeds v r) := by
  have hs : ∃ refs pre post, s1.vmoStored = refs ∧
      refs.length = cfg.numJoints ∧ s1.cmcSuccess = true ∧ tr0 = pre ++ Ev.getRefSpeeds (some refs) :: post ∧
      (∀ v r, Ev.setRefSpeeds v r ∉ pre) := by
    cases op <;> simp [Op.isJoint] at hop
    · rcases wp_sound (movj_stored cfg _ s) (run_answer h0) rfl with h | h
      · exact absurd h hne
      · exact h
    · rcases wp_sound (relj_stored cfg _ s) (run_answer h0) rfl with h | h
      · exact absurd h hne
      · exact h
  obtain ⟨refs, pre, post, h1, h2, -, h3, h4⟩ := hs
  have hv : refs = v := by
    rw [htrue pre post refs h3]
    clear h3
    induction pre with
    | nil => rfl
    | cons e pre ih =>
      have ih := ih fun v r hv => h4 v r (List.mem_cons_of_mem _ hv)
      cases e
      case setRefSpeeds w r => exact absurd List.mem_cons_self (h4 w r)
      all_goals exact ih
  have hkept := stored_kept hist hno
  have hc := run_cycle (by rw [hst]; simp) hcycle
  cases hc with
  | skipped => rw [hst] at hend; simp at hend
  | gaveUp => simp [Ctl.stopped] at hok
  | limits => simp [Ctl.stopped] at hok
  | failed => simp [Ctl.stopped] at hok
  | went q v' a tr s' _ _ he =>
    obtain ⟨r, hr⟩ := he.restores hst hend (by simp [hst])
    refine ⟨r, ?_⟩
    rw [List.getLast?_append, hr]
    simp only [Option.some_or]
    rw [hkept, h1, hv, List.take_of_length_le (by rw [← hv, h2])]

theorem hist_cycle {cfg : Cfg} {s s' : Ctl} {tr : List Ev} (h : Exec cfg (run cfg) s tr (.ok ()) s') :
    Hist cfg s [⟨.cycle, tr, none⟩] s' :=
  .cons (Prog.run_bind.mpr (Or.inl ⟨(), _, _, [], h, .pure _ _, (List.append_nil _).symm⟩)) (.nil _)

/-- A joint movement in progress, with these stored speeds. -/
noncomputable def midMovj (refs : List ℝ) : Ctl :=
  { ready with vmoStored := refs, cmcSuccess := true, state := .movj, streaming := vocabNotSet }

theorem hist_movj (s : Ctl) (refs : List ℝ) (hrefs : refs.length = 2) :
    Hist (twoJoints 2 1) s [⟨.movj [1, 0, 0, 0, 0, 0], movjCalls s.frame [4, 1] [2, 1 / 2] refs, some true⟩]
      { s with vmoStored := refs, cmcSuccess := true, state := .movj, streaming := vocabNotSet } :=
  .cons (Prog.run_bind.mpr (Or.inl ⟨true, _, _, [], movj_runs 2 1 s [4, 1] _ refs rfl hrefs twoJoints_speeds,
    .pure _ _, by simp⟩)) (.nil _)

/-- A cycle that finds the motion done. -/
theorem cycle_done (refs : List ℝ) (hrefs : refs.length = 2) :
    Exec (twoJoints 2 1) (run (twoJoints 2 1)) (midMovj refs)
      (goodRead [4, 1] [0, 0] [0, 0] ++ [.getControlModes (some [.position, .position]),
        .checkMotionDone (some true), .setRefSpeeds refs true]) (.ok ())
      { ready with vmoStored := refs } := by
  have : can (robot (twoJoints 2 1)) (run (twoJoints 2 1)) (fun o s' tr => o = .ok () ∧
      s' = { ready with vmoStored := refs } ∧ tr = goodRead [4, 1] [0, 0] [0, 0] ++
        [.getControlModes (some [.position, .position]), .checkMotionDone (some true),
          .setRefSpeeds refs true]) (midMovj refs) [] := by
    refine can_cycle [4, 1] [0, 0] [0, 0] (by simp [midMovj]) rfl rfl rfl ?_ ?_
    · intro j hj
      have : j = 0 ∨ j = 1 := by simp [twoJoints] at hj; omega
      rcases this with rfl | rfl
      · exact ⟨4, -10, 10, rfl, rfl, rfl, by unfold tol; norm_num, by unfold tol; norm_num⟩
      · exact ⟨1, -10, 10, rfl, rfl, rfl, by unfold tol; norm_num, by unfold tol; norm_num⟩
    · show can (robot (twoJoints 2 1)) (handleMovj (twoJoints 2 1)) _ _ _
      unfold handleMovj setCurrentState
      can_simp
      refine can_checkModes [.position, .position] rfl ?_
      can_simp
      refine Or.inl ⟨by simp, some true, ?_⟩
      can_simp
      refine Or.inl ⟨trivial, Or.inr ⟨refs, ?_, true, trivial, trivial, rfl, by simp⟩⟩
      simp only [midMovj, buffer, twoJoints, hrefs, lt_irrefl, if_false]
      rw [← hrefs, List.take_length]
  obtain ⟨tr, o, s', hr, rfl, rfl, h⟩ := can_run this
  simp only [List.nil_append] at h
  exact h ▸ hr

theorem truthful_movj (f : RefFrame) (qd vmo refs : List ℝ) : Truthful refs (movjCalls f qd vmo refs) := by
  intro pre post l h
  rcases pre with _ | ⟨e1, _ | ⟨e2, _ | ⟨e3, _ | ⟨e4, _ | ⟨e5, _ | ⟨e6, _ | ⟨e7, _ | ⟨e8, pre⟩⟩⟩⟩⟩⟩⟩⟩ <;>
    simp [movjCalls] at h
  obtain ⟨rfl, rfl, rfl, -⟩ := h
  rfl

/-- The hypotheses of `C39_speeds_restored_when_done_partial` are met. -/
example : ∃ s1 s2 s3 tr0 tr ds, Exec (twoJoints 2 1) (Op.prog (twoJoints 2 1) (.movj [1, 0, 0, 0, 0, 0]))
      ready tr0 (.ok (some true)) s1 ∧ s1 ≠ ready ∧ Truthful [9, 9] tr0 ∧ Hist (twoJoints 2 1) s1 ds s2 ∧
    (∀ d ∈ ds, ¬d.op.isJoint) ∧ s2.state = .movj ∧ Exec (twoJoints 2 1) (run (twoJoints 2 1)) s2 tr (.ok ()) s3 ∧
    s3.state = .notControlling ∧ s3.cmcSuccess = true := by
  have h := hist_movj ready [9, 9] rfl
  cases h with
  | cons hx hn =>
    cases hn
    refine ⟨_, _, _, _, _, [], hx, ?_, truthful_movj _ _ _ _, .nil _, by simp, rfl,
      cycle_done [9, 9] rfl, rfl, rfl⟩
    intro h
    have := congrArg Ctl.state h
    simp [ready, Ctl.initial] at this

/-- C39 does not hold if the movement is stopped: the speeds of the movement stay. -/
theorem C39_stop_leaves_speeds : ∃ ds s', Hist (twoJoints 2 1) ready ds s' ∧ s'.state = .notControlling ∧
    Truthful [9, 9] (allCalls ds) ∧ speedsAfter [9, 9] (allCalls ds) = [2, 1 / 2] := by
  have h1 := hist_movj ready [9, 9] rfl
  obtain ⟨tr, b, s', h2, rfl, rfl, rfl⟩ := hist_one (cfg := twoJoints 2 1) (op := .stopControl)
    (s := midMovj [9, 9]) (Q := fun b s' tr => b = some true ∧ s' = (midMovj [9, 9]).stopped ∧
      tr = [.getControlModes none, .stop true]) (by
      show can (robot (twoJoints 2 1)) (Prog.bind stopControl _) _ _ _
      refine can_stop' ?_
      can_simp
      exact ⟨some true, by simp⟩)
  refine ⟨_, _, hist_append h1 h2, rfl, ?_, ?_⟩
  · intro pre post l h
    rcases pre with _ | ⟨e1, _ | ⟨e2, _ | ⟨e3, _ | ⟨e4, _ | ⟨e5, _ | ⟨e6, _ | ⟨e7, _ | ⟨e8, _ | ⟨e9,
      _ | ⟨e10, pre⟩⟩⟩⟩⟩⟩⟩⟩⟩⟩ <;> simp [movjCalls, allCalls] at h
    obtain ⟨rfl, rfl, rfl, -⟩ := h
    rfl
  · simp [allCalls, movjCalls, speedsAfter]

/-- Nor if it is given up because a cycle fails. -/
theorem C39_failure_leaves_speeds : ∃ ds s', Hist (twoJoints 2 1) ready ds s' ∧ s'.state = .notControlling ∧
    speedsAfter [9, 9] (allCalls ds) = [2, 1 / 2] := by
  have h1 := hist_movj ready [9, 9] rfl
  obtain ⟨tr, b, s', h2, hs, rfl⟩ := hist_one (cfg := twoJoints 2 1) (op := .cycle)
    (s := midMovj [9, 9]) (Q := fun b s' tr => s'.state = .notControlling ∧
      tr = goodRead [0, 0] [0, 0] [0, 0] ++ [.getControlModes none, .getControlModes none, .stop true]) (by
      show can (robot (twoJoints 2 1)) (Prog.bind (run (twoJoints 2 1)) _) _ _ _
      rw [can_bind]
      refine can_cycle_fails [0, 0] [0, 0] [0, 0] (by simp [midMovj]) rfl rfl rfl ?_ ?_
      · intro j hj
        have : j = 0 ∨ j = 1 := by simp [twoJoints] at hj; omega
        rcases this with rfl | rfl
        · exact ⟨0, -10, 10, rfl, rfl, rfl, by unfold tol; norm_num, by unfold tol; norm_num⟩
        · exact ⟨0, -10, 10, rfl, rfl, rfl, by unfold tol; norm_num, by unfold tol; norm_num⟩
      · show can (robot (twoJoints 2 1)) (handleMovj (twoJoints 2 1)) _ _ _
        unfold handleMovj checkControlModes
        can_simp
        refine ⟨none, by simp, ?_⟩
        can_simp
        exact Or.inr ⟨by simp, trivial, none, rfl, rfl, by simp⟩)
  refine ⟨_, _, hist_append h1 h2, hs, ?_⟩
  simp [allCalls, movjCalls, speedsAfter, goodRead]

/-- Nor if a second joint movement is commanded before the first one is done: what is restored at the end
are the speeds of the first movement. -/
theorem C39_second_movement_leaves_speeds : ∃ ds s', Hist (twoJoints 2 1) ready ds s' ∧
    s'.state = .notControlling ∧ s'.cmcSuccess = true ∧ Truthful [9, 9] (allCalls ds) ∧
    speedsAfter [9, 9] (allCalls ds) = [2, 1 / 2] := by
  have h1 := hist_movj ready [9, 9] rfl
  have h2 := hist_movj (midMovj [9, 9]) [2, 1 / 2] rfl
  have h3 := hist_cycle (cycle_done [2, 1 / 2] rfl)
  refine ⟨_, _, hist_append (hist_append h1 h2) h3, rfl, rfl, ?_, ?_⟩
  · intro pre post l h
    simp only [allCalls, movjCalls, goodRead, List.flatMap_cons, List.flatMap_nil, List.cons_append,
      List.nil_append, List.append_nil] at h
    rcases pre with _ | ⟨e1, _ | ⟨e2, _ | ⟨e3, _ | ⟨e4, _ | ⟨e5, _ | ⟨e6, _ | ⟨e7, _ | ⟨e8, _ | ⟨e9,
      _ | ⟨e10, _ | ⟨e11, _ | ⟨e12, _ | ⟨e13, _ | ⟨e14, _ | ⟨e15, _ | ⟨e16, _ | ⟨e17, _ | ⟨e18,
      _ | ⟨e19, _ | ⟨e20, _ | ⟨e21, _ | ⟨e22, pre⟩⟩⟩⟩⟩⟩⟩⟩⟩⟩⟩⟩⟩⟩⟩⟩⟩⟩⟩⟩⟩⟩ <;> simp at h
    · obtain ⟨rfl, rfl, rfl, -⟩ := h
      rfl
    · obtain ⟨rfl, rfl, rfl, rfl, rfl, rfl, rfl, rfl, rfl, rfl, rfl, -⟩ := h
      rfl
  · simp [allCalls, movjCalls, speedsAfter, goodRead]

end KD.Ctrl
