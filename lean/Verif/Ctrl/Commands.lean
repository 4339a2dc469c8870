import Verif.Ctrl.Witness

/-!
# How the movement commands end
-/

namespace KD.Ctrl

open Prog (wp wp_bind wp_of_run wp_sound wp_mono Run)

/-- The state a movement command is for. -/
def Op.target : Op → Option CState
  | .movj _ => some .movj
  | .relj _ => some .movj
  | .movl _ => some .movl
  | .movv _ => some .movv
  | .gcmp => some .gcmp
  | .forc _ => some .forc
  | _ => none

/-- Calls that change control modes. -/
def SetsModes : Ev → Prop
  | .setControlModes _ _ _ => True
  | _ => False

/-- The last thing heard from the robot about control modes is that all are in `mode`, and none has
been changed since. -/
def InMode (mode : Mode) (tr : List Ev) : Prop :=
  ∃ (pre post : List Ev) (modes : List Mode), tr = pre ++ Ev.getControlModes (some modes) :: post ∧
    (∀ m ∈ modes, m = mode) ∧ ∀ e ∈ post, ¬SetsModes e

/-- All joints that have a positive reference speed are at the target already. -/
def AtTarget (cfg : Cfg) (q qd : List ℝ) : Prop :=
  ∀ j < cfg.numJoints, ∃ ref, cfg.qRefSpeeds[j]? = some ref ∧ (0 < ref → ∃ a, qd[j]? = some a ∧ q[j]? = some a)

/-- How a movement command ends. -/
structure CommandEnd (cfg : Cfg) (st : CState) (s : Ctl) (b : Bool) (tr : List Ev) (s' : Ctl) : Prop where
  refused : b = false → s'.state = s.state ∧ s'.streaming = s.streaming ∧ s'.cmcSuccess = s.cmcSuccess ∧
    ∀ e ∈ tr, IsMotion e → ∃ q, e = Ev.positionMove q false
  accepted : b = true →
    (s'.state = st ∧ ∃ mode, neededMode cfg st = some mode ∧ InMode mode tr) ∨
    (st = .movj ∧ s' = s ∧ NoMotion tr ∧ ∃ x q f qd, Ev.getEncoders (some q) ∈ tr ∧
      Ev.invKin x q f (some qd) ∈ tr ∧ AtTarget cfg q qd)
  success : b = true → s'.cmcSuccess = true ∨ s'.cmcSuccess = s.cmcSuccess

/-- Every joint that was heard of is one of the robot: answers about modes have one for each joint. -/
theorem exec_modes_length {cfg : Cfg} {α : Type} {p : P α} {s s' : Ctl} {tr : List Ev} {o : Out α}
    (h : Exec cfg p s tr o s') {modes : List Mode} (hm : Ev.getControlModes (some modes) ∈ tr) :
    modes.length = cfg.numJoints := by
  induction h with
  | pure => simp at hm
  | ub => simp at hm
  | get _ ih => exact ih hm
  | set _ ih => exact ih hm
  | @call c k s tr o s' r hw _ ih =>
    rcases List.mem_cons.mp hm with hm | hm
    · cases c <;> simp [robot, record] at hm
      exact hw modes (Ev.getControlModes.inj hm).symm
    · exact ih hm

theorem isoDeltas_mono {cfg : Cfg} {q qd : List ℝ} {j k : ℕ} {m m' : ℝ} {ds : List ℝ}
    (h : isoDeltas cfg q qd j k m = some (ds, m')) : m ≤ m' := by
  induction k generalizing j m ds m' with
  | zero => simp [isoDeltas] at h; exact h.2.le
  | succ k ih =>
    rw [isoDeltas] at h
    simp only [Option.bind_eq_bind, Option.bind_eq_some_iff] at h
    obtain ⟨ref, -, h⟩ := h
    split at h
    · simp only [Option.bind_eq_some_iff] at h
      obtain ⟨⟨ds', m''⟩, h, e⟩ := h
      simp only [Option.some.injEq, Prod.mk.injEq] at e
      exact e.2 ▸ ih h
    · simp only [Option.bind_eq_some_iff] at h
      obtain ⟨a, -, b, -, ⟨ds', m''⟩, h, e⟩ := h
      simp only [Option.some.injEq, Prod.mk.injEq] at e
      have := ih h
      rw [← e.2]
      refine le_trans ?_ this
      split <;> linarith

/-- No longest time: no distance. -/
theorem isoDeltas_zero {cfg : Cfg} {q qd : List ℝ} {j k : ℕ} {m m' : ℝ} {ds : List ℝ}
    (h : isoDeltas cfg q qd j k m = some (ds, m')) (hm : m' ≤ 0) : ∀ i < k, ∃ ref,
      cfg.qRefSpeeds[j + i]? = some ref ∧ (0 < ref → ∃ a, qd[j + i]? = some a ∧ q[j + i]? = some a) := by
  induction k generalizing j m ds with
  | zero => simp
  | succ k ih =>
    rw [isoDeltas] at h
    simp only [Option.bind_eq_bind, Option.bind_eq_some_iff] at h
    obtain ⟨ref, href, h⟩ := h
    split at h
    · rename_i h0
      simp only [Option.bind_eq_some_iff] at h
      obtain ⟨⟨ds', m''⟩, h, e⟩ := h
      simp only [Option.some.injEq, Prod.mk.injEq] at e
      obtain ⟨-, rfl⟩ := e
      rintro (_ | i) hi
      · exact ⟨ref, href, fun h => absurd h (not_lt.mpr h0)⟩
      · have := ih h i (by omega)
        rwa [show j + 1 + i = j + (i + 1) by omega] at this
    · rename_i h0
      simp only [Option.bind_eq_some_iff] at h
      obtain ⟨a, ha, b, hb, ⟨ds', m''⟩, h, e⟩ := h
      simp only [Option.some.injEq, Prod.mk.injEq] at e
      obtain ⟨-, rfl⟩ := e
      have hle := isoDeltas_mono h
      have h0' : 0 < ref := not_le.mp h0
      rintro (_ | i) hi
      · refine ⟨ref, href, fun _ => ⟨a, ha, ?_⟩⟩
        have h1 : |a - b| / ref ≤ 0 := by split at hle <;> linarith
        have h2 : |a - b| ≤ 0 := by
          rcases div_nonpos_iff.mp h1 with h | h
          · linarith [h.2]
          · exact h.1
        have h3 := abs_eq_zero.mp (le_antisymm h2 (abs_nonneg _))
        rw [show a = b by linarith]
        exact hb
      · have := ih h i (by omega)
        rwa [show j + 1 + i = j + (i + 1) by omega] at this

/-- No motion: all joints are at the target. -/
theorem iso_no_motion {cfg : Cfg} {q qd vmo : List ℝ}
    (h : computeIsocronousSpeeds cfg q qd = some (vmo, false)) : AtTarget cfg q qd := by
  unfold computeIsocronousSpeeds at h
  simp only [Option.bind_eq_bind, Option.bind_eq_some_iff] at h
  obtain ⟨⟨ds, m⟩, h, e⟩ := h
  dsimp only at e
  split at e
  · rename_i h0
    intro j hj
    simpa using isoDeltas_zero h h0.le j hj
  · simp at e

theorem EndsInMode.inMode {mode : Mode} {pre es post : List Ev} (h : EndsInMode mode es)
    (hp : ∀ e ∈ post, ¬SetsModes e) : InMode mode (pre ++ es ++ post) := by
  obtain ⟨p, modes, hm, rfl⟩ := h
  exact ⟨pre ++ p, post, modes, by simp, hm, hp⟩

theorem EndsInMode.inMode' {mode : Mode} {pre es : List Ev} (h : EndsInMode mode es) :
    InMode mode (pre ++ es) := by
  have := h.inMode (pre := pre) (post := []) (by simp)
  simpa using this

theorem InMode.append {mode : Mode} {pre tr : List Ev} (h : InMode mode tr) : InMode mode (pre ++ tr) := by
  obtain ⟨p, q, m, rfl, h1, h2⟩ := h
  exact ⟨pre ++ p, q, m, by simp, h1, h2⟩

theorem modeCalls_noMotion {es : List Ev} (h : ∀ e ∈ es, ModeCall e) : NoMotion es :=
  (mode_calls_only h).2.2.2.2.2.2.2.2.2

/-- A refused command that sent nothing. -/
theorem refused_end {cfg : Cfg} {st : CState} {s s' : Ctl} {tr : List Ev} (h : NoMotion tr)
    (h1 : s'.state = s.state) (h2 : s'.streaming = s.streaming) (h3 : s'.cmcSuccess = s.cmcSuccess) :
    CommandEnd cfg st s false tr s' :=
  ⟨fun _ => ⟨h1, h2, h3, fun e he hm => absurd hm (h e he)⟩, by simp, by simp⟩

theorem movj_end (cfg : Cfg) (xd : List ℝ) (s : Ctl) : wp (robot cfg) (movj cfg xd)
    (fun o s' tr => ∀ b, o = .ok b → CommandEnd cfg .movj s b tr s') s [] := by
  unfold movj setCurrentState
  dev_simp
  refine ⟨?_, fun q _ => ⟨?_, fun qd => ⟨by simp, fun ⟨vmo, mv⟩ hmv => ⟨fun hk => ⟨?_, fun refs _ b =>
    ⟨fun _ => wp_setModes fun b' es hes hin => ?_, fun _ => ?_⟩⟩, fun hk => ?_⟩⟩⟩⟩
  · rintro b ⟨⟩; exact refused_end (by simp [NoMotion, IsMotion]) rfl rfl rfl
  · rintro b ⟨⟩; exact refused_end (by simp [NoMotion, IsMotion]) rfl rfl rfl
  · rintro b ⟨⟩; exact refused_end (by simp [NoMotion, IsMotion]) rfl rfl rfl
  · have hno := modeCalls_noMotion hes
    dev_simp
    refine ⟨fun hb => ⟨by simp, fun v hv b2 => ⟨fun h2 => ?_, fun h2 => ?_⟩⟩, fun hb => ?_⟩
    · rintro b ⟨⟩
      refine ⟨by simp, fun _ => Or.inl ⟨rfl, .position, rfl, ?_⟩, fun _ => Or.inl rfl⟩
      exact (hin hb).inMode (by simp [SetsModes])
    · have : b2 = false := by simpa using h2
      subst this
      rintro b ⟨⟩
      refine ⟨fun _ => ⟨rfl, rfl, rfl, fun e he hm => ?_⟩, by simp, by simp⟩
      simp only [List.mem_append, List.mem_singleton, List.not_mem_nil, false_or] at he
      rcases he with (((((rfl | rfl) | rfl) | rfl) | he) | rfl)
      · simp [IsMotion] at hm
      · simp [IsMotion] at hm
      · simp [IsMotion] at hm
      · simp [IsMotion] at hm
      · exact absurd hm (hno e he)
      · exact ⟨v, rfl⟩
    · rintro b ⟨⟩
      refine refused_end (NoMotion.append (by simp [NoMotion, IsMotion]) hno) rfl rfl rfl
  · rintro b ⟨⟩; exact refused_end (by simp [NoMotion, IsMotion]) rfl rfl rfl
  · rintro b ⟨⟩
    have hk' : mv = false := by simpa using hk
    subst hk'
    exact ⟨by simp, fun _ => Or.inr ⟨rfl, rfl, by simp [NoMotion, IsMotion], xd, q, s.frame, qd,
      by simp, by simp, iso_no_motion hmv⟩, fun _ => Or.inr rfl⟩

/-- Calls before the command that send nothing. -/
theorem CommandEnd.after {cfg : Cfg} {st : CState} {s s' : Ctl} {b : Bool} {pre tr : List Ev}
    (h : CommandEnd cfg st s b tr s') (hp : NoMotion pre) : CommandEnd cfg st s b (pre ++ tr) s' := by
  refine ⟨fun hb => ?_, fun hb => ?_, h.success⟩
  · obtain ⟨h1, h2, h3, h4⟩ := h.refused hb
    refine ⟨h1, h2, h3, fun e he hm => ?_⟩
    rcases List.mem_append.mp he with he | he
    · exact absurd hm (hp e he)
    · exact h4 e he hm
  · rcases h.accepted hb with ⟨h1, mode, h2, h3⟩ | ⟨h1, h2, h3, x, q, f, qd, h4, h5, h6⟩
    · exact Or.inl ⟨h1, mode, h2, h3.append⟩
    · exact Or.inr ⟨h1, h2, hp.append h3, x, q, f, qd, List.mem_append_right _ h4,
        List.mem_append_right _ h5, h6⟩

theorem movj_after (cfg : Cfg) (xd : List ℝ) (s : Ctl) (pre : List Ev) (hp : NoMotion pre) :
    wp (robot cfg) (movj cfg xd)
      (fun o s' tr => ∀ b, o = .ok b → CommandEnd cfg .movj s b tr s') s pre :=
  wp_of_run fun _ _ _ hr b hb => (wp_sound (movj_end cfg xd s) hr b hb).after hp

theorem relj_end (cfg : Cfg) (xd : List ℝ) (s : Ctl) : wp (robot cfg) (relj cfg xd)
    (fun o s' tr => ∀ b, o = .ok b → CommandEnd cfg .movj s b tr s') s [] := by
  unfold relj
  dev_simp
  refine ⟨fun _ => movj_end cfg xd s, fun _ => ⟨?_, fun q _ => ⟨?_, fun x => ⟨by simp, fun x' hx => ?_⟩⟩⟩⟩
  · rintro b ⟨⟩; exact refused_end (by simp [NoMotion, IsMotion]) rfl rfl rfl
  · rintro b ⟨⟩; exact refused_end (by simp [NoMotion, IsMotion]) rfl rfl rfl
  · exact movj_after cfg x' s _ (by simp [NoMotion, IsMotion])

/-- The look-ahead of `movl` only asks the solver and changes nothing. -/
theorem run_failFast {cfg : Cfg} {q : List ℝ} {s s' : Ctl} {tr : List Ev} {o : Out Bool}
    (h : Exec cfg (doFailFastChecks cfg q) s tr o s') : s' = s ∧ NoMotion tr ∧ ∀ e ∈ tr, ¬SetsModes e := by
  have hw : Prog.Writes (fun _ : Ctl → Ctl => False) (doFailFastChecks cfg q) := by
    unfold doFailFastChecks
    have h5 := fun ts l q v => writes_failFastLoop (W := fun _ : Ctl → Ctl => False)
      (cfg := cfg) (ts := ts) (l := l) (q := q) (v := v)
    writes
  have hl : ∀ ts l q v, Prog.Calls (fun c => ∃ x q f, c = Call.invKin x q f) (failFastLoop cfg ts l q v) := by
    intro ts l
    induction l with
    | nil => intro q v; exact True.intro
    | cons t l ih =>
      intro q v
      unfold failFastLoop
      have : ∀ x q f, ∃ x' q' f', Call.invKin x q f = Call.invKin x' q' f' := fun x q f => ⟨x, q, f, rfl⟩
      calls
  have hc : Prog.Calls (fun c => ∃ x q f, c = Call.invKin x q f) (doFailFastChecks cfg q) := by
    unfold doFailFastChecks
    calls
  refine ⟨Prog.run_keeps (I := fun t => t = s) (fun f hf => hf.elim) h hw rfl, ?_, ?_⟩
  · intro e he
    obtain ⟨c, r, ⟨x, q, f, rfl⟩, -, rfl⟩ := Prog.run_calls h hc e he
    simp [robot, record, IsMotion]
  · intro e he
    obtain ⟨c, r, ⟨x, q, f, rfl⟩, -, rfl⟩ := Prog.run_calls h hc e he
    simp [robot, record, SetsModes]

theorem movlStart_end (cfg : Cfg) (q : List ℝ) (s : Ctl) : wp (robot cfg) (movlStart cfg q)
    (fun o s' tr => ∀ b, o = .ok b → CommandEnd cfg .movl s b tr s') s [] := by
  have key : ∀ (ok : Bool) (tr : List Ev), NoMotion tr → wp (robot cfg) (do
      if ok then
        if ← setControlModes (movlMode cfg) then
          let (t : ℝ) ← Dev.now
          Prog.modify fun s => { s with movementStartTime := t }
          Prog.modify fun s => { s with cmcSuccess := true }
          setCurrentState .movl
          return true
        else return false
      else return false)
      (fun o s' tr => ∀ b, o = .ok b → CommandEnd cfg .movl s b tr s') s tr := by
    intro ok tr hno
    unfold setCurrentState
    dev_simp
    refine ⟨fun _ => wp_setModes fun b es hes hin => ?_, fun _ => ?_⟩
    · dev_simp
      refine ⟨fun hb t => ?_, fun hb => ?_⟩
      · rintro b ⟨⟩
        exact ⟨by simp, fun _ => Or.inl ⟨rfl, movlMode cfg, rfl, (hin hb).inMode (by simp [SetsModes])⟩,
          fun _ => Or.inl rfl⟩
      · rintro b ⟨⟩
        exact refused_end (hno.append (modeCalls_noMotion hes)) rfl rfl rfl
    · rintro b ⟨⟩
      exact refused_end hno rfl rfl rfl
  unfold movlStart
  dsimp only
  split
  · rw [Prog.bind_eq, wp_bind]
    refine wp_of_run fun tr o s' hr => ?_
    obtain ⟨rfl, hno, -⟩ := run_failFast hr
    rcases o with ok | _
    · exact key ok _ (by simpa using hno)
    · intro b hb; simp at hb
  · exact key true [] (by simp [NoMotion])

theorem movl_end (cfg : Cfg) (xd : List ℝ) (s : Ctl) : wp (robot cfg) (movl cfg xd)
    (fun o s' tr => ∀ b, o = .ok b → CommandEnd cfg .movl s b tr s') s [] := by
  have key : ∀ (q : List ℝ) (ts : List Traj) (tr : List Ev), NoMotion tr →
      wp (robot cfg) (movlStart cfg q)
      (fun o s' tr => ∀ b, o = .ok b → CommandEnd cfg .movl s b tr s') { s with trajectories := ts } tr := by
    intro q ts tr hno
    refine wp_of_run fun tr' o s' hr b hb => ?_
    have := (wp_sound (movlStart_end cfg q _) hr b hb).after hno
    exact ⟨this.refused, fun hb => by
      rcases this.accepted hb with h | ⟨h, -⟩
      · exact Or.inl h
      · simp at h, this.success⟩
  unfold movl
  dev_simp
  refine ⟨?_, fun q _ => ⟨?_, fun x => ⟨fun _ => ⟨?_, fun l => ?_⟩, fun _ => ?_⟩⟩⟩
  · rintro b ⟨⟩; exact refused_end (by simp [NoMotion, IsMotion]) rfl rfl rfl
  · rintro b ⟨⟩; exact refused_end (by simp [NoMotion, IsMotion]) rfl rfl rfl
  · rintro b ⟨⟩; exact refused_end (by simp [NoMotion, IsMotion]) rfl rfl rfl
  · exact ⟨by simp, fun ts _ => key q ts _ (by simp [NoMotion, IsMotion])⟩
  · exact ⟨by simp, fun ts _ => key q ts _ (by simp [NoMotion, IsMotion])⟩

theorem movv_end (cfg : Cfg) (xd : List ℝ) (s : Ctl) : wp (robot cfg) (movv cfg xd)
    (fun o s' tr => ∀ b, o = .ok b → CommandEnd cfg .movv s b tr s') s [] := by
  unfold movv setCurrentState
  dev_simp
  refine ⟨?_, fun q _ => ⟨?_, fun x => ⟨by simp, fun ts _ => wp_setModes fun b es hes hin => ?_⟩⟩⟩
  · rintro b ⟨⟩; exact refused_end (by simp [NoMotion, IsMotion]) rfl rfl rfl
  · rintro b ⟨⟩; exact refused_end (by simp [NoMotion, IsMotion]) rfl rfl rfl
  · dev_simp
    refine ⟨fun hb t => ?_, fun hb => ?_⟩
    · rintro b ⟨⟩
      exact ⟨by simp, fun _ => Or.inl ⟨rfl, _, rfl, (hin hb).inMode (by simp [SetsModes])⟩,
        fun _ => Or.inl rfl⟩
    · rintro b ⟨⟩
      exact refused_end (NoMotion.append (by simp [NoMotion, IsMotion]) (modeCalls_noMotion hes)) rfl rfl rfl

theorem gcmp_end (cfg : Cfg) (s : Ctl) : wp (robot cfg) gcmp
    (fun o s' tr => ∀ b, o = .ok b → CommandEnd cfg .gcmp s b tr s') s [] := by
  unfold gcmp setCurrentState
  dev_simp
  refine wp_setModes fun b es hes hin => ?_
  dev_simp
  refine ⟨fun hb => ?_, fun hb => ?_⟩
  · rintro b ⟨⟩
    exact ⟨by simp, fun _ => Or.inl ⟨rfl, _, rfl, (hin hb).inMode'⟩, fun _ => Or.inr rfl⟩
  · rintro b ⟨⟩
    exact refused_end (by simpa using modeCalls_noMotion hes) rfl rfl rfl

theorem forc_end (cfg : Cfg) (fd : List ℝ) (s : Ctl) : wp (robot cfg) (forc fd)
    (fun o s' tr => ∀ b, o = .ok b → CommandEnd cfg .forc s b tr s') s [] := by
  unfold forc setCurrentState
  dev_simp
  refine ⟨fun _ => ?_, fun _ => wp_setModes fun b es hes hin => ?_⟩
  · rintro b ⟨⟩; exact refused_end (by simp [NoMotion]) rfl rfl rfl
  · dev_simp
    refine ⟨fun hb => ?_, fun hb => ?_⟩
    · rintro b ⟨⟩
      exact ⟨by simp, fun _ => Or.inl ⟨rfl, _, rfl, (hin hb).inMode'⟩, fun _ => Or.inr rfl⟩
    · rintro b ⟨⟩
      exact refused_end (by simpa using modeCalls_noMotion hes) rfl rfl rfl

/-- A command with its answer, in a history. -/
theorem run_answer {cfg : Cfg} {p : P Bool} {s s' : Ctl} {tr : List Ev} {b : Bool}
    (h : Exec cfg (p.bind fun b => .pure (some b)) s tr (.ok (some b)) s') :
    Exec cfg p s tr (.ok b) s' := by
  rcases Prog.run_bind.mp h with ⟨a, s1, t1, t2, h1, h2, rfl⟩ | ⟨-, h⟩
  · cases h2
    simpa using h1
  · simp at h

theorem run_command {cfg : Cfg} {op : Op} {st : CState} (hop : op.target = some st) {s s' : Ctl}
    {tr : List Ev} {b : Bool} (h : Exec cfg (op.prog cfg) s tr (.ok (some b)) s') :
    CommandEnd cfg st s b tr s' := by
  cases op <;> simp [Op.target] at hop <;> subst hop
  case movj => exact wp_sound (movj_end cfg _ s) (run_answer h) b rfl
  case relj => exact wp_sound (relj_end cfg _ s) (run_answer h) b rfl
  case movl => exact wp_sound (movl_end cfg _ s) (run_answer h) b rfl
  case movv => exact wp_sound (movv_end cfg _ s) (run_answer h) b rfl
  case gcmp => exact wp_sound (gcmp_end cfg s) (run_answer h) b rfl
  case forc => exact wp_sound (forc_end cfg _ s) (run_answer h) b rfl

end KD.Ctrl
