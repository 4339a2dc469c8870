import Verif.Ctrl.Velocity

/-!
# Where the joint positions that are sent to the robot come from
-/

namespace KD.Ctrl

open Prog (Calls calls_bind wp wp_bind wp_of_run wp_sound)

/-- The command sends the joints to the positions `t`. -/
def SendsJoints (t : List ℝ) : Ev → Prop
  | .positionMove u _ => u = t
  | .setPositions u _ => u = t
  | _ => False

/-- Any call but one that sends the joints to positions. -/
def NoPos : Call → Prop
  | .positionMove _ => False
  | .setPositions _ => False
  | _ => True

/-- The positions are what inverse kinematics gave for joints read from the robot. -/
def FromSolver (cfg : Cfg) (t : List ℝ) (tr : List Ev) : Prop :=
  ∃ x q f sol, Ev.getEncoders (some q) ∈ tr ∧ Ev.invKin x q f (some sol) ∈ tr ∧ t = sol.take cfg.numJoints

theorem noPos_sends {c : Call} {r : c.Resp} (h : NoPos c) (t : List ℝ) : ¬SendsJoints t (record c r) := by
  cases c <;> first | exact h.elim | exact fun h => h

theorem still_checkControlModes {mode : Mode} : Calls NoPos (checkControlModes mode) := by
  unfold checkControlModes; quiet

theorem still_retryModes {mode : Mode} {n : ℕ} : Calls NoPos (retryModes mode n) := by
  induction n with
  | zero => exact True.intro
  | succ n ih =>
    unfold retryModes
    have := still_checkControlModes (mode := mode)
    quiet

theorem still_setControlModes {mode : Mode} : Calls NoPos (setControlModes mode) := by
  unfold setControlModes
  have := still_retryModes (mode := mode) (n := 11)
  quiet

theorem still_stopControl : Calls NoPos stopControl := by
  unfold stopControl setCurrentState
  have := still_setControlModes (mode := .position)
  quiet

theorem still_failFastLoop {cfg : Cfg} {ts : List Traj} {l q v : List ℝ} :
    Calls NoPos (failFastLoop cfg ts l q v) := by
  induction l generalizing q v with
  | nil => exact True.intro
  | cons t l ih =>
    unfold failFastLoop
    have := fun q v => @ih q v
    quiet

theorem still_movlStart {cfg : Cfg} {q : List ℝ} : Calls NoPos (movlStart cfg q) := by
  unfold movlStart setCurrentState
  have h2 := still_setControlModes (mode := movlMode cfg)
  have h3 : Calls NoPos (doFailFastChecks cfg q) := by
    unfold doFailFastChecks
    have h5 := fun ts l q v => still_failFastLoop (cfg := cfg) (ts := ts) (l := l) (q := q) (v := v)
    quiet
  dsimp only
  split <;> quiet

theorem still_movl {cfg : Cfg} {xd : List ℝ} : Calls NoPos (movl cfg xd) := by
  unfold movl
  have := fun q => still_movlStart (cfg := cfg) (q := q)
  quiet

theorem still_movv {cfg : Cfg} {xd : List ℝ} : Calls NoPos (movv cfg xd) := by
  unfold movv setCurrentState
  have := still_setControlModes (mode := .velocity)
  quiet

theorem still_gcmp : Calls NoPos gcmp := by
  unfold gcmp setCurrentState
  have := still_setControlModes (mode := .torque)
  quiet

theorem still_forc {fd : List ℝ} : Calls NoPos (forc fd) := by
  unfold forc setCurrentState
  have := still_setControlModes (mode := .torque)
  quiet

theorem still_waitLoop {t t0 : ℝ} {n : ℕ} {st : CState} : Calls NoPos (waitLoop t t0 n st) := by
  induction n generalizing st with
  | zero => exact True.intro
  | succ n ih =>
    unfold waitLoop getCurrentState
    have h1 := still_stopControl
    have := fun st => @ih st
    quiet

theorem still_wait {t : ℝ} {n : ℕ} : Calls NoPos (wait t n) := by
  unfold wait getCurrentState
  have := fun t0 st => still_waitLoop (t := t) (t0 := t0) (n := n) (st := st)
  quiet

theorem still_streaming {cmds : List ℤ} {mode : Mode} : Calls NoPos (streamingReady cmds mode) := by
  unfold streamingReady getCurrentState
  have := still_checkControlModes (mode := mode)
  quiet

theorem still_twist {cfg : Cfg} {x : List ℝ} : Calls NoPos (twist cfg x) := by
  unfold twist twistBody
  have := still_streaming (cmds := [vocabTwist]) (mode := .velocity)
  quiet

theorem still_wrench {cfg : Cfg} {x : List ℝ} : Calls NoPos (wrench cfg x) := by
  unfold wrench wrenchBody
  have := still_streaming (cmds := [vocabWrench]) (mode := .torque)
  quiet

theorem still_setParameter {k : Key} {v : ℝ} : Calls NoPos (setParameter k v) := by
  unfold setParameter getCurrentState presetStreamingCommand setCurrentState
  have := fun m => still_setControlModes (mode := m)
  cases k <;> quiet

theorem still_setAll {ps : List (Key × ℝ)} {ok : Bool} : Calls NoPos (setAll ps ok) := by
  induction ps generalizing ok with
  | nil => exact True.intro
  | cons p ps ih =>
    obtain ⟨k, v⟩ := p
    unfold setAll
    have h1 := still_setParameter (k := k) (v := v)
    have := fun ok => @ih ok
    quiet

/-- Commands that send positions themselves. -/
def SendsPositions : Op → Prop
  | .movj _ => True
  | .relj _ => True
  | .pose _ => True
  | .cycle => True
  | _ => False

/-- The other commands do not. -/
theorem still_op (cfg : Cfg) (op : Op) (h : ¬SendsPositions op) : Calls NoPos (op.prog cfg) := by
  cases op
  case stat => exact calls_bind (by unfold stat getCurrentState; quiet) fun _ => True.intro
  case inv => exact calls_bind (by unfold inv; quiet) fun _ => True.intro
  case movj => exact absurd trivial h
  case relj => exact absurd trivial h
  case movl => exact calls_bind still_movl fun _ => True.intro
  case movv => exact calls_bind still_movv fun _ => True.intro
  case gcmp => exact calls_bind still_gcmp fun _ => True.intro
  case forc => exact calls_bind still_forc fun _ => True.intro
  case stopControl => exact calls_bind still_stopControl fun _ => True.intro
  case wait => exact still_wait
  case tool => exact calls_bind (by unfold tool; quiet) fun _ => True.intro
  case pose => exact absurd trivial h
  case twist x => exact calls_bind still_twist fun _ => True.intro
  case wrench => exact calls_bind still_wrench fun _ => True.intro
  case setParameter => exact calls_bind still_setParameter fun _ => True.intro
  case setParameters =>
    refine calls_bind ?_ fun _ => True.intro
    unfold setParameters getCurrentState
    have := fun ps ok => still_setAll (ps := ps) (ok := ok)
    quiet
  case getParameter => exact calls_bind (by unfold getParameter; quiet) fun _ => True.intro
  case cycle => exact absurd trivial h

theorem still_send {cfg : Cfg} {q x dx dv : List ℝ} {f : RefFrame} : Calls NoPos (sendVelocity cfg q x dx dv f) := by
  unfold sendVelocity
  quiet

theorem still_dispatch {cfg : Cfg} {st : CState} {q v a : List ℝ} (h : ¬(st = .movl ∧ cfg.usePosdMovl = true)) :
    Calls NoPos (dispatch cfg st q v a) := by
  have h1 := fun m => still_checkControlModes (mode := m)
  have h2 := still_stopControl
  have h3 := fun q x dx dv f => still_send (cfg := cfg) (q := q) (x := x) (dx := dx) (dv := dv) (f := f)
  unfold dispatch
  cases st with
  | movj => simp only []; unfold handleMovj setCurrentState; quiet
  | movl =>
    have : cfg.usePosdMovl = false := by
      cases hp : cfg.usePosdMovl with
      | true => exact absurd ⟨rfl, hp⟩ h
      | false => rfl
    simp only [this, Bool.false_eq_true, if_false]
    unfold handleMovlVel
    quiet
  | movv => simp only []; unfold handleMovv; quiet
  | gcmp => simp only []; unfold handleGcmp; quiet
  | forc => simp only []; unfold handleForc; quiet
  | notControlling => exact True.intro

section

variable {cfg : Cfg} {s s' : Ctl} {tr : List Ev}

theorem movj_positions {xd : List ℝ} {o} (hx : Exec cfg (movj cfg xd) s tr o s') {e : Ev} (he : e ∈ tr) {t : List ℝ}
    (ht : SendsJoints t e) : FromSolver cfg t tr := by
  refine wp_sound (Q := fun _ _ tr => ∀ e ∈ tr, ∀ t, SendsJoints t e → FromSolver cfg t tr) ?_ hx e he t ht
  clear hx he ht
  unfold movj setCurrentState
  dev_simp
  refine ⟨by simp [SendsJoints], fun q _ => ⟨by simp [SendsJoints], fun qd => ⟨by simp [SendsJoints], fun ⟨vmo, mv⟩ hmv =>
    ⟨fun hk => ⟨by simp [SendsJoints],
    fun refs _ b => ⟨fun _ => wp_setModes fun b' es hes hin => ?_, by simp [SendsJoints]⟩⟩, by simp [SendsJoints]⟩⟩⟩⟩
  have h10 : ∀ e ∈ es, ∀ t, ¬SendsJoints t e := by
    intro e he t
    have := hes e he
    cases e <;> first | exact this.elim | exact fun h => h
  dev_simp
  refine ⟨fun hb => ⟨fun _ => ?_, fun t ht b2 => ⟨fun h2 => ?_, fun h2 => ?_⟩⟩, fun _ => ?_⟩
  all_goals
    intro e he t' h'
    simp only [List.nil_append, List.mem_append, List.mem_cons, List.not_mem_nil, or_false] at he
  case refine_1 =>
    rcases he with (((rfl | rfl) | rfl) | rfl) | he
    iterate 4 exact h'.elim
    exact absurd h' (h10 e he t')
  case refine_4 =>
    rcases he with (((rfl | rfl) | rfl) | rfl) | he
    iterate 4 exact h'.elim
    exact absurd h' (h10 e he t')
  all_goals
    rcases he with ((((rfl | rfl) | rfl) | rfl) | he) | rfl
    iterate 4 exact h'.elim
    · exact absurd h' (h10 e he t')
    · exact ⟨xd, q, s.frame, qd, by simp, by simp, h'.symm.trans (buffer_some ht)⟩

theorem relj_positions {xd : List ℝ} {o} (hx : Exec cfg (relj cfg xd) s tr o s') {e : Ev} (he : e ∈ tr) {t : List ℝ}
    (ht : SendsJoints t e) : FromSolver cfg t tr := by
  refine wp_sound (Q := fun _ _ tr => ∀ e ∈ tr, ∀ t, SendsJoints t e → FromSolver cfg t tr) ?_ hx e he t ht
  clear hx he ht
  have key : ∀ x tr0, (∀ e ∈ tr0, ∀ t, ¬SendsJoints t e) →
      wp (robot cfg) (movj cfg x) (fun _ _ tr => ∀ e ∈ tr, ∀ t, SendsJoints t e → FromSolver cfg t tr) s tr0 := by
    intro x tr0 h0
    refine wp_of_run fun tr o s' hr e he t ht => ?_
    rcases List.mem_append.mp he with he | he
    · exact absurd ht (h0 e he t)
    · obtain ⟨x, q, f, sol, h1, h2, h3⟩ := movj_positions hr he ht
      exact ⟨x, q, f, sol, List.mem_append_right _ h1, List.mem_append_right _ h2, h3⟩
  unfold relj
  dev_simp
  refine ⟨fun _ => key _ _ (by simp), fun _ => ⟨by simp [SendsJoints], fun q _ => ⟨by simp [SendsJoints], fun x =>
    ⟨by simp [SendsJoints], fun y _ => key _ _ (by simp [SendsJoints])⟩⟩⟩⟩

theorem pose_positions {x : List ℝ} {o} (hx : Exec cfg (pose cfg x) s tr o s') {e : Ev} (he : e ∈ tr) {t : List ℝ}
    (ht : SendsJoints t e) : FromSolver cfg t tr := by
  refine wp_sound (Q := fun _ _ tr => ∀ e ∈ tr, ∀ t, SendsJoints t e → FromSolver cfg t tr) ?_ hx e he t ht
  clear hx he ht
  unfold pose streamingReady getCurrentState
  dev_simp
  refine ⟨by simp, fun hst => ⟨fun hs => ?_, by simp⟩⟩
  rw [wp_checkControlModes]
  refine ⟨by dev_simp; simp [SendsJoints], fun ms hms => ?_⟩
  dev_simp
  refine ⟨fun hall => ⟨by simp [SendsJoints], fun q hq => ⟨by simp [SendsJoints], fun sol => ?_⟩⟩, by simp [SendsJoints]⟩
  refine ⟨by simp [SendsJoints], fun d hd => ⟨by simp [SendsJoints], fun b hb => ⟨?_, by simp [SendsJoints]⟩⟩⟩
  rintro rfl
  refine ⟨by simp [SendsJoints], fun target ht r => ?_⟩
  intro e he t ht'
  simp only [List.nil_append, List.mem_append, List.mem_cons, List.not_mem_nil, or_false] at he
  rcases he with ((rfl | rfl) | rfl) | rfl
  iterate 3 exact ht'.elim
  exact ⟨x, q, s.frame, sol, by simp, by simp, ht'.symm.trans (buffer_some ht)⟩

theorem cycle_positions {o} (hx : Exec cfg (run cfg) s tr o s') {e : Ev} (he : e ∈ tr) {t : List ℝ}
    (ht : SendsJoints t e) : FromSolver cfg t tr := by
  have key : ∀ p : P Unit, Exec cfg p s tr o s' → Calls NoPos p → FromSolver cfg t tr := by
    intro p hp hc
    obtain ⟨c, r, h1, -, rfl⟩ := Prog.run_calls hp hc e he
    exact absurd ht (noPos_sends h1 t)
  have hstop := still_stopControl
  unfold run getCurrentState at hx
  cases hx with
  | get hx =>
    by_cases hm : s.state = .movl ∧ cfg.usePosdMovl = true
    · refine wp_sound (Q := fun _ _ tr => ∀ e ∈ tr, ∀ t, SendsJoints t e → FromSolver cfg t tr) ?_ hx e he t ht
      clear key hx he ht
      have quiet : ∀ {s : Ctl} {tr : List Ev}, (∀ e ∈ tr, ∀ t, ¬SendsJoints t e) →
          wp (robot cfg) (Prog.bind stopControl fun _ => Prog.pure ())
            (fun _ _ tr => ∀ e ∈ tr, ∀ t, SendsJoints t e → FromSolver cfg t tr) s tr := by
        intro s tr h0
        refine wp_stop' fun es r hes e he t ht => ?_
        exfalso
        rcases List.mem_append.mp he with he | he
        · exact h0 e he t ht
        · rcases List.mem_append.mp he with he | he
          · have := hes e he
            cases e <;> first | exact this.elim | exact ht
          · rw [List.mem_singleton.mp he] at ht
            exact ht
      obtain ⟨hm1, hm2⟩ := hm
      show wp _ (if s.state = .notControlling then _ else _) _ _ _
      rw [if_neg (by simp [hm1])]
      unfold runBody readEncoders dispatch
      rw [hm1]
      simp only [hm2, if_true]
      unfold handleMovlPosd
      dev_simp
      refine ⟨⟨by simp [SendsJoints], fun _ => quiet (by simp [SendsJoints])⟩, fun q hq =>
        ⟨⟨by simp [SendsJoints], fun _ => quiet (by simp [SendsJoints])⟩, fun v hv =>
        ⟨⟨by simp [SendsJoints], fun _ => quiet (by simp [SendsJoints])⟩, fun a ha => ⟨by simp [SendsJoints], fun b hb =>
        ⟨fun _ => ?_, fun _ => ⟨by simp, fun _ => quiet (by simp [SendsJoints])⟩⟩⟩⟩⟩⟩
      rw [wp_checkControlModes]
      dev_simp
      refine ⟨⟨by simp, fun _ => ⟨by simp, fun _ => quiet (by simp [SendsJoints])⟩⟩, fun ms _ => ⟨fun _ now => ⟨fun _ => ?_, fun _ => ?_⟩,
        fun _ => ⟨by simp, fun _ => quiet (by simp [SendsJoints])⟩⟩⟩
      · simp only [if_true]
        exact quiet (by simp [SendsJoints])
      · refine ⟨⟨by simp, fun _ => quiet (by simp [SendsJoints])⟩, fun sol => ?_⟩
        refine ⟨by simp [SendsJoints], fun t ht r => ⟨fun _ => ?_, by simp⟩⟩
        intro e he t' ht'
        simp only [List.nil_append, List.mem_append, List.mem_cons, List.not_mem_nil, or_false] at he
        rcases he with ((((((rfl | rfl) | rfl) | rfl) | rfl) | rfl) | rfl)
        iterate 6 exact ht'.elim
        exact ⟨posesAt s.trajectories (now - s.movementStartTime), q, .base, sol, by simp, by simp, ht'.symm.trans (buffer_some ht)⟩
    · refine key _ hx ?_
      have h1 := fun q v a => still_dispatch (q := q) (v := v) (a := a) hm
      unfold runBody readEncoders
      quiet

/-- Whatever the command, and the cycles of the control loop included, the joints are sent only where inverse kinematics
says, asked with the joints that were just read. -/
theorem positions_solved {op : Op} {o} (hx : Exec cfg (op.prog cfg) s tr o s') {e : Ev} (he : e ∈ tr) {t : List ℝ}
    (ht : SendsJoints t e) : FromSolver cfg t tr := by
  have post : ∀ {γ : Type} {p : P γ} {f : γ → Option Bool}, Exec cfg (p.bind fun b => .pure (f b)) s tr o s' →
      (∀ {o}, Exec cfg p s tr o s' → FromSolver cfg t tr) → FromSolver cfg t tr := by
    intro γ p f hx h
    rcases Prog.run_bind.mp hx with ⟨a, s1, t1, t2, h1, h2, rfl⟩ | ⟨h1, -⟩
    · cases h2
      rw [List.append_nil] at h ⊢
      exact h h1
    · exact h h1
  by_cases hs : SendsPositions op
  · cases op with
    | movj => exact post hx fun h => movj_positions h he ht
    | relj => exact post hx fun h => relj_positions h he ht
    | pose => exact post hx fun h => pose_positions h he ht
    | cycle => exact post hx fun h => cycle_positions h he ht
    | _ => exact hs.elim
  · obtain ⟨c, r, h1, -, rfl⟩ := Prog.run_calls hx (still_op cfg op hs) e he
    exact absurd ht (noPos_sends h1 t)

end

end KD.Ctrl
