import Verif.Ctrl.Spec

/-!
# How the handlers of the control loop end
-/

namespace KD.Ctrl

open Prog (wp wp_bind wp_of_run wp_sound wp_mono Run)

/-- How a handler of the control loop ends: it fails exactly in the listed cases, and then changes
nothing and sends nothing; otherwise the movement goes on, or has come to its end. -/
structure HandlerEnd (cfg : Cfg) (st : CState) (s : Ctl) (b : Bool) (tr : List Ev) (s' : Ctl) : Prop where
  fails : b = false ↔ HandlerFails cfg st tr
  same : b = false → s' = s ∧ NoMotion tr
  moves : b = true → s' = s ∨
    (s'.state = .notControlling ∧ s'.cmcSuccess = s.cmcSuccess ∧ s'.encoderErrors = s.encoderErrors ∧
      NoMotion tr)
  vel : ∀ v r, Ev.velocityMove v r ∈ tr → ∃ v', InVelLimits cfg v' ∧ v = v'.take cfg.numJoints
  restores : st = .movj → s'.state = .notControlling → s.state ≠ .notControlling →
    ∃ r, tr.getLast? = some (Ev.setRefSpeeds (s.vmoStored.take cfg.numJoints) r)
  inMode : ∀ e ∈ tr, IsMotion e → ∃ modes : List Mode,
    Ev.getControlModes (some modes) ∈ tr ∧ ∀ m ∈ modes, neededMode cfg st = some m
  noRead : ∀ r, Ev.getEncoders r ∉ tr
  noSpeeds : ∀ r, Ev.getEncoderSpeeds r ∉ tr
  noAccelerations : ∀ r, Ev.getEncoderAccelerations r ∉ tr

theorem mode_calls_only {es : List Ev} (h : ∀ e ∈ es, ModeCall e) :
    (∀ r, Ev.checkMotionDone r ∉ es) ∧ (∀ q r, Ev.fwdKin q r ∉ es) ∧
    (∀ x q f r, Ev.invKin x q f r ∉ es) ∧ (∀ q x f r, Ev.diffInvKin q x f r ∉ es) ∧
    (∀ q r, Ev.invDynStatic q r ∉ es) ∧ (∀ q v a w f r, Ev.invDyn q v a w f r ∉ es) ∧
    (∀ v r, Ev.velocityMove v r ∉ es) ∧ (∀ r, Ev.getEncoders r ∉ es) ∧
    (∀ v r, Ev.setRefSpeeds v r ∉ es) ∧ (∀ e ∈ es, ¬IsMotion e) := by
  refine ⟨fun _ => h _, fun _ _ => h _, fun _ _ _ _ => h _, fun _ _ _ _ => h _, fun _ _ => h _,
    fun _ _ _ _ _ _ => h _, fun _ _ => h _, fun _ => h _, fun _ _ => h _, fun e he hm => ?_⟩
  have := h e he
  cases e <;> simp_all [ModeCall, IsMotion]

theorem not_mode {mode : Mode} {modes : List Mode} (h : ∃ x ∈ modes, ¬x = mode) :
    ∃ m ∈ modes, ¬mode = m := by
  obtain ⟨m, hm, he⟩ := h
  exact ⟨m, hm, fun e => he e.symm⟩

theorem is_mode {mode : Mode} {modes : List Mode} (h : ∀ x ∈ modes, x = mode) :
    ∀ m ∈ modes, mode = m := fun m hm => (h m hm).symm

theorem buffer_some {cfg : Cfg} {l b : List ℝ} (h : buffer cfg l = some b) :
    b = l.take cfg.numJoints := by
  unfold buffer at h
  split at h
  · simp at h
  · exact (Option.some.inj h).symm

/-- Splits a goal made of conjunctions, universal statements and uses of `stopControl`. -/
macro "dev_split" : tactic =>
  `(tactic| repeat' (first | apply And.intro | intro _))

theorem handleMovj_end (cfg : Cfg) (s : Ctl) : wp (robot cfg) (handleMovj cfg)
    (fun o s' tr => ∀ b, o = .ok b → HandlerEnd cfg .movj s b tr s') s [] := by
  unfold handleMovj setCurrentState
  dev_simp
  simp only [wp_checkControlModes]
  dev_simp
  generalize hQ : HandlerEnd cfg .movj s = Q
  simp
  refine ⟨?_, fun modes hl => ⟨fun hm => ⟨?_, ?_, fun a ha => ⟨?_, ?_⟩⟩, fun x hx hxm => ?_⟩⟩ <;> subst hQ
  · constructor <;> simp [HandlerFails, firstModes, NoMotion, IsMotion]
  · constructor <;> simp [HandlerFails, firstModes, NoMotion, IsMotion]
  · have hm' := is_mode hm
    constructor <;> simp [HandlerFails, firstModes, NoMotion, IsMotion, neededMode] <;> grind
  · have hm' := is_mode hm
    have := buffer_some ha
    constructor <;> simp [HandlerFails, firstModes, NoMotion, IsMotion, neededMode] <;> grind
  · have hm' := is_mode hm
    have := buffer_some ha
    constructor <;> simp [HandlerFails, firstModes, NoMotion, IsMotion, neededMode] <;> grind
  · constructor <;> simp [HandlerFails, firstModes, NoMotion, IsMotion, neededMode]; grind

/-- Closes a statement about the end of a handler. -/
macro "end_simp" : tactic => `(tactic| (constructor <;>
  simp_all [HandlerFails, firstModes, NoMotion, IsMotion, neededMode, Ctl.stopped] <;> grind))

theorem finished_end {cfg : Cfg} {s : Ctl} {st : CState} {modes : List Mode} {t : ℝ} {es : List Ev}
    {r : Bool} (hst : st ≠ .movj) (hm : ∀ m ∈ modes, neededMode cfg st = some m)
    (hes : ∀ e ∈ es, ModeCall e) :
    HandlerEnd cfg st s true
      ([Ev.getControlModes (some modes), Ev.now t] ++ (es ++ [Ev.stop r])) s.stopped := by
  obtain ⟨h1, h2, h3, h4, h5, h6, h7, h8, h9, h10⟩ := mode_calls_only hes
  have hno : ∀ e ∈ [Ev.getControlModes (some modes), Ev.now t] ++ (es ++ [Ev.stop r]), ¬IsMotion e := by
    intro e he
    simp only [List.mem_append, List.mem_cons, List.not_mem_nil, or_false] at he
    rcases he with (rfl | rfl) | he | rfl
    · simp [IsMotion]
    · simp [IsMotion]
    · exact h10 e he
    · simp [IsMotion]
  have h11 : ∀ x, Ev.getEncoderSpeeds x ∉ es := fun x h => hes _ h
  have h12 : ∀ x, Ev.getEncoderAccelerations x ∉ es := fun x h => hes _ h
  refine ⟨?_, by simp, fun _ => Or.inr ⟨rfl, rfl, rfl, hno⟩, ?_, ?_, ?_, ?_, ?_, ?_⟩
  · simp [HandlerFails, firstModes, h1, h2, h3, h4, h5, h6]
    exact hm
  · simp [h7]
  · exact fun h => absurd h hst
  · exact fun e he hm => absurd hm (hno e he)
  · simp [h8]
  · simp [h11]
  · simp [h12]

theorem wrongMode_end {cfg : Cfg} {s : Ctl} {st : CState} {mode : Mode} {modes : List Mode}
    (hn : neededMode cfg st = some mode) {x : Mode} (hx : x ∈ modes) (hne : ¬x = mode) :
    HandlerEnd cfg st s false [Ev.getControlModes (some modes)] s := by
  constructor <;> simp [HandlerFails, firstModes, NoMotion, IsMotion, hn]
  · exact ⟨x, hx, fun e => hne e.symm⟩

theorem noMode_end {cfg : Cfg} {s : Ctl} {st : CState} :
    HandlerEnd cfg st s false [Ev.getControlModes none] s := by
  constructor <;> simp [HandlerFails, firstModes, NoMotion, IsMotion]

theorem handleMovlPosd_end (cfg : Cfg) (hp : cfg.usePosdMovl = true) (q : List ℝ) (s : Ctl) :
    wp (robot cfg) (handleMovlPosd cfg q)
    (fun o s' tr => ∀ b, o = .ok b → HandlerEnd cfg .movl s b tr s') s [] := by
  have hn : neededMode cfg .movl = some .positionDirect := by simp [neededMode, hp]
  unfold handleMovlPosd
  dev_simp
  simp only [wp_checkControlModes]
  dev_simp
  refine ⟨?_, fun modes hl => ⟨fun hm t => ⟨fun _ => wp_stop' fun es r hes => ?_, fun _ => ⟨?_, fun l =>
    ⟨?_, fun a ha b => ?_⟩⟩⟩, fun hm => ?_⟩⟩
  · simp [noMode_end]
  · dev_simp
    simp only [List.all_eq_true, decide_eq_true_eq] at hm
    have := finished_end (cfg := cfg) (s := s) (t := t) (r := r) (st := .movl) (by simp)
      (fun m h => by rw [hn, hm m h]) hes
    simpa using this
  · simp only [List.all_eq_true, decide_eq_true_eq] at hm
    have hm' := is_mode hm
    simp
    end_simp
  · simp
  · simp only [List.all_eq_true, decide_eq_true_eq] at hm
    have hm' := is_mode hm
    simp
    end_simp
  · simp at hm
    obtain ⟨x, hx, hne⟩ := hm
    simpa using wrongMode_end hn hx hne

theorem sendVelocity_end {cfg : Cfg} {st : CState} {mode : Mode} (hn : neededMode cfg st = some mode)
    (hst : st ≠ .movj) {modes : List Mode} (hm : ∀ m ∈ modes, m = mode) {t : ℝ} {l : List ℝ}
    (q cx dx dxdot : List ℝ) (f : RefFrame) (s : Ctl) :
    wp (robot cfg) (sendVelocity cfg q cx dx dxdot f)
      (fun o s' tr => ∀ b, o = .ok b → HandlerEnd cfg st s b tr s') s
      [Ev.getControlModes (some modes), Ev.now t, Ev.fwdKin q (some l)] := by
  have hm' := is_mode hm
  unfold sendVelocity
  dev_simp
  refine fun d => ⟨fun _ => by simp, fun xdot hx => ⟨?_, fun v => ⟨fun _ => by simp, fun ok hok =>
    ⟨fun hk => ⟨fun _ => by simp, fun v' hv' b => ?_⟩, fun hk => ?_⟩⟩⟩⟩
  · simp
    end_simp
  · subst hk
    have hvel := (checkJointVelocities_iff cfg v).mp hok
    have := buffer_some hv'
    simp
    end_simp
  · have hvel : ¬InVelLimits cfg v := by
      rw [← checkJointVelocities_iff, hok]; simpa using hk
    simp
    end_simp

theorem handleMovlVel_end (cfg : Cfg) (hp : cfg.usePosdMovl = false) (q : List ℝ) (s : Ctl) :
    wp (robot cfg) (handleMovlVel cfg q)
    (fun o s' tr => ∀ b, o = .ok b → HandlerEnd cfg .movl s b tr s') s [] := by
  have hn : neededMode cfg .movl = some .velocity := by simp [neededMode, hp]
  unfold handleMovlVel
  dev_simp
  simp only [wp_checkControlModes]
  dev_simp
  refine ⟨?_, fun modes hl => ⟨fun hm t => ⟨fun _ => wp_stop' fun es r hes => ?_, fun _ => ⟨?_, fun l =>
    ?_⟩⟩, fun hm => ?_⟩⟩
  · simp [noMode_end]
  · dev_simp
    simp only [List.all_eq_true, decide_eq_true_eq] at hm
    have := finished_end (cfg := cfg) (s := s) (t := t) (r := r) (st := .movl) (by simp)
      (fun m h => by rw [hn, hm m h]) hes
    simpa using this
  · simp only [List.all_eq_true, decide_eq_true_eq] at hm
    have hm' := is_mode hm
    simp
    end_simp
  · simp only [List.all_eq_true, decide_eq_true_eq] at hm
    exact sendVelocity_end hn (by simp) hm _ _ _ _ _ _
  · simp at hm
    obtain ⟨x, hx, hne⟩ := hm
    simpa using wrongMode_end hn hx hne

theorem handleMovv_end (cfg : Cfg) (q : List ℝ) (s : Ctl) :
    wp (robot cfg) (handleMovv cfg q)
    (fun o s' tr => ∀ b, o = .ok b → HandlerEnd cfg .movv s b tr s') s [] := by
  have hn : neededMode cfg .movv = some .velocity := by simp [neededMode]
  unfold handleMovv
  dev_simp
  simp only [wp_checkControlModes]
  dev_simp
  refine ⟨?_, fun modes hl => ⟨fun hm t => ⟨?_, fun l => ?_⟩, fun hm => ?_⟩⟩
  · simp [noMode_end]
  · simp only [List.all_eq_true, decide_eq_true_eq] at hm
    have hm' := is_mode hm
    simp
    end_simp
  · simp only [List.all_eq_true, decide_eq_true_eq] at hm
    exact sendVelocity_end hn (by simp) hm _ _ _ _ _ _
  · simp at hm
    obtain ⟨x, hx, hne⟩ := hm
    simpa using wrongMode_end hn hx hne

theorem handleGcmp_end (cfg : Cfg) (q : List ℝ) (s : Ctl) :
    wp (robot cfg) (handleGcmp cfg q)
    (fun o s' tr => ∀ b, o = .ok b → HandlerEnd cfg .gcmp s b tr s') s [] := by
  have hn : neededMode cfg .gcmp = some .torque := by simp [neededMode]
  unfold handleGcmp
  dev_simp
  simp only [wp_checkControlModes]
  dev_simp
  refine ⟨?_, fun modes hl => ⟨fun hm => ⟨?_, fun l => ⟨fun _ => by simp, fun a ha b => ?_⟩⟩,
    fun hm => ?_⟩⟩
  · simp [noMode_end]
  · simp only [List.all_eq_true, decide_eq_true_eq] at hm
    have hm' := is_mode hm
    simp
    end_simp
  · simp only [List.all_eq_true, decide_eq_true_eq] at hm
    have hm' := is_mode hm
    simp
    end_simp
  · simp at hm
    obtain ⟨x, hx, hne⟩ := hm
    simpa using wrongMode_end hn hx hne

theorem handleForc_end (cfg : Cfg) (q v a : List ℝ) (s : Ctl) :
    wp (robot cfg) (handleForc cfg q v a)
    (fun o s' tr => ∀ b, o = .ok b → HandlerEnd cfg .forc s b tr s') s [] := by
  have hn : neededMode cfg .forc = some .torque := by simp [neededMode]
  unfold handleForc
  dev_simp
  simp only [wp_checkControlModes]
  dev_simp
  refine ⟨?_, fun modes hl => ⟨fun hm => ⟨?_, fun l => ⟨fun _ => by simp, fun a ha b => ?_⟩⟩,
    fun hm => ?_⟩⟩
  · simp [noMode_end]
  · simp only [List.all_eq_true, decide_eq_true_eq] at hm
    have hm' := is_mode hm
    simp
    end_simp
  · simp only [List.all_eq_true, decide_eq_true_eq] at hm
    have hm' := is_mode hm
    simp
    end_simp
  · simp at hm
    obtain ⟨x, hx, hne⟩ := hm
    simpa using wrongMode_end hn hx hne

/-- Every handler ends in this way. -/
theorem run_dispatch {cfg : Cfg} {st : CState} (hst : st ≠ .notControlling) {q v a : List ℝ} {s s' : Ctl}
    {tr : List Ev} {b : Bool} (h : Exec cfg (dispatch cfg st q v a) s tr (.ok b) s') :
    HandlerEnd cfg st s b tr s' := by
  rcases st with _ | _ | _ | _ | _ | _
  · exact absurd rfl hst
  · exact wp_sound (handleMovj_end cfg s) h b rfl
  · rcases hp : cfg.usePosdMovl with _ | _
    · simp only [dispatch, hp] at h
      exact wp_sound (handleMovlVel_end cfg hp q s) h b rfl
    · simp only [dispatch, hp] at h
      exact wp_sound (handleMovlPosd_end cfg hp q s) h b rfl
  · exact wp_sound (handleMovv_end cfg q s) h b rfl
  · exact wp_sound (handleGcmp_end cfg q s) h b rfl
  · exact wp_sound (handleForc_end cfg q v a s) h b rfl

end KD.Ctrl
