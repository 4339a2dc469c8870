import Verif.Ctrl.Cycle

/-!
# Histories of the controller

Commands of a user and cycles of the control loop, one after another. (For commands that overlap with
cycles see `Verif.Ctrl.Threads`.)
-/

namespace KD.Ctrl

open Prog (wp wp_bind wp_of_run wp_sound Run Writes writes_bind run_keeps)

/-- What can happen to a controller: a command of `ICartesianControl`,
/repo/libraries/YarpPlugins/BasicCartesianControl/ICartesianControlImpl.cpp:37-704, or a cycle of the loop,
/repo/libraries/YarpPlugins/BasicCartesianControl/PeriodicThreadImpl.cpp:18-80. -/
inductive Op
  | stat
  | inv (xd : List ℝ)
  | movj (xd : List ℝ)
  | relj (xd : List ℝ)
  | movl (xd : List ℝ)
  | movv (xdotd : List ℝ)
  | gcmp
  | forc (fd : List ℝ)
  | stopControl
  | wait (timeout : ℝ) (turns : ℕ)
  | tool (x : List ℝ)
  | pose (x : List ℝ)
  | twist (xdot : List ℝ)
  | wrench (w : List ℝ)
  | setParameter (key : Key) (value : ℝ)
  | setParameters (params : List (Key × ℝ))
  | getParameter (key : Key)
  | cycle

/-- The program of each; the answer of the commands that give one. As `Op`,
/repo/libraries/YarpPlugins/BasicCartesianControl/ICartesianControlImpl.cpp:37-704. -/
noncomputable def Op.prog (cfg : Cfg) : Op → P (Option Bool)
  | stat => Ctrl.stat.bind fun _ => .pure none
  | inv xd => (Ctrl.inv xd).bind fun _ => .pure none
  | movj xd => (Ctrl.movj cfg xd).bind fun b => .pure (some b)
  | relj xd => (Ctrl.relj cfg xd).bind fun b => .pure (some b)
  | movl xd => (Ctrl.movl cfg xd).bind fun b => .pure (some b)
  | movv xd => (Ctrl.movv cfg xd).bind fun b => .pure (some b)
  | gcmp => Ctrl.gcmp.bind fun b => .pure (some b)
  | forc fd => (Ctrl.forc fd).bind fun b => .pure (some b)
  | stopControl => Ctrl.stopControl.bind fun b => .pure (some b)
  | wait t n => Ctrl.wait t n
  | tool x => (Ctrl.tool x).bind fun b => .pure (some b)
  | pose x => (Ctrl.pose cfg x).bind fun _ => .pure none
  | twist x => (Ctrl.twist cfg x).bind fun _ => .pure none
  | wrench w => (Ctrl.wrench cfg w).bind fun _ => .pure none
  | setParameter k v => (Ctrl.setParameter k v).bind fun b => .pure (some b)
  | setParameters ps => (Ctrl.setParameters ps).bind fun b => .pure (some b)
  | getParameter k => (Ctrl.getParameter k).bind fun _ => .pure none
  | cycle => (run cfg).bind fun _ => .pure none

/-- One thing that happened: what was run, the calls it made, its answer. -/
structure Done where
  op : Op
  calls : List Ev
  answer : Option Bool

/-- Sequences of commands and cycles, from one state of the controller to another. -/
inductive Hist (cfg : Cfg) : Ctl → List Done → Ctl → Prop
  | nil (s) : Hist cfg s [] s
  | cons {s op tr b s1 ds s'} : Exec cfg (Op.prog cfg op) s tr (.ok b) s1 → Hist cfg s1 ds s' →
      Hist cfg s (⟨op, tr, b⟩ :: ds) s'

/-- The state of the controller after `open`,
/repo/libraries/YarpPlugins/BasicCartesianControl/DeviceDriverImpl.cpp:212-217 and the initial values of
/repo/libraries/YarpPlugins/BasicCartesianControl/BasicCartesianControl.hpp:185-225; the parameters come from the
configuration. -/
def Ctl.initial (frame : RefFrame) (gain duration : ℝ) (cmcPeriodMs waitPeriodMs : ℤ) (period : ℝ) : Ctl :=
  { frame, gain, duration, cmcPeriodMs, waitPeriodMs, period, state := .notControlling,
    streaming := vocabNotSet, movementStartTime := 0, vmoStored := [], trajectories := [], fd := [],
    encoderErrors := 0, cmcSuccess := true }

section

variable {W : (Ctl → Ctl) → Prop}

theorem writes_checkControlModes {mode : Mode} : Writes W (checkControlModes mode) := by
  unfold checkControlModes; writes

theorem writes_retryModes {mode : Mode} {n : ℕ} : Writes W (retryModes mode n) := by
  induction n with
  | zero => exact True.intro
  | succ n ih =>
    unfold retryModes
    have := writes_checkControlModes (W := W) (mode := mode)
    writes

theorem writes_setControlModes {mode : Mode} : Writes W (setControlModes mode) := by
  unfold setControlModes
  have := writes_retryModes (W := W) (mode := mode) (n := 11)
  writes

theorem writes_stopControl
    (h1 : W fun s => { s with state := .notControlling, streaming := vocabNotSet })
    (h2 : W fun s => { s with trajectories := [] }) : Writes W stopControl := by
  unfold stopControl setCurrentState
  have := writes_setControlModes (W := W) (mode := .position)
  writes

/-- The writes of the controller, other than those of the parameters, of the cycle and of the stored
speeds. -/
structure CommandWrites (W : (Ctl → Ctl) → Prop) : Prop where
  state : ∀ st, W fun s => { s with state := st, streaming := vocabNotSet }
  trajectories : ∀ ts, W fun s => { s with trajectories := ts }
  start : ∀ t, W fun s => { s with movementStartTime := t }
  fd : ∀ f, W fun s => { s with fd := f }
  success : ∀ b, W fun s => { s with cmcSuccess := b }

/-- The writes of the stored speeds. -/
def StoreWrites (W : (Ctl → Ctl) → Prop) : Prop :=
  ∀ f : List ℝ → List ℝ, W fun s => { s with vmoStored := f s.vmoStored }

theorem writes_movj (h : CommandWrites W) (hv : StoreWrites W) {cfg : Cfg} {xd : List ℝ} : Writes W (movj cfg xd) := by
  unfold movj setCurrentState
  have h0 := writes_setControlModes (W := W) (mode := .position)
  have h1 := h.success true
  have h2 := h.state .movj
  have h3 := hv (resize cfg.numJoints)
  have h4 := fun l => hv fun _ => l
  writes

theorem writes_relj (h : CommandWrites W) (hv : StoreWrites W) {cfg : Cfg} {xd : List ℝ} : Writes W (relj cfg xd) := by
  unfold relj
  have h0 := fun x => writes_movj h hv (cfg := cfg) (xd := x)
  writes

theorem writes_failFastLoop {cfg : Cfg} {ts : List Traj} {l q v : List ℝ} :
    Writes W (failFastLoop cfg ts l q v) := by
  induction l generalizing q v with
  | nil => exact True.intro
  | cons t l ih =>
    unfold failFastLoop
    writes

theorem writes_movlStart (h : CommandWrites W) {cfg : Cfg} {q : List ℝ} : Writes W (movlStart cfg q) := by
  unfold movlStart doFailFastChecks setCurrentState
  have h0 := fun m => writes_setControlModes (W := W) (mode := m)
  have h1 := h.success true
  have h2 := h.state .movl
  have h4 := h.start
  have h5 := fun ts l q v => writes_failFastLoop (W := W) (cfg := cfg) (ts := ts) (l := l) (q := q) (v := v)
  writes

theorem writes_movl (h : CommandWrites W) {cfg : Cfg} {xd : List ℝ} : Writes W (movl cfg xd) := by
  unfold movl
  have h0 := fun q => writes_movlStart h (cfg := cfg) (q := q)
  have h3 := h.trajectories
  writes

theorem writes_movv (h : CommandWrites W) {cfg : Cfg} {xd : List ℝ} : Writes W (movv cfg xd) := by
  unfold movv setCurrentState
  have h0 := fun m => writes_setControlModes (W := W) (mode := m)
  have h1 := h.success true
  have h2 := h.state .movv
  have h3 := h.trajectories
  have h4 := h.start
  writes

theorem writes_gcmp (h : CommandWrites W) : Writes W gcmp := by
  unfold gcmp setCurrentState
  have h0 := fun m => writes_setControlModes (W := W) (mode := m)
  have h2 := h.state .gcmp
  writes

theorem writes_forc (h : CommandWrites W) {fd : List ℝ} : Writes W (forc fd) := by
  unfold forc setCurrentState
  have h0 := fun m => writes_setControlModes (W := W) (mode := m)
  have h2 := h.state .forc
  have h3 := h.fd
  writes

theorem writes_waitLoop (h : CommandWrites W) {t t0 : ℝ} {n : ℕ} {st : CState} :
    Writes W (waitLoop t t0 n st) := by
  have h0 := writes_stopControl (h.state .notControlling) (h.trajectories [])
  induction n generalizing st with
  | zero => exact True.intro
  | succ n ih =>
    unfold waitLoop getCurrentState
    writes

theorem writes_wait (h : CommandWrites W) {t : ℝ} {n : ℕ} : Writes W (wait t n) := by
  unfold wait getCurrentState
  have h0 := fun t0 st => writes_waitLoop h (t := t) (t0 := t0) (n := n) (st := st)
  writes

theorem writes_streaming {cmds : List ℤ} {mode : Mode} : Writes W (streamingReady cmds mode) := by
  unfold streamingReady getCurrentState
  have h0 := writes_checkControlModes (W := W) (mode := mode)
  writes

theorem writes_pose {cfg : Cfg} {x : List ℝ} : Writes W (pose cfg x) := by
  unfold pose
  have h0 := fun c m => writes_streaming (W := W) (cmds := c) (mode := m)
  writes

theorem writes_twist {cfg : Cfg} {x : List ℝ} : Writes W (twist cfg x) := by
  unfold twist twistBody
  have h0 := fun c m => writes_streaming (W := W) (cmds := c) (mode := m)
  writes

theorem writes_wrench {cfg : Cfg} {x : List ℝ} : Writes W (wrench cfg x) := by
  unfold wrench wrenchBody
  have h0 := fun c m => writes_streaming (W := W) (cmds := c) (mode := m)
  writes

theorem writes_stat : Writes W stat := by
  unfold stat getCurrentState; writes

theorem writes_inv {xd : List ℝ} : Writes W (inv xd) := by
  unfold inv
  wr_simp
  exact fun _ _ _ => True.intro

theorem writes_tool {x : List ℝ} : Writes W (tool x) := by
  unfold tool
  wr_simp
  exact fun _ _ _ => True.intro

theorem writes_getParameter {k : Key} : Writes W (getParameter k) := by
  unfold getParameter; writes

/-- The writes of parameters. -/
structure ParamWrites (W : (Ctl → Ctl) → Prop) : Prop where
  gain : ∀ v, W fun s => { s with gain := v }
  duration : ∀ v, W fun s => { s with duration := v }
  period : ∀ v, W fun s => { s with period := v }
  cmcPeriodMs : ∀ v, W fun s => { s with cmcPeriodMs := v }
  waitPeriodMs : ∀ v, W fun s => { s with waitPeriodMs := v }
  frame : ∀ v, W fun s => { s with frame := v }
  streaming : ∀ v, W fun s => { s with streaming := v }
  idle : W fun s => { s with state := .notControlling, streaming := vocabNotSet }

theorem writes_presetStreaming
    (h : W fun s => { s with state := .notControlling, streaming := vocabNotSet }) {c : ℤ} :
    Writes W (presetStreamingCommand c) := by
  unfold presetStreamingCommand setCurrentState
  have h0 := fun m => writes_setControlModes (W := W) (mode := m)
  writes

theorem writes_setParameter (h : ParamWrites W) {k : Key} {v : ℝ} : Writes W (setParameter k v) := by
  have h0 := fun c => writes_presetStreaming h.idle (c := c)
  obtain ⟨h1, h2, h3, h4, h5, h6, h7, -⟩ := h
  unfold setParameter getCurrentState
  cases k <;> dsimp only <;> writes

theorem writes_setAll (h : ParamWrites W) {ps : List (Key × ℝ)} {ok : Bool} : Writes W (setAll ps ok) := by
  have h0 := fun k v => writes_setParameter h (k := k) (v := v)
  induction ps generalizing ok with
  | nil => exact True.intro
  | cons p ps ih =>
    obtain ⟨k, v⟩ := p
    unfold setAll
    writes

theorem writes_setParameters (h : ParamWrites W) {ps : List (Key × ℝ)} : Writes W (setParameters ps) := by
  have h0 := fun ok => writes_setAll h (ps := ps) (ok := ok)
  unfold setParameters getCurrentState
  writes

/-- The writes of a cycle of the control loop. -/
structure CycleWrites (W : (Ctl → Ctl) → Prop) : Prop where
  idle : W fun s => { s with state := .notControlling, streaming := vocabNotSet }
  clear : W fun s => { s with trajectories := [] }
  failed : W fun s => { s with cmcSuccess := false }
  count : W fun s => { s with encoderErrors := s.encoderErrors + 1 }
  reset : W fun s => { s with encoderErrors := 0 }

theorem writes_dispatch (h : CycleWrites W) {cfg : Cfg} {st : CState} {q v a : List ℝ} :
    Writes W (dispatch cfg st q v a) := by
  have h0 := writes_stopControl h.idle h.clear
  have hc := fun m => writes_checkControlModes (W := W) (mode := m)
  have h1 := h.idle
  rcases st with _ | _ | _ | _ | _ | _
  · exact True.intro
  · show Writes W (handleMovj cfg)
    unfold handleMovj setCurrentState; writes
  · show Writes W (if cfg.usePosdMovl then handleMovlPosd cfg q else handleMovlVel cfg q)
    unfold handleMovlPosd handleMovlVel sendVelocity; writes
  · show Writes W (handleMovv cfg q)
    unfold handleMovv sendVelocity; writes
  · show Writes W (handleGcmp cfg q)
    unfold handleGcmp; writes
  · show Writes W (handleForc cfg q v a)
    unfold handleForc; writes

theorem writes_run (h : CycleWrites W) {cfg : Cfg} : Writes W (run cfg) := by
  have h0 := writes_stopControl h.idle h.clear
  have h1 := fun st q v a => writes_dispatch h (cfg := cfg) (st := st) (q := q) (v := v) (a := a)
  obtain ⟨-, -, h2, h3, h4⟩ := h
  have hb : ∀ st, Writes W (runBody cfg st) := by
    intro st
    unfold runBody readEncoders
    writes
  unfold run getCurrentState
  writes

/-- All writes of commands. -/
theorem writes_command (hc : CommandWrites W) (hp : ParamWrites W) (cfg : Cfg) (op : Op)
    (hop : op ≠ .cycle) (hv : (∃ x, op = .movj x ∨ op = .relj x) → StoreWrites W) : Writes W (op.prog cfg) := by
  cases op
  case stat => exact writes_bind writes_stat fun _ => True.intro
  case inv => exact writes_bind writes_inv fun _ => True.intro
  case movj => exact writes_bind (writes_movj hc (hv ⟨_, Or.inl rfl⟩)) fun _ => True.intro
  case relj => exact writes_bind (writes_relj hc (hv ⟨_, Or.inr rfl⟩)) fun _ => True.intro
  case movl => exact writes_bind (writes_movl hc) fun _ => True.intro
  case movv => exact writes_bind (writes_movv hc) fun _ => True.intro
  case gcmp => exact writes_bind (writes_gcmp hc) fun _ => True.intro
  case forc => exact writes_bind (writes_forc hc) fun _ => True.intro
  case stopControl =>
    exact writes_bind (writes_stopControl (hc.state _) (hc.trajectories _)) fun _ => True.intro
  case wait => exact writes_wait hc
  case tool => exact writes_bind writes_tool fun _ => True.intro
  case pose => exact writes_bind writes_pose fun _ => True.intro
  case twist => exact writes_bind writes_twist fun _ => True.intro
  case wrench => exact writes_bind writes_wrench fun _ => True.intro
  case setParameter => exact writes_bind (writes_setParameter hp) fun _ => True.intro
  case setParameters => exact writes_bind (writes_setParameters hp) fun _ => True.intro
  case getParameter => exact writes_bind writes_getParameter fun _ => True.intro
  case cycle => exact absurd rfl hop

theorem writes_cycle (hr : CycleWrites W) (cfg : Cfg) : Writes W (Op.prog cfg .cycle) :=
  writes_bind (writes_run hr) fun _ => True.intro

end

end KD.Ctrl
