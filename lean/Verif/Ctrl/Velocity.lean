import Verif.Ctrl.History

/-!
# Who sends velocity commands
-/

namespace KD.Ctrl

open Prog (Calls calls_bind)

/-- Any call but a velocity command. -/
def NotVel : Call → Prop
  | .velocityMove _ => False
  | _ => True

macro "quiet" : tactic => `(tactic| (calls <;> first | exact True.intro | exact ⟨True.intro, fun _ => True.intro⟩))

theorem quiet_checkControlModes {mode : Mode} : Calls NotVel (checkControlModes mode) := by
  unfold checkControlModes; quiet

theorem quiet_retryModes {mode : Mode} {n : ℕ} : Calls NotVel (retryModes mode n) := by
  induction n with
  | zero => exact True.intro
  | succ n ih =>
    unfold retryModes
    have := quiet_checkControlModes (mode := mode)
    quiet

theorem quiet_setControlModes {mode : Mode} : Calls NotVel (setControlModes mode) := by
  unfold setControlModes
  have := quiet_retryModes (mode := mode) (n := 11)
  quiet

theorem quiet_stopControl : Calls NotVel stopControl := by
  unfold stopControl setCurrentState
  have := quiet_setControlModes (mode := .position)
  quiet

theorem quiet_movj {cfg : Cfg} {xd : List ℝ} : Calls NotVel (movj cfg xd) := by
  unfold movj setCurrentState
  have := quiet_setControlModes (mode := .position)
  quiet

theorem quiet_relj {cfg : Cfg} {xd : List ℝ} : Calls NotVel (relj cfg xd) := by
  unfold relj
  have := fun xd => quiet_movj (cfg := cfg) (xd := xd)
  quiet

theorem quiet_failFastLoop {cfg : Cfg} {ts : List Traj} {l q v : List ℝ} :
    Calls NotVel (failFastLoop cfg ts l q v) := by
  induction l generalizing q v with
  | nil => exact True.intro
  | cons t l ih =>
    unfold failFastLoop
    have := fun q v => @ih q v
    quiet

theorem quiet_movlStart {cfg : Cfg} {q : List ℝ} : Calls NotVel (movlStart cfg q) := by
  unfold movlStart setCurrentState
  have h2 := quiet_setControlModes (mode := movlMode cfg)
  have h3 : Calls NotVel (doFailFastChecks cfg q) := by
    unfold doFailFastChecks
    have h5 := fun ts l q v => quiet_failFastLoop (cfg := cfg) (ts := ts) (l := l) (q := q) (v := v)
    quiet
  dsimp only
  split <;> quiet

theorem quiet_movl {cfg : Cfg} {xd : List ℝ} : Calls NotVel (movl cfg xd) := by
  unfold movl
  have := fun q => quiet_movlStart (cfg := cfg) (q := q)
  quiet

theorem quiet_movv {cfg : Cfg} {xd : List ℝ} : Calls NotVel (movv cfg xd) := by
  unfold movv setCurrentState
  have := quiet_setControlModes (mode := .velocity)
  quiet

theorem quiet_gcmp : Calls NotVel gcmp := by
  unfold gcmp setCurrentState
  have := quiet_setControlModes (mode := .torque)
  quiet

theorem quiet_forc {fd : List ℝ} : Calls NotVel (forc fd) := by
  unfold forc setCurrentState
  have := quiet_setControlModes (mode := .torque)
  quiet

theorem quiet_waitLoop {t t0 : ℝ} {n : ℕ} {st : CState} : Calls NotVel (waitLoop t t0 n st) := by
  induction n generalizing st with
  | zero => exact True.intro
  | succ n ih =>
    unfold waitLoop getCurrentState
    have h1 := quiet_stopControl
    have := fun st => @ih st
    quiet

theorem quiet_wait {t : ℝ} {n : ℕ} : Calls NotVel (wait t n) := by
  unfold wait getCurrentState
  have := fun t0 st => quiet_waitLoop (t := t) (t0 := t0) (n := n) (st := st)
  quiet

theorem quiet_streaming {cmds : List ℤ} {mode : Mode} : Calls NotVel (streamingReady cmds mode) := by
  unfold streamingReady getCurrentState
  have := quiet_checkControlModes (mode := mode)
  quiet

theorem quiet_pose {cfg : Cfg} {x : List ℝ} : Calls NotVel (pose cfg x) := by
  unfold pose
  have := quiet_streaming (cmds := [vocabPose, vocabMovi]) (mode := .positionDirect)
  quiet

theorem quiet_wrench {cfg : Cfg} {x : List ℝ} : Calls NotVel (wrench cfg x) := by
  unfold wrench wrenchBody
  have := quiet_streaming (cmds := [vocabWrench]) (mode := .torque)
  quiet

theorem quiet_setParameter {k : Key} {v : ℝ} : Calls NotVel (setParameter k v) := by
  unfold setParameter getCurrentState presetStreamingCommand setCurrentState
  have := fun m => quiet_setControlModes (mode := m)
  cases k <;> quiet

theorem quiet_setAll {ps : List (Key × ℝ)} {ok : Bool} : Calls NotVel (setAll ps ok) := by
  induction ps generalizing ok with
  | nil => exact True.intro
  | cons p ps ih =>
    obtain ⟨k, v⟩ := p
    unfold setAll
    have h1 := quiet_setParameter (k := k) (v := v)
    have := fun ok => @ih ok
    quiet

/-- Only `twist` and the control loop send velocity commands. -/
theorem quiet_op (cfg : Cfg) (op : Op) (h1 : op ≠ .cycle) (h2 : ∀ x, op ≠ .twist x) :
    Calls NotVel (op.prog cfg) := by
  cases op
  case stat => exact calls_bind (by unfold stat getCurrentState; quiet) fun _ => True.intro
  case inv => exact calls_bind (by unfold inv; quiet) fun _ => True.intro
  case movj => exact calls_bind quiet_movj fun _ => True.intro
  case relj => exact calls_bind quiet_relj fun _ => True.intro
  case movl => exact calls_bind quiet_movl fun _ => True.intro
  case movv => exact calls_bind quiet_movv fun _ => True.intro
  case gcmp => exact calls_bind quiet_gcmp fun _ => True.intro
  case forc => exact calls_bind quiet_forc fun _ => True.intro
  case stopControl => exact calls_bind quiet_stopControl fun _ => True.intro
  case wait => exact quiet_wait
  case tool => exact calls_bind (by unfold tool; quiet) fun _ => True.intro
  case pose => exact calls_bind quiet_pose fun _ => True.intro
  case twist x => exact absurd rfl (h2 x)
  case wrench => exact calls_bind quiet_wrench fun _ => True.intro
  case setParameter => exact calls_bind quiet_setParameter fun _ => True.intro
  case setParameters =>
    refine calls_bind ?_ fun _ => True.intro
    unfold setParameters getCurrentState
    have := fun ps ok => quiet_setAll (ps := ps) (ok := ok)
    quiet
  case getParameter => exact calls_bind (by unfold getParameter; quiet) fun _ => True.intro
  case cycle => exact absurd rfl h1

end KD.Ctrl
