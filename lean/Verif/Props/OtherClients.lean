import Verif.Ctrl.Pool
import Verif.Props.Stopping
import Verif.Props.Streaming
import Verif.Props.Commands

/-!
# C97: a stop holds against other clients

The threads of `Verif.Ctrl.Pool` interleave: one client stops the robot while others ask and stream.
-/

namespace KD.Ctrl

open Prog (Step Writes Run can can_run writes_bind)
open scoped Classical

/-- Not controlling, and no kind of streamed command is accepted. -/
def Stopped (s : Ctl) : Prop := s.state = .notControlling ∧ s.streaming = vocabNotSet

/-- Writes that leave a stopped controller stopped. -/
def KeepsStopped (f : Ctl → Ctl) : Prop := ∀ s, Stopped s → Stopped (f s)

theorem keepsStopped_cycle : CycleWrites KeepsStopped :=
  ⟨fun _ _ => ⟨rfl, rfl⟩, fun _ h => h, fun _ h => h, fun _ h => h, fun _ h => h⟩

/-- On a stopped controller this does nothing, and so it is at each of its steps. -/
def Quiet {α : Type} : P α → Prop
  | .pure _ => True
  | .ub => True
  | .get k => ∀ s, Stopped s → Quiet (k s)
  | .set _ _ => False
  | .call _ _ => False

theorem quiet_run (cfg : Cfg) : Quiet (run cfg) := by
  unfold run getCurrentState
  simp only [Prog.bind_eq, Prog.pure_eq, Prog.read_bind, Prog.get_bind, Prog.pure_bind']
  intro s hs
  dsimp only
  rw [if_pos hs.1]
  trivial

theorem streamingReady_stopped {α : Type} {cmds : List ℤ} {mode : Mode} {k : Bool → P α} (hc : vocabNotSet ∉ cmds)
    (hk : Quiet (k false)) : Quiet (Prog.bind (streamingReady cmds mode) k) := by
  unfold streamingReady getCurrentState
  simp only [Prog.bind_eq, Prog.pure_eq, Prog.read_bind, Prog.get_bind, Prog.pure_bind']
  intro s hs
  dsimp only
  rw [if_neg (by simp [hs.1])]
  simp only [Prog.get_bind]
  intro s' hs'
  dsimp only
  rw [if_neg (by rw [hs'.2]; exact hc)]
  exact hk

theorem quiet_streamed {cfg : Cfg} {p : P Unit} (h : Streamed cfg p) : Quiet p := by
  cases h with
  | pose x =>
    unfold pose
    exact streamingReady_stopped (by decide) trivial
  | twist x =>
    unfold twist
    exact streamingReady_stopped (by decide) trivial
  | wrench w =>
    unfold wrench
    exact streamingReady_stopped (by decide) trivial

/-- On a stopped controller, at most so many motion commands are still sent. -/
def Lim {α : Type} (n : ℕ) (p : P α) : Prop :=
  Quiet p ∨ (Writes KeepsStopped p ∧ budget.wpi p (fun _ _ => True) n)

theorem Lim.mono {α : Type} {n m : ℕ} {p : P α} (h : n ≤ m) (hp : Lim n p) : Lim m p :=
  hp.imp id fun hp => ⟨hp.1, budget_mono h hp.2⟩

theorem quiet_step {α : Type} {cfg : Cfg} {p p' : P α} {s s' : Ctl} {l : Option Ev} (h : Quiet p)
    (hi : Stopped s) (hs : Step (robot cfg) p s l p' s') : l = none ∧ s' = s ∧ Quiet p' := by
  cases hs with
  | get k s => exact ⟨rfl, rfl, h s hi⟩
  | set f k s => exact absurd h id
  | call c k s r hr => exact absurd h id

theorem lim_step {α : Type} {cfg : Cfg} {p p' : P α} {s s' : Ctl} {l : Option Ev} {n : ℕ} (h : Lim n p)
    (hi : Stopped s) (hs : Step (robot cfg) p s l p' s') :
    Stopped s' ∧ ∃ n', Lim n' p' ∧ n' + (l.toList.filter fun e => decide (IsMotion e)).length ≤ n := by
  rcases h with h | ⟨hw, hb⟩
  · obtain ⟨rfl, rfl, h⟩ := quiet_step h hi hs
    exact ⟨hi, n, Or.inl h, by simp⟩
  · have hw' := writes_step hw hs
    have hi' : Stopped s' := by
      rcases hw'.2 with rfl | ⟨f, hf, rfl⟩
      · exact hi
      · exact hf s hi
    refine ⟨hi', ?_⟩
    rcases Ghost.step hb trivial hs with ⟨rfl, rfl, h⟩ | ⟨f, g', rfl, rfl, rfl, h⟩ | ⟨e, rfl, rfl, h, h'⟩
    · exact ⟨n, Or.inr ⟨hw'.1, h⟩, by simp⟩
    · exact ⟨_, Or.inr ⟨hw'.1, h⟩, by simp⟩
    · refine ⟨_, Or.inr ⟨hw'.1, h'⟩, ?_⟩
      rw [budget_next]
      by_cases hm : IsMotion e
      · have := h hm
        simp only [hm, if_true, Option.toList_some, List.filter_cons, decide_true, List.filter_nil,
          List.length_singleton]
        omega
      · simp [hm]

/-! ## Requests that order no movement -/

/-- A request that neither orders a movement nor prepares streaming. -/
def Harmless : Op → Prop
  | .stat | .inv _ | .stopControl | .wait _ _ | .tool _ | .getParameter _ => True
  | .setParameter k _ => k ≠ .streaming
  | .setParameters ps => ∀ p ∈ ps, p.1 ≠ .streaming
  | _ => False

theorem keepsStopped_setParameter {k : Key} {v : ℝ} (hk : k ≠ .streaming) : Writes KeepsStopped (setParameter k v) := by
  have h1 : ∀ v, KeepsStopped fun s => { s with gain := v } := fun _ _ h => h
  have h2 : ∀ v, KeepsStopped fun s => { s with duration := v } := fun _ _ h => h
  have h3 : ∀ v, KeepsStopped fun s => { s with period := v } := fun _ _ h => h
  have h4 : ∀ v, KeepsStopped fun s => { s with cmcPeriodMs := v } := fun _ _ h => h
  have h5 : ∀ v, KeepsStopped fun s => { s with waitPeriodMs := v } := fun _ _ h => h
  have h6 : ∀ v, KeepsStopped fun s => { s with frame := v } := fun _ _ h => h
  unfold setParameter getCurrentState
  cases k <;> dsimp only <;> first | exact absurd rfl hk | writes

theorem keepsStopped_setAll {ps : List (Key × ℝ)} {ok : Bool} (h : ∀ p ∈ ps, p.1 ≠ .streaming) :
    Writes KeepsStopped (setAll ps ok) := by
  induction ps generalizing ok with
  | nil => exact True.intro
  | cons p ps ih =>
    obtain ⟨k, v⟩ := p
    have h0 := keepsStopped_setParameter (k := k) (v := v) (h (k, v) (by simp))
    have h1 := fun ok => ih (ok := ok) fun p hp => h p (by simp [hp])
    clear ih h
    unfold setAll
    writes

theorem keepsStopped_waitLoop {t t0 : ℝ} {n : ℕ} {st : CState} : Writes KeepsStopped (waitLoop t t0 n st) := by
  have h0 := writes_stopControl keepsStopped_cycle.idle keepsStopped_cycle.clear
  induction n generalizing st with
  | zero => exact True.intro
  | succ n ih =>
    unfold waitLoop getCurrentState
    writes

theorem keepsStopped_harmless {cfg : Cfg} {op : Op} (h : Harmless op) : Writes KeepsStopped (op.prog cfg) := by
  cases op <;> try exact absurd h id
  · exact writes_bind writes_stat fun _ => trivial
  · exact writes_bind writes_inv fun _ => trivial
  · exact writes_bind (writes_stopControl keepsStopped_cycle.idle keepsStopped_cycle.clear) fun _ => trivial
  · show Writes KeepsStopped (wait _ _)
    have h0 := fun t t0 n st => keepsStopped_waitLoop (t := t) (t0 := t0) (n := n) (st := st)
    unfold wait getCurrentState
    writes
  · exact writes_bind writes_tool fun _ => trivial
  · exact writes_bind (keepsStopped_setParameter h) fun _ => trivial
  · rename_i ps
    refine writes_bind ?_ fun _ => trivial
    have h0 := fun ok => keepsStopped_setAll (ps := ps) (ok := ok) h
    unfold setParameters getCurrentState
    writes
  · exact writes_bind writes_getParameter fun _ => trivial

/-- A call that orders no movement. -/
def Call.still : Call → Prop
  | .positionMove _ => False
  | .setPositions _ => False
  | .velocityMove _ => False
  | .setRefTorques _ => False
  | _ => True

theorem unmoved_record {c : Call} (h : c.still) (r : c.Resp) : ¬ IsMotion (record c r) := by
  cases c <;> simp [Call.still, record, IsMotion] at h ⊢

/-- Programs that order no movement need no budget. -/
theorem budget_calls {α : Type} {p : P α} (h : Prog.Calls Call.still p) : budget.wpi p (fun _ _ => True) 0 := by
  induction p with
  | pure a => trivial
  | ub => trivial
  | get k ih => exact fun s _ => ih s (h s)
  | set f k ih => exact ⟨0, rfl, ih h⟩
  | call c k ih =>
    intro r
    have hm := unmoved_record h.1 r
    refine ⟨fun hm' => absurd hm' hm, ?_⟩
    rw [budget_next, if_neg hm]
    exact ih r (h.2 r)

theorem unmoved_checkModes {mode : Mode} : Prog.Calls Call.still (checkControlModes mode) := by
  unfold checkControlModes; calls

theorem unmoved_retryModes {mode : Mode} {n : ℕ} : Prog.Calls Call.still (retryModes mode n) := by
  have h0 := fun m => unmoved_checkModes (mode := m)
  induction n with
  | zero => exact True.intro
  | succ n ih => unfold retryModes; calls

theorem unmoved_setModes {mode : Mode} : Prog.Calls Call.still (setControlModes mode) := by
  have h0 := fun m => unmoved_retryModes (mode := m) (n := 11)
  unfold setControlModes; calls

theorem unmoved_stopControl : Prog.Calls Call.still stopControl := by
  have h0 := fun m => unmoved_setModes (mode := m)
  unfold stopControl setCurrentState; calls

theorem unmoved_setParameter {k : Key} {v : ℝ} : Prog.Calls Call.still (setParameter k v) := by
  have h0 := fun m => unmoved_setModes (mode := m)
  unfold setParameter getCurrentState presetStreamingCommand setCurrentState
  cases k <;> dsimp only <;> calls

theorem unmoved_setAll {ps : List (Key × ℝ)} {ok : Bool} : Prog.Calls Call.still (setAll ps ok) := by
  have h0 := fun k v => unmoved_setParameter (k := k) (v := v)
  induction ps generalizing ok with
  | nil => exact True.intro
  | cons p ps ih =>
    obtain ⟨k, v⟩ := p
    unfold setAll
    calls

theorem unmoved_waitLoop {t t0 : ℝ} {n : ℕ} {st : CState} : Prog.Calls Call.still (waitLoop t t0 n st) := by
  have h0 := unmoved_stopControl
  induction n generalizing st with
  | zero => exact True.intro
  | succ n ih =>
    unfold waitLoop getCurrentState
    calls

theorem unmoved_harmless {cfg : Cfg} {op : Op} (h : Harmless op) : Prog.Calls Call.still (op.prog cfg) := by
  cases op <;> try exact absurd h id
  · refine Prog.calls_bind ?_ fun _ => trivial
    unfold stat getCurrentState; calls
  · refine Prog.calls_bind ?_ fun _ => trivial
    unfold inv; calls
    exact ⟨trivial, fun _ => trivial⟩
  · exact Prog.calls_bind unmoved_stopControl fun _ => trivial
  · show Prog.Calls Call.still (wait _ _)
    have h0 := fun t t0 n st => unmoved_waitLoop (t := t) (t0 := t0) (n := n) (st := st)
    unfold wait getCurrentState
    calls
  · refine Prog.calls_bind ?_ fun _ => trivial
    unfold tool; calls
    exact ⟨trivial, fun _ => trivial⟩
  · exact Prog.calls_bind unmoved_setParameter fun _ => trivial
  · rename_i ps
    refine Prog.calls_bind ?_ fun _ => trivial
    have h0 := fun ok => unmoved_setAll (ps := ps) (ok := ok)
    unfold setParameters getCurrentState
    calls
  · refine Prog.calls_bind ?_ fun _ => trivial
    unfold getParameter; calls

/-! ## Streamed commands in progress -/

theorem budget_streamingReady {α : Type} {cmds : List ℤ} {mode : Mode} {k : Bool → P α}
    (h : ∀ b, budget.wpi (k b) (fun _ _ => True) 1) :
    budget.wpi (Prog.bind (streamingReady cmds mode) k) (fun _ _ => True) 1 := by
  unfold streamingReady getCurrentState
  gi_simp
  refine fun s _ => ⟨fun _ => h _, fun _ s _ => ⟨fun _ => ?_, fun _ => h _⟩⟩
  exact wpi_checkModes (budget_modes 1) h

theorem budget_streamed {cfg : Cfg} {p : P Unit} (h : Streamed cfg p) : budget.wpi p (fun _ _ => True) 1 := by
  cases h with
  | pose x =>
    unfold pose
    refine budget_streamingReady fun b => ?_
    cases b
    · trivial
    · gi_simp
      simp [budget, IsMotion]
  | twist x =>
    unfold twist
    refine budget_streamingReady fun b => ?_
    cases b
    · trivial
    · unfold twistBody
      gi_simp
      simp [budget, IsMotion]
  | wrench w =>
    unfold wrench
    refine budget_streamingReady fun b => ?_
    cases b
    · trivial
    · unfold wrenchBody
      gi_simp
      simp [budget, IsMotion]

/-- What may be left of a streamed command: nothing, all of it, or what follows any of its steps, whatever the object
was at each step. -/
inductive InStream (cfg : Cfg) : P Unit → Prop
  | rest : InStream cfg (.pure ())
  | start {p} : Streamed cfg p → InStream cfg p
  | step {p s l p' s'} : InStream cfg p → Step (robot cfg) p s l p' s' → InStream cfg p'

/-- What may be left of a request that `A` allows. -/
inductive InRequest (cfg : Cfg) (A : Op → Prop) : P (Option Bool) → Prop
  | rest (b) : InRequest cfg A (.pure b)
  | start {op} : A op → InRequest cfg A (op.prog cfg)
  | step {p s l p' s'} : InRequest cfg A p → Step (robot cfg) p s l p' s' → InRequest cfg A p'

/-- What is known of a program at each of its steps. -/
theorem static_step {α : Type} {cfg : Cfg} {p p' : P α} {s s' : Ctl} {l : Option Ev} {n : ℕ}
    (h : Writes KeepsStopped p ∧ budget.wpi p (fun _ _ => True) n) (hs : Step (robot cfg) p s l p' s') :
    Writes KeepsStopped p' ∧ budget.wpi p' (fun _ _ => True) n := by
  refine ⟨(writes_step h.1 hs).1, ?_⟩
  rcases Ghost.step h.2 trivial hs with ⟨-, -, h1⟩ | ⟨f, g1, -, -, hg, h1⟩ | ⟨e, -, -, -, h1⟩
  · exact h1
  · exact hg ▸ h1
  · refine budget_mono ?_ h1
    rw [budget_next]; split <;> omega

theorem InStream.static {cfg : Cfg} {p : P Unit} (h : InStream cfg p) :
    Writes KeepsStopped p ∧ budget.wpi p (fun _ _ => True) 1 := by
  induction h with
  | rest => exact ⟨trivial, trivial⟩
  | start h =>
    refine ⟨?_, budget_streamed h⟩
    cases h
    · exact writes_pose
    · exact writes_twist
    · exact writes_wrench
  | step _ hs ih => exact static_step ih hs

theorem InRequest.static {cfg : Cfg} {p : P (Option Bool)} (h : InRequest cfg Harmless p) :
    Writes KeepsStopped p ∧ budget.wpi p (fun _ _ => True) 0 := by
  induction h with
  | rest => exact ⟨trivial, trivial⟩
  | start h => exact ⟨keepsStopped_harmless h, budget_calls (unmoved_harmless h)⟩
  | step _ hs ih => exact static_step ih hs

theorem InCycle.static' {cfg : Cfg} {lp : P Unit} (h : InCycle cfg lp) :
    Writes KeepsStopped lp ∧ budget.wpi lp (fun _ _ => True) 1 := by
  refine ⟨?_, h.static.2⟩
  induction h with
  | rest => trivial
  | start => exact writes_run keepsStopped_cycle
  | step _ hs ih => exact (writes_step ih hs).1

/-! ## While the robot is being stopped -/

/-- The threads beside the one that stops the robot are in the middle of something they can be doing. -/
structure Busy (cfg : Cfg) (x : Pool) : Prop where
  others : ∀ i, InRequest cfg Harmless (x.others i)
  stream : InStream cfg x.stream
  loop : InCycle cfg x.loop

theorem stopping_keeps {cfg : Cfg} {x y : Pool} {tr : List (Party × Ev)} (h : Pool.Steps cfg Harmless x tr y) :
    Busy cfg x → (x.stopper = stopControl ∨ (Stopped x.ctl ∧ Writes KeepsStopped x.stopper)) →
    Busy cfg y ∧ (y.stopper = stopControl ∨ (Stopped y.ctl ∧ Writes KeepsStopped y.stopper)) := by
  induction h with
  | refl => exact fun h1 h2 => ⟨h1, h2⟩
  | step hs _ ih =>
    intro hb hu
    have keep : ∀ {α : Type} {p p' : P α} {s s' : Ctl} {l : Option Ev}, Writes KeepsStopped p →
        Step (robot cfg) p s l p' s' → Stopped s → Stopped s' := by
      intro α p p' s s' l hw hs hi
      rcases (writes_step hw hs).2 with rfl | ⟨f, hf, rfl⟩
      · exact hi
      · exact hf s hi
    cases hs with
    | @stopper s u l s' u' os sp lp hs =>
      refine ih ⟨hb.others, hb.stream, hb.loop⟩ (Or.inr ?_)
      rcases hu with hu | ⟨hi, hw⟩
      · dsimp only at hu
        subst hu
        have hw : Writes KeepsStopped stopControl :=
          writes_stopControl keepsStopped_cycle.idle keepsStopped_cycle.clear
        refine ⟨?_, (writes_step hw hs).1⟩
        unfold stopControl setCurrentState at hs
        simp only [Prog.bind_eq, Prog.pure_eq, Prog.modify_bind] at hs
        cases hs
        exact ⟨rfl, rfl⟩
      · exact ⟨keep hw hs hi, (writes_step hw hs).1⟩
    | @other s u os i l s' p' sp lp hs =>
      refine ih ⟨fun j => ?_, hb.stream, hb.loop⟩ ?_
      · by_cases hj : j = i
        · subst hj
          simp only [Function.update_self]
          exact .step (hb.others j) hs
        · simp only [Function.update_of_ne hj]
          exact hb.others j
      · exact hu.imp id fun ⟨hi, hw⟩ => ⟨keep (hb.others i).static.1 hs hi, hw⟩
    | @ask s u os i b op sp lp hi ha =>
      refine ih ⟨fun j => ?_, hb.stream, hb.loop⟩ hu
      by_cases hj : j = i
      · subst hj
        simp only [Function.update_self]
        exact .start ha
      · simp only [Function.update_of_ne hj]
        exact hb.others j
    | stream hs =>
      exact ih ⟨hb.others, .step hb.stream hs, hb.loop⟩
        (hu.imp id fun ⟨hi, hw⟩ => ⟨keep hb.stream.static.1 hs hi, hw⟩)
    | message hp => exact ih ⟨hb.others, .start hp, hb.loop⟩ hu
    | loop hs =>
      refine ih ⟨hb.others, hb.stream, hb.loop.loopStep hs⟩ ?_
      cases hs with
      | step hs => exact hu.imp id fun ⟨hi, hw⟩ => ⟨keep hb.loop.static'.1 hs hi, hw⟩
      | again => exact hu

/-- The motion commands among the calls of all threads. -/
noncomputable def motionCalls (tr : List (Party × Ev)) : List (Party × Ev) := tr.filter fun x => decide (IsMotion x.2)

theorem motionCalls_append (a b : List (Party × Ev)) : motionCalls (a ++ b) = motionCalls a ++ motionCalls b := by
  simp [motionCalls]

theorem motionCalls_one (w : Party) (l : Option Ev) :
    (motionCalls (l.map fun e => (w, e)).toList).length = (l.toList.filter fun e => decide (IsMotion e)).length := by
  cases l with
  | none => rfl
  | some e => by_cases h : IsMotion e <;> simp [motionCalls, h]

/-- After the stop: how many motion commands are left to each thread. -/
structure Left (cfg : Cfg) (x : Pool) (ns nl : ℕ) : Prop where
  stopped : Stopped x.ctl
  user : ∃ b, x.stopper = .pure b
  others : ∀ i, Lim 0 (x.others i)
  stream : Lim ns x.stream
  loop : Lim nl x.loop

theorem left_moves {cfg : Cfg} {x y : Pool} {tr : List (Party × Ev)} (h : Pool.Steps cfg Harmless x tr y) :
    ∀ {ns nl}, Left cfg x ns nl → (motionCalls tr).length ≤ ns + nl := by
  induction h with
  | refl => intros; simp [motionCalls]
  | step hs _ ih =>
    intro ns nl hl
    rw [motionCalls_append, List.length_append]
    cases hs with
    | stopper hs =>
      obtain ⟨b, hb⟩ := hl.user
      dsimp only at hb
      subst hb
      cases hs
    | @other s u os i l s' p' sp lp hs =>
      obtain ⟨h1, n', h2, h3⟩ := lim_step (hl.others i) hl.stopped hs
      have h4 : n' = 0 := by omega
      subst h4
      rw [motionCalls_one]
      have := ih (ns := ns) (nl := nl) ⟨h1, hl.user, fun j => ?_, hl.stream, hl.loop⟩
      · omega
      · by_cases hj : j = i
        · subst hj; simpa only [Function.update_self] using h2
        · simpa only [Function.update_of_ne hj] using hl.others j
    | @ask s u os i b op sp lp hi ha =>
      have := ih (ns := ns) (nl := nl) ⟨hl.stopped, hl.user, fun j => ?_, hl.stream, hl.loop⟩
      · simpa [motionCalls] using this
      · by_cases hj : j = i
        · subst hj
          simp only [Function.update_self]
          exact Or.inr (InRequest.start ha).static
        · simpa only [Function.update_of_ne hj] using hl.others j
    | stream hs =>
      obtain ⟨h1, n', h2, h3⟩ := lim_step hl.stream hl.stopped hs
      rw [motionCalls_one]
      have := ih ⟨h1, hl.user, hl.others, h2, hl.loop⟩
      omega
    | message hp =>
      have := ih (ns := ns) ⟨hl.stopped, hl.user, hl.others, Or.inl (quiet_streamed hp), hl.loop⟩
      simpa [motionCalls] using this
    | loop hs =>
      cases hs with
      | step hs =>
        obtain ⟨h1, n', h2, h3⟩ := lim_step hl.loop hl.stopped hs
        rw [motionCalls_one]
        have := ih ⟨h1, hl.user, hl.others, hl.stream, h2⟩
        omega
      | again =>
        have := ih (nl := nl) ⟨hl.stopped, hl.user, hl.others, hl.stream, Or.inl (quiet_run cfg)⟩
        simpa [motionCalls] using this

/-- **C97**, what holds of it: whatever the control loop, the stream and any number of other clients are doing when one
client asks for a stop, and however all of them interleave, once the stop has been answered at most two motion commands
are sent: the rest of a cycle and of a streamed command in progress. Commands streamed later move nothing, as long as no
client orders a movement or prepares streaming. Missing: see `C97_stopped_then_moved` for a movement ordered before. -/
theorem C97_stop_holds_partial {cfg : Cfg} {x y z : Pool} {b : Bool} {tr tr' : List (Party × Ev)}
    (hx : Busy cfg x) (hstop : x.stopper = stopControl) (h : Pool.Steps cfg Harmless x tr y)
    (hret : y.stopper = .pure b) (hafter : Pool.Steps cfg Harmless y tr' z) :
    (motionCalls tr').length ≤ 2 ∧ Stopped z.ctl := by
  obtain ⟨hb, hu⟩ := stopping_keeps h hx (Or.inl hstop)
  have hs : Stopped y.ctl := by
    rcases hu with hu | ⟨hi, -⟩
    · rw [hret] at hu; cases hu
    · exact hi
  have hl : Left cfg y 1 1 := ⟨hs, ⟨b, hret⟩, fun i => Or.inr (hb.others i).static, Or.inr hb.stream.static,
    Or.inr hb.loop.static'⟩
  refine ⟨left_moves hafter hl, ?_⟩
  obtain ⟨-, hu'⟩ := stopping_keeps hafter hb (Or.inr ⟨hs, by rw [hret]; trivial⟩)
  rcases hu' with hu' | ⟨hi, -⟩
  · exfalso
    have key : ∀ {x y : Pool} {tr : List (Party × Ev)}, Pool.Steps cfg Harmless x tr y →
        x.stopper = .pure b → y.stopper = .pure b := by
      intro x y tr h
      induction h with
      | refl => exact id
      | step hs _ ih =>
        intro hx
        cases hs with
        | stopper hs => dsimp only at hx; subst hx; cases hs
        | other => exact ih hx
        | ask => exact ih hx
        | stream => exact ih hx
        | message => exact ih hx
        | loop => exact ih hx
    rw [key hafter hret] at hu'
    cases hu'
  · exact hi

/-- If the loop is between two cycles and the stream between two messages when the stop is answered, the robot hears
nothing more from them: every later call is made for another client's request. -/
theorem C97_silence_partial {cfg : Cfg} {x y z : Pool} {b : Bool} {tr tr' : List (Party × Ev)}
    (hx : Busy cfg x) (hstop : x.stopper = stopControl) (h : Pool.Steps cfg Harmless x tr y)
    (hret : y.stopper = .pure b) (hs : y.stream = .pure ()) (hl : y.loop = .pure ())
    (hafter : Pool.Steps cfg Harmless y tr' z) :
    ∀ e ∈ tr', (∃ i, e.1 = .other i) ∧ ¬ IsMotion e.2 := by
  obtain ⟨hb, hu⟩ := stopping_keeps h hx (Or.inl hstop)
  have hi : Stopped y.ctl := by
    rcases hu with hu | ⟨hi, -⟩
    · rw [hret] at hu; cases hu
    · exact hi
  have key : ∀ {x y : Pool} {tr : List (Party × Ev)}, Pool.Steps cfg Harmless x tr y → Stopped x.ctl →
      x.stopper = .pure b → (∀ i, InRequest cfg Harmless (x.others i)) → Quiet x.stream → Quiet x.loop →
      ∀ e ∈ tr, ∃ i, e.1 = .other i := by
    intro x y tr h
    induction h with
    | refl => intro _ _ _ _ _ e he; cases he
    | step hs _ ih =>
      intro h1 h2 h3 h4 h5
      cases hs with
      | stopper hs => dsimp only at h2; subst h2; cases hs
      | @other s u os i l s' p' sp lp hs =>
        intro e he
        rcases List.mem_append.1 he with he | he
        · cases l with
          | none => simp at he
          | some e' => simp at he; subst he; exact ⟨i, rfl⟩
        · refine ih ?_ h2 (fun j => ?_) h4 h5 e he
          · exact (lim_step (Or.inr (h3 i).static) h1 hs).1
          · by_cases hj : j = i
            · subst hj; simp only [Function.update_self]; exact .step (h3 j) hs
            · simpa only [Function.update_of_ne hj] using h3 j
      | @ask s u os i b op sp lp hi ha =>
        refine ih h1 h2 (fun j => ?_) h4 h5
        by_cases hj : j = i
        · subst hj; simp only [Function.update_self]; exact .start ha
        · simpa only [Function.update_of_ne hj] using h3 j
      | stream hs =>
        obtain ⟨rfl, rfl, hq⟩ := quiet_step h4 h1 hs
        exact ih h1 h2 h3 hq h5
      | message hp => exact ih h1 h2 h3 (quiet_streamed hp) h5
      | loop hs =>
        cases hs with
        | step hs =>
          obtain ⟨rfl, rfl, hq⟩ := quiet_step h5 h1 hs
          exact ih h1 h2 h3 h4 hq
        | again => exact ih h1 h2 h3 h4 (quiet_run cfg)
  have hq : Quiet y.stream := by rw [hs]; trivial
  have hq' : Quiet y.loop := by rw [hl]; trivial
  have hm : (motionCalls tr').length ≤ 0 + 0 := left_moves hafter ⟨hi, ⟨b, hret⟩,
    fun i => Or.inr (hb.others i).static, Or.inl hq, Or.inl hq'⟩
  intro e he
  refine ⟨key hafter hi hret hb.others hq hq' e he, fun hme => ?_⟩
  have : e ∈ motionCalls tr' := by simp [motionCalls, he, hme]
  rw [List.eq_nil_of_length_eq_zero (by omega : (motionCalls tr').length = 0)] at this
  cases this

/-! ## A stop that comes in the middle of a request -/

theorem can_stopControl (cfg : Cfg) (s : Ctl) : ∃ tr s', Run (robot cfg) stopControl s tr (.ok true) s' ∧
    Ev.stop true ∈ tr ∧ Stopped s' := by
  have h : can (robot cfg) stopControl (fun o s' tr => o = .ok true ∧ Ev.stop true ∈ tr ∧ Stopped s') s [] := by
    rw [← Prog.bind_pure stopControl]
    exact can_stop' (by simp [can, Ctl.stopped, Stopped])
  obtain ⟨tr, o, s', hr, rfl, h⟩ := can_run h
  exact ⟨tr, s', hr, h⟩

/-- Client 0 has ordered a joint movement, everything else rests, and another client orders a stop. -/
noncomputable def ordering : Pool :=
  ⟨ready, stopControl, fun i => if i = 0 then Op.prog oneJoint (.movj [1, 0, 0, 0, 0, 0]) else .pure none, .pure (),
    .pure ()⟩

/-- C97 fails for movements ordered before: one client orders a joint movement, another one stops the robot while the
first request reads the joints, and the movement starts after the stop has been answered. -/
theorem C97_stopped_then_moved : ∃ (y z : Pool) (tr tr' : List (Party × Ev)),
    Pool.Steps oneJoint (fun _ => False) ordering tr y ∧ tr.head? = some (.other 0, .getEncoders (some [0])) ∧
    (Party.stopper, Ev.stop true) ∈ tr ∧ y.stopper = .pure true ∧ Stopped y.ctl ∧
    Pool.Steps oneJoint (fun _ => False) y tr' z ∧ (Party.other 0, Ev.positionMove [4] true) ∈ tr' ∧
    z.ctl.state = .movj ∧ z.others 0 = .pure (some true) := by
  obtain ⟨k, hk, hrest⟩ : ∃ k, Op.prog oneJoint (.movj [1, 0, 0, 0, 0, 0]) = .call .getEncoders k ∧
      ∀ s, can (robot oneJoint) (k (some [0])) (fun o s' tr => o = .ok (some true) ∧
        Ev.positionMove [4] true ∈ tr ∧ s'.state = .movj) s [] := by
    refine ⟨_, rfl, fun s => ?_⟩
    show can (robot oneJoint) (Prog.bind (Prog.bind (.pure (some [0])) _) _) _ _ _
    rw [Prog.pure_bind']
    can_simp
    refine ⟨some [4], ?_⟩
    can_simp
    refine Or.inr ⟨([2], true), ?_, Or.inl ⟨rfl, some [1], some_length rfl, ?_⟩⟩
    · norm_num [computeIsocronousSpeeds, isoDeltas, oneJoint, Option.bind_eq_bind]
    unfold setCurrentState
    can_simp
    refine ⟨true, Or.inl ⟨rfl, can_setModes' [.position] rfl (by simp) ?_⟩⟩
    can_simp
    exact Or.inl ⟨trivial, Or.inr ⟨[4], by simp [buffer, oneJoint], true, Or.inl ⟨rfl, by simp⟩⟩⟩
  obtain ⟨tr1, s1, hr1, hm1, hs1⟩ := can_stopControl oneJoint ready
  obtain ⟨tr2, o, s2, hr2, rfl, hm2, hs2⟩ := can_run (hrest s1)
  let os : ℕ → P (Option Bool) := fun i => if i = 0 then Op.prog oneJoint (.movj [1, 0, 0, 0, 0, 0]) else .pure none
  let os1 := Function.update os 0 (k (some [0]))
  obtain ⟨os2, h1, h2, -⟩ := other_steps (A := fun _ => False) hr2 (some true) rfl 0 (.pure true) os1 (.pure ()) (.pure ())
    (Function.update_self ..)
  refine ⟨⟨s1, .pure true, os1, .pure (), .pure ()⟩, ⟨s2, .pure true, os2, .pure (), .pure ()⟩, _, _,
    .step (l := some _) (other_one (l := some _) (os := os) (i := 0) hk (.call _ _ _ _ (some_length rfl)) _ _ _)
      (stopper_steps hr1 true rfl os1 (.pure ()) (.pure ())), rfl, ?_, rfl, hs1, h1, ?_, hs2, h2⟩
  · simpa using hm1
  · simpa using hm2

theorem stream_prefix {cfg : Cfg} {A : Op → Prop} {p : P Unit} {s s' : Ctl} {tr : List Ev} {o : Out Unit}
    (h : Run (robot cfg) p s tr o s') : ∀ pre e post, tr = pre ++ e :: post → ∀ u os lp, ∃ s1 p1 p2,
      Pool.Steps cfg A ⟨s, u, os, p, lp⟩ (pre.map fun e => (Party.stream, e)) ⟨s1, u, os, p1, lp⟩ ∧
      ∀ s2, Step (robot cfg) p1 s2 (some e) p2 s2 := by
  induction h with
  | pure a s => intro pre e post h; simp at h
  | ub s => intro pre e post h; simp at h
  | get _ ih =>
    intro pre e post h u os lp
    obtain ⟨s1, p1, p2, h1, h2⟩ := ih pre e post h u os lp
    exact ⟨s1, p1, p2, .step (l := none) (.stream (.get _ _)) h1, h2⟩
  | set _ ih =>
    intro pre e post h u os lp
    obtain ⟨s1, p1, p2, h1, h2⟩ := ih pre e post h u os lp
    exact ⟨s1, p1, p2, .step (l := none) (.stream (.set _ _ _)) h1, h2⟩
  | @call c k s _ _ _ r hr _ ih =>
    intro pre e post h u os lp
    cases pre with
    | nil =>
      simp only [List.nil_append, List.cons.injEq] at h
      exact ⟨s, .call c k, k r, .refl _, fun s2 => h.1 ▸ .call _ _ _ _ hr⟩
    | cons e' pre =>
      simp only [List.cons_append, List.cons.injEq] at h
      obtain ⟨s1, p1, p2, h1, h2⟩ := ih pre e post h.2 u os lp
      exact ⟨s1, p1, p2, h.1 ▸ .step (l := some _) (.stream (l := some _) (.call _ _ _ _ hr)) h1, h2⟩

/-- A velocity is streamed, everything else rests, and a client orders a stop. -/
noncomputable def commanding : Pool :=
  ⟨streamingOf vocabTwist, stopControl, fun _ => .pure none, twist oneJoint [1, 0, 0, 0, 0, 0], .pure ()⟩

/-- The bound is reached by the stream too: a streamed velocity is sent to the joints after the stop has been answered,
and nothing stops them again. -/
theorem C97_streamed_after_stop : ∃ (y z : Pool) (tr : List (Party × Ev)),
    Busy oneJoint commanding ∧ Pool.Steps oneJoint Harmless commanding tr y ∧ (Party.stopper, Ev.stop true) ∈ tr ∧
    y.stopper = .pure true ∧ Stopped y.ctl ∧
    Pool.Steps oneJoint Harmless y [(.stream, .velocityMove [3] true)] z := by
  have h : can (robot oneJoint) (twist oneJoint [1, 0, 0, 0, 0, 0]) (fun o _ tr => o = .ok () ∧
      Ev.velocityMove [3] true ∈ tr) (streamingOf vocabTwist) [] := by
    unfold twist streamingReady getCurrentState checkControlModes twistBody
    can_simp
    refine Or.inr ⟨by simp [streamingOf, ready, Ctl.initial], Or.inl ⟨by simp [streamingOf], some [.velocity],
      some_length rfl, ?_⟩⟩
    can_simp
    refine Or.inl ⟨by simp, some [0], some_length rfl, ?_⟩
    can_simp
    refine ⟨some [3], ?_⟩
    can_simp
    refine Or.inr ⟨true, (checkJointLimitsDir_iff _ _ _).mpr ?_, Or.inl ⟨rfl, Or.inr ⟨true,
      (checkJointVelocities_iff _ _).mpr ?_, Or.inl ⟨rfl, Or.inr ⟨[3], by simp [buffer, oneJoint], true,
        Or.inl ⟨trivial, trivial, by simp⟩⟩⟩⟩⟩⟩
    · intro j hj
      obtain ⟨v, lo, hi, h1, h2, h3, h4⟩ := oneJoint_inLimits (v := 0) (by norm_num) (by norm_num) j hj
      exact ⟨v, lo, hi, h1, h2, h3, Or.inl h4⟩
    · exact oneJoint_inVelLimits (by norm_num)
  obtain ⟨tr, o, s', hr, rfl, hm⟩ := can_run h
  obtain ⟨pre, post, rfl⟩ := List.append_of_mem hm
  obtain ⟨s1, p1, p2, h1, h2⟩ := stream_prefix (A := Harmless) hr pre _ post rfl stopControl (fun _ => .pure none)
    (.pure ())
  obtain ⟨tr1, s2, hr1, hm1, hs1⟩ := can_stopControl oneJoint s1
  refine ⟨⟨s2, .pure true, fun _ => .pure none, p1, .pure ()⟩, ⟨s2, .pure true, fun _ => .pure none, p2, .pure ()⟩, _,
    ⟨fun _ => .rest _, .start (.twist _), .rest⟩, h1.trans (stopper_steps hr1 true rfl _ _ _), ?_, rfl, hs1,
    .step (l := some _) (.stream (l := some _) (h2 s2)) (.refl _)⟩
  simpa using hm1

/-- The hypotheses of the two theorems are met: a linear movement is stopped, a velocity is streamed afterwards, and a
client asks where the tool is. -/
example : ∃ (x y z : Pool) (tr tr' : List (Party × Ev)), Busy oneJoint x ∧ x.stopper = stopControl ∧
    x.ctl.state = .movl ∧ Pool.Steps oneJoint Harmless x tr y ∧ y.stopper = .pure true ∧ y.stream = .pure () ∧
    y.loop = .pure () ∧ Pool.Steps oneJoint Harmless y tr' z ∧ tr'.head? = some (.other 3, .getEncoders none) ∧
    z.stream = twist oneJoint [1, 0, 0, 0, 0, 0] := by
  obtain ⟨tr1, s1, hr1, hm1, hs1⟩ := can_stopControl oneJoint midMovl
  have h : can (robot oneJoint) (Op.prog oneJoint .stat) (fun o s' tr => o = .ok none ∧
      tr = [.getEncoders none]) s1 [] := by
    show can (robot oneJoint) (Prog.bind (stat) _) _ _ _
    unfold stat
    can_simp
    refine ⟨none, by simp, ?_⟩
    can_simp
    simp
  obtain ⟨tr, o, s', hr, rfl, h⟩ := can_run h
  obtain ⟨os', h1, -, -⟩ := other_steps (A := Harmless) hr _ rfl 3 (.pure true)
    (Function.update (fun _ => .pure none) 3 (Op.prog oneJoint .stat)) (twist oneJoint [1, 0, 0, 0, 0, 0]) (.pure ())
    (Function.update_self ..)
  refine ⟨⟨midMovl, stopControl, fun _ => .pure none, .pure (), .pure ()⟩, _, _, _, _,
    ⟨fun _ => .rest _, .rest, .rest⟩, rfl, rfl, stopper_steps hr1 true rfl _ _ _, rfl, rfl, rfl,
    .step (.message (.twist _)) (.step (.ask (i := 3) (op := .stat) rfl trivial) h1), ?_, rfl⟩
  simp at h
  simp [h]

end KD.Ctrl
