import Verif.Ctrl.Contract
import Verif.Props.Limits
import Verif.Props.LookAhead

/-!
# C44: commands and the sizes of their vectors
-/

namespace KD.Ctrl

open scoped Classical
open Prog (wp wp_bind wp_of_run wp_sound can can_bind can_run Run)

/-- All of them. -/
def SizedAnswers (cfg : Cfg) (tr : List Ev) : Prop := ∀ e ∈ tr, SizedAnswer cfg e

/-- A configuration the controller can work with: limits and reference speeds for every joint and, if
the look-ahead is enabled, at most six joints per end effector. -/
structure Workable (cfg : Cfg) : Prop where
  limits : ValidLimits cfg
  speeds : cfg.qRefSpeeds.length = cfg.numJoints
  lookAhead : cfg.enableFailFast = true → cfg.numJoints ≤ 6 * cfg.numTcps

/-- The commands with vectors that are not too long: six elements per end effector. -/
def Op.SizeOk (cfg : Cfg) : Op → Prop
  | .relj xd => xd.length ≤ 6 * cfg.numTcps
  | .movl xd => xd.length / 6 ≤ cfg.numTcps
  | .movv xd => xd.length / 6 ≤ cfg.numTcps
  | .setParameter _ _ => False
  | .setParameters _ => False
  | .cycle => False
  | _ => True

theorem buffer_ne_none {cfg : Cfg} {l : List ℝ} (h : cfg.numJoints ≤ l.length) : buffer cfg l ≠ none := by
  unfold buffer
  rw [if_neg (by omega)]
  simp

theorem isoDeltas_defined {cfg : Cfg} {q qd : List ℝ} (h1 : cfg.numJoints ≤ q.length)
    (h2 : cfg.numJoints ≤ qd.length) (h3 : cfg.qRefSpeeds.length = cfg.numJoints) (k j : ℕ) (m : ℝ)
    (h : j + k ≤ cfg.numJoints) : (isoDeltas cfg q qd j k m).isSome := by
  induction k generalizing j m with
  | zero => rfl
  | succ k ih =>
    have e1 : cfg.qRefSpeeds[j]? = some cfg.qRefSpeeds[j] := List.getElem?_eq_getElem (by omega)
    have e2 : q[j]? = some q[j] := List.getElem?_eq_getElem (by omega)
    have e3 : qd[j]? = some qd[j] := List.getElem?_eq_getElem (by omega)
    unfold isoDeltas
    simp only [e1, e2, e3, Option.bind_eq_bind, Option.bind_some]
    split
    · obtain ⟨x, hx⟩ := Option.isSome_iff_exists.mp (ih (j + 1) m (by omega))
      simp [hx]
    · obtain ⟨x, hx⟩ := Option.isSome_iff_exists.mp (ih (j + 1)
        (if |qd[j] - q[j]| / cfg.qRefSpeeds[j] > m then |qd[j] - q[j]| / cfg.qRefSpeeds[j] else m) (by omega))
      simp [hx]

theorem iso_defined {cfg : Cfg} {q qd : List ℝ} (h1 : cfg.numJoints ≤ q.length)
    (h2 : cfg.numJoints ≤ qd.length) (h3 : cfg.qRefSpeeds.length = cfg.numJoints) :
    computeIsocronousSpeeds cfg q qd ≠ none := by
  unfold computeIsocronousSpeeds
  obtain ⟨x, hx⟩ := Option.isSome_iff_exists.mp (isoDeltas_defined h1 h2 h3 cfg.numJoints 0 0 (by omega))
  simp only [hx, Option.bind_eq_bind, Option.bind_some]
  split <;> simp

/-- A program does not end in undefined behaviour if the solver answers properly. -/
def Defined (cfg : Cfg) {α : Type} (p : P α) (s : Ctl) : Prop :=
  ∀ pre, wp (robot cfg) p (fun o _ tr => SizedAnswers cfg tr → o ≠ .ub) s pre

theorem Defined.run {cfg : Cfg} {α : Type} {p : P α} {s s' : Ctl} {tr : List Ev} {o : Out α}
    (h : Defined cfg p s) (hr : Exec cfg p s tr o s') (hs : SizedAnswers cfg tr) : o ≠ .ub :=
  wp_sound (h []) hr hs

theorem Defined.bind {cfg : Cfg} {α β : Type} {p : P α} {k : α → P β} {s : Ctl}
    (h : Defined cfg p s) (hk : ∀ a, ∃ b, k a = Prog.pure b) : Defined cfg (Prog.bind p k) s := by
  intro pre
  rw [wp_bind]
  refine Prog.wp_mono ?_ (h pre)
  intro o s' tr ho
  rcases o with a | _
  · obtain ⟨b, hb⟩ := hk a
    simp only [Prog.Out.andThen]
    rw [hb]
    intro _; simp
  · exact fun hs => absurd rfl (ho hs)

theorem SizedAnswers.of_mem {cfg : Cfg} {tr : List Ev} (h : SizedAnswers cfg tr) {e : Ev} (he : e ∈ tr) :
    SizedAnswer cfg e := h e he

theorem defined_movj {cfg : Cfg} (hc : Workable cfg) (xd : List ℝ) (s : Ctl) : Defined cfg (movj cfg xd) s := by
  intro pre
  unfold movj setCurrentState
  dev_simp
  refine ⟨by simp, fun q hq => ⟨by simp, fun qd => ⟨fun hn => ?_, fun a ha => ⟨fun hm => ⟨by simp,
    fun refs hr ok => ⟨fun hok => wp_setModes fun b es hes _ => ?_, by simp⟩⟩, by simp⟩⟩⟩⟩
  · intro hs
    have : qd.length = cfg.numJoints := hs (.invKin xd q s.frame (some qd)) (by simp)
    exact absurd hn (iso_defined hq.ge this.ge hc.speeds)
  · dev_simp
    refine ⟨fun hb => ⟨fun hn => ?_, fun target ht r => ⟨by simp, by simp⟩⟩, by simp⟩
    intro hs
    have : qd.length = cfg.numJoints := hs (.invKin xd q s.frame (some qd)) (by simp)
    exact absurd hn (buffer_ne_none this.ge)

theorem addPrefix_defined {x d : List ℝ} (h : d.length ≤ x.length) : addPrefix x d ≠ none := by
  induction d generalizing x with
  | nil => unfold addPrefix; simp
  | cons a d ih =>
    rcases x with _ | ⟨b, x⟩
    · simp at h
    · simp [addPrefix, ih (x := x) (by simpa using h)]

theorem defined_relj {cfg : Cfg} (hc : Workable cfg) {xd : List ℝ} (hx : xd.length ≤ 6 * cfg.numTcps) (s : Ctl) :
    Defined cfg (relj cfg xd) s := by
  intro pre
  unfold relj
  dev_simp
  refine ⟨fun _ => defined_movj hc xd s pre, fun _ => ⟨by simp, fun q hq => ⟨by simp, fun x => ⟨fun hn => ?_,
    fun x' _ => defined_movj hc x' s _⟩⟩⟩⟩
  intro hs
  have : x.length = 6 * cfg.numTcps := hs (.fwdKin q (some x)) (by simp)
  exact absurd hn (addPrefix_defined (by omega))

theorem lineTrajs_defined {cfg : Cfg} {d : ℝ} {a b : List ℝ} (k i : ℕ) (h1 : (i + k) * 6 ≤ a.length)
    (h2 : (i + k) * 6 ≤ b.length) : lineTrajs cfg d a b i k ≠ none := by
  induction k generalizing i with
  | zero => simp [lineTrajs]
  | succ k ih =>
    obtain ⟨x, hx⟩ := Option.ne_none_iff_exists'.mp (ih (i + 1) (by omega) (by omega))
    simp [lineTrajs, slice, hx, show ¬a.length < (i + 1) * 6 by omega, show ¬b.length < (i + 1) * 6 by omega]

theorem rayTrajs_defined {cfg : Cfg} {a b : List ℝ} (k i : ℕ) (h1 : (i + k) * 6 ≤ a.length)
    (h2 : (i + k) * 6 ≤ b.length) : rayTrajs cfg a b i k ≠ none := by
  induction k generalizing i with
  | zero => simp [rayTrajs]
  | succ k ih =>
    obtain ⟨x, hx⟩ := Option.ne_none_iff_exists'.mp (ih (i + 1) (by omega) (by omega))
    simp [rayTrajs, slice, hx, show ¬a.length < (i + 1) * 6 by omega, show ¬b.length < (i + 1) * 6 by omega]

theorem displacement_length {a b c d : List ℝ} (h : displacement a b c = some d) : d.length = c.length := by
  unfold displacement at h
  split at h
  · rw [← Option.some.inj h]
    simp; omega
  · simp at h

theorem defined_failFastLoop {cfg : Cfg} (hc : Workable cfg) (hff : cfg.enableFailFast = true) {ts : List Traj}
    (times oldQ qdot : List ℝ) (h1 : oldQ.length = cfg.numJoints) (h2 : qdot.length = cfg.numTcps * 6) (s : Ctl) :
    Defined cfg (failFastLoop cfg ts times oldQ qdot) s := by
  induction times generalizing oldQ qdot with
  | nil => intro pre _; simp
  | cons t times ih =>
    intro pre
    unfold failFastLoop
    dev_simp
    have hj := hc.lookAhead hff
    have get : ∀ {newQ : List ℝ} {tr : List Ev}, SizedAnswers cfg tr →
        Ev.invKin (posesAt ts t) oldQ .base (some newQ) ∈ tr → newQ.length = cfg.numJoints :=
      fun hs he => hs _ he
    refine ⟨by simp, fun newQ => ⟨fun h hs => ?_, fun qdot' hd => ⟨fun h hs => ?_, fun ok1 _ => ⟨fun _ =>
      ⟨fun h hs => ?_, fun ok2 _ => ⟨fun _ => wp_of_run fun tr o s' hr hs => ?_, by simp⟩⟩, by simp⟩⟩⟩⟩
    all_goals have hn := get hs (newQ := newQ) (by simp)
    · unfold displacement at h
      rw [if_pos (by omega)] at h
      simp at h
    · have := (C40_checks_defined_partial hc.limits (q := newQ) (v := newQ) hn.ge hn.ge).1
      simp [h] at this
    · have := (C40_checks_defined_partial hc.limits (q := newQ) (v := qdot') hn.ge
        (by rw [displacement_length hd]; omega)).2.2
      simp [h] at this
    · exact (ih newQ qdot' hn (by rw [displacement_length hd, h2])).run hr
        fun e he => hs e (List.mem_append_right _ he)

theorem defined_movlStart {cfg : Cfg} (hc : Workable cfg) (q : List ℝ) (hq : q.length = cfg.numJoints) (s : Ctl)
    (hp : 0 < s.period) : Defined cfg (movlStart cfg q) s := by
  have key : ∀ (ok : Bool) (tr : List Ev), wp (robot cfg) (do
      if ok then
        if ← setControlModes (movlMode cfg) then
          let (t : ℝ) ← Dev.now
          Prog.modify fun s => { s with movementStartTime := t }
          Prog.modify fun s => { s with cmcSuccess := true }
          setCurrentState .movl
          return true
        else return false
      else return false)
      (fun o _ tr => SizedAnswers cfg tr → o ≠ .ub) s tr := by
    intro ok tr
    unfold setCurrentState
    dev_simp
    refine ⟨fun _ => wp_setModes fun b es _ _ => ?_, by simp⟩
    dev_simp
    exact ⟨by simp, by simp⟩
  intro pre
  unfold movlStart
  dsimp only
  split
  · rename_i hff
    rw [Prog.bind_eq, wp_bind]
    have hd : Defined cfg (doFailFastChecks cfg q) s := by
      intro pre
      unfold doFailFastChecks
      dev_simp
      refine ⟨by simp, fun _ => ⟨fun h => absurd hp (not_lt.mpr h), fun _ =>
        defined_failFastLoop hc hff _ _ _ hq (by simp) _ _⟩⟩
    refine wp_of_run fun tr o s' hr => ?_
    obtain ⟨rfl, -, -⟩ := run_failFast hr
    rcases o with ok | _
    · exact key ok _
    · intro hs _
      exact hd.run hr (fun e he => hs e (by simp [he])) rfl
  · exact key true pre

theorem defined_movl {cfg : Cfg} (hc : Workable cfg) {xd : List ℝ} (hx : xd.length / 6 ≤ cfg.numTcps) (s : Ctl)
    (hp : 0 < s.period) : Defined cfg (movl cfg xd) s := by
  have key : ∀ q ts pre, q.length = cfg.numJoints → wp (robot cfg) (movlStart cfg q)
      (fun o _ tr => SizedAnswers cfg tr → o ≠ .ub) { s with trajectories := ts } pre :=
    fun q ts pre hq => defined_movlStart hc q hq { s with trajectories := ts } hp pre
  intro pre
  unfold movl
  dev_simp
  refine ⟨by simp, fun q hq => ⟨by simp, fun x => ⟨fun _ => ⟨by simp, fun l => ⟨fun h => ?_, fun ts _ =>
    key q ts _ hq⟩⟩, fun _ => ⟨fun h => ?_, fun ts _ => key q ts _ hq⟩⟩⟩⟩
  · intro hs
    have h1 : x.length = 6 * cfg.numTcps := hs (.fwdKin q (some x)) (by simp)
    have h2 : l.length = 6 * cfg.numTcps := hs (.changeOrigin xd x (some l)) (by simp)
    exact absurd h (lineTrajs_defined _ _ (by omega) (by omega))
  · intro hs
    have h1 : x.length = 6 * cfg.numTcps := hs (.fwdKin q (some x)) (by simp)
    exact absurd h (lineTrajs_defined _ _ (by omega) (by omega))

theorem defined_movv {cfg : Cfg} {xd : List ℝ} (hx : xd.length / 6 ≤ cfg.numTcps) (s : Ctl) :
    Defined cfg (movv cfg xd) s := by
  intro pre
  unfold movv setCurrentState
  dev_simp
  refine ⟨by simp, fun q hq => ⟨by simp, fun x => ⟨fun h => ?_, fun ts _ => wp_setModes fun b es _ _ => ?_⟩⟩⟩
  · intro hs
    have h1 : x.length = 6 * cfg.numTcps := hs (.fwdKin q (some x)) (by simp)
    exact absurd h (rayTrajs_defined _ _ (by omega) (by omega))
  · dev_simp
    exact ⟨by simp, by simp⟩

/-- Programs without undefined operations. -/
theorem defined_of_ok {cfg : Cfg} {α : Type} {p : P α} {s : Ctl}
    (h : ∀ pre, wp (robot cfg) p (fun o _ _ => o ≠ .ub) s pre) : Defined cfg p s :=
  fun pre => Prog.wp_mono (Q' := fun o _ tr => SizedAnswers cfg tr → o ≠ .ub) (fun _ _ _ h _ => h) (h pre)

theorem streaming_same {cfg : Cfg} {cmds : List ℤ} {mode : Mode} {s s' : Ctl} {tr : List Ev} {o : Out Bool}
    (h : Exec cfg (streamingReady cmds mode) s tr o s') : (∃ b, o = .ok b) ∧ s' = s := by
  refine wp_sound (Q := fun o s' _ => (∃ b, o = .ok b) ∧ s' = s) ?_ h
  unfold streamingReady getCurrentState checkControlModes
  dev_simp
  simp

theorem defined_stream {cfg : Cfg} {cmds : List ℤ} {mode : Mode} {s : Ctl} {α : Type} {k : Bool → P α}
    (hk : ∀ b, Defined cfg (k b) s) : Defined cfg (Prog.bind (streamingReady cmds mode) k) s := by
  intro pre
  rw [wp_bind]
  refine wp_of_run fun tr o s' hr => ?_
  obtain ⟨⟨b, rfl⟩, rfl⟩ := streaming_same hr
  exact hk b _

theorem defined_pose {cfg : Cfg} (hc : Workable cfg) (x : List ℝ) (s : Ctl) : Defined cfg (pose cfg x) s := by
  unfold pose
  refine defined_stream fun b => ?_
  intro pre
  dev_simp
  have get : ∀ {q sol : List ℝ} {tr : List Ev}, SizedAnswers cfg tr →
      Ev.invKin x q s.frame (some sol) ∈ tr → sol.length = cfg.numJoints := fun hs he => hs _ he
  refine ⟨fun _ => ⟨by simp, fun q hq => ⟨by simp, fun sol => ⟨fun h hs => ?_, fun d hd => ⟨fun h hs => ?_, fun b2 _ =>
    ⟨fun _ => ⟨fun h hs => ?_, by simp⟩, by simp⟩⟩⟩⟩⟩, by simp⟩
  all_goals have hn := get hs (q := q) (sol := sol) (by simp)
  · simp [jointDiff, hn, hq] at h
  · have hd' : d.length = cfg.numJoints := by
      simp [jointDiff, hn, hq] at hd
      rw [← hd]
      simp [hn, hq]
    have := (C40_checks_defined_partial hc.limits (q := q) (v := d) hq.ge hd'.ge).2.1
    simp [h] at this
  · exact absurd h (buffer_ne_none hn.ge)

theorem defined_twist {cfg : Cfg} (hc : Workable cfg) (x : List ℝ) (s : Ctl) : Defined cfg (twist cfg x) s := by
  unfold twist
  refine defined_stream fun b => ?_
  intro pre
  unfold twistBody
  dev_simp
  have get : ∀ {q sol : List ℝ} {tr : List Ev}, SizedAnswers cfg tr →
      Ev.diffInvKin q x s.frame (some sol) ∈ tr → sol.length = cfg.numJoints := fun hs he => hs _ he
  refine ⟨fun _ => ⟨by simp, fun q hq => ⟨by simp, fun sol => ⟨fun h hs => ?_, fun b1 _ => ⟨fun _ => ⟨fun h hs => ?_,
    fun b2 _ => ⟨fun _ => ⟨fun h hs => ?_, by simp⟩, by simp⟩⟩, by simp⟩⟩⟩⟩, by simp⟩
  all_goals
    have hn := get hs (q := q) (sol := sol) (by simp)
    have hdef := C40_checks_defined_partial hc.limits (q := q) (v := sol) hq.ge hn.ge
  · simp [h] at hdef
  · simp [h] at hdef
  · exact absurd h (buffer_ne_none hn.ge)

theorem defined_wrench {cfg : Cfg} (hc : Workable cfg) (w : List ℝ) (s : Ctl) : Defined cfg (wrench cfg w) s := by
  unfold wrench
  refine defined_stream fun b => ?_
  intro pre
  unfold wrenchBody
  dev_simp
  refine ⟨fun _ => ⟨by simp, fun q hq => ⟨by simp, fun v hv => ⟨by simp, fun a ha => ⟨fun h => ?_, fun b1 _ =>
    ⟨fun _ => ⟨by simp, fun sol => ⟨fun h => ?_, by simp⟩⟩, by simp⟩⟩⟩⟩⟩, by simp⟩
  · have hdef := C40_checks_defined_partial hc.limits (q := q) (v := q) hq.ge hq.ge
    simp [h] at hdef
  · intro hs
    have hn : sol.length = cfg.numJoints := hs (.invDyn q v a (w.map fun v => -v) s.frame (some sol)) (by simp)
    exact absurd h (buffer_ne_none hn.ge)

theorem defined_waitLoop {cfg : Cfg} (t t0 : ℝ) (n : ℕ) (st : CState) (s : Ctl) :
    Defined cfg (waitLoop t t0 n st) s := by
  induction n generalizing st s with
  | zero => intro pre _; simp
  | succ n ih =>
    intro pre
    unfold waitLoop getCurrentState
    dev_simp
    refine ⟨by simp, fun _ => ⟨fun _ b => ⟨fun _ => wp_stop' fun es r _ => ?_, fun _ _ => ih _ _ _⟩, fun _ =>
      ⟨by simp, fun _ _ => ih _ _ _⟩⟩⟩
    dev_simp
    simp

/-- Commands with vectors of at most six elements per end effector do not access memory outside of any
vector, whatever the joint devices answer, if the solver answers with vectors of the sizes that it
promises. For all commands but those of parameters. Partial: not whatever the size of the vectors. -/
theorem C44_commands_defined_partial {cfg : Cfg} (hc : Workable cfg) {op : Op} (hop : op.SizeOk cfg)
    {s s' : Ctl} (hp : 0 < s.period) {tr : List Ev} {o : Out (Option Bool)}
    (h : Exec cfg (op.prog cfg) s tr o s') (hs : SizedAnswers cfg tr) : o ≠ .ub := by
  refine Defined.run ?_ h hs
  clear h hs
  cases op
  case stat =>
    refine Defined.bind (defined_of_ok fun pre => ?_) fun a => ⟨_, rfl⟩
    unfold stat getCurrentState
    dev_simp
    simp
  case inv =>
    refine Defined.bind (defined_of_ok fun pre => ?_) fun a => ⟨_, rfl⟩
    unfold inv
    dev_simp
    refine ⟨by simp, fun q _ => ?_⟩
    rw [← Prog.bind_pure (Dev.invKin _ _ _), ← Prog.bind_eq]
    dev_simp
    simp
  case movj => exact Defined.bind (defined_movj hc _ s) fun a => ⟨_, rfl⟩
  case relj => exact Defined.bind (defined_relj hc hop s) fun a => ⟨_, rfl⟩
  case movl => exact Defined.bind (defined_movl hc hop s hp) fun a => ⟨_, rfl⟩
  case movv => exact Defined.bind (defined_movv hop s) fun a => ⟨_, rfl⟩
  case gcmp =>
    refine Defined.bind (defined_of_ok fun pre => ?_) fun a => ⟨_, rfl⟩
    unfold gcmp setCurrentState
    dev_simp
    refine wp_setModes fun b es _ _ => ?_
    dev_simp
    simp
  case forc =>
    refine Defined.bind (defined_of_ok fun pre => ?_) fun a => ⟨_, rfl⟩
    unfold forc setCurrentState
    dev_simp
    refine ⟨by simp, fun _ => wp_setModes fun b es _ _ => ?_⟩
    dev_simp
    simp
  case stopControl =>
    refine defined_of_ok fun pre => wp_stop' fun es r _ => ?_
    dev_simp
    simp
  case wait t n =>
    refine fun pre => ?_
    unfold Op.prog wait getCurrentState
    dev_simp
    exact ⟨by simp, fun _ b => defined_waitLoop t b n _ _ _⟩
  case tool =>
    refine Defined.bind (defined_of_ok fun pre => ?_) fun a => ⟨_, rfl⟩
    unfold tool
    dev_simp
    refine fun b => ⟨fun _ => ?_, by simp⟩
    rw [← Prog.bind_pure (Dev.appendLink _), ← Prog.bind_eq]
    dev_simp
    simp
  case pose => exact Defined.bind (defined_pose hc _ s) fun a => ⟨_, rfl⟩
  case twist => exact Defined.bind (defined_twist hc _ s) fun a => ⟨_, rfl⟩
  case wrench => exact Defined.bind (defined_wrench hc _ s) fun a => ⟨_, rfl⟩
  case setParameter => exact hop.elim
  case setParameters => exact hop.elim
  case getParameter =>
    refine Defined.bind (defined_of_ok fun pre => ?_) fun a => ⟨_, rfl⟩
    unfold getParameter
    dev_simp
    simp
  case cycle => exact hop.elim

/-- The hypotheses are met. -/
example : Workable oneJoint ∧ Op.SizeOk oneJoint (.movl [1, 2, 3, 0, 0, 0]) ∧ 0 < ready.period :=
  ⟨⟨oneJoint_valid, rfl, fun h => by simp [oneJoint] at h⟩, by simp [Op.SizeOk, oneJoint],
    by norm_num [ready, Ctl.initial]⟩

theorem addPrefix_none {x d : List ℝ} (h : x.length < d.length) : addPrefix x d = none := by
  induction d generalizing x with
  | nil => simp at h
  | cons a d ih =>
    rcases x with _ | ⟨b, x⟩
    · rfl
    · simp [addPrefix, ih (x := x) (by simpa using h)]

/-- `relj` in the base frame with a vector longer than the pose of the robot writes outside of it. -/
theorem C44_relj_too_long {cfg : Cfg} {s : Ctl} (hf : s.frame = .base) {xd q x : List ℝ}
    (hq : q.length = cfg.numJoints) (hx : x.length = 6 * cfg.numTcps) (hlong : 6 * cfg.numTcps < xd.length) :
    Exec cfg (relj cfg xd) s [.getEncoders (some q), .fwdKin q (some x)] .ub s := by
  have : can (robot cfg) (relj cfg xd) (fun o s' tr => o = .ub ∧ s' = s ∧
      tr = [.getEncoders (some q), .fwdKin q (some x)]) s [] := by
    unfold relj
    can_simp
    refine Or.inr ⟨by simp [hf], some q, some_length hq, ?_⟩
    can_simp
    refine ⟨some x, ?_⟩
    can_simp
    exact Or.inl ⟨addPrefix_none (by omega), by simp⟩
  obtain ⟨tr, o, s', hr, rfl, rfl, rfl⟩ := can_run this
  exact hr

theorem lineTrajs_none {cfg : Cfg} {d : ℝ} {a b : List ℝ} (k i : ℕ) (h1 : a.length < (i + k) * 6) (hk : 0 < k) :
    lineTrajs cfg d a b i k = none := by
  induction k generalizing i with
  | zero => omega
  | succ k ih =>
    by_cases ha : a.length < (i + 1) * 6
    · simp [lineTrajs, slice, ha]
    · have : 0 < k := by
        rcases k with _ | k
        · exact absurd h1 (by simpa using ha)
        · omega
      simp [lineTrajs, ih (i + 1) (by omega) this]

theorem rayTrajs_none {cfg : Cfg} {a b : List ℝ} (k i : ℕ) (h1 : a.length < (i + k) * 6) (hk : 0 < k) :
    rayTrajs cfg a b i k = none := by
  induction k generalizing i with
  | zero => omega
  | succ k ih =>
    by_cases ha : a.length < (i + 1) * 6
    · simp [rayTrajs, slice, ha]
    · have : 0 < k := by
        rcases k with _ | k
        · exact absurd h1 (by simpa using ha)
        · omega
      simp [rayTrajs, ih (i + 1) (by omega) this]

/-- `movl` in the base frame with six elements more than one per end effector reads outside of the
current pose. -/
theorem C44_movl_too_long {cfg : Cfg} {s : Ctl} (hf : s.frame = .base) {xd q x : List ℝ}
    (hq : q.length = cfg.numJoints) (hx : x.length = 6 * cfg.numTcps) (hlong : cfg.numTcps < xd.length / 6) :
    ∃ s', Exec cfg (movl cfg xd) s [.getEncoders (some q), .fwdKin q (some x)] .ub s' := by
  have : can (robot cfg) (movl cfg xd) (fun o s' tr => o = .ub ∧
      tr = [.getEncoders (some q), .fwdKin q (some x)]) s [] := by
    unfold movl
    can_simp
    refine ⟨some q, some_length hq, ?_⟩
    can_simp
    refine ⟨some x, ?_⟩
    can_simp
    exact Or.inr ⟨by simp [hf], Or.inl ⟨lineTrajs_none _ _ (by omega) (by omega), by simp⟩⟩
  obtain ⟨tr, o, s', hr, rfl, rfl⟩ := can_run this
  exact ⟨s', hr⟩

/-- The same for `movv`, in any frame. -/
theorem C44_movv_too_long {cfg : Cfg} {s : Ctl} {xd q x : List ℝ}
    (hq : q.length = cfg.numJoints) (hx : x.length = 6 * cfg.numTcps) (hlong : cfg.numTcps < xd.length / 6) :
    ∃ s', Exec cfg (movv cfg xd) s [.getEncoders (some q), .fwdKin q (some x)] .ub s' := by
  have : can (robot cfg) (movv cfg xd) (fun o s' tr => o = .ub ∧
      tr = [.getEncoders (some q), .fwdKin q (some x)]) s [] := by
    unfold movv
    can_simp
    refine ⟨some q, some_length hq, ?_⟩
    can_simp
    refine ⟨some x, ?_⟩
    can_simp
    exact Or.inl ⟨rayTrajs_none _ _ (by omega) (by omega), by simp⟩
  obtain ⟨tr, o, s', hr, rfl, rfl⟩ := can_run this
  exact ⟨s', hr⟩

end KD.Ctrl
