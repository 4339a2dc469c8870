import Verif.Ctrl.Witness
import Verif.Ctrl.Threads

/-!
# Building executions of both threads
-/

namespace KD.Ctrl

open Prog (Step Run can can_run)

variable {cfg : Cfg} {α β : Type}

theorem steps_of_loop {s s' : Ctl} {lp lp' : P Unit} {es : List Ev} (h : LoopSteps cfg s lp es s' lp') (u : P α) :
    Sys.Steps cfg ⟨s, u, lp⟩ (byLoop es) ⟨s', u, lp'⟩ := by
  induction h with
  | refl => exact .refl _
  | @step s lp l s1 lp1 es s' lp' hs _ ih =>
    have := Sys.Steps.step (Sys.Step.loop (u := u) hs) ih
    have e := byLoop_step l [] es
    simp only [List.nil_append] at e
    rw [e]
    exact this

theorem loop_get {k : Ctl → P Unit} {s s' : Ctl} {lp' : P Unit} {es : List Ev} (h : LoopSteps cfg s (k s) es s' lp') :
    LoopSteps cfg s (.get k) es s' lp' := .step (l := none) (.step (.get _ _)) h

theorem loop_set {f : Ctl → Ctl} {k : P Unit} {s s' : Ctl} {lp' : P Unit} {es : List Ev}
    (h : LoopSteps cfg (f s) k es s' lp') : LoopSteps cfg s (.set f k) es s' lp' :=
  .step (l := none) (.step (.set _ _ _)) h

theorem loop_call {c : Call} {k : c.Resp → P Unit} {s s' : Ctl} {lp' : P Unit} {es : List Ev} (r : c.Resp)
    (hr : (robot cfg).wf c r) (h : LoopSteps cfg s (k r) es s' lp') :
    LoopSteps cfg s (.call c k) ((robot cfg).ev c r :: es) s' lp' :=
  .step (l := some _) (.step (.call _ _ _ r hr)) h

theorem loop_run {p : P β} {k : β → P Unit} {s s1 s' : Ctl} {lp' : P Unit} {tr es : List Ev} {a : β}
    (hr : Run (robot cfg) p s tr (.ok a) s1) (h : LoopSteps cfg s1 (k a) es s' lp') :
    LoopSteps cfg s (p.bind k) (tr ++ es) s' lp' := by
  generalize ho : Out.ok a = o at hr
  induction hr with
  | pure b s => cases ho; exact h
  | ub => cases ho
  | get _ ih => exact loop_get (ih h ho)
  | set _ ih => exact loop_set (ih h ho)
  | call hr _ ih => exact loop_call _ hr (ih h ho)

theorem user_run {p : P β} {k : β → P α} {s s1 : Ctl} {lp : P Unit} {tr : List Ev} {a : β}
    (hr : Run (robot cfg) p s tr (.ok a) s1) :
    Sys.Steps cfg ⟨s, p.bind k, lp⟩ (tr.map fun e => (Who.user, e)) ⟨s1, k a, lp⟩ := by
  generalize ho : Out.ok a = o at hr
  induction hr with
  | pure b s => cases ho; exact .refl _
  | ub => cases ho
  | get _ ih => exact .step (l := none) (.user (.get _ _)) (ih ho)
  | set _ ih => exact .step (l := none) (.user (.set _ _ _)) (ih ho)
  | call hr _ ih => exact .step (l := some _) (.user (.call _ _ _ _ hr)) (ih ho)

/-- What follows the part of a cycle that is watched. -/
noncomputable def afterBody (b : Bool) : P Unit :=
  if b = true then .pure () else .set (fun s => { s with cmcSuccess := false }) (Prog.bind stopControl fun _ => .pure ())

/-- A cycle that reads the joints. -/
theorem loop_cycle {s s' : Ctl} {lp' : P Unit} {es : List Ev} (q v a : List ℝ) (hst : s.state ≠ .notControlling)
    (hq : q.length = cfg.numJoints) (hv : v.length = cfg.numJoints) (ha : a.length = cfg.numJoints)
    (hl : InLimits cfg q)
    (h : LoopSteps cfg { s with encoderErrors := 0 } (Prog.bind (dispatch cfg s.state q v a) afterBody) es s' lp') :
    LoopSteps cfg s (.pure ()) (goodRead q v a ++ es) s' lp' := by
  refine .step (l := none) (.again s) ?_
  unfold run getCurrentState runBody readEncoders
  refine loop_get ?_
  show LoopSteps cfg s (if s.state = .notControlling then _ else _) _ s' lp'
  rw [if_neg hst]
  refine loop_call (c := .getEncoders) (some q) (some_length hq) ?_
  refine loop_call (c := .getEncoderSpeeds) (some v) (some_length hv) ?_
  refine loop_call (c := .getEncoderAccelerations) (some a) (some_length ha) ?_
  refine loop_set ?_
  show LoopSteps cfg _ (Prog.bind (Prog.bind (Prog.lift (checkJointLimits cfg q)) _) _) _ s' lp'
  rw [(checkJointLimits_iff _ _).mpr hl]
  exact h

end KD.Ctrl
