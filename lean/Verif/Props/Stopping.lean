import Verif.Ctrl.GhostLemmas
import Verif.Props.ControlLoop

/-!
# C43: what the control loop sends after `stopControl()` has returned

The user's thread and the control loop interleave (`Sys.Steps`).
-/

namespace KD.Ctrl

open Prog (Step Writes Run can can_run writes_bind)
open scoped Classical

/-- What may be left of a cycle: nothing, a whole cycle, or what follows any of its steps, whatever the
object was at each step. -/
inductive InCycle (cfg : Cfg) : P Unit → Prop
  | rest : InCycle cfg (.pure ())
  | start : InCycle cfg (run cfg)
  | step {lp s l lp' s'} : InCycle cfg lp → Step (robot cfg) lp s l lp' s' → InCycle cfg lp'

/-- The motion commands among the calls. -/
noncomputable def motions (tr : List (Who × Ev)) : List (Who × Ev) := tr.filter fun x => decide (IsMotion x.2)

/-- At most so many more motion commands. -/
noncomputable def budget : Ghost ℕ where
  ok n e := IsMotion e → 0 < n
  next n e := if IsMotion e then n - 1 else n
  inv _ _ := True
  write n _ n' := n' = n

theorem budget_ok (n : ℕ) (e : Ev) : budget.ok n e ↔ (IsMotion e → 0 < n) := Iff.rfl

theorem budget_next (n : ℕ) (e : Ev) : budget.next n e = if IsMotion e then n - 1 else n := rfl

theorem budget_modes (n : ℕ) : budget.FreeModes n :=
  ⟨by simp [budget, IsMotion], by simp [budget, IsMotion], by simp [budget, IsMotion]⟩

theorem budget_stop {α : Type} {n : ℕ} {Q : α → ℕ → Prop} {k : Bool → P α} (h : budget.wpi (k true) Q n) :
    budget.wpi (Prog.bind stopControl k) Q n :=
  wpi_stop rfl (budget_modes n) (by simp [budget, IsMotion]) rfl h

theorem budget_mono {α : Type} {p : P α} {n m : ℕ} (hnm : n ≤ m) (h : budget.wpi p (fun _ _ => True) n) :
    budget.wpi p (fun _ _ => True) m := by
  induction p generalizing n m with
  | pure a => trivial
  | ub => trivial
  | get k ih => exact fun s hs => ih s hnm (h s hs)
  | set f k ih =>
    obtain ⟨n', rfl, h⟩ := h
    exact ⟨m, rfl, ih hnm h⟩
  | call c k ih =>
    intro r
    refine ⟨fun hm => ((h r).1 hm).trans_le hnm, ih r ?_ (h r).2⟩
    simp only [budget]
    split <;> omega

theorem budget_send {cfg : Cfg} {q x y z : List ℝ} {f : RefFrame} {Q : Unit → ℕ → Prop} {k : Bool → P Unit}
    (h : ∀ b n, n ≤ 1 → budget.wpi (k b) Q n) :
    budget.wpi (Prog.bind (sendVelocity cfg q x y z f) k) Q 1 := by
  unfold sendVelocity
  gi_simp
  simp only [budget_ok, budget_next, IsMotion, ↓reduceIte, false_imp_iff, true_imp_iff, true_and, Nat.sub_self]
  refine fun b s _ v _ => ⟨h _ _ le_rfl, fun l ok _ =>
    ⟨fun _ v _ b => ⟨by simp, h _ _ (by simp)⟩, fun _ => h _ _ le_rfl⟩⟩

theorem budget_dispatch {cfg : Cfg} {st : CState} {q v a : List ℝ} {Q : Unit → ℕ → Prop} {k : Bool → P Unit}
    (h : ∀ b n, n ≤ 1 → budget.wpi (k b) Q n) :
    budget.wpi (Prog.bind (dispatch cfg st q v a) k) Q 1 := by
  have h1 : ∀ b, budget.wpi (k b) Q 1 := fun b => h b 1 le_rfl
  have e : ∀ {c : Prop} [Decidable c] {m n : ℕ}, ¬c → (if c then m else n) = n := fun hc => if_neg hc
  rcases st with _ | _ | _ | _ | _ | _
  · exact h1 false
  · unfold dispatch handleMovj setCurrentState
    gi_simp
    refine wpi_checkModes (budget_modes 1) fun b => ?_
    gi_simp
    simp [budget, IsMotion] at h1 ⊢
    simp [h1]
  · unfold dispatch
    simp only [bind_ite, gi_ite]
    refine ⟨fun _ => ?_, fun _ => ?_⟩
    · unfold handleMovlPosd
      gi_simp
      refine wpi_checkModes (budget_modes 1) fun b => ?_
      gi_simp
      refine ⟨fun _ t => ⟨by simp [budget, IsMotion], fun s _ => ⟨fun _ => ?_, fun _ => ?_⟩⟩, fun _ => h1 _⟩
      · rw [show budget.next 1 (Ev.now t) = 1 by simp [budget, IsMotion]]
        exact budget_stop (h1 _)
      · simp only [budget_ok, budget_next, IsMotion, ↓reduceIte, false_imp_iff, true_imp_iff, true_and, Nat.sub_self]
        exact ⟨h1 _, fun l _ _ _ => ⟨by simp, h _ _ (by simp)⟩⟩
    · unfold handleMovlVel
      gi_simp
      refine wpi_checkModes (budget_modes 1) fun b => ?_
      gi_simp
      refine ⟨fun _ t => ⟨by simp [budget, IsMotion], fun s _ => ⟨fun _ => ?_, fun _ => ?_⟩⟩, fun _ => h1 _⟩
      · rw [show budget.next 1 (Ev.now t) = 1 by simp [budget, IsMotion]]
        exact budget_stop (h1 _)
      · have e1 : ∀ r, budget.next (budget.next 1 (Ev.now t)) (Ev.fwdKin q r) = 1 := by
          simp [budget, IsMotion]
        simp only [e1]
        refine ⟨⟨by simp [budget, IsMotion], h1 _⟩, fun l => ⟨by simp [budget, IsMotion], budget_send h⟩⟩
  · unfold dispatch handleMovv
    gi_simp
    refine wpi_checkModes (budget_modes 1) fun b => ?_
    gi_simp
    have e1 : ∀ t r, budget.next (budget.next 1 (Ev.now t)) (Ev.fwdKin q r) = 1 := by
      simp [budget, IsMotion]
    simp only [e1]
    exact ⟨fun _ t => ⟨by simp [budget, IsMotion], ⟨by simp [budget, IsMotion], h1 _⟩, fun l =>
      ⟨by simp [budget, IsMotion], fun s _ => budget_send h⟩⟩, fun _ => h1 _⟩
  · unfold dispatch handleGcmp
    gi_simp
    refine wpi_checkModes (budget_modes 1) fun b => ?_
    gi_simp
    simp only [budget_ok, budget_next, IsMotion, ↓reduceIte, false_imp_iff, true_imp_iff, true_and, Nat.sub_self]
    exact ⟨fun _ => ⟨h1 _, fun l _ _ _ => ⟨by simp, h _ _ (by simp)⟩⟩, fun _ => h1 _⟩
  · unfold dispatch handleForc
    gi_simp
    refine wpi_checkModes (budget_modes 1) fun b => ?_
    gi_simp
    simp only [budget_ok, budget_next, IsMotion, ↓reduceIte, false_imp_iff, true_imp_iff, true_and, Nat.sub_self]
    exact ⟨fun _ s _ => ⟨h1 _, fun l _ _ _ => ⟨by simp, h _ _ (by simp)⟩⟩, fun _ => h1 _⟩

theorem budget_run (cfg : Cfg) : budget.wpi (run cfg) (fun _ _ => True) 1 := by
  have h : ∀ (b : Bool) (n : ℕ), n ≤ 1 → budget.wpi (if b = true then (Prog.pure () : P Unit)
      else Prog.set (fun s => { s with cmcSuccess := false })
        (Prog.bind stopControl fun _ => Prog.pure ())) (fun _ _ => True) n := by
    intro b n _
    gi_simp
    exact fun _ => ⟨n, rfl, budget_stop trivial⟩
  have h1 := fun b => h b 1 le_rfl
  unfold run getCurrentState runBody readEncoders
  gi_simp
  simp only [budget_ok, budget_next, IsMotion, ↓reduceIte, false_imp_iff, true_and]
  have hf : ∃ g', budget.write 1 (fun s => { s with encoderErrors := s.encoderErrors + 1 }) g' ∧
      ∀ s : Ctl, budget.inv g' s → ¬decide (s.encoderErrors ≤ maxEncoderErrors) = true →
        ∃ g'', budget.write g' (fun s => { s with cmcSuccess := false }) g'' ∧
          budget.wpi (Prog.bind stopControl fun _ => Prog.pure ()) (fun _ _ => True) g'' :=
    ⟨1, rfl, fun s _ _ => ⟨1, rfl, budget_stop trivial⟩⟩
  refine fun s _ _ => ⟨hf, fun q => ⟨hf, fun v => ⟨hf, fun a => ⟨1, rfl, fun ok _ => ⟨fun _ => ?_, fun _ => ?_⟩⟩⟩⟩⟩
  · exact budget_dispatch h
  · exact fun _ => ⟨1, rfl, budget_stop trivial⟩

/-- Writes that leave an idle controller idle. -/
def KeepsIdle (f : Ctl → Ctl) : Prop := ∀ s, s.state = .notControlling → (f s).state = .notControlling

theorem keepsIdle_cycle : CycleWrites KeepsIdle :=
  ⟨fun _ _ => rfl, fun _ h => h, fun _ h => h, fun _ h => h, fun _ h => h⟩

/-- What is known of every part of a cycle. -/
theorem InCycle.static {cfg : Cfg} {lp : P Unit} (h : InCycle cfg lp) :
    Writes KeepsIdle lp ∧ budget.wpi lp (fun _ _ => True) 1 := by
  induction h with
  | rest => exact ⟨trivial, trivial⟩
  | start => exact ⟨writes_run keepsIdle_cycle, budget_run cfg⟩
  | step _ hs ih =>
    refine ⟨(writes_step ih.1 hs).1, ?_⟩
    rcases Ghost.step ih.2 trivial hs with ⟨-, -, h⟩ | ⟨f, g', -, -, rfl, h⟩ | ⟨e, -, -, -, h⟩
    · exact h
    · exact h
    · refine budget_mono ?_ h
      rw [budget_next]; split <;> omega

theorem InCycle.loopStep {cfg : Cfg} {s s' : Ctl} {lp lp' : P Unit} {l : Option Ev}
    (h : InCycle cfg lp) (hs : LoopStep cfg s lp l s' lp') : InCycle cfg lp' := by
  cases hs with
  | step hs => exact .step h hs
  | again => exact .start

theorem loopStep_idle {cfg : Cfg} {s s' : Ctl} {lp lp' : P Unit} {l : Option Ev}
    (h : InCycle cfg lp) (hs : LoopStep cfg s lp l s' lp') (hi : s.state = .notControlling) :
    s'.state = .notControlling := by
  cases hs with
  | step hs =>
    rcases (writes_step h.static.1 hs).2 with rfl | ⟨f, hf, rfl⟩
    · exact hi
    · exact hf s hi
  | again => exact hi

theorem stable_inCycle (cfg : Cfg) : Stable cfg fun _ lp _ => InCycle cfg lp :=
  fun _ _ _ _ _ _ h hs => h.loopStep hs

theorem stable_idle (cfg : Cfg) : Stable cfg fun s lp _ => s.state = .notControlling ∧ InCycle cfg lp :=
  fun _ _ _ _ _ _ h hs => ⟨loopStep_idle h.2 hs h.1, h.2.loopStep hs⟩

/-- After `stopControl` the controller is idle, whatever the loop does meanwhile. -/
theorem stopControl_idle {cfg : Cfg} {s : Ctl} {lp : P Unit} (h : InCycle cfg lp) :
    wps cfg stopControl (fun _ s' lp' _ => s'.state = .notControlling ∧ InCycle cfg lp') s lp [] := by
  refine wps_set (stable_inCycle cfg) h fun s lp tr h => ?_
  have hw : Writes KeepsIdle (Prog.bind (setControlModes .position) fun _ =>
      Prog.bind Dev.stop fun (_ : Bool) => Prog.bind (Prog.modify fun s => { s with trajectories := [] })
        fun _ => Prog.pure true) := by
    have h0 := writes_setControlModes (W := KeepsIdle) (mode := .position)
    have h1 := keepsIdle_cycle.clear
    refine writes_bind h0 fun _ => ?_
    exact fun _ => ⟨h1, trivial⟩
  exact wps_keeps (stable_idle cfg) (fun f hf s lp tr h => ⟨hf s h.1, h.2⟩) (fun _ _ _ _ h => h) hw
    ⟨rfl, h⟩ fun _ _ _ _ h => h

theorem run_idle_step {cfg : Cfg} {s s' : Ctl} {l : Option Ev} {lp : P Unit} (hi : s.state = .notControlling)
    (hs : Step (robot cfg) (run cfg) s l lp s') : l = none ∧ s' = s ∧ lp = .pure () := by
  unfold run getCurrentState at hs
  simp only [Prog.bind_eq, Prog.pure_eq, Prog.read_bind, Prog.get_bind, Prog.pure_bind'] at hs
  cases hs
  exact ⟨rfl, rfl, if_pos hi⟩

theorem motions_append (a b : List (Who × Ev)) : motions (a ++ b) = motions a ++ motions b := by
  simp [motions]

theorem motions_nil : motions [] = [] := rfl

theorem idle_quiet {cfg : Cfg} {α : Type} {x y : Sys α} {tr : List (Who × Ev)} (h : Sys.Steps cfg x tr y) :
    ∀ b, x.user = .pure b → x.ctl.state = .notControlling → (x.loop = .pure () ∨ x.loop = run cfg) →
      tr = [] := by
  induction h with
  | refl => intros; rfl
  | step hs _ ih =>
    intro b hu hi hl
    cases hs with
    | user hs => dsimp only at hu; subst hu; cases hs
    | loop hs =>
      cases hs with
      | again => exact ih b hu hi (Or.inr rfl)
      | step hs =>
        rcases hl with hl | hl
        · dsimp only at hl; subst hl; cases hs
        · dsimp only at hl hi; subst hl
          obtain ⟨rfl, rfl, rfl⟩ := run_idle_step hi hs
          exact ih b hu hi (Or.inl rfl)

theorem idle_budget {cfg : Cfg} {α : Type} {x y : Sys α} {tr : List (Who × Ev)} (h : Sys.Steps cfg x tr y) :
    ∀ b n, x.user = .pure b → x.ctl.state = .notControlling → Writes KeepsIdle x.loop →
      budget.wpi x.loop (fun _ _ => True) n → (motions tr).length ≤ n := by
  induction h with
  | refl => intros; simp [motions_nil]
  | step hs hr ih =>
    intro b n hu hi hw hb
    cases hs with
    | user hs => dsimp only at hu; subst hu; cases hs
    | loop hs =>
      cases hs with
      | again =>
        rw [idle_quiet hr b hu hi (Or.inr rfl)]
        simp [motions_nil]
      | step hs =>
        dsimp only at hu hi hw hb ih
        have hw' := writes_step hw hs
        rcases Ghost.step hb trivial hs with ⟨rfl, rfl, h⟩ | ⟨f, g', rfl, rfl, rfl, h⟩ | ⟨e, rfl, rfl, h, h'⟩
        · exact ih b n hu hi hw'.1 h
        · refine ih b _ hu ?_ hw'.1 h
          rcases hw'.2 with e | ⟨g, hg, e⟩
          · rw [e]; exact hi
          · rw [e]; exact hg _ hi
        · have := ih b _ hu hi hw'.1 h'
          rw [budget_next] at this
          rw [motions_append, List.length_append]
          by_cases hm : IsMotion e
          · have h0 := h hm
            rw [if_pos hm] at this
            simp only [motions, Option.map_some, Option.toList_some, List.filter_cons, hm, decide_true,
              if_true, List.filter_nil, List.length_singleton] at this ⊢
            omega
          · rw [if_neg hm] at this
            simp only [motions, Option.map_some, Option.toList_some, List.filter_cons, hm, decide_false,
              Bool.false_eq_true, if_false, List.filter_nil, List.length_nil] at this ⊢
            omega

/-- C43, what holds of it: whatever the control loop is doing when `stopControl` is called, and however
the two interleave, once `stopControl` has returned and with no other command the control loop sends at
most one motion command. Missing: it can send one, see `C43_motion_after_stop`. -/
theorem C43_at_most_one_motion_partial {cfg : Cfg} {s s1 : Ctl} {lp lp1 : P Unit} {b : Bool}
    {tr tr' : List (Who × Ev)} {y : Sys Bool} (hlp : InCycle cfg lp)
    (hstop : Sys.Steps cfg ⟨s, stopControl, lp⟩ tr ⟨s1, .pure b, lp1⟩)
    (hafter : Sys.Steps cfg ⟨s1, .pure b, lp1⟩ tr' y) : (motions tr').length ≤ 1 := by
  obtain ⟨hi, hc⟩ := wps_sound (stopControl_idle hlp) hstop
  exact idle_budget hafter b 1 rfl hi hc.static.1 hc.static.2

/-- C43, what holds of it: if the control loop is between two cycles when `stopControl` returns, it makes
no call at all from then on, until another command. -/
theorem C43_no_call_between_cycles_partial {cfg : Cfg} {s s1 : Ctl} {lp : P Unit} {b : Bool}
    {tr tr' : List (Who × Ev)} {y : Sys Bool} (hlp : InCycle cfg lp)
    (hstop : Sys.Steps cfg ⟨s, stopControl, lp⟩ tr ⟨s1, .pure b, .pure ()⟩)
    (hafter : Sys.Steps cfg ⟨s1, .pure b, .pure ()⟩ tr' y) : tr' = [] := by
  obtain ⟨hi, hc⟩ := wps_sound (stopControl_idle hlp) hstop
  exact idle_quiet hafter b rfl hi (Or.inl rfl)

/-- The user's command alone, the loop resting. -/
example : ∃ tr s1, InCycle oneJoint (.pure ()) ∧
    Sys.Steps oneJoint ⟨midMovl, stopControl, .pure ()⟩ tr ⟨s1, .pure true, .pure ()⟩ ∧
    (Who.user, Ev.stop true) ∈ tr := by
  have : can (robot oneJoint) stopControl (fun o s' tr => o = .ok true ∧ Ev.stop true ∈ tr) midMovl [] := by
    rw [← Prog.bind_pure stopControl]
    exact can_stop' (by simp [can])
  obtain ⟨tr, o, s', hr, rfl, hm⟩ := can_run this
  exact ⟨_, s', .rest, user_steps hr true rfl _, by simpa using hm⟩

/-- C43 fails: a cycle in progress, past its look at the state, sends its velocity command after
`stopControl` has told the robot to stop and has returned. -/
theorem C43_motion_after_stop :
    ∃ (s1 s2 : Ctl) (lp1 lp2 : P Unit) (tr1 tr2 : List (Who × Ev)) (v : List ℝ),
      Sys.Steps oneJoint ⟨midMovl, stopControl, .pure ()⟩ tr1 ⟨s1, stopControl, lp1⟩ ∧
      Sys.Steps oneJoint ⟨s1, stopControl, lp1⟩ tr2 ⟨s2, .pure true, lp1⟩ ∧
      (Who.user, Ev.stop true) ∈ tr2 ∧ s2.state = .notControlling ∧
      Sys.Steps oneJoint ⟨s2, .pure true, lp1⟩ [(Who.loop, Ev.velocityMove v true)] ⟨s2, .pure true, lp2⟩ := by
  have h1 : can (robot oneJoint) (run oneJoint) (fun _ _ tr => ∃ pre v, tr = pre ++ [Ev.velocityMove v true])
      midMovl [] := by
    refine can_cycle [0] [0] [0] (by simp [midMovl]) rfl rfl rfl
      (oneJoint_inLimits (by norm_num) (by norm_num)) ?_
    show can (robot oneJoint) (handleMovlVel oneJoint [0]) _ _ _
    unfold handleMovlVel
    can_simp
    refine can_checkModes [.velocity] rfl ?_
    can_simp
    refine Or.inl ⟨by simp, 1, Or.inr ⟨by norm_num [midMovl, ready, Ctl.initial], some [0, 0, 0, 0, 0, 0], ?_⟩⟩
    unfold sendVelocity
    can_simp
    refine ⟨(true, [0, 0, 0, 0, 0, 0]), Or.inr ⟨[0, 0, 0, 0, 0, 0], ?_, some [1], ?_⟩⟩
    · simp [controlLaw, midMovl, ready, Ctl.initial, twistsAt, KdlVectorConverter.twistToVector]
    can_simp
    refine Or.inr ⟨true, (checkJointVelocities_iff _ _).mpr (oneJoint_inVelLimits (by norm_num)), ?_⟩
    refine Or.inl ⟨rfl, Or.inr ⟨[1], by simp [buffer, oneJoint], true, trivial, _, _, rfl⟩⟩
  obtain ⟨tr, o, s', hr, pre, v, rfl⟩ := can_run h1
  obtain ⟨s1, lp1, lp2, hpre, hlast⟩ := loop_prefix (u := stopControl) hr pre (Ev.velocityMove v true) [] rfl
  have h2 : can (robot oneJoint) stopControl (fun o s' tr => o = .ok true ∧ s'.state = .notControlling ∧
      Ev.stop true ∈ tr) s1 [] := by
    rw [← Prog.bind_pure stopControl]
    exact can_stop' (by simp [can, Ctl.stopped])
  obtain ⟨tr2, o2, s2, hr2, rfl, hi, hm⟩ := can_run h2
  exact ⟨s1, s2, lp1, lp2, _, _, v, .step (.loop (.again _)) hpre, user_steps hr2 true rfl lp1,
    by simpa using hm, hi, .step (l := some _) (.loop (l := some _) (.step (hlast s2))) (.refl _)⟩

end KD.Ctrl
