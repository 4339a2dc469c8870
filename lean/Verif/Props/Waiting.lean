import Verif.Props.Stopping

/-!
# C42: what `wait` tells

The user's thread waits while the control loop runs; the two interleave (`Sys.Steps`).
-/

namespace KD.Ctrl

open Prog (Step Writes Run can can_run)
open scoped Classical

/-- The answer of the robot or the clock that ends a movement: a joint movement ends when the robot says
that the motion is done, a linear one when the time since its start is past the duration of one of its
trajectories. -/
def EndsMovement (s : Ctl) (e : Ev) : Prop :=
  (s.state = .movj ∧ e = .checkMotionDone (some true)) ∨
  (s.state = .movl ∧ ∃ t, e = .now t ∧ ∃ tr ∈ s.trajectories, t - s.movementStartTime > tr.duration)

/-- The control loop has heard of the end of the movement that was in progress in `s`. -/
def Finished (s : Ctl) (tr : List (Who × Ev)) : Prop := ∃ e, (Who.loop, e) ∈ tr ∧ EndsMovement s e

/-- The user's thread told the robot to stop. -/
def UserStopped (tr : List (Who × Ev)) : Prop := ∃ r, (Who.user, Ev.stop r) ∈ tr

/-- Phases of a cycle of the movement of `s`. -/
inductive Phase
  | running
  | ended
  | failed
  | over

/-- The same movement. -/
def SameMove (s0 s : Ctl) : Prop :=
  s.state = s0.state ∧ s.trajectories = s0.trajectories ∧ s.movementStartTime = s0.movementStartTime

/-- A cycle of the movement of `s0`: it ends the movement or fails, not both. -/
noncomputable def phases (s0 : Ctl) : Ghost Phase where
  ok g e := g ≠ .running → ¬EndsMovement s0 e
  next g e := if g = .running ∧ EndsMovement s0 e then .ended else g
  inv g s := g = .running ∨ g = .ended → SameMove s0 s
  write g f g' := match g with
    | .running => (g' = .running ∧ ∀ s, SameMove s0 s → SameMove s0 (f s) ∧ (f s).cmcSuccess = s.cmcSuccess) ∨
        (g' = .failed ∧ ∀ s, SameMove s0 s → SameMove s0 (f s) ∧ (f s).cmcSuccess = false)
    | .ended => g' = .over ∧ ∀ s, (f s).state = .notControlling ∧ (f s).cmcSuccess = s.cmcSuccess
    | .failed => g' = .over ∧ ∀ s, (f s).state = .notControlling ∧ (f s).cmcSuccess = s.cmcSuccess
    | .over => g' = .over ∧ ∀ s, (s.state = .notControlling → (f s).state = .notControlling) ∧
        (f s).cmcSuccess = s.cmcSuccess

/-- A cycle does not stop half way. -/
def PhaseEnd (_ : Unit) (g : Phase) : Prop := g = .running ∨ g = .over

variable {s0 : Ctl}

theorem endsMovement_not {e : Ev} (h1 : ∀ r, e ≠ .checkMotionDone r) (h2 : ∀ t, e ≠ .now t) :
    ¬EndsMovement s0 e := by
  rintro (⟨-, h⟩ | ⟨-, t, h, -⟩)
  · exact h1 _ h
  · exact h2 _ h

/-- Events that do not matter. -/
theorem phases_other {g : Phase} {e : Ev} (h1 : ∀ r, e ≠ .checkMotionDone r) (h2 : ∀ t, e ≠ .now t) :
    (phases s0).ok g e ∧ (phases s0).next g e = g := by
  have h := endsMovement_not (s0 := s0) h1 h2
  exact ⟨fun _ => h, if_neg fun hc => h hc.2⟩

theorem phases_modes (g : Phase) : (phases s0).FreeModes g :=
  ⟨fun _ => phases_other (by simp) (by simp), fun _ _ _ => phases_other (by simp) (by simp),
    fun _ _ => phases_other (by simp) (by simp)⟩

theorem phases_stop {α : Type} {g : Phase} {Q : α → Phase → Prop} {k : Bool → P α} (hg : g = .ended ∨ g = .failed)
    (h : (phases s0).wpi (k true) Q .over) : (phases s0).wpi (Prog.bind stopControl k) Q g := by
  refine wpi_stop (g1 := .over) ?_ (phases_modes _) (fun _ => phases_other (by simp) (by simp)) ?_ h
  · rcases hg with rfl | rfl
    · exact ⟨rfl, fun _ => ⟨rfl, rfl⟩⟩
    · exact ⟨rfl, fun _ => ⟨rfl, rfl⟩⟩
  · exact ⟨rfl, fun _ => ⟨id, rfl⟩⟩

theorem phases_send {cfg : Cfg} {q x y z : List ℝ} {f : RefFrame} {Q : Unit → Phase → Prop} {k : Bool → P Unit}
    (h : ∀ b, (phases s0).wpi (k b) Q .running) :
    (phases s0).wpi (Prog.bind (sendVelocity cfg q x y z f) k) Q .running := by
  unfold sendVelocity
  gi_simp
  have e1 : ∀ r, (phases s0).ok .running (.poseDiff y x r) ∧ (phases s0).next .running (.poseDiff y x r) = .running :=
    fun _ => phases_other (by simp) (by simp)
  have e2 : ∀ v r, (phases s0).ok .running (.diffInvKin q v f r) ∧
      (phases s0).next .running (.diffInvKin q v f r) = .running :=
    fun _ _ => phases_other (by simp) (by simp)
  have e3 : ∀ v r, (phases s0).ok .running (.velocityMove v r) ∧
      (phases s0).next .running (.velocityMove v r) = .running :=
    fun _ _ => phases_other (by simp) (by simp)
  simp only [(e1 _).1, (e1 _).2, (e2 _ _).1, (e2 _ _).2, (e3 _ _).1, (e3 _ _).2, true_and]
  exact fun b s _ v _ => ⟨h _, fun l ok _ => ⟨fun _ v _ b => h _, fun _ => h _⟩⟩

theorem ends_movl (hst : s0.state = .movl) {s : Ctl} (hs : SameMove s0 s) {t : ℝ} :
    EndsMovement s0 (.now t) ↔
      (s.trajectories.any fun tr => decide (t - s.movementStartTime > tr.duration)) = true := by
  rw [hs.2.1, hs.2.2]
  simp [EndsMovement, hst]

theorem phases_dispatch (cfg : Cfg) (hst : s0.state = .movj ∨ s0.state = .movl) {q v a : List ℝ}
    {Q : Unit → Phase → Prop} {k : Bool → P Unit}
    (h : ∀ b, (phases s0).wpi (k b) Q .running) (h' : (phases s0).wpi (k true) Q .over) :
    (phases s0).wpi (Prog.bind (dispatch cfg s0.state q v a) k) Q .running := by
  have hnow : ∀ t, (phases s0).ok .running (.now t) := fun t hc => absurd rfl hc
  rcases hst with hst | hst
  · rw [hst]
    unfold dispatch handleMovj setCurrentState
    gi_simp
    refine wpi_checkModes (phases_modes _) fun b => ?_
    gi_simp
    have e0 : ¬EndsMovement s0 (.checkMotionDone none) := by simp [EndsMovement]
    have e0' : ¬EndsMovement s0 (.checkMotionDone (some false)) := by simp [EndsMovement]
    have e1 : EndsMovement s0 (.checkMotionDone (some true)) := Or.inl ⟨hst, rfl⟩
    refine ⟨fun _ => ⟨⟨fun _ => e0, ?_⟩, fun l => ⟨fun hc => absurd rfl hc, fun hl => ?_, fun hl => ?_⟩⟩, fun _ => h _⟩
    · rw [show (phases s0).next .running (.checkMotionDone none) = .running from if_neg fun hc => e0 hc.2]
      exact h _
    · subst hl
      rw [show (phases s0).next .running (.checkMotionDone (some true)) = .ended from if_pos ⟨rfl, e1⟩]
      refine ⟨.over, ⟨rfl, fun _ => ⟨rfl, rfl⟩⟩, fun s _ v _ b => ?_⟩
      have e3 : (phases s0).ok .over (.setRefSpeeds v b) ∧ (phases s0).next .over (.setRefSpeeds v b) = .over :=
        phases_other (by simp) (by simp)
      rw [e3.2]
      exact ⟨e3.1, h'⟩
    · have : l = false := by simpa using hl
      subst this
      rw [show (phases s0).next .running (.checkMotionDone (some false)) = .running from if_neg fun hc => e0' hc.2]
      exact h _
  · rw [hst]
    unfold dispatch
    simp only [bind_ite, gi_ite]
    refine ⟨fun _ => ?_, fun _ => ?_⟩
    · unfold handleMovlPosd
      gi_simp
      refine wpi_checkModes (phases_modes _) fun b => ?_
      gi_simp
      refine ⟨fun _ t => ⟨hnow t, ?_⟩, fun _ => h _⟩
      by_cases he : EndsMovement s0 (.now t)
      · rw [show (phases s0).next .running (.now t) = .ended from if_pos ⟨rfl, he⟩]
        refine fun s hs => ⟨fun _ => phases_stop (Or.inl rfl) h', fun hc => ?_⟩
        exact absurd ((ends_movl hst (hs (Or.inr rfl))).mp he) hc
      · rw [show (phases s0).next .running (.now t) = .running from if_neg fun hc => he hc.2]
        refine fun s hs => ⟨fun hc => ?_, fun _ => ?_⟩
        · exact absurd ((ends_movl hst (hs (Or.inl rfl))).mpr hc) he
        · have e2 : ∀ x r, (phases s0).ok .running (.invKin x q .base r) ∧
              (phases s0).next .running (.invKin x q .base r) = .running :=
            fun _ _ => phases_other (by simp) (by simp)
          have e3 : ∀ v r, (phases s0).ok .running (.setPositions v r) ∧
              (phases s0).next .running (.setPositions v r) = .running :=
            fun _ _ => phases_other (by simp) (by simp)
          simp only [(e2 _ _).1, (e2 _ _).2, (e3 _ _).1, (e3 _ _).2, true_and]
          exact ⟨h _, fun _ _ _ _ => h _⟩
    · unfold handleMovlVel
      gi_simp
      refine wpi_checkModes (phases_modes _) fun b => ?_
      gi_simp
      refine ⟨fun _ t => ⟨hnow t, ?_⟩, fun _ => h _⟩
      by_cases he : EndsMovement s0 (.now t)
      · rw [show (phases s0).next .running (.now t) = .ended from if_pos ⟨rfl, he⟩]
        refine fun s hs => ⟨fun _ => phases_stop (Or.inl rfl) h', fun hc => ?_⟩
        exact absurd ((ends_movl hst (hs (Or.inr rfl))).mp he) hc
      · rw [show (phases s0).next .running (.now t) = .running from if_neg fun hc => he hc.2]
        refine fun s hs => ⟨fun hc => ?_, fun _ => ?_⟩
        · exact absurd ((ends_movl hst (hs (Or.inl rfl))).mpr hc) he
        · have e2 : ∀ r, (phases s0).ok .running (.fwdKin q r) ∧
              (phases s0).next .running (.fwdKin q r) = .running :=
            fun _ => phases_other (by simp) (by simp)
          simp only [(e2 _).1, (e2 _).2, true_and]
          exact ⟨h _, fun l => phases_send h⟩

theorem phases_run (cfg : Cfg) (hst : s0.state = .movj ∨ s0.state = .movl) :
    (phases s0).wpi (run cfg) PhaseEnd .running := by
  have hfail : (phases s0).write .running (fun s => { s with cmcSuccess := false }) .failed :=
    Or.inr ⟨rfl, fun _ h => ⟨h, rfl⟩⟩
  have hstop : (phases s0).wpi (Prog.bind stopControl fun _ => Prog.pure ()) PhaseEnd .failed :=
    phases_stop (Or.inr rfl) (Or.inr rfl)
  have h : ∀ (b : Bool), (phases s0).wpi (if b = true then (Prog.pure () : P Unit)
      else Prog.set (fun s => { s with cmcSuccess := false })
        (Prog.bind stopControl fun _ => Prog.pure ())) PhaseEnd .running := by
    intro b
    gi_simp
    exact ⟨fun _ => Or.inl rfl, fun _ => ⟨_, hfail, hstop⟩⟩
  have h' : (phases s0).wpi (if true = true then (Prog.pure () : P Unit)
      else Prog.set (fun s => { s with cmcSuccess := false })
        (Prog.bind stopControl fun _ => Prog.pure ())) PhaseEnd .over := by
    rw [if_pos rfl]; exact Or.inr rfl
  have e : ∀ r, (phases s0).ok .running (.getEncoders r) ∧ (phases s0).next .running (.getEncoders r) = .running :=
    fun _ => phases_other (by simp) (by simp)
  have e1 : ∀ r, (phases s0).ok .running (.getEncoderSpeeds r) ∧ (phases s0).next .running (.getEncoderSpeeds r) = .running :=
    fun _ => phases_other (by simp) (by simp)
  have e2 : ∀ r, (phases s0).ok .running (.getEncoderAccelerations r) ∧ (phases s0).next .running (.getEncoderAccelerations r) = .running :=
    fun _ => phases_other (by simp) (by simp)
  have hf : ∃ g', (phases s0).write .running (fun s => { s with encoderErrors := s.encoderErrors + 1 }) g' ∧
      ∀ s : Ctl, (phases s0).inv g' s →
        (decide (s.encoderErrors ≤ maxEncoderErrors) = true → PhaseEnd () g') ∧
        (¬decide (s.encoderErrors ≤ maxEncoderErrors) = true →
        ∃ g'', (phases s0).write g' (fun s => { s with cmcSuccess := false }) g'' ∧
          (phases s0).wpi (Prog.bind stopControl fun _ => Prog.pure ()) PhaseEnd g'') :=
    ⟨.running, Or.inl ⟨rfl, fun _ h => ⟨h, rfl⟩⟩, fun s _ => ⟨fun _ => Or.inl rfl, fun _ => ⟨_, hfail, hstop⟩⟩⟩
  unfold run getCurrentState runBody readEncoders
  gi_simp
  simp only [(e _).1, (e _).2, (e1 _).1, (e1 _).2, (e2 _).1, (e2 _).2, true_and]
  refine fun s hs => ⟨fun _ => Or.inl rfl, fun _ => ⟨hf, fun q => ⟨hf, fun v => ⟨hf, fun a =>
    ⟨.running, Or.inl ⟨rfl, fun _ h => ⟨h, rfl⟩⟩, fun ok _ => ⟨fun _ => ?_, fun _ => ?_⟩⟩⟩⟩⟩⟩
  · rw [(hs (Or.inl rfl)).1]
    exact phases_dispatch cfg hst h h'
  · exact ⟨by simp, fun _ => ⟨_, hfail, hstop⟩⟩

/-- The movement is over, well or not, and the loop will do nothing more about it. -/
def Over (cfg : Cfg) (s0 : Ctl) (s : Ctl) (lp : P Unit) (tr : List (Who × Ev)) : Prop :=
  s.state = .notControlling ∧ (s.cmcSuccess = true ↔ Finished s0 tr) ∧
    ((phases s0).wpi lp PhaseEnd .over ∨ lp = run cfg)

/-- How the loop and the movement of `s0` stand to each other. -/
def Moving (cfg : Cfg) (s0 : Ctl) (s : Ctl) (lp : P Unit) (tr : List (Who × Ev)) : Prop :=
  (SameMove s0 s ∧ s.cmcSuccess = true ∧ ¬Finished s0 tr ∧ (phases s0).wpi lp PhaseEnd .running) ∨
  (SameMove s0 s ∧ s.cmcSuccess = true ∧ Finished s0 tr ∧ (phases s0).wpi lp PhaseEnd .ended) ∨
  (SameMove s0 s ∧ s.cmcSuccess = false ∧ ¬Finished s0 tr ∧ (phases s0).wpi lp PhaseEnd .failed) ∨
  Over cfg s0 s lp tr

theorem finished_append {tr : List (Who × Ev)} {l : Option Ev} :
    Finished s0 (tr ++ byLoop l.toList) ↔ Finished s0 tr ∨ ∃ e, l = some e ∧ EndsMovement s0 e := by
  unfold Finished byLoop
  constructor
  · rintro ⟨e, he, hm⟩
    rcases List.mem_append.mp he with he | he
    · exact Or.inl ⟨e, he, hm⟩
    · cases l with
      | none => simp at he
      | some x => simp at he; exact Or.inr ⟨x, rfl, he ▸ hm⟩
  · rintro (⟨e, he, hm⟩ | ⟨e, rfl, hm⟩)
    · exact ⟨e, List.mem_append_left _ he, hm⟩
    · exact ⟨e, by simp, hm⟩

theorem finished_user {tr : List (Who × Ev)} {e : Ev} : Finished s0 (tr ++ [(Who.user, e)]) ↔ Finished s0 tr := by
  simp [Finished]

theorem stable_over (cfg : Cfg) : Stable cfg (Over cfg s0) := by
  rintro s lp tr l s1 lp1 ⟨hi, hs, hl⟩ hstep
  rw [Over, finished_append]
  cases hstep with
  | again => exact ⟨hi, by simpa using hs, Or.inr rfl⟩
  | step hstep =>
    rcases hl with hl | rfl
    · rcases Ghost.step hl (by simp [phases]) hstep with ⟨rfl, rfl, h⟩ | ⟨f, g', rfl, rfl, ⟨rfl, hf⟩, h⟩ | ⟨e, rfl, rfl, ho, h⟩
      · exact ⟨hi, by simpa using hs, Or.inl h⟩
      · exact ⟨(hf s).1 hi, by rw [(hf s).2]; simpa using hs, Or.inl h⟩
      · have he : ¬EndsMovement s0 e := ho (by simp)
        rw [show (phases s0).next .over e = .over from if_neg (by simp)] at h
        refine ⟨hi, ?_, Or.inl h⟩
        rw [hs]
        constructor
        · exact Or.inl
        · rintro (h | ⟨e', h1, h2⟩)
          · exact h
          · cases h1; exact absurd h2 he
    · obtain ⟨rfl, rfl, rfl⟩ := run_idle_step hi hstep
      exact ⟨hi, by simpa using hs, Or.inl (Or.inr rfl)⟩

theorem over_success {cfg : Cfg} {s s1 : Ctl} {lp lp1 : P Unit} {tr : List (Who × Ev)} {l : Option Ev}
    (h : Over cfg s0 s lp tr) (hstep : LoopStep cfg s lp l s1 lp1) : s1.cmcSuccess = s.cmcSuccess := by
  obtain ⟨hi, hs, hl⟩ := h
  cases hstep with
  | again => rfl
  | step hstep =>
    rcases hl with hl | rfl
    · rcases Ghost.step hl (by simp [phases]) hstep with ⟨rfl, rfl, h⟩ | ⟨f, g', rfl, rfl, ⟨rfl, hf⟩, h⟩ | ⟨e, rfl, rfl, ho, h⟩
      · rfl
      · exact (hf s).2
      · rfl
    · obtain ⟨rfl, rfl, rfl⟩ := run_idle_step hi hstep
      rfl

theorem stable_moving (cfg : Cfg) (hst : s0.state = .movj ∨ s0.state = .movl) : Stable cfg (Moving cfg s0) := by
  rintro s lp tr l s1 lp1 (⟨h1, h2, h3, h4⟩ | ⟨h1, h2, h3, h4⟩ | ⟨h1, h2, h3, h4⟩ | h) hstep
  · cases hstep with
    | again =>
      refine Or.inl ⟨h1, h2, ?_, phases_run cfg hst⟩
      rw [finished_append]; simpa using h3
    | step hstep =>
      rcases Ghost.step h4 (fun _ => h1) hstep with ⟨rfl, rfl, h⟩ | ⟨f, g', rfl, rfl, hw, h⟩ | ⟨e, rfl, rfl, ho, h⟩
      · refine Or.inl ⟨h1, h2, ?_, h⟩
        rw [finished_append]; simpa using h3
      · rcases hw with ⟨rfl, hf⟩ | ⟨rfl, hf⟩
        · refine Or.inl ⟨(hf s h1).1, by rw [(hf s h1).2]; exact h2, ?_, h⟩
          rw [finished_append]; simpa using h3
        · refine Or.inr (Or.inr (Or.inl ⟨(hf s h1).1, (hf s h1).2, ?_, h⟩))
          rw [finished_append]; simpa using h3
      · by_cases he : EndsMovement s0 e
        · rw [show (phases s0).next .running e = .ended from if_pos ⟨rfl, he⟩] at h
          refine Or.inr (Or.inl ⟨h1, h2, ?_, h⟩)
          rw [finished_append]; exact Or.inr ⟨e, rfl, he⟩
        · rw [show (phases s0).next .running e = .running from if_neg fun hc => he hc.2] at h
          refine Or.inl ⟨h1, h2, ?_, h⟩
          rw [finished_append]
          rintro (h | ⟨e', h1, h2⟩)
          · exact h3 h
          · cases h1; exact he h2
  · cases hstep with
    | again => rcases h4 with h4 | h4 <;> cases h4
    | step hstep =>
      rcases Ghost.step h4 (fun _ => h1) hstep with ⟨rfl, rfl, h⟩ | ⟨f, g', rfl, rfl, ⟨rfl, hf⟩, h⟩ | ⟨e, rfl, rfl, ho, h⟩
      · refine Or.inr (Or.inl ⟨h1, h2, ?_, h⟩)
        rw [finished_append]; exact Or.inl h3
      · refine Or.inr (Or.inr (Or.inr ⟨(hf s).1, ?_, Or.inl h⟩))
        rw [(hf s).2, h2, finished_append]; simpa using h3
      · rw [show (phases s0).next .ended e = .ended from if_neg (by simp)] at h
        refine Or.inr (Or.inl ⟨h1, h2, ?_, h⟩)
        rw [finished_append]; exact Or.inl h3
  · cases hstep with
    | again => rcases h4 with h4 | h4 <;> cases h4
    | step hstep =>
      rcases Ghost.step h4 (by simp [phases]) hstep with ⟨rfl, rfl, h⟩ | ⟨f, g', rfl, rfl, ⟨rfl, hf⟩, h⟩ | ⟨e, rfl, rfl, ho, h⟩
      · refine Or.inr (Or.inr (Or.inl ⟨h1, h2, ?_, h⟩))
        rw [finished_append]; simpa using h3
      · refine Or.inr (Or.inr (Or.inr ⟨(hf s).1, ?_, Or.inl h⟩))
        rw [(hf s).2, h2, finished_append]; simpa using h3
      · rw [show (phases s0).next .failed e = .failed from if_neg (by simp)] at h
        refine Or.inr (Or.inr (Or.inl ⟨h1, h2, ?_, h⟩))
        rw [finished_append]
        rintro (h | ⟨e', h1, h2⟩)
        · exact h3 h
        · cases h1; exact ho (by simp) h2
  · exact Or.inr (Or.inr (Or.inr (stable_over cfg _ _ _ _ _ _ h hstep)))

theorem moving_user {cfg : Cfg} {s : Ctl} {lp : P Unit} {tr : List (Who × Ev)} {e : Ev}
    (h : Moving cfg s0 s lp tr) : Moving cfg s0 s lp (tr ++ [(Who.user, e)]) := by
  unfold Moving Over at *
  rw [finished_user]
  exact h

theorem over_of_idle {cfg : Cfg} {s : Ctl} {lp : P Unit} {tr : List (Who × Ev)}
    (hst : s0.state = .movj ∨ s0.state = .movl) (h : Moving cfg s0 s lp tr) (hi : s.state = .notControlling) :
    Over cfg s0 s lp tr := by
  rcases h with ⟨h, -⟩ | ⟨h, -⟩ | ⟨h, -⟩ | h
  · rw [h.1] at hi; rw [hi] at hst; simp at hst
  · rw [h.1] at hi; rw [hi] at hst; simp at hst
  · rw [h.1] at hi; rw [hi] at hst; simp at hst
  · exact h

/-- What `wait` tells, once it has looked at the clock. -/
def WaitEnd (cfg : Cfg) (s0 : Ctl) (a : Option Bool) (s : Ctl) (lp : P Unit) (tr : List (Who × Ev)) : Prop :=
  UserStopped tr ∨ ∀ b, a = some b → Over cfg s0 s lp tr ∧ b = s.cmcSuccess

theorem userStopped_append {a b : List (Who × Ev)} (h : UserStopped a) : UserStopped (a ++ b) := by
  obtain ⟨r, h⟩ := h
  exact ⟨r, List.mem_append_left _ h⟩

/-- `stopControl` tells the robot to stop. -/
theorem stopControl_stops {cfg : Cfg} {s : Ctl} {lp : P Unit} {tr : List (Who × Ev)} {α : Type} {k : Bool → P α}
    {Q : α → Ctl → P Unit → List (Who × Ev) → Prop} (hQ : ∀ a s lp es, UserStopped es → Q a s lp (tr ++ es)) :
    wps cfg (Prog.bind stopControl k) Q s lp tr := by
  refine wps_bind ?_
  unfold stopControl setCurrentState
  intro es s1 lp1 _
  show wps cfg (Prog.bind (setControlModes .position) _) _ _ _ _
  refine wps_bind (wps_any fun a s lp es' => ?_)
  intro es1 s1 lp1 _ r _
  refine wps_any fun b s lp es2 => wps_any fun a s lp es3 => ?_
  have : UserStopped (byLoop es ++ (es' ++ (byLoop es1 ++ ([(Who.user, (robot cfg).ev Call.stop r)] ++ (es2 ++ es3))))) :=
    ⟨r, by simp [robot, record]⟩
  simpa [List.append_assoc] using hQ a s lp _ this

theorem waitLoop_end (cfg : Cfg) (hst : s0.state = .movj ∨ s0.state = .movl) (t start : ℝ) (n : ℕ) :
    ∀ (st : CState) (s : Ctl) (lp : P Unit) (tr : List (Who × Ev)), Moving cfg s0 s lp tr →
      (st = .notControlling → Over cfg s0 s lp tr) →
      wps cfg (waitLoop t start n st) (WaitEnd cfg s0) s lp tr := by
  induction n with
  | zero =>
    intro st s lp tr h _
    exact wps_pure (stable_moving cfg hst) h fun _ _ _ _ => Or.inr (by simp)
  | succ n ih =>
    intro st s lp tr h ho
    have again : ∀ s lp tr, Moving cfg s0 s lp tr → wps cfg (do
        let s ← Prog.read
        let _ ← (Dev.delay (s.waitPeriodMs / 1000))
        let st' ← getCurrentState
        waitLoop t start n st') (WaitEnd cfg s0) s lp tr := by
      intro s lp tr h
      refine wps_get (stable_moving cfg hst) h fun s lp tr h => ?_
      refine wps_call (stable_moving cfg hst) h fun s lp tr r h => ?_
      refine wps_get (stable_moving cfg hst) (moving_user h) fun s lp tr h => ?_
      exact ih _ s lp tr h fun hi => over_of_idle hst h hi
    have stop : ∀ s lp tr, wps cfg (do
        let _ ← stopControl
        let s ← Prog.read
        return some s.cmcSuccess) (WaitEnd cfg s0) s lp tr := fun s lp tr =>
      stopControl_stops fun a s lp es hs => Or.inl (by
        obtain ⟨r, h⟩ := hs
        exact ⟨r, List.mem_append_right _ h⟩)
    rw [waitLoop]
    split
    · rename_i hi
      refine wps_get (stable_over cfg) (ho hi) fun s lp tr h => ?_
      have hJ : Stable cfg fun s' lp' tr' => Over cfg s0 s' lp' tr' ∧ s'.cmcSuccess = s.cmcSuccess :=
        fun _ _ _ _ _ _ h1 h2 => ⟨stable_over cfg _ _ _ _ _ _ h1.1 h2, (over_success h1.1 h2).trans h1.2⟩
      refine wps_pure hJ ⟨h, rfl⟩ fun s' lp' tr' h' => Or.inr ?_
      rintro b ⟨⟩
      exact ⟨h'.1, h'.2.symm⟩
    · dsimp only
      split
      · refine wps_call (stable_moving cfg hst) h fun s lp tr (r : ℝ) h => ?_
        show wps cfg (if decide (r - start > t) = true then _ else _) _ _ _ _
        split
        · exact stop _ _ _
        · exact again _ _ _ (moving_user h)
      · exact again _ _ _ h

/-- C42, what holds of it. A joint or linear movement is in progress and the control loop is between two
cycles. However the cycles then interleave with `wait`, for all timeouts and numbers of turns: if `wait`
returns, then it told the robot to stop because of its timeout, or it never saw the movement in progress
and returned true, or else the controller is idle and the result is true exactly if the control loop has
heard that the movement is finished. Missing: the first two cases, see `C42_timeout_true` and
`C42_failed_before_wait`. -/
theorem C42_wait_tells_how_it_ended_partial {cfg : Cfg} {s s' : Ctl} {lp' : P Unit} {timeout : ℝ} {n : ℕ}
    {b : Bool} {tr : List (Who × Ev)} (hst : s.state = .movj ∨ s.state = .movl) (hok : s.cmcSuccess = true)
    (h : Sys.Steps cfg ⟨s, wait timeout n, .pure ()⟩ tr ⟨s', .pure (some b), lp'⟩) :
    UserStopped tr ∨ (b = true ∧ ∀ x ∈ tr, x.1 = Who.loop) ∨
    (s'.state = .notControlling ∧ (b = true ↔ Finished s tr)) := by
  have hw : wps cfg (wait timeout n) (fun a s' lp' tr => WaitEnd cfg s a s' lp' tr ∨
      (a = some true ∧ ∀ x ∈ tr, x.1 = Who.loop)) s (.pure ()) [] := by
    have h0 : Moving cfg s s (.pure ()) [] :=
      Or.inl ⟨⟨rfl, rfl, rfl⟩, hok, by simp [Finished], Or.inl rfl⟩
    have hJ : Stable cfg fun s' lp' tr' => Moving cfg s s' lp' tr' ∧ ∀ x ∈ tr', x.1 = Who.loop := by
      intro s1 lp1 tr1 l s2 lp2 h1 h2
      refine ⟨stable_moving cfg hst _ _ _ _ _ _ h1.1 h2, fun x hx => ?_⟩
      rcases List.mem_append.mp hx with hx | hx
      · exact h1.2 x hx
      · simp only [byLoop, List.mem_map] at hx
        obtain ⟨e, -, rfl⟩ := hx
        rfl
    unfold wait getCurrentState
    refine wps_get hJ ⟨h0, by simp⟩ fun s1 lp1 tr1 h1 => ?_
    show wps cfg (if s1.state ≠ .movj ∧ s1.state ≠ .movl then _ else _) _ _ _ _
    split
    · exact wps_pure hJ h1 fun _ _ _ h2 => Or.inr ⟨rfl, h2.2⟩
    · rename_i hm
      refine wps_call (stable_moving cfg hst) h1.1 fun s2 lp2 tr2 r h2 => ?_
      refine wps_mono (fun _ _ _ _ h => Or.inl h) (waitLoop_end cfg hst timeout r n _ _ _ _ (moving_user h2) ?_)
      intro hi
      rw [hi] at hm
      simp at hm
  rcases wps_sound hw h with (h | h) | ⟨h1, h2⟩
  · exact Or.inl h
  · obtain ⟨⟨h1, h2, -⟩, h3⟩ := h b rfl
    refine Or.inr (Or.inr ⟨h1, ?_⟩)
    rw [h3]; exact h2
  · exact Or.inr (Or.inl ⟨Option.some.inj h1, h2⟩)

/-- `wait` sees the movement in progress, the loop ends it, `wait` returns true. -/
example : ∃ (s' : Ctl) (tr : List (Who × Ev)), midMovl.state = .movl ∧ midMovl.cmcSuccess = true ∧
    Sys.Steps oneJoint ⟨midMovl, wait 0 2, .pure ()⟩ tr ⟨s', .pure (some true), .pure ()⟩ ∧
    ¬UserStopped tr ∧ Finished midMovl tr := by
  have : can (robot oneJoint) (run oneJoint) (fun o s' tr => o = .ok () ∧ s'.state = .notControlling ∧
      s'.cmcSuccess = true ∧ Ev.now 11 ∈ tr) midMovl [] := by
    refine can_cycle [0] [0] [0] (by simp [midMovl]) rfl rfl rfl
      (oneJoint_inLimits (by norm_num) (by norm_num)) ?_
    show can (robot oneJoint) (handleMovlVel oneJoint [0]) _ _ _
    unfold handleMovlVel
    can_simp
    refine can_checkModes [.velocity] rfl ?_
    can_simp
    refine Or.inl ⟨by simp, 11, Or.inl ⟨by norm_num [midMovl, ready, Ctl.initial], can_stop' ?_⟩⟩
    can_simp
    simp [Ctl.stopped, midMovl, ready, Ctl.initial]
  obtain ⟨tr, o, s1, hr, rfl, h1, h2, h3⟩ := can_run this
  have hw : Run (robot oneJoint) (getCurrentState.bind fun st => waitLoop 0 0 1 st) s1 [] (.ok (some true)) s1 := by
    refine .get ?_
    show Run _ (waitLoop 0 0 1 s1.state) _ _ _ _
    rw [h1, waitLoop, if_pos rfl]
    refine .get ?_
    show Run _ (.pure (some s1.cmcSuccess)) _ _ _ _
    rw [h2]
    exact .pure _ _
  have steps : Sys.Steps oneJoint ⟨midMovl, wait 0 2, .pure ()⟩
      ([] ++ ([(Who.user, Ev.now 0)] ++ ([] ++ ([(Who.user, Ev.delay (midMovl.waitPeriodMs / 1000) ())] ++
        (([] ++ byLoop tr) ++ ([] : List Ev).map fun e => (Who.user, e))))))
      ⟨s1, .pure (some true), .pure ()⟩ := by
    refine .step (l := none) (.user (.get _ _)) ?_
    show Sys.Steps oneJoint ⟨midMovl, if midMovl.state ≠ .movj ∧ midMovl.state ≠ .movl then Prog.pure (some true)
      else Prog.bind Dev.now fun start => waitLoop 0 start 2 midMovl.state, _⟩ _ _
    rw [if_neg (by simp [midMovl])]
    refine .step (l := some _) (.user (l := some _) (Step.call (env := robot oneJoint) Call.now
      (fun start => waitLoop 0 start 2 midMovl.state) midMovl (0 : ℝ) trivial)) ?_
    rw [waitLoop, if_neg (by simp [midMovl])]
    dsimp only
    rw [if_neg (by simp)]
    refine .step (l := none) (.user (.get _ _)) ?_
    refine .step (l := some _) (.user (l := some _) (Step.call (env := robot oneJoint)
      (Call.delay (midMovl.waitPeriodMs / 1000)) (fun _ => getCurrentState.bind fun st => waitLoop 0 0 1 st)
      midMovl () trivial)) ?_
    exact (Sys.Steps.step (.loop (.again _)) (loop_steps hr rfl)).trans (user_steps hw _ rfl _)
  refine ⟨s1, _, rfl, rfl, steps, ?_, ?_⟩
  · rintro ⟨r, h⟩
    simp [byLoop] at h
  · refine ⟨.now 11, ?_, Or.inr ⟨rfl, 11, rfl, ⟨10, fun _ => 1, fun _ => ⟨0, 0⟩⟩, by simp [midMovl], ?_⟩⟩
    · simp [byLoop]; simpa using h3
    · norm_num [midMovl, ready, Ctl.initial]

/-- The calls of the user's thread, in order. -/
def userCalls (tr : List (Who × Ev)) : List Ev :=
  tr.filterMap fun x => match x.1 with
    | .user => some x.2
    | .loop => none

theorem userCalls_loop (tr : List (Who × Ev)) (es : List Ev) : userCalls (tr ++ byLoop es) = userCalls tr := by
  simp [userCalls, byLoop, List.filterMap_append, List.filterMap_map, Function.comp_def]

theorem userCalls_user (tr : List (Who × Ev)) (e : Ev) : userCalls (tr ++ [(Who.user, e)]) = userCalls tr ++ [e] := by
  simp [userCalls, List.filterMap_append]

/-- The clock has not passed the timeout, as far as the user's thread has seen. -/
def InTime (timeout start : ℝ) (tr : List (Who × Ev)) : Prop :=
  ∃ rest, userCalls tr = .now start :: rest ∧ ∀ t, Ev.now t ∈ rest → t - start ≤ timeout

theorem InTime.user {timeout start : ℝ} {tr : List (Who × Ev)} {e : Ev} (h : InTime timeout start tr)
    (he : ∀ t, e = .now t → t - start ≤ timeout) : InTime timeout start (tr ++ [(Who.user, e)]) := by
  obtain ⟨rest, h1, h2⟩ := h
  refine ⟨rest ++ [e], by rw [userCalls_user, h1]; rfl, fun t ht => ?_⟩
  rcases List.mem_append.mp ht with ht | ht
  · exact h2 t ht
  · exact he t (List.mem_singleton.mp ht).symm

theorem stable_inTime (cfg : Cfg) (timeout start : ℝ) : Stable cfg fun _ _ tr => InTime timeout start tr := by
  intro s lp tr l s1 lp1 h _
  unfold InTime at *
  rwa [userCalls_loop]

theorem waitLoop_inTime (cfg : Cfg) (t start : ℝ) (ht : t ≠ 0) (n : ℕ) :
    ∀ (st : CState) (s : Ctl) (lp : P Unit) (tr : List (Who × Ev)), InTime t start tr →
      wps cfg (waitLoop t start n st) (fun _ _ _ tr => UserStopped tr ∨ InTime t start tr) s lp tr := by
  have hJ := stable_inTime cfg t start
  induction n with
  | zero =>
    intro st s lp tr h
    exact wps_pure hJ h fun _ _ _ h => Or.inr h
  | succ n ih =>
    intro st s lp tr h
    rw [waitLoop]
    split
    · exact wps_get hJ h fun s lp tr h => wps_pure hJ h fun _ _ _ h => Or.inr h
    · dsimp only
      first
        | rw [if_pos ht]
        | skip
      refine wps_call hJ h fun s lp tr (r : ℝ) h => ?_
      show wps cfg (if decide (r - start > t) = true then _ else _) _ _ _ _
      split
      · exact stopControl_stops fun a s lp es hs => Or.inl (by
          obtain ⟨r, h⟩ := hs
          exact ⟨r, List.mem_append_right _ h⟩)
      · rename_i hr
        have hr' : r - start ≤ t := by simpa using hr
        have h' := h.user (e := .now r) (by rintro _ ⟨⟩; exact hr')
        refine wps_get hJ h' fun s lp tr h => ?_
        refine wps_call hJ h fun s lp tr r h => ?_
        refine wps_get hJ (h.user (by simp [record])) fun s lp tr h => ?_
        exact ih _ s lp tr h

/-- C42: if `wait` finds that more than its (nonzero) timeout has passed since it began, by the clock that
it reads, then it tells the robot to stop before it returns, whatever the control loop does. -/
theorem C42_timeout_stops {cfg : Cfg} {s s' : Ctl} {lp lp' : P Unit} {timeout t0 t : ℝ} {n : ℕ}
    {b : Option Bool} {tr : List (Who × Ev)} {rest : List Ev} (ht : timeout ≠ 0)
    (h : Sys.Steps cfg ⟨s, wait timeout n, lp⟩ tr ⟨s', .pure b, lp'⟩)
    (hfirst : userCalls tr = .now t0 :: rest) (hlate : Ev.now t ∈ rest) (htime : t - t0 > timeout) :
    UserStopped tr := by
  have hw : wps cfg (wait timeout n) (fun _ _ _ tr => UserStopped tr ∨ userCalls tr = [] ∨
      ∃ t0, InTime timeout t0 tr) s lp [] := by
    have hJ : Stable cfg fun _ _ tr => userCalls tr = [] := by
      intro s lp tr l s1 lp1 h _
      rwa [userCalls_loop]
    unfold wait getCurrentState
    refine wps_get hJ rfl fun s1 lp1 tr1 h1 => ?_
    show wps cfg (if s1.state ≠ .movj ∧ s1.state ≠ .movl then _ else _) _ _ _ _
    split
    · exact wps_pure hJ h1 fun _ _ _ h2 => Or.inr (Or.inl h2)
    · refine wps_call hJ h1 fun s2 lp2 tr2 r h2 => ?_
      refine wps_mono (fun _ _ _ _ h => h.imp id fun h => Or.inr ⟨r, h⟩)
        (waitLoop_inTime cfg timeout r ht n _ _ _ _ ⟨[], ?_, by simp⟩)
      rw [userCalls_user, h2]
      rfl
  rcases wps_sound hw h with h | h | ⟨t1, rest', h1, h2⟩
  · exact h
  · rw [h] at hfirst; simp at hfirst
  · rw [h1] at hfirst
    simp only [List.cons.injEq, Ev.now.injEq] at hfirst
    obtain ⟨rfl, rfl⟩ := hfirst
    have := h2 t hlate
    linarith

/-- `wait` with a timeout of one second, two seconds later, the loop resting. -/
theorem wait_timeout : ∃ s' tr,
    Sys.Steps oneJoint ⟨midMovl, wait 1 2, .pure ()⟩ tr ⟨s', .pure (some true), .pure ()⟩ ∧
    (∃ rest, userCalls tr = .now 0 :: rest ∧ Ev.now 2 ∈ rest) ∧ ¬Finished midMovl tr := by
  have : can (robot oneJoint) (wait 1 2) (fun o s' tr => o = .ok (some true) ∧
      tr = [.now 0, .now 2, .getControlModes none, .stop true]) midMovl [] := by
    unfold wait getCurrentState
    can_simp
    refine Or.inr ⟨by simp [midMovl], 0, ?_⟩
    rw [waitLoop]
    rw [if_neg (by simp [midMovl])]
    dsimp only
    rw [if_pos (by norm_num)]
    can_simp
    refine ⟨2, Or.inl ⟨by norm_num, ?_⟩⟩
    refine can_stop' ?_
    can_simp
    simp [Ctl.stopped, midMovl, ready, Ctl.initial]
  obtain ⟨tr, o, s', hr, rfl, hm⟩ := can_run this
  simp only [List.nil_append] at hm
  subst hm
  exact ⟨s', _, user_steps hr _ rfl _, ⟨_, rfl, by simp⟩, by simp [Finished]⟩

/-- C42 does not hold to the letter: when its timeout expires, `wait` stops the robot and returns true,
though the movement was not finished. -/
theorem C42_timeout_true : ∃ (s' : Ctl) (tr : List (Who × Ev)),
    Sys.Steps oneJoint ⟨midMovl, wait 1 2, .pure ()⟩ tr ⟨s', .pure (some true), .pure ()⟩ ∧
    ¬Finished midMovl tr := by
  obtain ⟨s', tr, h, -, hf⟩ := wait_timeout
  exact ⟨s', tr, h, hf⟩

example : ∃ (s s' : Ctl) (lp lp' : P Unit) (b : Option Bool) (tr : List (Who × Ev)) (rest : List Ev),
    Sys.Steps oneJoint ⟨s, wait 1 2, lp⟩ tr ⟨s', .pure b, lp'⟩ ∧ userCalls tr = .now 0 :: rest ∧
    Ev.now 2 ∈ rest ∧ (2 : ℝ) - 0 > 1 := by
  obtain ⟨s', tr, h, ⟨rest, h1, h2⟩, -⟩ := wait_timeout
  exact ⟨_, s', _, _, _, tr, rest, h, h1, h2, by norm_num⟩

/-- C42 does not hold to the letter: a movement that fails just before `wait` looks at the state is taken
for one that succeeded. -/
theorem C42_failed_before_wait : ∃ (s' : Ctl) (tr : List (Who × Ev)),
    Sys.Steps oneJoint ⟨midMovl, wait 0 1, .pure ()⟩ tr ⟨s', .pure (some true), .pure ()⟩ ∧
    s'.cmcSuccess = false ∧ ¬Finished midMovl tr := by
  have : can (robot oneJoint) (run oneJoint) (fun o s' tr => o = .ok () ∧ s'.state = .notControlling ∧
      s'.cmcSuccess = false ∧ ∀ e ∈ tr, ¬EndsMovement midMovl e) midMovl [] := by
    refine can_cycle_fails [0] [0] [0] (by simp [midMovl]) rfl rfl rfl
      (oneJoint_inLimits (by norm_num) (by norm_num)) ?_
    show can (robot oneJoint) (handleMovlVel oneJoint [0]) _ _ _
    unfold handleMovlVel
    can_simp
    refine can_checkModes [.position] rfl ?_
    can_simp
    refine Or.inr ⟨by simp, trivial, trivial, rfl, rfl, ?_⟩
    simp [goodRead, EndsMovement]
  obtain ⟨tr, o, s1, hr, rfl, h1, h2, h3⟩ := can_run this
  have hw : Run (robot oneJoint) (wait 0 1) s1 [] (.ok (some true)) s1 := by
    refine .get ?_
    show Run _ (if s1.state ≠ .movj ∧ s1.state ≠ .movl then _ else _) _ _ _ _
    rw [if_pos (by simp [h1])]
    exact .pure _ _
  refine ⟨s1, _, (Sys.Steps.step (.loop (.again _)) (loop_steps hr rfl)).trans (user_steps hw _ rfl _), h2, ?_⟩
  rintro ⟨e, he, hm⟩
  simp [byLoop] at he
  exact h3 e (by simpa using he) hm

end KD.Ctrl
