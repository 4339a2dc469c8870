import Verif.Ctrl.Handlers

/-!
# How one cycle of the control loop ends
-/

namespace KD.Ctrl

open Prog (wp wp_bind wp_of_run wp_sound Run)

/-- The encoder reads of a cycle, the last of which failed. -/
def EncoderFailure (tr : List Ev) : Prop :=
  tr = [.getEncoders none] ∨
  (∃ q, tr = [.getEncoders (some q), .getEncoderSpeeds none]) ∨
  ∃ q v, tr = [.getEncoders (some q), .getEncoderSpeeds (some v), .getEncoderAccelerations none]

/-- The calls of a successful encoder read. -/
def goodRead (q v a : List ℝ) : List Ev :=
  [.getEncoders (some q), .getEncoderSpeeds (some v), .getEncoderAccelerations (some a)]

/-- The ways a cycle can end. -/
inductive CycleEnd (cfg : Cfg) (s : Ctl) : List Ev → Ctl → Prop
  | skipped (tr) : EncoderFailure tr → s.encoderErrors + 1 ≤ maxEncoderErrors →
      CycleEnd cfg s tr { s with encoderErrors := s.encoderErrors + 1 }
  | gaveUp (tr es r) : EncoderFailure tr → maxEncoderErrors < s.encoderErrors + 1 →
      (∀ e ∈ es, ModeCall e) →
      CycleEnd cfg s (tr ++ (es ++ [.stop r]))
        (Ctl.stopped { s with encoderErrors := s.encoderErrors + 1, cmcSuccess := false })
  | limits (q v a es r) : q.length = cfg.numJoints → ¬InLimits cfg q → (∀ e ∈ es, ModeCall e) →
      CycleEnd cfg s (goodRead q v a ++ (es ++ [.stop r]))
        (Ctl.stopped { s with encoderErrors := 0, cmcSuccess := false })
  | failed (q v a tr es r) : q.length = cfg.numJoints → InLimits cfg q →
      HandlerEnd cfg s.state { s with encoderErrors := 0 } false tr { s with encoderErrors := 0 } →
      (∀ e ∈ es, ModeCall e) →
      CycleEnd cfg s (goodRead q v a ++ (tr ++ (es ++ [.stop r])))
        (Ctl.stopped { s with encoderErrors := 0, cmcSuccess := false })
  | went (q v a tr s') : q.length = cfg.numJoints → InLimits cfg q →
      HandlerEnd cfg s.state { s with encoderErrors := 0 } true tr s' →
      CycleEnd cfg s (goodRead q v a ++ tr) s'

/-- Every cycle of a movement ends in one of these ways. -/
theorem run_cycle {cfg : Cfg} {s s' : Ctl} {tr : List Ev} (hst : s.state ≠ .notControlling)
    (h : Exec cfg (run cfg) s tr (.ok ()) s') : CycleEnd cfg s tr s' := by
  refine wp_sound (Q := fun o s' tr => o = .ok () → CycleEnd cfg s tr s') ?_ h rfl
  clear h
  unfold run getCurrentState
  dev_simp
  refine ⟨fun e => absurd e hst, fun _ => ?_⟩
  unfold runBody readEncoders
  dev_simp
  have hgive : ∀ tr, EncoderFailure tr → maxEncoderErrors < s.encoderErrors + 1 →
      wp (robot cfg) (Prog.bind stopControl fun _ => Prog.pure ())
        (fun o s' tr => o = .ok () → CycleEnd cfg s tr s')
        { s with encoderErrors := s.encoderErrors + 1, cmcSuccess := false } tr := by
    intro tr htr hn
    refine wp_stop' fun es r hes => ?_
    dev_simp
    exact fun _ => .gaveUp tr es r htr hn hes
  refine ⟨⟨fun hn _ => ?_, fun hn => ?_⟩, fun q hq => ⟨⟨fun hn _ => ?_, fun hn => ?_⟩, fun v hv =>
    ⟨⟨fun hn _ => ?_, fun hn => ?_⟩, fun a ha => ⟨by simp, fun ok hok => ⟨fun hk => ?_, fun hk => ?_⟩⟩⟩⟩⟩
  · exact .skipped _ (Or.inl rfl) (by simpa using hn)
  · exact hgive _ (Or.inl rfl) (by simpa using hn)
  · exact .skipped _ (Or.inr (Or.inl ⟨q, rfl⟩)) (by simpa using hn)
  · exact hgive _ (Or.inr (Or.inl ⟨q, rfl⟩)) (by simpa using hn)
  · exact .skipped _ (Or.inr (Or.inr ⟨q, v, rfl⟩)) (by simpa using hn)
  · exact hgive _ (Or.inr (Or.inr ⟨q, v, rfl⟩)) (by simpa using hn)
  · subst hk
    have hlim := (checkJointLimits_iff cfg q).mp hok
    rw [wp_bind]
    refine wp_of_run fun tr o s' hr => ?_
    rcases o with b | _
    · have hend := run_dispatch hst hr
      dev_simp
      refine ⟨fun hb _ => ?_, fun hb => ?_⟩
      · subst hb
        exact .went q v a tr s' hq hlim hend
      · have hb' : b = false := by simpa using hb
        subst hb'
        obtain ⟨rfl, -⟩ := hend.same rfl
        refine wp_stop' fun es r hes => ?_
        dev_simp
        intro _
        have := CycleEnd.failed (cfg := cfg) (s := s) q v a tr es r hq hlim hend hes
        simpa [goodRead] using this
    · simp [Prog.Out.andThen]
  · have hlim : ¬InLimits cfg q := by
      rw [← checkJointLimits_iff, hok]; simpa using hk
    refine ⟨by simp, fun _ => wp_stop' fun es r hes => ?_⟩
    dev_simp
    exact fun _ => .limits q v a es r hq hlim hes

theorem EncoderFailure.noMotion {tr : List Ev} (h : EncoderFailure tr) : NoMotion tr := by
  rcases h with rfl | ⟨q, rfl⟩ | ⟨q, v, rfl⟩ <;> simp [NoMotion, IsMotion]

theorem goodRead_noMotion (q v a : List ℝ) : NoMotion (goodRead q v a) := by
  simp [NoMotion, IsMotion, goodRead]

theorem NoMotion.append {a b : List Ev} (ha : NoMotion a) (hb : NoMotion b) : NoMotion (a ++ b) := by
  intro e he
  rcases List.mem_append.mp he with h | h
  · exact ha e h
  · exact hb e h

theorem stop_noMotion {es : List Ev} (h : ∀ e ∈ es, ModeCall e) (r : Bool) :
    NoMotion (es ++ [.stop r]) :=
  NoMotion.append (mode_calls_only h).2.2.2.2.2.2.2.2.2 (by simp [NoMotion, IsMotion])

/-- A cycle with the controller idle does nothing. -/
theorem run_idle {cfg : Cfg} {s s' : Ctl} {tr : List Ev} {o : Out Unit} (hst : s.state = .notControlling)
    (h : Exec cfg (run cfg) s tr o s') : o = .ok () ∧ tr = [] ∧ s' = s := by
  refine wp_sound (Q := fun o s' tr => o = .ok () ∧ tr = [] ∧ s' = s) ?_ h
  unfold run getCurrentState
  dev_simp
  exact ⟨fun _ => by simp, fun h => absurd hst h⟩

end KD.Ctrl
