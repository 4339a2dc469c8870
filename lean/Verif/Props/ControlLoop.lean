import Verif.Ctrl.Witness

/-!
# C33 and C34: failing cycles of the control loop
-/

namespace KD.Ctrl

open Prog (wp wp_bind wp_of_run wp_sound can can_bind can_run Run Writes run_keeps)

/-! ## C33 -/

theorem firstModes_good (q v a : List ℝ) (tr : List Ev) :
    firstModes (goodRead q v a ++ tr) = firstModes tr := rfl

theorem firstModes_append {a b : List Ev} {r : Option (List Mode)} (h : firstModes a = some r) :
    firstModes (a ++ b) = some r := by
  induction a with
  | nil => simp [firstModes] at h
  | cons e a ih =>
    cases e <;> simp_all [firstModes]

theorem firstModes_none {a b : List Ev} (h : firstModes a = none) :
    firstModes (a ++ b) = firstModes b := by
  induction a with
  | nil => rfl
  | cons e a ih =>
    cases e <;> simp_all [firstModes]

theorem handlerFails_good {cfg : Cfg} {st : CState} {q v a : List ℝ} {tr : List Ev} :
    HandlerFails cfg st (goodRead q v a ++ tr) ↔ HandlerFails cfg st tr := by
  unfold HandlerFails
  rw [firstModes_good]
  simp [goodRead]

theorem EncoderFailure.not_read {tr es : List Ev} {r : Bool} (h : EncoderFailure tr)
    (hes : ∀ e ∈ es, ModeCall e) : ¬EncodersRead tr ∧ ¬EncodersRead (tr ++ (es ++ [.stop r])) := by
  have h1 : ∀ x, Ev.getEncoders x ∉ es := fun x h => hes _ h
  have h2 : ∀ x, Ev.getEncoderSpeeds x ∉ es := fun x h => hes _ h
  have h3 : ∀ x, Ev.getEncoderAccelerations x ∉ es := fun x h => hes _ h
  rcases h with rfl | ⟨q, rfl⟩ | ⟨q, v, rfl⟩ <;> simp [EncodersRead, h1, h2, h3]

/-- If the encoders could be read and the cycle then fails in any of the ways of `CycleFails`, the
movement is given up: robot told to stop, no motion command, controller idle, failure remembered. -/
theorem C33_failed_cycle_stops_partial {cfg : Cfg} {s s' : Ctl} {tr : List Ev}
    (hst : s.state ≠ .notControlling) (h : Exec cfg (run cfg) s tr (.ok ()) s')
    (hread : EncodersRead tr) (hfail : CycleFails cfg s.state tr) : Aborted s' tr := by
  have hend := run_cycle hst h
  cases hend with
  | skipped _ he _ => exact absurd hread (he.not_read (es := []) (r := true) (by simp)).1
  | gaveUp tr es r he _ hes => exact absurd hread (he.not_read hes).2
  | limits q v a es r _ _ hes =>
    exact ⟨rfl, rfl, ⟨goodRead q v a ++ es, r, by simp⟩,
      (goodRead_noMotion _ _ _).append (stop_noMotion hes r)⟩
  | failed q v a tr es r _ _ hend hes =>
    exact ⟨rfl, rfl, ⟨goodRead q v a ++ (tr ++ es), r, by simp⟩,
      (goodRead_noMotion _ _ _).append ((hend.same rfl).2.append (stop_noMotion hes r))⟩
  | went q v a tr s' _ hlim hend =>
    exfalso
    rcases hfail with ⟨q', hq', hlim'⟩ | hf
    · have : q' = q := by
        rcases List.mem_append.mp hq' with hq' | hq'
        · simpa [goodRead] using hq'
        · exact absurd hq' (hend.noRead _)
      exact hlim' (this ▸ hlim)
    · have := hend.fails.mpr (handlerFails_good.mp hf)
      simp at this

/-- A cycle with none of these failures leaves the success flag alone, and the movement goes on or
has come to its end. -/
theorem C33_good_cycle_keeps_success {cfg : Cfg} {s s' : Ctl} {tr : List Ev}
    (hst : s.state ≠ .notControlling) (h : Exec cfg (run cfg) s tr (.ok ()) s')
    (hread : EncodersRead tr) (hok : ¬CycleFails cfg s.state tr) :
    s'.cmcSuccess = s.cmcSuccess ∧ (s'.state = s.state ∨ s'.state = .notControlling) := by
  have hend := run_cycle hst h
  cases hend with
  | skipped _ he _ => exact absurd hread (he.not_read (es := []) (r := true) (by simp)).1
  | gaveUp tr es r he _ hes => exact absurd hread (he.not_read hes).2
  | limits q v a es r _ hlim hes =>
    exact absurd (Or.inl ⟨q, by simp [goodRead], hlim⟩) hok
  | failed q v a tr es r _ _ hend hes =>
    exfalso
    apply hok
    refine Or.inr ?_
    rw [handlerFails_good]
    have hf := hend.fails.mp rfl
    rcases hf with ⟨r', h1, h2⟩ | hf | ⟨_, hf⟩ | ⟨_, _, _, hf⟩ | ⟨_, _, _, hf⟩ | ⟨_, hf⟩ |
        ⟨_, _, _, _, _, hf⟩ | ⟨_, _, _, _, hf, hv⟩
    · exact Or.inl ⟨r', firstModes_append h1, h2⟩
    · exact Or.inr (Or.inl (List.mem_append_left _ hf))
    · exact Or.inr (Or.inr (Or.inl ⟨_, List.mem_append_left _ hf⟩))
    · exact Or.inr (Or.inr (Or.inr (Or.inl ⟨_, _, _, List.mem_append_left _ hf⟩)))
    · exact Or.inr (Or.inr (Or.inr (Or.inr (Or.inl ⟨_, _, _, List.mem_append_left _ hf⟩))))
    · exact Or.inr (Or.inr (Or.inr (Or.inr (Or.inr (Or.inl ⟨_, List.mem_append_left _ hf⟩)))))
    · exact Or.inr (Or.inr (Or.inr (Or.inr (Or.inr (Or.inr (Or.inl
        ⟨_, _, _, _, _, List.mem_append_left _ hf⟩))))))
    · exact Or.inr (Or.inr (Or.inr (Or.inr (Or.inr (Or.inr (Or.inr
        ⟨_, _, _, _, List.mem_append_left _ hf, hv⟩))))))
  | went q v a tr s' _ _ hend =>
    rcases hend.moves rfl with rfl | ⟨h1, h2, -, -⟩
    · exact ⟨rfl, Or.inl rfl⟩
    · exact ⟨h2, Or.inr h1⟩

theorem waitLoop_idle (cfg : Cfg) (timeout start : ℝ) (s : Ctl) (hst : s.state = .notControlling)
    (n : ℕ) (st : CState) (tr : List Ev) : wp (robot cfg) (waitLoop timeout start n st)
      (fun o s' _ => s'.state = .notControlling ∧ (o = .ok (some s.cmcSuccess) ∨ (o = .ok none ∧ n < 2)))
      s tr := by
  have h1 : ∀ n tr, wp (robot cfg) (waitLoop timeout start n .notControlling) (fun o s' _ =>
      s'.state = .notControlling ∧ (o = .ok (some s.cmcSuccess) ∨ (o = .ok none ∧ n + 1 < 2))) s tr := by
    intro n tr
    rcases n with _ | n
    · exact ⟨hst, Or.inr ⟨rfl, by omega⟩⟩
    · unfold waitLoop
      dev_simp
      exact ⟨fun _ => ⟨hst, by simp⟩, by simp⟩
  rcases n with _ | n
  · exact ⟨hst, Or.inr ⟨rfl, by omega⟩⟩
  · unfold waitLoop
    dev_simp
    refine ⟨fun _ => ⟨hst, by simp⟩, fun _ => ⟨fun _ t => ⟨fun _ => ?_, fun _ _ => ?_⟩, fun _ =>
      ⟨fun _ => ?_, fun _ _ => ?_⟩⟩⟩
    · refine wp_stop' fun es r hes => ?_; dev_simp; exact ⟨rfl, Or.inl rfl⟩
    · unfold getCurrentState
      dev_simp
      rw [hst]
      exact h1 _ _
    · refine wp_stop' fun es r hes => ?_; dev_simp; exact ⟨rfl, Or.inl rfl⟩
    · unfold getCurrentState
      dev_simp
      rw [hst]
      exact h1 _ _

/-- Once a movement has been given up, a `wait` that is pending, wherever it is in its loop (`st` is
the state it last saw), returns false within two turns, as long as no new command is given. -/
theorem C33_pending_wait_false {cfg : Cfg} {s s' : Ctl} {tr : List Ev} {timeout start : ℝ} {n : ℕ}
    {st : CState} {r : Option Bool} (hst : s.state = .notControlling) (hs : s.cmcSuccess = false)
    (h : Exec cfg (waitLoop timeout start n st) s tr (.ok r) s') (hn : 2 ≤ n) : r = some false := by
  obtain ⟨-, h1 | ⟨-, h2⟩⟩ := wp_sound (waitLoop_idle cfg timeout start s hst n st []) h
  · rw [hs] at h1; simpa using h1
  · omega

/-! A robot with one joint, limits -10 and 10, speeds up to 5, whose movement is a pure translation. -/

/-- A configuration with one joint. -/
noncomputable def oneJoint : Cfg where
  numJoints := 1
  numTcps := 1
  usePosdMovl := false
  enableFailFast := false
  qMin := [-10]
  qMax := [10]
  qdotMin := [0]
  qdotMax := [5]
  qRefSpeeds := [2]
  line := fun _ b d => ⟨d, fun _ => b, fun _ => ⟨0, 0⟩⟩
  ray := fun _ _ => ⟨1, fun _ => 1, fun _ => ⟨0, 0⟩⟩

/-- The initial state with the usual parameters. -/
noncomputable def ready : Ctl := Ctl.initial .base (1 / 20) 10 50 30 (1 / 20)

/-- A linear movement in progress. -/
noncomputable def midMovl : Ctl :=
  { ready with state := .movl, trajectories := [⟨10, fun _ => 1, fun _ => ⟨0, 0⟩⟩] }

theorem oneJoint_inLimits {v : ℝ} (h1 : -9 ≤ v) (h2 : v ≤ 9) : InLimits oneJoint [v] := by
  intro j hj
  have : j = 0 := by simp [oneJoint] at hj; omega
  subst this
  refine ⟨v, -10, 10, rfl, rfl, rfl, ?_, ?_⟩ <;> unfold tol <;> linarith

theorem oneJoint_inVelLimits {v : ℝ} (h : |v| ≤ 5) : InVelLimits oneJoint [v] := by
  intro j hj
  have : j = 0 := by simp [oneJoint] at hj; omega
  subst this
  exact ⟨v, 0, 5, rfl, rfl, rfl, fun _ => h, fun h => absurd rfl h⟩

/-- C33 does not hold to the letter: a cycle whose velocity command is refused by the robot is not a
failure for the controller; the movement goes on and its success flag stays true. -/
theorem C33_refused_command_ignored : ∃ (s' : Ctl) (tr : List Ev),
    Exec oneJoint (run oneJoint) midMovl tr (.ok ()) s' ∧ (∃ v, Ev.velocityMove v false ∈ tr) ∧
    s'.state = .movl ∧ s'.cmcSuccess = true := by
  suffices h : can (robot oneJoint) (run oneJoint) (fun o s' tr => o = .ok () ∧
      (∃ v, Ev.velocityMove v false ∈ tr) ∧ s'.state = .movl ∧ s'.cmcSuccess = true) midMovl [] by
    obtain ⟨tr, o, s', hr, rfl, h⟩ := can_run h
    exact ⟨s', tr, hr, by simpa using h⟩
  refine can_cycle [0] [0] [0] (by simp [midMovl]) rfl rfl rfl
    (oneJoint_inLimits (by norm_num) (by norm_num)) ?_
  show can (robot oneJoint) (handleMovlVel oneJoint [0]) _ _ _
  unfold handleMovlVel
  can_simp
  refine can_checkModes [.velocity] rfl ?_
  can_simp
  refine Or.inl ⟨by simp, 1, Or.inr ⟨by norm_num [midMovl, ready, Ctl.initial], some [0, 0, 0, 0, 0, 0], ?_⟩⟩
  unfold sendVelocity
  can_simp
  refine ⟨(true, []), Or.inr ⟨[], by simp [controlLaw], some [1], ?_⟩⟩
  can_simp
  refine Or.inr ⟨true, (checkJointVelocities_iff _ _).mpr (oneJoint_inVelLimits (by norm_num)), ?_⟩
  refine Or.inl ⟨rfl, Or.inr ⟨[1], by simp [buffer, oneJoint], false, ?_⟩⟩
  simp [midMovl, ready, Ctl.initial]

/-- A joint of a linear movement that is not in velocity mode: the hypotheses of
`C33_failed_cycle_stops_partial` are met. -/
example : ∃ (s' : Ctl) (tr : List Ev), midMovl.state ≠ .notControlling ∧
    Exec oneJoint (run oneJoint) midMovl tr (.ok ()) s' ∧ EncodersRead tr ∧
    CycleFails oneJoint midMovl.state tr := by
  suffices h : can (robot oneJoint) (run oneJoint) (fun o _ tr => o = .ok () ∧ EncodersRead tr ∧
      CycleFails oneJoint midMovl.state tr) midMovl [] by
    obtain ⟨tr, o, s', hr, rfl, h⟩ := can_run h
    exact ⟨s', tr, by simp [midMovl], hr, by simpa using h⟩
  refine can_cycle_fails [0] [0] [0] (by simp [midMovl]) rfl rfl rfl
    (oneJoint_inLimits (by norm_num) (by norm_num)) ?_
  show can (robot oneJoint) (handleMovlVel oneJoint [0]) _ _ _
  unfold handleMovlVel
  can_simp
  refine can_checkModes [.position] rfl ?_
  can_simp
  refine Or.inr ⟨by simp, trivial, trivial, ⟨[0], [0], [0], by simp [goodRead]⟩, Or.inr (Or.inl
    ⟨some [.position], by simp [goodRead, firstModes], ?_⟩)⟩
  simp [neededMode, midMovl, oneJoint]

/-! ## C34 -/

/-- Some encoder read failed. -/
def ReadFailed (tr : List Ev) : Prop :=
  Ev.getEncoders none ∈ tr ∨ Ev.getEncoderSpeeds none ∈ tr ∨ Ev.getEncoderAccelerations none ∈ tr

open Classical in
/-- How many times in a row the encoders could not be read by the control loop, counted over a history
(`n` before it). -/
noncomputable def failuresInARow (n : ℕ) : List Done → ℕ
  | [] => n
  | d :: ds =>
    if d.op = .cycle ∧ ReadFailed d.calls then failuresInARow (n + 1) ds
    else if d.op = .cycle ∧ EncodersRead d.calls then failuresInARow 0 ds
    else failuresInARow n ds

theorem EncoderFailure.failed {tr : List Ev} (h : EncoderFailure tr) : ReadFailed tr := by
  rcases h with rfl | ⟨q, rfl⟩ | ⟨q, v, rfl⟩ <;> simp [ReadFailed]

theorem ReadFailed.mono {a b : List Ev} (h : ReadFailed a) : ReadFailed (a ++ b) := by
  rcases h with h | h | h
  · exact Or.inl (List.mem_append_left _ h)
  · exact Or.inr (Or.inl (List.mem_append_left _ h))
  · exact Or.inr (Or.inr (List.mem_append_left _ h))

theorem goodRead_read {q v a : List ℝ} {tr : List Ev} : EncodersRead (goodRead q v a ++ tr) :=
  ⟨q, v, a, by simp [goodRead]⟩

theorem goodRead_not_failed {q v a : List ℝ} {tr : List Ev} (h1 : ∀ r, Ev.getEncoders r ∉ tr)
    (h2 : ∀ r, Ev.getEncoderSpeeds r ∉ tr) (h3 : ∀ r, Ev.getEncoderAccelerations r ∉ tr) :
    ¬ReadFailed (goodRead q v a ++ tr) := by
  simp [ReadFailed, goodRead, h1, h2, h3]

theorem modeCalls_noRead {es : List Ev} {b : Bool} (hes : ∀ e ∈ es, ModeCall e) :
    (∀ r, Ev.getEncoders r ∉ es ++ [.stop b]) ∧ (∀ r, Ev.getEncoderSpeeds r ∉ es ++ [.stop b]) ∧
    ∀ r, Ev.getEncoderAccelerations r ∉ es ++ [.stop b] := by
  have h1 : ∀ x, Ev.getEncoders x ∉ es := fun x h => hes _ h
  have h2 : ∀ x, Ev.getEncoderSpeeds x ∉ es := fun x h => hes _ h
  have h3 : ∀ x, Ev.getEncoderAccelerations x ∉ es := fun x h => hes _ h
  simp [h1, h2, h3]

/-- What the counter of the controller is after a cycle. -/
theorem cycle_count {cfg : Cfg} {s s' : Ctl} {tr : List Ev} (h : CycleEnd cfg s tr s') :
    (ReadFailed tr ∧ s'.encoderErrors = s.encoderErrors + 1) ∨
    (¬ReadFailed tr ∧ EncodersRead tr ∧ s'.encoderErrors = 0) := by
  cases h with
  | skipped _ he _ => exact Or.inl ⟨he.failed, rfl⟩
  | gaveUp tr es r he _ hes => exact Or.inl ⟨he.failed.mono, rfl⟩
  | limits q v a es r _ hlim hes =>
    obtain ⟨h1, h2, h3⟩ := modeCalls_noRead (b := r) hes
    exact Or.inr ⟨goodRead_not_failed h1 h2 h3, goodRead_read, rfl⟩
  | failed q v a tr es r _ _ hend hes =>
    obtain ⟨h1, h2, h3⟩ := modeCalls_noRead (b := r) hes
    refine Or.inr ⟨goodRead_not_failed ?_ ?_ ?_, goodRead_read, rfl⟩
    · intro x hx; rcases List.mem_append.mp hx with hx | hx
      · exact hend.noRead x hx
      · exact h1 x hx
    · intro x hx; rcases List.mem_append.mp hx with hx | hx
      · exact hend.noSpeeds x hx
      · exact h2 x hx
    · intro x hx; rcases List.mem_append.mp hx with hx | hx
      · exact hend.noAccelerations x hx
      · exact h3 x hx
  | went q v a tr s' _ _ hend =>
    refine Or.inr ⟨goodRead_not_failed hend.noRead hend.noSpeeds hend.noAccelerations, goodRead_read, ?_⟩
    rcases hend.moves rfl with rfl | ⟨-, -, h, -⟩
    · rfl
    · exact h

/-- Writes that do not touch the counter. -/
def NotCounter (f : Ctl → Ctl) : Prop := ∀ s, (f s).encoderErrors = s.encoderErrors

theorem command_count {cfg : Cfg} {op : Op} (hop : op ≠ .cycle) {s s' : Ctl} {tr : List Ev}
    {o : Out (Option Bool)} (h : Exec cfg (op.prog cfg) s tr o s') :
    s'.encoderErrors = s.encoderErrors := by
  refine run_keeps (W := NotCounter) (I := fun t => t.encoderErrors = s.encoderErrors)
    (fun f hf t ht => (hf t).trans ht) h (writes_command ?_ ?_ cfg op hop ?_) rfl
  · constructor <;> intros <;> intro s <;> rfl
  · constructor <;> intros <;> intro s <;> rfl
  · intro _ f s; rfl

/-- The answer of a cycle in a history carries nothing. -/
theorem exec_cycle {cfg : Cfg} {s s' : Ctl} {tr : List Ev} {b : Option Bool}
    (h : Exec cfg (Op.prog cfg .cycle) s tr (.ok b) s') : Exec cfg (run cfg) s tr (.ok ()) s' := by
  rcases Prog.run_bind.mp h with ⟨a, s1, t1, t2, h1, h2, rfl⟩ | ⟨-, h⟩
  · cases h2
    simpa using h1
  · simp at h

/-- The number of failures in a row, over any history of commands and cycles, is what the controller
counts. -/
theorem counter_correct {cfg : Cfg} {s s' : Ctl} {ds : List Done} (h : Hist cfg s ds s') :
    s'.encoderErrors = failuresInARow s.encoderErrors ds := by
  induction h with
  | nil s => rfl
  | @cons s op tr b s1 ds s' hx _ ih =>
    rw [ih, failuresInARow]
    by_cases hop : op = .cycle
    · subst hop
      have hr := exec_cycle hx
      by_cases hst : s.state = .notControlling
      · obtain ⟨-, rfl, rfl⟩ := run_idle hst hr
        simp [ReadFailed, EncodersRead]
      · rcases cycle_count (run_cycle hst hr) with ⟨h1, h2⟩ | ⟨h1, h2, h3⟩
        · simp [h1, h2]
        · simp [h1, h2, h3]
    · simp [hop, command_count hop hx]

/-- During a movement, after any history of the controller: while fewer than 20 reads in a row have
failed, a failing read only skips the cycle (nothing is sent and only the counter changes); the next
one gives the movement up. -/
theorem C34_twenty_failures_skipped_partial {cfg : Cfg} {frame : RefFrame} {gain duration period : ℝ}
    {cmc wait : ℤ} {ds : List Done} {s s' : Ctl} {tr : List Ev}
    (hist : Hist cfg (Ctl.initial frame gain duration cmc wait period) ds s)
    (hst : s.state ≠ .notControlling) (h : Exec cfg (run cfg) s tr (.ok ()) s') (hf : ReadFailed tr) :
    (failuresInARow 0 ds < 20 → NoMotion tr ∧ s' = { s with encoderErrors := failuresInARow 0 ds + 1 }) ∧
    (20 ≤ failuresInARow 0 ds → Aborted s' tr) := by
  have hc : s.encoderErrors = failuresInARow 0 ds := counter_correct hist
  rw [← hc]
  have hend := run_cycle hst h
  cases hend with
  | skipped _ he hn =>
    refine ⟨fun _ => ⟨he.noMotion, rfl⟩, fun h => ?_⟩
    unfold maxEncoderErrors at hn
    omega
  | gaveUp tr es r he hn hes =>
    refine ⟨fun h => ?_, fun _ => ⟨rfl, rfl, ⟨tr ++ es, r, by simp⟩, he.noMotion.append (stop_noMotion hes r)⟩⟩
    unfold maxEncoderErrors at hn
    omega
  | limits q v a es r _ _ hes =>
    obtain ⟨h1, h2, h3⟩ := modeCalls_noRead (b := r) hes
    exact absurd hf (goodRead_not_failed h1 h2 h3)
  | failed q v a tr es r h1 h2 hend hes =>
    rcases cycle_count (CycleEnd.failed q v a tr es r h1 h2 hend hes) with ⟨-, h⟩ | ⟨h, -⟩
    · simp [Ctl.stopped] at h
    · exact absurd hf h
  | went q v a tr s' h1 h2 hend =>
    exact absurd hf (goodRead_not_failed hend.noRead hend.noSpeeds hend.noAccelerations)

/-- A successful read starts the count anew. -/
theorem C34_good_read_resets {cfg : Cfg} {frame : RefFrame} {gain duration period : ℝ}
    {cmc wait : ℤ} {ds : List Done} {s s' : Ctl} {tr : List Ev} {b : Option Bool}
    (hist : Hist cfg (Ctl.initial frame gain duration cmc wait period) (ds ++ [⟨.cycle, tr, b⟩]) s)
    (hr : EncodersRead tr) (hn : ¬ReadFailed tr) : s.encoderErrors = 0 := by
  rw [counter_correct hist]
  clear hist
  have : ∀ n, failuresInARow n (ds ++ [⟨.cycle, tr, b⟩]) = 0 := by
    induction ds with
    | nil => intro n; simp [failuresInARow, hr, hn]
    | cons d ds ih =>
      intro n
      rw [List.cons_append, failuresInARow]
      split
      · exact ih _
      · split <;> exact ih _
  exact this _

theorem hist_append {cfg : Cfg} {s s1 s' : Ctl} {ds es : List Done} (h1 : Hist cfg s ds s1)
    (h2 : Hist cfg s1 es s') : Hist cfg s (ds ++ es) s' := by
  induction h1 with
  | nil => exact h2
  | cons hx _ ih => exact .cons hx (ih h2)

/-- One operation of a history, from a possible run. -/
theorem hist_one {cfg : Cfg} {op : Op} {s : Ctl} {Q : Option Bool → Ctl → List Ev → Prop}
    (h : can (robot cfg) (op.prog cfg) (fun o s' tr => ∃ b, o = .ok b ∧ Q b s' tr) s []) :
    ∃ tr b s', Hist cfg s [⟨op, tr, b⟩] s' ∧ Q b s' tr := by
  obtain ⟨tr, o, s', hr, b, rfl, hq⟩ := can_run h
  exact ⟨tr, b, s', .cons hr (.nil _), by simpa using hq⟩

/-- The controller in the middle of a gravity compensation, `n` failing reads in a row behind it. -/
noncomputable def midGcmp (b : Bool) (n : ℕ) : Ctl :=
  { ready with state := .gcmp, encoderErrors := n, cmcSuccess := b }

theorem gcmp_starts (b : Bool) (n : ℕ) : ∃ tr, Hist oneJoint
    { ready with encoderErrors := n, cmcSuccess := b } [⟨.gcmp, tr, some true⟩] (midGcmp b n) := by
  obtain ⟨tr, _, s', h, rfl, rfl⟩ := hist_one (cfg := oneJoint) (op := .gcmp)
    (s := { ready with encoderErrors := n, cmcSuccess := b })
    (Q := fun b' s' _ => b' = some true ∧ s' = midGcmp b n) (by
      show can (robot oneJoint) (Prog.bind gcmp _) _ _ _
      unfold gcmp setCurrentState
      can_simp
      refine can_setModes' [.torque] rfl (by simp) ?_
      can_simp
      exact Or.inl ⟨trivial, some true, rfl, rfl, rfl⟩)
  exact ⟨tr, h⟩

theorem cycle_fails (b : Bool) (n : ℕ) (hn : n < 20) : Hist oneJoint (midGcmp b n)
    [⟨.cycle, [.getEncoders none], none⟩] (midGcmp b (n + 1)) := by
  obtain ⟨tr, _, s', h, rfl, rfl, rfl⟩ := hist_one (cfg := oneJoint) (op := .cycle) (s := midGcmp b n)
    (Q := fun b' s' tr => b' = none ∧ tr = [.getEncoders none] ∧ s' = midGcmp b (n + 1)) (by
      show can (robot oneJoint) (Prog.bind (run oneJoint) _) _ _ _
      rw [can_bind]
      refine can_cycle_unread (by simp [midGcmp]) (fun _ => ?_) (fun h => ?_)
      · exact ⟨none, rfl, rfl, rfl, rfl⟩
      · unfold maxEncoderErrors midGcmp at h
        simp at h
        omega)
  exact h

theorem cycles_fail (b : Bool) (n : ℕ) (hn : n ≤ 20) : Hist oneJoint (midGcmp b 0)
    (List.replicate n ⟨.cycle, [.getEncoders none], none⟩) (midGcmp b n) := by
  induction n with
  | zero => exact .nil _
  | succ n ih =>
    rw [List.replicate_succ']
    exact hist_append (ih (by omega)) (cycle_fails b n (by omega))

theorem cycle_gives_up (b : Bool) (n : ℕ) (hn : 20 ≤ n) : ∃ tr, ReadFailed tr ∧
    Exec oneJoint (run oneJoint) (midGcmp b n) tr (.ok ())
      { ready with encoderErrors := n + 1, cmcSuccess := false } := by
  have : can (robot oneJoint) (run oneJoint) (fun o s' tr => o = .ok () ∧ ReadFailed tr ∧
      s' = { ready with encoderErrors := n + 1, cmcSuccess := false }) (midGcmp b n) [] := by
    refine can_cycle_unread (by simp [midGcmp]) (fun h => ?_) (fun h => ?_)
    · unfold maxEncoderErrors midGcmp at h
      simp at h
      omega
    · exact ⟨rfl, by simp [ReadFailed], rfl⟩
  obtain ⟨tr, o, s', hr, rfl, hf, rfl⟩ := can_run this
  exact ⟨tr, by simpa using hf, hr⟩

/-- The hypotheses of `C34_twenty_failures_skipped_partial` are met, on both sides of the limit. -/
example (n : ℕ) (hn : n ≤ 20) : ∃ ds s s' tr, Hist oneJoint ready ds s ∧ s.state ≠ .notControlling ∧
    failuresInARow 0 ds = n ∧ Exec oneJoint (run oneJoint) s tr (.ok ()) s' ∧ ReadFailed tr := by
  obtain ⟨tr, h⟩ := gcmp_starts true 0
  have hist := hist_append h (cycles_fail true n hn)
  have hc := (counter_correct hist).symm
  rcases lt_or_ge n 20 with h | h
  · refine ⟨_, _, midGcmp true (n + 1), [.getEncoders none], hist, by simp [midGcmp], hc, ?_, by simp [ReadFailed]⟩
    have := cycle_fails true n h
    cases this with
    | cons hx hn => cases hn; exact exec_cycle hx
  · obtain ⟨tr, hf, hx⟩ := cycle_gives_up true n h
    exact ⟨_, _, _, tr, hist, by simp [midGcmp], hc, hx, hf⟩

/-- C34 does not hold across movements: once a movement has been given up after 21 failing reads, the
next movement is given up at its first failing read, with none skipped. -/
theorem C34_next_movement_first_failure_aborts : ∃ (ds : List Done) (start tr : List Ev) (s s' : Ctl),
    Hist oneJoint ready (ds ++ [⟨.gcmp, start, some true⟩]) s ∧ s.state = .gcmp ∧
    Exec oneJoint (run oneJoint) s tr (.ok ()) s' ∧ ReadFailed tr ∧ Aborted s' tr := by
  obtain ⟨t1, h1⟩ := gcmp_starts true 0
  have h2 := hist_append h1 (cycles_fail true 20 le_rfl)
  obtain ⟨t3, -, h3⟩ := cycle_gives_up true 20 le_rfl
  have h3' : Hist oneJoint (midGcmp true 20) [⟨.cycle, t3, none⟩] _ :=
    .cons (Prog.run_bind.mpr (Or.inl ⟨(), _, t3, [], h3, .pure _ _, by simp⟩)) (.nil _)
  obtain ⟨t4, h4⟩ := gcmp_starts false 21
  have hist := hist_append (hist_append h2 h3') h4
  obtain ⟨t5, hf, h5⟩ := cycle_gives_up false 21 (by norm_num)
  have hab := (C34_twenty_failures_skipped_partial hist (by simp [midGcmp]) h5 hf).2 (by
    rw [show failuresInARow 0 _ = (midGcmp false 21).encoderErrors from (counter_correct hist).symm]
    simp [midGcmp])
  exact ⟨_, t4, t5, _, _, hist, rfl, h5, hf, hab⟩

end KD.Ctrl
