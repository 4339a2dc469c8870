import Verif.Props.ControlLoop

/-!
# C36: configuration parameters
-/

namespace KD.Ctrl

open scoped Classical
open Prog (wp wp_bind wp_of_run wp_sound can can_bind can_run Run Writes run_keeps)

/-- What is kept of a value: the periods are whole milliseconds and the streaming command is a whole
number, rounded towards zero; other values are kept as they are. -/
noncomputable def storedValue (k : Key) (v : ℝ) : ℝ :=
  match k with
  | .cmcPeriod | .waitPeriod | .streaming => if 0 ≤ v then (⌊v⌋ : ℝ) else (⌈v⌉ : ℝ)
  | _ => v

theorem toInt_some {v : ℝ} {i : ℤ} (h : toInt v = some i) :
    (i : ℝ) = if 0 ≤ v then (⌊v⌋ : ℝ) else (⌈v⌉ : ℝ) := by
  unfold toInt at h
  dsimp only at h
  by_cases hv : 0 ≤ v
  · rw [if_pos hv] at h ⊢
    simp only [Option.ite_none_right_eq_some, Option.some.injEq] at h
    rw [h.2]
  · rw [if_neg hv] at h ⊢
    simp only [Option.ite_none_right_eq_some, Option.some.injEq] at h
    rw [h.2]

/-- While a movement is in progress parameters are neither set nor is the robot bothered. -/
theorem C36_no_change_while_moving {cfg : Cfg} {s s' : Ctl} {tr : List Ev} {o : Out Bool}
    (hst : s.state ≠ .notControlling) (key : Key) (value : ℝ) (params : List (Key × ℝ))
    (h : Exec cfg (setParameter key value) s tr o s' ∨ Exec cfg (setParameters params) s tr o s') :
    o = .ok false ∧ tr = [] ∧ s' = s := by
  rcases h with h | h
  · refine wp_sound (Q := fun o s' tr => o = .ok false ∧ tr = [] ∧ s' = s) ?_ h
    unfold setParameter getCurrentState
    dev_simp
    exact ⟨fun _ => by simp, fun h => absurd hst h⟩
  · refine wp_sound (Q := fun o s' tr => o = .ok false ∧ tr = [] ∧ s' = s) ?_ h
    unfold setParameters getCurrentState
    dev_simp
    exact ⟨fun _ => by simp, fun h => absurd hst h⟩

/-- How `setParameter` ends. -/
structure SetEnd (k : Key) (v : ℝ) (s : Ctl) (b : Bool) (s' : Ctl) : Prop where
  ok : b = true → param s' k = some (storedValue k v)
  others : ∀ k', k' ≠ k → param s' k' = param s k'
  refused : b = false → k ≠ .streaming → s' = s
  idle : s'.state = s.state

theorem setParameter_end (cfg : Cfg) (k : Key) (v : ℝ) (s : Ctl) : wp (robot cfg) (setParameter k v)
    (fun o s' _ => ∀ b, o = .ok b → SetEnd k v s b s') s [] := by
  have hsame : ∀ k, SetEnd k v s false s := fun k => ⟨by simp, by simp, by simp, rfl⟩
  unfold setParameter getCurrentState presetStreamingCommand setCurrentState
  cases k <;> dev_simp
  case gain =>
    refine ⟨fun _ => ?_, fun _ => ⟨fun _ => ?_, fun _ => ?_⟩⟩ <;> rintro b ⟨⟩
    · exact hsame _
    · exact hsame _
    · exact ⟨by simp [param, storedValue], fun k' h => by cases k' <;> simp_all [param], by simp, rfl⟩
  case duration =>
    refine ⟨fun _ => ?_, fun _ => ⟨fun _ => ?_, fun _ => ?_⟩⟩ <;> rintro b ⟨⟩
    · exact hsame _
    · exact hsame _
    · exact ⟨by simp [param, storedValue], fun k' h => by cases k' <;> simp_all [param], by simp, rfl⟩
  case cmcPeriod =>
    refine ⟨fun _ => ?_, fun _ r => ⟨fun _ => ⟨by simp, fun i hi => ?_⟩, fun _ => ?_⟩⟩ <;> rintro b ⟨⟩
    · exact hsame _
    · exact ⟨by simp [param, storedValue, toInt_some hi], fun k' h => by cases k' <;> simp_all [param],
        by simp, rfl⟩
    · exact hsame _
  case waitPeriod =>
    refine ⟨fun _ => ?_, fun _ => ⟨fun _ => ?_, fun _ => ⟨by simp, fun i hi => ?_⟩⟩⟩ <;> rintro b ⟨⟩
    · exact hsame _
    · exact hsame _
    · exact ⟨by simp [param, storedValue, toInt_some hi], fun k' h => by cases k' <;> simp_all [param],
        by simp, rfl⟩
  case frame =>
    refine ⟨fun _ => ?_, fun _ => ⟨fun _ => ?_, fun hf => ?_⟩⟩ <;> rintro b ⟨⟩
    · exact hsame _
    · exact hsame _
    · refine ⟨fun _ => ?_, fun k' h => by cases k' <;> simp_all [param], by simp, rfl⟩
      simp only [param, storedValue, RefFrame.vocab, Option.some.injEq]
      by_cases h1 : v = vocabTcpFrame
      · simp [h1]
      · have h2 : v = vocabBaseFrame := by
          by_contra h2
          exact hf ⟨h2, h1⟩
        have h3 : ¬((vocabBaseFrame : ℝ) = vocabTcpFrame) := by
          rw [← h2]; exact h1
        simp [h2, h3]
  case streaming =>
    refine ⟨fun _ => ?_, fun hst => ⟨by simp, fun i hi => ?_⟩⟩
    · rintro b ⟨⟩; exact hsame _
    · have hidle : s.state = .notControlling := not_not.mp hst
      have key : ∀ (b : Bool) (s' : Ctl), s' = { s with state := .notControlling, streaming := vocabNotSet } →
          ∀ tr, wp (robot cfg) (if b = true then
            Prog.set (fun s => { s with streaming := i }) (Prog.pure true) else Prog.pure false)
          (fun o s' _ => ∀ b, o = .ok b → SetEnd .streaming v s b s') s' tr := by
        rintro b s' rfl tr
        dev_simp
        refine ⟨fun _ => ?_, fun _ => ?_⟩ <;> rintro b ⟨⟩
        · exact ⟨by simp [param, storedValue, toInt_some hi], fun k' h => by cases k' <;> simp_all [param],
            by simp, hidle.symm⟩
        · exact ⟨by simp, fun k' h => by cases k' <;> simp_all [param], by simp, hidle.symm⟩
      refine ⟨fun _ => wp_setModes fun b es _ _ => key b _ rfl _, fun _ => ⟨fun _ => wp_setModes
        fun b es _ _ => key b _ rfl _, fun _ => ⟨fun _ => wp_setModes fun b es _ _ => key b _ rfl _, fun _ => ?_⟩⟩⟩
      refine ⟨by simp, fun _ => ?_⟩
      rintro b ⟨⟩
      exact ⟨by simp, fun k' h => by cases k' <;> simp_all [param], by simp, hidle.symm⟩
  case unknown =>
    refine ⟨fun _ => ?_, fun _ => ?_⟩ <;> rintro b ⟨⟩
    · exact hsame _
    · exact hsame _

/-- A successful `setParameter` changes the value of its key to the stored value and no other; one that
is refused changes nothing (the streaming command aside). -/
theorem C36_set_changes_only_its_key {cfg : Cfg} {k : Key} {v : ℝ} {s s' : Ctl} {tr : List Ev} {b : Bool}
    (h : Exec cfg (setParameter k v) s tr (.ok b) s') :
    (b = true → param s' k = some (storedValue k v)) ∧ (∀ k', k' ≠ k → param s' k' = param s k') ∧
    (b = false → k ≠ .streaming → s' = s) := by
  have := wp_sound (setParameter_end cfg k v s) h b rfl
  exact ⟨this.ok, this.others, this.refused⟩

/-- Operations that may give a new value to a key: a set of the key that succeeds, or a set of several
keys among them this one. -/
def SetsKey (k : Key) (d : Done) : Prop :=
  (∃ v, d.op = .setParameter k v ∧ d.answer = some true) ∨ ∃ ps, d.op = .setParameters ps ∧ ∃ v, (k, v) ∈ ps

/-- Writes that leave all parameters but the streaming command alone. -/
def NotParam (f : Ctl → Ctl) : Prop := ∀ s k, k ≠ .streaming → param (f s) k = param s k

theorem setAll_keeps {cfg : Cfg} {k : Key} {ps : List (Key × ℝ)}
    (hps : ∀ v, (k, v) ∉ ps) {ok : Bool} {s s' : Ctl} {tr : List Ev} {b : Bool}
    (h : Exec cfg (setAll ps ok) s tr (.ok b) s') : param s' k = param s k := by
  induction ps generalizing ok s tr with
  | nil => cases h; rfl
  | cons p ps ih =>
    obtain ⟨k', v⟩ := p
    unfold setAll at h
    rcases Prog.run_bind.mp h with ⟨b1, s1, t1, t2, h1, h2, rfl⟩ | ⟨-, h⟩
    · rw [ih (fun v hv => hps v (List.mem_cons_of_mem _ hv)) h2]
      refine (wp_sound (setParameter_end cfg k' v s) h1 b1 rfl).others k ?_
      rintro rfl
      exact hps v List.mem_cons_self
    · simp at h

theorem param_kept {cfg : Cfg} {k : Key} (hk : k ≠ .streaming) {s s' : Ctl} {ds : List Done}
    (h : Hist cfg s ds s') (hno : ∀ d ∈ ds, ¬SetsKey k d) : param s' k = param s k := by
  induction h with
  | nil => rfl
  | @cons s op tr b s1 ds s' hx _ ih =>
    rw [ih fun d hd => hno d (List.mem_cons_of_mem _ hd)]
    have hop := hno _ List.mem_cons_self
    by_cases h1 : ∃ k' v, op = .setParameter k' v
    · obtain ⟨k', v, rfl⟩ := h1
      rcases Prog.run_bind.mp hx with ⟨b1, s2, t1, t2, h1, h2, rfl⟩ | ⟨-, h⟩
      · cases h2
        have hend := wp_sound (setParameter_end cfg k' v s) h1 b1 rfl
        by_cases hkk : k = k'
        · subst hkk
          rcases b1 with _ | _
          · rw [hend.refused rfl hk]
          · exact absurd (Or.inl ⟨v, rfl, rfl⟩) hop
        · exact hend.others k hkk
      · simp at h
    by_cases h2 : ∃ ps, op = .setParameters ps
    · obtain ⟨ps, rfl⟩ := h2
      rcases Prog.run_bind.mp hx with ⟨b1, s2, t1, t2, h1, h2, rfl⟩ | ⟨-, h⟩
      · cases h2
        refine wp_sound (Q := fun o s' _ => ∀ b, o = .ok b → param s' k = param s k) ?_ h1 b1 rfl
        unfold setParameters getCurrentState
        dev_simp
        refine ⟨by simp, fun _ => wp_of_run fun tr o s' hr b hb => ?_⟩
        subst hb
        exact setAll_keeps (fun v hv => hop (Or.inr ⟨ps, rfl, v, hv⟩)) hr
      · simp at h
    · refine run_keeps (W := NotParam) (I := fun t => param t k = param s k)
        (fun f hf t ht => (hf t k hk).trans ht) hx ?_ rfl
      have hcmd : CommandWrites NotParam := by
        constructor <;> intros <;> intro s k hk <;> cases k <;> first | rfl | exact absurd rfl hk
      by_cases hc : op = .cycle
      · subst hc
        refine writes_cycle ?_ cfg
        constructor <;> intro s k hk <;> cases k <;> first | rfl | exact absurd rfl hk
      · cases op
        case setParameter k' v => exact absurd ⟨k', v, rfl⟩ h1
        case setParameters ps => exact absurd ⟨ps, rfl⟩ h2
        case cycle => exact absurd rfl hc
        case movj =>
          refine Prog.writes_bind (writes_movj hcmd ?_) fun _ => True.intro
          intro f s k hk; cases k <;> first | rfl | exact absurd rfl hk
        case relj =>
          refine Prog.writes_bind (writes_relj hcmd ?_) fun _ => True.intro
          intro f s k hk; cases k <;> first | rfl | exact absurd rfl hk
        case stat => exact Prog.writes_bind writes_stat fun _ => True.intro
        case inv => exact Prog.writes_bind writes_inv fun _ => True.intro
        case movl => exact Prog.writes_bind (writes_movl hcmd) fun _ => True.intro
        case movv => exact Prog.writes_bind (writes_movv hcmd) fun _ => True.intro
        case gcmp => exact Prog.writes_bind (writes_gcmp hcmd) fun _ => True.intro
        case forc => exact Prog.writes_bind (writes_forc hcmd) fun _ => True.intro
        case stopControl =>
          exact Prog.writes_bind (writes_stopControl (hcmd.state _) (hcmd.trajectories _)) fun _ => True.intro
        case wait => exact writes_wait hcmd
        case tool => exact Prog.writes_bind writes_tool fun _ => True.intro
        case pose => exact Prog.writes_bind writes_pose fun _ => True.intro
        case twist => exact Prog.writes_bind writes_twist fun _ => True.intro
        case wrench => exact Prog.writes_bind writes_wrench fun _ => True.intro
        case getParameter => exact Prog.writes_bind writes_getParameter fun _ => True.intro

/-- After a successful `setParameter`, and whatever commands and cycles follow, `getParameter` reports
the stored value until the next set of the same key. Not for the streaming command. -/
theorem C36_get_reports_last_set_partial {cfg : Cfg} {k : Key} (hk : k ≠ .streaming) {v : ℝ}
    {s s1 s2 s3 : Ctl} {tr tr' : List Ev} {ds : List Done} {r : Option ℝ}
    (hset : Exec cfg (setParameter k v) s tr (.ok true) s1) (hist : Hist cfg s1 ds s2)
    (hno : ∀ d ∈ ds, ¬SetsKey k d) (hget : Exec cfg (getParameter k) s2 tr' (.ok r) s3) :
    r = some (storedValue k v) := by
  have h1 := (wp_sound (setParameter_end cfg k v s) hset true rfl).ok rfl
  have h2 := param_kept hk hist hno
  have h3 : r = param s2 k := by
    refine wp_sound (Q := fun o _ _ => ∀ r, o = .ok r → r = param s2 k) ?_ hget r rfl
    unfold getParameter
    dev_simp
    rintro r ⟨⟩; rfl
  rw [h3, h2, h1]

/-- Whole numbers are kept as they are. -/
theorem C36_whole_numbers_kept (k : Key) (n : ℤ) : storedValue k (n : ℝ) = n := by
  cases k <;> simp [storedValue]

/-- The hypotheses are met: set the gain, start a movement, fail a cycle, ask for the gain. -/
example : ∃ s1 s2 tr ds, Exec oneJoint (setParameter .gain 3) ready tr (.ok true) s1 ∧
    Hist oneJoint s1 ds s2 ∧ ds ≠ [] ∧ (∀ d ∈ ds, ¬SetsKey .gain d) ∧
    ∃ tr' s3, Exec oneJoint (getParameter .gain) s2 tr' (.ok (some 3)) s3 := by
  have h1 : can (robot oneJoint) (setParameter .gain 3) (fun o s' _ => o = .ok true ∧
      s' = { ready with gain := 3 }) ready [] := by
    unfold setParameter getCurrentState
    can_simp
    exact Or.inr ⟨by simp [ready, Ctl.initial], Or.inr ⟨by norm_num, trivial, trivial⟩⟩
  obtain ⟨tr, o, s1, hr, rfl, rfl⟩ := can_run h1
  obtain ⟨tr2, b, s2, h2, rfl, rfl⟩ := hist_one (cfg := oneJoint) (op := .gcmp)
    (s := { ready with gain := 3 }) (Q := fun b' s' _ => b' = some true ∧
      s' = { ready with gain := 3, state := .gcmp, streaming := vocabNotSet }) (by
      show can (robot oneJoint) (Prog.bind gcmp _) _ _ _
      unfold gcmp setCurrentState
      can_simp
      refine can_setModes' [.torque] rfl (by simp) ?_
      can_simp
      exact Or.inl ⟨trivial, some true, rfl, by simp⟩)
  have h3 : can (robot oneJoint) (getParameter .gain) (fun o _ _ => o = .ok (some 3))
      { ready with gain := 3, state := .gcmp, streaming := vocabNotSet } [] := by
    unfold getParameter
    can_simp
    rfl
  obtain ⟨tr3, o3, s3, hr3, rfl⟩ := can_run h3
  exact ⟨_, _, tr, _, hr, h2, by simp, by simp [SetsKey], tr3, s3, hr3⟩

/-- Not kept: a period that is not a whole number of milliseconds. Half a millisecond is accepted and
becomes zero, which the control law divides by. -/
theorem C36_period_truncated_to_zero : ∃ tr s',
    Exec oneJoint (setParameter .cmcPeriod (1 / 2)) ready tr (.ok true) s' ∧
    param s' .cmcPeriod = some 0 ∧ ∀ gain d v, controlLaw gain s'.cmcPeriodMs [d] [v] = none := by
  have h1 : can (robot oneJoint) (setParameter .cmcPeriod (1 / 2)) (fun o s' _ => o = .ok true ∧
      s'.cmcPeriodMs = 0) ready [] := by
    unfold setParameter getCurrentState
    can_simp
    refine Or.inr ⟨by simp [ready, Ctl.initial], true, Or.inl ⟨rfl, Or.inr ⟨0, ?_, trivial, rfl⟩⟩⟩
    have : ⌊(1 / 2 : ℝ)⌋ = 0 := by norm_num
    unfold toInt
    rw [this]
    norm_num
  obtain ⟨tr, o, s1, hr, rfl, h⟩ := can_run h1
  exact ⟨tr, s1, hr, by simp [param, h], fun gain d v => by simp [controlLaw, h]⟩

/-- The streaming command is not kept: a movement, even one that is over, unsets it. -/
theorem C36_streaming_command_lost : ∃ tr s1 ds s2,
    Exec oneJoint (setParameter .streaming vocabTwist) ready tr (.ok true) s1 ∧
    param s1 .streaming = some (vocabTwist : ℝ) ∧ Hist oneJoint s1 ds s2 ∧
    (∀ d ∈ ds, ¬SetsKey .streaming d) ∧ s2.state = .notControlling ∧
    param s2 .streaming = some (vocabNotSet : ℝ) ∧ vocabTwist ≠ vocabNotSet := by
  have h1 : can (robot oneJoint) (setParameter .streaming vocabTwist) (fun o s' _ => o = .ok true ∧
      s' = { ready with streaming := vocabTwist }) ready [] := by
    unfold setParameter getCurrentState presetStreamingCommand setCurrentState
    can_simp
    refine Or.inr ⟨by simp [ready, Ctl.initial], Or.inr ⟨vocabTwist, ?_, ?_⟩⟩
    · unfold toInt
      have : (0 : ℝ) ≤ (vocabTwist : ℝ) := by
        have : (0 : ℤ) ≤ vocabTwist := by decide
        exact_mod_cast this
      rw [if_pos this, Int.floor_intCast]
      exact if_pos ⟨by decide, by decide⟩
    · refine Or.inr ⟨by decide, Or.inl ⟨rfl, can_setModes' [.velocity] rfl (by simp) ?_⟩⟩
      can_simp
      exact Or.inl ⟨trivial, trivial, rfl⟩
  obtain ⟨tr, o, s1, hr, rfl, rfl⟩ := can_run h1
  obtain ⟨tr2, b, s2, h2, rfl⟩ := hist_one (cfg := oneJoint) (op := .stopControl)
    (s := { ready with streaming := vocabTwist }) (Q := fun _ s' _ =>
      s' = Ctl.stopped { ready with streaming := vocabTwist }) (by
      show can (robot oneJoint) (Prog.bind stopControl _) _ _ _
      refine can_stop' ?_
      can_simp
      exact ⟨some true, by simp⟩)
  exact ⟨tr, _, _, _, hr, rfl, h2, by simp [SetsKey], rfl, rfl, by decide⟩

/-- A group of parameters is not set as a whole: it is refused for one value, and another one is
changed. -/
theorem C36_refused_group_changes_some : ∃ tr s',
    Exec oneJoint (setParameters [(.gain, 3), (.duration, 0)]) ready tr (.ok false) s' ∧
    param ready .gain = some (1 / 20) ∧ param s' .gain = some 3 := by
  have h1 : can (robot oneJoint) (setParameters [(.gain, 3), (.duration, 0)]) (fun o s' _ =>
      o = .ok false ∧ s'.gain = 3) ready [] := by
    unfold setParameters setAll setAll setAll setParameter getCurrentState
    can_simp
    have hs : ready.state = .notControlling := rfl
    refine Or.inr ⟨by simp [hs], Or.inr ⟨by simp [hs], Or.inr ⟨by norm_num, Or.inr ⟨by simp [hs],
      Or.inl ⟨le_rfl, by simp, trivial⟩⟩⟩⟩⟩
  obtain ⟨tr, o, s1, hr, rfl, h⟩ := can_run h1
  exact ⟨tr, s1, hr, rfl, by simp [param, h]⟩

theorem setAll_end {cfg : Cfg} {ps : List (Key × ℝ)} : ∀ {ok : Bool} {s s' : Ctl} {tr : List Ev} {b : Bool},
    (ps.map Prod.fst).Nodup → Exec cfg (setAll ps ok) s tr (.ok b) s' →
    (b = true → ok = true ∧ ∀ k v, (k, v) ∈ ps → param s' k = some (storedValue k v)) ∧
    ∀ k, k ∉ ps.map Prod.fst → param s' k = param s k := by
  induction ps with
  | nil =>
    intro ok s s' tr b _ h
    cases h
    simp
  | cons p ps ih =>
    obtain ⟨k, v⟩ := p
    intro ok s s' tr b hn h
    rw [List.map_cons, List.nodup_cons] at hn
    unfold setAll at h
    rcases Prog.run_bind.mp h with ⟨c, s1, t1, t2, h1, h2, rfl⟩ | ⟨-, h⟩
    swap
    · simp at h
    have e1 := wp_sound (setParameter_end cfg k v s) h1 c rfl
    obtain ⟨e2, e3⟩ := ih hn.2 h2
    refine ⟨fun hb => ?_, fun k' hk => ?_⟩
    · obtain ⟨h3, h4⟩ := e2 hb
      simp only [Bool.and_eq_true] at h3
      refine ⟨h3.1, fun k' v' hm => ?_⟩
      rcases List.mem_cons.mp hm with he | hm
      · obtain ⟨rfl, rfl⟩ := Prod.mk.inj he
        rw [e3 _ hn.1]
        exact e1.ok h3.2
      · exact h4 k' v' hm
    · rw [List.map_cons, List.mem_cons, not_or] at hk
      rw [e3 k' hk.2, e1.others k' hk.1]

/-- C36, several parameters at once: if the answer is true every one of them has its new value, and whatever
the answer is no other one changes. -/
theorem C36_set_several {cfg : Cfg} {ps : List (Key × ℝ)} (hn : (ps.map Prod.fst).Nodup) {s s' : Ctl}
    {tr : List Ev} {b : Bool} (h : Exec cfg (setParameters ps) s tr (.ok b) s') :
    (b = true → ∀ k v, (k, v) ∈ ps → param s' k = some (storedValue k v)) ∧
    ∀ k, k ∉ ps.map Prod.fst → param s' k = param s k := by
  by_cases hst : s.state = .notControlling
  swap
  · obtain ⟨h1, -, rfl⟩ := C36_no_change_while_moving hst .gain 0 ps (Or.inr h)
    cases h1
    simp
  · have key : wp (robot cfg) (setParameters ps) (fun o s' _ => ∀ b, o = .ok b →
        (b = true → ∀ k v, (k, v) ∈ ps → param s' k = some (storedValue k v)) ∧
        ∀ k, k ∉ ps.map Prod.fst → param s' k = param s k) s [] := by
      unfold setParameters getCurrentState
      dev_simp
      refine ⟨fun h => absurd hst h, fun _ => wp_of_run fun tr o s' hr b hb => ?_⟩
      subst hb
      obtain ⟨h1, h2⟩ := setAll_end hn hr
      exact ⟨fun hb => (h1 hb).2, h2⟩
    exact wp_sound key h b rfl

/-- A gain and a duration set at once. -/
example : ∃ tr s', Exec oneJoint (setParameters [(.gain, 3), (.duration, 7)]) ready tr (.ok true) s' ∧
    (([(.gain, 3), (.duration, 7)] : List (Key × ℝ)).map Prod.fst).Nodup := by
  have h1 : can (robot oneJoint) (setParameters [(.gain, 3), (.duration, 7)]) (fun o _ _ =>
      o = .ok true) ready [] := by
    unfold setParameters setAll setAll setAll setParameter getCurrentState
    can_simp
    have hs : ready.state = .notControlling := rfl
    refine Or.inr ⟨by simp [hs], Or.inr ⟨by simp [hs], Or.inr ⟨by norm_num, Or.inr ⟨by simp [hs],
      Or.inr ⟨by norm_num, by simp⟩⟩⟩⟩⟩
  obtain ⟨tr, o, s', hr, rfl⟩ := can_run h1
  exact ⟨tr, s', hr, by simp⟩

/-- `getParameters` on an empty map reports every parameter. -/
theorem C36_getParameters_reports_all {cfg : Cfg} {s s' : Ctl} {tr : List Ev} {m : Key → Option ℝ}
    (h : Exec cfg (getParameters fun _ => none) s tr (.ok m) s') (k : Key) : m k = param s k := by
  refine wp_sound (Q := fun o _ _ => ∀ m, o = .ok m → m k = param s k) ?_ h m rfl
  unfold getParameters
  dev_simp
  rintro m ⟨⟩; simp

/-- On a map with an old value it keeps the old value. -/
theorem C36_getParameters_keeps_old_entries (cfg : Cfg) (s : Ctl) (old : ℝ) (h : s.gain ≠ old) :
    ∃ tr m, Exec cfg (getParameters fun k => if k = .gain then some old else none) s tr (.ok m) s ∧
      m .gain = some old ∧ param s .gain ≠ some old :=
  ⟨[], _, .get (.pure _ _), by simp, by simpa [param] using h⟩

end KD.Ctrl
