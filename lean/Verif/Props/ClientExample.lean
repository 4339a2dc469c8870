import Verif.Ctrl.Consecutive
import Verif.Ctrl.Schedules
import Verif.Props.Commands

/-!
# C92: a program that orders one movement after another

`Spaced`, `Trouble` and `Troubled` are in Ctrl/Consecutive.lean, `Truthful` and `speedsAfter` in Props/Commands.lean.
-/

namespace KD.Ctrl

open Prog (Step Writes Run can can_run can_bind can_mono)
open scoped Classical

variable {cfg : Cfg}

/-! ## What holds -/

theorem start_still {s : Ctl} (hs : s.state = .notControlling) : Still cfg True s (.pure ()) [] :=
  ⟨⟨spaced_nil, Or.inr (by simp)⟩, fun _ => open_nil, hs, Or.inl (Or.inl trivial)⟩

theorem client_sound {turns : ℕ → ℕ} {s : Ctl} {lp : P Unit} {tr : List (Who × Ev)} (h : Still cfg True s lp tr) :
    wps cfg (client cfg turns) (fun _ _ _ tr => Sound cfg tr) s lp tr := by
  unfold client stat
  refine still_call (c := .getEncoders) h (fun r => ⟨by simp [record], by simp [record]⟩) fun r s lp tr h => ?_
  rcases r with _ | q
  · exact moves_sound _ h
  refine still_call (c := .fwdKin q) h (fun r => ⟨by simp [record], by simp [record]⟩) fun r s lp tr h => ?_
  rcases r with _ | x
  · exact moves_sound _ h
  · exact wps_get (stable_still True) h fun s lp tr h => moves_sound _ h

/-- C92, what holds of it: a program that orders joint movements one after another, each after `wait()` has returned,
does not order one before the control loop has heard from the robot that the previous one is done, or has met trouble.
Whatever the robot answers and however the threads interleave. Missing: the control loop may still have something to do
for the previous one, see `C92_late_stop` and `C92_late_speeds`. -/
theorem C92_one_after_another_partial {l : List (List ℝ × ℕ)} {s s' : Ctl} {lp : P Unit} {tr : List (Who × Ev)}
    {b : Option Bool} (hs : s.state = .notControlling)
    (h : Sys.Steps cfg ⟨s, moves cfg l, .pure ()⟩ tr ⟨s', .pure b, lp⟩) : Spaced cfg tr :=
  (wps_sound (moves_sound l (start_still hs)) h).1

/-- The same of the example of a client. -/
theorem C92_client_one_after_another_partial {turns : ℕ → ℕ} {s s' : Ctl} {lp : P Unit} {tr : List (Who × Ev)}
    {b : Option Bool} (hs : s.state = .notControlling)
    (h : Sys.Steps cfg ⟨s, client cfg turns, .pure ()⟩ tr ⟨s', .pure b, lp⟩) : Spaced cfg tr :=
  (wps_sound (client_sound (start_still hs)) h).1

/-- If the control loop meets no trouble, nobody stops the robot, and between two movements the control loop hears that
the first is done. -/
theorem C92_no_trouble_partial {l : List (List ℝ × ℕ)} {s s' : Ctl} {lp : P Unit} {tr : List (Who × Ev)}
    {r : Option Bool} (hs : s.state = .notControlling)
    (h : Sys.Steps cfg ⟨s, moves cfg l, .pure ()⟩ tr ⟨s', .pure r, lp⟩) (hn : ¬Troubled cfg tr) :
    (∀ w r, (w, Ev.stop r) ∉ tr) ∧
    ∀ (a b c : List (Who × Ev)) (t1 t2 : List ℝ) (r : Bool),
      tr = a ++ (Who.user, Ev.positionMove t1 true) :: (b ++ (Who.user, Ev.positionMove t2 r) :: c) →
      (Who.loop, Ev.checkMotionDone (some true)) ∈ b := by
  obtain ⟨h1, h2⟩ := wps_sound (moves_sound l (start_still hs)) h
  refine ⟨h2.resolve_left hn, fun a b c t1 t2 r he => ?_⟩
  obtain ⟨e, hm, rfl | ht⟩ := h1 a b c t1 t2 r he
  · exact hm
  · exact absurd ⟨e, by simp [he, hm], ht⟩ hn

/-! ## What does not -/

/-- The calls of an accepted movement. -/
noncomputable def orders (f : RefFrame) (x q qd vmo refs : List ℝ) : List Ev :=
  [.getEncoders (some q), .invKin x q f (some qd), .getRefSpeeds (some refs),
   .setRefSpeeds vmo true, .getControlModes (some [.position, .position]), .delay (1 / 10) (),
   .getControlModes (some [.position, .position]), .positionMove qd true]

theorem movj_orders (s : Ctl) (x q qd vmo refs : List ℝ) (hq : q.length = 2) (hqd : qd.length = 2)
    (hrefs : refs.length = 2) (hv : computeIsocronousSpeeds (twoJoints 2 1) q qd = some (vmo, true)) :
    Run (robot (twoJoints 2 1)) (movj (twoJoints 2 1) x) s (orders s.frame x q qd vmo refs) (.ok true)
      { s with vmoStored := refs, cmcSuccess := true, state := .movj, streaming := vocabNotSet } := by
  have h : can (robot (twoJoints 2 1)) (movj (twoJoints 2 1) x)
      (fun o s' tr => o = .ok true ∧
        s' = { s with vmoStored := refs, cmcSuccess := true, state := .movj, streaming := vocabNotSet } ∧
        tr = orders s.frame x q qd vmo refs) s [] := by
    unfold movj setCurrentState
    can_simp
    refine ⟨some q, some_length hq, ?_⟩
    can_simp
    refine ⟨some qd, ?_⟩
    can_simp
    refine Or.inr ⟨(vmo, true), hv, Or.inl ⟨rfl, some refs, some_length hrefs, ?_⟩⟩
    can_simp
    refine ⟨true, Or.inl ⟨rfl, can_setModes' [.position, .position] rfl (by simp) ?_⟩⟩
    can_simp
    refine Or.inl ⟨trivial, Or.inr ⟨qd, ?_, true, Or.inl ⟨rfl, trivial, trivial, ?_⟩⟩⟩
    · simp only [buffer, twoJoints, hqd, lt_irrefl, if_false]
      rw [← hqd, List.take_length]
    · simp [orders]
  obtain ⟨tr, o, s', hr, rfl, rfl, h⟩ := can_run h
  simp only [List.nil_append] at h
  exact h ▸ hr

theorem wait_idle {s : Ctl} (n : ℕ) (hs : s.state = .notControlling) :
    Run (robot cfg) (wait 0 n) s [] (.ok (some true)) s := by
  refine .get ?_
  show Run _ (if s.state ≠ .movj ∧ s.state ≠ .movl then _ else _) _ _ _ _
  rw [if_pos (by simp [hs])]
  exact .pure _ _

theorem twoJoints_within {a b : ℝ} (h1 : -9 ≤ a) (h2 : a ≤ 9) (h3 : -9 ≤ b) (h4 : b ≤ 9) :
    InLimits (twoJoints 2 1) [a, b] := by
  intro j hj
  have : j = 0 ∨ j = 1 := by simp [twoJoints] at hj; omega
  rcases this with rfl | rfl
  · exact ⟨a, -10, 10, rfl, rfl, rfl, by unfold tol; linarith, by unfold tol; linarith⟩
  · exact ⟨b, -10, 10, rfl, rfl, rfl, by unfold tol; linarith, by unfold tol; linarith⟩

/-- What the control loop hears in a cycle of a joint movement. -/
noncomputable def hears (q : List ℝ) (d : Option Bool) : List Ev :=
  goodRead q [0, 0] [0, 0] ++ [.getControlModes (some [.position, .position]), .checkMotionDone d]

theorem loop_hears {s s' : Ctl} {lp' : P Unit} {es : List Ev} (a b : ℝ) (d : Option Bool) (hst : s.state = .movj)
    (hl : InLimits (twoJoints 2 1) [a, b])
    (h : LoopSteps (twoJoints 2 1) { s with encoderErrors := 0 }
      (match d with
        | none => afterBody false
        | some true => .set (fun s => { s with state := .notControlling, streaming := vocabNotSet })
            (.get fun s => Prog.bind (Prog.bind (Prog.lift (buffer (twoJoints 2 1) s.vmoStored)) fun v =>
              .call (.setRefSpeeds v) fun (_ : Bool) => .pure true) afterBody)
        | some false => .pure ()) es s' lp') :
    LoopSteps (twoJoints 2 1) s (.pure ()) (hears [a, b] d ++ es) s' lp' := by
  unfold hears
  rw [List.append_assoc]
  refine loop_cycle [a, b] [0, 0] [0, 0] (by simp [hst]) rfl rfl rfl hl ?_
  rw [show dispatch (twoJoints 2 1) s.state [a, b] [0, 0] [0, 0] = handleMovj (twoJoints 2 1) by rw [hst]; rfl]
  have hm : Run (robot (twoJoints 2 1)) (checkControlModes .position) { s with encoderErrors := 0 }
      [.getControlModes (some [.position, .position])] (.ok true) { s with encoderErrors := 0 } := by
    have : can (robot (twoJoints 2 1)) (checkControlModes .position) (fun o s' tr => o = .ok true ∧
        s' = { s with encoderErrors := 0 } ∧ tr = [.getControlModes (some [.position, .position])])
        { s with encoderErrors := 0 } [] := by
      rw [← Prog.bind_pure (checkControlModes _)]
      exact can_checkModes [.position, .position] rfl ⟨by simp, rfl, rfl⟩
    obtain ⟨tr, o, s', hr, rfl, rfl, h⟩ := can_run this
    simp only [List.nil_append] at h
    exact h ▸ hr
  show LoopSteps _ _ (Prog.bind (Prog.bind (checkControlModes .position) _) _) _ _ _
  rw [Prog.bind_assoc]
  refine loop_run (tr := [_]) hm ?_
  refine loop_call (c := .checkMotionDone) d trivial ?_
  rcases d with _ | _ | _
  · exact h
  · exact h
  · exact h

theorem truthful_nil (v : List ℝ) : Truthful v [] := by
  intro pre post refs h
  simp at h

theorem truthful_cons {v : List ℝ} {e : Ev} {tr : List Ev} (he : ∀ refs, e = .getRefSpeeds (some refs) → refs = v)
    (h : Truthful (speedsAfter v [e]) tr) : Truthful v (e :: tr) := by
  intro pre post refs hp
  rcases pre with _ | ⟨e', pre⟩
  · exact he refs (List.cons.inj hp).1
  · rw [List.cons_append] at hp
    have h1 := (List.cons.inj hp).1
    have h2 := (List.cons.inj hp).2
    subst h1
    rw [h pre post refs h2, ← speedsAfter_append]
    rfl

/-- The two poses of the witnesses. -/
noncomputable def poseA : List ℝ := [1, 0, 0, 0, 0, 0]

/-- The other. -/
noncomputable def poseB : List ℝ := [2, 0, 0, 0, 0, 0]

theorem speedsB : computeIsocronousSpeeds (twoJoints 2 1) [4, 1] [8, 3] = some ([2, 1], true) := by
  norm_num [computeIsocronousSpeeds, isoDeltas, twoJoints, Option.bind_eq_bind]

/-- The calls of the user's thread. -/
def byUser (es : List Ev) : List (Who × Ev) := es.map fun e => (Who.user, e)

theorem buffer_two {l : List ℝ} (h : l.length = 2) : buffer (twoJoints 2 1) l = some l := by
  simp only [buffer, twoJoints, h, lt_irrefl, if_false]
  rw [← h, List.take_length]

/-- A cycle that hears that the robot is done, up to the last call. -/
theorem loop_done {s : Ctl} {refs : List ℝ} (a b : ℝ) (hst : s.state = .movj) (hv : s.vmoStored = refs)
    (hr : refs.length = 2) (hl : InLimits (twoJoints 2 1) [a, b]) :
    LoopSteps (twoJoints 2 1) s (.pure ()) (hears [a, b] (some true))
      { s with encoderErrors := 0, state := .notControlling, streaming := vocabNotSet }
      (.call (.setRefSpeeds refs) fun (_ : Bool) => .pure ()) := by
  rw [← List.append_nil (hears [a, b] (some true))]
  refine loop_hears a b (some true) hst hl ?_
  refine loop_set (loop_get ?_)
  show LoopSteps _ _ (Prog.bind (Prog.bind (Prog.lift (buffer (twoJoints 2 1) s.vmoStored)) _) _) _ _ _
  rw [hv, buffer_two hr]
  exact .refl _ _

/-- The object in this state, with these speeds stored. -/
noncomputable def after (st : CState) (refs : List ℝ) : Ctl :=
  { ready with vmoStored := refs, cmcSuccess := true, state := st, streaming := vocabNotSet, encoderErrors := 0 }

/-- C92 fails: the robot answers everything, and tells the speeds that it has been given. The control loop hears that
the first movement is done, and is about to restore the speeds, [9, 9]; the program has seen the end of the movement and
orders the second, whose speeds, for both joints to arrive together, are [2, 1]. Then the control loop restores: the
second movement, which is not done, is under [9, 9]. And what is restored at the end are the speeds of the first
movement. -/
theorem C92_late_speeds : ∃ (tr1 tr2 : List (Who × Ev)) (s' : Ctl),
    Sys.Steps (twoJoints 2 1) ⟨ready, moves (twoJoints 2 1) [(poseA, 1), (poseB, 1)], .pure ()⟩
      (tr1 ++ (Who.user, Ev.positionMove [8, 3] true) :: (Who.loop, Ev.setRefSpeeds [9, 9] true) :: tr2)
      ⟨s', .pure (some true), .pure ()⟩ ∧
    ¬Troubled (twoJoints 2 1)
      (tr1 ++ (Who.user, Ev.positionMove [8, 3] true) :: (Who.loop, Ev.setRefSpeeds [9, 9] true) :: tr2) ∧
    Truthful [9, 9] ((tr1 ++ (Who.user, Ev.positionMove [8, 3] true) ::
      (Who.loop, Ev.setRefSpeeds [9, 9] true) :: tr2).map Prod.snd) ∧
    speedsAfter [9, 9] (tr1.map Prod.snd) = [2, 1] ∧
    (Who.loop, Ev.checkMotionDone (some false)) ∈ tr2 ∧
    speedsAfter [9, 9] ((tr1 ++ (Who.user, Ev.positionMove [8, 3] true) ::
      (Who.loop, Ev.setRefSpeeds [9, 9] true) :: tr2).map Prod.snd) = [2, 1 / 2] := by
  have hA := twoJoints_within (a := 4) (b := 1) (by norm_num) (by norm_num) (by norm_num) (by norm_num)
  have hB := twoJoints_within (a := 8) (b := 3) (by norm_num) (by norm_num) (by norm_num) (by norm_num)
  have hM := twoJoints_within (a := 6) (b := 2) (by norm_num) (by norm_num) (by norm_num) (by norm_num)
  -- the first movement
  have h1 := movj_orders ready poseA [0, 0] [4, 1] [2, 1 / 2] [9, 9] rfl rfl rfl twoJoints_speeds
  have h2 := loop_done (s := (after .movj [9, 9])) 4 1 rfl rfl rfl hA
  have h3 := wait_idle (cfg := twoJoints 2 1) (s := (after .notControlling [9, 9])) 1 rfl
  -- the second
  have h4 := movj_orders (after .notControlling [9, 9]) poseB [4, 1] [8, 3] [2, 1] [2, 1 / 2] rfl rfl rfl speedsB
  have h5 : LoopSteps (twoJoints 2 1) (after .movj [2, 1 / 2]) (.call (.setRefSpeeds [9, 9]) fun (_ : Bool) => .pure ())
      [.setRefSpeeds [9, 9] true] (after .movj [2, 1 / 2]) (.pure ()) :=
    loop_call (c := .setRefSpeeds [9, 9]) true trivial (.refl _ _)
  have h6 := loop_hears (s := (after .movj [2, 1 / 2])) 6 2 (some false) rfl hM (.refl _ _)
  have h7 := loop_done (s := (after .movj [2, 1 / 2])) 8 3 rfl rfl rfl hB
  have h8 : LoopSteps (twoJoints 2 1) (after .notControlling [2, 1 / 2])
      (.call (.setRefSpeeds [2, 1 / 2]) fun (_ : Bool) => .pure ())
      [.setRefSpeeds [2, 1 / 2] true] (after .notControlling [2, 1 / 2]) (.pure ()) :=
    loop_call (c := .setRefSpeeds [2, 1 / 2]) true trivial (.refl _ _)
  have h9 := wait_idle (cfg := twoJoints 2 1) (s := (after .notControlling [2, 1 / 2])) 1 rfl
  have hall : Sys.Steps (twoJoints 2 1) ⟨ready, moves (twoJoints 2 1) [(poseA, 1), (poseB, 1)], .pure ()⟩
      (byUser (orders .base poseA [0, 0] [4, 1] [2, 1 / 2] [9, 9]) ++ (byLoop (hears [4, 1] (some true)) ++
        ([] ++ (byUser (orders .base poseB [4, 1] [8, 3] [2, 1] [2, 1 / 2]) ++
        (byLoop [.setRefSpeeds [9, 9] true] ++ (byLoop (hears [6, 2] (some false) ++ []) ++
        (byLoop (hears [8, 3] (some true)) ++ (byLoop [.setRefSpeeds [2, 1 / 2] true] ++ [])))))))) 
      ⟨(after .notControlling [2, 1 / 2]), .pure (some true), .pure ()⟩ := by
    refine (user_run h1).trans ((steps_of_loop h2 _).trans ((user_run h3).trans ((user_run h4).trans
      ((steps_of_loop h5 _).trans ((steps_of_loop h6 _).trans ((steps_of_loop h7 _).trans
      ((steps_of_loop h8 _).trans (user_run h9))))))))
  refine ⟨byUser (orders .base poseA [0, 0] [4, 1] [2, 1 / 2] [9, 9]) ++ byLoop (hears [4, 1] (some true)) ++
    byUser (orders .base poseB [4, 1] [8, 3] [2, 1] [2, 1 / 2]).dropLast, byLoop (hears [6, 2] (some false)) ++
    byLoop (hears [8, 3] (some true)) ++ byLoop [.setRefSpeeds [2, 1 / 2] true],
    after .notControlling [2, 1 / 2], ?_, ?_, ?_, ?_, ?_, ?_⟩
  · simpa [orders, hears, goodRead, byUser, byLoop] using hall
  · rintro ⟨e, he, ht⟩
    simp only [orders, hears, goodRead, byUser, byLoop] at he
    simp at he
    rcases he with h | h | h | h | h | h | h | h | h | h | h | h | h | h | h | h | h <;> subst h <;>
      simp [Trouble, hA, hB, hM] at ht
  · simp only [orders, hears, goodRead, byUser, byLoop, List.map_cons, List.map_nil, List.cons_append, List.nil_append,
      List.append_assoc, List.dropLast, List.map_append]
    repeat' first
      | exact truthful_nil _
      | refine truthful_cons (by simp [speedsAfter]) ?_
  · simp [orders, hears, goodRead, byUser, byLoop, speedsAfter]
  · simp [hears, byLoop]
  · simp [orders, hears, goodRead, byUser, byLoop, speedsAfter]

/-- What is left of `stopControl` once the state is set. -/
noncomputable def stopLeft : P Unit :=
  Prog.bind (setControlModes .position) fun _ => .call .stop fun (_ : Bool) =>
    .set (fun s => { s with trajectories := [] }) (.pure ())

/-- What the control loop calls to stop. -/
noncomputable def stopCalls : List Ev :=
  [.getControlModes (some [.position, .position]), .delay (1 / 10) (), .getControlModes (some [.position, .position]),
    .stop true]

/-- A cycle that does not hear whether the robot is done, up to the calls that stop it. -/
theorem loop_gives_up {s : Ctl} (a b : ℝ) (hst : s.state = .movj) (hl : InLimits (twoJoints 2 1) [a, b]) :
    LoopSteps (twoJoints 2 1) s (.pure ()) (hears [a, b] none)
      { s with encoderErrors := 0, cmcSuccess := false, state := .notControlling, streaming := vocabNotSet } stopLeft := by
  rw [← List.append_nil (hears [a, b] none)]
  refine loop_hears a b none hst hl ?_
  refine loop_set ?_
  unfold stopControl setCurrentState
  simp only [Prog.bind_eq, Prog.modify_bind, Prog.set_bind, Prog.bind_assoc]
  exact loop_set (.refl _ _)

theorem loop_stops (s : Ctl) :
    LoopSteps (twoJoints 2 1) s stopLeft stopCalls { s with trajectories := [] } (.pure ()) := by
  have hm : Run (robot (twoJoints 2 1)) (setControlModes .position) s [.getControlModes (some [.position, .position]),
      .delay (1 / 10) (), .getControlModes (some [.position, .position])] (.ok true) s := by
    have : can (robot (twoJoints 2 1)) (setControlModes .position) (fun o s' tr => o = .ok true ∧
        s' = s ∧ tr = [.getControlModes (some [.position, .position]),
      .delay (1 / 10) (), .getControlModes (some [.position, .position])]) s [] := by
      rw [← Prog.bind_pure (setControlModes _)]
      exact can_setModes' [.position, .position] rfl (by simp) ⟨rfl, rfl, rfl⟩
    obtain ⟨tr, o, s', hr, rfl, rfl, h⟩ := can_run this
    simp only [List.nil_append] at h
    exact h ▸ hr
  exact loop_run hm (loop_call (c := .stop) true trivial (loop_set (.refl _ _)))

/-- C92 fails: in the first movement the robot does not tell whether it is done, once, and the control loop gives up. It
says so before it stops the robot: `wait` returns, the program orders the second movement, and it is this one that the
control loop stops. The robot then tells that it is done, and the program ends as if both poses had been reached. -/
theorem C92_late_stop : ∃ (tr1 tr2 : List (Who × Ev)) (s' : Ctl),
    Sys.Steps (twoJoints 2 1) ⟨ready, moves (twoJoints 2 1) [(poseA, 1), (poseB, 1)], .pure ()⟩
      (tr1 ++ (Who.user, Ev.positionMove [8, 3] true) :: tr2) ⟨s', .pure (some true), .pure ()⟩ ∧
    (Who.user, Ev.positionMove [4, 1] true) ∈ tr1 ∧ Troubled (twoJoints 2 1) tr1 ∧
    (∀ w r, (w, Ev.stop r) ∉ tr1) ∧
    ¬Troubled (twoJoints 2 1) tr2 ∧ (Who.loop, Ev.stop true) ∈ tr2 := by
  have hA := twoJoints_within (a := 4) (b := 1) (by norm_num) (by norm_num) (by norm_num) (by norm_num)
  have hB := twoJoints_within (a := 5) (b := 2) (by norm_num) (by norm_num) (by norm_num) (by norm_num)
  have h1 := movj_orders ready poseA [0, 0] [4, 1] [2, 1 / 2] [9, 9] rfl rfl rfl twoJoints_speeds
  have h2 := loop_gives_up (s := after .movj [9, 9]) 4 1 rfl hA
  have h3 := wait_idle (cfg := twoJoints 2 1) (s := { after .notControlling [9, 9] with cmcSuccess := false }) 1 rfl
  have h4 := movj_orders { after .notControlling [9, 9] with cmcSuccess := false } poseB [4, 1] [8, 3] [2, 1] [2, 1 / 2]
    rfl rfl rfl speedsB
  have h5 := loop_stops (after .movj [2, 1 / 2])
  have h7 := loop_done (s := after .movj [2, 1 / 2]) 5 2 rfl rfl rfl hB
  have h8 : LoopSteps (twoJoints 2 1) (after .notControlling [2, 1 / 2])
      (.call (.setRefSpeeds [2, 1 / 2]) fun (_ : Bool) => .pure ())
      [.setRefSpeeds [2, 1 / 2] true] (after .notControlling [2, 1 / 2]) (.pure ()) :=
    loop_call (c := .setRefSpeeds [2, 1 / 2]) true trivial (.refl _ _)
  have h9 := wait_idle (cfg := twoJoints 2 1) (s := after .notControlling [2, 1 / 2]) 1 rfl
  have hall : Sys.Steps (twoJoints 2 1) ⟨ready, moves (twoJoints 2 1) [(poseA, 1), (poseB, 1)], .pure ()⟩
      (byUser (orders .base poseA [0, 0] [4, 1] [2, 1 / 2] [9, 9]) ++ (byLoop (hears [4, 1] none) ++
        ([] ++ (byUser (orders .base poseB [4, 1] [8, 3] [2, 1] [2, 1 / 2]) ++
        (byLoop stopCalls ++ (byLoop (hears [5, 2] (some true)) ++ (byLoop [.setRefSpeeds [2, 1 / 2] true] ++ [])))))))
      ⟨after .notControlling [2, 1 / 2], .pure (some true), .pure ()⟩ := by
    refine (user_run h1).trans ((steps_of_loop h2 _).trans ((user_run h3).trans ((user_run h4).trans
      ((steps_of_loop h5 _).trans ((steps_of_loop h7 _).trans ((steps_of_loop h8 _).trans (user_run h9)))))))
  refine ⟨byUser (orders .base poseA [0, 0] [4, 1] [2, 1 / 2] [9, 9]) ++ byLoop (hears [4, 1] none) ++
    byUser (orders .base poseB [4, 1] [8, 3] [2, 1] [2, 1 / 2]).dropLast, byLoop stopCalls ++
    byLoop (hears [5, 2] (some true)) ++ byLoop [.setRefSpeeds [2, 1 / 2] true], after .notControlling [2, 1 / 2],
    ?_, ?_, ⟨.checkMotionDone none, ?_, trivial⟩, ?_, ?_, ?_⟩
  · simpa [orders, hears, goodRead, byUser, byLoop] using hall
  · simp [orders, byUser]
  · simp [hears, byLoop]
  · simp [orders, hears, goodRead, byUser, byLoop]
  · rintro ⟨e, he, ht⟩
    simp only [stopCalls, hears, goodRead, byLoop] at he
    simp at he
    rcases he with h | h | h | h | h | h | h | h | h | h <;> subst h <;> simp [Trouble, hB] at ht
  · simp [stopCalls, byLoop]

/-! ## Runs without any of this -/

/-- As many movements as wanted, each done. -/
theorem moves_done (l : List (List ℝ × ℕ)) : ∃ tr,
    Sys.Steps (twoJoints 2 1) ⟨after .notControlling [9, 9], moves (twoJoints 2 1) l, .pure ()⟩ tr
      ⟨after .notControlling [9, 9], .pure (some true), .pure ()⟩ ∧ ¬Troubled (twoJoints 2 1) tr ∧
    tr.countP (fun x => decide (x = (Who.user, Ev.positionMove [4, 1] true))) = l.length := by
  have hA := twoJoints_within (a := 4) (b := 1) (by norm_num) (by norm_num) (by norm_num) (by norm_num)
  induction l with
  | nil => exact ⟨[], .refl _, by rintro ⟨e, he, -⟩; simp at he, rfl⟩
  | cons p l ih =>
    obtain ⟨tr, ih, hn, hc⟩ := ih
    have h1 := movj_orders (after .notControlling [9, 9]) p.1 [0, 0] [4, 1] [2, 1 / 2] [9, 9] rfl rfl rfl twoJoints_speeds
    have h2 := loop_done (s := after .movj [9, 9]) 4 1 rfl rfl rfl hA
    have h3 : LoopSteps (twoJoints 2 1) (after .notControlling [9, 9])
        (.call (.setRefSpeeds [9, 9]) fun (_ : Bool) => .pure ())
        [.setRefSpeeds [9, 9] true] (after .notControlling [9, 9]) (.pure ()) :=
      loop_call (c := .setRefSpeeds [9, 9]) true trivial (.refl _ _)
    have h4 := wait_idle (cfg := twoJoints 2 1) (s := after .notControlling [9, 9]) p.2 rfl
    have hall : Sys.Steps (twoJoints 2 1) ⟨after .notControlling [9, 9], moves (twoJoints 2 1) (p :: l), .pure ()⟩
        (byUser (orders .base p.1 [0, 0] [4, 1] [2, 1 / 2] [9, 9]) ++ (byLoop (hears [4, 1] (some true)) ++
          (byLoop [.setRefSpeeds [9, 9] true] ++ ([] ++ tr))))
        ⟨after .notControlling [9, 9], .pure (some true), .pure ()⟩ :=
      (user_run h1).trans ((steps_of_loop h2 _).trans ((steps_of_loop h3 _).trans ((user_run h4).trans ih)))
    refine ⟨_, hall, ?_, ?_⟩
    · rintro ⟨e, he, ht⟩
      simp only [orders, hears, goodRead, byUser, byLoop] at he
      simp at he
      rcases he with h | h | h | h | h | h | h
      · subst h; simp [Trouble, hA] at ht
      · subst h; simp [Trouble] at ht
      · subst h; simp [Trouble] at ht
      · subst h; simp [Trouble] at ht
      · subst h; simp [Trouble] at ht
      · subst h; simp [Trouble] at ht
      · exact hn ⟨e, h, ht⟩
    · rw [List.length_cons, ← hc]
      simp [orders, hears, goodRead, byUser, byLoop]

/-- The hypotheses of `C92_one_after_another_partial` and of `C92_no_trouble_partial` are met, by as many movements as
wanted. -/
example (l : List (List ℝ × ℕ)) : ∃ s s' tr, s.state = .notControlling ∧
    Sys.Steps (twoJoints 2 1) ⟨s, moves (twoJoints 2 1) l, .pure ()⟩ tr ⟨s', .pure (some true), .pure ()⟩ ∧
    ¬Troubled (twoJoints 2 1) tr ∧
    tr.countP (fun x => decide (x = (Who.user, Ev.positionMove [4, 1] true))) = l.length := by
  obtain ⟨tr, h, hn, hc⟩ := moves_done l
  exact ⟨_, _, tr, rfl, h, hn, hc⟩

/-- The hypotheses of `C92_client_one_after_another_partial` are met. -/
example (turns : ℕ → ℕ) : ∃ s s' tr, s.state = .notControlling ∧
    Sys.Steps (twoJoints 2 1) ⟨s, client (twoJoints 2 1) turns, .pure ()⟩ tr ⟨s', .pure (some true), .pure ()⟩ ∧
    7 ≤ tr.length := by
  obtain ⟨tr, h, -, hc⟩ := moves_done (clientPoses.zipIdx.map fun p => (p.1, turns p.2))
  have h0 : Run (robot (twoJoints 2 1)) stat (after .notControlling [9, 9]) [.getEncoders none] (.ok none)
      (after .notControlling [9, 9]) := .call (by simp [robot, DeviceOk]) (.pure _ _)
  refine ⟨_, _, _, rfl, (user_run h0).trans h, ?_⟩
  have := List.countP_le_length (p := fun x => decide (x = (Who.user, Ev.positionMove [4, 1] true))) (l := tr)
  rw [hc] at this
  simp only [List.length_append, List.length_map, List.length_zipIdx] at this ⊢
  simp only [clientPoses, List.length_cons, List.length_nil] at this ⊢
  omega

end KD.Ctrl
