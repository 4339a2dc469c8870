import Verif.Props.OtherClients
import Verif.Props.WithAsibot
import Verif.Props.AsibotThreads

/-!
# C99: changing the tool while the robot is in use

One client changes the tool through the controller while others ask and stream, and the control loop runs. The threads are
those of `Verif.Ctrl.Pool` (the request that is singled out there is the change of the tool here), and the solver is that of
the ASIBOT.
-/

namespace KD.Ctrl.WithAsibot

open Prog (Step Run can can_run)
open KD.Asibot (Solver upright lifted zeros demo longTool noTool)

/-- The others do not change the tool. -/
def NoTool (op : Op) : Prop := ∀ x, op ≠ .tool x

/-- Whatever the other threads are in the middle of. -/
structure Beside (cfg : Cfg) (x : Pool) : Prop where
  others : ∀ i, InRequest cfg NoTool (x.others i)
  stream : InStream cfg x.stream
  loop : InCycle cfg x.loop

/-! ## The others keep the tool -/

theorem calls_step {α : Type} {cfg : Cfg} {D : Call → Prop} {p p' : P α} {s s' : Ctl} {l : Option Ev}
    (h : Prog.Calls D p) (hs : Step (robot cfg) p s l p' s') :
    Prog.Calls D p' ∧ ∀ e, l = some e → ∃ c r, D c ∧ (robot cfg).wf c r ∧ e = (robot cfg).ev c r := by
  cases hs with
  | get k s => exact ⟨h s, fun e he => (by cases he)⟩
  | set f k s => exact ⟨h, fun e he => (by cases he)⟩
  | call c k s r hr => exact ⟨h.2 r, fun e he => ⟨c, r, h.1, hr, (Option.some.inj he).symm⟩⟩

theorem keep_request {cfg : Cfg} {p : P (Option Bool)} (h : InRequest cfg NoTool p) : Prog.Calls KeepsChain p := by
  induction h with
  | rest b => exact True.intro
  | start hop => exact keep_op cfg _ hop
  | step _ hs ih => exact (calls_step ih hs).1

theorem keep_stream {cfg : Cfg} {p : P Unit} (h : InStream cfg p) : Prog.Calls KeepsChain p := by
  induction h with
  | rest => exact True.intro
  | start hp =>
    have := fun l m => keep_ready l m
    cases hp with
    | pose x => unfold pose; calls
    | twist x => unfold twist twistBody; calls
    | wrench x => unfold wrench wrenchBody; calls
  | step _ hs ih => exact (calls_step ih hs).1

theorem keep_loop {cfg : Cfg} {p : P Unit} (h : InCycle cfg p) : Prog.Calls KeepsChain p := by
  induction h with
  | rest => exact True.intro
  | start => exact keep_run cfg
  | step _ hs ih => exact (calls_step ih hs).1

/-! ## The tool meanwhile -/

/-- How far the change has come, and the tool that the solver has then. -/
inductive Phase (k0 : Solver) (x : List ℝ) : P Bool → Solver → Prop
  | before : Phase k0 x (tool x) k0
  | bare : Phase k0 x (Dev.appendLink x) k0.restore
  | after {k} : k0.restore.appendLink x = some k → Phase k0 x (.pure true) k

theorem phase_step {cfg : Cfg} {l : Libs} {k0 k k' : Solver} {x : List ℝ} {p p' : P Bool} {s s' : Ctl} {e : Option Ev}
    (h : Phase k0 x p k) (hs : Step (robot cfg) p s e p' s') (ha : Answered l k e.toList k') : Phase k0 x p' k' := by
  cases h with
  | before =>
    cases hs with
    | call c k s r hr =>
      cases ha with
      | cons h1 h2 =>
        cases h2
        obtain ⟨rfl, hr'⟩ := h1
        cases hr'
        exact .bare
  | bare =>
    cases hs with
    | call c k s r hr =>
      cases ha with
      | cons h1 h2 =>
        cases h2
        obtain ⟨h3, hr'⟩ := h1
        cases hr'
        exact .after h3
  | after h => cases hs

theorem other_step {α : Type} {cfg : Cfg} {l : Libs} {k k' : Solver} {p p' : P α} {s s' : Ctl} {e : Option Ev}
    (h : Prog.Calls KeepsChain p) (hs : Step (robot cfg) p s e p' s') (ha : Answered l k e.toList k') : k' = k := by
  cases e with
  | none => cases ha; rfl
  | some e =>
    obtain ⟨c, r, h1, -, rfl⟩ := (calls_step h hs).2 e rfl
    cases ha with
    | cons h2 h3 => cases h3; exact answers_same h2 (keeps_changes h1)

theorem pool_phase_step {cfg : Cfg} {l : Libs} {k0 k k' : Solver} {x : List ℝ} {a b : Pool} {e : Option (Party × Ev)}
    (hs : Pool.Step cfg NoTool a e b) (hb : Beside cfg a) (hp : Phase k0 x a.stopper k)
    (ha : Answered l k (e.toList.map Prod.snd) k') : Beside cfg b ∧ Phase k0 x b.stopper k' := by
  obtain ⟨h1, h2, h3⟩ := hb
  have opt : ∀ (w : Party) (o : Option Ev), ((o.map fun e => (w, e)).toList.map Prod.snd) = o.toList := by
    intro w o; cases o <;> rfl
  cases hs with
  | stopper h => rw [opt] at ha; exact ⟨⟨h1, h2, h3⟩, phase_step hp h ha⟩
  | @other s u os i o s' p' sp lp h =>
    rw [opt] at ha
    obtain rfl := other_step (keep_request (h1 i)) h ha
    refine ⟨⟨fun j => ?_, h2, h3⟩, hp⟩
    by_cases hj : j = i
    · subst hj; simpa using InRequest.step (h1 j) h
    · simpa [Function.update_of_ne hj] using h1 j
  | @ask s u os i b op sp lp hi hop =>
    cases ha
    refine ⟨⟨fun j => ?_, h2, h3⟩, hp⟩
    by_cases hj : j = i
    · subst hj; simpa using InRequest.start hop
    · simpa [Function.update_of_ne hj] using h1 j
  | stream h =>
    rw [opt] at ha
    obtain rfl := other_step (keep_stream h2) h ha
    exact ⟨⟨h1, .step h2 h, h3⟩, hp⟩
  | message h => cases ha; exact ⟨⟨h1, .start h, h3⟩, hp⟩
  | loop h =>
    rw [opt] at ha
    cases h with
    | step h =>
      obtain rfl := other_step (keep_loop h3) h ha
      exact ⟨⟨h1, h2, .step h3 h⟩, hp⟩
    | again => cases ha; exact ⟨⟨h1, h2, .start⟩, hp⟩

theorem pool_phase {cfg : Cfg} {l : Libs} {k0 : Solver} {x : List ℝ} {a b : Pool} {tr : List (Party × Ev)}
    (h : Pool.Steps cfg NoTool a tr b) : ∀ {k k' : Solver}, Beside cfg a → Phase k0 x a.stopper k →
      Answered l k (tr.map Prod.snd) k' → Phase k0 x b.stopper k' := by
  induction h with
  | refl => intro k k' _ hp ha; cases ha; exact hp
  | step hs _ ih =>
    intro k k' hb hp ha
    rw [List.map_append] at ha
    obtain ⟨k1, a1, a2⟩ := answered_append ha
    obtain ⟨hb', hp'⟩ := pool_phase_step hs hb hp a1
    exact ih hb' hp' a2

theorem step_event {cfg : Cfg} {a b : Pool} {w : Party} {e : Ev} (hs : Pool.Step cfg NoTool a (some (w, e)) b)
    (hb : Beside cfg a) (hw : w ≠ .stopper) : ¬ ChangesChain e := by
  have key : ∀ {α : Type} {p p' : P α} {s s' : Ctl} {o : Option Ev} {v : Party}, Prog.Calls KeepsChain p →
      Step (robot cfg) p s o p' s' → (o.map fun e => (v, e)) = some (w, e) → ¬ ChangesChain e := by
    intro α p p' s s' o v h hs ho
    cases o with
    | none => cases ho
    | some e =>
      cases ho
      obtain ⟨c, r, h1, -, rfl⟩ := (calls_step h hs).2 _ rfl
      exact keeps_changes h1
  obtain ⟨h1, h2, h3⟩ := hb
  generalize ho : some (w, e) = o at hs
  cases hs with
  | @stopper _ _ o _ _ _ _ _ h =>
    cases o with
    | none => cases ho
    | some o => cases ho; exact absurd rfl hw
  | @other s u os i o s' p' sp lp h => exact key (keep_request (h1 i)) h ho.symm
  | ask => cases ho
  | stream h => exact key (keep_stream h2) h ho.symm
  | message h => cases ho
  | loop h =>
    cases h with
    | step h => exact key (keep_loop h3) h ho.symm
    | again => cases ho

theorem pool_answers {cfg : Cfg} {l : Libs} {k0 : Solver} {x : List ℝ} {a b : Pool} {tr : List (Party × Ev)}
    (h : Pool.Steps cfg NoTool a tr b) : ∀ {k k' : Solver}, Beside cfg a → Phase k0 x a.stopper k →
      Answered l k (tr.map Prod.snd) k' → ∀ w e, (w, e) ∈ tr → w ≠ .stopper →
      ∃ u k1, Phase k0 x u k1 ∧ Answers l k1 e k1 := by
  induction h with
  | refl => intro k k' _ hp ha w e he; cases he
  | @step a o b es c hs _ ih =>
    intro k k' hb hp ha w e he hw
    rw [List.map_append] at ha
    obtain ⟨k1, a1, a2⟩ := answered_append ha
    obtain ⟨hb', hp'⟩ := pool_phase_step hs hb hp a1
    rcases List.mem_append.mp he with he | he
    · obtain rfl : o = some (w, e) := by simpa using he
      cases a1 with
      | cons h1 h2 =>
        obtain rfl := answers_same h1 (step_event hs hb hw)
        exact ⟨_, _, hp, h1⟩
    · exact ih hb' hp' a2 w e he hw

/-! ## The properties -/

variable {cfg : Cfg} {l : Libs} {k k' : Solver} {x : List ℝ} {p y : Pool} {tr : List (Party × Ev)}

/-- C99: while a client changes the tool, whatever other clients ask, a stream orders and the control loop does, the solver
has the tool as it was, or none, or the new one alone; once the call has returned, it has reported success and the solver
has the new tool alone. Missing: it may be seen without any tool in between (`C99_bare_halfway`). -/
theorem C99_old_none_or_new_partial (hp : p.stopper = tool x) (hb : Beside cfg p) (h : Pool.Steps cfg NoTool p tr y)
    (ha : Answered l k (tr.map Prod.snd) k') :
    (k' = k ∨ k' = k.restore ∨ k.restore.appendLink x = some k') ∧
    ∀ b, y.stopper = .pure b → b = true ∧ k.restore.appendLink x = some k' := by
  have := pool_phase (k0 := k) (x := x) h hb (hp ▸ .before) ha
  revert this
  generalize y.stopper = u
  rintro (_ | _ | h)
  · exact ⟨Or.inl rfl, fun b hb => (by cases hb)⟩
  · exact ⟨Or.inr (Or.inl rfl), fun b hb => (by cases hb)⟩
  · exact ⟨Or.inr (Or.inr h), fun b hb => ⟨(by cases hb; rfl), h⟩⟩

/-- C99: so every answer that the solver gives meanwhile, to whichever thread, is right for one of these three, and it is
not changed by anything but the change of the tool. -/
theorem C99_each_answer_partial (hp : p.stopper = tool x) (hb : Beside cfg p) (h : Pool.Steps cfg NoTool p tr y)
    (ha : Answered l k (tr.map Prod.snd) k') (w : Party) (e : Ev) (he : (w, e) ∈ tr) (hw : w ≠ .stopper) :
    ∃ k1, (k1 = k ∨ k1 = k.restore ∨ k.restore.appendLink x = some k1) ∧ Answers l k1 e k1 := by
  obtain ⟨u, k1, h1, h2⟩ := pool_answers (k0 := k) (x := x) h hb (hp ▸ .before) ha w e he hw
  refine ⟨k1, ?_, h2⟩
  cases h1 with
  | before => exact Or.inl rfl
  | bare => exact Or.inr (Or.inl rfl)
  | after h => exact Or.inr (Or.inr h)

/-- C99: changing the tool does not look at what the robot is doing, nor does it change anything of it: in any state, its
only calls are the two to the solver, and it leaves the movement in progress, the frame and the parameters as they are. -/
theorem C99_moving_or_not {s s' : Ctl} {es : List Ev} {o : Out Bool} (hx : Exec cfg (tool x) s es o s')
    (ha : Answered l k es k') :
    s' = s ∧ o = .ok true ∧ es = [.restoreOriginalChain true, .appendLink x true] ∧ k.restore.appendLink x = some k' := by
  unfold tool at hx
  cases hx with
  | call hr h =>
    cases ha with
    | cons a1 a2 =>
      obtain ⟨rfl, hr'⟩ := a1
      cases hr'
      cases h with
      | call hr h =>
        cases h
        cases a2 with
        | cons a1 a2 =>
          obtain ⟨h3, hr'⟩ := a1
          cases hr'
          cases a2
          exact ⟨rfl, rfl, rfl, h3⟩

theorem append_one (s : Ctl) : Step (robot cfg) (Dev.appendLink x) s (some (.appendLink x true)) (.pure true) s :=
  Prog.Step.call (env := robot cfg) (.appendLink x) (fun r => .pure r) s true trivial

theorem restore_one (s : Ctl) :
    Step (robot cfg) (tool x) s (some (.restoreOriginalChain true)) (Dev.appendLink x) s :=
  Prog.Step.call (env := robot cfg) .restoreOriginalChain
    (fun r : Bool => Prog.bind (.pure r) fun ok : Bool => if ok then Dev.appendLink x else .pure false) s true trivial

/-- C99: though the tool before and the tool after are the same, a client that asks for the pose of the robot meanwhile is
given that of the bare hand, ten metres off. -/
theorem C99_bare_halfway (l : Libs) : ∃ cfg s0, Deployed asibotWorld unitArm cfg s0 demo ∧ ∃ (p y : Pool) (k : Solver)
    (tr : List (Party × Ev)), Exec cfg (tool (upright 10)) s0 [.restoreOriginalChain true, .appendLink (upright 10) true]
      (.ok true) p.ctl ∧ Answered l demo [.restoreOriginalChain true, .appendLink (upright 10) true] k ∧
    p.stopper = tool (upright 10) ∧ Beside cfg p ∧ Pool.Steps cfg NoTool p tr y ∧ y.stopper = .pure true ∧
    Answered l k (tr.map Prod.snd) k ∧ Asibot.fwdKin l.svd k zeros = some (upright 13) ∧
    (.other 0, .getEncoders (some zeros)) ∈ tr ∧ (.other 0, .fwdKin zeros (some (upright 3))) ∈ tr := by
  obtain ⟨cfg, s0, hd, -, h1, -⟩ := unit_deployed
  have hz : zeros.length = cfg.numJoints := by rw [h1]; rfl
  have happ : (demo.withTool longTool).restore.appendLink (upright 10) = some (demo.withTool longTool) := by
    simp [Solver.appendLink, Asibot.vectorToMatrix_upright, Solver.restore, Solver.withTool, longTool]
  have happ' : demo.restore.appendLink (upright 10) = some (demo.withTool longTool) := by
    simp [Solver.appendLink, Asibot.vectorToMatrix_upright, Solver.restore, Solver.withTool, longTool]
  have hx : Exec cfg (tool (upright 10)) s0 [.restoreOriginalChain true, .appendLink (upright 10) true] (.ok true) s0 :=
    .call trivial (.call trivial (.pure _ _))
  have hstat : ∃ s1, Run (robot cfg) (Op.prog cfg .stat) s0
      [.getEncoders (some zeros), .fwdKin zeros (some (upright 3))] (.ok none) s1 := by
    have hc : can (robot cfg) (Op.prog cfg .stat) (fun o _ tr => o = .ok none ∧
        tr = [.getEncoders (some zeros), .fwdKin zeros (some (upright 3))]) s0 [] := by
      show can (robot cfg) (Prog.bind stat _) _ _ _
      unfold stat getCurrentState
      can_simp
      refine ⟨some zeros, some_length hz, ?_⟩
      can_simp
      exact ⟨some (upright 3), rfl, rfl⟩
    obtain ⟨tr, o, s2, hx2, rfl, rfl⟩ := can_run hc
    exact ⟨s2, hx2⟩
  obtain ⟨s1, hstat⟩ := hstat
  obtain ⟨os, g1, -, -⟩ := other_steps (A := NoTool) hstat _ rfl 0 (Dev.appendLink (upright 10))
    (Function.update (fun _ => .pure none) 0 (Op.prog cfg .stat)) (.pure ()) (.pure ()) (Function.update_self ..)
  refine ⟨cfg, s0, hd, ⟨s0, tool (upright 10), fun _ => .pure none, .pure (), .pure ()⟩, ⟨s1, .pure true, os, .pure (), .pure ()⟩,
    demo.withTool longTool, _, hx, ?_, rfl, ⟨fun _ => .rest _, .rest, .rest⟩,
    .step (l := some (.stopper, .restoreOriginalChain true))
      (.stopper (l := some (.restoreOriginalChain true)) (restore_one s0))
      (.step (l := none) (.ask (i := 0) rfl (op := .stat) (fun _ h => (by cases h)))
        (g1.trans (.step (l := some (.stopper, .appendLink (upright 10) true))
          (.stopper (l := some (.appendLink (upright 10) true)) (append_one s1)) (.refl _)))), rfl, ?_, ?_, ?_, ?_⟩
  · exact .cons ⟨rfl, rfl⟩ (.cons ⟨happ', rfl⟩ (.nil _))
  · refine .cons ⟨rfl, rfl⟩ (.cons rfl (.cons ⟨rfl, _, ?_, rfl⟩ (.cons ⟨happ, rfl⟩ (.nil _))))
    exact Asibot.demo_fwd l.svd
  · exact Asibot.demo_fwd_long l.svd
  · simp
  · simp

/-! ## During a movement -/

theorem unit_more {s0 : Ctl} (h : Deployed asibotWorld unitArm cfg s0 demo) :
    cfg.line = oneJoint.line ∧ cfg.usePosdMovl = false ∧ cfg.enableFailFast = false ∧ cfg.numJoints = 5 ∧
    s0 = Ctl.initial .base (5 / 100) 10 50 30 (50 * (1 / 1000)) ∧ cfg.qMin = [-180, -180, -180, -180, -180] ∧
    cfg.qMax = [180, 180, 180, 180, 180] ∧ cfg.qdotMin = [-5, -5, -5, -5, -5] ∧ cfg.qdotMax = [5, 5, 5, 5, 5] := by
  have hl : LeavesLimits unitArm := Or.inr (Or.inr rfl)
  obtain ⟨frame, r, n, refs, ls, options, tcps, -, h2, h3, -, h5, h6, h7, -, -, h10⟩ := open_steps h.opened
  cases Option.some.inj h3
  cases Option.some.inj h5
  cases Option.some.inj h6
  cases Option.some.inj h2
  obtain ⟨-, hr, -⟩ := takeLimits_robot hl h7
  cases Option.some.inj hr
  obtain ⟨rfl, rfl⟩ := Prod.mk.inj h10
  refine ⟨rfl, rfl, rfl, rfl, ?_, rfl, rfl, rfl, rfl⟩
  show Ctl.initial .base (5 / 100) 10 50 30 ((50 : ℤ) * (1 / 1000)) = _
  norm_num

theorem upright_vector (z : ℝ) :
    KdlVectorConverter.frameToVector (KdlVectorConverter.vectorToFrame (upright z)) = upright z := by
  have := C31_pose_vector_round_trip_partial 0 0 z 0 (Or.inl rfl)
  simpa [upright] using this

theorem upright_diff (svd : Mat3 → Vec3) (a b : ℝ) :
    Asibot.poseDiff svd (upright a) (upright b) = some (upright (a - b)) := by
  have h := Asibot.matrixToVector_lifted svd 0
  have h0 : Asibot.rotVector svd 1 = 0 := by
    unfold Asibot.matrixToVector at h
    simp [upright, lifted] at h
    ext <;> simp [h]
  unfold Asibot.poseDiff
  simp only [Asibot.vectorToMatrix_upright]
  simp [lifted, upright, h0]

/-- The calls of a cycle during a straight line, with a solver of the ASIBOT. -/
noncomputable def lineCycle (t z d : ℝ) : List Ev :=
  [.getEncoders (some zeros), .getEncoderSpeeds (some zeros), .getEncoderAccelerations (some zeros),
    .getControlModes (some [.velocity, .velocity, .velocity, .velocity, .velocity]), .now t,
    .fwdKin zeros (some (upright z)), .poseDiff (upright 3) (upright z) (true, upright d),
    .diffInvKin zeros (upright d) .base (some zeros), .velocityMove zeros true]

/-- The state on the way of a line that stays where the robot is. -/
noncomputable def onLine : Ctl :=
  { Ctl.initial .base (5 / 100) 10 50 30 (50 * (1 / 1000)) with
    state := .movl, trajectories := [oneJoint.line (KdlVectorConverter.vectorToFrame (upright 3))
      (KdlVectorConverter.vectorToFrame (upright 3)) 10] }

theorem line_cycle {s0 : Ctl} (h : Deployed asibotWorld unitArm cfg s0 demo) {t : ℝ} (ht : t ≤ 10) (z : ℝ) :
    Exec cfg (run cfg) onLine (lineCycle t z (3 - z)) (.ok ()) onLine := by
  obtain ⟨h1, h2, h3, h4, h5, h6, h7, h8, h9⟩ := unit_more h
  have hz : zeros.length = cfg.numJoints := by rw [h4]; rfl
  have hlim : InLimits cfg zeros := by
    intro j hj
    rw [h4] at hj
    rw [h6, h7]
    match j, hj with
    | 0, _ | 1, _ | 2, _ | 3, _ | 4, _ => exact ⟨0, -180, 180, rfl, rfl, rfl, by norm_num [tol], by norm_num [tol]⟩
  have hc : can (robot cfg) (run cfg) (fun o s' tr => o = .ok () ∧ s' = onLine ∧ tr = lineCycle t z (3 - z)) onLine [] := by
    unfold run getCurrentState runBody readEncoders
    can_simp
    refine Or.inr ⟨by simp [onLine], some zeros, some_length hz, ?_⟩
    can_simp
    refine ⟨some zeros, some_length hz, ?_⟩
    can_simp
    refine ⟨some zeros, some_length hz, ?_⟩
    can_simp
    refine Or.inr ⟨true, (checkJointLimits_iff cfg _).mpr hlim, Or.inl ⟨rfl, ?_⟩⟩
    show can _ (Prog.bind (if cfg.usePosdMovl then handleMovlPosd cfg zeros else handleMovlVel cfg zeros) _) _ _ _
    rw [h2, if_neg (by simp)]
    unfold handleMovlVel sendVelocity
    can_simp
    refine can_checkModes [.velocity, .velocity, .velocity, .velocity, .velocity] (by simp [h4]) ?_
    can_simp
    have hd : ¬ (onLine.trajectories.any fun tr => decide (t - onLine.movementStartTime > tr.duration)) = true := by
      simpa [onLine, oneJoint, Ctl.initial] using ht
    refine Or.inl ⟨by simp, t, Or.inr ⟨hd, some (upright z), ?_⟩⟩
    have hp : ∀ τ, posesAt onLine.trajectories τ = upright 3 := fun τ => by
      show _ ++ [] = _
      rw [List.append_nil]
      exact upright_vector 3
    have hv : ∀ τ, twistsAt onLine.trajectories τ = [0, 0, 0, 0, 0, 0] := fun τ => rfl
    rw [hp, hv]
    can_simp
    refine ⟨(true, upright (3 - z)), ?_⟩
    have hl : controlLaw onLine.gain onLine.cmcPeriodMs (upright (3 - z)) [0, 0, 0, 0, 0, 0] = some (upright (3 - z)) := by
      simp [controlLaw, upright, onLine, Ctl.initial]
      norm_num
    can_simp
    refine Or.inr ⟨_, hl, some zeros, ?_⟩
    can_simp
    refine Or.inr ⟨true, (checkJointVelocities_iff _ _).mpr ?_, Or.inl ⟨rfl, Or.inr ⟨zeros, by simp [buffer, h4, zeros], true,
      Or.inl ⟨trivial, trivial, rfl, by simp [lineCycle]⟩⟩⟩⟩
    intro j hj
    rw [h4] at hj
    rw [h8, h9]
    match j, hj with
    | 0, _ | 1, _ | 2, _ | 3, _ | 4, _ => exact ⟨0, -5, 5, rfl, rfl, rfl, by norm_num⟩
  obtain ⟨tr, o, s', hx, rfl, rfl, rfl⟩ := can_run hc
  exact hx

/-- The calls of the order to stay. -/
noncomputable def stayCalls : List Ev :=
  [.getEncoders (some zeros), .fwdKin zeros (some (upright 3)),
    .getControlModes (some [.velocity, .velocity, .velocity, .velocity, .velocity]), .delay (1 / 10) (),
    .getControlModes (some [.velocity, .velocity, .velocity, .velocity, .velocity]), .now 0]

theorem line_starts {s0 : Ctl} (h : Deployed asibotWorld unitArm cfg s0 demo) :
    Exec cfg (Op.prog cfg (.movl (upright 3))) s0 stayCalls (.ok (some true)) onLine := by
  obtain ⟨h1, h2, h3, h4, h5, -⟩ := unit_more h
  subst h5
  have hz : zeros.length = cfg.numJoints := by rw [h4]; rfl
  have hm : movlMode cfg = .velocity := by simp [movlMode, h2]
  have hc : can (robot cfg) (Op.prog cfg (.movl (upright 3))) (fun o s' tr => o = .ok (some true) ∧ s' = onLine ∧ tr = stayCalls)
      (Ctl.initial .base (5 / 100) 10 50 30 (50 * (1 / 1000))) [] := by
    show can (robot cfg) (Prog.bind (movl cfg _) _) _ _ _
    unfold movl movlStart setCurrentState
    can_simp
    refine ⟨some zeros, some_length hz, ?_⟩
    can_simp
    refine ⟨some (upright 3), ?_⟩
    can_simp
    refine Or.inr ⟨by simp [Ctl.initial], ?_⟩
    refine Or.inr ⟨[cfg.line (KdlVectorConverter.vectorToFrame (upright 3)) (KdlVectorConverter.vectorToFrame (upright 3)) 10], rfl, ?_⟩
    refine Or.inr ⟨by simp [h3], ?_⟩
    refine Or.inl ⟨trivial, ?_⟩
    rw [hm]
    refine can_setModes' [.velocity, .velocity, .velocity, .velocity, .velocity] (by simp [h4]) (by simp) ?_
    can_simp
    refine Or.inl ⟨trivial, 0, ?_⟩
    simp [stayCalls, onLine, h1, Ctl.initial]
  obtain ⟨tr, o, s', hx, rfl, rfl, rfl⟩ := can_run hc
  exact hx

/-- C99: a movement that is in progress when the tool is changed goes on along its path, which was planned for the tip of the
old tool: the robot is told to stay where it is, and is at rest there until a tool of ten metres is attached, and in the
next cycle the tip of the tool is ordered back to where the hand is, at ten metres per second. -/
theorem C99_line_jumps (svd : Mat3 → Vec3) : ∃ cfg s0, Deployed asibotWorld unitArm cfg s0 demo ∧
    ∃ (l : Libs) (k s1 : _) (trm tr1 trt tr2 : List Ev), l.svd = svd ∧
      Exec cfg (Op.prog cfg (.movl (upright 3))) s0 trm (.ok (some true)) s1 ∧ Ev.fwdKin zeros (some (upright 3)) ∈ trm ∧
      Exec cfg (run cfg) s1 tr1 (.ok ()) s1 ∧ Exec cfg (tool (upright 10)) s1 trt (.ok true) s1 ∧
      Exec cfg (run cfg) s1 tr2 (.ok ()) s1 ∧ Answered l demo (trm ++ tr1) demo ∧ Answered l demo trt k ∧ Answered l k tr2 k ∧
      Ev.diffInvKin zeros [0, 0, 0, 0, 0, 0] .base (some zeros) ∈ tr1 ∧
      Ev.diffInvKin zeros [0, 0, -10, 0, 0, 0] .base (some zeros) ∈ tr2 := by
  obtain ⟨cfg, s0, hd, -⟩ := unit_deployed
  have happ : demo.restore.appendLink (upright 10) = some (demo.withTool longTool) := by
    simp [Solver.appendLink, Asibot.vectorToMatrix_upright, Solver.restore, Solver.withTool, longTool]
  let l : Libs := ⟨svd, fun _ _ => ⟨0, 0, 0, 0, 0⟩⟩
  have hdiff : ∀ (k : Solver) x, ∃ v, Asibot.diffInvKin l.svd l.pinv k zeros x .base = some v ∧
      some zeros = v.map Asibot.Joints.toList := by
    intro k x
    obtain ⟨v, hv⟩ := diffInvKin_some l k x .base (q := zeros) rfl
    refine ⟨some v, hv, ?_⟩
    unfold Asibot.diffInvKin at hv
    cases hj : Asibot.jacobian l.svd k zeros RefFrame.base.solver with
    | none => simp [hj] at hv
    | some j =>
      cases j with
      | none => simp [hj] at hv
      | some j =>
        rw [hj] at hv
        simp [l] at hv
        subst hv
        simp [Asibot.Joints.toList, zeros, KinRepr.radToDeg]
  have hcyc : ∀ k z t, Asibot.fwdKin svd k zeros = some (upright z) → Answered l k (lineCycle t z (3 - z)) k := by
    intro k z t hk
    refine .cons rfl (.cons rfl (.cons rfl (.cons rfl (.cons rfl (.cons ⟨rfl, _, hk, rfl⟩ (.cons ⟨rfl, _, upright_diff svd 3 z, rfl⟩
      (.cons ⟨rfl, rfl, hdiff _ _⟩ (.cons rfl (.nil _)))))))))
  refine ⟨cfg, s0, hd, l, demo.withTool longTool, onLine, stayCalls, lineCycle 1 3 (3 - 3),
    [.restoreOriginalChain true, .appendLink (upright 10) true], lineCycle 2 13 (3 - 13), rfl, line_starts hd,
    by simp [stayCalls], line_cycle hd (by norm_num) 3, .call trivial (.call trivial (.pure _ _)),
    line_cycle hd (by norm_num) 13, ?_, .cons ⟨rfl, rfl⟩ (.cons ⟨happ, rfl⟩ (.nil _)), hcyc _ _ _ (Asibot.demo_fwd_long svd),
    ?_, ?_⟩
  · have hf : Asibot.fwdKin svd demo zeros = some (upright 3) := Asibot.demo_fwd svd
    refine .cons rfl (.cons ⟨rfl, _, hf, rfl⟩ (.cons rfl (.cons rfl (.cons rfl (.cons rfl ?_)))))
    exact hcyc _ _ _ hf
  · simp [lineCycle, upright]
  · norm_num [lineCycle, upright]

end KD.Ctrl.WithAsibot
