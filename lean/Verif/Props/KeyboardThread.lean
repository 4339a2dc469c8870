import Verif.Programs.LinearTrajectory
import Verif.Props.Keyboard

/-!
# C69, C73: the thread of the keyboard controller that sends poses
-/

namespace KD.Kbd

open scoped Classical

/-- What the calls made tell about the thread: whether it was resumed since it was last suspended, the frame it
was told, and the velocities it was last given. Fails if the frame is changed while poses are being sent. -/
def scan : Bool × Bool × (Fin 6 → ℝ) → List Ev → Option (Bool × Bool × (Fin 6 → ℝ))
  | m, [] => some m
  | (_, tcp, v), .suspend :: l => scan (false, tcp, v) l
  | (_, tcp, _), .poses v :: l => scan (true, tcp, v) l
  | (on, _, v), .setFrame b :: l => if on then none else scan (on, b, v) l
  | m, _ :: l => scan m l

theorem scan_append (m : Bool × Bool × (Fin 6 → ℝ)) (a b : List Ev) :
    scan m (a ++ b) = (scan m a).bind fun m' => scan m' b := by
  induction a generalizing m with
  | nil => rfl
  | cons x a ih =>
    obtain ⟨on, tcp, v⟩ := m
    cases x <;> simp only [List.cons_append, scan, ih]
    split_ifs <;> rfl

/-- What the program knows about the thread. -/
def St.view (s : St) : Bool × Bool × (Fin 6 → ℝ) := (s.threadOn, s.tcpFrame, s.threadVels)

theorem scan_issueStop {c : Cfg} (hc : c.cart = true) (hu : c.usingThread = true) (s : St) (a : Ans) :
    scan s.view (issueStop c s a).2 = some (issueStop c s a).1.view := by
  cases h : s.actuating <;> simp [issueStop, hc, hu, h, scan, St.view]

theorem scan_enter {c : Cfg} (hc : c.cart = true) (hu : c.usingThread = true) (m : Mode) (s : St) (a : Ans) :
    scan s.view (enter c m s a).2 = some (enter c m s a).1.view := by
  unfold enter
  split_ifs
  · exact scan_issueStop hc hu s a
  · rfl

theorem scan_thenStop {c : Cfg} (hc : c.cart = true) (hu : c.usingThread = true) {m : Bool × Bool × (Fin 6 → ℝ)}
    {s : St} {e : List Ev} (h : scan m e = some s.view) (a : Ans) :
    scan m (thenStop c s a e).2 = some (thenStop c s a e).1.view := by
  unfold thenStop
  rw [scan_append, h]
  exact scan_issueStop hc hu s a

theorem scan_press {c : Cfg} (hc : c.cart = true) (hu : c.usingThread = true) {s s' : St} {a : Ans} {k : Key}
    {e : List Ev} (h : press c s a k = some (s', e)) : scan s.view e = some s'.view := by
  cases k with
  | joint j up =>
    simp only [press, jointKey] at h
    by_cases hb : c.board = true
    · simp only [hb, Bool.not_true, Bool.false_eq_true, if_false] at h
      have h1 := scan_enter hc hu .joint s a
      generalize enter c .joint s a = E at h h1
      obtain ⟨s1, e1⟩ := E
      simp only at h h1
      have stop : ∀ {s2 : St} {e2 : List Ev}, scan s.view e2 = some s2.view →
          some (thenStop c s2 a e2) = some (s', e) → scan s.view e = some s'.view := by
        intro s2 e2 h2 h3
        have := scan_thenStop hc hu h2 a
        rw [Option.some.inj h3] at this
        exact this
      by_cases i1 : c.axes ≤ j
      · rw [if_pos i1] at h
        exact stop h1 h
      rw [if_neg i1] at h
      by_cases i2 : (!a.setModes) = true
      · rw [if_pos i2] at h
        exact stop h1 h
      · rw [if_neg i2] at h
        cases hm : s1.jointMode with
        | position =>
          rw [hm] at h
          simp only at h
          cases he : a.encoders with
          | none =>
            rw [he] at h
            exact stop h1 h
          | some q =>
            rw [he] at h
            simp only at h
            cases ht : target c j up (q j) with
            | none => rw [ht] at h; cases h
            | some x =>
              rw [ht] at h
              simp only at h
              have h2 : scan s.view (e1 ++ [.positionMove j x]) = some s1.view := by rw [scan_append, h1]; rfl
              split_ifs at h
              · obtain ⟨rfl, rfl⟩ := Prod.mk.inj (Option.some.inj h)
                exact h2
              · exact stop h2 h
        | velocity =>
          rw [hm] at h
          simp only at h
          have h2 : ∀ v, scan s.view (e1 ++ [.velocityMove j v]) =
              some ({ s1 with jointVels := set s1.jointVels j v } : St).view := by
            intro v; rw [scan_append, h1]; rfl
          split_ifs at h
          · obtain ⟨rfl, rfl⟩ := Prod.mk.inj (Option.some.inj h)
            rw [h2]; rfl
          · refine stop (s2 := { s1 with jointMode := .velocity, jointVels := set s1.jointVels j _ }) ?_ h
            exact h2 _
    · simp only [hb, Bool.not_false, if_true] at h
      have := scan_issueStop hc hu s a
      rw [Option.some.inj h] at this
      exact this
  | cart i up =>
    simp only [press, cartKey, hc, Bool.not_true, Bool.false_eq_true, if_false, hu, if_true] at h
    have h1 := scan_enter hc hu .cartesian s a
    generalize enter c .cartesian s a = E at h h1
    obtain ⟨s1, e1⟩ := E
    simp only at h h1
    have h2 := Option.some.inj h
    split_ifs at h2
    · obtain ⟨rfl, rfl⟩ := Prod.mk.inj h2
      rw [scan_append, h1]; rfl
    · obtain ⟨rfl, rfl⟩ := Prod.mk.inj h2
      rw [scan_append, h1]; rfl
    · obtain ⟨rfl, rfl⟩ := Prod.mk.inj h2
      rw [h1]; rfl
  | toggleJointMode =>
    have h1 := scan_issueStop hc hu s a
    have h2 := Option.some.inj h
    unfold toggleJointMode at h2
    generalize issueStop c s a = E at h1 h2
    obtain ⟨s1, e1⟩ := E
    simp only at h1 h2
    split_ifs at h2
    · obtain ⟨rfl, rfl⟩ := Prod.mk.inj h2; exact h1
    · obtain ⟨rfl, rfl⟩ := Prod.mk.inj h2; exact h1
  | toggleFrame =>
    have h1 := scan_issueStop hc hu s a
    have h0 : (issueStop c s a).1.threadOn = false := by simp [issueStop, hc, hu]
    have h2 := Option.some.inj h
    unfold toggleFrame at h2
    generalize issueStop c s a = E at h0 h1 h2
    obtain ⟨s1, e1⟩ := E
    simp only [hc] at h0 h1 h2
    split_ifs at h2 with i1 i2
    · cases i1
    · obtain ⟨rfl, rfl⟩ := Prod.mk.inj h2
      rw [scan_append, h1]
      simp [scan, St.view, h0]
    · obtain ⟨rfl, rfl⟩ := Prod.mk.inj h2; exact h1
  | gripper o =>
    have h2 := Option.some.inj h
    simp only [gripperKey, hc, Bool.not_true, Bool.false_eq_true, if_false] at h2
    obtain ⟨rfl, rfl⟩ := Prod.mk.inj h2
    cases o <;> rfl
  | stop =>
    have h1 := scan_issueStop hc hu s a
    rw [Option.some.inj h] at h1
    exact h1

/-- **C69.** After any keys, the program knows the state of the thread: it is at work exactly if it was resumed
after it was last suspended, with the velocities and the frame that it was last given. The frame is never changed
while poses are being sent. -/
theorem C69_thread_known {c : Cfg} (hc : c.cart = true) (hu : c.usingThread = true) {l : List (Key × Ans)} :
    ∀ {s s' : St} {es : List (List Ev)}, run c s l = some (s', es) →
      scan (s.threadOn, s.tcpFrame, s.threadVels) es.flatten = some (s'.threadOn, s'.tcpFrame, s'.threadVels) := by
  induction l with
  | nil =>
    intro s s' es h
    obtain ⟨rfl, rfl⟩ := Prod.mk.inj (Option.some.inj h)
    rfl
  | cons y l ih =>
    obtain ⟨k, a⟩ := y
    intro s s' es h
    rw [run] at h
    cases hp : press c s a k with
    | none => rw [hp] at h; cases h
    | some r =>
      obtain ⟨s1, e⟩ := r
      rw [hp] at h
      simp only [Option.bind_eq_bind, Option.bind_some] at h
      cases hr : run c s1 l with
      | none => rw [hr] at h; cases h
      | some r =>
        obtain ⟨s2, es2⟩ := r
        rw [hr] at h
        simp only [Option.bind_some] at h
        obtain ⟨rfl, rfl⟩ := Prod.mk.inj (Option.some.inj h)
        have h1 : scan (s.threadOn, s.tcpFrame, s.threadVels) e = some (s1.threadOn, s1.tcpFrame, s1.threadVels) :=
          scan_press hc hu hp
        rw [List.flatten_cons, scan_append, h1]
        exact ih hr

/-- Schedules in which `run` of the periodic thread is not interrupted by the keyboard thread. -/
def Atomic : List Act → Prop
  | [] => True
  | .call _ _ :: l => Atomic l
  | .wake :: .body _ :: l => Atomic l
  | _ => False

/-- What is sent when the periodic thread is due. `tcp` is the frame and `cur` the last movement, if it was not
suspended since: velocities, pose told by the controller then, time. Nothing is sent without such a movement. With
one, the point of the trajectory for the time elapsed; or in the TCP frame, where poses are displacements, velocity
times period. -/
noncomputable def due (ray : Frame → Twist → ℝ → Frame) (period : ℝ) (tcp : Bool) (now : ℝ) :
    Option ((Fin 6 → ℝ) × List ℝ × ℝ) → List Obs
  | none => []
  | some (v, x, t) =>
    [.pose (if tcp then (coords v).map fun y => period / 1000 * y
      else KdlVectorConverter.frameToVector (ray (KdlVectorConverter.vectorToFrame x)
        (KdlVectorConverter.vectorToTwist (coords v)) (now - t))) now]

/-- What is to be seen from outside. -/
noncomputable def expect (ray : Frame → Twist → ℝ → Frame) (period : ℝ) :
    Bool → Option ((Fin 6 → ℝ) × List ℝ × ℝ) → List Act → List Ev → List Obs
  | tcp, cur, .call _ _ :: l, [] => expect ray period tcp cur l []
  | tcp, _, .call x t :: l, .suspend :: todo => .call .suspend x t :: expect ray period tcp none l todo
  | tcp, _, .call x t :: l, .poses v :: todo => .call (.poses v) x t :: expect ray period tcp (some (v, x, t)) l todo
  | _, cur, .call x t :: l, .setFrame b :: todo => .call (.setFrame b) x t :: expect ray period b cur l todo
  | tcp, cur, .call x t :: l, e :: todo => .call e x t :: expect ray period tcp cur l todo
  | tcp, cur, .wake :: .body now :: l, todo => due ray period tcp now cur ++ expect ray period tcp cur l todo
  | _, _, _, _ => []

/-- The thread is doing the movement `cur`. -/
def Thread.does (ray : Frame → Twist → ℝ → Frame) (t : Thread) : Option ((Fin 6 → ℝ) × List ℝ × ℝ) → Prop
  | none => t.suspended = true
  | some (v, x, t0) => t.suspended = false ∧
    if t.tcp then t.deltaX = (coords v).map fun y => t.period / 1000 * y
    else t.line = some (ray (KdlVectorConverter.vectorToFrame x) (KdlVectorConverter.vectorToTwist (coords v))) ∧
      t.startTime = t0

theorem thread_run (ray : Frame → Twist → ℝ → Frame) : ∀ (sched : List Act), Atomic sched →
    ∀ (t : Thread) (todo : List Ev) (cur : Option ((Fin 6 → ℝ) × List ℝ × ℝ)) (v : Fin 6 → ℝ),
      t.does ray cur → (scan (!t.suspended, t.tcp, v) todo).isSome →
      ∃ s, Sys.run ray ⟨t, todo, false⟩ sched = some (s, expect ray t.period t.tcp cur sched todo)
  | [], _, t, todo, cur, v, _, _ => ⟨⟨t, todo, false⟩, by cases todo <;> rfl⟩
  | .call x now :: l, hs, t, [], cur, v, hd, hk => by
    obtain ⟨s, h⟩ := thread_run ray l hs t [] cur v hd hk
    refine ⟨s, ?_⟩
    rw [Sys.run]
    simp only [Sys.step, Option.bind_eq_bind, Option.bind_some]
    rw [h]
    rfl
  | .call x now :: l, hs, t, e :: todo, cur, v, hd, hk => by
    have go : ∀ (t' : Thread) (cur' : Option ((Fin 6 → ℝ) × List ℝ × ℝ)) (v' : Fin 6 → ℝ),
        t.call ray x now e = t' → t'.does ray cur' → (scan (!t'.suspended, t'.tcp, v') todo).isSome →
        expect ray t.period t.tcp cur (.call x now :: l) (e :: todo) =
          .call e x now :: expect ray t'.period t'.tcp cur' l todo →
        ∃ s, Sys.run ray ⟨t, e :: todo, false⟩ (.call x now :: l) =
          some (s, expect ray t.period t.tcp cur (.call x now :: l) (e :: todo)) := by
      intro t' cur' v' h1 h2 h3 h4
      obtain ⟨s, h⟩ := thread_run ray l hs t' todo cur' v' h2 h3
      refine ⟨s, ?_⟩
      rw [h4, Sys.run]
      simp only [Sys.step, Option.bind_eq_bind, Option.bind_some, h1]
      rw [h]
      rfl
    cases e with
    | suspend => exact go _ none v rfl rfl (by simpa [scan, Thread.call] using hk) rfl
    | poses w =>
      have hf : (t.call ray x now (.poses w)).tcp = t.tcp ∧ (t.call ray x now (.poses w)).period = t.period ∧
          (t.call ray x now (.poses w)).suspended = false := by
        unfold Thread.call Thread.configure
        split_ifs <;> exact ⟨rfl, rfl, rfl⟩
      refine go _ (some (w, x, now)) w rfl ⟨hf.2.2, ?_⟩ ?_ ?_
      · rw [hf.1, hf.2.1]
        unfold Thread.call Thread.configure
        cases t.tcp
        · simp
        · simp
      · rw [hf.1, hf.2.2]
        simpa [scan] using hk
      · rw [hf.1, hf.2.1]; rfl
    | setFrame b =>
      cases hsu : t.suspended with
      | false => rw [hsu] at hk; simp [scan] at hk
      | true =>
        have hc : cur = none := by
          cases cur with
          | none => rfl
          | some m =>
            obtain ⟨w, y, t0⟩ := m
            have := hd.1
            rw [hsu] at this; cases this
        subst hc
        refine go _ none v rfl hsu ?_ rfl
        rw [hsu] at hk
        show (scan (!t.suspended, b, v) todo).isSome
        rw [hsu]
        simpa [scan] using hk
    | positionMove j q => exact go t cur v rfl hd hk rfl
    | velocityMove j q => exact go t cur v rfl hd hk rfl
    | boardStop m ok => exact go t cur v rfl hd hk rfl
    | movv w => exact go t cur v rfl hd hk rfl
    | stopControl ok => exact go t cur v rfl hd hk rfl
    | actOpen => exact go t cur v rfl hd hk rfl
    | actClose => exact go t cur v rfl hd hk rfl
    | actStop => exact go t cur v rfl hd hk rfl
  | .wake :: .body now :: l, hs, t, todo, cur, v, hd, hk => by
    obtain ⟨s, h⟩ := thread_run ray l hs t todo cur v hd hk
    refine ⟨s, ?_⟩
    have he : expect ray t.period t.tcp cur (.wake :: .body now :: l) todo =
        due ray t.period t.tcp now cur ++ expect ray t.period t.tcp cur l todo := by
      cases todo <;> rfl
    rw [he, Sys.run]
    simp only [Sys.step, Option.bind_eq_bind, Option.bind_some, Bool.false_or]
    rw [Sys.run]
    simp only [Sys.step]
    cases cur with
    | none =>
      have hsu : t.suspended = true := hd
      simp only [hsu, Bool.not_true, Bool.false_eq_true, if_false, Option.bind_eq_bind, Option.bind_some]
      rw [h]
      rfl
    | some m =>
      obtain ⟨w, y, t0⟩ := m
      obtain ⟨h1, h2⟩ := hd
      simp only [h1, Bool.not_false, if_true]
      unfold Thread.body
      cases htc : t.tcp with
      | true =>
        rw [htc] at h2 h
        simp only [if_true] at h2 ⊢
        simp only [Option.map_some, Option.bind_eq_bind, Option.bind_some, h]
        rw [h2]
        rfl
      | false =>
        rw [htc] at h2 h
        simp only [Bool.false_eq_true, if_false] at h2 ⊢
        rw [h2.1, h2.2]
        simp only [Option.map_some, Option.bind_eq_bind, Option.bind_some]
        rw [h]
        rfl
  | .wake :: .wake :: _, hs, _, _, _, _, _, _ => hs.elim
  | .wake :: .call _ _ :: _, hs, _, _, _, _, _, _ => hs.elim
  | [.wake], hs, _, _, _, _, _, _ => hs.elim
  | .body _ :: _, hs, _, _, _, _, _, _ => hs.elim

/-- **C73.** Any keys are pressed, with any answers, while the periodic thread is due at any times, in between any
two calls of the program. Then the poses sent are exactly those expected: the points, at the time elapsed, of the
trajectory from the pose told at the last change of velocity; none after a stop and before the next movement. The
missing trajectory is never used. Partial: supposed that the `run` of the periodic thread is not overtaken by
calls of the program, see `C73_pose_after_stop` and `C73_crash`. -/
theorem C73_poses_partial (ray : Frame → Twist → ℝ → Frame) (period : ℝ) {c : Cfg} (hc : c.cart = true)
    (hu : c.usingThread = true) (tcp : Bool) {l : List (Key × Ans)} {s' : St} {es : List (List Ev)}
    (h : run c { tcpFrame := tcp } l = some (s', es)) {sched : List Act} (hs : Atomic sched) :
    ∃ s, Sys.run ray { thread := { period := period, tcp := tcp }, todo := es.flatten } sched =
      some (s, expect ray period tcp none sched es.flatten) := by
  have hk := C69_thread_known hc hu h
  refine thread_run ray sched hs { period := period, tcp := tcp } es.flatten none (fun _ => 0) rfl ?_
  show (scan (false, tcp, fun _ => 0) es.flatten).isSome
  have hk' : scan (false, tcp, fun _ => 0) es.flatten = _ := hk
  rw [hk']
  rfl

/-- The calls for one press of a Cartesian key and a stop. -/
theorem demo_calls : ∃ s v, run threaded { } [(.cart 0 true, { }), (.stop, { })] =
    some (s, [[.suspend, .stopControl true, .poses v], [.suspend, .stopControl true]]) ∧ v 0 = 5 / 1000 := by
  have h1 := speeds_net 0 0 true
  have z1 : ¬ roundZeroes (speeds (net 0 0 true)) = fun _ => 0 := by
    rw [speeds_round]
    intro h
    have := congrFun h 0
    simp [net] at this
  rw [speeds_zero] at h1
  have hc : threaded.cart = true := rfl
  have hb : threaded.board = true := rfl
  have hu : threaded.usingThread = true := rfl
  refine ⟨⟨.notControlling, .velocity, fun _ => 0, fun _ => 0, false, false, false, speeds (net 0 0 true)⟩,
    speeds (net 0 0 true), ?_, by simp [speeds, net]⟩
  simp only [run, press, cartKey, enter, issueStop, hc, hb, hu]
  simp only [ne_eq, reduceCtorEq, not_false_eq_true, if_true, Bool.not_true, Bool.false_eq_true, if_false, h1, z1,
    Option.bind_eq_bind, Option.bind_some, List.nil_append, List.append_assoc]
  rfl

/-- The program at work: two poses while moving, none before and after. -/
example (ray : Frame → Twist → ℝ → Frame) : ∃ s v sys p1 p2, run threaded { } [(.cart 0 true, { }), (.stop, { })] =
      some (s, [[.suspend, .stopControl true, .poses v], [.suspend, .stopControl true]]) ∧
    Atomic [.wake, .body 0, .call [] 1, .call [] 1, .call [0, 0, 0, 0, 0, 0] 1, .wake, .body 2, .wake, .body 3,
      .call [] 3, .call [] 3, .wake, .body 4] ∧
    Sys.run ray { thread := { period := 20, tcp := false }, todo := [.suspend, .stopControl true, .poses v, .suspend,
        .stopControl true] }
      [.wake, .body 0, .call [] 1, .call [] 1, .call [0, 0, 0, 0, 0, 0] 1, .wake, .body 2, .wake, .body 3,
        .call [] 3, .call [] 3, .wake, .body 4] =
      some (sys, [.call .suspend [] 1, .call (.stopControl true) [] 1, .call (.poses v) [0, 0, 0, 0, 0, 0] 1,
        .pose p1 2, .pose p2 3, .call .suspend [] 3, .call (.stopControl true) [] 3]) := by
  obtain ⟨s, v, h, -⟩ := demo_calls
  have ha : Atomic [.wake, .body 0, .call [] 1, .call [] 1, .call [0, 0, 0, 0, 0, 0] 1, .wake, .body 2, .wake, .body 3,
      .call [] 3, .call [] 3, .wake, .body 4] := trivial
  obtain ⟨sys, h2⟩ := C73_poses_partial ray 20 rfl rfl false h ha
  exact ⟨s, v, sys, _, _, h, ha, h2⟩

/-- **C73 fails when `run` has begun before the stop.** The thread sees that it is not suspended; before it gets
the next pose, the user stops the robot. The pose is sent after the controller was told to stop. -/
theorem C73_pose_after_stop (ray : Frame → Twist → ℝ → Frame) : ∃ s v sys p,
    run threaded { } [(.cart 0 true, { }), (.stop, { })] =
      some (s, [[.suspend, .stopControl true, .poses v], [.suspend, .stopControl true]]) ∧
    Sys.run ray { thread := { period := 20, tcp := false }, todo := [.suspend, .stopControl true, .poses v, .suspend,
        .stopControl true] }
      [.call [] 1, .call [] 1, .call [0, 0, 0, 0, 0, 0] 1, .wake, .call [] 2, .call [] 2, .body 2] =
      some (sys, [.call .suspend [] 1, .call (.stopControl true) [] 1, .call (.poses v) [0, 0, 0, 0, 0, 0] 1,
        .call .suspend [] 2, .call (.stopControl true) [] 2, .pose p 2]) := by
  obtain ⟨s, v, h, -⟩ := demo_calls
  refine ⟨s, v, _, _, h, rfl⟩

/-- **C73: the program can crash.** The user moves the robot in the TCP frame and then changes to the base frame,
for which there is no trajectory yet. If `run` has begun before the thread is suspended and looks at the frame after
it is changed, it uses the trajectory that does not exist. -/
theorem C73_crash (ray : Frame → Twist → ℝ → Frame) : ∃ s v,
    run threaded { tcpFrame := true } [(.cart 0 true, { }), (.toggleFrame, { })] =
      some (s, [[.suspend, .stopControl true, .poses v], [.suspend, .stopControl true, .setFrame false]]) ∧
    Sys.run ray { thread := { period := 20, tcp := true }, todo := [.suspend, .stopControl true, .poses v, .suspend,
        .stopControl true, .setFrame false] }
      [.call [] 1, .call [] 1, .call [0, 0, 0, 0, 0, 0] 1, .wake, .call [] 2, .call [] 2, .call [] 2, .body 2] = none := by
  have h1 := speeds_net 0 0 true
  have z1 : ¬ roundZeroes (speeds (net 0 0 true)) = fun _ => 0 := by
    rw [speeds_round]
    intro h
    have := congrFun h 0
    simp [net] at this
  rw [speeds_zero] at h1
  have hc : threaded.cart = true := rfl
  have hb : threaded.board = true := rfl
  have hu : threaded.usingThread = true := rfl
  refine ⟨⟨.notControlling, .velocity, fun _ => 0, fun _ => 0, false, false, false, speeds (net 0 0 true)⟩,
    speeds (net 0 0 true), ?_, rfl⟩
  simp only [run, press, cartKey, toggleFrame, enter, issueStop, hc, hb, hu]
  simp only [ne_eq, reduceCtorEq, not_false_eq_true, if_true, Bool.not_true, Bool.false_eq_true, if_false, h1, z1,
    Option.bind_eq_bind, Option.bind_some, List.nil_append, List.append_assoc]
  rfl

end KD.Kbd
