import Verif.Props.FtCompensation
import Verif.Programs.Sessions
import Verif.Programs.StreamingLemmas
import Verif.Props.Parameters
import Verif.Props.Streaming
import Verif.Props.JointSpeeds

/-!
# C83: streaming programs in front of the controller
-/

namespace KD.Ctrl

open scoped Classical
open Prog (wp wp_bind wp_of_run wp_sound can can_bind can_run Run Writes run_keeps)

/-! ## What is said of one command -/

/-- Commands that only ask, and cycles of the control loop. -/
def Op.asks : Op → Bool
  | .stat | .inv _ | .getParameter _ | .cycle => true
  | _ => false

/-- A streamed command reaches the joints: the controller looks at the control modes of the joints, and if
all of them are in the mode of the command, it sends them what the solver computes for the command in this
frame. If the joint positions cannot be read, the solver has no answer or its answer violates the limits,
the joints are told to stand still (`twist`), to give no force (`wrench`), or nothing (`pose`). -/
def CarriedOut (cfg : Cfg) (frame : RefFrame) (d : Done) : Prop :=
  ∃ ms rest, d.calls = Ev.getControlModes ms :: rest ∧
  match d.op with
  | .twist x => (∃ l, ms = some l ∧ ∀ m ∈ l, m = Mode.velocity) → ∃ v ok, Ev.velocityMove v ok ∈ rest ∧
      ((∃ q sol, Ev.getEncoders (some q) ∈ rest ∧ Ev.diffInvKin q x frame (some sol) ∈ rest ∧
          v = sol.take cfg.numJoints) ∨
        (v = List.replicate cfg.numJoints 0 ∧ (Ev.getEncoders none ∈ rest ∨
          (∃ q, Ev.diffInvKin q x frame none ∈ rest) ∨
          ∃ q sol, Ev.getEncoders (some q) ∈ rest ∧ Ev.diffInvKin q x frame (some sol) ∈ rest ∧
            ¬(LimitsOrAway cfg q sol ∧ InVelLimits cfg sol))))
  | .pose x => (∃ l, ms = some l ∧ ∀ m ∈ l, m = Mode.positionDirect) →
      (∃ q sol ok, Ev.getEncoders (some q) ∈ rest ∧ Ev.invKin x q frame (some sol) ∈ rest ∧
          Ev.setPositions (sol.take cfg.numJoints) ok ∈ rest) ∨
        Ev.getEncoders none ∈ rest ∨ (∃ q, Ev.invKin x q frame none ∈ rest) ∨
        ∃ q sol, Ev.getEncoders (some q) ∈ rest ∧ Ev.invKin x q frame (some sol) ∈ rest ∧
            ¬LimitsOrAway cfg q (minus sol q)
  | .wrench w => (∃ l, ms = some l ∧ ∀ m ∈ l, m = Mode.torque) → ∃ t ok, Ev.setRefTorques t ok ∈ rest ∧
      ((∃ q v a sol, Ev.getEncoders (some q) ∈ rest ∧ Ev.getEncoderSpeeds (some v) ∈ rest ∧
          Ev.getEncoderAccelerations (some a) ∈ rest ∧
          Ev.invDyn q v a (w.map fun f => -f) frame (some sol) ∈ rest ∧ t = sol.take cfg.numJoints) ∨
        (t = List.replicate cfg.numJoints 0 ∧ (Ev.getEncoders none ∈ rest ∨ Ev.getEncoderSpeeds none ∈ rest ∨
          Ev.getEncoderAccelerations none ∈ rest ∨
          (∃ q v a, Ev.invDyn q v a (w.map fun f => -f) frame none ∈ rest) ∨
          ∃ q, Ev.getEncoders (some q) ∈ rest ∧ ¬InLimits cfg q)))
  | _ => False

/-- The command that a streaming preset belongs to. -/
def Op.preset : Op → Option ℤ
  | .twist _ => some vocabTwist
  | .pose _ => some vocabPose
  | .wrench _ => some vocabWrench
  | _ => none

/-! ## One command -/

theorem asks_keeps {cfg : Cfg} {op : Op} {s s' : Ctl} {tr : List Ev} {o : Out (Option Bool)}
    (ha : op.asks = true) (hs : s.state = .notControlling) (h : Exec cfg (op.prog cfg) s tr o s') : s' = s := by
  have hw : ∀ {p : P (Option Bool)}, Exec cfg p s tr o s' → Writes (fun _ => False) p → s' = s :=
    fun h hw => run_keeps (I := fun x => x = s) (fun _ hf => hf.elim) h hw rfl
  cases op <;> simp only [Op.asks, Bool.false_eq_true] at ha
  case stat => exact hw h (Prog.writes_bind writes_stat fun _ => True.intro)
  case inv => exact hw h (Prog.writes_bind writes_inv fun _ => True.intro)
  case getParameter => exact hw h (Prog.writes_bind writes_getParameter fun _ => True.intro)
  case cycle =>
    rcases Prog.run_bind.mp h with ⟨a, s1, t1, t2, h1, h2, -⟩ | ⟨h1, -⟩
    · obtain ⟨-, -, rfl⟩ := run_idle hs h1
      cases h2; rfl
    · obtain ⟨h, -, -⟩ := run_idle hs h1
      cases h

theorem streamed_keeps {cfg : Cfg} {op : Op} {s s' : Ctl} {tr : List Ev} {o : Out (Option Bool)} {v : ℤ}
    (ha : op.preset = some v) (h : Exec cfg (op.prog cfg) s tr o s') : s' = s := by
  have hw : ∀ {p : P (Option Bool)}, Exec cfg p s tr o s' → Writes (fun _ => False) p → s' = s :=
    fun h hw => run_keeps (I := fun x => x = s) (fun _ hf => hf.elim) h hw rfl
  cases op <;> simp only [Op.preset, reduceCtorEq] at ha
  case pose => exact hw h (Prog.writes_bind writes_pose fun _ => True.intro)
  case twist => exact hw h (Prog.writes_bind writes_twist fun _ => True.intro)
  case wrench => exact hw h (Prog.writes_bind writes_wrench fun _ => True.intro)

/-- A command whose result is dropped. -/
theorem exec_unit {cfg : Cfg} {p : P Unit} {s s' : Ctl} {tr : List Ev} {b : Option Bool}
    (h : Exec cfg (p.bind fun _ => .pure none) s tr (.ok b) s') : Exec cfg p s tr (.ok ()) s' := by
  rcases Prog.run_bind.mp h with ⟨a, s1, t1, t2, h1, h2, rfl⟩ | ⟨-, h⟩
  · cases h2; simpa using h1
  · cases h

theorem buffer_take {cfg : Cfg} {l v : List ℝ} (h : buffer cfg l = some v) : v = l.take cfg.numJoints := by
  unfold buffer at h
  split at h
  · simp at h
  · exact (Option.some.inj h).symm

theorem twist_carried {cfg : Cfg} {x : List ℝ} {s s' : Ctl} {tr : List Ev} {b : Option Bool}
    (hs : s.state = .notControlling) (hp : s.streaming = vocabTwist)
    (h : Exec cfg (Op.prog cfg (.twist x)) s tr (.ok b) s') : CarriedOut cfg s.frame ⟨.twist x, tr, b⟩ := by
  refine wp_sound (Q := fun o _ tr => o = .ok () → CarriedOut cfg s.frame ⟨.twist x, tr, b⟩) ?_ (exec_unit h) rfl
  unfold twist streamingReady getCurrentState
  dev_simp
  refine ⟨fun h => absurd hs h, fun _ => ⟨fun _ => ?_, fun h => absurd hp (by simpa using h)⟩⟩
  rw [wp_checkControlModes]
  refine ⟨?_, fun ms hms => ?_⟩
  · dev_simp
    exact ⟨by simp, fun _ _ => ⟨none, [], rfl, fun ⟨l, hl, _⟩ => by cases hl⟩⟩
  dev_simp
  refine ⟨fun hall => ?_, fun hn _ => ⟨some ms, [], rfl, fun ⟨l, hl, h⟩ => absurd ?_ hn⟩⟩
  swap
  · rw [Option.some.inj hl]; simpa using h
  unfold twistBody
  dev_simp
  refine ⟨⟨by simp, fun _ r _ => ?_⟩, fun q hq => ⟨⟨by simp, fun _ r _ => ?_⟩, fun sol => ⟨by simp,
    fun b1 hb1 => ⟨fun h1 => ⟨by simp, fun b2 hb2 => ⟨fun h2 => ⟨by simp, fun v hv r => ⟨fun _ _ => ?_, by simp⟩⟩,
      fun h2 => ⟨by simp, fun _ r _ => ?_⟩⟩⟩, fun h1 => ⟨by simp, fun _ r _ => ?_⟩⟩⟩⟩⟩
  · exact ⟨some ms, _, rfl, fun _ => ⟨_, r, by simp, Or.inr ⟨rfl, Or.inl (by simp)⟩⟩⟩
  · exact ⟨some ms, _, rfl, fun _ => ⟨_, r, by simp, Or.inr ⟨rfl, Or.inr (Or.inl ⟨q, by simp⟩)⟩⟩⟩
  · exact ⟨some ms, _, rfl, fun _ => ⟨v, r, by simp, Or.inl ⟨q, sol, by simp, by simp, buffer_take hv⟩⟩⟩
  · refine ⟨some ms, _, rfl, fun _ => ⟨_, r, by simp, Or.inr ⟨rfl, Or.inr (Or.inr ⟨q, sol, by simp, by simp,
      fun h => h2 ?_⟩)⟩⟩⟩
    exact Option.some.inj (hb2.symm.trans ((checkJointVelocities_iff _ _).mpr h.2))
  · refine ⟨some ms, _, rfl, fun _ => ⟨_, r, by simp, Or.inr ⟨rfl, Or.inr (Or.inr ⟨q, sol, by simp, by simp,
      fun h => h1 ?_⟩)⟩⟩⟩
    exact Option.some.inj (hb1.symm.trans ((checkJointLimitsDir_iff _ _ _).mpr h.1))

theorem pose_carried {cfg : Cfg} {x : List ℝ} {s s' : Ctl} {tr : List Ev} {b : Option Bool}
    (hs : s.state = .notControlling) (hp : s.streaming = vocabPose)
    (h : Exec cfg (Op.prog cfg (.pose x)) s tr (.ok b) s') : CarriedOut cfg s.frame ⟨.pose x, tr, b⟩ := by
  refine wp_sound (Q := fun o _ tr => o = .ok () → CarriedOut cfg s.frame ⟨.pose x, tr, b⟩) ?_ (exec_unit h) rfl
  unfold pose streamingReady getCurrentState
  dev_simp
  refine ⟨fun h => absurd hs h, fun _ => ⟨fun _ => ?_, fun h => absurd hp (by simp at h; exact h.1)⟩⟩
  rw [wp_checkControlModes]
  refine ⟨?_, fun ms hms => ?_⟩
  · dev_simp
    exact ⟨by simp, fun _ _ => ⟨none, [], rfl, fun ⟨l, hl, _⟩ => by cases hl⟩⟩
  dev_simp
  refine ⟨fun hall => ⟨fun _ => ?_, fun q hq => ⟨fun _ => ?_, fun sol => ?_⟩⟩,
    fun hn _ => ⟨some ms, [], rfl, fun ⟨l, hl, h⟩ => absurd ?_ hn⟩⟩
  · exact ⟨some ms, _, rfl, fun _ => Or.inr (Or.inl (by simp))⟩
  · exact ⟨some ms, _, rfl, fun _ => Or.inr (Or.inr (Or.inl ⟨q, by simp⟩))⟩
  · refine ⟨by simp, fun d hd => ⟨by simp, fun b1 hb1 => ⟨fun h1 => ⟨by simp, fun v hv r _ => ?_⟩, fun h1 _ => ?_⟩⟩⟩
    · exact ⟨some ms, _, rfl, fun _ => Or.inl ⟨q, sol, r, by simp, by simp, by simp [buffer_take hv]⟩⟩
    · refine ⟨some ms, _, rfl, fun _ => Or.inr (Or.inr (Or.inr ⟨q, sol, by simp, by simp, fun h => h1 ?_⟩))⟩
      refine Option.some.inj (hb1.symm.trans ((checkJointLimitsDir_iff _ _ _).mpr (h.congr fun j hj => ?_)))
      unfold jointDiff at hd
      split at hd
      · simp at hd
      · rw [← Option.some.inj hd]
        simp only [minus, List.getElem?_zipWith, List.getElem?_take, hj, if_true]
  · rw [Option.some.inj hl]; simpa using h

theorem wrench_carried {cfg : Cfg} {x : List ℝ} {s s' : Ctl} {tr : List Ev} {b : Option Bool}
    (hs : s.state = .notControlling) (hp : s.streaming = vocabWrench)
    (h : Exec cfg (Op.prog cfg (.wrench x)) s tr (.ok b) s') : CarriedOut cfg s.frame ⟨.wrench x, tr, b⟩ := by
  refine wp_sound (Q := fun o _ tr => o = .ok () → CarriedOut cfg s.frame ⟨.wrench x, tr, b⟩) ?_ (exec_unit h) rfl
  unfold wrench streamingReady getCurrentState
  dev_simp
  refine ⟨fun h => absurd hs h, fun _ => ⟨fun _ => ?_, fun h => absurd hp (by simpa using h)⟩⟩
  rw [wp_checkControlModes]
  refine ⟨?_, fun ms hms => ?_⟩
  · dev_simp
    exact ⟨by simp, fun _ _ => ⟨none, [], rfl, fun ⟨l, hl, _⟩ => by cases hl⟩⟩
  dev_simp
  refine ⟨fun hall => ?_, fun hn _ => ⟨some ms, [], rfl, fun ⟨l, hl, h⟩ => absurd ?_ hn⟩⟩
  swap
  · rw [Option.some.inj hl]; simpa using h
  unfold wrenchBody
  dev_simp
  refine ⟨⟨by simp, fun _ r _ => ?_⟩, fun q hq => ⟨⟨by simp, fun _ r _ => ?_⟩, fun v hv => ⟨⟨by simp, fun _ r _ => ?_⟩,
    fun a ha => ⟨by simp, fun b1 hb1 => ⟨fun h1 => ⟨⟨by simp, fun _ r _ => ?_⟩, fun sol => ⟨by simp,
      fun t ht r => ⟨fun _ _ => ?_, by simp⟩⟩⟩, fun h1 => ⟨by simp, fun _ r _ => ?_⟩⟩⟩⟩⟩⟩
  · exact ⟨some ms, _, rfl, fun _ => ⟨_, r, by simp, Or.inr ⟨rfl, Or.inl (by simp)⟩⟩⟩
  · exact ⟨some ms, _, rfl, fun _ => ⟨_, r, by simp, Or.inr ⟨rfl, Or.inr (Or.inl (by simp))⟩⟩⟩
  · exact ⟨some ms, _, rfl, fun _ => ⟨_, r, by simp, Or.inr ⟨rfl, Or.inr (Or.inr (Or.inl (by simp)))⟩⟩⟩
  · exact ⟨some ms, _, rfl, fun _ => ⟨_, r, by simp, Or.inr ⟨rfl, Or.inr (Or.inr (Or.inr (Or.inl
      ⟨q, v, a, by simp⟩)))⟩⟩⟩
  · exact ⟨some ms, _, rfl, fun _ => ⟨t, r, by simp, Or.inl ⟨q, v, a, sol, by simp, by simp, by simp, by simp,
      buffer_take ht⟩⟩⟩
  · refine ⟨some ms, _, rfl, fun _ => ⟨_, r, by simp, Or.inr ⟨rfl, Or.inr (Or.inr (Or.inr (Or.inr
      ⟨q, by simp, fun h => h1 ?_⟩)))⟩⟩⟩
    exact Option.some.inj (hb1.symm.trans ((checkJointLimits_iff _ _).mpr h))

/-- A streamed command that was preset is carried out. -/
theorem preset_carried {cfg : Cfg} {op : Op} {s s' : Ctl} {tr : List Ev} {b : Option Bool} {v : ℤ}
    (hs : s.state = .notControlling) (hp : s.streaming = v) (hv : op.preset = some v)
    (h : Exec cfg (op.prog cfg) s tr (.ok b) s') : CarriedOut cfg s.frame ⟨op, tr, b⟩ := by
  cases op <;> simp only [Op.preset, reduceCtorEq, Option.some.injEq] at hv
  case pose => exact pose_carried hs (hp.trans hv.symm) h
  case twist => exact twist_carried hs (hp.trans hv.symm) h
  case wrench => exact wrench_carried hs (hp.trans hv.symm) h

/-! ## Histories -/

/-- The commands of a history that do more than ask, in order. -/
def commandsOf (ds : List Done) : List Op := (ds.map Done.op).filter fun op => !op.asks

theorem commandsOf_cons_asks {d : Done} {ds : List Done} (h : d.op.asks = true) :
    commandsOf (d :: ds) = commandsOf ds := by
  simp [commandsOf, h]

theorem commandsOf_cons {d : Done} {ds : List Done} (h : d.op.asks = false) :
    commandsOf (d :: ds) = d.op :: commandsOf ds := by
  simp [commandsOf, h]

theorem mem_commandsOf {d : Done} {ds : List Done} (hd : d ∈ ds) (h : d.op.asks = false) : d.op ∈ commandsOf ds := by
  simp only [commandsOf, List.mem_filter, List.mem_map]
  exact ⟨⟨d, hd, rfl⟩, by simp [h]⟩

theorem asks_preset {op : Op} {v : ℤ} (h : op.preset = some v) : op.asks = false := by
  cases op <;> simp_all [Op.preset, Op.asks]

theorem session_carried {cfg : Cfg} {s s' : Ctl} {ds : List Done} {v : ℤ} (h : Hist cfg s ds s')
    (hs : s.state = .notControlling) (hp : s.streaming = v) (hd : ∀ op ∈ commandsOf ds, op.preset = some v) :
    s' = s ∧ ∀ d ∈ ds, d.op.asks = false → CarriedOut cfg s.frame d := by
  induction h with
  | nil s => exact ⟨rfl, by simp⟩
  | cons h1 h2 ih =>
    rename_i s op tr b s1 ds s'
    cases ha : op.asks with
    | true =>
      have e := asks_keeps ha hs h1
      subst e
      obtain ⟨i1, i2⟩ := ih hs hp (by rwa [commandsOf_cons_asks (d := ⟨op, tr, b⟩) ha] at hd)
      refine ⟨i1, fun d hdm hda => ?_⟩
      rcases List.mem_cons.mp hdm with rfl | hm
      · rw [ha] at hda; cases hda
      · exact i2 d hm hda
    | false =>
      rw [commandsOf_cons (d := ⟨op, tr, b⟩) ha] at hd
      have hv : op.preset = some v := hd op List.mem_cons_self
      have hc := preset_carried hs hp hv h1
      have e := streamed_keeps hv h1
      subst e
      obtain ⟨i1, i2⟩ := ih hs hp fun op hop => hd op (List.mem_cons_of_mem _ hop)
      refine ⟨i1, fun d hdm hda => ?_⟩
      rcases List.mem_cons.mp hdm with rfl | hm
      · exact hc
      · exact i2 d hm hda

theorem vocab_injective {f g : RefFrame} (h : f.vocab = g.vocab) : f = g := by
  cases f <;> cases g <;> first | rfl | exact absurd h (by decide)

theorem setParameter_true {cfg : Cfg} {k : Key} {v : ℝ} {s s' : Ctl} {tr : List Ev}
    (h : Exec cfg (Op.prog cfg (.setParameter k v)) s tr (.ok (some true)) s') :
    s.state = .notControlling ∧ SetEnd k v s true s' := by
  have h1 : Exec cfg (setParameter k v) s tr (.ok true) s' := by
    rcases Prog.run_bind.mp h with ⟨a, s1, t1, t2, h1, h2, rfl⟩ | ⟨-, h⟩
    · cases h2; simpa using h1
    · cases h
  refine ⟨?_, wp_sound (setParameter_end cfg k v s) h1 true rfl⟩
  by_contra hn
  have := (C36_no_change_while_moving hn k v [] (Or.inl h1)).1
  cases this

/-- What is known once the program has set a preset and a frame. -/
theorem start_effect {cfg : Cfg} {s s' : Ctl} {ds : List Done} {v : ℤ} {f : RefFrame} (h : Hist cfg s ds s')
    (hc : commandsOf ds = [.setParameter .streaming (v : ℝ), .setParameter .frame (f.vocab : ℤ)])
    (hok : ∀ d ∈ ds, d.op.asks = false → d.answer = some true) (hs : s.state = .notControlling) :
    s'.state = .notControlling ∧ s'.streaming = v ∧ s'.frame = f := by
  have hskip : ∀ {s s' : Ctl} {ds : List Done} {k : Key} {v : ℝ} {l : List Op}, Hist cfg s ds s' →
      commandsOf ds = .setParameter k v :: l →
      (∀ d ∈ ds, d.op.asks = false → d.answer = some true) → s.state = .notControlling →
      ∃ s1 ds1, SetEnd k v s true s1 ∧ s1.state = .notControlling ∧ Hist cfg s1 ds1 s' ∧ commandsOf ds1 = l ∧
        ∀ d ∈ ds1, d.op.asks = false → d.answer = some true := by
    intro s s' ds k v l h hc hok hs
    induction h with
    | nil s => cases hc
    | cons h1 h2 ih =>
      rename_i s op tr b s1 ds s'
      cases ha : op.asks with
      | true =>
        have e := asks_keeps ha hs h1
        subst e
        rw [commandsOf_cons_asks (d := ⟨op, tr, b⟩) ha] at hc
        exact ih hc (fun d hd => hok d (List.mem_cons_of_mem _ hd)) hs
      | false =>
        rw [commandsOf_cons (d := ⟨op, tr, b⟩) ha] at hc
        obtain ⟨rfl, rfl⟩ := List.cons.inj hc
        have hb : b = some true := hok _ List.mem_cons_self ha
        subst hb
        obtain ⟨-, he⟩ := setParameter_true h1
        exact ⟨s1, ds, he, he.idle.trans hs, h2, rfl, fun d hd => hok d (List.mem_cons_of_mem _ hd)⟩
  have hrest : ∀ {s s' : Ctl} {ds : List Done}, Hist cfg s ds s' → commandsOf ds = [] →
      s.state = .notControlling → s' = s := by
    intro s s' ds h hc hs
    exact (session_carried h hs rfl (v := s.streaming) (by simp [hc])).1
  obtain ⟨s1, ds1, e1, i1, h1, c1, ok1⟩ := hskip h hc hok hs
  obtain ⟨s2, ds2, e2, i2, h2, c2, -⟩ := hskip h1 c1 ok1 i1
  obtain rfl := hrest h2 c2 i2
  refine ⟨i2, ?_, ?_⟩
  · have a := e1.ok rfl
    have b := e2.others .streaming (by decide)
    rw [a] at b
    have hv : storedValue .streaming (v : ℝ) = v := by
      simp only [storedValue]
      split_ifs <;> simp
    rw [hv] at b
    simpa [param] using b
  · have a := e2.ok rfl
    simp only [param, storedValue, Option.some.injEq] at a
    exact vocab_injective (by exact_mod_cast a)

/-- **C83.** A streaming command that was preset, in a frame that was set, is carried out, each time, as long
as nothing but such commands and questions reaches the controller. -/
theorem C83_preset_commands_carried_out_partial {cfg : Cfg} {s0 s1 s' : Ctl} {prep ds : List Done} {v : ℤ}
    {f : RefFrame} (h0 : s0.state = .notControlling) (h1 : Hist cfg s0 prep s1)
    (hprep : commandsOf prep = [.setParameter .streaming (v : ℝ), .setParameter .frame (f.vocab : ℤ)])
    (hok : ∀ d ∈ prep, d.op.asks = false → d.answer = some true)
    (h2 : Hist cfg s1 ds s') (hds : ∀ op ∈ commandsOf ds, op.preset = some v) :
    ∀ d ∈ ds, d.op.asks = false → CarriedOut cfg f d := by
  obtain ⟨a, b, c⟩ := start_effect h1 hprep hok h0
  subst c
  exact (session_carried h2 a b hds).2

/-- A controller is told to expect velocities in the tool frame, and gets some: what C83 speaks about
happens. -/
theorem session_runs (xs : List (List ℝ)) : ∃ s1 s' prep ds, Hist oneJoint ready prep s1 ∧
    commandsOf prep = [.setParameter .streaming (vocabTwist : ℝ),
      .setParameter .frame ((RefFrame.tcp.vocab : ℤ) : ℝ)] ∧
    (∀ d ∈ prep, d.op.asks = false → d.answer = some true) ∧
    Hist oneJoint s1 ds s' ∧ commandsOf ds = xs.map Op.twist ∧
    ∀ d ∈ ds, Ev.velocityMove [3] true ∈ d.calls := by
  let sp : Ctl := { ready with streaming := vocabTwist }
  let sf : Ctl := { ready with streaming := vocabTwist, frame := .tcp }
  have hint : ∀ v : ℤ, 0 ≤ v → v < 2 ^ 31 → toInt (v : ℝ) = some v := by
    intro v h1 h2
    unfold toInt
    have : (0 : ℝ) ≤ (v : ℝ) := by exact_mod_cast h1
    rw [if_pos this, Int.floor_intCast]
    exact if_pos ⟨by omega, by omega⟩
  have h1 : can (robot oneJoint) (Op.prog oneJoint (.setParameter .streaming (vocabTwist : ℝ)))
      (fun o s' _ => o = .ok (some true) ∧ s' = sp) ready [] := by
    show can (robot oneJoint) (Prog.bind (setParameter .streaming vocabTwist) _) _ _ _
    unfold setParameter getCurrentState presetStreamingCommand setCurrentState
    can_simp
    refine Or.inr ⟨by simp [ready, Ctl.initial], Or.inr ⟨vocabTwist, hint _ (by decide) (by decide), ?_⟩⟩
    refine Or.inr ⟨by decide, Or.inl ⟨rfl, can_setModes' [.velocity] rfl (by simp) ?_⟩⟩
    can_simp
    exact Or.inl ⟨trivial, trivial, rfl⟩
  have h2 : can (robot oneJoint) (Op.prog oneJoint (.setParameter .frame ((RefFrame.tcp.vocab : ℤ) : ℝ)))
      (fun o s' _ => o = .ok (some true) ∧ s' = sf) sp [] := by
    show can (robot oneJoint) (Prog.bind (setParameter .frame _) _) _ _ _
    unfold setParameter getCurrentState
    can_simp
    refine Or.inr ⟨by simp [sp, ready, Ctl.initial], Or.inr ⟨fun h => h.2 rfl, trivial, ?_⟩⟩
    rw [if_pos (show ((RefFrame.tcp.vocab : ℤ) : ℝ) = (vocabTcpFrame : ℝ) from rfl)]
  have h3 : ∀ x, can (robot oneJoint) (Op.prog oneJoint (.twist x))
      (fun o s' tr => o = .ok none ∧ s' = sf ∧ Ev.velocityMove [3] true ∈ tr) sf [] := by
    intro x
    show can (robot oneJoint) (Prog.bind (twist oneJoint _) _) _ _ _
    unfold twist streamingReady getCurrentState checkControlModes twistBody
    can_simp
    refine Or.inr ⟨by simp [sf, ready, Ctl.initial], Or.inl ⟨by simp [sf], some [.velocity],
      some_length rfl, ?_⟩⟩
    can_simp
    refine Or.inl ⟨by simp, some [0], some_length rfl, ?_⟩
    can_simp
    refine ⟨some [3], ?_⟩
    can_simp
    refine Or.inr ⟨true, (checkJointLimitsDir_iff _ _ _).mpr ?_, Or.inl ⟨rfl, Or.inr ⟨true,
      (checkJointVelocities_iff _ _).mpr ?_, Or.inl ⟨rfl, Or.inr ⟨[3], by simp [buffer, oneJoint], true,
        Or.inl ⟨trivial, trivial, trivial, by simp⟩⟩⟩⟩⟩⟩
    · intro j hj
      obtain ⟨v, lo, hi, h1, h2, h3, h4⟩ := oneJoint_inLimits (v := 0) (by norm_num) (by norm_num) j hj
      exact ⟨v, lo, hi, h1, h2, h3, Or.inl h4⟩
    · exact oneJoint_inVelLimits (by norm_num)
  obtain ⟨t1, o, s1, r1, rfl, rfl⟩ := can_run h1
  obtain ⟨t2, o, s2, r2, rfl, rfl⟩ := can_run h2
  have h4 : ∃ ds, Hist oneJoint sf ds sf ∧ commandsOf ds = xs.map Op.twist ∧
      ∀ d ∈ ds, Ev.velocityMove [3] true ∈ d.calls := by
    induction xs with
    | nil => exact ⟨[], .nil _, rfl, by simp⟩
    | cons x xs ih =>
      obtain ⟨ds, a, b, c⟩ := ih
      obtain ⟨t3, o, s3, r3, rfl, rfl, hm⟩ := can_run (h3 x)
      refine ⟨_, .cons r3 a, ?_, ?_⟩
      · rw [commandsOf_cons rfl, b]; rfl
      · intro d hd
        rcases List.mem_cons.mp hd with rfl | hd
        · exact hm
        · exact c d hd
  obtain ⟨ds, a, b, c⟩ := h4
  exact ⟨_, _, _, _, .cons r1 (.cons r2 (.nil _)), rfl, by simp, a, b, c⟩

example : ∃ s1 s' prep ds, Hist oneJoint ready prep s1 ∧
    commandsOf prep = [.setParameter .streaming (vocabTwist : ℝ),
      .setParameter .frame ((RefFrame.tcp.vocab : ℤ) : ℝ)] ∧
    (∀ d ∈ prep, d.op.asks = false → d.answer = some true) ∧ Hist oneJoint s1 ds s' ∧
    (∀ op ∈ commandsOf ds, op.preset = some vocabTwist) ∧ ∃ d ∈ ds, Ev.velocityMove [3] true ∈ d.calls := by
  obtain ⟨s1, s', prep, ds, h1, h2, h3, h4, h5, h6⟩ := session_runs [[1, 0, 0, 0, 0, 0]]
  refine ⟨s1, s', prep, ds, h1, h2, h3, h4, by rw [h5]; simp [Op.preset], ?_⟩
  cases ds with
  | nil => simp [commandsOf] at h5
  | cons d ds => exact ⟨d, List.mem_cons_self, h6 d List.mem_cons_self⟩

end KD.Ctrl

namespace KD.Sdc

open Ctrl (Hist Done commandsOf CarriedOut)

/-! ## Streaming devices -/

/-- The kind of a message. -/
def Cmd.isPose : Cmd → Bool
  | .twist _ => false
  | .pose _ => true

theorem Device.acquire_kind {d d' : Device} {l : List ℝ} (h : d.acquire l = some d') :
    d'.usesPose = d.usesPose := by
  cases d with
  | spnav d =>
    obtain ⟨a, ha, rfl⟩ := Option.map_eq_some_iff.1 h
    unfold Spnav.acquire at ha
    split at ha <;> cases ha <;> rfl
  | leap d =>
    obtain ⟨a, ha, rfl⟩ := Option.map_eq_some_iff.1 h
    unfold Leap.acquire at ha
    split at ha
    all_goals cases ha
    all_goals rfl
  | wiimote d =>
    obtain ⟨a, ha, rfl⟩ := Option.map_eq_some_iff.1 h
    unfold Wiimote.acquire at ha
    split at ha
    all_goals cases ha
    all_goals rfl

theorem Device.actuator_kind (d : Device) : d.actuator.1.usesPose = d.usesPose := by
  cases d with
  | spnav d => rfl
  | leap d => unfold Device.actuator; simp only; split_ifs <;> rfl
  | wiimote d => rfl

theorem Device.transform_kind {d d' : Device} {s : ℝ} (h : d.transform s = some d') :
    d'.usesPose = d.usesPose := by
  cases d with
  | spnav d =>
    obtain ⟨a, ha, rfl⟩ := Option.map_eq_some_iff.1 h
    rw [Spnav.transform_eq ha]; rfl
  | leap d =>
    obtain ⟨a, ha, rfl⟩ := Option.map_eq_some_iff.1 h
    unfold Leap.transform at ha
    split_ifs at ha <;> (cases ha; rfl)
  | wiimote d =>
    obtain ⟨a, ha, rfl⟩ := Option.map_eq_some_iff.1 h
    unfold Wiimote.transform at ha
    simp only at ha
    split_ifs at ha <;> (cases ha; rfl)

theorem applyCentroid_kind (c : Option Centroid) (y : Cycle) (d : Device) :
    (applyCentroid c y d).2.usesPose = d.usesPose := by
  unfold applyCentroid
  split
  · simp only
    split_ifs
    · split <;> rfl
    · rfl
  · rfl

theorem Device.send_kind {d d' : Device} {t : ℝ} {m : List Cmd} (h : d.send t = some (d', m)) :
    d'.usesPose = d.usesPose ∧ ∀ x ∈ m, x.isPose = d.usesPose := by
  cases d with
  | spnav d =>
    simp only [Device.send, Option.some.injEq, Prod.mk.injEq] at h
    obtain ⟨rfl, rfl⟩ := h
    unfold Spnav.send
    cases hp : d.usingPose <;> simp [Device.usesPose, Cmd.isPose, hp]
  | leap d =>
    simp only [Device.send, Option.map_eq_some_iff, Prod.mk.injEq] at h
    obtain ⟨r, hr, rfl, rfl⟩ := h
    unfold Leap.send at hr
    cases hp : d.usingPose
    · simp only [hp, Bool.false_eq_true, if_false] at hr
      split_ifs at hr <;> (cases hr; simp [Device.usesPose, Cmd.isPose, hp])
    · simp only [hp, if_true] at hr
      cases hr; simp [Device.usesPose, Cmd.isPose, hp]
  | wiimote d =>
    simp only [Device.send, Option.some.injEq, Prod.mk.injEq] at h
    obtain ⟨rfl, rfl⟩ := h
    refine ⟨rfl, ?_⟩
    unfold Wiimote.send
    cases hp : d.usingPose <;> cases d.mode <;> simp [Device.usesPose, Cmd.isPose, hp]

theorem Device.stop_kind (d : Device) : ∀ x ∈ d.stop, x.isPose = d.usesPose := by
  cases d with
  | spnav d => unfold Device.stop Spnav.stop; cases hp : d.usingPose <;> simp [Device.usesPose, Cmd.isPose, hp]
  | leap d => simp [Device.stop]
  | wiimote d => unfold Device.stop Wiimote.stop; cases hp : d.usingPose <;> simp [Device.usesPose, Cmd.isPose, hp]

theorem update_kind {c c' : Ctl} {y : Cycle} {e : List Ev} (h : update c y = some (c', e)) :
    c'.device.usesPose = c.device.usesPose ∧ ∀ x ∈ e.flatMap Ev.cmds, x.isPose = c.device.usesPose := by
  rcases update_cases h with ⟨-, rfl, rfl⟩ | ⟨d, hd, ⟨-, rfl, rfl⟩ | ⟨-, s, -, hp⟩⟩
  · simp
  · refine ⟨Device.acquire_kind hd, fun x hx => ?_⟩
    split_ifs at hx
    · simp only [List.flatMap_cons, List.flatMap_nil, List.append_nil, Ev.cmds] at hx
      rw [← Device.acquire_kind hd]; exact Device.stop_kind d x hx
    · simp at hx
  · obtain ⟨d', e', ht, hf, rfl⟩ := proceed_cases hp
    have hk : (applyCentroid c.centroid y d').2.usesPose = c.device.usesPose := by
      rw [applyCentroid_kind, Device.transform_kind ht, Device.actuator_kind, Device.acquire_kind hd]
    have hact : ∀ g, (actEvents g).flatMap Ev.cmds = [] := by
      intro g; unfold actEvents; split_ifs <;> simp [Ev.cmds]
    rw [List.flatMap_append, hact, List.nil_append]
    rcases finish_cases hf with ⟨-, d'', m, hs, rfl, rfl⟩ | ⟨-, rfl, rfl⟩
    · obtain ⟨k1, k2⟩ := Device.send_kind hs
      refine ⟨k1.trans hk, fun x hx => ?_⟩
      simp only [List.flatMap_cons, List.flatMap_nil, List.append_nil, Ev.cmds] at hx
      rw [k2 x hx]; exact hk
    · refine ⟨hk, fun x hx => ?_⟩
      split_ifs at hx
      · simp only [List.flatMap_cons, List.flatMap_nil, List.append_nil, Ev.cmds] at hx
        rw [Device.stop_kind _ x hx]; exact hk
      · simp at hx

theorem run_kind {l : List Cycle} : ∀ {c c' : Ctl} {es : List (List Ev)}, run c l = some (c', es) →
    ∀ x ∈ sent es, x.isPose = c.device.usesPose := by
  induction l with
  | nil => intro c c' es h; cases h; simp [sent]
  | cons y l ih =>
    intro c c' es h x hx
    obtain ⟨c1, e, es', h1, h2, rfl⟩ := run_cons h
    obtain ⟨k1, k2⟩ := update_kind h1
    simp only [sent, List.flatten_cons, List.flatMap_append, List.mem_append] at hx
    rcases hx with hx | hx
    · exact k2 x hx
    · rw [← k1]; exact ih h2 x hx

/-- **C83.** The streaming device controller: if it started, every message it sends, whatever the device
reads, reaches the joints; the arm follows the hand, and it stands still when the program says stop. What is
missing: other programs that use the same controller, see below. -/
theorem C83_device_obeyed_partial {cfg : Ctrl.Cfg} {s0 s1 s' : Ctrl.Ctl} {prep ds : List Done} {c c' : Ctl}
    {l : List Cycle} {es : List (List Ev)} (h0 : s0.state = .notControlling) (h1 : Hist cfg s0 prep s1)
    (hprep : commandsOf prep = c.device.start) (hok : ∀ d ∈ prep, d.op.asks = false → d.answer = some true)
    (h : run c l = some (c', es)) (h2 : Hist cfg s1 ds s') (hds : commandsOf ds = (sent es).map Cmd.op) :
    ∀ d ∈ ds, d.op.asks = false → CarriedOut cfg c.device.frame d := by
  refine Ctrl.C83_preset_commands_carried_out_partial h0 h1 hprep hok h2 fun op hop => ?_
  rw [hds] at hop
  obtain ⟨x, hx, rfl⟩ := List.mem_map.mp hop
  have := run_kind h x hx
  rw [← this]
  cases x <;> rfl

/-- A Wiimote. -/
def wiiHand : Ctl where
  device := .wiimote ⟨false, 1, configureFixedAxes none, .none, fun _ => 0, fun _ => 0⟩
  scaling := 1

theorem wiiHand_run : ∃ c', run wiiHand [{ sensor := [0, 0, 1, 0, 0] }] =
    some (c', [[.move [.twist ![0, 0, 1, 0, 0, 0]]]]) := by
  have h : ∃ c', update wiiHand { sensor := [0, 0, 1, 0, 0] } = some (c', [.move [.twist ![0, 0, 1, 0, 0, 0]]]) := by
    unfold wiiHand
    rw [update_clear (d := .wiimote ⟨false, 1, configureFixedAxes none, .none, fun _ => 0, ![0, 0, 1, 0, 0]⟩) rfl rfl]
    simp [proceed, Device.actuator, Device.transform, Wiimote.transform, applyCentroid, finish,
      Device.valid, Device.send, Wiimote.send, actEvents]
  obtain ⟨c', h⟩ := h
  refine ⟨c', ?_⟩
  simp only [run]
  rw [h]
  rfl

/-- It moves the joint of `oneJoint`. -/
example : ∃ (s1 s' : Ctrl.Ctl) (prep ds : List Done) (c' : Ctl) (l : List Cycle) (es : List (List Ev)),
    Hist Ctrl.oneJoint Ctrl.ready prep s1 ∧ commandsOf prep = wiiHand.device.start ∧
    (∀ d ∈ prep, d.op.asks = false → d.answer = some true) ∧ run wiiHand l = some (c', es) ∧
    Hist Ctrl.oneJoint s1 ds s' ∧ commandsOf ds = (sent es).map Cmd.op ∧ (sent es).length = 1 ∧
    ∀ d ∈ ds, Ctrl.Ev.velocityMove [3] true ∈ d.calls := by
  obtain ⟨s1, s', prep, ds, h1, h2, h3, h4, h5, h6⟩ := Ctrl.session_runs [Six.toList ![0, 0, 1, 0, 0, 0]]
  obtain ⟨c', hr⟩ := wiiHand_run
  exact ⟨s1, s', prep, ds, c', _, _, h1, h2, h3, hr, h4, h5, rfl, h6⟩

end KD.Sdc

namespace KD.Ft

open Ctrl (Hist Done commandsOf CarriedOut)

/-! ## Force compensation -/

theorem run_commands {c : Cfg} {l : List Input} : ∀ {s s' : St} {es : List (List Cmd)}, run c s l = some (s', es) →
    ∀ x ∈ es.flatten, x.op.preset = some (if c.wrenchMode then Ctrl.vocabWrench else Ctrl.vocabTwist) := by
  have hcmd : ∀ w, ∀ x ∈ command c w, x.op.preset = some (if c.wrenchMode then Ctrl.vocabWrench else Ctrl.vocabTwist) := by
    intro w x hx
    unfold command at hx
    split_ifs at hx with h1 h2
    · simp at hx
    · simp only [List.mem_singleton] at hx; subst hx; simp [h2, Cmd.op, Ctrl.Op.preset]
    · simp only [List.mem_singleton] at hx; subst hx; simp [h2, Cmd.op, Ctrl.Op.preset]
  have hcyc : ∀ {s s' : St} {i : Input} {e : List Cmd}, cycle c s i = some (s', e) →
      ∀ x ∈ e, x.op.preset = some (if c.wrenchMode then Ctrl.vocabWrench else Ctrl.vocabTwist) := by
    intro s s' i e h
    unfold cycle at h
    split at h
    · cases h
    · cases h; simp
    · split at h
      · cases h; simp
      · simp only at h
        split at h
        · split at h
          · cases h; simp
          · cases h; exact hcmd _
        · cases h
  induction l with
  | nil => intro s s' es h; cases h; simp
  | cons i l ih =>
    intro s s' es h
    unfold run at h
    split_ifs at h with hr
    · simp only [Option.bind_eq_bind, Option.bind_eq_some_iff, Option.pure_def, Option.some.injEq,
        Prod.mk.injEq, Prod.exists] at h
      obtain ⟨s1, e, h1, s2, es', h2, rfl, rfl⟩ := h
      intro x hx
      rw [List.flatten_cons, List.mem_append] at hx
      rcases hx with hx | hx
      · exact hcyc h1 x hx
      · exact ih h2 x hx
    · cases h; simp

/-- **C83.** Force compensation: if it started, every command reaches the joints. -/
theorem C83_compensation_obeyed_partial {cfg : Ctrl.Cfg} {s0 s1 s' : Ctrl.Ctl} {prep ds : List Done} {c : Cfg}
    {st st' : St} {l : List Input} {es : List (List Cmd)} (h0 : s0.state = .notControlling) (h1 : Hist cfg s0 prep s1)
    (hprep : commandsOf prep = start c) (hok : ∀ d ∈ prep, d.op.asks = false → d.answer = some true)
    (h : run c st l = some (st', es)) (h2 : Hist cfg s1 ds s') (hds : commandsOf ds = es.flatten.map Cmd.op) :
    ∀ d ∈ ds, d.op.asks = false → CarriedOut cfg .tcp d := by
  refine Ctrl.C83_preset_commands_carried_out_partial h0 h1 hprep hok h2 fun op hop => ?_
  rw [hds] at hop
  obtain ⟨x, hx, rfl⟩ := List.mem_map.mp hop
  exact run_commands h x hx

/-- The tool of `demo` is pushed, and the joint of `oneJoint` moves. -/
example : ∃ (s1 s' : Ctrl.Ctl) (prep ds : List Done) (st st' : St) (l : List Input) (es : List (List Cmd)),
    Hist Ctrl.oneJoint Ctrl.ready prep s1 ∧ commandsOf prep = start demo ∧
    (∀ d ∈ prep, d.op.asks = false → d.answer = some true) ∧ run demo st l = some (st', es) ∧
    Hist Ctrl.oneJoint s1 ds s' ∧ commandsOf ds = es.flatten.map Cmd.op ∧ es.flatten.length = 1 ∧
    ∀ d ∈ ds, Ctrl.Ev.velocityMove [3] true ∈ d.calls := by
  obtain ⟨s1, s', prep, ds, h1, h2, h3, h4, h5, h6⟩ := Ctrl.session_runs [[0, 4 / 100, 0, 0, 0, 0]]
  obtain ⟨st, es, -, hr, rfl⟩ := demo_pushed
  exact ⟨s1, s', prep, ds, st, st, _, _, h1, h2, h3, hr, h4, h5, rfl, h6⟩

end KD.Ft

namespace KD.Ctrl

open scoped Classical
open Prog (wp wp_bind wp_of_run wp_sound can can_bind can_run Run Writes run_keeps)

/-! ## Without a preset -/

/-- Questions, streamed commands, stops, and parameters other than the preset. -/
def Op.tame : Op → Bool
  | .stopControl => true
  | .setParameter k _ => k != .streaming
  | op => op.asks || op.preset.isSome

theorem tame_idle {cfg : Cfg} {op : Op} {s s' : Ctl} {tr : List Ev} {b : Option Bool} (ht : op.tame = true)
    (hs : s.state = .notControlling) (hp : s.streaming = vocabNotSet)
    (h : Exec cfg (op.prog cfg) s tr (.ok b) s') :
    s'.state = .notControlling ∧ s'.streaming = vocabNotSet ∧ NoMotion tr := by
  cases op <;> simp only [Op.tame, Op.asks, Op.preset, Option.isSome_none, Option.isSome_some, Bool.or_false,
    Bool.or_true, Bool.false_eq_true] at ht
  case stat =>
    have e := asks_keeps (op := .stat) rfl hs h
    subst e
    refine ⟨hs, hp, ?_⟩
    rcases Prog.run_bind.mp h with ⟨a, s1, t1, t2, h1, h2, rfl⟩ | ⟨-, h⟩
    · cases h2
      rw [List.append_nil]
      refine wp_sound (Q := fun _ _ tr => NoMotion tr) ?_ h1
      unfold stat getCurrentState
      dev_simp
      simp [NoMotion, IsMotion]
    · cases h
  case inv x =>
    have e := asks_keeps (op := .inv x) rfl hs h
    subst e
    refine ⟨hs, hp, ?_⟩
    rcases Prog.run_bind.mp h with ⟨a, s1, t1, t2, h1, h2, rfl⟩ | ⟨-, h⟩
    · cases h2
      rw [List.append_nil]
      refine wp_sound (Q := fun _ _ tr => NoMotion tr) ?_ h1
      unfold inv
      dev_simp
      refine ⟨by simp [NoMotion, IsMotion], fun l _ => ?_⟩
      rw [← Prog.bind_pure (Dev.invKin _ _ _), ← Prog.bind_eq]
      dev_simp
      simp [NoMotion, IsMotion]
    · cases h
  case getParameter k =>
    have e := asks_keeps (op := .getParameter k) rfl hs h
    subst e
    refine ⟨hs, hp, ?_⟩
    rcases Prog.run_bind.mp h with ⟨a, s1, t1, t2, h1, h2, rfl⟩ | ⟨-, h⟩
    · cases h2
      rw [List.append_nil]
      refine wp_sound (Q := fun _ _ tr => NoMotion tr) ?_ h1
      unfold getParameter
      dev_simp
      simp [NoMotion]
    · cases h
  case cycle =>
    obtain ⟨-, rfl, rfl⟩ := run_idle hs (exec_unit h)
    exact ⟨hs, hp, by simp [NoMotion]⟩
  case pose x =>
    have e := streamed_keeps (op := .pose x) rfl h
    subst e
    refine ⟨hs, hp, wp_sound (Q := fun _ _ tr => NoMotion tr) ?_ (exec_unit h)⟩
    unfold pose streamingReady getCurrentState
    dev_simp
    exact ⟨fun h => absurd hs h, fun _ => ⟨fun h => absurd h (by rw [hp]; decide), fun _ => by simp [NoMotion]⟩⟩
  case twist x =>
    have e := streamed_keeps (op := .twist x) rfl h
    subst e
    refine ⟨hs, hp, wp_sound (Q := fun _ _ tr => NoMotion tr) ?_ (exec_unit h)⟩
    unfold twist streamingReady getCurrentState
    dev_simp
    exact ⟨fun h => absurd hs h, fun _ => ⟨fun h => absurd h (by rw [hp]; decide), by simp [NoMotion]⟩⟩
  case wrench x =>
    have e := streamed_keeps (op := .wrench x) rfl h
    subst e
    refine ⟨hs, hp, wp_sound (Q := fun _ _ tr => NoMotion tr) ?_ (exec_unit h)⟩
    unfold wrench streamingReady getCurrentState
    dev_simp
    exact ⟨fun h => absurd hs h, fun _ => ⟨fun h => absurd h (by rw [hp]; decide), by simp [NoMotion]⟩⟩
  case stopControl =>
    refine wp_sound (Q := fun _ s' tr => s'.state = .notControlling ∧ s'.streaming = vocabNotSet ∧ NoMotion tr) ?_ h
    show wp (robot cfg) (Prog.bind stopControl _) _ _ _
    refine wp_stop' fun es r hes => ?_
    dev_simp
    exact ⟨rfl, rfl, by simpa using stop_noMotion hes r⟩
  case setParameter k v =>
    have h1 : ∃ a, Exec cfg (setParameter k v) s tr (.ok a) s' := by
      rcases Prog.run_bind.mp h with ⟨a, s1, t1, t2, h1, h2, rfl⟩ | ⟨-, h⟩
      · cases h2; exact ⟨a, by simpa using h1⟩
      · cases h
    obtain ⟨a, h1⟩ := h1
    have he := wp_sound (setParameter_end cfg k v s) h1 a rfl
    have hk : k ≠ .streaming := by simpa using ht
    refine ⟨he.idle.trans hs, ?_, ?_⟩
    · have := he.others .streaming (Ne.symm hk)
      simp only [param, Option.some.injEq, Int.cast_inj] at this
      exact this.trans hp
    · refine wp_sound (Q := fun _ _ tr => NoMotion tr) ?_ h1
      unfold setParameter getCurrentState
      cases k <;> dev_simp <;> simp_all [NoMotion, IsMotion]

/-- Without a preset nothing moves. -/
theorem tame_hist {cfg : Cfg} {s s' : Ctl} {ds : List Done} (h : Hist cfg s ds s') (hs : s.state = .notControlling)
    (hp : s.streaming = vocabNotSet) (ht : ∀ d ∈ ds, d.op.tame = true) : ∀ d ∈ ds, NoMotion d.calls := by
  induction h with
  | nil s => simp
  | cons h1 h2 ih =>
    obtain ⟨a, b, c⟩ := tame_idle (ht _ List.mem_cons_self) hs hp h1
    intro d hd
    rcases List.mem_cons.mp hd with rfl | hd
    · exact c
    · exact ih a b (fun d hd => ht d (List.mem_cons_of_mem _ hd)) d hd

/-- What is missing in C83: once anyone stops the controller, no streamed command moves the robot any more,
until someone sets the preset again. The programs set it only when they start, and streamed commands have no
answer that would tell them. -/
theorem C83_stream_dead_after_stop {cfg : Cfg} {s s1 s' : Ctl} {tr : List Ev} {b : Option Bool} {ds : List Done}
    (h1 : Exec cfg (Op.prog cfg .stopControl) s tr (.ok b) s1) (h2 : Hist cfg s1 ds s')
    (ht : ∀ d ∈ ds, d.op.tame = true) : ∀ d ∈ ds, NoMotion d.calls := by
  have h : s1.state = .notControlling ∧ s1.streaming = vocabNotSet := by
    refine wp_sound (Q := fun _ s' _ => s'.state = .notControlling ∧ s'.streaming = vocabNotSet) ?_ h1
    show wp (robot cfg) (Prog.bind stopControl _) _ _ _
    refine wp_stop' fun es r hes => ?_
    dev_simp
    exact ⟨rfl, rfl⟩
  exact tame_hist h2 h.1 h.2 ht

/-- Someone stops the controller between two messages of a program. -/
example : ∃ s1 s' tr b ds, Exec oneJoint (Op.prog oneJoint .stopControl) (streamingOf vocabTwist) tr (.ok b) s1 ∧
    Hist oneJoint s1 ds s' ∧ ds.map Done.op = [.twist [1, 0, 0, 0, 0, 0]] ∧ ∀ d ∈ ds, d.op.tame = true := by
  have h1 : can (robot oneJoint) (Op.prog oneJoint .stopControl) (fun o s' _ => o = .ok (some true) ∧
      s' = (streamingOf vocabTwist).stopped) (streamingOf vocabTwist) [] := by
    show can (robot oneJoint) (Prog.bind stopControl _) _ _ _
    refine can_stop' ?_
    can_simp
    exact ⟨trivial, trivial⟩
  have h2 : can (robot oneJoint) (Op.prog oneJoint (.twist [1, 0, 0, 0, 0, 0])) (fun o _ _ => o = .ok none)
      (streamingOf vocabTwist).stopped [] := by
    show can (robot oneJoint) (Prog.bind (twist oneJoint _) _) _ _ _
    unfold twist streamingReady getCurrentState
    can_simp
    exact Or.inr ⟨by simp [Ctl.stopped], Or.inr ⟨by simp [Ctl.stopped]; decide, Or.inr ⟨by simp, trivial⟩⟩⟩
  obtain ⟨t1, o, s1, r1, rfl, rfl⟩ := can_run h1
  obtain ⟨t2, o, s2, r2, rfl⟩ := can_run h2
  exact ⟨_, _, _, _, _, r1, .cons r2 (.nil _), rfl, by simp [Op.tame, Op.preset]⟩

/-- What is missing in C83, and in C61: a command to stand still can be dropped. If a joint leaves the mode
of the command, as it does when it meets an obstacle or someone moves it by itself, then the twist, be it
zero, makes no call but the question for the modes: the other joint keeps the speed of the last command. -/
theorem C83_stop_dropped : ∃ ds s', Hist (twoJoints 2 1) (streamingOf vocabTwist) ds s' ∧
    ds.map Done.op = [.twist [1, 0, 0, 0, 0, 0], .twist [0, 0, 0, 0, 0, 0]] ∧
    (∃ d ∈ ds, Ev.velocityMove [3, 2] true ∈ d.calls) ∧
    ∃ d, ds.getLast? = some d ∧ d.calls = [.getControlModes (some [.velocity, .position])] := by
  have h1 : can (robot (twoJoints 2 1)) (Op.prog (twoJoints 2 1) (.twist [1, 0, 0, 0, 0, 0]))
      (fun o s' tr => o = .ok none ∧ s' = streamingOf vocabTwist ∧ Ev.velocityMove [3, 2] true ∈ tr)
      (streamingOf vocabTwist) [] := by
    show can (robot (twoJoints 2 1)) (Prog.bind (twist (twoJoints 2 1) _) _) _ _ _
    unfold twist streamingReady getCurrentState checkControlModes twistBody
    can_simp
    refine Or.inr ⟨by simp [streamingOf, ready, Ctl.initial], Or.inl ⟨by simp [streamingOf],
      some [.velocity, .velocity], some_length rfl, ?_⟩⟩
    can_simp
    refine Or.inl ⟨by simp, some [0, 0], some_length rfl, ?_⟩
    can_simp
    refine ⟨some [3, 2], ?_⟩
    can_simp
    refine Or.inr ⟨true, (checkJointLimitsDir_iff _ _ _).mpr ?_, Or.inl ⟨rfl, Or.inr ⟨true,
      (checkJointVelocities_iff _ _).mpr ?_, Or.inl ⟨rfl, Or.inr ⟨[3, 2], by simp [buffer, twoJoints], true,
        Or.inl ⟨trivial, trivial, trivial, by simp⟩⟩⟩⟩⟩⟩
    · intro j hj
      have : j = 0 ∨ j = 1 := by simp [twoJoints] at hj; omega
      rcases this with rfl | rfl
      · exact ⟨0, -10, 10, rfl, rfl, rfl, Or.inl (by norm_num [tol])⟩
      · exact ⟨0, -10, 10, rfl, rfl, rfl, Or.inl (by norm_num [tol])⟩
    · intro j hj
      have : j = 0 ∨ j = 1 := by simp [twoJoints] at hj; omega
      rcases this with rfl | rfl
      · exact ⟨_, _, _, rfl, rfl, rfl, by norm_num⟩
      · exact ⟨_, _, _, rfl, rfl, rfl, by norm_num⟩
  have h2 : can (robot (twoJoints 2 1)) (Op.prog (twoJoints 2 1) (.twist [0, 0, 0, 0, 0, 0]))
      (fun o s' tr => o = .ok none ∧ s' = streamingOf vocabTwist ∧ tr = [.getControlModes (some [.velocity, .position])])
      (streamingOf vocabTwist) [] := by
    show can (robot (twoJoints 2 1)) (Prog.bind (twist (twoJoints 2 1) _) _) _ _ _
    unfold twist streamingReady getCurrentState checkControlModes
    can_simp
    refine Or.inr ⟨by simp [streamingOf, ready, Ctl.initial], Or.inl ⟨by simp [streamingOf],
      some [.velocity, .position], some_length rfl, ?_⟩⟩
    can_simp
    exact Or.inr ⟨by simp, trivial, trivial, rfl⟩
  obtain ⟨t1, o, s1, r1, rfl, rfl, m1⟩ := can_run h1
  obtain ⟨t2, o, s2, r2, rfl, rfl, rfl⟩ := can_run h2
  exact ⟨_, _, .cons r1 (.cons r2 (.nil _)), rfl, ⟨_, List.mem_cons_self, m1⟩, _, rfl, rfl⟩

end KD.Ctrl

namespace KD.Haar

open Ctrl (Hist Done commandsOf NoMotion)

/-! ## The Haar detection controller -/

/-- What is missing in C83: the Haar detection controller does not start with the controller of this
repository, which has no gripper: `act` always answers false. -/
theorem C83_haar_does_not_start (e : Start) (hact : e.act = false) : configure e = false := by
  unfold configure
  simp [hact]

/-- What is missing in C83: and if it did start, the robot would never move. The program never sets the
preset, so that whatever the camera sees, and whatever the sensors tell, the controller does not carry out
a single one of its velocities. -/
theorem C83_haar_never_moves {cfg : Ctrl.Cfg} {s s' : Ctrl.Ctl} {ds : List Done} {m : Module} {hs : List Happens}
    (h0 : s.state = .notControlling) (hp : s.streaming = Ctrl.vocabNotSet) (h : Hist cfg s ds s')
    (hds : commandsOf ds = start ++ (m.asks hs).flatMap Asked.ops) : ∀ d ∈ ds, NoMotion d.calls := by
  refine Ctrl.tame_hist h h0 hp fun d hd => ?_
  cases ha : d.op.asks with
  | true => cases hop : d.op <;> rw [hop] at ha <;> simp_all [Ctrl.Op.asks, Ctrl.Op.tame]
  | false =>
    have := Ctrl.mem_commandsOf hd ha
    rw [hds, List.mem_append, List.mem_flatMap] at this
    rcases this with h | ⟨a, -, h⟩
    · simp only [start, List.mem_singleton] at h
      rw [h]; rfl
    · cases a with
      | closeGripper => simp [Asked.ops] at h
      | call c =>
        simp only [Asked.ops, List.mem_singleton] at h
        rw [h]
        cases c <;> rfl

/-- The camera sees a face, and the program asks for a velocity. -/
example : ∃ (s' : Ctrl.Ctl) (ds : List Done) (m : Module) (hs : List Happens),
    Ctrl.ready.state = .notControlling ∧ Ctrl.ready.streaming = Ctrl.vocabNotSet ∧
    Hist Ctrl.oneJoint Ctrl.ready ds s' ∧ commandsOf ds = start ++ (m.asks hs).flatMap Asked.ops ∧
    ∃ d ∈ ds, d.op = .twist (Sdc.Six.toList ![100 * (1 / 10000), -(50 * (1 / 10000)), 1 / 100, 0, 0, 0]) := by
  let sf : Ctrl.Ctl := { Ctrl.ready with frame := .tcp }
  have h2 : Prog.can (Ctrl.robot Ctrl.oneJoint)
      (Ctrl.Op.prog Ctrl.oneJoint (.setParameter .frame ((Ctrl.RefFrame.tcp.vocab : ℤ) : ℝ)))
      (fun o s' _ => o = .ok (some true) ∧ s' = sf) Ctrl.ready [] := by
    show Prog.can (Ctrl.robot Ctrl.oneJoint) (Prog.bind (Ctrl.setParameter .frame _) _) _ _ _
    unfold Ctrl.setParameter Ctrl.getCurrentState
    can_simp
    refine Or.inr ⟨by simp [Ctrl.ready, Ctrl.Ctl.initial], Or.inr ⟨fun h => h.2 rfl, trivial, ?_⟩⟩
    rw [if_pos (show ((Ctrl.RefFrame.tcp.vocab : ℤ) : ℝ) = (Ctrl.vocabTcpFrame : ℝ) from rfl)]
  have h3 : ∀ x, Prog.can (Ctrl.robot Ctrl.oneJoint) (Ctrl.Op.prog Ctrl.oneJoint (.twist x))
      (fun o _ _ => o = .ok none) sf [] := by
    intro x
    show Prog.can (Ctrl.robot Ctrl.oneJoint) (Prog.bind (Ctrl.twist Ctrl.oneJoint _) _) _ _ _
    unfold Ctrl.twist Ctrl.streamingReady Ctrl.getCurrentState
    can_simp
    exact Or.inr ⟨by simp [sf, Ctrl.ready, Ctrl.Ctl.initial], Or.inr ⟨by simp [sf, Ctrl.ready, Ctrl.Ctl.initial]; decide,
      Or.inr ⟨by simp, trivial⟩⟩⟩
  obtain ⟨t2, o, s2, r2, rfl, rfl⟩ := Prog.can_run h2
  obtain ⟨t3, o, s3, r3, rfl⟩ := Prog.can_run (h3 (Sdc.Six.toList ![100 * (1 / 10000), -(50 * (1 / 10000)), 1 / 100, 0, 0, 0]))
  refine ⟨_, _, {}, [.message [100, 50]], rfl, rfl, .cons r2 (.cons r3 (.nil _)), ?_, _,
    List.mem_cons_of_mem _ List.mem_cons_self, rfl⟩
  have : (onRead {} [100, 50]).2 = [.twist ![100 * (1 / 10000), -(50 * (1 / 10000)), 1 / 100, 0, 0, 0]] := by
    simp [onRead]
  simp only [Module.asks, Module.step, if_pos, this]
  rfl

/-- Neither listens nor runs any more. -/
theorem Module.over {m : Module} (h1 : m.listening = false) (h2 : m.running = false) (hs : List Happens) :
    ∀ x, Asked.call (.twist x) ∉ m.asks hs ∧ Asked.closeGripper ∉ m.asks hs := by
  induction hs generalizing m with
  | nil => intro x; simp [Module.asks]
  | cons h hs ih =>
    intro x
    unfold Module.asks
    cases h with
    | message b =>
      have : m.step (.message b) = (m, []) := by simp [Module.step, h1]
      rw [this]
      simpa using ih h1 h2 x
    | update target turns =>
      have : m.step (.update target turns) = (m, []) := by simp [Module.step, h2]
      rw [this]
      simpa using ih h1 h2 x
    | interrupt =>
      have : m.step .interrupt = ({ m with listening := false, running := false }, [.call .stopControl]) := rfl
      rw [this]
      have := ih (m := { m with listening := false, running := false }) rfl rfl x
      simpa using this

theorem Module.asks_append (m : Module) (pre post : List Happens) : ∃ m' : Module, m.asks (pre ++ post) = m.asks pre ++ m'.asks post := by
  induction pre generalizing m with
  | nil => exact ⟨m, rfl⟩
  | cons h pre ih =>
    obtain ⟨m', e⟩ := ih (m.step h).1
    exact ⟨m', by simp only [List.cons_append, Module.asks, e, List.append_assoc]⟩

/-- C83: when the face follower is interrupted it stops the robot, and nothing that happens afterwards makes it send a
velocity again. -/
theorem C83_haar_interrupt_stops (m : Module) (pre post : List Happens) : ∃ after,
    m.asks (pre ++ .interrupt :: post) = m.asks pre ++ .call .stopControl :: after ∧
      ∀ x, Asked.call (.twist x) ∉ after ∧ Asked.closeGripper ∉ after := by
  obtain ⟨m', e⟩ := m.asks_append pre (.interrupt :: post)
  exact ⟨_, e, Module.over (m := { m' with listening := false, running := false }) rfl rfl post⟩

theorem Module.open_ended {m : Module} {pre : List Happens} (hr : m.running = true) (hs : m.sensors = true)
    (h1 : Happens.interrupt ∉ pre) (h2 : ∀ n, Happens.update true n ∉ pre) (post : List Happens) :
    ∃ m' : Module, m'.running = true ∧ m'.sensors = true ∧ m.asks (pre ++ post) = m.asks pre ++ m'.asks post := by
  induction pre generalizing m with
  | nil => exact ⟨m, hr, hs, rfl⟩
  | cons h pre ih =>
    have hstep : (m.step h).1.running = true ∧ (m.step h).1.sensors = true := by
      cases h with
      | message b =>
        by_cases hl : m.listening
        · simp [Module.step, hl, hr, hs]
        · simp [Module.step, hl, hr, hs]
      | update target turns =>
        cases target with
        | false => simp [Module.step, hr, hs]
        | true => exact absurd List.mem_cons_self (h2 turns)
      | interrupt => exact absurd List.mem_cons_self h1
    obtain ⟨m', g1, g2, g3⟩ := ih hstep.1 hstep.2 (fun h => h1 (List.mem_cons_of_mem _ h))
      (fun n h => h2 n (List.mem_cons_of_mem _ h))
    exact ⟨m', g1, g2, by simp only [List.cons_append, Module.asks, g3, List.append_assoc]⟩

/-- C83: the same when the sensors find the target: the robot is stopped before the gripper closes, and no velocity
follows. -/
theorem C83_haar_target_stops {m : Module} (hr : m.running = true) (hs : m.sensors = true) {pre : List Happens}
    (h1 : Happens.interrupt ∉ pre) (h2 : ∀ n, Happens.update true n ∉ pre) (turns : ℕ) (post : List Happens) : ∃ after,
    m.asks (pre ++ .update true turns :: post) =
      m.asks pre ++ .call .stopControl :: (List.replicate turns .closeGripper ++ after) ∧
      ∀ x, Asked.call (.twist x) ∉ after ∧ Asked.closeGripper ∉ after := by
  obtain ⟨m', g1, g2, g3⟩ := Module.open_ended hr hs h1 h2 (.update true turns :: post)
  have hstep : m'.step (.update true turns) = ({ m' with listening := false, sensors := false, running := false },
      .call .stopControl :: List.replicate turns .closeGripper) := by simp [Module.step, g1, g2]
  refine ⟨_, ?_, Module.over (m := { m' with listening := false, sensors := false, running := false }) rfl rfl post⟩
  rw [g3]
  simp only [Module.asks, hstep, List.cons_append]

/-- A face is seen, then the target is found, and a last message comes too late. -/
example : ∃ m : Module, m.running = true ∧ m.sensors = true ∧
    m.asks ([.message [100, -50]] ++ .update true 2 :: [.message [100, -50]]) =
      m.asks [.message [100, -50]] ++ .call .stopControl :: [.closeGripper, .closeGripper] ∧
    m.asks [.message [100, -50]] ≠ [] := by
  refine ⟨{}, rfl, rfl, ?_, ?_⟩
  · simp [Module.asks, Module.step]
  · simp [Module.asks, Module.step, onRead]

end KD.Haar
