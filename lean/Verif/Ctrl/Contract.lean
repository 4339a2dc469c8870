import Verif.Ctrl.History

/-!
# Sizes of vectors between the controller and its devices

Which vectors the controller hands over and gets back, and programs that stay within their vectors as long as the
devices answer as they should.
-/

namespace KD.Ctrl

open Prog (Run)

/-- Answers of the solver have the sizes that its interface promises. -/
def SizedAnswer (cfg : Cfg) : Ev → Prop
  | .fwdKin _ (some x) => x.length = 6 * cfg.numTcps
  | .invKin _ _ _ (some q) => q.length = cfg.numJoints
  | .diffInvKin _ _ _ (some v) => v.length = cfg.numJoints
  | .changeOrigin _ _ (some x) => x.length = 6 * cfg.numTcps
  | .invDynStatic _ (some t) => t.length = cfg.numJoints
  | .invDyn _ _ _ _ _ (some t) => t.length = cfg.numJoints
  | .poseDiff _ _ (_, x) => x.length = 6 * cfg.numTcps
  | _ => True

/-- The vectors handed over with a call have the sizes that its interface asks for: six elements for each end effector,
one for each joint. -/
def SizedCall (cfg : Cfg) : Ev → Prop
  | .fwdKin q _ => q.length = cfg.numJoints
  | .invKin x q _ _ => x.length = 6 * cfg.numTcps ∧ q.length = cfg.numJoints
  | .diffInvKin q x _ _ => q.length = cfg.numJoints ∧ x.length = 6 * cfg.numTcps
  | .poseDiff a b _ => a.length = 6 * cfg.numTcps ∧ b.length = 6 * cfg.numTcps
  | .changeOrigin a b _ => a.length = 6 * cfg.numTcps ∧ b.length = 6 * cfg.numTcps
  | .invDynStatic q _ => q.length = cfg.numJoints
  | .invDyn q v a f _ _ => q.length = cfg.numJoints ∧ v.length = cfg.numJoints ∧ a.length = cfg.numJoints ∧
      f.length = 6 * cfg.numTcps
  | .appendLink x _ => x.length = 6
  | .setRefSpeeds v _ => v.length = cfg.numJoints
  | .positionMove q _ => q.length = cfg.numJoints
  | .setPositions q _ => q.length = cfg.numJoints
  | .velocityMove v _ => v.length = cfg.numJoints
  | .setRefTorques t _ => t.length = cfg.numJoints
  | _ => True

/-- A program that hands over vectors of the right sizes and never leaves its own ones, if answers have the right
sizes; it ends as `Q` says. -/
def Good (cfg : Cfg) {α : Type} : P α → (α → Ctl → Prop) → Ctl → Prop
  | .pure a, Q, s => Q a s
  | .ub, _, _ => False
  | .get k, Q, s => Good cfg (k s) Q s
  | .set f k, Q, s => Good cfg k Q (f s)
  | .call c k, Q, s => ∀ r, DeviceOk cfg c r → SizedCall cfg (record c r) ∧
      (SizedAnswer cfg (record c r) → Good cfg (k r) Q s)

theorem Good.sound {cfg : Cfg} {α : Type} {p : P α} {Q : α → Ctl → Prop} {s s' : Ctl} {tr : List Ev} {o : Out α}
    (hr : Run (robot cfg) p s tr o s') : Good cfg p Q s →
      (∀ e ∈ tr, SizedCall cfg e → SizedAnswer cfg e) →
      (∃ a, o = .ok a ∧ Q a s') ∧ ∀ e ∈ tr, SizedCall cfg e ∧ SizedAnswer cfg e := by
  induction hr with
  | pure a s => exact fun h _ => ⟨⟨a, rfl, h⟩, by simp⟩
  | ub s => exact fun h _ => h.elim
  | get _ ih => exact fun h hh => ih h hh
  | set _ ih => exact fun h hh => ih h hh
  | call hw _ ih =>
    intro h hh
    obtain ⟨h1, h2⟩ := h _ hw
    have ha := hh _ (List.mem_cons_self ..) h1
    obtain ⟨i1, i2⟩ := ih (h2 ha) fun e he => hh e (List.mem_cons_of_mem _ he)
    refine ⟨i1, fun e he => ?_⟩
    rcases List.mem_cons.mp he with rfl | he
    · exact ⟨h1, ha⟩
    · exact i2 e he

variable {cfg : Cfg} {α β : Type} {Q : α → Ctl → Prop} {s : Ctl}

theorem Good.mono {p : P α} {Q' : α → Ctl → Prop} (h : ∀ a s, Q a s → Q' a s) : ∀ {s}, Good cfg p Q s → Good cfg p Q' s := by
  induction p with
  | pure a => exact fun hp => h _ _ hp
  | ub => exact fun hp => hp
  | get k ih => exact fun hp => ih _ hp
  | set f k ih => exact fun hp => ih hp
  | call c k ih => exact fun hp r hr => ⟨(hp r hr).1, fun ha => ih r ((hp r hr).2 ha)⟩

theorem good_bind {p : P α} {k : α → P β} {Q : β → Ctl → Prop} : ∀ {s},
    Good cfg (p.bind k) Q s ↔ Good cfg p (fun a s => Good cfg (k a) Q s) s := by
  induction p with
  | pure a => exact Iff.rfl
  | ub => exact Iff.rfl
  | get k ih => exact ih _
  | set f k ih => exact ih
  | call c k ih =>
    exact ⟨fun h r hr => ⟨(h r hr).1, fun ha => (ih r).mp ((h r hr).2 ha)⟩,
      fun h r hr => ⟨(h r hr).1, fun ha => (ih r).mpr ((h r hr).2 ha)⟩⟩

theorem good_lift {v : Option β} {k : β → P α} :
    Good cfg (Prog.bind (Prog.lift v) k) Q s ↔ ∃ a, v = some a ∧ Good cfg (k a) Q s := by
  rcases v with _ | a <;> simp [Good]

theorem good_ite {c : Prop} [Decidable c] {p q : P α} :
    Good cfg (if c then p else q) Q s ↔ (c → Good cfg p Q s) ∧ (¬c → Good cfg q Q s) := by
  split <;> simp_all

/-! One rule for each call. -/

theorem good_getEncoders {k : Option (List ℝ) → P α} :
    Good cfg (Prog.bind Dev.getEncoders k) Q s ↔ Good cfg (k none) Q s ∧
      ∀ l : List ℝ, l.length = cfg.numJoints → Good cfg (k (some l)) Q s := by
  constructor
  · intro h
    exact ⟨(h none fun l hl => (Option.some_ne_none l hl.symm).elim).2 trivial,
      fun l hl => (h (some l) fun l' e => by rw [← Option.some.inj e]; exact hl).2 trivial⟩
  · rintro ⟨h1, h2⟩ (_ | l) hr
    · exact ⟨trivial, fun _ => h1⟩
    · exact ⟨trivial, fun _ => h2 l (hr l rfl)⟩

theorem good_getEncoderSpeeds {k : Option (List ℝ) → P α} :
    Good cfg (Prog.bind Dev.getEncoderSpeeds k) Q s ↔ Good cfg (k none) Q s ∧
      ∀ l : List ℝ, l.length = cfg.numJoints → Good cfg (k (some l)) Q s := by
  constructor
  · intro h
    exact ⟨(h none fun l hl => (Option.some_ne_none l hl.symm).elim).2 trivial,
      fun l hl => (h (some l) fun l' e => by rw [← Option.some.inj e]; exact hl).2 trivial⟩
  · rintro ⟨h1, h2⟩ (_ | l) hr
    · exact ⟨trivial, fun _ => h1⟩
    · exact ⟨trivial, fun _ => h2 l (hr l rfl)⟩

theorem good_getEncoderAccelerations {k : Option (List ℝ) → P α} :
    Good cfg (Prog.bind Dev.getEncoderAccelerations k) Q s ↔ Good cfg (k none) Q s ∧
      ∀ l : List ℝ, l.length = cfg.numJoints → Good cfg (k (some l)) Q s := by
  constructor
  · intro h
    exact ⟨(h none fun l hl => (Option.some_ne_none l hl.symm).elim).2 trivial,
      fun l hl => (h (some l) fun l' e => by rw [← Option.some.inj e]; exact hl).2 trivial⟩
  · rintro ⟨h1, h2⟩ (_ | l) hr
    · exact ⟨trivial, fun _ => h1⟩
    · exact ⟨trivial, fun _ => h2 l (hr l rfl)⟩

theorem good_getRefSpeeds {k : Option (List ℝ) → P α} :
    Good cfg (Prog.bind Dev.getRefSpeeds k) Q s ↔ Good cfg (k none) Q s ∧
      ∀ l : List ℝ, l.length = cfg.numJoints → Good cfg (k (some l)) Q s := by
  constructor
  · intro h
    exact ⟨(h none fun l hl => (Option.some_ne_none l hl.symm).elim).2 trivial,
      fun l hl => (h (some l) fun l' e => by rw [← Option.some.inj e]; exact hl).2 trivial⟩
  · rintro ⟨h1, h2⟩ (_ | l) hr
    · exact ⟨trivial, fun _ => h1⟩
    · exact ⟨trivial, fun _ => h2 l (hr l rfl)⟩

theorem good_getControlModes {k : Option (List Mode) → P α} :
    Good cfg (Prog.bind Dev.getControlModes k) Q s ↔ Good cfg (k none) Q s ∧
      ∀ l : List Mode, l.length = cfg.numJoints → Good cfg (k (some l)) Q s := by
  constructor
  · intro h
    exact ⟨(h none fun l hl => (Option.some_ne_none l hl.symm).elim).2 trivial,
      fun l hl => (h (some l) fun l' e => by rw [← Option.some.inj e]; exact hl).2 trivial⟩
  · rintro ⟨h1, h2⟩ (_ | l) hr
    · exact ⟨trivial, fun _ => h1⟩
    · exact ⟨trivial, fun _ => h2 l (hr l rfl)⟩

theorem good_setControlModes (js : List ℕ) (m : Mode) {k : Bool → P α} :
    Good cfg (Prog.bind (Dev.setControlModes js m) k) Q s ↔ ∀ b : Bool, Good cfg (k b) Q s :=
  ⟨fun h b => (h b trivial).2 trivial, fun h b _ => ⟨trivial, fun _ => h b⟩⟩

theorem good_checkMotionDone {k : Option Bool → P α} :
    Good cfg (Prog.bind Dev.checkMotionDone k) Q s ↔ ∀ b : Option Bool, Good cfg (k b) Q s :=
  ⟨fun h b => (h b trivial).2 trivial, fun h b _ => ⟨trivial, fun _ => h b⟩⟩

theorem good_stop {k : Bool → P α} :
    Good cfg (Prog.bind Dev.stop k) Q s ↔ ∀ b : Bool, Good cfg (k b) Q s :=
  ⟨fun h b => (h b trivial).2 trivial, fun h b _ => ⟨trivial, fun _ => h b⟩⟩

theorem good_restoreOriginalChain {k : Bool → P α} :
    Good cfg (Prog.bind Dev.restoreOriginalChain k) Q s ↔ ∀ b : Bool, Good cfg (k b) Q s :=
  ⟨fun h b => (h b trivial).2 trivial, fun h b _ => ⟨trivial, fun _ => h b⟩⟩

theorem good_now {k : ℝ → P α} :
    Good cfg (Prog.bind Dev.now k) Q s ↔ ∀ b : ℝ, Good cfg (k b) Q s :=
  ⟨fun h b => (h b trivial).2 trivial, fun h b _ => ⟨trivial, fun _ => h b⟩⟩

theorem good_delay (t : ℝ) {k : Unit → P α} :
    Good cfg (Prog.bind (Dev.delay t) k) Q s ↔ ∀ b : Unit, Good cfg (k b) Q s :=
  ⟨fun h b => (h b trivial).2 trivial, fun h b _ => ⟨trivial, fun _ => h b⟩⟩

theorem good_setPeriod (t : ℝ) {k : Bool → P α} :
    Good cfg (Prog.bind (Dev.setPeriod t) k) Q s ↔ ∀ b : Bool, Good cfg (k b) Q s :=
  ⟨fun h b => (h b trivial).2 trivial, fun h b _ => ⟨trivial, fun _ => h b⟩⟩

theorem good_setRefSpeeds (v : List ℝ) {k : Bool → P α} :
    Good cfg (Prog.bind (Dev.setRefSpeeds v) k) Q s ↔ v.length = cfg.numJoints ∧ ∀ b : Bool, Good cfg (k b) Q s :=
  ⟨fun h => ⟨(h true trivial).1, fun b => (h b trivial).2 trivial⟩, fun h b _ => ⟨h.1, fun _ => h.2 b⟩⟩

theorem good_positionMove (v : List ℝ) {k : Bool → P α} :
    Good cfg (Prog.bind (Dev.positionMove v) k) Q s ↔ v.length = cfg.numJoints ∧ ∀ b : Bool, Good cfg (k b) Q s :=
  ⟨fun h => ⟨(h true trivial).1, fun b => (h b trivial).2 trivial⟩, fun h b _ => ⟨h.1, fun _ => h.2 b⟩⟩

theorem good_setPositions (v : List ℝ) {k : Bool → P α} :
    Good cfg (Prog.bind (Dev.setPositions v) k) Q s ↔ v.length = cfg.numJoints ∧ ∀ b : Bool, Good cfg (k b) Q s :=
  ⟨fun h => ⟨(h true trivial).1, fun b => (h b trivial).2 trivial⟩, fun h b _ => ⟨h.1, fun _ => h.2 b⟩⟩

theorem good_velocityMove (v : List ℝ) {k : Bool → P α} :
    Good cfg (Prog.bind (Dev.velocityMove v) k) Q s ↔ v.length = cfg.numJoints ∧ ∀ b : Bool, Good cfg (k b) Q s :=
  ⟨fun h => ⟨(h true trivial).1, fun b => (h b trivial).2 trivial⟩, fun h b _ => ⟨h.1, fun _ => h.2 b⟩⟩

theorem good_setRefTorques (v : List ℝ) {k : Bool → P α} :
    Good cfg (Prog.bind (Dev.setRefTorques v) k) Q s ↔ v.length = cfg.numJoints ∧ ∀ b : Bool, Good cfg (k b) Q s :=
  ⟨fun h => ⟨(h true trivial).1, fun b => (h b trivial).2 trivial⟩, fun h b _ => ⟨h.1, fun _ => h.2 b⟩⟩

theorem good_appendLink (x : List ℝ) {k : Bool → P α} :
    Good cfg (Prog.bind (Dev.appendLink x) k) Q s ↔ x.length = 6 ∧ ∀ b : Bool, Good cfg (k b) Q s :=
  ⟨fun h => ⟨(h true trivial).1, fun b => (h b trivial).2 trivial⟩, fun h b _ => ⟨h.1, fun _ => h.2 b⟩⟩

theorem good_fwdKin (q : List ℝ) {k : Option (List ℝ) → P α} :
    Good cfg (Prog.bind (Dev.fwdKin q) k) Q s ↔ (q.length = cfg.numJoints) ∧ Good cfg (k none) Q s ∧
      ∀ l : List ℝ, l.length = 6 * cfg.numTcps → Good cfg (k (some l)) Q s :=
  ⟨fun h => ⟨(h none trivial).1, (h none trivial).2 trivial, fun l hl => (h (some l) trivial).2 hl⟩,
    fun h r _ => ⟨h.1, fun ha => by rcases r with _ | l; exacts [h.2.1, h.2.2 l ha]⟩⟩

theorem good_invKin (x q : List ℝ) (f : RefFrame) {k : Option (List ℝ) → P α} :
    Good cfg (Prog.bind (Dev.invKin x q f) k) Q s ↔ (x.length = 6 * cfg.numTcps ∧ q.length = cfg.numJoints) ∧ Good cfg (k none) Q s ∧
      ∀ l : List ℝ, l.length = cfg.numJoints → Good cfg (k (some l)) Q s :=
  ⟨fun h => ⟨(h none trivial).1, (h none trivial).2 trivial, fun l hl => (h (some l) trivial).2 hl⟩,
    fun h r _ => ⟨h.1, fun ha => by rcases r with _ | l; exacts [h.2.1, h.2.2 l ha]⟩⟩

theorem good_diffInvKin (q x : List ℝ) (f : RefFrame) {k : Option (List ℝ) → P α} :
    Good cfg (Prog.bind (Dev.diffInvKin q x f) k) Q s ↔ (q.length = cfg.numJoints ∧ x.length = 6 * cfg.numTcps) ∧ Good cfg (k none) Q s ∧
      ∀ l : List ℝ, l.length = cfg.numJoints → Good cfg (k (some l)) Q s :=
  ⟨fun h => ⟨(h none trivial).1, (h none trivial).2 trivial, fun l hl => (h (some l) trivial).2 hl⟩,
    fun h r _ => ⟨h.1, fun ha => by rcases r with _ | l; exacts [h.2.1, h.2.2 l ha]⟩⟩

theorem good_changeOrigin (a b : List ℝ) {k : Option (List ℝ) → P α} :
    Good cfg (Prog.bind (Dev.changeOrigin a b) k) Q s ↔ (a.length = 6 * cfg.numTcps ∧ b.length = 6 * cfg.numTcps) ∧ Good cfg (k none) Q s ∧
      ∀ l : List ℝ, l.length = 6 * cfg.numTcps → Good cfg (k (some l)) Q s :=
  ⟨fun h => ⟨(h none trivial).1, (h none trivial).2 trivial, fun l hl => (h (some l) trivial).2 hl⟩,
    fun h r _ => ⟨h.1, fun ha => by rcases r with _ | l; exacts [h.2.1, h.2.2 l ha]⟩⟩

theorem good_invDynStatic (q : List ℝ) {k : Option (List ℝ) → P α} :
    Good cfg (Prog.bind (Dev.invDynStatic q) k) Q s ↔ (q.length = cfg.numJoints) ∧ Good cfg (k none) Q s ∧
      ∀ l : List ℝ, l.length = cfg.numJoints → Good cfg (k (some l)) Q s :=
  ⟨fun h => ⟨(h none trivial).1, (h none trivial).2 trivial, fun l hl => (h (some l) trivial).2 hl⟩,
    fun h r _ => ⟨h.1, fun ha => by rcases r with _ | l; exacts [h.2.1, h.2.2 l ha]⟩⟩

theorem good_invDyn (q v a w : List ℝ) (f : RefFrame) {k : Option (List ℝ) → P α} :
    Good cfg (Prog.bind (Dev.invDyn q v a w f) k) Q s ↔ (q.length = cfg.numJoints ∧ v.length = cfg.numJoints ∧ a.length = cfg.numJoints ∧ w.length = 6 * cfg.numTcps) ∧ Good cfg (k none) Q s ∧
      ∀ l : List ℝ, l.length = cfg.numJoints → Good cfg (k (some l)) Q s :=
  ⟨fun h => ⟨(h none trivial).1, (h none trivial).2 trivial, fun l hl => (h (some l) trivial).2 hl⟩,
    fun h r _ => ⟨h.1, fun ha => by rcases r with _ | l; exacts [h.2.1, h.2.2 l ha]⟩⟩

theorem good_poseDiff (a b : List ℝ) {k : Bool × List ℝ → P α} :
    Good cfg (Prog.bind (Dev.poseDiff a b) k) Q s ↔ (a.length = 6 * cfg.numTcps ∧ b.length = 6 * cfg.numTcps) ∧
      ∀ r : Bool × List ℝ, r.2.length = 6 * cfg.numTcps → Good cfg (k r) Q s :=
  ⟨fun h => ⟨(h (true, []) trivial).1, fun r hr => (h r trivial).2 hr⟩, fun h r _ => ⟨h.1, fun ha => h.2 r ha⟩⟩

/-- All the rules together. -/
macro "good_simp" : tactic => `(tactic| simp only [good_getEncoders, good_getEncoderSpeeds, good_getEncoderAccelerations, good_getRefSpeeds, good_getControlModes, good_setControlModes, good_checkMotionDone, good_stop, good_restoreOriginalChain, good_now, good_delay, good_setPeriod, good_setRefSpeeds, good_positionMove, good_setPositions, good_velocityMove, good_setRefTorques, good_appendLink, good_fwdKin, good_invKin, good_diffInvKin, good_changeOrigin, good_invDynStatic, good_invDyn, good_poseDiff,
  Prog.bind_eq, Prog.pure_eq, Prog.pure_bind', Prog.ub_bind, Prog.read_bind, Prog.modify_bind,
  Prog.get_bind, Prog.set_bind, Prog.lift_some, Prog.lift_none, good_lift, good_ite, bind_ite,
  Prog.bind_assoc, Good])

end KD.Ctrl
