import Verif.Ctrl.Controller

/-!
# What one call can answer

One rule for each call: after it the program goes on with any answer, a failure or a result.
-/

namespace KD.Ctrl

open Prog (wp can)

variable {cfg : Cfg} {α : Type} {Q : Out α → Ctl → List Ev → Prop} {s : Ctl} {tr : List Ev}

theorem wp_getEncoders {k : Option (List ℝ) → P α} :
    wp (robot cfg) (Prog.bind Dev.getEncoders k) Q s tr ↔
      wp (robot cfg) (k none) Q s (tr ++ [Ev.getEncoders none]) ∧
      ∀ l : List ℝ, l.length = cfg.numJoints → wp (robot cfg) (k (some l)) Q s (tr ++ [Ev.getEncoders (some l)]) := by
  constructor
  · intro h
    exact ⟨h none fun l hl => (Option.some_ne_none l hl.symm).elim,
      fun l hl => h (some l) fun l' e => by rw [← Option.some.inj e]; exact hl⟩
  · rintro ⟨h1, h2⟩ (_ | l) hr
    · exact h1
    · exact h2 l (hr l rfl)

theorem wp_getEncoderSpeeds {k : Option (List ℝ) → P α} :
    wp (robot cfg) (Prog.bind Dev.getEncoderSpeeds k) Q s tr ↔
      wp (robot cfg) (k none) Q s (tr ++ [Ev.getEncoderSpeeds none]) ∧
      ∀ l : List ℝ, l.length = cfg.numJoints → wp (robot cfg) (k (some l)) Q s (tr ++ [Ev.getEncoderSpeeds (some l)]) := by
  constructor
  · intro h
    exact ⟨h none fun l hl => (Option.some_ne_none l hl.symm).elim,
      fun l hl => h (some l) fun l' e => by rw [← Option.some.inj e]; exact hl⟩
  · rintro ⟨h1, h2⟩ (_ | l) hr
    · exact h1
    · exact h2 l (hr l rfl)

theorem wp_getEncoderAccelerations {k : Option (List ℝ) → P α} :
    wp (robot cfg) (Prog.bind Dev.getEncoderAccelerations k) Q s tr ↔
      wp (robot cfg) (k none) Q s (tr ++ [Ev.getEncoderAccelerations none]) ∧
      ∀ l : List ℝ, l.length = cfg.numJoints → wp (robot cfg) (k (some l)) Q s (tr ++ [Ev.getEncoderAccelerations (some l)]) := by
  constructor
  · intro h
    exact ⟨h none fun l hl => (Option.some_ne_none l hl.symm).elim,
      fun l hl => h (some l) fun l' e => by rw [← Option.some.inj e]; exact hl⟩
  · rintro ⟨h1, h2⟩ (_ | l) hr
    · exact h1
    · exact h2 l (hr l rfl)

theorem wp_getControlModes {k : Option (List Mode) → P α} :
    wp (robot cfg) (Prog.bind Dev.getControlModes k) Q s tr ↔
      wp (robot cfg) (k none) Q s (tr ++ [Ev.getControlModes none]) ∧
      ∀ l : List Mode, l.length = cfg.numJoints → wp (robot cfg) (k (some l)) Q s (tr ++ [Ev.getControlModes (some l)]) := by
  constructor
  · intro h
    exact ⟨h none fun l hl => (Option.some_ne_none l hl.symm).elim,
      fun l hl => h (some l) fun l' e => by rw [← Option.some.inj e]; exact hl⟩
  · rintro ⟨h1, h2⟩ (_ | l) hr
    · exact h1
    · exact h2 l (hr l rfl)

theorem wp_setControlModes (joints : List ℕ) (mode : Mode) {k : Bool → P α} :
    wp (robot cfg) (Prog.bind (Dev.setControlModes joints mode) k) Q s tr ↔
      ∀ b : Bool, wp (robot cfg) (k b) Q s (tr ++ [Ev.setControlModes joints mode b]) :=
  ⟨fun h b => h b trivial, fun h b _ => h b⟩

theorem wp_getRefSpeeds {k : Option (List ℝ) → P α} :
    wp (robot cfg) (Prog.bind Dev.getRefSpeeds k) Q s tr ↔
      wp (robot cfg) (k none) Q s (tr ++ [Ev.getRefSpeeds none]) ∧
      ∀ l : List ℝ, l.length = cfg.numJoints → wp (robot cfg) (k (some l)) Q s (tr ++ [Ev.getRefSpeeds (some l)]) := by
  constructor
  · intro h
    exact ⟨h none fun l hl => (Option.some_ne_none l hl.symm).elim,
      fun l hl => h (some l) fun l' e => by rw [← Option.some.inj e]; exact hl⟩
  · rintro ⟨h1, h2⟩ (_ | l) hr
    · exact h1
    · exact h2 l (hr l rfl)

theorem wp_setRefSpeeds (v : List ℝ) {k : Bool → P α} :
    wp (robot cfg) (Prog.bind (Dev.setRefSpeeds v) k) Q s tr ↔
      ∀ b : Bool, wp (robot cfg) (k b) Q s (tr ++ [Ev.setRefSpeeds v b]) :=
  ⟨fun h b => h b trivial, fun h b _ => h b⟩

theorem wp_positionMove (q : List ℝ) {k : Bool → P α} :
    wp (robot cfg) (Prog.bind (Dev.positionMove q) k) Q s tr ↔
      ∀ b : Bool, wp (robot cfg) (k b) Q s (tr ++ [Ev.positionMove q b]) :=
  ⟨fun h b => h b trivial, fun h b _ => h b⟩

theorem wp_checkMotionDone {k : Option Bool → P α} :
    wp (robot cfg) (Prog.bind Dev.checkMotionDone k) Q s tr ↔
      wp (robot cfg) (k none) Q s (tr ++ [Ev.checkMotionDone none]) ∧
      ∀ l : Bool, wp (robot cfg) (k (some l)) Q s (tr ++ [Ev.checkMotionDone (some l)]) := by
  constructor
  · intro h
    exact ⟨h none trivial, fun l => h (some l) trivial⟩
  · rintro ⟨h1, h2⟩ (_ | l) -
    · exact h1
    · exact h2 l

theorem wp_stop {k : Bool → P α} :
    wp (robot cfg) (Prog.bind Dev.stop k) Q s tr ↔
      ∀ b : Bool, wp (robot cfg) (k b) Q s (tr ++ [Ev.stop b]) :=
  ⟨fun h b => h b trivial, fun h b _ => h b⟩

theorem wp_setPositions (q : List ℝ) {k : Bool → P α} :
    wp (robot cfg) (Prog.bind (Dev.setPositions q) k) Q s tr ↔
      ∀ b : Bool, wp (robot cfg) (k b) Q s (tr ++ [Ev.setPositions q b]) :=
  ⟨fun h b => h b trivial, fun h b _ => h b⟩

theorem wp_velocityMove (v : List ℝ) {k : Bool → P α} :
    wp (robot cfg) (Prog.bind (Dev.velocityMove v) k) Q s tr ↔
      ∀ b : Bool, wp (robot cfg) (k b) Q s (tr ++ [Ev.velocityMove v b]) :=
  ⟨fun h b => h b trivial, fun h b _ => h b⟩

theorem wp_setRefTorques (t : List ℝ) {k : Bool → P α} :
    wp (robot cfg) (Prog.bind (Dev.setRefTorques t) k) Q s tr ↔
      ∀ b : Bool, wp (robot cfg) (k b) Q s (tr ++ [Ev.setRefTorques t b]) :=
  ⟨fun h b => h b trivial, fun h b _ => h b⟩

theorem wp_fwdKin (q : List ℝ) {k : Option (List ℝ) → P α} :
    wp (robot cfg) (Prog.bind (Dev.fwdKin q) k) Q s tr ↔
      wp (robot cfg) (k none) Q s (tr ++ [Ev.fwdKin q none]) ∧
      ∀ l : List ℝ, wp (robot cfg) (k (some l)) Q s (tr ++ [Ev.fwdKin q (some l)]) := by
  constructor
  · intro h
    exact ⟨h none trivial, fun l => h (some l) trivial⟩
  · rintro ⟨h1, h2⟩ (_ | l) -
    · exact h1
    · exact h2 l

theorem wp_invKin (x q : List ℝ) (frame : RefFrame) {k : Option (List ℝ) → P α} :
    wp (robot cfg) (Prog.bind (Dev.invKin x q frame) k) Q s tr ↔
      wp (robot cfg) (k none) Q s (tr ++ [Ev.invKin x q frame none]) ∧
      ∀ l : List ℝ, wp (robot cfg) (k (some l)) Q s (tr ++ [Ev.invKin x q frame (some l)]) := by
  constructor
  · intro h
    exact ⟨h none trivial, fun l => h (some l) trivial⟩
  · rintro ⟨h1, h2⟩ (_ | l) -
    · exact h1
    · exact h2 l

theorem wp_diffInvKin (q xdot : List ℝ) (frame : RefFrame) {k : Option (List ℝ) → P α} :
    wp (robot cfg) (Prog.bind (Dev.diffInvKin q xdot frame) k) Q s tr ↔
      wp (robot cfg) (k none) Q s (tr ++ [Ev.diffInvKin q xdot frame none]) ∧
      ∀ l : List ℝ, wp (robot cfg) (k (some l)) Q s (tr ++ [Ev.diffInvKin q xdot frame (some l)]) := by
  constructor
  · intro h
    exact ⟨h none trivial, fun l => h (some l) trivial⟩
  · rintro ⟨h1, h2⟩ (_ | l) -
    · exact h1
    · exact h2 l

theorem wp_poseDiff (lhs rhs : List ℝ) {k : Bool × List ℝ → P α} :
    wp (robot cfg) (Prog.bind (Dev.poseDiff lhs rhs) k) Q s tr ↔
      ∀ b : Bool × List ℝ, wp (robot cfg) (k b) Q s (tr ++ [Ev.poseDiff lhs rhs b]) :=
  ⟨fun h b => h b trivial, fun h b _ => h b⟩

theorem wp_changeOrigin (xOldObj xNewOld : List ℝ) {k : Option (List ℝ) → P α} :
    wp (robot cfg) (Prog.bind (Dev.changeOrigin xOldObj xNewOld) k) Q s tr ↔
      wp (robot cfg) (k none) Q s (tr ++ [Ev.changeOrigin xOldObj xNewOld none]) ∧
      ∀ l : List ℝ, wp (robot cfg) (k (some l)) Q s (tr ++ [Ev.changeOrigin xOldObj xNewOld (some l)]) := by
  constructor
  · intro h
    exact ⟨h none trivial, fun l => h (some l) trivial⟩
  · rintro ⟨h1, h2⟩ (_ | l) -
    · exact h1
    · exact h2 l

theorem wp_invDynStatic (q : List ℝ) {k : Option (List ℝ) → P α} :
    wp (robot cfg) (Prog.bind (Dev.invDynStatic q) k) Q s tr ↔
      wp (robot cfg) (k none) Q s (tr ++ [Ev.invDynStatic q none]) ∧
      ∀ l : List ℝ, wp (robot cfg) (k (some l)) Q s (tr ++ [Ev.invDynStatic q (some l)]) := by
  constructor
  · intro h
    exact ⟨h none trivial, fun l => h (some l) trivial⟩
  · rintro ⟨h1, h2⟩ (_ | l) -
    · exact h1
    · exact h2 l

theorem wp_invDyn (q qdot qdotdot f : List ℝ) (frame : RefFrame) {k : Option (List ℝ) → P α} :
    wp (robot cfg) (Prog.bind (Dev.invDyn q qdot qdotdot f frame) k) Q s tr ↔
      wp (robot cfg) (k none) Q s (tr ++ [Ev.invDyn q qdot qdotdot f frame none]) ∧
      ∀ l : List ℝ, wp (robot cfg) (k (some l)) Q s (tr ++ [Ev.invDyn q qdot qdotdot f frame (some l)]) := by
  constructor
  · intro h
    exact ⟨h none trivial, fun l => h (some l) trivial⟩
  · rintro ⟨h1, h2⟩ (_ | l) -
    · exact h1
    · exact h2 l

theorem wp_restoreOriginalChain {k : Bool → P α} :
    wp (robot cfg) (Prog.bind Dev.restoreOriginalChain k) Q s tr ↔
      ∀ b : Bool, wp (robot cfg) (k b) Q s (tr ++ [Ev.restoreOriginalChain b]) :=
  ⟨fun h b => h b trivial, fun h b _ => h b⟩

theorem wp_appendLink (x : List ℝ) {k : Bool → P α} :
    wp (robot cfg) (Prog.bind (Dev.appendLink x) k) Q s tr ↔
      ∀ b : Bool, wp (robot cfg) (k b) Q s (tr ++ [Ev.appendLink x b]) :=
  ⟨fun h b => h b trivial, fun h b _ => h b⟩

theorem wp_now {k : ℝ → P α} :
    wp (robot cfg) (Prog.bind Dev.now k) Q s tr ↔
      ∀ b : ℝ, wp (robot cfg) (k b) Q s (tr ++ [Ev.now b]) :=
  ⟨fun h b => h b trivial, fun h b _ => h b⟩

theorem wp_delay (t : ℝ) {k : Unit → P α} :
    wp (robot cfg) (Prog.bind (Dev.delay t) k) Q s tr ↔
      ∀ b : Unit, wp (robot cfg) (k b) Q s (tr ++ [Ev.delay t b]) :=
  ⟨fun h b => h b trivial, fun h b _ => h b⟩

theorem wp_setPeriod (t : ℝ) {k : Bool → P α} :
    wp (robot cfg) (Prog.bind (Dev.setPeriod t) k) Q s tr ↔
      ∀ b : Bool, wp (robot cfg) (k b) Q s (tr ++ [Ev.setPeriod t b]) :=
  ⟨fun h b => h b trivial, fun h b _ => h b⟩

theorem wp_lift {β : Type} {v : Option β} {k : β → P α} :
    wp (robot cfg) (Prog.bind (Prog.lift v) k) Q s tr ↔
      (v = none → Q .ub s tr) ∧ ∀ a, v = some a → wp (robot cfg) (k a) Q s tr := by
  rcases v with _ | a
  · simp [wp]
  · simp

theorem wp_ite {c : Prop} [Decidable c] {p q : P α} :
    wp (robot cfg) (if c then p else q) Q s tr ↔
      (c → wp (robot cfg) p Q s tr) ∧ (¬c → wp (robot cfg) q Q s tr) := by
  split <;> simp_all

theorem bind_ite {β : Type} {c : Prop} [Decidable c] {p q : P α} {k : α → P β} :
    Prog.bind (if c then p else q) k = if c then Prog.bind p k else Prog.bind q k := by
  split <;> rfl

/-- All the rules together. -/
macro "dev_simp" : tactic => `(tactic| simp only [wp_getEncoders, wp_getEncoderSpeeds, wp_getEncoderAccelerations, wp_getControlModes, wp_setControlModes, wp_getRefSpeeds, wp_setRefSpeeds, wp_positionMove, wp_checkMotionDone, wp_stop, wp_setPositions, wp_velocityMove, wp_setRefTorques, wp_fwdKin, wp_invKin, wp_diffInvKin, wp_poseDiff, wp_changeOrigin, wp_invDynStatic, wp_invDyn, wp_restoreOriginalChain, wp_appendLink, wp_now, wp_delay, wp_setPeriod,
  Prog.bind_eq, Prog.pure_eq, Prog.pure_bind', Prog.ub_bind, Prog.read_bind, Prog.modify_bind,
  Prog.get_bind, Prog.set_bind, Prog.lift_some, Prog.lift_none, wp_lift, wp_ite, bind_ite,
  Prog.bind_assoc, wp, Prog.Out.andThen])

theorem can_getEncoders {k : Option (List ℝ) → P α} :
    can (robot cfg) (Prog.bind Dev.getEncoders k) Q s tr ↔
      ∃ r : Option (List ℝ), (∀ l, r = some l → l.length = cfg.numJoints) ∧
        can (robot cfg) (k r) Q s (tr ++ [Ev.getEncoders r]) := Iff.rfl

theorem can_getEncoderSpeeds {k : Option (List ℝ) → P α} :
    can (robot cfg) (Prog.bind Dev.getEncoderSpeeds k) Q s tr ↔
      ∃ r : Option (List ℝ), (∀ l, r = some l → l.length = cfg.numJoints) ∧
        can (robot cfg) (k r) Q s (tr ++ [Ev.getEncoderSpeeds r]) := Iff.rfl

theorem can_getEncoderAccelerations {k : Option (List ℝ) → P α} :
    can (robot cfg) (Prog.bind Dev.getEncoderAccelerations k) Q s tr ↔
      ∃ r : Option (List ℝ), (∀ l, r = some l → l.length = cfg.numJoints) ∧
        can (robot cfg) (k r) Q s (tr ++ [Ev.getEncoderAccelerations r]) := Iff.rfl

theorem can_getControlModes {k : Option (List Mode) → P α} :
    can (robot cfg) (Prog.bind Dev.getControlModes k) Q s tr ↔
      ∃ r : Option (List Mode), (∀ l, r = some l → l.length = cfg.numJoints) ∧
        can (robot cfg) (k r) Q s (tr ++ [Ev.getControlModes r]) := Iff.rfl

theorem can_setControlModes (joints : List ℕ) (mode : Mode) {k : Bool → P α} :
    can (robot cfg) (Prog.bind (Dev.setControlModes joints mode) k) Q s tr ↔
      ∃ r : Bool, can (robot cfg) (k r) Q s (tr ++ [Ev.setControlModes joints mode r]) :=
  ⟨fun ⟨r, _, h⟩ => ⟨r, h⟩, fun ⟨r, h⟩ => ⟨r, trivial, h⟩⟩

theorem can_getRefSpeeds {k : Option (List ℝ) → P α} :
    can (robot cfg) (Prog.bind Dev.getRefSpeeds k) Q s tr ↔
      ∃ r : Option (List ℝ), (∀ l, r = some l → l.length = cfg.numJoints) ∧
        can (robot cfg) (k r) Q s (tr ++ [Ev.getRefSpeeds r]) := Iff.rfl

theorem can_setRefSpeeds (v : List ℝ) {k : Bool → P α} :
    can (robot cfg) (Prog.bind (Dev.setRefSpeeds v) k) Q s tr ↔
      ∃ r : Bool, can (robot cfg) (k r) Q s (tr ++ [Ev.setRefSpeeds v r]) :=
  ⟨fun ⟨r, _, h⟩ => ⟨r, h⟩, fun ⟨r, h⟩ => ⟨r, trivial, h⟩⟩

theorem can_positionMove (q : List ℝ) {k : Bool → P α} :
    can (robot cfg) (Prog.bind (Dev.positionMove q) k) Q s tr ↔
      ∃ r : Bool, can (robot cfg) (k r) Q s (tr ++ [Ev.positionMove q r]) :=
  ⟨fun ⟨r, _, h⟩ => ⟨r, h⟩, fun ⟨r, h⟩ => ⟨r, trivial, h⟩⟩

theorem can_checkMotionDone {k : Option Bool → P α} :
    can (robot cfg) (Prog.bind Dev.checkMotionDone k) Q s tr ↔
      ∃ r : Option Bool, can (robot cfg) (k r) Q s (tr ++ [Ev.checkMotionDone r]) :=
  ⟨fun ⟨r, _, h⟩ => ⟨r, h⟩, fun ⟨r, h⟩ => ⟨r, trivial, h⟩⟩

theorem can_stop {k : Bool → P α} :
    can (robot cfg) (Prog.bind Dev.stop k) Q s tr ↔
      ∃ r : Bool, can (robot cfg) (k r) Q s (tr ++ [Ev.stop r]) :=
  ⟨fun ⟨r, _, h⟩ => ⟨r, h⟩, fun ⟨r, h⟩ => ⟨r, trivial, h⟩⟩

theorem can_setPositions (q : List ℝ) {k : Bool → P α} :
    can (robot cfg) (Prog.bind (Dev.setPositions q) k) Q s tr ↔
      ∃ r : Bool, can (robot cfg) (k r) Q s (tr ++ [Ev.setPositions q r]) :=
  ⟨fun ⟨r, _, h⟩ => ⟨r, h⟩, fun ⟨r, h⟩ => ⟨r, trivial, h⟩⟩

theorem can_velocityMove (v : List ℝ) {k : Bool → P α} :
    can (robot cfg) (Prog.bind (Dev.velocityMove v) k) Q s tr ↔
      ∃ r : Bool, can (robot cfg) (k r) Q s (tr ++ [Ev.velocityMove v r]) :=
  ⟨fun ⟨r, _, h⟩ => ⟨r, h⟩, fun ⟨r, h⟩ => ⟨r, trivial, h⟩⟩

theorem can_setRefTorques (t : List ℝ) {k : Bool → P α} :
    can (robot cfg) (Prog.bind (Dev.setRefTorques t) k) Q s tr ↔
      ∃ r : Bool, can (robot cfg) (k r) Q s (tr ++ [Ev.setRefTorques t r]) :=
  ⟨fun ⟨r, _, h⟩ => ⟨r, h⟩, fun ⟨r, h⟩ => ⟨r, trivial, h⟩⟩

theorem can_fwdKin (q : List ℝ) {k : Option (List ℝ) → P α} :
    can (robot cfg) (Prog.bind (Dev.fwdKin q) k) Q s tr ↔
      ∃ r : Option (List ℝ), can (robot cfg) (k r) Q s (tr ++ [Ev.fwdKin q r]) :=
  ⟨fun ⟨r, _, h⟩ => ⟨r, h⟩, fun ⟨r, h⟩ => ⟨r, trivial, h⟩⟩

theorem can_invKin (x q : List ℝ) (frame : RefFrame) {k : Option (List ℝ) → P α} :
    can (robot cfg) (Prog.bind (Dev.invKin x q frame) k) Q s tr ↔
      ∃ r : Option (List ℝ), can (robot cfg) (k r) Q s (tr ++ [Ev.invKin x q frame r]) :=
  ⟨fun ⟨r, _, h⟩ => ⟨r, h⟩, fun ⟨r, h⟩ => ⟨r, trivial, h⟩⟩

theorem can_diffInvKin (q xdot : List ℝ) (frame : RefFrame) {k : Option (List ℝ) → P α} :
    can (robot cfg) (Prog.bind (Dev.diffInvKin q xdot frame) k) Q s tr ↔
      ∃ r : Option (List ℝ), can (robot cfg) (k r) Q s (tr ++ [Ev.diffInvKin q xdot frame r]) :=
  ⟨fun ⟨r, _, h⟩ => ⟨r, h⟩, fun ⟨r, h⟩ => ⟨r, trivial, h⟩⟩

theorem can_poseDiff (lhs rhs : List ℝ) {k : Bool × List ℝ → P α} :
    can (robot cfg) (Prog.bind (Dev.poseDiff lhs rhs) k) Q s tr ↔
      ∃ r : Bool × List ℝ, can (robot cfg) (k r) Q s (tr ++ [Ev.poseDiff lhs rhs r]) :=
  ⟨fun ⟨r, _, h⟩ => ⟨r, h⟩, fun ⟨r, h⟩ => ⟨r, trivial, h⟩⟩

theorem can_changeOrigin (xOldObj xNewOld : List ℝ) {k : Option (List ℝ) → P α} :
    can (robot cfg) (Prog.bind (Dev.changeOrigin xOldObj xNewOld) k) Q s tr ↔
      ∃ r : Option (List ℝ), can (robot cfg) (k r) Q s (tr ++ [Ev.changeOrigin xOldObj xNewOld r]) :=
  ⟨fun ⟨r, _, h⟩ => ⟨r, h⟩, fun ⟨r, h⟩ => ⟨r, trivial, h⟩⟩

theorem can_invDynStatic (q : List ℝ) {k : Option (List ℝ) → P α} :
    can (robot cfg) (Prog.bind (Dev.invDynStatic q) k) Q s tr ↔
      ∃ r : Option (List ℝ), can (robot cfg) (k r) Q s (tr ++ [Ev.invDynStatic q r]) :=
  ⟨fun ⟨r, _, h⟩ => ⟨r, h⟩, fun ⟨r, h⟩ => ⟨r, trivial, h⟩⟩

theorem can_invDyn (q qdot qdotdot f : List ℝ) (frame : RefFrame) {k : Option (List ℝ) → P α} :
    can (robot cfg) (Prog.bind (Dev.invDyn q qdot qdotdot f frame) k) Q s tr ↔
      ∃ r : Option (List ℝ), can (robot cfg) (k r) Q s (tr ++ [Ev.invDyn q qdot qdotdot f frame r]) :=
  ⟨fun ⟨r, _, h⟩ => ⟨r, h⟩, fun ⟨r, h⟩ => ⟨r, trivial, h⟩⟩

theorem can_restoreOriginalChain {k : Bool → P α} :
    can (robot cfg) (Prog.bind Dev.restoreOriginalChain k) Q s tr ↔
      ∃ r : Bool, can (robot cfg) (k r) Q s (tr ++ [Ev.restoreOriginalChain r]) :=
  ⟨fun ⟨r, _, h⟩ => ⟨r, h⟩, fun ⟨r, h⟩ => ⟨r, trivial, h⟩⟩

theorem can_appendLink (x : List ℝ) {k : Bool → P α} :
    can (robot cfg) (Prog.bind (Dev.appendLink x) k) Q s tr ↔
      ∃ r : Bool, can (robot cfg) (k r) Q s (tr ++ [Ev.appendLink x r]) :=
  ⟨fun ⟨r, _, h⟩ => ⟨r, h⟩, fun ⟨r, h⟩ => ⟨r, trivial, h⟩⟩

theorem can_now {k : ℝ → P α} :
    can (robot cfg) (Prog.bind Dev.now k) Q s tr ↔
      ∃ r : ℝ, can (robot cfg) (k r) Q s (tr ++ [Ev.now r]) :=
  ⟨fun ⟨r, _, h⟩ => ⟨r, h⟩, fun ⟨r, h⟩ => ⟨r, trivial, h⟩⟩

theorem can_delay (t : ℝ) {k : Unit → P α} :
    can (robot cfg) (Prog.bind (Dev.delay t) k) Q s tr ↔
      ∃ r : Unit, can (robot cfg) (k r) Q s (tr ++ [Ev.delay t r]) :=
  ⟨fun ⟨r, _, h⟩ => ⟨r, h⟩, fun ⟨r, h⟩ => ⟨r, trivial, h⟩⟩

theorem can_setPeriod (t : ℝ) {k : Bool → P α} :
    can (robot cfg) (Prog.bind (Dev.setPeriod t) k) Q s tr ↔
      ∃ r : Bool, can (robot cfg) (k r) Q s (tr ++ [Ev.setPeriod t r]) :=
  ⟨fun ⟨r, _, h⟩ => ⟨r, h⟩, fun ⟨r, h⟩ => ⟨r, trivial, h⟩⟩

theorem can_lift {β : Type} {v : Option β} {k : β → P α} :
    can (robot cfg) (Prog.bind (Prog.lift v) k) Q s tr ↔
      (v = none ∧ Q .ub s tr) ∨ ∃ a, v = some a ∧ can (robot cfg) (k a) Q s tr := by
  rcases v with _ | a
  · simp [can]
  · simp

theorem can_ite {c : Prop} [Decidable c] {p q : P α} :
    can (robot cfg) (if c then p else q) Q s tr ↔
      (c ∧ can (robot cfg) p Q s tr) ∨ (¬c ∧ can (robot cfg) q Q s tr) := by
  split <;> simp_all

/-- All the rules for `can` together. -/
macro "can_simp" : tactic => `(tactic| simp only [can_getEncoders, can_getEncoderSpeeds, can_getEncoderAccelerations, can_getControlModes, can_setControlModes, can_getRefSpeeds, can_setRefSpeeds, can_positionMove, can_checkMotionDone, can_stop, can_setPositions, can_velocityMove, can_setRefTorques, can_fwdKin, can_invKin, can_diffInvKin, can_poseDiff, can_changeOrigin, can_invDynStatic, can_invDyn, can_restoreOriginalChain, can_appendLink, can_now, can_delay, can_setPeriod,
  Prog.bind_eq, Prog.pure_eq, Prog.pure_bind', Prog.ub_bind, Prog.read_bind, Prog.modify_bind,
  Prog.get_bind, Prog.set_bind, Prog.lift_some, Prog.lift_none, can_lift, can_ite, bind_ite,
  Prog.bind_assoc, can, Prog.Out.andThen])

/-! ## What programs never do, call by call -/

section

variable {W : (Ctl → Ctl) → Prop} {D : Call → Prop}

theorem wr_getEncoders {k : Option (List ℝ) → P α} :
    Prog.Writes W (Prog.bind Dev.getEncoders k) ↔
      Prog.Writes W (k none) ∧ ∀ l : List ℝ, Prog.Writes W (k (some l)) :=
  ⟨fun h => ⟨h none, fun l => h (some l)⟩, fun h r => by rcases r with _ | l; exacts [h.1, h.2 l]⟩

theorem ca_getEncoders {k : Option (List ℝ) → P α} :
    Prog.Calls D (Prog.bind Dev.getEncoders k) ↔
      D Call.getEncoders ∧ Prog.Calls D (k none) ∧ ∀ l : List ℝ, Prog.Calls D (k (some l)) :=
  ⟨fun h => ⟨h.1, h.2 none, fun l => h.2 (some l)⟩,
    fun h => ⟨h.1, fun r => by rcases r with _ | l; exacts [h.2.1, h.2.2 l]⟩⟩

theorem wr_getEncoderSpeeds {k : Option (List ℝ) → P α} :
    Prog.Writes W (Prog.bind Dev.getEncoderSpeeds k) ↔
      Prog.Writes W (k none) ∧ ∀ l : List ℝ, Prog.Writes W (k (some l)) :=
  ⟨fun h => ⟨h none, fun l => h (some l)⟩, fun h r => by rcases r with _ | l; exacts [h.1, h.2 l]⟩

theorem ca_getEncoderSpeeds {k : Option (List ℝ) → P α} :
    Prog.Calls D (Prog.bind Dev.getEncoderSpeeds k) ↔
      D Call.getEncoderSpeeds ∧ Prog.Calls D (k none) ∧ ∀ l : List ℝ, Prog.Calls D (k (some l)) :=
  ⟨fun h => ⟨h.1, h.2 none, fun l => h.2 (some l)⟩,
    fun h => ⟨h.1, fun r => by rcases r with _ | l; exacts [h.2.1, h.2.2 l]⟩⟩

theorem wr_getEncoderAccelerations {k : Option (List ℝ) → P α} :
    Prog.Writes W (Prog.bind Dev.getEncoderAccelerations k) ↔
      Prog.Writes W (k none) ∧ ∀ l : List ℝ, Prog.Writes W (k (some l)) :=
  ⟨fun h => ⟨h none, fun l => h (some l)⟩, fun h r => by rcases r with _ | l; exacts [h.1, h.2 l]⟩

theorem ca_getEncoderAccelerations {k : Option (List ℝ) → P α} :
    Prog.Calls D (Prog.bind Dev.getEncoderAccelerations k) ↔
      D Call.getEncoderAccelerations ∧ Prog.Calls D (k none) ∧ ∀ l : List ℝ, Prog.Calls D (k (some l)) :=
  ⟨fun h => ⟨h.1, h.2 none, fun l => h.2 (some l)⟩,
    fun h => ⟨h.1, fun r => by rcases r with _ | l; exacts [h.2.1, h.2.2 l]⟩⟩

theorem wr_getControlModes {k : Option (List Mode) → P α} :
    Prog.Writes W (Prog.bind Dev.getControlModes k) ↔
      Prog.Writes W (k none) ∧ ∀ l : List Mode, Prog.Writes W (k (some l)) :=
  ⟨fun h => ⟨h none, fun l => h (some l)⟩, fun h r => by rcases r with _ | l; exacts [h.1, h.2 l]⟩

theorem ca_getControlModes {k : Option (List Mode) → P α} :
    Prog.Calls D (Prog.bind Dev.getControlModes k) ↔
      D Call.getControlModes ∧ Prog.Calls D (k none) ∧ ∀ l : List Mode, Prog.Calls D (k (some l)) :=
  ⟨fun h => ⟨h.1, h.2 none, fun l => h.2 (some l)⟩,
    fun h => ⟨h.1, fun r => by rcases r with _ | l; exacts [h.2.1, h.2.2 l]⟩⟩

theorem wr_setControlModes (joints : List ℕ) (mode : Mode) {k : Bool → P α} :
    Prog.Writes W (Prog.bind (Dev.setControlModes joints mode) k) ↔ ∀ b : Bool, Prog.Writes W (k b) := Iff.rfl

theorem ca_setControlModes (joints : List ℕ) (mode : Mode) {k : Bool → P α} :
    Prog.Calls D (Prog.bind (Dev.setControlModes joints mode) k) ↔
      D (Call.setControlModes joints mode) ∧ ∀ b : Bool, Prog.Calls D (k b) := Iff.rfl

theorem wr_getRefSpeeds {k : Option (List ℝ) → P α} :
    Prog.Writes W (Prog.bind Dev.getRefSpeeds k) ↔
      Prog.Writes W (k none) ∧ ∀ l : List ℝ, Prog.Writes W (k (some l)) :=
  ⟨fun h => ⟨h none, fun l => h (some l)⟩, fun h r => by rcases r with _ | l; exacts [h.1, h.2 l]⟩

theorem ca_getRefSpeeds {k : Option (List ℝ) → P α} :
    Prog.Calls D (Prog.bind Dev.getRefSpeeds k) ↔
      D Call.getRefSpeeds ∧ Prog.Calls D (k none) ∧ ∀ l : List ℝ, Prog.Calls D (k (some l)) :=
  ⟨fun h => ⟨h.1, h.2 none, fun l => h.2 (some l)⟩,
    fun h => ⟨h.1, fun r => by rcases r with _ | l; exacts [h.2.1, h.2.2 l]⟩⟩

theorem wr_setRefSpeeds (v : List ℝ) {k : Bool → P α} :
    Prog.Writes W (Prog.bind (Dev.setRefSpeeds v) k) ↔ ∀ b : Bool, Prog.Writes W (k b) := Iff.rfl

theorem ca_setRefSpeeds (v : List ℝ) {k : Bool → P α} :
    Prog.Calls D (Prog.bind (Dev.setRefSpeeds v) k) ↔
      D (Call.setRefSpeeds v) ∧ ∀ b : Bool, Prog.Calls D (k b) := Iff.rfl

theorem wr_positionMove (q : List ℝ) {k : Bool → P α} :
    Prog.Writes W (Prog.bind (Dev.positionMove q) k) ↔ ∀ b : Bool, Prog.Writes W (k b) := Iff.rfl

theorem ca_positionMove (q : List ℝ) {k : Bool → P α} :
    Prog.Calls D (Prog.bind (Dev.positionMove q) k) ↔
      D (Call.positionMove q) ∧ ∀ b : Bool, Prog.Calls D (k b) := Iff.rfl

theorem wr_checkMotionDone {k : Option Bool → P α} :
    Prog.Writes W (Prog.bind Dev.checkMotionDone k) ↔
      Prog.Writes W (k none) ∧ ∀ l : Bool, Prog.Writes W (k (some l)) :=
  ⟨fun h => ⟨h none, fun l => h (some l)⟩, fun h r => by rcases r with _ | l; exacts [h.1, h.2 l]⟩

theorem ca_checkMotionDone {k : Option Bool → P α} :
    Prog.Calls D (Prog.bind Dev.checkMotionDone k) ↔
      D Call.checkMotionDone ∧ Prog.Calls D (k none) ∧ ∀ l : Bool, Prog.Calls D (k (some l)) :=
  ⟨fun h => ⟨h.1, h.2 none, fun l => h.2 (some l)⟩,
    fun h => ⟨h.1, fun r => by rcases r with _ | l; exacts [h.2.1, h.2.2 l]⟩⟩

theorem wr_stop {k : Bool → P α} :
    Prog.Writes W (Prog.bind Dev.stop k) ↔ ∀ b : Bool, Prog.Writes W (k b) := Iff.rfl

theorem ca_stop {k : Bool → P α} :
    Prog.Calls D (Prog.bind Dev.stop k) ↔
      D Call.stop ∧ ∀ b : Bool, Prog.Calls D (k b) := Iff.rfl

theorem wr_setPositions (q : List ℝ) {k : Bool → P α} :
    Prog.Writes W (Prog.bind (Dev.setPositions q) k) ↔ ∀ b : Bool, Prog.Writes W (k b) := Iff.rfl

theorem ca_setPositions (q : List ℝ) {k : Bool → P α} :
    Prog.Calls D (Prog.bind (Dev.setPositions q) k) ↔
      D (Call.setPositions q) ∧ ∀ b : Bool, Prog.Calls D (k b) := Iff.rfl

theorem wr_velocityMove (v : List ℝ) {k : Bool → P α} :
    Prog.Writes W (Prog.bind (Dev.velocityMove v) k) ↔ ∀ b : Bool, Prog.Writes W (k b) := Iff.rfl

theorem ca_velocityMove (v : List ℝ) {k : Bool → P α} :
    Prog.Calls D (Prog.bind (Dev.velocityMove v) k) ↔
      D (Call.velocityMove v) ∧ ∀ b : Bool, Prog.Calls D (k b) := Iff.rfl

theorem wr_setRefTorques (t : List ℝ) {k : Bool → P α} :
    Prog.Writes W (Prog.bind (Dev.setRefTorques t) k) ↔ ∀ b : Bool, Prog.Writes W (k b) := Iff.rfl

theorem ca_setRefTorques (t : List ℝ) {k : Bool → P α} :
    Prog.Calls D (Prog.bind (Dev.setRefTorques t) k) ↔
      D (Call.setRefTorques t) ∧ ∀ b : Bool, Prog.Calls D (k b) := Iff.rfl

theorem wr_fwdKin (q : List ℝ) {k : Option (List ℝ) → P α} :
    Prog.Writes W (Prog.bind (Dev.fwdKin q) k) ↔
      Prog.Writes W (k none) ∧ ∀ l : List ℝ, Prog.Writes W (k (some l)) :=
  ⟨fun h => ⟨h none, fun l => h (some l)⟩, fun h r => by rcases r with _ | l; exacts [h.1, h.2 l]⟩

theorem ca_fwdKin (q : List ℝ) {k : Option (List ℝ) → P α} :
    Prog.Calls D (Prog.bind (Dev.fwdKin q) k) ↔
      D (Call.fwdKin q) ∧ Prog.Calls D (k none) ∧ ∀ l : List ℝ, Prog.Calls D (k (some l)) :=
  ⟨fun h => ⟨h.1, h.2 none, fun l => h.2 (some l)⟩,
    fun h => ⟨h.1, fun r => by rcases r with _ | l; exacts [h.2.1, h.2.2 l]⟩⟩

theorem wr_invKin (x q : List ℝ) (frame : RefFrame) {k : Option (List ℝ) → P α} :
    Prog.Writes W (Prog.bind (Dev.invKin x q frame) k) ↔
      Prog.Writes W (k none) ∧ ∀ l : List ℝ, Prog.Writes W (k (some l)) :=
  ⟨fun h => ⟨h none, fun l => h (some l)⟩, fun h r => by rcases r with _ | l; exacts [h.1, h.2 l]⟩

theorem ca_invKin (x q : List ℝ) (frame : RefFrame) {k : Option (List ℝ) → P α} :
    Prog.Calls D (Prog.bind (Dev.invKin x q frame) k) ↔
      D (Call.invKin x q frame) ∧ Prog.Calls D (k none) ∧ ∀ l : List ℝ, Prog.Calls D (k (some l)) :=
  ⟨fun h => ⟨h.1, h.2 none, fun l => h.2 (some l)⟩,
    fun h => ⟨h.1, fun r => by rcases r with _ | l; exacts [h.2.1, h.2.2 l]⟩⟩

theorem wr_diffInvKin (q xdot : List ℝ) (frame : RefFrame) {k : Option (List ℝ) → P α} :
    Prog.Writes W (Prog.bind (Dev.diffInvKin q xdot frame) k) ↔
      Prog.Writes W (k none) ∧ ∀ l : List ℝ, Prog.Writes W (k (some l)) :=
  ⟨fun h => ⟨h none, fun l => h (some l)⟩, fun h r => by rcases r with _ | l; exacts [h.1, h.2 l]⟩

theorem ca_diffInvKin (q xdot : List ℝ) (frame : RefFrame) {k : Option (List ℝ) → P α} :
    Prog.Calls D (Prog.bind (Dev.diffInvKin q xdot frame) k) ↔
      D (Call.diffInvKin q xdot frame) ∧ Prog.Calls D (k none) ∧ ∀ l : List ℝ, Prog.Calls D (k (some l)) :=
  ⟨fun h => ⟨h.1, h.2 none, fun l => h.2 (some l)⟩,
    fun h => ⟨h.1, fun r => by rcases r with _ | l; exacts [h.2.1, h.2.2 l]⟩⟩

theorem wr_poseDiff (lhs rhs : List ℝ) {k : Bool × List ℝ → P α} :
    Prog.Writes W (Prog.bind (Dev.poseDiff lhs rhs) k) ↔ ∀ b : Bool × List ℝ, Prog.Writes W (k b) := Iff.rfl

theorem ca_poseDiff (lhs rhs : List ℝ) {k : Bool × List ℝ → P α} :
    Prog.Calls D (Prog.bind (Dev.poseDiff lhs rhs) k) ↔
      D (Call.poseDiff lhs rhs) ∧ ∀ b : Bool × List ℝ, Prog.Calls D (k b) := Iff.rfl

theorem wr_changeOrigin (xOldObj xNewOld : List ℝ) {k : Option (List ℝ) → P α} :
    Prog.Writes W (Prog.bind (Dev.changeOrigin xOldObj xNewOld) k) ↔
      Prog.Writes W (k none) ∧ ∀ l : List ℝ, Prog.Writes W (k (some l)) :=
  ⟨fun h => ⟨h none, fun l => h (some l)⟩, fun h r => by rcases r with _ | l; exacts [h.1, h.2 l]⟩

theorem ca_changeOrigin (xOldObj xNewOld : List ℝ) {k : Option (List ℝ) → P α} :
    Prog.Calls D (Prog.bind (Dev.changeOrigin xOldObj xNewOld) k) ↔
      D (Call.changeOrigin xOldObj xNewOld) ∧ Prog.Calls D (k none) ∧ ∀ l : List ℝ, Prog.Calls D (k (some l)) :=
  ⟨fun h => ⟨h.1, h.2 none, fun l => h.2 (some l)⟩,
    fun h => ⟨h.1, fun r => by rcases r with _ | l; exacts [h.2.1, h.2.2 l]⟩⟩

theorem wr_invDynStatic (q : List ℝ) {k : Option (List ℝ) → P α} :
    Prog.Writes W (Prog.bind (Dev.invDynStatic q) k) ↔
      Prog.Writes W (k none) ∧ ∀ l : List ℝ, Prog.Writes W (k (some l)) :=
  ⟨fun h => ⟨h none, fun l => h (some l)⟩, fun h r => by rcases r with _ | l; exacts [h.1, h.2 l]⟩

theorem ca_invDynStatic (q : List ℝ) {k : Option (List ℝ) → P α} :
    Prog.Calls D (Prog.bind (Dev.invDynStatic q) k) ↔
      D (Call.invDynStatic q) ∧ Prog.Calls D (k none) ∧ ∀ l : List ℝ, Prog.Calls D (k (some l)) :=
  ⟨fun h => ⟨h.1, h.2 none, fun l => h.2 (some l)⟩,
    fun h => ⟨h.1, fun r => by rcases r with _ | l; exacts [h.2.1, h.2.2 l]⟩⟩

theorem wr_invDyn (q qdot qdotdot f : List ℝ) (frame : RefFrame) {k : Option (List ℝ) → P α} :
    Prog.Writes W (Prog.bind (Dev.invDyn q qdot qdotdot f frame) k) ↔
      Prog.Writes W (k none) ∧ ∀ l : List ℝ, Prog.Writes W (k (some l)) :=
  ⟨fun h => ⟨h none, fun l => h (some l)⟩, fun h r => by rcases r with _ | l; exacts [h.1, h.2 l]⟩

theorem ca_invDyn (q qdot qdotdot f : List ℝ) (frame : RefFrame) {k : Option (List ℝ) → P α} :
    Prog.Calls D (Prog.bind (Dev.invDyn q qdot qdotdot f frame) k) ↔
      D (Call.invDyn q qdot qdotdot f frame) ∧ Prog.Calls D (k none) ∧ ∀ l : List ℝ, Prog.Calls D (k (some l)) :=
  ⟨fun h => ⟨h.1, h.2 none, fun l => h.2 (some l)⟩,
    fun h => ⟨h.1, fun r => by rcases r with _ | l; exacts [h.2.1, h.2.2 l]⟩⟩

theorem wr_restoreOriginalChain {k : Bool → P α} :
    Prog.Writes W (Prog.bind Dev.restoreOriginalChain k) ↔ ∀ b : Bool, Prog.Writes W (k b) := Iff.rfl

theorem ca_restoreOriginalChain {k : Bool → P α} :
    Prog.Calls D (Prog.bind Dev.restoreOriginalChain k) ↔
      D Call.restoreOriginalChain ∧ ∀ b : Bool, Prog.Calls D (k b) := Iff.rfl

theorem wr_appendLink (x : List ℝ) {k : Bool → P α} :
    Prog.Writes W (Prog.bind (Dev.appendLink x) k) ↔ ∀ b : Bool, Prog.Writes W (k b) := Iff.rfl

theorem ca_appendLink (x : List ℝ) {k : Bool → P α} :
    Prog.Calls D (Prog.bind (Dev.appendLink x) k) ↔
      D (Call.appendLink x) ∧ ∀ b : Bool, Prog.Calls D (k b) := Iff.rfl

theorem wr_now {k : ℝ → P α} :
    Prog.Writes W (Prog.bind Dev.now k) ↔ ∀ b : ℝ, Prog.Writes W (k b) := Iff.rfl

theorem ca_now {k : ℝ → P α} :
    Prog.Calls D (Prog.bind Dev.now k) ↔
      D Call.now ∧ ∀ b : ℝ, Prog.Calls D (k b) := Iff.rfl

theorem wr_delay (t : ℝ) {k : Unit → P α} :
    Prog.Writes W (Prog.bind (Dev.delay t) k) ↔ ∀ b : Unit, Prog.Writes W (k b) := Iff.rfl

theorem ca_delay (t : ℝ) {k : Unit → P α} :
    Prog.Calls D (Prog.bind (Dev.delay t) k) ↔
      D (Call.delay t) ∧ ∀ b : Unit, Prog.Calls D (k b) := Iff.rfl

theorem wr_setPeriod (t : ℝ) {k : Bool → P α} :
    Prog.Writes W (Prog.bind (Dev.setPeriod t) k) ↔ ∀ b : Bool, Prog.Writes W (k b) := Iff.rfl

theorem ca_setPeriod (t : ℝ) {k : Bool → P α} :
    Prog.Calls D (Prog.bind (Dev.setPeriod t) k) ↔
      D (Call.setPeriod t) ∧ ∀ b : Bool, Prog.Calls D (k b) := Iff.rfl

theorem wr_lift {β : Type} {v : Option β} {k : β → P α} :
    Prog.Writes W (Prog.bind (Prog.lift v) k) ↔ ∀ a, v = some a → Prog.Writes W (k a) := by
  rcases v with _ | a
  · simp [Prog.Writes]
  · simp

theorem wr_ite {c : Prop} [Decidable c] {p q : P α} :
    Prog.Writes W (if c then p else q) ↔ (c → Prog.Writes W p) ∧ (¬c → Prog.Writes W q) := by
  split <;> simp_all

theorem ca_lift {β : Type} {v : Option β} {k : β → P α} :
    Prog.Calls D (Prog.bind (Prog.lift v) k) ↔ ∀ a, v = some a → Prog.Calls D (k a) := by
  rcases v with _ | a
  · simp [Prog.Calls]
  · simp

theorem ca_ite {c : Prop} [Decidable c] {p q : P α} :
    Prog.Calls D (if c then p else q) ↔ (c → Prog.Calls D p) ∧ (¬c → Prog.Calls D q) := by
  split <;> simp_all

/-- The rules for `Prog.Writes` together. -/
macro "wr_simp" : tactic => `(tactic| simp only [wr_getEncoders, wr_getEncoderSpeeds, wr_getEncoderAccelerations, wr_getControlModes, wr_setControlModes, wr_getRefSpeeds, wr_setRefSpeeds, wr_positionMove, wr_checkMotionDone, wr_stop, wr_setPositions, wr_velocityMove, wr_setRefTorques, wr_fwdKin, wr_invKin, wr_diffInvKin, wr_poseDiff, wr_changeOrigin, wr_invDynStatic, wr_invDyn, wr_restoreOriginalChain, wr_appendLink, wr_now, wr_delay, wr_setPeriod,
  Prog.bind_eq, Prog.pure_eq, Prog.pure_bind', Prog.ub_bind, Prog.read_bind, Prog.modify_bind,
  Prog.get_bind, Prog.set_bind, Prog.lift_some, Prog.lift_none, wr_lift, wr_ite, bind_ite,
  Prog.bind_assoc, Prog.Writes, implies_true, and_true, true_and])

/-- The rules for `Prog.Calls` together. -/
macro "ca_simp" : tactic => `(tactic| simp only [ca_getEncoders, ca_getEncoderSpeeds, ca_getEncoderAccelerations, ca_getControlModes, ca_setControlModes, ca_getRefSpeeds, ca_setRefSpeeds, ca_positionMove, ca_checkMotionDone, ca_stop, ca_setPositions, ca_velocityMove, ca_setRefTorques, ca_fwdKin, ca_invKin, ca_diffInvKin, ca_poseDiff, ca_changeOrigin, ca_invDynStatic, ca_invDyn, ca_restoreOriginalChain, ca_appendLink, ca_now, ca_delay, ca_setPeriod,
  Prog.bind_eq, Prog.pure_eq, Prog.pure_bind', Prog.ub_bind, Prog.read_bind, Prog.modify_bind,
  Prog.get_bind, Prog.set_bind, Prog.lift_some, Prog.lift_none, ca_lift, ca_ite, bind_ite,
  Prog.bind_assoc, Prog.Calls, implies_true, and_true, true_and])

/-- Shows that all writes of a program are allowed. -/
macro "writes" : tactic => `(tactic| (wr_simp; repeat' (with_reducible first
  | exact True.intro
  | apply And.intro
  | intro _
  | assumption
  | (apply_assumption -exfalso -symm)
  | wr_simp
  | refine Prog.writes_bind ?_ fun _ => ?_)))

/-- Shows that all calls of a program are allowed. -/
macro "calls" : tactic => `(tactic| (ca_simp; repeat' (with_reducible first
  | exact True.intro
  | apply And.intro
  | intro _
  | assumption
  | (apply_assumption -exfalso -symm)
  | ca_simp
  | refine Prog.calls_bind ?_ fun _ => ?_)))

end

end KD.Ctrl
