import Verif.Ctrl.History

/-!
# What a program can do whatever others do to the object

`Ghost.wpi` follows a program with a phase of its own. A read of the object can give anything that `inv` allows, since other
threads may have written to it.
-/

namespace KD.Ctrl

/-- Phases of a program: which events are allowed in a phase and what they lead to, what is known of the
object in a phase, and the phase after a write. -/
structure Ghost (σ : Type) where
  ok : σ → Ev → Prop
  next : σ → Ev → σ
  inv : σ → Ctl → Prop
  write : σ → (Ctl → Ctl) → σ → Prop

/-- Every path of the program is allowed, and ends in a phase as `Q` says. -/
def Ghost.wpi {σ α : Type} (T : Ghost σ) : P α → (α → σ → Prop) → σ → Prop
  | .pure a, Q, g => Q a g
  | .ub, _, _ => True
  | .get k, Q, g => ∀ s, T.inv g s → T.wpi (k s) Q g
  | .set f k, Q, g => ∃ g', T.write g f g' ∧ T.wpi k Q g'
  | .call c k, Q, g => ∀ r, T.ok g (record c r) ∧ T.wpi (k r) Q (T.next g (record c r))

theorem Ghost.wpi_mono {σ α : Type} {T : Ghost σ} {p : P α} {Q Q' : α → σ → Prop}
    (hQ : ∀ a g, Q a g → Q' a g) {g : σ} (h : T.wpi p Q g) : T.wpi p Q' g := by
  induction p generalizing g with
  | pure a => exact hQ _ _ h
  | ub => trivial
  | get k ih => exact fun s hs => ih s (h s hs)
  | set f k ih => exact ⟨_, h.choose_spec.1, ih h.choose_spec.2⟩
  | call c k ih => exact fun r => ⟨(h r).1, ih r (h r).2⟩

theorem Ghost.wpi_bind {σ α β : Type} {T : Ghost σ} {p : P α} {k : α → P β} {Q : β → σ → Prop} {g : σ} :
    T.wpi (Prog.bind p k) Q g ↔ T.wpi p (fun a g' => T.wpi (k a) Q g') g := by
  induction p generalizing g with
  | pure a => exact Iff.rfl
  | ub => exact Iff.rfl
  | get k ih => exact forall_congr' fun s => forall_congr' fun _ => ih s
  | set f k ih => exact exists_congr fun g' => and_congr_right fun _ => ih
  | call c k ih => exact forall_congr' fun r => and_congr_right fun _ => ih r

variable {σ : Type} {T : Ghost σ} {α : Type} {Q : α → σ → Prop} {g : σ}

theorem gi_lift {β : Type} {v : Option β} {k : β → P α} :
    T.wpi (Prog.bind (Prog.lift v) k) Q g ↔ ∀ a, v = some a → T.wpi (k a) Q g := by
  rcases v with _ | a
  · simp [Ghost.wpi]
  · simp

theorem gi_ite {c : Prop} [Decidable c] {p q : P α} :
    T.wpi (if c then p else q) Q g ↔ (c → T.wpi p Q g) ∧ (¬c → T.wpi q Q g) := by
  split <;> simp_all

theorem gi_getEncoders {k : Option (List ℝ) → P α} :
    T.wpi (Prog.bind Dev.getEncoders k) Q g ↔ (T.ok g (Ev.getEncoders none) ∧ T.wpi (k none) Q (T.next g (Ev.getEncoders none))) ∧
      ∀ l : List ℝ, T.ok g (Ev.getEncoders (some l)) ∧ T.wpi (k (some l)) Q (T.next g (Ev.getEncoders (some l))) :=
  ⟨fun h => ⟨h none, fun l => h (some l)⟩,
    fun h r => by rcases r with _ | l; exacts [h.1, h.2 l]⟩

theorem gi_getEncoderSpeeds {k : Option (List ℝ) → P α} :
    T.wpi (Prog.bind Dev.getEncoderSpeeds k) Q g ↔ (T.ok g (Ev.getEncoderSpeeds none) ∧ T.wpi (k none) Q (T.next g (Ev.getEncoderSpeeds none))) ∧
      ∀ l : List ℝ, T.ok g (Ev.getEncoderSpeeds (some l)) ∧ T.wpi (k (some l)) Q (T.next g (Ev.getEncoderSpeeds (some l))) :=
  ⟨fun h => ⟨h none, fun l => h (some l)⟩,
    fun h r => by rcases r with _ | l; exacts [h.1, h.2 l]⟩

theorem gi_getEncoderAccelerations {k : Option (List ℝ) → P α} :
    T.wpi (Prog.bind Dev.getEncoderAccelerations k) Q g ↔ (T.ok g (Ev.getEncoderAccelerations none) ∧ T.wpi (k none) Q (T.next g (Ev.getEncoderAccelerations none))) ∧
      ∀ l : List ℝ, T.ok g (Ev.getEncoderAccelerations (some l)) ∧ T.wpi (k (some l)) Q (T.next g (Ev.getEncoderAccelerations (some l))) :=
  ⟨fun h => ⟨h none, fun l => h (some l)⟩,
    fun h r => by rcases r with _ | l; exacts [h.1, h.2 l]⟩

theorem gi_getControlModes {k : Option (List Mode) → P α} :
    T.wpi (Prog.bind Dev.getControlModes k) Q g ↔ (T.ok g (Ev.getControlModes none) ∧ T.wpi (k none) Q (T.next g (Ev.getControlModes none))) ∧
      ∀ l : List Mode, T.ok g (Ev.getControlModes (some l)) ∧ T.wpi (k (some l)) Q (T.next g (Ev.getControlModes (some l))) :=
  ⟨fun h => ⟨h none, fun l => h (some l)⟩,
    fun h r => by rcases r with _ | l; exacts [h.1, h.2 l]⟩

theorem gi_setControlModes (joints : List ℕ) (mode : Mode) {k : Bool → P α} :
    T.wpi (Prog.bind (Dev.setControlModes joints mode) k) Q g ↔ ∀ b : Bool, T.ok g (Ev.setControlModes joints mode b) ∧ T.wpi (k b) Q (T.next g (Ev.setControlModes joints mode b)) := Iff.rfl

theorem gi_getRefSpeeds {k : Option (List ℝ) → P α} :
    T.wpi (Prog.bind Dev.getRefSpeeds k) Q g ↔ (T.ok g (Ev.getRefSpeeds none) ∧ T.wpi (k none) Q (T.next g (Ev.getRefSpeeds none))) ∧
      ∀ l : List ℝ, T.ok g (Ev.getRefSpeeds (some l)) ∧ T.wpi (k (some l)) Q (T.next g (Ev.getRefSpeeds (some l))) :=
  ⟨fun h => ⟨h none, fun l => h (some l)⟩,
    fun h r => by rcases r with _ | l; exacts [h.1, h.2 l]⟩

theorem gi_setRefSpeeds (v : List ℝ) {k : Bool → P α} :
    T.wpi (Prog.bind (Dev.setRefSpeeds v) k) Q g ↔ ∀ b : Bool, T.ok g (Ev.setRefSpeeds v b) ∧ T.wpi (k b) Q (T.next g (Ev.setRefSpeeds v b)) := Iff.rfl

theorem gi_positionMove (q : List ℝ) {k : Bool → P α} :
    T.wpi (Prog.bind (Dev.positionMove q) k) Q g ↔ ∀ b : Bool, T.ok g (Ev.positionMove q b) ∧ T.wpi (k b) Q (T.next g (Ev.positionMove q b)) := Iff.rfl

theorem gi_checkMotionDone {k : Option Bool → P α} :
    T.wpi (Prog.bind Dev.checkMotionDone k) Q g ↔ (T.ok g (Ev.checkMotionDone none) ∧ T.wpi (k none) Q (T.next g (Ev.checkMotionDone none))) ∧
      ∀ l : Bool, T.ok g (Ev.checkMotionDone (some l)) ∧ T.wpi (k (some l)) Q (T.next g (Ev.checkMotionDone (some l))) :=
  ⟨fun h => ⟨h none, fun l => h (some l)⟩,
    fun h r => by rcases r with _ | l; exacts [h.1, h.2 l]⟩

theorem gi_stop {k : Bool → P α} :
    T.wpi (Prog.bind Dev.stop k) Q g ↔ ∀ b : Bool, T.ok g (Ev.stop b) ∧ T.wpi (k b) Q (T.next g (Ev.stop b)) := Iff.rfl

theorem gi_setPositions (q : List ℝ) {k : Bool → P α} :
    T.wpi (Prog.bind (Dev.setPositions q) k) Q g ↔ ∀ b : Bool, T.ok g (Ev.setPositions q b) ∧ T.wpi (k b) Q (T.next g (Ev.setPositions q b)) := Iff.rfl

theorem gi_velocityMove (v : List ℝ) {k : Bool → P α} :
    T.wpi (Prog.bind (Dev.velocityMove v) k) Q g ↔ ∀ b : Bool, T.ok g (Ev.velocityMove v b) ∧ T.wpi (k b) Q (T.next g (Ev.velocityMove v b)) := Iff.rfl

theorem gi_setRefTorques (t : List ℝ) {k : Bool → P α} :
    T.wpi (Prog.bind (Dev.setRefTorques t) k) Q g ↔ ∀ b : Bool, T.ok g (Ev.setRefTorques t b) ∧ T.wpi (k b) Q (T.next g (Ev.setRefTorques t b)) := Iff.rfl

theorem gi_fwdKin (q : List ℝ) {k : Option (List ℝ) → P α} :
    T.wpi (Prog.bind (Dev.fwdKin q) k) Q g ↔ (T.ok g (Ev.fwdKin q none) ∧ T.wpi (k none) Q (T.next g (Ev.fwdKin q none))) ∧
      ∀ l : List ℝ, T.ok g (Ev.fwdKin q (some l)) ∧ T.wpi (k (some l)) Q (T.next g (Ev.fwdKin q (some l))) :=
  ⟨fun h => ⟨h none, fun l => h (some l)⟩,
    fun h r => by rcases r with _ | l; exacts [h.1, h.2 l]⟩

theorem gi_invKin (x q : List ℝ) (frame : RefFrame) {k : Option (List ℝ) → P α} :
    T.wpi (Prog.bind (Dev.invKin x q frame) k) Q g ↔ (T.ok g (Ev.invKin x q frame none) ∧ T.wpi (k none) Q (T.next g (Ev.invKin x q frame none))) ∧
      ∀ l : List ℝ, T.ok g (Ev.invKin x q frame (some l)) ∧ T.wpi (k (some l)) Q (T.next g (Ev.invKin x q frame (some l))) :=
  ⟨fun h => ⟨h none, fun l => h (some l)⟩,
    fun h r => by rcases r with _ | l; exacts [h.1, h.2 l]⟩

theorem gi_diffInvKin (q xdot : List ℝ) (frame : RefFrame) {k : Option (List ℝ) → P α} :
    T.wpi (Prog.bind (Dev.diffInvKin q xdot frame) k) Q g ↔ (T.ok g (Ev.diffInvKin q xdot frame none) ∧ T.wpi (k none) Q (T.next g (Ev.diffInvKin q xdot frame none))) ∧
      ∀ l : List ℝ, T.ok g (Ev.diffInvKin q xdot frame (some l)) ∧ T.wpi (k (some l)) Q (T.next g (Ev.diffInvKin q xdot frame (some l))) :=
  ⟨fun h => ⟨h none, fun l => h (some l)⟩,
    fun h r => by rcases r with _ | l; exacts [h.1, h.2 l]⟩

theorem gi_poseDiff (lhs rhs : List ℝ) {k : Bool × List ℝ → P α} :
    T.wpi (Prog.bind (Dev.poseDiff lhs rhs) k) Q g ↔ ∀ b : Bool × List ℝ, T.ok g (Ev.poseDiff lhs rhs b) ∧ T.wpi (k b) Q (T.next g (Ev.poseDiff lhs rhs b)) := Iff.rfl

theorem gi_changeOrigin (xOldObj xNewOld : List ℝ) {k : Option (List ℝ) → P α} :
    T.wpi (Prog.bind (Dev.changeOrigin xOldObj xNewOld) k) Q g ↔ (T.ok g (Ev.changeOrigin xOldObj xNewOld none) ∧ T.wpi (k none) Q (T.next g (Ev.changeOrigin xOldObj xNewOld none))) ∧
      ∀ l : List ℝ, T.ok g (Ev.changeOrigin xOldObj xNewOld (some l)) ∧ T.wpi (k (some l)) Q (T.next g (Ev.changeOrigin xOldObj xNewOld (some l))) :=
  ⟨fun h => ⟨h none, fun l => h (some l)⟩,
    fun h r => by rcases r with _ | l; exacts [h.1, h.2 l]⟩

theorem gi_invDynStatic (q : List ℝ) {k : Option (List ℝ) → P α} :
    T.wpi (Prog.bind (Dev.invDynStatic q) k) Q g ↔ (T.ok g (Ev.invDynStatic q none) ∧ T.wpi (k none) Q (T.next g (Ev.invDynStatic q none))) ∧
      ∀ l : List ℝ, T.ok g (Ev.invDynStatic q (some l)) ∧ T.wpi (k (some l)) Q (T.next g (Ev.invDynStatic q (some l))) :=
  ⟨fun h => ⟨h none, fun l => h (some l)⟩,
    fun h r => by rcases r with _ | l; exacts [h.1, h.2 l]⟩

theorem gi_invDyn (q qdot qdotdot f : List ℝ) (frame : RefFrame) {k : Option (List ℝ) → P α} :
    T.wpi (Prog.bind (Dev.invDyn q qdot qdotdot f frame) k) Q g ↔ (T.ok g (Ev.invDyn q qdot qdotdot f frame none) ∧ T.wpi (k none) Q (T.next g (Ev.invDyn q qdot qdotdot f frame none))) ∧
      ∀ l : List ℝ, T.ok g (Ev.invDyn q qdot qdotdot f frame (some l)) ∧ T.wpi (k (some l)) Q (T.next g (Ev.invDyn q qdot qdotdot f frame (some l))) :=
  ⟨fun h => ⟨h none, fun l => h (some l)⟩,
    fun h r => by rcases r with _ | l; exacts [h.1, h.2 l]⟩

theorem gi_restoreOriginalChain {k : Bool → P α} :
    T.wpi (Prog.bind Dev.restoreOriginalChain k) Q g ↔ ∀ b : Bool, T.ok g (Ev.restoreOriginalChain b) ∧ T.wpi (k b) Q (T.next g (Ev.restoreOriginalChain b)) := Iff.rfl

theorem gi_appendLink (x : List ℝ) {k : Bool → P α} :
    T.wpi (Prog.bind (Dev.appendLink x) k) Q g ↔ ∀ b : Bool, T.ok g (Ev.appendLink x b) ∧ T.wpi (k b) Q (T.next g (Ev.appendLink x b)) := Iff.rfl

theorem gi_now {k : ℝ → P α} :
    T.wpi (Prog.bind Dev.now k) Q g ↔ ∀ b : ℝ, T.ok g (Ev.now b) ∧ T.wpi (k b) Q (T.next g (Ev.now b)) := Iff.rfl

theorem gi_delay (t : ℝ) {k : Unit → P α} :
    T.wpi (Prog.bind (Dev.delay t) k) Q g ↔ ∀ b : Unit, T.ok g (Ev.delay t b) ∧ T.wpi (k b) Q (T.next g (Ev.delay t b)) := Iff.rfl

theorem gi_setPeriod (t : ℝ) {k : Bool → P α} :
    T.wpi (Prog.bind (Dev.setPeriod t) k) Q g ↔ ∀ b : Bool, T.ok g (Ev.setPeriod t b) ∧ T.wpi (k b) Q (T.next g (Ev.setPeriod t b)) := Iff.rfl

/-- The rules together. -/
macro "gi_simp" : tactic => `(tactic| simp only [gi_getEncoders, gi_getEncoderSpeeds, gi_getEncoderAccelerations, gi_getControlModes, gi_setControlModes, gi_getRefSpeeds, gi_setRefSpeeds, gi_positionMove, gi_checkMotionDone, gi_stop, gi_setPositions, gi_velocityMove, gi_setRefTorques, gi_fwdKin, gi_invKin, gi_diffInvKin, gi_poseDiff, gi_changeOrigin, gi_invDynStatic, gi_invDyn, gi_restoreOriginalChain, gi_appendLink, gi_now, gi_delay, gi_setPeriod,
  Prog.bind_eq, Prog.pure_eq, Prog.pure_bind', Prog.ub_bind, Prog.read_bind, Prog.modify_bind,
  Prog.get_bind, Prog.set_bind, Prog.lift_some, Prog.lift_none, gi_lift, gi_ite, bind_ite,
  Prog.bind_assoc, Ghost.wpi, implies_true, and_true, true_and])

end KD.Ctrl
