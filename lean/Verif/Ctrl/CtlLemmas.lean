import Verif.Ctrl.Calls

/-!
# Facts about the building blocks of the controller
-/

namespace KD.Ctrl

open scoped Classical
open Prog (wp wp_bind wp_of_run wp_sound Run)

/-- A complete run of a controller program with answers the joint devices can give. -/
abbrev Exec (cfg : Cfg) {α : Type} (p : P α) (s : Ctl) (tr : List Ev) (o : Out α) (s' : Ctl) : Prop :=
  Run (robot cfg) p s tr o s'

/-! ## Checks -/

theorem forJoints_iff (f : ℕ → Option Bool) (j k : ℕ) :
    forJoints f j k = some true ↔ ∀ i < k, f (j + i) = some true := by
  induction k generalizing j with
  | zero => simp [forJoints]
  | succ k ih =>
    rw [forJoints]
    constructor
    · intro h i hi
      rcases hf : f j with _ | (_ | _) <;> rw [hf] at h <;> try simp at h
      rcases i with _ | i
      · simpa using hf
      · have := (ih (j + 1)).mp h i (by omega)
        rwa [show j + (i + 1) = j + 1 + i by omega]
    · intro h
      have h0 := h 0 (by omega)
      simp only [Nat.add_zero] at h0
      rw [h0]
      exact (ih (j + 1)).mpr fun i hi => by
        have := h (i + 1) (by omega)
        rwa [show j + (i + 1) = j + 1 + i by omega] at this

/-- Undefined only if one of the tests is. -/
theorem forJoints_none (f : ℕ → Option Bool) (j k : ℕ) (h : forJoints f j k = none) :
    ∃ i < k, f (j + i) = none := by
  induction k generalizing j with
  | zero => simp [forJoints] at h
  | succ k ih =>
    rw [forJoints] at h
    rcases hf : f j with _ | (_ | _) <;> rw [hf] at h
    · exact ⟨0, by omega, hf⟩
    · simp at h
    · obtain ⟨i, hi, e⟩ := ih (j + 1) h
      exact ⟨i + 1, by omega, by rwa [show j + (i + 1) = j + 1 + i by omega]⟩

/-- Every joint is inside its range by more than nothing: the range minus the tolerance. -/
def InLimits (cfg : Cfg) (q : List ℝ) : Prop :=
  ∀ j < cfg.numJoints, ∃ v lo hi, q[j]? = some v ∧ cfg.qMin[j]? = some lo ∧ cfg.qMax[j]? = some hi ∧
    lo + tol ≤ v ∧ v ≤ hi - tol

/-- Every joint speed is within the limits of the joint. -/
def InVelLimits (cfg : Cfg) (qdot : List ℝ) : Prop :=
  ∀ j < cfg.numJoints, ∃ v lo hi, qdot[j]? = some v ∧ cfg.qdotMin[j]? = some lo ∧
    cfg.qdotMax[j]? = some hi ∧ (lo = 0 → |v| ≤ hi) ∧ (lo ≠ 0 → lo ≤ v ∧ v ≤ hi)

theorem checkJointLimits_iff (cfg : Cfg) (q : List ℝ) :
    checkJointLimits cfg q = some true ↔ InLimits cfg q := by
  unfold checkJointLimits InLimits
  rw [forJoints_iff]
  refine forall₂_congr fun j hj => ?_
  simp only [Nat.zero_add]
  rcases q[j]? with _ | v <;> rcases cfg.qMin[j]? with _ | lo <;> rcases cfg.qMax[j]? with _ | hi <;>
    simp

theorem checkJointVelocities_iff (cfg : Cfg) (qdot : List ℝ) :
    checkJointVelocities cfg qdot = some true ↔ InVelLimits cfg qdot := by
  unfold checkJointVelocities InVelLimits
  rw [forJoints_iff]
  refine forall₂_congr fun j hj => ?_
  simp only [Nat.zero_add]
  rcases qdot[j]? with _ | v <;> rcases cfg.qdotMin[j]? with _ | lo <;>
    rcases cfg.qdotMax[j]? with _ | hi <;> simp
  by_cases h0 : lo = 0
  · simp only [h0, if_true, true_implies, not_true, false_implies, and_true]
    split <;> grind
  · simp only [h0, if_false, false_implies, not_false_iff, true_implies, true_and]
    split <;> grind

/-- Every joint is inside its range, or near a limit and does not move towards the side it is on. -/
def LimitsOrAway (cfg : Cfg) (q qdot : List ℝ) : Prop :=
  ∀ j < cfg.numJoints, ∃ v lo hi, q[j]? = some v ∧ cfg.qMin[j]? = some lo ∧ cfg.qMax[j]? = some hi ∧
    ((lo + tol ≤ v ∧ v ≤ hi - tol) ∨ ∃ w, qdot[j]? = some w ∧ sgn (v - (hi + lo) / 2) ≠ sgn w)

theorem checkJointLimitsDir_iff (cfg : Cfg) (q qdot : List ℝ) :
    checkJointLimitsDir cfg q qdot = some true ↔ LimitsOrAway cfg q qdot := by
  unfold checkJointLimitsDir LimitsOrAway
  rw [forJoints_iff]
  refine forall₂_congr fun j hj => ?_
  simp only [Nat.zero_add]
  rcases q[j]? with _ | v <;> rcases cfg.qMin[j]? with _ | lo <;> rcases cfg.qMax[j]? with _ | hi <;>
    simp
  rcases qdot[j]? with _ | w
  · simp
  · simp; grind

theorem sgn_of_neg {v : ℝ} (h : v < 0) : sgn v = -1 := by
  simp [sgn, h, not_lt.mpr h.le]

theorem sgn_of_pos {v : ℝ} (h : 0 < v) : sgn v = 1 := by
  simp [sgn, h, not_lt.mpr h.le]

@[simp] theorem sgn_zero : sgn 0 = 0 := by simp [sgn]

/-! ## Control modes -/

/-- Calls that only deal with control modes, or wait. -/
def ModeCall : Ev → Prop
  | .getControlModes _ => True
  | .setControlModes _ _ _ => True
  | .delay _ _ => True
  | _ => False

/-- The last thing heard about control modes is that every joint is in `mode`. -/
def EndsInMode (mode : Mode) (tr : List Ev) : Prop :=
  ∃ (pre : List Ev) (modes : List Mode), (∀ m ∈ modes, m = mode) ∧
    tr = pre ++ [.getControlModes (some modes)]

theorem wp_checkControlModes {cfg : Cfg} {mode : Mode} {α : Type} {k : Bool → P α}
    {Q : Out α → Ctl → List Ev → Prop} {s : Ctl} {tr : List Ev} :
    wp (robot cfg) (Prog.bind (checkControlModes mode) k) Q s tr ↔
      wp (robot cfg) (k false) Q s (tr ++ [Ev.getControlModes none]) ∧
      ∀ modes : List Mode, modes.length = cfg.numJoints →
        wp (robot cfg) (k (modes.all (· = mode))) Q s (tr ++ [Ev.getControlModes (some modes)]) := by
  rw [checkControlModes]
  dev_simp

theorem run_retryModes {cfg : Cfg} {mode : Mode} {n : ℕ} {s s' : Ctl} {tr : List Ev} {o : Out Bool}
    (h : Exec cfg (retryModes mode n) s tr o s') :
    ∃ b, o = .ok b ∧ s' = s ∧ (∀ e ∈ tr, ModeCall e) ∧ (b = true → EndsInMode mode tr) := by
  refine wp_sound (Q := fun o s' tr => ∃ b, o = .ok b ∧ s' = s ∧ (∀ e ∈ tr, ModeCall e) ∧
    (b = true → EndsInMode mode tr)) ?_ h
  clear h
  suffices H : ∀ tr0 : List Ev, (∀ e ∈ tr0, ModeCall e) →
      wp (robot cfg) (retryModes mode n) (fun o s' tr => ∃ b, o = .ok b ∧ s' = s ∧
        (∀ e ∈ tr, ModeCall e) ∧ (b = true → EndsInMode mode tr)) s tr0 from H [] (by simp)
  induction n with
  | zero => intro tr0 h0; exact ⟨false, rfl, rfl, h0, by simp⟩
  | succ n ih =>
    intro tr0 h0
    rw [retryModes]
    dev_simp
    intro _
    rw [wp_checkControlModes]
    refine ⟨ih _ ?_, fun modes _ => ?_⟩
    · simpa [or_imp, forall_and, ModeCall] using h0
    · have h2 : ∀ e ∈ tr0 ++ [Ev.delay (1 / 10) ()] ++ [Ev.getControlModes (some modes)],
          ModeCall e := by
        simpa [or_imp, forall_and, ModeCall] using h0
      by_cases hm : modes.all (· = mode) = true
      · rw [if_pos hm]
        exact ⟨true, rfl, rfl, h2, fun _ => ⟨_, modes, by simpa using hm, rfl⟩⟩
      · rw [if_neg hm]
        exact ih _ h2

theorem run_setControlModes {cfg : Cfg} {mode : Mode} {s s' : Ctl} {tr : List Ev} {o : Out Bool}
    (h : Exec cfg (setControlModes mode) s tr o s') :
    ∃ b, o = .ok b ∧ s' = s ∧ (∀ e ∈ tr, ModeCall e) ∧ (b = true → EndsInMode mode tr) := by
  refine wp_sound (Q := fun o s' tr => ∃ b, o = .ok b ∧ s' = s ∧ (∀ e ∈ tr, ModeCall e) ∧
    (b = true → EndsInMode mode tr)) ?_ h
  clear h
  have key : ∀ tr0 : List Ev, (∀ e ∈ tr0, ModeCall e) →
      wp (robot cfg) (retryModes mode 11) (fun o s' tr => ∃ b, o = .ok b ∧ s' = s ∧
        (∀ e ∈ tr, ModeCall e) ∧ (b = true → EndsInMode mode tr)) s tr0 := by
    intro tr0 h0
    refine wp_of_run fun tr o s' hr => ?_
    obtain ⟨b, rfl, rfl, hm, he⟩ := run_retryModes hr
    refine ⟨b, rfl, rfl, ?_, ?_⟩
    · intro e he
      rcases List.mem_append.mp he with he | he
      · exact h0 e he
      · exact hm e he
    · intro hb
      obtain ⟨pre, modes, h1, rfl⟩ := he hb
      exact ⟨tr0 ++ pre, modes, h1, by simp⟩
  rw [setControlModes]
  dev_simp
  refine ⟨⟨false, by simp [ModeCall]⟩, fun modes _ => ?_⟩
  refine ⟨fun _ => key _ (by simp [ModeCall]), fun _ b => ⟨fun _ => key _ (by simp [ModeCall]),
    fun _ => ⟨false, by simp [ModeCall]⟩⟩⟩

/-- Rule for a use of `setControlModes` inside a program. -/
theorem wp_setModes {cfg : Cfg} {mode : Mode} {α : Type} {k : Bool → P α}
    {Q : Out α → Ctl → List Ev → Prop} {s : Ctl} {tr : List Ev}
    (h : ∀ b es, (∀ e ∈ es, ModeCall e) → (b = true → EndsInMode mode es) →
      wp (robot cfg) (k b) Q s (tr ++ es)) :
    wp (robot cfg) (Prog.bind (setControlModes mode) k) Q s tr := by
  rw [wp_bind]
  refine wp_of_run fun es o s' hr => ?_
  obtain ⟨b, rfl, rfl, hm, he⟩ := run_setControlModes hr
  exact h b es hm he

/-- The object after `stopControl`. -/
def Ctl.stopped (s : Ctl) : Ctl :=
  { s with state := .notControlling, streaming := vocabNotSet, trajectories := [] }

/-- What `stopControl` does: tells the robot to go to position mode and to stop. -/
theorem wp_stop' {cfg : Cfg} {α : Type} {k : Bool → P α} {Q : Out α → Ctl → List Ev → Prop} {s : Ctl}
    {tr : List Ev}
    (h : ∀ (es : List Ev) (r : Bool), (∀ e ∈ es, ModeCall e) →
      wp (robot cfg) (k true) Q s.stopped (tr ++ (es ++ [Ev.stop r]))) :
    wp (robot cfg) (Prog.bind stopControl k) Q s tr := by
  rw [stopControl, wp_bind]
  unfold setCurrentState
  dev_simp
  refine wp_setModes fun b es hm _ => ?_
  dev_simp
  intro r
  rw [List.append_assoc]
  exact h es r hm

end KD.Ctrl
