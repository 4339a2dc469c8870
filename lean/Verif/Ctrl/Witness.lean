import Verif.Ctrl.History

/-!
# Building runs
-/

namespace KD.Ctrl

open Prog (can can_bind can_run can_mono Run)

variable {cfg : Cfg} {α : Type} {Q : Out α → Ctl → List Ev → Prop} {s : Ctl} {tr : List Ev}

theorem jointsNotIn_eq_nil {mode : Mode} {l : List Mode} (h : ∀ m ∈ l, m = mode) :
    jointsNotIn mode l = [] := by
  unfold jointsNotIn
  rw [List.filter_eq_nil_iff]
  intro i hi
  have hi' := List.mem_range.mp hi
  simp [List.getElem?_eq_getElem hi', h _ (List.getElem_mem hi')]

theorem can_checkModes {mode : Mode} {k : Bool → P α} (l : List Mode)
    (hl : l.length = cfg.numJoints)
    (h : can (robot cfg) (k (l.all (· = mode))) Q s (tr ++ [.getControlModes (some l)])) :
    can (robot cfg) (Prog.bind (checkControlModes mode) k) Q s tr := by
  unfold checkControlModes
  can_simp
  exact ⟨some l, fun l' e => by rw [← Option.some.inj e]; exact hl, h⟩

/-- All joints are in the wanted mode already. -/
theorem can_setModes' {mode : Mode} {k : Bool → P α} (l : List Mode) (hl : l.length = cfg.numJoints)
    (hm : ∀ m ∈ l, m = mode)
    (h : can (robot cfg) (k true) Q s (tr ++
      [.getControlModes (some l), .delay (1 / 10) (), .getControlModes (some l)])) :
    can (robot cfg) (Prog.bind (setControlModes mode) k) Q s tr := by
  have hall : l.all (· = mode) = true := by simpa using hm
  unfold setControlModes
  can_simp
  refine ⟨some l, fun l' e => by rw [← Option.some.inj e]; exact hl, ?_⟩
  dsimp only
  rw [jointsNotIn_eq_nil hm, if_pos rfl, retryModes]
  can_simp
  refine ⟨(), can_checkModes l hl ?_⟩
  rw [hall]
  can_simp
  simpa using h

/-- No answer about the modes. -/
theorem can_setModes_none {mode : Mode} {k : Bool → P α}
    (h : can (robot cfg) (k false) Q s (tr ++ [.getControlModes none])) :
    can (robot cfg) (Prog.bind (setControlModes mode) k) Q s tr := by
  unfold setControlModes
  can_simp
  exact ⟨none, by simp, h⟩

theorem can_stop' {k : Bool → P α}
    (h : can (robot cfg) (k true) Q s.stopped (tr ++ [.getControlModes none, .stop true])) :
    can (robot cfg) (Prog.bind stopControl k) Q s tr := by
  unfold stopControl setCurrentState
  can_simp
  refine can_setModes_none ?_
  can_simp
  refine ⟨true, ?_⟩
  rw [List.append_assoc]
  exact h

theorem some_length {n : ℕ} {β : Type} {l : List β} (h : l.length = n) :
    ∀ l', some l = some l' → l'.length = n := fun l' e => by rw [← Option.some.inj e]; exact h

/-- A cycle whose encoder reads succeed, within the limits. -/
theorem can_cycle {Q : Out Unit → Ctl → List Ev → Prop} (q v a : List ℝ)
    (hst : s.state ≠ .notControlling) (hq : q.length = cfg.numJoints) (hv : v.length = cfg.numJoints)
    (ha : a.length = cfg.numJoints) (hl : InLimits cfg q)
    (h : can (robot cfg) (dispatch cfg s.state q v a)
      (fun o s' tr => o = .ok true ∧ Q (.ok ()) s' tr) { s with encoderErrors := 0 }
      (tr ++ goodRead q v a)) :
    can (robot cfg) (run cfg) Q s tr := by
  unfold run getCurrentState runBody readEncoders
  can_simp
  refine Or.inr ⟨hst, some q, some_length hq, ?_⟩
  can_simp
  refine ⟨some v, some_length hv, ?_⟩
  can_simp
  refine ⟨some a, some_length ha, ?_⟩
  can_simp
  refine Or.inr ⟨true, (checkJointLimits_iff _ _).mpr hl, Or.inl ⟨rfl, ?_⟩⟩
  rw [can_bind]
  refine can_mono ?_ (by simpa [goodRead] using h)
  rintro o s' tr' ⟨rfl, hq⟩
  simp only [Prog.Out.andThen, if_true]
  exact hq

/-- A cycle whose handler fails. -/
theorem can_cycle_fails {Q : Out Unit → Ctl → List Ev → Prop} (q v a : List ℝ)
    (hst : s.state ≠ .notControlling) (hq : q.length = cfg.numJoints) (hv : v.length = cfg.numJoints)
    (ha : a.length = cfg.numJoints) (hl : InLimits cfg q)
    (h : can (robot cfg) (dispatch cfg s.state q v a)
      (fun o s' tr => o = .ok false ∧ Q (.ok ()) (Ctl.stopped { s' with cmcSuccess := false })
        (tr ++ [.getControlModes none, .stop true])) { s with encoderErrors := 0 }
      (tr ++ goodRead q v a)) :
    can (robot cfg) (run cfg) Q s tr := by
  unfold run getCurrentState runBody readEncoders
  can_simp
  refine Or.inr ⟨hst, some q, some_length hq, ?_⟩
  can_simp
  refine ⟨some v, some_length hv, ?_⟩
  can_simp
  refine ⟨some a, some_length ha, ?_⟩
  can_simp
  refine Or.inr ⟨true, (checkJointLimits_iff _ _).mpr hl, Or.inl ⟨rfl, ?_⟩⟩
  rw [can_bind]
  refine can_mono ?_ (by simpa [goodRead] using h)
  rintro o s' tr' ⟨rfl, hq⟩
  can_simp
  refine Or.inr ⟨by simp, can_stop' ?_⟩
  can_simp
  exact hq

/-- A cycle whose first encoder read fails. -/
theorem can_cycle_unread {Q : Out Unit → Ctl → List Ev → Prop} (hst : s.state ≠ .notControlling)
    (h : s.encoderErrors + 1 ≤ maxEncoderErrors →
      Q (.ok ()) { s with encoderErrors := s.encoderErrors + 1 } (tr ++ [.getEncoders none]))
    (h' : maxEncoderErrors < s.encoderErrors + 1 →
      Q (.ok ()) (Ctl.stopped { s with encoderErrors := s.encoderErrors + 1, cmcSuccess := false })
        (tr ++ [.getEncoders none, .getControlModes none, .stop true])) :
    can (robot cfg) (run cfg) Q s tr := by
  unfold run getCurrentState runBody readEncoders
  can_simp
  refine Or.inr ⟨hst, none, by simp, ?_⟩
  can_simp
  by_cases hn : s.encoderErrors + 1 ≤ maxEncoderErrors
  · exact Or.inl ⟨by simpa using hn, h hn⟩
  · refine Or.inr ⟨by simpa using hn, can_stop' ?_⟩
    can_simp
    simpa using h' (by omega)

end KD.Ctrl
