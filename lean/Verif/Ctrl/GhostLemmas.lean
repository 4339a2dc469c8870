import Verif.Ctrl.Threads

/-!
# Phases through the parts of a cycle
-/

namespace KD.Ctrl

open Prog (Writes)

variable {σ : Type} {T : Ghost σ} {α : Type} {Q : α → σ → Prop} {g : σ}

/-- The calls about control modes change nothing in this phase. -/
structure Ghost.FreeModes (T : Ghost σ) (g : σ) : Prop where
  get : ∀ r, T.ok g (.getControlModes r) ∧ T.next g (.getControlModes r) = g
  set : ∀ i m r, T.ok g (.setControlModes i m r) ∧ T.next g (.setControlModes i m r) = g
  delay : ∀ t r, T.ok g (.delay t r) ∧ T.next g (.delay t r) = g

theorem wpi_checkModes (hm : T.FreeModes g) {mode : Mode} {k : Bool → P α} (h : ∀ b, T.wpi (k b) Q g) :
    T.wpi (Prog.bind (checkControlModes mode) k) Q g := by
  unfold checkControlModes
  gi_simp
  simp only [(hm.get _).2]
  exact ⟨⟨(hm.get _).1, h _⟩, fun l => ⟨(hm.get _).1, h _⟩⟩

theorem wpi_retryModes (hm : T.FreeModes g) {mode : Mode} {n : ℕ} {k : Bool → P α}
    (h : ∀ b, T.wpi (k b) Q g) : T.wpi (Prog.bind (retryModes mode n) k) Q g := by
  induction n with
  | zero => exact h false
  | succ n ih =>
    unfold retryModes
    gi_simp
    simp only [(hm.delay _ _).2]
    refine fun _ => ⟨(hm.delay _ _).1, wpi_checkModes hm fun b => ?_⟩
    cases b
    · exact ih
    · exact h true

theorem wpi_setModes (hm : T.FreeModes g) {mode : Mode} {k : Bool → P α} (h : ∀ b, T.wpi (k b) Q g) :
    T.wpi (Prog.bind (setControlModes mode) k) Q g := by
  unfold setControlModes
  gi_simp
  simp only [(hm.get _).2, (hm.set _ _ _).2]
  refine ⟨⟨(hm.get _).1, h _⟩, fun l => ⟨(hm.get _).1, fun _ => wpi_retryModes hm h, fun _ b =>
    ⟨(hm.set _ _ _).1, fun _ => wpi_retryModes hm h, fun _ => h _⟩⟩⟩

theorem wpi_stop {g1 : σ} (hw : T.write g (fun s => { s with state := .notControlling, streaming := vocabNotSet }) g1)
    (hm : T.FreeModes g1) (hs : ∀ r, T.ok g1 (.stop r) ∧ T.next g1 (.stop r) = g1)
    (hc : T.write g1 (fun s => { s with trajectories := [] }) g1) {k : Bool → P α}
    (h : T.wpi (k true) Q g1) :
    T.wpi (Prog.bind stopControl k) Q g := by
  unfold stopControl setCurrentState
  gi_simp
  refine ⟨g1, hw, wpi_setModes hm fun _ => ?_⟩
  gi_simp
  refine fun b => ⟨(hs b).1, g1, ?_, ?_⟩
  · rw [(hs b).2]; exact hc
  · exact h

end KD.Ctrl
