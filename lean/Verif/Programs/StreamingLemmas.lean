import Verif.Programs.Streaming

/-!
# Lemmas on the streaming device controller
-/

namespace KD.Sdc

open scoped Classical

/-- What follows the decision about the proximity sensors. -/
noncomputable def proceed (c : Ctl) (y : Cycle) (d : Device) (s : ℝ) : Option (Ctl × List Ev) :=
  match d.actuator.1.transform s with
  | none => none
  | some d' =>
    let r := applyCentroid c.centroid y d'
    (finish { c with device := r.2, centroid := r.1 } y.now).map fun z => (z.1, actEvents d.actuator.2 ++ z.2)

theorem update_none {c : Ctl} {y : Cycle} (h : c.device.acquire y.sensor = none) :
    update c y = some (c, []) := by
  unfold update; rw [h]

theorem update_high {c : Ctl} {y : Cycle} {d : Device} (h : c.device.acquire y.sensor = some d)
    (ha : alert c.proximity y.proximity = .high) :
    update c y =
      some ({ c with device := d, isStopped := true }, if !c.isStopped then [.stop d.stop] else []) := by
  unfold update; rw [h]; simp only [ha]

theorem update_low {c : Ctl} {y : Cycle} {d : Device} (h : c.device.acquire y.sensor = some d)
    (ha : alert c.proximity y.proximity = .low) : update c y = proceed c y d (c.scaling * 2) := by
  unfold update; rw [h]; simp only [ha]; rfl

theorem update_clear {c : Ctl} {y : Cycle} {d : Device} (h : c.device.acquire y.sensor = some d)
    (ha : alert c.proximity y.proximity = .clear) : update c y = proceed c y d c.scaling := by
  unfold update; rw [h]; simp only [ha]; rfl

/-- The three ways a cycle can go. -/
theorem update_cases {c c' : Ctl} {y : Cycle} {e : List Ev} (h : update c y = some (c', e)) :
    (c.device.acquire y.sensor = none ∧ c' = c ∧ e = []) ∨
    (∃ d, c.device.acquire y.sensor = some d ∧
      ((alert c.proximity y.proximity = .high ∧ c' = { c with device := d, isStopped := true } ∧
          e = if !c.isStopped then [.stop d.stop] else []) ∨
       (alert c.proximity y.proximity ≠ .high ∧
          ∃ s, (s = c.scaling ∨ s = c.scaling * 2) ∧ proceed c y d s = some (c', e)))) := by
  cases hd : c.device.acquire y.sensor with
  | none =>
    rw [update_none hd] at h
    simp only [Option.some.injEq, Prod.mk.injEq] at h
    exact Or.inl ⟨rfl, h.1.symm, h.2.symm⟩
  | some d =>
    refine Or.inr ⟨d, rfl, ?_⟩
    cases ha : alert c.proximity y.proximity with
    | high =>
      rw [update_high hd ha] at h
      simp only [Option.some.injEq, Prod.mk.injEq] at h
      exact Or.inl ⟨rfl, h.1.symm, h.2.symm⟩
    | low => exact Or.inr ⟨Alert.noConfusion, _, Or.inr rfl, by rwa [update_low hd ha] at h⟩
    | clear => exact Or.inr ⟨Alert.noConfusion, _, Or.inl rfl, by rwa [update_clear hd ha] at h⟩

/-- The end of a cycle. -/
theorem finish_cases {c c' : Ctl} {t : ℝ} {e : List Ev} (h : finish c t = some (c', e)) :
    (c.device.valid = true ∧ ∃ d m, c.device.send t = some (d, m) ∧
      c' = { c with device := d, isStopped := false } ∧ e = [.move m]) ∨
    (c.device.valid = false ∧ c' = { c with isStopped := true } ∧
      e = if !c.isStopped then [.stop c.device.stop] else []) := by
  unfold finish at h
  cases hv : c.device.valid with
  | true =>
    rw [hv, if_pos rfl] at h
    obtain ⟨r, hr, h⟩ := Option.map_eq_some_iff.1 h
    simp only [Prod.mk.injEq] at h
    exact Or.inl ⟨rfl, r.1, r.2, hr, h.1.symm, h.2.symm⟩
  | false =>
    rw [hv, if_neg (by simp)] at h
    simp only [Option.some.injEq, Prod.mk.injEq] at h
    exact Or.inr ⟨rfl, h.1.symm, h.2.symm⟩

/-- What follows the decision, unfolded. -/
theorem proceed_cases {c c' : Ctl} {y : Cycle} {d : Device} {s : ℝ} {e : List Ev}
    (h : proceed c y d s = some (c', e)) :
    ∃ d' e', d.actuator.1.transform s = some d' ∧
      finish { c with device := (applyCentroid c.centroid y d').2,
                      centroid := (applyCentroid c.centroid y d').1 } y.now = some (c', e') ∧
      e = actEvents d.actuator.2 ++ e' := by
  unfold proceed at h
  cases hd : d.actuator.1.transform s with
  | none => rw [hd] at h; simp at h
  | some d' =>
    rw [hd] at h
    obtain ⟨r, hr, h⟩ := Option.map_eq_some_iff.1 h
    simp only [Prod.mk.injEq] at h
    exact ⟨d', r.2, rfl, by rw [hr, ← h.1], h.2.symm⟩

/-- A run is a first cycle and the rest. -/
theorem run_cons {c c' : Ctl} {y : Cycle} {l : List Cycle} {es : List (List Ev)}
    (h : run c (y :: l) = some (c', es)) :
    ∃ c1 e es', update c y = some (c1, e) ∧ run c1 l = some (c', es') ∧ es = e :: es' := by
  unfold run at h
  cases hu : update c y with
  | none => rw [hu] at h; simp at h
  | some r =>
    obtain ⟨c1, e⟩ := r
    rw [hu] at h
    obtain ⟨r, hr, h⟩ := Option.map_eq_some_iff.1 h
    simp only [Prod.mk.injEq] at h
    exact ⟨c1, e, r.2, rfl, by rw [hr, ← h.1], h.2.symm⟩

/-! ## The state of the gripper -/

/-- The gripper state a device remembers. -/
def Device.grip : Device → Grip
  | .spnav d => d.grip
  | .leap d => d.grip
  | .wiimote _ => .none

theorem Device.acquire_grip {d d' : Device} {l : List ℝ} (h : d.acquire l = some d') : d'.grip = d.grip := by
  cases d with
  | spnav d =>
    obtain ⟨a, ha, rfl⟩ := Option.map_eq_some_iff.1 h
    unfold Spnav.acquire at ha
    split at ha <;> cases ha <;> rfl
  | leap d =>
    obtain ⟨a, ha, rfl⟩ := Option.map_eq_some_iff.1 h
    unfold Leap.acquire at ha
    split at ha <;> cases ha <;> rfl
  | wiimote d =>
    obtain ⟨a, ha, rfl⟩ := Option.map_eq_some_iff.1 h
    rfl

theorem Spnav.transform_eq {d d' : Spnav} {s : ℝ} (h : d.transform s = some d') :
    d' = { d with data := d'.data } := by
  unfold Spnav.transform at h
  split_ifs at h
  · cases h; rfl
  · obtain ⟨x, -, rfl⟩ := Option.map_eq_some_iff.1 h; rfl

theorem Device.transform_grip {d d' : Device} {s : ℝ} (h : d.transform s = some d') : d'.grip = d.grip := by
  cases d with
  | spnav d =>
    obtain ⟨a, ha, rfl⟩ := Option.map_eq_some_iff.1 h
    rw [Spnav.transform_eq ha]; rfl
  | leap d =>
    obtain ⟨a, ha, rfl⟩ := Option.map_eq_some_iff.1 h
    unfold Leap.transform at ha
    split_ifs at ha <;> (cases ha; rfl)
  | wiimote d =>
    obtain ⟨a, ha, rfl⟩ := Option.map_eq_some_iff.1 h
    rfl

theorem applyCentroid_grip (c : Option Centroid) (y : Cycle) (d : Device) :
    (applyCentroid c y d).2.grip = d.grip := by
  unfold applyCentroid
  split
  · simp only
    split_ifs
    · split <;> rfl
    · rfl
  · rfl

theorem Device.send_grip {d d' : Device} {t : ℝ} {m : List Cmd} (h : d.send t = some (d', m)) :
    d'.grip = d.grip := by
  cases d with
  | spnav d =>
    simp only [Device.send, Option.some.injEq, Prod.mk.injEq] at h
    rw [← h.1]
    unfold Spnav.send
    split_ifs <;> rfl
  | leap d =>
    obtain ⟨r, hr, h⟩ := Option.map_eq_some_iff.1 h
    simp only [Prod.mk.injEq] at h
    rw [← h.1]
    unfold Leap.send at hr
    simp only at hr
    split_ifs at hr <;> cases hr <;> rfl
  | wiimote d =>
    simp only [Device.send, Option.some.injEq, Prod.mk.injEq] at h
    rw [← h.1]

/-- The gripper commands among the events of a cycle. -/
def acts (e : List Ev) : List Grip := e.filterMap fun
  | .act g => some g
  | _ => none

theorem acts_append (a b : List Ev) : acts (a ++ b) = acts a ++ acts b := List.filterMap_append

theorem acts_stop (b : Bool) (m : List Cmd) : acts (if b then [.stop m] else []) = [] := by
  cases b <;> rfl

theorem acts_actEvents (g : Grip) : acts (actEvents g) = if g ≠ .none then [g] else [] := by
  cases g <;> rfl

theorem finish_grip {c c' : Ctl} {t : ℝ} {e : List Ev} (h : finish c t = some (c', e)) :
    c'.device.grip = c.device.grip ∧ acts e = [] := by
  rcases finish_cases h with ⟨-, d, m, hs, rfl, rfl⟩ | ⟨-, rfl, rfl⟩
  · exact ⟨Device.send_grip hs, rfl⟩
  · exact ⟨rfl, acts_stop _ _⟩

theorem proceed_grip {c c' : Ctl} {y : Cycle} {d : Device} {s : ℝ} {e : List Ev}
    (h : proceed c y d s = some (c', e)) :
    c'.device.grip = d.actuator.1.grip ∧ acts e = if d.actuator.2 ≠ .none then [d.actuator.2] else [] := by
  obtain ⟨d', e', h1, h2, rfl⟩ := proceed_cases h
  obtain ⟨h3, h4⟩ := finish_grip h2
  rw [acts_append, h4, List.append_nil, acts_actEvents]
  refine ⟨?_, rfl⟩
  rw [h3]
  show (applyCentroid c.centroid y d').2.grip = _
  rw [applyCentroid_grip, Device.transform_grip h1]

end KD.Sdc
