import Verif.Programs.StreamingLemmas

/-!
# C62: gripper commands of the streaming devices
-/

namespace KD.Sdc

open scoped Classical

/-- The device has two buttons for the gripper: the SpaceNavigator and the Leap. -/
def Device.HasButtons : Device → Prop
  | .spnav _ => True
  | .leap _ => True
  | .wiimote _ => False

/-- The reading carries the two buttons in this position. -/
def Buttons (y : Cycle) (close open' : Bool) : Prop :=
  ∃ a b c u v w p q, y.sensor = [a, b, c, u, v, w, p, q] ∧ (p = 1 ↔ close = true) ∧ (q = 1 ↔ open' = true)

/-- The reading has another size than six and eight. -/
def Garbled (y : Cycle) : Prop := y.sensor.length ≠ 6 ∧ y.sensor.length ≠ 8

/-- All gripper commands sent to the controller, in order. -/
def gripperCommands (es : List (List Ev)) : List Grip := es.flatMap acts

theorem Device.acquire_buttons {d : Device} {y : Cycle} {p q : Bool} (hd : d.HasButtons) (h : Buttons y p q) :
    ∃ d', d.acquire y.sensor = some d' ∧ d'.HasButtons ∧
      d'.actuator.1.HasButtons ∧ d'.actuator.1.grip = nextGrip p q d.grip ∧
      d'.actuator.2 = nextGrip p q d.grip := by
  obtain ⟨a, b, c, u, v, w, p', q', hs, hp, hq⟩ := h
  have hp' : decide (p' = 1) = p := by cases p <;> simp_all
  have hq' : decide (q' = 1) = q := by cases q <;> simp_all
  rw [hs]
  cases d with
  | spnav d => exact ⟨_, rfl, trivial, trivial, by simp only [← hp', ← hq']; rfl, by simp only [← hp', ← hq']; rfl⟩
  | leap d => exact ⟨_, rfl, trivial, trivial, by simp only [← hp', ← hq']; rfl, by simp only [← hp', ← hq']; rfl⟩
  | wiimote d => exact hd.elim

theorem Device.acquire_garbled {d : Device} {y : Cycle} (hd : d.HasButtons) (h : Garbled y) :
    d.acquire y.sensor = none := by
  obtain ⟨h6, h8⟩ := h
  cases d with
  | spnav d =>
    simp only [Device.acquire, Option.map_eq_none_iff]
    unfold Spnav.acquire
    split <;> simp_all
  | leap d =>
    simp only [Device.acquire, Option.map_eq_none_iff]
    unfold Leap.acquire
    split <;> simp_all
  | wiimote d => exact hd.elim

theorem Device.transform_buttons {d d' : Device} {s : ℝ} (h : d.transform s = some d') (hd : d.HasButtons) :
    d'.HasButtons := by
  cases d with
  | spnav d => obtain ⟨a, ha, rfl⟩ := Option.map_eq_some_iff.1 h; trivial
  | leap d => obtain ⟨a, ha, rfl⟩ := Option.map_eq_some_iff.1 h; trivial
  | wiimote d => exact hd.elim

theorem applyCentroid_buttons {c : Option Centroid} {y : Cycle} {d : Device} (hd : d.HasButtons) :
    (applyCentroid c y d).2.HasButtons := by
  unfold applyCentroid
  split
  · simp only
    split_ifs
    · split <;> trivial
    · trivial
  · exact hd

theorem Device.send_buttons {d d' : Device} {t : ℝ} {m : List Cmd} (h : d.send t = some (d', m))
    (hd : d.HasButtons) : d'.HasButtons := by
  cases d with
  | spnav d => simp only [Device.send, Option.some.injEq, Prod.mk.injEq] at h; rw [← h.1]; trivial
  | leap d =>
    obtain ⟨r, hr, h⟩ := Option.map_eq_some_iff.1 h
    simp only [Prod.mk.injEq] at h
    rw [← h.1]; trivial
  | wiimote d => exact hd.elim

/-- The thresholds never change. -/
theorem update_proximity {c c' : Ctl} {y : Cycle} {e : List Ev} (h : update c y = some (c', e)) :
    c'.proximity = c.proximity := by
  rcases update_cases h with ⟨-, rfl, -⟩ | ⟨d, -, ⟨-, rfl, -⟩ | ⟨-, s, -, hp⟩⟩
  · rfl
  · rfl
  · obtain ⟨d', e', -, h2, -⟩ := proceed_cases hp
    rcases finish_cases h2 with ⟨-, d, m, -, rfl, -⟩ | ⟨-, rfl, -⟩ <;> rfl

/-- One cycle that is attended: the buttons are read and no obstacle is near. -/
theorem attended_step {c c' : Ctl} {y : Cycle} {e : List Ev} {p q : Bool} (hd : c.device.HasButtons)
    (hy : Buttons y p q) (ha : alert c.proximity y.proximity ≠ .high) (h : update c y = some (c', e)) :
    c'.device.HasButtons ∧ c'.device.grip = nextGrip p q c.device.grip ∧
    acts e = if nextGrip p q c.device.grip ≠ .none then [nextGrip p q c.device.grip] else [] := by
  obtain ⟨d, k1, -, k3, k4, k5⟩ := Device.acquire_buttons hd hy
  rcases update_cases h with ⟨h1, -, -⟩ | ⟨d', h1, ⟨h2, -, -⟩ | ⟨-, s, -, hp⟩⟩
  · rw [k1] at h1; simp at h1
  · exact absurd h2 ha
  · rw [k1] at h1
    cases h1
    obtain ⟨g1, g2⟩ := proceed_grip hp
    rw [k4] at g1
    rw [k5] at g2
    refine ⟨?_, g1, g2⟩
    obtain ⟨d', e', h1, h2, -⟩ := proceed_cases hp
    have h3 := applyCentroid_buttons (c := c.centroid) (y := y) (Device.transform_buttons h1 k3)
    rcases finish_cases h2 with ⟨-, d'', m, hs, rfl, -⟩ | ⟨-, rfl, -⟩
    · exact Device.send_buttons hs h3
    · exact h3

/-- One cycle that is not attended: the reading is garbled, or an obstacle is near. -/
theorem skipped_step {c c' : Ctl} {y : Cycle} {e : List Ev} (hd : c.device.HasButtons)
    (ha : Garbled y ∨ ((∃ p q, Buttons y p q) ∧ alert c.proximity y.proximity = .high))
    (h : update c y = some (c', e)) :
    c'.device.HasButtons ∧ c'.device.grip = c.device.grip ∧ acts e = [] := by
  rcases ha with ha | ⟨⟨p, q, hb⟩, ha⟩
  · rw [update_none (Device.acquire_garbled hd ha)] at h
    cases h
    exact ⟨hd, rfl, rfl⟩
  · obtain ⟨d, k1, k2, -⟩ := Device.acquire_buttons hd hb
    rw [update_high k1 ha] at h
    cases h
    exact ⟨k2, Device.acquire_grip k1, acts_stop _ _⟩

/-- An attended cycle: no obstacle is near as far as the proximity message tells, and the reading is not
garbled. -/
def Attended (c : Ctl) (y : Cycle) : Prop := ¬ Garbled y ∧ alert c.proximity y.proximity ≠ .high

/-- Cycles without a pressed button: after a stop, or when nothing was pressed, none is commanded. -/
theorem released_quiet {l : List Cycle} : ∀ {c c' : Ctl} {es : List (List Ev)}, c.device.HasButtons →
    (c.device.grip = .none ∨ c.device.grip = .stop) →
    (∀ y ∈ l, Garbled y ∨ Buttons y false false) →
    run c l = some (c', es) → gripperCommands es = [] := by
  induction l with
  | nil =>
    intro c c' es _ _ _ h
    cases h; rfl
  | cons y l ih =>
    intro c c' es hd hg hl h
    obtain ⟨c1, e, es', h1, h2, rfl⟩ := run_cons h
    have hl' : ∀ y ∈ l, Garbled y ∨ Buttons y false false := fun z hz => hl z (List.mem_cons_of_mem _ hz)
    have key : c1.device.HasButtons ∧ (c1.device.grip = .none ∨ c1.device.grip = .stop) ∧ acts e = [] := by
      rcases hl y List.mem_cons_self with hy | hy
      · obtain ⟨k1, k2, k3⟩ := skipped_step hd (Or.inl hy) h1
        exact ⟨k1, k2 ▸ hg, k3⟩
      · by_cases ha : alert c.proximity y.proximity = .high
        · obtain ⟨k1, k2, k3⟩ := skipped_step hd (Or.inr ⟨⟨_, _, hy⟩, ha⟩) h1
          exact ⟨k1, k2 ▸ hg, k3⟩
        · obtain ⟨k1, k2, k3⟩ := attended_step hd hy ha h1
          rcases hg with hg | hg <;> rw [hg] at k2 k3 <;> exact ⟨k1, Or.inl k2, k3⟩
    show acts e ++ gripperCommands es' = []
    rw [key.2.2, ih key.1 key.2.1 hl' h2]
    rfl

/-- **C62.** After a cycle in which a button was pressed, and whatever happened before it, let the
buttons stay released for any number of cycles, some of which may bring garbled readings or obstacles.
The gripper gets exactly one stop if at least one of those cycles is attended, and nothing else.
Partial: while obstacles stay near, the stop is withheld; see `C62_obstacle_withholds_stop`. -/
theorem C62_release_partial {c c' : Ctl} {y : Cycle} {l : List Cycle} {es : List (List Ev)} {p q : Bool}
    (hd : c.device.HasButtons) (hy : Buttons y p q) (hpq : p = true ∨ q = true)
    (ha : alert c.proximity y.proximity ≠ .high)
    (hl : ∀ y ∈ l, Garbled y ∨ Buttons y false false)
    (h : run c (y :: l) = some (c', es)) :
    gripperCommands es =
      (if p then Grip.close else Grip.open) :: if ∃ z ∈ l, Attended c z then [Grip.stop] else [] := by
  obtain ⟨c1, e, es', h1, h2, rfl⟩ := run_cons h
  obtain ⟨k1, k2, k3⟩ := attended_step hd hy ha h1
  have kp := update_proximity h1
  have hn : nextGrip p q c.device.grip = if p then Grip.close else Grip.open := by
    rcases hpq with rfl | rfl
    · rfl
    · cases p <;> rfl
  rw [hn] at k2 k3
  have hne : (if p then Grip.close else Grip.open) ≠ .none := by cases p <;> simp
  rw [if_pos hne] at k3
  have hg : c1.device.grip = .close ∨ c1.device.grip = .open := by
    rw [k2]; cases p <;> simp
  clear h1 k2 h
  show acts e ++ gripperCommands es' = _
  rw [k3, List.singleton_append]
  congr 1
  simp only [Attended, ← kp]
  clear k3 hne hn kp ha hy hd hpq
  induction l generalizing c1 es' with
  | nil => cases h2; simp [gripperCommands]
  | cons z l ih =>
    obtain ⟨c2, f, fs, g1, g2, rfl⟩ := run_cons h2
    have hl' : ∀ y ∈ l, Garbled y ∨ Buttons y false false := fun x hx => hl x (List.mem_cons_of_mem _ hx)
    have hp' := update_proximity g1
    by_cases hz : Garbled z ∨ alert c1.proximity z.proximity = .high
    · have hs : Garbled z ∨ ((∃ p q, Buttons z p q) ∧ alert c1.proximity z.proximity = .high) := by
        rcases hl z List.mem_cons_self with hb | hb
        · exact Or.inl hb
        · exact hz.imp id fun h => ⟨⟨_, _, hb⟩, h⟩
      obtain ⟨j1, j2, j3⟩ := skipped_step k1 hs g1
      show acts f ++ gripperCommands fs = _
      rw [j3, List.nil_append, ih hl' _ _ g2 j1 (j2 ▸ hg)]
      have hn : ¬ (¬ Garbled z ∧ alert c1.proximity z.proximity ≠ .high) := by tauto
      simp only [List.exists_mem_cons_iff, hn, false_or, hp']
    · have hz1 : ¬ Garbled z := fun h => hz (Or.inl h)
      have hz2 : alert c1.proximity z.proximity ≠ .high := fun h => hz (Or.inr h)
      have hb := (hl z List.mem_cons_self).resolve_left hz1
      obtain ⟨j1, j2, j3⟩ := attended_step k1 hb hz2 g1
      have hst : nextGrip false false c1.device.grip = .stop := by
        rcases hg with hg | hg <;> rw [hg] <;> rfl
      rw [hst] at j2 j3
      rw [if_pos ⟨z, List.mem_cons_self, hz1, hz2⟩]
      show acts f ++ gripperCommands fs = _
      rw [j3, released_quiet j1 (Or.inr j2) hl' g2]
      rfl

/-- The gripper command that precedes a stop, over any history. -/
theorem stop_after_press {l : List Cycle} : ∀ {c c' : Ctl} {es : List (List Ev)}, c.device.HasButtons →
    (∀ y ∈ l, Garbled y ∨ ∃ p q, Buttons y p q) → run c l = some (c', es) →
    ∀ pre post, gripperCommands es = pre ++ .stop :: post →
      (pre = [] ∧ (c.device.grip = .close ∨ c.device.grip = .open)) ∨
      ∃ pre' g, pre = pre' ++ [g] ∧ (g = .close ∨ g = .open) := by
  induction l with
  | nil =>
    intro c c' es _ _ h pre post he
    cases h
    simp [gripperCommands] at he
  | cons y l ih =>
    intro c c' es hd hl h pre post he
    obtain ⟨c1, e, es', h1, h2, rfl⟩ := run_cons h
    have hl' : ∀ y ∈ l, Garbled y ∨ ∃ p q, Buttons y p q := fun z hz => hl z (List.mem_cons_of_mem _ hz)
    replace he : acts e ++ gripperCommands es' = pre ++ .stop :: post := he
    by_cases hs : Garbled y ∨ alert c.proximity y.proximity = .high
    · have hs' : Garbled y ∨ ((∃ p q, Buttons y p q) ∧ alert c.proximity y.proximity = .high) := by
        rcases hl y List.mem_cons_self with hb | hb
        · exact Or.inl hb
        · exact hs.imp id fun h => ⟨hb, h⟩
      obtain ⟨k1, k2, k3⟩ := skipped_step hd hs' h1
      rw [k3, List.nil_append] at he
      rw [← k2]
      exact ih k1 hl' h2 pre post he
    · have hb := (hl y List.mem_cons_self).resolve_left fun h => hs (Or.inl h)
      obtain ⟨p, q, hb⟩ := hb
      obtain ⟨k1, k2, k3⟩ := attended_step hd hb (fun h => hs (Or.inr h)) h1
      by_cases hn : nextGrip p q c.device.grip = .none
      · rw [hn] at k2 k3
        rw [if_neg (by simp)] at k3
        rw [k3, List.nil_append] at he
        rcases ih k1 hl' h2 pre post he with ⟨-, hg⟩ | hr
        · rw [k2] at hg; simp at hg
        · exact Or.inr hr
      · rw [if_pos hn] at k3
        rw [k3, List.singleton_append] at he
        cases pre with
        | nil =>
          left
          refine ⟨rfl, ?_⟩
          have h0 := (List.cons.inj he).1
          unfold nextGrip at h0
          split_ifs at h0 with a1 a2 a3 a4
          cases hc : c.device.grip <;> simp_all
        | cons g pre =>
          obtain ⟨he1, he2⟩ := List.cons.inj he
          right
          rcases ih k1 hl' h2 pre post he2 with ⟨rfl, hg⟩ | ⟨pre', g', rfl, hg⟩
          · refine ⟨[], g, rfl, ?_⟩
            rw [k2, he1] at hg
            exact hg
          · exact ⟨g :: pre', g', rfl, hg⟩

/-- **C62.** The gripper is never stopped without having been opened or closed by the command before:
over every history of readings from the start, each stop directly follows an opening or a closing. -/
theorem C62_stop_only_after_press {c c' : Ctl} {l : List Cycle} {es : List (List Ev)}
    (hd : c.device.HasButtons) (h0 : c.device.grip = .none)
    (hl : ∀ y ∈ l, Garbled y ∨ ∃ p q, Buttons y p q) (h : run c l = some (c', es))
    (pre post : List Grip) (he : gripperCommands es = pre ++ .stop :: post) :
    ∃ pre' g, pre = pre' ++ [g] ∧ (g = .close ∨ g = .open) := by
  rcases stop_after_press hd hl h pre post he with ⟨-, hg⟩ | hr
  · rw [h0] at hg; simp at hg
  · exact hr

/-- A SpaceNavigator as it starts, with a proximity sensor whose thresholds are the default ones. -/
noncomputable def gripDemo : Ctl :=
  { device := .spnav ⟨false, 1, fun _ => false, fun _ => 0, .none, fun _ => 0, false, false⟩
    scaling := 10, proximity := some (800, 100, false) }

/-- One reading of the demo device at rest. -/
noncomputable def gripReading (p q : ℝ) (prox : Option (List ℝ)) : Cycle :=
  { sensor := [0, 0, 0, 0, 0, 0, p, q], proximity := prox }

theorem gripReading_buttons (p q : ℝ) (prox : Option (List ℝ)) :
    Buttons (gripReading p q prox) (decide (p = 1)) (decide (q = 1)) :=
  ⟨0, 0, 0, 0, 0, 0, p, q, rfl, by simp, by simp⟩

theorem gripDemo_alert (c : Option (ℤ × ℤ × Bool)) : alert c none ≠ .high := by
  cases c <;> simp [alert]

theorem gripDemo_high : alert (some (800, 100, false)) (some [900]) = .high := by
  norm_num [alert, alertLevel]

/-- A SpaceNavigator in twist mode, at rest, never divides by zero. -/
theorem spnav_update_defined (c : Ctl) (d : Spnav) (hd : c.device = .spnav d) (hs : c.scaling ≠ 0) (y : Cycle) :
    ∃ c' e, update c y = some (c', e) ∧ c'.scaling = c.scaling ∧ ∃ d', c'.device = .spnav d' := by
  cases ha : d.acquire y.sensor with
  | none =>
    have : c.device.acquire y.sensor = none := by rw [hd]; simp [Device.acquire, ha]
    exact ⟨_, _, update_none this, rfl, d, hd⟩
  | some a =>
    have hacq : c.device.acquire y.sensor = some (.spnav a) := by rw [hd]; simp [Device.acquire, ha]
    have go : ∀ s : ℝ, s ≠ 0 → ∃ c' e, proceed c y (.spnav a) s = some (c', e) ∧ c'.scaling = c.scaling ∧
        ∃ d', c'.device = .spnav d' := by
      intro s hs
      obtain ⟨x, hx⟩ : ∃ x, ({ a with grip := nextGrip a.buttonClose a.buttonOpen a.grip } : Spnav).transform s =
          some x := by
        unfold Spnav.transform
        split_ifs
        · exact ⟨_, rfl⟩
        · refine ⟨_, by unfold baseTransform; rw [if_neg hs]; rfl⟩
      have hx' : (Device.spnav a).actuator.1.transform s = some (.spnav x) := by
        show Option.map _ _ = _
        rw [hx]; rfl
      unfold proceed
      rw [hx']
      obtain ⟨x', hx''⟩ : ∃ x', (applyCentroid c.centroid y (.spnav x)).2 = .spnav x' := by
        unfold applyCentroid
        cases c.centroid with
        | none => exact ⟨_, rfl⟩
        | some k =>
          simp only
          split_ifs
          · split
            · exact ⟨_, rfl⟩
            · exact ⟨_, rfl⟩
          · exact ⟨_, rfl⟩
      simp only [hx'']
      cases hv : x'.valid with
      | true =>
        unfold finish
        rw [if_pos (show Device.valid (.spnav x') = true from hv)]
        exact ⟨_, _, rfl, rfl, _, rfl⟩
      | false =>
        unfold finish
        rw [if_neg (show ¬ Device.valid (.spnav x') = true by simp [Device.valid, hv])]
        exact ⟨_, _, rfl, rfl, _, rfl⟩
    cases hal : alert c.proximity y.proximity with
    | high => exact ⟨_, _, update_high hacq hal, rfl, a, rfl⟩
    | low =>
      rw [update_low hacq hal]
      exact go _ (by simpa using hs)
    | clear =>
      rw [update_clear hacq hal]
      exact go _ hs

theorem spnav_run_defined (l : List Cycle) : ∀ (c : Ctl) (d : Spnav), c.device = .spnav d → c.scaling ≠ 0 →
    ∃ c' es, run c l = some (c', es) := by
  induction l with
  | nil => intro c _ _ _; exact ⟨c, [], rfl⟩
  | cons y l ih =>
    intro c d hd hs
    obtain ⟨c1, e, h1, h2, d', h3⟩ := spnav_update_defined c d hd hs y
    obtain ⟨c2, es, h4⟩ := ih c1 d' h3 (h2 ▸ hs)
    exact ⟨c2, e :: es, by simp [run, h1, h4]⟩

/-- The hypotheses of `C62_release_partial` and `C62_stop_only_after_press` are met: the button that
closes the gripper is pressed once and then released for three cycles, one of them near an
obstacle. -/
example : ∃ c' es, run gripDemo [gripReading 1 0 none, gripReading 0 0 (some [900]), gripReading 0 0 none,
      gripReading 0 0 none] = some (c', es) ∧ gripperCommands es = [.close, .stop] := by
  obtain ⟨c', es, h⟩ := spnav_run_defined [gripReading 1 0 none, gripReading 0 0 (some [900]),
    gripReading 0 0 none, gripReading 0 0 none] gripDemo _ rfl (by norm_num [gripDemo])
  refine ⟨c', es, h, ?_⟩
  have hb0 : ∀ x, Buttons (gripReading 0 0 x) false false := fun x => by
    simpa using gripReading_buttons 0 0 x
  have hb1 : Buttons (gripReading 1 0 none) true false := by simpa using gripReading_buttons 1 0 none
  have key := C62_release_partial (c := gripDemo) trivial hb1 (Or.inl rfl) (gripDemo_alert _)
    (by
      intro y hy
      simp only [List.mem_cons, List.not_mem_nil, or_false] at hy
      rcases hy with rfl | rfl | rfl <;> exact Or.inr (hb0 _)) h
  rw [key]
  have : ∃ z ∈ [gripReading 0 0 (some [900]), gripReading 0 0 none, gripReading 0 0 none], Attended gripDemo z :=
    ⟨gripReading 0 0 none, by simp, by simp [Garbled, gripReading], gripDemo_alert _⟩
  rw [if_pos this]
  rfl

/-- **C62 fails near obstacles.** A SpaceNavigator has the gripper close; the button is released while an
obstacle is near. However many cycles that lasts, no stop is sent to the gripper. -/
theorem C62_obstacle_withholds_stop (n : ℕ) :
    ∃ c' es, run gripDemo (gripReading 1 0 none :: List.replicate n (gripReading 0 0 (some [900]))) =
      some (c', es) ∧ gripperCommands es = [.close] := by
  obtain ⟨c', es, h⟩ := spnav_run_defined
    (gripReading 1 0 none :: List.replicate n (gripReading 0 0 (some [900]))) gripDemo _ rfl
    (by norm_num [gripDemo])
  refine ⟨c', es, h, ?_⟩
  have hb0 : Buttons (gripReading 0 0 (some [900])) false false := by simpa using gripReading_buttons 0 0 _
  have hb1 : Buttons (gripReading 1 0 none) true false := by simpa using gripReading_buttons 1 0 none
  have key := C62_release_partial (c := gripDemo) trivial hb1 (Or.inl rfl) (gripDemo_alert _)
    (by
      intro y hy
      rw [List.eq_of_mem_replicate hy]
      exact Or.inr hb0) h
  rw [if_pos rfl] at key
  rw [key, if_neg]
  · rintro ⟨z, hz, -, hz2⟩
    rw [List.eq_of_mem_replicate hz] at hz2
    exact hz2 gripDemo_high

end KD.Sdc
