import Verif.Props.Gripper
import Verif.Props.Converters

/-!
# C61: proximity alerts of the streaming device controller
-/

namespace KD.Sdc

open scoped Classical

theorem le_fold (l : List ℝ) : ∀ m : ℝ, m ≤ l.foldl (fun m x => if x > m then x else m) m ∧
    (∀ x ∈ l, x ≤ l.foldl (fun m x => if x > m then x else m) m) ∧
    (l.foldl (fun m x => if x > m then x else m) m = m ∨ l.foldl (fun m x => if x > m then x else m) m ∈ l) := by
  induction l with
  | nil => intro m; simp
  | cons a l ih =>
    intro m
    obtain ⟨h1, h2, h3⟩ := ih (if a > m then a else m)
    have hm : m ≤ if a > m then a else m := by split_ifs with h <;> linarith
    have ha : a ≤ if a > m then a else m := by split_ifs with h <;> linarith
    refine ⟨le_trans hm h1, ?_, ?_⟩
    · intro x hx
      rcases List.mem_cons.1 hx with rfl | hx
      · exact le_trans ha h1
      · exact h2 x hx
    · rw [List.foldl_cons]
      rcases h3 with h3 | h3
      · rw [h3]
        split_ifs with h
        · exact Or.inr List.mem_cons_self
        · exact Or.inl rfl
      · exact Or.inr (List.mem_cons_of_mem _ h3)

/-- The message reports something beyond the limit. -/
def Beyond (limit : ℤ) (msg : List ℝ) : Prop := ∃ x ∈ msg, (limit : ℝ) < x

theorem alertLevel_gt {limit : ℤ} (h0 : 0 ≤ limit) (msg : List ℝ) : alertLevel msg > limit ↔ Beyond limit msg := by
  have h0' : (0 : ℝ) ≤ limit := by exact_mod_cast h0
  obtain ⟨h1, h2, h3⟩ := le_fold msg 0
  constructor
  · intro h
    rcases h3 with h3 | h3
    · unfold alertLevel at h
      rw [h3] at h
      linarith
    · exact ⟨_, h3, h⟩
  · rintro ⟨x, hx, hl⟩
    exact lt_of_lt_of_le hl (h2 x hx)

theorem alert_high {hi lo : ℤ} {dis : Bool} {msg : List ℝ} (h0 : 0 ≤ hi) (h : Beyond hi msg) :
    alert (some (hi, lo, dis)) (some msg) = .high := by
  cases msg with
  | nil => obtain ⟨x, hx, -⟩ := h; simp at hx
  | cons a l =>
    simp only [alert]
    rw [if_pos ((alertLevel_gt h0 _).2 h)]

theorem alert_low {hi lo : ℤ} {msg : List ℝ} (h0 : 0 ≤ hi) (h1 : 0 ≤ lo) (hh : ¬ Beyond hi msg)
    (h : Beyond lo msg) : alert (some (hi, lo, false)) (some msg) = .low := by
  cases msg with
  | nil => obtain ⟨x, hx, -⟩ := h; simp at hx
  | cons a l =>
    simp only [alert]
    rw [if_neg fun hc => hh ((alertLevel_gt h0 _).1 hc), if_pos ⟨rfl, (alertLevel_gt h1 _).2 h⟩]

theorem alert_clear {hi lo : ℤ} {dis : Bool} {msg : List ℝ} (h0 : 0 ≤ hi) (h1 : 0 ≤ lo)
    (hh : ¬ Beyond hi msg) (h : ¬ Beyond lo msg ∨ dis = true) :
    alert (some (hi, lo, dis)) (some msg) = .clear := by
  cases msg with
  | nil => rfl
  | cons a l =>
    simp only [alert]
    rw [if_neg fun hc => hh ((alertLevel_gt h0 _).1 hc), if_neg]
    rintro ⟨h2, h3⟩
    rcases h with h | h
    · exact h ((alertLevel_gt h1 _).1 h3)
    · rw [h] at h2; exact absurd h2 (by decide)

/-- **C61.** Whatever the device and whatever happened before, a cycle in which the proximity sensors
report something beyond the high threshold sends no motion and no gripper command. If the robot was
moving the device is told to stop, otherwise nothing at all is done; afterwards the robot counts as
stopped. -/
theorem C61_high_alert {c c' : Ctl} {y : Cycle} {e : List Ev} {hi lo : ℤ} {dis : Bool} {msg : List ℝ}
    (hp : c.proximity = some (hi, lo, dis)) (hm : y.proximity = some msg) (h0 : 0 ≤ hi)
    (h : Beyond hi msg) (hs : c.device.acquire y.sensor ≠ none) (hu : update c y = some (c', e)) :
    c'.isStopped = true ∧
    (c.isStopped = true → e = []) ∧ (c.isStopped = false → e = [.stop c'.device.stop]) := by
  obtain ⟨d, hd⟩ := Option.ne_none_iff_exists'.1 hs
  rw [update_high hd (by rw [hp, hm]; exact alert_high h0 h)] at hu
  cases hu
  refine ⟨rfl, ?_, ?_⟩
  · intro h; rw [h]; rfl
  · intro h; rw [h]; rfl

/-- In a cycle without a valid reading of the device nothing is done either. -/
theorem C61_no_reading {c c' : Ctl} {y : Cycle} {e : List Ev} (hs : c.device.acquire y.sensor = none)
    (hu : update c y = some (c', e)) : e = [] ∧ c' = c := by
  rw [update_none hs] at hu
  cases hu
  exact ⟨rfl, rfl⟩

/-- The robot was set in motion and not stopped since, as far as the commands tell. -/
def Moving (e : List Ev) : Prop := ∃ pre m post, e = pre ++ .move m :: post ∧ ∀ s, Ev.stop s ∉ post

theorem moving_append_move (e : List Ev) (m : List Cmd) : Moving (e ++ [.move m]) := ⟨e, m, [], rfl, by simp⟩

theorem not_moving_append_stop (e : List Ev) (m : List Cmd) : ¬ Moving (e ++ [.stop m]) := by
  rintro ⟨pre, m', post, he, hn⟩
  rcases List.eq_nil_or_concat post with rfl | ⟨post', a, rfl⟩
  · have := (List.append_inj' he rfl).2
    simp at this
  · rw [List.concat_eq_append] at he hn
    have h2 : e ++ [Ev.stop m] = (pre ++ .move m' :: post') ++ [a] := by rw [he]; simp
    have := (List.append_inj' h2 rfl).2
    simp only [List.cons.injEq, and_true] at this
    exact hn m (by rw [← this]; simp)

theorem moving_append_act (e : List Ev) (g : Grip) : Moving (e ++ actEvents g) ↔ Moving e := by
  unfold actEvents
  split_ifs with h
  · constructor
    · rintro ⟨pre, m', post, he, hn⟩
      rcases List.eq_nil_or_concat post with rfl | ⟨post', a, rfl⟩
      · have := (List.append_inj' he rfl).2
        simp at this
      · rw [List.concat_eq_append] at he hn
        have h2 : e ++ [Ev.act g] = (pre ++ .move m' :: post') ++ [a] := by rw [he]; simp
        exact ⟨pre, m', post', (List.append_inj' h2 rfl).1, fun s hs => hn s (by simp [hs])⟩
    · rintro ⟨pre, m, post, rfl, hn⟩
      exact ⟨pre, m, post ++ [.act g], by simp, fun s => by simpa using hn s⟩
  · rw [List.append_nil]

/-- Each stop was preceded by motion. -/
def StopsOnce (e : List Ev) : Prop := ∀ pre s post, e = pre ++ .stop s :: post → Moving pre

theorem stopsOnce_append_stop {e : List Ev} (h : StopsOnce e) (hm : Moving e) (s : List Cmd) :
    StopsOnce (e ++ [.stop s]) := by
  intro pre s' post he
  rcases List.eq_nil_or_concat post with rfl | ⟨post', a, rfl⟩
  · rw [← (List.append_inj' he rfl).1]; exact hm
  · rw [List.concat_eq_append] at he
    have h2 : e ++ [Ev.stop s] = (pre ++ .stop s' :: post') ++ [a] := by rw [he]; simp
    exact h pre s' post' (List.append_inj' h2 rfl).1

theorem stopsOnce_append {e : List Ev} (h : StopsOnce e) {a : Ev} (ha : ∀ s, a ≠ .stop s) :
    StopsOnce (e ++ [a]) := by
  intro pre s' post he
  rcases List.eq_nil_or_concat post with rfl | ⟨post', b, rfl⟩
  · have := (List.append_inj' he rfl).2
    simp only [List.cons.injEq, and_true] at this
    exact absurd this (ha _)
  · rw [List.concat_eq_append] at he
    have h2 : e ++ [a] = (pre ++ .stop s' :: post') ++ [b] := by rw [he]; simp
    exact h pre s' post' (List.append_inj' h2 rfl).1

theorem stopsOnce_append_act {e : List Ev} (h : StopsOnce e) (g : Grip) : StopsOnce (e ++ actEvents g) := by
  unfold actEvents
  split_ifs
  · exact stopsOnce_append h (by simp)
  · simpa using h

/-- The flag of the program agrees with its commands. -/
def Agrees (c : Ctl) (e : List Ev) : Prop := StopsOnce e ∧ (c.isStopped = false ↔ Moving e)

theorem agrees_stop {c : Ctl} {e : List Ev} (h : Agrees c e) (m : List Cmd) :
    StopsOnce (e ++ if !c.isStopped then [.stop m] else []) ∧
    ¬ Moving (e ++ if !c.isStopped then [.stop m] else []) := by
  cases hs : c.isStopped with
  | true =>
    simp only [Bool.not_true, Bool.false_eq_true, if_false, List.append_nil]
    exact ⟨h.1, fun hm => by have := h.2.2 hm; rw [hs] at this; cases this⟩
  | false =>
    simp only [Bool.not_false, if_true]
    exact ⟨stopsOnce_append_stop h.1 (h.2.1 hs) m, not_moving_append_stop e m⟩

theorem agrees_update {c c' : Ctl} {y : Cycle} {e f : List Ev} (h : Agrees c e)
    (hu : update c y = some (c', f)) : Agrees c' (e ++ f) := by
  rcases update_cases hu with ⟨-, rfl, rfl⟩ | ⟨d, -, ⟨-, rfl, rfl⟩ | ⟨-, s, -, hp⟩⟩
  · simpa using h
  · obtain ⟨h1, h2⟩ := agrees_stop h d.stop
    exact ⟨h1, ⟨fun h => Bool.noConfusion h, fun h => absurd h h2⟩⟩
  · obtain ⟨d', e', -, hf, rfl⟩ := proceed_cases hp
    have h' : Agrees { c with device := (applyCentroid c.centroid y d').2,
                              centroid := (applyCentroid c.centroid y d').1 } (e ++ actEvents d.actuator.2) :=
      ⟨stopsOnce_append_act h.1 _, by rw [moving_append_act]; exact h.2⟩
    rw [← List.append_assoc]
    rcases finish_cases hf with ⟨-, d', m, -, rfl, rfl⟩ | ⟨-, rfl, rfl⟩
    · exact ⟨stopsOnce_append h'.1 (by simp), ⟨fun _ => moving_append_move _ _, fun _ => rfl⟩⟩
    · obtain ⟨h1, h2⟩ := agrees_stop h' (applyCentroid c.centroid y d').2.stop
      exact ⟨h1, ⟨fun h => Bool.noConfusion h, fun h => absurd h h2⟩⟩

theorem agrees_run {l : List Cycle} : ∀ {c c' : Ctl} {e : List Ev} {es : List (List Ev)}, Agrees c e →
    run c l = some (c', es) → Agrees c' (e ++ es.flatten) := by
  induction l with
  | nil => intro c c' e es h hr; cases hr; simpa using h
  | cons y l ih =>
    intro c c' e es h hr
    obtain ⟨c1, f, es', h1, h2, rfl⟩ := run_cons hr
    rw [List.flatten_cons, ← List.append_assoc]
    exact ih (agrees_update h h1) h2

/-- **C61.** Over every history of readings, obstacles and device data, from the start: before each
order to stop there is a motion command, with no other order to stop in between. So the device is told
to stop exactly once until motion resumes, whatever made it stop. -/
theorem C61_stop_once {c c' : Ctl} {l : List Cycle} {es : List (List Ev)} (h0 : c.isStopped = true)
    (h : run c l = some (c', es)) (pre post : List Ev) (s : List Cmd)
    (he : es.flatten = pre ++ .stop s :: post) :
    ∃ pre' m mid, pre = pre' ++ .move m :: mid ∧ ∀ s', Ev.stop s' ∉ mid := by
  have hA : Agrees c [] := ⟨by intro p s' q hq; simp at hq, by
    rw [h0]; simp only [Bool.true_eq_false, false_iff]; rintro ⟨p, m, q, hq, -⟩; simp at hq⟩
  have := (agrees_run hA h).1
  rw [List.nil_append] at this
  exact this pre s post he

/-- Half of each speed in a motion command. -/
noncomputable def halve : Ev → Ev
  | .move m => .move (m.map fun
    | .twist x => .twist fun i => x i / 2
    | .pose x => .pose x)
  | e => e

/-- **C61.** For the SpaceNavigator commanding velocities: with something beyond the low threshold, but
not beyond the high one, the program does the very same as without any message, except that each
commanded velocity is halved. Partial: the centroid transform must not be in use; for the other devices
see `C61_pose_half_partial`, `C61_wiimote_speed_kept` and `C61_leap_jump`. -/
theorem C61_low_alert_partial {c : Ctl} {y : Cycle} {d : Spnav} {hi lo : ℤ} {msg : List ℝ}
    (hd : c.device = .spnav d) (hpose : d.usingPose = false) (hc : c.centroid = none)
    (hp : c.proximity = some (hi, lo, false)) (hm : y.proximity = some msg) (h0 : 0 ≤ hi) (h1 : 0 ≤ lo)
    (hh : ¬ Beyond hi msg) (hl : Beyond lo msg) (hs : c.scaling ≠ 0) :
    (update c y).map Prod.snd =
      (update c { y with proximity := none }).map (fun r => r.2.map halve) := by
  have hnone : alert c.proximity none = .clear := by rw [hp]; rfl
  cases ha : d.acquire y.sensor with
  | none =>
    have : c.device.acquire y.sensor = none := by rw [hd]; simp [Device.acquire, ha]
    rw [update_none this, update_none (y := { y with proximity := none }) this]
    rfl
  | some a =>
    have hacq : c.device.acquire y.sensor = some (.spnav a) := by rw [hd]; simp [Device.acquire, ha]
    have hap : a.usingPose = false := by
      rw [← hpose]
      unfold Spnav.acquire at ha
      split at ha <;> cases ha <;> rfl
    rw [update_low hacq (by rw [hp, hm]; exact alert_low h0 h1 hh hl),
      update_clear (y := { y with proximity := none }) hacq hnone]
    unfold proceed
    simp only [hc, Device.actuator, Device.transform, Spnav.transform, hap, baseTransform, hs, mul_eq_zero,
      two_ne_zero, or_self, if_false, Option.map_some, applyCentroid, finish, Device.valid, Spnav.valid,
      baseValid, Device.send, Spnav.send, Device.stop, Spnav.stop, Bool.false_eq_true]
    have hx : ∀ i, (if (!a.fixed i) = true then a.data i / (c.scaling * 2) else 0) =
        (if (!a.fixed i) = true then a.data i / c.scaling else 0) / 2 := by
      intro i
      split_ifs
      · rw [div_div]
      · simp
    have hz : (∃ i, (if (!a.fixed i) = true then a.data i / (c.scaling * 2) else 0) ≠ 0) ↔
        (∃ i, (if (!a.fixed i) = true then a.data i / c.scaling else 0) ≠ 0) := by
      simp only [hx, ne_eq, div_eq_zero_iff, two_ne_zero, or_false]
    simp only [hz]
    have hact : ∀ g, (actEvents g).map halve = actEvents g := by intro g; cases g <;> rfl
    have hst : (if (!c.isStopped) = true then [Ev.stop (if (!false) = true then [Cmd.twist fun _ => 0] else [])]
        else []).map halve =
        if (!c.isStopped) = true then [Ev.stop (if (!false) = true then [Cmd.twist fun _ => 0] else [])] else [] := by
      cases c.isStopped <;> rfl
    split_ifs <;>
      simp only [Option.map_some, Option.some.injEq, List.map_append, hact, List.append_cancel_left_eq,
        Bool.not_true, Bool.not_false] <;>
      first
        | rfl
        | (simp only [List.map_cons, List.map_nil, halve, List.cons.injEq, Ev.move.injEq, Cmd.twist.injEq,
            and_true]; funext i; exact hx i)

/-- **C61.** For the SpaceNavigator commanding poses: the step from the last commanded pose is halved. -/
theorem C61_pose_half_partial {d d1 d2 : Spnav} {s : ℝ} (hpose : d.usingPose = true)
    (h1 : d.transform s = some d1) (h2 : d.transform (s * 2) = some d2) (i : Fin 6) :
    d2.data i - d.currentX i = (d1.data i - d.currentX i) / 2 := by
  unfold Spnav.transform at h1 h2
  rw [if_pos hpose] at h1 h2
  split_ifs at h1 h2 with a b
  cases h1; cases h2
  simp only
  split_ifs
  · have hs : s ≠ 0 := a
    field_simp
    ring
  · simp

/-- The Wiimote in the mode that moves forward. -/
noncomputable def wiiDemo : Ctl :=
  { device := .wiimote ⟨false, 1, fun _ => false, .none, fun _ => 0, fun _ => 0⟩
    scaling := 10, proximity := some (800, 100, false) }

/-- **C61 fails for the Wiimote.** With button A pressed and nothing else, the robot is told to advance at
the same speed whether or not something is beyond the low threshold. -/
theorem C61_wiimote_speed_kept :
    Beyond 100 [500] ∧ ¬ Beyond 800 [500] ∧
    (update wiiDemo { sensor := [0, 0, 1, 0, 0], proximity := some [500] }).map Prod.snd =
      some [.move [.twist ![0, 0, 1, 0, 0, 0]]] ∧
    (update wiiDemo { sensor := [0, 0, 1, 0, 0] }).map Prod.snd =
      some [.move [.twist ![0, 0, 1, 0, 0, 0]]] := by
  have hacq : wiiDemo.device.acquire [0, 0, 1, 0, 0] =
      some (.wiimote ⟨false, 1, fun _ => false, .none, fun _ => 0, ![0, 0, 1, 0, 0]⟩) := rfl
  have b1 : Beyond 100 [500] := ⟨500, by simp, by norm_num⟩
  have b2 : ¬ Beyond 800 [500] := by
    rintro ⟨x, hx, h⟩
    rw [List.mem_singleton.1 hx] at h
    norm_num at h
  have go : ∀ (y : Cycle) (s : ℝ), s ≠ 0 →
      (proceed wiiDemo y (.wiimote ⟨false, 1, fun _ => false, .none, fun _ => 0, ![0, 0, 1, 0, 0]⟩) s).map Prod.snd =
        some [.move [.twist ![0, 0, 1, 0, 0, 0]]] := by
    intro y s hs
    have ht : Wiimote.transform ⟨false, 1, fun _ => false, .none, fun _ => 0, ![0, 0, 1, 0, 0]⟩ s =
        some ⟨false, 1, fun _ => false, .fwd, ![0, 0, 0], ![0, 0, 1, 0, 0]⟩ := by
      simp [Wiimote.transform, hs]
    simp only [proceed, Device.actuator, Device.transform, ht, Option.map_some, applyCentroid, wiiDemo, finish,
      Device.valid, Device.send, Wiimote.send]
    rw [if_pos (by decide)]
    simp [actEvents]
  refine ⟨b1, b2, ?_, ?_⟩
  · rw [update_low (c := wiiDemo) (y := { sensor := [0, 0, 1, 0, 0], proximity := some [500] }) hacq
      (alert_low (hi := 800) (lo := 100) (by norm_num) (by norm_num) b2 b1)]
    exact go _ _ (by norm_num [wiiDemo])
  · rw [update_clear (c := wiiDemo) (y := { sensor := [0, 0, 1, 0, 0] }) hacq rfl]
    exact go _ _ (by norm_num [wiiDemo])

/-- All that is sent to the controller, gripper commands aside. -/
def messages (e : List Ev) : List Cmd := e.flatMap fun
  | .act _ => []
  | .move m => m
  | .stop m => m

/-- **C61 fails for the Leap.** Whatever the Leap was commanding, near an obstacle no message at all is
sent to the controller, however long the obstacle stays there: a velocity commanded before it appeared
stays in force. -/
theorem C61_leap_not_stopped {c c' : Ctl} {l : List Cycle} {es : List (List Ev)} {d : Leap} {hi lo : ℤ}
    {dis : Bool} (hd : c.device = .leap d) (hp : c.proximity = some (hi, lo, dis)) (h0 : 0 ≤ hi)
    (hl : ∀ y ∈ l, ∃ msg, y.proximity = some msg ∧ Beyond hi msg) (h : run c l = some (c', es)) :
    messages es.flatten = [] := by
  induction l generalizing c d es with
  | nil => cases h; rfl
  | cons y l ih =>
    obtain ⟨c1, e, es', h1, h2, rfl⟩ := run_cons h
    have hl' : ∀ y ∈ l, ∃ msg, y.proximity = some msg ∧ Beyond hi msg := fun z hz =>
      hl z (List.mem_cons_of_mem _ hz)
    obtain ⟨msg, hm, hb⟩ := hl y List.mem_cons_self
    have hpx := update_proximity h1
    have key : (∃ d', c1.device = .leap d') ∧ messages e = [] := by
      rcases update_cases h1 with ⟨-, rfl, rfl⟩ | ⟨a, ha, ⟨-, rfl, rfl⟩ | ⟨hn, -⟩⟩
      · exact ⟨⟨d, hd⟩, rfl⟩
      · rw [hd] at ha
        obtain ⟨a', -, rfl⟩ := Option.map_eq_some_iff.1 ha
        refine ⟨⟨a', rfl⟩, ?_⟩
        cases c.isStopped <;> rfl
      · exact absurd (by rw [hp, hm]; exact alert_high h0 hb) hn
    obtain ⟨⟨d', hd'⟩, he⟩ := key
    have := ih hd' (hpx ▸ hp) hl' h2
    rw [List.flatten_cons, messages, List.flatMap_append]
    show messages e ++ messages es'.flatten = []
    rw [he, this]; rfl

/-- A Leap commanding poses, started with the hand at the origin and the robot at the identity; its
last reading and whether the robot counts as stopped. -/
noncomputable def leapDemo (x : Six) (stopped : Bool) : Ctl :=
  { device := .leap ⟨true, fun _ => false, x, .none, fun _ => 0, 1, 1, 1, 0, false, false, false⟩
    scaling := 10, proximity := some (800, 100, false), isStopped := stopped }

theorem sixOfFrame_shift (x : ℝ) : sixOfFrame ⟨1, ⟨x, 0, 0⟩⟩ = ![x, 0, 0, 0, 0, 0] := by
  simp [sixOfFrame, getRot_one]

theorem leap_transform (x s : ℝ) (hs : s ≠ 0) :
    Leap.transform ⟨true, fun _ => false, ![x, 0, 0, 0, 0, 0], .none, fun _ => 0, 1, 1, 1, 0, false, false, false⟩ s =
    some ⟨true, fun _ => false, ![x / s, 0, 0, 0, 0, 0], .none, fun _ => 0, 1, 1, 1, 0, false, false, false⟩ := by
  have h1 : Mat3.rpy 0 0 0 = 1 := by simp [Mat3.rpy, Mat3.rotX, Mat3.rotY, Mat3.rotZ]; ext <;> simp
  have h2 := sixOfFrame_shift (x / s)
  simp [Leap.transform, hs, h1, h2]

theorem leapDemo_acquire (x : Six) (b : Bool) : (leapDemo x b).device.acquire [1000, 0, 0, 0, 0, 0] =
    some (leapDemo ![1, 0, 0, 0, 0, 0] b).device := by
  simp [leapDemo, Device.acquire, Leap.acquire]

theorem leapDemo_proceed (x : Six) (b : Bool) (y : Cycle) (s : ℝ) (hs : s ≠ 0) :
    proceed (leapDemo x b) y (leapDemo ![1, 0, 0, 0, 0, 0] b).device s =
      some (leapDemo ![1 / s, 0, 0, 0, 0, 0] false, [.move [.pose ![1 / s, 0, 0, 0, 0, 0]]]) := by
  have hv : baseValid .none ![1 / s, 0, 0, 0, 0, 0] = true := by
    simp only [baseValid, ne_eq, not_true, if_false, decide_eq_true_eq]
    exact ⟨0, by simpa using hs⟩
  simp only [proceed, leapDemo, Device.actuator, Device.transform, leap_transform 1 s hs, Option.map_some,
    applyCentroid, Bool.not_false, if_true, finish, Device.valid, hv, Device.send, Leap.send, actEvents]
  simp

/-- **C61 fails for the Leap in another way.** The hand rests one metre from where it started. As soon as
something is beyond the low threshold, the pose commanded jumps back to half of the way, so the alert
sets a robot at rest in motion. -/
theorem C61_leap_jump :
    ∃ c', run (leapDemo (fun _ => 0) true) [{ sensor := [1000, 0, 0, 0, 0, 0] },
        { sensor := [1000, 0, 0, 0, 0, 0], proximity := some [500] }] =
      some (c', [[.move [.pose ![1 / 10, 0, 0, 0, 0, 0]]], [.move [.pose ![1 / 20, 0, 0, 0, 0, 0]]]]) := by
  have b1 := C61_wiimote_speed_kept.1
  have b2 := C61_wiimote_speed_kept.2.1
  have h1 : update (leapDemo (fun _ => 0) true) { sensor := [1000, 0, 0, 0, 0, 0] } = _ :=
    (update_clear (c := leapDemo (fun _ => 0) true) (y := { sensor := [1000, 0, 0, 0, 0, 0] })
      (leapDemo_acquire _ _) rfl).trans (leapDemo_proceed _ _ _ _ (by norm_num [leapDemo]))
  have h2 : ∀ x, update (leapDemo x false) { sensor := [1000, 0, 0, 0, 0, 0], proximity := some [500] } =
      some (leapDemo ![1 / 20, 0, 0, 0, 0, 0] false, [.move [.pose ![1 / 20, 0, 0, 0, 0, 0]]]) := by
    intro x
    have e : (leapDemo x false).scaling * 2 = 20 := by norm_num [leapDemo]
    rw [update_low (c := leapDemo x false)
      (y := { sensor := [1000, 0, 0, 0, 0, 0], proximity := some [500] }) (leapDemo_acquire _ _)
      (alert_low (hi := 800) (lo := 100) (by norm_num) (by norm_num) b2 b1), e]
    exact leapDemo_proceed _ _ _ _ (by norm_num)
  exact ⟨_, by simp only [run]; rw [h1]; simp only; rw [h2]; rfl⟩

/-- A SpaceNavigator that was commanding a velocity. -/
noncomputable def movingDemo : Ctl :=
  { device := .spnav ⟨false, 1, fun _ => false, ![1, 0, 0, 0, 0, 0], .none, fun _ => 0, false, false⟩
    scaling := 10, proximity := some (800, 100, false), isStopped := false }

theorem movingDemo_acquire : movingDemo.device.acquire [1, 0, 0, 0, 0, 0] = some movingDemo.device := rfl

theorem resume_step (b : Bool) : update { movingDemo with isStopped := b } { sensor := [1, 0, 0, 0, 0, 0] } =
    some ({ movingDemo with
      device := .spnav ⟨false, 1, fun _ => false, ![1 / 10, 0, 0, 0, 0, 0], .none, fun _ => 0, false, false⟩ },
      [.move [.twist ![1 / 10, 0, 0, 0, 0, 0]]]) := by
  rw [update_clear (c := { movingDemo with isStopped := b }) (d := movingDemo.device) movingDemo_acquire rfl]
  have hs : (movingDemo.scaling) ≠ 0 := by norm_num [movingDemo]
  have ht : Spnav.transform ⟨false, 1, fun _ => false, ![1, 0, 0, 0, 0, 0], .none, fun _ => 0, false, false⟩ 10 =
      some ⟨false, 1, fun _ => false, ![1 / 10, 0, 0, 0, 0, 0], .none, fun _ => 0, false, false⟩ := by
    simp only [Spnav.transform, baseTransform, Bool.false_eq_true, if_false, OfNat.ofNat_ne_zero, Option.map_some,
      Option.some.injEq, Spnav.mk.injEq, true_and, and_true]
    funext i
    fin_cases i <;> simp
  have hv : Spnav.valid ⟨false, 1, fun _ => false, ![1 / 10, 0, 0, 0, 0, 0], .none, fun _ => 0, false, false⟩ = true := by
    simp only [Spnav.valid, baseValid, Bool.false_eq_true, if_false, ne_eq, not_true, decide_eq_true_eq]
    exact ⟨0, by norm_num⟩
  have hg : nextGrip false false .none = .none := rfl
  simp only [proceed, movingDemo, Device.actuator, hg, Device.transform, ht, Option.map_some, applyCentroid,
    finish, Device.valid, hv, if_true, Device.send, Spnav.send, Bool.false_eq_true, if_false, actEvents]
  simp

/-- **C61 covers a single cycle only.** An obstacle beyond the high threshold is reported once; in the next
cycle the proximity sensors are silent, and the robot is told to move at full speed again. -/
theorem C61_alert_forgotten :
    ∃ c', run movingDemo [{ sensor := [1, 0, 0, 0, 0, 0], proximity := some [900] },
        { sensor := [1, 0, 0, 0, 0, 0] }] =
      some (c', [[.stop [.twist fun _ => 0]], [.move [.twist ![1 / 10, 0, 0, 0, 0, 0]]]]) := by
  have h1 : update movingDemo { sensor := [1, 0, 0, 0, 0, 0], proximity := some [900] } =
      some ({ movingDemo with isStopped := true }, [.stop [.twist fun _ => 0]]) := by
    rw [update_high movingDemo_acquire gripDemo_high]
    rfl
  have h2 := resume_step true
  exact ⟨_, by simp only [run]; rw [h1]; simp only; rw [h2]; rfl⟩

/-- The hypotheses of the theorems above are met: a moving robot is stopped by an obstacle, and slowed
down by a remote one. -/
example : Beyond 800 [20, 900] ∧ Beyond 100 [500] ∧ ¬ Beyond 800 [500] ∧
    movingDemo.device.acquire [1, 0, 0, 0, 0, 0] ≠ none ∧ movingDemo.isStopped = false ∧
    movingDemo.centroid = none ∧ movingDemo.scaling ≠ 0 := by
  refine ⟨⟨900, by simp, by norm_num⟩, C61_wiimote_speed_kept.1, C61_wiimote_speed_kept.2.1, ?_, rfl, rfl, ?_⟩
  · rw [movingDemo_acquire]; simp
  · norm_num [movingDemo]

end KD.Sdc
