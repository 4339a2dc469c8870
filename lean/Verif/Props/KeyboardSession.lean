import Verif.Programs.KeyboardSession
import Verif.Props.Keyboard
import Mathlib.Tactic.IntervalCases

/-!
# What is typed at the keyboard controller (C64)

The theorems of `Props/Keyboard.lean` are about keys; here they are carried to the characters that are typed, whatever
they are.
-/

namespace KD.Kbd

/-- **C64.** Whatever is typed, nothing undefined happens, and no command to a joint leaves its limits. -/
theorem C64_typed_limits {c : Cfg} (hq : ∀ j, j < c.axes → c.minPos j ≤ c.maxPos j)
    (hv : ∀ j, j < c.axes → 0 ≤ c.maxVel j) (s : St) (l : List (Char × Ans)) :
    ∃ s' es, session c s l = some (s', es) ∧ ∀ e ∈ es, ∀ x ∈ e, InLimits c x := by
  induction l generalizing s with
  | nil => exact ⟨s, [], rfl, fun e he => by cases he⟩
  | cons ya l ih =>
    obtain ⟨ch, a⟩ := ya
    have hone : ∀ k, ∃ s1 e, press c s a k = some (s1, e) ∧ ∀ x ∈ e, InLimits c x := by
      intro k
      obtain ⟨s1, es, h1, h2⟩ := C64_limits hq hv s [(k, a)]
      simp only [run, Option.bind_eq_bind] at h1
      cases hp : press c s a k with
      | none => rw [hp] at h1; cases h1
      | some y =>
        rw [hp] at h1
        obtain ⟨y1, y2⟩ := y
        obtain ⟨rfl, rfl⟩ := Prod.mk.inj (Option.some.inj h1)
        exact ⟨y1, y2, rfl, h2 y2 (List.mem_singleton.2 rfl)⟩
    rw [session]
    cases stroke c ch with
    | exit =>
      obtain ⟨s1, e, h1, h2⟩ := hone .stop
      have h1' : some (issueStop c s a) = some (s1, e) := h1
      rw [Option.some.inj h1']
      exact ⟨s1, [e], rfl, fun e' he' => by rw [List.mem_singleton.1 he']; exact h2⟩
    | print =>
      obtain ⟨s2, es, h1, h2⟩ := ih s
      refine ⟨s2, [] :: es, by simp only [h1, Option.bind_eq_bind, Option.bind_some]; rfl, ?_⟩
      intro e he
      rcases List.mem_cons.1 he with rfl | he
      · intro x hx; cases hx
      · exact h2 e he
    | key k =>
      obtain ⟨s1, e1, h1, h2⟩ := hone k
      obtain ⟨s2, es, h3, h4⟩ := ih s1
      refine ⟨s2, e1 :: es, by simp only [h1, h3, Option.bind_eq_bind, Option.bind_some]; rfl, ?_⟩
      intro e he
      rcases List.mem_cons.1 he with rfl | he
      · exact h2
      · exact h4 e he

/-- The keys that move the joints upwards and downwards, from the help text,
/repo/programs/keyboardController/KeyboardController.cpp:830-831. -/
def jointKeys : List (Char × Char) :=
  [('1', 'q'), ('2', 'w'), ('3', 'e'), ('4', 'r'), ('5', 't'), ('6', 'y'), ('7', 'u'), ('8', 'i'), ('9', 'o')]

/-- The keys that move along the axes x, y and z, and rotate about them, from the help text,
/repo/programs/keyboardController/KeyboardController.cpp:870-875. -/
def cartKeys : List (Char × Char) := [('a', 'z'), ('s', 'x'), ('d', 'c'), ('f', 'v'), ('g', 'b'), ('h', 'n')]

/-- The other keys of the help text, Escape left aside. -/
def otherKeys : List Char := ['?', 'j', 'p', '0', 'm', 'k', 'l']

/-- **C64.** The keys of the help text do what it tells: the pair at place `j` of the row of joint keys is for joint
`j`, and the pair at place `i` of the Cartesian keys for axis `i`. -/
theorem C64_help (c : Cfg) :
    (∀ j up down, jointKeys[j]? = some (up, down) →
      stroke c up = .key (.joint j true) ∧ stroke c down = .key (.joint j false)) ∧
    (∀ i : Fin 6, ∀ up down, cartKeys[i.val]? = some (up, down) →
      stroke c up = .key (.cart i true) ∧ stroke c down = .key (.cart i false)) ∧
    stroke c '0' = .key .toggleJointMode ∧ stroke c 'm' = .key .toggleFrame ∧
    stroke c 'k' = .key (.gripper true) ∧ stroke c 'l' = .key (.gripper false) := by
  refine ⟨fun j up down h => ?_, fun i up down h => ?_, rfl, rfl, rfl, rfl⟩
  · have hj : j < 9 := by
      rcases Nat.lt_or_ge j 9 with hj | hj
      · exact hj
      · rw [List.getElem?_eq_none (by exact hj)] at h; cases h
    interval_cases j <;> (cases h; exact ⟨rfl, rfl⟩)
  · obtain ⟨i, hi⟩ := i
    interval_cases i <;> (cases h; exact ⟨rfl, rfl⟩)

/-- **C64.** Every joint that the controller may have has its keys: it refuses robots with more than nine axes. -/
example : ∀ j, j < 9 → ∃ up down, jointKeys[j]? = some (up, down) := by
  intro j hj
  interval_cases j <;> exact ⟨_, _, rfl⟩

/-- **C64.** A character that the help text does not name stops the robot. -/
theorem C64_other_characters_stop (c : Cfg) (ch : Char) (hesc : ch ≠ '\x1b')
    (hj : ch ∉ jointKeys.map Prod.fst ++ jointKeys.map Prod.snd)
    (hc : ch ∉ cartKeys.map Prod.fst ++ cartKeys.map Prod.snd) (ho : ch ∉ otherKeys) :
    stroke c ch = .key .stop := by
  simp only [jointKeys, cartKeys, otherKeys, List.map_cons, List.map_nil, List.cons_append, List.nil_append,
    List.mem_cons, List.not_mem_nil, or_false, not_or] at hj hc ho
  obtain ⟨j1, j2, j3, j4, j5, j6, j7, j8, j9, k1, k2, k3, k4, k5, k6, k7, k8, k9⟩ := hj
  obtain ⟨c1, c2, c3, c4, c5, c6, d1, d2, d3, d4, d5, d6⟩ := hc
  obtain ⟨o1, o2, o3, o4, o5, o6, o7⟩ := ho
  simp only [stroke, hesc, j1, j2, j3, j4, j5, j6, j7, j8, j9, k1, k2, k3, k4, k5, k6, k7, k8, k9, c1, c2, c3, c4, c5,
    c6, d1, d2, d3, d4, d5, d6, o1, o2, o3, o4, o5, o6, o7, if_false]

/-- Non-vacuity: Enter and the space bar. -/
example (c : Cfg) : stroke c '\r' = .key .stop ∧ stroke c ' ' = .key .stop :=
  ⟨C64_other_characters_stop c _ (by decide) (by decide) (by decide) (by decide),
    C64_other_characters_stop c _ (by decide) (by decide) (by decide) (by decide)⟩

/-- **C64.** The keys that print the joints or the pose print them if the device for it is in use, and move nothing. If it
is not in use, they stop the robot, as characters without a meaning do. -/
theorem C64_print_keys (c : Cfg) :
    stroke c '?' = .print ∧
    (c.board = true → stroke c 'j' = .print) ∧ (c.board = false → stroke c 'j' = .key .stop) ∧
    (c.cart = true → stroke c 'p' = .print) ∧ (c.cart = false → stroke c 'p' = .key .stop) := by
  refine ⟨rfl, fun h => ?_, fun h => ?_, fun h => ?_, fun h => ?_⟩ <;> simp [stroke, h]

/-- **C64.** If the session ends with Escape, a stop is the last that is sent, and nothing typed later reaches the
robot. -/
theorem C64_escape {c : Cfg} {s s' : St} {l l' : List (Char × Ans)} {a : Ans} {es : List (List Ev)}
    (h : session c s (l ++ ('\x1b', a) :: l') = some (s', es)) :
    session c s (l ++ [('\x1b', a)]) = some (s', es) ∧ s'.mode = .notControlling ∧
      (c.cart = true → ∃ e es' b, es = es' ++ [e ++ [.stopControl b]]) ∧
      (c.cart = false → c.board = true → ∃ e es' m b, es = es' ++ [e ++ [.boardStop m b]]) := by
  induction l generalizing s es with
  | nil =>
    have h' : some ((issueStop c s a).1, [(issueStop c s a).2]) = some (s', es) := h
    obtain ⟨rfl, rfl⟩ := Prod.mk.inj (Option.some.inj h')
    refine ⟨rfl, rfl, fun hc => ?_, fun hc hb => ?_⟩
    · exact ⟨(if s.actuating then [.actStop] else []) ++ (if c.usingThread then [.suspend] else []), [], a.stopControl,
        by simp only [issueStop, hc, if_true, List.nil_append]⟩
    · exact ⟨[], [], s.jointMode, a.boardStop, by
        simp only [issueStop, hc, hb, Bool.false_eq_true, if_false, if_true, List.nil_append]⟩
  | cons y l ih =>
    obtain ⟨ch, a'⟩ := y
    rw [List.cons_append, session] at h ⊢
    cases hs : stroke c ch with
    | exit =>
      rw [hs] at h
      have h' : some ((issueStop c s a').1, [(issueStop c s a').2]) = some (s', es) := h
      obtain ⟨rfl, rfl⟩ := Prod.mk.inj (Option.some.inj h')
      refine ⟨rfl, rfl, fun hc => ?_, fun hc hb => ?_⟩
      · exact ⟨(if s.actuating then [.actStop] else []) ++ (if c.usingThread then [.suspend] else []), [],
          a'.stopControl, by simp only [issueStop, hc, if_true, List.nil_append]⟩
      · exact ⟨[], [], s.jointMode, a'.boardStop, by
          simp only [issueStop, hc, hb, Bool.false_eq_true, if_false, if_true, List.nil_append]⟩
    | print =>
      rw [hs] at h
      simp only [Option.bind_eq_bind] at h ⊢
      cases h1 : session c s (l ++ ('\x1b', a) :: l') with
      | none => rw [h1] at h; cases h
      | some y =>
        rw [h1] at h
        obtain ⟨s2, es2⟩ := y
        obtain ⟨rfl, rfl⟩ := Prod.mk.inj (Option.some.inj h)
        obtain ⟨i1, i2, i3, i4⟩ := ih h1
        refine ⟨by rw [i1]; rfl, i2, fun hc => ?_, fun hc hb => ?_⟩
        · obtain ⟨e, es', b, rfl⟩ := i3 hc; exact ⟨e, [] :: es', b, rfl⟩
        · obtain ⟨e, es', m, b, rfl⟩ := i4 hc hb; exact ⟨e, [] :: es', m, b, rfl⟩
    | key k =>
      rw [hs] at h
      simp only [Option.bind_eq_bind] at h ⊢
      cases hp : press c s a' k with
      | none => rw [hp] at h; cases h
      | some p =>
        obtain ⟨s1, e1⟩ := p
        rw [hp] at h
        simp only [Option.bind_some] at h ⊢
        cases h1 : session c s1 (l ++ ('\x1b', a) :: l') with
        | none => rw [h1] at h; cases h
        | some y =>
          rw [h1] at h
          obtain ⟨s2, es2⟩ := y
          obtain ⟨rfl, rfl⟩ := Prod.mk.inj (Option.some.inj h)
          obtain ⟨i1, i2, i3, i4⟩ := ih h1
          refine ⟨by rw [i1]; rfl, i2, fun hc => ?_, fun hc hb => ?_⟩
          · obtain ⟨e, es', b, rfl⟩ := i3 hc; exact ⟨e, e1 :: es', b, rfl⟩
          · obtain ⟨e, es', m, b, rfl⟩ := i4 hc hb; exact ⟨e, e1 :: es', m, b, rfl⟩

/-- Non-vacuity of `C64_typed_limits` and `C64_escape`: `1`, `?`, Escape, `1` with both devices. -/
example : ∃ s, session both { } [('1', { }), ('?', { }), ('\x1b', { }), ('1', { })] =
    some (s, [[.stopControl true, .velocityMove 0 (1 / 2)], [], [.stopControl true]]) := by
  have hv : velocity both 0 true 0 = 1 / 2 := by
    have : |(1 : ℝ) / 2| = 1 / 2 := abs_of_pos (by norm_num)
    simp only [velocity, op, both, if_true, zero_add, this]
    norm_num
  have h1 : stroke both '1' = .key (.joint 0 true) := rfl
  have h2 : stroke both '?' = .print := rfl
  have h3 : stroke both '\x1b' = .exit := rfl
  simp only [session, h1, h2, h3, press, jointKey, enter, issueStop]
  simp [both]
  simpa [both] using hv

end KD.Kbd
