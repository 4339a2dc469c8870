import Verif.Programs.Keyboard
import Mathlib.Algebra.Order.Archimedean.Real.Basic

/-!
# C64, C69: the keyboard controller
-/

namespace KD.Kbd

open scoped Classical

/-! ## What is expected (specification) -/

/-- A command to a joint that exists and respects its limits. -/
def InLimits (c : Cfg) : Ev → Prop
  | .positionMove j q => j < c.axes ∧ c.minPos j ≤ q ∧ q ≤ c.maxPos j
  | .velocityMove j v => j < c.axes ∧ |v| ≤ c.maxVel j
  | _ => True

/-- A command that moves joints. -/
def Ev.isJoint : Ev → Prop
  | .positionMove _ _ => True
  | .velocityMove _ _ => True
  | _ => False

/-- A command of Cartesian motion. -/
def Ev.isCart : Ev → Prop
  | .movv _ => True
  | .poses _ => True
  | _ => False

/-- The Cartesian controller is told to stop. -/
def Ev.isStopControl : Ev → Prop
  | .stopControl _ => True
  | _ => False

/-! ## Limits -/

theorem run_cons {c : Cfg} {s s' : St} {k : Key} {a : Ans} {l : List (Key × Ans)} {es : List (List Ev)}
    (h : run c s ((k, a) :: l) = some (s', es)) :
    ∃ s1 e es', press c s a k = some (s1, e) ∧ run c s1 l = some (s', es') ∧ es = e :: es' := by
  rw [run] at h
  simp only [Option.bind_eq_bind, Option.bind_eq_some_iff, Option.pure_def, Option.some.injEq] at h
  obtain ⟨⟨s1, e⟩, h1, ⟨s2, es'⟩, h2, h3⟩ := h
  cases h3
  exact ⟨s1, e, es', h1, h2, rfl⟩

theorem run_append {c : Cfg} {s s' : St} {l l' : List (Key × Ans)} {es : List (List Ev)}
    (h : run c s (l ++ l') = some (s', es)) :
    ∃ s1 e1 e2, run c s l = some (s1, e1) ∧ run c s1 l' = some (s', e2) ∧ es = e1 ++ e2 := by
  induction l generalizing s es with
  | nil => exact ⟨s, [], es, rfl, h, rfl⟩
  | cons x l ih =>
    obtain ⟨k, a⟩ := x
    obtain ⟨s1, e, es', h1, h2, rfl⟩ := run_cons h
    obtain ⟨s2, f1, f2, h3, h4, rfl⟩ := ih h2
    refine ⟨s2, e :: f1, f2, ?_, h4, rfl⟩
    rw [run, h1]
    simp only [Option.bind_eq_bind, Option.bind_some]
    rw [h3]
    rfl

theorem issueStop_harmless (c : Cfg) (s : St) (a : Ans) : ∀ e ∈ (issueStop c s a).2, ¬ e.isJoint ∧ ¬ e.isCart := by
  intro e he
  simp only [issueStop] at he
  split_ifs at he <;> simp at he <;> (try rcases he with rfl | he) <;> (try rcases he with rfl | he) <;>
    (try subst he) <;> simp_all [Ev.isJoint, Ev.isCart]

theorem notJoint_inLimits {c : Cfg} {e : Ev} (h : ¬ e.isJoint) : InLimits c e := by
  cases e <;> first | trivial | exact absurd trivial h

theorem enter_harmless (c : Cfg) (m : Mode) (s : St) (a : Ans) :
    ∀ e ∈ (enter c m s a).2, ¬ e.isJoint ∧ ¬ e.isCart := by
  unfold enter
  split_ifs
  · exact issueStop_harmless c s a
  · intro e he; cases he

theorem clip_spec {lo hi x : ℝ} (h : lo ≤ hi) :
    (if x < lo ∨ x > hi then clamp x lo hi else some x) = some (max lo (min hi x)) := by
  unfold clamp
  rw [if_neg (not_lt.mpr h)]
  rcases lt_or_ge x lo with h1 | h1
  · rw [if_pos (Or.inl h1), if_pos h1, min_eq_right (by linarith), max_eq_left h1.le]
  · rcases lt_or_ge hi x with h2 | h2
    · rw [if_pos (Or.inr h2), if_neg (not_lt.mpr h1), if_pos h2, min_eq_left h2.le, max_eq_right h]
    · rw [if_neg (by push Not; exact ⟨h1, h2⟩), min_eq_right h2, max_eq_right h1]

theorem target_spec {c : Cfg} {j : ℕ} {up : Bool} {q : ℝ} (h : c.minPos j ≤ c.maxPos j) :
    target c j up q = some (max (c.minPos j) (min (c.maxPos j) (if up then q + c.posStep else q - c.posStep))) :=
  clip_spec h

theorem velocity_le {c : Cfg} {j : ℕ} {up : Bool} {v : ℝ} (h : 0 ≤ c.maxVel j) :
    |velocity c j up v| ≤ c.maxVel j := by
  unfold velocity
  simp only
  split_ifs with h1
  · have : |op up 0 1| = 1 := by cases up <;> simp [op]
    rw [abs_mul, this, one_mul, abs_of_nonneg h]
  · exact not_lt.mp h1

theorem thenStop_mem {c : Cfg} {s : St} {a : Ans} {e : List Ev} {P : Ev → Prop} (h : ∀ x ∈ e, P x)
    (h' : ∀ x, ¬ x.isJoint → P x) : ∀ x ∈ (thenStop c s a e).2, P x := by
  intro x hx
  rcases List.mem_append.mp hx with hx | hx
  · exact h x hx
  · exact h' x (issueStop_harmless _ _ _ x hx).1

theorem jointKey_limits {c : Cfg} (hq : ∀ j, j < c.axes → c.minPos j ≤ c.maxPos j)
    (hv : ∀ j, j < c.axes → 0 ≤ c.maxVel j) (s : St) (a : Ans) (j : ℕ) (up : Bool) :
    ∃ s' e, jointKey c s a j up = some (s', e) ∧ ∀ x ∈ e, InLimits c x := by
  unfold jointKey
  by_cases hb : (!c.board) = true
  · rw [if_pos hb]
    exact ⟨_, _, rfl, fun x hx => notJoint_inLimits (issueStop_harmless _ _ _ x hx).1⟩
  rw [if_neg hb]
  have he : ∀ x ∈ (enter c .joint s a).2, InLimits c x :=
    fun x hx => notJoint_inLimits (enter_harmless _ _ _ _ x hx).1
  generalize enter c .joint s a = E at he ⊢
  obtain ⟨s1, e1⟩ := E
  simp only at he ⊢
  have hstop : ∀ (s2 : St) (e2 : List Ev), (∀ x ∈ e2, InLimits c x) →
      ∃ s' e, some (thenStop c s2 a e2) = some (s', e) ∧ ∀ x ∈ e, InLimits c x :=
    fun s2 e2 h => ⟨_, _, rfl, thenStop_mem h fun x hx => notJoint_inLimits hx⟩
  by_cases ha : c.axes ≤ j
  · rw [if_pos ha]; exact hstop _ _ he
  rw [if_neg ha]
  by_cases hm : (!a.setModes) = true
  · rw [if_pos hm]; exact hstop _ _ he
  rw [if_neg hm]
  have hj : j < c.axes := not_le.mp ha
  cases s1.jointMode with
  | position =>
    simp only
    cases a.encoders with
    | none => exact hstop _ _ he
    | some q =>
      simp only [target_spec (hq j hj)]
      have hall : ∀ x ∈ e1 ++ [Ev.positionMove j (max (c.minPos j) (min (c.maxPos j)
          (if up = true then q j + c.posStep else q j - c.posStep)))], InLimits c x := by
        intro x hx
        rcases List.mem_append.mp hx with hx | hx
        · exact he x hx
        · rw [List.mem_singleton] at hx
          subst hx
          exact ⟨hj, le_max_left _ _, max_le (hq j hj) (min_le_left _ _)⟩
      cases a.move
      · exact hstop _ _ hall
      · exact ⟨_, _, rfl, hall⟩
  | velocity =>
    simp only
    have hall : ∀ x ∈ e1 ++ [Ev.velocityMove j (velocity c j up (s1.jointVels j))], InLimits c x := by
      intro x hx
      rcases List.mem_append.mp hx with hx | hx
      · exact he x hx
      · rw [List.mem_singleton] at hx
        subst hx
        exact ⟨hj, velocity_le (hv j hj)⟩
    cases a.move
    · exact hstop _ _ hall
    · exact ⟨_, _, rfl, hall⟩

theorem cartKey_notJoint (c : Cfg) (s : St) (a : Ans) (i : Fin 6) (up : Bool) :
    ∀ x ∈ (cartKey c s a i up).2, ¬ x.isJoint := by
  unfold cartKey
  by_cases hb : (!c.cart) = true
  · rw [if_pos hb]
    exact fun x hx => (issueStop_harmless _ _ _ x hx).1
  rw [if_neg hb]
  have he := enter_harmless c .cartesian s a
  generalize enter c .cartesian s a = E at he ⊢
  obtain ⟨s1, e1⟩ := E
  simp only at he ⊢
  have hall : ∀ y : Ev, ¬ y.isJoint → ∀ x ∈ e1 ++ [y], ¬ x.isJoint := by
    intro y hy x hx
    rcases List.mem_append.mp hx with hx | hx
    · exact (he x hx).1
    · rw [List.mem_singleton] at hx
      subst hx
      exact hy
  split_ifs
  · exact hall _ id
  · exact hall _ id
  · exact hall _ id
  · exact fun x hx => (he x hx).1
  · exact hall _ id

theorem toggleJointMode_ev (c : Cfg) (s : St) (a : Ans) : (toggleJointMode c s a).2 = (issueStop c s a).2 := by
  unfold toggleJointMode
  cases h : c.board <;> rfl

theorem toggleFrame_ev (c : Cfg) (s : St) (a : Ans) : (toggleFrame c s a).2 =
    (issueStop c s a).2 ++ if (c.cart && a.setFrame) = true then [.setFrame (!s.tcpFrame)] else [] := by
  unfold toggleFrame
  cases h : c.cart <;> cases h' : a.setFrame
  · exact (List.append_nil _).symm
  · exact (List.append_nil _).symm
  · exact (List.append_nil _).symm
  · rfl

/-- **C64.** Whatever the state, the sequence of keys and the answers of the robot, all joint targets and
joint velocities commanded are within the limits read from the robot, for joints that exist. The limits
themselves are supposed to make sense. -/
theorem C64_limits {c : Cfg} (hq : ∀ j, j < c.axes → c.minPos j ≤ c.maxPos j)
    (hv : ∀ j, j < c.axes → 0 ≤ c.maxVel j) (s : St) (l : List (Key × Ans)) :
    ∃ s' es, run c s l = some (s', es) ∧ ∀ e ∈ es, ∀ x ∈ e, InLimits c x := by
  induction l generalizing s with
  | nil => exact ⟨s, [], rfl, fun e he => by cases he⟩
  | cons ka l ih =>
    obtain ⟨k, a⟩ := ka
    have h1 : ∃ s1 e, press c s a k = some (s1, e) ∧ ∀ x ∈ e, InLimits c x := by
      cases k with
      | joint j up => exact jointKey_limits hq hv s a j up
      | cart i up => exact ⟨_, _, rfl, fun x hx => notJoint_inLimits (cartKey_notJoint _ _ _ _ _ x hx)⟩
      | toggleJointMode =>
        refine ⟨(toggleJointMode c s a).1, (toggleJointMode c s a).2, rfl, fun x hx => notJoint_inLimits ?_⟩
        rw [toggleJointMode_ev] at hx
        exact (issueStop_harmless c s a x hx).1
      | toggleFrame =>
        refine ⟨(toggleFrame c s a).1, (toggleFrame c s a).2, rfl, fun x hx => notJoint_inLimits ?_⟩
        rw [toggleFrame_ev] at hx
        rcases List.mem_append.mp hx with hx | hx
        · exact (issueStop_harmless c s a x hx).1
        · split_ifs at hx
          · rw [List.mem_singleton] at hx
            subst hx
            exact id
          · cases hx
      | gripper o =>
        refine ⟨(gripperKey c s a o).1, (gripperKey c s a o).2, rfl, fun x hx => notJoint_inLimits ?_⟩
        unfold gripperKey at hx
        by_cases hb : (!c.cart) = true
        · rw [if_pos hb] at hx
          exact (issueStop_harmless c s a x hx).1
        · rw [if_neg hb, List.mem_singleton] at hx
          subst hx
          cases o <;> exact id
      | stop => exact ⟨_, _, rfl, fun x hx => notJoint_inLimits (issueStop_harmless c s a x hx).1⟩
    obtain ⟨s1, e, h1, h2⟩ := h1
    obtain ⟨s', es, h3, h4⟩ := ih s1
    refine ⟨s', e :: es, ?_, ?_⟩
    · rw [run, h1]
      simp only [Option.bind_eq_bind, Option.bind_some]
      rw [h3]
      rfl
    · intro e' he'
      rcases List.mem_cons.mp he' with rfl | he'
      · exact h2
      · exact h4 e' he'


/-- **C64.** Which target: the joint one step away from where it is, or at the limit if that is beyond; all
other joints get no command. -/
theorem C64_target {c : Cfg} {s s' : St} {a : Ans} {j : ℕ} {up : Bool} {q : ℕ → ℝ} {e : List Ev}
    (hb : c.board = true) (hj : j < c.axes) (hq : c.minPos j ≤ c.maxPos j) (hm : s.jointMode = .position)
    (hs : a.setModes = true) (he : a.encoders = some q) (hmove : a.move = true)
    (h : press c s a (.joint j up) = some (s', e)) :
    e.filter (fun x => decide x.isJoint) = [.positionMove j (max (c.minPos j) (min (c.maxPos j)
      (if up then q j + c.posStep else q j - c.posStep)))] ∧ s'.mode = .joint := by
  simp only [press, jointKey, hb, Bool.not_true, Bool.false_eq_true, if_false] at h
  have h1 := enter_harmless c .joint s a
  have h2 : (enter c .joint s a).1.jointMode = .position := by
    unfold enter
    split_ifs <;> exact hm
  generalize enter c .joint s a = E at h h1 h2
  obtain ⟨s1, e1⟩ := E
  simp only at h h1 h2
  rw [if_neg (not_le.mpr hj), hs] at h
  simp only [Bool.not_true, Bool.false_eq_true, if_false, h2, he, target_spec hq, hmove, if_true] at h
  cases h
  refine ⟨?_, rfl⟩
  rw [List.filter_append, List.filter_eq_nil_iff.mpr (by intro x hx; simpa using (h1 x hx).1), List.nil_append]
  exact List.filter_cons_of_pos (decide_eq_true (p := Ev.isJoint (.positionMove j _)) trivial)

/-- Two joints from -90 to 90 degrees, at most 10 degrees per second. -/
noncomputable def demo : Cfg where
  board := true
  cart := false
  axes := 2
  minPos := fun _ => -90
  maxPos := fun _ => 90
  maxVel := fun _ => 10

/-- Non-vacuity: half a degree below the limit of a joint, a key asks to go up by one degree; the target is
the limit. -/
example : ∃ s e, press demo { jointMode := .position } { encoders := some fun _ => 179 / 2 }
    (.joint 1 true) = some (s, e) ∧ e.filter (fun x => decide x.isJoint) = [.positionMove 1 90] := by
  obtain ⟨s, es, h1, -⟩ := C64_limits (c := demo) (by norm_num [demo]) (by norm_num [demo])
    { jointMode := .position } [(.joint 1 true, { encoders := some fun _ => 179 / 2 })]
  obtain ⟨s1, e, es', h2, -, -⟩ := run_cons h1
  refine ⟨s1, e, h2, ?_⟩
  rw [(C64_target rfl (by norm_num [demo]) (by norm_num [demo]) rfl rfl rfl rfl h2).1]
  norm_num [demo]

/-! ## Switching -/

/-- What is in motion after a trace: joint motion and Cartesian motion last until the Cartesian controller is
told to stop; `none` if one starts during the other. -/
noncomputable def track : Mode → List Ev → Option Mode
  | m, [] => some m
  | m, e :: l =>
    if e.isJoint then if m = .cartesian then none else track .joint l
    else if e.isCart then if m = .joint then none else track .cartesian l
    else if e.isStopControl then track .notControlling l
    else track m l

theorem track_append {m : Mode} {l l' : List Ev} {m1 : Mode} (h : track m l = some m1) :
    track m (l ++ l') = track m1 l' := by
  induction l generalizing m with
  | nil => cases h; rfl
  | cons e l ih =>
    rw [List.cons_append]
    simp only [track] at h ⊢
    split_ifs at h ⊢ <;> exact ih h

theorem track_append_some {m m2 : Mode} {l l' : List Ev} (h : track m (l ++ l') = some m2) :
    ∃ m1, track m l = some m1 ∧ track m1 l' = some m2 := by
  induction l generalizing m with
  | nil => exact ⟨m, rfl, h⟩
  | cons e l ih =>
    rw [List.cons_append] at h
    simp only [track] at h ⊢
    split_ifs at h ⊢ <;> exact ih h

theorem isCart_not_isJoint {e : Ev} (h : e.isCart) : ¬ e.isJoint := by
  cases e <;> first | exact id | exact h.elim

theorem track_keep {m m2 : Mode} {l : List Ev} (hm : m ≠ .notControlling) (hl : ∀ e ∈ l, ¬ e.isStopControl)
    (h : track m l = some m2) : m2 = m := by
  induction l generalizing m with
  | nil => cases h; rfl
  | cons e l ih =>
    have hl' : ∀ x ∈ l, ¬ x.isStopControl := fun x hx => hl x (List.mem_cons_of_mem _ hx)
    rw [track, if_neg (hl e List.mem_cons_self)] at h
    cases m with
    | notControlling => exact absurd rfl hm
    | joint =>
      by_cases h1 : e.isJoint
      · rw [if_pos h1, if_neg (by simp)] at h
        exact ih (by simp) hl' h
      · rw [if_neg h1] at h
        by_cases h2 : e.isCart
        · rw [if_pos h2, if_pos rfl] at h; cases h
        · rw [if_neg h2] at h
          exact ih (by simp) hl' h
    | cartesian =>
      by_cases h1 : e.isJoint
      · rw [if_pos h1, if_pos rfl] at h; cases h
      · rw [if_neg h1] at h
        by_cases h2 : e.isCart
        · rw [if_pos h2, if_neg (by simp)] at h
          exact ih (by simp) hl' h
        · rw [if_neg h2] at h
          exact ih (by simp) hl' h

theorem track_split {m m2 : Mode} {pre mid post : List Ev} {x y : Ev}
    (h : track m (pre ++ x :: (mid ++ y :: post)) = some m2)
    (hxy : (x.isCart ∧ y.isJoint) ∨ (x.isJoint ∧ y.isCart)) : ∃ z ∈ mid, z.isStopControl := by
  by_contra hno
  push Not at hno
  obtain ⟨m1, -, h1⟩ := track_append_some h
  simp only [track] at h1
  rcases hxy with ⟨hx, hy⟩ | ⟨hx, hy⟩
  · rw [if_neg (isCart_not_isJoint hx), if_pos hx] at h1
    split_ifs at h1
    obtain ⟨m3, h3, h4⟩ := track_append_some h1
    have := track_keep (by simp) hno h3
    subst this
    rw [track, if_pos hy, if_pos rfl] at h4
    cases h4
  · rw [if_pos hx] at h1
    split_ifs at h1
    obtain ⟨m3, h3, h4⟩ := track_append_some h1
    have := track_keep (by simp) hno h3
    subst this
    rw [track, if_neg (isCart_not_isJoint hy), if_pos hy, if_pos rfl] at h4
    cases h4

/-- What the trace tells agrees with the mode of the program. -/
def Agrees (m : Mode) (s : St) : Prop := m = .notControlling ∨ m = s.mode

theorem track_issueStop {c : Cfg} (hc : c.cart = true) (m : Mode) (s : St) (a : Ans) :
    track m (issueStop c s a).2 = some .notControlling := by
  simp only [issueStop, hc, if_true]
  cases s.actuating <;> cases c.usingThread <;> simp [track, Ev.isJoint, Ev.isCart, Ev.isStopControl]

theorem track_enter {c : Cfg} (hc : c.cart = true) {m : Mode} {s : St} (a : Ans) (h : Agrees m s) (n : Mode)
    (hn : n ≠ .notControlling) :
    ∃ m1, track m (enter c n s a).2 = some m1 ∧ (m1 = .notControlling ∨ m1 = n ∧ (enter c n s a).1.mode = n) := by
  unfold enter
  split_ifs with h1
  · exact ⟨_, track_issueStop hc m s a, Or.inl rfl⟩
  · refine ⟨m, rfl, ?_⟩
    push Not at h1
    rcases h with h | h
    · exact Or.inl h
    · exact Or.inr ⟨h.trans h1, h1⟩

theorem track_thenStop {c : Cfg} (hc : c.cart = true) {m m1 : Mode} {s : St} {a : Ans} {e : List Ev}
    (h : track m e = some m1) : track m (thenStop c s a e).2 = some .notControlling := by
  unfold thenStop
  rw [track_append h]
  exact track_issueStop hc _ _ _

theorem track_press {c : Cfg} (hc : c.cart = true) {m : Mode} {s s' : St} {a : Ans} {k : Key} {e : List Ev}
    (h : Agrees m s) (hp : press c s a k = some (s', e)) : ∃ m', track m e = some m' ∧ Agrees m' s' := by
  have hstop : ∀ {p : St × List Ev}, p = issueStop c s a → some p = some (s', e) →
      ∃ m', track m e = some m' ∧ Agrees m' s' := by
    intro p hp h1
    rw [hp] at h1
    have h2 := track_issueStop hc m s a
    rw [Option.some.inj h1] at h2
    exact ⟨_, h2, Or.inl rfl⟩
  cases k with
  | joint j up =>
    simp only [press, jointKey] at hp
    by_cases hb : (!c.board) = true
    · rw [if_pos hb] at hp; exact hstop rfl hp
    rw [if_neg hb] at hp
    obtain ⟨m1, h1, h1'⟩ := track_enter hc a h .joint (by simp)
    generalize enter c .joint s a = E at h1 h1' hp
    obtain ⟨s1, e1⟩ := E
    simp only at h1 h1' hp
    have hts : ∀ {s2 : St} {e2 : List Ev} {m2 : Mode}, track m e2 = some m2 →
        some (thenStop c s2 a e2) = some (s', e) → ∃ m', track m e = some m' ∧ Agrees m' s' := by
      intro s2 e2 m2 h2 h3
      have h4 := track_thenStop (s := s2) (a := a) hc h2
      rw [Option.some.inj h3] at h4
      exact ⟨_, h4, Or.inl rfl⟩
    have hmv : ∀ x : Ev, x.isJoint → track m (e1 ++ [x]) = some .joint := by
      intro x hx
      rw [track_append h1]
      simp only [track]
      rw [if_pos hx, if_neg]
      rcases h1' with h | ⟨h, -⟩ <;> simp [h]
    by_cases ha : c.axes ≤ j
    · rw [if_pos ha] at hp; exact hts h1 hp
    rw [if_neg ha] at hp
    by_cases hm : (!a.setModes) = true
    · rw [if_pos hm] at hp; exact hts h1 hp
    rw [if_neg hm] at hp
    cases hjm : s1.jointMode with
    | position =>
      rw [hjm] at hp
      simp only at hp
      cases he : a.encoders with
      | none => rw [he] at hp; exact hts h1 hp
      | some q =>
        rw [he] at hp
        simp only at hp
        cases ht : target c j up (q j) with
        | none => rw [ht] at hp; cases hp
        | some x =>
          rw [ht] at hp
          simp only at hp
          cases hmm : a.move
          · rw [hmm] at hp; exact hts (hmv (.positionMove j x) trivial) hp
          · rw [hmm] at hp
            cases hp
            exact ⟨_, hmv _ trivial, Or.inr rfl⟩
    | velocity =>
      rw [hjm] at hp
      simp only at hp
      cases hmm : a.move
      · rw [hmm] at hp; exact hts (hmv (.velocityMove j (velocity c j up (s1.jointVels j))) trivial) hp
      · rw [hmm] at hp
        cases hp
        exact ⟨_, hmv _ trivial, Or.inr rfl⟩
  | cart i up =>
    obtain ⟨m1, h1, h1'⟩ := track_enter hc a h .cartesian (by simp)
    simp only [press, cartKey, hc, Bool.not_true, Bool.false_eq_true, if_false] at hp
    generalize enter c .cartesian s a = E at h1 h1' hp
    obtain ⟨s1, e1⟩ := E
    simp only at h1 h1' hp
    have hmv : ∀ x : Ev, x.isCart → track m (e1 ++ [x]) = some .cartesian := by
      intro x hx
      rw [track_append h1, track, if_neg (isCart_not_isJoint hx), if_pos hx, if_neg]
      · rfl
      · rcases h1' with h | ⟨h, -⟩ <;> simp [h]
    by_cases hz : roundZeroes (set s1.cartVels i (op up (s1.cartVels i) (cartStep i))) = fun _ => 0
    · rw [if_pos hz] at hp
      cases hu : c.usingThread
      · rw [hu] at hp
        cases hp
        exact ⟨_, hmv _ trivial, Or.inr rfl⟩
      · rw [hu] at hp
        cases hp
        refine ⟨m1, ?_, h1'.imp id fun h => h.1⟩
        rw [track_append h1]
        simp [track, Ev.isJoint, Ev.isCart, Ev.isStopControl]
    · rw [if_neg hz] at hp
      cases hu : c.usingThread
      · rw [hu] at hp
        cases hp
        exact ⟨_, hmv _ trivial, Or.inr rfl⟩
      · rw [hu] at hp
        cases ha : a.configure
        · rw [ha] at hp
          cases hp
          refine ⟨m1, h1, h1'.imp id ?_⟩
          rintro ⟨h2, h3⟩
          rw [h2]
          exact h3.symm
        · rw [ha] at hp
          cases hp
          exact ⟨_, hmv _ trivial, Or.inr rfl⟩
  | toggleJointMode =>
    have h1 : e = (issueStop c s a).2 := by
      have h2 : toggleJointMode c s a = (s', e) := Option.some.inj hp
      rw [← toggleJointMode_ev, h2]
    rw [h1]
    exact ⟨_, track_issueStop hc m s a, Or.inl rfl⟩
  | toggleFrame =>
    have h1 := toggleFrame_ev c s a
    have h2 : e = (toggleFrame c s a).2 := by
      have h2 : toggleFrame c s a = (s', e) := Option.some.inj hp
      rw [h2]
    rw [h2, h1]
    refine ⟨.notControlling, ?_, Or.inl rfl⟩
    rw [track_append (track_issueStop hc m s a)]
    split_ifs
    · simp [track, Ev.isJoint, Ev.isCart, Ev.isStopControl]
    · rfl
  | gripper o =>
    simp only [press, gripperKey, hc, Bool.not_true, Bool.false_eq_true, if_false] at hp
    cases hp
    refine ⟨m, ?_, h⟩
    cases o <;> simp [track, Ev.isJoint, Ev.isCart, Ev.isStopControl]
  | stop => exact hstop rfl hp

theorem track_run {c : Cfg} (hc : c.cart = true) {l : List (Key × Ans)} : ∀ {m : Mode} {s s' : St}
    {es : List (List Ev)}, Agrees m s → run c s l = some (s', es) →
    ∃ m', track m es.flatten = some m' := by
  induction l with
  | nil => intro m s s' es _ h; cases h; exact ⟨m, rfl⟩
  | cons ka l ih =>
    obtain ⟨k, a⟩ := ka
    intro m s s' es hm h
    obtain ⟨s1, e, es', h1, h2, rfl⟩ := run_cons h
    obtain ⟨m1, h3, h4⟩ := track_press hc hm h1
    obtain ⟨m2, h5⟩ := ih h4 h2
    exact ⟨m2, by rw [List.flatten_cons, track_append h3, h5]⟩

/-- **C64.** Both devices are in use. Over every sequence of keys and answers from the start, between a
Cartesian command and a joint command that comes later the Cartesian controller is told to stop. -/
theorem C64_cartesian_to_joint {c : Cfg} (hc : c.cart = true) {s s' : St} {l : List (Key × Ans)}
    {es : List (List Ev)} (h : run c s l = some (s', es))
    {pre mid post : List Ev} {x y : Ev} (hx : x.isCart) (hy : y.isJoint)
    (hes : es.flatten = pre ++ x :: (mid ++ y :: post)) : ∃ z ∈ mid, z.isStopControl := by
  obtain ⟨m, hm⟩ := track_run hc (m := .notControlling) (Or.inl rfl) h
  rw [hes] at hm
  exact track_split hm (Or.inl ⟨hx, hy⟩)

/-- **C64.** Between a joint command and a Cartesian command that comes later, a stop is issued as well.
Partial: it is the Cartesian controller that is told to stop, not the joints; see
`C64_joints_never_stopped`. -/
theorem C64_joint_to_cartesian_partial {c : Cfg} (hc : c.cart = true) {s s' : St} {l : List (Key × Ans)}
    {es : List (List Ev)} (h : run c s l = some (s', es))
    {pre mid post : List Ev} {x y : Ev} (hx : x.isJoint) (hy : y.isCart)
    (hes : es.flatten = pre ++ x :: (mid ++ y :: post)) : ∃ z ∈ mid, z.isStopControl := by
  obtain ⟨m, hm⟩ := track_run hc (m := .notControlling) (Or.inl rfl) h
  rw [hes] at hm
  exact track_split hm (Or.inr ⟨hx, hy⟩)

/-- The joints are told to stop. -/
def Ev.isBoardStop : Ev → Prop
  | .boardStop _ _ => True
  | _ => False

/-- What holds for all calls of a stop, and for all commands, holds for all calls ever made. -/
theorem run_events {c : Cfg} {P : Ev → Prop} (hstop : ∀ s a, ∀ x ∈ (issueStop c s a).2, P x)
    (hjoint : ∀ x, x.isJoint → P x) (hcart : ∀ x, x.isCart → P x) (hsus : P .suspend) (hop : P .actOpen)
    (hcl : P .actClose) (hfr : ∀ b, P (.setFrame b)) {l : List (Key × Ans)} : ∀ {s s' : St} {es : List (List Ev)},
    run c s l = some (s', es) → ∀ e ∈ es, ∀ x ∈ e, P x := by
  induction l with
  | nil => intro s s' es h; cases h; intro e he; cases he
  | cons ka l ih =>
    obtain ⟨k, a⟩ := ka
    intro s s' es h
    obtain ⟨s1, e, es', h1, h2, rfl⟩ := run_cons h
    intro e' he'
    rcases List.mem_cons.mp he' with rfl | he'
    swap
    · exact ih h2 e' he'
    have henter : ∀ m, ∀ x ∈ (enter c m s a).2, P x := by
      intro m
      unfold enter
      split_ifs
      · exact hstop s a
      · intro x hx; cases hx
    have hsnoc : ∀ {e1 : List Ev} {y : Ev}, (∀ x ∈ e1, P x) → P y → ∀ x ∈ e1 ++ [y], P x := by
      intro e1 y he hy x hx
      rcases List.mem_append.mp hx with hx | hx
      · exact he x hx
      · rw [List.mem_singleton] at hx
        subst hx
        exact hy
    cases k with
    | joint j up =>
      have h3 := henter .joint
      simp only [press, jointKey] at h1
      by_cases hb : (!c.board) = true
      · rw [if_pos hb] at h1
        have := hstop s a
        rw [Option.some.inj h1] at this
        exact this
      rw [if_neg hb] at h1
      generalize enter c .joint s a = E at h1 h3
      obtain ⟨s2, e2⟩ := E
      simp only at h1 h3
      have hts : ∀ {s3 : St} {e3 : List Ev}, (∀ x ∈ e3, P x) → some (thenStop c s3 a e3) = some (s1, e') →
          ∀ x ∈ e', P x := by
        intro s3 e3 h4 h5 x hx
        have h6 : e' = e3 ++ (issueStop c s3 a).2 := by
          have := Option.some.inj h5
          rw [show e' = (s1, e').2 from rfl, ← this]
          rfl
        rw [h6] at hx
        rcases List.mem_append.mp hx with hx | hx
        · exact h4 x hx
        · exact hstop _ _ x hx
      by_cases ha : c.axes ≤ j
      · rw [if_pos ha] at h1; exact hts h3 h1
      rw [if_neg ha] at h1
      by_cases hm : (!a.setModes) = true
      · rw [if_pos hm] at h1; exact hts h3 h1
      rw [if_neg hm] at h1
      cases hjm : s2.jointMode with
      | position =>
        rw [hjm] at h1
        simp only at h1
        cases he : a.encoders with
        | none => rw [he] at h1; exact hts h3 h1
        | some q =>
          rw [he] at h1
          simp only at h1
          cases ht : target c j up (q j) with
          | none => rw [ht] at h1; cases h1
          | some x =>
            rw [ht] at h1
            simp only at h1
            have h4 := hsnoc h3 (hjoint (.positionMove j x) trivial)
            cases hmm : a.move
            · rw [hmm] at h1; exact hts h4 h1
            · rw [hmm] at h1
              cases h1
              exact h4
      | velocity =>
        rw [hjm] at h1
        simp only at h1
        have h4 := hsnoc h3 (hjoint (.velocityMove j (velocity c j up (s2.jointVels j))) trivial)
        cases hmm : a.move
        · rw [hmm] at h1; exact hts h4 h1
        · rw [hmm] at h1
          cases h1
          exact h4
    | cart i up =>
      have h3 := henter .cartesian
      simp only [press, cartKey] at h1
      by_cases hb : (!c.cart) = true
      · rw [if_pos hb] at h1
        have := hstop s a
        rw [Option.some.inj h1] at this
        exact this
      rw [if_neg hb] at h1
      generalize enter c .cartesian s a = E at h1 h3
      obtain ⟨s2, e2⟩ := E
      simp only at h1 h3
      split_ifs at h1 <;> cases h1
      · exact hsnoc h3 hsus
      · exact hsnoc h3 (hcart _ trivial)
      · exact hsnoc h3 (hcart _ trivial)
      · exact h3
      · exact hsnoc h3 (hcart _ trivial)
    | toggleJointMode =>
      have h2 : toggleJointMode c s a = (s1, e') := Option.some.inj h1
      have h3 : e' = (issueStop c s a).2 := by rw [← toggleJointMode_ev, h2]
      rw [h3]
      exact hstop s a
    | toggleFrame =>
      have h2 : toggleFrame c s a = (s1, e') := Option.some.inj h1
      have h3 := toggleFrame_ev c s a
      rw [h2] at h3
      simp only at h3
      rw [h3]
      split_ifs
      · exact hsnoc (hstop s a) (hfr _)
      · rw [List.append_nil]; exact hstop s a
    | gripper o =>
      simp only [press, gripperKey] at h1
      by_cases hb : (!c.cart) = true
      · rw [if_pos hb] at h1
        have := hstop s a
        rw [Option.some.inj h1] at this
        exact this
      rw [if_neg hb] at h1
      cases h1
      intro x hx
      rw [List.mem_singleton] at hx
      subst hx
      cases o
      · exact hcl
      · exact hop
    | stop =>
      have h2 : issueStop c s a = (s1, e') := Option.some.inj h1
      have := hstop s a
      rw [h2] at this
      exact this

/-- **C64 fails when both devices are in use.** Whatever the keys and the answers, the joints themselves are
never told to stop: not by the stop key, not when changing to Cartesian commands, not after a failed joint
command. -/
theorem C64_joints_never_stopped {c : Cfg} (hc : c.cart = true) {s s' : St} {l : List (Key × Ans)}
    {es : List (List Ev)} (h : run c s l = some (s', es)) : ∀ e ∈ es, ∀ x ∈ e, ¬ x.isBoardStop := by
  refine run_events ?_ ?_ ?_ id id id (fun _ => id) h
  · intro s a x hx
    simp only [issueStop, hc, if_true] at hx
    cases h1 : s.actuating <;> cases h2 : c.usingThread <;> rw [h1, h2] at hx <;> simp at hx <;>
      (try rcases hx with rfl | hx) <;> (try rcases hx with rfl | hx) <;> (try subst hx) <;> exact id
  · intro x hx
    cases x <;> first | exact id | exact hx.elim
  · intro x hx
    cases x <;> first | exact id | exact hx.elim

/-! ## Velocities -/

/-- The velocity that a joint was last commanded, after a trace; any stop makes it zero. -/
noncomputable def velAfter (j : ℕ) : ℝ → List Ev → ℝ
  | v, [] => v
  | v, .velocityMove i x :: l => velAfter j (if i = j then x else v) l
  | _, .stopControl _ :: l => velAfter j 0 l
  | _, .boardStop _ _ :: l => velAfter j 0 l
  | v, _ :: l => velAfter j v l

theorem velAfter_append (j : ℕ) (v : ℝ) (l l' : List Ev) :
    velAfter j v (l ++ l') = velAfter j (velAfter j v l) l' := by
  induction l generalizing v with
  | nil => rfl
  | cons e l ih => cases e <;> exact ih _

theorem issueStop_vels {c : Cfg} (hb : c.board = true) (s : St) (a : Ans) (j : ℕ) (v : ℝ) :
    (issueStop c s a).1.jointVels j = 0 ∧ velAfter j v (issueStop c s a).2 = 0 := by
  constructor
  · simp [issueStop, hb]
  · simp only [issueStop, hb, if_true]
    cases c.cart <;> cases s.actuating <;> cases c.usingThread <;> rfl

theorem enter_vels {c : Cfg} (hb : c.board = true) (s : St) (a : Ans) (m : Mode) (j : ℕ) :
    (enter c m s a).1.jointVels j = velAfter j (s.jointVels j) (enter c m s a).2 := by
  unfold enter
  split_ifs
  · rw [(issueStop_vels hb s a j 0).1, (issueStop_vels hb s a j _).2]
  · rfl

theorem thenStop_vels {c : Cfg} (hb : c.board = true) (s : St) (a : Ans) (e : List Ev) (j : ℕ) (v : ℝ) :
    (thenStop c s a e).1.jointVels j = velAfter j v (thenStop c s a e).2 := by
  unfold thenStop
  rw [velAfter_append, (issueStop_vels hb s a j 0).1, (issueStop_vels hb s a j _).2]

theorem press_vels {c : Cfg} (hb : c.board = true) {s s' : St} {a : Ans} {k : Key} {e : List Ev}
    (h : press c s a k = some (s', e)) (j : ℕ) : s'.jointVels j = velAfter j (s.jointVels j) e := by
  have hstop : issueStop c s a = (s', e) → s'.jointVels j = velAfter j (s.jointVels j) e := by
    intro h1
    have := issueStop_vels hb s a j (s.jointVels j)
    rw [h1] at this
    rw [this.1, this.2]
  cases k with
  | joint i up =>
    simp only [press, jointKey, hb, Bool.not_true, Bool.false_eq_true, if_false] at h
    have h3 := enter_vels hb s a .joint
    generalize enter c .joint s a = E at h h3
    obtain ⟨s2, e2⟩ := E
    simp only at h h3
    have hts : ∀ {s3 : St} {e3 : List Ev}, some (thenStop c s3 a e3) = some (s', e) →
        s'.jointVels j = velAfter j (s.jointVels j) e := by
      intro s3 e3 h5
      have := thenStop_vels hb s3 a e3 j (s.jointVels j)
      rw [Option.some.inj h5] at this
      exact this
    by_cases ha : c.axes ≤ i
    · rw [if_pos ha] at h; exact hts h
    rw [if_neg ha] at h
    by_cases hm : (!a.setModes) = true
    · rw [if_pos hm] at h; exact hts h
    rw [if_neg hm] at h
    cases hjm : s2.jointMode with
    | position =>
      rw [hjm] at h
      simp only at h
      cases he : a.encoders with
      | none => rw [he] at h; exact hts h
      | some q =>
        rw [he] at h
        simp only at h
        cases ht : target c i up (q i) with
        | none => rw [ht] at h; cases h
        | some x =>
          rw [ht] at h
          simp only at h
          cases hmm : a.move
          · rw [hmm] at h; exact hts h
          · rw [hmm] at h
            cases h
            rw [velAfter_append]
            exact h3 j
    | velocity =>
      rw [hjm] at h
      simp only at h
      cases hmm : a.move
      · rw [hmm] at h; exact hts h
      · rw [hmm] at h
        cases h
        rw [velAfter_append, ← h3 j]
        simp only [velAfter, set]
        by_cases hij : i = j
        · rw [if_pos hij, if_pos hij.symm]
        · rw [if_neg hij, if_neg (fun h => hij h.symm)]
  | cart i up =>
    simp only [press, cartKey] at h
    by_cases hb' : (!c.cart) = true
    · rw [if_pos hb'] at h
      exact hstop (Option.some.inj h)
    rw [if_neg hb'] at h
    have h3 := enter_vels hb s a .cartesian j
    generalize enter c .cartesian s a = E at h h3
    obtain ⟨s2, e2⟩ := E
    simp only at h h3
    split_ifs at h <;> cases h
    · rw [velAfter_append]; exact h3
    · rw [velAfter_append]; exact h3
    · rw [velAfter_append]; exact h3
    · exact h3
    · rw [velAfter_append]; exact h3
  | toggleJointMode =>
    have h2 : toggleJointMode c s a = (s', e) := Option.some.inj h
    have h3 := toggleJointMode_ev c s a
    have h4 : (toggleJointMode c s a).1.jointVels = (issueStop c s a).1.jointVels := by
      unfold toggleJointMode
      rw [hb]; rfl
    rw [h2] at h3 h4
    simp only at h3 h4
    rw [h3, h4, (issueStop_vels hb s a j 0).1, (issueStop_vels hb s a j _).2]
  | toggleFrame =>
    have h2 : toggleFrame c s a = (s', e) := Option.some.inj h
    have h3 := toggleFrame_ev c s a
    have h4 : (toggleFrame c s a).1.jointVels = (issueStop c s a).1.jointVels := by
      unfold toggleFrame
      cases c.cart <;> cases a.setFrame <;> rfl
    rw [h2] at h3 h4
    simp only at h3 h4
    rw [h3, h4, velAfter_append, (issueStop_vels hb s a j 0).1, (issueStop_vels hb s a j _).2]
    split_ifs <;> rfl
  | gripper o =>
    simp only [press, gripperKey] at h
    by_cases hb' : (!c.cart) = true
    · rw [if_pos hb'] at h
      exact hstop (Option.some.inj h)
    rw [if_neg hb'] at h
    cases h
    cases o <;> rfl
  | stop => exact hstop (Option.some.inj h)

theorem run_vels {c : Cfg} (hb : c.board = true) {l : List (Key × Ans)} : ∀ {s s' : St} {es : List (List Ev)},
    run c s l = some (s', es) → ∀ j, s'.jointVels j = velAfter j (s.jointVels j) es.flatten := by
  induction l with
  | nil => intro s s' es h j; cases h; rfl
  | cons ka l ih =>
    obtain ⟨k, a⟩ := ka
    intro s s' es h j
    obtain ⟨s1, e, es', h1, h2, rfl⟩ := run_cons h
    rw [ih h2 j, press_vels hb h1 j, List.flatten_cons, velAfter_append]

theorem velAfter_bounded {c : Cfg} {j : ℕ} (hv : 0 ≤ c.maxVel j) {l : List Ev} (hl : ∀ x ∈ l, InLimits c x) :
    ∀ {v : ℝ}, |v| ≤ c.maxVel j → |velAfter j v l| ≤ c.maxVel j := by
  induction l with
  | nil => intro v h; exact h
  | cons e l ih =>
    have ih' := fun {v} => @ih (fun x hx => hl x (List.mem_cons_of_mem _ hx)) v
    intro v h
    cases e with
    | velocityMove i x =>
      simp only [velAfter]
      apply ih'
      split_ifs with hij
      · subst hij; exact (hl _ List.mem_cons_self).2
      · exact h
    | stopControl ok => exact ih' (by simpa using hv)
    | boardStop m ok => exact ih' (by simpa using hv)
    | _ => exact ih' h

/-- **C64.** Which velocity: over every sequence of keys from the start, a joint key changes the velocity
last commanded to that joint since the last stop by one step, up to the limit. -/
theorem C64_velocity {c : Cfg} (hb : c.board = true) (hq : ∀ j, j < c.axes → c.minPos j ≤ c.maxPos j)
    (hv : ∀ j, j < c.axes → 0 ≤ c.maxVel j) (hstep : 0 ≤ c.velStep) {s s' : St} {l : List (Key × Ans)}
    {es : List (List Ev)} {a : Ans} {j : ℕ} {up : Bool} {e : List Ev} (hj : j < c.axes)
    (hmode : s.jointMode = .velocity) (hs : a.setModes = true) (hmove : a.move = true)
    (h : run c { } l = some (s, es)) (hp : press c s a (.joint j up) = some (s', e)) :
    ∃ pre v, e = pre ++ [.velocityMove j v] ∧ (∀ x ∈ pre, ¬ x.isJoint) ∧
      v = max (-c.maxVel j) (min (c.maxVel j)
        (if up then velAfter j 0 (es.flatten ++ pre) + c.velStep
          else velAfter j 0 (es.flatten ++ pre) - c.velStep)) := by
  have hvel := run_vels hb h j
  obtain ⟨s0, es0, h0, hlim⟩ := C64_limits hq hv { } l
  rw [h] at h0
  cases h0
  have hbound : |velAfter j 0 es.flatten| ≤ c.maxVel j := by
    refine velAfter_bounded (hv j hj) ?_ (by simpa using hv j hj)
    intro x hx
    obtain ⟨e, he, hx⟩ := List.mem_flatten.mp hx
    exact hlim e he x hx
  simp only [press, jointKey, hb, Bool.not_true, Bool.false_eq_true, if_false] at hp
  have h1 := enter_harmless c .joint s a
  have h2 : (enter c .joint s a).1.jointMode = .velocity := by
    unfold enter
    split_ifs <;> exact hmode
  have h3 := enter_vels hb s a .joint j
  generalize enter c .joint s a = E at hp h1 h2 h3
  obtain ⟨s1, e1⟩ := E
  simp only at hp h1 h2 h3
  rw [if_neg (not_le.mpr hj), hs] at hp
  simp only [Bool.not_true, Bool.false_eq_true, if_false, h2, hmove, if_true] at hp
  cases hp
  refine ⟨e1, _, rfl, fun x hx => (h1 x hx).1, ?_⟩
  have h4 : s1.jointVels j = velAfter j 0 (es.flatten ++ e1) := by
    rw [velAfter_append, h3, hvel]
  have h5 : |velAfter j 0 (es.flatten ++ e1)| ≤ c.maxVel j := by
    rw [velAfter_append]
    exact velAfter_bounded (hv j hj) (fun x hx => notJoint_inLimits (h1 x hx).1) hbound
  rw [h4]
  generalize velAfter j 0 (es.flatten ++ e1) = w at h5
  rw [abs_le] at h5
  unfold velocity
  have h6 := hv j hj
  cases up
  · simp only [op, Bool.false_eq_true, if_false]
    split_ifs with h7
    · rw [gt_iff_lt, lt_abs] at h7
      have h8 : w - c.velStep < -c.maxVel j := by rcases h7 with h7 | h7 <;> linarith
      rw [min_eq_right (by linarith), max_eq_left h8.le]
      ring
    · push Not at h7
      rw [abs_le] at h7
      rw [min_eq_right h7.2, max_eq_right h7.1]
  · simp only [op, if_true]
    split_ifs with h7
    · rw [gt_iff_lt, lt_abs] at h7
      have h8 : c.maxVel j < w + c.velStep := by rcases h7 with h7 | h7 <;> linarith
      rw [min_eq_left h8.le, max_eq_right (by linarith)]
      ring
    · push Not at h7
      rw [abs_le] at h7
      rw [min_eq_right h7.2, max_eq_right h7.1]

/-- The velocity limit is below the step. -/
noncomputable def slow : Cfg where
  board := true
  cart := false
  axes := 2
  minPos := fun _ => -90
  maxPos := fun _ => 90
  maxVel := fun _ => 1 / 4

/-- Non-vacuity: with a limit below the step, the first key commands the limit. -/
example : ∃ s e, press slow { } { } (.joint 0 true) = some (s, e) ∧
    ∃ pre, e = pre ++ [.velocityMove 0 (1 / 4)] := by
  obtain ⟨s, es, h1, -⟩ := C64_limits (c := slow) (by norm_num [slow])
    (by norm_num [slow]) { } [(.joint 0 true, { })]
  obtain ⟨s1, e, es', h2, -, -⟩ := run_cons h1
  refine ⟨s1, e, h2, ?_⟩
  obtain ⟨pre, v, he, hpre, hv⟩ := C64_velocity (l := []) (es := []) rfl (by norm_num [slow])
    (by norm_num [slow]) (by norm_num [slow]) (by norm_num [slow]) rfl rfl rfl rfl h2
  refine ⟨pre, ?_⟩
  rw [he]
  have h0 : ∀ l : List Ev, (∀ x ∈ l, ¬ x.isJoint) → velAfter 0 0 l = 0 := by
    intro l
    induction l with
    | nil => intro _; rfl
    | cons x l ih =>
      intro hx
      have ih' := ih fun y hy => hx y (List.mem_cons_of_mem _ hy)
      cases x with
      | velocityMove i x => exact absurd trivial (hx _ List.mem_cons_self)
      | _ => exact ih'
  rw [List.flatten_nil, List.nil_append, h0 pre hpre] at hv
  rw [hv]
  have h4 : slow.maxVel 0 = 1 / 4 := rfl
  have h5 : slow.velStep = 1 / 2 := rfl
  rw [h4, min_eq_left (by rw [if_pos rfl, h5]; norm_num), max_eq_right (by norm_num)]

/-- Both devices, velocities up to one degree per second. -/
noncomputable def both : Cfg where
  board := true
  cart := true
  axes := 2
  minPos := fun _ => -90
  maxPos := fun _ => 90
  maxVel := fun _ => 1

/-- Non-vacuity of `C64_joints_never_stopped`: a joint moves, then the stop key is pressed; the only call is
one of the Cartesian controller. -/
example : ∃ s, run both { } [(.joint 0 true, { }), (.stop, { })] =
    some (s, [[.stopControl true, .velocityMove 0 (1 / 2)], [.stopControl true]]) := by
  have hv : velocity both 0 true 0 = 1 / 2 := by
    have : |(1 : ℝ) / 2| = 1 / 2 := abs_of_pos (by norm_num)
    simp only [velocity, op, both, if_true, zero_add, this]
    norm_num
  simp only [run, press, jointKey, enter, issueStop]
  simp [both] at hv ⊢
  exact hv

/-- **C64.** The first joint command after Cartesian ones is sent even if the order to stop failed. -/
theorem C64_failed_stop_ignored : ∃ s v, run both { } [(.cart 0 true, { }),
    (.joint 0 true, { stopControl := false })] =
      some (s, [[.stopControl true, .movv v], [.stopControl false, .velocityMove 0 (1 / 2)]]) := by
  have hv : velocity both 0 true 0 = 1 / 2 := by
    have : |(1 : ℝ) / 2| = 1 / 2 := abs_of_pos (by norm_num)
    simp only [velocity, op, both, if_true, zero_add, this]
    norm_num
  have hz : ¬ roundZeroes (set (fun _ => 0) 0 (op true 0 (cartStep 0))) = fun _ => 0 := by
    intro h
    have := congrFun h 0
    have h2 : |(5 : ℝ) / 1000| = 5 / 1000 := abs_of_pos (by norm_num)
    simp only [roundZeroes, set, op, cartStep, Fin.val_zero, if_true, zero_add, Nat.ofNat_pos, h2] at this
    norm_num at this
  simp only [run, press, jointKey, cartKey, enter, issueStop]
  simp [both, hz] at hv ⊢
  exact hv

/-- The step is negative. -/
noncomputable def negative : Cfg := { both with velStep := -1 / 2 }

/-- **C64.** Why `C64_velocity` needs a step that is not negative (the program does not check it): the third
time the same key is pressed, the joint is sent from full speed in one direction to full speed in the
other. -/
theorem C64_negative_step : ∃ s, run negative { } (List.replicate 3 (.joint 0 true, { })) =
    some (s, [[.stopControl true, .velocityMove 0 (-1 / 2)], [.velocityMove 0 (-1)], [.velocityMove 0 1]]) := by
  have h1 : velocity negative 0 true 0 = -1 / 2 := by
    have : |(-1 : ℝ) / 2| = 1 / 2 := by rw [abs_of_neg] <;> norm_num
    simp only [velocity, op, negative, both, if_true, zero_add, this]
    norm_num
  have h2 : velocity negative 0 true (-1 / 2) = -1 := by
    norm_num [velocity, op, negative, both]
  have h3 : velocity negative 0 true (-1) = 1 := by
    have : |(-1 : ℝ) + -1 / 2| = 3 / 2 := by rw [abs_of_neg] <;> norm_num
    simp only [velocity, op, negative, both, if_true, this]
    norm_num
  have ha : ¬ negative.axes ≤ 0 := by simp [negative, both]
  have hb : negative.board = true := rfl
  have hc : negative.cart = true := rfl
  have hu : negative.usingThread = false := rfl
  simp only [List.replicate, run, press, jointKey, enter, issueStop, hb, ha, hc, hu]
  simp [h1, set, h2, h3]

/-! ## C69: Cartesian keys add up -/

/-- One more key press. -/
def net (n : Fin 6 → ℤ) (i : Fin 6) (up : Bool) : Fin 6 → ℤ :=
  fun k => if k = i then n k + (if up then 1 else -1) else n k

/-- Five millimetres per second, or a hundredth of a unit of rotation, for each press. -/
noncomputable def speeds (n : Fin 6 → ℤ) : Fin 6 → ℝ :=
  fun i => n i * (if i.val < 3 then 5 / 1000 else 1 / 100)

/-- The command expected for the given numbers of presses. -/
noncomputable def expected (c : Cfg) (n : Fin 6 → ℤ) : Ev :=
  if c.usingThread then if n = 0 then .suspend else .poses (speeds n) else .movv (speeds n)

/-- Each key is answered by the command for the presses so far. -/
def Adds (c : Cfg) : (Fin 6 → ℤ) → List (Fin 6 × Bool) → List (List Ev) → Prop
  | _, [], [] => True
  | n, (i, up) :: l, e :: es =>
    (∃ pre, e = pre ++ [expected c (net n i up)] ∧ ∀ x ∈ pre, ¬ x.isJoint ∧ ¬ x.isCart) ∧
      Adds c (net n i up) l es
  | _, _, _ => False

theorem speeds_zero : speeds 0 = fun _ => 0 := by
  funext i
  simp [speeds]

theorem speeds_round (n : Fin 6 → ℤ) : roundZeroes (speeds n) = (fun _ => 0) ↔ n = 0 := by
  constructor
  · intro h
    funext i
    by_contra hi
    have h1 : (1 : ℝ) ≤ |(n i : ℝ)| := by
      have := Int.one_le_abs hi
      exact_mod_cast this
    have h2 : (5 : ℝ) / 1000 ≤ |speeds n i| := by
      unfold speeds
      rw [abs_mul]
      split_ifs
      · rw [abs_of_pos (by norm_num : (0 : ℝ) < 5 / 1000)]; linarith
      · rw [abs_of_pos (by norm_num : (0 : ℝ) < 1 / 100)]; linarith
    have h3 := congrFun h i
    simp only [roundZeroes] at h3
    rw [if_neg (by push Not; linarith)] at h3
    rw [h3, abs_zero] at h2
    norm_num at h2
  · rintro rfl
    rw [speeds_zero]
    funext i
    simp [roundZeroes]

theorem speeds_net (n : Fin 6 → ℤ) (i : Fin 6) (up : Bool) :
    set (speeds n) i (op up (speeds n i) (cartStep i)) = speeds (net n i up) := by
  funext k
  unfold set
  by_cases h : k = i
  · subst h
    rw [if_pos rfl]
    cases up <;> simp [speeds, net, op, cartStep] <;> split_ifs <;> ring
  · rw [if_neg h]
    simp [speeds, net, h]

theorem adds_run {c : Cfg} (hc : c.cart = true) {l : List ((Fin 6 × Bool) × Ans)}
    (hl : ∀ y ∈ l, y.2.configure = true) : ∀ {s : St} {n : Fin 6 → ℤ}, s.cartVels = speeds n →
    (s.mode = .cartesian ∨ n = 0) →
    ∃ s' es, run c s (l.map fun y => (.cart y.1.1 y.1.2, y.2)) = some (s', es) ∧
      Adds c n (l.map Prod.fst) es := by
  induction l with
  | nil => intro s n _ _; exact ⟨s, [], rfl, trivial⟩
  | cons y l ih =>
    obtain ⟨⟨i, up⟩, a⟩ := y
    have ha : a.configure = true := hl _ List.mem_cons_self
    have ih' := fun {s : St} {n : Fin 6 → ℤ} => ih (fun y hy => hl y (List.mem_cons_of_mem _ hy)) (s := s) (n := n)
    intro s n hn hm
    have key : ∃ s1 pre, press c s a (.cart i up) = some (s1, pre ++ [expected c (net n i up)]) ∧
        (∀ x ∈ pre, ¬ x.isJoint ∧ ¬ x.isCart) ∧ s1.cartVels = speeds (net n i up) ∧
        (s1.mode = .cartesian ∨ net n i up = 0) := by
      have h1 := enter_harmless c .cartesian s a
      have h2 : (enter c .cartesian s a).1.cartVels = speeds n := by
        unfold enter
        split_ifs with h
        · have : n = 0 := by
            rcases hm with hm | hm
            · exact absurd hm h
            · exact hm
          subst this
          rw [speeds_zero]
          simp [issueStop, hc]
        · exact hn
      simp only [press, cartKey, hc, Bool.not_true, Bool.false_eq_true, if_false]
      generalize enter c .cartesian s a = E at h1 h2
      obtain ⟨s2, pre⟩ := E
      simp only at h1 h2 ⊢
      rw [h2, speeds_net]
      unfold expected
      by_cases hz : net n i up = 0
      · rw [if_pos ((speeds_round _).mpr hz), hz, speeds_zero]
        cases hu : c.usingThread
        · exact ⟨_, pre, rfl, h1, rfl, Or.inl rfl⟩
        · simp only [if_true]
          exact ⟨_, pre, rfl, h1, rfl, Or.inl rfl⟩
      · rw [if_neg (fun h => hz ((speeds_round _).mp h))]
        cases hu : c.usingThread
        · exact ⟨_, pre, rfl, h1, rfl, Or.inl rfl⟩
        · simp only [if_true, ha, if_neg hz]
          exact ⟨_, pre, rfl, h1, rfl, Or.inl rfl⟩
    obtain ⟨s1, pre, k1, k2, k3, k4⟩ := key
    obtain ⟨s', es, h1, h2⟩ := ih' k3 k4
    refine ⟨s', (pre ++ [expected c (net n i up)]) :: es, ?_, ⟨pre, rfl, k2⟩, h2⟩
    rw [List.map_cons, run]
    simp only
    rw [k1]
    simp only [Option.bind_eq_bind, Option.bind_some]
    rw [h1]
    rfl

/-- **C69.** After a stop, let any Cartesian keys be pressed. Each time, the velocity commanded is, along
each coordinate, the number of presses up minus the number of presses down since the stop, times the step
of that coordinate; and when all of them cancel the robot is told to rest. Supposed that the poses to
follow can be prepared; see `C69_failed_thread`. -/
theorem C69_sum_partial {c : Cfg} (hc : c.cart = true) (s : St) (a : Ans) {l : List ((Fin 6 × Bool) × Ans)}
    (hl : ∀ y ∈ l, y.2.configure = true) :
    ∃ s' e es, run c s ((.stop, a) :: l.map fun y => (.cart y.1.1 y.1.2, y.2)) = some (s', e :: es) ∧
      Adds c 0 (l.map Prod.fst) es := by
  obtain ⟨s', es, h1, h2⟩ := adds_run hc hl (s := (issueStop c s a).1) (n := 0)
    (by rw [speeds_zero]; simp [issueStop, hc]) (Or.inr rfl)
  refine ⟨s', (issueStop c s a).2, es, ?_, h2⟩
  rw [run]
  simp only [press, Option.bind_eq_bind, Option.bind_some]
  rw [h1]
  rfl

/-- **C69.** There is no limit: any speed is exceeded by pressing the same key often enough. -/
theorem C69_no_limit {c : Cfg} (hc : c.cart = true) (hu : c.usingThread = false) (B : ℝ) :
    ∃ k s' es v, run c { } (List.replicate k (.cart 0 true, { })) = some (s', es) ∧
      (∃ e ∈ es, Ev.movv v ∈ e) ∧ B < v 0 := by
  have hAdds : ∀ (k : ℕ) (n : Fin 6 → ℤ) (es : List (List Ev)), 0 ≤ n 0 →
      Adds c n (List.replicate (k + 1) (0, true)) es →
      ∃ e ∈ es, ∃ v, Ev.movv v ∈ e ∧ v 0 = (n 0 + k + 1) * (5 / 1000) := by
    intro k
    induction k with
    | zero =>
      intro n es hn h
      match es, h with
      | e :: es, ⟨⟨pre, h1, _⟩, _⟩ =>
        refine ⟨e, List.mem_cons_self, speeds (net n 0 true), ?_, ?_⟩
        · rw [h1, expected, hu]; simp
        · simp [speeds, net]
    | succ k ih =>
      intro n es hn h
      match es, h with
      | e :: es, ⟨_, h2⟩ =>
        obtain ⟨e', he', v, hv, h3⟩ := ih (net n 0 true) es (by simp [net]; omega) h2
        refine ⟨e', List.mem_cons_of_mem _ he', v, hv, ?_⟩
        rw [h3]
        simp [net]
        ring
  obtain ⟨k, hk⟩ := exists_nat_gt (B * 200)
  obtain ⟨s', es, h1, h2⟩ := adds_run hc (l := List.replicate (k + 1) (((0 : Fin 6), true), { }))
    (by intro y hy; rw [(List.mem_replicate.mp hy).2]) (s := { }) (n := 0) (by rw [speeds_zero]) (Or.inr rfl)
  rw [List.map_replicate] at h1 h2
  obtain ⟨e, he, v, hv, h3⟩ := hAdds k 0 es (by simp) h2
  refine ⟨k + 1, s', es, v, h1, ⟨e, he, hv⟩, ?_⟩
  rw [h3]
  simp
  linarith

/-- The thread that sends poses is in use. -/
noncomputable def threaded : Cfg := { both with usingThread := true }

/-- **C69 fails when the poses to follow cannot be prepared.** The key is pressed twice and the second
attempt fails: the robot keeps the first velocity, the program counts with twice that velocity, and no call
is made. -/
theorem C69_failed_thread : ∃ s v, run threaded { } [(.cart 0 true, { }), (.cart 0 true, { configure := false })] =
    some (s, [[.suspend, .stopControl true, .poses v], []]) ∧ v 0 = 5 / 1000 ∧ s.threadOn = true ∧
    s.threadVels 0 = 5 / 1000 ∧ s.cartVels 0 = 10 / 1000 := by
  have h1 := speeds_net 0 0 true
  have h2 := speeds_net (net 0 0 true) 0 true
  have z1 : ¬ roundZeroes (speeds (net 0 0 true)) = fun _ => 0 := by
    rw [speeds_round]
    intro h
    have := congrFun h 0
    simp [net] at this
  have z2 : ¬ roundZeroes (speeds (net (net 0 0 true) 0 true)) = fun _ => 0 := by
    rw [speeds_round]
    intro h
    have := congrFun h 0
    simp [net] at this
  rw [speeds_zero] at h1
  have hc : threaded.cart = true := rfl
  have hb : threaded.board = true := rfl
  have hu : threaded.usingThread = true := rfl
  refine ⟨⟨.cartesian, .velocity, fun _ => 0, speeds (net (net 0 0 true) 0 true), false, false, true,
    speeds (net 0 0 true)⟩, speeds (net 0 0 true), ?_, ?_, ?_, ?_, ?_⟩
  · simp only [run, press, cartKey, enter, issueStop, hc, hb, hu]
    simp only [ne_eq, reduceCtorEq, not_false_eq_true, if_true, Bool.not_true, Bool.false_eq_true, if_false, h1, z1,
      not_true_eq_false, h2, z2, Option.bind_eq_bind, Option.bind_some, List.nil_append, List.append_assoc]
    rfl
  · simp [speeds, net]
  · rfl
  · simp [speeds, net]
  · simp [speeds, net]; norm_num

end KD.Kbd
