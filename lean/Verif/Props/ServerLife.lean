import Verif.Net.ServerLife

/-!
# C50: the server and the controller it is attached to
-/

namespace KD.Net

variable {κ : Type}

/-- The controller that is attached after a history: the last one attached and not detached. -/
def attached (start : Option κ) (es : List (Event κ)) : Option κ :=
  es.foldl (fun k e => match e with
    | .attach (some k') => k'
    | .detach => none
    | _ => k) start

/-- The controllers that were ever attached. -/
def everAttached (start : Option κ) (es : List (Event κ)) (k : κ) : Prop :=
  start = some k ∨ .attach (some (some k)) ∈ es

/-- An option with a wrong name makes `open` return early. -/
def Config.Sound (c : Config κ) : Prop := c.angleRepr ≠ .unknown ∧ c.angularUnits ≠ .unknown

/-! ## Lemmas -/

theorem own_after (s : Server κ) (es : List (Event κ)) : (s.after es).own = attached s.own es := by
  induction es generalizing s with
  | nil => rfl
  | cons e es ih =>
    show ((s.step e).1.after es).own = _
    rw [ih]
    rcases e with (_ | ⟨_ | k⟩) | _ | _ | _ | _ | _ <;> rfl

theorem openWith_own (c : Config κ) : (Server.openWith c).1.own = c.subdevice := by
  unfold Server.openWith
  dsimp only
  split_ifs <;> simp only [Server.configureHandle] <;> split <;> simp_all

/-- The stream handle is null or names a controller that was attached. -/
theorem stream_after (s : Server κ) (start : Option κ) (es : List (Event κ))
    (h : s.stream = .null ∨ ∃ k, s.stream = .to k ∧ start = some k) :
    (s.after es).stream = .null ∨ ∃ k, (s.after es).stream = .to k ∧ everAttached start es k := by
  have step : ∀ (s : Server κ) (e : Event κ), (s.step e).1.stream = s.stream ∨
      ∃ k, e = .attach (some (some k)) ∧ (s.step e).1.stream = .to k := by
    intro s e
    rcases e with (_ | ⟨_ | k⟩) | _ | _ | _ | _ | _
    · exact Or.inl rfl
    · exact Or.inl rfl
    · exact Or.inr ⟨k, rfl, rfl⟩
    all_goals exact Or.inl rfl
  have gen : ∀ (es : List (Event κ)) (s : Server κ), (s.after es).stream = s.stream ∨
      ∃ k, .attach (some (some k)) ∈ es ∧ (s.after es).stream = .to k := by
    intro es
    induction es with
    | nil => intro s; exact Or.inl rfl
    | cons e es ih =>
      intro s
      rcases ih (s.step e).1 with h1 | ⟨k, h1, h2⟩
      · rcases step s e with h2 | ⟨k, rfl, h2⟩
        · exact Or.inl (h1.trans h2)
        · exact Or.inr ⟨k, by simp, h1.trans h2⟩
      · exact Or.inr ⟨k, by simp [h1], h2⟩
  rcases gen es s with h1 | ⟨k, h1, h2⟩
  · rcases h with h | ⟨k, h, hk⟩
    · exact Or.inl (h1.trans h)
    · exact Or.inr ⟨k, h1.trans h, Or.inl hk⟩
  · exact Or.inr ⟨k, h2, Or.inr h1⟩

theorem openWith_stream (c : Config κ) : (Server.openWith c).1.stream = .null ∨
    ∃ k, (Server.openWith c).1.stream = .to k ∧ c.subdevice = some k := by
  unfold Server.openWith
  dsimp only
  cases hk : c.subdevice <;> split_ifs <;> simp_all [Server.configureHandle]

/-! ## C50 -/

/-- C50, the published state: whatever happened, the periodic thread asks the controller that is attached at
that moment or nobody.
Partial: the ports for requests do not have this property, see below. -/
theorem C50_published_state_partial (c : Config κ) (es : List (Event κ)) (k : κ)
    (h : (((Server.openWith c).1.after es).step .tick).2 = .controller k) :
    attached c.subdevice es = some k := by
  rw [← openWith_own, ← own_after]
  simp only [Server.step] at h
  split at h
  · split at h
    · rename_i k' hk
      cases h
      exact hk
    · exact absurd h (by simp)
  · exact absurd h (by simp)

/-- C50, streaming: whatever happened, a streamed command is never undefined and reaches a controller only if
that one was attached some time before. Partial: it may have been detached since, see below. -/
theorem C50_stream_partial (c : Config κ) (es : List (Event κ)) :
    (((Server.openWith c).1.after es).step .stream).2 = .nobody ∨
      ∃ k, (((Server.openWith c).1.after es).step .stream).2 = .controller k ∧
        everAttached c.subdevice es k := by
  rcases stream_after _ c.subdevice es (openWith_stream c) with h | ⟨k, h, hk⟩
  · left; simp only [Server.step, h, Handle.use]
  · right; exact ⟨k, by simp only [Server.step, h, Handle.use], hk⟩

/-- Requests at one of the ports. -/
def Event.IsRequest : Event κ → Prop
  | .rpc => True
  | .transform => True
  | .stream => True
  | .tick => True
  | _ => False

/-- C50, while a controller is attached: after any history that ends with attaching `k`, requests at the RPC
port and streamed commands go to `k`, and converted requests too if there is such a port. -/
theorem C50_attached_controller_used (c : Config κ) (es rs : List (Event κ)) (k : κ)
    (hr : ∀ e ∈ rs, e.IsRequest ∨ e = .attach none) :
    let s := (Server.openWith c).1.after (es ++ .attach (some (some k)) :: rs)
    (s.step .rpc).2 = .controller k ∧ (s.step .stream).2 = .controller k ∧
      ((s.step .transform).2 = .controller k ∨ s.transform = none) ∧
      ((s.step .tick).2 = .controller k ∨ s.portOpen = false) := by
  intro s
  have hs : s = (((Server.openWith c).1.after es).step (.attach (some (some k)))).1 := by
    have gen : ∀ (rs : List (Event κ)) (t : Server κ), (∀ e ∈ rs, e.IsRequest ∨ e = .attach none) →
        t.after rs = t := by
      intro rs
      induction rs with
      | nil => intro t _; rfl
      | cons e rs ih =>
        intro t h
        have h1 : (t.step e).1 = t := by
          rcases h e (by simp) with h1 | rfl
          · cases e <;> first | rfl | exact absurd h1 (by simp [Event.IsRequest])
          · rfl
        show (t.step e).1.after rs = t
        rw [h1]
        exact ih t fun e he => h e (by simp [he])
    show (es ++ .attach (some (some k)) :: rs).foldl _ _ = _
    rw [List.foldl_append, List.foldl_cons]
    exact gen rs _ hr
  rw [hs]
  refine ⟨rfl, rfl, ?_, ?_⟩
  · simp only [Server.step, Server.configureHandle]
    cases ((Server.openWith c).1.after es).transform <;> simp [Handle.use]
  · simp only [Server.step, Server.configureHandle]
    by_cases h : ((Server.openWith c).1.after es).portOpen = true
    · left; simp [h]
    · right; simpa using h

/-- C50, with a subdevice and sound options: requests go to it from the start. -/
theorem C50_subdevice_used (c : Config κ) (hc : c.Sound) (k : κ) (hk : c.subdevice = some k) :
    let s := (Server.openWith c).1
    (Server.openWith c).2 = true ∧ (s.step .rpc).2 = .controller k ∧ (s.step .stream).2 = .controller k ∧
      ((s.step .transform).2 = .controller k ∨ s.transform = none) := by
  intro s
  obtain ⟨h1, h2⟩ := hc
  have hs : Server.openWith c = (if c.coordRepr = .known ∨ c.angleRepr = .known ∨ c.angularUnits = .known then
      (⟨some k, .uninit, some .uninit, .null, c.publishes, false⟩ : Server κ)
      else ⟨some k, .uninit, none, .null, c.publishes, false⟩).configureHandle := by
    unfold Server.openWith
    simp only [h1, h2, hk, if_false, Option.isSome_some, if_true]
  simp only [s, hs]
  split <;> simp [Server.configureHandle, Server.step, Handle.use]

/-- A server with a port for conversions whose controller is attached, used, replaced and used. -/
def replaced : Server ℕ := (Server.openWith (κ := ℕ) ⟨none, true, .absent, .known, .absent⟩).1.after
  ([Event.attach (some (some 1)), .rpc, .detach] ++ Event.attach (some (some 2)) :: [.tick])

example : (replaced.step .rpc).2 = .controller 2 ∧ (replaced.step .transform).2 = .controller 2 := by
  have h := C50_attached_controller_used (κ := ℕ) ⟨none, true, .absent, .known, .absent⟩
    [.attach (some (some 1)), .rpc, .detach] [.tick] 2 (by simp [Event.IsRequest])
  exact ⟨h.1, h.2.2.1.resolve_right (by decide)⟩

example : (((Server.openWith (κ := ℕ) ⟨none, true, .absent, .absent, .absent⟩).1.after
      [.attach (some (some 1))]).step .tick).2 = .controller 1 := by decide

/-- C50 fails before a controller is attached: without a subdevice, a request at the RPC port reads a pointer
that was never written, for every configuration. -/
theorem C50_request_before_attach (c : Config κ) (h : c.subdevice = none) :
    (Server.openWith c).2 = true ∧ ((Server.openWith c).1.step .rpc).2 = .undefined := by
  unfold Server.openWith
  simp only [h, Option.isSome_none, Bool.false_eq_true, if_false]
  split_ifs <;> exact ⟨rfl, rfl⟩

/-- C50 fails after detaching: for every configuration and history, a request or a streamed command still
goes to the controller that was attached before. -/
theorem C50_request_after_detach (c : Config κ) (es : List (Event κ)) (k : κ) :
    let s := (Server.openWith c).1.after (es ++ [.attach (some (some k)), .detach])
    attached c.subdevice (es ++ [.attach (some (some k)), .detach]) = none ∧
      (s.step .rpc).2 = .controller k ∧ (s.step .stream).2 = .controller k := by
  intro s
  have hs : s = ((((Server.openWith c).1.after es).step (.attach (some (some k)))).1.step .detach).1 := by
    show (es ++ _).foldl _ _ = _
    rw [List.foldl_append]; rfl
  rw [hs]
  refine ⟨?_, rfl, rfl⟩
  unfold attached
  rw [List.foldl_append]; rfl

/-- C50 fails with a subdevice and a misspelt angle representation: `open` succeeds, but the first request
reads a pointer that was never written, and nothing is published. -/
theorem C50_misspelt_option (c : Config κ) (h : ¬ c.Sound) :
    (Server.openWith c).2 = true ∧ ((Server.openWith c).1.step .rpc).2 = .undefined ∧
      ((Server.openWith c).1.step .tick).2 = .nobody ∧ ((Server.openWith c).1.step .stream).2 = .nobody := by
  unfold Config.Sound at h
  rw [not_and_or, not_not, not_not] at h
  unfold Server.openWith
  rcases h with h | h
  · simp [h, Server.step, Handle.use]
  · by_cases h2 : c.angleRepr = .unknown <;> simp [h, h2, Server.step, Handle.use]

example : ¬ (Config.mk (some 3) true .absent .unknown .absent).Sound := by simp [Config.Sound]

end KD.Net
