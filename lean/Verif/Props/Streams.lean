import Verif.Net.Stream
import Verif.Net.RemoteLemmas

/-!
# C47, C48: streamed commands and the published state
-/

namespace KD.Net

variable {σ : Type} {B : Backend σ} {s : σ}

/-! ## C47 -/

/-- What the controller goes through if the streaming calls are made on it directly. -/
def streamed (B : Backend σ) (s : σ) (calls : List (StreamCmd × List ℝ)) : σ :=
  calls.foldl (fun s p => (B.call s (.stream p.1 p.2)).2) s

/-- The messages that the client sends for them. -/
noncomputable def sent (calls : List (StreamCmd × List ℝ)) : List Bottle :=
  calls.filterMap fun p => request (.stream p.1 p.2)

/-- C47: whatever sequence of streaming calls gets through, the controller goes through the same states as
if those calls had been made on it, in that order.
Partial: not for empty vectors (`C47_empty_vector_dropped`). -/
theorem C47_stream_partial (calls : List (StreamCmd × List ℝ)) (h : ∀ p ∈ calls, p.2 ≠ []) :
    (sent calls).foldl (onRead B) s = streamed B s calls := by
  induction calls generalizing s with
  | nil => rfl
  | cons p calls ih =>
    obtain ⟨c, x⟩ := p
    obtain ⟨y, ys, rfl⟩ := List.exists_cons_of_ne_nil (h (c, x) (by simp))
    have ha : args (.vocab c.vocab :: (y :: ys).map Val.float) = y :: ys := map_asFloat _
    have h1 : onRead B s (.vocab c.vocab :: (y :: ys).map Val.float) =
        (B.call s (.stream c (y :: ys))).2 := by
      cases c <;> simp only [onRead, get, List.getD_cons_zero, Val.asVocab, StreamCmd.vocab, reduceIte,
        show ¬ (vTwist = vPose ∨ vTwist = vMovi) by decide,
        show ¬ (vWrench = vPose ∨ vWrench = vMovi) by decide, show vWrench ≠ vTwist by decide, true_or]
      all_goals
        simp only [StreamCmd.vocab] at ha
        rw [handleStream, if_pos (by simp), ha]
    have := ih (s := (B.call s (.stream c (y :: ys))).2) fun p hp => h p (by simp [hp])
    show List.foldl (onRead B) (onRead B s (.vocab c.vocab :: (y :: ys).map Val.float)) (sent calls) = _
    rw [h1]
    exact this

/-- The commands a message may start with. -/
def StreamCmd.names : StreamCmd → List ℤ
  | pose => [vPose, vMovi]
  | twist => [vTwist]
  | wrench => [vWrench]

/-- C47: a message with another command, or without numbers, causes no call. -/
theorem C47_malformed_dropped (msg : Bottle)
    (h : (∀ c : StreamCmd, (get msg 0).asVocab ∉ c.names) ∨ msg.length ≤ 1) : onRead B s msg = s := by
  rcases h with h | h
  · have h1 := h .pose
    have h2 := h .twist
    have h3 := h .wrench
    simp only [StreamCmd.names, List.mem_cons, List.not_mem_nil, or_false] at h1 h2 h3
    simp [onRead, h1, h2, h3]
  · simp [onRead, handleStream, show ¬ msg.length > 1 by omega]

/-- C47: any other message causes exactly the call it names, with its numbers. -/
theorem C47_wellformed_called (msg : Bottle) (c : StreamCmd) (hc : (get msg 0).asVocab ∈ c.names)
    (h : 1 < msg.length) :
    onRead B s msg = (B.call s (.stream c (msg.tail.map Val.asFloat))).2 := by
  cases c
  · simp only [StreamCmd.names, List.mem_cons, List.not_mem_nil, or_false] at hc
    rw [onRead, if_pos hc, handleStream, if_pos h]; rfl
  · simp only [StreamCmd.names, List.mem_cons, List.not_mem_nil, or_false] at hc
    rw [onRead, hc, if_neg (by decide), if_pos rfl, handleStream, if_pos h]; rfl
  · simp only [StreamCmd.names, List.mem_cons, List.not_mem_nil, or_false] at hc
    rw [onRead, hc, if_neg (by decide), if_neg (by decide), if_pos rfl, handleStream, if_pos h]; rfl

/-- A controller that writes down the streaming calls. -/
def logger : Backend (List (StreamCmd × List ℝ)) where
  call l
    | .stat => (none, l)
    | .inv _ => (none, l)
    | .vec _ _ => (false, l)
    | .run _ => (false, l)
    | .wait _ => (false, l)
    | .act _ => (false, l)
    | .set _ _ => (false, l)
    | .get _ => (none, l)
    | .setAll _ => (false, l)
    | .getAll => (none, l)
    | .stream c x => ((), l ++ [(c, x)])

example : (sent [(.pose, [1, 2, 3]), (.twist, [4])]).foldl (onRead logger) [] =
    [(.pose, [1, 2, 3]), (.twist, [4])] :=
  C47_stream_partial _ (by simp)

example : onRead logger [] [.vocab vMovi, .float 1] = [(.pose, [1])] :=
  C47_wellformed_called _ .pose (by simp [get, Val.asVocab, StreamCmd.names]) (by simp)

example : onRead logger [] [.vocab vStop, .float 1] = [] :=
  C47_malformed_dropped _ (Or.inl (by intro c; cases c <;> decide))

/-- C47 fails for empty vectors: the controller is not called. -/
theorem C47_empty_vector_dropped (c : StreamCmd) : (sent [(c, [])]).foldl (onRead B) s = s := by
  show onRead B s [.vocab c.vocab] = s
  exact C47_malformed_dropped _ (Or.inr (by simp))

/-- C47 fails for messages with words in place of numbers: the controller is told to go to zero. -/
theorem C47_words_become_zeros (word : ℤ) :
    onRead B s [.vocab vPose, .str word, .list [], .null] = (B.call s (.stream .pose [0, 0, 0])).2 :=
  C47_wellformed_called _ .pose (by simp [get, Val.asVocab, StreamCmd.names]) (by simp)

/-! ## C48 -/

/-- The server published message `b` while the controller told `d`. -/
def Published (B : Backend σ) (d : List ℝ × ℤ × ℝ) (b : Bottle) : Prop :=
  ∃ s, (B.call s .stat).1 = (some d : Option (List ℝ × ℤ × ℝ)) ∧ (publish B s).1 = some b

/-- Nothing is published while the controller tells nothing. -/
theorem C48_no_publication (h : (B.call s .stat).1 = (none : Option (List ℝ × ℤ × ℝ))) :
    (publish B s).1 = none := by
  generalize hc : B.call s .stat = a at h
  obtain ⟨a, s'⟩ := a
  subst h
  rw [publish, hc]

theorem published_message {d : List ℝ × ℤ × ℝ} {b : Bottle} (h : Published B d b) :
    b = .vocab d.2.1 :: (d.1.map Val.float ++ [.float d.2.2]) := by
  obtain ⟨s, h1, h2⟩ := h
  generalize hc : B.call s .stat = a at h1
  obtain ⟨a, s'⟩ := a
  subst h1
  obtain ⟨x, state, time⟩ := d
  rw [publish, hc] at h2
  exact (Option.some.inj h2).symm

/-- C48: after any non-empty sequence of published messages, the client has the pose, the state and the
time stamp that the controller told for the last one, and accepts them exactly until the timeout has passed
since it arrived.
Partial: before the first message, see `C48_accepts_nothing`. -/
theorem C48_latest_message_partial (hist : List (ℝ × Bottle)) (arrival : ℝ) (b : Bottle)
    (d : List ℝ × ℤ × ℝ) (hd : Published B d b) (h : ∀ p ∈ hist, ∃ d, Published B d p.2) :
    ∃ f, Fk.init.receive (hist ++ [(arrival, b)]) = some f ∧
      ∀ now timeout, f.last now timeout = (decide (now - arrival ≤ timeout), d) := by
  suffices H : ∀ f0 : Fk, ∃ f, f0.receive (hist ++ [(arrival, b)]) = some f ∧
      ∀ now timeout, f.last now timeout = (decide (now - arrival ≤ timeout), d) from H _
  induction hist with
  | nil =>
    intro f0
    have hb := published_message hd
    subst hb
    refine ⟨⟨arrival, d.1, d.2.1, d.2.2⟩, ?_, fun _ _ => rfl⟩
    simp [Fk.receive, Fk.onRead, get, Val.asVocab, Val.asFloat, Function.comp_def]
  | cons p hist ih =>
    intro f0
    obtain ⟨d', hp⟩ := h p (by simp)
    have hb := published_message hp
    obtain ⟨t, b'⟩ := p
    simp only at hb
    subst hb
    obtain ⟨f, h1, h2⟩ := ih (fun q hq => h q (by simp [hq]))
      ⟨t, (Val.vocab d'.2.1 :: (d'.1.map Val.float ++ [.float d'.2.2])).tail.dropLast.map Val.asFloat,
        d'.2.1, d'.2.2⟩
    refine ⟨f, ?_, h2⟩
    rw [List.cons_append, Fk.receive]
    rw [Fk.onRead, if_neg (by simp)]
    simpa [get, Val.asVocab, Val.asFloat] using h1

/-- C48: `stat` of a client with an open stream. Within the timeout it is the last published state; later
it is the outcome of the request over RPC, and it fails if that fails. Partial as above. -/
theorem C48_stat_partial (hist : List (ℝ × Bottle)) (arrival : ℝ) (b : Bottle)
    (d : List ℝ × ℤ × ℝ) (hd : Published B d b) (h : ∀ p ∈ hist, ∃ d, Published B d p.2)
    (now timeout : ℝ) (rpc : Option (List ℝ × ℤ × ℝ)) :
    ∃ f, Fk.init.receive (hist ++ [(arrival, b)]) = some f ∧
      (now - arrival ≤ timeout → clientStat true timeout now f (some rpc) = some (true, some d)) ∧
      (timeout < now - arrival → ∃ out, clientStat true timeout now f (some rpc) = some (rpc.isSome, out) ∧
        (rpc.isSome → out = rpc)) := by
  obtain ⟨f, h1, h2⟩ := C48_latest_message_partial hist arrival b d hd h
  refine ⟨f, h1, fun ht => ?_, fun ht => ?_⟩
  · simp [clientStat, h2, ht]
  · simp only [clientStat, h2, if_true, show ¬ now - arrival ≤ timeout by linarith, decide_false]
    cases rpc with
    | none => exact ⟨_, rfl, by simp⟩
    | some a => exact ⟨_, rfl, by simp⟩

/-- A controller at a pose that follows its state. -/
def walker : Backend ℕ where
  call n
    | .stat => (some ([(n : ℝ), 0, 0], vOk, (n : ℝ)), n + 1)
    | .inv _ => (none, n)
    | .vec _ _ => (false, n)
    | .run _ => (false, n)
    | .wait _ => (false, n)
    | .act _ => (false, n)
    | .set _ _ => (false, n)
    | .get _ => (none, n)
    | .setAll _ => (false, n)
    | .getAll => (none, n)
    | .stream _ _ => ((), n)

theorem walker_published (n : ℕ) : Published walker ([(n : ℝ), 0, 0], vOk, (n : ℝ))
    [.vocab vOk, .float n, .float 0, .float 0, .float n] := ⟨n, rfl, rfl⟩

example : ∃ f, Fk.init.receive [(10, [.vocab vOk, .float (3 : ℕ), .float 0, .float 0, .float (3 : ℕ)]),
      (11, [.vocab vOk, .float (4 : ℕ), .float 0, .float 0, .float (4 : ℕ)])] = some f ∧
    clientStat true (1 / 2) (45 / 4) f (some none) =
      some (true, some ([((4 : ℕ) : ℝ), 0, 0], vOk, ((4 : ℕ) : ℝ))) := by
  obtain ⟨f, h1, h2, -⟩ := C48_stat_partial
    [(10, [.vocab vOk, .float (3 : ℕ), .float 0, .float 0, .float (3 : ℕ)])] 11 _ _ (walker_published 4)
    (by intro p hp; rw [List.mem_singleton] at hp; subst hp; exact ⟨_, walker_published 3⟩) (45 / 4) (1 / 2) none
  exact ⟨f, h1, h2 (by norm_num)⟩

/-- C48 fails before the first message while the clock shows no more than the timeout, as a simulated clock
does at the start: `stat` succeeds with an empty pose and state 0, though nothing was ever received. -/
theorem C48_accepts_nothing (now timeout : ℝ) (h : now ≤ timeout)
    (rpc : Option (Option (List ℝ × ℤ × ℝ))) :
    Fk.init.receive [] = some Fk.init ∧
      clientStat true timeout now Fk.init rpc = some (true, some ([], 0, 0)) := by
  refine ⟨rfl, ?_⟩
  simp [clientStat, Fk.last, Fk.init, h]

/-- C48, what holds before the first message with a clock that started long ago: the stream is not used. -/
theorem C48_nothing_received (now timeout : ℝ) (h : timeout < now) (rpc : Option (List ℝ × ℤ × ℝ)) :
    ∃ out, clientStat true timeout now Fk.init (some rpc) = some (rpc.isSome, out) ∧
      (rpc.isSome → out = rpc) := by
  simp only [clientStat, Fk.last, Fk.init, if_true, sub_zero, show ¬ now ≤ timeout by linarith, decide_false]
  cases rpc with
  | none => exact ⟨_, rfl, by simp⟩
  | some a => exact ⟨_, rfl, by simp⟩

/-- A failing `stat` may still write an old pose to the outputs. -/
theorem C48_failure_writes_old_pose (now timeout : ℝ) (f : Fk) (h : timeout < now - f.arrival) :
    clientStat true timeout now f (some none) = some (false, some (f.x, f.state, f.time)) := by
  simp [clientStat, Fk.last, show ¬ now - f.arrival ≤ timeout by linarith]

/-- A message of fewer than two values ends the client with an exception. -/
theorem C48_short_message_throws (now : ℝ) (b : Bottle) (h : b.length < 2) (f : Fk) :
    f.onRead now b = none := by
  rw [Fk.onRead, if_pos h]

end KD.Net
