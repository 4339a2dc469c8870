import Verif.Net.RemoteLemmas

/-!
# C45, C46, C51: calls through the client and the server

A controller is any state machine `B` behind the server. `Fits` and `IsMap`, in `Verif.Net.RemoteLemmas`,
say which values travel as integers and what the entries of a map look like.
-/

namespace KD.Net

open KD.Ctrl (toInt)

/-! ## What is asked of requests and answers -/

/-- The calls that are covered: no empty vector, no empty map, no parameter with the key of the groups. -/
def Sendable : Req → Prop
  | .inv x => x ≠ []
  | .vec _ x => x ≠ []
  | .set k v => k ≠ vParams ∧ Fits k v
  | .get k => k ≠ vParams
  | .setAll ps => ps ≠ [] ∧ IsMap ps ∧ ∀ p ∈ ps, Fits p.1 p.2
  | .stream _ _ => False
  | _ => True

/-- The answers that are covered: states and values differ from the mark of failures. -/
def Tellable : (r : Req) → r.Ans → Prop
  | .stat, a => ∀ x state time, a = some (x, state, time) → state ≠ vFailed
  | .get k, a => ∀ v : ℝ, a = some v → Fits k v ∧ ((k = vFrame ∨ k = vStreaming) → v ≠ vFailed)
  | .getAll, a => ∀ ps : List (ℤ × ℝ), a = some ps → IsMap ps ∧ ∀ p ∈ ps, Fits p.1 p.2
  | _, _ => True

/-- The failure of a call. -/
def Failure : (r : Req) → r.Ans → Prop
  | .stat, a => a = (none : Option (List ℝ × ℤ × ℝ))
  | .inv _, a => a = (none : Option (List ℝ))
  | .vec _ _, a => a = false
  | .run _, a => a = false
  | .wait _, a => a = false
  | .act _, a => a = false
  | .set _ _, a => a = false
  | .get _, a => a = (none : Option ℝ)
  | .setAll _, a => a = false
  | .getAll, a => a = (none : Option (List (ℤ × ℝ)))
  | .stream _ _, _ => False


/-! ## C45 -/

section

variable {σ : Type} {B : Backend σ} {s : σ}

theorem remote_of {P : Port} {r : Req} {msg out : Bottle} {s' : σ} {a : r.Ans}
    (h1 : request r = some msg) (h2 : respond B P s msg = some (out, s'))
    (h3 : interpret r out = some a) : remote B P s r = some (a, s') := by
  simp [remote, h1, h2, h3]

/-- C45: a call through the client, the network and the server has the result of the call on the
controller itself and leaves the controller in the same state.
Partial: not for empty vectors and empty maps, the key of the groups, values for the reference frame or the
streaming command that are no 32-bit integers, and answers that look like failures (`Sendable`, `Tellable`);
streaming calls are C47. -/
theorem C45_remote_is_local_partial (r : Req) (hr : Sendable r) (ha : Tellable r (B.call s r).1) :
    remote B .plain s r = some (B.call s r) := by
  generalize hc : B.call s r = out at ha ⊢
  obtain ⟨a, s'⟩ := out
  cases r with
  | stat =>
    cases a with
    | none =>
      refine remote_of rfl (out := verdict false) ?_ ?_
      · rw [respond_stat, handleStat, hc]
      · simp only [interpret, checkSuccess_verdict]; rfl
    | some a =>
      obtain ⟨x, state, time⟩ := a
      have h := ha x state time rfl
      have hs : checkSuccess (.vocab state :: (x.map Val.float ++ [.float time])) = true := by
        simp [checkSuccess, get, Val.isVocab, Val.asVocab, h]
      refine remote_of rfl (out := .vocab state :: (x.map Val.float ++ [.float time])) ?_ ?_
      · rw [respond_stat, handleStat, hc]; rfl
      · simp only [interpret, hs, if_true]
        simp [get, Val.asVocab, Val.asFloat, Function.comp_def]
  | inv x =>
    obtain ⟨y, ys, rfl⟩ := List.exists_cons_of_ne_nil hr
    have hargs : args (.vocab vInv :: (y :: ys).map Val.float) = y :: ys := map_asFloat _
    cases a with
    | none =>
      refine remote_of rfl (out := verdict false) ?_ (by simp only [interpret, checkSuccess_verdict]; rfl)
      rw [respond_inv, handleFunction, if_pos (by simp), hargs]
      simp only [Port.plain, Option.bind_eq_bind, Option.bind_some, if_true]
      rw [hc]
    | some q =>
      have hs : checkSuccess (q.map Val.float) = true := by
        cases q <;> simp [checkSuccess, get, Val.isVocab]
      refine remote_of rfl (out := q.map .float) ?_ (by simp only [interpret, hs, if_true, map_asFloat])
      rw [respond_inv, handleFunction, if_pos (by simp), hargs]
      simp only [Port.plain, Option.bind_eq_bind, Option.bind_some, if_true]
      rw [hc]
  | vec c x =>
    obtain ⟨y, ys, rfl⟩ := List.exists_cons_of_ne_nil hr
    have hargs : args (.vocab c.vocab :: (y :: ys).map Val.float) = y :: ys := map_asFloat _
    refine remote_of rfl (out := verdict a) ?_ (congrArg some (checkSuccess_verdict a))
    rw [respond_vec, handleConsumer, if_pos (by simp), hargs]
    simp only [Port.plain, Option.bind_eq_bind, Option.bind_some, if_true, hc]
  | run c =>
    refine remote_of rfl (out := verdict a) ?_ (congrArg some (checkSuccess_verdict a))
    rw [respond_run, handleRunnable, hc]
  | wait t =>
    refine remote_of rfl (out := verdict a) ?_ (congrArg some (checkSuccess_verdict a))
    have ht : (if [Val.vocab vWait, .float t].length > 1 then
        (get [Val.vocab vWait, .float t] 1).asFloat else 0) = t := by simp [get, Val.asFloat]
    rw [respond_wait]
    unfold handleWait
    extract_lets u
    rw [show u = t from ht, hc]
  | act c =>
    refine remote_of rfl (out := verdict a) ?_ (congrArg some (checkSuccess_verdict a))
    rw [respond_act, handleAct, if_pos (by simp)]
    have ht : (get [Val.vocab vAct, .vocab c] 1).asVocab = c := rfl
    rw [ht, hc]
  | set k v =>
    obtain ⟨w, e1, e2, -⟩ := addValue_fits hr.2
    have hg : isGroup [.vocab vSet, .vocab k, w] = false := by
      simp [isGroup, get, Val.asVocab, hr.1]
    refine remote_of (msg := [.vocab vSet, .vocab k, w]) (by simp [request, e1]) (out := verdict a) ?_
      (congrArg some (checkSuccess_verdict a))
    rw [respond_set, hg, if_neg (by simp), handleSet, if_pos (by simp)]
    have hk : (get [.vocab vSet, .vocab k, w] 1).asVocab = k := rfl
    have hw : get [.vocab vSet, .vocab k, w] 2 = w := rfl
    extract_lets u
    rw [show u = k from hk, hw, e2, hc]
  | get k =>
    have hg : isGroup [.vocab vGet, .vocab k] = false := by
      simp only [Sendable] at hr
      simp [isGroup, get, Val.asVocab, hr]
    have hresp : respond B .plain s [.vocab vGet, .vocab k] =
        match B.call s (.get k) with
        | (some value, s') => do
          let v ← addValue k value
          some ([v], s')
        | (none, s') => some (verdict false, s') := by
      rw [respond_get, hg, if_neg (by simp), handleGet, if_pos (by simp)]
      rfl
    rw [hc] at hresp
    cases a with
    | none => exact remote_of rfl hresp (by simp only [interpret, checkSuccess_verdict]; rfl)
    | some v =>
      obtain ⟨h1, h2⟩ := ha v rfl
      obtain ⟨w, e1, e2, e3⟩ := addValue_fits h1
      have hs : checkSuccess [w] = true := by
        by_cases hw : w.isVocab = true
        · obtain ⟨hk, hv⟩ := e3 hw
          have hne : w.asVocab ≠ vFailed := by
            intro h; exact h2 hk (by rw [← hv, h])
          simp [checkSuccess, get, hne]
        · simp [checkSuccess, get, hw]
      refine remote_of (out := [w]) rfl (by rw [hresp]; simp [e1]) ?_
      simp only [interpret, hs, if_true, get, List.getD_cons_zero, e2]
  | setAll ps =>
    obtain ⟨hne, hmap, hfit⟩ := hr
    obtain ⟨vs, h1, hl, h2⟩ := addEntries hfit
    have hpos : 0 < ps.length := List.length_pos_of_ne_nil hne
    obtain ⟨h3, -⟩ := h2 [] (by simpa using hmap)
    have hg : isGroup (.vocab vSet :: .vocab vParams :: vs) = true := by
      simp [isGroup, get, Val.asVocab]
    refine remote_of (msg := .vocab vSet :: .vocab vParams :: vs) (by simp [request, h1])
      (out := verdict a) ?_ (congrArg some (checkSuccess_verdict a))
    rw [respond_set, hg, if_pos rfl, handleSetAll, if_pos (by simp; omega)]
    simp only [List.drop_succ_cons, List.drop_zero, h3, List.nil_append, hc]
  | getAll =>
    have hg : isGroup [.vocab vGet, .vocab vParams] = true := by
      simp [isGroup, get, Val.asVocab]
    have hresp : respond B .plain s [.vocab vGet, .vocab vParams] =
        match B.call s .getAll with
        | (some ps, s') => do
          let vs ← ps.mapM addEntry
          some (vs, s')
        | (none, s') => some (verdict false, s') := by
      rw [respond_get, hg, if_pos rfl, handleGetAll, if_pos (by simp)]
      rfl
    rw [hc] at hresp
    cases a with
    | none => exact remote_of rfl hresp (by simp only [interpret, checkSuccess_verdict]; rfl)
    | some ps =>
      obtain ⟨hmap, hfit⟩ := ha ps rfl
      obtain ⟨vs, h1, hl, h2⟩ := addEntries hfit
      obtain ⟨-, h3⟩ := h2 [] (by simpa using hmap)
      simp only [List.nil_append] at h3
      refine remote_of (out := vs) rfl (by rw [hresp]; simp [h1]) ?_
      simp only [interpret, addEntries_first h1, if_true, h3]
      rfl
  | stream c x => exact hr.elim

/-- A history of calls on the controller itself. -/
def direct (B : Backend σ) : σ → List Req → List (Σ r : Req, r.Ans) × σ
  | s, [] => ([], s)
  | s, r :: rs =>
    let (a, s') := B.call s r
    let (as, s'') := direct B s' rs
    (⟨r, a⟩ :: as, s'')

/-- The same history through the client. -/
noncomputable def remotely (B : Backend σ) : σ → List Req → Option (List (Σ r : Req, r.Ans) × σ)
  | s, [] => some ([], s)
  | s, r :: rs => do
    let (a, s') ← remote B .plain s r
    let (as, s'') ← remotely B s' rs
    some (⟨r, a⟩ :: as, s'')

/-- C45, for histories of any length: the client hears the same answers in the same order and the
controller ends in the same state. Partial as above. -/
theorem C45_histories_partial (rs : List Req) (hr : ∀ r ∈ rs, Sendable r)
    (ha : ∀ p ∈ (direct B s rs).1, Tellable p.1 p.2) : remotely B s rs = some (direct B s rs) := by
  induction rs generalizing s with
  | nil => rfl
  | cons r rs ih =>
    have h1 := C45_remote_is_local_partial r (hr r (by simp)) (B := B) (s := s)
      (ha ⟨r, (B.call s r).1⟩ (by simp [direct]))
    have h2 := ih (s := (B.call s r).2) (fun q hq => hr q (by simp [hq]))
      (fun p hp => ha p (by simp [direct, hp]))
    simp [remotely, h1, h2, direct]

/-- A controller with a counter, for the examples: every command counts, `stat` and `get` tell it. -/
def counter : Backend ℕ where
  call n
    | .stat => (some ([n], vOk, n), n)
    | .inv x => (some x, n + 1)
    | .vec _ _ => (true, n + 1)
    | .run _ => (true, n + 1)
    | .wait _ => (true, n + 1)
    | .act _ => (true, n + 1)
    | .set _ _ => (true, n + 1)
    | .get _ => (some (n : ℝ), n)
    | .setAll _ => (true, n + 1)
    | .getAll => (some [(0, 1), (vFrame, vOk)], n)
    | .stream _ _ => ((), n + 1)

theorem counter_fits (n : ℕ) : ∃ ps : List (ℤ × ℝ),
    counter.call n .getAll = ((some ps : Option (List (ℤ × ℝ))), n) ∧ ps ≠ [] ∧ ∀ p ∈ ps, Fits p.1 p.2 := by
  refine ⟨_, rfl, by simp, ?_⟩
  intro p hp
  simp only [List.mem_cons, List.not_mem_nil, or_false] at hp
  rcases hp with rfl | rfl
  · intro h; exact absurd h (by decide)
  · intro _; exact ⟨vOk, by decide, by decide, rfl⟩

example : remotely counter 0 [.vec .movj [1, 2], .run .stop, .stat] =
    some ([⟨.vec .movj [1, 2], true⟩, ⟨.run .stop, true⟩, ⟨.stat, some ([((2 : ℕ) : ℝ)], vOk, (2 : ℕ))⟩], 2) := by
  refine (C45_histories_partial _ ?_ ?_).trans rfl
  · simp [Sendable]
  · intro p hp
    simp only [direct, counter, List.mem_cons, List.not_mem_nil, or_false] at hp
    rcases hp with rfl | rfl | rfl
    · trivial
    · trivial
    · intro x state time h
      cases h
      decide

/-- C45 fails for an empty vector: the server refuses it without asking the controller. -/
theorem C45_empty_vector_refused (c : VecCmd) : remote B .plain s (.vec c []) = some (false, s) := by
  refine remote_of rfl (out := verdict false) ?_ (congrArg some (checkSuccess_verdict false))
  rw [respond_vec, handleConsumer, if_neg (by simp)]

example : remote counter .plain 5 (.vec .movj []) ≠ some (counter.call 5 (.vec .movj [])) := by
  rw [C45_empty_vector_refused]
  intro h
  have h2 : (5 : ℕ) = 6 := congrArg Prod.snd (Option.some.inj h)
  omega

/-- C45 fails for an empty map: the server refuses it without asking the controller. -/
theorem C45_empty_map_refused : remote B .plain s (.setAll []) = some (false, s) := by
  refine remote_of (msg := [.vocab vSet, .vocab vParams]) (by simp [request]) (out := verdict false) ?_
    (congrArg some (checkSuccess_verdict false))
  rw [respond_set, if_pos (by simp [isGroup, get, Val.asVocab]), handleSetAll, if_neg (by simp)]

/-- C45 fails for the key of the groups: a controller that does not know it says so, but the client hears
of a success with value 0 whenever the controller has parameters. -/
theorem C45_group_key_found (ps : List (ℤ × ℝ)) (hne : ps ≠ []) (hfit : ∀ p ∈ ps, Fits p.1 p.2)
    (h : B.call s .getAll = ((some ps : Option (List (ℤ × ℝ))), s)) :
    remote B .plain s (.get vParams) = some ((some 0 : Option ℝ), s) := by
  obtain ⟨vs, h1, -⟩ := addEntries hfit
  refine remote_of rfl (out := vs) ?_ ?_
  · rw [respond_get, if_pos (by simp [isGroup, get, Val.asVocab]), handleGetAll, if_pos (by simp), h]
    simp [h1]
  · simp only [interpret]
    rw [if_pos (addEntries_first h1)]
    obtain ⟨p, qs, rfl⟩ := List.exists_cons_of_ne_nil hne
    rw [List.mapM_cons] at h1
    obtain ⟨a, ha, h1⟩ := Option.bind_eq_some_iff.mp h1
    obtain ⟨b, -, h1⟩ := Option.bind_eq_some_iff.mp h1
    obtain ⟨w, -, hw⟩ := Option.bind_eq_some_iff.mp ha
    cases hw; cases h1
    simp [asValue, get, Val.asFloat, show ¬ (vParams = vFrame ∨ vParams = vStreaming) by decide]

example : remote counter .plain 5 (.get vParams) = some ((some 0 : Option ℝ), 5) := by
  obtain ⟨ps, h, hne, hfit⟩ := counter_fits 5
  exact C45_group_key_found ps hne hfit h

/-- C45 fails for values of the reference frame that are no integers: the controller gets another value. -/
theorem C45_fraction_cut : request (.set vFrame (3 / 2)) = some [.vocab vSet, .vocab vFrame, .vocab 1] := by
  have : toInt (3 / 2 : ℝ) = some 1 := by
    unfold toInt
    have h : ⌊(3 / 2 : ℝ)⌋ = 1 := by rw [Int.floor_eq_iff]; norm_num
    simp only [h, show (0 : ℝ) ≤ 3 / 2 by norm_num, if_true]
    simp
  simp [request, addValue, this]

/-- C45 fails for states that look like failures: the client hears of a failure. -/
theorem C45_state_taken_for_failure (x : List ℝ) (time : ℝ)
    (h : B.call s .stat = ((some (x, vFailed, time) : Option (List ℝ × ℤ × ℝ)), s)) :
    remote B .plain s .stat = some ((none : Option (List ℝ × ℤ × ℝ)), s) := by
  refine remote_of rfl (out := .vocab vFailed :: (x.map Val.float ++ [.float time])) ?_ ?_
  · rw [respond_stat, handleStat, h]; rfl
  · simp only [interpret]
    rw [if_neg (by simp [checkSuccess, get, Val.isVocab, Val.asVocab])]

/-! ## C46 -/

/-- C46, what holds: the reply with which the server rejects a request is heard as a failure by every
method.
Partial: requests or replies that are lost are not, see below. -/
theorem C46_rejection_is_failure_partial (r : Req) (hr : ∀ c x, r ≠ .stream c x) :
    ∃ a, interpret r [.vocab vFailed] = some a ∧ Failure r a := by
  have hs : checkSuccess [.vocab vFailed] = false := by simp [checkSuccess, get, Val.isVocab, Val.asVocab]
  cases r <;> first
    | exact absurd rfl (hr _ _)
    | exact ⟨false, congrArg some hs, rfl⟩
    | exact ⟨none, by simp only [interpret, hs]; rfl, rfl⟩

/-- C46, what holds: a call that the controller refuses is heard as a failure. Partial as above. -/
theorem C46_refusal_is_failure_partial (r : Req) (hr : Sendable r) (ha : Tellable r (B.call s r).1)
    (hf : Failure r (B.call s r).1) : ∃ a s', remote B .plain s r = some (a, s') ∧ Failure r a :=
  ⟨_, _, C45_remote_is_local_partial r hr ha, hf⟩

/-- C46 fails for requests that do not arrive: every command is reported as done. -/
theorem C46_lost_command_succeeds :
    (∀ c x, lost (.vec c x) = some true) ∧ (∀ c, lost (.run c) = some true) ∧
    (∀ t, lost (.wait t) = some true) ∧ (∀ c, lost (.act c) = some true) ∧
    (∀ k v, Fits k v → lost (.set k v) = some true) ∧
    (∀ ps : List (ℤ × ℝ), (∀ p ∈ ps, Fits p.1 p.2) → lost (.setAll ps) = some true) := by
  refine ⟨fun c x => rfl, fun c => rfl, fun t => rfl, fun c => rfl, fun k v h => ?_, fun ps h => ?_⟩
  · obtain ⟨w, e1, -⟩ := addValue_fits h
    simp only [lost, request, e1, Option.bind_eq_bind, Option.bind_some]
    rfl
  · obtain ⟨vs, h1, -⟩ := addEntries h
    simp only [lost, request, h1, Option.bind_eq_bind, Option.bind_some]
    rfl

/-- C46 fails for lost queries as well: `inv` succeeds without joint positions, `getParameter` with 0,
`getParameters` with no parameter, and `stat` throws. -/
theorem C46_lost_query_succeeds :
    (∀ x, lost (.inv x) = some (some ([] : List ℝ))) ∧ (∀ k, lost (.get k) = some (some (0 : ℝ))) ∧
    lost .getAll = some (some ([] : List (ℤ × ℝ))) ∧ lost .stat = none := by
  refine ⟨fun x => rfl, fun k => ?_, rfl, rfl⟩
  show interpret (.get k) [] = some (some (0 : ℝ))
  show some (some (asValue k (get [] 0))) = some (some (0 : ℝ))
  by_cases hk : k = vFrame ∨ k = vStreaming <;> simp [asValue, hk, get, Val.asVocab, Val.asFloat]

/-! ## C51 -/

/-- C51, setting: the controller is asked once, to set exactly the given entries, and its answer is the
client's.
Partial: not for an empty map (`C45_empty_map_refused`); values of the reference frame and the streaming
command must be 32-bit integers (`C45_fraction_cut`). -/
theorem C51_set_group_partial (ps : List (ℤ × ℝ)) (hne : ps ≠ []) (hmap : IsMap ps)
    (hfit : ∀ p ∈ ps, Fits p.1 p.2) : remote B .plain s (.setAll ps) = some (B.call s (.setAll ps)) :=
  C45_remote_is_local_partial _ ⟨hne, hmap, hfit⟩ trivial

/-- C51, getting: the client gets exactly the entries that the controller gave. Partial: values of the
reference frame and the streaming command must be 32-bit integers. -/
theorem C51_get_group_partial (ps : List (ℤ × ℝ)) (s' : σ) (hmap : IsMap ps)
    (hfit : ∀ p ∈ ps, Fits p.1 p.2)
    (h : B.call s .getAll = ((some ps : Option (List (ℤ × ℝ))), s')) :
    remote B .plain s .getAll = some ((some ps : Option (List (ℤ × ℝ))), s') := by
  have ht : Tellable .getAll (B.call s .getAll).1 := by
    intro qs hq
    rw [h] at hq
    cases hq
    exact ⟨hmap, hfit⟩
  exact (C45_remote_is_local_partial (B := B) (s := s) .getAll trivial ht).trans (congrArg some h)

example : remote counter .plain 7 .getAll =
    some ((some [(0, 1), (vFrame, (vOk : ℝ))] : Option (List (ℤ × ℝ))), 7) := by
  refine C51_get_group_partial _ _ ?_ ?_ rfl
  · simp only [IsMap, List.pairwise_cons, List.mem_cons, List.not_mem_nil, or_false, forall_eq]
    exact ⟨by decide, by simp, List.Pairwise.nil⟩
  · intro p hp
    simp only [List.mem_cons, List.not_mem_nil, or_false] at hp
    rcases hp with rfl | rfl
    · intro h; exact absurd h (by decide)
    · intro _; exact ⟨vOk, by decide, by decide, rfl⟩

/-- A group that is sent twice with different values for one key: the server keeps the first, whoever wrote
the message. -/
theorem C51_first_duplicate_wins (k : ℤ) (v w : ℝ) (hk : ¬ (k = vFrame ∨ k = vStreaming)) :
    readEntries [.list [.vocab k, .float v], .list [.vocab k, .float w]] [] = some [(k, v)] := by
  simp [readEntries, emplace, asValue, hk, Val.asVocab, Val.asFloat]

end

end KD.Net
