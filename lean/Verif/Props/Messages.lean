import Verif.Props.Remote

/-!
# C70: which messages reach the controller

Anything may arrive at the RPC port of the server: other clients, a terminal, another program. `Denotes` says
which request a message stands for, if any.
-/

namespace KD.Net

/-- The entries of a group message as a map: the first value given for a key. -/
def GroupOf (es : List (Val × Val)) (ps : List (ℤ × ℝ)) : Prop :=
  IsMap ps ∧ ∀ k x, (k, x) ∈ ps ↔
    ∃ v, es.find? (fun e => decide (e.1.asVocab = k)) = some v ∧ x = asValue k v.2

/-- The request that a message stands for. The first value names the command. Commands with a vector need at
least one number, `act` and `get` one value, `set` two, `set prms` one list of two values or more and nothing
else, `get prms` nothing else. -/
inductive Denotes : Bottle → Req → Prop
  | stat {h t} : h.asVocab = vStat → Denotes (h :: t) .stat
  | inv {h t} : h.asVocab = vInv → t ≠ [] → Denotes (h :: t) (.inv (t.map Val.asFloat))
  | vec {h t} (c : VecCmd) : h.asVocab = c.vocab → t ≠ [] → Denotes (h :: t) (.vec c (t.map Val.asFloat))
  | run {h t} (c : RunCmd) : h.asVocab = c.vocab → Denotes (h :: t) (.run c)
  | waitForever {h} : h.asVocab = vWait → Denotes [h] (.wait 0)
  | wait {h x t} : h.asVocab = vWait → Denotes (h :: x :: t) (.wait x.asFloat)
  | act {h x t} : h.asVocab = vAct → Denotes (h :: x :: t) (.act x.asVocab)
  | set {h k x t} : h.asVocab = vSet → k.asVocab ≠ vParams →
      Denotes (h :: k :: x :: t) (.set k.asVocab (asValue k.asVocab x))
  | get {h k t} : h.asVocab = vGet → k.asVocab ≠ vParams → Denotes (h :: k :: t) (.get k.asVocab)
  | setAll {h k es ps} : h.asVocab = vSet → k.asVocab = vParams → es ≠ [] → GroupOf es ps →
      Denotes (h :: k :: es.map fun e => .list [e.1, e.2]) (.setAll ps)
  | getAll {h k} : h.asVocab = vGet → k.asVocab = vParams → Denotes [h, k] .getAll

/-! ## Lemmas -/

section

variable {σ : Type} (B : Backend σ) (P : Port) (s : σ)

theorem respond_head {h : Val} {v : ℤ} (hv : h.asVocab = v) (rest : Bottle) :
    respond B P s (h :: rest) = respond B P s (.vocab v :: rest) := by
  subst hv
  rfl

end

theorem mem_emplace {k : ℤ} {v : ℝ} : ∀ {ps : List (ℤ × ℝ)}, IsMap ps → ∀ k' x,
    (k', x) ∈ emplace k v ps ↔ (k', x) ∈ ps ∨ k' = k ∧ x = v ∧ ∀ y, (k, y) ∉ ps
  | [], _, k', x => by simp [emplace]
  | (k1, v1) :: rest, h, k', x => by
    have h1 := (List.pairwise_cons.mp h).1
    have h2 := (List.pairwise_cons.mp h).2
    rw [emplace]
    by_cases hlt : k < k1
    · rw [if_pos hlt]
      have hno : ∀ y, (k, y) ∉ (k1, v1) :: rest := by
        intro y hy
        rcases List.mem_cons.mp hy with hy | hy
        · have : k = k1 := congrArg Prod.fst hy
          omega
        · have := h1 _ hy; simp at this; omega
      rw [List.mem_cons, Prod.mk.injEq]
      constructor
      · rintro (⟨a, b⟩ | a)
        · exact .inr ⟨a, b, hno⟩
        · exact .inl a
      · rintro (a | ⟨a, b, -⟩)
        · exact .inr a
        · exact .inl ⟨a, b⟩
    · rw [if_neg hlt]
      by_cases heq : k = k1
      · rw [if_pos heq]
        constructor
        · exact .inl
        · rintro (a | ⟨-, -, b⟩)
          · exact a
          · exact absurd (by simp [heq]) (b v1)
      · rw [if_neg heq, List.mem_cons, mem_emplace h2]
        constructor
        · rintro (a | a | ⟨a, b, c⟩)
          · exact .inl (by simp [a])
          · exact .inl (by simp [a])
          · refine .inr ⟨a, b, fun y hy => ?_⟩
            rcases List.mem_cons.mp hy with hy | hy
            · exact heq (congrArg Prod.fst hy)
            · exact c y hy
        · rintro (a | ⟨a, b, c⟩)
          · rcases List.mem_cons.mp a with a | a
            · exact .inl a
            · exact .inr (.inl a)
          · exact .inr (.inr ⟨a, b, fun y hy => c y (by simp [hy])⟩)

theorem isMap_emplace {k : ℤ} {v : ℝ} : ∀ {ps : List (ℤ × ℝ)}, IsMap ps → IsMap (emplace k v ps)
  | [], _ => by simp [emplace, IsMap]
  | (k1, v1) :: rest, h => by
    have h1 := (List.pairwise_cons.mp h).1
    have h2 := (List.pairwise_cons.mp h).2
    rw [emplace]
    by_cases hlt : k < k1
    · rw [if_pos hlt]
      refine List.pairwise_cons.mpr ⟨?_, h⟩
      intro q hq
      rcases List.mem_cons.mp hq with rfl | hq
      · exact hlt
      · exact lt_trans hlt (h1 q hq)
    · rw [if_neg hlt]
      by_cases heq : k = k1
      · rw [if_pos heq]; exact h
      · rw [if_neg heq]
        refine List.pairwise_cons.mpr ⟨?_, isMap_emplace h2⟩
        rintro ⟨k', x⟩ hq
        rcases (mem_emplace h2 k' x).mp hq with hq | ⟨rfl, -, -⟩
        · exact h1 _ hq
        · show k1 < k'
          omega

/-- Reading a group adds the entries whose keys are not there yet. -/
theorem readEntries_group : ∀ (es : List (Val × Val)) {acc : List (ℤ × ℝ)}, IsMap acc →
    ∃ ps, readEntries (es.map fun e => .list [e.1, e.2]) acc = some ps ∧ IsMap ps ∧
      ∀ k x, (k, x) ∈ ps ↔ (k, x) ∈ acc ∨ (∀ y, (k, y) ∉ acc) ∧
        ∃ v, es.find? (fun e => decide (e.1.asVocab = k)) = some v ∧ x = asValue k v.2
  | [], acc, h => ⟨acc, rfl, h, by simp⟩
  | e :: es, acc, h => by
    obtain ⟨ps, h1, h2, h3⟩ := readEntries_group es
      (isMap_emplace (k := e.1.asVocab) (v := asValue e.1.asVocab e.2) h)
    refine ⟨ps, h1, h2, fun k x => ?_⟩
    rw [h3 k x]
    simp only [mem_emplace h]
    by_cases hk : e.1.asVocab = k
    · subst hk
      rw [List.find?_cons_of_pos (by simp)]
      constructor
      · rintro ((a | ⟨-, b, c⟩) | ⟨a, -⟩)
        · exact .inl a
        · exact .inr ⟨c, e, rfl, b⟩
        · exfalso
          by_cases hn : ∀ y, (e.1.asVocab, y) ∉ acc
          · exact a _ (.inr ⟨rfl, rfl, hn⟩)
          · push Not at hn
            obtain ⟨y, hy⟩ := hn
            exact a y (.inl hy)
      · rintro (a | ⟨a, v, b, c⟩)
        · exact .inl (.inl a)
        · cases b
          exact .inl (.inr ⟨rfl, c, a⟩)
    · rw [List.find?_cons_of_neg (by simpa using hk)]
      have hk' : k ≠ e.1.asVocab := fun h => hk h.symm
      simp [hk']

theorem readEntries_none : ∀ {msg : Bottle} {acc : List (ℤ × ℝ)}, readEntries msg acc ≠ none →
    ∃ es : List (Val × Val), msg = es.map fun e => .list [e.1, e.2]
  | [], _, _ => ⟨[], rfl⟩
  | .list [k, v] :: rest, acc, h => by
    rw [readEntries] at h
    obtain ⟨es, rfl⟩ := readEntries_none h
    exact ⟨(k, v) :: es, rfl⟩
  | .null :: _, _, h => by simp [readEntries] at h
  | .vocab _ :: _, _, h => by simp [readEntries] at h
  | .int _ :: _, _, h => by simp [readEntries] at h
  | .float _ :: _, _, h => by simp [readEntries] at h
  | .str _ :: _, _, h => by simp [readEntries] at h
  | .list [] :: _, _, h => by simp [readEntries] at h
  | .list [_] :: _, _, h => by simp [readEntries] at h
  | .list (_ :: _ :: _ :: _) :: _, _, h => by simp [readEntries] at h

theorem IsMap.unique {ps qs : List (ℤ × ℝ)} (hp : IsMap ps) (hq : IsMap qs)
    (h : ∀ k x, (k, x) ∈ ps ↔ (k, x) ∈ qs) : ps = qs := by
  have np : ps.Nodup := hp.imp fun h he => by rw [he] at h; exact lt_irrefl _ h
  have nq : qs.Nodup := hq.imp fun h he => by rw [he] at h; exact lt_irrefl _ h
  have hperm : ps.Perm qs := (List.perm_ext_iff_of_nodup np nq).mpr fun ⟨k, x⟩ => h k x
  exact hperm.eq_of_pairwise (fun a b _ _ h1 h2 => absurd (lt_trans h1 h2) (lt_irrefl _)) hp hq

/-! ## C70 -/

section

variable {σ : Type} {B : Backend σ} {s : σ}

theorem handleGet_unfold (k : Val) (t : Bottle) :
    handleGet B s (.vocab vGet :: k :: t) =
      match B.call s (.get k.asVocab) with
      | (some value, s') => do
        let v ← addValue k.asVocab value
        some ([v], s')
      | (none, s') => some (verdict false, s') := by
  rw [handleGet, if_pos (by simp)]
  extract_lets u
  rw [show u = k.asVocab from rfl]
  generalize B.call s (.get k.asVocab) = E
  obtain ⟨a, s1⟩ := E
  cases a <;> rfl

/-- C70, what reaches the controller: a message that stands for a request makes the controller see that
request, once, and nothing else. -/
theorem C70_denoted_request {msg : Bottle} {r : Req} (h : Denotes msg r) {out : Bottle} {s' : σ}
    (hr : respond B .plain s msg = some (out, s')) : s' = (B.call s r).2 := by
  cases h with
  | @stat h t hv =>
    rw [respond_head _ _ _ hv, respond_stat, handleStat] at hr
    generalize B.call s .stat = E at hr ⊢
    obtain ⟨a, s1⟩ := E
    cases a with
    | none => cases hr; rfl
    | some a => obtain ⟨x, st, tm⟩ := a; cases hr; rfl
  | @inv h t hv hne =>
    have hl : (Val.vocab vInv :: t).length > 1 := by
      have := List.length_pos_of_ne_nil hne; simp; omega
    rw [respond_head _ _ _ hv, respond_inv, handleFunction, if_pos hl] at hr
    simp only [Port.plain, args, List.tail_cons, Option.bind_eq_bind, Option.bind_some, if_true] at hr
    generalize B.call s (.inv (t.map Val.asFloat)) = E at hr ⊢
    obtain ⟨a, s1⟩ := E
    cases a <;> (cases hr; rfl)
  | @vec h t c hv hne =>
    have hl : (Val.vocab c.vocab :: t).length > 1 := by
      have := List.length_pos_of_ne_nil hne; simp; omega
    rw [respond_head _ _ _ hv, respond_vec, handleConsumer, if_pos hl] at hr
    simp only [Port.plain, args, List.tail_cons, Option.bind_eq_bind, Option.bind_some, if_true] at hr
    cases hr; rfl
  | @run h t c hv =>
    rw [respond_head _ _ _ hv, respond_run, handleRunnable] at hr
    cases hr; rfl
  | @waitForever h hv =>
    rw [respond_head _ _ _ hv, respond_wait] at hr
    cases hr; rfl
  | @wait h x t hv =>
    rw [respond_head _ _ _ hv, respond_wait] at hr
    have : (if (Val.vocab vWait :: x :: t).length > 1 then
        (get (Val.vocab vWait :: x :: t) 1).asFloat else 0) = x.asFloat := by simp [get]
    unfold handleWait at hr
    extract_lets u at hr
    rw [show u = x.asFloat from this] at hr
    cases hr; rfl
  | @act h x t hv =>
    rw [respond_head _ _ _ hv, respond_act, handleAct, if_pos (by simp)] at hr
    cases hr; rfl
  | @set h k x t hv hk =>
    have hg : isGroup (.vocab vSet :: k :: x :: t) = false := by
      simp [isGroup, get, hk]
    rw [respond_head _ _ _ hv, respond_set, hg, if_neg (by simp), handleSet, if_pos (by simp)] at hr
    cases hr; rfl
  | @get h k t hv hk =>
    have hg : isGroup (.vocab vGet :: k :: t) = false := by
      simp [isGroup, get, hk]
    rw [respond_head _ _ _ hv, respond_get, hg, if_neg (by simp)] at hr
    replace hr := (handleGet_unfold k t).symm.trans hr
    generalize B.call s (.get k.asVocab) = E at hr ⊢
    obtain ⟨a, s1⟩ := E
    cases a with
    | none => cases hr; rfl
    | some a =>
      obtain ⟨v, -, h2⟩ := Option.bind_eq_some_iff.mp hr
      cases h2; rfl
  | @setAll h k es ps hv hk hne hps =>
    have hg : isGroup (.vocab vSet :: k :: es.map fun e => .list [e.1, e.2]) = true := by
      simp [isGroup, get, hk]
    have hl : (Val.vocab vSet :: k :: es.map fun e => Val.list [e.1, e.2]).length > 2 := by
      have := List.length_pos_of_ne_nil hne; simp; omega
    rw [respond_head _ _ _ hv, respond_set, hg, if_pos rfl, handleSetAll, if_pos hl] at hr
    obtain ⟨qs, h1, h2, h3⟩ := readEntries_group es (acc := []) List.Pairwise.nil
    have : qs = ps := h2.unique hps.1 fun k x => by rw [h3, hps.2]; simp
    subst this
    simp only [List.drop_succ_cons, List.drop_zero, h1] at hr
    cases hr; rfl
  | @getAll h k hv hk =>
    have hg : isGroup [.vocab vGet, k] = true := by
      simp [isGroup, get, hk]
    rw [respond_head _ _ _ hv, respond_get, hg, if_pos rfl, handleGetAll, if_pos (by simp)] at hr
    generalize B.call s .getAll = E at hr ⊢
    obtain ⟨a, s1⟩ := E
    cases a with
    | none => cases hr; rfl
    | some a =>
      obtain ⟨v, -, h2⟩ := Option.bind_eq_some_iff.mp hr
      cases h2; rfl

/-- The commands of the RPC port. -/
def commands : List ℤ :=
  [vStat, vInv, vMovj, vRelj, vMovl, vMovv, vGcmp, vForc, vStop, vWait, vTool, vAct, vSet, vGet]

/-- C70, what does not: a message that stands for no request is answered without asking the controller, and
if it begins with one of the commands the answer is the mark of failures. -/
theorem C70_other_messages {msg : Bottle} (h : ∀ r, ¬ Denotes msg r) :
    ∃ out, respond B .plain s msg = some (out, s) ∧
      ((get msg 0).asVocab ∈ commands → out = [.vocab vFailed]) := by
  cases msg with
  | nil =>
    refine ⟨[.str 0], ?_, ?_⟩
    · simp only [respond, get, List.getD_nil, Val.asVocab]
      simp only [show ¬ (0 = vStat) by decide, show ¬ (0 = vInv) by decide, show ¬ (0 = vMovj) by decide,
        show ¬ (0 = vRelj) by decide, show ¬ (0 = vMovl) by decide, show ¬ (0 = vMovv) by decide,
        show ¬ (0 = vGcmp) by decide, show ¬ (0 = vForc) by decide, show ¬ (0 = vStop) by decide,
        show ¬ (0 = vWait) by decide, show ¬ (0 = vTool) by decide, show ¬ (0 = vAct) by decide,
        show ¬ (0 = vSet) by decide, show ¬ (0 = vGet) by decide, show ¬ (0 = vHelp) by decide, if_false]
    · intro hc
      exact absurd hc (by decide)
  | cons a t =>
    by_cases hc : a.asVocab ∈ commands
    swap
    · refine ⟨if a.asVocab = vHelp then [.vocab vMany, .str 0] else [.str 0], ?_, fun hc' => absurd hc' hc⟩
      simp only [commands, List.mem_cons, List.not_mem_nil, or_false, not_or] at hc
      obtain ⟨h1, h2, h3, h4, h5, h6, h7, h8, h9, h10, h11, h12, h13, h14⟩ := hc
      simp only [respond, get, List.getD_cons_zero, h1, h2, h3, h4, h5, h6, h7, h8, h9, h10, h11, h12, h13,
        h14, if_false]
      split_ifs <;> rfl
    refine ⟨[.vocab vFailed], ?_, fun _ => rfl⟩
    have hvec : ∀ c : VecCmd, a.asVocab = c.vocab → respond B .plain s (a :: t) = some ([.vocab vFailed], s) := by
      intro c hv
      have ht : t = [] := by
        by_contra hne
        exact h _ (.vec c hv hne)
      subst ht
      rw [respond_head _ _ _ hv, respond_vec, handleConsumer, if_neg (by simp)]
      rfl
    simp only [commands, List.mem_cons, List.not_mem_nil, or_false] at hc
    rcases hc with hv | hv | hv | hv | hv | hv | hv | hv | hv | hv | hv | hv | hv | hv
    · exact absurd (.stat hv) (h _)
    · have ht : t = [] := by
        by_contra hne
        exact h _ (.inv hv hne)
      subst ht
      rw [respond_head _ _ _ hv, respond_inv, handleFunction, if_neg (by simp)]
      rfl
    · exact hvec .movj hv
    · exact hvec .relj hv
    · exact hvec .movl hv
    · exact hvec .movv hv
    · exact absurd (.run .gcmp hv) (h _)
    · exact hvec .forc hv
    · exact absurd (.run .stop hv) (h _)
    · cases t with
      | nil => exact absurd (.waitForever hv) (h _)
      | cons x t => exact absurd (.wait hv) (h _)
    · exact hvec .tool hv
    · cases t with
      | nil =>
        rw [respond_head _ _ _ hv, respond_act, handleAct, if_neg (by simp)]
        rfl
      | cons x t => exact absurd (.act hv) (h _)
    · rw [respond_head _ _ _ hv, respond_set]
      cases t with
      | nil => rw [if_neg (by simp [isGroup]), handleSet, if_neg (by simp)]; rfl
      | cons k t =>
        by_cases hk : k.asVocab = vParams
        · rw [if_pos (by simp [isGroup, get, hk]), handleSetAll]
          by_cases ht : t = []
          · rw [if_neg (by simp [ht])]; rfl
          · have := List.length_pos_of_ne_nil ht
            rw [if_pos (by simp; omega)]
            simp only [List.drop_succ_cons, List.drop_zero]
            generalize hE : readEntries t [] = E
            cases E with
            | none => rfl
            | some ps =>
              obtain ⟨es, rfl⟩ := readEntries_none (msg := t) (acc := []) (by rw [hE]; simp)
              obtain ⟨qs, h1, h2, h3⟩ := readEntries_group es (acc := []) List.Pairwise.nil
              refine absurd (.setAll hv hk (es := es) (ps := qs) ?_ ⟨h2, fun k x => ?_⟩) (h _)
              · rintro rfl; exact ht rfl
              · rw [h3]; simp
        · rw [if_neg (by simp [isGroup, get, hk]), handleSet]
          cases t with
          | nil => rw [if_neg (by simp)]; rfl
          | cons x t => exact absurd (.set hv hk) (h _)
    · rw [respond_head _ _ _ hv, respond_get]
      cases t with
      | nil => rw [if_neg (by simp [isGroup]), handleGet, if_neg (by simp)]; rfl
      | cons k t =>
        by_cases hk : k.asVocab = vParams
        · rw [if_pos (by simp [isGroup, get, hk]), handleGetAll]
          cases t with
          | nil => exact absurd (.getAll hv hk) (h _)
          | cons x t => rw [if_neg (by simp)]; rfl
        · exact absurd (.get hv hk) (h _)

/-- C70: every message is answered, if the values that the controller gives travel. -/
theorem C70_answered (msg : Bottle)
    (h1 : ∀ k (v : ℝ) s', B.call s (.get k) = ((some v : Option ℝ), s') → Fits k v)
    (h2 : ∀ (ps : List (ℤ × ℝ)) s', B.call s .getAll = ((some ps : Option (List (ℤ × ℝ))), s') →
      ∀ p ∈ ps, Fits p.1 p.2) : ∃ out s', respond B .plain s msg = some (out, s') := by
  by_cases hd : ∃ r, Denotes msg r
  swap
  · obtain ⟨out, ho, -⟩ := C70_other_messages (B := B) (s := s) (fun r hr => hd ⟨r, hr⟩)
    exact ⟨out, s, ho⟩
  obtain ⟨r, hd⟩ := hd
  cases hd with
  | @stat h t hv =>
    rw [respond_head _ _ _ hv, respond_stat, handleStat]
    generalize B.call s .stat = E
    obtain ⟨a, s1⟩ := E
    cases a with
    | none => exact ⟨_, _, rfl⟩
    | some a => obtain ⟨x, st, tm⟩ := a; exact ⟨_, _, rfl⟩
  | @inv h t hv hne =>
    rw [respond_head _ _ _ hv, respond_inv, handleFunction]
    split_ifs
    · simp only [Port.plain, args, List.tail_cons, Option.bind_eq_bind, Option.bind_some, if_true]
      generalize B.call s (.inv (t.map Val.asFloat)) = E
      obtain ⟨a, s1⟩ := E
      cases a <;> exact ⟨_, _, rfl⟩
    · exact ⟨_, _, rfl⟩
  | @vec h t c hv hne =>
    rw [respond_head _ _ _ hv, respond_vec, handleConsumer]
    split_ifs <;> exact ⟨_, _, rfl⟩
  | @run h t c hv =>
    rw [respond_head _ _ _ hv, respond_run, handleRunnable]
    exact ⟨_, _, rfl⟩
  | @waitForever h hv =>
    rw [respond_head _ _ _ hv, respond_wait]
    exact ⟨_, _, rfl⟩
  | @wait h x t hv =>
    rw [respond_head _ _ _ hv, respond_wait]
    exact ⟨_, _, rfl⟩
  | @act h x t hv =>
    rw [respond_head _ _ _ hv, respond_act, handleAct, if_pos (by simp)]
    exact ⟨_, _, rfl⟩
  | @set h k x t hv hk =>
    have hg : isGroup (.vocab vSet :: k :: x :: t) = false := by
      simp [isGroup, get, hk]
    rw [respond_head _ _ _ hv, respond_set, hg, if_neg (by simp), handleSet, if_pos (by simp)]
    exact ⟨_, _, rfl⟩
  | @get h k t hv hk =>
    have hg : isGroup (.vocab vGet :: k :: t) = false := by
      simp [isGroup, get, hk]
    rw [respond_head _ _ _ hv, respond_get, hg, if_neg (by simp), handleGet_unfold]
    have h1 := h1 k.asVocab
    generalize B.call s (.get k.asVocab) = E at h1 ⊢
    obtain ⟨a, s1⟩ := E
    cases a with
    | none => exact ⟨_, _, rfl⟩
    | some a =>
      obtain ⟨w, hw, -⟩ := addValue_fits (h1 a s1 rfl)
      simp only [hw]
      exact ⟨_, _, rfl⟩
  | @setAll h k es ps hv hk hne hps =>
    rw [respond_head _ _ _ hv, respond_set, if_pos (by simp [isGroup, get, hk]), handleSetAll]
    split_ifs
    · generalize readEntries _ _ = E
      cases E <;> exact ⟨_, _, rfl⟩
    · exact ⟨_, _, rfl⟩
  | @getAll h k hv hk =>
    have hg : isGroup [.vocab vGet, k] = true := by
      simp [isGroup, get, hk]
    rw [respond_head _ _ _ hv, respond_get, hg, if_pos rfl, handleGetAll, if_pos (by simp)]
    generalize B.call s .getAll = E at h2 ⊢
    obtain ⟨a, s1⟩ := E
    cases a with
    | none => exact ⟨_, _, rfl⟩
    | some a =>
      obtain ⟨vs, hvs, -⟩ := addEntries (h2 a s1 rfl)
      simp only [hvs]
      exact ⟨_, _, rfl⟩

/-- A controller that refuses everything and writes down what it was asked. -/
def refusing : Backend (List Req) where
  call l
    | .stat => (none, .stat :: l)
    | .inv x => (none, .inv x :: l)
    | .vec c x => (false, .vec c x :: l)
    | .run c => (false, .run c :: l)
    | .wait t => (false, .wait t :: l)
    | .act c => (false, .act c :: l)
    | .set k v => (false, .set k v :: l)
    | .get k => (none, .get k :: l)
    | .setAll ps => (false, .setAll ps :: l)
    | .getAll => (none, .getAll :: l)
    | .stream c x => ((), .stream c x :: l)

theorem refusing_log (l : List Req) (r : Req) : (refusing.call l r).2 = r :: l := by
  cases r <;> rfl

/-- C70: a message stands for one request at most. -/
theorem C70_one_request {msg : Bottle} {r r' : Req} (h : Denotes msg r) (h' : Denotes msg r') : r = r' := by
  obtain ⟨out, l, hl⟩ := C70_answered (B := refusing) (s := []) msg
    (fun k v s' h => nomatch h) (fun ps s' h => nomatch h)
  have h1 := C70_denoted_request h hl
  have h2 := C70_denoted_request h' hl
  rw [refusing_log] at h1 h2
  rw [h1] at h2
  exact (List.cons.inj h2).1

end

/-! ### Cases -/

/-- A group message in which the second entry lacks its value: the controller is not asked, not even for the
first one. -/
example : respond counter .plain 3 [.vocab vSet, .vocab vParams, .list [.vocab vFrame, .vocab vOk],
    .list [.vocab vStreaming]] = some ([.vocab vFailed], 3) := by
  obtain ⟨out, h, ho⟩ := C70_other_messages (B := counter) (s := 3) (msg := [.vocab vSet, .vocab vParams,
    .list [.vocab vFrame, .vocab vOk], .list [.vocab vStreaming]]) (by
      intro r hr
      generalize hm : [Val.vocab vSet, .vocab vParams, .list [.vocab vFrame, .vocab vOk],
        .list [.vocab vStreaming]] = msg at hr
      cases hr with
      | @setAll h k es ps hv hk hne hps =>
        rcases es with _ | ⟨a, _ | ⟨b, _ | ⟨c, es⟩⟩⟩ <;> simp at hm
      | stat hv => cases hm; exact absurd hv (by decide)
      | inv hv => cases hm; exact absurd hv (by decide)
      | vec c hv => cases hm; cases c <;> exact absurd hv (by decide)
      | run c hv => cases hm; cases c <;> exact absurd hv (by decide)
      | waitForever hv => cases hm
      | wait hv => cases hm; exact absurd hv (by decide)
      | act hv => cases hm; exact absurd hv (by decide)
      | set hv hk => cases hm; exact hk rfl
      | get hv => cases hm; exact absurd hv (by decide)
      | getAll hv hk => cases hm)
  rw [h, ho (by decide)]

/-- A group with a repeated key stands for the first value. -/
example : Denotes [.vocab vSet, .vocab vParams, .list [.vocab 5, .float 1], .list [.vocab 5, .float 2]]
    (.setAll [(5, 1)]) := by
  refine .setAll rfl rfl (es := [(.vocab 5, .float 1), (.vocab 5, .float 2)]) (by simp) ⟨by simp [IsMap], ?_⟩
  intro k x
  by_cases hk : 5 = k
  · subst hk
    simp [List.find?, Val.asVocab, asValue, Val.asFloat, show ¬ ((5 : ℤ) = vFrame ∨ (5 : ℤ) = vStreaming) by decide]
  · simp [List.find?, Val.asVocab, hk, show k ≠ 5 from fun h => hk h.symm]

/-- C70 in its full form asks that only numbers are taken for numbers. It fails: `movj` with texts in the
place of the coordinates is a movement to zeros. -/
theorem C70_texts_are_zeros {σ : Type} (B : Backend σ) (s : σ) (c : VecCmd) (codes : List ℤ) (hne : codes ≠ []) :
    respond B .plain s (.vocab c.vocab :: codes.map .str) =
      some (verdict (B.call s (.vec c (List.replicate codes.length 0))).1,
        (B.call s (.vec c (List.replicate codes.length 0))).2) := by
  have hl : (Val.vocab c.vocab :: codes.map .str).length > 1 := by
    have := List.length_pos_of_ne_nil hne; simp; omega
  have ha : args (.vocab c.vocab :: codes.map .str) = List.replicate codes.length 0 := by
    simp only [args, List.tail_cons, List.map_map, Function.comp_def, Val.asFloat]
    exact List.map_const' ..
  rw [respond_vec, handleConsumer, if_pos hl, ha]
  rfl

/-- And every method of the client takes the remark about an unknown command for a success: the three kinds of
answers. -/
theorem C70_remark_taken_for_success (code : ℤ) :
    (∀ c x, interpret (.vec c x) [.str code] = some true) ∧
    (∀ c, interpret (.run c) [.str code] = some true) ∧
    (∀ x, interpret (.inv x) [.str code] = some (some ([0] : List ℝ))) := by
  refine ⟨fun c x => rfl, fun c => rfl, fun x => rfl⟩

end KD.Net
