import Verif.Net.NamesLemmas

/-!
# C84: clients and servers find each other by their names
-/

namespace KD.Net

/-- What is written to this port arrives at that device. -/
def Wires.Reaches (n : Wires) (x : String) (d : ℕ) : Prop := ∃ y, (x, y) ∈ n.links ∧ (y, d) ∈ n.ports

/-- What this port reads may come from that device. -/
def Wires.Hears (n : Wires) (y : String) (d : ℕ) : Prop := ∃ x, (x, y) ∈ n.links ∧ (x, d) ∈ n.ports

/-! ## Lemmas -/

theorem Site.Inv.reaches_rpc {s : Site} (h : s.Inv) {k : ℕ} {c : ClientCfg} {b : Bool} (hk : (k, c, b) ∈ s.clients)
    {x : Suf} {y : Suf} (hxy : x = .rpcC ∧ y = .rpcS ∨ x = .commandO ∧ y = .commandI) (d : ℕ) :
    s.wires.Reaches (c.here ++ x.text) d ↔ ∃ sc, (d, sc) ∈ s.servers ∧ d < k ∧ sc.prefixed = c.there := by
  have hx : ∀ b', x ∈ ClientCfg.kinds b' := by
    intro b'
    rcases hxy with ⟨rfl, -⟩ | ⟨rfl, -⟩ <;> cases b' <;> decide
  have hy : ∀ sc : ServerCfg, y ∈ sc.kinds := by
    intro sc
    rcases hxy with ⟨-, rfl⟩ | ⟨-, rfl⟩
    · exact sc.rpcS.1
    · exact sc.rpcS.2
  constructor
  · rintro ⟨z, hl, hp⟩
    obtain ⟨k', c', b', i, sc, h1, h2, h3, h4, h5⟩ := (h.links _).mp hl
    have hz : c'.here = c.here ∧ z = c'.there ++ y.text := by
      simp only [ClientCfg.wiring, List.mem_append, List.mem_cons, List.not_mem_nil, or_false] at h5
      rcases h5 with (h5 | h5) | h5
      · obtain ⟨e1, e2⟩ := Prod.mk.inj h5
        obtain ⟨e3, e4⟩ := Suf.inj (t := .rpcC) e1
        subst e4
        rcases hxy with ⟨-, rfl⟩ | ⟨hx, -⟩
        · exact ⟨e3.symm, e2⟩
        · cases hx
      · obtain ⟨e1, e2⟩ := Prod.mk.inj h5
        obtain ⟨e3, e4⟩ := Suf.inj (t := .commandO) e1
        subst e4
        rcases hxy with ⟨hx, -⟩ | ⟨-, rfl⟩
        · cases hx
        · exact ⟨e3.symm, e2⟩
      · split_ifs at h5
        · obtain ⟨e1, -⟩ := Prod.mk.inj (List.mem_singleton.mp h5)
          obtain ⟨-, e4⟩ := Suf.inj (t := .stateO) e1
          subst e4
          rcases hxy with ⟨hx, -⟩ | ⟨hx, -⟩ <;> cases hx
        · cases h5
    obtain ⟨e1, rfl⟩ := hz
    have ek : k' = k := h.unique (c.here ++ x.text) k' k
      (Or.inr ⟨c', b', h1, ClientCfg.mem_ports.mpr ⟨e1.symm, hx _⟩⟩)
      (Or.inr ⟨c, b, hk, ClientCfg.mem_ports.mpr ⟨rfl, hx _⟩⟩)
    subst ek
    obtain ⟨rfl, rfl⟩ := h.cnum _ _ _ _ _ h1 hk
    have ed : d = i := h.unique (c'.there ++ y.text) d i ((h.ports _ _).mp hp)
      (Or.inl ⟨sc, h2, ServerCfg.mem_ports.mpr ⟨h4.symm, hy _⟩⟩)
    subst ed
    exact ⟨sc, h2, h3, h4⟩
  · rintro ⟨sc, h2, h3, h4⟩
    refine ⟨c.there ++ y.text, (h.links _).mpr ⟨k, c, b, d, sc, hk, h2, h3, h4, ?_⟩, (h.ports _ _).mpr
      (Or.inl ⟨sc, h2, ServerCfg.mem_ports.mpr ⟨h4.symm, hy _⟩⟩)⟩
    rcases hxy with ⟨rfl, rfl⟩ | ⟨rfl, rfl⟩
    · exact List.mem_append_left _ List.mem_cons_self
    · exact List.mem_append_left _ (List.mem_cons_of_mem _ List.mem_cons_self)

theorem Site.Inv.hears {s : Site} (h : s.Inv) {k : ℕ} {c : ClientCfg} {b : Bool} (hk : (k, c, b) ∈ s.clients)
    (d : ℕ) : s.wires.Hears (c.here ++ "/state:i") d ↔
      b = true ∧ ∃ sc, (d, sc) ∈ s.servers ∧ d < k ∧ sc.prefixed = c.there := by
  constructor
  · rintro ⟨z, hl, hp⟩
    obtain ⟨k', c', b', i, sc, h1, h2, h3, h4, h5⟩ := (h.links _).mp hl
    have hz : b' = true ∧ c'.here = c.here ∧ z = c'.there ++ "/state:o" := by
      simp only [ClientCfg.wiring, List.mem_append, List.mem_cons, List.not_mem_nil, or_false] at h5
      rcases h5 with (h5 | h5) | h5
      · cases (Suf.inj (s := .stateI) (t := .rpcS) (Prod.mk.inj h5).2).2
      · cases (Suf.inj (s := .stateI) (t := .commandI) (Prod.mk.inj h5).2).2
      · split_ifs at h5 with hb
        · obtain ⟨e1, e2⟩ := Prod.mk.inj (List.mem_singleton.mp h5)
          exact ⟨hb, (Suf.inj (s := .stateI) (t := .stateI) e2).1.symm, e1⟩
        · cases h5
    obtain ⟨rfl, e1, rfl⟩ := hz
    have ek : k' = k := h.unique (c.here ++ Suf.rpcC.text) k' k
      (Or.inr ⟨c', true, h1, ClientCfg.mem_ports.mpr ⟨e1.symm, by decide⟩⟩)
      (Or.inr ⟨c, b, hk, ClientCfg.mem_ports.mpr ⟨rfl, by cases b <;> decide⟩⟩)
    subst ek
    obtain ⟨rfl, rfl⟩ := h.cnum _ _ _ _ _ h1 hk
    have hs := h.stream _ _ _ _ _ h1 h2 h3 h4
    have ed : d = i := h.unique (c'.there ++ "/state:o") d i ((h.ports _ _).mp hp)
      (Or.inl ⟨sc, h2, ServerCfg.mem_ports (s := .stateO).mpr ⟨h4.symm, ServerCfg.stateO.mpr hs.symm⟩⟩)
    subst ed
    exact ⟨rfl, sc, h2, h3, h4⟩
  · rintro ⟨rfl, sc, h2, h3, h4⟩
    have hs := h.stream _ _ _ _ _ hk h2 h3 h4
    exact ⟨c.there ++ "/state:o", (h.links _).mpr ⟨k, c, true, d, sc, hk, h2, h3, h4,
      List.mem_append_right _ (List.mem_singleton.mpr rfl)⟩, (h.ports _ _).mpr
      (Or.inl ⟨sc, h2, ServerCfg.mem_ports (s := .stateO).mpr ⟨h4.symm, ServerCfg.stateO.mpr hs.symm⟩⟩)⟩

theorem Site.next_mono (s : Site) (d : Deed) : s.next ≤ (s.step d).next := by
  cases d <;> simp only [Site.step]
  · split <;> simp
  · split <;> simp
  · exact Nat.le_refl _

theorem Site.next_after (s : Site) (ds : List Deed) : s.next ≤ (s.after ds).next := by
  induction ds generalizing s with
  | nil => exact Nat.le_refl _
  | cons d ds ih => exact Nat.le_trans (s.next_mono d) (ih _)

/-- A server that was there before is still there just if it was not closed. -/
theorem Site.old_server {s : Site} (ds : List Deed) {i : ℕ} {c : ServerCfg} (hi : i < s.next) :
    (i, c) ∈ (s.after ds).servers ↔ (i, c) ∈ s.servers ∧ Deed.close i ∉ ds := by
  induction ds generalizing s with
  | nil => simp [Site.after]
  | cons d ds ih =>
    show (i, c) ∈ ((s.step d).after ds).servers ↔ _
    rw [ih (Nat.lt_of_lt_of_le hi (s.next_mono d))]
    cases d with
    | openServer c' =>
      simp only [Site.step]
      split
      · simp
      · have : i ≠ s.next := Nat.ne_of_lt hi
        simp [this]
    | openClient c' =>
      simp only [Site.step]
      split <;> simp
    | close dev =>
      simp [Site.step, List.mem_filter, and_assoc]

theorem Site.old_client {s : Site} (ds : List Deed) {i : ℕ} {c : ClientCfg} {b : Bool} (hi : i < s.next) :
    (i, c, b) ∈ (s.after ds).clients ↔ (i, c, b) ∈ s.clients ∧ Deed.close i ∉ ds := by
  induction ds generalizing s with
  | nil => simp [Site.after]
  | cons d ds ih =>
    show (i, c, b) ∈ ((s.step d).after ds).clients ↔ _
    rw [ih (Nat.lt_of_lt_of_le hi (s.next_mono d))]
    cases d with
    | openServer c' =>
      simp only [Site.step]
      split <;> simp
    | openClient c' =>
      simp only [Site.step]
      split
      · simp
      · have : i ≠ s.next := Nat.ne_of_lt hi
        simp [this]
    | close dev =>
      simp [Site.step, List.mem_filter, and_assoc]

theorem Site.server_from {s : Site} (ds : List Deed) {i : ℕ} {c : ServerCfg} (h : (i, c) ∈ (s.after ds).servers) :
    (i, c) ∈ s.servers ∨ Deed.openServer c ∈ ds := by
  induction ds generalizing s with
  | nil => exact Or.inl h
  | cons d ds ih =>
    rcases ih (s := s.step d) h with h | h
    · cases d with
      | openServer c' =>
        simp only [Site.step] at h
        split at h
        · exact Or.inl h
        · rcases List.mem_cons.mp h with h | h
          · cases h; exact Or.inr List.mem_cons_self
          · exact Or.inl h
      | openClient c' =>
        simp only [Site.step] at h
        split at h <;> exact Or.inl h
      | close dev => exact Or.inl (List.mem_filter.mp h).1
    · exact Or.inr (List.mem_cons_of_mem _ h)

/-! ## C84 -/

/-- **C84.** Whatever was opened and closed, in any order, requests and streamed commands of a client arrive at
one and the same server, which has the name that the client was given and was there before it, or all of them
arrive nowhere; the state it hears, if it listens, is the one of that server, and it listens just if that server has a
period to publish it. -/
theorem C84_one_server_partial (ds : List Deed) {k : ℕ} {c : ClientCfg} {b : Bool}
    (hk : (k, c, b) ∈ (Site.after {} ds).clients) : ∃ server : Option ℕ,
    (∀ d, (Site.after {} ds).wires.Reaches (c.here ++ "/rpc:c") d ↔ server = some d) ∧
    (∀ d, (Site.after {} ds).wires.Reaches (c.here ++ "/command:o") d ↔ server = some d) ∧
    (∀ d, (Site.after {} ds).wires.Hears (c.here ++ "/state:i") d ↔ b = true ∧ server = some d) ∧
    ∀ d, server = some d → d < k ∧ ∃ sc, (d, sc) ∈ (Site.after {} ds).servers ∧ sc.prefixed = c.there ∧
      (b = true ↔ 0 < sc.fkPeriod.getD 20) := by
  have h := Site.inv_init.after ds
  have h1 := h.reaches_rpc hk (x := .rpcC) (y := .rpcS) (Or.inl ⟨rfl, rfl⟩)
  have h2 := h.reaches_rpc hk (x := .commandO) (y := .commandI) (Or.inr ⟨rfl, rfl⟩)
  have h3 := h.hears hk
  by_cases hex : ∃ d sc, (d, sc) ∈ (Site.after {} ds).servers ∧ d < k ∧ sc.prefixed = c.there
  · obtain ⟨d0, sc0, a1, a2, a3⟩ := hex
    have key : ∀ d, (∃ sc, (d, sc) ∈ (Site.after {} ds).servers ∧ d < k ∧ sc.prefixed = c.there) ↔
        some d0 = some d := by
      intro d
      constructor
      · rintro ⟨sc, b1, b2, b3⟩
        rw [(h.server_unique a1 b1 (a3.trans b3.symm)).1]
      · intro e
        cases e
        exact ⟨sc0, a1, a2, a3⟩
    refine ⟨some d0, fun d => (h1 d).trans (key d), fun d => (h2 d).trans (key d), fun d => ?_, ?_⟩
    · rw [h3 d, key d]
    · intro d e
      cases e
      exact ⟨a2, sc0, a1, a3, by rw [h.stream _ _ _ _ _ hk a1 a2 a3, ServerCfg.publishes, decide_eq_true_iff, gt_iff_lt]⟩
  · have key : ∀ d, ¬ ∃ sc, (d, sc) ∈ (Site.after {} ds).servers ∧ d < k ∧ sc.prefixed = c.there :=
      fun d hd => hex ⟨d, hd⟩
    refine ⟨none, fun d => (h1 d).trans (by simp [key d]), fun d => (h2 d).trans (by simp [key d]), fun d => ?_, ?_⟩
    · rw [h3 d]; simp [key d]
    · intro d e; cases e

/-- **C84.** A client opens just if a server of that name is there and no client has the same local name. -/
theorem C84_client_opens_iff (ds : List Deed) (c : ClientCfg) :
    (∃ w b, c.open (Site.after {} ds).next (Site.after {} ds).wires = some (w, b)) ↔
      (∃ i sc, (i, sc) ∈ (Site.after {} ds).servers ∧ sc.prefixed = c.there) ∧
      ∀ k c' b, (k, c', b) ∈ (Site.after {} ds).clients → c'.here ≠ c.here := by
  have h := Site.inv_init.after ds
  constructor
  · rintro ⟨w, b, hw⟩
    obtain ⟨hf, hr, hc, hb, rfl⟩ := ClientCfg.open_iff.mp hw
    obtain ⟨i, sc, a1, a2, -⟩ := (h.has_server (t := .rpcS) (by decide)).mp hr
    refine ⟨⟨i, sc, a1, a2⟩, fun k c' b' hk e => ?_⟩
    have h1 := hf (c.here ++ Suf.rpcC.text) (ClientCfg.mem_ports.mpr ⟨rfl, by cases b <;> decide⟩)
    rw [(h.has_client (by decide)).mpr ⟨k, c', b', hk, e, by cases b' <;> decide⟩] at h1
    cases h1
  · rintro ⟨⟨i, sc, a1, a2⟩, hl⟩
    refine ⟨_, _, ClientCfg.open_iff.mpr ⟨?_, ?_, ?_, rfl, rfl⟩⟩
    · intro x hx
      rw [ClientCfg.ports, List.mem_map] at hx
      obtain ⟨t, ht, rfl⟩ := hx
      rw [Bool.eq_false_iff]
      intro hh
      obtain ⟨k, c', b', hk, e, -⟩ := (h.has_client (t := t) (by
        revert ht
        cases Wires.has _ _ <;> cases t <;> decide)).mp hh
      exact hl k c' b' hk e
    · exact (h.has_server (t := .rpcS) (by decide)).mpr ⟨i, sc, a1, a2, sc.rpcS.1⟩
    · exact (h.has_server (t := .commandI) (by decide)).mpr ⟨i, sc, a1, a2, sc.rpcS.2⟩

/-- **C84.** A server opens its ports just if no server has its name. -/
theorem C84_server_opens_iff (ds : List Deed) (c : ServerCfg) :
    (∃ w, (Site.after {} ds).wires.open (Site.after {} ds).next c.ports = some w) ↔
      ∀ i sc, (i, sc) ∈ (Site.after {} ds).servers → sc.prefixed ≠ c.prefixed := by
  have h := Site.inv_init.after ds
  constructor
  · rintro ⟨w, hw⟩ i sc hi e
    obtain ⟨-, hf, -⟩ := Wires.open_iff.mp hw
    have h1 := hf (c.prefixed ++ Suf.rpcS.text) (ServerCfg.mem_ports.mpr ⟨rfl, c.rpcS.1⟩)
    rw [(h.has_server (by decide)).mpr ⟨i, sc, hi, e, sc.rpcS.1⟩] at h1
    cases h1
  · intro hl
    refine ⟨_, Wires.open_iff.mpr ⟨c.nodup, ?_, rfl⟩⟩
    intro x hx
    rw [ServerCfg.ports_eq, List.mem_map] at hx
    obtain ⟨t, ht, rfl⟩ := hx
    rw [Bool.eq_false_iff]
    intro hh
    obtain ⟨i, sc, hi, e, -⟩ := (h.has_server (t := t) (by
      obtain ⟨h1, h2, h3⟩ := c.no_client
      intro hk
      simp only [ClientCfg.kinds, List.mem_append, List.mem_cons, List.not_mem_nil, or_false, if_true] at hk
      rcases hk with (rfl | rfl) | rfl
      · exact h1 ht
      · exact h2 ht
      · exact h3 ht)).mp hh
    exact hl i sc hi e

/-- **C84.** A client that opened is connected to the server it found as long as neither is closed, whatever
else is opened or closed. -/
theorem C84_stays_connected (ds rest : List Deed) {c : ClientCfg} {b : Bool} {w : Wires} {i : ℕ} {sc : ServerCfg}
    (hi : (i, sc) ∈ (Site.after {} ds).servers) (hs : sc.prefixed = c.there)
    (ho : c.open (Site.after {} ds).next (Site.after {} ds).wires = some (w, b))
    (h1 : Deed.close i ∉ rest) (h2 : Deed.close (Site.after {} ds).next ∉ rest) :
    (Site.after {} (ds ++ .openClient c :: rest)).wires.Reaches (c.here ++ "/rpc:c") i ∧
    (Site.after {} (ds ++ .openClient c :: rest)).wires.Reaches (c.here ++ "/command:o") i := by
  have h := Site.inv_init.after ds
  have e : Site.after {} (ds ++ .openClient c :: rest) = ((Site.after {} ds).step (.openClient c)).after rest := by
    simp [Site.after]
  have hn : ((Site.after {} ds).step (.openClient c)).next = (Site.after {} ds).next + 1 := by
    simp only [Site.step, ho]
  have hlt := h.sid _ _ hi
  have hk : ((Site.after {} ds).next, c, b) ∈ (((Site.after {} ds).step (.openClient c)).after rest).clients := by
    refine (Site.old_client rest (by rw [hn]; exact Nat.lt_succ_self _)).mpr ⟨?_, h2⟩
    simp only [Site.step, ho]
    exact List.mem_cons_self
  have hi' : (i, sc) ∈ (((Site.after {} ds).step (.openClient c)).after rest).servers := by
    refine (Site.old_server rest (by rw [hn]; exact Nat.lt_succ_of_lt hlt)).mpr ⟨?_, h1⟩
    simp only [Site.step, ho]
    exact hi
  have h' := (h.step (.openClient c)).after rest
  rw [e]
  exact ⟨(h'.reaches_rpc hk (x := .rpcC) (y := .rpcS) (Or.inl ⟨rfl, rfl⟩) i).mpr ⟨sc, hi', hlt, hs⟩,
    (h'.reaches_rpc hk (x := .commandO) (y := .commandI) (Or.inr ⟨rfl, rfl⟩) i).mpr ⟨sc, hi', hlt, hs⟩⟩

/-- What is missing in C84: a server that is closed and opened again is lost for the clients it had. They are
still open, and whatever is opened afterwards, nothing they send arrives anywhere. -/
theorem C84_restart_loses_clients (ds rest : List Deed) {c : ClientCfg} {b : Bool} {w : Wires} {i : ℕ}
    {sc : ServerCfg} (hi : (i, sc) ∈ (Site.after {} ds).servers) (hs : sc.prefixed = c.there)
    (ho : c.open (Site.after {} ds).next (Site.after {} ds).wires = some (w, b))
    (h1 : Deed.close i ∈ rest) (h2 : Deed.close (Site.after {} ds).next ∉ rest) (d : ℕ) :
    ((Site.after {} ds).next, c, b) ∈ (Site.after {} (ds ++ .openClient c :: rest)).clients ∧
    ¬ (Site.after {} (ds ++ .openClient c :: rest)).wires.Reaches (c.here ++ "/rpc:c") d ∧
    ¬ (Site.after {} (ds ++ .openClient c :: rest)).wires.Reaches (c.here ++ "/command:o") d := by
  have h := Site.inv_init.after ds
  have e : Site.after {} (ds ++ .openClient c :: rest) = ((Site.after {} ds).step (.openClient c)).after rest := by
    simp [Site.after]
  have hn : ((Site.after {} ds).step (.openClient c)).next = (Site.after {} ds).next + 1 := by
    simp only [Site.step, ho]
  have hk : ((Site.after {} ds).next, c, b) ∈ (((Site.after {} ds).step (.openClient c)).after rest).clients := by
    refine (Site.old_client rest (by rw [hn]; exact Nat.lt_succ_self _)).mpr ⟨?_, h2⟩
    simp only [Site.step, ho]
    exact List.mem_cons_self
  have key : ¬ ∃ sc, (d, sc) ∈ (((Site.after {} ds).step (.openClient c)).after rest).servers ∧
      d < (Site.after {} ds).next ∧ sc.prefixed = c.there := by
    rintro ⟨sc', a1, a2, a3⟩
    obtain ⟨b1, b2⟩ := (Site.old_server rest (by rw [hn]; exact Nat.lt_succ_of_lt a2)).mp a1
    simp only [Site.step, ho] at b1
    obtain ⟨rfl, -⟩ := h.server_unique hi b1 (hs.trans a3.symm)
    exact b2 h1
  have h' := (h.step (.openClient c)).after rest
  rw [e]
  exact ⟨hk, fun hr => key ((h'.reaches_rpc hk (x := .rpcC) (y := .rpcS) (Or.inl ⟨rfl, rfl⟩) d).mp hr),
    fun hr => key ((h'.reaches_rpc hk (x := .commandO) (y := .commandI) (Or.inr ⟨rfl, rfl⟩) d).mp hr)⟩

/-- What is missing in C84: with the names that client and server have by default they do not find each other. -/
theorem C84_defaults_counterexample (ds : List Deed) (h : ∀ c, Deed.openServer c ∈ ds → c.name = none)
    (c : ClientCfg) (hc : c.cartesianRemote = none) :
    c.open (Site.after {} ds).next (Site.after {} ds).wires = none := by
  cases ho : c.open (Site.after {} ds).next (Site.after {} ds).wires with
  | none => rfl
  | some r =>
    obtain ⟨⟨i, sc, a1, a2⟩, -⟩ := (C84_client_opens_iff ds c).mp ⟨r.1, r.2, ho⟩
    rcases Site.server_from ds a1 with h' | h'
    · cases h'
    · have := h sc h'
      rw [ServerCfg.prefixed, ClientCfg.there, this, hc] at a2
      exact absurd a2 (by decide)

/-- Two servers and two clients, one of each server; then a server is closed and opened again. -/
def bothArms : List Deed :=
  [.openServer { name := some "/left" }, .openServer { name := some "/right", fkPeriod := some 0 },
    .openClient { cartesianLocal := some "/l", cartesianRemote := some "/left" },
    .openClient { cartesianLocal := some "/r", cartesianRemote := some "/right" }]

example : (Site.after {} bothArms).clients.map (fun p => (p.1, p.2.2)) = [(3, false), (2, true)] ∧
    (Site.after {} bothArms).servers.map Prod.fst = [1, 0] ∧
    (Site.after {} (bothArms ++ [.close 0, .openServer { name := some "/left" }])).servers.map Prod.fst = [4, 1] := by
  decide

example : ∃ w b, (ClientCfg.open { cartesianRemote := some "/left" } 4 (Site.after {} bothArms).wires) = some (w, b) :=
  ⟨_, _, rfl⟩

example : ∃ w, (Site.after {} bothArms).wires.open 4 (ServerCfg.ports {}) = some w := ⟨_, rfl⟩

end KD.Net
