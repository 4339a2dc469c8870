import Verif.Net.Names
import Mathlib.Data.List.Nodup

/-!
# Lemmas about the names of ports
-/

namespace KD.Net

/-! ## Names -/

inductive Suf | rpcS | commandI | stateO | transformS | rpcC | commandO | stateI
  deriving DecidableEq

def Suf.text : Suf → String
  | .rpcS => "/rpc:s"
  | .commandI => "/command:i"
  | .stateO => "/state:o"
  | .transformS => "/rpc_transform:s"
  | .rpcC => "/rpc:c"
  | .commandO => "/command:o"
  | .stateI => "/state:i"

theorem Suf.inj {a b : String} {s t : Suf} (h : a ++ s.text = b ++ t.text) : a = b ∧ s = t := by
  have h' := congrArg (fun x => x.toList.reverse) h
  simp only [String.toList_append, List.reverse_append] at h'
  cases s <;> cases t <;> simp [Suf.text] at h' ⊢ <;> exact String.ext h'

/-- A name of a server. -/
def ServerCfg.kinds (c : ServerCfg) : List Suf :=
  [.rpcS, .commandI] ++ (if c.publishes then [.stateO] else []) ++ (if c.transforms then [.transformS] else [])

theorem ServerCfg.ports_eq (c : ServerCfg) : c.ports = c.kinds.map fun s => c.prefixed ++ s.text := by
  unfold ServerCfg.ports ServerCfg.kinds
  cases c.publishes <;> cases c.transforms <;> rfl

/-- The ports of a client. -/
def ClientCfg.kinds (b : Bool) : List Suf := [.rpcC, .commandO] ++ if b then [.stateI] else []

def ClientCfg.ports (c : ClientCfg) (b : Bool) : List String := (ClientCfg.kinds b).map fun s => c.here ++ s.text

theorem ServerCfg.mem_ports {c : ServerCfg} {x : String} {s : Suf} :
    x ++ s.text ∈ c.ports ↔ x = c.prefixed ∧ s ∈ c.kinds := by
  rw [ServerCfg.ports_eq, List.mem_map]
  constructor
  · rintro ⟨t, ht, e⟩
    obtain ⟨rfl, rfl⟩ := Suf.inj e
    exact ⟨rfl, ht⟩
  · rintro ⟨rfl, h⟩
    exact ⟨s, h, rfl⟩

theorem ClientCfg.mem_ports {c : ClientCfg} {b : Bool} {x : String} {s : Suf} :
    x ++ s.text ∈ c.ports b ↔ x = c.here ∧ s ∈ ClientCfg.kinds b := by
  rw [ClientCfg.ports, List.mem_map]
  constructor
  · rintro ⟨t, ht, e⟩
    obtain ⟨rfl, rfl⟩ := Suf.inj e
    exact ⟨rfl, ht⟩
  · rintro ⟨rfl, h⟩
    exact ⟨s, h, rfl⟩

theorem map_text_nodup {x : String} {l : List Suf} (h : l.Nodup) : (l.map fun s => x ++ s.text).Nodup :=
  List.Nodup.map (fun _ _ e => (Suf.inj e).2) h

theorem ServerCfg.nodup (c : ServerCfg) : c.ports.Nodup := by
  rw [ServerCfg.ports_eq]
  refine map_text_nodup ?_
  unfold ServerCfg.kinds
  cases c.publishes <;> cases c.transforms <;> decide

theorem ServerCfg.no_client {c : ServerCfg} : Suf.rpcC ∉ c.kinds ∧ Suf.commandO ∉ c.kinds ∧ Suf.stateI ∉ c.kinds := by
  unfold ServerCfg.kinds
  cases c.publishes <;> cases c.transforms <;> decide

theorem ServerCfg.stateO {c : ServerCfg} : Suf.stateO ∈ c.kinds ↔ c.publishes = true := by
  unfold ServerCfg.kinds
  cases c.publishes <;> cases c.transforms <;> decide

theorem ServerCfg.rpcS {c : ServerCfg} : Suf.rpcS ∈ c.kinds ∧ Suf.commandI ∈ c.kinds := by
  unfold ServerCfg.kinds
  cases c.publishes <;> cases c.transforms <;> decide

/-! ## The network -/

theorem Wires.has_iff {n : Wires} {x : String} : n.has x = true ↔ ∃ d, (x, d) ∈ n.ports := by
  simp [Wires.has]

theorem Wires.open_iff {d : ℕ} {l : List String} : ∀ {n n' : Wires}, Wires.open d l n = some n' ↔
    l.Nodup ∧ (∀ x ∈ l, n.has x = false) ∧ n' = ⟨l.reverse.map (fun x => (x, d)) ++ n.ports, n.links⟩ := by
  induction l with
  | nil =>
    intro n n'
    simp only [Wires.open, Option.some.injEq]
    constructor
    · rintro rfl; simp
    · rintro ⟨-, -, rfl⟩; rfl
  | cons x l ih =>
    intro n n'
    simp only [Wires.open]
    cases h : n.has x with
    | true =>
      simp only [if_pos]
      constructor
      · intro h'; cases h'
      · rintro ⟨-, h', -⟩
        have := h' x List.mem_cons_self
        rw [h] at this; cases this
    | false =>
      rw [if_neg (by simp), ih]
      have hh : ∀ y, (Wires.has ⟨(x, d) :: n.ports, n.links⟩ y = false) ↔ y ≠ x ∧ n.has y = false := by
        intro y
        simp [Wires.has]
      constructor
      · rintro ⟨a, b, rfl⟩
        refine ⟨List.nodup_cons.mpr ⟨fun hx => ((hh x).mp (b x hx)).1 rfl, a⟩, ?_, by simp⟩
        intro y hy
        rcases List.mem_cons.mp hy with rfl | hy
        · exact h
        · exact ((hh y).mp (b y hy)).2
      · rintro ⟨a, b, rfl⟩
        obtain ⟨a1, a2⟩ := List.nodup_cons.mp a
        refine ⟨a2, fun y hy => (hh y).mpr ⟨fun e => a1 (e ▸ hy), b y (List.mem_cons_of_mem _ hy)⟩, by simp⟩

theorem Wires.mem_opened {n : Wires} {d : ℕ} {l : List String} {x : String} {e : ℕ} :
    (x, e) ∈ l.reverse.map (fun x => (x, d)) ++ n.ports ↔ (x ∈ l ∧ e = d) ∨ (x, e) ∈ n.ports := by
  simp [eq_comm]

theorem Wires.has_opened {n : Wires} {d : ℕ} {l : List String} {x : String} {k : List (String × String)} :
    Wires.has ⟨l.reverse.map (fun x => (x, d)) ++ n.ports, k⟩ x = true ↔ x ∈ l ∨ n.has x = true := by
  rw [Wires.has_iff, Wires.has_iff]
  simp only [Wires.mem_opened]
  constructor
  · rintro ⟨e, ⟨h, -⟩ | h⟩
    · exact Or.inl h
    · exact Or.inr ⟨e, h⟩
  · rintro (h | ⟨e, h⟩)
    · exact ⟨d, Or.inl ⟨h, rfl⟩⟩
    · exact ⟨e, Or.inr h⟩

theorem Wires.connect_iff {a b : String} {n n' : Wires} : n.connect a b = some n' ↔
    n.has a = true ∧ n.has b = true ∧ n' = ⟨n.ports, (a, b) :: n.links⟩ := by
  unfold Wires.connect
  cases n.has a <;> cases n.has b <;> simp [eq_comm]

/-! ## The client -/

/-- The connections of a client. -/
def ClientCfg.wiring (c : ClientCfg) (b : Bool) : List (String × String) :=
  [(c.here ++ "/rpc:c", c.there ++ "/rpc:s"), (c.here ++ "/command:o", c.there ++ "/command:i")] ++
    if b then [(c.there ++ "/state:o", c.here ++ "/state:i")] else []

theorem ClientCfg.open_iff {c : ClientCfg} {d : ℕ} {n n' : Wires} {b : Bool} : c.open d n = some (n', b) ↔
    (∀ x ∈ c.ports b, n.has x = false) ∧ n.has (c.there ++ "/rpc:s") = true ∧
    n.has (c.there ++ "/command:i") = true ∧ b = n.has (c.there ++ "/state:o") ∧
    n' = ⟨(c.ports b).reverse.map (fun x => (x, d)) ++ n.ports, (c.wiring b).reverse ++ n.links⟩ := by
  have hne : ∀ {x y : String} {s t : Suf}, s ≠ t → x ++ s.text ≠ y ++ t.text := fun h e => h (Suf.inj e).2
  have hnd : ([c.here ++ "/rpc:c", c.here ++ "/command:o"] : List String).Nodup :=
    map_text_nodup (l := [.rpcC, .commandO]) (x := c.here) (by decide)
  let l := [c.here ++ "/rpc:c", c.here ++ "/command:o"]
  have hl : ∀ {x : String} {s : Suf}, s ≠ .rpcC → s ≠ .commandO → x ++ s.text ∉ l := by
    intro x s h1 h2 h
    rcases List.mem_cons.mp h with h | h
    · exact hne (t := .rpcC) h1 h
    · exact hne (t := .commandO) h2 (List.mem_singleton.mp h)
  have old : ∀ {x : String} {s : Suf} {k}, s ≠ .rpcC → s ≠ .commandO →
      Wires.has ⟨l.reverse.map (fun x => (x, d)) ++ n.ports, k⟩ (x ++ s.text) = n.has (x ++ s.text) := by
    intro x s k h1 h2
    rw [Bool.eq_iff_iff, Wires.has_opened]
    exact ⟨fun h => h.resolve_left (hl h1 h2), Or.inr⟩
  unfold ClientCfg.open
  simp only [Option.bind_eq_bind, Option.bind_eq_some_iff]
  constructor
  · rintro ⟨n1, h1, n2, h2, n3, h3, h4⟩
    obtain ⟨-, hf, rfl⟩ := Wires.open_iff.mp h1
    obtain ⟨-, hr, rfl⟩ := Wires.connect_iff.mp h2
    obtain ⟨-, hc, rfl⟩ := Wires.connect_iff.mp h3
    have hr' : n.has (c.there ++ "/rpc:s") = true :=
      (old (x := c.there) (s := .rpcS) (by decide) (by decide)).symm.trans hr
    have hc' : n.has (c.there ++ "/command:i") = true :=
      (old (x := c.there) (s := .commandI) (by decide) (by decide)).symm.trans hc
    split_ifs at h4 with hs
    · have hs' : n.has (c.there ++ "/state:o") = true :=
        (old (x := c.there) (s := .stateO) (by decide) (by decide)).symm.trans hs
      simp only [Option.bind_eq_some_iff] at h4
      obtain ⟨n4, h5, n5, h6, h7⟩ := h4
      obtain ⟨-, hg, rfl⟩ := Wires.open_iff.mp h5
      obtain ⟨-, -, rfl⟩ := Wires.connect_iff.mp h6
      cases h7
      have hg' : n.has (c.here ++ "/state:i") = false :=
        (old (x := c.here) (s := .stateI) (by decide) (by decide)).symm.trans (hg _ List.mem_cons_self)
      refine ⟨?_, hr', hc', hs'.symm, ?_⟩
      · intro x hx
        rcases List.mem_cons.mp hx with rfl | hx
        · exact hf _ List.mem_cons_self
        · rcases List.mem_cons.mp hx with rfl | hx
          · exact hf _ (List.mem_cons_of_mem _ List.mem_cons_self)
          · rw [List.mem_singleton.mp hx]; exact hg'
      · rfl
    · have hs' : n.has (c.there ++ "/state:o") = false :=
        (old (x := c.there) (s := .stateO) (by decide) (by decide)).symm.trans (Bool.eq_false_iff.mpr hs)
      cases h4
      exact ⟨fun x hx => hf x hx, hr', hc', hs'.symm, rfl⟩
  · rintro ⟨hf, hr, hc, hb, rfl⟩
    have e1 : c.here ++ "/rpc:c" ∈ c.ports b := ClientCfg.mem_ports (s := .rpcC).mpr ⟨rfl, List.mem_cons_self⟩
    have e2 : c.here ++ "/command:o" ∈ c.ports b :=
      ClientCfg.mem_ports (s := .commandO).mpr ⟨rfl, List.mem_cons_of_mem _ List.mem_cons_self⟩
    refine ⟨_, Wires.open_iff.mpr ⟨hnd, ?_, rfl⟩, _, Wires.connect_iff.mpr ⟨?_, ?_, rfl⟩, _,
      Wires.connect_iff.mpr ⟨?_, ?_, rfl⟩, ?_⟩
    · intro x hx
      rcases List.mem_cons.mp hx with rfl | hx
      · exact hf _ e1
      · rw [List.mem_singleton.mp hx]; exact hf _ e2
    · exact Wires.has_opened.mpr (Or.inl List.mem_cons_self)
    · exact Wires.has_opened.mpr (Or.inr hr)
    · exact Wires.has_opened.mpr (Or.inl (List.mem_cons_of_mem _ List.mem_cons_self))
    · exact Wires.has_opened.mpr (Or.inr hc)
    · cases b with
      | true =>
        rw [if_pos (Wires.has_opened.mpr (Or.inr hb.symm))]
        simp only [Option.bind_eq_some_iff]
        refine ⟨_, Wires.open_iff.mpr ⟨by simp, ?_, rfl⟩, _,
          Wires.connect_iff.mpr ⟨?_, ?_, rfl⟩, rfl⟩
        · intro x hx
          rw [List.mem_singleton.mp hx]
          exact (old (x := c.here) (s := .stateI) (by decide) (by decide)).trans
            (hf _ (ClientCfg.mem_ports (s := .stateI).mpr ⟨rfl, by decide⟩))
        · exact Wires.has_opened.mpr (Or.inr (Wires.has_opened.mpr (Or.inr hb.symm)))
        · exact Wires.has_opened.mpr (Or.inl List.mem_cons_self)
      | false =>
        rw [if_neg ?_]
        · rfl
        · intro h
          have h' := ((old (x := c.there) (s := .stateO) (by decide) (by decide)).symm.trans h).symm.trans hb.symm
          cases h'

/-! ## All devices -/

/-- Who has a port of that name. -/
def Site.Owns (s : Site) (d : ℕ) (x : String) : Prop :=
  (∃ c, (d, c) ∈ s.servers ∧ x ∈ c.ports) ∨ ∃ c b, (d, c, b) ∈ s.clients ∧ x ∈ c.ports b

/-- The network is the one of the devices that are open. -/
structure Site.Inv (s : Site) : Prop where
  ports : ∀ x d, (x, d) ∈ s.wires.ports ↔ s.Owns d x
  unique : ∀ x d e, s.Owns d x → s.Owns e x → d = e
  sid : ∀ d c, (d, c) ∈ s.servers → d < s.next
  cid : ∀ d c b, (d, c, b) ∈ s.clients → d < s.next
  snum : ∀ d c c', (d, c) ∈ s.servers → (d, c') ∈ s.servers → c = c'
  cnum : ∀ d c b c' b', (d, c, b) ∈ s.clients → (d, c', b') ∈ s.clients → c = c' ∧ b = b'
  num : ∀ d c c' b, (d, c) ∈ s.servers → (d, c', b) ∈ s.clients → False
  links : ∀ l, l ∈ s.wires.links ↔ ∃ k c b i sc, (k, c, b) ∈ s.clients ∧ (i, sc) ∈ s.servers ∧ i < k ∧
    sc.prefixed = c.there ∧ l ∈ c.wiring b
  stream : ∀ k c b i sc, (k, c, b) ∈ s.clients → (i, sc) ∈ s.servers → i < k → sc.prefixed = c.there →
    b = sc.publishes

theorem Site.Inv.has_server {s : Site} (h : s.Inv) {x : String} {t : Suf} (ht : t ∉ ClientCfg.kinds true) :
    s.wires.has (x ++ t.text) = true ↔ ∃ i sc, (i, sc) ∈ s.servers ∧ sc.prefixed = x ∧ t ∈ sc.kinds := by
  rw [Wires.has_iff]
  constructor
  · rintro ⟨d, hd⟩
    rcases (h.ports _ _).mp hd with ⟨c, hc, hx⟩ | ⟨c, b, hc, hx⟩
    · obtain ⟨e, hk⟩ := ServerCfg.mem_ports.mp hx
      exact ⟨d, c, hc, e.symm, hk⟩
    · obtain ⟨e, hk⟩ := ClientCfg.mem_ports.mp hx
      exact (ht (by cases b <;> simp_all [ClientCfg.kinds])).elim
  · rintro ⟨i, sc, h1, h2, h3⟩
    exact ⟨i, (h.ports _ _).mpr (Or.inl ⟨sc, h1, ServerCfg.mem_ports.mpr ⟨h2.symm, h3⟩⟩)⟩

theorem Site.Inv.has_client {s : Site} (h : s.Inv) {x : String} {t : Suf} (ht : t ∈ ClientCfg.kinds true) :
    s.wires.has (x ++ t.text) = true ↔ ∃ k c b, (k, c, b) ∈ s.clients ∧ c.here = x ∧ t ∈ ClientCfg.kinds b := by
  rw [Wires.has_iff]
  constructor
  · rintro ⟨d, hd⟩
    rcases (h.ports _ _).mp hd with ⟨c, hc, hx⟩ | ⟨c, b, hc, hx⟩
    · obtain ⟨e, hk⟩ := ServerCfg.mem_ports.mp hx
      obtain ⟨h1, h2, h3⟩ := c.no_client
      simp only [ClientCfg.kinds, List.mem_append, List.mem_cons, List.not_mem_nil, or_false, if_true] at ht
      rcases ht with (rfl | rfl) | rfl
      · exact (h1 hk).elim
      · exact (h2 hk).elim
      · exact (h3 hk).elim
    · obtain ⟨e, hk⟩ := ClientCfg.mem_ports.mp hx
      exact ⟨d, c, b, hc, e.symm, hk⟩
  · rintro ⟨k, c, b, h1, h2, h3⟩
    exact ⟨k, (h.ports _ _).mpr (Or.inr ⟨c, b, h1, ClientCfg.mem_ports.mpr ⟨h2.symm, h3⟩⟩)⟩

/-- Two servers have different names. -/
theorem Site.Inv.server_unique {s : Site} (h : s.Inv) {i j : ℕ} {c c' : ServerCfg} (h1 : (i, c) ∈ s.servers)
    (h2 : (j, c') ∈ s.servers) (e : c.prefixed = c'.prefixed) : i = j ∧ c = c' := by
  have : i = j := h.unique (c.prefixed ++ Suf.rpcS.text) i j
    (Or.inl ⟨c, h1, ServerCfg.mem_ports.mpr ⟨rfl, c.rpcS.1⟩⟩)
    (Or.inl ⟨c', h2, ServerCfg.mem_ports.mpr ⟨e, c'.rpcS.1⟩⟩)
  subst this
  exact ⟨rfl, h.snum _ _ _ h1 h2⟩

theorem Site.Inv.owner {s : Site} (h : s.Inv) {x : String} {d : ℕ} (ho : s.Owns d x) : s.wires.has x = true :=
  Wires.has_iff.mpr ⟨d, (h.ports _ _).mpr ho⟩

theorem Site.Inv.fresh {s : Site} (h : s.Inv) {x : String} : ¬ s.Owns s.next x := by
  rintro (⟨c, h1, -⟩ | ⟨c, b, h1, -⟩)
  · exact Nat.lt_irrefl _ (h.sid _ _ h1)
  · exact Nat.lt_irrefl _ (h.cid _ _ _ h1)

theorem Site.Inv.openServer {s : Site} (h : s.Inv) {c : ServerCfg} {w : Wires}
    (hw : s.wires.open s.next c.ports = some w) :
    Site.Inv { s with wires := w, next := s.next + 1, servers := (s.next, c) :: s.servers } := by
  obtain ⟨-, hf, rfl⟩ := Wires.open_iff.mp hw
  have hown : ∀ d x, Site.Owns ⟨⟨c.ports.reverse.map (fun x => (x, s.next)) ++ s.wires.ports, s.wires.links⟩,
      s.next + 1, (s.next, c) :: s.servers, s.clients⟩ d x ↔ (x ∈ c.ports ∧ d = s.next) ∨ s.Owns d x := by
    intro d x
    constructor
    · rintro (⟨c', h1, h2⟩ | h1)
      · rcases List.mem_cons.mp h1 with h1 | h1
        · cases h1; exact Or.inl ⟨h2, rfl⟩
        · exact Or.inr (Or.inl ⟨c', h1, h2⟩)
      · exact Or.inr (Or.inr h1)
    · rintro (⟨h1, rfl⟩ | ⟨c', h1, h2⟩ | h1)
      · exact Or.inl ⟨c, List.mem_cons_self, h1⟩
      · exact Or.inl ⟨c', List.mem_cons_of_mem _ h1, h2⟩
      · exact Or.inr h1
  refine ⟨?_, ?_, ?_, ?_, ?_, h.cnum, ?_, ?_, ?_⟩
  · intro x d
    rw [hown]
    show (x, d) ∈ _ ++ _ ↔ _
    rw [Wires.mem_opened, h.ports]
  · intro x d e h1 h2
    rw [hown] at h1 h2
    rcases h1 with ⟨h1, rfl⟩ | h1 <;> rcases h2 with ⟨h2, rfl⟩ | h2
    · rfl
    · have := h.owner h2; rw [hf x h1] at this; cases this
    · have := h.owner h1; rw [hf x h2] at this; cases this
    · exact h.unique x d e h1 h2
  · intro d c' hd
    rcases List.mem_cons.mp hd with hd | hd
    · cases hd; exact Nat.lt_succ_self _
    · exact Nat.lt_succ_of_lt (h.sid d c' hd)
  · intro d c' b hd
    exact Nat.lt_succ_of_lt (h.cid d c' b hd)
  · intro d c1 c2 h1 h2
    rcases List.mem_cons.mp h1 with h1 | h1 <;> rcases List.mem_cons.mp h2 with h2 | h2
    · cases h1; cases h2; rfl
    · cases h1; exact (Nat.lt_irrefl _ (h.sid _ _ h2)).elim
    · cases h2; exact (Nat.lt_irrefl _ (h.sid _ _ h1)).elim
    · exact h.snum d c1 c2 h1 h2
  · intro d c1 c2 b h1 h2
    rcases List.mem_cons.mp h1 with h1 | h1
    · cases h1; exact Nat.lt_irrefl _ (h.cid _ _ _ h2)
    · exact h.num d c1 c2 b h1 h2
  · intro l
    show l ∈ s.wires.links ↔ _
    rw [h.links]
    constructor
    · rintro ⟨k, c', b, i, sc, h1, h2, h3⟩
      exact ⟨k, c', b, i, sc, h1, List.mem_cons_of_mem _ h2, h3⟩
    · rintro ⟨k, c', b, i, sc, h1, h2, h3, h4⟩
      rcases List.mem_cons.mp h2 with h2 | h2
      · cases h2; exact (Nat.lt_asymm h3 (h.cid _ _ _ h1)).elim
      · exact ⟨k, c', b, i, sc, h1, h2, h3, h4⟩
  · intro k c' b i sc h1 h2 h3 h4
    rcases List.mem_cons.mp h2 with h2 | h2
    · cases h2; exact (Nat.lt_asymm h3 (h.cid _ _ _ h1)).elim
    · exact h.stream k c' b i sc h1 h2 h3 h4

theorem Site.Inv.openClient {s : Site} (h : s.Inv) {c : ClientCfg} {b : Bool} {w : Wires}
    (hw : c.open s.next s.wires = some (w, b)) :
    Site.Inv { s with wires := w, next := s.next + 1, clients := (s.next, c, b) :: s.clients } := by
  obtain ⟨hf, hr, hc, hb, rfl⟩ := ClientCfg.open_iff.mp hw
  have hown : ∀ d x, Site.Owns ⟨⟨(c.ports b).reverse.map (fun x => (x, s.next)) ++ s.wires.ports,
      (c.wiring b).reverse ++ s.wires.links⟩, s.next + 1, s.servers, (s.next, c, b) :: s.clients⟩ d x ↔
      (x ∈ c.ports b ∧ d = s.next) ∨ s.Owns d x := by
    intro d x
    constructor
    · rintro (h1 | ⟨c', b', h1, h2⟩)
      · exact Or.inr (Or.inl h1)
      · rcases List.mem_cons.mp h1 with h1 | h1
        · cases h1; exact Or.inl ⟨h2, rfl⟩
        · exact Or.inr (Or.inr ⟨c', b', h1, h2⟩)
    · rintro (⟨h1, rfl⟩ | h1 | ⟨c', b', h1, h2⟩)
      · exact Or.inr ⟨c, b, List.mem_cons_self, h1⟩
      · exact Or.inl h1
      · exact Or.inr ⟨c', b', List.mem_cons_of_mem _ h1, h2⟩
  obtain ⟨i0, sc0, hi0, hp0, -⟩ := (h.has_server (t := .rpcS) (by decide)).mp hr
  refine ⟨?_, ?_, ?_, ?_, h.snum, ?_, ?_, ?_, ?_⟩
  · intro x d
    rw [hown]
    show (x, d) ∈ _ ++ _ ↔ _
    rw [Wires.mem_opened, h.ports]
  · intro x d e h1 h2
    rw [hown] at h1 h2
    rcases h1 with ⟨h1, rfl⟩ | h1 <;> rcases h2 with ⟨h2, rfl⟩ | h2
    · rfl
    · have := h.owner h2; rw [hf x h1] at this; cases this
    · have := h.owner h1; rw [hf x h2] at this; cases this
    · exact h.unique x d e h1 h2
  · intro d c' hd
    exact Nat.lt_succ_of_lt (h.sid d c' hd)
  · intro d c' b' hd
    rcases List.mem_cons.mp hd with hd | hd
    · cases hd; exact Nat.lt_succ_self _
    · exact Nat.lt_succ_of_lt (h.cid d c' b' hd)
  · intro d c1 b1 c2 b2 h1 h2
    rcases List.mem_cons.mp h1 with h1 | h1 <;> rcases List.mem_cons.mp h2 with h2 | h2
    · cases h1; cases h2; exact ⟨rfl, rfl⟩
    · cases h1; exact (Nat.lt_irrefl _ (h.cid _ _ _ h2)).elim
    · cases h2; exact (Nat.lt_irrefl _ (h.cid _ _ _ h1)).elim
    · exact h.cnum d c1 b1 c2 b2 h1 h2
  · intro d c1 c2 b' h1 h2
    rcases List.mem_cons.mp h2 with h2 | h2
    · cases h2; exact Nat.lt_irrefl _ (h.sid _ _ h1)
    · exact h.num d c1 c2 b' h1 h2
  · intro l
    show l ∈ _ ++ s.wires.links ↔ _
    rw [List.mem_append, List.mem_reverse, h.links]
    constructor
    · rintro (hl | ⟨k, c', b', i, sc, h1, h2⟩)
      · exact ⟨s.next, c, b, i0, sc0, List.mem_cons_self, hi0, h.sid _ _ hi0, hp0, hl⟩
      · exact ⟨k, c', b', i, sc, List.mem_cons_of_mem _ h1, h2⟩
    · rintro ⟨k, c', b', i, sc, h1, h2, h3, h4, h5⟩
      rcases List.mem_cons.mp h1 with h1 | h1
      · cases h1; exact Or.inl h5
      · exact Or.inr ⟨k, c', b', i, sc, h1, h2, h3, h4, h5⟩
  · intro k c' b' i sc h1 h2 h3 h4
    rcases List.mem_cons.mp h1 with h1 | h1
    · cases h1
      rw [hb, Bool.eq_iff_iff]
      show s.wires.has (c.there ++ Suf.stateO.text) = true ↔ _
      rw [h.has_server (by decide)]
      constructor
      · rintro ⟨j, sc', hj, hp, hk⟩
        obtain ⟨-, rfl⟩ := h.server_unique h2 hj (h4.trans hp.symm)
        exact ServerCfg.stateO.mp hk
      · intro hk
        exact ⟨i, sc, h2, h4, ServerCfg.stateO.mpr hk⟩
    · exact h.stream k c' b' i sc h1 h2 h3 h4

theorem Site.Inv.close {s : Site} (h : s.Inv) (dev : ℕ) : (s.step (.close dev)).Inv := by
  have hown : ∀ d x, (s.step (.close dev)).Owns d x ↔ s.Owns d x ∧ d ≠ dev := by
    intro d x
    simp only [Site.Owns, Site.step, List.mem_filter, decide_eq_true_eq]
    constructor
    · rintro (⟨c, ⟨h1, h2⟩, h3⟩ | ⟨c, b, ⟨h1, h2⟩, h3⟩)
      · exact ⟨Or.inl ⟨c, h1, h3⟩, h2⟩
      · exact ⟨Or.inr ⟨c, b, h1, h3⟩, h2⟩
    · rintro ⟨⟨c, h1, h3⟩ | ⟨c, b, h1, h3⟩, h2⟩
      · exact Or.inl ⟨c, ⟨h1, h2⟩, h3⟩
      · exact Or.inr ⟨c, b, ⟨h1, h2⟩, h3⟩
  have ms : ∀ {d c}, (d, c) ∈ (s.step (.close dev)).servers ↔ (d, c) ∈ s.servers ∧ d ≠ dev := by
    intro d c
    simp only [Site.step, List.mem_filter, decide_eq_true_eq]
  have mc : ∀ {d c b}, (d, c, b) ∈ (s.step (.close dev)).clients ↔ (d, c, b) ∈ s.clients ∧ d ≠ dev := by
    intro d c b
    simp only [Site.step, List.mem_filter, decide_eq_true_eq]
  refine ⟨?_, ?_, ?_, ?_, ?_, ?_, ?_, ?_, ?_⟩
  · intro x d
    rw [hown]
    simp only [Site.step, Wires.close, List.mem_filter, decide_eq_true_eq]
    rw [h.ports]
  · intro x d e h1 h2
    exact h.unique x d e ((hown _ _).mp h1).1 ((hown _ _).mp h2).1
  · intro d c hd; exact h.sid d c (ms.mp hd).1
  · intro d c b hd; exact h.cid d c b (mc.mp hd).1
  · intro d c c' h1 h2; exact h.snum d c c' (ms.mp h1).1 (ms.mp h2).1
  · intro d c b c' b' h1 h2; exact h.cnum d c b c' b' (mc.mp h1).1 (mc.mp h2).1
  · intro d c c' b h1 h2; exact h.num d c c' b (ms.mp h1).1 (mc.mp h2).1
  · intro l
    simp only [Site.step, Wires.close, List.mem_filter, decide_eq_true_eq]
    rw [h.links]
    have ends : ∀ {k c b i sc}, (k, c, b) ∈ s.clients → (i, sc) ∈ s.servers → i < k → sc.prefixed = c.there →
        l ∈ c.wiring b → (s.Owns k l.1 ∧ s.Owns i l.2) ∨ (s.Owns i l.1 ∧ s.Owns k l.2) := by
      intro k c b i sc h1 h2 h3 h4 h5
      have ck : ∀ {t : Suf}, t ∈ ClientCfg.kinds b → s.Owns k (c.here ++ t.text) := fun ht =>
        Or.inr ⟨c, b, h1, ClientCfg.mem_ports.mpr ⟨rfl, ht⟩⟩
      have sk : ∀ {t : Suf}, t ∈ sc.kinds → s.Owns i (c.there ++ t.text) := fun ht =>
        Or.inl ⟨sc, h2, ServerCfg.mem_ports.mpr ⟨h4.symm, ht⟩⟩
      simp only [ClientCfg.wiring, List.mem_append, List.mem_cons, List.not_mem_nil, or_false] at h5
      rcases h5 with (rfl | rfl) | h5
      · exact Or.inl ⟨ck (t := .rpcC) List.mem_cons_self, sk (t := .rpcS) sc.rpcS.1⟩
      · exact Or.inl ⟨ck (t := .commandO) (List.mem_cons_of_mem _ List.mem_cons_self), sk (t := .commandI) sc.rpcS.2⟩
      · split_ifs at h5 with hb
        · rw [List.mem_singleton] at h5
          subst h5
          have := h.stream k c b i sc h1 h2 h3 h4
          exact Or.inr ⟨sk (t := .stateO) (ServerCfg.stateO.mpr (this.symm.trans hb)),
            ck (t := .stateI) (by subst hb; decide)⟩
        · cases h5
    constructor
    · rintro ⟨⟨k, c, b, i, sc, h1, h2, h3, h4, h5⟩, h6⟩
      refine ⟨k, c, b, i, sc, ⟨h1, ?_⟩, ⟨h2, ?_⟩, h3, h4, h5⟩
      · rintro rfl
        rcases ends h1 h2 h3 h4 h5 with ⟨a, -⟩ | ⟨-, a⟩
        · exact (h6 _ ((h.ports _ _).mpr a) rfl).1 rfl
        · exact (h6 _ ((h.ports _ _).mpr a) rfl).2 rfl
      · rintro rfl
        rcases ends h1 h2 h3 h4 h5 with ⟨-, a⟩ | ⟨a, -⟩
        · exact (h6 _ ((h.ports _ _).mpr a) rfl).2 rfl
        · exact (h6 _ ((h.ports _ _).mpr a) rfl).1 rfl
    · rintro ⟨k, c, b, i, sc, ⟨h1, n1⟩, ⟨h2, n2⟩, h3, h4, h5⟩
      refine ⟨⟨k, c, b, i, sc, h1, h2, h3, h4, h5⟩, ?_⟩
      rintro ⟨x, d⟩ hp rfl
      have ho := (h.ports _ _).mp hp
      rcases ends h1 h2 h3 h4 h5 with ⟨a, a'⟩ | ⟨a, a'⟩
      · exact ⟨fun e => n1 (h.unique _ _ _ a (e ▸ ho)), fun e => n2 (h.unique _ _ _ a' (e ▸ ho))⟩
      · exact ⟨fun e => n2 (h.unique _ _ _ a (e ▸ ho)), fun e => n1 (h.unique _ _ _ a' (e ▸ ho))⟩
  · intro k c b i sc h1 h2 h3 h4
    exact h.stream k c b i sc (mc.mp h1).1 (ms.mp h2).1 h3 h4

theorem Site.Inv.step {s : Site} (h : s.Inv) (d : Deed) : (s.step d).Inv := by
  cases d with
  | openServer c =>
    simp only [Site.step]
    split
    · exact h
    · rename_i w hw; exact h.openServer hw
  | openClient c =>
    simp only [Site.step]
    split
    · exact h
    · rename_i w b hw; exact h.openClient hw
  | close dev => exact h.close dev

theorem Site.inv_init : Site.Inv {} where
  ports := by simp [Site.Owns]
  unique := by simp [Site.Owns]
  sid := by simp
  cid := by simp
  snum := by simp
  cnum := by simp
  num := by simp
  links := by simp
  stream := by simp

theorem Site.Inv.after {s : Site} (h : s.Inv) (ds : List Deed) : (s.after ds).Inv := by
  induction ds generalizing s with
  | nil => exact h
  | cons d ds ih => exact ih (h.step d)

end KD.Net
