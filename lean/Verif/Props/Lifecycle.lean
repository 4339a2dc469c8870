import Verif.Programs.Lifecycle
import Mathlib.Data.List.Basic
import Mathlib.Tactic.Tauto

/-!
# C96: how the programs begin and end

Whatever fails while a program starts, it ends without undefined behaviour and with everything closed; signals that
come too early or too late, a missing network and the number that is answered are where the programs differ.
-/

namespace KD.Life

/-! ## Calls that succeed and calls that fail -/

/-- What a call changes if it succeeds. -/
def Act.done (a : Act) (c : Core) : Core :=
  match a with
  | .openClient => { c with client := true }
  | .viewCtl => { c with ctl := .live }
  | .openSecond => { c with second := true }
  | .viewSecond => { c with sec := .live }
  | .make => { c with own := .live }
  | .flag => { c with flag := true }
  | .start => { c with thread := true }
  | .setDry b => { c with dry := some b }
  | _ => c

/-- What a call changes if it fails. -/
def Act.failed (a : Act) (c : Core) : Core :=
  match a with
  | .openClient => { c with client := false }
  | .viewCtl => { c with ctl := .null }
  | .openSecond => { c with second := false }
  | .viewSecond => { c with sec := .null }
  | .start => { c with thread := false }
  | _ => c

/-- Calls that can fail. -/
def Act.canFail : Act → Bool
  | .ask | .openClient | .viewCtl | .openSecond | .viewSecond | .start => true
  | _ => false

/-- After some calls that succeeded. -/
def after (l : List Act) (c : Core) : Core := l.foldl (fun c a => a.done c) c

/-- A signal finds what it needs. -/
def ready (p : Pgm) (c : Core) : Bool :=
  match p with
  | .keyboard =>
    if c.client then (!c.flag || c.own = .live) && c.ctl = .live else !c.second || c.sec = .live
  | .streaming => c.ctl = .live && c.client
  | .haar => c.ctl = .null || (c.ctl = .live && c.client)
  | .force => c.dry = some true || (c.dry = some false && c.ctl = .live && c.client)

/-- `close` finds what it needs. -/
def closable (p : Pgm) (c : Core) : Bool :=
  match p with
  | .keyboard => !(c.client && c.flag) || c.own = .live
  | .streaming => c.own ≠ .garbage
  | .haar => true
  | .force => !c.thread

theorem issueStop_some (c : Core) : (issueStop c).isSome = ready .keyboard c := by
  obtain ⟨ctl, own, sec, client, second, flag, thread, dry⟩ := c
  cases client <;> cases second <;> cases flag <;> cases own <;> cases ctl <;> cases sec <;> rfl

theorem interrupt_some (p : Pgm) (s : St) : (interrupt p s).isSome = ready p s.core := by
  obtain ⟨⟨ctl, own, sec, client, second, flag, thread, dry⟩, told, term, saved, nb⟩ := s
  cases p
  · rw [← issueStop_some]
    simp only [interrupt, Option.isSome_map]
  · cases ctl <;> cases client <;> rfl
  · cases ctl <;> cases client <;> rfl
  · rcases dry with _ | _ | _ <;> cases ctl <;> cases client <;> rfl

theorem interrupt_core {p : Pgm} {s s' : St} (h : interrupt p s = some s') :
    s'.core = if p = .force then { s.core with thread := false } else s.core := by
  obtain ⟨⟨ctl, own, sec, client, second, flag, thread, dry⟩, told, term, saved, nb⟩ := s
  cases p
  · obtain ⟨t, -, rfl⟩ := Option.map_eq_some_iff.1 h
    rfl
  · cases ctl <;> cases client <;> simp [interrupt] at h <;> (subst h; rfl)
  · cases ctl <;> cases client <;> simp [interrupt] at h <;> (subst h; rfl)
  · rcases dry with _ | _ | _ <;> cases ctl <;> cases client <;> simp [interrupt] at h <;> (subst h; rfl)

theorem run_ok {a : Act} {s : St} (ha : a = .stop → ready .keyboard s.core = true) :
    ∃ s', a.run true s = some (s', true) ∧ s'.core = a.done s.core := by
  cases a <;> try exact ⟨_, rfl, rfl⟩
  have h := ha rfl
  rw [← issueStop_some] at h
  obtain ⟨t, ht⟩ := Option.isSome_iff_exists.1 h
  exact ⟨{ s with told := s.told ++ t }, by simp [Act.run, ht], rfl⟩

theorem run_fails {a : Act} (s : St) (ha : a.canFail = true) :
    ∃ s', a.run false s = some (s', false) ∧ s'.core = a.failed s.core := by
  cases a <;> first | exact ⟨_, rfl, rfl⟩ | simp [Act.canFail] at ha

theorem run_sure {a : Act} {b : Bool} (s : St) (ha : a.canFail = false) : a.run b s = a.run true s := by
  cases a <;> first | rfl | simp [Act.canFail] at ha

/-- A call goes through. -/
def passes (w : World) (i : Nat) (a : Act) : Prop := a.canFail = true → w.ok i = true

/-- No call of the rest needs what is not there: the stop at the end of the keyboard controller, and no thread of the
force compensation that a signal could end. -/
def wellOrdered (p : Pgm) : List Act → Core → Prop
  | [], _ => True
  | a :: l, c => (a = .stop → ready .keyboard c = true) ∧ (p = .force → c.thread = false) ∧ wellOrdered p l (a.done c)

theorem configure_spec (p : Pgm) (w : World) : ∀ (l : List Act) (i : Nat) (s : St), wellOrdered p l s.core →
    (configure p w i l s = none ↔ ∃ k, ∃ a ∈ l[k]?, (∀ j < k, ∀ b ∈ l[j]?, passes w (i + j) b) ∧
      w.signal (i + k) = true ∧ ready p (after (l.take k) s.core) = false) ∧
    (∀ s' b, configure p w i l s = some (s', b) →
      (b = true ∧ s'.core = after l s.core ∧ ∀ j, ∀ a ∈ l[j]?, passes w (i + j) a) ∨
      (b = false ∧ ∃ k, ∃ a ∈ l[k]?, a.canFail = true ∧ w.ok (i + k) = false ∧
        s'.core = a.failed (after (l.take k) s.core))) := by
  intro l
  induction l with
  | nil =>
    intro i s hw
    refine ⟨by simp [configure], fun s' b h => Or.inl ?_⟩
    simp only [configure, Option.some.injEq, Prod.mk.injEq] at h
    obtain ⟨rfl, rfl⟩ := h
    exact ⟨rfl, rfl, by simp⟩
  | cons a l ih =>
    intro i s hw
    obtain ⟨hstop, hth, hrest⟩ := hw
    -- the signal
    cases hsig : signalIf p (w.signal i) s with
    | none =>
      have hsg : w.signal i = true ∧ interrupt p s = none := by
        unfold signalIf at hsig
        split_ifs at hsig with h
        exact ⟨h, hsig⟩
      have hr : ready p s.core = false := by
        rw [← interrupt_some, hsg.2]; rfl
      refine ⟨?_, ?_⟩
      · simp only [configure, hsig, Option.bind_none, true_iff]
        exact ⟨0, a, rfl, by simp, hsg.1, hr⟩
      · intro s' b h
        simp [configure, hsig] at h
    | some s1 =>
      have hc1 : s1.core = s.core := by
        unfold signalIf at hsig
        split_ifs at hsig with h
        · rw [interrupt_core hsig]
          split_ifs with hp
          · have := hth hp
            cases hs : s.core
            simp_all
          · rfl
        · cases hsig; rfl
      have h0 : w.signal i = true → ready p s.core = true := by
        intro h
        unfold signalIf at hsig
        rw [if_pos h] at hsig
        rw [← interrupt_some, hsig]; rfl
      by_cases hpass : passes w i a
      · -- the call goes through
        obtain ⟨s2, h2, hc2⟩ := run_ok (a := a) (s := s1) (by rw [hc1]; exact hstop)
        have hrun : a.run (w.ok i) s1 = some (s2, true) := by
          cases hf : a.canFail with
          | true => rw [hpass hf]; exact h2
          | false => rw [run_sure _ hf]; exact h2
        have hconf : configure p w i (a :: l) s = configure p w (i + 1) l s2 := by
          simp [configure, hsig, hrun]
        have hcore : s2.core = a.done s.core := by rw [hc2, hc1]
        obtain ⟨ih1, ih2⟩ := ih (i + 1) s2 (by rw [hcore]; exact hrest)
        refine ⟨?_, ?_⟩
        · rw [hconf, ih1, hcore]
          constructor
          · rintro ⟨k, b, hb, hj, hs, hr⟩
            refine ⟨k + 1, b, by simpa using hb, ?_, by rw [← hs]; congr 1; omega, by simpa [after] using hr⟩
            intro j hjk b' hb'
            cases j with
            | zero =>
              simp only [List.getElem?_cons_zero, Option.mem_def, Option.some.injEq] at hb'
              rw [← hb']; exact hpass
            | succ j =>
              have := hj j (by omega) b' (by simpa using hb')
              rwa [show i + 1 + j = i + (j + 1) by omega] at this
          · rintro ⟨k, b, hb, hj, hs, hr⟩
            cases k with
            | zero =>
              rw [Nat.add_zero] at hs
              have := h0 hs
              simp only [List.take_zero, after, List.foldl_nil] at hr
              rw [this] at hr; cases hr
            | succ k =>
              refine ⟨k, b, by simpa using hb, ?_, by rw [← hs]; congr 1; omega, by simpa [after] using hr⟩
              intro j hjk b' hb'
              have := hj (j + 1) (by omega) b' (by simpa using hb')
              rwa [show i + (j + 1) = i + 1 + j by omega] at this
        · intro s' b h
          rw [hconf] at h
          rcases ih2 s' b h with ⟨hb, hs, hj⟩ | ⟨hb, k, a', ha', hcf, hok, hs⟩
          · refine Or.inl ⟨hb, by rw [hs, hcore]; rfl, ?_⟩
            intro j a' ha'
            cases j with
            | zero =>
              simp only [List.getElem?_cons_zero, Option.mem_def, Option.some.injEq] at ha'
              rw [← ha']; exact hpass
            | succ j =>
              have := hj j a' (by simpa using ha')
              rwa [show i + 1 + j = i + (j + 1) by omega] at this
          · refine Or.inr ⟨hb, k + 1, a', by simpa using ha', hcf, by rw [← hok]; congr 1; omega, ?_⟩
            rw [hs, hcore]; rfl
      · -- the call fails
        have hf : a.canFail = true := by
          by_contra hn; exact hpass fun h => absurd h hn
        have hok : w.ok i = false := by
          cases ho : w.ok i with
          | false => rfl
          | true => exact absurd (fun _ => ho) hpass
        obtain ⟨s2, h2, hc2⟩ := run_fails s1 hf
        have hconf : configure p w i (a :: l) s = some (s2, false) := by
          simp [configure, hsig, hok, h2]
        refine ⟨?_, ?_⟩
        · rw [hconf]
          simp only [reduceCtorEq, false_iff]
          rintro ⟨k, b, hb, hj, hs, hr⟩
          cases k with
          | zero =>
            rw [Nat.add_zero] at hs
            have := h0 hs
            simp only [List.take_zero, after, List.foldl_nil] at hr
            rw [this] at hr; cases hr
          | succ k => exact hpass (hj 0 (by omega) a (by simp))
        · intro s' b h
          rw [hconf] at h
          simp only [Option.some.injEq, Prod.mk.injEq] at h
          obtain ⟨rfl, rfl⟩ := h
          exact Or.inr ⟨rfl, 0, a, by simp, hf, by simpa using hok, by rw [hc2, hc1]; rfl⟩

/-! ## The end -/

/-- Both devices are closed, the object that the program made is gone, and no thread of it runs. -/
def Core.allClosed (c : Core) : Bool := !c.client && !c.second && c.own ≠ .live && !c.thread

/-- Ready to be closed, and all of it would be. -/
def tidy (p : Pgm) (c : Core) : Bool :=
  match p with
  | .keyboard =>
    if c.client && c.flag then c.own = .live else c.own ≠ .live && !c.thread
  | .streaming => c.own ≠ .garbage && !c.second && !c.thread
  | .haar => c.own ≠ .live && !c.thread
  | .force => c.own ≠ .live && !c.thread

/-- What `close` answers. -/
def closeAnswer (p : Pgm) (w : World) : Bool :=
  match p with
  | .streaming => w.closed
  | .haar => w.closed
  | _ => true

theorem close_tidy {p : Pgm} (w : World) {s : St} (h : tidy p s.core = true) :
    ∃ s', close p w s = some (s', closeAnswer p w) ∧ s'.core.allClosed = true ∧ tidy p s'.core = true ∧
      s'.told = s.told ∧ s'.term = s.term ∧ s'.nonblock = s.nonblock ∧ s'.saved = s.saved ∧
      s'.core.ctl = s.core.ctl ∧ s'.core.dry = s.core.dry := by
  obtain ⟨⟨ctl, own, sec, client, second, flag, thread, dry⟩, told, term, saved, nb⟩ := s
  cases p <;> cases client <;> cases second <;> cases flag <;> cases own <;> cases thread <;>
    first
    | (simp [tidy] at h; done)
    | exact ⟨_, rfl, rfl, rfl, rfl, rfl, rfl, rfl, rfl, rfl⟩

theorem destruct_tidy {p : Pgm} {w : World} (hl : w.late = false) (code : Nat) {s : St} (h : tidy p s.core = true) :
    ∃ s', destruct p w code s = .exit code s' ∧ s'.core.allClosed = true ∧
      s'.told = s.told ∧ s'.term = s.term ∧ s'.nonblock = s.nonblock := by
  obtain ⟨s', h1, h2, -, h3, h4, h5, -⟩ := close_tidy w h
  exact ⟨s', by simp [destruct, h1, signalIf, hl], h2, h3, h4, h5⟩

/-- Whichever of these calls fails first, all can be closed. -/
def failsTidy (p : Pgm) : List Act → Core → Bool
  | [], _ => true
  | a :: l, c => (!a.canFail || tidy p (a.failed c)) && failsTidy p l (a.done c)

theorem failsTidy_spec {p : Pgm} : ∀ {l : List Act} {c : Core}, failsTidy p l c = true →
    ∀ {k : Nat} {a : Act}, a ∈ l[k]? → a.canFail = true → tidy p (a.failed (after (l.take k) c)) = true := by
  intro l
  induction l with
  | nil => intro c _ k a ha; simp at ha
  | cons b l ih =>
    intro c h k a ha hf
    simp only [failsTidy, Bool.and_eq_true, Bool.or_eq_true, Bool.not_eq_true'] at h
    cases k with
    | zero =>
      simp only [List.getElem?_cons_zero, Option.mem_def, Option.some.injEq] at ha
      subst ha
      rcases h.1 with h' | h'
      · rw [hf] at h'; cases h'
      · simpa [after] using h'
    | succ k =>
      simpa [after] using ih h.2 (k := k) (by simpa using ha) hf

theorem fail_tidy (p : Pgm) (o : Opts) {k : Nat} {a : Act} (ha : a ∈ (acts o p)[k]?) (hf : a.canFail = true) :
    tidy p (a.failed (after ((acts o p).take k) (construct p).core)) = true := by
  refine failsTidy_spec ?_ ha hf
  obtain ⟨board, cart, pose, sensors, move, dry, tool, impedance⟩ := o
  cases p
  · cases board <;> cases cart <;> cases pose <;> rfl
  · rfl
  · cases sensors <;> cases move <;> rfl
  · cases dry <;> cases tool <;> cases impedance <;> rfl

theorem acts_wellOrdered (p : Pgm) (o : Opts) : wellOrdered p (acts o p) (construct p).core := by
  obtain ⟨board, cart, pose, sensors, move, dry, tool, impedance⟩ := o
  cases p
  · cases board <;> cases cart <;> cases pose <;> simp [wellOrdered, acts, construct, ready, Act.done]
  · simp [wellOrdered, acts, construct, ready, Act.done]
  · cases sensors <;> cases move <;> simp [wellOrdered, acts, construct, ready, Act.done]
  · cases dry <;> cases tool <;> cases impedance <;> simp [wellOrdered, acts, construct, ready, Act.done]

/-- Whom the program tells to stop at its end. -/
def toldAtEnd (o : Opts) (w : World) : Pgm → List Tell
  | .keyboard => if o.cart then [.cartesian] else if o.board then [.board] else []
  | .streaming => [.cartesian]
  | .haar => [.cartesian]
  | .force => if w.itself || o.dry then [] else [.cartesian]

theorem loop_tidy (p : Pgm) (o : Opts) (w : World) {s : St}
    (h : s.core = after (acts o p) (construct p).core) :
    ∃ s', loop p w s = some s' ∧ tidy p s'.core = true ∧ s'.told = s.told ++ toldAtEnd o w p ∧
      s'.nonblock = s.nonblock ∧
      s'.term = (if p = .keyboard then (if s.saved then .found else .zeroed) else s.term) ∧
      s'.core.ctl = s.core.ctl ∧ s'.core.dry = s.core.dry := by
  obtain ⟨core, told, term, saved, nb⟩ := s
  obtain ⟨board, cart, pose, sensors, move, dry, tool, impedance⟩ := o
  obtain ⟨network, ok, signal, itself, closed, late⟩ := w
  simp only at h
  subst h
  cases p
  · cases board <;> cases cart <;> cases pose <;>
      simp [loop, interrupt, acts, after, Act.done, construct, issueStop, toldAtEnd, tidy]
  · simp [loop, interrupt, acts, after, Act.done, construct, toldAtEnd, tidy]
  · cases sensors <;> cases move <;> cases itself <;>
      simp [loop, interrupt, acts, after, Act.done, construct, toldAtEnd, tidy]
  · cases dry <;> cases tool <;> cases impedance <;> cases itself <;>
      simp [loop, interrupt, acts, after, Act.done, construct, toldAtEnd, tidy]

/-! ## The properties -/

/-- Every call that the program makes while it starts succeeds. -/
def Started (p : Pgm) (o : Opts) (w : World) : Prop :=
  ∀ k, ∀ a ∈ (acts o p)[k]?, a.canFail = true → w.ok k = true

/-- The first `k` calls of the start succeed, and there is one more. -/
def Reached (p : Pgm) (o : Opts) (w : World) (k : Nat) : Prop :=
  k < (acts o p).length ∧ ∀ j < k, ∀ a ∈ (acts o p)[j]?, a.canFail = true → w.ok j = true

/-- With these calls made, a signal is too early: the interface of the Cartesian controller is not there yet. The keyboard
controller looks first if the devices are open, so that only some moments matter; the force compensation does without
the interface in a dry run, once that is known. -/
def tooEarly (p : Pgm) (l : List Act) : Bool :=
  match p with
  | .keyboard =>
    if .openClient ∈ l then .viewCtl ∉ l || (.flag ∈ l && .make ∉ l) else .openSecond ∈ l && .viewSecond ∉ l
  | .streaming => .viewCtl ∉ l
  | .haar => .viewCtl ∉ l
  | .force => .setDry true ∉ l && (.setDry false ∉ l || .viewCtl ∉ l)

/-- Helper: `tooEarly` is right before each call. -/
def earlyRight (p : Pgm) : List Act → List Act → Core → Bool
  | _, [], _ => true
  | m, a :: l, c => (tooEarly p m == !ready p c) && earlyRight p (m ++ [a]) l (a.done c)

theorem earlyRight_spec {p : Pgm} : ∀ {l m : List Act} {c : Core}, earlyRight p m l c = true →
    ∀ {k : Nat}, k < l.length → ready p (after (l.take k) c) = !tooEarly p (m ++ l.take k) := by
  intro l
  induction l with
  | nil => intro m c _ k hk; simp at hk
  | cons b l ih =>
    intro m c h k hk
    simp only [earlyRight, Bool.and_eq_true, beq_iff_eq] at h
    cases k with
    | zero => simp [after, h.1]
    | succ k =>
      have := ih h.2 (k := k) (by simpa using hk)
      simpa [after] using this

theorem ready_early (p : Pgm) (o : Opts) {k : Nat} (hk : k < (acts o p).length) :
    ready p (after ((acts o p).take k) (construct p).core) = !tooEarly p ((acts o p).take k) := by
  refine earlyRight_spec (m := []) ?_ hk
  obtain ⟨board, cart, pose, sensors, move, dry, tool, impedance⟩ := o
  cases p
  · have h : ∀ b c p : Bool, earlyRight .keyboard [] (acts { board := b, cart := c, pose := p } .keyboard)
        (construct .keyboard).core = true := by decide
    exact h board cart pose
  · rfl
  · cases sensors <;> cases move <;> rfl
  · have h : ∀ d t i : Bool, earlyRight .force [] (acts { dry := d, tool := t, impedance := i } .force)
        (construct .force).core = true := by decide
    exact h dry tool impedance

theorem configure_main (p : Pgm) (o : Opts) (w : World) :
    (configure p w 0 (acts o p) (construct p) = none ↔
      ∃ k, Reached p o w k ∧ w.signal k = true ∧ tooEarly p ((acts o p).take k) = true) ∧
    (∀ s b, configure p w 0 (acts o p) (construct p) = some (s, b) →
      (b = true ∧ s.core = after (acts o p) (construct p).core ∧ Started p o w) ∨
      (b = false ∧ tidy p s.core = true ∧ ¬ Started p o w)) := by
  obtain ⟨h1, h2⟩ := configure_spec p w (acts o p) 0 (construct p) (acts_wellOrdered p o)
  refine ⟨?_, ?_⟩
  · rw [h1]
    constructor
    · rintro ⟨k, a, ha, hj, hs, hr⟩
      have hk : k < (acts o p).length := by
        by_contra hn
        rw [List.getElem?_eq_none (by omega)] at ha
        cases ha
      rw [ready_early p o hk] at hr
      refine ⟨k, ⟨hk, fun j hjk a ha => ?_⟩, by simpa using hs, by simpa using hr⟩
      simpa [passes] using hj j hjk a ha
    · rintro ⟨k, ⟨hk, hj⟩, hs, hr⟩
      refine ⟨k, (acts o p)[k], by simp [hk], fun j hjk a ha => ?_, by simpa using hs, ?_⟩
      · simpa [passes] using hj j hjk a ha
      · rw [ready_early p o hk]; simpa using hr
  · intro s b h
    rcases h2 s b h with ⟨hb, hs, hj⟩ | ⟨hb, k, a, ha, hf, hok, hs⟩
    · exact Or.inl ⟨hb, hs, fun k a ha => by simpa [passes] using hj k a ha⟩
    · refine Or.inr ⟨hb, by rw [hs]; exact fail_tidy p o ha hf, fun hst => ?_⟩
      have := hst k a ha hf
      simp at hok
      rw [this] at hok; cases hok

/-- The number a program answers: 0 if it started, and 1 if not, but the keyboard controller answers 0 even so, and the
streaming device controller answers 0 if the client could be closed. -/
def answer (p : Pgm) (w : World) (started : Bool) : Nat :=
  if started then 0
  else match p with
  | .keyboard => 0
  | .streaming => if w.closed then 0 else 1
  | .haar => 1
  | .force => 1

theorem main_spec (p : Pgm) (o : Opts) (w : World) (hn : w.network = true) (hl : w.late = false)
    (hs : ¬ ∃ k, Reached p o w k ∧ w.signal k = true ∧ tooEarly p ((acts o p).take k) = true) :
    ∃ s0 b s, configure p w 0 (acts o p) (construct p) = some (s0, b) ∧ (b = true ↔ Started p o w) ∧
      main p o w = .exit (answer p w b) s ∧ s.core.allClosed = true ∧ s.nonblock = s0.nonblock ∧
      (b = true → s.told = s0.told ++ toldAtEnd o w p ∧
        s.term = (if p = .keyboard then (if s0.saved then .found else .zeroed) else s0.term)) ∧
      (b = false → s.told = s0.told ∧ s.term = s0.term) := by
  obtain ⟨h1, h2⟩ := configure_main p o w
  cases hc : configure p w 0 (acts o p) (construct p) with
  | none => exact absurd (h1.1 hc) hs
  | some r =>
    obtain ⟨s0, b⟩ := r
    rcases h2 s0 b hc with ⟨rfl, hcore, hst⟩ | ⟨rfl, ht, hst⟩
    · obtain ⟨s1, hloop, ht1, htold, hnb, hterm, -⟩ := loop_tidy p o w hcore
      obtain ⟨s2, hcl, -, ht2, h3, h4, h5, -⟩ := close_tidy w ht1
      obtain ⟨s3, hd, hall, h6, h7, h8⟩ := destruct_tidy hl 0 ht2
      refine ⟨s0, true, s3, rfl, by simpa using hst, ?_, hall, by rw [h8, h5, hnb], fun _ => ⟨by rw [h6, h3, htold],
        by rw [h7, h4, hterm]⟩, fun h => (by cases h)⟩
      simp [main, hn, hc, hloop, hcl, hd, answer]
    · obtain ⟨s2, hcl, -, ht2, h3, h4, h5, -⟩ := close_tidy w ht
      by_cases hp : p = .keyboard ∨ p = .streaming
      · obtain ⟨s3, hd, hall, h6, h7, h8⟩ := destruct_tidy hl (if closeAnswer p w then 0 else 1) ht2
        refine ⟨s0, false, s3, rfl, by simpa using hst, ?_, hall, by rw [h8, h5], fun h => (by cases h),
          fun _ => ⟨by rw [h6, h3], by rw [h7, h4]⟩⟩
        have ha : answer p w false = if closeAnswer p w then 0 else 1 := by
          rcases hp with rfl | rfl
          · rfl
          · cases hw : w.closed <;> simp [answer, closeAnswer, hw]
        simp only [main, hn, hc, hp, hcl, if_true, Bool.not_true, Bool.false_eq_true, if_false, hd, ha]
      · obtain ⟨s3, hd, hall, h6, h7, h8⟩ := destruct_tidy hl 1 ht
        refine ⟨s0, false, s3, rfl, by simpa using hst, ?_, hall, h8, fun h => (by cases h), fun _ => ⟨h6, h7⟩⟩
        simp only [main, hn, hc, hp, Bool.not_true, Bool.false_eq_true, if_false, hd]
        cases p <;> simp [answer] at hp ⊢

/-- **C96.** Whatever fails while it starts, a program that is not interrupted at that time ends without undefined
behaviour, with both devices closed, its own object deleted and no thread left; and it does so if a signal ends it once
it runs. -/
theorem C96_ends_well_partial (p : Pgm) (o : Opts) (w : World) (hn : w.network = true) (hl : w.late = false)
    (hs : ∀ k, w.signal k = false) :
    ∃ code s, main p o w = .exit code s ∧
      s.core.client = false ∧ s.core.second = false ∧ s.core.own ≠ .live ∧ s.core.thread = false := by
  obtain ⟨s0, b, s, -, -, h, hall, -⟩ := main_spec p o w hn hl (by
    rintro ⟨k, -, h, -⟩; rw [hs k] at h; cases h)
  refine ⟨_, s, h, ?_⟩
  simp only [Core.allClosed, Bool.and_eq_true, Bool.not_eq_true', decide_eq_true_eq] at hall
  exact ⟨hall.1.1.1, hall.1.1.2, hall.1.2, hall.2⟩

/-- Signals while a program starts: it crashes just if one comes too early, and otherwise all is closed in the end. -/
theorem C96_signal_while_starting (p : Pgm) (o : Opts) (w : World) (hn : w.network = true) (hl : w.late = false) :
    (main p o w = .crash ↔ ∃ k, Reached p o w k ∧ w.signal k = true ∧ tooEarly p ((acts o p).take k) = true) ∧
    (∀ code s, main p o w = .exit code s → s.core.allClosed = true) := by
  by_cases hs : ∃ k, Reached p o w k ∧ w.signal k = true ∧ tooEarly p ((acts o p).take k) = true
  · have hc : main p o w = .crash := by
      have := (configure_main p o w).1.2 hs
      simp [main, hn, this]
    refine ⟨⟨fun _ => hs, fun _ => hc⟩, fun code s h => ?_⟩
    rw [hc] at h; cases h
  · obtain ⟨s0, b, s, -, -, h, hall, -⟩ := main_spec p o w hn hl hs
    refine ⟨⟨fun hc => ?_, fun h => absurd h hs⟩, fun code s' h' => ?_⟩
    · rw [h] at hc; cases hc
    · rw [h] at h'
      cases h'
      exact hall

/-- The first moments are too early for all but the keyboard controller; and once all calls have been made, none is. -/
theorem C96_early_moments (o : Opts) :
    (∀ p, p ≠ .keyboard → tooEarly p [] = true) ∧ tooEarly .keyboard [] = false ∧
    (∀ p, tooEarly p (acts o p) = false) := by
  refine ⟨fun p hp => by cases p <;> first | rfl | exact absurd rfl hp, rfl, fun p => ?_⟩
  obtain ⟨board, cart, pose, sensors, move, dry, tool, impedance⟩ := o
  cases p
  · cases board <;> cases cart <;> cases pose <;> rfl
  · rfl
  · cases sensors <;> cases move <;> rfl
  · cases dry <;> cases tool <;> cases impedance <;> rfl

/-- The moments that are too early, by the number of calls that `configure` has made: the first five of the streaming
device controller and the first two of the haar program; in the force compensation the first two of a dry run and else
the first sixteen; in the keyboard controller, while a device is open and its interface has not been asked for, and
between asking for the thread and making it. -/
theorem C96_exact_moments (o : Opts) (k : Nat) :
    (tooEarly .streaming ((acts o .streaming).take k) = true ↔ k < 5) ∧
    (tooEarly .haar ((acts o .haar).take k) = true ↔ k < 2) ∧
    (tooEarly .force ((acts o .force).take k) = true ↔ k < if o.dry then 2 else 16) ∧
    (tooEarly .keyboard ((acts o .keyboard).take k) = true ↔
      (o.board = true ∧ 2 ≤ k ∧ k < 7) ∨
      (o.cart = true ∧ (k = (if o.board then 11 else 2) ∨ (o.pose = true ∧ k = if o.board then 15 else 6)))) := by
  have key1 : ∀ k < 30, (tooEarly .streaming ((acts {} .streaming).take k) = true ↔ k < 5) := by decide
  have key2 : ∀ k < 30, ∀ sensors move : Bool,
      (tooEarly .haar ((acts { sensors := sensors, move := move } .haar).take k) = true ↔ k < 2) := by decide
  have key3 : ∀ k < 30, ∀ dry tool impedance : Bool,
      (tooEarly .force ((acts { dry := dry, tool := tool, impedance := impedance } .force).take k) = true ↔
        k < if dry then 2 else 16) := by decide
  have key4 : ∀ k < 30, ∀ board cart pose : Bool,
      (tooEarly .keyboard ((acts { board := board, cart := cart, pose := pose } .keyboard).take k) = true ↔
        (board = true ∧ 2 ≤ k ∧ k < 7) ∨
        (cart = true ∧ (k = (if board then 11 else 2) ∨ (pose = true ∧ k = if board then 15 else 6)))) := by decide
  have len : ∀ p, (acts o p).length ≤ 29 := by
    intro p
    cases p <;> simp only [acts] <;> (try split_ifs) <;> simp
  have h1 : ∀ k < 30, (tooEarly .streaming ((acts o .streaming).take k) = true ↔ k < 5) := key1
  have h2 : ∀ k < 30, (tooEarly .haar ((acts o .haar).take k) = true ↔ k < 2) := fun k hk => key2 k hk _ _
  have h3 : ∀ k < 30, (tooEarly .force ((acts o .force).take k) = true ↔ k < if o.dry then 2 else 16) :=
    fun k hk => key3 k hk _ _ _
  have h4 : ∀ k < 30, (tooEarly .keyboard ((acts o .keyboard).take k) = true ↔
      (o.board = true ∧ 2 ≤ k ∧ k < 7) ∨
      (o.cart = true ∧ (k = (if o.board then 11 else 2) ∨ (o.pose = true ∧ k = if o.board then 15 else 6)))) :=
    fun k hk => key4 k hk _ _ _
  by_cases hk : k < 30
  · exact ⟨h1 k hk, h2 k hk, h3 k hk, h4 k hk⟩
  · have h1 := h1 29 (by omega)
    have h2 := h2 29 (by omega)
    have h3 := h3 29 (by omega)
    have h4 := h4 29 (by omega)
    rw [List.take_of_length_le (len _)] at h1 h2 h3 h4
    rw [List.take_of_length_le (Nat.le_trans (len _) (by omega)), List.take_of_length_le (Nat.le_trans (len _) (by omega)),
      List.take_of_length_le (Nat.le_trans (len _) (by omega)), List.take_of_length_le (Nat.le_trans (len _) (by omega))]
    refine ⟨h1.trans (by omega), h2.trans (by omega), h3.trans (by split_ifs <;> omega), h4.trans ?_⟩
    split_ifs <;> constructor <;> intro h <;> exfalso <;> omega

/-- The number answered tells if the haar and force programs started, and nothing about the other two. -/
theorem C96_answers (p : Pgm) (o : Opts) (w : World) (hn : w.network = true) (hl : w.late = false) {code : Nat} {s : St}
    (h : main p o w = .exit code s) :
    (Started p o w → code = 0) ∧
    (¬ Started p o w → p = .haar ∨ p = .force → code = 1) ∧
    (¬ Started p o w → p = .keyboard → code = 0) ∧
    (¬ Started p o w → p = .streaming → (code = 0 ↔ w.closed = true)) := by
  have hs : ¬ ∃ k, Reached p o w k ∧ w.signal k = true ∧ tooEarly p ((acts o p).take k) = true := by
    intro hc
    rw [(C96_signal_while_starting p o w hn hl).1.2 hc] at h
    cases h
  obtain ⟨s0, b, s', -, hb, hm, -⟩ := main_spec p o w hn hl hs
  rw [hm] at h
  injection h with h1 h2
  subst h1
  refine ⟨fun hst => by rw [hb.2 hst]; rfl, fun hst => ?_, fun hst => ?_, fun hst => ?_⟩ <;>
    have hbf : b = false := by
      cases b with
      | false => rfl
      | true => exact absurd (hb.1 rfl) hst
  · rintro (rfl | rfl) <;> simp [hbf, answer]
  · rintro rfl; simp [hbf, answer]
  · rintro rfl
    simp only [hbf, answer, Bool.false_eq_true, if_false]
    cases w.closed <;> simp

/-- What the calls themselves tell to stop. -/
def toldBy : List Act → Core → List Tell
  | [], _ => []
  | a :: l, c => (if a = .stop then (issueStop c).getD [] else []) ++ toldBy l (a.done c)

theorem run_true {a : Act} {ok : Bool} {s s' : St} (h : a.run ok s = some (s', true)) :
    s'.core = a.done s.core ∧ s'.saved = (s.saved || a = .tty) ∧ s'.nonblock = (s.nonblock || a = .tty) ∧
    s'.told = s.told ++ (if a = .stop then (issueStop s.core).getD [] else []) := by
  cases a
  case stop =>
    obtain ⟨t, ht, h2⟩ := Option.map_eq_some_iff.1 h
    simp only [Prod.mk.injEq, and_true] at h2
    subst h2
    simp [Act.done, ht]
  all_goals
    simp only [Act.run, Option.some.injEq, Prod.mk.injEq, and_true] at h
    first
    | (obtain ⟨rfl, rfl⟩ := h; simp [Act.done]; done)
    | (subst h; simp [Act.done])

theorem signalIf_kept {p : Pgm} {b : Bool} {s s' : St} (h : signalIf p b s = some s') :
    s'.saved = s.saved ∧ s'.nonblock = s.nonblock := by
  unfold signalIf at h
  split_ifs at h
  · obtain ⟨⟨ctl, own, sec, client, second, flag, thread, dry⟩, told, term, saved, nb⟩ := s
    cases p
    · obtain ⟨t, -, rfl⟩ := Option.map_eq_some_iff.1 h
      exact ⟨rfl, rfl⟩
    · cases ctl <;> cases client <;> simp [interrupt] at h <;> (subst h; exact ⟨rfl, rfl⟩)
    · cases ctl <;> cases client <;> simp [interrupt] at h <;> (subst h; exact ⟨rfl, rfl⟩)
    · rcases dry with _ | _ | _ <;> cases ctl <;> cases client <;> simp [interrupt] at h <;>
        (subst h; exact ⟨rfl, rfl⟩)
  · cases h; exact ⟨rfl, rfl⟩

theorem configure_kept (p : Pgm) (w : World) : ∀ (l : List Act) (i : Nat) (s s' : St),
    configure p w i l s = some (s', true) →
    s'.saved = (s.saved || decide (.tty ∈ l)) ∧ s'.nonblock = (s.nonblock || decide (.tty ∈ l)) ∧
    ((∀ k, w.signal k = false) → s'.told = s.told ++ toldBy l s.core) := by
  intro l
  induction l with
  | nil =>
    intro i s s' h
    simp only [configure, Option.some.injEq, Prod.mk.injEq, and_true] at h
    subst h
    simp [toldBy]
  | cons a l ih =>
    intro i s s' h
    simp only [configure] at h
    obtain ⟨s1, h1, h⟩ := Option.bind_eq_some_iff.1 h
    obtain ⟨⟨s2, b⟩, h2, h⟩ := Option.bind_eq_some_iff.1 h
    cases b with
    | false => simp at h
    | true =>
      simp only [if_true] at h
      obtain ⟨i1, i2, i3⟩ := ih _ _ _ h
      obtain ⟨r1, r2, r3, r4⟩ := run_true h2
      obtain ⟨k1, k2⟩ := signalIf_kept h1
      refine ⟨?_, ?_, ?_⟩
      · rw [i1, r2, k1]
        by_cases ha : a = .tty <;> simp [ha, eq_comm]
      · rw [i2, r3, k2]
        by_cases ha : a = .tty <;> simp [ha, eq_comm]
      · intro hs
        simp only [signalIf, hs i, Bool.false_eq_true, if_false, Option.some.injEq] at h1
        subst h1
        rw [i3 hs, r4, r1, toldBy, List.append_assoc]

/-- A program that has started tells the Cartesian controller to stop before it closes the connection, whether a signal
ends it or (haar) a target; the keyboard controller without one tells the robot. Only the force compensation does not,
in a dry run or if its thread ends by itself. -/
theorem C96_stops_robot (p : Pgm) (o : Opts) (w : World) (hn : w.network = true) (hl : w.late = false)
    (hst : Started p o w) {code : Nat} {s : St} (h : main p o w = .exit code s) :
    ((p = .streaming ∨ p = .haar ∨ (p = .keyboard ∧ o.cart = true) ∨
        (p = .force ∧ o.dry = false ∧ w.itself = false)) → s.told.getLast? = some .cartesian) ∧
    (p = .keyboard → o.cart = false → o.board = true → s.told.getLast? = some .board) := by
  have hs : ¬ ∃ k, Reached p o w k ∧ w.signal k = true ∧ tooEarly p ((acts o p).take k) = true := by
    intro hc
    rw [(C96_signal_while_starting p o w hn hl).1.2 hc] at h
    cases h
  obtain ⟨s0, b, s', -, hb, hm, -, -, ht, -⟩ := main_spec p o w hn hl hs
  rw [hm] at h
  injection h with h1 h2
  subst h2
  obtain ⟨htold, -⟩ := ht (hb.2 hst)
  rw [htold]
  refine ⟨?_, ?_⟩
  · rintro (rfl | rfl | ⟨rfl, hc⟩ | ⟨rfl, hd, hi⟩) <;> simp [toldAtEnd, *]
  · rintro rfl hc hbd
    simp [toldAtEnd, hc, hbd]

/-- Without signals while it starts, these are all it tells to stop: once at the end, and the keyboard controller also
when it starts. -/
theorem C96_stops_only (p : Pgm) (o : Opts) (w : World) (hn : w.network = true) (hl : w.late = false)
    (hsig : ∀ k, w.signal k = false) (hst : Started p o w) {code : Nat} {s : St} (h : main p o w = .exit code s) :
    s.told = if p = .keyboard then
        (if o.cart then [.cartesian, .cartesian] else if o.board then [.board, .board] else [])
      else if p = .force ∧ (w.itself = true ∨ o.dry = true) then [] else [.cartesian] := by
  obtain ⟨s0, b, s', hc, hb, hm, -, -, ht, -⟩ := main_spec p o w hn hl (by
    rintro ⟨k, -, h, -⟩; rw [hsig k] at h; cases h)
  rw [hm] at h
  injection h with h1 h2
  subst h2
  have hbt := hb.2 hst
  subst hbt
  obtain ⟨htold, -⟩ := ht rfl
  obtain ⟨-, -, h3⟩ := configure_kept _ _ _ _ _ _ hc
  rw [htold, h3 hsig]
  obtain ⟨board, cart, pose, sensors, move, dry, tool, impedance⟩ := o
  obtain ⟨network, ok, signal, itself, closed, late⟩ := w
  cases p
  · cases board <;> cases cart <;> cases pose <;>
      simp [construct, acts, toldBy, Act.done, issueStop, toldAtEnd]
  · simp [construct, acts, toldBy, Act.done, issueStop, toldAtEnd]
  · cases sensors <;> cases move <;> simp [construct, acts, toldBy, Act.done, issueStop, toldAtEnd]
  · cases dry <;> cases tool <;> cases impedance <;> cases itself <;>
      simp [construct, acts, toldBy, Act.done, issueStop, toldAtEnd]

/-- The terminal after the keyboard controller has run: its settings are as they were found, but its files stay as the
program set them: reading and writing no longer blocks. -/
theorem C96_terminal_partial (o : Opts) (w : World) (hn : w.network = true) (hl : w.late = false)
    (hst : Started .keyboard o w) {code : Nat} {s : St} (h : main .keyboard o w = .exit code s) :
    s.term = .found ∧ s.nonblock = true := by
  have hs : ¬ ∃ k, Reached .keyboard o w k ∧ w.signal k = true ∧
      tooEarly .keyboard ((acts o .keyboard).take k) = true := by
    intro hc
    rw [(C96_signal_while_starting .keyboard o w hn hl).1.2 hc] at h
    cases h
  obtain ⟨s0, b, s', hc, hb, hm, -, hnb, ht, -⟩ := main_spec .keyboard o w hn hl hs
  rw [hm] at h
  injection h with h1 h2
  subst h2
  have hbt := hb.2 hst
  subst hbt
  obtain ⟨-, hterm⟩ := ht rfl
  obtain ⟨h3, h4, -⟩ := configure_kept _ _ _ _ _ _ hc
  have hm : Act.tty ∈ acts o .keyboard := by simp [acts]
  rw [hterm, hnb, h3, h4]
  simp [hm]

/-- A start that is refused answers 0, as if nothing had happened: the keyboard controller and the streaming device
controller, here for a Cartesian controller that cannot be reached. -/
theorem C96_refused_answers_zero :
    (∃ s, main .keyboard { cart := true } { ok := fun i => i ≠ 1 } = .exit 0 s) ∧
    ¬ Started .keyboard { cart := true } { ok := fun i => i ≠ 1 } ∧
    (∃ s, main .streaming {} { ok := fun i => i ≠ 3 } = .exit 0 s) ∧
    ¬ Started .streaming {} { ok := fun i => i ≠ 3 } := by
  refine ⟨⟨_, rfl⟩, fun h => ?_, ⟨_, rfl⟩, fun h => ?_⟩
  · have := h 1 .openClient (by simp [acts]) rfl
    simp at this
  · have := h 3 .openClient (by simp [acts]) rfl
    simp at this

/-- Without a network, every program answers 1, but the streaming device controller deletes a pointer that it has never
given a value. -/
theorem C96_no_network (p : Pgm) (o : Opts) (w : World) (hn : w.network = false) (hl : w.late = false) :
    (p ≠ .streaming → ∃ s, main p o w = .exit 1 s ∧ s.core.allClosed = true ∧ s.told = []) ∧
    (p = .streaming → main p o w = .crash) := by
  refine ⟨fun hp => ?_, ?_⟩
  · obtain ⟨s', h1, h2, h3, -⟩ := destruct_tidy (p := p) (w := w) hl 1 (s := construct p) (by
      cases p <;> first | rfl | exact absurd rfl hp)
    refine ⟨s', by simp [main, hn, h1], h2, by rw [h3]; cases p <;> rfl⟩
  · rintro rfl
    simp [main, hn, destruct, close, construct]

/-- A signal after the devices were closed, while the module is still there: all but the keyboard controller (and the
force compensation in a dry run) follow the pointer to the interface of a device that is gone. -/
theorem C96_late_signal (p : Pgm) (o : Opts) (w : World) (hn : w.network = true) (hl : w.late = true)
    (hsig : ∀ k, w.signal k = false) (hst : Started p o w) :
    main p o w = .crash ↔ p = .streaming ∨ p = .haar ∨ (p = .force ∧ o.dry = false) := by
  obtain ⟨h1, h2⟩ := configure_main p o w
  cases hc : configure p w 0 (acts o p) (construct p) with
  | none =>
    obtain ⟨k, -, h, -⟩ := h1.1 hc
    rw [hsig k] at h; cases h
  | some r =>
    obtain ⟨s0, b⟩ := r
    rcases h2 s0 b hc with ⟨rfl, hcore, -⟩ | ⟨rfl, ht, hns⟩
    swap
    · exact absurd hst hns
    obtain ⟨s1, hloop, ht1, -, -, -, hctl1, hdry1⟩ := loop_tidy p o w hcore
    obtain ⟨s2, hcl, -, ht2, -, -, -, -, hctl2, hdry2⟩ := close_tidy w ht1
    obtain ⟨s3, hcl3, hall, -, -, -, -, -, hctl3, hdry3⟩ := close_tidy w ht2
    have hm : main p o w = (match interrupt p s3 with | none => End.crash | some s => .exit 0 s) := by
      simp only [main, hn, hc, hloop, hcl, destruct, hcl3, signalIf, hl, Bool.not_true, Bool.false_eq_true, if_false,
        if_true]
      cases interrupt p s3 <;> rfl
    have hi : main p o w = .crash ↔ ready p s3.core = false := by
      rw [hm, ← interrupt_some]
      cases interrupt p s3 <;> simp
    rw [hi]
    have hctl : s3.core.ctl = (after (acts o p) (construct p).core).ctl := by
      rw [hctl3, hctl2, hctl1, hcore]
    have hdry : s3.core.dry = (after (acts o p) (construct p).core).dry := by
      rw [hdry3, hdry2, hdry1, hcore]
    simp only [Core.allClosed, Bool.and_eq_true, Bool.not_eq_true', decide_eq_true_eq] at hall
    obtain ⟨⟨⟨hclient, hsecond⟩, -⟩, -⟩ := hall
    clear hm hi hst hcore h1 h2 hc hloop hcl hcl3
    obtain ⟨board, cart, pose, sensors, move, dry, tool, impedance⟩ := o
    cases p
    · simp [ready, hclient, hsecond]
    · simp [ready, hclient]
    · have : s3.core.ctl = .live := by
        rw [hctl]; cases sensors <;> cases move <;> rfl
      simp [ready, hclient, this]
    · have : s3.core.dry = some dry := by
        rw [hdry]; cases dry <;> cases tool <;> cases impedance <;> rfl
      simp [ready, hclient, this]

/-- A signal before the keyboard controller has looked at the terminal sets all the settings of the terminal to zero,
and they stay so if the start is then refused. -/
theorem C96_terminal_zeroed :
    ∃ s, main .keyboard { cart := true } { ok := fun i => i ≠ 1, signal := fun i => i = 0 } = .exit 0 s ∧
      s.term = .zeroed :=
  ⟨_, rfl, rfl⟩

/-! ## Cases that meet the hypotheses -/

/-- All calls succeed. -/
theorem started_all (p : Pgm) (o : Opts) : Started p o {} := fun _ _ _ _ => rfl

/-- The keyboard controller, moving along poses: all succeeds. -/
example : main .keyboard { cart := true, pose := true } {} =
    .exit 0 { core := { ctl := .live, own := .null, flag := true }, told := [.cartesian, .cartesian], term := .found,
              saved := true, nonblock := true } := by decide

/-- The haar program ends at a target, seen by its sensors. -/
example : main .haar { sensors := true, move := true } { itself := true } =
    .exit 0 { core := { ctl := .live, own := .null, sec := .live }, told := [.cartesian] } := by decide

/-- A signal right after the client was opened, before its interface was asked for. -/
example : main .haar {} { signal := fun i => i = 1 } = .crash ∧
    main .streaming {} { signal := fun i => i = 4 } = .crash ∧
    main .keyboard { cart := true, pose := true } { signal := fun i => i = 6 } = .crash := by decide

/-- A moment later: no harm. -/
example : main .haar {} { signal := fun i => i = 2 } =
    .exit 0 { core := { ctl := .live, own := .null }, told := [.cartesian, .cartesian] } := by decide

/-- The force compensation, whose sensor cannot be opened. -/
example : main .force { tool := true } { ok := fun i => i ≠ 6 } =
    .exit 1 { core := { ctl := .garbage, own := .null, dry := some false } } := by decide

end KD.Life
