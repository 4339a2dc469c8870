import Verif.Solver.KdlThreads
import Verif.Props.WithKdl

/-!
# Calls of the chain solver from several threads (C101)

The solver as callers imagine it does each call at once, at some moment between its beginning and its return. What the
callers of the real one see is compared with what they could see of that one.
-/

namespace KD

open KdlVectorConverter

namespace Threads

/-! ## The solver that does each call at once -/

/-- The chain solver without inertias. -/
def kin (s : DynSolver) : KdlSolver := ⟨s.chain, s.original.map (·.seg)⟩

/-- A call done at once: the solver after it, and the answer. -/
noncomputable def atOnce (i : Solvers) : Req → DynSolver → DynSolver × Answer
  | .append x, s => (s.appendLink x, some (some []))
  | .restore, s => (s.restore, some (some []))
  | .fwdKin q, s => (s, ((kin s).fwdKin q).map some)
  | .invKin xd g f, s => (s, KdlSolver.invKin i.pos (kin s) xd g f)
  | .diffInvKin q xdot f, s => (s, KdlSolver.diffInvKin i.vel (kin s) q xdot f)
  | .invDynStatic q, s => (s, s.invDynStatic q)
  | .invDyn q qd qdd w f, s => (s, s.invDyn q qd qdd w f)

/-- Where a caller is: in no call, in a call not done yet, or in one done but not returned. -/
inductive Caller
  | idle
  | called (r : Req)
  | done (a : Answer)

/-- The imagined solver and its callers. -/
structure Imagined where
  solver : DynSolver
  callers : ℕ → Caller

/-- One step: a call, a call done at once, or a return. Calls with `refusable` may also be refused (a returned `false`)
for no reason. -/
inductive Imagined.Step (i : Solvers) (refusable : Req → Prop) : Imagined → List Event → Imagined → Prop
  | call {s t} (r : Req) : s.callers t = .idle →
      Step i refusable s [.call t r] { s with callers := Function.update s.callers t (.called r) }
  | once {s t r} : s.callers t = .called r →
      Step i refusable s [] ⟨(atOnce i r s.solver).1, Function.update s.callers t (.done (atOnce i r s.solver).2)⟩
  | refuse {s t r} : s.callers t = .called r → refusable r →
      Step i refusable s [] { s with callers := Function.update s.callers t (.done (some none)) }
  | ret {s t a} : s.callers t = .done a →
      Step i refusable s [.ret t a] { s with callers := Function.update s.callers t .idle }

/-- Any number of steps. -/
inductive Imagined.Steps (i : Solvers) (refusable : Req → Prop) : Imagined → List Event → Imagined → Prop
  | refl (s) : Steps i refusable s [] s
  | tail {s es s' e s''} : Steps i refusable s es s' → Step i refusable s' e s'' → Steps i refusable s (es ++ e) s''

/-- No call made yet. -/
def Imagined.start (s : DynSolver) : Imagined := ⟨s, fun _ => .idle⟩

/-- The two inverse dynamics. -/
def Req.IsTorques : Req → Prop
  | .invDynStatic _ | .invDyn .. => True
  | _ => False

/-- All calls but inverse dynamics with a wrench in the frame of the base. -/
def Req.Plain : Req → Prop
  | .invDyn _ _ _ _ .base => False
  | _ => True

/-- Inverse solvers that fill arrays of as many joints as the chain has. -/
structure Solvers.Fit (i : Solvers) : Prop where
  pos : ∀ c g f, (i.pos c g f).2.length = Chain.nJoints c
  vel : ∀ c g v, (i.vel c g v).2.length = Chain.nJoints c

/-! ## Forward simulation -/

open Ctrl (Joints)

/-- What may come of a call in a moment. -/
def May (i : Solvers) (ref : Req → Prop) (r : Req) (s s' : DynSolver) (a : Answer) : Prop :=
  atOnce i r s = (s', a) ∨ (ref r ∧ s' = s ∧ a = some none)

/-- The call is done, and will return `a`. -/
def Fin (N : ℕ) (a : Answer) : Body → Prop
  | .ret a' => a' = a
  | .joints k => Fin N a (k N)
  | .segments _ => False
  | .locked .. => False

/-- The call is not done, and will be. -/
def Good (i : Solvers) (ref : Req → Prop) (N : ℕ) (r : Req) : Body → Prop
  | .ret a => ∀ s, Joints N s → May i ref r s s a
  | .joints k => Good i ref N r (k N)
  | .segments k => ∀ s, Joints N s → Good i ref N r (k s.links)
  | .locked _ u k => ∀ s, Joints N s → Joints N (u s) ∧ ∃ a, May i ref r s (u s) a ∧ Fin N a (k s)

theorem fin_store {N : ℕ} {a : Answer} (h : ∀ r, a = some (some r) → r.length = N) : Fin N a (.store a) := by
  rcases a with _ | _ | r
  · rfl
  · rfl
  · have := h r rfl
    simp [Body.store, Fin, ← this]

theorem rneLoop_wrenches (links : List Link) : ∀ (qs qds qdds : List ℝ) (es : List Wrench) (v a : Twist) τ f,
    rneLoop links qs qds qdds es v a = some (τ, f) → es.length = links.length := by
  induction links with
  | nil =>
    intro qs qds qdds es v a τ f h
    unfold rneLoop at h
    split at h <;> simp_all
  | cons l ls ih =>
    intro qs qds qdds es v a τ f h
    cases es with
    | nil => unfold rneLoop at h; cases h
    | cons e es =>
      unfold rneLoop at h
      split at h
      · split at h
        · simp only [Option.bind_eq_bind, Option.bind_eq_some_iff] at h
          obtain ⟨⟨τ', f'⟩, h1, h2⟩ := h
          simp [ih _ _ _ _ _ _ _ _ h1]
        · cases h
      · simp only [Option.bind_eq_bind, Option.bind_eq_some_iff] at h
        obtain ⟨⟨τ', f'⟩, h1, h2⟩ := h
        simp [ih _ _ _ _ _ _ _ _ h1]

theorem rne_wrenches {links g q qd qdd es} (h : es.length ≠ links.length) : rne links g q qd qdd es = none := by
  cases hr : rne links g q qd qdd es with
  | none => rfl
  | some τ =>
    unfold rne at hr
    obtain ⟨⟨τ', f⟩, h1, -⟩ := Option.map_eq_some_iff.mp hr
    exact absurd (rneLoop_wrenches _ _ _ _ _ _ _ _ _ h1) h

theorem rad_len {n : ℕ} {q r : List ℝ} (h : KdlSolver.toRadians n q = some r) : r.length = n := by
  unfold KdlSolver.toRadians at h
  split at h
  · cases h; simp; omega
  · cases h

theorem invKin_len {i : Solvers} (hi : i.Fit) {n c xd g f r} (h : invKinWith i.pos n c xd g f = some (some r)) :
    r.length = Chain.nJoints c := by
  simp only [invKinWith, Option.bind_eq_bind, Option.bind_eq_some_iff] at h
  obtain ⟨g', -, h⟩ := h
  cases f with
  | other => cases h
  | base =>
    have h := Option.some.inj h
    split at h
    · cases h
    · cases h; rw [List.length_map]; exact hi.pos _ _ _
  | tcp =>
    simp only [Option.bind_eq_some_iff] at h
    obtain ⟨F, -, h⟩ := h
    have h := Option.some.inj h
    split at h
    · cases h
    · cases h; rw [List.length_map]; exact hi.pos _ _ _

theorem diffInvKin_len {i : Solvers} (hi : i.Fit) {n c q x f r}
    (h : diffInvKinWith i.vel n c q x f = some (some r)) : r.length = Chain.nJoints c := by
  simp only [diffInvKinWith, Option.bind_eq_bind, Option.bind_eq_some_iff] at h
  obtain ⟨g', -, h⟩ := h
  cases f with
  | other => cases h
  | base =>
    have h := Option.some.inj h
    split at h
    · cases h
    · cases h; rw [List.length_map]; exact hi.vel _ _ _
  | tcp =>
    simp only [Option.bind_eq_some_iff] at h
    obtain ⟨F, -, h⟩ := h
    have h := Option.some.inj h
    split at h
    · cases h
    · cases h; rw [List.length_map]; exact hi.vel _ _ _

theorem good_body {i : Solvers} (hi : i.Fit) {ref : Req → Prop} {N : ℕ} {r : Req} (hp : r.Plain)
    (ht : r.IsTorques → ref r) : Good i ref N r (body i r) := by
  cases r with
  | append x => exact fun s hs => ⟨hs.append x, _, .inl rfl, rfl⟩
  | restore => exact fun s hs => ⟨hs.restore, _, .inl rfl, rfl⟩
  | fwdKin q =>
    refine fun s hs => ⟨hs, _, .inl ?_, rfl⟩
    rw [← hs.now]
    simp only [atOnce, id, Prod.mk.injEq, true_and, KdlSolver.fwdKin, fwdKinWith, kin, KdlSolver.numJoints]
    cases KdlSolver.toRadians (Chain.nJoints s.chain) q with
    | none => rfl
    | some g =>
      simp only [Option.bind_eq_bind, Option.bind_some]
      cases Chain.fk s.chain g <;> rfl
  | invKin xd g f =>
    refine fun s hs => ⟨hs, invKinWith i.pos N s.chain xd g f, .inl ?_, fin_store fun r hr => ?_⟩
    · rw [← hs.now]; rfl
    · rw [← hs.now]; exact invKin_len hi hr
  | diffInvKin q x f =>
    refine fun s hs => ⟨hs, diffInvKinWith i.vel N s.chain q x f, .inl ?_, fin_store fun r hr => ?_⟩
    · rw [← hs.now]; rfl
    · rw [← hs.now]; exact diffInvKin_len hi hr
  | invDynStatic q =>
    simp only [body, Good]
    cases hq : KdlSolver.toRadians N q with
    | none =>
      intro s hs
      refine .inl ?_
      simp only [atOnce, DynSolver.invDynStatic, hs.now, hq]
      rfl
    | some g =>
      intro s0 _ s hs
      refine ⟨hs, _, ?_, fin_store fun r hr => ?_⟩
      · by_cases hl : s0.links.length = s.links.length
        · refine .inl ?_
          simp only [atOnce, DynSolver.invDynStatic, hs.now, hq, hl, id]
          rfl
        · exact .inr ⟨ht trivial, rfl, congrArg some (rne_wrenches (by simpa using hl))⟩
      · exact (Ctrl.rne_length (Option.some.inj hr)).trans (rad_len hq)
  | invDyn q qd qdd w f =>
    simp only [body, Good]
    cases hq : KdlSolver.toRadians N q with
    | none =>
      intro s hs
      refine .inl ?_
      simp only [atOnce, DynSolver.invDyn, hs.now, hq]
      rfl
    | some g =>
    cases hqd : KdlSolver.toRadians N qd with
    | none =>
      intro s hs
      refine .inl ?_
      simp only [atOnce, DynSolver.invDyn, hs.now, hq, hqd]
      rfl
    | some gd =>
    cases hqdd : KdlSolver.toRadians N qdd with
    | none =>
      intro s hs
      refine .inl ?_
      simp only [atOnce, DynSolver.invDyn, hs.now, hq, hqd, hqdd]
      rfl
    | some gdd =>
    intro s0 hs0
    cases f with
    | base => exact hp.elim
    | other =>
      intro s hs
      refine .inl ?_
      simp only [atOnce, DynSolver.invDyn, hs.now, hq, hqd, hqdd]
      rfl
    | tcp =>
      obtain ⟨m, hm⟩ : ∃ m, s0.links.length = m + 1 :=
        Nat.exists_eq_succ_of_ne_zero (by simpa using hs0.links)
      simp only [hm]
      intro s hs
      refine ⟨hs, _, ?_, fin_store fun r hr => ?_⟩
      · by_cases hl : m + 1 = s.links.length
        · refine .inl ?_
          have he : s.links.isEmpty = false := by simpa using hs.links
          simp only [atOnce, DynSolver.invDyn, hs.now, hq, hqd, hqdd, id, DynSolver.wrenches, he, ← hl]
          rfl
        · exact .inr ⟨ht trivial, rfl, congrArg some (rne_wrenches (by simpa using hl))⟩
      · exact (Ctrl.rne_length (Option.some.inj hr)).trans (rad_len hq)

/-- How a thread stands to its image. -/
def Matches (i : Solvers) (ref : Req → Prop) (N : ℕ) (t : Thread) (c : Caller) : Prop :=
  match t with
  | .idle => c = .idle
  | .running b | .looking b => (∃ r, c = .called r ∧ Good i ref N r b) ∨ ∃ a, c = .done a ∧ Fin N a b

/-- How the solver and its threads stand to the imagined ones. -/
structure Sim (i : Solvers) (ref : Req → Prop) (N : ℕ) (s : State) (j : Imagined) : Prop where
  solver : j.solver = s.solver
  joints : Joints N s.solver
  threads : ∀ t, Matches i ref N (s.threads t) (j.callers t)

theorem sim_update {i : Solvers} {ref : Req → Prop} {N : ℕ} {s : State} {j : Imagined} (h : Sim i ref N s j) {t : ℕ}
    {th : Thread} {c : Caller} (hm : Matches i ref N th c) :
    ∀ u, Matches i ref N (Function.update s.threads t th u) (Function.update j.callers t c u) := by
  intro u
  by_cases hu : u = t
  · subst hu; simpa using hm
  · simpa [Function.update_of_ne hu] using h.threads u

theorem sim_thread {i : Solvers} {ref : Req → Prop} {N : ℕ} {s : State} {j : Imagined} (h : Sim i ref N s j) {t : ℕ}
    {th : Thread} (hm : Matches i ref N th (j.callers t)) :
    ∀ u, Matches i ref N (Function.update s.threads t th u) (j.callers u) := by
  intro u
  by_cases hu : u = t
  · subst hu; simpa using hm
  · simpa [Function.update_of_ne hu] using h.threads u

theorem Imagined.Steps.one {i : Solvers} {ref : Req → Prop} {j e j'} (h : Imagined.Step i ref j e j') :
    Imagined.Steps i ref j e j' := by
  have := Imagined.Steps.tail (.refl j) h
  simpa using this

theorem Imagined.Steps.trans {i : Solvers} {ref : Req → Prop} {j es j' es' j''}
    (h : Imagined.Steps i ref j es j') (h' : Imagined.Steps i ref j' es' j'') :
    Imagined.Steps i ref j (es ++ es') j'' := by
  induction h' with
  | refl => simpa using h
  | tail _ hs ih => rw [← List.append_assoc]; exact .tail ih hs

/-- The image does a call. -/
theorem sim_do {i : Solvers} {ref : Req → Prop} {j : Imagined} {t r s' a} (hc : j.callers t = .called r)
    (h : May i ref r j.solver s' a) :
    Imagined.Steps i ref j [] ⟨s', Function.update j.callers t (.done a)⟩ := by
  rcases h with h | ⟨hr, rfl, rfl⟩
  · have := Imagined.Step.once (i := i) (refusable := ref) hc
    rw [h] at this
    exact .one this
  · exact .one (.refuse hc hr)

theorem sim_step {i : Solvers} (hi : i.Fit) {ref : Req → Prop} {N : ℕ} {s s' : State} {e : List Event}
    (hs : Step i s e s') (he : ∀ t r, Event.call t r ∈ e → r.Plain ∧ (r.IsTorques → ref r)) {j : Imagined}
    (h : Sim i ref N s j) : ∃ j', Imagined.Steps i ref j e j' ∧ Sim i ref N s' j' := by
  cases hs with
  | @call t r hb ht =>
    have hm := h.threads t
    rw [ht] at hm
    obtain ⟨hp, hr⟩ := he t r (by simp)
    exact ⟨_, .one (.call r hm), h.solver, h.joints, sim_update h (.inl ⟨r, rfl, good_body hi hp hr⟩)⟩
  | @lookJoints t k hb ht =>
    have hm := h.threads t
    rw [ht] at hm
    exact ⟨j, .refl j, h.solver, h.joints, sim_thread h hm⟩
  | @lookSegments t k hb ht =>
    have hm := h.threads t
    rw [ht] at hm
    exact ⟨j, .refl j, h.solver, h.joints, sim_thread h hm⟩
  | @readJoints t k hb ht =>
    have hm := h.threads t
    rw [ht] at hm
    refine ⟨j, .refl j, h.solver, h.joints, sim_thread h ?_⟩
    rw [h.joints.now]
    exact hm
  | @readSegments t k hb ht =>
    have hm := h.threads t
    rw [ht] at hm
    refine ⟨j, .refl j, h.solver, h.joints, sim_thread h ?_⟩
    rcases hm with ⟨r, hc, hg⟩ | ⟨a, hc, hf⟩
    · exact .inl ⟨r, hc, hg _ h.joints⟩
    · exact hf.elim
  | @lock t w u k hb ht =>
    have hm := h.threads t
    rw [ht] at hm
    rcases hm with ⟨r, hc, hg⟩ | ⟨a, hc, hf⟩
    · obtain ⟨hj, a, hmay, hfin⟩ := hg _ h.joints
      refine ⟨_, sim_do hc (h.solver ▸ hmay), rfl, hj, sim_update h (.inr ⟨a, rfl, hfin⟩)⟩
    · exact hf.elim
  | @ret t a hb ht =>
    have hm := h.threads t
    rw [ht] at hm
    rcases hm with ⟨r, hc, hg⟩ | ⟨a', hc, hf⟩
    · have h1 := sim_do (j := j) hc (h.solver ▸ hg _ h.joints)
      have h2 := Imagined.Step.ret (i := i) (refusable := ref) (t := t) (a := a)
        (s := ⟨j.solver, Function.update j.callers t (.done a)⟩) (by simp)
      refine ⟨_, h1.trans (.one h2), h.solver, h.joints, ?_⟩
      simp only [Function.update_idem]
      exact sim_update h rfl
    · cases hf
      exact ⟨_, .one (.ret hc), h.solver, h.joints, sim_update h rfl⟩

theorem sim_steps {i : Solvers} (hi : i.Fit) {ref : Req → Prop} {N : ℕ} {s s' : State} {es : List Event}
    (hs : Steps i s es s') (he : ∀ t r, Event.call t r ∈ es → r.Plain ∧ (r.IsTorques → ref r)) {j : Imagined}
    (h : Sim i ref N s j) : ∃ j', Imagined.Steps i ref j es j' ∧ Sim i ref N s' j' := by
  induction hs with
  | refl => exact ⟨j, .refl j, h⟩
  | tail _ hstep ih =>
    obtain ⟨j1, h1, h1'⟩ := ih fun t r hr => he t r (List.mem_append_left _ hr)
    obtain ⟨j2, h2, h2'⟩ := sim_step hi hstep (fun t r hr => he t r (List.mem_append_right _ hr)) h1'
    exact ⟨j2, h1.trans h2, h2'⟩

theorem sim_start {i : Solvers} {ref : Req → Prop} {N : ℕ} {s : DynSolver} (h : Joints N s) :
    Sim i ref N (.start s) (.start s) := ⟨rfl, h, fun _ => rfl⟩

/-! ## Races -/

/-- A call that makes only the changes `A`, and reads the segments without the mutex only if `L`. -/
def Safe (A : Writes → Prop) (L : Prop) : Body → Prop
  | .ret _ => True
  | .joints k => ∀ n, Safe A L (k n)
  | .segments k => L ∧ ∀ ls, Safe A L (k ls)
  | .locked w _ k => A w ∧ ∀ s, Safe A L (k s)

/-- The same for a thread. -/
def SafeThread (A : Writes → Prop) (L : Prop) : Thread → Prop
  | .idle => True
  | .running b | .looking b => Safe A L b

theorem safe_store (A : Writes → Prop) (L : Prop) (a : Answer) : Safe A L (.store a) := by
  rcases a with _ | _ | r <;> simp [Body.store, Safe]

theorem safe_update {A : Writes → Prop} {L : Prop} {th : ℕ → Thread} (h : ∀ u, SafeThread A L (th u)) (t : ℕ)
    {x : Thread} (hx : SafeThread A L x) : ∀ u, SafeThread A L (Function.update th t x u) := by
  intro u
  by_cases hu : u = t
  · subst hu; simpa using hx
  · simpa [Function.update_of_ne hu] using h u

theorem safe_steps {i : Solvers} {A : Writes → Prop} {L : Prop} (h1 : ¬A .all) (h2 : L → ¬A .segments)
    {s s' : State} {es : List Event} (hs : Steps i s es s')
    (he : ∀ t r, Event.call t r ∈ es → Safe A L (body i r))
    (h : ¬s.broken ∧ ∀ t, SafeThread A L (s.threads t)) : ¬s'.broken ∧ ∀ t, SafeThread A L (s'.threads t) := by
  induction hs with
  | refl => exact h
  | tail _ hstep ih =>
    obtain ⟨hb, ht⟩ := ih fun t r hr => he t r (List.mem_append_left _ hr)
    have he := fun t r hr => he t r (List.mem_append_right _ hr)
    cases hstep with
    | @call t r _ _ => exact ⟨hb, safe_update ht t (he t r (by simp))⟩
    | @lookJoints t k _ e =>
      have := ht t
      rw [e] at this
      exact ⟨hb, safe_update ht t this⟩
    | @lookSegments t k _ e =>
      have := ht t
      rw [e] at this
      exact ⟨hb, safe_update ht t this⟩
    | @readJoints t k _ e =>
      have := ht t
      rw [e] at this
      exact ⟨hb, safe_update ht t (this _)⟩
    | @readSegments t k _ e =>
      have := ht t
      rw [e] at this
      exact ⟨hb, safe_update ht t (this.2 _)⟩
    | @lock t w u k _ e =>
      have := ht t
      rw [e] at this
      refine ⟨?_, safe_update ht t (this.2 _)⟩
      rintro ⟨v, -, hv⟩
      have hs := ht v
      revert hv hs
      rcases (_ : State).threads v with _ | b | b
      · exact fun h _ => h
      · exact fun h _ => h
      · cases b with
        | ret => exact fun h _ => h
        | locked => exact fun h _ => h
        | joints k => exact fun h _ => h1 (h ▸ this.1)
        | segments k =>
          intro h hs
          cases w with
          | nothing => exact h rfl
          | segments => exact h2 hs.1 this.1
          | all => exact h1 this.1
    | @ret t a _ _ => exact ⟨hb, safe_update ht t trivial⟩

theorem Steps.more {i : Solvers} {s s' s'' : State} {es e es' : List Event} (h : Steps i s es s')
    (hs : Step i s' e s'') (heq : es ++ e = es') : Steps i s es' s'' := heq ▸ .tail h hs

end Threads

open Threads

/-! ## C101 -/

/-- Whatever threads call the chain solver, with whatever arguments and tools, and however they interleave: without
inverse dynamics, and up to a data race, callers see what they could see of a solver that does each call at once,
between its beginning and its return. -/
theorem C101_kinematics_at_once_partial (i : Solvers) (hi : i.Fit) (N : ℕ) (k : DynSolver) (hk : Ctrl.Joints N k)
    (es : List Event) (s : State) (h : Steps i (.start k) es s)
    (hn : ∀ t r, Event.call t r ∈ es → ¬r.IsTorques) :
    ∃ j, Imagined.Steps i (fun _ => False) (.start k) es j := by
  have hp : ∀ r : Req, ¬r.IsTorques → r.Plain := by
    intro r hr
    cases r <;> first | trivial | exact absurd trivial hr
  obtain ⟨j, hj, -⟩ := sim_steps hi h (ref := fun _ => False)
    (fun t r hr => ⟨hp r (hn t r hr), fun ht => hn t r hr ht⟩) (sim_start hk)
  exact ⟨j, hj⟩

/-- With inverse dynamics too, but for wrenches in the frame of the base: as if done at once, or refused for no
reason. -/
theorem C101_torques_at_once_or_refused_partial (i : Solvers) (hi : i.Fit) (N : ℕ) (k : DynSolver)
    (hk : Ctrl.Joints N k) (es : List Event) (s : State) (h : Steps i (.start k) es s)
    (hn : ∀ t r, Event.call t r ∈ es → r.Plain) :
    ∃ j, Imagined.Steps i Req.IsTorques (.start k) es j := by
  obtain ⟨j, hj, -⟩ := sim_steps hi h (ref := Req.IsTorques) (fun t r hr => ⟨hn t r hr, id⟩) (sim_start hk)
  exact ⟨j, hj⟩

/-- There is no data race as long as tools are only attached and no torques are asked for. -/
theorem C101_no_race_attaching (i : Solvers) (k : DynSolver) (es : List Event) (s : State)
    (h : Steps i (.start k) es s)
    (hn : ∀ t r, Event.call t r ∈ es → r ≠ .restore ∧ ¬r.IsTorques) : ¬s.broken := by
  refine (safe_steps (A := (· ≠ .all)) (L := False) (by simp) (by simp) h (fun t r hr => ?_)
    ⟨id, fun _ => trivial⟩).1
  obtain ⟨h1, h2⟩ := hn t r hr
  cases r <;> first | exact absurd rfl h1 | exact absurd trivial h2 | simp [body, Safe, safe_store]

/-- There is no data race as long as the tool stays as it is. -/
theorem C101_no_race_same_tool (i : Solvers) (k : DynSolver) (es : List Event) (s : State)
    (h : Steps i (.start k) es s)
    (hn : ∀ t r, Event.call t r ∈ es → r ≠ .restore ∧ ∀ x, r ≠ .append x) : ¬s.broken := by
  refine (safe_steps (A := (· = .nothing)) (L := True) (by simp) (by simp) h (fun t r hr => ?_)
    ⟨id, fun _ => trivial⟩).1
  obtain ⟨h1, h2⟩ := hn t r hr
  cases r with
  | restore => exact absurd rfl h1
  | append x => exact absurd rfl (h2 x)
  | fwdKin => simp [body, Safe]
  | invKin => simp [body, Safe, safe_store]
  | diffInvKin => simp [body, Safe, safe_store]
  | invDynStatic q =>
    intro n
    dsimp only [body]
    cases KdlSolver.toRadians n q <;> simp [Safe, safe_store]
  | invDyn q qd qdd w f =>
    intro n
    dsimp only [body]
    split
    · refine ⟨trivial, fun ls => ?_⟩
      cases f with
      | other => trivial
      | base =>
        refine ⟨trivial, fun ls' => ?_⟩
        dsimp only
        split <;> simp [Safe, safe_store]
      | tcp =>
        dsimp only
        split <;> simp [Safe, safe_store]
    · trivial

/-- Whatever the solver: taking the tools off beside forward kinematics may be a data race. -/
theorem C101_restore_races (i : Solvers) (k : DynSolver) (q : List ℝ) :
    ∃ s, Steps i (.start k) [.call 0 (.fwdKin q), .call 1 .restore] s ∧ s.broken := by
  have h1 := Steps.refl (i := i) (.start k)
  have h2 := h1.more (.call (t := 0) (.fwdKin q) id rfl) rfl
  have h3 := h2.more (.lookJoints (t := 0) id rfl) rfl
  have h4 := h3.more (.call (t := 1) .restore id rfl) rfl
  have h5 := h4.more (.lock (t := 1) id rfl) rfl
  exact ⟨_, h5, 0, by decide, rfl⟩

namespace Threads

/-- What is left of inverse dynamics after the joints are read. -/
noncomputable def staticRest (k : DynSolver) (q r : List ℝ) (ls : List Link) : Body :=
  .locked .nothing id fun s => .store (some (rne s.links s.gravity r (List.replicate k.chain.nJoints 0)
    (List.replicate k.chain.nJoints 0) (List.replicate ls.length 0)))

theorem no_races (t : ℕ) (th : ℕ → Thread) : ¬∃ u, u ≠ t ∧ (th u).Races .nothing := by
  rintro ⟨u, -, h⟩
  revert h
  rcases th u with _ | b | b
  · exact id
  · exact id
  · cases b <;> simp [Thread.Races]

theorem static_segments (i : Solvers) (k : DynSolver) (q : List ℝ) {r : List ℝ}
    (hr : KdlSolver.toRadians k.chain.nJoints q = some r) :
    ∃ s, Steps i (.start k) [.call 0 (.invDynStatic q)] s ∧
      s.threads = Function.update (fun _ => .idle) 0 (.running (.segments (staticRest k q r))) ∧ ¬s.broken ∧
      s.solver = k := by
  have h1 := Steps.refl (i := i) (.start k)
  have h2 := h1.more (.call (t := 0) (.invDynStatic q) id rfl) rfl
  have h3 := h2.more (.lookJoints (t := 0) id rfl) rfl
  have h4 := h3.more (.readJoints (t := 0) id rfl) rfl
  refine ⟨_, h4, ?_, id, rfl⟩
  simp [State.start, hr]
  rfl

end Threads

/-- Whatever the solver: attaching a tool beside inverse dynamics may be a data race. -/
theorem C101_attach_races (i : Solvers) (k : DynSolver) (q x : List ℝ) (hq : k.chain.nJoints ≤ q.length) :
    ∃ s, Steps i (.start k) [.call 0 (.invDynStatic q), .call 1 (.append x)] s ∧ s.broken := by
  have hr : KdlSolver.toRadians k.chain.nJoints q = some ((q.take k.chain.nJoints).map (· * deg2rad)) := if_pos hq
  obtain ⟨s, hs, ht, hb, -⟩ := static_segments i k q hr
  have h4 := hs.more (.lookSegments (t := 0) hb (by rw [ht]; rfl)) rfl
  have h5 := h4.more (.call (t := 1) (.append x) hb (by rw [ht]; rfl)) rfl
  have h6 := h5.more (.lock (t := 1) hb rfl) rfl
  exact ⟨_, h6, 0, by decide, by simp [Thread.Races]⟩

/-- Torques asked for while a tool is attached may be refused, without any data race, though the answer is known, and
is the same with the tool and without it. -/
theorem C101_torques_refused (i : Solvers) (k : DynSolver) (q x τ : List ℝ)
    (hq : k.invDynStatic q = some (some τ)) :
    (k.appendLink x).invDynStatic q = some (some τ) ∧
    ∃ s, Steps i (.start k) [.call 0 (.invDynStatic q), .call 1 (.append x), .ret 1 (some (some [])),
      .ret 0 (some none)] s ∧ ¬s.broken := by
  refine ⟨(DynSolver.C74_tool_without_mass k x q).trans hq, ?_⟩
  simp only [DynSolver.invDynStatic, Option.bind_eq_bind, Option.bind_eq_some_iff] at hq
  obtain ⟨r, hr, -⟩ := hq
  obtain ⟨s, hs, ht, hb, hk⟩ := static_segments i k q hr
  have h4 := hs.more (.lookSegments (t := 0) hb (by rw [ht]; rfl)) rfl
  have h5 := h4.more (.readSegments (t := 0) hb rfl) rfl
  have h6 := h5.more (.call (t := 1) (.append x) hb (by rw [ht]; rfl)) rfl
  have h7 := h6.more (.lock (t := 1) hb rfl) rfl
  have hb7 : ¬∃ u, u ≠ 1 ∧ Thread.Races .segments (Function.update (Function.update (Function.update
      s.threads 0 (.looking (.segments (staticRest k q r)))) 0 (.running (staticRest k q r s.solver.links))) 1
      (.running (body i (.append x))) u) := by
    rintro ⟨u, hu, h⟩
    rw [Function.update_of_ne hu] at h
    by_cases h0 : u = 0
    · subst h0
      simp [Thread.Races, staticRest] at h
    · simp [Function.update_of_ne h0, ht, Thread.Races] at h
  have h8 := h7.more (.ret (t := 1) hb7 rfl) rfl
  have h9 := h8.more (.lock (t := 0) hb7 rfl) rfl
  have hn : rne (s.solver.appendLink x).links (s.solver.appendLink x).gravity r (List.replicate k.chain.nJoints 0)
      (List.replicate k.chain.nJoints 0) (List.replicate s.solver.links.length 0) = none :=
    rne_wrenches (by simp [DynSolver.appendLink])
  have h10 := h9.more (.ret (t := 0) (a := some none) (no_races 0 _) (by simp [hn, Body.store])) rfl
  exact ⟨_, h10, no_races 0 _⟩

section TwoTools

open KdlSolver Vec3

/-- A hinge about the y axis, without mass nor gravity. -/
noncomputable def hinge : DynSolver where
  links := [⟨Segment.make ⟨.rotY, 1, 0, 0, 0⟩ 1, Inertia.zero⟩]
  original := [⟨Segment.make ⟨.rotY, 1, 0, 0, 0⟩ 1, Inertia.zero⟩]
  gravity := 0

/-- Half a turn about the z axis. -/
noncomputable def halfTurn : List ℝ := [0, 0, 0, 0, 0, Real.pi]

/-- The pose of that tool. -/
theorem halfTurn_frame : vectorToFrame halfTurn = ⟨⟨-1, 0, 0, 0, -1, 0, 0, 0, 1⟩, 0⟩ := by
  have hn : Vec3.norm ⟨0, 0, Real.pi⟩ = Real.pi := by
    simp [Vec3.norm, Vec3.dot, Real.pi_pos.le]
  have hz : Vec3.normalize ⟨0, 0, Real.pi⟩ = ⟨0, 0, 1⟩ := by
    have : ¬ Real.pi < eps := by unfold eps; linarith [Real.two_le_pi]
    ext <;> simp [Vec3.normalize, hn, Real.pi_ne_zero, this]
  ext <;> simp [halfTurn, vectorToFrame, hn, Mat3.rot, hz, Mat3.rot2]

/-- The torque of the hinge, with a wrench on its tool. -/
theorem hinge_tool (F : Frame) (w : Wrench) : rne [⟨Segment.make ⟨.rotY, 1, 0, 0, 0⟩ 1, Inertia.zero⟩,
    ⟨Segment.make Joint.fixed F, Inertia.zero⟩] 0 [0] [0] [0] [0, w] = some [-(F.mulWrench w).torque.y] := by
  simp [rne, rneLoop, Segment.make, Link.sweep, Link.force, Joint.pose, Inertia.zero, Joint.fixed,
    Segment.pose, Segment.twist, Joint.twist, Twist.rotate, Twist.refPoint, Frame.invTwist, Frame.mulWrench,
    Inertia.mul, Twist.crossTwist, Twist.crossWrench, Twist.power, dot, Mat3.rotY, Mat3.transpose, Frame.inv,
    cross]
  ring

/-- The pose of the tool of the hinge. -/
theorem hinge_fk (F : Frame) :
    Chain.fk [Segment.make ⟨.rotY, 1, 0, 0, 0⟩ 1, Segment.make Joint.fixed F] [0] = some F := by
  have h : Chain.fk [Segment.make ⟨.rotY, 1, 0, 0, 0⟩ 1] [0] = some 1 := by
    simp [Chain.fk, Chain.fkLoop, Segment.make, Segment.pose, Joint.pose]
    ext <;> simp [Frame.inv, Mat3.rotY, Mat3.transpose]
  have := Chain.fk_fixed [Segment.make ⟨.rotY, 1, 0, 0, 0⟩ 1] F [0]
  rw [h] at this
  simpa using this

/-- A moment of one about the y axis of the base. -/
def moment : List ℝ := [0, 0, 0, 0, 1, 0]

/-- What is left of inverse dynamics with a wrench in the frame of the base, once it is turned by `f`. -/
noncomputable def wrenchRest (f : Frame) : Body :=
  .locked .nothing id fun s => .store (some (rne s.links s.gravity [0] [0] [0]
    [0, Wrench.rotate f.M.transpose (vectorToWrench moment)]))

/-- Inverse dynamics of the hinge, in one thread. -/
theorem hinge_right (x : List ℝ) : (hinge.appendLink x).invDyn [0] [0] [0] moment .base = some (some
    [-((vectorToFrame x).mulWrench (Wrench.rotate (vectorToFrame x).M.transpose (vectorToWrench moment))).torque.y]) := by
  have hr : toRadians (hinge.appendLink x).chain.nJoints [0] = some [0] := by
    rw [show (hinge.appendLink x).chain.nJoints = 1 from rfl]
    simp [toRadians]
  have hf : Chain.fk (hinge.appendLink x).chain [0] = some (vectorToFrame x) := hinge_fk _
  have hw : ∀ w, (hinge.appendLink x).wrenches w = some [0, w] := fun w => rfl
  simp only [DynSolver.invDyn, hr, hf, hw, Option.bind_eq_bind, Option.bind_some]
  exact congrArg some (hinge_tool (vectorToFrame x) _)

/-- A tool that moves nothing. -/
theorem no_frame : vectorToFrame [0, 0, 0, 0, 0, 0] = 1 := by
  have hn : Vec3.norm ⟨0, 0, 0⟩ = 0 := by simp [Vec3.norm, Vec3.dot]
  ext <;> simp [vectorToFrame, hn, Mat3.rot, Mat3.rot2]

/-- The hinge asked for its torque, until the wrench is turned. -/
theorem hinge_run (i : Solvers) (x : List ℝ) :
    ∃ s, Steps i (.start (hinge.appendLink x)) [.call 0 (.invDyn [0] [0] [0] moment .base)] s ∧
      s.threads = Function.update (fun _ => .idle) 0 (.running (wrenchRest (vectorToFrame x))) ∧ ¬s.broken ∧
      s.solver = hinge.appendLink x := by
  have hr : toRadians (hinge.appendLink x).chain.nJoints [0] = some [0] := by
    rw [show (hinge.appendLink x).chain.nJoints = 1 from rfl]
    simp [toRadians]
  have h1 := Steps.refl (i := i) (.start (hinge.appendLink x))
  have h2 := h1.more (.call (t := 0) (.invDyn [0] [0] [0] moment .base) id rfl) rfl
  have h3 := h2.more (.lookJoints (t := 0) id rfl) rfl
  have h4 := h3.more (.readJoints (t := 0) id rfl) rfl
  simp only [State.start, hr, Function.update_idem] at h4
  have h5 := h4.more (.lookSegments (t := 0) id rfl) rfl
  have h6 := h5.more (.readSegments (t := 0) id rfl) rfl
  have h7 := h6.more (.lookSegments (t := 0) id rfl) rfl
  have h8 := h7.more (.readSegments (t := 0) id rfl) rfl
  refine ⟨_, h8, ?_, id, rfl⟩
  have hf : Chain.fk ((hinge.appendLink x).links.map (·.seg)) [0] = some (vectorToFrame x) := hinge_fk _
  simp only [Function.update_idem, hf]
  rfl

/-- Not even without a data race: with a moment of one about an axis of the base on a hinge about that axis, the
torque is minus one without a tool, and minus one with a tool that turns by half a turn. If a thread changes the tool
while another one asks for that torque, after it has turned the wrench into the axes of the first tool and before the
rest is computed with the second one, the torque returned is plus one. -/
theorem C101_wrench_of_two_tools (i : Solvers) :
    let no : List ℝ := [0, 0, 0, 0, 0, 0]
    (hinge.appendLink no).invDyn [0] [0] [0] moment .base = some (some [-1]) ∧
    (hinge.appendLink halfTurn).invDyn [0] [0] [0] moment .base = some (some [-1]) ∧
    ∃ s, Steps i (.start (hinge.appendLink no)) [.call 0 (.invDyn [0] [0] [0] moment .base),
      .call 1 .restore, .ret 1 (some (some [])), .call 1 (.append halfTurn), .ret 1 (some (some [])),
      .ret 0 (some (some [1]))] s ∧ ¬s.broken := by
  intro no
  refine ⟨?_, ?_, ?_⟩
  · rw [hinge_right, no_frame]
    simp [Frame.mulWrench, Wrench.rotate, moment, vectorToWrench]
  · rw [hinge_right, halfTurn_frame]
    simp [Frame.mulWrench, Wrench.rotate, moment, vectorToWrench]
  · obtain ⟨s, hs, ht, hb, hk⟩ := hinge_run i no
    have quiet : ∀ w u, u ≠ 1 → ¬(s.threads u).Races w := by
      intro w u hu
      rw [ht]
      by_cases h0 : u = 0
      · subst h0; simp [Thread.Races, wrenchRest]
      · simp [Function.update_of_ne h0, Thread.Races]
    have h1 := hs.more (.call (t := 1) .restore hb (by rw [ht]; rfl)) rfl
    have h2 := h1.more (.lock (t := 1) hb rfl) rfl
    have h3 := h2.more (.ret (t := 1) (by
      rintro ⟨u, hu, h⟩
      simp only [Function.update_of_ne hu] at h
      exact quiet _ u hu h) rfl) rfl
    have h4 := h3.more (.call (t := 1) (.append halfTurn) (by
      rintro ⟨u, hu, h⟩
      simp only [Function.update_of_ne hu] at h
      exact quiet _ u hu h) rfl) rfl
    have h5 := h4.more (.lock (t := 1) (by
      rintro ⟨u, hu, h⟩
      simp only [Function.update_of_ne hu] at h
      exact quiet _ u hu h) rfl) rfl
    have h6 := h5.more (.ret (t := 1) (by
      rintro ⟨u, hu, h⟩
      simp only [Function.update_of_ne hu] at h
      exact quiet _ u hu h) rfl) rfl
    have hn : rne ((hinge.appendLink no).restore.appendLink halfTurn).links
        ((hinge.appendLink no).restore.appendLink halfTurn).gravity [0] [0] [0]
        [0, Wrench.rotate (vectorToFrame no).M.transpose (vectorToWrench moment)] = some [1] := by
      refine (hinge_tool (vectorToFrame halfTurn) _).trans ?_
      rw [no_frame, halfTurn_frame]
      simp [Frame.mulWrench, Wrench.rotate, moment, vectorToWrench]
    have h7 := h6.more (.lock (t := 0) (w := .nothing) (update := id) (k := fun s => .store (some (rne s.links
        s.gravity [0] [0] [0] [0, Wrench.rotate (vectorToFrame no).M.transpose (vectorToWrench moment)]))) (by
      rintro ⟨u, hu, h⟩
      simp only [Function.update_of_ne hu] at h
      exact quiet _ u hu h) (by simp [ht, wrenchRest])) rfl
    simp only [hk, id, hn] at h7
    have h8 := h7.more (.lookJoints (t := 0) (no_races 0 _) rfl) rfl
    have h9 := h8.more (.readJoints (t := 0) (no_races 0 _) rfl) rfl
    have h10 := h9.more (.ret (t := 0) (a := some (some [1])) (no_races 0 _) (by
      dsimp only
      rw [Function.update_self, show ((hinge.appendLink no).restore.appendLink halfTurn).chain.nJoints = 1 from rfl]
      simp)) rfl
    exact ⟨_, h10, no_races 0 _⟩

end TwoTools

/-- Inverse solvers that fit, and a solver with one joint. -/
example : (⟨fun c _ _ => (0, List.replicate c.nJoints 0), fun c _ _ => (0, List.replicate c.nJoints 0)⟩ : Solvers).Fit ∧
    Ctrl.Joints 1 DynSolver.pendulum :=
  ⟨⟨fun _ _ _ => by simp, fun _ _ _ => by simp⟩, rfl, rfl, by simp [DynSolver.pendulum], by simp [DynSolver.pendulum]⟩

/-- A run of two threads without torques: a tool is attached between the two steps of forward kinematics, which see
it. -/
example (i : Solvers) (q x : List ℝ) : ∃ s, Steps i (.start DynSolver.pendulum)
    [.call 0 (.fwdKin q), .call 1 (.append x), .ret 1 (some (some [])),
      .ret 0 (((kin (DynSolver.pendulum.appendLink x)).fwdKin q).map some)] s ∧
    s.solver = DynSolver.pendulum.appendLink x := by
  have h1 := Steps.refl (i := i) (.start DynSolver.pendulum)
  have h2 := h1.more (.call (t := 0) (.fwdKin q) id rfl) rfl
  have h3 := h2.more (.lookJoints (t := 0) id rfl) rfl
  have h4 := h3.more (.readJoints (t := 0) id rfl) rfl
  have h5 := h4.more (.call (t := 1) (.append x) id rfl) rfl
  have h6 := h5.more (.lock (t := 1) id rfl) rfl
  have hb : ¬∃ u, u ≠ 1 ∧ Thread.Races .segments (Function.update (Function.update (Function.update (Function.update
      (fun _ => Thread.idle) 0 (.running (body i (.fwdKin q)))) 0 (.looking (body i (.fwdKin q)))) 0
      (.running (.locked .nothing id fun s => .ret (fwdKinWith DynSolver.pendulum.chain.nJoints s.chain q)))) 1
      (.running (body i (.append x))) u) := by
    rintro ⟨u, hu, h⟩
    rw [Function.update_of_ne hu] at h
    by_cases h0 : u = 0
    · subst h0
      simp [Thread.Races] at h
    · simp [Function.update_of_ne h0, Thread.Races] at h
  have h7 := h6.more (.ret (t := 1) hb rfl) rfl
  have h8 := h7.more (.lock (t := 0) hb rfl) rfl
  have h9 := h8.more (.ret (t := 0) (no_races 0 _) rfl) rfl
  have e : ((kin (DynSolver.pendulum.appendLink x)).fwdKin q).map some =
      fwdKinWith DynSolver.pendulum.chain.nJoints (DynSolver.pendulum.appendLink x).chain q := by
    simp only [KdlSolver.fwdKin, fwdKinWith, kin, KdlSolver.numJoints]
    rw [show (DynSolver.pendulum.appendLink x).chain.nJoints = DynSolver.pendulum.chain.nJoints from rfl]
    cases KdlSolver.toRadians DynSolver.pendulum.chain.nJoints q with
    | none => rfl
    | some g =>
      simp only [Option.bind_eq_bind, Option.bind_some]
      cases Chain.fk (DynSolver.pendulum.appendLink x).chain g <;> rfl
  rw [e]
  exact ⟨_, h9, rfl⟩

end KD
