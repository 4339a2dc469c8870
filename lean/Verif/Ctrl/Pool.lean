import Verif.Ctrl.Threads

/-!
# The control loop, a stream of commands and several clients

Requests of clients are answered by one thread per connection, streamed commands are read by one more thread, and the
control loop runs in its own. Each step is one read, one write or one call to a device (as in `Verif.Ctrl.Threads`), and
the steps of all threads interleave freely.
-/

namespace KD.Ctrl

open Prog (Step Writes Run)

/-- The threads: the one that answers a request to stop, those of other requests, the one that reads the stream of
commands, and the control loop. -/
inductive Party
  | stopper
  | other (i : ℕ)
  | stream
  | loop
  deriving DecidableEq

/-- The object and what is left of what each thread does.
/repo/libraries/YarpPlugins/BasicCartesianControl/BasicCartesianControl.hpp:91-225,
/repo/libraries/YarpPlugins/CartesianControlServer/CartesianControlServer.hpp:76-118 and 148-164 (responders). -/
structure Pool where
  ctl : Ctl
  stopper : P Bool
  others : ℕ → P (Option Bool)
  stream : P Unit
  loop : P Unit

/-- What a streamed message orders, /repo/libraries/YarpPlugins/CartesianControlServer/StreamResponder.cpp:15-41. Messages
that order nothing are left out. -/
inductive Streamed (cfg : Cfg) : P Unit → Prop
  | pose (x) : Streamed cfg (pose cfg x)
  | twist (x) : Streamed cfg (twist cfg x)
  | wrench (w) : Streamed cfg (wrench cfg w)

/-- One step of some thread. Other clients only ask for what `A` allows. A connection takes its next request after the
previous one was answered; the stream is read message by message (`onRead`,
/repo/libraries/YarpPlugins/CartesianControlServer/StreamResponder.cpp:15), and the loop runs again and again
(/repo/libraries/YarpPlugins/BasicCartesianControl/PeriodicThreadImpl.cpp:18). -/
inductive Pool.Step (cfg : Cfg) (A : Op → Prop) : Pool → Option (Party × Ev) → Pool → Prop
  | stopper {s u l s' u' os sp lp} : Prog.Step (robot cfg) u s l u' s' →
      Pool.Step cfg A ⟨s, u, os, sp, lp⟩ (l.map fun e => (Party.stopper, e)) ⟨s', u', os, sp, lp⟩
  | other {s u os i l s' p' sp lp} : Prog.Step (robot cfg) (os i) s l p' s' →
      Pool.Step cfg A ⟨s, u, os, sp, lp⟩ (l.map fun e => (Party.other i, e)) ⟨s', u, Function.update os i p', sp, lp⟩
  | ask {s u os i b op sp lp} : os i = .pure b → A op →
      Pool.Step cfg A ⟨s, u, os, sp, lp⟩ none ⟨s, u, Function.update os i (Op.prog cfg op), sp, lp⟩
  | stream {s u os l s' sp sp' lp} : Prog.Step (robot cfg) sp s l sp' s' →
      Pool.Step cfg A ⟨s, u, os, sp, lp⟩ (l.map fun e => (Party.stream, e)) ⟨s', u, os, sp', lp⟩
  | message {s u os p lp} : Streamed cfg p → Pool.Step cfg A ⟨s, u, os, .pure (), lp⟩ none ⟨s, u, os, p, lp⟩
  | loop {s u os sp l s' lp lp'} : LoopStep cfg s lp l s' lp' →
      Pool.Step cfg A ⟨s, u, os, sp, lp⟩ (l.map fun e => (Party.loop, e)) ⟨s', u, os, sp, lp'⟩

/-- Executions of all threads, with the calls each of them made. -/
inductive Pool.Steps (cfg : Cfg) (A : Op → Prop) : Pool → List (Party × Ev) → Pool → Prop
  | refl (x) : Pool.Steps cfg A x [] x
  | step {x l y es z} : Pool.Step cfg A x l y → Pool.Steps cfg A y es z → Pool.Steps cfg A x (l.toList ++ es) z

theorem Pool.Steps.trans {cfg : Cfg} {A : Op → Prop} {x y z : Pool} {a b : List (Party × Ev)}
    (h1 : Pool.Steps cfg A x a y) (h2 : Pool.Steps cfg A y b z) : Pool.Steps cfg A x (a ++ b) z := by
  induction h1 with
  | refl => exact h2
  | step h _ ih => rw [List.append_assoc]; exact .step h (ih h2)

/-! ## Executions from runs -/

theorem stopper_steps {cfg : Cfg} {A : Op → Prop} {p : P Bool} {s s' : Ctl} {tr : List Ev} {o : Out Bool}
    (h : Run (robot cfg) p s tr o s') : ∀ a, o = .ok a → ∀ os sp lp,
      Pool.Steps cfg A ⟨s, p, os, sp, lp⟩ (tr.map fun e => (Party.stopper, e)) ⟨s', .pure a, os, sp, lp⟩ := by
  induction h with
  | pure a s => rintro _ ⟨⟩ _ _ _; exact .refl _
  | ub s => rintro _ ⟨⟩
  | get _ ih => intro a ha _ _ _; exact .step (l := none) (.stopper (.get _ _)) (ih a ha _ _ _)
  | set _ ih => intro a ha _ _ _; exact .step (l := none) (.stopper (.set _ _ _)) (ih a ha _ _ _)
  | call hr _ ih =>
    intro a ha _ _ _
    exact .step (l := some _) (.stopper (l := some _) (.call _ _ _ _ hr)) (ih a ha _ _ _)

theorem stream_steps {cfg : Cfg} {A : Op → Prop} {p : P Unit} {s s' : Ctl} {tr : List Ev} {o : Out Unit}
    (h : Run (robot cfg) p s tr o s') : ∀ a, o = .ok a → ∀ u os lp,
      Pool.Steps cfg A ⟨s, u, os, p, lp⟩ (tr.map fun e => (Party.stream, e)) ⟨s', u, os, .pure a, lp⟩ := by
  induction h with
  | pure a s => rintro _ ⟨⟩ _ _ _; exact .refl _
  | ub s => rintro _ ⟨⟩
  | get _ ih => intro a ha _ _ _; exact .step (l := none) (.stream (.get _ _)) (ih a ha _ _ _)
  | set _ ih => intro a ha _ _ _; exact .step (l := none) (.stream (.set _ _ _)) (ih a ha _ _ _)
  | call hr _ ih =>
    intro a ha _ _ _
    exact .step (l := some _) (.stream (l := some _) (.call _ _ _ _ hr)) (ih a ha _ _ _)

theorem other_one {cfg : Cfg} {A : Op → Prop} {p p' : P (Option Bool)} {s s' : Ctl} {l : Option Ev} {i : ℕ}
    {os : ℕ → P (Option Bool)} (hi : os i = p) (hs : Step (robot cfg) p s l p' s') (u : P Bool) (sp lp : P Unit) :
    Pool.Step cfg A ⟨s, u, os, sp, lp⟩ (l.map fun e => (Party.other i, e))
      ⟨s', u, Function.update os i p', sp, lp⟩ := by
  subst hi
  exact .other hs

theorem other_steps {cfg : Cfg} {A : Op → Prop} {p : P (Option Bool)} {s s' : Ctl} {tr : List Ev}
    {o : Out (Option Bool)} (h : Run (robot cfg) p s tr o s') : ∀ a, o = .ok a → ∀ i u os sp lp, os i = p →
      ∃ os', Pool.Steps cfg A ⟨s, u, os, sp, lp⟩ (tr.map fun e => (Party.other i, e)) ⟨s', u, os', sp, lp⟩ ∧
        os' i = .pure a ∧ ∀ j, j ≠ i → os' j = os j := by
  induction h with
  | pure a s => rintro _ ⟨⟩ i _ os _ _ hi; exact ⟨os, .refl _, hi, fun _ _ => rfl⟩
  | ub s => rintro _ ⟨⟩
  | @get k s _ _ _ _ ih =>
    intro a ha i u os sp lp hi
    obtain ⟨os', h1, h2, h3⟩ := ih a ha i u (Function.update os i (k s)) sp lp (Function.update_self ..)
    refine ⟨os', .step (l := none) (other_one hi (.get _ _) u sp lp) h1, h2, fun j hj => ?_⟩
    rw [h3 j hj, Function.update_of_ne hj]
  | @set f k s _ _ _ _ ih =>
    intro a ha i u os sp lp hi
    obtain ⟨os', h1, h2, h3⟩ := ih a ha i u (Function.update os i k) sp lp (Function.update_self ..)
    refine ⟨os', .step (l := none) (other_one hi (.set _ _ _) u sp lp) h1, h2, fun j hj => ?_⟩
    rw [h3 j hj, Function.update_of_ne hj]
  | @call c k s _ _ _ r hr _ ih =>
    intro a ha i u os sp lp hi
    obtain ⟨os', h1, h2, h3⟩ := ih a ha i u (Function.update os i (k r)) sp lp (Function.update_self ..)
    refine ⟨os', .step (l := some _) (other_one (l := some _) hi (.call _ _ _ _ hr) u sp lp) h1, h2, fun j hj => ?_⟩
    rw [h3 j hj, Function.update_of_ne hj]

end KD.Ctrl
