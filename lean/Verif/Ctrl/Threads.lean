import Verif.Ctrl.Ghost

/-!
# The control loop beside a user

The thread of a user and the one of the control loop share the object. Each step is one read, one write
or one call to a device, and the steps of both threads interleave freely. (In the code the fields other
than the state and `cmcSuccess` are accessed without synchronisation; the model takes these accesses as
atomic, the data races of the code are outside of it.)
-/

namespace KD.Ctrl

open Prog (Step Writes Run)

/-- The two threads: the caller of /repo/libraries/YarpPlugins/BasicCartesianControl/ICartesianControlImpl.cpp:37-704
and the loop of /repo/libraries/YarpPlugins/BasicCartesianControl/PeriodicThreadImpl.cpp:18-80. -/
inductive Who
  | user
  | loop

/-- The object, what is left of the user's command and what is left of the cycle.
The object of /repo/libraries/YarpPlugins/BasicCartesianControl/BasicCartesianControl.hpp:91-225 and the thread of /repo/libraries/YarpPlugins/BasicCartesianControl/PeriodicThreadImpl.cpp:15-80. -/
structure Sys (α : Type) where
  ctl : Ctl
  user : P α
  loop : P Unit

/-- One step of the control loop: of the cycle in progress, or a new cycle
(`yarp::os::PeriodicThread` calls `run`, /repo/libraries/YarpPlugins/BasicCartesianControl/PeriodicThreadImpl.cpp:18,
again and again). -/
inductive LoopStep (cfg : Cfg) : Ctl → P Unit → Option Ev → Ctl → P Unit → Prop
  | step {s lp l s' lp'} : Step (robot cfg) lp s l lp' s' → LoopStep cfg s lp l s' lp'
  | again (s) : LoopStep cfg s (.pure ()) none s (run cfg)

/-- Steps of the loop alone. -/
inductive LoopSteps (cfg : Cfg) : Ctl → P Unit → List Ev → Ctl → P Unit → Prop
  | refl (s lp) : LoopSteps cfg s lp [] s lp
  | step {s lp l s1 lp1 es s' lp'} : LoopStep cfg s lp l s1 lp1 → LoopSteps cfg s1 lp1 es s' lp' →
      LoopSteps cfg s lp (l.toList ++ es) s' lp'

/-- One step of either thread. -/
inductive Sys.Step {α : Type} (cfg : Cfg) : Sys α → Option (Who × Ev) → Sys α → Prop
  | user {s u l s' u' lp} : Prog.Step (robot cfg) u s l u' s' →
      Sys.Step cfg ⟨s, u, lp⟩ (l.map fun e => (Who.user, e)) ⟨s', u', lp⟩
  | loop {s u l s' lp lp'} : LoopStep cfg s lp l s' lp' →
      Sys.Step cfg ⟨s, u, lp⟩ (l.map fun e => (Who.loop, e)) ⟨s', u, lp'⟩

/-- Executions of both threads, with the calls each of them made. -/
inductive Sys.Steps {α : Type} (cfg : Cfg) : Sys α → List (Who × Ev) → Sys α → Prop
  | refl (x) : Sys.Steps cfg x [] x
  | step {x l y es z} : Sys.Step cfg x l y → Sys.Steps cfg y es z → Sys.Steps cfg x (l.toList ++ es) z

theorem Sys.Steps.trans {α : Type} {cfg : Cfg} {x y z : Sys α} {a b : List (Who × Ev)}
    (h1 : Sys.Steps cfg x a y) (h2 : Sys.Steps cfg y b z) : Sys.Steps cfg x (a ++ b) z := by
  induction h1 with
  | refl => exact h2
  | step h _ ih => rw [List.append_assoc]; exact .step h (ih h2)

/-- Calls of the loop. -/
def byLoop (es : List Ev) : List (Who × Ev) := es.map fun e => (Who.loop, e)

/-- Every execution from here in which the user's command ends, ends as `Q` says; `tr` is what happened
before. -/
def wps (cfg : Cfg) {α : Type} : P α → (α → Ctl → P Unit → List (Who × Ev) → Prop) →
    Ctl → P Unit → List (Who × Ev) → Prop
  | .pure a, Q, s, lp, tr => ∀ es s1 lp1, LoopSteps cfg s lp es s1 lp1 → Q a s1 lp1 (tr ++ byLoop es)
  | .ub, _, _, _, _ => True
  | .get k, Q, s, lp, tr => ∀ es s1 lp1, LoopSteps cfg s lp es s1 lp1 →
      wps cfg (k s1) Q s1 lp1 (tr ++ byLoop es)
  | .set f k, Q, s, lp, tr => ∀ es s1 lp1, LoopSteps cfg s lp es s1 lp1 →
      wps cfg k Q (f s1) lp1 (tr ++ byLoop es)
  | .call c k, Q, s, lp, tr => ∀ es s1 lp1, LoopSteps cfg s lp es s1 lp1 → ∀ r, (robot cfg).wf c r →
      wps cfg (k r) Q s1 lp1 (tr ++ byLoop es ++ [(Who.user, (robot cfg).ev c r)])

section

variable {cfg : Cfg} {α β : Type} {Q : α → Ctl → P Unit → List (Who × Ev) → Prop}

theorem byLoop_step (l : Option Ev) (tr : List (Who × Ev)) (es : List Ev) :
    tr ++ byLoop (l.toList ++ es) = tr ++ (l.map fun e => (Who.loop, e)).toList ++ byLoop es := by
  cases l <;> simp [byLoop]

theorem wps_loop {p : P α} {s s1 : Ctl} {lp lp1 : P Unit} {l : Option Ev} {tr : List (Who × Ev)}
    (h : wps cfg p Q s lp tr) (hs : LoopStep cfg s lp l s1 lp1) :
    wps cfg p Q s1 lp1 (tr ++ (l.map fun e => (Who.loop, e)).toList) := by
  cases p with
  | pure a =>
    intro es s2 lp2 h2
    have := h _ _ _ (.step hs h2)
    rwa [byLoop_step] at this
  | ub => trivial
  | get k =>
    intro es s2 lp2 h2
    have := h _ _ _ (.step hs h2)
    rwa [byLoop_step] at this
  | set f k =>
    intro es s2 lp2 h2
    have := h _ _ _ (.step hs h2)
    rwa [byLoop_step] at this
  | call c k =>
    intro es s2 lp2 h2 r hr
    have := h _ _ _ (.step hs h2) r hr
    rwa [byLoop_step] at this

theorem wps_user {p p1 : P α} {s s1 : Ctl} {lp : P Unit} {l : Option Ev} {tr : List (Who × Ev)}
    (h : wps cfg p Q s lp tr) (hs : Step (robot cfg) p s l p1 s1) :
    wps cfg p1 Q s1 lp (tr ++ (l.map fun e => (Who.user, e)).toList) := by
  cases hs with
  | get k s => simpa [byLoop] using h _ _ _ (.refl _ _)
  | set f k s => simpa [byLoop] using h _ _ _ (.refl _ _)
  | call c k s r hr => simpa [byLoop] using h _ _ _ (.refl _ _) r hr

/-- What holds of all executions by `wps` holds of each execution. -/
theorem wps_steps {x y : Sys α} {tr : List (Who × Ev)} (h : Sys.Steps cfg x tr y) :
    ∀ {tr0}, wps cfg x.user Q x.ctl x.loop tr0 → wps cfg y.user Q y.ctl y.loop (tr0 ++ tr) := by
  induction h with
  | refl => intro tr0 hw; simpa using hw
  | step hs _ ih =>
    intro tr0 hw
    rw [← List.append_assoc]
    apply ih
    cases hs with
    | user hs => exact wps_user hw hs
    | loop hs => exact wps_loop hw hs

theorem wps_sound {a : α} {p : P α} {s s' : Ctl} {lp lp' : P Unit} {tr : List (Who × Ev)}
    (hw : wps cfg p Q s lp []) (h : Sys.Steps cfg ⟨s, p, lp⟩ tr ⟨s', .pure a, lp'⟩) : Q a s' lp' tr := by
  have := wps_steps h hw
  simpa [byLoop] using this _ _ _ (.refl _ _)

theorem wps_mono {Q' : α → Ctl → P Unit → List (Who × Ev) → Prop} {p : P α} {s : Ctl} {lp : P Unit}
    {tr : List (Who × Ev)} (hQ : ∀ a s lp tr, Q a s lp tr → Q' a s lp tr) (h : wps cfg p Q s lp tr) :
    wps cfg p Q' s lp tr := by
  induction p generalizing s lp tr with
  | pure b => exact fun es s1 lp1 h1 => hQ _ _ _ _ (h es s1 lp1 h1)
  | ub => trivial
  | get k' ih => exact fun es s1 lp1 h1 => ih _ (h es s1 lp1 h1)
  | set f k' ih => exact fun es s1 lp1 h1 => ih (h es s1 lp1 h1)
  | call c k' ih => exact fun es s1 lp1 h1 r hr => ih _ (h es s1 lp1 h1 r hr)

theorem wps_bind {p : P β} {k : β → P α} {s : Ctl} {lp : P Unit} {tr : List (Who × Ev)}
    (h : wps cfg p (fun b s1 lp1 tr1 => wps cfg (k b) Q s1 lp1 tr1) s lp tr) :
    wps cfg (Prog.bind p k) Q s lp tr := by
  induction p generalizing s lp tr with
  | pure b => simpa [byLoop] using h _ _ _ (.refl _ _)
  | ub => trivial
  | get k' ih => exact fun es s1 lp1 h1 => ih _ (h es s1 lp1 h1)
  | set f k' ih => exact fun es s1 lp1 h1 => ih (h es s1 lp1 h1)
  | call c k' ih => exact fun es s1 lp1 h1 r hr => ih _ (h es s1 lp1 h1 r hr)

/-- Whatever the program does, when nothing of it matters. -/
theorem wps_any {p : P α} {s : Ctl} {lp : P Unit} {tr : List (Who × Ev)}
    (h : ∀ a s lp es, Q a s lp (tr ++ es)) : wps cfg p Q s lp tr := by
  induction p generalizing s lp tr with
  | pure b => exact fun es s1 lp1 _ => h _ _ _ _
  | ub => trivial
  | get k' ih => exact fun es s1 lp1 _ => ih _ fun a s lp es' => by rw [List.append_assoc]; exact h _ _ _ _
  | set f k' ih => exact fun es s1 lp1 _ => ih fun a s lp es' => by rw [List.append_assoc]; exact h _ _ _ _
  | call c k' ih =>
    exact fun es s1 lp1 _ r _ => ih _ fun a s lp es' => by
      rw [List.append_assoc, List.append_assoc]; exact h _ _ _ _

/-- Kept by every step of the loop. -/
def Stable (cfg : Cfg) (J : Ctl → P Unit → List (Who × Ev) → Prop) : Prop :=
  ∀ s lp tr l s1 lp1, J s lp tr → LoopStep cfg s lp l s1 lp1 → J s1 lp1 (tr ++ byLoop l.toList)

variable {J : Ctl → P Unit → List (Who × Ev) → Prop}

theorem Stable.steps (hJ : Stable cfg J) {s s' : Ctl} {lp lp' : P Unit} {es : List Ev}
    (h : LoopSteps cfg s lp es s' lp') : ∀ {tr}, J s lp tr → J s' lp' (tr ++ byLoop es) := by
  induction h with
  | refl => intro tr h0; simpa [byLoop] using h0
  | step hs _ ih =>
    intro tr h0
    have := ih (hJ _ _ _ _ _ _ h0 hs)
    simpa [byLoop] using this

theorem wps_pure (hJ : Stable cfg J) {a : α} {s : Ctl} {lp : P Unit} {tr : List (Who × Ev)}
    (h0 : J s lp tr) (h : ∀ s lp tr, J s lp tr → Q a s lp tr) : wps cfg (.pure a) Q s lp tr :=
  fun _ _ _ hs => h _ _ _ (hJ.steps hs h0)

theorem wps_get (hJ : Stable cfg J) {k : Ctl → P α} {s : Ctl} {lp : P Unit} {tr : List (Who × Ev)}
    (h0 : J s lp tr) (h : ∀ s lp tr, J s lp tr → wps cfg (k s) Q s lp tr) :
    wps cfg (.get k) Q s lp tr :=
  fun _ _ _ hs => h _ _ _ (hJ.steps hs h0)

theorem wps_set (hJ : Stable cfg J) {f : Ctl → Ctl} {k : P α} {s : Ctl} {lp : P Unit}
    {tr : List (Who × Ev)} (h0 : J s lp tr) (h : ∀ s lp tr, J s lp tr → wps cfg k Q (f s) lp tr) :
    wps cfg (.set f k) Q s lp tr :=
  fun _ _ _ hs => h _ _ _ (hJ.steps hs h0)

theorem wps_call (hJ : Stable cfg J) {c : Call} {k : c.Resp → P α} {s : Ctl} {lp : P Unit}
    {tr : List (Who × Ev)} (h0 : J s lp tr)
    (h : ∀ s lp tr r, J s lp tr → wps cfg (k r) Q s lp (tr ++ [(Who.user, record c r)])) :
    wps cfg (.call c k) Q s lp tr :=
  fun _ _ _ hs _ _ => h _ _ _ _ (hJ.steps hs h0)

/-- A program keeps what the loop and its own writes and calls keep. -/
theorem wps_keeps (hJ : Stable cfg J) {W : (Ctl → Ctl) → Prop}
    (hW : ∀ f, W f → ∀ s lp tr, J s lp tr → J (f s) lp tr)
    (hC : ∀ e s lp tr, J s lp tr → J s lp (tr ++ [(Who.user, e)]))
    {p : P α} (hp : Writes W p) {s : Ctl} {lp : P Unit} {tr : List (Who × Ev)} (h0 : J s lp tr)
    (h : ∀ a s lp tr, J s lp tr → Q a s lp tr) : wps cfg p Q s lp tr := by
  induction p generalizing s lp tr with
  | pure a => exact wps_pure hJ h0 (h a)
  | ub => trivial
  | get k ih => exact wps_get hJ h0 fun s lp tr hj => ih s (hp s) hj
  | set f k ih => exact wps_set hJ h0 fun s lp tr hj => ih hp.2 (hW f hp.1 s lp tr hj)
  | call c k ih => exact wps_call hJ h0 fun s lp tr r hj => ih r (hp r) (hC _ _ _ _ hj)

end

/-! ## Executions from runs -/

theorem user_steps {cfg : Cfg} {α : Type} {p : P α} {s s' : Ctl} {tr : List Ev} {o : Out α}
    (h : Run (robot cfg) p s tr o s') : ∀ a, o = .ok a → ∀ lp,
      Sys.Steps cfg ⟨s, p, lp⟩ (tr.map fun e => (Who.user, e)) ⟨s', .pure a, lp⟩ := by
  induction h with
  | pure a s => rintro _ ⟨⟩ lp; exact .refl _
  | ub s => rintro _ ⟨⟩
  | get _ ih => intro a ha lp; exact .step (l := none) (.user (.get _ _)) (ih a ha lp)
  | set _ ih => intro a ha lp; exact .step (l := none) (.user (.set _ _ _)) (ih a ha lp)
  | call hr _ ih =>
    intro a ha lp
    exact .step (l := some _) (.user (l := some _) (.call _ _ _ _ hr)) (ih a ha lp)

theorem loop_steps {cfg : Cfg} {α : Type} {u : P α} {p : P Unit} {s s' : Ctl} {tr : List Ev} {o : Out Unit}
    (h : Run (robot cfg) p s tr o s') : o = .ok () →
      Sys.Steps cfg ⟨s, u, p⟩ (byLoop tr) ⟨s', u, .pure ()⟩ := by
  induction h with
  | pure a s => intro _; exact .refl _
  | ub s => rintro ⟨⟩
  | get _ ih => intro ha; exact .step (l := none) (.loop (.step (.get _ _))) (ih ha)
  | set _ ih => intro ha; exact .step (l := none) (.loop (.step (.set _ _ _))) (ih ha)
  | call hr _ ih =>
    intro ha
    exact .step (l := some _) (.loop (l := some _) (.step (.call _ _ _ _ hr))) (ih ha)

/-- A run can be left just before any of its calls. -/
theorem loop_prefix {cfg : Cfg} {α : Type} {u : P α} {p : P Unit} {s s' : Ctl} {tr : List Ev} {o : Out Unit}
    (h : Run (robot cfg) p s tr o s') : ∀ pre e post, tr = pre ++ e :: post →
      ∃ s1 lp1 lp2, Sys.Steps cfg ⟨s, u, p⟩ (byLoop pre) ⟨s1, u, lp1⟩ ∧
        ∀ s2, Step (robot cfg) lp1 s2 (some e) lp2 s2 := by
  induction h with
  | pure a s => intro pre e post h; simp at h
  | ub s => intro pre e post h; simp at h
  | get _ ih =>
    intro pre e post h
    obtain ⟨s1, lp1, lp2, h1, h2⟩ := ih pre e post h
    exact ⟨s1, lp1, lp2, .step (l := none) (.loop (.step (.get _ _))) h1, h2⟩
  | set _ ih =>
    intro pre e post h
    obtain ⟨s1, lp1, lp2, h1, h2⟩ := ih pre e post h
    exact ⟨s1, lp1, lp2, .step (l := none) (.loop (.step (.set _ _ _))) h1, h2⟩
  | call hr _ ih =>
    intro pre e post h
    cases pre with
    | nil =>
      simp only [List.nil_append, List.cons.injEq] at h
      obtain ⟨rfl, -⟩ := h
      exact ⟨_, _, _, .refl _, fun s2 => .call _ _ _ _ hr⟩
    | cons x pre =>
      simp only [List.cons_append, List.cons.injEq] at h
      obtain ⟨rfl, h⟩ := h
      obtain ⟨s1, lp1, lp2, h1, h2⟩ := ih pre e post h
      exact ⟨s1, lp1, lp2, .step (l := some _) (.loop (l := some _) (.step (.call _ _ _ _ hr))) h1, h2⟩

/-! ## What the loop does in a step, by phases -/

theorem Ghost.step {σ : Type} {T : Ghost σ} {α : Type} {Q : α → σ → Prop} {cfg : Cfg} {p p' : P α}
    {s s' : Ctl} {l : Option Ev} {g : σ} (h : T.wpi p Q g) (hi : T.inv g s)
    (hs : Step (robot cfg) p s l p' s') :
    (l = none ∧ s' = s ∧ T.wpi p' Q g) ∨
    (∃ f g', l = none ∧ s' = f s ∧ T.write g f g' ∧ T.wpi p' Q g') ∨
    (∃ e, l = some e ∧ s' = s ∧ T.ok g e ∧ T.wpi p' Q (T.next g e)) := by
  cases hs with
  | get k s => exact Or.inl ⟨rfl, rfl, h s hi⟩
  | set f k s =>
    obtain ⟨g', h1, h2⟩ := h
    exact Or.inr (Or.inl ⟨f, g', rfl, rfl, h1, h2⟩)
  | call c k s r hr => exact Or.inr (Or.inr ⟨_, rfl, rfl, (h r).1, (h r).2⟩)

theorem writes_step {cfg : Cfg} {α : Type} {W : (Ctl → Ctl) → Prop} {p p' : P α} {s s' : Ctl} {l : Option Ev}
    (h : Writes W p) (hs : Step (robot cfg) p s l p' s') :
    Writes W p' ∧ (s' = s ∨ ∃ f, W f ∧ s' = f s) := by
  cases hs with
  | get k s => exact ⟨h s, Or.inl rfl⟩
  | set f k s => exact ⟨h.2, Or.inr ⟨f, h.1, rfl⟩⟩
  | call c k s r hr => exact ⟨h r, Or.inl rfl⟩

end KD.Ctrl
