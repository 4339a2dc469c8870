import Mathlib.Tactic.Common
import Mathlib.Data.List.Basic

/-!
# Programs that talk to an environment

A program reads and writes the fields of one object, calls devices (whose answers are not determined
by the program) and returns a value. Undefined behaviour of C++ is an outcome of its own. Every read
and write of the object and every call is one step, so that programs can be interleaved.
-/

namespace KD

/-- Programs over objects of type `S` calling operations `c : C` with answers of type `R c`. -/
inductive Prog (S C : Type) (R : C → Type) (α : Type) : Type
  | pure (a : α)
  | ub
  | get (k : S → Prog S C R α)
  | set (f : S → S) (k : Prog S C R α)
  | call (c : C) (k : R c → Prog S C R α)

/-- How a program ends. -/
inductive Out (α : Type) : Type
  | ok (a : α)
  | ub

/-- What the environment may answer to each call, and how calls with their answers are recorded. -/
structure Env (C : Type) (R : C → Type) (E : Type) where
  wf : (c : C) → R c → Prop
  ev : (c : C) → R c → E

namespace Prog

variable {S C E : Type} {R : C → Type} {α β : Type}

/-- One program after another. -/
def bind : Prog S C R α → (α → Prog S C R β) → Prog S C R β
  | pure a, f => f a
  | ub, _ => ub
  | get k, f => get fun s => (k s).bind f
  | set g k, f => set g (k.bind f)
  | call c k, f => call c fun r => (k r).bind f

instance : Monad (Prog S C R) where
  pure := Prog.pure
  bind := Prog.bind

/-- Call an operation. -/
def op (c : C) : Prog S C R (R c) := call c pure

/-- Read the object. -/
def read : Prog S C R S := get pure

/-- Update the object. -/
def modify (f : S → S) : Prog S C R Unit := set f (pure ())

/-- A computation that may be undefined. -/
def lift : Option α → Prog S C R α
  | some a => pure a
  | none => ub

/-- Complete runs of a program: object before, calls with their answers, outcome, object after.
`env` tells which answers the callee can give. -/
inductive Run (env : Env C R E) :
    Prog S C R α → S → List E → Out α → S → Prop
  | pure (a : α) (s : S) : Run env (pure a) s [] (.ok a) s
  | ub (s : S) : Run env ub s [] .ub s
  | get {k s tr o s'} : Run env (k s) s tr o s' → Run env (get k) s tr o s'
  | set {f k s tr o s'} : Run env k (f s) tr o s' → Run env (set f k) s tr o s'
  | call {c : C} {k s tr o s'} {r : R c} : env.wf c r → Run env (k r) s tr o s' →
      Run env (call c k) s (env.ev c r :: tr) o s'

/-- Every run from this object ends as `Q` says; `tr` is what happened before. -/
def wp (env : Env C R E) :
    Prog S C R α → (Out α → S → List E → Prop) → S → List E → Prop
  | pure a, Q, s, tr => Q (.ok a) s tr
  | ub, Q, s, tr => Q .ub s tr
  | get k, Q, s, tr => wp env (k s) Q s tr
  | set f k, Q, s, tr => wp env k Q (f s) tr
  | call c k, Q, s, tr => ∀ r, env.wf c r → wp env (k r) Q s (tr ++ [env.ev c r])

theorem wp_run {env : Env C R E} {p : Prog S C R α}
    {Q : Out α → S → List E → Prop} {s s' : S} {tr : List E} {o : Out α}
    (h : Run env p s tr o s') : ∀ tr0, wp env p Q s tr0 → Q o s' (tr0 ++ tr) := by
  induction h with
  | pure a s => intro tr0 hw; simpa [wp] using hw
  | ub s => intro tr0 hw; simpa [wp] using hw
  | get _ ih => intro tr0 hw; exact ih tr0 hw
  | set _ ih => intro tr0 hw; exact ih tr0 hw
  | call hr _ ih =>
    intro tr0 hw
    have := ih _ (hw _ hr)
    simpa using this

theorem wp_of_run {env : Env C R E} {p : Prog S C R α}
    {Q : Out α → S → List E → Prop} {s : S} {tr0 : List E}
    (h : ∀ tr o s', Run env p s tr o s' → Q o s' (tr0 ++ tr)) : wp env p Q s tr0 := by
  induction p generalizing s tr0 with
  | pure a => simpa [wp] using h _ _ _ (.pure a s)
  | ub => simpa [wp] using h _ _ _ (.ub s)
  | get k ih => exact ih s fun tr o s' hr => h _ _ _ (.get hr)
  | set f k ih => exact ih fun tr o s' hr => h _ _ _ (.set hr)
  | call c k ih =>
    intro r hr
    exact ih r fun tr o s' hrun => by simpa using h _ _ _ (.call hr hrun)

/-- What holds of all runs by `wp` holds of each run. -/
theorem wp_sound {env : Env C R E} {p : Prog S C R α}
    {Q : Out α → S → List E → Prop} {s s' : S} {tr : List E} {o : Out α}
    (hw : wp env p Q s []) (h : Run env p s tr o s') : Q o s' tr := by
  simpa using wp_run h [] hw

theorem wp_mono {env : Env C R E} {p : Prog S C R α}
    {Q Q' : Out α → S → List E → Prop} (hQ : ∀ o s tr, Q o s tr → Q' o s tr) :
    ∀ {s tr}, wp env p Q s tr → wp env p Q' s tr := by
  induction p with
  | pure a => intro s tr h; exact hQ _ _ _ h
  | ub => intro s tr h; exact hQ _ _ _ h
  | get k ih => intro s tr h; exact ih s h
  | set f k ih => intro s tr h; exact ih h
  | call c k ih => intro s tr h r hr; exact ih r (h r hr)

/-- Continuation of an outcome. -/
def Out.andThen (o : Out α) (ok : α → Prop) (ub : Prop) : Prop :=
  match o with
  | .ok a => ok a
  | .ub => ub

theorem wp_bind {env : Env C R E} (p : Prog S C R α) (f : α → Prog S C R β)
    (Q : Out β → S → List E → Prop) (s : S) (tr : List E) :
    wp env (p.bind f) Q s tr ↔
      wp env p (fun o s' tr' => Out.andThen o (fun a => wp env (f a) Q s' tr') (Q .ub s' tr')) s tr := by
  induction p generalizing s tr with
  | pure a => rfl
  | ub => rfl
  | get k ih => exact ih s s tr
  | set g k ih => exact ih (g s) tr
  | call c k ih =>
    constructor
    · intro h r hr; exact (ih r s _).mp (h r hr)
    · intro h r hr; exact (ih r s _).mpr (h r hr)

@[simp] theorem bind_eq (p : Prog S C R α) (f : α → Prog S C R β) : p >>= f = p.bind f := rfl
@[simp] theorem pure_eq (a : α) : (Pure.pure a : Prog S C R α) = .pure a := rfl
@[simp] theorem pure_bind' (a : α) (f : α → Prog S C R β) : (Prog.pure a).bind f = f a := rfl
@[simp] theorem ub_bind (f : α → Prog S C R β) : (ub : Prog S C R α).bind f = ub := rfl
@[simp] theorem op_bind (c : C) (f : R c → Prog S C R β) : (op c).bind f = call c f := rfl
@[simp] theorem read_bind (f : S → Prog S C R β) : (read : Prog S C R S).bind f = get f := rfl
@[simp] theorem modify_bind (g : S → S) (f : Unit → Prog S C R β) :
    (modify g : Prog S C R Unit).bind f = set g (f ()) := rfl
@[simp] theorem get_bind (k : S → Prog S C R α) (f : α → Prog S C R β) :
    (get k).bind f = get fun s => (k s).bind f := rfl
@[simp] theorem set_bind (g : S → S) (k : Prog S C R α) (f : α → Prog S C R β) :
    (set g k).bind f = set g (k.bind f) := rfl
@[simp] theorem call_bind (c : C) (k : R c → Prog S C R α) (f : α → Prog S C R β) :
    (call c k).bind f = call c fun r => (k r).bind f := rfl
@[simp] theorem lift_some (a : α) : (lift (some a) : Prog S C R α) = .pure a := rfl
@[simp] theorem lift_none : (lift none : Prog S C R α) = ub := rfl

theorem bind_assoc (p : Prog S C R α) (f : α → Prog S C R β) {γ : Type} (g : β → Prog S C R γ) :
    (p.bind f).bind g = p.bind fun a => (f a).bind g := by
  induction p with
  | pure a => rfl
  | ub => rfl
  | get k ih => simp [ih]
  | set h k ih => simp [ih]
  | call c k ih => simp [ih]

theorem bind_pure (p : Prog S C R α) : p.bind .pure = p := by
  induction p with
  | pure a => rfl
  | ub => rfl
  | get k ih => simp [ih]
  | set h k ih => simp [ih]
  | call c k ih => simp [ih]

instance : LawfulMonad (Prog S C R) := LawfulMonad.mk'
  (id_map := fun p => bind_pure p)
  (pure_bind := fun _ _ => rfl)
  (bind_assoc := fun p f g => bind_assoc p f g)

/-- Runs of a sequence split. -/
theorem run_bind {env : Env C R E} {p : Prog S C R α} {f : α → Prog S C R β}
    {s s' : S} {tr : List E} {o : Out β} :
    Run env (p.bind f) s tr o s' ↔
      (∃ a s1 tr1 tr2, Run env p s tr1 (.ok a) s1 ∧ Run env (f a) s1 tr2 o s' ∧ tr = tr1 ++ tr2) ∨
      (Run env p s tr .ub s' ∧ o = .ub) := by
  induction p generalizing s tr with
  | pure a =>
    constructor
    · intro h; exact Or.inl ⟨a, s, [], tr, .pure a s, h, rfl⟩
    · rintro (⟨_, _, _, _, h1, h2, rfl⟩ | ⟨h1, -⟩)
      · cases h1; exact h2
      · cases h1
  | ub =>
    constructor
    · intro h; cases h; exact Or.inr ⟨.ub _, rfl⟩
    · rintro (⟨_, _, _, _, h1, -, -⟩ | ⟨h1, rfl⟩)
      · cases h1
      · cases h1; exact .ub _
  | get k ih =>
    constructor
    · intro h
      cases h with
      | get h =>
        rcases (ih s).mp h with ⟨a, s1, t1, t2, h1, h2, e⟩ | ⟨h1, e⟩
        · exact Or.inl ⟨a, s1, t1, t2, .get h1, h2, e⟩
        · exact Or.inr ⟨.get h1, e⟩
    · rintro (⟨a, s1, t1, t2, h1, h2, e⟩ | ⟨h1, e⟩)
      · cases h1 with
        | get h1 => exact .get ((ih s).mpr (Or.inl ⟨a, s1, t1, t2, h1, h2, e⟩))
      · cases h1 with
        | get h1 => exact .get ((ih s).mpr (Or.inr ⟨h1, e⟩))
  | set g k ih =>
    constructor
    · intro h
      cases h with
      | set h =>
        rcases ih.mp h with ⟨a, s1, t1, t2, h1, h2, e⟩ | ⟨h1, e⟩
        · exact Or.inl ⟨a, s1, t1, t2, .set h1, h2, e⟩
        · exact Or.inr ⟨.set h1, e⟩
    · rintro (⟨a, s1, t1, t2, h1, h2, e⟩ | ⟨h1, e⟩)
      · cases h1 with
        | set h1 => exact .set (ih.mpr (Or.inl ⟨a, s1, t1, t2, h1, h2, e⟩))
      · cases h1 with
        | set h1 => exact .set (ih.mpr (Or.inr ⟨h1, e⟩))
  | call c k ih =>
    constructor
    · intro h
      cases h with
      | call hr h =>
        rcases (ih _).mp h with ⟨a, s1, t1, t2, h1, h2, e⟩ | ⟨h1, e⟩
        · exact Or.inl ⟨a, s1, _ :: t1, t2, .call hr h1, h2, by rw [e]; rfl⟩
        · exact Or.inr ⟨.call hr h1, e⟩
    · rintro (⟨a, s1, t1, t2, h1, h2, e⟩ | ⟨h1, e⟩)
      · cases h1 with
        | call hr h1 =>
          subst e
          exact .call hr ((ih _).mpr (Or.inl ⟨a, s1, _, t2, h1, h2, rfl⟩))
      · cases h1 with
        | call hr h1 => exact .call hr ((ih _).mpr (Or.inr ⟨h1, e⟩))

/-- Some run from this object ends as `Q` says. -/
def can (env : Env C R E) :
    Prog S C R α → (Out α → S → List E → Prop) → S → List E → Prop
  | pure a, Q, s, tr => Q (.ok a) s tr
  | ub, Q, s, tr => Q .ub s tr
  | get k, Q, s, tr => can env (k s) Q s tr
  | set f k, Q, s, tr => can env k Q (f s) tr
  | call c k, Q, s, tr => ∃ r, env.wf c r ∧ can env (k r) Q s (tr ++ [env.ev c r])

theorem can_run {env : Env C R E} {p : Prog S C R α} {Q : Out α → S → List E → Prop} {s : S}
    {tr0 : List E} (h : can env p Q s tr0) : ∃ tr o s', Run env p s tr o s' ∧ Q o s' (tr0 ++ tr) := by
  induction p generalizing s tr0 with
  | pure a => exact ⟨[], _, _, .pure a s, by simpa [can] using h⟩
  | ub => exact ⟨[], _, _, .ub s, by simpa [can] using h⟩
  | get k ih =>
    obtain ⟨tr, o, s', hr, hq⟩ := ih s h
    exact ⟨tr, o, s', .get hr, hq⟩
  | set f k ih =>
    obtain ⟨tr, o, s', hr, hq⟩ := ih h
    exact ⟨tr, o, s', .set hr, hq⟩
  | call c k ih =>
    obtain ⟨r, hw, h⟩ := h
    obtain ⟨tr, o, s', hr, hq⟩ := ih r h
    exact ⟨env.ev c r :: tr, o, s', .call hw hr, by simpa using hq⟩

theorem can_mono {env : Env C R E} {p : Prog S C R α}
    {Q Q' : Out α → S → List E → Prop} (hQ : ∀ o s tr, Q o s tr → Q' o s tr) :
    ∀ {s tr}, can env p Q s tr → can env p Q' s tr := by
  induction p with
  | pure a => intro s tr h; exact hQ _ _ _ h
  | ub => intro s tr h; exact hQ _ _ _ h
  | get k ih => intro s tr h; exact ih s h
  | set f k ih => intro s tr h; exact ih h
  | call c k ih => rintro s tr ⟨r, hw, h⟩; exact ⟨r, hw, ih r h⟩

theorem can_bind {env : Env C R E} (p : Prog S C R α) (f : α → Prog S C R β)
    (Q : Out β → S → List E → Prop) (s : S) (tr : List E) :
    can env (p.bind f) Q s tr ↔
      can env p (fun o s' tr' => Out.andThen o (fun a => can env (f a) Q s' tr') (Q .ub s' tr')) s tr := by
  induction p generalizing s tr with
  | pure a => rfl
  | ub => rfl
  | get k ih => exact ih s s tr
  | set g k ih => exact ih (g s) tr
  | call c k ih =>
    constructor
    · rintro ⟨r, hw, h⟩; exact ⟨r, hw, (ih r s _).mp h⟩
    · rintro ⟨r, hw, h⟩; exact ⟨r, hw, (ih r s _).mpr h⟩

/-! ## What a program never does -/

/-- Every write of the program is one that `W` allows, whatever the answers it gets. -/
def Writes (W : (S → S) → Prop) : Prog S C R α → Prop
  | pure _ => True
  | ub => True
  | get k => ∀ s, Writes W (k s)
  | set f k => W f ∧ Writes W k
  | call _ k => ∀ r, Writes W (k r)

/-- Every call of the program is one that `D` allows. -/
def Calls (D : C → Prop) : Prog S C R α → Prop
  | pure _ => True
  | ub => True
  | get k => ∀ s, Calls D (k s)
  | set _ k => Calls D k
  | call c k => D c ∧ ∀ r, Calls D (k r)

theorem writes_bind {W : (S → S) → Prop} {p : Prog S C R α} {f : α → Prog S C R β}
    (hp : Writes W p) (hf : ∀ a, Writes W (f a)) : Writes W (p.bind f) := by
  induction p with
  | pure a => exact hf a
  | ub => trivial
  | get k ih => exact fun s => ih s (hp s)
  | set g k ih => exact ⟨hp.1, ih hp.2⟩
  | call c k ih => exact fun r => ih r (hp r)

theorem calls_bind {D : C → Prop} {p : Prog S C R α} {f : α → Prog S C R β}
    (hp : Calls D p) (hf : ∀ a, Calls D (f a)) : Calls D (p.bind f) := by
  induction p with
  | pure a => exact hf a
  | ub => trivial
  | get k ih => exact fun s => ih s (hp s)
  | set g k ih => exact ih hp
  | call c k ih => exact ⟨hp.1, fun r => ih r (hp.2 r)⟩

/-- What every write keeps, the program keeps. -/
theorem run_keeps {env : Env C R E} {W : (S → S) → Prop} {I : S → Prop}
    (hI : ∀ f, W f → ∀ s, I s → I (f s)) {p : Prog S C R α} {s s' : S} {tr : List E} {o : Out α}
    (h : Run env p s tr o s') (hw : Writes W p) (hs : I s) : I s' := by
  induction h with
  | pure a s => exact hs
  | ub s => exact hs
  | get _ ih => exact ih (hw _) hs
  | set _ ih => exact ih hw.2 (hI _ hw.1 _ hs)
  | call _ _ ih => exact ih (hw _) hs

/-- Only allowed calls are made. -/
theorem run_calls {env : Env C R E} {D : C → Prop} {p : Prog S C R α} {s s' : S} {tr : List E}
    {o : Out α} (h : Run env p s tr o s') (hd : Calls D p) :
    ∀ e ∈ tr, ∃ c r, D c ∧ env.wf c r ∧ e = env.ev c r := by
  induction h with
  | pure a s => simp
  | ub s => simp
  | get _ ih => exact ih (hd _)
  | set _ ih => exact ih hd
  | call hr _ ih =>
    intro e he
    rcases List.mem_cons.mp he with rfl | he
    · exact ⟨_, _, hd.1, hr, rfl⟩
    · exact ih (hd.2 _) e he

/-! ## One step at a time -/

/-- One step of a program on a shared object; the label is the call, if it is one. -/
inductive Step (env : Env C R E) :
    Prog S C R α → S → Option E → Prog S C R α → S → Prop
  | get (k s) : Step env (get k) s none (k s) s
  | set (f k s) : Step env (set f k) s none k (f s)
  | call (c k s) (r : R c) : env.wf c r → Step env (call c k) s (some (env.ev c r)) (k r) s

end Prog

end KD
