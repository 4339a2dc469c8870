import Verif.Solver.StSolver
import Verif.Props.ConfigSelector
import Verif.Props.Builder
import Verif.Props.PadenKahan
import Verif.Props.Poe

/-!
# Property C24: the screw-theory position solver
-/

namespace KD

open scoped Classical

open StSolver

/-! ## Output of a call -/

theorem validate_true {q lo hi : List ℝ} (h : validate q lo hi = some true) :
    q.length ≤ lo.length ∧ q.length ≤ hi.length ∧ InLimits lo hi q := by
  induction q generalizing lo hi with
  | nil => simp [InLimits]
  | cons a q ih =>
    cases lo with
    | nil => simp [validate] at h
    | cons l lo =>
      cases hi with
      | nil => simp [validate] at h
      | cons u hi =>
        simp only [validate] at h
        split at h
        · rename_i hj
          obtain ⟨h1, h2, h3⟩ := ih h
          refine ⟨by simpa, by simpa, fun k b l' u' hk hl hu => ?_⟩
          cases k with
          | zero =>
            simp only [List.getElem?_cons_zero, Option.some.injEq] at hk hl hu
            subst hk hl hu
            exact ⟨hj.1, hj.2⟩
          | succ k => exact h3 k b l' u' (by simpa using hk) (by simpa using hl) (by simpa using hu)
        · simp at h

theorem mapM_mem {α β : Type} {f : α → Option β} {l : List α} {r : List β} (h : l.mapM f = some r)
    {b : β} (hb : b ∈ r) : ∃ a ∈ l, f a = some b := by
  induction l generalizing r with
  | nil =>
    simp only [List.mapM_nil, Option.pure_def, Option.some.injEq] at h
    subst h; simp at hb
  | cons a l ih =>
    rw [List.mapM_cons] at h
    simp only [Option.bind_eq_bind, Option.bind_eq_some_iff, Option.pure_def, Option.some.injEq] at h
    obtain ⟨b', h1, r', h2, rfl⟩ := h
    rcases List.mem_cons.mp hb with rfl | hb
    · exact ⟨a, List.mem_cons_self, h1⟩
    · obtain ⟨x, hx, hfx⟩ := ih h2 hb
      exact ⟨x, List.mem_cons_of_mem _ hx, hfx⟩

/-- All the valid entries are candidates within limits. -/
def Selector.Sound (s : Selector) (sols : List (List ℝ)) : Prop :=
  ∀ c ∈ s.configs, c.valid = true → ∃ q ∈ sols, c.q = some q ∧ validate q s.qMin s.qMax = some true

theorem configure_sound {s s' : Selector} {sols : List (List ℝ)} {ok : Bool}
    (h : s.configure sols = some (ok, s')) :
    s'.Sound sols ∧ s'.gait = s.gait ∧ s'.qMin = s.qMin ∧ s'.qMax = s.qMax := by
  unfold Selector.configure at h
  simp only [Option.bind_eq_bind, Option.bind_eq_some_iff, Option.pure_def, Option.some.injEq,
    Prod.mk.injEq] at h
  obtain ⟨cs, h1, h2, rfl⟩ := h
  refine ⟨fun c hc hv => ?_, rfl, rfl, rfl⟩
  obtain ⟨q, hq, hf⟩ := mapM_mem h1 hc
  simp only [Option.bind_eq_some_iff, Option.some.injEq] at hf
  obtain ⟨v, hv', rfl⟩ := hf
  simp only at hv
  subst hv
  exact ⟨q, hq, rfl, hv'⟩

theorem collect_valid {guess : List ℝ} {cs : List Config} {i : ℕ} {set set' : List (ℝ × ℕ)}
    (h : Selector.collect guess i cs set = some set') :
    ∀ x ∈ set', x ∈ set ∨ ∃ (j : ℕ) (c : Config), cs[j]? = some c ∧ c.valid = true ∧ x.2 = i + j := by
  induction cs generalizing i set with
  | nil =>
    simp only [Selector.collect, Option.some.injEq] at h
    subst h
    exact fun x hx => Or.inl hx
  | cons c cs ih =>
    simp only [Selector.collect] at h
    intro x hx
    split at h
    · rename_i hv
      simp only [Option.bind_eq_bind, Option.bind_eq_some_iff] at h
      obtain ⟨q, hq, sum, hsum, h⟩ := h
      rcases ih h x hx with hm | ⟨j, c', hj, hc', he⟩
      · rcases Selector.mem_insertSum.mp hm with rfl | hm
        · exact Or.inr ⟨0, c, rfl, hv, rfl⟩
        · exact Or.inl hm
      · exact Or.inr ⟨j + 1, c', by simpa using hj, hc', by omega⟩
    · rcases ih h x hx with hm | ⟨j, c', hj, hc', he⟩
      · exact Or.inl hm
      · exact Or.inr ⟨j + 1, c', by simpa using hj, hc', by omega⟩

theorem findLeast_sound {s s' : Selector} {sols : List (List ℝ)} {guess : List ℝ} {ok : Bool}
    (hs : s.Sound sols) (h : s.findLeast guess = some (ok, s')) :
    (ok = true → ∃ q ∈ sols, s'.optimal.q = some q ∧ validate q s.qMin s.qMax = some true) ∧
      s'.gait = s.gait ∧ s'.qMin = s.qMin ∧ s'.qMax = s.qMax := by
  unfold Selector.findLeast at h
  split at h
  · split at h
    · simp at h
    · rename_i c hc
      split at h
      · rename_i hv
        simp only [Option.some.injEq, Prod.mk.injEq] at h
        obtain ⟨rfl, rfl⟩ := h
        obtain ⟨q, hq, h1, h2⟩ := hs c (List.mem_of_getElem? hc) hv
        exact ⟨fun _ => ⟨q, hq, h1, h2⟩, rfl, rfl, rfl⟩
      · simp only [Option.some.injEq, Prod.mk.injEq] at h
        obtain ⟨rfl, rfl⟩ := h
        exact ⟨by simp, rfl, rfl, rfl⟩
  · simp only [Option.bind_eq_bind, Option.bind_eq_some_iff] at h
    obtain ⟨set, hset, h⟩ := h
    split at h
    · simp only [Option.pure_def, Option.some.injEq, Prod.mk.injEq] at h
      obtain ⟨rfl, rfl⟩ := h
      exact ⟨by simp, rfl, rfl, rfl⟩
    · rename_i a l
      simp only [Option.bind_eq_some_iff, Option.pure_def, Option.some.injEq, Prod.mk.injEq] at h
      obtain ⟨c, hc, rfl, rfl⟩ := h
      rcases collect_valid hset a List.mem_cons_self with hm | ⟨j, c', hj, hv, he⟩
      · simp at hm
      · rw [he, Nat.zero_add, hj] at hc
        cases hc
        obtain ⟨q, hq, h1, h2⟩ := hs _ (List.mem_of_getElem? hj) hv
        exact ⟨fun _ => ⟨q, hq, h1, h2⟩, rfl, rfl, rfl⟩

theorem find_sound {s s' : Selector} {sols : List (List ℝ)} {guess : List ℝ} {ok : Bool}
    (hs : s.Sound sols) (h : s.find guess = some (ok, s')) :
    (ok = true → ∃ q ∈ sols, s'.optimal.q = some q ∧ validate q s.qMin s.qMax = some true) ∧
      s'.gait = s.gait ∧ s'.qMin = s.qMin ∧ s'.qMax = s.qMax := by
  unfold Selector.find at h
  split at h
  · split at h
    · simp only [Option.some.injEq, Prod.mk.injEq] at h
      obtain ⟨rfl, rfl⟩ := h
      exact ⟨by simp, rfl, rfl, rfl⟩
    · simp only [Option.bind_eq_bind, Option.bind_eq_some_iff] at h
      obtain ⟨cs, hcs, h⟩ := h
      have hs' : Selector.Sound { s with configs := cs } sols := by
        intro c hc hv
        obtain ⟨c0, hc0, hf⟩ := mapM_mem hcs hc
        unfold Selector.constrain at hf
        split at hf
        · rename_i hv0
          simp only [Option.bind_eq_bind, Option.bind_eq_some_iff, Option.pure_def,
            Option.some.injEq] at hf
          obtain ⟨q, hq, b, hb, rfl⟩ := hf
          cases b with
          | true => exact hs c0 hc0 hv0
          | false => simp at hv
        · simp only [Option.some.injEq] at hf
          subst hf
          exact hs c0 hc0 hv
      exact findLeast_sound (s := { s with configs := cs }) hs' h
  · exact findLeast_sound hs h

/-- Whatever the state of the selector and the sizes, a pose that is returned is one of the candidates
and passed the limit check. -/
theorem select_sound {s s' : Selector} {sols : List (List ℝ)} {guess : List ℝ} {r : Option (List ℝ)}
    (h : s.select sols guess = some (r, s')) :
    (∀ q, r = some q → q ∈ sols ∧ validate q s.qMin s.qMax = some true) ∧
      s'.gait = s.gait ∧ s'.qMin = s.qMin ∧ s'.qMax = s.qMax := by
  unfold Selector.select at h
  simp only [Option.bind_eq_bind, Option.bind_eq_some_iff] at h
  obtain ⟨⟨ok, s1⟩, h1, h⟩ := h
  obtain ⟨hsound, e1, e2, e3⟩ := configure_sound h1
  simp only at h
  split at h
  · obtain ⟨⟨ok2, s2⟩, h2, h⟩ := Option.bind_eq_some_iff.mp h
    obtain ⟨hf, f1, f2, f3⟩ := find_sound hsound h2
    simp only at h
    split at h
    · rename_i hok
      simp only [Option.bind_eq_some_iff, Option.pure_def, Option.some.injEq, Prod.mk.injEq] at h
      obtain ⟨q, hq, rfl, rfl⟩ := h
      obtain ⟨q', hq', h3, h4⟩ := hf hok
      refine ⟨fun p hp => ?_, f1.trans e1, f2.trans e2, f3.trans e3⟩
      cases hp
      rw [Selector.retrievePose, h3] at hq
      cases hq
      rw [e2, e3] at h4
      exact ⟨hq', h4⟩
    · simp only [Option.pure_def, Option.some.injEq, Prod.mk.injEq] at h
      obtain ⟨rfl, rfl⟩ := h
      exact ⟨by simp, f1.trans e1, f2.trans e2, f3.trans e3⟩
  · simp only [Option.pure_def, Option.some.injEq, Prod.mk.injEq] at h
    obtain ⟨rfl, rfl⟩ := h
    exact ⟨by simp, e1, e2, e3⟩

/-- C24, output of one call, in any state: a negative code leaves the output array untouched;
otherwise it holds one of the solutions of the IK problem, with every joint within its limits
(tolerance included), and the code tells whether the problem found the target reachable. -/
theorem C24_call_output (s s' : StSolver) (qInit : List ℝ) (T : Frame) (qOut out : List ℝ) (code : ℤ)
    (h : s.cartToJnt qInit T qOut = some (code, out, s')) :
    (code < 0 → out = qOut) ∧
    (0 ≤ code → ∃ (c : Selector) (ret : Bool) (sols : List (List ℝ)), s.config = some c ∧
      s.problem.solve T [] = some (ret, sols) ∧ out ∈ sols ∧ (code = 0 ↔ ret = true) ∧
      ∀ (k : ℕ) (a : ℝ), out[k]? = some a → ∃ lo hi, c.qMin[k]? = some lo ∧ c.qMax[k]? = some hi ∧
        lo - eps ≤ a ∧ a ≤ hi + eps) := by
  unfold cartToJnt at h
  split at h
  · rename_i he
    simp only [Option.some.injEq, Prod.mk.injEq] at h
    obtain ⟨rfl, rfl, rfl⟩ := h
    rw [he]
    exact ⟨fun _ => rfl, by norm_num [eSolutionNotFound]⟩
  · simp only [Option.bind_eq_bind, Option.bind_eq_some_iff] at h
    obtain ⟨⟨ret, sols⟩, h1, c, h2, ⟨r, c'⟩, h3, h⟩ := h
    simp only at h h3
    obtain ⟨g, _⟩ := select_sound h3
    split at h
    · simp only [Option.pure_def, Option.some.injEq, Prod.mk.injEq] at h
      obtain ⟨rfl, rfl, rfl⟩ := h
      exact ⟨fun _ => rfl, by norm_num [eOutOfLimits]⟩
    · rename_i q
      simp only [Option.pure_def, Option.some.injEq, Prod.mk.injEq] at h
      obtain ⟨rfl, rfl, rfl⟩ := h
      obtain ⟨hm, hv⟩ := g q rfl
      refine ⟨?_, fun _ => ⟨c, ret, sols, h2, h1, hm, ?_, ?_⟩⟩
      · split <;> norm_num [eNotReachable]
      · cases ret <;> norm_num [eNotReachable]
      · intro k a ha
        obtain ⟨l1, l2, l3⟩ := validate_true hv
        have hk := (List.getElem?_eq_some_iff.mp ha).1
        have k1 : k < c.qMin.length := by omega
        have k2 : k < c.qMax.length := by omega
        exact ⟨_, _, List.getElem?_eq_getElem k1, List.getElem?_eq_getElem k2,
          l3 k a _ _ ha (List.getElem?_eq_getElem k1) (List.getElem?_eq_getElem k2)⟩

/-! ## Histories -/

/-- What can happen to a solver: a call, or a change of the chain (tool appended, or the original
chain restored) followed by an update with its own random draws. -/
inductive StOp
  | call (qInit : List ℝ) (T : Frame) (qOut : List ℝ)
  | change (chain : Chain) (rnd : ℕ → ℝ)

/-- Runs a history and collects the results of the calls. -/
noncomputable def StSolver.run (s : StSolver) : List StOp → Option (List (ℤ × List ℝ) × StSolver)
  | [] => some ([], s)
  | .call qInit T qOut :: ops => do
    let (code, out, s) ← s.cartToJnt qInit T qOut
    let (rs, s) ← s.run ops
    return ((code, out) :: rs, s)
  | .change chain rnd :: ops => do
    let s ← s.update rnd chain
    s.run ops

/-- The limits the selector was created with. -/
def StSolver.HasLimits (s : StSolver) (lo hi : List ℝ) : Prop :=
  ∀ c, s.config = some c → c.qMin = lo ∧ c.qMax = hi

theorem cartToJnt_limits {s s' : StSolver} {qInit qOut out lo hi : List ℝ} {T : Frame} {code : ℤ}
    (hl : s.HasLimits lo hi) (h : s.cartToJnt qInit T qOut = some (code, out, s')) :
    s'.HasLimits lo hi := by
  unfold cartToJnt at h
  split at h
  · simp only [Option.some.injEq, Prod.mk.injEq] at h
    obtain ⟨_, _, rfl⟩ := h
    exact hl
  · simp only [Option.bind_eq_bind, Option.bind_eq_some_iff] at h
    obtain ⟨⟨ret, sols⟩, h1, c, h2, ⟨r, c'⟩, h3, h⟩ := h
    simp only at h h3
    obtain ⟨_, _, g2, g3⟩ := select_sound h3
    obtain ⟨l1, l2⟩ := hl c h2
    have : ∀ d, some c' = some d → d.qMin = lo ∧ d.qMax = hi := by
      intro d hd; cases hd; exact ⟨g2.trans l1, g3.trans l2⟩
    split at h <;>
      (simp only [Option.pure_def, Option.some.injEq, Prod.mk.injEq] at h
       obtain ⟨_, _, rfl⟩ := h
       exact this)

theorem update_config {s s' : StSolver} {rnd : ℕ → ℝ} {chain : Chain}
    (h : s.update rnd chain = some s') : s'.config = s.config := by
  unfold update at h
  simp only [Option.bind_eq_bind, Option.bind_eq_some_iff] at h
  obtain ⟨r, _, h⟩ := h
  split at h <;> (simp only [Option.pure_def, Option.some.injEq] at h; subst h; rfl)

/-- C24 over histories: through any sequence of calls and tool changes from a solver created with
limits `lo` and `hi`, every result with a non-negative code is within those limits. -/
theorem C24_history_in_limits (gait : Bool) (lo hi : List ℝ) (rnd : ℕ → ℝ) (chain : Chain)
    (s : StSolver) (hc : StSolver.create rnd chain (some (Selector.make gait lo hi)) = some (some s))
    (ops : List StOp) (rs : List (ℤ × List ℝ)) (s' : StSolver) (h : s.run ops = some (rs, s')) :
    ∀ r ∈ rs, 0 ≤ r.1 → ∀ (k : ℕ) (a : ℝ), r.2[k]? = some a →
      ∃ l u, lo[k]? = some l ∧ hi[k]? = some u ∧ l - eps ≤ a ∧ a ≤ u + eps := by
  have hl : s.HasLimits lo hi := by
    unfold create at hc
    simp only [Option.bind_eq_bind, Option.bind_eq_some_iff] at hc
    obtain ⟨r, _, hc⟩ := hc
    split at hc
    · simp at hc
    · simp only [Option.pure_def, Option.some.injEq] at hc
      subst hc
      intro c hc
      simp only [Option.some.injEq] at hc
      subst hc
      exact ⟨rfl, rfl⟩
  clear hc
  induction ops generalizing s rs with
  | nil =>
    simp only [run, Option.some.injEq, Prod.mk.injEq] at h
    obtain ⟨rfl, _⟩ := h
    simp
  | cons op ops ih =>
    cases op with
    | call qInit T qOut =>
      simp only [run, Option.bind_eq_bind, Option.bind_eq_some_iff, Option.pure_def,
        Option.some.injEq, Prod.mk.injEq] at h
      obtain ⟨⟨code, out, s1⟩, h1, ⟨rs', s2⟩, h2, rfl, _⟩ := h
      simp only at h2
      have hl1 := cartToJnt_limits hl h1
      have hrec := ih s1 rs' (by rw [h2]; simp_all) hl1
      intro r hr
      rcases List.mem_cons.mp hr with rfl | hr
      · intro hcode k a ha
        obtain ⟨c, _, _, hc, _, _, _, hk⟩ := (C24_call_output s s1 qInit T qOut out code h1).2 hcode
        obtain ⟨l, u, h3, h4, h5⟩ := hk k a ha
        obtain ⟨e1, e2⟩ := hl c hc
        rw [e1] at h3
        rw [e2] at h4
        exact ⟨l, u, h3, h4, h5⟩
      · exact hrec r hr
    | change chain' rnd' =>
      simp only [run, Option.bind_eq_bind, Option.bind_eq_some_iff] at h
      obtain ⟨s1, h1, h2⟩ := h
      refine ih s1 rs h2 ?_
      intro c hc
      rw [update_config h1] at hc
      exact hl c hc

/-- A solver in working order for `n` joints. -/
structure StSolver.Ready (s : StSolver) (n : ℕ) : Prop where
  problem : ∃ subs, s.problem.WellFormed subs ∧ subs ≠ []
  joints : s.problem.poe.exps.length = n
  config : ∃ c, s.config = some c ∧ c.Fits n ∧ ∀ i, c.lastValid = some i → i < s.problem.soln

/-- C24: a solver in working order stays so, and any sequence of calls with guesses of the right
size, whatever the targets, has defined behaviour. -/
theorem C24_calls_defined (n : ℕ) (s : StSolver) (hr : s.Ready n)
    (calls : List (List ℝ × Frame × List ℝ)) (hq : ∀ c ∈ calls, c.1.length = n) :
    ∃ rs s', s.run (calls.map fun c => .call c.1 c.2.1 c.2.2) = some (rs, s') ∧
      rs.length = calls.length ∧ s'.Ready n := by
  induction calls generalizing s with
  | nil => exact ⟨[], s, rfl, rfl, hr⟩
  | cons c calls ih =>
    obtain ⟨qInit, T, qOut⟩ := c
    have hqi : qInit.length = n := hq _ List.mem_cons_self
    have step : ∃ code out s1, s.cartToJnt qInit T qOut = some (code, out, s1) ∧ s1.Ready n := by
      unfold cartToJnt
      split
      · exact ⟨_, _, _, rfl, hr⟩
      · obtain ⟨subs, hwf, hne⟩ := hr.problem
        obtain ⟨ok, sols, h1, h2, h3⟩ := C15_solution_count s.problem subs hwf hne T []
        obtain ⟨cf, hcf, hfit, hlast⟩ := hr.config
        have hsel : ∃ r cf', cf.select sols qInit = some (r, cf') ∧ cf'.Fits n ∧
            ∀ i, cf'.lastValid = some i → i < s.problem.soln := by
          have hs : ∀ q ∈ sols, q.length = n := fun q hm => by rw [h3 q hm, hr.joints]
          rcases hlv : cf.lastValid with _ | i
          · rcases Selector.select_fresh hfit hlv hs hqi with
              ⟨t, a, b, g1, g2, g3, _⟩ | ⟨i, q, t, a, b, d, g1, g2, g3, _⟩
            · exact ⟨_, t, a, ⟨g2 ▸ hfit.min, g3 ▸ hfit.max, g1 ▸ hfit.leg⟩, by simp [b]⟩
            · refine ⟨_, t, b, ⟨g2 ▸ hfit.min, g3 ▸ hfit.max, g1 ▸ hfit.leg⟩, ?_⟩
              intro j hj
              rw [d] at hj
              cases hj
              rw [← h2]
              exact (List.getElem?_eq_some_iff.mp a).1
          · have hi : i < sols.length := by rw [h2]; exact hlast i hlv
            obtain ⟨t, a, b, g1, g2, g3⟩ := Selector.select_locked hfit hlv hs hqi
              (List.getElem?_eq_getElem hi)
            refine ⟨_, t, a, ⟨g2 ▸ hfit.min, g3 ▸ hfit.max, g1 ▸ hfit.leg⟩, ?_⟩
            intro j hj
            rw [b] at hj
            cases hj
            exact hlast i hlv
        obtain ⟨r, cf', g1, g2, g3⟩ := hsel
        simp only [h1, hcf, g1, Option.bind_eq_bind, Option.bind_some]
        cases r with
        | none =>
          exact ⟨eOutOfLimits, qOut, { s with config := some cf', error := eOutOfLimits }, rfl,
            hr.problem, hr.joints, cf', rfl, g2, g3⟩
        | some q =>
          exact ⟨if ok then 0 else eNotReachable, q,
            { s with config := some cf', error := if ok then 0 else eNotReachable }, rfl,
            hr.problem, hr.joints, cf', rfl, g2, g3⟩
    obtain ⟨code, out, s1, h1, hr1⟩ := step
    obtain ⟨rs, s2, h2, h3, h4⟩ := ih s1 hr1 fun c hc => hq c (List.mem_cons_of_mem _ hc)
    refine ⟨(code, out) :: rs, s2, ?_, by simp [h3], h4⟩
    simp only [List.map_cons, run, h1, Option.bind_eq_bind, Option.bind_some, h2, Option.pure_def]

/-- A factory that refuses (humanoid gait with other than six joints) leaves a null selector, and
`create` does not notice: the first call follows it. -/
theorem C24_null_selector_undefined (rnd : ℕ → ℝ) (chain : Chain) (s : StSolver)
    (hc : StSolver.create rnd chain none = some (some s)) (qInit qOut : List ℝ) (T : Frame) :
    s.cartToJnt qInit T qOut = none := by
  unfold create at hc
  simp only [Option.bind_eq_bind, Option.bind_eq_some_iff] at hc
  obtain ⟨r, _, hc⟩ := hc
  split at hc
  · simp at hc
  · simp only [Option.pure_def, Option.some.injEq] at hc
    subst hc
    unfold cartToJnt
    rw [if_neg (by norm_num [eSolutionNotFound])]
    simp only [Option.bind_eq_bind, Option.bind_none]
    rw [Option.bind_eq_none_iff]
    exact fun _ _ => rfl

/-! ## Forward kinematics -/

/-- C24, forward kinematics of a chain whose joints have no scale: with one value per joint the pose is that of the
end of the chain and the return code tells success; with any other number of values, or if a segment is asked for,
the code tells failure and the output is not touched. After a change of the chain the same holds for the new one. -/
theorem C24_forward (s : StFk) (chain : Chain)
    (hw : ∀ g ∈ chain, g.joint.WF ∧ g.joint.scale = 1 ∧ g.fTip.IsRigid)
    (q : List ℝ) (out : Frame) (segment : ℤ) :
    (segment < 0 → chain.nJoints = q.length → ∃ pose, chain.fk q = some pose ∧
      (StFk.create chain).jntToCart q out segment = (0, pose) ∧ (s.update chain).jntToCart q out segment = (0, pose)) ∧
    (0 ≤ segment ∨ chain.nJoints ≠ q.length → ∃ code, code < 0 ∧
      (StFk.create chain).jntToCart q out segment = (code, out) ∧
      (s.update chain).jntToCart q out segment = (code, out)) := by
  have hl : (Poe.fromChain chain).exps.length = chain.nJoints := (C07_fromChain_terms chain).1
  constructor
  · intro hs hq
    obtain ⟨h1, h2⟩ := C07_fromChain_fk chain q out hw hq
    have : (StFk.create chain).jntToCart q out segment = (0, ((Poe.fromChain chain).evaluate q out).2) := by
      unfold StFk.jntToCart
      rw [if_neg (by omega)]
      show (if ((Poe.fromChain chain).evaluate q out).1 = true then _ else _) = _
      rw [h1]
      rfl
    exact ⟨_, h2, this, this⟩
  · intro h
    by_cases hs : segment ≥ 0
    · have : (StFk.create chain).jntToCart q out segment = (-100, out) := by
        unfold StFk.jntToCart
        rw [if_pos hs]
      exact ⟨-100, by norm_num, this, this⟩
    · have hq : (Poe.fromChain chain).exps.length ≠ q.length := by
        rw [hl]
        rcases h with h | h
        · omega
        · exact h
      have : (StFk.create chain).jntToCart q out segment = (-101, out) := by
        unfold StFk.jntToCart
        rw [if_neg hs]
        show (if ((Poe.fromChain chain).evaluate q out).1 = true then (0, ((Poe.fromChain chain).evaluate q out).2)
          else (-101, ((Poe.fromChain chain).evaluate q out).2)) = _
        rw [C03_evaluate_rejects_size _ _ _ hq]
        rfl
      exact ⟨-101, by norm_num, this, this⟩

/-- A prismatic joint followed by a segment: the hypotheses hold. -/
example : ∃ chain : Chain, chain.nJoints = [(1 : ℝ)].length ∧
    ∀ g ∈ chain, g.joint.WF ∧ g.joint.scale = 1 ∧ g.fTip.IsRigid :=
  ⟨[⟨⟨.transX, 1, 0, 0, 0⟩, 1⟩], by simp [Chain.nJoints], by
    intro g hg
    simp only [List.mem_singleton] at hg
    subst hg
    exact ⟨by simp [Joint.WF], rfl, Frame.IsRigid.one⟩⟩

/-! ## Tool changes -/

/-- Forward kinematics: after any number of changes, restoring the original chain restores the
original solver. -/
theorem C24_forward_restored (original : Chain) (tools : List Chain) :
    ((tools.foldl (fun s c => s.update c) (StFk.create original)).update original) =
      StFk.create original := rfl

/-- Part of C24. If a problem was found for every tool and no call was made in between, restoring
the original chain (with the same random draws) restores the very same solver, hence the same
results. What is missing: a search that failed for one of the tools is never forgotten
(`C24_restore_fails`), and a call made with a tool fixes the index of the configuration for
good (C22). -/
theorem C24_restore_partial (rnd : ℕ → ℝ) (original : Chain) (factory : Option Selector)
    (s : StSolver) (hc : StSolver.create rnd original factory = some (some s))
    (tools : List (Chain × (ℕ → ℝ)))
    (ht : ∀ t ∈ tools, ∃ r, Builder.build t.2 (Poe.fromChain t.1) = some (some r)) :
    s.run ((tools.map fun t => .change t.1 t.2) ++ [.change original rnd]) = some ([], s) := by
  have hback : ∀ s1 : StSolver, s1.config = s.config → s1.error = s.error →
      s1.update rnd original = some s := by
    intro s1 h1 h2
    unfold create at hc
    unfold update
    simp only [Option.bind_eq_bind, Option.bind_eq_some_iff] at hc
    obtain ⟨r, hr, hc⟩ := hc
    rw [hr]
    cases r with
    | none => simp at hc
    | some r =>
      simp only [Option.pure_def, Option.some.injEq] at hc
      subst hc
      simp only at h1 h2
      simp [h1, h2]
  have main : ∀ (tools : List (Chain × (ℕ → ℝ))) (s1 : StSolver), s1.config = s.config →
      s1.error = s.error →
      (∀ t ∈ tools, ∃ r, Builder.build t.2 (Poe.fromChain t.1) = some (some r)) →
      s1.run ((tools.map fun t => .change t.1 t.2) ++ [.change original rnd]) = some ([], s) := by
    intro tools
    induction tools with
    | nil =>
      intro s1 h1 h2 _
      simp [run, hback s1 h1 h2]
    | cons t tools ih =>
      intro s1 h1 h2 h3
      obtain ⟨r, hr⟩ := h3 t List.mem_cons_self
      simp only [List.map_cons, List.cons_append, run, update, hr, Option.bind_eq_bind,
        Option.bind_some, Option.pure_def]
      exact ih _ h1 h2 fun t' ht' => h3 t' (List.mem_cons_of_mem _ ht')
  exact main tools s rfl rfl ht

/-! ### A tool that breaks the solver for good -/

/-- One vertical rotation with the flange at `(1, 0, 0)`. -/
noncomputable def turntable : Chain :=
  [Segment.make ⟨.rotZ, 1, 0, 0, 0⟩ (Frame.trans ⟨1, 0, 0⟩)]

/-- The same with a tool that brings the tip back to the axis. -/
noncomputable def turntableTool : Chain :=
  turntable ++ [Segment.make Joint.fixed (Frame.trans ⟨-1, 0, 0⟩)]

/-- The only screw. -/
def turnExp : MatrixExp := ⟨.rotation, ⟨0, 0, 1⟩, 0⟩

/-- Random draws `1, 2, 3, ...`. -/
def oneTwoThree (n : ℕ) : ℝ := n + 1

section Turntable

open Builder

theorem rotZ_zero : Mat3.rotZ 0 = 1 := by
  ext <;> simp [Mat3.rotZ]

theorem turntable_poe : Poe.fromChain turntable = ⟨[turnExp], Frame.trans ⟨1, 0, 0⟩⟩ := by
  have hpose : (Joint.pose ⟨.rotZ, 1, 0, 0, 0⟩ 0) = 1 := by
    simp only [Joint.pose, mul_zero, add_zero, rotZ_zero]
    rfl
  have hseg : (Segment.make ⟨.rotZ, 1, 0, 0, 0⟩ (Frame.trans ⟨1, 0, 0⟩)).pose 0 =
      Frame.trans ⟨1, 0, 0⟩ := by
    simp only [Segment.pose, Segment.make, hpose, Frame.inv_one, one_mul]
  have hn : Vec3.normalize ⟨0, 0, 1⟩ = ⟨0, 0, 1⟩ := Vec3.normalize_of_unit (by simp [Vec3.dot])
  simp only [Poe.fromChain, turntable, Poe.fromChainLoop, hseg, one_mul]
  simp [Segment.make, Poe.jointTypeToMotion, MatrixExp.changeBase_one, MatrixExp.make,
    Joint.jointAxis, Joint.jointOrigin, hn, turnExp, Frame.act]

theorem turntableTool_poe : Poe.fromChain turntableTool = ⟨[turnExp], 1⟩ := by
  have hpose : (Joint.pose ⟨.rotZ, 1, 0, 0, 0⟩ 0) = 1 := by
    simp only [Joint.pose, mul_zero, add_zero, rotZ_zero]
    rfl
  have hseg : (Segment.make ⟨.rotZ, 1, 0, 0, 0⟩ (Frame.trans ⟨1, 0, 0⟩)).pose 0 =
      Frame.trans ⟨1, 0, 0⟩ := by
    simp only [Segment.pose, Segment.make, hpose, Frame.inv_one, one_mul]
  have hseg2 : (Segment.make Joint.fixed (Frame.trans ⟨-1, 0, 0⟩)).pose 0 =
      Frame.trans ⟨-1, 0, 0⟩ := by
    simp only [Segment.pose, Segment.make, Joint.pose, Joint.fixed, Frame.inv_one, one_mul]
  have hn : Vec3.normalize ⟨0, 0, 1⟩ = ⟨0, 0, 1⟩ := Vec3.normalize_of_unit (by simp [Vec3.dot])
  have hmul : Frame.trans ⟨1, 0, 0⟩ * Frame.trans ⟨-1, 0, 0⟩ = 1 := by
    ext <;> simp [Frame.trans]
  simp only [Poe.fromChain, turntableTool, turntable, List.cons_append, List.nil_append,
    Poe.fromChainLoop, hseg, hseg2, one_mul, hmul]
  simp [Segment.make, Poe.jointTypeToMotion, MatrixExp.changeBase_one, MatrixExp.make,
    Joint.jointAxis, Joint.jointOrigin, hn, turnExp, Frame.act, Joint.fixed]

/-- If every point lies on the only axis, no subproblem applies. -/
theorem all_on_axis {e : MatrixExp} (hr : e.motion = .rotation) {pts : List Vec3} (hne : pts ≠ [])
    (h : ∀ p ∈ pts, liesOnAxis e p) :
    ∃ s, searchSolutions [e] pts = some s ∧ s.terms.countP (·.known) = 0 := by
  have hget : ∀ i, i < pts.length → pts.getD i 0 ∈ pts := by
    intro i hi
    rw [List.getD_eq_getElem _ _ hi]
    exact List.getElem_mem hi
  have hpos : 0 < pts.length := List.length_pos_iff.mpr hne
  have hmark : ∀ p ∈ pts, ∀ b, markFromUnknown p [(e, (⟨false, b⟩ : PoeTerm))] = [⟨false, true⟩] := by
    intro p hp b
    simp [markFromUnknown, PoeTerm.isUnknown, markWhileOnAxis, hr, h p hp]
  have key : ∀ fuel s, (∃ b, s.terms = [⟨false, b⟩]) → s.tp0 ∈ pts → s.tp1 ∈ pts →
      s.it0 < pts.length → s.it1 < pts.length →
      ∀ s', searchLoop [e] pts fuel s = some s' → s'.terms.countP (·.known) = 0 := by
    intro fuel
    induction fuel with
    | zero => intro s _ _ _ _ _ s' hs'; simp [searchLoop] at hs'
    | succ fuel ih =>
      intro s ⟨b, hb⟩ h0 h1 hi0 hi1 s' hs'
      have hsimp : simplify [e] s.depth s.tp0 s.tp1 (refresh s.terms) = [⟨false, true⟩] := by
        have hrf : refresh s.terms = [⟨false, false⟩] := by simp [hb, refresh, markLeading]
        rw [hrf]
        simp only [simplify, simplifyPK1, simplifyPK3, List.zip_cons_cons, List.zip_nil_right,
          List.reverse_cons, List.reverse_nil, List.nil_append]
        simp [hmark _ h0, hmark _ h1, hr]
      have hpass : pass [e] pts s = advance pts { s with terms := [⟨false, true⟩] } := by
        simp [pass, hsimp, trySolve, PoeTerm.open_]
      have hadv : (pass [e] pts s).terms = [⟨false, true⟩] ∧ (pass [e] pts s).tp0 ∈ pts ∧
          (pass [e] pts s).tp1 ∈ pts ∧ (pass [e] pts s).it0 < pts.length ∧
          (pass [e] pts s).it1 < pts.length := by
        rw [hpass]
        simp only [advance]
        split
        · split
          · exact ⟨rfl, hget 0 hpos, h1, hpos, hi1⟩
          · split
            · split
              · exact ⟨rfl, hget 0 hpos, hget 0 hpos, hpos, hpos⟩
              · exact ⟨rfl, hget 0 hpos, hget 0 hpos, hpos, hpos⟩
            · rename_i h2 _ h3
              exact ⟨rfl, hget 0 hpos, hget _ (by omega), hpos, by show s.it1 + 1 < _; omega⟩
        · rename_i h2
          exact ⟨rfl, hget _ (by omega), h1, by show s.it0 + 1 < _; omega, hi1⟩
      simp only [searchLoop] at hs'
      split at hs'
      · exact ih _ ⟨true, hadv.1⟩ hadv.2.1 hadv.2.2.1 hadv.2.2.2.1 hadv.2.2.2.2 s' hs'
      · simp only [Option.some.injEq] at hs'
        rw [← hs', hadv.1]
        simp
  obtain ⟨s, hs, _⟩ := searchSolutions_total [e] hne
  exact ⟨s, hs, key (passBound [e].length pts.length) (initial [e].length pts) ⟨false, rfl⟩
    (hget 0 hpos) (hget 0 hpos) hpos hpos s hs⟩

theorem insert_axis (set : List Vec3) (k : ℕ)
    (h : (insertPoint (drawn oneTwoThree turnExp k) set).2 = true) :
    addRandom oneTwoThree [turnExp] k set =
      some (k + 1, (insertPoint (drawn oneTwoThree turnExp k) set).1) := by
  have hex : ∃ n, (insertPoint (drawn oneTwoThree turnExp (k + n)) set).2 = true := ⟨0, h⟩
  have hz : Nat.find hex = 0 := (Nat.find_eq_zero hex).mpr h
  simp only [addRandom]
  rw [if_neg (by simp [turnExp]), dif_pos hex]
  simp only [hz, add_zero]

theorem drawn_axis (k : ℕ) : drawn oneTwoThree turnExp k = ⟨0, 0, k + 1⟩ := by
  ext <;> simp [drawn, oneTwoThree, turnExp]

theorem not_near_zero (k : ℕ) : ¬ EqualR 0 ((k : ℝ) + 1) := by
  unfold EqualR
  have hk : (0 : ℝ) ≤ k := Nat.cast_nonneg k
  rw [zero_sub, abs_neg, abs_of_pos (by linarith)]
  norm_num [eps]
  linarith

theorem equalR_self (a : ℝ) : EqualR a a := by
  norm_num [EqualR, eps]

theorem points_on_axis (k : ℕ) (H : Frame) : searchPoints oneTwoThree k ⟨[turnExp], H⟩ =
    some (k + 1, (insertPoint H.p [0, ⟨0, 0, k + 1⟩]).1) := by
  have h0 : addAxes [turnExp] (insertPoint 0 []).1 = [0] := by
    simp [addAxes, turnExp, insertPoint, lessV, equalR_self, addIntersections]
  have hins : insertPoint (drawn oneTwoThree turnExp k) [0] = ([0, ⟨0, 0, k + 1⟩], true) := by
    rw [drawn_axis]
    have hk : (0 : ℝ) < k + 1 := by positivity
    simp [insertPoint, lessV, equalR_self, not_near_zero, hk]
  simp only [searchPoints, h0]
  rw [insert_axis _ _ (by rw [hins]), hins]
  rfl

/-- With the tool the search fails, both ways. -/
theorem turntableTool_build : build oneTwoThree (Poe.fromChain turntableTool) = some none := by
  have hH : ∀ k : ℕ, (insertPoint (1 : Frame).p [0, ⟨0, 0, (k : ℝ) + 1⟩]).1 = [0, ⟨0, 0, (k : ℝ) + 1⟩] := by
    intro k
    simp [insertPoint, lessV, equalR_self]
  have hax : ∀ (k : ℕ), ∀ p ∈ ([0, ⟨0, 0, (k : ℝ) + 1⟩] : List Vec3), liesOnAxis turnExp p := by
    intro k p hp
    have : Vec3.cross (p - turnExp.origin) turnExp.axis = 0 := by
      simp only [List.mem_cons, List.not_mem_nil, or_false] at hp
      rcases hp with rfl | rfl <;> ext <;> simp [turnExp, Vec3.cross]
    unfold liesOnAxis
    rw [this]
    exact Vec3.Equal.refl 0
  have hatt : ∀ k, attempt oneTwoThree k ⟨[turnExp], 1⟩ = some (k + 1, none) := by
    intro k
    obtain ⟨s, hs, hk⟩ := all_on_axis (e := turnExp) rfl (by simp) (hax k)
    unfold attempt
    rw [points_on_axis, hH]
    simp [hs, hk]
  have hrev : Poe.reverseSelf ⟨[turnExp], 1⟩ = ⟨[turnExp], 1⟩ := by
    simp [Poe.reverseSelf, Frame.inv_one, MatrixExp.changeBase_one]
  unfold build
  rw [turntableTool_poe]
  simp only [hatt, hrev, Option.bind_eq_bind, Option.bind_some, Option.pure_def]

/-- Without it, the first Paden-Kahan subproblem with the tip as its point. -/
theorem turntable_build : build oneTwoThree (Poe.fromChain turntable) =
    some (some (⟨⟨[turnExp], Frame.trans ⟨1, 0, 0⟩⟩, [(Subproblem.pk1 0 turnExp ⟨1, 0, 0⟩).toStep], false⟩,
      [.pk1 0 turnExp ⟨1, 0, 0⟩])) := by
  have h01 : ¬ EqualR 0 1 := by norm_num [EqualR, eps]
  have hpts : searchPoints oneTwoThree 0 ⟨[turnExp], Frame.trans ⟨1, 0, 0⟩⟩ =
      some (1, [0, ⟨0, 0, 1⟩, ⟨1, 0, 0⟩]) := by
    rw [points_on_axis]
    simp [insertPoint, lessV, Frame.trans, h01]
  have l0 : liesOnAxis turnExp 0 := by
    simp [liesOnAxis, turnExp, Vec3.cross, Vec3.Equal, equalR_self]
  have l1 : liesOnAxis turnExp ⟨0, 0, 1⟩ := by
    simp [liesOnAxis, turnExp, Vec3.cross, Vec3.Equal, equalR_self]
  have l2 : ¬ liesOnAxis turnExp ⟨1, 0, 0⟩ := by
    simp [liesOnAxis, turnExp, Vec3.cross, Vec3.Equal, equalR_self]
    norm_num [EqualR, eps]
  have hm : turnExp.motion = .rotation := rfl
  have hpass1 : pass [turnExp] [0, ⟨0, 0, 1⟩, ⟨1, 0, 0⟩] (initial 1 [0, ⟨0, 0, 1⟩, ⟨1, 0, 0⟩]) =
      ⟨[⟨false, true⟩], 1, 0, ⟨0, 0, 1⟩, 0, 0, []⟩ := by
    simp [pass, initial, refresh, markLeading, simplify, simplifyPK1, markFromUnknown,
      markWhileOnAxis, PoeTerm.isUnknown, PoeTerm.open_, trySolve, l0, hm, advance]
  have hpass2 : pass [turnExp] [0, ⟨0, 0, 1⟩, ⟨1, 0, 0⟩] ⟨[⟨false, true⟩], 1, 0, ⟨0, 0, 1⟩, 0, 0, []⟩ =
      ⟨[⟨false, true⟩], 2, 0, ⟨1, 0, 0⟩, 0, 0, []⟩ := by
    simp [pass, refresh, markLeading, simplify, simplifyPK1, markFromUnknown,
      markWhileOnAxis, PoeTerm.isUnknown, PoeTerm.open_, trySolve, l1, hm, advance]
  have hpass3 : pass [turnExp] [0, ⟨0, 0, 1⟩, ⟨1, 0, 0⟩] ⟨[⟨false, true⟩], 2, 0, ⟨1, 0, 0⟩, 0, 0, []⟩ =
      ⟨[⟨true, false⟩], 0, 0, 0, 0, 0, [.pk1 0 turnExp ⟨1, 0, 0⟩]⟩ := by
    simp [pass, refresh, markLeading, simplify, simplifyPK1, markFromUnknown,
      markWhileOnAxis, PoeTerm.isUnknown, PoeTerm.open_, trySolve, l2, hm, lastOpen, setKnown]
  have hs : searchSolutions [turnExp] [0, ⟨0, 0, 1⟩, ⟨1, 0, 0⟩] =
      some ⟨[⟨true, false⟩], 0, 0, 0, 0, 0, [.pk1 0 turnExp ⟨1, 0, 0⟩]⟩ := by
    unfold searchSolutions
    rw [show passBound ([turnExp] : List MatrixExp).length
      ([0, ⟨0, 0, 1⟩, ⟨1, 0, 0⟩] : List Vec3).length = 23 + 1 + 1 + 1 from rfl,
      show ([turnExp] : List MatrixExp).length = 1 from rfl]
    rw [searchLoop, hpass1, if_pos (by simp [goesOn, PoeTerm.isUnknown])]
    rw [searchLoop, hpass2, if_pos (by simp [goesOn, PoeTerm.isUnknown])]
    rw [searchLoop, hpass3, if_neg (by simp [goesOn, PoeTerm.isUnknown])]
  unfold build
  rw [turntable_poe]
  simp only [attempt, hpts, hs, Option.bind_eq_bind, Option.bind_some]
  simp

end Turntable

/-- C24 as stated fails: a solver is created, a tool with its tip on the axis is appended, and the
original chain is restored. From then on every call fails, although right after the
creation the same call succeeds. -/
theorem C24_restore_fails :
    ∃ s : StSolver, StSolver.create oneTwoThree turntable (some (Selector.make false [-4] [4])) =
        some (some s) ∧
      (∃ q s', s.cartToJnt [0] (Frame.trans ⟨1, 0, 0⟩) [7] = some (0, q, s')) ∧
      ∃ s', s.run [.change turntableTool oneTwoThree, .change turntable oneTwoThree] = some ([], s') ∧
        ∀ qInit T qOut, s'.cartToJnt qInit T qOut = some (eSolutionNotFound, qOut, s') := by
  set pb : IkProblem := ⟨⟨[turnExp], Frame.trans ⟨1, 0, 0⟩⟩,
    [(Subproblem.pk1 0 turnExp ⟨1, 0, 0⟩).toStep], false⟩ with hpb
  refine ⟨⟨pb, some (Selector.make false [-4] [4]), 0⟩, ?_, ?_, ⟨pb, some (Selector.make false [-4] [4]),
    eSolutionNotFound⟩, ?_, ?_⟩
  · simp only [create, turntable_build, Option.bind_eq_bind, Option.bind_some, Option.pure_def, hpb]
  · have hone : turnExp.asFrame 0 = 1 := by
      ext <;> simp [MatrixExp.asFrame, turnExp, Mat3.rot2]
    obtain ⟨φ, _, h1, _, _⟩ := C08_pk1_sound 0 turnExp ⟨1, 0, 0⟩ 1 1 rfl (by simp [MatrixExp.Unit, turnExp, Vec3.dot])
      ⟨0, by rw [hone, Frame.act_one]⟩
    obtain ⟨b, φ', h2, h3, h4⟩ := C08_pk1_range 0 turnExp ⟨1, 0, 0⟩ 1 1
    rw [h1] at h2
    simp only [Option.some.injEq, Prod.mk.injEq, List.cons.injEq, and_true, true_and] at h2
    obtain ⟨_, rfl⟩ := h2
    have hsolve : (Subproblem.pk1 0 turnExp ⟨1, 0, 0⟩).toStep.solve 1 1 = some (true, [[(0, φ)]]) := h1
    have hrhs : pb.initialRhs (Frame.trans ⟨1, 0, 0⟩) = 1 := by
      simp only [IkProblem.initialRhs, hpb]
      ext <;> simp [Frame.trans, Frame.inv]
    have hsol : pb.solve (Frame.trans ⟨1, 0, 0⟩) [] = some (true, [[φ]]) := by
      simp only [IkProblem.solve, hrhs]
      simp [hpb, IkProblem.stepsLoop, IkProblem.branchLoop, IkProblem.branchBody, 
        IkProblem.transformPoint, IkProblem.storeLoop, IkProblem.writePairs, writeAt,
        IkProblem.transformLoop, IkProblem.termFrames, hsolve]
    have hpi := Real.pi_le_four
    have hf : (Selector.make false [-4] [4]).Fits 1 := ⟨rfl, rfl, by simp [Selector.make]⟩
    have hin : (Selector.make false [-4] [4]).Acceptable [φ] := by
      refine ⟨?_, by simp [Selector.make]⟩
      intro k a lo hi ha hlo hhi
      cases k with
      | zero =>
        simp only [Selector.make, List.getElem?_cons_zero, Option.some.injEq] at ha hlo hhi
        subst ha hlo hhi
        constructor
        · have : -4 - eps ≤ -Real.pi := by norm_num [eps]; linarith
          linarith
        · have : (0:ℝ) ≤ eps := by norm_num [eps]
          linarith
      | succ k => simp at ha
    rcases Selector.select_fresh (sols := [[φ]]) (guess := [0]) hf rfl (by simp) rfl with
      ⟨s', _, _, _, _, _, h⟩ | ⟨i, q, s', _, g2, _⟩
    · exact absurd hin (h [φ] (by simp))
    · refine ⟨q, ⟨pb, some s', 0⟩, ?_⟩
      unfold cartToJnt
      rw [if_neg (by norm_num [eSolutionNotFound])]
      simp only [hsol, g2, Option.bind_eq_bind, Option.bind_some, Option.pure_def, if_true]
  · simp only [run, update, turntableTool_build, turntable_build, Option.bind_eq_bind,
      Option.bind_some, Option.pure_def, hpb]
  · intro qInit T qOut
    unfold cartToJnt
    rw [if_pos rfl]

/-- A solver in working order, as C24 requires. -/
example : StSolver.Ready ⟨⟨⟨[turnExp], Frame.trans ⟨1, 0, 0⟩⟩,
    [(Subproblem.pk1 0 turnExp ⟨1, 0, 0⟩).toStep], false⟩, some (Selector.make false [-4] [4]), 0⟩ 1 := by
  refine ⟨⟨[.pk1 0 turnExp ⟨1, 0, 0⟩], ⟨rfl, ?_, ?_, ?_, ?_, Mat3.IsRot.one⟩, by simp⟩, rfl,
    Selector.make false [-4] [4], rfl, ⟨rfl, rfl, by simp [Selector.make]⟩, by simp [Selector.make]⟩
  · intro s hs
    simp at hs
    subst hs
    trivial
  · intro s hs i hi
    simp at hs
    subst hs
    simp [Subproblem.ids] at hi
    simp [hi]
  · simp [Subproblem.ids]
  · intro e he
    simp at he
    subst he
    simp [MatrixExp.Unit, turnExp, Vec3.dot]

end KD
