import Verif.Screw.ConfigLemmas
import Mathlib.Tactic.NormNum

/-!
# Properties C21, C22 and C23: choice of an IK configuration

`InLimits`, `cost` and `HumanLike` (in `Verif/Screw/ConfigLemmas.lean`) are the specification;
`Selector.Acceptable s q` means `InLimits` and, for the humanoid gait strategy, `HumanLike`.
`select` is `configure` followed by `findOptimalConfiguration` and `retrievePose`; `none` is
undefined behaviour.
-/

namespace KD

open Selector

open scoped Classical

/-- C21. The first selection of either strategy, for any set of candidates: it fails iff no
candidate is acceptable; otherwise it returns an acceptable candidate such that no other acceptable
one has a smaller sum of absolute displacements, nor the same sum and a smaller index. -/
theorem C21_least_displacement (gait : Bool) (qMin qMax : List ℝ) (n : ℕ)
    (hf : (make gait qMin qMax).Fits n) (sols : List (List ℝ)) (hs : ∀ q ∈ sols, q.length = n)
    (guess : List ℝ) (hg : guess.length = n) :
    ∃ r s', (make gait qMin qMax).select sols guess = some (r, s') ∧
      (r = none ↔ ∀ q ∈ sols, ¬ (make gait qMin qMax).Acceptable q) ∧
      ∀ q, r = some q → ∃ i : ℕ, sols[i]? = some q ∧ (make gait qMin qMax).Acceptable q ∧
        ∀ (j : ℕ) (p : List ℝ), sols[j]? = some p → (make gait qMin qMax).Acceptable p →
          cost guess q ≤ cost guess p ∧ (cost guess p = cost guess q → i ≤ j) := by
  rcases select_fresh hf rfl hs hg with ⟨s', h1, _, _, _, _, h2⟩ | ⟨i, q, s', h1, h2, _, _, _, _, h3, h4⟩
  · exact ⟨none, s', h1, by simpa using h2, by simp⟩
  · refine ⟨some q, s', h2, ?_, ?_⟩
    · simp only [reduceCtorEq, false_iff, not_forall]
      exact ⟨q, List.mem_of_getElem? h1, fun h => h h3⟩
    · intro q' hq'
      cases hq'
      refine ⟨i, h1, h3, fun j p hj hp => ?_⟩
      rcases h4 j p hj hp with h | ⟨h, h'⟩
      · simp only at h
        exact ⟨h.le, fun he => absurd he h.ne'⟩
      · simp only at h h'
        exact ⟨h.le, fun _ => h'⟩

/-- The same for a selector that has failed before: only success changes its behaviour. -/
theorem C21_failure_keeps_choice_open (gait : Bool) (qMin qMax : List ℝ) (n : ℕ)
    (hf : (make gait qMin qMax).Fits n) (sols : List (List ℝ)) (hs : ∀ q ∈ sols, q.length = n)
    (guess : List ℝ) (hg : guess.length = n) (s' : Selector)
    (h : (make gait qMin qMax).select sols guess = some (none, s')) (sols2 : List (List ℝ))
    (hs2 : ∀ q ∈ sols2, q.length = n) (guess2 : List ℝ) (hg2 : guess2.length = n) :
    ((s'.select sols2 guess2).map Prod.fst) =
      ((make gait qMin qMax).select sols2 guess2).map Prod.fst := by
  have hstate : s'.lastValid = none ∧ s'.gait = gait ∧ s'.qMin = qMin ∧ s'.qMax = qMax := by
    rcases select_fresh hf rfl hs hg with ⟨t, h1, a, b, c, d, _⟩ | ⟨i, q, t, _, h2, _⟩
    · rw [h] at h1; cases h1; exact ⟨a, b, c, d⟩
    · rw [h] at h2; cases h2
  obtain ⟨hl, hgt, hmin, hmax⟩ := hstate
  have hf' : s'.Fits n := ⟨by rw [hmin]; exact hf.min, by rw [hmax]; exact hf.max,
    by rw [hgt]; exact hf.leg⟩
  have hacc : s'.Acceptable = (make gait qMin qMax).Acceptable := by
    funext q; simp [Acceptable, hgt, hmin, hmax, make]
  rcases select_fresh hf rfl hs2 hg2 with ⟨t, h1, _, _, _, _, h2⟩ | ⟨i, q, t, h1, h2, _, _, _, _, h3, h4⟩
  · rcases select_fresh hf' hl hs2 hg2 with ⟨u, g1, _⟩ | ⟨j, p, u, g1, g2, _, _, _, _, g3, g4⟩
    · rw [h1, g1]; rfl
    · rw [hacc] at g3
      exact absurd g3 (h2 p (List.mem_of_getElem? g1))
  · rcases select_fresh hf' hl hs2 hg2 with ⟨u, g1, _, _, _, _, g2⟩ | ⟨j, p, u, g1, g2, _, _, _, _, g3, g4⟩
    · have := g2 q (List.mem_of_getElem? h1)
      rw [hacc] at this
      exact absurd h3 this
    · rw [hacc] at g3 g4
      have a := h4 j p g1 g3
      have b := g4 i q h1 h3
      have hij : i = j := by
        unfold LexLe at a b
        simp only at a b
        rcases a with a | ⟨a, a'⟩ <;> rcases b with b | ⟨b, b'⟩
        · linarith
        · linarith
        · linarith
        · omega
      subst hij
      rw [h1] at g1
      cases g1
      rw [h2, g2]; rfl

/-- A sequence of selections: the poses retrieved. -/
noncomputable def selections (s : Selector) :
    List (List (List ℝ) × List ℝ) → Option (List (Option (List ℝ)))
  | [] => some []
  | (sols, guess) :: hist => do
    let (r, s) ← s.select sols guess
    let rs ← selections s hist
    return r :: rs

theorem selections_locked {s : Selector} {n m i : ℕ} (hf : s.Fits n) (hl : s.lastValid = some i)
    (him : i < m) (hist : List (List (List ℝ) × List ℝ))
    (hh : ∀ e ∈ hist, e.1.length = m ∧ (∀ q ∈ e.1, q.length = n) ∧ e.2.length = n) :
    selections s hist = some (hist.map fun e =>
      (e.1[i]?).bind fun q => if s.Acceptable q then some q else none) := by
  induction hist generalizing s with
  | nil => rfl
  | cons e hist ih =>
    obtain ⟨h1, h2, h3⟩ := hh e List.mem_cons_self
    have hi : i < e.1.length := by omega
    obtain ⟨s', g1, g2, g3, g4, g5⟩ := select_locked hf hl h2 h3 (List.getElem?_eq_getElem hi)
    have hf' : s'.Fits n := ⟨by rw [g4]; exact hf.min, by rw [g5]; exact hf.max, by rw [g3]; exact hf.leg⟩
    have hacc : s'.Acceptable = s.Acceptable := by funext q; simp [Acceptable, g3, g4, g5]
    have ih' := ih hf' g2 (fun f hf => hh f (List.mem_cons_of_mem _ hf))
    rw [hacc] at ih'
    obtain ⟨sols, guess⟩ := e
    simp only [selections, g1, ih', Option.bind_eq_bind, Option.bind_some, List.map_cons,
      List.getElem?_eq_getElem hi, Option.pure_def]

theorem selections_fresh {s : Selector} {n m : ℕ} (hf : s.Fits n) (hl : s.lastValid = none)
    (hist : List (List (List ℝ) × List ℝ))
    (hh : ∀ e ∈ hist, e.1.length = m ∧ (∀ q ∈ e.1, q.length = n) ∧ e.2.length = n) :
    ∃ rs k i, selections s hist = some rs ∧ rs.length = hist.length ∧ i ≤ m ∧
      (∀ (j : ℕ) (e : List (List ℝ) × List ℝ), hist[j]? = some e → j < k →
        rs[j]? = some none ∧ ∀ q ∈ e.1, ¬ s.Acceptable q) ∧
      (k < hist.length → i < m ∧ ∃ q, rs[k]? = some (some q)) ∧
      (∀ (j : ℕ) (e : List (List ℝ) × List ℝ), hist[j]? = some e → k ≤ j →
        ∃ q, e.1[i]? = some q ∧ rs[j]? = some (if s.Acceptable q then some q else none)) := by
  induction hist generalizing s with
  | nil => exact ⟨[], 0, 0, rfl, rfl, Nat.zero_le _, by simp, by simp, by simp⟩
  | cons e hist ih =>
    obtain ⟨h1, h2, h3⟩ := hh e List.mem_cons_self
    have hrest := fun f hf => hh f (List.mem_cons_of_mem e hf)
    rcases select_fresh hf hl h2 h3 with ⟨s', g1, g2, g3, g4, g5, g6⟩ |
        ⟨i, q, s', g1, g2, g3, g4, g5, g6, g7, g8⟩
    · have hf' : s'.Fits n := ⟨by rw [g4]; exact hf.min, by rw [g5]; exact hf.max,
        by rw [g3]; exact hf.leg⟩
      have hacc : s'.Acceptable = s.Acceptable := by funext q; simp [Acceptable, g3, g4, g5]
      obtain ⟨rs, k, i, r1, r2, r3, r4, r5, r6⟩ := ih hf' g2 hrest
      rw [hacc] at r4 r6
      refine ⟨none :: rs, k + 1, i, ?_, by simp [r2], r3, ?_, ?_, ?_⟩
      · obtain ⟨sols, guess⟩ := e
        simp only [selections, g1, r1, Option.bind_eq_bind, Option.bind_some, Option.pure_def]
      · intro j f hj hjk
        cases j with
        | zero =>
          simp only [List.getElem?_cons_zero, Option.some.injEq] at hj
          subst hj
          exact ⟨rfl, g6⟩
        | succ j => simpa using r4 j f (by simpa using hj) (by omega)
      · intro hk
        simpa using r5 (by simpa using hk)
      · intro j f hj hjk
        cases j with
        | zero => omega
        | succ j => simpa using r6 j f (by simpa using hj) (by omega)
    · have hf' : s'.Fits n := ⟨by rw [g5]; exact hf.min, by rw [g6]; exact hf.max,
        by rw [g4]; exact hf.leg⟩
      have hacc : s'.Acceptable = s.Acceptable := by funext q; simp [Acceptable, g4, g5, g6]
      have hi : i < m := by
        rw [← h1]; exact (List.getElem?_eq_some_iff.mp g1).1
      have hlock := selections_locked hf' g3 hi hist hrest
      rw [hacc] at hlock
      refine ⟨some q :: (hist.map fun e =>
        (e.1[i]?).bind fun q => if s.Acceptable q then some q else none), 0, i, ?_, ?_, hi.le,
        by simp, ?_, ?_⟩
      · obtain ⟨sols, guess⟩ := e
        simp only [selections, g2, hlock, Option.bind_eq_bind, Option.bind_some, Option.pure_def]
      · simp
      · intro _
        exact ⟨hi, q, rfl⟩
      · intro j f hj _
        cases j with
        | zero =>
          simp only [List.getElem?_cons_zero, Option.some.injEq] at hj
          subst hj
          exact ⟨q, g1, by simp [g7]⟩
        | succ j =>
          simp only [List.getElem?_cons_succ] at hj ⊢
          have hfm := List.mem_of_getElem? hj
          have hif : i < f.1.length := by rw [(hrest f hfm).1]; exact hi
          refine ⟨f.1[i], List.getElem?_eq_getElem hif, ?_⟩
          rw [List.getElem?_map, hj]
          simp [List.getElem?_eq_getElem hif]

/-- C22. Any history of selections with candidate sets of the same size: there is a first
success `k` (or none, `k ≥` length) and an index `i` such that before `k` every selection fails, no
candidate being acceptable, and from `k` on every selection returns its candidate number `i` if that
one is acceptable and fails otherwise, whatever the other candidates. -/
theorem C22_choice_is_kept (gait : Bool) (qMin qMax : List ℝ) (n m : ℕ)
    (hf : (make gait qMin qMax).Fits n) (hist : List (List (List ℝ) × List ℝ))
    (hh : ∀ e ∈ hist, e.1.length = m ∧ (∀ q ∈ e.1, q.length = n) ∧ e.2.length = n) :
    ∃ (rs : List (Option (List ℝ))) (k i : ℕ),
      selections (make gait qMin qMax) hist = some rs ∧ rs.length = hist.length ∧
      (∀ (j : ℕ) (e : List (List ℝ) × List ℝ), hist[j]? = some e → j < k →
        rs[j]? = some none ∧ ∀ q ∈ e.1, ¬ (make gait qMin qMax).Acceptable q) ∧
      (k < hist.length → ∃ q, rs[k]? = some (some q)) ∧
      (∀ (j : ℕ) (e : List (List ℝ) × List ℝ), hist[j]? = some e → k ≤ j →
        ∃ q, e.1[i]? = some q ∧
          rs[j]? = some (if (make gait qMin qMax).Acceptable q then some q else none)) := by
  obtain ⟨rs, k, i, h1, h2, _, h4, h5, h6⟩ := selections_fresh hf rfl hist hh
  exact ⟨rs, k, i, h1, h2, h4, fun h => (h5 h).2, h6⟩

/-- No pose retrieved in such a history is out of limits. -/
theorem C22_never_out_of_limits (gait : Bool) (qMin qMax : List ℝ) (n m : ℕ)
    (hf : (make gait qMin qMax).Fits n) (hist : List (List (List ℝ) × List ℝ))
    (hh : ∀ e ∈ hist, e.1.length = m ∧ (∀ q ∈ e.1, q.length = n) ∧ e.2.length = n)
    (rs : List (Option (List ℝ))) (h : selections (make gait qMin qMax) hist = some rs) :
    ∀ q, some q ∈ rs → InLimits qMin qMax q := by
  obtain ⟨rs', k, i, h1, h2, h4, _, h6⟩ := C22_choice_is_kept gait qMin qMax n m hf hist hh
  rw [h] at h1
  cases h1
  intro q hq
  obtain ⟨j, hj, hje⟩ := List.getElem_of_mem hq
  have hjr : rs[j]? = some (some q) := by rw [List.getElem?_eq_getElem hj, hje]
  have hjh : j < hist.length := by omega
  by_cases hk : j < k
  · have := (h4 j _ (List.getElem?_eq_getElem hjh) hk).1
    rw [hjr] at this
    simp at this
  · obtain ⟨p, _, hp⟩ := h6 j _ (List.getElem?_eq_getElem hjh) (by omega)
    rw [hjr] at hp
    split at hp
    · rename_i ha
      cases hp
      exact ha.1
    · simp at hp

/-- The size must be constant: if the candidate kept has no counterpart in a later, smaller set,
the selector reads past the end of its vector. -/
theorem C22_smaller_set_undefined :
    selections (make false [0] [1]) [([[5], [0]], [0]), ([[0]], [0])] = none := by
  have hf : (make false [0] [1]).Fits 1 := ⟨rfl, rfl, by simp [make]⟩
  have hin : InLimits [0] [1] [0] := by
    intro k a lo hi ha hlo hhi
    cases k with
    | zero =>
      simp only [List.getElem?_cons_zero, Option.some.injEq] at ha hlo hhi
      subst ha hlo hhi
      constructor <;> norm_num [eps]
    | succ k => simp at ha
  have hout : ¬ InLimits [0] [1] [5] := by
    intro h
    have := (h 0 5 0 1 rfl rfl rfl).2
    norm_num [eps] at this
  have h1 : ∃ s', (make false [0] [1]).select [[5], [0]] [0] = some (some [0], s') ∧
      s'.lastValid = some 1 ∧ s'.gait = false ∧ s'.qMin = [0] ∧ s'.qMax = [1] := by
    rcases select_fresh (sols := [[5], [0]]) (guess := [0]) hf rfl (by simp) rfl with
      ⟨s', _, _, _, _, _, h⟩ | ⟨i, q, s', g1, g2, g3, g4, g5, g6, g7, _⟩
    · exact absurd ⟨hin, by simp [make]⟩ (h [0] (by simp))
    · match i with
      | 0 => simp at g1; subst g1; exact absurd g7.1 hout
      | 1 => simp at g1; subst g1; exact ⟨s', g2, g3, g4, g5, g6⟩
      | i + 2 => simp at g1
  obtain ⟨s', e1, e2, e3, e4, e5⟩ := h1
  have hf' : s'.Fits 1 := ⟨by rw [e4]; rfl, by rw [e5]; rfl, by rw [e3]; simp⟩
  have h2 : s'.select [[0]] [0] = none := by
    unfold select
    rw [configure_eq hf' (by simp)]
    have hany : ∃ q ∈ ([[0]] : List (List ℝ)), InLimits s'.qMin s'.qMax q :=
      ⟨[0], by simp, by rw [e4, e5]; exact hin⟩
    simp only [hany, decide_true, Option.bind_eq_bind, Option.bind_some, if_true]
    simp [find, e3, findLeast, e2, stored]
  simp [selections, e1, h2]

/-- C23. A pose selected for walking is human-like and within limits, at any point of any history. -/
theorem C23_gait_constraints (qMin qMax : List ℝ) (s : Selector) (hc : createGait qMin qMax = some s)
    (m : ℕ) (hist : List (List (List ℝ) × List ℝ))
    (hh : ∀ e ∈ hist, e.1.length = m ∧ (∀ q ∈ e.1, q.length = 6) ∧ e.2.length = 6) :
    ∃ rs, selections s hist = some rs ∧
      ∀ q, some q ∈ rs → ∃ a b c d e f, q = [a, b, c, d, e, f] ∧
        |a| ≤ Real.pi / 2 ∧ |b| ≤ Real.pi / 2 ∧ |c| ≤ Real.pi / 2 ∧ 0 ≤ d ∧
        |e| ≤ Real.pi / 2 ∧ |f| ≤ Real.pi / 2 ∧ InLimits qMin qMax q := by
  unfold createGait at hc
  split at hc
  · rename_i hsz
    cases hc
    have hf : (make true qMin qMax).Fits 6 := ⟨hsz.1, hsz.2, fun _ => rfl⟩
    obtain ⟨rs, k, i, h1, h2, h4, _, h6⟩ := C22_choice_is_kept true qMin qMax 6 m hf hist hh
    refine ⟨rs, h1, fun q hq => ?_⟩
    obtain ⟨j, hj, hje⟩ := List.getElem_of_mem hq
    have hjr : rs[j]? = some (some q) := by rw [List.getElem?_eq_getElem hj, hje]
    have hjh : j < hist.length := by omega
    by_cases hk : j < k
    · have := (h4 j _ (List.getElem?_eq_getElem hjh) hk).1
      rw [hjr] at this
      simp at this
    · obtain ⟨p, _, hp⟩ := h6 j _ (List.getElem?_eq_getElem hjh) (by omega)
      rw [hjr] at hp
      split at hp
      · rename_i ha
        cases hp
        obtain ⟨a, b, c, d, e, f, g0, g1, g2, g3, g4, g5, g6⟩ := ha.2 rfl
        exact ⟨a, b, c, d, e, f, g0, g1, g2, g3, g4, g5, g6, ha.1⟩
      · simp at hp
  · simp at hc

/-- The factory refuses any number of joints other than six. -/
theorem C23_factory_refuses (qMin qMax : List ℝ) :
    createGait qMin qMax = none ↔ ¬ (qMin.length = 6 ∧ qMax.length = 6) := by
  unfold createGait
  split <;> simp_all

/-- A guess of another size is refused, and nothing changes. -/
theorem C23_guess_refused (s : Selector) (hs : s.gait = true) (guess : List ℝ)
    (hg : guess.length ≠ 6) : s.find guess = some (false, s) := by
  unfold find
  rw [if_pos hs, if_pos hg]

/-- A leg with two candidates: the inverted knee is discarded although it is closer. -/
theorem leg_example : ∃ s, createGait [-2, -2, -2, -2, -2, -2] [2, 2, 2, 2, 2, 2] = some s ∧
    s.Fits 6 ∧ s.Acceptable [0, 0, 0, 1, 0, 0] ∧ ¬ s.Acceptable [0, 0, 0, -1, 0, 0] := by
  refine ⟨make true [-2, -2, -2, -2, -2, -2] [2, 2, 2, 2, 2, 2], by simp [createGait],
    ⟨rfl, rfl, fun _ => rfl⟩, ⟨?_, fun _ => ?_⟩, fun h => ?_⟩
  · intro k a lo hi ha hlo hhi
    match k with
    | 0 | 1 | 2 | 4 | 5 =>
      simp [make] at ha hlo hhi
      subst ha hlo hhi
      constructor <;> norm_num [eps]
    | 3 =>
      simp [make] at ha hlo hhi
      subst ha hlo hhi
      constructor <;> norm_num [eps]
    | k + 6 => simp at ha
  · have := Real.pi_pos
    exact ⟨0, 0, 0, 1, 0, 0, rfl, by simp; positivity, by simp; positivity, by simp; positivity,
      by norm_num, by simp; positivity, by simp; positivity⟩
  · obtain ⟨a, b, c, d, e, f, h1, _, _, _, h2, _⟩ := h.2 rfl
    simp only [List.cons.injEq] at h1
    obtain ⟨_, _, _, h1, _⟩ := h1
    linarith

example : ∃ s', (make false [0] [1]).select [[5], [0]] [0] = some (some [0], s') := by
  have hf : (make false [0] [1]).Fits 1 := ⟨rfl, rfl, by simp [make]⟩
  rcases select_fresh (sols := [[5], [0]]) (guess := [0]) hf rfl (by simp) rfl with
    ⟨s', _, _, _, _, _, h⟩ | ⟨i, q, s', g1, g2, g3, g4, g5, g6, g7, _⟩
  · exfalso
    refine h [0] (by simp) ⟨?_, by simp [make]⟩
    intro k a lo hi ha hlo hhi
    cases k with
    | zero =>
      simp [make] at ha hlo hhi
      subst ha hlo hhi
      constructor <;> norm_num [eps]
    | succ k => simp at ha
  · match i with
    | 0 =>
      simp at g1
      subst g1
      have := (g7.1 0 5 0 1 rfl rfl rfl).2
      norm_num [eps] at this
    | 1 => simp at g1; subst g1; exact ⟨s', g2⟩
    | i + 2 => simp at g1

end KD
