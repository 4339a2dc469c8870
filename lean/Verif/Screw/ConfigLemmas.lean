import Verif.Screw.ConfigSelector
import Mathlib.Tactic.Linarith
import Mathlib.Data.List.GetD

/-! # Lemmas on configuration selectors -/

namespace KD

open scoped Classical

/-- Every joint of `q` is within its limits, with tolerance. -/
def InLimits (qMin qMax q : List ℝ) : Prop :=
  ∀ (k : ℕ) (a lo hi : ℝ), q[k]? = some a → qMin[k]? = some lo → qMax[k]? = some hi →
    lo - eps ≤ a ∧ a ≤ hi + eps

/-- Sum of the absolute joint displacements. -/
def cost (guess q : List ℝ) : ℝ := (List.zipWith (fun g a => |g - a|) guess q).sum

/-- A human-like leg: hip and ankle joints within 90 degrees, knee not inverted. -/
def HumanLike (q : List ℝ) : Prop :=
  ∃ a b c d e f, q = [a, b, c, d, e, f] ∧ |a| ≤ Real.pi / 2 ∧ |b| ≤ Real.pi / 2 ∧
    |c| ≤ Real.pi / 2 ∧ 0 ≤ d ∧ |e| ≤ Real.pi / 2 ∧ |f| ≤ Real.pi / 2

theorem validate_eq {q qMin qMax : List ℝ} (h1 : q.length ≤ qMin.length)
    (h2 : q.length ≤ qMax.length) : validate q qMin qMax = some (decide (InLimits qMin qMax q)) := by
  induction q generalizing qMin qMax with
  | nil => simp [validate, InLimits]
  | cons a q ih =>
    cases qMin with
    | nil => simp at h1
    | cons lo qMin =>
      cases qMax with
      | nil => simp at h2
      | cons hi qMax =>
        have ih' := ih (qMin := qMin) (qMax := qMax) (by simpa using h1) (by simpa using h2)
        simp only [validate]
        have hiff : InLimits (lo :: qMin) (hi :: qMax) (a :: q) ↔
            jointInLimits a lo hi ∧ InLimits qMin qMax q := by
          constructor
          · intro h
            refine ⟨?_, fun k b l u hk hl hu => h (k + 1) b l u (by simpa) (by simpa) (by simpa)⟩
            have := h 0 a lo hi rfl rfl rfl
            exact ⟨this.1, this.2⟩
          · rintro ⟨h0, h⟩ k b l u hk hl hu
            cases k with
            | zero =>
              simp only [List.getElem?_cons_zero, Option.some.injEq] at hk hl hu
              subst hk hl hu
              exact ⟨h0.1, h0.2⟩
            | succ k => exact h k b l u (by simpa using hk) (by simpa using hl) (by simpa using hu)
        split
        · rename_i hj
          rw [ih']
          congr 1
          simp [hiff, hj]
        · rename_i hj
          congr 1
          simp [hiff, hj]

namespace Selector

theorem mapM_some {α β : Type} {f : α → Option β} {g : α → β} {l : List α}
    (h : ∀ x ∈ l, f x = some (g x)) : l.mapM f = some (l.map g) := by
  induction l with
  | nil => simp
  | cons a l ih =>
    rw [List.mapM_cons, h a List.mem_cons_self, ih fun x hx => h x (List.mem_cons_of_mem _ hx)]
    rfl

theorem displacement_eq {guess q : List ℝ} (h : guess.length ≤ q.length) :
    displacement guess q = some (cost guess q) := by
  induction guess generalizing q with
  | nil => simp [displacement, cost]
  | cons g gs ih =>
    cases q with
    | nil => simp at h
    | cons a q =>
      simp only [displacement]
      rw [ih (by simpa using h)]
      simp [cost]

/-- Lexicographic order on pairs. -/
def LexLe (a b : ℝ × ℕ) : Prop := a.1 < b.1 ∨ (a.1 = b.1 ∧ a.2 ≤ b.2)

theorem mem_insertSum {x a : ℝ × ℕ} {l : List (ℝ × ℕ)} :
    x ∈ insertSum a l ↔ x = a ∨ x ∈ l := by
  induction l with
  | nil => simp [insertSum]
  | cons b l ih =>
    simp only [insertSum]
    split
    · simp
    · rename_i h1
      split
      · simp only [List.mem_cons, ih]; tauto
      · rename_i h2
        have : a = b := by
          push Not at h1 h2
          have e1 : a.1 = b.1 := le_antisymm h2.1 h1.1
          have := h1.2 e1
          have := h2.2 e1.symm
          ext
          · exact e1
          · omega
        subst this
        simp

theorem insertSum_sorted {a : ℝ × ℕ} {l : List (ℝ × ℕ)} (h : l.Pairwise LexLe) :
    (insertSum a l).Pairwise LexLe := by
  induction l with
  | nil => simp [insertSum]
  | cons b l ih =>
    rw [List.pairwise_cons] at h
    simp only [insertSum]
    split
    · rename_i h1
      refine List.pairwise_cons.mpr ⟨?_, List.pairwise_cons.mpr h⟩
      intro c hc
      rcases List.mem_cons.mp hc with rfl | hc
      · rcases h1 with h1 | ⟨h1, h1'⟩
        · exact Or.inl h1
        · exact Or.inr ⟨h1, h1'.le⟩
      · have := h.1 c hc
        unfold LexLe at *
        rcases h1 with h1 | ⟨h1, h1'⟩ <;> rcases this with h2 | ⟨h2, h2'⟩
        · left; linarith
        · left; linarith
        · left; linarith
        · right; exact ⟨by linarith, by omega⟩
    · split
      · rename_i h2
        refine List.pairwise_cons.mpr ⟨?_, ih h.2⟩
        intro c hc
        rcases mem_insertSum.mp hc with rfl | hc
        · rcases h2 with h2 | ⟨h2, h2'⟩
          · exact Or.inl h2
          · exact Or.inr ⟨h2, h2'.le⟩
        · exact h.1 c hc
      · exact List.pairwise_cons.mpr h

/-- The candidates as stored after validation with a predicate. -/
noncomputable def stored (P : List ℝ → Prop) (sols : List (List ℝ)) : List Config :=
  sols.map fun q => ⟨some q, decide (P q)⟩

theorem collect_spec {guess : List ℝ} {P : List ℝ → Prop} {sols : List (List ℝ)}
    (h : ∀ q ∈ sols, guess.length ≤ q.length) (i : ℕ) (set : List (ℝ × ℕ))
    (hs : set.Pairwise LexLe) :
    ∃ set', collect guess i (stored P sols) set = some set' ∧ set'.Pairwise LexLe ∧
      ∀ x, x ∈ set' ↔ x ∈ set ∨ ∃ j q, sols[j]? = some q ∧ P q ∧ x = (cost guess q, i + j) := by
  induction sols generalizing i set with
  | nil => exact ⟨set, rfl, hs, by simp⟩
  | cons q sols ih =>
    simp only [stored, List.map_cons, collect]
    by_cases hp : P q
    · obtain ⟨set', h1, h2, h3⟩ := ih (fun r hr => h r (List.mem_cons_of_mem _ hr)) (i + 1)
        (insertSum (cost guess q, i) set) (insertSum_sorted hs)
      refine ⟨set', ?_, h2, ?_⟩
      · simp only [hp, decide_true, if_true, Option.bind_eq_bind, Option.bind_some,
          displacement_eq (h q List.mem_cons_self)]
        exact h1
      · intro x
        rw [h3, mem_insertSum]
        constructor
        · rintro ((rfl | hx) | ⟨j, r, hj, hr, rfl⟩)
          · exact Or.inr ⟨0, q, rfl, hp, rfl⟩
          · exact Or.inl hx
          · exact Or.inr ⟨j + 1, r, by simpa using hj, hr, by rw [add_assoc, add_comm 1]⟩
        · rintro (hx | ⟨j, r, hj, hr, rfl⟩)
          · exact Or.inl (Or.inr hx)
          · cases j with
            | zero =>
              simp only [List.getElem?_cons_zero, Option.some.injEq] at hj
              subst hj
              exact Or.inl (Or.inl rfl)
            | succ j =>
              exact Or.inr ⟨j, r, by simpa using hj, hr, by rw [add_assoc, add_comm 1]⟩
    · obtain ⟨set', h1, h2, h3⟩ := ih (fun r hr => h r (List.mem_cons_of_mem _ hr)) (i + 1) set hs
      refine ⟨set', ?_, h2, ?_⟩
      · simp only [hp, decide_false]
        exact h1
      · intro x
        rw [h3]
        constructor
        · rintro (hx | ⟨j, r, hj, hr, rfl⟩)
          · exact Or.inl hx
          · exact Or.inr ⟨j + 1, r, by simpa using hj, hr, by rw [add_assoc, add_comm 1]⟩
        · rintro (hx | ⟨j, r, hj, hr, rfl⟩)
          · exact Or.inl hx
          · cases j with
            | zero =>
              simp only [List.getElem?_cons_zero, Option.some.injEq] at hj
              subst hj
              exact absurd hr hp
            | succ j =>
              exact Or.inr ⟨j, r, by simpa using hj, hr, by rw [add_assoc, add_comm 1]⟩

theorem stored_getElem? (P : List ℝ → Prop) (sols : List (List ℝ)) (i : ℕ) :
    (stored P sols)[i]? = sols[i]?.map fun q => ⟨some q, decide (P q)⟩ := by
  simp [stored]

/-- What a first selection does. -/
theorem findLeast_fresh {s : Selector} {guess : List ℝ} {P : List ℝ → Prop}
    {sols : List (List ℝ)} (hc : s.configs = stored P sols) (hl : s.lastValid = none)
    (h : ∀ q ∈ sols, guess.length ≤ q.length) :
    (s.findLeast guess = some (false, s) ∧ ∀ q ∈ sols, ¬ P q) ∨
    ∃ i q, sols[i]? = some q ∧ P q ∧
      s.findLeast guess = some (true, { s with optimal := ⟨some q, true⟩, lastValid := some i }) ∧
      ∀ j r, sols[j]? = some r → P r → LexLe (cost guess q, i) (cost guess r, j) := by
  obtain ⟨set, h1, h2, h3⟩ := collect_spec (P := P) h 0 [] List.Pairwise.nil
  unfold findLeast
  rw [hl, hc]
  simp only [h1, Option.bind_eq_bind, Option.bind_some]
  cases set with
  | nil =>
    left
    refine ⟨rfl, fun q hq hp => ?_⟩
    obtain ⟨j, hj, rfl⟩ := List.getElem_of_mem hq
    have := (h3 (cost guess sols[j], 0 + j)).mpr
      (Or.inr ⟨j, _, List.getElem?_eq_getElem hj, hp, rfl⟩)
    simp at this
  | cons a set =>
    right
    obtain ⟨j, q, hj, hp, rfl⟩ := ((h3 a).mp List.mem_cons_self).resolve_left (by simp)
    refine ⟨j, q, hj, hp, ?_, ?_⟩
    · simp only [Nat.zero_add, stored_getElem?, hj, Option.map_some, Option.bind_some, hp, decide_true,
        Option.pure_def]
    · intro k r hk hr
      have hm := (h3 (cost guess r, 0 + k)).mpr (Or.inr ⟨k, r, hk, hr, rfl⟩)
      rw [List.pairwise_cons] at h2
      rcases List.mem_cons.mp hm with he | hm
      · simp only [Prod.mk.injEq, Nat.zero_add] at he
        exact Or.inr ⟨he.1.symm, he.2.symm.le⟩
      · have := h2.1 _ hm
        simpa [Nat.zero_add] using this

theorem applyConstraints_eq {q : List ℝ} (h : q.length = 6) :
    applyConstraints q = some (decide (HumanLike q)) := by
  match q, h with
  | [a, b, c, d, e, f], _ =>
    have hiff : HumanLike [a, b, c, d, e, f] ↔ |a| ≤ Real.pi / 2 ∧ |b| ≤ Real.pi / 2 ∧
        |c| ≤ Real.pi / 2 ∧ 0 ≤ d ∧ |e| ≤ Real.pi / 2 ∧ |f| ≤ Real.pi / 2 := by
      constructor
      · rintro ⟨a', b', c', d', e', f', heq, h⟩
        simp only [List.cons.injEq, and_true] at heq
        obtain ⟨rfl, rfl, rfl, rfl, rfl, rfl⟩ := heq
        exact h
      · intro h
        exact ⟨a, b, c, d, e, f, rfl, h⟩
    have hd : decide (HumanLike [a, b, c, d, e, f]) = decide (|a| ≤ Real.pi / 2 ∧ |b| ≤ Real.pi / 2 ∧
        |c| ≤ Real.pi / 2 ∧ 0 ≤ d ∧ |e| ≤ Real.pi / 2 ∧ |f| ≤ Real.pi / 2) :=
      decide_eq_decide.mpr hiff
    rw [hd]
    unfold applyConstraints
    simp only [List.getElem?_cons_zero, List.getElem?_cons_succ, Option.bind_eq_bind,
      Option.bind_some, Option.pure_def]
    by_cases h1 : |a| > Real.pi / 2
    · rw [if_pos h1]; simp [not_le.mpr h1]
    rw [if_neg h1]
    by_cases h2 : |b| > Real.pi / 2
    · rw [if_pos h2]; simp [not_le.mpr h2]
    rw [if_neg h2]
    by_cases h3 : |c| > Real.pi / 2
    · rw [if_pos h3]; simp [not_le.mpr h3]
    rw [if_neg h3]
    by_cases h4 : d < 0
    · rw [if_pos h4]; simp [not_le.mpr h4]
    rw [if_neg h4]
    by_cases h5 : |e| > Real.pi / 2
    · rw [if_pos h5]; simp [not_le.mpr h5]
    rw [if_neg h5]
    by_cases h6 : |f| > Real.pi / 2
    · rw [if_pos h6]; simp [not_le.mpr h6]
    rw [if_neg h6]
    simp [not_lt.mp h1, not_lt.mp h2, not_lt.mp h3, not_lt.mp h4, not_lt.mp h5, not_lt.mp h6]

/-- What a candidate must satisfy. -/
def Acceptable (s : Selector) (q : List ℝ) : Prop :=
  InLimits s.qMin s.qMax q ∧ (s.gait = true → HumanLike q)

/-- Arrays of matching sizes: `n` joints, six for a leg. -/
structure Fits (s : Selector) (n : ℕ) : Prop where
  min : s.qMin.length = n
  max : s.qMax.length = n
  leg : s.gait = true → n = 6

theorem configure_eq {s : Selector} {n : ℕ} (hf : s.Fits n) {sols : List (List ℝ)}
    (hs : ∀ q ∈ sols, q.length = n) :
    s.configure sols = some (decide (∃ q ∈ sols, InLimits s.qMin s.qMax q),
      { s with configs := stored (InLimits s.qMin s.qMax) sols }) := by
  unfold configure
  have hm : (sols.mapM fun q => do
      let v ← validate q s.qMin s.qMax
      return (⟨some q, v⟩ : Config)) = some (stored (InLimits s.qMin s.qMax) sols) := by
    apply mapM_some
    intro q hq
    rw [validate_eq (by rw [hs q hq, hf.min]) (by rw [hs q hq, hf.max])]
    rfl
  rw [hm]
  simp only [Option.bind_eq_bind, Option.bind_some, Option.pure_def]
  congr 2
  rw [Bool.eq_iff_iff]
  simp [stored]

/-- `findOptimalConfiguration` amounts to validation with the constraints of the class. -/
theorem find_eq {s : Selector} {n : ℕ} (hf : s.Fits n) {sols : List (List ℝ)}
    (hs : ∀ q ∈ sols, q.length = n) {guess : List ℝ} (hg : guess.length = n)
    (hc : s.configs = stored (InLimits s.qMin s.qMax) sols) :
    s.find guess = findLeast { s with configs := stored s.Acceptable sols } guess := by
  unfold find
  by_cases hgait : s.gait = true
  · rw [if_pos hgait, if_neg (by rw [hg, hf.leg hgait]; simp), hc]
    have hm : (stored (InLimits s.qMin s.qMax) sols).mapM constrain =
        some (stored s.Acceptable sols) := by
      have h1 : stored s.Acceptable sols = (stored (InLimits s.qMin s.qMax) sols).map fun c =>
          ⟨c.q, decide (∃ q, c.q = some q ∧ s.Acceptable q)⟩ := by
        simp [stored]
      rw [h1]
      apply mapM_some
      intro c hc'
      obtain ⟨q, hq, rfl⟩ := List.mem_map.mp hc'
      have hq6 : q.length = 6 := by rw [hs q hq, hf.leg hgait]
      unfold constrain
      by_cases hin : InLimits s.qMin s.qMax q
      · simp only [hin, decide_true, if_true, Option.bind_eq_bind, Option.bind_some,
          applyConstraints_eq hq6, Option.pure_def]
        by_cases hh : HumanLike q
        · simp [hh, Acceptable, hin]
        · simp [hh, Acceptable, hgait]
      · simp [hin, Acceptable]
    simp only [hm, Option.bind_eq_bind, Option.bind_some]
  · rw [if_neg hgait]
    have : s.Acceptable = InLimits s.qMin s.qMax := by
      funext q
      simp [Acceptable, hgait]
    rw [this, ← hc]

/-- A first selection, in full. -/
theorem select_fresh {s : Selector} {n : ℕ} (hf : s.Fits n) (hl : s.lastValid = none)
    {sols : List (List ℝ)} (hs : ∀ q ∈ sols, q.length = n) {guess : List ℝ}
    (hg : guess.length = n) :
    (∃ s', s.select sols guess = some (none, s') ∧ s'.lastValid = none ∧
      s'.gait = s.gait ∧ s'.qMin = s.qMin ∧ s'.qMax = s.qMax ∧ ∀ q ∈ sols, ¬ s.Acceptable q) ∨
    ∃ i q s', sols[i]? = some q ∧ s.select sols guess = some (some q, s') ∧
      s'.lastValid = some i ∧ s'.gait = s.gait ∧ s'.qMin = s.qMin ∧ s'.qMax = s.qMax ∧
      s.Acceptable q ∧
      ∀ j r, sols[j]? = some r → s.Acceptable r → LexLe (cost guess q, i) (cost guess r, j) := by
  unfold select
  simp only [configure_eq hf hs, Option.bind_eq_bind, Option.bind_some]
  by_cases hany : ∃ q ∈ sols, InLimits s.qMin s.qMax q
  · simp only [hany, decide_true, if_true]
    have hfind := find_eq (s := { s with configs := stored (InLimits s.qMin s.qMax) sols })
      (n := n) ⟨hf.min, hf.max, hf.leg⟩ hs hg rfl
    rw [hfind]
    rcases findLeast_fresh (s := { s with configs := stored s.Acceptable sols }) (guess := guess)
      (P := s.Acceptable) rfl hl (by intro q hq; rw [hg, hs q hq]) with ⟨h1, h2⟩ | ⟨i, q, h1, h2, h3, h4⟩
    · left
      refine ⟨{ s with configs := stored s.Acceptable sols }, ?_, hl, rfl, rfl, rfl, h2⟩
      have h1' : findLeast { s with configs := stored (Acceptable
          { s with configs := stored (InLimits s.qMin s.qMax) sols }) sols } guess =
          some (false, { s with configs := stored s.Acceptable sols }) := h1
      rw [h1']
      rfl
    · right
      refine ⟨i, q, { s with configs := stored s.Acceptable sols, optimal := ⟨some q, true⟩, lastValid := some i }, h1, ?_, rfl, rfl, rfl, rfl, h2, h4⟩
      have h3' : findLeast { s with configs := stored (Acceptable
          { s with configs := stored (InLimits s.qMin s.qMax) sols }) sols } guess = some (true,
          { s with configs := stored s.Acceptable sols, optimal := ⟨some q, true⟩,
                   lastValid := some i }) := h3
      rw [h3']
      rfl
  · left
    refine ⟨{ s with configs := stored (InLimits s.qMin s.qMax) sols }, ?_, hl, rfl, rfl, rfl, ?_⟩
    · simp [hany]
    · intro q hq ha
      exact hany ⟨q, hq, ha.1⟩

/-- A later selection, in full. -/
theorem select_locked {s : Selector} {n i : ℕ} (hf : s.Fits n) (hl : s.lastValid = some i)
    {sols : List (List ℝ)} (hs : ∀ q ∈ sols, q.length = n) {guess : List ℝ}
    (hg : guess.length = n) {q : List ℝ} (hq : sols[i]? = some q) :
    ∃ s', s.select sols guess = some (if s.Acceptable q then some q else none, s') ∧
      s'.lastValid = some i ∧ s'.gait = s.gait ∧ s'.qMin = s.qMin ∧ s'.qMax = s.qMax := by
  unfold select
  simp only [configure_eq hf hs, Option.bind_eq_bind, Option.bind_some]
  by_cases hany : ∃ q ∈ sols, InLimits s.qMin s.qMax q
  · simp only [hany, decide_true, if_true]
    have hfind := find_eq (s := { s with configs := stored (InLimits s.qMin s.qMax) sols })
      (n := n) ⟨hf.min, hf.max, hf.leg⟩ hs hg rfl
    rw [hfind]
    have hloc : findLeast { s with configs := stored (Acceptable
        { s with configs := stored (InLimits s.qMin s.qMax) sols }) sols } guess =
        if s.Acceptable q then some (true, { s with configs := stored s.Acceptable sols, optimal := ⟨some q, true⟩ })
        else some (false, { s with configs := stored s.Acceptable sols }) := by
      have : Acceptable { s with configs := stored (InLimits s.qMin s.qMax) sols } = s.Acceptable := rfl
      rw [this]
      unfold findLeast
      simp only [hl, stored_getElem?, hq, Option.map_some]
      by_cases ha : s.Acceptable q <;> simp [ha]
    rw [hloc]
    by_cases ha : s.Acceptable q
    · rw [if_pos ha, if_pos ha]
      exact ⟨{ s with configs := stored s.Acceptable sols, optimal := ⟨some q, true⟩ }, rfl, hl, rfl, rfl, rfl⟩
    · rw [if_neg ha, if_neg ha]
      exact ⟨{ s with configs := stored s.Acceptable sols }, rfl, hl, rfl, rfl, rfl⟩
  · have ha : ¬ s.Acceptable q := fun ha => hany ⟨q, List.mem_of_getElem? hq, ha.1⟩
    refine ⟨{ s with configs := stored (InLimits s.qMin s.qMax) sols }, ?_, hl, rfl, rfl, rfl⟩
    simp [hany, ha]

end Selector

end KD
