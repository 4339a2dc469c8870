import Verif.Screw.BuilderLemmas
import Verif.Screw.SubproblemLemmas
import Verif.Screw.PoeLemmas

/-! Invariants and termination of the search. -/

namespace KD

open scoped Classical

namespace Builder

/-- The subproblem is stated for the terms of the POE at its own joint ids. -/
def Subproblem.Uses (es : List MatrixExp) : Subproblem → Prop
  | .pk1 i e _ => es[i]? = some e
  | .pk2 i j e1 e2 _ _ => es[i]? = some e1 ∧ es[j]? = some e2
  | .pk3 i e _ _ => es[i]? = some e
  | .pg1 i e _ => es[i]? = some e
  | .pg2 i j e1 e2 _ => es[i]? = some e1 ∧ es[j]? = some e2
  | .pg3 i e _ _ => es[i]? = some e
  | .pg4 i j e1 e2 _ => es[i]? = some e1 ∧ es[j]? = some e2

/-- Geometric conditions under which the builder picks each subproblem. -/
def Subproblem.Chosen : Subproblem → Prop
  | .pk1 _ e p => e.motion = .rotation ∧ ¬ liesOnAxis e p
  | .pk2 _ _ e1 e2 _ r => e1.motion = .rotation ∧ e2.motion = .rotation ∧ ¬ parallelAxes e2 e1 ∧
      intersectingAxes e2 e1 = some r
  | .pk3 _ e p k => e.motion = .rotation ∧ ¬ liesOnAxis e p ∧ ¬ liesOnAxis e k
  | .pg1 _ e _ => e.motion = .translation
  | .pg2 _ _ e1 e2 _ => e1.motion = .translation ∧ e2.motion = .translation ∧ ¬ parallelAxes e2 e1
  | .pg3 _ e _ _ => e.motion = .translation
  | .pg4 _ _ e1 e2 _ => e1.motion = .rotation ∧ e2.motion = .rotation ∧ parallelAxes e2 e1 ∧
      ¬ colinearAxes e2 e1

/-- Invariant of the search. -/
structure Inv (es : List MatrixExp) (pts : List Vec3) (s : Search) : Prop where
  len : s.terms.length = es.length
  it0 : s.it0 < pts.length
  it1 : s.it1 < pts.length
  depth : s.depth ≤ 2
  known : ∀ j, j < es.length →
    (s.terms[j]?).map PoeTerm.known = some (decide (j ∈ s.steps.flatMap Subproblem.ids))
  lt : ∀ j ∈ s.steps.flatMap Subproblem.ids, j < es.length
  nodup : (s.steps.flatMap Subproblem.ids).Nodup
  uses : ∀ sp ∈ s.steps, Subproblem.Uses es sp ∧ Subproblem.Chosen sp

theorem trySolve_uses {es : List MatrixExp} {depth : ℕ} {tp0 tp1 : Vec3} {ts ts' : List PoeTerm}
    {sp : Subproblem} (h : trySolve es depth tp0 tp1 ts = some (sp, ts')) :
    Subproblem.Uses es sp ∧ Subproblem.Chosen sp := by
  rcases trySolve_cases h with ⟨i, e, he, _, _, hone⟩ | ⟨i, e1, e2, he1, he2, _, _, _, htwo⟩
  · rcases hone with ⟨_, a, b, rfl⟩ | ⟨_, a, rfl⟩ | ⟨_, _, a, b, c, rfl⟩ | ⟨_, _, a, rfl⟩
    · exact ⟨he, a, b⟩
    · exact ⟨he, a⟩
    · exact ⟨he, a, b, c⟩
    · exact ⟨he, a⟩
  · rcases htwo with ⟨a, b, c, r, d, rfl⟩ | ⟨a, b, c, rfl⟩ | ⟨a, b, c, d, rfl⟩
    · exact ⟨⟨he1, he2⟩, a, b, c, d⟩
    · exact ⟨⟨he1, he2⟩, a, b, c⟩
    · exact ⟨⟨he1, he2⟩, a, b, c, d⟩

theorem known_get (ts : List PoeTerm) (j : ℕ) : (ts[j]?).map PoeTerm.known = (knowns ts)[j]? := by
  simp [knowns]

theorem Inv.initial {es : List MatrixExp} {pts : List Vec3} (h : pts ≠ []) :
    Inv es pts (initial es.length pts) := by
  have : 0 < pts.length := List.length_pos_iff.mpr h
  refine ⟨by simp [Builder.initial], this, this, by simp [Builder.initial], ?_, by simp [Builder.initial],
    by simp [Builder.initial], by simp [Builder.initial]⟩
  intro j hj
  simp [Builder.initial, hj]

theorem Inv.advance {es : List MatrixExp} {pts : List Vec3} {s : Search} (h : Inv es pts s) :
    Inv es pts (advance pts s) := by
  have hpos : 0 < pts.length := by have := h.it0; omega
  have hd := h.depth
  have h0 := h.it0
  have h1 := h.it1
  unfold Builder.advance
  simp only []
  split
  · split
    · exact ⟨h.len, hpos, h.it1, by simp, h.known, h.lt, h.nodup, h.uses⟩
    · split
      · split
        · exact ⟨h.len, hpos, hpos, by simp, h.known, h.lt, h.nodup, h.uses⟩
        · exact ⟨h.len, hpos, hpos, h.depth, h.known, h.lt, h.nodup, h.uses⟩
      · exact ⟨h.len, hpos, by simp only; omega, h.depth, h.known, h.lt, h.nodup, h.uses⟩
  · exact ⟨h.len, by simp only; omega, h.it1, h.depth, h.known, h.lt, h.nodup, h.uses⟩

theorem length_of_knowns {ts ts' : List PoeTerm} (h : knowns ts = knowns ts') :
    ts.length = ts'.length := by rw [← knowns_length, h, knowns_length]

/-- New subproblems are for joints that no earlier step solved. -/
theorem found_fresh {es : List MatrixExp} {pts : List Vec3} {s : Search} (h : Inv es pts s)
    {ts ts' : List PoeTerm} (hts : knowns ts = knowns s.terms) {sp : Subproblem} {d : ℕ} {p q : Vec3}
    (hs : trySolve es d p q ts = some (sp, ts')) :
    (∀ i ∈ sp.ids, i < es.length ∧ i ∉ s.steps.flatMap Subproblem.ids) ∧
    ts'.length = es.length ∧
    ∀ j, j < es.length → (ts'[j]?).map PoeTerm.known =
      some (decide (j ∈ (s.steps ++ [sp]).flatMap Subproblem.ids)) := by
  obtain ⟨_, _, hoo, hk⟩ := trySolve_ids hs
  have hlen : ts.length = es.length := by rw [length_of_knowns hts, h.len]
  have hfresh : ∀ i ∈ sp.ids, i < es.length ∧ i ∉ s.steps.flatMap Subproblem.ids := by
    intro i hi
    obtain ⟨t, ht, hopen⟩ := (hoo i).mpr hi
    have hlt := (List.getElem?_eq_some_iff.mp ht).1
    refine ⟨by omega, fun hm => ?_⟩
    have := h.known i (by omega)
    rw [known_get, ← hts, ← known_get, ht] at this
    simp only [hm, decide_true, Option.map_some, Option.some.injEq] at this
    simp [PoeTerm.open_, this] at hopen
  have hlen' : ts'.length = es.length := by
    have hiff : ∀ j : ℕ, ts'[j]? = none ↔ ts[j]? = none := by
      intro j
      have := hk j
      constructor
      · intro h0
        rw [h0] at this
        by_contra hne
        obtain ⟨t, ht⟩ := Option.ne_none_iff_exists'.mp hne
        rw [ht] at this
        split at this <;> simp at this
      · intro h0
        rw [h0] at this
        by_contra hne
        obtain ⟨t, ht⟩ := Option.ne_none_iff_exists'.mp hne
        rw [ht] at this
        split at this <;> simp at this
    have a := (hiff ts.length).mpr (List.getElem?_eq_none le_rfl)
    have b := (hiff ts'.length).mp (List.getElem?_eq_none le_rfl)
    rw [List.getElem?_eq_none_iff] at a b
    omega
  refine ⟨hfresh, hlen', fun j hj => ?_⟩
  rw [hk j]
  have hsome : ∃ t, ts[j]? = some t := ⟨ts[j], List.getElem?_eq_getElem (by omega)⟩
  obtain ⟨t, ht⟩ := hsome
  have hkn := h.known j hj
  rw [known_get, ← hts, ← known_get] at hkn
  by_cases hm : j ∈ sp.ids
  · simp [hm, ht]
  · rw [if_neg hm, hkn]
    simp [hm]

theorem Inv.pass {es : List MatrixExp} {pts : List Vec3} {s : Search} (h : Inv es pts s) :
    Inv es pts (pass es pts s) := by
  have hpos : 0 < pts.length := by have := h.it0; omega
  have hts := simplified_knowns s.depth s.tp0 s.tp1 h.len
  unfold Builder.pass
  simp only []
  split
  · rename_i sp ts' hs
    obtain ⟨hf, hlen, hk⟩ := found_fresh h hts hs
    obtain ⟨hnd, _, _, _⟩ := trySolve_ids hs
    refine ⟨hlen, hpos, hpos, by simp, hk, ?_, ?_, ?_⟩
    · intro j hj
      simp only [List.flatMap_append, List.flatMap_cons, List.flatMap_nil, List.append_nil,
        List.mem_append] at hj
      rcases hj with hj | hj
      · exact h.lt j hj
      · exact (hf j hj).1
    · simp only [List.flatMap_append, List.flatMap_cons, List.flatMap_nil, List.append_nil]
      rw [List.nodup_append]
      refine ⟨h.nodup, hnd, fun a ha b hb hab => ?_⟩
      subst hab
      exact (hf a hb).2 ha
    · intro t ht
      rcases List.mem_append.mp ht with ht | ht
      · exact h.uses t ht
      · rw [List.mem_singleton.mp ht]; exact trySolve_uses hs
  · apply Inv.advance
    refine ⟨by rw [length_of_knowns hts, h.len], h.it0, h.it1, h.depth, ?_, h.lt, h.nodup, h.uses⟩
    intro j hj
    simp only [known_get, hts]
    rw [← known_get]
    exact h.known j hj

/-! ### Termination -/

/-- Position of the test points. -/
def rank (m : ℕ) (s : Search) : ℕ :=
  if s.depth = 0 then m * m + (m - s.it0)
  else if s.depth = 1 then (m - 1 - s.it1) * m + (m - s.it0)
  else 0

/-- Decreases at every pass. -/
def weight (m : ℕ) (s : Search) : ℕ :=
  s.terms.countP PoeTerm.isUnknown * (m * m + m + 1) + rank m s

theorem rank_lt {m : ℕ} {s : Search} (h1 : s.it1 < m) : rank m s < m * m + m + 1 := by
  unfold rank
  split
  · omega
  · split
    · have : (m - 1 - s.it1) * m ≤ m * m := Nat.mul_le_mul_right m (by omega)
      omega
    · omega

theorem rank_advance {m : ℕ} {pts : List Vec3} (hm : pts.length = m) {s : Search}
    (h0 : s.it0 < m) (h1 : s.it1 < m) (hd : s.depth < 2) : rank m (advance pts s) < rank m s := by
  unfold Builder.advance
  simp only [hm]
  have hmul : ∀ a b : ℕ, a + 1 = b → b * m = a * m + m := by
    intro a b hab; rw [← hab]; ring
  split
  · rename_i e0
    split
    · rename_i hd0
      simp only [rank, hd0]
      have : (m - 1 - s.it1) * m + m ≤ m * m := by
        have : (m - 1 - s.it1) * m ≤ (m - 1) * m := Nat.mul_le_mul_right m (by omega)
        have := hmul (m - 1) m (by omega)
        omega
      simp
      omega
    · have hd1 : s.depth = 1 := by omega
      split
      · rename_i e1
        simp only [hd1, if_true, rank]
        simp
        right; omega
      · rename_i e1
        simp only [rank, hd1]
        have := hmul (m - 1 - (s.it1 + 1)) (m - 1 - s.it1) (by omega)
        simp
        omega
  · simp only [rank]
    split
    · omega
    · split
      · omega
      · omega

theorem weight_pass {es : List MatrixExp} {pts : List Vec3} {s : Search} (h : Inv es pts s)
    (hd : s.depth < 2) : weight pts.length (pass es pts s) < weight pts.length s := by
  have hts := simplified_knowns s.depth s.tp0 s.tp1 h.len
  have hi1 := h.it1
  unfold Builder.pass
  simp only []
  split
  · rename_i sp ts' hs
    obtain ⟨hf, hlen, hk⟩ := found_fresh h hts hs
    obtain ⟨_, hne, _, _⟩ := trySolve_ids hs
    -- one more term is known
    have hcount : ts'.countP PoeTerm.isUnknown < s.terms.countP PoeTerm.isUnknown := by
      have hmono : ∀ j : ℕ, (knowns s.terms)[j]? = some true → (knowns ts')[j]? = some true := by
        intro j hj
        have hjl : j < es.length := by
          have := (List.getElem?_eq_some_iff.mp hj).1
          rw [knowns_length, h.len] at this; exact this
        have a := h.known j hjl
        rw [known_get, hj] at a
        have b := hk j hjl
        rw [known_get] at b
        rw [b]
        simp only [Option.some.injEq, Bool.true_eq, decide_eq_true_eq] at a
        simp only [List.flatMap_append, List.mem_append, a, true_or, decide_true]
      obtain ⟨i, hi⟩ := List.exists_mem_of_ne_nil _ hne
      have hil := (hf i hi).1
      have a := h.known i hil
      rw [known_get] at a
      have b := hk i hil
      rw [known_get] at b
      have a' : (knowns s.terms)[i]? = some false := by rw [a]; simp [(hf i hi).2]
      have b' : (knowns ts')[i]? = some true := by rw [b]; simp [hi]
      rw [countP_unknown, countP_unknown]
      have key : ∀ (l l' : List Bool), l.length = l'.length →
          (∀ j : ℕ, l[j]? = some true → l'[j]? = some true) →
          l'.count false ≤ l.count false ∧
          ∀ i : ℕ, l[i]? = some false → l'[i]? = some true → l'.count false < l.count false := by
        intro l
        induction l with
        | nil => intro l' hl _; cases l' <;> simp at hl ⊢
        | cons b l ih =>
          intro l' hl hm
          cases l' with
          | nil => simp at hl
          | cons b' l' =>
            obtain ⟨i1, i2⟩ := ih l' (by simpa using hl) (fun j hj => by simpa using hm (j + 1) (by simpa using hj))
            have h0 := hm 0
            simp only [List.getElem?_cons_zero, Option.some.injEq] at h0
            refine ⟨?_, fun i hi hi' => ?_⟩
            · simp only [List.count_cons]
              cases b <;> cases b' <;> simp at h0 ⊢ <;> omega
            · cases i with
              | zero =>
                simp at hi hi'
                subst hi; subst hi'
                simp only [List.count_cons]
                simp; omega
              | succ i =>
                have := i2 i (by simpa using hi) (by simpa using hi')
                simp only [List.count_cons]
                cases b <;> cases b' <;> simp at h0 ⊢ <;> omega
      exact (key _ _ (by rw [knowns_length, knowns_length, hlen, h.len]) hmono).2 i a' b'
    have hr : rank pts.length (⟨ts', 0, 0, pts.getD 0 0, s.tp1, 0, s.steps ++ [sp]⟩ : Search) <
        pts.length * pts.length + pts.length + 1 := rank_lt (by simp only; omega)
    unfold weight
    simp only at hcount ⊢
    have := Nat.mul_le_mul_right (pts.length * pts.length + pts.length + 1)
      (show ts'.countP PoeTerm.isUnknown + 1 ≤ s.terms.countP PoeTerm.isUnknown by omega)
    rw [Nat.add_mul, Nat.one_mul] at this
    omega
  · unfold weight
    have hr := rank_advance (pts := pts) rfl
      (s := { s with terms := simplify es s.depth s.tp0 s.tp1 (refresh s.terms) }) h.it0 h.it1 hd
    have ht : (advance pts { s with terms := simplify es s.depth s.tp0 s.tp1 (refresh s.terms) }).terms =
        simplify es s.depth s.tp0 s.tp1 (refresh s.terms) := by
      unfold Builder.advance
      simp only []
      split
      · split
        · rfl
        · split
          · split <;> rfl
          · rfl
      · rfl
    rw [ht, countP_unknown, hts, ← countP_unknown]
    have : rank pts.length { s with terms := simplify es s.depth s.tp0 s.tp1 (refresh s.terms) } =
        rank pts.length s := rfl
    omega

theorem searchLoop_total {es : List MatrixExp} {pts : List Vec3} : ∀ (fuel : ℕ) (s : Search),
    Inv es pts s → s.depth < 2 → weight pts.length s < fuel →
    ∃ s', searchLoop es pts fuel s = some s' ∧ Inv es pts s' ∧ goesOn s' = false ∧
      ∀ fuel', fuel ≤ fuel' → searchLoop es pts fuel' s = some s' := by
  intro fuel
  induction fuel with
  | zero => intro s _ _ h; omega
  | succ fuel ih =>
    intro s hinv hd hw
    have hp := hinv.pass
    have hdec := weight_pass hinv hd
    by_cases hg : goesOn (pass es pts s) = true
    · have hd' : (pass es pts s).depth < 2 := by
        simp only [goesOn, Bool.and_eq_true, decide_eq_true_eq] at hg; exact hg.1
      obtain ⟨s', h1, h2, h3, h4⟩ := ih _ hp hd' (by omega)
      refine ⟨s', ?_, h2, h3, fun fuel' hf => ?_⟩
      · simp only [searchLoop, hg, if_true]; exact h1
      · cases fuel' with
        | zero => omega
        | succ f => simp only [searchLoop, hg, if_true]; exact h4 f (by omega)
    · refine ⟨_, ?_, hp, by simpa using hg, fun fuel' hf => ?_⟩
      · simp only [searchLoop, hg]; rfl
      · cases fuel' with
        | zero => omega
        | succ f => simp only [searchLoop, hg]; rfl

theorem searchSolutions_total (es : List MatrixExp) {pts : List Vec3} (h : pts ≠ []) :
    ∃ s, searchSolutions es pts = some s ∧ Inv es pts s ∧ goesOn s = false ∧
      ∀ fuel, passBound es.length pts.length ≤ fuel →
        searchLoop es pts fuel (initial es.length pts) = some s := by
  apply searchLoop_total _ _ (Inv.initial h) (by simp [Builder.initial])
  unfold weight passBound
  have h1 : (initial es.length pts).terms.countP PoeTerm.isUnknown ≤ es.length := by
    have := List.countP_le_length (p := PoeTerm.isUnknown) (l := (initial es.length pts).terms)
    simpa [Builder.initial] using this
  have h2 : rank pts.length (initial es.length pts) < pts.length * pts.length + pts.length + 1 := by
    apply rank_lt
    exact List.length_pos_iff.mpr h
  have := Nat.mul_le_mul_right (pts.length * pts.length + pts.length + 1) h1
  rw [Nat.add_mul, Nat.one_mul]
  omega

/-! ### Points -/

theorem not_less_equal {a b : Vec3} (h1 : ¬ lessV a b) (h2 : ¬ lessV b a) : Vec3.Equal a b := by
  have hs : ∀ x y : ℝ, EqualR x y ↔ EqualR y x := fun x y => by unfold EqualR; rw [abs_sub_comm]
  have he : ∀ x y : ℝ, ¬ x < y → ¬ y < x → EqualR x y := by
    intro x y a b
    have : x = y := le_antisymm (not_lt.mp b) (not_lt.mp a)
    rw [this]; exact EqualR.refl y
  unfold lessV at h1 h2
  rw [hs b.x, hs b.y, hs b.z] at h2
  by_cases hx : EqualR a.x b.x
  · rw [if_pos hx] at h1 h2
    by_cases hy : EqualR a.y b.y
    · rw [if_pos hy] at h1 h2
      by_cases hz : EqualR a.z b.z
      · exact ⟨hx, hy, hz⟩
      · rw [if_neg hz] at h1 h2
        exact absurd (he _ _ h1 h2) hz
    · rw [if_neg hy] at h1 h2
      exact absurd (he _ _ h1 h2) hy
  · rw [if_neg hx] at h1 h2
    exact absurd (he _ _ h1 h2) hx

theorem insertPoint_ne_nil (p : Vec3) (l : List Vec3) : (insertPoint p l).1 ≠ [] := by
  cases l with
  | nil => simp [insertPoint]
  | cons a l =>
    unfold insertPoint
    split
    · simp
    · split <;> simp

theorem insertPoint_length (p : Vec3) (l : List Vec3) :
    (insertPoint p l).1.length ≤ l.length + 1 := by
  induction l with
  | nil => simp [insertPoint]
  | cons a l ih =>
    unfold insertPoint
    split
    · simp only [List.length_cons]; omega
    · split <;> simp

theorem insertPoint_fails {p : Vec3} {l : List Vec3} (h : (insertPoint p l).2 ≠ true) :
    ∃ a ∈ l, Vec3.Equal a p := by
  induction l with
  | nil => simp [insertPoint] at h
  | cons a l ih =>
    unfold insertPoint at h
    split at h
    · obtain ⟨b, hb, hbe⟩ := ih h
      exact ⟨b, List.mem_cons_of_mem _ hb, hbe⟩
    · rename_i h1
      split at h
      · simp at h
      · rename_i h2
        exact ⟨a, List.mem_cons_self, not_less_equal h1 h2⟩

/-- A source of random numbers that never stops producing `N` values well apart. -/
def Spread (rnd : ℕ → ℝ) (N : ℕ) : Prop :=
  ∀ k, ∃ f : Fin N → ℕ, (∀ i, k ≤ f i) ∧ ∀ i j, i ≠ j → 4 * eps ≤ |rnd (f i) - rnd (f j)|

theorem draw_succeeds {rnd : ℕ → ℝ} {N : ℕ} (hs : Spread rnd N) {e : MatrixExp} (he : e.Unit)
    {set : List Vec3} (hl : set.length < N) (k : ℕ) :
    ∃ n, (insertPoint (drawn rnd e (k + n)) set).2 = true := by
  by_contra hn
  push Not at hn
  obtain ⟨f, hf1, hf2⟩ := hs k
  have hfail : ∀ i, ∃ a : Fin set.length, Vec3.Equal set[a] (drawn rnd e (f i)) := by
    intro i
    have := hn (f i - k)
    rw [show k + (f i - k) = f i from by have := hf1 i; omega] at this
    obtain ⟨a, ha, hae⟩ := insertPoint_fails this
    obtain ⟨j, hj, rfl⟩ := List.mem_iff_getElem.mp ha
    exact ⟨⟨j, hj⟩, hae⟩
  choose g hg using hfail
  obtain ⟨i, j, hij, hgij⟩ := Fintype.exists_ne_map_eq_of_card_lt g (by simpa using hl)
  have hi := hg i
  have hj := hg j
  rw [hgij] at hi
  generalize set[g j] = a at hi hj
  have hsep := hf2 i j hij
  obtain ⟨x1, y1, z1⟩ := hi
  obtain ⟨x2, y2, z2⟩ := hj
  simp only [EqualR, drawn, Vec3.add_x, Vec3.add_y, Vec3.add_z, Vec3.smul_x, Vec3.smul_y,
    Vec3.smul_z] at x1 y1 z1 x2 y2 z2
  have hd : ∀ o c A : ℝ, |A - (o + rnd (f i) * c)| < eps → |A - (o + rnd (f j) * c)| < eps →
      ((rnd (f i) - rnd (f j)) * c) ^ 2 ≤ (2 * eps) ^ 2 := by
    intro o c A h1 h2
    rw [abs_lt] at h1 h2
    apply sq_le_sq'
    · nlinarith [h1.1, h1.2, h2.1, h2.2]
    · nlinarith [h1.1, h1.2, h2.1, h2.2]
  have hx := hd _ _ _ x1 x2
  have hy := hd _ _ _ y1 y2
  have hz := hd _ _ _ z1 z2
  have hu : e.axis.x * e.axis.x + e.axis.y * e.axis.y + e.axis.z * e.axis.z = 1 := he
  have hsq : (rnd (f i) - rnd (f j)) ^ 2 ≤ 12 * eps ^ 2 := by
    have : (rnd (f i) - rnd (f j)) ^ 2 = ((rnd (f i) - rnd (f j)) * e.axis.x) ^ 2 +
        ((rnd (f i) - rnd (f j)) * e.axis.y) ^ 2 + ((rnd (f i) - rnd (f j)) * e.axis.z) ^ 2 := by
      linear_combination (-(rnd (f i) - rnd (f j)) ^ 2) * hu
    rw [this]; nlinarith
  have hsq' : (4 * eps) ^ 2 ≤ (rnd (f i) - rnd (f j)) ^ 2 := by
    rw [← sq_abs (rnd (f i) - rnd (f j))]
    apply pow_le_pow_left₀ _ hsep
    have := eps_pos; positivity
  have := eps_pos
  nlinarith

theorem addIntersections_length (e : MatrixExp) (es : List MatrixExp) (set : List Vec3) :
    (addIntersections e es set).length ≤ set.length + es.length := by
  unfold addIntersections
  induction es generalizing set with
  | nil => simp
  | cons a es ih =>
    rw [List.foldl_cons]
    refine le_trans (ih _) ?_
    simp only [List.length_cons]
    split
    · omega
    · split
      · have := insertPoint_length (by assumption) set
        omega
      · omega

theorem addAxes_length (es : List MatrixExp) (set : List Vec3) :
    (addAxes es set).length ≤ set.length + es.length * (es.length + 1) := by
  unfold addAxes
  have key : ∀ (l : List MatrixExp) (set : List Vec3),
      (l.foldl (fun set e => if e.motion ≠ .rotation then set
        else addIntersections e es.tail (insertPoint e.origin set).1) set).length ≤
        set.length + l.length * (es.length + 1) := by
    intro l
    induction l with
    | nil => intro set; simp
    | cons a l ih =>
      intro set
      rw [List.foldl_cons]
      refine le_trans (ih _) ?_
      simp only [List.length_cons, Nat.add_mul, Nat.one_mul]
      split
      · omega
      · have h1 := addIntersections_length a es.tail (insertPoint a.origin set).1
        have h2 := insertPoint_length a.origin set
        have h3 : es.tail.length ≤ es.length := by simp
        omega
  exact key es set

theorem addRandom_total {rnd : ℕ → ℝ} {N : ℕ} (hs : Spread rnd N) :
    ∀ (es : List MatrixExp) (k : ℕ) (set : List Vec3), (∀ e ∈ es, e.Unit) →
    set.length + es.length ≤ N → ∃ r, addRandom rnd es k set = some r := by
  intro es
  induction es with
  | nil => intro k set _ _; exact ⟨_, rfl⟩
  | cons e es ih =>
    intro k set hu hl
    simp only [List.length_cons] at hl
    unfold addRandom
    split
    · exact ih k set (fun e he => hu e (List.mem_cons_of_mem _ he)) (by omega)
    · have hex := draw_succeeds hs (hu e List.mem_cons_self) (set := set) (by omega) k
      rw [dif_pos hex]
      have := insertPoint_length (drawn rnd e (k + Nat.find hex)) set
      exact ih _ _ (fun e he => hu e (List.mem_cons_of_mem _ he)) (by omega)

theorem searchPoints_total {rnd : ℕ → ℝ} {poe : Poe}
    (hs : Spread rnd (1 + poe.exps.length * (poe.exps.length + 2)))
    (hu : ∀ e ∈ poe.exps, e.Unit) (k : ℕ) :
    ∃ k' pts, searchPoints rnd k poe = some (k', pts) ∧ pts ≠ [] := by
  have h1 := addAxes_length poe.exps (insertPoint 0 []).1
  have h2 : (insertPoint 0 []).1.length = 1 := by simp [insertPoint]
  obtain ⟨⟨k', set⟩, hr⟩ := addRandom_total hs poe.exps k (addAxes poe.exps (insertPoint 0 []).1) hu (by
    have : poe.exps.length * (poe.exps.length + 2) =
      poe.exps.length * (poe.exps.length + 1) + poe.exps.length := by ring
    omega)
  refine ⟨k', (insertPoint poe.tool.p set).1, ?_, insertPoint_ne_nil _ _⟩
  simp [searchPoints, hr]

theorem searchPoints_ne_nil {rnd : ℕ → ℝ} {poe : Poe} {k k' : ℕ} {pts : List Vec3}
    (h : searchPoints rnd k poe = some (k', pts)) : pts ≠ [] := by
  unfold searchPoints at h
  simp only [Option.bind_eq_bind, Option.bind_eq_some_iff] at h
  obtain ⟨⟨a, b⟩, _, h⟩ := h
  simp only [Option.pure_def, Option.some.injEq, Prod.mk.injEq] at h
  rw [← h.2]; exact insertPoint_ne_nil _ _

/-- Outcome of one attempt. -/
theorem attempt_spec {rnd : ℕ → ℝ} {poe : Poe} {k k' : ℕ} {r : Option (List Subproblem)}
    (h : attempt rnd k poe = some (k', r)) :
    (∀ subs, r = some subs → (subs.flatMap Subproblem.ids).Perm (List.range poe.exps.length) ∧
      ∀ sp ∈ subs, Subproblem.Uses poe.exps sp ∧ Subproblem.Chosen sp) := by
  unfold attempt at h
  simp only [Option.bind_eq_bind, Option.bind_eq_some_iff] at h
  obtain ⟨⟨a, pts⟩, hp, s, hs, h⟩ := h
  simp only [Option.pure_def, Option.some.injEq, Prod.mk.injEq] at h
  obtain ⟨s', h1, hinv, _⟩ := searchSolutions_total poe.exps (searchPoints_ne_nil hp)
  rw [hs] at h1
  obtain rfl := Option.some.inj h1
  intro subs hsub
  rw [hsub] at h
  obtain ⟨_, h⟩ := h
  split at h
  · rename_i hc
    obtain rfl := Option.some.inj h
    refine ⟨?_, hinv.uses⟩
    rw [List.perm_ext_iff_of_nodup hinv.nodup List.nodup_range]
    intro j
    rw [List.mem_range]
    refine ⟨hinv.lt j, fun hj => ?_⟩
    have hall : ∀ t ∈ s.terms, t.known = true := by
      have hc' : s.terms.countP (·.known) = s.terms.length := by rw [hc, hinv.len]
      exact List.countP_eq_length.mp hc'
    have hk := hinv.known j hj
    have hjl : j < s.terms.length := by rw [hinv.len]; exact hj
    rw [List.getElem?_eq_getElem hjl] at hk
    simp only [Option.map_some, Option.some.injEq] at hk
    rw [hall _ (List.getElem_mem hjl)] at hk
    simpa using hk.symm
  · cases h

theorem reverseSelf_unit {poe : Poe} (hu : ∀ e ∈ poe.exps, e.Unit) (ht : poe.tool.IsRigid) :
    ∀ e ∈ poe.reverseSelf.exps, e.Unit := by
  intro e he
  simp only [Poe.reverseSelf, List.mem_reverse, List.mem_map] at he
  obtain ⟨a, ha, rfl⟩ := he
  exact MatrixExp.changeBase_unit (hu a ha) ht.inv

end Builder

end KD
