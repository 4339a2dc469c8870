import Verif.Screw.SignatureLemmas

/-!
# The search for every set of points
-/

namespace KD.Sig

open Builder

open scoped Classical

theorem refresh_fresh (ts : List PoeTerm) : refresh ts = refresh ((knowns ts).map fun k => ⟨k, false⟩) := by
  unfold refresh knowns
  rw [List.map_map, List.map_map]
  rfl

theorem step_eq {T : Tab} {es : List MatrixExp} (h : Tells T es) (d : ℕ) (p q : Vec3) (ts : List PoeTerm) :
    (trySolve es d p q (simplify es d p q (refresh ts))).map (fun r => (r.1.count, knowns r.2)) =
      T.step d (mark es p) (mark es q) (knowns ts) := by
  unfold Tab.step
  rw [← refresh_fresh, ← simplify_eq h, ← trySolve_eq h, Option.map_map]
  rfl

theorem step_zero (T : Tab) (m x y : Mark) (K : List Bool) : T.step 0 m x K = T.step 0 m y K := rfl

/-- What was tried in vain when the search has come to a state. -/
structure Track (T : Tab) (es : List MatrixExp) (pts : List Vec3) (R : List St) (s : Search) (u : Bool) : Prop where
  state : ⟨knowns s.terms, (s.steps.map Subproblem.count).prod, u⟩ ∈ R
  here : pts[s.it0]? = some s.tp0
  other : s.tp1 ∈ pts
  pair : u = false → pts[s.it1]? = some s.tp1
  zero : s.depth = 0 → s.it1 = 0
  before : s.depth = 0 → ∀ (i : ℕ) (p : Vec3), i < s.it0 → pts[i]? = some p →
    T.step 0 (mark es p) [] (knowns s.terms) = none
  ones : s.depth ≠ 0 → ∀ p ∈ pts, T.step 0 (mark es p) [] (knowns s.terms) = none
  rows : u = false → s.depth = 1 → ∀ (j : ℕ) (p q : Vec3), j < s.it1 → p ∈ pts → pts[j]? = some q →
    T.step 1 (mark es p) (mark es q) (knowns s.terms) = none
  row : s.depth = 1 → ∀ (i : ℕ) (p : Vec3), i < s.it0 → pts[i]? = some p →
    T.step 1 (mark es p) (mark es s.tp1) (knowns s.terms) = none
  twos : u = false → s.depth = 2 → ∀ p ∈ pts, ∀ q ∈ pts,
    T.step 1 (mark es p) (mark es q) (knowns s.terms) = none

section

variable {T : Tab} {es : List MatrixExp} {pts : List Vec3} {R : List St}

theorem Track.initial (h : Tells T es) (hp : pts ≠ []) (hR : T.start ∈ R) :
    Track T es pts R (initial es.length pts) false := by
  have hpos : 0 < pts.length := List.length_pos_iff.mpr hp
  have h0 : pts[0]? = some (pts.getD 0 0) := by
    rw [List.getD_eq_getElem?_getD, List.getElem?_eq_getElem hpos]; rfl
  refine ⟨?_, h0, List.mem_of_getElem? h0, fun _ => h0, ?_, ?_, ?_, ?_, ?_, ?_⟩
  · convert hR using 1
    simp only [Builder.initial, Tab.start, h.rot, knowns, List.map_nil, List.prod_nil, List.map_replicate]
    congr 1
    rw [List.map_map]
    exact List.ext_getElem (by simp) (by simp)
  all_goals simp [Builder.initial]

variable {s : Search} {u : Bool}

theorem Track.advance (hi : Inv es pts s) (h : Track T es pts R s u) (hd : s.depth < 2)
    (hf : T.step s.depth (mark es s.tp0) (mark es s.tp1) (knowns s.terms) = none) :
    Track T es pts R (advance pts s) u := by
  have hpos : 0 < pts.length := by have := hi.it0; omega
  have h0 : pts[0]? = some (pts.getD 0 0) := by
    rw [List.getD_eq_getElem?_getD, List.getElem?_eq_getElem hpos]; rfl
  have hget : ∀ i, i < pts.length → pts[i]? = some (pts.getD i 0) := by
    intro i hi
    rw [List.getD_eq_getElem?_getD, List.getElem?_eq_getElem hi]; rfl
  have hit0 := hi.it0
  have hit1 := hi.it1
  unfold Builder.advance
  dsimp only
  by_cases e0 : s.it0 + 1 = pts.length
  · rw [if_pos e0]
    by_cases d0 : s.depth = 0
    · rw [if_pos d0]
      rw [d0] at hf
      have hall : ∀ p ∈ pts, T.step 0 (mark es p) [] (knowns s.terms) = none := by
        intro p hp
        obtain ⟨i, hi, rfl⟩ := List.mem_iff_getElem.mp hp
        by_cases hlt : i < s.it0
        · exact h.before d0 i _ hlt (List.getElem?_eq_getElem hi)
        · have : i = s.it0 := by omega
          subst this
          have := h.here
          rw [List.getElem?_eq_getElem hi, Option.some.injEq] at this
          rw [this]
          exact hf
      refine ⟨h.state, h0, h.other, h.pair, by simp, by simp, fun _ => hall, ?_, by simp, by simp⟩
      intro hu _ j p q hj
      have := h.zero d0
      simp only [] at hj
      omega
    · rw [if_neg d0]
      have d1 : s.depth = 1 := by omega
      rw [d1] at hf
      have hrow : ∀ p ∈ pts, T.step 1 (mark es p) (mark es s.tp1) (knowns s.terms) = none := by
        intro p hp
        obtain ⟨i, hi, rfl⟩ := List.mem_iff_getElem.mp hp
        by_cases hlt : i < s.it0
        · exact h.row d1 i _ hlt (List.getElem?_eq_getElem hi)
        · have : i = s.it0 := by omega
          subst this
          have := h.here
          rw [List.getElem?_eq_getElem hi, Option.some.injEq] at this
          rw [this]
          exact hf
      have hrows : u = false → ∀ (j : ℕ) (p q : Vec3), j < s.it1 + 1 → p ∈ pts → pts[j]? = some q →
          T.step 1 (mark es p) (mark es q) (knowns s.terms) = none := by
        intro hu j p q hj hp hq
        by_cases hlt : j < s.it1
        · exact h.rows hu d1 j p q hlt hp hq
        · have : j = s.it1 := by omega
          subst this
          rw [h.pair hu, Option.some.injEq] at hq
          rw [← hq]
          exact hrow p hp
      by_cases e1 : s.it1 + 1 = pts.length
      · rw [if_pos e1, if_pos d1]
        refine ⟨h.state, h0, List.mem_of_getElem? h0, fun _ => h0, by simp, by simp, fun _ => h.ones d0, by simp,
          by simp, fun hu _ p hp q hq => ?_⟩
        obtain ⟨j, hj, rfl⟩ := List.mem_iff_getElem.mp hq
        exact hrows hu j p _ (by omega) hp (List.getElem?_eq_getElem hj)
      · rw [if_neg e1]
        have hn := hget (s.it1 + 1) (by omega)
        exact ⟨h.state, h0, List.mem_of_getElem? hn, fun _ => hn, fun hc => absurd hc d0, fun hc => absurd hc d0,
          fun _ => h.ones d0, fun hu _ => hrows hu, fun _ i p hi => absurd hi (Nat.not_lt_zero _), fun _ hc => by
          exact absurd (show s.depth = 2 from hc) (by omega)⟩
  · rw [if_neg e0]
    have hn := hget (s.it0 + 1) (by omega)
    have hlast : ∀ (i : ℕ) (p : Vec3), i < s.it0 + 1 → pts[i]? = some p → ¬ i < s.it0 → p = s.tp0 := by
      intro i p hi hp hlt
      have : i = s.it0 := by omega
      subst this
      rw [h.here, Option.some.injEq] at hp
      exact hp.symm
    refine ⟨h.state, hn, h.other, h.pair, h.zero, fun d0 i p hi hp => ?_, h.ones, h.rows, fun d1 i p hi hp => ?_,
      h.twos⟩
    · replace d0 : s.depth = 0 := d0
      by_cases hlt : i < s.it0
      · exact h.before d0 i p hlt hp
      · rw [hlast i p hi hp hlt]
        rw [d0] at hf
        exact hf
    · replace d1 : s.depth = 1 := d1
      by_cases hlt : i < s.it0
      · exact h.row d1 i p hlt hp
      · rw [hlast i p hi hp hlt]
        rw [d1] at hf
        exact hf

variable {sure marks : List Mark} {N : ℕ}

/-- The points are of the kinds given. -/
structure Covers (es : List MatrixExp) (pts : List Vec3) (sure marks : List Mark) : Prop where
  there : ∀ m ∈ sure, ∃ p ∈ pts, mark es p = m
  only : ∀ p ∈ pts, mark es p ∈ marks

theorem holds_next (hR : T.holds sure marks N R = true) {x y : St} (hx : x ∈ R) (hy : y ∈ T.next sure marks x) :
    y ∈ R := by
  simp only [Tab.holds, Bool.and_eq_true, List.all_eq_true] at hR
  simpa using (hR.2 x hx).1 y hy

theorem Track.pass (hT : Tells T es) (hc : Covers es pts sure marks) (hR : T.holds sure marks N R = true)
    (hi : Inv es pts s) (h : Track T es pts R s u) (hd : s.depth < 2) :
    ∃ u', Track T es pts R (pass es pts s) u' := by
  have hpos : 0 < pts.length := by have := hi.it0; omega
  have h0 : pts[0]? = some (pts.getD 0 0) := by
    rw [List.getD_eq_getElem?_getD, List.getElem?_eq_getElem hpos]; rfl
  have hstep := step_eq hT s.depth s.tp0 s.tp1 s.terms
  have hkn := simplified_knowns (es := es) s.depth s.tp0 s.tp1 hi.len
  unfold Builder.pass
  dsimp only
  cases ht : trySolve es s.depth s.tp0 s.tp1 (simplify es s.depth s.tp0 s.tp1 (refresh s.terms)) with
  | none =>
    rw [ht, Option.map_none] at hstep
    refine ⟨u, Track.advance (s := { s with terms := _ }) ?_ ?_ hd (by rw [hkn]; exact hstep.symm)⟩
    · refine ⟨?_, hi.it0, hi.it1, hi.depth, ?_, hi.lt, hi.nodup, hi.uses⟩
      · rw [← hi.len]; exact length_of_knowns hkn
      · intro j hj
        rw [known_get, hkn, ← known_get]
        exact hi.known j hj
    · refine ⟨?_, h.here, h.other, h.pair, h.zero, ?_, ?_, ?_, ?_, ?_⟩
      · rw [hkn]; exact h.state
      · rw [hkn]; exact h.before
      · rw [hkn]; exact h.ones
      · rw [hkn]; exact h.rows
      · rw [hkn]; exact h.row
      · rw [hkn]; exact h.twos
  | some r =>
    obtain ⟨sp, ts'⟩ := r
    rw [ht, Option.map_some] at hstep
    dsimp only
    have hprod : ((s.steps ++ [sp]).map Subproblem.count).prod = (s.steps.map Subproblem.count).prod * sp.count := by
      simp
    by_cases d0 : s.depth = 0
    · refine ⟨u, ?_, h0, h.other, fun hu => ?_, fun _ => rfl, fun _ i p hi => absurd hi (Nat.not_lt_zero _), by simp, by simp, by simp, by simp⟩
      · rw [hprod]
        refine holds_next hR h.state ?_
        unfold Tab.next
        apply List.mem_append_left
        rw [List.mem_filterMap]
        refine ⟨mark es s.tp0, hc.only _ (List.mem_of_getElem? h.here), ?_⟩
        rw [d0] at hstep
        rw [step_zero T _ [] (mark es s.tp1), ← hstep]
        rfl
      · have := h.pair hu
        rwa [h.zero d0] at this
    · have d1 : s.depth = 1 := by omega
      refine ⟨true, ?_, h0, h.other, by simp, fun _ => rfl, fun _ i p hi => absurd hi (Nat.not_lt_zero _), by simp, by simp, by simp, by simp⟩
      rw [hprod]
      refine holds_next hR h.state ?_
      unfold Tab.next
      apply List.mem_append_right
      rw [if_neg]
      · rw [List.mem_flatMap]
        refine ⟨mark es s.tp0, hc.only _ (List.mem_of_getElem? h.here), ?_⟩
        rw [List.mem_filterMap]
        refine ⟨mark es s.tp1, hc.only _ h.other, ?_⟩
        rw [d1] at hstep
        rw [← hstep]
        rfl
      · intro hl
        obtain ⟨m, hm, hs⟩ := List.any_eq_true.mp hl
        obtain ⟨p, hp, rfl⟩ := hc.there m hm
        rw [h.ones d0 p hp] at hs
        cases hs

theorem Track.loop (hT : Tells T es) (hc : Covers es pts sure marks) (hR : T.holds sure marks N R = true) (fuel : ℕ) :
    ∀ (s s' : Search) (u : Bool), Inv es pts s → Track T es pts R s u → s.depth < 2 →
      searchLoop es pts fuel s = some s' → ∃ u', Track T es pts R s' u' := by
  induction fuel with
  | zero => intro s s' u _ _ _ h; cases h
  | succ n ih =>
    intro s s' u hi ht hd h
    obtain ⟨u', ht'⟩ := ht.pass hT hc hR hi hd
    unfold searchLoop at h
    dsimp only at h
    by_cases hg : goesOn (Builder.pass es pts s) = true
    · rw [if_pos hg] at h
      refine ih _ _ u' hi.pass ht' ?_ h
      simp only [goesOn, Bool.and_eq_true, decide_eq_true_eq] at hg
      exact hg.1
    · rw [if_neg hg, Option.some.injEq] at h
      exact ⟨u', h ▸ ht'⟩

/-- For any points of the kinds given: if all terms are known in the end then the problem has `N` solutions, and they
are if the search goes on until then. -/
theorem search_of_table (hT : Tells T es) (hne : pts ≠ []) (hc : Covers es pts sure marks)
    (hR : T.holds sure marks N R = true) :
    ∃ s, searchSolutions es pts = some s ∧
      (s.terms.countP (·.known) = es.length → (s.steps.map Subproblem.count).prod = N) ∧
      (T.goes sure R = true → s.terms.countP (·.known) = es.length) := by
  obtain ⟨s, h1, hi, hg, -⟩ := searchSolutions_total es hne
  have hst : T.start ∈ R := by
    simp only [Tab.holds, Bool.and_eq_true] at hR
    simpa using hR.1
  obtain ⟨u, ht⟩ := Track.loop hT hc hR _ _ _ _ (Inv.initial hne) (Track.initial hT hne hst)
    (by simp [Builder.initial]) h1
  have hall : s.terms.countP (·.known) = es.length ↔
      St.done ⟨knowns s.terms, (s.steps.map Subproblem.count).prod, u⟩ = true := by
    rw [← hi.len, List.countP_eq_length]
    simp [St.done, knowns]
  refine ⟨s, h1, fun hk => ?_, fun hgo => ?_⟩
  · simp only [Tab.holds, Bool.and_eq_true, List.all_eq_true] at hR
    have := (hR.2 _ ht.state).2
    rw [hall.mp hk] at this
    simpa using this
  · rw [hall]
    by_contra hnd
    have := List.all_eq_true.mp hgo _ ht.state
    rw [Bool.not_eq_true] at hnd
    rw [hnd] at this
    have hd : s.depth = 2 := by
      have h2 := hi.depth
      by_contra hd
      have : goesOn s = true := by
        unfold goesOn
        rw [Bool.and_eq_true]
        refine ⟨by simpa using (by omega : s.depth < 2), ?_⟩
        rw [bne_iff_ne]
        intro hz
        rw [List.countP_eq_zero] at hz
        have : St.done ⟨knowns s.terms, (s.steps.map Subproblem.count).prod, u⟩ = true := by
          simp only [St.done, knowns, List.all_map, List.all_eq_true]
          intro t ht
          simpa [PoeTerm.isUnknown] using hz t ht
        rw [hnd] at this
        cases this
      rw [hg] at this
      cases this
    simp only [Bool.false_or, Bool.or_eq_true, Bool.and_eq_true, Bool.not_eq_true'] at this
    rcases this with hl | ⟨hu, hl⟩
    · obtain ⟨m, hm, hs⟩ := List.any_eq_true.mp hl
      obtain ⟨p, hp, rfl⟩ := hc.there m hm
      rw [ht.ones (by omega) p hp] at hs
      cases hs
    · obtain ⟨m, hm, hs⟩ := List.any_eq_true.mp hl
      obtain ⟨m', hm', hs⟩ := List.any_eq_true.mp hs
      obtain ⟨p, hp, rfl⟩ := hc.there m hm
      obtain ⟨q, hq, rfl⟩ := hc.there m' hm'
      rw [ht.twos hu hd p hp q hq] at hs
      cases hs

end

end KD.Sig
