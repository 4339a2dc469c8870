import Verif.Screw.Builder

/-! Helper lemmas about the builder. -/

namespace KD

open scoped Classical

namespace Builder

/-- Known flags of the terms. -/
def knowns (ts : List PoeTerm) : List Bool := ts.map PoeTerm.known

theorem knowns_length (ts : List PoeTerm) : (knowns ts).length = ts.length := by simp [knowns]

theorem markLeading_knowns (ts : List PoeTerm) : knowns (markLeading ts) = knowns ts := by
  induction ts with
  | nil => rfl
  | cons t ts ih =>
    unfold markLeading
    split
    · simp only [knowns, List.map_cons] at ih ⊢; rw [ih]
    · rfl

theorem knowns_reverse (ts : List PoeTerm) : knowns ts.reverse = (knowns ts).reverse := by
  simp [knowns]

theorem refresh_knowns (ts : List PoeTerm) : knowns (refresh ts) = knowns ts := by
  unfold refresh
  rw [knowns_reverse, markLeading_knowns, knowns_reverse, List.reverse_reverse, markLeading_knowns]
  simp [knowns]

theorem markWhileOnAxis_knowns (p : Vec3) (l : List (MatrixExp × PoeTerm)) :
    knowns (markWhileOnAxis p l) = knowns (l.map Prod.snd) := by
  induction l with
  | nil => rfl
  | cons a l ih =>
    obtain ⟨e, t⟩ := a
    unfold markWhileOnAxis
    split
    · simp only [knowns, List.map_cons] at ih ⊢; rw [ih]
    · rfl

theorem markFromUnknown_knowns (p : Vec3) (l : List (MatrixExp × PoeTerm)) :
    knowns (markFromUnknown p l) = knowns (l.map Prod.snd) := by
  induction l with
  | nil => rfl
  | cons a l ih =>
    obtain ⟨e, t⟩ := a
    unfold markFromUnknown
    split
    · exact markWhileOnAxis_knowns p _
    · simp only [knowns, List.map_cons] at ih ⊢; rw [ih]

theorem zip_snd {es : List MatrixExp} {ts : List PoeTerm} (h : ts.length = es.length) :
    (es.zip ts).map Prod.snd = ts := List.map_snd_zip (by omega)

theorem simplifyPK3_knowns {es : List MatrixExp} {ts : List PoeTerm} (p : Vec3)
    (h : ts.length = es.length) : knowns (simplifyPK3 es p ts) = knowns ts := by
  unfold simplifyPK3; rw [markFromUnknown_knowns, zip_snd h]

theorem simplifyPK1_knowns {es : List MatrixExp} {ts : List PoeTerm} (p : Vec3)
    (h : ts.length = es.length) : knowns (simplifyPK1 es p ts) = knowns ts := by
  unfold simplifyPK1
  rw [knowns_reverse, markFromUnknown_knowns, List.map_reverse, zip_snd h, knowns_reverse,
    List.reverse_reverse]

theorem markRange_knowns (a b : ℕ) (ts : List PoeTerm) : knowns (markRange a b ts) = knowns ts := by
  apply List.ext_getElem
  · simp [knowns, markRange]
  · intro i h1 h2
    simp only [knowns, markRange, List.getElem_map, List.getElem_mapIdx]
    split <;> rfl

theorem simplifyPG1_knowns (es : List MatrixExp) (ts : List PoeTerm) :
    knowns (simplifyPG1 es ts) = knowns ts := by
  unfold simplifyPG1
  simp only []
  split
  · rfl
  · split
    · split
      · split
        · rw [markRange_knowns]
        · rfl
      · split
        · split
          · rw [markRange_knowns]
          · rfl
        · rfl
    · rfl

theorem simplify_knowns {es : List MatrixExp} {ts : List PoeTerm} (d : ℕ) (p q : Vec3)
    (h : ts.length = es.length) : knowns (simplify es d p q ts) = knowns ts := by
  have h1 := simplifyPK1_knowns p h
  have h2 : (simplifyPK1 es p ts).length = es.length := by
    rw [← knowns_length, h1, knowns_length, h]
  unfold simplify
  simp only []
  split
  · rw [simplifyPK3_knowns q h2, h1]
  · split
    · rw [simplifyPG1_knowns, h1]
    · exact h1

theorem simplified_knowns {es : List MatrixExp} {ts : List PoeTerm} (d : ℕ) (p q : Vec3)
    (h : ts.length = es.length) : knowns (simplify es d p q (refresh ts)) = knowns ts := by
  have h1 : (refresh ts).length = es.length := by
    rw [← knowns_length, refresh_knowns, knowns_length, h]
  rw [simplify_knowns d p q h1, refresh_knowns]

theorem countP_unknown (ts : List PoeTerm) :
    ts.countP PoeTerm.isUnknown = (knowns ts).count false := by
  induction ts with
  | nil => rfl
  | cons t ts ih =>
    obtain ⟨k, s⟩ := t
    simp only [knowns, List.map_cons, List.countP_cons, List.count_cons] at ih ⊢
    rw [ih]
    cases k <;> simp [PoeTerm.isUnknown]

theorem countP_known (ts : List PoeTerm) :
    ts.countP (·.known) = (knowns ts).count true := by
  induction ts with
  | nil => rfl
  | cons t ts ih =>
    obtain ⟨k, s⟩ := t
    simp only [knowns, List.map_cons, List.countP_cons, List.count_cons] at ih ⊢
    rw [ih]
    cases k <;> simp

/-! ### Open terms -/

/-- The open terms are exactly those with index in `l`. -/
def OnlyOpen (ts : List PoeTerm) (l : List ℕ) : Prop :=
  ∀ j, (∃ t, ts[j]? = some t ∧ t.open_ = true) ↔ j ∈ l

theorem open_indices_le {ts : List PoeTerm} {l : List ℕ} (hn : l.Nodup)
    (h : ∀ j ∈ l, ∃ t, ts[j]? = some t ∧ t.open_ = true) : l.length ≤ ts.countP PoeTerm.open_ := by
  have hc : ts.countP PoeTerm.open_ =
      ((List.range ts.length).filter fun i => ((ts[i]?).map PoeTerm.open_).getD false).length := by
    rw [← List.countP_eq_length_filter]
    conv_lhs => rw [← List.map_getElem_finRange ts]
    rw [List.countP_map]
    have : List.range ts.length = (List.finRange ts.length).map Fin.val := by
      rw [List.map_coe_finRange_eq_range]
    rw [this, List.countP_map]
    apply List.countP_congr
    intro i _
    simp
  rw [hc]
  apply List.Subperm.length_le
  apply List.Nodup.subperm hn
  intro j hj
  obtain ⟨t, h1, h2⟩ := h j hj
  have hlt := (List.getElem?_eq_some_iff.mp h1).1
  simp only [List.mem_filter, List.mem_range, hlt, true_and, h1, Option.map_some, Option.getD_some, h2]

theorem onlyOpen_of_count {ts : List PoeTerm} {l : List ℕ} (hn : l.Nodup)
    (h : ∀ j ∈ l, ∃ t, ts[j]? = some t ∧ t.open_ = true) (hc : ts.countP PoeTerm.open_ = l.length) :
    OnlyOpen ts l := by
  intro j
  refine ⟨fun hj => ?_, h j⟩
  by_contra hnj
  have := open_indices_le (ts := ts) (l := j :: l) (List.nodup_cons.mpr ⟨hnj, hn⟩) (by
    intro i hi
    rcases List.mem_cons.mp hi with rfl | hi
    · exact hj
    · exact h i hi)
  simp only [List.length_cons] at this
  omega

theorem lastOpen_spec {ts : List PoeTerm} (h : ts.countP PoeTerm.open_ ≠ 0) :
    0 < lastOpen ts ∧ lastOpen ts ≤ ts.length ∧
    (∃ t, ts[lastOpen ts - 1]? = some t ∧ t.open_ = true) ∧
    ∀ j, lastOpen ts ≤ j → ∀ t, ts[j]? = some t → t.open_ = false := by
  have hex : ∃ t ∈ ts.reverse, PoeTerm.open_ t = true := by
    by_contra hn
    push Not at hn
    apply h
    rw [List.countP_eq_zero]
    intro t ht
    exact hn t (List.mem_reverse.mpr ht)
  have hlt : ts.reverse.findIdx PoeTerm.open_ < ts.reverse.length := List.findIdx_lt_length.mpr hex
  have hlen : ts.reverse.length = ts.length := List.length_reverse
  have hget := List.findIdx_getElem (w := hlt)
  refine ⟨by unfold lastOpen; omega, by unfold lastOpen; omega, ?_, ?_⟩
  · have hidx : ts.length - 1 - ts.reverse.findIdx PoeTerm.open_ = lastOpen ts - 1 := by
      unfold lastOpen; omega
    rw [List.getElem_reverse] at hget
    simp only [hidx] at hget
    have hl : lastOpen ts - 1 < ts.length := by omega
    exact ⟨ts[lastOpen ts - 1], List.getElem?_eq_getElem hl, hget⟩
  · intro j hj t ht
    have hjl := (List.getElem?_eq_some_iff.mp ht).1
    have := List.not_of_lt_findIdx (p := PoeTerm.open_) (xs := ts.reverse)
      (i := ts.length - 1 - j) (by unfold lastOpen at hj; omega)
    rw [List.getElem_reverse] at this
    have hidx : ts.length - 1 - (ts.length - 1 - j) = j := by omega
    simp only [hidx] at this
    rw [List.getElem?_eq_getElem hjl] at ht
    rw [Option.some.inj ht] at this
    simpa using this

/-! ### What `trySolve` finds -/

/-- Outcomes with one open term. -/
def One (depth : ℕ) (tp0 tp1 : Vec3) (ts : List PoeTerm) (i : ℕ) (e : MatrixExp)
    (sp : Subproblem) : Prop :=
  (depth = 0 ∧ e.motion = .rotation ∧ ¬ liesOnAxis e tp0 ∧ sp = .pk1 i e tp0) ∨
  (depth = 0 ∧ e.motion = .translation ∧ sp = .pg1 i e tp0) ∨
  (depth = 1 ∧ (∀ t ∈ ts, t.knownOpen = false) ∧ e.motion = .rotation ∧ ¬ liesOnAxis e tp0 ∧
    ¬ liesOnAxis e tp1 ∧ sp = .pk3 i e tp0 tp1) ∨
  (depth = 1 ∧ (∀ t ∈ ts, t.knownOpen = false) ∧ e.motion = .translation ∧ sp = .pg3 i e tp0 tp1)

/-- Outcomes with two open terms. -/
def Two (depth : ℕ) (tp0 : Vec3) (i : ℕ) (e1 e2 : MatrixExp) (sp : Subproblem) : Prop :=
  depth = 0 ∧
  ((e1.motion = .rotation ∧ e2.motion = .rotation ∧ ¬ parallelAxes e2 e1 ∧
      ∃ r, intersectingAxes e2 e1 = some r ∧ sp = .pk2 i (i + 1) e1 e2 tp0 r) ∨
   (e1.motion = .translation ∧ e2.motion = .translation ∧ ¬ parallelAxes e2 e1 ∧
      sp = .pg2 i (i + 1) e1 e2 tp0) ∨
   (e1.motion = .rotation ∧ e2.motion = .rotation ∧ parallelAxes e2 e1 ∧
      ¬ colinearAxes e2 e1 ∧ sp = .pg4 i (i + 1) e1 e2 tp0))

theorem trySolve_cases {es : List MatrixExp} {depth : ℕ} {tp0 tp1 : Vec3} {ts ts' : List PoeTerm}
    {sp : Subproblem} (h : trySolve es depth tp0 tp1 ts = some (sp, ts')) :
    (∃ i e, es[i]? = some e ∧ OnlyOpen ts [i] ∧ ts' = setKnown ts i ∧ One depth tp0 tp1 ts i e sp) ∨
    (∃ i e1 e2, es[i]? = some e1 ∧ es[i + 1]? = some e2 ∧ OnlyOpen ts [i, i + 1] ∧
      ts' = setKnown (setKnown ts (i + 1)) i ∧ Two depth tp0 i e1 e2 sp) := by
  unfold trySolve at h
  simp only [] at h
  split at h
  · cases h
  rename_i hcnt
  push Not at hcnt
  obtain ⟨l1, l2, l3, l4⟩ := lastOpen_spec hcnt.1
  split at h
  · cases h
  rename_i lastExp hle
  split at h
  · rename_i h1
    left
    have hoo : OnlyOpen ts [lastOpen ts - 1] :=
      onlyOpen_of_count (by simp) (by intro j hj; rw [List.mem_singleton.mp hj]; exact l3) (by simpa)
    split at h
    · rename_i hd
      split at h
      · rename_i hc
        simp only [Option.some.injEq, Prod.mk.injEq] at h
        exact ⟨_, _, hle, hoo, h.2.symm, Or.inl ⟨hd, hc.1, hc.2, h.1.symm⟩⟩
      · split at h
        · rename_i hc
          simp only [Option.some.injEq, Prod.mk.injEq] at h
          exact ⟨_, _, hle, hoo, h.2.symm, Or.inr (Or.inl ⟨hd, hc, h.1.symm⟩)⟩
        · cases h
    · split at h
      · rename_i hd
        split at h
        · cases h
        · rename_i hk
          have hk' : ∀ t ∈ ts, t.knownOpen = false := by
            intro t ht
            by_contra hc
            exact hk (List.any_eq_true.mpr ⟨t, ht, by simpa using hc⟩)
          split at h
          · rename_i hc
            simp only [Option.some.injEq, Prod.mk.injEq] at h
            exact ⟨_, _, hle, hoo, h.2.symm,
              Or.inr (Or.inr (Or.inl ⟨hd, hk', hc.1, hc.2.1, hc.2.2, h.1.symm⟩))⟩
          · split at h
            · rename_i hc
              simp only [Option.some.injEq, Prod.mk.injEq] at h
              exact ⟨_, _, hle, hoo, h.2.symm, Or.inr (Or.inr (Or.inr ⟨hd, hk', hc, h.1.symm⟩))⟩
            · cases h
      · cases h
  · rename_i h1
    right
    have h2 : ts.countP PoeTerm.open_ = 2 := by omega
    -- the rightmost open term is not the first one
    have hpos : 1 < lastOpen ts := by
      by_contra hle1
      have h0 : lastOpen ts = 1 := by omega
      have := onlyOpen_of_count (ts := ts) (l := [0]) (by simp) (by
        intro j hj
        rw [List.mem_singleton.mp hj]
        rw [h0] at l3; exact l3)
      have hcl : ts.countP PoeTerm.open_ ≤ 1 := by
        cases ts with
        | nil => simp
        | cons t ts =>
          have : ts.countP PoeTerm.open_ = 0 := by
            rw [List.countP_eq_zero]
            intro u hu
            obtain ⟨j, hj, rfl⟩ := List.mem_iff_getElem.mp hu
            have := l4 (j + 1) (by omega) ts[j] (by simp)
            simp [this]
          rw [List.countP_cons, this]
          split <;> omega
      omega
    split at h
    · rename_i t e1 ht he1
      split at h
      · cases h
      · rename_i hopen
        have hidx : lastOpen ts - 1 - 1 + 1 = lastOpen ts - 1 := by omega
        split at h
        · rename_i hd
          have hoo : OnlyOpen ts [lastOpen ts - 1 - 1, lastOpen ts - 1 - 1 + 1] := by
            apply onlyOpen_of_count
            · simp
            · intro j hj
              simp only [List.mem_cons, List.not_mem_nil, or_false] at hj
              rcases hj with rfl | rfl
              · exact ⟨t, ht, by simpa using hopen⟩
              · rw [hidx]; exact l3
            · simpa using h2
          refine ⟨lastOpen ts - 1 - 1, e1, lastExp, he1, by rw [hidx]; exact hle, hoo, ?_⟩
          split at h
          · rename_i hc
            split at h
            · rename_i r hr
              simp only [Option.some.injEq, Prod.mk.injEq] at h
              refine ⟨by rw [hidx]; exact h.2.symm, hd, Or.inl ⟨hc.2.1, hc.1, hc.2.2.1, r, hr, ?_⟩⟩
              rw [hidx]; exact h.1.symm
            · cases h
          · split at h
            · rename_i hc
              simp only [Option.some.injEq, Prod.mk.injEq] at h
              refine ⟨by rw [hidx]; exact h.2.symm, hd, Or.inr (Or.inl ⟨hc.2.1, hc.1, hc.2.2, ?_⟩)⟩
              rw [hidx]; exact h.1.symm
            · split at h
              · rename_i hc
                simp only [Option.some.injEq, Prod.mk.injEq] at h
                refine ⟨by rw [hidx]; exact h.2.symm, hd,
                  Or.inr (Or.inr ⟨hc.2.1, hc.1, hc.2.2.1, hc.2.2.2, ?_⟩)⟩
                rw [hidx]; exact h.1.symm
              · cases h
        · cases h
    · cases h

/-- Ids of the subproblem found: open terms, distinct, and exactly the ones marked. -/
theorem trySolve_ids {es : List MatrixExp} {depth : ℕ} {tp0 tp1 : Vec3} {ts ts' : List PoeTerm}
    {sp : Subproblem} (h : trySolve es depth tp0 tp1 ts = some (sp, ts')) :
    sp.ids.Nodup ∧ sp.ids ≠ [] ∧ OnlyOpen ts sp.ids ∧
    ∀ j, (ts'[j]?).map PoeTerm.known = if j ∈ sp.ids then (ts[j]?).map (fun _ => true)
      else (ts[j]?).map PoeTerm.known := by
  have hset : ∀ (ts : List PoeTerm) (i j : ℕ), ((setKnown ts i)[j]?).map PoeTerm.known =
      if j = i then (ts[j]?).map (fun _ => true) else (ts[j]?).map PoeTerm.known := by
    intro ts i j
    unfold setKnown
    rw [List.getElem?_mapIdx]
    cases ts[j]? with
    | none => simp
    | some t => simp only [Option.map_some]; split <;> simp
  have hsetn : ∀ (ts : List PoeTerm) (i j : ℕ), ((setKnown ts i)[j]?).map (fun _ => true) =
      (ts[j]?).map (fun _ => true) := by
    intro ts i j
    unfold setKnown
    rw [List.getElem?_mapIdx]
    cases ts[j]? with
    | none => simp
    | some t => simp
  rcases trySolve_cases h with ⟨i, e, _, hoo, rfl, hone⟩ | ⟨i, e1, e2, _, _, hoo, rfl, _, htwo⟩
  · have hid : sp.ids = [i] := by
      rcases hone with h | h | h | h
      · rw [h.2.2.2]; rfl
      · rw [h.2.2]; rfl
      · rw [h.2.2.2.2.2]; rfl
      · rw [h.2.2.2]; rfl
    rw [hid]
    refine ⟨by simp, by simp, hoo, fun j => ?_⟩
    rw [hset]; simp
  · have hid : sp.ids = [i, i + 1] := by
      rcases htwo with ⟨_, _, _, r, _, h⟩ | ⟨_, _, _, h⟩ | ⟨_, _, _, _, h⟩ <;> rw [h] <;> rfl
    rw [hid]
    refine ⟨by simp, by simp, hoo, fun j => ?_⟩
    rw [hset]
    by_cases h1 : j = i
    · subst h1; simp [hsetn]
    · rw [if_neg h1, hset]
      by_cases h2 : j = i + 1
      · subst h2; simp
      · simp [h1, h2]

end Builder

end KD
