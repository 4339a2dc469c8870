import Verif.Screw.BuilderSearch
import Verif.Screw.SimplifyLemmas

/-! Where the joints of a Paden-Kahan step lie among the joints solved before. -/

namespace KD

open scoped Classical

namespace Builder

/-- The joints left of `m` are in `before`; those right of `M` are, or rotate about an axis
through `p`. -/
def Around (es : List MatrixExp) (before : List ℕ) (m M : ℕ) (p : Vec3) : Prop :=
  (∀ j, j < m → j ∈ before) ∧
  ∀ j e, M < j → es[j]? = some e → j ∈ before ∨ (e.motion = .rotation ∧ liesOnAxis e p)

/-- Holds when the builder picks the first two Paden-Kahan subproblems. -/
def Placed (es : List MatrixExp) (before : List ℕ) : Subproblem → Prop
  | .pk1 i _ p => Around es before i i p
  | .pk2 i j _ _ p _ => j = i + 1 ∧ Around es before i j p
  | _ => True

theorem around_known {es : List MatrixExp} {ts : List PoeTerm} (h : ts.length = es.length)
    (p : Vec3) {l : List ℕ} (ho : OnlyOpen (simplifyPK1 es p (refresh ts)) l) {m M : ℕ} (hm : m ∈ l)
    (hmin : ∀ j ∈ l, m ≤ j) (hmax : ∀ j ∈ l, j ≤ M) :
    (∀ j, j < m → (ts[j]?).map PoeTerm.known = some true) ∧
    ∀ j e, M < j → es[j]? = some e → (ts[j]?).map PoeTerm.known = some true ∨
      (e.motion = .rotation ∧ liesOnAxis e p) := by
  have hr : (refresh ts).length = es.length := by rw [refresh_length, h]
  obtain ⟨l3, l2, l1, h1, h2, h3, h4, h5⟩ := simplifyPK1_split hr p
  have hrs : refresh ts = (l3 ++ (l2 ++ l1)).map Prod.snd := by
    rw [← h1, List.map_snd_zip (by omega)]
  have hkn : ∀ j : ℕ, (ts[j]?).map PoeTerm.known = ((simplifyPK1 es p (refresh ts))[j]?).map PoeTerm.known := by
    intro j
    rw [known_get, known_get, simplifyPK1_knowns p hr, refresh_knowns]
  have hlen : (simplifyPK1 es p (refresh ts)).length = es.length := by rw [simplifyPK1_length p hr, hr]
  have hsame : ∀ j, j < l3.length → (simplifyPK1 es p (refresh ts))[j]? = (refresh ts)[j]? := by
    intro j hj
    rw [h5, List.getElem?_append_left (by simpa using hj), hrs, List.map_append,
      List.getElem?_append_left (by simpa using hj)]
  have hfirst : ∀ j u, j < l3.length → j ∉ l → (simplifyPK1 es p (refresh ts))[j]? = some u → u.known = true := by
    intro j u hj hn hu
    by_contra hk
    have hsim : u.simplified = true := by
      by_contra hs
      exact hn ((ho j).mp ⟨u, hu, by simp [PoeTerm.open_, hk, hs]⟩)
    rw [hsame j hj] at hu
    exact hk (refresh_simplified_known u (List.mem_of_getElem? hu) hsim)
  have hml : m < l3.length := by
    obtain ⟨t, ht, hto⟩ := (ho m).mpr hm
    by_contra hge
    have hmem : t ∈ (l2.map (fun a => (⟨a.2.known, true⟩ : PoeTerm)) ++ l1.map Prod.snd) := by
      rw [h5, List.getElem?_append_right (by simpa using hge)] at ht
      exact List.mem_of_getElem? ht
    rcases List.mem_append.mp hmem with hm | hm
    · obtain ⟨a, _, rfl⟩ := List.mem_map.mp hm
      simp [PoeTerm.open_] at hto
    · obtain ⟨a, ha, rfl⟩ := List.mem_map.mp hm
      simp [PoeTerm.open_, h2 a ha] at hto
  refine ⟨fun j hj => ?_, fun j e hj he => ?_⟩
  · rw [hkn]
    have hjl : j < (simplifyPK1 es p (refresh ts)).length := by
      have hl := congrArg List.length h5
      simp only [List.length_append, List.length_map] at hl
      omega
    rw [List.getElem?_eq_getElem hjl, Option.map_some,
      hfirst j _ (by omega) (fun hc => by have := hmin j hc; omega) (List.getElem?_eq_getElem hjl)]
  · rw [hkn]
    have hje : j < es.length := (List.getElem?_eq_some_iff.mp he).1
    have hjl : j < (simplifyPK1 es p (refresh ts)).length := by omega
    have hg := List.getElem?_eq_getElem hjl
    by_cases hj3 : j < l3.length
    · left
      rw [hg, Option.map_some, hfirst j _ hj3 (fun hc => by have := hmax j hc; omega) hg]
    · by_cases hj2 : j < l3.length + l2.length
      · right
        have hz : (es.zip (refresh ts))[j]? = some l2[j - l3.length] := by
          rw [h1, List.getElem?_append_right (by omega), List.getElem?_append_left (by omega),
            List.getElem?_eq_getElem]
        have := (List.getElem?_zip_eq_some.mp hz).1
        rw [he] at this
        rw [Option.some.inj this]
        exact h3 _ (List.getElem_mem _)
      · left
        have hl := congrArg List.length h5
        simp only [List.length_append, List.length_map] at hl
        rw [h5, List.getElem?_append_right (by simp; omega), List.getElem?_append_right (by simp; omega)]
        simp only [List.length_map, List.getElem?_map]
        rw [List.getElem?_eq_getElem (by omega)]
        simp [h2 _ (List.getElem_mem _)]

/-- Every step found so far was placed like that. -/
def Seq (es : List MatrixExp) (subs : List Subproblem) : Prop :=
  ∀ i sp, subs[i]? = some sp → Placed es ((subs.take i).flatMap Subproblem.ids) sp

theorem Seq.append {es : List MatrixExp} {subs : List Subproblem} {sp : Subproblem} (h : Seq es subs)
    (hp : Placed es (subs.flatMap Subproblem.ids) sp) : Seq es (subs ++ [sp]) := by
  intro i s hs
  by_cases hi : i < subs.length
  · rw [List.getElem?_append_left hi] at hs
    rw [List.take_append_of_le_length hi.le]
    exact h i s hs
  · rw [List.getElem?_append_right (by omega)] at hs
    have : i = subs.length := by
      by_contra hne
      rw [List.getElem?_eq_none (by simp; omega)] at hs
      cases hs
    subst this
    simp only [Nat.sub_self, List.getElem?_cons_zero, Option.some.injEq] at hs
    subst hs
    rwa [List.take_left]

theorem advance_steps (pts : List Vec3) (s : Search) : (advance pts s).steps = s.steps := by
  unfold Builder.advance
  simp only []
  split
  · split
    · rfl
    · split
      · split <;> rfl
      · rfl
  · rfl

theorem Seq.pass {es : List MatrixExp} {pts : List Vec3} {s : Search} (hi : Inv es pts s)
    (hrot : ∀ e ∈ es, e.motion = .rotation) (h : Seq es s.steps) : Seq es (pass es pts s).steps := by
  unfold Builder.pass
  simp only []
  split
  · rename_i sp ts' hs
    apply h.append
    have hsimp : s.depth = 0 → simplify es s.depth s.tp0 s.tp1 (refresh s.terms) =
        simplifyPK1 es s.tp0 (refresh s.terms) := by
      intro hd
      unfold simplify
      simp only [hd]
      rw [if_neg (by omega), if_neg]
      rintro ⟨e, he, hm⟩
      rw [hrot e he] at hm
      cases hm
    have hbef : ∀ j, (s.terms[j]?).map PoeTerm.known = some true → j ∈ s.steps.flatMap Subproblem.ids := by
      intro j hj
      have hjl : j < es.length := by
        by_contra hge
        rw [List.getElem?_eq_none (by rw [hi.len]; omega)] at hj
        cases hj
      rw [hi.known j hjl] at hj
      simpa using hj
    have key : ∀ {l : List ℕ} {m M : ℕ}, s.depth = 0 →
        OnlyOpen (simplify es s.depth s.tp0 s.tp1 (refresh s.terms)) l → m ∈ l → (∀ j ∈ l, m ≤ j) →
        (∀ j ∈ l, j ≤ M) → Around es (s.steps.flatMap Subproblem.ids) m M s.tp0 := by
      intro l m M hd ho hm hmin hmax
      rw [hsimp hd] at ho
      obtain ⟨k1, k2⟩ := around_known hi.len s.tp0 ho hm hmin hmax
      exact ⟨fun j hj => hbef j (k1 j hj), fun j e hj he => (k2 j e hj he).imp (hbef j) id⟩
    rcases trySolve_cases hs with ⟨i, e, he, ho, _, hone⟩ | ⟨i, e1, e2, he1, he2, ho, _, hd, htwo⟩
    · rcases hone with ⟨hd, a, b, rfl⟩ | ⟨_, a, rfl⟩ | ⟨_, _, a, b, c, rfl⟩ | ⟨_, _, a, rfl⟩
      · exact key hd ho (by simp) (by simp) (by simp)
      · trivial
      · trivial
      · trivial
    · rcases htwo with ⟨a, b, c, r, d, rfl⟩ | ⟨a, b, c, rfl⟩ | ⟨a, b, c, d, rfl⟩
      · exact ⟨rfl, key hd ho (by simp) (by simp) (by simp)⟩
      · trivial
      · trivial
  · rw [advance_steps]; exact h

theorem searchLoop_seq {es : List MatrixExp} {pts : List Vec3} (hrot : ∀ e ∈ es, e.motion = .rotation) :
    ∀ (fuel : ℕ) (s s' : Search), Inv es pts s → Seq es s.steps → searchLoop es pts fuel s = some s' →
    Seq es s'.steps := by
  intro fuel
  induction fuel with
  | zero => intro s s' _ _ h; simp [searchLoop] at h
  | succ fuel ih =>
    intro s s' hi hs h
    simp only [searchLoop] at h
    split at h
    · exact ih _ _ hi.pass (hs.pass hi hrot) h
    · rw [← Option.some.inj h]; exact hs.pass hi hrot

theorem attempt_seq {rnd : ℕ → ℝ} {poe : Poe} {k k' : ℕ} {subs : List Subproblem}
    (hrot : ∀ e ∈ poe.exps, e.motion = .rotation) (h : attempt rnd k poe = some (k', some subs)) :
    Seq poe.exps subs := by
  unfold attempt at h
  simp only [Option.bind_eq_bind, Option.bind_eq_some_iff] at h
  obtain ⟨⟨a, pts⟩, hp, s, hs, h⟩ := h
  simp only [Option.pure_def, Option.some.injEq, Prod.mk.injEq] at h
  obtain ⟨_, h⟩ := h
  have := searchLoop_seq hrot _ _ _ (Inv.initial (searchPoints_ne_nil hp))
    (by intro i sp hsp; simp [initial] at hsp) hs
  split at h
  · rw [← Option.some.inj h]; exact this
  · cases h

theorem reverseSelf_motion {poe : Poe} (h : ∀ e ∈ poe.exps, e.motion = .rotation) :
    ∀ e ∈ poe.reverseSelf.exps, e.motion = .rotation := by
  intro e he
  simp only [Poe.reverseSelf, List.mem_reverse, List.mem_map] at he
  obtain ⟨a, ha, rfl⟩ := he
  rw [MatrixExp.changeBase, h a ha]

theorem build_seq {rnd : ℕ → ℝ} {poe : Poe} {pb : IkProblem} {subs : List Subproblem}
    (hrot : ∀ e ∈ poe.exps, e.motion = .rotation) (h : build rnd poe = some (some (pb, subs))) :
    Seq pb.poe.exps subs := by
  unfold build at h
  simp only [Option.bind_eq_bind, Option.bind_eq_some_iff] at h
  obtain ⟨⟨k, r⟩, h1, h⟩ := h
  cases r with
  | some subs' =>
    simp only [Option.pure_def, Option.some.injEq, Prod.mk.injEq] at h
    obtain ⟨rfl, rfl⟩ := h
    exact attempt_seq hrot h1
  | none =>
    simp only [Option.bind_eq_some_iff] at h
    obtain ⟨⟨k', r'⟩, h2, h⟩ := h
    cases r' with
    | some subs' =>
      simp only [Option.pure_def, Option.some.injEq, Prod.mk.injEq] at h
      obtain ⟨rfl, rfl⟩ := h
      exact attempt_seq (poe := poe.reverseSelf) (reverseSelf_motion hrot) h2
    | none => simp at h

end Builder

end KD
