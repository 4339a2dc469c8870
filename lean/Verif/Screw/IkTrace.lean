import Verif.Screw.IkBranch

/-! What each step of a branch sees: the remaining equation and the point transform. -/

namespace KD

namespace IkProblem

open TermState

/-! ### Stored values -/

/-- Storage slot of the joint with a given id. -/
def slot (n : ℕ) (reversed : Bool) (id : ℕ) : ℕ := if reversed then n - 1 - id else id

theorem getTheta_eq (q : List ℝ) (i : ℕ) (rev : Bool) :
    getTheta q i rev = if rev then -q.getD (slot q.length rev i) 0
      else q.getD (slot q.length rev i) 0 := by
  unfold getTheta slot
  cases rev <;> simp

theorem writeVals_getTheta_of_notMem {n : ℕ} {rev : Bool} {l : LocalSol} {q : List ℝ} {i : ℕ}
    (hi : i < n) (hq : q.length = n) (hl : ∀ p ∈ l, p.1 < n) (h : i ∉ l.map Prod.fst) :
    getTheta (writeVals n rev l q) i rev = getTheta q i rev := by
  unfold writeVals
  induction l generalizing q with
  | nil => rfl
  | cons p l ih =>
    have hp : p.1 < n := hl p List.mem_cons_self
    have hne : i ≠ p.1 := fun he => h (by simp [he])
    rw [List.foldl_cons, ih (by split <;> simp [hq]) (fun p' hp' => hl p' (List.mem_cons_of_mem _ hp'))
      (fun hm => h (by rw [List.map_cons]; exact List.mem_cons_of_mem _ hm))]
    unfold getTheta
    cases rev
    · simp only [Bool.false_eq_true, if_false, List.getD, List.getElem?_set_ne (Ne.symm hne)]
    · have : n - 1 - p.1 ≠ n - 1 - i := by omega
      simp only [if_true, List.length_set, hq, List.getD, List.getElem?_set_ne this]

theorem writeVals_getTheta_of_mem {n : ℕ} {rev : Bool} {l : LocalSol} {q : List ℝ} {i : ℕ} {θ : ℝ}
    (hq : q.length = n) (hl : ∀ p ∈ l, p.1 < n) (hnd : (l.map Prod.fst).Nodup)
    (h : (i, θ) ∈ l) : getTheta (writeVals n rev l q) i rev = θ := by
  induction l generalizing q with
  | nil => simp at h
  | cons p l ih =>
    rw [List.map_cons, List.nodup_cons] at hnd
    have hp : p.1 < n := hl p List.mem_cons_self
    have hw : writeVals n rev (p :: l) q = writeVals n rev l
        (if rev then q.set (n - 1 - p.1) (-p.2) else q.set p.1 p.2) := rfl
    rw [hw]
    have hl' : ∀ p ∈ l, p.1 < n := fun p' hp' => hl p' (List.mem_cons_of_mem _ hp')
    have hlen : (if rev then q.set (n - 1 - p.1) (-p.2) else q.set p.1 p.2).length = n := by
      split <;> simp [hq]
    rcases List.mem_cons.mp h with he | hm
    · subst he
      rw [writeVals_getTheta_of_notMem hp hlen hl' hnd.1]
      unfold getTheta
      cases rev
      · have : i < q.length := by rw [hq]; exact hp
        simp [List.getD, this]
      · have : n - 1 - i < n := by simp only at hp; omega
        simp [List.getD, hq, this]
    · exact ih hlen hl' hnd.2 hm

/-! ### Remaining product -/

/-- Ordered product of the terms that have not been moved to the right-hand side. -/
noncomputable def remT : List MatrixExp → List TermState → List ℝ → Frame
  | _ :: es, .computed :: ts, _ :: xs => remT es ts xs
  | e :: es, .known :: ts, x :: xs => e.asFrame x * remT es ts xs
  | e :: es, .unknown :: ts, x :: xs => e.asFrame x * remT es ts xs
  | _, _, _ => 1

theorem remT_unknown (es : List MatrixExp) (x : List ℝ) :
    remT es (List.replicate es.length .unknown) x = Poe.expProd es x := by
  unfold Poe.expProd
  induction es generalizing x with
  | nil => rfl
  | cons e es ih =>
    cases x with
    | nil => rfl
    | cons a x => simp only [List.length_cons, List.replicate_succ, remT, ih]; simp

theorem remT_append {es es' : List MatrixExp} {ts ts' : List TermState} {x x' : List ℝ}
    (h1 : ts.length = es.length) (h2 : x.length = es.length) :
    remT (es ++ es') (ts ++ ts') (x ++ x') = remT es ts x * remT es' ts' x' := by
  induction es generalizing ts x with
  | nil =>
    have : ts = [] := by simpa using h1
    have : x = [] := by simpa using h2
    subst_vars; simp [remT]
  | cons e es ih =>
    cases ts with
    | nil => simp at h1
    | cons t ts =>
      cases x with
      | nil => simp at h2
      | cons a x =>
        have := ih (ts := ts) (x := x) (by simpa using h1) (by simpa using h2)
        cases t <;> simp [remT, this, mul_assoc]

theorem leadFrame_rigid (rev : Bool) (q : List ℝ) : ∀ (es : List MatrixExp) (ts : List TermState)
    (i : ℕ), (∀ e ∈ es, e.Unit) → (leadFrame rev q es ts i).IsRigid := by
  intro es
  induction es with
  | nil => intro ts i _; simpa [leadFrame] using Frame.IsRigid.one
  | cons e es ih =>
    intro ts i h
    have h' : ∀ e ∈ es, e.Unit := fun e he => h e (List.mem_cons_of_mem _ he)
    cases ts with
    | nil => simpa [leadFrame] using Frame.IsRigid.one
    | cons t ts =>
      cases t with
      | known =>
        exact (MatrixExp.asFrame_rigid (h e List.mem_cons_self) _).mul (ih ts (i + 1) h')
      | computed => exact ih ts (i + 1) h'
      | unknown => exact Frame.IsRigid.one

theorem trailFrame_rigid (rev : Bool) (q : List ℝ) (es : List MatrixExp) (ts : List TermState)
    (h : ∀ e ∈ es, e.Unit) : (trailFrame rev q es ts).IsRigid := by
  unfold trailFrame
  split
  · rename_i e he _
    exact MatrixExp.asFrame_rigid (h e (List.mem_of_getLast? he)) _
  · exact Frame.IsRigid.one

theorem remT_advance (rev : Bool) (q : List ℝ) : ∀ (es : List MatrixExp) (ts : List TermState)
    (x : List ℝ) (i0 : ℕ), ts.length = es.length → x.length = es.length →
    (∀ i, (advance ts)[i]? = some .computed → x[i]? = some (getTheta q (i0 + i) rev)) →
    remT es ts x = leadFrame rev q es ts i0 * remT es (advance ts) x := by
  intro es
  induction es with
  | nil => intro ts x i0 _ _ _; simp [remT, leadFrame]
  | cons e es ih =>
    intro ts x i0 h1 h2 h
    cases ts with
    | nil => simp at h1
    | cons t ts =>
      cases x with
      | nil => simp at h2
      | cons a x =>
        have hrec : ∀ (_ : advance (t :: ts) = computed :: advance ts),
            remT es ts x = leadFrame rev q es ts (i0 + 1) * remT es (advance ts) x := by
          intro hadv
          refine ih ts x (i0 + 1) (by simpa using h1) (by simpa using h2) (fun i hi => ?_)
          have := h (i + 1) (by rw [hadv]; simpa using hi)
          rw [show i0 + 1 + i = i0 + (i + 1) by omega]
          simpa using this
        cases t with
        | known =>
          have h0 := h 0 (by simp [advance])
          simp at h0
          simp only [remT, leadFrame, advance, hrec rfl, h0, mul_assoc]
        | computed =>
          simp only [remT, leadFrame, advance, hrec rfl]
        | unknown => simp [leadFrame, advance]

theorem remT_retreat (rev : Bool) (q : List ℝ) (es : List MatrixExp) (ts : List TermState)
    (x : List ℝ) (h1 : ts.length = es.length) (h2 : x.length = es.length)
    (h : ∀ i, (retreat ts)[i]? = some .computed → x[i]? = some (getTheta q i rev)) :
    remT es ts x = remT es (retreat ts) x * trailFrame rev q es ts := by
  rcases List.eq_nil_or_concat' es with he | ⟨es', e, he⟩
  · subst he; simp [remT, trailFrame]
  · rcases List.eq_nil_or_concat' ts with ht | ⟨ts', t, ht⟩
    · subst ht; subst he; simp at h1
    · rcases List.eq_nil_or_concat' x with hx | ⟨x', a, hx⟩
      · subst hx; subst he; simp at h2
      · subst he; subst ht; subst hx
        have e1 : ts'.length = es'.length := by simpa using h1
        have e2 : x'.length = es'.length := by simpa using h2
        cases t with
        | known =>
          have hr : retreat (ts' ++ [known]) = ts' ++ [computed] := by simp [retreat]
          have hlast := h ts'.length (by rw [hr]; simp)
          have ha : a = getTheta q ts'.length rev := by
            rw [e1, ← e2] at hlast; simp at hlast; rw [hlast, e2, e1]
          rw [hr, remT_append e1 e2, remT_append e1 e2]
          simp [remT, trailFrame, ha]
        | computed =>
          simp [retreat, trailFrame]
        | unknown =>
          simp [retreat, trailFrame]

theorem advance_get (ts : List TermState) (i : ℕ) :
    (advance ts)[i]? = ts[i]? ∨ (ts[i]? = some .known ∧ (advance ts)[i]? = some .computed) := by
  induction ts generalizing i with
  | nil => simp [advance]
  | cons t ts ih =>
    cases t with
    | known =>
      cases i with
      | zero => right; simp [advance]
      | succ i => simpa [advance] using ih i
    | computed =>
      cases i with
      | zero => left; simp [advance]
      | succ i => simpa [advance] using ih i
    | unknown => left; simp [advance]

theorem retreat_get (ts : List TermState) (i : ℕ) :
    (retreat ts)[i]? = ts[i]? ∨ (ts[i]? = some .known ∧ (retreat ts)[i]? = some .computed) := by
  rcases List.eq_nil_or_concat' ts with ht | ⟨ts', t, ht⟩
  · subst ht; simp [retreat]
  · subst ht
    cases t with
    | known =>
      have hr : retreat (ts' ++ [known]) = ts' ++ [computed] := by simp [retreat]
      rw [hr]
      rcases lt_trichotomy i ts'.length with h | h | h
      · left; rw [List.getElem?_append_left h, List.getElem?_append_left h]
      · right; subst h; simp
      · left
        rw [List.getElem?_eq_none (by simp; omega), List.getElem?_eq_none (by simp; omega)]
    | computed => left; simp [retreat]
    | unknown => left; simp [retreat]

theorem nextTerms_get (ts : List TermState) (i : ℕ) :
    (nextTerms ts)[i]? = ts[i]? ∨ (ts[i]? = some .known ∧ (nextTerms ts)[i]? = some .computed) := by
  unfold nextTerms
  rcases retreat_get (advance ts) i with h | ⟨h, h'⟩
  · rw [h]; exact advance_get ts i
  · rcases advance_get ts i with h2 | ⟨h2, h3⟩
    · right; exact ⟨h2 ▸ h, h'⟩
    · rw [h3] at h; simp at h

/-- The first term that has not been moved is unknown. -/
theorem advance_first (ts : List TermState) (i : ℕ)
    (h : ∀ j, j < i → (advance ts)[j]? = some .computed) (hi : (advance ts)[i]? ≠ some .computed) :
    (advance ts)[i]? ≠ some .known := by
  induction ts generalizing i with
  | nil => simp [advance]
  | cons t ts ih =>
    cases t with
    | known =>
      cases i with
      | zero => simp [advance] at hi
      | succ i =>
        simp only [advance, List.getElem?_cons_succ] at hi ⊢
        exact ih i (fun j hj => by simpa [advance] using h (j + 1) (by omega)) hi
    | computed =>
      cases i with
      | zero => simp [advance] at hi
      | succ i =>
        simp only [advance, List.getElem?_cons_succ] at hi ⊢
        exact ih i (fun j hj => by simpa [advance] using h (j + 1) (by omega)) hi
    | unknown =>
      cases i with
      | zero => simp [advance]
      | succ i => simpa [advance] using h 0 (by omega)

theorem retreat_last (ts : List TermState) : (retreat ts).getLast? ≠ some .known := by
  unfold retreat
  split
  · simp
  · assumption

theorem nextTerms_last (ts : List TermState) : (nextTerms ts).getLast? ≠ some .known :=
  retreat_last _

theorem nextTerms_first (ts : List TermState) (i : ℕ)
    (h : ∀ j, j < i → (nextTerms ts)[j]? = some .computed)
    (hi : (nextTerms ts)[i]? ≠ some .computed) :
    (nextTerms ts)[i]? ≠ some .known := by
  unfold nextTerms at *
  intro hk
  -- then `i` is known in `advance ts` and is not the last one
  have hk' : (advance ts)[i]? = some known := by
    rcases retreat_get (advance ts) i with h1 | ⟨_, h2⟩
    · rw [← h1]; exact hk
    · rw [h2] at hk; simp at hk
  refine advance_first ts i (fun j hj => ?_) (by rw [hk']; simp) hk'
  rcases retreat_get (advance ts) j with h1 | ⟨h1, h2⟩
  · rw [← h1]; exact h j hj
  · -- `j` would be the last term
    exfalso
    have hlt : i < (advance ts).length := (List.getElem?_eq_some_iff.mp hk').1
    have hne : (retreat (advance ts))[j]? = (advance ts)[j]? := by
      rcases List.eq_nil_or_concat' (advance ts) with ht | ⟨ts', t, ht⟩
      · rw [ht] at hlt; simp at hlt
      · rw [ht] at hlt ⊢
        have hj' : j < ts'.length := by simp at hlt; omega
        cases t with
        | known =>
          have hr : retreat (ts' ++ [known]) = ts' ++ [computed] := by simp [retreat]
          rw [hr, List.getElem?_append_left hj', List.getElem?_append_left hj']
        | computed => simp [retreat]
        | unknown => simp [retreat]
    rw [hne, h1] at h2
    simp at h2

/-- Moving known terms: the remaining product changes as the right-hand side does. -/
theorem rebase_equation {pb : IkProblem} (hu : ∀ e ∈ pb.poe.exps, e.Unit) {ts : List TermState}
    {q x : List ℝ} (h1 : ts.length = pb.poe.exps.length)
    (h2 : x.length = pb.poe.exps.length)
    (h : ∀ i, (nextTerms ts)[i]? = some .computed → x[i]? = some (getTheta q i pb.reversed)) :
    remT pb.poe.exps (nextTerms ts) x = pb.rebase ts q (remT pb.poe.exps ts x) := by
  have ha : ∀ i, (advance ts)[i]? = some .computed → x[i]? = some (getTheta q i pb.reversed) := by
    intro i hi
    apply h
    unfold nextTerms
    rcases retreat_get (advance ts) i with h3 | ⟨h3, _⟩
    · rw [h3, hi]
    · rw [h3] at hi; simp at hi
  have e1 := remT_advance pb.reversed q pb.poe.exps ts x 0 h1 h2
    (fun i hi => by rw [Nat.zero_add]; exact ha i hi)
  have e2 := remT_retreat pb.reversed q pb.poe.exps (advance ts) x
    (by rw [advance_length, h1]) h2 h
  have hL := leadFrame_rigid pb.reversed q pb.poe.exps ts 0 hu
  have hT := trailFrame_rigid pb.reversed q pb.poe.exps (advance ts) hu
  unfold rebase nextTerms
  rw [e1, e2, ← mul_assoc, hL.inv_mul, one_mul, mul_assoc, hT.mul_inv, mul_one]

/-! ### Point transform -/

theorem transformLoop_known (L : List (TermState × Frame)) (H : Frame) (u : Bool) :
    ∃ a, a ≤ L.length ∧ transformLoop L.reverse H true u = ((L.map Prod.snd).drop a).prod * H ∧
      (∀ i, a ≤ i → ∀ p, L[i]? = some p → p.1 = .known) ∧
      (∀ i, i + 1 = a → ∀ p, L[i]? = some p → p.1 ≠ .known) := by
  induction L using List.reverseRecOn generalizing H with
  | nil => exact ⟨0, le_rfl, by simp [transformLoop], by simp, by simp⟩
  | append_singleton L p ih =>
    obtain ⟨t, F⟩ := p
    rw [List.reverse_append, List.reverse_singleton, List.singleton_append]
    cases t with
    | known =>
      obtain ⟨a, h1, h2, h3, h4⟩ := ih (F * H)
      refine ⟨a, by simp; omega, ?_, ?_, ?_⟩
      · simp only [transformLoop]
        rw [h2, List.map_append, List.drop_append_of_le_length (by simpa using h1)]
        simp [mul_assoc]
      · intro i hi p hp
        rcases lt_or_ge i L.length with hlt | hge
        · rw [List.getElem?_append_left hlt] at hp; exact h3 i hi p hp
        · rw [List.getElem?_append_right hge] at hp
          rcases Nat.eq_zero_or_pos (i - L.length) with h0 | h0
          · rw [h0] at hp; simp at hp; rw [← hp]
          · rw [List.getElem?_eq_none (by simp; omega)] at hp; simp at hp
      · intro i hi p hp
        rw [List.getElem?_append_left (by omega)] at hp
        exact h4 i hi p hp
    | computed =>
      refine ⟨L.length + 1, by simp, ?_, ?_, ?_⟩
      · rw [List.drop_eq_nil_of_le (by simp)]; simp [transformLoop]
      · intro i hi p hp
        rw [List.getElem?_eq_none (by simpa using hi)] at hp; simp at hp
      · intro i hi p hp
        have : i = L.length := by omega
        subst this
        simp at hp; rw [← hp]; simp
    | unknown =>
      refine ⟨L.length + 1, by simp, ?_, ?_, ?_⟩
      · rw [List.drop_eq_nil_of_le (by simp)]; simp [transformLoop]
      · intro i hi p hp
        rw [List.getElem?_eq_none (by simpa using hi)] at hp; simp at hp
      · intro i hi p hp
        have : i = L.length := by omega
        subst this
        simp at hp; rw [← hp]; simp

theorem transformLoop_spec (L : List (TermState × Frame)) (u : Bool) :
    ∃ a b, a ≤ b ∧ b ≤ L.length ∧
      transformLoop L.reverse 1 false u = (((L.map Prod.snd).take b).drop a).prod ∧
      (∀ i, b ≤ i → ∀ p, L[i]? = some p → p.1 ≠ .known) ∧
      (∀ i, a ≤ i → i < b → ∀ p, L[i]? = some p → p.1 = .known) ∧
      (∀ i, i + 1 = a → ∀ p, L[i]? = some p → p.1 ≠ .known) ∧
      (a = b → ∀ i, i + 1 = a → ∀ p, L[i]? = some p → p.1 = .computed) ∧
      (a = b → 0 < a → u = true ∨ ∃ j p, a ≤ j ∧ L[j]? = some p ∧ p.1 = .unknown) := by
  induction L using List.reverseRecOn generalizing u with
  | nil => exact ⟨0, 0, le_rfl, le_rfl, by simp [transformLoop], by simp, by simp, by simp, by simp, by simp⟩
  | append_singleton L p ih =>
    obtain ⟨t, F⟩ := p
    rw [List.reverse_append, List.reverse_singleton, List.singleton_append]
    have skip : ∀ u, t ≠ .known → ∃ a b, a ≤ b ∧ b ≤ (L ++ [(t, F)]).length ∧
      transformLoop L.reverse 1 false u = ((((L ++ [(t, F)]).map Prod.snd).take b).drop a).prod ∧
      (∀ i, b ≤ i → ∀ p, (L ++ [(t, F)])[i]? = some p → p.1 ≠ .known) ∧
      (∀ i, a ≤ i → i < b → ∀ p, (L ++ [(t, F)])[i]? = some p → p.1 = .known) ∧
      (∀ i, i + 1 = a → ∀ p, (L ++ [(t, F)])[i]? = some p → p.1 ≠ .known) ∧
      (a = b → ∀ i, i + 1 = a → ∀ p, (L ++ [(t, F)])[i]? = some p → p.1 = .computed) ∧
      (a = b → 0 < a → (u = true ∧ a ≤ L.length) ∨
        ∃ j p, a ≤ j ∧ (L ++ [(t, F)])[j]? = some p ∧ p.1 = .unknown) := by
      intro u ht
      obtain ⟨a, b, h1, h2, h3, h4, h5, h6, h7, h8⟩ := ih u
      refine ⟨a, b, h1, by simp; omega, ?_, ?_, ?_, ?_, ?_, ?_⟩
      · rw [h3, List.map_append, List.take_append_of_le_length (by simpa using h2)]
      · intro i hi p hp
        rcases lt_or_ge i L.length with hlt | hge
        · rw [List.getElem?_append_left hlt] at hp; exact h4 i hi p hp
        · rw [List.getElem?_append_right hge] at hp
          rcases Nat.eq_zero_or_pos (i - L.length) with h0 | h0
          · rw [h0] at hp; simp at hp; rw [← hp]; exact ht
          · rw [List.getElem?_eq_none (by simp; omega)] at hp; simp at hp
      · intro i hi hi2 p hp
        rw [List.getElem?_append_left (by omega)] at hp
        exact h5 i hi hi2 p hp
      · intro i hi p hp
        rw [List.getElem?_append_left (by omega)] at hp
        exact h6 i hi p hp
      · intro hab i hi p hp
        rw [List.getElem?_append_left (by omega)] at hp
        exact h7 hab i hi p hp
      · intro hab h0
        rcases h8 hab h0 with hu | ⟨j, p, hj, hp, hk⟩
        · exact Or.inl ⟨hu, by omega⟩
        · exact Or.inr ⟨j, p, hj, by rw [List.getElem?_append_left (List.getElem?_eq_some_iff.mp hp).1]; exact hp, hk⟩
    cases t with
    | known =>
      obtain ⟨a, h1, h2, h3, h4⟩ := transformLoop_known L (F * 1) u
      refine ⟨a, L.length + 1, by omega, by simp, ?_, ?_, ?_, ?_, by omega, by omega⟩
      · simp only [transformLoop]
        rw [h2]
        rw [List.take_of_length_le (by simp), List.map_append,
          List.drop_append_of_le_length (by simpa using h1)]
        simp
      · intro i hi p hp
        rw [List.getElem?_eq_none (by simpa using hi)] at hp; simp at hp
      · intro i hi hi2 p hp
        rcases lt_or_ge i L.length with hlt | hge
        · rw [List.getElem?_append_left hlt] at hp; exact h3 i hi p hp
        · have : i = L.length := by omega
          subst this
          simp at hp; rw [← hp]
      · intro i hi p hp
        rw [List.getElem?_append_left (by omega)] at hp
        exact h4 i hi p hp
    | computed =>
      cases u with
      | false =>
        obtain ⟨a, b, h1, h2, h3, h4, h5, h6, h7, h8⟩ := skip false (by simp)
        refine ⟨a, b, h1, h2, by simpa [transformLoop] using h3, h4, h5, h6, h7, fun hab h0 => ?_⟩
        rcases h8 hab h0 with ⟨hu, _⟩ | h
        · exact Or.inl hu
        · exact Or.inr h
      | true =>
        refine ⟨L.length + 1, L.length + 1, le_rfl, by simp, ?_, ?_, ?_, ?_, ?_, fun _ _ => Or.inl rfl⟩
        · simp [transformLoop]
        · intro i hi p hp
          rw [List.getElem?_eq_none (by simpa using hi)] at hp; simp at hp
        · intro i hi hi2; omega
        · intro i hi p hp
          have : i = L.length := by omega
          subst this
          simp at hp; rw [← hp]; simp
        · intro _ i hi p hp
          have : i = L.length := by omega
          subst this
          simp at hp; rw [← hp]
    | unknown =>
      obtain ⟨a, b, h1, h2, h3, h4, h5, h6, h7, h8⟩ := skip true (by simp)
      refine ⟨a, b, h1, h2, by simpa [transformLoop] using h3, h4, h5, h6, h7, fun hab h0 => Or.inr ?_⟩
      rcases h8 hab h0 with ⟨_, ha⟩ | h
      · exact ⟨L.length, (.unknown, F), ha, by simp, rfl⟩
      · exact h

theorem transformPoint_spec (pb : IkProblem) (q : List ℝ) (ts : List TermState)
    (ht : ts.length = pb.poe.exps.length) :
    ∃ a b, a ≤ b ∧ b ≤ pb.poe.exps.length ∧
      pb.transformPoint q ts = (((pb.termFrames q).take b).drop a).prod ∧
      (∀ i, b ≤ i → ts[i]? ≠ some .known) ∧
      (∀ i, a ≤ i → i < b → ts[i]? = some .known) ∧
      (∀ i, i + 1 = a → ts[i]? ≠ some .known) ∧
      (a = b → ∀ i, i + 1 = a → ts[i]? = some .computed) ∧
      (a = b → 0 < a → ∃ j, a ≤ j ∧ ts[j]? = some .unknown) := by
  have hlen : (pb.termFrames q).length = pb.poe.exps.length := by simp [termFrames]
  obtain ⟨a, b, h1, h2, h3, h4, h5, h6, h7, h8⟩ := transformLoop_spec (ts.zip (pb.termFrames q)) false
  have hz : (ts.zip (pb.termFrames q)).length = pb.poe.exps.length := by simp [hlen, ht]
  have hget : ∀ i (h : i < pb.poe.exps.length), (ts.zip (pb.termFrames q))[i]? =
      some (ts[i]'(by omega), (pb.termFrames q)[i]'(by omega)) := by
    intro i h
    rw [List.getElem?_eq_getElem (by omega), List.getElem_zip]
  rw [hz] at h2
  refine ⟨a, b, h1, h2, ?_, ?_, ?_, ?_, ?_, ?_⟩
  · rw [transformPoint, h3, List.map_snd_zip (by omega)]
  · intro i hi he
    have hlt : i < ts.length := (List.getElem?_eq_some_iff.mp he).1
    have := h4 i hi _ (hget i (by omega))
    rw [List.getElem?_eq_getElem hlt] at he
    exact this (Option.some.inj he)
  · intro i hi hi2
    have := h5 i hi hi2 _ (hget i (by omega))
    rw [List.getElem?_eq_getElem (by omega)]
    exact congrArg some this
  · intro i hi he
    have hlt : i < ts.length := (List.getElem?_eq_some_iff.mp he).1
    have := h6 i hi _ (hget i (by omega))
    rw [List.getElem?_eq_getElem hlt] at he
    exact this (Option.some.inj he)
  · intro hab i hi
    have := h7 hab i hi _ (hget i (by omega))
    rw [List.getElem?_eq_getElem (by omega)]
    exact congrArg some this
  · intro hab h0
    rcases h8 hab h0 with h | ⟨j, p, hj, hp, hk⟩
    · cases h
    · have hlt := (List.getElem?_eq_some_iff.mp hp).1
      rw [hget j (by omega)] at hp
      refine ⟨j, hj, ?_⟩
      rw [List.getElem?_eq_getElem (by omega)]
      rw [← Option.some.inj hp] at hk
      exact congrArg some hk

/-! ### Which terms have been moved -/

/-- The terms moved to the right-hand side are a prefix, and maybe the last one. -/
def Shape (ts : List TermState) : Prop :=
  ∀ i, ts[i]? = some .computed → i + 1 = ts.length ∨ ∀ j, j < i → ts[j]? = some .computed

theorem advance_run (ts : List TermState) (i : ℕ) (h : ts[i]? = some .known)
    (h' : (advance ts)[i]? = some .computed) : ∀ j, j < i → (advance ts)[j]? = some .computed := by
  induction ts generalizing i with
  | nil => simp at h
  | cons t ts ih =>
    cases t with
    | known =>
      intro j hj
      cases j with
      | zero => simp [advance]
      | succ j =>
        cases i with
        | zero => omega
        | succ i =>
          simp only [advance, List.getElem?_cons_succ] at h h' ⊢
          exact ih i h h' j (by omega)
    | computed =>
      intro j hj
      cases j with
      | zero => simp [advance]
      | succ j =>
        cases i with
        | zero => omega
        | succ i =>
          simp only [advance, List.getElem?_cons_succ] at h h' ⊢
          exact ih i h h' j (by omega)
    | unknown =>
      have : advance (unknown :: ts) = unknown :: ts := by simp [advance]
      rw [this, h] at h'; simp at h'

theorem Shape.next {ts : List TermState} (h : Shape ts) : Shape (nextTerms ts) := by
  have hmono : ∀ j : ℕ, (advance ts)[j]? = some .computed → (nextTerms ts)[j]? = some .computed := by
    intro j hj
    rcases retreat_get (advance ts) j with h1 | ⟨h1, h2⟩
    · rw [nextTerms, h1, hj]
    · exact h2
  have hadv : ∀ j : ℕ, ts[j]? = some .computed → (advance ts)[j]? = some .computed := by
    intro j hj
    rcases advance_get ts j with h1 | ⟨h1, h2⟩
    · rw [h1, hj]
    · exact h2
  intro i hi
  rw [nextTerms_length]
  rcases retreat_get (advance ts) i with h1 | ⟨h1, h2⟩
  · rw [nextTerms, h1] at hi
    rcases advance_get ts i with h3 | ⟨h3, h4⟩
    · rw [h3] at hi
      rcases h i hi with h5 | h5
      · exact Or.inl h5
      · exact Or.inr fun j hj => hmono j (hadv j (h5 j hj))
    · exact Or.inr fun j hj => hmono j (advance_run ts i h3 h4 j hj)
  · left
    by_contra hne
    have hlt : i < (advance ts).length := (List.getElem?_eq_some_iff.mp h1).1
    have hne' : (retreat (advance ts))[i]? = (advance ts)[i]? := by
      rcases List.eq_nil_or_concat' (advance ts) with ht | ⟨ts', t, ht⟩
      · rw [ht] at hlt; simp at hlt
      · have hl : ts.length = ts'.length + 1 := by rw [← advance_length, ht]; simp
        rw [advance_length] at hlt
        rw [ht]
        have hj' : i < ts'.length := by omega
        cases t with
        | known =>
          have hr : retreat (ts' ++ [known]) = ts' ++ [computed] := by simp [retreat]
          rw [hr, List.getElem?_append_left hj', List.getElem?_append_left hj']
        | computed => simp [retreat]
        | unknown => simp [retreat]
    rw [hne', h1] at h2
    simp at h2

/-- Nothing has been moved at the right as long as the last term has not. -/
theorem trailFrame_eq_one {rev : Bool} {q : List ℝ} {es : List MatrixExp} {ts : List TermState}
    (h : (retreat ts).getLast? ≠ some .computed) : trailFrame rev q es ts = 1 := by
  unfold trailFrame
  split
  · rename_i he ht
    exfalso
    apply h
    simp [retreat, ht]
  · rfl

theorem last_stays {ts : List TermState} (h : (nextTerms ts).getLast? ≠ some .computed) :
    ts.getLast? ≠ some .computed := by
  intro hc
  apply h
  rw [List.getLast?_eq_getElem?] at hc ⊢
  rw [nextTerms_length]
  rcases nextTerms_get ts (ts.length - 1) with h1 | ⟨_, h2⟩
  · rw [h1, hc]
  · exact h2

end IkProblem

end KD
