import Verif.Screw.IkProblem
import Verif.Screw.PoeLemmas

/-! Helper lemmas on the vector loops of `ScrewTheoryIkProblem::solve`. -/

namespace KD

theorem writeAt_some {α : Type} {l : List α} {i : ℕ} (h : i < l.length) (a : α) :
    writeAt l i a = some (l.set i a) := by simp [writeAt, h]

theorem resizeTo_length {α : Type} (l : List α) (n : ℕ) (d : α) :
    (resizeTo l n d).length = n := by
  simp [resizeTo]; omega

theorem resizeTo_get {α : Type} {l : List α} {n : ℕ} {d : α} {x : ℕ} (hx : x < l.length)
    (hn : l.length ≤ n) : (resizeTo l n d)[x]? = l[x]? := by
  simp [resizeTo, List.take_of_length_le hn, List.getElem?_append_left hx]

theorem resizeTo_self {α : Type} (l : List α) (d : α) : resizeTo l l.length d = l := by
  simp [resizeTo]

namespace IkProblem

/-- Marks a list of ids as known. -/
def markKnown (ts : List TermState) (ids : List ℕ) : List TermState :=
  ids.foldl (fun t i => t.set i .known) ts

/-- Stores the pairs of a local solution in a joint array. -/
def writeVals (n : ℕ) (reversed : Bool) (l : LocalSol) (q : List ℝ) : List ℝ :=
  l.foldl (fun q p => if reversed then q.set (n - 1 - p.1) (-p.2) else q.set p.1 p.2) q

theorem markKnown_length (ts : List TermState) (ids : List ℕ) :
    (markKnown ts ids).length = ts.length := by
  unfold markKnown
  induction ids generalizing ts with
  | nil => rfl
  | cons i ids ih => rw [List.foldl_cons, ih]; simp

theorem writeVals_length (n : ℕ) (rev : Bool) (l : LocalSol) (q : List ℝ) :
    (writeVals n rev l q).length = q.length := by
  unfold writeVals
  induction l generalizing q with
  | nil => rfl
  | cons i l ih => rw [List.foldl_cons, ih]; split <;> simp

theorem markKnown_get (ts : List TermState) (ids : List ℕ) (x : ℕ) :
    (markKnown ts ids)[x]? = if x ∈ ids then (ts[x]?).map (fun _ => .known) else ts[x]? := by
  unfold markKnown
  induction ids generalizing ts with
  | nil => simp
  | cons i ids ih =>
    rw [List.foldl_cons, ih]
    by_cases hx : x = i
    · subst hx
      by_cases hl : x < ts.length
      · simp [List.getElem?_set_self hl, hl]
      · simp [List.set_eq_of_length_le (not_lt.mp hl), List.getElem?_eq_none (not_lt.mp hl)]
    · rw [List.getElem?_set_ne (fun h => hx h.symm)]
      simp [hx]

theorem markKnown_idem (ts : List TermState) (ids : List ℕ) :
    markKnown (markKnown ts ids) ids = markKnown ts ids := by
  apply List.ext_getElem?
  intro x
  rw [markKnown_get, markKnown_get]
  split
  · rw [Option.map_map]; rfl
  · rfl

theorem writePairs_eq {n : ℕ} {rev : Bool} {l : LocalSol} {ts : List TermState} {q : List ℝ}
    (hid : ∀ p ∈ l, p.1 < n) (ht : ts.length = n) (hq : q.length = n) :
    writePairs n rev l ts q = some (markKnown ts (l.map Prod.fst), writeVals n rev l q) := by
  induction l generalizing ts q with
  | nil => rfl
  | cons p l ih =>
    obtain ⟨id, θ⟩ := p
    have hlt : id < n := hid (id, θ) List.mem_cons_self
    have hlt' : n - 1 - id < n := by omega
    have ih' := fun (ts : List TermState) (q : List ℝ) (h1 : ts.length = n) (h2 : q.length = n) =>
      ih (ts := ts) (q := q) (fun p hp => hid p (List.mem_cons_of_mem _ hp)) h1 h2
    simp only [writePairs]
    rw [writeAt_some (by rw [ht]; exact hlt)]
    cases rev
    · simp only [Option.bind_eq_bind, Option.bind_some, Bool.false_eq_true, if_false]
      rw [writeAt_some (by rw [hq]; exact hlt)]
      simp only [Option.bind_some]
      rw [ih' _ _ (by simp [ht]) (by simp [hq])]
      simp [markKnown, writeVals]
    · simp only [Option.bind_eq_bind, Option.bind_some, if_true]
      rw [writeAt_some (by rw [hq]; exact hlt')]
      simp only [Option.bind_some]
      rw [ih' _ _ (by simp [ht]) (by simp [hq])]
      simp [markKnown, writeVals]

theorem replicateLoop_spec {P j : ℕ} (hj : j < P) {L : ℕ} (q : List ℝ) (F : Frame) (m : ℕ) :
    ∀ (k : ℕ) (sols : List (List ℝ)) (rhs : List Frame), 1 ≤ k → sols.length = L →
      rhs.length = L → (∀ i, k ≤ i → i < k + m → j + P * i < L) →
      sols[j]? = some q → rhs[j]? = some F →
      ∃ sols' rhs', replicateLoop P j k m sols rhs = some (sols', rhs') ∧
        sols'.length = L ∧ rhs'.length = L ∧
        (∀ i, k ≤ i → i < k + m → sols'[j + P * i]? = some q ∧ rhs'[j + P * i]? = some F) ∧
        (∀ x, (∀ i, k ≤ i → i < k + m → x ≠ j + P * i) →
          sols'[x]? = sols[x]? ∧ rhs'[x]? = rhs[x]?) := by
  induction m with
  | zero =>
    intro k sols rhs _ hs hr _ _ _
    exact ⟨sols, rhs, rfl, hs, hr, fun i h1 h2 => by omega, fun x _ => ⟨rfl, rfl⟩⟩
  | succ m ih =>
    intro k sols rhs hk hs hr hb hq hF
    have hk1 := hb k le_rfl (by omega)
    have hne : j + P * k ≠ j := by
      have : 0 < P * k := Nat.mul_pos (by omega) (by omega)
      omega
    obtain ⟨s', r', h1, h2, h3, h4, h5⟩ := ih (k + 1) (sols.set (j + P * k) q)
      (rhs.set (j + P * k) F) (by omega) (by simp [hs]) (by simp [hr])
      (fun i h1 h2 => hb i (by omega) (by omega))
      (by rw [List.getElem?_set_ne hne]; exact hq)
      (by rw [List.getElem?_set_ne hne]; exact hF)
    refine ⟨s', r', ?_, h2, h3, ?_, ?_⟩
    · simp only [replicateLoop, hq, hF]
      simp only [Option.bind_eq_bind, Option.bind_some]
      rw [writeAt_some (by rw [hs]; exact hk1), writeAt_some (by rw [hr]; exact hk1)]
      simpa using h1
    · intro i hi1 hi2
      rcases Nat.eq_or_lt_of_le hi1 with he | hl
      · subst he
        have := h5 (j + P * k) (fun i hi _ => by
          have : P * k < P * i := Nat.mul_lt_mul_of_pos_left (by omega) (by omega)
          omega)
        rw [this.1, this.2, List.getElem?_set_self (by rw [hs]; exact hk1),
          List.getElem?_set_self (by rw [hr]; exact hk1)]
        exact ⟨rfl, rfl⟩
      · exact h4 i hl (by omega)
    · intro x hx
      have := h5 x (fun i hi1 hi2 => hx i (by omega) (by omega))
      have hxk := hx k le_rfl (by omega)
      rw [this.1, this.2, List.getElem?_set_ne (Ne.symm hxk), List.getElem?_set_ne (Ne.symm hxk)]
      exact ⟨rfl, rfl⟩

theorem storeLoop_spec {n : ℕ} {rev : Bool} {P j L : ℕ} (hP : 0 < P) {ids : List ℕ} (q : List ℝ)
    (hqn : q.length = n) (hidn : ∀ i ∈ ids, i < n) (ls : List LocalSol) :
    ∀ (k : ℕ) (ts : List TermState) (sols : List (List ℝ)), ts.length = n → sols.length = L →
      (∀ l ∈ ls, l.map Prod.fst = ids) →
      (∀ i, i < ls.length → sols[j + P * (k + i)]? = some q) →
      ∃ ts' sols', storeLoop n rev P j k ls ts sols = some (ts', sols') ∧ sols'.length = L ∧
        ts' = (if ls = [] then ts else markKnown ts ids) ∧
        (∀ i (h : i < ls.length), sols'[j + P * (k + i)]? = some (writeVals n rev ls[i] q)) ∧
        (∀ x, (∀ i, i < ls.length → x ≠ j + P * (k + i)) → sols'[x]? = sols[x]?) := by
  induction ls with
  | nil =>
    intro k ts sols _ hs _ _
    exact ⟨ts, sols, rfl, hs, by simp, fun i h => absurd h (by simp), fun x _ => rfl⟩
  | cons l ls ih =>
    intro k ts sols ht hs hids hb
    have hk := hb 0 (by simp)
    rw [Nat.add_zero] at hk
    have hkL : j + P * k < sols.length := (List.getElem?_eq_some_iff.mp hk).1
    have hl : l.map Prod.fst = ids := hids l List.mem_cons_self
    have hw := writePairs_eq (n := n) (rev := rev) (l := l) (ts := ts) (q := q)
      (fun p hp => hidn _ (by rw [← hl]; exact List.mem_map_of_mem hp)) ht hqn
    rw [hl] at hw
    have hne : ∀ i, j + P * (k + (i + 1)) ≠ j + P * k := by
      intro i
      have : P * k < P * (k + (i + 1)) := Nat.mul_lt_mul_of_pos_left (by omega) hP
      omega
    obtain ⟨ts', sols', h1, h2, h3, h4, h5⟩ := ih (k + 1) (markKnown ts ids)
      (sols.set (j + P * k) (writeVals n rev l q)) (by rw [markKnown_length, ht])
      (by simp [hs]) (fun l' hl' => hids l' (List.mem_cons_of_mem _ hl'))
      (fun i hi => by
        have h6 := hb (i + 1) (by simpa using hi)
        rw [show k + 1 + i = k + (i + 1) by omega, List.getElem?_set_ne (hne i).symm]
        exact h6)
    refine ⟨ts', sols', ?_, h2, ?_, ?_, ?_⟩
    · simp only [storeLoop, hk]
      simp only [Option.bind_eq_bind, Option.bind_some, hw]
      rw [writeAt_some hkL]
      simpa using h1
    · rw [h3]
      split
      · simp
      · simp [markKnown_idem]
    · intro i hi
      cases i with
      | zero =>
        rw [Nat.add_zero, h5 _ (fun i hi => by
          rw [show k + 1 + i = k + (i + 1) by omega]; exact (hne i).symm),
          List.getElem?_set_self hkL]
        rfl
      | succ i =>
        rw [show k + (i + 1) = k + 1 + i by omega]
        exact h4 i (by simpa using hi)
    · intro x hx
      rw [h5 x (fun i hi => by
        rw [show k + 1 + i = k + (i + 1) by omega]; exact hx (i + 1) (by simpa using hi))]
      rw [List.getElem?_set_ne]
      have := hx 0 (by simp)
      rw [Nat.add_zero] at this
      exact this.symm

/-- What a step must guarantee: always a finite answer, always the same number of local solutions,
each with a value for each of the same joint ids, all valid. -/
structure StepOK (n : ℕ) (s : Step) (ids : List ℕ) : Prop where
  total : ∀ F H, ∃ ok ls, s.solve F H = some (ok, ls)
  count : ∀ F H ok ls, s.solve F H = some (ok, ls) → ls.length = s.count
  sameIds : ∀ F H ok ls, s.solve F H = some (ok, ls) → ∀ l ∈ ls, l.map Prod.fst = ids
  lt : ∀ i ∈ ids, i < n
  pos : 0 < s.count

/-- Invariant of the loop over previous solutions. `A`, `R` are the joint arrays and right-hand
sides before the step, `sol i` the local answer for branch `i`. -/
structure LoopInv (n : ℕ) (rev : Bool) (P c : ℕ) (ids : List ℕ) (A : ℕ → List ℝ) (R : ℕ → Frame)
    (ts : List TermState) (r0 : Bool) (sol : ℕ → Bool × List LocalSol) (j : ℕ) (st : State) :
    Prop where
  lenS : st.sols.length = if j = 0 then P else P * c
  lenR : st.rhs.length = if j = 0 then P else P * c
  todoS : ∀ i, j ≤ i → i < P → st.sols[i]? = some (A i)
  todoR : ∀ i, j ≤ i → i < P → st.rhs[i]? = some (R i)
  doneS : ∀ i, i < j → ∀ k (h : k < (sol i).2.length),
    st.sols[i + P * k]? = some (writeVals n rev (sol i).2[k] (A i))
  doneR : ∀ i, i < j → ∀ k, k < c → st.rhs[i + P * k]? = some (R i)
  terms : st.terms = if j = 0 then ts else markKnown ts ids
  reach : st.reachable = (r0 && (List.range j).all fun i => (sol i).1)

theorem branchBody_inv {pb : IkProblem} {step : Step} {P j : ℕ} {ids : List ℕ} {A : ℕ → List ℝ}
    {R : ℕ → Frame} {ts : List TermState} {r0 : Bool} {sol : ℕ → Bool × List LocalSol} {st : State}
    (hok : StepOK pb.poe.exps.length step ids) (hj : j < P)
    (hA : ∀ i, i < P → (A i).length = pb.poe.exps.length) (hts : ts.length = pb.poe.exps.length)
    (hsol : ∀ i, i < P → step.solve (R i)
      (pb.transformPoint (A i) (if i = 0 then ts else markKnown ts ids)) = some (sol i))
    (h : LoopInv pb.poe.exps.length pb.reversed P step.count ids A R ts r0 sol j st) :
    ∃ st', branchBody pb step P j st = some st' ∧
      LoopInv pb.poe.exps.length pb.reversed P step.count ids A R ts r0 sol (j + 1) st' := by
  have hq := h.todoS j le_rfl hj
  have hF := h.todoR j le_rfl hj
  have hs := hsol j hj
  rw [← h.terms] at hs
  have hcnt : (sol j).2.length = step.count := hok.count _ _ _ _ (hs.trans (by rw [Prod.mk.eta]))
  have hidl := hok.sameIds _ _ _ _ (hs.trans (by rw [Prod.mk.eta]))
  have hP : 0 < P := by omega
  have hPc : P ≤ P * step.count := Nat.le_mul_of_pos_right P hok.pos
  have hmulk : ∀ k, k < step.count → j + P * k < P * step.count := by
    intro k hk
    calc j + P * k < P + P * k := by omega
      _ = P * (k + 1) := by ring
      _ ≤ P * step.count := Nat.mul_le_mul_left P hk
  -- after resizing and replicating
  have hrep : ∃ sols rhs,
      (if (sol j).2.length > 1 then
        replicateLoop P j 1 ((sol j).2.length - 1)
          (resizeTo st.sols (P * (sol j).2.length) [])
          (resizeTo st.rhs (P * (sol j).2.length) 1)
      else some (st.sols, st.rhs)) = some (sols, rhs) ∧
      sols.length = P * step.count ∧ rhs.length = P * step.count ∧
      (∀ k, k < step.count → sols[j + P * k]? = some (A j) ∧ rhs[j + P * k]? = some (R j)) ∧
      (∀ x, (∀ k, k < step.count → x ≠ j + P * k) → x < st.sols.length →
        sols[x]? = st.sols[x]? ∧ rhs[x]? = st.rhs[x]?) := by
    have hlen : st.sols.length ≤ P * step.count := by
      rw [h.lenS]; split
      · exact hPc
      · exact le_rfl
    have hlenR : st.rhs.length = st.sols.length := by rw [h.lenS, h.lenR]
    have hjlen : j < st.sols.length := (List.getElem?_eq_some_iff.mp hq).1
    by_cases hc : (sol j).2.length > 1
    · rw [if_pos hc, hcnt]
      obtain ⟨s', r', h1, h2, h3, h4, h5⟩ := replicateLoop_spec hj (L := P * step.count) (A j) (R j)
        (step.count - 1) 1 (resizeTo st.sols (P * step.count) [])
        (resizeTo st.rhs (P * step.count) 1) le_rfl (resizeTo_length _ _ _)
        (resizeTo_length _ _ _) (fun i h1 h2 => hmulk i (by omega))
        (by rw [resizeTo_get hjlen hlen]; exact hq)
        (by rw [resizeTo_get (by rw [hlenR]; exact hjlen) (by rw [hlenR]; exact hlen)]; exact hF)
      refine ⟨s', r', h1, h2, h3, ?_, ?_⟩
      · intro k hk
        rcases Nat.eq_zero_or_pos k with h0 | h0
        · subst h0
          have := h5 j (fun i hi _ => by
            have : 0 < P * i := Nat.mul_pos hP (by omega)
            omega)
          rw [Nat.mul_zero, Nat.add_zero, this.1, this.2, resizeTo_get hjlen hlen,
            resizeTo_get (by rw [hlenR]; exact hjlen) (by rw [hlenR]; exact hlen)]
          exact ⟨hq, hF⟩
        · exact h4 k h0 (by omega)
      · intro x hx hxl
        have := h5 x (fun i _ hi => hx i (by omega))
        rw [this.1, this.2, resizeTo_get hxl hlen,
          resizeTo_get (by rw [hlenR]; exact hxl) (by rw [hlenR]; exact hlen)]
        exact ⟨rfl, rfl⟩
    · rw [if_neg hc]
      have hc1 : step.count = 1 := by have := hok.pos; omega
      refine ⟨st.sols, st.rhs, rfl, ?_, ?_, ?_, fun x _ _ => ⟨rfl, rfl⟩⟩
      · rw [h.lenS, hc1]; split <;> simp
      · rw [h.lenR, hc1]; split <;> simp
      · intro k hk
        have : k = 0 := by omega
        subst this
        simpa using ⟨hq, hF⟩
  obtain ⟨sols, rhs, hr1, hr2, hr3, hr4, hr5⟩ := hrep
  have htl : st.terms.length = pb.poe.exps.length := by
    rw [h.terms]; split
    · exact hts
    · rw [markKnown_length, hts]
  obtain ⟨ts', sols', w1, w2, w3, w4, w5⟩ := storeLoop_spec (rev := pb.reversed) (j := j) hP (A j)
    (hA j hj) hok.lt (sol j).2 0 st.terms sols htl hr2 hidl
    (fun i hi => by rw [Nat.zero_add]; exact (hr4 i (by omega)).1)
  refine ⟨⟨sols', rhs, ts', st.reachable && (sol j).1⟩, ?_, ?_⟩
  · simp only [branchBody, hq, hF]
    simp only [Option.bind_eq_bind, Option.bind_some, hs]
    split at hr1
    · rw [if_pos (by assumption), hr1]
      simp only [Option.bind_some, w1]
      rfl
    · rw [if_neg (by assumption)]
      obtain ⟨e1, e2⟩ := Prod.mk.inj (Option.some.inj hr1)
      rw [e1, e2, w1]
      rfl
  · have hother : ∀ i, i < P → i ≠ j → ∀ k k', i + P * k ≠ j + P * k' := by
      intro i hi hne k k' he
      have := congrArg (· % P) he
      simp only [Nat.add_mul_mod_self_left, Nat.mod_eq_of_lt hi, Nat.mod_eq_of_lt hj] at this
      exact hne this
    refine ⟨?_, ?_, ?_, ?_, ?_, ?_, ?_, ?_⟩
    · simpa using w2
    · simpa using hr3
    · intro i hi hiP
      have h1 := w5 i (fun k _ => by
        have := hother i hiP (by omega) 0 (0 + k)
        simpa using this)
      have h2 := hr5 i (fun k _ => by
        have := hother i hiP (by omega) 0 k
        simpa using this) ((List.getElem?_eq_some_iff.mp (h.todoS i (by omega) hiP)).1)
      rw [h1, h2.1]; exact h.todoS i (by omega) hiP
    · intro i hi hiP
      have h2 := hr5 i (fun k _ => by
        have := hother i hiP (by omega) 0 k
        simpa using this) ((List.getElem?_eq_some_iff.mp (h.todoS i (by omega) hiP)).1)
      change rhs[i]? = _
      rw [h2.2]; exact h.todoR i (by omega) hiP
    · intro i hi k hk
      rcases Nat.lt_succ_iff_lt_or_eq.mp hi with hlt | heq
      · have hd := h.doneS i hlt k hk
        have h1 := w5 (i + P * k) (fun k' _ => hother i (by omega) (by omega) k (0 + k'))
        have h2 := hr5 (i + P * k) (fun k' _ => hother i (by omega) (by omega) k k')
          ((List.getElem?_eq_some_iff.mp hd).1)
        rw [h1, h2.1]; exact hd
      · subst heq
        have := w4 k hk
        rw [Nat.zero_add] at this
        exact this
    · intro i hi k hk
      rcases Nat.lt_succ_iff_lt_or_eq.mp hi with hlt | heq
      · have hd := h.doneR i hlt k hk
        have hlen : i + P * k < st.sols.length := by
          rw [h.lenS, ← h.lenR]; exact (List.getElem?_eq_some_iff.mp hd).1
        have h2 := hr5 (i + P * k) (fun k' _ => hother i (by omega) (by omega) k k') hlen
        change rhs[i + P * k]? = _
        rw [h2.2]; exact hd
      · subst heq
        exact (hr4 k hk).2
    · rw [if_neg (Nat.succ_ne_zero j)]
      change ts' = _
      rw [w3, if_neg (by intro h0; rw [h0] at hcnt; have := hok.pos; simp at hcnt; omega), h.terms]
      split
      · rfl
      · exact markKnown_idem _ _
    · change (st.reachable && (sol j).1) = _
      rw [h.reach, List.range_succ, List.all_append, Bool.and_assoc]
      simp

theorem branchLoop_inv {pb : IkProblem} {step : Step} {P : ℕ} {ids : List ℕ} {A : ℕ → List ℝ}
    {R : ℕ → Frame} {ts : List TermState} {r0 : Bool} {sol : ℕ → Bool × List LocalSol}
    (hok : StepOK pb.poe.exps.length step ids)
    (hA : ∀ i, i < P → (A i).length = pb.poe.exps.length) (hts : ts.length = pb.poe.exps.length)
    (hsol : ∀ i, i < P → step.solve (R i)
      (pb.transformPoint (A i) (if i = 0 then ts else markKnown ts ids)) = some (sol i)) (m : ℕ) :
    ∀ (j : ℕ) (st : State), j + m = P →
      LoopInv pb.poe.exps.length pb.reversed P step.count ids A R ts r0 sol j st →
      ∃ st', branchLoop pb step P j m st = some st' ∧
        LoopInv pb.poe.exps.length pb.reversed P step.count ids A R ts r0 sol P st' := by
  induction m with
  | zero =>
    intro j st hjm h
    have : j = P := by omega
    subst this
    exact ⟨st, rfl, h⟩
  | succ m ih =>
    intro j st hjm h
    obtain ⟨st1, h1, h2⟩ := branchBody_inv hok (by omega) hA hts hsol h
    obtain ⟨st2, h3, h4⟩ := ih (j + 1) st1 (by omega) h2
    exact ⟨st2, by simp [branchLoop, h1, h3], h4⟩

end IkProblem

end KD
