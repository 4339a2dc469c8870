import Verif.Screw.IkLemmas

/-! A single branch of `ScrewTheoryIkProblem::solve` as a sequential run, and the proof that the
strided vectors of the C++ code hold exactly these runs. -/

namespace KD

namespace IkProblem

theorem getD_getElem {α : Type} {l : List α} {i : ℕ} {d : α} (h : i < l.length) :
    l.getD i d = l[i] := by simp [List.getD, h]

/-- Product of the known terms before the first unknown one. -/
noncomputable def leadFrame (reversed : Bool) (q : List ℝ) :
    List MatrixExp → List TermState → ℕ → Frame
  | e :: es, .known :: ts, i =>
    e.asFrame (getTheta q i reversed) * leadFrame reversed q es ts (i + 1)
  | _ :: es, .computed :: ts, i => leadFrame reversed q es ts (i + 1)
  | _, _, _ => 1

/-- Whether there is any known term before the first unknown one. -/
def leadAny : List TermState → Bool
  | .known :: _ => true
  | .computed :: ts => leadAny ts
  | _ => false

/-- States once the leading known terms have been moved to the right-hand side. -/
def advance : List TermState → List TermState
  | .known :: ts => .computed :: advance ts
  | .computed :: ts => .computed :: advance ts
  | ts => ts

/-- The last term, if known. -/
noncomputable def trailFrame (reversed : Bool) (q : List ℝ) (es : List MatrixExp)
    (ts : List TermState) : Frame :=
  match es.getLast?, ts.getLast? with
  | some e, some .known => e.asFrame (getTheta q (ts.length - 1) reversed)
  | _, _ => 1

/-- States once the last term, if known, has been moved to the right-hand side. -/
def retreat (ts : List TermState) : List TermState :=
  match ts.getLast? with
  | some .known => ts.dropLast ++ [.computed]
  | _ => ts

/-- States after moving known terms. -/
def nextTerms (ts : List TermState) : List TermState := retreat (advance ts)

/-- Right-hand side of one branch after moving known terms. -/
noncomputable def rebase (pb : IkProblem) (ts : List TermState) (q : List ℝ) (F : Frame) : Frame :=
  (leadFrame pb.reversed q pb.poe.exps ts 0).inv * F *
    (trailFrame pb.reversed q pb.poe.exps (advance ts)).inv

theorem advance_length (ts : List TermState) : (advance ts).length = ts.length := by
  induction ts with
  | nil => rfl
  | cons t ts ih => cases t <;> simp [advance, ih]

theorem retreat_length (ts : List TermState) : (retreat ts).length = ts.length := by
  unfold retreat
  split
  · rename_i h
    have : ts ≠ [] := by rintro rfl; simp at h
    have := List.length_pos_of_ne_nil this
    simp; omega
  · rfl

theorem nextTerms_length (ts : List TermState) : (nextTerms ts).length = ts.length := by
  rw [nextTerms, retreat_length, advance_length]

theorem forwardLoop_eq (rev : Bool) (sols : List (List ℝ)) :
    ∀ (es : List MatrixExp) (ts : List TermState) (i : ℕ) (frames : List Frame) (b : Bool),
      ts.length = es.length → frames.length = sols.length →
      forwardLoop rev sols es ts i frames b =
        (advance ts, List.zipWith (fun f q => f * leadFrame rev q es ts i) frames sols,
          b || leadAny ts) := by
  have hid : ∀ (g : List ℝ → Frame) (frames : List Frame) (sols : List (List ℝ)),
      frames.length = sols.length → (∀ q, g q = 1) →
      List.zipWith (fun f q => f * g q) frames sols = frames := by
    intro g frames sols h hg
    induction frames generalizing sols with
    | nil => simp
    | cons f fs ih =>
      cases sols with
      | nil => simp at h
      | cons s ss => simp only [List.zipWith_cons_cons, hg, mul_one] at ih ⊢; rw [ih ss (by simpa using h)]
  intro es
  induction es with
  | nil =>
    intro ts i frames b h hl
    have : ts = [] := by simpa using h
    subst this
    simp only [forwardLoop, advance, leadAny, Bool.or_false]
    rw [hid (fun q => leadFrame rev q _ _ i) _ _ hl (fun q => rfl)]
  | cons e es ih =>
    intro ts i frames b h hl
    cases ts with
    | nil => simp at h
    | cons t ts =>
      have h' : ts.length = es.length := by simpa using h
      cases t with
      | known =>
        simp only [forwardLoop, advance, leadAny, Bool.or_true]
        rw [ih ts (i + 1) _ true h' (by simp [hl])]
        simp only [Bool.true_or, leadFrame]
        refine Prod.ext rfl (Prod.ext ?_ rfl)
        simp only
        clear ih h
        induction frames generalizing sols with
        | nil => simp
        | cons f fs ihf =>
          cases sols with
          | nil => simp
          | cons s ss =>
            simp only [List.zipWith_cons_cons, mul_assoc]
            rw [ihf ss (by simpa using hl)]
      | computed =>
        simp only [forwardLoop, advance, leadAny]
        rw [ih ts (i + 1) _ b h' hl]
        rfl
      | unknown =>
        simp only [forwardLoop, advance, leadAny, Bool.or_false]
        rw [hid (fun q => leadFrame rev q _ _ i) _ _ hl (fun q => rfl)]

theorem leadFrame_of_not_any (rev : Bool) (q : List ℝ) :
    ∀ (es : List MatrixExp) (ts : List TermState) (i : ℕ), leadAny ts = false →
      leadFrame rev q es ts i = 1 := by
  intro es
  induction es with
  | nil => intro ts i _; simp [leadFrame]
  | cons e es ih =>
    intro ts i h
    cases ts with
    | nil => rfl
    | cons t ts =>
      cases t with
      | known => simp [leadAny] at h
      | computed => exact ih ts (i + 1) h
      | unknown => rfl

theorem recalculateFrames_eq (pb : IkProblem) (sols : List (List ℝ)) (frames : List Frame)
    (ts : List TermState) (ht : ts.length = pb.poe.exps.length)
    (hl : frames.length = sols.length) :
    pb.recalculateFrames sols frames ts =
      (List.zipWith (fun q F => pb.rebase ts q F) sols frames, nextTerms ts) := by
  unfold recalculateFrames
  rw [forwardLoop_eq _ _ _ _ _ _ _ ht (by simp)]
  simp only [Bool.false_or]
  have h1 : (if leadAny ts = true then
      List.zipWith (fun p f => p.inv * f)
        (List.zipWith (fun f q => f * leadFrame pb.reversed q pb.poe.exps ts 0)
          (List.replicate sols.length 1) sols) frames
      else frames) =
      List.zipWith (fun q F => (leadFrame pb.reversed q pb.poe.exps ts 0).inv * F) sols frames := by
    split
    · clear ht
      induction sols generalizing frames with
      | nil => simp
      | cons q qs ih =>
        cases frames with
        | nil => simp
        | cons f fs =>
          simp only [List.length_cons, List.replicate_succ, List.zipWith_cons_cons, one_mul]
          rw [ih fs (by simpa using hl)]
    · rename_i h
      have h : leadAny ts = false := by simpa using h
      clear ht
      induction sols generalizing frames with
      | nil => simp at hl; simp [hl]
      | cons q qs ih =>
        cases frames with
        | nil => simp at hl
        | cons f fs =>
          simp only [List.zipWith_cons_cons]
          rw [← ih fs (by simpa using hl), leadFrame_of_not_any _ _ _ _ _ h, Frame.inv_one,
            one_mul]
  rw [h1]
  have hz : ∀ (A B : List ℝ → Frame) (qs : List (List ℝ)) (fs : List Frame),
      List.zipWith (fun f p => f * p.inv)
        (List.zipWith (fun q F => (A q).inv * F) qs fs)
        (List.zipWith (fun f q => f * B q) (List.replicate qs.length 1) qs) =
      List.zipWith (fun q F => (A q).inv * F * (B q).inv) qs fs := by
    intro A B qs
    induction qs with
    | nil => simp
    | cons q qs ih =>
      intro fs
      cases fs with
      | nil => simp
      | cons f fs =>
        simp only [List.length_cons, List.replicate_succ, List.zipWith_cons_cons, one_mul]
        rw [ih fs]
  unfold backwardLoop rebase nextTerms retreat trailFrame
  rcases hE : pb.poe.exps.getLast? with _ | e
  · have he : pb.poe.exps = [] := by simpa using hE
    have : ts = [] := by simpa [he] using ht
    subst this
    simp [advance, Frame.inv_one, mul_one]
  · rcases hT : (advance ts).getLast? with _ | t
    · simp [Frame.inv_one, mul_one]
    · cases t with
      | known =>
        simp only [if_true]
        rw [hz (fun q => leadFrame pb.reversed q pb.poe.exps ts 0)
          (fun q => e.asFrame (getTheta q ((advance ts).length - 1) pb.reversed))]
      | computed => simp [Frame.inv_one, mul_one]
      | unknown => simp [Frame.inv_one, mul_one]

/-- One branch: at each step the `k`-th local solution is stored. Returns the flags of the
local calls and the joint array. `zero` tells whether all the
choices so far are `0`; the C++ loop marks the joints of the step as known while handling that
first branch, so that the other branches compute the point transform with them marked. -/
noncomputable def runBranch (pb : IkProblem) : List (Step × List ℕ) → List ℕ → Bool → Bool →
    List TermState → List ℝ → Frame → Option (List Bool × List ℝ)
  | (s, ids) :: ss, k :: ks, first, zero, ts, q, F => do
    let ts1 := if first then ts else nextTerms ts
    let F1 := if first then F else pb.rebase ts q F
    let (ok, ls) ← s.solve F1 (pb.transformPoint q (if zero then ts1 else markKnown ts1 ids))
    let l ← ls[k]?
    let (oks, q') ← runBranch pb ss ks false (zero && k == 0) (markKnown ts1 ids)
      (writeVals pb.poe.exps.length pb.reversed l q) F1
    pure (ok :: oks, q')
  | _, _, _, _, _, q, _ => some ([], q)

/-- Position of a vector of choices in the output: first step varies fastest. -/
def radix : List ℕ → List ℕ → ℕ
  | c :: cs, k :: ks => k + c * radix cs ks
  | _, _ => 0

/-- One choice per step. -/
def Choices : List ℕ → List ℕ → Prop := List.Forall₂ (fun c k => k < c)

theorem radix_lt : ∀ (cs ks : List ℕ), Choices cs ks → radix cs ks < cs.prod := by
  intro cs ks h
  induction h with
  | nil => simp [radix]
  | cons hk _ ih =>
    rename_i c k cs ks _
    simp only [radix, List.prod_cons]
    calc k + c * radix cs ks < c + c * radix cs ks := by omega
      _ = c * (radix cs ks + 1) := by ring
      _ ≤ c * cs.prod := Nat.mul_le_mul_left c ih

theorem radix_surj : ∀ (cs : List ℕ) (m : ℕ), m < cs.prod → ∃ ks, Choices cs ks ∧ radix cs ks = m := by
  intro cs
  induction cs with
  | nil => intro m hm; exact ⟨[], List.Forall₂.nil, by simp at hm; simp [radix, hm]⟩
  | cons c cs ih =>
    intro m hm
    have hc : 0 < c := by
      rcases Nat.eq_zero_or_pos c with h | h
      · simp [h] at hm
      · exact h
    rw [List.prod_cons] at hm
    obtain ⟨ks, h1, h2⟩ := ih (m / c) (Nat.div_lt_of_lt_mul hm)
    refine ⟨(m % c) :: ks, List.Forall₂.cons (Nat.mod_lt _ hc) h1, ?_⟩
    simp only [radix, h2]
    exact Nat.mod_add_div m c

theorem stepsLoop_eq (pb : IkProblem) : ∀ (ss : List (Step × List ℕ)) (first : Bool) (st : State)
    (A : ℕ → List ℝ) (R : ℕ → Frame),
    (∀ s ∈ ss, StepOK pb.poe.exps.length s.1 s.2) →
    st.rhs.length = st.sols.length →
    (∀ i, i < st.sols.length → st.sols[i]? = some (A i) ∧ st.rhs[i]? = some (R i) ∧
      (A i).length = pb.poe.exps.length) →
    st.terms.length = pb.poe.exps.length →
    ∃ st', stepsLoop pb (ss.map Prod.fst) first st = some st' ∧
      st'.sols.length = st.sols.length * (ss.map fun s => s.1.count).prod ∧
      (∀ j, j < st.sols.length → ∀ ks, Choices (ss.map fun s => s.1.count) ks →
        ∃ ok q, runBranch pb ss ks first (j == 0) st.terms (A j) (R j) = some (ok, q) ∧
          q.length = pb.poe.exps.length ∧
          st'.sols[j + st.sols.length * radix (ss.map fun s => s.1.count) ks]? = some q) ∧
      (st'.reachable = true ↔ st.reachable = true ∧ ∀ j, j < st.sols.length → ∀ ks,
        Choices (ss.map fun s => s.1.count) ks →
        ∃ oks q, runBranch pb ss ks first (j == 0) st.terms (A j) (R j) = some (oks, q) ∧
          ∀ o ∈ oks, o = true) := by
  intro ss
  induction ss with
  | nil =>
    intro first st A R _ _ hA _
    refine ⟨st, rfl, by simp, ?_, ?_⟩
    · intro j hj ks hks
      have : ks = [] := by simpa [Choices] using hks
      subst this
      exact ⟨[], A j, rfl, (hA j hj).2.2, by simpa [radix] using (hA j hj).1⟩
    · constructor
      · intro h
        exact ⟨h, fun j _ ks _ => ⟨[], A j, by cases ks <;> rfl, by simp⟩⟩
      · exact fun h => h.1
  | cons sp ss ih =>
    obtain ⟨s, ids⟩ := sp
    intro first st A R hok hlen hA hts
    have hs : StepOK pb.poe.exps.length s ids := hok (s, ids) List.mem_cons_self
    -- state after moving known terms
    let ts1 := if first then st.terms else nextTerms st.terms
    let R1 : ℕ → Frame := fun j => if first then R j else pb.rebase st.terms (A j) (R j)
    let st1 : State := if first then st
      else
        let r := pb.recalculateFrames st.sols st.rhs st.terms
        { st with rhs := r.1, terms := r.2 }
    have e1 : st1.sols = st.sols := by
      simp only [st1]; split <;> rfl
    have e2 : st1.terms = ts1 := by
      simp only [st1, ts1]; split
      · rfl
      · simp only [recalculateFrames_eq pb _ _ _ hts hlen]
    have e3 : st1.reachable = st.reachable := by
      simp only [st1]; split <;> rfl
    have e4 : st1.rhs.length = st.sols.length ∧
        ∀ i, i < st.sols.length → st1.rhs[i]? = some (R1 i) := by
      simp only [st1, R1]; split
      · exact ⟨hlen, fun i hi => (hA i hi).2.1⟩
      · simp only [recalculateFrames_eq pb _ _ _ hts hlen]
        refine ⟨by simp [hlen], fun i hi => ?_⟩
        rw [List.getElem?_zipWith, (hA i hi).1, (hA i hi).2.1]
    have hts1 : ts1.length = pb.poe.exps.length := by
      simp only [ts1]; split
      · exact hts
      · rw [nextTerms_length, hts]
    have hsolve : ∀ i, ∃ p, s.solve (R1 i)
        (pb.transformPoint (A i) (if i = 0 then ts1 else markKnown ts1 ids)) = some p := by
      intro i
      obtain ⟨ok, ls, h⟩ := hs.total (R1 i)
        (pb.transformPoint (A i) (if i = 0 then ts1 else markKnown ts1 ids))
      exact ⟨_, h⟩
    choose sol hsol using hsolve
    have hcnt : ∀ i, (sol i).2.length = s.count := fun i =>
      hs.count _ _ _ _ ((hsol i).trans (by rw [Prod.mk.eta]))
    generalize hP : st.sols.length = P at *
    obtain ⟨st2, h2, inv⟩ := branchLoop_inv (pb := pb) (P := P) (A := A) (R := R1) (ts := ts1)
      (r0 := st.reachable) (sol := sol) hs
      (fun i hi => (hA i hi).2.2) hts1 (fun i _ => hsol i) P 0 st1 (by omega)
      ⟨by simp [e1, hP], by simp [e4.1], fun i _ hi => by rw [e1]; exact (hA i hi).1,
        fun i _ hi => e4.2 i hi, fun i hi => absurd hi (by omega), fun i hi => absurd hi (by omega),
        by simp [e2], by simp [e3]⟩
    have hlen2 : st2.sols.length = P * s.count ∧ st2.rhs.length = P * s.count := by
      have a := inv.lenS
      have b := inv.lenR
      by_cases h0 : P = 0
      · simp [h0] at a b ⊢; exact ⟨a, b⟩
      · rw [if_neg h0] at a b; exact ⟨a, b⟩
    -- branches after the step
    let A2 : ℕ → List ℝ := fun m =>
      writeVals pb.poe.exps.length pb.reversed ((sol (m % P)).2.getD (m / P) []) (A (m % P))
    let R2 : ℕ → Frame := fun m => R1 (m % P)
    have hA2 : ∀ i, i < st2.sols.length → st2.sols[i]? = some (A2 i) ∧ st2.rhs[i]? = some (R2 i) ∧
        (A2 i).length = pb.poe.exps.length := by
      intro i hi
      rw [hlen2.1] at hi
      have hPpos : 0 < P := by
        rcases Nat.eq_zero_or_pos P with h | h
        · simp [h] at hi
        · exact h
      have hm : i % P < P := Nat.mod_lt _ hPpos
      have hd : i / P < s.count := Nat.div_lt_of_lt_mul hi
      have hi' : i % P + P * (i / P) = i := Nat.mod_add_div i P
      have hd' : i / P < (sol (i % P)).2.length := by rw [hcnt]; exact hd
      have a := inv.doneS (i % P) hm (i / P) hd'
      have b := inv.doneR (i % P) hm (i / P) hd
      rw [hi'] at a b
      refine ⟨?_, b, ?_⟩
      · rw [a]; simp only [A2, getD_getElem hd']
      · simp only [A2, writeVals_length]; exact (hA _ hm).2.2
    have hstep : stepsLoop pb ((⟨s, ids⟩ :: ss).map Prod.fst) first st =
        stepsLoop pb (ss.map Prod.fst) false st2 := by
      simp only [List.map_cons, stepsLoop]
      change (branchLoop pb s st1.sols.length 0 st1.sols.length st1).bind _ = _
      rw [e1, hP, h2]; rfl
    have hrun : ∀ j, j < P → ∀ k, k < s.count → ∀ ks,
        runBranch pb ((s, ids) :: ss) (k :: ks) first (j == 0) st.terms (A j) (R j) =
          (runBranch pb ss ks false (j + P * k == 0) (markKnown ts1 ids) (A2 (j + P * k))
            (R2 (j + P * k))).map fun r => ((sol j).1 :: r.1, r.2) := by
      intro j hj k hk ks
      have hPpos : 0 < P := by omega
      have hmod : (j + P * k) % P = j := by
        rw [Nat.add_mul_mod_self_left, Nat.mod_eq_of_lt hj]
      have hdiv : (j + P * k) / P = k := by
        rw [Nat.add_mul_div_left _ _ hPpos, Nat.div_eq_of_lt hj, Nat.zero_add]
      have hk' : k < (sol j).2.length := by rw [hcnt]; exact hk
      have hz : (j + P * k == 0) = ((j == 0) && (k == 0)) := by
        rw [Bool.eq_iff_iff]; simp; omega
      simp only [runBranch, A2, R2, hmod, hdiv, hz]
      have hsj := hsol j
      have hsj' : s.solve (if first = true then R j else pb.rebase st.terms (A j) (R j))
        (pb.transformPoint (A j) (if (j == 0) = true then ts1 else markKnown ts1 ids)) =
          some (sol j) := by
        simpa [R1] using hsj
      rw [hsj']
      simp only [Option.bind_eq_bind, Option.bind_some, List.getElem?_eq_getElem hk',
        getD_getElem hk']
      rcases hrb : runBranch pb ss ks false (j == 0 && k == 0) (markKnown ts1 ids)
        (writeVals pb.poe.exps.length pb.reversed (sol j).2[k] (A j)) (R1 j) with _ | ⟨o, q⟩
      · rfl
      · rfl
    obtain ⟨st3, h3, l3, b3, r3⟩ := ih false st2 A2 R2
      (fun s hs => hok s (List.mem_cons_of_mem _ hs)) (by rw [hlen2.1, hlen2.2]) hA2
      (by rw [inv.terms]; split
          · exact hts1
          · rw [markKnown_length, hts1])
    have hterms : 0 < P → st2.terms = markKnown ts1 ids := fun h => by
      rw [inv.terms, if_neg (by omega)]
    refine ⟨st3, by rw [hstep, h3], ?_, ?_, ?_⟩
    · rw [l3, hlen2.1, List.map_cons, List.prod_cons, Nat.mul_assoc]
    · intro j hj ks hks
      cases hks with
      | cons hk hks' =>
        rename_i k ks
        have hlt : j + P * k < st2.sols.length := by
          rw [hlen2.1]
          calc j + P * k < P + P * k := by omega
            _ = P * (k + 1) := by ring
            _ ≤ P * s.count := Nat.mul_le_mul_left P hk
        obtain ⟨ok, q, g1, g2, g3⟩ := b3 (j + P * k) hlt ks hks'
        rw [hterms (by omega)] at g1
        refine ⟨(sol j).1 :: ok, q, ?_, g2, ?_⟩
        · rw [hrun j hj k hk ks, g1]; rfl
        · rw [hlen2.1] at g3
          rw [← g3]
          congr 1
          simp only [List.map_cons, radix]
          ring
    · rw [r3]
      have hreach : st2.reachable = true ↔ st.reachable = true ∧ ∀ j < P, (sol j).1 = true := by
        rw [inv.reach]; simp
      rw [hreach]
      constructor
      · rintro ⟨⟨hr, hok1⟩, hrest⟩
        refine ⟨hr, fun j hj ks hks => ?_⟩
        cases hks with
        | cons hk hks' =>
          rename_i k ks
          have hlt : j + P * k < st2.sols.length := by
            rw [hlen2.1]
            calc j + P * k < P + P * k := by omega
              _ = P * (k + 1) := by ring
              _ ≤ P * s.count := Nat.mul_le_mul_left P hk
          obtain ⟨oks, q, hq, ho⟩ := hrest _ hlt ks hks'
          rw [hterms (by omega)] at hq
          refine ⟨(sol j).1 :: oks, q, by rw [hrun j hj k hk ks, hq]; rfl, fun o hm => ?_⟩
          rcases List.mem_cons.mp hm with h | h
          · rw [h]; exact hok1 j hj
          · exact ho o h
      · rintro ⟨hr, hall⟩
        -- some choice vector for the rest exists
        have hex : ∃ ks, Choices (ss.map fun s => s.1.count) ks := by
          have : ∀ s ∈ ss, 0 < s.1.count := fun s hs => (hok s (List.mem_cons_of_mem _ hs)).pos
          clear * - this
          induction ss with
          | nil => exact ⟨[], List.Forall₂.nil⟩
          | cons s ss ih =>
            obtain ⟨ks, h⟩ := ih (fun s hs => this s (List.mem_cons_of_mem _ hs))
            exact ⟨0 :: ks, List.Forall₂.cons (this s List.mem_cons_self) h⟩
        refine ⟨⟨hr, fun j hj => ?_⟩, fun m hm ks hks => ?_⟩
        · obtain ⟨ks, hks⟩ := hex
          obtain ⟨oks, q, hq, ho⟩ := hall j hj (0 :: ks) (List.Forall₂.cons hs.pos hks)
          rw [hrun j hj 0 hs.pos ks] at hq
          rcases h : runBranch pb ss ks false (j + P * 0 == 0) (markKnown ts1 ids)
            (A2 (j + P * 0)) (R2 (j + P * 0)) with _ | ⟨o, q'⟩
          · rw [h] at hq; simp at hq
          · rw [h] at hq
            simp at hq
            exact ho _ (by rw [← hq.1]; exact List.mem_cons_self)
        · rw [hlen2.1] at hm
          have hPpos : 0 < P := by
            rcases Nat.eq_zero_or_pos P with h | h
            · simp [h] at hm
            · exact h
          have hmm : m % P < P := Nat.mod_lt _ hPpos
          have hd : m / P < s.count := Nat.div_lt_of_lt_mul hm
          have hm' : m % P + P * (m / P) = m := Nat.mod_add_div m P
          obtain ⟨oks, q, hq, ho⟩ := hall (m % P) hmm (m / P :: ks) (List.Forall₂.cons hd hks)
          rw [hrun _ hmm _ hd ks, hm'] at hq
          rw [hterms hPpos]
          rcases h : runBranch pb ss ks false (m == 0) (markKnown ts1 ids)
            (A2 m) (R2 m) with _ | ⟨o, q'⟩
          · rw [h] at hq; simp at hq
          · rw [h] at hq
            simp at hq
            exact ⟨o, q', rfl, fun o' hm => ho o' (by rw [← hq.1]; exact List.mem_cons_of_mem _ hm)⟩

end IkProblem

end KD
