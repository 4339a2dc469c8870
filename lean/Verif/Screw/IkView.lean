import Verif.Screw.IkTrace

/-! The view each step has of the POE equation along a branch of `ScrewTheoryIkProblem::solve`. -/

namespace KD

namespace IkProblem

open TermState

/-- Invariant along a branch; `prev` lists the joints solved so far, `T0` is the value the product
of exponentials must take. -/
structure TraceInv (pb : IkProblem) (T0 : Frame) (prev : List ℕ) (ts : List TermState)
    (q : List ℝ) (F : Frame) : Prop where
  lenT : ts.length = pb.poe.exps.length
  lenQ : q.length = pb.poe.exps.length
  unk : ∀ i, i < pb.poe.exps.length → (ts[i]? = some .unknown ↔ i ∉ prev)
  zero : ∀ i, i < pb.poe.exps.length → i ∉ prev → getTheta q i pb.reversed = 0
  shape : Shape ts
  eqn : ∃ A B : Frame, A.IsRigid ∧ B.IsRigid ∧ F = A * T0 * B ∧
    (ts.getLast? ≠ some .computed → B = 1) ∧
    ∀ x : List ℝ, x.length = pb.poe.exps.length →
    (∀ i, ts[i]? = some .computed → x[i]? = some (getTheta q i pb.reversed)) →
    remT pb.poe.exps ts x = A * Poe.expProd pb.poe.exps x * B

theorem TraceInv.init (pb : IkProblem) (T0 : Frame) :
    TraceInv pb T0 [] (List.replicate pb.poe.exps.length .unknown)
      (List.replicate pb.poe.exps.length 0) T0 := by
  refine ⟨by simp, by simp, fun i hi => by simp [hi], fun i hi _ => ?_,
    fun i hi => ?_, 1, 1, Frame.IsRigid.one, Frame.IsRigid.one, by simp, fun _ => rfl, fun x _ _ => ?_⟩
  · unfold getTheta; cases pb.reversed <;> simp [List.getD] <;>
      (rw [List.getElem?_replicate]; split <;> simp)
  · rw [List.getElem?_replicate] at hi; split at hi <;> simp at hi
  · rw [remT_unknown]; simp

theorem TraceInv.move {pb : IkProblem} {T0 : Frame} {prev : List ℕ} {ts : List TermState}
    {q : List ℝ} {F : Frame} (hu : ∀ e ∈ pb.poe.exps, e.Unit) (h : TraceInv pb T0 prev ts q F) :
    TraceInv pb T0 prev (nextTerms ts) q (pb.rebase ts q F) := by
  obtain ⟨A, B, hA, hB, hF, hB1, heq⟩ := h.eqn
  have hL := leadFrame_rigid pb.reversed q pb.poe.exps ts 0 hu
  have hT := trailFrame_rigid pb.reversed q pb.poe.exps (advance ts) hu
  refine ⟨by rw [nextTerms_length, h.lenT], h.lenQ, fun i hi => ?_, h.zero, h.shape.next,
    (leadFrame pb.reversed q pb.poe.exps ts 0).inv * A,
    B * (trailFrame pb.reversed q pb.poe.exps (advance ts)).inv, hL.inv.mul hA, hB.mul hT.inv,
    by rw [hF]; simp only [rebase, mul_assoc], fun hl => ?_, fun x hx hc => ?_⟩
  · rw [← h.unk i hi]
    rcases nextTerms_get ts i with h1 | ⟨h1, h2⟩
    · rw [h1]
    · rw [h1, h2]; simp
  · rw [hB1 (last_stays hl), trailFrame_eq_one hl]; simp
  · rw [rebase_equation hu h.lenT hx hc, heq x hx (fun i hi => hc i ?_)]
    · simp only [rebase, mul_assoc]
    · rcases nextTerms_get ts i with h1 | ⟨h1, h2⟩
      · rw [h1, hi]
      · rw [h1] at hi; simp at hi

theorem TraceInv.store {pb : IkProblem} {T0 : Frame} {prev ids : List ℕ} {ts : List TermState}
    {q : List ℝ} {F : Frame} (h : TraceInv pb T0 prev ts q F) {l : LocalSol}
    (hl : l.map Prod.fst = ids) (hn : ∀ i ∈ ids, i < pb.poe.exps.length)
    (hd : ∀ i ∈ ids, i ∉ prev) :
    TraceInv pb T0 (prev ++ ids) (markKnown ts ids)
      (writeVals pb.poe.exps.length pb.reversed l q) F := by
  have hl' : ∀ p ∈ l, p.1 < pb.poe.exps.length := fun p hp =>
    hn _ (by rw [← hl]; exact List.mem_map_of_mem hp)
  obtain ⟨A, B, hA, hB, hF, hB1, heq⟩ := h.eqn
  have hcomp : ∀ i : ℕ, ts[i]? = some .computed ↔ (markKnown ts ids)[i]? = some .computed := by
    intro i
    rw [markKnown_get]
    by_cases hm : i ∈ ids
    · have hlt : i < pb.poe.exps.length := hn i hm
      have hunk := (h.unk i hlt).mpr (hd i hm)
      rw [hunk]; simp [hm]
    · simp [hm]
  refine ⟨by rw [markKnown_length, h.lenT], by rw [writeVals_length, h.lenQ], fun i hi => ?_,
    fun i hi hni => ?_, fun i hi => ?_, A, B, hA, hB, hF, fun hl => hB1 fun hc => hl ?_, fun x hx hc => ?_⟩
  · rw [markKnown_get]
    by_cases hm : i ∈ ids
    · have : i < ts.length := by rw [h.lenT]; exact hi
      simp [hm, this]
    · simp [hm, h.unk i hi]
  · simp only [List.mem_append, not_or] at hni
    rw [writeVals_getTheta_of_notMem hi h.lenQ hl' (by rw [hl]; exact hni.2)]
    exact h.zero i hi hni.1
  · rw [markKnown_length]
    rcases h.shape i ((hcomp i).mpr hi) with h1 | h1
    · exact Or.inl h1
    · exact Or.inr fun j hj => (hcomp j).mp (h1 j hj)
  · rw [List.getLast?_eq_getElem?, markKnown_length]
    rw [List.getLast?_eq_getElem?] at hc
    exact (hcomp _).mp hc
  · have hagree : ∀ i, ts[i]? = some .computed →
        getTheta (writeVals pb.poe.exps.length pb.reversed l q) i pb.reversed =
          getTheta q i pb.reversed := by
      intro i hi
      have hlt : i < pb.poe.exps.length := by
        rw [← h.lenT]; exact (List.getElem?_eq_some_iff.mp hi).1
      refine writeVals_getTheta_of_notMem hlt h.lenQ hl' (fun hm => ?_)
      rw [hl] at hm
      have := (h.unk i hlt).mpr (hd i hm)
      rw [this] at hi; simp at hi
    rw [← heq x hx (fun i hi => by rw [hc i ((hcomp i).mp hi), hagree i hi])]
    have : ∀ (es : List MatrixExp) (t1 t2 : List TermState) (x : List ℝ),
        t1.length = t2.length →
        (∀ i : ℕ, t1[i]? = some .computed ↔ t2[i]? = some .computed) → remT es t1 x = remT es t2 x := by
      intro es
      induction es with
      | nil => intro t1 t2 x _ _; simp [remT]
      | cons e es ih =>
        intro t1 t2 x hlen hcc
        cases t1 with
        | nil =>
          have : t2 = [] := by simpa using hlen.symm
          subst this; rfl
        | cons a t1 =>
          cases t2 with
          | nil => simp at hlen
          | cons b t2 =>
            cases x with
            | nil => cases a <;> cases b <;> simp [remT]
            | cons y x =>
              have h0 := hcc 0
              have ih' := ih t1 t2 x (by simpa using hlen) (fun i => by simpa using hcc (i + 1))
              cases a <;> cases b <;> simp [remT, ih'] at h0 ⊢
    exact (this pb.poe.exps ts (markKnown ts ids) x (by rw [markKnown_length]) hcomp).symm

theorem runBranch_preserve {pb : IkProblem} : ∀ (ss : List (Step × List ℕ)) (ks : List ℕ)
    (first zero : Bool) (ts : List TermState) (q : List ℝ) (F : Frame) (ok : List Bool) (qf : List ℝ),
    (∀ s ∈ ss, StepOK pb.poe.exps.length s.1 s.2) → q.length = pb.poe.exps.length →
    runBranch pb ss ks first zero ts q F = some (ok, qf) →
    qf.length = pb.poe.exps.length ∧
    ∀ i, i < pb.poe.exps.length → i ∉ ss.flatMap Prod.snd →
      getTheta qf i pb.reversed = getTheta q i pb.reversed := by
  intro ss
  induction ss with
  | nil =>
    intro ks first zero ts q F ok qf _ hq h
    simp only [runBranch, Option.some.injEq, Prod.mk.injEq] at h
    rw [← h.2]
    exact ⟨hq, fun _ _ _ => rfl⟩
  | cons sp ss ih =>
    obtain ⟨s, ids⟩ := sp
    intro ks first zero ts q F ok qf hok hq h
    cases ks with
    | nil =>
      simp only [runBranch, Option.some.injEq, Prod.mk.injEq] at h
      rw [← h.2]
      exact ⟨hq, fun _ _ _ => rfl⟩
    | cons k ks =>
      simp only [runBranch, Option.bind_eq_bind, Option.bind_eq_some_iff] at h
      obtain ⟨⟨okl, ls⟩, h1, l, h2, ⟨ok', q'⟩, h3, h4⟩ := h
      simp only [Option.pure_def, Option.some.injEq, Prod.mk.injEq] at h4
      have hs : StepOK pb.poe.exps.length s ids := hok (s, ids) List.mem_cons_self
      have hl := hs.sameIds _ _ _ _ h1 l (List.mem_of_getElem? h2)
      obtain ⟨r1, r2⟩ := ih ks _ _ _ _ _ _ _ (fun s hs => hok s (List.mem_cons_of_mem _ hs))
        (by rw [writeVals_length, hq]) h3
      rw [← h4.2]
      refine ⟨r1, fun i hi hni => ?_⟩
      simp only [List.flatMap_cons, List.mem_append, not_or] at hni
      rw [r2 i hi hni.2, writeVals_getTheta_of_notMem hi hq
        (fun p hp => hs.lt _ (by rw [← hl]; exact List.mem_map_of_mem hp)) (by rw [hl]; exact hni.1)]

theorem runBranch_flags {pb : IkProblem} : ∀ (ss : List (Step × List ℕ)) (ks : List ℕ)
    (first zero : Bool) (ts : List TermState) (q : List ℝ) (F : Frame) (ok : List Bool)
    (qf : List ℝ), ks.length = ss.length →
    runBranch pb ss ks first zero ts q F = some (ok, qf) → ok.length = ss.length := by
  intro ss
  induction ss with
  | nil =>
    intro ks first zero ts q F ok qf _ h
    simp only [runBranch, Option.some.injEq, Prod.mk.injEq] at h
    rw [← h.1]; rfl
  | cons sp ss ih =>
    obtain ⟨s, ids⟩ := sp
    intro ks first zero ts q F ok qf hlen h
    cases ks with
    | nil => simp at hlen
    | cons k ks =>
      simp only [runBranch, Option.bind_eq_bind, Option.bind_eq_some_iff] at h
      obtain ⟨⟨okl, ls⟩, h1, l, h2, ⟨ok', q'⟩, h3, h4⟩ := h
      simp only [Option.pure_def, Option.some.injEq, Prod.mk.injEq] at h4
      rw [← h4.1, List.length_cons, List.length_cons, ih ks _ _ _ _ _ _ _ (by simpa using hlen) h3]

/-- What step `s` sees along a branch that ends in `qf`. -/
structure View (pb : IkProblem) (T0 : Frame) (prev ids : List ℕ) (zero : Bool) (s : Step) (k : ℕ)
    (flag : Option Bool) (qf : List ℝ) (F H : Frame) (okl : Bool) (ls : List LocalSol) (l : LocalSol)
    (ts : List TermState) (q : List ℝ) : Prop where
  solved : s.solve F H = some (okl, ls)
  choice : ls[k]? = some l
  flagged : flag = some okl
  stored : ∀ p ∈ l, getTheta qf p.1 pb.reversed = p.2
  inv : TraceInv pb T0 prev ts q F
  first : ∀ i : ℕ, (∀ j : ℕ, j < i → ts[j]? = some .computed) → ts[i]? ≠ some .computed →
    ts[i]? ≠ some .known
  last : ts.getLast? ≠ some .known
  vals : ∀ i, i < pb.poe.exps.length → i ∈ prev →
    getTheta q i pb.reversed = getTheta qf i pb.reversed
  point : H = pb.transformPoint q (if zero then ts else markKnown ts ids)

theorem runBranch_view {pb : IkProblem} {T0 : Frame} (hu : ∀ e ∈ pb.poe.exps, e.Unit)
    {s : Step} {ids : List ℕ} {post : List (Step × List ℕ)} {k : ℕ} {kpost : List ℕ} :
    ∀ (pre : List (Step × List ℕ)) (kpre : List ℕ) (first zero : Bool) (prev : List ℕ)
    (ts : List TermState) (q : List ℝ) (F : Frame) (ok : List Bool) (qf : List ℝ),
    (∀ t ∈ pre ++ (s, ids) :: post, StepOK pb.poe.exps.length t.1 t.2) →
    TraceInv pb T0 prev ts q F → (first = true → prev = []) →
    (prev ++ (pre ++ (s, ids) :: post).flatMap Prod.snd).Nodup → kpre.length = pre.length →
    runBranch pb (pre ++ (s, ids) :: post) (kpre ++ k :: kpost) first zero ts q F = some (ok, qf) →
    ∃ F' H okl ls l ts' q', View pb T0 (prev ++ pre.flatMap Prod.snd) ids
      (zero && kpre.all (· == 0)) s k ok[pre.length]? qf F' H okl ls l ts' q' := by
  intro pre
  induction pre with
  | nil =>
    intro kpre first zero prev ts q F ok qf hok hinv hfirst hnd hlen h
    have : kpre = [] := by simpa using hlen
    subst this
    simp only [List.nil_append, runBranch, Option.bind_eq_bind, Option.bind_eq_some_iff] at h
    obtain ⟨⟨okl, ls⟩, h1, l, h2, ⟨ok', q'⟩, h3, h4⟩ := h
    simp only [Option.pure_def, Option.some.injEq, Prod.mk.injEq] at h4
    have hs : StepOK pb.poe.exps.length s ids := hok (s, ids) (by simp)
    have hl := hs.sameIds _ _ _ _ h1 l (List.mem_of_getElem? h2)
    have hl' : ∀ p ∈ l, p.1 < pb.poe.exps.length := fun p hp =>
      hs.lt _ (by rw [← hl]; exact List.mem_map_of_mem hp)
    simp only [List.nil_append, List.flatMap_cons, List.nodup_append] at hnd
    have hpres := runBranch_preserve post kpost _ _ _ _ _ _ _
      (fun t ht => hok t (by simp [ht])) (by rw [writeVals_length, hinv.lenQ]) h3
    rw [h4.2] at hpres
    have hinv1 : TraceInv pb T0 prev (if first = true then ts else nextTerms ts) q
        (if first = true then F else pb.rebase ts q F) := by
      split
      · exact hinv
      · exact hinv.move hu
    have hinl : ∀ p ∈ l, p.1 ∈ ids := fun p hp => by rw [← hl]; exact List.mem_map_of_mem hp
    refine ⟨_, _, okl, ls, l, if first = true then ts else nextTerms ts, q, ⟨h1, h2, ?_, ?_, ?_, ?_, ?_, ?_, ?_⟩⟩
    · rw [← h4.1]; rfl
    · rintro ⟨id, θ⟩ hp
      have hid := hinl _ hp
      rw [hpres.2 id (hl' _ hp) (fun hm => hnd.2.1.2.2 id hid id hm rfl)]
      exact writeVals_getTheta_of_mem hinv.lenQ hl' (by rw [hl]; exact hnd.2.1.1) hp
    · simpa using hinv1
    · split
      · rename_i hf
        have := hfirst hf
        subst this
        intro i _ _ hk
        have hlt : i < pb.poe.exps.length := by
          rw [← hinv.lenT]; exact (List.getElem?_eq_some_iff.mp hk).1
        rw [(hinv.unk i hlt).mpr (by simp)] at hk; simp at hk
      · exact nextTerms_first ts
    · split
      · rename_i hf
        have := hfirst hf
        subst this
        intro hk
        rw [List.getLast?_eq_getElem?] at hk
        have hlt : ts.length - 1 < pb.poe.exps.length := by
          rw [← hinv.lenT]; exact (List.getElem?_eq_some_iff.mp hk).1
        rw [(hinv.unk _ hlt).mpr (by simp)] at hk; simp at hk
      · exact nextTerms_last ts
    · intro i hi him
      simp only [List.flatMap_nil, List.append_nil] at him
      have hni : i ∉ ids := fun hm => hnd.2.2 i him i (by simp [hm]) rfl
      have hnp : i ∉ post.flatMap Prod.snd := fun hm => hnd.2.2 i him i (by simp only [List.mem_append]; exact Or.inr hm) rfl
      rw [hpres.2 i hi hnp, writeVals_getTheta_of_notMem hi hinv.lenQ hl' (by rw [hl]; exact hni)]
    · simp
  | cons sp pre ih =>
    obtain ⟨t, tids⟩ := sp
    intro kpre first zero prev ts q F ok qf hok hinv hfirst hnd hlen h
    cases kpre with
    | nil => simp at hlen
    | cons k0 kpre =>
      simp only [List.cons_append, runBranch, Option.bind_eq_bind, Option.bind_eq_some_iff] at h
      obtain ⟨⟨okl, ls⟩, h1, l, h2, ⟨ok', q'⟩, h3, h4⟩ := h
      simp only [Option.pure_def, Option.some.injEq, Prod.mk.injEq] at h4
      have hs : StepOK pb.poe.exps.length t tids := hok (t, tids) (by simp)
      have hl := hs.sameIds _ _ _ _ h1 l (List.mem_of_getElem? h2)
      have hnd' : (prev ++ tids ++ (pre ++ (s, ids) :: post).flatMap Prod.snd).Nodup := by
        simpa [List.append_assoc] using hnd
      have hinv1 : TraceInv pb T0 prev (if first = true then ts else nextTerms ts) q
          (if first = true then F else pb.rebase ts q F) := by
        split
        · exact hinv
        · exact hinv.move hu
      have hdis : ∀ i ∈ tids, i ∉ prev := by
        intro i hi hm
        have := (List.nodup_append.mp (List.nodup_append.mp hnd').1).2.2
        exact this i hm i hi rfl
      obtain ⟨F', H, okl', ls', l', ts', q'', V⟩ := ih kpre false (zero && k0 == 0) (prev ++ tids)
        _ _ _ _ _ (fun t ht => hok t (by rw [List.cons_append]; exact List.mem_cons_of_mem _ ht))
        (hinv1.store hl hs.lt hdis) (by simp) hnd' (by simpa using hlen) h3
      refine ⟨F', H, okl', ls', l', ts', q'', ?_⟩
      have e1 : prev ++ (((t, tids) :: pre).flatMap Prod.snd) =
          prev ++ tids ++ pre.flatMap Prod.snd := by simp [List.append_assoc]
      have e2 : (zero && (k0 :: kpre).all (· == 0)) = (zero && k0 == 0 && kpre.all (· == 0)) := by
        simp [Bool.and_assoc]
      rw [e1, e2, ← h4.2]
      refine ⟨V.solved, V.choice, ?_, V.stored, V.inv, V.first, V.last, V.vals, V.point⟩
      rw [← h4.1]
      simpa using V.flagged

end IkProblem

end KD
