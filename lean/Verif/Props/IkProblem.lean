import Verif.Screw.IkSteps

/-!
# Properties C15-C17: the IK problem solver

A problem is a POE, a list of subproblems and the flag that tells whether the POE was reversed.
`WellFormed` states what the builder and the constructors of the subproblems establish: valid
joint ids, no joint solved twice, unit axes, rigid tool, geometry on which the local
solvers do not divide by zero.
-/

namespace KD

open IkProblem

/-- Preconditions on a problem made of the subproblems `subs`. -/
structure IkProblem.WellFormed (pb : IkProblem) (subs : List Subproblem) : Prop where
  steps : pb.steps = subs.map Subproblem.toStep
  posed : ∀ s ∈ subs, s.WellPosed
  ids : ∀ s ∈ subs, ∀ i ∈ s.ids, i < pb.poe.exps.length
  nodup : (subs.flatMap Subproblem.ids).Nodup
  unit : ∀ e ∈ pb.poe.exps, e.Unit
  tool : pb.poe.tool.IsRigid

/-- Pose the product of exponentials must reach: the target, or its inverse if the POE was
reversed. -/
def IkProblem.goal (pb : IkProblem) (T : Frame) : Frame := if pb.reversed then T.inv else T

/-- Value of the POE term `i` in a joint array: reversed problems store it negated and mirrored. -/
def IkProblem.termValue (pb : IkProblem) (q : List ℝ) (i : ℕ) : Option ℝ :=
  if pb.reversed then (q[pb.poe.exps.length - 1 - i]?).map (fun θ => -θ) else q[i]?

/-- Ordered product of the exponentials whose index is not in `C`. -/
noncomputable def productWithout (es : List MatrixExp) (x : List ℝ) (C : List ℕ) : Frame :=
  (((es.zip x).zipIdx.filter fun p => p.2 ∉ C).map fun p => p.1.1.asFrame p.1.2).prod

/-- Output position of a vector of local choices: the first step varies fastest. -/
def position (subs : List Subproblem) (ks : List ℕ) : ℕ := radix (subs.map Subproblem.count) ks

/-- `ks` selects one local solution of each subproblem. -/
def Selects (subs : List Subproblem) (ks : List ℕ) : Prop :=
  List.Forall₂ (fun s k => k < Subproblem.count s) subs ks

namespace IkProblem.WellFormed

variable {pb : IkProblem} {subs : List Subproblem}

theorem stepsPair (h : pb.WellFormed subs) :
    pb.steps = (subs.map fun s => (s.toStep, s.ids)).map Prod.fst := by
  rw [h.steps, List.map_map]; rfl

theorem stepsOK (h : pb.WellFormed subs) :
    ∀ s ∈ subs.map fun s => (s.toStep, s.ids), StepOK pb.poe.exps.length s.1 s.2 := by
  intro s hs
  obtain ⟨t, ht, rfl⟩ := List.mem_map.mp hs
  exact t.stepOK (h.posed t ht) (h.ids t ht)

end IkProblem.WellFormed

theorem counts_eq (subs : List Subproblem) :
    ((subs.map fun s => (s.toStep, s.ids)).map fun s => s.1.count) =
      subs.map Subproblem.count := by
  rw [List.map_map]; rfl

theorem selects_iff (subs : List Subproblem) (ks : List ℕ) :
    Selects subs ks ↔ Choices (subs.map Subproblem.count) ks := by
  unfold Selects Choices
  rw [List.forall₂_map_left_iff]

/-! ## C15 -/

/-- The announced number of solutions is the product of the local counts. -/
theorem C15_count_is_product (pb : IkProblem) (subs : List Subproblem)
    (h : pb.steps = subs.map Subproblem.toStep) (hne : subs ≠ []) :
    pb.soln = (subs.map Subproblem.count).prod := by
  have : ∀ (l : List Step) (n : ℕ), l.foldl (fun n s => n * s.count) n = n * (l.map Step.count).prod := by
    intro l
    induction l with
    | nil => simp
    | cons s l ih => intro n; rw [List.foldl_cons, ih]; simp [Nat.mul_assoc]
  rw [soln, h, if_neg (by simpa using hne), this, Nat.one_mul, List.map_map]
  rfl

/-- `solve` returns exactly the announced number of joint arrays, each of the size of the POE,
whatever the target and the previous content of the output. -/
theorem C15_solution_count (pb : IkProblem) (subs : List Subproblem) (hwf : pb.WellFormed subs)
    (hne : subs ≠ []) (T : Frame) (out : List (List ℝ)) :
    ∃ ok sols, pb.solve T out = some (ok, sols) ∧ sols.length = pb.soln ∧
      ∀ q ∈ sols, q.length = pb.poe.exps.length := by
  obtain ⟨ok, sols, h1, h2, h3, _⟩ := solve_eq hwf.stepsPair hwf.stepsOK T out
  rw [counts_eq] at h2 h3
  refine ⟨ok, sols, h1, by rw [h2, C15_count_is_product pb subs hwf.steps hne], fun q hq => ?_⟩
  obtain ⟨m, hm, rfl⟩ := List.mem_iff_getElem.mp hq
  obtain ⟨ks, hk1, hk2⟩ := radix_surj (subs.map Subproblem.count) m (by omega)
  obtain ⟨oks, q, _, g2, g3⟩ := h3 ks hk1
  rw [hk2, List.getElem?_eq_getElem hm] at g3
  rw [Option.some.inj g3]; exact g2

/-- What the output vector held before does not matter. -/
theorem C15_output_content_irrelevant (pb : IkProblem) (T : Frame) (out : List (List ℝ)) :
    pb.solve T out = pb.solve T [] := by
  have hc : (if out = [] then out else []) = ([] : List (List ℝ)) := by
    split
    · assumption
    · rfl
  simp [IkProblem.solve, hc]

/-- Without subproblems the class announces no solution but returns one, the null array (this
is why the property asks for at least one subproblem). -/
theorem C15_no_subproblem (pb : IkProblem) (h : pb.steps = []) (T : Frame) (out : List (List ℝ)) :
    pb.soln = 0 ∧ pb.solve T out = some (true, [List.replicate pb.poe.exps.length 0]) := by
  constructor
  · simp [soln, h]
  · rw [C15_output_content_irrelevant]
    simp [IkProblem.solve, h, stepsLoop]

/-- A two-joint arm solved by a distance equation and a rotation: meets the hypotheses. -/
noncomputable def twoJointArm : IkProblem :=
  ⟨⟨[⟨.rotation, ⟨0, 0, 1⟩, ⟨0, 0, 0⟩⟩, ⟨.rotation, ⟨0, 0, 1⟩, ⟨1, 0, 0⟩⟩], ⟨1, ⟨2, 0, 0⟩⟩⟩,
    [(Subproblem.pk3 1 ⟨.rotation, ⟨0, 0, 1⟩, ⟨1, 0, 0⟩⟩ ⟨2, 0, 0⟩ ⟨0, 0, 0⟩).toStep,
     (Subproblem.pk1 0 ⟨.rotation, ⟨0, 0, 1⟩, ⟨0, 0, 0⟩⟩ ⟨2, 0, 0⟩).toStep], false⟩

theorem twoJointArm_wf : twoJointArm.WellFormed
    [.pk3 1 ⟨.rotation, ⟨0, 0, 1⟩, ⟨1, 0, 0⟩⟩ ⟨2, 0, 0⟩ ⟨0, 0, 0⟩,
     .pk1 0 ⟨.rotation, ⟨0, 0, 1⟩, ⟨0, 0, 0⟩⟩ ⟨2, 0, 0⟩] := by
  refine ⟨rfl, ?_, ?_, ?_, ?_, ?_⟩
  · intro s hs
    simp at hs
    rcases hs with rfl | rfl <;> trivial
  · intro s hs i hi
    simp at hs
    rcases hs with rfl | rfl <;> simp [Subproblem.ids, twoJointArm] at hi ⊢ <;> omega
  · simp [Subproblem.ids]
  · intro e he
    simp [twoJointArm] at he
    rcases he with rfl | rfl <;> norm_num [MatrixExp.Unit, Vec3.dot]
  · exact Mat3.IsRot.one

example (T : Frame) : ∃ ok sols, twoJointArm.solve T [[1, 2, 3]] = some (ok, sols) ∧
    sols.length = 2 := by
  obtain ⟨ok, sols, h1, h2, _⟩ := C15_solution_count _ _ twoJointArm_wf (by simp) T [[1, 2, 3]]
  refine ⟨ok, sols, h1, ?_⟩
  rw [h2, C15_count_is_product _ _ twoJointArm_wf.steps (by simp)]
  rfl

/-! ## C16 and C17 -/

theorem productWithout_eq {es : List MatrixExp} {ts : List TermState} {x : List ℝ} {C : List ℕ}
    (h1 : ts.length = es.length) (h2 : x.length = es.length)
    (hC : ∀ i, i ∈ C ↔ ts[i]? = some .computed) : productWithout es x C = remT es ts x := by
  have key : ∀ (es : List MatrixExp) (ts : List TermState) (x : List ℝ) (i0 : ℕ),
      ts.length = es.length → x.length = es.length →
      (∀ i, i0 + i ∈ C ↔ ts[i]? = some .computed) →
      ((((es.zip x).zipIdx i0).filter fun p => p.2 ∉ C).map fun p => p.1.1.asFrame p.1.2).prod =
        remT es ts x := by
    intro es
    induction es with
    | nil => intro ts x i0 _ _ _; simp [remT]
    | cons e es ih =>
      intro ts x i0 h1 h2 hC
      cases ts with
      | nil => simp at h1
      | cons t ts =>
        cases x with
        | nil => simp at h2
        | cons a x =>
          have hrec := ih ts x (i0 + 1) (by simpa using h1) (by simpa using h2) (fun i => by
            rw [show i0 + 1 + i = i0 + (i + 1) by omega, hC (i + 1)]; simp)
          have h0 := hC 0
          simp only [Nat.add_zero, List.getElem?_cons_zero, Option.some.injEq] at h0
          rw [List.zip_cons_cons, List.zipIdx_cons]
          by_cases hm : i0 ∈ C
          · have ht := h0.mp hm
            subst ht
            rw [List.filter_cons_of_neg (by simpa using hm)]
            exact hrec
          · rw [List.filter_cons_of_pos (by simpa using hm), List.map_cons, List.prod_cons, hrec]
            cases t with
            | known => rfl
            | unknown => rfl
            | computed => exact absurd (h0.mpr rfl) hm
  exact key es ts x 0 h1 h2 (by simpa using hC)

theorem termValue_eq {pb : IkProblem} {q : List ℝ} (hq : q.length = pb.poe.exps.length) {i : ℕ}
    (hi : i < pb.poe.exps.length) :
    pb.termValue q i = some (getTheta q i pb.reversed) := by
  unfold termValue getTheta
  cases pb.reversed
  · have : i < q.length := by omega
    simp [List.getD, this]
  · have : pb.poe.exps.length - 1 - i < q.length := by omega
    simp [List.getD, hq, hq ▸ this]

/-- What one local call saw and did, for the returned array `q`. The list `C` holds the joints
moved to the right-hand side. -/
structure LocalCall (pb : IkProblem) (subs : List Subproblem) (T : Frame) (ks : List ℕ)
    (q : List ℝ) (i : ℕ) (flag : Bool) (F H : Frame) (ls : List LocalSol) (l : LocalSol)
    (C : List ℕ) : Prop where
  /-- the `i`-th subproblem was asked with right-hand side `F` and point transform `H` -/
  solved : ∃ s, subs[i]? = some s ∧ s.solve F H = some (flag, ls)
  /-- the selected local solution -/
  selected : ∃ k, ks[i]? = some k ∧ ls[k]? = some l
  /-- its values are in the array, mirrored and negated if reversed -/
  stored : ∀ p ∈ l, q[if pb.reversed then pb.poe.exps.length - 1 - p.1 else p.1]? =
    some (if pb.reversed then -p.2 else p.2)
  /-- only joints solved by earlier steps are moved -/
  moved : ∀ c ∈ C, c ∈ (subs.take i).flatMap Subproblem.ids
  /-- leading solved joints have all been moved -/
  leading : ∀ j, j < pb.poe.exps.length → (∀ j', j' < j → j' ∈ C) → j ∉ C →
    j ∉ (subs.take i).flatMap Subproblem.ids
  /-- so has the last one -/
  trailing : pb.poe.exps.length - 1 ∈ (subs.take i).flatMap Subproblem.ids →
    pb.poe.exps.length - 1 ∈ C
  /-- nothing else has -/
  shape : ∀ c ∈ C, c + 1 = pb.poe.exps.length ∨ ∀ j, j < c → j ∈ C
  /-- the right-hand side and the remaining product were obtained from the goal and from the
  full product by the same rigid factors -/
  equation : ∃ A B : Frame, A.IsRigid ∧ B.IsRigid ∧ F = A * (pb.goal T * pb.poe.tool.inv) * B ∧
    (pb.poe.exps.length - 1 ∉ C → B = 1) ∧
    ∀ x : List ℝ, x.length = pb.poe.exps.length → (∀ c ∈ C, x[c]? = pb.termValue q c) →
      productWithout pb.poe.exps x C = A * Poe.expProd pb.poe.exps x * B
  /-- the point transform is the product of a run of solved joints that have not been moved
  (or the identity); joints to the right of the run are unsolved or moved. For other branches
  than the first one, the joints of the step itself count as solved, with value zero. -/
  point : ∃ a b : ℕ, a ≤ b ∧ b ≤ pb.poe.exps.length ∧
    ∃ v : ℕ → ℝ, H = (((pb.poe.exps.mapIdx fun j e => e.asFrame (v j)).take b).drop a).prod ∧
      (∀ j, j < pb.poe.exps.length → j ∈ (subs.take i).flatMap Subproblem.ids →
        pb.termValue q j = some (v j)) ∧
      (∀ j, j < pb.poe.exps.length → j ∉ (subs.take i).flatMap Subproblem.ids → v j = 0) ∧
      ∃ S : List ℕ, (S = (subs.take i).flatMap Subproblem.ids ∨
          ((∃ k ∈ ks.take i, k ≠ 0) ∧ ∀ j, j ∈ S ↔ j ∈ (subs.take (i + 1)).flatMap Subproblem.ids)) ∧
        (∀ j, a ≤ j → j < b → j ∈ S ∧ j ∉ C) ∧
        (∀ j, b ≤ j → j < pb.poe.exps.length → j ∈ S → j ∈ C) ∧
        (∀ j, j + 1 = a → j ∈ S → j ∈ C) ∧
        (a = b → ∀ j, j + 1 = a → j ∈ C) ∧
        (a = b → 0 < a → ∃ j, a ≤ j ∧ j < pb.poe.exps.length ∧ j ∉ S)

theorem initialRhs_eq (pb : IkProblem) (T : Frame) :
    pb.initialRhs T = pb.goal T * pb.poe.tool.inv := rfl

open scoped Classical in
/-- Complete account of `solve`. -/
theorem solve_account {pb : IkProblem} {subs : List Subproblem} (hwf : pb.WellFormed subs)
    {T : Frame} {out : List (List ℝ)} {ok : Bool} {sols : List (List ℝ)}
    (h : pb.solve T out = some (ok, sols)) :
    ∃ flag : List ℕ → ℕ → Bool,
      (ok = true ↔ ∀ ks, Selects subs ks → ∀ i, i < subs.length → flag ks i = true) ∧
      ∀ ks, Selects subs ks → ∃ q, sols[position subs ks]? = some q ∧
        (∀ i, i < subs.length → ∃ F H ls l C,
          LocalCall pb subs T ks q i (flag ks i) F H ls l C) ∧
        ∀ j, j < pb.poe.exps.length → j ∉ subs.flatMap Subproblem.ids →
          q[if pb.reversed then pb.poe.exps.length - 1 - j else j]? = some 0 := by
  obtain ⟨ok', sols', h1, h2, h3, h4⟩ := solve_eq hwf.stepsPair hwf.stepsOK T out
  rw [h, Option.some.injEq, Prod.mk.injEq] at h1
  obtain ⟨rfl, rfl⟩ := h1
  rw [counts_eq] at h2 h3 h4
  let ss := subs.map fun s => (s.toStep, s.ids)
  have hss : ∀ m, ((subs.take m).map fun s => (s.toStep, s.ids)).flatMap Prod.snd =
      (subs.take m).flatMap Subproblem.ids := by
    intro m; rw [List.flatMap_map]
  have hss' : (subs.map fun s => (s.toStep, s.ids)).flatMap Prod.snd =
      subs.flatMap Subproblem.ids := by rw [List.flatMap_map]
  -- the flags of every branch
  have hex : ∀ ks, ∃ p : List Bool × List ℝ, Selects subs ks →
      runBranch pb (subs.map fun s => (s.toStep, s.ids)) ks true true
        (List.replicate pb.poe.exps.length .unknown)
        (List.replicate pb.poe.exps.length 0) (pb.initialRhs T) = some p ∧
      p.2.length = pb.poe.exps.length ∧ sols[position subs ks]? = some p.2 := by
    intro ks
    by_cases hk : Selects subs ks
    · obtain ⟨oks, q, g⟩ := h3 ks ((selects_iff subs ks).mp hk)
      exact ⟨(oks, q), fun _ => g⟩
    · exact ⟨([], []), fun hk' => absurd hk' hk⟩
  choose res hres using hex
  have hlen : ∀ ks, Selects subs ks → (res ks).1.length = subs.length := by
    intro ks hk
    have := runBranch_flags _ ks _ _ _ _ _ _ _ (by
      rw [List.length_map]; exact (List.Forall₂.length_eq hk).symm)
      ((hres ks hk).1.trans (by rw [Prod.mk.eta]))
    simpa using this
  refine ⟨fun ks i => (res ks).1.getD i false, ?_, ?_⟩
  · rw [h4]
    constructor
    · intro hall ks hk i hi
      obtain ⟨oks, q, g1, g2⟩ := hall ks ((selects_iff subs ks).mp hk)
      have := (hres ks hk).1
      rw [g1] at this
      have he := Option.some.inj this
      have hi' : i < (res ks).1.length := by rw [hlen ks hk]; exact hi
      show (res ks).1.getD i false = true
      rw [getD_getElem hi']
      apply g2
      have hm : (res ks).1[i] ∈ (res ks).1 := List.getElem_mem hi'
      have heq : oks = (res ks).1 := by rw [← he]
      rw [heq]; exact hm
    · intro hall ks hk
      have hk' := (selects_iff subs ks).mpr hk
      refine ⟨_, _, (hres ks hk').1.trans (by rw [Prod.mk.eta]), fun o ho => ?_⟩
      obtain ⟨i, hi, rfl⟩ := List.mem_iff_getElem.mp ho
      have : (res ks).1.getD i false = true := hall ks hk' i (by rw [← hlen ks hk']; exact hi)
      rwa [getD_getElem hi] at this
  · intro ks hk
    obtain ⟨hrun, hql, hpos⟩ := hres ks hk
    have hklen : ks.length = subs.length := (List.Forall₂.length_eq hk).symm
    refine ⟨(res ks).2, hpos, fun i hi => ?_, fun j hj hnj => ?_⟩
    · -- split at step `i`
      have hik : i < ks.length := by omega
      have esplit : (subs.map fun s => (s.toStep, s.ids)) =
          (subs.take i).map (fun s => (s.toStep, s.ids)) ++
            (subs[i].toStep, subs[i].ids) :: (subs.drop (i + 1)).map (fun s => (s.toStep, s.ids)) := by
        conv_lhs => rw [← List.take_append_drop i subs, List.drop_eq_getElem_cons hi]
        rw [List.map_append, List.map_cons]
      have eks : ks = ks.take i ++ ks[i] :: ks.drop (i + 1) := by
        conv_lhs => rw [← List.take_append_drop i ks, List.drop_eq_getElem_cons hik]
      have hrun' := hrun
      rw [esplit, eks] at hrun'
      obtain ⟨F, H, okl, ls, l, ts, q', V⟩ := runBranch_view hwf.unit
        ((subs.take i).map fun s => (s.toStep, s.ids)) (ks.take i) true true []
        _ _ _ (res (ks.take i ++ ks[i] :: ks.drop (i + 1))).1
        (res (ks.take i ++ ks[i] :: ks.drop (i + 1))).2
        (by rw [← esplit]; exact hwf.stepsOK) (TraceInv.init pb _) (by simp)
        (by rw [← esplit, List.nil_append, hss']; exact hwf.nodup)
        (by simp; omega) hrun'
      rw [← eks, List.nil_append, hss] at V
      have hpl : ((subs.take i).map fun s => (s.toStep, s.ids)).length = i := by simp; omega
      rw [hpl] at V
      let C := (List.range pb.poe.exps.length).filter fun j => ts[j]? = some .computed
      have hC : ∀ j, j ∈ C ↔ ts[j]? = some .computed := by
        intro j
        simp only [C, List.mem_filter, List.mem_range, decide_eq_true_eq]
        constructor
        · exact fun h => h.2
        · intro h
          refine ⟨?_, h⟩
          rw [← V.inv.lenT]; exact (List.getElem?_eq_some_iff.mp h).1
      have hClt : ∀ j ∈ C, j < pb.poe.exps.length := by
        intro j hj
        simp only [C, List.mem_filter, List.mem_range] at hj
        exact hj.1
      have hkc : ∀ j, j < pb.poe.exps.length → (ts[j]? = some .known ↔
          j ∈ (subs.take i).flatMap Subproblem.ids ∧ j ∉ C) := by
        intro j hj
        have hu := V.inv.unk j hj
        rw [hC]
        have hlt : j < ts.length := by rw [V.inv.lenT]; exact hj
        rw [List.getElem?_eq_getElem hlt] at hu ⊢
        rcases hts : ts[j] with _ | _ | _ <;> rw [hts] at hu <;> simp at hu ⊢ <;> tauto
      have hCprev : ∀ c ∈ C, c ∈ (subs.take i).flatMap Subproblem.ids := by
        intro c hc
        have hlt := hClt c hc
        by_contra hn
        have := (V.inv.unk c hlt).mpr hn
        rw [(hC c).mp hc] at this
        simp at this
      have hval : ∀ j, j < pb.poe.exps.length → j ∈ (subs.take i).flatMap Subproblem.ids →
          pb.termValue (res ks).2 j = some (getTheta q' j pb.reversed) := by
        intro j hj hm
        rw [termValue_eq hql hj, V.vals j hj hm]
      refine ⟨F, H, ls, l, C, ⟨?_, ?_, ?_, hCprev, ?_, ?_, ?_, ?_, ?_⟩⟩
      · refine ⟨subs[i], List.getElem?_eq_getElem hi, ?_⟩
        have hf : (res ks).1.getD i false = okl := by
          rw [List.getD, V.flagged]; rfl
        simp only [hf]
        exact V.solved
      · exact ⟨ks[i], List.getElem?_eq_getElem hik, V.choice⟩
      · intro p hp
        have hs0 := (hwf.stepsOK (subs[i].toStep, subs[i].ids)
          (List.mem_map.mpr ⟨subs[i], List.getElem_mem hi, rfl⟩))
        have hidm := hs0.sameIds _ _ _ _ V.solved l (List.mem_of_getElem? V.choice)
        have hlt : p.1 < pb.poe.exps.length :=
          hs0.lt _ (by rw [← hidm]; exact List.mem_map_of_mem hp)
        exact getTheta_slot hql hlt pb.reversed p.2 (V.stored p hp)
      · intro j hj hlead hnC hm
        exact V.first j (fun j' hj' => (hC j').mp (hlead j' hj')) (fun hc => hnC ((hC j).mpr hc))
          ((hkc j hj).mpr ⟨hm, hnC⟩)
      · intro hm
        by_contra hnC
        have hn0 : 0 < pb.poe.exps.length := by
          rcases Nat.eq_zero_or_pos pb.poe.exps.length with h0 | h0
          · exfalso
            obtain ⟨s, hs, hid⟩ := List.mem_flatMap.mp hm
            have := hwf.ids s (List.mem_of_mem_take hs) _ hid
            omega
          · exact h0
        have := (hkc _ (by omega)).mpr ⟨hm, hnC⟩
        apply V.last
        rw [List.getLast?_eq_getElem?, V.inv.lenT]
        exact this
      · intro c hc
        rcases V.inv.shape c ((hC c).mp hc) with h1 | h1
        · left; rw [h1, V.inv.lenT]
        · exact Or.inr fun j hj => (hC j).mpr (h1 j hj)
      · obtain ⟨A, B, hA, hB, hF, hB1, heq⟩ := V.inv.eqn
        refine ⟨A, B, hA, hB, by rw [hF, initialRhs_eq], fun hn => hB1 fun hl => hn ((hC _).mpr ?_),
          fun x hx hagree => ?_⟩
        · rwa [List.getLast?_eq_getElem?, V.inv.lenT] at hl
        rw [productWithout_eq V.inv.lenT hx hC]
        refine heq x hx (fun c hc => ?_)
        have hcC := (hC c).mpr hc
        rw [hagree c hcC, hval c (hClt c hcC) (hCprev c hcC)]
      · by_cases hz : (true && (ks.take i).all (· == 0)) = true
        · obtain ⟨a, b, p1, p2, p3, p4, p5, p6, p7, p8⟩ := transformPoint_spec pb q' ts V.inv.lenT
          have hp := V.point
          rw [if_pos hz, p3] at hp
          refine ⟨a, b, p1, p2, fun j => getTheta q' j pb.reversed, hp, hval,
            fun j hj hn => V.inv.zero j hj hn, _, Or.inl rfl, ?_, ?_, ?_,
            fun hab j ha => (hC j).mpr (p7 hab j ha), fun hab h0 => ?_⟩
          · intro j ha hb
            exact (hkc j (by omega)).mp (p5 j ha hb)
          · intro j hb hj hm
            by_contra hn
            exact p4 j hb ((hkc j hj).mpr ⟨hm, hn⟩)
          · intro j ha hm
            by_contra hn
            exact p6 j ha ((hkc j (by omega)).mpr ⟨hm, hn⟩)
          · obtain ⟨j, hj, hk⟩ := p8 hab h0
            have hlt : j < pb.poe.exps.length := by
              rw [← V.inv.lenT]; exact (List.getElem?_eq_some_iff.mp hk).1
            exact ⟨j, hj, hlt, (V.inv.unk j hlt).mp hk⟩
        · obtain ⟨a, b, p1, p2, p3, p4, p5, p6, p7, p8⟩ := transformPoint_spec pb q'
            (markKnown ts subs[i].ids) (by rw [markKnown_length, V.inv.lenT])
          have hp := V.point
          rw [if_neg hz, p3] at hp
          have hkm : ∀ j, j < pb.poe.exps.length →
              ((markKnown ts subs[i].ids)[j]? = some .known ↔
                j ∈ (subs.take (i + 1)).flatMap Subproblem.ids ∧ j ∉ C) := by
            intro j hj
            have hts : (subs.take (i + 1)).flatMap Subproblem.ids =
                (subs.take i).flatMap Subproblem.ids ++ subs[i].ids := by
              rw [List.take_add_one, List.flatMap_append, List.getElem?_eq_getElem hi]
              simp
            rw [markKnown_get, hts, List.mem_append]
            by_cases hm : j ∈ subs[i].ids
            · have hlt : j < ts.length := by rw [V.inv.lenT]; exact hj
              have hnC : j ∉ C := by
                intro hc
                have hnd := hwf.nodup
                rw [← List.take_append_drop i subs, List.drop_eq_getElem_cons hi,
                  List.flatMap_append, List.flatMap_cons] at hnd
                exact (List.nodup_append.mp hnd).2.2 j (hCprev j hc) j
                  (List.mem_append_left _ hm) rfl
              simp [hm, hlt, hnC]
            · simp only [hm, if_false, or_false]
              exact hkc j hj
          refine ⟨a, b, p1, p2, fun j => getTheta q' j pb.reversed, hp, hval,
            fun j hj hn => V.inv.zero j hj hn, (subs.take (i + 1)).flatMap Subproblem.ids,
            Or.inr ⟨?_, fun j => Iff.rfl⟩, ?_, ?_, ?_, fun hab j ha => (hC j).mpr ?_, fun hab h0 => ?_⟩
          · simp at hz
            obtain ⟨k, hk1, hk2⟩ := hz
            exact ⟨k, hk1, hk2⟩
          · intro j ha hb
            exact (hkm j (by omega)).mp (p5 j ha hb)
          · intro j hb hj hm
            by_contra hn
            exact p4 j hb ((hkm j hj).mpr ⟨hm, hn⟩)
          · intro j ha hm
            by_contra hn
            exact p6 j ha ((hkm j (by omega)).mpr ⟨hm, hn⟩)
          · have := p7 hab j ha
            rw [markKnown_get] at this
            split at this
            · simp at this
            · exact this
          · obtain ⟨j, hj, hk⟩ := p8 hab h0
            have hlt : j < pb.poe.exps.length := by
              rw [← V.inv.lenT, ← markKnown_length ts subs[i].ids]
              exact (List.getElem?_eq_some_iff.mp hk).1
            have hts : (subs.take (i + 1)).flatMap Subproblem.ids =
                (subs.take i).flatMap Subproblem.ids ++ subs[i].ids := by
              rw [List.take_add_one, List.flatMap_append, List.getElem?_eq_getElem hi]
              simp
            refine ⟨j, hj, hlt, ?_⟩
            rw [hts, List.mem_append]
            rw [markKnown_get] at hk
            split at hk
            · simp at hk
            · rename_i hnm
              rintro (h | h)
              · exact (V.inv.unk j hlt).mp hk h
              · exact hnm h
    · obtain ⟨_, hp⟩ := runBranch_preserve _ _ _ _ _ _ _ _ _ hwf.stepsOK (by simp)
        (hrun.trans (by rw [Prod.mk.eta]))
      have hz := hp j hj (by rw [hss']; exact hnj)
      rw [(TraceInv.init pb (pb.initialRhs T)).zero j hj (by simp)] at hz
      have := getTheta_slot hql hj pb.reversed 0 hz
      simpa [slot] using this

/-- Every returned array comes from one choice per subproblem, every choice appears, each array
carries the selected local values (mirrored and negated if reversed), and joints solved by
no subproblem stay at zero. The result is reachable iff every local call said so. -/
theorem C16_every_combination (pb : IkProblem) (subs : List Subproblem) (hwf : pb.WellFormed subs)
    (T : Frame) (out : List (List ℝ)) (ok : Bool) (sols : List (List ℝ))
    (h : pb.solve T out = some (ok, sols)) :
    (∀ m, m < sols.length → ∃ ks, Selects subs ks ∧ position subs ks = m) ∧
    ∃ flag : List ℕ → ℕ → Bool,
      (ok = true ↔ ∀ ks, Selects subs ks → ∀ i, i < subs.length → flag ks i = true) ∧
      ∀ ks, Selects subs ks → ∃ q, sols[position subs ks]? = some q ∧
        (∀ i (hi : i < subs.length), ∃ F H ls l k,
          subs[i].solve F H = some (flag ks i, ls) ∧ ks[i]? = some k ∧ ls[k]? = some l ∧
          l.map Prod.fst = subs[i].ids ∧
          ∀ p ∈ l, q[if pb.reversed then pb.poe.exps.length - 1 - p.1 else p.1]? =
            some (if pb.reversed then -p.2 else p.2)) ∧
        ∀ j, j < pb.poe.exps.length → j ∉ subs.flatMap Subproblem.ids →
          q[if pb.reversed then pb.poe.exps.length - 1 - j else j]? = some 0 := by
  constructor
  · obtain ⟨ok', sols', h1, h2, _⟩ := solve_eq hwf.stepsPair hwf.stepsOK T out
    rw [h, Option.some.injEq, Prod.mk.injEq] at h1
    obtain ⟨rfl, rfl⟩ := h1
    rw [counts_eq] at h2
    intro m hm
    obtain ⟨ks, hk1, hk2⟩ := radix_surj (subs.map Subproblem.count) m (by omega)
    exact ⟨ks, (selects_iff subs ks).mpr hk1, hk2⟩
  · obtain ⟨flag, h1, h2⟩ := solve_account hwf h
    refine ⟨flag, h1, fun ks hk => ?_⟩
    obtain ⟨q, g1, g2, g3⟩ := h2 ks hk
    refine ⟨q, g1, fun i hi => ?_, g3⟩
    obtain ⟨F, H, ls, l, C, L⟩ := g2 i hi
    obtain ⟨s, hs, hsol⟩ := L.solved
    obtain ⟨k, hk1, hk2⟩ := L.selected
    have : s = subs[i] := by
      rw [List.getElem?_eq_getElem hi] at hs; exact (Option.some.inj hs).symm
    subst this
    have hs0 := hwf.stepsOK (subs[i].toStep, subs[i].ids)
      (List.mem_map.mpr ⟨subs[i], List.getElem_mem hi, rfl⟩)
    exact ⟨F, H, ls, l, k, hsol, hk1, hk2,
      hs0.sameIds _ _ _ _ hsol l (List.mem_of_getElem? hk2), L.stored⟩

/-- Two choices of local solutions never share a position. -/
theorem C16_positions_distinct (subs : List Subproblem) (ks ks' : List ℕ) (hk : Selects subs ks)
    (hk' : Selects subs ks') (h : position subs ks = position subs ks') : ks = ks' := by
  unfold position Selects at *
  induction hk generalizing ks' with
  | nil => cases hk'; rfl
  | @cons s k subs ks hlt hrest ih =>
    cases hk' with
    | @cons _ k' _ ks' hlt' hrest' =>
      simp only [List.map_cons, radix] at h
      have h1 : k = k' := by
        have := congrArg (· % s.count) h
        simpa [Nat.add_mul_mod_self_left, Nat.mod_eq_of_lt, hlt, hlt'] using this
      subst h1
      have h2 : radix (subs.map Subproblem.count) ks = radix (subs.map Subproblem.count) ks' := by
        have hpos : 0 < s.count := by omega
        exact Nat.eq_of_mul_eq_mul_left hpos (by omega)
      rw [ih ks' hrest' h2]

/-- Moving solved joints to the right-hand side keeps the equation: in every local call, the
exponentials that were not moved multiply to the right-hand side handed to the subproblem iff
the forward kinematics reaches the goal. The leading solved joints and the last joint are the
ones that get moved, never an unsolved one. -/
theorem C17_moved_terms_keep_equation (pb : IkProblem) (subs : List Subproblem)
    (hwf : pb.WellFormed subs) (T : Frame) (hT : T.IsRigid) (out : List (List ℝ)) (ok : Bool)
    (sols : List (List ℝ)) (h : pb.solve T out = some (ok, sols)) (ks : List ℕ)
    (hks : Selects subs ks) (i : ℕ) (hi : i < subs.length) :
    ∃ q F H ls l C flag, sols[position subs ks]? = some q ∧
      subs[i].solve F H = some (flag, ls) ∧ l ∈ ls ∧
      (∀ p ∈ l, pb.termValue q p.1 = some p.2) ∧
      (∀ c ∈ C, c ∈ (subs.take i).flatMap Subproblem.ids) ∧
      (∀ j, j < pb.poe.exps.length → (∀ j', j' < j → j' ∈ C) → j ∉ C →
        j ∉ (subs.take i).flatMap Subproblem.ids) ∧
      (pb.poe.exps.length - 1 ∈ (subs.take i).flatMap Subproblem.ids →
        pb.poe.exps.length - 1 ∈ C) ∧
      ∀ x : List ℝ, x.length = pb.poe.exps.length → (∀ c ∈ C, x[c]? = pb.termValue q c) →
        (productWithout pb.poe.exps x C = F ↔ pb.poe.evaluate x 1 = (true, pb.goal T)) := by
  obtain ⟨flag, _, h2⟩ := solve_account hwf h
  obtain ⟨q, g1, g2, _⟩ := h2 ks hks
  obtain ⟨F, H, ls, l, C, L⟩ := g2 i hi
  obtain ⟨s, hs, hsol⟩ := L.solved
  obtain ⟨k, hk1, hk2⟩ := L.selected
  have : s = subs[i] := by
    rw [List.getElem?_eq_getElem hi] at hs; exact (Option.some.inj hs).symm
  subst this
  have hs0 := hwf.stepsOK (subs[i].toStep, subs[i].ids)
    (List.mem_map.mpr ⟨subs[i], List.getElem_mem hi, rfl⟩)
  have hidm := hs0.sameIds _ _ _ _ hsol l (List.mem_of_getElem? hk2)
  refine ⟨q, F, H, ls, l, C, _, g1, hsol, List.mem_of_getElem? hk2, ?_, L.moved, L.leading,
    L.trailing, ?_⟩
  · intro p hp
    have hlt : p.1 < pb.poe.exps.length := hs0.lt _ (by rw [← hidm]; exact List.mem_map_of_mem hp)
    have := L.stored p hp
    unfold termValue
    cases hr : pb.reversed <;> simp only [hr, Bool.false_eq_true, if_false, if_true] at this ⊢
    · exact this
    · rw [this]; simp
  · intro x hx hagree
    obtain ⟨A, B, hA, hB, hF, -, heq⟩ := L.equation
    rw [heq x hx hagree, hF]
    have hgoal : (pb.goal T).IsRigid := by
      unfold goal; split
      · exact hT.inv
      · exact hT
    have hev : pb.poe.evaluate x 1 = (true, Poe.expProd pb.poe.exps x * pb.poe.tool) := by
      rw [Poe.evaluate, if_neg (by simp [hx]), Poe.evalLoop_eq, one_mul]
    rw [hev, Prod.mk.injEq]
    simp only [true_and]
    constructor
    · intro he
      have h1 : A.inv * (A * Poe.expProd pb.poe.exps x * B) * B.inv =
          A.inv * (A * (pb.goal T * pb.poe.tool.inv) * B) * B.inv := by rw [he]
      have h2 : ∀ X : Frame, A.inv * (A * X * B) * B.inv = X := by
        intro X
        calc A.inv * (A * X * B) * B.inv = (A.inv * A) * X * (B * B.inv) := by
              simp only [mul_assoc]
          _ = X := by rw [hA.inv_mul, hB.mul_inv, one_mul, mul_one]
      rw [h2, h2] at h1
      rw [h1, mul_assoc, hwf.tool.inv_mul, mul_one]
    · intro he
      rw [← he, mul_assoc (Poe.expProd _ _) _ _, hwf.tool.mul_inv, mul_one]

/-- Consequence: joint values that reach the goal and agree with a branch on the joints solved
so far satisfy, on every point, the equation handed to the next subproblem of that branch. -/
theorem C17_point_equation (pb : IkProblem) (subs : List Subproblem)
    (hwf : pb.WellFormed subs) (T : Frame) (hT : T.IsRigid) (out : List (List ℝ)) (ok : Bool)
    (sols : List (List ℝ)) (h : pb.solve T out = some (ok, sols)) (ks : List ℕ)
    (hks : Selects subs ks) (i : ℕ) (hi : i < subs.length) (x : List ℝ)
    (hx : pb.poe.evaluate x 1 = (true, pb.goal T))
    (hagree : ∃ q, sols[position subs ks]? = some q ∧
      ∀ c ∈ (subs.take i).flatMap Subproblem.ids, x[c]? = pb.termValue q c) :
    ∃ F H flag ls C, subs[i].solve F H = some (flag, ls) ∧
      (∀ c ∈ C, c ∈ (subs.take i).flatMap Subproblem.ids) ∧
      ∀ p : Vec3, (productWithout pb.poe.exps x C).act p = F.act p := by
  obtain ⟨q, F, H, ls, l, C, flag, g1, g2, _, _, g3, _, _, g4⟩ :=
    C17_moved_terms_keep_equation pb subs hwf T hT out ok sols h ks hks i hi
  obtain ⟨q', hq', hag⟩ := hagree
  rw [g1] at hq'
  obtain rfl := Option.some.inj hq'
  have hxl : x.length = pb.poe.exps.length := by
    by_contra hne
    rw [Poe.evaluate, if_pos (fun h => hne h.symm)] at hx
    simp at hx
  refine ⟨F, H, flag, ls, C, g2, g3, fun p => ?_⟩
  rw [(g4 x hxl (fun c hc => hag c (g3 c hc))).mpr hx]

/-- The two-joint arm at its home pose meets the hypotheses of C16 and C17. -/
example : ∃ ok sols, twoJointArm.solve ⟨1, ⟨2, 0, 0⟩⟩ [] = some (ok, sols) ∧
    (⟨1, ⟨2, 0, 0⟩⟩ : Frame).IsRigid ∧
    Selects [.pk3 1 ⟨.rotation, ⟨0, 0, 1⟩, ⟨1, 0, 0⟩⟩ ⟨2, 0, 0⟩ ⟨0, 0, 0⟩,
      .pk1 0 ⟨.rotation, ⟨0, 0, 1⟩, ⟨0, 0, 0⟩⟩ ⟨2, 0, 0⟩] [1, 0] := by
  obtain ⟨ok, sols, h, _⟩ := C15_solution_count _ _ twoJointArm_wf (by simp) ⟨1, ⟨2, 0, 0⟩⟩ []
  refine ⟨ok, sols, h, Mat3.IsRot.one, ?_⟩
  exact .cons (by simp [Subproblem.count]) (.cons (by simp [Subproblem.count]) .nil)

end KD
