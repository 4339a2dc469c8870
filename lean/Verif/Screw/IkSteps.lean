import Verif.Screw.IkView

/-! The subproblems of the library meet the interface contract `StepOK`, and the complete view of
`ScrewTheoryIkProblem::solve`. -/

namespace KD

open scoped Classical

namespace Subproblem

/-- Geometry on which the solver of a subproblem never divides by zero: the axes of
Paden-Kahan 2 and Pardos-Gotor 2 are not parallel, the axes of Pardos-Gotor 4 are apart. The
others accept any geometry. -/
def WellPosed : Subproblem → Prop
  | .pk2 _ _ e1 e2 _ _ => (Vec3.dot e1.axis e2.axis) ^ 2 ≠ 1
  | .pg2 _ _ e1 e2 _ => (Vec3.cross e2.axis e1.axis).norm ≠ 0
  | .pg4 _ _ e1 e2 _ => ¬ Vec3.Equal 0 (pg4Normal e1 e2)
  | _ => True

theorem stepOK {n : ℕ} (s : Subproblem) (hw : s.WellPosed) (hn : ∀ i ∈ s.ids, i < n) :
    IkProblem.StepOK n s.toStep s.ids := by
  have key : ∀ F H, ∃ ok ls, s.solve F H = some (ok, ls) ∧ ls.length = s.count ∧
      ∀ l ∈ ls, l.map Prod.fst = s.ids := by
    intro F H
    cases s with
    | pk1 id e p => exact ⟨_, _, rfl, rfl, by simp [ids]⟩
    | pk2 i j e1 e2 p r =>
      simp only [WellPosed] at hw
      have hden : (Vec3.dot e1.axis e2.axis) ^ 2 - 1 ≠ 0 := sub_ne_zero.mpr hw
      simp only [solve, KD.pk2]
      rw [if_neg hden]
      split
      · exact ⟨_, _, rfl, rfl, by simp [ids]⟩
      · exact ⟨_, _, rfl, rfl, by simp [ids]⟩
    | pk3 id e p k =>
      simp only [solve, KD.pk3]
      split
      · exact ⟨_, _, rfl, rfl, by simp [ids]⟩
      · split
        · exact ⟨_, _, rfl, rfl, by simp [ids]⟩
        · exact ⟨_, _, rfl, rfl, by simp [ids]⟩
    | pg1 id e p => exact ⟨_, _, rfl, rfl, by simp [ids]⟩
    | pg2 i j e1 e2 p =>
      simp only [WellPosed] at hw
      simp only [solve, KD.pg2]
      rw [if_neg hw]
      exact ⟨_, _, rfl, rfl, by simp [ids]⟩
    | pg3 id e p k =>
      simp only [solve, KD.pg3]
      split
      · exact ⟨_, _, rfl, rfl, by simp [ids]⟩
      · exact ⟨_, _, rfl, rfl, by simp [ids]⟩
    | pg4 i j e1 e2 p =>
      simp only [WellPosed] at hw
      simp only [solve, KD.pg4]
      split
      · rename_i hs
        split
        · split
          · rename_i h0
            rw [Vec3.norm_eq_zero h0] at hs
            exact absurd hs hw
          · exact ⟨_, _, rfl, rfl, by simp [ids]⟩
        · exact ⟨_, _, rfl, rfl, by simp [ids]⟩
      · split
        · split
          · rename_i h0
            rw [Vec3.norm_eq_zero h0] at hw
            exact absurd (by simp [Vec3.Equal, EqualR, eps_pos]) hw
          · exact ⟨_, _, rfl, rfl, by simp [ids]⟩
        · exact ⟨_, _, rfl, rfl, by simp [ids]⟩
  refine ⟨fun F H => ?_, fun F H ok ls h => ?_, fun F H ok ls h => ?_, hn, ?_⟩
  · obtain ⟨ok, ls, h, _⟩ := key F H
    exact ⟨ok, ls, h⟩
  · obtain ⟨ok', ls', h', h2, _⟩ := key F H
    have : some (ok, ls) = some (ok', ls') := h.symm.trans h'
    simp only [Option.some.injEq, Prod.mk.injEq] at this
    rw [this.2]; exact h2
  · obtain ⟨ok', ls', h', _, h3⟩ := key F H
    have : some (ok, ls) = some (ok', ls') := h.symm.trans h'
    simp only [Option.some.injEq, Prod.mk.injEq] at this
    rw [this.2]; exact h3
  · cases s <;> simp [toStep, count]

end Subproblem

namespace IkProblem

open TermState

theorem solve_eq {pb : IkProblem} {ss : List (Step × List ℕ)} (hs : pb.steps = ss.map Prod.fst)
    (hok : ∀ s ∈ ss, StepOK pb.poe.exps.length s.1 s.2) (T : Frame) (out : List (List ℝ)) :
    ∃ ok sols, pb.solve T out = some (ok, sols) ∧
      sols.length = (ss.map fun s => s.1.count).prod ∧
      (∀ ks, Choices (ss.map fun s => s.1.count) ks →
        ∃ oks q, runBranch pb ss ks true true (List.replicate pb.poe.exps.length .unknown)
            (List.replicate pb.poe.exps.length 0) (pb.initialRhs T) = some (oks, q) ∧
          q.length = pb.poe.exps.length ∧
          sols[radix (ss.map fun s => s.1.count) ks]? = some q) ∧
      (ok = true ↔ ∀ ks, Choices (ss.map fun s => s.1.count) ks →
        ∃ oks q, runBranch pb ss ks true true (List.replicate pb.poe.exps.length .unknown)
            (List.replicate pb.poe.exps.length 0) (pb.initialRhs T) = some (oks, q) ∧
          ∀ o ∈ oks, o = true) := by
  obtain ⟨st, h1, h2, h3, h4⟩ := stepsLoop_eq pb ss true
    ⟨[List.replicate pb.poe.exps.length 0], [pb.initialRhs T],
      List.replicate pb.poe.exps.length .unknown, true⟩
    (fun _ => List.replicate pb.poe.exps.length 0) (fun _ => pb.initialRhs T) hok rfl
    (fun i hi => by
      have : i = 0 := by simpa using hi
      subst this; simp)
    (by simp)
  refine ⟨st.reachable, st.sols, ?_, ?_, ?_, ?_⟩
  · have hc : (if out = [] then out else []) = ([] : List (List ℝ)) := by
      split
      · assumption
      · rfl
    simp only [solve, hc, List.nil_append, hs, h1]
    rfl
  · simpa using h2
  · intro ks hks
    obtain ⟨oks, q, g1, g2, g3⟩ := h3 0 (by simp) ks hks
    exact ⟨oks, q, by simpa using g1, g2, by simpa using g3⟩
  · rw [h4]
    constructor
    · rintro ⟨_, h⟩ ks hks
      simpa using h 0 (by simp) ks hks
    · intro h
      refine ⟨rfl, fun j hj ks hks => ?_⟩
      have : j = 0 := by simpa using hj
      subst this
      simpa using h ks hks

theorem Choices.length {cs ks : List ℕ} (h : Choices cs ks) : ks.length = cs.length :=
  (List.Forall₂.length_eq h).symm

theorem choices_exist {cs : List ℕ} (h : ∀ c ∈ cs, 0 < c) : ∃ ks, Choices cs ks := by
  induction cs with
  | nil => exact ⟨[], List.Forall₂.nil⟩
  | cons c cs ih =>
    obtain ⟨ks, h'⟩ := ih (fun c hc => h c (List.mem_cons_of_mem _ hc))
    exact ⟨0 :: ks, List.Forall₂.cons (h c List.mem_cons_self) h'⟩

theorem getTheta_slot {q : List ℝ} {n i : ℕ} (hq : q.length = n) (hi : i < n) (rev : Bool) (θ : ℝ)
    (h : getTheta q i rev = θ) : q[slot n rev i]? = some (if rev then -θ else θ) := by
  have hlt : slot n rev i < q.length := by unfold slot; split <;> omega
  rw [List.getElem?_eq_getElem hlt]
  unfold getTheta at h
  unfold slot at hlt ⊢
  cases rev
  · simp only [Bool.false_eq_true, if_false] at h hlt ⊢
    rw [← h, getD_getElem hlt]
  · simp only [if_true] at h hlt ⊢
    simp only [hq] at h
    rw [← h, getD_getElem hlt, neg_neg]

end IkProblem

end KD
