import Verif.Props.IkReach
import Verif.Programs.ScrewTrajectoryLemmas

/-!
# C15: values of revolute joints
-/

namespace KD

open Real Builder

/-! ## Lemmas -/

theorem angleAbout_range (a u v : Vec3) : -π < angleAbout a u v ∧ angleAbout a u v ≤ π :=
  ⟨neg_pi_lt_atan2 _ _, atan2_le_pi _ _⟩

theorem normalize_about (a u v : Vec3) : |normalizeAngle (angleAbout a u v)| ≤ π := by
  obtain ⟨h1, h2⟩ := angleAbout_range a u v
  have := normalizeAngle_range (θ := angleAbout a u v) (by linarith [pi_pos]) (by linarith [pi_pos])
  exact abs_le.mpr ⟨this.1.le, this.2⟩

theorem normalize_atan2 (y x : ℝ) : |normalizeAngle (atan2 y x)| ≤ π := by
  have h1 := neg_pi_lt_atan2 y x
  have h2 := atan2_le_pi y x
  have := normalizeAngle_range (θ := atan2 y x) (by linarith [pi_pos]) (by linarith [pi_pos])
  exact abs_le.mpr ⟨this.1.le, this.2⟩

theorem normalize_shifted (a u v : Vec3) {b : ℝ} (h0 : 0 ≤ b) (hb : b ≤ π) :
    |normalizeAngle (angleAbout a u v + b)| ≤ π ∧ |normalizeAngle (angleAbout a u v - b)| ≤ π := by
  obtain ⟨h1, h2⟩ := angleAbout_range a u v
  have g1 := normalizeAngle_range (θ := angleAbout a u v + b) (by linarith [pi_pos]) (by linarith [pi_pos])
  have g2 := normalizeAngle_range (θ := angleAbout a u v - b) (by linarith [pi_pos]) (by linarith [pi_pos])
  exact ⟨abs_le.mpr ⟨g1.1.le, g1.2⟩, abs_le.mpr ⟨g2.1.le, g2.2⟩⟩

/-- Local solutions of revolute joints. -/
theorem solve_range {es : List MatrixExp} {s : Subproblem} (hu : Subproblem.Uses es s) (hc : Subproblem.Chosen s) {F H : Frame}
    {ok : Bool} {ls : List LocalSol} (h : s.solve F H = some (ok, ls)) :
    ∀ l ∈ ls, ∀ p ∈ l, ∀ e, es[p.1]? = some e → e.motion = .rotation → |p.2| ≤ π := by
  cases s with
  | pk1 i e p =>
    simp only [KD.Subproblem.solve, KD.pk1, Option.some.injEq, Prod.mk.injEq] at h
    obtain ⟨-, rfl⟩ := h
    simp only [List.mem_singleton, forall_eq]
    exact fun _ _ _ => normalize_about _ _ _
  | pk2 i j e1 e2 p r =>
    simp only [KD.Subproblem.solve, KD.pk2] at h
    split at h
    · cases h
    · split at h <;>
      · simp only [Option.some.injEq, Prod.mk.injEq] at h
        obtain ⟨-, rfl⟩ := h
        simp only [List.mem_cons, List.not_mem_nil, or_false, forall_eq_or_imp, forall_eq]
        exact ⟨⟨fun _ _ _ => normalize_about _ _ _, fun _ _ _ => normalize_about _ _ _⟩,
          ⟨fun _ _ _ => normalize_about _ _ _, fun _ _ _ => normalize_about _ _ _⟩⟩
  | pk3 i e p k =>
    simp only [KD.Subproblem.solve, KD.pk3] at h
    split at h
    · simp only [Option.some.injEq, Prod.mk.injEq] at h
      obtain ⟨-, rfl⟩ := h
      simp only [List.mem_cons, List.not_mem_nil, or_false, forall_eq_or_imp, forall_eq]
      exact ⟨fun _ _ _ => normalize_about _ _ _, fun _ _ _ => normalize_about _ _ _⟩
    · split at h
      · simp only [Option.some.injEq, Prod.mk.injEq] at h
        obtain ⟨-, rfl⟩ := h
        simp only [List.mem_cons, List.not_mem_nil, or_false, forall_eq_or_imp, forall_eq]
        have := fun a u v b => normalize_shifted a u v (arccos_nonneg b) (arccos_le_pi b)
        exact ⟨fun _ _ _ => (this _ _ _ _).1, fun _ _ _ => (this _ _ _ _).2⟩
      · simp only [Option.some.injEq, Prod.mk.injEq] at h
        obtain ⟨-, rfl⟩ := h
        simp only [List.mem_cons, List.not_mem_nil, or_false, forall_eq_or_imp, forall_eq]
        exact ⟨fun _ _ _ => normalize_about _ _ _, fun _ _ _ => normalize_about _ _ _⟩
  | pg1 i e p =>
    simp only [KD.Subproblem.solve, KD.pg1, Option.some.injEq, Prod.mk.injEq] at h
    obtain ⟨-, rfl⟩ := h
    simp only [List.mem_singleton, forall_eq]
    intro e' he' hm
    cases hu.symm.trans he'
    rw [hc] at hm
    cases hm
  | pg2 i j e1 e2 p =>
    simp only [KD.Subproblem.solve, KD.pg2] at h
    split at h
    · cases h
    · simp only [Option.some.injEq, Prod.mk.injEq] at h
      obtain ⟨-, rfl⟩ := h
      simp only [List.mem_cons, List.not_mem_nil, or_false, forall_eq_or_imp, forall_eq]
      constructor
      · intro e' he' hm
        cases hu.1.symm.trans he'
        rw [hc.1] at hm
        cases hm
      · intro e' he' hm
        cases hu.2.symm.trans he'
        rw [hc.2.1] at hm
        cases hm
  | pg3 i e p k =>
    have key : ∀ x : ℝ, ∀ e', es[i]? = some e' → e'.motion = .rotation → |x| ≤ π := by
      intro x e' he' hm
      cases hu.symm.trans he'
      rw [hc] at hm
      cases hm
    simp only [KD.Subproblem.solve, KD.pg3] at h
    split at h <;>
    · simp only [Option.some.injEq, Prod.mk.injEq] at h
      obtain ⟨-, rfl⟩ := h
      simp only [List.mem_cons, List.not_mem_nil, or_false, forall_eq_or_imp, forall_eq]
      exact ⟨key _, key _⟩
  | pg4 i j e1 e2 p =>
    have key : ∀ {c d : Prop} {_ : Decidable c} {_ : Decidable d} {ok1 ok2 : Bool} {a1 a2 a3 a4 b1 b2 : ℝ},
        (if c then if d then none else some (ok1, [[(i, a1), (j, a2)], [(i, a3), (j, a4)]])
          else some (ok2, [[(i, b1), (j, b2)], [(i, b1), (j, b2)]])) = some (ok, ls) →
        |a1| ≤ π → |a2| ≤ π → |a3| ≤ π → |a4| ≤ π → |b1| ≤ π → |b2| ≤ π →
        ∀ l ∈ ls, ∀ p ∈ l, ∀ e, es[p.1]? = some e → e.motion = .rotation → |p.2| ≤ π := by
      intro c d _ _ ok1 ok2 a1 a2 a3 a4 b1 b2 h g1 g2 g3 g4 g5 g6
      split at h
      · split at h
        · cases h
        · simp only [Option.some.injEq, Prod.mk.injEq] at h
          obtain ⟨-, rfl⟩ := h
          simp only [List.mem_cons, List.not_mem_nil, or_false, forall_eq_or_imp, forall_eq]
          exact ⟨⟨fun _ _ _ => g1, fun _ _ _ => g2⟩, ⟨fun _ _ _ => g3, fun _ _ _ => g4⟩⟩
      · simp only [Option.some.injEq, Prod.mk.injEq] at h
        obtain ⟨-, rfl⟩ := h
        simp only [List.mem_cons, List.not_mem_nil, or_false, forall_eq_or_imp, forall_eq]
        exact ⟨⟨fun _ _ _ => g5, fun _ _ _ => g6⟩, ⟨fun _ _ _ => g5, fun _ _ _ => g6⟩⟩
    exact key h (normalize_about _ _ _) (normalize_about _ _ _) (normalize_about _ _ _) (normalize_about _ _ _)
      (normalize_atan2 _ _) (normalize_atan2 _ _)

namespace IkProblem

/-- Values of revolute terms in range. -/
def InRange (pb : IkProblem) (q : List ℝ) : Prop :=
  ∀ i e v, i < pb.poe.exps.length → pb.poe.exps[i]? = some e → e.motion = .rotation →
    q[slot pb.poe.exps.length pb.reversed i]? = some v → |v| ≤ π

theorem writeVals_range {pb : IkProblem} {l : LocalSol}
    (hl : ∀ p ∈ l, p.1 < pb.poe.exps.length ∧ ∀ e, pb.poe.exps[p.1]? = some e → e.motion = .rotation → |p.2| ≤ π)
    {q : List ℝ} (hq : pb.InRange q) : pb.InRange (writeVals pb.poe.exps.length pb.reversed l q) := by
  unfold writeVals
  induction l generalizing q with
  | nil => exact hq
  | cons p l ih =>
    rw [List.foldl_cons]
    refine ih (fun p hp => hl p (List.mem_cons_of_mem _ hp)) ?_
    obtain ⟨hp, hv⟩ := hl p List.mem_cons_self
    intro i e v hi he hm hqv
    unfold slot at hqv
    cases hr : pb.reversed with
    | false =>
      simp only [hr, Bool.false_eq_true, ↓reduceIte, List.getElem?_set] at hqv
      split at hqv
      · rename_i hpi
        split at hqv
        · cases hqv
          exact hv e (hpi ▸ he) hm
        · cases hqv
      · exact hq i e v hi he hm (by rw [slot, hr]; exact hqv)
    | true =>
      simp only [hr, ↓reduceIte, List.getElem?_set] at hqv
      split at hqv
      · rename_i hpi
        have hpi' : p.1 = i := by omega
        split at hqv
        · cases hqv
          rw [abs_neg]
          exact hv e (hpi' ▸ he) hm
        · cases hqv
      · exact hq i e v hi he hm (by rw [slot, hr]; exact hqv)

theorem runBranch_range {pb : IkProblem} {subs : List Subproblem}
    (h5 : ∀ sp ∈ subs, Subproblem.Uses pb.poe.exps sp ∧ Subproblem.Chosen sp)
    (hok : ∀ s ∈ subs, StepOK pb.poe.exps.length s.toStep s.ids) :
    ∀ (ks : List ℕ) (first zero : Bool) (ts : List TermState) (q : List ℝ) (F : Frame) (oks : List Bool) (q' : List ℝ),
      runBranch pb (subs.map fun s => (s.toStep, s.ids)) ks first zero ts q F = some (oks, q') →
      pb.InRange q → pb.InRange q' := by
  induction subs with
  | nil =>
    intro ks first zero ts q F oks q' h hq
    cases ks <;>
    · simp only [List.map_nil, runBranch, Option.some.injEq, Prod.mk.injEq] at h
      rw [← h.2]
      exact hq
  | cons s subs ih =>
    intro ks first zero ts q F oks q' h hq
    cases ks with
    | nil =>
      simp only [List.map_cons, runBranch, Option.some.injEq, Prod.mk.injEq] at h
      rw [← h.2]
      exact hq
    | cons k ks =>
      simp only [List.map_cons, runBranch, Option.bind_eq_bind, Option.bind_eq_some_iff, Option.pure_def,
        Option.some.injEq, Prod.mk.injEq] at h
      obtain ⟨⟨ok, ls⟩, h1, l, h2, ⟨oks', q2⟩, h3, h4⟩ := h
      have hq2 : q2 = q' := h4.2
      subst hq2
      refine ih (fun sp hsp => h5 sp (List.mem_cons_of_mem _ hsp)) (fun sp hsp => hok sp (List.mem_cons_of_mem _ hsp))
        ks _ _ _ _ _ _ _ h3 (writeVals_range (fun p hp => ⟨?_, ?_⟩) hq)
      · have hs := hok s List.mem_cons_self
        refine hs.lt p.1 ?_
        rw [← hs.sameIds _ _ _ _ h1 l (List.mem_of_getElem? h2)]
        exact List.mem_map_of_mem hp
      · exact solve_range (h5 s List.mem_cons_self).1 (h5 s List.mem_cons_self).2 h1 l
          (List.mem_of_getElem? h2) p hp

end IkProblem

/-- The inverse kinematics gives values of revolute joints within half a turn, whether or not it
reaches the target. -/
theorem C15_revolute_joints_within_half_turn (rnd : ℕ → ℝ) (poe : Poe) (hu : ∀ e ∈ poe.exps, e.Unit)
    (ht : poe.tool.IsRigid) (pb : IkProblem) (subs : List Subproblem)
    (h : build rnd poe = some (some (pb, subs))) (hm : Margin pb.poe.exps) (T : Frame) (out : List (List ℝ)) :
    ∃ ok sols, pb.solve T out = some (ok, sols) ∧ ∀ q ∈ sols, q.length = poe.exps.length ∧
      ∀ (i : ℕ) (e : MatrixExp) (v : ℝ), poe.exps[i]? = some e → e.motion = .rotation → q[i]? = some v →
        -π ≤ v ∧ v ≤ π := by
  have hwf := C19_built_problem_wellformed rnd poe hu ht pb subs h hm
  obtain ⟨_, hside, h3, h4, h5⟩ := C19_covers_joints_exactly_once rnd poe pb subs h
  obtain ⟨ok, sols, g1, g2, g3, _⟩ := IkProblem.solve_eq hwf.stepsPair hwf.stepsOK T out
  refine ⟨ok, sols, g1, fun q hq => ?_⟩
  obtain ⟨k, hk, rfl⟩ := List.mem_iff_getElem.mp hq
  obtain ⟨ks, hks, hpos⟩ := IkProblem.radix_surj _ k (by rw [← g2]; exact hk)
  obtain ⟨oks, q2, e1, e2, e3⟩ := g3 ks hks
  rw [hpos, List.getElem?_eq_getElem hk] at e3
  cases Option.some.inj e3
  have hr := IkProblem.runBranch_range h5 (fun s hs => hwf.stepsOK (s.toStep, s.ids) (List.mem_map_of_mem hs)) ks _ _ _ _ _ _ _ e1
    (fun i e v _ _ _ hv => by
      have := List.mem_of_getElem? hv
      rw [List.mem_replicate] at this
      rw [this.2, abs_zero]
      exact pi_pos.le)
  refine ⟨by rw [e2, h3], fun i e v he hme hv => abs_le.mp ?_⟩
  have hi : i < poe.exps.length := (List.getElem?_eq_some_iff.mp he).1
  rcases hside with ⟨hrev, hp⟩ | ⟨hrev, hp⟩
  · exact hr i e v (by rw [h3]; exact hi) (by rw [hp]; exact he) hme (by rw [IkProblem.slot, hrev]; exact hv)
  · refine hr (poe.exps.length - 1 - i) (e.changeBase poe.tool.inv) v (by rw [h3]; omega) ?_ ?_ ?_
    · rw [hp, Poe.reverseSelf, List.getElem?_reverse (by rw [List.length_map]; omega), List.length_map, List.getElem?_map,
        show poe.exps.length - 1 - (poe.exps.length - 1 - i) = i by omega, he]
      rfl
    · rw [MatrixExp.changeBase, hme]
    · rw [IkProblem.slot, hrev, h3]
      simp only [↓reduceIte]
      rw [show poe.exps.length - 1 - (poe.exps.length - 1 - i) = i by omega]
      exact hv

/-- Six revolute joints: the left arm of TEO. -/
example : (∀ e ∈ StDemo.teoLeftArm.exps, e.Unit) ∧ StDemo.teoLeftArm.tool.IsRigid ∧
    build (fun n => (StDemo.gnuDraw n : ℝ)) StDemo.teoLeftArm =
      some (some (StDemo.teoProblem, StDemo.teoSteps.map Exact.S.real)) ∧
    Margin StDemo.teoProblem.poe.exps ∧ ∀ e ∈ StDemo.teoLeftArm.exps, e.motion = .rotation :=
  ⟨StDemo.teo_unit, StDemo.teo_rigid, StDemo.teo_build, StDemo.teo_margin StDemo.teo_build, StDemo.teo_rotations⟩

end KD
