import Verif.Programs.PlanarArm
import Verif.Programs.TestRobotsLemmas
import Verif.Props.IkRange
import Verif.Props.IkComplete
import Verif.Props.ConfigSelector
import Verif.Props.StSolver
import Verif.Props.Poe
import Verif.Props.KdlConfig

/-!
# C90: a call of the inverse kinematics without an error gives the pose asked for

It does not for the arm of the library's own tests, whatever the builder draws. What holds for every arm: asked
for the pose of the posture where the arm is, the inverse kinematics answers that posture, as long as no step of
the solution is singular there.
-/

namespace KD

open Real Vec3 Builder Selector

theorem StSolver.cartToJnt_eq {pb : IkProblem} {sel c' : Selector} {ok : Bool} {sols : List (List ℝ)} {T : Frame}
    {guess q qOut : List ℝ} (h1 : pb.solve T [] = some (ok, sols)) (h2 : sel.select sols guess = some (some q, c')) :
    (⟨pb, some sel, 0⟩ : StSolver).cartToJnt guess T qOut =
      some (if ok then 0 else eNotReachable, q, ⟨pb, some c', if ok then 0 else eNotReachable⟩) := by
  simp [StSolver.cartToJnt, eSolutionNotFound, h1, h2]

theorem cost_self (q : List ℝ) : cost q q = 0 := by
  unfold cost
  induction q with
  | nil => simp
  | cons a l ih => simp

theorem cost_nonneg (p q : List ℝ) : 0 ≤ cost p q := by
  unfold cost
  apply List.sum_nonneg
  intro x hx
  rw [List.mem_iff_getElem] at hx
  obtain ⟨i, hi, rfl⟩ := hx
  simp

theorem eq_of_cost {p q : List ℝ} (hl : p.length = q.length) (h : cost p q ≤ 0) : p = q := by
  induction p generalizing q with
  | nil => exact (List.length_eq_zero_iff.mp hl.symm).symm
  | cons a p ih =>
    match q, hl with
    | b :: q, hl =>
      have hc : cost (a :: p) (b :: q) = |a - b| + cost p q := by simp [cost]
      have h1 := abs_nonneg (a - b)
      have h2 := cost_nonneg p q
      have h3 : |a - b| ≤ 0 := by linarith
      have h4 : a = b := by
        have := abs_nonpos_iff.mp h3
        linarith
      rw [h4, ih (by simpa using hl) (by linarith)]

namespace Planar

theorem chain_wf : ∀ s ∈ chain, s.joint.WF ∧ s.joint.scale = 1 ∧ s.fTip.IsRigid := by
  have hs : ∀ d : KdlConfig.Dh, d.seg.joint.WF ∧ d.seg.joint.scale = 1 ∧ d.seg.fTip.IsRigid := fun d =>
    ⟨by simp [KdlConfig.Dh.seg, Segment.make, KdlConfig.joint, Joint.WF], rfl,
      (KdlConfig.make_wf (KdlConfig.joint_unit _ (by simp) _) (KdlConfig.dhFrame_rigid _ _ _ _)).2⟩
  have hf : (Segment.make Joint.fixed 1).joint.WF ∧ (Segment.make Joint.fixed 1).joint.scale = 1 ∧
      (Segment.make Joint.fixed 1).fTip.IsRigid :=
    ⟨by simp [Joint.WF, Segment.make, Joint.fixed], rfl, (KdlConfig.fixed_wf Frame.IsRigid.one).2⟩
  intro s h
  simp only [chain, links, List.map_cons, List.map_nil, List.cons_append, List.nil_append, List.mem_cons,
    List.not_mem_nil, or_false] at h
  rcases h with rfl | rfl | rfl | rfl
  · exact hf
  · exact hs _
  · exact hs _
  · exact hf

theorem chain_fk (a b : ℝ) : chain.fk [a, b] = some (arm.evaluate [a, b] 1).2 := by
  have h := (C07_fromChain_fk chain [a, b] 1 chain_wf rfl).2
  rwa [chain_arm] at h

/-- What the solver of this arm is. -/
theorem created {rnd : ℕ → ℝ} {sel : Selector} {r : Option StSolver} (h : StSolver.create rnd chain (some sel) = some r) :
    ∃ t, r = some ⟨⟨arm, [(step t).toStep], false⟩, some sel, 0⟩ := by
  unfold StSolver.create at h
  rw [chain_arm] at h
  simp only [Option.bind_eq_bind, Option.bind_eq_some_iff] at h
  obtain ⟨res, h1, h2⟩ := h
  obtain ⟨t, rfl⟩ := built h1
  exact ⟨t, (Option.some.inj h2).symm⟩

end Planar

open Planar

/-- C18 refuted for an arm whose joints all rotate: whatever the builder draws, the problem of the two-link arm of
the tests tells that it reaches the pose of the posture (0, 90°), and one of its two solutions reaches another. -/
theorem C18_planar_arm_counterexample (rnd : ℕ → ℝ) (pb : IkProblem) (subs : List Subproblem)
    (h : build rnd (Poe.fromChain chain) = some (some (pb, subs))) :
    ∃ T sols, (Poe.fromChain chain).evaluate [0, π / 2] 1 = (true, T) ∧ pb.solve T [] = some (true, sols) ∧
      [0, π / 2] ∈ sols ∧ ∃ q ∈ sols, (Poe.fromChain chain).evaluate q 1 ≠ (true, T) := by
  rw [chain_arm] at h ⊢
  obtain ⟨t, ht⟩ := built h
  cases Option.some.inj ht
  have hg : arm.evaluate [0, π / 2] 1 = (true, (arm.evaluate [0, π / 2] 1).2) := by
    rw [C03_evaluate_is_product arm _ 1 rfl]
  have hsol := solve_quarter t
  obtain ⟨a, b, hab, hgoal⟩ := goal_eq hg
  simp only [List.cons.injEq, and_true] at hab
  obtain ⟨rfl, rfl⟩ := hab
  rw [← hgoal] at hsol
  refine ⟨_, _, hg, solve_step hsol, by simp, [-(π / 2), -(π / 2)], by simp, ?_⟩
  rw [C03_evaluate_is_product arm _ _ rfl, C03_evaluate_is_product arm _ _ rfl]
  intro he
  have := congrArg (fun f : Bool × Frame => f.2.p.y) he
  simp [arm, e1, e2, MatrixExp.asFrame, Mat3.rot2] at this

/-- The inverse kinematics tells success and gives the posture of another pose. Whatever the builder draws, and
with limits that allow a quarter of a turn, the two-link arm of the tests is asked for the pose of the posture
(0, 90°) from the posture (-90°, -90°); the answer is (-90°, -90°), with the code of success, where the tip is
two metres away. -/
theorem C90_success_at_other_pose_counterexample (rnd : ℕ → ℝ) (l1 l2 u1 u2 : ℝ) (hl : l1 ≤ -(π / 2) ∧ l2 ≤ -(π / 2))
    (hu : 0 ≤ u1 ∧ π / 2 ≤ u2) (s : StSolver)
    (h : StSolver.create rnd chain (some (Selector.make false [l1, l2] [u1, u2])) = some (some s)) (qOut : List ℝ) :
    ∃ T T' s', chain.fk [0, π / 2] = some T ∧ s.cartToJnt [-(π / 2), -(π / 2)] T qOut = some (0, [-(π / 2), -(π / 2)], s') ∧
      chain.fk [-(π / 2), -(π / 2)] = some T' ∧ (T'.p - T.p).norm = 2 := by
  obtain ⟨t, ht⟩ := created h
  cases Option.some.inj ht
  have hg : ∀ a b : ℝ, arm.evaluate [a, b] 1 = (true, (arm.evaluate [a, b] 1).2) := fun a b =>
    by rw [C03_evaluate_is_product arm [a, b] 1 rfl]
  have hsol := solve_quarter t
  obtain ⟨a, b, hab, hgoal⟩ := goal_eq (hg 0 (π / 2))
  simp only [List.cons.injEq, and_true] at hab
  obtain ⟨rfl, rfl⟩ := hab
  rw [← hgoal] at hsol
  have hsolve := solve_step hsol
  obtain ⟨r, c', hsel, hnone, hsome⟩ := C21_least_displacement false [l1, l2] [u1, u2] 2 ⟨rfl, rfl, by simp [Selector.make]⟩
    [[-(π / 2), -(π / 2)], [0, π / 2]] (by simp) [-(π / 2), -(π / 2)] rfl
  have hacc : (Selector.make false [l1, l2] [u1, u2]).Acceptable [-(π / 2), -(π / 2)] := by
    refine ⟨?_, by simp [Selector.make]⟩
    have := eps_pos
    have := Real.pi_pos
    intro k a lo hi h1 h2 h3
    simp only [Selector.make] at h2 h3
    match k with
    | 0 => simp at h1 h2 h3; subst h1 h2 h3; constructor <;> linarith
    | 1 => simp at h1 h2 h3; subst h1 h2 h3; constructor <;> linarith
    | k + 2 => simp at h1
  have hr : r = some [-(π / 2), -(π / 2)] := by
    cases r with
    | none => exact absurd hacc (hnone.mp rfl _ (by simp))
    | some q =>
      obtain ⟨i, hi, _, hmin⟩ := hsome q rfl
      have := (hmin 0 _ rfl hacc).1
      rw [cost_self] at this
      rw [eq_of_cost (by
        have := List.mem_of_getElem? hi
        simp at this
        rcases this with rfl | rfl <;> rfl) this]
  rw [hr] at hsel
  refine ⟨_, _, _, chain_fk _ _, StSolver.cartToJnt_eq hsolve hsel, chain_fk _ _, ?_⟩
  rw [C03_evaluate_is_product arm _ _ rfl, C03_evaluate_is_product arm _ _ rfl]
  simp [arm, e1, e2, MatrixExp.asFrame, Mat3.rot2, Vec3.norm, dot]
  norm_num
  exact Angles.sqrt_four

/-- With the arm stretched the first joint is not seen: whatever the builder draws and whatever the guess, the pose
of the posture (a, 0) is answered with the posture (0, 0) and the code of success, for every angle a, so the answer
is right only if a is a whole number of turns. -/
theorem C90_stretched_counterexample (rnd : ℕ → ℝ) (l1 l2 u1 u2 : ℝ) (hl : l1 ≤ 0 ∧ l2 ≤ 0)
    (hu : 0 ≤ u1 ∧ 0 ≤ u2) (s : StSolver)
    (h : StSolver.create rnd chain (some (Selector.make false [l1, l2] [u1, u2])) = some (some s))
    (a : ℝ) (guess qOut : List ℝ) (hguess : guess.length = 2) :
    ∃ T s', chain.fk [a, 0] = some T ∧ s.cartToJnt guess T qOut = some (0, [0, 0], s') ∧
      (chain.fk [0, 0] = some T ↔ cos a = 1) := by
  obtain ⟨t, ht⟩ := created h
  cases Option.some.inj ht
  have hg : ∀ a b : ℝ, arm.evaluate [a, b] 1 = (true, (arm.evaluate [a, b] 1).2) := fun a b =>
    by rw [C03_evaluate_is_product arm [a, b] 1 rfl]
  have hsol := solve_stretched t a
  obtain ⟨a', b', hab, hgoal⟩ := goal_eq (hg a 0)
  simp only [List.cons.injEq, and_true] at hab
  obtain ⟨rfl, rfl⟩ := hab
  rw [← hgoal] at hsol
  have hsolve := solve_step hsol
  obtain ⟨r, c', hsel, hnone, hsome⟩ := C21_least_displacement false [l1, l2] [u1, u2] 2 ⟨rfl, rfl, by simp [Selector.make]⟩
    [[0, 0], [0, 0]] (by simp) guess hguess
  have hacc : (Selector.make false [l1, l2] [u1, u2]).Acceptable [0, 0] := by
    refine ⟨?_, by simp [Selector.make]⟩
    have := eps_pos
    intro k a lo hi h1 h2 h3
    simp only [Selector.make] at h2 h3
    match k with
    | 0 => simp at h1 h2 h3; subst h1 h2 h3; constructor <;> linarith
    | 1 => simp at h1 h2 h3; subst h1 h2 h3; constructor <;> linarith
    | k + 2 => simp at h1
  have hr : r = some [0, 0] := by
    cases r with
    | none => exact absurd hacc (hnone.mp rfl _ (by simp))
    | some q =>
      obtain ⟨i, hi, _⟩ := hsome q rfl
      have := List.mem_of_getElem? hi
      simp at this
      rw [this]
  rw [hr] at hsel
  refine ⟨_, _, chain_fk _ _, StSolver.cartToJnt_eq hsolve hsel, ?_⟩
  rw [chain_fk, C03_evaluate_is_product arm _ _ rfl, C03_evaluate_is_product arm _ _ rfl, Option.some.injEq]
  constructor
  · intro h
    have := congrArg (fun f : Frame => f.M.yx) h
    simp [arm, e1, e2, MatrixExp.asFrame, Mat3.rot2] at this
    linarith
  · intro hc
    have hs : sin a = 0 := by
      have := sin_sq_add_cos_sq a
      rw [hc] at this
      nlinarith
    ext <;> simp [arm, e1, e2, MatrixExp.asFrame, Mat3.rot2, hc, hs]

namespace Planar

theorem arm_unit : ∀ e ∈ arm.exps, e.Unit := by
  intro e he
  simp [arm] at he
  rcases he with rfl | rfl <;> simp [MatrixExp.Unit, e1, e2, dot]

/-- A problem for this arm exists for suitable draws of the builder. -/
theorem some_built : ∃ (rnd : ℕ → ℝ) (t : ℝ), build rnd arm = some (some (⟨arm, [(step t).toStep], false⟩, [step t])) := by
  have hs : Builder.Spread (fun n => (TestRobots.someDraw n : ℝ)) (1 + arm.exps.length * (arm.exps.length + 2)) :=
    TestRobots.someDraw_spread (by simp [arm])
  obtain ⟨r, hr⟩ := C19_build_returns _ arm arm_unit tool_rigid hs
  obtain ⟨t, rfl⟩ := built hr
  exact ⟨_, t, hr⟩

theorem some_created (sel : Selector) : ∃ (rnd : ℕ → ℝ) (t : ℝ),
    build rnd (Poe.fromChain chain) = some (some (⟨arm, [(step t).toStep], false⟩, [step t])) ∧
    StSolver.create rnd chain (some sel) = some (some ⟨⟨arm, [(step t).toStep], false⟩, some sel, 0⟩) := by
  obtain ⟨rnd, t, h⟩ := some_built
  rw [← chain_arm] at h
  refine ⟨rnd, t, ?_, ?_⟩
  · rw [h, chain_arm]
  · rw [StSolver.create, h, chain_arm]
    rfl

end Planar

/-- The solver of this arm exists for suitable draws of the builder, with the limits of the test. -/
example : ∃ (rnd : ℕ → ℝ) (s : StSolver), StSolver.create rnd chain (some (Selector.make false [-π, -π] [π, π])) =
    some (some s) := by
  obtain ⟨rnd, t, _, h⟩ := some_created (Selector.make false [-π, -π] [π, π])
  exact ⟨rnd, _, h⟩

theorem fromChainLoop_tool_rigid : ∀ (c : Chain) (f : Frame),
    (∀ s ∈ c, s.joint.WF ∧ s.joint.scale = 1 ∧ s.fTip.IsRigid) → f.IsRigid → (Poe.fromChainLoop c f).2.IsRigid := by
  intro c
  induction c with
  | nil => exact fun f _ hf => hf
  | cons sg c ih =>
    intro f h hf
    obtain ⟨h1, _, h3⟩ := h sg (List.mem_cons_self ..)
    have hj : sg.Wf := ⟨fun e => h1 (Or.inl e), h3⟩
    have := ih (f * sg.pose 0) (fun x hx => h x (List.mem_cons_of_mem _ hx)) (hf.mul (hj.pose_rigid 0))
    unfold Poe.fromChainLoop
    dsimp only
    split <;> exact this

theorem turns_eq {φ θ : ℝ} (h : Turns φ θ) (h1 : -π ≤ φ ∧ φ ≤ π) (h2 : -π < θ ∧ θ < π) : φ = θ := by
  obtain ⟨n, hn⟩ := h
  have hp := Real.pi_pos
  have a1 : (n : ℝ) < 1 := by
    by_contra hc
    have : π * 1 ≤ π * n := by nlinarith
    linarith [h1.2, h2.1]
  have a2 : (-1 : ℝ) < n := by
    by_contra hc
    have : π * n ≤ π * (-1) := by nlinarith
    linarith [h1.1, h2.2]
  have : n = 0 := by
    have b1 : n < 1 := by exact_mod_cast a1
    have b2 : -1 < n := by exact_mod_cast a2
    omega
  rw [hn, this]
  simp

/-- Asked for the pose of the posture that it is given as the guess, a new solver answers this very posture,
without an error, for every arm. The posture is within the limits, its revolute joints are within less than half a turn, and the
steps of the problem that was built are poised there. What is missing for the full statement is shown above: other
guesses, and postures where a step is singular. -/
theorem C90_own_posture_partial (rnd : ℕ → ℝ) (c : Chain)
    (hc : ∀ s ∈ c, s.joint.WF ∧ s.joint.scale = 1 ∧ s.fTip.IsRigid) (lo hi : List ℝ) (s : StSolver)
    (pb : IkProblem) (subs : List Subproblem) (hb : build rnd (Poe.fromChain c) = some (some (pb, subs)))
    (h : StSolver.create rnd c (some (Selector.make false lo hi)) = some (some s)) (hm : Margin pb.poe.exps)
    (hlo : lo.length = c.nJoints) (hhi : hi.length = c.nJoints)
    (q₀ : List ℝ) (T : Frame) (hT : c.fk q₀ = some T) (hq : q₀.length = c.nJoints) (hlim : InLimits lo hi q₀)
    (hpi : ∀ (i : ℕ) (e : MatrixExp) (v : ℝ), (Poe.fromChain c).exps[i]? = some e → e.motion = .rotation → q₀[i]? = some v →
      -π < v ∧ v < π)
    (hp : ∀ i s, subs[i]? = some s →
      Poised pb.poe.exps ((subs.take i).flatMap Subproblem.ids) (fun j => (pb.values q₀).getD j 0) s)
    (qOut : List ℝ) :
    ∃ code s', s.cartToJnt q₀ T qOut = some (code, q₀, s') ∧ 0 ≤ code := by
  have hterms := C07_fromChain_terms c
  have htool : (Poe.fromChain c).tool.IsRigid := fromChainLoop_tool_rigid c 1 hc Frame.IsRigid.one
  have hT' : (Poe.fromChain c).evaluate q₀ 1 = (true, T) := by
    obtain ⟨h1, h2⟩ := C07_fromChain_fk c q₀ 1 hc hq.symm
    rw [hT] at h2
    rw [h1, ← Option.some.inj h2]
  obtain ⟨ok, sols, hs, q, hqs, hql, hsame, _⟩ := C78_posture_found_partial rnd _ hterms.2 htool pb subs hb hm q₀ T hT' hp []
  obtain ⟨ok', sols', hs', hrange⟩ := C15_revolute_joints_within_half_turn rnd _ hterms.2 htool pb subs hb hm T []
  rw [hs] at hs'
  cases hs'
  have hqq : q = q₀ := by
    apply List.ext_getElem? 
    intro i
    by_cases hi : i < q₀.length
    · have hi' : i < q.length := by omega
      have hie : i < (Poe.fromChain c).exps.length := by omega
      have hv := hsame i _ _ _ (List.getElem?_eq_getElem hie) (List.getElem?_eq_getElem hi') (List.getElem?_eq_getElem hi)
      rw [List.getElem?_eq_getElem hi', List.getElem?_eq_getElem hi, Option.some.injEq]
      unfold SameValue at hv
      split at hv
      · rename_i hrot
        have r1 := (hrange q hqs).2 i _ _ (List.getElem?_eq_getElem hie) hrot (List.getElem?_eq_getElem hi')
        have r2 := hpi i _ _ (List.getElem?_eq_getElem hie) hrot (List.getElem?_eq_getElem hi)
        exact turns_eq hv r1 r2
      · exact hv
    · rw [List.getElem?_eq_none (by omega), List.getElem?_eq_none (by omega)]
  subst hqq
  obtain ⟨r, c', hsel, hnone, hsome⟩ := C21_least_displacement false lo hi c.nJoints ⟨hlo, hhi, by simp [Selector.make]⟩
    sols (fun p hp => by rw [(hrange p hp).1, hterms.1]) q hq
  have hacc : (Selector.make false lo hi).Acceptable q := ⟨hlim, by simp [Selector.make]⟩
  have hr : r = some q := by
    cases r with
    | none => exact absurd hacc (hnone.mp rfl _ hqs)
    | some p =>
      obtain ⟨i, hi, _, hmin⟩ := hsome p rfl
      obtain ⟨j, hj⟩ := List.mem_iff_getElem?.mp hqs
      have := (hmin j _ hj hacc).1
      rw [cost_self] at this
      rw [eq_of_cost (by rw [(hrange p (List.mem_of_getElem? hi)).1, hterms.1, hq]) this]
  rw [hr] at hsel
  have hsv : s = ⟨pb, some (Selector.make false lo hi), 0⟩ := by
    simp only [StSolver.create, hb] at h
    exact (Option.some.inj (Option.some.inj h)).symm
  subst hsv
  refine ⟨_, _, StSolver.cartToJnt_eq hs hsel, ?_⟩
  cases ok <;> simp [eNotReachable]

/-- The arm of the tests, in every posture (a, b) with |a| and |b| at most 179° and b not near zero. -/
example (a b : ℝ) (ha : |a| ≤ 179 / 180 * π) (hb : |b| ≤ 179 / 180 * π) (hc : eps ≤ √(2 - 2 * cos b)) :
    ∃ (rnd : ℕ → ℝ) (s : StSolver) (T : Frame),
      StSolver.create rnd chain (some (Selector.make false [-π, -π] [π, π])) = some (some s) ∧
      chain.fk [a, b] = some T ∧ ∃ code s', s.cartToJnt [a, b] T [] = some (code, [a, b], s') ∧ 0 ≤ code := by
  have hp := Real.two_le_pi
  have he : eps < 1 / 100000 := by norm_num [eps]
  have he0 := eps_pos
  have hin : ∀ x : ℝ, |x| ≤ 179 / 180 * π → -π < x ∧ x < π := fun x hx => by
    obtain ⟨h1, h2⟩ := abs_le.mp hx
    constructor <;> linarith
  have hoff : ∀ x : ℝ, |x| ≤ 179 / 180 * π → OffHalfTurn x := by
    intro x hx n hn
    exfalso
    obtain ⟨h1, h2⟩ := abs_le.mp hx
    obtain ⟨h3, h4⟩ := abs_lt.mp hn
    rcases le_or_gt 0 n with h | h
    · have : (0 : ℝ) ≤ n := by exact_mod_cast h
      nlinarith
    · have : (n : ℝ) ≤ -1 := by exact_mod_cast (by omega : n ≤ -1)
      nlinarith
  obtain ⟨rnd, t, hbuild, hcreate⟩ := some_created (Selector.make false [-π, -π] [π, π])
  have hd : axisDist e1 ((e2.asFrame b).act ⟨0, 0, t⟩) = √(2 - 2 * cos b) := by
    have h1 : (e2.asFrame b).act ⟨0, 0, t⟩ = ⟨1 - cos b, -sin b, t⟩ := by
      ext <;> simp [Frame.act, MatrixExp.asFrame, e2, Mat3.rot2]
    rw [h1]
    simp [axisDist, axisRej_eq, Vec3.norm, dot, e1]
    congr 1
    nlinarith [sin_sq_add_cos_sq b]
  have hd2 : axisDist e2 ⟨0, 0, t⟩ = 1 := by norm_num [axisDist, axisRej_eq, Vec3.norm, dot, e2]
  have hd3 : axisDist e1 e2.origin = 1 := by norm_num [axisDist, axisRej_eq, Vec3.norm, dot, e1, e2]
  refine ⟨rnd, _, _, hcreate, chain_fk a b, C90_own_posture_partial rnd chain chain_wf [-π, -π] [π, π] _ _ _ hbuild hcreate ?_
    rfl rfl [a, b] _ (chain_fk a b) rfl ?_ ?_ ?_ []⟩
  · intro x hx y hy _ _ _
    simp [arm] at hx hy
    rcases hx with rfl | rfl <;> rcases hy with rfl | rfl <;> refine ⟨by ext <;> simp [e1, e2], ?_⟩
    · exact Or.inl (by ext <;> simp [e1])
    · right; norm_num [e1, e2, Vec3.norm, dot, eps]
    · right; norm_num [e1, e2, Vec3.norm, dot, eps]
    · exact Or.inl (by ext <;> simp [e2])
  · intro k v lo hi h1 h2 h3
    match k with
    | 0 => simp at h1 h2 h3; subst h1 h2 h3; have := hin a ha; constructor <;> linarith
    | 1 => simp at h1 h2 h3; subst h1 h2 h3; have := hin b hb; constructor <;> linarith
    | k + 2 => simp at h1
  · intro i e v _ _ hv
    match i with
    | 0 => simp at hv; subst hv; exact hin a ha
    | 1 => simp at hv; subst hv; exact hin b hb
    | i + 2 => simp at hv
  · intro i s hs
    match i with
    | i + 1 => simp at hs
    | 0 =>
      simp at hs
      subst hs
      refine ⟨0, 0, 1, 2, 2, le_rfl, by omega, rfl, ⟨by omega, by omega, le_rfl, Or.inl ⟨rfl, by simp⟩, by simp,
        by simp, fun j h1 h2 => by omega⟩, fun j e h1 h2 => by omega, fun j e h1 h2 => by omega,
        rfl, rfl, hoff a ha, hoff b hb, Or.inl rfl, ?_, ?_, ?_, ?_⟩
      · rw [hd3]; linarith
      all_goals rw [IkProblem.seg_nil (by omega), Frame.act_one]
      · exact lt_of_lt_of_eq one_pos hd2.symm
      · exact lt_of_lt_of_le he0 (hc.trans_eq hd.symm)
      · refine hc.trans (le_of_eq ?_)
        show _ = axisDist e2 ⟨0, 0, t⟩ + axisDist e1 ((e2.asFrame b).act ⟨0, 0, t⟩) - axisDist e1 e2.origin
        rw [hd, hd2, hd3]
        ring

end KD
