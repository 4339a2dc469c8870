import Verif.Programs.FileRobot
import Verif.Solver.StSolver
import Verif.Screw.Angles

/-!
# The arm of /repo/tests/testKdlSolver.cpp

Two links of one metre that turn about parallel axes, the second one with an offset of a quarter of a turn. Its
inverse kinematics problem is the same whatever numbers the builder draws: a single step for both joints, with a
test point on the first axis.
-/

namespace KD.Planar

open Real Vec3 Builder KdlConfig Angles

/-- The links, /repo/tests/testKdlSolver.cpp:34-35. -/
noncomputable def links : List Dh := [(0, 0, 1, 0), (90, 0, 1, 0)]

/-- The chain that the device makes of them, /repo/libraries/YarpPlugins/KdlSolver/DeviceDriverImpl.cpp:169-303. -/
noncomputable def chain : Chain :=
  Segment.make Joint.fixed 1 :: links.map Dh.seg ++ [Segment.make Joint.fixed 1]

/-- The two joints as exponentials. -/
def e1 : MatrixExp := ⟨.rotation, ⟨0, 0, 1⟩, 0⟩
def e2 : MatrixExp := ⟨.rotation, ⟨0, 0, 1⟩, ⟨1, 0, 0⟩⟩

/-- The whole arm. -/
noncomputable def arm : Poe := ⟨[e1, e2], ⟨⟨0, -1, 0, 1, 0, 0, 0, 0, 1⟩, ⟨1, 1, 0⟩⟩⟩

theorem chain_arm : Poe.fromChain chain = arm := by
  have hz : (⟨0, 0, 1⟩ : Vec3).normalize = ⟨0, 0, 1⟩ := normalize_of_unit (by simp [dot])
  have f1 : Dh.frame (0, 0, 1, 0) = ⟨1, ⟨1, 0, 0⟩⟩ := by
    simp [Dh.frame, dhFrame]; rfl
  have f2 : Dh.frame (90, 0, 1, 0) = ⟨⟨0, -1, 0, 1, 0, 0, 0, 0, 1⟩, ⟨0, 1, 0⟩⟩ := by
    simp [Dh.frame, dhFrame, d90]
  have h1 : (1 : Mat3).mulVec ⟨0, 0, 1⟩ = ⟨0, 0, 1⟩ := by ext <;> simp
  unfold chain
  rw [fromChain_terms]
  simp only [links, Dh.terms, f1, f2, mul_one, one_mul, Frame.one_M, Frame.one_p, h1, hz]
  rw [arm, Poe.mk.injEq]
  refine ⟨rfl, ?_⟩
  ext <;> simp

/-- The first of the points that the builder tries is on the first axis. -/
def Front (l : List Vec3) : Prop := ∃ t r, l = ⟨0, 0, t⟩ :: r

theorem far_one : ¬ EqualR 1 0 := by unfold EqualR eps; norm_num

theorem front_insert {l : List Vec3} (h : Front l) {p : Vec3} (hp : (∃ s, p = ⟨0, 0, s⟩) ∨ p.x = 1) :
    Front (insertPoint p l).1 := by
  obtain ⟨t, r, rfl⟩ := h
  unfold insertPoint
  by_cases h1 : lessV ⟨0, 0, t⟩ p
  · rw [if_pos h1]; exact ⟨t, _, rfl⟩
  · rw [if_neg h1]
    by_cases h2 : lessV p ⟨0, 0, t⟩
    · rw [if_pos h2]
      rcases hp with ⟨s, rfl⟩ | hx
      · exact ⟨s, _, rfl⟩
      · exfalso
        unfold lessV at h2
        rw [hx, if_neg far_one] at h2
        linarith
    · rw [if_neg h2]; exact ⟨t, _, rfl⟩

theorem par (a b : Vec3) : parallelAxes ⟨.rotation, ⟨0, 0, 1⟩, a⟩ ⟨.rotation, ⟨0, 0, 1⟩, b⟩ := by
  simp [parallelAxes, Vec3.Equal, EqualR, eps]

theorem points_front {rnd : ℕ → ℝ} {k k' : ℕ} {pts : List Vec3} (h : searchPoints rnd k arm = some (k', pts)) :
    Front pts := by
  have h0 : Front (addAxes arm.exps (insertPoint 0 []).1) := by
    have hp12 : parallelAxes e1 e2 := par _ _
    have hp22 : parallelAxes e2 e2 := par _ _
    simp only [arm, addAxes, List.foldl_cons, List.foldl_nil, addIntersections, List.tail_cons, hp12, hp22, true_or,
      or_true, if_true]
    have m1 : e1.motion = .rotation := rfl
    have m2 : e2.motion = .rotation := rfl
    simp only [m1, m2, ne_eq, not_true_eq_false, if_false]
    refine front_insert (front_insert ⟨0, [], rfl⟩ (Or.inl ⟨0, rfl⟩)) (Or.inr rfl)
  unfold searchPoints at h
  simp only [Option.bind_eq_bind, Option.bind_eq_some_iff, Option.pure_def, Option.some.injEq, Prod.mk.injEq] at h
  obtain ⟨⟨k1, set⟩, h1, _, rfl⟩ := h
  refine front_insert ?_ (Or.inr rfl)
  generalize addAxes arm.exps (insertPoint 0 []).1 = l at h0 h1
  have d1 : ∀ n, Front (insertPoint (drawn rnd e1 n) l).1 := fun n =>
    front_insert h0 (Or.inl ⟨rnd n, by ext <;> simp [drawn, e1]⟩)
  have d2 : ∀ l, Front l → ∀ n, Front (insertPoint (drawn rnd e2 n) l).1 := fun l hl n =>
    front_insert hl (Or.inr (by simp [drawn, e2]))
  have m1 : e1.motion = .rotation := rfl
  have m2 : e2.motion = .rotation := rfl
  simp only [arm, addRandom, m1, m2, ne_eq, not_true_eq_false, if_false] at h1
  split at h1
  · split at h1
    · rw [← (Prod.mk.inj (Option.some.inj h1)).2]
      exact d2 _ (d1 _) _
    · cases h1
  · cases h1

/-- The step found. -/
noncomputable def step (t : ℝ) : Subproblem := .pg4 0 1 e1 e2 ⟨0, 0, t⟩

theorem search_step {pts : List Vec3} (h : Front pts) : ∃ t s, searchSolutions arm.exps pts = some s ∧
    s.terms.countP (·.known) = arm.exps.length ∧ s.steps = [step t] := by
  obtain ⟨t, r, rfl⟩ := h
  have hp21 : parallelAxes e2 e1 := par _ _
  have hoff : ¬ liesOnAxis e2 ⟨0, 0, t⟩ := by
    simp [liesOnAxis, e2, Vec3.Equal, EqualR, eps]
    norm_num
  have hoff1 : ¬ liesOnAxis e2 e1.origin := by
    simp [liesOnAxis, e2, e1, Vec3.Equal, EqualR, eps]
    norm_num
  have hc : ¬ colinearAxes e2 e1 := fun h => hoff1 h.2
  have m1 : e1.motion = .rotation := rfl
  have m2 : e2.motion = .rotation := rfl
  have hs : simplify [e1, e2] 0 ⟨0, 0, t⟩ ⟨0, 0, t⟩ (refresh [⟨false, false⟩, ⟨false, false⟩]) =
      [⟨false, false⟩, ⟨false, false⟩] := by
    simp [simplify, simplifyPK1, refresh, markLeading, markFromUnknown, markWhileOnAxis, PoeTerm.isUnknown, hoff, m1, m2]
  have ht : trySolve [e1, e2] 0 ⟨0, 0, t⟩ ⟨0, 0, t⟩ [⟨false, false⟩, ⟨false, false⟩] =
      some (step t, [⟨true, false⟩, ⟨true, false⟩]) := by
    simp [trySolve, PoeTerm.open_, lastOpen, List.findIdx_cons, setKnown, m1, m2, hp21, hc, step]
  have hpass : pass [e1, e2] (⟨0, 0, t⟩ :: r) (initial 2 (⟨0, 0, t⟩ :: r)) =
      ⟨[⟨true, false⟩, ⟨true, false⟩], 0, 0, ⟨0, 0, t⟩, ⟨0, 0, t⟩, 0, [step t]⟩ := by
    have hi : initial 2 (⟨0, 0, t⟩ :: r) =
        ⟨[⟨false, false⟩, ⟨false, false⟩], 0, 0, ⟨0, 0, t⟩, ⟨0, 0, t⟩, 0, []⟩ := rfl
    rw [hi]
    unfold pass
    simp only [hs, ht]
    rfl
  refine ⟨t, ⟨[⟨true, false⟩, ⟨true, false⟩], 0, 0, ⟨0, 0, t⟩, ⟨0, 0, t⟩, 0, [step t]⟩, ?_, rfl, rfl⟩
  · have hl : arm.exps = [e1, e2] := rfl
    obtain ⟨f, hf⟩ : ∃ f, passBound arm.exps.length (⟨0, 0, t⟩ :: r : List Vec3).length = f + 1 :=
      ⟨_, (Nat.succ_pred_eq_of_pos (by simp [passBound])).symm⟩
    unfold searchSolutions
    rw [hf, hl]
    unfold searchLoop
    have hlen : [e1, e2].length = 2 := rfl
    rw [hlen, hpass]
    simp [goesOn, PoeTerm.isUnknown]

/-- Whatever is drawn, the problem of this arm has one step for both joints, and its test point is on the first
axis. -/
theorem built {rnd : ℕ → ℝ} {res : Option (IkProblem × List Subproblem)} (h : build rnd arm = some res) :
    ∃ t, res = some (⟨arm, [(step t).toStep], false⟩, [step t]) := by
  unfold build attempt at h
  simp only [Option.bind_eq_bind, Option.bind_eq_some_iff, Option.pure_def, Option.some.injEq] at h
  obtain ⟨⟨k, r⟩, ⟨⟨k', pts⟩, h1, s, h2, h3⟩, h4⟩ := h
  obtain ⟨t, s', g1, g2, g3⟩ := search_step (points_front h1)
  simp only at h2
  rw [g1, Option.some.injEq] at h2
  subst h2
  rw [if_pos g2, g3] at h3
  rw [← (Prod.mk.inj h3).2] at h4
  exact ⟨t, (Option.some.inj h4).symm⟩

/-- One pass of the only step. -/
theorem solve_step {t : ℝ} {T : Frame} {ok : Bool} {a b c d : ℝ}
    (h : (step t).solve (T * arm.tool.inv) 1 = some (ok, [[(0, a), (1, b)], [(0, c), (1, d)]])) :
    (⟨arm, [(step t).toStep], false⟩ : IkProblem).solve T [] = some (ok, [[a, b], [c, d]]) := by
  have hH : ∀ st, (⟨arm, st, false⟩ : IkProblem).transformPoint [0, 0] [.unknown, .unknown] = 1 := by
    intro st; simp [IkProblem.transformPoint, IkProblem.termFrames, arm, IkProblem.transformLoop]
  have hl : arm.exps.length = 2 := rfl
  simp [IkProblem.solve, IkProblem.stepsLoop, IkProblem.branchLoop, IkProblem.branchBody, IkProblem.initialRhs, hl, hH,
    List.replicate_succ, Subproblem.toStep, h, resizeTo, IkProblem.replicateLoop, writeAt, IkProblem.storeLoop,
    IkProblem.writePairs]

theorem normal : pg4Normal e1 e2 = ⟨1, 0, 0⟩ := by
  have h : (cross (cross e1.axis (e2.origin - e1.origin)) e1.axis).normalize = ⟨1, 0, 0⟩ := by
    rw [normalize_of_unit]
    · ext <;> simp [e1, e2]
    · simp [e1, e2, dot]
  have h' : pg4Normal e1 e2 = axisProj ⟨1, 0, 0⟩ (e2.origin - e1.origin) := by rw [← h]; rfl
  rw [h']
  ext <;> simp [e1, e2, axisProj, vectorPow2]

theorem tool_rigid : arm.tool.IsRigid := by
  constructor <;> [ext; ext; skip] <;> simp [arm, Mat3.det]

/-- The equation that the step solves: where the point of the first axis goes. -/
theorem goal_eq {q : List ℝ} {T : Frame} (hT : arm.evaluate q 1 = (true, T)) : ∃ a b, q = [a, b] ∧
    T * arm.tool.inv = e1.asFrame a * e2.asFrame b := by
  unfold Poe.evaluate at hT
  by_cases hl : arm.exps.length = q.length
  · rw [if_neg (not_not.mpr hl)] at hT
    match q, hl with
    | [a, b], _ =>
      refine ⟨a, b, rfl, ?_⟩
      rw [← (Prod.mk.inj hT).2]
      have ht : arm.tool.IsRigid := tool_rigid
      have : Poe.evalLoop arm.exps [a, b] 1 = e1.asFrame a * e2.asFrame b := by
        simp [Poe.evalLoop, arm]
      rw [this, mul_assoc, ht.mul_inv, mul_one]
  · rw [if_pos hl] at hT
    cases hT

/-- With the second joint at zero the point does not move: the step does not see the first joint. -/
theorem solve_stretched (t a : ℝ) :
    (step t).solve (e1.asFrame a * e2.asFrame 0) 1 = some (true, [[(0, 0), (1, 0)], [(0, 0), (1, 0)]]) := by
  have hact : (e1.asFrame a * e2.asFrame 0).act ⟨0, 0, t⟩ = ⟨0, 0, t⟩ := by
    ext <;> simp [Frame.act, MatrixExp.asFrame, e1, e2, Mat3.rot2]
  show pg4 0 1 e1 e2 ⟨0, 0, t⟩ _ 1 = _
  unfold pg4
  rw [normal, hact]
  norm_num [Frame.act, axisRej, axisProj, vectorPow2, e1, e2, Vec3.norm, dot, Vec3.Equal, EqualR, eps, angleAbout, atan2_zero, atan2_ahead, Angles.norm_zero]

/-- With the second joint at a quarter of a turn there is another way to bring the point where it goes. -/
theorem solve_quarter (t : ℝ) : (step t).solve (e1.asFrame 0 * e2.asFrame (π / 2)) 1 =
    some (true, [[(0, -(π / 2)), (1, -(π / 2))], [(0, 0), (1, π / 2)]]) := by
  have hact : (e1.asFrame 0 * e2.asFrame (π / 2)).act ⟨0, 0, t⟩ = ⟨1, -1, t⟩ := by
    ext <;> simp [Frame.act, MatrixExp.asFrame, e1, e2, Mat3.rot2]
  show pg4 0 1 e1 e2 ⟨0, 0, t⟩ _ 1 = _
  unfold pg4
  rw [normal, hact]
  norm_num [Frame.act, axisRej, axisProj, vectorPow2, e1, e2, Vec3.norm, dot, Vec3.Equal, EqualR, eps, angleAbout, atan2_zero, atan2_ahead,
    Angles.norm_zero, atan2_up, atan2_down, norm_up, norm_down]
  exact big_two

end KD.Planar
