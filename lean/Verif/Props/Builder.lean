import Verif.Screw.BuilderSearch
import Verif.Props.IkProblem

/-!
# Properties C18 and C19: the IK problem builder

`Builder.build rnd poe` is `none` if the call does not return, `some none` for a null pointer,
`some (some (problem, subproblems))` otherwise. `rnd` is the sequence of numbers drawn by
`KDL::random`.
-/

namespace KD

open Builder

open scoped Classical

/-! ## C19 -/

/-- Whatever the geometry and the characteristic points, the search loop ends after a number of
passes bounded by the number of joints and points: its result is the same for every larger
allowance of passes. -/
theorem C19_search_terminates (es : List MatrixExp) (pts : List Vec3) (h : pts ≠ []) :
    ∃ s, ∀ allowance, (es.length + 1) * (pts.length * pts.length + pts.length + 1) ≤ allowance →
      searchLoop es pts allowance (initial es.length pts) = some s := by
  obtain ⟨s, _, _, _, h4⟩ := searchSolutions_total es h
  exact ⟨s, h4⟩

/-- `build` returns, provided that the random source keeps producing enough values that
differ by more than the tolerance. -/
theorem C19_build_returns (rnd : ℕ → ℝ) (poe : Poe) (hu : ∀ e ∈ poe.exps, e.Unit)
    (ht : poe.tool.IsRigid) (hr : Spread rnd (1 + poe.exps.length * (poe.exps.length + 2))) :
    ∃ r, build rnd poe = some r := by
  have hatt : ∀ (poe' : Poe) (k : ℕ), (∀ e ∈ poe'.exps, e.Unit) →
      poe'.exps.length = poe.exps.length → ∃ r, attempt rnd k poe' = some r := by
    intro poe' k hu' hl
    obtain ⟨k', pts, hp, hne⟩ := searchPoints_total (poe := poe') (by rw [hl]; exact hr) hu' k
    obtain ⟨s, hs, _⟩ := searchSolutions_total poe'.exps hne
    exact ⟨_, by simp only [attempt, hp, hs, Option.bind_eq_bind, Option.bind_some]; rfl⟩
  obtain ⟨⟨k1, r1⟩, h1⟩ := hatt poe 0 hu rfl
  obtain ⟨⟨k2, r2⟩, h2⟩ := hatt poe.reverseSelf k1 (reverseSelf_unit hu ht) (by simp [Poe.reverseSelf])
  unfold build
  rw [h1]
  cases r1 with
  | some subs => exact ⟨_, rfl⟩
  | none =>
    simp only [Option.bind_eq_bind, Option.bind_some]
    rw [h2]
    cases r2 with
    | some subs => exact ⟨_, rfl⟩
    | none => exact ⟨_, rfl⟩

/-- A problem returned by `build` is about the POE or its reverse, and the joint ids of its
subproblems are a permutation of all the joints. Each subproblem is about the screws at its
own joints, of the right kind and geometry. -/
theorem C19_covers_joints_exactly_once (rnd : ℕ → ℝ) (poe : Poe) (pb : IkProblem)
    (subs : List Subproblem) (h : build rnd poe = some (some (pb, subs))) :
    pb.steps = subs.map Subproblem.toStep ∧
    ((pb.reversed = false ∧ pb.poe = poe) ∨ (pb.reversed = true ∧ pb.poe = poe.reverseSelf)) ∧
    pb.poe.exps.length = poe.exps.length ∧
    (subs.flatMap Subproblem.ids).Perm (List.range poe.exps.length) ∧
    ∀ sp ∈ subs, Subproblem.Uses pb.poe.exps sp ∧ Subproblem.Chosen sp := by
  unfold build at h
  simp only [Option.bind_eq_bind, Option.bind_eq_some_iff] at h
  obtain ⟨⟨k, r⟩, h1, h⟩ := h
  cases r with
  | some subs' =>
    simp only [Option.pure_def, Option.some.injEq, Prod.mk.injEq] at h
    obtain ⟨rfl, rfl⟩ := h
    obtain ⟨a, b⟩ := attempt_spec h1 _ rfl
    exact ⟨rfl, Or.inl ⟨rfl, rfl⟩, rfl, a, b⟩
  | none =>
    simp only [Option.bind_eq_some_iff] at h
    obtain ⟨⟨k', r'⟩, h2, h⟩ := h
    cases r' with
    | some subs' =>
      simp only [Option.pure_def, Option.some.injEq, Prod.mk.injEq] at h
      obtain ⟨rfl, rfl⟩ := h
      obtain ⟨a, b⟩ := attempt_spec h2 _ rfl
      have hl : poe.reverseSelf.exps.length = poe.exps.length := by simp [Poe.reverseSelf]
      rw [hl] at a
      exact ⟨rfl, Or.inr ⟨rfl, rfl⟩, hl, a, b⟩
    | none => simp at h

/-- Geometry with a margin: rotation axes that pass the tolerance test for parallelism are
parallel, and then they coincide or are at least two tolerances apart. -/
def Margin (es : List MatrixExp) : Prop :=
  ∀ e1 ∈ es, ∀ e2 ∈ es, e1.motion = .rotation → e2.motion = .rotation → parallelAxes e2 e1 →
    Vec3.cross e2.axis e1.axis = 0 ∧
    (Vec3.cross (e1.origin - e2.origin) e2.axis = 0 ∨
      2 * eps ≤ (Vec3.cross (e1.origin - e2.origin) e2.axis).norm)

theorem not_parallel_cross {e1 e2 : MatrixExp} (h : ¬ parallelAxes e2 e1) :
    Vec3.cross e2.axis e1.axis ≠ 0 := by
  intro hc
  apply h
  unfold parallelAxes
  rw [hc]
  exact Vec3.Equal.refl 0

theorem pg4_posed {e1 e2 : MatrixExp} (hu1 : e1.Unit) (hu2 : e2.Unit)
    (hc : Vec3.cross e2.axis e1.axis = 0)
    (hd : 2 * eps ≤ (Vec3.cross (e1.origin - e2.origin) e2.axis).norm) :
    ¬ Vec3.Equal 0 (pg4Normal e1 e2) := by
  have hu1' : Vec3.dot e1.axis e1.axis = 1 := hu1
  have hu2' : Vec3.dot e2.axis e2.axis = 1 := hu2
  -- the axes are equal up to sign
  have hsign : e2.axis = Vec3.dot e1.axis e2.axis • e1.axis := by
    have := Vec3.cross_cross e1.axis e2.axis e1.axis
    rw [hc, Vec3.cross_zero, hu1'] at this
    have hx := congrArg Vec3.x this
    have hy := congrArg Vec3.y this
    have hz := congrArg Vec3.z this
    ext <;> simp at hx hy hz ⊢ <;> linarith
  have hs2 : Vec3.dot e1.axis e2.axis ^ 2 = 1 := by
    have : Vec3.dot e2.axis e2.axis = Vec3.dot e1.axis e2.axis ^ 2 := by
      conv_lhs => rw [hsign]
      rw [Vec3.dot_smul_left, Vec3.dot_smul_right, hu1']; ring
    rw [← this]; exact hu2'
  set D := e2.origin - e1.origin with hD
  set s := Vec3.dot e1.axis e2.axis with hs
  set w := Vec3.cross (Vec3.cross e1.axis D) e1.axis with hw
  have hwr : w = axisRej e1.axis D := by
    rw [hw, Vec3.cross_cross', hu1', axisRej_eq, Vec3.dot_comm D]
    ext <;> simp
  have hnorm2 : Vec3.dot w w =
      Vec3.dot (Vec3.cross (e1.origin - e2.origin) e2.axis)
        (Vec3.cross (e1.origin - e2.origin) e2.axis) := by
    have e1' : e1.origin - e2.origin = -D := by rw [hD]; ext <;> simp
    rw [e1', hwr, axisRej_eq]
    have l1 := Vec3.lagrange (-D) e2.axis
    rw [l1, hu2']
    rw [hsign, Vec3.dot_smul_right]
    simp only [Vec3.dot_neg_left, Vec3.dot_neg_right, Vec3.dot_sub_left, Vec3.dot_sub_right,
      Vec3.dot_smul_left, Vec3.dot_smul_right, hu1', Vec3.dot_comm D e1.axis]
    linear_combination ((Vec3.dot e1.axis D) ^ 2) * hs2
  have hwn : 2 * eps ≤ w.norm := by
    have : w.norm = (Vec3.cross (e1.origin - e2.origin) e2.axis).norm := Vec3.norm_eq_of_sq hnorm2
    rw [this]; exact hd
  have heps := eps_pos
  have hpos : 0 < w.norm := by linarith
  have hdotw : Vec3.dot w D = w.norm ^ 2 := by
    rw [Vec3.norm_sq, hwr, axisRej_eq]
    simp only [Vec3.dot_sub_left, Vec3.dot_sub_right, Vec3.dot_smul_left, Vec3.dot_smul_right,
      hu1', Vec3.dot_comm D e1.axis]
    ring
  have hn : pg4Normal e1 e2 = w := by
    unfold pg4Normal
    simp only []
    rw [← hD, ← hw]
    have hnz : w.normalize = (1 / w.norm) • w := by
      unfold Vec3.normalize; rw [if_neg (by linarith)]
    rw [hnz, axisProj_eq, Vec3.dot_smul_left, hdotw]
    have : (1 / w.norm * w.norm ^ 2) • ((1 / w.norm) • w) = (1 : ℝ) • w := by
      ext <;> simp <;> field_simp
    rw [this]
    ext <;> simp
  rw [hn]
  rintro ⟨hx, hy, hz⟩
  simp only [EqualR, Vec3.zero_x, Vec3.zero_y, Vec3.zero_z, zero_sub, abs_neg] at hx hy hz
  have hsq : ∀ a : ℝ, |a| < eps → a * a ≤ eps ^ 2 := by
    intro a ha
    rw [← abs_mul_abs_self a, sq]
    exact mul_le_mul ha.le ha.le (abs_nonneg _) heps.le
  have h3 : w.norm ^ 2 ≤ 3 * eps ^ 2 := by
    rw [Vec3.norm_sq, Vec3.dot]
    have := hsq _ hx; have := hsq _ hy; have := hsq _ hz
    linarith
  nlinarith

/-- With such a margin the problem built meets all the hypotheses of C15, C16 and C17. -/
theorem C19_built_problem_wellformed (rnd : ℕ → ℝ) (poe : Poe) (hu : ∀ e ∈ poe.exps, e.Unit)
    (ht : poe.tool.IsRigid) (pb : IkProblem) (subs : List Subproblem)
    (h : build rnd poe = some (some (pb, subs))) (hm : Margin pb.poe.exps) : pb.WellFormed subs := by
  obtain ⟨h1, h2, h3, h4, h5⟩ := C19_covers_joints_exactly_once rnd poe pb subs h
  have hunit : ∀ e ∈ pb.poe.exps, e.Unit := by
    rcases h2 with ⟨_, h2⟩ | ⟨_, h2⟩ <;> rw [h2]
    · exact hu
    · exact reverseSelf_unit hu ht
  have htool : pb.poe.tool.IsRigid := by
    rcases h2 with ⟨_, h2⟩ | ⟨_, h2⟩ <;> rw [h2]
    · exact ht
    · exact ht.inv
  refine ⟨h1, ?_, ?_, ?_, hunit, htool⟩
  · intro s hs
    obtain ⟨hus, hch⟩ := h5 s hs
    cases s with
    | pk1 => trivial
    | pk3 => trivial
    | pg1 => trivial
    | pg3 => trivial
    | pk2 i j e1 e2 p r =>
      have u1 := hunit e1 (List.mem_of_getElem? hus.1)
      have u2 := hunit e2 (List.mem_of_getElem? hus.2)
      have hne := not_parallel_cross hch.2.2.1
      intro hcon
      have hl := Vec3.lagrange e2.axis e1.axis
      rw [show Vec3.dot e2.axis e2.axis = 1 from u2, show Vec3.dot e1.axis e1.axis = 1 from u1,
        Vec3.dot_comm e2.axis e1.axis, hcon] at hl
      exact hne (Vec3.dot_self_eq_zero (by rw [hl]; ring))
    | pg2 i j e1 e2 p => exact fun hcon => not_parallel_cross hch.2.2 (Vec3.norm_eq_zero hcon)
    | pg4 i j e1 e2 p =>
      have m1 := List.mem_of_getElem? hus.1
      have m2 := List.mem_of_getElem? hus.2
      obtain ⟨r1, r2, hp, hnc⟩ := hch
      obtain ⟨hc, hd⟩ := hm e1 m1 e2 m2 r1 r2 hp
      refine pg4_posed (hunit e1 m1) (hunit e2 m2) hc (hd.resolve_left fun h0 => ?_)
      exact hnc ⟨hp, by unfold liesOnAxis; rw [h0]; exact Vec3.Equal.refl 0⟩
  · intro s hs i hi
    rw [h3, ← List.mem_range]
    exact h4.mem_iff.mp (List.mem_flatMap.mpr ⟨s, hs, hi⟩)
  · exact h4.nodup_iff.mpr List.nodup_range

/-- Integers are a suitable random source; so is any source that covers an interval. -/
theorem spread_nat (N : ℕ) : Spread (fun n => (n : ℝ)) N := by
  intro k
  refine ⟨fun i => k + i.val, fun i => Nat.le_add_right _ _, fun i j hij => ?_⟩
  have hne : (i.val : ℤ) - (j.val : ℤ) ≠ 0 := by
    intro h
    apply hij
    ext
    omega
  have h1 : (1 : ℝ) ≤ |((i.val : ℤ) - (j.val : ℤ) : ℤ)| := by
    exact_mod_cast Int.one_le_abs hne
  have h2 : (((k + i.val : ℕ) : ℝ) - ((k + j.val : ℕ) : ℝ)) = (((i.val : ℤ) - (j.val : ℤ) : ℤ) : ℝ) := by
    push_cast; ring
  simp only [h2]
  have : 4 * eps ≤ 1 := by norm_num [eps]
  have h3 : ((|((i.val : ℤ) - (j.val : ℤ))| : ℤ) : ℝ) = |(((i.val : ℤ) - (j.val : ℤ) : ℤ) : ℝ)| := by
    push_cast; rfl
  linarith [h3]

/-- A linear axis along `x` with the tool one unit away. -/
def linearAxis : Poe := ⟨[⟨.translation, ⟨1, 0, 0⟩, 0⟩], ⟨1, ⟨1, 0, 0⟩⟩⟩

theorem linearAxis_build (rnd : ℕ → ℝ) :
    build rnd linearAxis = some (some (⟨linearAxis,
      [(Subproblem.pg1 0 ⟨.translation, ⟨1, 0, 0⟩, 0⟩ 0).toStep], false⟩,
      [.pg1 0 ⟨.translation, ⟨1, 0, 0⟩, 0⟩ 0])) := by
  have heq : ¬ EqualR 0 1 := by norm_num [EqualR, eps]
  have hp : searchPoints rnd 0 linearAxis = some (0, [0, ⟨1, 0, 0⟩]) := by
    simp [searchPoints, linearAxis, addRandom, addAxes, insertPoint, lessV, heq]
  have hpass : pass linearAxis.exps [0, ⟨1, 0, 0⟩] (initial 1 [0, ⟨1, 0, 0⟩]) =
      ⟨[⟨true, false⟩], 0, 0, 0, 0, 0, [.pg1 0 ⟨.translation, ⟨1, 0, 0⟩, 0⟩ 0]⟩ := by
    simp [pass, initial, linearAxis, refresh, markLeading, simplify, simplifyPK1, markFromUnknown,
      markWhileOnAxis, PoeTerm.isUnknown, simplifyPG1, lastOpen, PoeTerm.open_, trySolve, setKnown]
  have hs : searchSolutions linearAxis.exps [0, ⟨1, 0, 0⟩] =
      some ⟨[⟨true, false⟩], 0, 0, 0, 0, 0, [.pg1 0 ⟨.translation, ⟨1, 0, 0⟩, 0⟩ 0]⟩ := by
    have hb : passBound 1 2 = 13 + 1 := rfl
    unfold searchSolutions
    rw [show linearAxis.exps.length = 1 from rfl,
      show ([0, ⟨1, 0, 0⟩] : List Vec3).length = 2 from rfl, hb]
    unfold searchLoop
    simp only [hpass]
    simp [goesOn, PoeTerm.isUnknown]
  simp only [build, attempt, hp, hs, Option.bind_eq_bind, Option.bind_some]
  simp [linearAxis]

/-- The hypotheses of C19 are met by a POE for which a problem is built. -/
example : (∀ e ∈ linearAxis.exps, e.Unit) ∧ linearAxis.tool.IsRigid ∧
    Spread (fun n => (n : ℝ)) (1 + linearAxis.exps.length * (linearAxis.exps.length + 2)) ∧
    Margin linearAxis.exps ∧ ∃ pb subs, build (fun n => (n : ℝ)) linearAxis = some (some (pb, subs)) := by
  refine ⟨?_, Mat3.IsRot.one, spread_nat _, ?_, _, _, linearAxis_build _⟩
  · intro e he
    simp [linearAxis] at he
    rw [he]; norm_num [MatrixExp.Unit, Vec3.dot]
  · intro e1 h1 e2 h2 hr
    simp [linearAxis] at h1
    rw [h1] at hr
    simp at hr

/-! ## C18 -/

/-- C18 as stated fails: for a single linear axis the builder uses the first Pardos-Gotor
subproblem, which reports that any target is reachable. Here the target is one unit
off the axis: `solve` returns true and forward kinematics does not reach it. -/
theorem C18_reachable_flag_not_sound :
    ∃ (rnd : ℕ → ℝ) (pb : IkProblem) (subs : List Subproblem) (T : Frame) (q : List ℝ),
      build rnd linearAxis = some (some (pb, subs)) ∧ T.IsRigid ∧
      pb.solve T [] = some (true, [q]) ∧ linearAxis.evaluate q 1 ≠ (true, T) := by
  refine ⟨fun n => n, _, _, ⟨1, ⟨1, 1, 0⟩⟩, [0], linearAxis_build _, Mat3.IsRot.one, ?_, ?_⟩
  · have hsolve : ∀ F H : Frame, (Subproblem.pg1 0 ⟨.translation, ⟨1, 0, 0⟩, 0⟩ 0).toStep.solve F H =
        some (true, [[(0, Vec3.dot ⟨1, 0, 0⟩ (F.act 0 - H.act 0))]]) := fun F H => rfl
    simp [IkProblem.solve, IkProblem.stepsLoop, IkProblem.branchLoop, IkProblem.branchBody, hsolve,
      linearAxis, IkProblem.transformPoint, IkProblem.storeLoop, IkProblem.writePairs, writeAt,
      IkProblem.transformLoop, IkProblem.termFrames]
    simp [IkProblem.initialRhs, Frame.act, Vec3.dot]
  · intro h
    have h2 := congrArg (fun r : Bool × Frame => r.2.p.y) h
    simp [Poe.evaluate, linearAxis, Poe.evalLoop, MatrixExp.asFrame] at h2

end KD
