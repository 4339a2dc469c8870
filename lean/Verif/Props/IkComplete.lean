import Verif.Screw.IkComplete
import Verif.Props.IkReach
import Mathlib.Tactic.IntervalCases

/-!
# Property C78

Whatever posture an arm is in, asking for the pose of its tool gives that posture back as one of the
solutions, up to full turns, as long as no step of the solution is singular there (`Poised`, in
`Verif.Screw.IkComplete`).
-/

namespace KD

open Vec3 IkProblem Builder

/-- Sizes and goal of a built problem, in terms of the arm it was built for. -/
theorem goal_of_posture {poe : Poe} (hu : ∀ e ∈ poe.exps, e.Unit) (ht : poe.tool.IsRigid) {pb : IkProblem}
    (h2 : (pb.reversed = false ∧ pb.poe = poe) ∨ (pb.reversed = true ∧ pb.poe = poe.reverseSelf))
    {q : List ℝ} {out T : Frame} (hT : poe.evaluate q out = (true, T)) :
    q.length = poe.exps.length ∧ Poe.expProd pb.poe.exps (pb.values q) = pb.goal T * pb.poe.tool.inv := by
  have hq : q.length = poe.exps.length := by
    by_contra hne
    unfold Poe.evaluate at hT
    rw [if_pos (by omega)] at hT
    cases hT
  refine ⟨hq, ?_⟩
  have hev : poe.evaluate q out = (true, Poe.expProd poe.exps q * poe.tool) :=
    C03_evaluate_is_product poe q out hq.symm
  have hFK : T = Poe.expProd poe.exps q * poe.tool := by
    rw [hT] at hev
    exact (Prod.mk.inj hev).2
  rcases h2 with ⟨hr, hp⟩ | ⟨hr, hp⟩
  · simp only [values, goal, hr, hp, Bool.false_eq_true, if_false]
    rw [hFK, mul_assoc, ht.mul_inv, mul_one]
  · have hrev := C05_reverse_inverts poe q out hu ht hq.symm
    rw [C03_evaluate_is_product _ _ _ (by simpa [Poe.reverseSelf] using hq.symm), hT] at hrev
    have hrev' : Poe.expProd poe.reverseSelf.exps (q.reverse.map (- ·)) * poe.reverseSelf.tool = T.inv :=
      congrArg Prod.snd hrev
    have htr : poe.reverseSelf.tool.IsRigid := ht.inv
    have hv : pb.values q = q.reverse.map (- ·) := by simp [values, hr]
    simp only [hv, goal, hr, hp, if_true]
    rw [← hrev', mul_assoc, htr.mul_inv, mul_one]

/-- The posture `q₀` of the arm is found again from the pose of the tool it gives: one of the returned
joint arrays has the same values, up to full turns of the joints that rotate, and reaches the pose
exactly. The steps of the problem that was built must be poised there. -/
theorem C78_posture_found_partial (rnd : ℕ → ℝ) (poe : Poe) (hu : ∀ e ∈ poe.exps, e.Unit)
    (ht : poe.tool.IsRigid) (pb : IkProblem) (subs : List Subproblem)
    (h : build rnd poe = some (some (pb, subs))) (hm : Margin pb.poe.exps)
    (q₀ : List ℝ) (T : Frame) (hT : poe.evaluate q₀ 1 = (true, T))
    (hp : ∀ i s, subs[i]? = some s →
      Poised pb.poe.exps ((subs.take i).flatMap Subproblem.ids) (fun j => (pb.values q₀).getD j 0) s)
    (out : List (List ℝ)) :
    ∃ ok sols, pb.solve T out = some (ok, sols) ∧ ∃ q ∈ sols, q.length = q₀.length ∧
      (∀ (j : ℕ) (e : MatrixExp) (a b : ℝ), poe.exps[j]? = some e → q[j]? = some a → q₀[j]? = some b →
        SameValue e a b) ∧
      poe.evaluate q 1 = (true, T) := by
  have hwf := C19_built_problem_wellformed rnd poe hu ht pb subs h hm
  obtain ⟨_, h2, h3, h4, h5⟩ := C19_covers_joints_exactly_once rnd poe pb subs h
  obtain ⟨hq, hgoal⟩ := goal_of_posture hu ht h2 hT
  obtain ⟨ok, sols, hs, _⟩ := solve_eq hwf.stepsPair hwf.stepsOK T out
  obtain ⟨q, hqs, hql, hsame⟩ := solve_finds hwf (fun s hs => (h5 s hs).1) hs
    (by rw [values_length, hq, h3]) hgoal hp
  have hj : ∀ j, j < poe.exps.length → j ∈ subs.flatMap Subproblem.ids := fun j hj =>
    h4.mem_iff.mpr (List.mem_range.mpr hj)
  have hvals : ∀ (j : ℕ) (e : MatrixExp) (a b : ℝ), poe.exps[j]? = some e → q[j]? = some a → q₀[j]? = some b →
      SameValue e a b := by
    intro j e a b he ha hb
    have hjl := (List.getElem?_eq_some_iff.mp he).1
    rcases h2 with ⟨hr, hpp⟩ | ⟨hr, hpp⟩
    · have := hsame j (hj j hjl) e (by rw [hpp]; exact he)
      simpa [val, values, hr, List.getD, ha, hb] using this
    · have hlen : poe.reverseSelf.exps.length = poe.exps.length := by rw [← hpp, h3]
      have he' : ∃ e', pb.poe.exps[poe.exps.length - 1 - j]? = some e' ∧ e'.motion = e.motion := by
        refine ⟨e.changeBase poe.tool.inv, ?_, ?_⟩
        · rw [hpp]
          simp only [Poe.reverseSelf]
          rw [List.getElem?_reverse (by simp; omega), List.length_map,
            show poe.exps.length - 1 - (poe.exps.length - 1 - j) = j by omega, List.getElem?_map, he]
          rfl
        · unfold MatrixExp.changeBase
          cases e.motion <;> rfl
      obtain ⟨e', he', hmot⟩ := he'
      have hv := hsame (poe.exps.length - 1 - j) (hj _ (by omega)) e' he'
      have hget : ∀ (y : List ℝ) (c : ℝ), y.length = poe.exps.length → y[j]? = some c →
          (pb.values y).getD (poe.exps.length - 1 - j) 0 = -c := by
        intro y c hy hc
        rw [List.getD, values_get (by rw [hy, h3]) (by omega), termValue, if_pos hr, h3,
          show poe.exps.length - 1 - (poe.exps.length - 1 - j) = j by omega, hc]
        rfl
      rw [val, hget q a (by omega) ha, hget q₀ b (by omega) hb] at hv
      have := hv.neg
      rw [neg_neg, neg_neg] at this
      unfold SameValue at *
      rw [← hmot]; exact this
  refine ⟨ok, sols, hs, q, hqs, by rw [hql, h3, hq], hvals, ?_⟩
  rw [← hT, C03_evaluate_is_product poe q 1 (by rw [hql, h3]), C03_evaluate_is_product poe q₀ 1 hq.symm]
  congr 3
  apply List.ext_getElem?
  intro j
  simp only [List.getElem?_zipWith]
  cases he : poe.exps[j]? with
  | none => rfl
  | some e =>
    have hjl := (List.getElem?_eq_some_iff.mp he).1
    have ha := List.getElem?_eq_getElem (l := q) (i := j) (by omega)
    have hb := List.getElem?_eq_getElem (l := q₀) (i := j) (by omega)
    rw [ha, hb]
    exact congrArg some (hvals j e _ _ he ha hb).asFrame

/-- The same for a problem put together by hand: if the values `x` of its POE reach the goal and its
steps are poised there, one of the returned arrays has those values. -/
theorem C78_posture_found_by_hand_partial (pb : IkProblem) (subs : List Subproblem) (hwf : pb.WellFormed subs)
    (huses : ∀ s ∈ subs, Subproblem.Uses pb.poe.exps s) (x : List ℝ) (T : Frame)
    (hT : pb.poe.evaluate x 1 = (true, pb.goal T))
    (hp : ∀ i s, subs[i]? = some s →
      Poised pb.poe.exps ((subs.take i).flatMap Subproblem.ids) (fun j => x.getD j 0) s)
    (out : List (List ℝ)) :
    ∃ ok sols, pb.solve T out = some (ok, sols) ∧ ∃ q ∈ sols, q.length = x.length ∧
      ∀ (j : ℕ) (e : MatrixExp) (a b : ℝ), pb.poe.exps[j]? = some e → j ∈ subs.flatMap Subproblem.ids →
        pb.termValue q j = some a → x[j]? = some b → SameValue e a b := by
  have hx : x.length = pb.poe.exps.length := by
    by_contra hne
    unfold Poe.evaluate at hT
    rw [if_pos (by omega)] at hT
    cases hT
  obtain ⟨ok, sols, hs, _⟩ := solve_eq hwf.stepsPair hwf.stepsOK T out
  have hev : pb.poe.evaluate x 1 = (true, Poe.expProd pb.poe.exps x * pb.poe.tool) :=
    C03_evaluate_is_product pb.poe x 1 hx.symm
  rw [hT] at hev
  have hgoal : Poe.expProd pb.poe.exps x = pb.goal T * pb.poe.tool.inv := by
    rw [(Prod.mk.inj hev).2, mul_assoc, hwf.tool.mul_inv, mul_one]
  obtain ⟨q, hqs, hql, hsame⟩ := solve_finds hwf huses hs hx hgoal hp
  refine ⟨ok, sols, hs, q, hqs, by rw [hql, hx], fun j e a b he hj ha hb => ?_⟩
  have := hsame j hj e he
  rw [val_eq hql (List.getElem?_eq_some_iff.mp he).1 ha, List.getD, hb] at this
  exact this

/-! ### Cases that meet the hypotheses -/

/-- On the arm with three joints of `Verif.Props.IkReach` every posture qualifies, except those with a
joint near half a turn. -/
theorem elbow_poised (x : ℕ → ℝ) (hx : ∀ j, j < 3 → OffHalfTurn (x j)) :
    ∀ i s, elbowSteps[i]? = some s →
      Poised elbowArm.exps ((elbowSteps.take i).flatMap Subproblem.ids) x s := by
  intro i s hs
  have hi : i < 3 := (List.getElem?_eq_some_iff.mp hs).1
  interval_cases i
  · simp [elbowSteps] at hs
    subst hs
    refine ⟨0, 0, 0, 1, 3, le_rfl, le_rfl, rfl, ⟨le_rfl, by omega, by omega, Or.inl ⟨rfl, by simp⟩, by simp,
      by simp, fun j h1 h2 => by simp; omega⟩, ?_, fun j e h1 h2 => by omega, rfl, hx 0 (by omega), ?_⟩
    · intro j e h1 h2 he
      interval_cases j
      · simp [elbowArm] at he
        subst he
        exact ⟨rfl, 0, by ext <;> simp [Subproblem.point]⟩
      · simp [elbowArm] at he
        subst he
        exact ⟨rfl, 0, by ext <;> simp [Subproblem.point]⟩
    · rw [seg_nil (by omega), Frame.act_one]
      simp [axisDist, Subproblem.point, axisRej_eq, Vec3.norm, dot]
  · simp [elbowSteps] at hs
    subst hs
    refine ⟨1, 1, 1, 2, 3, le_rfl, le_rfl, rfl, ⟨le_rfl, by omega, by omega,
      Or.inl ⟨rfl, by simp [elbowSteps, elbowArm, Subproblem.ids]⟩, by simp [elbowSteps, Subproblem.ids],
      by simp [elbowSteps, Subproblem.ids]; omega, fun j h1 h2 => by simp [elbowSteps, Subproblem.ids]; omega⟩,
      ?_, fun j e h1 h2 => by omega, rfl, hx 1 (by omega), ?_⟩
    · intro j e h1 h2 he
      interval_cases j
      simp [elbowArm] at he
      subst he
      exact ⟨rfl, -1, by ext <;> simp [Subproblem.point]⟩
    · rw [seg_nil (by omega), Frame.act_one]
      simp [axisDist, Subproblem.point, axisRej_eq, Vec3.norm, dot]
  · simp [elbowSteps] at hs
    subst hs
    refine ⟨2, 2, 2, 3, 3, le_rfl, le_rfl, rfl, ⟨le_rfl, by omega, by omega,
      Or.inl ⟨rfl, by simp [elbowSteps, elbowArm, Subproblem.ids]⟩,
      by simp [elbowSteps, Subproblem.ids]; omega,
      by simp [elbowSteps, Subproblem.ids]; omega, fun j h1 h2 => by omega⟩,
      fun j e h1 h2 => by omega, fun j e h1 h2 => by omega, rfl, hx 2 (by omega), ?_⟩
    rw [seg_nil (by omega), Frame.act_one]
    simp [axisDist, Subproblem.point, axisRej_eq, Vec3.norm, dot]

theorem elbow_unit : ∀ e ∈ elbowArm.exps, e.Unit := by
  intro e he
  simp [elbowArm] at he
  rcases he with rfl | rfl | rfl <;> norm_num [MatrixExp.Unit, Vec3.dot]

theorem elbow_margin : Margin elbowArm.exps := by
  have h10 : ¬ EqualR 1 0 := by norm_num [EqualR, eps]
  have hm : ¬ EqualR (-1) 0 := by norm_num [EqualR, eps]
  intro e1 h1 e2 h2 _ _ hp
  simp [elbowArm] at h1 h2
  rcases h1 with rfl | rfl | rfl <;> rcases h2 with rfl | rfl | rfl <;>
    simp [parallelAxes, cross, Vec3.Equal, h10, hm, EqualR.refl] at hp ⊢ <;> exact ⟨rfl, Or.inl rfl⟩

/-- Inverse kinematics of that arm find every such posture. -/
example (a b c : ℝ) (ha : OffHalfTurn a) (hb : OffHalfTurn b) (hc : OffHalfTurn c) :
    ∃ pb T ok sols, build (fun _ => 1) elbowArm = some (some (pb, elbowSteps)) ∧
      elbowArm.evaluate [a, b, c] 1 = (true, T) ∧ pb.solve T [] = some (ok, sols) ∧
      ∃ q ∈ sols, ∃ a' b' c', q = [a', b', c'] ∧ Turns a' a ∧ Turns b' b ∧ Turns c' c := by
  obtain ⟨ok, sols, h1, q, h2, h3, h4, _⟩ := C78_posture_found_partial (fun _ => 1) elbowArm elbow_unit
    Mat3.IsRot.one _ _ elbow_build elbow_margin [a, b, c] _ (C03_evaluate_is_product elbowArm _ _ rfl)
    (elbow_poised _ (by
      intro j hj
      interval_cases j
      · exact ha
      · exact hb
      · exact hc)) []
  refine ⟨_, _, ok, sols, elbow_build, C03_evaluate_is_product elbowArm _ _ rfl, h1, q, h2, ?_⟩
  match q, h3 with
  | [a', b', c'], _ =>
    exact ⟨a', b', c', rfl, h4 0 _ a' a rfl rfl rfl, h4 1 _ b' b rfl rfl rfl, h4 2 _ c' c rfl rfl rfl⟩

/-- A turn of one radian is far from half a turn. -/
example : OffHalfTurn 1 := by
  intro n h
  exfalso
  have h2 := Real.two_le_pi
  have h4 := Real.pi_le_four
  have he : eps < 1 := by norm_num [eps]
  obtain ⟨h5, h6⟩ := abs_lt.mp h
  rcases le_or_gt 0 n with hn | hn
  · have : (0 : ℝ) ≤ n := by exact_mod_cast hn
    nlinarith
  · have : (n : ℝ) ≤ -1 := by exact_mod_cast (by omega : n ≤ -1)
    nlinarith

/-- The planar arm with two joints, the last one solved first from the distance: every posture that is
neither near half a turn nor near stretched or folded. -/
example (a b : ℝ) (ha : OffHalfTurn a) (hb : OffHalfTurn b) (hs : |Real.cos b| ≤ 1 - eps) :
    ∃ T ok sols, twoJointArm.poe.evaluate [a, b] 1 = (true, T) ∧ twoJointArm.solve T [] = some (ok, sols) ∧
      ∃ q ∈ sols, ∃ a' b', q = [a', b'] ∧ Turns a' a ∧ Turns b' b := by
  have hev := C03_evaluate_is_product twoJointArm.poe [a, b] 1 rfl
  obtain ⟨ok, sols, h1, q, h2, h3, h4⟩ := C78_posture_found_by_hand_partial twoJointArm _ twoJointArm_wf
    (by
      intro s hs
      simp at hs
      rcases hs with rfl | rfl <;> rfl) [a, b] _ hev
    (by
      intro i s hs'
      have hi : i < 2 := (List.getElem?_eq_some_iff.mp hs').1
      interval_cases i
      · simp at hs'
        subst hs'
        refine ⟨0, 1, 1, 2, 2, by omega, le_rfl, rfl, ⟨by omega, by omega, le_rfl, Or.inl ⟨rfl, by simp⟩, by simp,
          by simp, fun j h1 h2 => by omega⟩, fun j e h1 h2 => by omega, ?_, rfl, hb, ?_, ?_, ?_⟩
        · intro j e h1 h2 he
          interval_cases j
          simp [twoJointArm] at he
          subst he
          exact ⟨rfl, _, rfl, 0, by ext <;> simp⟩
        · rw [seg_nil (by omega), Frame.act_one]
          norm_num [axisDist, Subproblem.point, axisRej_eq, Vec3.norm, dot]
        · norm_num [axisDist, axisRej_eq, Vec3.norm, dot]
        · rw [seg_nil (by omega), Frame.act_one, act_rot rfl (by norm_num [MatrixExp.Unit, dot])]
          norm_num [axisDist, Subproblem.point, axisRej_eq, Vec3.norm, dot, Mat3.rot2_mulVec]
          exact hs
      · simp at hs'
        subst hs'
        refine ⟨0, 0, 0, 1, 1, le_rfl, le_rfl, rfl, ⟨le_rfl, by omega, le_rfl,
          Or.inr ⟨rfl, by simp [Subproblem.ids]⟩, by simp,
          by simp [Subproblem.ids], fun j h1 h2 => by omega⟩, fun j e h1 h2 => by omega, fun j e h1 h2 => by omega,
          rfl, ha, ?_⟩
        rw [seg_nil (by omega), Frame.act_one]
        norm_num [axisDist, Subproblem.point, axisRej_eq, Vec3.norm, dot]) []
  refine ⟨_, ok, sols, hev, h1, q, h2, ?_⟩
  match q, h3 with
  | [a', b'], _ =>
    exact ⟨a', b', rfl, h4 0 _ a' a rfl (by simp [Subproblem.ids]) rfl rfl,
      h4 1 _ b' b rfl (by simp [Subproblem.ids]) rfl rfl⟩

/-! ### Near half a turn -/

theorem pk1_snaps {id : ℕ} {e : MatrixExp} {p : Vec3} {F H : Frame} (hm : e.motion = .rotation) (he : e.Unit)
    (hd : 0 < axisDist e (H.act p)) {x : ℝ} (h : (e.asFrame x).act (H.act p) = F.act p) (hx : |x - Real.pi| < eps)
    (hx' : x ≤ Real.pi) {flag : Bool} {ls : List LocalSol} (hs : pk1 id e p F H = some (flag, ls)) :
    ls = [[(id, Real.pi)]] := by
  have h2 := Real.two_le_pi
  have hr : e.origin = e.origin + (0 : ℝ) • e.axis := by rw [zero_smul, add_zero]
  have hh := rot_height hm he hr x (H.act p)
  have hdd := rot_dist hm he hr x (H.act p)
  rw [h] at hh hdd
  have hdn := axisRej_norm_congr he hh hdd
  have hrot := rotate_point hm he hh.symm hdn.symm
  obtain ⟨n, hn⟩ := turns_of_act hm he hd (hrot.trans h.symm)
  have hls := (Prod.mk.inj (Option.some.inj hs)).2
  rw [← hls]
  set θ := angleAbout e.axis (axisRej e.axis (H.act p - e.origin)) (axisRej e.axis (F.act p - e.origin)) with hθ
  have hb : -Real.pi < θ ∧ θ ≤ Real.pi := ⟨Complex.neg_pi_lt_arg _, Complex.arg_le_pi _⟩
  have he1 : eps < 1 := by norm_num [eps]
  have hx2 := abs_lt.mp hx
  have hn0 : n = 0 := by
    rcases lt_trichotomy n 0 with hn' | hn' | hn'
    · have : (n : ℝ) ≤ -1 := by exact_mod_cast (by omega : n ≤ -1)
      nlinarith
    · exact hn'
    · have : (1 : ℝ) ≤ n := by exact_mod_cast (by omega : 1 ≤ n)
      nlinarith
  have hθx : θ = x := by rw [hn, hn0]; simp
  have : normalizeAngle θ = Real.pi := by
    rw [normalizeAngle, if_pos]
    have hpos : 0 < x := by linarith
    rw [EqualR, hθx, abs_of_pos hpos]
    exact hx
  rw [← this]
  rfl

/-- The restriction to postures away from half a turn is needed: a posture of the arm with three joints
whose first joint is half a tolerance short of half a turn is not among the solutions for its own
pose, since the angle is reported as exactly half a turn. -/
theorem C78_near_half_turn_counterexample :
    ∃ (pb : IkProblem) (subs : List Subproblem) (q₀ : List ℝ) (T : Frame) (ok : Bool) (sols : List (List ℝ)),
      build (fun _ => 1) elbowArm = some (some (pb, subs)) ∧ elbowArm.evaluate q₀ 1 = (true, T) ∧
      pb.solve T [] = some (ok, sols) ∧ q₀ = [Real.pi - eps / 2, 0, 0] ∧
      ∀ q ∈ sols, ∀ a, q[0]? = some a → a = Real.pi ∧ ¬ Turns a (Real.pi - eps / 2) := by
  have hwf := C19_built_problem_wellformed _ elbowArm elbow_unit Mat3.IsRot.one _ _ elbow_build elbow_margin
  set pb : IkProblem := ⟨elbowArm, elbowSteps.map Subproblem.toStep, false⟩ with hpb
  set q₀ : List ℝ := [Real.pi - eps / 2, 0, 0] with hq₀
  have hev := C03_evaluate_is_product elbowArm q₀ 1 rfl
  set T := (List.zipWith (fun e x => e.asFrame x) elbowArm.exps q₀).prod * elbowArm.tool with hT
  obtain ⟨ok, sols, hs, g2, g3, _⟩ := solve_eq hwf.stepsPair hwf.stepsOK T []
  rw [counts_eq] at g2 g3
  refine ⟨pb, elbowSteps, q₀, T, ok, sols, elbow_build, hev, hs, rfl, fun q hq a ha => ?_⟩
  obtain ⟨_, hgoal⟩ := goal_of_posture (pb := pb) elbow_unit Mat3.IsRot.one (Or.inl ⟨rfl, rfl⟩) hev
  obtain ⟨k, hk, rfl⟩ := List.mem_iff_getElem.mp hq
  obtain ⟨ks, hks, hpos⟩ := radix_surj (elbowSteps.map Subproblem.count) k (by omega)
  obtain ⟨flag, _, hacc⟩ := solve_account hwf hs
  obtain ⟨q', hq', hcalls, _⟩ := hacc ks ((selects_iff elbowSteps ks).mpr hks)
  obtain ⟨F, H, ls, l, C, hc⟩ := hcalls 0 (by simp [elbowSteps])
  have hqq : q' = sols[k] := by
    rw [position, hpos, List.getElem?_eq_getElem hk] at hq'
    exact (Option.some.inj hq').symm
  have hlen : q'.length = pb.poe.exps.length := by
    obtain ⟨oks, q2, _, e2, e3⟩ := g3 ks hks
    rw [hpos, List.getElem?_eq_getElem hk] at e3
    rw [hqq, Option.some.inj e3]; exact e2
  obtain ⟨hF, hH⟩ := call_exact hc hlen (c := 0) (m := 0) (M := 0) (b := 1) (n' := 3) le_rfl le_rfl
    ⟨le_rfl, by omega, by omega, Or.inl ⟨rfl, by simp⟩, by simp, by simp, fun j h1 h2 => by simp; omega⟩
    (by
      intro s hs j
      simp [elbowSteps] at hs
      subst hs
      simp [Subproblem.ids]) (x := pb.values q₀) rfl hgoal (by simp)
  rw [seg_nil (by omega)] at hH
  obtain ⟨s, hs1, hs2⟩ := hc.solved
  simp [elbowSteps] at hs1
  subst hs1
  have hFp : (MatrixExp.asFrame ⟨.rotation, ⟨0, 0, 1⟩, 0⟩ (Real.pi - eps / 2)).act (H.act ⟨1, 0, 0⟩) =
      F.act ⟨1, 0, 0⟩ := by
    rw [hF, hH, Frame.act_one, seg_split (b := 1) (by omega) (by omega), Frame.act_mul,
      seg_fix (p := ⟨1, 0, 0⟩) elbow_unit _ (a := 1) (b := 3) (by
        intro j e h1 h2 he
        interval_cases j
        · simp [elbowArm] at he
          subst he
          exact ⟨rfl, 0, by ext <;> simp⟩
        · simp [elbowArm] at he
          subst he
          exact ⟨rfl, 0, by ext <;> simp⟩), seg_one (e := ⟨.rotation, ⟨0, 0, 1⟩, 0⟩) rfl]
    rfl
  have he0 := eps_pos
  have hls := pk1_snaps rfl (by norm_num [MatrixExp.Unit, dot]) (by
    rw [hH, Frame.act_one]
    simp [axisDist, axisRej_eq, Vec3.norm, dot]) hFp (by
      rw [show Real.pi - eps / 2 - Real.pi = -(eps / 2) by ring, abs_neg, abs_of_pos (by linarith)]
      linarith) (by linarith) hs2
  obtain ⟨k', _, hk'⟩ := hc.selected
  have hl : l = [(0, Real.pi)] := by
    have := List.mem_of_getElem? hk'
    rw [hls] at this
    simpa using this
  have hst := hc.stored (0, Real.pi) (by rw [hl]; simp)
  simp only [hpb, Bool.false_eq_true, if_false] at hst
  rw [hqq, ha] at hst
  have haπ : a = Real.pi := Option.some.inj hst
  refine ⟨haπ, ?_⟩
  rintro ⟨n, hn⟩
  rw [haπ] at hn
  have h2 := Real.two_le_pi
  have he1 : eps < 1 := by norm_num [eps]
  have : 2 * Real.pi * n = eps / 2 := by linarith
  rcases lt_trichotomy n 0 with hn' | hn' | hn'
  · have : (n : ℝ) ≤ -1 := by exact_mod_cast (by omega : n ≤ -1)
    nlinarith
  · rw [hn'] at this
    simp at this
    linarith
  · have : (1 : ℝ) ≤ n := by exact_mod_cast (by omega : 1 ≤ n)
    nlinarith

end KD
