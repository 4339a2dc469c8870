import Verif.Kdl.RotVec
import Verif.Solver.IdSolver
import Verif.Screw.PoeLemmas
import Mathlib.Algebra.Order.BigOperators.Group.List
import Mathlib.Tactic.NormNum
import Mathlib.Data.List.Zip

/-!
# Property C25: the one-step Jacobian transpose solver
-/

namespace KD

open scoped Classical

namespace Twist

theorem dot_comm (a b : Twist) : dot a b = dot b a := by
  simp only [dot, Vec3.dot_comm]

theorem dot_add_right (a b c : Twist) : dot a (b + c) = dot a b + dot a c := by
  simp only [dot, add_vel, add_rot, Vec3.dot_add_right]; ring

theorem dot_add_left (a b c : Twist) : dot (a + b) c = dot a c + dot b c := by
  simp only [dot, add_vel, add_rot, Vec3.dot_add_left]; ring

theorem dot_sub_right (a b c : Twist) : dot a (b - c) = dot a b - dot a c := by
  simp only [dot, sub_vel, sub_rot, Vec3.dot_sub_right]; ring

theorem dot_sub_left (a b c : Twist) : dot (a - b) c = dot a c - dot b c := by
  simp only [dot, sub_vel, sub_rot, Vec3.dot_sub_left]; ring

theorem dot_smul_right (s : ℝ) (a b : Twist) : dot a (s • b) = s * dot a b := by
  simp only [dot, smul_vel, smul_rot, Vec3.dot_smul_right]; ring

theorem dot_smul_left (s : ℝ) (a b : Twist) : dot (s • a) b = s * dot a b := by
  simp only [dot, smul_vel, smul_rot, Vec3.dot_smul_left]; ring

theorem dot_zero_right (a : Twist) : dot a 0 = 0 := by simp [dot, Vec3.dot]

theorem dot_self_nonneg (a : Twist) : 0 ≤ dot a a :=
  add_nonneg (Vec3.dot_self_nonneg _) (Vec3.dot_self_nonneg _)

theorem dot_self_eq_zero {a : Twist} (h : dot a a = 0) : a = 0 := by
  have h1 := Vec3.dot_self_nonneg a.vel
  have h2 := Vec3.dot_self_nonneg a.rot
  unfold dot at h
  ext1
  · exact Vec3.dot_self_eq_zero (by linarith)
  · exact Vec3.dot_self_eq_zero (by linarith)

end Twist

theorem dot_jacApply (cols : List Twist) (e : Twist) :
    Twist.dot e (jacApply cols (jacTranspose cols e)) =
      ((jacTranspose cols e).map fun a => a * a).sum := by
  have : ∀ (cs : List Twist), Twist.dot e (jacApply cs (jacTranspose cs e)) =
      ((jacTranspose cs e).map fun a => a * a).sum := by
    intro cs
    induction cs with
    | nil => simp [jacApply, jacTranspose, Twist.dot_zero_right]
    | cons c cs ih =>
      simp only [jacTranspose, List.map_cons, jacApply, List.sum_cons] at ih ⊢
      rw [Twist.dot_add_right, Twist.dot_smul_right, ih, Twist.dot_comm e c]
  exact this cols

theorem jacApply_smul (cols : List Twist) (a : ℝ) (v : List ℝ) :
    jacApply cols (v.map fun x => a * x) = a • jacApply cols v := by
  induction cols generalizing v with
  | nil => ext <;> simp [jacApply]
  | cons c cs ih =>
    cases v with
    | nil => ext <;> simp [jacApply]
    | cons x v =>
      simp only [List.map_cons, jacApply, ih]
      ext <;> simp <;> ring

/-- The quotient is undefined exactly when no joint can reduce the error to first order. -/
theorem jjte_zero_iff (cols : List Twist) (e : Twist) :
    Twist.dot (jacApply cols (jacTranspose cols e)) (jacApply cols (jacTranspose cols e)) = 0 ↔
      ∀ c ∈ cols, Twist.dot c e = 0 := by
  constructor
  · intro h c hc
    have h0 := Twist.dot_self_eq_zero h
    have h1 := dot_jacApply cols e
    rw [h0, Twist.dot_zero_right] at h1
    have hall : ∀ a ∈ (jacTranspose cols e).map fun a => a * a, 0 ≤ a := by
      intro a ha
      obtain ⟨b, _, rfl⟩ := List.mem_map.mp ha
      exact mul_self_nonneg b
    have hm : Twist.dot c e * Twist.dot c e ∈ (jacTranspose cols e).map fun a => a * a :=
      List.mem_map.mpr ⟨Twist.dot c e, List.mem_map.mpr ⟨c, hc, rfl⟩, rfl⟩
    have := List.single_le_sum hall _ hm
    rw [← h1] at this
    exact mul_self_eq_zero.mp (le_antisymm this (mul_self_nonneg _))
  · intro h
    have : jacApply cols (jacTranspose cols e) = 0 := by
      have : ∀ cs : List Twist, (∀ c ∈ cs, Twist.dot c e = 0) →
          jacApply cs (jacTranspose cs e) = 0 := by
        intro cs
        induction cs with
        | nil => intro _; rfl
        | cons c cs ih =>
          intro hc
          simp only [jacTranspose, List.map_cons, jacApply]
          have := ih fun d hd => hc d (List.mem_cons_of_mem _ hd)
          simp only [jacTranspose] at this
          rw [this, hc c List.mem_cons_self]
          ext <;> simp
      exact this cols h
    rw [this, Twist.dot_zero_right]

/-- Contents of a call that got through the checks. -/
theorem cartToJnt_ok {s : IdSolver} {chain : Chain} {qInit : List ℝ} {T : Frame}
    {qOut out : List (Option ℝ)} (h : s.cartToJnt chain qInit T qOut = (0, out)) :
    ∃ f cols, chain.fk qInit = some f ∧ chain.jacobian qInit = some cols ∧
      qInit.length = s.nj ∧ s.qMin.length = s.nj ∧ s.qMax.length = s.nj ∧
      out = List.zipWith clampHigh (List.zipWith clampLow
        (addNan qInit (computeDiffInvKin cols (frameDiff f T))) s.qMin) s.qMax := by
  unfold IdSolver.cartToJnt at h
  split at h
  · simp at h
  split at h
  · simp at h
  rename_i hsz
  push Not at hsz
  split at h
  · simp at h
  rename_i f hf
  split at h
  · simp at h
  rename_i cols hc
  simp only [Prod.mk.injEq, true_and] at h
  exact ⟨f, cols, hf, hc, hsz.1.symm, hsz.2.2.1.symm, hsz.2.2.2.symm, h.symm⟩

theorem jacLoop_length {c : Chain} {q : List ℝ} {acc : Frame} {cols cols' : List Twist}
    (h : Chain.jacLoop c q acc cols = some cols') : cols'.length = cols.length + q.length := by
  induction c generalizing q acc cols with
  | nil =>
    cases q with
    | nil => simp only [Chain.jacLoop, Option.some.injEq] at h; subst h; simp
    | cons a q => simp [Chain.jacLoop] at h
  | cons s c ih =>
    unfold Chain.jacLoop at h
    split at h
    · split at h
      · simp at h
      · have := ih h
        simp at this ⊢
        omega
    · have := ih h
      simpa using this

/-- Errors leave the output as it was. -/
theorem C25_error_keeps_output (s : IdSolver) (chain : Chain) (qInit : List ℝ) (T : Frame)
    (qOut out : List (Option ℝ)) (code : ℤ) (h : s.cartToJnt chain qInit T qOut = (code, out))
    (hc : code ≠ 0) : out = qOut := by
  unfold IdSolver.cartToJnt at h
  split at h
  · simp at h; exact h.2.symm
  split at h
  · simp at h; exact h.2.symm
  split at h
  · simp at h; exact h.2.symm
  split at h
  · simp at h; exact h.2.symm
  simp only [Prod.mk.injEq] at h
  exact absurd h.1.symm hc

/-- Part of C25. Whenever success is reported, either every joint value is finite and inside its
limits, or every joint value is a NaN; the latter happens exactly when no joint can reduce the
error to first order (in particular when there is no error, see `C25_nan_at_target`). What is
missing is the exclusion of the second case. -/
theorem C25_in_limits_partial (s : IdSolver) (chain : Chain) (qInit : List ℝ) (T : Frame)
    (qOut out : List (Option ℝ)) (h : s.cartToJnt chain qInit T qOut = (0, out))
    (hlim : ∀ (k : ℕ) (lo hi : ℝ), s.qMin[k]? = some lo → s.qMax[k]? = some hi → lo ≤ hi) :
    ∃ f cols, chain.fk qInit = some f ∧ chain.jacobian qInit = some cols ∧
      out.length = chain.nJoints ∧
      ((∃ c ∈ cols, Twist.dot c (frameDiff f T) ≠ 0) →
        ∀ k < out.length, ∃ a lo hi, out[k]? = some (some a) ∧ s.qMin[k]? = some lo ∧
          s.qMax[k]? = some hi ∧ lo ≤ a ∧ a ≤ hi) ∧
      ((∀ c ∈ cols, Twist.dot c (frameDiff f T) = 0) → ∀ x ∈ out, x = none) := by
  obtain ⟨f, cols, hf, hc, h1, h2, h3, rfl⟩ := cartToJnt_ok h
  have hnj : s.nj = chain.nJoints := by
    unfold IdSolver.cartToJnt at h
    by_contra hn
    rw [if_pos hn] at h
    simp at h
  have hcl : cols.length = s.nj := by
    have := jacLoop_length hc
    simp at this
    omega
  have hadd : (addNan qInit (computeDiffInvKin cols (frameDiff f T))).length = s.nj := by
    unfold addNan
    split
    · simpa using h1
    · rename_i dq hdq
      unfold computeDiffInvKin at hdq
      simp only at hdq
      split at hdq
      · simp at hdq
      · simp only [Option.some.injEq] at hdq
        subst hdq
        simp [jacTranspose, h1, hcl]
  refine ⟨f, cols, hf, hc, by simp [hadd, h2, h3, hnj], ?_, ?_⟩
  · intro hex k hk
    have hk' : k < s.nj := by simpa [hadd, h2, h3] using hk
    have hne : Twist.dot (jacApply cols (jacTranspose cols (frameDiff f T)))
        (jacApply cols (jacTranspose cols (frameDiff f T))) ≠ 0 := by
      intro h0
      obtain ⟨c, hcm, hcn⟩ := hex
      exact hcn ((jjte_zero_iff cols _).mp h0 c hcm)
    obtain ⟨a, ha⟩ : ∃ a, (addNan qInit (computeDiffInvKin cols (frameDiff f T)))[k]? =
        some (some a) := by
      unfold computeDiffInvKin
      simp only [hne, if_false, addNan]
      have k1 : k < qInit.length := by omega
      have k2 : k < cols.length := by omega
      rw [List.getElem?_zipWith]
      simp [List.getElem?_eq_getElem k1, jacTranspose, List.getElem?_eq_getElem k2]
    have k1 : k < s.qMin.length := by omega
    have k2 : k < s.qMax.length := by omega
    have hle := hlim k _ _ (List.getElem?_eq_getElem k1) (List.getElem?_eq_getElem k2)
    refine ⟨if (if a < s.qMin[k] then s.qMin[k] else a) > s.qMax[k] then s.qMax[k]
      else (if a < s.qMin[k] then s.qMin[k] else a), s.qMin[k], s.qMax[k], ?_,
      List.getElem?_eq_getElem k1, List.getElem?_eq_getElem k2, ?_⟩
    · rw [List.getElem?_zipWith, List.getElem?_zipWith, ha, List.getElem?_eq_getElem k1,
        List.getElem?_eq_getElem k2]
      rfl
    · constructor
      · split_ifs <;> linarith
      · split_ifs <;> linarith
  · intro hall x hx
    have h0 := (jjte_zero_iff cols (frameDiff f T)).mpr hall
    have hnone : computeDiffInvKin cols (frameDiff f T) = none := by
      unfold computeDiffInvKin
      simp [h0]
    rw [hnone] at hx
    obtain ⟨k, hk, rfl⟩ := List.getElem_of_mem hx
    simp [addNan, clampLow, clampHigh]

/-- C25 as stated fails: if the target is the current pose, the solver reports success and
returns NaN for every joint. -/
theorem C25_nan_at_target (s : IdSolver) (chain : Chain) (qInit : List ℝ) (T : Frame)
    (qOut : List (Option ℝ)) (hT : T.IsRigid) (hfk : chain.fk qInit = some T) (cols : List Twist)
    (hj : chain.jacobian qInit = some cols) (h0 : s.nj = chain.nJoints) (h1 : s.nj = qInit.length)
    (h2 : s.nj = qOut.length) (h3 : s.nj = s.qMin.length) (h4 : s.nj = s.qMax.length) :
    s.cartToJnt chain qInit T qOut = (0, List.replicate s.nj none) := by
  unfold IdSolver.cartToJnt
  rw [if_neg (by simpa using h0), if_neg (by push Not; exact ⟨h1, h2, h3, h4⟩), hfk, hj]
  simp only [frameDiff_self hT]
  have : computeDiffInvKin cols 0 = none := by
    unfold computeDiffInvKin
    have := (jjte_zero_iff cols 0).mpr fun c _ => Twist.dot_zero_right c
    simp [this]
  rw [this]
  congr 1
  apply List.ext_getElem
  · simp [addNan, ← h1, ← h3, ← h4]
  · intro n _ _
    simp [addNan, clampLow, clampHigh]

/-- The step before clamping is the best one along its direction: no other multiple of the
gradient leaves a smaller residual, and the residual is smaller than the initial error. -/
theorem C25_step_optimal (cols : List Twist) (e : Twist) (dq : List ℝ)
    (h : computeDiffInvKin cols e = some dq) :
    (∀ b : ℝ, Twist.dot (e - jacApply cols dq) (e - jacApply cols dq) ≤
      Twist.dot (e - jacApply cols ((jacTranspose cols e).map fun a => b * a))
        (e - jacApply cols ((jacTranspose cols e).map fun a => b * a))) ∧
    Twist.dot (e - jacApply cols dq) (e - jacApply cols dq) < Twist.dot e e := by
  unfold computeDiffInvKin at h
  simp only at h
  split at h
  · simp at h
  rename_i hne
  simp only [Option.some.injEq] at h
  set g := jacApply cols (jacTranspose cols e) with hg
  have hgg : 0 < Twist.dot g g := lt_of_le_of_ne (Twist.dot_self_nonneg g) (Ne.symm hne)
  have hexp : ∀ b : ℝ, Twist.dot (e - b • g) (e - b • g) =
      Twist.dot e e - 2 * b * Twist.dot e g + b ^ 2 * Twist.dot g g := by
    intro b
    simp only [Twist.dot_sub_left, Twist.dot_sub_right, Twist.dot_smul_left, Twist.dot_smul_right,
      Twist.dot_comm g e]
    ring
  have heg : 0 < Twist.dot e g := by
    rcases (show 0 ≤ Twist.dot e g by
      rw [hg, dot_jacApply]
      apply List.sum_nonneg
      intro a ha
      obtain ⟨b, _, rfl⟩ := List.mem_map.mp ha
      exact mul_self_nonneg b).lt_or_eq with h' | h'
    · exact h'
    · exfalso
      apply hne
      rw [hg, jjte_zero_iff]
      intro c hc
      have hall : ∀ a ∈ (jacTranspose cols e).map fun a => a * a, 0 ≤ a := by
        intro a ha
        obtain ⟨b, _, rfl⟩ := List.mem_map.mp ha
        exact mul_self_nonneg b
      have hm : Twist.dot c e * Twist.dot c e ∈ (jacTranspose cols e).map fun a => a * a :=
        List.mem_map.mpr ⟨Twist.dot c e, List.mem_map.mpr ⟨c, hc, rfl⟩, rfl⟩
      have := List.single_le_sum hall _ hm
      rw [← dot_jacApply, ← hg, ← h'] at this
      exact mul_self_eq_zero.mp (le_antisymm this (mul_self_nonneg _))
  have hdq : jacApply cols dq = (Twist.dot e g / Twist.dot g g) • g := by
    rw [← h, jacApply_smul]
  rw [hdq]
  constructor
  · intro b
    rw [jacApply_smul, ← hg, hexp, hexp]
    have : Twist.dot e e - 2 * b * Twist.dot e g + b ^ 2 * Twist.dot g g -
        (Twist.dot e e - 2 * (Twist.dot e g / Twist.dot g g) * Twist.dot e g +
          (Twist.dot e g / Twist.dot g g) ^ 2 * Twist.dot g g) =
        (b - Twist.dot e g / Twist.dot g g) ^ 2 * Twist.dot g g := by
      field_simp
      ring
    have h2 : 0 ≤ (b - Twist.dot e g / Twist.dot g g) ^ 2 * Twist.dot g g := by positivity
    linarith
  · rw [hexp]
    have : 2 * (Twist.dot e g / Twist.dot g g) * Twist.dot e g -
        (Twist.dot e g / Twist.dot g g) ^ 2 * Twist.dot g g =
        Twist.dot e g ^ 2 / Twist.dot g g := by
      field_simp
      ring
    have h2 : 0 < Twist.dot e g ^ 2 / Twist.dot g g := by positivity
    linarith

/-- Updating after a change that keeps the number of joints (any tool) keeps the limits. -/
theorem C25_update_keeps_limits (s : IdSolver) (a b : ℝ) (chain : Chain)
    (h : chain.nJoints = s.nj) (h1 : s.qMin.length = s.nj) (h2 : s.qMax.length = s.nj) :
    s.update a b chain = s := by
  unfold IdSolver.update
  rw [h]
  have e1 : List.take s.nj s.qMin = s.qMin := List.take_of_length_le (by omega)
  have e2 : List.take s.nj s.qMax = s.qMax := List.take_of_length_le (by omega)
  simp [e1, e2, h1, h2]

/-- The limits read at configuration time are as C25 requires. -/
theorem C25_configured_limits (n : ℕ) (mins maxs qMin qMax : List ℝ)
    (h : retrieveJointLimits n mins maxs = some (qMin, qMax)) :
    qMin.length = n ∧ qMax.length = n ∧
      ∀ (k : ℕ) (lo hi : ℝ), qMin[k]? = some lo → qMax[k]? = some hi → lo ≤ hi := by
  unfold retrieveJointLimits at h
  split at h
  · simp at h
  rename_i hsz
  simp only at h
  split at h
  · simp at h
  rename_i hle
  simp only [Option.some.injEq, Prod.mk.injEq] at h
  obtain ⟨rfl, rfl⟩ := h
  push Not at hsz hle
  refine ⟨by simpa using hsz.2, by simpa using hsz.1, fun k lo hi h1 h2 => ?_⟩
  refine hle (lo, hi) ?_
  apply List.mem_of_getElem? (i := k)
  simp only [List.zip]
  rw [List.getElem?_zipWith, h1, h2]

/-- A vertical slide meets the hypotheses of the counterexample, and with a target above it those
of the positive case. -/
noncomputable def slide : Chain := [Segment.make ⟨.transZ, 1, 0, 0, 0⟩ 1]

theorem slide_pose (q : ℝ) : (Segment.make ⟨.transZ, 1, 0, 0, 0⟩ 1).pose q = Frame.trans ⟨0, 0, q⟩ := by
  simp only [Segment.make, Segment.pose, Joint.pose]
  ext <;> simp [Frame.trans, Frame.inv]

theorem slide_fk (q : ℝ) : slide.fk [q] = some (Frame.trans ⟨0, 0, q⟩) := by
  have ht : (Segment.make ⟨.transZ, 1, 0, 0, 0⟩ 1).joint.type = .transZ := rfl
  simp only [Chain.fk, slide, Chain.fkLoop, slide_pose, ht]
  simp

theorem slide_jac (q : ℝ) : slide.jacobian [q] = some [⟨⟨0, 0, 1⟩, 0⟩] := by
  have ht : (Segment.make ⟨.transZ, 1, 0, 0, 0⟩ 1).joint.type = .transZ := rfl
  simp only [Chain.jacobian, slide, Chain.jacLoop, slide_pose, ht]
  simp [Segment.twist, Joint.twist, Segment.make, Twist.refPoint, Twist.rotate]
  ext <;> simp [Vec3.cross]

example : (IdSolver.create slide [-1] [1]).cartToJnt slide [1 / 2] (Frame.trans ⟨0, 0, 1 / 2⟩) [some 7] =
    (0, [none]) :=
  C25_nan_at_target (IdSolver.create slide [-1] [1]) slide [1 / 2] _ [some 7] Mat3.IsRot.one
    (slide_fk _) _ (slide_jac _) rfl rfl rfl rfl rfl

/-- One step from the origin towards `z = 3` stops at the limit. -/
example : (IdSolver.create slide [-1] [1]).cartToJnt slide [0] (Frame.trans ⟨0, 0, 3⟩) [some 7] =
    (0, [some 1]) := by
  have hn : slide.nJoints = 1 := rfl
  have hd : frameDiff (Frame.trans ⟨0, 0, 0⟩) (Frame.trans ⟨0, 0, 3⟩) = ⟨⟨0, 0, 3⟩, 0⟩ := by
    have h1 : (Mat3.transpose 1 * 1 : Mat3) = 1 := by ext <;> simp
    unfold frameDiff
    simp only [Frame.trans_M, h1, getRot_one]
    ext <;> simp [Frame.trans]
  unfold IdSolver.cartToJnt
  simp only [IdSolver.create, hn, slide_fk, slide_jac, hd]
  simp [computeDiffInvKin, jacApply, jacTranspose, Twist.dot, Vec3.dot, addNan, clampLow, clampHigh]
  norm_num

end KD
