import Verif.Props.Asibot
import Verif.Props.KdlSolver

/-!
# C52 and C53 for the ASIBOT solver: tools and the algebra of poses
-/

namespace KD

namespace Asibot

open Real KinRepr

/-- A change of tool. -/
inductive ToolCall where
  | append (x : List ℝ)
  | restore

/-- Calls to the solver, in order. -/
noncomputable def runTools (s : Solver) : List ToolCall → Option Solver
  | [] => some s
  | .append x :: ops => (s.appendLink x).bind fun s => runTools s ops
  | .restore :: ops => runTools s.restore ops

/-- Specification: the tool after a history: the product of the poses appended since the last restore. -/
noncomputable def toolAfter (f : Frame) : List ToolCall → Frame
  | [] => f
  | .append x :: ops => toolAfter (f * standard x) ops
  | .restore :: ops => toolAfter 1 ops

/-- Poses of six elements, the rotation vector of which is null or not tiny. -/
def GoodPose (x : List ℝ) : Prop := 6 ≤ x.length ∧ (rotOf x = 0 ∨ eps ≤ (rotOf x).norm)

theorem standard_rigid (x : List ℝ) : (standard x).IsRigid := by
  rw [standard_eq]; exact Mat3.expRot_isRot _

theorem runTools_spec : ∀ (ops : List ToolCall) (s : Solver), s.Wf →
    (∀ x, ToolCall.append x ∈ ops → GoodPose x) →
    ∃ s', runTools s ops = some s' ∧ s'.Wf ∧ s'.frameTcp = toolAfter s.frameTcp ops ∧ s'.A0 = s.A0 ∧
      s'.A1 = s.A1 ∧ s'.A2 = s.A2 ∧ s'.A3 = s.A3 ∧ s'.qMin = s.qMin ∧ s'.qMax = s.qMax
  | [], s, hs, _ => ⟨s, rfl, hs, rfl, rfl, rfl, rfl, rfl, rfl, rfl⟩
  | .append x :: ops, s, hs, hg => by
    obtain ⟨h1, h2⟩ := hg x (by simp)
    have hv := vectorToMatrix_eq h1 h2
    have hs' : ({ s with hasFrame := true, frameTcp := s.frameTcp * standard x } : Solver).Wf :=
      ⟨hs.rigid.mul (standard_rigid x), fun h => by simp at h⟩
    obtain ⟨s', a, b, c, d⟩ := runTools_spec ops _ hs' fun y hy => hg y (by simp [hy])
    refine ⟨s', ?_, b, c, d⟩
    simp only [runTools, Solver.appendLink, hv, Option.map_some, Option.bind_some]
    exact a
  | .restore :: ops, s, hs, hg => by
    have hs' : s.restore.Wf := ⟨Frame.IsRigid.one, fun _ => rfl⟩
    obtain ⟨s', a, b, c, d⟩ := runTools_spec ops _ hs' fun y hy => hg y (by simp [hy])
    exact ⟨s', a, b, c, d⟩

theorem arm_congr {s s' : Solver} (h0 : s'.A0 = s.A0) (h1 : s'.A1 = s.A1) (h2 : s'.A2 = s.A2)
    (h3 : s'.A3 = s.A3) (q : Joints) : arm s' q = arm s q ∧ radial s' q = radial s q := by
  simp only [arm, radial, h0, h1, h2, h3, and_self]

/-- After any history of changes of tool, forward kinematics is that of the arm times the poses appended
since the last restore, in order. Missing: as for `C56_forward_partial`, and tiny rotations. -/
theorem C52_asibot_history_partial {svd : Mat3 → Vec3} (hsvd : GoodSvd svd) {s : Solver} (hs : s.Wf)
    (ops : List ToolCall) (hg : ∀ x, ToolCall.append x ∈ ops → GoodPose x) {q : List ℝ} {qd : Joints}
    (hq : Joints.read q = some qd) (ha : 0 < radial s qd.inRadians) (hr : (arm s qd.inRadians).M.Regular)
    (hr' : (arm s qd.inRadians * toolAfter s.frameTcp ops).M.Regular) :
    ∃ s' x, runTools s ops = some s' ∧ fwdKin svd s' q = some x ∧
      standard x = arm s qd.inRadians * toolAfter s.frameTcp ops := by
  obtain ⟨s', h1, h2, h3, h4, h5, h6, h7, -⟩ := runTools_spec ops s hs hg
  obtain ⟨e1, e2⟩ := arm_congr h4 h5 h6 h7 qd.inRadians
  obtain ⟨x, hx, hx'⟩ := C56_forward_partial hsvd h2 hq (by rw [e2]; exact ha) (by rw [e1]; exact hr)
    (by rw [tcp, e1, h3]; exact hr')
  exact ⟨s', x, h1, hx, by rw [hx', tcp, e1, h3]⟩

/-- Restoring undoes any number of tools, and gives back the very solver without tool. -/
theorem C52_asibot_restore {s : Solver} (h1 : s.hasFrame = false) (h2 : s.frameTcp = 1)
    (ops : List ToolCall) {s' : Solver} (h : runTools s ops = some s') : s'.restore = s := by
  have key : ∀ (ops : List ToolCall) (t : Solver), t.restore = s → runTools t ops = some s' →
      s'.restore = s := by
    intro ops
    induction ops with
    | nil =>
      intro t ht h
      simp only [runTools, Option.some.injEq] at h
      rw [← h, ht]
    | cons op ops ih =>
      intro t ht h
      cases op with
      | append x =>
        simp only [runTools, Solver.appendLink] at h
        cases hv : vectorToMatrix x with
        | none => rw [hv] at h; simp at h
        | some f =>
          rw [hv] at h
          simp only [Option.map_some, Option.bind_some] at h
          exact ih _ (by rw [← ht]; rfl) h
      | restore => exact ih t.restore (by rw [← ht]; rfl) h
  refine key ops s ?_ h
  simp only [Solver.restore]
  rw [← h1, ← h2]

/-- A history with two tools in order, after another one that is undone. -/
example : ∀ x, ToolCall.append x ∈ [.append [1, 2, 3, 0, 0, 0], .restore, .append [0, 1, 0, 0, 0, 0],
    .append [0, 0, 1, 0, 0, 0]] → GoodPose x := by
  intro x hx
  simp only [List.mem_cons, ToolCall.append.injEq, reduceCtorEq, List.not_mem_nil, or_false, false_or] at hx
  rcases hx with rfl | rfl | rfl <;>
    exact ⟨by simp, Or.inl (by simp [rotOf]; rfl)⟩

example : toolAfter 1 [.append [1, 2, 3, 0, 0, 0], .restore, .append [0, 1, 0, 0, 0, 0],
    .append [0, 0, 1, 0, 0, 0]] = standard [0, 1, 0, 0, 0, 0] * standard [0, 0, 1, 0, 0, 0] := by
  simp only [toolAfter, one_mul]

/-- `changeOrigin` composes the poses. Missing: almost null rotations and almost half turns. -/
theorem C53_asibot_change_origin_partial {svd : Mat3 → Vec3} (hsvd : GoodSvd svd) {a b : List ℝ}
    (ha : GoodPose a) (hb : GoodPose b) (hr : (standard b * standard a).M.Regular) :
    ∃ x, changeOrigin svd a b = some x ∧ standard x = standard b * standard a := by
  refine ⟨matrixToVector svd (standard b * standard a), ?_, ?_⟩
  · simp only [changeOrigin, vectorToMatrix_eq ha.1 ha.2, vectorToMatrix_eq hb.1 hb.2, Option.bind_eq_bind,
      Option.bind_some, Option.pure_def]
  · exact standard_matrixToVector hsvd ((standard_rigid b).mul (standard_rigid a)) hr

/-- `poseDiff` leads from the second pose to the first: translated by its first half and turned about its
second half, both in the base frame. Missing: almost null rotations and almost half turns. -/
theorem C53_asibot_pose_diff_partial {svd : Mat3 → Vec3} (hsvd : GoodSvd svd) {a b : List ℝ}
    (ha : GoodPose a) (hb : GoodPose b) (hr : ((standard b).M.transpose * (standard a).M).Regular) :
    ∃ x, poseDiff svd a b = some x ∧ x.length = 6 ∧ (standard b).p + (standard x).p = (standard a).p ∧
      (standard x).M * (standard b).M = (standard a).M := by
  have hrig : ((standard b).M.transpose * (standard a).M).IsRot :=
    (standard_rigid b).transpose.mul (standard_rigid a)
  refine ⟨sixOf ((standard a).p - (standard b).p)
    ((standard b).M.mulVec (rotVector svd ((standard b).M.transpose * (standard a).M))), ?_, by simp [sixOf], ?_, ?_⟩
  · simp only [poseDiff, vectorToMatrix_eq ha.1 ha.2, vectorToMatrix_eq hb.1 hb.2, Option.bind_eq_bind,
      Option.bind_some, Option.pure_def]
    rfl
  · rw [standard_six]
    ext <;> simp
  · rw [standard_six]
    simp only
    obtain ⟨u, θ, h1, h2, h3, h4, h5, h6⟩ := rotVector_spec hsvd hrig hr
    have hu : Vec3.dot ((standard b).M.mulVec u) ((standard b).M.mulVec u) = 1 := by
      rw [Mat3.IsRot.dot (standard_rigid b)]; exact h2
    rw [h1, Mat3.mulVec_smul, Mat3.expRot_smul hu h3]
    have hconj : Mat3.rot2 ((standard b).M.mulVec u) θ * (standard b).M = (standard b).M * Mat3.rot2 u θ := by
      apply Mat3.ext_mulVec
      intro v
      rw [Mat3.mulVec_mul, Mat3.mulVec_mul, Mat3.rot2_conj (standard_rigid b)]
    rw [hconj, h5, ← mul_assoc, (standard_rigid b).right, one_mul]

/-- Two poses: half a turn apart, and shifted. -/
example : GoodPose demoPose ∧ GoodPose [1, 0, 0, 0, 0, 0] ∧
    ((standard [1, 0, 0, 0, 0, 0]).M.transpose * (standard demoPose).M).Regular ∧
    (standard demoPose * standard [1, 0, 0, 0, 0, 0]).M.Regular := by
  have h0 : rotOf [1, 0, 0, 0, 0, 0] = 0 := by ext <;> simp [rotOf]
  have h1 : (standard [1, 0, 0, 0, 0, 0]).M = 1 := by rw [standard_eq, h0, Mat3.expRot_zero]
  refine ⟨⟨by simp [demoPose], Or.inr demoPose_size⟩, ⟨by simp, Or.inl h0⟩, ?_, ?_⟩
  · right; right
    rw [h1, demoPose_standard]
    norm_num [Mat3.cosAngle]
  · right; right
    rw [Frame.mul_M, h1, demoPose_standard]
    norm_num [Mat3.cosAngle]

end Asibot

end KD
