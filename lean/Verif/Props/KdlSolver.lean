import Verif.Solver.KdlSolver
import Verif.Kdl.Jacobian
import Verif.Props.Converters

/-!
# C52, C53, C54: tools, frame algebra and units of the chain solver
-/

namespace KD

open Real KdlVectorConverter

/-- Pose vectors always stand for rigid frames. -/
theorem vectorToFrame_rigid (x : List ℝ) : (vectorToFrame x).IsRigid := by
  unfold vectorToFrame
  split
  · exact Mat3.rot2_isRot (Vec3.normalize_unit _) _
  · exact Frame.IsRigid.one

namespace KdlSolver

/-! ## C52 -/

/-- Changes of tool. -/
inductive ToolOp
  | append (x : List ℝ)
  | restore

/-- The solver after a history of tool changes. -/
noncomputable def runTools (s : KdlSolver) : List ToolOp → KdlSolver
  | [] => s
  | .append x :: ops => runTools (s.appendLink x) ops
  | .restore :: ops => runTools s.restore ops

/-- Specification: the tool frame a history stands for, given the present one. -/
noncomputable def toolFrame (present : Frame) : List ToolOp → Frame
  | [] => present
  | .append x :: ops => toolFrame (present * vectorToFrame x) ops
  | .restore :: ops => toolFrame 1 ops

theorem toRadians_some {n : ℕ} {q : List ℝ} (h : n ≤ q.length) :
    toRadians n q = some ((q.take n).map (· * deg2rad)) := if_pos h

theorem runTools_fk (ops : List ToolOp) : ∀ (s : KdlSolver) (T : Frame),
    (∀ q, s.chain.fk q = (s.original.fk q).map (· * T)) → s.chain.nJoints = s.original.nJoints →
    (runTools s ops).original = s.original ∧
    (runTools s ops).chain.nJoints = s.original.nJoints ∧
    ∀ q, (runTools s ops).chain.fk q = (s.original.fk q).map (· * toolFrame T ops) := by
  induction ops with
  | nil => intro s T h hn; exact ⟨rfl, hn, h⟩
  | cons op ops ih =>
    intro s T h hn
    cases op with
    | append x =>
      refine ih (s.appendLink x) (T * vectorToFrame x) (fun q => ?_) ?_
      · show Chain.fk (s.chain ++ _) q = _
        rw [Chain.fk_fixed, h q, Option.map_map]
        congr 1
        funext f
        simp only [Function.comp, mul_assoc]
      · exact (Chain.nJoints_fixed _ _).trans hn
    | restore =>
      refine ih s.restore 1 (fun q => ?_) rfl
      show s.original.fk q = (s.original.fk q).map _
      simp

/-- C52: after any history of tool changes, forward kinematics is that of the original chain followed by
the tools appended since the chain was last restored, in their order; the number of joints is the same
as ever. -/
theorem C52_tool_history (c : Chain) (ops : List ToolOp) (q : List ℝ) (hq : c.nJoints ≤ q.length) :
    ∃ f : Frame, (opened c).fwdKin q = some (frameToVector f) ∧
      ((opened c).runTools ops).fwdKin q = some (frameToVector (f * toolFrame 1 ops)) ∧
      ((opened c).runTools ops).numJoints = (opened c).numJoints := by
  obtain ⟨-, hn, hf⟩ := runTools_fk ops (opened c) 1 (fun q => by simp [opened]) rfl
  have hl : ((q.take c.nJoints).map (· * deg2rad)).length = c.nJoints := by simp [hq]
  obtain ⟨f, hfk⟩ := Chain.exists_fk hl
  refine ⟨f, ?_, ?_, hn⟩
  · show (toRadians c.nJoints q).bind _ = _
    rw [toRadians_some hq, Option.bind_some]
    show (c.fk _).bind _ = _
    rw [hfk]
    rfl
  · unfold fwdKin numJoints
    rw [hn]
    show (toRadians c.nJoints q).bind _ = _
    rw [toRadians_some hq, Option.bind_some, hf]
    show ((c.fk _).map _).bind _ = _
    rw [hfk]
    rfl

/-- C52: restoring the chain undoes any number of changes: every later query is answered as by a solver
that has just been opened. -/
theorem C52_restore_undoes (c : Chain) (ops : List ToolOp) :
    (opened c).runTools (ops ++ [.restore]) = opened c := by
  have h : ∀ (ops : List ToolOp) (s : KdlSolver), runTools s (ops ++ [.restore]) = ⟨s.original, s.original⟩ := by
    intro ops
    induction ops with
    | nil => intro s; rfl
    | cons op ops ih =>
      intro s
      cases op with
      | append x => exact ih (s.appendLink x)
      | restore => exact ih s.restore
  exact h ops (opened c)

/-- C52 for one call: the pose appended comes after the present one. -/
theorem C52_append_postmultiplies (s : KdlSolver) (x q : List ℝ) (hq : s.numJoints ≤ q.length) :
    ∃ f : Frame, s.fwdKin q = some (frameToVector f) ∧
      (s.appendLink x).fwdKin q = some (frameToVector (f * vectorToFrame x)) ∧
      (s.appendLink x).numJoints = s.numJoints := by
  have hn : (s.appendLink x).numJoints = s.numJoints := Chain.nJoints_fixed _ _
  have hl : ((q.take s.numJoints).map (· * deg2rad)).length = s.chain.nJoints := by
    simp only [List.length_map, List.length_take]
    exact min_eq_left hq
  obtain ⟨f, hfk⟩ := Chain.exists_fk hl
  refine ⟨f, ?_, ?_, hn⟩
  · show (toRadians s.numJoints q).bind _ = _
    rw [toRadians_some hq, Option.bind_some]
    show (s.chain.fk _).bind _ = _
    rw [hfk]
    rfl
  · unfold fwdKin
    rw [hn]
    show (toRadians s.numJoints q).bind _ = _
    rw [toRadians_some hq, Option.bind_some]
    show (Chain.fk (s.chain ++ _) _).bind _ = _
    rw [Chain.fk_fixed, hfk]
    rfl

/-- C52: a pose that has not six elements is taken, without an error, for the identity. -/
theorem C52_malformed_pose_ignored (s : KdlSolver) (x q : List ℝ) (hx : x.length ≠ 6)
    (hq : s.numJoints ≤ q.length) : (s.appendLink x).fwdKin q = s.fwdKin q := by
  obtain ⟨f, h1, h2, -⟩ := C52_append_postmultiplies s x q hq
  rw [h1, h2, (C31_wrong_size x hx).1, mul_one]

/-- A chain with a joint, two tools in order. -/
example : (⟨[Segment.make ⟨.rotZ, 1, 0, 0, 0⟩ (Frame.trans ⟨1, 0, 0⟩)],
      [Segment.make ⟨.rotZ, 1, 0, 0, 0⟩ (Frame.trans ⟨1, 0, 0⟩)]⟩ : KdlSolver).numJoints = 1 ∧
    toolFrame 1 [.append [1, 0, 0, 0, 0, π / 2], .restore, .append [1, 0, 0, 0, 0, 0],
      .append [0, 2, 0, 0, 0, 0]] = Frame.trans ⟨1, 2, 0⟩ := by
  refine ⟨rfl, ?_⟩
  have h0 : Mat3.rot ⟨0, 0, 0⟩ (Vec3.norm ⟨0, 0, 0⟩) = 1 := by
    have : Vec3.norm ⟨0, 0, 0⟩ = 0 := Vec3.norm_zero
    rw [this, Mat3.rot, Mat3.rot2_zero]
  simp only [toolFrame, vectorToFrame, h0]
  ext <;> simp

/-! ## C53 -/

/-- The null pose. -/
def origin : List ℝ := [0, 0, 0, 0, 0, 0]

theorem vectorToFrame_origin : vectorToFrame origin = 1 := by
  have : Vec3.norm ⟨0, 0, 0⟩ = 0 := Vec3.norm_zero
  simp only [origin, vectorToFrame, this, Mat3.rot, Mat3.rot2_zero]
  rfl

theorem frameToVector_one : frameToVector 1 = origin := by
  simp [frameToVector, getRot_one, origin]

/-- C53: the result of `changeOrigin` stands for the composition of the two poses. Partial: the composed
rotation is taken to be regular (see C31). -/
theorem C53_change_origin_composes_partial (a b : List ℝ)
    (hr : (vectorToFrame b * vectorToFrame a).M.Regular) :
    vectorToFrame (changeOrigin a b) = vectorToFrame b * vectorToFrame a :=
  C31_frame_round_trip_partial ((vectorToFrame_rigid b).mul (vectorToFrame_rigid a)) hr

/-- C53: `changeOrigin` is associative. Partial as above, for the two intermediate results. -/
theorem C53_change_origin_associative_partial (a b c : List ℝ)
    (h1 : (vectorToFrame b * vectorToFrame a).M.Regular)
    (h2 : (vectorToFrame c * vectorToFrame b).M.Regular) :
    changeOrigin (changeOrigin a b) c = changeOrigin a (changeOrigin b c) := by
  unfold changeOrigin
  have e1 := C53_change_origin_composes_partial a b h1
  have e2 := C53_change_origin_composes_partial b c h2
  unfold changeOrigin at e1 e2
  rw [e1, e2, mul_assoc]

/-- C53: the null pose changes nothing on either side. Partial: the rotation vector is null or has a length
between `1e-6` and `π - 1e-6`. -/
theorem C53_change_origin_identity_partial (x y z : ℝ) (v : Vec3)
    (hv : v = 0 ∨ (v.norm < π ∧ eps ≤ v.norm ∧ cos v.norm ≤ 1 - eps * eps / 2 ∧
      -1 + eps * eps / 2 ≤ cos v.norm)) :
    changeOrigin [x, y, z, v.x, v.y, v.z] origin = [x, y, z, v.x, v.y, v.z] ∧
    changeOrigin origin [x, y, z, v.x, v.y, v.z] = [x, y, z, v.x, v.y, v.z] := by
  unfold changeOrigin
  rw [vectorToFrame_origin, one_mul, mul_one]
  exact ⟨C31_pose_vector_round_trip_partial x y z v hv, C31_pose_vector_round_trip_partial x y z v hv⟩

theorem cosAngle_transpose (m : Mat3) : m.transpose.cosAngle = m.cosAngle := rfl

/-- C53: every pose has an inverse. Partial as above. -/
theorem C53_change_origin_invertible_partial (x : List ℝ) (hr : (vectorToFrame x).M.Regular) :
    ∃ y, changeOrigin x y = origin ∧ changeOrigin y x = origin := by
  have hf := vectorToFrame_rigid x
  have hi : vectorToFrame (frameToVector (vectorToFrame x).inv) = (vectorToFrame x).inv :=
    C31_frame_round_trip_partial hf.inv hr
  refine ⟨frameToVector (vectorToFrame x).inv, ?_, ?_⟩
  · unfold changeOrigin
    rw [hi, hf.inv_mul, frameToVector_one]
  · unfold changeOrigin
    rw [hi, hf.mul_inv, frameToVector_one]

/-- C53: the difference between poses that agree is null. -/
theorem C53_pose_diff_of_equal (a b : List ℝ) (h : vectorToFrame a = vectorToFrame b) :
    poseDiff a b = origin := by
  unfold poseDiff
  rw [h, frameDiff_self (vectorToFrame_rigid b)]
  rfl

/-- C53: the difference is the constant velocity that takes the second pose to the first in a unit of
time. Partial: the rotation between them is taken to be regular. -/
theorem C53_pose_diff_integrates_partial (a b : List ℝ)
    (hr : ((vectorToFrame b).M.transpose * (vectorToFrame a).M).Regular) :
    ∃ F : ℝ → Frame, F 0 = vectorToFrame b ∧ F 1 = vectorToFrame a ∧
      ∀ t, Frame.MovesWith F (vectorToTwist (poseDiff a b)) t := by
  have ha := vectorToFrame_rigid a
  have hb := vectorToFrame_rigid b
  set A := vectorToFrame a with hA
  set B := vectorToFrame b with hB
  have hm : (B.M.transpose * A.M).IsRot := Mat3.IsRot.mul (Mat3.IsRot.transpose hb) ha
  obtain ⟨g1, g2, g3, g4, -⟩ := hm.getRotAngle_spec hr
  set u := (B.M.transpose * A.M).getRotAngle.1
  set θ := (B.M.transpose * A.M).getRotAngle.2
  have hu : Vec3.dot (B.M.mulVec u) (B.M.mulVec u) = 1 := by rw [Mat3.IsRot.dot hb]; exact g1
  have hd : vectorToTwist (poseDiff a b) = ⟨A.p - B.p, θ • B.M.mulVec u⟩ := by
    show frameDiff B A = _
    unfold frameDiff
    rw [Mat3.getRot, Mat3.mulVec_smul]
  have hconj : ∀ φ, Mat3.rot2 (B.M.mulVec u) φ * B.M = B.M * Mat3.rot2 u φ := by
    intro φ
    apply Mat3.ext_mulVec
    intro v
    rw [Mat3.mulVec_mul, Mat3.mulVec_mul, Mat3.rot2_conj hb]
  refine ⟨fun t => ⟨Mat3.rot2 (B.M.mulVec u) (θ * t) * B.M, B.p + t • (A.p - B.p)⟩, ?_, ?_, fun t => ?_⟩
  · simp only [mul_zero, Mat3.rot2_zero, one_mul]
    ext1
    · rfl
    · ext <;> simp
  · simp only [mul_one, hconj]
    ext1
    · show B.M * _ = A.M
      rw [g4, ← mul_assoc, hb.right, one_mul]
    · ext <;> simp
  · rw [hd]
    constructor
    · exact (trans_movesWith B.p (A.p - B.p) t).origin
    · intro v
      have h := (Frame.MovesWith.comp (a := θ) (b := 0) (t := t)
        (rot2_movesWith hu 0 (θ * t + 0))).turn (B.M.mulVec v)
      simpa [Mat3.mulVec_mul] using h

/-- C53: a null difference means that the poses agree. Partial: the rotation between them is taken to be
regular. -/
theorem C53_pose_diff_zero_iff_partial (a b : List ℝ)
    (hr : ((vectorToFrame b).M.transpose * (vectorToFrame a).M).Regular) :
    poseDiff a b = origin ↔ vectorToFrame a = vectorToFrame b := by
  refine ⟨fun h => ?_, C53_pose_diff_of_equal a b⟩
  have ha := vectorToFrame_rigid a
  have hb := vectorToFrame_rigid b
  have hm : ((vectorToFrame b).M.transpose * (vectorToFrame a).M).IsRot :=
    Mat3.IsRot.mul (Mat3.IsRot.transpose hb) ha
  have hd : frameDiff (vectorToFrame b) (vectorToFrame a) = 0 := by
    have := congrArg vectorToTwist h
    exact this
  have hv := congrArg Twist.vel hd
  have hw := congrArg Twist.rot hd
  simp only [frameDiff, Twist.zero_vel, Twist.zero_rot] at hv hw
  have hz : ((vectorToFrame b).M.transpose * (vectorToFrame a).M).getRot = 0 := by
    have := congrArg (vectorToFrame b).M.transpose.mulVec hw
    rwa [Mat3.IsRot.transpose_mulVec hb, Mat3.mulVec_zero] at this
  have he := hm.expRot_getRot hr
  rw [hz, Mat3.expRot_zero] at he
  ext1
  · have := congrArg ((vectorToFrame b).M * ·) he
    simp only [mul_one, ← mul_assoc, hb.right, one_mul] at this
    exact this.symm
  · simp only [Vec3.ext_iff, Vec3.sub_x, Vec3.sub_y, Vec3.sub_z, Vec3.zero_x, Vec3.zero_y,
      Vec3.zero_z] at hv
    ext <;> linarith [hv.1, hv.2.1, hv.2.2]

/-- Poses a quarter turn apart meet the hypotheses. -/
example : ((vectorToFrame origin).M.transpose *
    (vectorToFrame [1, 2, 3, 0, 0, π / 2]).M).Regular := by
  rw [vectorToFrame_origin]
  have hn : Vec3.norm ⟨0, 0, π / 2⟩ = π / 2 := by
    rw [Vec3.norm, Vec3.dot]
    simp only [mul_zero, add_zero, zero_add]
    exact Real.sqrt_mul_self (by linarith [pi_pos])
  have he : eps ≤ Vec3.norm ⟨0, 0, π / 2⟩ := by
    rw [hn]; have := two_le_pi; norm_num [eps]; linarith
  have : (vectorToFrame [1, 2, 3, 0, 0, π / 2]).M = Mat3.expRot ⟨0, 0, π / 2⟩ :=
    Mat3.rot_norm (Or.inr he)
  rw [this]
  left
  simp only [Frame.one_M, Mat3.transpose_one, one_mul]
  rw [Mat3.expRot_cosAngle, hn, cos_pi_div_two]
  norm_num [eps]

/-- C53 fails within the bands: two poses a half millionth of a radian apart have a null difference. -/
theorem C53_small_difference_lost :
    ∃ a b : List ℝ, poseDiff a b = origin ∧ vectorToFrame a ≠ vectorToFrame b := by
  have hn : Vec3.norm ⟨0, 0, π / 2⟩ = π / 2 := by
    rw [Vec3.norm, Vec3.dot]
    simp only [mul_zero, add_zero, zero_add]
    exact Real.sqrt_mul_self (by linarith [pi_pos])
  have h2 := two_le_pi
  have he : eps ≤ Vec3.norm ⟨0, 0, π / 2⟩ := by
    rw [hn]; norm_num [eps]; linarith
  have hd : (0 : ℝ) < π / 2 + 1 / 2000000 := by linarith
  have hn' : Vec3.norm ⟨0, 0, π / 2 + 1 / 2000000⟩ = π / 2 + 1 / 2000000 := by
    rw [Vec3.norm, Vec3.dot]
    simp only [mul_zero, add_zero, zero_add]
    exact Real.sqrt_mul_self hd.le
  have he' : eps ≤ Vec3.norm ⟨0, 0, π / 2 + 1 / 2000000⟩ := by
    rw [hn']; norm_num [eps]; linarith
  have key : ∀ θ : ℝ, 0 < θ → Vec3.norm ⟨0, 0, θ⟩ = θ → eps ≤ Vec3.norm ⟨0, 0, θ⟩ →
      vectorToFrame [0, 0, 0, 0, 0, θ] = ⟨Mat3.rotZ θ, 0⟩ := by
    intro θ h0 h1 h2
    have e : vectorToFrame [0, 0, 0, 0, 0, θ] = ⟨Mat3.expRot ⟨0, 0, θ⟩, 0⟩ := by
      show (⟨Mat3.rot _ _, _⟩ : Frame) = _
      rw [Mat3.rot_norm (Or.inr h2)]
      rfl
    rw [e, Mat3.expRot, h1, rotZ_eq]
    congr 2
    ext <;> simp
    field_simp
  refine ⟨[0, 0, 0, 0, 0, π / 2 + 1 / 2000000], [0, 0, 0, 0, 0, π / 2], ?_, ?_⟩
  · unfold poseDiff
    rw [key _ (by linarith) hn he, key _ hd hn' he']
    have hm : (Mat3.rotZ (π / 2)).transpose * Mat3.rotZ (π / 2 + 1 / 2000000) = Mat3.rotZ (1 / 2000000) := by
      ext <;> simp [Mat3.rotZ, cos_add, sin_add]
    have hg : (Mat3.rotZ (1 / 2000000)).getRot = 0 := by
      have : (Mat3.rotZ (1 / 2000000)).getRotAngle.2 = 0 := by
        unfold Mat3.getRotAngle
        simp only
        rw [if_pos]
        have := one_sub_sq_div_two_le_cos (x := 1 / 2000000)
        simp only [Mat3.rotZ, eps]
        norm_num at this ⊢
        linarith
      rw [Mat3.getRot, this, zero_smul]
    unfold frameDiff
    simp only [hm, hg]
    simp [twistToVector, origin]
  · rw [key _ (by linarith) hn he, key _ hd hn' he']
    intro h
    have h1 : (Mat3.rotZ (π / 2 + 1 / 2000000)).xx = (Mat3.rotZ (π / 2)).xx := by
      have := congrArg (fun f => f.M.xx) h
      exact this
    simp only [Mat3.rotZ, cos_pi_div_two, cos_add, sin_pi_div_two, zero_mul, one_mul, zero_sub,
      neg_eq_zero] at h1
    have : 0 < sin (1 / 2000000) := sin_pos_of_pos_of_lt_pi (by norm_num) (by linarith)
    linarith

/-! ## C54 -/

/-- Prismatic joints. -/
def _root_.KD.JointType.Prismatic (t : JointType) : Prop :=
  t = .transAxis ∨ t = .transX ∨ t = .transY ∨ t = .transZ

open Classical in
/-- Specification: joint values as KDL expects them (radians and meters), from values as documented
(degrees and meters). -/
noncomputable def documented : Chain → List ℝ → List ℝ
  | [], _ => []
  | s :: c, q =>
    if s.joint.type = .none then documented c q
    else match q with
      | [] => []
      | a :: q => (if s.joint.type.Prismatic then a else a * deg2rad) :: documented c q

/-- No prismatic joints. -/
def Rotational (c : Chain) : Prop := ∀ s ∈ c, ¬ s.joint.type.Prismatic

theorem documented_rotational (c : Chain) : ∀ q : List ℝ, Rotational c →
    documented c q = (q.take c.nJoints).map (· * deg2rad) := by
  induction c with
  | nil => intro q _; simp [documented, Chain.nJoints]
  | cons s c ih =>
    intro q h
    have hs : ¬ s.joint.type.Prismatic := h s (by simp)
    have hc : Rotational c := fun x hx => h x (by simp [hx])
    rw [Chain.nJoints_cons]
    unfold documented
    by_cases h0 : s.joint.type = .none
    · simp [h0, ih q hc]
    · cases q with
      | nil => simp [h0]
      | cons a q => simp [h0, hs, ih q hc, Nat.add_comm 1]

theorem fwdKin_eq (s : KdlSolver) (q : List ℝ) (hq : s.numJoints ≤ q.length) :
    s.fwdKin q = (s.chain.fk ((q.take s.numJoints).map (· * deg2rad))).map frameToVector := by
  unfold fwdKin
  show (toRadians s.numJoints q).bind _ = _
  rw [toRadians_some hq, Option.bind_some]
  cases s.chain.fk ((q.take s.numJoints).map (· * deg2rad)) <;> rfl

/-- C54: forward kinematics takes rotational joints in degrees. Partial: chains with prismatic joints are
left out; see `C54_prismatic_taken_for_degrees`. -/
theorem C54_fwdKin_degrees_partial (s : KdlSolver) (hr : Rotational s.chain) (q : List ℝ)
    (hq : s.numJoints ≤ q.length) :
    s.fwdKin q = (s.chain.fk (documented s.chain q)).map frameToVector := by
  rw [fwdKin_eq s q hq, documented_rotational _ _ hr]
  rfl

/-- A prismatic joint along the x axis. -/
noncomputable def sliderX : Chain := [Segment.make ⟨.transX, 1, 0, 0, 0⟩ 1]

theorem sliderX_fk (v : ℝ) : sliderX.fk [v] = some (Frame.trans ⟨v, 0, 0⟩) := by
  have h0 : (Joint.pose ⟨.transX, 1, 0, 0, 0⟩ 0).inv = 1 := by
    simp only [Joint.pose]
    ext <;> simp
  have h1 : Segment.pose (Segment.make ⟨.transX, 1, 0, 0, 0⟩ 1) v = Frame.trans ⟨v, 0, 0⟩ := by
    simp only [Segment.pose, Segment.make, h0, mul_one]
    simp [Joint.pose]
  show Chain.fkLoop [_] [v] 1 = _
  unfold Chain.fkLoop
  rw [if_pos (by simp [Segment.make])]
  simp only [h1, one_mul]
  rfl

/-- C54 fails for prismatic joints: they are scaled from degrees to radians, too. A joint moved by `q`
meters moves the TCP by `q * π / 180` meters. -/
theorem C54_prismatic_taken_for_degrees (q : ℝ) :
    (opened sliderX).fwdKin [q] = some [q * deg2rad, 0, 0, 0, 0, 0] ∧
    (sliderX.fk (documented sliderX [q])).map frameToVector = some [q, 0, 0, 0, 0, 0] := by
  have hp := sliderX_fk
  have hv : ∀ v, frameToVector (Frame.trans ⟨v, 0, 0⟩) = [v, 0, 0, 0, 0, 0] := by
    intro v
    simp [frameToVector, getRot_one]
  constructor
  · rw [fwdKin_eq _ _ (by show 1 ≤ 1; exact le_refl 1)]
    show (sliderX.fk [q * deg2rad]).map frameToVector = _
    rw [hp, Option.map_some, hv]
  · have : documented sliderX [q] = [q] := by
      simp [documented, sliderX, Segment.make, JointType.Prismatic]
    rw [this, hp, Option.map_some, hv]

theorem deg_rad (r : ℝ) : r * rad2deg * deg2rad = r := by
  unfold rad2deg deg2rad
  field_simp

theorem back_to_radians (l : List ℝ) : (l.map (· * rad2deg)).map (· * deg2rad) = l := by
  rw [List.map_map]
  conv_rhs => rw [← List.map_id l]
  congr 1
  funext r
  exact deg_rad r

theorem fk_of_degrees (s : KdlSolver) {r : List ℝ} {g : Frame} (h : s.chain.fk r = some g) :
    s.fwdKin (r.map (· * rad2deg)) = some (frameToVector g) := by
  have hr : r.length = s.numJoints := (Chain.fk_isSome _ _).mp (by rw [h]; rfl)
  rw [fwdKin_eq _ _ (by simp [hr]), List.take_of_length_le (by simp [hr]), back_to_radians, h]
  rfl

/-- C54: `invKin` answers in the units `fwdKin` takes, for every chain: if the position solver finds
joints for the requested pose, those returned lead `fwdKin` to it. -/
theorem C54_invKin_units (ik : PosSolver) (s : KdlSolver) (xd qGuess : List ℝ)
    (hq : s.numJoints ≤ qGuess.length) (ret : ℤ) (r : List ℝ) (hret : 0 ≤ ret)
    (hik : ik s.chain ((qGuess.take s.numJoints).map (· * deg2rad)) (vectorToFrame xd) = (ret, r))
    (hr : s.chain.fk r = some (vectorToFrame xd)) :
    ∃ q, s.invKin ik xd qGuess .base = some (some q) ∧
      s.fwdKin q = some (frameToVector (vectorToFrame xd)) := by
  refine ⟨_, ?_, fk_of_degrees s hr⟩
  unfold invKin
  show (toRadians s.numJoints qGuess).bind _ = _
  rw [toRadians_some hq, Option.bind_some]
  simp only [hik]
  rw [if_neg (not_lt.mpr hret)]
  rfl

/-- C54 with a pose given in the TCP frame: it comes after the pose of the guess. -/
theorem C54_invKin_units_tcp (ik : PosSolver) (s : KdlSolver) (xd qGuess : List ℝ)
    (hq : s.numJoints ≤ qGuess.length) (f : Frame)
    (hf : s.chain.fk ((qGuess.take s.numJoints).map (· * deg2rad)) = some f) (ret : ℤ) (r : List ℝ)
    (hret : 0 ≤ ret)
    (hik : ik s.chain ((qGuess.take s.numJoints).map (· * deg2rad)) (f * vectorToFrame xd) = (ret, r))
    (hr : s.chain.fk r = some (f * vectorToFrame xd)) :
    s.fwdKin qGuess = some (frameToVector f) ∧
    ∃ q, s.invKin ik xd qGuess .tcp = some (some q) ∧
      s.fwdKin q = some (frameToVector (f * vectorToFrame xd)) := by
  refine ⟨by rw [fwdKin_eq _ _ hq, hf]; rfl, _, ?_, fk_of_degrees s hr⟩
  unfold invKin
  show (toRadians s.numJoints qGuess).bind _ = _
  rw [toRadians_some hq, Option.bind_some]
  show (s.chain.fk _).bind _ = _
  rw [hf, Option.bind_some]
  simp only [hik]
  rw [if_neg (not_lt.mpr hret)]
  rfl

/-- The prismatic joint, with the solver that reads the position off. -/
example : ∃ (ik : PosSolver) (r : List ℝ), (opened sliderX).numJoints ≤ [(0 : ℝ)].length ∧
    ik sliderX (([0].take 1).map (· * deg2rad)) (vectorToFrame [3, 0, 0, 0, 0, 0]) = (0, r) ∧
    sliderX.fk r = some (vectorToFrame [3, 0, 0, 0, 0, 0]) := by
  refine ⟨fun _ _ f => (0, [f.p.x]), [3], le_refl 1, rfl, ?_⟩
  have h := (C54_prismatic_taken_for_degrees 3).2
  have h0 : Mat3.rot ⟨0, 0, 0⟩ (Vec3.norm ⟨0, 0, 0⟩) = 1 := by
    have : Vec3.norm ⟨0, 0, 0⟩ = 0 := Vec3.norm_zero
    rw [this, Mat3.rot, Mat3.rot2_zero]
  have e : vectorToFrame [3, 0, 0, 0, 0, 0] = Frame.trans ⟨3, 0, 0⟩ := by
    simp only [vectorToFrame, h0]; rfl
  rw [e, sliderX_fk]

theorem advance_radians (t : ℝ) : ∀ (q r : List ℝ), q.length = r.length →
    (advance q (r.map (· * rad2deg)) t).map (· * deg2rad) = advance (q.map (· * deg2rad)) r t
  | [], [], _ => rfl
  | a :: q, b :: r, h => by
    have ih := advance_radians t q r (by simpa using h)
    simp only [advance, List.map_cons, List.zipWith_cons_cons] at ih ⊢
    rw [ih]
    congr 1
    have := deg_rad b
    linear_combination t * this
  | [], _ :: _, h => by simp at h
  | _ :: _, [], h => by simp at h

theorem advance_length (q r : List ℝ) (t : ℝ) : (advance q r t).length = min q.length r.length := by
  simp [advance]

theorem advance_take (t : ℝ) : ∀ (q r : List ℝ), advance q r t = advance (q.take r.length) r t
  | [], _ => by simp [advance]
  | _ :: _, [] => by simp [advance]
  | a :: q, b :: r => by
    have ih := advance_take t q r
    simp only [advance, List.zipWith_cons_cons, List.length_cons, List.take_succ_cons] at ih ⊢
    rw [ih]

theorem exists_jacLoop (c : Chain) : ∀ (q : List ℝ) (f : Frame) (cols : List Twist),
    q.length = c.nJoints → ∃ cols', Chain.jacLoop c q f cols = some cols' := by
  induction c with
  | nil =>
    intro q f cols h
    have : q = [] := List.length_eq_zero_iff.mp h
    exact ⟨cols, by rw [this]; rfl⟩
  | cons s c ih =>
    intro q f cols h
    rw [Chain.nJoints_cons] at h
    unfold Chain.jacLoop
    split_ifs at h ⊢ with hn
    · cases q with
      | nil => simp at h; omega
      | cons a q => exact ih _ _ _ (by simp only [List.length_cons] at h; omega)
    · exact ih _ _ _ (by omega)

theorem advance_zero : ∀ (a b : List ℝ), a.length = b.length → advance a b 0 = a := by
  intro a
  induction a with
  | nil => intro b _; simp [advance]
  | cons x a ih =>
    intro b hb
    cases b with
    | nil => simp at hb
    | cons y b =>
      have := ih b (by simpa using hb)
      simp only [advance, List.zipWith_cons_cons, zero_mul, add_zero] at this ⊢
      rw [this]

theorem moves_in_degrees (s : KdlSolver) (hw : s.chain.Wf) (hr : Rotational s.chain) (q v : List ℝ)
    (hq : s.numJoints ≤ q.length) (hv : v.length = s.numJoints) (cols : List Twist)
    (hj : s.chain.jacobian ((q.take s.numJoints).map (· * deg2rad)) = some cols) :
    ∃ F : ℝ → Frame,
      (∀ t, s.chain.fk (documented s.chain (advance q (v.map (· * rad2deg)) t)) = some (F t)) ∧
      Frame.MovesWith F (Twist.combine v cols) 0 := by
  have hl : ((q.take s.numJoints).map (· * deg2rad)).length = s.numJoints := by simpa using hq
  obtain ⟨F, hF, -, hm⟩ := Chain.jacobian_moves hw (qd := v) (hv.trans hl.symm) hj
  refine ⟨F, fun t => ?_, hm⟩
  rw [documented_rotational _ _ hr, advance_take]
  simp only [List.length_map, hv]
  rw [List.take_of_length_le]
  · rw [advance_radians]
    · exact hF t
    · simp only [List.length_take, hv]
      exact min_eq_left hq
  · rw [advance_length]
    simp only [List.length_map, hv]
    exact min_le_right _ _

/-- C54: `diffInvKin` answers in degrees per second: if the velocity solver finds joint speeds for the
requested twist, then joints moving at the returned speeds move the TCP with that twist. Partial: chains
with prismatic joints are left out. -/
theorem C54_diffInvKin_units_partial (ik : VelSolver) (s : KdlSolver) (hw : s.chain.Wf)
    (hr : Rotational s.chain) (q xdot : List ℝ) (hq : s.numJoints ≤ q.length) (cols : List Twist)
    (hj : s.chain.jacobian ((q.take s.numJoints).map (· * deg2rad)) = some cols)
    (ret : ℤ) (v : List ℝ) (hret : 0 ≤ ret) (hv : v.length = s.numJoints)
    (hik : ik s.chain ((q.take s.numJoints).map (· * deg2rad)) (vectorToTwist xdot) = (ret, v))
    (hs : Twist.combine v cols = vectorToTwist xdot) :
    ∃ qdot, s.diffInvKin ik q xdot .base = some (some qdot) ∧
      ∃ F : ℝ → Frame, (∀ t, s.chain.fk (documented s.chain (advance q qdot t)) = some (F t)) ∧
        Frame.MovesWith F (vectorToTwist xdot) 0 := by
  obtain ⟨F, hF, hm⟩ := moves_in_degrees s hw hr q v hq hv cols hj
  refine ⟨_, ?_, F, hF, hs ▸ hm⟩
  unfold diffInvKin
  show (toRadians s.numJoints q).bind _ = _
  rw [toRadians_some hq, Option.bind_some]
  simp only [hik]
  rw [if_neg (not_lt.mpr hret)]
  rfl

/-- C54 with a twist given in the TCP frame. -/
theorem C54_diffInvKin_units_tcp_partial (ik : VelSolver) (s : KdlSolver) (hw : s.chain.Wf)
    (hr : Rotational s.chain) (q xdot : List ℝ) (hq : s.numJoints ≤ q.length) (cols : List Twist)
    (hj : s.chain.jacobian ((q.take s.numJoints).map (· * deg2rad)) = some cols)
    (f : Frame) (hf : s.chain.fk ((q.take s.numJoints).map (· * deg2rad)) = some f)
    (ret : ℤ) (v : List ℝ) (hret : 0 ≤ ret) (hv : v.length = s.numJoints)
    (hik : ik s.chain ((q.take s.numJoints).map (· * deg2rad))
      (Twist.rotate f.M (vectorToTwist xdot)) = (ret, v))
    (hs : Twist.combine v cols = Twist.rotate f.M (vectorToTwist xdot)) :
    ∃ qdot, s.diffInvKin ik q xdot .tcp = some (some qdot) ∧
      ∃ F : ℝ → Frame, (∀ t, s.chain.fk (documented s.chain (advance q qdot t)) = some (F t)) ∧
        Frame.MovesWith F (Twist.rotate (F 0).M (vectorToTwist xdot)) 0 := by
  obtain ⟨F, hF, hm⟩ := moves_in_degrees s hw hr q v hq hv cols hj
  refine ⟨_, ?_, F, hF, ?_⟩
  · unfold diffInvKin
    show (toRadians s.numJoints q).bind _ = _
    rw [toRadians_some hq, Option.bind_some]
    show (s.chain.fk _).bind _ = _
    rw [hf, Option.bind_some]
    simp only [hik]
    rw [if_neg (not_lt.mpr hret)]
    rfl
  · have h0 := hF 0
    have ha : advance q (v.map (· * rad2deg)) 0 = q.take s.numJoints := by
      rw [advance_take]
      simp only [List.length_map, hv]
      exact advance_zero _ _ (by simp only [List.length_take, List.length_map, hv]; exact min_eq_left hq)
    rw [documented_rotational _ _ hr, ha, List.take_take,
      show s.chain.nJoints = s.numJoints from rfl, min_self, hf, Option.some.injEq] at h0
    rw [← h0]
    exact hs ▸ hm

/-- The Jacobian the two theorems speak about exists. -/
theorem exists_jacobian (s : KdlSolver) (q : List ℝ) (hq : s.numJoints ≤ q.length) :
    ∃ cols, s.chain.jacobian ((q.take s.numJoints).map (· * deg2rad)) = some cols :=
  exists_jacLoop _ _ _ _ (by
    simp only [List.length_map, List.length_take]
    exact min_eq_left hq)

/-- A rotational joint with a link of one meter, asked for a tangential velocity of two meters per second
and the angular velocity that goes with it. -/
noncomputable def crank : Chain := [Segment.make ⟨.rotZ, 1, 0, 0, 0⟩ (Frame.trans ⟨1, 0, 0⟩)]

example : crank.Wf ∧ Rotational crank ∧ crank.jacobian [0] = some [⟨⟨0, 1, 0⟩, ⟨0, 0, 1⟩⟩] ∧
    Twist.combine [2] [⟨⟨0, 1, 0⟩, ⟨0, 0, 1⟩⟩] = vectorToTwist [0, 2, 0, 0, 0, 2] := by
  have h0 : (Joint.pose ⟨.rotZ, 1, 0, 0, 0⟩ 0) = 1 := by
    simp only [Joint.pose, rotZ_eq, one_mul, add_zero, Mat3.rot2_zero]
    rfl
  refine ⟨?_, ?_, ?_, ?_⟩
  · intro s hs
    simp only [crank, List.mem_singleton] at hs
    subst hs
    refine ⟨fun h => by simp [Segment.make] at h, ?_⟩
    show Frame.IsRigid (_ * _)
    rw [h0]
    simpa using Frame.isRigid_trans _
  · intro s hs
    simp only [crank, List.mem_singleton] at hs
    subst hs
    simp [Segment.make, JointType.Prismatic]
  · show Chain.jacLoop [_] [0] 1 [] = _
    unfold Chain.jacLoop
    rw [if_pos (by simp [Segment.make])]
    simp only [Chain.jacLoop, List.map_nil, List.nil_append, Segment.twist, Segment.make, h0]
    simp only [Option.some.injEq, List.cons.injEq, and_true]
    ext <;> simp [Twist.rotate, Twist.refPoint, Joint.twist]
  · simp only [Twist.combine, vectorToTwist]
    ext <;> simp

end KdlSolver

end KD
