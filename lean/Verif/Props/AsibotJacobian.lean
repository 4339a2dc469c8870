import Verif.Props.Asibot

/-!
# C57: the Jacobians of the ASIBOT solver are the derivatives of forward kinematics
-/

namespace KD

namespace Asibot

open Real KinRepr

/-- Joints that start at `q` and turn at the rates `v`. -/
def Joints.advance (q v : Joints) (t : ℝ) : Joints :=
  ⟨q.q1 + t * v.q1, q.q2 + t * v.q2, q.q3 + t * v.q3, q.q4 + t * v.q4, q.q5 + t * v.q5⟩

theorem turnZ_movesWith (a w : ℝ) : Frame.MovesWith (fun t => turnZ (a + t * w)) ⟨0, ⟨0, 0, w⟩⟩ 0 := by
  have h := (rot2_movesWith (a := ⟨0, 0, 1⟩) (by simp [Vec3.dot]) 0 (w * 0 + a)).comp
  have e : (fun t => turnZ (a + t * w)) = fun s => ⟨Mat3.rot2 ⟨0, 0, 1⟩ (w * s + a), 0⟩ := by
    funext t
    rw [turnZ, rotZ_eq, show a + t * w = w * t + a by ring]
  rw [e]
  exact h.congr (by ext <;> simp)

theorem turnY_movesWith (a w : ℝ) : Frame.MovesWith (fun t => turnY (a + t * w)) ⟨0, ⟨0, w, 0⟩⟩ 0 := by
  have h := (rot2_movesWith (a := ⟨0, 1, 0⟩) (by simp [Vec3.dot]) 0 (w * 0 + a)).comp
  have e : (fun t => turnY (a + t * w)) = fun s => ⟨Mat3.rot2 ⟨0, 1, 0⟩ (w * s + a), 0⟩ := by
    funext t
    rw [turnY, rotY_eq, show a + t * w = w * t + a by ring]
  rw [e]
  exact h.congr (by ext <;> simp)

theorem turnZ_rigid (a : ℝ) : (turnZ a).IsRigid := by
  unfold Frame.IsRigid turnZ
  rw [rotZ_eq]; exact Mat3.rot2_isRot (by simp [Vec3.dot]) _

theorem turnY_rigid (a : ℝ) : (turnY a).IsRigid := by
  unfold Frame.IsRigid turnY
  rw [rotY_eq]; exact Mat3.rot2_isRot (by simp [Vec3.dot]) _

theorem sin_rate (a w : ℝ) : HasDerivAt (fun t => sin (a + t * w)) (cos a * w) 0 := by
  have h : HasDerivAt (fun t : ℝ => a + t * w) w 0 := by
    simpa using ((hasDerivAt_id (0 : ℝ)).mul_const w).const_add a
  simpa using h.sin

theorem cos_rate (a w : ℝ) : HasDerivAt (fun t => cos (a + t * w)) (-sin a * w) 0 := by
  have h : HasDerivAt (fun t : ℝ => a + t * w) w 0 := by
    simpa using ((hasDerivAt_id (0 : ℝ)).mul_const w).const_add a
  simpa using h.cos

theorem radial_rate (s : Solver) (q v : Joints) : HasDerivAt (fun t => radial s (q.advance v t))
    (s.A3 * (cos (q.q2 + q.q3 + q.q4) * (v.q2 + v.q3 + v.q4)) + s.A2 * (cos (q.q2 + q.q3) * (v.q2 + v.q3)) +
      s.A1 * (cos q.q2 * v.q2)) 0 := by
  have h1 := (sin_rate q.q2 v.q2).const_mul s.A1
  have h2 := (sin_rate (q.q2 + q.q3) (v.q2 + v.q3)).const_mul s.A2
  have h3 := (sin_rate (q.q2 + q.q3 + q.q4) (v.q2 + v.q3 + v.q4)).const_mul s.A3
  refine ((h3.add h2).add h1).congr_of_eventuallyEq (Filter.Eventually.of_forall fun t => ?_)
  simp only [radial, Joints.advance, Pi.add_apply]
  rw [show q.q2 + t * v.q2 + (q.q3 + t * v.q3) + (q.q4 + t * v.q4) =
      q.q2 + q.q3 + q.q4 + t * (v.q2 + v.q3 + v.q4) by ring,
    show q.q2 + t * v.q2 + (q.q3 + t * v.q3) = q.q2 + q.q3 + t * (v.q2 + v.q3) by ring]
  ring

theorem height_rate (s : Solver) (q v : Joints) : HasDerivAt (fun t => height s (q.advance v t))
    (s.A3 * (-sin (q.q2 + q.q3 + q.q4) * (v.q2 + v.q3 + v.q4)) + s.A2 * (-sin (q.q2 + q.q3) * (v.q2 + v.q3)) +
      s.A1 * (-sin q.q2 * v.q2)) 0 := by
  have h1 := (cos_rate q.q2 v.q2).const_mul s.A1
  have h2 := (cos_rate (q.q2 + q.q3) (v.q2 + v.q3)).const_mul s.A2
  have h3 := (cos_rate (q.q2 + q.q3 + q.q4) (v.q2 + v.q3 + v.q4)).const_mul s.A3
  refine ((h3.add h2).add h1).congr_of_eventuallyEq (Filter.Eventually.of_forall fun t => ?_)
  simp only [height, Joints.advance, Pi.add_apply]
  rw [show q.q2 + t * v.q2 + (q.q3 + t * v.q3) + (q.q4 + t * v.q4) =
      q.q2 + q.q3 + q.q4 + t * (v.q2 + v.q3 + v.q4) by ring,
    show q.q2 + t * v.q2 + (q.q3 + t * v.q3) = q.q2 + q.q3 + t * (v.q2 + v.q3) by ring]
  ring

theorem Joints.advance_zero (q v : Joints) : q.advance v 0 = q := by
  ext <;> simp [Joints.advance]

/-- Without tool, the base-frame Jacobian is the derivative of the pose of the arm, for every joint
configuration, all rates and all link lengths. -/
theorem C57_base_jacobian (s : Solver) (q v : Joints) :
    Frame.MovesWith (fun t => arm s (q.advance v t)) (Twist.combine v.toList (baseJacobian s q)) 0 := by
  constructor
  · simp only [arm_p]
    have hr := radial_rate s q v
    have hh := height_rate s q v
    have hc := cos_rate q.q1 v.q1
    have hs := sin_rate q.q1 v.q1
    refine ⟨?_, ?_, ?_⟩
    · refine (hr.mul hc).congr_deriv ?_
      simp only [Joints.advance_zero]
      simp [Twist.combine, Joints.toList, baseJacobian, radial]
      ring
    · refine (hr.mul hs).congr_deriv ?_
      simp only [Joints.advance_zero]
      simp [Twist.combine, Joints.toList, baseJacobian, radial]
      ring
    · refine (hh.add_const s.A0).congr_deriv ?_
      simp [Twist.combine, Joints.toList, baseJacobian]
      ring
  · have h := ((turnZ_movesWith q.q1 v.q1).mul
      (turnY_movesWith (q.q2 + q.q3 + q.q4) (v.q2 + v.q3 + v.q4)) (turnZ_rigid _)).mul
      (turnZ_movesWith q.q5 v.q5) ((turnZ_rigid _).mul (turnY_rigid _))
    intro u
    have hu := h.turn u
    have e : ∀ t, (turnZ (q.q1 + t * v.q1) * turnY (q.q2 + q.q3 + q.q4 + t * (v.q2 + v.q3 + v.q4)) *
        turnZ (q.q5 + t * v.q5)).M = (arm s (q.advance v t)).M := by
      intro t
      rw [arm_M]
      simp only [Joints.advance, Mat3.eulerZYZ, turnZ, turnY, Frame.mul_M]
      rw [show q.q2 + t * v.q2 + (q.q3 + t * v.q3) + (q.q4 + t * v.q4) =
        q.q2 + q.q3 + q.q4 + t * (v.q2 + v.q3 + v.q4) by ring]
    simp only [e] at hu
    refine hu.congr ?_
    congr 1
    simp only [Twist.combine, Joints.toList, baseJacobian, Twist.refPoint, Twist.rotate, turnZ, turnY,
      zero_mul, add_zero]
    generalize q.q2 + q.q3 + q.q4 = b
    ext
    · simp [Mat3.rotZ, Mat3.rotY]; ring
    · simp [Mat3.rotZ, Mat3.rotY]; ring
    · simp [Mat3.rotZ, Mat3.rotY]; ring

theorem Twist.rotate_add (m : Mat3) (a b : Twist) : Twist.rotate m (a + b) = Twist.rotate m a + Twist.rotate m b := by
  ext <;> simp [Twist.rotate] <;> ring

theorem Twist.rotate_smul (m : Mat3) (k : ℝ) (a : Twist) : Twist.rotate m (k • a) = k • Twist.rotate m a := by
  ext <;> simp [Twist.rotate] <;> ring

theorem Twist.rotate_combine (m : Mat3) : ∀ (as : List ℝ) (cs : List Twist),
    Twist.rotate m (Twist.combine as cs) = Twist.combine as (cs.map (Twist.rotate m))
  | [], _ => by simp [Twist.combine]; ext <;> simp [Twist.rotate]
  | _ :: _, [] => by simp [Twist.combine]; ext <;> simp [Twist.rotate]
  | a :: as, c :: cs => by
    simp only [Twist.combine, List.map_cons]
    rw [Twist.rotate_add, Twist.rotate_smul, Twist.rotate_combine m as cs]

theorem hand_mulVec (e b f X Y Z : ℝ) :
    (Mat3.eulerZYZ e b f).mulVec ⟨cos f * X + sin f * Y, cos f * Y - sin f * X, Z⟩ =
      ⟨cos e * (cos b * X + sin b * Z) - sin e * Y, sin e * (cos b * X + sin b * Z) + cos e * Y,
        cos b * Z - sin b * X⟩ := by
  have h := sin_sq_add_cos_sq f
  ext
  · simp [Mat3.eulerZYZ, Mat3.rotZ, Mat3.rotY]
    linear_combination (cos e * cos b * X - sin e * Y) * h
  · simp [Mat3.eulerZYZ, Mat3.rotZ, Mat3.rotY]
    linear_combination (sin e * cos b * X + cos e * Y) * h
  · simp [Mat3.eulerZYZ, Mat3.rotZ, Mat3.rotY]
    linear_combination (- sin b * X) * h

theorem hand_mulVec' {e b f X Y Z : ℝ} {v w : Vec3}
    (hv : v = ⟨cos f * X + sin f * Y, cos f * Y - sin f * X, Z⟩)
    (hw : w = ⟨cos e * (cos b * X + sin b * Z) - sin e * Y, sin e * (cos b * X + sin b * Z) + cos e * Y,
        cos b * Z - sin b * X⟩) : (Mat3.eulerZYZ e b f).mulVec v = w := by
  rw [hv, hw, hand_mulVec]

/-- The TCP-frame Jacobian is the base-frame one, seen from the end effector. -/
theorem tcpJacobian_rotate (s : Solver) (q : Joints) :
    (tcpJacobian s q).map (Twist.rotate (arm s q).M) = baseJacobian s q := by
  rw [arm_M]
  have hb : q.q4 = (q.q2 + q.q3 + q.q4) - (q.q2 + q.q3) := by ring
  have h34 : q.q3 + q.q4 = (q.q2 + q.q3 + q.q4) - q.q2 := by ring
  have hs4 := congrArg sin hb
  have hc4 := congrArg cos hb
  have hs34 := congrArg sin h34
  have hc34 := congrArg cos h34
  rw [sin_sub] at hs4 hs34
  rw [cos_sub] at hc4 hc34
  simp only [tcpJacobian, baseJacobian, List.map_cons, List.map_nil, hs4, hc4, hs34, hc34, Twist.rotate]
  generalize q.q2 + q.q3 + q.q4 = b
  generalize q.q2 + q.q3 = a
  generalize q.q2 = d
  generalize q.q1 = e
  generalize q.q5 = f
  have h2 := sin_sq_add_cos_sq b
  refine congr (congrArg List.cons ?_) (congr (congrArg List.cons ?_) (congr (congrArg List.cons ?_)
    (congr (congrArg List.cons ?_) (congr (congrArg List.cons ?_) rfl))))
  · refine Twist.ext ?_ ?_
    · refine hand_mulVec' (X := 0) (Y := s.A3 * sin b + s.A2 * sin a + s.A1 * sin d) (Z := 0) ?_ ?_
      · ext <;> simp
      · ext <;> simp
    · refine hand_mulVec' (X := -sin b) (Y := 0) (Z := cos b) ?_ ?_
      · ext <;> simp <;> ring
      · ext
        · simp; right; ring
        · simp; right; ring
        · simp; linear_combination -h2
  · refine Twist.ext ?_ ?_
    · refine hand_mulVec' (X := s.A3 + s.A2 * (cos b * cos a + sin b * sin a) + s.A1 * (cos b * cos d + sin b * sin d))
        (Y := 0) (Z := s.A2 * (sin b * cos a - cos b * sin a) + s.A1 * (sin b * cos d - cos b * sin d)) ?_ ?_
      · ext <;> simp <;> ring
      · ext
        · simp only [mul_zero, sub_zero]
          linear_combination (-cos e * (s.A2 * cos a + s.A1 * cos d)) * h2
        · simp only [mul_zero, add_zero]
          linear_combination (-sin e * (s.A2 * cos a + s.A1 * cos d)) * h2
        · linear_combination (s.A2 * sin a + s.A1 * sin d) * h2
    · refine hand_mulVec' (X := 0) (Y := 1) (Z := 0) ?_ ?_
      · ext <;> simp
      · ext <;> simp
  · refine Twist.ext ?_ ?_
    · refine hand_mulVec' (X := s.A3 + s.A2 * (cos b * cos a + sin b * sin a))
        (Y := 0) (Z := s.A2 * (sin b * cos a - cos b * sin a)) ?_ ?_
      · ext <;> simp <;> ring
      · ext
        · simp only [mul_zero, sub_zero]
          linear_combination (-cos e * (s.A2 * cos a)) * h2
        · simp only [mul_zero, add_zero]
          linear_combination (-sin e * (s.A2 * cos a)) * h2
        · linear_combination (s.A2 * sin a) * h2
    · refine hand_mulVec' (X := 0) (Y := 1) (Z := 0) ?_ ?_
      · ext <;> simp
      · ext <;> simp
  · refine Twist.ext ?_ ?_
    · refine hand_mulVec' (X := s.A3) (Y := 0) (Z := 0) ?_ ?_
      · ext <;> simp
      · ext <;> simp <;> ring
    · refine hand_mulVec' (X := 0) (Y := 1) (Z := 0) ?_ ?_
      · ext <;> simp
      · ext <;> simp
  · refine Twist.ext ?_ ?_
    · refine hand_mulVec' (X := 0) (Y := 0) (Z := 0) ?_ ?_
      · ext <;> simp
      · ext <;> simp
    · refine hand_mulVec' (X := 0) (Y := 0) (Z := 1) ?_ ?_
      · ext <;> simp
      · ext <;> simp

/-- Without tool, the TCP-frame Jacobian is that derivative in the basis of the end effector. -/
theorem C57_tcp_jacobian (s : Solver) (q v : Joints) :
    Frame.MovesWith (fun t => arm s (q.advance v t))
      (Twist.rotate (arm s q).M (Twist.combine v.toList (tcpJacobian s q))) 0 := by
  rw [Twist.rotate_combine, tcpJacobian_rotate]
  exact C57_base_jacobian s q v

/-! ## The whole call, tool included -/

theorem shiftColumn_eq {m : Mat3} (hm : m.IsRot) (t : Vec3) (c : Twist) :
    shiftColumn m t c = c.refPoint (m.mulVec t) := by
  have h : (negMat (m * crossMatrix t * m.transpose)).mulVec c.rot = Vec3.cross c.rot (m.mulVec t) := by
    have h1 : (negMat (m * crossMatrix t * m.transpose)).mulVec c.rot =
        -(m.mulVec (Vec3.cross t (m.transpose.mulVec c.rot))) := by
      ext <;> simp [negMat, crossMatrix] <;> ring
    have h2 : m.mulVec (m.transpose.mulVec c.rot) = c.rot := hm.mulVec_transpose _
    rw [h1, ← Mat3.IsRot.cross hm, h2]
    ext <;> simp <;> ring
  simp only [shiftColumn, Twist.refPoint, h]

theorem Twist.refPoint_add (a b : Twist) (v : Vec3) : (a + b).refPoint v = a.refPoint v + b.refPoint v := by
  ext <;> simp [Twist.refPoint] <;> ring

theorem Twist.refPoint_smul (k : ℝ) (a : Twist) (v : Vec3) : (k • a).refPoint v = k • a.refPoint v := by
  ext <;> simp [Twist.refPoint] <;> ring

theorem Twist.refPoint_combine (v : Vec3) : ∀ (as : List ℝ) (cs : List Twist),
    (Twist.combine as cs).refPoint v = Twist.combine as (cs.map fun c => c.refPoint v)
  | [], _ => by simp [Twist.combine]; ext <;> simp [Twist.refPoint]
  | _ :: _, [] => by simp [Twist.combine]; ext <;> simp [Twist.refPoint]
  | a :: as, c :: cs => by
    simp only [Twist.combine, List.map_cons]
    rw [Twist.refPoint_add, Twist.refPoint_smul, Twist.refPoint_combine v as cs]

/-- The end effector moves with the twist of the arm, referred to the tip of the tool. -/
theorem tcp_movesWith (s : Solver) (q v : Joints) :
    Frame.MovesWith (fun t => arm s (q.advance v t) * s.frameTcp)
      ((Twist.combine v.toList (baseJacobian s q)).refPoint ((arm s q).M.mulVec s.frameTcp.p)) 0 := by
  have h := (C57_base_jacobian s q v).mul (Frame.MovesWith.const s.frameTcp 0) (arm_rigid _ _)
  refine h.congr ?_
  rw [Joints.advance_zero]
  ext <;> simp [Twist.rotate]

/-- The matrix that `diffInvKin` takes the rotation from. -/
theorem fwdKin_matrix {svd : Mat3 → Vec3} (hsvd : GoodSvd svd) {s : Solver} (hs : s.Wf)
    (ht : s.hasFrame = true) {q : List ℝ} {qd : Joints} (hq : Joints.read q = some qd)
    (ha : 0 < radial s qd.inRadians) (hr : (arm s qd.inRadians).M.Regular) (hr' : (tcp s qd).M.Regular) :
    ∃ x, fwdKin svd s q = some x ∧ vectorToMatrix x = some (tcp s qd) := by
  have hR : (codedRot s qd).Regular := by rw [codedRot_ahead ha]; exact hr
  have hI := codedRot_isRot s qd
  have he : (⟨Mat3.expRot (codedRot s qd).getRot, (arm s qd.inRadians).p⟩ : Frame) = arm s qd.inRadians := by
    rw [hI.expRot_getRot hR, codedRot_ahead ha]
  rw [fwdKin_tool svd ht hq, vectorToMatrix_six (hI.getRot_cases hR), he]
  refine ⟨_, rfl, ?_⟩
  have hrig : (tcp s qd).IsRigid := (arm_rigid s _).mul hs.rigid
  change vectorToMatrix (matrixToVector svd (tcp s qd)) = _
  rw [vectorToMatrix_eq (by rw [matrixToVector_six]; simp [sixOf])
    (by rw [matrixToVector_six, rotOf_six]; exact rotVector_cases hsvd hrig hr')]
  rw [standard_matrixToVector hsvd hrig hr']

theorem inRadians_advance (q v : Joints) (t : ℝ) :
    (q.advance v t).inRadians = q.inRadians.advance v.inRadians t := by
  ext <;> simp [Joints.advance, Joints.inRadians, degToRad] <;> ring

/-- The answer of the pseudoinverse, in degrees. -/
noncomputable def degrees (v : Joints) : Joints :=
  ⟨radToDeg v.q1, radToDeg v.q2, radToDeg v.q3, radToDeg v.q4, radToDeg v.q5⟩

theorem degrees_inRadians (v : Joints) : (degrees v).inRadians = v := by
  have h := pi_ne_zero
  ext <;> simp [degrees, Joints.inRadians, degToRad, radToDeg] <;> field_simp

/-- What `jacobian` gives with a tool, in the base frame. -/
theorem jacobian_tool {svd : Mat3 → Vec3} (hsvd : GoodSvd svd) {s : Solver} (hs : s.Wf)
    (ht : s.hasFrame = true) {q : List ℝ} {qd : Joints} (hq : Joints.read q = some qd)
    (ha : 0 < radial s qd.inRadians) (hr : (arm s qd.inRadians).M.Regular) (hr' : (tcp s qd).M.Regular) :
    jacobian svd s q .base = some (some ((baseJacobian s qd.inRadians).map
      fun c => c.refPoint ((tcp s qd).M.mulVec s.frameTcp.p))) ∧
    jacobian svd s q .tcp = some (some ((tcpJacobian s qd.inRadians).map
      fun c => c.refPoint ((tcp s qd).M.mulVec s.frameTcp.p))) := by
  obtain ⟨x, h1, h2⟩ := fwdKin_matrix hsvd hs ht hq ha hr hr'
  have hrig : (tcp s qd).M.IsRot := (arm_rigid s _).mul hs.rigid
  have e : shiftColumn (tcp s qd).M s.frameTcp.p = fun c => c.refPoint ((tcp s qd).M.mulVec s.frameTcp.p) := by
    funext c; exact shiftColumn_eq hrig _ _
  constructor
  · simp only [jacobian, hq, ht, h1, h2, Option.bind_eq_bind, Option.bind_some, if_true, Option.pure_def, e]
  · simp only [jacobian, hq, ht, h1, h2, Option.bind_eq_bind, Option.bind_some, if_true, Option.pure_def, e]

/-- Joint velocities that solve the equation of the Jacobian make the end effector move with the requested
twist, in the base frame, with the joints and their velocities in degrees. Missing: with a tool, only those
of which the rotation keeps the translation, as those without rotation (`C57_rotated_tool_wrong`), and only
in front of the base axis; the pseudoinverse is a parameter. -/
theorem C57_base_motion_partial {svd : Mat3 → Vec3} (hsvd : GoodSvd svd) (pinv : Pinv) {s : Solver}
    (hs : s.Wf) {q : List ℝ} {qd v : Joints} {xdot : Twist} (hq : Joints.read q = some qd)
    (ht : s.hasFrame = true → 0 < radial s qd.inRadians ∧ (arm s qd.inRadians).M.Regular ∧
      (tcp s qd).M.Regular ∧ s.frameTcp.M.mulVec s.frameTcp.p = s.frameTcp.p)
    (hp : ∀ J, jacobian svd s q .base = some (some J) → Twist.combine (pinv J xdot).toList J = xdot)
    (h : diffInvKin svd pinv s q xdot .base = some (some v)) :
    Frame.MovesWith (fun t => tcp s (qd.advance v t)) xdot 0 := by
  have main : ∀ J, jacobian svd s q .base = some (some J) →
      J = (baseJacobian s qd.inRadians).map (fun c => c.refPoint ((arm s qd.inRadians).M.mulVec s.frameTcp.p)) →
      Frame.MovesWith (fun t => tcp s (qd.advance v t)) xdot 0 := by
    intro J hJ hJ'
    have hsolve := hp J hJ
    unfold diffInvKin at h
    rw [hJ] at h
    simp only [Option.bind_eq_bind, Option.bind_some, Option.pure_def, Option.some.injEq] at h
    have hv : v.inRadians = pinv J xdot := by
      rw [← h]; exact degrees_inRadians _
    have hm := tcp_movesWith s qd.inRadians v.inRadians
    rw [Twist.refPoint_combine, ← hJ', hv, hsolve, ← hv] at hm
    simpa only [tcp, inRadians_advance] using hm
  cases hf : s.hasFrame
  · refine main (baseJacobian s qd.inRadians) ?_ ?_
    · simp only [jacobian, hq, hf, Option.bind_eq_bind, Option.bind_some, Bool.false_eq_true, if_false,
        Option.pure_def]
    · have : (fun c : Twist => c.refPoint ((arm s qd.inRadians).M.mulVec s.frameTcp.p)) = id := by
        funext c
        rw [hs.none hf]
        ext <;> simp [Twist.refPoint]
      rw [this, List.map_id]
  · obtain ⟨h1, h2, h3, h4⟩ := ht hf
    refine main _ (jacobian_tool hsvd hs hf hq h1 h2 h3).1 ?_
    rw [tcp, Frame.mul_M, Mat3.mulVec_mul, h4]

/-- The same in the frame of the end effector, without tool. Missing: with a tool the code is wrong
(`C57_tcp_tool_wrong`). -/
theorem C57_tcp_motion_partial (svd : Mat3 → Vec3) (pinv : Pinv) {s : Solver}
    (hs : s.Wf) {q : List ℝ} {qd v : Joints} {xdot : Twist} (hq : Joints.read q = some qd)
    (ht : s.hasFrame = false)
    (hp : ∀ J, jacobian svd s q .tcp = some (some J) → Twist.combine (pinv J xdot).toList J = xdot)
    (h : diffInvKin svd pinv s q xdot .tcp = some (some v)) :
    Frame.MovesWith (fun t => tcp s (qd.advance v t)) (Twist.rotate (tcp s qd).M xdot) 0 := by
  have hJ : jacobian svd s q .tcp = some (some (tcpJacobian s qd.inRadians)) := by
    simp only [jacobian, hq, ht, Option.bind_eq_bind, Option.bind_some, Bool.false_eq_true, if_false,
        Option.pure_def]
  have hsolve := hp _ hJ
  unfold diffInvKin at h
  rw [hJ] at h
  simp only [Option.bind_eq_bind, Option.bind_some, Option.pure_def, Option.some.injEq] at h
  have hv : v.inRadians = pinv (tcpJacobian s qd.inRadians) xdot := by
    rw [← h]; exact degrees_inRadians _
  have hm := C57_tcp_jacobian s qd.inRadians v.inRadians
  rw [hv, hsolve, ← hv] at hm
  simpa only [tcp, inRadians_advance, hs.none ht, mul_one] using hm

/-! ## Where it goes wrong -/

theorem movesWith_vel {f : ℝ → Frame} {v w : Twist} {t : ℝ} (h1 : Frame.MovesWith f v t)
    (h2 : Frame.MovesWith f w t) : v.vel = w.vel := by
  ext
  · exact h1.origin.1.unique h2.origin.1
  · exact h1.origin.2.1.unique h2.origin.2.1
  · exact h1.origin.2.2.unique h2.origin.2.2

/-- The arm of unit links with a tool. -/
noncomputable def demoTool (f : Frame) : Solver := { demo with hasFrame := true, frameTcp := f }

/-- The configuration of the examples: elbow down, the hand to the left. -/
def demoJoints : Joints := ⟨90, 90, -90, 90, 90⟩

theorem demoTool_arm (f : Frame) : arm (demoTool f) demoJoints.inRadians =
    ⟨⟨-1, 0, 0, 0, 0, 1, 0, 1, 0⟩, ⟨0, 2, 1⟩⟩ := by
  have hj : demoJoints.inRadians = ⟨π / 2, π / 2, -(π / 2), π / 2, π / 2⟩ := by
    simp only [demoJoints, Joints.inRadians, degToRad_neg_ninety, degToRad_ninety]
  have hsum' : π / 2 + -(π / 2) = 0 := by ring
  rw [hj]
  refine Frame.ext ?_ ?_
  · rw [arm_M]
    simp only [hsum', zero_add]
    ext <;> simp [Mat3.eulerZYZ, Mat3.rotZ, Mat3.rotY]
  · rw [arm_p]
    simp only [radial, height, hsum', zero_add, demo, demoTool]
    ext <;> norm_num

theorem demoTool_radial (f : Frame) : 0 < radial (demoTool f) demoJoints.inRadians := by
  have hsum' : π / 2 + -(π / 2) = 0 := by ring
  simp only [demoJoints, Joints.inRadians, degToRad_neg_ninety, degToRad_ninety, radial, hsum', zero_add,
    demo, demoTool]
  norm_num

theorem demoTool_regular (f : Frame) : (arm (demoTool f) demoJoints.inRadians).M.Regular := by
  right; right
  rw [demoTool_arm]; norm_num [Mat3.cosAngle]

/-- One radian per second of the last joint. -/
def roll : Joints := ⟨0, 0, 0, 0, 1⟩

theorem roll_combine (c1 c2 c3 c4 c5 : Twist) : Twist.combine roll.toList [c1, c2, c3, c4, c5] = c5 := by
  simp only [Twist.combine, roll, Joints.toList]
  ext <;> simp

theorem demoTool_base_roll (f : Frame) (v : Vec3) : Twist.combine roll.toList
    ((baseJacobian (demoTool f) demoJoints.inRadians).map fun c => c.refPoint v) =
      (⟨0, ⟨0, 1, 0⟩⟩ : Twist).refPoint v := by
  simp only [baseJacobian, List.map_cons, List.map_nil]
  rw [roll_combine]
  simp only [demoJoints, Joints.inRadians, degToRad_neg_ninety, degToRad_ninety,
    show π / 2 + -(π / 2) = 0 by ring, zero_add]
  congr 1
  ext <;> simp

theorem demoTool_tcp_roll (f : Frame) (v : Vec3) : Twist.combine roll.toList
    ((tcpJacobian (demoTool f) demoJoints.inRadians).map fun c => c.refPoint v) =
      (⟨0, ⟨0, 0, 1⟩⟩ : Twist).refPoint v := by
  simp only [tcpJacobian, List.map_cons, List.map_nil]
  rw [roll_combine]
  rfl

/-- A tool shifted sideways and turned by half a turn: the base-frame Jacobian applies the rotation of the
tool to its translation. The last joint makes the end effector go up, and the Jacobian has it going down. -/
theorem C57_rotated_tool_wrong {svd : Mat3 → Vec3} (hsvd : GoodSvd svd) :
    ∃ (s : Solver) (J : List Twist), s.Wf ∧
      jacobian svd s [90, 90, -90, 90, 90] .base = some (some J) ∧
      Twist.combine roll.toList J = ⟨⟨0, 0, -1⟩, ⟨0, 1, 0⟩⟩ ∧
      Frame.MovesWith (fun t => arm s (demoJoints.inRadians.advance roll t) * s.frameTcp)
        ⟨⟨0, 0, 1⟩, ⟨0, 1, 0⟩⟩ 0 ∧
      ¬ Frame.MovesWith (fun t => arm s (demoJoints.inRadians.advance roll t) * s.frameTcp)
        (Twist.combine roll.toList J) 0 := by
  have hrig : (⟨⟨-1, 0, 0, 0, -1, 0, 0, 0, 1⟩, ⟨1, 0, 0⟩⟩ : Frame).IsRigid := by
    have := turnZ_rigid π
    unfold Frame.IsRigid turnZ Mat3.rotZ at *
    simpa using this
  generalize hf : (⟨⟨-1, 0, 0, 0, -1, 0, 0, 0, 1⟩, ⟨1, 0, 0⟩⟩ : Frame) = f at hrig
  have hwf : (demoTool f).Wf := ⟨hrig, fun h => absurd h (by simp [demoTool])⟩
  have htM : (tcp (demoTool f) demoJoints).M = ⟨1, 0, 0, 0, 0, 1, 0, -1, 0⟩ := by
    rw [tcp, demoTool_arm, ← hf]
    ext <;> simp [demoTool]
  have hreg : (tcp (demoTool f) demoJoints).M.Regular := by
    left
    rw [htM]; norm_num [Mat3.cosAngle, eps]
  have hJ := (jacobian_tool hsvd hwf rfl (q := [90, 90, -90, 90, 90]) (qd := demoJoints) rfl
    (demoTool_radial f) (demoTool_regular f) hreg).1
  have hcode : Twist.combine roll.toList ((baseJacobian (demoTool f) demoJoints.inRadians).map
      fun c => c.refPoint ((tcp (demoTool f) demoJoints).M.mulVec (demoTool f).frameTcp.p)) =
      ⟨⟨0, 0, -1⟩, ⟨0, 1, 0⟩⟩ := by
    rw [demoTool_base_roll, htM, ← hf]
    ext <;> simp [demoTool, Twist.refPoint]
  have htrue : Frame.MovesWith (fun t => arm (demoTool f) (demoJoints.inRadians.advance roll t) *
      (demoTool f).frameTcp) ⟨⟨0, 0, 1⟩, ⟨0, 1, 0⟩⟩ 0 := by
    refine (tcp_movesWith (demoTool f) demoJoints.inRadians roll).congr ?_
    rw [Twist.refPoint_combine, demoTool_base_roll, demoTool_arm, ← hf]
    ext <;> simp [demoTool, Twist.refPoint]
  refine ⟨demoTool f, _, hwf, hJ, hcode, htrue, fun h => ?_⟩
  rw [hcode] at h
  have := congrArg Vec3.z (movesWith_vel htrue h)
  norm_num at this

/-- A tool shifted sideways, not even turned: the TCP-frame Jacobian applies the rotation of the end effector
to its translation, which is written in that frame already. Again the last joint makes the end effector go
up, and the Jacobian has it going down. -/
theorem C57_tcp_tool_wrong {svd : Mat3 → Vec3} (hsvd : GoodSvd svd) :
    ∃ (s : Solver) (J : List Twist), s.Wf ∧ s.frameTcp.M = 1 ∧
      jacobian svd s [90, 90, -90, 90, 90] .tcp = some (some J) ∧
      Twist.rotate (tcp s demoJoints).M (Twist.combine roll.toList J) = ⟨⟨0, 0, -1⟩, ⟨0, 1, 0⟩⟩ ∧
      Frame.MovesWith (fun t => arm s (demoJoints.inRadians.advance roll t) * s.frameTcp)
        ⟨⟨0, 0, 1⟩, ⟨0, 1, 0⟩⟩ 0 ∧
      ¬ Frame.MovesWith (fun t => arm s (demoJoints.inRadians.advance roll t) * s.frameTcp)
        (Twist.rotate (tcp s demoJoints).M (Twist.combine roll.toList J)) 0 := by
  have hrig : (Frame.trans ⟨1, 0, 0⟩).IsRigid := by
    unfold Frame.IsRigid
    rw [Frame.trans_M]
    exact Mat3.IsRot.one
  generalize hf : Frame.trans ⟨1, 0, 0⟩ = f at hrig
  have hwf : (demoTool f).Wf := ⟨hrig, fun h => absurd h (by simp [demoTool])⟩
  have htM : (tcp (demoTool f) demoJoints).M = ⟨-1, 0, 0, 0, 0, 1, 0, 1, 0⟩ := by
    rw [tcp, demoTool_arm, ← hf]
    ext <;> simp [demoTool]
  have hreg : (tcp (demoTool f) demoJoints).M.Regular := by
    right; right
    rw [htM]; norm_num [Mat3.cosAngle]
  have hJ := (jacobian_tool hsvd hwf rfl (q := [90, 90, -90, 90, 90]) (qd := demoJoints) rfl
    (demoTool_radial f) (demoTool_regular f) hreg).2
  have hcode : Twist.rotate (tcp (demoTool f) demoJoints).M
      (Twist.combine roll.toList ((tcpJacobian (demoTool f) demoJoints.inRadians).map
      fun c => c.refPoint ((tcp (demoTool f) demoJoints).M.mulVec (demoTool f).frameTcp.p))) =
      ⟨⟨0, 0, -1⟩, ⟨0, 1, 0⟩⟩ := by
    rw [demoTool_tcp_roll, htM, ← hf]
    ext <;> simp [demoTool, Twist.refPoint, Twist.rotate]
  have htrue : Frame.MovesWith (fun t => arm (demoTool f) (demoJoints.inRadians.advance roll t) *
      (demoTool f).frameTcp) ⟨⟨0, 0, 1⟩, ⟨0, 1, 0⟩⟩ 0 := by
    refine (tcp_movesWith (demoTool f) demoJoints.inRadians roll).congr ?_
    rw [Twist.refPoint_combine, demoTool_base_roll, demoTool_arm, ← hf]
    ext <;> simp [demoTool, Twist.refPoint]
  refine ⟨demoTool f, _, hwf, by rw [← hf]; rfl, hJ, hcode, htrue, fun h => ?_⟩
  rw [hcode] at h
  have := congrArg Vec3.z (movesWith_vel htrue h)
  norm_num at this

/-- The hypotheses of `C57_base_motion_partial`: a straight tool and the twist of the last joint. -/
example : ∃ (svd : Mat3 → Vec3) (pinv : Pinv) (v : Joints), GoodSvd svd ∧
    (demoTool (Frame.trans ⟨1, 0, 0⟩)).Wf ∧
    diffInvKin svd pinv (demoTool (Frame.trans ⟨1, 0, 0⟩)) [90, 90, -90, 90, 90] ⟨⟨0, 0, 1⟩, ⟨0, 1, 0⟩⟩ .base =
      some (some v) ∧
    Frame.MovesWith (fun t => tcp (demoTool (Frame.trans ⟨1, 0, 0⟩)) (demoJoints.advance v t))
      ⟨⟨0, 0, 1⟩, ⟨0, 1, 0⟩⟩ 0 := by
  obtain ⟨svd, hsvd⟩ := exists_goodSvd
  have hrig : (Frame.trans ⟨1, 0, 0⟩).IsRigid := by
    unfold Frame.IsRigid
    rw [Frame.trans_M]
    exact Mat3.IsRot.one
  have hwf : (demoTool (Frame.trans ⟨1, 0, 0⟩)).Wf := ⟨hrig, fun h => absurd h (by simp [demoTool])⟩
  have htM : (tcp (demoTool (Frame.trans ⟨1, 0, 0⟩)) demoJoints).M = ⟨-1, 0, 0, 0, 0, 1, 0, 1, 0⟩ := by
    rw [tcp, demoTool_arm]
    ext <;> simp [demoTool]
  have hreg : (tcp (demoTool (Frame.trans ⟨1, 0, 0⟩)) demoJoints).M.Regular := by
    right; right
    rw [htM]; norm_num [Mat3.cosAngle]
  have hJ := (jacobian_tool hsvd hwf rfl (q := [90, 90, -90, 90, 90]) (qd := demoJoints) rfl
    (demoTool_radial _) (demoTool_regular _) hreg).1
  have hd : diffInvKin svd (fun _ _ => roll) (demoTool (Frame.trans ⟨1, 0, 0⟩)) [90, 90, -90, 90, 90]
      ⟨⟨0, 0, 1⟩, ⟨0, 1, 0⟩⟩ .base = some (some (degrees roll)) := by
    unfold diffInvKin
    rw [hJ]
    rfl
  refine ⟨svd, fun _ _ => roll, degrees roll, hsvd, hwf, hd, ?_⟩
  refine C57_base_motion_partial hsvd _ hwf rfl (fun _ => ⟨demoTool_radial _, demoTool_regular _, hreg, ?_⟩)
    ?_ hd
  · ext <;> simp [demoTool]
  · intro J h
    rw [hJ] at h
    simp only [Option.some.injEq] at h
    rw [← h, demoTool_base_roll, htM]
    ext <;> simp [demoTool, Twist.refPoint]

end Asibot

end KD
