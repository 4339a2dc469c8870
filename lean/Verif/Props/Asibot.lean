import Verif.Solver.AsibotLemmas

/-!
# C56: inverse kinematics of the ASIBOT solver against forward kinematics

`arm` and `tcp` (`Verif/Solver/AsibotLemmas.lean`) are the specification: the product of the joint turns
and links of the arm, and of the tool.
-/

namespace KD

namespace Asibot

open Real KinRepr

/-- A solver as the methods leave it: the tool is rigid, and null if there is none. -/
structure Solver.Wf (s : Solver) : Prop where
  rigid : s.frameTcp.IsRigid
  none : s.hasFrame = false → s.frameTcp = 1

/-- As long as the arm reaches ahead of its base axis, `fwdKin` gives the pose of the end effector, tool
included. Missing: it does not when the arm reaches behind (`C56_behind_wrong`), nor is the extraction of
rotation vectors exact for almost null rotations or almost half turns. -/
theorem C56_forward_partial {svd : Mat3 → Vec3} (hsvd : GoodSvd svd) {s : Solver} (hs : s.Wf) {q : List ℝ}
    {qd : Joints} (hq : Joints.read q = some qd) (ha : 0 < radial s qd.inRadians)
    (hr : (arm s qd.inRadians).M.Regular) (hr' : (tcp s qd).M.Regular) :
    ∃ x, fwdKin svd s q = some x ∧ standard x = tcp s qd := by
  have hR : (codedRot s qd).Regular := by rw [codedRot_ahead ha]; exact hr
  have hI := codedRot_isRot s qd
  have he : (⟨Mat3.expRot (codedRot s qd).getRot, (arm s qd.inRadians).p⟩ : Frame) = arm s qd.inRadians := by
    rw [hI.expRot_getRot hR, codedRot_ahead ha]
  cases ht : s.hasFrame
  · refine ⟨_, fwdKin_no_tool svd ht hq, ?_⟩
    rw [standard_six, he, tcp, hs.none ht, mul_one]
  · rw [fwdKin_tool svd ht hq, vectorToMatrix_six (hI.getRot_cases hR), he]
    refine ⟨_, rfl, ?_⟩
    exact standard_matrixToVector hsvd ((arm_rigid s _).mul hs.rigid) hr'

/-- Behind the base axis `fwdKin` gets the position right and the orientation wrong: the first Euler angle
is taken from the position, and is off by half a turn. -/
theorem C56_behind_wrong (svd : Mat3 → Vec3) {s : Solver} (ht : s.hasFrame = false) {q : List ℝ}
    {qd : Joints} (hq : Joints.read q = some qd) (hb : radial s qd.inRadians < 0)
    (hr : (codedRot s qd).Regular)
    (hsin : sin (qd.inRadians.q2 + qd.inRadians.q3 + qd.inRadians.q4) ≠ 0) :
    ∃ x, fwdKin svd s q = some x ∧ (standard x).p = (arm s qd.inRadians).p ∧
      (standard x).M ≠ (arm s qd.inRadians).M := by
  refine ⟨_, fwdKin_no_tool svd ht hq, by rw [standard_six], ?_⟩
  rw [standard_six]
  simp only
  rw [(codedRot_isRot s qd).expRot_getRot hr, codedRot_behind hb, arm_M]
  intro h
  generalize qd.inRadians.q1 = a at *
  generalize qd.inRadians.q2 + qd.inRadians.q3 + qd.inRadians.q4 = b at *
  have h1 := congrArg Mat3.xz h
  have h2 := congrArg Mat3.yz h
  simp [Mat3.eulerZYZ, Mat3.rotZ, Mat3.rotY] at h1 h2
  have h3 : cos a * sin b = 0 := by linarith
  have h4 : sin a * sin b = 0 := by linarith
  have e1 : cos a = 0 := (mul_eq_zero.mp h3).resolve_right hsin
  have e2 : sin a = 0 := (mul_eq_zero.mp h4).resolve_right hsin
  have := sin_sq_add_cos_sq a
  rw [e1, e2] at this
  norm_num at this

/-- The frame that the flange of the arm has to take for a request. -/
noncomputable def flange (s : Solver) (xd : List ℝ) : Frame := standard xd * s.frameTcp.inv

/-- Whenever `invKin` succeeds for a request of which the hand points away from the base axis, the arm has
an exact solution of that request (all elbows and both base orientations), within the limits up to the
tolerance, and the returned joints are those, except that values below 0.001 degrees come out as zero.
Missing: requests with the hand pointing elsewhere (`C56_inward_wrong`, `C56_vertical_roll_lost`), and
almost singular rotations. -/
theorem C56_inverse_partial {svd : Mat3 → Vec3} (hsvd : GoodSvd svd) {s : Solver} (hs : s.Wf)
    {xd qGuess q : List ℝ} (hv : rotOf xd = 0 ∨ eps ≤ (rotOf xd).norm)
    (hf : Solvable (flange s xd)) (hr : s.hasFrame = true → (flange s xd).M.Regular)
    (h : invKin svd s xd qGuess .base = some (some q)) :
    ∃ qj e : Joints, q = qj.toList ∧ Near qj e ∧ tcp s e = standard xd ∧
      jointsInLimits qj s.qMin s.qMax := by
  unfold invKin at h
  cases hg : Joints.read qGuess with
  | none => rw [hg] at h; simp at h
  | some g =>
    rw [hg] at h
    simp only [Option.bind_eq_bind, Option.bind_some] at h
    have hstd : (standard xd).IsRigid := by
      rw [standard_eq]; exact Mat3.expRot_isRot _
    cases ht : s.hasFrame
    · rw [ht] at h
      simp only [Bool.false_eq_true, if_false] at h
      have h1 : flange s xd = standard xd := by rw [flange, hs.none ht]; simp
      rw [h1] at hf
      obtain ⟨qj, e, a, b, c, d⟩ := solve_exact hv hf h
      exact ⟨qj, e, a, b, by rw [tcp, hs.none ht, mul_one, c], d⟩
    · rw [ht] at h
      simp only [if_true] at h
      by_cases hl : 6 ≤ xd.length
      · rw [vectorToMatrix_eq hl hv] at h
        simp only [Option.bind_some] at h
        change solve s (matrixToVector svd (flange s xd)) g = _ at h
        have hfl : (flange s xd).IsRigid := hstd.mul hs.rigid.inv
        have he := standard_matrixToVector hsvd hfl (hr ht)
        have hc : rotOf (matrixToVector svd (flange s xd)) = rotVector svd (flange s xd).M := by
          rw [matrixToVector_six, rotOf_six]
        obtain ⟨qj, e, a, b, c, d⟩ := solve_exact (by rw [hc]; exact rotVector_cases hsvd hfl (hr ht))
          (by rw [he]; exact hf) h
        refine ⟨qj, e, a, b, ?_, d⟩
        rw [tcp, c, he, flange, mul_assoc, hs.rigid.inv_mul, mul_one]
      · have : vectorToMatrix xd = none := by
          unfold vectorToMatrix
          split
          · simp at hl
          · rfl
        rw [this] at h
        simp at h

theorem Near.eq_of_ne {q e : Joints} (h : Near q e) (h1 : q.q1 ≠ 0) (h2 : q.q2 ≠ 0) (h3 : q.q3 ≠ 0)
    (h4 : q.q4 ≠ 0) (h5 : q.q5 ≠ 0) : q = e := by
  ext
  · exact h.q1.resolve_right fun a => h1 a.1
  · exact h.q2.resolve_right fun a => h2 a.1
  · exact h.q3.resolve_right fun a => h3 a.1
  · exact h.q4.resolve_right fun a => h4 a.1
  · exact h.q5.resolve_right fun a => h5 a.1

/-- Forward kinematics of the returned joints is the requested pose, if the arm reaches ahead and no joint
was rounded to zero. Missing: as for `C56_forward_partial` and `C56_inverse_partial`. -/
theorem C56_round_trip_partial {svd : Mat3 → Vec3} (hsvd : GoodSvd svd) {s : Solver} (hs : s.Wf)
    {xd qGuess : List ℝ} {q : Joints} (hv : rotOf xd = 0 ∨ eps ≤ (rotOf xd).norm)
    (hf : Solvable (flange s xd)) (hr : (flange s xd).M.Regular) (hr' : (standard xd).M.Regular)
    (h : invKin svd s xd qGuess .base = some (some q.toList))
    (h1 : q.q1 ≠ 0) (h2 : q.q2 ≠ 0) (h3 : q.q3 ≠ 0) (h4 : q.q4 ≠ 0) (h5 : q.q5 ≠ 0)
    (ha : 0 < radial s q.inRadians) :
    ∃ x, fwdKin svd s q.toList = some x ∧ standard x = standard xd := by
  obtain ⟨qj, e, hq, hn, ht, -⟩ := C56_inverse_partial hsvd hs hv hf (fun _ => hr) h
  have hj : qj = q := by
    simp only [Joints.toList, List.cons.injEq, and_true] at hq
    obtain ⟨a, b, c, d, e⟩ := hq
    ext <;> simp [a, b, c, d, e]
  subst hj
  obtain rfl := hn.eq_of_ne h1 h2 h3 h4 h5
  have harm : arm s qj.inRadians = flange s xd := by
    rw [flange, ← ht, tcp, mul_assoc, hs.rigid.mul_inv, mul_one]
  obtain ⟨x, hx, hx'⟩ := C56_forward_partial hsvd hs (q := qj.toList) rfl ha (by rw [harm]; exact hr)
    (by rw [ht]; exact hr')
  exact ⟨x, hx, by rw [hx', ht]⟩

/-- Requests in the frame of the end effector are requests in the base frame: of the present pose times the
request. -/
theorem C56_tcp_frame {svd : Mat3 → Vec3} {s : Solver} {xd qGuess x : List ℝ} {f g : Frame}
    (hx : fwdKin svd s qGuess = some x) (h1 : vectorToMatrix x = some f) (h2 : vectorToMatrix xd = some g) :
    invKin svd s xd qGuess .tcp = invKin svd s (matrixToVector svd (f * g)) qGuess .base := by
  unfold invKin
  cases hg : Joints.read qGuess with
  | none => rfl
  | some j =>
    simp only [Option.bind_eq_bind, Option.bind_some, hx]
    have : changeOrigin svd xd x = some (matrixToVector svd (f * g)) := by
      unfold changeOrigin
      rw [h1, h2]
      rfl
    rw [this]
    rfl

/-! ## A request that is met -/

/-- An arm of unit links. -/
noncomputable def demo : Solver :=
  { A0 := 0, A1 := 1, A2 := 1, A3 := 1, qMin := ⟨-180, -180, -180, -180, -180⟩,
    qMax := ⟨180, 180, 180, 180, 180⟩, hasFrame := false, frameTcp := 1 }

theorem demo_wf : demo.Wf := ⟨Frame.IsRigid.one, fun _ => rfl⟩

theorem atan2_zero_one : atan2 0 1 = 0 := Complex.arg_one
theorem atan2_one_zero : atan2 1 0 = π / 2 := Complex.arg_I
theorem atan2_zero_neg_one : atan2 0 (-1) = π := by
  have : (⟨-1, 0⟩ : ℂ) = -1 := Complex.ext (by simp) (by simp)
  rw [atan2, this, Complex.arg_neg_one]
theorem atan2_pos {r : ℝ} (h : 0 < r) : atan2 0 r = 0 := Complex.arg_ofReal_of_nonneg h.le
theorem atan2_up {r : ℝ} (h : 0 < r) : atan2 r 0 = π / 2 := by
  have : (⟨0, r⟩ : ℂ) = r * Complex.I := Complex.ext (by simp) (by simp)
  rw [atan2, this, Complex.arg_real_mul _ h, Complex.arg_I]

theorem radToDeg_zero : radToDeg 0 = 0 := by simp [radToDeg]
theorem radToDeg_half : radToDeg (π / 2) = 90 := by unfold radToDeg; field_simp; norm_num
theorem radToDeg_half' : radToDeg (π / 2 - π - π) = -270 := by unfold radToDeg; field_simp; norm_num
theorem radToDeg_pi : radToDeg π = 180 := by unfold radToDeg; field_simp
theorem degToRad_ninety : degToRad 90 = π / 2 := by unfold degToRad; ring
theorem degToRad_neg_ninety : degToRad (-90) = -(π / 2) := by unfold degToRad; ring

/-- Elbow and wrist at right angles: both solutions of the arm plane. -/
theorem demo_plane : planeAngles 1 1 1 1 = some ⟨0, π / 2, π / 2⟩ := by
  unfold planeAngles
  norm_num
  rw [atan2_zero_one, atan2_one_zero]
  simp

/-- The hand turned by 90 degrees, to the left. -/
noncomputable def demoPose : List ℝ := [0, 2, 1, 0, π / √2, π / √2]

theorem sqrt_two_sq : √2 * √2 = (2 : ℝ) := mul_self_sqrt (by norm_num)

theorem demoPose_rot : rotOf demoPose = π • (⟨0, 1 / √2, 1 / √2⟩ : Vec3) := by
  simp only [rotOf, demoPose]
  ext <;> simp [div_eq_mul_inv]

theorem demo_unit : Vec3.dot (⟨0, 1 / √2, 1 / √2⟩ : Vec3) ⟨0, 1 / √2, 1 / √2⟩ = 1 := by
  simp only [Vec3.dot]
  have := sqrt_two_sq
  field_simp
  nlinarith

theorem demoPose_standard : standard demoPose = ⟨⟨-1, 0, 0, 0, 0, 1, 0, 1, 0⟩, ⟨0, 2, 1⟩⟩ := by
  rw [standard_eq, demoPose_rot, Mat3.expRot_smul demo_unit pi_nonneg]
  have h : (√2)⁻¹ * (√2)⁻¹ = (1 / 2 : ℝ) := by
    rw [← mul_inv, sqrt_two_sq]; norm_num
  refine Frame.ext ?_ ?_
  · simp only [Mat3.rot2, cos_pi, sin_pi, one_div]
    ext <;> simp
    · nlinarith
    · nlinarith
    · nlinarith
    · nlinarith
  · ext <;> simp [demoPose]

theorem demoPose_size : eps ≤ (rotOf demoPose).norm := by
  rw [demoPose_rot, Vec3.norm_smul, Vec3.norm, demo_unit, sqrt_one, abs_of_nonneg pi_nonneg, mul_one]
  have := two_le_pi
  norm_num [eps]; linarith

theorem demoPose_euler : (standard demoPose).M.getEulerZYZ = (π / 2, π / 2, π / 2) := by
  rw [demoPose_standard]
  unfold Mat3.getEulerZYZ
  norm_num [Mat3.singEps, atan2_one_zero]

theorem demo_configure : configure demo 90 0 90 90 0 90 90 = some
    [⟨⟨90, 0, 90, 0, 90⟩, .forward, .up, true⟩, ⟨⟨90, 90, -90, 90, 90⟩, .forward, .down, true⟩,
     ⟨⟨-90, 0, -90, 0, -90⟩, .reversed, .up, true⟩, ⟨⟨-90, -90, 90, -90, -90⟩, .reversed, .down, true⟩] := by
  norm_num [configure, storeAngles, normalizeAngle, degEps, jointsInLimits, inLimits, demo]

theorem demo_optimal : findOptimal ⟨90, 90, -90, 90, 90⟩
    [⟨⟨90, 0, 90, 0, 90⟩, .forward, .up, true⟩, ⟨⟨90, 90, -90, 90, 90⟩, .forward, .down, true⟩,
     ⟨⟨-90, 0, -90, 0, -90⟩, .reversed, .up, true⟩, ⟨⟨-90, -90, 90, -90, -90⟩, .reversed, .down, true⟩] =
    some ⟨⟨90, 90, -90, 90, 90⟩, .forward, .down, true⟩ := by
  norm_num [findOptimal, fillMap, insertMap, total, diffs]

theorem demo_solve_eq (g : Joints) : solve demo demoPose g = some ((findOptimal g
    [⟨⟨90, 0, 90, 0, 90⟩, .forward, .up, true⟩, ⟨⟨90, 90, -90, 90, 90⟩, .forward, .down, true⟩,
     ⟨⟨-90, 0, -90, 0, -90⟩, .reversed, .up, true⟩,
     ⟨⟨-90, -90, 90, -90, -90⟩, .reversed, .down, true⟩]).map fun p => p.q.toList) := by
  rw [solve_eq _ (by simp [demoPose]) (Or.inr demoPose_size), demoPose_euler, demoPose_standard]
  unfold solveDecoded
  have e1 : √(0 * 0 + 2 * 2 : ℝ) = 2 := by
    rw [show (0 * 0 + 2 * 2 : ℝ) = 2 ^ 2 by norm_num]; exact sqrt_sq (by norm_num)
  simp only [e1, cos_pi_div_two, sin_pi_div_two]
  rw [if_neg, if_neg]
  · have : planeAngles demo.A1 demo.A2 (2 - demo.A3 * 1) (1 - demo.A0 - demo.A3 * 0) = planeAngles 1 1 1 1 := by
      simp only [demo]; norm_num
    rw [this, demo_plane]
    simp only [Option.bind_some]
    rw [atan2_up (by norm_num : (0 : ℝ) < 2), radToDeg_half, radToDeg_zero,
      show π / 2 - 0 - π / 2 = 0 by ring, show π / 2 - π / 2 + π / 2 = π / 2 by ring, radToDeg_zero,
      radToDeg_half, demo_configure]
    simp only [Option.bind_some]
  · simp only [demo]
    rw [gt_iff_lt, not_lt]
    apply sqrt_le_iff.mpr
    norm_num
  · simp only [demo]
    rw [gt_iff_lt, not_lt]
    apply sqrt_le_iff.mpr
    norm_num

theorem demo_solved (svd : Mat3 → Vec3) :
    invKin svd demo demoPose [90, 90, -90, 90, 90] .base = some (some [90, 90, -90, 90, 90]) := by
  have h : invKin svd demo demoPose [90, 90, -90, 90, 90] .base =
      solve demo demoPose ⟨90, 90, -90, 90, 90⟩ := rfl
  rw [h, demo_solve_eq, demo_optimal]
  rfl

/-- The hypotheses of `C56_round_trip_partial` are met by the request above, with the elbow down. -/
example : ∃ svd, GoodSvd svd ∧ (∃ x, fwdKin svd demo [90, 90, -90, 90, 90] = some x ∧
    standard x = ⟨⟨-1, 0, 0, 0, 0, 1, 0, 1, 0⟩, ⟨0, 2, 1⟩⟩) := by
  obtain ⟨svd, hsvd⟩ := exists_goodSvd
  refine ⟨svd, hsvd, ?_⟩
  have hfl : flange demo demoPose = standard demoPose := by
    rw [flange]; simp [demo]
  have hreg : (standard demoPose).M.Regular := by
    right; right
    rw [demoPose_standard]; norm_num [Mat3.cosAngle]
  have := C56_round_trip_partial hsvd demo_wf (q := ⟨90, 90, -90, 90, 90⟩) (Or.inr demoPose_size)
    (by
      rw [hfl]
      refine ⟨?_, ?_⟩
      · left; rw [demoPose_standard]; norm_num [Mat3.singEps]
      · rw [demoPose_euler, demoPose_standard]; simp only; rw [atan2_up (by norm_num)])
    (by rw [hfl]; exact hreg) hreg (demo_solved svd) (by norm_num) (by norm_num) (by norm_num) (by norm_num)
    (by norm_num)
    (by
      simp only [radial, Joints.inRadians, degToRad_ninety, degToRad_neg_ninety, demo]
      rw [show π / 2 + -(π / 2) + π / 2 = π / 2 by ring, show π / 2 + -(π / 2) = 0 by ring]
      simp)
  rwa [demoPose_standard] at this

/-! ## Where it goes wrong -/

/-- The end effector behind the base axis, for the hypotheses of `C56_behind_wrong`. -/
example : Joints.read [180, -90, 0, 0, 180] = some ⟨180, -90, 0, 0, 180⟩ ∧
    radial demo (Joints.inRadians ⟨180, -90, 0, 0, 180⟩) < 0 ∧
    (codedRot demo ⟨180, -90, 0, 0, 180⟩).Regular ∧
    sin ((Joints.inRadians ⟨180, -90, 0, 0, 180⟩).q2 + (Joints.inRadians ⟨180, -90, 0, 0, 180⟩).q3 +
      (Joints.inRadians ⟨180, -90, 0, 0, 180⟩).q4) ≠ 0 := by
  have hz : degToRad 0 = 0 := by simp [degToRad]
  have hp : degToRad 180 = π := by unfold degToRad; ring
  have hr : radial demo (Joints.inRadians ⟨180, -90, 0, 0, 180⟩) < 0 := by
    simp only [radial, Joints.inRadians, degToRad_neg_ninety, demo, hz, add_zero]
    simp
    norm_num
  refine ⟨rfl, hr, ?_, ?_⟩
  · right; right
    rw [codedRot_behind hr]
    simp only [Joints.inRadians, degToRad_neg_ninety, hz, hp, add_zero]
    norm_num [Mat3.cosAngle, Mat3.eulerZYZ, Mat3.rotZ, Mat3.rotY]
  · simp only [Joints.inRadians, degToRad_neg_ninety, hz, add_zero]
    simp

/-- Inverse and forward kinematics disagree: the solver answers the request above with the base reversed
and the elbow down, which is right, and then `fwdKin` gives another orientation for those same joints. -/
theorem C56_reversed_disagree (svd : Mat3 → Vec3) :
    invKin svd demo demoPose [-90, -90, 90, -90, -90] .base = some (some [-90, -90, 90, -90, -90]) ∧
    tcp demo ⟨-90, -90, 90, -90, -90⟩ = standard demoPose ∧
    ∃ x, fwdKin svd demo [-90, -90, 90, -90, -90] = some x ∧ (standard x).M ≠ (standard demoPose).M := by
  have hj : Joints.inRadians ⟨-90, -90, 90, -90, -90⟩ =
      ⟨-(π / 2), -(π / 2), π / 2, -(π / 2), -(π / 2)⟩ := by
    simp only [Joints.inRadians, degToRad_neg_ninety, degToRad_ninety]
  have hsum : -(π / 2) + π / 2 + -(π / 2) = -(π / 2) := by ring
  have hsum' : -(π / 2) + π / 2 = 0 := by ring
  have harm : tcp demo ⟨-90, -90, 90, -90, -90⟩ = standard demoPose := by
    have h1 : demo.frameTcp = 1 := rfl
    rw [tcp, h1, mul_one, demoPose_standard, hj]
    refine Frame.ext ?_ ?_
    · rw [arm_M]
      simp only [hsum]
      ext <;> simp [Mat3.eulerZYZ, Mat3.rotZ, Mat3.rotY]
    · rw [arm_p]
      simp only [radial, height, hsum', zero_add, demo]
      ext <;> norm_num
  refine ⟨?_, harm, ?_⟩
  · have h : invKin svd demo demoPose [-90, -90, 90, -90, -90] .base =
        solve demo demoPose ⟨-90, -90, 90, -90, -90⟩ := rfl
    rw [h]
    have ho : findOptimal ⟨-90, -90, 90, -90, -90⟩
        [⟨⟨90, 0, 90, 0, 90⟩, .forward, .up, true⟩, ⟨⟨90, 90, -90, 90, 90⟩, .forward, .down, true⟩,
         ⟨⟨-90, 0, -90, 0, -90⟩, .reversed, .up, true⟩,
         ⟨⟨-90, -90, 90, -90, -90⟩, .reversed, .down, true⟩] =
        some ⟨⟨-90, -90, 90, -90, -90⟩, .reversed, .down, true⟩ := by
      norm_num [findOptimal, fillMap, insertMap, total, diffs]
    rw [demo_solve_eq, ho]
    rfl
  · have hb : radial demo (Joints.inRadians ⟨-90, -90, 90, -90, -90⟩) < 0 := by
      rw [hj]
      simp only [radial, hsum', zero_add, demo]
      norm_num
    obtain ⟨x, hx, -, hx'⟩ := C56_behind_wrong svd (s := demo) rfl (q := [-90, -90, 90, -90, -90])
      (qd := ⟨-90, -90, 90, -90, -90⟩) rfl hb
      (by
        left
        rw [codedRot_behind hb, hj]
        simp only [hsum]
        have : (Mat3.eulerZYZ (-(π / 2) + π) (-(π / 2)) (-(π / 2))).cosAngle = 0 := by
          simp [Mat3.cosAngle, Mat3.eulerZYZ, Mat3.rotZ, Mat3.rotY]
        rw [this]
        norm_num [eps])
      (by rw [hj]; simp only [hsum]; simp)
    refine ⟨x, hx, ?_⟩
    rw [← harm]
    have h1 : demo.frameTcp = 1 := rfl
    rw [tcp, h1, mul_one]
    exact hx'

theorem getEulerZYZ_sin (m : Mat3) : 0 ≤ sin m.getEulerZYZ.2.1 := by
  unfold Mat3.getEulerZYZ
  split_ifs
  · simp
  · simp
  · exact sin_nonneg_of_nonneg_of_le_pi (arccos_nonneg _) (arccos_le_pi _)

/-- Hands that point to the base axis: whenever `invKin` succeeds, the joints it returns put the hand in the
right place, yet in a wrong orientation. -/
theorem C56_inward_wrong (svd : Mat3 → Vec3) {s : Solver} (ht : s.hasFrame = false) {xd qGuess q : List ℝ}
    (hv : rotOf xd = 0 ∨ eps ≤ (rotOf xd).norm)
    (hin : (standard xd).M.xz * (standard xd).p.x + (standard xd).M.yz * (standard xd).p.y < 0)
    (h : invKin svd s xd qGuess .base = some (some q)) :
    ∃ qj e : Joints, q = qj.toList ∧ Near qj e ∧ (arm s e.inRadians).p = (standard xd).p ∧
      (arm s e.inRadians).M ≠ (standard xd).M := by
  unfold invKin at h
  cases hg : Joints.read qGuess with
  | none => rw [hg] at h; simp at h
  | some g =>
    rw [hg, ht] at h
    simp only [Option.bind_eq_bind, Option.bind_some, Bool.false_eq_true, if_false] at h
    obtain ⟨qj, e, h1, h2, h3, h4, -⟩ := solve_spec hv h
    refine ⟨qj, e, h1, h2, h3, fun h5 => ?_⟩
    rw [h4] at h5
    rw [← h5] at hin
    have hb := getEulerZYZ_sin (standard xd).M
    generalize (standard xd).p = p at *
    generalize (standard xd).M.getEulerZYZ.2.1 = b at *
    have hcos := atan2_cos_mul (y := p.y) (x := p.x) (ρ := √(p.x * p.x + p.y * p.y))
      (by rw [sq_sqrt (add_nonneg (mul_self_nonneg _) (mul_self_nonneg _))]; ring) (sqrt_nonneg _)
    have hsin := atan2_sin_mul (y := p.y) (x := p.x) (ρ := √(p.x * p.x + p.y * p.y))
      (by rw [sq_sqrt (add_nonneg (mul_self_nonneg _) (mul_self_nonneg _))]; ring) (sqrt_nonneg _)
    have hρ := sqrt_nonneg (p.x * p.x + p.y * p.y)
    generalize √(p.x * p.x + p.y * p.y) = ρ at *
    generalize atan2 p.y p.x = a at *
    simp [Mat3.eulerZYZ, Mat3.rotZ, Mat3.rotY] at hin
    rw [← hcos, ← hsin] at hin
    have : cos a * sin b * (ρ * cos a) + sin a * sin b * (ρ * sin a) = ρ * sin b := by
      linear_combination ρ * sin b * sin_sq_add_cos_sq a
    rw [this] at hin
    exact absurd (mul_nonneg hρ hb) (not_le.mpr hin)

/-- Hands that point up: whatever the requested roll, whenever `invKin` succeeds the hand ends up aligned
with the arm plane. -/
theorem C56_vertical_roll_lost (svd : Mat3 → Vec3) {s : Solver} (ht : s.hasFrame = false)
    {xd qGuess q : List ℝ} (hv : rotOf xd = 0 ∨ eps ≤ (rotOf xd).norm) (hup : (standard xd).M.zz = 1)
    (h : invKin svd s xd qGuess .base = some (some q)) :
    ∃ qj e : Joints, q = qj.toList ∧ Near qj e ∧ (arm s e.inRadians).p = (standard xd).p ∧
      (arm s e.inRadians).M = Mat3.rotZ (atan2 (standard xd).p.y (standard xd).p.x) := by
  unfold invKin at h
  cases hg : Joints.read qGuess with
  | none => rw [hg] at h; simp at h
  | some g =>
    rw [hg, ht] at h
    simp only [Option.bind_eq_bind, Option.bind_some, Bool.false_eq_true, if_false] at h
    obtain ⟨qj, e, h1, h2, h3, h4, -⟩ := solve_spec hv h
    refine ⟨qj, e, h1, h2, h3, ?_⟩
    have : (standard xd).M.getEulerZYZ.2 = (0, 0) := by
      unfold Mat3.getEulerZYZ
      rw [hup]
      norm_num [Mat3.singEps]
    rw [h4, this]
    ext <;> simp [Mat3.eulerZYZ, Mat3.rotZ, Mat3.rotY]

/-! ### Requests for which that happens -/

/-- The hand up, turned by 90 degrees. -/
noncomputable def upPose : List ℝ := [1, 0, 2, 0, 0, π / 2]

theorem upPose_rot : rotOf upPose = (π / 2) • (⟨0, 0, 1⟩ : Vec3) := by
  simp only [rotOf, upPose]
  ext <;> simp

theorem upPose_standard : standard upPose = ⟨Mat3.rotZ (π / 2), ⟨1, 0, 2⟩⟩ := by
  rw [standard_eq, upPose_rot, Mat3.expRot_smul (by simp [Vec3.dot]) (by positivity), rotZ_eq]
  refine Frame.ext rfl ?_
  ext <;> simp [upPose]

theorem upPose_size : eps ≤ (rotOf upPose).norm := by
  rw [upPose_rot, Vec3.norm_smul, abs_of_nonneg (by positivity)]
  have := two_le_pi
  norm_num [eps, Vec3.norm, Vec3.dot]; linarith

/-- The arm has an exact solution within its limits, and it is even the guess. The solver returns other
joints, with the hand turned by 90 degrees. -/
theorem C56_vertical_witness (svd : Mat3 → Vec3) :
    tcp demo ⟨0, 0, 90, -90, 90⟩ = standard upPose ∧
    jointsInLimits ⟨0, 0, 90, -90, 90⟩ demo.qMin demo.qMax ∧
    invKin svd demo upPose [0, 0, 90, -90, 90] .base = some (some [0, 0, 90, -90, 0]) ∧
    (tcp demo ⟨0, 0, 90, -90, 0⟩).M = 1 ∧ (standard upPose).M = Mat3.rotZ (π / 2) := by
  have hz : degToRad 0 = 0 := by simp [degToRad]
  have h1 : demo.frameTcp = 1 := rfl
  have hsum : (0 : ℝ) + π / 2 + -(π / 2) = 0 := by ring
  refine ⟨?_, ?_, ?_, ?_, by rw [upPose_standard]⟩
  · rw [tcp, h1, mul_one, upPose_standard]
    simp only [Joints.inRadians, degToRad_neg_ninety, degToRad_ninety, hz]
    refine Frame.ext ?_ ?_
    · rw [arm_M]
      simp only [hsum]
      ext <;> simp [Mat3.eulerZYZ, Mat3.rotZ, Mat3.rotY]
    · rw [arm_p]
      simp only [radial, height, hsum, demo, zero_add]
      ext <;> norm_num
  · norm_num [jointsInLimits, inLimits, demo, degEps]
  · have h : invKin svd demo upPose [0, 0, 90, -90, 90] .base = solve demo upPose ⟨0, 0, 90, -90, 90⟩ := rfl
    have hE : (standard upPose).M.getEulerZYZ.2 = (0, 0) := by
      rw [upPose_standard]
      unfold Mat3.getEulerZYZ
      norm_num [Mat3.singEps, Mat3.rotZ]
    rw [h, solve_eq _ (by simp [upPose]) (Or.inr upPose_size), hE, upPose_standard]
    unfold solveDecoded
    have e1 : √(1 * 1 + 0 * 0 : ℝ) = 1 := by norm_num
    simp only [e1, cos_zero, sin_zero]
    rw [if_neg, if_neg]
    · have : planeAngles demo.A1 demo.A2 (1 - demo.A3 * 0) (2 - demo.A0 - demo.A3 * 1) =
          planeAngles 1 1 1 1 := by
        simp only [demo]; norm_num
      rw [this, demo_plane]
      simp only [Option.bind_some]
      rw [atan2_zero_one, radToDeg_half, radToDeg_zero, show (0 : ℝ) - 0 - π / 2 = -(π / 2) by ring,
        show (0 : ℝ) - π / 2 + π / 2 = 0 by ring, radToDeg_zero]
      have h90 : radToDeg (-(π / 2)) = -90 := by unfold radToDeg; field_simp; norm_num
      rw [h90]
      have hc : configure demo 0 0 90 90 (-90) 0 0 = some
          [⟨⟨0, 0, 90, -90, 0⟩, .forward, .up, true⟩, ⟨⟨0, 90, -90, 0, 0⟩, .forward, .down, true⟩,
           ⟨⟨180, 0, -90, 90, 180⟩, .reversed, .up, true⟩,
           ⟨⟨180, -90, 90, 0, 180⟩, .reversed, .down, true⟩] := by
        norm_num [configure, storeAngles, normalizeAngle, degEps, jointsInLimits, inLimits, demo]
      rw [hc]
      have ho : findOptimal ⟨0, 0, 90, -90, 90⟩
          [⟨⟨0, 0, 90, -90, 0⟩, .forward, .up, true⟩, ⟨⟨0, 90, -90, 0, 0⟩, .forward, .down, true⟩,
           ⟨⟨180, 0, -90, 90, 180⟩, .reversed, .up, true⟩,
           ⟨⟨180, -90, 90, 0, 180⟩, .reversed, .down, true⟩] =
          some ⟨⟨0, 0, 90, -90, 0⟩, .forward, .up, true⟩ := by
        norm_num [findOptimal, fillMap, insertMap, total, diffs]
      simp only [Option.bind_some, ho, Option.map_some, Joints.toList]
    · simp only [demo]
      rw [gt_iff_lt, not_lt]
      apply sqrt_le_iff.mpr
      norm_num
    · simp only [demo]
      rw [gt_iff_lt, not_lt]
      apply sqrt_le_iff.mpr
      norm_num
  · rw [tcp, h1, mul_one, arm_M]
    simp only [Joints.inRadians, degToRad_neg_ninety, degToRad_ninety, hz, hsum]
    ext <;> simp [Mat3.eulerZYZ, Mat3.rotZ, Mat3.rotY]

/-- An arm with a longer second link. -/
noncomputable def demoIn : Solver := { demo with A2 := 2 }

/-- The hand towards the base axis. -/
noncomputable def inPose : List ℝ := [1, 0, 1, 0, -(π / 2), 0]

theorem inPose_rot : rotOf inPose = (π / 2) • (⟨0, -1, 0⟩ : Vec3) := by
  simp only [rotOf, inPose]
  ext <;> simp

theorem inPose_standard : standard inPose = ⟨Mat3.rotY (-(π / 2)), ⟨1, 0, 1⟩⟩ := by
  rw [standard_eq, inPose_rot, Mat3.expRot_smul (by simp [Vec3.dot]) (by positivity)]
  refine Frame.ext ?_ ?_
  · ext <;> simp [Mat3.rot2, Mat3.rotY]
  · ext <;> simp [inPose]

theorem inPose_size : eps ≤ (rotOf inPose).norm := by
  rw [inPose_rot, Vec3.norm_smul, abs_of_nonneg (by positivity)]
  have := two_le_pi
  norm_num [eps, Vec3.norm, Vec3.dot]; linarith

/-- The arm has an exact solution within its limits, and it is even the guess. The solver returns joints
with the hand in the opposite direction. -/
theorem C56_inward_witness (svd : Mat3 → Vec3) :
    tcp demoIn ⟨0, 0, 90, -180, 0⟩ = standard inPose ∧
    jointsInLimits ⟨0, 0, 90, -180, 0⟩ demoIn.qMin demoIn.qMax ∧
    (∃ q, invKin svd demoIn inPose [0, 0, 90, -180, 0] .base = some (some q)) ∧
    (standard inPose).M.xz * (standard inPose).p.x + (standard inPose).M.yz * (standard inPose).p.y < 0 := by
  have hz : degToRad 0 = 0 := by simp [degToRad]
  have hp : degToRad (-180) = -π := by unfold degToRad; ring
  have h1 : demoIn.frameTcp = 1 := rfl
  have hsum : (0 : ℝ) + π / 2 + -π = -(π / 2) := by ring
  refine ⟨?_, ?_, ?_, ?_⟩
  · rw [tcp, h1, mul_one, inPose_standard]
    simp only [Joints.inRadians, hp, degToRad_ninety, hz]
    refine Frame.ext ?_ ?_
    · rw [arm_M]
      simp only [hsum]
      ext <;> simp [Mat3.eulerZYZ, Mat3.rotZ, Mat3.rotY]
    · rw [arm_p]
      have hs' : π / 2 + -π = -(π / 2) := by ring
      simp only [radial, height, hs', demo, demoIn, zero_add]
      ext <;> norm_num
  · norm_num [jointsInLimits, inLimits, demo, demoIn, degEps]
  · have h : invKin svd demoIn inPose [0, 0, 90, -180, 0] .base = solve demoIn inPose ⟨0, 0, 90, -180, 0⟩ := rfl
    have hE : (standard inPose).M.getEulerZYZ.2 = (π / 2, π) := by
      rw [inPose_standard]
      unfold Mat3.getEulerZYZ
      norm_num [Mat3.singEps, Mat3.rotY, atan2_zero_neg_one]
    rw [h, solve_eq _ (by simp [inPose]) (Or.inr inPose_size), hE, inPose_standard]
    unfold solveDecoded
    have e1 : √(1 * 1 + 0 * 0 : ℝ) = 1 := by norm_num
    simp only [e1, cos_pi_div_two, sin_pi_div_two]
    rw [if_neg, if_neg]
    · have : planeAngles demoIn.A1 demoIn.A2 (1 - demoIn.A3 * 1) (1 - demoIn.A0 - demoIn.A3 * 0) =
          some ⟨π, π, π⟩ := by
        simp only [demo, demoIn]
        unfold planeAngles
        norm_num [atan2_zero_neg_one]
      rw [this]
      simp only [Option.bind_some]
      rw [atan2_zero_one, radToDeg_half', radToDeg_pi, radToDeg_zero,
        show π / 2 - π + π = π / 2 by ring, radToDeg_half]
      have hc : configure demoIn 0 180 180 180 (-270) 90 180 = some
          [⟨⟨0, 180, 180, 90, 180⟩, .forward, .up, true⟩, ⟨⟨0, 180, 180, 90, 180⟩, .forward, .down, true⟩,
           ⟨⟨180, 180, 180, -90, 0⟩, .reversed, .up, true⟩,
           ⟨⟨180, 180, 180, -90, 0⟩, .reversed, .down, true⟩] := by
        norm_num [configure, storeAngles, normalizeAngle, degEps, jointsInLimits, inLimits, demo, demoIn]
      rw [hc]
      have ho : findOptimal ⟨0, 0, 90, -180, 0⟩
          [⟨⟨0, 180, 180, 90, 180⟩, .forward, .up, true⟩, ⟨⟨0, 180, 180, 90, 180⟩, .forward, .down, true⟩,
           ⟨⟨180, 180, 180, -90, 0⟩, .reversed, .up, true⟩,
           ⟨⟨180, 180, 180, -90, 0⟩, .reversed, .down, true⟩] =
          some ⟨⟨180, 180, 180, -90, 0⟩, .reversed, .up, true⟩ := by
        norm_num [findOptimal, fillMap, insertMap, total, diffs]
        exact Orientation.noConfusion
      simp only [Option.bind_some, ho, Option.map_some]
      exact ⟨_, rfl⟩
    · simp only [demo, demoIn]
      rw [gt_iff_lt, not_lt]
      apply sqrt_le_iff.mpr
      norm_num
    · simp only [demo, demoIn]
      rw [gt_iff_lt, not_lt]
      apply sqrt_le_iff.mpr
      norm_num
  · rw [inPose_standard]
    simp [Mat3.rotY]

end Asibot

end KD
