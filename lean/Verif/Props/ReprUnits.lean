import Verif.Props.Representation

/-!
# C28, C30: angular units and velocities
-/

namespace KD

open Real KinRepr

/-! ## C28 -/

theorem scaleAngles_length (k : ℝ) (c : Coord) (o : Orient) (x : List ℝ) :
    (scaleAngles k c o x).length = x.length := by simp [scaleAngles]

theorem scaleAngles_getD (k : ℝ) (c : Coord) (o : Orient) (x : List ℝ) (i : ℕ) :
    (scaleAngles k c o x).getD i 0 = if isAngle c o i then x.getD i 0 * k else x.getD i 0 := by
  simp only [scaleAngles, List.getD_eq_getElem?_getD, List.getElem?_mapIdx]
  cases x[i]? <;> simp

theorem angle_degrees (v : ℝ) : angle .degrees v = v * (π / 180) := by simp [angle]; ring

theorem angle_radians (v : ℝ) : angle .radians v = v := rfl

theorem outRad_radians (v : ℝ) : outRad .radians v = v := by simp [outRad]

theorem outRad_degrees (v : ℝ) : outRad .degrees v = v * (180 / π) := by simp [outRad, radToDeg]

theorem encodedRot_degrees {c : Coord} {o : Orient} (hs : Encodable c o) (x : List ℝ) :
    encodedRot c o .degrees x = encodedRot c o .radians (scaleAngles (π / 180) c o x) := by
  obtain ⟨hc, hy⟩ := hs
  rcases hc with rfl | rfl <;> cases o <;>
    first
    | exact absurd ⟨rfl, rfl⟩ hy
    | simp [encodedRot, inRad_eq, angle_degrees, ← List.getD_eq_getElem?_getD, scaleAngles_getD, isAngle,
        offset, firstOrient, angle_radians]

theorem posOf_scale {c : Coord} {o : Orient} (k : ℝ) (x : List ℝ) :
    posOf c (scaleAngles k c o x) = posOf c x := by
  unfold posOf
  split_ifs with h
  · subst h
    simp only [scaleAngles_getD]
    cases o <;> simp [isAngle, firstOrient]
  · rfl

/-- C28: encoding a pose given in degrees is encoding the pose with every angle multiplied by
`π / 180`. -/
theorem C28_encodePose_units (c : Coord) (o : Orient) (x y y' : List ℝ) :
    SameOutcome (encodePose c o .degrees ⟨x, y, false⟩)
      (encodePose c o .radians ⟨scaleAngles (π / 180) c o x, y', false⟩) := by
  by_cases hs : Encodable c o
  · by_cases hl : coordSize c + orientSize o ≤ x.length
    · obtain ⟨m1, h1, e1⟩ := encodePose_ok .degrees hs ⟨x, y, false⟩ hl
      obtain ⟨m2, h2, e2⟩ := encodePose_ok .radians hs ⟨scaleAngles (π / 180) c o x, y', false⟩
        (by simpa [Mem.input, scaleAngles_length] using hl)
      refine ⟨true, m1, m2, h1, h2, fun _ => ?_⟩
      rw [e1, e2]
      simp only [Mem.input, Bool.false_eq_true, if_false, posOf_scale, encodedRot_degrees hs]
    · exact ⟨false, _, _, encodePose_short c o _ ⟨x, y, false⟩ (not_le.mp hl),
        encodePose_short c o _ ⟨scaleAngles (π / 180) c o x, y', false⟩
          (by simpa [Mem.input, scaleAngles_length] using hl), by simp⟩
  · obtain ⟨m1, h1⟩ := encodePose_unsupported o .degrees ⟨x, y, false⟩ hs
    obtain ⟨m2, h2⟩ := encodePose_unsupported o .radians ⟨scaleAngles (π / 180) c o x, y', false⟩ hs
    exact ⟨false, m1, m2, h1, h2, by simp⟩

/-- Two runs of a decoder: same answer and, if it is a success, outputs that differ by the unit of
their angles. -/
def ScaledOutcome (c : Coord) (o : Orient) (a b : Option (Bool × Mem)) : Prop :=
  ∃ r m1 m2, a = some (r, m1) ∧ b = some (r, m2) ∧ (r = true → m1.dst = scaleAngles (180 / π) c o m2.dst)

theorem decoded_scale {c : Coord} {o : Orient} (hc : c = .cartesian ∨ c = .none) (x : List ℝ) (v : Vec3) :
    decodedPos c x ++ decodedRot o .degrees v =
      scaleAngles (180 / π) c o (decodedPos c x ++ decodedRot o .radians v) := by
  rcases hc with rfl | rfl <;> cases o <;>
    simp [decodedPos, decodedRot, scaleAngles, isAngle, firstOrient, outRad_degrees, outRad_radians, List.mapIdx_cons]

/-- C28: decoding a pose into degrees is decoding it into radians and multiplying every angle by
`180 / π`. -/
theorem C28_decodePose_units (c : Coord) (o : Orient) (m : Mem) :
    ScaledOutcome c o (decodePose c o .degrees m) (decodePose c o .radians m) := by
  by_cases hs : Decodable c o m.input
  · by_cases hl : 6 ≤ m.input.length
    · obtain ⟨m1, h1, e1⟩ := decodePose_ok .degrees m hs hl
      obtain ⟨m2, h2, e2⟩ := decodePose_ok .radians m hs hl
      refine ⟨true, m1, m2, h1, h2, fun _ => ?_⟩
      rw [e1, e2, decoded_scale hs.1]
    · exact ⟨false, _, _, decodePose_short c o _ m (not_le.mp hl), decodePose_short c o _ m (not_le.mp hl),
        by simp⟩
  · obtain ⟨m1, h1⟩ := decodePose_unsupported o .degrees m hs
    obtain ⟨m2, h2⟩ := decodePose_unsupported o .radians m hs
    exact ⟨false, m1, m2, h1, h2, by simp⟩

theorem encodedVelRot_degrees {c : Coord} {o : Orient} (hs : VelConvertible c o) (pose x : List ℝ) :
    encodedVelRot pose c o .degrees x =
      encodedVelRot (scaleAngles (π / 180) c o pose) c o .radians (scaleAngles (π / 180) c o x) := by
  obtain ⟨hc, hy⟩ := hs
  rcases hc with rfl | rfl <;> rcases hy with rfl | rfl | rfl | rfl <;>
    simp [encodedVelRot, inRad_eq, angle_degrees, ← List.getD_eq_getElem?_getD, scaleAngles_getD, isAngle,
      offset, firstOrient, angle_radians]

/-- C28: encoding a velocity given in degrees; the pose is in the same representation. -/
theorem C28_encodeVelocity_units (pose : List ℝ) (c : Coord) (o : Orient) (x y y' : List ℝ)
    (hp : o = .rpy → 3 + firstOrient c ≤ pose.length) :
    SameOutcome (encodeVelocity pose c o .degrees ⟨x, y, false⟩)
      (encodeVelocity (scaleAngles (π / 180) c o pose) c o .radians
        ⟨scaleAngles (π / 180) c o x, y', false⟩) := by
  rw [← offset_eq] at hp
  have hp' : o = .rpy → 3 + offset c ≤ (scaleAngles (π / 180) c o pose).length := by
    rw [scaleAngles_length]; exact hp
  by_cases hs : VelConvertible c o
  · by_cases hl : coordSize c + orientSize o ≤ x.length
    · obtain ⟨m1, h1, e1⟩ := encodeVelocity_ok .degrees pose hs hp ⟨x, y, false⟩ hl
      obtain ⟨m2, h2, e2⟩ := encodeVelocity_ok .radians _ hs hp' ⟨scaleAngles (π / 180) c o x, y', false⟩
        (by simpa [Mem.input, scaleAngles_length] using hl)
      refine ⟨true, m1, m2, h1, h2, fun _ => ?_⟩
      rw [e1, e2]
      simp only [Mem.input, Bool.false_eq_true, if_false, posOf_scale, encodedVelRot_degrees hs pose x]
    · exact ⟨false, _, _, encodeVelocity_short pose c o _ ⟨x, y, false⟩ (not_le.mp hl),
        encodeVelocity_short _ c o _ ⟨scaleAngles (π / 180) c o x, y', false⟩
          (by simpa [Mem.input, scaleAngles_length] using hl), by simp⟩
  · obtain ⟨m1, h1⟩ := encodeVelocity_unsupported o .degrees ⟨x, y, false⟩ hp hs
    obtain ⟨m2, h2⟩ := encodeVelocity_unsupported o .radians ⟨scaleAngles (π / 180) c o x, y', false⟩ hp' hs
    exact ⟨false, m1, m2, h1, h2, by simp⟩

theorem decodedVel_scale {c : Coord} {o : Orient} (hs : VelConvertible c o) (pose x : List ℝ) (v : Vec3) :
    decodedPos c x ++ decodedVelRot pose o .degrees v =
      scaleAngles (180 / π) c o (decodedPos c x ++ decodedVelRot pose o .radians v) := by
  obtain ⟨hc, hy⟩ := hs
  rcases hc with rfl | rfl <;> rcases hy with rfl | rfl | rfl | rfl <;>
    simp [decodedPos, decodedVelRot, scaleAngles, isAngle, firstOrient, outRad_degrees, outRad_radians, List.mapIdx_cons]

/-- C28: decoding a velocity into degrees. -/
theorem C28_decodeVelocity_units (pose : List ℝ) (c : Coord) (o : Orient) (m : Mem)
    (hp : o = .rpy → 6 ≤ pose.length) :
    ScaledOutcome c o (decodeVelocity pose c o .degrees m) (decodeVelocity pose c o .radians m) := by
  by_cases hs : VelConvertible c o
  · by_cases hl : 6 ≤ m.input.length
    · obtain ⟨m1, h1, e1⟩ := decodeVelocity_ok .degrees pose m hs hp hl
      obtain ⟨m2, h2, e2⟩ := decodeVelocity_ok .radians pose m hs hp hl
      refine ⟨true, m1, m2, h1, h2, fun _ => ?_⟩
      rw [e1, e2, decodedVel_scale hs]
    · exact ⟨false, _, _, decodeVelocity_short pose c o _ m (not_le.mp hl),
        decodeVelocity_short pose c o _ m (not_le.mp hl), by simp⟩
  · obtain ⟨m1, h1⟩ := decodeVelocity_unsupported o .degrees m hp hs
    obtain ⟨m2, h2⟩ := decodeVelocity_unsupported o .radians m hp hs
    exact ⟨false, m1, m2, h1, h2, by simp⟩

/-- The angles that are scaled: all three elements of a rotation vector, only the last one of an axis
and an angle, and never the position. -/
example : scaleAngles 2 .cartesian .axisAngleScaled [1, 1, 1, 1, 1, 1] = [1, 1, 1, 2, 2, 2] ∧
    scaleAngles 2 .cartesian .axisAngle [1, 1, 1, 1, 1, 1, 1] = [1, 1, 1, 1, 1, 1, 2] ∧
    scaleAngles 2 .none .eulerYZ [1, 1] = [2, 2] := by
  simp [scaleAngles, isAngle, firstOrient, List.mapIdx_cons]

/-! ## C30 -/

/-- Encoding a velocity at a pose and decoding the result, at a pose in the standard representation,
gives `y` back. -/
def VelRoundTrip (poseIn poseStd : List ℝ) (c : Coord) (o : Orient) (u : Units) (x y : List ℝ) : Prop :=
  ∃ m1, encodeVelocity poseIn c o u ⟨x, [], false⟩ = some (true, m1) ∧
    ∃ m2, decodeVelocity poseStd c o u ⟨m1.dst, [], false⟩ = some (true, m2) ∧ m2.dst = y

theorem velRoundTrip_iff {poseIn poseStd : List ℝ} {c : Coord} {o : Orient} {u : Units} {x y : List ℝ}
    (hs : VelConvertible c o) (hp : o = .rpy → 3 + offset c ≤ poseIn.length)
    (hp' : o = .rpy → 6 ≤ poseStd.length) (hl : coordSize c + orientSize o ≤ x.length) :
    VelRoundTrip poseIn poseStd c o u x y ↔
      decodedPos c x ++ decodedVelRot poseStd o u (encodedVelRot poseIn c o u x) = y := by
  obtain ⟨m1, h1, e1⟩ := encodeVelocity_ok u poseIn hs hp ⟨x, [], false⟩ hl
  obtain ⟨m2, h2, e2⟩ := decodeVelocity_ok u poseStd ⟨m1.dst, [], false⟩ hs hp' (by simp [Mem.input, e1, sixOf])
  have e3 : m2.dst = decodedPos c x ++ decodedVelRot poseStd o u (encodedVelRot poseIn c o u x) := by
    rw [e2]
    have a : rotOf m1.dst = encodedVelRot poseIn c o u x := by
      rw [e1]; simp [rotOf, sixOf, Mem.input]
    have b : decodedPos c m1.dst = decodedPos c x := by
      rw [e1]; simp only [decodedPos]
      split_ifs with hc
      · simp [sixOf, posOf, hc, Mem.input]
      · rfl
    show decodedPos c m1.dst ++ decodedVelRot poseStd o u (rotOf m1.dst) = _
    rw [a, b]
  constructor
  · rintro ⟨n1, g1, n2, g2, rfl⟩
    rw [h1] at g1
    simp only [Option.some.injEq, Prod.mk.injEq, true_and] at g1
    subst g1
    rw [h2] at g2
    simp only [Option.some.injEq, Prod.mk.injEq, true_and] at g2
    subst g2
    exact e3.symm
  · intro h
    exact ⟨m1, h1, m2, h2, e3.trans h⟩

/-- C30: rotation vector velocities survive, for every velocity, pose and unit. -/
theorem C30_scaled_round_trip (poseIn poseStd : List ℝ) (u : Units) (a b c d e f : ℝ) :
    VelRoundTrip poseIn poseStd .cartesian .axisAngleScaled u [a, b, c, d, e, f] [a, b, c, d, e, f] := by
  rw [velRoundTrip_iff ⟨Or.inl rfl, by simp⟩ (by simp) (by simp) (by simp [coordSize, orientSize])]
  simp [decodedPos, decodedVelRot, encodedVelRot, offset, inRad_eq, outRad_angle]

/-- Unit axis and angle in (0, π) are determined by the rotation. -/
theorem axis_angle_unique {a b : Vec3} (ha : Vec3.dot a a = 1) (hb : Vec3.dot b b = 1) {α β : ℝ}
    (hα : 0 ≤ α) (hα' : α ≤ π) (hβ : 0 < β) (hβ' : β < π) (h : Mat3.rot2 a α = Mat3.rot2 b β) :
    a = b ∧ α = β := by
  have hc : cos α = cos β := by
    rw [← Mat3.rot2_cosAngle ha, ← Mat3.rot2_cosAngle hb, h]
  have hab : α = β := injOn_cos ⟨hα, hα'⟩ ⟨hβ.le, hβ'.le⟩ hc
  subst hab
  have hs : sin α ≠ 0 := (sin_pos_of_pos_of_lt_pi hβ hβ').ne'
  have e1 := congrArg Mat3.zy h
  have e2 := congrArg Mat3.yz h
  have e3 := congrArg Mat3.xz h
  have e4 := congrArg Mat3.zx h
  have e5 := congrArg Mat3.yx h
  have e6 := congrArg Mat3.xy h
  simp only [Mat3.rot2] at e1 e2 e3 e4 e5 e6
  refine ⟨?_, rfl⟩
  ext
  · apply mul_left_cancel₀ hs; linarith
  · apply mul_left_cancel₀ hs; linarith
  · apply mul_left_cancel₀ hs; linarith

/-- C30, axis and angle: the velocity survives if the axis has length one and the speed is at least
`1e-6` and at least `1e-6` less than π, as measured by its cosine. Partial: see the next theorem
for speeds above π. -/
theorem C30_axis_angle_round_trip_partial (poseIn poseStd : List ℝ) (u : Units) (p a : Vec3) (s : ℝ)
    (ha : Vec3.dot a a = 1) (h0 : 0 < angle u s) (h1 : angle u s < π)
    (hr : cos (angle u s) ≤ 1 - eps * eps / 2 ∧ -1 + eps * eps / 2 ≤ cos (angle u s)) :
    VelRoundTrip poseIn poseStd .cartesian .axisAngle u [p.x, p.y, p.z, a.x, a.y, a.z, s]
      [p.x, p.y, p.z, a.x, a.y, a.z, s] := by
  rw [velRoundTrip_iff ⟨Or.inl rfl, by simp⟩ (by simp) (by simp) (by simp [coordSize, orientSize])]
  have hn : a.norm = 1 := by rw [Vec3.norm, ha, sqrt_one]
  have hrot : Mat3.rot a (angle u s) = Mat3.rot2 a (angle u s) := by
    rw [rot_eq (by rw [hn]; norm_num [eps]), hn]; simp
  have hR : (Mat3.rot2 a (angle u s)).IsRot := Mat3.rot2_isRot ha _
  have hreg : (Mat3.rot2 a (angle u s)).Regular := by
    left; rw [Mat3.rot2_cosAngle ha]; exact hr
  obtain ⟨g1, g2, g3, g4, -⟩ := hR.getRotAngle_spec hreg
  obtain ⟨k1, k2⟩ := axis_angle_unique g1 ha g2 g3 h0 h1 g4
  have hget : (Mat3.rot2 a (angle u s)).getRot = angle u s • a := by
    rw [Mat3.getRot, k1, k2]
  have hv : encodedVelRot poseIn .cartesian .axisAngle u [p.x, p.y, p.z, a.x, a.y, a.z, s] =
      angle u s • a := by
    rw [← hget, ← hrot]
    simp [encodedVelRot, offset, inRad_eq]
  have hnv : (angle u s • a).norm = angle u s := by
    rw [Vec3.norm_smul, hn, mul_one, abs_of_pos h0]
  have hge : eps ≤ (angle u s • a).norm := by
    rw [hnv]
    by_contra hlt
    have e1 := one_sub_sq_div_two_le_cos (x := angle u s)
    have e2 : angle u s * angle u s < eps * eps := by
      have := not_le.mp hlt
      nlinarith
    nlinarith [hr.1]
  have hnorm : (angle u s • a).normalize = a := by
    rw [Vec3.normalize, if_neg (not_lt.mpr hge), hnv, smul_smul, one_div, inv_mul_cancel₀ h0.ne', one_smul]
  rw [hv]
  simp [decodedPos, decodedVelRot, hnorm, hnv, outRad_angle]

/-- C30 fails for axis and angle: a velocity is no rotation, but the code makes one of it, and speeds
above π are wrapped. `3π/2` rad/s about the vertical axis come back as `π/2` rad/s about its opposite. -/
theorem C30_axis_angle_wraps :
    VelRoundTrip [] [] .cartesian .axisAngle .radians [0, 0, 0, 0, 0, 1, 3 * π / 2]
      [0, 0, 0, 0, 0, -1, π / 2] := by
  rw [velRoundTrip_iff ⟨Or.inl rfl, by simp⟩ (by simp) (by simp) (by simp [coordSize, orientSize])]
  have hz : Vec3.dot (⟨0, 0, 1⟩ : Vec3) ⟨0, 0, 1⟩ = 1 := by simp [Vec3.dot]
  have hm : Vec3.dot (⟨0, 0, -1⟩ : Vec3) ⟨0, 0, -1⟩ = 1 := by simp [Vec3.dot]
  have p2 := two_le_pi
  have hn : (⟨0, 0, 1⟩ : Vec3).norm = 1 := by rw [Vec3.norm, hz, sqrt_one]
  have hn' : (⟨0, 0, -1⟩ : Vec3).norm = 1 := by rw [Vec3.norm, hm, sqrt_one]
  have hs : sin (3 * π / 2) = -1 := by
    rw [show 3 * π / 2 = π / 2 + π by ring, sin_add_pi, sin_pi_div_two]
  have hc : cos (3 * π / 2) = 0 := by
    rw [show 3 * π / 2 = π / 2 + π by ring, cos_add_pi, cos_pi_div_two, neg_zero]
  have hrot : Mat3.rot ⟨0, 0, 1⟩ (3 * π / 2) = Mat3.rot2 ⟨0, 0, -1⟩ (π / 2) := by
    rw [rot_eq (by rw [hn]; norm_num [eps]), hn]
    ext <;> simp [Mat3.rot2, hs, hc]
  have hreg : (Mat3.rot2 ⟨0, 0, -1⟩ (π / 2)).Regular := by
    left; rw [Mat3.rot2_cosAngle hm, cos_pi_div_two]
    norm_num [eps]
  obtain ⟨g1, g2, g3, g4, -⟩ := (Mat3.rot2_isRot hm (π / 2)).getRotAngle_spec hreg
  obtain ⟨k1, k2⟩ := axis_angle_unique g1 hm g2 g3 (by linarith) (by linarith) g4
  have hget : (Mat3.rot2 ⟨0, 0, -1⟩ (π / 2)).getRot = (π / 2) • (⟨0, 0, -1⟩ : Vec3) := by
    rw [Mat3.getRot, k1, k2]
  have hv : encodedVelRot [] .cartesian .axisAngle .radians [0, 0, 0, 0, 0, 1, 3 * π / 2] =
      (π / 2) • (⟨0, 0, -1⟩ : Vec3) := by
    rw [← hget, ← hrot]
    simp [encodedVelRot, offset, inRad]
  have hpos : 0 < π / 2 := by linarith
  have hnv : ((π / 2) • (⟨0, 0, -1⟩ : Vec3)).norm = π / 2 := by
    rw [Vec3.norm_smul, hn', mul_one, abs_of_pos hpos]
  have hnorm : ((π / 2) • (⟨0, 0, -1⟩ : Vec3)).normalize = ⟨0, 0, -1⟩ := by
    rw [Vec3.normalize, if_neg (by rw [hnv]; norm_num [eps]; linarith), hnv, smul_smul, one_div,
      inv_mul_cancel₀ hpos.ne', one_smul]
  rw [hv]
  simp only [decodedPos, decodedVelRot, hnorm, hnv, outRad]
  simp

/-- C30, roll-pitch-yaw rates: they survive at poses without pitch, if the decoder is given roll, pitch
and yaw too. Partial: see the next theorems. -/
theorem C30_rpy_round_trip_partial (u : Units) (p : Vec3) (roll yaw a b g : ℝ) (x y z : ℝ) :
    VelRoundTrip [p.x, p.y, p.z, roll, 0, yaw] [x, y, z, angle u roll, 0, angle u yaw] .cartesian .rpy u
      [p.x, p.y, p.z, a, b, g] [p.x, p.y, p.z, a, b, g] := by
  rw [velRoundTrip_iff ⟨Or.inl rfl, by simp⟩ (by simp [offset]) (by simp) (by simp [coordSize, orientSize])]
  have h0 : angle u 0 = 0 := by cases u <;> simp [angle]
  have hM : (rpyRates 0 (angle u yaw)).transpose * rpyRates 0 (angle u yaw) = 1 := by
    ext <;> simp [rpyRates, Mat3.rotZ, Mat3.rotY] <;> nlinarith [sin_sq_add_cos_sq (angle u yaw)]
  have hv : (rpyRates 0 (angle u yaw)).transpose.mulVec
      ((rpyRates 0 (angle u yaw)).mulVec ⟨angle u a, angle u b, angle u g⟩) = ⟨angle u a, angle u b, angle u g⟩ := by
    rw [← Mat3.mulVec_mul, hM, Mat3.mulVec_one]
  simp only [decodedVelRot, encodedVelRot, offset, inRad_eq]
  simp [decodedPos, h0, hv, outRad_angle]

/-- C30 fails for roll-pitch-yaw rates: the inverse of the matrix of rates is taken to be its transpose,
which it is not as soon as there is some pitch. With a pitch of 30 degrees, a rate of (1, 0, 0)
comes back as (1, 0, -1/2). -/
theorem C30_rpy_rates_not_undone :
    VelRoundTrip [0, 0, 0, 0, π / 6, 0] [0, 0, 0, 0, π / 6, 0] .cartesian .rpy .radians
      [0, 0, 0, 1, 0, 0] [0, 0, 0, 1, 0, -(1 / 2)] := by
  rw [velRoundTrip_iff ⟨Or.inl rfl, by simp⟩ (by simp [offset]) (by simp) (by simp [coordSize, orientSize])]
  simp [decodedPos, decodedVelRot, encodedVelRot, offset, inRad, outRad, rpyRates, Mat3.rotZ, Mat3.rotY,
    Mat3.mulVec, Mat3.transpose]

/-- Roll rate applied to the wrong axis: without pitch and yaw, a pure roll rate is an angular velocity
about the x axis (the derivative of the rotation is the cross product with it), but it is encoded
as an angular velocity about the z axis. -/
theorem C30_roll_rate_about_z :
    (∃ m1, encodeVelocity [0, 0, 0, 0, 0, 0] .cartesian .rpy .radians ⟨[0, 0, 0, 1, 0, 0], [], false⟩ =
      some (true, m1) ∧ m1.dst = [0, 0, 0, 0, 0, 1]) ∧
    (∀ v : Vec3, ∀ t, HasDerivAt (fun s => ((Mat3.rpy s 0 0).mulVec v).y)
      (Vec3.cross ⟨1, 0, 0⟩ ((Mat3.rpy t 0 0).mulVec v)).y t ∧
      HasDerivAt (fun s => ((Mat3.rpy s 0 0).mulVec v).z)
      (Vec3.cross ⟨1, 0, 0⟩ ((Mat3.rpy t 0 0).mulVec v)).z t) := by
  constructor
  · obtain ⟨m1, h1, e1⟩ := encodeVelocity_ok (c := .cartesian) (o := .rpy) .radians [0, 0, 0, 0, 0, 0]
      ⟨Or.inl rfl, by simp⟩ (by simp [offset]) ⟨[0, 0, 0, 1, 0, 0], [], false⟩
      (by simp [Mem.input, coordSize, orientSize])
    refine ⟨m1, h1, ?_⟩
    rw [e1]
    simp [Mem.input, sixOf, posOf, encodedVelRot, offset, inRad, rpyRates, Mat3.rotZ, Mat3.rotY, Mat3.mulVec]
  · intro v t
    have hs := hasDerivAt_sin t
    have hc := hasDerivAt_cos t
    have hy : (fun s => ((Mat3.rpy s 0 0).mulVec v).y) = (fun s => cos s * v.y - sin s * v.z) := by
      funext s; simp [Mat3.rpy, Mat3.rotZ, Mat3.rotY, Mat3.rotX, Mat3.mulVec]; ring
    have hz : (fun s => ((Mat3.rpy s 0 0).mulVec v).z) = (fun s => sin s * v.y + cos s * v.z) := by
      funext s; simp [Mat3.rpy, Mat3.rotZ, Mat3.rotY, Mat3.rotX, Mat3.mulVec]
    have ey : (Vec3.cross ⟨1, 0, 0⟩ ((Mat3.rpy t 0 0).mulVec v)).y = -sin t * v.y - cos t * v.z := by
      simp [Mat3.rpy, Mat3.rotZ, Mat3.rotY, Mat3.rotX, Mat3.mulVec, Vec3.cross]; ring
    have ez : (Vec3.cross ⟨1, 0, 0⟩ ((Mat3.rpy t 0 0).mulVec v)).z = cos t * v.y + -sin t * v.z := by
      simp [Mat3.rpy, Mat3.rotZ, Mat3.rotY, Mat3.rotX, Mat3.mulVec, Vec3.cross]
    rw [hy, hz, ey, ez]
    exact ⟨(hc.mul_const v.y).sub (hs.mul_const v.z), (hs.mul_const v.y).add (hc.mul_const v.z)⟩

/-- A speed of 90 degrees per second about the vertical axis meets the hypotheses of
`C30_axis_angle_round_trip_partial`. -/
example : Vec3.dot (⟨0, 0, 1⟩ : Vec3) ⟨0, 0, 1⟩ = 1 ∧ 0 < angle .degrees 90 ∧ angle .degrees 90 < π ∧
    cos (angle .degrees 90) ≤ 1 - eps * eps / 2 ∧ -1 + eps * eps / 2 ≤ cos (angle .degrees 90) := by
  have : angle .degrees 90 = π / 2 := by simp [angle]; ring
  rw [this, cos_pi_div_two]
  have := pi_pos
  refine ⟨by simp [Vec3.dot], by linarith, by linarith, by norm_num [eps], by norm_num [eps]⟩

end KD
