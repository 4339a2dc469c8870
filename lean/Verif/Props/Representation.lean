import Verif.Repr.ReprMeaning

/-!
# C26, C27, C29: pose conversions

`Mem` holds the source and the destination vector; `same` tells whether they are one object. A
conversion that reads or writes out of bounds has no result.
-/

namespace KD

open Real KinRepr

/-! ## C26 -/

/-- C26, encoding: the encoded vector describes the same rigid transform as the input, in every
representation the function accepts. Partial: rotations whose angle is within `1e-6` of zero or of a
half turn without being one of them are left out (`Regular`), and so are axes shorter than `1e-6`. -/
theorem C26_encode_keeps_pose_partial {c : Coord} {o : Orient} {u : Units} {m m' : Mem}
    (h : encodePose c o u m = some (true, m')) (ha : o = .axisAngle → HasAxis c m.input)
    (hr : o ≠ .axisAngleScaled → (meaning c o u m.input).M.Regular) :
    standard m'.dst = meaning c o u m.input := by
  obtain ⟨⟨hc, -⟩, -, h2⟩ := encodePose_true h
  rw [h2, standard_six, expRot_encodedRot ha hr]
  rcases hc with rfl | rfl <;> rfl

/-- C26, decoding: the decoded vector describes the same rigid transform, up to the part that the
caller asked to drop. Partial: the same bands around singularities are left out
(`DecodeRegular`), and for `EULER_YZ` the first Euler angle must be the azimuth of the position. -/
theorem C26_decode_keeps_pose_partial {c : Coord} {o : Orient} {u : Units} {m m' : Mem}
    (h : decodePose c o u m = some (true, m')) (hr : DecodeRegular c o m.input) :
    meaning c o u m'.dst = ⟨if o = .none then 1 else (standard m.input).M,
      if c = .none then 0 else (standard m.input).p⟩ := by
  obtain ⟨⟨hc, -⟩, -, h2⟩ := decodePose_true h
  have hM : orientation o u m'.dst (firstOrient c) =
      if o = .none then 1 else Mat3.expRot (rotOf m.input) := by
    by_cases ho : o = .none
    · subst ho; simp [orientation]
    · rw [if_neg ho, h2, orientation_decodedRot hc hr ho]
  rw [meaning, hM, standard_eq]
  rcases hc with rfl | rfl
  · simp [h2, decodedPos]
  · simp

private theorem axis_of_decoded {u : Units} {m m' : Mem}
    (h : decodePose .cartesian .axisAngle u m = some (true, m')) : HasAxis .cartesian m'.dst := by
  obtain ⟨-, -, h2⟩ := decodePose_true h
  rw [h2, HasAxis, decoded_raw _ (Or.inl rfl), decoded_raw _ (Or.inl rfl), decoded_raw _ (Or.inl rfl)]
  have h1 : (rotOf m.input).normalize.norm = 1 := by
    have := Vec3.normalize_unit (rotOf m.input)
    rw [Vec3.norm, ← sqrt_one]; congr 1
  simp only [decodedRot, List.getD_cons_succ, List.getD_cons_zero]
  show eps ≤ (rotOf m.input).normalize.norm
  rw [h1]; norm_num [eps]

/-- C26: decoding a pose and encoding the result, possibly in place, succeeds and gives the same rigid
transform. Partial as above. -/
theorem C26_round_trip_partial {o : Orient} {u : Units} {m m' m1 : Mem}
    (h : decodePose .cartesian o u m = some (true, m')) (ho : o ≠ .none)
    (hr : DecodeRegular .cartesian o m.input) (hreg : (standard m.input).M.Regular)
    (h1 : m1.input = m'.dst) :
    ∃ m2, encodePose .cartesian o u m1 = some (true, m2) ∧ standard m2.dst = standard m.input := by
  have hk := C26_decode_keeps_pose_partial h hr
  simp only [ho, if_false, reduceCtorEq] at hk
  obtain ⟨-, -, h2⟩ := decodePose_true h
  obtain ⟨m2, hm2, -⟩ := encodePose_ok (c := .cartesian) (o := o) u ⟨Or.inl rfl, by simp⟩ m1 (by
    rw [h1, h2]; cases o <;> simp [coordSize, orientSize, decodedPos, decodedRot])
  refine ⟨m2, hm2, ?_⟩
  rw [C26_encode_keeps_pose_partial hm2 ?_ ?_, h1, hk]
  · rintro rfl
    rw [h1]; exact axis_of_decoded h
  · intro _
    rw [h1, hk]
    exact hreg

/-- C26: with rotation vectors the two functions are inverse to each other, without exception. -/
theorem C26_scaled_exact (u : Units) (p v : Vec3) (rest y z : List ℝ) :
    (∃ m1, encodePose .cartesian .axisAngleScaled u ⟨sixOf p v ++ rest, y, false⟩ = some (true, m1) ∧
      ∃ m2, decodePose .cartesian .axisAngleScaled u ⟨m1.dst, z, false⟩ = some (true, m2) ∧
        m2.dst = sixOf p v) ∧
    (∃ m1, decodePose .cartesian .axisAngleScaled u ⟨sixOf p v ++ rest, y, false⟩ = some (true, m1) ∧
      ∃ m2, encodePose .cartesian .axisAngleScaled u ⟨m1.dst, z, false⟩ = some (true, m2) ∧
        m2.dst = sixOf p v) := by
  constructor
  · obtain ⟨m1, h1, e1⟩ := encodePose_ok (c := .cartesian) (o := .axisAngleScaled) u ⟨Or.inl rfl, by simp⟩
      ⟨sixOf p v ++ rest, y, false⟩ (by simp [Mem.input, sixOf, coordSize, orientSize])
    obtain ⟨m2, h2, e2⟩ := decodePose_ok (c := .cartesian) (o := .axisAngleScaled) u ⟨m1.dst, z, false⟩
      ⟨Or.inl rfl, by simp⟩ (by simp [Mem.input, e1, sixOf])
    refine ⟨m1, h1, m2, h2, ?_⟩
    rw [e2]
    simp [Mem.input, e1, sixOf, decodedPos, decodedRot, rotOf, posOf, encodedRot, offset, inRad_eq, outRad_angle]
  · obtain ⟨m1, h1, e1⟩ := decodePose_ok (c := .cartesian) (o := .axisAngleScaled) u
      ⟨sixOf p v ++ rest, y, false⟩ ⟨Or.inl rfl, by simp⟩ (by simp [Mem.input, sixOf])
    obtain ⟨m2, h2, e2⟩ := encodePose_ok (c := .cartesian) (o := .axisAngleScaled) u ⟨Or.inl rfl, by simp⟩
      ⟨m1.dst, z, false⟩ (by simp [Mem.input, e1, sixOf, decodedPos, decodedRot, coordSize, orientSize])
    refine ⟨m1, h1, m2, h2, ?_⟩
    rw [e2]
    simp [Mem.input, e1, sixOf, decodedPos, decodedRot, rotOf, posOf, encodedRot, offset, inRad_eq, angle_outRad]

/-- Canonical ranges of the decoded orientation elements, in radians. -/
def Canonical (o : Orient) (e : ℕ → ℝ) : Prop :=
  match o with
  | .axisAngle => 0 ≤ e 3
  | .rpy => (-π < e 0 ∧ e 0 ≤ π) ∧ (-(π / 2) ≤ e 1 ∧ e 1 ≤ π / 2) ∧ (-π < e 2 ∧ e 2 ≤ π)
  | .eulerYZ => (0 ≤ e 0 ∧ e 0 ≤ π) ∧ (-π < e 1 ∧ e 1 ≤ π)
  | .eulerZYZ => (-π < e 0 ∧ e 0 ≤ π) ∧ (0 ≤ e 1 ∧ e 1 ≤ π) ∧ (-π < e 2 ∧ e 2 ≤ π)
  | .polarAzimuth => 0 ≤ e 0 ∧ (-π < e 1 ∧ e 1 ≤ π)
  | _ => True

private theorem getRPY_ranges (m : Mat3) :
    (-π < m.getRPY.1 ∧ m.getRPY.1 ≤ π) ∧ (-(π / 2) ≤ m.getRPY.2.1 ∧ m.getRPY.2.1 ≤ π / 2) ∧
      (-π < m.getRPY.2.2 ∧ m.getRPY.2.2 ≤ π) := by
  have hp := pi_pos
  refine ⟨?_, ?_, ?_⟩
  · unfold Mat3.getRPY; simp only; split_ifs
    · exact ⟨by simpa using hp, hp.le⟩
    · exact ⟨neg_pi_lt_atan2 _ _, atan2_le_pi _ _⟩
  · rw [Mat3.getRPY_pitch]
    exact abs_le.mp (Complex.abs_arg_le_pi_div_two_iff.mpr (sqrt_nonneg _))
  · unfold Mat3.getRPY; simp only; split_ifs <;> exact ⟨neg_pi_lt_atan2 _ _, atan2_le_pi _ _⟩

private theorem getEuler_ranges (m : Mat3) :
    (-π < m.getEulerZYZ.1 ∧ m.getEulerZYZ.1 ≤ π) ∧ (0 ≤ m.getEulerZYZ.2.1 ∧ m.getEulerZYZ.2.1 ≤ π) ∧
      (-π < m.getEulerZYZ.2.2 ∧ m.getEulerZYZ.2.2 ≤ π) := by
  have hp := pi_pos
  refine ⟨?_, ?_, ?_⟩
  · unfold Mat3.getEulerZYZ; split_ifs <;> exact ⟨neg_pi_lt_atan2 _ _, atan2_le_pi _ _⟩
  · unfold Mat3.getEulerZYZ; split_ifs
    · exact ⟨le_refl _, hp.le⟩
    · exact ⟨hp.le, le_refl _⟩
    · exact ⟨arccos_nonneg _, arccos_le_pi _⟩
  · unfold Mat3.getEulerZYZ; split_ifs
    · exact ⟨by simpa using hp, hp.le⟩
    · exact ⟨by simpa using hp, hp.le⟩
    · exact ⟨neg_pi_lt_atan2 _ _, atan2_le_pi _ _⟩

/-- C26: a decoded pose has canonical angles, whatever the input. -/
theorem C26_canonical_ranges {c : Coord} {o : Orient} {u : Units} {m m' : Mem}
    (h : decodePose c o u m = some (true, m')) :
    Canonical o fun i => angle u (m'.dst.getD (i + firstOrient c) 0) := by
  obtain ⟨⟨hc, -⟩, -, h2⟩ := decodePose_true h
  rw [h2]
  simp only [decoded_raw c hc]
  cases o
  · simp only [Canonical, decodedRot, List.getD_cons_succ, List.getD_cons_zero, angle_outRad]
    exact Vec3.norm_nonneg _
  · trivial
  · simp only [Canonical, decodedRot, List.getD_cons_succ, List.getD_cons_zero, angle_outRad]
    exact getRPY_ranges _
  · simp only [Canonical, decodedRot, List.getD_cons_succ, List.getD_cons_zero, angle_outRad]
    exact (getEuler_ranges _).2
  · simp only [Canonical, decodedRot, List.getD_cons_succ, List.getD_cons_zero, angle_outRad]
    exact getEuler_ranges _
  · simp only [Canonical, decodedRot, List.getD_cons_succ, List.getD_cons_zero, angle_outRad]
    exact ⟨Vec3.norm_nonneg _, neg_pi_lt_atan2 _ _, atan2_le_pi _ _⟩
  · trivial

private theorem expRot_z {θ : ℝ} (h : 0 ≤ θ) : Mat3.expRot ⟨0, 0, θ⟩ = Mat3.rotZ θ := by
  have := Mat3.expRot_smul (u := ⟨0, 0, 1⟩) (by simp [Vec3.dot]) h
  have e : θ • (⟨0, 0, 1⟩ : Vec3) = ⟨0, 0, θ⟩ := by ext <;> simp
  rw [e] at this
  rw [this]
  ext <;> simp [Mat3.rot2, Mat3.rotZ]

/-- C26 fails for `EULER_YZ`: decoding drops the first Euler angle and encoding takes the azimuth of
the position in its place. The frame at (1, 0, 0) turned a quarter about the vertical axis decodes
to both angles being zero, and comes back as a frame that is not turned at all. -/
theorem C26_eulerYZ_loses_rotation :
    ∃ m1, decodePose .cartesian .eulerYZ .radians ⟨[1, 0, 0, 0, 0, π / 2], [], false⟩ = some (true, m1) ∧
      ∃ m2, encodePose .cartesian .eulerYZ .radians ⟨m1.dst, [], false⟩ = some (true, m2) ∧
        (standard m2.dst).M = 1 ∧ (standard [1, 0, 0, 0, 0, π / 2]).M = Mat3.rotZ (π / 2) ∧
        (standard m2.dst).M ≠ (standard [1, 0, 0, 0, 0, π / 2]).M := by
  have hp := pi_pos
  have hrot : rotOf [1, 0, 0, 0, 0, π / 2] = ⟨0, 0, π / 2⟩ := rfl
  have hz := expRot_z (θ := π / 2) (by linarith)
  have hn : (⟨0, 0, π / 2⟩ : Vec3).norm = π / 2 := by
    rw [Vec3.norm]
    simp only [Vec3.dot, mul_zero, zero_add, add_zero]
    rw [← sq, sqrt_sq (by linarith)]
  have hR : Mat3.rot ⟨0, 0, π / 2⟩ (⟨0, 0, π / 2⟩ : Vec3).norm = Mat3.rotZ (π / 2) := by
    rw [Mat3.rot_norm (Or.inr ?_), hz]
    rw [hn]
    have := two_le_pi
    norm_num [eps]; linarith
  obtain ⟨m1, h1, e1⟩ := decodePose_ok (c := .cartesian) (o := .eulerYZ) .radians
    ⟨[1, 0, 0, 0, 0, π / 2], [], false⟩ ⟨Or.inl rfl, by simp⟩ (by simp [Mem.input])
  have hE : (Mat3.rotZ (π / 2)).getEulerZYZ.2 = (0, 0) := by
    unfold Mat3.getEulerZYZ
    have z1 : (Mat3.rotZ (π / 2)).zz = 1 := rfl
    rw [z1, if_pos (by norm_num [Mat3.singEps]), if_pos one_pos]
  have d1 : m1.dst = [1, 0, 0, 0, 0] := by
    rw [e1]
    simp only [Mem.input, Bool.false_eq_true, if_false, decodedPos, if_true, hrot, decodedRot, hR, hE]
    simp [outRad]
  obtain ⟨m2, h2, e2⟩ := encodePose_ok (c := .cartesian) (o := .eulerYZ) .radians ⟨Or.inl rfl, by simp⟩
    ⟨m1.dst, [], false⟩ (by simp [Mem.input, d1, coordSize, orientSize])
  have hm : (standard m2.dst).M = 1 := by
    rw [e2, standard_six]
    have a0 : atan2 0 1 = 0 := Complex.arg_one
    have r1 : Mat3.eulerZYZ 0 0 0 = 1 := by ext <;> simp [Mat3.eulerZYZ, Mat3.rotZ, Mat3.rotY]
    have : encodedRot .cartesian .eulerYZ .radians [1, 0, 0, 0, 0] = 0 := by
      simp [encodedRot, offset, inRad, a0, r1, getRot_one]
    simp only [Mem.input, Bool.false_eq_true, if_false, d1, this]
    exact Mat3.expRot_zero
  have hs : (standard [1, 0, 0, 0, 0, π / 2]).M = Mat3.rotZ (π / 2) := by
    rw [standard_eq]; simp only [hrot, hz]
  refine ⟨m1, h1, m2, h2, hm, hs, ?_⟩
  rw [hm, hs]
  intro hc
  have := congrArg Mat3.xx hc
  simp [Mat3.rotZ] at this

/-! ## C27 -/

/-- Two runs of a conversion, out of place and in place: both finish with the same answer, and the
outputs are the same if it is a success. -/
def SameOutcome (a b : Option (Bool × Mem)) : Prop :=
  ∃ r m1 m2, a = some (r, m1) ∧ b = some (r, m2) ∧ (r = true → m1.dst = m2.dst)

/-- C27: `encodePose` in place does as `encodePose` into another vector, whatever both vectors hold. -/
theorem C27_encodePose_in_place (c : Coord) (o : Orient) (u : Units) (x y z : List ℝ) :
    SameOutcome (encodePose c o u ⟨x, y, false⟩) (encodePose c o u ⟨z, x, true⟩) := by
  by_cases hs : Encodable c o
  · by_cases hl : coordSize c + orientSize o ≤ x.length
    · obtain ⟨m1, h1, e1⟩ := encodePose_ok u hs ⟨x, y, false⟩ hl
      obtain ⟨m2, h2, e2⟩ := encodePose_ok u hs ⟨z, x, true⟩ hl
      exact ⟨true, m1, m2, h1, h2, fun _ => e1.trans e2.symm⟩
    · exact ⟨false, _, _, encodePose_short c o u ⟨x, y, false⟩ (not_le.mp hl),
        encodePose_short c o u ⟨z, x, true⟩ (not_le.mp hl), by simp⟩
  · obtain ⟨m1, h1⟩ := encodePose_unsupported o u ⟨x, y, false⟩ hs
    obtain ⟨m2, h2⟩ := encodePose_unsupported o u ⟨z, x, true⟩ hs
    exact ⟨false, m1, m2, h1, h2, by simp⟩

/-- C27: `decodePose` in place. -/
theorem C27_decodePose_in_place (c : Coord) (o : Orient) (u : Units) (x y z : List ℝ) :
    SameOutcome (decodePose c o u ⟨x, y, false⟩) (decodePose c o u ⟨z, x, true⟩) := by
  by_cases hs : Decodable c o x
  · by_cases hl : 6 ≤ x.length
    · obtain ⟨m1, h1, e1⟩ := decodePose_ok u ⟨x, y, false⟩ hs hl
      obtain ⟨m2, h2, e2⟩ := decodePose_ok u ⟨z, x, true⟩ hs hl
      exact ⟨true, m1, m2, h1, h2, fun _ => e1.trans e2.symm⟩
    · exact ⟨false, _, _, decodePose_short c o u ⟨x, y, false⟩ (not_le.mp hl),
        decodePose_short c o u ⟨z, x, true⟩ (not_le.mp hl), by simp⟩
  · obtain ⟨m1, h1⟩ := decodePose_unsupported o u ⟨x, y, false⟩ hs
    obtain ⟨m2, h2⟩ := decodePose_unsupported o u ⟨z, x, true⟩ hs
    exact ⟨false, m1, m2, h1, h2, by simp⟩

/-- C27: `encodeVelocity` in place; roll-pitch-yaw rates need a pose that is long enough. -/
theorem C27_encodeVelocity_in_place (pose : List ℝ) (c : Coord) (o : Orient) (u : Units) (x y z : List ℝ)
    (hp : o = .rpy → 3 + firstOrient c ≤ pose.length) :
    SameOutcome (encodeVelocity pose c o u ⟨x, y, false⟩) (encodeVelocity pose c o u ⟨z, x, true⟩) := by
  rw [← offset_eq] at hp
  by_cases hs : VelConvertible c o
  · by_cases hl : coordSize c + orientSize o ≤ x.length
    · obtain ⟨m1, h1, e1⟩ := encodeVelocity_ok u pose hs hp ⟨x, y, false⟩ hl
      obtain ⟨m2, h2, e2⟩ := encodeVelocity_ok u pose hs hp ⟨z, x, true⟩ hl
      exact ⟨true, m1, m2, h1, h2, fun _ => e1.trans e2.symm⟩
    · exact ⟨false, _, _, encodeVelocity_short pose c o u ⟨x, y, false⟩ (not_le.mp hl),
        encodeVelocity_short pose c o u ⟨z, x, true⟩ (not_le.mp hl), by simp⟩
  · obtain ⟨m1, h1⟩ := encodeVelocity_unsupported o u ⟨x, y, false⟩ hp hs
    obtain ⟨m2, h2⟩ := encodeVelocity_unsupported o u ⟨z, x, true⟩ hp hs
    exact ⟨false, m1, m2, h1, h2, by simp⟩

/-- C27: `decodeVelocity` in place; roll-pitch-yaw rates need a pose of six elements. -/
theorem C27_decodeVelocity_in_place (pose : List ℝ) (c : Coord) (o : Orient) (u : Units) (x y z : List ℝ)
    (hp : o = .rpy → 6 ≤ pose.length) :
    SameOutcome (decodeVelocity pose c o u ⟨x, y, false⟩) (decodeVelocity pose c o u ⟨z, x, true⟩) := by
  by_cases hs : VelConvertible c o
  · by_cases hl : 6 ≤ x.length
    · obtain ⟨m1, h1, e1⟩ := decodeVelocity_ok u pose ⟨x, y, false⟩ hs hp hl
      obtain ⟨m2, h2, e2⟩ := decodeVelocity_ok u pose ⟨z, x, true⟩ hs hp hl
      exact ⟨true, m1, m2, h1, h2, fun _ => e1.trans e2.symm⟩
    · exact ⟨false, _, _, decodeVelocity_short pose c o u ⟨x, y, false⟩ (not_le.mp hl),
        decodeVelocity_short pose c o u ⟨z, x, true⟩ (not_le.mp hl), by simp⟩
  · obtain ⟨m1, h1⟩ := decodeVelocity_unsupported o u ⟨x, y, false⟩ hp hs
    obtain ⟨m2, h2⟩ := decodeVelocity_unsupported o u ⟨z, x, true⟩ hp hs
    exact ⟨false, m1, m2, h1, h2, by simp⟩

/-! ## C29 -/

/-- Number of elements a pose or velocity takes in a representation, from the documentation. -/
def elements (c : Coord) (o : Orient) : ℕ :=
  (match c with | .none => 0 | _ => 3) +
  (match o with | .none => 0 | .axisAngle => 4 | .eulerYZ => 2 | .polarAzimuth => 2 | _ => 3)

theorem elements_eq (c : Coord) (o : Orient) : elements c o = coordSize c + orientSize o := by
  cases c <;> cases o <;> rfl

/-- C29, partial: vectors that are too short are rejected by all four conversions and both vectors
are kept as they were. Missing: other failures do change the output, see below. -/
theorem C29_short_input_rejected_partial (pose : List ℝ) (c : Coord) (o : Orient) (u : Units) (m : Mem) :
    (m.input.length < elements c o →
      encodePose c o u m = some (false, m) ∧ encodeVelocity pose c o u m = some (false, m)) ∧
    (m.input.length < 6 →
      decodePose c o u m = some (false, m) ∧ decodeVelocity pose c o u m = some (false, m)) := by
  rw [elements_eq]
  exact ⟨fun h => ⟨encodePose_short c o u m h, encodeVelocity_short pose c o u m h⟩,
    fun h => ⟨decodePose_short c o u m h, decodeVelocity_short pose c o u m h⟩⟩

/-- C29: pose conversions never access a vector out of bounds, whatever the sizes, and succeed exactly
for vectors that are long enough in a representation that is implemented. -/
theorem C29_pose_conversions_defined (c : Coord) (o : Orient) (u : Units) (m : Mem) :
    (∃ r m', encodePose c o u m = some (r, m') ∧
      (r = true ↔ elements c o ≤ m.input.length ∧ (c = .cartesian ∨ c = .none) ∧
        ¬ (c = .none ∧ o = .eulerYZ))) ∧
    (∃ r m', decodePose c o u m = some (r, m') ∧
      (r = true ↔ 6 ≤ m.input.length ∧ (c = .cartesian ∨ c = .none) ∧
        (o = .polarAzimuth → |m.input.getD 5 0| ≤ eps))) := by
  rw [elements_eq]
  constructor
  · by_cases hs : Encodable c o
    · by_cases hl : coordSize c + orientSize o ≤ m.input.length
      · obtain ⟨m', h, -⟩ := encodePose_ok u hs m hl
        exact ⟨true, m', h, ⟨fun _ => ⟨hl, hs⟩, fun _ => rfl⟩⟩
      · exact ⟨false, m, encodePose_short c o u m (not_le.mp hl), by simp only [Bool.false_eq_true, hl, false_and]⟩
    · obtain ⟨m', h⟩ := encodePose_unsupported o u m hs
      exact ⟨false, m', h, ⟨by simp, fun hh => absurd hh.2 hs⟩⟩
  · by_cases hs : Decodable c o m.input
    · by_cases hl : 6 ≤ m.input.length
      · obtain ⟨m', h, -⟩ := decodePose_ok u m hs hl
        exact ⟨true, m', h, ⟨fun _ => ⟨hl, hs⟩, fun _ => rfl⟩⟩
      · exact ⟨false, m, decodePose_short c o u m (not_le.mp hl), by simp only [Bool.false_eq_true, hl, false_and]⟩
    · obtain ⟨m', h⟩ := decodePose_unsupported o u m hs
      exact ⟨false, m', h, ⟨by simp, fun hh => absurd hh.2 hs⟩⟩

/-- C29 fails for representations that are not implemented: the output has been changed by the time
`false` is returned. -/
theorem C29_unsupported_changes_output :
    (∃ m', encodePose .cylindrical .none .radians ⟨[1, 2, 3], [], false⟩ = some (false, m') ∧ m'.dst ≠ []) ∧
    (∃ m', decodePose .cylindrical .none .radians ⟨[1, 2, 3, 0, 0, 0], [7], false⟩ = some (false, m') ∧
      m'.dst ≠ [7]) ∧
    (∃ m', encodeVelocity [] .cartesian .eulerZYZ .radians ⟨[1, 2, 3, 0, 0, 0], [], false⟩ =
      some (false, m') ∧ m'.dst ≠ []) := by
  refine ⟨⟨⟨[1, 2, 3], [0, 0, 0, 0, 0, 0], false⟩, ?_, by simp⟩,
    ⟨⟨[1, 2, 3, 0, 0, 0], [7, 0, 0], false⟩, ?_, by simp⟩,
    ⟨⟨[1, 2, 3, 0, 0, 0], [0, 0, 0, 0, 0, 0], false⟩, ?_, by simp⟩⟩
  · simp [encodePose, bind_def, pure_def, checkVectorSize, grow, encodeOrient, wrRot, wr, resize,
      encodeCoord, resizeList, Mem.input, coordSize, orientSize]
  · simp [decodePose, bind_def, pure_def, checkVectorSize, decodeOrient, resize, decodeCoord,
      resizeList, Mem.input, coordSize, orientSize, offset]
  · simp [encodeVelocity, bind_def, pure_def, checkVectorSize, grow, encodeVelOrient,
      resizeList, Mem.input, coordSize, orientSize]

/-- C29 fails for roll-pitch-yaw rates: the size of the pose is never checked, and a short one is read
out of bounds. -/
theorem C29_short_pose_undefined :
    encodeVelocity [] .cartesian .rpy .radians ⟨[1, 2, 3, 0, 0, 0], [], false⟩ = none ∧
    decodeVelocity [] .cartesian .rpy .radians ⟨[1, 2, 3, 0, 0, 0], [], false⟩ = none := by
  constructor
  · simp [encodeVelocity, bind_def, checkVectorSize, grow, encodeVelOrient, rdPose,
      Mem.input, coordSize, orientSize]
  · simp [decodeVelocity, bind_def, checkVectorSize, grow, decodeVelOrient, rdPose,
      Mem.input, coordSize, orientSize]

/-- The documented names of the systems,
/repo/libraries/KinematicRepresentationLib/KinematicRepresentation.hpp:187-241. -/
def coordNames : List (String × Coord) :=
  [("cartesian", .cartesian), ("cylindrical", .cylindrical), ("spherical", .spherical), ("none", .none)]

/-- See `coordNames`. -/
def orientNames : List (String × Orient) :=
  [("axisAngle", .axisAngle), ("axisAngleScaled", .axisAngleScaled), ("RPY", .rpy), ("eulerYZ", .eulerYZ),
    ("eulerZYZ", .eulerZYZ), ("polarAzimuth", .polarAzimuth), ("none", .none)]

/-- See `coordNames`. -/
def unitsNames : List (String × Units) := [("degrees", .degrees), ("radians", .radians)]

/-- C29, names: a name is accepted exactly if it is one of the documented ones, and then it stands for its own
system; any other text is rejected and the fallback is used. -/
theorem C29_names (s : String) :
    (∀ c f, parseCoord s f = (true, c) ↔ (s, c) ∈ coordNames) ∧
    (∀ o f, parseOrient s f = (true, o) ↔ (s, o) ∈ orientNames) ∧
    (∀ u f, parseUnits s f = (true, u) ↔ (s, u) ∈ unitsNames) ∧
    (∀ f, (∀ c, (s, c) ∉ coordNames) → parseCoord s f = (false, f)) ∧
    (∀ f, (∀ o, (s, o) ∉ orientNames) → parseOrient s f = (false, f)) ∧
    (∀ f, (∀ u, (s, u) ∉ unitsNames) → parseUnits s f = (false, f)) := by
  have h1 : ∀ c f, parseCoord s f = (true, c) ↔ (s, c) ∈ coordNames := by
    intro c f
    unfold parseCoord
    split_ifs with a1 a2 a3 a4 <;> simp_all [coordNames, eq_comm]
  have h2 : ∀ o f, parseOrient s f = (true, o) ↔ (s, o) ∈ orientNames := by
    intro o f
    unfold parseOrient
    split_ifs with a1 a2 a3 a4 a5 a6 a7 <;> simp_all [orientNames, eq_comm]
  have h3 : ∀ u f, parseUnits s f = (true, u) ↔ (s, u) ∈ unitsNames := by
    intro u f
    unfold parseUnits
    split_ifs with a1 a2 <;> simp_all [unitsNames, eq_comm]
  refine ⟨h1, h2, h3, ?_, ?_, ?_⟩
  · intro f h
    have : ∀ c, parseCoord s f ≠ (true, c) := fun c e => h c ((h1 c f).mp e)
    unfold parseCoord at this ⊢
    split_ifs at this ⊢ <;> simp_all
  · intro f h
    have : ∀ c, parseOrient s f ≠ (true, c) := fun c e => h c ((h2 c f).mp e)
    unfold parseOrient at this ⊢
    split_ifs at this ⊢ <;> simp_all
  · intro f h
    have : ∀ c, parseUnits s f ≠ (true, c) := fun c e => h c ((h3 c f).mp e)
    unfold parseUnits at this ⊢
    split_ifs at this ⊢ <;> simp_all

/-! ## The hypotheses can be met -/

/-- A misspelt name: the systems asked for are replaced by the fallback. -/
example : (∀ o, ("rpy", o) ∉ orientNames) ∧ parseOrient "rpy" .axisAngleScaled = (false, .axisAngleScaled) := by
  have h : ∀ o, ("rpy", o) ∉ orientNames := by intro o; simp [orientNames]
  exact ⟨h, (C29_names "rpy").2.2.2.2.1 _ h⟩

/-- A quarter turn about the vertical axis, one metre up: regular in every representation but the
polar one, and in `EULER_YZ` if the position is at the right azimuth. -/
example : ∃ m', decodePose .cartesian .rpy .degrees ⟨[0, 1, 1, 0, 0, 0], [], false⟩ = some (true, m') ∧
    DecodeRegular .cartesian .rpy [0, 1, 1, 0, 0, 0] ∧ (standard [0, 1, 1, 0, 0, 0]).M.Regular := by
  obtain ⟨m1, h1, -⟩ := decodePose_ok (c := .cartesian) (o := .rpy) .degrees
    ⟨[0, 1, 1, 0, 0, 0], [], false⟩ ⟨Or.inl rfl, by simp⟩ (by simp [Mem.input])
  have h0 : rotOf [0, 1, 1, 0, 0, 0] = 0 := rfl
  refine ⟨m1, h1, ⟨Or.inl h0, fun _ => ?_, by simp, by simp, by simp⟩, Or.inr (Or.inl ?_)⟩
  · rw [h0, Mat3.expRot_zero]
    left
    rw [Mat3.getRPY_pitch]
    have : atan2 0 1 = 0 := Complex.arg_one
    simp [this]
    have := two_le_pi
    norm_num [Mat3.singEps]; linarith
  · rw [standard_eq, h0, Mat3.expRot_zero]
    norm_num [Mat3.cosAngle]

example : (standard [0, 0, 1, 0, 0, π / 2]).M.Regular := by
  have hz := expRot_z (θ := π / 2) (by linarith [pi_pos])
  rw [standard_eq]
  show (Mat3.expRot ⟨0, 0, π / 2⟩).Regular
  rw [hz]
  left
  constructor <;> norm_num [Mat3.cosAngle, Mat3.rotZ, eps]

end KD
