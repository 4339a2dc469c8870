import Verif.Repr.ReprLemmas
import Verif.Repr.ReprSpec

/-! # Meaning of what the conversions compute -/

namespace KD

namespace KinRepr

open Real

theorem inRad_eq (u : Units) (v : ℝ) : inRad u v = angle u v := by
  cases u <;> simp [inRad, angle, degToRad]; ring

theorem angle_outRad (u : Units) (v : ℝ) : angle u (outRad u v) = v := by
  cases u
  · simp only [angle, outRad, radToDeg, reduceCtorEq, if_false]; field_simp
  · simp [angle, outRad]

theorem outRad_angle (u : Units) (v : ℝ) : outRad u (angle u v) = v := by
  cases u
  · simp only [angle, outRad, radToDeg, reduceCtorEq, if_false]; field_simp
  · simp [angle, outRad]

theorem offset_eq (c : Coord) : offset c = firstOrient c := by cases c <;> rfl

theorem encodePose_true {c : Coord} {o : Orient} {u : Units} {m m' : Mem}
    (h : encodePose c o u m = some (true, m')) :
    Encodable c o ∧ coordSize c + orientSize o ≤ m.input.length ∧
      m'.dst = sixOf (posOf c m.input) (encodedRot c o u m.input) := by
  have hs : Encodable c o := by
    by_contra hn
    obtain ⟨m1, h1⟩ := encodePose_unsupported o u m hn
    rw [h1] at h; simp at h
  have hl : coordSize c + orientSize o ≤ m.input.length := by
    by_contra hn
    rw [encodePose_short c o u m (not_le.mp hn)] at h; simp at h
  obtain ⟨m1, h1, h2⟩ := encodePose_ok u hs m hl
  rw [h1] at h
  simp only [Option.some.injEq, Prod.mk.injEq, true_and] at h
  exact ⟨hs, hl, h ▸ h2⟩

theorem decodePose_true {c : Coord} {o : Orient} {u : Units} {m m' : Mem}
    (h : decodePose c o u m = some (true, m')) :
    Decodable c o m.input ∧ 6 ≤ m.input.length ∧
      m'.dst = decodedPos c m.input ++ decodedRot o u (rotOf m.input) := by
  have hs : Decodable c o m.input := by
    by_contra hn
    obtain ⟨m1, h1⟩ := decodePose_unsupported o u m hn
    rw [h1] at h; simp at h
  have hl : 6 ≤ m.input.length := by
    by_contra hn
    rw [decodePose_short c o u m (not_le.mp hn)] at h; simp at h
  obtain ⟨m1, h1, h2⟩ := decodePose_ok u m hs hl
  rw [h1] at h
  simp only [Option.some.injEq, Prod.mk.injEq, true_and] at h
  exact ⟨hs, hl, h ▸ h2⟩

theorem standard_six (p v : Vec3) : standard (sixOf p v) = ⟨Mat3.expRot v, p⟩ := by
  simp [standard, meaning, orientation, sixOf, firstOrient, angle]

theorem standard_eq (x : List ℝ) :
    standard x = ⟨Mat3.expRot (rotOf x), ⟨x.getD 0 0, x.getD 1 0, x.getD 2 0⟩⟩ := by
  simp [standard, meaning, orientation, rotOf, firstOrient, angle]

theorem rot_eq {v : Vec3} (h : eps ≤ v.norm) (θ : ℝ) : Mat3.rot v θ = Mat3.rot2 ((1 / v.norm) • v) θ := by
  rw [Mat3.rot, Vec3.normalize, if_neg (not_lt.mpr h)]

/-- The axis has a direction. -/
def HasAxis (c : Coord) (x : List ℝ) : Prop :=
  eps ≤ (Vec3.mk (x.getD (0 + firstOrient c) 0) (x.getD (1 + firstOrient c) 0)
    (x.getD (2 + firstOrient c) 0)).norm

theorem orientation_isRot {c : Coord} {o : Orient} {u : Units} {x : List ℝ}
    (ha : o = .axisAngle → HasAxis c x) : (orientation o u x (firstOrient c)).IsRot := by
  cases o
  · refine Mat3.rot2_isRot (Mat3.dir_unit fun h0 => ?_) _
    have := ha rfl
    rw [HasAxis, h0] at this
    norm_num [eps] at this
  · exact Mat3.expRot_isRot _
  · exact Mat3.rpy_isRot _ _ _
  · exact Mat3.eulerZYZ_isRot _ _ _
  · exact Mat3.eulerZYZ_isRot _ _ _
  · refine Mat3.rot2_isRot ?_ _
    simp [Vec3.dot, ← sq]
  · exact Mat3.IsRot.one

theorem expRot_encodedRot {c : Coord} {o : Orient} {u : Units} {x : List ℝ}
    (ha : o = .axisAngle → HasAxis c x)
    (hr : o ≠ .axisAngleScaled → (orientation o u x (firstOrient c)).Regular) :
    Mat3.expRot (encodedRot c o u x) = orientation o u x (firstOrient c) := by
  have hR := orientation_isRot (u := u) ha
  cases o
  · have := hR.expRot_getRot (hr (by simp))
    simp only [encodedRot, offset_eq, inRad_eq]
    rw [rot_eq (ha rfl)]
    exact this
  · simp only [encodedRot, offset_eq, inRad_eq]; rfl
  · have := hR.expRot_getRot (hr (by simp))
    simp only [encodedRot, offset_eq, inRad_eq]; exact this
  · have := hR.expRot_getRot (hr (by simp))
    simp only [encodedRot, offset_eq, inRad_eq]; exact this
  · have := hR.expRot_getRot (hr (by simp))
    simp only [encodedRot, offset_eq, inRad_eq]; exact this
  · have := hR.expRot_getRot (hr (by simp))
    simp only [encodedRot, offset_eq, inRad_eq]; exact this
  · simp [encodedRot, orientation, Mat3.expRot_zero]

theorem decoded_raw (c : Coord) (hc : c = .cartesian ∨ c = .none) (x l : List ℝ) (i : ℕ) :
    (decodedPos c x ++ l).getD (i + firstOrient c) 0 = l.getD i 0 := by
  rcases hc with rfl | rfl <;> simp [decodedPos, firstOrient]

/-- When the elements computed by `decodePose` describe the rotation exactly. -/
structure DecodeRegular (c : Coord) (o : Orient) (x : List ℝ) : Prop where
  size : rotOf x = 0 ∨ eps ≤ (rotOf x).norm
  rpy : o = .rpy → (Mat3.expRot (rotOf x)).RpyRegular
  euler : o = .eulerYZ ∨ o = .eulerZYZ → (Mat3.expRot (rotOf x)).EulerRegular
  yz : o = .eulerYZ → c = .cartesian ∧
    (Mat3.expRot (rotOf x)).getEulerZYZ.1 = atan2 (x.getD 1 0) (x.getD 0 0)
  polar : o = .polarAzimuth → x.getD 5 0 = 0

theorem normalize_dir {v : Vec3} (hv : v = 0 ∨ eps ≤ v.norm) :
    Mat3.rot2 ((1 / v.normalize.norm) • v.normalize) v.norm = Mat3.expRot v := by
  rw [← Mat3.rot_norm hv, Mat3.rot]
  have := Vec3.normalize_unit v
  have h1 : v.normalize.norm = 1 := by rw [Vec3.norm, ← sqrt_one]; congr 1
  rw [h1]; simp

theorem orientation_decodedRot {c : Coord} {o : Orient} {u : Units} {x : List ℝ}
    (hc : c = .cartesian ∨ c = .none) (hr : DecodeRegular c o x) (ho : o ≠ .none) :
    orientation o u (decodedPos c x ++ decodedRot o u (rotOf x)) (firstOrient c) =
      Mat3.expRot (rotOf x) := by
  have hR := Mat3.expRot_isRot (rotOf x)
  have hn := Mat3.rot_norm hr.size
  cases o
  · simp only [orientation, decoded_raw c hc, decodedRot]
    simp only [List.getD_cons_succ, List.getD_cons_zero, angle_outRad]
    exact normalize_dir hr.size
  · simp only [orientation, decoded_raw c hc, decodedRot]
    simp only [List.getD_cons_succ, List.getD_cons_zero, angle_outRad]
  · simp only [orientation, decoded_raw c hc, decodedRot, hn]
    simp only [List.getD_cons_succ, List.getD_cons_zero, angle_outRad]
    exact hR.rpy_getRPY (hr.rpy rfl)
  · obtain ⟨rfl, hy⟩ := hr.yz rfl
    simp only [orientation, decoded_raw .cartesian hc, decodedRot, hn]
    simp only [List.getD_cons_succ, List.getD_cons_zero, angle_outRad, decodedPos, if_true,
      List.cons_append, ← hy]
    exact hR.eulerZYZ_get (hr.euler (Or.inl rfl))
  · simp only [orientation, decoded_raw c hc, decodedRot, hn]
    simp only [List.getD_cons_succ, List.getD_cons_zero, angle_outRad]
    exact hR.eulerZYZ_get (hr.euler (Or.inr rfl))
  · simp only [orientation, decoded_raw c hc, decodedRot]
    simp only [List.getD_cons_succ, List.getD_cons_zero, angle_outRad]
    have hz : (rotOf x).z = 0 := hr.polar rfl
    have hsz := hr.size
    clear hr
    generalize rotOf x = v at *
    rcases hsz with rfl | hs
    · simp [Mat3.expRot_zero, Vec3.norm, Mat3.rot2_zero]
    · have h0 : v.norm ≠ 0 := by
        intro h0; rw [h0] at hs; norm_num [eps] at hs
      have h2 : v.y ^ 2 + (-v.x) ^ 2 = v.norm ^ 2 := by
        rw [Vec3.norm_sq]; simp [Vec3.dot, hz]; ring
      have hcos := atan2_cos_mul h2 (Vec3.norm_nonneg v)
      have hsin := atan2_sin_mul h2 (Vec3.norm_nonneg v)
      rw [Mat3.expRot]
      congr 1
      ext
      · simp; field_simp; linarith
      · simp; field_simp; linarith
      · simp [hz]
  · exact absurd rfl ho

end KinRepr

end KD
