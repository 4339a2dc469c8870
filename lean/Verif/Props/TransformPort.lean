import Verif.Props.Representation
import Verif.Props.Remote

/-!
# C49: the RPC port that converts poses
-/

namespace KD.Net

open KD.KinRepr Real

variable {σ : Type} {B : Backend σ} {s : σ}

/-! ## Lemmas -/

theorem remote_vec {P : Port} {c : VecCmd} {x z : List ℝ} (hx : x ≠ [])
    (h : P.incoming x = some (true, z)) : remote B P s (.vec c x) = some (B.call s (.vec c z)) := by
  obtain ⟨y, ys, rfl⟩ := List.exists_cons_of_ne_nil hx
  have hargs : args (.vocab c.vocab :: (y :: ys).map Val.float) = y :: ys := map_asFloat _
  generalize hc : B.call s (.vec c z) = a
  obtain ⟨a, s'⟩ := a
  refine remote_of rfl (out := verdict a) ?_ (congrArg some (checkSuccess_verdict a))
  rw [respond_vec, handleConsumer, if_pos (by simp), hargs]
  simp only [h, Option.bind_eq_bind, Option.bind_some, if_true, hc]

theorem remote_inv {P : Port} {x z : List ℝ} (hx : x ≠ [])
    (h : P.incoming x = some (true, z)) : remote B P s (.inv x) = some (B.call s (.inv z)) := by
  obtain ⟨y, ys, rfl⟩ := List.exists_cons_of_ne_nil hx
  have hargs : args (.vocab vInv :: (y :: ys).map Val.float) = y :: ys := map_asFloat _
  generalize hc : B.call s (.inv z) = a
  obtain ⟨a, s'⟩ := a
  cases a with
  | none =>
    refine remote_of rfl (out := verdict false) ?_ (by simp only [interpret, checkSuccess_verdict]; rfl)
    rw [respond_inv, handleFunction, if_pos (by simp), hargs]
    simp only [h, Option.bind_eq_bind, Option.bind_some, if_true]
    rw [hc]
  | some q =>
    have hs : checkSuccess (q.map Val.float) = true := by
      cases q <;> simp [checkSuccess, get, Val.isVocab]
    refine remote_of rfl (out := q.map .float) ?_ (by simp only [interpret, hs, if_true, map_asFloat])
    rw [respond_inv, handleFunction, if_pos (by simp), hargs]
    simp only [h, Option.bind_eq_bind, Option.bind_some, if_true]
    rw [hc]

theorem remote_stat {P : Port} {x y : List ℝ} {state : ℤ} {time : ℝ} {s' : σ}
    (hc : B.call s .stat = ((some (x, state, time) : Option (List ℝ × ℤ × ℝ)), s'))
    (hs : state ≠ vFailed) (h : P.outgoing x = some (true, y)) :
    remote B P s .stat = some ((some (y, state, time) : Option (List ℝ × ℤ × ℝ)), s') := by
  have hs : checkSuccess (.vocab state :: (y.map Val.float ++ [.float time])) = true := by
    simp [checkSuccess, get, Val.isVocab, Val.asVocab, hs]
  refine remote_of rfl (out := .vocab state :: (y.map Val.float ++ [.float time])) ?_ ?_
  · rw [respond_stat, handleStat, hc]
    simp [h]
  · simp only [interpret, hs, if_true]
    simp [get, Val.asVocab, Val.asFloat, Function.comp_def]

theorem input_same (x : List ℝ) : (Mem.mk [] x true).input = x := by simp [Mem.input]

/-! ## C49 -/

/-- C49, commands: the controller gets the same command with a vector that describes the rigid transform
the client described in its own representation.
Partial: a pose must be what the command takes, so `movv` and `forc` are not covered (see
`C49_velocity_taken_for_pose`); the singular bands of C26 are left out. -/
theorem C49_command_partial {c : Coord} {o : Orient} {u : Units} (cmd : VecCmd) {x : List ℝ} (hx : x ≠ [])
    (hs : Encodable c o) (hl : coordSize c + orientSize o ≤ x.length)
    (ha : o = .axisAngle → HasAxis c x) (hr : o ≠ .axisAngleScaled → (meaning c o u x).M.Regular) :
    ∃ z, z.length = 6 ∧ standard z = meaning c o u x ∧
      remote B (.transform c o u) s (.vec cmd x) = some (B.call s (.vec cmd z)) := by
  obtain ⟨m, h1, h2⟩ := encodePose_ok u hs ⟨[], x, true⟩ (by rw [input_same]; exact hl)
  have h3 := C26_encode_keeps_pose_partial h1 (by rw [input_same]; exact ha) (by rw [input_same]; exact hr)
  rw [input_same] at h3
  refine ⟨m.dst, by rw [h2]; rfl, h3, remote_vec hx ?_⟩
  simp [Port.transform, h1]

/-- C49, inverse kinematics: the same for `inv`; the joint positions come back unchanged. Partial as
above. -/
theorem C49_inv_partial {c : Coord} {o : Orient} {u : Units} {x : List ℝ} (hx : x ≠ [])
    (hs : Encodable c o) (hl : coordSize c + orientSize o ≤ x.length)
    (ha : o = .axisAngle → HasAxis c x) (hr : o ≠ .axisAngleScaled → (meaning c o u x).M.Regular) :
    ∃ z, z.length = 6 ∧ standard z = meaning c o u x ∧
      remote B (.transform c o u) s (.inv x) = some (B.call s (.inv z)) := by
  obtain ⟨m, h1, h2⟩ := encodePose_ok u hs ⟨[], x, true⟩ (by rw [input_same]; exact hl)
  have h3 := C26_encode_keeps_pose_partial h1 (by rw [input_same]; exact ha) (by rw [input_same]; exact hr)
  rw [input_same] at h3
  refine ⟨m.dst, by rw [h2]; rfl, h3, remote_inv hx ?_⟩
  simp [Port.transform, h1]

/-- C49: a vector that is too short for the representation is refused without asking the controller. -/
theorem C49_short_vector_refused {c : Coord} {o : Orient} {u : Units} (cmd : VecCmd) {x : List ℝ}
    (hl : x.length < coordSize c + orientSize o) :
    remote B (.transform c o u) s (.vec cmd x) = some (false, s) := by
  refine remote_of rfl (out := verdict false) ?_ (congrArg some (checkSuccess_verdict false))
  rw [respond_vec, handleConsumer]
  split
  · have hargs : args (.vocab cmd.vocab :: x.map Val.float) = x := map_asFloat _
    have h1 : (Port.transform c o u).incoming x = some (false, x) := by
      simp [Port.transform, encodePose_short c o u ⟨[], x, true⟩ hl]
    rw [hargs, h1]
    rfl
  · rfl

/-- C49, the state: the client gets the reported pose in its own representation, up to the part that the
representation leaves out. Partial: the singular bands of C26, and poses of one end effector only (see
`C49_second_pose_lost`). -/
theorem C49_stat_partial {c : Coord} {o : Orient} {u : Units} {x : List ℝ} {state : ℤ} {time : ℝ} {s' : σ}
    (hc : B.call s .stat = ((some (x, state, time) : Option (List ℝ × ℤ × ℝ)), s'))
    (hstate : state ≠ vFailed) (hs : Decodable c o x) (hl : 6 ≤ x.length) (hr : DecodeRegular c o x) :
    ∃ y, remote B (.transform c o u) s .stat = some ((some (y, state, time) : Option (List ℝ × ℤ × ℝ)), s') ∧
      meaning c o u y = ⟨if o = .none then 1 else (standard x).M, if c = .none then 0 else (standard x).p⟩ := by
  obtain ⟨m, h1, h2⟩ := decodePose_ok u ⟨[], x, true⟩ (by rw [input_same]; exact hs)
    (by rw [input_same]; exact hl)
  refine ⟨m.dst, remote_stat hc hstate (by simp [Port.transform, h1]), ?_⟩
  have h3 := C26_decode_keeps_pose_partial h1 (by rw [input_same]; exact hr)
  rw [input_same] at h3
  exact h3

/-- C49, both ways: the pose that the client reads, sent back with any command that takes a pose, reaches
the controller as the pose it reported. Partial as above. -/
theorem C49_round_trip_partial {o : Orient} {u : Units} {x : List ℝ} {state : ℤ} {time : ℝ} {s' s1 : σ}
    (hc : B.call s .stat = ((some (x, state, time) : Option (List ℝ × ℤ × ℝ)), s'))
    (hstate : state ≠ vFailed) (hs : Decodable .cartesian o x) (hl : 6 ≤ x.length) (ho : o ≠ .none)
    (hr : DecodeRegular .cartesian o x) (hreg : (standard x).M.Regular) (cmd : VecCmd) :
    ∃ y z, remote B (.transform .cartesian o u) s .stat =
        some ((some (y, state, time) : Option (List ℝ × ℤ × ℝ)), s') ∧
      standard z = standard x ∧
      remote B (.transform .cartesian o u) s1 (.vec cmd y) = some (B.call s1 (.vec cmd z)) := by
  obtain ⟨m, h1, h2⟩ := decodePose_ok u ⟨[], x, true⟩ (by rw [input_same]; exact hs)
    (by rw [input_same]; exact hl)
  obtain ⟨m2, h3, h4⟩ := C26_round_trip_partial h1 ho (by rw [input_same]; exact hr)
    (by rw [input_same]; exact hreg) (m1 := ⟨[], m.dst, true⟩) (input_same _)
  rw [input_same] at h4
  refine ⟨m.dst, m2.dst, remote_stat hc hstate (by simp [Port.transform, h1]), h4, remote_vec ?_ ?_⟩
  · rw [h2]; simp [decodedPos]
  · simp [Port.transform, h3]

/-- A controller that stands a quarter turn about the vertical from its base, one unit ahead. -/
noncomputable def standing : Backend (List (List ℝ)) where
  call l
    | .stat => (some ([1, 0, 0, 0, 0, π / 2], vOk, 0), l)
    | .inv x => (some x, l)
    | .vec _ x => (true, l ++ [x])
    | .run _ => (true, l)
    | .wait _ => (true, l)
    | .act _ => (true, l)
    | .set _ _ => (true, l)
    | .get _ => (none, l)
    | .setAll _ => (true, l)
    | .getAll => (none, l)
    | .stream _ _ => ((), l)

example : ∃ z, z.length = 6 ∧ standard z = meaning .cartesian .axisAngleScaled .degrees [1, 2, 3, 0, 0, 90] ∧
    remote standing (.transform .cartesian .axisAngleScaled .degrees) [] (.vec .movl [1, 2, 3, 0, 0, 90]) =
      some (true, [z]) := by
  obtain ⟨z, h1, h2, h3⟩ := C49_command_partial (B := standing) (s := []) (c := .cartesian)
    (o := .axisAngleScaled) (u := .degrees) .movl (x := [1, 2, 3, 0, 0, 90]) (by simp)
    ⟨Or.inl rfl, by simp⟩ (by simp [coordSize, orientSize]) (by simp) (by simp)
  exact ⟨z, h1, h2, h3⟩

theorem standing_regular (o : Orient) (ho : o = .axisAngle ∨ o = .axisAngleScaled) :
    DecodeRegular .cartesian o [1, 0, 0, 0, 0, π / 2] := by
  have hp := pi_pos
  have hp2 : 2 ≤ π := two_le_pi
  refine ⟨Or.inr ?_, ?_, ?_, ?_, ?_⟩
  · have hn : (rotOf [1, 0, 0, 0, 0, π / 2]).norm = π / 2 := by
      show (⟨0, 0, π / 2⟩ : Vec3).norm = _
      rw [Vec3.norm]
      simp only [Vec3.dot, mul_zero, zero_add, add_zero]
      rw [← sq, sqrt_sq (by linarith)]
    rw [hn, eps]; linarith
  all_goals rcases ho with rfl | rfl <;> simp

example : ∃ y, remote standing (.transform .cartesian .axisAngle .degrees) [] .stat =
      some ((some (y, vOk, 0) : Option (List ℝ × ℤ × ℝ)), []) ∧
    meaning .cartesian .axisAngle .degrees y = standard [1, 0, 0, 0, 0, π / 2] := by
  obtain ⟨y, h1, h2⟩ := C49_stat_partial (B := standing) (s := []) (c := .cartesian) (o := .axisAngle)
    (u := .degrees) (x := [1, 0, 0, 0, 0, π / 2]) (state := vOk) (time := 0) (s' := []) rfl (by decide)
    ⟨Or.inl rfl, by simp⟩ (by simp) (standing_regular _ (Or.inl rfl))
  exact ⟨y, h1, by simpa using h2⟩

/-- C49 fails for velocities: they are converted as if they were poses. With roll, pitch and yaw in
degrees, one turn per second about the vertical becomes no motion at all. -/
theorem C49_velocity_taken_for_pose :
    remote B (.transform .cartesian .rpy .degrees) s (.vec .movv [0, 0, 0, 0, 0, 360]) =
      some (B.call s (.vec .movv [0, 0, 0, 0, 0, 0])) := by
  obtain ⟨m, h1, h2⟩ := encodePose_ok (c := .cartesian) (o := .rpy) .degrees ⟨Or.inl rfl, by simp⟩
    ⟨[], [0, 0, 0, 0, 0, 360], true⟩ (by simp [Mem.input, coordSize, orientSize])
  refine remote_vec (by simp) ?_
  have ha : inRad .degrees 360 = 2 * π := by simp [inRad, degToRad]; ring
  have h0 : inRad .degrees 0 = 0 := by simp [inRad, degToRad]
  have hM : Mat3.rpy 0 0 (2 * π) = 1 := by
    simp [Mat3.rpy, Mat3.ext_iff, Mat3.rotX, Mat3.rotY, Mat3.rotZ]
  have : m.dst = [0, 0, 0, 0, 0, 0] := by
    rw [h2]
    simp [Mem.input, sixOf, posOf, encodedRot, offset, ha, h0, hM, getRot_one]
  simp [Port.transform, h1, this]

/-- C49 fails for more than one end effector: of the reported poses only the first is passed on. -/
theorem C49_second_pose_lost {c : Coord} {o : Orient} {u : Units} {x : List ℝ} {state : ℤ} {time : ℝ} {s' : σ}
    (hc : B.call s .stat = ((some (x, state, time) : Option (List ℝ × ℤ × ℝ)), s'))
    (hstate : state ≠ vFailed) (hs : Decodable c o x) (hl : 12 ≤ x.length) :
    ∃ y, remote B (.transform c o u) s .stat = some ((some (y, state, time) : Option (List ℝ × ℤ × ℝ)), s') ∧
      y.length ≤ 7 := by
  obtain ⟨m, h1, h2⟩ := decodePose_ok u ⟨[], x, true⟩ (by rw [input_same]; exact hs)
    (by rw [input_same]; omega)
  refine ⟨m.dst, remote_stat hc hstate (by simp [Port.transform, h1]), ?_⟩
  rw [h2, List.length_append]
  have e1 : (decodedPos c (Mem.mk [] x true).input).length ≤ 3 := by
    unfold decodedPos; split <;> simp
  have e2 : (decodedRot o u (rotOf (Mem.mk [] x true).input)).length ≤ 4 := by
    cases o <;> simp [decodedRot]
  omega

end KD.Net
