import Verif.Repr.KinRepresentation

/-!
# What the conversions compute

Functional descriptions of the results, and proofs that the conversions reach them whether or not
source and destination are the same vector.
-/

namespace KD

namespace KinRepr

theorem bind_def {α β : Type} (a : Act α) (f : α → Act β) (m : Mem) :
    (a >>= f) m = match a m with
      | some (v, m') => f v m'
      | none => none := rfl

theorem pure_def {α : Type} (v : α) (m : Mem) : (pure v : Act α) m = some (v, m) := rfl

theorem rd_ok {i : ℕ} {m : Mem} (h : i < m.input.length) : rd i m = some (m.input.getD i 0, m) :=
  if_pos h

theorem wr_ok {i : ℕ} {v : ℝ} {m : Mem} (h : i < m.dst.length) :
    wr i v m = some ((), { m with dst := m.dst.set i v }) := if_pos h

/-- Destination after `grow`. -/
def growTo (n : ℕ) (l : List ℝ) : List ℝ := resizeList (max n l.length) l

theorem grow_def (n : ℕ) (m : Mem) : grow n m = some ((), { m with dst := growTo n m.dst }) := rfl

theorem resizeList_le {n : ℕ} {l : List ℝ} (h : n ≤ l.length) : resizeList n l = l.take n := by
  simp [resizeList, Nat.sub_eq_zero_of_le h]

theorem resizeList_zero (l : List ℝ) : resizeList 0 l = [] := by simp [resizeList]

theorem resizeList_cons (n : ℕ) (a : ℝ) (l : List ℝ) :
    resizeList (n + 1) (a :: l) = a :: resizeList n l := by simp [resizeList]

theorem resizeList_length (n : ℕ) (l : List ℝ) : (resizeList n l).length = n := by
  simp [resizeList]; omega

theorem grow_getD (n : ℕ) (l : List ℝ) (i : ℕ) :
    (resizeList (max n l.length) l).getD i 0 = l.getD i 0 := by
  have h : l.take (max n l.length) = l := List.take_of_length_le (le_max_right _ _)
  rw [resizeList, h]
  by_cases hi : i < l.length
  · simp [List.getElem?_append_left hi]
  · simp only [List.getD_eq_getElem?_getD, List.getElem?_append_right (not_lt.mp hi),
      List.getElem?_replicate]
    rw [List.getElem?_eq_none (not_lt.mp hi)]
    split_ifs <;> rfl

theorem cons_form {n : ℕ} {l : List ℝ} (h : n + 1 ≤ l.length) :
    ∃ a t, l = a :: t ∧ n ≤ t.length := by
  cases l with
  | nil => simp at h
  | cons a t => exact ⟨a, t, rfl, by simpa using h⟩

theorem cons_form2 {l : List ℝ} (h : 2 ≤ l.length) : ∃ a b t, l = a :: b :: t := by
  obtain ⟨a, l1, rfl, h1⟩ := cons_form h
  obtain ⟨b, l2, rfl, -⟩ := cons_form h1
  exact ⟨a, b, l2, rfl⟩

theorem cons_form3 {l : List ℝ} (h : 3 ≤ l.length) : ∃ a b c t, l = a :: b :: c :: t := by
  obtain ⟨a, l1, rfl, h1⟩ := cons_form h
  obtain ⟨b, c, t, rfl⟩ := cons_form2 h1
  exact ⟨a, b, c, t, rfl⟩

theorem cons_form4 {l : List ℝ} (h : 4 ≤ l.length) : ∃ a b c d t, l = a :: b :: c :: d :: t := by
  obtain ⟨a, l1, rfl, h1⟩ := cons_form h
  obtain ⟨b, c, d, t, rfl⟩ := cons_form3 h1
  exact ⟨a, b, c, d, t, rfl⟩

theorem cons_form5 {l : List ℝ} (h : 5 ≤ l.length) : ∃ a b c d e t, l = a :: b :: c :: d :: e :: t := by
  obtain ⟨a, l1, rfl, h1⟩ := cons_form h
  obtain ⟨b, c, d, e, t, rfl⟩ := cons_form4 h1
  exact ⟨a, b, c, d, e, t, rfl⟩

theorem cons_form6 {l : List ℝ} (h : 6 ≤ l.length) : ∃ a b c d e f t, l = a :: b :: c :: d :: e :: f :: t := by
  obtain ⟨a, l1, rfl, h1⟩ := cons_form h
  obtain ⟨b, c, d, e, f, t, rfl⟩ := cons_form5 h1
  exact ⟨a, b, c, d, e, f, t, rfl⟩

theorem cons_form7 {l : List ℝ} (h : 7 ≤ l.length) : ∃ a b c d e f g t, l = a :: b :: c :: d :: e :: f :: g :: t := by
  obtain ⟨a, l1, rfl, h1⟩ := cons_form h
  obtain ⟨b, c, d, e, f, g, t, rfl⟩ := cons_form6 h1
  exact ⟨a, b, c, d, e, f, g, t, rfl⟩

/-- Combinations that are implemented by `encodePose`. -/
def Encodable (c : Coord) (o : Orient) : Prop :=
  (c = .cartesian ∨ c = .none) ∧ ¬ (c = .none ∧ o = .eulerYZ)

/-- Combinations that are implemented by the velocity conversions. -/
def VelConvertible (c : Coord) (o : Orient) : Prop :=
  (c = .cartesian ∨ c = .none) ∧ (o = .axisAngle ∨ o = .axisAngleScaled ∨ o = .rpy ∨ o = .none)

/-- Position of a pose. -/
def posOf (c : Coord) (x : List ℝ) : Vec3 :=
  if c = .cartesian then ⟨x.getD 0 0, x.getD 1 0, x.getD 2 0⟩ else 0

/-- Rotation vector `encodePose` computes, from element `i` on. -/
noncomputable def encodedRot (c : Coord) (o : Orient) (u : Units) (x : List ℝ) : Vec3 :=
  let e := fun k => x.getD (k + offset c) 0
  match o with
  | .axisAngle => (Mat3.rot ⟨e 0, e 1, e 2⟩ (inRad u (e 3))).getRot
  | .axisAngleScaled => ⟨inRad u (e 0), inRad u (e 1), inRad u (e 2)⟩
  | .rpy => (Mat3.rpy (inRad u (e 0)) (inRad u (e 1)) (inRad u (e 2))).getRot
  | .eulerYZ => (Mat3.eulerZYZ (atan2 (x.getD 1 0) (x.getD 0 0)) (inRad u (e 0)) (inRad u (e 1))).getRot
  | .eulerZYZ => (Mat3.eulerZYZ (inRad u (e 0)) (inRad u (e 1)) (inRad u (e 2))).getRot
  | .polarAzimuth =>
    (Mat3.rot2 ⟨-Real.sin (inRad u (e 1)), Real.cos (inRad u (e 1)), 0⟩ (inRad u (e 0))).getRot
  | .none => 0

/-- Elements of a pose in Cartesian coordinates with a rotation vector. -/
def sixOf (p v : Vec3) : List ℝ := [p.x, p.y, p.z, v.x, v.y, v.z]

private theorem encodePose_ok_cartesian_false {o : Orient} (u : Units) (src dst : List ℝ)
    (hl : coordSize .cartesian + orientSize o ≤ (Mem.mk src dst false).input.length) :
    ∃ m', encodePose .cartesian o u ⟨src, dst, false⟩ = some (true, m') ∧ m'.dst =
      sixOf (posOf .cartesian (Mem.mk src dst false).input) (encodedRot .cartesian o u (Mem.mk src dst false).input) := by
  have h6 : 6 ≤ (growTo 6 dst).length := by rw [growTo, resizeList_length]; omega
  obtain ⟨l0, l1, l2, l3, l4, l5, t, hL⟩ := cons_form6 h6
  simp only [Mem.input, Bool.false_eq_true, if_false] at hl ⊢
  cases o <;> simp [coordSize, orientSize] at hl <;>
    simp (disch := (first | (simp [Mem.input]; done) | (simp [Mem.input]; omega))) [encodePose,
      bind_def, pure_def, checkVectorSize, grow_def, encodeOrient, rd_ok, wr_ok, wrRot, resize, encodeCoord,
      copyPos, hL, resizeList_le, offset, coordSize, orientSize, sixOf, posOf, encodedRot, Mem.input, hl]

private theorem encodePose_ok_cartesian_true {o : Orient} (u : Units) (src dst : List ℝ)
    (hl : coordSize .cartesian + orientSize o ≤ (Mem.mk src dst true).input.length) :
    ∃ m', encodePose .cartesian o u ⟨src, dst, true⟩ = some (true, m') ∧ m'.dst =
      sixOf (posOf .cartesian (Mem.mk src dst true).input) (encodedRot .cartesian o u (Mem.mk src dst true).input) := by
  have h6 : 6 ≤ (growTo 6 dst).length := by rw [growTo, resizeList_length]; omega
  obtain ⟨l0, l1, l2, l3, l4, l5, t, hL⟩ := cons_form6 h6
  simp only [Mem.input, if_true] at hl ⊢
  have hx : ∀ i, dst.getD i 0 = (l0 :: l1 :: l2 :: l3 :: l4 :: l5 :: t).getD i 0 := by
    intro i; rw [← hL, growTo, grow_getD]
  have hT : 7 ≤ dst.length → 0 < t.length := by
    intro h
    have := congrArg List.length hL
    rw [growTo, resizeList_length] at this
    simp only [List.length_cons] at this
    omega
  cases o <;> simp [coordSize, orientSize] at hl <;>
    simp only [sixOf, posOf, encodedRot, hx] <;>
    simp [encodePose, bind_def, pure_def, checkVectorSize, grow_def, encodeOrient, rd, wr, wrRot, resize,
      encodeCoord, copyPos, hL, resizeList_zero, resizeList_cons, offset, coordSize, orientSize, Mem.input, hl, hT]

private theorem encodePose_ok_none_false {o : Orient} (u : Units) (src dst : List ℝ) (hy : o ≠ .eulerYZ)
    (hl : coordSize .none + orientSize o ≤ (Mem.mk src dst false).input.length) :
    ∃ m', encodePose .none o u ⟨src, dst, false⟩ = some (true, m') ∧ m'.dst =
      sixOf (posOf .none (Mem.mk src dst false).input) (encodedRot .none o u (Mem.mk src dst false).input) := by
  have h6 : 6 ≤ (growTo 6 dst).length := by rw [growTo, resizeList_length]; omega
  obtain ⟨l0, l1, l2, l3, l4, l5, t, hL⟩ := cons_form6 h6
  simp only [Mem.input, Bool.false_eq_true, if_false] at hl ⊢
  cases o <;> simp [coordSize, orientSize] at hl hy <;>
    simp (disch := (first | (simp [Mem.input]; done) | (simp [Mem.input]; omega))) [encodePose,
      bind_def, pure_def, checkVectorSize, grow_def, encodeOrient, rd_ok, wr_ok, wrRot, resize, encodeCoord,
      copyPos, hL, resizeList_le, offset, coordSize, orientSize, sixOf, posOf, encodedRot, Mem.input, hl]

private theorem encodePose_ok_none_true {o : Orient} (u : Units) (src dst : List ℝ) (hy : o ≠ .eulerYZ)
    (hl : coordSize .none + orientSize o ≤ (Mem.mk src dst true).input.length) :
    ∃ m', encodePose .none o u ⟨src, dst, true⟩ = some (true, m') ∧ m'.dst =
      sixOf (posOf .none (Mem.mk src dst true).input) (encodedRot .none o u (Mem.mk src dst true).input) := by
  have h6 : 6 ≤ (growTo 6 dst).length := by rw [growTo, resizeList_length]; omega
  obtain ⟨l0, l1, l2, l3, l4, l5, t, hL⟩ := cons_form6 h6
  simp only [Mem.input, if_true] at hl ⊢
  have hx : ∀ i, dst.getD i 0 = (l0 :: l1 :: l2 :: l3 :: l4 :: l5 :: t).getD i 0 := by
    intro i; rw [← hL, growTo, grow_getD]
  cases o <;> simp [coordSize, orientSize] at hl hy <;>
    simp only [sixOf, posOf, encodedRot, hx] <;>
    simp [encodePose, bind_def, pure_def, checkVectorSize, grow_def, encodeOrient, rd, wr, wrRot, resize,
      encodeCoord, copyPos, hL, resizeList_zero, resizeList_cons, offset, coordSize, orientSize, Mem.input, hl]

theorem encodePose_ok {c : Coord} {o : Orient} (u : Units) (hs : Encodable c o) (m : Mem)
    (hl : coordSize c + orientSize o ≤ m.input.length) :
    ∃ m', encodePose c o u m = some (true, m') ∧
      m'.dst = sixOf (posOf c m.input) (encodedRot c o u m.input) := by
  obtain ⟨src, dst, same⟩ := m
  obtain ⟨hc, hy⟩ := hs
  rcases hc with rfl | rfl <;> cases same
  · exact encodePose_ok_cartesian_false u src dst hl
  · exact encodePose_ok_cartesian_true u src dst hl
  · exact encodePose_ok_none_false u src dst (fun h => hy ⟨rfl, h⟩) hl
  · exact encodePose_ok_none_true u src dst (fun h => hy ⟨rfl, h⟩) hl

/-- Elements `decodePose` computes for the rotational part. -/
noncomputable def decodedRot (o : Orient) (u : Units) (v : Vec3) : List ℝ :=
  match o with
  | .axisAngle => [v.normalize.x, v.normalize.y, v.normalize.z, outRad u v.norm]
  | .axisAngleScaled => [outRad u v.x, outRad u v.y, outRad u v.z]
  | .rpy =>
    let a := (Mat3.rot v v.norm).getRPY
    [outRad u a.1, outRad u a.2.1, outRad u a.2.2]
  | .eulerYZ =>
    let a := (Mat3.rot v v.norm).getEulerZYZ
    [outRad u a.2.1, outRad u a.2.2]
  | .eulerZYZ =>
    let a := (Mat3.rot v v.norm).getEulerZYZ
    [outRad u a.1, outRad u a.2.1, outRad u a.2.2]
  | .polarAzimuth => [outRad u v.norm, outRad u (atan2 (-v.x) v.y)]
  | .none => []

/-- Rotation vector of a pose in Cartesian coordinates. -/
def rotOf (x : List ℝ) : Vec3 := ⟨x.getD 3 0, x.getD 4 0, x.getD 5 0⟩

/-- Elements of the translational part of a decoded pose. -/
def decodedPos (c : Coord) (x : List ℝ) : List ℝ :=
  if c = .cartesian then [x.getD 0 0, x.getD 1 0, x.getD 2 0] else []

/-- Combinations that are implemented by `decodePose`; the polar and azimuthal angles only exist for
rotations without a vertical component. -/
def Decodable (c : Coord) (o : Orient) (x : List ℝ) : Prop :=
  (c = .cartesian ∨ c = .none) ∧ (o = .polarAzimuth → |x.getD 5 0| ≤ eps)

theorem grow_form {n : ℕ} (l : List ℝ) : n ≤ (growTo n l).length := by
  rw [growTo, resizeList_length]; omega

theorem grow_form' {n k : ℕ} {l : List ℝ} (h : k ≤ l.length) :
    k ≤ (growTo n l).length := by
  rw [growTo, resizeList_length]; omega

private theorem decodePose_ok_cartesian_false {o : Orient} (u : Units) (src dst : List ℝ)
    (hl : 6 ≤ (Mem.mk src dst false).input.length)
    (hz : o = .polarAzimuth → ¬ eps < |(Mem.mk src dst false).input.getD 5 0|) :
    ∃ m', decodePose .cartesian o u ⟨src, dst, false⟩ = some (true, m') ∧ m'.dst =
      decodedPos .cartesian (Mem.mk src dst false).input ++
        decodedRot o u (rotOf (Mem.mk src dst false).input) := by
  simp only [Mem.input, Bool.false_eq_true, if_false] at hl hz ⊢
  obtain ⟨x0, x1, x2, x3, x4, x5, t, rfl⟩ := cons_form6 hl
  obtain ⟨d0, d1, d2, d3, d4, d5, D5⟩ := cons_form5 (grow_form (n := 5) dst)
  obtain ⟨e0, e1, e2, e3, e4, e5, e6, E6⟩ := cons_form6 (grow_form (n := 6) dst)
  obtain ⟨g0, g1, g2, g3, g4, g5, g6, g7, G7⟩ := cons_form7 (grow_form (n := 7) dst)
  obtain ⟨h0, h1, h2, h3, H3⟩ := cons_form3 (l := resizeList 3 dst) (by rw [resizeList_length])
  have H3' : h3 = [] := by
    have := congrArg List.length H3
    rw [resizeList_length] at this
    simpa using this
  subst H3'
  cases o <;> (try replace hz := hz rfl) <;> (try simp only [List.getD_cons_succ, List.getD_cons_zero] at hz) <;>
    simp [decodePose, bind_def, pure_def, checkVectorSize, grow_def, decodeOrient, rd, wr, resize, decodeCoord,
      copyPos, D5, E6, G7, H3, resizeList_zero, resizeList_cons, offset, coordSize, orientSize, Mem.input, decodedPos, decodedRot,
      rotOf, hz]

private theorem decodePose_ok_cartesian_true {o : Orient} (u : Units) (src dst : List ℝ)
    (hl : 6 ≤ (Mem.mk src dst true).input.length)
    (hz : o = .polarAzimuth → ¬ eps < |(Mem.mk src dst true).input.getD 5 0|) :
    ∃ m', decodePose .cartesian o u ⟨src, dst, true⟩ = some (true, m') ∧ m'.dst =
      decodedPos .cartesian (Mem.mk src dst true).input ++
        decodedRot o u (rotOf (Mem.mk src dst true).input) := by
  simp only [Mem.input, if_true] at hl hz ⊢
  obtain ⟨x0, x1, x2, x3, x4, x5, t, rfl⟩ := cons_form6 hl
  have F : ∀ n ≤ 6, growTo n
      (x0 :: x1 :: x2 :: x3 :: x4 :: x5 :: t) = x0 :: x1 :: x2 :: x3 :: x4 :: x5 :: t := by
    intro n hn
    have hm : max n (x0 :: x1 :: x2 :: x3 :: x4 :: x5 :: t).length =
      (x0 :: x1 :: x2 :: x3 :: x4 :: x5 :: t).length := max_eq_right (by simp; omega)
    rw [growTo, hm, resizeList_le (le_refl _), List.take_length]
  obtain ⟨g0, g1, g2, g3, g4, g5, g6, g7, G7⟩ :=
    cons_form7 (grow_form (n := 7) (x0 :: x1 :: x2 :: x3 :: x4 :: x5 :: t))
  have hx : ∀ i, (x0 :: x1 :: x2 :: x3 :: x4 :: x5 :: t).getD i 0 =
      (g0 :: g1 :: g2 :: g3 :: g4 :: g5 :: g6 :: g7).getD i 0 := by
    intro i; rw [← G7, growTo, grow_getD]
  have k0 : x0 = g0 := by simpa using hx 0
  have k1 : x1 = g1 := by simpa using hx 1
  have k2 : x2 = g2 := by simpa using hx 2
  have k3 : x3 = g3 := by simpa using hx 3
  have k4 : x4 = g4 := by simpa using hx 4
  have k5 : x5 = g5 := by simpa using hx 5
  clear hx
  subst k0 k1 k2 k3 k4 k5
  have F5 := F 5 (by norm_num)
  have F6 := F 6 (by norm_num)
  clear F
  cases o <;> (try replace hz := hz rfl) <;> (try simp only [List.getD_cons_succ, List.getD_cons_zero] at hz) <;>
    simp [decodePose, bind_def, pure_def, checkVectorSize, grow_def, decodeOrient, rd, wr, resize, decodeCoord,
      copyPos, F5, F6, G7, resizeList_zero, resizeList_cons, offset, coordSize, orientSize, Mem.input, decodedPos, decodedRot,
      rotOf, hz]

private theorem decodePose_ok_none_false {o : Orient} (u : Units) (src dst : List ℝ)
    (hl : 6 ≤ (Mem.mk src dst false).input.length)
    (hz : o = .polarAzimuth → ¬ eps < |(Mem.mk src dst false).input.getD 5 0|) :
    ∃ m', decodePose .none o u ⟨src, dst, false⟩ = some (true, m') ∧ m'.dst =
      decodedPos .none (Mem.mk src dst false).input ++
        decodedRot o u (rotOf (Mem.mk src dst false).input) := by
  simp only [Mem.input, Bool.false_eq_true, if_false] at hl hz ⊢
  obtain ⟨x0, x1, x2, x3, x4, x5, t, rfl⟩ := cons_form6 hl
  obtain ⟨a0, a1, a2, A2⟩ := cons_form2 (grow_form (n := 2) dst)
  obtain ⟨b0, b1, b2, b3, B3⟩ := cons_form3 (grow_form (n := 3) dst)
  obtain ⟨c0, c1, c2, c3, c4, C4⟩ := cons_form4 (grow_form (n := 4) dst)
  cases o <;> (try replace hz := hz rfl) <;> (try simp only [List.getD_cons_succ, List.getD_cons_zero] at hz) <;>
    simp [decodePose, bind_def, pure_def, checkVectorSize, grow_def, decodeOrient, rd, wr, resize, decodeCoord,
      copyPos, A2, B3, C4, resizeList_zero, resizeList_cons, offset, coordSize, orientSize, Mem.input, decodedPos, decodedRot,
      rotOf, hz]

private theorem decodePose_ok_none_true {o : Orient} (u : Units) (src dst : List ℝ)
    (hl : 6 ≤ (Mem.mk src dst true).input.length)
    (hz : o = .polarAzimuth → ¬ eps < |(Mem.mk src dst true).input.getD 5 0|) :
    ∃ m', decodePose .none o u ⟨src, dst, true⟩ = some (true, m') ∧ m'.dst =
      decodedPos .none (Mem.mk src dst true).input ++
        decodedRot o u (rotOf (Mem.mk src dst true).input) := by
  simp only [Mem.input, if_true] at hl hz ⊢
  obtain ⟨x0, x1, x2, x3, x4, x5, t, rfl⟩ := cons_form6 hl
  have F : ∀ n ≤ 6, growTo n
      (x0 :: x1 :: x2 :: x3 :: x4 :: x5 :: t) = x0 :: x1 :: x2 :: x3 :: x4 :: x5 :: t := by
    intro n hn
    have hm : max n (x0 :: x1 :: x2 :: x3 :: x4 :: x5 :: t).length =
      (x0 :: x1 :: x2 :: x3 :: x4 :: x5 :: t).length := max_eq_right (by simp; omega)
    rw [growTo, hm, resizeList_le (le_refl _), List.take_length]
  have F2 := F 2 (by norm_num)
  have F3 := F 3 (by norm_num)
  have F4 := F 4 (by norm_num)
  clear F
  cases o <;> (try replace hz := hz rfl) <;> (try simp only [List.getD_cons_succ, List.getD_cons_zero] at hz) <;>
    simp [decodePose, bind_def, pure_def, checkVectorSize, grow_def, decodeOrient, rd, wr, resize, decodeCoord,
      copyPos, F2, F3, F4, resizeList_zero, resizeList_cons, offset, coordSize, orientSize, Mem.input, decodedPos, decodedRot,
      rotOf, hz]

theorem decodePose_ok {c : Coord} {o : Orient} (u : Units) (m : Mem) (hs : Decodable c o m.input)
    (hl : 6 ≤ m.input.length) :
    ∃ m', decodePose c o u m = some (true, m') ∧
      m'.dst = decodedPos c m.input ++ decodedRot o u (rotOf m.input) := by
  obtain ⟨src, dst, same⟩ := m
  obtain ⟨hc, hy⟩ := hs
  rcases hc with rfl | rfl <;> cases same
  · exact decodePose_ok_cartesian_false u src dst hl fun h => not_lt.mpr (hy h)
  · exact decodePose_ok_cartesian_true u src dst hl fun h => not_lt.mpr (hy h)
  · exact decodePose_ok_none_false u src dst hl fun h => not_lt.mpr (hy h)
  · exact decodePose_ok_none_true u src dst hl fun h => not_lt.mpr (hy h)

/-! ## Velocities -/

/-- Rotational part `encodeVelocity` computes. -/
noncomputable def encodedVelRot (pose : List ℝ) (c : Coord) (o : Orient) (u : Units) (x : List ℝ) : Vec3 :=
  let e := fun k => x.getD (k + offset c) 0
  match o with
  | .axisAngle => (Mat3.rot ⟨e 0, e 1, e 2⟩ (inRad u (e 3))).getRot
  | .axisAngleScaled => ⟨inRad u (e 0), inRad u (e 1), inRad u (e 2)⟩
  | .rpy => (rpyRates (inRad u (pose.getD (1 + offset c) 0)) (inRad u (pose.getD (2 + offset c) 0))).mulVec
      ⟨inRad u (e 0), inRad u (e 1), inRad u (e 2)⟩
  | _ => 0

/-- Elements `decodeVelocity` computes for the rotational part. -/
noncomputable def decodedVelRot (pose : List ℝ) (o : Orient) (u : Units) (v : Vec3) : List ℝ :=
  match o with
  | .axisAngle => [v.normalize.x, v.normalize.y, v.normalize.z, outRad u v.norm]
  | .axisAngleScaled => [outRad u v.x, outRad u v.y, outRad u v.z]
  | .rpy =>
    let w := (rpyRates (pose.getD 4 0) (pose.getD 5 0)).transpose.mulVec v
    [outRad u w.x, outRad u w.y, outRad u w.z]
  | _ => []

private theorem encodeVelocity_ok_cartesian_false {o : Orient} (u : Units) (src dst pose : List ℝ)
    (hv : o = .axisAngle ∨ o = .axisAngleScaled ∨ o = .rpy ∨ o = .none)
    (hp : o = .rpy → 3 + offset .cartesian ≤ pose.length)
    (hl : coordSize .cartesian + orientSize o ≤ (Mem.mk src dst false).input.length) :
    ∃ m', encodeVelocity pose .cartesian o u ⟨src, dst, false⟩ = some (true, m') ∧ m'.dst =
      sixOf (posOf .cartesian (Mem.mk src dst false).input)
        (encodedVelRot pose .cartesian o u (Mem.mk src dst false).input) := by
  have h6 : 6 ≤ (growTo 6 dst).length := by rw [growTo, resizeList_length]; omega
  obtain ⟨l0, l1, l2, l3, l4, l5, t, hL⟩ := cons_form6 h6
  have hp2 : o = .rpy → 1 + offset .cartesian < pose.length ∧ 2 + offset .cartesian < pose.length := by
    intro h; have := hp h; omega
  simp only [Mem.input, Bool.false_eq_true, if_false] at hl ⊢
  rcases hv with rfl | rfl | rfl | rfl <;> simp [coordSize, orientSize, offset] at hl hp2 <;>
    simp (disch := (first | (simp [Mem.input]; done) | (simp [Mem.input]; omega))) [encodeVelocity,
      bind_def, pure_def, checkVectorSize, grow_def, encodeVelOrient, rd_ok, wr_ok, wrRot, resize, encodeCoord,
      copyPos, hL, resizeList_le, offset, coordSize, orientSize, sixOf, posOf, encodedVelRot, Mem.input, hl,
      rdPose, hp2]

private theorem encodeVelocity_ok_cartesian_true {o : Orient} (u : Units) (src dst pose : List ℝ)
    (hv : o = .axisAngle ∨ o = .axisAngleScaled ∨ o = .rpy ∨ o = .none)
    (hp : o = .rpy → 3 + offset .cartesian ≤ pose.length)
    (hl : coordSize .cartesian + orientSize o ≤ (Mem.mk src dst true).input.length) :
    ∃ m', encodeVelocity pose .cartesian o u ⟨src, dst, true⟩ = some (true, m') ∧ m'.dst =
      sixOf (posOf .cartesian (Mem.mk src dst true).input)
        (encodedVelRot pose .cartesian o u (Mem.mk src dst true).input) := by
  have h6 : 6 ≤ (growTo 6 dst).length := by rw [growTo, resizeList_length]; omega
  obtain ⟨l0, l1, l2, l3, l4, l5, t, hL⟩ := cons_form6 h6
  have hp2 : o = .rpy → 1 + offset .cartesian < pose.length ∧ 2 + offset .cartesian < pose.length := by
    intro h; have := hp h; omega
  simp only [Mem.input, if_true] at hl ⊢
  have hx : ∀ i, dst.getD i 0 = (l0 :: l1 :: l2 :: l3 :: l4 :: l5 :: t).getD i 0 := by
    intro i; rw [← hL, growTo, grow_getD]
  have hT : 7 ≤ dst.length → 0 < t.length := by
    intro h
    have := congrArg List.length hL
    rw [growTo, resizeList_length] at this
    simp only [List.length_cons] at this
    omega
  rcases hv with rfl | rfl | rfl | rfl <;> simp [coordSize, orientSize, offset] at hl hp2 <;>
    simp only [sixOf, posOf, encodedVelRot, hx] <;>
    simp [encodeVelocity, bind_def, pure_def, checkVectorSize, grow_def, encodeVelOrient, rd, wr, wrRot, resize,
      encodeCoord, copyPos, hL, resizeList_zero, resizeList_cons, offset, coordSize, orientSize, Mem.input, hl,
      hT, rdPose, hp2]

private theorem encodeVelocity_ok_none_false {o : Orient} (u : Units) (src dst pose : List ℝ)
    (hv : o = .axisAngle ∨ o = .axisAngleScaled ∨ o = .rpy ∨ o = .none)
    (hp : o = .rpy → 3 + offset .none ≤ pose.length)
    (hl : coordSize .none + orientSize o ≤ (Mem.mk src dst false).input.length) :
    ∃ m', encodeVelocity pose .none o u ⟨src, dst, false⟩ = some (true, m') ∧ m'.dst =
      sixOf (posOf .none (Mem.mk src dst false).input)
        (encodedVelRot pose .none o u (Mem.mk src dst false).input) := by
  have h6 : 6 ≤ (growTo 6 dst).length := by rw [growTo, resizeList_length]; omega
  obtain ⟨l0, l1, l2, l3, l4, l5, t, hL⟩ := cons_form6 h6
  have hp2 : o = .rpy → 1 + offset .none < pose.length ∧ 2 + offset .none < pose.length := by
    intro h; have := hp h; omega
  simp only [Mem.input, Bool.false_eq_true, if_false] at hl ⊢
  rcases hv with rfl | rfl | rfl | rfl <;> simp [coordSize, orientSize, offset] at hl hp2 <;>
    simp (disch := (first | (simp [Mem.input]; done) | (simp [Mem.input]; omega))) [encodeVelocity,
      bind_def, pure_def, checkVectorSize, grow_def, encodeVelOrient, rd_ok, wr_ok, wrRot, resize, encodeCoord,
      copyPos, hL, resizeList_le, offset, coordSize, orientSize, sixOf, posOf, encodedVelRot, Mem.input, hl,
      rdPose, hp2]

private theorem encodeVelocity_ok_none_true {o : Orient} (u : Units) (src dst pose : List ℝ)
    (hv : o = .axisAngle ∨ o = .axisAngleScaled ∨ o = .rpy ∨ o = .none)
    (hp : o = .rpy → 3 + offset .none ≤ pose.length)
    (hl : coordSize .none + orientSize o ≤ (Mem.mk src dst true).input.length) :
    ∃ m', encodeVelocity pose .none o u ⟨src, dst, true⟩ = some (true, m') ∧ m'.dst =
      sixOf (posOf .none (Mem.mk src dst true).input)
        (encodedVelRot pose .none o u (Mem.mk src dst true).input) := by
  have h6 : 6 ≤ (growTo 6 dst).length := by rw [growTo, resizeList_length]; omega
  obtain ⟨l0, l1, l2, l3, l4, l5, t, hL⟩ := cons_form6 h6
  have hp2 : o = .rpy → 1 + offset .none < pose.length ∧ 2 + offset .none < pose.length := by
    intro h; have := hp h; omega
  simp only [Mem.input, if_true] at hl ⊢
  have hx : ∀ i, dst.getD i 0 = (l0 :: l1 :: l2 :: l3 :: l4 :: l5 :: t).getD i 0 := by
    intro i; rw [← hL, growTo, grow_getD]
  have hT : 7 ≤ dst.length → 0 < t.length := by
    intro h
    have := congrArg List.length hL
    rw [growTo, resizeList_length] at this
    simp only [List.length_cons] at this
    omega
  rcases hv with rfl | rfl | rfl | rfl <;> simp [coordSize, orientSize, offset] at hl hp2 <;>
    simp only [sixOf, posOf, encodedVelRot, hx] <;>
    simp [encodeVelocity, bind_def, pure_def, checkVectorSize, grow_def, encodeVelOrient, rd, wr, wrRot, resize,
      encodeCoord, copyPos, hL, resizeList_zero, resizeList_cons, offset, coordSize, orientSize, Mem.input, hl,
      hT, rdPose, hp2]

theorem encodeVelocity_ok {c : Coord} {o : Orient} (u : Units) (pose : List ℝ) (hs : VelConvertible c o)
    (hp : o = .rpy → 3 + offset c ≤ pose.length) (m : Mem)
    (hl : coordSize c + orientSize o ≤ m.input.length) :
    ∃ m', encodeVelocity pose c o u m = some (true, m') ∧
      m'.dst = sixOf (posOf c m.input) (encodedVelRot pose c o u m.input) := by
  obtain ⟨src, dst, same⟩ := m
  obtain ⟨hc, hy⟩ := hs
  rcases hc with rfl | rfl <;> cases same
  · exact encodeVelocity_ok_cartesian_false u src dst pose hy hp hl
  · exact encodeVelocity_ok_cartesian_true u src dst pose hy hp hl
  · exact encodeVelocity_ok_none_false u src dst pose hy hp hl
  · exact encodeVelocity_ok_none_true u src dst pose hy hp hl

private theorem decodeVelocity_ok_cartesian_false {o : Orient} (u : Units) (src dst pose : List ℝ)
    (hl : 6 ≤ (Mem.mk src dst false).input.length)
    (hv : o = .axisAngle ∨ o = .axisAngleScaled ∨ o = .rpy ∨ o = .none) (hp : o = .rpy → 6 ≤ pose.length) :
    ∃ m', decodeVelocity pose .cartesian o u ⟨src, dst, false⟩ = some (true, m') ∧ m'.dst =
      decodedPos .cartesian (Mem.mk src dst false).input ++
        decodedVelRot pose o u (rotOf (Mem.mk src dst false).input) := by
  simp only [Mem.input, Bool.false_eq_true, if_false] at hl ⊢
  obtain ⟨x0, x1, x2, x3, x4, x5, t, rfl⟩ := cons_form6 hl
  obtain ⟨d0, d1, d2, d3, d4, d5, D5⟩ := cons_form5 (grow_form (n := 5) dst)
  obtain ⟨e0, e1, e2, e3, e4, e5, e6, E6⟩ := cons_form6 (grow_form (n := 6) dst)
  obtain ⟨g0, g1, g2, g3, g4, g5, g6, g7, G7⟩ := cons_form7 (grow_form (n := 7) dst)
  obtain ⟨h0, h1, h2, h3, H3⟩ := cons_form3 (l := resizeList 3 dst) (by rw [resizeList_length])
  have H3' : h3 = [] := by
    have := congrArg List.length H3
    rw [resizeList_length] at this
    simpa using this
  subst H3'
  have hp2 : o = .rpy → 4 < pose.length ∧ 5 < pose.length := by
    intro h; have := hp h; omega
  rcases hv with rfl | rfl | rfl | rfl <;> simp at hp2 <;>
    simp [decodeVelocity, bind_def, pure_def, checkVectorSize, grow_def, decodeVelOrient, rd, wr, resize, decodeCoord,
      copyPos, D5, E6, G7, H3, resizeList_zero, resizeList_cons, offset, coordSize, orientSize, Mem.input, decodedPos, decodedVelRot,
      rotOf, rdPose, hp2]

private theorem decodeVelocity_ok_cartesian_true {o : Orient} (u : Units) (src dst pose : List ℝ)
    (hl : 6 ≤ (Mem.mk src dst true).input.length)
    (hv : o = .axisAngle ∨ o = .axisAngleScaled ∨ o = .rpy ∨ o = .none) (hp : o = .rpy → 6 ≤ pose.length) :
    ∃ m', decodeVelocity pose .cartesian o u ⟨src, dst, true⟩ = some (true, m') ∧ m'.dst =
      decodedPos .cartesian (Mem.mk src dst true).input ++
        decodedVelRot pose o u (rotOf (Mem.mk src dst true).input) := by
  simp only [Mem.input, if_true] at hl ⊢
  obtain ⟨x0, x1, x2, x3, x4, x5, t, rfl⟩ := cons_form6 hl
  have F : ∀ n ≤ 6, growTo n
      (x0 :: x1 :: x2 :: x3 :: x4 :: x5 :: t) = x0 :: x1 :: x2 :: x3 :: x4 :: x5 :: t := by
    intro n hn
    have hm : max n (x0 :: x1 :: x2 :: x3 :: x4 :: x5 :: t).length =
      (x0 :: x1 :: x2 :: x3 :: x4 :: x5 :: t).length := max_eq_right (by simp; omega)
    rw [growTo, hm, resizeList_le (le_refl _), List.take_length]
  obtain ⟨g0, g1, g2, g3, g4, g5, g6, g7, G7⟩ :=
    cons_form7 (grow_form (n := 7) (x0 :: x1 :: x2 :: x3 :: x4 :: x5 :: t))
  have hx : ∀ i, (x0 :: x1 :: x2 :: x3 :: x4 :: x5 :: t).getD i 0 =
      (g0 :: g1 :: g2 :: g3 :: g4 :: g5 :: g6 :: g7).getD i 0 := by
    intro i; rw [← G7, growTo, grow_getD]
  have k0 : x0 = g0 := by simpa using hx 0
  have k1 : x1 = g1 := by simpa using hx 1
  have k2 : x2 = g2 := by simpa using hx 2
  have k3 : x3 = g3 := by simpa using hx 3
  have k4 : x4 = g4 := by simpa using hx 4
  have k5 : x5 = g5 := by simpa using hx 5
  clear hx
  subst k0 k1 k2 k3 k4 k5
  have F5 := F 5 (by norm_num)
  have F6 := F 6 (by norm_num)
  clear F
  have hp2 : o = .rpy → 4 < pose.length ∧ 5 < pose.length := by
    intro h; have := hp h; omega
  rcases hv with rfl | rfl | rfl | rfl <;> simp at hp2 <;>
    simp [decodeVelocity, bind_def, pure_def, checkVectorSize, grow_def, decodeVelOrient, rd, wr, resize, decodeCoord,
      copyPos, F5, F6, G7, resizeList_zero, resizeList_cons, offset, coordSize, orientSize, Mem.input, decodedPos, decodedVelRot,
      rotOf, rdPose, hp2]

private theorem decodeVelocity_ok_none_false {o : Orient} (u : Units) (src dst pose : List ℝ)
    (hl : 6 ≤ (Mem.mk src dst false).input.length)
    (hv : o = .axisAngle ∨ o = .axisAngleScaled ∨ o = .rpy ∨ o = .none) (hp : o = .rpy → 6 ≤ pose.length) :
    ∃ m', decodeVelocity pose .none o u ⟨src, dst, false⟩ = some (true, m') ∧ m'.dst =
      decodedPos .none (Mem.mk src dst false).input ++
        decodedVelRot pose o u (rotOf (Mem.mk src dst false).input) := by
  simp only [Mem.input, Bool.false_eq_true, if_false] at hl ⊢
  obtain ⟨x0, x1, x2, x3, x4, x5, t, rfl⟩ := cons_form6 hl
  obtain ⟨a0, a1, a2, A2⟩ := cons_form2 (grow_form (n := 2) dst)
  obtain ⟨b0, b1, b2, b3, B3⟩ := cons_form3 (grow_form (n := 3) dst)
  obtain ⟨c0, c1, c2, c3, c4, C4⟩ := cons_form4 (grow_form (n := 4) dst)
  have hp2 : o = .rpy → 4 < pose.length ∧ 5 < pose.length := by
    intro h; have := hp h; omega
  rcases hv with rfl | rfl | rfl | rfl <;> simp at hp2 <;>
    simp [decodeVelocity, bind_def, pure_def, checkVectorSize, grow_def, decodeVelOrient, rd, wr, resize, decodeCoord,
      copyPos, A2, B3, C4, resizeList_zero, resizeList_cons, offset, coordSize, orientSize, Mem.input, decodedPos, decodedVelRot,
      rotOf, rdPose, hp2]

private theorem decodeVelocity_ok_none_true {o : Orient} (u : Units) (src dst pose : List ℝ)
    (hl : 6 ≤ (Mem.mk src dst true).input.length)
    (hv : o = .axisAngle ∨ o = .axisAngleScaled ∨ o = .rpy ∨ o = .none) (hp : o = .rpy → 6 ≤ pose.length) :
    ∃ m', decodeVelocity pose .none o u ⟨src, dst, true⟩ = some (true, m') ∧ m'.dst =
      decodedPos .none (Mem.mk src dst true).input ++
        decodedVelRot pose o u (rotOf (Mem.mk src dst true).input) := by
  simp only [Mem.input, if_true] at hl ⊢
  obtain ⟨x0, x1, x2, x3, x4, x5, t, rfl⟩ := cons_form6 hl
  have F : ∀ n ≤ 6, growTo n
      (x0 :: x1 :: x2 :: x3 :: x4 :: x5 :: t) = x0 :: x1 :: x2 :: x3 :: x4 :: x5 :: t := by
    intro n hn
    have hm : max n (x0 :: x1 :: x2 :: x3 :: x4 :: x5 :: t).length =
      (x0 :: x1 :: x2 :: x3 :: x4 :: x5 :: t).length := max_eq_right (by simp; omega)
    rw [growTo, hm, resizeList_le (le_refl _), List.take_length]
  have F2 := F 2 (by norm_num)
  have F3 := F 3 (by norm_num)
  have F4 := F 4 (by norm_num)
  clear F
  have hp2 : o = .rpy → 4 < pose.length ∧ 5 < pose.length := by
    intro h; have := hp h; omega
  rcases hv with rfl | rfl | rfl | rfl <;> simp at hp2 <;>
    simp [decodeVelocity, bind_def, pure_def, checkVectorSize, grow_def, decodeVelOrient, rd, wr, resize, decodeCoord,
      copyPos, F2, F3, F4, resizeList_zero, resizeList_cons, offset, coordSize, orientSize, Mem.input, decodedPos, decodedVelRot,
      rotOf, rdPose, hp2]

theorem decodeVelocity_ok {c : Coord} {o : Orient} (u : Units) (pose : List ℝ) (m : Mem)
    (hs : VelConvertible c o) (hp : o = .rpy → 6 ≤ pose.length) (hl : 6 ≤ m.input.length) :
    ∃ m', decodeVelocity pose c o u m = some (true, m') ∧
      m'.dst = decodedPos c m.input ++ decodedVelRot pose o u (rotOf m.input) := by
  obtain ⟨src, dst, same⟩ := m
  obtain ⟨hc, hy⟩ := hs
  rcases hc with rfl | rfl <;> cases same
  · exact decodeVelocity_ok_cartesian_false u src dst pose hl hy hp
  · exact decodeVelocity_ok_cartesian_true u src dst pose hl hy hp
  · exact decodeVelocity_ok_none_false u src dst pose hl hy hp
  · exact decodeVelocity_ok_none_true u src dst pose hl hy hp

/-! ## Failures -/

theorem encodePose_short (c : Coord) (o : Orient) (u : Units) (m : Mem)
    (h : m.input.length < coordSize c + orientSize o) : encodePose c o u m = some (false, m) := by
  simp [encodePose, bind_def, pure_def, checkVectorSize, not_le.mpr h]

theorem decodePose_short (c : Coord) (o : Orient) (u : Units) (m : Mem) (h : m.input.length < 6) :
    decodePose c o u m = some (false, m) := by
  have : ¬ (coordSize .cartesian + orientSize .axisAngleScaled ≤ m.input.length) := by
    simp only [coordSize, orientSize]; omega
  simp [decodePose, bind_def, pure_def, checkVectorSize, this]

theorem encodeVelocity_short (pose : List ℝ) (c : Coord) (o : Orient) (u : Units) (m : Mem)
    (h : m.input.length < coordSize c + orientSize o) :
    encodeVelocity pose c o u m = some (false, m) := by
  simp [encodeVelocity, bind_def, pure_def, checkVectorSize, not_le.mpr h]

theorem decodeVelocity_short (pose : List ℝ) (c : Coord) (o : Orient) (u : Units) (m : Mem)
    (h : m.input.length < 6) : decodeVelocity pose c o u m = some (false, m) := by
  have : ¬ (coordSize .cartesian + orientSize .axisAngleScaled ≤ m.input.length) := by
    simp only [coordSize, orientSize]; omega
  simp [decodeVelocity, bind_def, pure_def, checkVectorSize, this]

theorem encodePose_eq {c : Coord} {o : Orient} (u : Units) {m : Mem}
    (hl : coordSize c + orientSize o ≤ m.input.length) :
    encodePose c o u m = match encodeOrient c o u { m with dst := growTo 6 m.dst } with
      | none => none
      | some (false, m1) => some (false, m1)
      | some (true, m1) => encodeCoord c { m1 with dst := resizeList 6 m1.dst } := by
  have h1 : checkVectorSize c o m = some (true, m) := by simp [checkVectorSize, hl]
  rw [encodePose, bind_def, h1]
  simp only [Bool.true_eq_false, if_false, reduceCtorEq]
  rw [bind_def, grow_def]
  simp only
  rw [bind_def]
  rcases encodeOrient c o u { m with dst := growTo 6 m.dst } with _ | ⟨_ | _, m1⟩ <;> rfl

/-- Cylindrical and spherical coordinates are found to be unsupported after the orientation has been
converted. -/
theorem encodePose_unsupported {c : Coord} (o : Orient) (u : Units) (m : Mem) (h : ¬ Encodable c o) :
    ∃ m', encodePose c o u m = some (false, m') := by
  by_cases hl : coordSize c + orientSize o ≤ m.input.length
  · by_cases hc : c = .none
    · subst hc
      have ho : o = .eulerYZ := by
        by_contra hne
        exact h ⟨Or.inr rfl, fun hh => hne hh.2⟩
      subst ho
      exact ⟨{ m with dst := growTo 6 m.dst }, by rw [encodePose_eq u hl]; rfl⟩
    · have hcc : c ≠ .cartesian := fun hh => h ⟨Or.inl hh, fun hh2 => hc hh2.1⟩
      have hl' : coordSize .cartesian + orientSize o ≤ m.input.length := by
        cases c <;> simp_all [coordSize]
      obtain ⟨m', hm', -⟩ := encodePose_ok (c := .cartesian) (o := o) u ⟨Or.inl rfl, by simp⟩ m hl'
      rw [encodePose_eq u hl'] at hm'
      rw [encodePose_eq u hl]
      have e1 : encodeOrient c o u = encodeOrient .cartesian o u := by
        cases c <;> cases o <;> first | rfl | exact absurd rfl hc
      have e2 : ∀ m, encodeCoord c m = some (false, m) := by
        cases c <;> first | (intro m; rfl) | exact absurd rfl hc | exact absurd rfl hcc
      rw [e1]
      revert hm'
      rcases encodeOrient .cartesian o u { m with dst := growTo 6 m.dst } with _ | ⟨_ | _, m1⟩
      · simp
      · simp
      · intro _
        exact ⟨_, e2 _⟩
  · exact ⟨m, encodePose_short c o u m (not_le.mp hl)⟩

theorem decodePose_eq {c : Coord} {o : Orient} (u : Units) {m : Mem} (hl : 6 ≤ m.input.length) :
    decodePose c o u m = match decodeOrient c o u m with
      | none => none
      | some (false, m1) => some (false, m1)
      | some (true, m1) => decodeCoord c m1 := by
  have h1 : checkVectorSize .cartesian .axisAngleScaled m = some (true, m) := by
    simp [checkVectorSize, coordSize, orientSize, hl]
  rw [decodePose, bind_def, h1]
  simp only [Bool.true_eq_false, if_false, reduceCtorEq]
  rw [bind_def]
  rcases decodeOrient c o u m with _ | ⟨_ | _, m1⟩ <;> rfl

theorem decodePose_polar {c : Coord} (u : Units) (m : Mem) (h : eps < |m.input.getD 5 0|) :
    decodePose c .polarAzimuth u m = some (false, m) := by
  by_cases hl : 6 ≤ m.input.length
  · rw [decodePose_eq u hl]
    have : rd 5 m = some (m.input.getD 5 0, m) := rd_ok (by omega)
    simp only [decodeOrient, bind_def, this, gt_iff_lt, if_pos h, pure_def]
  · exact decodePose_short _ _ _ _ (not_le.mp hl)

theorem decodePose_unsupported {c : Coord} (o : Orient) (u : Units) (m : Mem)
    (h : ¬ Decodable c o m.input) : ∃ m', decodePose c o u m = some (false, m') := by
  by_cases hl : 6 ≤ m.input.length
  · by_cases hz : o = .polarAzimuth ∧ eps < |m.input.getD 5 0|
    · obtain ⟨rfl, hz⟩ := hz
      exact ⟨m, decodePose_polar u m hz⟩
    · have hz' : o = .polarAzimuth → |m.input.getD 5 0| ≤ eps := fun ho =>
        not_lt.mp fun hh => hz ⟨ho, hh⟩
      have hc : c ≠ .none := fun hh => h ⟨Or.inr hh, hz'⟩
      have hcc : c ≠ .cartesian := fun hh => h ⟨Or.inl hh, hz'⟩
      obtain ⟨m', hm', -⟩ := decodePose_ok (c := .cartesian) (o := o) u m ⟨Or.inl rfl, hz'⟩ hl
      rw [decodePose_eq u hl] at hm' ⊢
      have e1 : decodeOrient c o u = decodeOrient .cartesian o u := by
        cases c <;> cases o <;> first | rfl | exact absurd rfl hc
      have e2 : ∀ m, decodeCoord c m = some (false, m) := by
        cases c <;> first | (intro m; rfl) | exact absurd rfl hc | exact absurd rfl hcc
      rw [e1]
      revert hm'
      rcases decodeOrient .cartesian o u m with _ | ⟨_ | _, m1⟩
      · simp
      · simp
      · intro _
        exact ⟨_, e2 _⟩
  · exact ⟨m, decodePose_short c o u m (not_le.mp hl)⟩

theorem encodeVelocity_eq {pose : List ℝ} {c : Coord} {o : Orient} (u : Units) {m : Mem}
    (hl : coordSize c + orientSize o ≤ m.input.length) :
    encodeVelocity pose c o u m = match encodeVelOrient pose c o u { m with dst := growTo 6 m.dst } with
      | none => none
      | some (false, m1) => some (false, m1)
      | some (true, m1) => encodeCoord c { m1 with dst := resizeList 6 m1.dst } := by
  have h1 : checkVectorSize c o m = some (true, m) := by simp [checkVectorSize, hl]
  rw [encodeVelocity, bind_def, h1]
  simp only [Bool.true_eq_false, if_false]
  rw [bind_def, grow_def]
  simp only
  rw [bind_def]
  rcases encodeVelOrient pose c o u { m with dst := growTo 6 m.dst } with _ | ⟨_ | _, m1⟩ <;> rfl

theorem encodeVelocity_unsupported {pose : List ℝ} {c : Coord} (o : Orient) (u : Units) (m : Mem)
    (hp : o = .rpy → 3 + offset c ≤ pose.length) (h : ¬ VelConvertible c o) :
    ∃ m', encodeVelocity pose c o u m = some (false, m') := by
  by_cases hl : coordSize c + orientSize o ≤ m.input.length
  · by_cases ho : o = .axisAngle ∨ o = .axisAngleScaled ∨ o = .rpy ∨ o = .none
    · have hc : c ≠ .none := fun hh => h ⟨Or.inr hh, ho⟩
      have hcc : c ≠ .cartesian := fun hh => h ⟨Or.inl hh, ho⟩
      have hl' : coordSize .cartesian + orientSize o ≤ m.input.length := by
        cases c <;> simp_all [coordSize]
      have hp' : o = .rpy → 3 + offset .cartesian ≤ pose.length := by
        cases c <;> simp_all [offset]
      obtain ⟨m', hm', -⟩ := encodeVelocity_ok (c := .cartesian) (o := o) u pose ⟨Or.inl rfl, ho⟩ hp' m hl'
      rw [encodeVelocity_eq u hl'] at hm'
      rw [encodeVelocity_eq u hl]
      have e1 : encodeVelOrient pose c o u = encodeVelOrient pose .cartesian o u := by
        cases c <;> cases o <;> first | rfl | exact absurd rfl hc
      have e2 : ∀ m, encodeCoord c m = some (false, m) := by
        cases c <;> first | (intro m; rfl) | exact absurd rfl hc | exact absurd rfl hcc
      rw [e1]
      revert hm'
      rcases encodeVelOrient pose .cartesian o u { m with dst := growTo 6 m.dst } with _ | ⟨_ | _, m1⟩
      · simp
      · simp
      · intro _
        exact ⟨_, e2 _⟩
    · refine ⟨{ m with dst := growTo 6 m.dst }, ?_⟩
      rw [encodeVelocity_eq u hl]
      cases o <;> first | rfl | (exfalso; simp at ho)
  · exact ⟨m, encodeVelocity_short pose c o u m (not_le.mp hl)⟩

theorem decodeVelocity_eq {pose : List ℝ} {c : Coord} {o : Orient} (u : Units) {m : Mem}
    (hl : 6 ≤ m.input.length) :
    decodeVelocity pose c o u m = match decodeVelOrient pose c o u m with
      | none => none
      | some (false, m1) => some (false, m1)
      | some (true, m1) => decodeCoord c m1 := by
  have h1 : checkVectorSize .cartesian .axisAngleScaled m = some (true, m) := by
    simp [checkVectorSize, coordSize, orientSize, hl]
  rw [decodeVelocity, bind_def, h1]
  simp only [Bool.true_eq_false, if_false]
  rw [bind_def]
  rcases decodeVelOrient pose c o u m with _ | ⟨_ | _, m1⟩ <;> rfl

theorem decodeVelocity_unsupported {pose : List ℝ} {c : Coord} (o : Orient) (u : Units) (m : Mem)
    (hp : o = .rpy → 6 ≤ pose.length) (h : ¬ VelConvertible c o) :
    ∃ m', decodeVelocity pose c o u m = some (false, m') := by
  by_cases hl : 6 ≤ m.input.length
  · by_cases ho : o = .axisAngle ∨ o = .axisAngleScaled ∨ o = .rpy ∨ o = .none
    · have hc : c ≠ .none := fun hh => h ⟨Or.inr hh, ho⟩
      have hcc : c ≠ .cartesian := fun hh => h ⟨Or.inl hh, ho⟩
      obtain ⟨m', hm', -⟩ := decodeVelocity_ok (c := .cartesian) (o := o) u pose m ⟨Or.inl rfl, ho⟩ hp hl
      rw [decodeVelocity_eq u hl] at hm' ⊢
      have e1 : decodeVelOrient pose c o u = decodeVelOrient pose .cartesian o u := by
        cases c <;> cases o <;> first | rfl | exact absurd rfl hc
      have e2 : ∀ m, decodeCoord c m = some (false, m) := by
        cases c <;> first | (intro m; rfl) | exact absurd rfl hc | exact absurd rfl hcc
      rw [e1]
      revert hm'
      rcases decodeVelOrient pose .cartesian o u m with _ | ⟨_ | _, m1⟩
      · simp
      · simp
      · intro _
        exact ⟨_, e2 _⟩
    · refine ⟨m, ?_⟩
      rw [decodeVelocity_eq u hl]
      cases o <;> first | rfl | (exfalso; simp at ho)
  · exact ⟨m, decodeVelocity_short pose c o u m (not_le.mp hl)⟩

end KinRepr

end KD
