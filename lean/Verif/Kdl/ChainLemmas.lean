import Verif.Kdl.Lemmas
import Verif.Kdl.Twist

/-! Forward kinematics of chains: helper lemmas. -/

namespace KD

namespace Chain

theorem nJoints_append (c d : Chain) : nJoints (c ++ d) = nJoints c + nJoints d := by
  simp [nJoints]

theorem nJoints_cons (s : Segment) (c : Chain) :
    nJoints (s :: c) = (if s.joint.type ≠ .none then 1 else 0) + nJoints c := by
  unfold nJoints
  rw [List.filter_cons]
  split_ifs with h <;> simp_all
  omega

/-- The frame accumulated so far goes in front. -/
theorem fkLoop_acc (c : Chain) : ∀ (q : List ℝ) (acc : Frame),
    fkLoop c q acc = (fkLoop c q 1).map (acc * ·) := by
  induction c with
  | nil =>
    intro q acc
    cases q <;> simp [fkLoop]
  | cons s c ih =>
    intro q acc
    unfold fkLoop
    split_ifs with h
    · cases q with
      | nil => rfl
      | cons a q =>
        simp only
        rw [ih q (acc * s.pose a), ih q (1 * s.pose a), Option.map_map]
        congr 1
        funext f
        simp only [Function.comp, one_mul, mul_assoc]
    · rw [ih q (acc * s.pose 0), ih q (1 * s.pose 0), Option.map_map]
      congr 1
      funext f
      simp only [Function.comp, one_mul, mul_assoc]

/-- There is a result exactly if the number of values is that of the joints. -/
theorem fkLoop_isSome (c : Chain) : ∀ (q : List ℝ) (acc : Frame),
    (fkLoop c q acc).isSome ↔ q.length = nJoints c := by
  induction c with
  | nil => intro q acc; cases q <;> simp [fkLoop, nJoints]
  | cons s c ih =>
    intro q acc
    rw [nJoints_cons]
    unfold fkLoop
    split_ifs with h
    · cases q with
      | nil => simp; omega
      | cons a q => simp only [ih, List.length_cons]; omega
    · simp only [ih]; omega

theorem fk_isSome (c : Chain) (q : List ℝ) : (fk c q).isSome ↔ q.length = nJoints c :=
  fkLoop_isSome c q 1

theorem exists_fk {c : Chain} {q : List ℝ} (h : q.length = nJoints c) : ∃ f, fk c q = some f :=
  Option.isSome_iff_exists.mp ((fk_isSome c q).mpr h)

/-- Appending a fixed segment. -/
theorem fkLoop_fixed (c : Chain) (F : Frame) : ∀ (q : List ℝ) (acc : Frame),
    fkLoop (c ++ [Segment.make Joint.fixed F]) q acc = (fkLoop c q acc).map (· * F) := by
  induction c with
  | nil =>
    intro q acc
    have h : (Segment.make Joint.fixed F).pose 0 = F := by
      simp [Segment.make, Segment.pose, Joint.fixed, Joint.pose]
    have h0 : (Segment.make Joint.fixed F).joint.type = .none := rfl
    rw [List.nil_append]
    unfold fkLoop
    rw [if_neg (by simp [h0]), h]
    cases q <;> simp [fkLoop]
  | cons s c ih =>
    intro q acc
    rw [List.cons_append]
    unfold fkLoop
    split_ifs with h
    · cases q with
      | nil => rfl
      | cons a q => exact ih q _
    · exact ih q _

theorem fk_fixed (c : Chain) (F : Frame) (q : List ℝ) :
    fk (c ++ [Segment.make Joint.fixed F]) q = (fk c q).map (· * F) := fkLoop_fixed c F q 1

theorem nJoints_fixed (c : Chain) (F : Frame) :
    nJoints (c ++ [Segment.make Joint.fixed F]) = nJoints c := by
  rw [nJoints_append]
  simp [nJoints, Segment.make, Joint.fixed]

end Chain

end KD
