import Verif.Kdl.ChainLemmas
import Mathlib.Analysis.SpecialFunctions.Trigonometric.Deriv

/-!
# Velocities of moving frames, and the Jacobian of a chain as a derivative

The first part is specification: what it means that a frame moves with a twist.
-/

namespace KD

open Real

/-- The vector changes at the rate `v`. -/
def Vec3.HasRate (f : ℝ → Vec3) (v : Vec3) (t : ℝ) : Prop :=
  HasDerivAt (fun s => (f s).x) v.x t ∧ HasDerivAt (fun s => (f s).y) v.y t ∧
    HasDerivAt (fun s => (f s).z) v.z t

/-- The frame moves with the twist: its origin at the rate `vel`, and every vector attached to it turns
with the angular velocity `rot`. Both are written in the basis the frame itself is written in. -/
structure Frame.MovesWith (f : ℝ → Frame) (w : Twist) (t : ℝ) : Prop where
  origin : Vec3.HasRate (fun s => (f s).p) w.vel t
  turn : ∀ v : Vec3, Vec3.HasRate (fun s => (f s).M.mulVec v) (Vec3.cross w.rot ((f t).M.mulVec v)) t

namespace Vec3

theorem HasRate.const (v : Vec3) (t : ℝ) : HasRate (fun _ => v) 0 t :=
  ⟨hasDerivAt_const _ _, hasDerivAt_const _ _, hasDerivAt_const _ _⟩

theorem HasRate.add {f g : ℝ → Vec3} {v w : Vec3} {t : ℝ} (hf : HasRate f v t) (hg : HasRate g w t) :
    HasRate (fun s => f s + g s) (v + w) t :=
  ⟨hf.1.add hg.1, hf.2.1.add hg.2.1, hf.2.2.add hg.2.2⟩

theorem HasRate.congr {f : ℝ → Vec3} {v w : Vec3} {t : ℝ} (hf : HasRate f v t) (h : v = w) :
    HasRate f w t := h ▸ hf

end Vec3

namespace Frame.MovesWith

theorem const (f : Frame) (t : ℝ) : MovesWith (fun _ => f) 0 t := by
  refine ⟨Vec3.HasRate.const _ _, fun v => (Vec3.HasRate.const _ _).congr ?_⟩
  ext <;> simp

theorem congr {f : ℝ → Frame} {v w : Twist} {t : ℝ} (hf : MovesWith f v t) (h : v = w) :
    MovesWith f w t := h ▸ hf

/-- A moving vector in a moving frame. -/
theorem mulVec {f : ℝ → Frame} {w : Twist} {t : ℝ} (hf : MovesWith f w t) {g : ℝ → Vec3} {v : Vec3}
    (hg : Vec3.HasRate g v t) :
    Vec3.HasRate (fun s => (f s).M.mulVec (g s))
      (Vec3.cross w.rot ((f t).M.mulVec (g t)) + (f t).M.mulVec v) t := by
  obtain ⟨x1, x2, x3⟩ := hf.turn ⟨1, 0, 0⟩
  obtain ⟨y1, y2, y3⟩ := hf.turn ⟨0, 1, 0⟩
  obtain ⟨z1, z2, z3⟩ := hf.turn ⟨0, 0, 1⟩
  obtain ⟨g1, g2, g3⟩ := hg
  simp only [Mat3.mulVec_x, Mat3.mulVec_y, Mat3.mulVec_z, mul_one, mul_zero, add_zero, zero_add,
    Vec3.cross_x, Vec3.cross_y, Vec3.cross_z] at x1 x2 x3 y1 y2 y3 z1 z2 z3
  refine ⟨?_, ?_, ?_⟩
  · refine (((x1.mul g1).add (y1.mul g2)).add (z1.mul g3)).congr_deriv ?_
    simp; ring
  · refine (((x2.mul g1).add (y2.mul g2)).add (z2.mul g3)).congr_deriv ?_
    simp; ring
  · refine (((x3.mul g1).add (y3.mul g2)).add (z3.mul g3)).congr_deriv ?_
    simp; ring

/-- Composition of motions: velocities add up, the first one referred to the new origin. -/
theorem mul {f g : ℝ → Frame} {v w : Twist} {t : ℝ} (hf : MovesWith f v t) (hg : MovesWith g w t)
    (hr : (f t).IsRigid) :
    MovesWith (fun s => f s * g s)
      (v.refPoint ((f t).M.mulVec (g t).p) + Twist.rotate (f t).M w) t := by
  constructor
  · refine ((hf.mulVec hg.origin).add hf.origin).congr ?_
    ext <;> simp [Twist.refPoint, Twist.rotate] <;> ring
  · intro u
    have h := hf.mulVec (hg.turn u)
    have hc := Mat3.IsRot.cross hr w.rot ((g t).M.mulVec u)
    simp only [Frame.mul_M, Mat3.mulVec_mul] at h ⊢
    refine h.congr ?_
    rw [← hc]
    ext <;> simp [Twist.refPoint, Twist.rotate] <;> ring

/-- Rescaled time. -/
theorem comp {f : ℝ → Frame} {w : Twist} {a b t : ℝ} (hf : MovesWith f w (a * t + b)) :
    MovesWith (fun s => f (a * s + b)) (a • w) t := by
  have hl : HasDerivAt (fun s : ℝ => a * s + b) a t := by
    simpa using ((hasDerivAt_id t).const_mul a).add_const b
  have hm : ∀ {g : ℝ → Vec3} {v : Vec3}, Vec3.HasRate g v (a * t + b) →
      Vec3.HasRate (fun s => g (a * s + b)) (a • v) t := by
    rintro g v ⟨h1, h2, h3⟩
    refine ⟨?_, ?_, ?_⟩
    · exact (h1.comp t hl).congr_deriv (mul_comm _ _)
    · exact (h2.comp t hl).congr_deriv (mul_comm _ _)
    · exact (h3.comp t hl).congr_deriv (mul_comm _ _)
  refine ⟨hm hf.origin, fun v => (hm (hf.turn v)).congr ?_⟩
  ext <;> simp <;> ring

end Frame.MovesWith

/-- Axes of rotation have unit length, as the constructor of `KDL::Joint` makes them. -/
def Joint.Unit (j : Joint) : Prop := j.type = .rotAxis → Vec3.dot j.axis j.axis = 1

/-- Rotation about a unit axis at unit speed. -/
theorem rot2_movesWith {a : Vec3} (ha : Vec3.dot a a = 1) (o : Vec3) (t : ℝ) :
    Frame.MovesWith (fun s => ⟨Mat3.rot2 a s, o⟩) ⟨0, a⟩ t := by
  simp only [Vec3.dot] at ha
  refine ⟨Vec3.HasRate.const _ _, fun v => ?_⟩
  have hs := hasDerivAt_sin t
  have hc := hasDerivAt_cos t
  have h1 : HasDerivAt (fun s => 1 - cos s) (sin t) t := by
    simpa using hc.const_sub 1
  have key : ∀ v, Vec3.HasRate (fun s => (Mat3.rot2 a s).mulVec v)
      (cos t • Vec3.cross a v + sin t • (Vec3.dot a v • a - v)) t := by
    intro v
    simp only [Mat3.rot2_mulVec]
    refine ⟨?_, ?_, ?_⟩
    · refine (((hc.mul_const v.x).add (hs.mul_const (Vec3.cross a v).x)).add
        ((h1.mul_const (Vec3.dot a v)).mul_const a.x)).congr_of_eventuallyEq ?_ |>.congr_deriv ?_
      · exact Filter.Eventually.of_forall fun s => by simp
      · simp; ring
    · refine (((hc.mul_const v.y).add (hs.mul_const (Vec3.cross a v).y)).add
        ((h1.mul_const (Vec3.dot a v)).mul_const a.y)).congr_of_eventuallyEq ?_ |>.congr_deriv ?_
      · exact Filter.Eventually.of_forall fun s => by simp
      · simp; ring
    · refine (((hc.mul_const v.z).add (hs.mul_const (Vec3.cross a v).z)).add
        ((h1.mul_const (Vec3.dot a v)).mul_const a.z)).congr_of_eventuallyEq ?_ |>.congr_deriv ?_
      · exact Filter.Eventually.of_forall fun s => by simp
      · simp; ring
  refine (key v).congr ?_
  rw [Mat3.rot2_mulVec]
  ext
  · simp [Vec3.dot]; linear_combination (v.x * sin t) * ha
  · simp [Vec3.dot]; linear_combination (v.y * sin t) * ha
  · simp [Vec3.dot]; linear_combination (v.z * sin t) * ha

/-- Translation along a vector. -/
theorem trans_movesWith (o a : Vec3) (t : ℝ) :
    Frame.MovesWith (fun s => Frame.trans (o + s • a)) ⟨a, 0⟩ t := by
  constructor
  · refine ⟨?_, ?_, ?_⟩
    · simpa using ((hasDerivAt_id t).mul_const a.x).const_add o.x
    · simpa using ((hasDerivAt_id t).mul_const a.y).const_add o.y
    · simpa using ((hasDerivAt_id t).mul_const a.z).const_add o.z
  · intro v
    simp only [Frame.trans_M]
    refine (Vec3.HasRate.const _ _).congr ?_
    ext <;> simp

theorem rotX_eq (θ : ℝ) : Mat3.rotX θ = Mat3.rot2 ⟨1, 0, 0⟩ θ := by ext <;> simp [Mat3.rotX, Mat3.rot2]
theorem rotY_eq (θ : ℝ) : Mat3.rotY θ = Mat3.rot2 ⟨0, 1, 0⟩ θ := by ext <;> simp [Mat3.rotY, Mat3.rot2]
theorem rotZ_eq (θ : ℝ) : Mat3.rotZ θ = Mat3.rot2 ⟨0, 0, 1⟩ θ := by ext <;> simp [Mat3.rotZ, Mat3.rot2]

theorem Joint.Unit.pose_rigid {j : Joint} (hj : j.Unit) (q : ℝ) : (j.pose q).IsRigid := by
  unfold Joint.pose Frame.IsRigid
  cases h : j.type <;> simp only
  · exact Mat3.rot2_isRot (hj h) _
  · rw [rotX_eq]; exact Mat3.rot2_isRot (by simp [Vec3.dot]) _
  · rw [rotY_eq]; exact Mat3.rot2_isRot (by simp [Vec3.dot]) _
  · rw [rotZ_eq]; exact Mat3.rot2_isRot (by simp [Vec3.dot]) _
  all_goals exact Mat3.IsRot.one

/-- The pose of a joint moves with its twist. -/
theorem Joint.Unit.movesWith {j : Joint} (hj : j.Unit) (q qd t : ℝ) :
    Frame.MovesWith (fun s => j.pose (q + s * qd)) (j.twist qd) t := by
  have e : ∀ s, j.scale * (q + s * qd) + j.offset = (j.scale * qd) * s + (j.scale * q + j.offset) := by
    intro s; ring
  have r : ∀ {a : Vec3}, Vec3.dot a a = 1 → ∀ o, Frame.MovesWith
      (fun s => ⟨Mat3.rot2 a (j.scale * (q + s * qd) + j.offset), o⟩) ((j.scale * qd) • ⟨0, a⟩) t := by
    intro a ha o
    simp only [e]
    exact (rot2_movesWith ha o _).comp
  have p : ∀ o a : Vec3, Frame.MovesWith
      (fun s => Frame.trans (o + (j.scale * (q + s * qd) + j.offset) • a)) ((j.scale * qd) • ⟨a, 0⟩) t := by
    intro o a
    simp only [e]
    exact (trans_movesWith o a _).comp (a := j.scale * qd) (b := j.scale * q + j.offset)
  unfold Joint.pose Joint.twist
  cases h : j.type <;> simp only
  · exact (r (hj h) _).congr (by ext <;> simp)
  · simp only [rotX_eq]; exact (r (by simp [Vec3.dot]) _).congr (by ext <;> simp)
  · simp only [rotY_eq]; exact (r (by simp [Vec3.dot]) _).congr (by ext <;> simp)
  · simp only [rotZ_eq]; exact (r (by simp [Vec3.dot]) _).congr (by ext <;> simp)
  · exact (p _ _).congr (by ext <;> simp)
  · have := (p 0 ⟨1, 0, 0⟩).congr (w := ⟨⟨j.scale * qd, 0, 0⟩, 0⟩) (by ext <;> simp)
    convert this using 3
    ext <;> simp
  · have := (p 0 ⟨0, 1, 0⟩).congr (w := ⟨⟨0, j.scale * qd, 0⟩, 0⟩) (by ext <;> simp)
    convert this using 3
    ext <;> simp
  · have := (p 0 ⟨0, 0, 1⟩).congr (w := ⟨⟨0, 0, j.scale * qd⟩, 0⟩) (by ext <;> simp)
    convert this using 3
    ext <;> simp
  · exact Frame.MovesWith.const _ _

/-- Unit axes and rigid frames. -/
def Segment.Wf (s : Segment) : Prop := s.joint.Unit ∧ s.fTip.IsRigid

/-- Unit axes and rigid frames all along the chain. -/
def Chain.Wf (c : Chain) : Prop := ∀ s ∈ c, s.Wf

theorem Segment.Wf.pose_rigid {s : Segment} (hs : s.Wf) (q : ℝ) : (s.pose q).IsRigid :=
  (hs.1.pose_rigid q).mul hs.2

/-- The end of a segment moves with its twist. -/
theorem Segment.Wf.movesWith {s : Segment} (hs : s.Wf) (q qd : ℝ) :
    Frame.MovesWith (fun t => s.pose (q + t * qd)) (s.twist q qd) 0 := by
  have h := (hs.1.movesWith q qd 0).mul (Frame.MovesWith.const s.fTip 0) (hs.1.pose_rigid _)
  refine h.congr ?_
  simp only [zero_mul, add_zero]
  unfold Segment.twist
  ext <;> simp [Twist.rotate]

theorem Segment.twist_smul (s : Segment) (q qd : ℝ) : s.twist q qd = qd • s.twist q 1 := by
  have h : s.joint.twist qd = qd • s.joint.twist 1 := by
    unfold Joint.twist
    cases s.joint.type <;> ext <;> simp <;> ring
  unfold Segment.twist
  rw [h]
  ext <;> simp [Twist.refPoint] <;> ring

/-- Specification: the combination of the columns of a Jacobian with joint speeds. -/
noncomputable def Twist.combine : List ℝ → List Twist → Twist
  | a :: as, c :: cs => a • c + combine as cs
  | _, _ => 0

/-- Specification: the joint positions after a time `t` at constant speeds. -/
noncomputable def advance (q qd : List ℝ) (t : ℝ) : List ℝ := List.zipWith (fun a b => a + t * b) q qd

namespace Twist

theorem combine_append : ∀ (as : List ℝ) (cs : List Twist) (a : ℝ) (c : Twist), as.length = cs.length →
    combine (as ++ [a]) (cs ++ [c]) = combine as cs + a • c
  | [], [], a, c, _ => by ext <;> simp [combine]
  | b :: as, d :: cs, a, c, h => by
    have ih := combine_append as cs a c (by simpa using h)
    simp only [List.cons_append, combine]
    rw [ih]
    ext <;> simp <;> ring
  | [], _ :: _, _, _, h => by simp at h
  | _ :: _, [], _, _, h => by simp at h

theorem combine_refPoint (v : Vec3) : ∀ (as : List ℝ) (cs : List Twist),
    combine as (cs.map (·.refPoint v)) = (combine as cs).refPoint v
  | [], _ => by simp only [combine]; ext <;> simp [refPoint]
  | _ :: _, [] => by simp only [combine, List.map_nil]; ext <;> simp [refPoint]
  | a :: as, c :: cs => by
    simp only [List.map_cons, combine]
    rw [combine_refPoint v as cs]
    ext <;> simp [refPoint] <;> ring

end Twist

namespace Chain

theorem jacLoop_moves (c : Chain) : ∀ (qs qds : List ℝ) (acc : ℝ → Frame) (done : List ℝ)
    (cols cols' : List Twist), c.Wf → qds.length = qs.length → done.length = cols.length →
    (acc 0).IsRigid → Frame.MovesWith acc (Twist.combine done cols) 0 →
    jacLoop c qs (acc 0) cols = some cols' →
    ∃ F : ℝ → Frame, (∀ t, fkLoop c (advance qs qds t) (acc t) = some (F t)) ∧ (F 0).IsRigid ∧
      Frame.MovesWith F (Twist.combine (done ++ qds) cols') 0 := by
  induction c with
  | nil =>
    intro qs qds acc done cols cols' hw hl hd hr hm hj
    cases qs with
    | nil =>
      have : qds = [] := List.length_eq_zero_iff.mp hl
      subst this
      simp only [jacLoop, Option.some.injEq] at hj
      subst hj
      exact ⟨acc, fun t => by simp [advance, fkLoop], hr, by simpa using hm⟩
    | cons _ _ => simp [jacLoop] at hj
  | cons s c ih =>
    intro qs qds acc done cols cols' hw hl hd hr hm hj
    have hs : s.Wf := hw s (by simp)
    have hc : Chain.Wf c := fun x hx => hw x (by simp [hx])
    unfold jacLoop at hj
    split_ifs at hj with hn
    · cases qs with
      | nil => simp at hj
      | cons q qs =>
        cases qds with
        | nil => simp at hl
        | cons qd qds =>
          simp only at hj
          have hmul := hm.mul (hs.movesWith q qd) hr
          simp only [zero_mul, add_zero] at hmul
          have hp : (acc 0 * s.pose q).p - (acc 0).p = (acc 0).M.mulVec (s.pose q).p := by
            ext <;> simp
          obtain ⟨F, hF, hFr, hFm⟩ := ih qs qds (fun t => acc t * s.pose (q + t * qd)) (done ++ [qd])
            (cols.map (·.refPoint ((acc 0 * s.pose q).p - (acc 0).p)) ++
              [Twist.rotate (acc 0).M (s.twist q 1)]) cols' hc (by simpa using hl) (by simp [hd])
            (by simpa using hr.mul (hs.pose_rigid (q + 0 * qd)))
            (by
              refine hmul.congr ?_
              rw [Twist.combine_append _ _ _ _ (by simp [hd]), Twist.combine_refPoint, hp, s.twist_smul q qd]
              ext <;> simp [Twist.rotate] <;> ring)
            (by simpa using hj)
          refine ⟨F, fun t => ?_, hFr, ?_⟩
          · unfold fkLoop
            rw [if_pos hn]
            exact hF t
          · rwa [List.append_assoc] at hFm
    · have hmul := hm.mul (Frame.MovesWith.const (s.pose 0) 0) hr
      have hp : (acc 0 * s.pose 0).p - (acc 0).p = (acc 0).M.mulVec (s.pose 0).p := by
        ext <;> simp
      obtain ⟨F, hF, hFr, hFm⟩ := ih qs qds (fun t => acc t * s.pose 0) done
        (cols.map (·.refPoint ((acc 0 * s.pose 0).p - (acc 0).p))) cols' hc hl (by simp [hd])
        (hr.mul (hs.pose_rigid 0))
        (by
          refine hmul.congr ?_
          rw [Twist.combine_refPoint, hp]
          ext <;> simp [Twist.rotate])
        hj
      refine ⟨F, fun t => ?_, hFr, hFm⟩
      unfold fkLoop
      rw [if_neg hn]
      exact hF t

/-- The Jacobian is the derivative of forward kinematics: at joint speeds `qd` the end of the chain
moves with the combination of its columns. -/
theorem jacobian_moves {c : Chain} {q qd : List ℝ} {cols : List Twist} (hc : c.Wf)
    (hl : qd.length = q.length) (hj : c.jacobian q = some cols) :
    ∃ F : ℝ → Frame, (∀ t, c.fk (advance q qd t) = some (F t)) ∧ (F 0).IsRigid ∧
      Frame.MovesWith F (Twist.combine qd cols) 0 := by
  have h := jacLoop_moves c q qd (fun _ => 1) [] [] cols hc hl rfl Frame.IsRigid.one
    ((Frame.MovesWith.const 1 0).congr (by simp [Twist.combine])) hj
  simpa [Chain.fk] using h

end Chain

end KD
