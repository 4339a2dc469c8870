import Verif.Kdl.Dynamics
import Verif.Kdl.Jacobian

/-!
# Newton-Euler: helper lemmas

The first part is specification: bodies made of point masses, and the rate of change of a vector.
-/

namespace KD

open Vec3

/-- Specification: the rate of change of a vector. -/
noncomputable def Vec3.rate (f : ℝ → Vec3) (t : ℝ) : Vec3 :=
  ⟨deriv (fun s => (f s).x) t, deriv (fun s => (f s).y) t, deriv (fun s => (f s).z) t⟩

/-- Specification: a point mass at a place of the frame of its segment. -/
structure MassPoint where
  mass : ℝ
  place : Vec3

/-- Specification: a rigid body made of these point masses has this inertia. -/
def Inertia.Of (i : Inertia) (pts : List MassPoint) : Prop :=
  i.mass = (pts.map (·.mass)).sum ∧
  i.moment = (pts.map fun p => p.mass • p.place).sum ∧
  ∀ w, i.rot.mulVec w = (pts.map fun p => p.mass • cross p.place (cross w p.place)).sum

/-- Specification: the poses of all the segments of a chain, from the base on. -/
noncomputable def Chain.poses : Chain → List ℝ → Frame → List Frame
  | [], _, _ => []
  | s :: c, qs, acc =>
    if s.joint.type ≠ .none then
      match qs with
      | [] => []
      | q :: qs => (acc * s.pose q) :: poses c qs (acc * s.pose q)
    else (acc * s.pose 0) :: poses c qs (acc * s.pose 0)

/-- Specification: where a place of the `i`-th segment is. -/
noncomputable def Chain.placeAt (c : Chain) (q : List ℝ) (acc : Frame) (i : ℕ) (r : Vec3) : Vec3 :=
  ((c.poses q acc)[i]?.getD 1).act r

theorem Vec3.HasRate.rate {f : ℝ → Vec3} {v : Vec3} {t : ℝ} (h : HasRate f v t) : Vec3.rate f t = v := by
  ext
  · exact h.1.deriv
  · exact h.2.1.deriv
  · exact h.2.2.deriv

/-! ## Power of the forces a body needs -/

private theorem power_point (m : ℝ) (r u w v a b c : Vec3) :
    dot w ((m • a - cross (m • r) b) + cross v (m • u - cross (m • r) v)) +
      dot c ((m • cross r (cross b r) + cross (m • r) a) +
        (cross v (m • cross r (cross v r) + cross (m • r) u) + cross u (m • u - cross (m • r) v))) =
    m * dot (a + cross b r + cross v (u + cross v r)) (w + cross c r) := by
  simp only [dot, cross_x, cross_y, cross_z, add_x, add_y, add_z, sub_x, sub_y, sub_z, smul_x, smul_y, smul_z]
  ring

private theorem power_linear (m m' : ℝ) (h h' ib ib' iv iv' u w v a b c : Vec3) :
    dot w (((m + m') • a - cross (h + h') b) + cross v ((m + m') • u - cross (h + h') v)) +
      dot c (((ib + ib') + cross (h + h') a) +
        (cross v ((iv + iv') + cross (h + h') u) + cross u ((m + m') • u - cross (h + h') v))) =
    (dot w ((m • a - cross h b) + cross v (m • u - cross h v)) +
      dot c ((ib + cross h a) + (cross v (iv + cross h u) + cross u (m • u - cross h v)))) +
    (dot w ((m' • a - cross h' b) + cross v (m' • u - cross h' v)) +
      dot c ((ib' + cross h' a) + (cross v (iv' + cross h' u) + cross u (m' • u - cross h' v)))) := by
  simp only [dot, cross_x, cross_y, cross_z, add_x, add_y, add_z, sub_x, sub_y, sub_z, smul_x, smul_y, smul_z]
  ring

private theorem power_sum (u w v a b c : Vec3) : ∀ pts : List MassPoint,
    dot w (((pts.map (·.mass)).sum • a - cross (pts.map fun p => p.mass • p.place).sum b) +
        cross v ((pts.map (·.mass)).sum • u - cross (pts.map fun p => p.mass • p.place).sum v)) +
      dot c (((pts.map fun p => p.mass • cross p.place (cross b p.place)).sum +
          cross (pts.map fun p => p.mass • p.place).sum a) +
        (cross v ((pts.map fun p => p.mass • cross p.place (cross v p.place)).sum +
            cross (pts.map fun p => p.mass • p.place).sum u) +
          cross u ((pts.map (·.mass)).sum • u - cross (pts.map fun p => p.mass • p.place).sum v))) =
    (pts.map fun p => p.mass * dot (a + cross b p.place + cross v (u + cross v p.place))
      (w + cross c p.place)).sum
  | [] => by simp [dot]
  | p :: pts => by
    simp only [List.map_cons, List.sum_cons]
    rw [power_linear, power_sum u w v a b c pts, power_point]

/-- The power of the force that a body needs is that of the forces its point masses need. -/
theorem force_power {i : Inertia} {pts : List MassPoint} (h : i.Of pts) (v a w : Twist) (e : Wrench) :
    w.power (Link.force i v a e) =
      (pts.map fun p => p.mass * dot (a.vel + cross a.rot p.place + cross v.rot (v.vel + cross v.rot p.place))
        (w.vel + cross w.rot p.place)).sum - w.power e := by
  obtain ⟨h1, h2, h3⟩ := h
  rw [← power_sum]
  simp only [Twist.power, Link.force, Inertia.mul, Twist.crossWrench, Wrench.add_force, Wrench.sub_force,
    Wrench.add_torque, Wrench.sub_torque, h1, h2, h3, dot_sub_right]
  ring

/-! ## Motion of a chain, in the axes of its segments -/

/-- The frame moves with the twist, given in its own axes. -/
def Frame.BodyMoves (F : ℝ → Frame) (v : Twist) (t : ℝ) : Prop :=
  Frame.MovesWith F (Twist.rotate (F t).M v) t

/-- The twist changes at this rate. -/
def Twist.HasRate (f : ℝ → Twist) (w : Twist) (t : ℝ) : Prop :=
  Vec3.HasRate (fun s => (f s).vel) w.vel t ∧ Vec3.HasRate (fun s => (f s).rot) w.rot t

theorem Vec3.HasRate.sub {f g : ℝ → Vec3} {v w : Vec3} {t : ℝ} (hf : HasRate f v t) (hg : HasRate g w t) :
    HasRate (fun s => f s - g s) (v - w) t :=
  ⟨hf.1.sub hg.1, hf.2.1.sub hg.2.1, hf.2.2.sub hg.2.2⟩

theorem Vec3.HasRate.cross {f g : ℝ → Vec3} {v w : Vec3} {t : ℝ} (hf : HasRate f v t) (hg : HasRate g w t) :
    HasRate (fun s => Vec3.cross (f s) (g s)) (Vec3.cross v (g t) + Vec3.cross (f t) w) t := by
  obtain ⟨f1, f2, f3⟩ := hf
  obtain ⟨g1, g2, g3⟩ := hg
  refine ⟨?_, ?_, ?_⟩
  · exact ((f2.mul g3).sub (f3.mul g2)).congr_deriv (by simp; ring)
  · exact ((f3.mul g1).sub (f1.mul g3)).congr_deriv (by simp; ring)
  · exact ((f1.mul g2).sub (f2.mul g1)).congr_deriv (by simp; ring)

theorem Vec3.HasRate.smul {f : ℝ → Vec3} {g : ℝ → ℝ} {v : Vec3} {g' t : ℝ} (hg : HasDerivAt g g' t)
    (hf : HasRate f v t) : HasRate (fun s => g s • f s) (g' • f t + g t • v) t :=
  ⟨(hg.mul hf.1).congr_deriv (by simp), (hg.mul hf.2.1).congr_deriv (by simp),
    (hg.mul hf.2.2).congr_deriv (by simp)⟩

namespace Frame.MovesWith

/-- Motion along another clock. -/
theorem comp_fun {f : ℝ → Frame} {w : Twist} {g : ℝ → ℝ} {g' t : ℝ} (hf : MovesWith f w (g t))
    (hg : HasDerivAt g g' t) : MovesWith (fun s => f (g s)) (g' • w) t := by
  have hm : ∀ {h : ℝ → Vec3} {v : Vec3}, Vec3.HasRate h v (g t) →
      Vec3.HasRate (fun s => h (g s)) (g' • v) t := by
    rintro h v ⟨h1, h2, h3⟩
    refine ⟨?_, ?_, ?_⟩
    · exact (h1.comp t hg).congr_deriv (mul_comm _ _)
    · exact (h2.comp t hg).congr_deriv (mul_comm _ _)
    · exact (h3.comp t hg).congr_deriv (mul_comm _ _)
  refine ⟨hm hf.origin, fun v => (hm (hf.turn v)).congr ?_⟩
  ext <;> simp <;> ring

/-- A moving vector seen from a moving frame. -/
theorem transpose {f : ℝ → Frame} {w : Twist} {t : ℝ} (hf : MovesWith f w t) {g : ℝ → Vec3} {v : Vec3}
    (hg : Vec3.HasRate g v t) :
    Vec3.HasRate (fun s => (f s).M.transpose.mulVec (g s))
      ((f t).M.transpose.mulVec (v - Vec3.cross w.rot (g t))) t := by
  obtain ⟨x1, x2, x3⟩ := hf.turn ⟨1, 0, 0⟩
  obtain ⟨y1, y2, y3⟩ := hf.turn ⟨0, 1, 0⟩
  obtain ⟨z1, z2, z3⟩ := hf.turn ⟨0, 0, 1⟩
  obtain ⟨g1, g2, g3⟩ := hg
  simp only [Mat3.mulVec_x, Mat3.mulVec_y, Mat3.mulVec_z, mul_one, mul_zero, add_zero, zero_add,
    Vec3.cross_x, Vec3.cross_y, Vec3.cross_z] at x1 x2 x3 y1 y2 y3 z1 z2 z3
  refine ⟨?_, ?_, ?_⟩
  · refine (((x1.mul g1).add (x2.mul g2)).add (x3.mul g3)).congr_deriv ?_
    simp [Mat3.transpose]; ring
  · refine (((y1.mul g1).add (y2.mul g2)).add (y3.mul g3)).congr_deriv ?_
    simp [Mat3.transpose]; ring
  · refine (((z1.mul g1).add (z2.mul g2)).add (z3.mul g3)).congr_deriv ?_
    simp [Mat3.transpose]; ring

end Frame.MovesWith

/-- The twist of a joint at unit speed, in the axes at the end of its segment. -/
noncomputable def Segment.unit (s : Segment) (q : ℝ) : Twist :=
  Twist.rotate (s.pose q).M.transpose (s.twist q 1)

theorem Joint.Unit.axis_fixed {j : Joint} (hj : j.Unit) (q : ℝ) :
    (j.pose q).M.transpose.mulVec (j.twist 1).rot = (j.twist 1).rot ∧
      (j.pose q).M.transpose.mulVec (j.twist 1).vel = (j.twist 1).vel := by
  have hr : ∀ {a : Vec3}, dot a a = 1 → ∀ θ k : ℝ, (Mat3.rot2 a θ).transpose.mulVec (k • a) = k • a := by
    intro a ha θ k
    rw [Mat3.rot2_transpose, Mat3.mulVec_smul, Mat3.rot2_axis ha]
  have h1 : (1 : Mat3).transpose = 1 := by ext <;> simp [Mat3.transpose]
  unfold Joint.pose Joint.twist
  cases h : j.type <;> simp only
  · exact ⟨hr (hj h) _ _, by ext <;> simp⟩
  · rw [rotX_eq]
    refine ⟨?_, by ext <;> simp⟩
    have := hr (a := ⟨1, 0, 0⟩) (by simp [dot]) (j.scale * q + j.offset) (j.scale * 1)
    rwa [show ((j.scale * 1) • (⟨1, 0, 0⟩ : Vec3)) = ⟨j.scale * 1, 0, 0⟩ by ext <;> simp] at this
  · rw [rotY_eq]
    refine ⟨?_, by ext <;> simp⟩
    have := hr (a := ⟨0, 1, 0⟩) (by simp [dot]) (j.scale * q + j.offset) (j.scale * 1)
    rwa [show ((j.scale * 1) • (⟨0, 1, 0⟩ : Vec3)) = ⟨0, j.scale * 1, 0⟩ by ext <;> simp] at this
  · rw [rotZ_eq]
    refine ⟨?_, by ext <;> simp⟩
    have := hr (a := ⟨0, 0, 1⟩) (by simp [dot]) (j.scale * q + j.offset) (j.scale * 1)
    rwa [show ((j.scale * 1) • (⟨0, 0, 1⟩ : Vec3)) = ⟨0, 0, j.scale * 1⟩ by ext <;> simp] at this
  all_goals constructor <;> ext <;> simp [Mat3.transpose]

/-- It does not depend on the position of the joint. -/
theorem Segment.Wf.unit_const {s : Segment} (hs : s.Wf) (q q' : ℝ) : s.unit q = s.unit q' := by
  have key : ∀ q, s.unit q = Twist.rotate s.fTip.M.transpose ((s.joint.twist 1).refPoint s.fTip.p) := by
    intro q
    obtain ⟨h1, h2⟩ := hs.1.axis_fixed q
    have hr : (s.joint.pose q).M.IsRot := hs.1.pose_rigid q
    unfold Segment.unit Segment.pose Segment.twist
    rw [Frame.mul_M, Mat3.transpose_mul]
    have hv : (s.joint.pose q).M.transpose.mulVec
        (cross (s.joint.twist 1).rot ((s.joint.pose q).M.mulVec s.fTip.p)) = cross (s.joint.twist 1).rot s.fTip.p := by
      rw [← hr.transpose.cross, h1, hr.transpose_mulVec]
    unfold Twist.rotate Twist.refPoint
    simp only [Mat3.mulVec_mul, Mat3.mulVec_add, hv, h1, h2]
  rw [key, key]

theorem Segment.Wf.rotate_unit {s : Segment} (hs : s.Wf) (q : ℝ) : Twist.rotate (s.pose q).M (s.unit q) = s.twist q 1 := by
  have hr : (s.pose q).M.IsRot := hs.pose_rigid q
  unfold Segment.unit Twist.rotate
  simp only [hr.mulVec_transpose]

/-- The end of a segment moves with its unit twist times the speed. -/
theorem Segment.Wf.moves {s : Segment} (hs : s.Wf) {g : ℝ → ℝ} {g' t : ℝ} (hg : HasDerivAt g g' t) :
    Frame.BodyMoves (fun u => s.pose (g u)) (g' • s.unit 0) t := by
  have h := hs.movesWith (g t) 1
  have h0 : HasDerivAt (fun u => g u - g t) g' t := hg.sub_const _
  have h1 : Frame.MovesWith (fun u => s.pose (g t + (g u - g t) * 1)) (g' • s.twist (g t) 1) t := by
    refine Frame.MovesWith.comp_fun (f := fun x => s.pose (g t + x * 1)) (g := fun u => g u - g t) ?_ h0
    simpa using h
  unfold Frame.BodyMoves
  rw [hs.unit_const 0 (g t)]
  have e : (fun u => s.pose (g t + (g u - g t) * 1)) = fun u => s.pose (g u) := by
    funext u; congr 1; ring
  rw [e] at h1
  refine h1.congr ?_
  rw [← hs.rotate_unit (g t)]
  ext <;> simp [Twist.rotate] <;> ring

/-- The motion of a frame attached to another one. -/
theorem Frame.BodyMoves.mul {F X : ℝ → Frame} {v w : Twist} {t : ℝ} (hF : BodyMoves F v t)
    (hX : BodyMoves X w t) (hf : (F t).IsRigid) (hx : (X t).IsRigid) :
    BodyMoves (fun s => F s * X s) ((X t).invTwist v + w) t := by
  refine (Frame.MovesWith.mul hF hX hf).congr ?_
  have h1 : (F t).M.IsRot := hf
  have h2 : (X t).M.IsRot := hx
  unfold Twist.rotate Twist.refPoint Frame.invTwist
  simp only [Frame.mul_M, Twist.add_vel, Twist.add_rot, Mat3.mulVec_mul, Mat3.mulVec_add, h2.mulVec_transpose]
  have : cross ((F t).M.mulVec v.rot) ((F t).M.mulVec (X t).p) = - (F t).M.mulVec (cross (X t).p v.rot) := by
    rw [h1.cross, ← Mat3.mulVec_neg]
    congr 1
    ext <;> simp <;> ring
  simp only [this, Mat3.mulVec_sub]
  ext <;> simp [Twist.rotate] <;> ring

/-- Velocity of a place of a moving body. -/
theorem Frame.BodyMoves.place {F : ℝ → Frame} {v : Twist} {t : ℝ} (h : BodyMoves F v t)
    (hf : (F t).IsRigid) (r : Vec3) :
    Vec3.HasRate (fun s => (F s).act r) ((F t).M.mulVec (v.vel + cross v.rot r)) t := by
  have h1 : (F t).M.IsRot := hf
  have := (h.turn r).add h.origin
  refine this.congr ?_
  simp only [Twist.rotate, Mat3.mulVec_add, ← h1.cross]
  ext <;> simp <;> ring

/-- Acceleration of a place of a moving body. -/
theorem Frame.BodyMoves.place_acc {F : ℝ → Frame} {v : ℝ → Twist} {a : Twist} {t : ℝ}
    (h : ∀ s, BodyMoves F (v s) s) (hf : ∀ s, (F s).IsRigid) (ha : Twist.HasRate v a t) (r : Vec3) :
    Vec3.rate (Vec3.rate fun s => (F s).act r) t =
      (F t).M.mulVec (a.vel + cross a.rot r + cross (v t).rot ((v t).vel + cross (v t).rot r)) := by
  have e : (Vec3.rate fun s => (F s).act r) = fun s => (F s).M.mulVec ((v s).vel + cross (v s).rot r) := by
    funext s
    exact ((h s).place (hf s) r).rate
  rw [e]
  have h1 : (F t).M.IsRot := hf t
  have hu : Vec3.HasRate (fun s => (v s).vel + cross (v s).rot r) (a.vel + cross a.rot r) t := by
    refine (ha.1.add (ha.2.cross (Vec3.HasRate.const r t))).congr ?_
    ext <;> simp
  refine ((h t).mulVec hu).rate.trans ?_
  simp only [Twist.rotate, h1.cross, ← Mat3.mulVec_add]
  congr 1
  ext <;> simp <;> ring

/-- The second result of a pass of the first loop is the rate of change of the first one. -/
theorem sweep_rate {s : Segment} (hs : s.Wf) {q qd : ℝ → ℝ} {qdd t : ℝ} (hq : HasDerivAt q (qd t) t)
    (hqd : HasDerivAt qd qdd t) {v : ℝ → Twist} {a : Twist} (hv : Twist.HasRate v a t) :
    Twist.HasRate (fun u => (Link.sweep s (q u) (qd u) 0 (v u) 0).1) (Link.sweep s (q t) (qd t) qdd (v t) a).2 t := by
  have hvj : ∀ x y, Twist.rotate (s.pose x).M.transpose (s.twist x y) = y • s.unit 0 := by
    intro x y
    rw [hs.unit_const 0 x, Segment.twist_smul]
    ext <;> simp [Twist.rotate, Segment.unit] <;> ring
  have hS : ∀ x, Twist.rotate (s.pose x).M.transpose (s.twist x 1) = s.unit 0 := fun x => by
    rw [hs.unit_const 0 x]; rfl
  have hX := hs.moves hq
  have hr : (s.pose (q t)).M.IsRot := hs.pose_rigid (q t)
  have hlin : Twist.HasRate (fun u => qd u • s.unit 0) (qdd • s.unit 0) t := by
    constructor
    · refine (Vec3.HasRate.smul hqd (Vec3.HasRate.const (s.unit 0).vel t)).congr ?_
      ext <;> simp
    · refine (Vec3.HasRate.smul hqd (Vec3.HasRate.const (s.unit 0).rot t)).congr ?_
      ext <;> simp
  unfold Link.sweep
  simp only [hvj, hS]
  have ht : ∀ u w : Vec3, (s.pose (q t)).M.transpose.mulVec (cross u w) =
      cross ((s.pose (q t)).M.transpose.mulVec u) ((s.pose (q t)).M.transpose.mulVec w) := fun u w =>
    (hr.transpose.cross u w).symm
  have hid : ∀ u : Vec3, (s.pose (q t)).M.transpose.mulVec ((s.pose (q t)).M.mulVec u) = u := hr.transpose_mulVec
  constructor
  · have h1 := Frame.MovesWith.transpose hX (hv.1.sub (hX.origin.cross hv.2))
    refine (h1.add hlin.1).congr ?_
    simp only [Twist.rotate, Twist.crossTwist, Frame.invTwist, Twist.add_vel, Twist.add_rot, Twist.smul_vel,
      Twist.smul_rot, Mat3.mulVec_sub, Mat3.mulVec_add, ht, hid]
    ext <;> simp <;> ring
  · have h1 := Frame.MovesWith.transpose hX hv.2
    refine (h1.add hlin.2).congr ?_
    simp only [Twist.rotate, Twist.crossTwist, Frame.invTwist, Twist.add_vel, Twist.add_rot, Twist.smul_vel,
      Twist.smul_rot, Mat3.mulVec_sub, Mat3.mulVec_add, ht, hid]
    ext <;> simp <;> ring

/-- The velocity of a segment is that of its motion. -/
theorem sweep_moves {s : Segment} (hs : s.Wf) {q : ℝ → ℝ} {qd qdd t : ℝ} (hq : HasDerivAt q qd t)
    {F : ℝ → Frame} {v a : Twist} (hF : Frame.BodyMoves F v t) (hf : (F t).IsRigid) :
    Frame.BodyMoves (fun u => F u * s.pose (q u)) (Link.sweep s (q t) qd qdd v a).1 t := by
  have h := hF.mul (hs.moves hq) hf (hs.pose_rigid _)
  have e : Twist.rotate (s.pose (q t)).M.transpose (s.twist (q t) qd) = qd • s.unit 0 := by
    rw [hs.unit_const 0 (q t), Segment.twist_smul]
    ext <;> simp [Twist.rotate, Segment.unit] <;> ring
  unfold Link.sweep
  simp only [e]
  exact h

/-- Gravity goes through the first loop as an acceleration of the base. -/
theorem sweep_gravity {s : Segment} (q qd qdd : ℝ) (v a : Twist) (F : Frame) (g : Vec3) :
    (Link.sweep s q qd qdd v (a + ⟨-(F.M.transpose.mulVec g), 0⟩)).2 =
      (Link.sweep s q qd qdd v a).2 + ⟨-((F * s.pose q).M.transpose.mulVec g), 0⟩ := by
  unfold Link.sweep
  simp only [Frame.invTwist, Twist.add_vel, Twist.add_rot, Frame.mul_M, Mat3.transpose_mul, Mat3.mulVec_mul]
  ext <;> simp <;> ring

theorem power_frame (f : Frame) (t : Twist) (w : Wrench) : t.power (f.mulWrench w) = (f.invTwist t).power w := by
  simp only [Twist.power, Frame.mulWrench, Frame.invTwist, dot, Mat3.transpose]
  simp
  ring

theorem power_add (t : Twist) (a b : Wrench) : t.power (a + b) = t.power a + t.power b := by
  simp only [Twist.power, Wrench.add_force, Wrench.add_torque, dot_add_right]
  ring

/-! ## The whole chain -/

/-- Specification: the motion of a joint in time, with its speed and acceleration. -/
structure JointMotion where
  pos : ℝ → ℝ
  vel : ℝ → ℝ
  acc : ℝ → ℝ
  pos_rate : ∀ t, HasDerivAt pos (vel t) t
  vel_rate : ∀ t, HasDerivAt vel (acc t) t

/-- Specification: the work per unit of virtual displacement of the forces that accelerate all the point
masses of a chain against gravity. `x` are the joints in time, `y` the joints along the virtual
displacement; the base is at `F` and `Y`. -/
noncomputable def newtonWork (c : Chain) (bodies : List (List MassPoint)) (g : Vec3) (x y : ℝ → List ℝ)
    (F Y : ℝ → Frame) (t : ℝ) : ℝ :=
  ∑ i ∈ Finset.range bodies.length, ((bodies.getD i []).map fun p =>
    p.mass * dot (Vec3.rate (Vec3.rate fun s => c.placeAt (x s) (F s) i p.place) t - g)
      (Vec3.rate (fun ε => c.placeAt (y ε) (Y ε) i p.place) 0)).sum

theorem placeAt_zero {s : Segment} (c : Chain) (q : ℝ) (qs : List ℝ) (acc : Frame) (r : Vec3)
    (h : s.joint.type ≠ .none) : Chain.placeAt (s :: c) (q :: qs) acc 0 r = (acc * s.pose q).act r := by
  unfold Chain.placeAt Chain.poses
  rw [if_pos h]
  rfl

theorem placeAt_succ {s : Segment} (c : Chain) (q : ℝ) (qs : List ℝ) (acc : Frame) (i : ℕ) (r : Vec3)
    (h : s.joint.type ≠ .none) :
    Chain.placeAt (s :: c) (q :: qs) acc (i + 1) r = Chain.placeAt c qs (acc * s.pose q) i r := by
  unfold Chain.placeAt
  rw [Chain.poses, if_pos h]
  rfl

theorem placeAt_zero_fixed {s : Segment} (c : Chain) (qs : List ℝ) (acc : Frame) (r : Vec3)
    (h : ¬ s.joint.type ≠ .none) : Chain.placeAt (s :: c) qs acc 0 r = (acc * s.pose 0).act r := by
  unfold Chain.placeAt
  rw [Chain.poses.eq_def]
  simp only [if_neg h]
  rfl

theorem placeAt_succ_fixed {s : Segment} (c : Chain) (qs : List ℝ) (acc : Frame) (i : ℕ) (r : Vec3)
    (h : ¬ s.joint.type ≠ .none) :
    Chain.placeAt (s :: c) qs acc (i + 1) r = Chain.placeAt c qs (acc * s.pose 0) i r := by
  unfold Chain.placeAt
  rw [Chain.poses.eq_def]
  simp only [if_neg h]
  rfl

/-- The forces on one body. -/
theorem body_work {i : Inertia} {pts : List MassPoint} (hi : i.Of pts) {F Y : ℝ → Frame} {v : ℝ → Twist}
    {a w : Twist} {t : ℝ} (hF : ∀ s, Frame.BodyMoves F (v s) s) (hf : ∀ s, (F s).IsRigid)
    (ha : Twist.HasRate v a t) (hY : Frame.BodyMoves Y w 0) (hYF : Y 0 = F t) (g : Vec3) (e : Wrench) :
    w.power (Link.force i (v t) (a + ⟨-((F t).M.transpose.mulVec g), 0⟩) e) =
      (pts.map fun p => p.mass * dot (Vec3.rate (Vec3.rate fun s => (F s).act p.place) t - g)
        (Vec3.rate (fun ε => (Y ε).act p.place) 0)).sum - w.power e := by
  rw [force_power hi]
  congr 2
  refine List.map_congr_left fun p _ => ?_
  have hr : (F t).M.IsRot := hf t
  rw [Frame.BodyMoves.place_acc hF hf ha, (hY.place (by rw [hYF]; exact hf t) p.place).rate, hYF]
  have hg : g = (F t).M.mulVec ((F t).M.transpose.mulVec g) := (hr.mulVec_transpose g).symm
  conv_rhs => rw [hg, ← Mat3.mulVec_sub, hr.dot]
  congr 2
  simp only [Twist.add_vel, Twist.add_rot]
  ext <;> simp <;> ring

theorem BodyMoves_const (f : Frame) (t : ℝ) : Frame.BodyMoves (fun _ => f) 0 t := by
  refine (Frame.MovesWith.const f t).congr ?_
  ext <;> simp [Twist.rotate]

/-- What the two loops compute: for every virtual displacement, the work of the joint torques is that of
the forces that accelerate all the masses against gravity, less that of the external wrenches. -/
theorem rneLoop_work (g : Vec3) (t : ℝ) (links : List Link) :
    ∀ (bodies : List (List MassPoint)) (ms : List JointMotion) (δ : List ℝ) (es : List Wrench)
      (F Y : ℝ → Frame) (v : ℝ → Twist) (a w : Twist) (ts : List ℝ) (f : Wrench),
      (∀ l ∈ links, l.seg.Wf) → List.Forall₂ (fun l b => l.inertia.Of b) links bodies →
      δ.length = ms.length → (∀ s, Frame.BodyMoves F (v s) s) → (∀ s, (F s).IsRigid) →
      Twist.HasRate v a t → Frame.BodyMoves Y w 0 → Y 0 = F t →
      rneLoop links (ms.map (·.pos t)) (ms.map (·.vel t)) (ms.map (·.acc t)) es (v t)
        (a + ⟨-((F t).M.transpose.mulVec g), 0⟩) = some (ts, f) →
      ts.length = ms.length ∧ ∃ Ws : List Twist, Ws.length = links.length ∧ es.length = links.length ∧
        (∀ (i : ℕ) (W : Twist), Ws[i]? = some W → Frame.BodyMoves (fun ε =>
          ((Chain.poses (links.map (·.seg)) (advance (ms.map (·.pos t)) δ ε) (Y ε))[i]?.getD 1)) W 0) ∧
        (List.zipWith (· * ·) ts δ).sum + w.power f =
          newtonWork (links.map (·.seg)) bodies g (fun s => ms.map (·.pos s))
            (advance (ms.map (·.pos t)) δ) F Y t - (List.zipWith Twist.power Ws es).sum := by
  induction links with
  | nil =>
    intro bodies ms δ es F Y v a w ts f hw hb hd hF hf ha hY hYF h
    cases hb
    cases ms with
    | cons _ _ => simp [rneLoop] at h
    | nil =>
      cases es with
      | cons _ _ => simp [rneLoop] at h
      | nil =>
        simp only [List.map_nil, rneLoop, Option.some.injEq, Prod.mk.injEq] at h
        obtain ⟨rfl, rfl⟩ := h
        refine ⟨rfl, [], rfl, rfl, by simp, ?_⟩
        simp [newtonWork, Twist.power, dot]
  | cons l links ih =>
    intro bodies ms δ es F Y v a w ts f hw hb hd hF hf ha hY hYF h
    obtain ⟨b, bs, hlb, hbs, rfl⟩ := List.forall₂_cons_left_iff.mp hb
    have hl : l.seg.Wf := hw l (by simp)
    have hls : ∀ l' ∈ links, l'.seg.Wf := fun l' hl' => hw l' (by simp [hl'])
    cases es with
    | nil => simp [rneLoop] at h
    | cons e es =>
      by_cases hn : l.seg.joint.type ≠ .none
      · cases ms with
        | nil => simp [rneLoop, hn] at h
        | cons m ms =>
          cases δ with
          | nil => simp at hd
          | cons d δ =>
            simp only [List.map_cons, rneLoop, if_pos hn] at h
            have hS : ∀ x, Twist.rotate (l.seg.pose x).M.transpose (l.seg.twist x 1) = l.seg.unit 0 := fun x => by
              rw [hl.unit_const 0 x]; rfl
            -- the motion of this segment, real and virtual
            have hF' : ∀ s, Frame.BodyMoves (fun u => F u * l.seg.pose (m.pos u))
                (Link.sweep l.seg (m.pos s) (m.vel s) 0 (v s) 0).1 s := fun s =>
              sweep_moves hl (m.pos_rate s) (hF s) (hf s)
            have hf' : ∀ s, (F s * l.seg.pose (m.pos s)).IsRigid := fun s => (hf s).mul (hl.pose_rigid _)
            have ha' := sweep_rate hl (m.pos_rate t) (m.vel_rate t) ha
            have hlin : HasDerivAt (fun ε => m.pos t + ε * d) d 0 := by
              simpa using ((hasDerivAt_id (0 : ℝ)).mul_const d).const_add (m.pos t)
            have hY' : Frame.BodyMoves (fun ε => Y ε * l.seg.pose (m.pos t + ε * d))
                ((l.seg.pose (m.pos t)).invTwist w + d • l.seg.unit 0) 0 := by
              have := hY.mul (hl.moves hlin) (by rw [hYF]; exact hf t) (hl.pose_rigid _)
              simpa using this
            have hYF' : (fun ε => Y ε * l.seg.pose (m.pos t + ε * d)) 0 = F t * l.seg.pose (m.pos t) := by
              simp [hYF]
            rw [sweep_gravity] at h
            have e1 : (Link.sweep l.seg (m.pos t) (m.vel t) (m.acc t) (v t) (a + ⟨-((F t).M.transpose.mulVec g), 0⟩)).1 =
                (Link.sweep l.seg (m.pos t) (m.vel t) 0 (v t) 0).1 := rfl
            rw [e1] at h
            cases hrec : rneLoop links (ms.map (·.pos t)) (ms.map (·.vel t)) (ms.map (·.acc t)) es
                (Link.sweep l.seg (m.pos t) (m.vel t) 0 (v t) 0).1
                ((Link.sweep l.seg (m.pos t) (m.vel t) (m.acc t) (v t) a).2 +
                  ⟨-((F t * l.seg.pose (m.pos t)).M.transpose.mulVec g), 0⟩) with
            | none => rw [hrec] at h; simp at h
            | some r =>
              obtain ⟨ts', f'⟩ := r
              rw [hrec] at h
              simp only [Option.bind_eq_bind, Option.bind_some, Option.pure_def, Option.some.injEq, Prod.mk.injEq] at h
              obtain ⟨rfl, rfl⟩ := h
              obtain ⟨g1, Ws, g2, g3, g4, g5⟩ := ih bs ms δ es (fun u => F u * l.seg.pose (m.pos u))
                (fun ε => Y ε * l.seg.pose (m.pos t + ε * d))
                (fun s => (Link.sweep l.seg (m.pos s) (m.vel s) 0 (v s) 0).1) _ _ ts' f' hls hbs (by simpa using hd)
                hF' hf' ha' hY' hYF' hrec
              refine ⟨by simp [g1], ((l.seg.pose (m.pos t)).invTwist w + d • l.seg.unit 0) :: Ws, by simp [g2],
                by simp [g3], ?_, ?_⟩
              · intro i W hi
                cases i with
                | zero =>
                  simp only [List.getElem?_cons_zero, Option.some.injEq] at hi
                  subst hi
                  simpa [advance, Chain.poses, hn] using hY'
                | succ i =>
                  simp only [List.getElem?_cons_succ] at hi
                  simpa [advance, Chain.poses, hn] using g4 i W hi
              · rw [hS, power_frame]
                simp only [List.zipWith_cons_cons, List.sum_cons]
                have hb0 := body_work hlb hF' hf' ha' hY' hYF' g e
                have hsum : newtonWork ((l :: links).map (·.seg)) (b :: bs) g (fun s => (m :: ms).map (·.pos s))
                    (advance ((m :: ms).map (·.pos t)) (d :: δ)) F Y t =
                    newtonWork (links.map (·.seg)) bs g (fun s => ms.map (·.pos s))
                      (advance (ms.map (·.pos t)) δ) (fun u => F u * l.seg.pose (m.pos u))
                      (fun ε => Y ε * l.seg.pose (m.pos t + ε * d)) t +
                    (b.map fun p => p.mass * dot (Vec3.rate (Vec3.rate fun s => (F s * l.seg.pose (m.pos s)).act p.place) t - g)
                      (Vec3.rate (fun ε => (Y ε * l.seg.pose (m.pos t + ε * d)).act p.place) 0)).sum := by
                  unfold newtonWork
                  rw [List.length_cons, Finset.sum_range_succ']
                  simp only [List.map_cons, advance, List.zipWith_cons_cons, placeAt_zero _ _ _ _ _ hn,
                    placeAt_succ _ _ _ _ _ _ hn, List.getD_cons_succ, List.getD_cons_zero]
                rw [List.map_cons] at hsum
                rw [List.map_cons, hsum]
                have hp : (l.seg.unit 0).power (Link.force l.inertia (Link.sweep l.seg (m.pos t) (m.vel t) 0 (v t) 0).1
                    ((Link.sweep l.seg (m.pos t) (m.vel t) (m.acc t) (v t) a).2 +
                      ⟨-((F t * l.seg.pose (m.pos t)).M.transpose.mulVec g), 0⟩) e + f') * d +
                    ((l.seg.pose (m.pos t)).invTwist w).power (Link.force l.inertia (Link.sweep l.seg (m.pos t) (m.vel t) 0 (v t) 0).1
                    ((Link.sweep l.seg (m.pos t) (m.vel t) (m.acc t) (v t) a).2 +
                      ⟨-((F t * l.seg.pose (m.pos t)).M.transpose.mulVec g), 0⟩) e + f') =
                    ((l.seg.pose (m.pos t)).invTwist w + d • l.seg.unit 0).power (Link.force l.inertia (Link.sweep l.seg (m.pos t) (m.vel t) 0 (v t) 0).1
                    ((Link.sweep l.seg (m.pos t) (m.vel t) (m.acc t) (v t) a).2 +
                      ⟨-((F t * l.seg.pose (m.pos t)).M.transpose.mulVec g), 0⟩) e) +
                    ((l.seg.pose (m.pos t)).invTwist w + d • l.seg.unit 0).power f' := by
                  rw [← power_add]
                  generalize Link.force _ _ _ _ + f' = W
                  simp only [Twist.power, Twist.add_vel, Twist.add_rot, Twist.smul_vel, Twist.smul_rot, dot_add_left, dot_smul_left]
                  ring
                linarith
      · simp only [rneLoop, if_neg hn] at h
        have hc0 : ∀ s : ℝ, HasDerivAt (fun _ : ℝ => (0 : ℝ)) 0 s := fun s => hasDerivAt_const s 0
        have hF' : ∀ s, Frame.BodyMoves (fun u => F u * l.seg.pose 0) (Link.sweep l.seg 0 0 0 (v s) 0).1 s := fun s =>
          sweep_moves hl (hc0 s) (hF s) (hf s)
        have hf' : ∀ s, (F s * l.seg.pose 0).IsRigid := fun s => (hf s).mul (hl.pose_rigid _)
        have ha' := sweep_rate hl (q := fun _ => 0) (qd := fun _ => 0) (hc0 t) (hc0 t) ha
        have hY' : Frame.BodyMoves (fun ε => Y ε * l.seg.pose 0) ((l.seg.pose 0).invTwist w) 0 := by
          have := hY.mul (hl.moves (hc0 0)) (by rw [hYF]; exact hf t) (hl.pose_rigid _)
          refine Frame.MovesWith.congr this ?_
          ext <;> simp [Twist.rotate]
        have hYF' : (fun ε => Y ε * l.seg.pose 0) 0 = F t * l.seg.pose 0 := by simp [hYF]
        rw [sweep_gravity] at h
        have e1 : (Link.sweep l.seg 0 0 0 (v t) (a + ⟨-((F t).M.transpose.mulVec g), 0⟩)).1 =
            (Link.sweep l.seg 0 0 0 (v t) 0).1 := rfl
        rw [e1] at h
        cases hrec : rneLoop links (ms.map (·.pos t)) (ms.map (·.vel t)) (ms.map (·.acc t)) es
            (Link.sweep l.seg 0 0 0 (v t) 0).1
            ((Link.sweep l.seg 0 0 0 (v t) a).2 + ⟨-((F t * l.seg.pose 0).M.transpose.mulVec g), 0⟩) with
        | none => rw [hrec] at h; simp at h
        | some r =>
          obtain ⟨ts', f'⟩ := r
          rw [hrec] at h
          simp only [Option.bind_eq_bind, Option.bind_some, Option.pure_def, Option.some.injEq, Prod.mk.injEq] at h
          obtain ⟨rfl, rfl⟩ := h
          obtain ⟨g1, Ws, g2, g3, g4, g5⟩ := ih bs ms δ es (fun u => F u * l.seg.pose 0)
            (fun ε => Y ε * l.seg.pose 0) (fun s => (Link.sweep l.seg 0 0 0 (v s) 0).1) _ _ ts' f' hls hbs hd
            hF' hf' ha' hY' hYF' hrec
          refine ⟨g1, ((l.seg.pose 0).invTwist w) :: Ws, by simp [g2], by simp [g3], ?_, ?_⟩
          · intro i W hi
            cases i with
            | zero =>
              simp only [List.getElem?_cons_zero, Option.some.injEq] at hi
              subst hi
              simpa [Chain.poses, hn] using hY'
            | succ i =>
              simp only [List.getElem?_cons_succ] at hi
              simpa [Chain.poses, hn] using g4 i W hi
          · rw [power_frame]
            simp only [List.zipWith_cons_cons, List.sum_cons]
            have hb0 := body_work hlb hF' hf' ha' hY' hYF' g e
            have hsum : newtonWork ((l :: links).map (·.seg)) (b :: bs) g (fun s => ms.map (·.pos s))
                (advance (ms.map (·.pos t)) δ) F Y t =
                newtonWork (links.map (·.seg)) bs g (fun s => ms.map (·.pos s))
                  (advance (ms.map (·.pos t)) δ) (fun u => F u * l.seg.pose 0) (fun ε => Y ε * l.seg.pose 0) t +
                (b.map fun p => p.mass * dot (Vec3.rate (Vec3.rate fun s => (F s * l.seg.pose 0).act p.place) t - g)
                  (Vec3.rate (fun ε => (Y ε * l.seg.pose 0).act p.place) 0)).sum := by
              unfold newtonWork
              rw [List.length_cons, Finset.sum_range_succ']
              simp only [List.map_cons, placeAt_zero_fixed _ _ _ _ hn,
                placeAt_succ_fixed _ _ _ _ _ hn, List.getD_cons_succ, List.getD_cons_zero]
            rw [hsum, power_add]
            linarith

end KD
