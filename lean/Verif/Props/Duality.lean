import Verif.Props.Lever

/-!
# C108: velocities and torques of the chain solver agree

The force on the tip does the work that the joints do against it: the joint speeds of differential inverse
kinematics and the torques of inverse dynamics belong to the same robot.
-/

namespace KD

open Vec3 KdlVectorConverter KdlSolver

namespace DynSolver

/-! ### Specification -/

/-- The power of a force and moment on a body that moves so, all as vectors of six numbers. -/
def tipPower (F xdot : List ℝ) : ℝ := (List.zipWith (· * ·) F xdot).sum

/-- The velocity of the tip that is asked for, in base axes. -/
def Wanted (c : Chain) (qr xdot : List ℝ) (x : Twist) : SolverFrame → Prop
  | .base => x = vectorToTwist xdot
  | .tcp => ∃ f, c.fk qr = some f ∧ x = Twist.rotate f.M (vectorToTwist xdot)
  | .other => False

/-! ### Helpers -/

/-- A joint that is here, moves so fast and is accelerated so, at the instant zero. -/
noncomputable def moving (q v a : ℝ) : JointMotion where
  pos t := q + (v * t + a * (t ^ 2 / 2))
  vel t := v + a * t
  acc _ := a
  pos_rate t := by
    refine ((((hasDerivAt_id t).const_mul v).add (((hasDerivAt_pow 2 t).div_const 2).const_mul a)).const_add q).congr_deriv ?_
    push_cast
    simp
  vel_rate t := by simpa using ((hasDerivAt_id t).const_mul a).const_add v

theorem exists_motion : ∀ (q v a : List ℝ), v.length = q.length → a.length = q.length →
    ∃ ms : List JointMotion, ms.map (·.pos 0) = q ∧ ms.map (·.vel 0) = v ∧ ms.map (·.acc 0) = a
  | [], [], [], _, _ => ⟨[], rfl, rfl, rfl⟩
  | x :: q, y :: v, z :: a, h, h' => by
    obtain ⟨ms, h1, h2, h3⟩ := exists_motion q v a (by simpa using h) (by simpa using h')
    exact ⟨moving x y z :: ms, by simp [h1, moving], by simp [h2, moving], by simp [h3, moving]⟩
  | _ :: _, [], _, h, _ => by simp at h
  | [], _ :: _, _, h, _ => by simp at h
  | _ :: _, _, [], _, h => by simp at h
  | [], _, _ :: _, _, h => by simp at h

theorem trimmed {s : DynSolver} {q qd qdd F : List ℝ} {fr : SolverFrame} {τ : List ℝ}
    (h : s.invDyn q qd qdd F fr = some (some τ)) :
    ∃ ms : List JointMotion, ms.length = s.chain.nJoints ∧
      ms.map (·.pos 0) = (q.take s.chain.nJoints).map (· * deg2rad) ∧ s.links ≠ [] ∧
      ∀ F', s.invDyn (ms.map fun m => m.pos 0 * rad2deg) (ms.map fun m => m.vel 0 * rad2deg)
        (ms.map fun m => m.acc 0 * rad2deg) F' fr = s.invDyn q qd qdd F' fr := by
  obtain ⟨h1, h2, h3, h4, -⟩ := invDyn_iff.mp h
  have l : ∀ a : List ℝ, s.chain.nJoints ≤ a.length →
      ((a.take s.chain.nJoints).map (· * deg2rad)).length = s.chain.nJoints := fun a ha => by simp [ha]
  obtain ⟨ms, m1, m2, m3⟩ := exists_motion ((q.take s.chain.nJoints).map (· * deg2rad))
    ((qd.take s.chain.nJoints).map (· * deg2rad)) ((qdd.take s.chain.nJoints).map (· * deg2rad))
    ((l qd h2).trans (l q h1).symm) ((l qdd h3).trans (l q h1).symm)
  have hlen : ms.length = s.chain.nJoints := by
    have := congrArg List.length m1
    rw [l q h1] at this
    simpa using this
  have t : ∀ (f : JointMotion → ℝ) (a : List ℝ), s.chain.nJoints ≤ a.length →
      ms.map f = (a.take s.chain.nJoints).map (· * deg2rad) →
      toRadians s.chain.nJoints (ms.map fun m => f m * rad2deg) = toRadians s.chain.nJoints a := by
    intro f a ha e
    have e' : (ms.map fun m => f m * rad2deg) = (ms.map f).map (· * rad2deg) := by simp [Function.comp_def]
    rw [e', radians_back _ (by simpa using hlen), e, toRadians_some ha]
  refine ⟨ms, hlen, m1, h4, fun F' => ?_⟩
  unfold invDyn
  dsimp only
  rw [t _ q h1 m1, t _ qd h2 m2, t _ qdd h3 m3]

/-! ### C108 -/

/-- C108: the torques that a force on the tip takes. At any joints, speeds and accelerations, the additional torques
for a force and moment on the tip, in base axes, do along any joint speeds the opposite of the power of the
force and moment on the tip, moving as the Jacobian tells. -/
theorem C108_jacobian_base {s : DynSolver} {bodies : List (List MassPoint)} (hs : s.Describes bodies)
    {q qdot qdotdot τ₀ τ : List ℝ} {force moment : Vec3}
    (h₀ : s.invDyn q qdot qdotdot [0, 0, 0, 0, 0, 0] .base = some (some τ₀))
    (h : s.invDyn q qdot qdotdot [force.x, force.y, force.z, moment.x, moment.y, moment.z] .base = some (some τ))
    {cols : List Twist} (hj : s.chain.jacobian ((q.take s.chain.nJoints).map (· * deg2rad)) = some cols)
    {v : List ℝ} (hv : v.length = s.chain.nJoints) :
    powerOf τ v - powerOf τ₀ v = -(dot (Twist.combine v cols).vel force + dot (Twist.combine v cols).rot moment) := by
  obtain ⟨ms, m1, m2, hne, m3⟩ := trimmed h
  obtain ⟨σ, a1, a2, a3⟩ := C74_newton_base hs hne ms m1 0 force.x force.y force.z moment.x moment.y moment.z
  obtain ⟨σ₀, b1, b2, b3⟩ := C74_newton_base hs hne ms m1 0 0 0 0 0 0 0
  rw [m3] at a1 b1
  obtain rfl : τ = σ := Option.some.inj (Option.some.inj (h.symm.trans a1))
  obtain rfl : τ₀ = σ₀ := Option.some.inj (Option.some.inj (h₀.symm.trans b1))
  obtain ⟨tip, W, c1, c2, c3⟩ := a3 v (hv.trans m1.symm)
  obtain ⟨tip', W', d1, d2, d3⟩ := b3 v (hv.trans m1.symm)
  rw [m2] at c1 d1
  obtain ⟨G, g1, g2, g3⟩ := Chain.jacobian_moves hs.wf (qd := v) (by rw [hv, ← m2, List.length_map, m1]) hj
  have e : tip = G := funext fun ε => Option.some.inj ((c1 ε).symm.trans (g1 ε))
  rw [e] at c2
  rw [moves_unique c2 g3 g2] at c3
  unfold powerOf
  rw [c3, d3]
  simp [dot]

/-- C108: the same with the force and moment in the axes of the tip. -/
theorem C108_jacobian_tcp {s : DynSolver} {bodies : List (List MassPoint)} (hs : s.Describes bodies)
    {q qdot qdotdot τ₀ τ : List ℝ} {force moment : Vec3}
    (h₀ : s.invDyn q qdot qdotdot [0, 0, 0, 0, 0, 0] .tcp = some (some τ₀))
    (h : s.invDyn q qdot qdotdot [force.x, force.y, force.z, moment.x, moment.y, moment.z] .tcp = some (some τ))
    {cols : List Twist} (hj : s.chain.jacobian ((q.take s.chain.nJoints).map (· * deg2rad)) = some cols)
    {f : Frame} (hf : s.chain.fk ((q.take s.chain.nJoints).map (· * deg2rad)) = some f)
    {v : List ℝ} (hv : v.length = s.chain.nJoints) :
    f.M.IsRot ∧ powerOf τ v - powerOf τ₀ v =
      -(dot (Twist.combine v cols).vel (f.M.mulVec force) + dot (Twist.combine v cols).rot (f.M.mulVec moment)) := by
  obtain ⟨ms, m1, m2, hne, m3⟩ := trimmed h
  obtain ⟨σ, a1, a2, a3⟩ := C74_newton_tcp hs hne ms m1 0 force.x force.y force.z moment.x moment.y moment.z
  obtain ⟨σ₀, b1, b2, b3⟩ := C74_newton_tcp hs hne ms m1 0 0 0 0 0 0 0
  rw [m3] at a1 b1
  obtain rfl : τ = σ := Option.some.inj (Option.some.inj (h.symm.trans a1))
  obtain rfl : τ₀ = σ₀ := Option.some.inj (Option.some.inj (h₀.symm.trans b1))
  obtain ⟨tip, W, c1, c2, c3⟩ := a3 v (hv.trans m1.symm)
  obtain ⟨tip', W', d1, d2, d3⟩ := b3 v (hv.trans m1.symm)
  rw [m2] at c1 d1
  have hl : v.length = ((q.take s.chain.nJoints).map (· * deg2rad)).length := by rw [hv, ← m2, List.length_map, m1]
  obtain ⟨G, g1, g2, g3⟩ := Chain.jacobian_moves hs.wf (qd := v) hl hj
  have e : tip = G := funext fun ε => Option.some.inj ((c1 ε).symm.trans (g1 ε))
  have e0 := g1 0
  rw [advance_zero _ _ hl, hf] at e0
  have ef : f = G 0 := Option.some.inj e0
  rw [e] at c2 c3
  rw [moves_unique c2 g3 g2, ← ef] at c3
  refine ⟨by rw [ef]; exact g2, ?_⟩
  unfold powerOf
  rw [c3, d3]
  simp [dot, Mat3.mulVec]

/-- C108: with the joint speeds that differential inverse kinematics answers. If the velocity solver finds speeds for
the wanted velocity of the tip, the additional torques for a force on the tip do, at these speeds, the opposite of
the power of that force at that velocity; both in base axes, or both in the axes of the tip. -/
theorem C108_diffInvKin {s : DynSolver} {bodies : List (List MassPoint)} (hs : s.Describes bodies) (ik : VelSolver)
    {k : KdlSolver} (hk : k.chain = s.chain) {q qdot qdotdot τ₀ τ xdot F speeds : List ℝ} {fr : SolverFrame}
    (hx : xdot.length = 6) (hF : F.length = 6)
    (h₀ : s.invDyn q qdot qdotdot [0, 0, 0, 0, 0, 0] fr = some (some τ₀))
    (h : s.invDyn q qdot qdotdot F fr = some (some τ))
    (hd : k.diffInvKin ik q xdot fr = some (some speeds))
    (hik : ∀ x, Wanted s.chain ((q.take s.chain.nJoints).map (· * deg2rad)) xdot x fr →
      ∀ ret v cols, ik s.chain ((q.take s.chain.nJoints).map (· * deg2rad)) x = (ret, v) → 0 ≤ ret →
        s.chain.jacobian ((q.take s.chain.nJoints).map (· * deg2rad)) = some cols →
        v.length = s.chain.nJoints ∧ Twist.combine v cols = x) :
    powerOf τ (speeds.map (· * deg2rad)) - powerOf τ₀ (speeds.map (· * deg2rad)) = - tipPower F xdot := by
  rcases F with _ | ⟨a1, _ | ⟨a2, _ | ⟨a3, _ | ⟨a4, _ | ⟨a5, _ | ⟨a6, _ | ⟨a7, F⟩⟩⟩⟩⟩⟩⟩ <;> simp at hF
  rcases xdot with _ | ⟨b1, _ | ⟨b2, _ | ⟨b3, _ | ⟨b4, _ | ⟨b5, _ | ⟨b6, _ | ⟨b7, xdot⟩⟩⟩⟩⟩⟩⟩ <;> simp at hx
  obtain ⟨h1, -⟩ := invDyn_iff.mp h
  have hn : k.numJoints = s.chain.nJoints := by rw [← hk]; rfl
  have hl : ((q.take s.chain.nJoints).map (· * deg2rad)).length = s.chain.nJoints := by simp [h1]
  obtain ⟨cols, hj⟩ : ∃ cols, s.chain.jacobian ((q.take s.chain.nJoints).map (· * deg2rad)) = some cols := by
    have := KdlSolver.exists_jacobian k q (by rw [hn]; exact h1)
    rwa [hn, hk] at this
  have hback : ∀ v : List ℝ, (v.map (· * rad2deg)).map (· * deg2rad) = v := fun v => back_to_radians v
  unfold diffInvKin at hd
  rw [hn, toRadians_some h1, hk] at hd
  simp only [Option.bind_eq_bind, Option.bind_some] at hd
  cases fr with
  | other => simp at hd
  | base =>
    simp only [Option.pure_def, Option.some.injEq] at hd
    generalize hr : ik s.chain ((q.take s.chain.nJoints).map (· * deg2rad)) (vectorToTwist [b1, b2, b3, b4, b5, b6]) = r at hd
    obtain ⟨ret, v⟩ := r
    simp only at hd
    split_ifs at hd with hneg
    obtain rfl := Option.some.inj hd
    obtain ⟨g1, g2⟩ := hik _ rfl ret v cols hr (not_lt.mp hneg) hj
    rw [hback, C108_jacobian_base (force := ⟨a1, a2, a3⟩) (moment := ⟨a4, a5, a6⟩) hs h₀ h hj g1, g2]
    simp [tipPower, vectorToTwist, dot]
    ring
  | tcp =>
    obtain ⟨f, hf⟩ := Chain.exists_fk hl
    simp only [hf, Option.bind_some, Option.pure_def, Option.some.injEq] at hd
    generalize hr : ik s.chain ((q.take s.chain.nJoints).map (· * deg2rad))
      (Twist.rotate f.M (vectorToTwist [b1, b2, b3, b4, b5, b6])) = r at hd
    obtain ⟨ret, v⟩ := r
    simp only at hd
    split_ifs at hd with hneg
    obtain rfl := Option.some.inj hd
    obtain ⟨g1, g2⟩ := hik _ ⟨f, hf, rfl⟩ ret v cols hr (not_lt.mp hneg) hj
    obtain ⟨k1, k2⟩ := C108_jacobian_tcp (force := ⟨a1, a2, a3⟩) (moment := ⟨a4, a5, a6⟩) hs h₀ h hj hf g1
    rw [hback, k2, g2]
    simp only [Twist.rotate, k1.dot]
    simp [tipPower, vectorToTwist, dot]
    ring

/-- A crank of one meter with two kilograms on its tip, that turns about the vertical. -/
noncomputable def loadedCrank : DynSolver where
  links := [⟨Segment.make ⟨.rotZ, 1, 0, 0, 0⟩ (Frame.trans ⟨1, 0, 0⟩), Inertia.make 2 0 0⟩]
  original := [⟨Segment.make ⟨.rotZ, 1, 0, 0, 0⟩ (Frame.trans ⟨1, 0, 0⟩), Inertia.make 2 0 0⟩]
  gravity := ⟨0, 0, -9.81⟩

theorem loadedCrank_describes : loadedCrank.Describes [[⟨2, 0⟩]] := by
  constructor
  · intro l hl
    rw [List.mem_singleton.mp hl]
    refine ⟨fun h => (by cases h), ?_⟩
    refine Frame.IsRigid.mul (Frame.IsRigid.inv ?_) (Frame.isRigid_trans _)
    exact Joint.Unit.pose_rigid (fun h => by cases h) 0
  · refine List.Forall₂.cons ⟨?_, ?_, fun w => ?_⟩ List.Forall₂.nil
    · simp [Inertia.make]
    · ext <;> simp [Inertia.make]
    · ext <;> simp [Inertia.make, dot]

/-- Five newtons against it and two meters per second: a torque of five newton meters, at two radians per second. -/
example : loadedCrank.invDyn [0] [0] [0] [0, 5, 0, 0, 0, 0] .base = some (some [-5]) ∧
    loadedCrank.invDyn [0] [0] [0] [0, 0, 0, 0, 0, 0] .base = some (some [0]) ∧
    (KdlSolver.mk loadedCrank.chain loadedCrank.chain).diffInvKin (fun _ _ _ => (0, [2])) [0] [0, 2, 0, 0, 0, 2] .base =
      some (some [2 * rad2deg]) ∧
    loadedCrank.chain.jacobian (([0].take loadedCrank.chain.nJoints).map (· * deg2rad)) = some [⟨⟨0, 1, 0⟩, ⟨0, 0, 1⟩⟩] ∧
    Twist.combine [2] [⟨⟨0, 1, 0⟩, ⟨0, 0, 1⟩⟩] = vectorToTwist [0, 2, 0, 0, 0, 2] := by
  have hj : loadedCrank.chain.nJoints = 1 := rfl
  refine ⟨?_, ?_, ?_, ?_, ?_⟩
  · unfold invDyn
    rw [hj]
    simp [toRadians, rne, rneLoop, loadedCrank, Segment.make, Link.sweep, Link.force, Joint.pose, Inertia.make,
      Segment.pose, Segment.twist, Joint.twist, Twist.rotate, Twist.refPoint, Frame.invTwist, Frame.mulWrench,
      Inertia.mul, Twist.crossTwist, Twist.crossWrench, Twist.power, dot, Mat3.rotZ, Mat3.transpose, Frame.inv,
      cross, wrenches, vectorToWrench, Wrench.rotate, chain, Chain.fk, Chain.fkLoop, Frame.trans]
  · unfold invDyn
    rw [hj]
    simp [toRadians, rne, rneLoop, loadedCrank, Segment.make, Link.sweep, Link.force, Joint.pose, Inertia.make,
      Segment.pose, Segment.twist, Joint.twist, Twist.rotate, Twist.refPoint, Frame.invTwist, Frame.mulWrench,
      Inertia.mul, Twist.crossTwist, Twist.crossWrench, Twist.power, dot, Mat3.rotZ, Mat3.transpose, Frame.inv,
      cross, wrenches, vectorToWrench, Wrench.rotate, chain, Chain.fk, Chain.fkLoop, Frame.trans]
  · have hn : (KdlSolver.mk loadedCrank.chain loadedCrank.chain).numJoints = 1 := rfl
    unfold diffInvKin
    rw [hn]
    simp [toRadians]
  · rw [hj]
    simp [chain, loadedCrank, Chain.jacobian, Chain.jacLoop, Segment.make, Joint.pose, Segment.pose, Segment.twist,
      Joint.twist, Twist.rotate, Twist.refPoint, Frame.inv, cross, Mat3.rotZ, Mat3.transpose, Frame.trans]
  · simp only [Twist.combine, vectorToTwist]
    ext <;> simp

end DynSolver
end KD
