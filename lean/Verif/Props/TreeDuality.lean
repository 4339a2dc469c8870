import Verif.Props.Duality
import Verif.Props.TreeTorques

/-!
# C111: the torques that forces on the TCPs of a tree take

As C108 for the chain solver: along any joint speeds, the additional torques do the opposite of the power of the
additional forces and moments, each on its own TCP.
-/

namespace KD

open Vec3 KdlVectorConverter KdlSolver
open DynSolver (powerOf)

namespace TreeDynSolver

/-! ### Helpers -/

theorem trimmed {s : TreeDynSolver} {q qd qdd F : List ℝ} {fr : SolverFrame} {τ : List ℝ}
    (h : s.invDyn q qd qdd F fr = some (some τ)) :
    ∃ ms : List JointMotion, ms.length = s.tree.nJoints ∧
      ms.map (·.pos 0) = (q.take s.tree.nJoints).map (· * deg2rad) ∧
      ∀ F', s.invDyn (ms.map fun m => m.pos 0 * rad2deg) (ms.map fun m => m.vel 0 * rad2deg)
        (ms.map fun m => m.acc 0 * rad2deg) F' fr = s.invDyn q qd qdd F' fr := by
  obtain ⟨h1, h2, h3, -⟩ := invDyn_iff.mp h
  have l : ∀ a : List ℝ, s.tree.nJoints ≤ a.length →
      ((a.take s.tree.nJoints).map (· * deg2rad)).length = s.tree.nJoints := fun a ha => by simp [ha]
  obtain ⟨ms, m1, m2, m3⟩ := DynSolver.exists_motion ((q.take s.tree.nJoints).map (· * deg2rad))
    ((qd.take s.tree.nJoints).map (· * deg2rad)) ((qdd.take s.tree.nJoints).map (· * deg2rad))
    ((l qd h2).trans (l q h1).symm) ((l qdd h3).trans (l q h1).symm)
  have hlen : ms.length = s.tree.nJoints := by
    have := congrArg List.length m1
    rw [l q h1] at this
    simpa using this
  have t : ∀ (f : JointMotion → ℝ) (a : List ℝ), s.tree.nJoints ≤ a.length →
      ms.map f = (a.take s.tree.nJoints).map (· * deg2rad) →
      toRadians s.tree.nJoints (ms.map fun m => f m * rad2deg) = toRadians s.tree.nJoints a := by
    intro f a ha e
    have e' : (ms.map fun m => f m * rad2deg) = (ms.map f).map (· * rad2deg) := by simp [Function.comp_def]
    rw [e', DynSolver.radians_back _ (by simpa using hlen), e, toRadians_some ha]
  refine ⟨ms, hlen, m1, fun F' => ?_⟩
  unfold invDyn
  dsimp only
  rw [t _ q h1 m1, t _ qd h2 m2, t _ qdd h3 m3]

theorem tip_rigid {s : TreeDynSolver} {bodies : String → List MassPoint} (hs : s.Describes bodies) (ht : s.TcpsFit)
    {qr v : List ℝ} (hq : qr.length = s.tree.nJoints) (hv : v.length = s.tree.nJoints) {e : String}
    (he : e ∈ s.tcps.endpoints) {ε : ℝ} {f : Frame} (h : s.tree.fk (advance qr v ε) e = some f) : f.IsRigid := by
  rw [hs.fk (by rw [DynSolver.advance_length _ _ (by rw [hq, hv])]; exact hq) (ht.segments e he)] at h
  rw [← Option.some.inj h]
  exact Tree.place_rigid hs.proper hs.built.proper _ _

theorem sum_less (a : ℝ) (es : List String) (f g k : String → ℝ) (h : ∀ e ∈ es, k e = f e - g e) :
    a - (es.map f).sum - (a - (es.map g).sum) = -(es.map k).sum := by
  induction es generalizing a with
  | nil => simp
  | cons e es ih =>
    have := ih a fun x hx => h x (by simp [hx])
    have := h e (by simp)
    simp only [List.map_cons, List.sum_cons]
    linarith

/-! ### C111 -/

/-- C111: two sets of forces and moments on the TCPs, in base axes, at the same joints, speeds and accelerations. Along
any joint speeds, the torques differ in power by the opposite of the power of what the second set adds to the first
one, every force on its own TCP, moving as forward kinematics tells. -/
theorem C111_forces_base {s : TreeDynSolver} {bodies : String → List MassPoint} (hs : s.Describes bodies) (ht : s.TcpsFit)
    {q qdot qdotdot F F' τ τ' : List ℝ}
    (hF : KdlTreeSolver.unmerged s.tcps s.tcps.endpoints * 6 ≤ F.length)
    (hF' : KdlTreeSolver.unmerged s.tcps s.tcps.endpoints * 6 ≤ F'.length)
    (h : s.invDyn q qdot qdotdot F .base = some (some τ)) (h' : s.invDyn q qdot qdotdot F' .base = some (some τ')) :
    ∃ load load', s.Loads F load ∧ s.Loads F' load' ∧ ∀ v : List ℝ, v.length = s.tree.nJoints →
      ∃ (tip : String → ℝ → Frame) (W : String → Twist),
        (∀ e ∈ s.tcps.endpoints,
          (∀ ε, s.tree.fk (advance ((q.take s.tree.nJoints).map (· * deg2rad)) v ε) e = some (tip e ε)) ∧
          Frame.MovesWith (tip e) (W e) 0) ∧
        powerOf τ' v - powerOf τ v = -(s.tcps.endpoints.map fun e =>
          dot (W e).vel ((load' e).force - (load e).force) + dot (W e).rot ((load' e).torque - (load e).torque)).sum := by
  obtain ⟨ms, m1, m2, m3⟩ := trimmed h
  obtain ⟨σ, load, a1, -, a2, a3⟩ := C80_newton_base hs ht ms m1 0 F hF
  obtain ⟨σ', load', b1, -, b2, b3⟩ := C80_newton_base hs ht ms m1 0 F' hF'
  rw [m3] at a1 b1
  obtain rfl : τ = σ := Option.some.inj (Option.some.inj (h.symm.trans a1))
  obtain rfl : τ' = σ' := Option.some.inj (Option.some.inj (h'.symm.trans b1))
  refine ⟨load, load', a2, b2, fun v hv => ?_⟩
  obtain ⟨tip, W, c1, c2⟩ := a3 v hv
  obtain ⟨tip', W', d1, d2⟩ := b3 v hv
  rw [m2] at c1 d1
  refine ⟨tip', W', d1, ?_⟩
  unfold powerOf
  rw [c2, d2]
  refine sum_less _ _ _ _ _ fun e he => ?_
  have et : tip e = tip' e := funext fun ε => Option.some.inj (((c1 e he).1 ε).symm.trans ((d1 e he).1 ε))
  have hr : (tip' e 0).IsRigid := tip_rigid hs ht (by rw [← m2, List.length_map, m1]) hv he ((d1 e he).1 0)
  have c := (c1 e he).2
  rw [et] at c
  rw [DynSolver.moves_unique c (d1 e he).2 hr]
  simp only [dot, Vec3.sub_x, Vec3.sub_y, Vec3.sub_z]
  ring

/-- C111: the same with forces and moments written in the axes of the TCPs. -/
theorem C111_forces_tcp {s : TreeDynSolver} {bodies : String → List MassPoint} (hs : s.Describes bodies) (ht : s.TcpsFit)
    {q qdot qdotdot F F' τ τ' : List ℝ}
    (hF : KdlTreeSolver.unmerged s.tcps s.tcps.endpoints * 6 ≤ F.length)
    (hF' : KdlTreeSolver.unmerged s.tcps s.tcps.endpoints * 6 ≤ F'.length)
    (h : s.invDyn q qdot qdotdot F .tcp = some (some τ)) (h' : s.invDyn q qdot qdotdot F' .tcp = some (some τ')) :
    ∃ load load', s.Loads F load ∧ s.Loads F' load' ∧ ∀ v : List ℝ, v.length = s.tree.nJoints →
      ∃ (tip : String → ℝ → Frame) (W : String → Twist),
        (∀ e ∈ s.tcps.endpoints,
          (∀ ε, s.tree.fk (advance ((q.take s.tree.nJoints).map (· * deg2rad)) v ε) e = some (tip e ε)) ∧
          Frame.MovesWith (tip e) (W e) 0 ∧ (tip e 0).M.IsRot) ∧
        powerOf τ' v - powerOf τ v = -(s.tcps.endpoints.map fun e =>
          dot (W e).vel ((tip e 0).M.mulVec ((load' e).force - (load e).force)) +
          dot (W e).rot ((tip e 0).M.mulVec ((load' e).torque - (load e).torque))).sum := by
  obtain ⟨ms, m1, m2, m3⟩ := trimmed h
  obtain ⟨σ, load, a1, -, a2, a3⟩ := C80_newton_tcp hs ht ms m1 0 F hF
  obtain ⟨σ', load', b1, -, b2, b3⟩ := C80_newton_tcp hs ht ms m1 0 F' hF'
  rw [m3] at a1 b1
  obtain rfl : τ = σ := Option.some.inj (Option.some.inj (h.symm.trans a1))
  obtain rfl : τ' = σ' := Option.some.inj (Option.some.inj (h'.symm.trans b1))
  refine ⟨load, load', a2, b2, fun v hv => ?_⟩
  obtain ⟨tip, W, c1, c2⟩ := a3 v hv
  obtain ⟨tip', W', d1, d2⟩ := b3 v hv
  rw [m2] at c1 d1
  have hr : ∀ e ∈ s.tcps.endpoints, (tip' e 0).IsRigid := fun e he =>
    tip_rigid hs ht (by rw [← m2, List.length_map, m1]) hv he ((d1 e he).1 0)
  refine ⟨tip', W', fun e he => ⟨(d1 e he).1, (d1 e he).2, hr e he⟩, ?_⟩
  unfold powerOf
  rw [c2, d2]
  refine sum_less _ _ _ _ _ fun e he => ?_
  have et : tip e = tip' e := funext fun ε => Option.some.inj (((c1 e he).1 ε).symm.trans ((d1 e he).1 ε))
  have c := (c1 e he).2
  rw [et] at c ⊢
  rw [DynSolver.moves_unique c (d1 e he).2 (hr e he)]
  simp [dot, Mat3.mulVec]
  ring

theorem pendulums_fit : pendulums.TcpsFit := by
  refine ⟨by simp [pendulums], ?_, ?_⟩
  · intro e he
    simp [pendulums, segments] at he ⊢
    tauto
  · intro j e o _ h
    simp [pendulums] at h

theorem pendulums_moments (x y : ℝ) :
    pendulums.invDyn [0, 0] [0, 0] [0, 0] [0, 0, 0, 0, x, 0, 0, 0, 0, 0, y, 0] .tcp =
      some (some [-20 - x, -30 - y]) := by
  have hj : pendulums.tree.nJoints = 2 := rfl
  unfold invDyn
  rw [hj]
  simp [toRadians, Tree.rne, Tree.collect, Tree.sweep, Tree.jointValue, pendulums, Segment.make, Link.sweep, Link.force,
    Joint.pose, Inertia.make, Segment.pose, Segment.twist, Joint.twist, Twist.rotate, Twist.refPoint, Frame.invTwist,
    Inertia.mul, Twist.crossTwist, Twist.crossWrench, Twist.power, dot, Mat3.rotY, Mat3.transpose, Frame.inv,
    cross, List.range, List.range.loop, KdlTreeSolver.fill, KdlTreeSolver.block, vectorToWrench]
  constructor <;> norm_num

/-- Moments of 5 and 7 newton meters about the axes of the two pendulums of C80 take 5 and 7 newton meters off the
torques, and meet the hypotheses. -/
example : ∃ load load', pendulums.Loads [0, 0, 0, 0, 0, 0, 0, 0, 0, 0, 0, 0] load ∧
    pendulums.Loads [0, 0, 0, 0, 5, 0, 0, 0, 0, 0, 7, 0] load' ∧ ∀ v : List ℝ, v.length = 2 →
      ∃ (tip : String → ℝ → Frame) (W : String → Twist),
        (∀ e ∈ ["a", "b"],
          (∀ ε, pendulums.tree.fk (advance ((([0, 0] : List ℝ).take 2).map (· * deg2rad)) v ε) e = some (tip e ε)) ∧
          Frame.MovesWith (tip e) (W e) 0 ∧ (tip e 0).M.IsRot) ∧
        powerOf [-20 - 5, -30 - 7] v - powerOf [-20 - 0, -30 - 0] v = -(["a", "b"].map fun e =>
          dot (W e).vel ((tip e 0).M.mulVec ((load' e).force - (load e).force)) +
          dot (W e).rot ((tip e 0).M.mulVec ((load' e).torque - (load e).torque))).sum :=
  C111_forces_tcp pendulums_describe pendulums_fit (by simp [pendulums, KdlTreeSolver.unmerged])
    (by simp [pendulums, KdlTreeSolver.unmerged]) (pendulums_moments 0 0) (pendulums_moments 5 7)

end TreeDynSolver

end KD
