import Verif.Props.Torques

/-!
# C107: forces on the tip of a tool

A force and moment on the tip of a tool act on the hand with the lever of the tool.
-/

namespace KD

open Vec3 KdlVectorConverter KdlSolver

namespace DynSolver

/-! ### Specification -/

/-- Several tools, each on the tip of the one before. -/
noncomputable def withTools (s : DynSolver) (xs : List (List ℝ)) : DynSolver := xs.foldl appendLink s

/-- A force and its moment about one point, as a force and a moment about another one; `lever` goes from the new
point to the old one. -/
def moved (lever force moment : Vec3) : List ℝ :=
  [force.x, force.y, force.z, (moment + cross lever force).x, (moment + cross lever force).y,
    (moment + cross lever force).z]

/-! ### Helpers -/

theorem force_lever (l : Inertia) (v a : Twist) (e w : Wrench) (T : Frame) (v' a' : Twist) :
    Link.force l v a e + T.mulWrench (Link.force Inertia.zero v' a' w + 0) = Link.force l v a (e + T.mulWrench w) + 0 := by
  have hz : Link.force Inertia.zero v' a' w + 0 = ⟨-w.force, -w.torque⟩ := by
    ext <;> simp [Link.force, Inertia.zero, Inertia.mul, Twist.crossWrench]
  rw [hz]
  unfold Link.force
  generalize l.mul a + v.crossWrench (l.mul v) = K
  ext <;> simp [Frame.mulWrench] <;> ring

theorem rneLoop_lever (T : Frame) (l : Link) (e w : Wrench) (ls : List Link) :
    ∀ (qs qds qdds : List ℝ) (es : List Wrench) (v a : Twist), es.length = ls.length →
    rneLoop (ls ++ [l, ⟨Segment.make Joint.fixed T, Inertia.zero⟩]) qs qds qdds (es ++ [e, w]) v a =
      rneLoop (ls ++ [l]) qs qds qdds (es ++ [e + T.mulWrench w]) v a := by
  have hn : ¬ (Segment.make Joint.fixed T).joint.type ≠ .none := by simp [Segment.make, Joint.fixed]
  have hp : (Segment.make Joint.fixed T).pose 0 = T := by
    simp [Segment.make, Segment.pose, Joint.fixed, Joint.pose]
  induction ls with
  | nil =>
    intro qs qds qdds es v a he
    have e4 : es = [] := List.length_eq_zero_iff.mp he
    subst e4
    rw [List.nil_append, List.nil_append, List.nil_append, List.nil_append]
    by_cases hl : l.seg.joint.type ≠ .none
    · rcases qs with _ | ⟨q, qs⟩ <;> rcases qds with _ | ⟨qd, qds⟩ <;> rcases qdds with _ | ⟨qdd, qdds⟩ <;>
        simp only [rneLoop, if_pos hl, if_neg hn, hp]
      rcases qs with _ | ⟨q', qs⟩ <;> rcases qds with _ | ⟨qd', qds⟩ <;> rcases qdds with _ | ⟨qdd', qdds⟩ <;>
        simp only [rneLoop, Option.bind_eq_bind, Option.bind_some, Option.bind_none, Option.pure_def, force_lever]
    · rcases qs with _ | ⟨q, qs⟩ <;> rcases qds with _ | ⟨qd, qds⟩ <;> rcases qdds with _ | ⟨qdd, qdds⟩ <;>
        simp only [rneLoop, if_neg hl, if_neg hn, hp, Option.bind_eq_bind, Option.bind_some, Option.bind_none,
          Option.pure_def, force_lever]
  | cons m ls ih =>
    intro qs qds qdds es v a he
    obtain ⟨e', es, rfl⟩ := List.exists_cons_of_length_eq_add_one (he.trans (List.length_cons ..))
    have he' : es.length = ls.length := by simpa using he
    simp only [List.cons_append]
    by_cases hm : m.seg.joint.type ≠ .none
    · rcases qs with _ | ⟨q, qs⟩ <;> rcases qds with _ | ⟨qd, qds⟩ <;> rcases qdds with _ | ⟨qdd, qdds⟩ <;>
        simp only [rneLoop, if_pos hm, ih _ _ _ _ _ _ he']
    · simp only [rneLoop, if_neg hm, ih _ _ _ _ _ _ he']

theorem rne_lever {links : List Link} (hne : links ≠ []) (T : Frame) (w : Wrench) (g : Vec3) (qs qds qdds : List ℝ) :
    rne (links ++ [⟨Segment.make Joint.fixed T, Inertia.zero⟩]) g qs qds qdds (List.replicate links.length 0 ++ [w]) =
      rne links g qs qds qdds (List.replicate (links.length - 1) 0 ++ [T.mulWrench w]) := by
  obtain ⟨ls, l, rfl⟩ : ∃ ls l, links = ls ++ [l] :=
    ⟨links.dropLast, links.getLast hne, (List.dropLast_append_getLast hne).symm⟩
  have h := rneLoop_lever T l 0 w ls qs qds qdds (List.replicate ls.length 0) 0 ⟨-g, 0⟩ (by simp)
  have z : (0 : Wrench) + T.mulWrench w = T.mulWrench w := by ext <;> simp
  rw [z] at h
  unfold rne
  simp only [List.length_append, List.length_singleton, Nat.add_sub_cancel, List.replicate_succ', List.append_assoc,
    List.singleton_append] at h ⊢
  rw [h]

theorem tool_joints (s : DynSolver) (x : List ℝ) : (s.appendLink x).chain.nJoints = s.chain.nJoints := by
  unfold chain appendLink
  rw [List.map_append]
  exact Chain.nJoints_fixed _ _

theorem tool_fk (s : DynSolver) (x q : List ℝ) :
    (s.appendLink x).chain.fk q = (s.chain.fk q).map (· * vectorToFrame x) := by
  unfold chain appendLink
  rw [List.map_append]
  exact Chain.fk_fixed _ _ _

theorem vector_wrench (w : Wrench) : vectorToWrench (wrenchToVector w) = w := rfl

/-! ### C107 -/

/-- C107: with a tool and forces in the axes of its tip, the torques are those without the tool for the force that
acts on the hand through it. -/
theorem C107_tcp {s : DynSolver} (hne : s.links ≠ []) (x q qdot qdotdot : List ℝ) (force moment : Vec3) :
    (s.appendLink x).invDyn q qdot qdotdot [force.x, force.y, force.z, moment.x, moment.y, moment.z] .tcp =
      s.invDyn q qdot qdotdot (moved (vectorToFrame x).p ((vectorToFrame x).M.mulVec force)
        ((vectorToFrame x).M.mulVec moment)) .tcp := by
  have e1 : s.links.isEmpty = false := by simpa using hne
  have e2 : (s.appendLink x).links.isEmpty = false := by simp [appendLink]
  have e3 : (s.appendLink x).links.length - 1 = s.links.length := by simp [appendLink]
  unfold invDyn
  dsimp only
  rw [tool_joints]
  simp only [wrenches, e1, e2, e3, Bool.false_eq_true, if_false, Option.bind_eq_bind, Option.bind_some]
  have := fun a b c => rne_lever hne (vectorToFrame x) (vectorToWrench [force.x, force.y, force.z, moment.x, moment.y, moment.z])
    s.gravity a b c
  have hl : (s.appendLink x).links = s.links ++ [⟨Segment.make Joint.fixed (vectorToFrame x), Inertia.zero⟩] := rfl
  have hg : (s.appendLink x).gravity = s.gravity := rfl
  simp only [hl, hg, this]
  rfl

/-- C107: with a tool and forces in base axes, the torques are those without the tool for the same force, whose
moment has the lever from the hand to the tip of the tool. -/
theorem C107_base {s : DynSolver} (hw : Chain.Wf s.chain) (hne : s.links ≠ []) (x q qdot qdotdot : List ℝ)
    (force moment : Vec3) {hand tip : Frame}
    (hh : s.chain.fk ((q.take s.chain.nJoints).map (· * deg2rad)) = some hand)
    (ht : (s.appendLink x).chain.fk ((q.take s.chain.nJoints).map (· * deg2rad)) = some tip) :
    (s.appendLink x).invDyn q qdot qdotdot [force.x, force.y, force.z, moment.x, moment.y, moment.z] .base =
      s.invDyn q qdot qdotdot (moved (tip.p - hand.p) force moment) .base := by
  have e1 : s.links.isEmpty = false := by simpa using hne
  have e2 : (s.appendLink x).links.isEmpty = false := by simp [appendLink]
  have e3 : (s.appendLink x).links.length - 1 = s.links.length := by simp [appendLink]
  have hl : (s.appendLink x).links = s.links ++ [⟨Segment.make Joint.fixed (vectorToFrame x), Inertia.zero⟩] := rfl
  have hg : (s.appendLink x).gravity = s.gravity := rfl
  have hc : s.chain ≠ [] := fun h => hne (List.map_eq_nil_iff.mp h)
  have hr : hand.M.IsRot := by
    have := pose_getD_rigid hw ((q.take s.chain.nJoints).map (· * deg2rad)) (s.chain.length - 1)
    rwa [poses_last s.chain _ 1 hand hc hh] at this
  have hT : (vectorToFrame x).M.IsRot := vectorToFrame_rigid x
  have het : tip = hand * vectorToFrame x := by
    rw [tool_fk, hh] at ht
    exact (Option.some.inj ht).symm
  unfold invDyn
  dsimp only
  rw [tool_joints]
  unfold toRadians
  by_cases h1 : s.chain.nJoints ≤ q.length
  · simp only [h1, if_true, Option.bind_eq_bind, Option.bind_some, hh, ht]
    simp only [wrenches, e1, e2, e3, Bool.false_eq_true, if_false, Option.bind_some]
    have := fun a b c w => rne_lever hne (vectorToFrame x) w s.gravity a b c
    simp only [hl, hg, this]
    have ew : (vectorToFrame x).mulWrench (Wrench.rotate tip.M.transpose
        (vectorToWrench [force.x, force.y, force.z, moment.x, moment.y, moment.z])) =
        Wrench.rotate hand.M.transpose (vectorToWrench (moved (tip.p - hand.p) force moment)) := by
      have hp : tip.p - hand.p = hand.M.mulVec (vectorToFrame x).p := by
        rw [het]
        ext <;> simp
      have v1 : vectorToWrench [force.x, force.y, force.z, moment.x, moment.y, moment.z] = ⟨force, moment⟩ := rfl
      have v2 : vectorToWrench (moved (tip.p - hand.p) force moment) = ⟨force, moment + cross (tip.p - hand.p) force⟩ := rfl
      rw [v1, v2, hp, het]
      simp only [Wrench.rotate, Frame.mulWrench, Frame.mul_M, Mat3.transpose_mul, Mat3.mulVec_mul, hT.mulVec_transpose,
        Mat3.mulVec_add]
      congr 2
      have := hr.transpose.cross (hand.M.mulVec (vectorToFrame x).p) force
      rw [hr.transpose_mulVec] at this
      exact this
    rw [ew]
  · simp only [h1, if_false, Option.bind_eq_bind, Option.bind_none]

theorem tool_wf {s : DynSolver} (hw : Chain.Wf s.chain) (x : List ℝ) : Chain.Wf (s.appendLink x).chain := by
  intro y hy
  unfold chain appendLink at hy
  rw [List.map_append, List.mem_append] at hy
  rcases hy with hy | hy
  · exact hw y hy
  · rw [List.mem_singleton.mp hy]
    refine ⟨fun h => (by cases h), ?_⟩
    refine Frame.IsRigid.mul (Frame.IsRigid.inv ?_) (vectorToFrame_rigid x)
    exact Joint.Unit.pose_rigid (fun h => by cases h) 0

/-- C107: the same for any number of tools, each on the tip of the one before. -/
theorem C107_tools (xs : List (List ℝ)) : ∀ {s : DynSolver} (_ : Chain.Wf s.chain) (_ : s.links ≠ [])
    (q qdot qdotdot : List ℝ) (force moment : Vec3) {hand tip : Frame}
    (_ : s.chain.fk ((q.take s.chain.nJoints).map (· * deg2rad)) = some hand)
    (_ : (s.withTools xs).chain.fk ((q.take s.chain.nJoints).map (· * deg2rad)) = some tip),
    (s.withTools xs).invDyn q qdot qdotdot [force.x, force.y, force.z, moment.x, moment.y, moment.z] .base =
      s.invDyn q qdot qdotdot (moved (tip.p - hand.p) force moment) .base := by
  induction xs with
  | nil =>
    intro s hw hne q qdot qdotdot force moment hand tip hh ht
    have e : hand = tip := Option.some.inj (hh.symm.trans ht)
    have hm : moved (tip.p - hand.p) force moment = [force.x, force.y, force.z, moment.x, moment.y, moment.z] := by
      rw [e]
      simp [moved]
    rw [hm]
    rfl
  | cons x xs ih =>
    intro s hw hne q qdot qdotdot force moment hand tip hh ht
    have hmid := tool_fk s x ((q.take s.chain.nJoints).map (· * deg2rad))
    rw [hh, Option.map_some] at hmid
    have h1 := ih (s := s.appendLink x) (tool_wf hw x) (by simp [appendLink]) q qdot qdotdot force moment
      (by rw [tool_joints]; exact hmid) (by rw [tool_joints]; exact ht)
    have h2 := C107_base hw hne x q qdot qdotdot force
      (moment + cross (tip.p - (hand * vectorToFrame x).p) force) hh hmid
    refine h1.trans (h2.trans ?_)
    congr 1
    unfold moved
    simp only [List.cons.injEq, and_true, true_and]
    refine ⟨?_, ?_, ?_⟩ <;> simp <;> ring

/-- C107: tools have no mass: with no force the torques are those without them, however the robot moves. -/
theorem C107_no_force (xs : List (List ℝ)) {s : DynSolver} (hw : Chain.Wf s.chain) (hne : s.links ≠ [])
    (q qdot qdotdot : List ℝ) (hq : s.chain.nJoints ≤ q.length) :
    (s.withTools xs).invDyn q qdot qdotdot [0, 0, 0, 0, 0, 0] .base = s.invDyn q qdot qdotdot [0, 0, 0, 0, 0, 0] .base := by
  have hl : ((q.take s.chain.nJoints).map (· * deg2rad)).length = s.chain.nJoints := by simp [hq]
  obtain ⟨hand, hh⟩ := Chain.exists_fk hl
  have hn : (s.withTools xs).chain.nJoints = s.chain.nJoints := by
    clear hw hne hh hl hq
    induction xs generalizing s with
    | nil => rfl
    | cons x xs ih => exact (ih (s := s.appendLink x)).trans (tool_joints s x)
  obtain ⟨tip, ht⟩ := Chain.exists_fk (hl.trans hn.symm)
  have := C107_tools xs hw hne q qdot qdotdot 0 0 hh ht
  have e : moved (tip.p - hand.p) 0 0 = [0, 0, 0, 0, 0, 0] := by simp [moved]
  rw [e] at this
  exact this

/-- The pendulum with a tool of one meter, pushed up by three newtons on its tip: as without the tool and with
a moment of three newton meters. -/
example : Chain.Wf pendulum.chain ∧ pendulum.links ≠ [] ∧
    (pendulum.withTools [[1, 0, 0, 0, 0, 0]]).invDyn [0] [0] [0] [0, 0, 3, 0, 0, 0] .base =
      pendulum.invDyn [0] [0] [0] [0, 0, 3, 0, -3, 0] .base := by
  have hw := pendulum_describes.wf
  have hne : pendulum.links ≠ [] := by simp [pendulum]
  refine ⟨hw, hne, ?_⟩
  have hj : pendulum.chain.nJoints = 1 := rfl
  have hx : vectorToFrame [1, 0, 0, 0, 0, 0] = ⟨1, ⟨1, 0, 0⟩⟩ := by
    have h : Vec3.norm ⟨0, 0, 0⟩ = 0 := by simp [Vec3.norm, dot]
    simp only [vectorToFrame, h]
    congr 1
    ext <;> simp [Mat3.rot, Mat3.rot2]
  have hh : pendulum.chain.fk (([0].take pendulum.chain.nJoints).map (· * deg2rad)) = some 1 := by
    rw [hj]
    simp [chain, pendulum, Chain.fk, Chain.fkLoop, Segment.make, Segment.pose, Joint.pose]
    ext <;> simp [Mat3.rotY, Frame.inv, Mat3.transpose]
  have ht := tool_fk pendulum [1, 0, 0, 0, 0, 0] (([0].take pendulum.chain.nJoints).map (· * deg2rad))
  rw [hh, hx, Option.map_some] at ht
  refine (C107_tools [[1, 0, 0, 0, 0, 0]] hw hne [0] [0] [0] ⟨0, 0, 3⟩ 0 hh ht).trans ?_
  simp [moved]

end DynSolver
end KD
