import Verif.Screw.Poe
import Verif.Kdl.Lemmas

/-! Helper lemmas about matrix exponentials and POE expressions. -/

namespace KD

open Real

namespace MatrixExp

/-- The screw has a unit axis, as left by the constructor. -/
def Unit (e : MatrixExp) : Prop := Vec3.dot e.axis e.axis = 1

theorem make_unit (m : Motion) (a o : Vec3) : (make m a o).Unit := Vec3.normalize_unit a

theorem changeBase_unit {e : MatrixExp} (he : e.Unit) {H : Frame} (hH : H.IsRigid) :
    (e.changeBase H).Unit := by
  unfold changeBase Unit
  split
  · show Vec3.dot (H.M.mulVec e.axis) (H.M.mulVec e.axis) = 1
    rw [Mat3.IsRot.dot hH, he]
  · show Vec3.dot (H.M.mulVec e.axis) (H.M.mulVec e.axis) = 1
    rw [Mat3.IsRot.dot hH, he]

theorem changeBase_one (e : MatrixExp) : e.changeBase 1 = e := by
  rcases e with ⟨m, a, o⟩
  cases m <;> simp [changeBase]

theorem changeBase_changeBase (e : MatrixExp) (H K : Frame) :
    (e.changeBase H).changeBase K = e.changeBase (K * H) := by
  rcases e with ⟨m, a, o⟩
  cases m <;> simp [changeBase, Mat3.mulVec_mul, Frame.act_mul]

theorem reject_eq {a : Vec3} (ha : Vec3.dot a a = 1) (o : Vec3) :
    Vec3.cross (Vec3.cross a o) a = o - (Vec3.dot a o) • a := by
  simp only [Vec3.dot] at ha
  ext
  · simp [Vec3.dot]; linear_combination o.x * ha
  · simp [Vec3.dot]; linear_combination o.y * ha
  · simp [Vec3.dot]; linear_combination o.z * ha

theorem one_sub_rot_reject {a : Vec3} (ha : Vec3.dot a a = 1) (θ : ℝ) (o : Vec3) :
    (1 - Mat3.rot2 a θ).mulVec (Vec3.cross (Vec3.cross a o) a)
      = o - (Mat3.rot2 a θ).mulVec o := by
  rw [reject_eq ha, Mat3.mulVec_sub, Mat3.sub_mulVec, Mat3.mulVec_one, Mat3.mulVec_smul,
    Mat3.sub_mulVec, Mat3.rot2_axis ha, Mat3.mulVec_one]
  simp

theorem asFrame_act_rotation {a o : Vec3} (ha : Vec3.dot a a = 1) (θ : ℝ) (x : Vec3) :
    (asFrame ⟨.rotation, a, o⟩ θ).act x = o + (Mat3.rot2 a θ).mulVec (x - o) := by
  simp only [asFrame, Frame.act, one_sub_rot_reject ha, Mat3.mulVec_sub]
  abel

theorem asFrame_act_translation (a o : Vec3) (θ : ℝ) (x : Vec3) :
    (asFrame ⟨.translation, a, o⟩ θ).act x = x + θ • a := by
  simp [asFrame, Frame.act]

theorem asFrame_rigid {e : MatrixExp} (he : e.Unit) (θ : ℝ) : (e.asFrame θ).IsRigid := by
  rcases e with ⟨m, a, o⟩
  cases m
  · exact Mat3.rot2_isRot he θ
  · exact Mat3.IsRot.one

theorem asFrame_zero (e : MatrixExp) : e.asFrame 0 = 1 := by
  rcases e with ⟨m, a, o⟩
  cases m
  · ext1
    · simp [asFrame, Mat3.rot2_zero]
    · simp [asFrame, Mat3.rot2_zero, Mat3.sub_mulVec]
  · ext1 <;> simp [asFrame]

theorem asFrame_add {e : MatrixExp} (he : e.Unit) (x y : ℝ) :
    e.asFrame x * e.asFrame y = e.asFrame (x + y) := by
  apply Frame.ext_act
  intro v
  rw [Frame.act_mul]
  rcases e with ⟨m, a, o⟩
  cases m
  · rw [asFrame_act_rotation he, asFrame_act_rotation he, asFrame_act_rotation he]
    rw [← Mat3.rot2_add he, Mat3.mulVec_mul]
    congr 2
    abel
  · rw [asFrame_act_translation, asFrame_act_translation, asFrame_act_translation]
    rw [add_comm x y, add_smul]
    abel

theorem asFrame_neg {e : MatrixExp} (he : e.Unit) (x : ℝ) :
    e.asFrame (-x) = (e.asFrame x).inv := by
  apply (asFrame_rigid he x).eq_inv_of_mul
  rw [asFrame_add he, add_neg_cancel, asFrame_zero]

theorem changeBase_asFrame {e : MatrixExp} (he : e.Unit) {H : Frame} (hH : H.IsRigid) (θ : ℝ) :
    (e.changeBase H).asFrame θ = H * e.asFrame θ * H.inv := by
  have key : ∀ x, ((e.changeBase H).asFrame θ).act (H.act x) = H.act ((e.asFrame θ).act x) := by
    intro x
    have hu := changeBase_unit he hH
    rcases e with ⟨m, a, o⟩
    cases m
    · simp only [changeBase] at hu ⊢
      rw [asFrame_act_rotation hu, asFrame_act_rotation he, Frame.act_sub, Mat3.rot2_conj hH]
      simp only [Frame.act, Mat3.mulVec_add]
      abel
    · simp only [changeBase]
      rw [asFrame_act_translation, asFrame_act_translation]
      simp only [Frame.act, Mat3.mulVec_add, Mat3.mulVec_smul]
      abel
  apply Frame.ext_act
  intro v
  rw [Frame.act_mul, Frame.act_mul, ← key, hH.act_act_inv]

end MatrixExp

namespace Poe

/-- Product of the exponentials, without the tool transform. -/
noncomputable def expProd (es : List MatrixExp) (q : List ℝ) : Frame :=
  (List.zipWith MatrixExp.asFrame es q).prod

theorem evalLoop_eq (es : List MatrixExp) (q : List ℝ) (H : Frame) :
    evalLoop es q H = H * expProd es q := by
  induction es generalizing q H with
  | nil => simp [evalLoop, expProd]
  | cons e es ih =>
    cases q with
    | nil => simp [evalLoop, expProd]
    | cons x q => simp [evalLoop, ih, expProd, mul_assoc]

theorem expProd_rigid {es : List MatrixExp} (h : ∀ e ∈ es, e.Unit) (q : List ℝ) :
    (expProd es q).IsRigid := by
  induction es generalizing q with
  | nil => exact Frame.IsRigid.one
  | cons e es ih =>
    cases q with
    | nil => exact Frame.IsRigid.one
    | cons x q =>
      simp only [expProd, List.zipWith_cons_cons, List.prod_cons]
      exact Frame.IsRigid.mul (MatrixExp.asFrame_rigid (h e (by simp)) x)
        (ih (fun e' he' => h e' (by simp [he'])) q)

theorem expProd_append {es fs : List MatrixExp} {q r : List ℝ} (h : es.length = q.length) :
    expProd (es ++ fs) (q ++ r) = expProd es q * expProd fs r := by
  simp [expProd, List.zipWith_append h]

theorem expProd_changeBase {es : List MatrixExp} (h : ∀ e ∈ es, e.Unit) {H : Frame}
    (hH : H.IsRigid) (q : List ℝ) :
    expProd (es.map (·.changeBase H)) q = H * expProd es q * H.inv := by
  induction es generalizing q with
  | nil => simp [expProd, hH.mul_inv]
  | cons e es ih =>
    cases q with
    | nil => simp [expProd, hH.mul_inv]
    | cons x q =>
      have ih' := ih (fun e' he' => h e' (by simp [he'])) q
      simp only [expProd, List.map_cons, List.zipWith_cons_cons, List.prod_cons] at ih' ⊢
      rw [ih', MatrixExp.changeBase_asFrame (h e (by simp)) hH]
      simp only [mul_assoc]
      rw [← mul_assoc H.inv H, hH.inv_mul, one_mul]

theorem expProd_reverse_neg {es : List MatrixExp} (h : ∀ e ∈ es, e.Unit) {q : List ℝ}
    (hq : es.length = q.length) :
    expProd es.reverse (q.reverse.map (- ·)) = (expProd es q).inv := by
  induction es generalizing q with
  | nil => simp [expProd]
  | cons e es ih =>
    cases q with
    | nil => simp at hq
    | cons x q =>
      have hq' : es.length = q.length := by simpa using hq
      have he := h e (by simp)
      simp only [List.reverse_cons, List.map_append, List.map_cons, List.map_nil]
      rw [expProd_append (by simp [hq'])]
      rw [ih (fun e' he' => h e' (by simp [he'])) hq']
      simp only [expProd, List.zipWith_cons_cons, List.prod_cons, List.zipWith_nil_left,
        List.prod_nil, mul_one]
      rw [Frame.inv_mul_rev (MatrixExp.asFrame_rigid he x), MatrixExp.asFrame_neg he]

theorem foldl_appendExp (es : List MatrixExp) (poe : Poe) (H : Frame) :
    es.foldl (fun acc e => acc.appendExp e H) poe
      = ⟨poe.exps ++ es.map (·.changeBase H), poe.tool⟩ := by
  induction es generalizing poe with
  | nil => simp
  | cons e es ih => rw [List.foldl_cons, ih]; simp [appendExp]

theorem foldl_appendExp_tool (es : List MatrixExp) (poe : Poe) :
    es.foldl (fun acc e => acc.appendExp e acc.tool) poe
      = ⟨poe.exps ++ es.map (·.changeBase poe.tool), poe.tool⟩ := by
  induction es generalizing poe with
  | nil => simp
  | cons e es ih => rw [List.foldl_cons, ih]; simp [appendExp]

end Poe

/-! ### Chains -/

namespace Mat3

theorem rotX_eq (θ : ℝ) : rotX θ = rot2 ⟨1, 0, 0⟩ θ := by ext <;> simp [rotX, rot2]
theorem rotY_eq (θ : ℝ) : rotY θ = rot2 ⟨0, 1, 0⟩ θ := by ext <;> simp [rotY, rot2]
theorem rotZ_eq (θ : ℝ) : rotZ θ = rot2 ⟨0, 0, 1⟩ θ := by ext <;> simp [rotZ, rot2]

end Mat3

namespace Joint

/-- A joint as KDL constructors make it: a unit axis where an axis is stored. -/
def WF (j : Joint) : Prop :=
  (j.type = .rotAxis ∨ j.type = .transAxis) → Vec3.dot j.axis j.axis = 1

theorem jointAxis_unit {j : Joint} (h : j.WF) (ht : j.type ≠ .none) :
    Vec3.dot j.jointAxis j.jointAxis = 1 := by
  rcases j with ⟨t, s, o, a, p⟩
  cases t <;> simp_all [jointAxis, WF, Vec3.dot]

/-- Pose of a joint as rotation or translation along its axis. -/
theorem pose_rot {j : Joint} (ht : Poe.jointTypeToMotion j.type = some .rotation) (q : ℝ) :
    j.pose q = ⟨Mat3.rot2 j.jointAxis (j.scale * q + j.offset), j.jointOrigin⟩ := by
  rcases j with ⟨t, s, o, a, p⟩
  cases t <;> simp_all [pose, jointAxis, jointOrigin, Poe.jointTypeToMotion, Mat3.rotX_eq,
    Mat3.rotY_eq, Mat3.rotZ_eq]

theorem pose_trans {j : Joint} (ht : Poe.jointTypeToMotion j.type = some .translation) (q : ℝ) :
    j.pose q = Frame.trans (j.jointOrigin + (j.scale * q + j.offset) • j.jointAxis) := by
  rcases j with ⟨t, s, o, a, p⟩
  cases t <;> simp_all [pose, jointAxis, jointOrigin, Poe.jointTypeToMotion]
  all_goals (congr 1; ext <;> simp)

theorem pose_rigid {j : Joint} (h : j.WF) (q : ℝ) : (j.pose q).IsRigid := by
  rcases ht : Poe.jointTypeToMotion j.type with _ | m
  · have : j.type = .none := by
      rcases j with ⟨t, s, o, a, p⟩
      cases t <;> simp_all [Poe.jointTypeToMotion]
    simp [pose, this, Frame.IsRigid.one]
  · have hn : j.type ≠ .none := by rintro e; simp [e, Poe.jointTypeToMotion] at ht
    cases m
    · rw [pose_rot ht]; exact Mat3.rot2_isRot (jointAxis_unit h hn) _
    · rw [pose_trans ht]; exact Frame.isRigid_trans _

/-- With unit scale, moving a joint by `q` premultiplies its rest pose by the screw motion. -/
theorem pose_eq_screw {j : Joint} (h : j.WF) {m : Motion}
    (ht : Poe.jointTypeToMotion j.type = some m) (hs : j.scale = 1) (q : ℝ) :
    j.pose q = (MatrixExp.mk m j.jointAxis j.jointOrigin).asFrame q * j.pose 0 := by
  have hn : j.type ≠ .none := by rintro e; simp [e, Poe.jointTypeToMotion] at ht
  have ha := jointAxis_unit h hn
  apply Frame.ext_act
  intro v
  rw [Frame.act_mul]
  cases m
  · rw [MatrixExp.asFrame_act_rotation ha, pose_rot ht, pose_rot ht]
    simp only [Frame.act, hs]
    rw [add_sub_cancel_right, ← Mat3.mulVec_mul, Mat3.rot2_add ha]
    simp only [one_mul, mul_zero, zero_add]
    abel
  · rw [MatrixExp.asFrame_act_translation, pose_trans ht, pose_trans ht]
    simp only [Frame.act, Frame.trans, hs, one_mul, mul_zero, zero_add, Mat3.mulVec_one, add_smul]
    abel

end Joint

namespace Poe

theorem ofAxis_wf {o a : Vec3} (ha : Vec3.dot a a = 1) (t : JointType) :
    (Joint.ofAxis o a t).WF ∧ (Joint.ofAxis o a t).axis = a := by
  have hn : a.norm = 1 := by rw [Vec3.norm, ha, sqrt_one]
  have : (Joint.ofAxis o a t).axis = a := by simp [Joint.ofAxis, hn]
  exact ⟨fun _ => by rw [this]; exact ha, this⟩

theorem ofAxis_jointAxis (o : Vec3) {a : Vec3} (ha : Vec3.dot a a = 1) (m : Motion) :
    (Joint.ofAxis o a (motionToJointType m)).jointAxis = a := by
  have h := (ofAxis_wf (o := o) ha (motionToJointType m)).2
  cases m
  · exact h
  · exact h

theorem ofAxis_jointOrigin (o a : Vec3) (m : Motion) :
    (Joint.ofAxis o a (motionToJointType m)).jointOrigin = o := by
  cases m <;> rfl

theorem inv_trans (v : Vec3) : (Frame.trans v).inv = Frame.trans (-v) := by
  ext1 <;> simp

theorem trans_mul (v w : Vec3) : Frame.trans v * Frame.trans w = Frame.trans (v + w) := by
  ext1
  · simp
  · simp [add_comm]

theorem translation_origin (a o o' : Vec3) (q : ℝ) :
    (MatrixExp.mk .translation a o).asFrame q = (MatrixExp.mk .translation a o').asFrame q := rfl

/-- Pose of a segment made by `toChain` (case of a joint attached to a pure translation). -/
theorem toChain_segment_pose {e : MatrixExp} (he : e.Unit) (v : Vec3) (q : ℝ) :
    (Segment.make (Joint.ofAxis ((Frame.trans v).inv.act e.origin) e.axis
      (motionToJointType e.motion))
      (Frame.trans (Joint.ofAxis ((Frame.trans v).inv.act e.origin) e.axis
        (motionToJointType e.motion)).jointOrigin)).pose q
      = Frame.trans (-v) * e.asFrame q * Frame.trans e.origin := by
  set o := (Frame.trans v).inv.act e.origin with ho
  have ho' : o = e.origin - v := by
    rw [ho]; simp [Frame.act]; abel
  have hwf := (ofAxis_wf (o := o) he (motionToJointType e.motion)).1
  have hm : jointTypeToMotion (Joint.ofAxis o e.axis (motionToJointType e.motion)).type
      = some e.motion := by
    rcases e with ⟨m, a, p⟩
    cases m <;> rfl
  rw [Segment.pose, Segment.make]
  simp only
  rw [Joint.pose_eq_screw hwf hm rfl, mul_assoc, ← mul_assoc (Joint.pose _ 0),
    (Joint.pose_rigid hwf 0).mul_inv, one_mul, ofAxis_jointAxis o he, ofAxis_jointOrigin]
  apply Frame.ext_act
  intro x
  simp only [Frame.act_mul]
  have ht : ∀ a b : Vec3, (Frame.trans a).act b = b + a := by intro a b; simp [Frame.act]
  simp only [ht]
  rcases e with ⟨m, a, p⟩
  cases m
  · rw [MatrixExp.asFrame_act_rotation he, MatrixExp.asFrame_act_rotation he]
    simp only at ho' ⊢
    rw [ho']
    simp only [add_sub_cancel_right]
    abel
  · rw [MatrixExp.asFrame_act_translation, MatrixExp.asFrame_act_translation]
    simp only at ho' ⊢
    rw [ho']
    abel

theorem toChainLoop_fk {es : List MatrixExp} (h : ∀ e ∈ es, e.Unit) (v : Vec3) (q : List ℝ)
    (hq : es.length = q.length) (rest : Chain) (acc : Frame) :
    ∃ w, (toChainLoop es (Frame.trans v)).2 = Frame.trans w ∧
      Chain.fkLoop ((toChainLoop es (Frame.trans v)).1 ++ rest) q acc
        = Chain.fkLoop rest [] (acc * Frame.trans (-v) * expProd es q * Frame.trans w) := by
  induction es generalizing v q acc with
  | nil =>
    have : q = [] := by simpa using hq.symm
    subst this
    refine ⟨v, rfl, ?_⟩
    simp [toChainLoop, expProd, mul_assoc, trans_mul]
    congr 1
    rw [show Frame.trans (0 : Vec3) = 1 from rfl, mul_one]
  | cons e es ih =>
    cases q with
    | nil => simp at hq
    | cons x q =>
      have hq' : es.length = q.length := by simpa using hq
      have he := h e (by simp)
      have hne : (Joint.ofAxis ((Frame.trans v).inv.act e.origin) e.axis
          (motionToJointType e.motion)).type ≠ .none := by
        rcases e with ⟨m, a, p⟩
        cases m <;> simp [Joint.ofAxis, motionToJointType]
      obtain ⟨w, hw, hfk⟩ := ih (fun e' he' => h e' (by simp [he'])) e.origin q hq'
        (acc * (Frame.trans (-v) * e.asFrame x * Frame.trans e.origin))
      refine ⟨w, hw, ?_⟩
      simp only [toChainLoop, List.cons_append, Chain.fkLoop]
      rw [if_pos (by simpa [Segment.make] using hne), toChain_segment_pose he, hfk]
      congr 1
      simp only [expProd, List.zipWith_cons_cons, List.prod_cons, mul_assoc]
      rw [← mul_assoc (Frame.trans e.origin) (Frame.trans (-e.origin)), trans_mul, add_neg_cancel,
        show Frame.trans (0 : Vec3) = 1 from rfl, one_mul]

theorem toChainLoop_length (es : List MatrixExp) (prev : Frame) :
    (toChainLoop es prev).1.length = es.length := by
  induction es generalizing prev with
  | nil => rfl
  | cons e es ih => simp [toChainLoop, ih]

theorem toChainLoop_nJoints (es : List MatrixExp) (prev : Frame) :
    Chain.nJoints (toChainLoop es prev).1 = es.length := by
  induction es generalizing prev with
  | nil => rfl
  | cons e es ih =>
    have hne : motionToJointType e.motion ≠ .none := by
      cases e.motion <;> simp [motionToJointType]
    have := ih (Frame.trans e.origin)
    simp only [Chain.nJoints] at this ⊢
    simpa [toChainLoop, Segment.make, Joint.ofAxis, hne] using this

/-- A segment as made by KDL: unit scale, unit axes, rigid tip frame. -/
def SegWF (s : Segment) : Prop := s.joint.WF ∧ s.joint.scale = 1 ∧ s.fTip.IsRigid

theorem segment_pose_rigid {s : Segment} (h : SegWF s) (q : ℝ) : (s.pose q).IsRigid :=
  Frame.IsRigid.mul (Joint.pose_rigid h.1 q) h.2.2

theorem fromChainLoop_fk {c : Chain} (h : ∀ s ∈ c, SegWF s) (prev : Frame) (hp : prev.IsRigid)
    (q : List ℝ) (hq : c.nJoints = q.length) (acc : Frame) :
    Chain.fkLoop c q acc
      = some (acc * prev.inv * (expProd (fromChainLoop c prev).1 q * (fromChainLoop c prev).2)) := by
  induction c generalizing prev q acc with
  | nil =>
    have : q = [] := by simpa [Chain.nJoints] using hq.symm
    subst this
    simp [Chain.fkLoop, fromChainLoop, expProd, mul_assoc, hp.inv_mul]
  | cons s c ih =>
    have hs := h s (by simp)
    have hc : ∀ s' ∈ c, SegWF s' := fun s' h' => h s' (by simp [h'])
    have hp0 : (s.pose 0).IsRigid := segment_pose_rigid hs 0
    have hp' : (prev * s.pose 0).IsRigid := Frame.IsRigid.mul hp hp0
    rcases hm : jointTypeToMotion s.joint.type with _ | m
    · have hn : s.joint.type = .none := by
        generalize s.joint.type = t at hm
        cases t <;> simp_all [jointTypeToMotion]
      have hq' : Chain.nJoints c = q.length := by
        rw [← hq]; simp [Chain.nJoints, hn]
      simp only [Chain.fkLoop, hn, ne_eq, not_true_eq_false, if_false]
      rw [ih hc _ hp' q hq']
      simp only [fromChainLoop, hm]
      rw [Frame.inv_mul_rev hp]
      congr 1
      simp only [mul_assoc]
      rw [← mul_assoc (s.pose 0) (s.pose 0).inv, hp0.mul_inv, one_mul]
    · have hn : s.joint.type ≠ .none := by rintro e; simp [e, jointTypeToMotion] at hm
      cases q with
      | nil => simp [Chain.nJoints, hn] at hq
      | cons x q =>
        have hq' : Chain.nJoints c = q.length := by
          simpa [Chain.nJoints, hn] using hq
        simp only [Chain.fkLoop, if_pos hn]
        rw [ih hc _ hp' q hq']
        simp only [fromChainLoop, hm, MatrixExp.changeBase_one]
        have hau := Joint.jointAxis_unit hs.1 hn
        have hE : (MatrixExp.make m (prev.M.mulVec s.joint.jointAxis)
            (prev.act s.joint.jointOrigin)).asFrame x
            = prev * (MatrixExp.mk m s.joint.jointAxis s.joint.jointOrigin).asFrame x * prev.inv := by
          rw [← MatrixExp.changeBase_asFrame (e := ⟨m, s.joint.jointAxis, s.joint.jointOrigin⟩) hau hp]
          have hnorm : (prev.M.mulVec s.joint.jointAxis).normalize = prev.M.mulVec s.joint.jointAxis :=
            Vec3.normalize_of_unit (by rw [Mat3.IsRot.dot hp, hau])
          simp only [MatrixExp.make, hnorm]
          cases m <;> rfl
        congr 1
        simp only [expProd, List.zipWith_cons_cons, List.prod_cons, hE]
        have hpose : s.pose x = (MatrixExp.mk m s.joint.jointAxis s.joint.jointOrigin).asFrame x
            * s.pose 0 := by
          rw [Segment.pose, Joint.pose_eq_screw hs.1 hm hs.2.1, mul_assoc, Segment.pose]
        rw [hpose, Frame.inv_mul_rev hp]
        simp only [mul_assoc]
        rw [← mul_assoc (s.pose 0) (s.pose 0).inv, hp0.mul_inv, one_mul,
          ← mul_assoc prev.inv prev, hp.inv_mul, one_mul]

theorem fromChainLoop_length (c : Chain) (prev : Frame) :
    (fromChainLoop c prev).1.length = c.nJoints := by
  induction c generalizing prev with
  | nil => rfl
  | cons s c ih =>
    rcases hm : jointTypeToMotion s.joint.type with _ | m
    · have hn : s.joint.type = .none := by
        generalize s.joint.type = t at hm
        cases t <;> simp_all [jointTypeToMotion]
      simpa [fromChainLoop, Chain.nJoints, hn, jointTypeToMotion] using ih (prev * s.pose 0)
    · have hn : s.joint.type ≠ .none := by rintro e; simp [e, jointTypeToMotion] at hm
      simpa [fromChainLoop, hm, Chain.nJoints, hn] using ih (prev * s.pose 0)

theorem fromChainLoop_unit (c : Chain) (prev : Frame) :
    ∀ e ∈ (fromChainLoop c prev).1, e.Unit := by
  induction c generalizing prev with
  | nil => simp [fromChainLoop]
  | cons s c ih =>
    rcases hm : jointTypeToMotion s.joint.type with _ | m
    · simpa [fromChainLoop, hm] using ih (prev * s.pose 0)
    · simp only [fromChainLoop, hm, List.mem_cons, forall_eq_or_imp, MatrixExp.changeBase_one]
      exact ⟨MatrixExp.make_unit _ _ _, ih (prev * s.pose 0)⟩

end Poe

end KD
