import Verif.Screw.PoeLemmas

/-!
# Properties C01-C07: joint screws and products of exponentials

Specification vocabulary: `Frame.IsRigid` (orthonormal rotation of determinant
one), `Frame.act` (action on points), `List.prod` (ordered product of frames).
-/

namespace KD

open Real

/-! ## C01 -/

/-- Every screw made by the constructor moves rigidly, whatever the axis passed in. -/
theorem C01_screw_is_rigid (m : Motion) (axis origin : Vec3) (θ : ℝ) :
    ((MatrixExp.make m axis origin).asFrame θ).IsRigid :=
  MatrixExp.asFrame_rigid (MatrixExp.make_unit m axis origin) θ

/-- Magnitude zero is the identity. -/
theorem C01_screw_zero (m : Motion) (axis origin : Vec3) :
    (MatrixExp.make m axis origin).asFrame 0 = 1 :=
  MatrixExp.asFrame_zero _

/-- Magnitudes add up under composition. -/
theorem C01_screw_add (m : Motion) (axis origin : Vec3) (a b : ℝ) :
    (MatrixExp.make m axis origin).asFrame a * (MatrixExp.make m axis origin).asFrame b
      = (MatrixExp.make m axis origin).asFrame (a + b) :=
  MatrixExp.asFrame_add (MatrixExp.make_unit m axis origin) a b

/-- The opposite magnitude is the inverse motion. -/
theorem C01_screw_neg (m : Motion) (axis origin : Vec3) (a : ℝ) :
    (MatrixExp.make m axis origin).asFrame (-a)
      = ((MatrixExp.make m axis origin).asFrame a).inv ∧
    (MatrixExp.make m axis origin).asFrame a * (MatrixExp.make m axis origin).asFrame (-a) = 1 := by
  have hu := MatrixExp.make_unit m axis origin
  refine ⟨MatrixExp.asFrame_neg hu a, ?_⟩
  rw [MatrixExp.asFrame_add hu, add_neg_cancel, MatrixExp.asFrame_zero]

/-- A rotation leaves every point of its axis line fixed. -/
theorem C01_rotation_fixes_axis (axis origin : Vec3) (θ t : ℝ) :
    ((MatrixExp.make .rotation axis origin).asFrame θ).act (origin + t • axis.normalize)
      = origin + t • axis.normalize := by
  rw [MatrixExp.make, MatrixExp.asFrame_act_rotation (Vec3.normalize_unit axis),
    add_sub_cancel_left, Mat3.mulVec_smul, Mat3.rot2_axis (Vec3.normalize_unit axis)]

/-- Closed form of both motions: a rotation turns `x - origin` by Rodrigues' formula about the
normalised axis (counterclockwise), a translation shifts along it. -/
theorem C01_screw_action (axis origin x : Vec3) (θ : ℝ) :
    ((MatrixExp.make .rotation axis origin).asFrame θ).act x
      = origin + (cos θ • (x - origin) + sin θ • Vec3.cross axis.normalize (x - origin)
          + ((1 - cos θ) * Vec3.dot axis.normalize (x - origin)) • axis.normalize) ∧
    ((MatrixExp.make .translation axis origin).asFrame θ).act x = x + θ • axis.normalize := by
  constructor
  · rw [MatrixExp.make, MatrixExp.asFrame_act_rotation (Vec3.normalize_unit axis),
      Mat3.rot2_mulVec]
  · rw [MatrixExp.make, MatrixExp.asFrame_act_translation]

/-- The axis is only normalised: a vector that is not tiny keeps its direction. -/
theorem C01_axis_direction (m : Motion) (axis origin : Vec3) (h : eps ≤ axis.norm) :
    axis = axis.norm • (MatrixExp.make m axis origin).axis := by
  have hp : 0 < axis.norm := lt_of_lt_of_le eps_pos h
  rw [MatrixExp.make, Vec3.normalize, if_neg (not_lt.mpr h)]
  simp only [smul_smul]
  rw [mul_one_div_cancel hp.ne', one_smul]

/-- Non-vacuity: a quarter turn about an axis through (1,0,0) really moves the origin. -/
example : ((MatrixExp.make .rotation ⟨0, 0, 1⟩ ⟨1, 0, 0⟩).asFrame (π / 2)).act ⟨0, 0, 0⟩
    = ⟨1, -1, 0⟩ := by
  have hz : (⟨0, 0, 1⟩ : Vec3).normalize = ⟨0, 0, 1⟩ :=
    Vec3.normalize_of_unit (by norm_num [Vec3.dot])
  rw [(C01_screw_action _ _ _ _).1, hz]
  ext <;> simp [Vec3.dot]

/-! ## C02 -/

/-- Changing the base of a screw conjugates its motion. -/
theorem C02_changeBase_conjugates (m : Motion) (axis origin : Vec3) (H : Frame) (hH : H.IsRigid)
    (θ : ℝ) :
    ((MatrixExp.make m axis origin).changeBase H).asFrame θ
      = H * (MatrixExp.make m axis origin).asFrame θ * H.inv :=
  MatrixExp.changeBase_asFrame (MatrixExp.make_unit m axis origin) hH θ

/-- The same after any number of successive changes of base. -/
theorem C02_changeBase_iterated (m : Motion) (axis origin : Vec3) (Hs : List Frame)
    (hH : ∀ H ∈ Hs, H.IsRigid) (θ : ℝ) :
    (Hs.foldl (fun e H => e.changeBase H) (MatrixExp.make m axis origin)).asFrame θ
      = Hs.reverse.prod * (MatrixExp.make m axis origin).asFrame θ * Hs.reverse.prod.inv := by
  have gen : ∀ (Hs : List Frame) (e : MatrixExp), e.Unit → (∀ H ∈ Hs, H.IsRigid) →
      (Hs.foldl (fun e H => e.changeBase H) e).asFrame θ
        = Hs.reverse.prod * e.asFrame θ * Hs.reverse.prod.inv := by
    intro Hs
    induction Hs with
    | nil => intro e _ _; simp
    | cons H Hs ih =>
      intro e he hr
      have hr' : ∀ K ∈ Hs, K.IsRigid := fun K hK => hr K (by simp [hK])
      have hrp : Hs.reverse.prod.IsRigid := by
        have : ∀ L : List Frame, (∀ K ∈ L, K.IsRigid) → L.prod.IsRigid := by
          intro L
          induction L with
          | nil => intro _; exact Frame.IsRigid.one
          | cons K L ih2 =>
            intro h
            rw [List.prod_cons]
            exact Frame.IsRigid.mul (h K (by simp)) (ih2 fun K' h' => h K' (by simp [h']))
        exact this _ (by simpa using hr')
      rw [List.foldl_cons, ih _ (MatrixExp.changeBase_unit he (hr H (by simp))) hr',
        MatrixExp.changeBase_asFrame he (hr H (by simp))]
      simp only [List.reverse_cons, List.prod_append, List.prod_cons, List.prod_nil, mul_one]
      rw [Frame.inv_mul_rev hrp]
      simp only [mul_assoc]
  exact gen Hs _ (MatrixExp.make_unit m axis origin) hH

/-- Non-vacuity: a rigid change of base that is not the identity. -/
example : (Frame.mk (Mat3.rotX (π / 3)) ⟨1, 2, 3⟩).IsRigid ∧
    Frame.mk (Mat3.rotX (π / 3)) ⟨1, 2, 3⟩ ≠ 1 := by
  constructor
  · show Mat3.IsRot _
    rw [Mat3.rotX_eq]
    exact Mat3.rot2_isRot (by norm_num [Vec3.dot]) _
  · intro h
    have := congrArg (fun f => f.p.x) h
    simp at this

/-! ## C03 -/

/-- Sizes disagree: the call fails and the output keeps its value. -/
theorem C03_evaluate_rejects_size (poe : Poe) (q : List ℝ) (H : Frame)
    (h : poe.exps.length ≠ q.length) : poe.evaluate q H = (false, H) := by
  simp [Poe.evaluate, h]

/-- Sizes agree: the result is the ordered product of the joint screws times the tool
transform, whatever the output held before. -/
theorem C03_evaluate_is_product (poe : Poe) (q : List ℝ) (H : Frame)
    (h : poe.exps.length = q.length) :
    poe.evaluate q H = (true, (List.zipWith (fun e x => e.asFrame x) poe.exps q).prod * poe.tool) := by
  simp only [Poe.evaluate, h, ne_eq, not_true_eq_false, if_false, Poe.evalLoop_eq, one_mul]
  rfl

/-- The result is rigid when the terms come from the constructor and the tool is rigid. -/
theorem C03_evaluate_is_rigid (poe : Poe) (q : List ℝ) (H : Frame)
    (hu : ∀ e ∈ poe.exps, e.Unit) (ht : poe.tool.IsRigid) (h : poe.exps.length = q.length) :
    (poe.evaluate q H).2.IsRigid := by
  rw [C03_evaluate_is_product poe q H h]
  exact Frame.IsRigid.mul (Poe.expProd_rigid hu q) ht

/-- Non-vacuity: a two-term POE (rotation then translation) with a non-trivial tool. -/
example : ∃ poe : Poe, poe.exps.length = 2 ∧ (∀ e ∈ poe.exps, e.Unit) ∧ poe.tool.IsRigid ∧
    (poe.evaluate [π / 2, 3] 1).2.act ⟨0, 0, 0⟩ = ⟨-1, 3, 0⟩ := by
  have hx : (⟨1, 0, 0⟩ : Vec3).normalize = ⟨1, 0, 0⟩ :=
    Vec3.normalize_of_unit (by norm_num [Vec3.dot])
  have hz : (⟨0, 0, 1⟩ : Vec3).normalize = ⟨0, 0, 1⟩ :=
    Vec3.normalize_of_unit (by norm_num [Vec3.dot])
  refine ⟨⟨[MatrixExp.make .rotation ⟨0, 0, 1⟩ 0, MatrixExp.make .translation ⟨1, 0, 0⟩ 0],
    Frame.trans ⟨0, 1, 0⟩⟩, rfl, ?_, Frame.isRigid_trans _, ?_⟩
  · intro e he
    simp only [List.mem_cons, List.not_mem_nil, or_false] at he
    rcases he with rfl | rfl <;> exact MatrixExp.make_unit _ _ _
  · rw [C03_evaluate_is_product _ _ _ rfl]
    simp only [List.zipWith_cons_cons, List.zipWith_nil_left, List.prod_cons, List.prod_nil,
      mul_one, Frame.act_mul]
    rw [(C01_screw_action _ _ _ _).1, (C01_screw_action _ (0 : Vec3) _ _).2, hx, hz]
    ext <;> simp [Vec3.dot, Frame.act]

/-! ## C04 -/

/-- Appending a POE whose base is reached through `H`: forward kinematics compose. -/
theorem C04_append (a b : Poe) (H : Frame) (qa qb : List ℝ) (out : Frame)
    (hb : ∀ e ∈ b.exps, e.Unit) (hH : H.IsRigid)
    (la : a.exps.length = qa.length) (lb : b.exps.length = qb.length) :
    (a.append b H).evaluate (qa ++ qb) out
      = (true, (List.zipWith (fun e x => e.asFrame x) a.exps qa).prod * H
          * (b.evaluate qb out).2) := by
  have hexp : (a.append b H).exps = a.exps ++ b.exps.map (·.changeBase H) := by
    simp [Poe.append, Poe.foldl_appendExp]
  have htool : (a.append b H).tool = H * b.tool := rfl
  rw [C03_evaluate_is_product _ _ _ (by simp [hexp, la, lb]), C03_evaluate_is_product _ _ _ lb,
    hexp, htool]
  have h1 := Poe.expProd_append (fs := b.exps.map (·.changeBase H)) (r := qb) la
  have h2 := Poe.expProd_changeBase hb hH qb
  simp only [Poe.expProd] at h1 h2
  rw [h1, h2]
  simp only [mul_assoc]
  rw [← mul_assoc H.inv H, hH.inv_mul, one_mul]

/-- With the transform equal to the tool of the first POE, the two forward kinematics are chained. -/
theorem C04_append_at_tool (a b : Poe) (qa qb : List ℝ) (out : Frame)
    (hb : ∀ e ∈ b.exps, e.Unit) (ht : a.tool.IsRigid)
    (la : a.exps.length = qa.length) (lb : b.exps.length = qb.length) :
    (a.append b a.tool).evaluate (qa ++ qb) out
      = (true, (a.evaluate qa out).2 * (b.evaluate qb out).2) := by
  rw [C04_append a b a.tool qa qb out hb ht la lb, C03_evaluate_is_product a _ _ la]

/-- Appending a single term: one more joint, whose screw acts before the tool. -/
theorem C04_append_term (a : Poe) (e : MatrixExp) (H : Frame) (qa : List ℝ) (x : ℝ) (out : Frame)
    (he : e.Unit) (hH : H.IsRigid) (la : a.exps.length = qa.length) :
    (a.appendExp e H).evaluate (qa ++ [x]) out
      = (true, (List.zipWith (fun e x => e.asFrame x) a.exps qa).prod
          * (H * e.asFrame x * H.inv) * a.tool) := by
  rw [C03_evaluate_is_product _ _ _ (by simp [Poe.appendExp, la])]
  have h1 := Poe.expProd_append (fs := [e.changeBase H]) (r := [x]) la
  simp only [Poe.expProd] at h1
  simp only [Poe.appendExp, h1, List.zipWith_cons_cons, List.zipWith_nil_left, List.prod_cons,
    List.prod_nil, mul_one, MatrixExp.changeBase_asFrame he hH]

/-- A new base frame premultiplies the forward kinematics. -/
theorem C04_changeBaseFrame (poe : Poe) (H : Frame) (q : List ℝ) (out : Frame)
    (hu : ∀ e ∈ poe.exps, e.Unit) (hH : H.IsRigid) (h : poe.exps.length = q.length) :
    (poe.changeBaseFrame H).evaluate q out = (true, H * (poe.evaluate q out).2) := by
  rw [C03_evaluate_is_product _ _ _ (by simpa [Poe.changeBaseFrame] using h),
    C03_evaluate_is_product _ _ _ h]
  have h2 := Poe.expProd_changeBase hu hH q
  simp only [Poe.expProd] at h2
  simp only [Poe.changeBaseFrame, h2, mul_assoc]
  rw [← mul_assoc H.inv H, hH.inv_mul, one_mul]

/-- A new tool frame postmultiplies the forward kinematics. -/
theorem C04_changeToolFrame (poe : Poe) (H : Frame) (q : List ℝ) (out : Frame)
    (h : poe.exps.length = q.length) :
    (poe.changeToolFrame H).evaluate q out = (true, (poe.evaluate q out).2 * H) := by
  rw [C03_evaluate_is_product _ _ _ (by simpa [Poe.changeToolFrame] using h),
    C03_evaluate_is_product _ _ _ h]
  simp [Poe.changeToolFrame, mul_assoc]

/-! ## C05 -/

/-- The reversed POE on negated, reversed joint values gives the inverse pose. -/
theorem C05_reverse_inverts (poe : Poe) (q : List ℝ) (out : Frame)
    (hu : ∀ e ∈ poe.exps, e.Unit) (ht : poe.tool.IsRigid) (h : poe.exps.length = q.length) :
    poe.reverseSelf.evaluate (q.reverse.map (- ·)) out
      = (true, (poe.evaluate q out).2.inv) := by
  rw [C03_evaluate_is_product _ _ _ (by simpa [Poe.reverseSelf] using h),
    C03_evaluate_is_product _ _ _ h]
  have hr := ht.inv
  have hu' : ∀ e ∈ poe.exps.map (·.changeBase poe.tool.inv), e.Unit := by
    intro e he
    obtain ⟨e', he', rfl⟩ := List.mem_map.mp he
    exact MatrixExp.changeBase_unit (hu e' he') hr
  have h1 := Poe.expProd_reverse_neg hu' (q := q) (by simpa using h)
  have h2 := Poe.expProd_changeBase hu hr q
  have hrig := Poe.expProd_rigid hu q
  simp only [Poe.reverseSelf]
  change (true, Poe.expProd _ _ * poe.tool.inv) = (true, (Poe.expProd poe.exps q * poe.tool).inv)
  rw [h1, h2, ht.inv_inv, Frame.inv_mul_rev (Frame.IsRigid.mul hr hrig), Frame.inv_mul_rev hr,
    ht.inv_inv, Frame.inv_mul_rev hrig]
  simp only [mul_assoc, ht.mul_inv, mul_one]

/-- `makeReverse` builds the same POE as `reverseSelf` on a copy. -/
theorem C05_makeReverse_eq (poe : Poe) : poe.makeReverse = poe.reverseSelf := by
  simp [Poe.makeReverse, Poe.reverseSelf, Poe.foldl_appendExp_tool, Poe.empty]

/-- Reversing twice restores the POE itself. -/
theorem C05_reverse_reverse (poe : Poe) (ht : poe.tool.IsRigid) :
    poe.reverseSelf.reverseSelf = poe := by
  simp only [Poe.reverseSelf, ht.inv_inv]
  ext1
  · simp only [List.map_reverse, List.reverse_reverse, List.map_map]
    have : (fun e : MatrixExp => e.changeBase poe.tool) ∘ (fun e => e.changeBase poe.tool.inv)
        = id := by
      funext e
      simp [MatrixExp.changeBase_changeBase, ht.mul_inv, MatrixExp.changeBase_one]
    rw [this, List.map_id]
  · rfl

/-! ## C06 -/

/-- The chain made from a POE has the same forward kinematics, for POEs of any length. -/
theorem C06_toChain_fk (poe : Poe) (q : List ℝ) (out : Frame)
    (hu : ∀ e ∈ poe.exps, e.Unit) (h : poe.exps.length = q.length) :
    poe.toChain.fk q = some (poe.evaluate q out).2 := by
  rw [C03_evaluate_is_product _ _ _ h]
  obtain ⟨w, hw, hfk⟩ := Poe.toChainLoop_fk hu (0 : Vec3) q h
    [Segment.make Joint.fixed ((Poe.toChainLoop poe.exps (Frame.trans 0)).2.inv * poe.tool)] 1
  have h0 : Frame.trans (0 : Vec3) = 1 := rfl
  rw [h0] at hw hfk
  rw [Poe.toChain, Chain.fk]
  simp only
  rw [hfk]
  have hpose : ∀ F : Frame, (Segment.make Joint.fixed F).pose 0 = F := by
    intro F
    have h1 : (Joint.fixed.pose 0) = 1 := rfl
    simp [Segment.make, Segment.pose, h1]
  have hfix : (Segment.make Joint.fixed ((Poe.toChainLoop poe.exps 1).2.inv * poe.tool)).joint.type
      = JointType.none := rfl
  simp only [Chain.fkLoop, ne_eq, hpose, hw]
  have hneg : Frame.trans (-(0 : Vec3)) = 1 := by rw [neg_zero]; rfl
  rw [hneg, one_mul, one_mul, mul_assoc, ← mul_assoc (Frame.trans w), Poe.inv_trans,
    Poe.trans_mul, add_neg_cancel, h0, one_mul]
  rfl

/-- One joint per term, plus the fixed tool segment. -/
theorem C06_toChain_size (poe : Poe) :
    poe.toChain.nJoints = poe.exps.length ∧ poe.toChain.length = poe.exps.length + 1 := by
  constructor
  · have := Poe.toChainLoop_nJoints poe.exps 1
    simp only [Chain.nJoints] at this
    simp [Poe.toChain, Chain.nJoints, List.filter_append, Segment.make, Joint.fixed]
    simpa using this
  · simp [Poe.toChain, Poe.toChainLoop_length]

/-! ## C07 -/

/-- The POE made from a chain has the same forward kinematics, for chains of any length mixing
all joint types (unit scale; any joint offset). -/
theorem C07_fromChain_fk (c : Chain) (q : List ℝ) (out : Frame)
    (hc : ∀ s ∈ c, s.joint.WF ∧ s.joint.scale = 1 ∧ s.fTip.IsRigid) (hq : c.nJoints = q.length) :
    (Poe.fromChain c).evaluate q out = (true, ((Poe.fromChain c).evaluate q out).2) ∧
    c.fk q = some ((Poe.fromChain c).evaluate q out).2 := by
  have hlen : (Poe.fromChain c).exps.length = q.length := by
    rw [← hq]; exact Poe.fromChainLoop_length c 1
  rw [C03_evaluate_is_product _ _ _ hlen]
  refine ⟨rfl, ?_⟩
  rw [Chain.fk, Poe.fromChainLoop_fk hc 1 Frame.IsRigid.one q hq]
  simp [Poe.fromChain, Poe.expProd]

/-- One term per movable joint, all with unit axes. -/
theorem C07_fromChain_terms (c : Chain) :
    (Poe.fromChain c).exps.length = c.nJoints ∧ ∀ e ∈ (Poe.fromChain c).exps, e.Unit :=
  ⟨Poe.fromChainLoop_length c 1, Poe.fromChainLoop_unit c 1⟩

/-- Round trip: converting a POE to a chain and back preserves forward kinematics. -/
theorem C07_round_trip (poe : Poe) (q : List ℝ) (out : Frame)
    (hu : ∀ e ∈ poe.exps, e.Unit) (ht : poe.tool.IsRigid) (h : poe.exps.length = q.length) :
    ((Poe.fromChain poe.toChain).evaluate q out) = poe.evaluate q out := by
  have hwf : ∀ s ∈ poe.toChain, s.joint.WF ∧ s.joint.scale = 1 ∧ s.fTip.IsRigid := by
    have gen : ∀ (es : List MatrixExp), (∀ e ∈ es, e.Unit) → ∀ v : Vec3,
        (∀ s ∈ (Poe.toChainLoop es (Frame.trans v)).1,
          s.joint.WF ∧ s.joint.scale = 1 ∧ s.fTip.IsRigid) ∧
        ∃ w, (Poe.toChainLoop es (Frame.trans v)).2 = Frame.trans w := by
      intro es
      induction es with
      | nil => intro _ v; exact ⟨by simp [Poe.toChainLoop], v, rfl⟩
      | cons e es ih =>
        intro hes v
        obtain ⟨h1, h2⟩ := ih (fun e' h' => hes e' (by simp [h'])) e.origin
        refine ⟨?_, h2⟩
        intro s hs
        simp only [Poe.toChainLoop, List.mem_cons] at hs
        rcases hs with rfl | hs
        · have hw := (Poe.ofAxis_wf (o := (Frame.trans v).inv.act e.origin) (hes e (by simp))
            (Poe.motionToJointType e.motion)).1
          exact ⟨hw, rfl, Frame.IsRigid.mul (Joint.pose_rigid hw 0).inv (Frame.isRigid_trans _)⟩
        · exact h1 s hs
    obtain ⟨h1, w, hw⟩ := gen poe.exps hu 0
    have h0 : Frame.trans (0 : Vec3) = 1 := rfl
    rw [h0] at h1 hw
    intro s hs
    simp only [Poe.toChain, List.mem_append, List.mem_singleton] at hs
    rcases hs with hs | rfl
    · exact h1 s hs
    · refine ⟨by simp [Joint.WF, Segment.make, Joint.fixed], rfl, ?_⟩
      have : (Joint.fixed.pose 0) = 1 := rfl
      simp only [Segment.make, this, hw]
      exact Frame.IsRigid.mul (Frame.IsRigid.one.inv)
        (Frame.IsRigid.mul (Frame.isRigid_trans w).inv ht)
  have hn : poe.toChain.nJoints = q.length := by rw [(C06_toChain_size poe).1, h]
  have h1 := C07_fromChain_fk poe.toChain q out hwf hn
  have h2 := C06_toChain_fk poe q out hu h
  rw [h1.1]
  rw [h1.2] at h2
  rw [Option.some.inj h2, C03_evaluate_is_product poe q out h]

/-- The unit-scale hypothesis is needed: for a joint with scale two the POE moves half as much. -/
theorem C07_scaled_joint_counterexample :
    ∃ (c : Chain) (q : List ℝ), (∀ s ∈ c, s.joint.WF ∧ s.fTip.IsRigid) ∧ c.nJoints = q.length ∧
      c.fk q ≠ some ((Poe.fromChain c).evaluate q 1).2 := by
  refine ⟨[⟨⟨.transX, 2, 0, 0, 0⟩, 1⟩], [1], ?_, by simp [Chain.nJoints], ?_⟩
  · intro s hs
    simp only [List.mem_singleton] at hs
    subst hs
    exact ⟨by simp [Joint.WF], Frame.IsRigid.one⟩
  · have hx : (⟨1, 0, 0⟩ : Vec3).normalize = ⟨1, 0, 0⟩ :=
      Vec3.normalize_of_unit (by norm_num [Vec3.dot])
    rw [C03_evaluate_is_product _ _ _ (by simp [Poe.fromChain, Poe.fromChainLoop,
      Poe.jointTypeToMotion])]
    intro h
    have h' := congrArg (fun f : Option Frame => f.map (fun f => f.p.x)) h
    simp [Chain.fk, Chain.fkLoop, Segment.pose, Joint.pose, Poe.fromChain, Poe.fromChainLoop,
      Poe.jointTypeToMotion, MatrixExp.make, MatrixExp.changeBase_one, Joint.jointAxis,
      MatrixExp.asFrame, hx] at h'

/-- Non-vacuity: a chain with a rotational joint with offset, a fixed and a prismatic joint. -/
example : ∃ c : Chain, c.nJoints = 2 ∧ c.length = 3 ∧
    ∀ s ∈ c, s.joint.WF ∧ s.joint.scale = 1 ∧ s.fTip.IsRigid := by
  refine ⟨[⟨⟨.rotZ, 1, π / 2, 0, 0⟩, Frame.trans ⟨1, 0, 0⟩⟩, ⟨Joint.fixed, 1⟩,
    ⟨⟨.transAxis, 1, 0, ⟨0, 1, 0⟩, ⟨1, 1, 1⟩⟩, 1⟩], by simp [Chain.nJoints, Joint.fixed], rfl, ?_⟩
  intro s hs
  simp only [List.mem_cons, List.not_mem_nil, or_false] at hs
  rcases hs with rfl | rfl | rfl
  · exact ⟨by simp [Joint.WF], rfl, Frame.isRigid_trans _⟩
  · exact ⟨by simp [Joint.WF, Joint.fixed], rfl, Frame.IsRigid.one⟩
  · exact ⟨by intro _; norm_num [Vec3.dot], rfl, Frame.IsRigid.one⟩

end KD
