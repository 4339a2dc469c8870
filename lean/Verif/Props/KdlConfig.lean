import Verif.Solver.KdlConfig
import Verif.Props.Dynamics

/-!
# C75: the chain solver is the robot that its configuration describes
-/

namespace KD

open Vec3 KdlVectorConverter KdlSolver

namespace KdlConfig

/-! ### Specification -/

/-- What a link of a robot can be: DH parameters (degrees and meters) of a revolute joint, or a turn about
or a slide along an axis of the previous frame (in its direction or against it) followed by a displacement. -/
inductive Desc
  | dh (offset d a alpha : ℝ)
  | turn (axis : Fin 3) (inverted : Bool) (x y z : ℝ)
  | slide (axis : Fin 3) (inverted : Bool) (x y z : ℝ)

/-- Is it one with a revolute joint? -/
def Desc.Turns : Desc → Prop
  | .slide .. => False
  | _ => True

/-- The direction of an axis. -/
def unitAxis : Fin 3 → Vec3
  | 0 => ⟨1, 0, 0⟩
  | 1 => ⟨0, 1, 0⟩
  | 2 => ⟨0, 0, 1⟩

/-- Sign of a joint. -/
def sign (inverted : Bool) : ℝ := if inverted then -1 else 1

/-- How a link places the next frame, with its joint at `q` degrees (or meters, for slides). DH: turn about z
by the joint angle, move along z, move along x, turn about x. -/
noncomputable def Desc.place (q : ℝ) : Desc → Frame
  | .dh offset d a alpha =>
    ⟨Mat3.rot2 ⟨0, 0, 1⟩ ((q + offset) * deg2rad), 0⟩ * Frame.trans ⟨0, 0, d⟩ * Frame.trans ⟨a, 0, 0⟩ *
      ⟨Mat3.rot2 ⟨1, 0, 0⟩ (alpha * deg2rad), 0⟩
  | .turn axis inv x y z => ⟨Mat3.rot2 (unitAxis axis) (sign inv * q * deg2rad), 0⟩ * Frame.trans ⟨x, y, z⟩
  | .slide axis inv x y z => Frame.trans ((sign inv * q) • unitAxis axis) * Frame.trans ⟨x, y, z⟩

/-- The number that a key of a group stands for; zero if it is left out. -/
def Reads (g : Group) (key : String) (r : ℝ) : Prop := g key = some (.num r) ∨ (g key = none ∧ r = 0)

/-- Names of the joints: slides or turns, axis, against the axis. -/
def jointName : Bool → Fin 3 → Bool → String
  | false, 0, false => "RotX"
  | false, 1, false => "RotY"
  | false, 2, false => "RotZ"
  | false, 0, true => "InvRotX"
  | false, 1, true => "InvRotY"
  | false, 2, true => "InvRotZ"
  | true, 0, false => "TransX"
  | true, 1, false => "TransY"
  | true, 2, false => "TransZ"
  | true, 0, true => "InvTransX"
  | true, 1, true => "InvTransY"
  | true, 2, true => "InvTransZ"

/-- The configuration declares the `i`-th link so. -/
inductive Declares (c : Config) (i : ℕ) : Desc → Prop
  | dh {g offset d a alpha} (hg : c.group ("link_" ++ toString i) = some g) (h1 : Reads g "offset" offset)
      (h2 : Reads g "D" d) (h3 : Reads g "A" a) (h4 : Reads g "alpha" alpha) :
      Declares c i (.dh offset d a alpha)
  | turn {g axis inv x y z} (hn : c.group ("link_" ++ toString i) = none)
      (hg : c.group ("xyzLink_" ++ toString i) = some g) (ht : g "Type" = some (.str (jointName false axis inv)))
      (h1 : Reads g "x" x) (h2 : Reads g "y" y) (h3 : Reads g "z" z) : Declares c i (.turn axis inv x y z)
  | slide {g axis inv x y z} (hn : c.group ("link_" ++ toString i) = none)
      (hg : c.group ("xyzLink_" ++ toString i) = some g) (ht : g "Type" = some (.str (jointName true axis inv)))
      (h1 : Reads g "x" x) (h2 : Reads g "y" y) (h3 : Reads g "z" z) : Declares c i (.slide axis inv x y z)

/-- The configuration holds this frame under a key, as a homogeneous matrix in rows; the identity if the
key is left out. -/
def HoldsFrame (c : Config) (key : String) (f : Frame) : Prop :=
  (∃ a b d e, c.top key = some (.list [f.M.xx, f.M.xy, f.M.xz, f.p.x, f.M.yx, f.M.yy, f.M.yz, f.p.y,
    f.M.zx, f.M.zy, f.M.zz, f.p.z, a, b, d, e])) ∨ (c.top key = none ∧ f = 1)

/-- The configuration describes a robot: base frame, links and frame at the end. -/
structure Robot (c : Config) (base : Frame) (descs : List Desc) (tip : Frame) : Prop where
  number : c.top "numLinks" = some (.int descs.length)
  base : HoldsFrame c "H0" base
  links : ∀ (i : ℕ) (d : Desc), descs[i]? = some d → Declares c i d
  tip : HoldsFrame c "HN" tip

/-- A body of this mass, centre of mass and principal moments of inertia about it. -/
structure Solid where
  mass : ℝ
  centre : Vec3
  moments : Vec3

/-- Is it one that exists? -/
def Solid.Possible (b : Solid) : Prop :=
  0 < b.mass ∧ b.moments.x ≤ b.moments.y + b.moments.z ∧ b.moments.y ≤ b.moments.x + b.moments.z ∧
    b.moments.z ≤ b.moments.x + b.moments.y

/-- Point masses that are like this body. -/
def Solid.IsMadeOf (b : Solid) (pts : List MassPoint) : Prop :=
  (∀ p ∈ pts, 0 < p.mass) ∧ (pts.map (·.mass)).sum = b.mass ∧
  (pts.map fun p => p.mass • (p.place - b.centre)).sum = 0 ∧
  (pts.map fun p => p.mass * ((p.place.y - b.centre.y) ^ 2 + (p.place.z - b.centre.z) ^ 2)).sum = b.moments.x ∧
  (pts.map fun p => p.mass * ((p.place.x - b.centre.x) ^ 2 + (p.place.z - b.centre.z) ^ 2)).sum = b.moments.y ∧
  (pts.map fun p => p.mass * ((p.place.x - b.centre.x) ^ 2 + (p.place.y - b.centre.y) ^ 2)).sum = b.moments.z

/-- The configuration gives the `i`-th link the body `b`, or no mass at all. -/
inductive Weighs (c : Config) (i : ℕ) : Option Solid → Prop
  | solid {g m cx cy cz ix iy iz} (hg : c.group ("link_" ++ toString i) = some g) (h1 : g "mass" = some (.num m))
      (h2 : g "cog" = some (.list [cx, cy, cz])) (h3 : g "inertia" = some (.list [ix, iy, iz])) :
      Weighs c i (some ⟨m, ⟨cx, cy, cz⟩, ⟨ix, iy, iz⟩⟩)
  | dh {g} (hg : c.group ("link_" ++ toString i) = some g) (h1 : g "mass" = none) : Weighs c i none
  | xyz (hn : c.group ("link_" ++ toString i) = none) : Weighs c i none

/-! ### Helpers -/

theorem reads_check {g : Group} {key : String} {r : ℝ} (h : Reads g key r) : (g.check key (.num 0)).asFloat = r := by
  rcases h with h | ⟨h, rfl⟩ <;> simp [Group.check, h, Val.asFloat]

theorem holds_matrix {c : Config} {key : String} {f : Frame} (h : HoldsFrame c key f) : matrix c.top key = f := by
  rcases h with ⟨a, b, d, e, h⟩ | ⟨h, rfl⟩
  · unfold matrix
    rw [h]
    rfl
  · unfold matrix
    rw [h]
    rfl

/-- KDL's frame is that of the four motions. -/
theorem dhFrame_eq (a alpha d theta : ℝ) :
    dhFrame a alpha d theta = ⟨Mat3.rot2 ⟨0, 0, 1⟩ theta, 0⟩ * Frame.trans ⟨0, 0, d⟩ * Frame.trans ⟨a, 0, 0⟩ *
      ⟨Mat3.rot2 ⟨1, 0, 0⟩ alpha, 0⟩ := by
  ext <;> simp [dhFrame, Mat3.rot2] <;> ring

theorem rotZ_pose (f : Frame) (q : ℝ) :
    (Segment.make (joint .rotZ 1) f).pose q = ⟨Mat3.rot2 ⟨0, 0, 1⟩ q, 0⟩ * f := by
  have h0 : ((joint .rotZ 1).pose 0).inv = 1 := by
    simp only [joint, Joint.pose, rotZ_eq, mul_zero, add_zero, Mat3.rot2_zero]
    ext <;> simp [Frame.inv, Mat3.transpose]
  simp only [Segment.make, Segment.pose, h0, one_mul]
  simp [joint, Joint.pose, rotZ_eq]

theorem make_pose {j : Joint} (h0 : j.pose 0 = 1) (f : Frame) (q : ℝ) : (Segment.make j f).pose q = j.pose q * f := by
  simp [Segment.make, Segment.pose, h0]

theorem turn_joint (axis : Fin 3) (inv : Bool) : ∃ j, xyzJoint (jointName false axis inv) = some j ∧ j.type ≠ .none ∧
    ∀ q, j.pose q = ⟨Mat3.rot2 (unitAxis axis) (sign inv * q), 0⟩ := by
  fin_cases axis <;> cases inv
  all_goals
    simp only [jointName, xyzJoint, reduceIte, String.reduceEq, Fin.zero_eta, Fin.mk_one, Fin.reduceFinMk]
    refine ⟨_, rfl, by simp [joint], fun q => ?_⟩
    simp [joint, Joint.pose, sign, unitAxis, rotX_eq, rotY_eq, rotZ_eq]

theorem slide_joint (axis : Fin 3) (inv : Bool) : ∃ j, xyzJoint (jointName true axis inv) = some j ∧ j.type ≠ .none ∧
    ∀ q, j.pose q = Frame.trans ((sign inv * q) • unitAxis axis) := by
  fin_cases axis <;> cases inv
  all_goals
    simp only [jointName, xyzJoint, reduceIte, String.reduceEq, Fin.zero_eta, Fin.mk_one, Fin.reduceFinMk]
    refine ⟨_, rfl, by simp [joint], fun q => ?_⟩
    simp [joint, Joint.pose, sign, unitAxis]
    ext <;> simp

/-- What a declared link becomes. -/
theorem link_of_declared {c : Config} {i : ℕ} {d : Desc} (h : Declares c i d) :
    ∃ l, link c i = some [l] ∧ l.seg.joint.type ≠ .none ∧
      (∀ q, d.Turns → l.seg.pose (q * deg2rad) = d.place q) ∧
      (∀ q, ¬ d.Turns → l.seg.pose q = d.place q) := by
  cases h with
  | @dh g offset dd a alpha hg h1 h2 h3 h4 =>
    have hp : ∀ q, (Segment.make (joint .rotZ 1) (dhFrame a (alpha * deg2rad) dd (offset * deg2rad))).pose (q * deg2rad) =
        (Desc.dh offset dd a alpha).place q := by
      intro q
      rw [rotZ_pose, dhFrame_eq]
      simp only [Desc.place, ← mul_assoc]
      congr 3
      have ha : dot (⟨0, 0, 1⟩ : Vec3) ⟨0, 0, 1⟩ = 1 := by simp [dot]
      have := Mat3.rot2_add ha (q * deg2rad) (offset * deg2rad)
      rw [← add_mul] at this
      ext <;> simp [this]
    unfold link dhLink
    rw [hg]
    simp only [reads_check h1, reads_check h2, reads_check h3, reads_check h4]
    refine ⟨_, rfl, ?_, ?_, fun q hq => absurd trivial hq⟩
    · split <;> simp [Segment.make, joint]
    · intro q _
      rw [← hp q]
      split <;> rfl
  | @turn g axis inv x y z hn hg ht h1 h2 h3 =>
    unfold link xyzLink
    rw [hn, hg]
    simp only [reads_check h1, reads_check h2, reads_check h3]
    simp only [Group.check, ht, Option.getD_some, Val.asString]
    obtain ⟨j, hj, hjt, hjp⟩ := turn_joint axis inv
    rw [hj]
    refine ⟨_, rfl, by simpa [Segment.make] using hjt, fun q _ => ?_, fun q hq => absurd trivial hq⟩
    have h0 : j.pose 0 = 1 := by
      rw [hjp, mul_zero, Mat3.rot2_zero]
      rfl
    rw [make_pose h0, hjp, ← mul_assoc]
    rfl
  | @slide g axis inv x y z hn hg ht h1 h2 h3 =>
    unfold link xyzLink
    rw [hn, hg]
    simp only [reads_check h1, reads_check h2, reads_check h3]
    simp only [Group.check, ht, Option.getD_some, Val.asString]
    obtain ⟨j, hj, hjt, hjp⟩ := slide_joint axis inv
    rw [hj]
    refine ⟨_, rfl, by simpa [Segment.make] using hjt, fun q hq => hq.elim, fun q _ => ?_⟩
    have h0 : j.pose 0 = 1 := by
      rw [hjp, mul_zero, zero_smul]
      rfl
    rw [make_pose h0, hjp]
    rfl

theorem links_of_declared {c : Config} (n : ℕ) : ∀ (i : ℕ) (descs : List Desc), descs.length = n →
    (∀ (k : ℕ) (d : Desc), descs[k]? = some d → Declares c (i + k) d) →
    ∃ ls, links c i n = some ls ∧ List.Forall₂ (fun l d => l.seg.joint.type ≠ .none ∧
      (∀ q, Desc.Turns d → l.seg.pose (q * deg2rad) = d.place q) ∧
      (∀ q, ¬ Desc.Turns d → l.seg.pose q = d.place q)) ls descs := by
  induction n with
  | zero =>
    intro i descs hl _
    rw [List.length_eq_zero_iff.mp hl]
    exact ⟨[], rfl, List.Forall₂.nil⟩
  | succ n ih =>
    intro i descs hl hd
    cases descs with
    | nil => simp at hl
    | cons d descs =>
      obtain ⟨l, h1, h2⟩ := link_of_declared (hd 0 d rfl)
      obtain ⟨ls, h3, h4⟩ := ih (i + 1) descs (by simpa using hl) (fun k e hk => by
        have := hd (k + 1) e (by simpa using hk)
        rwa [show i + (k + 1) = i + 1 + k by omega] at this)
      refine ⟨l :: ls, ?_, List.Forall₂.cons h2 h4⟩
      rw [Nat.add_zero] at h1
      simp only [links, h1, h3, Option.bind_eq_bind, Option.bind_some, Option.pure_def]
      rfl

theorem robot_chain {c : Config} {base tip : Frame} {descs : List Desc} (h : Robot c base descs tip) :
    ∃ ls, chain c = some (fixedLink base :: ls ++ [fixedLink tip]) ∧ links c 0 descs.length = some ls ∧
      List.Forall₂ (fun l d => l.seg.joint.type ≠ .none ∧
        (∀ q, Desc.Turns d → l.seg.pose (q * deg2rad) = d.place q) ∧
        (∀ q, ¬ Desc.Turns d → l.seg.pose q = d.place q)) ls descs := by
  obtain ⟨ls, h1, h2⟩ := links_of_declared descs.length 0 descs rfl (fun k d hk => by
    rw [Nat.zero_add]; exact h.links k d hk)
  refine ⟨ls, ?_, h1, h2⟩
  unfold chain
  simp only [Group.check, h.number, Option.getD_some, Val.asInt, Int.toNat_natCast, h1, holds_matrix h.base,
    holds_matrix h.tip, Option.bind_eq_bind, Option.bind_some, Option.pure_def]

theorem nJoints_links {descs : List Desc} {ls : List Link} {P : Link → Desc → Prop}
    (h : List.Forall₂ (fun l d => l.seg.joint.type ≠ .none ∧ P l d) ls descs) :
    Chain.nJoints (ls.map (·.seg)) = descs.length := by
  induction h with
  | nil => rfl
  | @cons l d ls descs hl _ ih =>
    rw [List.map_cons, Chain.nJoints_cons, if_pos hl.1, ih, List.length_cons]
    omega

theorem fk_links {descs : List Desc} {ls : List Link} (f : Desc → ℝ → ℝ)
    (h : List.Forall₂ (fun l d => l.seg.joint.type ≠ .none ∧ ∀ q, l.seg.pose (f d q) = d.place q) ls descs) :
    ∀ (q : List ℝ) (acc : Frame), q.length = descs.length →
      Chain.fkLoop (ls.map (·.seg)) (List.zipWith f descs q) acc = some (acc * (List.zipWith (fun d x => d.place x) descs q).prod) := by
  induction h with
  | nil => intro q acc _; simp [Chain.fkLoop]
  | @cons l d ls descs hl _ ih =>
    intro q acc hq
    cases q with
    | nil => simp at hq
    | cons x q =>
      rw [List.map_cons, List.zipWith_cons_cons, List.zipWith_cons_cons, List.prod_cons]
      unfold Chain.fkLoop
      rw [if_pos hl.1]
      simp only
      rw [ih q _ (by simpa using hq), hl.2, mul_assoc]

/-- What a successful `open` has gone through. -/
theorem open_inv {st : List Link → Bool} {w : Bool} {c : Config} {o : Opened}
    (h : openSolver st w c = some (some o)) :
    chain c = some o.solver.links ∧ o.solver.original = o.solver.links ∧
      (∃ g, (c.top.check "gravity" (.list [0, 0, -9.81])).asList = some g ∧
        o.solver.gravity = ⟨get g 0, get g 1, get g 2⟩) ∧
      (o.ikVel = "pinv" ∨ o.ikVel = "wdls") ∧
      positionSolver st w c o.solver.links = some (o.ikPos, o.limits) := by
  unfold openSolver openFrom at h
  simp only [List.nil_append] at h
  cases hg : (c.top.check "gravity" (.list [0, 0, -9.81])).asList with
  | none => rw [hg] at h; simp at h
  | some g =>
    rw [hg] at h
    simp only [Option.bind_eq_bind, Option.bind_some] at h
    cases hc : chain c with
    | none => rw [hc] at h; simp at h
    | some ls =>
      rw [hc] at h
      simp only at h
      by_cases hv : (c.top.check "ikVel" (.str "pinv")).asString = "pinv" ∨
          (c.top.check "ikVel" (.str "pinv")).asString = "wdls"
      · rw [if_pos hv] at h
        cases hp : positionSolver st w c ls with
        | none => rw [hp] at h; simp at h
        | some r =>
          rw [hp] at h
          simp only [Option.pure_def, Option.some.injEq] at h
          subst h
          exact ⟨rfl, rfl, ⟨g, rfl, rfl⟩, hv, hp⟩
      · rw [if_neg hv] at h
        simp at h

theorem fixed_pose (f : Frame) (q : ℝ) : (fixedLink f).seg.pose q = f := by
  simp [fixedLink, Segment.make, Segment.pose, Joint.fixed, Joint.pose]

/-- Forward kinematics of a chain between two fixed segments. -/
theorem fk_between {base tip F : Frame} {ls : List Link} {q : List ℝ}
    (h : ∀ acc, Chain.fkLoop (ls.map (·.seg)) q acc = some (acc * F)) :
    Chain.fk ((fixedLink base :: ls ++ [fixedLink tip]).map (·.seg)) q = some (base * F * tip) := by
  rw [List.map_append, List.map_cons, List.map_cons, List.map_nil]
  show Chain.fk (_ ++ [Segment.make Joint.fixed tip]) q = _
  rw [Chain.fk_fixed]
  have : Chain.fk ((fixedLink base).seg :: ls.map (·.seg)) q = some (base * F) := by
    unfold Chain.fk Chain.fkLoop
    rw [if_neg (by simp [fixedLink, Segment.make, Joint.fixed]), fixed_pose, h, one_mul]
  rw [this]
  rfl

theorem nJoints_between (base tip : Frame) (ls : List Link) :
    Chain.nJoints ((fixedLink base :: ls ++ [fixedLink tip]).map (·.seg)) = Chain.nJoints (ls.map (·.seg)) := by
  rw [List.map_append, List.map_cons, List.map_cons, List.map_nil]
  show Chain.nJoints (_ ++ [Segment.make Joint.fixed tip]) = _
  rw [Chain.nJoints_fixed, Chain.nJoints_cons, if_neg (by simp [fixedLink, Segment.make, Joint.fixed]), Nat.zero_add]

theorem joint_unit (t : JointType) (h : t ≠ .rotAxis) (x : ℝ) : (joint t x).Unit := fun e => absurd e h

theorem make_wf {j : Joint} (hj : j.Unit) {f : Frame} (hf : f.IsRigid) : (Segment.make j f).Wf :=
  ⟨hj, (Frame.IsRigid.inv (hj.pose_rigid 0)).mul hf⟩

theorem dhFrame_rigid (a alpha d theta : ℝ) : (dhFrame a alpha d theta).IsRigid := by
  rw [dhFrame_eq]
  refine Frame.IsRigid.mul (Frame.IsRigid.mul (Frame.IsRigid.mul ?_ (Frame.isRigid_trans _)) (Frame.isRigid_trans _)) ?_
  · exact Mat3.rot2_isRot (by simp [dot]) _
  · exact Mat3.rot2_isRot (by simp [dot]) _

theorem ite_type {p : Prop} [Decidable p] {a j : Joint} {y : Option Joint} (ha : a.type ≠ .rotAxis)
    (hy : y = some j → j.type ≠ .rotAxis) : (if p then some a else y) = some j → j.type ≠ .rotAxis := by
  intro h
  by_cases hp : p
  · rw [if_pos hp] at h
    rw [← Option.some.inj h]
    exact ha
  · rw [if_neg hp] at h
    exact hy h

theorem xyzJoint_type {t : String} {j : Joint} : xyzJoint t = some j → j.type ≠ .rotAxis := by
  unfold xyzJoint
  iterate 12 refine ite_type (by simp [joint]) ?_
  intro h
  cases h

theorem link_wf {c : Config} {i : ℕ} {ls : List Link} (h : link c i = some ls) : ∀ l ∈ ls, l.seg.Wf := by
  intro l hl
  unfold link at h
  split at h
  · rename_i g _
    rw [← Option.some.inj h, List.mem_singleton] at hl
    subst hl
    have hw : (Segment.make (joint .rotZ 1) (dhFrame ((g.check "A" (.num 0)).asFloat)
        ((g.check "alpha" (.num 0)).asFloat * deg2rad) ((g.check "D" (.num 0)).asFloat)
        ((g.check "offset" (.num 0)).asFloat * deg2rad))).Wf :=
      make_wf (joint_unit _ (by simp) _) (dhFrame_rigid _ _ _ _)
    unfold dhLink
    simp only
    split <;> exact hw
  · split at h
    · rw [← Option.some.inj h] at hl
      unfold xyzLink at hl
      simp only at hl
      split at hl
      · rename_i j hj
        rw [List.mem_singleton] at hl
        subst hl
        refine make_wf ?_ (Frame.isRigid_trans _)
        exact fun e => absurd e (xyzJoint_type hj)
      · cases hl
    · cases h

theorem fixed_wf {f : Frame} (hf : f.IsRigid) : (fixedLink f).seg.Wf :=
  make_wf (fun e => by cases e) hf

theorem zero_of : Inertia.zero.Of [] := by
  refine ⟨by simp [Inertia.zero], by simp [Inertia.zero], fun w => ?_⟩
  ext <;> simp [Inertia.zero]

theorem link_of_weighs {c : Config} {i : ℕ} {d : Desc} (h : Declares c i d) {b : Option Solid} (hb : Weighs c i b)
    (hp : ∀ s, b = some s → s.Possible) {l : Link} (hl : link c i = some [l]) :
    ∃ pts, l.inertia.Of pts ∧ (b = none → pts = []) ∧ ∀ s, b = some s → s.IsMadeOf pts := by
  unfold link at hl
  cases hb with
  | @solid g m cx cy cz ix iy iz hg h1 h2 h3 =>
    rw [hg] at hl
    have hl := List.singleton_injective (Option.some.inj hl)
    obtain ⟨p1, p2, p3, p4⟩ := hp _ rfl
    obtain ⟨pts, k1, k2⟩ := DynSolver.C74_configured_body m p1 ⟨cx, cy, cz⟩ ⟨ix, iy, iz⟩ p2 p3 p4
    refine ⟨pts, ?_, by simp, fun s hs => ?_⟩
    · rw [← hl]
      unfold dhLink
      simpa [h1, h2, h3, Val.asList, Val.asFloat, get] using k1
    · rw [← Option.some.inj hs]
      exact k2
  | @dh g hg h1 =>
    rw [hg] at hl
    have hl := List.singleton_injective (Option.some.inj hl)
    refine ⟨[], ?_, fun _ => rfl, by simp⟩
    rw [← hl]
    unfold dhLink
    simpa [h1] using zero_of
  | xyz hn =>
    refine ⟨[], ?_, fun _ => rfl, by simp⟩
    cases h with
    | dh hg => rw [hn] at hg; cases hg
    | turn _ hg _ =>
      rw [hn, hg] at hl
      have hl := Option.some.inj hl
      unfold xyzLink at hl
      simp only at hl
      split at hl
      · rw [← List.singleton_injective hl]; exact zero_of
      · cases hl
    | slide _ hg _ =>
      rw [hn, hg] at hl
      have hl := Option.some.inj hl
      unfold xyzLink at hl
      simp only at hl
      split at hl
      · rw [← List.singleton_injective hl]; exact zero_of
      · cases hl

theorem links_of_weighs {c : Config} (n : ℕ) : ∀ (i : ℕ) (descs : List Desc) (bs : List (Option Solid)) (ls : List Link),
    descs.length = n → bs.length = n →
    (∀ (k : ℕ) (d : Desc), descs[k]? = some d → Declares c (i + k) d) →
    (∀ (k : ℕ) (b : Option Solid), bs[k]? = some b → Weighs c (i + k) b) →
    (∀ s, some s ∈ bs → s.Possible) → links c i n = some ls →
    (∀ l ∈ ls, l.seg.Wf) ∧ ∃ bodies, List.Forall₂ (fun l b => Inertia.Of l.inertia b) ls bodies ∧
      List.Forall₂ (fun b pts => (b = none → pts = []) ∧ ∀ s, b = some s → Solid.IsMadeOf s pts) bs bodies := by
  induction n with
  | zero =>
    intro i descs bs ls _ h2 _ _ _ h
    rw [List.length_eq_zero_iff.mp h2]
    simp only [links, Option.some.injEq] at h
    subst h
    exact ⟨by simp, [], List.Forall₂.nil, List.Forall₂.nil⟩
  | succ n ih =>
    intro i descs bs ls h1 h2 hd hb hp h
    obtain ⟨d, descs, rfl⟩ := List.exists_cons_of_length_eq_add_one h1
    obtain ⟨b, bs, rfl⟩ := List.exists_cons_of_length_eq_add_one h2
    have hd0 := hd 0 d rfl
    have hb0 := hb 0 b rfl
    rw [Nat.add_zero] at hd0 hb0
    obtain ⟨l, e1, -⟩ := link_of_declared hd0
    simp only [links, e1, Option.bind_eq_bind, Option.bind_some, Option.pure_def] at h
    obtain ⟨ls', e2, e3⟩ := Option.bind_eq_some_iff.mp h
    obtain ⟨k1, bodies, k2, k3⟩ := ih (i + 1) descs bs ls' (by simpa using h1) (by simpa using h2)
      (fun k e hk => by
        have := hd (k + 1) e (by simpa using hk)
        rwa [show i + (k + 1) = i + 1 + k by omega] at this)
      (fun k e hk => by
        have := hb (k + 1) e (by simpa using hk)
        rwa [show i + (k + 1) = i + 1 + k by omega] at this)
      (fun s hs => hp s (by simp [hs])) e2
    obtain ⟨pts, m1, m2, m3⟩ := link_of_weighs hd0 hb0 (fun s hs => hp s (by simp [hs])) e1
    rw [← Option.some.inj e3]
    refine ⟨?_, pts :: bodies, List.Forall₂.cons m1 k2, List.Forall₂.cons ⟨m2, m3⟩ k3⟩
    intro x hx
    rcases List.mem_append.mp hx with hx | hx
    · exact link_wf e1 x hx
    · exact k1 x hx

/-! ### C75 -/

/-- The chain of a robot that turns. -/
theorem robot_fk {st : List Link → Bool} {w : Bool} {c : Config} {base tip : Frame}
    {descs : List Desc} (h : Robot c base descs tip) (ht : ∀ d ∈ descs, d.Turns) {o : Opened}
    (ho : openSolver st w c = some (some o)) (q : List ℝ) (hq : q.length = descs.length) :
    (KdlSolver.opened o.solver.chain).numJoints = descs.length ∧
    o.solver.chain.fk (q.map (· * deg2rad)) = some (base * (List.zipWith (fun d x => d.place x) descs q).prod * tip) := by
  obtain ⟨ls, h1, -, h2⟩ := robot_chain h
  obtain ⟨g1, -⟩ := open_inv ho
  rw [h1] at g1
  have hl : o.solver.links = fixedLink base :: ls ++ [fixedLink tip] := (Option.some.inj g1).symm
  have hn : (KdlSolver.opened o.solver.chain).numJoints = descs.length := by
    show Chain.nJoints (o.solver.links.map (·.seg)) = _
    rw [hl, nJoints_between, nJoints_links h2]
  refine ⟨hn, ?_⟩
  have h3 : List.Forall₂ (fun l d => l.seg.joint.type ≠ .none ∧
      ∀ q, l.seg.pose ((fun _ x => x * deg2rad) d q) = d.place q) ls descs := by
    clear h1 hl g1 hn h ho hq
    induction h2 with
    | nil => exact List.Forall₂.nil
    | cons hl _ ih =>
      exact List.Forall₂.cons ⟨hl.1, fun q => hl.2.1 q (ht _ (by simp))⟩ (ih fun d hd => ht d (by simp [hd]))
  have h4 := fun acc => fk_links (fun _ x => x * deg2rad) h3 q acc hq
  have e : List.zipWith (fun (_ : Desc) x => x * deg2rad) descs q = q.map (· * deg2rad) := by
    clear h4 h3 h2 h1 hl g1 hn h ho ht
    induction descs generalizing q with
    | nil => rw [List.length_eq_zero_iff.mp hq]; rfl
    | cons d descs ih =>
      cases q with
      | nil => simp at hq
      | cons x q => simp [ih q (by simpa using hq)]
  simp only [e] at h4
  show Chain.fk (o.solver.links.map (·.seg)) _ = _
  rw [hl, fk_between h4]

/-- C75: forward kinematics is that of the robot described, for joints that turn: the base frame, each link in
its turn, the frame at the end; as many joints as links. Slides are missing, see
`C75_slide_counterexample`. -/
theorem C75_forward_kinematics_partial {st : List Link → Bool} {w : Bool} {c : Config} {base tip : Frame}
    {descs : List Desc} (h : Robot c base descs tip) (ht : ∀ d ∈ descs, d.Turns) {o : Opened}
    (ho : openSolver st w c = some (some o)) (q : List ℝ) (hq : q.length = descs.length) :
    (KdlSolver.opened o.solver.chain).numJoints = descs.length ∧
    (KdlSolver.opened o.solver.chain).fwdKin q =
      some (frameToVector (base * (List.zipWith (fun d x => d.place x) descs q).prod * tip)) := by
  obtain ⟨hn, hf⟩ := robot_fk h ht ho q hq
  refine ⟨hn, ?_⟩
  rw [fwdKin_eq _ _ (by rw [hn, hq]), hn, ← hq, List.take_length]
  show Option.map _ (o.solver.chain.fk _) = _
  rw [hf]
  rfl

/-- C75: links that are declared, joint limits in order and a supported method: the solver opens. -/
theorem C75_opens {st : List Link → Bool} {w : Bool} {c : Config} {base tip : Frame} {descs : List Desc}
    (h : Robot c base descs tip) (mins maxs : List ℝ) (hmin : c.top "mins" = some (.list mins))
    (hmax : c.top "maxs" = some (.list maxs)) (l1 : mins.length = descs.length) (l2 : maxs.length = descs.length)
    (hle : ∀ (i : ℕ) a b, mins[i]? = some a → maxs[i]? = some b → a ≤ b)
    (hg : c.top "gravity" = none) (hv : c.top "ikVel" = none) (hk : c.top "ik" = none) (hs : c.top "invKinStrategy" = none)
    (hm : c.top "ikPos" = some (.str "nrjl") ∨ c.top "ikPos" = some (.str "id") ∨ (c.top "ikPos" = none ∧
      ∀ l, chain c = some l → st l = true)) :
    ∃ o, openSolver st w c = some (some o) ∧ o.solver.gravity = ⟨0, 0, -9.81⟩ ∧
      o.limits = some (mins.map (· * deg2rad), maxs.map (· * deg2rad)) := by
  obtain ⟨ls, h1, -, h2⟩ := robot_chain h
  have hn : Chain.nJoints ((fixedLink base :: ls ++ [fixedLink tip]).map (·.seg)) = descs.length := by
    rw [nJoints_between, nJoints_links h2]
  have hd : 0 < deg2rad := by unfold deg2rad; positivity
  have hlim : jointLimits c descs.length = some (mins.map (· * deg2rad), maxs.map (· * deg2rad)) := by
    unfold jointLimits
    rw [hmin, hmax]
    simp only [Option.bind_some, Val.asList]
    rw [if_neg (by omega), if_neg]
    rw [List.any_eq_true]
    rintro ⟨⟨a, b⟩, hab, hlt⟩
    obtain ⟨i, hi⟩ := List.mem_iff_getElem?.mp hab
    rw [List.getElem?_zip_eq_some] at hi
    obtain ⟨i1, i2⟩ := hi
    rw [List.getElem?_map, Option.map_eq_some_iff] at i1 i2
    obtain ⟨a', ha, rfl⟩ := i1
    obtain ⟨b', hb, rfl⟩ := i2
    have := hle i a' b' ha hb
    simp only [decide_eq_true_eq, gt_iff_lt] at hlt
    nlinarith
  have hp : ∃ s, positionSolver st w c (fixedLink base :: ls ++ [fixedLink tip]) =
      some (s, some (mins.map (· * deg2rad), maxs.map (· * deg2rad))) := by
    unfold positionSolver
    simp only [hn, hlim]
    rcases hm with hm | hm | ⟨hm, hst⟩
    · exact ⟨"nrjl", by simp [Group.check, hm, Val.asString]⟩
    · exact ⟨"id", by simp [Group.check, hm, Val.asString]⟩
    · have hst := hst _ h1
      rw [List.cons_append] at hst
      exact ⟨"st", by simp [Group.check, hm, hk, hs, hst, Val.asString]⟩
  obtain ⟨s, hp⟩ := hp
  refine ⟨⟨⟨fixedLink base :: ls ++ [fixedLink tip], fixedLink base :: ls ++ [fixedLink tip], ⟨0, 0, -9.81⟩⟩,
    "pinv", s, some (mins.map (· * deg2rad), maxs.map (· * deg2rad))⟩, ?_, rfl, rfl⟩
  unfold openSolver openFrom
  simp only [List.nil_append, Group.check, hg, hv, Option.getD_none, Val.asList, Val.asString, Option.bind_eq_bind, Option.bind_some, h1, hp]
  rfl

/-- C75: joint limits that a solver has been opened with are ordered, one pair for each joint, and those
of the configuration. -/
theorem C75_limits {st : List Link → Bool} {w : Bool} {c : Config} {o : Opened}
    (ho : openSolver st w c = some (some o)) (hne : o.ikPos ≠ "lma") :
    ∃ mins maxs : List ℝ, c.top "mins" = some (.list mins) ∧ c.top "maxs" = some (.list maxs) ∧
      o.limits = some (mins.map (· * deg2rad), maxs.map (· * deg2rad)) ∧
      mins.length = (KdlSolver.opened o.solver.chain).numJoints ∧
      maxs.length = (KdlSolver.opened o.solver.chain).numJoints ∧
      ∀ (i : ℕ) a b, mins[i]? = some a → maxs[i]? = some b → a ≤ b := by
  obtain ⟨-, -, -, -, h⟩ := open_inv ho
  have hd : 0 < deg2rad := by unfold deg2rad; positivity
  have key : ∃ l, jointLimits c (Chain.nJoints (o.solver.links.map (·.seg))) = some l ∧ o.limits = some l := by
    unfold positionSolver at h
    simp only at h
    split_ifs at h with a1 a2 a3 a4 a5
    · simp only [Option.some.injEq, Prod.mk.injEq] at h
      exact absurd (h.1 ▸ a1) hne
    all_goals
      cases hl : jointLimits c (Chain.nJoints (o.solver.links.map (·.seg))) with
      | none => simp [hl] at h
      | some l =>
        refine ⟨l, rfl, ?_⟩
        simp [hl] at h <;> first
          | exact h.2.symm
  obtain ⟨l, h1, h2⟩ := key
  unfold jointLimits at h1
  split at h1
  · rename_i mins maxs e1 e2
    obtain ⟨v1, e1, e1'⟩ := Option.bind_eq_some_iff.mp e1
    obtain ⟨v2, e2, e2'⟩ := Option.bind_eq_some_iff.mp e2
    have f1 : v1 = .list mins := by
      cases v1 <;> simp_all [Val.asList]
    have f2 : v2 = .list maxs := by
      cases v2 <;> simp_all [Val.asList]
    subst f1 f2
    by_cases hlen : maxs.length ≠ Chain.nJoints (o.solver.links.map (·.seg)) ∨
        mins.length ≠ Chain.nJoints (o.solver.links.map (·.seg))
    · rw [if_pos hlen] at h1; cases h1
    · rw [if_neg hlen] at h1
      push Not at hlen
      simp only at h1
      split_ifs at h1 with hany
      refine ⟨mins, maxs, e1, e2, ?_, hlen.2, hlen.1, fun i a b ha hb => ?_⟩
      · rw [h2, ← Option.some.inj h1]
      · by_contra hlt
        apply hany
        rw [List.any_eq_true]
        refine ⟨(a * deg2rad, b * deg2rad), ?_, ?_⟩
        · rw [List.mem_iff_getElem?]
          refine ⟨i, ?_⟩
          rw [List.getElem?_zip_eq_some]
          simp [ha, hb]
        · simp only [decide_eq_true_eq, gt_iff_lt]
          push Not at hlt
          nlinarith
  · cases h1

/-- The homogeneous matrix of the identity, in rows. -/
def identity : List ℝ := [1, 0, 0, 0, 0, 1, 0, 0, 0, 0, 1, 0, 0, 0, 0, 1]

/-- C75: a matrix may be given up to some element; the rest of it is that of the identity. -/
theorem C75_short_matrix {g : Group} {key : String} {l : List ℝ} (h : g key = some (.list l)) (hl : l.length ≤ 16)
    {full : Group} (hf : full key = some (.list (l ++ identity.drop l.length))) :
    matrix g key = matrix full key := by
  have e : ∀ k d, identity.getD k 0 = d → k < 16 → l.getD k d = (l ++ identity.drop l.length).getD k d := by
    intro k d hk hk'
    rw [List.getD_eq_getElem?_getD, List.getD_eq_getElem?_getD]
    by_cases hkl : k < l.length
    · rw [List.getElem?_append_left hkl]
    · rw [List.getElem?_append_right (by omega), List.getElem?_drop, show l.length + (k - l.length) = k by omega,
        List.getElem?_eq_none (by omega)]
      have : k < identity.length := by simpa [identity] using hk'
      rw [List.getD_eq_getElem?_getD, List.getElem?_eq_getElem this, Option.getD_some] at hk
      rw [List.getElem?_eq_getElem this, hk]
      rfl
  unfold matrix
  rw [h, hf]
  simp only [Option.bind_some, Val.asList]
  rw [← e 0 1 rfl (by omega), ← e 1 0 rfl (by omega), ← e 2 0 rfl (by omega), ← e 3 0 rfl (by omega),
    ← e 4 0 rfl (by omega), ← e 5 1 rfl (by omega), ← e 6 0 rfl (by omega), ← e 7 0 rfl (by omega),
    ← e 8 0 rfl (by omega), ← e 9 0 rfl (by omega), ← e 10 1 rfl (by omega), ← e 11 0 rfl (by omega)]

/-- Only the first row of the base frame: one meter along x. -/
example : matrix (fun _ => some (.list [1, 0, 0, 1])) "H0" = Frame.trans ⟨1, 0, 0⟩ := by
  ext <;> simp [matrix, Val.asList]

/-- C75: an arm that the screw theory solver cannot be made for, weights that cannot be read, and names of
methods other than those documented are reported. -/
theorem C75_rejected {st : List Link → Bool} {w : Bool} {c : Config} {o : Opened}
    (ho : openSolver st w c = some (some o)) :
    (o.ikPos = "lma" ∧ w = true ∨ o.ikPos = "nrjl" ∨ o.ikPos = "st" ∧ st o.solver.links = true ∨ o.ikPos = "id") ∧
    (o.ikVel = "pinv" ∨ o.ikVel = "wdls") := by
  obtain ⟨-, -, -, hv, h⟩ := open_inv ho
  refine ⟨?_, hv⟩
  unfold positionSolver at h
  simp only at h
  generalize (c.top.check "ikPos" (c.top.check "ik" (.str "st"))).asString = k at h
  by_cases a1 : k = "lma"
  · rw [if_pos a1] at h
    cases w with
    | false => simp at h
    | true =>
      simp only [if_true, Option.some.injEq, Prod.mk.injEq] at h
      exact Or.inl ⟨h.1 ▸ a1, rfl⟩
  rw [if_neg a1] at h
  by_cases a2 : k = "nrjl"
  · rw [if_pos a2] at h
    obtain ⟨l, -, e⟩ := Option.map_eq_some_iff.mp h
    exact Or.inr (Or.inl ((Prod.mk.inj e).1 ▸ a2))
  rw [if_neg a2] at h
  by_cases a3 : k = "st"
  · rw [if_pos a3] at h
    obtain ⟨l, -, e⟩ := Option.bind_eq_some_iff.mp h
    split_ifs at e with b1 b2
    exact Or.inr (Or.inr (Or.inl ⟨(Prod.mk.inj (Option.some.inj e)).1 ▸ a3, b2⟩))
  rw [if_neg a3] at h
  by_cases a4 : k = "id"
  · rw [if_pos a4] at h
    obtain ⟨l, -, e⟩ := Option.map_eq_some_iff.mp h
    exact Or.inr (Or.inr (Or.inr ((Prod.mk.inj e).1 ▸ a4)))
  · rw [if_neg a4] at h
    cases h

/-- C75: a link that is not described at all is reported. -/
theorem C75_missing_link {st : List Link → Bool} {w : Bool} {c : Config} {n : ℕ}
    (hn : c.top "numLinks" = some (.int n)) {i : ℕ} (hi : i < n)
    (h1 : c.group ("link_" ++ toString i) = none) (h2 : c.group ("xyzLink_" ++ toString i) = none) :
    ∀ o, openSolver st w c ≠ some (some o) := by
  intro o ho
  obtain ⟨h, -⟩ := open_inv ho
  have key : ∀ (m k : ℕ), k ≤ i → i < k + m → links c k m = none := by
    intro m
    induction m with
    | zero => intro k _ _; omega
    | succ m ih =>
      intro k hk hk'
      by_cases he : k = i
      · subst he
        simp only [links, link, h1, h2]
        rfl
      · have := ih (k + 1) (by omega) (by omega)
        cases hl : link c k with
        | none => simp [links, hl]
        | some l => simp [links, hl, this]
  unfold chain at h
  simp only [Group.check, hn, Option.getD_some, Val.asInt, Int.toNat_natCast] at h
  rw [key n 0 (by omega) (by omega)] at h
  simp at h

/-- C75: the links have the masses that are configured: inverse dynamics (see C74) is that of these bodies,
with no mass before the first link or after the last one. -/
theorem C75_bodies {st : List Link → Bool} {w : Bool} {c : Config} {base tip : Frame} {descs : List Desc}
    (h : Robot c base descs tip) (hbase : base.IsRigid) (htip : tip.IsRigid) {bs : List (Option Solid)}
    (hlen : bs.length = descs.length) (hb : ∀ (i : ℕ) (b : Option Solid), bs[i]? = some b → Weighs c i b)
    (hp : ∀ s, some s ∈ bs → s.Possible) {o : Opened} (ho : openSolver st w c = some (some o)) :
    ∃ bodies, o.solver.Describes ([] :: bodies ++ [[]]) ∧
      List.Forall₂ (fun b pts => (b = none → pts = []) ∧ ∀ s, b = some s → Solid.IsMadeOf s pts) bs bodies := by
  obtain ⟨ls, h1, h2, -⟩ := robot_chain h
  obtain ⟨g1, -⟩ := open_inv ho
  rw [h1] at g1
  have hl : o.solver.links = fixedLink base :: ls ++ [fixedLink tip] := (Option.some.inj g1).symm
  obtain ⟨k1, bodies, k2, k3⟩ := links_of_weighs descs.length 0 descs bs ls rfl hlen
    (fun k d hk => by rw [Nat.zero_add]; exact h.links k d hk)
    (fun k b hk => by rw [Nat.zero_add]; exact hb k b hk) hp h2
  refine ⟨bodies, ⟨?_, ?_⟩, k3⟩
  · intro l hm
    rw [hl] at hm
    simp only [List.cons_append, List.mem_cons, List.mem_append, List.not_mem_nil, or_false] at hm
    rcases hm with rfl | hm | rfl
    · exact fixed_wf hbase
    · exact k1 l hm
    · exact fixed_wf htip
  · rw [hl]
    exact List.rel_append (R := fun (l : Link) b => Inertia.Of l.inertia b)
      (List.Forall₂.cons (a := fixedLink base) zero_of k2) (List.Forall₂.cons (a := fixedLink tip) zero_of List.Forall₂.nil)

/-! ### A robot, and what goes wrong -/

/-- Keys and values of a group. -/
def group (l : List (String × Val)) : Group := fun k => (l.find? (·.1 = k)).map (·.2)

/-- A robot of two links in a plane, the second with a mass. -/
noncomputable def planar : Config where
  top := group [("numLinks", .int 2), ("mins", .list [-90, -120]), ("maxs", .list [90, 120]), ("ikPos", .str "nrjl")]
  group k :=
    if k = "link_0" then some (group [("A", .num 1)])
    else if k = "link_1" then some (group [("A", .num 2), ("offset", .num 90), ("mass", .num 3),
      ("cog", .list [-1, 0, 0]), ("inertia", .list [1, 1, 1])])
    else none

theorem planar_robot : Robot planar 1 [.dh 0 0 1 0, .dh 90 0 2 0] 1 := by
  constructor
  · rfl
  · exact Or.inr ⟨rfl, rfl⟩
  · intro i d hd
    match i with
    | 0 =>
      rw [← Option.some.inj hd]
      exact .dh (g := group [("A", .num 1)]) rfl (Or.inr ⟨rfl, rfl⟩) (Or.inr ⟨rfl, rfl⟩) (Or.inl rfl) (Or.inr ⟨rfl, rfl⟩)
    | 1 =>
      rw [← Option.some.inj hd]
      exact .dh (g := group [("A", .num 2), ("offset", .num 90), ("mass", .num 3),
        ("cog", .list [-1, 0, 0]), ("inertia", .list [1, 1, 1])]) rfl (Or.inl rfl) (Or.inr ⟨rfl, rfl⟩) (Or.inl rfl)
        (Or.inr ⟨rfl, rfl⟩)
    | i + 2 => simp at hd
  · exact Or.inr ⟨rfl, rfl⟩

/-- The robot opens. -/
example (st : List Link → Bool) (w : Bool) : ∃ o, openSolver st w planar = some (some o) ∧ o.ikPos ≠ "lma" := by
  obtain ⟨o, h1, h2, h3⟩ := C75_opens (st := st) (w := w) planar_robot [-90, -120] [90, 120] rfl rfl rfl rfl
    (fun i a b ha hb => by
      match i with
      | 0 => simp at ha hb; linarith
      | 1 => simp at ha hb; linarith
      | i + 2 => simp at ha) rfl rfl rfl rfl (Or.inl rfl)
  refine ⟨o, h1, ?_⟩
  obtain ⟨-, -, -, -, h⟩ := open_inv h1
  intro e
  rw [e] at h
  unfold positionSolver at h
  have : (planar.top.check "ikPos" (planar.top.check "ik" (.str "st"))).asString = "nrjl" := rfl
  simp [this] at h

/-- Its masses. -/
example : ∀ (i : ℕ) (b : Option Solid), [none, some (⟨3, ⟨-1, 0, 0⟩, ⟨1, 1, 1⟩⟩ : Solid)][i]? = some b → Weighs planar i b := by
  intro i b hb
  match i with
  | 0 =>
    rw [← Option.some.inj hb]
    exact .dh (g := group [("A", .num 1)]) rfl rfl
  | 1 =>
    rw [← Option.some.inj hb]
    exact .solid (g := group [("A", .num 2), ("offset", .num 90), ("mass", .num 3),
        ("cog", .list [-1, 0, 0]), ("inertia", .list [1, 1, 1])]) rfl rfl rfl rfl
  | i + 2 => simp at hb

example : (⟨3, ⟨-1, 0, 0⟩, ⟨1, 1, 1⟩⟩ : Solid).Possible := by
  refine ⟨?_, ?_, ?_, ?_⟩ <;> norm_num

/-- A robot with one linear joint. -/
noncomputable def slider : Config where
  top := group [("numLinks", .int 1), ("ikPos", .str "lma")]
  group k := if k = "xyzLink_0" then some (group [("Type", .str "TransX")]) else none

theorem slider_robot : Robot slider 1 [.slide 0 false 0 0 0] 1 := by
  constructor
  · rfl
  · exact Or.inr ⟨rfl, rfl⟩
  · intro i d hd
    match i with
    | 0 =>
      rw [← Option.some.inj hd]
      exact .slide (g := group [("Type", .str "TransX")]) rfl rfl rfl (Or.inr ⟨rfl, rfl⟩) (Or.inr ⟨rfl, rfl⟩)
        (Or.inr ⟨rfl, rfl⟩)
    | i + 1 => simp at hd
  · exact Or.inr ⟨rfl, rfl⟩

/-- C75 refuted for linear joints: a joint of the robot at 180 meters (limits and positions of these
joints are documented to be meters) is placed at 3.14 meters. -/
theorem C75_slide_counterexample (st : List Link → Bool) : ∃ o, openSolver st true slider = some (some o) ∧
    (KdlSolver.opened o.solver.chain).fwdKin [180] = some [Real.pi, 0, 0, 0, 0, 0] ∧
    (Desc.slide 0 false 0 0 0).place 180 = Frame.trans ⟨180, 0, 0⟩ := by
  have hc : chain slider = some [fixedLink 1, ⟨Segment.make (joint .transX 1) (Frame.trans ⟨0, 0, 0⟩), Inertia.zero⟩,
      fixedLink 1] := rfl
  refine ⟨⟨⟨[fixedLink 1, ⟨Segment.make (joint .transX 1) (Frame.trans ⟨0, 0, 0⟩), Inertia.zero⟩, fixedLink 1],
    [fixedLink 1, ⟨Segment.make (joint .transX 1) (Frame.trans ⟨0, 0, 0⟩), Inertia.zero⟩, fixedLink 1],
    ⟨0, 0, -9.81⟩⟩, "pinv", "lma", none⟩, ?_, ?_, ?_⟩
  · unfold openSolver openFrom
    rw [hc]
    rfl
  · have hn : (KdlSolver.opened (DynSolver.chain ⟨[fixedLink 1, ⟨Segment.make (joint .transX 1) (Frame.trans ⟨0, 0, 0⟩),
        Inertia.zero⟩, fixedLink 1], [fixedLink 1, ⟨Segment.make (joint .transX 1) (Frame.trans ⟨0, 0, 0⟩), Inertia.zero⟩,
        fixedLink 1], ⟨0, 0, -9.81⟩⟩)).numJoints = 1 := rfl
    rw [fwdKin_eq _ _ (by rw [hn]; simp), hn]
    have h180 : (180 : ℝ) * deg2rad = Real.pi := by unfold deg2rad; ring
    have h1 : (Segment.make (joint .transX 1) (Frame.trans ⟨0, 0, 0⟩)).pose Real.pi = Frame.trans ⟨Real.pi, 0, 0⟩ := by
      rw [make_pose (by simp [joint, Joint.pose]; ext <;> simp)]
      ext <;> simp [joint, Joint.pose]
    show Option.map _ (Chain.fk [(fixedLink 1).seg, Segment.make (joint .transX 1) (Frame.trans ⟨0, 0, 0⟩),
      (fixedLink 1).seg] [180 * deg2rad]) = _
    rw [h180]
    have h2 : Chain.fk [(fixedLink 1).seg, Segment.make (joint .transX 1) (Frame.trans ⟨0, 0, 0⟩), (fixedLink 1).seg]
        [Real.pi] = some (Frame.trans ⟨Real.pi, 0, 0⟩) := by
      simp only [Chain.fk, Chain.fkLoop, fixed_pose]
      rw [if_neg (by simp [fixedLink, Segment.make, Joint.fixed]), if_pos (by simp [Segment.make, joint]), h1,
        if_neg (by simp [fixedLink, Segment.make, Joint.fixed])]
      simp
    rw [h2]
    show some (frameToVector _) = _
    simp [frameToVector, getRot_one]
  · ext <;> simp [Desc.place, sign, unitAxis]

/-- A robot whose second joint has a misspelt type. -/
noncomputable def misspelt : Config where
  top := group [("numLinks", .int 2), ("ikPos", .str "lma")]
  group k :=
    if k = "xyzLink_0" then some (group [("Type", .str "RotZ"), ("x", .num 1)])
    else if k = "xyzLink_1" then some (group [("Type", .str "Rotz"), ("x", .num 2)])
    else none

/-- C75 refuted: a link with an unknown type of joint is left out, with its joint and its length, and `open`
succeeds. -/
theorem C75_unknown_type_counterexample (st : List Link → Bool) : ∃ o, openSolver st true misspelt = some (some o) ∧
    (KdlSolver.opened o.solver.chain).numJoints = 1 :=
  ⟨⟨⟨[fixedLink 1, ⟨Segment.make (joint .rotZ 1) (Frame.trans ⟨1, 0, 0⟩), Inertia.zero⟩, fixedLink 1],
    [fixedLink 1, ⟨Segment.make (joint .rotZ 1) (Frame.trans ⟨1, 0, 0⟩), Inertia.zero⟩, fixedLink 1],
    ⟨0, 0, -9.81⟩⟩, "pinv", "lma", none⟩, rfl, rfl⟩

/-- The link of a robot with a mass but no inertia. -/
noncomputable def hammer : Config where
  top := group [("numLinks", .int 1), ("ikPos", .str "lma")]
  group k := if k = "link_0" then some (group [("A", .num 1), ("mass", .num 3), ("cog", .list [0, 0, 0])]) else none

/-- C75 refuted: the mass of a link is dropped without notice unless centre of mass and inertia are configured
as well. -/
theorem C75_mass_counterexample (st : List Link → Bool) : ∃ o, openSolver st true hammer = some (some o) ∧
    ∀ l ∈ o.solver.links, l.inertia.mass = 0 := by
  refine ⟨⟨⟨[fixedLink 1, ⟨Segment.make (joint .rotZ 1) (dhFrame 1 (0 * deg2rad) 0 (0 * deg2rad)), Inertia.zero⟩,
    fixedLink 1], [fixedLink 1, ⟨Segment.make (joint .rotZ 1) (dhFrame 1 (0 * deg2rad) 0 (0 * deg2rad)), Inertia.zero⟩,
    fixedLink 1], ⟨0, 0, -9.81⟩⟩, "pinv", "lma", none⟩, rfl, ?_⟩
  intro l hl
  simp only [List.mem_cons, List.not_mem_nil, or_false] at hl
  rcases hl with rfl | rfl | rfl <;> rfl

/-- The robot in a plane, with an algorithm that takes no joint limits. -/
noncomputable def planarLma : Config where
  top := group [("numLinks", .int 2), ("ikPos", .str "lma")]
  group := planar.group

/-- C75 refuted: a device that is closed and opened again with the same configuration is another robot,
with the links twice. -/
theorem C75_reopen_counterexample (st : List Link → Bool) : ∃ o o', openSolver st true planarLma = some (some o) ∧
    reopen st true o planarLma = some (some o') ∧ (KdlSolver.opened o.solver.chain).numJoints = 2 ∧
    (KdlSolver.opened o'.solver.chain).numJoints = 4 := by
  obtain ⟨ls, hls⟩ : ∃ ls, chain planarLma = some ls := ⟨_, rfl⟩
  have hn : Chain.nJoints (ls.map (·.seg)) = 2 := by
    rw [← Option.some.inj hls]
    rfl
  have h2 : Chain.nJoints ((ls ++ ls).map (·.seg)) = 4 := by
    rw [List.map_append]
    unfold Chain.nJoints at hn ⊢
    rw [List.filter_append, List.length_append, hn]
  refine ⟨⟨⟨ls, ls, ⟨0, 0, -9.81⟩⟩, "pinv", "lma", none⟩, ⟨⟨ls ++ ls, ls ++ ls, ⟨0, 0, -9.81⟩⟩, "pinv", "lma", none⟩,
    ?_, ?_, hn, h2⟩
  · unfold openSolver openFrom
    rw [hls]
    rfl
  · unfold reopen openFrom
    rw [hls]
    rfl

/-- C75 refuted: gravity given as a number, not as a list, reads a null pointer. -/
theorem C75_gravity_counterexample (st : List Link → Bool) (w : Bool) (c : Config) (g : ℝ)
    (h : c.top "gravity" = some (.num g)) : openSolver st w c = none := by
  simp [openSolver, openFrom, Group.check, h, Val.asList]

end KdlConfig

end KD
