import Verif.Props.KdlConfig
import Verif.Solver.IdSolver

/-!
# C103: a robot that is placed elsewhere

Two configurations of the chain solver that tell of the same robot, but for where it stands: the second places its base
by a rigid motion `F` of the first, and gives the gravity as seen from there.
-/

namespace KD

open KdlVectorConverter KdlSolver

namespace KdlConfig

/-! ### Specification -/

/-- The configuration tells this gravity, in meters per squared second; the one of the Earth, straight down, if left
out. -/
def Pulls (c : Config) (g : Vec3) : Prop :=
  c.top "gravity" = some (.list [g.x, g.y, g.z]) ∨ (c.top "gravity" = none ∧ g = ⟨0, 0, -9.81⟩)

/-- The configuration `c'` is `c` with the robot moved by `F`, seen from the same place. -/
structure Elsewhere (F : Frame) (c c' : Config) : Prop where
  rigid : F.IsRigid
  base : ∃ B, HoldsFrame c "H0" B ∧ HoldsFrame c' "H0" (F * B)
  gravity : ∃ g, Pulls c g ∧ Pulls c' (F.M.mulVec g)
  groups : c'.group = c.group
  rest : ∀ key, key ≠ "H0" → key ≠ "gravity" → c'.top key = c.top key

/-- Calls that change the tool. -/
inductive Change
  | append (x : List ℝ)
  | restore

/-- A solver after calls that change the tool. -/
noncomputable def after (s : DynSolver) (ops : List Change) : DynSolver :=
  ops.foldl (fun s op => match op with | .append x => s.appendLink x | .restore => s.restore) s

/-- The first vector (a twist or a wrench) with both of its parts turned by `R` is the second one. -/
def TurnedBy (R : Mat3) (v v' : List ℝ) : Prop :=
  ∃ a b : Vec3, v = [a.x, a.y, a.z, b.x, b.y, b.z] ∧
    v' = [(R.mulVec a).x, (R.mulVec a).y, (R.mulVec a).z, (R.mulVec b).x, (R.mulVec b).y, (R.mulVec b).z]

/-- How far (squared) the velocity of the tip is from `v` if the joints move with these speeds. -/
noncomputable def miss (cols : List Twist) (v : Twist) (speeds : List ℝ) : ℝ :=
  Twist.dot (jacApply cols speeds - v) (jacApply cols speeds - v)

/-- A velocity solver that chooses the speeds by how far they miss the velocity asked for, as one of least squares does
(`KDL::ChainIkSolverVel_pinv`, `KDL::ChainIkSolverVel_wdls`). -/
def ByMiss (ik : VelSolver) : Prop :=
  ∃ pick : ℕ → (List ℝ → ℝ) → ℤ × List ℝ, ∀ c q v cols, Chain.jacobian c q = some cols →
    ik c q v = pick cols.length (miss cols v)

/-- A position solver that answers alike when robot and target are both moved by `F`. -/
def MovesAlong (F : Frame) (ik : PosSolver) : Prop :=
  ∀ (B : Frame) (c : Chain) (q : List ℝ) (T : Frame),
    ik (Segment.make Joint.fixed (F * B) :: c) q (F * T) = ik (Segment.make Joint.fixed B :: c) q T

/-! ### Helpers -/

/-- Two solvers of the same robot, one moved by `F`. -/
structure Pair (F : Frame) (s s' : DynSolver) : Prop where
  now : ∃ B ls, s.links = fixedLink B :: ls ∧ s'.links = fixedLink (F * B) :: ls
  first : ∃ B ls, s.original = fixedLink B :: ls ∧ s'.original = fixedLink (F * B) :: ls
  gravity : s'.gravity = F.M.mulVec s.gravity

theorem links_congr {c c' : Config} (h : c'.group = c.group) : ∀ n i, links c' i n = links c i n := by
  intro n
  induction n with
  | zero => intro i; rfl
  | succ n ih => intro i; simp only [links, link, h, ih]

theorem pulls_list {c : Config} {g : Vec3} (h : Pulls c g) :
    (c.top.check "gravity" (.list [0, 0, -9.81])).asList = some [g.x, g.y, g.z] := by
  rcases h with h | ⟨h, rfl⟩ <;> simp [Group.check, h, Val.asList]

theorem pair_opened {st : List Link → Bool} {w : Bool} {F : Frame} {c c' : Config} (h : Elsewhere F c c')
    {o o' : Opened} (ho : openSolver st w c = some (some o)) (ho' : openSolver st w c' = some (some o')) :
    Pair F o.solver o'.solver := by
  obtain ⟨a1, a2, ⟨g, a3, a4⟩, -⟩ := open_inv ho
  obtain ⟨b1, b2, ⟨g', b3, b4⟩, -⟩ := open_inv ho'
  obtain ⟨B, hB, hB'⟩ := h.base
  obtain ⟨p, hp, hp'⟩ := h.gravity
  have hm : matrix c'.top "HN" = matrix c.top "HN" := by
    unfold matrix
    rw [h.rest "HN" (by decide) (by decide)]
  have hnum : c'.top.check "numLinks" (.int 1) = c.top.check "numLinks" (.int 1) := by
    unfold Group.check
    rw [h.rest "numLinks" (by decide) (by decide)]
  have key : ∃ ls, o.solver.links = fixedLink B :: ls ∧ o'.solver.links = fixedLink (F * B) :: ls := by
    unfold chain at a1 b1
    dsimp only at a1 b1
    rw [hnum, links_congr h.groups, hm, holds_matrix hB'] at b1
    rw [holds_matrix hB] at a1
    cases hl : links c 0 (c.top.check "numLinks" (.int 1)).asInt.toNat with
    | none => rw [hl] at a1; cases a1
    | some ls =>
      rw [hl] at a1 b1
      exact ⟨ls ++ [fixedLink (matrix c.top "HN")], (Option.some.inj a1).symm, (Option.some.inj b1).symm⟩
  obtain ⟨ls, k1, k2⟩ := key
  refine ⟨⟨B, ls, k1, k2⟩, ⟨B, ls, by rw [a2, k1], by rw [b2, k2]⟩, ?_⟩
  rw [pulls_list hp] at a3
  rw [pulls_list hp'] at b3
  rw [a4, b4, ← Option.some.inj a3, ← Option.some.inj b3]
  rfl

theorem pair_after {F : Frame} : ∀ (ops : List Change) {s s' : DynSolver}, Pair F s s' →
    Pair F (after s ops) (after s' ops) := by
  intro ops
  induction ops with
  | nil => intro s s' h; exact h
  | cons op ops ih =>
    intro s s' h
    refine ih (s := match op with | .append x => s.appendLink x | .restore => s.restore)
      (s' := match op with | .append x => s'.appendLink x | .restore => s'.restore) ?_
    cases op with
    | append x =>
      obtain ⟨B, ls, h1, h2⟩ := h.now
      exact ⟨⟨B, ls ++ [⟨Segment.make Joint.fixed (vectorToFrame x), Inertia.zero⟩],
        by simp [DynSolver.appendLink, h1], by simp [DynSolver.appendLink, h2]⟩, h.first, h.gravity⟩
    | restore => exact ⟨h.first, h.first, h.gravity⟩

theorem fixed_type (f : Frame) : ¬(fixedLink f).seg.joint.type ≠ .none := by
  simp [fixedLink, Segment.make, Joint.fixed]

theorem fk_cons_fixed (B : Frame) (c : Chain) (q : List ℝ) :
    Chain.fk ((fixedLink B).seg :: c) q = (Chain.fk c q).map (B * ·) := by
  unfold Chain.fk
  rw [Chain.fkLoop.eq_def]
  dsimp only
  rw [if_neg (fixed_type B), fixed_pose, Chain.fkLoop_acc, one_mul]

theorem fk_moved (F B : Frame) (c : Chain) (q : List ℝ) :
    Chain.fk ((fixedLink (F * B)).seg :: c) q = (Chain.fk ((fixedLink B).seg :: c) q).map (F * ·) := by
  rw [fk_cons_fixed, fk_cons_fixed, Option.map_map]
  congr 1
  funext x
  exact mul_assoc F B x

theorem nJoints_cons_fixed (B : Frame) (c : Chain) : Chain.nJoints ((fixedLink B).seg :: c) = Chain.nJoints c := by
  rw [Chain.nJoints_cons, if_neg (fixed_type B), Nat.zero_add]

theorem sweep_moved {F : Frame} (hF : F.IsRigid) (B : Frame) (g : Vec3) :
    Link.sweep (fixedLink (F * B)).seg 0 0 0 0 ⟨-(F.M.mulVec g), 0⟩ =
      Link.sweep (fixedLink B).seg 0 0 0 0 ⟨-g, 0⟩ := by
  have hr : F.M.IsRot := hF
  have ht : ∀ (H : Frame) (x : ℝ), (fixedLink H).seg.twist 0 x = 0 := fun H x => by
    simp only [fixedLink, Segment.twist, Segment.make, Joint.fixed, Joint.twist]
    simp only [Twist.refPoint]
    show (⟨_, _⟩ : Twist) = ⟨0, 0⟩
    congr 1
    ext <;> simp
  have h0 : ∀ m : Mat3, Twist.rotate m 0 = 0 := fun m => by
    show (⟨_, _⟩ : Twist) = ⟨0, 0⟩
    simp
  have hz : ∀ H : Frame, H.invTwist 0 = 0 := fun H => by
    show (⟨_, _⟩ : Twist) = ⟨0, 0⟩
    congr 1 <;> ext <;> simp
  have hg : (F * B).invTwist ⟨-(F.M.mulVec g), 0⟩ = B.invTwist ⟨-g, 0⟩ := by
    have e : ∀ (p v : Vec3), v - Vec3.cross p 0 = v := fun p v => by ext <;> simp
    simp only [Frame.invTwist, e, Mat3.mulVec_zero]
    congr 1
    show ((F.M * B.M).transpose).mulVec _ = _
    rw [Mat3.transpose_mul, Mat3.mulVec_mul, ← Mat3.mulVec_neg, hr.transpose_mulVec]
  simp only [Link.sweep, fixed_pose, ht, h0, hz, hg]

theorem rne_moved {F : Frame} (hF : F.IsRigid) (B : Frame) (ls : List Link) (g : Vec3) (q qd qdd : List ℝ)
    (ext : List Wrench) :
    rne (fixedLink (F * B) :: ls) (F.M.mulVec g) q qd qdd ext = rne (fixedLink B :: ls) g q qd qdd ext := by
  unfold rne
  cases ext with
  | nil => simp [rneLoop]
  | cons e es =>
    rw [rneLoop.eq_def, rneLoop.eq_def (fixedLink B :: ls)]
    dsimp only
    rw [if_neg (fixed_type _), if_neg (fixed_type _), sweep_moved hF]
    cases rneLoop ls q qd qdd es (Link.sweep (fixedLink B).seg 0 0 0 0 ⟨-g, 0⟩).1
      (Link.sweep (fixedLink B).seg 0 0 0 0 ⟨-g, 0⟩).2 <;> rfl

theorem rotate_refPoint {R : Mat3} (hR : R.IsRot) (t : Twist) (d : Vec3) :
    Twist.rotate R (t.refPoint d) = (Twist.rotate R t).refPoint (R.mulVec d) := by
  simp only [Twist.refPoint, Twist.rotate, Mat3.mulVec_add, hR.cross]

theorem jacLoop_moved {F : Frame} (hF : F.IsRigid) (c : Chain) : ∀ (q : List ℝ) (acc : Frame) (cols : List Twist),
    Chain.jacLoop c q (F * acc) (cols.map (Twist.rotate F.M)) =
      (Chain.jacLoop c q acc cols).map (List.map (Twist.rotate F.M)) := by
  have hr : F.M.IsRot := hF
  have hd : ∀ (acc X : Frame) (cols : List Twist),
      (cols.map (Twist.rotate F.M)).map (·.refPoint ((F * acc * X).p - (F * acc).p)) =
        (cols.map (·.refPoint ((acc * X).p - acc.p))).map (Twist.rotate F.M) := by
    intro acc X cols
    rw [List.map_map, List.map_map]
    refine List.map_congr_left fun t _ => ?_
    simp only [Function.comp]
    rw [rotate_refPoint hr]
    congr 1
    rw [mul_assoc, show (F * (acc * X)).p = F.act (acc * X).p from rfl, show (F * acc).p = F.act acc.p from rfl,
      Frame.act_sub]
  have hrr : ∀ (acc : Frame) (t : Twist), Twist.rotate (F * acc).M t = Twist.rotate F.M (Twist.rotate acc.M t) := by
    intro acc t
    show (⟨(F.M * acc.M).mulVec _, (F.M * acc.M).mulVec _⟩ : Twist) = _
    rw [Mat3.mulVec_mul, Mat3.mulVec_mul]
    rfl
  induction c with
  | nil => intro q acc cols; cases q <;> rfl
  | cons s c ih =>
    intro q acc cols
    by_cases hs : s.joint.type ≠ .none
    · cases q with
      | nil => simp [Chain.jacLoop, hs]
      | cons x q =>
        rw [Chain.jacLoop.eq_def, Chain.jacLoop.eq_def (s :: c) (x :: q) acc cols]
        dsimp only
        rw [if_pos hs, if_pos hs]
        rw [hd, hrr, ← List.map_singleton (f := Twist.rotate F.M), ← List.map_append, mul_assoc, ih]
    · rw [Chain.jacLoop.eq_def, Chain.jacLoop.eq_def (s :: c) q acc cols]
      dsimp only
      rw [if_neg hs, if_neg hs]
      rw [hd, mul_assoc, ih]

theorem jacobian_moved {F : Frame} (hF : F.IsRigid) (B : Frame) (c : Chain) (q : List ℝ) :
    Chain.jacobian ((fixedLink (F * B)).seg :: c) q =
      (Chain.jacobian ((fixedLink B).seg :: c) q).map (List.map (Twist.rotate F.M)) := by
  have h := jacLoop_moved hF c q B []
  rw [List.map_nil] at h
  unfold Chain.jacobian
  rw [Chain.jacLoop.eq_def, Chain.jacLoop.eq_def ((fixedLink B).seg :: c)]
  dsimp only
  rw [if_neg (fixed_type _), if_neg (fixed_type _), fixed_pose, fixed_pose, one_mul, one_mul]
  exact h

theorem rotate_apply (R : Mat3) : ∀ (cols : List Twist) (x : List ℝ),
    jacApply (cols.map (Twist.rotate R)) x = Twist.rotate R (jacApply cols x) := by
  have h0 : Twist.rotate R 0 = 0 := by
    show (⟨_, _⟩ : Twist) = ⟨0, 0⟩
    simp
  intro cols
  induction cols with
  | nil => intro x; simp [jacApply, h0]
  | cons c cs ih =>
    intro x
    cases x with
    | nil => simp [jacApply, h0]
    | cons a as =>
      rw [List.map_cons, jacApply, jacApply, ih]
      show (⟨a • R.mulVec c.vel + R.mulVec _, a • R.mulVec c.rot + R.mulVec _⟩ : Twist) =
        ⟨R.mulVec (a • c.vel + _), R.mulVec (a • c.rot + _)⟩
      rw [Mat3.mulVec_add, Mat3.mulVec_add, Mat3.mulVec_smul, Mat3.mulVec_smul]

theorem rotate_dot {R : Mat3} (hR : R.IsRot) (a b : Twist) :
    Twist.dot (Twist.rotate R a) (Twist.rotate R b) = Twist.dot a b := by
  simp only [Twist.dot, Twist.rotate, hR.dot]

theorem rotate_sub (R : Mat3) (a b : Twist) : Twist.rotate R (a - b) = Twist.rotate R a - Twist.rotate R b := by
  show (⟨R.mulVec (a.vel - b.vel), R.mulVec (a.rot - b.rot)⟩ : Twist) = _
  rw [Mat3.mulVec_sub, Mat3.mulVec_sub]
  rfl

theorem miss_moved {R : Mat3} (hR : R.IsRot) (cols : List Twist) (v : Twist) :
    miss (cols.map (Twist.rotate R)) (Twist.rotate R v) = miss cols v := by
  funext x
  unfold miss
  rw [rotate_apply, ← rotate_sub, rotate_dot hR]

theorem turned_twist {R : Mat3} {v v' : List ℝ} (h : TurnedBy R v v') :
    vectorToTwist v' = Twist.rotate R (vectorToTwist v) := by
  obtain ⟨a, b, rfl, rfl⟩ := h
  rfl

theorem turned_wrench {R : Mat3} {v v' : List ℝ} (h : TurnedBy R v v') :
    vectorToWrench v' = Wrench.rotate R (vectorToWrench v) := by
  obtain ⟨a, b, rfl, rfl⟩ := h
  rfl

theorem chain_moved {F : Frame} {s s' : DynSolver} (h : Pair F s s') :
    ∃ B c, s.chain = (fixedLink B).seg :: c ∧ s'.chain = (fixedLink (F * B)).seg :: c := by
  obtain ⟨B, ls, h1, h2⟩ := h.now
  exact ⟨B, ls.map (·.seg), by rw [DynSolver.chain, h1]; rfl, by rw [DynSolver.chain, h2]; rfl⟩

theorem count_moved {F : Frame} {s s' : DynSolver} (h : Pair F s s') : s'.chain.nJoints = s.chain.nJoints := by
  obtain ⟨B, c, h1, h2⟩ := chain_moved h
  rw [h1, h2, nJoints_cons_fixed, nJoints_cons_fixed]

theorem fkin_moved {F : Frame} {s s' : DynSolver} (h : Pair F s s') (q : List ℝ) :
    s'.chain.fk q = (s.chain.fk q).map (F * ·) := by
  obtain ⟨B, c, h1, h2⟩ := chain_moved h
  rw [h1, h2, fk_moved]

theorem jac_moved {F : Frame} (hF : F.IsRigid) {s s' : DynSolver} (h : Pair F s s') (q : List ℝ) :
    s'.chain.jacobian q = (s.chain.jacobian q).map (List.map (Twist.rotate F.M)) := by
  obtain ⟨B, c, h1, h2⟩ := chain_moved h
  rw [h1, h2, jacobian_moved hF]

theorem rne_pair {F : Frame} (hF : F.IsRigid) {s s' : DynSolver} (h : Pair F s s') (q qd qdd : List ℝ)
    (ext : List Wrench) : rne s'.links s'.gravity q qd qdd ext = rne s.links s.gravity q qd qdd ext := by
  obtain ⟨B, ls, h1, h2⟩ := h.now
  rw [h1, h2, h.gravity, rne_moved hF]

theorem length_pair {F : Frame} {s s' : DynSolver} (h : Pair F s s') : s'.links.length = s.links.length := by
  obtain ⟨B, ls, h1, h2⟩ := h.now
  rw [h1, h2]
  rfl

theorem wrenches_pair {F : Frame} {s s' : DynSolver} (h : Pair F s s') (w : Wrench) : s'.wrenches w = s.wrenches w := by
  obtain ⟨B, ls, h1, h2⟩ := h.now
  simp [DynSolver.wrenches, h1, h2]

theorem rotate_back {F P : Frame} (hF : F.IsRigid) (w : Wrench) :
    Wrench.rotate (F * P).M.transpose (Wrench.rotate F.M w) = Wrench.rotate P.M.transpose w := by
  have hr : F.M.IsRot := hF
  show (⟨(F.M * P.M).transpose.mulVec (F.M.mulVec w.force), (F.M * P.M).transpose.mulVec (F.M.mulVec w.torque)⟩ : Wrench) = _
  rw [Mat3.transpose_mul, Mat3.mulVec_mul, Mat3.mulVec_mul, hr.transpose_mulVec, hr.transpose_mulVec]
  rfl

end KdlConfig

open KdlConfig

/-! ### The property -/

/-- C103: forward kinematics. The number of joints is the same, and the same joints bring the tip to the same pose of
the moved base, whatever the tools appended and removed. -/
theorem C103_forward_kinematics {st : List Link → Bool} {w : Bool} {F : Frame} {c c' : Config} (h : Elsewhere F c c')
    {o o' : Opened} (ho : openSolver st w c = some (some o)) (ho' : openSolver st w c' = some (some o'))
    (ops : List Change) :
    let s := KdlSolver.opened (after o.solver ops).chain
    let s' := KdlSolver.opened (after o'.solver ops).chain
    s'.numJoints = s.numJoints ∧ ∀ q, s.numJoints ≤ q.length →
      ∃ P : Frame, s.fwdKin q = some (frameToVector P) ∧ s'.fwdKin q = some (frameToVector (F * P)) := by
  intro s s'
  have hp := pair_after ops (pair_opened h ho ho')
  have hn : s'.numJoints = s.numJoints := count_moved hp
  refine ⟨hn, fun q hq => ?_⟩
  have hsome : (s.chain.fk ((q.take s.numJoints).map (· * deg2rad))).isSome := by
    unfold Chain.fk
    rw [Chain.fkLoop_isSome, List.length_map, List.length_take]
    exact min_eq_left hq
  obtain ⟨P, hP⟩ := Option.isSome_iff_exists.mp hsome
  have hP' : s'.chain.fk ((q.take s.numJoints).map (· * deg2rad)) = some (F * P) := by
    rw [show s'.chain.fk _ = _ from fkin_moved hp _]
    show Option.map _ (s.chain.fk _) = _
    rw [hP]
    rfl
  refine ⟨P, ?_, ?_⟩
  · simp only [KdlSolver.fwdKin, toRadians, if_pos hq]
    show (do let f ← s.chain.fk ((q.take s.numJoints).map (· * deg2rad)); return frameToVector f) = _
    rw [hP]
    rfl
  · simp only [KdlSolver.fwdKin, toRadians, hn, if_pos hq]
    show (do let f ← s'.chain.fk ((q.take s.numJoints).map (· * deg2rad)); return frameToVector f) = _
    rw [hP']
    rfl

/-- C103: inverse dynamics. The same torques hold and move the robot, with the force at the tip given in its axes, or in
those of the base and turned as the robot was. -/
theorem C103_inverse_dynamics {st : List Link → Bool} {w : Bool} {F : Frame} {c c' : Config} (h : Elsewhere F c c')
    {o o' : Opened} (ho : openSolver st w c = some (some o)) (ho' : openSolver st w c' = some (some o'))
    (ops : List Change) (q qdot qdotdot ftip ftip' : List ℝ) (ht : TurnedBy F.M ftip ftip') :
    let s := after o.solver ops
    let s' := after o'.solver ops
    s'.invDynStatic q = s.invDynStatic q ∧
    s'.invDyn q qdot qdotdot ftip .tcp = s.invDyn q qdot qdotdot ftip .tcp ∧
    s'.invDyn q qdot qdotdot ftip' .base = s.invDyn q qdot qdotdot ftip .base := by
  intro s s'
  have hF := h.rigid
  have hp : Pair F s s' := pair_after ops (pair_opened h ho ho')
  refine ⟨?_, ?_, ?_⟩
  · simp only [DynSolver.invDynStatic, count_moved hp, length_pair hp, rne_pair hF hp]
  · simp only [DynSolver.invDyn, count_moved hp, rne_pair hF hp, wrenches_pair hp]
  · simp only [DynSolver.invDyn, count_moved hp, rne_pair hF hp, wrenches_pair hp, fkin_moved hp, turned_wrench ht]
    cases toRadians s.chain.nJoints q with
    | none => rfl
    | some x =>
      cases toRadians s.chain.nJoints qdot with
      | none => rfl
      | some y =>
        cases toRadians s.chain.nJoints qdotdot with
        | none => rfl
        | some z =>
          dsimp only [Option.bind_eq_bind, Option.bind]
          cases s.chain.fk x with
          | none => rfl
          | some P =>
            dsimp only [Option.map]
            rw [rotate_back hF]

/-- C103: inverse kinematics of velocities. With a solver that chooses the speeds by how far they miss what is asked
for, the joints move alike, with the velocity given in the axes of the tip, or in those of the base and turned as the
robot was. -/
theorem C103_velocities {st : List Link → Bool} {w : Bool} {F : Frame} {c c' : Config} (h : Elsewhere F c c')
    {o o' : Opened} (ho : openSolver st w c = some (some o)) (ho' : openSolver st w c' = some (some o'))
    (ops : List Change) {ik : VelSolver} (hik : ByMiss ik) (q xdot xdot' : List ℝ) (ht : TurnedBy F.M xdot xdot') :
    let s := KdlSolver.opened (after o.solver ops).chain
    let s' := KdlSolver.opened (after o'.solver ops).chain
    s'.diffInvKin ik q xdot .tcp = s.diffInvKin ik q xdot .tcp ∧
    s'.diffInvKin ik q xdot' .base = s.diffInvKin ik q xdot .base := by
  intro s s'
  have hF := h.rigid
  have hr : F.M.IsRot := hF
  have hp := pair_after ops (pair_opened h ho ho')
  have hn : s'.numJoints = s.numJoints := count_moved hp
  obtain ⟨pick, hpick⟩ := hik
  have hk : ∀ x v, x.length = s.numJoints → ik s'.chain x (Twist.rotate F.M v) = ik s.chain x v := by
    intro x v hx
    have hj : s'.chain.jacobian x = (s.chain.jacobian x).map (List.map (Twist.rotate F.M)) := jac_moved hF hp x
    cases hc : s.chain.jacobian x with
    | none =>
      obtain ⟨cols, e⟩ := exists_jacLoop s.chain x 1 [] hx
      exact absurd (hc.symm.trans e) (by simp)
    | some cols =>
      rw [hc] at hj
      rw [hpick _ _ _ _ hc, hpick _ _ _ _ hj, miss_moved hr, List.length_map]
  have hx : ∀ x, toRadians s.numJoints q = some x → x.length = s.numJoints := by
    intro x e
    unfold toRadians at e
    split at e
    · rw [← Option.some.inj e]; simpa
    · cases e
  constructor
  · simp only [KdlSolver.diffInvKin, hn]
    cases e : toRadians s.numJoints q with
    | none => rfl
    | some x =>
      dsimp only [Option.bind_eq_bind, Option.bind]
      rw [show s'.chain.fk x = (s.chain.fk x).map (F * ·) from fkin_moved hp x]
      cases s.chain.fk x with
      | none => rfl
      | some P =>
        dsimp only [Option.map]
        have e2 : Twist.rotate (F * P).M (vectorToTwist xdot) =
            Twist.rotate F.M (Twist.rotate P.M (vectorToTwist xdot)) := by
          show (⟨(F.M * P.M).mulVec _, (F.M * P.M).mulVec _⟩ : Twist) = _
          rw [Mat3.mulVec_mul, Mat3.mulVec_mul]
          rfl
        rw [e2, hk x _ (hx x e)]
  · simp only [KdlSolver.diffInvKin, hn, turned_twist ht]
    cases e : toRadians s.numJoints q with
    | none => rfl
    | some x =>
      dsimp only [Option.bind_eq_bind, Option.bind]
      rw [hk x _ (hx x e)]

/-- C103: inverse kinematics of positions. With a solver that answers alike when robot and target are moved, the target
given in the axes of the tip, or in those of the base and moved as the robot was, gives the same joints. That the solver
answers so is shown of the differential one, `C103_differential_solver`; it is missing for the screw theory one and for
those of KDL. -/
theorem C103_positions_partial {st : List Link → Bool} {w : Bool} {F : Frame} {c c' : Config} (h : Elsewhere F c c')
    {o o' : Opened} (ho : openSolver st w c = some (some o)) (ho' : openSolver st w c' = some (some o'))
    (ops : List Change) {ik : PosSolver} (hik : MovesAlong F ik) (xd xd' qGuess : List ℝ)
    (hx : vectorToFrame xd' = F * vectorToFrame xd) :
    let s := KdlSolver.opened (after o.solver ops).chain
    let s' := KdlSolver.opened (after o'.solver ops).chain
    s'.invKin ik xd qGuess .tcp = s.invKin ik xd qGuess .tcp ∧
    s'.invKin ik xd' qGuess .base = s.invKin ik xd qGuess .base := by
  intro s s'
  have hp := pair_after ops (pair_opened h ho ho')
  have hn : s'.numJoints = s.numJoints := count_moved hp
  have hk : ∀ x T, ik s'.chain x (F * T) = ik s.chain x T := by
    obtain ⟨B, c, h1, h2⟩ := chain_moved hp
    intro x T
    show ik (after o'.solver ops).chain x _ = ik (after o.solver ops).chain x _
    rw [h1, h2]
    exact hik B c x T
  constructor
  · simp only [KdlSolver.invKin, hn]
    cases toRadians s.numJoints qGuess with
    | none => rfl
    | some x =>
      dsimp only [Option.bind_eq_bind, Option.bind]
      rw [show s'.chain.fk x = (s.chain.fk x).map (F * ·) from fkin_moved hp x]
      cases s.chain.fk x with
      | none => rfl
      | some P =>
        dsimp only [Option.map]
        rw [mul_assoc, hk]
  · simp only [KdlSolver.invKin, hn, hx]
    cases toRadians s.numJoints qGuess with
    | none => rfl
    | some x =>
      dsimp only [Option.bind_eq_bind, Option.bind]
      rw [hk]

/-- C103: the differential position solver of this repository is one of those, with any limits. -/
theorem C103_differential_solver {F : Frame} (hF : F.IsRigid) (s : IdSolver) (B : Frame) (c : Chain) (q : List ℝ)
    (T : Frame) (out : List (Option ℝ)) :
    s.cartToJnt (Segment.make Joint.fixed (F * B) :: c) q (F * T) out =
      s.cartToJnt (Segment.make Joint.fixed B :: c) q T out := by
  have hr : F.M.IsRot := hF
  have e1 := nJoints_cons_fixed (F * B) c
  have e2 := nJoints_cons_fixed B c
  have e3 := fk_moved F B c q
  have e4 := jacobian_moved hF B c q
  change Chain.nJoints (Segment.make Joint.fixed (F * B) :: c) = _ at e1
  change Chain.nJoints (Segment.make Joint.fixed B :: c) = _ at e2
  change Chain.fk (Segment.make Joint.fixed (F * B) :: c) q = Option.map _ (Chain.fk (Segment.make Joint.fixed B :: c) q) at e3
  change Chain.jacobian (Segment.make Joint.fixed (F * B) :: c) q =
    Option.map _ (Chain.jacobian (Segment.make Joint.fixed B :: c) q) at e4
  unfold IdSolver.cartToJnt
  rw [e1, e2, e3, e4]
  cases Chain.fk (Segment.make Joint.fixed B :: c) q with
  | none => rfl
  | some P =>
    cases Chain.jacobian (Segment.make Joint.fixed B :: c) q with
    | none => rfl
    | some cols =>
      have hd : frameDiff (F * P) (F * T) = Twist.rotate F.M (frameDiff P T) := by
        show (⟨F.act T.p - F.act P.p, (F.M * P.M).mulVec ((F.M * P.M).transpose * (F.M * T.M)).getRot⟩ : Twist) =
          ⟨F.M.mulVec (T.p - P.p), F.M.mulVec (P.M.mulVec (P.M.transpose * T.M).getRot)⟩
        rw [Frame.act_sub, Mat3.mulVec_mul, Mat3.transpose_mul, Mat3.mul_assoc', ← Mat3.mul_assoc' F.M.transpose, hr.left]
        simp
      have ht : ∀ e, jacTranspose (cols.map (Twist.rotate F.M)) (Twist.rotate F.M e) = jacTranspose cols e := by
        intro e
        simp [jacTranspose, Function.comp_def, rotate_dot hr]
      simp only [Option.map_some, hd]
      have hc : computeDiffInvKin (cols.map (Twist.rotate F.M)) (Twist.rotate F.M (frameDiff P T)) =
          computeDiffInvKin cols (frameDiff P T) := by
        unfold computeDiffInvKin
        simp only [ht, rotate_apply, rotate_dot hr]
      rw [hc]

/-- C103: the moved robot opens if the other one does, with the same methods and joint limits, provided that the screw
theory solver can be built for one if and only if it can for the other (which matters only if it is asked for). -/
theorem C103_opens {st : List Link → Bool} {w : Bool} {F : Frame} {c c' : Config} (h : Elsewhere F c c')
    (hst : ∀ B B' ls, st (fixedLink B' :: ls) = st (fixedLink B :: ls))
    {o : Opened} (ho : openSolver st w c = some (some o)) :
    ∃ o', openSolver st w c' = some (some o') ∧ o'.ikVel = o.ikVel ∧ o'.ikPos = o.ikPos ∧ o'.limits = o.limits := by
  obtain ⟨p, hp, hp'⟩ := h.gravity
  obtain ⟨B, hB, hB'⟩ := h.base
  have ck : ∀ k d, k ≠ "H0" → k ≠ "gravity" → c'.top.check k d = c.top.check k d := fun k d h1 h2 => by
    unfold Group.check
    rw [h.rest k h1 h2]
  unfold openSolver openFrom at ho ⊢
  rw [pulls_list hp] at ho
  rw [pulls_list hp', ck "ikVel" _ (by decide) (by decide)]
  dsimp only [Option.bind_eq_bind, Option.bind, List.nil_append] at ho ⊢
  have hch : ∀ ls, KdlConfig.chain c = some ls → ∃ r, ls = fixedLink B :: r ∧ KdlConfig.chain c' = some (fixedLink (F * B) :: r) := by
    intro ls hl
    unfold KdlConfig.chain at hl ⊢
    dsimp only at hl ⊢
    rw [ck "numLinks" _ (by decide) (by decide), links_congr h.groups, holds_matrix hB',
      show matrix c'.top "HN" = matrix c.top "HN" from by unfold matrix; rw [h.rest "HN" (by decide) (by decide)]]
    rw [holds_matrix hB] at hl
    cases hk : links c 0 (c.top.check "numLinks" (.int 1)).asInt.toNat with
    | none => rw [hk] at hl; cases hl
    | some r =>
      rw [hk] at hl
      exact ⟨r ++ [fixedLink (matrix c.top "HN")], (Option.some.inj hl).symm, rfl⟩
  cases hc : KdlConfig.chain c with
  | none => rw [hc] at ho; cases ho
  | some ls =>
    obtain ⟨r, rfl, hc'⟩ := hch ls hc
    rw [hc] at ho
    rw [hc']
    dsimp only at ho ⊢
    have hpos : positionSolver st w c' (fixedLink (F * B) :: r) = positionSolver st w c (fixedLink B :: r) := by
      unfold positionSolver jointLimits
      simp only [List.map_cons, nJoints_cons_fixed, hst B (F * B) r, ck "ikPos" _ (by decide) (by decide),
        ck "ik" _ (by decide) (by decide), ck "invKinStrategy" _ (by decide) (by decide),
        h.rest "mins" (by decide) (by decide), h.rest "maxs" (by decide) (by decide)]
    rw [hpos]
    split at ho
    · rename_i hv
      rw [if_pos hv]
      cases hq : positionSolver st w c (fixedLink B :: r) with
      | none => rw [hq] at ho; cases ho
      | some x =>
        rw [hq] at ho
        have e := Option.some.inj (Option.some.inj ho)
        rw [← e]
        exact ⟨_, rfl, rfl, rfl, rfl⟩
    · cases ho

/-! ### A robot on the floor, and one that hangs from the ceiling -/

namespace KdlConfig

/-- The robot `planar`, upside down at a height of two meters. Seen from it, gravity still points down. -/
noncomputable def hanging : Config where
  top := group [("numLinks", .int 2), ("mins", .list [-90, -120]), ("maxs", .list [90, 120]), ("ikPos", .str "nrjl"),
    ("H0", .list [1, 0, 0, 0, 0, -1, 0, 0, 0, 0, -1, 2, 0, 0, 0, 1]), ("gravity", .list [0, 0, 9.81])]
  group := planar.group

/-- Half a turn about x, and two meters up. -/
def upsideDown : Frame := ⟨⟨1, 0, 0, 0, -1, 0, 0, 0, -1⟩, ⟨0, 0, 2⟩⟩

theorem hanging_elsewhere : Elsewhere upsideDown planar hanging where
  rigid := by
    refine ⟨?_, ?_, ?_⟩
    · ext <;> simp [upsideDown]
    · ext <;> simp [upsideDown]
    · simp [upsideDown, Mat3.det]
  base := ⟨1, Or.inr ⟨rfl, rfl⟩, Or.inl ⟨0, 0, 0, 1, by rw [mul_one]; rfl⟩⟩
  gravity := ⟨⟨0, 0, -9.81⟩, Or.inr ⟨rfl, rfl⟩, Or.inl (by
    have e : upsideDown.M.mulVec ⟨0, 0, -9.81⟩ = ⟨0, 0, 9.81⟩ := by ext <;> simp [upsideDown]
    rw [e]
    rfl)⟩
  groups := rfl
  rest := by
    intro k h1 h2
    show Option.map _ (List.find? _ ([("numLinks", Val.int 2), ("mins", .list [-90, -120]), ("maxs", .list [90, 120]),
      ("ikPos", .str "nrjl")] ++ [("H0", Val.list [1, 0, 0, 0, 0, -1, 0, 0, 0, 0, -1, 2, 0, 0, 0, 1]),
      ("gravity", .list [0, 0, 9.81])])) = _
    have e : List.find? (fun x : String × Val => decide (x.1 = k))
        [("H0", Val.list [1, 0, 0, 0, 0, -1, 0, 0, 0, 0, -1, 2, 0, 0, 0, 1]), ("gravity", .list [0, 0, 9.81])] = none := by
      simp [h1.symm, h2.symm]
    rw [List.find?_append, e, Option.or_none]
    rfl

/-- Both open. -/
example (st : List Link → Bool) (w : Bool) (hst : ∀ B B' ls, st (fixedLink B' :: ls) = st (fixedLink B :: ls)) :
    ∃ o o', openSolver st w planar = some (some o) ∧ openSolver st w hanging = some (some o') := by
  obtain ⟨o, h1, -⟩ := C75_opens (st := st) (w := w) planar_robot [-90, -120] [90, 120] rfl rfl rfl rfl
    (fun i a b ha hb => by
      match i with
      | 0 => simp at ha hb; linarith
      | 1 => simp at ha hb; linarith
      | i + 2 => simp at ha) rfl rfl rfl rfl (Or.inl rfl)
  obtain ⟨o', h2, -⟩ := C103_opens hanging_elsewhere hst h1
  exact ⟨o, o', h1, h2⟩

/-- A solver that chooses by the miss: exact if it can be, at rest otherwise. -/
example : ∃ ik, ByMiss ik ∧ ∀ c q v cols x, Chain.jacobian c q = some cols → miss cols v x = 0 →
    (ik c q v).1 = 0 ∧ miss cols v (ik c q v).2 = 0 := by
  classical
  let pick : ℕ → (List ℝ → ℝ) → ℤ × List ℝ := fun n f =>
    (0, if h : ∃ x, f x = 0 then h.choose else List.replicate n 0)
  let ik : VelSolver := fun c q v =>
    match Chain.jacobian c q with
    | some cols => pick cols.length (miss cols v)
    | none => (-1, [])
  have hik : ∀ c q v cols, Chain.jacobian c q = some cols → ik c q v = pick cols.length (miss cols v) := by
    intro c q v cols hj
    simp only [ik, hj]
  refine ⟨ik, ⟨pick, hik⟩, ?_⟩
  intro c q v cols x hj hx
  rw [hik c q v cols hj]
  have h : ∃ x, miss cols v x = 0 := ⟨x, hx⟩
  simp only [pick, dif_pos h]
  exact ⟨trivial, h.choose_spec⟩

/-- A position solver that moves along: the differential one, within the limits of the robot. -/
example (lo hi : List ℝ) (F : Frame) (hF : F.IsRigid) :
    MovesAlong F fun c q T =>
      let r := (IdSolver.create c lo hi).cartToJnt c q T (q.map fun _ => none)
      (r.1, r.2.map (·.getD 0)) := by
  intro B c q T
  have e : IdSolver.create (Segment.make Joint.fixed (F * B) :: c) lo hi =
      IdSolver.create (Segment.make Joint.fixed B :: c) lo hi := by
    have e1 : Chain.nJoints (Segment.make Joint.fixed (F * B) :: c) = _ := nJoints_cons_fixed (F * B) c
    have e2 : Chain.nJoints (Segment.make Joint.fixed B :: c) = _ := nJoints_cons_fixed B c
    unfold IdSolver.create
    rw [e1, e2]
  dsimp only
  rw [e, C103_differential_solver hF]

end KdlConfig

end KD
