import Verif.Props.Placement
import Mathlib.Analysis.InnerProductSpace.PiL2
import Mathlib.Analysis.InnerProductSpace.Projection.Basic

/-!
# C104: a joint that is described in the other direction

Two configurations of the chain solver that tell of the same robot, but for the direction in which some of its joints
turn or slide (`InvRotX` instead of `RotX`, and so on).
-/

namespace KD

open KdlVectorConverter KdlSolver

namespace KdlConfig

/-! ### Specification -/

/-- The value of a joint, its sign changed if the joint is reversed. -/
def sg (r : Bool) (x : ℝ) : ℝ := if r then -x else x

/-- Values of all joints, with the signs of the reversed ones changed. -/
def signed (rev : List Bool) (q : List ℝ) : List ℝ := List.zipWith sg rev q

/-- The configuration `c'` is `c` with the joints marked in `rev` reversed. The limits of the joints are left open: they
are for each configuration to tell. -/
structure Reversed (rev : List Bool) (c c' : Config) : Prop where
  number : c.top "numLinks" = some (.int rev.length)
  top : ∀ key, key ≠ "mins" → key ≠ "maxs" → c'.top key = c.top key
  kept : ∀ i : ℕ, rev[i]? = some false → c'.group ("link_" ++ toString i) = c.group ("link_" ++ toString i) ∧
    c'.group ("xyzLink_" ++ toString i) = c.group ("xyzLink_" ++ toString i) ∧ ∃ d, Declares c i d
  reversed : ∀ i : ℕ, rev[i]? = some true → ∃ g g' slides axis inv,
    c.group ("link_" ++ toString i) = none ∧ c'.group ("link_" ++ toString i) = none ∧
    c.group ("xyzLink_" ++ toString i) = some g ∧ c'.group ("xyzLink_" ++ toString i) = some g' ∧
    g "Type" = some (.str (jointName slides axis inv)) ∧ g' "Type" = some (.str (jointName slides axis (!inv))) ∧
    ∀ key, key ≠ "Type" → g' key = g key

/-- A velocity solver that gives the speeds that come closest to the velocity asked for and, of those, the lowest ones
(as `KDL::ChainIkSolverVel_pinv`). -/
def Shortest (ik : VelSolver) : Prop :=
  ∀ c q v cols, Chain.jacobian c q = some cols → (ik c q v).1 = 0 ∧ (ik c q v).2.length = cols.length ∧
    ∀ y : List ℝ, y.length = cols.length → y ≠ (ik c q v).2 →
      miss cols v (ik c q v).2 < miss cols v y ∨
      (miss cols v (ik c q v).2 = miss cols v y ∧ ((ik c q v).2.map (· ^ 2)).sum < (y.map (· ^ 2)).sum)

/-- Lower limits of the joints, some of them seen from the other direction. -/
def reversedLow : List Bool → List ℝ → List ℝ → List ℝ
  | r :: rev, lo :: los, hi :: his => (if r then -hi else lo) :: reversedLow rev los his
  | _, _, _ => []

/-- Upper limits of the joints, some of them seen from the other direction. -/
def reversedHigh : List Bool → List ℝ → List ℝ → List ℝ
  | r :: rev, lo :: los, hi :: his => (if r then -lo else hi) :: reversedHigh rev los his
  | _, _, _ => []

/-! ### Helpers -/

/-- Two segments with the same joint but perhaps for its direction. -/
structure Mirror (r : Bool) (l l' : Link) : Prop where
  moves : l.seg.joint.type ≠ .none
  moves' : l'.seg.joint.type ≠ .none
  inertia : l'.inertia = l.inertia
  pose : ∀ q, l'.seg.pose (sg r q) = l.seg.pose q
  twist : ∀ q x, l'.seg.twist (sg r q) (sg r x) = l.seg.twist q x
  unit : ∀ q, l'.seg.twist (sg r q) 1 = sg r 1 • l.seg.twist q 1

/-- Chains with the same joints but for the direction of some of them. -/
inductive Mirrors : List Bool → List Link → List Link → Prop
  | nil : Mirrors [] [] []
  | fixed {rs ls ls'} (l : Link) (h : l.seg.joint.type = .none) (hs : Mirrors rs ls ls') : Mirrors rs (l :: ls) (l :: ls')
  | joint {r rs l l' ls ls'} (h : Mirror r l l') (hs : Mirrors rs ls ls') : Mirrors (r :: rs) (l :: ls) (l' :: ls')

theorem sg_sg (r : Bool) (x : ℝ) : sg r (sg r x) = x := by cases r <;> simp [sg]

theorem sg_mul (r : Bool) (x y : ℝ) : sg r (x * y) = sg r x * y := by cases r <;> simp [sg]

theorem signed_length {rev : List Bool} {q : List ℝ} (h : q.length = rev.length) :
    (signed rev q).length = rev.length := by
  simp [signed, h]

theorem signed_scale (k : ℝ) (rev : List Bool) (q : List ℝ) :
    signed rev (q.map (· * k)) = (signed rev q).map (· * k) := by
  unfold signed
  rw [List.zipWith_map_right, List.map_zipWith]
  congr 1
  funext r x
  exact sg_mul r x k

theorem signed_zero : ∀ rev : List Bool, signed rev (List.replicate rev.length 0) = List.replicate rev.length 0
  | [] => rfl
  | r :: rev => by
    rw [List.length_cons, List.replicate_succ]
    show sg r 0 :: signed rev _ = _
    rw [signed_zero rev]
    cases r <;> simp [sg]

theorem signed_signed : ∀ (rev : List Bool) (q : List ℝ), q.length = rev.length → signed rev (signed rev q) = q
  | [], q, h => by rw [List.length_eq_zero_iff.mp h]; rfl
  | r :: rev, [], h => by simp at h
  | r :: rev, x :: q, h => by
    show sg r (sg r x) :: signed rev (signed rev q) = _
    rw [sg_sg, signed_signed rev q (by simpa using h)]

theorem signed_squares : ∀ (rev : List Bool) (q : List ℝ), q.length = rev.length →
    ((signed rev q).map (· ^ 2)).sum = (q.map (· ^ 2)).sum
  | [], q, h => by rw [List.length_eq_zero_iff.mp h]; rfl
  | r :: rev, [], h => by simp at h
  | r :: rev, x :: q, h => by
    show (((sg r x) :: signed rev q).map (· ^ 2)).sum = _
    rw [List.map_cons, List.map_cons, List.sum_cons, List.sum_cons, signed_squares rev q (by simpa using h)]
    cases r <;> simp [sg]

theorem refPoint_smul (k : ℝ) (t : Twist) (d : Vec3) : (k • t).refPoint d = k • t.refPoint d := by
  show (⟨k • t.vel + Vec3.cross (k • t.rot) d, _⟩ : Twist) = ⟨k • (t.vel + Vec3.cross t.rot d), _⟩
  congr 1
  ext <;> simp <;> ring

/-- Joints of opposite directions. -/
theorem mirror_joint {t : JointType} (ht : t ≠ .none) (hr : t ≠ .rotAxis) (ha : t ≠ .transAxis) (x : ℝ) (r : Bool)
    (f : Frame) (m : Inertia) :
    Mirror r ⟨Segment.make (joint t x) f, m⟩ ⟨Segment.make (joint t (sg r x)) f, m⟩ := by
  have hs : ∀ a b : ℝ, sg r a * sg r b = a * b := fun a b => by cases r <;> simp [sg]
  have h1 : ∀ a : ℝ, sg r a = sg r 1 * a := fun a => by cases r <;> simp [sg]
  have hp : ∀ q, (joint t (sg r x)).pose (sg r q) = (joint t x).pose q := fun q => by
    cases t <;> simp [joint, Joint.pose, hs] at *
  have hp0 : (joint t (sg r x)).pose 0 = (joint t x).pose 0 := by
    have := hp 0
    rwa [show sg r 0 = 0 by cases r <;> simp [sg]] at this
  have ht1 : ∀ y, (joint t (sg r x)).twist (sg r y) = (joint t x).twist y := fun y => by
    cases t <;> simp [joint, Joint.twist, hs] at *
  have ht2 : (joint t (sg r x)).twist 1 = sg r 1 • (joint t x).twist 1 := by
    have e : ∀ a b : Twist, a.vel = b.vel → a.rot = b.rot → a = b := fun a b h1 h2 => by
      cases a; cases b; cases h1; cases h2; rfl
    refine e _ _ ?_ ?_
    all_goals
      rw [h1 x]
      cases t <;> simp [joint, Joint.twist] at * <;> ext <;> simp
  refine ⟨by simpa [Segment.make, joint] using ht, by simpa [Segment.make, joint] using ht, rfl, ?_, ?_, ?_⟩
  · intro q
    simp only [Segment.pose, Segment.make, hp, hp0]
  · intro q y
    simp only [Segment.twist, Segment.make, hp, hp0, ht1]
  · intro q
    simp only [Segment.twist, Segment.make, hp, hp0, ht2, refPoint_smul]

theorem mirror_same {l : Link} (h : l.seg.joint.type ≠ .none) : Mirror false l l :=
  ⟨h, h, rfl, fun _ => rfl, fun _ _ => rfl, fun q => by
    show l.seg.twist q 1 = _
    generalize l.seg.twist q 1 = t
    obtain ⟨a, b⟩ := t
    show _ = (⟨(1 : ℝ) • a, (1 : ℝ) • b⟩ : Twist)
    congr 1 <;> ext <;> simp⟩

theorem name_joint (slides : Bool) (axis : Fin 3) (inv : Bool) :
    ∃ t x, t ≠ .none ∧ t ≠ .rotAxis ∧ t ≠ .transAxis ∧ xyzJoint (jointName slides axis inv) = some (joint t x) ∧
      xyzJoint (jointName slides axis (!inv)) = some (joint t (sg true x)) := by
  cases slides <;> fin_cases axis <;> cases inv
  all_goals
    simp only [jointName, xyzJoint, reduceIte, String.reduceEq, Fin.zero_eta, Fin.mk_one, Fin.reduceFinMk, Bool.not_true,
      Bool.not_false]
    exact ⟨_, _, by decide, by decide, by decide, rfl, by simp [sg]⟩

theorem mirror_link {rev : List Bool} {c c' : Config} (h : Reversed rev c c') {i : ℕ} {r : Bool}
    (hr : rev[i]? = some r) : ∃ l l', link c i = some [l] ∧ link c' i = some [l'] ∧ Mirror r l l' := by
  cases r with
  | false =>
    obtain ⟨h1, h2, d, hd⟩ := h.kept i hr
    obtain ⟨l, hl, ht, -⟩ := link_of_declared hd
    refine ⟨l, l, hl, ?_, mirror_same ht⟩
    rw [← hl]
    unfold link
    rw [h1, h2]
  | true =>
    obtain ⟨g, g', slides, axis, inv, h1, h2, h3, h4, h5, h6, h7⟩ := h.reversed i hr
    obtain ⟨t, x, t1, t2, t3, t4, t5⟩ := name_joint slides axis inv
    refine ⟨_, _, ?_, ?_, mirror_joint t1 t2 t3 x true
      (Frame.trans ⟨(g.check "x" (.num 0)).asFloat, (g.check "y" (.num 0)).asFloat, (g.check "z" (.num 0)).asFloat⟩)
      Inertia.zero⟩
    · unfold link xyzLink
      rw [h1, h3]
      dsimp only
      rw [show (g.check "Type" (.str "NULL")).asString = jointName slides axis inv by simp [Group.check, h5, Val.asString],
        t4]
    · unfold link xyzLink
      rw [h2, h4]
      dsimp only
      have e : ∀ k d, k ≠ "Type" → g'.check k d = g.check k d := fun k d hk => by
        unfold Group.check
        rw [h7 k hk]
      rw [show (g'.check "Type" (.str "NULL")).asString = jointName slides axis (!inv) by
        simp [Group.check, h6, Val.asString], t5, e "x" _ (by decide), e "y" _ (by decide), e "z" _ (by decide)]

theorem mirror_links {rev : List Bool} {c c' : Config} (h : Reversed rev c c') (tail : List Link)
    (ht : Mirrors [] tail tail) : ∀ (rs : List Bool) (i : ℕ), (∀ k r, rs[k]? = some r → rev[i + k]? = some r) →
    ∃ ls ls', links c i rs.length = some ls ∧ links c' i rs.length = some ls' ∧ Mirrors rs (ls ++ tail) (ls' ++ tail) := by
  intro rs
  induction rs with
  | nil => intro i _; exact ⟨[], [], rfl, rfl, ht⟩
  | cons r rs ih =>
    intro i hi
    obtain ⟨l, l', h1, h2, h3⟩ := mirror_link h (hi 0 r rfl)
    rw [Nat.add_zero] at h1 h2
    obtain ⟨ls, ls', k1, k2, k3⟩ := ih (i + 1) (fun k r' hk => by
      have := hi (k + 1) r' (by simpa using hk)
      rwa [show i + (k + 1) = i + 1 + k by omega] at this)
    refine ⟨l :: ls, l' :: ls', ?_, ?_, .joint h3 k3⟩
    · simp only [List.length_cons, links, h1, k1, Option.bind_eq_bind, Option.bind_some, Option.pure_def]
      rfl
    · simp only [List.length_cons, links, h2, k2, Option.bind_eq_bind, Option.bind_some, Option.pure_def]
      rfl

theorem mirrors_append {rs : List Bool} {ls ls' : List Link} (h : Mirrors rs ls ls') (l : Link)
    (hl : l.seg.joint.type = .none) : Mirrors rs (ls ++ [l]) (ls' ++ [l]) := by
  induction h with
  | nil => exact .fixed l hl .nil
  | fixed m hm _ ih => exact .fixed m hm ih
  | joint hm _ ih => exact .joint hm ih

/-- Two solvers of the same robot, with some joints reversed. -/
structure Opposed (rev : List Bool) (s s' : DynSolver) : Prop where
  now : Mirrors rev s.links s'.links
  first : Mirrors rev s.original s'.original
  gravity : s'.gravity = s.gravity

theorem fixedLink_type (f : Frame) : (fixedLink f).seg.joint.type = .none := by
  simp [fixedLink, Segment.make, Joint.fixed]

theorem opposed_opened {st : List Link → Bool} {w : Bool} {rev : List Bool} {c c' : Config} (h : Reversed rev c c')
    {o o' : Opened} (ho : openSolver st w c = some (some o)) (ho' : openSolver st w c' = some (some o')) :
    Opposed rev o.solver o'.solver := by
  obtain ⟨a1, a2, ⟨g, a3, a4⟩, -⟩ := open_inv ho
  obtain ⟨b1, b2, ⟨g', b3, b4⟩, -⟩ := open_inv ho'
  have ck : ∀ k d, k ≠ "mins" → k ≠ "maxs" → c'.top.check k d = c.top.check k d := fun k d h1 h2 => by
    unfold Group.check
    rw [h.top k h1 h2]
  have mx : ∀ k, k ≠ "mins" → k ≠ "maxs" → matrix c'.top k = matrix c.top k := fun k h1 h2 => by
    unfold matrix
    rw [h.top k h1 h2]
  have hnum : (c.top.check "numLinks" (.int 1)).asInt.toNat = rev.length := by
    simp [Group.check, h.number, Val.asInt]
  obtain ⟨ls, ls', k1, k2, k3⟩ := mirror_links h [fixedLink (matrix c.top "HN")]
    (.fixed _ (fixedLink_type _) .nil) rev 0 (fun k r hk => by rwa [Nat.zero_add])
  unfold chain at a1 b1
  dsimp only at a1 b1
  rw [hnum, k1] at a1
  rw [ck "numLinks" _ (by decide) (by decide), hnum, k2, mx "H0" (by decide) (by decide),
    mx "HN" (by decide) (by decide)] at b1
  have e1 := Option.some.inj a1
  have e2 := Option.some.inj b1
  have hm : Mirrors rev o.solver.links o'.solver.links := by
    rw [← e1, ← e2]
    exact .fixed _ (fixedLink_type _) k3
  refine ⟨hm, by rw [a2, b2]; exact hm, ?_⟩
  rw [ck "gravity" _ (by decide) (by decide), a3] at b3
  rw [a4, b4, Option.some.inj b3]

theorem opposed_after {rev : List Bool} : ∀ (ops : List Change) {s s' : DynSolver}, Opposed rev s s' →
    Opposed rev (after s ops) (after s' ops) := by
  intro ops
  induction ops with
  | nil => intro s s' h; exact h
  | cons op ops ih =>
    intro s s' h
    refine ih (s := match op with | .append x => s.appendLink x | .restore => s.restore)
      (s' := match op with | .append x => s'.appendLink x | .restore => s'.restore) ?_
    cases op with
    | append x =>
      exact ⟨mirrors_append h.now _ (by simp [Segment.make, Joint.fixed]), h.first, h.gravity⟩
    | restore => exact ⟨h.first, h.first, h.gravity⟩

theorem mirrors_count {rs : List Bool} {ls ls' : List Link} (h : Mirrors rs ls ls') :
    Chain.nJoints (ls.map (·.seg)) = rs.length ∧ Chain.nJoints (ls'.map (·.seg)) = rs.length ∧
      ls'.length = ls.length := by
  induction h with
  | nil => exact ⟨rfl, rfl, rfl⟩
  | fixed l hl _ ih =>
    rw [List.map_cons, List.map_cons, Chain.nJoints_cons, Chain.nJoints_cons, if_neg (by simp [hl]), List.length_cons,
      List.length_cons]
    omega
  | joint hm _ ih =>
    rw [List.map_cons, List.map_cons, Chain.nJoints_cons, Chain.nJoints_cons, if_pos hm.moves, if_pos hm.moves']
    simp only [List.length_cons]
    omega

theorem mirrors_fk {rs : List Bool} {ls ls' : List Link} (h : Mirrors rs ls ls') : ∀ (q : List ℝ) (acc : Frame),
    q.length = rs.length → Chain.fkLoop (ls'.map (·.seg)) (signed rs q) acc = Chain.fkLoop (ls.map (·.seg)) q acc := by
  induction h with
  | nil =>
    intro q acc hq
    rw [List.length_eq_zero_iff.mp hq]
    rfl
  | @fixed rs ls ls' l hl _ ih =>
    intro q acc hq
    rw [List.map_cons, List.map_cons, Chain.fkLoop.eq_def, Chain.fkLoop.eq_def (l.seg :: _) q]
    dsimp only
    rw [if_neg (by simp [hl]), if_neg (by simp [hl]), ih q _ hq]
  | @joint r rs l l' ls ls' hm _ ih =>
    intro q acc hq
    cases q with
    | nil => simp at hq
    | cons x q =>
      rw [List.map_cons, List.map_cons, show signed (r :: rs) (x :: q) = sg r x :: signed rs q from rfl,
        Chain.fkLoop.eq_def, Chain.fkLoop.eq_def (l.seg :: _)]
      dsimp only
      rw [if_pos hm.moves, if_pos hm.moves', hm.pose, ih q _ (by simpa using hq)]

/-- Columns of the Jacobian, with the signs of the reversed joints changed. -/
noncomputable def signCols (rev : List Bool) (cols : List Twist) : List Twist :=
  List.zipWith (fun r t => sg r 1 • t) rev cols

theorem rotate_smul (k : ℝ) (m : Mat3) (t : Twist) : Twist.rotate m (k • t) = k • Twist.rotate m t := by
  show (⟨m.mulVec (k • t.vel), m.mulVec (k • t.rot)⟩ : Twist) = ⟨k • m.mulVec t.vel, k • m.mulVec t.rot⟩
  rw [Mat3.mulVec_smul, Mat3.mulVec_smul]

theorem signCols_refPoint (rev : List Bool) (cols : List Twist) (d : Vec3) :
    (signCols rev cols).map (·.refPoint d) = signCols rev (cols.map (·.refPoint d)) := by
  unfold signCols
  rw [List.zipWith_map_right, List.map_zipWith]
  congr 1
  funext r t
  exact refPoint_smul _ t d

theorem mirrors_jac {rs : List Bool} {ls ls' : List Link} (h : Mirrors rs ls ls') :
    ∀ (q : List ℝ) (acc : Frame) (done : List Bool) (cols : List Twist), q.length = rs.length →
      cols.length = done.length →
      Chain.jacLoop (ls'.map (·.seg)) (signed rs q) acc (signCols done cols) =
        (Chain.jacLoop (ls.map (·.seg)) q acc cols).map (signCols (done ++ rs)) := by
  induction h with
  | nil =>
    intro q acc done cols hq _
    rw [List.length_eq_zero_iff.mp hq, List.append_nil]
    rfl
  | @fixed rs ls ls' l hl _ ih =>
    intro q acc done cols hq hd
    rw [List.map_cons, List.map_cons, Chain.jacLoop.eq_def, Chain.jacLoop.eq_def (l.seg :: _) q]
    dsimp only
    rw [if_neg (by simp [hl]), if_neg (by simp [hl]), signCols_refPoint, ih q _ _ _ hq (by simpa using hd)]
  | @joint r rs l l' ls ls' hm _ ih =>
    intro q acc done cols hq hd
    cases q with
    | nil => simp at hq
    | cons x q =>
      rw [List.map_cons, List.map_cons, show signed (r :: rs) (x :: q) = sg r x :: signed rs q from rfl,
        Chain.jacLoop.eq_def, Chain.jacLoop.eq_def (l.seg :: _)]
      dsimp only
      rw [if_pos hm.moves, if_pos hm.moves', hm.pose, hm.unit, rotate_smul, signCols_refPoint]
      have e : signCols done (cols.map (·.refPoint ((acc * l.seg.pose x).p - acc.p))) ++
          [sg r 1 • Twist.rotate acc.M (l.seg.twist x 1)] =
          signCols (done ++ [r]) (cols.map (·.refPoint ((acc * l.seg.pose x).p - acc.p)) ++
            [Twist.rotate acc.M (l.seg.twist x 1)]) := by
        unfold signCols
        rw [List.zipWith_append (by simp [hd])]
        rfl
      rw [e, ih q _ _ _ (by simpa using hq) (by simp [hd]), List.append_assoc, List.singleton_append]

theorem sweep_mirror {r : Bool} {l l' : Link} (h : Mirror r l l') (q qd qdd : ℝ) (v a : Twist) :
    Link.sweep l'.seg (sg r q) (sg r qd) (sg r qdd) v a = Link.sweep l.seg q qd qdd v a := by
  have e : ∀ t : Twist, sg r qdd • sg r 1 • t = qdd • t := fun t => by
    show (⟨sg r qdd • sg r 1 • t.vel, sg r qdd • sg r 1 • t.rot⟩ : Twist) = ⟨qdd • t.vel, qdd • t.rot⟩
    cases r <;> congr 1 <;> ext <;> simp [sg]
  simp only [Link.sweep, h.pose, h.twist, h.unit, rotate_smul, e]

theorem power_smul (k : ℝ) (t : Twist) (f : Wrench) : (k • t).power f = k * t.power f := by
  show Vec3.dot (k • t.vel) f.force + Vec3.dot (k • t.rot) f.torque = k * (Vec3.dot t.vel f.force + Vec3.dot t.rot f.torque)
  rw [Vec3.dot_smul_left, Vec3.dot_smul_left, mul_add]

theorem mirrors_rne {rs : List Bool} {ls ls' : List Link} (h : Mirrors rs ls ls') :
    ∀ (q qd qdd : List ℝ) (es : List Wrench) (v a : Twist), q.length = rs.length → qd.length = rs.length →
      qdd.length = rs.length →
      rneLoop ls' (signed rs q) (signed rs qd) (signed rs qdd) es v a =
        (rneLoop ls q qd qdd es v a).map fun p => (signed rs p.1, p.2) := by
  induction h with
  | nil =>
    intro q qd qdd es v a h1 h2 h3
    rw [List.length_eq_zero_iff.mp h1, List.length_eq_zero_iff.mp h2, List.length_eq_zero_iff.mp h3]
    cases es <;> rfl
  | @fixed rs ls ls' l hl _ ih =>
    intro q qd qdd es v a h1 h2 h3
    cases es with
    | nil => simp [rneLoop]
    | cons e es =>
      rw [rneLoop.eq_def, rneLoop.eq_def (l :: ls)]
      dsimp only
      rw [if_neg (by simp [hl]), if_neg (by simp [hl]), ih q qd qdd es _ _ h1 h2 h3]
      cases rneLoop ls q qd qdd es (Link.sweep l.seg 0 0 0 v a).1 (Link.sweep l.seg 0 0 0 v a).2 <;> rfl
  | @joint r rs l l' ls ls' hm _ ih =>
    intro q qd qdd es v a h1 h2 h3
    cases es with
    | nil => simp [rneLoop]
    | cons e es =>
      cases q with
      | nil => simp at h1
      | cons x q =>
      cases qd with
      | nil => simp at h2
      | cons y qd =>
      cases qdd with
      | nil => simp at h3
      | cons z qdd =>
      rw [show signed (r :: rs) (x :: q) = sg r x :: signed rs q from rfl,
        show signed (r :: rs) (y :: qd) = sg r y :: signed rs qd from rfl,
        show signed (r :: rs) (z :: qdd) = sg r z :: signed rs qdd from rfl, rneLoop.eq_def, rneLoop.eq_def (l :: ls)]
      dsimp only
      rw [if_pos hm.moves, if_pos hm.moves', sweep_mirror hm,
        ih q qd qdd es _ _ (by simpa using h1) (by simpa using h2) (by simpa using h3), hm.pose, hm.unit, rotate_smul,
        hm.inertia]
      cases rneLoop ls q qd qdd es (Link.sweep l.seg x y z v a).1 (Link.sweep l.seg x y z v a).2 with
      | none => rfl
      | some p =>
        dsimp only [Option.map, Option.bind_eq_bind, Option.bind, Option.pure_def]
        rw [power_smul, show sg r 1 * Twist.power _ _ = sg r (Twist.power _ _) by rw [← sg_mul, one_mul]]
        rfl

theorem opposed_count {rev : List Bool} {s s' : DynSolver} (h : Opposed rev s s') :
    s.chain.nJoints = rev.length ∧ s'.chain.nJoints = rev.length :=
  ⟨(mirrors_count h.now).1, (mirrors_count h.now).2.1⟩

theorem opposed_fk {rev : List Bool} {s s' : DynSolver} (h : Opposed rev s s') {q : List ℝ} (hq : q.length = rev.length) :
    s'.chain.fk (signed rev q) = s.chain.fk q := mirrors_fk h.now q 1 hq

theorem opposed_rne {rev : List Bool} {s s' : DynSolver} (h : Opposed rev s s') {q qd qdd : List ℝ}
    (h1 : q.length = rev.length) (h2 : qd.length = rev.length) (h3 : qdd.length = rev.length) (es : List Wrench) :
    rne s'.links s'.gravity (signed rev q) (signed rev qd) (signed rev qdd) es =
      (rne s.links s.gravity q qd qdd es).map (signed rev) := by
  unfold rne
  rw [mirrors_rne h.now q qd qdd es _ _ h1 h2 h3, h.gravity, Option.map_map, Option.map_map]
  rfl

theorem opposed_wrenches {rev : List Bool} {s s' : DynSolver} (h : Opposed rev s s') (w : Wrench) :
    s'.wrenches w = s.wrenches w := by
  have hl := (mirrors_count h.now).2.2
  unfold DynSolver.wrenches
  rw [hl, show s'.links.isEmpty = s.links.isEmpty by
    rw [Bool.eq_iff_iff, List.isEmpty_iff_length_eq_zero, List.isEmpty_iff_length_eq_zero, hl]]

theorem radians_all {n : ℕ} {q : List ℝ} (h : q.length = n) : toRadians n q = some (q.map (· * deg2rad)) := by
  unfold toRadians
  rw [if_pos h.ge, ← h, List.take_length]

theorem apply_signed : ∀ (rev : List Bool) (cols : List Twist) (x : List ℝ), cols.length = rev.length →
    x.length = rev.length → jacApply (signCols rev cols) (signed rev x) = jacApply cols x := by
  intro rev
  induction rev with
  | nil =>
    intro cols x h1 h2
    rw [List.length_eq_zero_iff.mp h1, List.length_eq_zero_iff.mp h2]
    rfl
  | cons r rev ih =>
    intro cols x h1 h2
    cases cols with
    | nil => simp at h1
    | cons t cols =>
      cases x with
      | nil => simp at h2
      | cons a x =>
        show jacApply (sg r 1 • t :: signCols rev cols) (sg r a :: signed rev x) = _
        rw [jacApply, jacApply, ih cols x (by simpa using h1) (by simpa using h2)]
        have e : sg r a • sg r 1 • t = a • t := by
          show (⟨sg r a • sg r 1 • t.vel, sg r a • sg r 1 • t.rot⟩ : Twist) = ⟨a • t.vel, a • t.rot⟩
          cases r <;> congr 1 <;> ext <;> simp [sg]
        rw [e]

theorem low_length : ∀ (rev : List Bool) (lo hi : List ℝ), lo.length = rev.length → hi.length = rev.length →
    (reversedLow rev lo hi).length = rev.length ∧ (reversedHigh rev lo hi).length = rev.length
  | [], lo, hi, _, _ => by simp [reversedLow, reversedHigh]
  | r :: rev, [], _, h, _ => by simp at h
  | r :: rev, _ :: _, [], _, h => by simp at h
  | r :: rev, a :: lo, b :: hi, h1, h2 => by
    have := low_length rev lo hi (by simpa using h1) (by simpa using h2)
    simp [reversedLow, reversedHigh, this.1, this.2]

theorem transpose_signed (rev : List Bool) (cols : List Twist) (e : Twist) :
    jacTranspose (signCols rev cols) e = signed rev (jacTranspose cols e) := by
  unfold jacTranspose signCols signed
  rw [List.zipWith_map_right, List.map_zipWith]
  congr 1
  funext r t
  have : Twist.dot (sg r 1 • t) e = sg r 1 * Twist.dot t e := by
    show Vec3.dot (sg r 1 • t.vel) e.vel + Vec3.dot (sg r 1 • t.rot) e.rot = _
    rw [Vec3.dot_smul_left, Vec3.dot_smul_left, ← mul_add]
    rfl
  rw [this, ← sg_mul, one_mul]

theorem diff_signed (rev : List Bool) (cols : List Twist) (e : Twist) (hl : cols.length = rev.length) :
    computeDiffInvKin (signCols rev cols) e = (computeDiffInvKin cols e).map (signed rev) := by
  unfold computeDiffInvKin
  simp only [transpose_signed]
  rw [apply_signed rev cols _ hl (by simp [jacTranspose, hl])]
  split
  · rfl
  · rw [Option.map_some]
    congr 1
    have := signed_scale (Twist.dot e (jacApply cols (jacTranspose cols e)) /
      Twist.dot (jacApply cols (jacTranspose cols e)) (jacApply cols (jacTranspose cols e))) rev (jacTranspose cols e)
    simp only [mul_comm] at this ⊢
    exact this.symm

theorem clamp_sg (r : Bool) (v : Option ℝ) {lo hi : ℝ} (h : lo ≤ hi) :
    clampHigh (clampLow (v.map (sg r)) (if r then -hi else lo)) (if r then -lo else hi) =
      (clampHigh (clampLow v lo) hi).map (sg r) := by
  cases v with
  | none => rfl
  | some a =>
    cases r with
    | false => simp [clampHigh, clampLow, sg]
    | true =>
      simp only [clampHigh, clampLow, sg, if_true, Option.map_some]
      congr 1
      split_ifs <;> linarith

theorem clamp_signed : ∀ (rev : List Bool) (q lo hi : List ℝ) (dq : Option (List ℝ)), q.length = rev.length →
    lo.length = rev.length → hi.length = rev.length → (∀ p ∈ lo.zip hi, p.1 ≤ p.2) →
    (∀ d, dq = some d → d.length = rev.length) →
    List.zipWith clampHigh (List.zipWith clampLow (addNan (signed rev q) (dq.map (signed rev))) (reversedLow rev lo hi))
      (reversedHigh rev lo hi) =
      List.zipWith (fun r v => v.map (sg r)) rev
        (List.zipWith clampHigh (List.zipWith clampLow (addNan q dq) lo) hi) := by
  intro rev
  induction rev with
  | nil =>
    intro q lo hi dq h1 h2 h3 _ h5
    simp [reversedLow]
  | cons r rev ih =>
    intro q lo hi dq h1 h2 h3 h4 h5
    cases q with
    | nil => simp at h1
    | cons x q =>
    cases lo with
    | nil => simp at h2
    | cons a lo =>
    cases hi with
    | nil => simp at h3
    | cons b hi =>
    have hab : a ≤ b := h4 (a, b) (by simp)
    have h4' : ∀ p ∈ lo.zip hi, p.1 ≤ p.2 := fun p hp => h4 p (by simp [hp])
    cases dq with
    | none =>
      have := ih q lo hi none (by simpa using h1) (by simpa using h2) (by simpa using h3) h4' (fun d hd => by cases hd)
      show clampHigh (clampLow none _) _ :: _ = _ :: _
      exact congrArg₂ List.cons (by rfl) this
    | some d =>
      cases d with
      | nil => simpa using h5 [] rfl
      | cons y d =>
        have := ih q lo hi (some d) (by simpa using h1) (by simpa using h2) (by simpa using h3) h4'
          (fun d' hd => by rw [← Option.some.inj hd]; simpa using h5 _ rfl)
        have hs : some (sg r x + sg r y) = (some (x + y)).map (sg r) := by
          cases r <;> simp [sg]; ring
        show clampHigh (clampLow (some (sg r x + sg r y)) (if r then -b else a)) (if r then -a else b) :: _ = _ :: _
        refine congrArg₂ List.cons ?_ this
        rw [hs, clamp_sg r _ hab]

theorem jac_length (c : Chain) : ∀ (q : List ℝ) (acc : Frame) (cols cols' : List Twist),
    Chain.jacLoop c q acc cols = some cols' → cols'.length = cols.length + q.length := by
  induction c with
  | nil =>
    intro q acc cols cols' h
    cases q with
    | nil => rw [← Option.some.inj h]; rfl
    | cons x q => cases h
  | cons s c ih =>
    intro q acc cols cols' h
    rw [Chain.jacLoop.eq_def] at h
    dsimp only at h
    split at h
    · cases q with
      | nil => cases h
      | cons x q =>
        have := ih q _ _ _ h
        simp at this
        simp only [List.length_cons]
        omega
    · have := ih q _ _ _ h
      simpa using this

end KdlConfig

open KdlConfig

/-! ### The property -/

/-- C104: forward kinematics. With the signs of the reversed joints changed, the tip is at the same pose. -/
theorem C104_forward_kinematics {st : List Link → Bool} {w : Bool} {rev : List Bool} {c c' : Config}
    (h : Reversed rev c c') {o o' : Opened} (ho : openSolver st w c = some (some o))
    (ho' : openSolver st w c' = some (some o')) (ops : List Change) (q : List ℝ) (hq : q.length = rev.length) :
    let s := KdlSolver.opened (after o.solver ops).chain
    let s' := KdlSolver.opened (after o'.solver ops).chain
    s.numJoints = rev.length ∧ s'.numJoints = rev.length ∧ s'.fwdKin (signed rev q) = s.fwdKin q ∧
      (s.fwdKin q).isSome := by
  intro s s'
  have hp := opposed_after ops (opposed_opened h ho ho')
  have h1 : s.numJoints = rev.length := (opposed_count hp).1
  have h2 : s'.numJoints = rev.length := (opposed_count hp).2
  have e1 : toRadians s.numJoints q = some (q.map (· * deg2rad)) := radians_all (by rw [h1, hq])
  have e2 : toRadians s'.numJoints (signed rev q) = some (signed rev (q.map (· * deg2rad))) := by
    rw [radians_all (by rw [h2, signed_length hq]), signed_scale]
  have e3 : s'.chain.fk (signed rev (q.map (· * deg2rad))) = s.chain.fk (q.map (· * deg2rad)) :=
    opposed_fk hp (by simpa using hq)
  refine ⟨h1, h2, ?_, ?_⟩
  · unfold KdlSolver.fwdKin
    rw [e1, e2]
    dsimp only [Option.bind_eq_bind, Option.bind]
    rw [e3]
  · have hsome : (s.chain.fk (q.map (· * deg2rad))).isSome := by
      unfold Chain.fk
      rw [Chain.fkLoop_isSome, List.length_map, hq]
      exact h1.symm
    obtain ⟨P, hP⟩ := Option.isSome_iff_exists.mp hsome
    unfold KdlSolver.fwdKin
    rw [e1]
    dsimp only [Option.bind_eq_bind, Option.bind]
    rw [hP]
    rfl

/-- C104: inverse dynamics. With the signs of the reversed joints changed in positions, velocities and accelerations,
the torques are the same but for the signs of the reversed joints. -/
theorem C104_inverse_dynamics {st : List Link → Bool} {w : Bool} {rev : List Bool} {c c' : Config}
    (h : Reversed rev c c') {o o' : Opened} (ho : openSolver st w c = some (some o))
    (ho' : openSolver st w c' = some (some o')) (ops : List Change) (q qdot qdotdot ftip : List ℝ)
    (hq : q.length = rev.length) (hd : qdot.length = rev.length) (hdd : qdotdot.length = rev.length)
    (frame : SolverFrame) :
    let s := after o.solver ops
    let s' := after o'.solver ops
    s'.invDynStatic (signed rev q) = (s.invDynStatic q).map (Option.map (signed rev)) ∧
    s'.invDyn (signed rev q) (signed rev qdot) (signed rev qdotdot) ftip frame =
      (s.invDyn q qdot qdotdot ftip frame).map (Option.map (signed rev)) := by
  intro s s'
  have hp : Opposed rev s s' := opposed_after ops (opposed_opened h ho ho')
  obtain ⟨h1, h2⟩ := opposed_count hp
  have er : ∀ x : List ℝ, x.length = rev.length → toRadians s'.chain.nJoints (signed rev x) =
      some (signed rev (x.map (· * deg2rad))) := fun x hx => by
    rw [radians_all (by rw [h2, signed_length hx]), signed_scale]
  have el : ∀ x : List ℝ, x.length = rev.length → toRadians s.chain.nJoints x = some (x.map (· * deg2rad)) :=
    fun x hx => radians_all (by rw [h1, hx])
  have lm : ∀ x : List ℝ, x.length = rev.length → (x.map (· * deg2rad)).length = rev.length := fun x hx => by
    simpa using hx
  constructor
  · simp only [DynSolver.invDynStatic, er q hq, el q hq]
    dsimp only [Option.bind_eq_bind, Option.bind, Option.pure_def, Option.map]
    rw [h1, h2, (mirrors_count hp.now).2.2]
    have := opposed_rne hp (lm q hq) (List.length_replicate (n := rev.length) (a := (0 : ℝ)))
      (List.length_replicate (n := rev.length) (a := (0 : ℝ))) (List.replicate s.links.length 0)
    rw [signed_zero] at this
    rw [this]
    rfl
  · simp only [DynSolver.invDyn, er q hq, el q hq, er qdot hd, el qdot hd, er qdotdot hdd, el qdotdot hdd]
    dsimp only [Option.bind_eq_bind, Option.bind, Option.pure_def]
    have hr := fun es => opposed_rne hp (lm q hq) (lm qdot hd) (lm qdotdot hdd) es
    cases frame with
    | other => rfl
    | tcp =>
      dsimp only
      rw [opposed_wrenches hp]
      cases s.wrenches (vectorToWrench ftip) with
      | none => rfl
      | some es =>
        dsimp only
        rw [hr]
        rfl
    | base =>
      dsimp only
      rw [opposed_fk hp (lm q hq)]
      cases s.chain.fk (q.map (· * deg2rad)) with
      | none => rfl
      | some P =>
        dsimp only
        rw [opposed_wrenches hp]
        cases s.wrenches (Wrench.rotate P.M.transpose (vectorToWrench ftip)) with
        | none => rfl
        | some es =>
          dsimp only
          rw [hr]
          rfl

/-- C104: inverse kinematics of velocities. With a solver that comes closest with the lowest speeds, the same velocity of
the tip is reached with the same speeds but for the signs of the reversed joints. -/
theorem C104_velocities {st : List Link → Bool} {w : Bool} {rev : List Bool} {c c' : Config}
    (h : Reversed rev c c') {o o' : Opened} (ho : openSolver st w c = some (some o))
    (ho' : openSolver st w c' = some (some o')) (ops : List Change) {ik : VelSolver} (hik : Shortest ik)
    (q xdot : List ℝ) (hq : q.length = rev.length) (frame : SolverFrame) :
    let s := KdlSolver.opened (after o.solver ops).chain
    let s' := KdlSolver.opened (after o'.solver ops).chain
    s'.diffInvKin ik (signed rev q) xdot frame = (s.diffInvKin ik q xdot frame).map (Option.map (signed rev)) := by
  intro s s'
  have hp := opposed_after ops (opposed_opened h ho ho')
  have h1 : s.numJoints = rev.length := (opposed_count hp).1
  have h2 : s'.numJoints = rev.length := (opposed_count hp).2
  have e1 : toRadians s.numJoints q = some (q.map (· * deg2rad)) := radians_all (by rw [h1, hq])
  have e2 : toRadians s'.numJoints (signed rev q) = some (signed rev (q.map (· * deg2rad))) := by
    rw [radians_all (by rw [h2, signed_length hq]), signed_scale]
  have lq : (q.map (· * deg2rad)).length = rev.length := by simpa using hq
  have e3 : s'.chain.fk (signed rev (q.map (· * deg2rad))) = s.chain.fk (q.map (· * deg2rad)) := opposed_fk hp lq
  generalize q.map (· * deg2rad) = x at e1 e2 e3 lq
  have key : ∀ v, ik s'.chain (signed rev x) v = ((ik s.chain x v).1, signed rev (ik s.chain x v).2) := by
    intro v
    obtain ⟨cols, hc⟩ := exists_jacLoop s.chain x 1 [] (by rw [lq]; exact h1.symm)
    have hl : cols.length = rev.length := by
      have := jac_length _ _ _ _ _ hc
      simpa [lq] using this
    have hc' : s'.chain.jacobian (signed rev x) = some (signCols rev cols) := by
      have := mirrors_jac hp.now x 1 [] [] lq rfl
      rw [show Chain.jacLoop ((after o.solver ops).links.map (·.seg)) x 1 [] = some cols from hc] at this
      exact this
    have hl' : (signCols rev cols).length = rev.length := by simp [signCols, hl]
    obtain ⟨a1, a2, a3⟩ := hik s.chain x v cols hc
    obtain ⟨b1, b2, b3⟩ := hik s'.chain (signed rev x) v (signCols rev cols) hc'
    have ms : ∀ y : List ℝ, y.length = rev.length → miss (signCols rev cols) v (signed rev y) = miss cols v y := by
      intro y hy
      unfold miss
      rw [apply_signed rev cols y hl hy]
    have la : (ik s.chain x v).2.length = rev.length := by rw [a2, hl]
    have lb : (ik s'.chain (signed rev x) v).2.length = rev.length := by rw [b2, hl']
    have e : (ik s'.chain (signed rev x) v).2 = signed rev (ik s.chain x v).2 := by
      by_contra hne
      have k1 := b3 (signed rev (ik s.chain x v).2) (by rw [signed_length la, hl']) (fun e => hne e.symm)
      have hne2 : signed rev (ik s'.chain (signed rev x) v).2 ≠ (ik s.chain x v).2 := by
        intro e
        exact hne (by rw [← e, signed_signed _ _ lb])
      have k2 := a3 (signed rev (ik s'.chain (signed rev x) v).2) (by rw [signed_length lb, hl]) hne2
      have m1 := ms _ la
      have m2 := ms (signed rev (ik s'.chain (signed rev x) v).2) (signed_length lb)
      rw [signed_signed _ _ lb] at m2
      rw [m1, m2, signed_squares _ _ la] at k1
      rw [signed_squares _ _ lb] at k2
      rcases k1 with k1 | ⟨k1, k1'⟩ <;> rcases k2 with k2 | ⟨k2, k2'⟩ <;> linarith
    exact Prod.ext (by rw [b1, a1]) e
  have fin : ∀ v, (if (ik s'.chain (signed rev x) v).1 < 0 then none
      else some ((ik s'.chain (signed rev x) v).2.map (· * rad2deg))) =
      Option.map (signed rev) (if (ik s.chain x v).1 < 0 then none else some ((ik s.chain x v).2.map (· * rad2deg))) := by
    intro v
    rw [key v]
    split
    · rfl
    · rw [Option.map_some, signed_scale]
  unfold KdlSolver.diffInvKin
  rw [e1, e2]
  dsimp only [Option.bind_eq_bind, Option.bind]
  cases frame with
  | other => rfl
  | base =>
    dsimp only
    exact congrArg some (fin _)
  | tcp =>
    dsimp only
    rw [e3]
    cases s.chain.fk x with
    | none => rfl
    | some P => exact congrArg some (fin _)

/-- C104: inverse kinematics of positions with the differential solver of this repository. With the signs of the
reversed joints changed in the initial guess, and their limits as seen from the other direction, the solution is the
same but for the signs of the reversed joints. -/
theorem C104_differential_solver {st : List Link → Bool} {w : Bool} {rev : List Bool} {c c' : Config}
    (h : Reversed rev c c') {o o' : Opened} (ho : openSolver st w c = some (some o))
    (ho' : openSolver st w c' = some (some o')) (ops : List Change) (q lo hi : List ℝ) (T : Frame)
    (hq : q.length = rev.length) (hlo : lo.length = rev.length) (hhi : hi.length = rev.length)
    (hle : ∀ p ∈ lo.zip hi, p.1 ≤ p.2) (out out' : List (Option ℝ)) (ho1 : out.length = rev.length)
    (ho2 : out'.length = rev.length) :
    let s := (after o.solver ops).chain
    let s' := (after o'.solver ops).chain
    ∃ sol, (IdSolver.create s lo hi).cartToJnt s q T out = (0, sol) ∧
      (IdSolver.create s' (reversedLow rev lo hi) (reversedHigh rev lo hi)).cartToJnt s' (signed rev q) T out' =
        (0, List.zipWith (fun r v => v.map (sg r)) rev sol) := by
  intro s s'
  have hp := opposed_after ops (opposed_opened h ho ho')
  have h1 : s.nJoints = rev.length := (opposed_count hp).1
  have h2 : s'.nJoints = rev.length := (opposed_count hp).2
  obtain ⟨cols, hc⟩ := exists_jacLoop s q 1 [] (by rw [hq, h1])
  have hl : cols.length = rev.length := by
    have := jac_length _ _ _ _ _ hc
    simpa [hq] using this
  have hc' : s'.jacobian (signed rev q) = some (signCols rev cols) := by
    have := mirrors_jac hp.now q 1 [] [] hq rfl
    rw [show Chain.jacLoop ((after o.solver ops).links.map (·.seg)) q 1 [] = some cols from hc] at this
    exact this
  have hf : s'.fk (signed rev q) = s.fk q := opposed_fk hp hq
  have hsome : (s.fk q).isSome := by
    unfold Chain.fk
    rw [Chain.fkLoop_isSome, hq, h1]
  obtain ⟨P, hP⟩ := Option.isSome_iff_exists.mp hsome
  have l1 := (low_length rev lo hi hlo hhi).1
  have l2 := (low_length rev lo hi hlo hhi).2
  refine ⟨List.zipWith clampHigh (List.zipWith clampLow (addNan q (computeDiffInvKin cols (frameDiff P T))) lo) hi, ?_, ?_⟩
  · unfold IdSolver.cartToJnt IdSolver.create
    rw [if_neg (by simp), if_neg (by simp [h1, hq, ho1, hlo, hhi]), hP, show s.jacobian q = some cols from hc]
  · unfold IdSolver.cartToJnt IdSolver.create
    rw [if_neg (by simp), if_neg (by simp [h2, signed_length hq, ho2, l1, l2]), hf, hP, hc']
    dsimp only
    rw [diff_signed rev cols _ hl]
    congr 1
    exact clamp_signed rev q lo hi _ hq hlo hhi hle (by
      intro d hd
      unfold computeDiffInvKin at hd
      dsimp only at hd
      split at hd
      · cases hd
      · rw [← Option.some.inj hd]
        simp [jacTranspose, hl])

/-! ### A solver of velocities as supposed exists -/

namespace KdlConfig

/-- The shortest of the closest. -/
theorem exists_shortest {E G : Type*} [NormedAddCommGroup E] [InnerProductSpace ℝ E] [FiniteDimensional ℝ E]
    [NormedAddCommGroup G] [InnerProductSpace ℝ G] [FiniteDimensional ℝ G] (J : E →ₗ[ℝ] G) (v : G) :
    ∃ x : E, ∀ y, y ≠ x → ‖J x - v‖ ^ 2 < ‖J y - v‖ ^ 2 ∨ (‖J x - v‖ ^ 2 = ‖J y - v‖ ^ 2 ∧ ‖x‖ ^ 2 < ‖y‖ ^ 2) := by
  obtain ⟨x0, hx0⟩ : (LinearMap.range J).starProjection v ∈ LinearMap.range J := Submodule.starProjection_apply_mem _ v
  set w := (LinearMap.range J).starProjection v with hw
  have hv : v - w ∈ (LinearMap.range J)ᗮ := Submodule.sub_starProjection_mem_orthogonal v
  set K := LinearMap.ker J
  have hk : K.starProjection x0 ∈ K := Submodule.starProjection_apply_mem _ x0
  have hx : x0 - K.starProjection x0 ∈ Kᗮ := Submodule.sub_starProjection_mem_orthogonal x0
  set x := x0 - K.starProjection x0
  have hJ : J x = w := by
    rw [map_sub, LinearMap.mem_ker.mp hk, sub_zero, hx0]
  have pyth : ∀ y, ‖J y - v‖ ^ 2 = ‖J y - w‖ ^ 2 + ‖J x - v‖ ^ 2 := by
    intro y
    have hin : inner ℝ (J y - w) (w - v) = 0 := by
      have hm : J y - w ∈ LinearMap.range J := by
        rw [← hx0, ← map_sub]
        exact ⟨_, rfl⟩
      have := (Submodule.mem_orthogonal _ _).mp hv _ hm
      rw [← neg_sub v w, inner_neg_right, this, neg_zero]
    have := norm_add_sq_eq_norm_sq_add_norm_sq_real hin
    rw [sub_add_sub_cancel] at this
    rw [hJ]
    nlinarith [this]
  refine ⟨x, fun y hy => ?_⟩
  by_cases hyw : J y = w
  · right
    refine ⟨by rw [hJ, hyw], ?_⟩
    have hm : y - x ∈ K := by
      rw [LinearMap.mem_ker, map_sub, hyw, hJ, sub_self]
    have hin := (Submodule.mem_orthogonal _ _).mp hx _ hm
    have := norm_add_sq_eq_norm_sq_add_norm_sq_real hin
    rw [sub_add_cancel] at this
    have hpos : 0 < ‖y - x‖ := norm_pos_iff.mpr (sub_ne_zero.mpr hy)
    nlinarith [this]
  · left
    rw [pyth y]
    have hpos : 0 < ‖J y - w‖ := norm_pos_iff.mpr (sub_ne_zero.mpr hyw)
    nlinarith [hpos]

/-- A twist as a vector of six. -/
noncomputable def toG (t : Twist) : EuclideanSpace ℝ (Fin 6) :=
  WithLp.toLp 2 ![t.vel.x, t.vel.y, t.vel.z, t.rot.x, t.rot.y, t.rot.z]

theorem toG_norm (a b : Twist) : ‖toG a - toG b‖ ^ 2 = Twist.dot (a - b) (a - b) := by
  rw [EuclideanSpace.norm_sq_eq]
  simp only [Fin.sum_univ_six, Real.norm_eq_abs, sq_abs]
  simp only [toG, PiLp.sub_apply, Twist.dot, Vec3.dot, Twist.sub_vel, Twist.sub_rot, Vec3.sub_x, Vec3.sub_y, Vec3.sub_z]
  simp
  ring

theorem toG_apply : ∀ (cols : List Twist) (f : Fin cols.length → ℝ),
    toG (jacApply cols (List.ofFn f)) = ∑ i, f i • toG (cols.get i) := by
  intro cols
  induction cols with
  | nil =>
    intro f
    ext i
    fin_cases i <;> simp [toG, jacApply]
  | cons t cols ih =>
    intro f
    have e := ih (fun i => f i.succ)
    have h : (List.ofFn f : List ℝ) = f 0 :: List.ofFn (fun i : Fin cols.length => f i.succ) :=
      List.ofFn_succ (n := cols.length) (f := f)
    rw [h, jacApply]
    have hs : (∑ i : Fin (t :: cols).length, f i • toG ((t :: cols).get i)) =
        f 0 • toG t + ∑ i : Fin cols.length, f i.succ • toG (cols.get i) :=
      Fin.sum_univ_succ (n := cols.length) (fun i => f i • toG ((t :: cols).get i))
    rw [hs, ← e]
    ext i
    fin_cases i <;> simp [toG]

/-- There is such a solver. -/
theorem shortest_exists : ∃ ik, Shortest ik := by
  classical
  have key : ∀ (cols : List Twist) (v : Twist), ∃ x : List ℝ, x.length = cols.length ∧
      ∀ y : List ℝ, y.length = cols.length → y ≠ x → miss cols v x < miss cols v y ∨
        (miss cols v x = miss cols v y ∧ (x.map (· ^ 2)).sum < (y.map (· ^ 2)).sum) := by
    intro cols v
    let J : EuclideanSpace ℝ (Fin cols.length) →ₗ[ℝ] EuclideanSpace ℝ (Fin 6) :=
      (Fintype.linearCombination ℝ (fun i => toG (cols.get i))).comp
        (WithLp.linearEquiv 2 ℝ (Fin cols.length → ℝ)).toLinearMap
    have hJ : ∀ x : EuclideanSpace ℝ (Fin cols.length), J x = toG (jacApply cols (List.ofFn fun i => x i)) := by
      intro x
      rw [toG_apply]
      simp [J, Fintype.linearCombination_apply]
    have hm : ∀ x : EuclideanSpace ℝ (Fin cols.length), ‖J x - toG v‖ ^ 2 = miss cols v (List.ofFn fun i => x i) := by
      intro x
      rw [hJ, toG_norm]
      rfl
    have hn : ∀ x : EuclideanSpace ℝ (Fin cols.length), ‖x‖ ^ 2 = ((List.ofFn fun i => x i).map (· ^ 2)).sum := by
      intro x
      rw [EuclideanSpace.norm_sq_eq, List.map_ofFn, List.sum_ofFn]
      simp
    obtain ⟨x, hx⟩ := exists_shortest J (toG v)
    refine ⟨List.ofFn fun i => x i, List.length_ofFn, fun y hy hne => ?_⟩
    have hy' : (List.ofFn fun i : Fin cols.length => y[i]'(by rw [hy]; exact i.2)) = y := by
      apply List.ext_getElem (by simp [hy])
      intro i h1 h2
      simp
    have h := hx (WithLp.toLp 2 fun i : Fin cols.length => y[i]'(by rw [hy]; exact i.2)) (by
      rintro rfl
      exact hne hy'.symm)
    rw [hm, hm, hn, hn] at h
    simpa only [PiLp.toLp_apply, hy'] using h
  choose f h1 h2 using key
  refine ⟨fun c q v => match Chain.jacobian c q with
    | some cols => (0, f cols v)
    | none => (-1, []), fun c q v cols hj => ?_⟩
  simp only [hj]
  exact ⟨trivial, h1 cols v, h2 cols v⟩

example : ∃ ik, Shortest ik := shortest_exists

end KdlConfig

/-! ### A robot with a joint that turns and one that slides -/

namespace KdlConfig

/-- A joint that turns about z, and one that slides along x: both in the direction of their axes, or against it. -/
noncomputable def crane (turn slide : String) : Config where
  top := group [("numLinks", .int 3), ("ikPos", .str "lma")]
  group k :=
    if k = "xyzLink_0" then some (group [("Type", .str turn), ("z", .num 2)])
    else if k = "link_1" then some (group [("A", .num 1), ("mass", .num 3), ("cog", .list [-1, 0, 0]),
      ("inertia", .list [1, 1, 1])])
    else if k = "xyzLink_2" then some (group [("Type", .str slide)])
    else none

/-- Both joints reversed. -/
theorem crane_reversed : Reversed [true, false, true] (crane "RotZ" "TransX") (crane "InvRotZ" "InvTransX") where
  number := rfl
  top := fun _ _ _ => rfl
  kept := by
    intro i hi
    match i, hi with
    | 1, _ => exact ⟨rfl, rfl, _, .dh (offset := 0) (d := 0) (a := 1) (alpha := 0) rfl (Or.inr ⟨rfl, rfl⟩)
        (Or.inr ⟨rfl, rfl⟩) (Or.inl rfl) (Or.inr ⟨rfl, rfl⟩)⟩
    | i + 3, hi => simp at hi
  reversed := by
    intro i hi
    match i, hi with
    | 0, _ =>
      refine ⟨_, _, false, 2, false, rfl, rfl, rfl, rfl, rfl, rfl, fun key hk => ?_⟩
      simp [group, List.find?_cons, hk.symm]
    | 2, _ =>
      refine ⟨_, _, true, 0, false, rfl, rfl, rfl, rfl, rfl, rfl, fun key hk => ?_⟩
      simp [group, hk.symm]
    | i + 3, hi => simp at hi

theorem crane_opens (st : List Link → Bool) (turn slide : String) :
    ∃ o, openSolver st true (crane turn slide) = some (some o) := ⟨_, rfl⟩

/-- Both robots open. -/
example (st : List Link → Bool) : ∃ o o', openSolver st true (crane "RotZ" "TransX") = some (some o) ∧
    openSolver st true (crane "InvRotZ" "InvTransX") = some (some o') := by
  obtain ⟨o, h⟩ := crane_opens st "RotZ" "TransX"
  obtain ⟨o', h'⟩ := crane_opens st "InvRotZ" "InvTransX"
  exact ⟨o, o', h, h'⟩

/-- Signs. -/
example : signed [true, false, true] [10, 20, 30] = [-10, 20, -30] := by simp [signed, sg]

end KdlConfig

end KD
