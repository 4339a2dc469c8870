import Verif.Kdl.TreeDynamics
import Verif.Props.Dynamics
import Verif.Props.KdlTreeConfig

/-!
# C80: inverse dynamics of the tree solver

As in C74: bodies are made of point masses, and the torques are compared with the forces on all of them by virtual
work.
-/

namespace KD

open Vec3 KdlVectorConverter KdlSolver

namespace TreeDynSolver

/-! ### Specification -/

/-- Where a place of a segment is, with the joints at `q`. -/
noncomputable def placeAt (s : TreeDynSolver) (q : List ℝ) (x : String) (r : Vec3) : Vec3 := ((s.tree.fk q x).getD 1).act r

/-- Names of the segments. -/
def segments (s : TreeDynSolver) : List String := s.tree.nodes.map (·.name)

/-- The potential energy of the point masses of all the bodies. -/
noncomputable def potential (s : TreeDynSolver) (bodies : String → List MassPoint) (q : List ℝ) : ℝ :=
  (s.segments.map fun x => ((bodies x).map fun p => - (p.mass * dot s.gravity (s.placeAt q x p.place))).sum).sum

/-- The work per unit of virtual displacement of the forces that accelerate all the point masses against gravity. `x`
are the joints in time, `y` the joints along the virtual displacement. -/
noncomputable def newtonWork (s : TreeDynSolver) (bodies : String → List MassPoint) (x y : ℝ → List ℝ) (t : ℝ) : ℝ :=
  (s.segments.map fun n => ((bodies n).map fun p =>
    p.mass * dot (Vec3.rate (Vec3.rate fun u => s.placeAt (x u) n p.place) t - s.gravity)
      (Vec3.rate (fun ε => s.placeAt (y ε) n p.place) 0)).sum).sum

/-- A tree with joints whose frames and axes are proper; each segment stands for a body. -/
structure Describes (s : TreeDynSolver) (bodies : String → List MassPoint) : Prop where
  built : s.tree.Built
  joints : s.tree.nJoints ≠ 0
  proper : ∀ n ∈ s.tree.nodes, n.link.seg.Wf
  bodies : ∀ n ∈ s.tree.nodes, n.link.inertia.Of (bodies n.name)

/-- TCPs are different segments, and they go with others before them. -/
structure TcpsFit (s : TreeDynSolver) : Prop where
  different : s.tcps.endpoints.Nodup
  segments : ∀ e ∈ s.tcps.endpoints, e ∈ s.segments
  back : KdlTreeSolver.MergesBack s.tcps

/-- Which wrench acts on which TCP: the blocks of six are for the TCPs that do not go with another one, in their
order; the other ones get the same wrench as the one they go with. -/
def Loads (s : TreeDynSolver) (ftip : List ℝ) (load : String → Wrench) : Prop :=
  ∀ (i : ℕ) (e : String), s.tcps.endpoints[i]? = some e →
    (s.tcps.merged e = none → load e =
      vectorToWrench (KdlTreeSolver.sixth ftip (KdlTreeSolver.unmerged s.tcps (s.tcps.endpoints.take i)))) ∧
    ∀ o, s.tcps.merged e = some o → load e = load o

/-! ### Helpers -/

theorem Describes.fk {s : TreeDynSolver} {bodies : String → List MassPoint} (hs : s.Describes bodies) {q : List ℝ}
    (hq : q.length = s.tree.nJoints) {x : String} (hx : x ∈ s.segments) :
    s.tree.fk q x = some (Tree.place s.tree.nodes q x) := by
  unfold Tree.fk
  rw [if_neg (by rw [hq]; simp [hs.joints])]
  exact Tree.fkLoop_some hs.built.proper q x (Or.inr hx)

theorem Describes.placeAt {s : TreeDynSolver} {bodies : String → List MassPoint} (hs : s.Describes bodies) {q : List ℝ}
    (hq : q.length = s.tree.nJoints) {x : String} (hx : x ∈ s.segments) (r : Vec3) :
    s.placeAt q x r = (Tree.place s.tree.nodes q x).act r := by
  unfold TreeDynSolver.placeAt
  rw [hs.fk hq hx]
  rfl

theorem Describes.newtonWork {s : TreeDynSolver} {bodies : String → List MassPoint} (hs : s.Describes bodies)
    (ms : List JointMotion) (hm : ms.length = s.tree.nJoints) (t : ℝ) (δ : List ℝ) (hδ : δ.length = s.tree.nJoints) :
    s.newtonWork bodies (fun u => ms.map (·.pos u)) (advance (ms.map (·.pos t)) δ) t =
      (s.segments.map fun x => Tree.work bodies s.gravity ms δ t s.tree.nodes x).sum := by
  unfold TreeDynSolver.newtonWork Tree.work
  congr 1
  refine List.map_congr_left fun x hx => ?_
  have h1 : ∀ (r : Vec3) (u : ℝ), s.placeAt (ms.map (·.pos u)) x r = (Tree.place s.tree.nodes (ms.map (·.pos u)) x).act r :=
    fun r u => hs.placeAt (by simpa using hm) hx r
  have h2 : ∀ (r : Vec3) (ε : ℝ), s.placeAt (advance (ms.map (·.pos t)) δ ε) x r =
      (Tree.place s.tree.nodes (advance (ms.map (·.pos t)) δ ε) x).act r := fun r ε =>
    hs.placeAt (by rw [DynSolver.advance_length _ _ (by simp [hm, hδ])]; simpa using hm) hx r
  simp only [h1, h2]

theorem sum_sub {α : Type} (l : List α) (f g : α → ℝ) : (l.map fun x => f x - g x).sum = (l.map f).sum - (l.map g).sum := by
  induction l with
  | nil => simp
  | cons a l ih => simp only [List.map_cons, List.sum_cons, ih]; ring

/-- Only TCPs are loaded. -/
theorem sum_loads {xs es : List String} (hx : xs.Nodup) (he : es.Nodup) (hs : ∀ e ∈ es, e ∈ xs) (f : String → ℝ)
    (hz : ∀ x, x ∉ es → f x = 0) : (xs.map f).sum = (es.map f).sum := by
  rw [← List.sum_toFinset f hx, ← List.sum_toFinset f he]
  symm
  refine Finset.sum_subset (fun e h => ?_) fun x _ h => hz x (by simpa using h)
  rw [List.mem_toFinset] at h ⊢
  exact hs e h

theorem power_none (V : Twist) : V.power 0 = 0 := by simp [Twist.power, dot]

/-! ### C80 -/

/-- C80: the torques for a robot at rest are the slopes of its potential energy. -/
theorem C80_torques_balance_gravity {s : TreeDynSolver} {bodies : String → List MassPoint} (hs : s.Describes bodies)
    (q : List ℝ) (hq : s.tree.nJoints ≤ q.length) :
    ∃ τ, s.invDynStatic q = some (some τ) ∧ τ.length = s.tree.nJoints ∧
      ∀ δ : List ℝ, δ.length = s.tree.nJoints →
        HasDerivAt (fun ε => s.potential bodies (advance ((q.take s.tree.nJoints).map (· * deg2rad)) δ ε))
          (List.zipWith (· * ·) τ δ).sum 0 := by
  set qr := (q.take s.tree.nJoints).map (· * deg2rad) with hqr
  have hl : qr.length = s.tree.nJoints := by simp [hqr, hq]
  obtain ⟨τ, h1, h2, h3⟩ := Tree.rne_work hs.built hs.proper hs.bodies s.gravity (qr.map DynSolver.JointMotion.rest)
    (by simpa using hl) 0 (fun e => if e ∈ s.tcps.endpoints then some (0 : Wrench) else none)
  have e0 : ∀ u, (qr.map DynSolver.JointMotion.rest).map (·.pos u) = qr := fun u => by
    simp [DynSolver.JointMotion.rest, Function.comp_def]
  have e1 : (qr.map DynSolver.JointMotion.rest).map (·.vel 0) = List.replicate s.tree.nJoints 0 := by
    simp [DynSolver.JointMotion.rest, Function.comp_def, ← hl, List.map_const']
  have e2 : (qr.map DynSolver.JointMotion.rest).map (·.acc 0) = List.replicate s.tree.nJoints 0 := by
    simp [DynSolver.JointMotion.rest, Function.comp_def, ← hl, List.map_const']
  rw [e0, e1, e2] at h1
  refine ⟨τ, ?_, h2, fun δ hδ => ?_⟩
  · unfold invDynStatic
    show (toRadians s.tree.nJoints q).bind _ = _
    rw [toRadians_some hq, Option.bind_some, ← hqr]
    exact congrArg some h1
  · have hz : ∀ x, ((if x ∈ s.tcps.endpoints then some (0 : Wrench) else none).getD 0) = 0 := by
      intro x
      split_ifs <;> rfl
    rw [h3 δ hδ]
    simp only [hz, power_none, sub_zero, e0]
    unfold potential
    have hlen : ∀ ε, (advance qr δ ε).length = s.tree.nJoints := fun ε => by
      rw [DynSolver.advance_length _ _ (by omega)]; exact hl
    have hsub : ∀ x ∈ s.segments, HasDerivAt (fun ε => ((bodies x).map fun p =>
        - (p.mass * dot s.gravity (s.placeAt (advance qr δ ε) x p.place))).sum)
        (Tree.work bodies s.gravity (qr.map DynSolver.JointMotion.rest) δ 0 s.tree.nodes x) 0 := by
      intro x hx
      have hmv := Tree.virtual_moves hs.proper hs.built.proper qr δ (by omega) x
      unfold Tree.work
      simp only [e0]
      generalize bodies x = pts
      induction pts with
      | nil => simpa using hasDerivAt_const (0 : ℝ) (0 : ℝ)
      | cons p pts ih =>
        simp only [List.map_cons, List.sum_cons]
        refine HasDerivAt.add ?_ ih
        have hc : Vec3.rate (Vec3.rate fun _ : ℝ => (Tree.place s.tree.nodes qr x).act p.place) 0 = 0 := by
          have : (Vec3.rate fun _ : ℝ => (Tree.place s.tree.nodes qr x).act p.place) = fun _ => 0 := by
            funext u
            exact (Vec3.HasRate.const _ u).rate
          rw [this]
          exact (Vec3.HasRate.const _ 0).rate
        rw [hc]
        simp only [hs.placeAt (hlen _) hx]
        have hp := hmv.place (Tree.place_rigid hs.proper hs.built.proper _ _) p.place
        rw [hp.rate]
        obtain ⟨r1, r2, r3⟩ := hp
        generalize (Tree.place s.tree.nodes (advance qr δ 0) x).M.mulVec _ = y at r1 r2 r3 ⊢
        have := ((((r1.const_mul s.gravity.x).add (r2.const_mul s.gravity.y)).add
          (r3.const_mul s.gravity.z)).const_mul p.mass).neg
        refine this.congr_deriv ?_
        simp [dot]
        ring
    change HasDerivAt _ ((s.segments.map fun x => Tree.work bodies s.gravity (qr.map DynSolver.JointMotion.rest) δ 0
      s.tree.nodes x).sum) 0
    generalize s.segments = xs at hsub
    induction xs with
    | nil => simpa using hasDerivAt_const (0 : ℝ) (0 : ℝ)
    | cons x xs ih =>
      simp only [List.map_cons, List.sum_cons]
      exact (hsub x (by simp)).add (ih fun y hy => hsub y (by simp [hy]))

/-- Wrenches on the TCPs, each one in the axes of its TCP. -/
theorem loads_work {s : TreeDynSolver} {bodies : String → List MassPoint} (hs : s.Describes bodies) (ht : s.TcpsFit)
    (ms : List JointMotion) (hm : ms.length = s.tree.nJoints) (t : ℝ) (ext : String → Option Wrench)
    (hext : ∀ x, x ∉ s.tcps.endpoints → ext x = none) :
    ∃ τ, s.tree.rne s.gravity (ms.map (·.pos t)) (ms.map (·.vel t)) (ms.map (·.acc t)) ext = some τ ∧
      τ.length = s.tree.nJoints ∧ ∀ δ : List ℝ, δ.length = s.tree.nJoints →
        ∃ (tip : String → ℝ → Frame) (W : String → Twist),
          (∀ e ∈ s.tcps.endpoints, (∀ ε, s.tree.fk (advance (ms.map (·.pos t)) δ ε) e = some (tip e ε)) ∧
            (tip e 0).IsRigid ∧ Frame.MovesWith (tip e) (W e) 0) ∧
          (List.zipWith (· * ·) τ δ).sum =
            s.newtonWork bodies (fun u => ms.map (·.pos u)) (advance (ms.map (·.pos t)) δ) t -
            (s.tcps.endpoints.map fun e => dot (W e).vel ((tip e 0).M.mulVec ((ext e).getD 0).force) +
              dot (W e).rot ((tip e 0).M.mulVec ((ext e).getD 0).torque)).sum := by
  obtain ⟨τ, h1, h2, h3⟩ := Tree.rne_work hs.built hs.proper hs.bodies s.gravity ms hm t ext
  refine ⟨τ, h1, h2, fun δ hδ => ?_⟩
  have hlen : ∀ ε, (advance (ms.map (·.pos t)) δ ε).length = s.tree.nJoints := fun ε => by
    rw [DynSolver.advance_length _ _ (by simp [hm, hδ])]; simpa using hm
  refine ⟨fun e ε => Tree.place s.tree.nodes (advance (ms.map (·.pos t)) δ ε) e,
    fun e => Twist.rotate (Tree.place s.tree.nodes (advance (ms.map (·.pos t)) δ 0) e).M
      (Tree.virtual (ms.map (·.pos t)) δ s.tree.nodes e), ?_, ?_⟩
  · intro e he
    exact ⟨fun ε => hs.fk (hlen ε) (ht.segments e he), Tree.place_rigid hs.proper hs.built.proper _ _,
      Tree.virtual_moves hs.proper hs.built.proper _ δ (by simp [hm, hδ]) e⟩
  · rw [h3 δ hδ, sum_sub, hs.newtonWork ms hm t δ hδ]
    congr 1
    rw [sum_loads hs.built.proper.names ht.different ht.segments _ fun x hx => by rw [hext x hx]; exact power_none _]
    congr 1
    refine List.map_congr_left fun e _ => ?_
    have hr : (Tree.place s.tree.nodes (advance (ms.map (·.pos t)) δ 0) e).M.IsRot :=
      Tree.place_rigid hs.proper hs.built.proper _ _
    simp only [Twist.power, Twist.rotate, hr.dot]

/-- C80: Newton's law for the whole robot, with wrenches written in the axes of the TCPs. -/
theorem C80_newton_tcp {s : TreeDynSolver} {bodies : String → List MassPoint} (hs : s.Describes bodies) (ht : s.TcpsFit)
    (ms : List JointMotion) (hm : ms.length = s.tree.nJoints) (t : ℝ) (ftip : List ℝ)
    (hf : KdlTreeSolver.unmerged s.tcps s.tcps.endpoints * 6 ≤ ftip.length) :
    ∃ τ load, s.invDyn (ms.map fun m => m.pos t * rad2deg) (ms.map fun m => m.vel t * rad2deg)
        (ms.map fun m => m.acc t * rad2deg) ftip .tcp = some (some τ) ∧ τ.length = s.tree.nJoints ∧
      s.Loads ftip load ∧ ∀ δ : List ℝ, δ.length = s.tree.nJoints →
        ∃ (tip : String → ℝ → Frame) (W : String → Twist),
          (∀ e ∈ s.tcps.endpoints, (∀ ε, s.tree.fk (advance (ms.map (·.pos t)) δ ε) e = some (tip e ε)) ∧
            Frame.MovesWith (tip e) (W e) 0) ∧
          (List.zipWith (· * ·) τ δ).sum =
            s.newtonWork bodies (fun u => ms.map (·.pos u)) (advance (ms.map (·.pos t)) δ) t -
            (s.tcps.endpoints.map fun e => dot (W e).vel ((tip e 0).M.mulVec (load e).force) +
              dot (W e).rot ((tip e 0).M.mulVec (load e).torque)).sum := by
  obtain ⟨m, f1, f2, f3⟩ := KdlTreeSolver.fill_spec s.tcps vectorToWrench 0 ftip s.tcps.endpoints 0 (fun _ => none)
    ht.different (fun _ _ => rfl) (fun j e o h h' => Or.inl (ht.back j e o h h')) (by omega)
  obtain ⟨τ, h1, h2, h3⟩ := loads_work hs ht ms hm t m f2
  refine ⟨τ, fun e => (m e).getD 0, ?_, h2, ?_, fun δ hδ => ?_⟩
  · have r1 : toRadians s.tree.nJoints (ms.map fun m => m.pos t * rad2deg) = some (ms.map (·.pos t)) := by
      simpa [Function.comp_def] using DynSolver.radians_back (ms.map (·.pos t)) (by simpa using hm)
    have r2 : toRadians s.tree.nJoints (ms.map fun m => m.vel t * rad2deg) = some (ms.map (·.vel t)) := by
      simpa [Function.comp_def] using DynSolver.radians_back (ms.map (·.vel t)) (by simpa using hm)
    have r3 : toRadians s.tree.nJoints (ms.map fun m => m.acc t * rad2deg) = some (ms.map (·.acc t)) := by
      simpa [Function.comp_def] using DynSolver.radians_back (ms.map (·.acc t)) (by simpa using hm)
    simp only [invDyn, r1, r2, r3, f1, Option.bind_eq_bind, Option.bind_some, Option.pure_def, h1]
  · intro i e hi
    have := f3 i e hi
    refine ⟨fun h => ?_, fun o ho => ?_⟩
    · dsimp only
      rw [this.1 h, Nat.zero_add]; rfl
    · dsimp only
      rw [this.2 o ho]
  · obtain ⟨tip, W, g1, g2⟩ := h3 δ hδ
    exact ⟨tip, W, fun e he => ⟨(g1 e he).1, (g1 e he).2.2⟩, g2⟩

/-- C80: the same with wrenches written in base axes, at the TCPs. -/
theorem C80_newton_base {s : TreeDynSolver} {bodies : String → List MassPoint} (hs : s.Describes bodies) (ht : s.TcpsFit)
    (ms : List JointMotion) (hm : ms.length = s.tree.nJoints) (t : ℝ) (ftip : List ℝ)
    (hf : KdlTreeSolver.unmerged s.tcps s.tcps.endpoints * 6 ≤ ftip.length) :
    ∃ τ load, s.invDyn (ms.map fun m => m.pos t * rad2deg) (ms.map fun m => m.vel t * rad2deg)
        (ms.map fun m => m.acc t * rad2deg) ftip .base = some (some τ) ∧ τ.length = s.tree.nJoints ∧
      s.Loads ftip load ∧ ∀ δ : List ℝ, δ.length = s.tree.nJoints →
        ∃ (tip : String → ℝ → Frame) (W : String → Twist),
          (∀ e ∈ s.tcps.endpoints, (∀ ε, s.tree.fk (advance (ms.map (·.pos t)) δ ε) e = some (tip e ε)) ∧
            Frame.MovesWith (tip e) (W e) 0) ∧
          (List.zipWith (· * ·) τ δ).sum =
            s.newtonWork bodies (fun u => ms.map (·.pos u)) (advance (ms.map (·.pos t)) δ) t -
            (s.tcps.endpoints.map fun e => dot (W e).vel (load e).force + dot (W e).rot (load e).torque).sum := by
  obtain ⟨m, f1, f2, f3⟩ := KdlTreeSolver.fill_spec s.tcps vectorToWrench 0 ftip s.tcps.endpoints 0 (fun _ => none)
    ht.different (fun _ _ => rfl) (fun j e o h h' => Or.inl (ht.back j e o h h')) (by omega)
  have hl : (ms.map (·.pos t)).length = s.tree.nJoints := by simpa using hm
  obtain ⟨m', b1, b2, b3⟩ := KdlTreeSolver.toBase_spec s.kinematics (ms.map (·.pos t))
    (fun f w => Wrench.rotate f.M.transpose w) s.tcps.endpoints m ht.different (fun e he => by
      show (s.tree.fk _ e).isSome
      rw [hs.fk hl (ht.segments e he)]
      rfl)
  obtain ⟨τ, h1, h2, h3⟩ := loads_work hs ht ms hm t m' (fun x hx => by rw [b2 x hx, f2 x hx])
  refine ⟨τ, fun e => (m e).getD 0, ?_, h2, ?_, fun δ hδ => ?_⟩
  · have r1 : toRadians s.tree.nJoints (ms.map fun m => m.pos t * rad2deg) = some (ms.map (·.pos t)) := by
      simpa [Function.comp_def] using DynSolver.radians_back (ms.map (·.pos t)) (by simpa using hm)
    have r2 : toRadians s.tree.nJoints (ms.map fun m => m.vel t * rad2deg) = some (ms.map (·.vel t)) := by
      simpa [Function.comp_def] using DynSolver.radians_back (ms.map (·.vel t)) (by simpa using hm)
    have r3 : toRadians s.tree.nJoints (ms.map fun m => m.acc t * rad2deg) = some (ms.map (·.acc t)) := by
      simpa [Function.comp_def] using DynSolver.radians_back (ms.map (·.acc t)) (by simpa using hm)
    simp only [invDyn, r1, r2, r3, f1, Option.bind_eq_bind, Option.bind_some, Option.pure_def, b1, h1]
  · intro i e hi
    have := f3 i e hi
    refine ⟨fun h => ?_, fun o ho => ?_⟩
    · dsimp only
      rw [this.1 h, Nat.zero_add]; rfl
    · dsimp only
      rw [this.2 o ho]
  · obtain ⟨tip, W, g1, g2⟩ := h3 δ hδ
    refine ⟨tip, W, fun e he => ⟨(g1 e he).1, (g1 e he).2.2⟩, ?_⟩
    rw [g2]
    congr 2
    refine List.map_congr_left fun e he => ?_
    obtain ⟨k1, k2, -⟩ := g1 e he
    have e0 := k1 0
    rw [DynSolver.advance_zero _ _ (by simp [hm, hδ])] at e0
    have hr : (tip e 0).M.IsRot := k2
    dsimp only
    rw [b3 e he (tip e 0) e0]
    cases m e with
    | none => simp [Wrench.rotate, dot]
    | some w => simp only [Option.map_some, Option.getD_some, Wrench.rotate, hr.mulVec_transpose]

/-- Two pendulums of length 1 that turn about the y axis of the base, with masses of 2 and 3 kg at their ends, which are
TCPs. -/
noncomputable def pendulums : TreeDynSolver where
  tree := ⟨[⟨"b", "root", ⟨Segment.make ⟨.rotY, 1, 0, 0, 0⟩ 1, Inertia.make 3 ⟨1, 0, 0⟩ 0⟩, 1⟩,
    ⟨"a", "root", ⟨Segment.make ⟨.rotY, 1, 0, 0, 0⟩ 1, Inertia.make 2 ⟨1, 0, 0⟩ 0⟩, 0⟩], 2⟩
  tcps := ⟨["a", "b"], fun _ => none⟩
  gravity := ⟨0, 0, -10⟩

theorem pendulums_describe : pendulums.Describes (fun x => if x = "a" then [⟨2, ⟨1, 0, 0⟩⟩] else [⟨3, ⟨1, 0, 0⟩⟩]) := by
  have hw : (Segment.make ⟨.rotY, 1, 0, 0, 0⟩ 1).Wf := by
    refine ⟨fun h => (by cases h), ?_⟩
    refine Frame.IsRigid.mul (Frame.IsRigid.inv ?_) Frame.IsRigid.one
    exact Joint.Unit.pose_rigid (fun h => by cases h) 0
  refine ⟨?_, by simp [pendulums], ?_, ?_⟩
  · refine .add (t := ⟨[⟨"a", "root", ⟨Segment.make ⟨.rotY, 1, 0, 0, 0⟩ 1, Inertia.make 2 ⟨1, 0, 0⟩ 0⟩, 0⟩], 1⟩)
      (.add (t := Tree.empty) (name := "a") (hook := "root")
        (l := ⟨Segment.make ⟨.rotY, 1, 0, 0, 0⟩ 1, Inertia.make 2 ⟨1, 0, 0⟩ 0⟩) .empty ?_)
      (name := "b") (hook := "root") (l := ⟨Segment.make ⟨.rotY, 1, 0, 0, 0⟩ 1, Inertia.make 3 ⟨1, 0, 0⟩ 0⟩) ?_
    · simp [Tree.addSegment, Tree.Has, Tree.empty, Segment.make]
    · simp [Tree.addSegment, Tree.Has, Segment.make, pendulums]
  · intro n hn
    simp only [pendulums, List.mem_cons, List.not_mem_nil, or_false] at hn
    rcases hn with rfl | rfl <;> exact hw
  · intro n hn
    simp only [pendulums, List.mem_cons, List.not_mem_nil, or_false] at hn
    rcases hn with rfl | rfl
    · refine ⟨?_, ?_, fun w => ?_⟩
      · simp [Inertia.make]
      · ext <;> simp [Inertia.make]
      · ext <;> simp [Inertia.make, dot]
    · refine ⟨?_, ?_, fun w => ?_⟩
      · simp [Inertia.make]
      · ext <;> simp [Inertia.make]
      · ext <;> simp [Inertia.make, dot]

example : pendulums.TcpsFit := by
  refine ⟨by simp [pendulums], ?_, ?_⟩
  · intro e he
    simp [pendulums, segments] at he ⊢
    tauto
  · intro j e o _ h
    simp [pendulums] at h

/-- Stretched forward: each joint holds its own mass. -/
example : pendulums.invDynStatic [0, 0] = some (some [-20, -30]) := by
  have hj : pendulums.tree.nJoints = 2 := rfl
  unfold invDynStatic
  rw [hj]
  simp [toRadians, Tree.rne, Tree.collect, Tree.sweep, Tree.jointValue, pendulums, Segment.make, Link.sweep, Link.force,
    Joint.pose, Inertia.make, Segment.pose, Segment.twist, Joint.twist, Twist.rotate, Twist.refPoint, Frame.invTwist,
    Frame.mulWrench, Inertia.mul, Twist.crossTwist, Twist.crossWrench, Twist.power, dot, Mat3.rotY, Mat3.transpose, Frame.inv,
    cross, List.range, List.range.loop]
  norm_num

/-- A mass of 2 kg on a vertical linear joint. -/
noncomputable def lift : TreeDynSolver where
  tree := ⟨[⟨"a", "root", ⟨Segment.make ⟨.transZ, 1, 0, 0, 0⟩ 1, Inertia.make 2 0 0⟩, 0⟩], 1⟩
  tcps := ⟨["a"], fun _ => none⟩
  gravity := 0

/-- C80 refuted for linear joints, whose documented units are meters: with an acceleration of `a` meters per second
squared the force for a mass of 2 kg is not twice that, but `2 * a * π / 180`. -/
theorem C80_linear_joint_counterexample (a : ℝ) :
    lift.invDyn [0] [0] [a] [0, 0, 0, 0, 0, 0] .tcp = some (some [2 * (a * deg2rad)]) := by
  have hj : lift.tree.nJoints = 1 := rfl
  unfold invDyn
  rw [hj]
  simp [toRadians, Tree.rne, Tree.collect, Tree.sweep, Tree.jointValue, lift, Segment.make, Link.sweep, Link.force,
    Joint.pose, Inertia.make, Segment.pose, Segment.twist, Joint.twist, Twist.rotate, Twist.refPoint, Frame.invTwist,
    Frame.mulWrench, Inertia.mul, Twist.crossTwist, Twist.crossWrench, Twist.power, dot, Mat3.transpose, Frame.inv,
    cross, List.range, List.range.loop, KdlTreeSolver.fill, KdlTreeSolver.block, vectorToWrench]

end TreeDynSolver

end KD
