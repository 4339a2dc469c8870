import Verif.Props.TreeTorques

/-!
# C110: energy and the torques of the tree solver

As C105 for the chain solver; here any number of limbs and TCPs.
-/

namespace KD

open Vec3 KdlVectorConverter KdlSolver
open DynSolver (powerOf)

namespace TreeDynSolver

/-! ### Specification -/

/-- The kinetic energy of the point masses of all the bodies at time `t`, with the joints at `x` in time. -/
noncomputable def kinetic (s : TreeDynSolver) (bodies : String → List MassPoint) (x : ℝ → List ℝ) (t : ℝ) : ℝ :=
  (s.segments.map fun n => ((bodies n).map fun p =>
    p.mass * (dot (Vec3.rate (fun u => s.placeAt (x u) n p.place) t)
      (Vec3.rate (fun u => s.placeAt (x u) n p.place) t) / 2)).sum).sum

/-- The energy of the robot at time `t`. -/
noncomputable def energy (s : TreeDynSolver) (bodies : String → List MassPoint) (x : ℝ → List ℝ) (t : ℝ) : ℝ :=
  s.kinetic bodies x t + s.potential bodies (x t)

/-! ### Helpers -/

/-- The velocity of a segment is that of the virtual displacement along the speeds. -/
theorem sweep_virtual {ns : List TreeNode} (hw : ∀ n ∈ ns, n.link.seg.Wf) (q qd qdd : List ℝ) (g : Vec3) (x : String) :
    (Tree.sweep q qd qdd g ns x).1 = Tree.virtual q qd ns x := by
  induction ns generalizing x with
  | nil => rfl
  | cons n ns ih =>
    have ih := ih (fun m hm => hw m (by simp [hm]))
    simp only [Tree.sweep, Tree.virtual]
    split_ifs
    · rw [DynSolver.sweep_eq, ih, (hw n (by simp)).unit_const (Tree.jointValue n q) 0]
    · exact ih x

/-- A place moves smoothly twice, and alike along the virtual displacement of the speeds. -/
theorem place_motion {s : TreeDynSolver} {bodies : String → List MassPoint} (hs : s.Describes bodies)
    (ms : List JointMotion) (hm : ms.length = s.tree.nJoints) (t : ℝ) {x : String} (hx : x ∈ s.segments) (r : Vec3) :
    Vec3.HasRate (fun u => s.placeAt (ms.map (·.pos u)) x r)
      (Vec3.rate (fun u => s.placeAt (ms.map (·.pos u)) x r) t) t ∧
    Vec3.HasRate (Vec3.rate fun u => s.placeAt (ms.map (·.pos u)) x r)
      (Vec3.rate (Vec3.rate fun u => s.placeAt (ms.map (·.pos u)) x r) t) t ∧
    Vec3.rate (fun ε => s.placeAt (advance (ms.map (·.pos t)) (ms.map (·.vel t)) ε) x r) 0 =
      Vec3.rate (fun u => s.placeAt (ms.map (·.pos u)) x r) t := by
  have hw := hs.proper
  have hp := hs.built.proper
  have hr : ∀ q, (Tree.place s.tree.nodes q x).IsRigid := fun q => Tree.place_rigid hw hp q x
  have e1 : (fun u => s.placeAt (ms.map (·.pos u)) x r) = fun u => (Tree.place s.tree.nodes (ms.map (·.pos u)) x).act r :=
    funext fun u => hs.placeAt (by simpa using hm) hx r
  have e2 : (fun ε => s.placeAt (advance (ms.map (·.pos t)) (ms.map (·.vel t)) ε) x r) =
      fun ε => (Tree.place s.tree.nodes (advance (ms.map (·.pos t)) (ms.map (·.vel t)) ε) x).act r :=
    funext fun ε => hs.placeAt (by rw [DynSolver.advance_length _ _ (by simp)]; simpa using hm) hx r
  rw [e1, e2]
  set v := fun u => (Tree.sweep (ms.map (·.pos u)) (ms.map (·.vel u)) (ms.map (·.acc u)) 0 s.tree.nodes x).1 with hv
  have g1 : ∀ u, Frame.BodyMoves (fun u => Tree.place s.tree.nodes (ms.map (·.pos u)) x) (v u) u :=
    fun u => Tree.sweep_moves hw hp ms 0 u _ x
  obtain ⟨a, g2, -⟩ := Tree.sweep_rate hw hp ms 0 t x
  have k1 := fun u => (g1 u).place (hr _) r
  have k3 := (Tree.virtual_moves hw hp (ms.map (·.pos t)) (ms.map (·.vel t)) (by simp) x).place (hr _) r
  have e : (Vec3.rate fun u => (Tree.place s.tree.nodes (ms.map (·.pos u)) x).act r) =
      fun u => (Tree.place s.tree.nodes (ms.map (·.pos u)) x).M.mulVec ((v u).vel + cross (v u).rot r) :=
    funext fun u => (k1 u).rate
  refine ⟨?_, ?_, ?_⟩
  · rw [e]
    exact k1 t
  · have hu : Vec3.HasRate (fun u => (v u).vel + cross (v u).rot r) (a.vel + cross a.rot r) t := by
      refine (g2.1.add (g2.2.cross (Vec3.HasRate.const r t))).congr ?_
      ext <;> simp
    have h1 := Frame.MovesWith.mulVec (g1 t) hu
    rw [e, h1.rate]
    exact h1
  · rw [e]
    refine k3.rate.trans ?_
    rw [DynSolver.advance_zero _ _ (by simp)]
    simp only [hv, sweep_virtual hw]

/-- The energy changes at the rate of the work of Newton's forces along the motion. -/
theorem energy_rate {s : TreeDynSolver} {bodies : String → List MassPoint} (hs : s.Describes bodies)
    (ms : List JointMotion) (hm : ms.length = s.tree.nJoints) (t : ℝ) :
    HasDerivAt (s.energy bodies fun u => ms.map (·.pos u))
      (s.newtonWork bodies (fun u => ms.map (·.pos u)) (advance (ms.map (·.pos t)) (ms.map (·.vel t))) t) t := by
  have e : s.energy bodies (fun u => ms.map (·.pos u)) = fun t =>
      (s.segments.map fun n => (((bodies n).map fun p =>
        p.mass * (dot (Vec3.rate (fun u => s.placeAt (ms.map (·.pos u)) n p.place) t)
          (Vec3.rate (fun u => s.placeAt (ms.map (·.pos u)) n p.place) t) / 2)).sum +
        ((bodies n).map fun p => - (p.mass * dot s.gravity (s.placeAt (ms.map (·.pos t)) n p.place))).sum)).sum := by
    funext t
    rw [Tree.sum_add]
    rfl
  rw [e]
  unfold newtonWork
  have hsub : ∀ n ∈ s.segments, HasDerivAt (fun t => (((bodies n).map fun p =>
        p.mass * (dot (Vec3.rate (fun u => s.placeAt (ms.map (·.pos u)) n p.place) t)
          (Vec3.rate (fun u => s.placeAt (ms.map (·.pos u)) n p.place) t) / 2)).sum +
        ((bodies n).map fun p => - (p.mass * dot s.gravity (s.placeAt (ms.map (·.pos t)) n p.place))).sum))
      ((bodies n).map fun p =>
        p.mass * dot (Vec3.rate (Vec3.rate fun u => s.placeAt (ms.map (·.pos u)) n p.place) t - s.gravity)
          (Vec3.rate (fun ε => s.placeAt (advance (ms.map (·.pos t)) (ms.map (·.vel t)) ε) n p.place) 0)).sum t := by
    intro n hn
    have hpl := place_motion hs ms hm t hn
    generalize bodies n = pts
    induction pts with
    | nil => simpa using hasDerivAt_const t (0 : ℝ)
    | cons p pts ih =>
      obtain ⟨⟨a1, a2, a3⟩, ⟨b1, b2, b3⟩, h3⟩ := hpl p.place
      rw [List.map_cons, List.sum_cons, h3]
      generalize (Vec3.rate (Vec3.rate fun u => s.placeAt (ms.map (·.pos u)) n p.place) t) = acc at b1 b2 b3 ⊢
      have hk := ((((b1.mul b1).add (b2.mul b2)).add (b3.mul b3)).div_const 2).const_mul p.mass
      have hp := ((((a1.const_mul s.gravity.x).add (a2.const_mul s.gravity.y)).add
        (a3.const_mul s.gravity.z)).const_mul p.mass).neg
      refine (((hk.add hp).add ih).congr_deriv ?_).congr_of_eventuallyEq (Filter.Eventually.of_forall fun u => ?_)
      · simp only [dot, sub_x, sub_y, sub_z]
        ring
      · simp only [List.map_cons, List.sum_cons, Pi.add_apply, Pi.mul_apply, Pi.neg_apply, dot]
        ring
  generalize s.segments = xs at hsub
  induction xs with
  | nil => simpa using hasDerivAt_const t (0 : ℝ)
  | cons x xs ih =>
    simp only [List.map_cons, List.sum_cons]
    exact (hsub x (by simp)).add (ih fun y hy => hsub y (by simp [hy]))

/-- The TCPs move along the motion as along the virtual displacement of the speeds. -/
theorem tip_motion {s : TreeDynSolver} {bodies : String → List MassPoint} (hs : s.Describes bodies)
    (ms : List JointMotion) (hm : ms.length = s.tree.nJoints) (t : ℝ) {x : String} (hx : x ∈ s.segments)
    {y : ℝ → Frame} {W : Twist}
    (hy : ∀ ε, s.tree.fk (advance (ms.map (·.pos t)) (ms.map (·.vel t)) ε) x = some (y ε))
    (hW : Frame.MovesWith y W 0) :
    (∀ u, s.tree.fk (ms.map (·.pos u)) x = some (Tree.place s.tree.nodes (ms.map (·.pos u)) x)) ∧
      Frame.MovesWith (fun u => Tree.place s.tree.nodes (ms.map (·.pos u)) x) W t ∧
      Tree.place s.tree.nodes (ms.map (·.pos t)) x = y 0 := by
  have hw := hs.proper
  have hp := hs.built.proper
  have hl : ∀ ε, (advance (ms.map (·.pos t)) (ms.map (·.vel t)) ε).length = s.tree.nJoints := fun ε => by
    rw [DynSolver.advance_length _ _ (by simp)]; simpa using hm
  have ey : (fun ε => Tree.place s.tree.nodes (advance (ms.map (·.pos t)) (ms.map (·.vel t)) ε) x) = y :=
    funext fun ε => Option.some.inj ((hs.fk (hl ε) hx).symm.trans (hy ε))
  have et : Tree.place s.tree.nodes (ms.map (·.pos t)) x = y 0 := by
    rw [← congrFun ey 0, DynSolver.advance_zero _ _ (by simp)]
  have hv := Tree.virtual_moves hw hp (ms.map (·.pos t)) (ms.map (·.vel t)) (by simp) x
  have hmv := Tree.sweep_moves hw hp ms 0 t (ms.map (·.acc t)) x
  rw [sweep_virtual hw] at hmv
  refine ⟨fun u => hs.fk (by simpa using hm) hx, ?_, et⟩
  rw [ey] at hv
  unfold Frame.BodyMoves at hv hmv
  simp only [et] at hmv
  rwa [DynSolver.moves_unique hW hv (by rw [← et]; exact Tree.place_rigid hw hp _ x)]

/-! ### C110 -/

/-- C110: what the torques do becomes energy. The joints move in any smooth way and wrenches act on the TCPs,
written in base axes. At every instant the energy of the robot grows at the power of the torques of inverse
dynamics plus the power of the wrenches. -/
theorem C110_power_base {s : TreeDynSolver} {bodies : String → List MassPoint} (hs : s.Describes bodies)
    (ht : s.TcpsFit) (ms : List JointMotion) (hm : ms.length = s.tree.nJoints) (t : ℝ) (ftip : List ℝ)
    (hf : KdlTreeSolver.unmerged s.tcps s.tcps.endpoints * 6 ≤ ftip.length) :
    ∃ τ load, s.invDyn (ms.map fun m => m.pos t * rad2deg) (ms.map fun m => m.vel t * rad2deg)
        (ms.map fun m => m.acc t * rad2deg) ftip .base = some (some τ) ∧ s.Loads ftip load ∧
      ∃ (tip : String → ℝ → Frame) (W : String → Twist),
        (∀ e ∈ s.tcps.endpoints, (∀ u, s.tree.fk (ms.map (·.pos u)) e = some (tip e u)) ∧
          Frame.MovesWith (tip e) (W e) t) ∧
        HasDerivAt (s.energy bodies fun u => ms.map (·.pos u))
          (powerOf τ (ms.map (·.vel t)) +
            (s.tcps.endpoints.map fun e => dot (W e).vel (load e).force + dot (W e).rot (load e).torque).sum) t := by
  obtain ⟨τ, load, h1, -, h2, h3⟩ := C80_newton_base hs ht ms hm t ftip hf
  obtain ⟨y, W, g1, g2⟩ := h3 (ms.map (·.vel t)) (by simpa using hm)
  refine ⟨τ, load, h1, h2, fun e u => Tree.place s.tree.nodes (ms.map (·.pos u)) e, W, fun e he => ?_, ?_⟩
  · obtain ⟨k1, k2, -⟩ := tip_motion hs ms hm t (ht.segments e he) (g1 e he).1 (g1 e he).2
    exact ⟨k1, k2⟩
  · unfold powerOf
    rw [g2, sub_add_cancel]
    exact energy_rate hs ms hm t

/-- C110: the same with the wrenches written in the axes of the TCPs. -/
theorem C110_power_tcp {s : TreeDynSolver} {bodies : String → List MassPoint} (hs : s.Describes bodies)
    (ht : s.TcpsFit) (ms : List JointMotion) (hm : ms.length = s.tree.nJoints) (t : ℝ) (ftip : List ℝ)
    (hf : KdlTreeSolver.unmerged s.tcps s.tcps.endpoints * 6 ≤ ftip.length) :
    ∃ τ load, s.invDyn (ms.map fun m => m.pos t * rad2deg) (ms.map fun m => m.vel t * rad2deg)
        (ms.map fun m => m.acc t * rad2deg) ftip .tcp = some (some τ) ∧ s.Loads ftip load ∧
      ∃ (tip : String → ℝ → Frame) (W : String → Twist),
        (∀ e ∈ s.tcps.endpoints, (∀ u, s.tree.fk (ms.map (·.pos u)) e = some (tip e u)) ∧
          Frame.MovesWith (tip e) (W e) t) ∧
        HasDerivAt (s.energy bodies fun u => ms.map (·.pos u))
          (powerOf τ (ms.map (·.vel t)) +
            (s.tcps.endpoints.map fun e => dot (W e).vel ((tip e t).M.mulVec (load e).force) +
              dot (W e).rot ((tip e t).M.mulVec (load e).torque)).sum) t := by
  obtain ⟨τ, load, h1, -, h2, h3⟩ := C80_newton_tcp hs ht ms hm t ftip hf
  obtain ⟨y, W, g1, g2⟩ := h3 (ms.map (·.vel t)) (by simpa using hm)
  refine ⟨τ, load, h1, h2, fun e u => Tree.place s.tree.nodes (ms.map (·.pos u)) e, W, fun e he => ?_, ?_⟩
  · obtain ⟨k1, k2, -⟩ := tip_motion hs ms hm t (ht.segments e he) (g1 e he).1 (g1 e he).2
    exact ⟨k1, k2⟩
  · have e0 : (s.tcps.endpoints.map fun e =>
        dot (W e).vel ((Tree.place s.tree.nodes (ms.map (·.pos t)) e).M.mulVec (load e).force) +
          dot (W e).rot ((Tree.place s.tree.nodes (ms.map (·.pos t)) e).M.mulVec (load e).torque)) =
        s.tcps.endpoints.map fun e => dot (W e).vel ((y e 0).M.mulVec (load e).force) +
          dot (W e).rot ((y e 0).M.mulVec (load e).torque) :=
      List.map_congr_left fun e he => by
        rw [(tip_motion hs ms hm t (ht.segments e he) (g1 e he).1 (g1 e he).2).2.2]
    rw [e0]
    unfold powerOf
    rw [g2, sub_add_cancel]
    exact energy_rate hs ms hm t

/-- With no wrench the energy grows at the power of the torques. -/
theorem power_free {s : TreeDynSolver} {bodies : String → List MassPoint} (hs : s.Describes bodies)
    (ms : List JointMotion) (hm : ms.length = s.tree.nJoints) {fr : SolverFrame} {N : ℕ} {t : ℝ} {τ : List ℝ}
    (h : s.invDyn (ms.map fun m => m.pos t * rad2deg) (ms.map fun m => m.vel t * rad2deg)
        (ms.map fun m => m.acc t * rad2deg) (List.replicate N 0) fr = some (some τ)) :
    HasDerivAt (s.energy bodies fun u => ms.map (·.pos u)) (powerOf τ (ms.map (·.vel t))) t := by
  have hb : ∀ f : JointMotion → ℝ,
      ((ms.map fun m => f m * rad2deg).take s.tree.nJoints).map (· * deg2rad) = ms.map f := by
    intro f
    have h1 := DynSolver.radians_back (ms.map f) (by simpa using hm)
    rw [toRadians_some (by simp [hm])] at h1
    simpa [Function.comp_def] using Option.some.inj h1
  obtain ⟨-, -, -, e, h5, h6⟩ := invDyn_iff.mp h
  rw [hb, hb, hb] at h6
  have hz := toTips_none h5
  obtain ⟨σ, g1, -, g3⟩ := Tree.rne_work hs.built hs.proper hs.bodies s.gravity ms hm t e
  obtain rfl : τ = σ := Option.some.inj (h6.symm.trans g1)
  have := g3 (ms.map (·.vel t)) (by simpa using hm)
  simp only [hz, power_none, sub_zero] at this
  unfold powerOf
  rw [this]
  have hn := hs.newtonWork ms hm t (ms.map (·.vel t)) (by simpa using hm)
  unfold segments at hn
  rw [← hn]
  exact energy_rate hs ms hm t

/-- C110: torques that only brake never give energy. If along a motion with no forces on the TCPs the power of the
torques of inverse dynamics is never positive, the energy of the robot never grows. -/
theorem C110_braking {s : TreeDynSolver} {bodies : String → List MassPoint} (hs : s.Describes bodies)
    (ms : List JointMotion) (hm : ms.length = s.tree.nJoints) {fr : SolverFrame} {N : ℕ}
    (hb : ∀ t, ∃ τ, s.invDyn (ms.map fun m => m.pos t * rad2deg) (ms.map fun m => m.vel t * rad2deg)
        (ms.map fun m => m.acc t * rad2deg) (List.replicate N 0) fr = some (some τ) ∧
      powerOf τ (ms.map (·.vel t)) ≤ 0) :
    ∀ a b, a ≤ b → s.energy bodies (fun u => ms.map (·.pos u)) b ≤ s.energy bodies (fun u => ms.map (·.pos u)) a := by
  choose τ h1 h2 using hb
  have : Antitone (s.energy bodies fun u => ms.map (·.pos u)) :=
    antitone_of_deriv_nonpos (fun t => (power_free hs ms hm (h1 t)).differentiableAt) fun t => by
      rw [(power_free hs ms hm (h1 t)).deriv]
      exact h2 t
  exact fun a b hab => this hab

/-- C110: a robot that moves with no torque and no forces on its TCPs keeps its energy for ever. -/
theorem C110_no_torque {s : TreeDynSolver} {bodies : String → List MassPoint} (hs : s.Describes bodies)
    (ms : List JointMotion) (hm : ms.length = s.tree.nJoints) {fr : SolverFrame} {N : ℕ}
    (hb : ∀ t, s.invDyn (ms.map fun m => m.pos t * rad2deg) (ms.map fun m => m.vel t * rad2deg)
        (ms.map fun m => m.acc t * rad2deg) (List.replicate N 0) fr = some (some (ms.map fun _ => 0))) :
    ∀ a b, s.energy bodies (fun u => ms.map (·.pos u)) a = s.energy bodies (fun u => ms.map (·.pos u)) b := by
  refine is_const_of_deriv_eq_zero (fun t => (power_free hs ms hm (hb t)).differentiableAt) fun t => ?_
  rw [(power_free hs ms hm (hb t)).deriv]
  clear hb hm
  induction ms with
  | nil => rfl
  | cons m ms ih =>
    unfold powerOf at ih ⊢
    simpa using ih

theorem kinetic_nonneg (s : TreeDynSolver) (bodies : String → List MassPoint)
    (hp : ∀ x ∈ s.segments, ∀ p ∈ bodies x, 0 ≤ p.mass) (x : ℝ → List ℝ) (t : ℝ) : 0 ≤ s.kinetic bodies x t := by
  refine List.sum_nonneg fun z hz => ?_
  obtain ⟨n, hn, rfl⟩ := List.mem_map.mp hz
  refine List.sum_nonneg fun y hy => ?_
  obtain ⟨p, hpm, rfl⟩ := List.mem_map.mp hy
  refine mul_nonneg (hp n hn p hpm) (div_nonneg ?_ (by norm_num))
  generalize Vec3.rate (fun u => s.placeAt (x u) n p.place) t = v
  unfold dot
  nlinarith [mul_self_nonneg v.x, mul_self_nonneg v.y, mul_self_nonneg v.z]

/-- Joints at rest: no kinetic energy. -/
theorem kinetic_rest {s : TreeDynSolver} {bodies : String → List MassPoint} (hs : s.Describes bodies)
    (ms : List JointMotion) (hm : ms.length = s.tree.nJoints) (t : ℝ) (hr : ∀ m ∈ ms, m.vel t = 0) :
    s.kinetic bodies (fun u => ms.map (·.pos u)) t = 0 := by
  refine List.sum_eq_zero fun z hz => ?_
  obtain ⟨n, hn, rfl⟩ := List.mem_map.mp hz
  refine List.sum_eq_zero fun y hy => ?_
  obtain ⟨p, -, rfl⟩ := List.mem_map.mp hy
  have hv : ms.map (·.vel t) = List.replicate (ms.map (·.pos t)).length 0 := by
    rw [List.length_map, ← List.map_const']
    exact List.map_congr_left hr
  have h := (place_motion hs ms hm t hn p.place).2.2
  simp only [hv, DynSolver.advance_still] at h
  rw [(Vec3.HasRate.const _ 0).rate] at h
  simp only [← h]
  simp [dot]

/-- C110: released at rest, a robot whose torques only brake never rises above where it was: at any later time the
potential energy is at most that of the release. -/
theorem C110_released {s : TreeDynSolver} {bodies : String → List MassPoint} (hs : s.Describes bodies)
    (hp : ∀ x ∈ s.segments, ∀ p ∈ bodies x, 0 ≤ p.mass) (ms : List JointMotion) (hm : ms.length = s.tree.nJoints)
    {fr : SolverFrame} {N : ℕ}
    (hb : ∀ t, ∃ τ, s.invDyn (ms.map fun m => m.pos t * rad2deg) (ms.map fun m => m.vel t * rad2deg)
        (ms.map fun m => m.acc t * rad2deg) (List.replicate N 0) fr = some (some τ) ∧
      powerOf τ (ms.map (·.vel t)) ≤ 0) {t₀ : ℝ} (hr : ∀ m ∈ ms, m.vel t₀ = 0) {t : ℝ} (ht : t₀ ≤ t) :
    s.potential bodies (ms.map (·.pos t)) ≤ s.potential bodies (ms.map (·.pos t₀)) := by
  have h := C110_braking hs ms hm hb t₀ t ht
  unfold energy at h
  rw [kinetic_rest hs ms hm t₀ hr] at h
  have := s.kinetic_nonneg bodies hp (fun u => ms.map (·.pos u)) t
  linarith

/-- The two pendulums of C80 meet the hypotheses of the first two. -/
example : pendulums.Describes (fun x => if x = "a" then [⟨2, ⟨1, 0, 0⟩⟩] else [⟨3, ⟨1, 0, 0⟩⟩]) ∧ pendulums.TcpsFit ∧
    KdlTreeSolver.unmerged pendulums.tcps pendulums.tcps.endpoints * 6 ≤ (List.replicate 12 (0 : ℝ)).length := by
  refine ⟨pendulums_describe, ⟨by simp [pendulums], ?_, ?_⟩, ?_⟩
  · intro e he
    simp [pendulums, segments] at he ⊢
    tauto
  · intro j e o _ h
    simp [pendulums] at h
  · simp [KdlTreeSolver.unmerged, pendulums]

/-- A joint at a constant speed. -/
noncomputable def turning (w : ℝ) : JointMotion where
  pos t := w * t
  vel _ := w
  acc _ := 0
  pos_rate t := by simpa using (hasDerivAt_id t).const_mul w
  vel_rate t := hasDerivAt_const t w

/-- Those of the last two: without gravity they turn for ever, one with 1 and the other with -2 radians per second. -/
example : let s := { pendulums with gravity := 0 }
    let ms := [turning 1, turning (-2)]
    s.Describes (fun x => if x = "a" then [⟨2, ⟨1, 0, 0⟩⟩] else [⟨3, ⟨1, 0, 0⟩⟩]) ∧ ms.length = s.tree.nJoints ∧
    ∀ t, s.invDyn (ms.map fun m => m.pos t * rad2deg) (ms.map fun m => m.vel t * rad2deg)
        (ms.map fun m => m.acc t * rad2deg) (List.replicate 12 0) .tcp = some (some (ms.map fun _ => 0)) := by
  refine ⟨⟨pendulums_describe.built, pendulums_describe.joints, pendulums_describe.proper, pendulums_describe.bodies⟩,
    rfl, fun t => ?_⟩
  have hj : pendulums.tree.nJoints = 2 := rfl
  have h2 : ∀ z : ℝ, z * rad2deg * deg2rad = z := fun z => deg_rad z
  unfold invDyn
  dsimp only
  rw [hj]
  simp [toRadians, Tree.rne, Tree.collect, Tree.sweep, Tree.jointValue, pendulums, Segment.make, Link.sweep, Link.force,
    Joint.pose, Inertia.make, Segment.pose, Segment.twist, Joint.twist, Twist.rotate, Twist.refPoint, Frame.invTwist,
    Inertia.mul, Twist.crossTwist, Twist.crossWrench, Twist.power, dot, Mat3.rotY, Mat3.transpose, Frame.inv,
    cross, List.range, List.range.loop, KdlTreeSolver.fill, KdlTreeSolver.block, vectorToWrench, List.replicate, h2, turning]

/-- Those of the release: a mass of 2 kg that falls freely along a vertical linear joint. -/
example : let s := { lift with gravity := ⟨0, 0, -9.81⟩ }
    let ms := [DynSolver.falling]
    s.Describes (fun _ => [⟨2, 0⟩]) ∧ (∀ x ∈ s.segments, ∀ p ∈ [(⟨2, 0⟩ : MassPoint)], 0 ≤ p.mass) ∧
    ms.length = s.tree.nJoints ∧ (∀ m ∈ ms, m.vel 0 = 0) ∧
    ∀ t, ∃ τ, s.invDyn (ms.map fun m => m.pos t * rad2deg) (ms.map fun m => m.vel t * rad2deg)
        (ms.map fun m => m.acc t * rad2deg) (List.replicate 6 0) .tcp = some (some τ) ∧
      powerOf τ (ms.map (·.vel t)) ≤ 0 := by
  refine ⟨⟨?_, by simp [lift], ?_, ?_⟩, ?_, rfl, ?_, fun t => ⟨[0], ?_, ?_⟩⟩
  · refine .add (t := Tree.empty) (name := "a") (hook := "root")
      (l := ⟨Segment.make ⟨.transZ, 1, 0, 0, 0⟩ 1, Inertia.make 2 0 0⟩) .empty ?_
    simp [Tree.addSegment, Tree.Has, Tree.empty, Segment.make, lift]
  · intro n hn
    simp only [lift, List.mem_cons, List.not_mem_nil, or_false] at hn
    subst hn
    refine ⟨fun h => (by cases h), ?_⟩
    refine Frame.IsRigid.mul (Frame.IsRigid.inv ?_) Frame.IsRigid.one
    exact Joint.Unit.pose_rigid (fun h => by cases h) 0
  · intro n hn
    simp only [lift, List.mem_cons, List.not_mem_nil, or_false] at hn
    subst hn
    refine ⟨?_, ?_, fun w => ?_⟩
    · simp [Inertia.make]
    · ext <;> simp [Inertia.make]
    · ext <;> simp [Inertia.make, dot]
  · intro x _ p hp
    simp only [List.mem_cons, List.not_mem_nil, or_false] at hp
    subst hp
    norm_num
  · intro m hm
    simp only [List.mem_cons, List.not_mem_nil, or_false] at hm
    subst hm
    simp [DynSolver.falling]
  · have hj : lift.tree.nJoints = 1 := rfl
    have h2 : ∀ z : ℝ, z * rad2deg * deg2rad = z := fun z => deg_rad z
    unfold invDyn
    dsimp only
    rw [hj]
    simp [toRadians, Tree.rne, Tree.collect, Tree.sweep, Tree.jointValue, lift, Segment.make, Link.sweep, Link.force,
      Joint.pose, Inertia.make, Segment.pose, Segment.twist, Joint.twist, Twist.rotate, Twist.refPoint, Frame.invTwist,
      Inertia.mul, Twist.crossTwist, Twist.crossWrench, Twist.power, dot, Mat3.transpose, Frame.inv,
      cross, List.range, List.range.loop, KdlTreeSolver.fill, KdlTreeSolver.block, vectorToWrench, List.replicate, h2,
      DynSolver.falling]
  · simp [powerOf]

end TreeDynSolver

end KD
