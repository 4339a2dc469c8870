import Verif.Props.Dynamics
import Mathlib.Analysis.Calculus.MeanValue

/-!
# C105: energy and the torques of the chain solver

Bodies are made of point masses, as in C74. The energy of the robot is the sum of the kinetic and the
potential energy of all of them.
-/

namespace KD

open Vec3 KdlVectorConverter KdlSolver

namespace DynSolver

/-! ### Specification -/

/-- The kinetic energy of the point masses of all the bodies at time `t`, with the joints at `x` in time. -/
noncomputable def kinetic (c : Chain) (bodies : List (List MassPoint)) (x : ℝ → List ℝ) (t : ℝ) : ℝ :=
  ∑ i ∈ Finset.range bodies.length, ((bodies.getD i []).map fun p =>
    p.mass * (dot (Vec3.rate (fun u => c.placeAt (x u) 1 i p.place) t)
      (Vec3.rate (fun u => c.placeAt (x u) 1 i p.place) t) / 2)).sum

/-- The energy of the robot at time `t`. -/
noncomputable def energy (c : Chain) (bodies : List (List MassPoint)) (g : Vec3) (x : ℝ → List ℝ) (t : ℝ) : ℝ :=
  kinetic c bodies x t + potential c bodies g (x t)

/-- The power of torques on joints that move at these speeds. -/
def powerOf (τ v : List ℝ) : ℝ := (List.zipWith (· * ·) τ v).sum

/-! ### Helpers -/

/-- All the segments move smoothly, and along the virtual displacement that follows the speeds of the
joints they move alike. -/
theorem poses_motion (t : ℝ) (c : Chain) : ∀ (ms : List JointMotion) (F Y : ℝ → Frame) (v : ℝ → Twist) (a : Twist),
    c.Wf → ms.length = c.nJoints → (∀ s, Frame.BodyMoves F (v s) s) → (∀ s, (F s).IsRigid) →
    Twist.HasRate v a t → Frame.BodyMoves Y (v t) 0 → Y 0 = F t → ∀ i, i < c.length →
    ∃ (vi : ℝ → Twist) (ai : Twist),
      (∀ s, Frame.BodyMoves (fun u => ((Chain.poses c (ms.map (·.pos u)) (F u))[i]?.getD 1)) (vi s) s) ∧
      Twist.HasRate vi ai t ∧
      Frame.BodyMoves (fun ε => ((Chain.poses c (advance (ms.map (·.pos t)) (ms.map (·.vel t)) ε) (Y ε))[i]?.getD 1))
        (vi t) 0 := by
  induction c with
  | nil => intro ms F Y v a _ _ _ _ _ _ _ i hi; simp at hi
  | cons s c ih =>
    intro ms F Y v a hw hm hF hf ha hY hYF i hi
    have hs : s.Wf := hw s (by simp)
    have hc : Chain.Wf c := fun x hx => hw x (by simp [hx])
    rw [Chain.nJoints_cons] at hm
    by_cases hn : s.joint.type ≠ .none
    · rw [if_pos hn] at hm
      obtain ⟨m, ms, rfl⟩ := List.exists_cons_of_length_eq_add_one (hm.trans (Nat.add_comm _ _))
      have hF' : ∀ u, Frame.BodyMoves (fun u => F u * s.pose (m.pos u))
          (Link.sweep s (m.pos u) (m.vel u) 0 (v u) 0).1 u := fun u =>
        sweep_moves hs (m.pos_rate u) (hF u) (hf u)
      have hf' : ∀ u, (F u * s.pose (m.pos u)).IsRigid := fun u => (hf u).mul (hs.pose_rigid _)
      have ha' := sweep_rate hs (m.pos_rate t) (m.vel_rate t) ha
      have hlin : HasDerivAt (fun ε => m.pos t + ε * m.vel t) (m.vel t) 0 := by
        simpa using ((hasDerivAt_id (0 : ℝ)).mul_const (m.vel t)).const_add (m.pos t)
      have hY' : Frame.BodyMoves (fun ε => Y ε * s.pose (m.pos t + ε * m.vel t))
          (Link.sweep s (m.pos t) (m.vel t) 0 (v t) 0).1 0 := by
        have := sweep_moves (qdd := 0) (a := 0) hs hlin hY (by rw [hYF]; exact hf t)
        simpa using this
      have hYF' : (fun ε => Y ε * s.pose (m.pos t + ε * m.vel t)) 0 = F t * s.pose (m.pos t) := by
        simp [hYF]
      cases i with
      | zero =>
        refine ⟨_, _, fun u => ?_, ha', ?_⟩
        · simpa [Chain.poses, hn] using hF' u
        · simpa [advance, Chain.poses, hn] using hY'
      | succ i =>
        obtain ⟨vi, ai, g1, g2, g3⟩ := ih ms _ _ _ _ hc (by simp at hm; omega) hF' hf' ha' hY' hYF' i (by simpa using hi)
        refine ⟨vi, ai, fun u => ?_, g2, ?_⟩
        · simpa [Chain.poses, hn] using g1 u
        · simpa [advance, Chain.poses, hn] using g3
    · rw [if_neg hn] at hm
      have hc0 : ∀ u : ℝ, HasDerivAt (fun _ : ℝ => (0 : ℝ)) 0 u := fun u => hasDerivAt_const u 0
      have hF' : ∀ u, Frame.BodyMoves (fun u => F u * s.pose 0) (Link.sweep s 0 0 0 (v u) 0).1 u := fun u =>
        sweep_moves hs (hc0 u) (hF u) (hf u)
      have hf' : ∀ u, (F u * s.pose 0).IsRigid := fun u => (hf u).mul (hs.pose_rigid _)
      have ha' := sweep_rate hs (q := fun _ => 0) (qd := fun _ => 0) (hc0 t) (hc0 t) ha
      have hY' : Frame.BodyMoves (fun ε => Y ε * s.pose 0) (Link.sweep s 0 0 0 (v t) 0).1 0 :=
        sweep_moves hs (hc0 0) hY (by rw [hYF]; exact hf t)
      have hYF' : (fun ε => Y ε * s.pose 0) 0 = F t * s.pose 0 := by simp [hYF]
      cases i with
      | zero =>
        refine ⟨_, _, fun u => ?_, ha', ?_⟩
        · simpa [Chain.poses, hn] using hF' u
        · simpa [Chain.poses, hn] using hY'
      | succ i =>
        obtain ⟨vi, ai, g1, g2, g3⟩ := ih ms _ _ _ _ hc (by omega) hF' hf' ha' hY' hYF' i (by simpa using hi)
        refine ⟨vi, ai, fun u => ?_, g2, ?_⟩
        · simpa [Chain.poses, hn] using g1 u
        · simpa [Chain.poses, hn] using g3

/-- A place moves smoothly twice, and alike along the virtual displacement of the speeds. -/
theorem place_motion {c : Chain} (hc : c.Wf) (ms : List JointMotion) (hm : ms.length = c.nJoints) (t : ℝ) {i : ℕ}
    (hi : i < c.length) (r : Vec3) :
    Vec3.HasRate (fun u => c.placeAt (ms.map (·.pos u)) 1 i r)
      (Vec3.rate (fun u => c.placeAt (ms.map (·.pos u)) 1 i r) t) t ∧
    Vec3.HasRate (Vec3.rate fun u => c.placeAt (ms.map (·.pos u)) 1 i r)
      (Vec3.rate (Vec3.rate fun u => c.placeAt (ms.map (·.pos u)) 1 i r) t) t ∧
    Vec3.rate (fun ε => c.placeAt (advance (ms.map (·.pos t)) (ms.map (·.vel t)) ε) 1 i r) 0 =
      Vec3.rate (fun u => c.placeAt (ms.map (·.pos u)) 1 i r) t := by
  have h0 : Twist.HasRate (fun _ : ℝ => (0 : Twist)) 0 t := ⟨Vec3.HasRate.const 0 t, Vec3.HasRate.const 0 t⟩
  obtain ⟨vi, ai, g1, g2, g3⟩ := poses_motion t c ms (fun _ => 1) (fun _ => 1) (fun _ => 0) 0 hc hm
    (fun u => BodyMoves_const 1 u) (fun _ => Frame.IsRigid.one) h0 (BodyMoves_const 1 0) rfl i hi
  have hr : ∀ q, ((c.poses q 1)[i]?.getD 1).IsRigid := fun q => pose_getD_rigid hc q i
  have k1 := fun s => (g1 s).place (hr _) r
  have k3 := g3.place (hr _) r
  have e : (Vec3.rate fun u => c.placeAt (ms.map (·.pos u)) 1 i r) =
      fun s => ((c.poses (ms.map (·.pos s)) 1)[i]?.getD 1).M.mulVec ((vi s).vel + cross (vi s).rot r) := by
    funext s
    exact (k1 s).rate
  refine ⟨?_, ?_, ?_⟩
  · rw [e]
    exact k1 t
  · have hu : Vec3.HasRate (fun s => (vi s).vel + cross (vi s).rot r) (ai.vel + cross ai.rot r) t := by
      refine (g2.1.add (g2.2.cross (Vec3.HasRate.const r t))).congr ?_
      ext <;> simp
    have h1 := Frame.MovesWith.mulVec (g1 t) hu
    rw [e, h1.rate]
    exact h1
  · rw [e]
    refine k3.rate.trans ?_
    rw [advance_zero _ _ (by simp)]

/-- The energy changes at the rate of the work of Newton's forces along the motion. -/
theorem energy_rate {c : Chain} (hc : c.Wf) (bodies : List (List MassPoint)) (hb : bodies.length = c.length) (g : Vec3)
    (ms : List JointMotion) (hm : ms.length = c.nJoints) (t : ℝ) :
    HasDerivAt (energy c bodies g fun u => ms.map (·.pos u))
      (newtonWork c bodies g (fun u => ms.map (·.pos u)) (advance (ms.map (·.pos t)) (ms.map (·.vel t)))
        (fun _ => 1) (fun _ => 1) t) t := by
  have e : energy c bodies g (fun u => ms.map (·.pos u)) = fun t =>
      ∑ i ∈ Finset.range bodies.length, (((bodies.getD i []).map fun p =>
        p.mass * (dot (Vec3.rate (fun u => c.placeAt (ms.map (·.pos u)) 1 i p.place) t)
          (Vec3.rate (fun u => c.placeAt (ms.map (·.pos u)) 1 i p.place) t) / 2)).sum +
        ((bodies.getD i []).map fun p => - (p.mass * dot g (c.placeAt (ms.map (·.pos t)) 1 i p.place))).sum) := by
    funext t
    rw [Finset.sum_add_distrib]
    rfl
  rw [e]
  unfold newtonWork
  refine HasDerivAt.fun_sum fun i hi => ?_
  have hi' : i < c.length := by rw [← hb]; exact Finset.mem_range.mp hi
  have hpl := place_motion hc ms hm t hi'
  generalize bodies.getD i [] = pts
  induction pts with
  | nil => simpa using hasDerivAt_const t (0 : ℝ)
  | cons p pts ih =>
    obtain ⟨⟨a1, a2, a3⟩, ⟨b1, b2, b3⟩, h3⟩ := hpl p.place
    rw [List.map_cons, List.sum_cons, h3]
    generalize (Vec3.rate (Vec3.rate fun u => c.placeAt (ms.map (·.pos u)) 1 i p.place) t) = acc at b1 b2 b3 ⊢
    have hk := ((((b1.mul b1).add (b2.mul b2)).add (b3.mul b3)).div_const 2).const_mul p.mass
    have hp := ((((a1.const_mul g.x).add (a2.const_mul g.y)).add (a3.const_mul g.z)).const_mul p.mass).neg
    refine (((hk.add hp).add ih).congr_deriv ?_).congr_of_eventuallyEq (Filter.Eventually.of_forall fun u => ?_)
    · simp only [dot, sub_x, sub_y, sub_z]
      ring
    · simp only [List.map_cons, List.sum_cons, Pi.add_apply, Pi.mul_apply, Pi.neg_apply, dot]
      ring

/-- The twist of a moving frame is unique. -/
theorem moves_unique {f : ℝ → Frame} {w w' : Twist} {t : ℝ} (h : Frame.MovesWith f w t) (h' : Frame.MovesWith f w' t)
    (hr : (f t).IsRigid) : w = w' := by
  have h1 : w.vel = w'.vel := h.origin.rate.symm.trans h'.origin.rate
  have h2 : ∀ e : Vec3, cross w.rot e = cross w'.rot e := by
    intro e
    have := (h.turn ((f t).M.transpose.mulVec e)).rate.symm.trans (h'.turn ((f t).M.transpose.mulVec e)).rate
    rwa [Mat3.IsRot.mulVec_transpose hr] at this
  have hx := h2 ⟨1, 0, 0⟩
  have hy := h2 ⟨0, 1, 0⟩
  simp only [Vec3.ext_iff, cross_x, cross_y, cross_z, mul_zero, mul_one, sub_zero, zero_sub, neg_inj] at hx hy
  have h3 : w.rot = w'.rot := Vec3.ext hy.2.2 hx.2.2 hx.2.1
  cases w
  cases w'
  simp only at h1 h3
  rw [h1, h3]

/-- The TCP moves along the motion as along the virtual displacement of the speeds. -/
theorem tip_motion {s : DynSolver} {bodies : List (List MassPoint)} (hs : s.Describes bodies) (hne : s.links ≠ [])
    (ms : List JointMotion) (hm : ms.length = s.chain.nJoints) (t : ℝ) {y : ℝ → Frame} {W : Twist}
    (hy : ∀ ε, s.chain.fk (advance (ms.map (·.pos t)) (ms.map (·.vel t)) ε) = some (y ε))
    (hW : Frame.MovesWith y W 0) :
    ∃ tip : ℝ → Frame, (∀ u, s.chain.fk (ms.map (·.pos u)) = some (tip u)) ∧ Frame.MovesWith tip W t ∧ tip t = y 0 := by
  have hc : s.chain ≠ [] := fun h => hne (List.map_eq_nil_iff.mp h)
  have h0 : Twist.HasRate (fun _ : ℝ => (0 : Twist)) 0 t := ⟨Vec3.HasRate.const 0 t, Vec3.HasRate.const 0 t⟩
  obtain ⟨vi, ai, g1, g2, g3⟩ := poses_motion t s.chain ms (fun _ => 1) (fun _ => 1) (fun _ => 0) 0 hs.wf hm
    (fun u => BodyMoves_const 1 u) (fun _ => Frame.IsRigid.one) h0 (BodyMoves_const 1 0) rfl (s.chain.length - 1)
    (by have := List.length_pos_iff.mpr hc; omega)
  have hfk : ∀ q f, s.chain.fk q = some f → (s.chain.poses q 1)[s.chain.length - 1]?.getD 1 = f := by
    intro q f h
    rw [poses_last s.chain q 1 f hc h]
    rfl
  have ey : (fun ε => ((s.chain.poses (advance (ms.map (·.pos t)) (ms.map (·.vel t)) ε) 1)[s.chain.length - 1]?.getD 1)) = y :=
    funext fun ε => hfk _ _ (hy ε)
  rw [ey] at g3
  have hr : (y 0).IsRigid := by
    rw [← congrFun ey 0]
    exact pose_getD_rigid hs.wf _ _
  have e0 := hy 0
  rw [advance_zero _ _ (by simp)] at e0
  have et : (s.chain.poses (ms.map (·.pos t)) 1)[s.chain.length - 1]?.getD 1 = y 0 := hfk _ _ e0
  refine ⟨fun u => (s.chain.poses (ms.map (·.pos u)) 1)[s.chain.length - 1]?.getD 1, fun u => ?_, ?_, et⟩
  · obtain ⟨f, hf⟩ := Chain.exists_fk (c := s.chain) (q := ms.map (·.pos u)) (by simpa using hm)
    simp only [hf, hfk _ _ hf]
  · have := g1 t
    unfold Frame.BodyMoves at this g3
    simp only [et] at this
    rwa [moves_unique hW g3 hr]

theorem Describes.length {s : DynSolver} {bodies : List (List MassPoint)} (hs : s.Describes bodies) :
    bodies.length = s.chain.length := by
  rw [← hs.bodies.length_eq]
  exact (List.length_map ..).symm

/-! ### C105 -/

/-- C105: what the torques do becomes energy. The joints move in any smooth way and a wrench acts on the TCP,
written in base axes. At every instant the energy of the robot grows at the power of the torques of inverse
dynamics plus the power of the wrench. -/
theorem C105_power_base {s : DynSolver} {bodies : List (List MassPoint)} (hs : s.Describes bodies)
    (hne : s.links ≠ []) (ms : List JointMotion) (hm : ms.length = s.chain.nJoints) (t : ℝ)
    (fx fy fz nx ny nz : ℝ) :
    ∃ τ, s.invDyn (ms.map fun m => m.pos t * rad2deg) (ms.map fun m => m.vel t * rad2deg)
        (ms.map fun m => m.acc t * rad2deg) [fx, fy, fz, nx, ny, nz] .base = some (some τ) ∧
      ∃ (tip : ℝ → Frame) (W : Twist), (∀ u, s.chain.fk (ms.map (·.pos u)) = some (tip u)) ∧ Frame.MovesWith tip W t ∧
        HasDerivAt (energy s.chain bodies s.gravity fun u => ms.map (·.pos u))
          (powerOf τ (ms.map (·.vel t)) + (dot W.vel ⟨fx, fy, fz⟩ + dot W.rot ⟨nx, ny, nz⟩)) t := by
  obtain ⟨τ, h1, -, h3⟩ := C74_newton_base hs hne ms hm t fx fy fz nx ny nz
  obtain ⟨y, W, g1, g2, g3⟩ := h3 (ms.map (·.vel t)) (by simp)
  obtain ⟨tip, k1, k2, -⟩ := tip_motion hs hne ms hm t g1 g2
  refine ⟨τ, h1, tip, W, k1, k2, ?_⟩
  unfold powerOf
  rw [g3, sub_add_cancel]
  exact energy_rate hs.wf bodies hs.length s.gravity ms hm t

/-- C105: the same with the wrench written in the axes of the TCP. -/
theorem C105_power_tcp {s : DynSolver} {bodies : List (List MassPoint)} (hs : s.Describes bodies)
    (hne : s.links ≠ []) (ms : List JointMotion) (hm : ms.length = s.chain.nJoints) (t : ℝ)
    (fx fy fz nx ny nz : ℝ) :
    ∃ τ, s.invDyn (ms.map fun m => m.pos t * rad2deg) (ms.map fun m => m.vel t * rad2deg)
        (ms.map fun m => m.acc t * rad2deg) [fx, fy, fz, nx, ny, nz] .tcp = some (some τ) ∧
      ∃ (tip : ℝ → Frame) (W : Twist), (∀ u, s.chain.fk (ms.map (·.pos u)) = some (tip u)) ∧ Frame.MovesWith tip W t ∧
        HasDerivAt (energy s.chain bodies s.gravity fun u => ms.map (·.pos u))
          (powerOf τ (ms.map (·.vel t)) + (dot W.vel ((tip t).M.mulVec ⟨fx, fy, fz⟩) +
            dot W.rot ((tip t).M.mulVec ⟨nx, ny, nz⟩))) t := by
  obtain ⟨τ, h1, -, h3⟩ := C74_newton_tcp hs hne ms hm t fx fy fz nx ny nz
  obtain ⟨y, W, g1, g2, g3⟩ := h3 (ms.map (·.vel t)) (by simp)
  obtain ⟨tip, k1, k2, k3⟩ := tip_motion hs hne ms hm t g1 g2
  refine ⟨τ, h1, tip, W, k1, k2, ?_⟩
  unfold powerOf
  rw [g3, k3, sub_add_cancel]
  exact energy_rate hs.wf bodies hs.length s.gravity ms hm t

/-- With no wrench the energy grows at the power of the torques. -/
theorem power_free {s : DynSolver} {bodies : List (List MassPoint)} (hs : s.Describes bodies)
    (hne : s.links ≠ []) (ms : List JointMotion) (hm : ms.length = s.chain.nJoints) (fr : SolverFrame)
    (hfr : fr ≠ .other) (t : ℝ) :
    ∃ τ, s.invDyn (ms.map fun m => m.pos t * rad2deg) (ms.map fun m => m.vel t * rad2deg)
        (ms.map fun m => m.acc t * rad2deg) [0, 0, 0, 0, 0, 0] fr = some (some τ) ∧
        HasDerivAt (energy s.chain bodies s.gravity fun u => ms.map (·.pos u))
          (powerOf τ (ms.map (·.vel t))) t := by
  cases fr with
  | base =>
    obtain ⟨τ, h1, tip, W, -, -, h4⟩ := C105_power_base hs hne ms hm t 0 0 0 0 0 0
    exact ⟨τ, h1, by simpa [dot] using h4⟩
  | tcp =>
    obtain ⟨τ, h1, tip, W, -, -, h4⟩ := C105_power_tcp hs hne ms hm t 0 0 0 0 0 0
    exact ⟨τ, h1, by simpa [dot, Mat3.mulVec] using h4⟩
  | other => exact absurd rfl hfr

/-- C105: torques that only brake never give energy. If along a motion with nothing in the hand the power of
the torques of inverse dynamics is never positive, the energy of the robot never grows. -/
theorem C105_braking {s : DynSolver} {bodies : List (List MassPoint)} (hs : s.Describes bodies)
    (hne : s.links ≠ []) (ms : List JointMotion) (hm : ms.length = s.chain.nJoints) (fr : SolverFrame)
    (hfr : fr ≠ .other)
    (hb : ∀ t τ, s.invDyn (ms.map fun m => m.pos t * rad2deg) (ms.map fun m => m.vel t * rad2deg)
        (ms.map fun m => m.acc t * rad2deg) [0, 0, 0, 0, 0, 0] fr = some (some τ) →
      powerOf τ (ms.map (·.vel t)) ≤ 0) :
    ∀ a b, a ≤ b → energy s.chain bodies s.gravity (fun u => ms.map (·.pos u)) b ≤
      energy s.chain bodies s.gravity (fun u => ms.map (·.pos u)) a := by
  choose τ h1 h2 using power_free hs hne ms hm fr hfr
  have : Antitone (energy s.chain bodies s.gravity fun u => ms.map (·.pos u)) :=
    antitone_of_deriv_nonpos (fun t => (h2 t).differentiableAt) fun t => by
      rw [(h2 t).deriv]
      exact hb t (τ t) (h1 t)
  exact fun a b hab => this hab

/-- C105: a robot that moves with no torque, nothing in the hand, keeps its energy for ever. -/
theorem C105_no_torque {s : DynSolver} {bodies : List (List MassPoint)} (hs : s.Describes bodies)
    (hne : s.links ≠ []) (ms : List JointMotion) (hm : ms.length = s.chain.nJoints) (fr : SolverFrame)
    (hfr : fr ≠ .other)
    (hb : ∀ t, s.invDyn (ms.map fun m => m.pos t * rad2deg) (ms.map fun m => m.vel t * rad2deg)
        (ms.map fun m => m.acc t * rad2deg) [0, 0, 0, 0, 0, 0] fr = some (some (ms.map fun _ => 0))) :
    ∀ a b, energy s.chain bodies s.gravity (fun u => ms.map (·.pos u)) a =
      energy s.chain bodies s.gravity (fun u => ms.map (·.pos u)) b := by
  choose τ h1 h2 using power_free hs hne ms hm fr hfr
  refine is_const_of_deriv_eq_zero (fun t => (h2 t).differentiableAt) fun t => ?_
  rw [(h2 t).deriv]
  have e : τ t = ms.map fun _ => 0 := Option.some.inj (Option.some.inj ((h1 t).symm.trans (hb t)))
  rw [e]
  clear hb h1 h2 hm e
  induction ms with
  | nil => rfl
  | cons m ms ih =>
    unfold powerOf at ih ⊢
    simpa using ih

theorem kinetic_nonneg (c : Chain) (bodies : List (List MassPoint)) (hp : ∀ b ∈ bodies, ∀ p ∈ b, 0 ≤ p.mass)
    (x : ℝ → List ℝ) (t : ℝ) : 0 ≤ kinetic c bodies x t := by
  refine Finset.sum_nonneg fun i hi => List.sum_nonneg fun y hy => ?_
  obtain ⟨p, hpm, rfl⟩ := List.mem_map.mp hy
  have hi' := Finset.mem_range.mp hi
  rw [List.getD_eq_getElem?_getD, List.getElem?_eq_getElem hi', Option.getD_some] at hpm
  refine mul_nonneg (hp _ (List.getElem_mem hi') p hpm) (div_nonneg ?_ (by norm_num))
  unfold dot
  nlinarith [mul_self_nonneg (Vec3.rate (fun u => c.placeAt (x u) 1 i p.place) t).x,
    mul_self_nonneg (Vec3.rate (fun u => c.placeAt (x u) 1 i p.place) t).y,
    mul_self_nonneg (Vec3.rate (fun u => c.placeAt (x u) 1 i p.place) t).z]

/-- Joints at rest: no kinetic energy. -/
theorem kinetic_rest {c : Chain} (hc : c.Wf) (bodies : List (List MassPoint)) (hb : bodies.length = c.length)
    (ms : List JointMotion) (hm : ms.length = c.nJoints) (t : ℝ) (hr : ∀ m ∈ ms, m.vel t = 0) :
    kinetic c bodies (fun u => ms.map (·.pos u)) t = 0 := by
  refine Finset.sum_eq_zero fun i hi => List.sum_eq_zero fun y hy => ?_
  obtain ⟨p, -, rfl⟩ := List.mem_map.mp hy
  have hi' : i < c.length := by rw [← hb]; exact Finset.mem_range.mp hi
  have e : ∀ ε, advance (ms.map (·.pos t)) (ms.map (·.vel t)) ε = ms.map (·.pos t) := by
    intro ε
    clear hm hy hi hi'
    induction ms with
    | nil => rfl
    | cons m ms ih =>
      have := ih fun m' hm' => hr m' (by simp [hm'])
      unfold advance at this ⊢
      simp only [List.map_cons, List.zipWith_cons_cons, this, hr m (by simp), mul_zero, add_zero]
  have h := (place_motion hc ms hm t hi' p.place).2.2
  simp only [e] at h
  rw [(Vec3.HasRate.const _ 0).rate] at h
  simp only [← h]
  simp [dot]

/-- C105: released at rest, a robot whose torques only brake never rises above where it was: at any later time
the potential energy is at most that of the release. -/
theorem C105_released {s : DynSolver} {bodies : List (List MassPoint)} (hs : s.Describes bodies)
    (hp : ∀ b ∈ bodies, ∀ p ∈ b, 0 ≤ p.mass)
    (hne : s.links ≠ []) (ms : List JointMotion) (hm : ms.length = s.chain.nJoints) (fr : SolverFrame)
    (hfr : fr ≠ .other)
    (hb : ∀ t τ, s.invDyn (ms.map fun m => m.pos t * rad2deg) (ms.map fun m => m.vel t * rad2deg)
        (ms.map fun m => m.acc t * rad2deg) [0, 0, 0, 0, 0, 0] fr = some (some τ) →
      powerOf τ (ms.map (·.vel t)) ≤ 0) {t₀ : ℝ} (hr : ∀ m ∈ ms, m.vel t₀ = 0) {t : ℝ} (ht : t₀ ≤ t) :
    potential s.chain bodies s.gravity (ms.map (·.pos t)) ≤ potential s.chain bodies s.gravity (ms.map (·.pos t₀)) := by
  have h := C105_braking hs hne ms hm fr hfr hb t₀ t ht
  unfold energy at h
  rw [kinetic_rest hs.wf bodies hs.length ms hm t₀ hr] at h
  have := kinetic_nonneg s.chain bodies hp (fun u => ms.map (·.pos u)) t
  linarith

/-- A mass of 2 kg on a vertical linear joint, under gravity. -/
noncomputable def elevator : DynSolver := { lift with gravity := ⟨0, 0, -9.81⟩ }

/-- Free fall. -/
noncomputable def falling : JointMotion where
  pos t := -9.81 / 2 * t ^ 2
  vel t := -9.81 * t
  acc _ := -9.81
  pos_rate t := by
    refine ((hasDerivAt_pow 2 t).const_mul (-9.81 / 2 : ℝ)).congr_deriv ?_
    push_cast
    ring
  vel_rate t := by simpa using (hasDerivAt_id t).const_mul (-9.81 : ℝ)

theorem elevator_describes : elevator.Describes [[⟨2, ⟨0, 0, 0⟩⟩]] := by
  constructor
  · intro l hl
    rw [List.mem_singleton.mp hl]
    refine ⟨fun h => (by cases h), ?_⟩
    refine Frame.IsRigid.mul (Frame.IsRigid.inv ?_) Frame.IsRigid.one
    exact Joint.Unit.pose_rigid (fun h => by cases h) 0
  · refine List.Forall₂.cons ⟨?_, ?_, fun w => ?_⟩ List.Forall₂.nil
    · simp [Inertia.make]
    · ext <;> simp [Inertia.make]
    · ext <;> simp [Inertia.make, dot]

/-- The elevator falls with no torque: it meets the hypotheses of all the theorems, from its start at rest. -/
theorem elevator_falls (t : ℝ) :
    elevator.invDyn ([falling].map fun m => m.pos t * rad2deg) ([falling].map fun m => m.vel t * rad2deg)
      ([falling].map fun m => m.acc t * rad2deg) [0, 0, 0, 0, 0, 0] .base = some (some ([falling].map fun _ => 0)) := by
  have hj : elevator.chain.nJoints = 1 := rfl
  unfold invDyn
  rw [hj]
  have h1 : ∀ x : ℝ, x * rad2deg * deg2rad = x := fun x => deg_rad x
  simp [toRadians, rne, rneLoop, elevator, lift, Segment.make, Link.sweep, Link.force, Joint.pose, Inertia.make,
    Segment.pose, Segment.twist, Joint.twist, Twist.rotate, Twist.refPoint, Frame.invTwist, Frame.mulWrench,
    Inertia.mul, Twist.crossTwist, Twist.crossWrench, Twist.power, dot, Mat3.transpose, Frame.inv,
    cross, wrenches, vectorToWrench, Wrench.rotate, chain, Chain.fk, Chain.fkLoop, falling, h1]

/-- It is lower after a second than when released. -/
example : elevator.links ≠ [] ∧ [falling].length = elevator.chain.nJoints ∧ (∀ m ∈ [falling], m.vel 0 = 0) ∧
    potential elevator.chain [[⟨2, ⟨0, 0, 0⟩⟩]] elevator.gravity ([falling].map (·.pos 1)) ≤
      potential elevator.chain [[⟨2, ⟨0, 0, 0⟩⟩]] elevator.gravity ([falling].map (·.pos 0)) := by
  have hr : ∀ m ∈ [falling], m.vel 0 = 0 := by
    intro m hm
    rw [List.mem_singleton.mp hm]
    simp [falling]
  refine ⟨by simp [elevator, lift], rfl, hr, ?_⟩
  refine C105_released elevator_describes (by simp) (by simp [elevator, lift]) [falling] rfl .base (by simp)
    (fun t τ h => ?_) hr (by norm_num)
  rw [elevator_falls t] at h
  rw [← Option.some.inj (Option.some.inj h)]
  simp [powerOf]

/-- C105 refuted for linear joints, whose documented units are meters: an elevator in free fall, described in
meters, is given a force that is not zero, though its energy does not change. -/
theorem C105_linear_joint_counterexample (t : ℝ) :
    ∃ f : ℝ, f ≠ 0 ∧ elevator.invDyn [falling.pos t] [falling.vel t] [falling.acc t] [0, 0, 0, 0, 0, 0] .base =
      some (some [f]) := by
  refine ⟨2 * (-9.81 * deg2rad + 9.81), ?_, ?_⟩
  · have h : deg2rad < 1 := by
      unfold deg2rad
      have := Real.pi_le_four
      linarith
    have : (0 : ℝ) < 2 * (-9.81 * deg2rad + 9.81) := by nlinarith
    exact this.ne'
  · have hj : elevator.chain.nJoints = 1 := rfl
    unfold invDyn
    rw [hj]
    simp [toRadians, rne, rneLoop, elevator, lift, Segment.make, Link.sweep, Link.force, Joint.pose, Inertia.make,
      Segment.pose, Segment.twist, Joint.twist, Twist.rotate, Twist.refPoint, Frame.invTwist, Frame.mulWrench,
      Inertia.mul, Twist.crossTwist, Twist.crossWrench, Twist.power, dot, Mat3.transpose, Frame.inv,
      cross, wrenches, vectorToWrench, Wrench.rotate, chain, Chain.fk, Chain.fkLoop, falling]
    ring

end DynSolver
end KD
