import Verif.Solver.KdlDynamics
import Verif.Kdl.DynamicsLemmas
import Verif.Props.KdlSolver

/-!
# C74: inverse dynamics of the chain solver

Bodies are made of point masses (`MassPoint`, `Inertia.Of`); forces are those of Newton's second law. The
torques are compared with them by virtual work: for every virtual displacement `δ` of the joints, the work
of the torques is that of all the forces on all the masses.
-/

namespace KD

open Vec3 KdlVectorConverter KdlSolver

namespace DynSolver

/-! ### Specification -/

/-- The potential energy of the point masses of all the bodies, with the joints at `q`. -/
noncomputable def potential (c : Chain) (bodies : List (List MassPoint)) (g : Vec3) (q : List ℝ) : ℝ :=
  ∑ i ∈ Finset.range bodies.length, ((bodies.getD i []).map fun p =>
    - (p.mass * dot g (c.placeAt q 1 i p.place))).sum

/-- Each segment of the solver stands for a body, and its frames and axes are proper. -/
structure Describes (s : DynSolver) (bodies : List (List MassPoint)) : Prop where
  proper : ∀ l ∈ s.links, l.seg.Wf
  bodies : List.Forall₂ (fun l b => l.inertia.Of b) s.links bodies

/-! ### Helpers -/

/-- A joint at rest. -/
def JointMotion.rest (q : ℝ) : JointMotion where
  pos _ := q
  vel _ := 0
  acc _ := 0
  pos_rate t := hasDerivAt_const t q
  vel_rate t := hasDerivAt_const t 0

theorem rneLoop_some (links : List Link) : ∀ (qs qds qdds : List ℝ) (es : List Wrench) (v a : Twist),
    qs.length = Chain.nJoints (links.map (·.seg)) → qds.length = qs.length → qdds.length = qs.length →
    es.length = links.length → ∃ r, rneLoop links qs qds qdds es v a = some r := by
  induction links with
  | nil =>
    intro qs qds qdds es v a h1 h2 h3 h4
    have e1 : qs = [] := List.length_eq_zero_iff.mp (by simpa [Chain.nJoints] using h1)
    subst e1
    have e2 : qds = [] := List.length_eq_zero_iff.mp h2
    have e3 : qdds = [] := List.length_eq_zero_iff.mp h3
    have e4 : es = [] := List.length_eq_zero_iff.mp h4
    subst e2 e3 e4
    exact ⟨_, rfl⟩
  | cons l links ih =>
    intro qs qds qdds es v a h1 h2 h3 h4
    rw [List.map_cons, Chain.nJoints_cons] at h1
    obtain ⟨e, es, rfl⟩ := List.exists_cons_of_length_eq_add_one (h4.trans (List.length_cons ..))
    by_cases hn : l.seg.joint.type ≠ .none
    · rw [if_pos hn] at h1
      obtain ⟨q, qs, rfl⟩ := List.exists_cons_of_length_eq_add_one (h1.trans (Nat.add_comm _ _))
      obtain ⟨qd, qds, rfl⟩ := List.exists_cons_of_length_eq_add_one (h2.trans (List.length_cons ..))
      obtain ⟨qdd, qdds, rfl⟩ := List.exists_cons_of_length_eq_add_one (h3.trans (List.length_cons ..))
      obtain ⟨r, hr⟩ := ih qs qds qdds es (Link.sweep l.seg q qd qdd v a).1 (Link.sweep l.seg q qd qdd v a).2
        (by simp at h1; omega) (by simpa using h2) (by simpa using h3) (by simpa using h4)
      simp only [rneLoop, if_pos hn, hr]
      exact ⟨_, rfl⟩
    · rw [if_neg hn] at h1
      obtain ⟨r, hr⟩ := ih qs qds qdds es (Link.sweep l.seg 0 0 0 v a).1 (Link.sweep l.seg 0 0 0 v a).2
        (by omega) h2 h3 (by simpa using h4)
      simp only [rneLoop, if_neg hn, hr]
      exact ⟨_, rfl⟩

/-- The poses end with forward kinematics. -/
theorem poses_last (c : Chain) : ∀ (q : List ℝ) (acc f : Frame), c ≠ [] → c.fkLoop q acc = some f →
    (c.poses q acc)[c.length - 1]? = some f := by
  induction c with
  | nil => intro q acc f h; exact absurd rfl h
  | cons s c ih =>
    intro q acc f _ h
    unfold Chain.fkLoop at h
    by_cases hn : s.joint.type ≠ .none
    · rw [if_pos hn] at h
      cases q with
      | nil => cases h
      | cons a q =>
        simp only at h
        rw [Chain.poses, if_pos hn]
        cases c with
        | nil =>
          cases q with
          | nil => simpa [Chain.fkLoop] using h
          | cons _ _ => simp [Chain.fkLoop] at h
        | cons s' c' => simpa using ih q _ f (by simp) h
    · rw [if_neg hn] at h
      rw [Chain.poses.eq_def]
      simp only [if_neg hn]
      cases c with
      | nil =>
        cases q with
        | nil => simpa [Chain.fkLoop] using h
        | cons _ _ => simp [Chain.fkLoop] at h
      | cons s' c' => simpa using ih q _ f (by simp) h

theorem advance_zero : ∀ (q δ : List ℝ), δ.length = q.length → advance q δ 0 = q
  | [], [], _ => rfl
  | a :: q, b :: δ, h => by
    have := advance_zero q δ (by simpa using h)
    simp only [advance] at this ⊢
    rw [List.zipWith_cons_cons, this, zero_mul, add_zero]
  | [], _ :: _, h => by simp at h
  | _ :: _, [], h => by simp at h

theorem advance_length (q δ : List ℝ) (h : δ.length = q.length) (t : ℝ) : (advance q δ t).length = q.length := by
  simp [advance, h]

/-- The statement for the solver of KDL. -/
theorem rne_work {s : DynSolver} {bodies : List (List MassPoint)} (hs : s.Describes bodies)
    (ms : List JointMotion) (hm : ms.length = s.chain.nJoints) (t : ℝ) (es : List Wrench)
    (he : es.length = s.links.length) :
    ∃ τ, rne s.links s.gravity (ms.map (·.pos t)) (ms.map (·.vel t)) (ms.map (·.acc t)) es = some τ ∧
      τ.length = ms.length ∧ ∀ δ : List ℝ, δ.length = ms.length → ∃ Ws : List Twist, Ws.length = s.links.length ∧
        (∀ (i : ℕ) (W : Twist), Ws[i]? = some W → Frame.BodyMoves (fun ε =>
          ((Chain.poses s.chain (advance (ms.map (·.pos t)) δ ε) 1)[i]?.getD 1)) W 0) ∧
        (List.zipWith (· * ·) τ δ).sum =
          newtonWork s.chain bodies s.gravity (fun u => ms.map (·.pos u))
            (advance (ms.map (·.pos t)) δ) (fun _ => 1) (fun _ => 1) t - (List.zipWith Twist.power Ws es).sum := by
  obtain ⟨⟨τ, f⟩, hr⟩ := rneLoop_some s.links (ms.map (·.pos t)) (ms.map (·.vel t)) (ms.map (·.acc t)) es 0
    ⟨-s.gravity, 0⟩ (by rw [List.length_map]; exact hm) (by simp) (by simp) he
  have h0 : (0 : Twist) + ⟨-((1 : Frame).M.transpose.mulVec s.gravity), 0⟩ = ⟨-s.gravity, 0⟩ := by
    ext <;> simp [Mat3.transpose]
  have hc : Twist.HasRate (fun _ : ℝ => (0 : Twist)) 0 t := ⟨Vec3.HasRate.const 0 t, Vec3.HasRate.const 0 t⟩
  have key := fun δ hδ => rneLoop_work s.gravity t s.links bodies ms δ es (fun _ => 1) (fun _ => 1) (fun _ => 0) 0 0
    τ f hs.proper hs.bodies hδ (fun u => BodyMoves_const 1 u) (fun _ => Frame.IsRigid.one) hc (BodyMoves_const 1 0) rfl
    (by rw [h0]; exact hr)
  refine ⟨τ, by simp [rne, hr], (key (ms.map fun _ => 0) (by simp)).1, fun δ hδ => ?_⟩
  obtain ⟨-, Ws, g1, -, g2, g3⟩ := key δ hδ
  refine ⟨Ws, g1, g2, ?_⟩
  have : (0 : Twist).power f = 0 := by simp [Twist.power, dot]
  rw [this, add_zero] at g3
  exact g3

theorem poses_rigid (c : Chain) : ∀ (q : List ℝ) (acc : Frame), c.Wf → acc.IsRigid →
    ∀ f ∈ c.poses q acc, f.IsRigid := by
  induction c with
  | nil => intro q acc _ _ f hf; simp [Chain.poses] at hf
  | cons s c ih =>
    intro q acc hw ha f hf
    have hs : s.Wf := hw s (by simp)
    have hc : Chain.Wf c := fun x hx => hw x (by simp [hx])
    rw [Chain.poses.eq_def] at hf
    by_cases hn : s.joint.type ≠ .none
    · simp only [if_pos hn] at hf
      cases q with
      | nil => simp at hf
      | cons a q =>
        rcases List.mem_cons.mp hf with rfl | hf
        · exact ha.mul (hs.pose_rigid _)
        · exact ih q _ hc (ha.mul (hs.pose_rigid _)) f hf
    · simp only [if_neg hn] at hf
      rcases List.mem_cons.mp hf with rfl | hf
      · exact ha.mul (hs.pose_rigid _)
      · exact ih q _ hc (ha.mul (hs.pose_rigid _)) f hf

theorem Describes.wf {s : DynSolver} {bodies : List (List MassPoint)} (hs : s.Describes bodies) : Chain.Wf s.chain := by
  intro x hx
  obtain ⟨l, hl, rfl⟩ := List.mem_map.mp hx
  exact hs.proper l hl

theorem pose_getD_rigid {c : Chain} (hc : c.Wf) (q : List ℝ) (i : ℕ) : ((c.poses q 1)[i]?.getD 1).IsRigid := by
  cases h : (c.poses q 1)[i]? with
  | none => exact Frame.IsRigid.one
  | some f => exact poses_rigid c q 1 hc Frame.IsRigid.one f (List.mem_of_getElem? h)

/-- Places move smoothly along a virtual displacement. -/
theorem place_rate {s : DynSolver} {bodies : List (List MassPoint)} (hs : s.Describes bodies)
    {x : ℝ → List ℝ} {i : ℕ} {W : Twist}
    (h : Frame.BodyMoves (fun ε => ((Chain.poses s.chain (x ε) 1)[i]?.getD 1)) W 0) (r : Vec3) :
    Vec3.HasRate (fun ε => s.chain.placeAt (x ε) 1 i r) (Vec3.rate (fun ε => s.chain.placeAt (x ε) 1 i r) 0) 0 := by
  have := h.place (pose_getD_rigid hs.wf _ _) r
  rw [show (fun ε => s.chain.placeAt (x ε) 1 i r) = fun ε => (((Chain.poses s.chain (x ε) 1)[i]?.getD 1)).act r from rfl,
    this.rate]
  exact this

theorem power_zeros (Ws : List Twist) (n : ℕ) : (List.zipWith Twist.power Ws (List.replicate n 0)).sum = 0 := by
  induction n generalizing Ws with
  | zero => simp
  | succ n ih =>
    cases Ws with
    | nil => simp
    | cons W Ws =>
      rw [List.replicate_succ, List.zipWith_cons_cons, List.sum_cons, ih]
      simp [Twist.power, dot]

theorem power_last (w : Wrench) (n : ℕ) : ∀ (Ws : List Twist) (W : Twist), Ws.length = n + 1 → Ws[n]? = some W →
    (List.zipWith Twist.power Ws (List.replicate n 0 ++ [w])).sum = W.power w := by
  induction n with
  | zero =>
    intro Ws W hl hW
    obtain ⟨V, rfl⟩ := List.length_eq_one_iff.mp hl
    simp only [List.getElem?_cons_zero, Option.some.injEq] at hW
    subst hW
    simp
  | succ n ih =>
    intro Ws W hl hW
    cases Ws with
    | nil => simp at hl
    | cons V Ws =>
      rw [List.replicate_succ, List.cons_append, List.zipWith_cons_cons, List.sum_cons,
        ih Ws W (by simpa using hl) (by simpa using hW)]
      simp [Twist.power, dot]

/-! ### C74 -/

/-- C74: the torques for a robot at rest are the slopes of its potential energy: turning the joints
in any direction takes as much energy as the torques give. So they hold the robot against gravity. -/
theorem C74_torques_balance_gravity {s : DynSolver} {bodies : List (List MassPoint)} (hs : s.Describes bodies)
    (q : List ℝ) (hq : s.chain.nJoints ≤ q.length) :
    ∃ τ, s.invDynStatic q = some (some τ) ∧ τ.length = s.chain.nJoints ∧
      ∀ δ : List ℝ, δ.length = s.chain.nJoints →
        HasDerivAt (fun ε => potential s.chain bodies s.gravity
          (advance ((q.take s.chain.nJoints).map (· * deg2rad)) δ ε)) (List.zipWith (· * ·) τ δ).sum 0 := by
  set qr := (q.take s.chain.nJoints).map (· * deg2rad) with hqr
  have hl : qr.length = s.chain.nJoints := by simp [hqr, hq]
  obtain ⟨τ, h1, h2, h3⟩ := rne_work hs (qr.map JointMotion.rest) (by simpa using hl) 0
    (List.replicate s.links.length 0) (by simp)
  have e0 : (qr.map JointMotion.rest).map (·.pos 0) = qr := by simp [JointMotion.rest, Function.comp_def]
  have e1 : (qr.map JointMotion.rest).map (·.vel 0) = List.replicate s.chain.nJoints 0 := by
    simp [JointMotion.rest, Function.comp_def, ← hl, List.map_const']
  have e2 : (qr.map JointMotion.rest).map (·.acc 0) = List.replicate s.chain.nJoints 0 := by
    simp [JointMotion.rest, Function.comp_def, ← hl, List.map_const']
  have e3 : (fun u : ℝ => (qr.map JointMotion.rest).map (·.pos u)) = fun _ => qr := by
    funext u
    simp [JointMotion.rest, Function.comp_def]
  rw [e0, e1, e2] at h1
  refine ⟨τ, ?_, by simpa [hl] using h2, fun δ hδ => ?_⟩
  · unfold invDynStatic
    show (toRadians s.chain.nJoints q).bind _ = _
    rw [toRadians_some hq, Option.bind_some, ← hqr]
    exact congrArg some h1
  · obtain ⟨Ws, g1, g2, g3⟩ := h3 δ (by simpa [hl] using hδ)
    rw [g3, power_zeros, sub_zero, e3]
    rw [e0] at g2 ⊢
    unfold newtonWork potential
    refine HasDerivAt.fun_sum fun i hi => ?_
    have hlen : bodies.length = Ws.length := by rw [g1, hs.bodies.length_eq]
    have hi' : i < Ws.length := by rw [← hlen]; exact Finset.mem_range.mp hi
    have hpl := fun r => place_rate hs (g2 i Ws[i] (List.getElem?_eq_getElem hi')) r
    generalize bodies.getD i [] = pts
    induction pts with
    | nil => simpa using hasDerivAt_const (0 : ℝ) (0 : ℝ)
    | cons p pts ih =>
      simp only [List.map_cons, List.sum_cons]
      refine HasDerivAt.add ?_ ih
      have hc : Vec3.rate (Vec3.rate fun _ : ℝ => s.chain.placeAt qr 1 i p.place) 0 = 0 := by
        have : (Vec3.rate fun _ : ℝ => s.chain.placeAt qr 1 i p.place) = fun _ => 0 := by
          funext u
          exact (Vec3.HasRate.const _ u).rate
        rw [this]
        exact (Vec3.HasRate.const _ 0).rate
      rw [hc]
      obtain ⟨r1, r2, r3⟩ := hpl p.place
      generalize Vec3.rate (fun ε => s.chain.placeAt (advance qr δ ε) 1 i p.place) 0 = y at r1 r2 r3 ⊢
      have := ((((r1.const_mul s.gravity.x).add (r2.const_mul s.gravity.y)).add
        (r3.const_mul s.gravity.z)).const_mul p.mass).neg
      refine this.congr_deriv ?_
      simp [dot]
      ring

theorem radians_back {n : ℕ} (l : List ℝ) (h : l.length = n) : toRadians n (l.map (· * rad2deg)) = some l := by
  unfold toRadians
  rw [if_pos (by simp [h]), List.take_of_length_le (by simp [h]), back_to_radians]

/-- A wrench on the last segment, in its own axes. -/
theorem tip_work {s : DynSolver} {bodies : List (List MassPoint)} (hs : s.Describes bodies)
    (hne : s.links ≠ []) (ms : List JointMotion) (hm : ms.length = s.chain.nJoints) (t : ℝ) (w : Wrench) :
    ∃ τ, rne s.links s.gravity (ms.map (·.pos t)) (ms.map (·.vel t)) (ms.map (·.acc t))
        (List.replicate (s.links.length - 1) 0 ++ [w]) = some τ ∧
      τ.length = ms.length ∧ ∀ δ : List ℝ, δ.length = ms.length →
        ∃ (tip : ℝ → Frame) (W : Twist),
          (∀ ε, s.chain.fk (advance (ms.map (·.pos t)) δ ε) = some (tip ε)) ∧ (tip 0).IsRigid ∧
          Frame.MovesWith tip W 0 ∧
          (List.zipWith (· * ·) τ δ).sum =
            newtonWork s.chain bodies s.gravity (fun u => ms.map (·.pos u))
              (advance (ms.map (·.pos t)) δ) (fun _ => 1) (fun _ => 1) t -
            (dot W.vel ((tip 0).M.mulVec w.force) + dot W.rot ((tip 0).M.mulVec w.torque)) := by
  have hn : s.links.length - 1 + 1 = s.links.length := by
    have := List.length_pos_iff.mpr hne
    omega
  obtain ⟨τ, h1, h2, h3⟩ := rne_work hs ms hm t (List.replicate (s.links.length - 1) 0 ++ [w]) (by simp [hn])
  refine ⟨τ, h1, h2, fun δ hδ => ?_⟩
  obtain ⟨Ws, g1, g2, g3⟩ := h3 δ hδ
  have hi : s.links.length - 1 < Ws.length := by omega
  have hW := List.getElem?_eq_getElem hi
  have hb := g2 _ _ hW
  have hfk : ∀ ε, s.chain.fk (advance (ms.map (·.pos t)) δ ε) =
      some ((s.chain.poses (advance (ms.map (·.pos t)) δ ε) 1)[s.links.length - 1]?.getD 1) := by
    intro ε
    have hl : (advance (ms.map (·.pos t)) δ ε).length = s.chain.nJoints := by
      rw [advance_length _ _ (by simpa using hδ)]
      simpa using hm
    obtain ⟨f, hf⟩ := Chain.exists_fk hl
    have hc : s.chain ≠ [] := by
      intro h
      exact hne (List.map_eq_nil_iff.mp h)
    have hp := poses_last s.chain _ 1 f hc hf
    have hcl : s.chain.length = s.links.length := List.length_map ..
    rw [hcl] at hp
    rw [hf, hp]
    rfl
  refine ⟨_, _, hfk, pose_getD_rigid hs.wf _ _, hb, ?_⟩
  rw [g3, power_last w (s.links.length - 1) Ws _ (by omega) hW]
  have hr : ((s.chain.poses (advance (ms.map (·.pos t)) δ 0) 1)[s.links.length - 1]?.getD 1).M.IsRot :=
    pose_getD_rigid hs.wf _ _
  simp only [Twist.power, Twist.rotate, hr.dot]

/-- C74: Newton's law for the whole robot. The joints move in any smooth way and a wrench acts on the TCP,
written in base axes. For every virtual displacement of the joints, the work of the torques is that of the
forces that accelerate all the masses against gravity, less that of the wrench. -/
theorem C74_newton_base {s : DynSolver} {bodies : List (List MassPoint)} (hs : s.Describes bodies)
    (hne : s.links ≠ []) (ms : List JointMotion) (hm : ms.length = s.chain.nJoints) (t : ℝ)
    (fx fy fz nx ny nz : ℝ) :
    ∃ τ, s.invDyn (ms.map fun m => m.pos t * rad2deg) (ms.map fun m => m.vel t * rad2deg)
        (ms.map fun m => m.acc t * rad2deg) [fx, fy, fz, nx, ny, nz] .base = some (some τ) ∧
      τ.length = ms.length ∧ ∀ δ : List ℝ, δ.length = ms.length →
        ∃ (tip : ℝ → Frame) (W : Twist),
          (∀ ε, s.chain.fk (advance (ms.map (·.pos t)) δ ε) = some (tip ε)) ∧ Frame.MovesWith tip W 0 ∧
          (List.zipWith (· * ·) τ δ).sum =
            newtonWork s.chain bodies s.gravity (fun u => ms.map (·.pos u))
              (advance (ms.map (·.pos t)) δ) (fun _ => 1) (fun _ => 1) t -
            (dot W.vel ⟨fx, fy, fz⟩ + dot W.rot ⟨nx, ny, nz⟩) := by
  set w : Wrench := vectorToWrench [fx, fy, fz, nx, ny, nz] with hw
  have hl : (ms.map (·.pos t)).length = s.chain.nJoints := by simpa using hm
  obtain ⟨f, hf⟩ := Chain.exists_fk hl
  obtain ⟨τ, h1, h2, h3⟩ := tip_work hs hne ms hm t (Wrench.rotate f.M.transpose w)
  refine ⟨τ, ?_, h2, fun δ hδ => ?_⟩
  · have r1 : toRadians s.chain.nJoints (ms.map fun m => m.pos t * rad2deg) = some (ms.map (·.pos t)) := by
      simpa [Function.comp_def] using radians_back (ms.map (·.pos t)) hl
    have r2 : toRadians s.chain.nJoints (ms.map fun m => m.vel t * rad2deg) = some (ms.map (·.vel t)) := by
      simpa [Function.comp_def] using radians_back (ms.map (·.vel t)) (by simpa using hm)
    have r3 : toRadians s.chain.nJoints (ms.map fun m => m.acc t * rad2deg) = some (ms.map (·.acc t)) := by
      simpa [Function.comp_def] using radians_back (ms.map (·.acc t)) (by simpa using hm)
    have he : s.links.isEmpty = false := by simpa using hne
    simp only [invDyn, r1, r2, r3, hf, wrenches, he, Option.bind_eq_bind, Option.bind_some, Bool.false_eq_true,
      if_false, Option.pure_def, ← hw]
    rw [h1]
  · obtain ⟨tip, W, g1, g2, g3, g4⟩ := h3 δ hδ
    refine ⟨tip, W, g1, g3, ?_⟩
    have e0 := g1 0
    rw [advance_zero _ _ (by simpa using hδ), hf] at e0
    have e1 : f = tip 0 := Option.some.inj e0
    have hr : (tip 0).M.IsRot := g2
    rw [g4, e1]
    simp only [Wrench.rotate, hr.mulVec_transpose]
    rfl

/-- C74: the same with the wrench written in the axes of the TCP. -/
theorem C74_newton_tcp {s : DynSolver} {bodies : List (List MassPoint)} (hs : s.Describes bodies)
    (hne : s.links ≠ []) (ms : List JointMotion) (hm : ms.length = s.chain.nJoints) (t : ℝ)
    (fx fy fz nx ny nz : ℝ) :
    ∃ τ, s.invDyn (ms.map fun m => m.pos t * rad2deg) (ms.map fun m => m.vel t * rad2deg)
        (ms.map fun m => m.acc t * rad2deg) [fx, fy, fz, nx, ny, nz] .tcp = some (some τ) ∧
      τ.length = ms.length ∧ ∀ δ : List ℝ, δ.length = ms.length →
        ∃ (tip : ℝ → Frame) (W : Twist),
          (∀ ε, s.chain.fk (advance (ms.map (·.pos t)) δ ε) = some (tip ε)) ∧ Frame.MovesWith tip W 0 ∧
          (List.zipWith (· * ·) τ δ).sum =
            newtonWork s.chain bodies s.gravity (fun u => ms.map (·.pos u))
              (advance (ms.map (·.pos t)) δ) (fun _ => 1) (fun _ => 1) t -
            (dot W.vel ((tip 0).M.mulVec ⟨fx, fy, fz⟩) + dot W.rot ((tip 0).M.mulVec ⟨nx, ny, nz⟩)) := by
  obtain ⟨τ, h1, h2, h3⟩ := tip_work hs hne ms hm t (vectorToWrench [fx, fy, fz, nx, ny, nz])
  refine ⟨τ, ?_, h2, fun δ hδ => ?_⟩
  · have r1 : toRadians s.chain.nJoints (ms.map fun m => m.pos t * rad2deg) = some (ms.map (·.pos t)) := by
      simpa [Function.comp_def] using radians_back (ms.map (·.pos t)) (by simpa using hm)
    have r2 : toRadians s.chain.nJoints (ms.map fun m => m.vel t * rad2deg) = some (ms.map (·.vel t)) := by
      simpa [Function.comp_def] using radians_back (ms.map (·.vel t)) (by simpa using hm)
    have r3 : toRadians s.chain.nJoints (ms.map fun m => m.acc t * rad2deg) = some (ms.map (·.acc t)) := by
      simpa [Function.comp_def] using radians_back (ms.map (·.acc t)) (by simpa using hm)
    have he : s.links.isEmpty = false := by simpa using hne
    simp only [invDyn, r1, r2, r3, wrenches, he, Option.bind_eq_bind, Option.bind_some, Bool.false_eq_true,
      if_false, Option.pure_def]
    rw [h1]
  · obtain ⟨tip, W, g1, g2, g3, g4⟩ := h3 δ hδ
    exact ⟨tip, W, g1, g3, g4⟩

/-- C74: dynamic parameters as they are configured (mass, centre of mass, principal moments of inertia about
it) stand for a body: if the moments are possible, there are point masses with that mass, that centre
of mass and those moments. -/
theorem C74_configured_body (m : ℝ) (hm : 0 < m) (c i : Vec3) (h1 : i.x ≤ i.y + i.z) (h2 : i.y ≤ i.x + i.z)
    (h3 : i.z ≤ i.x + i.y) :
    ∃ pts : List MassPoint, (Inertia.make m c i).Of pts ∧ (∀ p ∈ pts, 0 < p.mass) ∧
      (pts.map (·.mass)).sum = m ∧ (pts.map fun p => p.mass • (p.place - c)).sum = 0 ∧
      (pts.map fun p => p.mass * ((p.place.y - c.y) ^ 2 + (p.place.z - c.z) ^ 2)).sum = i.x ∧
      (pts.map fun p => p.mass * ((p.place.x - c.x) ^ 2 + (p.place.z - c.z) ^ 2)).sum = i.y ∧
      (pts.map fun p => p.mass * ((p.place.x - c.x) ^ 2 + (p.place.y - c.y) ^ 2)).sum = i.z := by
  obtain ⟨a, ha⟩ : ∃ a, m / 3 * a ^ 2 = (i.y + i.z - i.x) / 2 :=
    ⟨√((i.y + i.z - i.x) / 2 / (m / 3)), by
      rw [Real.sq_sqrt (div_nonneg (by linarith) (by linarith))]
      field_simp⟩
  obtain ⟨b, hb⟩ : ∃ b, m / 3 * b ^ 2 = (i.x + i.z - i.y) / 2 :=
    ⟨√((i.x + i.z - i.y) / 2 / (m / 3)), by
      rw [Real.sq_sqrt (div_nonneg (by linarith) (by linarith))]
      field_simp⟩
  obtain ⟨d, hd⟩ : ∃ d, m / 3 * d ^ 2 = (i.x + i.y - i.z) / 2 :=
    ⟨√((i.x + i.y - i.z) / 2 / (m / 3)), by
      rw [Real.sq_sqrt (div_nonneg (by linarith) (by linarith))]
      field_simp⟩
  refine ⟨[⟨m / 6, ⟨c.x + a, c.y, c.z⟩⟩, ⟨m / 6, ⟨c.x - a, c.y, c.z⟩⟩, ⟨m / 6, ⟨c.x, c.y + b, c.z⟩⟩,
    ⟨m / 6, ⟨c.x, c.y - b, c.z⟩⟩, ⟨m / 6, ⟨c.x, c.y, c.z + d⟩⟩, ⟨m / 6, ⟨c.x, c.y, c.z - d⟩⟩],
    ⟨?_, ?_, fun w => ?_⟩, ?_, ?_, ?_, ?_, ?_, ?_⟩
  · simp [Inertia.make]; ring
  · simp only [Inertia.make, List.map_cons, List.map_nil, List.sum_cons, List.sum_nil]
    ext <;> simp <;> ring
  · simp only [Inertia.make, List.map_cons, List.map_nil, List.sum_cons, List.sum_nil]
    ext
    · simp [dot]
      linear_combination (-w.x) * (hb + hd)
    · simp [dot]
      linear_combination (-w.y) * (ha + hd)
    · simp [dot]
      linear_combination (-w.z) * (ha + hb)
  · intro p hp
    simp only [List.mem_cons, List.not_mem_nil, or_false] at hp
    rcases hp with rfl | rfl | rfl | rfl | rfl | rfl <;> simp <;> linarith
  · simp; ring
  · simp only [List.map_cons, List.map_nil, List.sum_cons, List.sum_nil]
    ext <;> simp <;> ring
  · simp only [List.map_cons, List.map_nil, List.sum_cons, List.sum_nil]
    linear_combination hb + hd
  · simp only [List.map_cons, List.map_nil, List.sum_cons, List.sum_nil]
    linear_combination ha + hd
  · simp only [List.map_cons, List.map_nil, List.sum_cons, List.sum_nil]
    linear_combination ha + hb

theorem rneLoop_tool (f : Frame) (links : List Link) : ∀ (qs qds qdds : List ℝ) (es : List Wrench) (v a : Twist),
    es.length = links.length →
    rneLoop (links ++ [⟨Segment.make Joint.fixed f, Inertia.zero⟩]) qs qds qdds (es ++ [0]) v a =
      rneLoop links qs qds qdds es v a := by
  induction links with
  | nil =>
    intro qs qds qdds es v a he
    have e4 : es = [] := List.length_eq_zero_iff.mp he
    subst e4
    have hn : ¬ (Segment.make Joint.fixed f).joint.type ≠ .none := by simp [Segment.make, Joint.fixed]
    have hz : ∀ v a : Twist, Link.force Inertia.zero v a 0 = 0 := by
      intro v a
      ext <;> simp [Link.force, Inertia.zero, Inertia.mul, Twist.crossWrench]
    have hm : ∀ F : Frame, F.mulWrench (0 + 0) = 0 := by
      intro F
      ext <;> simp [Frame.mulWrench]
    rw [List.nil_append, List.nil_append]
    simp only [rneLoop, if_neg hn, hz]
    rcases qs with _ | ⟨q, qs⟩ <;> rcases qds with _ | ⟨qd, qds⟩ <;> rcases qdds with _ | ⟨qdd, qdds⟩ <;>
      simp [rneLoop, hm]
  | cons l links ih =>
    intro qs qds qdds es v a he
    obtain ⟨e, es, rfl⟩ := List.exists_cons_of_length_eq_add_one (he.trans (List.length_cons ..))
    have he' : es.length = links.length := by simpa using he
    simp only [List.cons_append]
    by_cases hn : l.seg.joint.type ≠ .none
    · rcases qs with _ | ⟨q, qs⟩ <;> rcases qds with _ | ⟨qd, qds⟩ <;> rcases qdds with _ | ⟨qdd, qdds⟩ <;>
        simp only [rneLoop, if_pos hn, ih _ _ _ _ _ _ he']
    · simp only [rneLoop, if_neg hn, ih _ _ _ _ _ _ he']

/-- C74: an appended tool has no mass: the torques that balance gravity stay the same. -/
theorem C74_tool_without_mass (s : DynSolver) (x q : List ℝ) :
    (s.appendLink x).invDynStatic q = s.invDynStatic q := by
  have hn : (s.appendLink x).chain.nJoints = s.chain.nJoints := by
    unfold chain appendLink
    rw [List.map_append]
    exact Chain.nJoints_fixed _ _
  unfold invDynStatic
  rw [hn]
  have hl : (s.appendLink x).links.length = s.links.length + 1 := by simp [appendLink]
  simp only [rne, hl, List.replicate_succ']
  have := fun q qd qdd v a => rneLoop_tool (vectorToFrame x) s.links q qd qdd (List.replicate s.links.length 0) v a (by simp)
  simp only [appendLink, this]

/-- C74: tools come off: restoring the chain gives back the solver that was opened. -/
theorem C74_restored (s : DynSolver) (h : s.original = s.links) (xs : List (List ℝ)) :
    (xs.foldl appendLink s).restore = s := by
  have key : ∀ (xs : List (List ℝ)) (s' : DynSolver), s'.original = s.original → s'.gravity = s.gravity →
      (xs.foldl appendLink s').restore = s := by
    intro xs
    induction xs with
    | nil =>
      intro s' h1 h2
      obtain ⟨l, o, g⟩ := s
      obtain ⟨l', o', g'⟩ := s'
      simp only at h h1 h2
      subst h1 h2
      rw [← h]
      rfl
    | cons x xs ih => intro s' h1 h2; exact ih _ h1 h2
  exact key xs s rfl rfl

/-- A pendulum of length 1 and mass 2 that turns about the y axis of the base. -/
noncomputable def pendulum : DynSolver where
  links := [⟨Segment.make ⟨.rotY, 1, 0, 0, 0⟩ 1, Inertia.make 2 ⟨1, 0, 0⟩ 0⟩]
  original := [⟨Segment.make ⟨.rotY, 1, 0, 0, 0⟩ 1, Inertia.make 2 ⟨1, 0, 0⟩ 0⟩]
  gravity := ⟨0, 0, -9.81⟩

example : pendulum.original = pendulum.links := rfl

theorem pendulum_describes : pendulum.Describes [[⟨2, ⟨1, 0, 0⟩⟩]] := by
  constructor
  · intro l hl
    rw [List.mem_singleton.mp hl]
    refine ⟨fun h => (by cases h), ?_⟩
    refine Frame.IsRigid.mul (Frame.IsRigid.inv ?_) Frame.IsRigid.one
    exact Joint.Unit.pose_rigid (fun h => by cases h) 0
  · refine List.Forall₂.cons ⟨?_, ?_, fun w => ?_⟩ List.Forall₂.nil
    · simp [Inertia.make]
    · ext <;> simp [Inertia.make]
    · ext <;> simp [Inertia.make, dot]

/-- The pendulum stretched forward: 2 kg at 1 m. -/
example : pendulum.chain.nJoints = 1 ∧ pendulum.invDynStatic [0] = some (some [-19.62]) := by
  refine ⟨rfl, ?_⟩
  have hj : pendulum.chain.nJoints = 1 := rfl
  unfold invDynStatic
  rw [hj]
  simp [toRadians, rne, rneLoop, pendulum, Segment.make, Link.sweep, Link.force, Joint.pose, Inertia.make,
    Segment.pose, Segment.twist, Joint.twist, Twist.rotate, Twist.refPoint, Frame.invTwist, Frame.mulWrench,
    Inertia.mul, Twist.crossTwist, Twist.crossWrench, Twist.power, dot, Mat3.rotY, Mat3.transpose, Frame.inv,
    cross]
  norm_num

/-- A joint with the constant acceleration of two radians per second squared. -/
noncomputable def speedUp : JointMotion where
  pos t := t ^ 2
  vel t := 2 * t
  acc _ := 2
  pos_rate t := by simpa using hasDerivAt_pow 2 t
  vel_rate t := by simpa using (hasDerivAt_id t).const_mul (2 : ℝ)

/-- The pendulum starting to move: its inertia is two and takes a torque of four against gravity. -/
example : pendulum.links ≠ [] ∧ [speedUp].length = pendulum.chain.nJoints ∧
    pendulum.invDyn ([speedUp].map fun m => m.pos 0 * rad2deg) ([speedUp].map fun m => m.vel 0 * rad2deg)
      ([speedUp].map fun m => m.acc 0 * rad2deg) [0, 0, 3, 0, 0, 0] .base = some (some [4 - 19.62]) := by
  refine ⟨by simp [pendulum], rfl, ?_⟩
  have hj : pendulum.chain.nJoints = 1 := rfl
  unfold invDyn
  rw [hj]
  have h2 : (2 : ℝ) * rad2deg * deg2rad = 2 := deg_rad 2
  simp [toRadians, rne, rneLoop, pendulum, Segment.make, Link.sweep, Link.force, Joint.pose, Inertia.make,
    Segment.pose, Segment.twist, Joint.twist, Twist.rotate, Twist.refPoint, Frame.invTwist, Frame.mulWrench,
    Inertia.mul, Twist.crossTwist, Twist.crossWrench, Twist.power, dot, Mat3.rotY, Mat3.transpose, Frame.inv,
    cross, wrenches, vectorToWrench, Wrench.rotate, chain, Chain.fk, Chain.fkLoop, speedUp, h2]
  norm_num

/-- A mass of 2 kg on a vertical linear joint. -/
noncomputable def lift : DynSolver where
  links := [⟨Segment.make ⟨.transZ, 1, 0, 0, 0⟩ 1, Inertia.make 2 0 0⟩]
  original := [⟨Segment.make ⟨.transZ, 1, 0, 0, 0⟩ 1, Inertia.make 2 0 0⟩]
  gravity := 0

/-- C74 refuted for linear joints, whose documented units are meters: with an acceleration of `a` meters
per second squared the force for a mass of 2 kg is not twice that, but `2 * a * π / 180`. -/
theorem C74_linear_joint_counterexample (a : ℝ) :
    lift.invDyn [0] [0] [a] [0, 0, 0, 0, 0, 0] .base = some (some [2 * (a * deg2rad)]) := by
  have hj : lift.chain.nJoints = 1 := rfl
  unfold invDyn
  rw [hj]
  simp [toRadians, rne, rneLoop, lift, Segment.make, Link.sweep, Link.force, Joint.pose, Inertia.make,
    Segment.pose, Segment.twist, Joint.twist, Twist.rotate, Twist.refPoint, Frame.invTwist, Frame.mulWrench,
    Inertia.mul, Twist.crossTwist, Twist.crossWrench, Twist.power, dot, Mat3.transpose, Frame.inv,
    cross, wrenches, vectorToWrench, Wrench.rotate, chain, Chain.fk, Chain.fkLoop]

end DynSolver

end KD
