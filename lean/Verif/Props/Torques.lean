import Verif.Props.Energy

/-!
# C106: how the torques of the chain solver depend on speeds, accelerations and forces

`mix c a b` is the vector on the line through `a` and `b`, at `a` for `c = 0` and at `b` for `c = 1`.
-/

namespace KD

open Vec3 KdlVectorConverter KdlSolver

namespace DynSolver

/-! ### Specification -/

/-- A vector on the line through two others. -/
def mix (c : ℝ) (a b : List ℝ) : List ℝ := List.zipWith (fun x y => (1 - c) * x + c * y) a b

/-- All the elements times a number. -/
def scaled (k : ℝ) (a : List ℝ) : List ℝ := a.map (k * ·)

/-- The sum over all point masses of the mass times the product of the velocities it has when the joints move
with the speeds `α` and with the speeds `δ`. For equal speeds it is twice the kinetic energy. -/
noncomputable def massProduct (c : Chain) (bodies : List (List MassPoint)) (q α δ : List ℝ) : ℝ :=
  ∑ i ∈ Finset.range bodies.length, ((bodies.getD i []).map fun p =>
    p.mass * dot (Vec3.rate (fun ε => c.placeAt (advance q α ε) 1 i p.place) 0)
      (Vec3.rate (fun ε => c.placeAt (advance q δ ε) 1 i p.place) 0)).sum

/-! ### Helpers -/

def mixT (c : ℝ) (a b : Twist) : Twist := (1 - c) • a + c • b

def mixW (c : ℝ) (a b : Wrench) : Wrench :=
  ⟨(1 - c) • a.force + c • b.force, (1 - c) • a.torque + c • b.torque⟩

theorem sweep_eq (s : Segment) (q qd qdd : ℝ) (v a : Twist) :
    Link.sweep s q qd qdd v a =
      ((s.pose q).invTwist v + qd • s.unit q, (s.pose q).invTwist a + qdd • s.unit q +
        ((s.pose q).invTwist v + qd • s.unit q).crossTwist (qd • s.unit q)) := by
  have e : Twist.rotate (s.pose q).M.transpose (s.twist q qd) = qd • s.unit q := by
    rw [Segment.twist_smul]
    ext <;> simp [Twist.rotate, Segment.unit] <;> ring
  unfold Link.sweep
  simp only [e]
  rfl

theorem sweep_speed (s : Segment) (q qd qdd r : ℝ) (v a : Twist) :
    (Link.sweep s q (r * qd) qdd (r • v) a).1 = r • (Link.sweep s q qd 0 v 0).1 := by
  simp only [sweep_eq, Frame.invTwist]
  ext <;> simp <;> ring

theorem sweep_acc (s : Segment) (q qd : ℝ) {c r₁ r₂ r₃ : ℝ} (hr : r₃ ^ 2 = (1 - c) * r₁ ^ 2 + c * r₂ ^ 2)
    (x y : ℝ) (v a b : Twist) :
    (Link.sweep s q (r₃ * qd) ((1 - c) * x + c * y) (r₃ • v) (mixT c a b)).2 =
      mixT c (Link.sweep s q (r₁ * qd) x (r₁ • v) a).2 (Link.sweep s q (r₂ * qd) y (r₂ • v) b).2 := by
  have hl : ∀ r : ℝ, (s.pose q).invTwist (r • v) + (r * qd) • s.unit q =
      r • ((s.pose q).invTwist v + qd • s.unit q) := by
    intro r
    simp only [Frame.invTwist]
    ext <;> simp <;> ring
  have hc : ∀ (r : ℝ) (V : Twist), (r • V).crossTwist ((r * qd) • s.unit q) = r ^ 2 • V.crossTwist (qd • s.unit q) := by
    intro r V
    simp only [Twist.crossTwist]
    ext <;> simp <;> ring
  simp only [sweep_eq, hl, hc, hr]
  generalize (((s.pose q).invTwist v + qd • s.unit q).crossTwist (qd • s.unit q)) = K
  simp only [mixT, Frame.invTwist]
  ext <;> simp <;> ring

theorem force_mix (i : Inertia) {c r₁ r₂ r₃ : ℝ} (hr : r₃ ^ 2 = (1 - c) * r₁ ^ 2 + c * r₂ ^ 2) (v a b : Twist)
    (e f : Wrench) :
    Link.force i (r₃ • v) (mixT c a b) (mixW c e f) =
      mixW c (Link.force i (r₁ • v) a e) (Link.force i (r₂ • v) b f) := by
  have hc : ∀ r : ℝ, (r • v).crossWrench (i.mul (r • v)) =
      ⟨r ^ 2 • (v.crossWrench (i.mul v)).force, r ^ 2 • (v.crossWrench (i.mul v)).torque⟩ := by
    intro r
    simp only [Twist.crossWrench, Inertia.mul]
    ext <;> simp <;> ring
  unfold Link.force
  simp only [hc, hr]
  generalize v.crossWrench (i.mul v) = K
  simp only [mixT, mixW, Inertia.mul]
  ext <;> simp <;> ring

theorem mixW_add (c : ℝ) (a b a' b' : Wrench) : mixW c a b + mixW c a' b' = mixW c (a + a') (b + b') := by
  ext <;> simp [mixW] <;> ring

theorem mixW_frame (c : ℝ) (f : Frame) (a b : Wrench) :
    f.mulWrench (mixW c a b) = mixW c (f.mulWrench a) (f.mulWrench b) := by
  ext <;> simp [mixW, Frame.mulWrench] <;> ring

theorem mixW_power (c : ℝ) (t : Twist) (a b : Wrench) :
    t.power (mixW c a b) = (1 - c) * t.power a + c * t.power b := by
  simp [mixW, Twist.power, dot]
  ring

/-- Both loops, for speeds in the proportion of `r₁`, `r₂` and `r₃`. -/
theorem rneLoop_mix {c r₁ r₂ r₃ : ℝ} (hr : r₃ ^ 2 = (1 - c) * r₁ ^ 2 + c * r₂ ^ 2) (links : List Link) :
    ∀ (qs qds α β : List ℝ) (es es' : List Wrench) (v a b : Twist) (ts ts' : List ℝ) (f f' : Wrench),
    rneLoop links qs (scaled r₁ qds) α es (r₁ • v) a = some (ts, f) →
    rneLoop links qs (scaled r₂ qds) β es' (r₂ • v) b = some (ts', f') →
    rneLoop links qs (scaled r₃ qds) (mix c α β) (List.zipWith (mixW c) es es') (r₃ • v) (mixT c a b) =
      some (mix c ts ts', mixW c f f') := by
  induction links with
  | nil =>
    intro qs qds α β es es' v a b ts ts' f f' h h'
    rcases qs with _ | ⟨q, qs⟩ <;> rcases qds with _ | ⟨qd, qds⟩ <;> rcases α with _ | ⟨x, α⟩ <;>
      rcases β with _ | ⟨y, β⟩ <;> rcases es with _ | ⟨e, es⟩ <;> rcases es' with _ | ⟨e', es'⟩ <;>
      simp [rneLoop, scaled] at h h'
    obtain ⟨rfl, rfl⟩ := h
    obtain ⟨rfl, rfl⟩ := h'
    simp only [scaled, mix, List.map_nil, List.zipWith_nil_left, rneLoop, Option.some.injEq, Prod.mk.injEq, true_and]
    ext <;> simp [mixW]
  | cons l links ih =>
    intro qs qds α β es es' v a b ts ts' f f' h h'
    rcases es with _ | ⟨e, es⟩
    · simp [rneLoop] at h
    rcases es' with _ | ⟨e', es'⟩
    · simp [rneLoop] at h'
    rw [List.zipWith_cons_cons]
    rw [rneLoop.eq_def] at h h' ⊢
    dsimp only at h h' ⊢
    by_cases hn : l.seg.joint.type ≠ .none
    · rw [if_pos hn] at h h' ⊢
      rcases qs with _ | ⟨q, qs⟩
      · simp at h
      rcases qds with _ | ⟨qd, qds⟩
      · simp [scaled] at h
      rcases α with _ | ⟨x, α⟩
      · simp [scaled] at h
      rcases β with _ | ⟨y, β⟩
      · simp [scaled] at h'
      have e3 : scaled r₃ (qd :: qds) = (r₃ * qd) :: scaled r₃ qds := rfl
      have e1 : scaled r₁ (qd :: qds) = (r₁ * qd) :: scaled r₁ qds := rfl
      have e2 : scaled r₂ (qd :: qds) = (r₂ * qd) :: scaled r₂ qds := rfl
      have em : mix c (x :: α) (y :: β) = ((1 - c) * x + c * y) :: mix c α β := rfl
      rw [e1] at h
      rw [e2] at h'
      rw [e3, em]
      dsimp only at h h' ⊢
      rw [sweep_speed] at h h' ⊢
      rw [sweep_acc l.seg q qd hr x y v a b]
      cases h1 : rneLoop links qs (scaled r₁ qds) α es (r₁ • (Link.sweep l.seg q qd 0 v 0).1)
          (Link.sweep l.seg q (r₁ * qd) x (r₁ • v) a).2 with
      | none => rw [h1] at h; simp at h
      | some p =>
        cases h2 : rneLoop links qs (scaled r₂ qds) β es' (r₂ • (Link.sweep l.seg q qd 0 v 0).1)
            (Link.sweep l.seg q (r₂ * qd) y (r₂ • v) b).2 with
        | none => rw [h2] at h'; simp at h'
        | some p' =>
          obtain ⟨t1, g1⟩ := p
          obtain ⟨t2, g2⟩ := p'
          rw [h1] at h
          rw [h2] at h'
          simp only [Option.bind_eq_bind, Option.bind_some, Option.pure_def, Option.some.injEq, Prod.mk.injEq] at h h'
          obtain ⟨rfl, rfl⟩ := h
          obtain ⟨rfl, rfl⟩ := h'
          rw [ih qs qds α β es es' _ _ _ _ _ _ _ h1 h2]
          simp only [Option.bind_eq_bind, Option.bind_some, Option.pure_def, Option.some.injEq, Prod.mk.injEq]
          rw [force_mix l.inertia hr, mixW_add, mixW_frame]
          refine ⟨?_, rfl⟩
          rw [mixW_power]
          rfl
    · rw [if_neg hn] at h h' ⊢
      have z1 : ∀ (r : ℝ) (w : Twist), (Link.sweep l.seg 0 0 0 (r • v) w).1 = r • (Link.sweep l.seg 0 0 0 v 0).1 := by
        intro r w
        have := sweep_speed l.seg 0 0 0 r v w
        rwa [mul_zero] at this
      have z2 := sweep_acc l.seg 0 0 hr 0 0 v a b
      simp only [mul_zero, add_zero] at z2
      rw [z1] at h h' ⊢
      rw [z2]
      cases h1 : rneLoop links qs (scaled r₁ qds) α es (r₁ • (Link.sweep l.seg 0 0 0 v 0).1)
          (Link.sweep l.seg 0 0 0 (r₁ • v) a).2 with
      | none => rw [h1] at h; simp at h
      | some p =>
        cases h2 : rneLoop links qs (scaled r₂ qds) β es' (r₂ • (Link.sweep l.seg 0 0 0 v 0).1)
            (Link.sweep l.seg 0 0 0 (r₂ • v) b).2 with
        | none => rw [h2] at h'; simp at h'
        | some p' =>
          obtain ⟨t1, g1⟩ := p
          obtain ⟨t2, g2⟩ := p'
          rw [h1] at h
          rw [h2] at h'
          simp only [Option.bind_eq_bind, Option.bind_some, Option.pure_def, Option.some.injEq, Prod.mk.injEq] at h h'
          obtain ⟨rfl, rfl⟩ := h
          obtain ⟨rfl, rfl⟩ := h'
          rw [ih qs qds α β es es' _ _ _ _ _ _ _ h1 h2]
          simp only [Option.bind_eq_bind, Option.bind_some, Option.pure_def, Option.some.injEq, Prod.mk.injEq]
          rw [force_mix l.inertia hr, mixW_add, mixW_frame]
          exact ⟨trivial, rfl⟩

theorem rne_mix {c r₁ r₂ r₃ : ℝ} (hr : r₃ ^ 2 = (1 - c) * r₁ ^ 2 + c * r₂ ^ 2) {links : List Link} {g : Vec3}
    {qs qds α β : List ℝ} {es es' : List Wrench} {τ τ' : List ℝ}
    (h : rne links g qs (scaled r₁ qds) α es = some τ) (h' : rne links g qs (scaled r₂ qds) β es' = some τ') :
    rne links g qs (scaled r₃ qds) (mix c α β) (List.zipWith (mixW c) es es') = some (mix c τ τ') := by
  unfold rne at h h' ⊢
  obtain ⟨⟨t, f⟩, h1, rfl⟩ := Option.map_eq_some_iff.mp h
  obtain ⟨⟨t', f'⟩, h2, rfl⟩ := Option.map_eq_some_iff.mp h'
  have z : ∀ r : ℝ, r • (0 : Twist) = 0 := fun r => by ext <;> simp
  have := rneLoop_mix hr links qs qds α β es es' 0 ⟨-g, 0⟩ ⟨-g, 0⟩ t t' f f' (by rwa [z]) (by rwa [z])
  have e : mixT c ⟨-g, 0⟩ ⟨-g, 0⟩ = ⟨-g, 0⟩ := by ext <;> simp [mixT] <;> ring
  rw [z, e] at this
  rw [this]
  rfl

/-- How the wrench of a frame is turned into the axes of the last segment. -/
noncomputable def toTip (s : DynSolver) (qr : List ℝ) : SolverFrame → Option Mat3
  | .base => (s.chain.fk qr).map (·.M.transpose)
  | .tcp => some 1
  | .other => none

theorem rotate_one (w : Wrench) : Wrench.rotate 1 w = w := by
  ext <;> simp [Wrench.rotate]

theorem invDyn_iff {s : DynSolver} {q qd qdd F : List ℝ} {fr : SolverFrame} {τ : List ℝ} :
    s.invDyn q qd qdd F fr = some (some τ) ↔
      s.chain.nJoints ≤ q.length ∧ s.chain.nJoints ≤ qd.length ∧ s.chain.nJoints ≤ qdd.length ∧ s.links ≠ [] ∧
      ∃ R, s.toTip ((q.take s.chain.nJoints).map (· * deg2rad)) fr = some R ∧
        rne s.links s.gravity ((q.take s.chain.nJoints).map (· * deg2rad))
          ((qd.take s.chain.nJoints).map (· * deg2rad)) ((qdd.take s.chain.nJoints).map (· * deg2rad))
          (List.replicate (s.links.length - 1) 0 ++ [Wrench.rotate R (vectorToWrench F)]) = some τ := by
  unfold invDyn toRadians
  dsimp only
  by_cases h1 : s.chain.nJoints ≤ q.length
  · by_cases h2 : s.chain.nJoints ≤ qd.length
    · by_cases h3 : s.chain.nJoints ≤ qdd.length
      · simp only [h1, h2, h3, true_and, Option.bind_eq_bind]
        by_cases hl : s.links = []
        · cases fr <;> simp [wrenches, hl]
        · have he : s.links.isEmpty = false := by simpa using hl
          cases fr with
          | base =>
            simp only [toTip, wrenches, he]
            generalize (q.take s.chain.nJoints).map (· * deg2rad) = qr
            cases hfk : s.chain.fk qr with
            | none => simp [hfk]
            | some f => simp [hfk, hl]
          | tcp => simp [toTip, wrenches, he, hl, rotate_one]
          | other => simp [toTip]
      · simp [h1, h2, h3]
    · simp [h1, h2]
  · simp [h1]

theorem wrenches_mix (c : ℝ) (n : ℕ) (e e' : Wrench) :
    List.zipWith (mixW c) (List.replicate n 0 ++ [e]) (List.replicate n 0 ++ [e']) =
      List.replicate n 0 ++ [mixW c e e'] := by
  induction n with
  | zero => rfl
  | succ n ih =>
    simp only [List.replicate_succ, List.cons_append, List.zipWith_cons_cons, ih, List.cons.injEq, and_true]
    ext <;> simp [mixW]

theorem mix_radians (c : ℝ) (n : ℕ) : ∀ a b : List ℝ,
    ((mix c a b).take n).map (· * deg2rad) = mix c ((a.take n).map (· * deg2rad)) ((b.take n).map (· * deg2rad)) := by
  induction n with
  | zero => intro a b; simp [mix]
  | succ n ih =>
    intro a b
    rcases a with _ | ⟨x, a⟩
    · simp [mix]
    rcases b with _ | ⟨y, b⟩
    · simp [mix]
    have := ih a b
    simp only [mix] at this
    simp only [mix, List.zipWith_cons_cons, List.take_succ_cons, List.map_cons, this, List.cons.injEq, and_true]
    ring

theorem scaled_one (a : List ℝ) : scaled 1 a = a := by simp [scaled]

theorem scaled_radians (k : ℝ) (n : ℕ) (a : List ℝ) :
    ((scaled k a).take n).map (· * deg2rad) = scaled k ((a.take n).map (· * deg2rad)) := by
  simp only [scaled, ← List.map_take, List.map_map]
  refine List.map_congr_left fun x _ => ?_
  simp only [Function.comp]
  ring

theorem wrench_mix {c : ℝ} {F F' : List ℝ} (hF : F.length = 6) (hF' : F'.length = 6) (R : Mat3) :
    Wrench.rotate R (vectorToWrench (mix c F F')) =
      mixW c (Wrench.rotate R (vectorToWrench F)) (Wrench.rotate R (vectorToWrench F')) := by
  rcases F with _ | ⟨a1, _ | ⟨a2, _ | ⟨a3, _ | ⟨a4, _ | ⟨a5, _ | ⟨a6, _ | ⟨a7, F⟩⟩⟩⟩⟩⟩⟩ <;> simp at hF
  rcases F' with _ | ⟨b1, _ | ⟨b2, _ | ⟨b3, _ | ⟨b4, _ | ⟨b5, _ | ⟨b6, _ | ⟨b7, F'⟩⟩⟩⟩⟩⟩⟩ <;> simp at hF'
  simp only [mix, List.zipWith_cons_cons, List.zipWith_nil_left, vectorToWrench, mixW, Wrench.rotate]
  ext <;> simp <;> ring

theorem mix_zero_left (c : ℝ) : ∀ (n : ℕ) (a : List ℝ), a.length = n → mix c (List.replicate n 0) a = scaled c a
  | 0, [], _ => rfl
  | n + 1, x :: a, h => by
    have := mix_zero_left c n a (by simpa using h)
    simp only [mix, scaled] at this
    simp [mix, scaled, List.replicate_succ, this]
  | 0, _ :: _, h => by simp at h
  | _ + 1, [], h => by simp at h

/-! ### C106 -/

/-- C106: accelerations and forces add up. At given joints and speeds, if the solver answers two requests, it
answers any request on the line through them, with the torques on the line through both answers. -/
theorem C106_superposition {s : DynSolver} {q qdot α β F F' τ τ' : List ℝ} {fr : SolverFrame} (hF : F.length = 6)
    (hF' : F'.length = 6) (h : s.invDyn q qdot α F fr = some (some τ)) (h' : s.invDyn q qdot β F' fr = some (some τ'))
    (c : ℝ) : s.invDyn q qdot (mix c α β) (mix c F F') fr = some (some (mix c τ τ')) := by
  obtain ⟨h1, h2, h3, h4, R, h5, h6⟩ := invDyn_iff.mp h
  obtain ⟨-, -, k3, -, R', k5, k6⟩ := invDyn_iff.mp h'
  obtain rfl : R = R' := Option.some.inj (h5.symm.trans k5)
  refine invDyn_iff.mpr ⟨h1, h2, by simp [mix, h3, k3], h4, R, h5, ?_⟩
  rw [mix_radians, wrench_mix hF hF', ← wrenches_mix]
  have := rne_mix (c := c) (r₁ := 1) (r₂ := 1) (r₃ := 1) (by ring) (by rw [scaled_one]; exact h6)
    (by rw [scaled_one]; exact k6)
  rwa [scaled_one] at this

/-- C106: a motion played `k` times faster (speeds times `k`, accelerations and forces on the tip times `k²`)
needs, beyond the torques that hold the robot, `k²` times the torques. -/
theorem C106_faster {s : DynSolver} {q qdot α F τ₀ τ : List ℝ} {fr : SolverFrame} (hF : F.length = 6)
    (h₀ : s.invDynStatic q = some (some τ₀)) (h : s.invDyn q qdot α F fr = some (some τ)) (k : ℝ) :
    s.invDyn q (scaled k qdot) (scaled (k ^ 2) α) (scaled (k ^ 2) F) fr = some (some (mix (k ^ 2) τ₀ τ)) := by
  obtain ⟨h1, h2, h3, h4, R, h5, h6⟩ := invDyn_iff.mp h
  have hn : s.links.length = s.links.length - 1 + 1 := by
    have := List.length_pos_iff.mpr h4
    omega
  unfold invDynStatic at h₀
  dsimp only at h₀
  rw [toRadians_some h1] at h₀
  simp only [Option.bind_eq_bind, Option.bind_some, Option.pure_def, Option.some.injEq] at h₀
  rw [hn, List.replicate_succ'] at h₀
  have hz : ∀ a : List ℝ, s.chain.nJoints ≤ a.length →
      scaled 0 ((a.take s.chain.nJoints).map (· * deg2rad)) = List.replicate s.chain.nJoints 0 := by
    intro a ha
    simp [scaled, List.map_const', ha, Function.comp_def]
  refine invDyn_iff.mpr ⟨h1, by simpa [scaled] using h2, by simpa [scaled] using h3, h4, R, h5, ?_⟩
  have := rne_mix (c := k ^ 2) (r₁ := 0) (r₂ := 1) (r₃ := k) (by ring)
    (qds := (qdot.take s.chain.nJoints).map (· * deg2rad)) (by rw [hz _ h2]; exact h₀) (by rw [scaled_one]; exact h6)
  rw [mix_zero_left _ _ _ (by simp [h3]), wrenches_mix] at this
  rw [scaled_radians, scaled_radians]
  have e : mixW (k ^ 2) 0 (Wrench.rotate R (vectorToWrench F)) = Wrench.rotate R (vectorToWrench (scaled (k ^ 2) F)) := by
    rw [← mix_zero_left (k ^ 2) 6 F hF, wrench_mix (by simp) hF]
    congr 1
    ext <;> simp [List.replicate, vectorToWrench, Wrench.rotate]
  rwa [e] at this

/-- The motion of a joint that starts from rest. -/
noncomputable def start (q a : ℝ) : JointMotion where
  pos t := q + a * (t ^ 2 / 2)
  vel t := a * t
  acc _ := a
  pos_rate t := by
    refine ((((hasDerivAt_pow 2 t).div_const 2).const_mul a).const_add q).congr_deriv ?_
    push_cast
    ring
  vel_rate t := by simpa using (hasDerivAt_id t).const_mul a

/-- A chain that starts from rest: the accelerations are the velocities of the virtual displacement that
follows the accelerations of the joints. -/
theorem poses_start (c : Chain) : ∀ (q α : List ℝ) (F Y : ℝ → Frame) (v : ℝ → Twist) (a : Twist),
    c.Wf → q.length = c.nJoints → α.length = c.nJoints → (∀ s, Frame.BodyMoves F (v s) s) → (∀ s, (F s).IsRigid) →
    Twist.HasRate v a 0 → v 0 = 0 → Frame.BodyMoves Y a 0 → Y 0 = F 0 → ∀ i, i < c.length →
    ∃ (vi : ℝ → Twist) (ai : Twist),
      (∀ s, Frame.BodyMoves (fun u => ((Chain.poses c ((List.zipWith start q α).map (·.pos u)) (F u))[i]?.getD 1)) (vi s) s) ∧
      Twist.HasRate vi ai 0 ∧ vi 0 = 0 ∧
      Frame.BodyMoves (fun ε => ((Chain.poses c (advance q α ε) (Y ε))[i]?.getD 1)) ai 0 := by
  have hz : ∀ (s : Segment) (x y : ℝ) (b : Twist), (Link.sweep s x 0 y 0 b).1 = 0 := by
    intro s x y b
    rw [sweep_eq]
    ext <;> simp [Frame.invTwist]
  have hsw : ∀ (s : Segment) (x y : ℝ) (b : Twist), (Link.sweep s x y 0 b 0).1 = (Link.sweep s x 0 y 0 b).2 := by
    intro s x y b
    simp only [sweep_eq, Twist.crossTwist]
    ext <;> simp
  induction c with
  | nil => intro q α F Y v a _ _ _ _ _ _ _ _ _ i hi; simp at hi
  | cons s c ih =>
    intro q α F Y v a hw hq hα hF hf ha hv hY hYF i hi
    have hs : s.Wf := hw s (by simp)
    have hc : Chain.Wf c := fun x hx => hw x (by simp [hx])
    rw [Chain.nJoints_cons] at hq hα
    by_cases hn : s.joint.type ≠ .none
    · rw [if_pos hn] at hq hα
      obtain ⟨x, q, rfl⟩ := List.exists_cons_of_length_eq_add_one (hq.trans (Nat.add_comm _ _))
      obtain ⟨y, α, rfl⟩ := List.exists_cons_of_length_eq_add_one (hα.trans (Nat.add_comm _ _))
      have hF' : ∀ u, Frame.BodyMoves (fun u => F u * s.pose ((start x y).pos u))
          (Link.sweep s ((start x y).pos u) ((start x y).vel u) 0 (v u) 0).1 u := fun u =>
        sweep_moves hs ((start x y).pos_rate u) (hF u) (hf u)
      have hf' : ∀ u, (F u * s.pose ((start x y).pos u)).IsRigid := fun u => (hf u).mul (hs.pose_rigid _)
      have ha' := sweep_rate hs ((start x y).pos_rate 0) ((start x y).vel_rate 0) ha
      have e0 : (start x y).pos 0 = x := by simp [start]
      have e1 : (start x y).vel 0 = 0 := by simp [start]
      have hv' : (Link.sweep s ((start x y).pos 0) ((start x y).vel 0) 0 (v 0) 0).1 = 0 := by
        rw [hv, e1]
        exact hz _ _ _ _
      have hlin : HasDerivAt (fun ε => x + ε * y) y 0 := by
        simpa using ((hasDerivAt_id (0 : ℝ)).mul_const y).const_add x
      have hY' : Frame.BodyMoves (fun ε => Y ε * s.pose (x + ε * y))
          (Link.sweep s ((start x y).pos 0) ((start x y).vel 0) ((start x y).acc 0) (v 0) a).2 0 := by
        have := sweep_moves (qdd := 0) (a := 0) hs hlin hY (by rw [hYF]; exact hf 0)
        rw [hv, e0, e1, show (start x y).acc 0 = y from rfl, ← hsw]
        simpa using this
      have hYF' : (fun ε => Y ε * s.pose (x + ε * y)) 0 = F 0 * s.pose ((start x y).pos 0) := by
        simp [hYF, e0]
      cases i with
      | zero =>
        refine ⟨_, _, fun u => ?_, ha', hv', ?_⟩
        · simpa [Chain.poses, hn] using hF' u
        · simpa [advance, Chain.poses, hn] using hY'
      | succ i =>
        obtain ⟨vi, ai, g1, g2, g3, g4⟩ := ih q α _ _ _ _ hc (by simp at hq; omega) (by simp at hα; omega) hF' hf' ha'
          hv' hY' hYF' i (by simpa using hi)
        refine ⟨vi, ai, fun u => ?_, g2, g3, ?_⟩
        · simpa [Chain.poses, hn] using g1 u
        · simpa [advance, Chain.poses, hn] using g4
    · rw [if_neg hn] at hq hα
      have hc0 : ∀ u : ℝ, HasDerivAt (fun _ : ℝ => (0 : ℝ)) 0 u := fun u => hasDerivAt_const u 0
      have hF' : ∀ u, Frame.BodyMoves (fun u => F u * s.pose 0) (Link.sweep s 0 0 0 (v u) 0).1 u := fun u =>
        sweep_moves hs (hc0 u) (hF u) (hf u)
      have hf' : ∀ u, (F u * s.pose 0).IsRigid := fun u => (hf u).mul (hs.pose_rigid _)
      have ha' := sweep_rate hs (q := fun _ => 0) (qd := fun _ => 0) (hc0 0) (hc0 0) ha
      have hv' : (Link.sweep s 0 0 0 (v 0) 0).1 = 0 := by
        rw [hv]
        exact hz _ _ _ _
      have hY' : Frame.BodyMoves (fun ε => Y ε * s.pose 0) (Link.sweep s 0 0 0 (v 0) a).2 0 := by
        rw [hv, ← hsw]
        exact sweep_moves hs (hc0 0) hY (by rw [hYF]; exact hf 0)
      have hYF' : (fun ε => Y ε * s.pose 0) 0 = F 0 * s.pose 0 := by simp [hYF]
      cases i with
      | zero =>
        refine ⟨_, _, fun u => ?_, ha', hv', ?_⟩
        · simpa [Chain.poses, hn] using hF' u
        · simpa [Chain.poses, hn] using hY'
      | succ i =>
        obtain ⟨vi, ai, g1, g2, g3, g4⟩ := ih q α _ _ _ _ hc (by omega) (by omega) hF' hf' ha' hv' hY' hYF' i
          (by simpa using hi)
        refine ⟨vi, ai, fun u => ?_, g2, g3, ?_⟩
        · simpa [Chain.poses, hn] using g1 u
        · simpa [Chain.poses, hn] using g4

theorem start_pos : ∀ (q α : List ℝ), q.length = α.length → (List.zipWith start q α).map (·.pos 0) = q
  | [], [], _ => rfl
  | x :: q, y :: α, h => by
    simp only [List.zipWith_cons_cons, List.map_cons, start_pos q α (by simpa using h)]
    simp [start]
  | [], _ :: _, h => by simp at h
  | _ :: _, [], h => by simp at h

theorem start_acc : ∀ (q α : List ℝ), q.length = α.length → (List.zipWith start q α).map (·.acc 0) = α
  | [], [], _ => rfl
  | x :: q, y :: α, h => by
    simp only [List.zipWith_cons_cons, List.map_cons, start_acc q α (by simpa using h)]
    simp [start]
  | [], _ :: _, h => by simp at h
  | _ :: _, [], h => by simp at h

theorem start_vel : ∀ (q α : List ℝ), q.length = α.length →
    (List.zipWith start q α).map (·.vel 0) = List.replicate q.length 0
  | [], [], _ => rfl
  | x :: q, y :: α, h => by
    simp only [List.zipWith_cons_cons, List.map_cons, start_vel q α (by simpa using h), List.length_cons,
      List.replicate_succ]
    simp [start]
  | [], _ :: _, h => by simp at h
  | _ :: _, [], h => by simp at h

theorem place_start {c : Chain} (hc : c.Wf) (q α : List ℝ) (hq : q.length = c.nJoints) (hα : α.length = c.nJoints)
    {i : ℕ} (hi : i < c.length) (r : Vec3) :
    Vec3.rate (Vec3.rate fun u => c.placeAt ((List.zipWith start q α).map (·.pos u)) 1 i r) 0 =
      Vec3.rate (fun ε => c.placeAt (advance q α ε) 1 i r) 0 := by
  have h0 : Twist.HasRate (fun _ : ℝ => (0 : Twist)) 0 0 := ⟨Vec3.HasRate.const 0 0, Vec3.HasRate.const 0 0⟩
  obtain ⟨vi, ai, g1, g2, g3, g4⟩ := poses_start c q α (fun _ => 1) (fun _ => 1) (fun _ => 0) 0 hc hq hα
    (fun u => BodyMoves_const 1 u) (fun _ => Frame.IsRigid.one) h0 rfl (BodyMoves_const 1 0) rfl i hi
  have hr : ∀ q, ((c.poses q 1)[i]?.getD 1).IsRigid := fun q => pose_getD_rigid hc q i
  have e0 := start_pos q α (hq.trans hα.symm)
  refine (Frame.BodyMoves.place_acc g1 (fun s => hr _) g2 r).trans ?_
  refine Eq.trans ?_ (g4.place (hr _) r).rate.symm
  rw [advance_zero _ _ (hα.trans hq.symm), g3, e0]
  congr 1
  ext <;> simp

/-- The work of gravity along a virtual displacement. -/
noncomputable def weightWork (c : Chain) (bodies : List (List MassPoint)) (g : Vec3) (q δ : List ℝ) : ℝ :=
  ∑ i ∈ Finset.range bodies.length, ((bodies.getD i []).map fun p =>
    p.mass * dot g (Vec3.rate (fun ε => c.placeAt (advance q δ ε) 1 i p.place) 0)).sum

theorem newton_start {c : Chain} (hc : c.Wf) (bodies : List (List MassPoint)) (hb : bodies.length = c.length) (g : Vec3)
    (q α δ : List ℝ) (hq : q.length = c.nJoints) (hα : α.length = c.nJoints) :
    newtonWork c bodies g (fun u => (List.zipWith start q α).map (·.pos u)) (advance q δ) (fun _ => 1) (fun _ => 1) 0 =
      massProduct c bodies q α δ - weightWork c bodies g q δ := by
  unfold newtonWork massProduct weightWork
  rw [← Finset.sum_sub_distrib]
  refine Finset.sum_congr rfl fun i hi => ?_
  have hi' : i < c.length := by rw [← hb]; exact Finset.mem_range.mp hi
  have hp := place_start hc q α hq hα hi'
  generalize bodies.getD i [] = pts
  induction pts with
  | nil => simp
  | cons p pts ih =>
    simp only [List.map_cons, List.sum_cons, hp] at ih ⊢
    rw [ih]
    simp only [dot, sub_x, sub_y, sub_z]
    ring

/-- The torques at the start of a motion. -/
theorem start_work {s : DynSolver} {bodies : List (List MassPoint)} (hs : s.Describes bodies) (hne : s.links ≠ [])
    (q α : List ℝ) (hq : q.length = s.chain.nJoints) (hα : α.length = s.chain.nJoints) {fr : SolverFrame}
    (hfr : fr ≠ .other) :
    ∃ τ, s.invDyn (q.map (· * rad2deg)) (List.replicate s.chain.nJoints 0) (α.map (· * rad2deg)) [0, 0, 0, 0, 0, 0] fr =
        some (some τ) ∧ τ.length = s.chain.nJoints ∧
      ∀ δ, δ.length = s.chain.nJoints → powerOf τ δ =
        massProduct s.chain bodies q α δ - weightWork s.chain bodies s.gravity q δ := by
  have hl : q.length = α.length := hq.trans hα.symm
  have hm : (List.zipWith start q α).length = s.chain.nJoints := by simp [hq, hα]
  have e0 : ((List.zipWith start q α).map fun m => m.pos 0 * rad2deg) = q.map (· * rad2deg) := by
    have := congrArg (List.map (· * rad2deg)) (start_pos q α hl)
    rwa [List.map_map] at this
  have e1 : ((List.zipWith start q α).map fun m => m.vel 0 * rad2deg) = List.replicate s.chain.nJoints 0 := by
    have := congrArg (List.map (· * rad2deg)) (start_vel q α hl)
    rw [List.map_map, List.map_replicate, zero_mul, hq] at this
    exact this
  have e2 : ((List.zipWith start q α).map fun m => m.acc 0 * rad2deg) = α.map (· * rad2deg) := by
    have := congrArg (List.map (· * rad2deg)) (start_acc q α hl)
    rwa [List.map_map] at this
  have key := fun δ => newton_start hs.wf bodies hs.length s.gravity q α δ hq hα
  cases fr with
  | other => exact absurd rfl hfr
  | base =>
    obtain ⟨τ, h1, h2, h3⟩ := C74_newton_base hs hne _ hm 0 0 0 0 0 0 0
    rw [e0, e1, e2] at h1
    refine ⟨τ, h1, h2.trans hm, fun δ hδ => ?_⟩
    obtain ⟨tip, W, -, -, g⟩ := h3 δ (hδ.trans hm.symm)
    rw [start_pos q α hl, key δ] at g
    unfold powerOf
    rw [g]
    simp [dot]
  | tcp =>
    obtain ⟨τ, h1, h2, h3⟩ := C74_newton_tcp hs hne _ hm 0 0 0 0 0 0 0
    rw [e0, e1, e2] at h1
    refine ⟨τ, h1, h2.trans hm, fun δ hδ => ?_⟩
    obtain ⟨tip, W, -, -, g⟩ := h3 δ (hδ.trans hm.symm)
    rw [start_pos q α hl, key δ] at g
    unfold powerOf
    rw [g]
    simp [dot, Mat3.mulVec]

theorem static_of_rest {s : DynSolver} {q τ : List ℝ} {fr : SolverFrame}
    (h : s.invDyn q (List.replicate s.chain.nJoints 0) (List.replicate s.chain.nJoints 0) [0, 0, 0, 0, 0, 0] fr =
      some (some τ)) : s.invDynStatic q = some (some τ) := by
  obtain ⟨h1, -, -, h4, R, -, h6⟩ := invDyn_iff.mp h
  have hn : s.links.length = s.links.length - 1 + 1 := by
    have := List.length_pos_iff.mpr h4
    omega
  have hw : Wrench.rotate R (vectorToWrench [0, 0, 0, 0, 0, 0]) = 0 := by
    ext <;> simp [vectorToWrench, Wrench.rotate]
  unfold invDynStatic
  dsimp only
  rw [toRadians_some h1]
  simp only [Option.bind_eq_bind, Option.bind_some, Option.pure_def, Option.some.injEq]
  rw [hn, List.replicate_succ']
  rw [hw] at h6
  simpa using h6

theorem advance_still (q : List ℝ) (ε : ℝ) : advance q (List.replicate q.length 0) ε = q := by
  induction q with
  | nil => rfl
  | cons x q ih =>
    simp only [advance] at ih
    simp [advance, List.replicate_succ, ih]

theorem massProduct_still (c : Chain) (bodies : List (List MassPoint)) (q δ : List ℝ) :
    massProduct c bodies q (List.replicate q.length 0) δ = 0 := by
  refine Finset.sum_eq_zero fun i hi => List.sum_eq_zero fun y hy => ?_
  obtain ⟨p, -, rfl⟩ := List.mem_map.mp hy
  simp only [advance_still]
  rw [(Vec3.HasRate.const _ 0).rate]
  simp [dot]

/-- C106: what starting to move takes, beyond holding the robot, is the inertia of its masses. For a robot at
rest and any accelerations of the joints, the work of the additional torques along any displacement of the
joints is the sum over the masses of the mass times the product of both velocities. -/
theorem C106_inertia {s : DynSolver} {bodies : List (List MassPoint)} (hs : s.Describes bodies) (hne : s.links ≠ [])
    (q α : List ℝ) (hq : q.length = s.chain.nJoints) (hα : α.length = s.chain.nJoints) {fr : SolverFrame}
    (hfr : fr ≠ .other) :
    ∃ τ₀ τ, s.invDynStatic (q.map (· * rad2deg)) = some (some τ₀) ∧
      s.invDyn (q.map (· * rad2deg)) (List.replicate s.chain.nJoints 0) (α.map (· * rad2deg)) [0, 0, 0, 0, 0, 0] fr =
        some (some τ) ∧
      ∀ δ, δ.length = s.chain.nJoints → powerOf τ δ - powerOf τ₀ δ = massProduct s.chain bodies q α δ := by
  obtain ⟨τ, h1, h2, h3⟩ := start_work hs hne q α hq hα hfr
  obtain ⟨τ₀, k1, k2, k3⟩ := start_work hs hne q (List.replicate q.length 0) hq (by simp [hq]) hfr
  refine ⟨τ₀, τ, ?_, h1, fun δ hδ => ?_⟩
  · refine static_of_rest (fr := fr) ?_
    rw [← k1, List.map_replicate, zero_mul, hq]
  · rw [h3 δ hδ, k3 δ hδ, massProduct_still]
    ring

/-- C106: joints act on each other alike. The work, along `β`, of the torques that the accelerations `α` take,
is the work, along `α`, of those that `β` take. -/
theorem C106_symmetric {s : DynSolver} {bodies : List (List MassPoint)} (hs : s.Describes bodies) (hne : s.links ≠ [])
    (q α β : List ℝ) (hq : q.length = s.chain.nJoints) (hα : α.length = s.chain.nJoints)
    (hβ : β.length = s.chain.nJoints) {fr : SolverFrame} (hfr : fr ≠ .other) :
    ∃ τ₀ τ τ', s.invDynStatic (q.map (· * rad2deg)) = some (some τ₀) ∧
      s.invDyn (q.map (· * rad2deg)) (List.replicate s.chain.nJoints 0) (α.map (· * rad2deg)) [0, 0, 0, 0, 0, 0] fr =
        some (some τ) ∧
      s.invDyn (q.map (· * rad2deg)) (List.replicate s.chain.nJoints 0) (β.map (· * rad2deg)) [0, 0, 0, 0, 0, 0] fr =
        some (some τ') ∧
      powerOf τ β - powerOf τ₀ β = powerOf τ' α - powerOf τ₀ α := by
  obtain ⟨τ₀, τ, h0, h1, h2⟩ := C106_inertia hs hne q α hq hα hfr
  obtain ⟨τ₀', τ', k0, k1, k2⟩ := C106_inertia hs hne q β hq hβ hfr
  obtain rfl : τ₀ = τ₀' := Option.some.inj (Option.some.inj (h0.symm.trans k0))
  refine ⟨τ₀, τ, τ', h0, h1, k1, ?_⟩
  rw [h2 β hβ, k2 α hα]
  unfold massProduct
  refine Finset.sum_congr rfl fun i _ => ?_
  congr 1
  refine List.map_congr_left fun p _ => ?_
  simp only [dot]
  ring

/-- C106: torques push the way the joints accelerate. Starting to move takes work, beyond holding the robot:
never negative, and none only if no mass moves. -/
theorem C106_positive {s : DynSolver} {bodies : List (List MassPoint)} (hs : s.Describes bodies)
    (hp : ∀ b ∈ bodies, ∀ p ∈ b, 0 < p.mass) (hne : s.links ≠ [])
    (q α : List ℝ) (hq : q.length = s.chain.nJoints) (hα : α.length = s.chain.nJoints) {fr : SolverFrame}
    (hfr : fr ≠ .other) :
    ∃ τ₀ τ, s.invDynStatic (q.map (· * rad2deg)) = some (some τ₀) ∧
      s.invDyn (q.map (· * rad2deg)) (List.replicate s.chain.nJoints 0) (α.map (· * rad2deg)) [0, 0, 0, 0, 0, 0] fr =
        some (some τ) ∧
      0 ≤ powerOf τ α - powerOf τ₀ α ∧
      (powerOf τ α = powerOf τ₀ α → ∀ (i : ℕ) (b : List MassPoint) (p : MassPoint), bodies[i]? = some b → p ∈ b →
        Vec3.rate (fun ε => s.chain.placeAt (advance q α ε) 1 i p.place) 0 = 0) := by
  obtain ⟨τ₀, τ, h0, h1, h2⟩ := C106_inertia hs hne q α hq hα hfr
  have hsq : ∀ v : Vec3, 0 ≤ dot v v := fun v => by
    unfold dot
    nlinarith [mul_self_nonneg v.x, mul_self_nonneg v.y, mul_self_nonneg v.z]
  have hterm : ∀ i ∈ Finset.range bodies.length, ∀ y ∈ ((bodies.getD i []).map fun p =>
      p.mass * dot (Vec3.rate (fun ε => s.chain.placeAt (advance q α ε) 1 i p.place) 0)
        (Vec3.rate (fun ε => s.chain.placeAt (advance q α ε) 1 i p.place) 0)), 0 ≤ y := by
    intro i hi y hy
    obtain ⟨p, hpm, rfl⟩ := List.mem_map.mp hy
    have hi' := Finset.mem_range.mp hi
    rw [List.getD_eq_getElem?_getD, List.getElem?_eq_getElem hi', Option.getD_some] at hpm
    exact mul_nonneg (hp _ (List.getElem_mem hi') p hpm).le (hsq _)
  have hsum := fun i hi => List.sum_nonneg (hterm i hi)
  refine ⟨τ₀, τ, h0, h1, ?_, fun h i b p hb hpb => ?_⟩
  · rw [h2 α hα]
    exact Finset.sum_nonneg hsum
  · have hz : massProduct s.chain bodies q α α = 0 := by
      rw [← h2 α hα, h, sub_self]
    have hi : i < bodies.length := by
      by_contra hc
      rw [List.getElem?_eq_none (by omega)] at hb
      cases hb
    have hzi := (Finset.sum_eq_zero_iff_of_nonneg hsum).mp hz i (Finset.mem_range.mpr hi)
    have hbi : bodies.getD i [] = b := by
      rw [List.getD_eq_getElem?_getD, hb]
      rfl
    have hle := List.single_le_sum (hterm i (Finset.mem_range.mpr hi)) _
      (List.mem_map.mpr ⟨p, by rw [hbi]; exact hpb, rfl⟩)
    rw [hzi] at hle
    have hm := hp b (List.mem_of_getElem? hb) p hpb
    have hd : dot (Vec3.rate (fun ε => s.chain.placeAt (advance q α ε) 1 i p.place) 0)
        (Vec3.rate (fun ε => s.chain.placeAt (advance q α ε) 1 i p.place) 0) ≤ 0 := by
      by_contra hc
      have := mul_pos hm (not_le.mp hc)
      linarith
    generalize Vec3.rate (fun ε => s.chain.placeAt (advance q α ε) 1 i p.place) 0 = v at hd
    unfold dot at hd
    have hx : v.x = 0 := by nlinarith [mul_self_nonneg v.x, mul_self_nonneg v.y, mul_self_nonneg v.z]
    have hy : v.y = 0 := by nlinarith [mul_self_nonneg v.x, mul_self_nonneg v.y, mul_self_nonneg v.z]
    have hz : v.z = 0 := by nlinarith [mul_self_nonneg v.x, mul_self_nonneg v.y, mul_self_nonneg v.z]
    exact Vec3.ext hx hy hz

/-- The pendulum of C74 meets the hypotheses. -/
example : pendulum.Describes [[⟨2, ⟨1, 0, 0⟩⟩]] ∧ (∀ b ∈ [[(⟨2, ⟨1, 0, 0⟩⟩ : MassPoint)]], ∀ p ∈ b, 0 < p.mass) ∧
    pendulum.links ≠ [] ∧ [(0 : ℝ)].length = pendulum.chain.nJoints ∧ [(3 : ℝ)].length = pendulum.chain.nJoints :=
  ⟨pendulum_describes, by simp, by simp [pendulum], rfl, rfl⟩

/-- It also does those of the first two: it is at rest with a torque of -19.62, and takes 6 more to start with 3
radians per second squared; so played twice as fast it takes 24 more. -/
example : pendulum.invDynStatic [0] = some (some [-19.62]) ∧
    pendulum.invDyn [0] [0] [3 * rad2deg] [0, 0, 0, 0, 0, 0] .base = some (some [6 - 19.62]) ∧
    pendulum.invDyn [0] (scaled 2 [0]) (scaled (2 ^ 2) [3 * rad2deg]) (scaled (2 ^ 2) [0, 0, 0, 0, 0, 0]) .base =
      some (some [24 - 19.62]) := by
  have hj : pendulum.chain.nJoints = 1 := rfl
  have h0 : pendulum.invDynStatic [0] = some (some [-19.62]) := by
    unfold invDynStatic
    rw [hj]
    simp [toRadians, rne, rneLoop, pendulum, Segment.make, Link.sweep, Link.force, Joint.pose, Inertia.make,
      Segment.pose, Segment.twist, Joint.twist, Twist.rotate, Twist.refPoint, Frame.invTwist, Frame.mulWrench,
      Inertia.mul, Twist.crossTwist, Twist.crossWrench, Twist.power, dot, Mat3.rotY, Mat3.transpose, Frame.inv,
      cross]
    norm_num
  have h1 : pendulum.invDyn [0] [0] [3 * rad2deg] [0, 0, 0, 0, 0, 0] .base = some (some [6 - 19.62]) := by
    unfold invDyn
    rw [hj]
    have h2 : (3 : ℝ) * rad2deg * deg2rad = 3 := deg_rad 3
    simp [toRadians, rne, rneLoop, pendulum, Segment.make, Link.sweep, Link.force, Joint.pose, Inertia.make,
      Segment.pose, Segment.twist, Joint.twist, Twist.rotate, Twist.refPoint, Frame.invTwist, Frame.mulWrench,
      Inertia.mul, Twist.crossTwist, Twist.crossWrench, Twist.power, dot, Mat3.rotY, Mat3.transpose, Frame.inv,
      cross, wrenches, vectorToWrench, Wrench.rotate, chain, Chain.fk, Chain.fkLoop, h2]
    norm_num
  refine ⟨h0, h1, ?_⟩
  rw [C106_faster rfl h0 h1 2]
  simp [mix]
  norm_num

end DynSolver
end KD
