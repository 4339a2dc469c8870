import Verif.Ctrl.WithKdl
import Verif.Props.OpenController
import Verif.Props.Dynamics
import Verif.Props.Tracking

/-!
# C82: the controller with the chain solver drives the arm it is configured for
-/

namespace KD.Ctrl

open KdlConfig (Val Group Config)
open KdlVectorConverter
open Prog (can can_run can_mono can_bind wp wp_sound)

/-! ## Specification -/

/-- The inverse solvers give one value for each joint. -/
def Inverse.Sized (i : Inverse) : Prop :=
  (∀ p, i.pos p → ∀ c q f, q.length = Chain.nJoints c → (p c q f).2.length = Chain.nJoints c) ∧
    ∀ v, i.vel v → ∀ c q t, q.length = Chain.nJoints c → (v c q t).2.length = Chain.nJoints c

/-- Joints that are given as a solution are one, as close as it is meant by `close`. -/
def Inverse.Reaching (i : Inverse) (close : Frame → Frame → Prop) : Prop :=
  ∀ p, i.pos p → ∀ c q f, q.length = Chain.nJoints c → 0 ≤ (p c q f).1 → ∃ g, Chain.fk c (p c q f).2 = some g ∧ close g f

/-- A controller that was opened in the world `w` with the configuration `c`, and its solver, one of KDL. -/
structure Deployed (w : World) (st : List Link → Bool) (wt : Bool) (c : Config) (cfg : Cfg) (s0 : Ctl) (k0 : DynSolver) :
    Prop where
  kdl : w.HasKdl st wt
  opened : openController w c = some (some (cfg, s0))
  solver : ∃ d o k, HasText c "solver" "KdlSolver" d ∧ OptionsFor c d ["mins", "maxs", "maxvels"] o ∧
    KdlConfig.openSolver st wt o = some (some k) ∧ k.solver = k0

/-- What the robot and the configuration have to be for the checks of the controller to make sense. -/
structure Usable (w : World) (c : Config) (cfg : Cfg) : Prop where
  limits : LeavesLimits c
  speeds : ∀ o r n l, w.robot o = some r → r.refSpeeds n = some l → l.length = n
  room : ∀ o r j lo hi, w.robot o = some r → r.limits j = some (lo, hi) → lo + 2 * tol ≤ hi
  lookAhead : cfg.enableFailFast = true → cfg.numJoints ≤ 6
  period : ∃ p : ℤ, HasWhole c "cmcPeriodMs" 50 p ∧ 1 ≤ p

/-- The tool that is on after a command, if it was `f` before. -/
noncomputable def Op.toolAfter (f : Frame) : Op → Frame
  | .tool x => vectorToFrame x
  | _ => f

/-- The tool that is on after some commands, none at first. -/
noncomputable def lastTool (ds : List Done) : Frame := ds.foldl (fun f d => d.op.toolAfter f) 1

/-- Where the arm of a configuration is, with its tool, for joints in degrees. -/
noncomputable def arm (base : Frame) (descs : List KdlConfig.Desc) (tip tool : Frame) (q : List ℝ) : Frame :=
  base * (List.zipWith (fun d x => d.place x) descs q).prod * tip * tool

/-- A pose given in the base frame, or from where the arm is. -/
def aim (f : RefFrame) (now x : Frame) : Frame :=
  match f with
  | .base => x
  | .tcp => now * x

/-- Joint speeds that are given as a solution move the end of the chain with the twist that was asked for, as close as it
is meant by `close`. -/
def Inverse.Following (i : Inverse) (close : Twist → Twist → Prop) : Prop :=
  ∀ v, i.vel v → ∀ (c : Chain) q t cols, c.jacobian q = some cols → 0 ≤ (v c q t).1 → close (Twist.combine (v c q t).2 cols) t

/-- A twist given in the base frame, or in that of the arm. -/
def turned (f : RefFrame) (now : Frame) (t : Twist) : Twist :=
  match f with
  | .base => t
  | .tcp => Twist.rotate now.M t

/-- With joint speeds `v` (degrees per second) at the joints `q` (degrees), the arm moves with the twist `W`. -/
def ArmMoves (base : Frame) (descs : List KdlConfig.Desc) (tip tool : Frame) (q v : List ℝ) (W : Twist) : Prop :=
  Frame.MovesWith (fun t => arm base descs tip tool (advance q v t)) W 0

/-- The twist `xdot` corrected by the difference between the pose `x` and the one where the arm is. -/
noncomputable def corrected (rate : ℝ) (now : Frame) (x xdot : List ℝ) : Twist :=
  vectorToTwist (List.zipWith (fun d v => rate * d + v) (KdlSolver.poseDiff x (frameToVector now)) xdot)

/-- Where a link of the arm of a configuration is. -/
noncomputable def linkPlace (base : Frame) (descs : List KdlConfig.Desc) (q : List ℝ) (j : ℕ) : Frame :=
  base * ((List.zipWith (fun d x => d.place x) descs q).take (j + 1)).prod

/-- The potential energy of the links of the arm, made of points with a mass. -/
noncomputable def armEnergy (base : Frame) (descs : List KdlConfig.Desc) (bodies : List (List MassPoint)) (g : Vec3) (q : List ℝ) : ℝ :=
  ∑ j ∈ Finset.range bodies.length,
    ((bodies.getD j []).map fun p => - (p.mass * Vec3.dot g ((linkPlace base descs q j).act p.place))).sum

/-- The work per unit of virtual displacement of the forces that accelerate the links of the arm against gravity. `x` are
the joints in time, `y` the joints along the virtual displacement. -/
noncomputable def armWork (base : Frame) (descs : List KdlConfig.Desc) (bodies : List (List MassPoint)) (g : Vec3)
    (x y : ℝ → List ℝ) (t : ℝ) : ℝ :=
  ∑ j ∈ Finset.range bodies.length, ((bodies.getD j []).map fun p =>
    p.mass * Vec3.dot (Vec3.rate (Vec3.rate fun u => (linkPlace base descs (x u) j).act p.place) t - g)
      (Vec3.rate (fun ε => (linkPlace base descs (y ε) j).act p.place) 0)).sum

/-! ## Only `tool` changes the chain -/

/-- Calls that change the chain of the solver. -/
def ChangesChain : Ev → Prop
  | .restoreOriginalChain _ => True
  | .appendLink _ _ => True
  | _ => False

/-- The others. -/
@[reducible] def KeepsChain : Call → Prop
  | .restoreOriginalChain => False
  | .appendLink _ => False
  | _ => True

section

theorem keep_checkModes (mode : Mode) : Prog.Calls KeepsChain (checkControlModes mode) := by
  unfold checkControlModes
  calls

theorem keep_retry (mode : Mode) : ∀ n, Prog.Calls KeepsChain (retryModes mode n) := by
  intro n
  induction n with
  | zero => exact True.intro
  | succ n ih =>
    unfold retryModes
    have h2 := keep_checkModes mode
    calls

theorem keep_modes (mode : Mode) : Prog.Calls KeepsChain (setControlModes mode) := by
  unfold setControlModes
  have h2 := fun n => keep_retry mode n
  calls

theorem keep_stop : Prog.Calls KeepsChain stopControl := by
  unfold stopControl setCurrentState
  have h2 := keep_modes .position
  calls

theorem keep_movj (cfg : Cfg) (x : List ℝ) : Prog.Calls KeepsChain (movj cfg x) := by
  unfold movj setCurrentState
  have h2 := keep_modes .position
  calls

theorem keep_failFast (cfg : Cfg) (ts : List Traj) : ∀ l q v, Prog.Calls KeepsChain (failFastLoop cfg ts l q v) := by
  intro l
  induction l with
  | nil => intro q v; exact True.intro
  | cons t l ih =>
    intro q v
    unfold failFastLoop
    calls

theorem keep_movl (cfg : Cfg) (x : List ℝ) : Prog.Calls KeepsChain (movl cfg x) := by
  unfold movl movlStart doFailFastChecks setCurrentState
  have h1 := fun ts l q v => keep_failFast cfg ts l q v
  have h2 := fun m => keep_modes m
  calls

theorem keep_wait (t s : ℝ) : ∀ n st, Prog.Calls KeepsChain (waitLoop t s n st) := by
  intro n
  induction n with
  | zero => intro st; exact True.intro
  | succ n ih =>
    intro st
    unfold waitLoop getCurrentState
    have h1 := keep_stop
    calls

theorem keep_parameter (k : Key) (v : ℝ) : Prog.Calls KeepsChain (setParameter k v) := by
  have h1 := fun m => keep_modes m
  cases k <;> (unfold setParameter presetStreamingCommand getCurrentState setCurrentState; simp only []; calls)

theorem keep_setAll (ps : List (Key × ℝ)) : ∀ b, Prog.Calls KeepsChain (setAll ps b) := by
  induction ps with
  | nil => intro b; exact True.intro
  | cons p ps ih =>
    intro b
    obtain ⟨k, v⟩ := p
    unfold setAll
    have h1 := keep_parameter k v
    calls

theorem keep_send (cfg : Cfg) (q x dx dv : List ℝ) (f : RefFrame) : Prog.Calls KeepsChain (sendVelocity cfg q x dx dv f) := by
  unfold sendVelocity
  calls

theorem keep_dispatch (cfg : Cfg) (st : CState) (q v a : List ℝ) : Prog.Calls KeepsChain (dispatch cfg st q v a) := by
  have h1 := fun m => keep_checkModes m
  have h2 := keep_stop
  have h3 := fun q x dx dv f => keep_send cfg q x dx dv f
  unfold dispatch
  cases st with
  | movj => simp only []; unfold handleMovj setCurrentState; calls
  | movl => simp only []; unfold handleMovlPosd handleMovlVel; calls
  | movv => simp only []; unfold handleMovv; calls
  | gcmp => simp only []; unfold handleGcmp; calls
  | forc => simp only []; unfold handleForc; calls
  | notControlling => exact True.intro

theorem keep_run (cfg : Cfg) : Prog.Calls KeepsChain (run cfg) := by
  have h1 := fun st q v a => keep_dispatch cfg st q v a
  have h2 := keep_stop
  unfold run runBody readEncoders getCurrentState
  calls

theorem keep_ready (l : List ℤ) (m : Mode) : Prog.Calls KeepsChain (streamingReady l m) := by
  have h1 := keep_checkModes m
  unfold streamingReady getCurrentState
  calls

/-- Only `tool` changes the chain. -/
theorem keep_op (cfg : Cfg) (op : Op) (h : ∀ x, op ≠ .tool x) : Prog.Calls KeepsChain (op.prog cfg) := by
  have post : ∀ {γ : Type} {p : P γ} {f : γ → Option Bool}, Prog.Calls KeepsChain p →
      Prog.Calls KeepsChain (p.bind fun b => .pure (f b)) := fun h => Prog.calls_bind h fun _ => True.intro
  cases op with
  | tool x => exact absurd rfl (h x)
  | stat => refine post ?_; unfold stat getCurrentState; calls
  | inv x =>
    refine post ?_
    have : ∀ q (t : Ctl), Prog.Calls KeepsChain (Dev.invKin x q t.frame) := fun _ _ => ⟨True.intro, fun _ => True.intro⟩
    unfold inv
    calls
  | movj x => exact post (keep_movj cfg x)
  | relj x =>
    refine post ?_
    have := fun x => keep_movj cfg x
    unfold relj
    calls
  | movl x => exact post (keep_movl cfg x)
  | movv x =>
    refine post ?_
    have := keep_modes .velocity
    unfold movv setCurrentState
    calls
  | gcmp =>
    refine post ?_
    have := keep_modes .torque
    unfold gcmp setCurrentState
    calls
  | forc x =>
    refine post ?_
    have := keep_modes .torque
    unfold forc setCurrentState
    calls
  | stopControl => exact post keep_stop
  | wait t n =>
    have := fun s st => keep_wait t s n st
    show Prog.Calls KeepsChain (wait t n)
    unfold wait getCurrentState
    calls
  | pose x =>
    refine post ?_
    have := fun l m => keep_ready l m
    unfold pose
    calls
  | twist x =>
    refine post ?_
    have := fun l m => keep_ready l m
    unfold twist twistBody
    calls
  | wrench x =>
    refine post ?_
    have := fun l m => keep_ready l m
    unfold wrench wrenchBody
    calls
  | setParameter k v => exact post (keep_parameter k v)
  | setParameters ps =>
    refine post ?_
    have := fun b => keep_setAll ps b
    unfold setParameters getCurrentState
    calls
  | getParameter k => refine post ?_; unfold getParameter; calls
  | cycle => exact post (keep_run cfg)

end


/-! ## Sizes -/

/-- A solver for `n` joints, now and with its tools off. -/
structure Joints (n : ℕ) (k : DynSolver) : Prop where
  now : Chain.nJoints k.chain = n
  original : Chain.nJoints (k.original.map (·.seg)) = n
  links : k.links ≠ []
  links0 : k.original ≠ []

theorem Joints.append {n : ℕ} {k : DynSolver} (h : Joints n k) (x : List ℝ) : Joints n (k.appendLink x) := by
  refine ⟨?_, h.original, by simp [DynSolver.appendLink], h.links0⟩
  rw [← h.now]
  unfold DynSolver.chain DynSolver.appendLink
  rw [List.map_append]
  exact Chain.nJoints_fixed _ _

theorem Joints.restore {n : ℕ} {k : DynSolver} (h : Joints n k) : Joints n k.restore :=
  ⟨h.original, h.original, h.links0, h.links0⟩

theorem rneLoop_length (links : List Link) : ∀ (qs qds qdds : List ℝ) (es : List Wrench) (v a : Twist) τ f,
    rneLoop links qs qds qdds es v a = some (τ, f) → τ.length = qs.length := by
  induction links with
  | nil =>
    intro qs qds qdds es v a τ f h
    unfold rneLoop at h
    split at h <;> simp_all
  | cons l ls ih =>
    intro qs qds qdds es v a τ f h
    cases es with
    | nil => unfold rneLoop at h; cases h
    | cons e es =>
      unfold rneLoop at h
      split at h
      · split at h
        · simp only [Option.bind_eq_bind, Option.bind_eq_some_iff] at h
          obtain ⟨⟨τ', f'⟩, h1, h2⟩ := h
          obtain ⟨rfl, -⟩ := Prod.mk.inj (Option.some.inj h2)
          simp [ih _ _ _ _ _ _ _ _ h1]
        · cases h
      · simp only [Option.bind_eq_bind, Option.bind_eq_some_iff] at h
        obtain ⟨⟨τ', f'⟩, h1, h2⟩ := h
        obtain ⟨rfl, -⟩ := Prod.mk.inj (Option.some.inj h2)
        exact ih _ _ _ _ _ _ _ _ h1

theorem rne_length {links g q qd qdd es τ} (h : rne links g q qd qdd es = some τ) : τ.length = q.length := by
  unfold rne at h
  obtain ⟨⟨τ', f⟩, h1, rfl⟩ := Option.map_eq_some_iff.mp h
  exact rneLoop_length _ _ _ _ _ _ _ _ _ h1

section

variable {i : Inverse} {n : ℕ} {k k' : DynSolver} {e : Ev}

theorem joints_answers (h : Joints n k) (ha : Answers i k e k') : Joints n k' := by
  cases e with
  | restoreOriginalChain => obtain ⟨rfl, -⟩ := ha; exact h.restore
  | appendLink => obtain ⟨rfl, -⟩ := ha; exact h.append _
  | fwdKin => obtain ⟨rfl, -⟩ := ha; exact h
  | invKin => obtain ⟨rfl, -⟩ := ha; exact h
  | diffInvKin => obtain ⟨rfl, -⟩ := ha; exact h
  | poseDiff => obtain ⟨rfl, -⟩ := ha; exact h
  | changeOrigin => obtain ⟨rfl, -⟩ := ha; exact h
  | invDynStatic => obtain ⟨rfl, -⟩ := ha; exact h
  | invDyn => obtain ⟨rfl, -⟩ := ha; exact h
  | _ => obtain rfl := ha; exact h

theorem joints_answered {tr : List Ev} (ha : Answered i k tr k') (h : Joints n k) : Joints n k' := by
  induction ha with
  | nil => exact h
  | cons h1 _ ih => exact ih (joints_answers h h1)

theorem toRadians_eq {q : List ℝ} (h : q.length = n) : KdlSolver.toRadians n q = some (q.map (· * deg2rad)) := by
  rw [KdlSolver.toRadians_some h.ge, ← h, List.take_length]

/-- Inverse kinematics asked with vectors of the right sizes. -/
theorem invKin_eq (h : Joints n k) (p : PosSolver) (x q : List ℝ) (f : RefFrame) (hq : q.length = n) :
    ∃ now, k.chain.fk (q.map (· * deg2rad)) = some now ∧
      k.kin.invKin p x q f.solver = some (if (p k.chain (q.map (· * deg2rad)) (aim f now (vectorToFrame x))).1 < 0 then none
        else some ((p k.chain (q.map (· * deg2rad)) (aim f now (vectorToFrame x))).2.map (· * rad2deg))) := by
  obtain ⟨now, hf⟩ := Chain.exists_fk (c := k.chain) (q := q.map (· * deg2rad)) (by rw [List.length_map, hq, h.now])
  refine ⟨now, hf, ?_⟩
  have hr : KdlSolver.toRadians k.kin.numJoints q = some (q.map (· * deg2rad)) := toRadians_eq (by rw [hq]; exact h.now.symm)
  unfold KdlSolver.invKin
  rw [hr]
  cases f with
  | base => rfl
  | tcp =>
    show (Chain.fk k.chain _).bind _ = _
    rw [hf]
    rfl

theorem diffInvKin_eq (h : Joints n k) (v : VelSolver) (x q : List ℝ) (f : RefFrame) (hq : q.length = n) :
    ∃ now, k.chain.fk (q.map (· * deg2rad)) = some now ∧ ∃ t, t = turned f now (vectorToTwist x) ∧
      k.kin.diffInvKin v q x f.solver = some (if (v k.chain (q.map (· * deg2rad)) t).1 < 0 then none
        else some ((v k.chain (q.map (· * deg2rad)) t).2.map (· * rad2deg))) := by
  obtain ⟨now, hf⟩ := Chain.exists_fk (c := k.chain) (q := q.map (· * deg2rad)) (by rw [List.length_map, hq, h.now])
  refine ⟨now, hf, _, rfl, ?_⟩
  have hr : KdlSolver.toRadians k.kin.numJoints q = some (q.map (· * deg2rad)) := toRadians_eq (by rw [hq]; exact h.now.symm)
  unfold KdlSolver.diffInvKin
  rw [hr]
  cases f with
  | base => rfl
  | tcp =>
    show (Chain.fk k.chain _).bind _ = _
    rw [hf]
    rfl

theorem fwdKin_kin (h : Joints n k) {q : List ℝ} (hq : q.length = n) :
    k.kin.fwdKin q = (k.chain.fk (q.map (· * deg2rad))).map frameToVector := by
  rw [KdlSolver.fwdKin_eq _ _ (by rw [hq]; exact h.now.le), show k.kin.numJoints = q.length by rw [hq]; exact h.now,
    List.take_length]
  rfl

theorem static_eq (h : Joints n k) {q : List ℝ} (hq : q.length = n) : k.invDynStatic q =
    some (rne k.links k.gravity (q.map (· * deg2rad)) (List.replicate n 0) (List.replicate n 0)
      (List.replicate k.links.length 0)) := by
  unfold DynSolver.invDynStatic
  rw [h.now]
  simp only [toRadians_eq hq]
  rfl

theorem invDyn_eq (h : Joints n k) {q v a : List ℝ} (w : List ℝ) (f : RefFrame) (hq : q.length = n) (hv : v.length = n)
    (ha : a.length = n) : ∃ ws, k.invDyn q v a w f.solver =
    some (rne k.links k.gravity (q.map (· * deg2rad)) (v.map (· * deg2rad)) (a.map (· * deg2rad)) ws) := by
  obtain ⟨now, hf⟩ := Chain.exists_fk (c := k.chain) (q := q.map (· * deg2rad)) (by rw [List.length_map, hq, h.now])
  have hw : ∀ x, k.wrenches x = some (List.replicate (k.links.length - 1) 0 ++ [x]) := by
    intro x
    unfold DynSolver.wrenches
    rw [if_neg (by simpa using h.links)]
  unfold DynSolver.invDyn
  rw [h.now]
  dsimp only
  rw [toRadians_eq hq, toRadians_eq hv, toRadians_eq ha]
  cases f with
  | base =>
    refine ⟨List.replicate (k.links.length - 1) 0 ++ [Wrench.rotate now.M.transpose (vectorToWrench w)], ?_⟩
    show (Chain.fk k.chain _).bind _ = _
    rw [hf]
    show (k.wrenches _).bind _ = _
    rw [hw]
    rfl
  | tcp =>
    refine ⟨List.replicate (k.links.length - 1) 0 ++ [vectorToWrench w], ?_⟩
    show (k.wrenches _).bind _ = _
    rw [hw]
    rfl

/-- Calls with vectors of the right sizes are within what the solver is defined for. -/
theorem within {cfg : Cfg} (h : Joints cfg.numJoints k) (hs : SizedCall cfg e) : Within i k e := by
  cases e with
  | fwdKin q _ =>
    show k.kin.fwdKin q ≠ none
    rw [fwdKin_kin h hs]
    obtain ⟨f, hf⟩ := Chain.exists_fk (c := k.chain) (q := q.map (· * deg2rad)) (by rw [List.length_map, hs, h.now])
    simp [hf]
  | invKin x q f _ =>
    intro p _
    obtain ⟨_, -, e⟩ := invKin_eq h p x q f hs.2
    rw [e]
    simp
  | diffInvKin q x f _ =>
    intro v _
    obtain ⟨_, -, _, -, e⟩ := diffInvKin_eq h v x q f hs.1
    rw [e]
    simp
  | invDynStatic q _ => show k.invDynStatic q ≠ none; rw [static_eq h hs]; simp
  | invDyn q v a w f _ =>
    obtain ⟨ws, e⟩ := invDyn_eq h w f hs.1 hs.2.1 hs.2.2.1
    show k.invDyn q v a w f.solver ≠ none
    rw [e]
    simp
  | _ => trivial

/-- Answers of the solver have the sizes that its interface promises. -/
theorem sized_answer {cfg : Cfg} (h : Joints cfg.numJoints k) (ht : cfg.numTcps = 1) (hi : i.Sized) (ha : Answers i k e k')
    (hs : SizedCall cfg e) : SizedAnswer cfg e := by
  cases e with
  | fwdKin q r =>
    obtain ⟨-, x, h1, rfl⟩ := ha
    rw [fwdKin_kin h hs] at h1
    obtain ⟨f, -, rfl⟩ := Option.map_eq_some_iff.mp h1
    show (frameToVector f).length = _
    rw [ht]
    rfl
  | invKin x q f r =>
    obtain ⟨-, p, hp, h1⟩ := ha
    obtain ⟨now, -, h2⟩ := invKin_eq h p x q f hs.2
    rw [h2] at h1
    have h1 := Option.some.inj h1
    split at h1
    · subst h1; trivial
    · subst h1
      show (List.map _ _).length = _
      rw [List.length_map, hi.1 p hp _ _ _ (by rw [List.length_map, hs.2, h.now]), h.now]
  | diffInvKin q x f r =>
    obtain ⟨-, v, hp, h1⟩ := ha
    obtain ⟨now, -, t, -, h2⟩ := diffInvKin_eq h v x q f hs.1
    rw [h2] at h1
    have h1 := Option.some.inj h1
    split at h1
    · subst h1; trivial
    · subst h1
      show (List.map _ _).length = _
      rw [List.length_map, hi.2 v hp _ _ _ (by rw [List.length_map, hs.1, h.now]), h.now]
  | poseDiff a b r => obtain ⟨-, rfl⟩ := ha; show List.length _ = _; rw [ht]; rfl
  | changeOrigin a b r => obtain ⟨-, rfl⟩ := ha; show List.length _ = _; rw [ht]; rfl
  | invDynStatic q r =>
    obtain ⟨-, h1⟩ := ha
    rw [static_eq h hs] at h1
    obtain rfl := Option.some.inj h1
    cases hr : rne k.links k.gravity (q.map (· * deg2rad)) (List.replicate cfg.numJoints 0) (List.replicate cfg.numJoints 0)
      (List.replicate k.links.length 0) with
    | none => trivial
    | some τ =>
      show τ.length = _
      rw [rne_length hr, List.length_map, hs]
  | invDyn q v a w f r =>
    obtain ⟨-, h1⟩ := ha
    obtain ⟨ws, h2⟩ := invDyn_eq h w f hs.1 hs.2.1 hs.2.2.1
    rw [h2] at h1
    obtain rfl := Option.some.inj h1
    cases hr : rne k.links k.gravity (q.map (· * deg2rad)) (v.map (· * deg2rad)) (a.map (· * deg2rad)) ws with
    | none => trivial
    | some τ =>
      show τ.length = _
      rw [rne_length hr, List.length_map, hs.1]
  | _ => trivial

theorem sized_answered {cfg : Cfg} {tr : List Ev} (ha : Answered i k tr k') (h : Joints cfg.numJoints k) (ht : cfg.numTcps = 1)
    (hi : i.Sized) : ∀ e ∈ tr, SizedCall cfg e → SizedAnswer cfg e := by
  induction ha with
  | nil => simp
  | cons h1 _ ih =>
    intro e he hs
    rcases List.mem_cons.mp he with rfl | he
    · exact sized_answer h ht hi h1 hs
    · exact ih (joints_answers h h1) e he hs

theorem answered_append {a b : List Ev} (h : Answered i k (a ++ b) k') : ∃ k1, Answered i k a k1 ∧ Answered i k1 b k' := by
  induction a generalizing k with
  | nil => exact ⟨k, .nil _, h⟩
  | cons e a ih =>
    cases h with
    | cons h1 h2 =>
      obtain ⟨k1, h3, h4⟩ := ih h2
      exact ⟨k1, .cons h1 h3, h4⟩

end

/-- Calls of a program up to one of them. -/
theorem Good.upto {cfg : Cfg} {α : Type} {p : P α} {Q : α → Ctl → Prop} {s s' : Ctl} {tr : List Ev} {o : Out α}
    (hr : Prog.Run (robot cfg) p s tr o s') : Good cfg p Q s → ∀ {pre e post}, tr = pre ++ e :: post →
      (∀ e ∈ pre, SizedCall cfg e → SizedAnswer cfg e) → SizedCall cfg e := by
  induction hr with
  | pure a s => intro _ pre e post h; simp at h
  | ub s => exact fun h => h.elim
  | get _ ih => exact fun h => ih h
  | set _ ih => exact fun h => ih h
  | call hw _ ih =>
    intro h pre e post ht hh
    obtain ⟨h1, h2⟩ := h _ hw
    cases pre with
    | nil =>
      obtain ⟨rfl, -⟩ := List.cons.inj ht
      exact h1
    | cons e' pre =>
      obtain ⟨rfl, ht'⟩ := List.cons.inj ht
      exact ih (h2 (hh _ (List.mem_cons_self ..) h1)) ht' fun e he => hh e (List.mem_cons_of_mem _ he)

/-! ## The chain after a history -/

theorem tool_calls {cfg : Cfg} {x : List ℝ} {s s' : Ctl} {tr : List Ev} {o} (h : Exec cfg (Op.prog cfg (.tool x)) s tr o s') :
    (∃ b, tr = [.restoreOriginalChain true, .appendLink x b]) ∨ tr = [.restoreOriginalChain false] := by
  refine wp_sound (Q := fun _ _ tr => (∃ b, tr = [Ev.restoreOriginalChain true, Ev.appendLink x b]) ∨
    tr = [Ev.restoreOriginalChain false]) ?_ h
  show wp _ (Prog.bind (tool x) _) _ _ _
  unfold tool
  dev_simp
  refine fun b => ⟨fun hb => ?_, fun hb => ?_⟩
  · subst hb
    refine fun b => Or.inl ⟨b, ?_⟩
    simp
  · right
    simpa using hb

theorem keeps_changes {c : Call} {r : c.Resp} (h : KeepsChain c) : ¬ChangesChain (record c r) := by
  cases c <;> first | exact h.elim | exact fun h => h

section

variable {i : Inverse} {k k' : DynSolver} {e : Ev} {cfg : Cfg}

theorem answers_same (h : Answers i k e k') (hk : ¬ChangesChain e) : k' = k := by
  cases e with
  | restoreOriginalChain => exact absurd trivial hk
  | appendLink => exact absurd trivial hk
  | fwdKin => exact h.1
  | invKin => exact h.1
  | diffInvKin => exact h.1
  | poseDiff => exact h.1
  | changeOrigin => exact h.1
  | invDynStatic => exact h.1
  | invDyn => exact h.1
  | _ => exact h

theorem answered_same {tr : List Ev} (h : Answered i k tr k') (hk : ∀ e ∈ tr, ¬ChangesChain e) :
    k' = k ∧ ∀ e ∈ tr, Answers i k e k := by
  induction h with
  | nil => exact ⟨rfl, by simp⟩
  | cons h1 _ ih =>
    obtain rfl := answers_same h1 (hk _ (List.mem_cons_self ..))
    obtain ⟨h2, h3⟩ := ih fun e he => hk e (List.mem_cons_of_mem _ he)
    refine ⟨h2, fun e he => ?_⟩
    rcases List.mem_cons.mp he with rfl | he
    exacts [h1, h3 e he]

/-- A command other than `tool`: all its calls are answered with the same chain. -/
theorem op_same {op : Op} (hop : ∀ x, op ≠ .tool x) {s s' : Ctl} {tr : List Ev} {o} (hx : Exec cfg (op.prog cfg) s tr o s')
    (h : Answered i k tr k') : k' = k ∧ ∀ e ∈ tr, Answers i k e k := by
  refine answered_same h fun e he => ?_
  obtain ⟨c, r, h1, -, rfl⟩ := Prog.run_calls hx (keep_op cfg op hop) e he
  exact keeps_changes h1

/-- The solver `k` is the solver `k0` with the tool `T`. -/
structure WithTool (k0 : DynSolver) (T : Frame) (k : DynSolver) : Prop where
  original : k.original = k0.links
  gravity : k.gravity = k0.gravity
  fk : ∀ q, k.chain.fk q = (k0.chain.fk q).map (· * T)
  static : ∀ q, k.invDynStatic q = k0.invDynStatic q
  links : k.links = k0.links ∨ ∃ x, k = k0.appendLink x

theorem WithTool.start (k0 : DynSolver) (h : k0.original = k0.links) : WithTool k0 1 k0 :=
  ⟨h, rfl, fun q => by simp, fun _ => rfl, Or.inl rfl⟩

theorem withTool_hist {k0 : DynSolver} (h0 : k0.original = k0.links) {s s' : Ctl} {ds : List Done} (h : Hist cfg s ds s')
    {T : Frame} (hk : WithTool k0 T k) (ha : Answered i k (callsOf ds) k') :
    WithTool k0 (ds.foldl (fun f d => d.op.toolAfter f) T) k' := by
  induction h generalizing k T with
  | nil s => cases ha; exact hk
  | @cons s op tr b s1 ds s' hx _ ih =>
    obtain ⟨k1, h1, h2⟩ := answered_append (a := tr) (b := callsOf ds) ha
    by_cases hop : ∀ x, op ≠ .tool x
    · obtain ⟨rfl, -⟩ := op_same hop hx h1
      have : op.toolAfter T = T := by
        cases op with
        | tool x => exact absurd rfl (hop x)
        | _ => rfl
      rw [List.foldl_cons]
      dsimp only
      rw [this]
      exact ih hk h2
    · push Not at hop
      obtain ⟨x, rfl⟩ := hop
      refine ih (T := vectorToFrame x) ?_ h2
      rcases tool_calls hx with ⟨b, rfl⟩ | rfl
      · cases h1 with
        | cons a1 a2 =>
          cases a2 with
          | cons a3 a4 =>
            cases a4
            obtain ⟨rfl, -⟩ := a1
            obtain ⟨rfl, -⟩ := a3
            have e : k.restore = k0 := by
              obtain ⟨l, o, g⟩ := k
              obtain ⟨l', o', g'⟩ := k0
              have e1 : o = l' := hk.original
              have e2 : g = g' := hk.gravity
              have e3 : o' = l' := h0
              subst e1 e2 e3
              rfl
            rw [e]
            refine ⟨h0, rfl, fun q => ?_, fun q => DynSolver.C74_tool_without_mass k0 x q, Or.inr ⟨x, rfl⟩⟩
            unfold DynSolver.chain DynSolver.appendLink
            rw [List.map_append]
            exact Chain.fk_fixed _ _ q
      · cases h1 with
        | cons a1 _ => cases a1.2

end

/-! ## The solver of a controller -/

section

variable {w : World} {st : List Link → Bool} {wt : Bool} {c : Config} {cfg : Cfg} {s0 : Ctl} {k0 : DynSolver}
  {base tip : Frame} {descs : List KdlConfig.Desc} {i : Inverse}

theorem Deployed.facts (h : Deployed w st wt c cfg s0 k0) (hrob : KdlConfig.Robot c base descs tip) :
    cfg.numJoints = descs.length ∧ cfg.numTcps = 1 ∧ Joints cfg.numJoints k0 ∧ k0.original = k0.links ∧
      ((∀ d ∈ descs, d.Turns) → ∀ q : List ℝ, q.length = descs.length →
        k0.chain.fk (q.map (· * deg2rad)) = some (arm base descs tip 1 q)) := by
  obtain ⟨d, o, k, hd, ho, hk, rfl⟩ := h.solver
  obtain ⟨g1, g2, -⟩ := KdlConfig.open_inv hk
  have hro := robot_options ho hrob
  have hn := numJoints_robot hro hk
  have hj : cfg.numJoints = descs.length ∧ cfg.numTcps = 1 := by
    obtain ⟨frame, r, n, refs, ls, options, tcps, h1, h2, h3, h4, h5, h6, h7, h8, h9, h10⟩ := open_steps h.opened
    obtain ⟨rfl, rfl⟩ := Prod.mk.inj h10
    have ho : OptionsFor c d ["mins", "maxs", "maxvels"] options := by
      by_cases hl : LeavesLimits c
      · obtain ⟨-, -, rfl⟩ := takeLimits_robot hl h7
        exact limitOptions_for c hd ls
      · unfold takeLimits at h7
        rw [if_neg (by simpa [LeavesLimits] using hl)] at h7
        obtain ⟨-, rfl⟩ := Prod.mk.inj (Option.some.inj h7)
        obtain ⟨a, b, d⟩ := solverOptions_for c hd
        exact ⟨a, b, fun key hk _ => d key hk (by simp)⟩
    rw [h.kdl] at h8
    obtain ⟨x, hx, e⟩ := Option.map_eq_some_iff.mp h8
    obtain ⟨k, rfl, e'⟩ := Option.map_eq_some_iff.mp e
    rw [numJoints_robot (robot_options ho hrob) hx] at e'
    obtain ⟨e1, e2⟩ := Prod.mk.inj e'
    exact ⟨e1.symm, e2.symm⟩
  obtain ⟨ls, l1, -, -⟩ := KdlConfig.robot_chain hro
  rw [l1] at g1
  have hne : k.solver.links ≠ [] := by
    rw [← Option.some.inj g1]
    simp
  refine ⟨hj.1, hj.2, ⟨by rw [hj.1, ← hn]; rfl, ?_, hne, g2 ▸ hne⟩, g2, fun ht q hq => ?_⟩
  · rw [g2, hj.1, ← hn]; rfl
  · rw [(KdlConfig.robot_fk hro ht hk q hq).2, arm, mul_one]

/-- The arm as the solver has it after some commands. -/
theorem Deployed.after (h : Deployed w st wt c cfg s0 k0) (hrob : KdlConfig.Robot c base descs tip)
    {s : Ctl} {ds : List Done} (hh : Hist cfg s0 ds s) {k : DynSolver} (hk : Answered i k0 (callsOf ds) k) :
    Joints cfg.numJoints k ∧ WithTool k0 (lastTool ds) k ∧ ((∀ d ∈ descs, d.Turns) → ∀ q : List ℝ, q.length = descs.length →
        k.chain.fk (q.map (· * deg2rad)) = some (arm base descs tip (lastTool ds) q)) := by
  obtain ⟨h1, h2, h3, h4, h5⟩ := h.facts hrob
  have hw := withTool_hist h4 hh (WithTool.start k0 h4) hk
  refine ⟨joints_answered hk h3, hw, fun ht q hq => ?_⟩
  rw [hw.fk, h5 ht q hq]
  simp [arm, lastTool]

/-- A controller that opens with the solver of KDL has one. -/
theorem deployed {d : String} (hw : w.HasKdl st wt) (ho : openController w c = some (some (cfg, s0)))
    (hd : HasText c "solver" "KdlSolver" d) : ∃ k0, Deployed w st wt c cfg s0 k0 := by
  obtain ⟨frame, r, n, refs, ls, options, tcps, h1, h2, h3, h4, h5, h6, h7, h8, h9, h10⟩ := open_steps ho
  have ho' : OptionsFor c d ["mins", "maxs", "maxvels"] options := by
    by_cases hl : LeavesLimits c
    · obtain ⟨-, -, rfl⟩ := takeLimits_robot hl h7
      exact limitOptions_for c hd ls
    · unfold takeLimits at h7
      rw [if_neg (by simpa [LeavesLimits] using hl)] at h7
      obtain ⟨-, rfl⟩ := Prod.mk.inj (Option.some.inj h7)
      obtain ⟨a, b, d⟩ := solverOptions_for c hd
      exact ⟨a, b, fun key hk _ => d key hk (by simp)⟩
  rw [hw] at h8
  obtain ⟨x, hx, e⟩ := Option.map_eq_some_iff.mp h8
  obtain ⟨k, rfl, e⟩ := Option.map_eq_some_iff.mp e
  exact ⟨k.solver, hw, ho, d, options, k, hd, ho', hx, rfl⟩

theorem hist_sized (h : Deployed w st wt c cfg s0 k0) (hrob : KdlConfig.Robot c base descs tip) (hi : i.Sized)
    {ds : List Done} {k : DynSolver} (hk : Answered i k0 (callsOf ds) k) :
    ∀ d ∈ ds, ∀ e ∈ d.calls, SizedCall cfg e → SizedAnswer cfg e := by
  obtain ⟨h1, h2, h3, h4, h5⟩ := h.facts hrob
  intro d hd e he
  exact sized_answered hk h3 h2 hi e (List.mem_flatMap.mpr ⟨d, hd, he⟩)

/-! ## Theorems -/

/-- C82: the controller and its solver fit together. However many commands with vectors of the right sizes have been
served, the next one asks the solver only for what the solver is defined for, with vectors of the right sizes, as long
as the solver has answered so far; with all its answers, the command stays within the vectors of the controller. -/
theorem C82_defined_partial (h : Deployed w st wt c cfg s0 k0) (hrob : KdlConfig.Robot c base descs tip) (hu : Usable w c cfg)
    (hi : i.Sized) {s s' : Ctl} {ds : List Done} (hh : Hist cfg s0 ds s) (hf : ∀ d ∈ ds, d.op.Fits cfg) {k : DynSolver}
    (hk : Answered i k0 (callsOf ds) k) {op : Op} (hop : op.Fits cfg) {tr : List Ev} {o : Out (Option Bool)}
    (hx : Exec cfg (op.prog cfg) s tr o s') :
    (∀ pre e post k1, tr = pre ++ e :: post → Answered i k pre k1 → SizedCall cfg e ∧ Within i k1 e) ∧
      ∀ k', Answered i k tr k' → o ≠ .ub := by
  obtain ⟨h1, h2, h3, h4, h5⟩ := h.facts hrob
  have hj := joints_answered hk h3
  obtain ⟨p, hp, hp1⟩ := hu.period
  have hsix : cfg.enableFailFast = true → cfg.numJoints ≤ 6 * cfg.numTcps := fun e => by have := hu.lookAhead e; omega
  obtain ⟨w1, w2⟩ := opened_workable h.opened hu.limits hu.speeds hu.room hsix hp hp1
  obtain ⟨w3, -⟩ := steady_hist w1 hh w2 hf (hist_sized h hrob hi hk)
  refine ⟨fun pre e post k1 he hp => ?_, fun k' ha => ?_⟩
  · have := Good.upto hx (keeps_op w1 w3 hop) he (sized_answered hp hj h2 hi)
    exact ⟨this, within (joints_answered hp hj) this⟩
  · obtain ⟨⟨a, rfl, -⟩, -⟩ := Good.sound hx (keeps_op w1 w3 hop) (sized_answered ha hj h2 hi)
    simp

theorem stat_calls {s s' : Ctl} {tr : List Ev} {x : List ℝ} {r : CState} (hx : Exec cfg stat s tr (.ok (some (x, r))) s') :
    r = s.state ∧ ∃ q, q.length = cfg.numJoints ∧ tr = [.getEncoders (some q), .fwdKin q (some x)] := by
  refine wp_sound (Q := fun o _ tr => ∀ x r, o = .ok (some (x, r)) → r = s.state ∧ ∃ q : List ℝ, q.length = cfg.numJoints ∧
    tr = [Ev.getEncoders (some q), Ev.fwdKin q (some x)]) ?_ hx x r rfl
  unfold stat getCurrentState
  dev_simp
  simp

/-- C82: after any history, the pose that is reported is that of the arm of the configuration, with the last tool. -/
theorem C82_stat_partial (h : Deployed w st wt c cfg s0 k0) (hrob : KdlConfig.Robot c base descs tip) (ht : ∀ d ∈ descs, d.Turns)
    {s s' : Ctl} {ds : List Done} (hh : Hist cfg s0 ds s) {k k' : DynSolver} (hk : Answered i k0 (callsOf ds) k)
    {tr : List Ev} {x : List ℝ} {r : CState} (hx : Exec cfg stat s tr (.ok (some (x, r))) s') (hk' : Answered i k tr k') :
    ∃ q, Ev.getEncoders (some q) ∈ tr ∧ q.length = descs.length ∧ x = frameToVector (arm base descs tip (lastTool ds) q) := by
  obtain ⟨h1, h2, -⟩ := h.facts hrob
  obtain ⟨h3, -, h4⟩ := h.after hrob hh hk
  obtain ⟨-, q, hq, rfl⟩ := stat_calls hx
  refine ⟨q, by simp, hq.trans h1, ?_⟩
  obtain ⟨-, ha⟩ := answered_same hk' (by simp [ChangesChain])
  obtain ⟨-, x', e1, e2⟩ := ha (Ev.fwdKin q (some x)) (by simp)
  rw [fwdKin_kin h3 hq, h4 ht q (hq.trans h1)] at e1
  rw [Option.some.inj e2, ← Option.some.inj e1]

/-- What inverse kinematics gives for the arm. -/
theorem Deployed.reach {close : Frame → Frame → Prop} (h : Deployed w st wt c cfg s0 k0) (hrob : KdlConfig.Robot c base descs tip)
    (ht : ∀ d ∈ descs, d.Turns) (hi : i.Sized) (hr : i.Reaching close)
    {s : Ctl} {ds : List Done} (hh : Hist cfg s0 ds s) {k k' : DynSolver} (hk : Answered i k0 (callsOf ds) k)
    {x q qd : List ℝ} {f : RefFrame} (ha : Answers i k (.invKin x q f (some qd)) k') (hq : q.length = cfg.numJoints) :
    qd.length = cfg.numJoints ∧
      close (arm base descs tip (lastTool ds) qd) (aim f (arm base descs tip (lastTool ds) q) (vectorToFrame x)) := by
  obtain ⟨h1, h2, -⟩ := h.facts hrob
  obtain ⟨h3, -, h4⟩ := h.after hrob hh hk
  obtain ⟨-, p, hp, e1⟩ := ha
  obtain ⟨now, f1, f2⟩ := invKin_eq h3 p x q f hq
  rw [h4 ht q (hq.trans h1)] at f1
  obtain rfl := Option.some.inj f1
  rw [f2] at e1
  have e1 := Option.some.inj e1
  have hl : (q.map (· * deg2rad)).length = Chain.nJoints k.chain := by rw [List.length_map, hq, h3.now]
  split at e1
  · cases e1
  rename_i hret
  obtain rfl := Option.some.inj e1
  have hlen := hi.1 p hp k.chain (q.map (· * deg2rad)) (aim f (arm base descs tip (lastTool ds) q) (vectorToFrame x)) hl
  obtain ⟨g, g1, g2⟩ := hr p hp k.chain (q.map (· * deg2rad)) (aim f (arm base descs tip (lastTool ds) q) (vectorToFrame x)) hl
    (not_lt.mp hret)
  rw [h3.now] at hlen
  refine ⟨by rw [List.length_map, hlen], ?_⟩
  have g3 := h4 ht ((p k.chain (q.map (· * deg2rad)) (aim f (arm base descs tip (lastTool ds) q) (vectorToFrame x))).2.map
    (· * rad2deg)) (by rw [List.length_map]; exact hlen.trans h1)
  rw [KdlSolver.back_to_radians, g1] at g3
  rw [← Option.some.inj g3]
  exact g2

theorem links_wf {c : Config} (n : ℕ) : ∀ (i : ℕ) {ls}, KdlConfig.links c i n = some ls → ∀ l ∈ ls, Segment.Wf l.seg := by
  induction n with
  | zero =>
    intro i ls h
    simp only [KdlConfig.links, Option.some.injEq] at h
    subst h
    simp
  | succ n ih =>
    intro i ls h
    simp only [KdlConfig.links, Option.bind_eq_bind, Option.bind_eq_some_iff] at h
    obtain ⟨l, e1, ls', e2, e3⟩ := h
    rw [← Option.some.inj e3]
    intro x hx
    rcases List.mem_append.mp hx with hx | hx
    · exact KdlConfig.link_wf e1 x hx
    · exact ih _ e2 x hx

/-- Axes and frames of the arm are proper. -/
theorem Deployed.wf (h : Deployed w st wt c cfg s0 k0) (hrob : KdlConfig.Robot c base descs tip) (hb : base.IsRigid)
    (ht : tip.IsRigid) : ∀ l ∈ k0.links, l.seg.Wf := by
  obtain ⟨d, o, k, hd, ho, hk, rfl⟩ := h.solver
  obtain ⟨g1, -⟩ := KdlConfig.open_inv hk
  obtain ⟨ls, l1, l2, -⟩ := KdlConfig.robot_chain (robot_options ho hrob)
  rw [l1] at g1
  intro l hl
  rw [← Option.some.inj g1] at hl
  simp only [List.cons_append, List.mem_cons, List.mem_append, List.not_mem_nil, or_false] at hl
  rcases hl with rfl | hl | rfl
  · exact KdlConfig.fixed_wf hb
  · exact links_wf _ _ l2 l hl
  · exact KdlConfig.fixed_wf ht

theorem wf_hist {ds : List Done} {k k' : DynSolver} (ha : Answered i k (callsOf ds) k')
    (hw : ∀ l ∈ k.links, l.seg.Wf) (ho : ∀ l ∈ k.original, l.seg.Wf) : (∀ l ∈ k'.links, l.seg.Wf) := by
  suffices key : ∀ {tr} {k k' : DynSolver}, Answered i k tr k' → (∀ l ∈ k.links, l.seg.Wf) → (∀ l ∈ k.original, l.seg.Wf) →
      ∀ l ∈ k'.links, l.seg.Wf from key ha hw ho
  intro tr k k' ha
  induction ha with
  | nil => exact fun h _ => h
  | @cons k e k1 es k' h1 _ ih =>
    intro hw ho
    by_cases hc : ChangesChain e
    · cases e with
      | restoreOriginalChain => obtain ⟨rfl, -⟩ := h1; exact ih ho ho
      | appendLink x =>
        obtain ⟨rfl, -⟩ := h1
        refine ih (fun l hl => ?_) ho
        rcases List.mem_append.mp hl with hl | hl
        · exact hw l hl
        · rw [List.mem_singleton.mp hl]
          exact KdlConfig.fixed_wf (KD.vectorToFrame_rigid x)
      | _ => exact absurd hc (fun h => h)
    · obtain rfl := answers_same h1 hc
      exact ih hw ho

/-- What differential inverse kinematics gives for the arm. -/
theorem Deployed.follow {close : Twist → Twist → Prop} (h : Deployed w st wt c cfg s0 k0) (hrob : KdlConfig.Robot c base descs tip)
    (hb : base.IsRigid) (htip : tip.IsRigid) (ht : ∀ d ∈ descs, d.Turns) (hi : i.Sized) (hr : i.Following close)
    {s : Ctl} {ds : List Done} (hh : Hist cfg s0 ds s) {k k' : DynSolver} (hk : Answered i k0 (callsOf ds) k)
    {x q v : List ℝ} {f : RefFrame} (ha : Answers i k (.diffInvKin q x f (some v)) k') (hq : q.length = cfg.numJoints) :
    v.length = cfg.numJoints ∧ ∃ W, ArmMoves base descs tip (lastTool ds) q v W ∧
      close W (turned f (arm base descs tip (lastTool ds) q) (vectorToTwist x)) := by
  obtain ⟨h1, h2, h0, h00, -⟩ := h.facts hrob
  obtain ⟨h3, -, h4⟩ := h.after hrob hh hk
  have hwf : k.chain.Wf := by
    have := h.wf hrob hb htip
    have := wf_hist hk this (h00 ▸ this)
    intro sg hsg
    obtain ⟨l, hl, rfl⟩ := List.mem_map.mp hsg
    exact this l hl
  obtain ⟨-, p, hp, e1⟩ := ha
  obtain ⟨now, f1, t, et, f2⟩ := diffInvKin_eq h3 p x q f hq
  rw [h4 ht q (hq.trans h1)] at f1
  obtain rfl := Option.some.inj f1
  rw [f2] at e1
  have e1 := Option.some.inj e1
  have hl : (q.map (· * deg2rad)).length = Chain.nJoints k.chain := by rw [List.length_map, hq, h3.now]
  split at e1
  · cases e1
  rename_i hret
  obtain rfl := Option.some.inj e1
  have hlen := hi.2 p hp k.chain (q.map (· * deg2rad)) t hl
  rw [h3.now] at hlen
  refine ⟨by rw [List.length_map, hlen], ?_⟩
  obtain ⟨cols, hc⟩ := KdlSolver.exists_jacobian k.kin q (by rw [hq]; exact h3.now.le)
  rw [show k.kin.numJoints = q.length by rw [hq]; exact h3.now, List.take_length] at hc
  obtain ⟨F, hF, -, hm⟩ := Chain.jacobian_moves hwf (qd := (p k.chain (q.map (· * deg2rad)) t).2)
    (by rw [hlen, List.length_map, hq]) hc
  refine ⟨Twist.combine (p k.chain (q.map (· * deg2rad)) t).2 cols, ?_, ?_⟩
  swap
  · have := hr p hp k.chain _ t cols hc (not_lt.mp hret)
    rwa [et] at this ⊢
  have : (fun u => arm base descs tip (lastTool ds) (advance q ((p k.chain (q.map (· * deg2rad)) t).2.map (· * rad2deg)) u)) = F := by
    funext u
    have := h4 ht (advance q ((p k.chain (q.map (· * deg2rad)) t).2.map (· * rad2deg)) u)
      (by rw [KdlSolver.advance_length, List.length_map, hlen, hq, min_self, h1])
    rw [KdlSolver.advance_radians _ _ _ (by rw [hlen, hq]), hF u] at this
    exact (Option.some.inj this).symm
  unfold ArmMoves
  rw [this]
  exact hm

theorem run_wf {α : Type} {p : P α} {s s' : Ctl} {tr : List Ev} {o : Out α} (h : Exec cfg p s tr o s') :
    ∀ e ∈ tr, ∃ c r, (robot cfg).wf c r ∧ e = (robot cfg).ev c r := by
  induction h with
  | pure a s => simp
  | ub s => simp
  | get _ ih => exact ih
  | set _ ih => exact ih
  | call hr _ ih =>
    intro e he
    rcases List.mem_cons.mp he with rfl | he
    exacts [⟨_, _, hr, rfl⟩, ih _ he]

theorem encoders_sized {α : Type} {p : P α} {s s' : Ctl} {tr : List Ev} {o : Out α} (h : Exec cfg p s tr o s') {q : List ℝ}
    (hq : Ev.getEncoders (some q) ∈ tr) : q.length = cfg.numJoints := by
  obtain ⟨c, r, h2, h3⟩ := run_wf h _ hq
  cases c with
  | getEncoders => exact h2 q (by injection h3 with h3; exact h3.symm)
  | _ => cases h3

theorem speeds_sized {α : Type} {p : P α} {s s' : Ctl} {tr : List Ev} {o : Out α} (h : Exec cfg p s tr o s') {q : List ℝ}
    (hq : Ev.getEncoderSpeeds (some q) ∈ tr) : q.length = cfg.numJoints := by
  obtain ⟨c, r, h2, h3⟩ := run_wf h _ hq
  cases c with
  | getEncoderSpeeds => exact h2 q (by injection h3 with h3; exact h3.symm)
  | _ => cases h3

theorem accelerations_sized {α : Type} {p : P α} {s s' : Ctl} {tr : List Ev} {o : Out α} (h : Exec cfg p s tr o s')
    {q : List ℝ} (hq : Ev.getEncoderAccelerations (some q) ∈ tr) : q.length = cfg.numJoints := by
  obtain ⟨c, r, h2, h3⟩ := run_wf h _ hq
  cases c with
  | getEncoderAccelerations => exact h2 q (by injection h3 with h3; exact h3.symm)
  | _ => cases h3

theorem hist_split {s s' : Ctl} {a b : List Done} {d : Done} (h : Hist cfg s (a ++ d :: b) s') :
    ∃ s1 s2, Hist cfg s a s1 ∧ Exec cfg (d.op.prog cfg) s1 d.calls (.ok d.answer) s2 ∧ Hist cfg s2 b s' := by
  induction a generalizing s with
  | nil => cases h with | cons h1 h2 => exact ⟨s, _, .nil _, h1, h2⟩
  | cons d' a ih =>
    cases h with
    | cons h1 h2 =>
      obtain ⟨s1, s2, g1, g2, g3⟩ := ih h2
      exact ⟨s1, s2, .cons h1 g1, g2, g3⟩

theorem movj_calls {s s' : Ctl} {xd : List ℝ} {tr : List Ev} {o} (hx : Exec cfg (movj cfg xd) s tr o s') {t : List ℝ} {b : Bool}
    (ht : Ev.positionMove t b ∈ tr) : ∃ q qd, Ev.getEncoders (some q) ∈ tr ∧ Ev.invKin xd q s.frame (some qd) ∈ tr ∧
      t = qd.take cfg.numJoints := by
  refine wp_sound (Q := fun _ _ tr => ∀ t b, Ev.positionMove t b ∈ tr → ∃ q qd, Ev.getEncoders (some q) ∈ tr ∧
    Ev.invKin xd q s.frame (some qd) ∈ tr ∧ t = qd.take cfg.numJoints) ?_ hx t b ht
  clear hx ht
  unfold movj setCurrentState
  dev_simp
  refine ⟨by simp, fun q _ => ⟨by simp, fun qd => ⟨by simp, fun ⟨vmo, mv⟩ hmv => ⟨fun hk => ⟨by simp,
    fun refs _ b => ⟨fun _ => wp_setModes fun b' es hes hin => ?_, by simp⟩⟩, by simp⟩⟩⟩⟩
  have h10 : ∀ t r, Ev.positionMove t r ∉ es := fun _ _ => hes _
  dev_simp
  refine ⟨fun hb => ⟨by simp [h10], fun t ht b2 => ⟨fun h2 => ?_, fun h2 => ?_⟩⟩, by simp [h10]⟩
  all_goals
    intro t' b' h'
    simp [h10] at h'
    exact ⟨q, qd, by simp, by simp, by rw [h'.1]; exact buffer_some ht⟩

/-- C82: the joints that `movj` sends the robot to put the arm of the configuration, with the last tool, at the pose that
was asked for, as close as the inverse solver goes. -/
theorem C82_movj_partial {close : Frame → Frame → Prop} (h : Deployed w st wt c cfg s0 k0)
    (hrob : KdlConfig.Robot c base descs tip) (ht : ∀ d ∈ descs, d.Turns) (hi : i.Sized) (hr : i.Reaching close)
    {s s' : Ctl} {ds : List Done} (hh : Hist cfg s0 ds s) {k k' : DynSolver} (hk : Answered i k0 (callsOf ds) k)
    {xd : List ℝ} {tr : List Ev} {o : Out (Option Bool)} (hx : Exec cfg (Op.prog cfg (.movj xd)) s tr o s')
    (hk' : Answered i k tr k') {t : List ℝ} {b : Bool} (hm : Ev.positionMove t b ∈ tr) :
    ∃ q, Ev.getEncoders (some q) ∈ tr ∧ t.length = descs.length ∧ close (arm base descs tip (lastTool ds) t)
      (aim s.frame (arm base descs tip (lastTool ds) q) (vectorToFrame xd)) := by
  obtain ⟨-, ha⟩ := op_same (fun x => (by simp)) hx hk'
  obtain ⟨q, qd, h1, h2, rfl⟩ : ∃ q qd, Ev.getEncoders (some q) ∈ tr ∧ Ev.invKin xd q s.frame (some qd) ∈ tr ∧
      t = qd.take cfg.numJoints := by
    rcases Prog.run_bind.mp hx with ⟨a, s1, t1, t2, h1, h2, rfl⟩ | ⟨h1, -⟩
    · cases h2
      rw [List.append_nil] at hm ⊢
      exact movj_calls h1 hm
    · exact movj_calls h1 hm
  obtain ⟨h3, h4⟩ := h.reach hrob ht hi hr hh hk (ha _ h2) (encoders_sized hx h1)
  rw [List.take_of_length_le h3.le]
  exact ⟨q, h1, h3.trans (h.facts hrob).1, h4⟩

/-- C82: the same of poses that are streamed. -/
theorem C82_pose_partial {close : Frame → Frame → Prop} (h : Deployed w st wt c cfg s0 k0)
    (hrob : KdlConfig.Robot c base descs tip) (ht : ∀ d ∈ descs, d.Turns) (hi : i.Sized) (hr : i.Reaching close)
    {s s' : Ctl} {ds : List Done} (hh : Hist cfg s0 ds s) {k k' : DynSolver} (hk : Answered i k0 (callsOf ds) k)
    {xd : List ℝ} {tr : List Ev} {o : Out (Option Bool)} (hx : Exec cfg (Op.prog cfg (.pose xd)) s tr o s')
    (hk' : Answered i k tr k') {e : Ev} (he : e ∈ tr) (hm : IsMotion e) :
    ∃ q t b, Ev.getEncoders (some q) ∈ tr ∧ e = .setPositions t b ∧ t.length = descs.length ∧
      close (arm base descs tip (lastTool ds) t) (aim s.frame (arm base descs tip (lastTool ds) q) (vectorToFrame xd)) := by
  obtain ⟨-, ha⟩ := op_same (fun x => (by simp)) hx hk'
  obtain ⟨q, qd, b, h1, h2, rfl⟩ : ∃ q qd b, Ev.getEncoders (some q) ∈ tr ∧ Ev.invKin xd q s.frame (some qd) ∈ tr ∧
      e = .setPositions (qd.take cfg.numJoints) b := by
    rcases Prog.run_bind.mp hx with ⟨a, s1, t1, t2, h1, h2, rfl⟩ | ⟨h1, -⟩
    · cases h2
      rw [List.append_nil] at he ⊢
      obtain ⟨-, q, sol, r, g1, g2, -, g3⟩ := C37_pose_checked_partial h1 e he hm
      exact ⟨q, sol, r, g1, g2, g3⟩
    · obtain ⟨-, q, sol, r, g1, g2, -, g3⟩ := C37_pose_checked_partial h1 e he hm
      exact ⟨q, sol, r, g1, g2, g3⟩
  obtain ⟨h3, h4⟩ := h.reach hrob ht hi hr hh hk (ha _ h2) (encoders_sized hx h1)
  rw [List.take_of_length_le h3.le]
  exact ⟨q, qd, b, h1, rfl, h3.trans (h.facts hrob).1, h4⟩

/-- C82: joint speeds that are sent on behalf of a streamed twist move the arm of the configuration, with the last tool,
with that twist, as close as the inverse solver goes; if not, they are zero. -/
theorem C82_twist_partial {close : Twist → Twist → Prop} (h : Deployed w st wt c cfg s0 k0)
    (hrob : KdlConfig.Robot c base descs tip) (hb : base.IsRigid) (htip : tip.IsRigid) (ht : ∀ d ∈ descs, d.Turns)
    (hi : i.Sized) (hr : i.Following close) {s s' : Ctl} {ds : List Done} (hh : Hist cfg s0 ds s) {k k' : DynSolver}
    (hk : Answered i k0 (callsOf ds) k) {xd : List ℝ} {tr : List Ev} {o : Out (Option Bool)}
    (hx : Exec cfg (Op.prog cfg (.twist xd)) s tr o s') (hk' : Answered i k tr k') {e : Ev} (he : e ∈ tr) (hm : IsMotion e) :
    (∃ q v b W, Ev.getEncoders (some q) ∈ tr ∧ e = .velocityMove v b ∧ v.length = descs.length ∧
      ArmMoves base descs tip (lastTool ds) q v W ∧
      close W (turned s.frame (arm base descs tip (lastTool ds) q) (vectorToTwist xd))) ∨
    ∃ b, e = .velocityMove (List.replicate descs.length 0) b := by
  obtain ⟨-, ha⟩ := op_same (fun x => (by simp)) hx hk'
  have : (∃ q v b, Ev.getEncoders (some q) ∈ tr ∧ Ev.diffInvKin q xd s.frame (some v) ∈ tr ∧
      e = .velocityMove (v.take cfg.numJoints) b) ∨ ∃ b, e = .velocityMove (List.replicate cfg.numJoints 0) b := by
    rcases Prog.run_bind.mp hx with ⟨a, s1, t1, t2, h1, h2, rfl⟩ | ⟨h1, -⟩
    · cases h2
      rw [List.append_nil] at he ⊢
      rcases (C37_twist_checked_partial h1 e he hm).2 with ⟨q, sol, r, g1, g2, -, -, g3⟩ | g
      exacts [Or.inl ⟨q, sol, r, g1, g2, g3⟩, Or.inr g]
    · rcases (C37_twist_checked_partial h1 e he hm).2 with ⟨q, sol, r, g1, g2, -, -, g3⟩ | g
      exacts [Or.inl ⟨q, sol, r, g1, g2, g3⟩, Or.inr g]
  have hn := (h.facts hrob).1
  rcases this with ⟨q, v, b, h1, h2, rfl⟩ | ⟨b, rfl⟩
  · obtain ⟨h3, W, h4, h5⟩ := h.follow hrob hb htip ht hi hr hh hk (ha _ h2) (encoders_sized hx h1)
    rw [List.take_of_length_le h3.le]
    exact Or.inl ⟨q, v, b, W, h1, rfl, h3.trans hn, h4, h5⟩
  · exact Or.inr ⟨b, by rw [hn]⟩

theorem callsOf_append (a b : List Done) : callsOf (a ++ b) = callsOf a ++ callsOf b := by
  unfold callsOf
  rw [List.flatMap_append]

theorem answered_split {a b : List Ev} (h : Answered i k (a ++ b) k') : ∃ k1, Answered i k a k1 ∧ Answered i k1 b k' := by
  induction a generalizing k with
  | nil => exact ⟨k, .nil k, h⟩
  | cons e a ih =>
    cases h with
    | cons h1 h2 =>
      obtain ⟨k1, g1, g2⟩ := ih h2
      exact ⟨k1, .cons h1 g1, g2⟩

/-- A cycle in the middle of a history. -/
theorem cycle_split {ds1 pre post : List Done} {d : Done} {s1 s' : Ctl} (h1 : Hist cfg s0 ds1 s1)
    (h2 : Hist cfg s1 (pre ++ d :: post) s') (hd : d.op = .cycle) {k0 k' : DynSolver}
    (hk : Answered i k0 (callsOf (ds1 ++ (pre ++ d :: post))) k') :
    ∃ s k, Hist cfg s0 (ds1 ++ pre) s ∧ Answered i k0 (callsOf (ds1 ++ pre)) k ∧ (∀ e ∈ d.calls, Answers i k e k) ∧
      ∀ q, Ev.getEncoders (some q) ∈ d.calls → q.length = cfg.numJoints := by
  obtain ⟨s2, s3, g1, g2, -⟩ := hist_split h2
  rw [← List.append_assoc, callsOf_append] at hk
  obtain ⟨k1, f1, f2⟩ := answered_split hk
  rw [show callsOf (d :: post) = d.calls ++ callsOf post by simp [callsOf]] at f2
  obtain ⟨k2, f3, -⟩ := answered_split f2
  exact ⟨s2, k1, hist_append h1 g1, f1, (op_same (fun x => (by simp [hd])) g2 f3).2, fun q hq => encoders_sized g2 hq⟩

/-- C82: after a straight line was accepted (`movl`), the commands that the loop sends, however many cycles and other
calls later, either put the arm of the configuration at the pose of the line for that time, or give it the twist that
leads to it; as close as the inverse solvers go. -/
theorem C82_movl_partial {close : Frame → Frame → Prop} {closeT : Twist → Twist → Prop} (h : Deployed w st wt c cfg s0 k0)
    (hrob : KdlConfig.Robot c base descs tip) (hb : base.IsRigid) (htip : tip.IsRigid) (ht : ∀ d ∈ descs, d.Turns)
    (hi : i.Sized) (hr : i.Reaching close) (hv : i.Following closeT) {s s1 s2 : Ctl} {ds ds2 : List Done}
    (hh : Hist cfg s0 ds s) {xd : List ℝ} {tr : List Ev}
    (hx : Exec cfg (Op.prog cfg (.movl xd)) s tr (.ok (some true)) s1) (hh2 : Hist cfg s1 ds2 s2)
    (hno : ∀ d ∈ ds2, d.op.target = none) {k' : DynSolver}
    (hk : Answered i k0 (callsOf (ds ++ ⟨.movl xd, tr, some true⟩ :: ds2)) k') :
    ∃ paths start, Asked cfg s (.movl xd) tr (.line paths start) ∧
      ∀ pre d post, ds2 = pre ++ d :: post → d.op = .cycle → ∀ e ∈ d.calls, IsMotion e →
        ∃ t q, Ev.now t ∈ d.calls ∧ Ev.getEncoders (some q) ∈ d.calls ∧
          let tool := lastTool (ds ++ ⟨.movl xd, tr, some true⟩ :: pre)
          let x := posesAt paths (t - start)
          if cfg.usePosdMovl then ∃ v b, e = .setPositions v b ∧ v.length = descs.length ∧
            close (arm base descs tip tool v) (vectorToFrame x)
          else ∃ v b W, e = .velocityMove v b ∧ v.length = descs.length ∧ ArmMoves base descs tip tool q v W ∧
            closeT W (corrected (s.gain * (1000 / s.cmcPeriodMs)) (arm base descs tip tool q) x
              (twistsAt paths (t - start))) := by
  obtain ⟨plan, hp, hd⟩ := C71_commands_serve_partial (st := .movl) rfl (by simp) hx
  cases plan with
  | ray => obtain ⟨xd, q, x, hp, -⟩ := hp; cases hp
  | push | weight => cases hp
  | line paths start =>
    refine ⟨paths, start, hp, fun pre d post hds hc e he hm => ?_⟩
    obtain ⟨t, ht1, -, ht2⟩ := hd ds2 s2 hh2 hno d (by simp [hds]) hc e he hm
    subst hds
    have hh1 : Hist cfg s0 (ds ++ [⟨.movl xd, tr, some true⟩]) s1 := hist_append hh (.cons hx (.nil _))
    obtain ⟨s3, k, g1, g2, g3, g4⟩ := cycle_split (i := i) hh1 hh2 hc (by simpa using hk)
    rw [List.append_assoc, List.singleton_append] at g1 g2
    have hn := (h.facts hrob).1
    split_ifs at ht2 ⊢ with hpos
    · obtain ⟨q, v, r, e1, e2, rfl⟩ := ht2
      obtain ⟨f1, f2⟩ := h.reach hrob ht hi hr g1 g2 (g3 _ e2) (g4 _ e1)
      rw [List.take_of_length_le f1.le]
      exact ⟨t, q, ht1, e1, v, r, rfl, f1.trans hn, f2⟩
    · obtain ⟨q, now, diff, ok, v, r, e1, e2, e3, e4, e5, rfl⟩ := ht2
      obtain ⟨f1, W, f2, f3⟩ := h.follow hrob hb htip ht hi hv g1 g2 (g3 _ e4) (g4 _ e1)
      obtain ⟨-, e6⟩ := g3 _ e3
      obtain ⟨-, x', e7, e8⟩ := g3 _ e2
      obtain ⟨h3, -, h4⟩ := h.after hrob g1 g2
      rw [fwdKin_kin h3 (g4 _ e1), h4 ht q ((g4 _ e1).trans hn)] at e7
      obtain rfl := Option.some.inj e8
      obtain rfl := Option.some.inj e7
      obtain ⟨rfl, rfl⟩ := Prod.mk.inj e6
      rw [List.take_of_length_le f1.le]
      exact ⟨t, q, ht1, e1, v, r, W, rfl, f1.trans hn, f2, f3⟩

/-- C82: and after a velocity was accepted (`movv`), in the frame that was chosen then. -/
theorem C82_movv_partial {closeT : Twist → Twist → Prop} (h : Deployed w st wt c cfg s0 k0)
    (hrob : KdlConfig.Robot c base descs tip) (hb : base.IsRigid) (htip : tip.IsRigid) (ht : ∀ d ∈ descs, d.Turns)
    (hi : i.Sized) (hv : i.Following closeT) {s s1 s2 : Ctl} {ds ds2 : List Done}
    (hh : Hist cfg s0 ds s) {xd : List ℝ} {tr : List Ev}
    (hx : Exec cfg (Op.prog cfg (.movv xd)) s tr (.ok (some true)) s1) (hh2 : Hist cfg s1 ds2 s2)
    (hno : ∀ d ∈ ds2, d.op.target = none) {k' : DynSolver}
    (hk : Answered i k0 (callsOf (ds ++ ⟨.movv xd, tr, some true⟩ :: ds2)) k') :
    ∃ paths start, Asked cfg s (.movv xd) tr (.ray paths start) ∧
      ∀ pre d post, ds2 = pre ++ d :: post → d.op = .cycle → ∀ e ∈ d.calls, IsMotion e →
        ∃ t q, Ev.now t ∈ d.calls ∧ Ev.getEncoders (some q) ∈ d.calls ∧
          let tool := lastTool (ds ++ ⟨.movv xd, tr, some true⟩ :: pre)
          ∃ v b W, e = .velocityMove v b ∧ v.length = descs.length ∧ ArmMoves base descs tip tool q v W ∧
            closeT W (turned s.frame (arm base descs tip tool q)
              (corrected (s.gain * (1000 / s.cmcPeriodMs)) (arm base descs tip tool q) (posesAt paths (t - start))
                (twistsAt paths (t - start)))) := by
  obtain ⟨plan, hp, hd⟩ := C71_commands_serve_partial (st := .movv) rfl (by simp) hx
  cases plan with
  | line => obtain ⟨xd, q, x, y, hp, -⟩ := hp; cases hp
  | push | weight => cases hp
  | ray paths start =>
    refine ⟨paths, start, hp, fun pre d post hds hc e he hm => ?_⟩
    obtain ⟨t, ht1, q, now, diff, ok, v, r, e1, e2, e3, e4, e5, rfl⟩ := hd ds2 s2 hh2 hno d (by simp [hds]) hc e he hm
    subst hds
    have hh1 : Hist cfg s0 (ds ++ [⟨.movv xd, tr, some true⟩]) s1 := hist_append hh (.cons hx (.nil _))
    obtain ⟨s3, k, g1, g2, g3, g4⟩ := cycle_split (i := i) hh1 hh2 hc (by simpa using hk)
    rw [List.append_assoc, List.singleton_append] at g1 g2
    have hn := (h.facts hrob).1
    obtain ⟨f1, W, f2, f3⟩ := h.follow hrob hb htip ht hi hv g1 g2 (g3 _ e4) (g4 _ e1)
    obtain ⟨-, e6⟩ := g3 _ e3
    obtain ⟨-, x', e7, e8⟩ := g3 _ e2
    obtain ⟨h3, -, h4⟩ := h.after hrob g1 g2
    rw [fwdKin_kin h3 (g4 _ e1), h4 ht q ((g4 _ e1).trans hn)] at e7
    obtain rfl := Option.some.inj e8
    obtain rfl := Option.some.inj e7
    obtain ⟨rfl, rfl⟩ := Prod.mk.inj e6
    rw [List.take_of_length_le f1.le]
    exact ⟨t, q, ht1, e1, v, r, W, rfl, f1.trans hn, f2, f3⟩

theorem placeAt_links {ls : List Link} {descs : List KdlConfig.Desc}
    (h : List.Forall₂ (fun l d => l.seg.joint.type ≠ .none ∧ ∀ x, l.seg.pose (x * deg2rad) = KdlConfig.Desc.place x d) ls descs)
    (rest : Chain) (r : Vec3) : ∀ (q : List ℝ) (acc : Frame) (j : ℕ), q.length = descs.length → j < descs.length →
    Chain.placeAt (ls.map (·.seg) ++ rest) (q.map (· * deg2rad)) acc j r =
      (acc * ((List.zipWith (fun d x => d.place x) descs q).take (j + 1)).prod).act r := by
  induction h with
  | nil => intro q acc j _ hj; simp at hj
  | @cons l d ls descs hl _ ih =>
    intro q acc j hq hj
    cases q with
    | nil => simp at hq
    | cons x q =>
      rw [List.map_cons, List.map_cons, List.cons_append]
      cases j with
      | zero =>
        rw [placeAt_zero _ _ _ _ _ hl.1, hl.2]
        simp
      | succ j =>
        rw [placeAt_succ _ _ _ _ _ _ hl.1, hl.2, ih q _ j (by simpa using hq) (by simpa using hj)]
        simp [mul_assoc]

theorem Deployed.links (h : Deployed w st wt c cfg s0 k0) (hrob : KdlConfig.Robot c base descs tip) (ht : ∀ d ∈ descs, d.Turns) :
    ∃ ls, k0.links = KdlConfig.fixedLink base :: ls ++ [KdlConfig.fixedLink tip] ∧
      List.Forall₂ (fun l d => l.seg.joint.type ≠ .none ∧ ∀ x, l.seg.pose (x * deg2rad) = KdlConfig.Desc.place x d) ls descs := by
  obtain ⟨d, o, k, hd, ho, hk, rfl⟩ := h.solver
  obtain ⟨ls, h1, -, h2⟩ := KdlConfig.robot_chain (robot_options ho hrob)
  obtain ⟨g1, -⟩ := KdlConfig.open_inv hk
  rw [h1] at g1
  refine ⟨ls, (Option.some.inj g1).symm, ?_⟩
  clear h1 g1 h hrob
  induction h2 with
  | nil => exact List.Forall₂.nil
  | cons hl _ ih => exact List.Forall₂.cons ⟨hl.1, fun q => hl.2.1 q (ht _ (by simp))⟩ (ih fun d hd => ht d (by simp [hd]))

/-- A link of the arm in the chain, whatever comes after the arm. -/
theorem Deployed.place (h : Deployed w st wt c cfg s0 k0) (hrob : KdlConfig.Robot c base descs tip) (ht : ∀ d ∈ descs, d.Turns)
    (rest : Chain) {q : List ℝ} (hq : q.length = descs.length) {j : ℕ} (hj : j < descs.length) (r : Vec3) :
    Chain.placeAt (k0.chain ++ rest) (q.map (· * deg2rad)) 1 (j + 1) r = (linkPlace base descs q j).act r := by
  obtain ⟨ls, hll, h3⟩ := h.links hrob ht
  show Chain.placeAt (k0.links.map (·.seg) ++ rest) _ _ _ _ = _
  rw [hll, List.cons_append, List.map_cons, List.map_append, List.cons_append, List.append_assoc,
    placeAt_succ_fixed _ _ _ _ _ (by simp [KdlConfig.fixedLink, Segment.make, Joint.fixed]),
    placeAt_links h3 _ _ q _ j hq hj]
  simp only [linkPlace]
  rw [show (KdlConfig.fixedLink base).seg.pose 0 = base from KdlConfig.fixed_pose _ _, one_mul]

/-- Only the links of the arm have a mass. -/
theorem sum_bodies (bodies : List (List MassPoint)) (m : ℕ) (f : ℕ → MassPoint → ℝ) :
    ∑ j ∈ Finset.range ([] :: bodies ++ List.replicate m []).length,
      ((([] :: bodies ++ List.replicate m []).getD j [] : List MassPoint).map (f j)).sum =
    ∑ j ∈ Finset.range bodies.length, ((bodies.getD j []).map (f (j + 1))).sum := by
  rw [show ([] :: bodies ++ List.replicate m [] : List (List MassPoint)).length = (bodies.length + m) + 1 by simp,
    Finset.sum_range_succ']
  have e2 : (([] :: bodies ++ List.replicate m []).getD 0 [] : List MassPoint) = [] := rfl
  rw [e2, List.map_nil, List.sum_nil, add_zero, Finset.sum_range_add]
  have e1 : ∀ j, (([] :: bodies ++ List.replicate m []).getD (bodies.length + j + 1) [] : List MassPoint) = [] := by
    intro j
    simp [List.getD, List.getElem?_append_right, List.getElem?_replicate]
    split_ifs <;> rfl
  simp only [e1, List.map_nil, List.sum_nil, Finset.sum_const_zero, add_zero]
  refine Finset.sum_congr rfl fun j hj => ?_
  have hj' : j < bodies.length := Finset.mem_range.mp hj
  have e3 : (([] :: bodies ++ List.replicate m []).getD (j + 1) [] : List MassPoint) = bodies.getD j [] := by
    simp [List.getD, List.getElem?_append_left hj']
  rw [e3]

theorem Deployed.energy (h : Deployed w st wt c cfg s0 k0) (hrob : KdlConfig.Robot c base descs tip) (ht : ∀ d ∈ descs, d.Turns)
    {bodies : List (List MassPoint)} (hl : bodies.length = descs.length) (g : Vec3) {q : List ℝ} (hq : q.length = descs.length) :
    DynSolver.potential k0.chain ([] :: bodies ++ [[]]) g (q.map (· * deg2rad)) = armEnergy base descs bodies g q := by
  unfold DynSolver.potential armEnergy
  rw [show [[]] = List.replicate 1 ([] : List MassPoint) from rfl, sum_bodies]
  refine Finset.sum_congr rfl fun j hj => ?_
  congr 1
  refine List.map_congr_left fun p _ => ?_
  have := h.place hrob ht [] hq (j := j) (by rw [← hl]; exact Finset.mem_range.mp hj) p.place
  rw [List.append_nil] at this
  rw [this]

theorem Deployed.work (h : Deployed w st wt c cfg s0 k0) (hrob : KdlConfig.Robot c base descs tip) (ht : ∀ d ∈ descs, d.Turns)
    {bodies : List (List MassPoint)} (hl : bodies.length = descs.length) (g : Vec3) (rest : Chain) (m : ℕ) {x y : ℝ → List ℝ}
    (hx : ∀ t, (x t).length = descs.length) (hy : ∀ t, (y t).length = descs.length) (t : ℝ) :
    newtonWork (k0.chain ++ rest) ([] :: bodies ++ List.replicate m []) g (fun u => (x u).map (· * deg2rad))
      (fun u => (y u).map (· * deg2rad)) (fun _ => 1) (fun _ => 1) t = armWork base descs bodies g x y t := by
  unfold newtonWork armWork
  rw [sum_bodies]
  refine Finset.sum_congr rfl fun j hj => ?_
  congr 1
  refine List.map_congr_left fun p _ => ?_
  have hj' : j < descs.length := by rw [← hl]; exact Finset.mem_range.mp hj
  simp only [h.place hrob ht rest (hx _) hj', h.place hrob ht rest (hy _) hj']

theorem weighs_options {o : Config} (hg : o.group = c.group) {j : ℕ} {b : Option KdlConfig.Solid} (h : KdlConfig.Weighs c j b) :
    KdlConfig.Weighs o j b := by
  cases h with
  | solid a h1 h2 h3 => exact .solid (by rw [hg]; exact a) h1 h2 h3
  | dh a h1 => exact .dh (by rw [hg]; exact a) h1
  | xyz a => exact .xyz (by rw [hg]; exact a)

theorem Deployed.bodies (h : Deployed w st wt c cfg s0 k0) (hrob : KdlConfig.Robot c base descs tip)
    (hb : base.IsRigid) (htip : tip.IsRigid) {solids : List (Option KdlConfig.Solid)}
    (hlen : solids.length = descs.length) (hw : ∀ (j : ℕ) (b : Option KdlConfig.Solid), solids[j]? = some b → KdlConfig.Weighs c j b)
    (hp : ∀ s, some s ∈ solids → s.Possible) :
    ∃ bodies, k0.Describes ([] :: bodies ++ [[]]) ∧ List.Forall₂ (fun b pts => (b = none → pts = []) ∧
      ∀ s, b = some s → KdlConfig.Solid.IsMadeOf s pts) solids bodies := by
  obtain ⟨d, o, k, hd, ho, hop, rfl⟩ := h.solver
  exact KdlConfig.C75_bodies (robot_options ho hrob) hb htip hlen (fun j b hj => weighs_options ho.1 (hw j b hj)) hp hop

/-- C82: after gravity compensation was accepted (`gcmp`), the torques that the loop sends hold the links of the
configuration against gravity, whatever tools were put on: they are the slopes of the potential energy. -/
theorem C82_gcmp_partial (h : Deployed w st wt c cfg s0 k0) (hrob : KdlConfig.Robot c base descs tip)
    (hb : base.IsRigid) (htip : tip.IsRigid) (ht : ∀ d ∈ descs, d.Turns) {solids : List (Option KdlConfig.Solid)}
    (hlen : solids.length = descs.length) (hw : ∀ (j : ℕ) (b : Option KdlConfig.Solid), solids[j]? = some b → KdlConfig.Weighs c j b)
    (hp : ∀ s, some s ∈ solids → s.Possible) {s s1 s2 : Ctl} {ds ds2 : List Done}
    (hh : Hist cfg s0 ds s) {tr : List Ev}
    (hx : Exec cfg (Op.prog cfg .gcmp) s tr (.ok (some true)) s1) (hh2 : Hist cfg s1 ds2 s2)
    (hno : ∀ d ∈ ds2, d.op.target = none) {k' : DynSolver}
    (hk : Answered i k0 (callsOf (ds ++ ⟨.gcmp, tr, some true⟩ :: ds2)) k') :
    ∃ bodies, List.Forall₂ (fun b pts => (b = none → pts = []) ∧ ∀ s, b = some s → KdlConfig.Solid.IsMadeOf s pts) solids bodies ∧
      ∀ d ∈ ds2, d.op = .cycle → ∀ e ∈ d.calls, IsMotion e →
      ∃ q τ b, Ev.getEncoders (some q) ∈ d.calls ∧ e = .setRefTorques τ b ∧ τ.length = descs.length ∧
        ∀ δ : List ℝ, δ.length = descs.length →
          HasDerivAt (fun ε => armEnergy base descs bodies k0.gravity (advance q (δ.map (· * rad2deg)) ε))
            (List.zipWith (· * ·) τ δ).sum 0 := by
  obtain ⟨bodies, hbod, hmade⟩ := h.bodies hrob hb htip hlen hw hp
  refine ⟨bodies, hmade, ?_⟩
  have hbl : bodies.length = descs.length := hmade.length_eq.symm.trans hlen
  obtain ⟨plan, hp, hd⟩ := C71_commands_serve_partial (st := .gcmp) rfl (by simp) hx
  cases plan with
  | line => obtain ⟨xd, q, x, y, hp, -⟩ := hp; cases hp
  | ray => obtain ⟨xd, q, x, hp, -⟩ := hp; cases hp
  | push => cases hp
  | weight =>
    intro d hmem hc e he hm
    obtain ⟨q, τ, b, e1, e2, rfl⟩ := hd ds2 s2 hh2 hno d hmem hc e he hm
    obtain ⟨pre, post, rfl⟩ := List.append_of_mem hmem
    have hh1 : Hist cfg s0 (ds ++ [⟨.gcmp, tr, some true⟩]) s1 := hist_append hh (.cons hx (.nil _))
    obtain ⟨s3, k, g1, g2, g3, g4⟩ := cycle_split (i := i) hh1 hh2 hc (by simpa using hk)
    obtain ⟨hn, -, hj, -⟩ := h.facts hrob
    obtain ⟨-, h4, -⟩ := h.after hrob g1 g2
    obtain ⟨-, e3⟩ := g3 _ e2
    have hnow : k0.chain.nJoints = cfg.numJoints := hj.now
    have hql : q.length = descs.length := (g4 _ e1).trans hn
    obtain ⟨τ', f1, f2, f3⟩ := DynSolver.C74_torques_balance_gravity hbod q (by rw [g4 _ e1, hnow])
    rw [h4.static, f1] at e3
    obtain rfl := Option.some.inj (Option.some.inj e3)
    rw [List.take_of_length_le (by rw [f2, hnow])]
    refine ⟨q, τ', b, e1, rfl, by rw [f2, hnow, hn], fun δ hδ => ?_⟩
    have := f3 δ (by rw [hnow, hn, hδ])
    rw [List.take_of_length_le (by rw [g4 _ e1, hnow])] at this
    refine this.congr_of_eventuallyEq (Filter.Eventually.of_forall fun ε => ?_)
    have hl' : (advance q (δ.map (· * rad2deg)) ε).length = descs.length := by
      rw [KdlSolver.advance_length, List.length_map, hql, hδ, min_self]
    dsimp only
    rw [← h.energy hrob ht hbl k0.gravity hl', KdlSolver.advance_radians _ _ _ (hql.trans hδ.symm)]

theorem forc_base {s s' : Ctl} {f : List ℝ} {tr : List Ev}
    (hx : Exec cfg (Op.prog cfg (.forc f)) s tr (.ok (some true)) s') : s.frame = .base := by
  cases hf : s.frame with
  | base => rfl
  | tcp =>
    refine absurd rfl (wp_sound (Q := fun o _ _ => o ≠ .ok (some true)) ?_ hx)
    show wp _ (Prog.bind (forc f) _) _ _ _
    unfold forc setCurrentState
    dev_simp
    simp [hf]

theorem WithTool.describes {k0 k : DynSolver} {T : Frame} (h : WithTool k0 T k) {bodies : List (List MassPoint)}
    (hb : k0.Describes ([] :: bodies ++ [[]])) :
    ∃ rest m, k.chain = k0.chain ++ rest ∧ k.Describes ([] :: bodies ++ List.replicate m []) := by
  rcases h.links with hl | ⟨x, rfl⟩
  · refine ⟨[], 1, ?_, ?_, ?_⟩
    · unfold DynSolver.chain
      rw [hl, List.append_nil]
    · rw [hl]; exact hb.proper
    · rw [hl]; exact hb.bodies
  · refine ⟨[Segment.make Joint.fixed (vectorToFrame x)], 2, ?_, fun l hl => ?_, ?_⟩
    · unfold DynSolver.chain DynSolver.appendLink
      rw [List.map_append]
      rfl
    · rcases List.mem_append.mp hl with hl | hl
      · exact hb.proper l hl
      · rw [List.mem_singleton.mp hl]
        exact KdlConfig.fixed_wf (KD.vectorToFrame_rigid x)
    · rw [show ([] :: bodies ++ List.replicate 2 [] : List (List MassPoint)) = ([] :: bodies ++ [[]]) ++ [[]] by simp]
      refine List.rel_append (R := fun (l : Link) b => Inertia.Of l.inertia b) hb.bodies (.cons KdlConfig.zero_of .nil)

/-- C82: after a force was accepted (`forc`), the torques that the loop sends are those of Newton's law for the links of
the configuration, if they move as it was read, and for the force that the tool shall exert, in base axes: for every
virtual displacement, the work of the torques is that of the forces that accelerate the links against gravity, plus that
of the force. -/
theorem C82_forc_partial (h : Deployed w st wt c cfg s0 k0) (hrob : KdlConfig.Robot c base descs tip)
    (hb : base.IsRigid) (htip : tip.IsRigid) (ht : ∀ d ∈ descs, d.Turns) {solids : List (Option KdlConfig.Solid)}
    (hlen : solids.length = descs.length) (hw : ∀ (j : ℕ) (b : Option KdlConfig.Solid), solids[j]? = some b → KdlConfig.Weighs c j b)
    (hp : ∀ s, some s ∈ solids → s.Possible) {s s1 s2 : Ctl} {ds ds2 : List Done}
    (hh : Hist cfg s0 ds s) {fx fy fz nx ny nz : ℝ} {tr : List Ev}
    (hx : Exec cfg (Op.prog cfg (.forc [fx, fy, fz, nx, ny, nz])) s tr (.ok (some true)) s1) (hh2 : Hist cfg s1 ds2 s2)
    (hno : ∀ d ∈ ds2, d.op.target = none) {k' : DynSolver}
    (hk : Answered i k0 (callsOf (ds ++ ⟨.forc [fx, fy, fz, nx, ny, nz], tr, some true⟩ :: ds2)) k') :
    ∃ bodies, List.Forall₂ (fun b pts => (b = none → pts = []) ∧ ∀ s, b = some s → KdlConfig.Solid.IsMadeOf s pts) solids bodies ∧
      ∀ pre d post, ds2 = pre ++ d :: post → d.op = .cycle → ∀ e ∈ d.calls, IsMotion e →
      ∃ q v a τ b, Ev.getEncoders (some q) ∈ d.calls ∧ Ev.getEncoderSpeeds (some v) ∈ d.calls ∧
        Ev.getEncoderAccelerations (some a) ∈ d.calls ∧ e = .setRefTorques τ b ∧ τ.length = descs.length ∧
        ∀ (ms : List JointMotion) (t : ℝ), (ms.map fun m => m.pos t * rad2deg) = q → (ms.map fun m => m.vel t * rad2deg) = v →
          (ms.map fun m => m.acc t * rad2deg) = a → ∀ δ : List ℝ, δ.length = descs.length →
          ∃ W, ArmMoves base descs tip (lastTool (ds ++ ⟨.forc [fx, fy, fz, nx, ny, nz], tr, some true⟩ :: pre)) q
              (δ.map (· * rad2deg)) W ∧
            (List.zipWith (· * ·) τ δ).sum = armWork base descs bodies k0.gravity (fun u => ms.map fun m => m.pos u * rad2deg)
              (advance q (δ.map (· * rad2deg))) t + (Vec3.dot W.vel ⟨fx, fy, fz⟩ + Vec3.dot W.rot ⟨nx, ny, nz⟩) := by
  obtain ⟨bodies, hbod, hmade⟩ := h.bodies hrob hb htip hlen hw hp
  refine ⟨bodies, hmade, ?_⟩
  have hbl : bodies.length = descs.length := hmade.length_eq.symm.trans hlen
  obtain ⟨plan, hp, hd⟩ := C71_commands_serve_partial (st := .forc) rfl (by simp) hx
  have hbase := forc_base hx
  cases plan with
  | line => obtain ⟨xd, q, x, y, hp, -⟩ := hp; cases hp
  | ray => obtain ⟨xd, q, x, hp, -⟩ := hp; cases hp
  | weight => cases hp
  | push force =>
    cases hp
    intro pre d post hds hc e he hm
    obtain ⟨q, v, a, τ, b, e1, e2, e3, e4, rfl⟩ := hd ds2 s2 hh2 hno d (by simp [hds]) hc e he hm
    subst hds
    have hh1 : Hist cfg s0 (ds ++ [⟨.forc [fx, fy, fz, nx, ny, nz], tr, some true⟩]) s1 := hist_append hh (.cons hx (.nil _))
    obtain ⟨s3, k, g1, g2, g3, g4⟩ := cycle_split (i := i) hh1 hh2 hc (by simpa using hk)
    rw [List.append_assoc, List.singleton_append] at g1 g2
    obtain ⟨hn, htcp, hj, -⟩ := h.facts hrob
    obtain ⟨hjk, h4, h5⟩ := h.after hrob g1 g2
    have hnow : k.chain.nJoints = cfg.numJoints := hjk.now
    have hql : q.length = descs.length := (g4 _ e1).trans hn
    obtain ⟨-, e5⟩ := g3 _ e4
    have hτ : τ.length = descs.length := by
      obtain ⟨sa, sb, -, hcyc, -⟩ := hist_split hh2
      have e6 : k.invDyn q v a ([fx, fy, fz, nx, ny, nz].map fun f => -f) s.frame.solver = some (some τ) := e5
      obtain ⟨ws, h2⟩ := invDyn_eq hjk ([fx, fy, fz, nx, ny, nz].map fun f => -f) s.frame (encoders_sized hcyc e1)
        (speeds_sized hcyc e2) (accelerations_sized hcyc e3)
      rw [h2] at e6
      rw [rne_length (Option.some.inj e6), List.length_map, hql]
    rw [List.take_of_length_le (by rw [hτ, hn])]
    refine ⟨q, v, a, τ, b, e1, e2, e3, rfl, hτ, fun ms t m1 m2 m3 δ hδ => ?_⟩
    obtain ⟨rest, m, hrest, hdesc⟩ := h4.describes hbod
    have hms : ms.length = descs.length := by rw [← hql, ← m1, List.length_map]
    obtain ⟨τ', f1, f2, f3⟩ := DynSolver.C74_newton_base hdesc hjk.links ms (by rw [hnow, hn, hms]) t (-fx) (-fy) (-fz) (-nx) (-ny) (-nz)
    rw [m1, m2, m3] at f1
    rw [hbase] at e5
    have e6 := e5.symm.trans f1
    obtain rfl := Option.some.inj (Option.some.inj e6)
    obtain ⟨tp, W, w1, w2, w3⟩ := f3 δ (hδ.trans hms.symm)
    have hposq : ms.map (·.pos t) = q.map (· * deg2rad) := by
      rw [← m1, List.map_map]
      refine List.map_congr_left fun m _ => ?_
      exact (KdlSolver.deg_rad _).symm
    have hl' : ∀ ε, (advance q (δ.map (· * rad2deg)) ε).length = descs.length := fun ε => by
      rw [KdlSolver.advance_length, List.length_map, hql, hδ, min_self]
    have hadv : ∀ ε, advance (ms.map (·.pos t)) δ ε = (advance q (δ.map (· * rad2deg)) ε).map (· * deg2rad) := fun ε => by
      rw [hposq, KdlSolver.advance_radians _ _ _ (hql.trans hδ.symm)]
    refine ⟨W, ?_, ?_⟩
    · have : tp = fun ε => arm base descs tip (lastTool (ds ++ ⟨.forc [fx, fy, fz, nx, ny, nz], tr, some true⟩ :: pre))
          (advance q (δ.map (· * rad2deg)) ε) := by
        funext ε
        have := w1 ε
        rw [hadv, h5 ht _ (hl' ε)] at this
        exact (Option.some.inj this).symm
      rw [this] at w2
      exact w2
    · have hwork := h.work hrob ht hbl k0.gravity rest m (x := fun u => ms.map fun m => m.pos u * rad2deg)
        (y := advance q (δ.map (· * rad2deg))) (fun u => by rw [List.length_map, hms]) hl' t
      rw [w3, ← hwork, hrest, h4.gravity]
      have x1 : (fun u => (ms.map fun m => m.pos u * rad2deg).map (· * deg2rad)) = fun u => ms.map (·.pos u) := by
        funext u
        rw [List.map_map]
        refine List.map_congr_left fun m _ => ?_
        exact KdlSolver.deg_rad _
      have x2 : (fun u => (advance q (δ.map (· * rad2deg)) u).map (· * deg2rad)) = advance (ms.map (·.pos t)) δ := by
        funext u
        exact (hadv u).symm
      rw [x1, x2]
      simp only [Vec3.dot]
      ring

end

/-! ## The hypotheses are met -/

/-- Inverse solvers whose solutions are exact. -/
def exact : Inverse where
  pos p := (∀ c q f, q.length = Chain.nJoints c → (p c q f).2.length = Chain.nJoints c) ∧
    ∀ c q f, q.length = Chain.nJoints c → 0 ≤ (p c q f).1 → Chain.fk c (p c q f).2 = some f
  vel v := (∀ c q t, q.length = Chain.nJoints c → (v c q t).2.length = Chain.nJoints c) ∧
    ∀ (c : Chain) q t cols, c.jacobian q = some cols → 0 ≤ (v c q t).1 → Twist.combine (v c q t).2 cols = t

theorem exact_sized : exact.Sized := ⟨fun _ h => h.1, fun _ h => h.1⟩

theorem exact_reaching : exact.Reaching (· = ·) := fun _ h c q f hq h0 => ⟨f, h.2 c q f hq h0, rfl⟩

theorem exact_following : exact.Following (· = ·) := fun _ h => h.2

/-- One that knows the joints for a single pose. -/
noncomputable def onePose (c0 : Chain) (q0 : List ℝ) (f0 : Frame) : PosSolver :=
  open Classical in fun c _ f => if c = c0 ∧ f = f0 then (0, q0) else (-1, List.replicate (Chain.nJoints c) 0)

theorem onePose_exact {c0 : Chain} {q0 : List ℝ} {f0 : Frame} (hq : q0.length = c0.nJoints) (h : c0.fk q0 = some f0) :
    exact.pos (onePose c0 q0 f0) := by
  refine ⟨fun c q f _ => ?_, fun c q f _ h0 => ?_⟩
  · unfold onePose
    split_ifs with h
    · rw [h.1]; exact hq
    · simp
  · unfold onePose at h0 ⊢
    split_ifs with h1
    · rw [h1.1, h1.2]; exact h
    · rw [if_neg h1] at h0; norm_num at h0

/-- One that only knows how to stay. -/
noncomputable def staying : VelSolver :=
  open Classical in fun c _ t => (if t = 0 then 0 else -1, List.replicate (Chain.nJoints c) 0)

theorem combine_zero : ∀ (n : ℕ) (cols : List Twist), Twist.combine (List.replicate n 0) cols = 0 := by
  intro n
  induction n with
  | zero => intro cols; cases cols <;> rfl
  | succ n ih =>
    intro cols
    cases cols with
    | nil => rfl
    | cons a l =>
      rw [List.replicate_succ]
      show (0 : ℝ) • a + Twist.combine (List.replicate n 0) l = 0
      rw [ih]
      ext <;> simp

theorem staying_exact : exact.vel staying := by
  refine ⟨fun c q t _ => by simp [staying], fun c q t cols _ h0 => ?_⟩
  unfold staying at h0 ⊢
  dsimp only at h0 ⊢
  split_ifs at h0 with h1
  · rw [combine_zero, h1]
  · norm_num at h0

/-- A robot of two joints with the solver of KDL, for the arm with two links in a plane. -/
noncomputable def wideWorld : World :=
  { planarWorld with robot := fun _ => some { simRobot with axes := some 2, limits := fun _ => some (-100, 100) } }

/-- The controller for that arm. -/
theorem planar_deployed : ∃ cfg s0 k0, Deployed wideWorld (fun _ => true) true KdlConfig.planar cfg s0 k0 ∧
    Usable wideWorld KdlConfig.planar cfg ∧ cfg.numJoints = 2 ∧ cfg.numTcps = 1 ∧ cfg.qRefSpeeds = [2, 2] ∧
    InLimits cfg [-45, -45] ∧ InVelLimits cfg [0, 0] ∧ s0.frame = .base ∧ cfg.usePosdMovl = false ∧
    cfg.enableFailFast = false ∧ cfg.line = oneJoint.line ∧ s0.cmcPeriodMs = 50 ∧ 0 < s0.duration := by
  obtain ⟨cfg, s0, h, h1, h2⟩ := C81_kdl_opens (w := wideWorld) (st := fun _ => true) (wt := true) (c := KdlConfig.planar)
      (r := { simRobot with axes := some 2, limits := fun _ => some (-100, 100) })
      (dr := "remote_controlboard") (ds := "KdlSolver") (fun _ => rfl) KdlConfig.planar_robot
      (fun h => absurd rfl h) (Or.inl (Or.inr ⟨rfl, rfl⟩)) (Or.inr ⟨rfl, rfl⟩) (Or.inr ⟨rfl, rfl⟩) (fun _ _ => rfl)
      ⟨rfl, rfl, rfl, rfl, rfl, rfl⟩ rfl (by simp [simRobot]) (Or.inr (Or.inr rfl)) rfl
      (fun _ _ => ⟨-100, 100, -5, 5, ⟨rfl, rfl⟩, by norm_num⟩) rfl rfl rfl rfl (Or.inl rfl) rfl
  obtain ⟨k0, hk⟩ := deployed (d := "KdlSolver") (st := fun _ => true) (wt := true) (fun _ => rfl) h (Or.inr ⟨rfl, rfl⟩)
  refine ⟨cfg, s0, k0, hk, ⟨Or.inr (Or.inr rfl), fun o r n l hr hl => ?_, fun o r j lo hi hr hl => ?_, fun _ => ?_,
    50, Or.inr ⟨rfl, rfl⟩, by norm_num⟩, h1, h2, ?_⟩
  · cases Option.some.inj hr
    cases Option.some.inj hl
    simp
  · cases Option.some.inj hr
    obtain ⟨rfl, rfl⟩ := Prod.mk.inj (Option.some.inj hl)
    norm_num [tol]
  · rw [h1]; norm_num
  · obtain ⟨frame, r, n, refs, ls, options, tcps, -, h2, h3, -, h5, h6, h7, -, -, h10⟩ := open_steps h
    cases Option.some.inj h3
    cases Option.some.inj h5
    cases Option.some.inj h6
    cases Option.some.inj h2
    obtain ⟨-, hr, -⟩ := takeLimits_robot (Or.inr (Or.inr rfl)) h7
    cases Option.some.inj hr
    obtain ⟨rfl, rfl⟩ := Prod.mk.inj h10
    refine ⟨rfl, fun j hj => ?_, fun j hj => ?_, rfl, rfl, rfl, rfl, rfl, ?_⟩
    · match j, hj with
      | 0, _ => exact ⟨-45, -100, 100, rfl, rfl, rfl, by norm_num [tol], by norm_num [tol]⟩
      | 1, _ => exact ⟨-45, -100, 100, rfl, rfl, rfl, by norm_num [tol], by norm_num [tol]⟩
    · match j, hj with
      | 0, _ => exact ⟨0, -5, 5, rfl, rfl, rfl, by norm_num, by norm_num⟩
      | 1, _ => exact ⟨0, -5, 5, rfl, rfl, rfl, by norm_num, by norm_num⟩
    · show (0 : ℝ) < 10
      norm_num

/-- The links of that arm. -/
def twoLinks : List KdlConfig.Desc := [.dh 0 0 1 0, .dh 90 0 2 0]

/-- Where it is with the joints at -45 degrees: it points along the first axis. -/
noncomputable def straight : List ℝ := [Real.cos (45 * deg2rad) + 2, -Real.sin (45 * deg2rad), 0, 0, 0, 0]

theorem straight_frame : vectorToFrame straight = Frame.trans ⟨Real.cos (45 * deg2rad) + 2, -Real.sin (45 * deg2rad), 0⟩ := by
  have : Vec3.norm ⟨0, 0, 0⟩ = 0 := Vec3.norm_zero
  simp only [straight, vectorToFrame, this, Mat3.rot, Mat3.rot2_zero]
  rfl

theorem straight_arm : arm 1 twoLinks 1 1 [-45, -45] = vectorToFrame straight := by
  rw [straight_frame]
  have h1 : Real.cos (45 * deg2rad) ^ 2 + Real.sin (45 * deg2rad) ^ 2 = 1 := Real.cos_sq_add_sin_sq _
  have e1 : (-45 + 0) * deg2rad = -(45 * deg2rad) := by ring
  have e2 : (-45 + 90) * deg2rad = 45 * deg2rad := by ring
  simp only [arm, twoLinks, List.zipWith_cons_cons, List.zipWith_nil_left, List.prod_cons, List.prod_nil, KdlConfig.Desc.place,
    zero_mul, Mat3.rot2_zero, e1, e2, mul_one, one_mul]
  generalize 45 * deg2rad = a at *
  rw [Frame.ext_iff]
  constructor
  · ext <;> simp [Frame.trans, Mat3.rot2] <;> nlinarith
  · ext <;> simp [Frame.trans, Mat3.rot2] <;> nlinarith

theorem straight_vector : frameToVector (vectorToFrame straight) = straight := by
  rw [straight_frame]
  show [_, _, _, (Mat3.getRot 1).x, (Mat3.getRot 1).y, (Mat3.getRot 1).z] = _
  rw [getRot_one]
  rfl

/-- A movement of the joints that straightens the arm. -/
example : ∃ cfg s0 k0, Deployed wideWorld (fun _ => true) true KdlConfig.planar cfg s0 k0 ∧
    KdlConfig.Robot KdlConfig.planar 1 twoLinks 1 ∧ (∀ d ∈ twoLinks, d.Turns) ∧
    ∃ tr s', Exec cfg (Op.prog cfg (.movj straight)) s0 tr (.ok (some true)) s' ∧ Answered exact k0 tr k0 ∧
      Ev.positionMove [-45, -45] true ∈ tr := by
  obtain ⟨cfg, s0, k0, h, hu, h1, h2, h3, h4, h5, h6, h7, h8, h9, h10, h11⟩ := planar_deployed
  have hr : KdlConfig.Robot KdlConfig.planar 1 twoLinks 1 := KdlConfig.planar_robot
  have ht : ∀ d ∈ twoLinks, d.Turns := by simp [twoLinks, KdlConfig.Desc.Turns]
  obtain ⟨-, -, hj, -, hfk⟩ := h.facts hr
  refine ⟨cfg, s0, k0, h, hr, ht, ?_⟩
  have hspeeds : computeIsocronousSpeeds cfg [0, 0] [-45, -45] = some ([2, 2], true) := by
    unfold computeIsocronousSpeeds
    rw [h1]
    simp [isoDeltas, h3]
    norm_num
  have hc : can (robot cfg) (Op.prog cfg (.movj straight)) (fun o _ tr => o = .ok (some true) ∧ tr =
      [Ev.getEncoders (some [0, 0]), Ev.invKin straight [0, 0] .base (some [-45, -45]),
      Ev.getRefSpeeds (some [2, 2]), Ev.setRefSpeeds [2, 2] true, Ev.getControlModes (some [.position, .position]),
      Ev.delay (1 / 10) (), Ev.getControlModes (some [.position, .position]), Ev.positionMove [-45, -45] true]) s0 [] := by
    show can (robot cfg) (Prog.bind (movj cfg straight) _) _ _ _
    unfold movj setCurrentState
    can_simp
    refine ⟨some [0, 0], some_length (by simp [h1]), ?_⟩
    can_simp
    refine ⟨some [-45, -45], ?_⟩
    dsimp only
    rw [hspeeds]
    can_simp
    refine Or.inl ⟨trivial, some [2, 2], some_length (by simp [h1]), ?_⟩
    can_simp
    refine ⟨true, Or.inl ⟨rfl, can_setModes' [.position, .position] (by simp [h1]) (by simp) ?_⟩⟩
    can_simp
    refine Or.inl ⟨trivial, Or.inr ⟨[-45, -45], ?_, true, Or.inl ⟨rfl, ?_⟩⟩⟩
    · simp [buffer, h1]
    · simp [h6]
  obtain ⟨tr, o, s', hx, rfl, rfl⟩ := can_run hc
  refine ⟨_, s', hx, ?_, by simp⟩
  refine .cons rfl (.cons ⟨rfl, onePose k0.chain ([-45, -45].map (· * deg2rad)) (vectorToFrame straight),
    onePose_exact ?_ ?_, ?_⟩ (.cons rfl (.cons rfl (.cons rfl (.cons rfl (.cons rfl (.cons rfl (.nil _))))))))
  · rw [hj.now, h1]; rfl
  · rw [hfk ht _ rfl, straight_arm]
  · obtain ⟨now, -, e⟩ := invKin_eq hj (onePose k0.chain ([-45, -45].map (· * deg2rad)) (vectorToFrame straight)) straight
      [0, 0] .base (by rw [h1]; rfl)
    rw [e]
    have : 45 * deg2rad * rad2deg = 45 := by rw [mul_right_comm, KdlSolver.deg_rad]
    simp [onePose, aim, this]

/-- A line that ends where the arm is, and a cycle of it. -/
example : ∃ cfg s0 k0, Deployed wideWorld (fun _ => true) true KdlConfig.planar cfg s0 k0 ∧
    KdlConfig.Robot KdlConfig.planar 1 twoLinks 1 ∧ (∀ d ∈ twoLinks, d.Turns) ∧
    ∃ tr s1 tr2 s2, Exec cfg (Op.prog cfg (.movl straight)) s0 tr (.ok (some true)) s1 ∧
      Hist cfg s1 [⟨.cycle, tr2, none⟩] s2 ∧
      Answered exact k0 (callsOf ([] ++ ⟨.movl straight, tr, some true⟩ :: [⟨.cycle, tr2, none⟩])) k0 ∧
      Ev.velocityMove [0, 0] true ∈ tr2 := by
  obtain ⟨cfg, s0, k0, h, hu, h1, h2, h3, h4, h5, h6, h7, h8, h9, h10, h11⟩ := planar_deployed
  have hr : KdlConfig.Robot KdlConfig.planar 1 twoLinks 1 := KdlConfig.planar_robot
  have ht : ∀ d ∈ twoLinks, d.Turns := by simp [twoLinks, KdlConfig.Desc.Turns]
  obtain ⟨-, -, hj, -, hfk⟩ := h.facts hr
  refine ⟨cfg, s0, k0, h, hr, ht, ?_⟩
  let path : Traj := ⟨s0.duration, fun _ => vectorToFrame straight, fun _ => ⟨0, 0⟩⟩
  let mid : Ctl := { s0 with trajectories := [path], movementStartTime := 0, cmcSuccess := true, state := .movl,
                             streaming := vocabNotSet }
  have hline : lineTrajs cfg s0.duration straight straight 0 (straight.length / 6) = some [path] := by
    show lineTrajs cfg s0.duration straight straight 0 1 = _
    simp [lineTrajs, slice, straight, h9, path, oneJoint]
  have hc : can (robot cfg) (Op.prog cfg (.movl straight)) (fun o s' tr => o = .ok (some true) ∧ s' = mid ∧ tr =
      [Ev.getEncoders (some [-45, -45]), Ev.fwdKin [-45, -45] (some straight),
      Ev.getControlModes (some [.velocity, .velocity]),
      Ev.delay (1 / 10) (), Ev.getControlModes (some [.velocity, .velocity]), Ev.now 0]) s0 [] := by
    show can (robot cfg) (Prog.bind (movl cfg straight) _) _ _ _
    unfold movl movlStart setCurrentState
    can_simp
    refine ⟨some [-45, -45], some_length (by simp [h1]), ?_⟩
    can_simp
    refine ⟨some straight, ?_⟩
    dsimp only
    can_simp
    refine Or.inr ⟨by simp [h6], ?_⟩
    refine Or.inr ⟨[path], hline, Or.inr ⟨by simp [h8], ?_⟩⟩
    rw [show movlMode cfg = .velocity by simp [movlMode, h7]]
    refine Or.inl ⟨trivial, can_setModes' [.velocity, .velocity] (by simp [h1]) (by simp) ?_⟩
    can_simp
    exact Or.inl ⟨trivial, 0, trivial, rfl, by simp⟩
  obtain ⟨tr, o, s1, hx, rfl, rfl, rfl⟩ := can_run hc
  have hlaw : controlLaw s0.gain 50 KdlSolver.origin [0, 0, 0, 0, 0, 0] = some [0, 0, 0, 0, 0, 0] := by
    simp [controlLaw, KdlSolver.origin]
  have hc2 : can (robot cfg) (Op.prog cfg .cycle) (fun o s' tr => o = .ok none ∧ tr =
      [Ev.getEncoders (some [-45, -45]), Ev.getEncoderSpeeds (some [0, 0]), Ev.getEncoderAccelerations (some [0, 0]),
      Ev.getControlModes (some [.velocity, .velocity]), Ev.now 0, Ev.fwdKin [-45, -45] (some straight),
      Ev.poseDiff straight straight (true, KdlSolver.origin), Ev.diffInvKin [-45, -45] [0, 0, 0, 0, 0, 0] .base (some [0, 0]),
      Ev.velocityMove [0, 0] true]) mid [] := by
    show can (robot cfg) (Prog.bind (run cfg) _) _ _ _
    unfold run getCurrentState runBody readEncoders
    can_simp
    refine Or.inr ⟨by simp [mid], some [-45, -45], some_length (by simp [h1]), ?_⟩
    can_simp
    refine ⟨some [0, 0], some_length (by simp [h1]), ?_⟩
    can_simp
    refine ⟨some [0, 0], some_length (by simp [h1]), ?_⟩
    can_simp
    refine Or.inr ⟨true, (checkJointLimits_iff cfg _).mpr h4, Or.inl ⟨rfl, ?_⟩⟩
    rw [show dispatch cfg .movl [-45, -45] [0, 0] [0, 0] = handleMovlVel cfg [-45, -45] by simp [dispatch, h7]]
    unfold handleMovlVel
    can_simp
    refine can_checkModes [.velocity, .velocity] (by simp [h1]) ?_
    can_simp
    refine Or.inl ⟨by simp, 0, Or.inr ⟨?_, some straight, ?_⟩⟩
    · simp [mid, path, h11.le]
    unfold sendVelocity
    can_simp
    refine ⟨(true, KdlSolver.origin), Or.inr ⟨[0, 0, 0, 0, 0, 0], ?_, some [0, 0], ?_⟩⟩
    · have : twistsAt mid.trajectories (0 - mid.movementStartTime) = [0, 0, 0, 0, 0, 0] := by
        simp [mid, path, twistsAt, KdlVectorConverter.twistToVector]
      rw [this, ← hlaw, ← h10]
    can_simp
    refine Or.inr ⟨true, (checkJointVelocities_iff cfg _).mpr h5, Or.inl ⟨rfl, Or.inr ⟨[0, 0], by simp [buffer, h1], true, ?_⟩⟩⟩
    have : posesAt mid.trajectories (-mid.movementStartTime) = straight := by
      simp [mid, path, posesAt, straight_vector]
    simp [this]
  obtain ⟨tr2, o, s2, hx2, rfl, rfl⟩ := can_run hc2
  refine ⟨_, mid, _, s2, hx, .cons hx2 (.nil _), ?_, by simp⟩
  have hfw : k0.kin.fwdKin [-45, -45] = some straight := by
    rw [fwdKin_kin hj (by rw [h1]; rfl), hfk ht _ rfl, straight_arm, Option.map_some, straight_vector]
  refine .cons rfl (.cons ⟨rfl, straight, hfw, rfl⟩ (.cons rfl (.cons rfl (.cons rfl (.cons rfl (.cons rfl (.cons rfl (.cons rfl
    (.cons rfl (.cons rfl (.cons ⟨rfl, straight, hfw, rfl⟩ (.cons ⟨rfl, ?_⟩ (.cons ⟨rfl, staying, staying_exact, ?_⟩
    (.cons rfl (.nil _)))))))))))))))
  · rw [KdlSolver.C53_pose_diff_of_equal _ _ rfl]
  · obtain ⟨now, -, t, e0, e⟩ := diffInvKin_eq hj staying [0, 0, 0, 0, 0, 0] [-45, -45] .base (by rw [h1]; rfl)
    rw [e]
    have : t = 0 := e0
    have hn : k0.chain.nJoints = 2 := hj.now.trans h1
    simp [staying, this, hn]

/-- The masses of the links of that robot. -/
noncomputable def twoSolids : List (Option KdlConfig.Solid) := [none, some ⟨3, ⟨-1, 0, 0⟩, ⟨1, 1, 1⟩⟩]

theorem twoSolids_weigh : ∀ (j : ℕ) (b : Option KdlConfig.Solid), twoSolids[j]? = some b → KdlConfig.Weighs KdlConfig.planar j b := by
  intro i b hb
  match i with
  | 0 =>
    rw [← Option.some.inj hb]
    exact .dh (g := KdlConfig.group [("A", .num 1)]) rfl rfl
  | 1 =>
    rw [← Option.some.inj hb]
    exact .solid (g := KdlConfig.group [("A", .num 2), ("offset", .num 90), ("mass", .num 3),
      ("cog", .list [-1, 0, 0]), ("inertia", .list [1, 1, 1])]) rfl rfl rfl rfl
  | i + 2 => simp [twoSolids] at hb

theorem twoSolids_possible : ∀ s, some s ∈ twoSolids → s.Possible := by
  intro s hs
  simp only [twoSolids, List.mem_cons, Option.some.injEq, reduceCtorEq, List.not_mem_nil, or_false, false_or] at hs
  subst hs
  refine ⟨?_, ?_, ?_, ?_⟩ <;> norm_num

/-- A tool, gravity compensation, and a cycle of it. -/
example : ∃ cfg s0 k0, Deployed wideWorld (fun _ => true) true KdlConfig.planar cfg s0 k0 ∧
    KdlConfig.Robot KdlConfig.planar 1 twoLinks 1 ∧ twoSolids.length = twoLinks.length ∧
    ∃ tr0 s tr s1 tr2 s2 k τ, Hist cfg s0 [⟨.tool [0, 0, 1, 0, 0, 0], tr0, some true⟩] s ∧
      Exec cfg (Op.prog cfg .gcmp) s tr (.ok (some true)) s1 ∧ Hist cfg s1 [⟨.cycle, tr2, none⟩] s2 ∧
      Answered exact k0 (callsOf ([⟨.tool [0, 0, 1, 0, 0, 0], tr0, some true⟩] ++ ⟨.gcmp, tr, some true⟩ ::
        [⟨.cycle, tr2, none⟩])) k ∧
      Ev.setRefTorques τ true ∈ tr2 := by
  obtain ⟨cfg, s0, k0, h, hu, h1, h2, h3, h4, h5, h6, h7, h8, h9, h10, h11⟩ := planar_deployed
  have hr : KdlConfig.Robot KdlConfig.planar 1 twoLinks 1 := KdlConfig.planar_robot
  obtain ⟨-, -, hj, ho, -⟩ := h.facts hr
  obtain ⟨bodies, hb, -⟩ := h.bodies hr Frame.IsRigid.one Frame.IsRigid.one rfl twoSolids_weigh twoSolids_possible
  refine ⟨cfg, s0, k0, h, hr, rfl, ?_⟩
  have hc0 : can (robot cfg) (Op.prog cfg (.tool [0, 0, 1, 0, 0, 0])) (fun o s' tr => o = .ok (some true) ∧ s' = s0 ∧ tr =
      [Ev.restoreOriginalChain true, Ev.appendLink [0, 0, 1, 0, 0, 0] true]) s0 [] := by
    show can (robot cfg) (Prog.bind (tool [0, 0, 1, 0, 0, 0]) _) _ _ _
    unfold tool
    can_simp
    exact ⟨true, Or.inl ⟨rfl, true, by simp⟩⟩
  obtain ⟨tr0, _, s, e0, rfl, rfl, rfl⟩ := can_run hc0
  have hc : can (robot cfg) (Op.prog cfg .gcmp) (fun o s' tr => o = .ok (some true) ∧
      s' = { s with state := .gcmp, streaming := vocabNotSet } ∧ tr = [Ev.getControlModes (some [.torque, .torque]),
        Ev.delay (1 / 10) (), Ev.getControlModes (some [.torque, .torque])]) s [] := by
    show can (robot cfg) (Prog.bind gcmp _) _ _ _
    unfold gcmp setCurrentState
    can_simp
    refine can_setModes' [.torque, .torque] (by simp [h1]) (by simp) ?_
    can_simp
    exact Or.inl ⟨trivial, by simp⟩
  obtain ⟨tr, o, s1, hx, rfl, rfl, rfl⟩ := can_run hc
  set k : DynSolver := k0.restore.appendLink [0, 0, 1, 0, 0, 0] with hk
  obtain ⟨τ, g1, g2, -⟩ := DynSolver.C74_torques_balance_gravity hb [-45, -45]
    (by rw [show k0.chain.nJoints = 2 from hj.now.trans h1]; simp)
  have hst : k.invDynStatic [-45, -45] = some (some τ) := by
    rw [hk, DynSolver.C74_tool_without_mass, show k0.restore = k0 from DynSolver.C74_restored k0 ho [], g1]
  have hτ : τ.length = 2 := g2.trans (hj.now.trans h1)
  have hc2 : can (robot cfg) (Op.prog cfg .cycle) (fun o s' tr => o = .ok none ∧ tr =
      [Ev.getEncoders (some [-45, -45]), Ev.getEncoderSpeeds (some [0, 0]), Ev.getEncoderAccelerations (some [0, 0]),
      Ev.getControlModes (some [.torque, .torque]), Ev.invDynStatic [-45, -45] (some τ), Ev.setRefTorques τ true])
      { s with state := .gcmp, streaming := vocabNotSet } [] := by
    show can (robot cfg) (Prog.bind (run cfg) _) _ _ _
    unfold run getCurrentState runBody readEncoders
    can_simp
    refine Or.inr ⟨by simp, some [-45, -45], some_length (by simp [h1]), ?_⟩
    can_simp
    refine ⟨some [0, 0], some_length (by simp [h1]), ?_⟩
    can_simp
    refine ⟨some [0, 0], some_length (by simp [h1]), ?_⟩
    can_simp
    refine Or.inr ⟨true, (checkJointLimits_iff cfg _).mpr h4, Or.inl ⟨rfl, ?_⟩⟩
    show can _ (Prog.bind (handleGcmp cfg [-45, -45]) _) _ _ _
    unfold handleGcmp
    can_simp
    refine can_checkModes [.torque, .torque] (by simp [h1]) ?_
    can_simp
    refine Or.inl ⟨by simp, some τ, ?_⟩
    can_simp
    refine Or.inr ⟨τ, by simp [buffer, h1, hτ], true, ?_⟩
    simp
  obtain ⟨tr2, o, s2, hx2, rfl, rfl⟩ := can_run hc2
  exact ⟨_, s, _, _, _, s2, k, τ, .cons e0 (.nil _), hx, .cons hx2 (.nil _),
    .cons ⟨rfl, rfl⟩ (.cons ⟨rfl, rfl⟩ (.cons rfl (.cons rfl (.cons rfl (.cons rfl (.cons rfl (.cons rfl (.cons rfl
      (.cons ⟨rfl, hst⟩ (.cons rfl (.nil _))))))))))), by simp⟩

/-- The joints of that robot at rest. -/
noncomputable def resting : JointMotion where
  pos _ := -45 * deg2rad
  vel _ := 0
  acc _ := 0
  pos_rate _ := hasDerivAt_const _ _
  vel_rate _ := hasDerivAt_const _ _

/-- A force, and a cycle of it, with the arm at rest. -/
example : ∃ cfg s0 k0, Deployed wideWorld (fun _ => true) true KdlConfig.planar cfg s0 k0 ∧
    KdlConfig.Robot KdlConfig.planar 1 twoLinks 1 ∧ twoSolids.length = twoLinks.length ∧
    ∃ tr s1 tr2 s2 k τ, Exec cfg (Op.prog cfg (.forc [1, 2, 3, 4, 5, 6])) s0 tr (.ok (some true)) s1 ∧
      Hist cfg s1 [⟨.cycle, tr2, none⟩] s2 ∧
      Answered exact k0 (callsOf ([] ++ ⟨.forc [1, 2, 3, 4, 5, 6], tr, some true⟩ :: [⟨.cycle, tr2, none⟩])) k ∧
      Ev.getEncoders (some [-45, -45]) ∈ tr2 ∧ Ev.getEncoderSpeeds (some [0, 0]) ∈ tr2 ∧
      Ev.getEncoderAccelerations (some [0, 0]) ∈ tr2 ∧ Ev.setRefTorques τ true ∈ tr2 ∧
      (([resting, resting].map fun m => m.pos 0 * rad2deg) = [-45, -45]) ∧
      (([resting, resting].map fun m => m.vel 0 * rad2deg) = [0, 0]) ∧
      (([resting, resting].map fun m => m.acc 0 * rad2deg) = [0, 0]) := by
  obtain ⟨cfg, s0, k0, h, hu, h1, h2, h3, h4, h5, h6, h7, h8, h9, h10, h11⟩ := planar_deployed
  have hr : KdlConfig.Robot KdlConfig.planar 1 twoLinks 1 := KdlConfig.planar_robot
  obtain ⟨-, -, hj, ho, -⟩ := h.facts hr
  obtain ⟨bodies, hb, -⟩ := h.bodies hr Frame.IsRigid.one Frame.IsRigid.one rfl twoSolids_weigh twoSolids_possible
  refine ⟨cfg, s0, k0, h, hr, rfl, ?_⟩
  have hc : can (robot cfg) (Op.prog cfg (.forc [1, 2, 3, 4, 5, 6])) (fun o s' tr => o = .ok (some true) ∧
      s' = { s0 with state := .forc, streaming := vocabNotSet, fd := [-1, -2, -3, -4, -5, -6] } ∧
      tr = [Ev.getControlModes (some [.torque, .torque]),
        Ev.delay (1 / 10) (), Ev.getControlModes (some [.torque, .torque])]) s0 [] := by
    show can (robot cfg) (Prog.bind (forc [1, 2, 3, 4, 5, 6]) _) _ _ _
    unfold forc setCurrentState
    can_simp
    refine Or.inr ⟨by simp [h6], ?_⟩
    refine can_setModes' [.torque, .torque] (by simp [h1]) (by simp) ?_
    can_simp
    exact Or.inl ⟨trivial, by simp⟩
  obtain ⟨tr, o, s1, hx, rfl, rfl, rfl⟩ := can_run hc
  have p1 : ([resting, resting].map fun m => m.pos 0 * rad2deg) = [-45, -45] := by
    simp only [List.map_cons, List.map_nil, resting]
    have : (-45 * deg2rad) * rad2deg = -45 := by
      unfold deg2rad rad2deg
      have := Real.pi_ne_zero
      field_simp
    rw [this]
  have p2 : ([resting, resting].map fun m => m.vel 0 * rad2deg) = [0, 0] := by simp [resting]
  have p3 : ([resting, resting].map fun m => m.acc 0 * rad2deg) = [0, 0] := by simp [resting]
  obtain ⟨τ, g1, g2, -⟩ := DynSolver.C74_newton_base hb hj.links [resting, resting]
    (by rw [show k0.chain.nJoints = 2 from hj.now.trans h1]; rfl) 0 (-1) (-2) (-3) (-4) (-5) (-6)
  rw [p1, p2, p3] at g1
  have hτ : τ.length = 2 := g2
  have hc2 : can (robot cfg) (Op.prog cfg .cycle) (fun o s' tr => o = .ok none ∧ tr =
      [Ev.getEncoders (some [-45, -45]), Ev.getEncoderSpeeds (some [0, 0]), Ev.getEncoderAccelerations (some [0, 0]),
      Ev.getControlModes (some [.torque, .torque]),
      Ev.invDyn [-45, -45] [0, 0] [0, 0] [-1, -2, -3, -4, -5, -6] .base (some τ), Ev.setRefTorques τ true])
      { s0 with state := .forc, streaming := vocabNotSet, fd := [-1, -2, -3, -4, -5, -6] } [] := by
    show can (robot cfg) (Prog.bind (run cfg) _) _ _ _
    unfold run getCurrentState runBody readEncoders
    can_simp
    refine Or.inr ⟨by simp, some [-45, -45], some_length (by simp [h1]), ?_⟩
    can_simp
    refine ⟨some [0, 0], some_length (by simp [h1]), ?_⟩
    can_simp
    refine ⟨some [0, 0], some_length (by simp [h1]), ?_⟩
    can_simp
    refine Or.inr ⟨true, (checkJointLimits_iff cfg _).mpr h4, Or.inl ⟨rfl, ?_⟩⟩
    show can _ (Prog.bind (handleForc cfg [-45, -45] [0, 0] [0, 0]) _) _ _ _
    unfold handleForc
    can_simp
    refine can_checkModes [.torque, .torque] (by simp [h1]) ?_
    can_simp
    refine Or.inl ⟨by simp, some τ, ?_⟩
    can_simp
    refine Or.inr ⟨τ, by simp [buffer, h1, hτ], true, ?_⟩
    simp [h6]
  obtain ⟨tr2, o, s2, hx2, rfl, rfl⟩ := can_run hc2
  exact ⟨_, _, _, s2, k0, τ, hx, .cons hx2 (.nil _),
    .cons rfl (.cons rfl (.cons rfl (.cons rfl (.cons rfl (.cons rfl (.cons rfl
      (.cons ⟨rfl, g1⟩ (.cons rfl (.nil _))))))))), by simp, by simp, by simp, by simp, p1, p2, p3⟩

end KD.Ctrl
