import Verif.Ctrl.WithSt
import Verif.Ctrl.Positions
import Verif.Props.WithKdl
import Verif.Props.StSolver
import Verif.Props.IkReach

/-!
# C86: the controller with the chain solver and its default inverse kinematics
-/

namespace KD.Ctrl

open KdlConfig (Val Group)
open KdlVectorConverter
open Prog (can can_run can_mono can_bind wp wp_sound)

/-! ## Specification -/

/-- A controller that was opened in the world `w` with the configuration `c`, which leaves the limits to the robot, and
its solver of KDL with the default inverse kinematics. -/
structure DeployedSt (a : Outside) (w : World) (st : List Link → Bool) (wt : Bool) (c : KdlConfig.Config) (cfg : Cfg) (s0 : Ctl)
    (d0 : StDevice) : Prop where
  kdl : w.HasKdl st wt
  opened : openController w c = some (some (cfg, s0))
  limits : LeavesLimits c
  solver : ∃ dev o k rnd lo hi strategy, HasText c "solver" "KdlSolver" dev ∧ OptionsFor c dev ["mins", "maxs", "maxvels"] o ∧
    o.top "mins" = some (.list cfg.qMin) ∧ o.top "maxs" = some (.list cfg.qMax) ∧
    KdlConfig.openSolver st wt o = some (some k) ∧ k.ikPos = "st" ∧ k.limits = some (lo, hi) ∧
    HasText c "invKinStrategy" "leastOverallAngularDisplacement" strategy ∧ a.draws rnd ∧
    createSt rnd k.solver.chain lo hi strategy = some (some d0.st) ∧ k.solver = d0.dyn

/-- Joint values in degrees within the limits of the controller. -/
def WithinLimits (cfg : Cfg) (t : List ℝ) : Prop :=
  t.length = cfg.numJoints ∧ ∀ (j : ℕ) v, t[j]? = some v → ∃ lo hi, cfg.qMin[j]? = some lo ∧ cfg.qMax[j]? = some hi ∧
    lo - eps * rad2deg ≤ v ∧ v ≤ hi + eps * rad2deg

/-- The joints `t`, in degrees, are one of the solutions of a problem that was built for the arm as it is, with the
target `T`; `ok` if all of its steps found the target reachable. -/
def Solution (a : Outside) (k : DynSolver) (T : Frame) (t : List ℝ) (rnd : ℕ → ℝ) (pb : IkProblem) (subs : List Subproblem)
    (ok : Bool) : Prop :=
  a.draws rnd ∧ Builder.build rnd (Poe.fromChain k.chain) = some (some (pb, subs)) ∧
    ∃ sols, pb.solve T [] = some (ok, sols) ∧ t.map (· * deg2rad) ∈ sols

/-- The pose `F` of the arm is the target `T`, up to rounding, at the points that the steps of the problem settle (points
of the home pose, seen from the tool). -/
def NearTarget (n : ℕ) (pb : IkProblem) (subs : List Subproblem) (T F : Frame) : Prop :=
  ∀ i p R, SettlesPoint n subs i p → KD.Within pb.poe.exps [p] R →
    (F.act (pb.probe T p) - T.act (pb.probe T p)).norm ≤ √eps + (5 + 4 * n + (2 * n + 1) * R) * eps

/-- The problems that may be met with these tools, and with none: the random points of the search are spread enough for
the number of joints, axes that look parallel are, and all the problems have as many solutions. -/
structure SteadyTools (a : Outside) (tools : List ℝ → Prop) (k0 : DynSolver) (n : ℕ) : Prop where
  draws : ∀ rnd, a.draws rnd → Builder.Spread rnd (1 + n * (n + 2))
  problems : ∃ m, ∀ rnd k pb subs, a.draws rnd → (k = k0 ∨ ∃ x, tools x ∧ k = k0.appendLink x) →
    Builder.build rnd (Poe.fromChain k.chain) = some (some (pb, subs)) → Margin pb.poe.exps ∧ pb.soln = m

/-- A link whose joint turns in the direction of its axis. -/
def _root_.KD.KdlConfig.Desc.Plain : KdlConfig.Desc → Prop
  | .dh .. => True
  | .turn _ inverted .. => inverted = false
  | .slide .. => False

/-! ## Lemmas -/

/-- The inverse solvers as seen by `Answers`: positions may be any of the right size. -/
def Outside.seen (a : Outside) : Inverse :=
  ⟨fun p => ∀ c q f, q.length = Chain.nJoints c → (p c q f).2.length = Chain.nJoints c, a.vel⟩

theorem deg_scale : 0 < rad2deg := by
  unfold rad2deg
  have := Real.pi_pos
  positivity

namespace StDevice

variable {a : Outside} {d d' : StDevice} {e : Ev}

theorem reach_inv {g : List ℝ} {T : Frame} {ans : Option (List ℝ)} (h : d.reach g T = some (ans, d')) :
    ∃ ret out st', d.st.cartToJnt g T (List.replicate d.dyn.kin.numJoints 0) = some (ret, out, st') ∧ d' = ⟨d.dyn, st'⟩ ∧
      (ret < 0 ∧ ans = none ∨ 0 ≤ ret ∧ d.dyn.kin.numJoints ≤ out.length ∧
        ans = some ((out.take d.dyn.kin.numJoints).map (· * rad2deg))) := by
  unfold reach at h
  simp only [Option.bind_eq_bind, Option.bind_eq_some_iff] at h
  obtain ⟨⟨ret, out, st'⟩, h1, h2⟩ := h
  refine ⟨ret, out, st', h1, ?_⟩
  simp only at h2
  split at h2
  · rename_i hr
    obtain ⟨rfl, rfl⟩ := Prod.mk.inj (Option.some.inj h2)
    exact ⟨rfl, Or.inl ⟨hr, rfl⟩⟩
  · rename_i hr
    split at h2
    · rename_i hl
      obtain ⟨rfl, rfl⟩ := Prod.mk.inj (Option.some.inj h2)
      exact ⟨rfl, Or.inr ⟨not_lt.mp hr, hl, rfl⟩⟩
    · cases h2

theorem invKin_inv {x q : List ℝ} {f : RefFrame} {ans : Option (List ℝ)} (h : d.invKin x q f = some (ans, d')) :
    ∃ g T, KdlSolver.toRadians d.dyn.kin.numJoints q = some g ∧
      ((f = .base ∧ T = vectorToFrame x) ∨ ∃ now, f = .tcp ∧ d.dyn.chain.fk g = some now ∧ T = now * vectorToFrame x) ∧
      d.reach g T = some (ans, d') := by
  unfold invKin at h
  simp only [Option.bind_eq_bind, Option.bind_eq_some_iff] at h
  obtain ⟨g, h1, h2⟩ := h
  cases f with
  | base => exact ⟨g, _, h1, Or.inl ⟨rfl, rfl⟩, h2⟩
  | tcp =>
    simp only [Option.bind_eq_some_iff] at h2
    obtain ⟨now, h3, h4⟩ := h2
    exact ⟨g, _, h1, Or.inr ⟨now, rfl, h3, rfl⟩, h4⟩

/-- Seen without its position solver. -/
theorem forget (h : d.Answers a e d') : Ctrl.Answers a.seen d.dyn e d'.dyn := by
  have mono : ∀ {e}, Ctrl.Answers ⟨fun _ => False, a.vel⟩ d.dyn e d'.dyn → Ctrl.Answers a.seen d.dyn e d'.dyn := by
    intro e h
    cases e with
    | invKin => obtain ⟨h1, p, h2, -⟩ := h; exact h2.elim
    | _ => exact h
  cases e with
  | invKin x q f ans =>
    obtain ⟨g, T, h1, h2, h3⟩ := invKin_inv h
    obtain ⟨ret, out, st', h4, rfl, h5⟩ := reach_inv h3
    have key : ∀ p : PosSolver, d.dyn.kin.invKin p x q f.solver =
        some (if (p d.dyn.chain g T).1 < 0 then none else some ((p d.dyn.chain g T).2.map (· * rad2deg))) := by
      intro p
      unfold KdlSolver.invKin
      rw [h1]
      rcases h2 with ⟨rfl, rfl⟩ | ⟨now, rfl, h2, rfl⟩
      · show some (if (p _ _ _).1 < 0 then none else some ((p _ _ _).2.map _)) = _
        rfl
      · show (Chain.fk d.dyn.chain g).bind _ = _
        rw [h2]
        rfl
    rcases h5 with ⟨h5, rfl⟩ | ⟨h5, h6, rfl⟩
    · refine ⟨rfl, fun c _ _ => (-1, List.replicate c.nJoints 0), fun _ _ _ _ => List.length_replicate, ?_⟩
      rw [key]
      simp
    · have hn : Chain.nJoints d.dyn.chain = d.dyn.kin.numJoints := rfl
      refine ⟨rfl, fun c _ _ => (0, if c.nJoints = d.dyn.kin.numJoints then out.take d.dyn.kin.numJoints
        else List.replicate c.nJoints 0), fun c _ _ _ => ?_, ?_⟩
      · dsimp only
        split
        · rename_i e
          rw [List.length_take, e, min_eq_left h6]
        · exact List.length_replicate
      · rw [key]
        simp [hn]
  | restoreOriginalChain ans =>
    obtain ⟨rfl, rnd, -, h⟩ := h
    unfold restore at h
    simp only [Option.bind_eq_bind, Option.bind_eq_some_iff] at h
    obtain ⟨s, -, h⟩ := h
    obtain rfl := Option.some.inj h
    exact ⟨rfl, rfl⟩
  | appendLink x ans =>
    obtain ⟨rfl, rnd, -, h⟩ := h
    unfold appendLink at h
    simp only [Option.bind_eq_bind, Option.bind_eq_some_iff] at h
    obtain ⟨s, -, h⟩ := h
    obtain rfl := Option.some.inj h
    exact ⟨rfl, rfl⟩
  | _ => exact mono h.2

theorem forget_all {tr : List Ev} (h : Answered a d tr d') : Ctrl.Answered a.seen d.dyn tr d'.dyn := by
  induction h with
  | nil => exact .nil _
  | cons h1 _ ih => exact .cons (forget h1) ih

theorem answered_append {t u : List Ev} (h : Answered a d (t ++ u) d') : ∃ d1, Answered a d t d1 ∧ Answered a d1 u d' := by
  induction t generalizing d with
  | nil => exact ⟨d, .nil _, h⟩
  | cons e t ih =>
    cases h with
    | cons h1 h2 =>
      obtain ⟨d1, h3, h4⟩ := ih h2
      exact ⟨d1, .cons h1 h3, h4⟩

theorem answered_join {t u : List Ev} {d1 : StDevice} (h : Answered a d t d1) (h' : Answered a d1 u d') :
    Answered a d (t ++ u) d' := by
  induction h with
  | nil => exact h'
  | cons h1 _ ih => exact .cons h1 (ih h')

theorem answered_mem {tr : List Ev} (h : Answered a d tr d') (he : e ∈ tr) :
    ∃ pre post d1 d2, tr = pre ++ e :: post ∧ Answered a d pre d1 ∧ d1.Answers a e d2 := by
  obtain ⟨pre, post, rfl⟩ := List.append_of_mem he
  obtain ⟨d1, h1, h2⟩ := answered_append h
  cases h2 with
  | cons h3 h4 => exact ⟨pre, post, d1, _, rfl, h1, h3⟩

/-- What holds of the position solver throughout: its limits, and its problem is for the chain as it is, unless it has
been marked as failed. -/
structure Inv (a : Outside) (lo hi : List ℝ) (d : StDevice) : Prop where
  limits : d.st.HasLimits lo hi
  problem : d.st.error = eSolutionNotFound ∨ ∃ rnd subs, a.draws rnd ∧
    Builder.build rnd (Poe.fromChain d.dyn.chain) = some (some (d.st.problem, subs))

theorem update_inv {lo hi : List ℝ} {s s' : StSolver} {dyn : DynSolver} {rnd : ℕ → ℝ} (hr : a.draws rnd)
    (h : s.update rnd dyn.chain = some s') (hl : s.HasLimits lo hi) : Inv a lo hi ⟨dyn, s'⟩ := by
  refine ⟨fun c hc => hl c (by rw [← update_config h]; exact hc), ?_⟩
  unfold StSolver.update at h
  simp only [Option.bind_eq_bind, Option.bind_eq_some_iff] at h
  obtain ⟨r, h1, h2⟩ := h
  split at h2
  · obtain rfl := Option.some.inj h2
    exact Or.inl rfl
  · rename_i pb subs
    obtain rfl := Option.some.inj h2
    exact Or.inr ⟨rnd, subs, hr, h1⟩

theorem call_problem {s s' : StSolver} {q o out : List ℝ} {T : Frame} {ret : ℤ} (h : s.cartToJnt q T o = some (ret, out, s')) :
    s'.problem = s.problem ∧ (s.error = eSolutionNotFound → s' = s ∧ ret = eSolutionNotFound) := by
  unfold StSolver.cartToJnt at h
  split at h
  · rename_i he
    simp only [Option.some.injEq, Prod.mk.injEq] at h
    obtain ⟨rfl, -, rfl⟩ := h
    exact ⟨rfl, fun _ => ⟨rfl, he⟩⟩
  · rename_i he
    simp only [Option.bind_eq_bind, Option.bind_eq_some_iff] at h
    obtain ⟨⟨r, sols⟩, -, c, -, ⟨p, c'⟩, -, h⟩ := h
    refine ⟨?_, fun h' => absurd h' he⟩
    simp only at h
    split at h <;>
      (simp only [Option.pure_def, Option.some.injEq, Prod.mk.injEq] at h
       obtain ⟨-, -, rfl⟩ := h
       rfl)

theorem inv_answers {lo hi : List ℝ} (hi' : Inv a lo hi d) (h : d.Answers a e d') : Inv a lo hi d' := by
  have same : ∀ {e}, d'.st = d.st → ¬ChangesChain e → Ctrl.Answers ⟨fun _ => False, a.vel⟩ d.dyn e d'.dyn → Inv a lo hi d' := by
    intro e h1 h2 h3
    obtain ⟨dyn, s⟩ := d
    obtain ⟨dyn', s'⟩ := d'
    obtain rfl : s' = s := h1
    obtain rfl : dyn' = dyn := answers_same h3 h2
    exact hi'
  cases e with
  | invKin x q f ans =>
    obtain ⟨g, T, h1, h2, h3⟩ := invKin_inv h
    obtain ⟨ret, out, st', h4, rfl, -⟩ := reach_inv h3
    obtain ⟨g1, g2⟩ := call_problem h4
    refine ⟨cartToJnt_limits hi'.limits h4, ?_⟩
    rcases hi'.problem with hp | ⟨rnd, subs, hp1, hp2⟩
    · obtain ⟨rfl, -⟩ := g2 hp
      exact Or.inl hp
    · exact Or.inr ⟨rnd, subs, hp1, by rw [hp2]; simp [g1]⟩
  | restoreOriginalChain ans =>
    obtain ⟨rfl, rnd, hr, h⟩ := h
    unfold restore at h
    simp only [Option.bind_eq_bind, Option.bind_eq_some_iff] at h
    obtain ⟨s, h1, h⟩ := h
    obtain rfl := Option.some.inj h
    exact update_inv hr h1 hi'.limits
  | appendLink x ans =>
    obtain ⟨rfl, rnd, hr, h⟩ := h
    unfold appendLink at h
    simp only [Option.bind_eq_bind, Option.bind_eq_some_iff] at h
    obtain ⟨s, h1, h⟩ := h
    obtain rfl := Option.some.inj h
    exact update_inv hr h1 hi'.limits
  | _ => exact same h.1 (by intro h; exact h) h.2

theorem inv_answered {lo hi : List ℝ} {tr : List Ev} (h : Answered a d tr d') (hi' : Inv a lo hi d) : Inv a lo hi d' := by
  induction h with
  | nil => exact hi'
  | cons h1 _ ih => exact ih (inv_answers hi' h1)

/-- What inverse kinematics answers. -/
theorem answer {lo hi : List ℝ} (hi' : Inv a lo hi d) (hn : lo.length = d.dyn.kin.numJoints) {x q qd : List ℝ} {f : RefFrame}
    (h : d.invKin x q f = some (some qd, d')) :
    ∃ g T out, KdlSolver.toRadians d.dyn.kin.numJoints q = some g ∧
      ((f = .base ∧ T = vectorToFrame x) ∨ ∃ now, f = .tcp ∧ d.dyn.chain.fk g = some now ∧ T = now * vectorToFrame x) ∧
      qd = out.map (· * rad2deg) ∧ out.length = d.dyn.kin.numJoints ∧
      (∀ (j : ℕ) v, out[j]? = some v → ∃ l u, lo[j]? = some l ∧ hi[j]? = some u ∧ l - eps ≤ v ∧ v ≤ u + eps) ∧
      ∃ rnd pb subs ok sols, a.draws rnd ∧ Builder.build rnd (Poe.fromChain d.dyn.chain) = some (some (pb, subs)) ∧
        pb.solve T [] = some (ok, sols) ∧ out ∈ sols := by
  obtain ⟨g, T, h1, h2, h3⟩ := invKin_inv h
  obtain ⟨ret, out, st', h4, rfl, h5⟩ := reach_inv h3
  rcases h5 with ⟨-, h5⟩ | ⟨h5, h6, h7⟩
  · cases h5
  obtain ⟨c, ok, sols, c1, c2, c3, -, c4⟩ := (C24_call_output _ _ _ _ _ _ _ h4).2 h5
  obtain ⟨l1, l2⟩ := hi'.limits c c1
  rw [l1, l2] at c4
  have hle : out.length ≤ lo.length := by
    by_contra hlt
    push Not at hlt
    obtain ⟨l, u, h8, -⟩ := c4 lo.length _ (List.getElem?_eq_getElem hlt)
    simp at h8
  have hlen : out.length = d.dyn.kin.numJoints := by omega
  rcases hi'.problem with hp | ⟨rnd, subs, hp1, hp2⟩
  · obtain ⟨-, e⟩ := (call_problem h4).2 hp
    rw [e] at h5
    exact absurd h5 (by norm_num [eSolutionNotFound])
  · refine ⟨g, T, out, h1, h2, ?_, hlen, c4, rnd, _, subs, ok, sols, hp1, hp2, c2, c3⟩
    rw [Option.some.inj h7, ← hlen, List.take_length]

end StDevice

section

variable {a : Outside} {w : World} {st : List Link → Bool} {wt : Bool} {c : KdlConfig.Config} {cfg : Cfg} {s0 : Ctl} {d0 : StDevice}
  {base tip : Frame} {descs : List KdlConfig.Desc}

theorem DeployedSt.deployed (h : DeployedSt a w st wt c cfg s0 d0) : Deployed w st wt c cfg s0 d0.dyn := by
  obtain ⟨dev, o, k, rnd, lo, hi, strategy, h1, h2, -, -, h3, -, -, -, -, -, h4⟩ := h.solver
  exact ⟨h.kdl, h.opened, dev, o, k, h1, h2, h3, h4⟩

theorem createSt_inv {rnd : ℕ → ℝ} {chain : Chain} {lo hi : List ℝ} {strategy : String} {s : StSolver}
    (h : createSt rnd chain lo hi strategy = some (some s)) :
    s.HasLimits lo hi ∧ s.error = 0 ∧ ∃ subs, Builder.build rnd (Poe.fromChain chain) = some (some (s.problem, subs)) := by
  have key : ∀ f : Option Selector, (∀ x, f = some x → x.qMin = lo ∧ x.qMax = hi) →
      StSolver.create rnd chain f = some (some s) →
      s.HasLimits lo hi ∧ s.error = 0 ∧ ∃ subs, Builder.build rnd (Poe.fromChain chain) = some (some (s.problem, subs)) := by
    intro f hf h
    unfold StSolver.create at h
    simp only [Option.bind_eq_bind, Option.bind_eq_some_iff] at h
    obtain ⟨r, h1, h2⟩ := h
    split at h2
    · cases h2
    · rename_i pb subs
      obtain rfl := Option.some.inj (Option.some.inj h2)
      exact ⟨fun c hc => hf c hc, rfl, subs, h1⟩
  unfold createSt at h
  split at h
  · refine key _ (fun x hx => ?_) h
    cases hx
    exact ⟨rfl, rfl⟩
  · split at h
    · refine key _ (fun x hx => ?_) h
      unfold Selector.createGait at hx
      split at hx
      · cases hx; exact ⟨rfl, rfl⟩
      · cases hx
    · cases h

theorem DeployedSt.inv (h : DeployedSt a w st wt c cfg s0 d0) :
    d0.Inv a (cfg.qMin.map (· * deg2rad)) (cfg.qMax.map (· * deg2rad)) ∧ cfg.qMin.length = d0.dyn.kin.numJoints ∧
      cfg.qMax.length = d0.dyn.kin.numJoints := by
  obtain ⟨dev, o, k, rnd, lo, hi, strategy, h1, h2, h3, h4, h5, h6, h7, h8, h9, h10, h11⟩ := h.solver
  obtain ⟨mins, maxs, f1, f2, f3, f4, f5, -⟩ := KdlConfig.C75_limits h5 (by rw [h6]; simp)
  have g1 : mins = cfg.qMin := by simpa using f1.symm.trans h3
  have g2 : maxs = cfg.qMax := by simpa using f2.symm.trans h4
  subst g1 g2
  rw [h7] at f3
  obtain ⟨rfl, rfl⟩ := Prod.mk.inj (Option.some.inj f3)
  obtain ⟨i1, -, subs, i2⟩ := createSt_inv h10
  refine ⟨⟨i1, Or.inr ⟨rnd, subs, h9, by rw [← h11]; exact i2⟩⟩, ?_⟩
  rw [f4, f5, h11]
  exact ⟨rfl, rfl⟩

theorem back_deg (r : ℝ) : r * deg2rad * rad2deg = r := by
  rw [mul_assoc, mul_comm deg2rad, ← mul_assoc, KdlSolver.deg_rad]

/-- The answer to one call among those of a command that does not change the tool. -/
theorem answered_here {op : Op} (hop : ∀ x, op ≠ .tool x) {s s' : Ctl} {tr : List Ev} {o} (hx : Exec cfg (op.prog cfg) s tr o s')
    {d d' : StDevice} (h : d.Answered a tr d') {e : Ev} (he : e ∈ tr) :
    ∃ pre d1 d2, d.Answered a pre d1 ∧ d1.dyn = d.dyn ∧ d1.Answers a e d2 ∧ ∀ e ∈ pre, ¬ChangesChain e := by
  obtain ⟨pre, post, d1, d2, rfl, h1, h2⟩ := StDevice.answered_mem h he
  have hk : ∀ e ∈ pre, ¬ChangesChain e := by
    intro e he
    obtain ⟨c, r, h1, -, rfl⟩ := Prog.run_calls hx (keep_op cfg op hop) e (by simp [he])
    exact keeps_changes h1
  exact ⟨pre, d1, d2, h1, (answered_same (StDevice.forget_all h1) hk).1, h2, hk⟩

/-- What inverse kinematics gives for the arm. -/
theorem DeployedSt.reach (h : DeployedSt a w st wt c cfg s0 d0) (hrob : KdlConfig.Robot c base descs tip)
    {s s' : Ctl} {ds : List Done} (hh : Hist cfg s0 ds s) {d d' : StDevice}
    (hd : d0.Answered a (callsOf ds) d) {op : Op} {tr : List Ev} {o} (hx : Exec cfg (op.prog cfg) s tr o s')
    (hd' : d.Answered a tr d') {x q qd : List ℝ} {f : RefFrame} (he : Ev.invKin x q f (some qd) ∈ tr)
    (hq : q.length = cfg.numJoints) : WithinLimits cfg qd ∧ ((∀ d ∈ descs, d.Turns) → ∃ rnd pb subs ok,
      Solution a d.dyn (aim f (arm base descs tip (lastTool ds) q) (vectorToFrame x)) qd rnd pb subs ok) := by
  have hop : ∀ x, op ≠ .tool x := by
    rintro y rfl
    rcases tool_calls hx with ⟨b, rfl⟩ | rfl <;> simp at he
  obtain ⟨pre, d1, d2, hp, hdyn, ha, -⟩ := answered_here hop hx hd' he
  obtain ⟨h1, h2, h3, -⟩ := h.deployed.facts hrob
  obtain ⟨h4, h5, h6⟩ := h.deployed.after hrob hh (StDevice.forget_all hd)
  rw [← hdyn] at h4 h6 ⊢
  obtain ⟨i1, i2, -⟩ := h.inv
  have hn0 : d0.dyn.kin.numJoints = cfg.numJoints := h3.now
  have hn : d1.dyn.kin.numJoints = cfg.numJoints := h4.now
  obtain ⟨g, T, out, a1, a2, rfl, a3, a4, rnd, pb, subs, ok, sols, a5, a6, a7, a8⟩ :=
    StDevice.answer (StDevice.inv_answered hp (StDevice.inv_answered hd i1)) (by rw [List.length_map, i2, hn0, hn]) ha
  rw [hn] at a3
  have hlen : (out.map (· * rad2deg)).length = cfg.numJoints := by rw [List.length_map, a3]
  have hT : (∀ d ∈ descs, d.Turns) → T = aim f (arm base descs tip (lastTool ds) q) (vectorToFrame x) := by
    intro ht
    rw [toRadians_eq (hq.trans hn.symm)] at a1
    obtain rfl := Option.some.inj a1
    rcases a2 with ⟨rfl, rfl⟩ | ⟨now, rfl, a2, rfl⟩
    · rfl
    · rw [h6 ht q (hq.trans h1)] at a2
      rw [Option.some.inj a2]
      rfl
  refine ⟨⟨hlen, fun j v hv => ?_⟩, fun ht => ⟨rnd, pb, subs, ok, a5, a6, sols, hT ht ▸ a7, by
    rw [KdlSolver.back_to_radians]; exact a8⟩⟩
  rw [List.getElem?_map] at hv
  obtain ⟨v', e1, rfl⟩ := Option.map_eq_some_iff.mp hv
  obtain ⟨l, u, e2, e3, e4, e5⟩ := a4 j v' e1
  rw [List.getElem?_map] at e2 e3
  obtain ⟨l', f1, rfl⟩ := Option.map_eq_some_iff.mp e2
  obtain ⟨u', f2, rfl⟩ := Option.map_eq_some_iff.mp e3
  refine ⟨l', u', f1, f2, ?_, ?_⟩
  · have := mul_le_mul_of_nonneg_right e4 deg_scale.le
    rw [sub_mul, back_deg] at this
    exact this
  · have := mul_le_mul_of_nonneg_right e5 deg_scale.le
    rw [add_mul, back_deg] at this
    exact this

/-! ## From the joints to the pose -/

open KdlConfig in
theorem plain_link {i : ℕ} {e : Desc} (hd : Declares c i e) (hp : e.Plain) {ls : List Link}
    (h : link c i = some ls) : ∀ l ∈ ls, l.seg.joint.scale = 1 ∧ Poe.jointTypeToMotion l.seg.joint.type = some .rotation ∧
      l.seg.joint.WF := by
  cases hd with
  | @dh g offset dd a alpha hg h1 h2 h3 h4 =>
    unfold link dhLink at h
    rw [hg] at h
    dsimp only at h
    rw [← Option.some.inj h]
    intro l hl
    rw [List.mem_singleton.mp hl]
    split <;> exact ⟨rfl, rfl, fun h => by rcases h with h | h <;> cases h⟩
  | @turn g axis inv x y z hn hg ht h1 h2 h3 =>
    obtain rfl : inv = false := hp
    unfold link xyzLink at h
    rw [hn, hg] at h
    simp only [Group.check, ht, Option.getD_some, Val.asString] at h
    fin_cases axis
    all_goals
      simp only [jointName, xyzJoint] at h
      simp at h
      rw [← h]
      intro l hl
      rw [List.mem_singleton.mp hl]
      exact ⟨rfl, rfl, fun h => by rcases h with h | h <;> cases h⟩
  | slide => exact hp.elim

open KdlConfig in
theorem plain_links (n : ℕ) : ∀ (i : ℕ) (descs : List Desc) {ls : List Link}, descs.length = n →
    (∀ (k : ℕ) (d : Desc), descs[k]? = some d → Declares c (i + k) d) → (∀ d ∈ descs, d.Plain) → links c i n = some ls →
    ∀ l ∈ ls, l.seg.joint.scale = 1 ∧ Poe.jointTypeToMotion l.seg.joint.type = some .rotation ∧ l.seg.joint.WF := by
  induction n with
  | zero =>
    intro i descs ls _ _ _ h
    simp only [links, Option.some.injEq] at h
    subst h
    simp
  | succ n ih =>
    intro i descs ls hl hd hp h
    cases descs with
    | nil => simp at hl
    | cons d descs =>
      simp only [links, Option.bind_eq_bind, Option.bind_eq_some_iff] at h
      obtain ⟨l, e1, ls', e2, e3⟩ := h
      rw [← Option.some.inj e3]
      intro x hx
      rcases List.mem_append.mp hx with hx | hx
      · exact plain_link (hd 0 d rfl) (hp d (by simp)) e1 x hx
      · refine ih (i + 1) descs (by simpa using hl) (fun k e hk => ?_) (fun e he => hp e (by simp [he])) e2 x hx
        have := hd (k + 1) e (by simpa using hk)
        rwa [show i + (k + 1) = i + 1 + k by omega] at this

/-- A segment that the product of exponentials is right about. -/
def PlainSegment (sg : Segment) : Prop :=
  sg.joint.WF ∧ sg.joint.scale = 1 ∧ sg.fTip.IsRigid ∧ Poe.jointTypeToMotion sg.joint.type ≠ some .translation

theorem plain_fixed {f : Frame} (hf : f.IsRigid) : PlainSegment (Segment.make Joint.fixed f) :=
  ⟨fun h => (by rcases h with h | h <;> cases h), rfl, (KdlConfig.fixed_wf hf).2, by simp [Segment.make, Joint.fixed, Poe.jointTypeToMotion]⟩

theorem Deployed.plain {k0 : DynSolver} (h : Deployed w st wt c cfg s0 k0) (hrob : KdlConfig.Robot c base descs tip) (hb : base.IsRigid)
    (ht : tip.IsRigid) (hp : ∀ d ∈ descs, d.Plain) : ∀ sg ∈ k0.chain, PlainSegment sg := by
  have hwf := h.wf hrob hb ht
  obtain ⟨d, o, k, hd, ho, hk, rfl⟩ := h.solver
  obtain ⟨g1, -⟩ := KdlConfig.open_inv hk
  have hro := robot_options ho hrob
  obtain ⟨ls, l1, l2, -⟩ := KdlConfig.robot_chain hro
  have hpl := plain_links descs.length 0 descs rfl (fun k d hk => by rw [Nat.zero_add]; exact hro.links k d hk) hp l2
  rw [l1] at g1
  intro sg hsg
  obtain ⟨l, hl, rfl⟩ := List.mem_map.mp hsg
  have hw := hwf l hl
  rw [← Option.some.inj g1] at hl
  simp only [List.cons_append, List.mem_cons, List.mem_append, List.not_mem_nil, or_false] at hl
  rcases hl with rfl | hl | rfl
  · exact plain_fixed hb
  · obtain ⟨p1, p2, p3⟩ := hpl l hl
    exact ⟨p3, p1, hw.2, by rw [p2]; simp⟩
  · exact plain_fixed ht

theorem fromChainLoop_rotation : ∀ (c : Chain) (f : Frame), (∀ sg ∈ c, PlainSegment sg) → f.IsRigid →
    (∀ e ∈ (Poe.fromChainLoop c f).1, e.motion = .rotation) ∧ (Poe.fromChainLoop c f).2.IsRigid := by
  intro c
  induction c with
  | nil => exact fun f _ hf => ⟨by simp [Poe.fromChainLoop], hf⟩
  | cons sg c ih =>
    intro f h hf
    obtain ⟨w1, w2, w3, w4⟩ := h sg (List.mem_cons_self ..)
    have hu : sg.joint.Unit := fun e => w1 (Or.inl e)
    obtain ⟨g1, g2⟩ := ih (f * sg.pose 0) (fun x hx => h x (List.mem_cons_of_mem _ hx))
      (hf.mul (Segment.Wf.pose_rigid ⟨hu, w3⟩ 0))
    unfold Poe.fromChainLoop
    dsimp only
    split
    · rename_i m hm
      refine ⟨fun e he => ?_, g2⟩
      rcases List.mem_cons.mp he with rfl | he
      · cases m with
        | rotation => rfl
        | translation => exact absurd hm w4
      · exact g1 e he
    · exact ⟨g1, g2⟩

/-- The product of exponentials of the arm with its last tool. -/
theorem Deployed.poe {i : Inverse} {k0 k : DynSolver} (h : Deployed w st wt c cfg s0 k0) (hrob : KdlConfig.Robot c base descs tip)
    (hb : base.IsRigid) (htip : tip.IsRigid) (hp : ∀ d ∈ descs, d.Plain) {s : Ctl} {ds : List Done} (hh : Hist cfg s0 ds s)
    (hk : Answered i k0 (callsOf ds) k) :
    (Poe.fromChain k.chain).exps.length = descs.length ∧ (∀ e ∈ (Poe.fromChain k.chain).exps, e.Unit) ∧
      (Poe.fromChain k.chain).tool.IsRigid ∧ (∀ e ∈ (Poe.fromChain k.chain).exps, e.motion = .rotation) ∧
      ∀ q : List ℝ, q.length = descs.length → (Poe.fromChain k.chain).evaluate (q.map (· * deg2rad)) 1 =
        (true, arm base descs tip (lastTool ds) q) := by
  obtain ⟨h1, -⟩ := h.facts hrob
  obtain ⟨h2, h3, h4⟩ := h.after hrob hh hk
  have ht : ∀ d ∈ descs, d.Turns := by
    intro d hd
    have := hp d hd
    cases d with
    | slide => exact this.elim
    | _ => trivial
  have h0 := h.plain hrob hb htip hp
  have hpl : ∀ sg ∈ k.chain, PlainSegment sg := by
    rcases h3.links with e | ⟨x, rfl⟩
    · unfold DynSolver.chain at h0 ⊢
      rw [e]
      exact h0
    · intro sg hsg
      unfold DynSolver.chain DynSolver.appendLink at hsg
      rw [List.map_append] at hsg
      rcases List.mem_append.mp hsg with hsg | hsg
      · exact h0 sg hsg
      · rw [List.map_singleton, List.mem_singleton] at hsg
        rw [hsg]
        exact plain_fixed (KD.vectorToFrame_rigid x)
  obtain ⟨r1, r2⟩ := fromChainLoop_rotation k.chain 1 hpl Frame.IsRigid.one
  refine ⟨(C07_fromChain_terms _).1.trans (h2.now.trans h1), (C07_fromChain_terms _).2, r2, r1, fun q hq => ?_⟩
  obtain ⟨e1, e2⟩ := C07_fromChain_fk k.chain (q.map (· * deg2rad)) 1 (fun sg hsg => ⟨(hpl sg hsg).1, (hpl sg hsg).2.1, (hpl sg hsg).2.2.1⟩)
    (by rw [List.length_map, hq, h2.now, h1])
  rw [h4 ht q hq] at e2
  rw [e1, ← Option.some.inj e2]

theorem plain_turns (hp : ∀ d ∈ descs, d.Plain) : ∀ d ∈ descs, d.Turns := by
  intro d hd
  have := hp d hd
  cases d with
  | slide => exact this.elim
  | _ => trivial

/-- Solutions of a problem that reports success are near the target. -/
theorem Deployed.near {i : Inverse} {k0 k : DynSolver} (h : Deployed w st wt c cfg s0 k0) (hrob : KdlConfig.Robot c base descs tip)
    (hb : base.IsRigid) (htip : tip.IsRigid) (hp : ∀ d ∈ descs, d.Plain) {s : Ctl} {ds : List Done} (hh : Hist cfg s0 ds s)
    (hk : Answered i k0 (callsOf ds) k) {T : Frame} (hT : T.IsRigid) {t : List ℝ} (ht : t.length = descs.length)
    {rnd : ℕ → ℝ} {pb : IkProblem} {subs : List Subproblem} (hs : Solution a k T t rnd pb subs true)
    (hm : Margin pb.poe.exps) : NearTarget descs.length pb subs T (arm base descs tip (lastTool ds) t) := by
  obtain ⟨p1, p2, p3, p4, p5⟩ := h.poe hrob hb htip hp hh hk
  obtain ⟨-, h1, sols, h2, h3⟩ := hs
  obtain ⟨FK, f1, f2⟩ := C18_points_reached_partial rnd _ p2 p3 p4 pb subs h1 hm T hT [] sols h2 _ h3
  rw [p5 t ht] at f1
  obtain rfl := (Prod.mk.inj f1).2
  rw [p1] at f2
  exact f2

theorem Deployed.rigid {i : Inverse} {k0 k : DynSolver} (h : Deployed w st wt c cfg s0 k0) (hrob : KdlConfig.Robot c base descs tip)
    (hb : base.IsRigid) (htip : tip.IsRigid) (hp : ∀ d ∈ descs, d.Plain) {s : Ctl} {ds : List Done} (hh : Hist cfg s0 ds s)
    (hk : Answered i k0 (callsOf ds) k) {q : List ℝ} (hq : q.length = descs.length) :
    (arm base descs tip (lastTool ds) q).IsRigid := by
  obtain ⟨p1, p2, p3, p4, p5⟩ := h.poe hrob hb htip hp hh hk
  have := C03_evaluate_is_product (Poe.fromChain k.chain) (q.map (· * deg2rad)) 1 (by rw [p1, List.length_map, hq])
  rw [p5 q hq] at this
  rw [(Prod.mk.inj this).2]
  exact (Poe.expProd_rigid p2 _).mul p3

theorem aim_rigid {f : RefFrame} {now x : Frame} (hn : now.IsRigid) (hx : x.IsRigid) : (aim f now x).IsRigid := by
  cases f
  · exact hx
  · exact hn.mul hx

/-! ## Theorems -/

/-- C86: after any history, the pose that is reported is that of the arm of the configuration, with the last tool. -/
theorem C86_stat_partial (h : DeployedSt a w st wt c cfg s0 d0) (hrob : KdlConfig.Robot c base descs tip) (ht : ∀ d ∈ descs, d.Turns)
    {s s' : Ctl} {ds : List Done} (hh : Hist cfg s0 ds s) {d d' : StDevice} (hd : d0.Answered a (callsOf ds) d)
    {tr : List Ev} {x : List ℝ} {r : CState} (hx : Exec cfg stat s tr (.ok (some (x, r))) s') (hd' : d.Answered a tr d') :
    ∃ q, Ev.getEncoders (some q) ∈ tr ∧ q.length = descs.length ∧ x = frameToVector (arm base descs tip (lastTool ds) q) :=
  C82_stat_partial h.deployed hrob ht hh (StDevice.forget_all hd) hx (StDevice.forget_all hd')

/-- C86: whatever commands are given and however often the loop runs, joints are never sent to positions that are not
within the limits that the robot reported, up to the tolerance of the solver; and always as many as there are. -/
theorem C86_limits (h : DeployedSt a w st wt c cfg s0 d0) (hrob : KdlConfig.Robot c base descs tip)
    {s s' : Ctl} {ds : List Done} (hh : Hist cfg s0 ds s) {d d' : StDevice} (hd : d0.Answered a (callsOf ds) d)
    {op : Op} {tr : List Ev} {o : Out (Option Bool)} (hx : Exec cfg (op.prog cfg) s tr o s') (hd' : d.Answered a tr d')
    {t : List ℝ} {b : Bool} (he : Ev.positionMove t b ∈ tr ∨ Ev.setPositions t b ∈ tr) : WithinLimits cfg t := by
  have : FromSolver cfg t tr := by
    rcases he with he | he
    · exact positions_solved hx he rfl
    · exact positions_solved hx he rfl
  obtain ⟨x, q, f, sol, h1, h2, rfl⟩ := this
  have := (h.reach hrob hh hd hx hd' h2 (encoders_sized hx h1)).1
  rwa [List.take_of_length_le this.1.le]

/-- C86: the joints that `movj` sends the robot to are a solution for the pose that was asked for, of a problem that was
built for the arm with its last tool; if all the steps of the problem found the pose within reach, the arm gets there,
as far as the steps settle it. -/
theorem C86_movj_partial (h : DeployedSt a w st wt c cfg s0 d0) (hrob : KdlConfig.Robot c base descs tip)
    (hb : base.IsRigid) (htip : tip.IsRigid) (hp : ∀ d ∈ descs, d.Plain) {s s' : Ctl} {ds : List Done} (hh : Hist cfg s0 ds s)
    {d d' : StDevice} (hd : d0.Answered a (callsOf ds) d) {xd : List ℝ} {tr : List Ev} {o : Out (Option Bool)}
    (hx : Exec cfg (Op.prog cfg (.movj xd)) s tr o s') (hd' : d.Answered a tr d') {t : List ℝ} {b : Bool}
    (hm : Ev.positionMove t b ∈ tr) :
    ∃ q rnd pb subs ok, Ev.getEncoders (some q) ∈ tr ∧ t.length = descs.length ∧
      let T := aim s.frame (arm base descs tip (lastTool ds) q) (vectorToFrame xd)
      Solution a d.dyn T t rnd pb subs ok ∧ (ok = true → Margin pb.poe.exps →
        NearTarget descs.length pb subs T (arm base descs tip (lastTool ds) t)) := by
  obtain ⟨q, qd, h1, h2, rfl⟩ : ∃ q qd, Ev.getEncoders (some q) ∈ tr ∧ Ev.invKin xd q s.frame (some qd) ∈ tr ∧
      t = qd.take cfg.numJoints := by
    rcases Prog.run_bind.mp hx with ⟨a, s1, t1, t2, h1, h2, rfl⟩ | ⟨h1, -⟩
    · cases h2
      rw [List.append_nil] at hm ⊢
      exact movj_calls h1 hm
    · exact movj_calls h1 hm
  have hq := encoders_sized hx h1
  have hn := (h.deployed.facts hrob).1
  obtain ⟨h3, h4⟩ := h.reach hrob hh hd hx hd' h2 hq
  obtain ⟨rnd, pb, subs, ok, h5⟩ := h4 (plain_turns hp)
  rw [List.take_of_length_le h3.1.le]
  refine ⟨q, rnd, pb, subs, ok, h1, h3.1.trans hn, h5, ?_⟩
  rintro rfl hmar
  exact h.deployed.near hrob hb htip hp hh (StDevice.forget_all hd)
    (aim_rigid (h.deployed.rigid hrob hb htip hp hh (StDevice.forget_all hd) (hq.trans hn)) (KD.vectorToFrame_rigid xd))
    (h3.1.trans hn) h5 hmar

/-- C86: the same of poses that are streamed. -/
theorem C86_pose_partial (h : DeployedSt a w st wt c cfg s0 d0) (hrob : KdlConfig.Robot c base descs tip)
    (hb : base.IsRigid) (htip : tip.IsRigid) (hp : ∀ d ∈ descs, d.Plain) {s s' : Ctl} {ds : List Done} (hh : Hist cfg s0 ds s)
    {d d' : StDevice} (hd : d0.Answered a (callsOf ds) d) {xd : List ℝ} {tr : List Ev} {o : Out (Option Bool)}
    (hx : Exec cfg (Op.prog cfg (.pose xd)) s tr o s') (hd' : d.Answered a tr d') {e : Ev} (he : e ∈ tr) (hm : IsMotion e) :
    ∃ q t b rnd pb subs ok, Ev.getEncoders (some q) ∈ tr ∧ e = .setPositions t b ∧ t.length = descs.length ∧
      let T := aim s.frame (arm base descs tip (lastTool ds) q) (vectorToFrame xd)
      Solution a d.dyn T t rnd pb subs ok ∧ (ok = true → Margin pb.poe.exps →
        NearTarget descs.length pb subs T (arm base descs tip (lastTool ds) t)) := by
  obtain ⟨q, qd, b, h1, h2, rfl⟩ : ∃ q qd b, Ev.getEncoders (some q) ∈ tr ∧ Ev.invKin xd q s.frame (some qd) ∈ tr ∧
      e = .setPositions (qd.take cfg.numJoints) b := by
    rcases Prog.run_bind.mp hx with ⟨a, s1, t1, t2, h1, h2, rfl⟩ | ⟨h1, -⟩
    · cases h2
      rw [List.append_nil] at he ⊢
      obtain ⟨-, q, sol, r, g1, g2, -, g3⟩ := C37_pose_checked_partial h1 e he hm
      exact ⟨q, sol, r, g1, g2, g3⟩
    · obtain ⟨-, q, sol, r, g1, g2, -, g3⟩ := C37_pose_checked_partial h1 e he hm
      exact ⟨q, sol, r, g1, g2, g3⟩
  have hq := encoders_sized hx h1
  have hn := (h.deployed.facts hrob).1
  obtain ⟨h3, h4⟩ := h.reach hrob hh hd hx hd' h2 hq
  obtain ⟨rnd, pb, subs, ok, h5⟩ := h4 (plain_turns hp)
  rw [List.take_of_length_le h3.1.le]
  refine ⟨q, qd, b, rnd, pb, subs, ok, h1, rfl, h3.1.trans hn, h5, ?_⟩
  rintro rfl hmar
  exact h.deployed.near hrob hb htip hp hh (StDevice.forget_all hd)
    (aim_rigid (h.deployed.rigid hrob hb htip hp hh (StDevice.forget_all hd) (hq.trans hn)) (KD.vectorToFrame_rigid xd))
    (h3.1.trans hn) h5 hmar

/-! ## Calls stay within what the solver is defined for -/

/-- The arm with one of the tools, or none; its problem is in working order, or the solver was marked as failed. -/
structure Fine (tools : List ℝ → Prop) (k0 : DynSolver) (n m : ℕ) (d : StDevice) : Prop where
  original : d.dyn.original = k0.links
  gravity : d.dyn.gravity = k0.gravity
  chain : d.dyn = k0 ∨ ∃ x, tools x ∧ d.dyn = k0.appendLink x
  solver : d.st.error = eSolutionNotFound ∨ d.st.Ready n ∧ d.st.problem.soln = m

theorem ready_call {st : StSolver} {n : ℕ} (h : st.Ready n) {g : List ℝ} (hg : g.length = n) (T : Frame) (o : List ℝ) :
    ∃ code out st', st.cartToJnt g T o = some (code, out, st') ∧ st'.Ready n ∧ (0 ≤ code → out.length = n) := by
  obtain ⟨rs, st', h1, -, h2⟩ := C24_calls_defined n st h [(g, T, o)] (by simpa using hg)
  simp only [List.map_cons, List.map_nil, StSolver.run, Option.bind_eq_bind, Option.bind_eq_some_iff] at h1
  obtain ⟨⟨code, out, s1⟩, e1, ⟨rs', s2⟩, e2, e3⟩ := h1
  obtain ⟨-, rfl⟩ := Prod.mk.inj (Option.some.inj e2)
  obtain ⟨-, rfl⟩ := Prod.mk.inj (Option.some.inj e3)
  refine ⟨code, out, s1, e1, h2, fun hc => ?_⟩
  obtain ⟨c, ret, sols, -, c2, c3, -⟩ := (C24_call_output _ _ _ _ _ _ _ e1).2 hc
  obtain ⟨subs, w1, w2⟩ := h.problem
  obtain ⟨ok, sols', f1, -, f2⟩ := C15_solution_count st.problem subs w1 w2 T []
  rw [c2] at f1
  obtain ⟨-, rfl⟩ := Prod.mk.inj (Option.some.inj f1)
  rw [f2 out c3, h.joints]

section

variable {tools : List ℝ → Prop} {k0 : DynSolver} {n m : ℕ} {d d' : StDevice}

theorem radians_length {q g : List ℝ} (h : KdlSolver.toRadians n q = some g) : g.length = n := by
  unfold KdlSolver.toRadians at h
  split at h
  · rename_i hl
    rw [← Option.some.inj h, List.length_map, List.length_take, min_eq_left hl]
  · cases h

/-- Inverse kinematics of a solver in order. -/
theorem fine_invKin (h : Fine tools k0 n m d) (hn : d.dyn.kin.numJoints = n) {x q : List ℝ} (f : RefFrame) (hq : q.length = n) :
    d.invKin x q f ≠ none := by
  have hr : KdlSolver.toRadians d.dyn.kin.numJoints q = some (q.map (· * deg2rad)) := toRadians_eq (hq.trans hn.symm)
  have hreach : ∀ T, d.reach (q.map (· * deg2rad)) T ≠ none := by
    intro T
    unfold StDevice.reach
    rcases h.solver with he | ⟨he, -⟩
    · have hc : d.st.cartToJnt (q.map (· * deg2rad)) T (List.replicate d.dyn.kin.numJoints 0) =
          some (eSolutionNotFound, List.replicate d.dyn.kin.numJoints 0, d.st) := by
        unfold StSolver.cartToJnt
        rw [if_pos he, he]
      simp only [hc, Option.bind_eq_bind, Option.bind_some]
      rw [if_pos (by norm_num [eSolutionNotFound])]
      simp
    · obtain ⟨code, out, st', h1, -, h2⟩ := ready_call he (g := q.map (· * deg2rad)) (by simpa using hq) T
        (List.replicate d.dyn.kin.numJoints 0)
      simp only [h1, Option.bind_eq_bind, Option.bind_some]
      by_cases hc : code < 0
      · rw [if_pos hc]; simp
      · rw [if_neg hc, if_pos (by rw [h2 (not_lt.mp hc), hn])]; simp
  obtain ⟨now, hf⟩ := Chain.exists_fk (c := d.dyn.chain) (q := q.map (· * deg2rad)) (by rw [List.length_map, hq]; exact hn.symm)
  unfold StDevice.invKin
  simp only [hr, Option.bind_eq_bind, Option.bind_some]
  cases f with
  | base => exact hreach _
  | tcp =>
    simp only [hf, Option.bind_some]
    exact hreach _

theorem fine_stays (h : Fine tools k0 n m d) (hn : d.dyn.kin.numJoints = n) {e : Ev} (he : ¬ChangesChain e) (ha : d.Answers a e d') :
    Fine tools k0 n m d' := by
  have same : ∀ {e}, d'.st = d.st → ¬ChangesChain e → Ctrl.Answers ⟨fun _ => False, a.vel⟩ d.dyn e d'.dyn →
      Fine tools k0 n m d' := by
    intro e h1 h2 h3
    obtain ⟨dyn, s⟩ := d
    obtain ⟨dyn', s'⟩ := d'
    obtain rfl : s' = s := h1
    obtain rfl : dyn' = dyn := answers_same h3 h2
    exact h
  cases e with
  | invKin x q f ans =>
    obtain ⟨g, T, h1, h2, h3⟩ := StDevice.invKin_inv ha
    obtain ⟨ret, out, st', h4, rfl, -⟩ := StDevice.reach_inv h3
    refine ⟨h.original, h.gravity, h.chain, ?_⟩
    obtain ⟨g1, g2⟩ := StDevice.call_problem h4
    rcases h.solver with he | ⟨he, hm⟩
    · obtain ⟨rfl, -⟩ := g2 he
      exact Or.inl he
    · obtain ⟨code, out', st'', e1, e2, -⟩ := ready_call he (g := g) ((radians_length h1).trans hn) T
        (List.replicate d.dyn.kin.numJoints 0)
      rw [h4] at e1
      simp only [Option.some.injEq, Prod.mk.injEq] at e1
      obtain ⟨-, -, rfl⟩ := e1
      exact Or.inr ⟨e2, by rw [g1]; exact hm⟩
  | restoreOriginalChain ans => exact absurd trivial he
  | appendLink x ans => exact absurd trivial he
  | _ => exact same ha.1 (by intro h; exact h) ha.2

theorem fine_all (h : Fine tools k0 n m d) (hn : d.dyn.kin.numJoints = n) {tr : List Ev} (he : ∀ e ∈ tr, ¬ChangesChain e)
    (ha : d.Answered a tr d') : Fine tools k0 n m d' ∧ d'.dyn = d.dyn := by
  refine ⟨?_, (answered_same (StDevice.forget_all ha) he).1⟩
  induction ha with
  | nil => exact h
  | @cons d e d1 es d' h1 h2 ih =>
    have := fine_stays h hn (he e (List.mem_cons_self ..)) h1
    refine ih this ?_ fun e he' => he e (List.mem_cons_of_mem _ he')
    have := answers_same (StDevice.forget h1) (he e (List.mem_cons_self ..))
    rw [this]
    exact hn

theorem loop_rigid : ∀ (c : Chain) (f : Frame), (∀ sg ∈ c, sg.Wf) → f.IsRigid → (Poe.fromChainLoop c f).2.IsRigid := by
  intro c
  induction c with
  | nil => exact fun f _ hf => hf
  | cons sg c ih =>
    intro f h hf
    have := ih (f * sg.pose 0) (fun x hx => h x (List.mem_cons_of_mem _ hx)) (hf.mul ((h sg (List.mem_cons_self ..)).pose_rigid 0))
    unfold Poe.fromChainLoop
    dsimp only
    split <;> exact this

theorem tool_rigid {k : DynSolver} (h : ∀ l ∈ k.links, l.seg.Wf) : (Poe.fromChain k.chain).tool.IsRigid := by
  refine loop_rigid k.chain 1 (fun sg hsg => ?_) Frame.IsRigid.one
  obtain ⟨l, hl, rfl⟩ := List.mem_map.mp hsg
  exact h l hl

/-- A problem that was found for one of the chains is in order. -/
theorem built_ready {k : DynSolver} (hn : Chain.nJoints k.chain = n) (hpos : 0 < n) (hwf : ∀ l ∈ k.links, l.seg.Wf) {rnd : ℕ → ℝ}
    {pb : IkProblem} {subs : List Subproblem} (h : Builder.build rnd (Poe.fromChain k.chain) = some (some (pb, subs)))
    (hm : Margin pb.poe.exps) : (∃ subs, pb.WellFormed subs ∧ subs ≠ []) ∧ pb.poe.exps.length = n := by
  obtain ⟨t1, t2⟩ := C07_fromChain_terms k.chain
  obtain ⟨c1, c2, c3, c4, c5⟩ := C19_covers_joints_exactly_once rnd _ pb subs h
  have hl : pb.poe.exps.length = n := by rw [c3, t1, hn]
  refine ⟨⟨subs, C19_built_problem_wellformed rnd _ t2 (tool_rigid hwf) pb subs h hm, ?_⟩, hl⟩
  rintro rfl
  have := c4.length_eq
  rw [t1, hn] at this
  simp at this
  omega

/-- Facts about the chains that the tools make. -/
structure Chains (tools : List ℝ → Prop) (k0 : DynSolver) (n : ℕ) : Prop where
  pos : 0 < n
  original : k0.original = k0.links
  joints : Joints n k0
  wf : ∀ l ∈ k0.links, l.seg.Wf

theorem Chains.one (hc : Chains tools k0 n) {k : DynSolver} (hk : k = k0 ∨ ∃ x, tools x ∧ k = k0.appendLink x) :
    Chain.nJoints k.chain = n ∧ ∀ l ∈ k.links, l.seg.Wf := by
  rcases hk with rfl | ⟨x, -, rfl⟩
  · exact ⟨hc.joints.now, hc.wf⟩
  · refine ⟨(hc.joints.append x).now, fun l hl => ?_⟩
    rcases List.mem_append.mp hl with hl | hl
    · exact hc.wf l hl
    · rw [List.mem_singleton.mp hl]
      exact KdlConfig.fixed_wf (KD.vectorToFrame_rigid x)

theorem update_defined (hc : Chains tools k0 n) (hs : SteadyTools a tools k0 n) {k : DynSolver}
    (hk : k = k0 ∨ ∃ x, tools x ∧ k = k0.appendLink x) {rnd : ℕ → ℝ} (hr : a.draws rnd) (st : StSolver) :
    ∃ st', st.update rnd k.chain = some st' := by
  obtain ⟨c1, c2⟩ := hc.one hk
  obtain ⟨t1, t2⟩ := C07_fromChain_terms k.chain
  obtain ⟨r, hb⟩ := C19_build_returns rnd _ t2 (tool_rigid c2) (by rw [t1, c1]; exact hs.draws rnd hr)
  unfold StSolver.update
  rw [hb]
  cases r with
  | none => exact ⟨_, rfl⟩
  | some r => exact ⟨_, rfl⟩

theorem fine_update (hc : Chains tools k0 n) (hs : ∀ rnd k pb subs, a.draws rnd → (k = k0 ∨ ∃ x, tools x ∧ k = k0.appendLink x) →
      Builder.build rnd (Poe.fromChain k.chain) = some (some (pb, subs)) → Margin pb.poe.exps ∧ pb.soln = m)
    (h : Fine tools k0 n m d) {k : DynSolver} (hk : k = k0 ∨ ∃ x, tools x ∧ k = k0.appendLink x) {rnd : ℕ → ℝ} (hr : a.draws rnd)
    {st' : StSolver} (hu : d.st.update rnd k.chain = some st') : Fine tools k0 n m ⟨k, st'⟩ := by
  obtain ⟨c1, c2⟩ := hc.one hk
  refine ⟨?_, ?_, hk, ?_⟩
  · rcases hk with rfl | ⟨x, -, rfl⟩
    exacts [hc.original, hc.original]
  · rcases hk with rfl | ⟨x, -, rfl⟩
    exacts [rfl, rfl]
  · unfold StSolver.update at hu
    simp only [Option.bind_eq_bind, Option.bind_eq_some_iff] at hu
    obtain ⟨r, h1, h2⟩ := hu
    split at h2
    · obtain rfl := Option.some.inj h2
      exact Or.inl rfl
    · rename_i pb subs
      obtain rfl := Option.some.inj h2
      obtain ⟨m1, m2⟩ := hs rnd k pb subs hr hk h1
      obtain ⟨b1, b2⟩ := built_ready c1 hc.pos c2 h1 m1
      rcases h.solver with e | ⟨e1, e2⟩
      · exact Or.inl e
      · obtain ⟨cf, f1, f2, f3⟩ := e1.config
        refine Or.inr ⟨⟨b1, b2, cf, f1, f2, fun i hi => ?_⟩, m2⟩
        show i < pb.soln
        rw [m2, ← e2]
        exact f3 i hi

theorem fine_restore (hc : Chains tools k0 n) (h : Fine tools k0 n m d) : d.dyn.restore = k0 := by
  obtain ⟨⟨l, o, g⟩, s⟩ := d
  obtain ⟨l', o', g'⟩ := k0
  have e1 : o = l' := h.original
  have e2 : g = g' := h.gravity
  have e3 : o' = l' := hc.original
  subst e1 e2 e3
  rfl

/-- One call of a command. -/
theorem fine_step (hc : Chains tools k0 n) (hs : ∀ rnd k pb subs, a.draws rnd → (k = k0 ∨ ∃ x, tools x ∧ k = k0.appendLink x) →
      Builder.build rnd (Poe.fromChain k.chain) = some (some (pb, subs)) → Margin pb.poe.exps ∧ pb.soln = m)
    (h : Fine tools k0 n m d) {e : Ev} (hx : ∀ x b, e = .appendLink x b → d.dyn = k0 ∧ tools x) (ha : d.Answers a e d') :
    Fine tools k0 n m d' := by
  have hn : d.dyn.kin.numJoints = n := (hc.one h.chain).1
  by_cases he : ChangesChain e
  · cases e with
    | restoreOriginalChain ans =>
      obtain ⟨rfl, rnd, hr, ha⟩ := ha
      unfold StDevice.restore at ha
      simp only [Option.bind_eq_bind, Option.bind_eq_some_iff] at ha
      obtain ⟨s, h1, h2⟩ := ha
      obtain rfl := Option.some.inj h2
      rw [fine_restore hc h] at h1 ⊢
      exact fine_update hc hs h (Or.inl rfl) hr h1
    | appendLink x ans =>
      obtain ⟨e0, ht⟩ := hx x ans rfl
      obtain ⟨rfl, rnd, hr, ha⟩ := ha
      unfold StDevice.appendLink at ha
      simp only [Option.bind_eq_bind, Option.bind_eq_some_iff] at ha
      obtain ⟨s, h1, h2⟩ := ha
      obtain rfl := Option.some.inj h2
      rw [e0] at h1 ⊢
      exact fine_update hc hs h (Or.inr ⟨x, ht, rfl⟩) hr h1
    | _ => exact absurd he (by intro h; exact h)
  · exact fine_stays h hn he ha

/-- The calls of a command, up to some point, and the next one. -/
theorem fine_op (hc : Chains tools k0 n) (hs : ∀ rnd k pb subs, a.draws rnd → (k = k0 ∨ ∃ x, tools x ∧ k = k0.appendLink x) →
      Builder.build rnd (Poe.fromChain k.chain) = some (some (pb, subs)) → Margin pb.poe.exps ∧ pb.soln = m)
    (h : Fine tools k0 n m d) {op : Op} (ht : ∀ x, op = .tool x → tools x) {s s' : Ctl} {tr pre post : List Ev} {o}
    (hx : Exec cfg (op.prog cfg) s tr o s') (htr : tr = pre ++ post) {d1 : StDevice} (ha : d.Answered a pre d1) :
    Fine tools k0 n m d1 ∧ ∀ x b post', post = .appendLink x b :: post' → d1.dyn = k0 ∧ tools x := by
  by_cases hop : ∀ x, op ≠ .tool x
  · have hk : ∀ e ∈ tr, ¬ChangesChain e := by
      intro e he
      obtain ⟨c, r, h1, -, rfl⟩ := Prog.run_calls hx (keep_op cfg op hop) e he
      exact keeps_changes h1
    refine ⟨(fine_all h (hc.one h.chain).1 (fun e he => hk e (by simp [htr, he])) ha).1, ?_⟩
    rintro x b post' rfl
    exact absurd trivial (hk (.appendLink x b) (by simp [htr]))
  · push Not at hop
    obtain ⟨x, rfl⟩ := hop
    have hrest : ∀ {b d2}, d.Answers a (.restoreOriginalChain b) d2 → Fine tools k0 n m d2 ∧ d2.dyn = k0 := by
      intro b d2 h2
      have h3 := fine_step hc hs h (fun _ _ e => (by cases e)) h2
      refine ⟨h3, ?_⟩
      have := (StDevice.forget h2).1
      rw [this, fine_restore hc h]
    cases ha with
    | nil =>
      refine ⟨h, ?_⟩
      rintro y b post' rfl
      rcases tool_calls hx with ⟨b', e⟩ | e <;> rw [e] at htr <;> simp at htr
    | @cons _ e d2 es _ h1 h2 =>
      rcases tool_calls hx with ⟨b', e'⟩ | e' <;> rw [e'] at htr
      · obtain ⟨rfl, htr2⟩ := List.cons.inj htr
        obtain ⟨f1, f2⟩ := hrest h1
        cases h2 with
        | nil =>
          refine ⟨f1, ?_⟩
          rintro y b post' rfl
          simp at htr2
          exact ⟨f2, htr2.1.1 ▸ ht x rfl⟩
        | @cons _ e2 d3 es' _ h3 h4 =>
          obtain ⟨rfl, htr3⟩ := List.cons.inj htr2
          have f3 := fine_step hc hs f1 (fun y b e => (by cases e; exact ⟨f2, ht x rfl⟩)) h3
          obtain ⟨rfl, rfl⟩ : es' = [] ∧ post = [] := by
            simpa using htr3.symm
          cases h4
          exact ⟨f3, by simp⟩
      · obtain ⟨rfl, htr⟩ := List.cons.inj htr
        cases h1.1

theorem fine_hist (hc : Chains tools k0 n) (hs : ∀ rnd k pb subs, a.draws rnd → (k = k0 ∨ ∃ x, tools x ∧ k = k0.appendLink x) →
      Builder.build rnd (Poe.fromChain k.chain) = some (some (pb, subs)) → Margin pb.poe.exps ∧ pb.soln = m)
    {s s' : Ctl} {ds : List Done} (hh : Hist cfg s ds s') (ht : ∀ e ∈ ds, ∀ x, e.op = .tool x → tools x)
    (h : Fine tools k0 n m d) (ha : d.Answered a (callsOf ds) d') : Fine tools k0 n m d' := by
  induction hh generalizing d with
  | nil s => cases ha; exact h
  | @cons s op tr b s1 ds s' hx _ ih =>
    obtain ⟨d1, h1, h2⟩ := StDevice.answered_append (t := tr) (u := callsOf ds) ha
    refine ih (fun e he => ht e (List.mem_cons_of_mem _ he)) ?_ h2
    exact (fine_op hc hs h (post := []) (fun x hx => ht _ (List.mem_cons_self ..) x hx) hx (by simp) h1).1

end

/-- C86: the controller and its solver fit together, inverse kinematics included. However many commands with vectors of
the right sizes have been served, the next one asks the solver only for what the solver is defined for; with all its
answers, the command stays within the vectors of the controller. Partial: for the default way of choosing among
solutions, and tools for which the problems that are built are alike (`SteadyTools`). -/
theorem C86_defined_partial (h : DeployedSt a w st wt c cfg s0 d0) (hrob : KdlConfig.Robot c base descs tip)
    (hu : Usable w c cfg) (hb : base.IsRigid) (htip : tip.IsRigid) (hne : descs ≠ [])
    (hstr : HasText c "invKinStrategy" "leastOverallAngularDisplacement" "leastOverallAngularDisplacement")
    (hv : ∀ v, a.vel v → ∀ c q t, q.length = Chain.nJoints c → (v c q t).2.length = Chain.nJoints c)
    {tools : List ℝ → Prop} (hst : SteadyTools a tools d0.dyn descs.length)
    {s s' : Ctl} {ds : List Done} (hh : Hist cfg s0 ds s) (hf : ∀ d ∈ ds, d.op.Fits cfg)
    (htl : ∀ e ∈ ds, ∀ x, e.op = .tool x → tools x) {d : StDevice} (hd : d0.Answered a (callsOf ds) d)
    {op : Op} (hop : op.Fits cfg) (hto : ∀ x, op = .tool x → tools x) {tr : List Ev} {o : Out (Option Bool)}
    (hx : Exec cfg (op.prog cfg) s tr o s') :
    (∀ pre e post d1, tr = pre ++ e :: post → d.Answered a pre d1 → SizedCall cfg e ∧ d1.Within a e) ∧
      ∀ d', d.Answered a tr d' → o ≠ .ub := by
  have hi : a.seen.Sized := ⟨fun p hp => hp, hv⟩
  obtain ⟨g1, g2⟩ := C82_defined_partial h.deployed hrob hu hi hh hf (StDevice.forget_all hd) hop hx
  refine ⟨fun pre e post d1 he hp => ?_, fun d' hd' => g2 _ (StDevice.forget_all hd')⟩
  obtain ⟨hsz, -⟩ := g1 pre e post _ he (StDevice.forget_all hp)
  refine ⟨hsz, ?_⟩
  obtain ⟨h1, h2, h3, h4, -⟩ := h.deployed.facts hrob
  obtain ⟨m, hm⟩ := hst.problems
  have hc : Chains tools d0.dyn descs.length :=
    ⟨List.length_pos_iff.mpr hne, h4, h1 ▸ h3, h.deployed.wf hrob hb htip⟩
  have h0 : Fine tools d0.dyn descs.length m d0 := by
    obtain ⟨dev, o, k, rnd, lo, hi, strategy, -, -, -, -, -, -, -, s1, s2, s3, s4⟩ := h.solver
    obtain ⟨i1, i2, i3⟩ := h.inv
    have hstr' : strategy = "leastOverallAngularDisplacement" := by
      rcases s1 with s1 | ⟨s1, rfl⟩
      · rcases hstr with e | ⟨e, -⟩
        · rw [s1] at e; simpa using e
        · rw [s1] at e; cases e
      · rfl
    subst hstr'
    obtain ⟨-, -, subs, b1⟩ := createSt_inv s3
    rw [s4] at b1
    obtain ⟨m1, m2⟩ := hm rnd d0.dyn d0.st.problem subs s2 (Or.inl rfl) b1
    obtain ⟨r1, r2⟩ := built_ready hc.joints.now hc.pos hc.wf b1 m1
    refine ⟨h4, rfl, Or.inl rfl, Or.inr ⟨⟨r1, r2, ?_⟩, m2⟩⟩
    unfold createSt at s3
    rw [if_pos rfl] at s3
    unfold StSolver.create at s3
    simp only [Option.bind_eq_bind, Option.bind_eq_some_iff] at s3
    obtain ⟨r, -, s3⟩ := s3
    split at s3
    · cases s3
    · have e := Option.some.inj (Option.some.inj s3)
      have hlo := i1.limits (Selector.make false lo hi) (by rw [← e]; rfl)
      refine ⟨Selector.make false lo hi, by rw [← e]; rfl, ⟨?_, ?_, by simp [Selector.make]⟩, by simp [Selector.make]⟩
      · rw [hlo.1, List.length_map, i2]; exact hc.joints.now
      · rw [hlo.2, List.length_map, i3]; exact hc.joints.now
  have hfine := fine_hist hc hm hh htl h0 hd
  obtain ⟨f1, f2⟩ := fine_op hc hm hfine hto hx he hp
  have hn : d1.dyn.kin.numJoints = descs.length := (hc.one f1.chain).1
  have hj : Joints cfg.numJoints d1.dyn := joints_answered (StDevice.forget_all hp) (joints_answered (StDevice.forget_all hd) h3)
  cases e with
  | invKin x q f ans => exact fine_invKin f1 hn f (hsz.2.trans h1)
  | restoreOriginalChain ans =>
    intro rnd hr
    obtain ⟨st', e⟩ := update_defined hc hst (Or.inl rfl) hr d1.st
    unfold StDevice.restore
    rw [fine_restore hc f1]
    simp [e]
  | appendLink x ans =>
    obtain ⟨e0, htx⟩ := f2 x ans post rfl
    intro rnd hr
    obtain ⟨st', e⟩ := update_defined hc hst (Or.inr ⟨x, htx, rfl⟩) hr d1.st
    unfold StDevice.appendLink
    rw [e0]
    simp [e]
  | _ => exact within (i := ⟨fun _ => False, a.vel⟩) hj hsz

end

end KD.Ctrl
