import Verif.Props.WithSt
import Verif.Props.LinearMotion

/-!
# C86: controllers with the default inverse kinematics exist, and how they may fail
-/

namespace KD.Ctrl

open KdlConfig (Val Group)
open KdlVectorConverter
open Prog (can can_run can_mono can_bind wp wp_sound)

/-- If `open` is said to find the steps for the chain of the configuration, the search for them was run. -/
def Searched (a : Outside) (st : List Link → Bool) (c : KdlConfig.Config) : Prop :=
  ∀ ls, KdlConfig.chain c = some ls → st ls = true →
    ∃ rnd r, a.draws rnd ∧ Builder.build rnd (Poe.fromChain (ls.map (·.seg))) = some (some r)

theorem links_same {c o : KdlConfig.Config} (h : o.group = c.group) : ∀ n i, KdlConfig.links o i n = KdlConfig.links c i n := by
  intro n
  induction n with
  | zero => exact fun _ => rfl
  | succ n ih =>
    intro i
    unfold KdlConfig.links KdlConfig.link
    rw [h, ih]

/-- The chain of the options is the one of the configuration. -/
theorem chain_same {c o : KdlConfig.Config} {dev : String} {ks : List String} (h : OptionsFor c dev ks o)
    (hk : ∀ k ∈ ks, k ∈ ["mins", "maxs", "maxvels"]) : KdlConfig.chain o = KdlConfig.chain c := by
  obtain ⟨h1, -, h3⟩ := h
  have e : ∀ key, key ≠ "device" → key ∉ ["mins", "maxs", "maxvels"] → o.top key = c.top key :=
    fun key a b => h3 key a (fun h => b (hk key h))
  unfold KdlConfig.chain KdlConfig.matrix Group.check
  rw [e "numLinks" (by decide) (by decide), e "H0" (by decide) (by decide), e "HN" (by decide) (by decide)]
  dsimp only
  rw [links_same h1]

/-- C86: a controller that opens with the solver of KDL, in a configuration that names no inverse kinematics and leaves
the limits to the robot, has the one of screw theory. -/
theorem C86_opened {a : Outside} {w : World} {st : List Link → Bool} {wt : Bool} {c : KdlConfig.Config} {cfg : Cfg} {s0 : Ctl}
    {dev : String} (hw : w.HasKdl st wt) (hs : Searched a st c) (ho : openController w c = some (some (cfg, s0)))
    (hd : HasText c "solver" "KdlSolver" dev) (hl : LeavesLimits c) (hk : c.top "ikPos" = none ∧ c.top "ik" = none) :
    ∃ d0, DeployedSt a w st wt c cfg s0 d0 := by
  obtain ⟨frame, r, n, refs, ls, options, tcps, h1, h2, h3, h4, h5, h6, h7, h8, h9, h10⟩ := open_steps ho
  obtain ⟨-, -, rfl⟩ := takeLimits_robot hl h7
  have hopt := limitOptions_for c hd ls
  rw [hw] at h8
  obtain ⟨x, hx, e⟩ := Option.map_eq_some_iff.mp h8
  obtain ⟨k, rfl, e⟩ := Option.map_eq_some_iff.mp e
  obtain ⟨rfl, rfl⟩ := Prod.mk.inj h10
  obtain ⟨g1, g2, g3, g4, g5⟩ := KdlConfig.open_inv hx
  obtain ⟨o1, o2, o3⟩ := hopt
  have hpos : ((limitOptions (solverOptions c) ls).top.check "ikPos" ((limitOptions (solverOptions c) ls).top.check "ik"
      (.str "st"))).asString = "st" := by
    unfold Group.check
    rw [o3 "ikPos" (by decide) (by decide), o3 "ik" (by decide) (by decide), hk.1, hk.2]
    rfl
  unfold KdlConfig.positionSolver at g5
  dsimp only at g5
  rw [hpos, if_neg (by decide), if_neg (by decide), if_pos rfl] at g5
  obtain ⟨l, l1, g5⟩ := Option.bind_eq_some_iff.mp g5
  have hstr : ((limitOptions (solverOptions c) ls).top.check "invKinStrategy" (.str "leastOverallAngularDisplacement")) =
      c.top.check "invKinStrategy" (.str "leastOverallAngularDisplacement") := by
    unfold Group.check
    rw [o3 "invKinStrategy" (by decide) (by decide)]
  rw [hstr] at g5
  by_cases hst : (c.top.check "invKinStrategy" (.str "leastOverallAngularDisplacement")).asString =
      "leastOverallAngularDisplacement" ∨
      (c.top.check "invKinStrategy" (.str "leastOverallAngularDisplacement")).asString = "humanoidGait"
  · rw [if_pos hst] at g5
    split at g5
    · rename_i hb
      obtain ⟨p1, p2⟩ := Prod.mk.inj (Option.some.inj g5)
      obtain ⟨rnd, ⟨pb, subs⟩, r1, r2⟩ := hs _ ((chain_same ⟨o1, o2, o3⟩ (by simp)).symm.trans g1) hb
      have r3 : Builder.build rnd (Poe.fromChain k.solver.chain) = some (some (pb, subs)) := r2
      have key : ∃ s, createSt rnd k.solver.chain l.1 l.2
          (c.top.check "invKinStrategy" (.str "leastOverallAngularDisplacement")).asString = some (some s) := by
        unfold createSt StSolver.create
        rcases hst with hst | hst
        · rw [if_pos hst, r3]; exact ⟨_, rfl⟩
        · rw [if_neg (by rw [hst]; decide), if_pos hst, r3]; exact ⟨_, rfl⟩
      obtain ⟨s, key⟩ := key
      refine ⟨⟨k.solver, s⟩, hw, ho, hl, dev, _, k, rnd, l.1, l.2, _, hd, ⟨o1, o2, o3⟩, ?_, ?_, hx, p1.symm, p2.symm,
        text_check rfl ?_, r1, key, rfl⟩
      · simp [limitOptions, putOption]
      · simp [limitOptions, putOption]
      · rcases hst with hst | hst <;> rw [hst] <;> decide
    · cases g5
  · rw [if_neg hst] at g5
    cases g5

/-! ## An arm of one joint -/

/-- The numbers drawn, and any velocity solver. -/
def counted : Outside :=
  ⟨fun v => ∀ c q t, q.length = Chain.nJoints c → (v c q t).2.length = Chain.nJoints c, fun rnd => rnd = oneTwoThree⟩

/-- One joint, from -200 to 200 degrees, and the lines of KDL. -/
noncomputable def turnWorld : World := { planarWorld with
  robot := fun _ => some { simRobot with limits := fun _ => some (-200, 200) }
  line := kdlJoint.line }

/-- What the search finds for it. -/
noncomputable def turnProblem : IkProblem :=
  ⟨⟨[turnExp], Frame.trans ⟨1, 0, 0⟩⟩, [(Subproblem.pk1 0 turnExp ⟨1, 0, 0⟩).toStep], false⟩

theorem turn_build : Builder.build oneTwoThree ⟨[turnExp], Frame.trans ⟨1, 0, 0⟩⟩ =
    some (some (turnProblem, [.pk1 0 turnExp ⟨1, 0, 0⟩])) := by
  rw [← turntable_poe]
  exact turntable_build

/-- A controller of a robot of one joint. -/
structure OneJoint (c : KdlConfig.Config) (cfg : Cfg) (s0 : Ctl) (d0 : StDevice) : Prop where
  deployed : DeployedSt counted turnWorld (fun _ => true) true c cfg s0 d0
  usable : Usable turnWorld c cfg
  joints : cfg.numJoints = 1
  tcps : cfg.numTcps = 1
  speeds : cfg.qRefSpeeds = [2]
  low : cfg.qMin = [-200]
  high : cfg.qMax = [200]
  frame : s0.frame = .base
  idle : s0.state = .notControlling
  posd : cfg.usePosdMovl = (c.top "usePosdMovl").isSome
  slow : cfg.enableFailFast = false
  lines : BuildsLines cfg
  duration : s0.duration = 10

theorem one_deployed {c : KdlConfig.Config} {more : List (String × Val)}
    (hm : more = [] ∨ more = [("invKinStrategy", .str "humanoidGait")] ∨ more = [("usePosdMovl", .int 1)])
    (htop : c.top = KdlConfig.group (("numLinks", .int 1) :: more))
    {ls : List Link} (hls : KdlConfig.chain c = some ls)
    (hpoe : Poe.fromChain (ls.map (·.seg)) = ⟨[turnExp], Frame.trans ⟨1, 0, 0⟩⟩) :
    ∃ cfg s0 d0, OneJoint c cfg s0 d0 := by
  have hn : Chain.nJoints (ls.map (·.seg)) = 1 := by
    rw [← (C07_fromChain_terms _).1, hpoe]
    rfl
  let lims : List ((ℝ × ℝ) × (ℝ × ℝ)) := [((-200, 200), (-5, 5))]
  have hds : HasText c "solver" "KdlSolver" "KdlSolver" := Or.inr ⟨by rcases hm with rfl | rfl | rfl <;> rw [htop] <;> rfl, rfl⟩
  have hopt := limitOptions_for c hds lims
  have hch : KdlConfig.chain (limitOptions (solverOptions c) lims) = some ls := (chain_same hopt (by simp)).trans hls
  obtain ⟨o1, o2, o3⟩ := hopt
  have hnone : ∀ key, c.top key = none → key ≠ "device" → key ∉ ["mins", "maxs", "maxvels"] → ∀ d,
      (limitOptions (solverOptions c) lims).top.check key d = d := by
    intro key h h1 h2 d
    unfold Group.check
    rw [o3 key h1 h2, h]
    rfl
  have e1 : c.top "gravity" = none := by rcases hm with rfl | rfl | rfl <;> rw [htop] <;> rfl
  have e2 : c.top "ikVel" = none := by rcases hm with rfl | rfl | rfl <;> rw [htop] <;> rfl
  have e3 : c.top "ikPos" = none := by rcases hm with rfl | rfl | rfl <;> rw [htop] <;> rfl
  have e4 : c.top "ik" = none := by rcases hm with rfl | rfl | rfl <;> rw [htop] <;> rfl
  have e5 : ((limitOptions (solverOptions c) lims).top.check "invKinStrategy" (.str "leastOverallAngularDisplacement")).asString =
      "leastOverallAngularDisplacement" ∨ ((limitOptions (solverOptions c) lims).top.check "invKinStrategy"
        (.str "leastOverallAngularDisplacement")).asString = "humanoidGait" := by
    unfold Group.check
    rw [o3 "invKinStrategy" (by decide) (by decide), htop]
    rcases hm with rfl | rfl | rfl
    · exact Or.inl rfl
    · exact Or.inr rfl
    · exact Or.inl rfl
  have hjl : KdlConfig.jointLimits (limitOptions (solverOptions c) lims) 1 =
      some ([-200 * deg2rad], [200 * deg2rad]) := by
    have a1 : (limitOptions (solverOptions c) lims).top "mins" = some (.list [-200]) := by
      simp [limitOptions, putOption, lims]
    have a2 : (limitOptions (solverOptions c) lims).top "maxs" = some (.list [200]) := by
      simp [limitOptions, putOption, lims]
    unfold KdlConfig.jointLimits
    rw [a1, a2]
    have : (0 : ℝ) < deg2rad := by unfold deg2rad; have := Real.pi_pos; positivity
    simp [Val.asList, this.le]
  have hpos : KdlConfig.positionSolver (fun _ => true) true (limitOptions (solverOptions c) lims) ls =
      some ("st", some ([-200 * deg2rad], [200 * deg2rad])) := by
    unfold KdlConfig.positionSolver
    dsimp only
    rw [hnone "ik" e4 (by decide) (by decide), hnone "ikPos" e3 (by decide) (by decide)]
    rw [show Val.asString (.str "st") = "st" from rfl, if_neg (by decide), if_neg (by decide), if_pos rfl, hn, hjl]
    dsimp only [Option.bind_eq_bind, Option.bind_some]
    rw [if_pos e5]
    rfl
  have hsolver : turnWorld.solver (limitOptions (solverOptions c) lims) = some (some (1, 1)) := by
    show (KdlConfig.openSolver (fun _ => true) true _).map _ = _
    unfold KdlConfig.openSolver KdlConfig.openFrom
    rw [hnone "gravity" e1 (by decide) (by decide), hnone "ikVel" e2 (by decide) (by decide), hch]
    simp only [List.nil_append]
    rw [hpos]
    show some (some (Chain.nJoints (ls.map (·.seg)), 1)) = _
    rw [hn]
  have hl : LeavesLimits c := Or.inr (Or.inr (by rcases hm with rfl | rfl | rfl <;> rw [htop] <;> rfl))
  have ho := opened_of_steps (w := turnWorld) (c := c) (r := { simRobot with limits := fun _ => some (-200, 200) }) (n := 1)
    (frame := .base) (refs := [2]) (ls := lims) (options := limitOptions (solverOptions c) lims) (tcps := 1)
    (fun h => by rcases hm with rfl | rfl | rfl <;> rw [htop] at h <;> cases h)
    (frameOption_base (Or.inr ⟨by rcases hm with rfl | rfl | rfl <;> rw [htop] <;> rfl, rfl⟩)) rfl
    ⟨rfl, rfl, rfl, rfl, rfl, rfl⟩ rfl rfl
    (by
      unfold takeLimits
      rw [if_pos (by simpa [LeavesLimits] using hl)]
      rfl) hsolver rfl
  obtain ⟨d0, hd⟩ := C86_opened (a := counted) (st := fun _ => true) (wt := true) (fun _ => rfl)
    (fun ls' h _ => ⟨oneTwoThree, (turnProblem, [.pk1 0 turnExp ⟨1, 0, 0⟩]), rfl, by
      obtain rfl := Option.some.inj (hls.symm.trans h)
      rw [hpoe, turn_build]⟩) ho hds hl ⟨e3, e4⟩
  refine ⟨_, _, d0, hd, ⟨hl, fun o r n l hr hl' => ?_, fun o r j lo hi hr hl' => ?_, fun _ => ?_,
    50, Or.inr ⟨by rcases hm with rfl | rfl | rfl <;> rw [htop] <;> rfl, rfl⟩, by norm_num⟩, rfl, rfl, rfl, rfl, rfl, rfl, rfl, rfl, ?_,
    kdlJoint_lines, ?_⟩
  · cases Option.some.inj hr
    cases Option.some.inj hl'
    simp
  · cases Option.some.inj hr
    obtain ⟨rfl, rfl⟩ := Prod.mk.inj (Option.some.inj hl')
    norm_num [tol]
  · show 1 ≤ 6
    norm_num
  · show (c.top "enableFailFast").isSome = false
    rcases hm with rfl | rfl | rfl <;> rw [htop] <;> rfl
  · show (c.top.check "trajectoryDuration" (Val.num 10)).asFloat = 10
    rcases hm with rfl | rfl | rfl <;> rw [htop] <;> rfl

/-- The limits in radians. -/
noncomputable def turnLimits : Selector := Selector.make false [-200 * deg2rad] [200 * deg2rad]

/-- Its solver. -/
theorem OneJoint.solver {c : KdlConfig.Config} {cfg : Cfg} {s0 : Ctl} {d0 : StDevice} (h : OneJoint c cfg s0 d0)
    {ls : List Link} (hls : KdlConfig.chain c = some ls)
    (hpoe : Poe.fromChain (ls.map (·.seg)) = ⟨[turnExp], Frame.trans ⟨1, 0, 0⟩⟩) :
    d0.dyn.links = ls ∧ (c.top "invKinStrategy" = none → d0.st = ⟨turnProblem, some turnLimits, 0⟩) ∧
      (c.top "invKinStrategy" = some (.str "humanoidGait") → d0.st = ⟨turnProblem, none, 0⟩) := by
  obtain ⟨dev, o, k, rnd, lo, hi, strategy, h1, h2, h3, h4, h5, h6, h7, h8, h9, h10, h11⟩ := h.deployed.solver
  obtain ⟨mins, maxs, f1, f2, f3, f4, f5, -⟩ := KdlConfig.C75_limits h5 (by rw [h6]; simp)
  have g1 : mins = cfg.qMin := by simpa using f1.symm.trans h3
  have g2 : maxs = cfg.qMax := by simpa using f2.symm.trans h4
  subst g1 g2
  rw [h7] at f3
  obtain ⟨rfl, rfl⟩ := Prod.mk.inj (Option.some.inj f3)
  obtain ⟨l1, -⟩ := KdlConfig.open_inv h5
  rw [chain_same h2 (by simp), hls] at l1
  have l2 := Option.some.inj l1
  obtain rfl : rnd = oneTwoThree := h9
  have hp : Poe.fromChain k.solver.chain = ⟨[turnExp], Frame.trans ⟨1, 0, 0⟩⟩ := by
    unfold DynSolver.chain
    rw [← l2, hpoe]
  have hb : Builder.build oneTwoThree (Poe.fromChain k.solver.chain) = some (some (turnProblem, [.pk1 0 turnExp ⟨1, 0, 0⟩])) := by
    rw [hp, turn_build]
  rw [h.low, h.high] at h10
  refine ⟨by rw [← h11, l2], fun e => ?_, fun e => ?_⟩
  · rcases h8 with e' | ⟨-, rfl⟩
    · rw [e] at e'; cases e'
    · unfold createSt StSolver.create at h10
      rw [if_pos rfl, hb] at h10
      exact (Option.some.inj (Option.some.inj h10)).symm
  · rcases h8 with e' | ⟨e', -⟩
    · rw [e] at e'
      obtain rfl : "humanoidGait" = strategy := by simpa using e'
      unfold createSt StSolver.create at h10
      rw [if_neg (by decide), if_pos rfl, hb] at h10
      exact (Option.some.inj (Option.some.inj h10)).symm
    · rw [e] at e'; cases e'

theorem turn_rhs (T : Frame) : (turnProblem.initialRhs T).act ⟨1, 0, 0⟩ = T.p := by
  simp only [IkProblem.initialRhs, turnProblem]
  ext <;> simp [Frame.act, Frame.trans, Frame.inv]

open Classical in
/-- The answer of its only step. -/
theorem turn_solve (T : Frame) : ∃ b φ, turnProblem.solve T [] = some (b, [[φ]]) ∧ -Real.pi < φ ∧ φ ≤ Real.pi ∧
    (∀ y, T.p = ⟨0, y, 0⟩ → 0 < y → φ = Real.pi / 2 ∧ (b = true ↔ |1 - y| < eps)) := by
  obtain ⟨b, φ, h1, h2, h3⟩ := C08_pk1_range 0 turnExp ⟨1, 0, 0⟩ (turnProblem.initialRhs T) 1
  have hsolve : (Subproblem.pk1 0 turnExp ⟨1, 0, 0⟩).toStep.solve (turnProblem.initialRhs T) 1 = some (b, [[(0, φ)]]) := h1
  refine ⟨b, φ, ?_, h2, h3, fun y hp hy => ?_⟩
  · simp only [IkProblem.solve]
    generalize turnProblem.initialRhs T = rhs at *
    simp [turnProblem, IkProblem.stepsLoop, IkProblem.branchLoop, IkProblem.branchBody,
      IkProblem.transformPoint, IkProblem.storeLoop, IkProblem.writePairs, writeAt,
      IkProblem.transformLoop, IkProblem.termFrames, hsolve]
  · have hpi := Real.two_le_pi
    have hat : atan2 y 0 = Real.pi / 2 := by
      unfold atan2
      rw [show (⟨0, y⟩ : ℂ) = (y : ℂ) * Complex.I by apply Complex.ext <;> simp, Complex.arg_real_mul _ hy, Complex.arg_I]
    have hnorm : normalizeAngle (Real.pi / 2) = Real.pi / 2 := by
      unfold normalizeAngle EqualR
      have h0 : |Real.pi / 2| = Real.pi / 2 := abs_of_pos (by linarith)
      have h4 : |Real.pi / 2 - Real.pi| = Real.pi / 2 := by rw [show Real.pi / 2 - Real.pi = -(Real.pi / 2) by ring, abs_neg, h0]
      rw [h0, h4, if_neg, if_neg, if_neg]
      · linarith
      · linarith
      · norm_num [eps]; linarith
    have n1 : Vec3.norm ⟨1, 0, 0⟩ = 1 := by simp [Vec3.norm, Vec3.dot]
    have n2 : Vec3.norm ⟨0, y, 0⟩ = y := by simp [Vec3.norm, Vec3.dot, Real.sqrt_mul_self hy.le]
    simp only [pk1, Option.some.injEq, Prod.mk.injEq, turn_rhs, hp, axisProj_eq, Frame.act_one] at h1
    have u1 : (⟨1, 0, 0⟩ : Vec3) - turnExp.origin = ⟨1, 0, 0⟩ := by ext <;> simp [turnExp]
    have u2 : (⟨0, y, 0⟩ : Vec3) - turnExp.origin = ⟨0, y, 0⟩ := by ext <;> simp [turnExp]
    have v1 : Vec3.dot turnExp.axis ⟨1, 0, 0⟩ • turnExp.axis = 0 := by ext <;> simp [turnExp, Vec3.dot]
    have v2 : Vec3.dot turnExp.axis ⟨0, y, 0⟩ • turnExp.axis = 0 := by ext <;> simp [turnExp, Vec3.dot]
    rw [u1, u2, v1, v2, sub_zero, sub_zero, n1, n2] at h1
    obtain ⟨h4, h5⟩ := h1
    constructor
    · have : angleAbout turnExp.axis ⟨1, 0, 0⟩ ⟨0, y, 0⟩ = Real.pi / 2 := by
        unfold angleAbout
        rw [← hat]
        simp [turnExp, Vec3.dot, Vec3.cross]
      rw [this, hnorm] at h5
      simpa using h5.symm
    · rw [← h4, decide_eq_true_iff]
      simp [Vec3.Equal, EqualR]
      norm_num [eps]

/-- A first call of its solver, for a point on the second axis. -/
theorem turn_reach {dyn : DynSolver} (hn : dyn.kin.numJoints = 1) {x : List ℝ} {y : ℝ} (hx : (vectorToFrame x).p = ⟨0, y, 0⟩)
    (hy : 0 < y) : ∃ d', (⟨dyn, ⟨turnProblem, some turnLimits, 0⟩⟩ : StDevice).invKin x [0] .base = some (some [90], d') ∧
      (|1 - y| < eps → d'.st.error = 0) := by
  obtain ⟨b, φ, h1, h2, h3, h4⟩ := turn_solve (vectorToFrame x)
  obtain ⟨h4, h5⟩ := h4 y hx hy
  have hpi := Real.pi_pos
  have hf : turnLimits.Fits 1 := ⟨rfl, rfl, by simp [turnLimits, Selector.make]⟩
  have hin : turnLimits.Acceptable [φ] := by
    refine ⟨?_, by simp [turnLimits, Selector.make]⟩
    intro k a lo hi ha hlo hhi
    cases k with
    | zero =>
      simp only [turnLimits, Selector.make, List.getElem?_cons_zero, Option.some.injEq] at ha hlo hhi
      subst ha hlo hhi
      have : (0:ℝ) ≤ eps := by norm_num [eps]
      rw [h4]
      unfold deg2rad
      constructor <;> linarith
    | succ k => simp at ha
  have hg : KdlSolver.toRadians 1 [0] = some [0] := by simp [KdlSolver.toRadians, deg2rad]
  have hsel : ∃ s', turnLimits.select [[φ]] [0] = some (some [φ], s') := by
    rcases Selector.select_fresh (sols := [[φ]]) (guess := [0]) hf rfl (by simp) rfl with
      ⟨s', _, _, _, _, _, h⟩ | ⟨i, q, s', g1, g2, _⟩
    · exact absurd hin (h [φ] (by simp))
    · have := List.mem_of_getElem? g1
      rw [List.mem_singleton] at this
      exact ⟨s', this ▸ g2⟩
  obtain ⟨s', hsel⟩ := hsel
  have hc : StSolver.cartToJnt ⟨turnProblem, some turnLimits, 0⟩ [0] (vectorToFrame x) [0] =
      some (if b then 0 else eNotReachable, [φ], ⟨turnProblem, some s', if b then 0 else eNotReachable⟩) := by
    unfold StSolver.cartToJnt
    rw [if_neg (by norm_num [eSolutionNotFound])]
    simp only [h1, hsel, Option.bind_eq_bind, Option.bind_some, Option.pure_def]
  refine ⟨⟨dyn, ⟨turnProblem, some s', if b then 0 else eNotReachable⟩⟩, ?_, fun hb => by simp [h5.mpr hb]⟩
  unfold StDevice.invKin
  dsimp only
  rw [hn, hg]
  show StDevice.reach _ _ _ = _
  unfold StDevice.reach
  dsimp only
  rw [hn, show List.replicate 1 (0 : ℝ) = [0] from rfl, hc]
  have hdeg : φ * rad2deg = 90 := by
    rw [h4]
    unfold rad2deg
    field_simp
    norm_num
  cases b <;> simp [eNotReachable, hdeg]

/-- A movement of the joints, to a point on the second axis. -/
theorem OneJoint.movj {c : KdlConfig.Config} {cfg : Cfg} {s0 : Ctl} {d0 : StDevice} (h : OneJoint c cfg s0 d0)
    (hn : d0.dyn.kin.numJoints = 1) (hst : d0.st = ⟨turnProblem, some turnLimits, 0⟩) {x : List ℝ} {y : ℝ}
    (hx : (vectorToFrame x).p = ⟨0, y, 0⟩) (hy : 0 < y) :
    ∃ tr s' d', Exec cfg (Op.prog cfg (.movj x)) s0 tr (.ok (some true)) s' ∧ d0.Answered counted tr d' ∧
      Ev.positionMove [90] true ∈ tr ∧ (|1 - y| < eps → d'.st.error = 0) := by
  have hspeeds : computeIsocronousSpeeds cfg [0] [90] = some ([2], true) := by
    unfold computeIsocronousSpeeds
    rw [h.joints]
    norm_num [isoDeltas, h.speeds]
  have hc : can (robot cfg) (Op.prog cfg (.movj x)) (fun o _ tr => o = .ok (some true) ∧ tr =
      [Ev.getEncoders (some [0]), Ev.invKin x [0] .base (some [90]),
      Ev.getRefSpeeds (some [2]), Ev.setRefSpeeds [2] true, Ev.getControlModes (some [.position]),
      Ev.delay (1 / 10) (), Ev.getControlModes (some [.position]), Ev.positionMove [90] true]) s0 [] := by
    show can (robot cfg) (Prog.bind (KD.Ctrl.movj cfg x) _) _ _ _
    unfold KD.Ctrl.movj setCurrentState
    can_simp
    refine ⟨some [0], some_length (by simp [h.joints]), ?_⟩
    can_simp
    refine ⟨some [90], ?_⟩
    dsimp only
    rw [hspeeds]
    can_simp
    refine Or.inl ⟨trivial, some [2], some_length (by simp [h.joints]), ?_⟩
    can_simp
    refine ⟨true, Or.inl ⟨rfl, can_setModes' [.position] (by simp [h.joints]) (by simp) ?_⟩⟩
    can_simp
    refine Or.inl ⟨trivial, Or.inr ⟨[90], ?_, true, Or.inl ⟨rfl, ?_⟩⟩⟩
    · simp [buffer, h.joints]
    · simp [h.frame]
  obtain ⟨tr, o, s', hx', rfl, rfl⟩ := can_run hc
  obtain ⟨d', hd', he⟩ := turn_reach (dyn := d0.dyn) hn hx hy
  have : d0 = ⟨d0.dyn, ⟨turnProblem, some turnLimits, 0⟩⟩ := by cases d0; cases hst; rfl
  rw [← this] at hd'
  exact ⟨_, s', d', hx', .cons ⟨rfl, rfl⟩ (.cons hd' (.cons ⟨rfl, rfl⟩ (.cons ⟨rfl, rfl⟩ (.cons ⟨rfl, rfl⟩ (.cons ⟨rfl, rfl⟩
    (.cons ⟨rfl, rfl⟩ (.cons ⟨rfl, rfl⟩ (.nil _)))))))), by simp, he⟩

/-! ## Configurations with it -/

/-- A link of length one that turns. -/
noncomputable def table : KdlConfig.Config where
  top := KdlConfig.group [("numLinks", .int 1)]
  group k := if k = "link_0" then some (KdlConfig.group [("A", .num 1)]) else none

/-- The same, with the other way to choose among solutions. -/
noncomputable def gaitTable : KdlConfig.Config where
  top := KdlConfig.group [("numLinks", .int 1), ("invKinStrategy", .str "humanoidGait")]
  group := table.group

/-- A link of length one that turns against its axis. -/
noncomputable def mirrored : KdlConfig.Config where
  top := KdlConfig.group [("numLinks", .int 1)]
  group k := if k = "xyzLink_0" then some (KdlConfig.group [("Type", .str "InvRotZ"), ("x", .num 1)]) else none

theorem table_robot : KdlConfig.Robot table 1 [.dh 0 0 1 0] 1 := by
  refine ⟨rfl, Or.inr ⟨rfl, rfl⟩, fun i d hd => ?_, Or.inr ⟨rfl, rfl⟩⟩
  match i with
  | 0 =>
    rw [← Option.some.inj hd]
    exact .dh (g := KdlConfig.group [("A", .num 1)]) rfl (Or.inr ⟨rfl, rfl⟩) (Or.inr ⟨rfl, rfl⟩) (Or.inl rfl) (Or.inr ⟨rfl, rfl⟩)
  | i + 1 => simp at hd

theorem gait_robot : KdlConfig.Robot gaitTable 1 [.dh 0 0 1 0] 1 := by
  refine ⟨rfl, Or.inr ⟨rfl, rfl⟩, fun i d hd => ?_, Or.inr ⟨rfl, rfl⟩⟩
  match i with
  | 0 =>
    rw [← Option.some.inj hd]
    exact .dh (g := KdlConfig.group [("A", .num 1)]) rfl (Or.inr ⟨rfl, rfl⟩) (Or.inr ⟨rfl, rfl⟩) (Or.inl rfl) (Or.inr ⟨rfl, rfl⟩)
  | i + 1 => simp at hd

theorem mirrored_robot : KdlConfig.Robot mirrored 1 [.turn 2 true 1 0 0] 1 := by
  refine ⟨rfl, Or.inr ⟨rfl, rfl⟩, fun i d hd => ?_, Or.inr ⟨rfl, rfl⟩⟩
  match i with
  | 0 =>
    rw [← Option.some.inj hd]
    exact .turn (g := KdlConfig.group [("Type", .str "InvRotZ"), ("x", .num 1)]) rfl rfl rfl (Or.inl rfl) (Or.inr ⟨rfl, rfl⟩)
      (Or.inr ⟨rfl, rfl⟩)
  | i + 1 => simp at hd

/-- The links of the first two. -/
noncomputable def tableLinks : List Link :=
  [KdlConfig.fixedLink 1, ⟨Segment.make (KdlConfig.joint .rotZ 1) (KdlConfig.dhFrame 1 (0 * deg2rad) 0 (0 * deg2rad)), Inertia.zero⟩,
    KdlConfig.fixedLink 1]

theorem table_chain : KdlConfig.chain table = some tableLinks := rfl

theorem gait_chain : KdlConfig.chain gaitTable = some tableLinks := rfl

/-- The links of the third. -/
noncomputable def mirroredLinks : List Link :=
  [KdlConfig.fixedLink 1, ⟨Segment.make (KdlConfig.joint .rotZ (-1)) (Frame.trans ⟨1, 0, 0⟩), Inertia.zero⟩, KdlConfig.fixedLink 1]

theorem mirrored_chain : KdlConfig.chain mirrored = some mirroredLinks := rfl

theorem fixed_pose (f : Frame) : (Segment.make Joint.fixed f).pose 0 = f := by
  simp [Segment.make, Segment.pose, Joint.pose, Joint.fixed, Frame.inv_one]

theorem turn_pose (scale : ℝ) : (Segment.make (KdlConfig.joint .rotZ scale) (Frame.trans ⟨1, 0, 0⟩)).pose 0 = Frame.trans ⟨1, 0, 0⟩ := by
  have hpose : (KdlConfig.joint .rotZ scale).pose 0 = 1 := by
    simp only [KdlConfig.joint, Joint.pose, mul_zero, add_zero, rotZ_zero]
    rfl
  simp only [Segment.pose, Segment.make, hpose, Frame.inv_one, one_mul]

theorem turn_poe (scale : ℝ) (rest : Chain) : Poe.fromChain ([Segment.make Joint.fixed 1,
    Segment.make (KdlConfig.joint .rotZ scale) (Frame.trans ⟨1, 0, 0⟩)] ++ rest) =
    ⟨turnExp :: (Poe.fromChainLoop rest (Frame.trans ⟨1, 0, 0⟩)).1, (Poe.fromChainLoop rest (Frame.trans ⟨1, 0, 0⟩)).2⟩ := by
  have hn : Vec3.normalize ⟨0, 0, 1⟩ = ⟨0, 0, 1⟩ := Vec3.normalize_of_unit (by simp [Vec3.dot])
  simp only [Poe.fromChain, List.cons_append, List.nil_append, Poe.fromChainLoop, fixed_pose, turn_pose, one_mul]
  simp [Segment.make, Poe.jointTypeToMotion, MatrixExp.changeBase_one, MatrixExp.make, KdlConfig.joint,
    Joint.jointAxis, Joint.jointOrigin, hn, turnExp, Frame.act, Joint.fixed]

theorem fixed_loop (f g : Frame) (rest : Chain) : Poe.fromChainLoop (Segment.make Joint.fixed f :: rest) g =
    Poe.fromChainLoop rest (g * f) := by
  unfold Poe.fromChainLoop
  simp only [fixed_pose]
  simp [Segment.make, Joint.fixed, Poe.jointTypeToMotion]
  cases rest <;> rfl

theorem dh_one : KdlConfig.dhFrame 1 (0 * deg2rad) 0 (0 * deg2rad) = Frame.trans ⟨1, 0, 0⟩ := by
  ext <;> simp [KdlConfig.dhFrame, Frame.trans]

/-- With more segments at the end. -/
theorem table_poe (rest : Chain) : Poe.fromChain (tableLinks.map (·.seg) ++ rest) =
    ⟨turnExp :: (Poe.fromChainLoop rest (Frame.trans ⟨1, 0, 0⟩)).1, (Poe.fromChainLoop rest (Frame.trans ⟨1, 0, 0⟩)).2⟩ := by
  have := turn_poe 1 (Segment.make Joint.fixed 1 :: rest)
  rw [fixed_loop, mul_one] at this
  rw [← this, tableLinks, dh_one]
  rfl

theorem table_opens : ∃ cfg s0 d0, OneJoint table cfg s0 d0 ∧ d0.st = ⟨turnProblem, some turnLimits, 0⟩ ∧
    d0.dyn.links = tableLinks := by
  have hp : Poe.fromChain (tableLinks.map (·.seg)) = ⟨[turnExp], Frame.trans ⟨1, 0, 0⟩⟩ := by
    rw [← List.append_nil (List.map _ _), table_poe]
    rfl
  obtain ⟨cfg, s0, d0, h⟩ := one_deployed (c := table) (Or.inl rfl) rfl table_chain hp
  obtain ⟨h1, h2, -⟩ := h.solver table_chain hp
  exact ⟨cfg, s0, d0, h, h2 rfl, h1⟩

theorem gait_opens : ∃ cfg s0 d0, OneJoint gaitTable cfg s0 d0 ∧ d0.st = ⟨turnProblem, none, 0⟩ := by
  have hp : Poe.fromChain (tableLinks.map (·.seg)) = ⟨[turnExp], Frame.trans ⟨1, 0, 0⟩⟩ := by
    rw [← List.append_nil (List.map _ _), table_poe]
    rfl
  obtain ⟨cfg, s0, d0, h⟩ := one_deployed (c := gaitTable) (Or.inr (Or.inl rfl)) rfl gait_chain hp
  obtain ⟨h1, -, h2⟩ := h.solver gait_chain hp
  exact ⟨cfg, s0, d0, h, h2 rfl⟩

theorem mirrored_opens : ∃ cfg s0 d0, OneJoint mirrored cfg s0 d0 ∧ d0.st = ⟨turnProblem, some turnLimits, 0⟩ := by
  have hp : Poe.fromChain (mirroredLinks.map (·.seg)) = ⟨[turnExp], Frame.trans ⟨1, 0, 0⟩⟩ := by
    have := turn_poe (-1) [Segment.make Joint.fixed 1]
    rw [fixed_loop, mul_one] at this
    exact this
  obtain ⟨cfg, s0, d0, h⟩ := one_deployed (c := mirrored) (Or.inl rfl) rfl mirrored_chain hp
  obtain ⟨h1, h2, -⟩ := h.solver mirrored_chain hp
  exact ⟨cfg, s0, d0, h, h2 rfl⟩

theorem OneJoint.count {c : KdlConfig.Config} {cfg : Cfg} {s0 : Ctl} {d0 : StDevice} (h : OneJoint c cfg s0 d0) :
    d0.dyn.kin.numJoints = 1 := by
  have := h.deployed.inv.2.1
  rw [h.low] at this
  exact this.symm

theorem flat_frame (x y z : ℝ) : vectorToFrame [x, y, z, 0, 0, 0] = Frame.trans ⟨x, y, z⟩ := by
  have : Vec3.norm ⟨0, 0, 0⟩ = 0 := Vec3.norm_zero
  simp only [vectorToFrame, this, Mat3.rot, Mat3.rot2_zero]
  rfl

theorem right_angle : (90 : ℝ) * deg2rad = Real.pi / 2 := by
  unfold deg2rad
  ring

/-- Where the arm is. -/
theorem table_arm (t : ℝ) : (arm 1 [.dh 0 0 1 0] 1 1 [t]).p = ⟨Real.cos (t * deg2rad), Real.sin (t * deg2rad), 0⟩ := by
  simp only [arm, List.zipWith_cons_cons, List.zipWith_nil_left, List.prod_cons, List.prod_nil, KdlConfig.Desc.place,
    zero_mul, Mat3.rot2_zero, mul_one, one_mul, add_zero]
  ext <;> simp [Frame.trans, Mat3.rot2]

theorem mirrored_arm (t : ℝ) : (arm 1 [.turn 2 true 1 0 0] 1 1 [t]).p = ⟨Real.cos (t * deg2rad), -Real.sin (t * deg2rad), 0⟩ := by
  simp only [arm, List.zipWith_cons_cons, List.zipWith_nil_left, List.prod_cons, List.prod_nil, KdlConfig.Desc.place,
    mul_one, one_mul]
  ext <;> simp [Frame.trans, Mat3.rot2, KdlConfig.sign, KdlConfig.unitAxis]

/-! ## What is missing in C86 -/

/-- A pose out of reach is accepted, and the joints move. The arm is of length one and turns about the origin; the point
asked for is two away from it. -/
theorem C86_unreachable_counterexample : ∃ cfg s0 d0, DeployedSt counted turnWorld (fun _ => true) true table cfg s0 d0 ∧
    KdlConfig.Robot table 1 [.dh 0 0 1 0] 1 ∧ ∃ tr s' d', s0.frame = .base ∧
      Exec cfg (Op.prog cfg (.movj [0, 2, 0, 0, 0, 0])) s0 tr (.ok (some true)) s' ∧ d0.Answered counted tr d' ∧
      Ev.positionMove [90] true ∈ tr ∧
      ∀ t, 1 ≤ ((arm 1 [.dh 0 0 1 0] 1 1 [t]).p - (vectorToFrame [0, 2, 0, 0, 0, 0]).p).norm := by
  obtain ⟨cfg, s0, d0, h, h1, -⟩ := table_opens
  obtain ⟨tr, s', d', h2, h3, h4, h5⟩ := h.movj h.count h1 (x := [0, 2, 0, 0, 0, 0]) (y := 2) (by rw [flat_frame]; rfl) (by norm_num)
  refine ⟨cfg, s0, d0, h.deployed, table_robot, tr, s', d', h.frame, h2, h3, h4, fun t => ?_⟩
  rw [table_arm, flat_frame]
  unfold Vec3.norm
  rw [Real.one_le_sqrt]
  have e := Real.sin_sq_add_cos_sq (t * deg2rad)
  have := Real.sin_le_one (t * deg2rad)
  simp only [Vec3.dot, Frame.trans, Vec3.sub_x, Vec3.sub_y, Vec3.sub_z]
  nlinarith

/-- The orientation that was asked for is not looked at by an arm whose steps settle only a point: the solver finds the
pose within reach, and the arm points elsewhere. -/
theorem C86_orientation_counterexample : ∃ cfg s0 d0, DeployedSt counted turnWorld (fun _ => true) true table cfg s0 d0 ∧
    KdlConfig.Robot table 1 [.dh 0 0 1 0] 1 ∧ ∃ tr s' d', s0.frame = .base ∧
      Exec cfg (Op.prog cfg (.movj [0, 1, 0, 0, 0, 0])) s0 tr (.ok (some true)) s' ∧ d0.Answered counted tr d' ∧
      Ev.positionMove [90] true ∈ tr ∧ d'.st.error = 0 ∧
      (arm 1 [.dh 0 0 1 0] 1 1 [90]).M.mulVec ⟨1, 0, 0⟩ = ⟨0, 1, 0⟩ ∧
      (vectorToFrame [0, 1, 0, 0, 0, 0]).M.mulVec ⟨1, 0, 0⟩ = ⟨1, 0, 0⟩ := by
  obtain ⟨cfg, s0, d0, h, h1, -⟩ := table_opens
  obtain ⟨tr, s', d', h2, h3, h4, h5⟩ := h.movj h.count h1 (x := [0, 1, 0, 0, 0, 0]) (y := 1) (by rw [flat_frame]; rfl) (by norm_num)
  refine ⟨cfg, s0, d0, h.deployed, table_robot, tr, s', d', h.frame, h2, h3, h4, h5 (by norm_num [eps]), ?_, ?_⟩
  · simp only [arm, List.zipWith_cons_cons, List.zipWith_nil_left, List.prod_cons, List.prod_nil, KdlConfig.Desc.place,
      zero_mul, Mat3.rot2_zero, mul_one, one_mul, add_zero, right_angle]
    ext <;> simp [Frame.trans, Mat3.rot2]
  · rw [flat_frame]
    ext <;> simp [Frame.trans]

/-- A joint that turns against its axis: the arm goes to the mirror image of the point that was asked for. -/
theorem C86_inverted_counterexample : ∃ cfg s0 d0, DeployedSt counted turnWorld (fun _ => true) true mirrored cfg s0 d0 ∧
    KdlConfig.Robot mirrored 1 [.turn 2 true 1 0 0] 1 ∧ ∃ tr s' d', s0.frame = .base ∧
      Exec cfg (Op.prog cfg (.movj [0, 1, 0, 0, 0, 0])) s0 tr (.ok (some true)) s' ∧ d0.Answered counted tr d' ∧
      Ev.positionMove [90] true ∈ tr ∧ (arm 1 [.turn 2 true 1 0 0] 1 1 [90]).p = ⟨0, -1, 0⟩ ∧
      (vectorToFrame [0, 1, 0, 0, 0, 0]).p = ⟨0, 1, 0⟩ ∧ (arm 1 [.turn 2 true 1 0 0] 1 1 [-90]).p = ⟨0, 1, 0⟩ := by
  obtain ⟨cfg, s0, d0, h, h1⟩ := mirrored_opens
  obtain ⟨tr, s', d', h2, h3, h4, h5⟩ := h.movj h.count h1 (x := [0, 1, 0, 0, 0, 0]) (y := 1) (by rw [flat_frame]; rfl) (by norm_num)
  refine ⟨cfg, s0, d0, h.deployed, mirrored_robot, tr, s', d', h.frame, h2, h3, h4, ?_, by rw [flat_frame]; rfl, ?_⟩
  · rw [mirrored_arm, right_angle, Real.cos_pi_div_two, Real.sin_pi_div_two]
  · rw [mirrored_arm, show (-90 : ℝ) * deg2rad = -(Real.pi / 2) by rw [← right_angle]; ring, Real.cos_neg, Real.sin_neg,
      Real.cos_pi_div_two, Real.sin_pi_div_two, neg_neg]

/-- A controller opens with a strategy that its arm has not the joints for, and its first movement is undefined. -/
theorem C86_gait_counterexample : ∃ cfg s0 d0, DeployedSt counted turnWorld (fun _ => true) true gaitTable cfg s0 d0 ∧
    KdlConfig.Robot gaitTable 1 [.dh 0 0 1 0] 1 ∧ ∀ x, ∃ tr o s' d1, Exec cfg (Op.prog cfg (.movj x)) s0
      (Ev.getEncoders (some [0]) :: Ev.invKin x [0] .base none :: tr) o s' ∧
      d0.Answered counted [Ev.getEncoders (some [0])] d1 ∧ ¬ d1.Within counted (.invKin x [0] .base none) := by
  obtain ⟨cfg, s0, d0, h, h1⟩ := gait_opens
  refine ⟨cfg, s0, d0, h.deployed, gait_robot, fun x => ?_⟩
  have hc : can (robot cfg) (Op.prog cfg (.movj x)) (fun o _ tr => tr =
      [Ev.getEncoders (some [0]), Ev.invKin x [0] .base none]) s0 [] := by
    show can (robot cfg) (Prog.bind (KD.Ctrl.movj cfg x) _) _ _ _
    unfold KD.Ctrl.movj setCurrentState
    can_simp
    refine ⟨some [0], some_length (by simp [h.joints]), ?_⟩
    can_simp
    refine ⟨none, ?_⟩
    dsimp only
    can_simp
    simp [h.frame]
  obtain ⟨tr, o, s', hx, rfl⟩ := can_run hc
  refine ⟨[], o, s', d0, hx, .cons ⟨rfl, rfl⟩ (.nil _), fun hw => hw ?_⟩
  obtain ⟨b, φ, g1, -⟩ := turn_solve (vectorToFrame x)
  have hg : KdlSolver.toRadians 1 [0] = some [0] := by simp [KdlSolver.toRadians, deg2rad]
  unfold StDevice.invKin
  dsimp only
  rw [h.count, hg]
  show StDevice.reach _ _ _ = _
  unfold StDevice.reach
  dsimp only
  rw [h1]
  unfold StSolver.cartToJnt
  rw [if_neg (by norm_num [eSolutionNotFound])]
  simp [g1]

/-! ## A tool that the search fails for -/

theorem StDevice.failed {a : Outside} {d d' : StDevice} {e : Ev} (h : d.Answers a e d') (hd : d.st.error = eSolutionNotFound) :
    d'.st.error = eSolutionNotFound ∧ ∀ x q f ans, e = .invKin x q f ans → ans = none := by
  have up : ∀ {rnd : ℕ → ℝ} {c : Chain} {s : StSolver}, d.st.update rnd c = some s → s.error = eSolutionNotFound := by
    intro rnd c s h
    unfold StSolver.update at h
    obtain ⟨r, -, h⟩ := Option.bind_eq_some_iff.mp h
    split at h
    · rw [← Option.some.inj h]
    · rw [← Option.some.inj h]; exact hd
  cases e with
  | invKin x q f ans =>
    obtain ⟨g, T, -, -, h⟩ := StDevice.invKin_inv h
    obtain ⟨ret, out, st', h1, rfl, h2⟩ := StDevice.reach_inv h
    unfold StSolver.cartToJnt at h1
    rw [if_pos hd] at h1
    obtain ⟨rfl, h3⟩ := Prod.mk.inj (Option.some.inj h1)
    obtain ⟨-, rfl⟩ := Prod.mk.inj h3
    refine ⟨hd, fun x' q' f' ans' e => ?_⟩
    have e4 : ans = ans' := by simpa using (Ev.invKin.inj e).2.2.2
    rcases h2 with ⟨-, h2⟩ | ⟨h2, -⟩
    · rw [← e4, h2]
    · rw [hd] at h2
      norm_num [eSolutionNotFound] at h2
  | restoreOriginalChain ans =>
    obtain ⟨-, rnd, -, h⟩ := h
    obtain ⟨s, h1, h⟩ := Option.bind_eq_some_iff.mp h
    rw [← Option.some.inj h]
    exact ⟨up h1, by simp⟩
  | appendLink x ans =>
    obtain ⟨-, rnd, -, h⟩ := h
    obtain ⟨s, h1, h⟩ := Option.bind_eq_some_iff.mp h
    rw [← Option.some.inj h]
    exact ⟨up h1, by simp⟩
  | _ => exact ⟨h.1 ▸ hd, by simp⟩

theorem StDevice.failed_all {a : Outside} {d d' : StDevice} {tr : List Ev} (h : d.Answered a tr d')
    (hd : d.st.error = eSolutionNotFound) :
    d'.st.error = eSolutionNotFound ∧ ∀ x q f ans, Ev.invKin x q f ans ∈ tr → ans = none := by
  induction h with
  | nil => exact ⟨hd, by simp⟩
  | cons h1 _ ih =>
    obtain ⟨g1, g2⟩ := StDevice.failed h1 hd
    obtain ⟨g3, g4⟩ := ih g1
    refine ⟨g3, fun x q f ans he => ?_⟩
    rcases List.mem_cons.mp he with e | e
    · exact g2 x q f ans e.symm
    · exact g4 x q f ans e

/-- A tool that brings the tip to the axis: the command succeeds, and from then on nothing moves the joints to a position,
whatever is done; taking the tool off does not help. -/
theorem C86_tool_counterexample : ∃ cfg s0 d0, DeployedSt counted turnWorld (fun _ => true) true table cfg s0 d0 ∧
    KdlConfig.Robot table 1 [.dh 0 0 1 0] 1 ∧ ∃ tr s1 d1,
      Exec cfg (Op.prog cfg (.tool [-1, 0, 0, 0, 0, 0])) s0 tr (.ok (some true)) s1 ∧ d0.Answered counted tr d1 ∧
      ∀ ds s d, Hist cfg s1 ds s → d1.Answered counted (callsOf ds) d → ∀ op tr o s' d', Exec cfg (Op.prog cfg op) s tr o s' →
        d.Answered counted tr d' → ∀ t b, Ev.positionMove t b ∉ tr ∧ Ev.setPositions t b ∉ tr := by
  obtain ⟨cfg, s0, d0, h, h1, h2⟩ := table_opens
  have hc : can (robot cfg) (Op.prog cfg (.tool [-1, 0, 0, 0, 0, 0])) (fun o s' tr => o = .ok (some true) ∧ s' = s0 ∧ tr =
      [Ev.restoreOriginalChain true, Ev.appendLink [-1, 0, 0, 0, 0, 0] true]) s0 [] := by
    show can (robot cfg) (Prog.bind (tool [-1, 0, 0, 0, 0, 0]) _) _ _ _
    unfold tool
    can_simp
    exact ⟨true, Or.inl ⟨rfl, true, by simp⟩⟩
  obtain ⟨tr, _, s, hx, rfl, rfl, rfl⟩ := can_run hc
  obtain ⟨-, -, -, ho, -⟩ := h.deployed.deployed.facts table_robot
  have hres : d0.restore oneTwoThree = some d0 := by
    have e1 : d0.dyn.restore = d0.dyn := DynSolver.C74_restored d0.dyn ho []
    have e2 : Poe.fromChain d0.dyn.chain = ⟨[turnExp], Frame.trans ⟨1, 0, 0⟩⟩ := by
      unfold DynSolver.chain
      rw [h2, ← List.append_nil (List.map _ _), table_poe]
      rfl
    unfold StDevice.restore StSolver.update
    dsimp only
    rw [e1, e2, turn_build]
    cases d0
    cases h1
    rfl
  have happ : d0.appendLink oneTwoThree [-1, 0, 0, 0, 0, 0] = some ⟨d0.dyn.appendLink [-1, 0, 0, 0, 0, 0],
      { d0.st with error := eSolutionNotFound }⟩ := by
    have e2 : Poe.fromChain (d0.dyn.appendLink [-1, 0, 0, 0, 0, 0]).chain = ⟨[turnExp], 1⟩ := by
      unfold DynSolver.chain DynSolver.appendLink
      rw [h2, List.map_append, table_poe]
      simp only [List.map_cons, List.map_nil]
      rw [fixed_loop, flat_frame]
      have hmul : Frame.trans ⟨1, 0, 0⟩ * Frame.trans ⟨-1, 0, 0⟩ = 1 := by
        ext <;> simp [Frame.trans]
      rw [hmul]
      rfl
    unfold StDevice.appendLink StSolver.update
    dsimp only
    rw [e2, ← turntableTool_poe, turntableTool_build]
    rfl
  refine ⟨cfg, s, d0, h.deployed, table_robot, _, s, _, hx, .cons ⟨rfl, _, rfl, hres⟩ (.cons ⟨rfl, _, rfl, happ⟩ (.nil _)), ?_⟩
  intro ds s' d hh hd op tr o s'' d' hx' hd' t b
  obtain ⟨g1, -⟩ := StDevice.failed_all hd rfl
  obtain ⟨-, g2⟩ := StDevice.failed_all hd' g1
  constructor
  · intro he
    obtain ⟨x, q, f, sol, -, h2, -⟩ := positions_solved hx' he rfl
    cases g2 _ _ _ _ h2
  · intro he
    obtain ⟨x, q, f, sol, -, h2, -⟩ := positions_solved hx' he rfl
    cases g2 _ _ _ _ h2

/-! ## The theorems apply -/

/-- The limits are kept, and the point is reached. -/
example : ∃ cfg s0 d0, DeployedSt counted turnWorld (fun _ => true) true table cfg s0 d0 ∧
    KdlConfig.Robot table 1 [.dh 0 0 1 0] 1 ∧ (∀ d ∈ [KdlConfig.Desc.dh 0 0 1 0], d.Plain) ∧
    (∃ tr s' d', Exec cfg (Op.prog cfg (.movj [0, 1, 0, 0, 0, 0])) s0 tr (.ok (some true)) s' ∧ d0.Answered counted tr d' ∧
      Ev.positionMove [90] true ∈ tr) ∧
    (∃ sols, turnProblem.solve (vectorToFrame [0, 1, 0, 0, 0, 0]) [] = some (true, sols)) ∧ Margin turnProblem.poe.exps ∧
    SettlesPoint 1 [.pk1 0 turnExp ⟨1, 0, 0⟩] 0 ⟨1, 0, 0⟩ ∧ KD.Within turnProblem.poe.exps [⟨1, 0, 0⟩] 1 := by
  obtain ⟨cfg, s0, d0, h, h1, -⟩ := table_opens
  obtain ⟨tr, s', d', h2, h3, h4, h5⟩ := h.movj h.count h1 (x := [0, 1, 0, 0, 0, 0]) (y := 1) (by rw [flat_frame]; rfl) (by norm_num)
  obtain ⟨b, φ, g1, -, -, g2⟩ := turn_solve (vectorToFrame [0, 1, 0, 0, 0, 0])
  refine ⟨cfg, s0, d0, h.deployed, table_robot, by simp [KdlConfig.Desc.Plain], ⟨tr, s', d', h2, h3, h4⟩, ⟨[[φ]], ?_⟩, ?_, ?_, ?_⟩
  · rw [g1, (g2 1 (by rw [flat_frame]; rfl) (by norm_num)).2.mpr (by norm_num [eps])]
  · intro e1 h1 e2 h2 _ _ _
    simp only [turnProblem, List.mem_singleton] at h1 h2
    subst h1 h2
    exact ⟨by ext <;> simp [turnExp, Vec3.cross], Or.inl (by ext <;> simp [turnExp, Vec3.cross])⟩
  · exact ⟨0, 0, 1, Or.inl ⟨turnExp, rfl, rfl⟩, by norm_num, by norm_num, by simp, by omega⟩
  · constructor
    · intro e1 h1 e2 h2
      simp only [turnProblem, List.mem_singleton] at h1 h2
      subst h1 h2
      simp [Vec3.norm_zero]
    · intro p hp e he
      simp only [turnProblem, List.mem_singleton] at hp he
      subst hp he
      simp [turnExp, Vec3.norm, Vec3.dot]

/-- Asked for the pose. -/
example : ∃ cfg s0 d0, DeployedSt counted turnWorld (fun _ => true) true table cfg s0 d0 ∧
    KdlConfig.Robot table 1 [.dh 0 0 1 0] 1 ∧ (∀ d ∈ [KdlConfig.Desc.dh 0 0 1 0], d.Turns) ∧
    ∃ tr s' x r, Exec cfg stat s0 tr (.ok (some (x, r))) s' ∧ d0.Answered counted tr d0 ∧ Ev.getEncoders (some [90]) ∈ tr := by
  obtain ⟨cfg, s0, d0, h, h1, -⟩ := table_opens
  have ht : ∀ d ∈ [KdlConfig.Desc.dh 0 0 1 0], d.Turns := by simp [KdlConfig.Desc.Turns]
  obtain ⟨-, -, hj, -, hfk⟩ := h.deployed.deployed.facts table_robot
  have hc : can (robot cfg) stat (fun o _ tr => ∃ r, o = .ok (some (frameToVector (arm 1 [.dh 0 0 1 0] 1 1 [90]), r)) ∧ tr =
      [Ev.getEncoders (some [90]), Ev.fwdKin [90] (some (frameToVector (arm 1 [.dh 0 0 1 0] 1 1 [90])))]) s0 [] := by
    unfold stat getCurrentState
    can_simp
    refine ⟨some [90], some_length (by simp [h.joints]), ?_⟩
    can_simp
    refine ⟨some (frameToVector (arm 1 [.dh 0 0 1 0] 1 1 [90])), ?_⟩
    dsimp only
    can_simp
    simp
  obtain ⟨tr, o, s', hx, r, rfl, rfl⟩ := can_run hc
  refine ⟨cfg, s0, d0, h.deployed, table_robot, ht, _, s', _, r, hx, .cons ⟨rfl, rfl⟩ (.cons ⟨rfl, rfl, _, ?_, rfl⟩ (.nil _)), by simp⟩
  rw [fwdKin_kin hj (by rw [h.joints]; rfl), hfk ht _ rfl]
  rfl

/-- A pose that is streamed. -/
example : ∃ cfg s0 d0, DeployedSt counted turnWorld (fun _ => true) true table cfg s0 d0 ∧
    KdlConfig.Robot table 1 [.dh 0 0 1 0] 1 ∧ ∃ tr0 s d tr s' d',
      Hist cfg s0 [⟨.setParameter .streaming vocabPose, tr0, some true⟩] s ∧ d0.Answered counted (callsOf
        [⟨.setParameter .streaming vocabPose, tr0, some true⟩]) d ∧
      Exec cfg (Op.prog cfg (.pose [0, 1, 0, 0, 0, 0])) s tr (.ok none) s' ∧ d.Answered counted tr d' ∧
      Ev.setPositions [90] true ∈ tr := by
  obtain ⟨cfg, s0, d0, h, h1, -⟩ := table_opens
  have hi : toInt (vocabPose : ℤ) = some vocabPose := by
    unfold toInt
    have h0 : (0 : ℝ) ≤ (vocabPose : ℤ) := by
      exact_mod_cast (by decide : (0 : ℤ) ≤ vocabPose)
    simp only [if_pos h0, Int.floor_intCast]
    rw [if_pos (by decide)]
  have hc : can (robot cfg) (Op.prog cfg (.setParameter .streaming vocabPose)) (fun o s' tr => o = .ok (some true) ∧
      s' = { s0 with streaming := vocabPose } ∧ tr = [Ev.getControlModes (some [.positionDirect]), Ev.delay (1 / 10) (),
        Ev.getControlModes (some [.positionDirect])]) s0 [] := by
    show can (robot cfg) (Prog.bind (setParameter .streaming _) _) _ _ _
    unfold setParameter presetStreamingCommand setCurrentState getCurrentState
    can_simp
    refine Or.inr ⟨by simp [h.idle], Or.inr ⟨vocabPose, hi, ?_⟩⟩
    refine Or.inl ⟨Or.inl rfl, can_setModes' [.positionDirect] (by simp [h.joints]) (by simp) ?_⟩
    can_simp
    simp [h.idle]
  obtain ⟨tr0, _, s, e0, rfl, rfl, rfl⟩ := can_run hc
  have hc2 : can (robot cfg) (Op.prog cfg (.pose [0, 1, 0, 0, 0, 0])) (fun o _ tr => o = .ok none ∧
      tr = [Ev.getControlModes (some [.positionDirect]), Ev.getEncoders (some [0]), Ev.invKin [0, 1, 0, 0, 0, 0] [0] .base (some [90]),
        Ev.setPositions [90] true]) { s0 with streaming := vocabPose } [] := by
    show can (robot cfg) (Prog.bind (pose cfg _) _) _ _ _
    unfold pose streamingReady getCurrentState checkControlModes
    can_simp
    refine Or.inr ⟨by simp [h.idle], Or.inl ⟨by simp, some [.positionDirect], some_length (by simp [h.joints]), ?_⟩⟩
    can_simp
    refine Or.inl ⟨by simp, some [0], some_length (by simp [h.joints]), ?_⟩
    can_simp
    refine ⟨some [90], ?_⟩
    can_simp
    refine Or.inr ⟨[90 - 0], by simp [jointDiff, h.joints], Or.inr ⟨true,
      (checkJointLimitsDir_iff _ _ _).mpr ?_, Or.inl ⟨rfl, Or.inr ⟨[90], by simp [buffer, h.joints], true, ?_⟩⟩⟩⟩
    · intro j hj
      rw [h.joints] at hj
      obtain rfl : j = 0 := by omega
      exact ⟨0, -200, 200, rfl, by rw [h.low]; rfl, by rw [h.high]; rfl, Or.inl (by norm_num [tol])⟩
    · simp [h.frame]
  obtain ⟨tr, _, s', e1, rfl, rfl⟩ := can_run hc2
  obtain ⟨d', hd', -⟩ := turn_reach (dyn := d0.dyn) h.count (x := [0, 1, 0, 0, 0, 0]) (y := 1) (by rw [flat_frame]; rfl) (by norm_num)
  have : d0 = ⟨d0.dyn, ⟨turnProblem, some turnLimits, 0⟩⟩ := by cases d0; cases h1; rfl
  rw [← this] at hd'
  exact ⟨cfg, s0, d0, h.deployed, table_robot, _, _, d0, _, s', d', .cons e0 (.nil _),
    .cons ⟨rfl, rfl⟩ (.cons ⟨rfl, rfl⟩ (.cons ⟨rfl, rfl⟩ (.nil _))), e1,
    .cons ⟨rfl, rfl⟩ (.cons ⟨rfl, rfl⟩ (.cons hd' (.cons ⟨rfl, rfl⟩ (.nil _)))), by simp⟩

/-- Tools that do not change the tip. -/
example : ∃ cfg s0 d0, DeployedSt counted turnWorld (fun _ => true) true table cfg s0 d0 ∧
    KdlConfig.Robot table 1 [.dh 0 0 1 0] 1 ∧ Usable turnWorld table cfg ∧
    HasText table "invKinStrategy" "leastOverallAngularDisplacement" "leastOverallAngularDisplacement" ∧
    SteadyTools counted (fun x => x = [0, 0, 0, 0, 0, 0]) d0.dyn 1 ∧
    ∃ tr s' d', Exec cfg (Op.prog cfg (.movj [0, 1, 0, 0, 0, 0])) s0 tr (.ok (some true)) s' ∧ d0.Answered counted tr d' ∧
      Op.Fits cfg (.movj [0, 1, 0, 0, 0, 0]) := by
  obtain ⟨cfg, s0, d0, h, h1, h2⟩ := table_opens
  obtain ⟨tr, s', d', g2, g3, -⟩ := h.movj h.count h1 (x := [0, 1, 0, 0, 0, 0]) (y := 1) (by rw [flat_frame]; rfl) (by norm_num)
  refine ⟨cfg, s0, d0, h.deployed, table_robot, h.usable, Or.inr ⟨rfl, rfl⟩, ⟨?_, 1, ?_⟩, tr, s', d', g2, g3, ?_⟩
  · rintro _ rfl k
    obtain ⟨f, f1, f2⟩ := KD.spread_nat (1 + 1 * (1 + 2)) k
    refine ⟨f, f1, fun i j hij => ?_⟩
    have := f2 i j hij
    simpa [oneTwoThree] using this
  · rintro _ k pb subs rfl hk hb
    have hp : Poe.fromChain k.chain = ⟨[turnExp], Frame.trans ⟨1, 0, 0⟩⟩ := by
      rcases hk with rfl | ⟨_, rfl, rfl⟩
      · unfold DynSolver.chain
        rw [h2, ← List.append_nil (List.map _ _), table_poe]
        rfl
      · unfold DynSolver.chain DynSolver.appendLink
        rw [h2, List.map_append, table_poe]
        simp only [List.map_cons, List.map_nil]
        rw [fixed_loop, flat_frame, show Frame.trans ⟨0, 0, 0⟩ = 1 from rfl, mul_one]
        rfl
    rw [hp, turn_build] at hb
    obtain ⟨rfl, rfl⟩ := Prod.mk.inj (Option.some.inj (Option.some.inj hb))
    constructor
    · intro e1 h1 e2 h2 _ _ _
      simp only [turnProblem, List.mem_singleton] at h1 h2
      subst h1 h2
      exact ⟨by ext <;> simp [turnExp, Vec3.cross], Or.inl (by ext <;> simp [turnExp, Vec3.cross])⟩
    · rfl
  · show _ = _
    rw [h.tcps]
    rfl

end KD.Ctrl
