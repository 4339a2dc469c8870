import Verif.Ctrl.WithAsibotLemmas
import Verif.Props.ControlLoop
import Verif.Props.Commands

/-!
# C85: the controller with the ASIBOT solver
-/

namespace KD.Ctrl.WithAsibot

open KdlConfig (Val Group Config)
open KdlVectorConverter
open KinRepr (standard rotOf)
open Prog (can can_run can_mono can_bind wp wp_sound)
open KD.Asibot (Solver GoodSvd GoodPose)

/-! ## Specification -/

/-- The solvers of the world are those of the ASIBOT. -/
def HasAsibot (w : World) : Prop := ∀ o, w.solver o = some ((Asibot.openSolver o).map fun _ => (5, 1))

/-- Joint by joint. -/
structure AtMost (a b : Asibot.Joints) : Prop where
  q1 : a.q1 ≤ b.q1
  q2 : a.q2 ≤ b.q2
  q3 : a.q3 ≤ b.q3
  q4 : a.q4 ≤ b.q4
  q5 : a.q5 ≤ b.q5

/-- The configuration describes an arm: lengths of the links, with documented defaults, limits of the joints, and the
strategy, with one choice. -/
structure Describes (c : Config) (a0 a1 a2 a3 : ℝ) (lo hi : Asibot.Joints) : Prop where
  a0 : HasNumber c "A0" (3 / 10) a0
  a1 : HasNumber c "A1" (4 / 10) a1
  a2 : HasNumber c "A2" (4 / 10) a2
  a3 : HasNumber c "A3" (3 / 10) a3
  mins : c.top "mins" = some (.list lo.toList)
  maxs : c.top "maxs" = some (.list hi.toList)
  order : AtMost lo hi
  strategy : HasText c "invKinStrategy" "leastOverallAngularDisplacement" "leastOverallAngularDisplacement"

/-- A controller that was opened in the world `w` with the configuration `c`, and its solver, that of the ASIBOT. -/
structure Deployed (w : World) (c : Config) (cfg : Cfg) (s0 : Ctl) (k0 : Solver) : Prop where
  asibot : HasAsibot w
  opened : openController w c = some (some (cfg, s0))
  solver : ∃ d o, HasText c "solver" "KdlSolver" d ∧ OptionsFor c d ["mins", "maxs", "maxvels"] o ∧
    Asibot.openSolver o = some k0
  limits : LeavesLimits c → k0.qMin.toList = cfg.qMin ∧ k0.qMax.toList = cfg.qMax

/-- The tool that is on after a command, if it was `f` before. -/
noncomputable def toolAfter (f : Frame) : Op → Frame
  | .tool x => standard x
  | _ => f

/-- The tool that is on after some commands, none at first. -/
noncomputable def lastTool (ds : List Done) : Frame := ds.foldl (fun f d => toolAfter f d.op) 1

/-- Tools are poses of which the rotation is null or not tiny. -/
def GoodTools (ds : List Done) : Prop := ∀ d ∈ ds, ∀ x, d.op = .tool x → GoodPose x

/-- Where the arm is, with its tool, for joints in degrees. -/
noncomputable def place (k0 : Solver) (T : Frame) (q : Asibot.Joints) : Frame := Asibot.arm k0 q.inRadians * T

/-- The arm reaches ahead of its base axis, and neither its rotation nor that of the tool is almost null or almost a
half turn. -/
structure Ahead (k0 : Solver) (T : Frame) (q : Asibot.Joints) : Prop where
  ahead : 0 < Asibot.radial k0 q.inRadians
  regular : (place k0 1 q).M.Regular
  regularTool : (place k0 T q).M.Regular

/-- The pose `x` of the end effector is one for which the solver is meant: the flange points away from the base axis, in
the vertical plane through it, and rotations are not almost singular. -/
structure Meant (T x : Frame) : Prop where
  solvable : Asibot.Solvable (x * T.inv)
  regular : (x * T.inv).M.Regular
  regularPose : x.M.Regular

/-! ## Opening -/

theorem check_str {c : Config} {key d v : String} (h : HasText c key d v) : (c.top.check key (.str d)).asString = v := by
  rcases h with h | ⟨h, rfl⟩ <;> simp [Group.check, h, Val.asString]

/-- C85: the solver opens with a configuration that describes an arm, and is that arm, without tool. -/
theorem C85_solver_opens {c : Config} {a0 a1 a2 a3 : ℝ} {lo hi : Asibot.Joints} (h : Describes c a0 a1 a2 a3 lo hi) :
    Asibot.openSolver c = some ⟨a0, a1, a2, a3, lo, hi, false, 1⟩ := by
  have e1 := check_number h.a0
  have e2 := check_number h.a1
  have e3 := check_number h.a2
  have e4 := check_number h.a3
  have e5 := check_str h.strategy
  have hr : Asibot.readLimits lo.toList hi.toList = some (lo, hi) := by
    unfold Asibot.readLimits
    rw [read_toList, read_toList]
    simp only [Option.bind_eq_bind, Option.bind_some]
    rw [if_neg]
    rintro (h1 | h1 | h1 | h1 | h1)
    exacts [not_lt.mpr h.order.q1 h1, not_lt.mpr h.order.q2 h1, not_lt.mpr h.order.q3 h1, not_lt.mpr h.order.q4 h1,
      not_lt.mpr h.order.q5 h1]
  have hl : lo.toList.length = 5 ∧ hi.toList.length = 5 := ⟨rfl, rfl⟩
  unfold Asibot.openSolver Asibot.strategyName
  dsimp only
  simp only [e1, e2, e3, e4, e5, h.mins, h.maxs, Option.bind_some, Val.asList, hl, hr, if_true, not_true_eq_false, or_false,
    if_false, ne_eq]

/-- C85: a solver that opens has the lengths and limits that were given to it, the latter in order. -/
theorem C85_solver_opened {c : Config} {k : Solver} (h : Asibot.openSolver c = some k) :
    c.top "mins" = some (.list k.qMin.toList) ∧ c.top "maxs" = some (.list k.qMax.toList) ∧ AtMost k.qMin k.qMax ∧
      k.hasFrame = false ∧ k.frameTcp = 1 ∧ (∀ a, HasNumber c "A0" (3 / 10) a → k.A0 = a) ∧
      (∀ a, HasNumber c "A1" (4 / 10) a → k.A1 = a) ∧ (∀ a, HasNumber c "A2" (4 / 10) a → k.A2 = a) ∧
      (∀ a, HasNumber c "A3" (3 / 10) a → k.A3 = a) ∧
      ∀ name, HasText c "invKinStrategy" "leastOverallAngularDisplacement" name →
        name = "leastOverallAngularDisplacement" := by
  unfold Asibot.openSolver at h
  dsimp only at h
  split at h
  swap
  · cases h
  rename_i mins maxs hm1 hm2
  obtain ⟨v1, hv1, hm1⟩ := Option.bind_eq_some_iff.mp hm1
  obtain ⟨v2, hv2, hm2⟩ := Option.bind_eq_some_iff.mp hm2
  cases v1 <;> simp only [Val.asList, reduceCtorEq] at hm1
  cases v2 <;> simp only [Val.asList, reduceCtorEq] at hm2
  obtain rfl := Option.some.inj hm1
  obtain rfl := Option.some.inj hm2
  split at h
  · cases h
  rename_i hlen
  push Not at hlen
  split at h
  · cases h
  rename_i lo hi hlim
  split at h
  swap
  · cases h
  rename_i hst
  obtain rfl := Option.some.inj h
  obtain ⟨lo', r1, e1⟩ := read_some hlen.1
  obtain ⟨hi', r2, e2⟩ := read_some hlen.2
  unfold Asibot.readLimits at hlim
  rw [r1, r2] at hlim
  simp only [Option.bind_eq_bind, Option.bind_some] at hlim
  split at hlim
  · cases hlim
  rename_i ho
  obtain ⟨rfl, rfl⟩ := Prod.mk.inj (Option.some.inj hlim)
  push Not at ho
  refine ⟨by rw [hv1, e1], by rw [hv2, e2], ⟨ho.1, ho.2.1, ho.2.2.1, ho.2.2.2.1, ho.2.2.2.2⟩, rfl, rfl,
    fun a ha => check_number ha, fun a ha => check_number ha, fun a ha => check_number ha, fun a ha => check_number ha,
    fun name hn => ?_⟩
  rw [← check_str hn]
  exact hst

section

variable {w : World} {c : Config} {cfg : Cfg} {s0 : Ctl} {k0 : Solver} {l : Libs}

theorem Deployed.bare (h : Deployed w c cfg s0 k0) : k0.hasFrame = false ∧ k0.frameTcp = 1 := by
  obtain ⟨d, o, -, -, ho⟩ := h.solver
  obtain ⟨-, -, -, h1, h2, -⟩ := C85_solver_opened ho
  exact ⟨h1, h2⟩

/-- C85: the controller that opens with the solver of the ASIBOT is for five joints and one end effector, and its solver
has the lengths of the configuration; unless the configuration has limits of its own, the solver has those of the robot,
which are those of the controller, too. -/
theorem C85_deployed {d : String} (hw : HasAsibot w) (ho : openController w c = some (some (cfg, s0)))
    (hd : HasText c "solver" "KdlSolver" d) : cfg.numJoints = 5 ∧ cfg.numTcps = 1 ∧ ∃ k0, Deployed w c cfg s0 k0 ∧
      (∀ a, HasNumber c "A0" (3 / 10) a → k0.A0 = a) ∧ (∀ a, HasNumber c "A1" (4 / 10) a → k0.A1 = a) ∧
      (∀ a, HasNumber c "A2" (4 / 10) a → k0.A2 = a) ∧ (∀ a, HasNumber c "A3" (3 / 10) a → k0.A3 = a) ∧
      AtMost k0.qMin k0.qMax := by
  obtain ⟨frame, r, n, refs, ls, options, tcps, h1, h2, h3, h4, h5, h6, h7, h8, h9, h10⟩ := open_steps ho
  have ho' : OptionsFor c d ["mins", "maxs", "maxvels"] options := by
    by_cases hl : LeavesLimits c
    · obtain ⟨-, -, rfl⟩ := takeLimits_robot hl h7
      exact limitOptions_for c hd ls
    · unfold takeLimits at h7
      rw [if_neg (by simpa [LeavesLimits] using hl)] at h7
      obtain ⟨-, rfl⟩ := Prod.mk.inj (Option.some.inj h7)
      obtain ⟨a, b, d⟩ := solverOptions_for c hd
      exact ⟨a, b, fun key hk _ => d key hk (by simp)⟩
  rw [hw] at h8
  obtain ⟨k, hk, e⟩ := Option.map_eq_some_iff.mp (Option.some.inj h8)
  obtain ⟨rfl, rfl⟩ := Prod.mk.inj e
  obtain ⟨rfl, rfl⟩ := Prod.mk.inj h10
  obtain ⟨g1, g2, g3, g4, g5, g6, g7, g8, g9, -⟩ := C85_solver_opened hk
  have conv : ∀ {key dflt a}, key ≠ "device" → key ∉ ["mins", "maxs", "maxvels"] → HasNumber c key dflt a →
      HasNumber options key dflt a := by
    intro key dflt a n1 n2 hn
    unfold HasNumber
    rw [ho'.2.2 key n1 n2]
    exact hn
  refine ⟨rfl, rfl, k, ⟨hw, ho, ⟨d, options, hd, ho', hk⟩, fun hl => ?_⟩, fun a ha => g6 a (conv (by decide) (by decide) ha),
    fun a ha => g7 a (conv (by decide) (by decide) ha), fun a ha => g8 a (conv (by decide) (by decide) ha),
    fun a ha => g9 a (conv (by decide) (by decide) ha), g3⟩
  obtain ⟨-, -, rfl⟩ := takeLimits_robot hl h7
  simp only [limitOptions, putOption, Option.some.injEq, Val.list.injEq, reduceIte, String.reduceEq] at g1 g2
  exact ⟨g1.symm, g2.symm⟩

theorem Deployed.start (h : Deployed w c cfg s0 k0) : WithTool k0 1 k0 := by
  obtain ⟨h1, h2⟩ := h.bare
  refine ⟨?_, ?_, fun _ => h2⟩
  · obtain ⟨a, b, c, d, e, f, g, i⟩ := k0
    cases h2
    rfl
  · rw [h2]; exact Frame.IsRigid.one

theorem Deployed.five (h : Deployed w c cfg s0 k0) : cfg.numJoints = 5 ∧ cfg.numTcps = 1 := by
  obtain ⟨d, o, hd, -⟩ := h.solver
  obtain ⟨h1, h2, -⟩ := C85_deployed h.asibot h.opened hd
  exact ⟨h1, h2⟩

theorem withTool_hist (h1 : k0.hasFrame = false) (h2 : k0.frameTcp = 1) {s s' : Ctl} {ds : List Done} (h : Hist cfg s ds s')
    (hg : GoodTools ds) {T : Frame} {k k' : Solver} (hk : WithTool k0 T k) (ha : Answered l k (callsOf ds) k') :
    WithTool k0 (ds.foldl (fun f d => toolAfter f d.op) T) k' := by
  induction h generalizing k T with
  | nil s => cases ha; exact hk
  | @cons s op tr b s1 ds s' hx _ ih =>
    obtain ⟨k1, f1, f2⟩ := answered_append (a := tr) (b := callsOf ds) ha
    have hg' : GoodTools ds := fun d hd => hg d (List.mem_cons_of_mem _ hd)
    by_cases hop : ∀ x, op ≠ .tool x
    · obtain ⟨rfl, -⟩ := op_same hop hx f1
      have : toolAfter T op = T := by
        cases op with
        | tool x => exact absurd rfl (hop x)
        | _ => rfl
      rw [List.foldl_cons]
      dsimp only
      rw [this]
      exact ih hg' hk f2
    · push Not at hop
      obtain ⟨x, rfl⟩ := hop
      refine ih hg' (T := standard x) ?_ f2
      have hx' : GoodPose x := hg _ (List.mem_cons_self ..) x rfl
      rcases tool_calls hx with ⟨b, rfl⟩ | rfl
      · cases f1 with
        | cons a1 a2 =>
          cases a2 with
          | cons a3 a4 =>
            cases a4
            obtain ⟨rfl, -⟩ := a1
            obtain ⟨a3, -⟩ := a3
            rw [hk.restored h1 h2] at a3
            unfold Asibot.Solver.appendLink at a3
            rw [Asibot.vectorToMatrix_eq hx'.1 hx'.2, h2, Option.map_some, one_mul] at a3
            obtain rfl := Option.some.inj a3
            exact ⟨rfl, Asibot.standard_rigid x, fun h => (by cases h)⟩
      · cases f1 with
        | cons a1 _ => cases a1.2

theorem Deployed.after (h : Deployed w c cfg s0 k0) {s : Ctl} {ds : List Done} (hh : Hist cfg s0 ds s) (hg : GoodTools ds)
    {k : Solver} (hk : Answered l k0 (callsOf ds) k) : WithTool k0 (lastTool ds) k :=
  withTool_hist h.bare.1 h.bare.2 hh hg h.start hk

/-! ## Theorems -/

/-- C85: the controller and its solver fit together. However many commands with vectors of the right sizes have been
served, the next one asks the solver only for what the solver is defined for, with vectors of the right sizes, as long as
the solver has answered so far; with all its answers, the command stays within the vectors of the controller. -/
theorem C85_defined (h : Deployed w c cfg s0 k0) (hu : Usable w c cfg) {s s' : Ctl} {ds : List Done} (hh : Hist cfg s0 ds s)
    (hf : ∀ d ∈ ds, d.op.Fits cfg) {k : Solver} (hk : Answered l k0 (callsOf ds) k) {op : Op} (hop : op.Fits cfg)
    {tr : List Ev} {o : Out (Option Bool)} (hx : Exec cfg (op.prog cfg) s tr o s') :
    (∀ pre e post k1, tr = pre ++ e :: post → Answered l k pre k1 → SizedCall cfg e ∧ Within l k1 e) ∧
      ∀ k', Answered l k tr k' → o ≠ .ub := by
  obtain ⟨h1, h2⟩ := h.five
  obtain ⟨p, hp, hp1⟩ := hu.period
  have hsix : cfg.enableFailFast = true → cfg.numJoints ≤ 6 * cfg.numTcps := fun e => by have := hu.lookAhead e; omega
  obtain ⟨w1, w2⟩ := opened_workable h.opened hu.limits hu.speeds hu.room hsix hp hp1
  obtain ⟨w3, -⟩ := steady_hist w1 hh w2 hf fun d hd e he =>
    sized_answered hk h1 h2 e (List.mem_flatMap.mpr ⟨d, hd, he⟩)
  refine ⟨fun pre e post k1 he hp => ?_, fun k' ha => ?_⟩
  · have := Good.upto hx (keeps_op w1 w3 hop) he (sized_answered hp h1 h2)
    exact ⟨this, within h1 h2 this⟩
  · obtain ⟨⟨a, rfl, -⟩, -⟩ := Good.sound hx (keeps_op w1 w3 hop) (sized_answered ha h1 h2)
    simp

/-- The matrix of the pose that forward kinematics gives. -/
theorem fwd_matrix (hsvd : GoodSvd l.svd) {k : Solver} {T : Frame} (hk : WithTool k0 T k) {q : Asibot.Joints}
    (ha : Ahead k0 T q) : ∃ x, Asibot.fwdKin l.svd k q.toList = some x ∧ standard x = place k0 T q ∧
      Asibot.vectorToMatrix x = some (place k0 T q) := by
  have h1 : 0 < Asibot.radial k q.inRadians := by rw [hk.radial]; exact ha.ahead
  have h2 : (Asibot.arm k q.inRadians).M.Regular := by
    have := ha.regular
    unfold place at this
    rwa [mul_one, ← hk.arm] at this
  have h3 : Asibot.tcp k q = place k0 T q := hk.tcp q
  have h4 : (Asibot.tcp k q).M.Regular := by rw [h3]; exact ha.regularTool
  obtain ⟨x, e1, e2⟩ := Asibot.C56_forward_partial hsvd hk.wf (read_toList q) h1 h2 h4
  refine ⟨x, e1, e2.trans h3, ?_⟩
  cases ht : k.hasFrame
  · have e3 := Asibot.fwdKin_no_tool l.svd ht (read_toList q)
    rw [e1] at e3
    obtain rfl := Option.some.inj e3
    have hR : (Asibot.codedRot k q).Regular := by rw [Asibot.codedRot_ahead h1]; exact h2
    rw [Asibot.vectorToMatrix_six ((Asibot.codedRot_isRot k q).getRot_cases hR), (Asibot.codedRot_isRot k q).expRot_getRot hR,
      Asibot.codedRot_ahead h1, ← h3, Asibot.tcp, hk.wf.none ht, mul_one]
  · obtain ⟨y, e3, e4⟩ := Asibot.fwdKin_matrix hsvd hk.wf ht (read_toList q) h1 h2 h4
    rw [e1] at e3
    obtain rfl := Option.some.inj e3
    rw [e4, h3]

/-- C85: after any history, the pose that is reported is that of the arm of the configuration, with the last tool, as long
as the arm reaches ahead of its base axis. Missing: it does not otherwise (`C85_stat_behind_wrong`). -/
theorem C85_stat_partial (h : Deployed w c cfg s0 k0) (hsvd : GoodSvd l.svd) {s s' : Ctl} {ds : List Done}
    (hh : Hist cfg s0 ds s) (hg : GoodTools ds) {k k' : Solver} (hk : Answered l k0 (callsOf ds) k) {tr : List Ev} {x : List ℝ}
    {r : CState} (hx : Exec cfg stat s tr (.ok (some (x, r))) s') (hk' : Answered l k tr k') :
    ∃ q : Asibot.Joints, Ev.getEncoders (some q.toList) ∈ tr ∧
      (Ahead k0 (lastTool ds) q → standard x = place k0 (lastTool ds) q) := by
  obtain ⟨-, q, hq, rfl⟩ := stat_calls hx
  obtain ⟨j, hj, rfl⟩ := read_some (hq.trans h.five.1)
  refine ⟨j, by simp, fun ha => ?_⟩
  obtain ⟨-, hs⟩ := answered_same hk' (by simp [ChangesChain])
  obtain ⟨-, x', e1, e2⟩ := hs (Ev.fwdKin j.toList (some x)) (by simp)
  obtain ⟨y, f1, f2, -⟩ := fwd_matrix hsvd (h.after hh hg hk) ha
  rw [f1] at e1
  rw [Option.some.inj e2, ← Option.some.inj e1, f2]

theorem bare_hist {s s' : Ctl} {ds : List Done} (hh : Hist cfg s ds s') (hg : ∀ d ∈ ds, ∀ x, d.op ≠ .tool x) {k k' : Solver}
    (hk : Answered l k (callsOf ds) k') : k' = k := by
  induction hh generalizing k with
  | nil s => cases hk; rfl
  | @cons s op tr b s1 ds s' hx _ ih =>
    obtain ⟨k1, f1, f2⟩ := answered_append (a := tr) (b := callsOf ds) hk
    obtain ⟨rfl, -⟩ := op_same (hg _ (List.mem_cons_self ..)) hx f1
    exact ih (fun d hd => hg d (List.mem_cons_of_mem _ hd)) f2

/-- C85: while no tool was put on, the reported position is always that of the arm, but behind the base axis, and with the
hand not upright, the reported orientation is not. -/
theorem C85_stat_behind_wrong (h : Deployed w c cfg s0 k0) {s s' : Ctl} {ds : List Done}
    (hh : Hist cfg s0 ds s) (hg : ∀ d ∈ ds, ∀ x, d.op ≠ .tool x) {k k' : Solver} (hk : Answered l k0 (callsOf ds) k)
    {tr : List Ev} {x : List ℝ} {r : CState} (hx : Exec cfg stat s tr (.ok (some (x, r))) s') (hk' : Answered l k tr k') :
    ∃ q : Asibot.Joints, Ev.getEncoders (some q.toList) ∈ tr ∧ (standard x).p = (place k0 1 q).p ∧
      (Asibot.radial k0 q.inRadians < 0 → (Mat3.eulerZYZ (q.inRadians.q1 + Real.pi)
        (q.inRadians.q2 + q.inRadians.q3 + q.inRadians.q4) q.inRadians.q5).Regular →
        Real.sin (q.inRadians.q2 + q.inRadians.q3 + q.inRadians.q4) ≠ 0 → (standard x).M ≠ (place k0 1 q).M) := by
  obtain ⟨-, q, hq, rfl⟩ := stat_calls hx
  obtain ⟨j, hj, rfl⟩ := read_some (hq.trans h.five.1)
  obtain ⟨-, hs⟩ := answered_same hk' (by simp [ChangesChain])
  obtain ⟨-, x', e1, e2⟩ := hs (Ev.fwdKin j.toList (some x)) (by simp)
  obtain rfl := Option.some.inj e2
  have hk0 : k = k0 := bare_hist hh hg hk
  subst hk0
  refine ⟨j, by simp, ?_, fun hb hr hsin => ?_⟩
  · rw [Asibot.fwdKin_no_tool l.svd h.bare.1 hj] at e1
    rw [← Option.some.inj e1, place, mul_one, KinRepr.standard_six]
  · obtain ⟨y, f1, -, f2⟩ := Asibot.C56_behind_wrong l.svd h.bare.1 hj hb (by rw [Asibot.codedRot_behind hb]; exact hr) hsin
    rw [f1] at e1
    rw [← Option.some.inj e1, place, mul_one]
    exact f2

/-- What inverse kinematics gives for the arm. -/
theorem reach (hsvd : GoodSvd l.svd) {k k' : Solver} {T : Frame} (hk : WithTool k0 T k) {x qd : List ℝ} {f : RefFrame}
    {q : Asibot.Joints} (ha : Answers l k (.invKin x q.toList f (some qd)) k') (hx : GoodPose x)
    (hf : f = .tcp → Ahead k0 T q) (hm : Meant T (aim f (place k0 T q) (standard x))) :
    ∃ t e : Asibot.Joints, qd = t.toList ∧ Asibot.Near t e ∧ place k0 T e = aim f (place k0 T q) (standard x) ∧
      Asibot.jointsInLimits t k0.qMin k0.qMax := by
  obtain ⟨-, ha⟩ := ha
  cases f with
  | base =>
    have hfl : Asibot.flange k x = standard x * T.inv := by rw [Asibot.flange, hk.frame]
    obtain ⟨t, e, g1, g2, g3, g4⟩ := Asibot.C56_inverse_partial hsvd hk.wf hx.2 (by rw [hfl]; exact hm.solvable)
      (fun _ => by rw [hfl]; exact hm.regular) ha
    exact ⟨t, e, g1, g2, (hk.tcp e).symm.trans g3, by rw [← hk.limits.1, ← hk.limits.2]; exact g4⟩
  | tcp =>
    obtain ⟨y, f1, f2, f3⟩ := fwd_matrix hsvd hk (hf rfl)
    have ha : Asibot.invKin l.svd k x q.toList .tcp = some (some qd) := ha
    rw [Asibot.C56_tcp_frame f1 f3 (Asibot.vectorToMatrix_eq hx.1 hx.2)] at ha
    have hrig : (place k0 T q * standard x).IsRigid :=
      ((Asibot.arm_rigid _ _).mul hk.rigid).mul (Asibot.standard_rigid x)
    have hst := Asibot.standard_matrixToVector hsvd hrig hm.regularPose
    have hfl : Asibot.flange k (Asibot.matrixToVector l.svd (place k0 T q * standard x)) =
        place k0 T q * standard x * T.inv := by rw [Asibot.flange, hk.frame, hst]
    obtain ⟨t, e, g1, g2, g3, g4⟩ := Asibot.C56_inverse_partial hsvd hk.wf
      (by rw [Asibot.matrixToVector_six, Asibot.rotOf_six]; exact Asibot.rotVector_cases hsvd hrig hm.regularPose)
      (by rw [hfl]; exact hm.solvable) (fun _ => by rw [hfl]; exact hm.regular) ha
    exact ⟨t, e, g1, g2, ((hk.tcp e).symm.trans g3).trans hst, by rw [← hk.limits.1, ← hk.limits.2]; exact g4⟩

/-- C85: the joints that `movj` sends the robot to put the arm of the configuration, with the last tool, at the pose that
was asked for, within the limits, but for those below 0.001 degrees, which are sent as zero. Missing: poses that the solver
is not meant for (`C56_inward_wrong`, `C56_vertical_roll_lost`), tool poses from where the arm reaches behind its base
axis, and almost singular rotations. -/
theorem C85_movj_partial (h : Deployed w c cfg s0 k0) (hsvd : GoodSvd l.svd) {s s' : Ctl} {ds : List Done}
    (hh : Hist cfg s0 ds s) (hg : GoodTools ds) {k k' : Solver} (hk : Answered l k0 (callsOf ds) k) {xd : List ℝ} {tr : List Ev}
    {o : Out (Option Bool)} (hx : Exec cfg (Op.prog cfg (.movj xd)) s tr o s') (hk' : Answered l k tr k') {t : List ℝ}
    {b : Bool} (hm : Ev.positionMove t b ∈ tr) (hxd : GoodPose xd) :
    ∃ q : Asibot.Joints, Ev.getEncoders (some q.toList) ∈ tr ∧ ((s.frame = .tcp → Ahead k0 (lastTool ds) q) →
      Meant (lastTool ds) (aim s.frame (place k0 (lastTool ds) q) (standard xd)) →
      ∃ j e : Asibot.Joints, t = j.toList ∧ Asibot.Near j e ∧
        place k0 (lastTool ds) e = aim s.frame (place k0 (lastTool ds) q) (standard xd) ∧
        Asibot.jointsInLimits j k0.qMin k0.qMax) := by
  obtain ⟨-, ha⟩ := op_same (fun x => (by simp)) hx hk'
  obtain ⟨q, qd, h1, h2, rfl⟩ : ∃ q qd, Ev.getEncoders (some q) ∈ tr ∧ Ev.invKin xd q s.frame (some qd) ∈ tr ∧
      t = qd.take cfg.numJoints := by
    rcases Prog.run_bind.mp hx with ⟨a, s1, t1, t2, h1, h2, rfl⟩ | ⟨h1, -⟩
    · cases h2
      rw [List.append_nil] at hm ⊢
      exact movj_calls h1 hm
    · exact movj_calls h1 hm
  obtain ⟨j, -, rfl⟩ := read_some ((encoders_sized hx h1).trans h.five.1)
  refine ⟨j, h1, fun hf hm => ?_⟩
  obtain ⟨t, e, rfl, g⟩ := reach hsvd (h.after hh hg hk) (ha _ h2) hxd hf hm
  refine ⟨t, e, ?_, g⟩
  rw [h.five.1]
  rfl

/-- C85: the same of poses that are streamed. -/
theorem C85_pose_partial (h : Deployed w c cfg s0 k0) (hsvd : GoodSvd l.svd) {s s' : Ctl} {ds : List Done}
    (hh : Hist cfg s0 ds s) (hg : GoodTools ds) {k k' : Solver} (hk : Answered l k0 (callsOf ds) k) {xd : List ℝ} {tr : List Ev}
    {o : Out (Option Bool)} (hx : Exec cfg (Op.prog cfg (.pose xd)) s tr o s') (hk' : Answered l k tr k') {e : Ev} (he : e ∈ tr)
    (hm : IsMotion e) (hxd : GoodPose xd) :
    ∃ (q : Asibot.Joints) (t : List ℝ) (b : Bool), Ev.getEncoders (some q.toList) ∈ tr ∧ e = .setPositions t b ∧
      ((s.frame = .tcp → Ahead k0 (lastTool ds) q) →
      Meant (lastTool ds) (aim s.frame (place k0 (lastTool ds) q) (standard xd)) →
      ∃ j e : Asibot.Joints, t = j.toList ∧ Asibot.Near j e ∧
        place k0 (lastTool ds) e = aim s.frame (place k0 (lastTool ds) q) (standard xd) ∧
        Asibot.jointsInLimits j k0.qMin k0.qMax) := by
  obtain ⟨-, ha⟩ := op_same (fun x => (by simp)) hx hk'
  obtain ⟨q, qd, b, h1, h2, rfl⟩ : ∃ q qd b, Ev.getEncoders (some q) ∈ tr ∧ Ev.invKin xd q s.frame (some qd) ∈ tr ∧
      e = .setPositions (qd.take cfg.numJoints) b := by
    rcases Prog.run_bind.mp hx with ⟨a, s1, t1, t2, h1, h2, rfl⟩ | ⟨h1, -⟩
    · cases h2
      rw [List.append_nil] at he ⊢
      obtain ⟨-, q, sol, r, g1, g2, -, g3⟩ := C37_pose_checked_partial h1 e he hm
      exact ⟨q, sol, r, g1, g2, g3⟩
    · obtain ⟨-, q, sol, r, g1, g2, -, g3⟩ := C37_pose_checked_partial h1 e he hm
      exact ⟨q, sol, r, g1, g2, g3⟩
  obtain ⟨j, -, rfl⟩ := read_some ((encoders_sized hx h1).trans h.five.1)
  refine ⟨j, _, b, h1, rfl, fun hf hm => ?_⟩
  obtain ⟨t, e, rfl, g⟩ := reach hsvd (h.after hh hg hk) (ha _ h2) hxd hf hm
  refine ⟨t, e, ?_, g⟩
  rw [h.five.1]
  rfl

/-- With joint speeds `v` (degrees per second) at the joints `q` (degrees), the arm moves with the twist `W`. -/
def ArmMoves (k0 : Solver) (T : Frame) (q v : Asibot.Joints) (W : Twist) : Prop :=
  Frame.MovesWith (fun t => place k0 T (q.advance v t)) W 0

/-- What is asked of the pseudoinverse: that its joint speeds give the twist. -/
def Solves (l : Libs) (k : Solver) (q : List ℝ) (f : RefFrame) (t : Twist) : Prop :=
  ∀ J, Asibot.jacobian l.svd k q f.solver = some (some J) → Twist.combine (l.pinv J t).toList J = t

/-- What differential inverse kinematics gives for the arm without tool. -/
theorem follow (h : Deployed w c cfg s0 k0) (hsvd : GoodSvd l.svd) {x v : List ℝ} {f : RefFrame}
    {q : Asibot.Joints} {k' : Solver} (ha : Answers l k0 (.diffInvKin q.toList x f (some v)) k')
    (hp : Solves l k0 q.toList f (vectorToTwist x)) :
    ∃ j : Asibot.Joints, v = j.toList ∧ ArmMoves k0 1 q j (turned f (place k0 1 q) (vectorToTwist x)) := by
  obtain ⟨-, -, w, e1, e2⟩ := ha
  cases w with
  | none => cases e2
  | some j =>
    obtain rfl := Option.some.inj e2
    have hw := h.start
    have hpl : ∀ q, Asibot.tcp k0 q = place k0 1 q := fun q => hw.tcp q
    refine ⟨j, rfl, ?_⟩
    unfold ArmMoves
    simp only [← hpl]
    cases f with
    | base =>
      exact Asibot.C57_base_motion_partial hsvd l.pinv hw.wf (read_toList q)
        (fun hf => by rw [h.bare.1] at hf; cases hf) hp e1
    | tcp => exact Asibot.C57_tcp_motion_partial l.svd l.pinv hw.wf (read_toList q) h.bare.1 hp e1

/-- C85: joint speeds that are sent on behalf of a streamed twist move the arm of the configuration, without tool, with
that twist, if the pseudoinverse finds them; if not, they are zero. Missing: with tools it is not so
(`C57_rotated_tool_wrong`, `C57_tcp_tool_wrong`). -/
theorem C85_twist_partial (h : Deployed w c cfg s0 k0) (hsvd : GoodSvd l.svd) {s s' : Ctl} {ds : List Done}
    (hh : Hist cfg s0 ds s) (hg : ∀ d ∈ ds, ∀ x, d.op ≠ .tool x) {k k' : Solver} (hk : Answered l k0 (callsOf ds) k)
    {xd : List ℝ} {tr : List Ev} {o : Out (Option Bool)} (hx : Exec cfg (Op.prog cfg (.twist xd)) s tr o s')
    (hk' : Answered l k tr k') {e : Ev} (he : e ∈ tr) (hm : IsMotion e) :
    (∃ (q v : Asibot.Joints) (b : Bool), Ev.getEncoders (some q.toList) ∈ tr ∧ e = .velocityMove v.toList b ∧
      (Solves l k0 q.toList s.frame (vectorToTwist xd) →
        ArmMoves k0 1 q v (turned s.frame (place k0 1 q) (vectorToTwist xd)))) ∨
    ∃ b, e = .velocityMove [0, 0, 0, 0, 0] b := by
  obtain rfl := bare_hist hh hg hk
  obtain ⟨-, ha⟩ := op_same (fun x => (by simp)) hx hk'
  have : (∃ q v b, Ev.getEncoders (some q) ∈ tr ∧ Ev.diffInvKin q xd s.frame (some v) ∈ tr ∧
      e = .velocityMove (v.take cfg.numJoints) b) ∨ ∃ b, e = .velocityMove (List.replicate cfg.numJoints 0) b := by
    rcases Prog.run_bind.mp hx with ⟨a, s1, t1, t2, h1, h2, rfl⟩ | ⟨h1, -⟩
    · cases h2
      rw [List.append_nil] at he ⊢
      rcases (C37_twist_checked_partial h1 e he hm).2 with ⟨q, sol, r, g1, g2, -, -, g3⟩ | g
      exacts [Or.inl ⟨q, sol, r, g1, g2, g3⟩, Or.inr g]
    · rcases (C37_twist_checked_partial h1 e he hm).2 with ⟨q, sol, r, g1, g2, -, -, g3⟩ | g
      exacts [Or.inl ⟨q, sol, r, g1, g2, g3⟩, Or.inr g]
  have hn := h.five.1
  rcases this with ⟨q, v, b, h1, h2, rfl⟩ | ⟨b, rfl⟩
  · obtain ⟨j, -, rfl⟩ := read_some ((encoders_sized hx h1).trans hn)
    obtain ⟨-, -, w, -, e2⟩ := ha _ h2
    cases w with
    | none => cases e2
    | some v' =>
      obtain rfl := Option.some.inj e2
      refine Or.inl ⟨j, v', b, h1, by rw [hn]; rfl, fun hp => ?_⟩
      obtain ⟨v2, e3, e4⟩ := follow h hsvd (ha _ h2) hp
      have : v' = v2 := by
        have := congrArg Asibot.Joints.read e3
        rw [read_toList, read_toList] at this
        exact Option.some.inj this
      rw [this]
      exact e4
  · exact Or.inr ⟨b, by rw [hn]; rfl⟩

/-- C85: the solver has no dynamics. Gravity compensation is accepted, but nothing is ever sent to the robot on its behalf,
and the first cycle that hears from the encoders aborts it. -/
theorem C85_gcmp_never {s s1 s2 : Ctl} {ds ds2 : List Done}
    (hh : Hist cfg s0 ds s) {tr : List Ev} (hx : Exec cfg (Op.prog cfg .gcmp) s tr (.ok (some true)) s1) (hh2 : Hist cfg s1 ds2 s2)
    (hno : ∀ d ∈ ds2, d.op.target = none) {k' : Solver}
    (hk : Answered l k0 (callsOf (ds ++ ⟨.gcmp, tr, some true⟩ :: ds2)) k') :
    s1.state = .gcmp ∧ (∀ d ∈ ds2, d.op = .cycle → NoMotion d.calls) ∧
      ∀ tr' s3 k'', Exec cfg (run cfg) s2 tr' (.ok ()) s3 → Answered l k' tr' k'' → EncodersRead tr' → s2.state = .gcmp →
        Aborted s3 tr' := by
  obtain ⟨plan, hp, hd⟩ := C71_commands_serve_partial (st := .gcmp) rfl (by simp) hx
  have hh1 : Hist cfg s0 (ds ++ [⟨.gcmp, tr, some true⟩]) s1 := hist_append hh (.cons hx (.nil _))
  refine ⟨?_, fun d hmem hc e he hm => ?_, fun tr' s3 k'' hx' hk' hr hst => ?_⟩
  · rcases C35_accepted_command_in_state_partial (st := .gcmp) rfl hx with ⟨h, -⟩ | ⟨h, -⟩
    exacts [h, (by cases h)]
  · cases plan with
    | line => obtain ⟨xd, q, x, y, hp, -⟩ := hp; cases hp
    | ray => obtain ⟨xd, q, x, hp, -⟩ := hp; cases hp
    | push => cases hp
    | weight =>
      obtain ⟨q, τ, b, e1, e2, rfl⟩ := hd ds2 s2 hh2 hno d hmem hc e he hm
      obtain ⟨pre, post, rfl⟩ := List.append_of_mem hmem
      obtain ⟨s3, k, g1, g2, g3, g4⟩ := cycle_split (l := l) hh1 hh2 hc (by simpa using hk)
      cases (g3 _ e2).2
  · rcases gcmp_cycle hst hx' hr with h | ⟨q, τ, h⟩
    · exact h
    · have hx2 : Exec cfg (Op.prog cfg .cycle) s2 tr' (.ok none) s3 :=
        Prog.run_bind.mpr (Or.inl ⟨(), s3, tr', [], hx', .pure _ _, (List.append_nil _).symm⟩)
      obtain ⟨-, ha⟩ := op_same (fun x => (by simp)) hx2 hk'
      cases (ha _ h).2

/-- C85: the same of force control. -/
theorem C85_forc_never {s s1 s2 : Ctl} {ds ds2 : List Done}
    (hh : Hist cfg s0 ds s) {f : List ℝ} {tr : List Ev} (hx : Exec cfg (Op.prog cfg (.forc f)) s tr (.ok (some true)) s1)
    (hh2 : Hist cfg s1 ds2 s2) (hno : ∀ d ∈ ds2, d.op.target = none) {k' : Solver}
    (hk : Answered l k0 (callsOf (ds ++ ⟨.forc f, tr, some true⟩ :: ds2)) k') :
    s1.state = .forc ∧ (∀ d ∈ ds2, d.op = .cycle → NoMotion d.calls) ∧
      ∀ tr' s3 k'', Exec cfg (run cfg) s2 tr' (.ok ()) s3 → Answered l k' tr' k'' → EncodersRead tr' → s2.state = .forc →
        Aborted s3 tr' := by
  obtain ⟨plan, hp, hd⟩ := C71_commands_serve_partial (st := .forc) rfl (by simp) hx
  have hh1 : Hist cfg s0 (ds ++ [⟨.forc f, tr, some true⟩]) s1 := hist_append hh (.cons hx (.nil _))
  refine ⟨?_, fun d hmem hc e he hm => ?_, fun tr' s3 k'' hx' hk' hr hst => ?_⟩
  · rcases C35_accepted_command_in_state_partial (st := .forc) rfl hx with ⟨h, -⟩ | ⟨h, -⟩
    exacts [h, (by cases h)]
  · cases plan with
    | line => obtain ⟨xd, q, x, y, hp, -⟩ := hp; cases hp
    | ray => obtain ⟨xd, q, x, hp, -⟩ := hp; cases hp
    | weight => cases hp
    | push =>
      obtain ⟨q, v, a, τ, b, e1, e2, e3, e4, rfl⟩ := hd ds2 s2 hh2 hno d hmem hc e he hm
      obtain ⟨pre, post, rfl⟩ := List.append_of_mem hmem
      obtain ⟨s3, k, g1, g2, g3, g4⟩ := cycle_split (l := l) hh1 hh2 hc (by simpa using hk)
      cases (g3 _ e4).2
  · rcases forc_cycle hst hx' hr with h | ⟨q, v, a, w, f, τ, h⟩
    · exact h
    · have hx2 : Exec cfg (Op.prog cfg .cycle) s2 tr' (.ok none) s3 :=
        Prog.run_bind.mpr (Or.inl ⟨(), s3, tr', [], hx', .pure _ _, (List.append_nil _).symm⟩)
      obtain ⟨-, ha⟩ := op_same (fun x => (by simp)) hx2 hk'
      cases (ha _ h).2

/-- C85: forces that are streamed only ever make the robot have no torques. -/
theorem C85_wrench_zero (h : Deployed w c cfg s0 k0) {s s' : Ctl} {k k' : Solver} {f : List ℝ} {tr : List Ev} {o : Out (Option Bool)}
    (hx : Exec cfg (Op.prog cfg (.wrench f)) s tr o s') (hk' : Answered l k tr k') {e : Ev} (he : e ∈ tr) (hm : IsMotion e) :
    ∃ b, e = .setRefTorques [0, 0, 0, 0, 0] b := by
  obtain ⟨-, ha⟩ := op_same (fun x => (by simp)) hx hk'
  have : (∃ q v a τ, Ev.invDyn q v a (f.map fun f => -f) s.frame (some τ) ∈ tr) ∨
      ∃ b, e = .setRefTorques (List.replicate cfg.numJoints 0) b := by
    rcases Prog.run_bind.mp hx with ⟨a, s1, t1, t2, h1, h2, rfl⟩ | ⟨h1, -⟩
    · cases h2
      rw [List.append_nil] at he ⊢
      rcases (C37_wrench_checked_partial h1 e he hm).2 with ⟨q, v, a, sol, r, g1, g2, g3, g4, g5, -⟩ | g
      exacts [Or.inl ⟨q, v, a, sol, g5⟩, Or.inr g]
    · rcases (C37_wrench_checked_partial h1 e he hm).2 with ⟨q, v, a, sol, r, g1, g2, g3, g4, g5, -⟩ | g
      exacts [Or.inl ⟨q, v, a, sol, g5⟩, Or.inr g]
  rcases this with ⟨q, v, a, τ, h1⟩ | ⟨b, rfl⟩
  · cases (ha _ h1).2
  · exact ⟨b, by rw [h.five.1]; rfl⟩

theorem toTwist_zip {rate : ℝ} {d x : List ℝ} (hd : d.length = 6) (hx : x.length = 6) :
    vectorToTwist (List.zipWith (fun d v => rate * d + v) d x) = rate • vectorToTwist d + vectorToTwist x := by
  match d, hd, x, hx with
  | [a, b, c, d, e, f], _, [a', b', c', d', e', f'], _ => rfl

theorem standard_toTwist {d : List ℝ} (hd : d.length = 6) : standard d = ⟨Mat3.expRot (vectorToTwist d).rot, (vectorToTwist d).vel⟩ := by
  match d, hd with
  | [a, b, c, d, e, f], _ =>
    rw [KinRepr.standard_eq]
    simp [rotOf, vectorToTwist]

/-- What makes the arm, without tool, follow poses `x` and velocities `xdot`. -/
theorem towards (h : Deployed w c cfg s0 k0) (hsvd : GoodSvd l.svd) {tr : List Ev} (hs : ∀ e ∈ tr, Answers l k0 e k0)
    (hq : ∀ q, Ev.getEncoders (some q) ∈ tr → q.length = cfg.numJoints) {rate : ℝ} {f : RefFrame} {x xdot : List ℝ} {e : Ev}
    (hx : xdot.length = 6) (hv : VelocityTowards cfg rate f x xdot tr e) :
    ∃ (q v : Asibot.Joints) (b : Bool) (δ : Twist), Ev.getEncoders (some q.toList) ∈ tr ∧ e = .velocityMove v.toList b ∧
      (GoodPose x → Ahead k0 1 q → ((place k0 1 q).M.transpose * (standard x).M).Regular →
        (place k0 1 q).p + δ.vel = (standard x).p ∧ Mat3.expRot δ.rot * (place k0 1 q).M = (standard x).M) ∧
      (Solves l k0 q.toList f (rate • δ + vectorToTwist xdot) →
        ArmMoves k0 1 q v (turned f (place k0 1 q) (rate • δ + vectorToTwist xdot))) := by
  obtain ⟨q, now, diff, ok, v, r, e1, e2, e3, e4, e5, rfl⟩ := hv
  have hn := h.five.1
  obtain ⟨j, hj, rfl⟩ := read_some ((hq _ e1).trans hn)
  obtain ⟨-, hl, u, f1, f2⟩ := hs _ e4
  cases u with
  | none => cases f2
  | some u =>
    obtain rfl := Option.some.inj f2
    have hd : diff.length = 6 := by
      rw [List.length_zipWith, hx] at hl
      omega
    refine ⟨j, u, r, vectorToTwist diff, e1, by rw [hn]; rfl, fun hx' ha hr => ?_, fun hp => ?_⟩
    · obtain ⟨-, y, g1, g2⟩ := hs _ e2
      obtain rfl := Option.some.inj g2
      obtain ⟨-, d, g3, g4⟩ := hs _ e3
      obtain ⟨-, rfl⟩ := Prod.mk.inj g4
      obtain ⟨y, k1, k2, k3⟩ := fwd_matrix hsvd h.start ha
      rw [k1] at g1
      obtain rfl := Option.some.inj g1
      have hgood : GoodPose y := by
        have h1 : 0 < Asibot.radial k0 j.inRadians := ha.ahead
        have h2 : (Asibot.codedRot k0 j).Regular := by
          rw [Asibot.codedRot_ahead h1]
          have := ha.regular
          unfold place at this
          rwa [mul_one] at this
        rw [Asibot.fwdKin_no_tool l.svd h.bare.1 (read_toList j)] at k1
        obtain rfl := Option.some.inj k1
        exact ⟨by simp [KinRepr.sixOf], by
          rw [Asibot.rotOf_six]; exact (Asibot.codedRot_isRot k0 j).getRot_cases h2⟩
      obtain ⟨d', m1, m2, m3, m4⟩ := Asibot.C53_asibot_pose_diff_partial hsvd hx' hgood (by rw [k2]; exact hr)
      rw [m1] at g3
      obtain rfl := Option.some.inj g3
      rw [k2, standard_toTwist m2] at m3 m4
      exact ⟨m3, m4⟩
    · rw [← toTwist_zip hd hx] at hp ⊢
      obtain ⟨v2, g1, g2⟩ := follow h hsvd (hs _ e4) hp
      have : u = v2 := by
        have := congrArg Asibot.Joints.read g1
        rw [read_toList, read_toList] at this
        exact Option.some.inj this
      rw [this]
      exact g2

theorem asked_six {paths : List Traj} {t : ℝ} (h : paths.length = 1) : (twistsAt paths t).length = 6 ∧ (posesAt paths t).length = 6 := by
  match paths, h with
  | [p], _ => simp [twistsAt, posesAt, twistToVector, frameToVector]

/-- C85: after a straight line was accepted (`movl`) with one pose, and as long as there is no tool, the commands that the
loop sends, however many cycles and other calls later, either put the arm of the configuration at the pose of the line for
that time, or give it its twist plus the one that leads from the pose of the arm to that of the line. Missing: tools
(`C57_rotated_tool_wrong`); behind the base axis, the correction starts from the wrong orientation
(`C85_stat_behind_wrong`). -/
theorem C85_movl_partial (h : Deployed w c cfg s0 k0) (hsvd : GoodSvd l.svd) {s s1 s2 : Ctl} {ds ds2 : List Done}
    (hh : Hist cfg s0 ds s) {xd : List ℝ} (hxd : xd.length = 6) {tr : List Ev}
    (hx : Exec cfg (Op.prog cfg (.movl xd)) s tr (.ok (some true)) s1) (hh2 : Hist cfg s1 ds2 s2)
    (hno : ∀ d ∈ ds2, d.op.target = none) (hg : ∀ d ∈ ds ++ ds2, ∀ x, d.op ≠ .tool x) {k' : Solver}
    (hk : Answered l k0 (callsOf (ds ++ ⟨.movl xd, tr, some true⟩ :: ds2)) k') :
    ∃ paths start, Asked cfg s (.movl xd) tr (.line paths start) ∧
      ∀ d ∈ ds2, d.op = .cycle → ∀ e ∈ d.calls, IsMotion e →
        ∃ (t : ℝ) (q v : Asibot.Joints) (b : Bool), Ev.now t ∈ d.calls ∧ Ev.getEncoders (some q.toList) ∈ d.calls ∧
          let x := posesAt paths (t - start)
          if cfg.usePosdMovl then e = .setPositions v.toList b ∧ (GoodPose x → Meant 1 (standard x) →
            ∃ e, Asibot.Near v e ∧ place k0 1 e = standard x ∧ Asibot.jointsInLimits v k0.qMin k0.qMax)
          else e = .velocityMove v.toList b ∧ ∃ δ : Twist,
            (GoodPose x → Ahead k0 1 q → ((place k0 1 q).M.transpose * (standard x).M).Regular →
              (place k0 1 q).p + δ.vel = (standard x).p ∧ Mat3.expRot δ.rot * (place k0 1 q).M = (standard x).M) ∧
            let W := (s.gain * (1000 / s.cmcPeriodMs)) • δ + vectorToTwist (twistsAt paths (t - start))
            (Solves l k0 q.toList .base W → ArmMoves k0 1 q v W) := by
  obtain ⟨plan, hp, hd⟩ := C71_commands_serve_partial (st := .movl) rfl (by simp) hx
  cases plan with
  | ray => obtain ⟨xd, q, x, hp, -⟩ := hp; cases hp
  | push | weight => cases hp
  | line paths start =>
    refine ⟨paths, start, hp, fun d hmem hc e he hm => ?_⟩
    have hone : paths.length = 1 := by
      obtain ⟨xd', q, x, y, hp, -, -, -, -, hp2⟩ := hp
      cases hp
      rw [hp2.count, hxd]
    obtain ⟨t, ht1, -, ht2⟩ := hd ds2 s2 hh2 hno d hmem hc e he hm
    obtain ⟨pre, post, rfl⟩ := List.append_of_mem hmem
    have hh1 : Hist cfg s0 (ds ++ [⟨.movl xd, tr, some true⟩]) s1 := hist_append hh (.cons hx (.nil _))
    obtain ⟨s3, k, g1, g2, g3, g4⟩ := cycle_split (l := l) hh1 hh2 hc (by simpa using hk)
    have hk0 : k = k0 := bare_hist g1 (fun d hd => by
      simp only [List.mem_append, List.mem_cons, List.not_mem_nil, or_false] at hd
      rcases hd with (hd | rfl) | hd
      · exact hg d (by simp [hd])
      · simp
      · exact hg d (by simp [hd])) g2
    subst hk0
    have hn := h.five.1
    split_ifs at ht2 ⊢ with hpos
    · obtain ⟨q, v, r, e1, e2, rfl⟩ := ht2
      obtain ⟨j, -, rfl⟩ := read_some ((g4 _ e1).trans hn)
      obtain ⟨-, e3⟩ := g3 _ e2
      obtain ⟨r', f1, f2⟩ := invKin_some l.svd k .base (asked_six (t := t - start) hone).2 (show j.toList.length = 5 from rfl)
      rw [f1] at e3
      obtain rfl := Option.some.inj e3
      obtain ⟨v, -, rfl⟩ := read_some (f2 _ rfl)
      refine ⟨t, j, v, r, ht1, e1, by rw [hn]; rfl, fun hx hm => ?_⟩
      obtain ⟨v', e, m1, m2, m3, m4⟩ := reach hsvd h.start (g3 _ e2) hx (fun h => by cases h) hm
      have : v = v' := by
        have := congrArg Asibot.Joints.read m1
        rw [read_toList, read_toList] at this
        exact Option.some.inj this
      rw [this]
      exact ⟨e, m2, m3, m4⟩
    · obtain ⟨q, v, b, δ, m1, m2, m3, m4⟩ := towards h hsvd g3 g4 (asked_six hone).1 ht2
      exact ⟨t, q, v, b, ht1, m1, m2, δ, m3, m4⟩

/-- C85: and after a velocity was accepted (`movv`), in the frame that was chosen then. -/
theorem C85_movv_partial (h : Deployed w c cfg s0 k0) (hsvd : GoodSvd l.svd) {s s1 s2 : Ctl} {ds ds2 : List Done}
    (hh : Hist cfg s0 ds s) {xd : List ℝ} (hxd : xd.length = 6) {tr : List Ev}
    (hx : Exec cfg (Op.prog cfg (.movv xd)) s tr (.ok (some true)) s1) (hh2 : Hist cfg s1 ds2 s2)
    (hno : ∀ d ∈ ds2, d.op.target = none) (hg : ∀ d ∈ ds ++ ds2, ∀ x, d.op ≠ .tool x) {k' : Solver}
    (hk : Answered l k0 (callsOf (ds ++ ⟨.movv xd, tr, some true⟩ :: ds2)) k') :
    ∃ paths start, Asked cfg s (.movv xd) tr (.ray paths start) ∧
      ∀ d ∈ ds2, d.op = .cycle → ∀ e ∈ d.calls, IsMotion e →
        ∃ (t : ℝ) (q v : Asibot.Joints) (b : Bool) (δ : Twist), Ev.now t ∈ d.calls ∧ Ev.getEncoders (some q.toList) ∈ d.calls ∧
          e = .velocityMove v.toList b ∧
          let x := posesAt paths (t - start)
          let W := (s.gain * (1000 / s.cmcPeriodMs)) • δ + vectorToTwist (twistsAt paths (t - start))
          (GoodPose x → Ahead k0 1 q → ((place k0 1 q).M.transpose * (standard x).M).Regular →
            (place k0 1 q).p + δ.vel = (standard x).p ∧ Mat3.expRot δ.rot * (place k0 1 q).M = (standard x).M) ∧
          (Solves l k0 q.toList s.frame W → ArmMoves k0 1 q v (turned s.frame (place k0 1 q) W)) := by
  obtain ⟨plan, hp, hd⟩ := C71_commands_serve_partial (st := .movv) rfl (by simp) hx
  cases plan with
  | line => obtain ⟨xd, q, x, y, hp, -⟩ := hp; cases hp
  | push | weight => cases hp
  | ray paths start =>
    refine ⟨paths, start, hp, fun d hmem hc e he hm => ?_⟩
    have hone : paths.length = 1 := by
      obtain ⟨xd', q, x, hp, -, -, -, hp2⟩ := hp
      cases hp
      rw [hp2.count, hxd]
    obtain ⟨t, ht1, ht2⟩ := hd ds2 s2 hh2 hno d hmem hc e he hm
    obtain ⟨pre, post, rfl⟩ := List.append_of_mem hmem
    have hh1 : Hist cfg s0 (ds ++ [⟨.movv xd, tr, some true⟩]) s1 := hist_append hh (.cons hx (.nil _))
    obtain ⟨s3, k, g1, g2, g3, g4⟩ := cycle_split (l := l) hh1 hh2 hc (by simpa using hk)
    have hk0 : k = k0 := bare_hist g1 (fun d hd => by
      simp only [List.mem_append, List.mem_cons, List.not_mem_nil, or_false] at hd
      rcases hd with (hd | rfl) | hd
      · exact hg d (by simp [hd])
      · simp
      · exact hg d (by simp [hd])) g2
    subst hk0
    obtain ⟨q, v, b, δ, m1, m2, m3, m4⟩ := towards h hsvd g3 g4 (asked_six hone).1 ht2
    exact ⟨t, q, v, b, δ, ht1, m1, m2, m3, m4⟩

/-- C85: a controller opens for the ASIBOT if look-ahead is asked for only together with positions, the frame is one of the
two, the strategy is the one there is, and the robot opens, has five joints, and reports its speeds and limits. -/
theorem C85_opens {r : RobotDevice} {dr d : String} {a0 a1 a2 a3 : ℝ} (hw : HasAsibot w)
    (hff : c.top "enableFailFast" ≠ none → c.top "usePosdMovl" ≠ none)
    (hfr : HasText c "referenceFrame" "base" "base" ∨ HasText c "referenceFrame" "base" "tcp")
    (hdr : HasText c "robot" "remote_controlboard" dr) (hds : HasText c "solver" "KdlSolver" d)
    (hr : ∀ o, OptionsFor c dr [] o → w.robot o = some r) (hc : r.Complete) (ha : r.axes = some 5)
    (href : r.refSpeeds 5 ≠ none) (hl : LeavesLimits c) (hcl : r.controlLimits = true)
    (hlim : ∀ j < 5, ∃ lo hi vlo vhi, r.Reports j lo hi vlo vhi ∧ lo ≤ hi)
    (h0 : HasNumber c "A0" (3 / 10) a0) (h1 : HasNumber c "A1" (4 / 10) a1) (h2 : HasNumber c "A2" (4 / 10) a2)
    (h3 : HasNumber c "A3" (3 / 10) a3)
    (hs : HasText c "invKinStrategy" "leastOverallAngularDisplacement" "leastOverallAngularDisplacement")
    (hst : w.starts = true) : ∃ cfg s, openController w c = some (some (cfg, s)) := by
  obtain ⟨cfg, s, h, -⟩ := C81_opens (w := w) (c := c) (r := r) (n := 5) (tcps := 1) hff hfr hdr hds hr hc ha href hl hcl
    (fun j hj => by
      obtain ⟨lo, hi, vlo, vhi, h, -⟩ := hlim j hj
      exact ⟨lo, hi, vlo, vhi, h⟩)
    (fun o mins maxs ho e1 e2 l1 l2 hrep => by
      obtain ⟨lo, -, rfl⟩ := read_some l1
      obtain ⟨hi, -, rfl⟩ := read_some l2
      have hle : ∀ (j : ℕ) a b, lo.toList[j]? = some a → hi.toList[j]? = some b → a ≤ b := by
        intro j a b f1 f2
        obtain ⟨vlo, vhi, g⟩ := hrep j a b f1 f2
        have hj : j < 5 := by
          by_contra hlt
          rw [List.getElem?_eq_none (by rw [l1]; omega)] at f1
          cases f1
        obtain ⟨lo', hi', _, _, g', hle⟩ := hlim j hj
        obtain ⟨rfl, rfl⟩ := Prod.mk.inj (Option.some.inj (g.1.symm.trans g'.1))
        exact hle
      have conv : ∀ key, key ≠ "device" → key ∉ ["mins", "maxs", "maxvels"] → o.top key = c.top key := ho.2.2
      rw [hw, C85_solver_opens (a0 := a0) (a1 := a1) (a2 := a2) (a3 := a3) (lo := lo) (hi := hi)
        ⟨by unfold HasNumber; rw [conv _ (by decide) (by decide)]; exact h0,
         by unfold HasNumber; rw [conv _ (by decide) (by decide)]; exact h1,
         by unfold HasNumber; rw [conv _ (by decide) (by decide)]; exact h2,
         by unfold HasNumber; rw [conv _ (by decide) (by decide)]; exact h3, e1, e2,
         ⟨hle 0 _ _ rfl rfl, hle 1 _ _ rfl rfl, hle 2 _ _ rfl rfl, hle 3 _ _ rfl rfl, hle 4 _ _ rfl rfl⟩,
         by unfold HasText; rw [conv _ (by decide) (by decide)]; exact hs⟩]
      rfl) hst
  exact ⟨cfg, s, h⟩

end

/-! ## The hypotheses are met -/

/-- A robot of five joints, and the solver. -/
noncomputable def asibotWorld : World where
  robot := fun _ => some { simRobot with axes := some 5, limits := fun _ => some (-180, 180) }
  solver := fun o => some ((Asibot.openSolver o).map fun _ => (5, 1))
  starts := true
  line := oneJoint.line
  ray := oneJoint.ray

/-- An arm of unit links. -/
noncomputable def unitArm : Config :=
  plain [("solver", .str "AsibotSolver"), ("A0", .num 0), ("A1", .num 1), ("A2", .num 1), ("A3", .num 1)]

theorem unit_deployed : ∃ cfg s0, Deployed asibotWorld unitArm cfg s0 Asibot.demo ∧ Usable asibotWorld unitArm cfg ∧
    cfg.numJoints = 5 ∧ cfg.qRefSpeeds = [2, 2, 2, 2, 2] ∧ cfg.qMin = [-180, -180, -180, -180, -180] ∧
    cfg.qMax = [180, 180, 180, 180, 180] ∧ s0.frame = .base ∧ s0.state = .notControlling ∧ s0.streaming = vocabNotSet ∧
    cfg.qdotMin = [-5, -5, -5, -5, -5] ∧ cfg.qdotMax = [5, 5, 5, 5, 5] := by
  obtain ⟨cfg, s0, h⟩ := C85_opens (w := asibotWorld) (c := unitArm)
      (r := { simRobot with axes := some 5, limits := fun _ => some (-180, 180) })
      (dr := "remote_controlboard") (d := "AsibotSolver") (fun _ => rfl) (fun h => absurd rfl h) (Or.inl (Or.inr ⟨rfl, rfl⟩))
      (Or.inr ⟨rfl, rfl⟩) (Or.inl rfl) (fun _ _ => rfl) ⟨rfl, rfl, rfl, rfl, rfl, rfl⟩ rfl (by simp [simRobot])
      (Or.inr (Or.inr rfl)) rfl (fun _ _ => ⟨-180, 180, -5, 5, ⟨rfl, rfl⟩, by norm_num⟩) (Or.inl rfl) (Or.inl rfl) (Or.inl rfl)
      (Or.inl rfl) (Or.inr ⟨rfl, rfl⟩) rfl
  have hl : LeavesLimits unitArm := Or.inr (Or.inr rfl)
  obtain ⟨n1, -, k0, hk, a0, a1, a2, a3, -⟩ := C85_deployed (d := "AsibotSolver") (fun _ => rfl) h (Or.inl rfl)
  have rest : cfg.qRefSpeeds = [2, 2, 2, 2, 2] ∧ cfg.qMin = [-180, -180, -180, -180, -180] ∧
      cfg.qMax = [180, 180, 180, 180, 180] ∧ s0.frame = .base ∧ s0.state = .notControlling ∧ s0.streaming = vocabNotSet ∧
    cfg.qdotMin = [-5, -5, -5, -5, -5] ∧ cfg.qdotMax = [5, 5, 5, 5, 5] := by
    obtain ⟨frame, r, n, refs, ls, options, tcps, -, h2, h3, -, h5, h6, h7, -, -, h10⟩ := open_steps h
    cases Option.some.inj h3
    cases Option.some.inj h5
    cases Option.some.inj h6
    cases Option.some.inj h2
    obtain ⟨-, hr, -⟩ := takeLimits_robot hl h7
    cases Option.some.inj hr
    obtain ⟨rfl, rfl⟩ := Prod.mk.inj h10
    exact ⟨rfl, rfl, rfl, rfl, rfl, rfl, rfl, rfl⟩
  have hdemo : k0 = Asibot.demo := by
    obtain ⟨b1, b2⟩ := hk.bare
    obtain ⟨l1, l2⟩ := hk.limits hl
    rw [rest.2.1] at l1
    rw [rest.2.2.1] at l2
    have a0 := a0 0 (Or.inl rfl)
    have a1 := a1 1 (Or.inl rfl)
    have a2 := a2 1 (Or.inl rfl)
    have a3 := a3 1 (Or.inl rfl)
    obtain ⟨x0, x1, x2, x3, lo, hi, b, f⟩ := k0
    have e1 : lo = ⟨-180, -180, -180, -180, -180⟩ := Option.some.inj (congrArg Asibot.Joints.read l1)
    have e2 : hi = ⟨180, 180, 180, 180, 180⟩ := Option.some.inj (congrArg Asibot.Joints.read l2)
    dsimp only at *
    subst a0 a1 a2 a3 e1 e2 b1 b2
    rfl
  subst hdemo
  refine ⟨cfg, s0, hk, ⟨hl, fun o r n l hr hl => ?_, fun o r j lo hi hr hl => ?_, fun _ => ?_,
    50, Or.inr ⟨rfl, rfl⟩, by norm_num⟩, n1, rest⟩
  · cases Option.some.inj hr
    cases Option.some.inj hl
    simp
  · cases Option.some.inj hr
    obtain ⟨rfl, rfl⟩ := Prod.mk.inj (Option.some.inj hl)
    norm_num [tol]
  · rw [n1]; norm_num

/-- The calls of a movement of the joints. -/
noncomputable def movjCalls (xd q t sp : List ℝ) : List Ev :=
  [Ev.getEncoders (some q), Ev.invKin xd q .base (some t), Ev.getRefSpeeds (some [2, 2, 2, 2, 2]), Ev.setRefSpeeds sp true,
    Ev.getControlModes (some [.position, .position, .position, .position, .position]), Ev.delay (1 / 10) (),
    Ev.getControlModes (some [.position, .position, .position, .position, .position]), Ev.positionMove t true]

theorem unit_movj {cfg : Cfg} {s0 : Ctl} (h1 : cfg.numJoints = 5) (h3 : cfg.qRefSpeeds = [2, 2, 2, 2, 2]) (h6 : s0.frame = .base)
    (xd : List ℝ) (a b c d e a' : ℝ) (hne' : a' - a ≠ 0) :
    ∃ s', Exec cfg (Op.prog cfg (.movj xd)) s0 (movjCalls xd [a, b, c, d, e] [a', b, c, d, e] [2, 0, 0, 0, 0])
      (.ok (some true)) s' := by
  have hspeeds : computeIsocronousSpeeds cfg [a, b, c, d, e] [a', b, c, d, e] = some ([2, 0, 0, 0, 0], true) := by
    unfold computeIsocronousSpeeds
    rw [h1]
    have hne := abs_pos.mpr hne'
    have h2 : 0 < |a' - a| / 2 := by linarith
    simp [isoDeltas, h3, h2, not_lt.mpr h2.le]
    norm_num
    rw [if_neg hne', show |a' - a| / (|a' - a| / 2) = 2 by field_simp]
  have hc : can (robot cfg) (Op.prog cfg (.movj xd)) (fun o _ tr => o = .ok (some true) ∧
      tr = movjCalls xd [a, b, c, d, e] [a', b, c, d, e] [2, 0, 0, 0, 0]) s0 [] := by
    show can (robot cfg) (Prog.bind (movj cfg xd) _) _ _ _
    unfold movj setCurrentState
    can_simp
    refine ⟨some [a, b, c, d, e], some_length (by simp [h1]), ?_⟩
    can_simp
    refine ⟨some [a', b, c, d, e], ?_⟩
    dsimp only
    rw [hspeeds]
    can_simp
    refine Or.inl ⟨trivial, some [2, 2, 2, 2, 2], some_length (by simp [h1]), ?_⟩
    can_simp
    refine ⟨true, Or.inl ⟨rfl, can_setModes' [.position, .position, .position, .position, .position] (by simp [h1]) (by simp) ?_⟩⟩
    can_simp
    refine Or.inl ⟨trivial, Or.inr ⟨[a', b, c, d, e], ?_, true, Or.inl ⟨rfl, ?_⟩⟩⟩
    · simp [buffer, h1]
    · simp [h6, movjCalls]
  obtain ⟨tr, o, s', hx, rfl, rfl⟩ := can_run hc
  exact ⟨s', hx⟩

theorem movj_answered {l : Libs} {xd q t sp : List ℝ} {k : Solver} (h : Asibot.invKin l.svd k xd q .base = some (some t)) :
    Answered l k (movjCalls xd q t sp) k :=
  .cons rfl (.cons ⟨rfl, h⟩ (.cons rfl (.cons rfl (.cons rfl (.cons rfl (.cons rfl (.cons rfl (.nil _))))))))

theorem demo_meant : GoodPose Asibot.demoPose ∧ Meant 1 (standard Asibot.demoPose) := by
  have hreg : (standard Asibot.demoPose).M.Regular := by
    right; right
    rw [Asibot.demoPose_standard]; norm_num [Mat3.cosAngle]
  have e : standard Asibot.demoPose * (1 : Frame).inv = standard Asibot.demoPose := by
    simp
  refine ⟨⟨by simp [Asibot.demoPose], Or.inr Asibot.demoPose_size⟩, ?_, by rw [e]; exact hreg, hreg⟩
  rw [e]
  refine ⟨?_, ?_⟩
  · left; rw [Asibot.demoPose_standard]; norm_num [Mat3.singEps]
  · rw [Asibot.demoPose_euler, Asibot.demoPose_standard]; simp only; rw [Asibot.atan2_up (by norm_num)]

theorem demo_forward (svd : Mat3 → Vec3) :
    Asibot.invKin svd Asibot.demo Asibot.demoPose [80, 90, -90, 90, 90] .base = some (some [90, 90, -90, 90, 90]) := by
  have h : Asibot.invKin svd Asibot.demo Asibot.demoPose [80, 90, -90, 90, 90] .base =
      Asibot.solve Asibot.demo Asibot.demoPose ⟨80, 90, -90, 90, 90⟩ := rfl
  have ho : Asibot.findOptimal ⟨80, 90, -90, 90, 90⟩
      [⟨⟨90, 0, 90, 0, 90⟩, .forward, .up, true⟩, ⟨⟨90, 90, -90, 90, 90⟩, .forward, .down, true⟩,
       ⟨⟨-90, 0, -90, 0, -90⟩, .reversed, .up, true⟩, ⟨⟨-90, -90, 90, -90, -90⟩, .reversed, .down, true⟩] =
      some ⟨⟨90, 90, -90, 90, 90⟩, .forward, .down, true⟩ := by
    norm_num [Asibot.findOptimal, Asibot.fillMap, Asibot.insertMap, Asibot.total, Asibot.diffs]
  rw [h, Asibot.demo_solve_eq, ho]
  rfl

theorem demo_reversed (svd : Mat3 → Vec3) :
    Asibot.invKin svd Asibot.demo Asibot.demoPose [-80, -90, 90, -90, -90] .base = some (some [-90, -90, 90, -90, -90]) := by
  have h : Asibot.invKin svd Asibot.demo Asibot.demoPose [-80, -90, 90, -90, -90] .base =
      Asibot.solve Asibot.demo Asibot.demoPose ⟨-80, -90, 90, -90, -90⟩ := rfl
  have ho : Asibot.findOptimal ⟨-80, -90, 90, -90, -90⟩
      [⟨⟨90, 0, 90, 0, 90⟩, .forward, .up, true⟩, ⟨⟨90, 90, -90, 90, 90⟩, .forward, .down, true⟩,
       ⟨⟨-90, 0, -90, 0, -90⟩, .reversed, .up, true⟩, ⟨⟨-90, -90, 90, -90, -90⟩, .reversed, .down, true⟩] =
      some ⟨⟨-90, -90, 90, -90, -90⟩, .reversed, .down, true⟩ := by
    norm_num [Asibot.findOptimal, Asibot.fillMap, Asibot.insertMap, Asibot.total, Asibot.diffs]
  rw [h, Asibot.demo_solve_eq, ho]
  rfl

/-- A movement of the joints, with the hypotheses of `C85_movj_partial`. -/
example : ∃ cfg s0, Deployed asibotWorld unitArm cfg s0 Asibot.demo ∧ Usable asibotWorld unitArm cfg ∧ ∃ l : Libs,
    GoodSvd l.svd ∧ s0.frame = .base ∧ GoodPose Asibot.demoPose ∧ Meant 1 (standard Asibot.demoPose) ∧
    ∃ tr s', Exec cfg (Op.prog cfg (.movj Asibot.demoPose)) s0 tr (.ok (some true)) s' ∧ Answered l Asibot.demo tr Asibot.demo ∧
      Ev.positionMove [90, 90, -90, 90, 90] true ∈ tr := by
  obtain ⟨cfg, s0, h, hu, h1, h2, -, -, h5, -⟩ := unit_deployed
  obtain ⟨svd, hsvd⟩ := Asibot.exists_goodSvd
  obtain ⟨s', hx⟩ := unit_movj h1 h2 h5 Asibot.demoPose 80 90 (-90) 90 90 90 (by norm_num)
  exact ⟨cfg, s0, h, hu, ⟨svd, fun _ _ => ⟨0, 0, 0, 0, 0⟩⟩, hsvd, h5, demo_meant.1, demo_meant.2, _, s', hx,
    movj_answered (demo_forward svd), by simp [movjCalls]⟩

/-- C85: the loop of command and report does not close: from a posture with the base reversed, `movj` sends the robot to
joints that put the arm at the pose that was asked for, and there, `stat` reports another orientation. -/
theorem C85_move_then_stat_counterexample : ∃ cfg s0, Deployed asibotWorld unitArm cfg s0 Asibot.demo ∧
    Usable asibotWorld unitArm cfg ∧ ∃ l : Libs, GoodSvd l.svd ∧ ∃ (q : Asibot.Joints) (tr : List Ev) (s1 : Ctl),
      Exec cfg (Op.prog cfg (.movj Asibot.demoPose)) s0 tr (.ok (some true)) s1 ∧ Answered l Asibot.demo tr Asibot.demo ∧
      Ev.positionMove q.toList true ∈ tr ∧ place Asibot.demo 1 q = standard Asibot.demoPose ∧
      ∃ (x : List ℝ) (s2 : Ctl), Exec cfg stat s1 [.getEncoders (some q.toList), .fwdKin q.toList (some x)] (.ok (some (x, s1.state))) s2 ∧
        Answered l Asibot.demo [.getEncoders (some q.toList), .fwdKin q.toList (some x)] Asibot.demo ∧
        (standard x).M ≠ (standard Asibot.demoPose).M := by
  obtain ⟨cfg, s0, h, hu, h1, h2, -, -, h5, -⟩ := unit_deployed
  obtain ⟨svd, hsvd⟩ := Asibot.exists_goodSvd
  obtain ⟨s1, hx⟩ := unit_movj h1 h2 h5 Asibot.demoPose (-80) (-90) 90 (-90) (-90) (-90) (by norm_num)
  obtain ⟨-, g1, x, g2, g3⟩ := Asibot.C56_reversed_disagree svd
  have hc : can (robot cfg) stat (fun o _ tr => o = .ok (some (x, s1.state)) ∧
      tr = [.getEncoders (some [-90, -90, 90, -90, -90]), .fwdKin [-90, -90, 90, -90, -90] (some x)]) s1 [] := by
    unfold stat getCurrentState
    can_simp
    refine ⟨some [-90, -90, 90, -90, -90], some_length (by simp [h1]), ?_⟩
    can_simp
    exact ⟨some x, rfl, rfl⟩
  obtain ⟨tr, o, s2, hx2, rfl, rfl⟩ := can_run hc
  exact ⟨cfg, s0, h, hu, ⟨svd, fun _ _ => ⟨0, 0, 0, 0, 0⟩⟩, hsvd, ⟨-90, -90, 90, -90, -90⟩, _, s1, hx,
    movj_answered (demo_reversed svd), by simp [movjCalls, Asibot.Joints.toList], g1, x, s2, hx2,
    .cons rfl (.cons ⟨rfl, x, g2, rfl⟩ (.nil _)), g3⟩

/-- Gravity compensation is accepted, and its first cycle aborts it, with the hypotheses of `C85_gcmp_never`. -/
example : ∃ cfg s0, Deployed asibotWorld unitArm cfg s0 Asibot.demo ∧ ∃ tr s1 tr2 s2,
    Exec cfg (Op.prog cfg .gcmp) s0 tr (.ok (some true)) s1 ∧ Exec cfg (run cfg) s1 tr2 (.ok ()) s2 ∧ EncodersRead tr2 ∧
    ∀ l, Answered l Asibot.demo (tr ++ tr2) Asibot.demo := by
  obtain ⟨cfg, s0, h, hu, h1, h2, h3, h4, h5, -⟩ := unit_deployed
  refine ⟨cfg, s0, h, ?_⟩
  have hc : can (robot cfg) (Op.prog cfg .gcmp) (fun o s' tr => o = .ok (some true) ∧
      s' = { s0 with state := .gcmp, streaming := vocabNotSet } ∧
        tr = [Ev.getControlModes (some [.torque, .torque, .torque, .torque, .torque]),
        Ev.delay (1 / 10) (), Ev.getControlModes (some [.torque, .torque, .torque, .torque, .torque])]) s0 [] := by
    show can (robot cfg) (Prog.bind gcmp _) _ _ _
    unfold gcmp setCurrentState
    can_simp
    refine can_setModes' [.torque, .torque, .torque, .torque, .torque] (by simp [h1]) (by simp) ?_
    can_simp
    exact Or.inl ⟨trivial, by simp⟩
  obtain ⟨tr, o, s1, hx, rfl, rfl, rfl⟩ := can_run hc
  have hlim : InLimits cfg [0, 0, 0, 0, 0] := by
    intro j hj
    rw [h1] at hj
    rw [h3, h4]
    match j, hj with
    | 0, _ | 1, _ | 2, _ | 3, _ | 4, _ => exact ⟨0, -180, 180, rfl, rfl, rfl, by norm_num [tol], by norm_num [tol]⟩
  have hc2 : can (robot cfg) (run cfg) (fun o s' tr => o = .ok () ∧ tr =
      [Ev.getEncoders (some [0, 0, 0, 0, 0]), Ev.getEncoderSpeeds (some [0, 0, 0, 0, 0]),
      Ev.getEncoderAccelerations (some [0, 0, 0, 0, 0]), Ev.getControlModes (some [.torque, .torque, .torque, .torque, .torque]),
      Ev.invDynStatic [0, 0, 0, 0, 0] none, Ev.getControlModes (some [.position, .position, .position, .position, .position]),
        Ev.delay (1 / 10) (), Ev.getControlModes (some [.position, .position, .position, .position, .position]), Ev.stop true])
      { s0 with state := .gcmp, streaming := vocabNotSet } [] := by
    unfold run getCurrentState runBody readEncoders
    can_simp
    refine Or.inr ⟨by simp, some [0, 0, 0, 0, 0], some_length (by simp [h1]), ?_⟩
    can_simp
    refine ⟨some [0, 0, 0, 0, 0], some_length (by simp [h1]), ?_⟩
    can_simp
    refine ⟨some [0, 0, 0, 0, 0], some_length (by simp [h1]), ?_⟩
    can_simp
    refine Or.inr ⟨true, (checkJointLimits_iff cfg _).mpr hlim, Or.inl ⟨rfl, ?_⟩⟩
    show can _ (Prog.bind (handleGcmp cfg [0, 0, 0, 0, 0]) _) _ _ _
    unfold handleGcmp
    can_simp
    refine can_checkModes [.torque, .torque, .torque, .torque, .torque] (by simp [h1]) ?_
    can_simp
    refine Or.inl ⟨by simp, none, ?_⟩
    can_simp
    refine Or.inr ⟨by simp, ?_⟩
    unfold stopControl setCurrentState
    can_simp
    refine can_setModes' [.position, .position, .position, .position, .position] (by simp [h1]) (by simp) ?_
    can_simp
    exact ⟨true, by simp⟩
  obtain ⟨tr2, o, s2, hx2, rfl, rfl⟩ := can_run hc2
  refine ⟨_, _, _, s2, hx, hx2, ⟨[0, 0, 0, 0, 0], [0, 0, 0, 0, 0], [0, 0, 0, 0, 0], by simp, by simp, by simp⟩, fun l => ?_⟩
  exact .cons rfl (.cons rfl (.cons rfl (.cons rfl (.cons rfl (.cons rfl (.cons rfl (.cons ⟨rfl, rfl⟩ (.cons rfl (.cons rfl
    (.cons rfl (.cons rfl (.nil _))))))))))))

/-- A pseudoinverse for which turning about the base axis is a solution. -/
noncomputable def turning : Asibot.Pinv := fun _ _ => ⟨1 / 20, 0, 0, 0, 0⟩

theorem turning_solves (svd : Mat3 → Vec3) :
    Solves ⟨svd, turning⟩ Asibot.demo [90, 90, -90, 90, 90] .base (vectorToTwist [-1 / 10, 0, 0, 0, 0, 1 / 20]) := by
  intro J hJ
  have : Asibot.jacobian svd Asibot.demo [90, 90, -90, 90, 90] .base =
      some (some (Asibot.baseJacobian Asibot.demo (Asibot.Joints.inRadians ⟨90, 90, -90, 90, 90⟩))) := rfl
  obtain rfl := Option.some.inj (Option.some.inj (this.symm.trans hJ))
  simp only [Asibot.Joints.inRadians, Asibot.degToRad_ninety, Asibot.degToRad_neg_ninety, Asibot.baseJacobian, Asibot.demo,
    turning, Asibot.Joints.toList]
  rw [show Real.pi / 2 + -(Real.pi / 2) + Real.pi / 2 = Real.pi / 2 by ring, show Real.pi / 2 + -(Real.pi / 2) = 0 by ring]
  simp [Twist.combine, vectorToTwist]
  refine Twist.ext (Vec3.ext ?_ ?_ ?_) (Vec3.ext ?_ ?_ ?_) <;> simp <;> norm_num

/-- A streamed twist turns the base of the arm, with the hypotheses of `C85_twist_partial`. -/
example : ∃ cfg s0, Deployed asibotWorld unitArm cfg s0 Asibot.demo ∧ ∃ l : Libs, GoodSvd l.svd ∧ ∃ ds s tr s',
    Hist cfg s0 ds s ∧ (∀ d ∈ ds, ∀ x, d.op ≠ .tool x) ∧ Answered l Asibot.demo (callsOf ds) Asibot.demo ∧
    Exec cfg (Op.prog cfg (.twist [-1 / 10, 0, 0, 0, 0, 1 / 20])) s tr (.ok none) s' ∧ Answered l Asibot.demo tr Asibot.demo ∧
    Ev.getEncoders (some [90, 90, -90, 90, 90]) ∈ tr ∧ Ev.velocityMove [KinRepr.radToDeg (1 / 20), 0, 0, 0, 0] true ∈ tr ∧
    Solves l Asibot.demo [90, 90, -90, 90, 90] s.frame (vectorToTwist [-1 / 10, 0, 0, 0, 0, 1 / 20]) := by
  obtain ⟨cfg, s0, h, hu, h1, h2, h3, h4, h5, h6, h7, h8, h9⟩ := unit_deployed
  obtain ⟨svd, hsvd⟩ := Asibot.exists_goodSvd
  refine ⟨cfg, s0, h, ⟨svd, turning⟩, hsvd, ?_⟩
  have hc : can (robot cfg) (Op.prog cfg (.setParameter .streaming vocabTwist)) (fun o s' tr => o = .ok (some true) ∧
      s' = { s0 with state := .notControlling, streaming := vocabTwist } ∧
        tr = [Ev.getControlModes (some [.velocity, .velocity, .velocity, .velocity, .velocity]),
        Ev.delay (1 / 10) (), Ev.getControlModes (some [.velocity, .velocity, .velocity, .velocity, .velocity])]) s0 [] := by
    show can (robot cfg) (Prog.bind (setParameter .streaming vocabTwist) _) _ _ _
    unfold setParameter getCurrentState presetStreamingCommand setCurrentState
    rw [show toInt (vocabTwist : ℝ) = some vocabTwist by unfold toInt; simp [vocabTwist, vocab]]
    can_simp
    refine Or.inr ⟨by simp [h6], Or.inr ⟨by decide, Or.inl ⟨trivial, ?_⟩⟩⟩
    refine can_setModes' [.velocity, .velocity, .velocity, .velocity, .velocity] (by simp [h1]) (by simp) ?_
    can_simp
    simp
  obtain ⟨tr, o, s1, hx, rfl, rfl, rfl⟩ := can_run hc
  have hc2 : can (robot cfg) (Op.prog cfg (.twist [-1 / 10, 0, 0, 0, 0, 1 / 20])) (fun o _ tr => o = .ok none ∧
      tr = [Ev.getControlModes (some [.velocity, .velocity, .velocity, .velocity, .velocity]),
        Ev.getEncoders (some [90, 90, -90, 90, 90]), Ev.diffInvKin [90, 90, -90, 90, 90] [-1 / 10, 0, 0, 0, 0, 1 / 20] .base
          (some [KinRepr.radToDeg (1 / 20), 0, 0, 0, 0]), Ev.velocityMove [KinRepr.radToDeg (1 / 20), 0, 0, 0, 0] true])
      { s0 with state := .notControlling, streaming := vocabTwist } [] := by
    show can (robot cfg) (Prog.bind (twist cfg _) _) _ _ _
    unfold twist streamingReady getCurrentState checkControlModes twistBody
    can_simp
    refine Or.inr ⟨by simp, Or.inl ⟨by simp, some [.velocity, .velocity, .velocity, .velocity, .velocity],
      some_length (by simp [h1]), ?_⟩⟩
    can_simp
    refine Or.inl ⟨by simp, some [90, 90, -90, 90, 90], some_length (by simp [h1]), ?_⟩
    can_simp
    refine ⟨some [KinRepr.radToDeg (1 / 20), 0, 0, 0, 0], ?_⟩
    can_simp
    refine Or.inr ⟨true, (checkJointLimitsDir_iff _ _ _).mpr ?_, Or.inl ⟨rfl, Or.inr ⟨true,
      (checkJointVelocities_iff _ _).mpr ?_, Or.inl ⟨rfl, Or.inr ⟨[KinRepr.radToDeg (1 / 20), 0, 0, 0, 0], by simp [buffer, h1], true,
        Or.inl ⟨trivial, trivial, by simp [h5]⟩⟩⟩⟩⟩⟩
    · intro j hj
      rw [h1] at hj
      rw [h3, h4]
      match j, hj with
      | 0, _ | 1, _ | 2, _ | 3, _ | 4, _ => exact ⟨_, _, _, rfl, rfl, rfl, Or.inl (by norm_num [tol])⟩
    · intro j hj
      rw [h1] at hj
      rw [h8, h9]
      have hp := Real.two_le_pi
      match j, hj with
      | 0, _ =>
        refine ⟨_, _, _, rfl, rfl, rfl, by norm_num, fun _ => ?_⟩
        unfold KinRepr.radToDeg
        have h10 : 0 ≤ 180 / Real.pi := by positivity
        have h11 : 180 / Real.pi ≤ 90 := by rw [div_le_iff₀ (by linarith)]; linarith
        constructor <;> linarith
      | 1, _ | 2, _ | 3, _ | 4, _ => exact ⟨_, _, _, rfl, rfl, rfl, by norm_num, by norm_num⟩
  obtain ⟨tr2, o, s2, hx2, rfl, rfl⟩ := can_run hc2
  refine ⟨[⟨.setParameter .streaming vocabTwist, _, some true⟩], _, _, s2, .cons hx (.nil _), by simp, ?_, hx2, ?_, by simp, by simp, ?_⟩
  · exact .cons rfl (.cons rfl (.cons rfl (.nil _)))
  · refine .cons rfl (.cons rfl (.cons ⟨rfl, rfl, _, rfl, ?_⟩ (.cons rfl (.nil _))))
    simp [turning, Asibot.Joints.toList, KinRepr.radToDeg]
  · have := turning_solves svd
    rwa [← h5] at this

end KD.Ctrl.WithAsibot
