import Verif.Props.Streaming
import Verif.Ctrl.Commands

/-!
# C41: the look-ahead of a linear movement
-/

namespace KD.Ctrl

open scoped Classical
open Prog (wp wp_bind wp_of_run wp_sound can can_bind can_run Run)

/-- At one sampled point: the solver was asked for the pose of the path at time `t`, starting from the
joint positions `a`, and answered `b`, which is within joint limits; the step is within the numbers
configured as joint speed limits. -/
structure SampleOk (cfg : Cfg) (ts : List Traj) (tr : List Ev) (t : ℝ) (a b : List ℝ) : Prop where
  solved : Ev.invKin (posesAt ts t) a .base (some b) ∈ tr
  limits : InLimits cfg b
  step : InVelLimits cfg (minus b a)

theorem displacement_get {newQ oldQ qdot d : List ℝ} (h : displacement newQ oldQ qdot = some d) {j : ℕ}
    (hj : j < newQ.length) : d[j]? = (minus newQ oldQ)[j]? := by
  unfold displacement at h
  split at h
  · rename_i hl
    rw [← Option.some.inj h, minus, List.getElem?_append_left]
    simp; omega
  · simp at h

theorem failFast_ok {cfg : Cfg} {ts : List Traj} {times oldQ qdot : List ℝ} {s s' : Ctl} {tr : List Ev}
    (h : Exec cfg (failFastLoop cfg ts times oldQ qdot) s tr (.ok true) s') :
    ∃ sols : List (List ℝ), ∀ (i : ℕ) (t : ℝ), times[i]? = some t →
      ∃ a b, (oldQ :: sols)[i]? = some a ∧ (oldQ :: sols)[i + 1]? = some b ∧ SampleOk cfg ts tr t a b := by
  induction times generalizing oldQ qdot tr s' with
  | nil => exact ⟨[], by simp⟩
  | cons t times ih =>
    refine wp_sound (Q := fun o s' tr => o = .ok true →
      ∃ sols : List (List ℝ), ∀ (i : ℕ) (t' : ℝ), (t :: times)[i]? = some t' →
      ∃ a b, (oldQ :: sols)[i]? = some a ∧ (oldQ :: sols)[i + 1]? = some b ∧ SampleOk cfg ts tr t' a b) ?_ h rfl
    clear h
    unfold failFastLoop
    dev_simp
    refine ⟨by simp, fun newQ => ⟨by simp, fun qdot' hd => ⟨by simp, fun ok1 h1 => ⟨fun e1 => ⟨by simp,
      fun ok2 h2 => ⟨fun e2 => wp_of_run fun tr o s'' hr ho => ?_, by simp⟩⟩, by simp⟩⟩⟩⟩
    subst ho
    have hs : s'' = s := by
      refine Prog.run_keeps (W := fun _ => False) (I := fun t => t = s) (fun f hf => hf.elim) hr
        writes_failFastLoop rfl
    subst hs
    rw [e1] at h1
    rw [e2] at h2
    have hl := (checkJointLimits_iff _ _).mp h1
    have hv := (checkJointVelocities_iff _ _).mp h2
    have hv' : InVelLimits cfg (minus newQ oldQ) := by
      intro j hj
      obtain ⟨w, lo, hi, h3, h4⟩ := hv j hj
      obtain ⟨x, -, -, h5, -⟩ := hl j hj
      exact ⟨w, lo, hi, by rw [← displacement_get hd (List.getElem?_eq_some_iff.mp h5).1]; exact h3, h4⟩
    obtain ⟨sols, hsols⟩ := ih hr
    refine ⟨newQ :: sols, fun i t' ht => ?_⟩
    rcases i with _ | i
    · obtain rfl : t = t' := by simpa using ht
      exact ⟨oldQ, newQ, rfl, rfl, ⟨by simp, hl, hv'⟩⟩
    · obtain ⟨a, b, h3, h4, h5⟩ := hsols i t' (by simpa using ht)
      exact ⟨a, b, by simpa using h3, by simpa using h4, ⟨by simp [h5.solved], h5.limits, h5.step⟩⟩

theorem le_maxDuration {ts : List Traj} {p : Traj} (h : p ∈ ts) : p.duration ≤ maxDuration ts := by
  unfold maxDuration
  have mono : ∀ (l : List Traj) (m : ℝ), m ≤ l.foldl (fun m t => max m t.duration) m := by
    intro l
    induction l with
    | nil => intro m; exact le_rfl
    | cons a l ih => intro m; exact (le_max_left _ _).trans (ih _)
  suffices H : ∀ (l : List Traj) (m : ℝ), p ∈ l → p.duration ≤ l.foldl (fun m t => max m t.duration) m from
    H ts 0 h
  intro l
  induction l with
  | nil => simp
  | cons a l ih =>
    intro m hp
    rcases List.mem_cons.mp hp with rfl | hp
    · exact (le_max_right _ _).trans (mono _ _)
    · exact ih _ hp

theorem sampleTimes_get {dt m : ℝ} (hdt : 0 < dt) {i : ℕ} (h : i = 0 ∨ i * dt ≤ m) :
    (sampleTimes dt m)[i]? = some (i * dt) := by
  have hi : i < ⌊m / dt⌋₊ + 1 := by
    rcases h with rfl | h
    · omega
    · rw [Nat.lt_succ_iff]
      exact Nat.le_floor ((le_div_iff₀ hdt).mpr h)
  simp [sampleTimes, List.getElem?_range hi]

/-- If `movl` accepts a movement with the look-ahead enabled, then at every sampled time of the path that
it is going to follow (multiples of half the period up to the longest duration) the solver found joint
positions, they are within joint limits, and each step from one sample to the next is within the numbers
configured as joint speed limits. Partial: the step is not divided by the time it takes. -/
theorem C41_accepted_path_checked_partial {cfg : Cfg} {xd : List ℝ} {s s' : Ctl} {tr : List Ev}
    (hff : cfg.enableFailFast = true) (h : Exec cfg (movl cfg xd) s tr (.ok true) s') :
    s'.state = .movl ∧ s'.trajectories ≠ [] ∧ ∃ (q0 : List ℝ) (sols : List (List ℝ)),
      Ev.getEncoders (some q0) ∈ tr ∧
      ∀ i : ℕ, (i = 0 ∨ ∃ p ∈ s'.trajectories, i * (s.period / 2) ≤ p.duration) →
        ∃ a b, (q0 :: sols)[i]? = some a ∧ (q0 :: sols)[i + 1]? = some b ∧
          SampleOk cfg s'.trajectories tr (i * (s.period / 2)) a b := by
  refine wp_sound (Q := fun o s' tr => o = .ok true →
    s'.state = .movl ∧ s'.trajectories ≠ [] ∧ ∃ (q0 : List ℝ) (sols : List (List ℝ)),
      Ev.getEncoders (some q0) ∈ tr ∧
      ∀ i : ℕ, (i = 0 ∨ ∃ p ∈ s'.trajectories, i * (s.period / 2) ≤ p.duration) →
        ∃ a b, (q0 :: sols)[i]? = some a ∧ (q0 :: sols)[i + 1]? = some b ∧
          SampleOk cfg s'.trajectories tr (i * (s.period / 2)) a b) ?_ h rfl
  clear h
  have key : ∀ (q : List ℝ) (ts : List Traj) (pre : List Ev), Ev.getEncoders (some q) ∈ pre →
      wp (robot cfg) (movlStart cfg q) (fun o s' tr => o = .ok true →
      s'.state = .movl ∧ s'.trajectories ≠ [] ∧ ∃ (q0 : List ℝ) (sols : List (List ℝ)),
      Ev.getEncoders (some q0) ∈ tr ∧
      ∀ i : ℕ, (i = 0 ∨ ∃ p ∈ s'.trajectories, i * (s.period / 2) ≤ p.duration) →
        ∃ a b, (q0 :: sols)[i]? = some a ∧ (q0 :: sols)[i + 1]? = some b ∧
          SampleOk cfg s'.trajectories tr (i * (s.period / 2)) a b) { s with trajectories := ts } pre := by
    intro q ts pre hpre
    unfold movlStart setCurrentState
    simp only [hff, if_true]
    rw [Prog.bind_eq, wp_bind]
    refine wp_of_run fun tr o s1 hr => ?_
    obtain ⟨rfl, -, -⟩ := run_failFast hr
    rcases o with ok | _
    swap
    · intro hb; simp at hb
    simp only [Prog.Out.andThen]
    dev_simp
    refine ⟨fun hok => wp_setModes fun b es hes hin => ?_, by simp⟩
    subst hok
    dev_simp
    refine ⟨fun hb t _ => ?_, by simp⟩
    have hrun : ts ≠ [] ∧ 0 < s.period ∧ Exec cfg (failFastLoop cfg ts (sampleTimes (s.period * (1 / 2))
        (maxDuration ts)) q (List.replicate (cfg.numTcps * 6) 0)) { s with trajectories := ts } tr (.ok true)
        { s with trajectories := ts } := by
      unfold doFailFastChecks at hr
      cases hr with
      | get hr =>
        dsimp only at hr
        rw [Prog.pure_bind'] at hr
        dsimp only at hr
        split at hr
        · cases hr
        · split at hr
          · cases hr
          · rename_i h1 h2
            exact ⟨h1, not_le.mp h2, hr⟩
    obtain ⟨hts, hp, hrun⟩ := hrun
    obtain ⟨sols, hsols⟩ := failFast_ok hrun
    refine ⟨trivial, hts, q, sols, by simp [hpre], fun i hi => ?_⟩
    obtain ⟨a, b, h1, h2, h3⟩ := hsols i (i * (s.period * (1 / 2))) (sampleTimes_get (by linarith) (by
      rcases hi with hi | ⟨p, hp, hi⟩
      · exact Or.inl hi
      · right
        have := le_maxDuration hp
        linarith))
    refine ⟨a, b, h1, h2, ⟨?_, h3.limits, h3.step⟩⟩
    have := h3.solved
    rw [show s.period * (1 / 2) = s.period / 2 by ring] at this
    simp [this]
  unfold movl
  dev_simp
  refine ⟨by simp, fun q _ => ⟨by simp, fun x => ⟨fun _ => ⟨by simp, fun l => ?_⟩, fun _ => ?_⟩⟩⟩
  · exact ⟨by simp, fun ts _ => key q ts _ (by simp)⟩
  · exact ⟨by simp, fun ts _ => key q ts _ (by simp)⟩

/-- A robot with one joint that looks ahead. -/
noncomputable def careful : Cfg := { oneJoint with enableFailFast := true }

/-- The look-ahead does not bound joint speeds: a movement is accepted on which the joint has to go from
0 to 1 in 25 ms, that is at a speed of 40 when at most 5 is allowed. -/
theorem C41_too_fast_accepted : ∃ s tr s' a b, Exec careful (movl careful [0, 0, 0, 0, 0, 0]) s tr (.ok true) s' ∧
    SampleOk careful s'.trajectories tr 0 [0] [a] ∧ SampleOk careful s'.trajectories tr (s.period / 2) [a] [b] ∧
    (b - a) / (s.period / 2) = 40 ∧ ¬InVelLimits careful [40] := by
  have hf : (careful.line (KdlVectorConverter.vectorToFrame [0, 0, 0, 0, 0, 0])
      (KdlVectorConverter.vectorToFrame [0, 0, 0, 0, 0, 0]) (1 / 40)).duration = 1 / 40 := rfl
  have hst : sampleTimes (1 / 20 * (1 / 2)) (maxDuration [careful.line
      (KdlVectorConverter.vectorToFrame [0, 0, 0, 0, 0, 0])
      (KdlVectorConverter.vectorToFrame [0, 0, 0, 0, 0, 0]) (1 / 40)]) = [0, 1 / 40] := by
    simp only [maxDuration, List.foldl_cons, List.foldl_nil, hf]
    rw [show max (0 : ℝ) (1 / 40) = 1 / 40 by norm_num]
    rw [sampleTimes, show (1 / 40 : ℝ) / (1 / 20 * (1 / 2)) = 1 by norm_num, Nat.floor_one]
    simp [List.range_succ]
    norm_num
  have hlim : ∀ v : ℝ, -9 ≤ v → v ≤ 9 → InLimits careful [v] := fun v h1 h2 => oneJoint_inLimits h1 h2
  have hvel : ∀ (v : ℝ) (l : List ℝ), |v| ≤ 5 → InVelLimits careful (v :: l) := by
    intro v l h j hj
    have : j = 0 := by simp [careful, oneJoint] at hj; omega
    subst this
    exact ⟨v, 0, 5, rfl, rfl, rfl, fun _ => h, fun h => absurd rfl h⟩
  have h : can (robot careful) (movl careful [0, 0, 0, 0, 0, 0]) (fun o s' tr => o = .ok true ∧
      SampleOk careful s'.trajectories tr 0 [0] [0] ∧ SampleOk careful s'.trajectories tr (1 / 20 / 2) [0] [1])
      { ready with duration := 1 / 40 } [] := by
    unfold movl
    can_simp
    refine ⟨some [0], some_length rfl, ?_⟩
    can_simp
    refine ⟨some [0, 0, 0, 0, 0, 0], ?_⟩
    can_simp
    refine Or.inr ⟨by simp [ready, Ctl.initial], Or.inr ⟨[careful.line
      (KdlVectorConverter.vectorToFrame [0, 0, 0, 0, 0, 0])
      (KdlVectorConverter.vectorToFrame [0, 0, 0, 0, 0, 0]) (1 / 40)], by simp [lineTrajs, slice], ?_⟩⟩
    unfold movlStart doFailFastChecks setCurrentState
    simp only [show careful.enableFailFast = true from rfl, if_true]
    can_simp
    refine Or.inr ⟨by simp, Or.inr ⟨by norm_num [ready, Ctl.initial], ?_⟩⟩
    rw [show ready.period = 1 / 20 from rfl]
    rw [hst]
    unfold failFastLoop
    can_simp
    refine ⟨some [0], ?_⟩
    can_simp
    refine Or.inr ⟨(0 - 0) :: List.replicate 5 0, by simp [displacement, careful, oneJoint, List.replicate],
      Or.inr ⟨true, (checkJointLimits_iff _ _).mpr (hlim 0 (by norm_num) (by norm_num)), Or.inl ⟨rfl,
      Or.inr ⟨true, (checkJointVelocities_iff _ _).mpr (hvel _ _ (by norm_num)), Or.inl ⟨rfl, ?_⟩⟩⟩⟩⟩
    unfold failFastLoop
    can_simp
    refine ⟨some [1], ?_⟩
    can_simp
    refine Or.inr ⟨(1 - 0) :: List.replicate 5 0, by simp [displacement, List.replicate],
      Or.inr ⟨true, (checkJointLimits_iff _ _).mpr (hlim 1 (by norm_num) (by norm_num)), Or.inl ⟨rfl,
      Or.inr ⟨true, (checkJointVelocities_iff _ _).mpr (hvel _ _ (by norm_num)), Or.inl ⟨rfl, ?_⟩⟩⟩⟩⟩
    unfold failFastLoop
    can_simp
    refine Or.inl ⟨trivial, can_setModes' [movlMode careful] rfl (by simp) ?_⟩
    can_simp
    refine Or.inl ⟨trivial, 0, by trivial, ⟨by simp, hlim 0 (by norm_num) (by norm_num), hvel _ _ (by norm_num)⟩,
      ⟨?_, hlim 1 (by norm_num) (by norm_num), hvel _ _ (by norm_num)⟩⟩
    rw [show (1 / 20 / 2 : ℝ) = 1 / 40 by norm_num]
    simp
  obtain ⟨tr, o, s', hr, rfl, h1, h2⟩ := can_run h
  refine ⟨_, tr, s', 0, 1, hr, h1, h2, ?_, fun h => ?_⟩
  · rw [show Ctl.period { ready with duration := 1 / 40 } = 1 / 20 from rfl]; norm_num
  · obtain ⟨v, lo, hi, h1, h2, h3, h4, -⟩ := h 0 (by simp [careful, oneJoint])
    simp only [careful, oneJoint, List.getElem?_cons_zero, Option.some.injEq] at h1 h2 h3
    subst h1 h2 h3
    norm_num at h4

/-- With more joints than six per end effector the look-ahead writes outside its buffer, as soon as the
solver answers. -/
theorem C41_redundant_robot_undefined {cfg : Cfg} (hn : 6 * cfg.numTcps < cfg.numJoints) {s : Ctl}
    (hts : s.trajectories ≠ []) (hp : 0 < s.period) {q sol : List ℝ} (hs : sol.length = cfg.numJoints) :
    Exec cfg (doFailFastChecks cfg q) s [Ev.invKin (posesAt s.trajectories 0) q .base (some sol)] .ub s := by
  have h0 : sampleTimes (s.period * (1 / 2)) (maxDuration s.trajectories) =
      0 :: (List.range ⌊maxDuration s.trajectories / (s.period * (1 / 2))⌋₊).map
        fun i : ℕ => ((i + 1 : ℕ) : ℝ) * (s.period * (1 / 2)) := by
    rw [sampleTimes, List.range_succ_eq_map]
    simp
  have hd : displacement sol q (List.replicate (cfg.numTcps * 6) 0) = none := by
    unfold displacement
    rw [if_neg]
    simp only [List.length_replicate, not_and, not_le]
    omega
  unfold doFailFastChecks
  refine .get ?_
  rw [Prog.pure_bind']
  rw [if_neg hts, if_neg (not_le.mpr hp), h0, failFastLoop]
  refine Run.call (env := robot cfg) (c := Call.invKin (posesAt s.trajectories 0) q .base)
    (r := (some sol : Option (List ℝ))) True.intro ?_
  show Run (robot cfg) (Prog.bind (Prog.lift (displacement sol q (List.replicate (cfg.numTcps * 6) 0))) _)
    s [] .ub s
  rw [hd]
  exact .ub _

end KD.Ctrl
