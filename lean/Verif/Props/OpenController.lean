import Verif.Ctrl.Open
import Verif.Props.KdlConfig
import Verif.Props.MemoryHistory

/-!
# C81: a controller that opens is the one of its configuration
-/

namespace KD.Ctrl

open KdlConfig (Val Group Config)
open Prog (can can_run can_mono can_bind)

/-! ## Specification -/

/-- The robot has all the interfaces that movements are commanded through. -/
def RobotDevice.Complete (r : RobotDevice) : Prop :=
  r.encoders = true ∧ r.positionControl = true ∧ r.positionDirect = true ∧ r.velocityControl = true ∧
    r.torqueControl = true ∧ r.controlMode = true

/-- The configuration leaves the limits to the robot: it does not have all three lists. -/
def LeavesLimits (c : Config) : Prop := c.top "mins" = none ∨ c.top "maxs" = none ∨ c.top "maxvels" = none

/-- A key with a number after it, or absent and then with a default value. -/
def HasNumber (c : Config) (key : String) (default v : ℝ) : Prop :=
  c.top key = some (.num v) ∨ (∃ n : ℤ, c.top key = some (.int n) ∧ v = n) ∨ c.top key = none ∧ v = default

/-- A key with a whole number after it, or absent and then with a default value. -/
def HasWhole (c : Config) (key : String) (default v : ℤ) : Prop :=
  c.top key = some (.int v) ∨ c.top key = none ∧ v = default

/-- A key with a text after it, or absent and then with a default text. -/
def HasText (c : Config) (key : String) (default v : String) : Prop :=
  c.top key = some (.str v) ∨ c.top key = none ∧ v = default

/-- The configured value of a parameter, with the documented defaults. -/
def Configured (c : Config) : Key → ℝ → Prop
  | .gain, v => HasNumber c "controllerGain" (5 / 100) v
  | .duration, v => HasNumber c "trajectoryDuration" 10 v
  | .cmcPeriod, v => ∃ n : ℤ, HasWhole c "cmcPeriodMs" 50 n ∧ v = n
  | .waitPeriod, v => ∃ n : ℤ, HasWhole c "waitPeriodMs" 30 n ∧ v = n
  | .frame, v => HasText c "referenceFrame" "base" "base" ∧ v = vocabBaseFrame ∨
      HasText c "referenceFrame" "base" "tcp" ∧ v = vocabTcpFrame
  | .streaming, v => v = vocabNotSet
  | .unknown, _ => False

/-- The limits that a robot reports for its joint `j`. -/
def RobotDevice.Reports (r : RobotDevice) (j : ℕ) (lo hi vlo vhi : ℝ) : Prop :=
  r.limits j = some (lo, hi) ∧ r.velLimits j = some (vlo, vhi)

/-- Options for a device: those of the controller, except for the name of the device and for the keys `changed`. -/
def OptionsFor (c : Config) (device : String) (changed : List String) (o : Config) : Prop :=
  o.group = c.group ∧ o.top "device" = some (.str device) ∧
    ∀ key, key ≠ "device" → key ∉ changed → o.top key = c.top key

/-! ## Lemmas -/

theorem check_number {c : Config} {key : String} {d v : ℝ} (h : HasNumber c key d v) :
    (c.top.check key (.num d)).asFloat = v := by
  rcases h with h | ⟨n, h, rfl⟩ | ⟨h, rfl⟩ <;> simp [Group.check, h, Val.asFloat]

theorem check_whole {c : Config} {key : String} {d v : ℤ} (h : HasWhole c key d v) :
    (c.top.check key (.int d)).asInt = v := by
  rcases h with h | ⟨h, rfl⟩ <;> simp [Group.check, h, Val.asInt]

theorem check_text {c : Config} {key d v : String} (h : HasText c key d v) :
    (c.top.check key (.str d)).asString = v := by
  rcases h with h | ⟨h, rfl⟩ <;> simp [Group.check, h, Val.asString]

theorem text_check {c : Config} {key d v : String} (h : (c.top.check key (.str d)).asString = v) (hv : v ≠ "") :
    HasText c key d v := by
  unfold Group.check at h
  cases hk : c.top key with
  | none => rw [hk] at h; exact Or.inr ⟨hk, h.symm⟩
  | some x =>
    rw [hk] at h
    cases x with
    | str s => left; rw [hk]; simpa [Val.asString] using h
    | _ => exact absurd h.symm (by simpa [Val.asString] using hv)

theorem readLimits_length {r : RobotDevice} (k j : ℕ) {ls} (h : readLimits r j k = some ls) : ls.length = k := by
  induction k generalizing j ls with
  | zero => simp [readLimits] at h; simp [h]
  | succ k ih =>
    simp only [readLimits, Option.bind_eq_bind, Option.bind_eq_some_iff] at h
    obtain ⟨_, -, _, -, rest, h1, h2⟩ := h
    rw [← Option.some.inj h2]
    simp [ih _ h1]

theorem readLimits_get {r : RobotDevice} (k j : ℕ) {ls} (h : readLimits r j k = some ls) (i : ℕ) (hi : i < k) :
    ∃ p v, ls[i]? = some (p, v) ∧ r.limits (j + i) = some p ∧ r.velLimits (j + i) = some v := by
  induction k generalizing j ls i with
  | zero => omega
  | succ k ih =>
    simp only [readLimits, Option.bind_eq_bind, Option.bind_eq_some_iff] at h
    obtain ⟨p, hp, v, hv, rest, h1, h2⟩ := h
    rw [← Option.some.inj h2]
    cases i with
    | zero => exact ⟨p, v, rfl, hp, hv⟩
    | succ i =>
      obtain ⟨p', v', e1, e2, e3⟩ := ih _ h1 i (by omega)
      exact ⟨p', v', by simpa using e1, by rw [← e2]; congr 1; omega, by rw [← e3]; congr 1; omega⟩

theorem readLimits_some {r : RobotDevice} (k j : ℕ) (h : ∀ i < k, (r.limits (j + i)).isSome ∧ (r.velLimits (j + i)).isSome) :
    ∃ ls, readLimits r j k = some ls := by
  induction k generalizing j with
  | zero => exact ⟨[], rfl⟩
  | succ k ih =>
    obtain ⟨rest, hr⟩ := ih (j + 1) fun i hi => by
      have := h (i + 1) (by omega)
      rw [show j + 1 + i = j + (i + 1) by omega]
      exact this
    obtain ⟨h1, h2⟩ := h 0 (by omega)
    obtain ⟨p, hp⟩ := Option.isSome_iff_exists.mp h1
    obtain ⟨v, hv⟩ := Option.isSome_iff_exists.mp h2
    exact ⟨(p, v) :: rest, by simp [readLimits, hr] at *; simp [hp, hv]⟩

/-- What the steps of opening were. -/
theorem open_steps {w : World} {c : Config} {cfg : Cfg} {s : Ctl} (h : openController w c = some (some (cfg, s))) :
    ∃ frame r n refs ls options tcps, ((c.top "enableFailFast").isSome → (c.top "usePosdMovl").isSome) ∧
      frameOption c = some frame ∧ w.robot (robotOptions c) = some r ∧ r.Complete ∧ r.axes = some n ∧
      r.refSpeeds n = some refs ∧ takeLimits r c n = some (ls, options) ∧ w.solver options = some (some (n, tcps)) ∧
      w.starts = true ∧ (cfg, s) = opened w c frame n tcps refs ls := by
  unfold openController at h
  by_cases hff : (c.top "enableFailFast").isSome ∧ ¬(c.top "usePosdMovl").isSome
  · rw [if_pos hff] at h; cases h
  rw [if_neg hff] at h
  cases hf : frameOption c with
  | none => rw [hf] at h; cases h
  | some frame =>
    rw [hf] at h
    dsimp only at h
    cases hr : openRobot w c with
    | none => rw [hr] at h; cases h
    | some r =>
      rw [hr] at h
      dsimp only at h
      cases ha : r.axes with
      | none => rw [ha] at h; cases h
      | some n =>
        rw [ha] at h
        dsimp only at h
        cases hs : r.refSpeeds n with
        | none => rw [hs] at h; cases h
        | some refs =>
          rw [hs] at h
          dsimp only at h
          cases hl : takeLimits r c n with
          | none => rw [hl] at h; cases h
          | some lo =>
            obtain ⟨ls, options⟩ := lo
            rw [hl] at h
            dsimp only at h
            rcases ho : w.solver options with _ | _ | ⟨joints, tcps⟩
            · rw [ho] at h; cases h
            · rw [ho] at h; cases h
            · rw [ho] at h
              dsimp only at h
              by_cases hj : joints = n ∧ w.starts = true
              · rw [if_pos hj] at h
                obtain ⟨rfl, hst⟩ := hj
                unfold openRobot at hr
                simp only [Option.bind_eq_bind, Option.bind_eq_some_iff] at hr
                obtain ⟨r', h1, h2⟩ := hr
                split at h2
                · rename_i hb
                  cases Option.some.inj h2
                  simp only [Bool.and_eq_true] at hb
                  obtain ⟨⟨⟨⟨⟨b1, b2⟩, b3⟩, b4⟩, b5⟩, b6⟩ := hb
                  refine ⟨frame, r, joints, refs, ls, options, tcps, fun e => ?_, rfl, h1, ⟨b1, b2, b3, b4, b5, b6⟩, ha, hs, hl, ho, hst,
                    (Option.some.inj (Option.some.inj h)).symm⟩
                  by_contra hn
                  exact hff ⟨e, hn⟩
                · cases h2
              · rw [if_neg hj] at h; cases h

theorem opened_of_steps {w : World} {c : Config} {frame r n refs ls options tcps}
    (h1 : (c.top "enableFailFast").isSome → (c.top "usePosdMovl").isSome)
    (h2 : frameOption c = some frame) (h3 : w.robot (robotOptions c) = some r) (h4 : r.Complete) (h5 : r.axes = some n)
    (h6 : r.refSpeeds n = some refs) (h7 : takeLimits r c n = some (ls, options))
    (h8 : w.solver options = some (some (n, tcps))) (h9 : w.starts = true) :
    openController w c = some (some (opened w c frame n tcps refs ls)) := by
  unfold openController
  rw [if_neg (fun h => h.2 (h1 h.1)), h2]
  have : openRobot w c = some r := by
    obtain ⟨b1, b2, b3, b4, b5, b6⟩ := h4
    simp [openRobot, h3, b1, b2, b3, b4, b5, b6]
  simp only [this, h5, h6, h7, h8, h9, and_self, if_true]

theorem takeLimits_robot {r : RobotDevice} {c : Config} {n : ℕ} {ls options} (hc : LeavesLimits c)
    (h : takeLimits r c n = some (ls, options)) :
    r.controlLimits = true ∧ readLimits r 0 n = some ls ∧ options = limitOptions (solverOptions c) ls := by
  unfold takeLimits at h
  rw [if_pos (by simpa [LeavesLimits] using hc)] at h
  split at h
  · rename_i hcl
    simp only [Option.bind_eq_bind, Option.bind_eq_some_iff] at h
    obtain ⟨l, hl, e⟩ := h
    obtain ⟨rfl, rfl⟩ := Prod.mk.inj (Option.some.inj e)
    exact ⟨hcl, hl, rfl⟩
  · cases h

theorem robotOptions_for (c : Config) {d : String} (hd : HasText c "robot" "remote_controlboard" d) :
    OptionsFor c d [] (robotOptions c) :=
  ⟨rfl, by simp [robotOptions, putOption, check_text hd], fun key h _ => by simp [robotOptions, putOption, h]⟩

theorem solverOptions_for (c : Config) {d : String} (hd : HasText c "solver" "KdlSolver" d) :
    OptionsFor c d [] (solverOptions c) :=
  ⟨rfl, by simp [solverOptions, putOption, check_text hd], fun key h _ => by simp [solverOptions, putOption, h]⟩

theorem limitOptions_for (c : Config) {d : String} (hd : HasText c "solver" "KdlSolver" d) (ls) :
    OptionsFor c d ["mins", "maxs", "maxvels"] (limitOptions (solverOptions c) ls) := by
  refine ⟨rfl, ?_, fun key h hk => ?_⟩
  · have := (solverOptions_for c hd).2.1
    simpa [limitOptions, putOption] using this
  · simp only [List.mem_cons, List.not_mem_nil, or_false, not_or] at hk
    simp [limitOptions, putOption, solverOptions, h, hk.1, hk.2.1, hk.2.2]

theorem frameOption_some {c : Config} {f : RefFrame} (h : frameOption c = some f) :
    f = .base ∧ HasText c "referenceFrame" "base" "base" ∨ f = .tcp ∧ HasText c "referenceFrame" "base" "tcp" := by
  unfold frameOption at h
  dsimp only at h
  by_cases h1 : (c.top.check "referenceFrame" (.str "base")).asString = "base"
  · rw [if_pos h1] at h
    exact Or.inl ⟨(Option.some.inj h).symm, text_check h1 (by decide)⟩
  · rw [if_neg h1] at h
    by_cases h2 : (c.top.check "referenceFrame" (.str "base")).asString = "tcp"
    · rw [if_pos h2] at h
      exact Or.inr ⟨(Option.some.inj h).symm, text_check h2 (by decide)⟩
    · rw [if_neg h2] at h; cases h

theorem frameOption_base {c : Config} (h : HasText c "referenceFrame" "base" "base") : frameOption c = some .base := by
  simp [frameOption, check_text h]

theorem frameOption_tcp {c : Config} (h : HasText c "referenceFrame" "base" "tcp") : frameOption c = some .tcp := by
  simp [frameOption, check_text h]

/-! ## Theorems -/

/-- C81: a controller that opens has a robot, opened with the options of the controller, with all the interfaces that
movements are commanded through, and a solver for as many joints; it knows the speeds of that robot, is not
controlling, and looks ahead only when linear movements are done with positions. -/
theorem C81_opened {w : World} {c : Config} {cfg : Cfg} {s : Ctl} (h : openController w c = some (some (cfg, s)))
    {dr ds : String} (hdr : HasText c "robot" "remote_controlboard" dr) (hds : HasText c "solver" "KdlSolver" ds) :
    ∃ r o1 o2, OptionsFor c dr [] o1 ∧ w.robot o1 = some r ∧ r.Complete ∧ r.axes = some cfg.numJoints ∧
      r.refSpeeds cfg.numJoints = some cfg.qRefSpeeds ∧ OptionsFor c ds ["mins", "maxs", "maxvels"] o2 ∧
      w.solver o2 = some (some (cfg.numJoints, cfg.numTcps)) ∧ w.starts = true ∧
      (cfg.enableFailFast = true → cfg.usePosdMovl = true) ∧ s.state = .notControlling ∧ s.streaming = vocabNotSet := by
  obtain ⟨frame, r, n, refs, ls, options, tcps, h1, h2, h3, h4, h5, h6, h7, h8, h9, h10⟩ := open_steps h
  obtain ⟨rfl, rfl⟩ := Prod.mk.inj h10
  refine ⟨r, robotOptions c, options, robotOptions_for c hdr, h3, h4, h5, h6, ?_, h8, h9, h1, rfl, rfl⟩
  by_cases hl : LeavesLimits c
  · obtain ⟨-, -, rfl⟩ := takeLimits_robot hl h7
    exact limitOptions_for c hds ls
  · unfold takeLimits at h7
    rw [if_neg (by simpa [LeavesLimits] using hl)] at h7
    obtain ⟨-, rfl⟩ := Prod.mk.inj (Option.some.inj h7)
    obtain ⟨a, b, d⟩ := solverOptions_for c hds
    exact ⟨a, b, fun key hk _ => d key hk (by simp)⟩

/-- C81: the parameters are those of the configuration, with the documented defaults for those that are not given. -/
theorem C81_parameters_partial {w : World} {c : Config} {cfg : Cfg} {s : Ctl} (h : openController w c = some (some (cfg, s)))
    {k : Key} {v : ℝ} (hv : Configured c k v) : Exec cfg (getParameter k) s [] (.ok (some v)) s := by
  obtain ⟨frame, r, n, refs, ls, options, tcps, -, h2, -, -, -, -, -, -, -, h10⟩ := open_steps h
  obtain ⟨rfl, rfl⟩ := Prod.mk.inj h10
  have key : param (opened w c frame n tcps refs ls).2 k = some v := by
    cases k with
    | gain => exact congrArg some (check_number hv)
    | duration => exact congrArg some (check_number hv)
    | cmcPeriod => obtain ⟨m, hm, rfl⟩ := hv; exact congrArg (fun i : ℤ => some (i : ℝ)) (check_whole hm)
    | waitPeriod => obtain ⟨m, hm, rfl⟩ := hv; exact congrArg (fun i : ℤ => some (i : ℝ)) (check_whole hm)
    | frame =>
      rcases hv with ⟨hv, rfl⟩ | ⟨hv, rfl⟩
      · rw [frameOption_base hv] at h2
        obtain rfl := Option.some.inj h2
        rfl
      · rw [frameOption_tcp hv] at h2
        obtain rfl := Option.some.inj h2
        rfl
    | streaming => exact congrArg some (by rw [show v = vocabNotSet from hv]; rfl)
    | unknown => exact hv.elim
  rw [← key]
  exact .get (.pure _ _)

/-- C81: unless the configuration has all three lists of limits, those that the controller checks against are the ones
of the robot, and the solver has been opened with the very same. -/
theorem C81_limits {w : World} {c : Config} {cfg : Cfg} {s : Ctl} (h : openController w c = some (some (cfg, s)))
    (hl : LeavesLimits c) {dr ds : String} (hdr : HasText c "robot" "remote_controlboard" dr)
    (hds : HasText c "solver" "KdlSolver" ds) :
    ∃ r o1 o2, OptionsFor c dr [] o1 ∧ w.robot o1 = some r ∧ OptionsFor c ds ["mins", "maxs", "maxvels"] o2 ∧
      w.solver o2 = some (some (cfg.numJoints, cfg.numTcps)) ∧
      cfg.qMin.length = cfg.numJoints ∧ cfg.qMax.length = cfg.numJoints ∧ cfg.qdotMin.length = cfg.numJoints ∧
      cfg.qdotMax.length = cfg.numJoints ∧
      (∀ j < cfg.numJoints, ∃ lo hi vlo vhi, r.Reports j lo hi vlo vhi ∧ cfg.qMin[j]? = some lo ∧ cfg.qMax[j]? = some hi ∧
        cfg.qdotMin[j]? = some vlo ∧ cfg.qdotMax[j]? = some vhi) ∧
      o2.top "mins" = some (.list cfg.qMin) ∧ o2.top "maxs" = some (.list cfg.qMax) ∧
      o2.top "maxvels" = some (.list cfg.qdotMax) := by
  obtain ⟨frame, r, n, refs, ls, options, tcps, h1, h2, h3, h4, h5, h6, h7, h8, h9, h10⟩ := open_steps h
  obtain ⟨rfl, rfl⟩ := Prod.mk.inj h10
  obtain ⟨-, hr, rfl⟩ := takeLimits_robot hl h7
  have hlen := readLimits_length _ _ hr
  refine ⟨r, robotOptions c, _, robotOptions_for c hdr, h3, limitOptions_for c hds ls, h8, by simpa [opened] using hlen,
    by simpa [opened] using hlen, by simpa [opened] using hlen, by simpa [opened] using hlen, fun j hj => ?_, ?_, ?_, ?_⟩
  · obtain ⟨p, v, e1, e2, e3⟩ := readLimits_get _ _ hr j hj
    rw [Nat.zero_add] at e2 e3
    exact ⟨p.1, p.2, v.1, v.2, ⟨e2, e3⟩, by simp [opened, e1], by simp [opened, e1], by simp [opened, e1], by simp [opened, e1]⟩
  · simp [limitOptions, putOption, opened]
  · simp [limitOptions, putOption, opened]
  · simp [limitOptions, putOption, opened]

/-- C81: a controller opens if look-ahead is asked for only together with positions, the frame is one of the two, the
robot and the solver open with the options they are given and have the same number of joints, and the robot reports
its speeds and limits. -/
theorem C81_opens {w : World} {c : Config} {r : RobotDevice} {n tcps : ℕ} {dr ds : String}
    (hff : c.top "enableFailFast" ≠ none → c.top "usePosdMovl" ≠ none)
    (hfr : HasText c "referenceFrame" "base" "base" ∨ HasText c "referenceFrame" "base" "tcp")
    (hdr : HasText c "robot" "remote_controlboard" dr) (hds : HasText c "solver" "KdlSolver" ds)
    (hr : ∀ o, OptionsFor c dr [] o → w.robot o = some r) (hc : r.Complete) (ha : r.axes = some n)
    (href : r.refSpeeds n ≠ none) (hl : LeavesLimits c) (hcl : r.controlLimits = true)
    (hlim : ∀ j < n, ∃ lo hi vlo vhi, r.Reports j lo hi vlo vhi)
    (hs : ∀ o mins maxs, OptionsFor c ds ["mins", "maxs", "maxvels"] o → o.top "mins" = some (.list mins) →
      o.top "maxs" = some (.list maxs) → mins.length = n → maxs.length = n →
      (∀ (j : ℕ) lo hi, mins[j]? = some lo → maxs[j]? = some hi → ∃ vlo vhi, r.Reports j lo hi vlo vhi) →
      w.solver o = some (some (n, tcps))) (hst : w.starts = true) :
    ∃ cfg s, openController w c = some (some (cfg, s)) ∧ cfg.numJoints = n ∧ cfg.numTcps = tcps := by
  obtain ⟨refs, href⟩ := Option.ne_none_iff_exists'.mp href
  obtain ⟨ls, hls⟩ := readLimits_some (r := r) n 0 fun i hi => by
    obtain ⟨lo, hi', vlo, vhi, e1, e2⟩ := hlim i hi
    rw [Nat.zero_add, e1, e2]
    simp
  have hlen := readLimits_length _ _ hls
  obtain ⟨frame, hf⟩ : ∃ f, frameOption c = some f := by
    rcases hfr with h | h
    exacts [⟨_, frameOption_base h⟩, ⟨_, frameOption_tcp h⟩]
  have ht : takeLimits r c n = some (ls, limitOptions (solverOptions c) ls) := by
    unfold takeLimits
    rw [if_pos (by simpa [LeavesLimits] using hl), if_pos hcl, hls]
    rfl
  refine ⟨_, _, opened_of_steps (fun h => ?_) hf (hr _ (robotOptions_for c hdr)) hc ha href ht
    (hs _ (ls.map (·.1.1)) (ls.map (·.1.2)) (limitOptions_for c hds ls) (by simp [limitOptions, putOption])
      (by simp [limitOptions, putOption]) (by simpa using hlen) (by simpa using hlen) fun j lo hi e1 e2 => ?_) hst, rfl, rfl⟩
  · exact Option.isSome_iff_ne_none.mpr (hff (Option.isSome_iff_ne_none.mp h))
  · have hj : j < n := by
      rw [← hlen]
      by_contra hlt
      simp [List.getElem?_eq_none (by omega : ls.length ≤ j)] at e1
    obtain ⟨p, v, f1, f2, f3⟩ := readLimits_get _ _ hls j hj
    simp only [List.getElem?_map, f1, Option.map_some, Option.some.injEq] at e1 e2
    subst e1 e2
    rw [Nat.zero_add] at f2 f3
    exact ⟨v.1, v.2, f2, f3⟩

/-- C81: what is refused. -/
theorem C81_rejected {w : World} {c : Config} (h : c.top "enableFailFast" ≠ none ∧ c.top "usePosdMovl" = none ∨
    (¬HasText c "referenceFrame" "base" "base" ∧ ¬HasText c "referenceFrame" "base" "tcp") ∨
    (∀ o, w.robot o = none) ∨ (∀ o r, w.robot o = some r → ¬r.Complete ∨ ∀ n, r.refSpeeds n = none) ∨
    (∀ o, w.solver o = some none) ∨
    (∀ o o' r n t, w.robot o = some r → w.solver o' = some (some (n, t)) → r.axes ≠ some n) ∨ w.starts = false) :
    ∀ cfg s, openController w c ≠ some (some (cfg, s)) := by
  intro cfg s ho
  obtain ⟨frame, r, n, refs, ls, options, tcps, h1, h2, h3, h4, h5, h6, h7, h8, h9, h10⟩ := open_steps ho
  rcases h with ⟨a, b⟩ | ⟨a, b⟩ | h | h | h | h | h
  · have := h1 (Option.isSome_iff_ne_none.mpr a)
    rw [b] at this
    cases this
  · rcases frameOption_some h2 with ⟨-, h⟩ | ⟨-, h⟩
    exacts [a h, b h]
  · rw [h] at h3; cases h3
  · rcases h _ _ h3 with h | h
    · exact h h4
    · rw [h] at h6; cases h6
  · rw [h] at h8; cases h8
  · exact h _ _ _ _ _ h3 h8 h5
  · rw [h] at h9; cases h9

/-- C81: with the solver of KDL, the limits that inverse kinematics keep to are those of the controller, in radians. -/
theorem C81_kdl_limits {w : World} {c : Config} {cfg : Cfg} {s : Ctl} {st : List Link → Bool} {wt : Bool}
    (hw : ∀ o x, w.solver o = some (some x) → ∃ k, KdlConfig.openSolver st wt o = some (some k) ∧
      x = ((KdlSolver.opened k.solver.chain).numJoints, 1))
    (h : openController w c = some (some (cfg, s))) (hl : LeavesLimits c) {dr ds : String}
    (hdr : HasText c "robot" "remote_controlboard" dr) (hds : HasText c "solver" "KdlSolver" ds) :
    ∃ o k, OptionsFor c ds ["mins", "maxs", "maxvels"] o ∧ KdlConfig.openSolver st wt o = some (some k) ∧
      cfg.numJoints = (KdlSolver.opened k.solver.chain).numJoints ∧ cfg.numTcps = 1 ∧
      (k.ikPos ≠ "lma" → k.limits = some (cfg.qMin.map (· * deg2rad), cfg.qMax.map (· * deg2rad)) ∧
        ∀ (j : ℕ) lo hi, cfg.qMin[j]? = some lo → cfg.qMax[j]? = some hi → lo ≤ hi) := by
  obtain ⟨r, o1, o2, -, -, ho, hsol, -, -, -, -, -, e1, e2, -⟩ := C81_limits h hl hdr hds
  obtain ⟨k, hk, e⟩ := hw _ _ hsol
  obtain ⟨en, et⟩ := Prod.mk.inj e
  refine ⟨o2, k, ho, hk, en, et, fun hne => ?_⟩
  obtain ⟨mins, maxs, f1, f2, f3, -, -, f4⟩ := KdlConfig.C75_limits hk hne
  have g1 : mins = cfg.qMin := by
    have := f1.symm.trans e1
    simpa using this
  have g2 : maxs = cfg.qMax := by
    have := f2.symm.trans e2
    simpa using this
  rw [← g1, ← g2]
  exact ⟨f3, f4⟩

/-- The controller after opening is as its own checks want it. -/
theorem opened_workable {w : World} {c : Config} {cfg : Cfg} {s0 : Ctl}
    (h : openController w c = some (some (cfg, s0))) (hl : LeavesLimits c)
    (hrefs : ∀ o r n l, w.robot o = some r → r.refSpeeds n = some l → l.length = n)
    (hroom : ∀ o r j lo hi, w.robot o = some r → r.limits j = some (lo, hi) → lo + 2 * tol ≤ hi)
    (hsix : cfg.enableFailFast = true → cfg.numJoints ≤ 6 * cfg.numTcps)
    {p : ℤ} (hp : HasWhole c "cmcPeriodMs" 50 p) (hp1 : 1 ≤ p) : Workable cfg ∧ Steady cfg s0 := by
  obtain ⟨frame, r, n, refs, ls, options, tcps, h1, h2, h3, h4, h5, h6, h7, h8, h9, h10⟩ := open_steps h
  obtain ⟨-, hr, rfl⟩ := takeLimits_robot hl h7
  have hlen := readLimits_length _ _ hr
  obtain ⟨rfl, rfl⟩ := Prod.mk.inj h10
  constructor
  · refine ⟨⟨by simpa [opened] using hlen, by simpa [opened] using hlen, by simpa [opened] using hlen,
      by simpa [opened] using hlen, fun j lo hi e1 e2 => ?_⟩, hrefs _ _ _ _ h3 h6, hsix⟩
    have hj : j < n := by
      rw [← hlen]
      by_contra hlt
      simp [List.getElem?_eq_none (by omega : ls.length ≤ j)] at e1
    obtain ⟨q, v, f1, f2, -⟩ := readLimits_get _ _ hr j hj
    simp only [List.getElem?_map, f1, Option.map_some, Option.some.injEq] at e1 e2
    subst e1 e2
    exact hroom _ _ _ _ _ h3 f2
  · have e : (c.top.check "cmcPeriodMs" (.int 50)).asInt = p := check_whole hp
    refine steady_initial ?_ ?_
    · rw [e]
      have : (1 : ℝ) ≤ p := by exact_mod_cast hp1
      positivity
    · rw [e]; omega

/-- C81: from opening on. With limits from a robot that has some room between them and a period of a millisecond at
least, histories of commands with vectors of the right sizes never leave the bounds of a vector, and every vector
handed over has the right size. -/
theorem C81_histories_partial {w : World} {c : Config} {cfg : Cfg} {s0 s s' : Ctl}
    (h : openController w c = some (some (cfg, s0))) (hl : LeavesLimits c)
    (hrefs : ∀ o r n l, w.robot o = some r → r.refSpeeds n = some l → l.length = n)
    (hroom : ∀ o r j lo hi, w.robot o = some r → r.limits j = some (lo, hi) → lo + 2 * tol ≤ hi)
    (hsix : cfg.enableFailFast = true → cfg.numJoints ≤ 6 * cfg.numTcps)
    {p : ℤ} (hp : HasWhole c "cmcPeriodMs" 50 p) (hp1 : 1 ≤ p) {ds : List Done}
    (hh : Hist cfg s0 ds s) (hf : ∀ d ∈ ds, d.op.Fits cfg)
    (ha : ∀ d ∈ ds, ∀ e ∈ d.calls, SizedCall cfg e → SizedAnswer cfg e)
    {op : Op} (hop : op.Fits cfg) {tr : List Ev} {o : Out (Option Bool)} (hx : Exec cfg (op.prog cfg) s tr o s')
    (ha' : ∀ e ∈ tr, SizedCall cfg e → SizedAnswer cfg e) :
    o ≠ .ub ∧ (∀ e ∈ tr, SizedCall cfg e) ∧ ∀ d ∈ ds, ∀ e ∈ d.calls, SizedCall cfg e := by
  obtain ⟨h1, h2⟩ := opened_workable h hl hrefs hroom hsix hp hp1
  exact C44_histories_defined_partial h1 h2 hh hf ha hop hx ha'

/-- The solver of KDL in its place. -/
def World.HasKdl (w : World) (st : List Link → Bool) (wt : Bool) : Prop :=
  ∀ o, w.solver o = (KdlConfig.openSolver st wt o).map fun r => r.map fun k => ((KdlSolver.opened k.solver.chain).numJoints, 1)

theorem robot_options {c o : Config} {d : String} (h : OptionsFor c d ["mins", "maxs", "maxvels"] o) {base tip : Frame}
    {descs : List KdlConfig.Desc} (hr : KdlConfig.Robot c base descs tip) : KdlConfig.Robot o base descs tip := by
  obtain ⟨h1, -, h2⟩ := h
  refine ⟨?_, ?_, fun i d hd => ?_, ?_⟩
  · rw [h2 _ (by decide) (by decide)]; exact hr.number
  · unfold KdlConfig.HoldsFrame
    rw [h2 _ (by decide) (by decide)]; exact hr.base
  · cases hr.links i d hd with
    | dh hg a b e f => exact .dh (by rw [h1]; exact hg) a b e f
    | turn hn hg ht a b e => exact .turn (by rw [h1]; exact hn) (by rw [h1]; exact hg) ht a b e
    | slide hn hg ht a b e => exact .slide (by rw [h1]; exact hn) (by rw [h1]; exact hg) ht a b e
  · unfold KdlConfig.HoldsFrame
    rw [h2 _ (by decide) (by decide)]; exact hr.tip

theorem numJoints_robot {st : List Link → Bool} {wt : Bool} {o : Config} {k : KdlConfig.Opened} {base tip : Frame}
    {descs : List KdlConfig.Desc} (hr : KdlConfig.Robot o base descs tip) (h : KdlConfig.openSolver st wt o = some (some k)) :
    (KdlSolver.opened k.solver.chain).numJoints = descs.length := by
  obtain ⟨ls, h1, -, h2⟩ := KdlConfig.robot_chain hr
  obtain ⟨g1, -⟩ := KdlConfig.open_inv h
  rw [h1] at g1
  have hl : k.solver.links = KdlConfig.fixedLink base :: ls ++ [KdlConfig.fixedLink tip] := (Option.some.inj g1).symm
  show Chain.nJoints (k.solver.links.map (·.seg)) = _
  rw [hl, KdlConfig.nJoints_between, KdlConfig.nJoints_links h2]

/-- C81: a configuration that describes an arm, and a robot with as many axes and with limits in order: the controller
opens with the solver of KDL. -/
theorem C81_kdl_opens {w : World} {st : List Link → Bool} {wt : Bool} (hw : w.HasKdl st wt) {c : Config} {r : RobotDevice}
    {dr ds : String} {base tip : Frame} {descs : List KdlConfig.Desc} (hrob : KdlConfig.Robot c base descs tip)
    (hff : c.top "enableFailFast" ≠ none → c.top "usePosdMovl" ≠ none)
    (hfr : HasText c "referenceFrame" "base" "base" ∨ HasText c "referenceFrame" "base" "tcp")
    (hdr : HasText c "robot" "remote_controlboard" dr) (hds : HasText c "solver" "KdlSolver" ds)
    (hr : ∀ o, OptionsFor c dr [] o → w.robot o = some r) (hc : r.Complete) (ha : r.axes = some descs.length)
    (href : r.refSpeeds descs.length ≠ none) (hl : LeavesLimits c) (hcl : r.controlLimits = true)
    (hlim : ∀ j < descs.length, ∃ lo hi vlo vhi, r.Reports j lo hi vlo vhi ∧ lo ≤ hi)
    (hg : c.top "gravity" = none) (hv : c.top "ikVel" = none) (hk : c.top "ik" = none) (hs : c.top "invKinStrategy" = none)
    (hm : c.top "ikPos" = some (.str "nrjl") ∨ c.top "ikPos" = some (.str "id") ∨ (c.top "ikPos" = none ∧ ∀ l, st l = true))
    (hst : w.starts = true) :
    ∃ cfg s, openController w c = some (some (cfg, s)) ∧ cfg.numJoints = descs.length ∧ cfg.numTcps = 1 := by
  refine C81_opens hff hfr hdr hds hr hc ha href hl hcl (fun j hj => ?_) (fun o mins maxs ho e1 e2 l1 l2 hrep => ?_) hst
  · obtain ⟨lo, hi, vlo, vhi, h, -⟩ := hlim j hj
    exact ⟨lo, hi, vlo, vhi, h⟩
  · have hro := robot_options ho hrob
    obtain ⟨-, -, same⟩ := ho
    obtain ⟨k, h1, -, -⟩ := KdlConfig.C75_opens (st := st) (w := wt) hro mins maxs e1 e2 l1 l2 (fun j lo hi f1 f2 => by
        obtain ⟨vlo, vhi, g⟩ := hrep j lo hi f1 f2
        have hj : j < descs.length := by
          rw [← l1]
          by_contra hlt
          rw [List.getElem?_eq_none (by omega)] at f1
          cases f1
        obtain ⟨lo', hi', _, _, g', hle⟩ := hlim j hj
        have := Option.some.inj (g.1.symm.trans g'.1)
        obtain ⟨rfl, rfl⟩ := Prod.mk.inj this
        exact hle)
      (by rw [same _ (by decide) (by decide)]; exact hg) (by rw [same _ (by decide) (by decide)]; exact hv)
      (by rw [same _ (by decide) (by decide)]; exact hk) (by rw [same _ (by decide) (by decide)]; exact hs)
      (by rw [same _ (by decide) (by decide)]; exact hm.imp id (·.imp id fun h => ⟨h.1, fun l _ => h.2 l⟩))
    rw [hw, h1]
    simp [numJoints_robot hro h1]

theorem stat_encoders {cfg : Cfg} {s s' : Ctl} {q : List ℝ} {tr : List Ev} {o} (h : Exec cfg stat s (.getEncoders (some q) :: tr) o s') :
    q.length = cfg.numJoints := by
  have : Prog.wp (robot cfg) stat (fun _ _ tr => ∀ q t, tr = Ev.getEncoders (some q) :: t → q.length = cfg.numJoints) s [] := by
    unfold stat getCurrentState
    dev_simp
    simp +contextual
  exact Prog.wp_sound this h q tr rfl

theorem stat_run {cfg : Cfg} {s s' : Ctl} {q x : List ℝ} {o}
    (h : Exec cfg stat s [.getEncoders (some q), .fwdKin q (some x)] o s') : o = .ok (some (x, s.state)) := by
  have : Prog.wp (robot cfg) stat (fun o _ tr => ∀ q x, tr = [Ev.getEncoders (some q), Ev.fwdKin q (some x)] →
      o = .ok (some (x, s.state))) s [] := by
    unfold stat getCurrentState
    dev_simp
    simp +contextual
  exact Prog.wp_sound this h q x rfl

/-- C81: what the opened controller reports of the arm is where the arm of the configuration is: the base frame, each
link in its turn, the frame at the end. For joints that turn, see `C75_slide_counterexample`. -/
theorem C81_stat_partial {w : World} {st : List Link → Bool} {wt : Bool} (hw : w.HasKdl st wt) {c : Config} {cfg : Cfg} {s s' : Ctl}
    (h : openController w c = some (some (cfg, s))) {ds : String} (hds : HasText c "solver" "KdlSolver" ds)
    {base tip : Frame} {descs : List KdlConfig.Desc} (hrob : KdlConfig.Robot c base descs tip) (ht : ∀ d ∈ descs, d.Turns) :
    ∃ o k, OptionsFor c ds ["mins", "maxs", "maxvels"] o ∧ KdlConfig.openSolver st wt o = some (some k) ∧
      ∀ (q : List ℝ) (a : Option (List ℝ × CState)),
      Exec cfg stat s [.getEncoders (some q), .fwdKin q ((KdlSolver.opened k.solver.chain).fwdKin q)] (.ok a) s' →
      q.length = descs.length ∧ a = some (KdlVectorConverter.frameToVector
        (base * (List.zipWith (fun d x => d.place x) descs q).prod * tip), .notControlling) := by
  obtain ⟨frame, r, n, refs, ls, options, tcps, h1, h2, h3, h4, h5, h6, h7, h8, h9, h10⟩ := open_steps h
  obtain ⟨rfl, rfl⟩ := Prod.mk.inj h10
  have ho : OptionsFor c ds ["mins", "maxs", "maxvels"] options := by
    by_cases hl : LeavesLimits c
    · obtain ⟨-, -, rfl⟩ := takeLimits_robot hl h7
      exact limitOptions_for c hds ls
    · unfold takeLimits at h7
      rw [if_neg (by simpa [LeavesLimits] using hl)] at h7
      obtain ⟨-, rfl⟩ := Prod.mk.inj (Option.some.inj h7)
      obtain ⟨a, b, d⟩ := solverOptions_for c hds
      exact ⟨a, b, fun key hk _ => d key hk (by simp)⟩
  rw [hw] at h8
  obtain ⟨x, hx, e⟩ := Option.map_eq_some_iff.mp h8
  obtain ⟨k, rfl, e⟩ := Option.map_eq_some_iff.mp e
  have hro := robot_options ho hrob
  have hn : n = descs.length := by
    rw [← numJoints_robot hro hx]
    exact (Prod.mk.inj (Option.some.inj e)).1.symm
  refine ⟨options, k, ho, hx, fun q a hr => ?_⟩
  have hq : q.length = n := (stat_encoders hr)
  obtain ⟨-, hfk⟩ := KdlConfig.C75_forward_kinematics_partial hro ht hx q (hq.trans hn)
  rw [hfk] at hr
  refine ⟨hq.trans hn, ?_⟩
  injection stat_run hr

/-! ## Where it fails -/

/-- A configuration with all three lists of limits leaves the controller without any: as soon as a movement is in
progress, a cycle that reads the encoders reads outside of its vectors. -/
theorem C81_user_limits_undefined {w : World} {c : Config} {cfg : Cfg} {s0 : Ctl}
    (h : openController w c = some (some (cfg, s0))) (hl : ¬LeavesLimits c) (hn : 0 < cfg.numJoints)
    {s : Ctl} (hs : s.state ≠ .notControlling) {q v a : List ℝ} (hq : q.length = cfg.numJoints)
    (hv : v.length = cfg.numJoints) (ha : a.length = cfg.numJoints) :
    ∃ s', Exec cfg (run cfg) s [.getEncoders (some q), .getEncoderSpeeds (some v), .getEncoderAccelerations (some a)] .ub s' := by
  obtain ⟨frame, r, n, refs, ls, options, tcps, h1, h2, h3, h4, h5, h6, h7, h8, h9, h10⟩ := open_steps h
  have hls : ls = [] := by
    unfold takeLimits at h7
    rw [if_neg (by simpa [LeavesLimits] using hl)] at h7
    exact (Prod.mk.inj (Option.some.inj h7)).1.symm
  have hcheck : checkJointLimits cfg q = none := by
    refine (C40_user_limits_undefined [] [] [] [] hn ?_ q q).1
    rw [show cfg = (opened w c frame n tcps refs ls).1 from (Prod.mk.inj h10).1, hls]
    rfl
  have : can (robot cfg) (run cfg) (fun o _ tr => o = .ub ∧ tr = [.getEncoders (some q), .getEncoderSpeeds (some v),
      .getEncoderAccelerations (some a)]) s [] := by
    unfold run getCurrentState runBody readEncoders
    can_simp
    refine Or.inr ⟨hs, some q, some_length hq, ?_⟩
    can_simp
    refine ⟨some v, some_length hv, ?_⟩
    can_simp
    refine ⟨some a, some_length ha, ?_⟩
    can_simp
    exact Or.inl ⟨hcheck, by simp⟩
  obtain ⟨tr, o, s', hr, rfl, rfl⟩ := can_run this
  exact ⟨s', hr⟩

/-- A period of zero is accepted: the first cycle of a movement with velocities divides by it. -/
theorem C81_zero_period_undefined {w : World} {c : Config} {cfg : Cfg} {s0 : Ctl}
    (h : openController w c = some (some (cfg, s0))) (h0 : HasWhole c "cmcPeriodMs" 50 0)
    {q x d : List ℝ} (hq : q.length = cfg.numJoints) (hx : x.length = 6 * cfg.numTcps) (hin : InLimits cfg q)
    {xd : List ℝ} (hxd : xd.length = 6 * cfg.numTcps) (hd : d.length = 6 * cfg.numTcps) (hpos : 0 < cfg.numTcps) :
    ∃ t1 s t2 s', Hist cfg s0 [⟨.movv xd, t1, some true⟩] s ∧ Exec cfg (run cfg) s t2 .ub s' ∧
      ∀ e ∈ t2, SizedCall cfg e ∧ SizedAnswer cfg e := by
  obtain ⟨frame, r, n, refs, ls, options, tcps, -, -, -, -, -, -, -, -, -, h10⟩ := open_steps h
  have hms : s0.cmcPeriodMs = 0 := by
    rw [show s0 = (opened w c frame n tcps refs ls).2 from (Prod.mk.inj h10).2]
    exact check_whole h0
  obtain ⟨ts, ht, hts⟩ := rays_whole (cfg := cfg) cfg.numTcps hx hxd
  let mid : Ctl := { s0 with trajectories := ts, movementStartTime := 0, cmcSuccess := true, state := .movv,
                             streaming := vocabNotSet }
  have h1 : can (robot cfg) (Op.prog cfg (.movv xd)) (fun o s' _ => ∃ b, o = .ok b ∧ b = some true ∧ s' = mid) s0 [] := by
    show can (robot cfg) (Prog.bind (movv cfg xd) _) _ _ _
    unfold movv setCurrentState
    can_simp
    refine ⟨some q, some_length hq, ?_⟩
    can_simp
    refine ⟨some x, ?_⟩
    can_simp
    refine Or.inr ⟨ts, by rw [show xd.length / 6 = cfg.numTcps by omega]; exact ht,
      can_setModes' (List.replicate cfg.numJoints .velocity) (by simp) (by simp) ?_⟩
    can_simp
    exact Or.inl ⟨trivial, 0, some true, rfl, rfl, rfl⟩
  obtain ⟨t1, _, s1, e1, rfl, rfl⟩ := hist_one h1
  have hcheck := (checkJointLimits_iff cfg q).mpr hin
  have h2 : can (robot cfg) (run cfg) (fun o _ tr => o = .ub ∧ tr = [.getEncoders (some q), .getEncoderSpeeds (some q),
      .getEncoderAccelerations (some q), .getControlModes (some (List.replicate cfg.numJoints .velocity)), .now 0,
      .fwdKin q (some x), .poseDiff (posesAt ts (0 - 0)) x (true, d)]) mid [] := by
    unfold run getCurrentState runBody readEncoders
    can_simp
    refine Or.inr ⟨by simp [mid], some q, some_length hq, ?_⟩
    can_simp
    refine ⟨some q, some_length hq, ?_⟩
    can_simp
    refine ⟨some q, some_length hq, ?_⟩
    can_simp
    refine Or.inr ⟨true, hcheck, Or.inl ⟨rfl, ?_⟩⟩
    show can _ (Prog.bind (handleMovv cfg q) _) _ _ _
    unfold handleMovv
    can_simp
    refine can_checkModes (List.replicate cfg.numJoints .velocity) (by simp) ?_
    can_simp
    refine Or.inl ⟨by simp, 0, some x, ?_⟩
    unfold sendVelocity
    can_simp
    refine ⟨(true, d), Or.inl ⟨?_, ?_⟩⟩
    · have hne : d ≠ [] := by rintro rfl; simp at hd; omega
      simp [controlLaw, hne, mid, hms]
    · simp [mid]
  obtain ⟨t2, o, s2, hr, rfl, rfl⟩ := can_run h2
  refine ⟨t1, mid, _, s2, e1, hr, ?_⟩
  simp [SizedCall, SizedAnswer, hq, hx, hd, posesAt_length, hts]

/-- A robot of one joint. -/
def simRobot : RobotDevice where
  encoders := true
  positionControl := true
  positionDirect := true
  velocityControl := true
  torqueControl := true
  controlMode := true
  controlLimits := true
  axes := some 1
  refSpeeds := fun n => some (List.replicate n 2)
  limits := fun _ => some (-10, 10)
  velLimits := fun _ => some (-5, 5)

/-- That robot, and a solver for it. -/
noncomputable def simWorld : World where
  robot := fun _ => some simRobot
  solver := fun _ => some (some (1, 1))
  starts := true
  line := oneJoint.line
  ray := oneJoint.ray

/-- A configuration without groups. -/
def plain (l : List (String × Val)) : Config := ⟨KdlConfig.group l, fun _ => none⟩

theorem sim_opens {c : Config} (hff : c.top "enableFailFast" = none) (hfr : c.top "referenceFrame" = none)
    (hm : c.top "maxvels" = none) (hr : c.top "robot" = none) (hs : c.top "solver" = none) :
    ∃ cfg s, openController simWorld c = some (some (cfg, s)) ∧ cfg.numJoints = 1 ∧ cfg.numTcps = 1 :=
  C81_opens (r := simRobot) (fun h => absurd hff h) (Or.inl (Or.inr ⟨hfr, rfl⟩)) (Or.inr ⟨hr, rfl⟩) (Or.inr ⟨hs, rfl⟩)
    (fun _ _ => rfl) ⟨rfl, rfl, rfl, rfl, rfl, rfl⟩ rfl (by simp [simRobot]) (Or.inr (Or.inr hm)) rfl
    (fun _ _ => ⟨-10, 10, -5, 5, rfl, rfl⟩) (fun _ _ _ _ _ _ _ _ _ => rfl) rfl

/-- Limits that the user gives without those of the velocities are ignored, here stricter ones. -/
theorem C81_partial_limits_counterexample : ∃ cfg s,
    openController simWorld (plain [("mins", .list [-1]), ("maxs", .list [1])]) = some (some (cfg, s)) ∧
      cfg.qMin = [-10] ∧ cfg.qMax = [10] := by
  obtain ⟨cfg, s, h, -⟩ := sim_opens (c := plain [("mins", .list [-1]), ("maxs", .list [1])]) rfl rfl rfl rfl rfl
  refine ⟨cfg, s, h, ?_⟩
  obtain ⟨frame, r, n, refs, ls, options, tcps, -, -, h3, -, h5, -, h7, -, -, h10⟩ := open_steps h
  cases Option.some.inj h3
  cases Option.some.inj h5
  obtain ⟨-, hr, -⟩ := takeLimits_robot (Or.inr (Or.inr rfl)) h7
  cases Option.some.inj hr
  rw [show cfg = _ from (Prod.mk.inj h10).1]
  exact ⟨rfl, rfl⟩

/-- A flag that the user sets to false, or to zero, is taken as set. -/
theorem C81_flag_counterexample (v : Val) : ∃ cfg s,
    openController simWorld (plain [("usePosdMovl", v)]) = some (some (cfg, s)) ∧ cfg.usePosdMovl = true := by
  obtain ⟨cfg, s, h, -⟩ := sim_opens (c := plain [("usePosdMovl", v)]) rfl rfl rfl rfl rfl
  refine ⟨cfg, s, h, ?_⟩
  obtain ⟨frame, r, n, refs, ls, options, tcps, -, -, -, -, -, -, -, -, -, h10⟩ := open_steps h
  rw [show cfg = _ from (Prod.mk.inj h10).1]
  rfl

/-- Parameters that are refused when they are set are accepted by opening: negative gains and durations, and periods of
waiting that are not positive. -/
theorem C81_unchecked_parameters {g d : ℝ} {p : ℤ} (hg : g < 0) (hd : d ≤ 0) (hp : p ≤ 0) : ∃ c cfg s,
    openController simWorld c = some (some (cfg, s)) ∧
      (Exec cfg (getParameter .gain) s [] (.ok (some g)) s ∧ ∀ cfg' s' tr o s'', Exec cfg' (setParameter .gain g) s' tr o s'' → o = .ok false) ∧
      (Exec cfg (getParameter .duration) s [] (.ok (some d)) s ∧
        ∀ cfg' s' tr o s'', Exec cfg' (setParameter .duration d) s' tr o s'' → o = .ok false) ∧
      Exec cfg (getParameter .waitPeriod) s [] (.ok (some p)) s ∧
        ∀ cfg' s' tr o s'', Exec cfg' (setParameter .waitPeriod p) s' tr o s'' → o = .ok false := by
  let c := plain [("controllerGain", .num g), ("trajectoryDuration", .num d), ("waitPeriodMs", .int p)]
  obtain ⟨cfg, s, h, -⟩ := sim_opens (c := c) rfl rfl rfl rfl rfl
  have hp' : (p : ℝ) ≤ 0 := by exact_mod_cast hp
  refine ⟨c, cfg, s, h, ⟨C81_parameters_partial h (k := .gain) (Or.inl rfl), ?_⟩,
    ⟨C81_parameters_partial h (k := .duration) (Or.inl rfl), ?_⟩,
    C81_parameters_partial h (k := .waitPeriod) ⟨p, Or.inl rfl, rfl⟩, ?_⟩
  all_goals
    intro cfg' s' tr o s'' hx
    refine Prog.wp_sound (Q := fun o _ _ => o = .ok false) ?_ hx
    unfold setParameter getCurrentState
    simp only []
    dev_simp
    simp [hg, hd, hp']

/-- A parameter given as something that is not a number is taken as zero. -/
theorem C81_text_parameter_counterexample (t : String) : ∃ cfg s,
    openController simWorld (plain [("controllerGain", .str t)]) = some (some (cfg, s)) ∧
      Exec cfg (getParameter .gain) s [] (.ok (some 0)) s := by
  obtain ⟨cfg, s, h, -⟩ := sim_opens (c := plain [("controllerGain", .str t)]) rfl rfl rfl rfl rfl
  refine ⟨cfg, s, h, ?_⟩
  obtain ⟨frame, r, n, refs, ls, options, tcps, -, -, -, -, -, -, -, -, -, h10⟩ := open_steps h
  have : param s .gain = some 0 := by
    rw [show s = _ from (Prod.mk.inj h10).2]
    rfl
  rw [← this]
  exact .get (.pure _ _)

/-- A robot that does not tell its number of axes is not noticed: the number is used all the same. -/
theorem C81_axes_undefined {w : World} {c : Config} {r : RobotDevice} (hff : c.top "enableFailFast" = none)
    (hfr : c.top "referenceFrame" = none) (hr : ∀ o, w.robot o = some r) (hc : r.Complete) (ha : r.axes = none) :
    openController w c = none := by
  unfold openController
  rw [if_neg (by simp [hff]), frameOption_base (Or.inr ⟨hfr, rfl⟩)]
  have : openRobot w c = some r := by
    obtain ⟨b1, b2, b3, b4, b5, b6⟩ := hc
    simp [openRobot, hr, b1, b2, b3, b4, b5, b6]
  simp only [this, ha]

/-! ## The hypotheses are met -/

/-- A controller in the frame of the tool, with a period of 20 ms, with the limits of its robot; a history follows. -/
example : ∃ cfg s, openController simWorld (plain [("cmcPeriodMs", .int 20), ("waitPeriodMs", .int 40)]) = some (some (cfg, s)) ∧
    LeavesLimits (plain [("cmcPeriodMs", .int 20), ("waitPeriodMs", .int 40)]) ∧
    HasWhole (plain [("cmcPeriodMs", .int 20), ("waitPeriodMs", .int 40)]) "cmcPeriodMs" 50 20 ∧
    Configured (plain [("cmcPeriodMs", .int 20), ("waitPeriodMs", .int 40)]) .gain (5 / 100) ∧
    (∀ o r n l, simWorld.robot o = some r → r.refSpeeds n = some l → l.length = n) ∧
    (∀ o r j lo hi, simWorld.robot o = some r → r.limits j = some (lo, hi) → lo + 2 * tol ≤ hi) ∧
    (cfg.enableFailFast = true → cfg.numJoints ≤ 6 * cfg.numTcps) := by
  obtain ⟨cfg, s, h, h1, h2⟩ := sim_opens (c := plain [("cmcPeriodMs", .int 20), ("waitPeriodMs", .int 40)]) rfl rfl rfl rfl rfl
  refine ⟨cfg, s, h, Or.inl rfl, Or.inl rfl, Or.inr (Or.inr ⟨rfl, rfl⟩), fun o r n l hr hl => ?_, fun o r j lo hi hr hl => ?_,
    fun _ => by omega⟩
  · cases Option.some.inj hr
    cases Option.some.inj hl
    simp
  · cases Option.some.inj hr
    obtain ⟨rfl, rfl⟩ := Prod.mk.inj (Option.some.inj hl)
    norm_num [tol]

/-- A configuration with all three lists opens too. -/
example : ∃ cfg s, openController simWorld (plain [("mins", .list [-1]), ("maxs", .list [1]), ("maxvels", .list [3])]) =
    some (some (cfg, s)) ∧ 0 < cfg.numJoints ∧
    ¬LeavesLimits (plain [("mins", .list [-1]), ("maxs", .list [1]), ("maxvels", .list [3])]) :=
  ⟨_, _, opened_of_steps (r := simRobot) (n := 1) (fun h => by cases h) (frameOption_base (Or.inr ⟨rfl, rfl⟩)) rfl
    ⟨rfl, rfl, rfl, rfl, rfl, rfl⟩ rfl rfl rfl rfl rfl, Nat.one_pos, by rintro (h | h | h) <;> cases h⟩

/-- A robot of two joints with the solver of KDL, for the arm with two links in a plane. -/
noncomputable def planarWorld : World where
  robot := fun _ => some { simRobot with axes := some 2 }
  solver := fun o => (KdlConfig.openSolver (fun _ => true) true o).map fun r => r.map fun k =>
    ((KdlSolver.opened k.solver.chain).numJoints, 1)
  starts := true
  line := oneJoint.line
  ray := oneJoint.ray

example : planarWorld.HasKdl (fun _ => true) true ∧ LeavesLimits KdlConfig.planar ∧
    KdlConfig.Robot KdlConfig.planar 1 [.dh 0 0 1 0, .dh 90 0 2 0] 1 ∧
    ∃ cfg s, openController planarWorld KdlConfig.planar = some (some (cfg, s)) ∧ cfg.numJoints = 2 ∧ cfg.numTcps = 1 :=
  ⟨fun _ => rfl, Or.inr (Or.inr rfl), KdlConfig.planar_robot,
    C81_kdl_opens (w := planarWorld) (st := fun _ => true) (wt := true) (c := KdlConfig.planar)
      (r := { simRobot with axes := some 2 }) (dr := "remote_controlboard") (ds := "KdlSolver") (fun _ => rfl) KdlConfig.planar_robot
      (fun h => absurd rfl h) (Or.inl (Or.inr ⟨rfl, rfl⟩)) (Or.inr ⟨rfl, rfl⟩) (Or.inr ⟨rfl, rfl⟩) (fun _ _ => rfl)
      ⟨rfl, rfl, rfl, rfl, rfl, rfl⟩ rfl (by simp [simRobot]) (Or.inr (Or.inr rfl)) rfl
      (fun _ _ => ⟨-10, 10, -5, 5, ⟨rfl, rfl⟩, by norm_num⟩) rfl rfl rfl rfl (Or.inl rfl) rfl⟩

end KD.Ctrl
