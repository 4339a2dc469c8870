import Verif.Props.Memory

/-!
# C44: histories of commands and cycles
-/

namespace KD.Ctrl

open scoped Classical
open Prog (can can_run can_mono can_bind)

/-- What a controller needs for its next commands and cycles: a period that is not null, and for a movement in
progress the vectors of the right sizes. -/
structure Steady (cfg : Cfg) (s : Ctl) : Prop where
  period : 0 < s.period
  ms : s.cmcPeriodMs ≠ 0
  trajectories : s.state = .movl ∨ s.state = .movv → s.trajectories.length = cfg.numTcps
  speeds : s.state = .movj → s.vmoStored.length = cfg.numJoints
  force : s.state = .forc → s.fd.length = 6 * cfg.numTcps

/-- Numbers that a parameter can be set to: periods of the loop of one millisecond at least, and what is stored as an
integer fits. -/
def Storable : Key → ℝ → Prop
  | .cmcPeriod, v => 1 ≤ v ∧ v ≤ 2147483647
  | .waitPeriod, v => v ≤ 2147483647
  | .streaming, v => -2147483648 ≤ v ∧ v ≤ 2147483647
  | _, _ => True

/-- Commands with vectors of six elements for each end effector and storable parameters; cycles. -/
def Op.Fits (cfg : Cfg) : Op → Prop
  | .inv x => x.length = 6 * cfg.numTcps
  | .movj x => x.length = 6 * cfg.numTcps
  | .relj x => x.length = 6 * cfg.numTcps
  | .movl x => x.length = 6 * cfg.numTcps
  | .movv x => x.length = 6 * cfg.numTcps
  | .forc x => x.length = 6 * cfg.numTcps
  | .tool x => x.length = 6
  | .pose x => x.length = 6 * cfg.numTcps
  | .twist x => x.length = 6 * cfg.numTcps
  | .wrench x => x.length = 6 * cfg.numTcps
  | .setParameter k v => Storable k v
  | .setParameters ps => ∀ p ∈ ps, Storable p.1 p.2
  | _ => True

section

variable {cfg : Cfg}

theorem buffer_whole {l : List ℝ} (h : l.length = cfg.numJoints) : buffer cfg l = some l := by
  unfold buffer
  rw [if_neg (by omega), List.take_of_length_le h.le]

theorem limits_some (hc : Workable cfg) {q : List ℝ} (h : q.length = cfg.numJoints) :
    ∃ b, checkJointLimits cfg q = some b :=
  Option.isSome_iff_exists.mp (C40_checks_defined_partial hc.limits (q := q) (v := q) h.ge h.ge).1

theorem away_some (hc : Workable cfg) {q v : List ℝ} (h : q.length = cfg.numJoints) (h' : v.length = cfg.numJoints) :
    ∃ b, checkJointLimitsDir cfg q v = some b :=
  Option.isSome_iff_exists.mp (C40_checks_defined_partial hc.limits (q := q) (v := v) h.ge h'.ge).2.1

theorem velocities_some (hc : Workable cfg) {v : List ℝ} (h : cfg.numJoints ≤ v.length) :
    ∃ b, checkJointVelocities cfg v = some b :=
  Option.isSome_iff_exists.mp (C40_checks_defined_partial hc.limits (q := v) (v := v) h h).2.2

theorem toInt_whole {v : ℝ} (h1 : -2147483648 ≤ v) (h2 : v ≤ 2147483647) : ∃ i, toInt v = some i ∧ (1 ≤ v → i ≠ 0) := by
  unfold toInt
  by_cases h : 0 ≤ v
  · simp only [if_pos h]
    have h3 : ⌊v⌋ ≤ 2147483647 := by
      have : (⌊v⌋ : ℝ) ≤ 2147483647 := (Int.floor_le v).trans h2
      exact_mod_cast this
    have h4 : 0 ≤ ⌊v⌋ := Int.floor_nonneg.mpr h
    refine ⟨⌊v⌋, by rw [if_pos ⟨by omega, h3⟩], fun h1 => ?_⟩
    have : 1 ≤ ⌊v⌋ := Int.le_floor.mpr (by simpa using h1)
    omega
  · simp only [if_neg h]
    have h3 : -2147483648 ≤ ⌈v⌉ := by
      have : (-2147483648 : ℝ) ≤ ⌈v⌉ := h1.trans (Int.le_ceil v)
      exact_mod_cast this
    have h4 : ⌈v⌉ ≤ 0 := Int.ceil_le.mpr (by push_cast; linarith)
    exact ⟨⌈v⌉, by rw [if_pos ⟨h3, by omega⟩], fun h1 => absurd (by linarith) h⟩

theorem isoDeltas_length {q qd : List ℝ} : ∀ (k j : ℕ) (m : ℝ) {ds : List ℝ} {m' : ℝ},
    isoDeltas cfg q qd j k m = some (ds, m') → ds.length = k := by
  intro k
  induction k with
  | zero => intro j m ds m' h; simp [isoDeltas] at h; simp [← h.1]
  | succ k ih =>
    intro j m ds m' h
    unfold isoDeltas at h
    simp only [Option.bind_eq_bind, Option.bind_eq_some_iff] at h
    obtain ⟨ref, -, h⟩ := h
    split at h
    · simp only [Option.bind_eq_some_iff, Option.some.injEq, Prod.mk.injEq] at h
      obtain ⟨⟨ds', m''⟩, h1, rfl, -⟩ := h
      simp [ih _ _ h1]
    · simp only [Option.bind_eq_some_iff, Option.some.injEq, Prod.mk.injEq] at h
      obtain ⟨_, -, _, -, ⟨ds', m''⟩, h1, rfl, -⟩ := h
      simp [ih _ _ h1]

theorem iso_some (hc : Workable cfg) {q qd : List ℝ} (h1 : q.length = cfg.numJoints) (h2 : qd.length = cfg.numJoints) :
    ∃ v, computeIsocronousSpeeds cfg q qd = some v ∧ v.1.length = cfg.numJoints := by
  obtain ⟨v, hv⟩ := Option.ne_none_iff_exists'.mp (iso_defined h1.ge h2.ge hc.speeds)
  refine ⟨v, hv, ?_⟩
  unfold computeIsocronousSpeeds at hv
  simp only [Option.bind_eq_bind, Option.bind_eq_some_iff] at hv
  obtain ⟨⟨ds, m⟩, e, hv⟩ := hv
  split at hv <;> rw [← Option.some.inj hv] <;> simp [isoDeltas_length _ _ _ e]

theorem addPrefix_some {x d : List ℝ} (h : d.length = x.length) : ∃ y, addPrefix x d = some y ∧ y.length = x.length := by
  induction d generalizing x with
  | nil => exact ⟨x, by unfold addPrefix; rfl, rfl⟩
  | cons a d ih =>
    rcases x with _ | ⟨b, x⟩
    · simp at h
    · obtain ⟨y, h1, h2⟩ := ih (x := x) (by simpa using h)
      exact ⟨(b + a) :: y, by simp [addPrefix, h1], by simp [h2]⟩

theorem lines_count {d : ℝ} {a b : List ℝ} (k i : ℕ) {ts : List Traj} (h : lineTrajs cfg d a b i k = some ts) :
    ts.length = k := by
  induction k generalizing i ts with
  | zero => simp [lineTrajs] at h; simp [h]
  | succ k ih =>
    simp only [lineTrajs, Option.bind_eq_bind, Option.bind_eq_some_iff] at h
    obtain ⟨_, -, _, -, rest, h1, h2⟩ := h
    rw [← Option.some.inj h2]
    simp [ih _ h1]

theorem rays_count {a b : List ℝ} (k i : ℕ) {ts : List Traj} (h : rayTrajs cfg a b i k = some ts) :
    ts.length = k := by
  induction k generalizing i ts with
  | zero => simp [rayTrajs] at h; simp [h]
  | succ k ih =>
    simp only [rayTrajs, Option.bind_eq_bind, Option.bind_eq_some_iff] at h
    obtain ⟨_, -, _, -, rest, h1, h2⟩ := h
    rw [← Option.some.inj h2]
    simp [ih _ h1]

theorem lines_whole {d : ℝ} {a b : List ℝ} (n : ℕ) (h1 : a.length = 6 * n) (h2 : b.length = 6 * n) :
    ∃ ts, lineTrajs cfg d a b 0 n = some ts ∧ ts.length = n := by
  obtain ⟨ts, h⟩ := Option.ne_none_iff_exists'.mp (lineTrajs_defined (cfg := cfg) (d := d) n 0 (by omega : (0 + n) * 6 ≤ a.length)
    (by omega : (0 + n) * 6 ≤ b.length))
  exact ⟨ts, h, lines_count _ _ h⟩

theorem rays_whole {a b : List ℝ} (n : ℕ) (h1 : a.length = 6 * n) (h2 : b.length = 6 * n) :
    ∃ ts, rayTrajs cfg a b 0 n = some ts ∧ ts.length = n := by
  obtain ⟨ts, h⟩ := Option.ne_none_iff_exists'.mp (rayTrajs_defined (cfg := cfg) n 0 (by omega : (0 + n) * 6 ≤ a.length)
    (by omega : (0 + n) * 6 ≤ b.length))
  exact ⟨ts, h, rays_count _ _ h⟩

theorem posesAt_length (ts : List Traj) (t : ℝ) : (posesAt ts t).length = 6 * ts.length := by
  induction ts with
  | nil => rfl
  | cons a ts ih =>
    simp only [posesAt, List.flatMap_cons, List.length_append, List.length_cons] at ih ⊢
    rw [ih]
    simp [KdlVectorConverter.frameToVector]
    omega

theorem twistsAt_length (ts : List Traj) (t : ℝ) : (twistsAt ts t).length = 6 * ts.length := by
  induction ts with
  | nil => rfl
  | cons a ts ih =>
    simp only [twistsAt, List.flatMap_cons, List.length_append, List.length_cons] at ih ⊢
    rw [ih]
    simp [KdlVectorConverter.twistToVector]
    omega

theorem controlLaw_whole {g : ℝ} {ms : ℤ} {d v : List ℝ} (h : ms ≠ 0) (hl : d.length = v.length) :
    ∃ x, controlLaw g ms d v = some x ∧ x.length = d.length := by
  unfold controlLaw
  split
  · rename_i hd; exact ⟨[], rfl, by simp [hd]⟩
  · exact ⟨_, by rw [if_neg (by push Not; exact ⟨h, hl.le⟩)], by simp [hl]⟩

variable {α : Type} {Q : α → Ctl → Prop} {s : Ctl}

theorem good_check {mode : Mode} {k : Bool → P α} (h : ∀ b, Good cfg (k b) Q s) :
    Good cfg (Prog.bind (checkControlModes mode) k) Q s := by
  unfold checkControlModes
  good_simp
  exact ⟨h _, fun l _ => h _⟩

theorem good_retry {mode : Mode} {k : Bool → P α} (h : ∀ b, Good cfg (k b) Q s) (n : ℕ) :
    Good cfg (Prog.bind (retryModes mode n) k) Q s := by
  induction n with
  | zero => exact h false
  | succ n ih =>
    unfold retryModes
    good_simp
    refine fun _ => good_check fun b => ?_
    good_simp
    exact ⟨fun _ => h true, fun _ => ih⟩

theorem good_modes {mode : Mode} {k : Bool → P α} (h : ∀ b, Good cfg (k b) Q s) :
    Good cfg (Prog.bind (setControlModes mode) k) Q s := by
  unfold setControlModes
  good_simp
  exact ⟨h _, fun l _ => ⟨fun _ => good_retry h _, fun _ b => ⟨fun _ => good_retry h _, fun _ => h _⟩⟩⟩

theorem good_stopControl {k : Bool → P α} (h : Good cfg (k true) Q s.stopped) :
    Good cfg (Prog.bind stopControl k) Q s := by
  unfold stopControl setCurrentState
  good_simp
  refine good_modes fun b => ?_
  good_simp
  exact fun _ => h

/-- Ends steady. -/
abbrev Keeps (cfg : Cfg) (p : P α) (s : Ctl) : Prop := Good cfg p (fun _ s' => Steady cfg s') s

theorem keeps_movj (hc : Workable cfg) (hs : Steady cfg s) {xd : List ℝ} (hx : xd.length = 6 * cfg.numTcps) :
    Keeps cfg (movj cfg xd) s := by
  unfold Keeps movj setCurrentState
  good_simp
  refine ⟨hs, fun q hq => ⟨⟨hx, hq⟩, hs, fun qd hqd => ?_⟩⟩
  obtain ⟨v, hv, hvl⟩ := iso_some hc hq hqd
  refine ⟨v, hv, fun _ => ⟨⟨hs.period, hs.ms, hs.trajectories, fun h => ?_, hs.force⟩, fun refs hr => ⟨hvl, fun b => ⟨fun _ => ?_,
    fun _ => ⟨hs.period, hs.ms, hs.trajectories, fun h => hr, hs.force⟩⟩⟩⟩, fun _ => hs⟩
  · simp [resize]; have := hs.speeds h; omega
  · refine good_modes fun b => ?_
    good_simp
    refine ⟨fun _ => ⟨qd, buffer_whole hqd, hqd, fun b => ⟨fun _ => ?_, fun _ => ?_⟩⟩, fun _ => ?_⟩
    · exact ⟨hs.period, hs.ms, fun h => (by rcases h with h | h <;> cases h), fun _ => hr, fun h => (by cases h)⟩
    · exact ⟨hs.period, hs.ms, hs.trajectories, fun h => hr, hs.force⟩
    · exact ⟨hs.period, hs.ms, hs.trajectories, fun h => hr, hs.force⟩

theorem keeps_relj (hc : Workable cfg) (hs : Steady cfg s) {xd : List ℝ} (hx : xd.length = 6 * cfg.numTcps) :
    Keeps cfg (relj cfg xd) s := by
  unfold Keeps relj
  good_simp
  refine ⟨fun _ => keeps_movj hc hs hx, fun _ => ⟨hs, fun q hq => ⟨hq, hs, fun x hl => ?_⟩⟩⟩
  obtain ⟨y, hy, hyl⟩ := addPrefix_some (x := x) (d := xd) (by omega)
  exact ⟨y, hy, keeps_movj hc hs (by omega)⟩

theorem good_failFastLoop (hc : Workable cfg) (hff : cfg.enableFailFast = true) {ts : List Traj}
    (ht : ts.length = cfg.numTcps) {k : Bool → P α} (h : ∀ b, Good cfg (k b) Q s) (times oldQ qdot : List ℝ)
    (h1 : oldQ.length = cfg.numJoints) (h2 : qdot.length = cfg.numTcps * 6) :
    Good cfg (Prog.bind (failFastLoop cfg ts times oldQ qdot) k) Q s := by
  induction times generalizing oldQ qdot with
  | nil => exact h true
  | cons t times ih =>
    unfold failFastLoop
    good_simp
    have hj := hc.lookAhead hff
    refine ⟨⟨by rw [posesAt_length, ht], h1⟩, h _, fun newQ hn => ?_⟩
    obtain ⟨d, hd⟩ : ∃ d, displacement newQ oldQ qdot = some d := by
      unfold displacement
      rw [if_pos (by omega)]
      exact ⟨_, rfl⟩
    have hdl := displacement_length hd
    obtain ⟨b, hb⟩ := limits_some hc hn
    obtain ⟨b', hb'⟩ := velocities_some hc (v := d) (by omega)
    exact ⟨d, hd, b, hb, fun _ => ⟨b', hb', fun _ => ih _ _ hn (by omega), fun _ => h _⟩, fun _ => h _⟩

theorem keeps_movlStart (hc : Workable cfg) (hs : Steady cfg s) (ht : s.trajectories.length = cfg.numTcps) {q : List ℝ}
    (hq : q.length = cfg.numJoints) : Keeps cfg (movlStart cfg q) s := by
  unfold Keeps movlStart
  simp only [Prog.bind_eq]
  split
  · rename_i hff
    rw [good_bind]
    refine Good.mono (Q := fun _ s' => s' = s) ?_ ?_
    · rintro ok _ rfl
      unfold setCurrentState
      good_simp
      refine ⟨fun _ => good_modes fun b => ?_, fun _ => hs⟩
      good_simp
      exact ⟨fun _ _ => ⟨hs.period, hs.ms, fun _ => ht, fun h => (by cases h), fun h => (by cases h)⟩, fun _ => hs⟩
    · unfold doFailFastChecks
      good_simp
      refine ⟨fun _ => trivial, fun _ => ⟨fun h => absurd hs.period (not_lt.mpr h), fun _ => ?_⟩⟩
      rw [← Prog.bind_pure (failFastLoop ..)]
      exact good_failFastLoop (Q := fun _ s' => s' = s) (s := s) (k := Prog.pure) hc hff ht (fun b => Eq.refl s) _ _ _ hq (by simp)
  · unfold setCurrentState
    good_simp
    refine ⟨fun _ => good_modes fun b => ?_, fun h => absurd trivial h⟩
    good_simp
    exact ⟨fun _ _ => ⟨hs.period, hs.ms, fun _ => ht, fun h => (by cases h), fun h => (by cases h)⟩, fun _ => hs⟩

theorem keeps_movl (hc : Workable cfg) (hs : Steady cfg s) {xd : List ℝ} (hx : xd.length = 6 * cfg.numTcps) :
    Keeps cfg (movl cfg xd) s := by
  have hn : xd.length / 6 = cfg.numTcps := by omega
  unfold Keeps movl
  good_simp
  rw [hn]
  have key : ∀ (x y : List ℝ) (q : List ℝ), q.length = cfg.numJoints → x.length = 6 * cfg.numTcps → y.length = 6 * cfg.numTcps →
      ∃ ts, lineTrajs cfg s.duration x y 0 cfg.numTcps = some ts ∧
        Good cfg (movlStart cfg q) (fun _ s' => Steady cfg s') { s with trajectories := ts } := by
    intro x y q hq h1 h2
    obtain ⟨ts, ht, hl⟩ := lines_whole (cfg := cfg) (d := s.duration) _ h1 h2
    exact ⟨ts, ht, keeps_movlStart (s := { s with trajectories := ts }) hc ⟨hs.period, hs.ms, fun _ => hl, hs.speeds, hs.force⟩ hl hq⟩
  exact ⟨hs, fun q hq => ⟨hq, hs, fun x hxl => ⟨fun _ => ⟨⟨hx, hxl⟩, hs, fun y hy => key x y q hq hxl hy⟩,
    fun _ => key x xd q hq hxl hx⟩⟩⟩

theorem keeps_movv (hs : Steady cfg s) {xd : List ℝ} (hx : xd.length = 6 * cfg.numTcps) :
    Keeps cfg (movv cfg xd) s := by
  have hn : xd.length / 6 = cfg.numTcps := by omega
  unfold Keeps movv setCurrentState
  good_simp
  rw [hn]
  refine ⟨hs, fun q hq => ⟨hq, hs, fun x hxl => ?_⟩⟩
  obtain ⟨ts, ht, hl⟩ := rays_whole (cfg := cfg) _ hxl hx
  refine ⟨ts, ht, good_modes fun b => ?_⟩
  good_simp
  exact ⟨fun _ _ => ⟨hs.period, hs.ms, fun _ => hl, fun h => (by cases h), fun h => (by cases h)⟩,
    fun _ => ⟨hs.period, hs.ms, fun _ => hl, hs.speeds, hs.force⟩⟩

theorem Steady.stopped (hs : Steady cfg s) : Steady cfg s.stopped :=
  ⟨hs.period, hs.ms, fun h => (by rcases h with h | h <;> cases h), fun h => (by cases h), fun h => (by cases h)⟩

theorem keeps_waitLoop (t t0 : ℝ) (n : ℕ) (st : CState) (hs : Steady cfg s) : Keeps cfg (waitLoop t t0 n st) s := by
  induction n generalizing st with
  | zero => exact hs
  | succ n ih =>
    unfold Keeps waitLoop getCurrentState
    good_simp
    refine ⟨fun _ => hs, fun _ => ⟨fun _ b => ⟨fun _ => good_stopControl ?_, fun _ _ => ih _⟩, fun _ => ⟨fun h => (by cases h),
      fun _ _ => ih _⟩⟩⟩
    good_simp
    exact hs.stopped

theorem good_streaming {cmds : List ℤ} {mode : Mode} {k : Bool → P α} (h : ∀ b, Good cfg (k b) Q s) :
    Good cfg (Prog.bind (streamingReady cmds mode) k) Q s := by
  unfold streamingReady getCurrentState
  good_simp
  exact ⟨fun _ => h _, fun _ => ⟨fun _ => good_check h, fun _ => h _⟩⟩

theorem keeps_pose (hc : Workable cfg) (hs : Steady cfg s) {x : List ℝ} (hx : x.length = 6 * cfg.numTcps) :
    Keeps cfg (pose cfg x) s := by
  unfold Keeps pose
  refine good_streaming fun b => ?_
  good_simp
  refine ⟨fun _ => ⟨hs, fun q hq => ⟨⟨hx, hq⟩, hs, fun sol hl => ?_⟩⟩, fun _ => hs⟩
  obtain ⟨d, hd, hdl⟩ : ∃ d, jointDiff cfg sol q = some d ∧ d.length = cfg.numJoints :=
    ⟨List.zipWith (· - ·) (sol.take cfg.numJoints) (q.take cfg.numJoints),
      by simp only [jointDiff, hl, hq, lt_self_iff_false, or_self, if_false], by simp [hl, hq]⟩
  obtain ⟨b, hb⟩ := away_some hc hq hdl
  exact ⟨d, hd, b, hb, fun _ => ⟨sol, buffer_whole hl, hl, fun _ => hs⟩, fun _ => hs⟩

theorem keeps_twist (hc : Workable cfg) (hs : Steady cfg s) {x : List ℝ} (hx : x.length = 6 * cfg.numTcps) :
    Keeps cfg (twist cfg x) s := by
  unfold Keeps twist
  refine good_streaming fun b => ?_
  unfold twistBody
  good_simp
  have stop : (List.replicate cfg.numJoints (0 : ℝ)).length = cfg.numJoints ∧ (Bool → Steady cfg s) := ⟨by simp, fun _ => hs⟩
  refine ⟨fun _ => ⟨⟨fun h => (by cases h), fun _ => stop⟩, fun q hq => ⟨⟨hq, hx⟩, ⟨fun h => (by cases h), fun _ => stop⟩, fun v hv => ?_⟩⟩,
    fun _ => hs⟩
  obtain ⟨b, hb⟩ := away_some hc hq hv
  obtain ⟨b', hb'⟩ := velocities_some hc hv.ge
  exact ⟨b, hb, fun _ => ⟨b', hb', fun _ => ⟨v, buffer_whole hv, hv, fun _ => ⟨fun _ => hs, fun h => absurd trivial h⟩⟩,
    fun _ => ⟨fun h => (by cases h), fun _ => stop⟩⟩, fun _ => ⟨fun h => (by cases h), fun _ => stop⟩⟩

theorem keeps_wrench (hc : Workable cfg) (hs : Steady cfg s) {x : List ℝ} (hx : x.length = 6 * cfg.numTcps) :
    Keeps cfg (wrench cfg x) s := by
  unfold Keeps wrench
  refine good_streaming fun b => ?_
  unfold wrenchBody
  good_simp
  have stop : ((false = true → Steady cfg s) ∧ (¬false = true → (List.replicate cfg.numJoints (0 : ℝ)).length = cfg.numJoints ∧
    (Bool → Steady cfg s))) := ⟨fun h => (by cases h), fun _ => ⟨by simp, fun _ => hs⟩⟩
  refine ⟨fun _ => ⟨stop, fun q hq => ⟨stop, fun v hv => ⟨stop, fun a ha => ?_⟩⟩⟩, fun _ => hs⟩
  obtain ⟨b, hb⟩ := limits_some hc hq
  exact ⟨b, hb, fun _ => ⟨⟨hq, hv, ha, by simpa using hx⟩, stop, fun t ht => ⟨t, buffer_whole ht, ht, fun _ =>
    ⟨fun _ => hs, fun h => absurd trivial h⟩⟩⟩, fun _ => stop⟩

theorem keeps_setParameter (hs : Steady cfg s) {key : Key} {v : ℝ} (hv : Storable key v) :
    Keeps cfg (setParameter key v) s := by
  unfold Keeps setParameter getCurrentState
  have h : Steady cfg s.stopped := hs.stopped
  cases key <;> simp only [] <;> good_simp
  case gain => exact ⟨fun _ => hs, fun _ => ⟨fun _ => hs, fun _ => ⟨hs.period, hs.ms, hs.trajectories, hs.speeds, hs.force⟩⟩⟩
  case duration => exact ⟨fun _ => hs, fun _ => ⟨fun _ => hs, fun _ => ⟨hs.period, hs.ms, hs.trajectories, hs.speeds, hs.force⟩⟩⟩
  case cmcPeriod =>
    obtain ⟨h1, h2⟩ := hv
    obtain ⟨i, hi, hne⟩ := toInt_whole (by linarith) h2
    exact ⟨fun _ => hs, fun _ b => ⟨fun _ => ⟨i, hi, ⟨by dsimp only; linarith, hne h1, hs.trajectories, hs.speeds, hs.force⟩⟩,
      fun _ => hs⟩⟩
  case waitPeriod =>
    refine ⟨fun _ => hs, fun _ => ⟨fun _ => hs, fun h0 => ?_⟩⟩
    obtain ⟨i, hi, -⟩ := toInt_whole (v := v) (by linarith) hv
    exact ⟨i, hi, ⟨hs.period, hs.ms, hs.trajectories, hs.speeds, hs.force⟩⟩
  case frame => exact ⟨fun _ => hs, fun _ => ⟨fun _ => hs, fun _ => ⟨hs.period, hs.ms, hs.trajectories, hs.speeds, hs.force⟩⟩⟩
  case streaming =>
    refine ⟨fun _ => hs, fun _ => ?_⟩
    obtain ⟨i, hi, -⟩ := toInt_whole hv.1 hv.2
    refine ⟨i, hi, ?_⟩
    have idle : ∀ st : ℤ, Steady cfg { s with state := .notControlling, streaming := st } := fun st =>
      ⟨hs.period, hs.ms, fun h => (by rcases h with h | h <;> cases h), fun h => (by cases h), fun h => (by cases h)⟩
    have key : ∀ b : Bool, Good cfg (if b = true then (Prog.modify fun s => { s with streaming := i }).bind fun _ => Prog.pure true
        else Prog.pure false) (fun _ s' => Steady cfg s') { s with state := .notControlling, streaming := vocabNotSet } := by
      intro b
      good_simp
      exact ⟨fun _ => idle i, fun _ => idle vocabNotSet⟩
    unfold presetStreamingCommand setCurrentState
    good_simp
    refine ⟨fun _ => good_modes key, fun _ => ⟨fun _ => good_modes key, fun _ => ⟨fun _ => good_modes key, fun _ => ?_⟩⟩⟩
    exact ⟨fun h => (by cases h), fun _ => idle vocabNotSet⟩
  case unknown => exact ⟨fun _ => hs, fun _ => hs⟩

theorem keeps_setAll (ps : List (Key × ℝ)) (ok : Bool) (h : ∀ p ∈ ps, Storable p.1 p.2) (hs : Steady cfg s) :
    Keeps cfg (setAll ps ok) s := by
  induction ps generalizing ok s with
  | nil => exact hs
  | cons p ps ih =>
    obtain ⟨k, v⟩ := p
    unfold Keeps setAll
    simp only [Prog.bind_eq]
    rw [good_bind]
    exact (keeps_setParameter hs (h _ (List.mem_cons_self ..))).mono fun b s1 h1 =>
      ih _ (fun p hp => h p (List.mem_cons_of_mem _ hp)) h1

theorem keeps_runTail (hs : Steady cfg s) {p : P Bool} (h : Good cfg p (fun _ s' => Steady cfg s') s) :
    Keeps cfg (Prog.bind p fun b => if b = true then Prog.pure ()
      else (Prog.modify fun s => { s with cmcSuccess := false }).bind fun _ => Prog.bind stopControl fun _ => Prog.pure ()) s := by
  unfold Keeps
  rw [good_bind]
  refine h.mono fun b s1 h1 => ?_
  good_simp
  refine ⟨fun _ => h1, fun _ => good_stopControl ?_⟩
  exact ⟨h1.period, h1.ms, fun h => (by rcases h with h | h <;> cases h), fun h => (by cases h), fun h => (by cases h)⟩

theorem keeps_sendVelocity (hc : Workable cfg) (hs : Steady cfg s) {q x : List ℝ} {f : RefFrame} {t : ℝ}
    (hq : q.length = cfg.numJoints) (hx : x.length = 6 * cfg.numTcps) (ht : s.trajectories.length = cfg.numTcps) :
    Keeps cfg (sendVelocity cfg q x (posesAt s.trajectories t) (twistsAt s.trajectories t) f) s := by
  unfold Keeps sendVelocity
  good_simp
  refine ⟨⟨by rw [posesAt_length, ht], hx⟩, fun r hr => ?_⟩
  obtain ⟨y, hy, hyl⟩ := controlLaw_whole (g := s.gain) (d := r.2) (v := twistsAt s.trajectories t) hs.ms
    (by rw [twistsAt_length, ht, hr])
  refine ⟨y, hy, ⟨hq, hyl.trans hr⟩, hs, fun v hv => ?_⟩
  obtain ⟨b, hb⟩ := velocities_some hc hv.ge
  exact ⟨b, hb, fun _ => ⟨v, buffer_whole hv, hv, fun _ => hs⟩, fun _ => hs⟩

theorem keeps_dispatch (hc : Workable cfg) (hs : Steady cfg s) {q v a : List ℝ}
    (hq : q.length = cfg.numJoints) (hv : v.length = cfg.numJoints) (ha : a.length = cfg.numJoints) :
    Keeps cfg (dispatch cfg s.state q v a) s := by
  unfold Keeps dispatch
  cases hst : s.state <;> simp only []
  case movj =>
    unfold handleMovj setCurrentState
    refine good_check fun b => ?_
    good_simp
    refine ⟨fun _ => fun d => ?_, fun _ => hs⟩
    rcases d with _ | d
    · exact hs
    · good_simp
      refine ⟨fun _ => ⟨_, buffer_whole (hs.speeds hst), hs.speeds hst, fun _ => ?_⟩, fun _ => hs⟩
      exact ⟨hs.period, hs.ms, fun h => (by rcases h with h | h <;> cases h), fun h => (by cases h), fun h => (by cases h)⟩
  case movl =>
    have ht := hs.trajectories (.inl hst)
    split
    · unfold handleMovlPosd
      refine good_check fun b => ?_
      good_simp
      refine ⟨fun _ t => ⟨fun _ => good_stopControl ?_, fun _ => ⟨⟨by rw [posesAt_length, ht], hq⟩, hs, fun l hl =>
        ⟨l, buffer_whole hl, hl, fun _ => hs⟩⟩⟩, fun _ => hs⟩
      exact hs.stopped
    · unfold handleMovlVel
      refine good_check fun b => ?_
      good_simp
      refine ⟨fun _ t => ⟨fun _ => good_stopControl ?_, fun _ => ⟨hq, hs, fun x hx => keeps_sendVelocity hc hs hq hx ht⟩⟩,
        fun _ => hs⟩
      exact hs.stopped
  case movv =>
    have ht := hs.trajectories (.inr hst)
    unfold handleMovv
    refine good_check fun b => ?_
    good_simp
    exact ⟨fun _ t => ⟨hq, hs, fun x hx => keeps_sendVelocity hc hs hq hx ht⟩, fun _ => hs⟩
  case gcmp =>
    unfold handleGcmp
    refine good_check fun b => ?_
    good_simp
    exact ⟨fun _ => ⟨hq, hs, fun l hl => ⟨l, buffer_whole hl, hl, fun _ => hs⟩⟩, fun _ => hs⟩
  case forc =>
    unfold handleForc
    refine good_check fun b => ?_
    good_simp
    exact ⟨fun _ => ⟨⟨hq, hv, ha, hs.force hst⟩, hs, fun l hl => ⟨l, buffer_whole hl, hl, fun _ => hs⟩⟩, fun _ => hs⟩
  case notControlling => exact hs

theorem keeps_run (hc : Workable cfg) (hs : Steady cfg s) : Keeps cfg (run cfg) s := by
  unfold Keeps run getCurrentState
  simp only [Prog.bind_eq, Prog.read_bind, Prog.pure_eq, Prog.bind_assoc, Prog.pure_bind', Prog.get_bind]
  show Good cfg _ _ _
  good_simp
  refine ⟨fun _ => hs, fun _ => keeps_runTail hs ?_⟩
  unfold runBody readEncoders
  good_simp
  have hs' : ∀ n, Steady cfg { s with encoderErrors := n } := fun n =>
    ⟨hs.period, hs.ms, hs.trajectories, hs.speeds, hs.force⟩
  refine ⟨hs' _, fun q hq => ⟨hs' _, fun v hv => ⟨hs' _, fun a ha => ?_⟩⟩⟩
  obtain ⟨b, hb⟩ := limits_some hc hq
  exact ⟨b, hb, fun _ => keeps_dispatch (s := { s with encoderErrors := 0 }) hc (hs' 0) hq hv ha, fun _ => hs' 0⟩

/-- Every command and every cycle is defined, hands over vectors of the right sizes and leaves the controller ready for
the next one. -/
theorem keeps_op (hc : Workable cfg) (hs : Steady cfg s) {op : Op} (hf : op.Fits cfg) : Keeps cfg (op.prog cfg) s := by
  have post : ∀ {γ : Type} {p : P γ} {f : γ → Option Bool}, Keeps cfg p s → Keeps cfg (p.bind fun b => .pure (f b)) s := by
    intro γ p f h
    exact good_bind.mpr (h.mono fun _ _ h => h)
  cases op with
  | stat =>
    refine post ?_
    unfold Keeps stat getCurrentState
    good_simp
    exact ⟨hs, fun q hq => ⟨hq, hs, fun _ _ => hs⟩⟩
  | inv x =>
    refine post ?_
    unfold Keeps inv
    good_simp
    refine ⟨hs, fun q hq => ?_⟩
    rw [← Prog.bind_pure (Dev.invKin ..)]
    good_simp
    exact ⟨⟨hf, hq⟩, hs, fun _ _ => hs⟩
  | movj x => exact post (keeps_movj hc hs hf)
  | relj x => exact post (keeps_relj hc hs hf)
  | movl x => exact post (keeps_movl hc hs hf)
  | movv x => exact post (keeps_movv hs hf)
  | gcmp =>
    refine post ?_
    unfold Keeps gcmp setCurrentState
    refine good_modes fun b => ?_
    good_simp
    exact ⟨fun _ => ⟨hs.period, hs.ms, fun h => (by rcases h with h | h <;> cases h), fun h => (by cases h),
      fun h => (by cases h)⟩, fun _ => hs⟩
  | forc x =>
    refine post ?_
    unfold Keeps forc setCurrentState
    have hf : x.length = 6 * cfg.numTcps := hf
    good_simp
    refine ⟨fun _ => hs, fun _ => good_modes fun b => ?_⟩
    good_simp
    exact ⟨fun _ => ⟨hs.period, hs.ms, fun h => (by rcases h with h | h <;> cases h), fun h => (by cases h),
      fun _ => by simpa using hf⟩, fun _ => ⟨hs.period, hs.ms, hs.trajectories, hs.speeds, fun _ => by simpa using hf⟩⟩
  | stopControl => exact good_stopControl hs.stopped
  | wait t n =>
    show Keeps cfg (wait t n) s
    unfold Keeps wait getCurrentState
    good_simp
    exact ⟨fun _ => hs, fun _ _ => keeps_waitLoop _ _ _ _ hs⟩
  | tool x =>
    refine post ?_
    unfold Keeps tool
    good_simp
    refine fun b => ⟨fun _ => ?_, fun _ => hs⟩
    rw [← Prog.bind_pure (Dev.appendLink ..)]
    good_simp
    exact ⟨hf, fun _ => hs⟩
  | pose x => exact post (keeps_pose hc hs hf)
  | twist x => exact post (keeps_twist hc hs hf)
  | wrench x => exact post (keeps_wrench hc hs hf)
  | setParameter k v => exact post (keeps_setParameter hs hf)
  | setParameters ps =>
    refine post ?_
    unfold Keeps setParameters getCurrentState
    good_simp
    exact ⟨fun _ => hs, fun _ => keeps_setAll _ _ hf hs⟩
  | getParameter k => exact hs
  | cycle => exact post (keeps_run hc hs)

end

theorem steady_hist {cfg : Cfg} (hc : Workable cfg) {s s' : Ctl} {ds : List Done} (h : Hist cfg s ds s') (hs : Steady cfg s)
    (hf : ∀ d ∈ ds, d.op.Fits cfg) (ha : ∀ d ∈ ds, ∀ e ∈ d.calls, SizedCall cfg e → SizedAnswer cfg e) :
    Steady cfg s' ∧ ∀ d ∈ ds, ∀ e ∈ d.calls, SizedCall cfg e := by
  induction h with
  | nil s => exact ⟨hs, by simp⟩
  | cons hx _ ih =>
    obtain ⟨⟨a, e, h1⟩, h2⟩ := Good.sound hx (keeps_op hc hs (hf _ (List.mem_cons_self ..))) (ha _ (List.mem_cons_self ..))
    obtain ⟨h3, h4⟩ := ih h1 (fun d hd => hf d (List.mem_cons_of_mem _ hd)) fun d hd => ha d (List.mem_cons_of_mem _ hd)
    refine ⟨h3, fun d hd => ?_⟩
    rcases List.mem_cons.mp hd with rfl | hd
    · exact fun e he => (h2 e he).1
    · exact h4 d hd

/-- C44 over histories: commands with six elements for each end effector, parameters that can be stored and cycles, in
any order and number, with any answers from the robot and answers from the solver that have the promised sizes when
asked with vectors of the right sizes. None of them leaves the bounds of a vector, not even cycles long after the
command that filled it, and every vector handed over to the robot or to the solver has the right size. -/
theorem C44_histories_defined_partial {cfg : Cfg} (hc : Workable cfg) {s s' s'' : Ctl} (hs : Steady cfg s) {ds : List Done}
    (h : Hist cfg s ds s') (hf : ∀ d ∈ ds, d.op.Fits cfg)
    (ha : ∀ d ∈ ds, ∀ e ∈ d.calls, SizedCall cfg e → SizedAnswer cfg e)
    {op : Op} (hop : op.Fits cfg) {tr : List Ev} {o : Out (Option Bool)} (hx : Exec cfg (op.prog cfg) s' tr o s'')
    (ha' : ∀ e ∈ tr, SizedCall cfg e → SizedAnswer cfg e) :
    o ≠ .ub ∧ (∀ e ∈ tr, SizedCall cfg e) ∧ ∀ d ∈ ds, ∀ e ∈ d.calls, SizedCall cfg e := by
  obtain ⟨h1, h2⟩ := steady_hist hc h hs hf ha
  obtain ⟨⟨a, rfl, -⟩, h4⟩ := Good.sound hx (keeps_op hc h1 hop) ha'
  exact ⟨(by simp), fun e he => (h4 e he).1, h2⟩

/-- The state after opening is steady. -/
theorem steady_initial {cfg : Cfg} {f : RefFrame} {g d p : ℝ} {c w : ℤ} (hp : 0 < p) (hcp : c ≠ 0) :
    Steady cfg (Ctl.initial f g d c w p) :=
  ⟨hp, hcp, fun h => (by rcases h with h | h <;> cases h), fun h => (by cases h), fun h => (by cases h)⟩

/-- A force of any size is accepted, and the next cycle hands it over to the solver. -/
theorem C44_force_of_any_size {cfg : Cfg} {s : Ctl} (hf : s.frame = .base) {q : List ℝ} (hq : q.length = cfg.numJoints)
    (hl : InLimits cfg q) (fd : List ℝ) (hbad : fd.length ≠ 6 * cfg.numTcps) :
    ∃ t1 t2 s', Hist cfg s [⟨.forc fd, t1, some true⟩, ⟨.cycle, t2, none⟩] s' ∧ ∃ e ∈ t2, ¬SizedCall cfg e := by
  let mid : Ctl := { s with fd := fd.map fun v => -v, state := .forc, streaming := vocabNotSet }
  have h1 : can (robot cfg) (Op.prog cfg (.forc fd)) (fun o s' _ => ∃ b, o = .ok b ∧ b = some true ∧ s' = mid) s [] := by
    show can (robot cfg) (Prog.bind (forc fd) _) _ _ _
    unfold forc setCurrentState
    can_simp
    refine Or.inr ⟨by simp [hf], can_setModes' (List.replicate cfg.numJoints .torque) (by simp) (by simp) ?_⟩
    can_simp
    exact Or.inl ⟨trivial, some true, rfl, rfl, rfl⟩
  obtain ⟨t1, _, s1, e1, rfl, rfl⟩ := hist_one h1
  have h2 : can (robot cfg) (Op.prog cfg .cycle) (fun o _ tr => ∃ b, o = .ok b ∧ b = none ∧ ∃ e ∈ tr, ¬SizedCall cfg e) mid [] := by
    show can (robot cfg) (Prog.bind (run cfg) _) _ _ _
    rw [can_bind]
    refine can_cycle q q q (by simp [mid]) hq hq hq hl ?_
    show can _ (handleForc cfg q q q) _ _ _
    unfold handleForc
    refine can_checkModes (List.replicate cfg.numJoints .torque) (by simp) ?_
    can_simp
    refine Or.inl ⟨by simp, some q, ?_⟩
    can_simp
    refine Or.inr ⟨q, buffer_whole hq, true, trivial, none, rfl, rfl, .invDyn q q q mid.fd mid.frame (some q), by simp [mid], ?_⟩
    rintro ⟨-, -, -, h⟩
    exact hbad (by simpa [mid] using h)
  obtain ⟨t2, _, s2, e2, rfl, hbad⟩ := hist_one h2
  exact ⟨t1, t2, s2, hist_append e1 e2, hbad⟩

/-- A velocity with too few elements is accepted, even with none at all, and the next cycle hands too short a pose over
to the solver. -/
theorem C44_short_velocity {cfg : Cfg} {s : Ctl} {q x : List ℝ} (hq : q.length = cfg.numJoints)
    (hx : x.length = 6 * cfg.numTcps) (hl : InLimits cfg q) (xd : List ℝ) (hbad : xd.length / 6 < cfg.numTcps) :
    ∃ t1 t2 s', Hist cfg s [⟨.movv xd, t1, some true⟩, ⟨.cycle, t2, none⟩] s' ∧ ∃ e ∈ t2, ¬SizedCall cfg e := by
  obtain ⟨ts, ht⟩ := Option.ne_none_iff_exists'.mp (rayTrajs_defined (cfg := cfg) (xd.length / 6) 0
    (by omega : (0 + xd.length / 6) * 6 ≤ x.length) (by omega : (0 + xd.length / 6) * 6 ≤ xd.length))
  have hts := rays_count _ _ ht
  let mid : Ctl := { s with trajectories := ts, movementStartTime := 0, cmcSuccess := true, state := .movv,
                            streaming := vocabNotSet }
  have h1 : can (robot cfg) (Op.prog cfg (.movv xd)) (fun o s' _ => ∃ b, o = .ok b ∧ b = some true ∧ s' = mid) s [] := by
    show can (robot cfg) (Prog.bind (movv cfg xd) _) _ _ _
    unfold movv setCurrentState
    can_simp
    refine ⟨some q, some_length hq, ?_⟩
    can_simp
    refine ⟨some x, ?_⟩
    can_simp
    refine Or.inr ⟨ts, ht, can_setModes' (List.replicate cfg.numJoints .velocity) (by simp) (by simp) ?_⟩
    can_simp
    exact Or.inl ⟨trivial, 0, some true, rfl, rfl, rfl⟩
  obtain ⟨t1, _, s1, e1, rfl, rfl⟩ := hist_one h1
  have h2 : can (robot cfg) (Op.prog cfg .cycle) (fun o _ tr => ∃ b, o = .ok b ∧ b = none ∧ ∃ e ∈ tr, ¬SizedCall cfg e) mid [] := by
    show can (robot cfg) (Prog.bind (run cfg) _) _ _ _
    rw [can_bind]
    refine can_cycle_fails q q q (by simp [mid]) hq hq hq hl ?_
    show can _ (handleMovv cfg q) _ _ _
    unfold handleMovv
    refine can_checkModes (List.replicate cfg.numJoints .velocity) (by simp) ?_
    can_simp
    refine Or.inl ⟨by simp, 0, some x, ?_⟩
    unfold sendVelocity
    can_simp
    refine ⟨(true, []), Or.inr ⟨[], by simp [controlLaw], none, ?_⟩⟩
    can_simp
    refine ⟨trivial, none, rfl, rfl, .poseDiff (posesAt ts (0 - mid.movementStartTime)) x (true, []), by simp [mid], ?_⟩
    rintro ⟨h, -⟩
    rw [posesAt_length, hts] at h
    omega
  obtain ⟨t2, _, s2, e2, rfl, hbad⟩ := hist_one h2
  exact ⟨t1, t2, s2, hist_append e1 e2, hbad⟩

/-- The hypotheses of the three theorems are met: a velocity is commanded and a cycle follows. -/
example : Workable oneJoint ∧ Steady oneJoint ready ∧ InLimits oneJoint [0] ∧ ready.frame = .base ∧
    Op.Fits oneJoint .cycle ∧ ∃ t s, Hist oneJoint ready [⟨.movv [1, 0, 0, 0, 0, 0], t, some true⟩] s ∧ s.state = .movv ∧
      Op.Fits oneJoint (.movv [1, 0, 0, 0, 0, 0]) ∧ .fwdKin [0] (some [1, 2, 3, 0, 0, 0]) ∈ t ∧
      ∀ e ∈ t, SizedCall oneJoint e → SizedAnswer oneJoint e := by
  refine ⟨⟨oneJoint_valid, rfl, fun h => by simp [oneJoint] at h⟩, steady_initial (by norm_num) (by norm_num),
    oneJoint_inLimits (by norm_num) (by norm_num), rfl, trivial, ?_⟩
  have h1 : can (robot oneJoint) (Op.prog oneJoint (.movv [1, 0, 0, 0, 0, 0])) (fun o s' tr => ∃ b, o = .ok b ∧ b = some true ∧
      s'.state = .movv ∧ tr = [.getEncoders (some [0]), .fwdKin [0] (some [1, 2, 3, 0, 0, 0]),
        .getControlModes (some [.velocity]), .delay (1 / 10) (), .getControlModes (some [.velocity]), .now 0]) ready [] := by
    show can (robot oneJoint) (Prog.bind (movv oneJoint _) _) _ _ _
    unfold movv setCurrentState
    can_simp
    refine ⟨some [0], some_length rfl, ?_⟩
    can_simp
    refine ⟨some [1, 2, 3, 0, 0, 0], ?_⟩
    can_simp
    obtain ⟨ts, ht, -⟩ := rays_whole (cfg := oneJoint) (a := [1, 2, 3, 0, 0, 0]) (b := [1, 0, 0, 0, 0, 0]) 1 rfl rfl
    refine Or.inr ⟨ts, ht, can_setModes' [.velocity] rfl (by simp) ?_⟩
    can_simp
    exact Or.inl ⟨trivial, 0, some true, rfl, rfl, trivial, by simp⟩
  obtain ⟨t, _, s', e1, rfl, e2, rfl⟩ := hist_one h1
  exact ⟨_, s', e1, e2, rfl, by simp, by simp [SizedAnswer, oneJoint]⟩

end KD.Ctrl
