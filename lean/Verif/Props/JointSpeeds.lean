import Verif.Ctrl.Commands

/-!
# C38: the speeds of a joint movement
-/

namespace KD.Ctrl

open Prog (wp wp_bind wp_of_run wp_sound can can_run Run)

/-- What `movj` wants of the speeds `v` for a movement from `q` to `qd`: with one time `T` for all
joints, each speed is the distance over `T` and not above the reference speed, if that is positive, and
zero otherwise; some joint goes at its reference speed. -/
def SameTime (cfg : Cfg) (q qd v : List ℝ) : Prop :=
  ∃ T, 0 < T ∧ v.length = cfg.numJoints ∧
    (∀ j < cfg.numJoints, ∃ ref s, cfg.qRefSpeeds[j]? = some ref ∧ v[j]? = some s ∧
      (0 < ref → ∃ a b, qd[j]? = some a ∧ q[j]? = some b ∧ s = |a - b| / T ∧ s ≤ ref) ∧
      (ref ≤ 0 → s = 0)) ∧
    ∃ j < cfg.numJoints, ∃ ref, cfg.qRefSpeeds[j]? = some ref ∧ 0 < ref ∧ v[j]? = some ref

theorem isoDeltas_spec {cfg : Cfg} {q qd : List ℝ} {j k : ℕ} {m m' : ℝ} {ds : List ℝ}
    (h : isoDeltas cfg q qd j k m = some (ds, m')) :
    ds.length = k ∧ m ≤ m' ∧ (∀ i < k, ∃ ref d, cfg.qRefSpeeds[j + i]? = some ref ∧ ds[i]? = some d ∧
      (0 < ref → ∃ a b, qd[j + i]? = some a ∧ q[j + i]? = some b ∧ d = |a - b| ∧ |a - b| / ref ≤ m') ∧
      (ref ≤ 0 → d = 0)) ∧
    (m' = m ∨ ∃ i < k, ∃ ref d, cfg.qRefSpeeds[j + i]? = some ref ∧ 0 < ref ∧ ds[i]? = some d ∧ d / ref = m') := by
  induction k generalizing j m ds m' with
  | zero =>
    simp [isoDeltas] at h
    obtain ⟨rfl, rfl⟩ := h
    simp
  | succ k ih =>
    rw [isoDeltas] at h
    simp only [Option.bind_eq_bind, Option.bind_eq_some_iff] at h
    obtain ⟨ref, href, h⟩ := h
    split at h
    · rename_i h0
      simp only [Option.bind_eq_some_iff] at h
      obtain ⟨⟨ds', m''⟩, h, e⟩ := h
      simp only [Option.some.injEq, Prod.mk.injEq] at e
      obtain ⟨rfl, rfl⟩ := e
      obtain ⟨i1, i2, i3, i4⟩ := ih h
      refine ⟨by simp [i1], i2, ?_, ?_⟩
      · rintro (_ | i) hi
        · exact ⟨ref, 0, href, rfl, fun h => absurd h (not_lt.mpr h0), fun _ => rfl⟩
        · obtain ⟨ref', d, e1, e2, e3⟩ := i3 i (by omega)
          rw [show j + 1 + i = j + (i + 1) by omega] at e1 e3
          exact ⟨ref', d, e1, by simpa using e2, e3⟩
      · rcases i4 with e | ⟨i, hi, ref', d, e1, e0, e2, e3⟩
        · exact Or.inl e
        · rw [show j + 1 + i = j + (i + 1) by omega] at e1
          exact Or.inr ⟨i + 1, by omega, ref', d, e1, e0, by simpa using e2, e3⟩
    · rename_i h0
      have h0 : 0 < ref := not_le.mp h0
      simp only [Option.bind_eq_some_iff] at h
      obtain ⟨a, ha, b, hb, ⟨ds', m''⟩, h, e⟩ := h
      simp only [Option.some.injEq, Prod.mk.injEq] at e
      obtain ⟨rfl, rfl⟩ := e
      obtain ⟨i1, i2, i3, i4⟩ := ih h
      refine ⟨by simp [i1], ?_, ?_, ?_⟩
      · refine le_trans ?_ i2
        split <;> linarith
      · rintro (_ | i) hi
        · refine ⟨ref, |a - b|, href, rfl, fun _ => ⟨a, b, ha, hb, rfl, le_trans ?_ i2⟩,
            fun h => absurd h0 (not_lt.mpr h)⟩
          split <;> linarith
        · obtain ⟨ref', d, e1, e2, e3⟩ := i3 i (by omega)
          rw [show j + 1 + i = j + (i + 1) by omega] at e1 e3
          exact ⟨ref', d, e1, by simpa using e2, e3⟩
      · rcases i4 with e | ⟨i, hi, ref', d, e1, e0, e2, e3⟩
        · split at e
          · exact Or.inr ⟨0, by omega, ref, |a - b|, href, h0, rfl, e.symm⟩
          · exact Or.inl e
        · rw [show j + 1 + i = j + (i + 1) by omega] at e1
          exact Or.inr ⟨i + 1, by omega, ref', d, e1, e0, by simpa using e2, e3⟩

theorem iso_speeds {cfg : Cfg} {q qd vmo : List ℝ}
    (h : computeIsocronousSpeeds cfg q qd = some (vmo, true)) : SameTime cfg q qd vmo := by
  unfold computeIsocronousSpeeds at h
  simp only [Option.bind_eq_bind, Option.bind_eq_some_iff] at h
  obtain ⟨⟨ds, m⟩, h, e⟩ := h
  dsimp only at e
  split at e
  · simp at e
  · rename_i h0
    simp only [Option.some.injEq, Prod.mk.injEq, and_true] at e
    subst e
    obtain ⟨h1, h2, h3, h4⟩ := isoDeltas_spec h
    have hm : 0 < m := lt_of_le_of_ne h2 (Ne.symm h0)
    refine ⟨m, hm, by simpa using h1, fun j hj => ?_, ?_⟩
    · obtain ⟨ref, d, e1, e2, e3, e4⟩ := h3 j hj
      rw [Nat.zero_add] at e1 e3
      refine ⟨ref, d / m, e1, by simp [e2], fun h => ?_, fun h => by simp [e4 h]⟩
      obtain ⟨a, b, f1, f2, rfl, f4⟩ := e3 h
      refine ⟨a, b, f1, f2, rfl, ?_⟩
      rw [div_le_iff₀ hm, mul_comm]
      exact (div_le_iff₀ h).mp f4
    · rcases h4 with rfl | ⟨i, hi, ref, d, e1, e0, e2, e3⟩
      · exact absurd rfl h0
      · rw [Nat.zero_add] at e1
        refine ⟨i, hi, ref, e1, e0, ?_⟩
        rw [List.getElem?_map, e2]
        simp only [Option.map_some, Option.some.injEq]
        rw [div_eq_iff h0, ← e3]
        field_simp

/-- For any start and any target found by the solver, the speeds that `movj` sets make all joints that
have a positive reference speed take the same time, none above its reference speed, and one at it (the
others get speed zero); if the movement is commanded at all it is to that target. -/
theorem C38_all_joints_same_time_partial {cfg : Cfg} {xd : List ℝ} {s s' : Ctl} {tr : List Ev} {b : Bool}
    (h : Exec cfg (movj cfg xd) s tr (.ok b) s') {v : List ℝ} {r : Bool}
    (hv : Ev.setRefSpeeds v r ∈ tr) :
    ∃ q qd, Ev.getEncoders (some q) ∈ tr ∧ Ev.invKin xd q s.frame (some qd) ∈ tr ∧ SameTime cfg q qd v ∧
      ∀ t r', Ev.positionMove t r' ∈ tr → t = qd.take cfg.numJoints := by
  refine wp_sound (Q := fun o s' tr => ∀ b, o = .ok b → ∀ v r, Ev.setRefSpeeds v r ∈ tr →
    ∃ q qd, Ev.getEncoders (some q) ∈ tr ∧ Ev.invKin xd q s.frame (some qd) ∈ tr ∧ SameTime cfg q qd v ∧
      ∀ t r', Ev.positionMove t r' ∈ tr → t = qd.take cfg.numJoints) ?_ h b rfl v r hv
  unfold movj setCurrentState
  dev_simp
  refine ⟨by simp, fun q _ => ⟨by simp, fun qd => ⟨by simp, fun ⟨vmo, mv⟩ hmv => ⟨fun hk => ⟨by simp,
    fun refs _ b => ⟨fun _ => wp_setModes fun b' es hes hin => ?_, fun _ => ?_⟩⟩, by simp⟩⟩⟩⟩
  · dsimp only at hk
    subst hk
    have h9 := (mode_calls_only hes).2.2.2.2.2.2.2.2.1
    have h10 : ∀ t r, Ev.positionMove t r ∉ es := fun _ _ => hes _
    have hsame := iso_speeds hmv
    dev_simp
    refine ⟨fun hb => ⟨by simp, fun t ht b2 => ⟨fun h2 => ?_, fun h2 => ?_⟩⟩, fun hb => ?_⟩
    all_goals
      intro b _ v r hv
      simp [h9] at hv
      obtain ⟨rfl, rfl⟩ := hv
      refine ⟨q, qd, by simp, by simp, hsame, ?_⟩
      simp [h10]
    all_goals
      have := buffer_some ht
      grind
  · dsimp only at hk
    subst hk
    have hsame := iso_speeds hmv
    intro b _ v r hv
    simp at hv
    obtain ⟨rfl, rfl⟩ := hv
    exact ⟨q, qd, by simp, by simp, hsame, by simp⟩

/-- Under these speeds a joint that moves arrives after the common time, and one that does not move has
speed zero. -/
theorem C38_moving_joint_arrives_at_common_time {cfg : Cfg} {q qd v : List ℝ} (h : SameTime cfg q qd v) :
    ∃ T, 0 < T ∧ ∀ j < cfg.numJoints, ∀ ref a b s, cfg.qRefSpeeds[j]? = some ref → 0 < ref →
      qd[j]? = some a → q[j]? = some b → v[j]? = some s → (a = b → s = 0) ∧ (a ≠ b → |a - b| / s = T) := by
  obtain ⟨T, hT, -, h, -⟩ := h
  refine ⟨T, hT, fun j hj ref a b s h1 h0 h2 h3 h4 => ?_⟩
  obtain ⟨ref', s', e1, e2, e3, -⟩ := h j hj
  rw [h1] at e1
  rw [h4] at e2
  obtain rfl := Option.some.inj e1
  obtain rfl := Option.some.inj e2
  obtain ⟨a', b', f1, f2, rfl, -⟩ := e3 h0
  rw [h2] at f1
  rw [h3] at f2
  obtain rfl := Option.some.inj f1
  obtain rfl := Option.some.inj f2
  refine ⟨fun e => by simp [e], fun e => ?_⟩
  have : |a - b| ≠ 0 := abs_ne_zero.mpr (sub_ne_zero.mpr e)
  field_simp

/-- A robot with two joints and these reference speeds. -/
noncomputable def twoJoints (r0 r1 : ℝ) : Cfg where
  numJoints := 2
  numTcps := 1
  usePosdMovl := false
  enableFailFast := false
  qMin := [-10, -10]
  qMax := [10, 10]
  qdotMin := [0, 0]
  qdotMax := [5, 5]
  qRefSpeeds := [r0, r1]
  line := fun _ b d => ⟨d, fun _ => b, fun _ => ⟨0, 0⟩⟩
  ray := fun a v => ⟨1, fun _ => a, fun _ => v⟩

/-- The calls of a joint movement that is commanded and accepted. -/
noncomputable def movjCalls (f : RefFrame) (qd vmo refs : List ℝ) : List Ev :=
  [.getEncoders (some [0, 0]), .invKin [1, 0, 0, 0, 0, 0] [0, 0] f (some qd), .getRefSpeeds (some refs),
   .setRefSpeeds vmo true, .getControlModes (some [.position, .position]), .delay (1 / 10) (),
   .getControlModes (some [.position, .position]), .positionMove qd true]

theorem movj_runs (r0 r1 : ℝ) (s : Ctl) (qd vmo refs : List ℝ) (hqd : qd.length = 2) (hrefs : refs.length = 2)
    (hv : computeIsocronousSpeeds (twoJoints r0 r1) [0, 0] qd = some (vmo, true)) :
    Exec (twoJoints r0 r1) (movj (twoJoints r0 r1) [1, 0, 0, 0, 0, 0]) s (movjCalls s.frame qd vmo refs)
      (.ok true)
      { s with vmoStored := refs, cmcSuccess := true, state := .movj, streaming := vocabNotSet } := by
  have h : can (robot (twoJoints r0 r1)) (movj (twoJoints r0 r1) [1, 0, 0, 0, 0, 0])
      (fun o s' tr => o = .ok true ∧
        s' = { s with vmoStored := refs, cmcSuccess := true, state := .movj, streaming := vocabNotSet } ∧
        tr = movjCalls s.frame qd vmo refs) s [] := by
    unfold movj setCurrentState
    can_simp
    refine ⟨some [0, 0], some_length rfl, ?_⟩
    can_simp
    refine ⟨some qd, ?_⟩
    can_simp
    refine Or.inr ⟨(vmo, true), hv, Or.inl ⟨rfl, some refs, some_length hrefs, ?_⟩⟩
    can_simp
    refine ⟨true, Or.inl ⟨rfl, can_setModes' [.position, .position] rfl (by simp) ?_⟩⟩
    can_simp
    refine Or.inl ⟨trivial, Or.inr ⟨qd, ?_, true, Or.inl ⟨rfl, trivial, trivial, ?_⟩⟩⟩
    · simp only [buffer, twoJoints, hqd, lt_irrefl, if_false]
      rw [← hqd, List.take_length]
    · simp [movjCalls]
  obtain ⟨tr, o, s', hr, rfl, rfl, h⟩ := can_run h
  simp only [List.nil_append] at h
  exact h ▸ hr

theorem twoJoints_speeds : computeIsocronousSpeeds (twoJoints 2 1) [0, 0] [4, 1] = some ([2, 1 / 2], true) := by
  norm_num [computeIsocronousSpeeds, isoDeltas, twoJoints, Option.bind_eq_bind]

/-- The hypotheses of `C38_all_joints_same_time_partial` are met: one joint goes 4 at speed 2, the other
1 at speed 1/2. -/
example (s : Ctl) : ∃ tr s', Exec (twoJoints 2 1) (movj (twoJoints 2 1) [1, 0, 0, 0, 0, 0]) s tr (.ok true) s' ∧
    Ev.setRefSpeeds [2, 1 / 2] true ∈ tr := by
  exact ⟨_, _, movj_runs 2 1 s [4, 1] _ [9, 9] rfl rfl twoJoints_speeds, by simp [movjCalls]⟩

/-- What is missing: a joint whose reference speed is not positive is commanded to its target, which it
is not at, with speed zero. -/
theorem C38_zero_reference_speed_never_arrives (s : Ctl) : ∃ tr s',
    Exec (twoJoints 2 0) (movj (twoJoints 2 0) [1, 0, 0, 0, 0, 0]) s tr (.ok true) s' ∧
    Ev.getEncoders (some [0, 0]) ∈ tr ∧ Ev.positionMove [4, 1] true ∈ tr ∧
    Ev.setRefSpeeds [2, 0] true ∈ tr := by
  exact ⟨_, _, movj_runs 2 0 s [4, 1] [2, 0] [9, 9] rfl rfl (by
    norm_num [computeIsocronousSpeeds, isoDeltas, twoJoints, Option.bind_eq_bind]), by simp [movjCalls]⟩

end KD.Ctrl
