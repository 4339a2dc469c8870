import Verif.Ctrl.Velocity
import Verif.Props.Streaming

/-!
# C40: velocity commands and joint limits
-/

namespace KD.Ctrl

open scoped Classical
open Prog (wp wp_bind wp_of_run wp_sound can can_bind can_run Run)

/-- Every joint has its limits, and a range wider than twice the tolerance. -/
structure ValidLimits (cfg : Cfg) : Prop where
  qMin : cfg.qMin.length = cfg.numJoints
  qMax : cfg.qMax.length = cfg.numJoints
  qdotMin : cfg.qdotMin.length = cfg.numJoints
  qdotMax : cfg.qdotMax.length = cfg.numJoints
  range : ∀ (j : ℕ) (lo hi : ℝ), cfg.qMin[j]? = some lo → cfg.qMax[j]? = some hi → lo + 2 * tol ≤ hi

/-- The velocities `v` are safe at positions `q`: a joint below its range (minus the tolerance) does not
move down, one above it does not move up. -/
def SafeVelocity (cfg : Cfg) (q v : List ℝ) : Prop :=
  ∀ j < cfg.numJoints, ∃ x w lo hi, q[j]? = some x ∧ v[j]? = some w ∧ cfg.qMin[j]? = some lo ∧
    cfg.qMax[j]? = some hi ∧ (x < lo + tol → 0 ≤ w) ∧ (hi - tol < x → w ≤ 0)

theorem safe_of_away {cfg : Cfg} (hc : ValidLimits cfg) {q v : List ℝ} (h : LimitsOrAway cfg q v)
    (hv : InVelLimits cfg v) : SafeVelocity cfg q (v.take cfg.numJoints) := by
  intro j hj
  obtain ⟨x, lo, hi, h1, h2, h3, h4⟩ := h j hj
  obtain ⟨w, -, -, h5, -⟩ := hv j hj
  refine ⟨x, w, lo, hi, h1, by simp [List.getElem?_take, hj, h5], h2, h3, ?_⟩
  have hr := hc.range j lo hi h2 h3
  rcases h4 with ⟨h4, h4'⟩ | ⟨w', h6, h7⟩
  · exact ⟨fun h => absurd h (not_lt.mpr h4), fun h => absurd h (not_lt.mpr h4')⟩
  · rw [h5] at h6
    obtain rfl := Option.some.inj h6
    constructor
    · intro hx
      by_contra hw
      exact h7 (by rw [sgn_of_neg (by linarith), sgn_of_neg (not_le.mp hw)])
    · intro hx
      by_contra hw
      exact h7 (by rw [sgn_of_pos (by linarith), sgn_of_pos (not_le.mp hw)])

theorem InLimits.away {cfg : Cfg} {q v : List ℝ} (h : InLimits cfg q) : LimitsOrAway cfg q v := by
  intro j hj
  obtain ⟨x, lo, hi, h1, h2, h3, h4⟩ := h j hj
  exact ⟨x, lo, hi, h1, h2, h3, Or.inl h4⟩

/-- Whatever the user commands, every velocity command that reaches the robot stands still, or is safe
at the joint positions that were read just before and within the limits of speed. Partial: not for a
configuration with limits given by the user, nor for joints with a range below the tolerance.-/
theorem C40_velocity_commands_safe_partial {cfg : Cfg} (hc : ValidLimits cfg) {s s' : Ctl} {ds : List Done}
    (h : Hist cfg s ds s') {d : Done} (hd : d ∈ ds) {v : List ℝ} {r : Bool}
    (hv : Ev.velocityMove v r ∈ d.calls) :
    v = List.replicate cfg.numJoints 0 ∨
    ∃ q, Ev.getEncoders (some q) ∈ d.calls ∧ SafeVelocity cfg q v ∧ InVelLimits cfg v := by
  have htake : ∀ v, InVelLimits cfg v → InVelLimits cfg (v.take cfg.numJoints) := by
    intro v h j hj
    obtain ⟨w, lo, hi, h1, h2⟩ := h j hj
    exact ⟨w, lo, hi, by simp [List.getElem?_take, hj, h1], h2⟩
  induction h with
  | nil => simp at hd
  | @cons s op tr b s1 ds s' hx _ ih =>
    rcases List.mem_cons.mp hd with rfl | hd
    swap
    · exact ih hd
    clear ih hd
    dsimp only at hv ⊢
    by_cases h1 : op = .cycle
    · subst h1
      rcases Prog.run_bind.mp hx with ⟨u, s2, t1, t2, hr, h2, rfl⟩ | ⟨-, h⟩
      · cases h2
        rw [List.append_nil] at hv ⊢
        by_cases hst : s.state = .notControlling
        · rw [(run_idle hst hr).2.1] at hv; simp at hv
        · right
          have hno : ∀ {tr}, NoMotion tr → Ev.velocityMove v r ∉ tr := fun h he => h _ he trivial
          cases run_cycle hst hr with
          | skipped _ hf _ => exact absurd hv (hno hf.noMotion)
          | gaveUp tr es r' hf _ hes => exact absurd hv (hno (hf.noMotion.append (stop_noMotion hes r')))
          | limits q qd qdd es r' _ _ hes =>
            exact absurd hv (hno ((goodRead_noMotion q qd qdd).append (stop_noMotion hes r')))
          | failed q qd qdd tr es r' _ _ hend hes =>
            exact absurd hv (hno ((goodRead_noMotion q qd qdd).append ((hend.same rfl).2.append (stop_noMotion hes r'))))
          | went q qd qdd tr s' hq hlim hend =>
            refine ⟨q, by simp [goodRead], ?_⟩
            rcases List.mem_append.mp hv with hv | hv
            · simp [goodRead] at hv
            obtain ⟨v', h3, rfl⟩ := hend.vel v r hv
            exact ⟨safe_of_away hc hlim.away h3, htake _ h3⟩
      · simp at h
    by_cases h2 : ∃ x, op = .twist x
    · obtain ⟨x, rfl⟩ := h2
      rcases Prog.run_bind.mp hx with ⟨u, s2, t1, t2, hr, h2, rfl⟩ | ⟨-, h⟩
      · cases h2
        rw [List.append_nil] at hv ⊢
        rcases (C37_twist_checked_partial hr _ hv trivial).2 with ⟨q, sol, r', h3, -, h4, h5, h6⟩ | ⟨r', h3⟩
        · right
          obtain ⟨rfl, -⟩ := Ev.velocityMove.inj h6
          exact ⟨q, h3, safe_of_away hc h4 h5, htake _ h5⟩
        · exact Or.inl (Ev.velocityMove.inj h3).1
      · simp at h
    · obtain ⟨c, r', hq, -, he⟩ := Prog.run_calls hx (quiet_op cfg op h1 fun x e => h2 ⟨x, e⟩) _ hv
      cases c <;> simp [robot, record, NotVel] at he hq

/-- The checks are defined for every valid configuration and every vector with a value for each joint:
no limit and no element is read that is not there. -/
theorem C40_checks_defined_partial {cfg : Cfg} (hc : ValidLimits cfg) {q v : List ℝ}
    (hq : cfg.numJoints ≤ q.length) (hv : cfg.numJoints ≤ v.length) :
    (checkJointLimits cfg q).isSome ∧ (checkJointLimitsDir cfg q v).isSome ∧
    (checkJointVelocities cfg v).isSome := by
  have get : ∀ {l : List ℝ} {j : ℕ}, j < l.length → ∃ x, l[j]? = some x :=
    fun {l j} h => ⟨l[j], List.getElem?_eq_getElem h⟩
  refine ⟨?_, ?_, ?_⟩ <;> rw [Option.isSome_iff_ne_none] <;> intro h <;>
    obtain ⟨j, hj, h⟩ := forJoints_none _ _ _ h <;> rw [Nat.zero_add] at h
  · obtain ⟨x, h1⟩ := get (l := q) (j := j) (by omega)
    obtain ⟨lo, h2⟩ := get (l := cfg.qMin) (j := j) (by rw [hc.qMin]; omega)
    obtain ⟨hi, h3⟩ := get (l := cfg.qMax) (j := j) (by rw [hc.qMax]; omega)
    simp [h1, h2, h3] at h
    split at h <;> simp at h
  · obtain ⟨x, h1⟩ := get (l := q) (j := j) (by omega)
    obtain ⟨lo, h2⟩ := get (l := cfg.qMin) (j := j) (by rw [hc.qMin]; omega)
    obtain ⟨hi, h3⟩ := get (l := cfg.qMax) (j := j) (by rw [hc.qMax]; omega)
    obtain ⟨w, h4⟩ := get (l := v) (j := j) (by omega)
    simp [h1, h2, h3, h4] at h
    split at h
    · split at h <;> simp at h
    · simp at h
  · obtain ⟨lo, h2⟩ := get (l := cfg.qdotMin) (j := j) (by rw [hc.qdotMin]; omega)
    obtain ⟨hi, h3⟩ := get (l := cfg.qdotMax) (j := j) (by rw [hc.qdotMax]; omega)
    obtain ⟨w, h4⟩ := get (l := v) (j := j) (by omega)
    simp [h2, h3, h4] at h
    split at h <;> split at h <;> simp at h

/-- The hypotheses are met. -/
theorem oneJoint_valid : ValidLimits oneJoint := by
  refine ⟨rfl, rfl, rfl, rfl, fun j lo hi h1 h2 => ?_⟩
  rcases j with _ | j
  · simp only [oneJoint, List.getElem?_cons_zero, Option.some.injEq] at h1 h2
    subst h1 h2
    norm_num [tol]
  · simp [oneJoint] at h1

/-- A joint above its range that is sent down: the second case of `SafeVelocity`. -/
example : SafeVelocity oneJoint [11] [-1] ∧ ¬InLimits oneJoint [11] ∧ ¬SafeVelocity oneJoint [11] [1] := by
  refine ⟨fun j hj => ?_, fun h => ?_, fun h => ?_⟩
  · have : j = 0 := by simp [oneJoint] at hj; omega
    subst this
    exact ⟨11, -1, -10, 10, rfl, rfl, rfl, rfl, fun h => absurd h (by norm_num [tol]), fun _ => by norm_num⟩
  · obtain ⟨x, lo, hi, h1, h2, h3, h4⟩ := h 0 (by simp [oneJoint])
    simp only [oneJoint, List.getElem?_cons_zero, Option.some.injEq] at h1 h2 h3
    subst h1 h2 h3
    norm_num [tol] at h4
  · obtain ⟨x, w, lo, hi, h1, h2, h3, h4, -, h5⟩ := h 0 (by simp [oneJoint])
    simp only [oneJoint, List.getElem?_cons_zero, Option.some.injEq] at h1 h2 h3 h4
    subst h1 h2 h3 h4
    norm_num [tol] at h5

/-- A configuration in which the user gives `mins`, `maxs` and `maxvels` leaves the controller without
limits, and the first check of a joint reads outside of them. -/
theorem C40_user_limits_undefined (a b c d : List ℝ) {cfg : Cfg} (hn : 0 < cfg.numJoints)
    (h : (cfg.qMin, cfg.qMax, cfg.qdotMin, cfg.qdotMax) = openLimits true a b c d) (q v : List ℝ) :
    checkJointLimits cfg q = none ∧ checkJointLimitsDir cfg q v = none ∧ checkJointVelocities cfg v = none := by
  simp only [openLimits, if_true, Prod.mk.injEq] at h
  obtain ⟨h1, h2, h3, h4⟩ := h
  obtain ⟨n, hn⟩ : ∃ n, cfg.numJoints = n + 1 := ⟨cfg.numJoints - 1, by omega⟩
  refine ⟨?_, ?_, ?_⟩
  · simp [checkJointLimits, hn, forJoints, h1]
  · simp [checkJointLimitsDir, hn, forJoints, h1]
  · simp [checkJointVelocities, hn, forJoints, h3]

/-- Otherwise there is a limit for each joint of the robot. -/
theorem C40_robot_limits_kept (a b c d : List ℝ) : openLimits false a b c d = (a, b, c, d) := rfl

/-- A joint whose range is a single point is not protected: it may be sent either way. -/
theorem C40_fixed_joint_not_protected (p w : ℝ) (hw : w ≠ 0) {cfg : Cfg} (hn : cfg.numJoints = 1)
    (h1 : cfg.qMin = [p]) (h2 : cfg.qMax = [p]) : checkJointLimitsDir cfg [p] [w] = some true := by
  rw [checkJointLimitsDir_iff]
  intro j hj
  have : j = 0 := by omega
  subst this
  refine ⟨p, p, p, rfl, by simp [h1], by simp [h2], Or.inr ⟨w, rfl, ?_⟩⟩
  have : p - (p + p) / 2 = 0 := by ring
  rw [this, sgn_zero]
  rcases lt_or_gt_of_ne hw with h | h
  · rw [sgn_of_neg h]; decide
  · rw [sgn_of_pos h]; decide

end KD.Ctrl
