import Verif.Screw.ConfigLemmas
import Verif.Props.IkRange
import Verif.Props.LinearMotion
import Verif.Programs.ScrewTrajectoryBent

/-!
# C87: the screw theory trajectory example
-/

namespace KD.StDemo

open Real Mat3 Exact Builder

/-! ## Specification -/

/-- The displacement asked for. -/
def shift : Vec3 := ⟨0.15, 0.1, 0.1⟩

/-- Where the axes of the first three joints meet. -/
def shoulder : Vec3 := ⟨0, 0.34692, 0.4982⟩

/-- Shortest time to cover a distance from rest to rest with the given speed and acceleration. -/
noncomputable def leastTime (speed accel l : ℝ) : ℝ :=
  open Classical in
  if speed ^ 2 / accel < l then l / speed + speed / accel else 2 * √(l / accel)

/-! ## The line -/

theorem shift_norm : 0 < shift.norm ∧ shift.norm ^ 2 = 0.0425 := by
  have h : shift.norm ^ 2 = 0.0425 := by rw [Vec3.norm_sq]; norm_num [shift, Vec3.dot]
  refine ⟨lt_of_le_of_ne (Vec3.norm_nonneg _) fun h0 => ?_, h⟩
  rw [← h0] at h
  norm_num at h

theorem shift_bounds : 0.206 < shift.norm ∧ shift.norm < 0.207 := by
  obtain ⟨h1, h2⟩ := shift_norm
  constructor <;> nlinarith

theorem least_duration {V A L : ℝ} (hV : 0 < V) (hA : 0 < A) (hL : 0 ≤ L) :
    (Trap.set V A 0 L).duration = leastTime V A L := by
  unfold Trap.set leastTime
  simp only [sub_zero, if_neg (not_lt.mpr hL), one_mul, div_one]
  have hd : (L - 2 * (A * (V / A * (V / A)) / 2)) / V = (L - V ^ 2 / A) / V := by
    congr 1
    field_simp
  rw [hd]
  by_cases h : V ^ 2 / A < L
  · rw [if_pos (div_pos (by linarith) hV), if_pos h]
    simp only [Trap.poly]
    field_simp
    ring
  · rw [if_neg (not_lt.mpr (div_nonpos_of_nonpos_of_nonneg (by linarith) hV.le)), if_neg h]
    simp only [Trap.poly]
    ring

/-- The path of the example does not turn. -/
theorem path_form {start : Frame} (hs : start.IsRigid) :
    let path := PathLine.between start ⟨start.M, start.p + shift⟩ 0.1
    path.length = shift.norm ∧ (∀ s, path.pos s = ⟨start.M, start.p + (s / shift.norm) • shift⟩) ∧
      ∀ s, path.vel s = ⟨(s / shift.norm) • shift, 0⟩ := by
  obtain ⟨hL, -⟩ := shift_norm
  have hr : (start.M.transpose * start.M).getRot = 0 := by
    rw [Mat3.IsRot.left hs, getRot_one]
  have hd : start.p + shift - start.p = shift := by ext <;> simp
  have hn : shift.normalize = (1 / shift.norm) • shift := by
    have h1 := Vec3.norm_smul_normalize (v := shift) (Or.inr (by
      have := shift_bounds.1
      norm_num [eps]
      linarith))
    have h2 : (1 / shift.norm) • (shift.norm • shift.normalize) = (1 / shift.norm) • shift := by rw [h1]
    rw [smul_smul, one_div, inv_mul_cancel₀ hL.ne', one_smul] at h2
    rw [h2, one_div]
  have hm : PathLine.between start ⟨start.M, start.p + shift⟩ 0.1 =
      ⟨⟨start.M, (0 : Vec3).normalize, 0⟩, start.p, shift.normalize, shift.norm, 0, 1⟩ := by
    unfold PathLine.between PathLine.make SingleAxis.between
    dsimp only
    rw [hr, hd, Vec3.norm_zero, if_neg (by simp), if_pos hL.ne', zero_div]
  dsimp only
  rw [hm]
  refine ⟨rfl, fun s => ?_, fun s => ?_⟩
  · simp only [PathLine.pos, SingleAxis.pos, mul_zero, rot2_zero, mul_one, hn, smul_smul]
    rw [mul_one_div]
  · simp only [PathLine.vel, SingleAxis.vel, mul_zero, mul_one, hn, smul_smul]
    rw [mul_one_div]
    congr 1
    ext <;> simp

theorem line_form {start : Frame} (hs : start.IsRigid) {V T : ℝ} (hV : 0 < V) (hT : 0 < T) :
    ∃ (x v : ℝ → ℝ) (D : ℝ) (traj : Ctrl.Traj), line start V T = some traj ∧ D = max T (leastTime V 0.2 shift.norm) ∧
      traj.duration = D ∧ Trap.Motion V 0.2 shift.norm D x v ∧ (∀ t, 0 ≤ v t) ∧
      (∀ t, traj.pos t = ⟨start.M, start.p + (x t / shift.norm) • shift⟩) ∧
      ∀ t, traj.vel t = ⟨(v t / shift.norm) • shift, 0⟩ := by
  obtain ⟨hL, -⟩ := shift_norm
  obtain ⟨p1, p2, p3⟩ := path_form hs
  obtain ⟨p, h1, h2, h3, h4, h5⟩ := Trap.setDuration_motion (V := V) (A := 0.2) hV (by norm_num) hL hT
  rw [least_duration hV (by norm_num) hL.le] at h5
  refine ⟨p.pos, p.vel, p.duration, .segment (PathLine.between start ⟨start.M, start.p + shift⟩ 0.1) p.duration p.pos p.vel,
    ?_, h5, rfl, h2, h3, fun t => p2 (p.pos t), fun t => p3 (p.vel t)⟩
  unfold line
  rw [show (⟨0.15, 0.1, 0.1⟩ : Vec3) = shift from rfl]
  dsimp only
  rw [p1, h1]
  rfl

/-- **C87.** From any pose, and for any duration and speed limit, the line of the example leads straight from the pose
to the one that is displaced by the given vector, without turning, from rest to rest, without jumps, and keeps to the
speed limit and to an acceleration of 0.2. It takes the time asked for, or the shortest possible if there is not
enough. -/
theorem C87_line {start : Frame} (hs : start.IsRigid) {V T : ℝ} (hV : 0 < V) (hT : 0 < T) :
    ∃ traj, line start V T = some traj ∧ Ctrl.GoesStraight start ⟨start.M, start.p + shift⟩ traj ∧
      (∀ t, (traj.pos t).M = start.M) ∧ Ctrl.Smooth traj V 0.2 ∧ traj.duration = max T (leastTime V 0.2 shift.norm) := by
  obtain ⟨hL, -⟩ := shift_norm
  obtain ⟨x, v, D, traj, h1, h2, h3, h4, h5, h6, h7⟩ := line_form hs hV hT
  have hmono := Ctrl.Motion.mono h4 h5
  have hn : ∀ k : ℝ, ((k / shift.norm) • shift).norm = |k| := by
    intro k
    rw [Vec3.norm_smul, abs_div, abs_of_pos hL, div_mul_cancel₀ _ hL.ne']
  refine ⟨traj, h1, ?_, fun t => by rw [h6], ?_, by rw [h3, h2]⟩
  · refine ⟨0, fun t => x t / shift.norm, by rw [expRot_zero, mul_one], by rw [Vec3.norm_zero]; exact pi_pos.le, ?_,
      fun t ht => by simp only [(h4.before t ht).1, zero_div],
      fun t ht => by simp only [(h4.after t (h3 ▸ ht)).1, div_self hL.ne'], fun t => ?_⟩
    · intro s t hst
      exact div_le_div_of_nonneg_right (hmono hst) hL.le
    · rw [h6]
      have e1 : ∀ k : ℝ, k • (0 : Vec3) = 0 := fun k => by ext <;> simp
      have e2 : start.p + shift - start.p = shift := by ext <;> simp
      simp only [e1, e2, expRot_zero, mul_one]
  · refine ⟨fun t => ?_, fun t ht => ?_, fun t => ?_, fun s t => ?_⟩
    · rw [h7, show traj.pos = fun t => (⟨start.M, start.p + (x t / shift.norm) • shift⟩ : Frame) from funext h6]
      constructor
      · exact ⟨(((h4.deriv t).div_const _).mul_const _).const_add _, (((h4.deriv t).div_const _).mul_const _).const_add _,
          (((h4.deriv t).div_const _).mul_const _).const_add _⟩
      · intro w
        have : Vec3.cross (0 : Vec3) (start.M.mulVec w) = 0 := by ext <;> simp
        dsimp only
        rw [this]
        exact Vec3.HasRate.const _ _
    · have : v t = 0 := by
        rcases ht with ht | ht
        · exact (h4.before t ht).2
        · exact (h4.after t (h3 ▸ ht)).2
      rw [h7, this]
      ext <;> simp
    · rw [h7]
      refine ⟨?_, ?_⟩
      · rw [hn]; exact h4.slow t
      · rw [Vec3.norm_zero]; exact hV.le
    · rw [h7, h7]
      have e : (v t / shift.norm) • shift - (v s / shift.norm) • shift = ((v t - v s) / shift.norm) • shift := by
        ext <;> simp <;> ring
      refine ⟨?_, ?_⟩
      · rw [e, hn]; exact h4.soft s t
      · show ((0 : Vec3) - 0).norm ≤ _
        rw [show (0 : Vec3) - 0 = 0 from by ext <;> simp, Vec3.norm_zero]
        positivity

/-- The arm stretched down. -/
example : (⟨1, 0⟩ : Frame).IsRigid ∧ (0 : ℝ) < 0.05 ∧ (0 : ℝ) < 10 := ⟨Mat3.IsRot.one, by norm_num, by norm_num⟩

/-! ## The commands -/

theorem run_some (d : Demo) (t : ℝ) (e : List ℝ) {ok : Bool} {sols : List (List ℝ)}
    (h : d.problem.solve (d.traj.pos t) [] = some (ok, sols)) {r : Option (List ℝ)} {s : Selector}
    (hs : d.selector.select sols (e.map toRad) = some (r, s)) (hl : ∀ q, r = some q → e.length ≤ q.length) :
    d.run t (some e) = some (r.map (·.map toDeg), { d with selector := s }) := by
  unfold Demo.run
  unfold Selector.select at hs
  simp only [Option.bind_eq_bind, Option.bind_eq_some_iff] at hs
  obtain ⟨⟨ok1, s1⟩, h1, hs⟩ := hs
  rw [h]
  simp only [Option.bind_eq_bind, Option.bind_some, h1]
  cases ok1 with
  | false =>
    simp only [Bool.false_eq_true, ↓reduceIte, Option.pure_def, Option.some.injEq, Prod.mk.injEq] at hs
    obtain ⟨rfl, rfl⟩ := hs
    rfl
  | true =>
    simp only [↓reduceIte, Option.bind_eq_some_iff] at hs
    obtain ⟨⟨ok2, s2⟩, h2, hs⟩ := hs
    simp only [Bool.true_eq_false, ↓reduceIte, h2, Option.bind_some]
    cases ok2 with
    | false =>
      simp only [Bool.false_eq_true, ↓reduceIte, Option.pure_def, Option.some.injEq, Prod.mk.injEq] at hs
      obtain ⟨rfl, rfl⟩ := hs
      rfl
    | true =>
      simp only [↓reduceIte, Option.bind_eq_some_iff, Option.pure_def, Option.some.injEq, Prod.mk.injEq] at hs
      obtain ⟨q, h3, rfl, rfl⟩ := hs
      simp only [Bool.true_eq_false, ↓reduceIte, h3, Option.bind_some]
      rw [if_neg (not_lt.mpr (hl q rfl))]
      rfl

theorem run_none (d : Demo) (t : ℝ) {ok : Bool} {sols : List (List ℝ)}
    (h : d.problem.solve (d.traj.pos t) [] = some (ok, sols)) {ok' : Bool} {s : Selector}
    (hs : d.selector.configure sols = some (ok', s)) : d.run t none = some (none, { d with selector := s }) := by
  unfold Demo.run
  rw [h]
  simp only [Option.bind_eq_bind, Option.bind_some, hs]
  cases ok' <;> rfl

/-- What the inverse kinematics answers along the line. -/
def Answers (pb : IkProblem) (traj : Ctrl.Traj) (oks : ℝ → Bool) (sols : ℝ → List (List ℝ)) (m : ℕ) : Prop :=
  ∀ t, pb.solve (traj.pos t) [] = some (oks t, sols t) ∧ (sols t).length = m ∧ ∀ q ∈ sols t, q.length = 6

/-- What is sent once a candidate was chosen. -/
theorem runs_locked {oks : ℝ → Bool} {sols : ℝ → List (List ℝ)} {m i : ℕ} (him : i < m)
    (ticks : List (ℝ × Option (List ℝ))) (he : ∀ k ∈ ticks, ∀ e, k.2 = some e → e.length = 6) :
    ∀ d : Demo, Answers d.problem d.traj oks sols m → d.selector.Fits 6 → d.selector.lastValid = some i →
      d.runs ticks = some (ticks.map fun k => k.2.bind fun _ => ((sols k.1)[i]?).bind fun q =>
        open Classical in if d.selector.Acceptable q then some (q.map toDeg) else none) := by
  classical
  induction ticks with
  | nil => intro d _ _ _; rfl
  | cons k ticks ih =>
    intro d hA hf hl
    obtain ⟨t, e⟩ := k
    obtain ⟨a1, a2, a3⟩ := hA t
    have ih := ih (fun k hk => he k (List.mem_cons_of_mem _ hk))
    have hi : i < (sols t).length := by omega
    cases e with
    | none =>
      have h1 := run_none d t a1 (Selector.configure_eq hf a3)
      have h2 := ih { d with selector := { d.selector with configs := Selector.stored (InLimits d.selector.qMin d.selector.qMax) (sols t) } }
        hA ⟨hf.min, hf.max, hf.leg⟩ hl
      simp only [Demo.runs, h1, h2, Option.bind_eq_bind, Option.bind_some, List.map_cons, Option.bind_none]
      rfl
    | some e =>
      have hlen : (e.map toRad).length = 6 := by rw [List.length_map]; exact he _ List.mem_cons_self e rfl
      obtain ⟨s', g1, g2, g3, g4, g5⟩ := Selector.select_locked hf hl a3 hlen (List.getElem?_eq_getElem hi)
      have h1 := run_some d t e a1 g1 (by
        intro q hq
        split at hq
        · cases hq
          rw [a3 _ (List.getElem_mem hi), ← hlen, List.length_map]
        · cases hq)
      have hacc : s'.Acceptable = d.selector.Acceptable := by funext q; simp [Selector.Acceptable, g3, g4, g5]
      have h2 := ih { d with selector := s' } hA
        ⟨by rw [g4]; exact hf.min, by rw [g5]; exact hf.max, by rw [g3]; exact hf.leg⟩ g2
      simp only [hacc] at h2
      simp only [Demo.runs, h1, h2, Option.bind_eq_bind, Option.bind_some, List.map_cons,
        List.getElem?_eq_getElem hi]
      congr 2
      split_ifs <;> rfl

/-- What is sent from the beginning: nothing until a candidate is accepted, the closest one; then always the one with
the same index. -/
theorem runs_fresh {oks : ℝ → Bool} {sols : ℝ → List (List ℝ)} {m : ℕ}
    (ticks : List (ℝ × Option (List ℝ))) (he : ∀ k ∈ ticks, ∀ e, k.2 = some e → e.length = 6) :
    ∀ d : Demo, Answers d.problem d.traj oks sols m → d.selector.Fits 6 → d.selector.lastValid = none →
      ∃ (outs : List (Option (List ℝ))) (i : ℕ), d.runs ticks = some outs ∧ outs.length = ticks.length ∧
        (∀ (j : ℕ) (t : ℝ) (e : Option (List ℝ)) (c : List ℝ), ticks[j]? = some (t, e) → outs[j]? = some (some c) →
          ∃ q, (sols t)[i]? = some q ∧ d.selector.Acceptable q ∧ c = q.map toDeg ∧
            ((∀ l < j, outs[l]? = some none) → ∃ e', e = some e' ∧
              ∀ p ∈ sols t, d.selector.Acceptable p → cost (e'.map toRad) q ≤ cost (e'.map toRad) p)) ∧
        ∀ (j : ℕ) (t : ℝ) (e : List ℝ), ticks[j]? = some (t, some e) → outs[j]? = some none →
          m = 0 ∨ ∃ q ∈ sols t, ¬ d.selector.Acceptable q := by
  classical
  induction ticks with
  | nil => intro d _ _ _; exact ⟨[], 0, rfl, rfl, by simp, by simp⟩
  | cons k ticks ih =>
    intro d hA hf hl
    obtain ⟨t, e⟩ := k
    obtain ⟨a1, a2, a3⟩ := hA t
    have he' : ∀ k ∈ ticks, ∀ e, k.2 = some e → e.length = 6 := fun k hk => he k (List.mem_cons_of_mem _ hk)
    have ih := ih he'
    -- nothing sent now
    have hskip : ∀ d' : Demo, d.run t e = some (none, d') → d'.problem = d.problem → d'.traj = d.traj → d'.selector.Fits 6 →
        d'.selector.lastValid = none → d'.selector.Acceptable = d.selector.Acceptable →
        (∀ e', e = some e' → m = 0 ∨ ∃ q ∈ sols t, ¬ d.selector.Acceptable q) → ∃ (outs : List (Option (List ℝ))) (i : ℕ),
        d.runs ((t, e) :: ticks) = some outs ∧ outs.length = ((t, e) :: ticks).length ∧
        (∀ (j : ℕ) (t' : ℝ) (e' : Option (List ℝ)) (c : List ℝ), ((t, e) :: ticks)[j]? = some (t', e') →
          outs[j]? = some (some c) → ∃ q, (sols t')[i]? = some q ∧ d.selector.Acceptable q ∧ c = q.map toDeg ∧
            ((∀ l < j, outs[l]? = some none) → ∃ e'', e' = some e'' ∧
              ∀ p ∈ sols t', d.selector.Acceptable p → cost (e''.map toRad) q ≤ cost (e''.map toRad) p)) ∧
        ∀ (j : ℕ) (t' : ℝ) (e' : List ℝ), ((t, e) :: ticks)[j]? = some (t', some e') → outs[j]? = some none →
          m = 0 ∨ ∃ q ∈ sols t', ¬ d.selector.Acceptable q := by
      intro d' hrun hp htr hf' hl' hacc hno
      obtain ⟨outs, i, r1, r2, r3, r4⟩ := ih d' (by rw [hp, htr]; exact hA) hf' hl'
      rw [hacc] at r3 r4
      refine ⟨none :: outs, i, ?_, by simp [r2], ?_, ?_⟩
      · simp only [Demo.runs, hrun, r1, Option.bind_eq_bind, Option.bind_some]
      · intro j t' e' c hj ho
        cases j with
        | zero => simp at ho
        | succ j =>
          obtain ⟨q, q1, q2, q3, q4⟩ := r3 j t' e' c (by simpa using hj) (by simpa using ho)
          exact ⟨q, q1, q2, q3, fun hlt => q4 fun l hl => by simpa using hlt (l + 1) (by omega)⟩
      · intro j t' e' hj ho
        cases j with
        | zero =>
          simp only [List.getElem?_cons_zero, Option.some.injEq, Prod.mk.injEq] at hj
          obtain ⟨rfl, rfl⟩ := hj
          exact hno e' rfl
        | succ j => exact r4 j t' e' (by simpa using hj) (by simpa using ho)
    cases e with
    | none =>
      have h1 := run_none d t a1 (Selector.configure_eq hf a3)
      exact hskip _ h1 rfl rfl ⟨hf.min, hf.max, hf.leg⟩ hl rfl (by simp)
    | some e =>
      have hlen : (e.map toRad).length = 6 := by rw [List.length_map]; exact he _ List.mem_cons_self e rfl
      rcases Selector.select_fresh hf hl a3 hlen with ⟨s', g1, g2, g3, g4, g5, g6⟩ |
        ⟨i, q, s', g1, g2, g3, g4, g5, g6, g7, g8⟩
      · have h1 := run_some d t e a1 g1 (by simp)
        refine hskip _ h1 rfl rfl ⟨by rw [g4]; exact hf.min, by rw [g5]; exact hf.max, by rw [g3]; exact hf.leg⟩ g2
          (by funext q; simp [Selector.Acceptable, g3, g4, g5]) ?_
        intro e' _
        rcases Nat.eq_zero_or_pos m with hm | hm
        · exact Or.inl hm
        · have h0 : 0 < (sols t).length := by omega
          exact Or.inr ⟨_, List.getElem_mem h0, g6 _ (List.getElem_mem h0)⟩
      · have hqm := List.mem_of_getElem? g1
        have h1 := run_some d t e a1 g2 (by
          intro q' hq'
          cases hq'
          rw [a3 q hqm, ← hlen, List.length_map])
        have hi : i < m := by rw [← a2]; exact (List.getElem?_eq_some_iff.mp g1).1
        have hacc : s'.Acceptable = d.selector.Acceptable := by funext q; simp [Selector.Acceptable, g4, g5, g6]
        have h2 := runs_locked hi ticks he' { d with selector := s' } hA
          ⟨by rw [g5]; exact hf.min, by rw [g6]; exact hf.max, by rw [g4]; exact hf.leg⟩ g3
        simp only [hacc] at h2
        refine ⟨_, i, by simp only [Demo.runs, h1, h2, Option.bind_eq_bind, Option.bind_some]; rfl, by simp, ?_, ?_⟩
        · intro j t' e' c hj ho
          cases j with
          | zero =>
            simp only [List.getElem?_cons_zero, Option.some.injEq, Prod.mk.injEq] at hj
            obtain ⟨rfl, rfl⟩ := hj
            simp only [List.getElem?_cons_zero, Option.some.injEq] at ho
            refine ⟨q, g1, g7, ?_, fun _ => ⟨e, rfl, fun p hp hap => ?_⟩⟩
            · simpa using ho.symm
            · obtain ⟨j, hj, rfl⟩ := List.getElem_of_mem hp
              rcases g8 j _ (List.getElem?_eq_getElem hj) hap with h | h
              · exact h.le
              · exact h.1.le
          | succ j =>
            have hj' : ticks[j]? = some (t', e') := by simpa using hj
            simp only [List.getElem?_cons_succ, List.getElem?_map, hj', Option.map_some, Option.some.injEq] at ho
            obtain ⟨b1, b2, b3⟩ := hA t'
            have hit : i < (sols t').length := by omega
            cases e' with
            | none => cases ho
            | some e' =>
              simp only [Option.bind_some, List.getElem?_eq_getElem hit] at ho
              split at ho
              · rename_i hac
                refine ⟨_, List.getElem?_eq_getElem hit, hac, by simpa using ho.symm, fun hlt => ?_⟩
                have := hlt 0 (by omega)
                simp at this
              · cases ho
        · intro j t' e' hj ho
          cases j with
          | zero => simp at ho
          | succ j =>
            have hj' : ticks[j]? = some (t', some e') := by simpa using hj
            simp only [List.getElem?_cons_succ, List.getElem?_map, hj', Option.map_some, Option.some.injEq] at ho
            obtain ⟨b1, b2, b3⟩ := hA t'
            have hit : i < (sols t').length := by omega
            simp only [Option.bind_some, List.getElem?_eq_getElem hit] at ho
            split at ho
            · cases ho
            · rename_i hac
              exact Or.inr ⟨_, List.getElem_mem hit, hac⟩

/-- What `main` hands over. -/
theorem main_form {rnd : ℕ → ℝ} {r : Robot} {V T : ℝ} {d : Demo} (h : main rnd r V T = some (some d)) :
    r.encoders.length = 6 ∧ ∃ start subs lims, teoLeftArm.evaluate (r.encoders.map toRad) 1 = (true, start) ∧
      build rnd teoLeftArm = some (some (d.problem, subs)) ∧ (List.range 6).mapM r.limits = some lims ∧
      d.selector = Selector.make false (lims.map Prod.fst) (lims.map Prod.snd) ∧ line start V T = some d.traj := by
  unfold main at h
  simp only [teo_length, Option.bind_eq_bind] at h
  split at h
  · cases h
  rename_i h1
  split at h
  · simp at h
  rename_i h2
  rw [Option.bind_eq_some_iff] at h
  obtain ⟨b, hb, h⟩ := h
  cases b with
  | none => simp at h
  | some b =>
    obtain ⟨pb, subs⟩ := b
    dsimp only at h
    cases hl : (List.range 6).mapM r.limits with
    | none => rw [hl] at h; simp at h
    | some lims =>
      rw [hl] at h
      simp only [Selector.createLeast, Option.bind_eq_some_iff] at h
      obtain ⟨traj, ht, h⟩ := h
      split at h
      · cases h
      rename_i h3
      split at h
      · simp only [Option.some.injEq] at h
        subst h
        have h6 : r.encoders.length = 6 := by omega
        have htk : r.encoders.take 6 = r.encoders := List.take_of_length_le (by omega)
        rw [htk] at h2 ht
        refine ⟨h6, _, subs, lims, ?_, hb, rfl, rfl, ht⟩
        rw [Bool.not_eq_false] at h2
        exact Prod.ext h2 rfl
      · simp at h

theorem toRad_toDeg (x : ℝ) : toRad (toDeg x) = x := by
  unfold toRad toDeg
  field_simp [pi_pos.ne']

theorem limits_read {f : ℕ → Option (ℝ × ℝ)} {lims : List (ℝ × ℝ)} (h : (List.range 6).mapM f = some lims) :
    lims.length = 6 ∧ ∀ k < 6, f k = lims[k]? := by
  simp only [show List.range 6 = [0, 1, 2, 3, 4, 5] from rfl, List.mapM_cons, List.mapM_nil, Option.bind_eq_bind,
    Option.pure_def, Option.bind_eq_some_iff, Option.some.injEq] at h
  obtain ⟨a0, h0, _, ⟨a1, h1, _, ⟨a2, h2, _, ⟨a3, h3, _, ⟨a4, h4, _, ⟨a5, h5, _, rfl, rfl⟩, rfl⟩, rfl⟩, rfl⟩, rfl⟩, rfl⟩ := h
  refine ⟨rfl, fun k hk => ?_⟩
  match k, hk with
  | 0, _ => exact h0
  | 1, _ => exact h1
  | 2, _ => exact h2
  | 3, _ => exact h3
  | 4, _ => exact h4
  | 5, _ => exact h5

theorem count_pos (s : Subproblem) : 0 < s.count := by cases s <;> simp [Subproblem.count]

/-- The inverse kinematics of the example answers along any trajectory. -/
theorem answers {rnd : ℕ → ℝ} {pb : IkProblem} {subs : List Subproblem} (hb : build rnd teoLeftArm = some (some (pb, subs)))
    (traj : Ctrl.Traj) : ∃ oks sols m, 0 < m ∧ Answers pb traj oks sols m ∧
      ∀ t, ∀ q ∈ sols t, ∀ x ∈ q, -π ≤ x ∧ x ≤ π := by
  have hm := teo_margin hb
  have hwf := C19_built_problem_wellformed _ _ teo_unit teo_rigid pb subs hb hm
  have h1 := fun t => C15_revolute_joints_within_half_turn _ _ teo_unit teo_rigid pb subs hb hm (traj.pos t) []
  choose oks sols h2 h3 using h1
  refine ⟨oks, sols, (subs.map fun s => s.toStep.count).prod, ?_, fun t => ⟨h2 t, ?_, fun q hq => ?_⟩, fun t q hq x hx => ?_⟩
  · apply Nat.pos_of_ne_zero; apply List.prod_ne_zero
    intro h0
    obtain ⟨s, -, hs⟩ := List.mem_map.mp h0
    have := count_pos s
    cases s <;> simp [Subproblem.toStep, Subproblem.count] at hs
  · obtain ⟨ok, sols', g1, g2, -⟩ := IkProblem.solve_eq hwf.stepsPair hwf.stepsOK (traj.pos t) []
    rw [h2 t, Option.some.injEq, Prod.mk.injEq] at g1
    rw [g1.2, g2, List.map_map]
    rfl
  · rw [(h3 t q hq).1, teo_length]
  · obtain ⟨k, hk, rfl⟩ := List.getElem_of_mem hx
    have hk' : k < teoLeftArm.exps.length := by rw [← (h3 t q hq).1]; exact hk
    exact (h3 t q hq).2 k _ _ (List.getElem?_eq_getElem hk') (teo_rotations _ (List.getElem_mem hk')) (List.getElem?_eq_getElem hk)

/-- `q`, in radians, compared with the limits as told by the robot, in degrees. -/
def Confused (limits : ℕ → Option (ℝ × ℝ)) (q : List ℝ) : Prop :=
  ∀ k < 6, ∀ lo hi x, limits k = some (lo, hi) → q[k]? = some x → lo - eps ≤ x ∧ x ≤ hi + eps

theorem acceptable_iff {f : ℕ → Option (ℝ × ℝ)} {lims : List (ℝ × ℝ)} (h : (List.range 6).mapM f = some lims)
    (q : List ℝ) : (Selector.make false (lims.map Prod.fst) (lims.map Prod.snd)).Acceptable q ↔ Confused f q := by
  obtain ⟨h1, h2⟩ := limits_read h
  unfold Selector.Acceptable InLimits Confused Selector.make
  simp only [Bool.false_eq_true, false_implies, and_true, List.getElem?_map, Option.map_eq_some_iff]
  constructor
  · intro hq k hk lo hi x hf hx
    rw [h2 k hk] at hf
    exact hq k x lo hi hx ⟨_, hf, rfl⟩ ⟨_, hf, rfl⟩
  · rintro hq k x lo hi hx ⟨p, hp, rfl⟩ ⟨p', hp', rfl⟩
    cases hp.symm.trans hp'
    have hk : k < 6 := by rw [← h1]; exact (List.getElem?_eq_some_iff.mp hp).1
    exact hq k hk _ _ x (by rw [h2 k hk, hp]) hx

/-- **C87.** Whatever the random points, the robot and the times at which the thread runs: the thread does not fail,
and follows a line from the pose that corresponds to the encoders at the start. Each command is one of the
configurations that the inverse kinematics gives for the pose of the line at that time, always the one with the
same index, which is at the beginning the closest to the encoders among those accepted; nothing is sent
only if the encoders could not be read or some configuration is not accepted. The commands are always
within half a turn.

Partial: the configurations are accepted by comparing radians with the limits in degrees, so the commands may lie
outside the limits, and the inverse kinematics may be told that the pose is out of reach. -/
theorem C87_commands_partial {rnd : ℕ → ℝ} {r : Robot} {V T : ℝ} (hV : 0 < V) (hT : 0 < T) {d : Demo}
    (h : main rnd r V T = some (some d)) (ticks : List (ℝ × Option (List ℝ)))
    (he : ∀ k ∈ ticks, ∀ e, k.2 = some e → e.length = 6) :
    ∃ (start : Frame) (outs : List (Option (List ℝ))) (i : ℕ),
      teoLeftArm.evaluate (r.encoders.map toRad) 1 = (true, start) ∧
      Ctrl.GoesStraight start ⟨start.M, start.p + shift⟩ d.traj ∧ d.runs ticks = some outs ∧ outs.length = ticks.length ∧
      ∀ (j : ℕ) (t : ℝ) (e : Option (List ℝ)), ticks[j]? = some (t, e) →
        ∃ ok sols, d.problem.solve (d.traj.pos t) [] = some (ok, sols) ∧
          (∀ c, outs[j]? = some (some c) → ∃ q, sols[i]? = some q ∧ c = q.map toDeg ∧ c.length = 6 ∧
            (∀ x ∈ c, -180 ≤ x ∧ x ≤ 180) ∧ Confused r.limits q ∧
            ((∀ l < j, outs[l]? = some none) → ∃ e', e = some e' ∧
              ∀ p ∈ sols, Confused r.limits p → cost (e'.map toRad) q ≤ cost (e'.map toRad) p)) ∧
          (outs[j]? = some none → e = none ∨ ∃ q ∈ sols, ¬ Confused r.limits q) := by
  obtain ⟨h6, start, subs, lims, h1, h2, h3, h4, h5⟩ := main_form h
  have hrig : start.IsRigid := by
    have := C03_evaluate_is_rigid teoLeftArm (r.encoders.map toRad) 1 teo_unit teo_rigid
      (by rw [teo_length, List.length_map, h6])
    rwa [h1] at this
  obtain ⟨traj, t1, t2, -⟩ := C87_line hrig hV hT
  cases Option.some.inj (h5.symm.trans t1)
  obtain ⟨oks, sols, m, m0, hA, hpi⟩ := answers h2 d.traj
  obtain ⟨l1, l2⟩ := limits_read h3
  obtain ⟨outs, i, o1, o2, o3, o4⟩ := runs_fresh ticks he d hA
    (by rw [h4]; exact ⟨by simp [Selector.make, l1], by simp [Selector.make, l1], by simp [Selector.make]⟩)
    (by rw [h4]; rfl)
  have hacc : ∀ q, d.selector.Acceptable q ↔ Confused r.limits q := fun q => by rw [h4]; exact acceptable_iff h3 q
  refine ⟨start, outs, i, h1, t2, o1, o2, fun j t e hj => ⟨oks t, sols t, (hA t).1, fun c hc => ?_, fun hn => ?_⟩⟩
  · obtain ⟨q, q1, q2, q3, q4⟩ := o3 j t e c hj hc
    refine ⟨q, q1, q3, ?_, ?_, (hacc q).mp q2, fun hl => ?_⟩
    · rw [q3, List.length_map]
      exact (hA t).2.2 q (List.mem_of_getElem? q1)
    · intro x hx
      rw [q3] at hx
      obtain ⟨y, hy, rfl⟩ := List.mem_map.mp hx
      obtain ⟨y1, y2⟩ := hpi t q (List.mem_of_getElem? q1) y hy
      unfold toDeg
      rw [mul_div_assoc', le_div_iff₀ pi_pos, div_le_iff₀ pi_pos]
      constructor <;> nlinarith [pi_pos]
    · obtain ⟨e', e1, e2⟩ := q4 hl
      exact ⟨e', e1, fun p hp hc => e2 p hp ((hacc p).mpr hc)⟩
  · cases e with
    | none => exact Or.inl rfl
    | some e =>
      rcases o4 j t e hj hn with hm | ⟨q, hq, ha⟩
      · omega
      · exact Or.inr ⟨q, hq, fun hc => ha ((hacc q).mpr hc)⟩

/-- **C87.** Joints with limits of more than four degrees to either side: they never keep a command from being sent,
reachable or not. -/
theorem C87_limits_never_checked {rnd : ℕ → ℝ} {r : Robot} {V T : ℝ} (hV : 0 < V) (hT : 0 < T) {d : Demo}
    (h : main rnd r V T = some (some d)) (hlim : ∀ k lo hi, r.limits k = some (lo, hi) → lo ≤ -4 ∧ 4 ≤ hi)
    (ticks : List (ℝ × Option (List ℝ))) (he : ∀ k ∈ ticks, ∀ e, k.2 = some e → e.length = 6) :
    ∃ outs : List (Option (List ℝ)), d.runs ticks = some outs ∧
      ∀ (j : ℕ) (t : ℝ) (e : List ℝ), ticks[j]? = some (t, some e) → ∃ c, outs[j]? = some (some c) := by
  obtain ⟨start, outs, i, -, -, h1, h2, h3⟩ := C87_commands_partial hV hT h ticks he
  refine ⟨outs, h1, fun j t e hj => ?_⟩
  have hjl : j < outs.length := by rw [h2]; exact (List.getElem?_eq_some_iff.mp hj).1
  cases ho : outs[j] with
  | some c => exact ⟨c, by rw [List.getElem?_eq_getElem hjl, ho]⟩
  | none =>
    exfalso
    obtain ⟨ok, sols, g1, -, g2⟩ := h3 j t (some e) hj
    rcases g2 (by rw [List.getElem?_eq_getElem hjl, ho]) with hc | ⟨q, hq, hc⟩
    · cases hc
    · apply hc
      intro k hk lo hi x hf hx
      obtain ⟨-, -, subs, -, -, hb, -⟩ := main_form h
      obtain ⟨ok', sols', s1, s2⟩ := C15_revolute_joints_within_half_turn _ _ teo_unit teo_rigid d.problem subs hb
        (teo_margin hb) (d.traj.pos t) []
      rw [g1, Option.some.injEq, Prod.mk.injEq] at s1
      rw [s1.2] at hq
      have hk' : k < teoLeftArm.exps.length := by rw [teo_length]; exact hk
      have := (s2 q hq).2 k _ x (List.getElem?_eq_getElem hk') (teo_rotations _ (List.getElem_mem hk')) hx
      obtain ⟨a, b⟩ := hlim k lo hi hf
      have hpi := pi_le_four
      have heps : (0 : ℝ) ≤ eps := by norm_num [eps]
      constructor <;> linarith [this.1, this.2]

/-! ## The poses reached -/

theorem teo_within : Within teoProblem.poe.exps
    [⟨63401 / 100000, 0, 0⟩, ⟨63401 / 100000, 0, 54796144293 / 214748364700⟩, 0] 0.7 := by
  have key : ∀ v : Vec3, v.x ^ 2 + v.y ^ 2 + v.z ^ 2 ≤ 0.49 → v.norm ≤ 0.7 := by
    intro v hv
    refine abs_le_of_sq_le_sq' ?_ (by norm_num) |>.2
    rw [Vec3.norm_sq]
    norm_num [Vec3.dot]
    nlinarith
  have he : ∀ e ∈ teoProblem.poe.exps, e.origin = ⟨9 / 100, 0, 0⟩ ∨ e.origin = ⟨305 / 1000, 0, 0⟩ ∨
      e.origin = ⟨63401 / 100000, 0, 0⟩ := by
    intro e he
    rw [show teoProblem.poe.exps = backward.map E.real from teo_back_exps] at he
    simp only [backward, List.map_cons, List.map_nil, List.mem_cons, List.not_mem_nil, or_false] at he
    rcases he with rfl | rfl | rfl | rfl | rfl | rfl <;> simp [E.real, V.real]
  constructor
  · intro e h1 e' h2
    apply key
    rcases he e h1 with h | h | h <;> rcases he e' h2 with h' | h' | h' <;> rw [h, h'] <;> norm_num
  · intro p hp e h1
    simp only [List.mem_cons, List.not_mem_nil, or_false] at hp
    apply key
    rcases he e h1 with h | h | h <;> rcases hp with rfl | rfl | rfl <;> rw [h] <;> norm_num

theorem teo_settles : SettlesPoint 6 (teoSteps.map S.real) 1 ⟨63401 / 100000, 0, 0⟩ ∧
    SettlesPoint 6 (teoSteps.map S.real) 2 ⟨63401 / 100000, 0, 54796144293 / 214748364700⟩ ∧
    SettlesPoint 6 (teoSteps.map S.real) 3 0 := by
  refine ⟨⟨0, 1, 3, Or.inr ⟨E.real ⟨⟨0, 0, 1⟩, ⟨9 / 100, 0, 0⟩⟩, E.real ⟨⟨1, 0, 0⟩, ⟨305 / 1000, 0, 0⟩⟩,
      V.real ⟨9 / 100, 0, 0⟩, ?_⟩, by omega, by omega, ?_, ?_⟩,
    ⟨3, 4, 5, Or.inr ⟨E.real ⟨⟨1, 0, 0⟩, ⟨63401 / 100000, 0, 0⟩⟩, E.real ⟨⟨0, 1, 0⟩, ⟨63401 / 100000, 0, 0⟩⟩,
      V.real ⟨63401 / 100000, 0, 0⟩, ?_⟩, by omega, by omega, ?_, ?_⟩,
    ⟨5, 5, 6, Or.inl ⟨E.real ⟨⟨0, 0, 1⟩, ⟨63401 / 100000, 0, 0⟩⟩, ?_, rfl⟩, by omega, by omega, ?_, ?_⟩⟩
  · simp only [teoSteps, List.map_cons, List.getElem?_cons_succ, List.getElem?_cons_zero, S.real, Option.some.injEq,
      Subproblem.pk2.injEq]
    refine ⟨trivial, trivial, trivial, trivial, by ext <;> simp [V.real], trivial⟩
  · simp [teoSteps, S.real, Subproblem.ids]
  · intro j h1 h2
    simp [teoSteps, S.real, Subproblem.ids]
    omega
  · simp only [teoSteps, List.map_cons, List.getElem?_cons_succ, List.getElem?_cons_zero, S.real, Option.some.injEq,
      Subproblem.pk2.injEq]
    refine ⟨trivial, trivial, trivial, trivial, by ext <;> simp [V.real, drawnPoint], trivial⟩
  · simp [teoSteps, S.real, Subproblem.ids]
  · intro j h1 h2
    simp [teoSteps, S.real, Subproblem.ids]
    omega
  · simp only [teoSteps, List.map_cons, List.getElem?_cons_succ, List.getElem?_cons_zero, S.real, Option.some.injEq,
      Subproblem.pk1.injEq]
    refine ⟨trivial, trivial, by ext <;> simp [V.real]⟩
  · simp [teoSteps, S.real, Subproblem.ids]
  · intro j h1 h2
    omega

theorem teo_reached {T : Frame} (hT : T.IsRigid) {sols : List (List ℝ)}
    (hs : teoProblem.solve T [] = some (true, sols)) {q : List ℝ} (hq : q ∈ sols) :
    ∃ FK, teoLeftArm.evaluate q 1 = (true, FK) ∧
      (∀ v, (FK.M.mulVec v - T.M.mulVec v).norm ≤ 0.024 * v.norm) ∧
      (FK.p - T.p).norm ≤ 0.0011 + 0.024 * (T.p - shoulder).norm := by
  obtain ⟨s0, s1, s2⟩ := teo_settles
  have heps : √eps = 0.001 := by
    rw [show (eps : ℝ) = 0.001 ^ 2 by norm_num [eps]]
    exact sqrt_sq (by norm_num)
  set p0 : Vec3 := ⟨63401 / 100000, 0, 0⟩ with hp0
  set p1 : Vec3 := ⟨63401 / 100000, 0, 54796144293 / 214748364700⟩ with hp1
  have n1 : (p1 - p0).norm = 54796144293 / 214748364700 := by
    rw [show p1 - p0 = ⟨0, 0, 54796144293 / 214748364700⟩ from by ext <;> simp [hp0, hp1]]
    simp only [Vec3.norm, Vec3.dot]
    rw [show (0 : ℝ) * 0 + 0 * 0 + 54796144293 / 214748364700 * (54796144293 / 214748364700) =
      (54796144293 / 214748364700) ^ 2 by ring]
    exact sqrt_sq (by norm_num)
  have n2 : ((0 : Vec3) - p0).norm = 63401 / 100000 := by
    rw [show (0 : Vec3) - p0 = ⟨-(63401 / 100000), 0, 0⟩ from by ext <;> simp [hp0]]
    simp only [Vec3.norm, Vec3.dot]
    rw [show -(63401 / 100000 : ℝ) * -(63401 / 100000) + 0 * 0 + 0 * 0 = (63401 / 100000) ^ 2 by ring]
    exact sqrt_sq (by norm_num)
  have hcr : Vec3.cross (p1 - p0) (0 - p0) = ⟨0, -(54796144293 / 214748364700 * (63401 / 100000)), 0⟩ := by
    ext <;> simp [Vec3.cross, hp0, hp1]
  have n3 : (Vec3.cross (p1 - p0) (0 - p0)).norm = 54796144293 / 214748364700 * (63401 / 100000) := by
    rw [hcr]
    simp only [Vec3.norm, Vec3.dot]
    rw [show (0 : ℝ) * 0 + -(54796144293 / 214748364700 * (63401 / 100000)) * -(54796144293 / 214748364700 * (63401 / 100000))
      + 0 * 0 = (54796144293 / 214748364700 * (63401 / 100000)) ^ 2 by ring]
    exact sqrt_sq (by norm_num)
  obtain ⟨FK, f1, f2, f3⟩ := C18_pose_reached_partial _ _ teo_unit teo_rigid teo_rotations teoProblem _ teo_build
    (teo_margin teo_build) T hT [] sols hs q hq 1 2 3 p0 p1 0 (by rw [teo_length]; exact s0) (by rw [teo_length]; exact s1)
    (by rw [teo_length]; exact s2) (by
      intro h0
      have := congrArg Vec3.y (hcr.symm.trans h0)
      norm_num at this) 0.7 teo_within _ _ rfl rfl
  rw [n1, n2, n3, heps, teo_length] at f2 f3
  have hpr : (0 - teoProblem.probe T p0).norm = (T.p - shoulder).norm := by
    have e1 : teoProblem.probe T p0 = T.inv.act shoulder := by
      unfold IkProblem.probe
      rw [if_pos (show teoProblem.reversed = true from rfl)]
      congr 1
      have : teoProblem.poe.tool.inv = teoLeftArm.tool := teo_rigid.inv_inv
      rw [this, teo_tool]
      (ext <;> simp [Frame.act, hp0, shoulder]); norm_num
    have e2 : T.act (0 : Vec3) - T.act (teoProblem.probe T p0) = T.M.mulVec (0 - teoProblem.probe T p0) := by
      ext <;> simp [Frame.act] <;> ring
    have e3 : T.act (0 : Vec3) = T.p := by ext <;> simp [Frame.act]
    rw [← Mat3.IsRot.norm hT (0 - teoProblem.probe T p0), ← e2, e1, hT.act_act_inv, e3]
  refine ⟨FK, f1, fun v => (f2 v).trans (mul_le_mul_of_nonneg_right ?_ (Vec3.norm_nonneg v)), ?_⟩
  · norm_num [eps]
  · have := f3 0
    rw [hpr] at this
    have e : FK.act 0 - T.act 0 = FK.p - T.p := by ext <;> simp [Frame.act]
    rw [e] at this
    refine this.trans (add_le_add ?_ (mul_le_mul_of_nonneg_right ?_ (Vec3.norm_nonneg _)))
    · norm_num [eps]
    · norm_num [eps]

/-- **C87.** With the random points that the GNU library draws first: whenever the inverse kinematics tells that the
pose of the line is within reach, the forward kinematics of the command sent is close to that pose.

Partial: the thread does not look at what the inverse kinematics tells, and sends commands for poses out of reach. -/
theorem C87_near_partial {r : Robot} {V T : ℝ} (hV : 0 < V) (hT : 0 < T) {d : Demo}
    (h : main (fun n => (gnuDraw n : ℝ)) r V T = some (some d)) (ticks : List (ℝ × Option (List ℝ)))
    (he : ∀ k ∈ ticks, ∀ e, k.2 = some e → e.length = 6) :
    ∃ outs : List (Option (List ℝ)), d.runs ticks = some outs ∧
      ∀ (j : ℕ) (t : ℝ) (e : Option (List ℝ)) (c : List ℝ), ticks[j]? = some (t, e) → outs[j]? = some (some c) →
        (∃ sols, d.problem.solve (d.traj.pos t) [] = some (true, sols)) →
        ∃ FK, teoLeftArm.evaluate (c.map toRad) 1 = (true, FK) ∧
          (∀ v, (FK.M.mulVec v - (d.traj.pos t).M.mulVec v).norm ≤ 0.024 * v.norm) ∧
          (FK.p - (d.traj.pos t).p).norm ≤ 0.0011 + 0.024 * ((d.traj.pos t).p - shoulder).norm := by
  obtain ⟨start, outs, i, h1, -, h2, -, h3⟩ := C87_commands_partial hV hT h ticks he
  obtain ⟨h6, start', subs, lims, m1, m2, -, -, m5⟩ := main_form h
  cases (Prod.mk.inj (h1.symm.trans m1)).2
  rw [teo_build, Option.some.injEq, Option.some.injEq, Prod.mk.injEq] at m2
  have hrig : start.IsRigid := by
    have := C03_evaluate_is_rigid teoLeftArm (r.encoders.map toRad) 1 teo_unit teo_rigid
      (by rw [teo_length, List.length_map, h6])
    rwa [h1] at this
  obtain ⟨traj, t1, -, t2, -⟩ := C87_line hrig hV hT
  cases Option.some.inj (m5.symm.trans t1)
  refine ⟨outs, h2, fun j t e c hj hc ⟨sols, hs⟩ => ?_⟩
  obtain ⟨ok, sols', g1, g2, -⟩ := h3 j t e hj
  rw [hs, Option.some.injEq, Prod.mk.injEq] at g1
  obtain ⟨q, q1, q2, -⟩ := g2 c hc
  rw [← g1.2] at q1
  rw [← m2.1] at hs
  have hTr : (d.traj.pos t).IsRigid := by
    unfold Frame.IsRigid
    rw [t2 t]
    exact hrig
  obtain ⟨FK, f⟩ := teo_reached hTr hs (List.mem_of_getElem? q1)
  refine ⟨FK, ?_⟩
  rw [q2, List.map_map, show toRad ∘ toDeg = id from funext toRad_toDeg, List.map_id]
  exact f

/-! ## Stopping, and other robots -/

/-- **C87.** The program stops the thread after the duration asked for, which the trajectory may exceed: with a speed
limit of 0.05 and a duration of one second, the thread is stopped more than 15 cm away from the end of the line. -/
theorem C87_cut_short_counterexample {start : Frame} (hs : start.IsRigid) :
    ∃ traj, line start 0.05 1 = some traj ∧ Ctrl.GoesStraight start ⟨start.M, start.p + shift⟩ traj ∧
      ∀ t ≤ 1, 0.15 < ((start.p + shift) - (traj.pos t).p).norm := by
  obtain ⟨traj, h1, h2, -⟩ := C87_line hs (V := 0.05) (T := 1) (by norm_num) (by norm_num)
  obtain ⟨x, v, D, traj', g1, g2, g3, g4, g5, g6, g7⟩ := line_form hs (V := 0.05) (T := 1) (by norm_num) (by norm_num)
  cases Option.some.inj (h1.symm.trans g1)
  refine ⟨traj, h1, h2, fun t ht => ?_⟩
  obtain ⟨hL, -⟩ := shift_norm
  obtain ⟨hb, -⟩ := shift_bounds
  have hx : x t ≤ 0.05 := by
    rcases le_total t 0 with h0 | h0
    · rw [(g4.before t h0).1]
      norm_num
    · have hd : Differentiable ℝ x := fun t => (g4.deriv t).differentiableAt
      have := Convex.image_sub_le_mul_sub_of_deriv_le (f := x) (C := 0.05) convex_univ hd.continuous.continuousOn
        hd.differentiableOn (fun t _ => by rw [(g4.deriv t).deriv]; exact (abs_le.mp (g4.slow t)).2) 0 trivial t trivial h0
      rw [(g4.before 0 le_rfl).1] at this
      linarith
  rw [g6]
  dsimp only
  have e : start.p + shift - (start.p + (x t / shift.norm) • shift) = ((shift.norm - x t) / shift.norm) • shift := by
    have : (shift.norm - x t) / shift.norm = 1 - x t / shift.norm := by rw [sub_div, div_self hL.ne']
    rw [this]
    ext <;> simp <;> ring
  rw [e, Vec3.norm_smul, abs_div, abs_of_pos hL, div_mul_cancel₀ _ hL.ne', abs_of_pos (by linarith)]
  linarith

/-- **C87.** A robot part with more axes than the arm has joints: undefined behaviour, an array of six control modes is
read past its end. -/
theorem C87_more_axes_counterexample {r : Robot} (V T : ℝ) (h7 : r.encoders.length = 7)
    (hl : ∀ k, ∃ l, r.limits k = some l) : main (fun n => (gnuDraw n : ℝ)) r V T = none := by
  have hlen : teoLeftArm.exps.length = ((r.encoders.take 6).map toRad).length := by
    rw [teo_length, List.length_map, List.length_take, h7]
    rfl
  have hev := C03_evaluate_is_product teoLeftArm ((r.encoders.take 6).map toRad) 1 hlen
  choose l hl using hl
  have hm : (List.range 6).mapM r.limits = some ((List.range 6).map l) := by
    rw [show r.limits = fun k => some (l k) from funext hl]
    rfl
  unfold main
  simp only [teo_length, h7, teo_build, hm, Selector.createLeast, hev, Option.bind_eq_bind, Option.bind_some]
  simp

/-- The arm with the elbow bent. -/
theorem demo_starts : ∃ d, main (fun n => (gnuDraw n : ℝ)) ⟨[0, 0, 0, -90, 0, 0], fun _ => some (-90, 90), true⟩ 0.05 10 =
    some (some d) := by
  have hlen : teoLeftArm.exps.length = (([0, 0, 0, -90, 0, 0] : List ℝ).map toRad).length := by
    rw [teo_length]
    rfl
  have hev := C03_evaluate_is_product teoLeftArm (([0, 0, 0, -90, 0, 0] : List ℝ).map toRad) 1 hlen
  have hrig := C03_evaluate_is_rigid teoLeftArm (([0, 0, 0, -90, 0, 0] : List ℝ).map toRad) 1 teo_unit teo_rigid hlen
  obtain ⟨traj, t1, -⟩ := C87_line hrig (V := 0.05) (T := 10) (by norm_num) (by norm_num)
  refine ⟨⟨teoProblem, Selector.make false (List.replicate 6 (-90)) (List.replicate 6 90), traj⟩, ?_⟩
  have hm : (List.range 6).mapM (fun _ => some ((-90 : ℝ), (90 : ℝ))) = some (List.replicate 6 (-90, 90)) := rfl
  unfold main
  simp only [teo_length, teo_build, hm, Selector.createLeast, Option.bind_eq_bind, Option.bind_some]
  have htk : ([0, 0, 0, -90, 0, 0] : List ℝ).take 6 = [0, 0, 0, -90, 0, 0] := rfl
  rw [htk, t1, hev]
  rfl

/-! ## A stretched arm -/

open Classical in
theorem elbow_step : (S.real (.pk3 2 ⟨⟨0, 0, 1⟩, ⟨305 / 1000, 0, 0⟩⟩ ⟨63401 / 100000, 0, 0⟩ ⟨9 / 100, 0, 0⟩)).toStep.solve 1 1 =
    some (true, [[(2, π)], [(2, π)]]) := by
  have nrm : ∀ x : ℝ, Vec3.norm ⟨x, 0, 0⟩ = |x| := by
    intro x; rw [Vec3.norm, show Vec3.dot ⟨x, 0, 0⟩ ⟨x, 0, 0⟩ = x ^ 2 by simp [Vec3.dot]; ring, sqrt_sq_eq_abs]
  have rej : ∀ x : ℝ, axisRej ⟨0, 0, 1⟩ ⟨x, 0, 0⟩ = ⟨x, 0, 0⟩ := by
    intro x; rw [axisRej_eq]; ext <;> simp [Vec3.dot]
  have sub : ∀ x y : ℝ, (⟨x, 0, 0⟩ : Vec3) - ⟨y, 0, 0⟩ = ⟨x - y, 0, 0⟩ := by intro x y; ext <;> simp
  have hang : angleAbout ⟨0, 0, 1⟩ ⟨63401 / 100000 - 305 / 1000, 0, 0⟩ ⟨9 / 100 - 305 / 1000, 0, 0⟩ = π := by
    rw [angleAbout, atan2]
    simp only [Vec3.dot, Vec3.cross]
    norm_num
    rw [Complex.arg_eq_pi_iff]
    norm_num
  have hna : normalizeAngle π = π := by
    unfold normalizeAngle
    rw [if_pos]
    rw [EqualR, abs_of_pos pi_pos, sub_self, abs_zero]
    norm_num [eps]
  have hS : S.real (.pk3 2 ⟨⟨0, 0, 1⟩, ⟨305 / 1000, 0, 0⟩⟩ ⟨63401 / 100000, 0, 0⟩ ⟨9 / 100, 0, 0⟩) =
      .pk3 2 ⟨.rotation, ⟨0, 0, 1⟩, ⟨305 / 1000, 0, 0⟩⟩ ⟨63401 / 100000, 0, 0⟩ ⟨9 / 100, 0, 0⟩ := by
    simp [S.real, E.real, V.real]
  rw [hS]
  show pk3 2 _ _ _ 1 1 = _
  simp only [pk3, Frame.act_one, sub, rej, nrm, hang, hna]
  have e0 : ∀ x, Vec3.dot (⟨0, 0, 1⟩ : Vec3) ⟨x, 0, 0⟩ = 0 := by simp [Vec3.dot]
  rw [e0]
  have e1 : EqualR |(|(63401 / 100000 - 305 / 1000 : ℝ)| ^ 2 + |(9 / 100 - 305 / 1000 : ℝ)| ^ 2 -
      (|(63401 / 100000 - 9 / 100 : ℝ)| ^ 2 - 0 ^ 2)) /
      (2 * |(63401 / 100000 - 305 / 1000 : ℝ)| * |(9 / 100 - 305 / 1000 : ℝ)|)| 1 := by
    norm_num [EqualR, eps, abs_of_neg, abs_of_pos]
  rw [if_neg (by norm_num [abs_of_neg, abs_of_pos]), if_neg (fun h => h.1 e1), decide_eq_true e1]

/-- All the configurations that the inverse kinematics gives for the stretched arm have the elbow folded. -/
theorem stretched {ok : Bool} {sols : List (List ℝ)} (h : teoProblem.solve teoLeftArm.tool [] = some (ok, sols)) :
    ∀ q ∈ sols, q[3]? = some (-π) := by
  have hwf := C19_built_problem_wellformed _ _ teo_unit teo_rigid _ _ teo_build (teo_margin teo_build)
  obtain ⟨ok', sols', g1, g2, g3, -⟩ := IkProblem.solve_eq hwf.stepsPair hwf.stepsOK teoLeftArm.tool []
  rw [h, Option.some.injEq, Prod.mk.injEq] at g1
  obtain ⟨-, rfl⟩ := g1
  intro q hq
  obtain ⟨k, hk, rfl⟩ := List.mem_iff_getElem.mp hq
  obtain ⟨ks, hks, hpos⟩ := IkProblem.radix_surj _ k (by rw [← g2]; exact hk)
  obtain ⟨oks, q2, e1, e2, e3⟩ := g3 ks hks
  rw [hpos, List.getElem?_eq_getElem hk] at e3
  cases Option.some.inj e3
  have hn : teoProblem.poe.exps.length = 6 := by
    rw [show teoProblem.poe.exps = backward.map E.real from teo_back_exps]; rfl
  have hF : teoProblem.initialRhs teoLeftArm.tool = 1 := by
    unfold IkProblem.initialRhs
    rw [if_pos (show teoProblem.reversed = true from rfl)]
    show teoLeftArm.tool.inv * teoLeftArm.tool.inv.inv = 1
    exact Frame.IsRigid.mul_inv teo_rigid.inv
  rw [hF, hn] at e1
  cases ks with
  | nil => cases hks
  | cons k0 ks =>
    have hok := hwf.stepsOK
    simp only [teoSteps, List.map_cons, List.map_nil] at e1 hok hks
    unfold IkProblem.runBranch at e1
    have hH : teoProblem.transformPoint (List.replicate 6 0) (List.replicate 6 .unknown) = 1 := by
      unfold IkProblem.transformPoint IkProblem.termFrames
      rw [show teoProblem.poe.exps = backward.map E.real from teo_back_exps]
      simp [backward, List.replicate, IkProblem.transformLoop]
    simp only [↓reduceIte, hH, elbow_step, Option.bind_eq_bind, Option.bind_some, Option.bind_eq_some_iff] at e1
    obtain ⟨l, hl, ⟨oks', q3⟩, e4, e5⟩ := e1
    have hl' : l = [(2, π)] := by
      have := List.mem_of_getElem? hl
      simpa using this
    subst hl'
    simp only [Option.pure_def, Option.some.injEq, Prod.mk.injEq] at e5
    have hp := IkProblem.runBranch_preserve _ _ _ _ _ _ _ _ _ (fun s hs => hok s (List.mem_cons_of_mem _ hs)) (by
      rw [IkProblem.writeVals_length, List.length_replicate, hn]) e4
    rw [e5.2] at hp
    obtain ⟨hp1, hp2⟩ := hp
    have := hp2 2 (by rw [hn]; omega) (by simp [S.real, Subproblem.ids])
    rw [hn] at hp1
    have h3 : 3 < sols[k].length := by omega
    rw [List.getElem?_eq_getElem h3]
    have hm := IkProblem.writeVals_getTheta_of_mem (n := 6) (rev := true) (l := [(2, π)]) (q := List.replicate 6 0) (i := 2)
      (θ := π) (by simp) (by simp) (by simp) (by simp)
    rw [hn, show teoProblem.reversed = true from rfl, hm] at this
    unfold IkProblem.getTheta at this
    rw [if_pos rfl, hp1, List.getD_eq_getElem?_getD, show 6 - 1 - 2 = 3 from rfl, List.getElem?_eq_getElem h3] at this
    simp only [Option.getD_some] at this
    rw [← this, neg_neg]

theorem home_pose : teoLeftArm.evaluate ((List.replicate 6 0).map toRad) 1 = (true, teoLeftArm.tool) := by
  have hz : (List.replicate 6 (0 : ℝ)).map toRad = List.replicate 6 0 := by
    rw [List.map_replicate, toRad, mul_zero]
  rw [hz, C03_evaluate_is_product _ _ _ (by rw [teo_length, List.length_replicate]), teo_exps]
  have : ∀ e : E, (E.real e).asFrame 0 = 1 := fun e => MatrixExp.asFrame_zero _
  simp only [forward, List.map_cons, List.map_nil, List.replicate, List.zipWith_cons_cons, List.zipWith_nil_left, this,
    List.prod_cons, List.prod_nil, one_mul]

/-- **C87.** An arm that is stretched down is told to fold its elbow completely at once, whatever the limits of its
joints, if beyond four degrees. -/
theorem C87_stretched_counterexample {V T : ℝ} (hV : 0 < V) (hT : 0 < T) (limits : ℕ → ℝ × ℝ)
    (hl : ∀ k, (limits k).1 ≤ -4 ∧ 4 ≤ (limits k).2) :
    ∃ (d : Demo) (c : List ℝ), main (fun n => (gnuDraw n : ℝ)) ⟨List.replicate 6 0, fun k => some (limits k), true⟩ V T = some (some d) ∧
      d.runs [(0, some (List.replicate 6 0))] = some [some c] ∧ c[3]? = some (-180 : ℝ) := by
  have hrig := teo_rigid
  obtain ⟨traj, t1, -⟩ := C87_line hrig hV hT
  obtain ⟨x, v, D, traj', g1, g2, g3, g4, g5, g6, g7⟩ := line_form hrig hV hT
  cases Option.some.inj (t1.symm.trans g1)
  have hm : (List.range 6).mapM (fun k => some (limits k)) = some ((List.range 6).map limits) := rfl
  have hd : main (fun n => (gnuDraw n : ℝ)) ⟨List.replicate 6 0, fun k => some (limits k), true⟩ V T = some (some
      ⟨teoProblem, Selector.make false (((List.range 6).map limits).map Prod.fst) (((List.range 6).map limits).map Prod.snd),
        traj⟩) := by
    unfold main
    simp only [teo_length, teo_build, hm, Selector.createLeast, Option.bind_eq_bind, Option.bind_some]
    have htk : (List.replicate 6 (0 : ℝ)).take 6 = List.replicate 6 0 := rfl
    rw [htk, home_pose, t1]
    rfl
  have hpos : traj.pos 0 = teoLeftArm.tool := by
    rw [g6, (g4.before 0 le_rfl).1, zero_div]
    ext <;> simp
  obtain ⟨start, outs, i, -, -, h1, h2, h3⟩ := C87_commands_partial hV hT hd [(0, some (List.replicate 6 0))] (by simp)
  obtain ⟨outs', h1', h4⟩ := C87_limits_never_checked hV hT hd (by
    intro k lo hi hk
    have := hl k
    cases hk' : limits k
    simp_all) [(0, some (List.replicate 6 0))] (by simp)
  rw [h1, Option.some.injEq] at h1'
  subst h1'
  obtain ⟨c, hc⟩ := h4 0 0 (List.replicate 6 0) rfl
  obtain ⟨ok, sols, s1, s2, -⟩ := h3 0 0 _ rfl
  obtain ⟨q, q1, q2, -⟩ := s2 c hc
  have s1' : teoProblem.solve (traj.pos 0) [] = some (ok, sols) := s1
  rw [hpos] at s1'
  have h5 := stretched s1' q (List.mem_of_getElem? q1)
  refine ⟨_, c, hd, ?_, ?_⟩
  · rw [h1]
    match outs, h2, hc with
    | [o], _, hc =>
      simp only [List.getElem?_cons_zero, Option.some.injEq] at hc
      rw [hc]
  · rw [q2, List.getElem?_map, h5, Option.map_some, toDeg, neg_mul, mul_div_cancel₀ _ pi_pos.ne']

/-- An arm with limits of 90 degrees. -/
example : (0 : ℝ) < 0.05 ∧ (0 : ℝ) < 10 ∧ ∀ _ : ℕ, ((-90, 90) : ℝ × ℝ).1 ≤ -4 ∧ (4 : ℝ) ≤ ((-90, 90) : ℝ × ℝ).2 := by
  norm_num

/-- The other theorems apply to the arm with the elbow bent, that runs three times. -/
example : ∃ d, main (fun n => (gnuDraw n : ℝ)) ⟨[0, 0, 0, -90, 0, 0], fun _ => some (-90, 90), true⟩ 0.05 10 =
    some (some d) ∧ (∀ k lo hi, (fun _ : ℕ => some ((-90 : ℝ), (90 : ℝ))) k = some (lo, hi) → lo ≤ -4 ∧ 4 ≤ hi) ∧
    ∀ k ∈ [((0 : ℝ), some ([0, 0, 0, -90, 0, 0] : List ℝ)), (0.05, none), (0.1, some [0, 0, 0, -90, 0, 0])],
      ∀ e, k.2 = some e → e.length = 6 := by
  obtain ⟨d, hd⟩ := demo_starts
  refine ⟨d, hd, ?_, by simp⟩
  intro k lo hi h
  simp only [Option.some.injEq, Prod.mk.injEq] at h
  obtain ⟨rfl, rfl⟩ := h
  norm_num

/-- With the elbow bent, the pose where the line starts is within reach. -/
example : ∃ d, main (fun n => (gnuDraw n : ℝ)) ⟨[0, 0, 0, -90, 0, 0], fun _ => some (-90, 90), true⟩ 0.05 10 =
    some (some d) ∧ ∃ sols, d.problem.solve (d.traj.pos 0) [] = some (true, sols) := by
  obtain ⟨d, hd⟩ := demo_starts
  obtain ⟨h6, start, subs, lims, m1, m2, -, -, m5⟩ := main_form hd
  rw [teo_build, Option.some.injEq, Option.some.injEq, Prod.mk.injEq] at m2
  have hq : ([0, 0, 0, -90, 0, 0] : List ℝ).map toRad = [0, 0, 0, -(π / 2), 0, 0] := by
    simp [toRad]
    ring
  have hrig : start.IsRigid := by
    have := C03_evaluate_is_rigid teoLeftArm (([0, 0, 0, -90, 0, 0] : List ℝ).map toRad) 1 teo_unit teo_rigid
      (by rw [teo_length]; rfl)
    rwa [m1] at this
  obtain ⟨x, v, D, traj, g1, g2, g3, g4, g5, g6, g7⟩ := line_form hrig (V := 0.05) (T := 10) (by norm_num) (by norm_num)
  cases Option.some.inj (m5.symm.trans g1)
  refine ⟨d, hd, ?_⟩
  rw [hq] at m1
  have h0 : d.traj.pos 0 = start := by
    rw [g6, (g4.before 0 le_rfl).1, zero_div]
    refine Frame.ext rfl ?_
    ext <;> simp
  rw [h0, ← m2.1]
  exact bent_reachable m1

/-- A part with seven axes. -/
example : ([0, 0, 0, -90, 0, 0, 0] : List ℝ).length = 7 ∧ ∀ _ : ℕ, ∃ l : ℝ × ℝ, some (-90, 90) = some l :=
  ⟨rfl, fun _ => ⟨_, rfl⟩⟩

end KD.StDemo
