import Verif.Props.Asibot

/-!
# C58: which of the configurations the ASIBOT solver chooses
-/

namespace KD

namespace Asibot

open Real KinRepr

/-- Specification: the sum of the travels of all joints from the guess. -/
def travel (g q : Joints) : ℝ :=
  |g.q1 - q.q1| + |g.q2 - q.q2| + |g.q3 - q.q3| + |g.q4 - q.q4| + |g.q5 - q.q5|

/-- Specification: the travel of the second joint. -/
def travel2 (g q : Joints) : ℝ := |g.q2 - q.q2|

/-- Specification: one of the candidates within limits. -/
def Candidate (ps : List Pose) (p : Pose) : Prop := p ∈ ps ∧ p.valid = true

/-- Specification: no candidate travels less. -/
def Least (g : Joints) (ps : List Pose) (p : Pose) : Prop :=
  Candidate ps p ∧ ∀ a, Candidate ps a → travel g p.q ≤ travel g a.q

/-- Specification: travels the least except for those that travel as `best`. -/
def RunnerUp (g : Joints) (ps : List Pose) (best p : Pose) : Prop :=
  Candidate ps p ∧ travel g best.q < travel g p.q ∧
    ∀ a, Candidate ps a → travel g a.q ≤ travel g best.q ∨ travel g p.q ≤ travel g a.q

/-- Specification: why the runner-up may be preferred. -/
def Preferred (g : Joints) (best p : Pose) : Prop :=
  p.orient = best.orient ∧
    (travel2 g p.q < travel2 g best.q ∨ (travel2 g p.q = travel2 g best.q ∧ p.elb = .up))

/-- What the map contains. -/
theorem fillMap_facts (g : Joints) (ps : List Pose) :
    (fillMap g ps []).Pairwise (fun a b => a.1 < b.1) ∧
    (∀ kp ∈ fillMap g ps [], kp.1 = travel g kp.2.q ∧ Candidate ps kp.2) ∧
    ∀ p, Candidate ps p → ∃ kp ∈ fillMap g ps [], kp.1 = travel g p.q := by
  have hok : MapOk g (fillMap g ps []) := fillMap_ok ps ⟨List.Pairwise.nil, by simp⟩
  refine ⟨hok.1, fun kp h => ⟨hok.2 kp h, ?_⟩, fun p h => fillMap_key ps h.1 h.2⟩
  rcases fillMap_mem ps h with h | h
  · simp at h
  · exact h

/-- The chosen configuration is one of the candidates within limits. It travels the least, unless it is the
runner-up, of the same base orientation, and its second joint travels no more. -/
theorem C58_choice {g : Joints} {ps : List Pose} {p : Pose} (h : findOptimal g ps = some p) :
    Least g ps p ∨ ∃ best, Least g ps best ∧ RunnerUp g ps best p ∧ Preferred g best p := by
  obtain ⟨hs, hm, hk⟩ := fillMap_facts g ps
  unfold findOptimal at h
  split at h
  · simp at h
  · rename_i k b he
    simp only [Option.some.injEq] at h
    subst h
    rw [he] at hm hk
    left
    obtain ⟨h1, h2⟩ := hm (k, b) (by simp)
    refine ⟨h2, fun a ha => ?_⟩
    obtain ⟨kp, h3, h4⟩ := hk a ha
    simp only [List.mem_singleton] at h3
    subst h3
    exact le_of_eq (h1.symm.trans h4)
  · rename_i k b k' b' r he
    rw [he] at hm hk hs
    obtain ⟨h1, h2⟩ := hm (k, b) (by simp)
    obtain ⟨h1', h2'⟩ := hm (k', b') (by simp)
    simp only at h1 h1' h2 h2'
    have hs1 := (List.pairwise_cons.mp hs).1
    have hs2 := (List.pairwise_cons.mp (List.pairwise_cons.mp hs).2).1
    have hb : Least g ps b := by
      refine ⟨h2, fun a ha => ?_⟩
      obtain ⟨kp, h3, h4⟩ := hk a ha
      rw [← h1, ← h4]
      rcases List.mem_cons.mp h3 with rfl | h3
      · exact le_refl _
      · exact (hs1 kp h3).le
    split_ifs at h with hc
    · simp only [Option.some.injEq] at h
      subst h
      right
      refine ⟨b, hb, ⟨h2', ?_, fun a ha => ?_⟩, hc⟩
      · rw [← h1, ← h1']; exact hs1 (k', b') (by simp)
      · obtain ⟨kp, h3, h4⟩ := hk a ha
        rw [← h1, ← h1', ← h4]
        rcases List.mem_cons.mp h3 with rfl | h3
        · exact Or.inl (le_refl _)
        rcases List.mem_cons.mp h3 with rfl | h3
        · exact Or.inr (le_refl _)
        · exact Or.inr (hs2 kp h3).le
    · simp only [Option.some.injEq] at h
      subst h
      exact Or.inl hb

/-- If some configuration is within limits, one is chosen. -/
theorem C58_some {g : Joints} {ps : List Pose} {p : Pose} (h : Candidate ps p) :
    ∃ p', findOptimal g ps = some p' := by
  obtain ⟨-, -, hk⟩ := fillMap_facts g ps
  obtain ⟨kp, h1, -⟩ := hk p h
  unfold findOptimal
  split
  · rename_i he; rw [he] at h1; simp at h1
  · exact ⟨_, rfl⟩
  · split_ifs <;> exact ⟨_, rfl⟩

/-- No two candidates travel the same. -/
def NoTies (g : Joints) (ps : List Pose) : Prop :=
  ∀ a b, Candidate ps a → Candidate ps b → travel g a.q = travel g b.q → a = b

/-- Without ties, a preferred runner-up is always chosen. Missing: with ties it may not be
(`C58_tie_wrong`). -/
theorem C58_runner_up_partial {g : Joints} {ps : List Pose} {best alt : Pose} (hn : NoTies g ps)
    (hb : Least g ps best) (ha : RunnerUp g ps best alt) (hp : Preferred g best alt) :
    findOptimal g ps = some alt := by
  obtain ⟨hs, hm, hk⟩ := fillMap_facts g ps
  obtain ⟨kb, hb1, hb2⟩ := hk best hb.1
  obtain ⟨ka, ha1, ha2⟩ := hk alt ha.1
  have eb : kb.2 = best := hn _ _ (hm kb hb1).2 hb.1 ((hm kb hb1).1.symm.trans hb2)
  have ea : ka.2 = alt := hn _ _ (hm ka ha1).2 ha.1 ((hm ka ha1).1.symm.trans ha2)
  have hlt : kb.1 < ka.1 := by rw [hb2, ha2]; exact ha.2.1
  unfold findOptimal
  split
  · rename_i he; rw [he] at hb1; simp at hb1
  · rename_i k b he
    rw [he] at hb1 ha1
    simp only [List.mem_singleton] at hb1 ha1
    rw [hb1, ha1] at hlt
    exact absurd hlt (lt_irrefl _)
  · rename_i k b k' b' r he
    rw [he] at hb1 ha1 hm hs
    have hs1 := (List.pairwise_cons.mp hs).1
    have hs2 := (List.pairwise_cons.mp (List.pairwise_cons.mp hs).2).1
    have e1 : kb = (k, b) := by
      rcases List.mem_cons.mp hb1 with e | e
      · exact e
      · have h1 := hs1 kb e
        have h2 := hb.2 b (hm (k, b) (by simp)).2
        rw [← hb2, ← (hm (k, b) (by simp)).1] at h2
        exact absurd h1 (not_lt.mpr h2)
    have e2 : ka = (k', b') := by
      rcases List.mem_cons.mp ha1 with e | e
      · rw [e, e1] at hlt; exact absurd hlt (lt_irrefl _)
      rcases List.mem_cons.mp e with e | e
      · exact e
      · have h1 := hs2 ka e
        have h3 := hs1 (k', b') (by simp)
        rcases ha.2.2 b' (hm (k', b') (by simp)).2 with h2 | h2
        · rw [← hb2, ← (hm (k', b') (by simp)).1, e1] at h2
          exact absurd h3 (not_lt.mpr h2)
        · rw [← ha2, ← (hm (k', b') (by simp)).1] at h2
          exact absurd h1 (not_lt.mpr h2)
    rw [e1] at eb
    rw [e2] at ea
    simp only at eb ea
    rw [eb, ea]
    exact if_pos hp

/-- Without ties, the one that travels the least is chosen if no runner-up is preferred. -/
theorem C58_least_partial {g : Joints} {ps : List Pose} {best : Pose} (hn : NoTies g ps)
    (hb : Least g ps best) (ha : ∀ alt, RunnerUp g ps best alt → ¬ Preferred g best alt) :
    findOptimal g ps = some best := by
  obtain ⟨p, hp⟩ := C58_some (g := g) hb.1
  rcases C58_choice hp with h | ⟨b, h1, h2, h3⟩
  · rw [hp, hn p best h.1 hb.1 (le_antisymm (h.2 _ hb.1) (hb.2 _ h.1))]
  · obtain rfl := hn b best h1.1 hb.1 (le_antisymm (h1.2 _ hb.1) (hb.2 _ h1.1))
    exact absurd h3 (ha p h2)

theorem storeAngles_valid {s : Solver} {q1 q2 q3 q4 q5 : ℝ} {o : Orientation} {e : Elbow}
    (h : (storeAngles s q1 q2 q3 q4 q5 o e).valid = true) :
    jointsInLimits (storeAngles s q1 q2 q3 q4 q5 o e).q s.qMin s.qMax := by
  simpa [storeAngles] using h

theorem solve_choice {s : Solver} {xd : List ℝ} {g : Joints} {q : List ℝ}
    (hv : rotOf xd = 0 ∨ eps ≤ (rotOf xd).norm) (h : solve s xd g = some (some q)) :
    ∃ (t : PlaneAngles) (b c a pr ph : ℝ) (ps : List Pose) (p : Pose),
      planeAngles s.A1 s.A2 pr ph = some t ∧ b = (standard xd).M.getEulerZYZ.2.1 ∧
      c = (standard xd).M.getEulerZYZ.2.2 ∧ a = atan2 (standard xd).p.y (standard xd).p.x ∧
      configure s (radToDeg a) (radToDeg t.t1u) (radToDeg t.t1d) (radToDeg t.t2)
        (radToDeg (b - t.t1u - t.t2)) (radToDeg (b - t.t1d + t.t2)) (radToDeg c) = some ps ∧
      findOptimal g ps = some p ∧ q = p.q.toList := by
  have hl : 6 ≤ xd.length := by
    by_contra hn
    unfold solve at h
    rw [decodePose_short _ _ _ _ (by simpa [Mem.input] using hn)] at h
    simp at h
  rw [solve_eq g hl hv, Option.some.injEq] at h
  unfold solveDecoded at h
  split_ifs at h with c1 c2
  generalize (standard xd).p = p at *
  generalize (standard xd).M.getEulerZYZ.2.1 = b at *
  generalize (standard xd).M.getEulerZYZ.2.2 = c at *
  revert h
  cases ht : planeAngles s.A1 s.A2 (√(p.x * p.x + p.y * p.y) - s.A3 * sin b) (p.z - s.A0 - s.A3 * cos b) with
  | none => simp
  | some t =>
    simp only [Option.bind_some]
    cases hc : configure s (radToDeg (atan2 p.y p.x)) (radToDeg t.t1u) (radToDeg t.t1d) (radToDeg t.t2)
      (radToDeg (b - t.t1u - t.t2)) (radToDeg (b - t.t1d + t.t2)) (radToDeg c) with
    | none => simp
    | some poses =>
      simp only [Option.bind_some]
      cases ho : findOptimal g poses with
      | none => simp
      | some pose =>
        simp only [Option.map_some, Option.some.injEq]
        rintro rfl
        exact ⟨t, b, c, _, _, _, poses, pose, ht, rfl, rfl, rfl, hc, ho, rfl⟩

/-- The range of an angle, in degrees. -/
def HalfTurn (q : ℝ) : Prop := -180 < q ∧ q ≤ 180

theorem normalizeAngle_range {q : ℝ} (h1 : -540 < q) (h2 : q ≤ 540) : HalfTurn (normalizeAngle q) := by
  unfold normalizeAngle HalfTurn
  split_ifs with a b c
  · constructor <;> linarith
  · constructor <;> linarith
  · constructor <;> norm_num
  · constructor <;> linarith

theorem radToDeg_le {a k : ℝ} (h : a ≤ k * π) : radToDeg a ≤ k * 180 := by
  unfold radToDeg
  have := pi_pos
  calc a * (180 / π) ≤ k * π * (180 / π) := by gcongr
    _ = k * 180 := by field_simp

theorem radToDeg_lt {a k : ℝ} (h : k * π < a) : k * 180 < radToDeg a := by
  unfold radToDeg
  have := pi_pos
  calc k * 180 = k * π * (180 / π) := by field_simp
    _ < a * (180 / π) := by gcongr

theorem radToDeg_ge {a k : ℝ} (h : k * π ≤ a) : k * 180 ≤ radToDeg a := by
  unfold radToDeg
  have := pi_pos
  calc k * 180 = k * π * (180 / π) := by field_simp
    _ ≤ a * (180 / π) := by gcongr

theorem atan2_range (y x : ℝ) : -π < atan2 y x ∧ atan2 y x ≤ π :=
  ⟨Complex.neg_pi_lt_arg _, Complex.arg_le_pi _⟩

theorem getEulerZYZ_range (m : Mat3) : (0 ≤ m.getEulerZYZ.2.1 ∧ m.getEulerZYZ.2.1 ≤ π) ∧
    -π < m.getEulerZYZ.2.2 ∧ m.getEulerZYZ.2.2 ≤ π := by
  have := pi_pos
  unfold Mat3.getEulerZYZ
  split_ifs
  · simp only; refine ⟨⟨?_, ?_⟩, ?_, ?_⟩ <;> linarith
  · simp only; refine ⟨⟨?_, ?_⟩, ?_, ?_⟩ <;> linarith
  · exact ⟨⟨arccos_nonneg _, arccos_le_pi _⟩, atan2_range _ _⟩

theorem planeAngles_range {A1 A2 pr ph : ℝ} {t : PlaneAngles} (h : planeAngles A1 A2 pr ph = some t) :
    (-π < t.t1u ∧ t.t1u ≤ π) ∧ (-π < t.t1d ∧ t.t1d ≤ π) ∧ 0 ≤ t.t2 ∧ t.t2 ≤ π := by
  unfold planeAngles at h
  simp only at h
  split_ifs at h
  simp only [Option.some.injEq] at h
  subst h
  refine ⟨atan2_range _ _, atan2_range _ _, ?_, (atan2_range _ _).2⟩
  exact Complex.arg_nonneg_iff.mpr (sqrt_nonneg _)

/-- The joints that `invKin` returns (without tool, in the base frame) are within their limits, up to a
thousandth of a degree, and in the range of half a turn either way; and they are the chosen one of four
configurations. -/
theorem C58_invKin (svd : Mat3 → Vec3) {s : Solver} (ht : s.hasFrame = false) {xd qGuess q : List ℝ}
    (hv : rotOf xd = 0 ∨ eps ≤ (rotOf xd).norm) (h : invKin svd s xd qGuess .base = some (some q)) :
    ∃ (g : Joints) (ps : List Pose) (p : Pose), Joints.read qGuess = some g ∧ ps.length = 4 ∧
      q = p.q.toList ∧
      (Least g ps p ∨ ∃ best, Least g ps best ∧ RunnerUp g ps best p ∧ Preferred g best p) ∧
      (s.qMin.q1 - 1 / 1000 ≤ p.q.q1 ∧ p.q.q1 ≤ s.qMax.q1 + 1 / 1000) ∧
      (s.qMin.q2 - 1 / 1000 ≤ p.q.q2 ∧ p.q.q2 ≤ s.qMax.q2 + 1 / 1000) ∧
      (s.qMin.q3 - 1 / 1000 ≤ p.q.q3 ∧ p.q.q3 ≤ s.qMax.q3 + 1 / 1000) ∧
      (s.qMin.q4 - 1 / 1000 ≤ p.q.q4 ∧ p.q.q4 ≤ s.qMax.q4 + 1 / 1000) ∧
      (s.qMin.q5 - 1 / 1000 ≤ p.q.q5 ∧ p.q.q5 ≤ s.qMax.q5 + 1 / 1000) ∧
      HalfTurn p.q.q1 ∧ HalfTurn p.q.q2 ∧ HalfTurn p.q.q3 ∧ HalfTurn p.q.q4 ∧ HalfTurn p.q.q5 := by
  unfold invKin at h
  cases hg : Joints.read qGuess with
  | none => rw [hg] at h; simp at h
  | some g =>
    rw [hg, ht] at h
    simp only [Option.bind_eq_bind, Option.bind_some, Bool.false_eq_true, if_false] at h
    obtain ⟨t, b, c, a, pr, ph, ps, p, h1, h2, h3, h4, h5, h6, h7⟩ := solve_choice hv h
    obtain ⟨hm, hval⟩ := findOptimal_mem h6
    refine ⟨g, ps, p, rfl, by rw [configure_mem h5]; rfl, h7, C58_choice h6, ?_⟩
    obtain ⟨⟨u1, u2⟩, ⟨d1, d2⟩, e1, e2⟩ := planeAngles_range h1
    obtain ⟨⟨b1, b2⟩, c1, c2⟩ := getEulerZYZ_range (standard xd).M
    have a1 := atan2_range (standard xd).p.y (standard xd).p.x
    rw [← h2] at b1 b2
    rw [← h3] at c1 c2
    rw [← h4] at a1
    have hpi := pi_pos
    have ra := radToDeg_lt (a := a) (k := -1) (by linarith)
    have ra' := radToDeg_le (a := a) (k := 1) (by linarith)
    have ru := radToDeg_lt (a := t.t1u) (k := -1) (by linarith)
    have ru' := radToDeg_le (a := t.t1u) (k := 1) (by linarith)
    have rd := radToDeg_lt (a := t.t1d) (k := -1) (by linarith)
    have rd' := radToDeg_le (a := t.t1d) (k := 1) (by linarith)
    have rt := radToDeg_ge (a := t.t2) (k := 0) (by linarith)
    have rt' := radToDeg_le (a := t.t2) (k := 1) (by linarith)
    have rc := radToDeg_lt (a := c) (k := -1) (by linarith)
    have rc' := radToDeg_le (a := c) (k := 1) (by linarith)
    have r4 := radToDeg_ge (a := b - t.t1u - t.t2) (k := -2) (by linarith)
    have r4' := radToDeg_le (a := b - t.t1u - t.t2) (k := 2) (by linarith)
    have r5 := radToDeg_ge (a := b - t.t1d + t.t2) (k := -1) (by linarith)
    have r5' := radToDeg_lt (a := -(b - t.t1d + t.t2)) (k := -3) (by linarith)
    have r5'' : radToDeg (-(b - t.t1d + t.t2)) = -radToDeg (b - t.t1d + t.t2) := by
      unfold radToDeg; ring
    rw [r5''] at r5'
    rw [configure_mem h5] at hm
    simp only [List.mem_cons, List.not_mem_nil, or_false] at hm
    rcases hm with rfl | rfl | rfl | rfl
    all_goals
      have hlim := storeAngles_valid hval
      simp only [jointsInLimits, inLimits, degEps, ge_iff_le] at hlim
      obtain ⟨l1, l2, l3, l4, l5⟩ := hlim
      refine ⟨l1, l2, l3, l4, l5, ?_⟩
      refine ⟨normalizeAngle_range ?_ ?_, normalizeAngle_range ?_ ?_, normalizeAngle_range ?_ ?_,
        normalizeAngle_range ?_ ?_, normalizeAngle_range ?_ ?_⟩ <;> linarith

/-- The hypotheses are met by the request of the examples of C56. -/
example (svd : Mat3 → Vec3) : demo.hasFrame = false ∧ eps ≤ (rotOf demoPose).norm ∧
    invKin svd demo demoPose [90, 90, -90, 90, 90] .base = some (some [90, 90, -90, 90, 90]) :=
  ⟨rfl, demoPose_size, demo_solved svd⟩

/-! ## Ties -/

/-- The two configurations of the example of ties: elbow up and down. -/
noncomputable def tied : List Pose :=
  [⟨⟨0, 0, 90, 0, 0⟩, .forward, .up, true⟩, ⟨⟨0, 90, -90, 90, 0⟩, .forward, .down, true⟩,
   ⟨⟨180, 0, -90, 0, 180⟩, .reversed, .up, true⟩, ⟨⟨180, -90, 90, -90, 180⟩, .reversed, .down, true⟩]

/-- They are what `configure` gives for an arm with both links at a right angle. -/
theorem tied_eq : configure demo 0 0 90 90 0 90 0 = some tied := by
  norm_num [configure, storeAngles, normalizeAngle, degEps, jointsInLimits, inLimits, demo, tied]

/-- Two candidates travel the least, with the same base orientation, and the second joint of one of them
does not travel at all. The other one is chosen: ties never reach the comparison. -/
theorem C58_tie_wrong : ∃ p q : Pose, p ∈ tied ∧ q ∈ tied ∧ Least ⟨0, 90, 0, 0, 0⟩ tied p ∧
    Least ⟨0, 90, 0, 0, 0⟩ tied q ∧ Preferred ⟨0, 90, 0, 0, 0⟩ p q ∧
    travel2 ⟨0, 90, 0, 0, 0⟩ p.q = 90 ∧ travel2 ⟨0, 90, 0, 0, 0⟩ q.q = 0 ∧
    findOptimal ⟨0, 90, 0, 0, 0⟩ tied = some p := by
  have hl : ∀ p ∈ tied, travel ⟨0, 90, 0, 0, 0⟩ p.q = 180 → Least ⟨0, 90, 0, 0, 0⟩ tied p := by
    intro p hp h
    refine ⟨⟨hp, ?_⟩, fun a ha => ?_⟩
    · simp only [tied, List.mem_cons, List.not_mem_nil, or_false] at hp
      rcases hp with rfl | rfl | rfl | rfl <;> rfl
    · rw [h]
      have ha := ha.1
      simp only [tied, List.mem_cons, List.not_mem_nil, or_false] at ha
      rcases ha with rfl | rfl | rfl | rfl <;> norm_num [travel]
  refine ⟨⟨⟨0, 0, 90, 0, 0⟩, .forward, .up, true⟩, ⟨⟨0, 90, -90, 90, 0⟩, .forward, .down, true⟩,
    by simp [tied], by simp [tied], hl _ (by simp [tied]) (by norm_num [travel]),
    hl _ (by simp [tied]) (by norm_num [travel]), ⟨rfl, Or.inl (by norm_num [travel2])⟩,
    by norm_num [travel2], by norm_num [travel2], ?_⟩
  norm_num [tied, findOptimal, fillMap, insertMap, total, diffs]
  exact Orientation.noConfusion

/-- The hypotheses of `C58_runner_up_partial`, for another guess: elbow up travels 175 degrees, elbow down
185, and elbow down is chosen. -/
example : findOptimal ⟨0, 50, 10, 45, 0⟩ [⟨⟨0, 0, 90, 0, 0⟩, .forward, .up, true⟩,
      ⟨⟨0, 90, -90, 90, 0⟩, .forward, .down, true⟩] = some ⟨⟨0, 90, -90, 90, 0⟩, .forward, .down, true⟩ := by
  apply C58_runner_up_partial (best := ⟨⟨0, 0, 90, 0, 0⟩, .forward, .up, true⟩)
  · rintro a b ⟨ha, -⟩ ⟨hb, -⟩
    simp only [List.mem_cons, List.not_mem_nil, or_false] at ha hb
    rcases ha with rfl | rfl <;> rcases hb with rfl | rfl <;> norm_num [travel]
  · refine ⟨⟨by simp, rfl⟩, fun a ha => ?_⟩
    have ha := ha.1
    simp only [List.mem_cons, List.not_mem_nil, or_false] at ha
    rcases ha with rfl | rfl <;> norm_num [travel]
  · refine ⟨⟨by simp, rfl⟩, by norm_num [travel], fun a ha => ?_⟩
    have ha := ha.1
    simp only [List.mem_cons, List.not_mem_nil, or_false] at ha
    rcases ha with rfl | rfl <;> norm_num [travel]
  · exact ⟨rfl, Or.inl (by norm_num [travel2])⟩

/-- Angles are brought to the range of half a turn before they are compared with the limits: for a joint
with limits from 0 to 350 degrees, 270 degrees are refused. -/
theorem C58_wide_limits_wrong (s : Solver) (h1 : s.qMin.q1 = 0) (h2 : s.qMax.q1 = 350)
    (q2 q3 q4 q5 : ℝ) (o : Orientation) (e : Elbow) :
    inLimits 270 s.qMin.q1 s.qMax.q1 ∧ SameAngle 270 (-90) ∧
    (storeAngles s (-90) q2 q3 q4 q5 o e).valid = false ∧
    (storeAngles s 270 q2 q3 q4 q5 o e).valid = false := by
  have e1 : normalizeAngle (-90) = -90 := by norm_num [normalizeAngle, degEps]
  have e2 : normalizeAngle 270 = -90 := by norm_num [normalizeAngle, degEps]
  refine ⟨by rw [h1, h2]; norm_num [inLimits, degEps], ⟨1, by norm_num⟩, ?_, ?_⟩
  · simp only [storeAngles, decide_eq_false_iff_not, e1]
    rintro ⟨h, -⟩
    rw [h1, h2] at h
    norm_num [inLimits, degEps] at h
  · simp only [storeAngles, decide_eq_false_iff_not, e2]
    rintro ⟨h, -⟩
    rw [h1, h2] at h
    norm_num [inLimits, degEps] at h

end Asibot

end KD
