import Verif.Screw.IkReach
import Verif.Props.Builder
import Verif.Props.Poe

/-!
# Property C18 for arms with rotational joints

The full property (joints reported for a reachable target bring the tool to it) is refuted by
`C18_reachable_flag_not_sound` in `Verif.Props.Builder`. Here it is proved, within tolerance, for
arms made of rotational joints whose sequence of subproblems settles three points not in a
line, which is how the arms with six joints and a spherical wrist are solved.
-/

namespace KD

open Vec3 IkProblem Builder

/-- Step `i` settles the point `p`: it is one of the first two Paden-Kahan subproblems on that
point, and the joints solved before are placed well: the last joint is not among them, and those
to the right of the joints of the step, if any, are next to them. -/
def SettlesPoint (n : ℕ) (subs : List Subproblem) (i : ℕ) (p : Vec3) : Prop :=
  ∃ m M b, ((∃ e, subs[i]? = some (.pk1 m e p) ∧ M = m) ∨ ∃ e1 e2 r, subs[i]? = some (.pk2 m M e1 e2 p r)) ∧
    M < b ∧ b ≤ n ∧ n - 1 ∉ (subs.take i).flatMap Subproblem.ids ∧
    ∀ j, M < j → j < n → (j ∈ (subs.take i).flatMap Subproblem.ids ↔ j < b)

/-- Axes and points within `R` of each other. -/
def Within (es : List MatrixExp) (ps : List Vec3) (R : ℝ) : Prop :=
  (∀ e ∈ es, ∀ e' ∈ es, (e.origin - e'.origin).norm ≤ R) ∧ ∀ p ∈ ps, ∀ e ∈ es, (p - e.origin).norm ≤ R

/-- The point `p` of the home pose as seen from the tool (from the target, if the POE was
reversed). -/
def IkProblem.probe (pb : IkProblem) (T : Frame) (p : Vec3) : Vec3 :=
  if pb.reversed then T.inv.act (pb.poe.tool.inv.act p) else pb.poe.tool.inv.act p

theorem settled_point {rnd : ℕ → ℝ} {poe : Poe} (hu : ∀ e ∈ poe.exps, e.Unit) (ht : poe.tool.IsRigid)
    (hrot : ∀ e ∈ poe.exps, e.motion = .rotation) {pb : IkProblem} {subs : List Subproblem}
    (h : build rnd poe = some (some (pb, subs))) (hm : Margin pb.poe.exps) {T : Frame}
    {out sols : List (List ℝ)} (hs : pb.solve T out = some (true, sols)) {q : List ℝ} (hq : q ∈ sols)
    {i : ℕ} {p : Vec3} (hp : SettlesPoint pb.poe.exps.length subs i p) {R : ℝ}
    (hR : Within pb.poe.exps [p] R) :
    ((Poe.expProd pb.poe.exps (pb.values q)).act p - (pb.goal T * pb.poe.tool.inv).act p).norm
      ≤ reachTol pb.poe.exps.length R := by
  have hwf := C19_built_problem_wellformed rnd poe hu ht pb subs h hm
  obtain ⟨h1, h2, h3, h4, h5⟩ := C19_covers_joints_exactly_once rnd poe pb subs h
  have hseq := build_seq hrot h
  have hrot' : ∀ e ∈ pb.poe.exps, e.motion = .rotation := by
    rcases h2 with ⟨_, h2⟩ | ⟨_, h2⟩ <;> rw [h2]
    · exact hrot
    · exact reverseSelf_motion hrot
  obtain ⟨m, M, b, hk, hMb, hb, hlast, hright⟩ := hp
  have hi : i < subs.length := by
    rcases hk with ⟨e, he, _⟩ | ⟨e1, e2, r, he⟩ <;> exact (List.getElem?_eq_some_iff.mp he).1
  -- the branch that gave `q`
  obtain ⟨ok', sols', g1, g2, g3, _⟩ := solve_eq hwf.stepsPair hwf.stepsOK T out
  rw [hs, Option.some.injEq, Prod.mk.injEq] at g1
  obtain ⟨rfl, rfl⟩ := g1
  rw [counts_eq] at g2 g3
  obtain ⟨k, hkl, rfl⟩ := List.mem_iff_getElem.mp hq
  obtain ⟨ks, hks, hpos⟩ := radix_surj (subs.map Subproblem.count) k (by omega)
  obtain ⟨flag, hok, hacc⟩ := solve_account hwf hs
  obtain ⟨q', hq', hcalls, _⟩ := hacc ks ((selects_iff subs ks).mpr hks)
  obtain ⟨F, H, ls, l, C, hc⟩ := hcalls i hi
  have hflag := hok.mp rfl ks ((selects_iff subs ks).mpr hks) i hi
  rw [hflag] at hc
  have hqq : q' = sols[k] := by
    rw [position, hpos, List.getElem?_eq_getElem hkl] at hq'
    exact (Option.some.inj hq').symm
  rw [hqq] at hc
  set q := sols[k] with hqdef
  have hlen : q.length = pb.poe.exps.length := by
    obtain ⟨oks, q2, _, e2, e3⟩ := g3 ks hks
    rw [hpos, List.getElem?_eq_getElem hkl] at e3
    rw [hqdef, Option.some.inj e3]; exact e2
  have hfreshAll : ∀ sp, subs[i]? = some sp → ∀ j ∈ sp.ids, j ∉ (subs.take i).flatMap Subproblem.ids := by
    intro sp hsp j hj hjb
    have hnd := hwf.nodup
    rw [← List.take_append_drop i subs, List.flatMap_append] at hnd
    have hd := (List.nodup_append.mp hnd).2.2 j hjb j
    apply hd _ rfl
    rw [List.drop_eq_getElem_cons hi, List.flatMap_cons, List.mem_append]
    left
    rw [List.getElem?_eq_getElem hi] at hsp
    rw [Option.some.inj hsp]; exact hj
  obtain ⟨sp, hsp, hsolve⟩ := hc.solved
  obtain ⟨k', hk', hl'⟩ := hc.selected
  have hl : l ∈ ls := List.mem_of_getElem? hl'
  have hstored : ∀ a ∈ l, a.1 < pb.poe.exps.length → pb.val q a.1 = a.2 := by
    intro a ha hal
    have := hc.stored a ha
    apply val_eq hlen hal
    unfold termValue
    split
    · rename_i hrev
      rw [if_pos hrev, if_pos hrev] at this
      rw [this]; simp
    · rename_i hrev
      rw [if_neg hrev, if_neg hrev] at this
      exact this
  have hplaced := hseq i sp hsp
  obtain ⟨huses, hchosen⟩ := h5 sp (List.mem_of_getElem? hsp)
  have hnear : ∀ {m M : ℕ}, M < b → Around pb.poe.exps ((subs.take i).flatMap Subproblem.ids) m M p →
      (∀ j, M < j → j < pb.poe.exps.length → (j ∈ (subs.take i).flatMap Subproblem.ids ↔ j < b)) →
      ∀ j e, b ≤ j → pb.poe.exps[j]? = some e → e.motion = .rotation ∧ liesOnAxis e p := by
    intro m M hMb har hright j e hj he
    have hjl := (List.getElem?_eq_some_iff.mp he).1
    rcases har.2 j e (by omega) he with hin | hr
    · have := (hright j (by omega) hjl).mp hin
      omega
    · exact hr
  have hR0 : ∀ a b c : ℕ, c ≤ pb.poe.exps.length → b ≤ c →
      ∀ e ∈ pb.poe.exps, ((seg pb.poe.exps (pb.val q) (a + 1) b).act p - e.origin).norm ≤
        pb.poe.exps.length * R := by
    intro a b c hcl hbc e he
    have hRn : 0 ≤ R := (Vec3.norm_nonneg _).trans (hR.2 p (by simp) e he)
    by_cases hab : a + 1 ≤ b
    · refine (seg_reach hwf.unit hrot' (pb.val q) (R := R) (hR.2 p (by simp)) hR.1 (a := a + 1) (b := b)
        (by omega) e he).trans ?_
      apply mul_le_mul_of_nonneg_right _ hRn
      have : (b - (a + 1) : ℕ) + 1 ≤ pb.poe.exps.length := by omega
      exact_mod_cast this
    · rw [seg_nil (by omega), Frame.act_one]
      have h1 : (1 : ℝ) ≤ pb.poe.exps.length := by
        have := List.length_pos_of_mem he
        exact_mod_cast this
      have h2 := hR.2 p (by simp) e he
      nlinarith
  rcases hk with ⟨e, he, rfl⟩ | ⟨e1, e2, r, he⟩
  · -- one joint
    rw [hsp] at he
    obtain rfl := Option.some.inj he
    have har : Around pb.poe.exps ((subs.take i).flatMap Subproblem.ids) M M p := hplaced
    have hes : pb.poe.exps[M]? = some e := huses
    have hMl := (List.getElem?_eq_some_iff.mp hes).1
    have hmem := List.mem_of_getElem? hes
    obtain ⟨A, hA, hF, hE, hH⟩ := call_view hc hlen le_rfl hMb hb
      (by
        intro s hs' j
        rw [hsp] at hs'
        rw [← Option.some.inj hs']
        simp only [Subproblem.ids, List.mem_singleton]
        omega)
      (by
        intro j j1 j2
        exact hfreshAll _ hsp j (by simp [Subproblem.ids]; omega))
      har.1 hlast hright
    have hce := chain_error hwf.unit le_rfl hMb hb hA hF hE hH (hnear hMb har hright)
    obtain ⟨φ, rfl, hb'⟩ := pk1_error (id := M) (hrot' e hmem) (hwf.unit e hmem) hsolve hl
      (D := pb.poe.exps.length * R) (by rw [hH]; exact hR0 M b b hb le_rfl e hmem)
    have hφ : pb.val q M = φ := hstored (M, φ) (by simp) hMl
    rw [seg_one hes, hφ] at hce
    refine hce.trans ?_
    have hs3 := sqrt3_le
    have he0 := eps_pos
    have hsq := Real.sqrt_nonneg eps
    have hRn : 0 ≤ R := (Vec3.norm_nonneg _).trans (hR.2 p (by simp) e hmem)
    have hn0 : (0 : ℝ) ≤ pb.poe.exps.length := by positivity
    have h6 : (pb.poe.exps.length : ℝ) * (2 * (√3 * eps)) ≤ pb.poe.exps.length * (4 * eps) := by
      apply mul_le_mul_of_nonneg_left _ hn0
      nlinarith
    unfold reachTol
    nlinarith [mul_nonneg (mul_nonneg hn0 hRn) he0.le, mul_nonneg hRn he0.le]
  · -- two joints
    rw [hsp] at he
    obtain rfl := Option.some.inj he
    obtain ⟨rfl, har⟩ : M = m + 1 ∧ Around pb.poe.exps ((subs.take i).flatMap Subproblem.ids) m M p := hplaced
    obtain ⟨hes1, hes2⟩ : pb.poe.exps[m]? = some e1 ∧ pb.poe.exps[m + 1]? = some e2 := huses
    have hMl := (List.getElem?_eq_some_iff.mp hes2).1
    have hmem1 := List.mem_of_getElem? hes1
    have hmem2 := List.mem_of_getElem? hes2
    obtain ⟨A, hA, hF, hE, hH⟩ := call_view hc hlen (m := m) (M := m + 1) (by omega) hMb hb
      (by
        intro s hs' j
        rw [hsp] at hs'
        rw [← Option.some.inj hs']
        simp only [Subproblem.ids, List.mem_cons, List.not_mem_nil, or_false]
        omega)
      (by
        intro j j1 j2
        exact hfreshAll _ hsp j (by simp [Subproblem.ids]; omega))
      har.1 hlast hright
    have hce := chain_error hwf.unit (m := m) (M := m + 1) (by omega) hMb hb hA hF hE hH (hnear hMb har hright)
    obtain ⟨φ1, φ2, rfl, hb'⟩ := pk2_error (id1 := m) (id2 := m + 1) hchosen.1 hchosen.2.1
      (hwf.unit e1 hmem1) (hwf.unit e2 hmem2) hchosen.2.2.1 hchosen.2.2.2 hsolve hl
      (D := pb.poe.exps.length * R) (R := R) (by rw [hH]; exact hR0 (m + 1) b b hb le_rfl e2 hmem2)
      (hR.1 e2 hmem2 e1 hmem1)
    have hφ1 : pb.val q m = φ1 := hstored (m, φ1) (by simp) (by simp; omega)
    have hφ2 : pb.val q (m + 1) = φ2 := hstored (m + 1, φ2) (by simp) hMl
    rw [seg_split (b := m + 1) (by omega) (by omega), seg_one hes1, seg_one hes2, hφ1, hφ2,
      Frame.act_mul (e1.asFrame φ1) (e2.asFrame φ2)] at hce
    refine hce.trans ?_
    have hs3 := sqrt3_le
    have he0 := eps_pos
    have hn0 : (0 : ℝ) ≤ pb.poe.exps.length := by positivity
    have h6 : (pb.poe.exps.length : ℝ) * (2 * (√3 * eps)) ≤ pb.poe.exps.length * (4 * eps) := by
      apply mul_le_mul_of_nonneg_left _ hn0
      nlinarith
    unfold reachTol
    nlinarith

theorem probe_error {rnd : ℕ → ℝ} {poe : Poe} (hu : ∀ e ∈ poe.exps, e.Unit) (ht : poe.tool.IsRigid)
    {pb : IkProblem} {subs : List Subproblem} (h : build rnd poe = some (some (pb, subs))) {T : Frame}
    (hT : T.IsRigid) {q : List ℝ} (hq : q.length = poe.exps.length) (out : Frame) :
    ∃ FK P : Frame, poe.evaluate q out = (true, FK) ∧ FK.IsRigid ∧ P.IsRigid ∧
      (∀ p, pb.probe T p = P.act p) ∧
      ∀ p, (FK.act (pb.probe T p) - T.act (pb.probe T p)).norm =
        ((Poe.expProd pb.poe.exps (pb.values q)).act p - (pb.goal T * pb.poe.tool.inv).act p).norm := by
  obtain ⟨_, h2, _, _, _⟩ := C19_covers_joints_exactly_once rnd poe pb subs h
  have hev : poe.evaluate q out = (true, Poe.expProd poe.exps q * poe.tool) :=
    C03_evaluate_is_product poe q out hq.symm
  have hFK : (Poe.expProd poe.exps q * poe.tool).IsRigid := by
    apply Frame.IsRigid.mul _ ht
    rw [expProd_seg hq]; exact seg_rigid hu _ _ _
  rcases h2 with ⟨hr, hp⟩ | ⟨hr, hp⟩
  · refine ⟨_, poe.tool.inv, hev, hFK, ht.inv, fun p => by simp [probe, hr, hp], fun p => ?_⟩
    simp only [probe, hr, values, goal, hp, Bool.false_eq_true, if_false, Frame.act_mul, ht.act_act_inv]
  · refine ⟨_, T.inv * poe.reverseSelf.tool.inv, hev, hFK, hT.inv.mul ht.inv.inv,
      fun p => by simp [probe, hr, hp, Frame.act_mul], fun p => ?_⟩
    have hrev := C05_reverse_inverts poe q out hu ht hq.symm
    rw [C03_evaluate_is_product _ _ _ (by simpa [Poe.reverseSelf] using hq.symm), hev] at hrev
    have hrev' : Poe.expProd poe.reverseSelf.exps (q.reverse.map (- ·)) * poe.reverseSelf.tool =
        (Poe.expProd poe.exps q * poe.tool).inv := congrArg Prod.snd hrev
    set FK := Poe.expProd poe.exps q * poe.tool with hFKd
    have htr : poe.reverseSelf.tool.IsRigid := ht.inv
    have hE : Poe.expProd poe.reverseSelf.exps (q.reverse.map (- ·)) = FK.inv * poe.reverseSelf.tool.inv := by
      rw [← hrev', mul_assoc, htr.mul_inv, mul_one]
    have hv : pb.values q = q.reverse.map (- ·) := by simp [values, hr]
    simp only [probe, hr, hp, goal, if_true, hv]
    rw [hE]
    clear_value FK
    simp only [Frame.act_mul]
    generalize poe.reverseSelf.tool.inv.act p = y
    rw [hT.act_act_inv, ← hFK.dist (FK.inv.act y), hFK.act_act_inv]
    rw [show FK.act (T.inv.act y) - y = -(y - FK.act (T.inv.act y)) by abel, Vec3.norm_neg]

/-- Arms with rotational joints only: if the problem that was built for an arm reports success,
every returned joint array brings the points settled by its steps to where the target asks,
within a tolerance that only depends on the number of joints and the size of the arm. -/
theorem C18_points_reached_partial (rnd : ℕ → ℝ) (poe : Poe) (hu : ∀ e ∈ poe.exps, e.Unit)
    (ht : poe.tool.IsRigid) (hrot : ∀ e ∈ poe.exps, e.motion = .rotation) (pb : IkProblem)
    (subs : List Subproblem) (h : build rnd poe = some (some (pb, subs))) (hm : Margin pb.poe.exps)
    (T : Frame) (hT : T.IsRigid) (out sols : List (List ℝ)) (hs : pb.solve T out = some (true, sols))
    (q : List ℝ) (hq : q ∈ sols) :
    ∃ FK, poe.evaluate q 1 = (true, FK) ∧
      ∀ i p R, SettlesPoint poe.exps.length subs i p → Within pb.poe.exps [p] R →
        (FK.act (pb.probe T p) - T.act (pb.probe T p)).norm ≤
          √eps + (5 + 4 * poe.exps.length + (2 * poe.exps.length + 1) * R) * eps := by
  have hwf := C19_built_problem_wellformed rnd poe hu ht pb subs h hm
  obtain ⟨_, _, h3, h4, _⟩ := C19_covers_joints_exactly_once rnd poe pb subs h
  have hqs : q.length = pb.poe.exps.length := by
    obtain ⟨ok, sols', g1, g2, g3, _⟩ := solve_eq hwf.stepsPair hwf.stepsOK T out
    rw [hs, Option.some.injEq, Prod.mk.injEq] at g1
    obtain ⟨rfl, rfl⟩ := g1
    rw [counts_eq] at g2 g3
    obtain ⟨k, hk, rfl⟩ := List.mem_iff_getElem.mp hq
    obtain ⟨ks, hks, hpos⟩ := radix_surj (subs.map Subproblem.count) k (by omega)
    obtain ⟨oks, q2, _, e2, e3⟩ := g3 ks hks
    rw [hpos, List.getElem?_eq_getElem hk] at e3
    rw [Option.some.inj e3]; exact e2
  obtain ⟨FK, P, e1, _, _, _, e2⟩ := probe_error hu ht h hT (hqs.trans h3) 1
  refine ⟨FK, e1, fun i p R hp hR => ?_⟩
  rw [e2 p]
  have := settled_point hu ht hrot h hm hs hq (by rw [h3]; exact hp) hR
  rwa [h3] at this

/-- If three of those points are not in a line, the whole pose of the tool is right: the
orientation, and the position of every point carried by the tool, up to a tolerance
proportional to the one of the points. The factor is the sum of the distances from the first
point to the others over twice the area of their triangle. -/
theorem C18_pose_reached_partial (rnd : ℕ → ℝ) (poe : Poe) (hu : ∀ e ∈ poe.exps, e.Unit)
    (ht : poe.tool.IsRigid) (hrot : ∀ e ∈ poe.exps, e.motion = .rotation) (pb : IkProblem)
    (subs : List Subproblem) (h : build rnd poe = some (some (pb, subs))) (hm : Margin pb.poe.exps)
    (T : Frame) (hT : T.IsRigid) (out sols : List (List ℝ)) (hs : pb.solve T out = some (true, sols))
    (q : List ℝ) (hq : q ∈ sols) (i0 i1 i2 : ℕ) (p0 p1 p2 : Vec3)
    (h0 : SettlesPoint poe.exps.length subs i0 p0) (h1 : SettlesPoint poe.exps.length subs i1 p1)
    (h2 : SettlesPoint poe.exps.length subs i2 p2) (hc : cross (p1 - p0) (p2 - p0) ≠ 0)
    (R : ℝ) (hR : Within pb.poe.exps [p0, p1, p2] R) (δ κ : ℝ)
    (hδ : δ = √eps + (5 + 4 * poe.exps.length + (2 * poe.exps.length + 1) * R) * eps)
    (hκ : κ = ((p1 - p0).norm + (p2 - p0).norm) / (cross (p1 - p0) (p2 - p0)).norm) :
    ∃ FK, poe.evaluate q 1 = (true, FK) ∧
      (∀ d, (FK.M.mulVec d - T.M.mulVec d).norm ≤ 4 * δ * κ * d.norm) ∧
      ∀ y, (FK.act y - T.act y).norm ≤ δ + 4 * δ * κ * (y - pb.probe T p0).norm := by
  have hwf := C19_built_problem_wellformed rnd poe hu ht pb subs h hm
  obtain ⟨_, _, h3, h4, _⟩ := C19_covers_joints_exactly_once rnd poe pb subs h
  obtain ⟨FK, e1, hpts⟩ := C18_points_reached_partial rnd poe hu ht hrot pb subs h hm T hT out sols hs q hq
  have hql : q.length = poe.exps.length := by
    by_contra hne
    unfold Poe.evaluate at e1
    rw [if_pos (by omega)] at e1
    cases e1
  obtain ⟨FK', P, e1', hF, hP, hprobe, _⟩ := probe_error hu ht h hT hql 1
  have hFF : FK' = FK := by
    rw [e1] at e1'
    exact (Prod.mk.inj e1').2.symm
  rw [hFF] at hF
  have hw : ∀ p ∈ [p0, p1, p2], Within pb.poe.exps [p] R := fun p hp =>
    ⟨hR.1, fun p' hp' => by rw [List.mem_singleton.mp hp']; exact hR.2 p hp⟩
  have b0 := hpts i0 p0 R h0 (hw p0 (by simp))
  have b1 := hpts i1 p1 R h1 (hw p1 (by simp))
  have b2 := hpts i2 p2 R h2 (hw p2 (by simp))
  rw [← hδ] at b0 b1 b2
  have hd1 : pb.probe T p1 - pb.probe T p0 = P.M.mulVec (p1 - p0) := by
    rw [hprobe, hprobe, Frame.act_sub]
  have hd2 : pb.probe T p2 - pb.probe T p0 = P.M.mulVec (p2 - p0) := by
    rw [hprobe, hprobe, Frame.act_sub]
  have hcr : cross (pb.probe T p1 - pb.probe T p0) (pb.probe T p2 - pb.probe T p0) =
      P.M.mulVec (cross (p1 - p0) (p2 - p0)) := by
    rw [hd1, hd2, Mat3.IsRot.cross hP]
  have hrotn : ∀ v, (P.M.mulVec v).norm = v.norm := fun v => Mat3.IsRot.norm hP v
  have hdir : ∀ d, (FK.M.mulVec d - T.M.mulVec d).norm ≤ 4 * δ * κ * d.norm := by
    intro d
    have := three_points hF hT b0 b1 b2 (by
      rw [hcr]
      intro h0
      apply hc
      apply Vec3.norm_eq_zero
      rw [← hrotn, h0, Vec3.norm_zero]) d
    rwa [hcr, hd1, hd2, hrotn, hrotn, hrotn, ← hκ] at this
  refine ⟨FK, e1, hdir, fun y => ?_⟩
  have hsplit : FK.act y - T.act y = (FK.act (pb.probe T p0) - T.act (pb.probe T p0)) +
      (FK.M.mulVec (y - pb.probe T p0) - T.M.mulVec (y - pb.probe T p0)) := by
    rw [← Frame.act_sub, ← Frame.act_sub]; abel
  rw [hsplit]
  refine (Vec3.norm_add_le _ _).trans ?_
  have := hdir (y - pb.probe T p0)
  linarith

/-! ### A case that meets the hypotheses -/

open scoped Classical

/-- An arm with a vertical axis at the origin and two axes that meet one unit away. -/
def elbowArm : Poe :=
  ⟨[⟨.rotation, ⟨0, 0, 1⟩, 0⟩, ⟨.rotation, ⟨0, 1, 0⟩, ⟨1, 0, 0⟩⟩, ⟨.rotation, ⟨1, 0, 0⟩, ⟨1, 0, 0⟩⟩],
    ⟨1, ⟨2, 0, 0⟩⟩⟩

/-- Its steps. -/
def elbowSteps : List Subproblem :=
  [.pk1 0 ⟨.rotation, ⟨0, 0, 1⟩, 0⟩ ⟨1, 0, 0⟩, .pk1 1 ⟨.rotation, ⟨0, 1, 0⟩, ⟨1, 0, 0⟩⟩ 0,
    .pk1 2 ⟨.rotation, ⟨1, 0, 0⟩, ⟨1, 0, 0⟩⟩ ⟨0, 0, 1⟩]

theorem addRandom_first {rnd : ℕ → ℝ} {e : MatrixExp} {es : List MatrixExp} {k : ℕ} {set set' : List Vec3}
    (hm : e.motion = .rotation) (h : insertPoint (drawn rnd e k) set = (set', true)) :
    addRandom rnd (e :: es) k set = addRandom rnd es (k + 1) set' := by
  have hex : ∃ n, (insertPoint (drawn rnd e (k + n)) set).2 = true := ⟨0, by rw [Nat.add_zero, h]⟩
  have h0 : Nat.find hex = 0 := (Nat.find_eq_zero hex).mpr (by rw [Nat.add_zero, h])
  rw [addRandom, if_neg (by simp [hm]), dif_pos hex, h0]
  simp only [Nat.add_zero, h]

theorem elbow_points : searchPoints (fun _ => 1) 0 elbowArm =
    some (3, [0, ⟨0, 0, 1⟩, ⟨1, 0, 0⟩, ⟨1, 1, 0⟩, ⟨2, 0, 0⟩]) := by
  have h01 : ¬ EqualR 0 1 := by norm_num [EqualR, eps]
  have h10 : ¬ EqualR 1 0 := by norm_num [EqualR, eps]
  have h02 : ¬ EqualR 0 2 := by norm_num [EqualR, eps]
  have h12 : ¬ EqualR 1 2 := by norm_num [EqualR, eps]
  have h20 : ¬ EqualR 2 0 := by norm_num [EqualR, eps]
  have h21 : ¬ EqualR 2 1 := by norm_num [EqualR, eps]
  have hr : ∀ x : ℝ, EqualR x x := EqualR.refl
  have ha : addAxes elbowArm.exps (insertPoint 0 []).1 = [0, ⟨1, 0, 0⟩] := by
    simp [addAxes, elbowArm, addIntersections, insertPoint, lessV, parallelAxes, colinearAxes, cross,
      Vec3.Equal, intersectingAxes, hr, h01, h10, norm_sq, dot]
  have h1 : insertPoint (drawn (fun _ => 1) ⟨.rotation, ⟨0, 0, 1⟩, 0⟩ 0) [0, ⟨1, 0, 0⟩] =
      ([0, ⟨0, 0, 1⟩, ⟨1, 0, 0⟩], true) := by
    have : ¬ (1 : ℝ) < 0 := by norm_num
    simp [insertPoint, lessV, drawn, hr, h01, h10, this]
  have h2 : insertPoint (drawn (fun _ => 1) ⟨.rotation, ⟨0, 1, 0⟩, ⟨1, 0, 0⟩⟩ (0 + 1))
      [0, ⟨0, 0, 1⟩, ⟨1, 0, 0⟩] = ([0, ⟨0, 0, 1⟩, ⟨1, 0, 0⟩, ⟨1, 1, 0⟩], true) := by
    simp [insertPoint, lessV, drawn, hr, h01]
    ext <;> simp
  have h3 : insertPoint (drawn (fun _ => 1) ⟨.rotation, ⟨1, 0, 0⟩, ⟨1, 0, 0⟩⟩ (0 + 1 + 1))
      [0, ⟨0, 0, 1⟩, ⟨1, 0, 0⟩, ⟨1, 1, 0⟩] = ([0, ⟨0, 0, 1⟩, ⟨1, 0, 0⟩, ⟨1, 1, 0⟩, ⟨2, 0, 0⟩], true) := by
    have : drawn (fun _ => 1) ⟨.rotation, ⟨1, 0, 0⟩, ⟨1, 0, 0⟩⟩ (0 + 1 + 1) = ⟨2, 0, 0⟩ := by
      ext <;> norm_num [drawn]
    rw [this]
    simp [insertPoint, lessV, h02, h12]
  have h4 : (insertPoint ⟨2, 0, 0⟩ [0, ⟨0, 0, 1⟩, ⟨1, 0, 0⟩, ⟨1, 1, 0⟩, ⟨2, 0, 0⟩]).1 =
      [0, ⟨0, 0, 1⟩, ⟨1, 0, 0⟩, ⟨1, 1, 0⟩, ⟨2, 0, 0⟩] := by
    simp [insertPoint, lessV, hr, h02, h12]
  unfold searchPoints
  rw [ha]
  have : addRandom (fun _ => 1) elbowArm.exps 0 [0, ⟨1, 0, 0⟩] =
      some (0 + 1 + 1 + 1, [0, ⟨0, 0, 1⟩, ⟨1, 0, 0⟩, ⟨1, 1, 0⟩, ⟨2, 0, 0⟩]) := by
    unfold elbowArm
    rw [addRandom_first rfl h1, addRandom_first rfl h2, addRandom_first rfl h3, addRandom]
  rw [this]
  simp only [Option.bind_eq_bind, Option.bind_some, elbowArm, h4]
  rfl

theorem searchLoop_step {es : List MatrixExp} {pts : List Vec3} {s s' : Search} {f : ℕ}
    (hp : pass es pts s = s') (hg : goesOn s' = true) :
    searchLoop es pts (f + 1) s = searchLoop es pts f s' := by
  simp only [searchLoop, hp, hg, if_true]

theorem searchLoop_stop {es : List MatrixExp} {pts : List Vec3} {s s' : Search} {f : ℕ}
    (hp : pass es pts s = s') (hg : goesOn s' = false) : searchLoop es pts (f + 1) s = some s' := by
  simp [searchLoop, hp, hg]

/-- The points. -/
def elbowPts : List Vec3 := [0, ⟨0, 0, 1⟩, ⟨1, 0, 0⟩, ⟨1, 1, 0⟩, ⟨2, 0, 0⟩]

set_option linter.unusedSimpArgs false in
theorem elbow_search : searchSolutions elbowArm.exps elbowPts =
    some ⟨[⟨true, true⟩, ⟨true, true⟩, ⟨true, false⟩], 0, 0, 0, 0, 0, elbowSteps⟩ := by
  have h01 : ¬ EqualR 0 1 := by norm_num [EqualR, eps]
  have h10 : ¬ EqualR 1 0 := by norm_num [EqualR, eps]
  have hm : ¬ EqualR (-1) 0 := by norm_num [EqualR, eps]
  have hr : ∀ x : ℝ, EqualR x x := EqualR.refl
  have p1 : pass elbowArm.exps elbowPts (initial 3 elbowPts) =
      ⟨[⟨false, false⟩, ⟨false, false⟩, ⟨false, true⟩], 1, 0, ⟨0, 0, 1⟩, 0, 0, []⟩ := by
    simp [pass, initial, elbowArm, elbowPts, elbowSteps, refresh, markLeading, simplify, simplifyPK1, markFromUnknown,
      markWhileOnAxis, PoeTerm.isUnknown, liesOnAxis, cross, Vec3.Equal, hr, h01, h10, hm, trySolve, lastOpen,
      PoeTerm.open_, parallelAxes, intersectingAxes, norm_sq, dot, Builder.advance, List.findIdx, List.findIdx.go, setKnown]
  have p2 : pass elbowArm.exps elbowPts (⟨[⟨false, false⟩, ⟨false, false⟩, ⟨false, true⟩], 1, 0, ⟨0, 0, 1⟩, 0, 0, []⟩) =
      ⟨[⟨false, false⟩, ⟨false, false⟩, ⟨false, false⟩], 2, 0, ⟨1, 0, 0⟩, 0, 0, []⟩ := by
    simp [pass, initial, elbowArm, elbowPts, elbowSteps, refresh, markLeading, simplify, simplifyPK1, markFromUnknown,
      markWhileOnAxis, PoeTerm.isUnknown, liesOnAxis, cross, Vec3.Equal, hr, h01, h10, hm, trySolve, lastOpen,
      PoeTerm.open_, parallelAxes, intersectingAxes, norm_sq, dot, Builder.advance, List.findIdx, List.findIdx.go, setKnown]
  have p3 : pass elbowArm.exps elbowPts (⟨[⟨false, false⟩, ⟨false, false⟩, ⟨false, false⟩], 2, 0, ⟨1, 0, 0⟩, 0, 0, []⟩) =
      ⟨[⟨true, false⟩, ⟨false, true⟩, ⟨false, true⟩], 0, 0, 0, 0, 0, [.pk1 0 ⟨.rotation, ⟨0, 0, 1⟩, 0⟩ ⟨1, 0, 0⟩]⟩ := by
    simp [pass, initial, elbowArm, elbowPts, elbowSteps, refresh, markLeading, simplify, simplifyPK1, markFromUnknown,
      markWhileOnAxis, PoeTerm.isUnknown, liesOnAxis, cross, Vec3.Equal, hr, h01, h10, hm, trySolve, lastOpen,
      PoeTerm.open_, parallelAxes, intersectingAxes, norm_sq, dot, Builder.advance, List.findIdx, List.findIdx.go, setKnown]
  have p4 : pass elbowArm.exps elbowPts (⟨[⟨true, false⟩, ⟨false, true⟩, ⟨false, true⟩], 0, 0, 0, 0, 0, [.pk1 0 ⟨.rotation, ⟨0, 0, 1⟩, 0⟩ ⟨1, 0, 0⟩]⟩) =
      ⟨[⟨true, true⟩, ⟨true, false⟩, ⟨false, true⟩], 0, 0, 0, 0, 0, [.pk1 0 ⟨.rotation, ⟨0, 0, 1⟩, 0⟩ ⟨1, 0, 0⟩, .pk1 1 ⟨.rotation, ⟨0, 1, 0⟩, ⟨1, 0, 0⟩⟩ 0]⟩ := by
    simp [pass, initial, elbowArm, elbowPts, elbowSteps, refresh, markLeading, simplify, simplifyPK1, markFromUnknown,
      markWhileOnAxis, PoeTerm.isUnknown, liesOnAxis, cross, Vec3.Equal, hr, h01, h10, hm, trySolve, lastOpen,
      PoeTerm.open_, parallelAxes, intersectingAxes, norm_sq, dot, Builder.advance, List.findIdx, List.findIdx.go, setKnown]
  have p5 : pass elbowArm.exps elbowPts (⟨[⟨true, true⟩, ⟨true, false⟩, ⟨false, true⟩], 0, 0, 0, 0, 0, [.pk1 0 ⟨.rotation, ⟨0, 0, 1⟩, 0⟩ ⟨1, 0, 0⟩, .pk1 1 ⟨.rotation, ⟨0, 1, 0⟩, ⟨1, 0, 0⟩⟩ 0]⟩) =
      ⟨[⟨true, true⟩, ⟨true, true⟩, ⟨false, true⟩], 1, 0, ⟨0, 0, 1⟩, 0, 0, [.pk1 0 ⟨.rotation, ⟨0, 0, 1⟩, 0⟩ ⟨1, 0, 0⟩, .pk1 1 ⟨.rotation, ⟨0, 1, 0⟩, ⟨1, 0, 0⟩⟩ 0]⟩ := by
    simp [pass, initial, elbowArm, elbowPts, elbowSteps, refresh, markLeading, simplify, simplifyPK1, markFromUnknown,
      markWhileOnAxis, PoeTerm.isUnknown, liesOnAxis, cross, Vec3.Equal, hr, h01, h10, hm, trySolve, lastOpen,
      PoeTerm.open_, parallelAxes, intersectingAxes, norm_sq, dot, Builder.advance, List.findIdx, List.findIdx.go, setKnown]
  have p6 : pass elbowArm.exps elbowPts (⟨[⟨true, true⟩, ⟨true, true⟩, ⟨false, true⟩], 1, 0, ⟨0, 0, 1⟩, 0, 0, [.pk1 0 ⟨.rotation, ⟨0, 0, 1⟩, 0⟩ ⟨1, 0, 0⟩, .pk1 1 ⟨.rotation, ⟨0, 1, 0⟩, ⟨1, 0, 0⟩⟩ 0]⟩) =
      ⟨[⟨true, true⟩, ⟨true, true⟩, ⟨true, false⟩], 0, 0, 0, 0, 0, elbowSteps⟩ := by
    simp [pass, initial, elbowArm, elbowPts, elbowSteps, refresh, markLeading, simplify, simplifyPK1, markFromUnknown,
      markWhileOnAxis, PoeTerm.isUnknown, liesOnAxis, cross, Vec3.Equal, hr, h01, h10, hm, trySolve, lastOpen,
      PoeTerm.open_, parallelAxes, intersectingAxes, norm_sq, dot, Builder.advance, List.findIdx, List.findIdx.go, setKnown]
  have hb : passBound 3 5 = 118 + 1 + 1 + 1 + 1 + 1 + 1 := rfl
  unfold searchSolutions
  rw [show elbowArm.exps.length = 3 from rfl, show elbowPts.length = 5 from rfl, hb]
  rw [searchLoop_step p1 rfl, searchLoop_step p2 rfl, searchLoop_step p3 rfl, searchLoop_step p4 rfl,
    searchLoop_step p5 rfl, searchLoop_stop p6 rfl]

theorem elbow_build : build (fun _ => 1) elbowArm =
    some (some (⟨elbowArm, elbowSteps.map Subproblem.toStep, false⟩, elbowSteps)) := by
  have hs := elbow_search
  unfold elbowPts at hs
  simp only [build, attempt, elbow_points, hs, Option.bind_eq_bind, Option.bind_some]
  simp [elbowArm]

theorem pk1_home {id : ℕ} {e : MatrixExp} {p : Vec3} :
    pk1 id e p 1 1 = some (true, [[(id, 0)]]) := by
  have hθ : ∀ a w : Vec3, angleAbout a w w = 0 := by
    intro a w
    rw [angleAbout, cross_self, dot_zero_right]
    exact Complex.arg_ofReal_of_nonneg (dot_self_nonneg w)
  have hn : normalizeAngle 0 = 0 := by
    have h1 : ¬ EqualR |(0 : ℝ)| Real.pi := by
      have := Real.two_le_pi
      rw [EqualR, abs_zero, zero_sub, abs_neg, abs_of_pos Real.pi_pos]
      norm_num [eps]; linarith
    have h2 := Real.pi_pos
    rw [normalizeAngle, if_neg h1, if_neg (by linarith), if_neg (by linarith)]
  simp only [pk1, Frame.act_one, hθ, hn]
  simp [Vec3.Equal.refl, EqualR.refl]

set_option linter.unusedSimpArgs false in
theorem elbow_solve : (⟨elbowArm, elbowSteps.map Subproblem.toStep, false⟩ : IkProblem).solve elbowArm.tool [] =
    some (true, [[0, 0, 0]]) := by
  have hrhs : (⟨elbowArm, elbowSteps.map Subproblem.toStep, false⟩ : IkProblem).initialRhs elbowArm.tool = 1 := by
    simp only [initialRhs]
    exact Frame.IsRigid.mul_inv Mat3.IsRot.one
  have hsolve : ∀ (id : ℕ) (e : MatrixExp) (p : Vec3), (Subproblem.pk1 id e p).toStep.solve 1 1 =
      some (true, [[(id, 0)]]) := fun id e p => pk1_home
  unfold IkProblem.solve
  rw [hrhs]
  simp [elbowSteps, IkProblem.stepsLoop, IkProblem.branchLoop, IkProblem.branchBody, hsolve,
      elbowArm, IkProblem.transformPoint, IkProblem.storeLoop, IkProblem.writePairs, writeAt,
      IkProblem.transformLoop, IkProblem.termFrames, recalculateFrames, forwardLoop, backwardLoop, getTheta, MatrixExp.asFrame_zero]

/-- The hypotheses of the theorems above are met by an arm with three joints. -/
example : (∀ e ∈ elbowArm.exps, e.Unit) ∧ elbowArm.tool.IsRigid ∧ (∀ e ∈ elbowArm.exps, e.motion = .rotation) ∧
    ∃ pb, build (fun _ => 1) elbowArm = some (some (pb, elbowSteps)) ∧ Margin pb.poe.exps ∧
      pb.solve elbowArm.tool [] = some (true, [[0, 0, 0]]) ∧
      SettlesPoint elbowArm.exps.length elbowSteps 0 ⟨1, 0, 0⟩ ∧
      SettlesPoint elbowArm.exps.length elbowSteps 1 0 ∧
      SettlesPoint elbowArm.exps.length elbowSteps 2 ⟨0, 0, 1⟩ ∧
      cross (0 - ⟨1, 0, 0⟩) ((⟨0, 0, 1⟩ : Vec3) - ⟨1, 0, 0⟩) ≠ 0 ∧
      Within pb.poe.exps [⟨1, 0, 0⟩, 0, ⟨0, 0, 1⟩] 2 := by
  refine ⟨?_, Mat3.IsRot.one, ?_, _, elbow_build, ?_, elbow_solve, ?_, ?_, ?_, ?_, ?_⟩
  · intro e he
    simp [elbowArm] at he
    rcases he with rfl | rfl | rfl <;> norm_num [MatrixExp.Unit, Vec3.dot]
  · intro e he
    simp [elbowArm] at he
    rcases he with rfl | rfl | rfl <;> rfl
  · have h10 : ¬ EqualR 1 0 := by norm_num [EqualR, eps]
    have hm : ¬ EqualR (-1) 0 := by norm_num [EqualR, eps]
    intro e1 h1 e2 h2 _ _ hp
    simp [elbowArm] at h1 h2
    rcases h1 with rfl | rfl | rfl <;> rcases h2 with rfl | rfl | rfl <;>
      simp [parallelAxes, cross, Vec3.Equal, h10, hm, EqualR.refl] at hp ⊢ <;> exact ⟨rfl, Or.inl rfl⟩
  · exact ⟨0, 0, 1, Or.inl ⟨_, rfl, rfl⟩, by omega, by simp [elbowArm], by simp, fun j _ _ => by simp; omega⟩
  · refine ⟨1, 1, 2, Or.inl ⟨_, rfl, rfl⟩, by omega, by simp [elbowArm], ?_, ?_⟩
    · simp [elbowSteps, elbowArm, Subproblem.ids]
    · intro j h1 h2
      simp [elbowSteps, Subproblem.ids]
      omega
  · refine ⟨2, 2, 3, Or.inl ⟨_, rfl, rfl⟩, by omega, by simp [elbowArm], ?_, ?_⟩
    · simp [elbowSteps, elbowArm, Subproblem.ids]
    · intro j h1 h2
      simp [elbowArm] at h2
      omega
  · intro h
    have := congrArg Vec3.y h
    simp at this
  · have hs : √(1 + 1) ≤ (2 : ℝ) := by rw [Real.sqrt_le_left (by norm_num)]; norm_num
    constructor
    · intro e he e' he'
      simp [elbowArm] at he he'
      rcases he with rfl | rfl | rfl <;> rcases he' with rfl | rfl | rfl <;> simp [Vec3.norm, dot]
    · intro p hp e he
      simp at hp
      simp [elbowArm] at he
      rcases hp with rfl | rfl | rfl <;> rcases he with rfl | rfl | rfl <;> simp [Vec3.norm, dot, hs]

end KD
