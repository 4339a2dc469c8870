import Verif.Ctrl.WithAsibot
import Verif.Props.WithKdl
import Verif.Props.AsibotTools
import Verif.Props.AsibotJacobian

/-! # Lemmas about the controller with the ASIBOT solver -/

namespace KD.Ctrl.WithAsibot

open KdlVectorConverter
open KinRepr (standard rotOf)
open Prog (wp wp_sound)
open KD.Asibot (Solver GoodSvd)

/-! ## The solver is defined for vectors of the right sizes -/

theorem read_some {q : List ℝ} (h : q.length = 5) : ∃ j, Asibot.Joints.read q = some j ∧ q = j.toList := by
  match q, h with
  | [a, b, c, d, e], _ => exact ⟨⟨a, b, c, d, e⟩, rfl, rfl⟩

theorem read_toList (j : Asibot.Joints) : Asibot.Joints.read j.toList = some j := rfl

theorem matrix_some {x : List ℝ} (h : 6 ≤ x.length) : ∃ f, Asibot.vectorToMatrix x = some f ∧ f.IsRigid := by
  obtain ⟨a, b, c, d, e, f, t, rfl⟩ := KinRepr.cons_form6 h
  refine ⟨_, rfl, ?_⟩
  unfold Frame.IsRigid
  dsimp only
  split_ifs with hn
  · refine Mat3.rot2_isRot ?_ _
    have h0 : (0 : ℝ) < Vec3.norm ⟨d, e, f⟩ := lt_trans (by norm_num) hn
    have h1 := Vec3.norm_sq ⟨d, e, f⟩
    rw [Vec3.dot_smul_left, Vec3.dot_smul_right, ← h1]
    field_simp
  · exact Mat3.IsRot.one

theorem vector_length (svd : Mat3 → Vec3) (f : Frame) : (Asibot.matrixToVector svd f).length = 6 := rfl

theorem fwdKin_some (svd : Mat3 → Vec3) (k : Solver) {q : List ℝ} (h : q.length = 5) :
    ∃ x, Asibot.fwdKin svd k q = some x ∧ x.length = 6 := by
  obtain ⟨j, hj, -⟩ := read_some h
  cases ht : k.hasFrame
  · exact ⟨_, Asibot.fwdKin_no_tool svd ht hj, rfl⟩
  · rw [Asibot.fwdKin_tool svd ht hj]
    exact ⟨_, rfl, vector_length _ _⟩

theorem changeOrigin_some (svd : Mat3 → Vec3) {a b : List ℝ} (ha : a.length = 6) (hb : b.length = 6) :
    ∃ x, Asibot.changeOrigin svd a b = some x ∧ x.length = 6 := by
  obtain ⟨f, hf, -⟩ := matrix_some ha.ge
  obtain ⟨g, hg, -⟩ := matrix_some hb.ge
  unfold Asibot.changeOrigin
  rw [hf, hg]
  exact ⟨_, rfl, vector_length _ _⟩

theorem poseDiff_some (svd : Mat3 → Vec3) {a b : List ℝ} (ha : a.length = 6) (hb : b.length = 6) :
    ∃ x, Asibot.poseDiff svd a b = some x ∧ x.length = 6 := by
  obtain ⟨f, hf, -⟩ := matrix_some ha.ge
  obtain ⟨g, hg, -⟩ := matrix_some hb.ge
  unfold Asibot.poseDiff
  rw [hf, hg]
  exact ⟨_, rfl, rfl⟩

theorem solve_some (k : Solver) (g : Asibot.Joints) {x : List ℝ} (h : 6 ≤ x.length) :
    ∃ r, Asibot.solve k x g = some r ∧ ∀ q, r = some q → q.length = 5 := by
  obtain ⟨m, h1, h2⟩ := KinRepr.decodePose_ok (c := .cartesian) (o := .eulerYZ) .radians ⟨x, [], false⟩
    ⟨Or.inl rfl, by simp⟩ (by simpa [KinRepr.Mem.input] using h)
  obtain ⟨a, b, c, d, e, hd⟩ : ∃ a b c d e, m.dst = [a, b, c, d, e] := by
    rw [h2]
    simp [KinRepr.Mem.input, KinRepr.decodedPos, KinRepr.decodedRot]
  unfold Asibot.solve
  rw [h1]
  simp only [Option.bind_eq_bind, Option.bind_some, Bool.true_eq_false, if_false, hd, Option.pure_def]
  split_ifs
  · exact ⟨_, rfl, by simp⟩
  · exact ⟨_, rfl, by simp⟩
  split
  · exact ⟨_, rfl, by simp⟩
  split
  · exact ⟨_, rfl, by simp⟩
  split
  · exact ⟨_, rfl, by simp⟩
  · exact ⟨_, rfl, fun q hq => by rw [← Option.some.inj hq]; rfl⟩

theorem invKin_some (svd : Mat3 → Vec3) (k : Solver) {x q : List ℝ} (f : RefFrame) (hx : x.length = 6) (hq : q.length = 5) :
    ∃ r, Asibot.invKin svd k x q f.solver = some r ∧ ∀ t, r = some t → t.length = 5 := by
  obtain ⟨j, hj, -⟩ := read_some hq
  unfold Asibot.invKin
  rw [hj]
  cases f with
  | base =>
    simp only [RefFrame.solver, Option.bind_eq_bind, Option.bind_some]
    split_ifs
    · obtain ⟨f, hf, -⟩ := matrix_some hx.ge
      rw [hf]
      exact solve_some k j (vector_length _ _).ge
    · exact solve_some k j hx.ge
  | tcp =>
    obtain ⟨y, hy, hl⟩ := fwdKin_some svd k hq
    obtain ⟨z, hz, hl2⟩ := changeOrigin_some svd hx hl
    simp only [RefFrame.solver, Option.bind_eq_bind, Option.bind_some, hy, hz]
    split_ifs
    · obtain ⟨f, hf, -⟩ := matrix_some hl2.ge
      rw [hf]
      exact solve_some k j (vector_length _ _).ge
    · exact solve_some k j hl2.ge

theorem diffInvKin_some (l : Libs) (k : Solver) {q : List ℝ} (t : Twist) (f : RefFrame) (hq : q.length = 5) :
    ∃ v, Asibot.diffInvKin l.svd l.pinv k q t f.solver = some (some v) := by
  obtain ⟨j, hj, -⟩ := read_some hq
  obtain ⟨y, hy, hl⟩ := fwdKin_some l.svd k hq
  obtain ⟨m, hm, -⟩ := matrix_some hl.ge
  unfold Asibot.diffInvKin Asibot.jacobian
  rw [hj]
  cases f <;>
  · simp only [RefFrame.solver, Option.bind_eq_bind, Option.bind_some, hy, hm, Option.pure_def]
    split_ifs
    · exact ⟨_, rfl⟩
    · exact ⟨_, rfl⟩

section

variable {l : Libs} {cfg : Cfg} {k k' : Solver} {e : Ev}

/-- Calls with vectors of the right sizes are within what the solver is defined for. -/
theorem within (hn : cfg.numJoints = 5) (ht : cfg.numTcps = 1) (hs : SizedCall cfg e) : Within l k e := by
  cases e with
  | fwdKin q _ =>
    obtain ⟨x, hx, -⟩ := fwdKin_some l.svd k (Eq.trans hs hn)
    simp [Within, hx]
  | invKin x q f _ =>
    obtain ⟨r, hr, -⟩ := invKin_some l.svd k f (x := x) (by rw [hs.1, ht]) (hs.2.trans hn)
    simp [Within, hr]
  | diffInvKin q x f _ =>
    obtain ⟨v, hv⟩ := diffInvKin_some l k (vectorToTwist x) f (hs.1.trans hn)
    exact ⟨by rw [hs.2, ht], by simp [hv]⟩
  | poseDiff a b _ =>
    obtain ⟨r, hr, -⟩ := poseDiff_some l.svd (a := a) (b := b) (by rw [hs.1, ht]) (by rw [hs.2, ht])
    simp [Within, hr]
  | changeOrigin a b _ =>
    obtain ⟨r, hr, -⟩ := changeOrigin_some l.svd (a := a) (b := b) (by rw [hs.1, ht]) (by rw [hs.2, ht])
    simp [Within, hr]
  | appendLink x _ =>
    obtain ⟨f, hf, -⟩ := matrix_some (x := x) (le_of_eq (Eq.symm hs))
    simp [Within, Asibot.Solver.appendLink, hf]
  | _ => trivial

/-- Answers of the solver have the sizes that its interface promises. -/
theorem sized_answer (hn : cfg.numJoints = 5) (ht : cfg.numTcps = 1) (ha : Answers l k e k') (hs : SizedCall cfg e) :
    SizedAnswer cfg e := by
  cases e with
  | fwdKin q r =>
    obtain ⟨-, x, h1, rfl⟩ := ha
    obtain ⟨x', hx, hl⟩ := fwdKin_some l.svd k (Eq.trans hs hn)
    rw [h1] at hx
    obtain rfl := Option.some.inj hx
    show x.length = _
    rw [hl, ht]
  | invKin x q f r =>
    obtain ⟨-, h1⟩ := ha
    obtain ⟨r', hr, hl⟩ := invKin_some l.svd k f (x := x) (by rw [hs.1, ht]) (hs.2.trans hn)
    rw [h1] at hr
    obtain rfl := Option.some.inj hr
    cases r with
    | none => trivial
    | some t => show t.length = _; rw [hl t rfl, hn]
  | diffInvKin q x f r =>
    obtain ⟨-, -, v, -, rfl⟩ := ha
    cases v with
    | none => trivial
    | some v => show (Asibot.Joints.toList v).length = _; rw [hn]; rfl
  | poseDiff a b r =>
    obtain ⟨-, x, h1, rfl⟩ := ha
    obtain ⟨r, hr, hl⟩ := poseDiff_some l.svd (a := a) (b := b) (by rw [hs.1, ht]) (by rw [hs.2, ht])
    rw [h1] at hr
    obtain rfl := Option.some.inj hr
    show List.length _ = _
    rw [hl, ht]
  | changeOrigin a b r =>
    obtain ⟨-, x, h1, rfl⟩ := ha
    obtain ⟨r, hr, hl⟩ := changeOrigin_some l.svd (a := a) (b := b) (by rw [hs.1, ht]) (by rw [hs.2, ht])
    rw [h1] at hr
    obtain rfl := Option.some.inj hr
    show List.length _ = _
    rw [hl, ht]
  | invDynStatic q r => obtain ⟨-, rfl⟩ := ha; trivial
  | invDyn q v a w f r => obtain ⟨-, rfl⟩ := ha; trivial
  | _ => trivial

theorem sized_answered {tr : List Ev} (ha : Answered l k tr k') (hn : cfg.numJoints = 5) (ht : cfg.numTcps = 1) :
    ∀ e ∈ tr, SizedCall cfg e → SizedAnswer cfg e := by
  induction ha with
  | nil => simp
  | cons h1 _ ih =>
    intro e he hs
    rcases List.mem_cons.mp he with rfl | he
    exacts [sized_answer hn ht h1 hs, ih e he hs]

theorem answered_append {a b : List Ev} (h : Answered l k (a ++ b) k') : ∃ k1, Answered l k a k1 ∧ Answered l k1 b k' := by
  induction a generalizing k with
  | nil => exact ⟨k, .nil _, h⟩
  | cons e a ih =>
    cases h with
    | cons h1 h2 =>
      obtain ⟨k1, h3, h4⟩ := ih h2
      exact ⟨k1, .cons h1 h3, h4⟩

/-! ## The tool after a history -/

theorem answers_same (h : Answers l k e k') (hk : ¬ChangesChain e) : k' = k := by
  cases e with
  | restoreOriginalChain => exact absurd trivial hk
  | appendLink => exact absurd trivial hk
  | fwdKin => exact h.1
  | invKin => exact h.1
  | diffInvKin => exact h.1
  | poseDiff => exact h.1
  | changeOrigin => exact h.1
  | invDynStatic => exact h.1
  | invDyn => exact h.1
  | _ => exact h

theorem answered_same {tr : List Ev} (h : Answered l k tr k') (hk : ∀ e ∈ tr, ¬ChangesChain e) :
    k' = k ∧ ∀ e ∈ tr, Answers l k e k := by
  induction h with
  | nil => exact ⟨rfl, by simp⟩
  | cons h1 _ ih =>
    obtain rfl := answers_same h1 (hk _ (List.mem_cons_self ..))
    obtain ⟨h2, h3⟩ := ih fun e he => hk e (List.mem_cons_of_mem _ he)
    refine ⟨h2, fun e he => ?_⟩
    rcases List.mem_cons.mp he with rfl | he
    exacts [h1, h3 e he]

/-- A command other than `tool`: all its calls are answered with the same tool. -/
theorem op_same {op : Op} (hop : ∀ x, op ≠ .tool x) {s s' : Ctl} {tr : List Ev} {o} (hx : Exec cfg (op.prog cfg) s tr o s')
    (h : Answered l k tr k') : k' = k ∧ ∀ e ∈ tr, Answers l k e k := by
  refine answered_same h fun e he => ?_
  obtain ⟨c, r, h1, -, rfl⟩ := Prog.run_calls hx (keep_op cfg op hop) e he
  exact keeps_changes h1

/-- A cycle in the middle of a history. -/
theorem cycle_split {ds1 pre post : List Done} {d : Done} {s0 s1 s' : Ctl} (h1 : Hist cfg s0 ds1 s1)
    (h2 : Hist cfg s1 (pre ++ d :: post) s') (hd : d.op = .cycle) {k0 k' : Solver}
    (hk : Answered l k0 (callsOf (ds1 ++ (pre ++ d :: post))) k') :
    ∃ s k, Hist cfg s0 (ds1 ++ pre) s ∧ Answered l k0 (callsOf (ds1 ++ pre)) k ∧ (∀ e ∈ d.calls, Answers l k e k) ∧
      ∀ q, Ev.getEncoders (some q) ∈ d.calls → q.length = cfg.numJoints := by
  obtain ⟨s2, s3, g1, g2, -⟩ := hist_split h2
  rw [← List.append_assoc, callsOf_append] at hk
  obtain ⟨k1, f1, f2⟩ := answered_append hk
  rw [show callsOf (d :: post) = d.calls ++ callsOf post by simp [callsOf]] at f2
  obtain ⟨k2, f3, -⟩ := answered_append f2
  exact ⟨s2, k1, hist_append h1 g1, f1, (op_same (fun x => (by simp [hd])) g2 f3).2, fun q hq => encoders_sized g2 hq⟩

end

/-- The solver `k` is the solver `k0` with the tool `T`. -/
structure WithTool (k0 : Solver) (T : Frame) (k : Solver) : Prop where
  same : k = { k0 with hasFrame := k.hasFrame, frameTcp := T }
  wf : k.Wf

namespace WithTool

variable {k0 k : Solver} {T : Frame}

theorem frame (h : WithTool k0 T k) : k.frameTcp = T := by rw [h.same]

theorem lengths (h : WithTool k0 T k) : k.A0 = k0.A0 ∧ k.A1 = k0.A1 ∧ k.A2 = k0.A2 ∧ k.A3 = k0.A3 := by
  rw [h.same]
  exact ⟨rfl, rfl, rfl, rfl⟩

theorem arm (h : WithTool k0 T k) (q : Asibot.Joints) : Asibot.arm k q = Asibot.arm k0 q :=
  (Asibot.arm_congr h.lengths.1 h.lengths.2.1 h.lengths.2.2.1 h.lengths.2.2.2 q).1

theorem radial (h : WithTool k0 T k) (q : Asibot.Joints) : Asibot.radial k q = Asibot.radial k0 q :=
  (Asibot.arm_congr h.lengths.1 h.lengths.2.1 h.lengths.2.2.1 h.lengths.2.2.2 q).2

theorem tcp (h : WithTool k0 T k) (q : Asibot.Joints) : Asibot.tcp k q = Asibot.arm k0 q.inRadians * T := by
  rw [Asibot.tcp, h.arm, h.frame]

theorem limits (h : WithTool k0 T k) : k.qMin = k0.qMin ∧ k.qMax = k0.qMax := by rw [h.same]; exact ⟨rfl, rfl⟩

theorem rigid (h : WithTool k0 T k) : T.IsRigid := h.frame ▸ h.wf.rigid

theorem restored (h : WithTool k0 T k) (h1 : k0.hasFrame = false) (h2 : k0.frameTcp = 1) : k.restore = k0 := by
  rw [h.same]
  obtain ⟨a, b, c, d, e, f, g, i⟩ := k0
  cases h1
  cases h2
  rfl

end WithTool

/-! ## Dynamics -/

section

variable {cfg : Cfg}

/-- A cycle that reads the encoders aborts, or its handler succeeds. -/
theorem cycle_handler {s s' : Ctl} {tr : List Ev} (hst : s.state ≠ .notControlling) (hx : Exec cfg (run cfg) s tr (.ok ()) s')
    (hr : EncodersRead tr) : Aborted s' tr ∨ ∃ q v a tr' s1, tr = goodRead q v a ++ tr' ∧
      Exec cfg (dispatch cfg s.state q v a) { s with encoderErrors := 0 } tr' (.ok true) s1 := by
  have hend := run_cycle hst hx
  by_cases hab : Aborted s' tr
  · exact Or.inl hab
  refine Or.inr (wp_sound (Q := fun o s' tr => o = .ok () → EncodersRead tr → ¬Aborted s' tr →
    ∃ q v a tr' s1, tr = goodRead q v a ++ tr' ∧
      Exec cfg (dispatch cfg s.state q v a) { s with encoderErrors := 0 } tr' (.ok true) s1) ?_ hx rfl hr hab)
  clear hx hr hab hend
  unfold run getCurrentState
  dev_simp
  refine ⟨fun e => absurd e hst, fun _ => ?_⟩
  unfold runBody readEncoders
  dev_simp
  have hgive : ∀ tr, EncoderFailure tr →
      wp (robot cfg) (Prog.bind stopControl fun _ => Prog.pure ())
        (fun o s' tr => o = .ok () → EncodersRead tr → ¬Aborted s' tr →
          ∃ q v a tr' s1, tr = goodRead q v a ++ tr' ∧
            Exec cfg (dispatch cfg s.state q v a) { s with encoderErrors := 0 } tr' (.ok true) s1)
        { s with encoderErrors := s.encoderErrors + 1, cmcSuccess := false } tr := by
    intro tr htr
    refine wp_stop' fun es r hes => ?_
    dev_simp
    exact fun _ hr => absurd hr (htr.not_read hes).2
  have hskip : ∀ tr, EncoderFailure tr → ¬EncodersRead tr := fun tr he => (he.not_read (es := []) (r := true) (by simp)).1
  refine ⟨⟨fun _ _ hr => ?_, fun _ => ?_⟩, fun q hq => ⟨⟨fun _ _ hr => ?_, fun _ => ?_⟩, fun v hv =>
    ⟨⟨fun _ _ hr => ?_, fun _ => ?_⟩, fun a ha => ⟨by simp, fun ok hok => ⟨fun hk => ?_, fun hk => ?_⟩⟩⟩⟩⟩
  · exact absurd hr (hskip _ (Or.inl rfl))
  · exact hgive _ (Or.inl rfl)
  · exact absurd hr (hskip _ (Or.inr (Or.inl ⟨q, rfl⟩)))
  · exact hgive _ (Or.inr (Or.inl ⟨q, rfl⟩))
  · exact absurd hr (hskip _ (Or.inr (Or.inr ⟨q, v, rfl⟩)))
  · exact hgive _ (Or.inr (Or.inr ⟨q, v, rfl⟩))
  · subst hk
    rw [Prog.wp_bind]
    refine Prog.wp_of_run fun tr o s' hr => ?_
    rcases o with b | _
    · have hend := run_dispatch hst hr
      dev_simp
      refine ⟨fun hb _ _ _ => ?_, fun hb => ?_⟩
      · subst hb
        exact ⟨q, v, a, tr, s', rfl, hr⟩
      · have hb' : b = false := by simpa using hb
        subst hb'
        obtain ⟨rfl, hno⟩ := hend.same rfl
        refine wp_stop' fun es r hes => ?_
        dev_simp
        refine fun _ _ hna => absurd ⟨rfl, rfl, ⟨goodRead q v a ++ tr ++ es, r, by simp [goodRead]⟩, ?_⟩ hna
        have := (NoMotion.append (goodRead_noMotion q v a) hno).append (stop_noMotion hes r)
        simpa [goodRead] using this
    · simp [Prog.Out.andThen]
  · refine ⟨by simp, fun _ => wp_stop' fun es r hes => ?_⟩
    dev_simp
    refine fun _ _ hna => absurd ⟨rfl, rfl, ⟨goodRead q v a ++ es, r, by simp [goodRead]⟩, ?_⟩ hna
    have := (goodRead_noMotion q v a).append (stop_noMotion hes r)
    simpa [goodRead] using this

theorem gcmp_cycle {s s' : Ctl} {tr : List Ev} (hs : s.state = .gcmp) (hx : Exec cfg (run cfg) s tr (.ok ()) s')
    (hr : EncodersRead tr) : Aborted s' tr ∨ ∃ q τ, Ev.invDynStatic q (some τ) ∈ tr := by
  rcases cycle_handler (by rw [hs]; simp) hx hr with h | ⟨q, v, a, tr', s1, rfl, h⟩
  · exact Or.inl h
  right
  rw [hs] at h
  obtain ⟨q, τ, h⟩ := wp_sound (Q := fun o s' tr => o = .ok true → ∃ q τ, Ev.invDynStatic q (some τ) ∈ tr) (by
    show wp _ (handleGcmp cfg q) _ _ _
    unfold handleGcmp
    dev_simp
    simp only [wp_checkControlModes]
    dev_simp
    refine ⟨by simp, fun modes hl => ⟨fun hm => ⟨by simp, fun l => ⟨by simp, fun a ha b => ?_⟩⟩, by simp⟩⟩
    simp) h rfl
  exact ⟨q, τ, List.mem_append_right _ h⟩

theorem forc_cycle {s s' : Ctl} {tr : List Ev} (hs : s.state = .forc) (hx : Exec cfg (run cfg) s tr (.ok ()) s')
    (hr : EncodersRead tr) : Aborted s' tr ∨ ∃ q v a w f τ, Ev.invDyn q v a w f (some τ) ∈ tr := by
  rcases cycle_handler (by rw [hs]; simp) hx hr with h | ⟨q, v, a, tr', s1, rfl, h⟩
  · exact Or.inl h
  right
  rw [hs] at h
  obtain ⟨q, v, a, w, f, τ, h⟩ := wp_sound (Q := fun o s' tr => o = .ok true →
      ∃ q v a w f τ, Ev.invDyn q v a w f (some τ) ∈ tr) (by
    show wp _ (handleForc cfg q v a) _ _ _
    unfold handleForc
    dev_simp
    simp only [wp_checkControlModes]
    dev_simp
    refine ⟨by simp, fun modes hl => ⟨fun hm => ⟨by simp, fun l => ⟨by simp, fun a ha b => ?_⟩⟩, by simp⟩⟩
    simp) h rfl
  exact ⟨q, v, a, w, f, τ, List.mem_append_right _ h⟩

end

end KD.Ctrl.WithAsibot
