import Verif.Solver.KdlTreeSolver
import Verif.Kdl.Jacobian

/-!
# C55: blocks of vectors and TCPs
-/

namespace KD

open KdlVectorConverter

namespace KdlTreeSolver

/-- Specification: the `i`-th group of six elements. -/
def sixth (x : List ℝ) (i : ℕ) : List ℝ := (x.drop (i * 6)).take 6

theorem block_some {x : List ℝ} {i : ℕ} (h : (i + 1) * 6 ≤ x.length) : block x i = some (sixth x i) :=
  if_pos h

theorem sixth_append (a b : List ℝ) (ha : a.length = 6) (i : ℕ) :
    sixth (a ++ b) (i + 1) = sixth b i := by
  unfold sixth
  rw [List.drop_append, ha]
  have : a.drop ((i + 1) * 6) = [] := List.drop_eq_nil_of_le (by omega)
  rw [this, List.nil_append]
  congr 2
  omega

theorem sixth_append_zero (a b : List ℝ) (ha : a.length = 6) : sixth (a ++ b) 0 = a := by
  unfold sixth
  simp [← ha]

/-! ## Forward kinematics, changes of origin, differences -/

theorem poses_blocks (s : KdlTreeSolver) (q : List ℝ) : ∀ (es : List String) (x : List ℝ),
    s.poses q es = some x → x.length = es.length * 6 ∧
      ∀ i e, es[i]? = some e → ∃ f, s.fk q e = some f ∧ sixth x i = frameToVector f
  | [], x, h => by
    simp only [poses, Option.some.injEq] at h
    subst h
    simp
  | e :: es, x, h => by
    unfold poses at h
    cases hf : s.fk q e with
    | none => rw [hf] at h; simp at h
    | some f =>
      cases hr : s.poses q es with
      | none => rw [hf, hr] at h; simp at h
      | some r =>
        rw [hf, hr] at h
        simp only [Option.bind_eq_bind, Option.bind_some, Option.pure_def, Option.some.injEq] at h
        subst h
        obtain ⟨h1, h2⟩ := poses_blocks s q es r hr
        have hl : (frameToVector f).length = 6 := rfl
        refine ⟨by simp [h1, hl]; omega, ?_⟩
        intro i e' hi
        cases i with
        | zero =>
          simp only [List.getElem?_cons_zero, Option.some.injEq] at hi
          subst hi
          exact ⟨f, hf, sixth_append_zero _ _ hl⟩
        | succ i =>
          rw [List.getElem?_cons_succ] at hi
          obtain ⟨f', h3, h4⟩ := h2 i e' hi
          exact ⟨f', h3, by rw [sixth_append _ _ hl, h4]⟩

/-- C55: forward kinematics gives one block per TCP, in their order, merged or not. -/
theorem C55_fwdKin_blocks (s : KdlTreeSolver) (q x : List ℝ) (h : s.fwdKin q = some (some x)) :
    x.length = s.tcps.endpoints.length * 6 ∧
      ∀ i e, s.tcps.endpoints[i]? = some e →
        ∃ f, s.fk ((q.take s.nJoints).map (· * deg2rad)) e = some f ∧ sixth x i = frameToVector f := by
  unfold fwdKin KdlSolver.toRadians at h
  split_ifs at h with hq
  · simp only [Option.bind_eq_bind, Option.bind_some, Option.pure_def, Option.some.injEq] at h
    exact poses_blocks s _ _ x h
  · simp at h

theorem blockwise_blocks (f : List ℝ → List ℝ → List ℝ) (hf : ∀ a b, (f a b).length = 6)
    (a b : List ℝ) : ∀ (n i : ℕ), (i + n) * 6 ≤ a.length → (i + n) * 6 ≤ b.length →
    ∃ x, blockwise f a b i n = some x ∧ x.length = n * 6 ∧
      ∀ j < n, sixth x j = f (sixth a (i + j)) (sixth b (i + j))
  | 0, i, _, _ => ⟨[], rfl, rfl, by simp⟩
  | n + 1, i, ha, hb => by
    obtain ⟨x, h1, h2, h3⟩ := blockwise_blocks f hf a b n (i + 1) (by omega) (by omega)
    refine ⟨f (sixth a i) (sixth b i) ++ x, ?_, ?_, ?_⟩
    · unfold blockwise
      rw [block_some (by omega), block_some (by omega), h1]
      rfl
    · simp [hf, h2]; omega
    · intro j hj
      cases j with
      | zero => rw [sixth_append_zero _ _ (hf _ _)]; rfl
      | succ j =>
        rw [sixth_append _ _ (hf _ _), h3 j (by omega)]
        congr 2 <;> omega

/-- C55: `changeOrigin` works on the `i`-th blocks for the `i`-th TCP, merged or not. -/
theorem C55_changeOrigin_blocks (s : KdlTreeSolver) (a b : List ℝ)
    (ha : s.tcps.endpoints.length * 6 ≤ a.length) (hb : s.tcps.endpoints.length * 6 ≤ b.length) :
    ∃ x, s.changeOrigin a b = some x ∧ x.length = s.tcps.endpoints.length * 6 ∧
      ∀ i < s.tcps.endpoints.length, sixth x i = KdlSolver.changeOrigin (sixth a i) (sixth b i) := by
  have := blockwise_blocks KdlSolver.changeOrigin (fun _ _ => rfl) a b s.tcps.endpoints.length 0
    (by omega) (by omega)
  simpa [changeOrigin] using this

/-- C55: so does `poseDiff`. -/
theorem C55_poseDiff_blocks (s : KdlTreeSolver) (a b : List ℝ)
    (ha : s.tcps.endpoints.length * 6 ≤ a.length) (hb : s.tcps.endpoints.length * 6 ≤ b.length) :
    ∃ x, s.poseDiff a b = some x ∧ x.length = s.tcps.endpoints.length * 6 ∧
      ∀ i < s.tcps.endpoints.length, sixth x i = KdlSolver.poseDiff (sixth a i) (sixth b i) := by
  have := blockwise_blocks KdlSolver.poseDiff (fun _ _ => rfl) a b s.tcps.endpoints.length 0
    (by omega) (by omega)
  simpa [poseDiff] using this

/-- C55: with fewer than six elements per TCP these two read past the end of the vector. -/
theorem C55_short_vectors_undefined (s : KdlTreeSolver) (a b : List ℝ)
    (ha : a.length < s.tcps.endpoints.length * 6) :
    s.changeOrigin a b = none ∧ s.poseDiff a b = none := by
  have key : ∀ (f : List ℝ → List ℝ → List ℝ) (n i : ℕ), i * 6 ≤ a.length → a.length < (i + n) * 6 →
      blockwise f a b i n = none := by
    intro f n
    induction n with
    | zero => intro i h1 h2; omega
    | succ n ih =>
      intro i h1 h2
      unfold blockwise
      by_cases h : (i + 1) * 6 ≤ a.length
      · rw [ih (i + 1) h (by omega)]
        cases block a i <;> cases block b i <;> rfl
      · have : block a i = none := if_neg h
        rw [this]
        rfl
  exact ⟨key _ _ 0 (by omega) (by omega), key _ _ 0 (by omega) (by omega)⟩

/-! ## Inverse kinematics -/

/-- Number of TCPs in a list that are not merged. -/
def unmerged (t : Tcps) (es : List String) : ℕ := es.countP fun e => t.merged e = none

theorem fill_spec {α : Type} (t : Tcps) (conv : List ℝ → α) (d : α) (x : List ℝ) :
    ∀ (es : List String) (i : ℕ) (m : String → Option α), es.Nodup → (∀ e ∈ es, m e = none) →
      (∀ (j : ℕ) (e o : String), es[j]? = some e → t.merged e = some o →
        o ∈ es.take j ∨ (m o).isSome) →
      (i + unmerged t es) * 6 ≤ x.length →
      ∃ m', fill t conv d x es i m = some m' ∧ (∀ k, k ∉ es → m' k = m k) ∧
        (∀ (j : ℕ) (e : String), es[j]? = some e →
          (t.merged e = none → m' e = some (conv (sixth x (i + unmerged t (es.take j))))) ∧
          (∀ o, t.merged e = some o → m' e = m' o)) := by
  intro es
  induction es with
  | nil => intro i m _ _ _ _; exact ⟨m, rfl, fun _ _ => rfl, by simp⟩
  | cons e es ih =>
    intro i m hnd hm ht hx
    have hnd' := (List.nodup_cons.mp hnd).2
    have hne := (List.nodup_cons.mp hnd).1
    have he : m e = none := hm e (by simp)
    unfold fill
    cases hmg : t.merged e with
    | some o =>
      have ho : (m o).isSome := by
        rcases ht 0 e o rfl hmg with h | h
        · simp at h
        · exact h
      obtain ⟨v, hv⟩ := Option.isSome_iff_exists.mp ho
      have hoe : o ≠ e := by
        intro h; rw [h, he] at hv; simp at hv
      have hoes : o ∉ es := by
        intro h; rw [hm o (by simp [h])] at hv; simp at hv
      simp only [hv, Option.getD_some]
      set m1 : String → Option α := fun k => if k = e ∧ (if e = o then some v else m e) = none then some v
        else if k = o then some v else m k with hm1
      have m1e : m1 e = some v := by simp [hm1, Ne.symm hoe, he]
      have m1k : ∀ k, k ≠ e → m1 k = m k := by
        intro k hk
        simp only [hm1, hk, false_and, if_false]
        split_ifs with h
        · rw [h, hv]
        · rfl
      have hun : unmerged t (e :: es) = unmerged t es := by simp [unmerged, hmg]
      obtain ⟨m', h1, h2, h3⟩ := ih i m1 hnd'
        (fun k hk => by rw [m1k k (fun h => hne (h ▸ hk))]; exact hm k (by simp [hk]))
        (by
          intro j e' o' hj ho'
          rcases ht (j + 1) e' o' (by simpa using hj) ho' with h | h
          · rw [List.take_succ_cons, List.mem_cons] at h
            rcases h with h | h
            · right; rw [h, m1e]; rfl
            · left; exact h
          · right
            by_cases h' : o' = e
            · rw [h', m1e]; rfl
            · rw [m1k o' h']; exact h)
        (by rwa [hun] at hx)
      refine ⟨m', h1, ?_, ?_⟩
      · intro k hk
        rw [h2 k (fun h => hk (by simp [h])), m1k k (fun h => hk (by simp [h]))]
      · intro j e' hj
        cases j with
        | zero =>
          simp only [List.getElem?_cons_zero, Option.some.injEq] at hj
          subst hj
          refine ⟨fun h => by rw [hmg] at h; simp at h, fun o' ho' => ?_⟩
          rw [hmg, Option.some.injEq] at ho'
          subst ho'
          rw [h2 e hne, m1e, h2 o hoes, m1k o hoe, hv]
        | succ j =>
          rw [List.getElem?_cons_succ] at hj
          have := h3 j e' hj
          rw [List.take_succ_cons]
          have hun' : unmerged t (e :: es.take j) = unmerged t (es.take j) := by simp [unmerged, hmg]
          rw [hun']
          exact this
    | none =>
      have hun : unmerged t (e :: es) = unmerged t es + 1 := by simp [unmerged, hmg]
      rw [hun] at hx
      simp only
      rw [block_some (by omega)]
      simp only
      set m1 : String → Option α := fun k => if k = e ∧ m e = none then some (conv (sixth x i)) else m k
        with hm1
      have m1e : m1 e = some (conv (sixth x i)) := by simp [hm1, he]
      have m1k : ∀ k, k ≠ e → m1 k = m k := by
        intro k hk
        simp only [hm1, hk, false_and, if_false]
      obtain ⟨m', h1, h2, h3⟩ := ih (i + 1) m1 hnd'
        (fun k hk => by rw [m1k k (fun h => hne (h ▸ hk))]; exact hm k (by simp [hk]))
        (by
          intro j e' o' hj ho'
          rcases ht (j + 1) e' o' (by simpa using hj) ho' with h | h
          · rw [List.take_succ_cons, List.mem_cons] at h
            rcases h with h | h
            · right; rw [h, m1e]; rfl
            · left; exact h
          · right
            by_cases h' : o' = e
            · rw [h', m1e]; rfl
            · rw [m1k o' h']; exact h)
        (by omega)
      refine ⟨m', h1, ?_, ?_⟩
      · intro k hk
        rw [h2 k (fun h => hk (by simp [h])), m1k k (fun h => hk (by simp [h]))]
      · intro j e' hj
        cases j with
        | zero =>
          simp only [List.getElem?_cons_zero, Option.some.injEq] at hj
          subst hj
          refine ⟨fun _ => ?_, fun o' ho' => by rw [hmg] at ho'; simp at ho'⟩
          rw [h2 e hne, m1e]
          simp [unmerged]
        | succ j =>
          rw [List.getElem?_cons_succ] at hj
          have := h3 j e' hj
          rw [List.take_succ_cons]
          have hun' : unmerged t (e :: es.take j) = unmerged t (es.take j) + 1 := by simp [unmerged, hmg]
          rw [hun']
          have e2 : i + (unmerged t (es.take j) + 1) = i + 1 + unmerged t (es.take j) := by omega
          rw [e2]
          exact this

/-- Every TCP is merged with one before it, if at all. -/
def MergesBack (t : Tcps) : Prop :=
  ∀ (j : ℕ) (e o : String), t.endpoints[j]? = some e → t.merged e = some o → o ∈ t.endpoints.take j

/-- What the inverse solvers are asked for, with `requested` on the TCPs. -/
noncomputable def answer {α : Type} (ik : List ℝ → (String → Option α) → ℤ × List ℝ) (q : List ℝ)
    (requested : String → Option α) : Option (List ℝ) :=
  if (ik q requested).1 < 0 then none else some ((ik q requested).2.map (· * rad2deg))

/-- C55, any merge map: which block `invKin` and `diffInvKin` take for which TCP. A TCP that is not merged
gets the block whose number is that of the TCPs *not merged* before it, and a merged one what the other
gets. -/
theorem C55_inverse_blocks (s : KdlTreeSolver) (ik : TreePosSolver) (ikv : TreeVelSolver)
    (hnd : s.tcps.endpoints.Nodup) (hb : MergesBack s.tcps) (x q : List ℝ) (hq : s.nJoints ≤ q.length)
    (hx : unmerged s.tcps s.tcps.endpoints * 6 ≤ x.length) :
    (∃ frames, s.invKin ik x q .base = some (answer ik ((q.take s.nJoints).map (· * deg2rad)) frames) ∧
      ∀ (i : ℕ) (e : String), s.tcps.endpoints[i]? = some e →
        (s.tcps.merged e = none →
          frames e = some (vectorToFrame (sixth x (unmerged s.tcps (s.tcps.endpoints.take i))))) ∧
        (∀ o, s.tcps.merged e = some o → frames e = frames o)) ∧
    (∃ twists, s.diffInvKin ikv q x .base = some (answer ikv ((q.take s.nJoints).map (· * deg2rad)) twists) ∧
      ∀ (i : ℕ) (e : String), s.tcps.endpoints[i]? = some e →
        (s.tcps.merged e = none →
          twists e = some (vectorToTwist (sixth x (unmerged s.tcps (s.tcps.endpoints.take i))))) ∧
        (∀ o, s.tcps.merged e = some o → twists e = twists o)) := by
  constructor
  · obtain ⟨m, h1, -, h3⟩ := fill_spec s.tcps vectorToFrame 1 x s.tcps.endpoints 0 (fun _ => none) hnd
      (fun _ _ => rfl) (fun j e o h h' => Or.inl (hb j e o h h')) (by omega)
    refine ⟨m, ?_, fun i e hi => by simpa using h3 i e hi⟩
    unfold invKin
    rw [h1, KdlSolver.toRadians, if_pos hq]
    rfl
  · obtain ⟨m, h1, -, h3⟩ := fill_spec s.tcps vectorToTwist 0 x s.tcps.endpoints 0 (fun _ => none) hnd
      (fun _ _ => rfl) (fun j e o h h' => Or.inl (hb j e o h h')) (by omega)
    refine ⟨m, ?_, fun i e hi => by simpa using h3 i e hi⟩
    unfold diffInvKin
    rw [h1, KdlSolver.toRadians, if_pos hq]
    rfl

theorem toBase_spec {α : Type} (s : KdlTreeSolver) (q : List ℝ) (apply : Frame → α → α) :
    ∀ (es : List String) (m : String → Option α), es.Nodup → (∀ e ∈ es, (s.fk q e).isSome) →
      ∃ m', s.toBase q apply es m = some m' ∧ (∀ k, k ∉ es → m' k = m k) ∧
        ∀ e ∈ es, ∀ f, s.fk q e = some f → m' e = (m e).map (apply f)
  | [], m, _, _ => ⟨m, rfl, fun _ _ => rfl, by simp⟩
  | e :: es, m, hnd, hf => by
    obtain ⟨f, hfe⟩ := Option.isSome_iff_exists.mp (hf e (by simp))
    have hne := (List.nodup_cons.mp hnd).1
    obtain ⟨m', h1, h2, h3⟩ := toBase_spec s q apply es
      (fun k => if k = e then (m k).map (apply f) else m k) (List.nodup_cons.mp hnd).2
      (fun e' he' => hf e' (by simp [he']))
    refine ⟨m', ?_, ?_, ?_⟩
    · unfold toBase
      rw [hfe]
      exact h1
    · intro k hk
      rw [h2 k (fun h => hk (by simp [h])), if_neg (fun h => hk (by simp [h]))]
    · intro e' he' f' hf'
      rcases List.mem_cons.mp he' with rfl | he''
      · rw [h2 e' hne, if_pos rfl]
        rw [hfe, Option.some.injEq] at hf'
        rw [hf']
      · have : e' ≠ e := fun h => hne (h ▸ he'')
        rw [h3 e' he'' f' hf', if_neg this]

/-- C55 with poses and twists given in TCP frames: the `i`-th one is taken with respect to the frame of
the `i`-th TCP at the given joint positions. -/
theorem C55_inverse_blocks_tcp (s : KdlTreeSolver) (ik : TreePosSolver) (ikv : TreeVelSolver)
    (hnd : s.tcps.endpoints.Nodup) (hb : MergesBack s.tcps) (x q : List ℝ) (hq : s.nJoints ≤ q.length)
    (hx : unmerged s.tcps s.tcps.endpoints * 6 ≤ x.length)
    (hf : ∀ e ∈ s.tcps.endpoints, (s.fk ((q.take s.nJoints).map (· * deg2rad)) e).isSome) :
    (∃ frames, s.invKin ik x q .tcp = some (answer ik ((q.take s.nJoints).map (· * deg2rad)) frames) ∧
      ∀ (i : ℕ) (e : String) (f : Frame), s.tcps.endpoints[i]? = some e → s.tcps.merged e = none →
        s.fk ((q.take s.nJoints).map (· * deg2rad)) e = some f →
        frames e = some (f * vectorToFrame (sixth x (unmerged s.tcps (s.tcps.endpoints.take i))))) ∧
    (∃ twists, s.diffInvKin ikv q x .tcp = some (answer ikv ((q.take s.nJoints).map (· * deg2rad)) twists) ∧
      ∀ (i : ℕ) (e : String) (f : Frame), s.tcps.endpoints[i]? = some e → s.tcps.merged e = none →
        s.fk ((q.take s.nJoints).map (· * deg2rad)) e = some f →
        twists e = some (Twist.rotate f.M
          (vectorToTwist (sixth x (unmerged s.tcps (s.tcps.endpoints.take i)))))) := by
  constructor
  · obtain ⟨m, h1, -, h3⟩ := fill_spec s.tcps vectorToFrame 1 x s.tcps.endpoints 0 (fun _ => none) hnd
      (fun _ _ => rfl) (fun j e o h h' => Or.inl (hb j e o h h')) (by omega)
    obtain ⟨m', g1, -, g3⟩ := toBase_spec s _ (· * ·) s.tcps.endpoints m hnd hf
    refine ⟨m', ?_, fun i e f hi hm hfe => ?_⟩
    · unfold invKin
      rw [h1, KdlSolver.toRadians, if_pos hq]
      show some (Option.bind (s.toBase _ _ _ _) _) = _
      rw [g1]
      rfl
    · rw [g3 e (List.mem_of_getElem? hi) f hfe, (h3 i e hi).1 hm]
      simp
  · obtain ⟨m, h1, -, h3⟩ := fill_spec s.tcps vectorToTwist 0 x s.tcps.endpoints 0 (fun _ => none) hnd
      (fun _ _ => rfl) (fun j e o h h' => Or.inl (hb j e o h h')) (by omega)
    obtain ⟨m', g1, -, g3⟩ := toBase_spec s _ (fun f w => Twist.rotate f.M w) s.tcps.endpoints m hnd hf
    refine ⟨m', ?_, fun i e f hi hm hfe => ?_⟩
    · unfold diffInvKin
      rw [h1, KdlSolver.toRadians, if_pos hq]
      show some (Option.bind (s.toBase _ _ _ _) _) = _
      rw [g1]
      rfl
    · rw [g3 e (List.mem_of_getElem? hi) f hfe, (h3 i e hi).1 hm]
      simp

theorem unmerged_all (t : Tcps) : ∀ es : List String, (∀ e ∈ es, t.merged e = none) →
    unmerged t es = es.length := by
  intro es h
  unfold unmerged
  rw [List.countP_eq_length]
  intro e he
  simp [h e he]

/-- C55: without merged TCPs, the `i`-th block goes to the `i`-th TCP. Partial: merged TCPs are left out;
`C55_merged_blocks_shift` shows why. -/
theorem C55_inverse_blocks_partial (s : KdlTreeSolver) (ik : TreePosSolver) (ikv : TreeVelSolver)
    (hnd : s.tcps.endpoints.Nodup) (hm : ∀ e ∈ s.tcps.endpoints, s.tcps.merged e = none) (x q : List ℝ)
    (hq : s.nJoints ≤ q.length) (hx : s.tcps.endpoints.length * 6 ≤ x.length) :
    (∃ frames, s.invKin ik x q .base = some (answer ik ((q.take s.nJoints).map (· * deg2rad)) frames) ∧
      ∀ (i : ℕ) (e : String), s.tcps.endpoints[i]? = some e →
        frames e = some (vectorToFrame (sixth x i))) ∧
    (∃ twists, s.diffInvKin ikv q x .base = some (answer ikv ((q.take s.nJoints).map (· * deg2rad)) twists) ∧
      ∀ (i : ℕ) (e : String), s.tcps.endpoints[i]? = some e →
        twists e = some (vectorToTwist (sixth x i))) := by
  have hb : MergesBack s.tcps := by
    intro j e o hj ho
    rw [hm e (List.mem_of_getElem? hj)] at ho
    simp at ho
  have hcount : ∀ (i : ℕ) (e : String), s.tcps.endpoints[i]? = some e →
      unmerged s.tcps (s.tcps.endpoints.take i) = i := by
    intro i e hi
    rw [unmerged_all _ _ (fun e he => hm e (List.mem_of_mem_take he)), List.length_take]
    have := (List.getElem?_eq_some_iff.mp hi).1
    omega
  obtain ⟨⟨f, hf, h1⟩, w, hw, h2⟩ := C55_inverse_blocks s ik ikv hnd hb x q hq
    (by rw [unmerged_all _ _ hm]; exact hx)
  refine ⟨⟨f, hf, fun i e hi => ?_⟩, w, hw, fun i e hi => ?_⟩
  · rw [(h1 i e hi).1 (hm e (List.mem_of_getElem? hi)), hcount i e hi]
  · rw [(h2 i e hi).1 (hm e (List.mem_of_getElem? hi)), hcount i e hi]

/-! ## Merged TCPs -/

/-- Three TCPs, of which the second one is merged with the first. -/
def threeTcps : List ChainOptions :=
  [⟨"a", true, none⟩, ⟨"b", true, some "a"⟩, ⟨"c", true, none⟩]

/-- What the configuration gives. -/
def mergedTcps : Tcps := ⟨["a", "b", "c"], fun e => if e = "b" then some "a" else none⟩

theorem read_threeTcps : Tcps.empty.read threeTcps = some mergedTcps := by
  simp only [threeTcps, Tcps.read, Tcps.addChain, Tcps.empty, mergedTcps]
  simp

/-- It meets the hypotheses above. -/
example : mergedTcps.endpoints.Nodup ∧ MergesBack mergedTcps ∧
    unmerged mergedTcps mergedTcps.endpoints = 2 := by
  refine ⟨by simp [mergedTcps], ?_, by decide⟩
  intro j e o hj ho
  simp only [mergedTcps] at hj ho ⊢
  match j, hj with
  | 0, hj => simp at hj; subst hj; simp at ho
  | 1, hj => simp at hj; subst hj; simp at ho; subst ho; simp
  | 2, hj => simp at hj; subst hj; simp at ho
  | j + 3, hj => simp at hj

/-- C55 fails with merged TCPs. Here the second one is merged with the first; the solver takes the second
block for the third TCP, and `fwdKin` still gives three blocks. Thus the pose `fwdKin` gives for the
second TCP is what `invKin` seeks for the third one when handed the vector back. -/
theorem C55_merged_blocks_shift (ik : TreePosSolver) (fk : List ℝ → String → Option Frame) (x : List ℝ)
    (hx : x.length = 18) :
    ∃ frames, (⟨mergedTcps, 0, fk⟩ : KdlTreeSolver).invKin ik x [] .base = some (answer ik [] frames) ∧
      frames "a" = some (vectorToFrame (sixth x 0)) ∧ frames "b" = some (vectorToFrame (sixth x 0)) ∧
      frames "c" = some (vectorToFrame (sixth x 1)) := by
  refine ⟨fun k => if k = "a" then some (vectorToFrame (sixth x 0)) else
    if k = "b" then some (vectorToFrame (sixth x 0)) else
    if k = "c" then some (vectorToFrame (sixth x 1)) else none, ?_, rfl, rfl, rfl⟩
  have h0 : block x 0 = some (sixth x 0) := block_some (by omega)
  have h1 : block x 1 = some (sixth x 1) := block_some (by omega)
  have hfill : fill mergedTcps vectorToFrame 1 x ["a", "b", "c"] 0 (fun _ => none) =
      some (fun k => if k = "a" then some (vectorToFrame (sixth x 0)) else
        if k = "b" then some (vectorToFrame (sixth x 0)) else
        if k = "c" then some (vectorToFrame (sixth x 1)) else none) := by
    simp only [mergedTcps, fill, h0, h1]
    simp only [String.reduceEq, if_false, if_true, Option.some.injEq]
    funext k
    by_cases h1 : k = "a"
    · subst h1; simp
    · by_cases h2 : k = "b"
      · subst h2; simp
      · simp [h1, h2]
  unfold invKin
  rw [show (KdlTreeSolver.mk mergedTcps 0 fk).tcps = mergedTcps from rfl,
    show mergedTcps.endpoints = ["a", "b", "c"] from rfl, hfill]
  rfl

/-- C55 fails with a TCP merged with itself, which the configuration accepts: whatever pose is requested,
the solver seeks the null pose. -/
theorem C55_self_merge (ik : TreePosSolver) (fk : List ℝ → String → Option Frame) (x : List ℝ) :
    ∃ t, Tcps.empty.read [⟨"a", true, some "a"⟩] = some t ∧
      ∃ frames, (⟨t, 0, fk⟩ : KdlTreeSolver).invKin ik x [] .base = some (answer ik [] frames) ∧
        frames "a" = some 1 := by
  refine ⟨⟨["a"], fun e => if e = "a" then some "a" else none⟩, ?_, fun k => if k = "a" then some 1 else none,
    ?_, rfl⟩
  · simp only [Tcps.read, Tcps.addChain, Tcps.empty]
    simp
  · unfold invKin
    simp only [fill, KdlSolver.toRadians, answer]
    simp

/-- C55: a configuration that is accepted merges TCPs only with earlier ones or with themselves. -/
theorem C55_accepted_merges (cs : List ChainOptions) (t : Tcps) (h : Tcps.empty.read cs = some t)
    (hnd : (cs.map (·.name)).Nodup) (j : ℕ) (e o : String) (hj : t.endpoints[j]? = some e)
    (ho : t.merged e = some o) : o ∈ t.endpoints.take (j + 1) := by
  have key : ∀ (cs : List ChainOptions) (t0 t : Tcps), t0.read cs = some t →
      (cs.map (·.name)).Nodup → (∀ c ∈ cs, c.name ∉ t0.endpoints) →
      (∀ e o, t0.merged e = some o → e ∈ t0.endpoints) →
      (∀ (j : ℕ) (e o : String), t0.endpoints[j]? = some e → t0.merged e = some o →
        o ∈ t0.endpoints.take (j + 1)) →
      ∀ (j : ℕ) (e o : String), t.endpoints[j]? = some e → t.merged e = some o →
        o ∈ t.endpoints.take (j + 1) := by
    intro cs
    induction cs with
    | nil =>
      intro t0 t h _ _ _ h0
      simp only [Tcps.read, Option.some.injEq] at h
      subst h
      exact h0
    | cons c cs ih =>
      intro t0 t h hnd hnew hdom h0
      simp only [Tcps.read] at h
      rw [List.map_cons, List.nodup_cons] at hnd
      obtain ⟨hc, hnd'⟩ := hnd
      cases hac : t0.addChain c with
      | none => rw [hac] at h; simp at h
      | some t1 =>
        rw [hac, Option.bind_some] at h
        have hcn : c.name ∉ t0.endpoints := hnew c (by simp)
        have hcs : ∀ c' ∈ cs, c'.name ≠ c.name := by
          intro c' h' h''
          exact hc (List.mem_map.mpr ⟨c', h', h''⟩)
        have hcm : t0.merged c.name = none := by
          cases hh : t0.merged c.name with
          | none => rfl
          | some o => exact absurd (hdom _ _ hh) hcn
        unfold Tcps.addChain at hac
        split_ifs at hac with hend
        · have step : ∀ (mg : String → Option String) (ho' : ∀ o, mg c.name = some o →
              o ∈ t0.endpoints ++ [c.name]) (hmg : ∀ e, e ≠ c.name → mg e = t0.merged e),
              t1 = ⟨t0.endpoints ++ [c.name], mg⟩ → ∀ (j : ℕ) (e o : String),
                t.endpoints[j]? = some e → t.merged e = some o → o ∈ t.endpoints.take (j + 1) := by
            intro mg ho' hmg ht1
            subst ht1
            refine ih _ t h hnd' ?_ ?_ ?_
            · intro c' h'
              simp only [List.mem_append, List.mem_singleton, not_or]
              exact ⟨hnew c' (by simp [h']), hcs c' h'⟩
            · intro e o heo
              by_cases he : e = c.name
              · simp [he]
              · change mg e = some o at heo
                rw [hmg e he] at heo
                simp [hdom e o heo]
            · intro j e o hje hoe
              simp only at hje hoe ⊢
              by_cases he : e = c.name
              · subst he
                have hm := ho' o hoe
                have hjl : j = t0.endpoints.length := by
                  by_contra hne
                  rcases Nat.lt_or_gt_of_ne hne with hlt | hgt
                  · rw [List.getElem?_append_left hlt] at hje
                    exact hcn (List.mem_of_getElem? hje)
                  · rw [List.getElem?_append_right (by omega)] at hje
                    have : ([c.name] : List String)[j - t0.endpoints.length]? = none :=
                      List.getElem?_eq_none (by simp; omega)
                    rw [this] at hje
                    simp at hje
                rw [hjl, List.take_of_length_le (by simp)]
                exact hm
              · rw [hmg e he] at hoe
                have hlt : j < t0.endpoints.length := by
                  by_contra hge
                  rw [List.getElem?_append_right (by omega)] at hje
                  have := List.mem_of_getElem? hje
                  simp at this
                  exact he this
                rw [List.getElem?_append_left hlt] at hje
                have := h0 j e o hje hoe
                rw [List.take_append_of_le_length (by omega)]
                exact this
          cases hmw : c.mergeWith with
          | none =>
            rw [hmw] at hac
            simp only [Option.some.injEq] at hac
            exact step t0.merged (by rw [hcm]; simp) (fun _ _ => rfl) hac.symm
          | some other =>
            rw [hmw] at hac
            simp only at hac
            split_ifs at hac with hin
            · simp only [Option.some.injEq] at hac
              refine step _ ?_ ?_ hac.symm
              · intro o hoo
                simp only [hcm, true_and, if_true, Option.some.injEq] at hoo
                rw [← hoo]
                exact hin
              · intro e he
                simp [he]
        · simp only [Option.some.injEq] at hac
          subst hac
          exact ih _ t h hnd' (fun c' h' => hnew c' (by simp [h'])) hdom h0
  exact key cs Tcps.empty t h hnd (by simp [Tcps.empty]) (by simp [Tcps.empty]) (by simp [Tcps.empty]) j e o hj ho

/-- The configuration above is an instance. -/
example : (threeTcps.map (·.name)).Nodup ∧ Tcps.empty.read threeTcps = some mergedTcps ∧
    mergedTcps.endpoints[1]? = some "b" ∧ mergedTcps.merged "b" = some "a" :=
  ⟨by simp [threeTcps], read_threeTcps, rfl, rfl⟩

end KdlTreeSolver

end KD
