import Verif.Solver.InPlace
import Verif.Props.WithKdl
import Verif.Props.Poe
import Verif.Props.KdlSolver
import Verif.Props.Asibot

/-!
# A result stored in the place of an argument (C100)

Which methods of the solvers may be given the same vector as argument and as result.
-/

namespace KD

open KdlVectorConverter

namespace InPlace

theorem bind_run {α β : Type} (p : Code α) (k : α → Code β) (m : Mem) :
    (p >>= k) m = (p m).bind fun r => k r.1 r.2 := rfl

theorem pure_run {α : Type} (a : α) (m : Mem) : (pure a : Code α) m = some (a, m) := rfl

theorem vec_run (a : ℕ) (m : Mem) : vec a m = some (m a, m) := rfl

theorem assign_run (a : ℕ) (l : List ℝ) (m : Mem) : assign a l m = some ((), Function.update m a l) := rfl

theorem insertEnd_run (a : ℕ) (l : List ℝ) (m : Mem) :
    insertEnd a l m = some ((), Function.update m a (m a ++ l)) := rfl

theorem local_some {α : Type} (a : α) (m : Mem) : local' (some a) m = some (a, m) := rfl

theorem local_none {α : Type} (m : Mem) : local' (none : Option α) m = none := rfl

theorem toRad_from (q : ℕ) (m : Mem) : ∀ n i, i + n ≤ (m q).length →
    toRad q i n m = some ((((m q).drop i).take n).map (· * deg2rad), m) := by
  intro n
  induction n with
  | zero => intro i _; simp [toRad, pure_run]
  | succ n ih =>
    intro i h
    have hi : i < (m q).length := by omega
    simp only [toRad, bind_run, at', List.getElem?_eq_getElem hi, Option.map_some, Option.bind_some,
      ih (i + 1) (by omega), pure_run]
    rw [List.drop_eq_getElem_cons hi, List.take_succ_cons, List.map_cons]

theorem toRad_run {q n : ℕ} {m : Mem} {r : List ℝ} (h : KdlSolver.toRadians n (m q) = some r) :
    toRad q 0 n m = some (r, m) := by
  unfold KdlSolver.toRadians at h
  split at h
  · cases h
    rw [toRad_from q m n 0 (by omega)]
    simp
  · cases h

theorem radians_len {n : ℕ} {q r : List ℝ} (h : KdlSolver.toRadians n q = some r) : r.length = n := by
  unfold KdlSolver.toRadians at h
  split at h
  · cases h; simp; omega
  · cases h

theorem storeFrom_run (out : ℕ) (f : ℝ → ℝ) (vals : List ℝ) : ∀ n i (m : Mem), i + n = vals.length →
    (m out).length = vals.length →
    storeFrom out f vals i n m = some ((), Function.update m out ((m out).take i ++ (vals.map f).drop i)) := by
  intro n
  induction n with
  | zero =>
    intro i m h hl
    have : (vals.map f).drop i = [] := by simp; omega
    have h2 : (m out).take i = m out := by simp; omega
    simp [storeFrom, pure_run, this, h2]
  | succ n ih =>
    intro i m h hl
    have hi : i < vals.length := by omega
    have ho : i < (m out).length := by omega
    have hm : i < (vals.map f).length := by simpa using hi
    simp only [storeFrom, bind_run, List.getElem?_eq_getElem hi, local_some, Option.bind_some, put, if_pos ho]
    rw [ih (i + 1) _ (by omega) (by simpa using hl)]
    simp only [Function.update_self, Function.update_idem]
    rw [List.drop_eq_getElem_cons hm, List.getElem_map]
    congr 3
    rw [List.take_add_one, List.getElem?_set_self ho, List.take_set_of_le (le_refl i)]
    simp

theorem store_run (out : ℕ) (f : ℝ → ℝ) {vals : List ℝ} {n : ℕ} (m : Mem) (h : vals.length = n) :
    store out n f vals m = some ((), Function.update m out (vals.map f)) := by
  unfold store
  simp only [bind_run, resize, Option.bind_some]
  rw [storeFrom_run out f vals n 0 _ (by omega) (by simp; omega)]
  simp

end InPlace

open InPlace

/-! ## What is asked for -/

/-- What a call should give: a returned `false` and the vectors as they were, or a returned `true` and the result in
`out`, with the other vectors as they were. -/
def stored (m : Mem) (out : ℕ) : Option (List ℝ) → Bool × Mem
  | none => (false, m)
  | some r => (true, Function.update m out r)

/-- A call that may store its result in the vector `out`, against the answer `answer` to the contents of its
arguments before the call (`none` for undefined behaviour, `some none` for a returned `false`): it returns the same,
leaves a result in `out`, and changes no other vector. -/
def StoresIn (call : Code Bool) (out : ℕ) (m : Mem) (answer : Option (Option (List ℝ))) : Prop :=
  ∀ a, answer = some a → call m = some (stored m out a)

namespace InPlace

theorem finish_run {out n : ℕ} {r : ℤ × List ℝ} (m : Mem) (h : r.2.length = n) :
    finish out n r m = some (stored m out (if r.1 < 0 then none else some (r.2.map (· * rad2deg)))) := by
  unfold finish
  split
  · rfl
  · simp only [bind_run, store_run out _ m h, Option.bind_some, pure_run, stored]

theorem finishDyn_run {out n : ℕ} {o : Option (List ℝ)} (m : Mem) (h : ∀ r, o = some r → r.length = n) :
    finishDyn out n o m = some (stored m out o) := by
  cases o with
  | none => rfl
  | some r => simp only [finishDyn, bind_run, store_run out _ m (h r rfl), Option.bind_some, pure_run, List.map_id, stored]

end InPlace

/-! ## The chain solver -/

/-- Composition and difference of poses by the chain solver: whichever vectors are passed, also three times the same,
the result is that for the contents before the call, and only the vector of the result changes. -/
theorem C100_chain_frames (m : Mem) (a b c : ℕ) :
    StoresIn (Kdl.changeOrigin a b c) c m (some (some (KdlSolver.changeOrigin (m a) (m b)))) ∧
    StoresIn (Kdl.poseDiff a b c) c m (some (some (KdlSolver.poseDiff (m a) (m b)))) := by
  constructor <;> intro r h <;> cases h <;> rfl

/-- The frame two units away along x, seen from itself: four units away. The vector is both arguments and result. -/
example : ∃ m : Mem, m 0 = [2, 0, 0, 0, 0, 0] ∧
    Kdl.changeOrigin 0 0 0 m = some (true, Function.update m 0 (KdlSolver.changeOrigin (m 0) (m 0))) :=
  ⟨fun _ => [2, 0, 0, 0, 0, 0], rfl, (C100_chain_frames _ 0 0 0).1 _ rfl⟩

/-- Forward, inverse and differential inverse kinematics of the chain solver, with inverse solvers that fill an array of
as many joints as the chain has: any vectors may be the same. -/
theorem C100_chain_kinematics (s : KdlSolver) (m : Mem) (a b c : ℕ) (frame : SolverFrame)
    (pos : PosSolver) (vel : VelSolver)
    (hpos : ∀ g f, (pos s.chain g f).2.length = s.chain.nJoints)
    (hvel : ∀ g v, (vel s.chain g v).2.length = s.chain.nJoints) :
    StoresIn (Kdl.fwdKin s a c) c m ((s.fwdKin (m a)).map some) ∧
    StoresIn (Kdl.invKin pos s a b c frame) c m (KdlSolver.invKin pos s (m a) (m b) frame) ∧
    StoresIn (Kdl.diffInvKin vel s a b c frame) c m (KdlSolver.diffInvKin vel s (m a) (m b) frame) := by
  refine ⟨?_, ?_, ?_⟩
  · intro r h
    obtain ⟨x, hx, rfl⟩ := Option.map_eq_some_iff.mp h
    simp only [KdlSolver.fwdKin, Option.bind_eq_bind, Option.bind_eq_some_iff] at hx
    obtain ⟨g, hg, f, hf, hx⟩ := hx
    cases hx
    simp only [Kdl.fwdKin, bind_run, toRad_run hg, Option.bind_some, hf, local_some, assign_run, pure_run, stored]
  · intro r h
    simp only [KdlSolver.invKin, Option.bind_eq_bind, Option.bind_eq_some_iff] at h
    obtain ⟨g, hg, h⟩ := h
    simp only [Kdl.invKin, bind_run, vec_run, toRad_run hg, Option.bind_some]
    cases frame with
    | other => cases h; rfl
    | base =>
      cases h
      exact finish_run m (hpos _ _)
    | tcp =>
      simp only [Option.bind_eq_some_iff] at h
      obtain ⟨f, hf, h⟩ := h
      cases h
      simp only [bind_run, hf, local_some, Option.bind_some]
      exact finish_run m (hpos _ _)
  · intro r h
    simp only [KdlSolver.diffInvKin, Option.bind_eq_bind, Option.bind_eq_some_iff] at h
    obtain ⟨g, hg, h⟩ := h
    simp only [Kdl.diffInvKin, bind_run, vec_run, toRad_run hg, Option.bind_some]
    cases frame with
    | other => cases h; rfl
    | base =>
      cases h
      exact finish_run m (hvel _ _)
    | tcp =>
      simp only [Option.bind_eq_some_iff] at h
      obtain ⟨f, hf, h⟩ := h
      cases h
      simp only [bind_run, hf, local_some, Option.bind_some]
      exact finish_run m (hvel _ _)

/-- A slider, with a vector of one joint replaced by its pose. -/
example : ∃ (pos : PosSolver) (vel : VelSolver), (∀ g f, (pos KdlSolver.sliderX g f).2.length = KdlSolver.sliderX.nJoints) ∧
    (∀ g v, (vel KdlSolver.sliderX g v).2.length = KdlSolver.sliderX.nJoints) ∧
    ∃ r, (KdlSolver.opened KdlSolver.sliderX).fwdKin [30] = some r ∧
      Kdl.fwdKin (.opened KdlSolver.sliderX) 0 0 (fun _ => [30]) = some (true, Function.update (fun _ => [30]) 0 r) := by
  refine ⟨fun c _ _ => (0, List.replicate c.nJoints 0), fun c _ _ => (0, List.replicate c.nJoints 0),
    fun _ _ => by simp, fun _ _ => by simp, ?_⟩
  obtain ⟨r, hr⟩ : ∃ r, (KdlSolver.opened KdlSolver.sliderX).fwdKin [30] = some r := by
    unfold KdlSolver.fwdKin KdlSolver.toRadians
    rw [show (KdlSolver.opened KdlSolver.sliderX).numJoints = 1 from rfl]
    simp [KdlSolver.opened, KdlSolver.sliderX, Chain.fk, Chain.fkLoop, Segment.make]
  refine ⟨r, hr, ?_⟩
  exact (C100_chain_kinematics (.opened KdlSolver.sliderX) (fun _ => [30]) 0 0 0 .base
    (fun c _ _ => (0, List.replicate c.nJoints 0)) (fun c _ _ => (0, List.replicate c.nJoints 0))
    (fun _ _ => by simp [KdlSolver.opened]) (fun _ _ => by simp [KdlSolver.opened])).1 _
    (congrArg (Option.map some) hr)

/-- Both inverse dynamics of the chain solver: any of the five vectors may be the same. -/
theorem C100_chain_dynamics (s : DynSolver) (m : Mem) (q qdot qdotdot ftip t : ℕ) (frame : SolverFrame) :
    StoresIn (Kdl.invDynStatic s q t) t m (s.invDynStatic (m q)) ∧
    StoresIn (Kdl.invDyn s q qdot qdotdot ftip t frame) t m
      (s.invDyn (m q) (m qdot) (m qdotdot) (m ftip) frame) := by
  constructor
  · intro r h
    simp only [DynSolver.invDynStatic, Option.bind_eq_bind, Option.bind_eq_some_iff] at h
    obtain ⟨g, hg, h⟩ := h
    cases h
    simp only [Kdl.invDynStatic, bind_run, toRad_run hg, Option.bind_some]
    exact finishDyn_run m fun r hr => (Ctrl.rne_length hr).trans (radians_len hg)
  · intro r h
    simp only [DynSolver.invDyn, Option.bind_eq_bind, Option.bind_eq_some_iff] at h
    obtain ⟨g, hg, gd, hgd, gdd, hgdd, h⟩ := h
    simp only [Kdl.invDyn, bind_run, toRad_run hg, toRad_run hgd, toRad_run hgdd, vec_run, Option.bind_some]
    cases frame with
    | other => cases h; rfl
    | base =>
      simp only [Option.bind_eq_some_iff] at h
      obtain ⟨f, hf, w, hw, h⟩ := h
      cases h
      simp only [bind_run, hf, hw, local_some, Option.bind_some]
      exact finishDyn_run m fun r hr => (Ctrl.rne_length hr).trans (radians_len hg)
    | tcp =>
      simp only [Option.bind_eq_some_iff] at h
      obtain ⟨w, hw, h⟩ := h
      cases h
      simp only [bind_run, hw, local_some, Option.bind_some]
      exact finishDyn_run m fun r hr => (Ctrl.rne_length hr).trans (radians_len hg)

/-- The torque of a pendulum (computed in `Verif/Props/Dynamics.lean`) in the place of its joint. -/
example (h : DynSolver.pendulum.invDynStatic [0] = some (some [-19.62])) : Kdl.invDynStatic DynSolver.pendulum 0 0 (fun _ => [0]) = some (true, Function.update (fun _ => [0]) 0 [-19.62]) :=
  (C100_chain_dynamics DynSolver.pendulum (fun _ => [0]) 0 0 0 0 0 .base).1 _ h

/-! ## The tree solver -/

namespace InPlace

theorem blocks_run (f : List ℝ → List ℝ → List ℝ) {a b c : ℕ} (ha : c ≠ a) (hb : c ≠ b) :
    ∀ n i (m : Mem) r, KdlTreeSolver.blockwise f (m a) (m b) i n = some r →
      Tree.blocks f a b c i n m = some ((), Function.update m c (m c ++ r)) := by
  intro n
  induction n with
  | zero => intro i m r h; cases h; simp [Tree.blocks, pure_run]
  | succ n ih =>
    intro i m r h
    simp only [KdlTreeSolver.blockwise, Option.bind_eq_bind, Option.bind_eq_some_iff] at h
    obtain ⟨x, hx, y, hy, z, hz, h⟩ := h
    cases h
    simp only [Tree.blocks, bind_run, vec_run, Option.bind_some, hx, hy, local_some, insertEnd_run]
    rw [ih (i + 1) _ z (by simpa [Function.update_of_ne ha.symm, Function.update_of_ne hb.symm] using hz)]
    simp [Function.update_idem]

theorem poses_run (s : KdlTreeSolver) (g : List ℝ) (x : ℕ) : ∀ es (m : Mem) r, s.poses g es = some r →
    Tree.poses s g x es m = some (true, Function.update m x (m x ++ r)) := by
  intro es
  induction es with
  | nil => intro m r h; cases h; simp [Tree.poses, pure_run]
  | cons e es ih =>
    intro m r h
    simp only [KdlTreeSolver.poses, Option.bind_eq_bind, Option.bind_eq_some_iff] at h
    obtain ⟨f, hf, z, hz, h⟩ := h
    cases h
    simp only [Tree.poses, hf, bind_run, insertEnd_run, Option.bind_some]
    rw [ih _ z hz]
    simp [Function.update_idem]

theorem poses_fail (s : KdlTreeSolver) (g : List ℝ) (x : ℕ) : ∀ es (m : Mem), s.poses g es = none →
    ∃ l, l.length < 6 * es.length ∧ Tree.poses s g x es m = some (false, Function.update m x (m x ++ l)) := by
  intro es
  induction es with
  | nil => intro m h; cases h
  | cons e es ih =>
    intro m h
    cases hf : s.fk g e with
    | none => exact ⟨[], by simp, by simp [Tree.poses, hf, pure_run]⟩
    | some f =>
      simp only [KdlTreeSolver.poses, hf, Option.bind_eq_bind, Option.bind_some] at h
      have h' : s.poses g es = none := by
        cases hp : s.poses g es with
        | none => rfl
        | some r => rw [hp] at h; cases h
      obtain ⟨l, hl, hr⟩ := ih (Function.update m x (m x ++ frameToVector f)) h'
      refine ⟨frameToVector f ++ l, by simp [frameToVector]; omega, ?_⟩
      simp only [Tree.poses, hf, bind_run, insertEnd_run, Option.bind_some, hr]
      simp [Function.update_idem]

theorem tree_rne_length {t : KD.Tree} {g q qd qdd ext τ} (h : t.rne g q qd qdd ext = some τ) :
    τ.length = t.nJoints := by
  unfold Tree.rne at h
  split at h
  · cases h; simp
  · cases h

end InPlace

/-- Composition and difference of poses by the tree solver, as long as the result goes to a vector that is none of the
arguments (the two arguments may be the same). Missing: the other case, which is undefined, as the next theorem
shows. -/
theorem C100_tree_frames_partial (s : KdlTreeSolver) (m : Mem) (a b c : ℕ) (ha : c ≠ a) (hb : c ≠ b) :
    StoresIn (Tree.changeOrigin s a b c) c m ((s.changeOrigin (m a) (m b)).map some) ∧
    StoresIn (Tree.poseDiff s a b c) c m ((s.poseDiff (m a) (m b)).map some) := by
  constructor <;> intro r h <;> obtain ⟨x, hx, rfl⟩ := Option.map_eq_some_iff.mp h
  · simp only [Tree.changeOrigin, bind_run, assign_run, Option.bind_some]
    rw [blocks_run KdlSolver.changeOrigin ha hb _ 0 _ x
      (by simpa [Function.update_of_ne ha.symm, Function.update_of_ne hb.symm, KdlTreeSolver.changeOrigin, KdlTreeSolver.poseDiff] using hx)]
    simp [stored, pure_run, Function.update_idem]
  · simp only [Tree.poseDiff, bind_run, assign_run, Option.bind_some]
    rw [blocks_run KdlSolver.poseDiff ha hb _ 0 _ x
      (by simpa [Function.update_of_ne ha.symm, Function.update_of_ne hb.symm, KdlTreeSolver.changeOrigin, KdlTreeSolver.poseDiff] using hx)]
    simp [stored, pure_run, Function.update_idem]

/-- With the result in the place of an argument, both read past the end of a vector, whatever it held: it is cleared
before the first pose is read. Only a solver without TCPs gets away with it. -/
theorem C100_tree_frames_undefined (s : KdlTreeSolver) (h : s.tcps.endpoints ≠ []) (m : Mem) (a b c : ℕ)
    (hc : c = a ∨ c = b) :
    Tree.changeOrigin s a b c m = none ∧ Tree.poseDiff s a b c m = none := by
  obtain ⟨n, hn⟩ : ∃ n, s.tcps.endpoints.length = n + 1 :=
    Nat.exists_eq_succ_of_ne_zero (by simpa using h)
  have key : ∀ f, Tree.blocks f a b c 0 (n + 1) (Function.update m c []) = none := by
    intro f
    simp only [Tree.blocks, bind_run, vec_run, Option.bind_some]
    rcases hc with rfl | rfl
    · simp [KdlTreeSolver.block, local_none]
    · cases hx : KdlTreeSolver.block (Function.update m c [] a) 0 with
      | none => rfl
      | some x => simp [KdlTreeSolver.block, local_none, local_some]
  constructor
  · simp only [Tree.changeOrigin, bind_run, assign_run, Option.bind_some, hn, key]; rfl
  · simp only [Tree.poseDiff, bind_run, assign_run, Option.bind_some, hn, key]; rfl

/-- A tree with a TCP, and enough numbers in every vector: the answer is there when the result has a vector of its
own, and undefined otherwise. -/
example : ∃ (s : KdlTreeSolver) (m : Mem) (r : List ℝ), s.tcps.endpoints ≠ [] ∧
    s.changeOrigin (m 0) (m 1) = some r ∧ Tree.changeOrigin s 0 1 2 m = some (true, Function.update m 2 r) ∧
    Tree.changeOrigin s 0 1 0 m = none := by
  let s : KdlTreeSolver := ⟨⟨["a"], fun _ => none⟩, 1, fun _ _ => some 1⟩
  let m : Mem := fun _ => [1, 2, 3, 0, 0, 0]
  obtain ⟨r, hr⟩ : ∃ r, s.changeOrigin (m 0) (m 1) = some r := by
    simp [KdlTreeSolver.changeOrigin, KdlTreeSolver.blockwise, KdlTreeSolver.block, s, m]
  exact ⟨s, m, r, by simp [s], hr, (C100_tree_frames_partial s m 0 1 2 (by simp) (by simp)).1 (some r) (by rw [hr]; rfl),
    (C100_tree_frames_undefined s (by simp [s]) m 0 1 0 (.inl rfl)).1⟩

/-- Forward kinematics (when it succeeds), inverse and differential inverse kinematics of the tree solver: any vectors
may be the same. -/
theorem C100_tree_kinematics (s : KdlTreeSolver) (m : Mem) (a b c : ℕ) (frame : SolverFrame)
    (pos : TreePosSolver) (vel : TreeVelSolver)
    (hpos : ∀ g f, (pos g f).2.length = s.nJoints) (hvel : ∀ g v, (vel g v).2.length = s.nJoints) :
    (∀ r, s.fwdKin (m a) = some (some r) → Tree.fwdKin s a c m = some (stored m c (some r))) ∧
    StoresIn (Tree.invKin pos s a b c frame) c m (KdlTreeSolver.invKin pos s (m a) (m b) frame) ∧
    StoresIn (Tree.diffInvKin vel s a b c frame) c m (KdlTreeSolver.diffInvKin vel s (m a) (m b) frame) := by
  refine ⟨?_, ?_, ?_⟩
  · intro r h
    simp only [KdlTreeSolver.fwdKin, Option.bind_eq_bind, Option.bind_eq_some_iff] at h
    obtain ⟨g, hg, h⟩ := h
    simp only [Tree.fwdKin, bind_run, toRad_run hg, Option.bind_some, assign_run]
    rw [poses_run s g c _ _ r (Option.some.inj h)]
    simp [stored, Function.update_idem]
  · intro r h
    simp only [KdlTreeSolver.invKin, Option.bind_eq_bind, Option.bind_eq_some_iff] at h
    obtain ⟨x, hx, g, hg, h⟩ := h
    simp only [Tree.invKin, bind_run, vec_run, Option.bind_some, hx, local_some, toRad_run hg]
    cases frame with
    | other => cases h; rfl
    | base => cases h; exact finish_run m (hpos _ _)
    | tcp =>
      cases hf : s.toBase g (· * ·) s.tcps.endpoints x with
      | none => simp only [hf] at h ⊢; cases h; rfl
      | some y => simp only [hf] at h ⊢; cases h; exact finish_run m (hpos _ _)
  · intro r h
    simp only [KdlTreeSolver.diffInvKin, Option.bind_eq_bind, Option.bind_eq_some_iff] at h
    obtain ⟨x, hx, g, hg, h⟩ := h
    simp only [Tree.diffInvKin, bind_run, vec_run, Option.bind_some, hx, local_some, toRad_run hg]
    cases frame with
    | other => cases h; rfl
    | base => cases h; exact finish_run m (hvel _ _)
    | tcp =>
      cases hf : s.toBase g (fun f w => Twist.rotate f.M w) s.tcps.endpoints x with
      | none => simp only [hf] at h ⊢; cases h; rfl
      | some y => simp only [hf] at h ⊢; cases h; exact finish_run m (hvel _ _)

/-- When forward kinematics of the tree solver fails, it has already changed the vector of the result, which is left
with fewer poses than TCPs; if it is that of the joints, those are gone. -/
theorem C100_tree_fwdKin_failure (s : KdlTreeSolver) (m : Mem) (a c : ℕ) (h : s.fwdKin (m a) = some none) :
    ∃ l, l.length < 6 * s.tcps.endpoints.length ∧ Tree.fwdKin s a c m = some (false, Function.update m c l) := by
  simp only [KdlTreeSolver.fwdKin, Option.bind_eq_bind, Option.bind_eq_some_iff] at h
  obtain ⟨g, hg, h⟩ := h
  obtain ⟨l, hl, hr⟩ := poses_fail s g c _ (Function.update m c []) (Option.some.inj h)
  refine ⟨l, hl, ?_⟩
  simp only [Tree.fwdKin, bind_run, toRad_run hg, Option.bind_some, assign_run, hr]
  simp [Function.update_idem]

/-- A solver whose forward kinematics succeed at one TCP and fail at the next. -/
example : ∃ (s : KdlTreeSolver) (q : List ℝ), s.fwdKin q = some none ∧ (s.fk [] "a").isSome ∧ s.tcps.endpoints = ["a", "b"] :=
  ⟨⟨⟨["a", "b"], fun _ => none⟩, 0, fun _ e => if e = "a" then some 1 else none⟩, [], by
    simp [KdlTreeSolver.fwdKin, KdlSolver.toRadians, KdlTreeSolver.poses], by simp, rfl⟩

/-- Both inverse dynamics of the tree solver: any of the five vectors may be the same. -/
theorem C100_tree_dynamics (s : TreeDynSolver) (m : Mem) (q qdot qdotdot ftip t : ℕ) (frame : SolverFrame) :
    StoresIn (Tree.invDynStatic s q t) t m (s.invDynStatic (m q)) ∧
    StoresIn (Tree.invDyn s q qdot qdotdot ftip t frame) t m
      (s.invDyn (m q) (m qdot) (m qdotdot) (m ftip) frame) := by
  constructor
  · intro r h
    simp only [TreeDynSolver.invDynStatic, Option.bind_eq_bind, Option.bind_eq_some_iff] at h
    obtain ⟨g, hg, h⟩ := h
    cases h
    simp only [Tree.invDynStatic, bind_run, toRad_run hg, Option.bind_some]
    exact finishDyn_run m fun r hr => tree_rne_length hr
  · intro r h
    simp only [TreeDynSolver.invDyn, Option.bind_eq_bind, Option.bind_eq_some_iff] at h
    obtain ⟨x, hx, g, hg, gd, hgd, gdd, hgdd, h⟩ := h
    simp only [Tree.invDyn, bind_run, toRad_run hg, toRad_run hgd, toRad_run hgdd, vec_run, Option.bind_some, hx,
      local_some]
    cases frame with
    | other => cases h; rfl
    | tcp => cases h; exact finishDyn_run m fun r hr => tree_rne_length hr
    | base =>
      cases hf : s.kinematics.toBase g (fun f w => Wrench.rotate f.M.transpose w) s.tcps.endpoints x with
      | none => simp only [hf] at h ⊢; cases h; rfl
      | some y => simp only [hf] at h ⊢; cases h; exact finishDyn_run m fun r hr => tree_rne_length hr

/-! ## The solver of ASIBOT -/

namespace InPlace

open Asibot

theorem at_run {a i : ℕ} {m : Mem} {v : ℝ} (h : (m a)[i]? = some v) : at' a i m = some (v, m) := by
  simp [at', h]

theorem read_eq {q : List ℝ} {j : Joints} (h : Joints.read q = some j) :
    ∃ l, q = j.q1 :: j.q2 :: j.q3 :: j.q4 :: j.q5 :: l := by
  unfold Joints.read at h
  split at h
  · cases h; exact ⟨_, rfl⟩
  · cases h

theorem matrix_eq {x : List ℝ} {f : Frame} (h : vectorToMatrix x = some f) :
    ∃ u v w l, x = f.p.x :: f.p.y :: f.p.z :: u :: v :: w :: l ∧
      ∀ a b c k, vectorToMatrix (a :: b :: c :: u :: v :: w :: k) = some ⟨f.M, ⟨a, b, c⟩⟩ := by
  unfold vectorToMatrix at h
  split at h
  · cases h
    exact ⟨_, _, _, _, rfl, fun a b c k => rfl⟩
  · cases h

theorem put_upd {a i : ℕ} {v : ℝ} {m : Mem} {l : List ℝ} (h : i < l.length) :
    put a i v (Function.update m a l) = some ((), Function.update m a (l.set i v)) := by
  simp [put, h, Function.update_idem]

theorem at_upd {a i : ℕ} {m : Mem} {l : List ℝ} :
    at' a i (Function.update m a l) = (l[i]?).map fun v => (v, Function.update m a l) := by
  simp [at']

theorem at_ne {a c i : ℕ} {m : Mem} {l k : List ℝ} (h : a ≠ c) (e : m a = k) :
    at' a i (Function.update m c l) = (k[i]?).map fun v => (v, Function.update m c l) := by
  simp [at', Function.update_of_ne h, e]

theorem at_eq {a i : ℕ} {m : Mem} {k : List ℝ} (e : m a = k) :
    at' a i m = (k[i]?).map fun v => (v, m) := by
  simp [at', e]

theorem vec_upd {a : ℕ} {m : Mem} {l : List ℝ} :
    vec a (Function.update m a l) = some (l, Function.update m a l) := by simp [vec]

theorem vec_ne {a c : ℕ} {m : Mem} {l k : List ℝ} (h : a ≠ c) (e : m a = k) :
    vec a (Function.update m c l) = some (k, Function.update m c l) := by simp [vec, Function.update_of_ne h, e]

theorem resize_run (a n : ℕ) (m : Mem) :
    resize a n m = some ((), Function.update m a ((m a).take n ++ List.replicate (n - (m a).length) 0)) := rfl

theorem assign_upd {a : ℕ} {m : Mem} {l k : List ℝ} :
    assign a l (Function.update m a k) = some ((), Function.update m a l) := by
  simp [assign, Function.update_idem]

theorem fwdKinEnd_run {svd : Mat3 → Vec3} {s : Solver} {c : ℕ} {m : Mem} {y x : List ℝ} {e}
    (he : KinRepr.encodePose .cartesian .eulerYZ .degrees ⟨[], y, true⟩ = some e)
    (hx : (if s.hasFrame = true then (vectorToMatrix e.2.dst).bind fun h =>
      pure (matrixToVector svd (h * s.frameTcp)) else pure e.2.dst) = some x) :
    Asib.fwdKinEnd svd s c (Function.update m c y) = some (true, Function.update m c x) := by
  simp only [Asib.fwdKinEnd, bind_run, vec_upd, Option.bind_some, he, local_some, assign_upd]
  by_cases hf : s.hasFrame = true
  · rw [if_pos hf] at hx
    obtain ⟨f, hf', hx⟩ := Option.bind_eq_some_iff.mp hx
    cases hx
    rw [if_pos hf]
    simp only [bind_run, vec_upd, Option.bind_some, hf', local_some, Asib.matrixToVector, assign_upd, pure_run]
  · rw [if_neg hf] at hx
    cases hx
    rw [if_neg hf]
    rfl

theorem five (l : List ℝ) : ∃ a b c d e, l.take 5 ++ List.replicate (5 - l.length) 0 = [a, b, c, d, e] := by
  rcases l with _ | ⟨a, _ | ⟨b, _ | ⟨c, _ | ⟨d, _ | ⟨e, l⟩⟩⟩⟩⟩ <;> simp [List.replicate]

theorem six (l : List ℝ) : ∃ a b c d e f, l.take 6 ++ List.replicate (6 - l.length) 0 = [a, b, c, d, e, f] := by
  rcases l with _ | ⟨a, _ | ⟨b, _ | ⟨c, _ | ⟨d, _ | ⟨e, _ | ⟨f, l⟩⟩⟩⟩⟩⟩ <;> simp [List.replicate]

end InPlace

open Asibot in
/-- Composition and difference of poses by the solver of ASIBOT: any vectors may be the same, though the difference is
written element by element between the reads. -/
theorem C100_asibot_frames (svd : Mat3 → Vec3) (m : Mem) (a b c : ℕ) :
    StoresIn (Asib.changeOrigin svd a b c) c m ((changeOrigin svd (m a) (m b)).map some) ∧
    StoresIn (Asib.poseDiff svd a b c) c m ((poseDiff svd (m a) (m b)).map some) := by
  constructor <;> intro r h <;> obtain ⟨x, hx, rfl⟩ := Option.map_eq_some_iff.mp h
  · simp only [changeOrigin, Option.bind_eq_bind, Option.bind_eq_some_iff] at hx
    obtain ⟨f, hf, g, hg, hx⟩ := hx
    cases hx
    simp only [Asib.changeOrigin, bind_run, vec_run, Option.bind_some, hf, hg, local_some, Asib.matrixToVector,
      assign_run, pure_run, stored]
  · simp only [poseDiff, Option.bind_eq_bind, Option.bind_eq_some_iff] at hx
    obtain ⟨f, hf, g, hg, hx⟩ := hx
    cases hx
    obtain ⟨u, v, w, l, ef, tf⟩ := matrix_eq hf
    obtain ⟨u', v', w', l', eg, tg⟩ := matrix_eq hg
    by_cases ha : a = c <;> by_cases hb : b = c
    · subst ha hb
      have hfg : f = g := Option.some.inj (hf.symm.trans hg)
      subst hfg
      simp [Asib.poseDiff, bind_run, pure_run, resize, at', put, vec_run, local', stored, ef, tf, Function.update_idem]
    · subst ha
      simp [Asib.poseDiff, bind_run, pure_run, resize, at', put, vec_run, local', stored, ef, tf, Function.update_idem,
        Function.update_of_ne hb, eg, tg]
    · subst hb
      simp [Asib.poseDiff, bind_run, pure_run, resize, at', put, vec_run, local', stored, ef, tf, Function.update_idem,
        Function.update_of_ne ha, eg, tg]
    · obtain ⟨z0, z1, z2, z3, z4, z5, hz⟩ := six (m c)
      simp only [Asib.poseDiff, bind_run, pure_run, resize_run, hz, at_ne ha ef, at_ne hb eg, List.getElem?_cons_zero,
        List.getElem?_cons_succ, Option.map_some, Option.bind_some, List.set_cons_zero, List.set_cons_succ,
        put_upd, List.length_cons, List.length_nil, Nat.reduceAdd, Nat.reduceLT, Nat.ofNat_pos, Nat.one_lt_ofNat,
        vec_ne ha ef, vec_ne hb eg, tf, tg, local_some, stored]
      rfl

/-- The difference of a pose and another one, in the place of the first. -/
example (svd : Mat3 → Vec3) : ∃ r, Asibot.poseDiff svd [3, 2, 1, 0, 0, 0] [1, 1, 1, 0, 0, 0] = some r ∧
    r.take 3 = [2, 1, 0] ∧
    Asib.poseDiff svd 0 1 0 (fun a => if a = 0 then [3, 2, 1, 0, 0, 0] else [1, 1, 1, 0, 0, 0]) =
      some (true, Function.update (fun a => if a = 0 then [3, 2, 1, 0, 0, 0] else [1, 1, 1, 0, 0, 0]) 0 r) := by
  obtain ⟨r, hr, ht⟩ : ∃ r, Asibot.poseDiff svd [3, 2, 1, 0, 0, 0] [1, 1, 1, 0, 0, 0] = some r ∧
      r.take 3 = [2, 1, 0] := ⟨_, rfl, by norm_num⟩
  exact ⟨r, hr, ht, (C100_asibot_frames svd _ 0 1 0).2 (some r) (congrArg (Option.map some) hr)⟩

theorem InPlace.copyFrom_run (xdot : ℕ) (m : Mem) : ∀ (n i : ℕ) (x : List ℝ), i + n = (m xdot).length →
    Asib.copyFrom xdot i n x m =
      if i + n ≤ x.length ∨ n = 0 then some (x.take i ++ ((m xdot).drop i ++ x.drop (i + n)), m) else none := by
  intro n
  induction n with
  | zero =>
    intro i x h
    have : (m xdot).drop i = [] := by simp; omega
    simp [Asib.copyFrom, pure_run, this]
  | succ n ih =>
    intro i x h
    have hi : i < (m xdot).length := by omega
    simp only [Asib.copyFrom, bind_run, at_run (List.getElem?_eq_getElem hi), Option.bind_some]
    by_cases hx : i < x.length
    · simp only [if_pos hx, local_some, Option.bind_some]
      rw [ih _ _ (by omega)]
      by_cases hn : i + (n + 1) ≤ x.length
      · rw [if_pos (Or.inl (by simp; omega)), if_pos (Or.inl hn)]
        congr 2
        rw [List.take_succ_eq_append_getElem (by simpa using hx), List.take_set_of_le (le_refl i),
          List.drop_set_of_lt (by omega)]
        simp [Nat.add_assoc, Nat.add_comm 1 n]
        rw [← List.cons_append, ← List.drop_eq_getElem_cons hi]
      · rw [if_neg (by simp; omega), if_neg (by simp; omega)]
    · simp only [if_neg hx]
      rw [if_neg (by omega)]
      rfl

open Asibot in
/-- Forward, inverse and differential inverse kinematics of the solver of ASIBOT: any vectors may be the same, though
the last joint is read after the first elements of the pose are written. A request for a velocity of less than six
elements stands for zeros in the rest. -/
theorem C100_asibot_kinematics (svd : Mat3 → Vec3) (pinv : Pinv) (s : Solver) (m : Mem) (a b c : ℕ)
    (frame : SolverFrame) :
    StoresIn (Asib.fwdKin svd s a c) c m ((fwdKin svd s (m a)).map some) ∧
    StoresIn (Asib.invKin svd s a b c frame) c m (invKin svd s (m a) (m b) frame) ∧
    ((m b).length ≤ 6 → StoresIn (Asib.diffInvKin svd pinv s a b c frame) c m
      ((diffInvKin svd pinv s (m a) (vectorToTwist (m b ++ List.replicate (6 - (m b).length) 0)) frame).map
        (·.map Joints.toList))) := by
  refine ⟨?_, ?_, ?_⟩
  · intro r h
    obtain ⟨x, hx, rfl⟩ := Option.map_eq_some_iff.mp h
    simp only [fwdKin, Option.bind_eq_bind, Option.bind_eq_some_iff] at hx
    obtain ⟨j, hj, e, he, hx⟩ := hx
    obtain ⟨l, hl⟩ := read_eq hj
    by_cases ha : a = c
    · subst ha
      have hz : (m a).take 5 ++ List.replicate (5 - (m a).length) 0 = [j.q1, j.q2, j.q3, j.q4, j.q5] := by
        rw [hl]; simp
      simp only [Asib.fwdKin, bind_run, resize_run, hz, at_eq hl, at_upd, List.getElem?_cons_zero,
        List.getElem?_cons_succ, Option.map_some, Option.bind_some, List.set_cons_zero, List.set_cons_succ,
        put_upd, List.length_cons, List.length_nil, Nat.reduceAdd, Nat.reduceLT, Nat.ofNat_pos, Nat.one_lt_ofNat]
      exact fwdKinEnd_run he hx
    · obtain ⟨z0, z1, z2, z3, z4, hz⟩ := five (m c)
      simp only [Asib.fwdKin, bind_run, resize_run, hz, at_eq hl, at_ne ha hl, List.getElem?_cons_zero,
        List.getElem?_cons_succ, Option.map_some, Option.bind_some, List.set_cons_zero, List.set_cons_succ,
        put_upd, List.length_cons, List.length_nil, Nat.reduceAdd, Nat.reduceLT, Nat.ofNat_pos, Nat.one_lt_ofNat]
      exact fwdKinEnd_run he hx
  · intro r h
    simp only [Asib.invKin, bind_run, vec_run, Option.bind_some, h, local_some]
    cases r <;> rfl
  · intro h6 r h
    obtain ⟨x, hx, rfl⟩ := Option.map_eq_some_iff.mp h
    simp only [diffInvKin, Option.bind_eq_bind, Option.bind_eq_some_iff] at hx
    obtain ⟨j, hj, hx⟩ := hx
    simp only [Asib.diffInvKin, bind_run, vec_run, Option.bind_some, hj, local_some]
    cases j with
    | none => cases hx; rfl
    | some ja =>
      cases hx
      simp only [bind_run, vec_run, Option.bind_some, copyFrom_run b m _ 0 (List.replicate 6 0) (Nat.zero_add _),
        Nat.zero_add, List.take_zero, List.nil_append, List.drop_zero, List.drop_replicate, List.length_replicate,
        if_pos (Or.inl h6 : (m b).length ≤ 6 ∨ (m b).length = 0),
        store_run c KinRepr.radToDeg m (show (Joints.toList _).length = 5 from rfl), pure_run, stored]
      rfl

open Asibot in
/-- A request for a velocity of more than six elements is undefined: it is copied past the end of a vector. -/
theorem C100_asibot_long_velocity_undefined (svd : Mat3 → Vec3) (pinv : Pinv) (s : Solver) (m : Mem) (a b c : ℕ)
    (frame : SolverFrame) (ja : List Twist) (hj : jacobian svd s (m a) frame = some (some ja))
    (hb : 6 < (m b).length) : Asib.diffInvKin svd pinv s a b c frame m = none := by
  simp only [Asib.diffInvKin, bind_run, vec_run, Option.bind_some, hj, local_some,
    copyFrom_run b m _ 0 (List.replicate 6 0) (Nat.zero_add _), Nat.zero_add, List.length_replicate]
  rw [if_neg (by omega)]
  rfl

/-- It happens in every frame of reference with five joints and no tool. -/
example (svd : Mat3 → Vec3) (pinv : Asibot.Pinv) :
    Asib.diffInvKin svd pinv Asibot.demo 0 1 0 .base
      (fun a => if a = 0 then [0, 0, 0, 0, 0] else [0, 0, 0, 0, 0, 0, 1]) = none :=
  C100_asibot_long_velocity_undefined svd pinv Asibot.demo _ 0 1 0 .base _ rfl (by simp)

/-- The pose of five joints in their place. -/
example (svd : Mat3 → Vec3) (pinv : Asibot.Pinv) (x : List ℝ) (h : Asibot.fwdKin svd Asibot.demo [90, 90, -90, 90, 90] = some x) :
    Asib.fwdKin svd Asibot.demo 7 7 (fun _ => [90, 90, -90, 90, 90]) =
      some (true, Function.update (fun _ => [90, 90, -90, 90, 90]) 7 x) :=
  (C100_asibot_kinematics svd pinv Asibot.demo (fun _ => [90, 90, -90, 90, 90]) 7 7 7 .base).1 _
    (congrArg (Option.map some) h)

/-! ## Products of exponentials -/

namespace InPlace

theorem appendLoop_other {this poe : ℕ} (h : this ≠ poe) (H : Frame) : ∀ (es : List MatrixExp) (i : ℕ) (m : Poes),
    (m poe).exps.drop i = es → appendLoop this poe H (es.length + 1) i m =
      some (Function.update m this (es.foldl (fun acc e => acc.appendExp e H) (m this))) := by
  intro es
  induction es with
  | nil =>
    intro i m he
    have : (m poe).exps[i]? = none := by simpa using he
    simp [appendLoop, this]
  | cons e es ih =>
    intro i m he
    have hi : (m poe).exps[i]? = some e := by
      rw [← List.head?_drop, he]; rfl
    have hd : (m poe).exps.drop (i + 1) = es := by
      rw [← List.tail_drop, he]; rfl
    rw [List.length_cons, appendLoop, hi]
    refine (ih (i + 1) _ (by rw [Function.update_of_ne h.symm]; exact hd)).trans ?_
    simp [Function.update_idem]

theorem appendLoop_self (this : ℕ) (H : Frame) : ∀ (n i : ℕ) (m : Poes), i < (m this).exps.length →
    appendLoop this this H n i m = none := by
  intro n
  induction n with
  | zero => intros; rfl
  | succ n ih =>
    intro i m h
    simp only [appendLoop, List.getElem?_eq_getElem h]
    exact ih _ _ (by simp [Poe.appendExp, h])

end InPlace

/-- Appending another expression: the loop ends after as many passes as terms, and nothing but the expression itself
changes. -/
theorem C100_append_another (m : Poes) (this poe : ℕ) (H : Frame) (h : this ≠ poe) :
    append this poe H ((m poe).exps.length + 1) m =
      some (Function.update m this ((m this).append (m poe) H)) := by
  unfold append
  rw [show (m poe).exps.length = ((m poe).exps.drop 0).length by simp, appendLoop_other h H _ 0 m rfl]
  simp [Function.update_idem, Function.update_of_ne h.symm, Poe.append]

/-- Appending an expression with some term to itself never ends: however many passes are made, the loop goes on. -/
theorem C100_append_itself_never_ends (m : Poes) (this : ℕ) (H : Frame) (h : (m this).exps ≠ []) (passes : ℕ) :
    append this this H passes m = none := by
  unfold append
  rw [appendLoop_self this H passes 0 m (List.length_pos_iff.mpr h)]
  rfl

/-- An expression of one rotation. -/
example : (⟨[MatrixExp.make .rotation ⟨0, 0, 1⟩ 0], 1⟩ : Poe).exps ≠ [] := by simp

end KD
