import Verif.Props.Torques
import Verif.Props.TreeDynamics

/-!
# C109: how the torques of the tree solver depend on speeds, accelerations and forces

As C106 for the chain solver; here any number of limbs and TCPs.
-/

namespace KD

open Vec3 KdlVectorConverter KdlSolver
open DynSolver (mix scaled powerOf mixT mixW start)

namespace TreeDynSolver

/-! ### Specification -/

/-- The sum over all point masses of the mass times the product of the velocities it has when the joints move
with the speeds `α` and with the speeds `δ`. For equal speeds it is twice the kinetic energy. -/
noncomputable def massProduct (s : TreeDynSolver) (bodies : String → List MassPoint) (q α δ : List ℝ) : ℝ :=
  (s.segments.map fun x => ((bodies x).map fun p =>
    p.mass * dot (Vec3.rate (fun ε => s.placeAt (advance q α ε) x p.place) 0)
      (Vec3.rate (fun ε => s.placeAt (advance q δ ε) x p.place) 0)).sum).sum

/-! ### Helpers -/

theorem jointValue_scaled (n : TreeNode) (r : ℝ) (a : List ℝ) :
    Tree.jointValue n (scaled r a) = r * Tree.jointValue n a := by
  unfold Tree.jointValue scaled
  split_ifs
  · rw [List.getD_eq_getElem?_getD, List.getD_eq_getElem?_getD, List.getElem?_map]
    cases a[n.qNr]? <;> simp
  · simp

theorem jointValue_mix (n : TreeNode) (c : ℝ) (a b : List ℝ) (h : a.length = b.length) :
    Tree.jointValue n (mix c a b) = (1 - c) * Tree.jointValue n a + c * Tree.jointValue n b := by
  unfold Tree.jointValue mix
  split_ifs
  · rw [List.getD_eq_getElem?_getD, List.getD_eq_getElem?_getD, List.getD_eq_getElem?_getD, List.getElem?_zipWith]
    by_cases hk : n.qNr < a.length
    · rw [List.getElem?_eq_getElem hk, List.getElem?_eq_getElem (by omega : n.qNr < b.length)]
      rfl
    · rw [List.getElem?_eq_none (by omega), List.getElem?_eq_none (by omega)]
      simp
  · simp

theorem sweep_vel (q qd qdd : List ℝ) (g : Vec3) (r : ℝ) (ns : List TreeNode) : ∀ x,
    (Tree.sweep q (scaled r qd) qdd g ns x).1 = r • (Tree.sweep q qd [] 0 ns x).1 := by
  induction ns with
  | nil => intro x; simp only [Tree.sweep]; ext <;> simp
  | cons n ns ih =>
    intro x
    simp only [Tree.sweep]
    split_ifs
    · rw [ih, jointValue_scaled, DynSolver.sweep_speed, DynSolver.sweep_eq, DynSolver.sweep_eq]
    · exact ih x

theorem sweep_mix {c r₁ r₂ r₃ : ℝ} (hr : r₃ ^ 2 = (1 - c) * r₁ ^ 2 + c * r₂ ^ 2) (q qd α β : List ℝ)
    (h : α.length = β.length) (g : Vec3) (ns : List TreeNode) : ∀ x,
    (Tree.sweep q (scaled r₃ qd) (mix c α β) g ns x).2 =
      mixT c (Tree.sweep q (scaled r₁ qd) α g ns x).2 (Tree.sweep q (scaled r₂ qd) β g ns x).2 := by
  induction ns with
  | nil => intro x; simp only [Tree.sweep, mixT]; ext <;> simp <;> ring
  | cons n ns ih =>
    intro x
    simp only [Tree.sweep]
    split_ifs
    · rw [ih, sweep_vel, sweep_vel, sweep_vel, jointValue_scaled, jointValue_scaled, jointValue_scaled,
        jointValue_mix n c α β h, DynSolver.sweep_acc n.link.seg _ _ hr]
    · exact ih x

/-- Torques with their places. -/
def mixP (c : ℝ) (p p' : ℕ × ℝ) : ℕ × ℝ := (p.1, (1 - c) * p.2 + c * p'.2)

theorem collect_mix {c r₁ r₂ r₃ : ℝ} (hr : r₃ ^ 2 = (1 - c) * r₁ ^ 2 + c * r₂ ^ 2) (q qd α β : List ℝ)
    (h : α.length = β.length) (g : Vec3) {e e' e'' : String → Option Wrench}
    (he : ∀ x, (e'' x).getD 0 = mixW c ((e x).getD 0) ((e' x).getD 0)) (ns : List TreeNode) :
    ∀ f f' f'' : String → Wrench, (∀ x, f'' x = mixW c (f x) (f' x)) →
    Tree.collect q (scaled r₃ qd) (mix c α β) g e'' ns f'' =
      List.zipWith (mixP c) (Tree.collect q (scaled r₁ qd) α g e ns f) (Tree.collect q (scaled r₂ qd) β g e' ns f') := by
  induction ns with
  | nil => intro f f' f'' _; rfl
  | cons n ns ih =>
    intro f f' f'' hf
    have key : Link.force n.link.inertia (Tree.sweep q (scaled r₃ qd) (mix c α β) g (n :: ns) n.name).1
          (Tree.sweep q (scaled r₃ qd) (mix c α β) g (n :: ns) n.name).2 ((e'' n.name).getD 0) + f'' n.name =
        mixW c
          (Link.force n.link.inertia (Tree.sweep q (scaled r₁ qd) α g (n :: ns) n.name).1
            (Tree.sweep q (scaled r₁ qd) α g (n :: ns) n.name).2 ((e n.name).getD 0) + f n.name)
          (Link.force n.link.inertia (Tree.sweep q (scaled r₂ qd) β g (n :: ns) n.name).1
            (Tree.sweep q (scaled r₂ qd) β g (n :: ns) n.name).2 ((e' n.name).getD 0) + f' n.name) := by
      rw [sweep_mix hr q qd α β h, sweep_vel, sweep_vel, sweep_vel, he, hf, DynSolver.force_mix _ hr, DynSolver.mixW_add]
    rw [Tree.collect, Tree.collect, Tree.collect]
    dsimp only
    rw [key]
    generalize Link.force n.link.inertia (Tree.sweep q (scaled r₁ qd) α g (n :: ns) n.name).1
            (Tree.sweep q (scaled r₁ qd) α g (n :: ns) n.name).2 ((e n.name).getD 0) + f n.name = w
    generalize Link.force n.link.inertia (Tree.sweep q (scaled r₂ qd) β g (n :: ns) n.name).1
            (Tree.sweep q (scaled r₂ qd) β g (n :: ns) n.name).2 ((e' n.name).getD 0) + f' n.name = w'
    generalize n.link.seg.pose (Tree.jointValue n q) = X
    have hrest := ih (fun k => if k = n.parent then f k + X.mulWrench w else f k)
      (fun k => if k = n.parent then f' k + X.mulWrench w' else f' k)
      (fun k => if k = n.parent then f'' k + X.mulWrench (mixW c w w') else f'' k) (fun x => by
        split_ifs
        · rw [hf, DynSolver.mixW_frame, DynSolver.mixW_add]
        · exact hf x)
    rw [hrest]
    split_ifs
    · rw [List.zipWith_cons_cons, DynSolver.mixW_power]
      rfl
    · rfl

theorem find_mix (c : ℝ) (j : ℕ) : ∀ rs rs' : List (ℕ × ℝ), rs.map (·.1) = rs'.map (·.1) →
    (((List.zipWith (mixP c) rs rs').find? (·.1 = j)).map (·.2)).getD 0 =
      (1 - c) * ((rs.find? (·.1 = j)).map (·.2)).getD 0 + c * ((rs'.find? (·.1 = j)).map (·.2)).getD 0
  | [], [], _ => by simp
  | p :: rs, p' :: rs', h => by
    simp only [List.map_cons, List.cons.injEq] at h
    have ih := find_mix c j rs rs' h.2
    by_cases hj : p.1 = j
    · have hj' : p'.1 = j := h.1 ▸ hj
      rw [List.zipWith_cons_cons, List.find?_cons_of_pos (by simp [mixP, hj]),
        List.find?_cons_of_pos (by simpa using hj), List.find?_cons_of_pos (by simpa using hj')]
      rfl
    · have hj' : ¬ p'.1 = j := h.1 ▸ hj
      rw [List.zipWith_cons_cons, List.find?_cons_of_neg (by simp [mixP, hj]),
        List.find?_cons_of_neg (by simpa using hj), List.find?_cons_of_neg (by simpa using hj')]
      exact ih
  | [], _ :: _, h => by simp at h
  | _ :: _, [], h => by simp at h

theorem rne_mix {t : Tree} {c r₁ r₂ r₃ : ℝ} (hr : r₃ ^ 2 = (1 - c) * r₁ ^ 2 + c * r₂ ^ 2) {q qd α β : List ℝ}
    {g : Vec3} {e e' e'' : String → Option Wrench}
    (he : ∀ x, (e'' x).getD 0 = mixW c ((e x).getD 0) ((e' x).getD 0)) {τ τ' : List ℝ}
    (h : t.rne g q (scaled r₁ qd) α e = some τ) (h' : t.rne g q (scaled r₂ qd) β e' = some τ') :
    t.rne g q (scaled r₃ qd) (mix c α β) e'' = some (mix c τ τ') := by
  unfold Tree.rne at h h' ⊢
  split_ifs at h with hl
  split_ifs at h' with hl'
  have hz : ∀ (r : ℝ), (scaled r qd).length = qd.length := fun r => by simp [scaled]
  rw [hz] at hl hl'
  rw [if_pos ⟨hl.1, by rw [hz]; exact hl.2.1, by simp [mix, hl.2.2, hl'.2.2]⟩]
  simp only [Option.some.injEq] at h h' ⊢
  subst h h'
  rw [collect_mix hr q qd α β (hl.2.2.trans hl'.2.2.symm) g he t.nodes (fun _ => 0) (fun _ => 0) (fun _ => 0)
    (fun x => by ext <;> simp [mixW])]
  unfold mix
  rw [List.zipWith_map, List.zipWith_self]
  refine List.map_congr_left fun j _ => ?_
  exact find_mix c j _ _ (by rw [Tree.collect_keys, Tree.collect_keys])

/-- Entries of the maps of wrenches. -/
inductive Mixed (c : ℝ) : Option Wrench → Option Wrench → Option Wrench → Prop
  | none : Mixed c none none none
  | some (a b : Wrench) : Mixed c (some a) (some b) (some (mixW c a b))

theorem Mixed.getD {c : ℝ} {x y z : Option Wrench} (h : Mixed c x y z) : z.getD 0 = mixW c (x.getD 0) (y.getD 0) := by
  cases h
  · ext <;> simp [mixW]
  · rfl

theorem block_mix {c : ℝ} {F F' a b : List ℝ} {i : ℕ} (h : KdlTreeSolver.block F i = some a)
    (h' : KdlTreeSolver.block F' i = some b) :
    KdlTreeSolver.block (mix c F F') i = some (mix c a b) ∧ a.length = 6 ∧ b.length = 6 := by
  unfold KdlTreeSolver.block at *
  split_ifs at h with hl
  split_ifs at h' with hl'
  simp only [Option.some.injEq] at h h'
  subst h h'
  refine ⟨?_, by simp; omega, by simp; omega⟩
  rw [if_pos (by simp [mix]; omega)]
  simp [mix, List.drop_zipWith, List.take_zipWith]

theorem wrench_mix {c : ℝ} {a b : List ℝ} (ha : a.length = 6) (hb : b.length = 6) :
    vectorToWrench (mix c a b) = mixW c (vectorToWrench a) (vectorToWrench b) := by
  have := DynSolver.wrench_mix (c := c) ha hb 1
  simpa only [DynSolver.rotate_one] using this

theorem fill_mix (t : Tcps) {c : ℝ} {F F' : List ℝ} (es : List String) :
    ∀ (i : ℕ) (m m' m'' n n' : String → Option Wrench), (∀ k, Mixed c (m k) (m' k) (m'' k)) →
    KdlTreeSolver.fill t vectorToWrench 0 F es i m = some n →
    KdlTreeSolver.fill t vectorToWrench 0 F' es i m' = some n' →
    ∃ n'', KdlTreeSolver.fill t vectorToWrench 0 (mix c F F') es i m'' = some n'' ∧
      ∀ k, Mixed c (n k) (n' k) (n'' k) := by
  have hput : ∀ (e : String) (v v' v'' : Wrench) (m m' m'' : String → Option Wrench), v'' = mixW c v v' →
      (∀ k, Mixed c (m k) (m' k) (m'' k)) → ∀ k, Mixed c (if k = e ∧ m e = none then some v else m k)
        (if k = e ∧ m' e = none then some v' else m' k) (if k = e ∧ m'' e = none then some v'' else m'' k) := by
    intro e v v' v'' m m' m'' hv h k
    by_cases hk : k = e
    · subst hk
      have := h k
      revert this
      generalize m k = x
      generalize m' k = y
      generalize m'' k = z
      intro this
      cases this
      · subst hv
        simpa using Mixed.some v v'
      · simpa using Mixed.some _ _
    · simpa [hk] using h k
  induction es with
  | nil =>
    intro i m m' m'' n n' hm h h'
    simp only [KdlTreeSolver.fill, Option.some.injEq] at h h'
    subst h h'
    exact ⟨m'', rfl, hm⟩
  | cons e es ih =>
    intro i m m' m'' n n' hm h h'
    rw [KdlTreeSolver.fill] at h h' ⊢
    cases ho : t.merged e with
    | some o =>
      simp only [ho] at h h' ⊢
      refine ih i _ _ _ _ _ ?_ h h'
      have hv := (hm o).getD
      have h1 : ∀ k, Mixed c (if k = o then some ((m o).getD 0) else m k) (if k = o then some ((m' o).getD 0) else m' k)
          (if k = o then some ((m'' o).getD 0) else m'' k) := by
        intro k
        split_ifs
        · rw [hv]; exact Mixed.some _ _
        · exact hm k
      exact hput e _ _ _ _ _ _ hv h1
    | none =>
      simp only [ho] at h h' ⊢
      cases hb : KdlTreeSolver.block F i with
      | none => simp [hb] at h
      | some a =>
        cases hb' : KdlTreeSolver.block F' i with
        | none => simp [hb'] at h'
        | some b =>
          obtain ⟨hb'', ha6, hb6⟩ := block_mix (c := c) hb hb'
          simp only [hb] at h
          simp only [hb'] at h'
          simp only [hb'']
          exact ih (i + 1) _ _ _ _ _ (hput e _ _ _ _ _ _ (wrench_mix ha6 hb6) hm) h h'

theorem toBase_mix (s : KdlTreeSolver) (q : List ℝ) {c : ℝ} (es : List String) :
    ∀ m m' m'' n n' : String → Option Wrench, (∀ k, Mixed c (m k) (m' k) (m'' k)) →
    s.toBase q (fun f w => Wrench.rotate f.M.transpose w) es m = some n →
    s.toBase q (fun f w => Wrench.rotate f.M.transpose w) es m' = some n' →
    ∃ n'', s.toBase q (fun f w => Wrench.rotate f.M.transpose w) es m'' = some n'' ∧
      ∀ k, Mixed c (n k) (n' k) (n'' k) := by
  induction es with
  | nil =>
    intro m m' m'' n n' hm h h'
    simp only [KdlTreeSolver.toBase, Option.some.injEq] at h h'
    subst h h'
    exact ⟨m'', rfl, hm⟩
  | cons e es ih =>
    intro m m' m'' n n' hm h h'
    rw [KdlTreeSolver.toBase] at h h' ⊢
    cases hf : s.fk q e with
    | none => simp [hf] at h
    | some f =>
      simp only [hf, Option.bind_eq_bind, Option.bind_some] at h h' ⊢
      refine ih _ _ _ _ _ (fun k => ?_) h h'
      split_ifs
      · have := hm k
        revert this
        generalize m k = x
        generalize m' k = y
        generalize m'' k = z
        intro this
        cases this with
        | none => exact Mixed.none
        | some a b =>
          have : Wrench.rotate f.M.transpose (mixW c a b) =
              mixW c (Wrench.rotate f.M.transpose a) (Wrench.rotate f.M.transpose b) := by
            ext <;> simp [mixW, Wrench.rotate] <;> ring
          simp only [Option.map_some, this]
          exact Mixed.some _ _
      · exact hm k

/-- The wrenches given to KDL. -/
noncomputable def toTips (s : TreeDynSolver) (qr F : List ℝ) (fr : SolverFrame) : Option (String → Option Wrench) :=
  (KdlTreeSolver.fill s.tcps vectorToWrench 0 F s.tcps.endpoints 0 fun _ => none).bind fun m =>
    match fr with
    | .base => s.kinematics.toBase qr (fun f w => Wrench.rotate f.M.transpose w) s.tcps.endpoints m
    | .tcp => some m
    | .other => none

theorem invDyn_iff {s : TreeDynSolver} {q qd qdd F : List ℝ} {fr : SolverFrame} {τ : List ℝ} :
    s.invDyn q qd qdd F fr = some (some τ) ↔
      s.tree.nJoints ≤ q.length ∧ s.tree.nJoints ≤ qd.length ∧ s.tree.nJoints ≤ qdd.length ∧
      ∃ e, s.toTips ((q.take s.tree.nJoints).map (· * deg2rad)) F fr = some e ∧
        s.tree.rne s.gravity ((q.take s.tree.nJoints).map (· * deg2rad)) ((qd.take s.tree.nJoints).map (· * deg2rad))
          ((qdd.take s.tree.nJoints).map (· * deg2rad)) e = some τ := by
  unfold invDyn toRadians toTips
  cases hm : KdlTreeSolver.fill s.tcps vectorToWrench 0 F s.tcps.endpoints 0 fun _ => none with
  | none => simp
  | some m =>
    by_cases h1 : s.tree.nJoints ≤ q.length
    · by_cases h2 : s.tree.nJoints ≤ qd.length
      · by_cases h3 : s.tree.nJoints ≤ qdd.length
        · cases fr <;> simp [h1, h2, h3, Option.bind_eq_some_iff]
        · simp [h1, h2, h3]
      · simp [h1, h2]
    · simp [h1]

theorem toTips_mix {s : TreeDynSolver} {qr F F' : List ℝ} {fr : SolverFrame} {c : ℝ} {e e' : String → Option Wrench}
    (h : s.toTips qr F fr = some e) (h' : s.toTips qr F' fr = some e') :
    ∃ e'', s.toTips qr (mix c F F') fr = some e'' ∧ ∀ x, (e'' x).getD 0 = mixW c ((e x).getD 0) ((e' x).getD 0) := by
  unfold toTips at *
  obtain ⟨m, hm, h⟩ := Option.bind_eq_some_iff.mp h
  obtain ⟨m', hm', h'⟩ := Option.bind_eq_some_iff.mp h'
  obtain ⟨m'', hm'', hx⟩ := fill_mix s.tcps s.tcps.endpoints 0 _ _ (fun _ => none) m m' (fun _ => Mixed.none (c := c)) hm hm'
  rw [hm'', Option.bind_some]
  cases fr with
  | base =>
    obtain ⟨e'', he, hy⟩ := toBase_mix s.kinematics qr s.tcps.endpoints m m' m'' e e' hx h h'
    exact ⟨e'', he, fun x => (hy x).getD⟩
  | tcp =>
    simp only [Option.some.injEq] at h h'
    subst h h'
    exact ⟨m'', rfl, fun x => (hx x).getD⟩
  | other => simp at h

/-! ### C109 -/

/-- C109: accelerations and forces add up. At given joints and speeds, if the solver answers two requests, it
answers any request on the line through them, with the torques on the line through both answers. -/
theorem C109_superposition {s : TreeDynSolver} {q qdot α β F F' τ τ' : List ℝ} {fr : SolverFrame}
    (h : s.invDyn q qdot α F fr = some (some τ)) (h' : s.invDyn q qdot β F' fr = some (some τ')) (c : ℝ) :
    s.invDyn q qdot (mix c α β) (mix c F F') fr = some (some (mix c τ τ')) := by
  obtain ⟨h1, h2, h3, e, h5, h6⟩ := invDyn_iff.mp h
  obtain ⟨-, -, k3, e', k5, k6⟩ := invDyn_iff.mp h'
  obtain ⟨e'', he, hx⟩ := toTips_mix (c := c) h5 k5
  refine invDyn_iff.mpr ⟨h1, h2, by simp [mix, h3, k3], e'', he, ?_⟩
  rw [DynSolver.mix_radians]
  have := rne_mix (c := c) (r₁ := 1) (r₂ := 1) (r₃ := 1) (by ring) hx (by rw [DynSolver.scaled_one]; exact h6)
    (by rw [DynSolver.scaled_one]; exact k6)
  rwa [DynSolver.scaled_one] at this

/-- C109: a motion played `k` times faster (speeds times `k`, accelerations and forces on the TCPs times `k²`)
needs, beyond the torques at rest without forces, `k²` times the torques. -/
theorem C109_faster {s : TreeDynSolver} {q qdot α F τ₀ τ : List ℝ} {fr : SolverFrame}
    (h₀ : s.invDyn q (List.replicate s.tree.nJoints 0) (List.replicate s.tree.nJoints 0) (List.replicate F.length 0) fr =
      some (some τ₀)) (h : s.invDyn q qdot α F fr = some (some τ)) (k : ℝ) :
    s.invDyn q (scaled k qdot) (scaled (k ^ 2) α) (scaled (k ^ 2) F) fr = some (some (mix (k ^ 2) τ₀ τ)) := by
  obtain ⟨h1, h2, h3, e, h5, h6⟩ := invDyn_iff.mp h
  obtain ⟨-, -, -, e₀, k5, k6⟩ := invDyn_iff.mp h₀
  obtain ⟨e'', he, hx⟩ := toTips_mix (c := k ^ 2) k5 h5
  rw [DynSolver.mix_zero_left _ _ F rfl] at he
  refine invDyn_iff.mpr ⟨h1, by simpa [scaled] using h2, by simpa [scaled] using h3, e'', he, ?_⟩
  have hz : scaled 0 ((qdot.take s.tree.nJoints).map (· * deg2rad)) = List.replicate s.tree.nJoints 0 := by
    simp [scaled, List.map_const', h2, Function.comp_def]
  have hz' : ((List.replicate s.tree.nJoints (0 : ℝ)).take s.tree.nJoints).map (· * deg2rad) =
      List.replicate s.tree.nJoints 0 := by simp
  rw [hz'] at k6
  have := rne_mix (c := k ^ 2) (r₁ := 0) (r₂ := 1) (r₃ := k) (by ring) hx
    (qd := (qdot.take s.tree.nJoints).map (· * deg2rad)) (by rw [hz]; exact k6) (by rw [DynSolver.scaled_one]; exact h6)
  rw [DynSolver.mix_zero_left _ _ _ (by simp [h3])] at this
  rw [DynSolver.scaled_radians, DynSolver.scaled_radians]
  exact this

theorem fill_none (t : Tcps) {N : ℕ} (es : List String) : ∀ (i : ℕ) (m n : String → Option Wrench),
    (∀ k, (m k).getD 0 = 0) → KdlTreeSolver.fill t vectorToWrench 0 (List.replicate N 0) es i m = some n →
    ∀ k, (n k).getD 0 = 0 := by
  induction es with
  | nil =>
    intro i m n hm h
    simp only [KdlTreeSolver.fill, Option.some.injEq] at h
    subst h
    exact hm
  | cons e es ih =>
    intro i m n hm h
    rw [KdlTreeSolver.fill] at h
    cases ho : t.merged e with
    | some o =>
      simp only [ho] at h
      refine ih i _ n (fun k => ?_) h
      split_ifs <;> first | exact hm o | exact hm k
    | none =>
      simp only [ho] at h
      cases hb : KdlTreeSolver.block (List.replicate N (0 : ℝ)) i with
      | none => simp [hb] at h
      | some a =>
        simp only [hb] at h
        refine ih (i + 1) _ n (fun k => ?_) h
        split_ifs
        · unfold KdlTreeSolver.block at hb
          split_ifs at hb with hl
          simp only [Option.some.injEq, List.drop_replicate, List.take_replicate, List.length_replicate] at hb hl
          rw [show min 6 (N - i * 6) = 6 by omega] at hb
          subst hb
          ext <;> simp [vectorToWrench, List.replicate]
        · exact hm k

theorem toBase_none (s : KdlTreeSolver) (q : List ℝ) (es : List String) : ∀ m n : String → Option Wrench,
    (∀ k, (m k).getD 0 = 0) → s.toBase q (fun f w => Wrench.rotate f.M.transpose w) es m = some n →
    ∀ k, (n k).getD 0 = 0 := by
  induction es with
  | nil =>
    intro m n hm h
    simp only [KdlTreeSolver.toBase, Option.some.injEq] at h
    subst h
    exact hm
  | cons e es ih =>
    intro m n hm h
    rw [KdlTreeSolver.toBase] at h
    cases hf : s.fk q e with
    | none => simp [hf] at h
    | some f =>
      simp only [hf, Option.bind_eq_bind, Option.bind_some] at h
      refine ih _ n (fun k => ?_) h
      split_ifs
      · have := hm k
        cases hk : m k with
        | none => rfl
        | some w =>
          rw [hk, Option.getD_some] at this
          subst this
          ext <;> simp [Wrench.rotate]
      · exact hm k

theorem toTips_none {s : TreeDynSolver} {qr : List ℝ} {N : ℕ} {fr : SolverFrame} {e : String → Option Wrench}
    (h : s.toTips qr (List.replicate N 0) fr = some e) : ∀ k, (e k).getD 0 = 0 := by
  unfold toTips at h
  obtain ⟨m, hm, h⟩ := Option.bind_eq_some_iff.mp h
  have h0 := fill_none s.tcps s.tcps.endpoints 0 _ m (fun _ => rfl) hm
  cases fr with
  | base => exact toBase_none s.kinematics _ s.tcps.endpoints m e h0 h
  | tcp =>
    simp only [Option.some.injEq] at h
    subst h
    exact h0
  | other => simp at h

theorem collect_congr (q qd qdd : List ℝ) (g : Vec3) {e e' : String → Option Wrench}
    (he : ∀ x, (e x).getD 0 = (e' x).getD 0) (ns : List TreeNode) :
    ∀ f, Tree.collect q qd qdd g e ns f = Tree.collect q qd qdd g e' ns f := by
  induction ns with
  | nil => intro f; rfl
  | cons n ns ih =>
    intro f
    rw [Tree.collect, Tree.collect]
    simp only [he, ih]

/-- C109: without speeds, accelerations and forces, the torques are those that the other method gives for a robot
at rest. -/
theorem C109_still {s : TreeDynSolver} {q τ : List ℝ} {N : ℕ} {fr : SolverFrame}
    (h : s.invDyn q (List.replicate s.tree.nJoints 0) (List.replicate s.tree.nJoints 0) (List.replicate N 0) fr =
      some (some τ)) : s.invDynStatic q = some (some τ) := by
  obtain ⟨h1, -, -, e, h5, h6⟩ := invDyn_iff.mp h
  have hz := toTips_none h5
  have hz' : ((List.replicate s.tree.nJoints (0 : ℝ)).take s.tree.nJoints).map (· * deg2rad) =
      List.replicate s.tree.nJoints 0 := by simp
  rw [hz'] at h6
  unfold invDynStatic
  rw [toRadians_some h1]
  simp only [Option.bind_eq_bind, Option.bind_some, Option.pure_def, Option.some.injEq]
  rw [← h6]
  unfold Tree.rne
  rw [collect_congr _ _ _ _ (e' := e) fun x => by rw [hz]; split_ifs <;> rfl]

/-! ### Starting to move -/

/-- At rest the accelerations are the velocities of the virtual displacement along the accelerations. -/
theorem sweep_start {ns : List TreeNode} (hw : ∀ n ∈ ns, n.link.seg.Wf) (q α : List ℝ) (N : ℕ) (x : String) :
    (Tree.sweep q (List.replicate N 0) α 0 ns x).1 = 0 ∧
      (Tree.sweep q (List.replicate N 0) α 0 ns x).2 = Tree.virtual q α ns x := by
  induction ns generalizing x with
  | nil =>
    refine ⟨rfl, ?_⟩
    simp only [Tree.sweep, Tree.virtual]
    ext <;> simp
  | cons n ns ih =>
    have ih := ih (fun m hm => hw m (by simp [hm]))
    simp only [Tree.sweep, Tree.virtual]
    split_ifs
    · obtain ⟨h1, h2⟩ := ih n.parent
      have h0 : Tree.jointValue n (List.replicate N (0 : ℝ)) = 0 := by
        unfold Tree.jointValue
        split_ifs
        · rw [List.getD_eq_getElem?_getD, List.getElem?_replicate]
          split_ifs <;> rfl
        · rfl
      rw [h1, h2, h0, DynSolver.sweep_eq, (hw n (by simp)).unit_const (Tree.jointValue n q) 0]
      generalize Tree.virtual q α ns n.parent = b
      refine ⟨?_, ?_⟩ <;> simp only [Frame.invTwist, Twist.crossTwist] <;> ext <;> simp
    · exact ih x

theorem place_start {ns : List TreeNode} (hw : ∀ n ∈ ns, n.link.seg.Wf) (h : Tree.Proper ns) (q α : List ℝ)
    (hl : q.length = α.length) (x : String) (r : Vec3) :
    Vec3.rate (Vec3.rate fun u => (Tree.place ns ((List.zipWith start q α).map (·.pos u)) x).act r) 0 =
      Vec3.rate (fun ε => (Tree.place ns (advance q α ε) x).act r) 0 := by
  have hr : ∀ q, (Tree.place ns q x).IsRigid := fun q => Tree.place_rigid hw h q x
  obtain ⟨a, h1, h2⟩ := Tree.sweep_rate hw h (List.zipWith start q α) 0 0 x
  rw [DynSolver.start_pos q α hl, DynSolver.start_vel q α hl, DynSolver.start_acc q α hl] at h2
  obtain ⟨k1, k2⟩ := sweep_start hw q α q.length x
  have ha : a = Tree.virtual q α ns x := by
    rw [k2] at h2
    rw [h2]
    ext <;> simp
  refine (Frame.BodyMoves.place_acc (fun s => Tree.sweep_moves hw h (List.zipWith start q α) 0 s _ x)
    (fun s => hr _) h1 r).trans ?_
  refine Eq.trans ?_ ((Tree.virtual_moves hw h q α hl.symm x).place (hr _) r).rate.symm
  rw [DynSolver.start_pos q α hl, DynSolver.start_vel q α hl, DynSolver.start_acc q α hl, k1, ha,
    Tree.advance_none _ _ hl.symm]
  congr 1
  ext <;> simp

/-- The work of gravity along a virtual displacement. -/
noncomputable def weightWork (s : TreeDynSolver) (bodies : String → List MassPoint) (q δ : List ℝ) : ℝ :=
  (s.segments.map fun x => ((bodies x).map fun p =>
    p.mass * dot s.gravity (Vec3.rate (fun ε => s.placeAt (advance q δ ε) x p.place) 0)).sum).sum

theorem work_start {s : TreeDynSolver} {bodies : String → List MassPoint} (hs : s.Describes bodies) (q α δ : List ℝ)
    (hq : q.length = s.tree.nJoints) (hα : α.length = s.tree.nJoints) (hδ : δ.length = s.tree.nJoints) :
    (s.segments.map fun x => Tree.work bodies s.gravity (List.zipWith start q α) δ 0 s.tree.nodes x).sum =
      s.massProduct bodies q α δ - s.weightWork bodies q δ := by
  unfold massProduct weightWork
  rw [← sum_sub]
  congr 1
  refine List.map_congr_left fun x hx => ?_
  unfold Tree.work
  have hl := hq.trans hα.symm
  have hp := place_start hs.proper hs.built.proper q α hl x
  have ha : ∀ (γ : List ℝ), γ.length = s.tree.nJoints → ∀ (r : Vec3), (fun ε => s.placeAt (advance q γ ε) x r) =
      fun ε => (Tree.place s.tree.nodes (advance q γ ε) x).act r := fun γ hγ r => funext fun ε =>
    hs.placeAt (by rw [DynSolver.advance_length _ _ (by omega)]; exact hq) hx r
  simp only [ha α hα, ha δ hδ, hp, DynSolver.start_pos q α hl]
  generalize bodies x = pts
  induction pts with
  | nil => simp
  | cons p pts ih =>
    rw [List.map_cons, List.map_cons, List.map_cons, List.sum_cons, List.sum_cons, List.sum_cons, ih]
    simp only [dot, sub_x, sub_y, sub_z]
    ring

theorem massProduct_still (s : TreeDynSolver) (bodies : String → List MassPoint) (q δ : List ℝ) :
    s.massProduct bodies q (List.replicate q.length 0) δ = 0 := by
  refine List.sum_eq_zero fun z hz => ?_
  obtain ⟨x, -, rfl⟩ := List.mem_map.mp hz
  refine List.sum_eq_zero fun y hy => ?_
  obtain ⟨p, -, rfl⟩ := List.mem_map.mp hy
  simp only [DynSolver.advance_still]
  rw [(Vec3.HasRate.const _ 0).rate]
  simp [dot]

/-- C109: what starting to move takes, beyond holding the robot, is the inertia of its masses. For a robot at
rest, with any forces on its TCPs, and any accelerations of the joints, the work of the additional torques along
any displacement of the joints is the sum over the masses of the mass times the product of both velocities. -/
theorem C109_inertia {s : TreeDynSolver} {bodies : String → List MassPoint} (hs : s.Describes bodies)
    {q α F τ₀ τ : List ℝ} (hq : q.length = s.tree.nJoints) (hα : α.length = s.tree.nJoints) {fr : SolverFrame}
    (h₀ : s.invDyn (q.map (· * rad2deg)) (List.replicate s.tree.nJoints 0) (List.replicate s.tree.nJoints 0) F fr =
      some (some τ₀))
    (h : s.invDyn (q.map (· * rad2deg)) (List.replicate s.tree.nJoints 0) (α.map (· * rad2deg)) F fr = some (some τ))
    (δ : List ℝ) (hδ : δ.length = s.tree.nJoints) :
    powerOf τ δ - powerOf τ₀ δ = s.massProduct bodies q α δ := by
  have hb : ∀ a : List ℝ, a.length = s.tree.nJoints →
      ((a.map (· * rad2deg)).take s.tree.nJoints).map (· * deg2rad) = a := by
    intro a ha
    have h1 := DynSolver.radians_back a ha
    rw [toRadians_some (by simp [ha])] at h1
    exact Option.some.inj h1
  have hz' : ((List.replicate s.tree.nJoints (0 : ℝ)).take s.tree.nJoints).map (· * deg2rad) =
      List.replicate s.tree.nJoints 0 := by simp
  obtain ⟨-, -, -, e₀, h5, h6⟩ := invDyn_iff.mp h₀
  obtain ⟨-, -, -, e, k5, k6⟩ := invDyn_iff.mp h
  obtain rfl : e₀ = e := Option.some.inj (h5.symm.trans k5)
  rw [hb q hq, hz'] at h6 k6
  rw [hb α hα] at k6
  have main : ∀ (β σ : List ℝ), β.length = s.tree.nJoints →
      s.tree.rne s.gravity q (List.replicate s.tree.nJoints 0) β e₀ = some σ →
      powerOf σ δ = s.massProduct bodies q β δ - s.weightWork bodies q δ -
        (s.segments.map fun x => (Tree.virtual q δ s.tree.nodes x).power ((e₀ x).getD 0)).sum := by
    intro β σ hβ hσ
    have hl := hq.trans hβ.symm
    obtain ⟨σ', g1, -, g3⟩ := Tree.rne_work hs.built hs.proper hs.bodies s.gravity (List.zipWith start q β)
      (by simp [hq, hβ]) 0 e₀
    rw [DynSolver.start_pos q β hl, DynSolver.start_vel q β hl, DynSolver.start_acc q β hl, hq, hσ] at g1
    obtain rfl : σ = σ' := Option.some.inj g1
    have := g3 δ hδ
    rw [DynSolver.start_pos q β hl, sum_sub] at this
    have hw := work_start hs q β δ hq hβ hδ
    unfold segments at hw ⊢
    unfold powerOf
    rw [this, hw]
  rw [main α τ hα k6, main _ τ₀ (by simp) h6]
  have := s.massProduct_still bodies q δ
  rw [hq] at this
  rw [this]
  ring

/-- C109: joints act on each other alike, also those of different limbs. The work, along `β`, of the torques that
the accelerations `α` take, is the work, along `α`, of those that `β` take. -/
theorem C109_symmetric {s : TreeDynSolver} {bodies : String → List MassPoint} (hs : s.Describes bodies)
    {q α β F τ₀ τ τ' : List ℝ} (hq : q.length = s.tree.nJoints) (hα : α.length = s.tree.nJoints)
    (hβ : β.length = s.tree.nJoints) {fr : SolverFrame}
    (h₀ : s.invDyn (q.map (· * rad2deg)) (List.replicate s.tree.nJoints 0) (List.replicate s.tree.nJoints 0) F fr =
      some (some τ₀))
    (h : s.invDyn (q.map (· * rad2deg)) (List.replicate s.tree.nJoints 0) (α.map (· * rad2deg)) F fr = some (some τ))
    (h' : s.invDyn (q.map (· * rad2deg)) (List.replicate s.tree.nJoints 0) (β.map (· * rad2deg)) F fr =
      some (some τ')) :
    powerOf τ β - powerOf τ₀ β = powerOf τ' α - powerOf τ₀ α := by
  rw [C109_inertia hs hq hα h₀ h β hβ, C109_inertia hs hq hβ h₀ h' α hα]
  unfold massProduct
  congr 1
  refine List.map_congr_left fun x _ => ?_
  congr 1
  refine List.map_congr_left fun p _ => ?_
  simp only [dot]
  ring

/-- C109: torques push the way the joints accelerate. Starting to move takes work, beyond holding the robot:
never negative, and none only if no mass moves. -/
theorem C109_positive {s : TreeDynSolver} {bodies : String → List MassPoint} (hs : s.Describes bodies)
    (hp : ∀ x ∈ s.segments, ∀ p ∈ bodies x, 0 < p.mass) {q α F τ₀ τ : List ℝ} (hq : q.length = s.tree.nJoints)
    (hα : α.length = s.tree.nJoints) {fr : SolverFrame}
    (h₀ : s.invDyn (q.map (· * rad2deg)) (List.replicate s.tree.nJoints 0) (List.replicate s.tree.nJoints 0) F fr =
      some (some τ₀))
    (h : s.invDyn (q.map (· * rad2deg)) (List.replicate s.tree.nJoints 0) (α.map (· * rad2deg)) F fr = some (some τ)) :
    0 ≤ powerOf τ α - powerOf τ₀ α ∧
      (powerOf τ α = powerOf τ₀ α → ∀ x ∈ s.segments, ∀ p ∈ bodies x,
        Vec3.rate (fun ε => s.placeAt (advance q α ε) x p.place) 0 = 0) := by
  have hsq : ∀ v : Vec3, 0 ≤ dot v v := fun v => by
    unfold dot
    nlinarith [mul_self_nonneg v.x, mul_self_nonneg v.y, mul_self_nonneg v.z]
  have hm := C109_inertia hs hq hα h₀ h α hα
  have hterm : ∀ x ∈ s.segments, ∀ y ∈ ((bodies x).map fun p =>
      p.mass * dot (Vec3.rate (fun ε => s.placeAt (advance q α ε) x p.place) 0)
        (Vec3.rate (fun ε => s.placeAt (advance q α ε) x p.place) 0)), 0 ≤ y := by
    intro x hx y hy
    obtain ⟨p, hpm, rfl⟩ := List.mem_map.mp hy
    exact mul_nonneg (hp x hx p hpm).le (hsq _)
  have hsum : ∀ z ∈ (s.segments.map fun x => ((bodies x).map fun p =>
      p.mass * dot (Vec3.rate (fun ε => s.placeAt (advance q α ε) x p.place) 0)
        (Vec3.rate (fun ε => s.placeAt (advance q α ε) x p.place) 0)).sum), 0 ≤ z := by
    intro z hz
    obtain ⟨x, hx, rfl⟩ := List.mem_map.mp hz
    exact List.sum_nonneg (hterm x hx)
  refine ⟨by rw [hm]; exact List.sum_nonneg hsum, fun he x hx p hpx => ?_⟩
  have hz : s.massProduct bodies q α α = 0 := by rw [← hm, he, sub_self]
  have l1 := List.single_le_sum hsum _ (List.mem_map.mpr ⟨x, hx, rfl⟩)
  have l2 := List.single_le_sum (hterm x hx) _ (List.mem_map.mpr ⟨p, hpx, rfl⟩)
  have l3 := l2.trans (l1.trans (le_of_eq hz))
  have hpos := hp x hx p hpx
  generalize Vec3.rate (fun ε => s.placeAt (advance q α ε) x p.place) 0 = v at l3 ⊢
  have hd : dot v v ≤ 0 := by
    by_contra hc
    have := mul_pos hpos (not_le.mp hc)
    linarith
  unfold dot at hd
  have hx : v.x = 0 := by nlinarith [mul_self_nonneg v.x, mul_self_nonneg v.y, mul_self_nonneg v.z]
  have hy : v.y = 0 := by nlinarith [mul_self_nonneg v.x, mul_self_nonneg v.y, mul_self_nonneg v.z]
  have hz : v.z = 0 := by nlinarith [mul_self_nonneg v.x, mul_self_nonneg v.y, mul_self_nonneg v.z]
  exact Vec3.ext hx hy hz

/-- The two pendulums of C80 meet the hypotheses: with the accelerations 3 and 0 they take the torques -20 + 6 and
-30, and with 0 and 1, -20 and -30 + 3. -/
theorem pendulums_start (x y : ℝ) :
    pendulums.invDyn ([0, 0].map (· * rad2deg)) (List.replicate pendulums.tree.nJoints 0) ([x, y].map (· * rad2deg))
      (List.replicate 12 0) .tcp = some (some [2 * x - 20, 3 * y - 30]) := by
  have hj : pendulums.tree.nJoints = 2 := rfl
  have h2 : ∀ z : ℝ, z * rad2deg * deg2rad = z := fun z => deg_rad z
  unfold invDyn
  rw [hj]
  simp [toRadians, Tree.rne, Tree.collect, Tree.sweep, Tree.jointValue, pendulums, Segment.make, Link.sweep, Link.force,
    Joint.pose, Inertia.make, Segment.pose, Segment.twist, Joint.twist, Twist.rotate, Twist.refPoint, Frame.invTwist,
    Inertia.mul, Twist.crossTwist, Twist.crossWrench, Twist.power, dot, Mat3.rotY, Mat3.transpose, Frame.inv,
    cross, List.range, List.range.loop, KdlTreeSolver.fill, KdlTreeSolver.block, vectorToWrench, List.replicate, h2]
  constructor <;> ring

example : powerOf [2 * 3 - 20, 3 * 0 - 30] [0, 1] - powerOf [-20, -30] [0, 1] =
    powerOf [2 * 0 - 20, 3 * 1 - 30] [3, 0] - powerOf [-20, -30] [3, 0] := by
  have h₀ := pendulums_start 0 0
  have e : ([0, 0] : List ℝ).map (· * rad2deg) = List.replicate pendulums.tree.nJoints 0 := by
    simp [pendulums, List.replicate]
  rw [show [(2 : ℝ) * 0 - 20, 3 * 0 - 30] = [-20, -30] by norm_num] at h₀
  refine C109_symmetric pendulums_describe (q := [0, 0]) rfl rfl rfl ?_ (pendulums_start 3 0) (pendulums_start 0 1)
  rw [e] at h₀ ⊢
  exact h₀

/-- Also those of the other ones: four times the accelerations take, beyond holding the masses, four times the
torques; and the masses are positive. -/
example : pendulums.invDyn ([0, 0].map (· * rad2deg)) (scaled 2 (List.replicate pendulums.tree.nJoints 0))
      (scaled (2 ^ 2) ([3, 1].map (· * rad2deg))) (scaled (2 ^ 2) (List.replicate 12 0)) .tcp =
      some (some [4 * 6 - 20, 4 * 3 - 30]) ∧
    (∀ x ∈ pendulums.segments,
      ∀ p ∈ (if x = "a" then [(⟨2, ⟨1, 0, 0⟩⟩ : MassPoint)] else [⟨3, ⟨1, 0, 0⟩⟩]), 0 < p.mass) := by
  refine ⟨?_, fun x _ p hp => ?_⟩
  · have h₀ := pendulums_start 0 0
    have e : ([0, 0] : List ℝ).map (· * rad2deg) = List.replicate pendulums.tree.nJoints 0 := by
      simp [pendulums, List.replicate]
    have := C109_faster (F := List.replicate 12 0) (by rw [e] at h₀; simpa [e] using h₀) (pendulums_start 3 1) 2
    rw [e] at this ⊢
    rw [this]
    simp only [mix, List.zipWith_cons_cons, List.zipWith_nil_left]
    norm_num
  · split_ifs at hp <;> simp at hp <;> subst hp <;> norm_num

end TreeDynSolver

end KD
