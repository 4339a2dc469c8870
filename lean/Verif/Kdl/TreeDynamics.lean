import Verif.Kdl.TreeLemmas
import Verif.Kdl.DynamicsLemmas
import Mathlib.Algebra.BigOperators.Group.Finset.Basic
import Mathlib.Data.List.Range

/-!
# Newton-Euler on trees: helper lemmas
-/

namespace KD

open Vec3

namespace Tree

/-- Specification: trees are put together segment by segment. -/
inductive Built : Tree → Prop
  | empty : Built Tree.empty
  | add {t t' : Tree} {name hook : String} {l : Link} (h : Built t) (ha : t.addSegment name l hook = some t') : Built t'

/-! ### Shape of a tree -/

/-- Names are not used twice and parents come first. -/
def Proper : List TreeNode → Prop
  | [] => True
  | n :: ns => (n.parent = "root" ∨ n.parent ∈ ns.map (·.name)) ∧ n.name ≠ "root" ∧ n.name ∉ ns.map (·.name) ∧ Proper ns

theorem has_iff (t : Tree) (x : String) : t.Has x ↔ x = "root" ∨ x ∈ t.nodes.map (·.name) := by
  unfold Has
  rw [List.mem_map]

theorem Built.proper {t : Tree} (h : Built t) : Proper t.nodes := by
  induction h with
  | empty => trivial
  | add _ ha ih =>
    obtain ⟨h1, h2, -, -, -, -, -, k, hk, -⟩ := addSegment_spec ha
    rw [has_iff] at h1 h2
    push Not at h2
    rw [hk]
    exact ⟨h1, h2.1, h2.2, ih⟩

/-- The places of the joints. -/
theorem Built.numbers {t : Tree} (h : Built t) :
    ((t.nodes.filter fun n => n.link.Moving).map (·.qNr)).reverse = List.range t.nJoints := by
  induction h with
  | empty => rfl
  | @add t t' name hook l _ ha ih =>
    obtain ⟨h1, h2, -, h4, -, -, -, k, hk, hm⟩ := addSegment_spec ha
    rw [hk, h4]
    by_cases h : l.Moving
    · rw [List.filter_cons_of_pos (by simpa using h), List.map_cons, List.reverse_cons, ih, moving_cons, if_pos h,
        moving_nil, Nat.add_zero, List.range_succ, hm h]
    · rw [List.filter_cons_of_neg (by simpa using h), ih, moving_cons, if_neg h, moving_nil,
        Nat.add_zero]

theorem Proper.names {ns : List TreeNode} (h : Proper ns) : (ns.map (·.name)).Nodup := by
  induction ns with
  | nil => simp
  | cons n ns ih =>
    rw [List.map_cons, List.nodup_cons]
    exact ⟨h.2.2.1, ih h.2.2.2⟩

theorem Proper.no_root {ns : List TreeNode} (h : Proper ns) : "root" ∉ ns.map (·.name) := by
  induction ns with
  | nil => simp
  | cons n ns ih =>
    rw [List.map_cons, List.mem_cons]
    rintro (e | e)
    · exact h.2.1 e.symm
    · exact ih h.2.2.2 e

/-! ### Motion of the segments -/

/-- Pose of a segment. -/
noncomputable def place (ns : List TreeNode) (q : List ℝ) (x : String) : Frame := (fkLoop q ns x).getD 1

theorem fkLoop_some {ns : List TreeNode} (h : Proper ns) (q : List ℝ) : ∀ x, (x = "root" ∨ x ∈ ns.map (·.name)) →
    fkLoop q ns x = some (place ns q x) := by
  induction ns with
  | nil =>
    intro x hx
    rcases hx with rfl | hx
    · rfl
    · simp at hx
  | cons n ns ih =>
    intro x hx
    unfold place
    by_cases e : n.name = x
    · rw [fkLoop, if_pos e, ih h.2.2.2 _ h.1]
      rfl
    · rw [fkLoop, if_neg e, ih h.2.2.2]
      · rfl
      · rcases hx with hx | hx
        · exact Or.inl hx
        · rw [List.map_cons, List.mem_cons] at hx
          exact Or.inr (hx.resolve_left fun h => e h.symm)

theorem place_self {n : TreeNode} {ns : List TreeNode} (h : Proper (n :: ns)) (q : List ℝ) :
    place (n :: ns) q n.name = place ns q n.parent * n.link.seg.pose (jointValue n q) := by
  unfold place
  rw [fkLoop, if_pos rfl, fkLoop_some h.2.2.2 q _ h.1]
  rfl

theorem place_other {n : TreeNode} {ns : List TreeNode} {x : String} (h : n.name ≠ x) (q : List ℝ) :
    place (n :: ns) q x = place ns q x := by
  unfold place
  rw [fkLoop, if_neg h]

theorem place_nil (q : List ℝ) (x : String) : place [] q x = 1 := by
  unfold place fkLoop
  split_ifs <;> rfl

theorem place_rigid {ns : List TreeNode} (hw : ∀ n ∈ ns, n.link.seg.Wf) (h : Proper ns) (q : List ℝ) (x : String) :
    (place ns q x).IsRigid := by
  induction ns generalizing x with
  | nil => rw [place_nil]; exact Frame.IsRigid.one
  | cons n ns ih =>
    have ih := ih (fun m hm => hw m (by simp [hm])) h.2.2.2
    by_cases e : n.name = x
    · rw [← e, place_self h]
      exact (ih _).mul ((hw n (by simp)).pose_rigid _)
    · rw [place_other e]; exact ih x

theorem jointValue_rate (n : TreeNode) (ms : List JointMotion) (s : ℝ) :
    HasDerivAt (fun u => jointValue n (ms.map (·.pos u))) (jointValue n (ms.map (·.vel s))) s := by
  unfold jointValue
  by_cases h : n.link.seg.joint.type ≠ .none
  · simp only [if_pos h]
    cases hm : ms[n.qNr]? with
    | none => simpa [List.getD_eq_getElem?_getD, hm] using hasDerivAt_const s (0 : ℝ)
    | some m => simpa [List.getD_eq_getElem?_getD, hm] using m.pos_rate s
  · simp only [if_neg h]
    exact hasDerivAt_const s 0

theorem jointValue_rate' (n : TreeNode) (ms : List JointMotion) (s : ℝ) :
    HasDerivAt (fun u => jointValue n (ms.map (·.vel u))) (jointValue n (ms.map (·.acc s))) s := by
  unfold jointValue
  by_cases h : n.link.seg.joint.type ≠ .none
  · simp only [if_pos h]
    cases hm : ms[n.qNr]? with
    | none => simpa [List.getD_eq_getElem?_getD, hm] using hasDerivAt_const s (0 : ℝ)
    | some m => simpa [List.getD_eq_getElem?_getD, hm] using m.vel_rate s
  · simp only [if_neg h]
    exact hasDerivAt_const s 0

theorem jointValue_advance (n : TreeNode) (q δ : List ℝ) (h : δ.length = q.length) (ε : ℝ) :
    jointValue n (advance q δ ε) = jointValue n q + ε * jointValue n δ := by
  unfold jointValue
  by_cases hn : n.link.seg.joint.type ≠ .none
  · simp only [if_pos hn]
    unfold advance
    rw [List.getD_eq_getElem?_getD, List.getD_eq_getElem?_getD, List.getD_eq_getElem?_getD, List.getElem?_zipWith]
    by_cases hk : n.qNr < q.length
    · rw [List.getElem?_eq_getElem hk, List.getElem?_eq_getElem (by omega : n.qNr < δ.length)]
      rfl
    · rw [List.getElem?_eq_none (by omega), List.getElem?_eq_none (by omega)]
      simp
  · simp only [if_neg hn]
    ring

/-- The virtual velocity of a segment, in its own axes. -/
noncomputable def virtual (q δ : List ℝ) : List TreeNode → String → Twist
  | [], _ => 0
  | n :: ns, x =>
    if n.name = x then (n.link.seg.pose (jointValue n q)).invTwist (virtual q δ ns n.parent) + jointValue n δ • n.link.seg.unit 0
    else virtual q δ ns x

theorem virtual_moves {ns : List TreeNode} (hw : ∀ n ∈ ns, n.link.seg.Wf) (h : Proper ns) (q δ : List ℝ)
    (hδ : δ.length = q.length) (x : String) :
    Frame.BodyMoves (fun ε => place ns (advance q δ ε) x) (virtual q δ ns x) 0 := by
  induction ns generalizing x with
  | nil =>
    simp only [place_nil]
    exact BodyMoves_const 1 0
  | cons n ns ih =>
    have hw' : ∀ m ∈ ns, m.link.seg.Wf := fun m hm => hw m (by simp [hm])
    have ih := ih hw' h.2.2.2
    by_cases e : n.name = x
    · subst e
      have e1 : (fun ε => place (n :: ns) (advance q δ ε) n.name) =
          fun ε => place ns (advance q δ ε) n.parent * n.link.seg.pose (jointValue n q + ε * jointValue n δ) := by
        funext ε
        rw [place_self h, jointValue_advance n q δ hδ]
      rw [e1, virtual, if_pos rfl]
      have hlin : HasDerivAt (fun ε => jointValue n q + ε * jointValue n δ) (jointValue n δ) 0 := by
        simpa using ((hasDerivAt_id (0 : ℝ)).mul_const (jointValue n δ)).const_add (jointValue n q)
      have := (ih n.parent).mul ((hw n (by simp)).moves hlin) (place_rigid hw' h.2.2.2 _ _) ((hw n (by simp)).pose_rigid _)
      simpa using this
    · have e1 : (fun ε => place (n :: ns) (advance q δ ε) x) = fun ε => place ns (advance q δ ε) x := by
        funext ε
        rw [place_other e]
      rw [e1, virtual, if_neg e]
      exact ih x

theorem sweep_moves {ns : List TreeNode} (hw : ∀ n ∈ ns, n.link.seg.Wf) (h : Proper ns) (ms : List JointMotion)
    (g : Vec3) (s : ℝ) (qdd : List ℝ) (x : String) :
    Frame.BodyMoves (fun u => place ns (ms.map (·.pos u)) x)
      (sweep (ms.map (·.pos s)) (ms.map (·.vel s)) qdd g ns x).1 s := by
  induction ns generalizing x with
  | nil =>
    simp only [place_nil]
    exact BodyMoves_const 1 s
  | cons n ns ih =>
    have hw' : ∀ m ∈ ns, m.link.seg.Wf := fun m hm => hw m (by simp [hm])
    have ih := ih hw' h.2.2.2
    by_cases e : n.name = x
    · subst e
      simp only [sweep, if_pos, place_self h]
      exact KD.sweep_moves (hw n (by simp)) (jointValue_rate n ms s) (ih n.parent) (place_rigid hw' h.2.2.2 _ _)
    · simp only [sweep, if_neg e, place_other e]
      exact ih x

theorem sweep_rate {ns : List TreeNode} (hw : ∀ n ∈ ns, n.link.seg.Wf) (h : Proper ns) (ms : List JointMotion)
    (g : Vec3) (t : ℝ) (x : String) :
    ∃ a, Twist.HasRate (fun u => (sweep (ms.map (·.pos u)) (ms.map (·.vel u)) (ms.map (·.acc u)) g ns x).1) a t ∧
      (sweep (ms.map (·.pos t)) (ms.map (·.vel t)) (ms.map (·.acc t)) g ns x).2 =
        a + ⟨-((place ns (ms.map (·.pos t)) x).M.transpose.mulVec g), 0⟩ := by
  induction ns generalizing x with
  | nil =>
    refine ⟨0, ⟨Vec3.HasRate.const 0 t, Vec3.HasRate.const 0 t⟩, ?_⟩
    rw [place_nil]
    ext <;> simp [sweep, Mat3.transpose]
  | cons n ns ih =>
    have hw' : ∀ m ∈ ns, m.link.seg.Wf := fun m hm => hw m (by simp [hm])
    have ih := ih hw' h.2.2.2
    by_cases e : n.name = x
    · subst e
      obtain ⟨a, h1, h2⟩ := ih n.parent
      simp only [sweep, if_pos, place_self h]
      refine ⟨_, KD.sweep_rate (hw n (by simp)) (jointValue_rate n ms t) (jointValue_rate' n ms t) h1, ?_⟩
      rw [h2, sweep_gravity]
    · simp only [sweep, if_neg e, place_other e]
      exact ih x

/-! ### Work -/

/-- The work per unit of virtual displacement of the forces that accelerate the masses of a segment against
gravity. -/
noncomputable def work (bodies : String → List MassPoint) (g : Vec3) (ms : List JointMotion) (δ : List ℝ) (t : ℝ)
    (ns : List TreeNode) (x : String) : ℝ :=
  ((bodies x).map fun p =>
    p.mass * dot (Vec3.rate (Vec3.rate fun s => (place ns (ms.map (·.pos s)) x).act p.place) t - g)
      (Vec3.rate (fun ε => (place ns (advance (ms.map (·.pos t)) δ ε) x).act p.place) 0)).sum

theorem virtual_root (q δ : List ℝ) {ns : List TreeNode} (h : "root" ∉ ns.map (·.name)) : virtual q δ ns "root" = 0 := by
  induction ns with
  | nil => rfl
  | cons n ns ih =>
    rw [List.map_cons, List.mem_cons] at h
    push Not at h
    rw [virtual, if_neg (Ne.symm h.1), ih h.2]

theorem virtual_other {n : TreeNode} {ns : List TreeNode} {x : String} (h : n.name ≠ x) (q δ : List ℝ) :
    virtual q δ (n :: ns) x = virtual q δ ns x := by rw [virtual, if_neg h]

theorem work_other (bodies : String → List MassPoint) (g : Vec3) (ms : List JointMotion) (δ : List ℝ) (t : ℝ)
    {n : TreeNode} {ns : List TreeNode} {x : String} (h : n.name ≠ x) :
    work bodies g ms δ t (n :: ns) x = work bodies g ms δ t ns x := by
  unfold work
  simp only [place_other h]

theorem zero_power (w : Wrench) : (0 : Twist).power w = 0 := by simp [Twist.power, dot]

/-- A reaction on the parent counts once. -/
theorem reaction (V : String → Twist) (f : String → Wrench) (w : Wrench) (p : String) :
    ∀ xs : List String, xs.Nodup → (xs.map fun x => (V x).power (if x = p then f x + w else f x)).sum =
      (xs.map fun x => (V x).power (f x)).sum + if p ∈ xs then (V p).power w else 0
  | [], _ => by simp
  | x :: xs, h => by
    rw [List.nodup_cons] at h
    simp only [List.map_cons, List.sum_cons]
    rw [reaction V f w p xs h.2]
    by_cases e : x = p
    · subst e
      rw [if_pos rfl, if_neg h.1, if_pos (by simp), power_add]
      ring
    · rw [if_neg e]
      have : p ∈ x :: xs ↔ p ∈ xs := by
        rw [List.mem_cons]
        exact or_iff_right (Ne.symm e)
      simp only [this]
      ring

theorem power_twist_add (a b : Twist) (w : Wrench) : (a + b).power w = a.power w + b.power w := by
  simp only [Twist.power, Twist.add_vel, Twist.add_rot, dot_add_left]
  ring

theorem power_smul (r : ℝ) (a : Twist) (w : Wrench) : (r • a).power w = r * a.power w := by
  simp only [Twist.power, Twist.smul_vel, Twist.smul_rot, dot_smul_left]
  ring

theorem sum_add {α : Type} (l : List α) (f g : α → ℝ) : (l.map fun x => f x + g x).sum = (l.map f).sum + (l.map g).sum := by
  induction l with
  | nil => simp
  | cons a l ih => simp only [List.map_cons, List.sum_cons, ih]; ring

theorem advance_none : ∀ (q δ : List ℝ), δ.length = q.length → advance q δ 0 = q
  | [], [], _ => rfl
  | a :: q, b :: δ, h => by
    have := advance_none q δ (by simpa using h)
    simp only [advance] at this ⊢
    rw [List.zipWith_cons_cons, this, zero_mul, add_zero]
  | [], _ :: _, h => by simp at h
  | _ :: _, [], h => by simp at h

/-- The forces on one segment. -/
theorem node_work {bodies : String → List MassPoint} (g : Vec3) (ms : List JointMotion) (δ : List ℝ)
    (hδ : δ.length = ms.length) (t : ℝ) (e : Wrench) {ns : List TreeNode} (hw : ∀ n ∈ ns, n.link.seg.Wf)
    (hp : Proper ns) {x : String} {i : Inertia} (hi : i.Of (bodies x)) :
    (virtual (ms.map (·.pos t)) δ ns x).power (Link.force i
      (sweep (ms.map (·.pos t)) (ms.map (·.vel t)) (ms.map (·.acc t)) g ns x).1
      (sweep (ms.map (·.pos t)) (ms.map (·.vel t)) (ms.map (·.acc t)) g ns x).2 e) =
    work bodies g ms δ t ns x - (virtual (ms.map (·.pos t)) δ ns x).power e := by
  obtain ⟨a, ha, hga⟩ := sweep_rate hw hp ms g t x
  have hδq : δ.length = (ms.map (·.pos t)).length := by simpa using hδ
  have hbw := body_work (F := fun u => place ns (ms.map (·.pos u)) x)
    (Y := fun ε => place ns (advance (ms.map (·.pos t)) δ ε) x)
    (v := fun u => (sweep (ms.map (·.pos u)) (ms.map (·.vel u)) (ms.map (·.acc u)) g ns x).1)
    (w := virtual (ms.map (·.pos t)) δ ns x) hi
    (fun s => sweep_moves hw hp ms g s (ms.map (·.acc s)) x)
    (fun s => place_rigid hw hp _ _) ha (virtual_moves hw hp _ δ hδq x)
    (by simp only [advance_none _ _ hδq]) g e
  rw [hga]
  exact hbw

/-- What the second loop computes. -/
theorem collect_work (bodies : String → List MassPoint) (g : Vec3) (ms : List JointMotion) (δ : List ℝ)
    (hδ : δ.length = ms.length) (t : ℝ) (ext : String → Option Wrench) (ns : List TreeNode) :
    ∀ f : String → Wrench, (∀ n ∈ ns, n.link.seg.Wf) → Proper ns → (∀ n ∈ ns, n.link.inertia.Of (bodies n.name)) →
    ((collect (ms.map (·.pos t)) (ms.map (·.vel t)) (ms.map (·.acc t)) g ext ns f).map
        fun r => r.2 * δ.getD r.1 0).sum =
      ((ns.map (·.name)).map fun x => work bodies g ms δ t ns x -
        (virtual (ms.map (·.pos t)) δ ns x).power ((ext x).getD 0)).sum +
      ((ns.map (·.name)).map fun x => (virtual (ms.map (·.pos t)) δ ns x).power (f x)).sum := by
  induction ns with
  | nil => intro f _ _ _; simp [collect]
  | cons n ns ih =>
    intro f hw hp hb
    have hw' : ∀ m ∈ ns, m.link.seg.Wf := fun m hm => hw m (by simp [hm])
    have hb' : ∀ m ∈ ns, m.link.inertia.Of (bodies m.name) := fun m hm => hb m (by simp [hm])
    have hn : n.link.seg.Wf := hw n (by simp)
    have hne : ∀ x ∈ ns.map (·.name), n.name ≠ x := fun x hx e => hp.2.2.1 (e ▸ hx)
    have hnw := node_work g ms δ hδ t ((ext n.name).getD 0) hw hp (hb n (by simp))
    have hV : virtual (ms.map (·.pos t)) δ (n :: ns) n.name =
        (n.link.seg.pose (jointValue n (ms.map (·.pos t)))).invTwist (virtual (ms.map (·.pos t)) δ ns n.parent) +
          jointValue n δ • n.link.seg.unit 0 := by rw [virtual, if_pos rfl]
    -- the other ones are the same without it
    have h1 : ((ns.map (·.name)).map fun x => work bodies g ms δ t (n :: ns) x -
        (virtual (ms.map (·.pos t)) δ (n :: ns) x).power ((ext x).getD 0)) =
        (ns.map (·.name)).map fun x => work bodies g ms δ t ns x -
        (virtual (ms.map (·.pos t)) δ ns x).power ((ext x).getD 0) :=
      List.map_congr_left fun x hx => by rw [work_other _ _ _ _ _ (hne x hx), virtual_other (hne x hx)]
    have h2 : ((ns.map (·.name)).map fun x => (virtual (ms.map (·.pos t)) δ (n :: ns) x).power (f x)) =
        (ns.map (·.name)).map fun x => (virtual (ms.map (·.pos t)) δ ns x).power (f x) :=
      List.map_congr_left fun x hx => by rw [virtual_other (hne x hx)]
    rw [List.map_cons, List.map_cons, List.map_cons, List.sum_cons, List.sum_cons, h1, h2]
    set w := Link.force n.link.inertia (sweep (ms.map (·.pos t)) (ms.map (·.vel t)) (ms.map (·.acc t)) g (n :: ns) n.name).1
      (sweep (ms.map (·.pos t)) (ms.map (·.vel t)) (ms.map (·.acc t)) g (n :: ns) n.name).2 ((ext n.name).getD 0) with hwd
    set X := n.link.seg.pose (jointValue n (ms.map (·.pos t))) with hX
    have hrec := ih (fun k => if k = n.parent then f k + X.mulWrench (w + f n.name) else f k) hw' hp.2.2.2 hb'
    rw [reaction _ f _ _ _ hp.2.2.2.names] at hrec
    have hpar : (if n.parent ∈ ns.map (·.name) then
        (virtual (ms.map (·.pos t)) δ ns n.parent).power (X.mulWrench (w + f n.name)) else 0) =
        (X.invTwist (virtual (ms.map (·.pos t)) δ ns n.parent)).power (w + f n.name) := by
      rw [← power_frame]
      split_ifs with h
      · rfl
      · have hroot := hp.1.resolve_right h
        rw [hroot, virtual_root _ _ hp.2.2.2.no_root, zero_power]
    rw [hpar] at hrec
    have hS : Twist.rotate X.M.transpose (n.link.seg.twist (jointValue n (ms.map (·.pos t))) 1) = n.link.seg.unit 0 := by
      rw [hn.unit_const 0 (jointValue n (ms.map (·.pos t)))]; rfl
    have hsum : (virtual (ms.map (·.pos t)) δ (n :: ns) n.name).power (w + f n.name) =
        (work bodies g ms δ t (n :: ns) n.name - (virtual (ms.map (·.pos t)) δ (n :: ns) n.name).power ((ext n.name).getD 0)) +
          (virtual (ms.map (·.pos t)) δ (n :: ns) n.name).power (f n.name) := by
      rw [power_add, hnw]
    have hsplit : (virtual (ms.map (·.pos t)) δ (n :: ns) n.name).power (w + f n.name) =
        (X.invTwist (virtual (ms.map (·.pos t)) δ ns n.parent)).power (w + f n.name) +
          jointValue n δ * (n.link.seg.unit 0).power (w + f n.name) := by
      rw [hV, power_twist_add, power_smul]
    by_cases hm : n.link.seg.joint.type ≠ .none
    · have hc : collect (ms.map (·.pos t)) (ms.map (·.vel t)) (ms.map (·.acc t)) g ext (n :: ns) f =
          (n.qNr, (n.link.seg.unit 0).power (w + f n.name)) ::
            collect (ms.map (·.pos t)) (ms.map (·.vel t)) (ms.map (·.acc t)) g ext ns
              (fun k => if k = n.parent then f k + X.mulWrench (w + f n.name) else f k) := by
        rw [collect]
        simp only [if_pos hm]
        rw [← hX, ← hwd, hS]
      have hj : jointValue n δ = δ.getD n.qNr 0 := by rw [jointValue, if_pos hm]
      rw [hc, List.map_cons, List.sum_cons, hrec]
      simp only
      rw [← hj]
      linarith
    · have hc : collect (ms.map (·.pos t)) (ms.map (·.vel t)) (ms.map (·.acc t)) g ext (n :: ns) f =
            collect (ms.map (·.pos t)) (ms.map (·.vel t)) (ms.map (·.acc t)) g ext ns
              (fun k => if k = n.parent then f k + X.mulWrench (w + f n.name) else f k) := by
        rw [collect]
        simp only [if_neg hm]
        rw [← hX, ← hwd]
      have hj : jointValue n δ = 0 := by rw [jointValue, if_neg hm]
      rw [hc, hrec]
      rw [hj, zero_mul, add_zero] at hsplit
      linarith

theorem collect_keys (q qd qdd : List ℝ) (g : Vec3) (ext : String → Option Wrench) (ns : List TreeNode) :
    ∀ f, (collect q qd qdd g ext ns f).map (·.1) = (ns.filter fun n => n.link.Moving).map (·.qNr) := by
  induction ns with
  | nil => intro f; rfl
  | cons n ns ih =>
    intro f
    rw [collect]
    by_cases hm : n.link.Moving
    · rw [List.filter_cons_of_pos (by simpa using hm)]
      simp only [if_pos hm, List.map_cons, ih]
    · rw [List.filter_cons_of_neg (by simpa using hm)]
      simp only [if_neg hm, ih]

/-- Torques that come with their places, put in order. -/
theorem ordered (rs : List (ℕ × ℝ)) (N : ℕ) (δ : List ℝ) (hδ : δ.length = N)
    (hk : (rs.map (·.1)).reverse = List.range N) :
    (List.zipWith (· * ·) ((List.range N).map fun j => ((rs.find? (·.1 = j)).map (·.2)).getD 0) δ).sum =
      (rs.map fun r => r.2 * δ.getD r.1 0).sum := by
  have hnd : (rs.map (·.1)).Nodup := by
    rw [← List.nodup_reverse, hk]
    exact List.nodup_range
  have hfind : ∀ r ∈ rs, rs.find? (·.1 = r.1) = some r := by
    clear hk
    intro r hr
    induction rs with
    | nil => simp at hr
    | cons a rs ih =>
      rw [List.map_cons, List.nodup_cons] at hnd
      rcases List.mem_cons.mp hr with rfl | hr
      · simp
      · rw [List.find?_cons_of_neg, ih hnd.2 hr]
        intro e
        exact hnd.1 (by simpa using ⟨r.2, by rw [of_decide_eq_true e]; exact hr⟩)
  have h1 : (List.zipWith (· * ·) ((List.range N).map fun j => ((rs.find? (·.1 = j)).map (·.2)).getD 0) δ) =
      (List.range N).map fun j => ((rs.find? (·.1 = j)).map (·.2)).getD 0 * δ.getD j 0 := by
    refine List.ext_getElem (by simp [hδ]) fun i h1 h2 => ?_
    have hi : i < δ.length := by simpa [hδ] using h2
    simp [List.getD_eq_getElem?_getD, List.getElem?_eq_getElem hi]
  rw [h1, ← hk, List.map_reverse, List.sum_reverse, List.map_map]
  congr 1
  refine List.map_congr_left fun r hr => ?_
  simp only [Function.comp_apply, hfind r hr]
  rfl

/-- The work of the torques. -/
theorem rne_work {tr : Tree} (hb : tr.Built) (hw : ∀ n ∈ tr.nodes, n.link.seg.Wf) {bodies : String → List MassPoint}
    (hi : ∀ n ∈ tr.nodes, n.link.inertia.Of (bodies n.name)) (g : Vec3) (ms : List JointMotion)
    (hm : ms.length = tr.nJoints) (t : ℝ) (ext : String → Option Wrench) :
    ∃ τ, tr.rne g (ms.map (·.pos t)) (ms.map (·.vel t)) (ms.map (·.acc t)) ext = some τ ∧ τ.length = tr.nJoints ∧
      ∀ δ : List ℝ, δ.length = tr.nJoints → (List.zipWith (· * ·) τ δ).sum =
        ((tr.nodes.map (·.name)).map fun x => work bodies g ms δ t tr.nodes x -
          (virtual (ms.map (·.pos t)) δ tr.nodes x).power ((ext x).getD 0)).sum := by
  refine ⟨_, by rw [rne, if_pos (by simp [hm])], by simp, fun δ hδ => ?_⟩
  rw [ordered _ _ δ hδ (by rw [collect_keys]; exact hb.numbers),
    collect_work bodies g ms δ (by omega) t ext tr.nodes _ hw hb.proper hi]
  have : ((tr.nodes.map (·.name)).map fun x => (virtual (ms.map (·.pos t)) δ tr.nodes x).power 0).sum = 0 := by
    generalize tr.nodes.map (·.name) = xs
    induction xs with
    | nil => rfl
    | cons x xs ih => simp only [List.map_cons, List.sum_cons, ih]; simp [Twist.power, dot]
  rw [this, add_zero]

end Tree

end KD
