import Verif.Kdl.Tree
import Verif.Kdl.Lemmas

/-!
# Lemmas about kinematic trees
-/

namespace KD

namespace Tree

/-- Does the segment have a joint that moves? -/
abbrev _root_.KD.Link.Moving (l : Link) : Prop := l.seg.joint.type ≠ .none

/-- Number of joints of a list of links. -/
def moving (ls : List Link) : ℕ := (ls.filter fun l => l.Moving).length

theorem moving_cons (l : Link) (ls : List Link) : moving (l :: ls) = (if l.Moving then 1 else 0) + moving ls := by
  unfold moving
  by_cases h : l.Moving
  · rw [List.filter_cons_of_pos (by simpa using h), List.length_cons, if_pos h, Nat.add_comm]
  · rw [List.filter_cons_of_neg (by simpa using h), if_neg h, Nat.zero_add]

theorem moving_nil : moving [] = 0 := rfl

theorem moving_append (a b : List Link) : moving (a ++ b) = moving a + moving b := by
  unfold moving
  rw [List.filter_append, List.length_append]

/-- The pose of links one after another, with the joints numbered from `n` on. -/
noncomputable def poseOf (q : List ℝ) : ℕ → List Link → Frame
  | _, [] => 1
  | n, l :: ls => if l.Moving then l.seg.pose (q.getD n 0) * poseOf q (n + 1) ls else l.seg.pose 0 * poseOf q n ls

/-- Every segment has a pose. -/
def Good (t : Tree) : Prop := ∀ q m, t.Has m → ∃ F, fkLoop q t.nodes m = some F

theorem empty_good : Good empty := by
  intro q m h
  rcases h with rfl | ⟨n, hn, _⟩
  · exact ⟨1, rfl⟩
  · cases hn

theorem empty_has (m : String) : empty.Has m ↔ m = "root" := by simp [empty, Has]

theorem root_fk (t : Tree) (h : ∀ n ∈ t.nodes, n.name ≠ "root") (q : List ℝ) : fkLoop q t.nodes "root" = some 1 := by
  obtain ⟨ns, k⟩ := t
  induction ns with
  | nil => rfl
  | cons n ns ih =>
    rw [fkLoop, if_neg (h n (by simp))]
    exact ih (fun m hm => h m (by simp at hm ⊢; exact Or.inr hm))

/-- A segment has been added. -/
theorem addSegment_spec {t t' : Tree} {name hook : String} {l : Link} (h : t.addSegment name l hook = some t') :
    t.Has hook ∧ ¬ t.Has name ∧ (∀ m, t'.Has m ↔ t.Has m ∨ m = name) ∧
      t'.nJoints = t.nJoints + moving [l] ∧
      (∀ q m, t.Has m → fkLoop q t'.nodes m = fkLoop q t.nodes m) ∧
      (∀ q, fkLoop q t'.nodes name = (fkLoop q t.nodes hook).map (· * poseOf q t.nJoints [l])) ∧
      (Good t → Good t') ∧ ∃ k, t'.nodes = ⟨name, hook, l, k⟩ :: t.nodes ∧ (l.Moving → k = t.nJoints) := by
  unfold addSegment at h
  by_cases h1 : ¬ t.Has hook
  · rw [if_pos h1] at h; cases h
  rw [if_neg h1] at h
  push Not at h1
  by_cases h2 : t.Has name
  · rw [if_pos h2] at h; cases h
  rw [if_neg h2] at h
  have key : ∀ k n', t' = ⟨⟨name, hook, l, k⟩ :: t.nodes, n'⟩ → n' = t.nJoints + moving [l] →
      (l.Moving → k = t.nJoints) → t.Has hook ∧ ¬ t.Has name ∧ (∀ m, t'.Has m ↔ t.Has m ∨ m = name) ∧
      t'.nJoints = t.nJoints + moving [l] ∧
      (∀ q m, t.Has m → fkLoop q t'.nodes m = fkLoop q t.nodes m) ∧
      (∀ q, fkLoop q t'.nodes name = (fkLoop q t.nodes hook).map (· * poseOf q t.nJoints [l])) ∧
      (Good t → Good t') ∧ ∃ k, t'.nodes = ⟨name, hook, l, k⟩ :: t.nodes ∧ (l.Moving → k = t.nJoints) := by
    intro k n' e1 e2 e3
    have a1 : ∀ m, t'.Has m ↔ t.Has m ∨ m = name := by
      intro m
      rw [e1]
      simp only [Has, List.mem_cons, exists_eq_or_imp]
      rw [or_assoc, or_comm (a := name = m), @eq_comm _ name m]
    have a2 : ∀ q m, t.Has m → fkLoop q t'.nodes m = fkLoop q t.nodes m := by
      intro q m hm
      rw [e1]
      simp only [fkLoop]
      rw [if_neg]
      intro e
      exact h2 (e ▸ hm)
    have a3 : ∀ q, fkLoop q t'.nodes name = (fkLoop q t.nodes hook).map (· * poseOf q t.nJoints [l]) := by
      intro q
      rw [e1]
      simp only [fkLoop, if_true, poseOf, jointValue]
      by_cases hm : l.Moving
      · rw [if_pos hm, if_pos hm, e3 hm]
        simp
      · rw [if_neg hm, if_neg hm, mul_one]
    refine ⟨h1, h2, a1, by rw [e1]; exact e2, a2, a3, ?_, k, by rw [e1], e3⟩
    intro hg q m hm
    rcases (a1 m).mp hm with hm | rfl
    · rw [a2 q m hm]; exact hg q m hm
    · obtain ⟨F, hF⟩ := hg q hook h1
      exact ⟨_, by rw [a3, hF]; rfl⟩
  by_cases hm : l.Moving
  · rw [if_pos hm] at h
    exact key t.nJoints _ (Option.some.inj h).symm (by rw [moving_cons, if_pos hm, moving_nil]) (fun _ => rfl)
  · rw [if_neg hm] at h
    exact key 0 _ (Option.some.inj h).symm (by rw [moving_cons, if_neg hm, moving_nil]; rfl) (fun e => absurd e hm)

theorem addSegment_some {t : Tree} {name hook : String} (l : Link) (h1 : t.Has hook) (h2 : ¬ t.Has name) :
    ∃ t', t.addSegment name l hook = some t' := by
  unfold addSegment
  rw [if_neg (not_not.mpr h1), if_neg h2]
  split_ifs <;> exact ⟨_, rfl⟩

/-- When a chain can be added. -/
theorem addChain_iff : ∀ (segs : List (String × Link)) (t : Tree) (hook : String), segs ≠ [] →
    ((t.addChain segs hook).1 = true ↔ t.Has hook ∧ (segs.map (·.1)).Nodup ∧ ∀ x ∈ segs, ¬ t.Has x.1) := by
  intro segs
  induction segs with
  | nil => intro t hook h; exact absurd rfl h
  | cons s segs ih =>
    intro t hook _
    obtain ⟨name, l⟩ := s
    rw [addChain]
    cases ha : t.addSegment name l hook with
    | none =>
      simp only
      refine iff_of_false (by simp) ?_
      rintro ⟨h1, h2, h3⟩
      obtain ⟨t', ht⟩ := addSegment_some l h1 (h3 (name, l) (by simp))
      rw [ha] at ht
      cases ht
    | some t' =>
      simp only
      obtain ⟨h1, h2, h3, -⟩ := addSegment_spec ha
      cases segs with
      | nil =>
        simp only [addChain, List.map_cons, List.map_nil, List.mem_singleton, forall_eq, true_iff]
        exact ⟨h1, by simp, h2⟩
      | cons s' segs =>
        rw [ih t' name (by simp)]
        have hn : t'.Has name := (h3 name).mpr (Or.inr rfl)
        constructor
        · rintro ⟨-, a2, a3⟩
          refine ⟨h1, ?_, ?_⟩
          · rw [List.map_cons, List.nodup_cons]
            refine ⟨?_, a2⟩
            intro hmem
            obtain ⟨x, hx, e⟩ := List.mem_map.mp hmem
            exact a3 x hx (e ▸ hn)
          · intro x hx
            rcases List.mem_cons.mp hx with rfl | hx
            · exact h2
            · exact fun hh => a3 x hx ((h3 _).mpr (Or.inl hh))
        · rintro ⟨-, a2, a3⟩
          rw [List.map_cons, List.nodup_cons] at a2
          refine ⟨hn, a2.2, ?_⟩
          intro x hx hh
          rcases (h3 _).mp hh with hh | hh
          · exact a3 x (List.mem_cons_of_mem _ hx) hh
          · exact a2.1 (List.mem_map.mpr ⟨x, hx, hh⟩)

/-- A chain has been added. -/
theorem addChain_spec : ∀ (segs : List (String × Link)) (t t' : Tree) (hook : String),
    t.addChain segs hook = (true, t') →
    (∀ m, t'.Has m ↔ t.Has m ∨ m ∈ segs.map (·.1)) ∧
      t'.nJoints = t.nJoints + moving (segs.map (·.2)) ∧
      (∀ q m, t.Has m → fkLoop q t'.nodes m = fkLoop q t.nodes m) ∧
      (∀ q i x, segs[i]? = some x → fkLoop q t'.nodes x.1 =
        (fkLoop q t.nodes hook).map (· * poseOf q t.nJoints ((segs.take (i + 1)).map (·.2)))) ∧
      (Good t → Good t') := by
  intro segs
  induction segs with
  | nil =>
    intro t t' hook h
    simp only [addChain, Prod.mk.injEq, true_and] at h
    subst h
    simp [moving_nil]
  | cons s segs ih =>
    intro t t' hook h
    obtain ⟨name, l⟩ := s
    rw [addChain] at h
    cases ha : t.addSegment name l hook with
    | none => rw [ha] at h; simp at h
    | some t1 =>
      rw [ha] at h
      simp only at h
      obtain ⟨h1, h2, h3, h4, h5, h6, h7, -⟩ := addSegment_spec ha
      obtain ⟨g1, g2, g3, g4, g5⟩ := ih t1 t' name h
      refine ⟨?_, ?_, ?_, ?_, fun hg => g5 (h7 hg)⟩
      · intro m
        rw [g1, h3, List.map_cons, List.mem_cons]
        tauto
      · rw [g2, h4, List.map_cons, moving_cons l (List.map _ _), moving_cons, moving_nil]
        omega
      · intro q m hm
        rw [g3 q m ((h3 m).mpr (Or.inl hm)), h5 q m hm]
      · intro q i x hi
        cases i with
        | zero =>
          simp only [List.getElem?_cons_zero, Option.some.injEq] at hi
          subst hi
          rw [g3 q name ((h3 name).mpr (Or.inr rfl)), h6]
          rfl
        | succ i =>
          rw [List.getElem?_cons_succ] at hi
          rw [g4 q i x hi, h6, Option.map_map, List.take_succ_cons, List.map_cons]
          congr 1
          funext F
          simp only [Function.comp_apply, poseOf]
          by_cases hm : l.Moving
          · rw [h4, moving_cons, if_pos hm, moving_nil, if_pos hm, if_pos hm, mul_one, Nat.add_zero, mul_assoc]
          · rw [h4, moving_cons, if_neg hm, moving_nil, if_neg hm, if_neg hm, mul_one, Nat.add_zero, mul_assoc]

theorem addChain_true {segs : List (String × Link)} {t : Tree} {hook : String}
    (h : (t.addChain segs hook).1 = true) : ∃ t', t.addChain segs hook = (true, t') :=
  ⟨(t.addChain segs hook).2, by rw [← h]⟩

end Tree

end KD
