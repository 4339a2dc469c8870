import Verif.Screw.Signature
import Verif.Screw.BuilderSearch

/-!
# The search without coordinates is the search of the builder
-/

namespace KD.Sig

open Builder

open scoped Classical

/-- On which axes of rotation a point lies. -/
noncomputable def mark (es : List MatrixExp) (p : Vec3) : Mark :=
  es.map fun e => decide (e.motion = .rotation ∧ liesOnAxis e p)

/-- The table tells how the axes are placed. -/
structure Tells (T : Tab) (es : List MatrixExp) : Prop where
  rot : T.rot = es.map fun e => decide (e.motion = .rotation)
  par : ∀ (i j : ℕ) (e f : MatrixExp), es[i]? = some e → es[j]? = some f → (T.par i j = true ↔ parallelAxes e f)
  perp : ∀ (i j : ℕ) (e f : MatrixExp), es[i]? = some e → es[j]? = some f → (T.perp i j = true ↔ perpendicularAxes e f)
  col : ∀ (i j : ℕ) (e f : MatrixExp), es[i]? = some e → es[j]? = some f → (T.col i j = true ↔ colinearAxes e f)
  meet : ∀ (i j : ℕ) (e f : MatrixExp), es[i]? = some e → es[j]? = some f →
    (T.meet i j = true ↔ (intersectingAxes e f).isSome = true)

theorem markWhile_eq (p : Vec3) (l : List (MatrixExp × PoeTerm)) :
    markWhileOnAxis p l =
      markWhile (l.map (Prod.map (fun e => decide (e.motion = .rotation ∧ liesOnAxis e p)) id)) := by
  induction l with
  | nil => rfl
  | cons a l ih =>
    obtain ⟨e, t⟩ := a
    simp only [markWhileOnAxis, markWhile, List.map_cons, Prod.map, decide_eq_true_iff, id]
    split_ifs
    · rw [ih]
    · simp

theorem markFrom_eq (p : Vec3) (l : List (MatrixExp × PoeTerm)) :
    markFromUnknown p l =
      markFrom (l.map (Prod.map (fun e => decide (e.motion = .rotation ∧ liesOnAxis e p)) id)) := by
  induction l with
  | nil => rfl
  | cons a l ih =>
    obtain ⟨e, t⟩ := a
    unfold markFromUnknown
    rw [List.map_cons]
    simp only [Prod.map, markFrom, id]
    split_ifs
    · rw [markWhile_eq]; rfl
    · rw [ih]

theorem zip_mark (es : List MatrixExp) (p : Vec3) (ts : List PoeTerm) :
    (mark es p).zip ts =
      (es.zip ts).map (Prod.map (fun e => decide (e.motion = .rotation ∧ liesOnAxis e p)) id) := by
  rw [mark, List.zip_map_left]

theorem sameMotion (a b : Motion) : (decide (a = .rotation) = decide (b = .rotation)) ↔ a = b := by
  cases a <;> cases b <;> simp

theorem not_rot (e : MatrixExp) : (decide (e.motion = .rotation) = false) ↔ e.motion = .translation := by
  cases e.motion <;> simp

theorem mark_get {es : List MatrixExp} {i : ℕ} {e : MatrixExp} (he : es[i]? = some e) (p : Vec3) :
    ((mark es p)[i]?).getD false = decide (e.motion = .rotation ∧ liesOnAxis e p) := by
  rw [mark, List.getElem?_map, he]; rfl

section

variable {T : Tab} {es : List MatrixExp} (h : Tells T es)

include h

theorem rot_get (i : ℕ) : T.rot[i]? = (es[i]?).map fun e => decide (e.motion = .rotation) := by
  rw [h.rot, List.getElem?_map]

theorem planar_eq (i j : ℕ) : rel es planarMovement i j = T.planar i j := by
  unfold rel Tab.planar
  rw [rot_get h, rot_get h]
  cases he : es[i]? with
  | none => rfl
  | some e =>
    cases hf : es[j]? with
    | none => rfl
    | some f =>
      simp only [Option.map_some]
      rw [Bool.eq_iff_iff, decide_eq_true_iff]
      unfold planarMovement
      by_cases hm : e.motion = f.motion
      · rw [if_pos hm, if_pos ((sameMotion _ _).mpr hm), h.par i j e f he hf]
      · rw [if_neg hm, if_neg (by rwa [sameMotion]), h.perp i j e f he hf]

theorem normal_eq (i j : ℕ) : rel es normalPlaneMovement i j = T.normal i j := by
  unfold rel Tab.normal
  rw [rot_get h, rot_get h]
  cases he : es[i]? with
  | none => rfl
  | some e =>
    cases hf : es[j]? with
    | none => rfl
    | some f =>
      simp only [Option.map_some]
      rw [Bool.eq_iff_iff, decide_eq_true_iff]
      unfold normalPlaneMovement
      by_cases hm : e.motion = f.motion
      · rw [if_pos hm, if_pos ((sameMotion _ _).mpr hm), h.perp i j e f he hf]
      · rw [if_neg hm, if_neg (by rwa [sameMotion]), h.par i j e f he hf]

theorem planarDown_eq (i k : ℕ) : planarDown es i k = T.planarDown i k := by
  induction k with
  | zero => exact normal_eq h _ _
  | succ k ih => simp only [planarDown, Tab.planarDown, ih, planar_eq h]

theorem planarUp_eq (i k : ℕ) : planarUp es i k = T.planarUp i k := by
  induction k with
  | zero => exact normal_eq h _ _
  | succ k ih => simp only [planarUp, Tab.planarUp, ih, planar_eq h]

theorem simplifyPG1_eq (ts : List PoeTerm) : simplifyPG1 es ts = T.simplifyPG1 ts := by
  unfold simplifyPG1 Tab.simplifyPG1
  dsimp only
  rw [rot_get h, rot_get h]
  by_cases h1 : lastOpen ts ≤ ts.findIdx PoeTerm.open_ + 1
  · rw [if_pos h1, if_pos h1]
  · rw [if_neg h1, if_neg h1]
    cases es[ts.findIdx PoeTerm.open_]? with
    | none => rfl
    | some e =>
      cases es[lastOpen ts - 1]? with
      | none => rfl
      | some f => simp only [Option.map_some, planarDown_eq h, planarUp_eq h, not_rot]

theorem simplify_eq (d : ℕ) (p q : Vec3) (ts : List PoeTerm) :
    simplify es d p q ts = T.simplify d (mark es p) (mark es q) ts := by
  unfold simplify Tab.simplify simplifyPK1 simplifyPK3
  dsimp only
  rw [zip_mark es p ts, ← List.map_reverse, ← markFrom_eq, zip_mark, ← markFrom_eq, simplifyPG1_eq h]
  split_ifs with h1 h2 h3 h3
  · rfl
  · rfl
  · exfalso
    apply h3
    obtain ⟨e, he, hm⟩ := h2
    rw [h.rot, List.any_map, List.any_eq_true]
    exact ⟨e, he, by simp [hm]⟩
  · exfalso
    apply h2
    rw [h.rot, List.any_map, List.any_eq_true] at h3
    obtain ⟨e, he, hm⟩ := h3
    exact ⟨e, he, (not_rot e).mp (by simpa using hm)⟩
  · rfl

theorem trySolve_eq (d : ℕ) (p q : Vec3) (ts : List PoeTerm) :
    (trySolve es d p q ts).map (fun r => (r.1.count, r.2)) = T.trySolve d (mark es p) (mark es q) ts := by
  unfold trySolve Tab.trySolve
  dsimp only
  simp only [Bool.or_eq_true, decide_eq_true_iff]
  by_cases hu : ts.countP PoeTerm.open_ = 0 ∨ ts.countP PoeTerm.open_ > 2
  · rw [if_pos hu, if_pos hu]; rfl
  rw [if_neg hu, if_neg hu, rot_get h, rot_get h]
  cases he : es[lastOpen ts - 1]? with
  | none => rfl
  | some e =>
    simp only [Option.map_some, mark_get he]
    by_cases h1 : ts.countP PoeTerm.open_ = 1
    · rw [if_pos h1, if_pos h1]
      cases hm : e.motion
      · by_cases hp : liesOnAxis e p <;> by_cases hq : liesOnAxis e q <;> simp only [hp, hq] <;>
          split_ifs <;> simp_all [Subproblem.count]
      · simp only [reduceCtorEq, false_and, if_false, decide_false, Bool.false_and, Bool.not_false, if_true,
          Bool.false_eq_true]
        split_ifs <;> rfl
    · rw [if_neg h1, if_neg h1]
      cases ts[lastOpen ts - 1 - 1]? with
      | none => rfl
      | some t =>
        cases hf : es[lastOpen ts - 1 - 1]? with
        | none => rfl
        | some f =>
          simp only [Option.map_some]
          have hp := h.par _ _ e f he hf
          have hc := h.col _ _ e f he hf
          have hi := h.meet _ _ e f he hf
          by_cases h2 : t.open_ = false
          · rw [if_pos h2, if_pos h2]; rfl
          rw [if_neg h2, if_neg h2]
          by_cases h3 : d = 0
          swap
          · rw [if_neg h3, if_neg h3]; rfl
          rw [if_pos h3, if_pos h3]
          cases hm : e.motion <;> cases hm' : f.motion <;>
            simp only [reduceCtorEq, false_and, and_false, if_false, decide_false, decide_true, Bool.false_and, Bool.and_false,
              Bool.not_false, Bool.not_true, Bool.true_and, true_and, if_true, Bool.false_eq_true, Bool.and_eq_true,
              Bool.not_eq_true', ← Bool.not_eq_true, hp, hc, hi]
          · by_cases hpar : parallelAxes e f
            · simp only [hpar, not_true_eq_false, false_and, if_false, true_and]
              split_ifs <;> rfl
            · simp only [hpar, not_false_eq_true, true_and, false_and, if_false]
              cases intersectingAxes e f <;> rfl
          · rfl
          · rfl
          · split_ifs <;> rfl

end

end KD.Sig
