import Verif.Screw.SignatureSearch
import Verif.Screw.Exact

/-!
# Arms with rational axes

What the builder finds for an arm whose axes, origins and tool have rational coordinates, whatever numbers are drawn.
-/

namespace KD.Sig

open Builder Exact

open scoped Classical

/-- A joint. -/
structure J where
  rot : Bool
  e : E
  deriving DecidableEq

namespace J

/-- The exponential of `Screw/MatrixExponential.lean`. -/
noncomputable def real (j : J) : MatrixExp :=
  ⟨if j.rot then .rotation else .translation, j.e.axis.real, j.e.origin.real⟩

theorem motion_iff (j : J) : j.real.motion = .rotation ↔ j.rot = true := by
  unfold real; cases j.rot <;> simp

theorem on_iff (j : J) (p : V) : on j.e p = true ↔ liesOnAxis j.real p.real := Exact.on_iff j.e p

theorem par_iff (a b : J) : par a.e b.e = true ↔ parallelAxes a.real b.real := Exact.par_iff a.e b.e

theorem col_iff (a b : J) : col a.e b.e = true ↔ colinearAxes a.real b.real := Exact.col_iff a.e b.e

theorem meet_real (a b : J) : intersectingAxes a.real b.real = (meet a.e b.e).map V.real := Exact.meet_real a.e b.e

theorem perp_iff (a b : J) : near (a.e.axis.dot b.e.axis) 0 = true ↔ perpendicularAxes a.real b.real := by
  rw [near_iff, V.real_dot, Rat.cast_zero]; rfl

end J

/-- A relation between joints, by index. -/
def at2 (js : List J) (r : J → J → Bool) (i j : ℕ) : Bool :=
  match js[i]?, js[j]? with
  | some a, some b => r a b
  | _, _ => false

/-- What the builder asks about the axes. -/
def tab (js : List J) : Tab where
  rot := js.map J.rot
  par := at2 js fun a b => par a.e b.e
  perp := at2 js fun a b => near (a.e.axis.dot b.e.axis) 0
  col := at2 js fun a b => col a.e b.e
  meet := at2 js fun a b => (meet a.e b.e).isSome

theorem at2_iff {js : List J} {r : J → J → Bool} {P : MatrixExp → MatrixExp → Prop}
    (h : ∀ a b : J, r a b = true ↔ P a.real b.real) (i j : ℕ) (e f : MatrixExp) (he : (js.map J.real)[i]? = some e)
    (hf : (js.map J.real)[j]? = some f) : at2 js r i j = true ↔ P e f := by
  rw [List.getElem?_map, Option.map_eq_some_iff] at he hf
  obtain ⟨a, ha, rfl⟩ := he
  obtain ⟨b, hb, rfl⟩ := hf
  simp only [at2, ha, hb, h]

theorem tab_tells (js : List J) : Tells (tab js) (js.map J.real) where
  rot := by
    rw [tab, List.map_map]
    apply List.map_congr_left
    intro j _
    rw [Bool.eq_iff_iff, Function.comp, decide_eq_true_iff, J.motion_iff]
  par := at2_iff J.par_iff
  perp := at2_iff J.perp_iff
  col := at2_iff J.col_iff
  meet := at2_iff fun a b => by rw [J.meet_real, Option.isSome_map]

/-- On which axes a point lies. -/
def markOf (js : List J) (p : V) : Mark := js.map fun j => j.rot && on j.e p

theorem mark_real (js : List J) (p : V) : mark (js.map J.real) p.real = markOf js p := by
  rw [mark, List.map_map]
  apply List.map_congr_left
  intro j _
  rw [Bool.eq_iff_iff, Function.comp, decide_eq_true_iff, Bool.and_eq_true, J.motion_iff, J.on_iff]

/-- On which axes a point drawn on an axis lies, if it is on none that it need not be on. -/
def drawnMark (js : List J) (a : J) : Mark := js.map fun j => j.rot && par j.e a.e && on j.e a.e.origin

/-- `addIntersections`. -/
def addIntersections (e : J) (es : List J) (set : List V) : List V :=
  es.foldl (fun set f =>
    if !f.rot || par e.e f.e || col e.e f.e then set
    else match meet e.e f.e with
      | some p => (Exact.insert p set).1
      | none => set) set

theorem addIntersections_real (e : J) (es : List J) (set : List V) :
    Builder.addIntersections e.real (es.map J.real) (set.map V.real) = (addIntersections e es set).map V.real := by
  unfold Builder.addIntersections addIntersections
  induction es generalizing set with
  | nil => rfl
  | cons f es ih =>
    simp only [List.map_cons, List.foldl_cons]
    rw [← ih]
    congr 1
    have hm : (f.real.motion ≠ .rotation ∨ parallelAxes e.real f.real ∨ colinearAxes e.real f.real) ↔
        ((!f.rot || par e.e f.e || col e.e f.e) = true) := by
      rw [← J.par_iff, ← J.col_iff, Ne, J.motion_iff, Bool.or_eq_true, Bool.or_eq_true, or_assoc, Bool.not_eq_true,
        Bool.not_eq_true']
    rw [J.meet_real]
    by_cases h : (!f.rot || par e.e f.e || col e.e f.e) = true
    · rw [if_pos h, if_pos (hm.mpr h)]
    · rw [if_neg h, if_neg (fun h' => h (hm.mp h'))]
      cases meet e.e f.e with
      | none => rfl
      | some p => simp only [Option.map_some, insert_real]

/-- `addAxes`. -/
def addAxes (es : List J) (set : List V) : List V :=
  es.foldl (fun set e => if e.rot then addIntersections e es.tail (Exact.insert e.e.origin set).1 else set) set

theorem addAxes_real (es : List J) (set : List V) :
    Builder.addAxes (es.map J.real) (set.map V.real) = (addAxes es set).map V.real := by
  unfold Builder.addAxes addAxes
  rw [← List.map_tail]
  generalize es.tail = tl
  induction es generalizing set with
  | nil => rfl
  | cons e es ih =>
    simp only [List.map_cons, List.foldl_cons]
    rw [← ih]
    congr 1
    by_cases h : e.rot = true
    · rw [if_pos h, if_neg (not_not.mpr ((J.motion_iff e).mpr h)), ← addIntersections_real]
      congr 1
      rw [show e.real.origin = e.e.origin.real from rfl, insert_real]
    · rw [if_neg h, if_pos (fun h' => h ((J.motion_iff e).mp h'))]

/-- The points that are there whatever is drawn. -/
def fixed (js : List J) : List V := addAxes js [zero]

theorem fixed_real (js : List J) :
    Builder.addAxes (js.map J.real) (insertPoint 0 []).1 = (fixed js).map V.real := by
  rw [fixed, ← addAxes_real]
  congr 1
  simp [insertPoint, real_zero]

/-! ### The points drawn -/

theorem mem_insert_of_mem {p q : Vec3} {l : List Vec3} (h : q ∈ l) : q ∈ (insertPoint p l).1 := by
  induction l with
  | nil => cases h
  | cons a l ih =>
    unfold insertPoint
    dsimp only
    split_ifs
    · rcases List.mem_cons.mp h with rfl | h
      · exact List.mem_cons_self
      · exact List.mem_cons_of_mem _ (ih h)
    · exact List.mem_cons_of_mem _ h
    · exact h

theorem mem_insert_self {p : Vec3} {l : List Vec3} (h : (insertPoint p l).2 = true) : p ∈ (insertPoint p l).1 := by
  induction l with
  | nil => simp [insertPoint]
  | cons a l ih =>
    unfold insertPoint at h ⊢
    dsimp only at h ⊢
    split_ifs at h ⊢
    · exact List.mem_cons_of_mem _ (ih h)
    · exact List.mem_cons_self

theorem mem_of_mem_insert {p q : Vec3} {l : List Vec3} (h : q ∈ (insertPoint p l).1) : q = p ∨ q ∈ l := by
  induction l with
  | nil => exact Or.inl (by simpa [insertPoint] using h)
  | cons a l ih =>
    unfold insertPoint at h
    dsimp only at h
    split_ifs at h
    · rcases List.mem_cons.mp h with rfl | h
      · exact Or.inr List.mem_cons_self
      · exact (ih h).imp_right (List.mem_cons_of_mem _)
    · exact List.mem_cons.mp h
    · exact Or.inr h

theorem addRandom_spec (rnd : ℕ → ℝ) (es : List MatrixExp) : ∀ (k k' : ℕ) (set set' : List Vec3),
    Builder.addRandom rnd es k set = some (k', set') →
    (∀ p ∈ set, p ∈ set') ∧
    (∀ e ∈ es, e.motion = .rotation → ∃ n, drawn rnd e n ∈ set') ∧
    ∀ p ∈ set', p ∈ set ∨ ∃ e ∈ es, e.motion = .rotation ∧ ∃ n, p = drawn rnd e n := by
  induction es with
  | nil =>
    intro k k' set set' h
    obtain ⟨-, rfl⟩ := Prod.mk.inj (Option.some.inj h)
    exact ⟨fun p hp => hp, by simp, fun p hp => Or.inl hp⟩
  | cons e es ih =>
    intro k k' set set' h
    unfold Builder.addRandom at h
    split_ifs at h with h1 h2
    · obtain ⟨a, b, c⟩ := ih _ _ _ _ h
      refine ⟨a, fun f hf hm => ?_, fun p hp => ?_⟩
      · rcases List.mem_cons.mp hf with rfl | hf
        · exact absurd hm h1
        · exact b f hf hm
      · exact (c p hp).imp_right fun ⟨f, hf, hr⟩ => ⟨f, List.mem_cons_of_mem _ hf, hr⟩
    · obtain ⟨a, b, c⟩ := ih _ _ _ _ h
      refine ⟨fun p hp => a p (mem_insert_of_mem hp), fun f hf hm => ?_, fun p hp => ?_⟩
      · rcases List.mem_cons.mp hf with rfl | hf
        · exact ⟨_, a _ (mem_insert_self (Nat.find_spec h2))⟩
        · exact b f hf hm
      · rcases c p hp with hp | ⟨f, hf, hr⟩
        · rcases mem_of_mem_insert hp with rfl | hp
          · exact Or.inr ⟨e, List.mem_cons_self, not_not.mp h1, _, rfl⟩
          · exact Or.inl hp
        · exact Or.inr ⟨f, List.mem_cons_of_mem _ hf, hr⟩

end KD.Sig

namespace KD

open Builder

/-- No number drawn puts a point of an axis on an axis that is not parallel to it. -/
def OffCrossings (rnd : ℕ → ℝ) (poe : Poe) : Prop :=
  ∀ (n : ℕ), ∀ e ∈ poe.exps, ∀ f ∈ poe.exps, e.motion = .rotation → f.motion = .rotation → ¬ parallelAxes f e →
    ¬ liesOnAxis f (drawn rnd e n)

end KD

namespace KD.Sig

open Builder Exact

open scoped Classical

/-- Axes that are parallel for the builder are parallel. -/
def straight (js : List J) : Bool :=
  js.all fun a => js.all fun b => !par a.e b.e || decide (a.e.axis.cross b.e.axis = zero)

/-- The kinds of points that are there whatever is drawn. -/
def sure (js : List J) : List Mark := ((fixed js).map (markOf js) ++ (js.filter J.rot).map (drawnMark js)).dedup

/-- The kinds of points that there may be. -/
def may (js : List J) (tool : V) : List Mark := (sure js ++ [markOf js tool]).dedup

theorem drawn_mark {js : List J} (hs : straight js = true) {rnd : ℕ → ℝ} {H : Frame}
    (hc : OffCrossings rnd ⟨js.map J.real, H⟩) {a : J} (ha : a ∈ js) (hr : a.rot = true) (n : ℕ) :
    mark (js.map J.real) (drawn rnd a.real n) = drawnMark js a := by
  rw [mark, List.map_map]
  apply List.map_congr_left
  intro j hj
  rw [Bool.eq_iff_iff, Function.comp, decide_eq_true_iff, Bool.and_eq_true, Bool.and_eq_true, J.motion_iff, and_assoc]
  refine and_congr_right fun hjr => ?_
  by_cases hp : par j.e a.e = true
  · have hx : j.e.axis.cross a.e.axis = zero := by
      have := List.all_eq_true.mp (List.all_eq_true.mp hs j hj) a ha
      rw [hp] at this
      simpa using this
    have hx' : Vec3.cross a.e.axis.real j.e.axis.real = 0 := by
      have h1 : Vec3.cross j.e.axis.real a.e.axis.real = 0 := by rw [← V.real_cross, hx, real_zero]
      have h2 := congrArg Vec3.x h1
      have h3 := congrArg Vec3.y h1
      have h4 := congrArg Vec3.z h1
      simp only [Vec3.cross_x, Vec3.cross_y, Vec3.cross_z, Vec3.zero_x, Vec3.zero_y, Vec3.zero_z] at h2 h3 h4
      ext <;> simp <;> linarith
    rw [and_iff_right hp, J.on_iff]
    have : Vec3.cross (drawn rnd a.real n - j.real.origin) j.real.axis =
        Vec3.cross (a.e.origin.real - j.real.origin) j.real.axis := by
      have h2 := congrArg Vec3.x hx'
      have h3 := congrArg Vec3.y hx'
      have h4 := congrArg Vec3.z hx'
      simp only [Vec3.cross_x, Vec3.cross_y, Vec3.cross_z, Vec3.zero_x, Vec3.zero_y, Vec3.zero_z] at h2 h3 h4
      ext <;> simp [drawn, J.real]
      · linear_combination rnd n * h2
      · linear_combination rnd n * h3
      · linear_combination rnd n * h4
    unfold liesOnAxis
    rw [this]
  · constructor
    · intro hl
      exact absurd hl (hc n _ (List.mem_map_of_mem ha) _ (List.mem_map_of_mem hj) ((J.motion_iff a).mpr hr)
        ((J.motion_iff j).mpr hjr) (by rwa [← J.par_iff]))
    · intro h
      exact absurd h.1 hp

theorem points_cover {js : List J} (hs : straight js = true) {rnd : ℕ → ℝ} {H : Frame} {tool : V} (ht : H.p = tool.real)
    (hc : OffCrossings rnd ⟨js.map J.real, H⟩) {k k' : ℕ} {pts : List Vec3}
    (h : Builder.searchPoints rnd k ⟨js.map J.real, H⟩ = some (k', pts)) :
    Covers (js.map J.real) pts (sure js) (may js tool) := by
  unfold Builder.searchPoints at h
  simp only [Option.bind_eq_bind, Option.bind_eq_some_iff] at h
  obtain ⟨⟨k1, set⟩, h1, h2⟩ := h
  obtain ⟨-, rfl⟩ := Prod.mk.inj (Option.some.inj h2)
  rw [fixed_real] at h1
  obtain ⟨a, b, c⟩ := addRandom_spec _ _ _ _ _ _ h1
  have hsm : ∀ m ∈ sure js, m ∈ may js tool := by
    intro m hm
    rw [may, List.mem_dedup]
    exact List.mem_append_left _ hm
  constructor
  · intro m hm
    rw [sure, List.mem_dedup, List.mem_append] at hm
    rcases hm with hm | hm
    · obtain ⟨p, hp, rfl⟩ := List.mem_map.mp hm
      exact ⟨p.real, mem_insert_of_mem (a _ (List.mem_map_of_mem hp)), mark_real js p⟩
    · obtain ⟨j, hj, rfl⟩ := List.mem_map.mp hm
      obtain ⟨hj, hr⟩ := List.mem_filter.mp hj
      obtain ⟨n, hn⟩ := b _ (List.mem_map_of_mem hj) ((J.motion_iff j).mpr hr)
      exact ⟨_, mem_insert_of_mem hn, drawn_mark hs hc hj hr n⟩
  · intro p hp
    rcases mem_of_mem_insert hp with rfl | hp
    · rw [show (⟨js.map J.real, H⟩ : Poe).tool.p = tool.real from ht, mark_real, may, List.mem_dedup]
      exact List.mem_append_right _ (List.mem_singleton_self _)
    · apply hsm
      rw [sure, List.mem_dedup, List.mem_append]
      rcases c p hp with hp | ⟨e, he, hm, n, rfl⟩
      · obtain ⟨v, hv, rfl⟩ := List.mem_map.mp hp
        rw [mark_real]
        exact Or.inl (List.mem_map_of_mem hv)
      · obtain ⟨j, hj, rfl⟩ := List.mem_map.mp he
        have hr := (J.motion_iff j).mp hm
        rw [drawn_mark hs hc hj hr]
        exact Or.inr (List.mem_map_of_mem (List.mem_filter.mpr ⟨hj, hr⟩))

/-! ### Arms -/

/-- An arm: joints, the rows of the rotation of the tool, and where the tool is. -/
structure Arm where
  joints : List J
  x : V
  y : V
  z : V
  p : V

namespace Arm

noncomputable def real (a : Arm) : Poe :=
  ⟨a.joints.map J.real, ⟨⟨a.x.x, a.x.y, a.x.z, a.y.x, a.y.y, a.y.z, a.z.x, a.z.y, a.z.z⟩, a.p.real⟩⟩

def col1 (a : Arm) : V := ⟨a.x.x, a.y.x, a.z.x⟩
def col2 (a : Arm) : V := ⟨a.x.y, a.y.y, a.z.y⟩
def col3 (a : Arm) : V := ⟨a.x.z, a.y.z, a.z.z⟩

/-- The inverse of the rotation of the tool. -/
def back (a : Arm) (v : V) : V := ⟨a.col1.dot v, a.col2.dot v, a.col3.dot v⟩

/-- `reverseSelf`. -/
def rev (a : Arm) : Arm :=
  ⟨(a.joints.map fun j =>
      (⟨j.rot, ⟨a.back j.e.axis, if j.rot then a.back (j.e.origin.sub a.p) else j.e.origin⟩⟩ : J)).reverse,
    a.col1, a.col2, a.col3, a.back (zero.sub a.p)⟩

theorem rev_real (a : Arm) : a.rev.real = a.real.reverseSelf := by
  unfold Poe.reverseSelf
  simp only [real, rev, List.map_reverse, List.map_map]
  congr 1
  · congr 1
    apply List.map_congr_left
    intro j _
    obtain ⟨b, e⟩ := j
    unfold Function.comp J.real MatrixExp.changeBase
    cases b
    · simp only [Bool.false_eq_true, if_false]
      congr 1
      ext <;> simp [back, V.dot, V.real, col1, col2, col3]
    · simp only [if_true]
      congr 1
      · ext <;> simp [back, V.dot, V.real, col1, col2, col3]
      · ext <;> simp [back, V.dot, V.real, V.sub, col1, col2, col3, Frame.act, Frame.inv] <;> ring
  · ext <;> simp [back, V.dot, V.real, V.sub, col1, col2, col3, Frame.inv, zero] <;> ring

/-- The states of the search. -/
def states (a : Arm) : List St :=
  (tab a.joints).closure (sure a.joints) (may a.joints a.p) a.joints.length [(tab a.joints).start]

/-- What is checked of an arm in one direction: all the problems found have `N` solutions. -/
def holds (a : Arm) (N : ℕ) : Bool :=
  straight a.joints && (tab a.joints).holds (sure a.joints) (may a.joints a.p) N a.states

/-- A problem is found. -/
def goes (a : Arm) : Bool := (tab a.joints).goes (sure a.joints) a.states

theorem attempt_of_check {a : Arm} {N : ℕ} (h : a.holds N = true) {rnd : ℕ → ℝ} (hc : OffCrossings rnd a.real) {k k' : ℕ}
    {r : Option (List Subproblem)} (ha : Builder.attempt rnd k a.real = some (k', r)) :
    (∀ subs, r = some subs → (subs.map Subproblem.count).prod = N) ∧ (a.goes = true → r.isSome = true) := by
  unfold holds at h
  rw [Bool.and_eq_true] at h
  unfold Builder.attempt at ha
  simp only [Option.bind_eq_bind, Option.bind_eq_some_iff] at ha
  obtain ⟨⟨k1, pts⟩, h1, s, h2, h3⟩ := ha
  obtain ⟨s', g1, g2, g3⟩ := search_of_table (tab_tells a.joints) (searchPoints_ne_nil h1)
    (points_cover h.1 rfl hc h1) h.2
  obtain rfl : s = s' := Option.some.inj (h2.symm.trans g1)
  obtain ⟨-, rfl⟩ := Prod.mk.inj (Option.some.inj h3)
  constructor
  · intro subs hsubs
    split_ifs at hsubs with hk
    rw [← Option.some.inj hsubs]
    exact g2 hk
  · intro hg
    rw [if_pos (show _ = a.real.exps.length from g3 hg)]
    rfl

theorem soln_eq {poe : Poe} {subs : List Subproblem} {b : Bool} (h : subs ≠ []) :
    IkProblem.soln ⟨poe, subs.map Subproblem.toStep, b⟩ = (subs.map Subproblem.count).prod := by
  unfold IkProblem.soln
  rw [if_neg (by simpa using h), List.foldl_map, List.prod_eq_foldl, List.foldl_map]
  rfl

theorem steps_ne_nil {rnd : ℕ → ℝ} {poe : Poe} {k k' : ℕ} {subs : List Subproblem} (hj : poe.exps ≠ [])
    (h : Builder.attempt rnd k poe = some (k', some subs)) : subs ≠ [] := by
  have := (attempt_spec h _ rfl).1.length_eq
  rintro rfl
  simp only [List.flatMap_nil, List.length_nil, List.length_range] at this
  exact hj (List.length_eq_zero_iff.mp this.symm)

/-- What the builder finds for an arm that passes the check, whatever is drawn. -/
theorem built_of_check {a : Arm} {N : ℕ} (hj : a.joints ≠ []) (h1 : a.holds N = true)
    (h2 : a.goes = true ∨ a.rev.holds N = true ∧ a.rev.goes = true) {rnd : ℕ → ℝ}
    (hc : OffCrossings rnd a.real) (hc' : OffCrossings rnd a.real.reverseSelf)
    {r : Option (IkProblem × List Subproblem)} (hb : build rnd a.real = some r) :
    ∃ pb subs, r = some (pb, subs) ∧ pb.soln = N := by
  have hne : a.real.exps ≠ [] := by simpa [real] using hj
  have hne' : a.real.reverseSelf.exps ≠ [] := by simpa [real, Poe.reverseSelf] using hj
  unfold build at hb
  simp only [Option.bind_eq_bind, Option.bind_eq_some_iff] at hb
  obtain ⟨⟨k, s⟩, g1, hb⟩ := hb
  obtain ⟨g2, g3⟩ := attempt_of_check h1 hc g1
  cases s with
  | some subs =>
    obtain rfl := Option.some.inj hb
    exact ⟨_, subs, rfl, (soln_eq (steps_ne_nil hne g1)).trans (g2 _ rfl)⟩
  | none =>
    obtain ⟨h3, h4⟩ := h2.resolve_left fun hg => by cases g3 hg
    simp only [Option.bind_eq_some_iff] at hb
    obtain ⟨⟨k', s⟩, g4, hb⟩ := hb
    rw [← rev_real] at hc'
    obtain ⟨g5, g6⟩ := attempt_of_check h3 hc' (by rw [rev_real]; exact g4)
    cases s with
    | none => cases g6 h4
    | some subs =>
      obtain rfl := Option.some.inj hb
      exact ⟨_, subs, rfl, (soln_eq (steps_ne_nil hne' g4)).trans (g5 _ rfl)⟩

end Arm

end KD.Sig
