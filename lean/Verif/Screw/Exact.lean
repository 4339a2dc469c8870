import Verif.Screw.Builder
import Verif.Screw.BuilderLemmas
import Verif.Kdl.Lemmas

/-!
# The builder on arms whose numbers are rational

Not a model: the definitions of `Builder.lean` again, over the rational numbers and for rotations only, so that they can
be evaluated, and the proof that the result is the one of the model. Used for concrete arms.
-/

namespace KD.Exact

open Vec3 Builder

open scoped Classical

/-- A vector. -/
structure V where
  x : ℚ
  y : ℚ
  z : ℚ
  deriving DecidableEq

namespace V

/-- The vector of `Kdl/Basic.lean`. -/
noncomputable def real (v : V) : Vec3 := ⟨v.x, v.y, v.z⟩

def add (a b : V) : V := ⟨a.x + b.x, a.y + b.y, a.z + b.z⟩
def sub (a b : V) : V := ⟨a.x - b.x, a.y - b.y, a.z - b.z⟩
def smul (k : ℚ) (a : V) : V := ⟨k * a.x, k * a.y, k * a.z⟩
def dot (a b : V) : ℚ := a.x * b.x + a.y * b.y + a.z * b.z
def cross (a b : V) : V := ⟨a.y * b.z - a.z * b.y, a.z * b.x - a.x * b.z, a.x * b.y - a.y * b.x⟩

theorem real_add (a b : V) : (a.add b).real = a.real + b.real := by ext <;> simp [real, add]
theorem real_sub (a b : V) : (a.sub b).real = a.real - b.real := by ext <;> simp [real, sub]
theorem real_smul (k : ℚ) (a : V) : (a.smul k).real = (k : ℝ) • a.real := by ext <;> simp [real, smul]
theorem real_dot (a b : V) : ((a.dot b : ℚ) : ℝ) = Vec3.dot a.real b.real := by simp [real, dot, Vec3.dot]
theorem real_cross (a b : V) : (a.cross b).real = Vec3.cross a.real b.real := by ext <;> simp [real, cross]

end V

/-- A rotation. -/
structure E where
  axis : V
  origin : V
  deriving DecidableEq

/-- The exponential of `Screw/MatrixExponential.lean`. -/
noncomputable def E.real (e : E) : MatrixExp := ⟨.rotation, e.axis.real, e.origin.real⟩

/-- `EqualR`. -/
def near (a b : ℚ) : Bool := decide (a - b < 1 / 1000000) && decide (b - a < 1 / 1000000)

theorem near_iff (a b : ℚ) : near a b = true ↔ EqualR (a : ℝ) b := by
  unfold near EqualR eps
  rw [Bool.and_eq_true, decide_eq_true_iff, decide_eq_true_iff, abs_lt]
  have h1 : (a - b < 1 / 1000000) ↔ ((a : ℝ) - b < 1 / 1000000) := by
    rw [← Rat.cast_lt (K := ℝ)]; push_cast; rfl
  have h2 : (b - a < 1 / 1000000) ↔ ((b : ℝ) - a < 1 / 1000000) := by
    rw [← Rat.cast_lt (K := ℝ)]; push_cast; rfl
  rw [h1, h2]
  constructor
  · rintro ⟨h, h'⟩; constructor <;> linarith
  · rintro ⟨h, h'⟩; constructor <;> linarith

/-- `Vec3.Equal`. -/
def nearV (a b : V) : Bool := near a.x b.x && near a.y b.y && near a.z b.z

theorem nearV_iff (a b : V) : nearV a b = true ↔ Vec3.Equal a.real b.real := by
  simp only [nearV, Bool.and_eq_true, near_iff, Vec3.Equal, V.real, and_assoc]

/-- The null vector. -/
def zero : V := ⟨0, 0, 0⟩

theorem real_zero : zero.real = 0 := by ext <;> simp [zero, V.real]

def on (e : E) (p : V) : Bool := nearV ((p.sub e.origin).cross e.axis) zero
def par (e f : E) : Bool := nearV (e.axis.cross f.axis) zero
def col (e f : E) : Bool := par e f && on e f.origin

theorem on_iff (e : E) (p : V) : on e p = true ↔ liesOnAxis e.real p.real := by
  rw [on, nearV_iff, real_zero, V.real_cross, V.real_sub]; rfl

theorem par_iff (e f : E) : par e f = true ↔ parallelAxes e.real f.real := by
  rw [par, nearV_iff, real_zero, V.real_cross]; rfl

theorem col_iff (e f : E) : col e f = true ↔ colinearAxes e.real f.real := by
  rw [col, Bool.and_eq_true, par_iff, on_iff]; rfl

/-- `intersectingAxes`. -/
def meet (e f : E) : Option V :=
  let c := e.axis.cross f.axis
  let diff := f.origin.sub e.origin
  let den := c.dot c
  let t := c.dot (diff.cross f.axis) / den
  let s := c.dot (diff.cross e.axis) / den
  let L1 := e.origin.add (e.axis.smul t)
  let L2 := f.origin.add (f.axis.smul s)
  if nearV L1 L2 then some L1 else none

theorem meet_real (e f : E) : intersectingAxes e.real f.real = (meet e f).map V.real := by
  unfold intersectingAxes meet
  dsimp only
  have hc : cross e.real.axis f.real.axis = (e.axis.cross f.axis).real := (V.real_cross _ _).symm
  have hd : f.real.origin - e.real.origin = (f.origin.sub e.origin).real := (V.real_sub _ _).symm
  have hn : (e.axis.cross f.axis).real.norm ^ 2 = (((e.axis.cross f.axis).dot (e.axis.cross f.axis) : ℚ) : ℝ) := by
    rw [V.real_dot, Vec3.norm_sq]
  have ht : ∀ (g : E), Vec3.dot (e.axis.cross f.axis).real (Vec3.cross (f.origin.sub e.origin).real g.real.axis) /
      (((e.axis.cross f.axis).dot (e.axis.cross f.axis) : ℚ) : ℝ) =
      (((e.axis.cross f.axis).dot ((f.origin.sub e.origin).cross g.axis) / (e.axis.cross f.axis).dot (e.axis.cross f.axis) : ℚ) : ℝ) := by
    intro g
    rw [Rat.cast_div, V.real_dot (e.axis.cross f.axis) ((f.origin.sub e.origin).cross g.axis), V.real_cross (f.origin.sub e.origin)]
    rfl
  rw [hc, hd, hn, ht e, ht f]
  have hL : ∀ (g : E) (k : ℚ), g.real.origin + (k : ℝ) • g.real.axis = (g.origin.add (g.axis.smul k)).real := by
    intro g k
    rw [V.real_add, V.real_smul]
    rfl
  rw [hL, hL]
  simp only [← nearV_iff]
  split_ifs <;> rfl

/-- `compare_vectors`. -/
def less (a b : V) : Bool :=
  if near a.x b.x then
    if near a.y b.y then
      if near a.z b.z then false else decide (a.z < b.z)
    else decide (a.y < b.y)
  else decide (a.x < b.x)

theorem less_iff (a b : V) : less a b = true ↔ lessV a.real b.real := by
  unfold less lessV
  simp only [V.real, ← near_iff]
  split_ifs <;> simp

/-- `insertPoint`. -/
def insert (p : V) : List V → List V × Bool
  | [] => ([p], true)
  | a :: l =>
    if less a p then
      let r := insert p l
      (a :: r.1, r.2)
    else if less p a then (p :: a :: l, true)
    else (a :: l, false)

theorem insert_real (p : V) (l : List V) : insertPoint p.real (l.map V.real) = ((insert p l).1.map V.real, (insert p l).2) := by
  induction l with
  | nil => rfl
  | cons a l ih =>
    simp only [List.map_cons, insertPoint, insert, ← less_iff, ih]
    split_ifs <;> rfl

/-- `addIntersections`. -/
def addIntersections (e : E) (es : List E) (set : List V) : List V :=
  es.foldl (fun set f =>
    if par e f || col e f then set
    else match meet e f with
      | some p => (insert p set).1
      | none => set) set

theorem addIntersections_real (e : E) (es : List E) (set : List V) :
    Builder.addIntersections e.real (es.map E.real) (set.map V.real) = (addIntersections e es set).map V.real := by
  unfold Builder.addIntersections addIntersections
  induction es generalizing set with
  | nil => rfl
  | cons f es ih =>
    simp only [List.map_cons, List.foldl_cons]
    rw [← ih]
    congr 1
    have hm : (f.real.motion ≠ .rotation ∨ parallelAxes e.real f.real ∨ colinearAxes e.real f.real) ↔
        ((par e f || col e f) = true) := by
      rw [← par_iff, ← col_iff, Bool.or_eq_true]
      exact ⟨fun h => h.resolve_left (fun h => h rfl), Or.inr⟩
    rw [meet_real]
    by_cases h : (par e f || col e f) = true
    · rw [if_pos h, if_pos (hm.mpr h)]
    · rw [if_neg h, if_neg (fun h' => h (hm.mp h'))]
      cases meet e f with
      | none => rfl
      | some p => simp only [Option.map_some, insert_real]

/-- `addAxes`. -/
def addAxes (es : List E) (set : List V) : List V :=
  es.foldl (fun set e => addIntersections e es.tail (insert e.origin set).1) set

theorem addAxes_real (es : List E) (set : List V) :
    Builder.addAxes (es.map E.real) (set.map V.real) = (addAxes es set).map V.real := by
  unfold Builder.addAxes addAxes
  rw [← List.map_tail]
  generalize es.tail = tl
  induction es generalizing set with
  | nil => rfl
  | cons e es ih =>
    simp only [List.map_cons, List.foldl_cons]
    rw [← ih]
    congr 1
    rw [if_neg (by simp [E.real]), ← addIntersections_real]
    congr 1
    rw [show e.real.origin = e.origin.real from rfl, insert_real]

/-- `addRandom` as long as each first draw is a new point. -/
def addRandom (rnd : ℕ → ℚ) : List E → ℕ → List V → Option (ℕ × List V)
  | [], k, set => some (k, set)
  | e :: es, k, set =>
    let r := insert (e.origin.add (e.axis.smul (rnd k))) set
    if r.2 then addRandom rnd es (k + 1) r.1 else none

theorem addRandom_real (rnd : ℕ → ℚ) {es : List E} {k : ℕ} {set : List V} {r : ℕ × List V}
    (h : addRandom rnd es k set = some r) :
    Builder.addRandom (fun n => (rnd n : ℝ)) (es.map E.real) k (set.map V.real) = some (r.1, r.2.map V.real) := by
  induction es generalizing k set with
  | nil => cases Option.some.inj h; rfl
  | cons e es ih =>
    simp only [addRandom] at h
    split at h
    · rename_i hr
      have hd : drawn (fun n => (rnd n : ℝ)) e.real k = (e.origin.add (e.axis.smul (rnd k))).real := by
        rw [V.real_add, V.real_smul]; rfl
      have hi : insertPoint (drawn (fun n => (rnd n : ℝ)) e.real k) (set.map V.real) =
          ((insert (e.origin.add (e.axis.smul (rnd k))) set).1.map V.real, true) := by
        rw [hd, insert_real, hr]
      have hex : ∃ n, (insertPoint (drawn (fun n => (rnd n : ℝ)) e.real (k + n)) (set.map V.real)).2 = true :=
        ⟨0, by rw [Nat.add_zero, hi]⟩
      have h0 : Nat.find hex = 0 := (Nat.find_eq_zero hex).mpr (by rw [Nat.add_zero, hi])
      rw [List.map_cons, Builder.addRandom, if_neg (by simp [E.real]), dif_pos hex, h0]
      simp only [Nat.add_zero, hi]
      exact ih h
    · cases h

/-- `searchPoints`, for the terms and where the tool is. -/
def searchPoints (rnd : ℕ → ℚ) (k : ℕ) (es : List E) (tool : V) : Option (ℕ × List V) :=
  (addRandom rnd es k (addAxes es (insert zero []).1)).map fun r => (r.1, (insert tool r.2).1)

theorem searchPoints_real (rnd : ℕ → ℚ) {k : ℕ} {es : List E} {poe : Poe} {tool : V} {r : ℕ × List V}
    (he : poe.exps = es.map E.real) (ht : poe.tool.p = tool.real) (h : searchPoints rnd k es tool = some r) :
    Builder.searchPoints (fun n => (rnd n : ℝ)) k poe = some (r.1, r.2.map V.real) := by
  unfold searchPoints at h
  obtain ⟨r', h1, rfl⟩ := Option.map_eq_some_iff.mp h
  unfold Builder.searchPoints
  have h0 : (insertPoint 0 []).1 = ((insert zero []).1).map V.real := by
    rw [← real_zero, show ([] : List Vec3) = ([] : List V).map V.real from rfl, insert_real]
  rw [he, h0, addAxes_real, addRandom_real rnd h1, ht]
  simp only [Option.bind_eq_bind, Option.bind_some, insert_real]
  rfl

/-- `markWhileOnAxis`. -/
def markWhile (p : V) : List (E × PoeTerm) → List PoeTerm
  | [] => []
  | (e, t) :: l => if on e p then ⟨t.known, true⟩ :: markWhile p l else t :: l.map Prod.snd

/-- `markFromUnknown`. -/
def markFrom (p : V) : List (E × PoeTerm) → List PoeTerm
  | [] => []
  | (e, t) :: l => if t.isUnknown then markWhile p ((e, t) :: l) else t :: markFrom p l

theorem markWhile_real (p : V) (l : List (E × PoeTerm)) :
    markWhileOnAxis p.real (l.map (Prod.map E.real id)) = markWhile p l := by
  induction l with
  | nil => rfl
  | cons a l ih =>
    obtain ⟨e, t⟩ := a
    simp only [List.map_cons, Prod.map, id, markWhileOnAxis, markWhile, on_iff]
    rw [show e.real.motion = .rotation from rfl]
    simp only [true_and]
    split_ifs
    · rw [← ih]
    · rw [List.map_map]; rfl

theorem markFrom_real (p : V) (l : List (E × PoeTerm)) :
    markFromUnknown p.real (l.map (Prod.map E.real id)) = markFrom p l := by
  induction l with
  | nil => rfl
  | cons a l ih =>
    obtain ⟨e, t⟩ := a
    have := markWhile_real p ((e, t) :: l)
    simp only [List.map_cons, Prod.map, id] at this
    simp only [List.map_cons, Prod.map, id, markFromUnknown, markFrom]
    split_ifs
    · exact this
    · congr 1

theorem zip_real (es : List E) (ts : List PoeTerm) : (es.map E.real).zip ts = (es.zip ts).map (Prod.map E.real id) := by
  rw [← List.zip_map, List.map_id]

/-- `simplify`. -/
def simplify (es : List E) (depth : ℕ) (tp0 tp1 : V) (ts : List PoeTerm) : List PoeTerm :=
  let ts := (markFrom tp0 (es.zip ts).reverse).reverse
  if depth = 1 then markFrom tp1 (es.zip ts) else ts

theorem simplify_real (es : List E) (depth : ℕ) (tp0 tp1 : V) (ts : List PoeTerm) :
    Builder.simplify (es.map E.real) depth tp0.real tp1.real ts = simplify es depth tp0 tp1 ts := by
  unfold Builder.simplify simplify simplifyPK1 simplifyPK3
  dsimp only
  rw [zip_real es ts, ← List.map_reverse, markFrom_real]
  split_ifs with h1 h2
  · rw [zip_real, markFrom_real]
  · obtain ⟨e, he, hm⟩ := h2
    obtain ⟨e', -, rfl⟩ := List.mem_map.mp he
    cases hm
  · rfl

/-- The subproblems. -/
inductive S where
  | pk1 (i : ℕ) (e : E) (p : V)
  | pk2 (i j : ℕ) (e1 e2 : E) (p r : V)
  | pk3 (i : ℕ) (e : E) (p k : V)
  | pg4 (i j : ℕ) (e1 e2 : E) (p : V)
  deriving DecidableEq

/-- The subproblem of `Screw/Subproblems.lean`. -/
noncomputable def S.real : S → Subproblem
  | pk1 i e p => .pk1 i e.real p.real
  | pk2 i j e1 e2 p r => .pk2 i j e1.real e2.real p.real r.real
  | pk3 i e p k => .pk3 i e.real p.real k.real
  | pg4 i j e1 e2 p => .pg4 i j e1.real e2.real p.real

/-- `trySolve`. -/
def trySolve (es : List E) (depth : ℕ) (tp0 tp1 : V) (ts : List PoeTerm) : Option (S × List PoeTerm) :=
  let unknowns := ts.countP PoeTerm.open_
  if unknowns = 0 || decide (unknowns > 2) then none
  else
    let last := lastOpen ts - 1
    match es[last]? with
    | none => none
    | some e =>
      if unknowns = 1 then
        if depth = 0 then
          if on e tp0 then none else some (.pk1 last e tp0, setKnown ts last)
        else if depth = 1 then
          if ts.any PoeTerm.knownOpen then none
          else if on e tp0 || on e tp1 then none
          else some (.pk3 last e tp0 tp1, setKnown ts last)
        else none
      else
        match ts[last - 1]?, es[last - 1]? with
        | some t, some f =>
          if t.open_ = false then none
          else if depth = 0 then
            let ts' := setKnown (setKnown ts last) (last - 1)
            if par e f then
              if col e f then none else some (.pg4 (last - 1) last f e tp0, ts')
            else match meet e f with
              | some r => some (.pk2 (last - 1) last f e tp0 r, ts')
              | none => none
          else none
        | _, _ => none

theorem trySolve_real (es : List E) (depth : ℕ) (tp0 tp1 : V) (ts : List PoeTerm) :
    Builder.trySolve (es.map E.real) depth tp0.real tp1.real ts =
      (trySolve es depth tp0 tp1 ts).map (Prod.map S.real id) := by
  have hm : ∀ e : E, e.real.motion = .rotation := fun _ => rfl
  unfold Builder.trySolve trySolve
  dsimp only
  simp only [Bool.or_eq_true, decide_eq_true_iff]
  by_cases hu : ts.countP PoeTerm.open_ = 0 ∨ ts.countP PoeTerm.open_ > 2
  · rw [if_pos hu, if_pos hu]; rfl
  rw [if_neg hu, if_neg hu, List.getElem?_map, List.getElem?_map]
  cases es[lastOpen ts - 1]? with
  | none => rfl
  | some e =>
    simp only [Option.map_some, hm]
    by_cases h1 : ts.countP PoeTerm.open_ = 1
    · rw [if_pos h1, if_pos h1]
      by_cases h2 : depth = 0
      · rw [if_pos h2, if_pos h2]
        by_cases h3 : on e tp0 = true
        · rw [if_pos h3, if_neg (by simp [(on_iff _ _).mp h3]), if_neg (by simp)]; rfl
        · rw [if_neg h3, if_pos ⟨trivial, by rwa [← on_iff]⟩]; rfl
      · rw [if_neg h2, if_neg h2]
        by_cases h3 : depth = 1
        · rw [if_pos h3, if_pos h3]
          by_cases h4 : ts.any PoeTerm.knownOpen = true
          · rw [if_pos h4, if_pos h4]; rfl
          · rw [if_neg h4, if_neg h4]
            by_cases h5 : on e tp0 = true ∨ on e tp1 = true
            · rw [if_pos h5, if_neg (by
                rintro ⟨-, a, b⟩
                rcases h5 with h5 | h5
                · exact a ((on_iff _ _).mp h5)
                · exact b ((on_iff _ _).mp h5)), if_neg (by simp)]; rfl
            · rw [if_neg h5, if_pos ⟨trivial, fun a => h5 (Or.inl ((on_iff _ _).mpr a)), fun a => h5 (Or.inr ((on_iff _ _).mpr a))⟩]; rfl
        · rw [if_neg h3, if_neg h3]; rfl
    · rw [if_neg h1, if_neg h1]
      cases ts[lastOpen ts - 1 - 1]? with
      | none => rfl
      | some t =>
        cases es[lastOpen ts - 1 - 1]? with
        | none => rfl
        | some f =>
          simp only [Option.map_some, hm]
          by_cases h2 : t.open_ = false
          · rw [if_pos h2, if_pos h2]; rfl
          rw [if_neg h2, if_neg h2]
          by_cases h3 : depth = 0
          · rw [if_pos h3, if_pos h3]
            by_cases h4 : par e f = true
            · have h4' := (par_iff _ _).mp h4
              rw [if_pos h4, if_neg (by simp [h4']), if_neg (by simp)]
              by_cases h5 : col e f = true
              · rw [if_pos h5, if_neg (by simp [(col_iff _ _).mp h5])]; rfl
              · rw [if_neg h5, if_pos ⟨trivial, trivial, h4', by rwa [← col_iff]⟩]; rfl
            · have h4' : ¬ parallelAxes e.real f.real := by rwa [← par_iff]
              rw [if_neg h4, meet_real]
              cases meet e f with
              | none => simp [h4']
              | some r => simp [h4', S.real]
          · rw [if_neg h3, if_neg h3]; rfl

/-- `Search`, with indices of points. -/
structure State where
  terms : List PoeTerm
  it0 : ℕ
  it1 : ℕ
  tp0 : V
  tp1 : V
  depth : ℕ
  steps : List S
  deriving DecidableEq

noncomputable def State.real (s : State) : Search :=
  ⟨s.terms, s.it0, s.it1, s.tp0.real, s.tp1.real, s.depth, s.steps.map S.real⟩

/-- `advance`. -/
def advance (pts : List V) (s : State) : State :=
  let first := pts.getD 0 zero
  if s.it0 + 1 = pts.length then
    if s.depth = 0 then { s with it0 := 0, tp0 := first, depth := 1 }
    else if s.it1 + 1 = pts.length then
      if s.depth = 1 then { s with it0 := 0, tp0 := first, it1 := 0, tp1 := first, depth := 2 }
      else { s with it0 := 0, tp0 := first, it1 := 0, tp1 := first }
    else { s with it0 := 0, tp0 := first, it1 := s.it1 + 1, tp1 := pts.getD (s.it1 + 1) zero }
  else { s with it0 := s.it0 + 1, tp0 := pts.getD (s.it0 + 1) zero }

theorem getD_real (pts : List V) (i : ℕ) : (pts.map V.real).getD i 0 = (pts.getD i zero).real := by
  rw [← real_zero, List.getD_eq_getElem?_getD, List.getD_eq_getElem?_getD, List.getElem?_map]
  cases pts[i]? <;> rfl

theorem advance_real (pts : List V) (s : State) : Builder.advance (pts.map V.real) s.real = (advance pts s).real := by
  unfold Builder.advance advance
  simp only [getD_real, List.length_map, State.real]
  split_ifs <;> rfl

/-- `pass`. -/
def pass (es : List E) (pts : List V) (s : State) : State :=
  let ts := simplify es s.depth s.tp0 s.tp1 (refresh s.terms)
  match trySolve es s.depth s.tp0 s.tp1 ts with
  | some (sp, ts') =>
    { terms := ts', it0 := 0, it1 := 0, tp0 := pts.getD 0 zero, tp1 := s.tp1, depth := 0, steps := s.steps ++ [sp] }
  | none => advance pts { s with terms := ts }

theorem pass_real (es : List E) (pts : List V) (s : State) :
    Builder.pass (es.map E.real) (pts.map V.real) s.real = (pass es pts s).real := by
  unfold Builder.pass pass
  simp only [State.real, simplify_real, trySolve_real, getD_real]
  cases trySolve es s.depth s.tp0 s.tp1 (simplify es s.depth s.tp0 s.tp1 (refresh s.terms)) with
  | none => exact advance_real pts { s with terms := simplify es s.depth s.tp0 s.tp1 (refresh s.terms) }
  | some r =>
    obtain ⟨sp, ts'⟩ := r
    simp

/-- `goesOn`. -/
def goesOn (s : State) : Bool := s.depth < 2 && s.terms.countP PoeTerm.isUnknown != 0

/-- `searchLoop`. -/
def searchLoop (es : List E) (pts : List V) : ℕ → State → Option State
  | 0, _ => none
  | fuel + 1, s =>
    let s' := pass es pts s
    if goesOn s' then searchLoop es pts fuel s' else some s'

theorem searchLoop_real (es : List E) (pts : List V) (fuel : ℕ) (s : State) :
    Builder.searchLoop (es.map E.real) (pts.map V.real) fuel s.real = (searchLoop es pts fuel s).map State.real := by
  induction fuel generalizing s with
  | zero => rfl
  | succ n ih =>
    simp only [Builder.searchLoop, searchLoop, pass_real]
    rw [show Builder.goesOn (pass es pts s).real = goesOn (pass es pts s) from rfl]
    split_ifs
    · exact ih _
    · rfl

/-- `attempt`. -/
def attempt (rnd : ℕ → ℚ) (k : ℕ) (es : List E) (tool : V) : Option (ℕ × Option (List S)) :=
  match searchPoints rnd k es tool with
  | none => none
  | some (k, pts) =>
    match searchLoop es pts (passBound es.length pts.length)
        ⟨List.replicate es.length ⟨false, false⟩, 0, 0, pts.getD 0 zero, pts.getD 0 zero, 0, []⟩ with
    | none => none
    | some s => some (k, if s.terms.countP (·.known) = es.length then some s.steps else none)

theorem attempt_real (rnd : ℕ → ℚ) {k : ℕ} {es : List E} {poe : Poe} {tool : V} {k' : ℕ} {r : Option (List S)}
    (he : poe.exps = es.map E.real) (ht : poe.tool.p = tool.real) (h : attempt rnd k es tool = some (k', r)) :
    Builder.attempt (fun n => (rnd n : ℝ)) k poe = some (k', r.map (·.map S.real)) := by
  unfold attempt at h
  cases hp : searchPoints rnd k es tool with
  | none => rw [hp] at h; cases h
  | some p =>
    obtain ⟨k1, pts⟩ := p
    rw [hp] at h
    dsimp only at h
    have h1 := searchPoints_real rnd he ht hp
    have h2 := searchLoop_real es pts (passBound es.length pts.length)
      ⟨List.replicate es.length ⟨false, false⟩, 0, 0, pts.getD 0 zero, pts.getD 0 zero, 0, []⟩
    unfold Builder.attempt
    rw [h1]
    simp only [Option.bind_eq_bind, Option.bind_some]
    unfold searchSolutions initial
    rw [he, List.length_map, List.length_map, getD_real]
    cases hs : searchLoop es pts (passBound es.length pts.length)
      ⟨List.replicate es.length ⟨false, false⟩, 0, 0, pts.getD 0 zero, pts.getD 0 zero, 0, []⟩ with
    | none => rw [hs] at h; cases h
    | some s =>
      rw [hs] at h h2
      obtain ⟨rfl, rfl⟩ := Prod.mk.inj (Option.some.inj h)
      rw [show Builder.searchLoop (es.map E.real) (pts.map V.real) (passBound es.length pts.length)
        ⟨List.replicate es.length ⟨false, false⟩, 0, 0, (pts.getD 0 zero).real, (pts.getD 0 zero).real, 0, []⟩ = _ from h2]
      simp only [Option.map_some, Option.bind_some, State.real]
      split_ifs <;> rfl

/-- Axes that are parallel only if they are exactly, and then coincide or are apart. -/
def margin (es : List E) : Bool :=
  es.all fun e1 => es.all fun e2 =>
    !par e2 e1 || (decide (e2.axis.cross e1.axis = zero) &&
      (decide ((e1.origin.sub e2.origin).cross e2.axis = zero) ||
        decide (4 / 1000000000000 ≤ ((e1.origin.sub e2.origin).cross e2.axis).dot ((e1.origin.sub e2.origin).cross e2.axis))))

theorem margin_real {es : List E} (h : margin es = true) : ∀ e1 ∈ es.map E.real, ∀ e2 ∈ es.map E.real,
    parallelAxes e2 e1 → Vec3.cross e2.axis e1.axis = 0 ∧
      (Vec3.cross (e1.origin - e2.origin) e2.axis = 0 ∨
        2 * eps ≤ (Vec3.cross (e1.origin - e2.origin) e2.axis).norm) := by
  intro e1 h1 e2 h2 hp
  obtain ⟨e1, g1, rfl⟩ := List.mem_map.mp h1
  obtain ⟨e2, g2, rfl⟩ := List.mem_map.mp h2
  have := List.all_eq_true.mp (List.all_eq_true.mp h e1 g1) e2 g2
  rw [(par_iff _ _).mpr hp] at this
  simp only [Bool.not_true, Bool.false_or, Bool.and_eq_true, Bool.or_eq_true, decide_eq_true_iff] at this
  have hc : Vec3.cross (e1.real.origin - e2.real.origin) e2.real.axis = ((e1.origin.sub e2.origin).cross e2.axis).real := by
    rw [V.real_cross, V.real_sub]; rfl
  have hc' : Vec3.cross e2.real.axis e1.real.axis = (e2.axis.cross e1.axis).real := (V.real_cross _ _).symm
  rw [hc, hc']
  refine ⟨by rw [this.1, real_zero], this.2.imp (fun h => by rw [h, real_zero]) fun h => ?_⟩
  have h' : ((4 / 1000000000000 : ℚ) : ℝ) ≤ _ := Rat.cast_le.mpr h
  rw [V.real_dot, ← Vec3.norm_sq] at h'
  push_cast at h'
  refine abs_le_of_sq_le_sq' ?_ (Vec3.norm_nonneg _) |>.2
  refine le_trans (le_of_eq ?_) h'
  norm_num [eps]

end KD.Exact
