import Verif.Screw.IkProblem

/-!
# /repo/libraries/ScrewTheoryLib/ScrewTheoryIkProblemBuilder.cpp

The builder looks for a sequence of subproblems that solves the inverse kinematics of a POE.

Simplifications:
* `std::set<KDL::Vector, compare_vectors>` is a sorted list with insertion by linear scan. This is
  what the red-black tree computes whenever `compare_vectors` behaves as a strict weak ordering
  on the points involved; with its tolerance it is not one in general.
* `KDL::random` reads an arbitrary stream of numbers.
* Memory management (`clearSteps`, destructors) is not modelled.
-/

namespace KD

open Vec3

open scoped Classical

namespace Builder

/-- `liesOnAxis`, /repo/libraries/ScrewTheoryLib/ScrewTheoryIkProblemBuilder.cpp:18-21. -/
def liesOnAxis (e : MatrixExp) (p : Vec3) : Prop := Vec3.Equal (cross (p - e.origin) e.axis) 0

/-- `parallelAxes`, /repo/libraries/ScrewTheoryLib/ScrewTheoryIkProblemBuilder.cpp:23-26. -/
def parallelAxes (e1 e2 : MatrixExp) : Prop := Vec3.Equal (cross e1.axis e2.axis) 0

/-- `perpendicularAxes`, /repo/libraries/ScrewTheoryLib/ScrewTheoryIkProblemBuilder.cpp:28-31. -/
def perpendicularAxes (e1 e2 : MatrixExp) : Prop := EqualR (dot e1.axis e2.axis) 0

/-- `colinearAxes`, /repo/libraries/ScrewTheoryLib/ScrewTheoryIkProblemBuilder.cpp:33-36. -/
def colinearAxes (e1 e2 : MatrixExp) : Prop := parallelAxes e1 e2 ∧ liesOnAxis e1 e2.origin

/-- `intersectingAxes`, /repo/libraries/ScrewTheoryLib/ScrewTheoryIkProblemBuilder.cpp:38-57: the
intersection if there is one. The callers only ask for non-parallel axes, so `den` is not zero. -/
noncomputable def intersectingAxes (e1 e2 : MatrixExp) : Option Vec3 :=
  let c := cross e1.axis e2.axis
  let diff := e2.origin - e1.origin
  let den := c.norm ^ 2
  let t := dot c (cross diff e2.axis) / den
  let s := dot c (cross diff e1.axis) / den
  let L1 := e1.origin + t • e1.axis
  let L2 := e2.origin + s • e2.axis
  if Vec3.Equal L1 L2 then some L1 else none

/-- `planarMovement`, /repo/libraries/ScrewTheoryLib/ScrewTheoryIkProblemBuilder.cpp:59-63. -/
def planarMovement (e1 e2 : MatrixExp) : Prop :=
  if e1.motion = e2.motion then parallelAxes e1 e2 else perpendicularAxes e1 e2

/-- `normalPlaneMovement`, /repo/libraries/ScrewTheoryLib/ScrewTheoryIkProblemBuilder.cpp:65-69. -/
def normalPlaneMovement (e1 e2 : MatrixExp) : Prop :=
  if e1.motion = e2.motion then perpendicularAxes e1 e2 else parallelAxes e1 e2

/-- `compare_vectors`, /repo/libraries/ScrewTheoryLib/ScrewTheoryIkProblemBuilder.cpp:71-102. -/
def lessV (a b : Vec3) : Prop :=
  if EqualR a.x b.x then
    if EqualR a.y b.y then
      if EqualR a.z b.z then False else a.z < b.z
    else a.y < b.y
  else a.x < b.x

/-- `std::set::insert`: the new set and whether the insertion took place (see the header for the
simplification). /repo/libraries/ScrewTheoryLib/ScrewTheoryIkProblemBuilder.cpp:71-99, 151-226. -/
noncomputable def insertPoint (p : Vec3) : List Vec3 → List Vec3 × Bool
  | [] => ([p], true)
  | a :: l =>
    if lessV a p then
      let r := insertPoint p l
      (a :: r.1, r.2)
    else if lessV p a then (p :: a :: l, true)
    else (a :: l, false)

/-- Inner loop of `searchPoints`, /repo/libraries/ScrewTheoryLib/ScrewTheoryIkProblemBuilder.cpp:171-198:
intersections of one axis with the others (`es` starts at the second term). -/
noncomputable def addIntersections (e : MatrixExp) (es : List MatrixExp) (set : List Vec3) :
    List Vec3 :=
  es.foldl (fun set e2 =>
    if e2.motion ≠ .rotation ∨ parallelAxes e e2 ∨ colinearAxes e e2 then set
    else match intersectingAxes e e2 with
      | some p => (insertPoint p set).1
      | none => set) set

/-- First loop of `searchPoints`, /repo/libraries/ScrewTheoryLib/ScrewTheoryIkProblemBuilder.cpp:158-199. -/
noncomputable def addAxes (es : List MatrixExp) (set : List Vec3) : List Vec3 :=
  es.foldl (fun set e =>
    if e.motion ≠ .rotation then set
    else addIntersections e es.tail (insertPoint e.origin set).1) set

/-- Point drawn on an axis, /repo/libraries/ScrewTheoryLib/ScrewTheoryIkProblemBuilder.cpp:216-217. -/
def drawn (rnd : ℕ → ℝ) (e : MatrixExp) (n : ℕ) : Vec3 := e.origin + rnd n • e.axis

/-- Second loop of `searchPoints`, /repo/libraries/ScrewTheoryLib/ScrewTheoryIkProblemBuilder.cpp:201-220:
draws a point of each rotation axis until the insertion succeeds. `k` counts the calls to
`KDL::random`; `none` if the inner loop never ends. -/
noncomputable def addRandom (rnd : ℕ → ℝ) : List MatrixExp → ℕ → List Vec3 → Option (ℕ × List Vec3)
  | [], k, set => some (k, set)
  | e :: es, k, set =>
    if e.motion ≠ .rotation then addRandom rnd es k set
    else if h : ∃ n, (insertPoint (drawn rnd e (k + n)) set).2 = true then
      addRandom rnd es (k + Nat.find h + 1) (insertPoint (drawn rnd e (k + Nat.find h)) set).1
    else none

/-- `searchPoints`, /repo/libraries/ScrewTheoryLib/ScrewTheoryIkProblemBuilder.cpp:151-227. Returns
the number of random draws consumed so far and the points. -/
noncomputable def searchPoints (rnd : ℕ → ℝ) (k : ℕ) (poe : Poe) : Option (ℕ × List Vec3) := do
  let (k, set) ← addRandom rnd poe.exps k (addAxes poe.exps (insertPoint 0 []).1)
  return (k, (insertPoint poe.tool.p set).1)

/-- `PoeTerm`, /repo/libraries/ScrewTheoryLib/ScrewTheoryIkProblem.hpp:186-190. -/
@[ext]
structure PoeTerm where
  known : Bool
  simplified : Bool
  deriving DecidableEq

/-- `unknownTerm`, /repo/libraries/ScrewTheoryLib/ScrewTheoryIkProblemBuilder.cpp:104-129. -/
def PoeTerm.isUnknown (t : PoeTerm) : Bool := !t.known

/-- `unknownNotSimplifiedTerm`, ibidem.
/repo/libraries/ScrewTheoryLib/ScrewTheoryIkProblemBuilder.cpp:105-128, 384-399. -/
def PoeTerm.open_ (t : PoeTerm) : Bool := !t.known && !t.simplified

/-- `knownNotSimplifiedTerm`, ibidem. /repo/libraries/ScrewTheoryLib/ScrewTheoryIkProblemBuilder.cpp:105-128, 421. -/
def PoeTerm.knownOpen (t : PoeTerm) : Bool := t.known && !t.simplified

/-- Marks the leading known terms,
/repo/libraries/ScrewTheoryLib/ScrewTheoryIkProblemBuilder.cpp:355-366. -/
def markLeading : List PoeTerm → List PoeTerm
  | [] => []
  | t :: ts => if t.known then ⟨t.known, true⟩ :: markLeading ts else t :: ts

/-- `refreshSimplificationState`,
/repo/libraries/ScrewTheoryLib/ScrewTheoryIkProblemBuilder.cpp:347-380. -/
def refresh (ts : List PoeTerm) : List PoeTerm :=
  (markLeading (markLeading (ts.map fun t => ⟨t.known, false⟩)).reverse).reverse

/-- Loop shared by the two Paden-Kahan simplifications: marks terms while they rotate about an
axis through the point. /repo/libraries/ScrewTheoryLib/ScrewTheoryIkProblemBuilder.cpp:515-533. -/
noncomputable def markWhileOnAxis (p : Vec3) : List (MatrixExp × PoeTerm) → List PoeTerm
  | [] => []
  | (e, t) :: l =>
    if e.motion = .rotation ∧ liesOnAxis e p then ⟨t.known, true⟩ :: markWhileOnAxis p l
    else t :: l.map Prod.snd

/-- The same, starting at the first unknown term.
/repo/libraries/ScrewTheoryLib/ScrewTheoryIkProblemBuilder.cpp:538-556. -/
noncomputable def markFromUnknown (p : Vec3) : List (MatrixExp × PoeTerm) → List PoeTerm
  | [] => []
  | (e, t) :: l =>
    if t.isUnknown then markWhileOnAxis p ((e, t) :: l) else t :: markFromUnknown p l

/-- `simplifyWithPadenKahanOne`,
/repo/libraries/ScrewTheoryLib/ScrewTheoryIkProblemBuilder.cpp:515-534: from the right. -/
noncomputable def simplifyPK1 (es : List MatrixExp) (p : Vec3) (ts : List PoeTerm) : List PoeTerm :=
  (markFromUnknown p (es.zip ts).reverse).reverse

/-- `simplifyWithPadenKahanThree`,
/repo/libraries/ScrewTheoryLib/ScrewTheoryIkProblemBuilder.cpp:538-557: from the left. -/
noncomputable def simplifyPK3 (es : List MatrixExp) (p : Vec3) (ts : List PoeTerm) : List PoeTerm :=
  markFromUnknown p (es.zip ts)

/-- Relation between two terms given by index; both are in range wherever it is used.
/repo/libraries/ScrewTheoryLib/ScrewTheoryIkProblemBuilder.cpp:18-68. -/
noncomputable def rel (es : List MatrixExp) (r : MatrixExp → MatrixExp → Prop) (i j : ℕ) : Bool :=
  match es[i]?, es[j]? with
  | some a, some b => decide (r a b)
  | _, _ => false

/-- Loop of `simplifyWithPardosOne` when the first term is a translation,
/repo/libraries/ScrewTheoryLib/ScrewTheoryIkProblemBuilder.cpp:582-607, entered with
`i = idStart + k`: whether everything to the right can be simplified. -/
noncomputable def planarDown (es : List MatrixExp) (idStart : ℕ) : ℕ → Bool
  | 0 => rel es normalPlaneMovement idStart (idStart + 1)
  | k + 1 => rel es planarMovement (idStart + k + 1) (idStart + k + 2) && planarDown es idStart k

/-- Loop of `simplifyWithPardosOne` when the last term is a translation,
/repo/libraries/ScrewTheoryLib/ScrewTheoryIkProblemBuilder.cpp:611-635, entered with
`i = idEnd - k`: whether everything to the left can be simplified. -/
noncomputable def planarUp (es : List MatrixExp) (idEnd : ℕ) : ℕ → Bool
  | 0 => rel es normalPlaneMovement (idEnd - 1) idEnd
  | k + 1 => rel es planarMovement (idEnd - (k + 1) - 1) (idEnd - (k + 1)) && planarUp es idEnd k

/-- Marks the terms with index in `[a, b)`. /repo/libraries/ScrewTheoryLib/ScrewTheoryIkProblemBuilder.cpp:561-640. -/
def markRange (a b : ℕ) (ts : List PoeTerm) : List PoeTerm :=
  ts.mapIdx fun i t => if a ≤ i ∧ i < b then ⟨t.known, true⟩ else t

/-- Index of the rightmost open term plus one, zero if there is none
(`std::distance(ritUnknown, poeTerms.rend())`).
/repo/libraries/ScrewTheoryLib/ScrewTheoryIkProblemBuilder.cpp:561-575. -/
def lastOpen (ts : List PoeTerm) : ℕ := ts.length - ts.reverse.findIdx PoeTerm.open_

/-- `simplifyWithPardosOne`,
/repo/libraries/ScrewTheoryLib/ScrewTheoryIkProblemBuilder.cpp:561-637. -/
noncomputable def simplifyPG1 (es : List MatrixExp) (ts : List PoeTerm) : List PoeTerm :=
  let idStart := ts.findIdx PoeTerm.open_
  let idEnd1 := lastOpen ts
  if idEnd1 ≤ idStart + 1 then ts
  else
    let idEnd := idEnd1 - 1
    match es[idStart]?, es[idEnd]? with
    | some first, some last =>
      if first.motion = .translation then
        if planarDown es idStart (idEnd - 1 - idStart) then markRange (idStart + 1) (idEnd + 1) ts
        else ts
      else if last.motion = .translation then
        if planarUp es idEnd (idEnd - (idStart + 1)) then markRange idStart idEnd ts else ts
      else ts
    | _, _ => ts

/-- `simplify`, /repo/libraries/ScrewTheoryLib/ScrewTheoryIkProblemBuilder.cpp:492-511. -/
noncomputable def simplify (es : List MatrixExp) (depth : ℕ) (tp0 tp1 : Vec3) (ts : List PoeTerm) :
    List PoeTerm :=
  let ts := simplifyPK1 es tp0 ts
  if depth = 1 then simplifyPK3 es tp1 ts
  else if ∃ e ∈ es, e.motion = .translation then simplifyPG1 es ts
  else ts

/-- `poeTerms[id].known = true`. /repo/libraries/ScrewTheoryLib/ScrewTheoryIkProblemBuilder.cpp:384-490. -/
def setKnown (ts : List PoeTerm) (id : ℕ) : List PoeTerm :=
  ts.mapIdx fun i t => if i = id then ⟨true, t.simplified⟩ else t

/-- `trySolve`, /repo/libraries/ScrewTheoryLib/ScrewTheoryIkProblemBuilder.cpp:384-488: the
subproblem and the new state of the terms, or nothing. With two open terms the rightmost has a
predecessor, so `last - 1` is a valid index. -/
noncomputable def trySolve (es : List MatrixExp) (depth : ℕ) (tp0 tp1 : Vec3) (ts : List PoeTerm) :
    Option (Subproblem × List PoeTerm) :=
  let unknowns := ts.countP PoeTerm.open_
  if unknowns = 0 ∨ unknowns > 2 then none
  else
    let last := lastOpen ts - 1
    match es[last]? with
    | none => none
    | some lastExp =>
      if unknowns = 1 then
        if depth = 0 then
          if lastExp.motion = .rotation ∧ ¬ liesOnAxis lastExp tp0 then
            some (.pk1 last lastExp tp0, setKnown ts last)
          else if lastExp.motion = .translation then
            some (.pg1 last lastExp tp0, setKnown ts last)
          else none
        else if depth = 1 then
          if ts.any PoeTerm.knownOpen then none
          else if lastExp.motion = .rotation ∧ ¬ liesOnAxis lastExp tp0 ∧ ¬ liesOnAxis lastExp tp1 then
            some (.pk3 last lastExp tp0 tp1, setKnown ts last)
          else if lastExp.motion = .translation then
            some (.pg3 last lastExp tp0 tp1, setKnown ts last)
          else none
        else none
      else
        match ts[last - 1]?, es[last - 1]? with
        | some t, some nextToLastExp =>
          if t.open_ = false then none
          else if depth = 0 then
            let ts' := setKnown (setKnown ts last) (last - 1)
            if lastExp.motion = .rotation ∧ nextToLastExp.motion = .rotation ∧
                ¬ parallelAxes lastExp nextToLastExp ∧
                (intersectingAxes lastExp nextToLastExp).isSome then
              match intersectingAxes lastExp nextToLastExp with
              | some r => some (.pk2 (last - 1) last nextToLastExp lastExp tp0 r, ts')
              | none => none
            else if lastExp.motion = .translation ∧ nextToLastExp.motion = .translation ∧
                ¬ parallelAxes lastExp nextToLastExp then
              some (.pg2 (last - 1) last nextToLastExp lastExp tp0, ts')
            else if lastExp.motion = .rotation ∧ nextToLastExp.motion = .rotation ∧
                parallelAxes lastExp nextToLastExp ∧ ¬ colinearAxes lastExp nextToLastExp then
              some (.pg4 (last - 1) last nextToLastExp lastExp tp0, ts')
            else none
          else none
        | _, _ => none

/-- Variables of `searchSolutions`; `it0` and `it1` are the iterators as indices, `tp0` and `tp1`
the two entries of `testPoints`. /repo/libraries/ScrewTheoryLib/ScrewTheoryIkProblemBuilder.cpp:277-345. -/
structure Search where
  terms : List PoeTerm
  it0 : ℕ
  it1 : ℕ
  tp0 : Vec3
  tp1 : Vec3
  depth : ℕ
  steps : List Subproblem

/-- The loop that advances the iterators,
/repo/libraries/ScrewTheoryLib/ScrewTheoryIkProblemBuilder.cpp:315-338. The iterators are always
inside `points`, which is never empty. -/
noncomputable def advance (pts : List Vec3) (s : Search) : Search :=
  let first := pts.getD 0 0
  if s.it0 + 1 = pts.length then
    if s.depth = 0 then { s with it0 := 0, tp0 := first, depth := 1 }
    else if s.it1 + 1 = pts.length then
      if s.depth = 1 then { s with it0 := 0, tp0 := first, it1 := 0, tp1 := first, depth := 2 }
      else { s with it0 := 0, tp0 := first, it1 := 0, tp1 := first }
    else { s with it0 := 0, tp0 := first, it1 := s.it1 + 1, tp1 := pts.getD (s.it1 + 1) 0 }
  else { s with it0 := s.it0 + 1, tp0 := pts.getD (s.it0 + 1) 0 }

/-- One pass of the loop of `searchSolutions`,
/repo/libraries/ScrewTheoryLib/ScrewTheoryIkProblemBuilder.cpp:293-339. After a success the second
test point keeps its value although its iterator is reset. -/
noncomputable def pass (es : List MatrixExp) (pts : List Vec3) (s : Search) : Search :=
  let ts := simplify es s.depth s.tp0 s.tp1 (refresh s.terms)
  match trySolve es s.depth s.tp0 s.tp1 ts with
  | some (sp, ts') =>
    { terms := ts', it0 := 0, it1 := 0, tp0 := pts.getD 0 0, tp1 := s.tp1, depth := 0,
      steps := s.steps ++ [sp] }
  | none => advance pts { s with terms := ts }

/-- Loop condition, /repo/libraries/ScrewTheoryLib/ScrewTheoryIkProblemBuilder.cpp:341. -/
def goesOn (s : Search) : Bool := s.depth < 2 && s.terms.countP PoeTerm.isUnknown != 0

/-- The do-while loop of `searchSolutions`; `none` if it runs for more than `fuel` passes.
/repo/libraries/ScrewTheoryLib/ScrewTheoryIkProblemBuilder.cpp:277-345. -/
noncomputable def searchLoop (es : List MatrixExp) (pts : List Vec3) : ℕ → Search → Option Search
  | 0, _ => none
  | fuel + 1, s =>
    let s' := pass es pts s
    if goesOn s' then searchLoop es pts fuel s' else some s'

/-- Number of passes after which the loop has ended (see property C19).
/repo/libraries/ScrewTheoryLib/ScrewTheoryIkProblemBuilder.cpp:277-345. -/
def passBound (n m : ℕ) : ℕ := (n + 1) * (m * m + m + 1)

/-- State before the loop, /repo/libraries/ScrewTheoryLib/ScrewTheoryIkProblemBuilder.cpp:236-239,277-291. -/
noncomputable def initial (n : ℕ) (pts : List Vec3) : Search :=
  ⟨List.replicate n ⟨false, false⟩, 0, 0, pts.getD 0 0, pts.getD 0 0, 0, []⟩

/-- `searchSolutions` after `searchPoints`,
/repo/libraries/ScrewTheoryLib/ScrewTheoryIkProblemBuilder.cpp:277-343. -/
noncomputable def searchSolutions (es : List MatrixExp) (pts : List Vec3) : Option Search :=
  searchLoop es pts (passBound es.length pts.length) (initial es.length pts)

/-- Outcome of one attempt of `build`: the steps if all terms are known.
/repo/libraries/ScrewTheoryLib/ScrewTheoryIkProblemBuilder.cpp:231-275. -/
noncomputable def attempt (rnd : ℕ → ℝ) (k : ℕ) (poe : Poe) :
    Option (ℕ × Option (List Subproblem)) := do
  let (k, pts) ← searchPoints rnd k poe
  let s ← searchSolutions poe.exps pts
  return (k, if s.terms.countP (·.known) = poe.exps.length then some s.steps else none)

/-- `build`, /repo/libraries/ScrewTheoryLib/ScrewTheoryIkProblemBuilder.cpp:231-273: outer `none` if
it does not return, inner `none` for a null pointer. The subproblems are returned along with
the problem. -/
noncomputable def build (rnd : ℕ → ℝ) (poe : Poe) : Option (Option (IkProblem × List Subproblem)) := do
  let (k, r) ← attempt rnd 0 poe
  match r with
  | some subs => return some (⟨poe, subs.map Subproblem.toStep, false⟩, subs)
  | none =>
    let (_, r') ← attempt rnd k poe.reverseSelf
    match r' with
    | some subs => return some (⟨poe.reverseSelf, subs.map Subproblem.toStep, true⟩, subs)
    | none => return none

end Builder

end KD
