import Verif.Screw.Builder

/-!
# The search of the builder, without coordinates

The builder (`Screw/Builder.lean`) asks of a point only on which axes it lies, and of two axes only
how they are placed. This file has the search over these answers, to decide it for every set of points.
-/

namespace KD.Sig

open Builder

/-- What the builder asks about the axes, by index. -/
structure Tab where
  rot : List Bool
  par : ℕ → ℕ → Bool
  perp : ℕ → ℕ → Bool
  col : ℕ → ℕ → Bool
  meet : ℕ → ℕ → Bool

/-- On which axes of rotation a point lies. -/
abbrev Mark := List Bool

def markWhile : List (Bool × PoeTerm) → List PoeTerm
  | [] => []
  | (b, t) :: l => if b then ⟨t.known, true⟩ :: markWhile l else t :: l.map Prod.snd

def markFrom : List (Bool × PoeTerm) → List PoeTerm
  | [] => []
  | (b, t) :: l => if t.isUnknown then markWhile ((b, t) :: l) else t :: markFrom l

namespace Tab

def planar (T : Tab) (i j : ℕ) : Bool :=
  match T.rot[i]?, T.rot[j]? with
  | some a, some b => if a = b then T.par i j else T.perp i j
  | _, _ => false

def normal (T : Tab) (i j : ℕ) : Bool :=
  match T.rot[i]?, T.rot[j]? with
  | some a, some b => if a = b then T.perp i j else T.par i j
  | _, _ => false

def planarDown (T : Tab) (idStart : ℕ) : ℕ → Bool
  | 0 => T.normal idStart (idStart + 1)
  | k + 1 => T.planar (idStart + k + 1) (idStart + k + 2) && T.planarDown idStart k

def planarUp (T : Tab) (idEnd : ℕ) : ℕ → Bool
  | 0 => T.normal (idEnd - 1) idEnd
  | k + 1 => T.planar (idEnd - (k + 1) - 1) (idEnd - (k + 1)) && T.planarUp idEnd k

def simplifyPG1 (T : Tab) (ts : List PoeTerm) : List PoeTerm :=
  let idStart := ts.findIdx PoeTerm.open_
  let idEnd1 := lastOpen ts
  if idEnd1 ≤ idStart + 1 then ts
  else
    let idEnd := idEnd1 - 1
    match T.rot[idStart]?, T.rot[idEnd]? with
    | some first, some last =>
      if first = false then
        if T.planarDown idStart (idEnd - 1 - idStart) then markRange (idStart + 1) (idEnd + 1) ts else ts
      else if last = false then
        if T.planarUp idEnd (idEnd - (idStart + 1)) then markRange idStart idEnd ts else ts
      else ts
    | _, _ => ts

def simplify (T : Tab) (depth : ℕ) (s0 s1 : Mark) (ts : List PoeTerm) : List PoeTerm :=
  let ts := (markFrom (s0.zip ts).reverse).reverse
  if depth = 1 then markFrom (s1.zip ts)
  else if T.rot.any (!·) then T.simplifyPG1 ts
  else ts

/-- The number of solutions of the subproblem and the new state of the terms. -/
def trySolve (T : Tab) (depth : ℕ) (s0 s1 : Mark) (ts : List PoeTerm) : Option (ℕ × List PoeTerm) :=
  let unknowns := ts.countP PoeTerm.open_
  if unknowns = 0 || decide (unknowns > 2) then none
  else
    let last := lastOpen ts - 1
    match T.rot[last]? with
    | none => none
    | some r =>
      if unknowns = 1 then
        if depth = 0 then
          if r && !(s0[last]?).getD false then some (1, setKnown ts last)
          else if !r then some (1, setKnown ts last)
          else none
        else if depth = 1 then
          if ts.any PoeTerm.knownOpen then none
          else if r && !(s0[last]?).getD false && !(s1[last]?).getD false then some (2, setKnown ts last)
          else if !r then some (2, setKnown ts last)
          else none
        else none
      else
        match ts[last - 1]?, T.rot[last - 1]? with
        | some t, some r' =>
          if t.open_ = false then none
          else if depth = 0 then
            let ts' := setKnown (setKnown ts last) (last - 1)
            if r && r' && !T.par last (last - 1) && T.meet last (last - 1) then some (2, ts')
            else if !r && !r' && !T.par last (last - 1) then some (1, ts')
            else if r && r' && T.par last (last - 1) && !T.col last (last - 1) then some (2, ts')
            else none
          else none
        | _, _ => none

/-- One pass: which terms are known, before and after. -/
def step (T : Tab) (depth : ℕ) (s0 s1 : Mark) (K : List Bool) : Option (ℕ × List Bool) :=
  (T.trySolve depth s0 s1 (T.simplify depth s0 s1 (refresh (K.map fun k => ⟨k, false⟩)))).map
    fun r => (r.1, r.2.map PoeTerm.known)

end Tab

/-- The known terms, the number of solutions so far, and whether two points were used at once. -/
structure St where
  known : List Bool
  count : ℕ
  two : Bool
  deriving DecidableEq, Repr

def St.done (s : St) : Bool := s.known.all id

namespace Tab

/-- Whether one of the points that are there leads on. -/
def leadsOne (T : Tab) (sure : List Mark) (s : St) : Bool := sure.any fun m => (T.step 0 m [] s.known).isSome

/-- Whether two of them do. -/
def leadsTwo (T : Tab) (sure : List Mark) (s : St) : Bool :=
  sure.any fun m0 => sure.any fun m1 => (T.step 1 m0 m1 s.known).isSome

/-- The states after one success, for the points there may be. Two points are tried when one does not lead on. -/
def next (T : Tab) (sure marks : List Mark) (s : St) : List St :=
  marks.filterMap (fun m => (T.step 0 m [] s.known).map fun r => ⟨r.2, s.count * r.1, s.two⟩) ++
  if T.leadsOne sure s then [] else
    marks.flatMap fun m0 => marks.filterMap fun m1 => (T.step 1 m0 m1 s.known).map fun r => ⟨r.2, s.count * r.1, true⟩

/-- The states after up to `n` successes. -/
def closure (T : Tab) (sure marks : List Mark) : ℕ → List St → List St
  | 0, l => l
  | n + 1, l => T.closure sure marks n ((l ++ l.flatMap (T.next sure marks)).dedup)

/-- The state before the search. -/
def start (T : Tab) : St := ⟨T.rot.map fun _ => false, 1, false⟩

/-- `R` has every state of the search, and the problems that are found have `N` solutions. -/
def holds (T : Tab) (sure marks : List Mark) (N : ℕ) (R : List St) : Bool :=
  R.contains T.start && R.all fun s => (T.next sure marks s).all R.contains && (!s.done || s.count == N)

/-- The search goes on until it has found a problem. -/
def goes (T : Tab) (sure : List Mark) (R : List St) : Bool :=
  R.all fun s => s.done || T.leadsOne sure s || (!s.two && T.leadsTwo sure s)

end Tab

end KD.Sig
