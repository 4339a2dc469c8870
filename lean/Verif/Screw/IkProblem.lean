import Verif.Screw.Poe
import Verif.Screw.Subproblems

/-!
# /repo/libraries/ScrewTheoryLib/ScrewTheoryIkProblem.{hpp,cpp}

Vectors are lists. Every read or write through a computed index is checked: out of range is
undefined behaviour in C++ and `none` here. `none` also stands for non-finite values produced by
a subproblem (see `LocalResult`).
-/

namespace KD

/-- `ScrewTheoryIkSubproblem`, the abstract interface
(/repo/libraries/ScrewTheoryLib/ScrewTheoryIkProblem.hpp:25-83). -/
structure Step where
  solve : Frame → Frame → LocalResult
  count : ℕ

/-- A subproblem seen through its interface. /repo/libraries/ScrewTheoryLib/ScrewTheoryIkProblem.cpp:17-38. -/
noncomputable def Subproblem.toStep (s : Subproblem) : Step := ⟨s.solve, s.count⟩

/-- `poe_term`, /repo/libraries/ScrewTheoryLib/ScrewTheoryIkProblem.hpp:144-149. -/
inductive TermState
  | known
  | computed
  | unknown
  deriving DecidableEq

/-- Vector element assignment `l[i] = a`; `none` out of range.
/repo/libraries/ScrewTheoryLib/ScrewTheoryIkProblem.cpp:62-154. -/
def writeAt {α : Type} (l : List α) (i : ℕ) (a : α) : Option (List α) :=
  if i < l.length then some (l.set i a) else none

/-- `std::vector::resize(n)` with `d` as value-initialised element.
/repo/libraries/ScrewTheoryLib/ScrewTheoryIkProblem.cpp:62-154. -/
def resizeTo {α : Type} (l : List α) (n : ℕ) (d : α) : List α :=
  l.take n ++ List.replicate (n - l.length) d

/-- `ScrewTheoryIkProblem` (private members,
/repo/libraries/ScrewTheoryLib/ScrewTheoryIkProblem.hpp:162-169). -/
structure IkProblem where
  poe : Poe
  steps : List Step
  reversed : Bool

namespace IkProblem

/-- `computeSolutions`, /repo/libraries/ScrewTheoryLib/ScrewTheoryIkProblem.cpp:19-38. -/
def soln (pb : IkProblem) : ℕ :=
  if pb.steps = [] then 0 else pb.steps.foldl (fun n s => n * s.count) 1

/-- `getTheta`, /repo/libraries/ScrewTheoryLib/ScrewTheoryIkProblem.cpp:14-17. The callers pass
indices below the number of POE terms, which is the size of every joint array. -/
def getTheta (q : List ℝ) (i : ℕ) (reversed : Bool) : ℝ :=
  if reversed then -q.getD (q.length - 1 - i) 0 else q.getD i 0

/-- Forward loop of `recalculateFrames(solutions, frames, poeTerms, false)`,
/repo/libraries/ScrewTheoryLib/ScrewTheoryIkProblem.cpp:188-217. `es` and `ts` are the terms from
index `i` on; returns the new states, the new frames and `hasMultipliedTerms`. -/
noncomputable def forwardLoop (reversed : Bool) (sols : List (List ℝ)) :
    List MatrixExp → List TermState → ℕ → List Frame → Bool →
    List TermState × List Frame × Bool
  | e :: es, .known :: ts, i, frames, _ =>
    let frames' := List.zipWith (fun f q => f * e.asFrame (getTheta q i reversed)) frames sols
    let r := forwardLoop reversed sols es ts (i + 1) frames' true
    (.computed :: r.1, r.2)
  | _ :: es, .computed :: ts, i, frames, b =>
    let r := forwardLoop reversed sols es ts (i + 1) frames b
    (.computed :: r.1, r.2)
  | _ :: _, .unknown :: ts, _, frames, b => (.unknown :: ts, frames, b)
  | _, ts, _, frames, b => (ts, frames, b)

/-- `recalculateFrames(solutions, frames, poeTerms, true)`,
/repo/libraries/ScrewTheoryLib/ScrewTheoryIkProblem.cpp:182-220. The statement
`i = poeTerms.size() - 1 - i` reassigns the loop variable, hence the loop visits the last
term only and leaves. -/
noncomputable def backwardLoop (reversed : Bool) (sols : List (List ℝ)) (es : List MatrixExp)
    (ts : List TermState) (frames : List Frame) : List TermState × List Frame × Bool :=
  match es.getLast?, ts.getLast? with
  | some e, some .known =>
    (ts.dropLast ++ [.computed],
      List.zipWith (fun f q => f * e.asFrame (getTheta q (ts.length - 1) reversed)) frames sols,
      true)
  | _, _ => (ts, frames, false)

/-- `recalculateFrames(solutions, frames, poeTerms)`,
/repo/libraries/ScrewTheoryLib/ScrewTheoryIkProblem.cpp:157-178. -/
noncomputable def recalculateFrames (pb : IkProblem) (sols : List (List ℝ)) (frames : List Frame)
    (ts : List TermState) : List Frame × List TermState :=
  let pre := forwardLoop pb.reversed sols pb.poe.exps ts 0 (List.replicate sols.length 1) false
  let frames1 := if pre.2.2 then List.zipWith (fun p f => p.inv * f) pre.2.1 frames else frames
  let post := backwardLoop pb.reversed sols pb.poe.exps pre.1 (List.replicate sols.length 1)
  let frames2 := if post.2.2 then List.zipWith (fun f p => f * p.inv) frames1 post.2.1 else frames1
  (frames2, post.1)

/-- Loop of `transformPoint`, /repo/libraries/ScrewTheoryLib/ScrewTheoryIkProblem.cpp:231-258.
`rts` lists the states from the last term down to the first, with the frame of each
term. -/
def transformLoop : List (TermState × Frame) → Frame → Bool → Bool → Frame
  | [], H, _, _ => H
  | (.known, F) :: r, H, _, u => transformLoop r (F * H) true u
  | (.unknown, _) :: r, H, k, _ => if k then H else transformLoop r H k true
  | (.computed, _) :: r, H, k, u => if k || u then H else transformLoop r H k u

/-- The frames `exp_i.asFrame(getTheta(q, i, reversed))` of all terms.
/repo/libraries/ScrewTheoryLib/ScrewTheoryIkProblem.cpp:182-222. -/
noncomputable def termFrames (pb : IkProblem) (q : List ℝ) : List Frame :=
  pb.poe.exps.mapIdx fun i e => e.asFrame (getTheta q i pb.reversed)

/-- `transformPoint`, /repo/libraries/ScrewTheoryLib/ScrewTheoryIkProblem.cpp:224-261. -/
noncomputable def transformPoint (pb : IkProblem) (q : List ℝ) (ts : List TermState) : Frame :=
  transformLoop (ts.zip (pb.termFrames q)).reverse 1 false false

/-- Loop over the pairs of one local solution,
/repo/libraries/ScrewTheoryLib/ScrewTheoryIkProblem.cpp:129-145: updates `poeTerms` and one
joint array. -/
def writePairs (n : ℕ) (reversed : Bool) : LocalSol → List TermState → List ℝ →
    Option (List TermState × List ℝ)
  | [], ts, q => some (ts, q)
  | (id, θ) :: l, ts, q => do
    let ts' ← writeAt ts id .known
    let q' ← if reversed then writeAt q (n - 1 - id) (-θ) else writeAt q id θ
    writePairs n reversed l ts' q'

/-- State of `solve`. /repo/libraries/ScrewTheoryLib/ScrewTheoryIkProblem.cpp:62-154. -/
structure State where
  sols : List (List ℝ)
  rhs : List Frame
  terms : List TermState
  reachable : Bool

/-- Replication loop, /repo/libraries/ScrewTheoryLib/ScrewTheoryIkProblem.cpp:113-120, for
`k, ..., k + m - 1`. -/
def replicateLoop (prev j : ℕ) : ℕ → ℕ → List (List ℝ) → List Frame →
    Option (List (List ℝ) × List Frame)
  | _, 0, sols, rhs => some (sols, rhs)
  | k, m + 1, sols, rhs => do
    let q ← sols[j]?
    let sols' ← writeAt sols (j + prev * k) q
    let F ← rhs[j]?
    let rhs' ← writeAt rhs (j + prev * k) F
    replicateLoop prev j (k + 1) m sols' rhs'

/-- Loop over the local solutions, /repo/libraries/ScrewTheoryLib/ScrewTheoryIkProblem.cpp:124-146,
from index `k` on. -/
def storeLoop (n : ℕ) (reversed : Bool) (prev j : ℕ) : ℕ → List LocalSol → List TermState →
    List (List ℝ) → Option (List TermState × List (List ℝ))
  | _, [], ts, sols => some (ts, sols)
  | k, l :: ls, ts, sols => do
    let q ← sols[j + prev * k]?
    let (ts', q') ← writePairs n reversed l ts q
    let sols' ← writeAt sols (j + prev * k) q'
    storeLoop n reversed prev j (k + 1) ls ts' sols'

/-- Body of the loop over previous solutions,
/repo/libraries/ScrewTheoryLib/ScrewTheoryIkProblem.cpp:95-147. -/
noncomputable def branchBody (pb : IkProblem) (step : Step) (prev j : ℕ) (st : State) :
    Option State := do
  let q ← st.sols[j]?
  let H := pb.transformPoint q st.terms
  let F ← st.rhs[j]?
  let (ok, partials) ← step.solve F H
  let (sols, rhs) ←
    if partials.length > 1 then
      replicateLoop prev j 1 (partials.length - 1)
        (resizeTo st.sols (prev * partials.length) [])
        (resizeTo st.rhs (prev * partials.length) 1)
    else some (st.sols, st.rhs)
  let (ts, sols') ← storeLoop pb.poe.exps.length pb.reversed prev j 0 partials st.terms sols
  pure ⟨sols', rhs, ts, st.reachable && ok⟩

/-- Loop over previous solutions, for `j, ..., j + m - 1`.
/repo/libraries/ScrewTheoryLib/ScrewTheoryIkProblem.cpp:100-150. -/
noncomputable def branchLoop (pb : IkProblem) (step : Step) (prev : ℕ) :
    ℕ → ℕ → State → Option State
  | _, 0, st => some st
  | j, m + 1, st => do branchLoop pb step prev (j + 1) m (← branchBody pb step prev j st)

/-- Loop over steps, /repo/libraries/ScrewTheoryLib/ScrewTheoryIkProblem.cpp:83-150. -/
noncomputable def stepsLoop (pb : IkProblem) : List Step → Bool → State → Option State
  | [], _, st => some st
  | step :: steps, first, st => do
    let st1 : State :=
      if first then st
      else
        let r := pb.recalculateFrames st.sols st.rhs st.terms
        { st with rhs := r.1, terms := r.2 }
    let st2 ← branchLoop pb step st1.sols.length 0 st1.sols.length st1
    stepsLoop pb steps false st2

/-- Right-hand side at the start, /repo/libraries/ScrewTheoryLib/ScrewTheoryIkProblem.cpp:78. -/
def initialRhs (pb : IkProblem) (target : Frame) : Frame :=
  (if pb.reversed then target.inv else target) * pb.poe.tool.inv

/-- `solve`, /repo/libraries/ScrewTheoryLib/ScrewTheoryIkProblem.cpp:62-153. `out` is the previous
content of the output vector, cleared first. -/
noncomputable def solve (pb : IkProblem) (target : Frame) (out : List (List ℝ)) :
    Option (Bool × List (List ℝ)) := do
  let cleared : List (List ℝ) := if out = [] then out else []
  let n := pb.poe.exps.length
  let st ← stepsLoop pb pb.steps true
    ⟨cleared ++ [List.replicate n 0], [pb.initialRhs target], List.replicate n .unknown, true⟩
  pure (st.reachable, st.sols)

end IkProblem

end KD
