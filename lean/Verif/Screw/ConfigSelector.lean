import Verif.Kdl.Basic
import Mathlib.Analysis.SpecialFunctions.Trigonometric.Basic

/-!
# /repo/libraries/ScrewTheoryLib/ConfigurationSelector*.{hpp,cpp}

Pointers to the caller's joint arrays are modelled by the values they point to, which is right as
long as the caller keeps the candidate arrays alive and unchanged until `retrievePose`; the
only caller in the repository (`ChainIkSolverPos_ST::CartToJnt`) does. Reading an array or
vector out of its bounds and following a null pointer are undefined behaviour: `none`.
-/

namespace KD

open scoped Classical

/-- `checkJointInLimits`, /repo/libraries/ScrewTheoryLib/ConfigurationSelector.cpp:13-16. -/
def jointInLimits (q lo hi : ℝ) : Prop := q ≥ lo - eps ∧ q ≤ hi + eps

/-- `Configuration::validate`, /repo/libraries/ScrewTheoryLib/ConfigurationSelector.cpp:39-53: stops
at the first joint out of limits; the limit arrays must cover the joints read. -/
noncomputable def validate : List ℝ → List ℝ → List ℝ → Option Bool
  | [], _, _ => some true
  | q :: qs, lo :: los, hi :: his =>
    if jointInLimits q lo hi then validate qs los his else some false
  | _ :: _, _, _ => none

/-- `Configuration`, /repo/libraries/ScrewTheoryLib/ConfigurationSelector.hpp:69-100; `q = none` is
the null pointer. -/
structure Config where
  q : Option (List ℝ)
  valid : Bool

/-- `ConfigurationSelectorLeastOverallAngularDisplacement` and, if `gait`, its subclass
`ConfigurationSelectorHumanoidGait`
(/repo/libraries/ScrewTheoryLib/ConfigurationSelector.hpp:102-106,121-172). `lastValid = none` is
`INVALID_CONFIG`. -/
structure Selector where
  gait : Bool
  qMin : List ℝ
  qMax : List ℝ
  optimal : Config
  configs : List Config
  lastValid : Option ℕ

namespace Selector

/-- Constructors, /repo/libraries/ScrewTheoryLib/ConfigurationSelector.hpp:28-31,73-76,130-133,164-166. -/
def make (gait : Bool) (qMin qMax : List ℝ) : Selector := ⟨gait, qMin, qMax, ⟨none, false⟩, [], none⟩

/-- `…LeastOverallAngularDisplacementFactory::create`,
/repo/libraries/ScrewTheoryLib/ConfigurationSelector.hpp:222-225. -/
def createLeast (qMin qMax : List ℝ) : Option Selector := some (make false qMin qMax)

/-- `…HumanoidGaitFactory::create`,
/repo/libraries/ScrewTheoryLib/ConfigurationSelector.hpp:251-261; `none` is the null pointer. -/
def createGait (qMin qMax : List ℝ) : Option Selector :=
  if qMin.length = 6 ∧ qMax.length = 6 then some (make true qMin qMax) else none

/-- `configure`, /repo/libraries/ScrewTheoryLib/ConfigurationSelector.cpp:21-35. -/
noncomputable def configure (s : Selector) (solutions : List (List ℝ)) : Option (Bool × Selector) := do
  let configs ← solutions.mapM fun q => do
    let v ← validate q s.qMin s.qMax
    return (⟨some q, v⟩ : Config)
  return (configs.any Config.valid, { s with configs := configs })

/-- `getDiffs` followed by `std::accumulate`,
/repo/libraries/ScrewTheoryLib/ConfigurationSelectorLeastOverallAngularDisplacement.cpp:36,58-71. -/
noncomputable def displacement : List ℝ → List ℝ → Option ℝ
  | [], _ => some 0
  | g :: gs, q :: qs => do
    let r ← displacement gs qs
    return |g - q| + r
  | _ :: _, [] => none

/-- Insertion into `std::set<std::pair<double, int>>`, kept sorted.
`std::map` of /repo/libraries/ScrewTheoryLib/ConfigurationSelectorLeastOverallAngularDisplacement.cpp. -/
noncomputable def insertSum (a : ℝ × ℕ) : List (ℝ × ℕ) → List (ℝ × ℕ)
  | [] => [a]
  | b :: l =>
    if a.1 < b.1 ∨ (a.1 = b.1 ∧ a.2 < b.2) then a :: b :: l
    else if b.1 < a.1 ∨ (b.1 = a.1 ∧ b.2 < a.2) then b :: insertSum a l
    else b :: l

/-- The loop over the configurations,
/repo/libraries/ScrewTheoryLib/ConfigurationSelectorLeastOverallAngularDisplacement.cpp:30-40. -/
noncomputable def collect (guess : List ℝ) : ℕ → List Config → List (ℝ × ℕ) → Option (List (ℝ × ℕ))
  | _, [], set => some set
  | i, c :: cs, set =>
    if c.valid then do
      let q ← c.q
      let sum ← displacement guess q
      collect guess (i + 1) cs (insertSum (sum, i) set)
    else collect guess (i + 1) cs set

/-- `ConfigurationSelectorLeastOverallAngularDisplacement::findOptimalConfiguration`,
/repo/libraries/ScrewTheoryLib/ConfigurationSelectorLeastOverallAngularDisplacement.cpp:12-56. -/
noncomputable def findLeast (s : Selector) (guess : List ℝ) : Option (Bool × Selector) :=
  match s.lastValid with
  | some i =>
    match s.configs[i]? with
    | none => none
    | some c => if c.valid then some (true, { s with optimal := c }) else some (false, s)
  | none => do
    let set ← collect guess 0 s.configs []
    match set with
    | [] => return (false, s)
    | a :: _ =>
      let c ← s.configs[a.2]?
      return (true, { s with optimal := c, lastValid := some a.2 })

/-- `applyConstraints`,
/repo/libraries/ScrewTheoryLib/ConfigurationSelectorHumanoidGait.cpp:29-64: the joints are
read in order until one is out of its range. -/
noncomputable def applyConstraints (q : List ℝ) : Option Bool := do
  let q0 ← q[0]?
  if |q0| > Real.pi / 2 then return false
  let q1 ← q[1]?
  if |q1| > Real.pi / 2 then return false
  let q2 ← q[2]?
  if |q2| > Real.pi / 2 then return false
  let q3 ← q[3]?
  if q3 < 0 then return false
  let q4 ← q[4]?
  if |q4| > Real.pi / 2 then return false
  let q5 ← q[5]?
  if |q5| > Real.pi / 2 then return false
  return true

/-- The loop of `ConfigurationSelectorHumanoidGait::findOptimalConfiguration`,
/repo/libraries/ScrewTheoryLib/ConfigurationSelectorHumanoidGait.cpp:18-24. -/
noncomputable def constrain (c : Config) : Option Config :=
  if c.valid then do
    let q ← c.q
    let ok ← applyConstraints q
    return if ok then c else { c with valid := false }
  else some c

/-- `findOptimalConfiguration` of either class,
/repo/libraries/ScrewTheoryLib/ConfigurationSelectorHumanoidGait.cpp:11-27. -/
noncomputable def find (s : Selector) (guess : List ℝ) : Option (Bool × Selector) :=
  if s.gait then
    if guess.length ≠ 6 then some (false, s)
    else do
      let configs ← s.configs.mapM constrain
      findLeast { s with configs := configs } guess
  else findLeast s guess

/-- `retrievePose`, /repo/libraries/ScrewTheoryLib/ConfigurationSelector.hpp:60-63. -/
def retrievePose (s : Selector) : Option (List ℝ) := s.optimal.q

/-- One use of a selector, as in /repo/libraries/YarpPlugins/KdlSolver/ChainIkSolverPos_ST.cpp:47-57:
`configure`, `findOptimalConfiguration` if it succeeded, `retrievePose` if that succeeded. The first
component is the pose retrieved, if any. -/
noncomputable def select (s : Selector) (solutions : List (List ℝ)) (guess : List ℝ) :
    Option (Option (List ℝ) × Selector) := do
  let (ok, s) ← s.configure solutions
  if ok then
    let (ok, s) ← s.find guess
    if ok then
      let q ← s.retrievePose
      return (some q, s)
    else return (none, s)
  else return (none, s)

end Selector

end KD
