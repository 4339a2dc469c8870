import Mathlib.Data.Real.Basic
import Mathlib.Data.Fin.VecNotation
import Mathlib.Tactic.Ring
import Mathlib.Tactic.Linarith
import Mathlib.Tactic.NormNum
import Mathlib.Tactic.FinCases

/-!
# The keyboard controller

/repo/programs/keyboardController/KeyboardController.cpp. Keys that only print something are left out
(`Programs/KeyboardSession.lean` has them), and so is everything printed. Reals stand for `double`; `none` is undefined behaviour.
-/

namespace KD.Kbd

open scoped Classical

/-- `control_modes`, /repo/programs/keyboardController/KeyboardController.hpp:53. -/
inductive Mode
  | notControlling
  | joint
  | cartesian
deriving DecidableEq

/-- `joint_mode`, /repo/programs/keyboardController/KeyboardController.hpp:54. -/
inductive JointMode
  | position
  | velocity
deriving DecidableEq

/-- What `configure` sets once, /repo/programs/keyboardController/KeyboardController.cpp:117-299: which of
both devices are in use, the limits read from the control board, the steps, and whether Cartesian commands
are left to the thread that sends poses. -/
structure Cfg where
  board : Bool
  cart : Bool
  axes : ℕ
  minPos : ℕ → ℝ
  maxPos : ℕ → ℝ
  maxVel : ℕ → ℝ
  posStep : ℝ := 1
  velStep : ℝ := 1 / 2
  usingThread : Bool := false

/-- Members that change, /repo/programs/keyboardController/KeyboardController.hpp:78-107. `actuating` is
`currentActuatorCommand ≠ VOCAB_CC_ACTUATOR_NONE`, `threadOn` tells that the thread is not suspended, and
`threadVels` is what it was configured with. -/
structure St where
  mode : Mode := .notControlling
  jointMode : JointMode := .velocity
  jointVels : ℕ → ℝ := fun _ => 0
  cartVels : Fin 6 → ℝ := fun _ => 0
  actuating : Bool := false
  tcpFrame : Bool := false
  threadOn : Bool := false
  threadVels : Fin 6 → ℝ := fun _ => 0

/-- Keys, /repo/programs/keyboardController/KeyboardController.cpp:317-447. `esc` leads to
`interruptModule`, which stops like any unknown key. -/
inductive Key
  | joint (j : ℕ) (up : Bool)
  | cart (i : Fin 6) (up : Bool)
  | toggleJointMode
  | toggleFrame
  | gripper (open_ : Bool)
  | stop

/-- Answers of both devices to the calls that a key may cause.
/repo/programs/keyboardController/KeyboardController.cpp:482-805. -/
structure Ans where
  setModes : Bool := true
  encoders : Option (ℕ → ℝ) := none
  move : Bool := true
  configure : Bool := true
  setFrame : Bool := true
  act : Bool := true
  actStop : Bool := true
  stopControl : Bool := true
  boardStop : Bool := true

/-- Calls made. Answers are recorded with those calls whose failure matters.
/repo/programs/keyboardController/KeyboardController.cpp:482-805. -/
inductive Ev
  | positionMove (j : ℕ) (q : ℝ)
  | velocityMove (j : ℕ) (v : ℝ)
  /-- `IPositionControl::stop` or `IVelocityControl::stop` -/
  | boardStop (m : JointMode) (ok : Bool)
  | movv (v : Fin 6 → ℝ)
  /-- the thread is given new velocities and resumed -/
  | poses (v : Fin 6 → ℝ)
  /-- the thread is suspended -/
  | suspend
  | stopControl (ok : Bool)
  | actOpen
  | actClose
  | actStop
  | setFrame (tcp : Bool)

/-- `op(a, b)` with `increment_functor` or `decrement_functor`.
/repo/programs/keyboardController/KeyboardController.hpp:56-57. -/
noncomputable def op (up : Bool) (a b : ℝ) : ℝ := if up then a + b else a - b

/-- `issueStop`, /repo/programs/keyboardController/KeyboardController.cpp:757-808. -/
noncomputable def issueStop (c : Cfg) (s : St) (a : Ans) : St × List Ev :=
  let e : List Ev :=
    if c.cart then
      (if s.actuating then [.actStop] else []) ++ (if c.usingThread then [.suspend] else []) ++
        [.stopControl a.stopControl]
    else if c.board then [.boardStop s.jointMode a.boardStop]
    else []
  ({ s with
      actuating := if c.cart && s.actuating && a.actStop then false else s.actuating
      threadOn := if c.cart && c.usingThread then false else s.threadOn
      jointVels := if c.board then fun _ => 0 else s.jointVels
      cartVels := if c.cart then fun _ => 0 else s.cartVels
      mode := .notControlling }, e)

/-- Lines 491-494 and 586-589: stop first unless already in that mode.
/repo/programs/keyboardController/KeyboardController.cpp:491-494 and 586-589. -/
noncomputable def enter (c : Cfg) (m : Mode) (s : St) (a : Ans) : St × List Ev :=
  if s.mode ≠ m then issueStop c s a else (s, [])

/-- `std::clamp`: undefined if the bounds are swapped.
`std::clamp`, /repo/programs/keyboardController/KeyboardController.cpp:526. -/
noncomputable def clamp (x lo hi : ℝ) : Option ℝ :=
  if hi < lo then none else some (if x < lo then lo else if hi < x then hi else x)

/-- Lines 521-527. /repo/programs/keyboardController/KeyboardController.cpp:520-527. -/
noncomputable def target (c : Cfg) (j : ℕ) (up : Bool) (q : ℝ) : Option ℝ :=
  let q := op up q c.posStep
  if q < c.minPos j ∨ q > c.maxPos j then clamp q (c.minPos j) (c.maxPos j) else some q

/-- Lines 549-555. /repo/programs/keyboardController/KeyboardController.cpp:549-555. -/
noncomputable def velocity (c : Cfg) (j : ℕ) (up : Bool) (v : ℝ) : ℝ :=
  let v := op up v c.velStep
  if |v| > c.maxVel j then op up 0 1 * c.maxVel j else v

/-- `std::vector` assignment of one element.
No code of its own: an assignment to one entry of a vector of /repo/programs/keyboardController/KeyboardController.cpp. -/
noncomputable def set {n : Type} [DecidableEq n] (f : n → ℝ) (i : n) (x : ℝ) : n → ℝ :=
  fun k => if k = i then x else f k

/-- A stop after the given calls. /repo/programs/keyboardController/KeyboardController.cpp:757-805. -/
noncomputable def thenStop (c : Cfg) (s : St) (a : Ans) (e : List Ev) : St × List Ev :=
  ((issueStop c s a).1, e ++ (issueStop c s a).2)

/-- `incrementOrDecrementJointCommand`, /repo/programs/keyboardController/KeyboardController.cpp:481-574.
The change of control modes of the board is not recorded. -/
noncomputable def jointKey (c : Cfg) (s : St) (a : Ans) (j : ℕ) (up : Bool) : Option (St × List Ev) :=
  if !c.board then some (issueStop c s a)
  else
    let (s, e) := enter c .joint s a
    if c.axes ≤ j then some (thenStop c s a e)
    else if !a.setModes then some (thenStop c s a e)
    else
      match s.jointMode with
      | .position =>
        match a.encoders with
        | none => some (thenStop c s a e)
        | some q =>
          match target c j up (q j) with
          | none => none
          | some x =>
            let e := e ++ [.positionMove j x]
            if a.move then some ({ s with mode := .joint }, e) else some (thenStop c s a e)
      | .velocity =>
        let v := velocity c j up (s.jointVels j)
        let s := { s with jointVels := set s.jointVels j v }
        let e := e ++ [.velocityMove j v]
        if a.move then some ({ s with mode := .joint }, e) else some (thenStop c s a e)

/-- `roundZeroes`, /repo/programs/keyboardController/KeyboardController.cpp:71-86. -/
noncomputable def roundZeroes (v : Fin 6 → ℝ) : Fin 6 → ℝ :=
  fun i => if |v i| < 1 / 1000000 then 0 else v i

/-- Line 592. /repo/programs/keyboardController/KeyboardController.cpp:577-600. -/
noncomputable def cartStep (i : Fin 6) : ℝ := if i.val < 3 then 5 / 1000 else 1 / 100

/-- `incrementOrDecrementCartesianCommand`,
/repo/programs/keyboardController/KeyboardController.cpp:576-630. -/
noncomputable def cartKey (c : Cfg) (s : St) (a : Ans) (i : Fin 6) (up : Bool) : St × List Ev :=
  if !c.cart then issueStop c s a
  else
    let (s, e) := enter c .cartesian s a
    let v := set s.cartVels i (op up (s.cartVels i) (cartStep i))
    if roundZeroes v = fun _ => 0 then
      let s := { s with cartVels := fun _ => 0, mode := .cartesian }
      if c.usingThread then ({ s with threadOn := false }, e ++ [.suspend])
      else (s, e ++ [.movv fun _ => 0])
    else
      let s := { s with cartVels := v }
      if c.usingThread then
        if a.configure then
          ({ s with threadOn := true, threadVels := v, mode := .cartesian }, e ++ [.poses v])
        else (s, e)
      else ({ s with mode := .cartesian }, e ++ [.movv v])

/-- `toggleJointMode`, /repo/programs/keyboardController/KeyboardController.cpp:632-655. -/
noncomputable def toggleJointMode (c : Cfg) (s : St) (a : Ans) : St × List Ev :=
  let (s, e) := issueStop c s a
  if !c.board then (s, e)
  else ({ s with jointMode := match s.jointMode with | .position => .velocity | .velocity => .position }, e)

/-- `toggleReferenceFrame`, /repo/programs/keyboardController/KeyboardController.cpp:657-703. -/
noncomputable def toggleFrame (c : Cfg) (s : St) (a : Ans) : St × List Ev :=
  let (s, e) := issueStop c s a
  if !c.cart then (s, e)
  else if a.setFrame then ({ s with tcpFrame := !s.tcpFrame }, e ++ [.setFrame (!s.tcpFrame)])
  else (s, e)

/-- `actuateTool`, /repo/programs/keyboardController/KeyboardController.cpp:705-722. -/
noncomputable def gripperKey (c : Cfg) (s : St) (a : Ans) (o : Bool) : St × List Ev :=
  if !c.cart then issueStop c s a
  else ({ s with actuating := if a.act then true else s.actuating }, [if o then .actOpen else .actClose])

/-- `updateModule`, /repo/programs/keyboardController/KeyboardController.cpp:308-450. -/
noncomputable def press (c : Cfg) (s : St) (a : Ans) : Key → Option (St × List Ev)
  | .joint j up => jointKey c s a j up
  | .cart i up => some (cartKey c s a i up)
  | .toggleJointMode => some (toggleJointMode c s a)
  | .toggleFrame => some (toggleFrame c s a)
  | .gripper o => some (gripperKey c s a o)
  | .stop => some (issueStop c s a)

/-- A sequence of keys, and the calls they cause.
/repo/programs/keyboardController/KeyboardController.cpp:308-449, once for every key. -/
noncomputable def run (c : Cfg) (s : St) : List (Key × Ans) → Option (St × List (List Ev))
  | [] => some (s, [])
  | (k, a) :: l => do
    let (s1, e) ← press c s a k
    let (s2, es) ← run c s1 l
    pure (s2, e :: es)

end KD.Kbd
