/-!
# How the programs begin and end

`main`, the order of the calls in `configure`, `interruptModule`, `close` and the destructor of the four programs, with
the pointers and devices that the end of a program depends on. What a program does while it runs is modelled elsewhere.

Of YARP, this is taken for granted. A signal (or a typed Escape) calls `interruptModule` at once, also while the program
is being configured, because the handler is set by the constructor of `RFModule`. `runModule(rf)` configures, answers 1
if that fails, and otherwise does as `runModule()`, which calls `updateModule` until it answers `false` or a signal came,
then `close`, and answers 0. `view` leaves a null pointer if it fails. Signals are looked at between two of the calls
below.
-/

namespace KD.Life

/-- A pointer: not yet given a value, null, or of an object that was made. -/
inductive Ptr
  | garbage
  | null
  | live
  deriving DecidableEq

/-- The programs in /repo/programs. -/
inductive Pgm
  | keyboard
  | streaming
  | haar
  | force
  deriving DecidableEq

/-- Options that choose which calls are made: `board`, `cart` and `pose` of
/repo/programs/keyboardController/KeyboardController.cpp:117-118 and 274-275, `sensors` and `move` of
/repo/programs/haarDetectionController/HaarDetectionController.cpp:56 and 88, and `dry`, `tool` and `impedance` of
/repo/programs/ftCompensation/FtCompensation.cpp:60, 74 and 211. -/
structure Opts where
  board : Bool := false
  cart : Bool := false
  pose : Bool := false
  sensors : Bool := false
  move : Bool := false
  dry : Bool := false
  tool : Bool := false
  impedance : Bool := false

/-- What the end of the program depends on: the interface of the Cartesian controller (`ctl`), the object that the
program made (`own`: streaming device or thread), the last interface of the second device (`sec`), whether both devices
are open, `usingThread` (`flag`), whether a thread of the program runs, and `dryRun`.
/repo/programs/keyboardController/KeyboardController.hpp:78-107,
/repo/programs/streamingDeviceController/StreamingDeviceController.hpp:46-63,
/repo/programs/haarDetectionController/HaarDetectionController.hpp:37-46,
/repo/programs/ftCompensation/FtCompensation.hpp:51-71. -/
structure Core where
  ctl : Ptr
  own : Ptr
  sec : Ptr := .null
  client : Bool := false
  second : Bool := false
  flag : Bool := false
  thread : Bool := false
  dry : Option Bool := none
  deriving DecidableEq

/-- Whom the program has told to stop. -/
inductive Tell
  | cartesian
  | board
  deriving DecidableEq

/-- Settings of the terminal: as found, for reading keys, or all zero.
/repo/programs/keyboardController/KeyboardController.cpp:88-109. -/
inductive Term
  | found
  | keys
  | zeroed
  deriving DecidableEq

/-- The state of a program. `saved` tells if the settings of the terminal were kept in `ots`, and `nonblock` if its
files no longer block, /repo/programs/keyboardController/KeyboardController.cpp:46 and 88-110. -/
structure St where
  core : Core
  told : List Tell := []
  term : Term := .found
  saved : Bool := false
  nonblock : Bool := false
  deriving DecidableEq

/-- Members after construction: only those of the keyboard controller have an initial value.
/repo/programs/keyboardController/KeyboardController.hpp:90-102,
/repo/programs/streamingDeviceController/StreamingDeviceController.hpp:46-49,
/repo/programs/haarDetectionController/HaarDetectionController.hpp:41,
/repo/programs/ftCompensation/FtCompensation.hpp:52. The last two make no object of their own. -/
def construct : Pgm → St
  | .keyboard => { core := { ctl := .null, own := .null } }
  | .streaming => { core := { ctl := .garbage, own := .garbage } }
  | .haar => { core := { ctl := .garbage, own := .null } }
  | .force => { core := { ctl := .garbage, own := .null } }

/-- Calls of `configure` that matter here. All but `make`, `flag`, `setDry`, `stop` and `tty` can fail. `ask` stands
for any call or check that changes none of the above.
/repo/programs/keyboardController/KeyboardController.cpp:113-306 and the other `configure`s, see `acts`. -/
inductive Act
  | ask
  | openClient
  | viewCtl
  | openSecond
  | viewSecond
  | make
  | flag
  | start
  | setDry (b : Bool)
  | stop
  | tty
  deriving DecidableEq

/-- The calls of `configure` in their order:
/repo/programs/keyboardController/KeyboardController.cpp:120, 142-207, 242-254, 274-296 and 301-302,
/repo/programs/streamingDeviceController/StreamingDeviceController.cpp:46-90, 96-133, 135-178 and 182-199,
/repo/programs/haarDetectionController/HaarDetectionController.cpp:44-54, 56-80, 82 and 88-108,
/repo/programs/ftCompensation/FtCompensation.cpp:38-60, 74-79, 105-111, 132-143, 155-206, 211-223, 248-318 and 325. -/
def acts (o : Opts) : Pgm → List Act
  | .keyboard =>
    [.ask] ++
    (if o.board then [.openSecond, .ask, .ask, .ask, .ask, .viewSecond, .ask, .ask, .ask] else []) ++
    (if o.cart then [.openClient, .viewCtl, .ask, .ask] ++ (if o.pose then [.flag, .make, .ask, .start] else [])
     else []) ++
    [.stop, .tty]
  | .streaming => [.make, .ask, .ask, .openClient, .viewCtl, .ask, .ask, .ask, .ask, .ask]
  | .haar =>
    [.openClient, .viewCtl] ++ (if o.sensors then [.openSecond, .viewSecond] else []) ++ [.ask] ++
    (if o.move then [.ask, .ask] else [])
  | .force =>
    [.ask, .setDry o.dry, .ask, .ask, .ask, .ask, .openSecond, .viewSecond, .ask, .ask, .ask, .ask, .ask] ++
    (if !o.dry || o.tool || o.impedance then
      [.ask, .openClient, .viewCtl] ++ (if !o.dry then [.ask, .ask, .ask] else []) ++
      (if o.tool then [.ask] else []) ++ (if o.impedance then [.ask] else []) else []) ++
    [.start]

/-- `issueStop`, /repo/programs/keyboardController/KeyboardController.cpp:757-793: `none` if a pointer is followed that
leads nowhere. The gripper is left out, as its state is only changed by keys. -/
def issueStop (c : Core) : Option (List Tell) :=
  if c.client then
    if c.flag ∧ c.own ≠ .live then none
    else if c.ctl ≠ .live then none
    else some [.cartesian]
  else if c.second then
    if c.sec ≠ .live then none else some [.board]
  else some []

/-- `interruptModule`: /repo/programs/keyboardController/KeyboardController.cpp:452-459 and 89-93,
/repo/programs/streamingDeviceController/StreamingDeviceController.cpp:315-324,
/repo/programs/haarDetectionController/HaarDetectionController.cpp:142-152,
/repo/programs/ftCompensation/FtCompensation.cpp:440-444. `none` is undefined behaviour: a pointer without value is
looked at, or one followed that leads nowhere or to a device that was closed. -/
def interrupt (p : Pgm) (s : St) : Option St :=
  let c := s.core
  match p with
  | .keyboard => (issueStop c).map fun t =>
      { s with told := s.told ++ t, term := if s.saved then .found else .zeroed }
  | .streaming => if c.ctl = .live ∧ c.client then some { s with told := s.told ++ [.cartesian] } else none
  | .haar =>
    match c.ctl with
    | .garbage => none
    | .null => some s
    | .live => if c.client then some { s with told := s.told ++ [.cartesian] } else none
  | .force =>
    let s' := { s with core := { c with thread := false } }
    match c.dry with
    | none => none
    | some true => some s'
    | some false => if c.ctl = .live ∧ c.client then some { s' with told := s.told ++ [.cartesian] } else none

/-- One call of `configure`, which the outside world lets succeed or not: the state after it and whether to go on. See
`Act` and `acts`; `tty` is /repo/programs/keyboardController/KeyboardController.cpp:96-110. -/
def Act.run (a : Act) (ok : Bool) (s : St) : Option (St × Bool) :=
  let c := s.core
  match a with
  | .ask => some (s, ok)
  | .openClient => some ({ s with core := { c with client := ok } }, ok)
  | .viewCtl => some ({ s with core := { c with ctl := if ok then .live else .null } }, ok)
  | .openSecond => some ({ s with core := { c with second := ok } }, ok)
  | .viewSecond => some ({ s with core := { c with sec := if ok then .live else .null } }, ok)
  | .make => some ({ s with core := { c with own := .live } }, true)
  | .flag => some ({ s with core := { c with flag := true } }, true)
  | .start => some ({ s with core := { c with thread := ok } }, ok)
  | .setDry b => some ({ s with core := { c with dry := some b } }, true)
  | .stop => (issueStop c).map fun t => ({ s with told := s.told ++ t }, true)
  | .tty => some ({ s with saved := true, term := .keys, nonblock := true }, true)

/-- What happens outside: whether there is a network, which calls of `configure` succeed, before which of them a signal
comes, whether the program ends by itself (or by a signal), what closing the client answers, and if a signal comes after
`close`. -/
structure World where
  network : Bool := true
  ok : Nat → Bool := fun _ => true
  signal : Nat → Bool := fun _ => false
  itself : Bool := false
  closed : Bool := true
  late : Bool := false

/-- A signal, if there is one. -/
def signalIf (p : Pgm) (b : Bool) (s : St) : Option St := if b then interrupt p s else some s

/-- `configure`, from call `i` on: the state and the answer. /repo/programs, see `acts`. -/
def configure (p : Pgm) (w : World) : Nat → List Act → St → Option (St × Bool)
  | _, [], s => some (s, true)
  | i, a :: l, s =>
    (signalIf p (w.signal i) s).bind fun s =>
    (a.run (w.ok i) s).bind fun r =>
    if r.2 then configure p w (i + 1) l r.1 else some (r.1, false)

/-- `close`: /repo/programs/keyboardController/KeyboardController.cpp:466-479,
/repo/programs/streamingDeviceController/StreamingDeviceController.cpp:326-350,
/repo/programs/haarDetectionController/HaarDetectionController.cpp:154-158,
/repo/programs/ftCompensation/FtCompensation.cpp:451-456. `none` is undefined behaviour: a pointer without value is
deleted, a null pointer followed, or the devices are closed under a thread that runs. -/
def close (p : Pgm) (w : World) (s : St) : Option (St × Bool) :=
  let c := s.core
  match p with
  | .keyboard =>
    if c.client ∧ c.flag then
      if c.own ≠ .live then none
      else some ({ s with core := { c with own := .null, thread := false, client := false, second := false } }, true)
    else some ({ s with core := { c with client := false, second := false } }, true)
  | .streaming =>
    if c.own = .garbage then none
    else some ({ s with core := { c with own := .null, client := false } }, w.closed)
  | .haar => some ({ s with core := { c with client := false, second := false } }, w.closed)
  | .force =>
    if c.thread then none
    else some ({ s with core := { c with client := false, second := false } }, true)

/-- The loop of `runModule`, until its end: a signal, or an `updateModule` that answers `false`, which is that of
/repo/programs/haarDetectionController/HaarDetectionController.cpp:116-140 (a target, seen by sensors) and
/repo/programs/ftCompensation/FtCompensation.cpp:435-438 (the thread has ended). The other two always answer `true`. -/
def loop (p : Pgm) (w : World) (s : St) : Option St :=
  match p with
  | .haar =>
    if w.itself ∧ s.core.second then
      if s.core.ctl = .live ∧ s.core.client then
        some { s with core := { s.core with second := false }, told := s.told ++ [.cartesian] }
      else none
    else interrupt p s
  | .force => if w.itself then some { s with core := { s.core with thread := false } } else interrupt p s
  | _ => interrupt p s

/-- The end of a program: undefined behaviour, or the number `main` answers and what is left. -/
inductive End
  | crash
  | exit (code : Nat) (s : St)
  deriving DecidableEq

/-- The destructor closes again: /repo/programs/keyboardController/KeyboardController.hpp:39-40,
/repo/programs/streamingDeviceController/StreamingDeviceController.hpp:33-34,
/repo/programs/haarDetectionController/HaarDetectionController.hpp:28-29,
/repo/programs/ftCompensation/FtCompensation.hpp:32-33. -/
def destruct (p : Pgm) (w : World) (code : Nat) (s : St) : End :=
  match close p w s with
  | none => .crash
  | some (s, _) =>
    match signalIf p w.late s with
    | none => .crash
    | some s => .exit code s

/-- `main`: /repo/programs/keyboardController/main.cpp:21-46, /repo/programs/streamingDeviceController/main.cpp:17-40,
/repo/programs/haarDetectionController/main.cpp:19-39, /repo/programs/ftCompensation/main.cpp:17-35. -/
def main (p : Pgm) (o : Opts) (w : World) : End :=
  if !w.network then destruct p w 1 (construct p)
  else
    match configure p w 0 (acts o p) (construct p) with
    | none => .crash
    | some (s, true) =>
      match loop p w s with
      | none => .crash
      | some s =>
        match close p w s with
        | none => .crash
        | some (s, _) => destruct p w 0 s
    | some (s, false) =>
      if p = .keyboard ∨ p = .streaming then
        match close p w s with
        | none => .crash
        | some (s, a) => destruct p w (if a then 0 else 1) s
      else destruct p w 1 s

end KD.Life
