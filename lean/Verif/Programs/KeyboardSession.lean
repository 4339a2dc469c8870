import Verif.Programs.Keyboard

/-!
# Characters typed at the keyboard controller

The `switch` of `updateModule`, /repo/programs/keyboardController/KeyboardController.cpp:308-450, with the keys that
only print something, and the end of the program on Escape.
-/

namespace KD.Kbd

/-- What a character stands for.
/repo/programs/keyboardController/KeyboardController.cpp:308-449 and /repo/programs/keyboardController/LinearTrajectoryThread.cpp:96. -/
inductive Stroke
  /-- one of the keys of `press` -/
  | key (k : Key)
  /-- something is printed -/
  | print
  /-- the program ends, lines 321-323 -/
  | exit

/-- The `switch`, /repo/programs/keyboardController/KeyboardController.cpp:317-447, with `printJointPositions` (lines
724-737) and `printCartesianPositions` (lines 739-755), which stop if the device is not in use. A byte read from the
terminal is taken as the character with that code. -/
def stroke (c : Cfg) (ch : Char) : Stroke :=
  if ch = '\x1b' then .exit
  else if ch = '?' then .print
  else if ch = 'j' then (if c.board then .print else .key .stop)
  else if ch = 'p' then (if c.cart then .print else .key .stop)
  else if ch = '1' then .key (.joint 0 true)
  else if ch = 'q' then .key (.joint 0 false)
  else if ch = '2' then .key (.joint 1 true)
  else if ch = 'w' then .key (.joint 1 false)
  else if ch = '3' then .key (.joint 2 true)
  else if ch = 'e' then .key (.joint 2 false)
  else if ch = '4' then .key (.joint 3 true)
  else if ch = 'r' then .key (.joint 3 false)
  else if ch = '5' then .key (.joint 4 true)
  else if ch = 't' then .key (.joint 4 false)
  else if ch = '6' then .key (.joint 5 true)
  else if ch = 'y' then .key (.joint 5 false)
  else if ch = '7' then .key (.joint 6 true)
  else if ch = 'u' then .key (.joint 6 false)
  else if ch = '8' then .key (.joint 7 true)
  else if ch = 'i' then .key (.joint 7 false)
  else if ch = '9' then .key (.joint 8 true)
  else if ch = 'o' then .key (.joint 8 false)
  else if ch = 'a' then .key (.cart 0 true)
  else if ch = 'z' then .key (.cart 0 false)
  else if ch = 's' then .key (.cart 1 true)
  else if ch = 'x' then .key (.cart 1 false)
  else if ch = 'd' then .key (.cart 2 true)
  else if ch = 'c' then .key (.cart 2 false)
  else if ch = 'f' then .key (.cart 3 true)
  else if ch = 'v' then .key (.cart 3 false)
  else if ch = 'g' then .key (.cart 4 true)
  else if ch = 'b' then .key (.cart 4 false)
  else if ch = 'h' then .key (.cart 5 true)
  else if ch = 'n' then .key (.cart 5 false)
  else if ch = '0' then .key .toggleJointMode
  else if ch = 'm' then .key .toggleFrame
  else if ch = 'k' then .key (.gripper true)
  else if ch = 'l' then .key (.gripper false)
  else .key .stop

/-- What is typed until the program ends, and the calls that follow each character. Escape leads to
`interruptModule`, /repo/programs/keyboardController/KeyboardController.cpp:452-459; what was typed after it is not
read. A terminal that is closed without Escape ends the list. -/
noncomputable def session (c : Cfg) (s : St) : List (Char × Ans) → Option (St × List (List Ev))
  | [] => some (s, [])
  | (ch, a) :: l =>
    match stroke c ch with
    | .exit => some ((issueStop c s a).1, [(issueStop c s a).2])
    | .print => do
      let (s2, es) ← session c s l
      pure (s2, [] :: es)
    | .key k => do
      let (s1, e) ← press c s a k
      let (s2, es) ← session c s1 l
      pure (s2, e :: es)

end KD.Kbd
