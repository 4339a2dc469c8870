import Verif.Solver.KdlConfig
import Mathlib.Algebra.Order.Round
import Mathlib.Data.Nat.Log

/-!
# The scripts that read an arm from a table of DH parameters

/repo/scripts/python/kdl-from-csv.py prints the pose that an arm has with all joints at zero, as sixteen numbers to be
put in a configuration as `H0` or `HN`; /repo/scripts/python/roboview-from-csv.py gives the segments of the same arm to
a viewer. The arm comes from two files: the lengths, by name and in millimetres, and a table with one row for each link
whose cells are expressions with the names of joints and lengths. The names are replaced in the text of a cell before
Python evaluates it.
-/

namespace KD.DhTable

open KdlConfig

/-- A Python string. External to /repo. -/
abbrev Text := List Char

/-- `str.replace` with a text `old` that is not empty: the occurrences from the left that do not overlap; the first
`k` characters belong to an occurrence that was replaced. External; used at /repo/scripts/python/kdl-from-csv.py:47-64. -/
def replaceFrom (old new : Text) : ℕ → Text → Text
  | _, [] => []
  | k + 1, _ :: s => replaceFrom old new k s
  | 0, c :: s =>
    if old.isPrefixOf (c :: s) then new ++ replaceFrom old new (old.length - 1) s else c :: replaceFrom old new 0 s

/-- `str.replace`: an empty text is found before, between and after the characters. External; used at
/repo/scripts/python/kdl-from-csv.py:47-64. -/
def replace (old new s : Text) : Text :=
  if old = [] then new ++ s.flatMap (fun c => c :: new) else replaceFrom old new 0 s

/-- A dictionary from names to the texts that replace them, in the order of its items,
/repo/scripts/python/kdl-from-csv.py:27-34. -/
abbrev Dict := List (Text × Text)

/-- The loops that replace every name of a dictionary, /repo/scripts/python/kdl-from-csv.py:47-48, 49-50, 54-55, 56-57,
58-59 and 63-64. -/
def replaceAll (d : Dict) (s : Text) : Text := d.foldl (fun s kv => replace kv.1 kv.2 s) s

/-- The name of joint `i` and the text for it, /repo/scripts/python/kdl-from-csv.py:27-28. -/
def jointAt (i : ℕ) : Text × Text := ('q' :: Nat.toDigits 10 i, ['0', '.', '0'])

/-- `twoDigitJoints`, /repo/scripts/python/kdl-from-csv.py:27 and roboview-from-csv.py:20. -/
def twoDigits : Dict := (List.range' 10 18).map jointAt

/-- `oneDigitjoints`, /repo/scripts/python/kdl-from-csv.py:28 and roboview-from-csv.py:21. -/
def oneDigit : Dict := (List.range' 1 9).map jointAt

/-- An item added to a Python dictionary: a repeated name keeps its place and takes the new value. External; used at
/repo/scripts/python/kdl-from-csv.py:34. -/
def assign (k v : Text) : Dict → Dict
  | [] => [(k, v)]
  | (k', v') :: d => if k' = k then (k, v) :: d else (k', v') :: assign k v d

/-- What the scripts ask of Python: `str(float(t)/1000.0)` and `eval(t)`, where `none` is an exception; used at
/repo/scripts/python/kdl-from-csv.py:34, 51, 60, 65 and 67. -/
structure Python where
  metres : Text → Option Text
  eval : Text → Option ℝ

/-- One item of the dictionary of lengths, /repo/scripts/python/kdl-from-csv.py:34; `none` is an exception. -/
def addLength (py : Python) (d : Dict) (row : List Text) : Option Dict := do
  let name ← row[0]?
  let mm ← row[1]?
  let v ← py.metres mm
  return assign name v d

/-- The lengths, /repo/scripts/python/kdl-from-csv.py:31-34 and roboview-from-csv.py:24-27: the first row is skipped.
The rows are those of `csv.reader`. -/
def lengths (py : Python) (rows : List (List Text)) : Option Dict := (rows.drop 1).foldlM (addLength py) []

/-- The DH parameters of a link: offset and alpha in degrees, D and A in metres.
/repo/scripts/python/kdl-from-csv.py:46-67. -/
structure Dh where
  offset : ℝ
  d : ℝ
  a : ℝ
  alpha : ℝ

/-- One row of the table, /repo/scripts/python/kdl-from-csv.py:46-67 and roboview-from-csv.py:39-60; `none` is an
exception. -/
def readRow (py : Python) (ls : Dict) (row : List Text) : Option Dh := do
  let linkOffset ← row[1]?
  let offset ← py.eval (replaceAll oneDigit (replaceAll twoDigits linkOffset))
  let linkD ← row[2]?
  let d ← py.eval (replaceAll ls (replaceAll oneDigit (replaceAll twoDigits linkD)))
  let linkA ← row[3]?
  let a ← py.eval (replaceAll ls linkA)
  let linkAlpha ← row[4]?
  let alpha ← py.eval linkAlpha
  return ⟨offset, d, a, alpha⟩

/-- `degToRad`, /repo/scripts/python/kdl-from-csv.py:22-23 and roboview-from-csv.py:15-16. -/
noncomputable def degToRad (deg : ℝ) : ℝ := deg * Real.pi / 180

/-- The frame of a link, /repo/scripts/python/kdl-from-csv.py:74 and roboview-from-csv.py:67. -/
noncomputable def Dh.frame (l : Dh) : Frame := dhFrame l.a (degToRad l.alpha) l.d (degToRad l.offset)

/-- The segment of a link, /repo/scripts/python/kdl-from-csv.py:73-74 and roboview-from-csv.py:66-67. -/
noncomputable def Dh.segment (l : Dh) : Segment := Segment.make (joint .rotZ 1) l.frame

/-- The links of the table, /repo/scripts/python/kdl-from-csv.py:30-75 and roboview-from-csv.py:23-68: the first row is
skipped. -/
def links (py : Python) (lengthRows dhRows : List (List Text)) : Option (List Dh) := do
  let ls ← lengths py lengthRows
  (dhRows.drop 1).mapM (readRow py ls)

/-! ## The numbers printed -/

/-- The character of the last digit of `n`. External: part of `'%.15f'`, /repo/scripts/python/kdl-from-csv.py:85. -/
def digit (n : ℕ) : Char := Char.ofNat (48 + n % 10)

/-- The last `k` digits of `n`. External: part of `'%.15f'`, /repo/scripts/python/kdl-from-csv.py:85. -/
def padded : ℕ → ℕ → Text
  | 0, _ => []
  | k + 1, n => padded k (n / 10) ++ [digit n]

/-- The digits of `n`. External: part of `'%.15f'`, /repo/scripts/python/kdl-from-csv.py:85. -/
def whole (n : ℕ) : Text := padded (Nat.log 10 n + 1) n

/-- `'%.15f' % x`. External; used at /repo/scripts/python/kdl-from-csv.py:85. Simplified: a tie between two numbers of
fifteen decimals is rounded up, and there is no negative zero. -/
noncomputable def fixed15 (x : ℝ) : Text :=
  let n := (round (|x| * 10 ^ 15)).toNat
  open Classical in
  (if x < 0 then ['-'] else []) ++ whole (n / 10 ^ 15) ++ '.' :: padded 15 (n % 10 ^ 15)

/-- `str.rstrip` with one character. External; used at /repo/scripts/python/kdl-from-csv.py:85. -/
def rstrip (c : Char) (s : Text) : Text := (s.reverse.dropWhile (· == c)).reverse

/-- The local function `s`, /repo/scripts/python/kdl-from-csv.py:84-89. -/
noncomputable def number (x : ℝ) : Text :=
  let tmp := rstrip '.' (rstrip '0' (fixed15 x))
  if tmp = ['-', '0'] then ['0'] else tmp

/-- The numbers between the brackets of what is printed, /repo/scripts/python/kdl-from-csv.py:91-94. -/
noncomputable def printed (f : Frame) : List Text :=
  [number f.M.xx, number f.M.xy, number f.M.xz, number f.p.x,
    number f.M.yx, number f.M.yy, number f.M.yz, number f.p.y,
    number f.M.zx, number f.M.zy, number f.M.zz, number f.p.z,
    ['0'], ['0'], ['0'], ['1']]

/-- The whole script /repo/scripts/python/kdl-from-csv.py:20-94, given the rows of its two files; `none` is an
exception. -/
noncomputable def script (py : Python) (lengthRows dhRows : List (List Text)) : Option (List Text) := do
  let ls ← links py lengthRows dhRows
  let chain : Chain := ls.map Dh.segment
  let x ← Chain.fk chain (List.replicate (Chain.nJoints chain) 0)
  return printed x

/-- What /repo/scripts/python/roboview-from-csv.py:19-76 gives to the viewer: the segments and the limits of their
joints, in radians. -/
noncomputable def roboview (py : Python) (lengthRows dhRows : List (List Text)) :
    Option (List Segment × List ℝ × List ℝ) := do
  let ls ← links py lengthRows dhRows
  let segments := ls.map Dh.segment
  return (segments, (List.replicate segments.length (-180)).map degToRad,
    (List.replicate segments.length 180).map degToRad)

end KD.DhTable
