import Verif.Kdl.Lemmas
import Mathlib.Algebra.Order.Floor.Defs
import Mathlib.Data.Real.Archimedean

/-!
# The script that looks for a reachable cuboid

/repo/scripts/python/find-reachable-cuboid.py. Numbers are reals. The inverse kinematics, its initial guess and
the check of joint limits always yield the same verdict for the same position, as the orientation asked for and the
guess do not change: `reach` stands for them. What is printed besides the result is left out.
-/

namespace KD.Cuboid

/-! ## The three nested searches -/

/-- The inner loop shared by the three searches, /repo/scripts/python/find-reachable-cuboid.py:178-192, 203-216 and
224-238: the row of each index is merged into `acc`, and once the initial index `i` is reached, a candidate from `k0`
to the current index is tried. The search for a segment leaves the loop once `acc` turns false (lines 184-185), which
is modelled in `trySegment`: from then on it would try nothing. -/
def inner {ρ σ : Type} (i k0 : ℕ) (meet : ρ → ρ → ρ) (row : ℕ → ρ) (attempt : ρ → ℕ → ℕ → σ → σ) : List ℕ → ρ → σ → σ
  | [], _, s => s
  | k :: ks, acc, s =>
    let acc := meet acc (row k)
    if k < i then inner i k0 meet row attempt ks acc s
    else inner i k0 meet row attempt ks acc (attempt acc k0 k s)

/-- The outer loop shared by the three searches, /repo/scripts/python/find-reachable-cuboid.py:175-192, 200-216 and
220-238: the candidates start at the indices before the initial one. -/
def search {ρ σ : Type} (n i : ℕ) (top : ρ) (meet : ρ → ρ → ρ) (row : ℕ → ρ) (attempt : ρ → ℕ → ℕ → σ → σ) (s : σ) : σ :=
  (List.range i).foldl (fun s k0 => inner i k0 meet row attempt (List.range' k0 (n - k0)) top s) s

/-- `v[1] - v[0] + 1`, /repo/scripts/python/find-reachable-cuboid.py:212 and 234; the end never precedes the start. -/
def len (r : ℕ × ℕ) : ℕ := r.2 - r.1 + 1

/-- Keep the candidate if larger than the best one so far, /repo/scripts/python/find-reachable-cuboid.py:190-192,
214-216 and 236-238. -/
def keep {β : Type} (c : β) (m : ℕ) (s : β × ℕ) : β × ℕ := if m > s.2 then (c, m) else s

/-- A candidate for segment, /repo/scripts/python/find-reachable-cuboid.py:184-192. -/
def trySegment (ok : Bool) (z0 z : ℕ) (s : (ℕ × ℕ) × ℕ) : (ℕ × ℕ) × ℕ :=
  if ok then keep (z0, z) (z - z0 + 1) s else s

/-- `find_largest_segment`, /repo/scripts/python/find-reachable-cuboid.py:171-194. `best` is the range of heights of
the largest cuboid found so far, a global variable. -/
def segment (n i : ℕ) (best : ℕ × ℕ) (vector : ℕ → Bool) : ℕ × ℕ :=
  (search n i true (fun a b => a && b) vector trySegment (best, 1)).1

/-- A candidate for rectangle, /repo/scripts/python/find-reachable-cuboid.py:210-216. -/
def tryArea (nz iz : ℕ) (best : ℕ × ℕ) (array1d : ℕ → Bool) (y0 y : ℕ) (s : ((ℕ × ℕ) × (ℕ × ℕ)) × ℕ) :
    ((ℕ × ℕ) × (ℕ × ℕ)) × ℕ :=
  let c := ((y0, y), segment nz iz best array1d)
  keep c (len c.1 * len c.2) s

/-- `find_largest_area`, /repo/scripts/python/find-reachable-cuboid.py:196-218. `best` is taken from the largest cuboid
found so far, a global variable. -/
def area (ny nz iy iz : ℕ) (best : (ℕ × ℕ) × (ℕ × ℕ)) (array : ℕ → ℕ → Bool) : (ℕ × ℕ) × (ℕ × ℕ) :=
  (search ny iy (fun _ => true) (fun a b z => a z && b z) array (tryArea nz iz best.2) (best, 1)).1

/-- Three ranges of indices, /repo/scripts/python/find-reachable-cuboid.py:167. -/
structure Box where
  x : ℕ × ℕ
  y : ℕ × ℕ
  z : ℕ × ℕ

/-- `local_volume`, /repo/scripts/python/find-reachable-cuboid.py:234. -/
def Box.volume (b : Box) : ℕ := len b.x * len b.y * len b.z

/-- Indices of a point of the grid, or the sizes of the grid. -/
structure Cell where
  x : ℕ
  y : ℕ
  z : ℕ

/-- A candidate for cuboid, /repo/scripts/python/find-reachable-cuboid.py:232-238. -/
def tryCuboid (n i : Cell) (array2d : ℕ → ℕ → Bool) (x0 x : ℕ) (s : Box × ℕ) : Box × ℕ :=
  let r := area n.y n.z i.y i.z (s.1.y, s.1.z) array2d
  let c : Box := ⟨(x0, x), r.1, r.2⟩
  keep c c.volume s

/-- The search for the largest cuboid, /repo/scripts/python/find-reachable-cuboid.py:166-238. -/
def largest (n i : Cell) (grid : ℕ → ℕ → ℕ → Bool) : Box :=
  (search n.x i.x (fun _ _ => true) (fun a b y z => a y z && b y z) grid (tryCuboid n i)
    (⟨(i.x, i.x), (i.y, i.y), (i.z, i.z)⟩, 1)).1

/-! ## The program -/

/-- The three axes, /repo/scripts/python/find-reachable-cuboid.py:107. -/
inductive Axis
  | x
  | y
  | z

/-- `pose[axis]`, /repo/scripts/python/find-reachable-cuboid.py:111. -/
def coord (v : Vec3) : Axis → ℝ
  | .x => v.x
  | .y => v.y
  | .z => v.z

/-- Assignment to `pose[axis]`, /repo/scripts/python/find-reachable-cuboid.py:111. -/
def put (v : Vec3) (a : Axis) (c : ℝ) : Vec3 :=
  match a with
  | .x => { v with x := c }
  | .y => { v with y := c }
  | .z => { v with z := c }

/-- The arguments that matter, /repo/scripts/python/find-reachable-cuboid.py:27-34; a bound that is not given is
infinite. -/
structure Args where
  step : ℝ
  lower : Axis → Option ℝ
  upper : Axis → Option ℝ

/-- The comparison with the bounds, /repo/scripts/python/find-reachable-cuboid.py:114-116. -/
def Args.Inside (o : Args) (a : Axis) (c : ℝ) : Prop :=
  (∀ m, o.lower a = some m → m < c) ∧ ∀ m, o.upper a = some m → c < m

/-- The opposite of the condition to stop, /repo/scripts/python/find-reachable-cuboid.py:113-119, at the coordinate
`c` of one axis. -/
def Fine (o : Args) (reach : Vec3 → Bool) (start : Vec3) (a : Axis) (c : ℝ) : Prop :=
  o.Inside a c ∧ reach (put start a c) = true

/-- The loop along one axis in one direction, /repo/scripts/python/find-reachable-cuboid.py:109-122: from a coordinate
to the one that is stored, the last one that did not make it stop. It may never end. -/
inductive Walk (ok : ℝ → Prop) (diff : ℝ) : ℝ → ℝ → Prop
  | stop {c : ℝ} : ¬ ok (c + diff) → Walk ok diff c (c + diff - diff)
  | go {c r : ℝ} : ok (c + diff) → Walk ok diff (c + diff) r → Walk ok diff c r

/-- `outer_bounding_box`, /repo/scripts/python/find-reachable-cuboid.py:104-122. -/
structure Outer where
  lo : Axis → ℝ
  hi : Axis → ℝ

/-- The search for the outer box, /repo/scripts/python/find-reachable-cuboid.py:104-122. -/
def Bounds (o : Args) (reach : Vec3 → Bool) (start : Vec3) (b : Outer) : Prop :=
  ∀ a, Walk (Fine o reach start a) (o.step * -1) (coord start a) (b.lo a) ∧
    Walk (Fine o reach start a) (o.step * 1) (coord start a) (b.hi a)

/-- `int` of a number that is not negative, /repo/scripts/python/find-reachable-cuboid.py:126-129. -/
noncomputable def toInt (c : ℝ) : ℕ := ⌊c⌋.toNat

/-- `dims_n`, /repo/scripts/python/find-reachable-cuboid.py:126-129. -/
noncomputable def Outer.size (o : Args) (b : Outer) (a : Axis) : ℕ := toInt ((b.hi a - b.lo a) / o.step)

/-- `initial_cart_indices`, /repo/scripts/python/find-reachable-cuboid.py:161. -/
noncomputable def Outer.index (o : Args) (start : Vec3) (b : Outer) (a : Axis) : ℕ :=
  toInt ((coord start a - b.lo a) / o.step)

/-- The position of a point of the grid, /repo/scripts/python/find-reachable-cuboid.py:145 and 242. -/
def Outer.point (o : Args) (b : Outer) (x y z : ℕ) : Vec3 :=
  ⟨b.lo .x + o.step * x, b.lo .y + o.step * y, b.lo .z + o.step * z⟩

/-- The program, /repo/scripts/python/find-reachable-cuboid.py:104-242: it ends with an outer box and the indices of
the cuboid found. `ik_solutions` (lines 132-157) is read at the indices of the grid only. -/
def Finds (o : Args) (reach : Vec3 → Bool) (start : Vec3) (b : Outer) (found : Box) : Prop :=
  Bounds o reach start b ∧
    found = largest ⟨b.size o .x, b.size o .y, b.size o .z⟩ ⟨b.index o start .x, b.index o start .y, b.index o start .z⟩
      fun x y z => reach (b.point o x y z)

end KD.Cuboid
