import Verif.Programs.ReachableCuboidLemmas
import Mathlib.Tactic.NormNum

/-!
# C88: the script that looks for a reachable cuboid
-/

namespace KD.Cuboid

/-! ## Specification -/

/-- A point of the grid belongs to a cuboid. -/
def Box.Has (b : Box) (x y z : ℕ) : Prop :=
  (b.x.1 ≤ x ∧ x ≤ b.x.2) ∧ (b.y.1 ≤ y ∧ y ≤ b.y.2) ∧ b.z.1 ≤ z ∧ z ≤ b.z.2

/-- A position can be reached along one axis: it is within the bounds given, and the inverse kinematics succeeds. -/
def Reaches (o : Args) (reach : Vec3 → Bool) (start : Vec3) (a : Axis) (c : ℝ) : Prop :=
  (∀ m, o.lower a = some m → m < c) ∧ (∀ m, o.upper a = some m → c < m) ∧ reach (put start a c) = true

theorem fine_iff {o : Args} {reach : Vec3 → Bool} {start : Vec3} {a : Axis} {c : ℝ} :
    Fine o reach start a c ↔ Reaches o reach start a c := by
  unfold Fine Reaches Args.Inside
  rw [and_assoc]

/-! ## The outer box -/

/-- **C88.** On each axis, the outer box ends where the first failure is met: the bounds are whole numbers of steps
away from the initial position, all the positions up to them can be reached, and the next one cannot. -/
theorem C88_outer_box {o : Args} (hs : 0 < o.step) {reach : Vec3 → Bool} {start : Vec3} {b : Outer} {found : Box}
    (h : Finds o reach start b found) (a : Axis) :
    ∃ k l : ℕ, b.lo a = coord start a - k * o.step ∧ b.hi a = coord start a + l * o.step ∧
      (∀ j : ℕ, 1 ≤ j → j ≤ k → Reaches o reach start a (coord start a - j * o.step)) ∧
      ¬ Reaches o reach start a (coord start a - (k + 1 : ℕ) * o.step) ∧
      (∀ j : ℕ, 1 ≤ j → j ≤ l → Reaches o reach start a (coord start a + j * o.step)) ∧
      ¬ Reaches o reach start a (coord start a + (l + 1 : ℕ) * o.step) := by
  obtain ⟨k, l, h1, h2, -, -, h3, h4, h5, h6⟩ := bounds_form hs h.1 a
  simp only [fine_iff] at h3 h4 h5 h6
  exact ⟨k, l, h1, h2, h3, h4, h5, h6⟩

/-! ## The cuboid -/

/-- **C88.** The cuboid contains the initial position and lies within the outer box. -/
theorem C88_contains_start {o : Args} (hs : 0 < o.step) {reach : Vec3 → Bool} {start : Vec3} {b : Outer} {found : Box}
    (h : Finds o reach start b found) :
    (∃ x y z, found.Has x y z ∧ b.point o x y z = start) ∧
      ∀ x y z, found.Has x y z → ∀ a, b.lo a ≤ coord (b.point o x y z) a ∧ coord (b.point o x y z) a ≤ b.hi a := by
  obtain ⟨kx, lx, x1, x2, x3, x4, -⟩ := bounds_form hs h.1 .x
  obtain ⟨ky, ly, y1, y2, y3, y4, -⟩ := bounds_form hs h.1 .y
  obtain ⟨kz, lz, z1, z2, z3, z4, -⟩ := bounds_form hs h.1 .z
  obtain ⟨hb, hf⟩ := h
  rw [x3, x4, y3, y4, z3, z4] at hf
  obtain ⟨⟨ax, ay, az⟩, -⟩ := largest_spec ⟨kx + lx, ky + ly, kz + lz⟩ ⟨kx, ky, kz⟩ fun x y z => reach (b.point o x y z)
  rw [← hf] at ax ay az
  unfold Around at ax ay az
  simp only at ax ay az
  refine ⟨⟨kx, ky, kz, ⟨⟨ax.1, ax.2.1⟩, ⟨ay.1, ay.2.1⟩, az.1, az.2.1⟩, ?_⟩, fun x y z ⟨hx, hy, hz⟩ a => ?_⟩
  · unfold Outer.point
    rw [x1, y1, z1]
    simp only [coord]
    ext <;> simp only <;> ring
  · have key : ∀ (c : ℝ) (k l j : ℕ), j ≤ k + l → c - k * o.step ≤ c - k * o.step + o.step * j ∧
        c - k * o.step + o.step * j ≤ c + l * o.step := by
      intro c k l j hj
      have h1 : (j : ℝ) ≤ k + l := by exact_mod_cast hj
      have h2 : (0 : ℝ) ≤ j := by positivity
      constructor <;> nlinarith
    cases a <;> simp only [Outer.point, coord]
    · rw [x1, x2]; exact key _ _ _ _ (by omega)
    · rw [y1, y2]; exact key _ _ _ _ (by omega)
    · rw [z1, z2]; exact key _ _ _ _ (by omega)

/-- **C88.** The cuboid is at least as large as any reachable one that contains the initial position, starts before it
on every axis and does not touch the upper faces of the outer box.

Partial: the cuboids that start at the initial position on some axis are not considered, see
`C88_at_the_edge_counterexample`, and the one found is not reachable in general, see `C88_a_layer`. -/
theorem C88_not_smaller_partial {o : Args} {reach : Vec3 → Bool} {start : Vec3} {b : Outer} {found : Box}
    (h : Finds o reach start b found) (c : Box)
    (hx : c.x.1 < b.index o start .x ∧ b.index o start .x ≤ c.x.2 ∧ c.x.2 < b.size o .x)
    (hy : c.y.1 < b.index o start .y ∧ b.index o start .y ≤ c.y.2 ∧ c.y.2 < b.size o .y)
    (hz : c.z.1 < b.index o start .z ∧ b.index o start .z ≤ c.z.2 ∧ c.z.2 < b.size o .z)
    (hc : ∀ x y z, c.Has x y z → reach (b.point o x y z) = true) :
    (c.x.2 - c.x.1 + 1) * (c.y.2 - c.y.1 + 1) * (c.z.2 - c.z.1 + 1) ≤
      (found.x.2 - found.x.1 + 1) * (found.y.2 - found.y.1 + 1) * (found.z.2 - found.z.1 + 1) := by
  obtain ⟨-, hl⟩ := largest_spec ⟨b.size o .x, b.size o .y, b.size o .z⟩
    ⟨b.index o start .x, b.index o start .y, b.index o start .z⟩ fun x y z => reach (b.point o x y z)
  rw [← h.2] at hl
  exact (hl _ _ hx.1 hx.2.1 hx.2.2 _ _ hy.1 hy.2.1 hy.2.2).2 _ _ hz.1 hz.2.1 hz.2.2
    fun x y z x1 x2 y1 y2 z1 z2 => hc x y z ⟨⟨x1, x2⟩, ⟨y1, y2⟩, z1, z2⟩

/-- **C88.** If all the points of the outer box but its upper faces are reachable, and there is room on all the sides
of the initial position, the cuboid found has all of them. -/
theorem C88_all_reachable {o : Args} (hs : 0 < o.step) {reach : Vec3 → Bool} {start : Vec3} {b : Outer} {found : Box}
    (h : Finds o reach start b found) (hroom : ∀ a, b.lo a < coord start a ∧ coord start a < b.hi a)
    (hall : ∀ x y z, x < b.size o .x → y < b.size o .y → z < b.size o .z → reach (b.point o x y z) = true) :
    ∀ x y z, found.Has x y z ↔ x < b.size o .x ∧ y < b.size o .y ∧ z < b.size o .z := by
  have room : ∀ a, ∃ k l : ℕ, b.index o start a = k ∧ b.size o a = k + l ∧ 1 ≤ k ∧ 1 ≤ l := by
    intro a
    obtain ⟨k, l, h1, h2, h3, h4, -⟩ := bounds_form hs h.1 a
    refine ⟨k, l, h3, h4, ?_, ?_⟩
    · have := (hroom a).1
      rw [h1] at this
      by_contra hk
      rw [show k = 0 by omega] at this
      simp at this
    · have := (hroom a).2
      rw [h2] at this
      by_contra hk
      rw [show l = 0 by omega] at this
      simp at this
  obtain ⟨kx, lx, x1, x2, x3, x4⟩ := room .x
  obtain ⟨ky, ly, y1, y2, y3, y4⟩ := room .y
  obtain ⟨kz, lz, z1, z2, z3, z4⟩ := room .z
  have hf := h.2
  rw [x1, x2, y1, y2, z1, z2] at hf
  rw [x2, y2, z2] at hall ⊢
  obtain ⟨⟨ax, ay, az⟩, hl⟩ := largest_spec ⟨kx + lx, ky + ly, kz + lz⟩ ⟨kx, ky, kz⟩ fun x y z => reach (b.point o x y z)
  rw [← hf] at ax ay az hl
  unfold Around at ax ay az
  simp only at ax ay az hl
  have hv := (hl 0 (kx + lx - 1) (by omega) (by omega) (by omega) 0 (ky + ly - 1) (by omega) (by omega) (by omega)).2 0
    (kz + lz - 1) (by omega) (by omega) (by omega) fun x y z _ g1 _ g2 _ g3 => hall x y z (by omega) (by omega) (by omega)
  rw [show kx + lx - 1 - 0 + 1 = kx + lx by omega, show ky + ly - 1 - 0 + 1 = ky + ly by omega,
    show kz + lz - 1 - 0 + 1 = kz + lz by omega] at hv
  unfold Box.volume at hv
  have bx : len found.x ≤ kx + lx := by unfold len; omega
  have by' : len found.y ≤ ky + ly := by unfold len; omega
  have bz : len found.z ≤ kz + lz := by unfold len; omega
  have full : ∀ {p q r p' q' r' : ℕ}, p' ≤ p → q' ≤ q → r' ≤ r → 0 < p → 0 < q → 0 < r → p * q * r ≤ p' * q' * r' →
      p' = p ∧ q' = q ∧ r' = r := by
    intro p q r p' q' r' h1 h2 h3 h4 h5 h6 h7
    refine ⟨?_, ?_, ?_⟩
    · by_contra hne
      have : p' * q' * r' ≤ (p - 1) * q * r := Nat.mul_le_mul (Nat.mul_le_mul (by omega) h2) h3
      have h8 : (p - 1) * q * r < p * q * r := Nat.mul_lt_mul_of_pos_right (Nat.mul_lt_mul_of_pos_right (by omega) h5) h6
      omega
    · by_contra hne
      have : p' * q' * r' ≤ p * (q - 1) * r := Nat.mul_le_mul (Nat.mul_le_mul h1 (by omega)) h3
      have h8 : p * (q - 1) * r < p * q * r := Nat.mul_lt_mul_of_pos_right (Nat.mul_lt_mul_of_pos_left (by omega) h4) h6
      omega
    · by_contra hne
      have : p' * q' * r' ≤ p * q * (r - 1) := Nat.mul_le_mul (Nat.mul_le_mul h1 h2) (by omega)
      have h8 : p * q * (r - 1) < p * q * r := Nat.mul_lt_mul_of_pos_left (by omega) (Nat.mul_pos h4 h5)
      omega
  obtain ⟨f1, f2, f3⟩ := full bx by' bz (by omega) (by omega) (by omega) hv
  unfold len at f1 f2 f3
  intro x y z
  unfold Box.Has
  omega

/-- **C88.** The heights of the cuboid are those of some reachable cuboid that starts before the initial position on the
other two axes and contains it, or the initial height alone. In particular, whatever its length and width, the grid points
next to the initial position can be reached at all its heights. -/
theorem C88_heights_reachable {o : Args} {reach : Vec3 → Bool} {start : Vec3} {b : Outer} {found : Box}
    (h : Finds o reach start b found) :
    found.z = (b.index o start .z, b.index o start .z) ∨
    ∃ c : Box, c.z = found.z ∧ (c.x.1 < b.index o start .x ∧ b.index o start .x ≤ c.x.2 ∧ c.x.2 < b.size o .x) ∧
      (c.y.1 < b.index o start .y ∧ b.index o start .y ≤ c.y.2 ∧ c.y.2 < b.size o .y) ∧
      ∀ x y z, c.Has x y z → reach (b.point o x y z) = true := by
  have hr := largest_reach ⟨b.size o .x, b.size o .y, b.size o .z⟩
    ⟨b.index o start .x, b.index o start .y, b.index o start .z⟩ fun x y z => reach (b.point o x y z)
  rw [← h.2] at hr
  rcases hr with hr | ⟨x0, x1, y0, y1, hx, hy, hr⟩
  · exact Or.inl hr
  · exact Or.inr ⟨⟨(x0, x1), (y0, y1), found.z⟩, rfl, hx, hy, fun x y z ⟨⟨a1, a2⟩, ⟨b1, b2⟩, c1, c2⟩ =>
      hr x y z a1 a2 b1 b2 c1 c2⟩

/-! ## What goes wrong -/

/-- **C88.** Whatever can be reached, the cuboid found has at least as many points as a whole layer of the grid at one
height: the searches for rectangles and segments fall back on the best cuboid so far. -/
theorem C88_a_layer {o : Args} (hs : 0 < o.step) {reach : Vec3 → Bool} {start : Vec3} {b : Outer} {found : Box}
    (h : Finds o reach start b found) (hx : b.lo .x < start.x ∧ start.x < b.hi .x)
    (hy : b.lo .y < start.y ∧ start.y < b.hi .y) :
    b.size o .x * b.size o .y ≤
      (found.x.2 - found.x.1 + 1) * (found.y.2 - found.y.1 + 1) * (found.z.2 - found.z.1 + 1) := by
  have room : ∀ a, b.lo a < coord start a ∧ coord start a < b.hi a →
      ∃ k l : ℕ, b.index o start a = k ∧ b.size o a = k + l ∧ 1 ≤ k ∧ 1 ≤ l := by
    intro a hr
    obtain ⟨k, l, h1, h2, h3, h4, -⟩ := bounds_form hs h.1 a
    refine ⟨k, l, h3, h4, ?_, ?_⟩
    · have := hr.1
      rw [h1] at this
      by_contra hk
      rw [show k = 0 by omega] at this
      simp at this
    · have := hr.2
      rw [h2] at this
      by_contra hk
      rw [show l = 0 by omega] at this
      simp at this
  obtain ⟨kx, lx, x1, x2, x3, x4⟩ := room .x hx
  obtain ⟨ky, ly, y1, y2, y3, y4⟩ := room .y hy
  have hf := h.2
  rw [x1, x2, y1, y2] at hf
  rw [x2, y2]
  obtain ⟨-, hl⟩ := largest_spec ⟨kx + lx, ky + ly, b.size o .z⟩ ⟨kx, ky, b.index o start .z⟩
    fun x y z => reach (b.point o x y z)
  rw [← hf] at hl
  simp only at hl
  have hv := (hl 0 (kx + lx - 1) (by omega) (by omega) (by omega) 0 (ky + ly - 1) (by omega) (by omega) (by omega)).1
  rw [show kx + lx - 1 - 0 + 1 = kx + lx by omega, show ky + ly - 1 - 0 + 1 = ky + ly by omega] at hv
  exact hv

/-- Whether a position is less than 12 mm away from another one. -/
noncomputable def near (start p : Vec3) : Bool := open Classical in
  decide ((p.x - start.x) ^ 2 + (p.y - start.y) ^ 2 + (p.z - start.z) ^ 2 < 0.012 ^ 2)

/-- The outer box around a ball of 12 mm, with steps of 10 mm. -/
theorem near_bounds (start : Vec3) : Bounds ⟨0.01, fun _ => none, fun _ => none⟩ (near start) start
    ⟨fun a => coord start a - 0.01, fun a => coord start a + 0.01⟩ := by
  intro a
  have hf : ∀ t : ℝ, Fine ⟨0.01, fun _ => none, fun _ => none⟩ (near start) start a (coord start a + t) ↔ t ^ 2 < 0.012 ^ 2 := by
    intro t
    unfold Fine Args.Inside near
    cases a <;> simp [put, coord]
  constructor
  · refine walk_iff.mpr ⟨1, by norm_num; ring, fun j j1 j2 => ?_, ?_⟩
    · rw [hf, show j = 1 by omega]
      norm_num
    · rw [hf]
      norm_num
  · refine walk_iff.mpr ⟨1, by norm_num, fun j j1 j2 => ?_, ?_⟩
    · rw [hf, show j = 1 by omega]
      norm_num
    · rw [hf]
      norm_num

/-- **C88.** The cuboid found may have unreachable points: with steps of 10 mm and the positions less than 12 mm away
from the initial one as the reachable ones, one of its corners is 14 mm away. -/
theorem C88_unreachable_counterexample (start : Vec3) : ∃ b found,
    Finds ⟨0.01, fun _ => none, fun _ => none⟩ (near start) start b found ∧
      ∃ x y z, found.Has x y z ∧ near start (b.point ⟨0.01, fun _ => none, fun _ => none⟩ x y z) = false := by
  have hb := near_bounds start
  set o : Args := ⟨0.01, fun _ => none, fun _ => none⟩ with ho
  set b : Outer := ⟨fun a => coord start a - 0.01, fun a => coord start a + 0.01⟩ with hbd
  have hs : 0 < o.step := by rw [ho]; norm_num
  refine ⟨b, _, ⟨hb, rfl⟩, ?_⟩
  have hi : ∀ a, b.index o start a = 1 := by
    intro a
    unfold Outer.index
    rw [ho, hbd]
    simp only
    rw [show (coord start a - (coord start a - 0.01)) / 0.01 = (1 : ℕ) by norm_num, toInt_nat]
  have hn : ∀ a, b.size o a = 2 := by
    intro a
    unfold Outer.size
    rw [ho, hbd]
    simp only
    rw [show (coord start a + 0.01 - (coord start a - 0.01)) / 0.01 = (2 : ℕ) by norm_num, toInt_nat]
  have hv := C88_a_layer hs ⟨hb, rfl⟩ (by simp [hbd, coord]; norm_num) (by simp [hbd, coord]; norm_num)
  simp only [hi, hn] at hv ⊢
  obtain ⟨⟨ax, ay, az⟩, -⟩ := largest_spec ⟨2, 2, 2⟩ ⟨1, 1, 1⟩ fun x y z => near start (b.point o x y z)
  generalize largest ⟨2, 2, 2⟩ ⟨1, 1, 1⟩ (fun x y z => near start (b.point o x y z)) = f at ax ay az hv ⊢
  obtain ⟨⟨x0, x1⟩, ⟨y0, y1⟩, ⟨z0, z1⟩⟩ := f
  unfold Around at ax ay az
  unfold Box.Has
  simp only at ax ay az hv ⊢
  have hfar : ∀ x y z : ℕ, x ≤ 1 → y ≤ 1 → z ≤ 1 → x + y + z = 1 → near start (b.point o x y z) = false := by
    intro x y z h1 h2 h3 h4
    unfold near Outer.point
    rw [decide_eq_false_iff_not, ho, hbd]
    simp only [coord]
    rcases Nat.le_one_iff_eq_zero_or_eq_one.mp h1 with rfl | rfl <;>
    rcases Nat.le_one_iff_eq_zero_or_eq_one.mp h2 with rfl | rfl <;>
    rcases Nat.le_one_iff_eq_zero_or_eq_one.mp h3 with rfl | rfl <;>
    first
    | omega
    | norm_num
  obtain rfl : x1 = 1 := by omega
  obtain rfl : y1 = 1 := by omega
  obtain rfl : z1 = 1 := by omega
  rcases Nat.le_one_iff_eq_zero_or_eq_one.mp ax.1 with rfl | rfl <;>
  rcases Nat.le_one_iff_eq_zero_or_eq_one.mp ay.1 with rfl | rfl <;>
  rcases Nat.le_one_iff_eq_zero_or_eq_one.mp az.1 with rfl | rfl <;>
  first
  | omega
  | exact ⟨0, 0, 1, by omega, hfar 0 0 1 (by omega) (by omega) (by omega) rfl⟩
  | exact ⟨0, 1, 0, by omega, hfar 0 1 0 (by omega) (by omega) (by omega) rfl⟩
  | exact ⟨1, 0, 0, by omega, hfar 1 0 0 (by omega) (by omega) (by omega) rfl⟩

/-- **C88.** If no step backwards along X can be made from the initial position, that position is all that is found,
whatever else can be reached. -/
theorem C88_at_the_edge_counterexample {o : Args} (hs : 0 < o.step) {reach : Vec3 → Bool} {start : Vec3} {b : Outer}
    {found : Box} (h : Finds o reach start b found) (hx : ¬ Reaches o reach start .x (start.x - o.step)) :
    ∀ x y z, found.Has x y z ↔ (x = b.index o start .x ∧ y = b.index o start .y ∧ z = b.index o start .z) := by
  obtain ⟨k, l, h1, -, h2, -, h3, -⟩ := bounds_form hs h.1 .x
  have hk : k = 0 := by
    by_contra hk
    have := h3 1 le_rfl (by omega)
    rw [fine_iff] at this
    simp only [coord, Nat.cast_one, one_mul] at this
    exact hx this
  have hf := h.2
  rw [h2, hk] at hf
  unfold largest search at hf
  simp only [List.range_zero, List.foldl_nil] at hf
  intro x y z
  rw [hf, h2, hk]
  unfold Box.Has
  simp only
  omega

/-- The theorems apply to the ball, where there is room on all the sides. -/
example (start : Vec3) : ∃ b found, Finds ⟨0.01, fun _ => none, fun _ => none⟩ (near start) start b found ∧
    ∀ a, b.lo a < coord start a ∧ coord start a < b.hi a :=
  ⟨_, _, ⟨near_bounds start, rfl⟩, fun a => by constructor <;> norm_num⟩

/-- The theorems on reachable cuboids apply to a box of bounds where everything is reachable. -/
example (start : Vec3) : ∃ b found, Finds ⟨1, fun a => some (coord start a - 2.5), fun a => some (coord start a + 2.5)⟩ (fun _ => true) start b found ∧
    (∀ a, b.lo a < coord start a ∧ coord start a < b.hi a) ∧
    (∀ a, 1 < b.index ⟨1, fun a => some (coord start a - 2.5), fun a => some (coord start a + 2.5)⟩ start a) := by
  refine ⟨⟨fun a => coord start a - 2, fun a => coord start a + 2⟩, _, ⟨fun a => ?_, rfl⟩, fun a => by constructor <;> norm_num,
    fun a => ?_⟩
  · have hf : ∀ t : ℝ, Fine ⟨1, fun a => some (coord start a - 2.5), fun a => some (coord start a + 2.5)⟩ (fun _ => true) start a
        (coord start a + t) ↔ -2.5 < t ∧ t < 2.5 := by
      intro t
      unfold Fine Args.Inside
      simp
      intro _
      constructor <;> intro h <;> linarith
    constructor
    · refine walk_iff.mpr ⟨2, by norm_num; ring, fun j j1 j2 => ?_, ?_⟩
      · rw [hf]
        have h1 : (1 : ℝ) ≤ j := by exact_mod_cast j1
        have h2 : (j : ℝ) ≤ 2 := by exact_mod_cast j2
        constructor <;> norm_num <;> linarith
      · rw [hf]
        norm_num
    · refine walk_iff.mpr ⟨2, by norm_num, fun j j1 j2 => ?_, ?_⟩
      · rw [hf]
        have h1 : (1 : ℝ) ≤ j := by exact_mod_cast j1
        have h2 : (j : ℝ) ≤ 2 := by exact_mod_cast j2
        constructor <;> norm_num <;> linarith
      · rw [hf]
        norm_num
  · unfold Outer.index
    simp only
    rw [show (coord start a - (coord start a - 2)) / 1 = (2 : ℕ) by norm_num, toInt_nat]
    omega

/-- A column of ten positions upwards along X is reachable, with the initial one at its start. -/
example (start : Vec3) : ∃ (reach : Vec3 → Bool) (b : Outer) (found : Box), Finds ⟨1, fun _ => none, fun _ => none⟩ reach start b found ∧
    ¬ Reaches ⟨1, fun _ => none, fun _ => none⟩ reach start .x (start.x - 1) ∧
    (∀ k : ℕ, k ≤ 10 → reach ⟨start.x + k, start.y, start.z⟩ = true) ∧ b.hi .x = start.x + 10 := by
  classical
  let reach : Vec3 → Bool := fun p => decide (start.x ≤ p.x ∧ p.x ≤ start.x + 10 ∧ p.y = start.y ∧ p.z = start.z)
  have hb : Bounds ⟨1, fun _ => none, fun _ => none⟩ reach start ⟨coord start, fun a => if a matches .x then start.x + 10 else coord start a⟩ := by
    intro a
    have hf : ∀ t : ℝ, Fine ⟨1, fun _ => none, fun _ => none⟩ reach start a (coord start a + t) ↔
        if a matches .x then 0 ≤ t ∧ t ≤ 10 else t = 0 := by
      intro t
      unfold Fine Args.Inside
      cases a <;> simp [put, coord, reach]
    constructor
    · refine walk_iff.mpr ⟨0, by simp, by omega, ?_⟩
      rw [hf]
      cases a <;> norm_num
    · cases a
      · refine walk_iff.mpr ⟨10, by simp [coord], fun j j1 j2 => ?_, ?_⟩
        · rw [hf]
          have : (j : ℝ) ≤ 10 := by exact_mod_cast j2
          simpa using this
        · rw [hf]
          norm_num
      · refine walk_iff.mpr ⟨0, by simp, by omega, ?_⟩
        rw [hf]
        norm_num
      · refine walk_iff.mpr ⟨0, by simp, by omega, ?_⟩
        rw [hf]
        norm_num
  refine ⟨reach, _, _, ⟨hb, rfl⟩, ?_, fun k hk => ?_, by simp⟩
  · rintro ⟨-, -, h⟩
    simp [reach, put] at h
    linarith
  · have : (k : ℝ) ≤ 10 := by exact_mod_cast hk
    simp [reach, this]

end KD.Cuboid
