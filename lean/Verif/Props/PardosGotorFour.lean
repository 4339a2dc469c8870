import Verif.Screw.SubproblemLemmas

/-!
# Property C14: fourth Pardos-Gotor subproblem (two parallel rotation axes)

Vocabulary as in `Verif.Props.PadenKahan`.
-/

namespace KD

open Real Vec3
open scoped Classical

/-- `computeNormal` yields the offset between the axes, perpendicular to them. -/
theorem pg4Normal_eq {e1 e2 : MatrixExp} (h1 : e1.Unit)
    (hfar : eps ≤ (axisRej e1.axis (e2.origin - e1.origin)).norm) :
    pg4Normal e1 e2 = axisRej e1.axis (e2.origin - e1.origin) := by
  have ha : dot e1.axis e1.axis = 1 := h1
  set a := e1.axis
  set d := e2.origin - e1.origin
  have hc : cross (cross a d) a = axisRej a d := by
    rw [cross_cross', ha, one_smul, dot_comm d a, axisRej_eq]
  have hpos : 0 < (axisRej a d).norm := lt_of_lt_of_le eps_pos hfar
  have hdd : dot (axisRej a d) d = (axisRej a d).norm ^ 2 := by
    have h0 := dot_axisRej ha d
    have h9 : dot (axisRej a d) d = dot (axisRej a d) (axisRej a d + dot a d • a) := by
      rw [← axisRej_decomp]
    rw [h9, dot_add_right, dot_smul_right, dot_comm _ a, h0, norm_sq]
    ring
  simp only [pg4Normal]
  change axisProj (cross (cross a d) a).normalize d = _
  rw [hc, Vec3.normalize, if_neg (not_lt.mpr hfar), axisProj_eq]
  rw [dot_smul_left, hdd, smul_smul]
  have : 1 / (axisRej a d).norm * (axisRej a d).norm ^ 2 * (1 / (axisRej a d).norm) = 1 := by
    field_simp
  rw [this, one_smul]

/-- Two distinct parallel axes (same or opposite direction), reachable target, circles not
externally tangent: success, both reported pairs carry `f` onto `k`, and every exact solution goes
through one of the two intermediate points. `N` is the distance between the axes, `U` and `V` the
distances of `f` and `k` to their respective axes. -/
theorem C14_pg4_sound_partial (id1 id2 : ℕ) (e1 e2 : MatrixExp) (p : Vec3) (rhs H : Frame)
    (m1 : e1.motion = .rotation) (m2 : e2.motion = .rotation) (h1 : e1.Unit)
    (hpar : e2.axis = e1.axis ∨ e2.axis = -e1.axis)
    (N U V : ℝ) (hN : N = (axisRej e1.axis (e2.origin - e1.origin)).norm)
    (hU : U = (axisRej e2.axis (H.act p - e2.origin)).norm)
    (hV : V = (axisRej e1.axis (rhs.act p - e1.origin)).norm)
    (hdist : eps ≤ N) (htan : eps ≤ U + V - N) (θ1 θ2 : ℝ)
    (hreach : (e1.asFrame θ1).act ((e2.asFrame θ2).act (H.act p)) = rhs.act p) :
    ∃ φ11 φ21 φ12 φ22 ψ11 ψ21 ψ12 ψ22,
      pg4 id1 id2 e1 e2 p rhs H
        = some (true, [[(id1, φ11), (id2, φ21)], [(id1, φ12), (id2, φ22)]]) ∧
      (e1.asFrame ψ11).act ((e2.asFrame ψ21).act (H.act p)) = rhs.act p ∧
      SameAngle φ11 ψ11 ∧ SameAngle φ21 ψ21 ∧
      (e1.asFrame ψ12).act ((e2.asFrame ψ22).act (H.act p)) = rhs.act p ∧
      SameAngle φ12 ψ12 ∧ SameAngle φ22 ψ22 ∧
      ∀ θ1' θ2', (e1.asFrame θ1').act ((e2.asFrame θ2').act (H.act p)) = rhs.act p →
        (e2.asFrame θ2').act (H.act p) = (e2.asFrame ψ21).act (H.act p) ∨
        (e2.asFrame θ2').act (H.act p) = (e2.asFrame ψ22).act (H.act p) := by
  have ha : dot e1.axis e1.axis = 1 := h1
  have h2 : e2.Unit := by
    rcases hpar with h | h
    · rw [MatrixExp.Unit, h]; exact h1
    · rw [MatrixExp.Unit, h, dot_neg_left, dot_neg_right, neg_neg]; exact h1
  have hnorm := pg4Normal_eq h1 (hN ▸ hdist)
  set a := e1.axis with hadef
  have hrej2 : ∀ x, axisRej e2.axis x = axisRej a x := by
    intro x
    rcases hpar with h | h
    · rw [h]
    · rw [h, axisRej_eq, axisRej_eq, dot_neg_left]; simp
  have hdot2 : ∀ x y, dot a x = dot a y → dot e2.axis x = dot e2.axis y := by
    intro x y hxy
    rcases hpar with h | h
    · rw [h, hxy]
    · rw [h, dot_neg_left, dot_neg_left, hxy]
  have hdot2' : ∀ x y, dot e2.axis x = dot e2.axis y → dot a x = dot a y := by
    intro x y hxy
    rcases hpar with h | h
    · rwa [h] at hxy
    · rw [h, dot_neg_left, dot_neg_left, neg_inj] at hxy; exact hxy
  set f := H.act p with hf
  set k := rhs.act p with hk
  set o1 := e1.origin with ho1
  set o2 := e2.origin with ho2
  set r := axisRej a (o2 - o1) with hr
  have hra : dot a r = 0 := dot_axisRej ha _
  have hN0 : 0 < N := lt_of_lt_of_le eps_pos hdist
  have hrr : dot r r = N ^ 2 := by rw [hN, norm_sq]
  have hz1 : o1 = o1 + (0 : ℝ) • e1.axis := by rw [zero_smul, add_zero]
  have hz2 : o2 = o2 + (0 : ℝ) • e2.axis := by rw [zero_smul, add_zero]
  -- facts on any exact solution
  have hsol : ∀ x1 x2, (e1.asFrame x1).act ((e2.asFrame x2).act f) = k →
      dot a ((e2.asFrame x2).act f - o1) = dot a (k - o1) ∧
      dot a ((e2.asFrame x2).act f - o2) = dot a (f - o2) ∧
      (axisRej a ((e2.asFrame x2).act f - o1)).norm = V ∧
      (axisRej a ((e2.asFrame x2).act f - o2)).norm = U := by
    intro x1 x2 hx
    have q1 := rot_height m1 h1 hz1 x1 ((e2.asFrame x2).act f)
    have q2 := rot_dist m1 h1 hz1 x1 ((e2.asFrame x2).act f)
    have q3 := hdot2' _ _ (rot_height m2 h2 hz2 x2 f)
    have q4 := rot_dist m2 h2 hz2 x2 f
    rw [hx] at q1 q2
    refine ⟨q1.symm, q3, ?_, ?_⟩
    · rw [hV]; exact axisRej_norm_congr ha q1.symm q2.symm
    · rw [hU, hrej2]; exact axisRej_norm_congr ha q3 q4
  obtain ⟨s1, s2, s3, s4⟩ := hsol θ1 θ2 hreach
  -- heights
  have hheight : dot a (f - o2) = dot a (k - o1) - dot a (o2 - o1) := by
    rw [← s2, ← s1, ← dot_sub_right]; congr 1; abel
  set v := k - o1 with hv
  set u := f - o2 with hu
  set up := axisRej a u with hup
  set vp := axisRej a v with hvp
  have hUn : up.norm = U := by rw [hU, hrej2]
  have hVn : vp.norm = V := hV.symm
  have hcd : o2 + u - up - (o1 + v - vp) = r := by
    have e1' : u - up = dot a u • a := by rw [hup, axisRej_eq]; abel
    have e2' : v - vp = dot a v • a := by rw [hvp, axisRej_eq]; abel
    have : o2 + u - up - (o1 + v - vp) = (o2 - o1) + ((u - up) - (v - vp)) := by abel
    rw [this, e1', e2', ← sub_smul, hheight, hr, axisRej_eq,
      show dot a v - dot a (o2 - o1) - dot a v = -dot a (o2 - o1) by ring, neg_smul, ← sub_eq_add_neg]
  have hc1 : o1 + v - vp = o1 + dot a v • a := by rw [hvp, axisRej_eq]; abel
  rw [hc1] at hcd
  set c1 := o1 + dot a v • a with hc1def
  -- the orthonormal frame of the plane
  set ω := (1 / N) • r with hω
  set η := cross a ω with hη
  have haω : dot a ω = 0 := by rw [hω, dot_smul_right, hra, mul_zero]
  have haη : dot a η = 0 := dot_cross_self_left a ω
  have hωω : dot ω ω = 1 := by
    rw [hω, dot_smul_left, dot_smul_right, hrr]; field_simp
  have hωη : dot ω η = 0 := dot_cross_self_right a ω
  have hηη : dot η η = 1 := by rw [hη, lagrange, ha, hωω, haω]; norm_num
  have hrω : r = N • ω := by rw [hω, smul_smul, mul_one_div_cancel hN0.ne', one_smul]
  clear_value ω η
  have hperp : ∀ x g : ℝ, dot a (x • ω + g • η) = 0 := by
    intro x g
    rw [dot_add_right, dot_smul_right, dot_smul_right, haω, haη]; ring
  set s := (N ^ 2 - U ^ 2 + V ^ 2) / (2 * N) with hs
  have hsN : 2 * N * s = N ^ 2 - U ^ 2 + V ^ 2 := by rw [hs]; field_simp
  -- coordinates of an intermediate point
  have hcoord : ∀ x1 x2, (e1.asFrame x1).act ((e2.asFrame x2).act f) = k →
      ∃ g : ℝ, (e2.asFrame x2).act f = c1 + (s • ω + g • η) ∧ g ^ 2 = V ^ 2 - s ^ 2 := by
    intro x1 x2 hx
    obtain ⟨y1, y2, y3, y4⟩ := hsol x1 x2 hx
    set q := (e2.asFrame x2).act f with hq
    set w := axisRej a (q - o1) with hw
    have hwa : dot a w = 0 := dot_axisRej ha _
    have hqw : q = c1 + w := by
      rw [hw, axisRej_eq, y1, hc1def]; abel
    have hw2 : axisRej a (q - o2) = w - r := by
      rw [hw, hr, ← axisRej_sub]; congr 1; abel
    rw [hw2] at y4
    have hww : dot w w = V ^ 2 := by rw [← y3, norm_sq]
    have hwr : dot (w - r) (w - r) = U ^ 2 := by rw [← y4, norm_sq]
    have hwω : dot w ω = s := by
      have h5 : dot w r = N * s := by
        rw [dot_sub_left, dot_sub_right, dot_sub_right, hww, hrr, dot_comm r w] at hwr
        linarith
      rw [hω, dot_smul_right, h5]; field_simp
    -- w is a combination of ω and η
    have hpl := plane_identity ha haω hwa
    rw [hωω, one_smul, dot_comm ω w, hwω] at hpl
    refine ⟨dot a (cross ω w), ?_, ?_⟩
    · rw [hη, ← hpl]; exact hqw
    · have h6 := plane_norm ha haω hwa
      rw [dot_comm ω w, hwω, mul_pow, norm_sq, norm_sq, hωω, hww, one_mul] at h6
      linarith
  -- the two intersection points and the exact angles
  obtain ⟨g₀, -, hg₀⟩ := hcoord θ1 θ2 hreach
  have hnn : 0 ≤ V ^ 2 - s ^ 2 := by rw [← hg₀]; exact sq_nonneg _
  have hsq : √(V ^ 2 - s ^ 2) ^ 2 = V ^ 2 - s ^ 2 := sq_sqrt hnn
  have hsub1 : ∀ g : ℝ, axisRej a (c1 + (s • ω + g • η) - o1) = s • ω + g • η := by
    intro g
    have : c1 + (s • ω + g • η) - o1 = (s • ω + g • η) + dot a v • a := by rw [hc1def]; abel
    rw [this, axisRej_add, axisRej_smul_axis ha, add_zero]
    exact axisRej_of_perp (hperp s g)
  have hsub2 : ∀ g : ℝ, axisRej a (c1 + (s • ω + g • η) - o2) = (s • ω + g • η) - r := by
    intro g
    have h8 : c1 + (s • ω + g • η) - o2 = (c1 + (s • ω + g • η) - o1) - (o2 - o1) := by abel
    rw [h8, axisRej_sub, hsub1 g]
  have hlen1 : ∀ g : ℝ, g ^ 2 = V ^ 2 - s ^ 2 → (s • ω + g • η).norm = V := by
    intro g hg
    have : (s • ω + g • η).norm ^ 2 = V ^ 2 := by
      rw [norm_sq]
      simp only [dot_add_left, dot_add_right, dot_smul_left, dot_smul_right, hωω, hηη, hωη,
        dot_comm η ω]
      linarith
    exact (pow_left_inj₀ (Vec3.norm_nonneg _) (by rw [← hVn]; exact Vec3.norm_nonneg _) two_ne_zero).mp this
  have hlen2 : ∀ g : ℝ, g ^ 2 = V ^ 2 - s ^ 2 → ((s • ω + g • η) - r).norm = U := by
    intro g hg
    have : ((s • ω + g • η) - r).norm ^ 2 = U ^ 2 := by
      rw [norm_sq, hrω]
      simp only [dot_add_left, dot_add_right, dot_sub_left, dot_sub_right, dot_smul_left,
        dot_smul_right, hωω, hηη, hωη, dot_comm η ω]
      linarith
    exact (pow_left_inj₀ (Vec3.norm_nonneg _) (by rw [← hUn]; exact Vec3.norm_nonneg _) two_ne_zero).mp this
  have hsolve : ∀ g : ℝ, g ^ 2 = V ^ 2 - s ^ 2 →
      (e2.asFrame (angleAbout e2.axis up ((s • ω + g • η) - r))).act f = c1 + (s • ω + g • η) ∧
      (e1.asFrame (angleAbout a (s • ω + g • η) vp)).act (c1 + (s • ω + g • η)) = k := by
    intro g hg
    constructor
    · have := rotate_point_at m2 h2 hz2 (f := f) (k := c1 + (s • ω + g • η)) (by
        apply hdot2
        rw [← hu, hheight, hc1def]
        have : o1 + dot a v • a + (s • ω + g • η) - o2
            = dot a v • a + (s • ω + g • η) - (o2 - o1) := by abel
        rw [this, dot_sub_right _ (dot a v • a + _), dot_add_right, dot_smul_right, ha, hperp]
        ring) (by rw [hrej2, hrej2, hsub2, hlen2 g hg, ← hu, ← hup, hUn])
      rwa [hrej2, hrej2, hsub2, ← hu, ← hup] at this
    · have := rotate_point_at m1 h1 hz1 (f := c1 + (s • ω + g • η)) (k := k) (by
        rw [← hv, hc1def]
        have : o1 + dot a v • a + (s • ω + g • η) - o1 = dot a v • a + (s • ω + g • η) := by abel
        rw [← hadef, this, dot_add_right, dot_smul_right, ha, hperp]
        ring) (by rw [← hadef, hsub1, hlen1 g hg, ← hv, ← hvp, hVn])
      rwa [← hadef, hsub1, ← hv, ← hvp] at this
  set g := √(V ^ 2 - s ^ 2) with hg
  have hgneg : (-g) ^ 2 = V ^ 2 - s ^ 2 := by rw [neg_sq, hsq]
  obtain ⟨C1, C2⟩ := hsolve g hsq
  obtain ⟨D1, D2⟩ := hsolve (-g) hgneg
  refine ⟨_, _, _, _, angleAbout a (s • ω + g • η) vp,
    angleAbout e2.axis up ((s • ω + g • η) - r),
    angleAbout a (s • ω + (-g) • η) vp,
    angleAbout e2.axis up ((s • ω + (-g) • η) - r), ?_, ?_,
    normalizeAngle_same _, normalizeAngle_same _, ?_,
    normalizeAngle_same _, normalizeAngle_same _, ?_⟩
  · have hsame : Vec3.Equal r (pg4Normal e1 e2) := by rw [hnorm]; exact Vec3.Equal.refl _
    have hct : ¬ EqualR (U + V - N) 0 ∧ U + V - N > 0 := by
      have hp : 0 < U + V - N := lt_of_lt_of_le eps_pos htan
      refine ⟨?_, hp⟩
      rw [EqualR, sub_zero, abs_of_pos hp]; exact not_lt.mpr htan
    have hpt1 : c1 + s • ω + g • η = c1 + (s • ω + g • η) := by abel
    have hpt2 : c1 + s • ω - g • η = c1 + (s • ω + (-g) • η) := by rw [neg_smul]; abel
    simp only [pg4]
    simp only [← hadef, ← hf, ← hk, ← ho1, ← ho2, ← hu, ← hv, ← hup, ← hvp, hcd, hc1,
      if_pos hsame, ← hN, hUn, hVn]
    rw [if_pos hct, if_neg hN0.ne']
    simp only [← hω, ← hη, ← hs, abs_of_nonneg hnn, ← hg, hpt1, hpt2, hsub1, hsub2]
    congr 2
    rw [decide_eq_true_iff]
    exact ⟨hsame, by rw [hlen1 g hsq]; exact EqualR.refl _⟩
  · rw [C1, C2]
  · rw [D1, D2]
  · intro x1 x2 hx
    obtain ⟨g', hq, hg'⟩ := hcoord x1 x2 hx
    rw [C1, D1, hq]
    have : g' ^ 2 = g ^ 2 := by rw [hg', hsq]
    rcases sq_eq_sq_iff_eq_or_eq_neg.mp this with h | h
    · left; rw [h]
    · right; rw [h]

/-- Missing part of C14: at external tangency success is reported with the sign of the second
angle lost. Axes along z through (0,0,0) and (2,0,0), start (2,1,0), target (0,1,0): the pair
(π/2, π/2) is exact, the code answers (π/2, -π/2), which ends 2 away from the target. -/
theorem C14_pg4_tangent_counterexample :
    ∃ (e1 e2 : MatrixExp) (p : Vec3) (rhs H : Frame), e1.motion = .rotation ∧
      e2.motion = .rotation ∧ e1.Unit ∧ e2.axis = e1.axis ∧
      (∃ θ1 θ2, (e1.asFrame θ1).act ((e2.asFrame θ2).act (H.act p)) = rhs.act p) ∧
      ∃ φ1 φ2, pg4 0 1 e1 e2 p rhs H
          = some (true, [[(0, φ1), (1, φ2)], [(0, φ1), (1, φ2)]]) ∧
        ((e1.asFrame φ1).act ((e2.asFrame φ2).act (H.act p)) - rhs.act p).norm = 2 := by
  have u1 : MatrixExp.Unit ⟨.rotation, ⟨0, 0, 1⟩, ⟨0, 0, 0⟩⟩ := by norm_num [MatrixExp.Unit, dot]
  have u2 : MatrixExp.Unit ⟨.rotation, ⟨0, 0, 1⟩, ⟨2, 0, 0⟩⟩ := by norm_num [MatrixExp.Unit, dot]
  have hk : (Frame.trans ⟨-2, 0, 0⟩).act ⟨2, 1, 0⟩ = ⟨0, 1, 0⟩ := by
    ext <;> simp [Frame.act]
  have rej : ∀ x y : ℝ, axisRej ⟨0, 0, 1⟩ ⟨x, y, 0⟩ = ⟨x, y, 0⟩ := by
    intro x y; rw [axisRej_eq]; ext <;> simp [dot]
  have hna : ∀ x : ℝ, -π + 1 / 2 < x → x < π - 1 / 2 → normalizeAngle x = x := by
    intro x hx1 hx2
    have h1 := two_le_pi
    simp only [normalizeAngle]
    rw [if_neg, if_neg, if_neg]
    · linarith
    · linarith
    · rw [EqualR, not_lt, abs_sub_comm]
      have : |x| ≤ π - 1 / 2 := by rw [abs_le]; constructor <;> linarith
      refine le_trans ?_ (le_abs_self _)
      have : eps < 1 / 2 := by norm_num [eps]
      linarith
  have hpi := two_le_pi
  refine ⟨⟨.rotation, ⟨0, 0, 1⟩, ⟨0, 0, 0⟩⟩, ⟨.rotation, ⟨0, 0, 1⟩, ⟨2, 0, 0⟩⟩, ⟨2, 1, 0⟩,
    Frame.trans ⟨-2, 0, 0⟩, 1, rfl, rfl, u1, rfl, ⟨π / 2, π / 2, ?_⟩, π / 2, -(π / 2), ?_, ?_⟩
  · rw [act_rot rfl u1, act_rot rfl u2, Mat3.rot2_mulVec, Mat3.rot2_mulVec, hk]
    ext <;> simp [dot]
    norm_num
  · have hn : pg4Normal ⟨.rotation, ⟨0, 0, 1⟩, ⟨0, 0, 0⟩⟩ ⟨.rotation, ⟨0, 0, 1⟩, ⟨2, 0, 0⟩⟩
        = ⟨2, 0, 0⟩ := by
      have h0 : (⟨2, 0, 0⟩ : Vec3) - ⟨0, 0, 0⟩ = ⟨2, 0, 0⟩ := by ext <;> simp
      rw [pg4Normal_eq u1]
      · simp only [h0, rej]
      · simp only [h0, rej]
        rw [Vec3.norm]
        refine Real.le_sqrt_of_sq_le ?_
        norm_num [dot, eps]
    have h1 : (⟨2, 1, 0⟩ : Vec3) - ⟨2, 0, 0⟩ = ⟨0, 1, 0⟩ := by ext <;> simp
    have h2 : (⟨0, 1, 0⟩ : Vec3) - ⟨0, 0, 0⟩ = ⟨0, 1, 0⟩ := by ext <;> simp
    have h3 : (⟨2, 0, 0⟩ : Vec3) + ⟨0, 1, 0⟩ - ⟨0, 1, 0⟩ = ⟨2, 0, 0⟩ := by ext <;> simp
    have h4 : (⟨0, 0, 0⟩ : Vec3) + ⟨0, 1, 0⟩ - ⟨0, 1, 0⟩ = ⟨0, 0, 0⟩ := by ext <;> simp
    have h5 : (⟨2, 0, 0⟩ : Vec3) - ⟨0, 0, 0⟩ = ⟨2, 0, 0⟩ := by ext <;> simp
    have hs : Vec3.Equal (⟨2, 0, 0⟩ : Vec3) ⟨2, 0, 0⟩ := Vec3.Equal.refl _
    have n1 : Vec3.norm ⟨0, 1, 0⟩ = 1 := by rw [Vec3.norm]; norm_num [dot]
    have n2 : Vec3.norm ⟨2, 0, 0⟩ = 2 := by
      rw [Vec3.norm, show dot (⟨2, 0, 0⟩ : Vec3) ⟨2, 0, 0⟩ = 2 ^ 2 by norm_num [dot]]
      exact sqrt_sq (by norm_num)
    simp only [pg4, hk, Frame.act_one, hn, h1, h2, rej, h3, h4, h5, if_pos hs, n1, n2]
    have hz : EqualR ((1 : ℝ) + 1 - 2) 0 := by norm_num [EqualR, eps]
    rw [if_neg (fun h => h.1 hz), decide_eq_true hz]
    have a1 : atan2 (dot (⟨0, 0, 1⟩ : Vec3) (cross ⟨2, 0, 0⟩ ⟨0, 1, 0⟩))
        (dot (⟨2, 0, 0⟩ : Vec3) ⟨0, 1, 0⟩) = π / 2 := by
      rw [atan2, Complex.arg_eq_pi_div_two_iff]; simp [dot]
    have a2 : atan2 (dot (⟨0, 0, 1⟩ : Vec3) (cross ⟨0, 1, 0⟩ ⟨2, 0, 0⟩))
        (dot (-⟨2, 0, 0⟩ : Vec3) ⟨0, 1, 0⟩) = -(π / 2) := by
      rw [atan2, Complex.arg_eq_neg_pi_div_two_iff]; simp [dot]
    rw [a1, a2, hna _ (by linarith) (by linarith), hna _ (by linarith) (by linarith)]
  · rw [act_rot rfl u1, act_rot rfl u2, Mat3.rot2_mulVec, Mat3.rot2_mulVec, hk]
    have : ∀ x : Vec3, x = ⟨0, 2, 0⟩ → x.norm = 2 := by
      rintro x rfl
      rw [Vec3.norm, show dot (⟨0, 2, 0⟩ : Vec3) ⟨0, 2, 0⟩ = 2 ^ 2 by norm_num [dot]]
      exact sqrt_sq (by norm_num)
    apply this
    ext <;> simp [dot] <;> norm_num

/-- Non-vacuity: opposite axes through (0,0,0) and (3,0,0), start (3,4,0), target (0,7,0). -/
example : ∃ (e1 e2 : MatrixExp) (p : Vec3) (rhs H : Frame) (N U V θ1 θ2 : ℝ),
    e1.motion = .rotation ∧ e2.motion = .rotation ∧ e1.Unit ∧
    (e2.axis = e1.axis ∨ e2.axis = -e1.axis) ∧
    N = (axisRej e1.axis (e2.origin - e1.origin)).norm ∧
    U = (axisRej e2.axis (H.act p - e2.origin)).norm ∧
    V = (axisRej e1.axis (rhs.act p - e1.origin)).norm ∧
    eps ≤ N ∧ eps ≤ U + V - N ∧
    (e1.asFrame θ1).act ((e2.asFrame θ2).act (H.act p)) = rhs.act p := by
  refine ⟨⟨.rotation, ⟨0, 0, 1⟩, ⟨0, 0, 0⟩⟩, ⟨.rotation, ⟨0, 0, -1⟩, ⟨3, 0, 0⟩⟩, ⟨3, 4, 0⟩,
    Frame.trans ⟨-3, 3, 0⟩, 1, 3, 4, 7, π / 2, π / 2, rfl, rfl, ?_, Or.inr ?_, ?_, ?_, ?_, ?_, ?_, ?_⟩
  · norm_num [MatrixExp.Unit, dot]
  · ext <;> simp
  · rw [axisRej_eq, Vec3.norm, eq_comm, Real.sqrt_eq_iff_mul_self_eq_of_pos (by norm_num)]; norm_num [dot]
  · rw [axisRej_eq, Vec3.norm, eq_comm, Real.sqrt_eq_iff_mul_self_eq_of_pos (by norm_num)]; norm_num [dot]
  · rw [axisRej_eq, Vec3.norm, eq_comm, Real.sqrt_eq_iff_mul_self_eq_of_pos (by norm_num)]
    norm_num [dot, Frame.act]
  · norm_num [eps]
  · norm_num [eps]
  · rw [act_rot rfl (by norm_num [MatrixExp.Unit, dot]), act_rot rfl (by norm_num [MatrixExp.Unit, dot]),
      Mat3.rot2_mulVec, Mat3.rot2_mulVec]
    ext <;> simp [dot, Frame.act] <;> norm_num

end KD
