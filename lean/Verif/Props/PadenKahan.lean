import Verif.Screw.SubproblemLemmas

/-!
# Properties C08-C10: Paden-Kahan subproblems

Specification vocabulary: `asFrame`/`act` move points by a joint screw. `SameAngle φ θ`:
the reported `φ` equals `θ` up to whole turns, or was snapped to `π` from closer than
`eps` (`normalizeAngle` does that on purpose). `f` is the characteristic point after
`pointTransform`, `k` its image through `rhs`.
-/

namespace KD

open Real Vec3
open scoped Classical

/-- The pair of reported angles is an exact solution up to angle normalisation. -/
def Solves2 (e1 e2 : MatrixExp) (f k : Vec3) (φ1 φ2 : ℝ) : Prop :=
  ∃ ψ1 ψ2, (e1.asFrame ψ1).act ((e2.asFrame ψ2).act f) = k ∧ SameAngle φ1 ψ1 ∧ SameAngle φ2 ψ2

/-! ## C08 -/

/-- Angle normalisation costs at most `eps` times the distance to the axis, and nothing unless
the reported angle is exactly `π`. -/
theorem C08_normalisation_error (e : MatrixExp) (hm : e.motion = .rotation) (he : e.Unit)
    (φ θ : ℝ) (h : SameAngle φ θ) (x : Vec3) :
    ((e.asFrame φ).act x - (e.asFrame θ).act x).norm
      ≤ eps * (axisRej e.axis (x - e.origin)).norm ∧
    (φ ≠ π → (e.asFrame φ).act x = (e.asFrame θ).act x) :=
  ⟨(h.act hm he x).1, fun hφ => by rw [(h.act hm he x).2 hφ]⟩

/-- Reachable targets: success, and the reported angle maps one point onto the other. -/
theorem C08_pk1_sound (id : ℕ) (e : MatrixExp) (p : Vec3) (rhs H : Frame)
    (hm : e.motion = .rotation) (he : e.Unit)
    (hreach : ∃ θ₀, (e.asFrame θ₀).act (H.act p) = rhs.act p) :
    ∃ φ θ, pk1 id e p rhs H = some (true, [[(id, φ)]]) ∧
      (e.asFrame θ).act (H.act p) = rhs.act p ∧ SameAngle φ θ := by
  obtain ⟨θ₀, h⟩ := hreach
  have hr : e.origin = e.origin + (0 : ℝ) • e.axis := by rw [zero_smul, add_zero]
  have hh := rot_height hm he hr θ₀ (H.act p)
  have hdd := rot_dist hm he hr θ₀ (H.act p)
  rw [h] at hh hdd
  have hd := axisRej_norm_congr he hh hdd
  refine ⟨_, angleAbout e.axis (axisRej e.axis (H.act p - e.origin))
    (axisRej e.axis (rhs.act p - e.origin)), ?_, rotate_point hm he hh.symm hd.symm,
    normalizeAngle_same _⟩
  simp only [pk1]
  congr 2
  rw [decide_eq_true_iff]
  constructor
  · rw [axisProj_eq, axisProj_eq, hh]; exact Vec3.Equal.refl _
  · rw [← axisRej, ← axisRej, hd]; exact EqualR.refl _

/-- The reported angle lies in `(-π, π]`, always. -/
theorem C08_pk1_range (id : ℕ) (e : MatrixExp) (p : Vec3) (rhs H : Frame) :
    ∃ b φ, pk1 id e p rhs H = some (b, [[(id, φ)]]) ∧ -π < φ ∧ φ ≤ π := by
  refine ⟨_, _, rfl, ?_⟩
  have h1 := neg_pi_lt_atan2 (dot e.axis (cross (axisRej e.axis (H.act p - e.origin))
    (axisRej e.axis (rhs.act p - e.origin)))) (dot (axisRej e.axis (H.act p - e.origin))
    (axisRej e.axis (rhs.act p - e.origin)))
  have h2 := atan2_le_pi (dot e.axis (cross (axisRej e.axis (H.act p - e.origin))
    (axisRej e.axis (rhs.act p - e.origin)))) (dot (axisRej e.axis (H.act p - e.origin))
    (axisRej e.axis (rhs.act p - e.origin)))
  have hpi := pi_pos
  exact normalizeAngle_range (by rw [angleAbout]; linarith! [h1]) (by rw [angleAbout]; linarith! [h2])

/-- Success is reported exactly when the projections on the axis agree componentwise within `eps`
and the distances to the axis agree within `eps`. -/
theorem C08_pk1_flag (id : ℕ) (e : MatrixExp) (p : Vec3) (rhs H : Frame) :
    (∃ s, pk1 id e p rhs H = some (true, s)) ↔
      let f := H.act p - e.origin
      let k := rhs.act p - e.origin
      (|dot e.axis f * e.axis.x - dot e.axis k * e.axis.x| < eps ∧
       |dot e.axis f * e.axis.y - dot e.axis k * e.axis.y| < eps ∧
       |dot e.axis f * e.axis.z - dot e.axis k * e.axis.z| < eps) ∧
      |(f - dot e.axis f • e.axis).norm - (k - dot e.axis k • e.axis).norm| < eps := by
  simp only [pk1, Option.some.injEq, Prod.mk.injEq, decide_eq_true_eq, axisProj_eq, Vec3.Equal,
    EqualR, smul_x, smul_y, smul_z, exists_and_left, exists_eq', and_true]

/-- Whenever success is reported, reachable or not, the error is within tolerance. -/
theorem C08_pk1_success_bound (id : ℕ) (e : MatrixExp) (p : Vec3) (rhs H : Frame)
    (hm : e.motion = .rotation) (he : e.Unit) (s : List LocalSol)
    (hs : pk1 id e p rhs H = some (true, s)) :
    ∃ φ, s = [[(id, φ)]] ∧ ((e.asFrame φ).act (H.act p) - rhs.act p).norm
      ≤ (1 + √3 + (axisRej e.axis (H.act p - e.origin)).norm) * eps := by
  simp only [pk1, Option.some.injEq, Prod.mk.injEq, decide_eq_true_eq] at hs
  obtain ⟨⟨h1, h2⟩, hs⟩ := hs
  refine ⟨_, hs.symm, ?_⟩
  have hr : e.origin = e.origin + (0 : ℝ) • e.axis := by rw [zero_smul, add_zero]
  have hb := rotate_point_err hm he hr (H.act p) (rhs.act p)
  set θ := angleAbout e.axis (axisRej e.axis (H.act p - e.origin))
    (axisRej e.axis (rhs.act p - e.origin)) with hθ
  have hn := ((normalizeAngle_same θ).act hm he (H.act p)).1
  have hw := norm_le_of_equal h1
  have hp : |(axisRej e.axis (H.act p - e.origin)).norm
      - (axisRej e.axis (rhs.act p - e.origin)).norm| < eps := h2
  refine (Vec3.norm_sub_le _ ((e.asFrame θ).act (H.act p)) _).trans ?_
  change _ + ((e.asFrame θ).act (H.act p) - rhs.act p).norm ≤ _
  have hn' : ((e.asFrame (normalizeAngle (angleAbout e.axis
      (H.act p - e.origin - axisProj e.axis (H.act p - e.origin))
      (rhs.act p - e.origin - axisProj e.axis (rhs.act p - e.origin))))).act (H.act p)
      - (e.asFrame θ).act (H.act p)).norm ≤ eps * (axisRej e.axis (H.act p - e.origin)).norm := hn
  linarith

/-- Non-vacuity: a quarter turn about the z axis is reachable and moves the point. -/
example : ∃ (e : MatrixExp) (p : Vec3) (rhs : Frame), e.motion = .rotation ∧ e.Unit ∧
    (∃ θ₀, (e.asFrame θ₀).act ((1 : Frame).act p) = rhs.act p) ∧ rhs.act p ≠ p := by
  refine ⟨⟨.rotation, ⟨0, 0, 1⟩, ⟨0, 0, 0⟩⟩, ⟨1, 0, 0⟩, Frame.trans ⟨-1, 1, 0⟩, rfl, ?_, ⟨π / 2, ?_⟩,
    ?_⟩
  · norm_num [MatrixExp.Unit, dot]
  · rw [act_rot rfl (by norm_num [MatrixExp.Unit, dot]), Mat3.rot2_mulVec]
    ext <;> simp [Frame.act, dot]
  · intro h
    have := congrArg Vec3.y h
    simp [Frame.act] at this

/-! ## C09 -/

/-- Reachable targets away from tangency: success, both reported pairs carry `f` onto `k`, and
they are all the solutions there are: every exact solution goes through one of the two
intermediate points. -/
theorem C09_pk2_sound (id1 id2 : ℕ) (e1 e2 : MatrixExp) (p r : Vec3) (rhs H : Frame)
    (m1 : e1.motion = .rotation) (m2 : e2.motion = .rotation) (h1 : e1.Unit) (h2 : e2.Unit)
    (t1 t2 : ℝ) (hr1 : r = e1.origin + t1 • e1.axis) (hr2 : r = e2.origin + t2 • e2.axis)
    (hpar : cross e1.axis e2.axis ≠ 0) (θ1 θ2 : ℝ)
    (hreach : (e1.asFrame θ1).act ((e2.asFrame θ2).act (H.act p)) = rhs.act p)
    (hproper : eps ≤ (dot ((e2.asFrame θ2).act (H.act p) - r) (cross e1.axis e2.axis)
      / (cross e1.axis e2.axis).norm ^ 2) ^ 2) :
    ∃ φ11 φ21 φ12 φ22 ψ11 ψ21 ψ12 ψ22,
      pk2 id1 id2 e1 e2 p r rhs H
        = some (true, [[(id1, φ11), (id2, φ21)], [(id1, φ12), (id2, φ22)]]) ∧
      (e1.asFrame ψ11).act ((e2.asFrame ψ21).act (H.act p)) = rhs.act p ∧
      SameAngle φ11 ψ11 ∧ SameAngle φ21 ψ21 ∧
      (e1.asFrame ψ12).act ((e2.asFrame ψ22).act (H.act p)) = rhs.act p ∧
      SameAngle φ12 ψ12 ∧ SameAngle φ22 ψ22 ∧
      ∀ θ1' θ2', (e1.asFrame θ1').act ((e2.asFrame θ2').act (H.act p)) = rhs.act p →
        (e2.asFrame θ2').act (H.act p) = (e2.asFrame ψ21).act (H.act p) ∨
        (e2.asFrame θ2').act (H.act p) = (e2.asFrame ψ22).act (H.act p) := by
  set a1 := e1.axis with ha1
  set a2 := e2.axis with ha2
  have hu1 : dot a1 a1 = 1 := h1
  have hu2 : dot a2 a2 = 1 := h2
  have hd := den_ne_zero hu1 hu2 hpar
  set f := H.act p with hf
  set k := rhs.act p with hk
  have hcn := cross_norm_sq hu1 hu2
  have hd' : 0 < 1 - dot a1 a2 ^ 2 := by
    rw [← hcn]
    have := norm_nonneg (cross a1 a2)
    have h0 : (cross a1 a2).norm ≠ 0 := fun h => hpar (Vec3.norm_eq_zero h)
    positivity
  -- facts on any exact solution
  have hsol : ∀ x1 x2, (e1.asFrame x1).act ((e2.asFrame x2).act f) = k →
      dot a1 ((e2.asFrame x2).act f - r) = dot a1 (k - r) ∧
      dot a2 ((e2.asFrame x2).act f - r) = dot a2 (f - r) ∧
      dot ((e2.asFrame x2).act f - r) ((e2.asFrame x2).act f - r) = dot (f - r) (f - r) ∧
      dot (k - r) (k - r) = dot (f - r) (f - r) := by
    intro x1 x2 hx
    have q1 := rot_height m1 h1 hr1 x1 ((e2.asFrame x2).act f)
    have q2 := rot_dist m1 h1 hr1 x1 ((e2.asFrame x2).act f)
    have q3 := rot_height m2 h2 hr2 x2 f
    have q4 := rot_dist m2 h2 hr2 x2 f
    rw [hx] at q1 q2
    exact ⟨q1.symm, q3, q4, q2.trans q4⟩
  obtain ⟨s1, s2, s3, s4⟩ := hsol θ1 θ2 hreach
  set w := (e2.asFrame θ2).act f - r with hw
  set α := (dot a1 a2 * dot a2 (f - r) - dot a1 (k - r)) / (dot a1 a2 ^ 2 - 1) with hα
  set β := (dot a1 a2 * dot a1 (k - r) - dot a2 (f - r)) / (dot a1 a2 ^ 2 - 1) with hβ
  have hgw : ∀ w : Vec3, dot a1 w = dot a1 (k - r) → dot a2 w = dot a2 (f - r) →
      dot w w = dot (f - r) (f - r) →
      ((f - r).norm ^ 2 - α ^ 2 - β ^ 2 - 2 * α * β * dot a1 a2) / (cross a1 a2).norm ^ 2
        = (dot w (cross a1 a2) / (cross a1 a2).norm ^ 2) ^ 2 := by
    intro w w1 w2 w3
    have := gamma_sq hu1 hu2 hd w
    rw [w1, w2, w3] at this
    rw [norm_sq, hcn]
    exact this
  set gamma2 := ((f - r).norm ^ 2 - α ^ 2 - β ^ 2 - 2 * α * β * dot a1 a2)
    / (cross a1 a2).norm ^ 2 with hg2
  have hge : eps ≤ gamma2 := by rw [hgw w s1 s2 s3]; exact hproper
  have hpos : 0 < gamma2 := lt_of_lt_of_le eps_pos hge
  have hcond : ¬ EqualR gamma2 0 ∧ gamma2 > 0 := by
    refine ⟨?_, hpos⟩
    rw [EqualR, sub_zero, abs_of_pos hpos]; exact not_lt.mpr hge
  -- the two intersection points
  have hmix : ∀ g : ℝ, g ^ 2 = gamma2 →
      dot a1 (α • a1 + β • a2 + g • cross a1 a2) = dot a1 (k - r) ∧
      dot a2 (α • a1 + β • a2 + g • cross a1 a2) = dot a2 (f - r) ∧
      dot (α • a1 + β • a2 + g • cross a1 a2) (α • a1 + β • a2 + g • cross a1 a2)
        = dot (f - r) (f - r) := by
    intro g hg
    obtain ⟨q1, q2, q3⟩ := mixed_point hu1 hu2 hd (dot a1 (k - r)) (dot a2 (f - r)) g
    refine ⟨q1, q2, ?_⟩
    rw [q3, ← hα, ← hβ, hg, hg2, hcn, div_mul_cancel₀ _ hd'.ne', norm_sq]
    ring
  have hsq : √gamma2 ^ 2 = gamma2 := sq_sqrt hpos.le
  obtain ⟨c1, c2, c3⟩ := hmix (-√gamma2) (by rw [neg_sq, hsq])
  obtain ⟨d1, d2, d3⟩ := hmix (√gamma2) hsq
  set mc := α • a1 + β • a2 + (-√gamma2) • cross a1 a2 with hmc
  set md := α • a1 + β • a2 + √gamma2 • cross a1 a2 with hmd
  have em : r + α • a1 + β • a2 - √gamma2 • cross a1 a2 - r = mc := by
    rw [hmc, neg_smul]; abel
  have en : r + α • a1 + β • a2 + √gamma2 • cross a1 a2 - r = md := by
    rw [hmd]; abel
  -- exact angles
  have hmr : ∀ m : Vec3, r + m - r = m := fun m => by abel
  have mk1 : ∀ m : Vec3, dot a1 m = dot a1 (k - r) → dot a2 m = dot a2 (f - r) →
      dot m m = dot (f - r) (f - r) →
      (e2.asFrame (angleAbout a2 (axisRej a2 (f - r)) (axisRej a2 m))).act f = r + m ∧
      (e1.asFrame (angleAbout a1 (axisRej a1 m) (axisRej a1 (k - r)))).act (r + m) = k := by
    intro m q1 q2 q3
    constructor
    · have := rotate_point_at m2 h2 hr2 (f := f) (k := r + m) (by rw [hmr]; exact q2.symm)
        (by rw [hmr]; exact axisRej_norm_congr hu2 q2.symm q3.symm)
      rwa [hmr] at this
    · have := rotate_point_at m1 h1 hr1 (f := r + m) (k := k) (by rw [hmr]; exact q1)
        (by rw [hmr]; exact axisRej_norm_congr hu1 q1 (q3.trans s4.symm))
      rwa [hmr] at this
  obtain ⟨C1, C2⟩ := mk1 mc c1 c2 c3
  obtain ⟨D1, D2⟩ := mk1 md d1 d2 d3
  refine ⟨_, _, _, _, angleAbout a1 (axisRej a1 mc) (axisRej a1 (k - r)),
    angleAbout a2 (axisRej a2 (f - r)) (axisRej a2 mc),
    angleAbout a1 (axisRej a1 md) (axisRej a1 (k - r)),
    angleAbout a2 (axisRej a2 (f - r)) (axisRej a2 md), ?_, ?_,
    normalizeAngle_same _, normalizeAngle_same _, ?_,
    normalizeAngle_same _, normalizeAngle_same _, ?_⟩
  · simp only [pk2]
    rw [if_neg (by simpa using hd)]
    simp only [← ha1, ← ha2, ← hf, ← hk, ← hα, ← hβ, ← hg2]
    rw [if_pos hcond, em, en]
    congr 2
    rw [decide_eq_true_iff, axisRej_norm_congr hu1 c1 (c3.trans s4.symm)]
    exact EqualR.refl _
  · rw [C1, C2]
  · rw [D1, D2]
  · intro x1 x2 hx
    obtain ⟨y1, y2, y3, _⟩ := hsol x1 x2 hx
    set y := (e2.asFrame x2).act f - r with hy
    have hyr : (e2.asFrame x2).act f = r + y := by rw [hy]; abel
    rw [C1, D1, hyr]
    have hgy := hgw y y1 y2 y3
    have hcases : dot y (cross a1 a2) / (cross a1 a2).norm ^ 2 = √gamma2 ∨
        dot y (cross a1 a2) / (cross a1 a2).norm ^ 2 = -√gamma2 := by
      rw [← hsq] at hgy
      rcases sq_eq_sq_iff_eq_or_eq_neg.mp hgy with h | h
      · exact Or.inl h.symm
      · exact Or.inr (by linarith)
    -- y is determined by its three coordinates
    have huniq : ∀ g, dot y (cross a1 a2) / (cross a1 a2).norm ^ 2 = g →
        y = α • a1 + β • a2 + g • cross a1 a2 := by
      intro g hg
      obtain ⟨q1, q2, _⟩ := mixed_point hu1 hu2 hd (dot a1 (k - r)) (dot a2 (f - r)) g
      rw [← hα, ← hβ] at q1 q2
      have z1 : dot a1 (y - (α • a1 + β • a2 + g • cross a1 a2)) = 0 := by
        rw [dot_sub_right, q1, y1, sub_self]
      have z2 : dot a2 (y - (α • a1 + β • a2 + g • cross a1 a2)) = 0 := by
        rw [dot_sub_right, q2, y2, sub_self]
      have z3 : dot (y - (α • a1 + β • a2 + g • cross a1 a2)) (cross a1 a2) = 0 := by
        rw [dot_sub_left, dot_add_left, dot_add_left, dot_smul_left, dot_smul_left, dot_smul_left,
          dot_cross_self_left, dot_cross_self_right, ← norm_sq, ← hg,
          div_mul_cancel₀ _ (by rw [hcn]; exact hd'.ne')]
        ring
      have hgr := gram (y - (α • a1 + β • a2 + g • cross a1 a2)) a1 a2
      rw [z3, dot_comm (y - (α • a1 + β • a2 + g • cross a1 a2)) a1, z1,
        dot_comm (y - (α • a1 + β • a2 + g • cross a1 a2)) a2, z2, hu1, hu2] at hgr
      have hz : dot (y - (α • a1 + β • a2 + g • cross a1 a2))
          (y - (α • a1 + β • a2 + g • cross a1 a2)) * (1 - dot a1 a2 ^ 2) = 0 := by linarith
      have := dot_self_eq_zero ((mul_eq_zero.mp hz).resolve_right hd'.ne')
      exact sub_eq_zero.mp this
    rcases hcases with h | h
    · right; rw [huniq _ h]
    · left; rw [huniq _ h]

/-- Tangency (a single intersection point): success and an exact solution. -/
theorem C09_pk2_tangent (id1 id2 : ℕ) (e1 e2 : MatrixExp) (p r : Vec3) (rhs H : Frame)
    (m1 : e1.motion = .rotation) (m2 : e2.motion = .rotation) (h1 : e1.Unit) (h2 : e2.Unit)
    (t1 t2 : ℝ) (hr1 : r = e1.origin + t1 • e1.axis) (hr2 : r = e2.origin + t2 • e2.axis)
    (hpar : cross e1.axis e2.axis ≠ 0) (θ1 θ2 : ℝ)
    (hreach : (e1.asFrame θ1).act ((e2.asFrame θ2).act (H.act p)) = rhs.act p)
    (htan : dot ((e2.asFrame θ2).act (H.act p) - r) (cross e1.axis e2.axis) = 0) :
    ∃ φ1 φ2, pk2 id1 id2 e1 e2 p r rhs H
        = some (true, [[(id1, φ1), (id2, φ2)], [(id1, φ1), (id2, φ2)]]) ∧
      Solves2 e1 e2 (H.act p) (rhs.act p) φ1 φ2 := by
  set a1 := e1.axis with ha1
  set a2 := e2.axis with ha2
  have hu1 : dot a1 a1 = 1 := h1
  have hu2 : dot a2 a2 = 1 := h2
  have hd := den_ne_zero hu1 hu2 hpar
  set f := H.act p with hf
  set k := rhs.act p with hk
  have hcn := cross_norm_sq hu1 hu2
  have hd' : 1 - dot a1 a2 ^ 2 ≠ 0 := by intro h; apply hd; linarith
  have q1 := rot_height m1 h1 hr1 θ1 ((e2.asFrame θ2).act f)
  have q2 := rot_dist m1 h1 hr1 θ1 ((e2.asFrame θ2).act f)
  have q3 := rot_height m2 h2 hr2 θ2 f
  have q4 := rot_dist m2 h2 hr2 θ2 f
  rw [hreach] at q1 q2
  set w := (e2.asFrame θ2).act f - r with hw
  set α := (dot a1 a2 * dot a2 (f - r) - dot a1 (k - r)) / (dot a1 a2 ^ 2 - 1) with hα
  set β := (dot a1 a2 * dot a1 (k - r) - dot a2 (f - r)) / (dot a1 a2 ^ 2 - 1) with hβ
  set gamma2 := ((f - r).norm ^ 2 - α ^ 2 - β ^ 2 - 2 * α * β * dot a1 a2)
    / (cross a1 a2).norm ^ 2 with hg2
  have hgam : gamma2 = 0 := by
    have := gamma_sq hu1 hu2 hd w
    rw [← q1, q3, q4, htan] at this
    rw [hg2, norm_sq, hcn]
    simpa using this
  obtain ⟨c1, c2, c3⟩ := mixed_point hu1 hu2 hd (dot a1 (k - r)) (dot a2 (f - r)) 0
  rw [← hα, ← hβ, zero_smul, add_zero] at c1 c2 c3
  set m := α • a1 + β • a2 with hmdef
  have hnum : (f - r).norm ^ 2 - α ^ 2 - β ^ 2 - 2 * α * β * dot a1 a2 = 0 := by
    rw [hg2, div_eq_zero_iff] at hgam
    rcases hgam with h | h
    · exact h
    · exact absurd (by rw [← hcn]; exact h) hd'
  have hmm : dot m m = dot (f - r) (f - r) := by
    rw [c3, ← norm_sq]; linarith
  have hmr : r + α • a1 + β • a2 - r = m := by rw [hmdef]; abel
  have hmr' : r + m - r = m := by abel
  have s4 : dot (k - r) (k - r) = dot (f - r) (f - r) := q2.trans q4
  refine ⟨_, _, ?_, angleAbout a1 (axisRej a1 m) (axisRej a1 (k - r)),
    angleAbout a2 (axisRej a2 (f - r)) (axisRej a2 m), ?_, normalizeAngle_same _,
    normalizeAngle_same _⟩
  · simp only [pk2]
    rw [if_neg (by simpa using hd)]
    simp only [← ha1, ← ha2, ← hf, ← hk, ← hα, ← hβ, ← hg2]
    rw [if_neg (by rw [hgam]; simp), hmr]
    congr 2
    rw [decide_eq_true_iff, axisRej_norm_congr hu1 c1 (hmm.trans s4.symm)]
    exact ⟨by rw [hgam]; exact EqualR.refl _, EqualR.refl _⟩
  · have A := rotate_point_at m2 h2 hr2 (f := f) (k := r + m) (by rw [hmr']; exact c2.symm)
        (by rw [hmr']; exact axisRej_norm_congr hu2 c2.symm hmm.symm)
    have B := rotate_point_at m1 h1 hr1 (f := r + m) (k := k) (by rw [hmr']; exact c1)
        (by rw [hmr']; exact axisRej_norm_congr hu1 c1 (hmm.trans s4.symm))
    rw [hmr'] at A B
    rw [A, B]

/-- Two solutions are always produced when the axes are not parallel, reachable or not. -/
theorem C09_pk2_always_two (id1 id2 : ℕ) (e1 e2 : MatrixExp) (p r : Vec3) (rhs H : Frame)
    (h1 : e1.Unit) (h2 : e2.Unit) (hpar : cross e1.axis e2.axis ≠ 0) :
    ∃ b φ11 φ21 φ12 φ22, pk2 id1 id2 e1 e2 p r rhs H
      = some (b, [[(id1, φ11), (id2, φ21)], [(id1, φ12), (id2, φ22)]]) := by
  have hd := den_ne_zero h1 h2 hpar
  simp only [pk2]
  rw [if_neg (by simpa using hd)]
  split_ifs
  · exact ⟨_, _, _, _, _, rfl⟩
  · exact ⟨_, _, _, _, _, rfl⟩

/-- Whenever success is reported, reachable or not, both reported pairs (before angle
normalisation) bring the point within `√eps + eps` of the target. In particular success is never
reported for a target that no pair of angles approaches that close. -/
theorem C09_pk2_success_bound (id1 id2 : ℕ) (e1 e2 : MatrixExp) (p r : Vec3) (rhs H : Frame)
    (m1 : e1.motion = .rotation) (m2 : e2.motion = .rotation) (h1 : e1.Unit) (h2 : e2.Unit)
    (t1 t2 : ℝ) (hr1 : r = e1.origin + t1 • e1.axis) (hr2 : r = e2.origin + t2 • e2.axis)
    (hpar : cross e1.axis e2.axis ≠ 0) (s : List LocalSol)
    (hs : pk2 id1 id2 e1 e2 p r rhs H = some (true, s)) :
    ∃ φ11 φ21 φ12 φ22 ψ11 ψ21 ψ12 ψ22,
      s = [[(id1, φ11), (id2, φ21)], [(id1, φ12), (id2, φ22)]] ∧
      SameAngle φ11 ψ11 ∧ SameAngle φ21 ψ21 ∧ SameAngle φ12 ψ12 ∧ SameAngle φ22 ψ22 ∧
      ((e1.asFrame ψ11).act ((e2.asFrame ψ21).act (H.act p)) - rhs.act p).norm < √eps + eps ∧
      ((e1.asFrame ψ12).act ((e2.asFrame ψ22).act (H.act p)) - rhs.act p).norm < √eps + eps := by
  set a1 := e1.axis with ha1
  set a2 := e2.axis with ha2
  have hu1 : dot a1 a1 = 1 := h1
  have hu2 : dot a2 a2 = 1 := h2
  have hd := den_ne_zero hu1 hu2 hpar
  set f := H.act p with hf
  set k := rhs.act p with hk
  have hcn := cross_norm_sq hu1 hu2
  have hd' : 0 < 1 - dot a1 a2 ^ 2 := by
    rw [← hcn]
    have h0 : (cross a1 a2).norm ≠ 0 := fun h => hpar (Vec3.norm_eq_zero h)
    have := norm_nonneg (cross a1 a2)
    positivity
  have hd1 : 1 - dot a1 a2 ^ 2 ≤ 1 := by nlinarith [sq_nonneg (dot a1 a2)]
  set α := (dot a1 a2 * dot a2 (f - r) - dot a1 (k - r)) / (dot a1 a2 ^ 2 - 1) with hα
  set β := (dot a1 a2 * dot a1 (k - r) - dot a2 (f - r)) / (dot a1 a2 ^ 2 - 1) with hβ
  set gamma2 := ((f - r).norm ^ 2 - α ^ 2 - β ^ 2 - 2 * α * β * dot a1 a2)
    / (cross a1 a2).norm ^ 2 with hg2
  have hsqeps : 0 < √eps := sqrt_pos.mpr eps_pos
  have hproj : ∀ a v w : Vec3, dot a v = dot a w → (axisProj a v - axisProj a w).norm = 0 := by
    intro a v w h
    rw [axisProj_eq, axisProj_eq, h, sub_self, Vec3.norm_zero]
  simp only [pk2] at hs
  rw [if_neg (by simpa using hd)] at hs
  simp only [← ha1, ← ha2, ← hf, ← hk, ← hα, ← hβ, ← hg2] at hs
  split_ifs at hs with hcond
  · -- regular branch: the second rotation is exact
    simp only [Option.some.injEq, Prod.mk.injEq, decide_eq_true_eq] at hs
    obtain ⟨hflag, hs⟩ := hs
    have hpos : 0 < gamma2 := hcond.2
    have hsq : √gamma2 ^ 2 = gamma2 := sq_sqrt hpos.le
    have em : r + α • a1 + β • a2 - √gamma2 • cross a1 a2 - r
        = α • a1 + β • a2 + (-√gamma2) • cross a1 a2 := by
      rw [neg_smul]; abel
    have en : r + α • a1 + β • a2 + √gamma2 • cross a1 a2 - r
        = α • a1 + β • a2 + √gamma2 • cross a1 a2 := by
      abel
    rw [em] at hflag
    rw [em, en] at hs
    have hlen : ∀ g : ℝ, g ^ 2 = gamma2 →
        (axisRej a1 (α • a1 + β • a2 + g • cross a1 a2)).norm
          = (axisRej a1 (α • a1 + β • a2 + (-√gamma2) • cross a1 a2)).norm := by
      intro g hg
      obtain ⟨q1, -, q3⟩ := mixed_point hu1 hu2 hd (dot a1 (k - r)) (dot a2 (f - r)) g
      obtain ⟨q1', -, q3'⟩ := mixed_point hu1 hu2 hd (dot a1 (k - r)) (dot a2 (f - r)) (-√gamma2)
      rw [← hα, ← hβ] at q1 q3 q1' q3'
      exact axisRej_norm_congr hu1 (q1.trans q1'.symm) (by rw [q3, q3', neg_sq, hsq, hg])
    have key : ∀ g : ℝ, g ^ 2 = gamma2 →
        ((e1.asFrame (angleAbout a1 (axisRej a1 (α • a1 + β • a2 + g • cross a1 a2))
          (axisRej a1 (k - r)))).act ((e2.asFrame (angleAbout a2 (axisRej a2 (f - r))
          (axisRej a2 (α • a1 + β • a2 + g • cross a1 a2)))).act f) - k).norm < √eps + eps := by
      intro g hg
      have hl := hlen g hg
      obtain ⟨q1, q2, q3⟩ := mixed_point hu1 hu2 hd (dot a1 (k - r)) (dot a2 (f - r)) g
      rw [← hα, ← hβ] at q1 q2 q3
      set m := α • a1 + β • a2 + g • cross a1 a2 with hm
      have hmm : dot m m = dot (f - r) (f - r) := by
        rw [q3, hg, hg2, hcn, div_mul_cancel₀ _ hd'.ne', norm_sq]; ring
      have hmr : r + m - r = m := by abel
      have A := rotate_point_at m2 h2 hr2 (f := f) (k := r + m) (by rw [hmr]; exact q2.symm)
          (by rw [hmr]; exact axisRej_norm_congr hu2 q2.symm hmm.symm)
      have B := rotate_point_err m1 h1 hr1 (r + m) k
      rw [hmr] at A B
      rw [← A] at B
      refine lt_of_le_of_lt B ?_
      rw [← ha1, hproj _ _ _ q1, add_zero, hl]
      have : |(axisRej a1 (α • a1 + β • a2 + (-√gamma2) • cross a1 a2)).norm
          - (axisRej a1 (k - r)).norm| < eps := hflag
      linarith
    exact ⟨_, _, _, _, _, _, _, _, hs.symm, normalizeAngle_same _, normalizeAngle_same _,
      normalizeAngle_same _, normalizeAngle_same _, key _ (by rw [neg_sq, hsq]), key _ hsq⟩
  · -- tangent branch
    simp only [Option.some.injEq, Prod.mk.injEq, decide_eq_true_eq] at hs
    obtain ⟨⟨hz, hflag⟩, hs⟩ := hs
    obtain ⟨q1, q2, q3⟩ := mixed_point hu1 hu2 hd (dot a1 (k - r)) (dot a2 (f - r)) 0
    rw [← hα, ← hβ, zero_smul, add_zero] at q1 q2 q3
    set m := α • a1 + β • a2 with hm
    have em : r + α • a1 + β • a2 - r = m := by rw [hm]; abel
    rw [em] at hflag hs
    have hmr : r + m - r = m := by abel
    -- length defect
    have hdef : dot (f - r) (f - r) - dot m m = gamma2 * (1 - dot a1 a2 ^ 2) := by
      rw [q3, hg2, hcn, div_mul_cancel₀ _ hd'.ne', norm_sq]; ring
    have hdabs : |dot (f - r) (f - r) - dot m m| < eps := by
      rw [hdef, abs_mul, abs_of_pos hd']
      rw [EqualR, sub_zero] at hz
      calc |gamma2| * (1 - dot a1 a2 ^ 2) ≤ |gamma2| * 1 := by gcongr
        _ < eps := by rw [mul_one]; exact hz
    have hrej : |(axisRej a2 (f - r)).norm - (axisRej a2 m).norm| < √eps := by
      have e1 := axisRej_norm_sq hu2 (f - r)
      have e2 := axisRej_norm_sq hu2 m
      rw [q2] at e2
      set x := (axisRej a2 (f - r)).norm with hx
      set y := (axisRej a2 m).norm with hy
      have hx0 : 0 ≤ x := norm_nonneg _
      have hy0 : 0 ≤ y := norm_nonneg _
      have hxy : |x ^ 2 - y ^ 2| < eps := by rw [e1, e2]; simpa using hdabs
      have h5 : |x - y| ^ 2 ≤ |x ^ 2 - y ^ 2| := by
        have : x ^ 2 - y ^ 2 = (x - y) * (x + y) := by ring
        rw [this, abs_mul, abs_of_nonneg (add_nonneg hx0 hy0), sq]
        have h6 : |x - y| ≤ x + y := by
          rw [abs_le]; constructor <;> linarith
        exact mul_le_mul_of_nonneg_left h6 (abs_nonneg _)
      have h7 : |x - y| ^ 2 < eps := lt_of_le_of_lt h5 hxy
      exact lt_sqrt_of_sq_lt h7
    have A := rotate_point_err m2 h2 hr2 f (r + m)
    have B := rotate_point_err m1 h1 hr1 (r + m) k
    rw [hmr] at A B
    rw [← ha2, hproj a2 _ _ q2.symm, add_zero] at A
    rw [← ha1, hproj a1 _ _ q1, add_zero] at B
    set ψ2 := angleAbout a2 (axisRej a2 (f - r)) (axisRej a2 m)
    set ψ1 := angleAbout a1 (axisRej a1 m) (axisRej a1 (k - r))
    have hri := (MatrixExp.asFrame_rigid h1 ψ1).dist ((e2.asFrame ψ2).act f) (r + m)
    have htri := Vec3.norm_sub_le ((e1.asFrame ψ1).act ((e2.asFrame ψ2).act f))
      ((e1.asFrame ψ1).act (r + m)) k
    have hB : |(axisRej a1 m).norm - (axisRej a1 (k - r)).norm| < eps := hflag
    rw [hri] at htri
    have hfin : ((e1.asFrame ψ1).act ((e2.asFrame ψ2).act f) - k).norm < √eps + eps := by linarith
    exact ⟨_, _, _, _, ψ1, ψ2, ψ1, ψ2, hs.symm, normalizeAngle_same _, normalizeAngle_same _,
      normalizeAngle_same _, normalizeAngle_same _, hfin, hfin⟩

/-- Non-vacuity: axes x and z through the origin, the point (0,0,1) sent through (0,1,0)... the
hypotheses of `C09_pk2_sound` hold with out-of-plane coordinate one. -/
example : ∃ (e1 e2 : MatrixExp) (p r : Vec3) (rhs H : Frame) (t1 t2 θ1 θ2 : ℝ),
    e1.motion = .rotation ∧ e2.motion = .rotation ∧ e1.Unit ∧ e2.Unit ∧
    r = e1.origin + t1 • e1.axis ∧ r = e2.origin + t2 • e2.axis ∧ cross e1.axis e2.axis ≠ 0 ∧
    (e1.asFrame θ1).act ((e2.asFrame θ2).act (H.act p)) = rhs.act p ∧
    eps ≤ (dot ((e2.asFrame θ2).act (H.act p) - r) (cross e1.axis e2.axis)
      / (cross e1.axis e2.axis).norm ^ 2) ^ 2 := by
  refine ⟨⟨.rotation, ⟨1, 0, 0⟩, ⟨0, 0, 0⟩⟩, ⟨.rotation, ⟨0, 0, 1⟩, ⟨0, 0, 0⟩⟩, ⟨1, 0, 0⟩,
    ⟨0, 0, 0⟩, Frame.trans ⟨-1, 0, 1⟩, 1, 0, 0, π / 2, π / 2, rfl, rfl, ?_, ?_, ?_, ?_, ?_, ?_, ?_⟩
  · norm_num [MatrixExp.Unit, dot]
  · norm_num [MatrixExp.Unit, dot]
  · ext <;> simp
  · ext <;> simp
  · intro h
    have := congrArg Vec3.y h
    simp at this
  · rw [act_rot (e := ⟨.rotation, ⟨1, 0, 0⟩, ⟨0, 0, 0⟩⟩) rfl (by norm_num [MatrixExp.Unit, dot]),
      act_rot (e := ⟨.rotation, ⟨0, 0, 1⟩, ⟨0, 0, 0⟩⟩) rfl (by norm_num [MatrixExp.Unit, dot]),
      Mat3.rot2_mulVec, Mat3.rot2_mulVec]
    ext <;> simp [Frame.act, dot]
  · rw [act_rot (e := ⟨.rotation, ⟨0, 0, 1⟩, ⟨0, 0, 0⟩⟩) rfl (by norm_num [MatrixExp.Unit, dot]),
      Mat3.rot2_mulVec, norm_sq]
    norm_num [dot, eps]

end KD
