import Verif.Screw.SubproblemLemmas

/-!
# Property C10: third Paden-Kahan subproblem

Rotate `f` about an axis until its distance to the fixed point `k` is `δ`, where `δ` is the
distance from `rhs * p` to `k`. Vocabulary as in `Verif.Props.PadenKahan`.
-/

namespace KD

open Real Vec3
open scoped Classical

/-- Distance of the rotated point to `k`: the law of cosines in the plane normal to the axis. -/
theorem dist_sq_rotated {e : MatrixExp} (hm : e.motion = .rotation) (he : e.Unit) (f k : Vec3)
    (θ : ℝ) :
    ((e.asFrame θ).act f - k).norm ^ 2 = dot e.axis (f - k) ^ 2
      + (axisRej e.axis (f - e.origin)).norm ^ 2 + (axisRej e.axis (k - e.origin)).norm ^ 2
      - 2 * (axisRej e.axis (f - e.origin)).norm * (axisRej e.axis (k - e.origin)).norm
        * cos (θ - angleAbout e.axis (axisRej e.axis (f - e.origin))
            (axisRej e.axis (k - e.origin))) := by
  have ha : dot e.axis e.axis = 1 := he
  set a := e.axis with hadef
  set up := axisRej a (f - e.origin) with hup
  set vp := axisRej a (k - e.origin) with hvp
  have hu : dot a up = 0 := dot_axisRej ha _
  have hv : dot a vp = 0 := dot_axisRej ha _
  have hn := plane_norm ha hu hv
  have hρ := mul_nonneg (norm_nonneg up) (norm_nonneg vp)
  have hc : up.norm * vp.norm * cos (angleAbout a up vp) = dot up vp := atan2_cos_mul hn hρ
  have hs : up.norm * vp.norm * sin (angleAbout a up vp) = dot a (cross up vp) :=
    atan2_sin_mul hn hρ
  have hdec : (e.asFrame θ).act f - k
      = ((Mat3.rot2 a θ).mulVec up - vp) + dot a (f - k) • a := by
    rw [act_rot hm he, ← hadef, rot_decomp ha, ← hup]
    have h1 : k = e.origin + (vp + dot a (k - e.origin) • a) := by
      rw [hvp, ← axisRej_decomp]; abel
    have h2 : dot a (f - k) = dot a (f - e.origin) - dot a (k - e.origin) := by
      rw [← dot_sub_right]; congr 1; abel
    rw [h2, sub_smul]
    conv_lhs => rw [h1]
    abel
  have hrot : (Mat3.rot2 a θ).mulVec up = cos θ • up + sin θ • cross a up := by
    rw [Mat3.rot2_mulVec, hu]; simp
  have hperp : dot a ((Mat3.rot2 a θ).mulVec up - vp) = 0 := by
    rw [dot_sub_right, dot_axis_rot ha, hu, hv, sub_zero]
  have hRR : dot ((Mat3.rot2 a θ).mulVec up) ((Mat3.rot2 a θ).mulVec up) = up.norm ^ 2 := by
    rw [(Mat3.rot2_isRot ha θ).dot, norm_sq]
  have htr : dot (cross a up) vp = dot a (cross up vp) := by simp [dot]; ring
  have hRv : dot ((Mat3.rot2 a θ).mulVec up) vp
      = cos θ * dot up vp + sin θ * dot a (cross up vp) := by
    rw [hrot, dot_add_left, dot_smul_left, dot_smul_left, htr]
  rw [norm_sq, hdec, dot_add_left, dot_add_right, dot_add_right, dot_smul_left, dot_smul_right,
    dot_smul_left, dot_smul_right, ha, dot_comm _ a, hperp, dot_sub_left, dot_sub_right,
    dot_sub_right, hRR, dot_comm vp ((Mat3.rot2 a θ).mulVec up), hRv, ← norm_sq vp, ← hc, ← hs,
    cos_sub]
  ring

/-- Strictly reachable distances: success, and both reported angles put the point at exactly the
requested distance (up to normalisation). They are all the solutions: any other exact angle leads
to one of the same two positions. The reachability hypothesis is the triangle inequality between
the two distances to the axis and the in-plane distance, with a relative margin `eps`. -/
theorem C10_pk3_sound_partial (id : ℕ) (e : MatrixExp) (p k : Vec3) (rhs H : Frame)
    (hm : e.motion = .rotation) (he : e.Unit)
    (U V δ : ℝ) (hU : U = (axisRej e.axis (H.act p - e.origin)).norm)
    (hV : V = (axisRej e.axis (k - e.origin)).norm) (hδ : δ = (rhs.act p - k).norm)
    (hU0 : U ≠ 0) (hV0 : V ≠ 0)
    (hreach : |U ^ 2 + V ^ 2 - (δ ^ 2 - dot e.axis (H.act p - k) ^ 2)| ≤ (1 - eps) * (2 * U * V)) :
    ∃ φ1 φ2 ψ1 ψ2, pk3 id e p k rhs H = some (true, [[(id, φ1)], [(id, φ2)]]) ∧
      ((e.asFrame ψ1).act (H.act p) - k).norm = δ ∧ SameAngle φ1 ψ1 ∧
      ((e.asFrame ψ2).act (H.act p) - k).norm = δ ∧ SameAngle φ2 ψ2 ∧
      ∀ θ, ((e.asFrame θ).act (H.act p) - k).norm = δ →
        e.asFrame θ = e.asFrame ψ1 ∨ e.asFrame θ = e.asFrame ψ2 := by
  have hUp : 0 < U := lt_of_le_of_ne (by rw [hU]; exact norm_nonneg _) (Ne.symm hU0)
  have hVp : 0 < V := lt_of_le_of_ne (by rw [hV]; exact norm_nonneg _) (Ne.symm hV0)
  have hUV : 0 < 2 * U * V := by positivity
  have hδ0 : 0 ≤ δ := by rw [hδ]; exact norm_nonneg _
  set b := (U ^ 2 + V ^ 2 - (δ ^ 2 - dot e.axis (H.act p - k) ^ 2)) / (2 * U * V) with hb
  have hbabs : |b| ≤ 1 - eps := by
    rw [hb, abs_div, abs_of_pos hUV, div_le_iff₀ hUV]; exact hreach
  have hb1 : -1 ≤ b := by have := (abs_le.mp hbabs).1; have := eps_pos; linarith
  have hb2 : b ≤ 1 := by have := (abs_le.mp hbabs).2; have := eps_pos; linarith
  have hcond : ¬ EqualR |b| 1 ∧ |b| < 1 := by
    have := eps_pos
    refine ⟨?_, by linarith⟩
    rw [EqualR, abs_sub_comm, abs_of_nonneg (by linarith)]
    linarith
  set α := angleAbout e.axis (axisRej e.axis (H.act p - e.origin)) (axisRej e.axis (k - e.origin))
    with hα
  have hlaw : ∀ θ, ((e.asFrame θ).act (H.act p) - k).norm ^ 2
      = δ ^ 2 + 2 * U * V * (b - cos (θ - α)) := by
    intro θ
    have := dist_sq_rotated hm he (H.act p) k θ
    rw [← hU, ← hV, ← hα] at this
    rw [this, mul_sub, hb, mul_div_cancel₀ _ hUV.ne']
    ring
  have hcos : cos (arccos b) = b := cos_arccos hb1 hb2
  have hd : ∀ θ, cos (θ - α) = b → ((e.asFrame θ).act (H.act p) - k).norm = δ := by
    intro θ h
    have h2 := hlaw θ
    rw [h, sub_self, mul_zero, add_zero] at h2
    exact (pow_left_inj₀ (norm_nonneg _) hδ0 two_ne_zero).mp h2
  refine ⟨_, _, α + arccos b, α - arccos b, ?_, hd _ (by rw [add_sub_cancel_left, hcos]),
    normalizeAngle_same _, hd _ (by rw [sub_sub_cancel_left, cos_neg, hcos]),
    normalizeAngle_same _, ?_⟩
  · simp only [pk3]
    rw [← hU, ← hV, ← hδ, if_neg hUV.ne', ← hα, ← hb, if_pos hcond, min_eq_right hb2,
      max_eq_right hb1]
  · intro θ hθ
    have h2 := hlaw θ
    rw [hθ] at h2
    have h3 : cos (θ - α) = cos (arccos b) := by
      rw [hcos]
      have : 2 * U * V * (b - cos (θ - α)) = 0 := by linarith
      rcases mul_eq_zero.mp this with h | h
      · exact absurd h hUV.ne'
      · linarith
    obtain ⟨n, h | h⟩ := cos_eq_cos_iff.mp h3
    · left
      have : α + arccos b = θ + 2 * π * n := by linarith
      rw [this, asFrame_periodic hm]
    · right
      have : α - arccos b = θ + 2 * π * ((-n : ℤ) : ℝ) := by push_cast; linarith
      rw [this, asFrame_periodic hm]

/-- Near tangency (requested distance close to the smallest attainable one): success, a single
angle reported twice, and the squared distance is off by less than `2 U V eps`. -/
theorem C10_pk3_near_tangent (id : ℕ) (e : MatrixExp) (p k : Vec3) (rhs H : Frame)
    (hm : e.motion = .rotation) (he : e.Unit)
    (U V δ : ℝ) (hU : U = (axisRej e.axis (H.act p - e.origin)).norm)
    (hV : V = (axisRej e.axis (k - e.origin)).norm) (hδ : δ = (rhs.act p - k).norm)
    (hU0 : U ≠ 0) (hV0 : V ≠ 0)
    (hreach : |(δ ^ 2 - dot e.axis (H.act p - k) ^ 2) - (U - V) ^ 2| < eps * (2 * U * V)) :
    ∃ φ ψ, pk3 id e p k rhs H = some (true, [[(id, φ)], [(id, φ)]]) ∧ SameAngle φ ψ ∧
      |((e.asFrame ψ).act (H.act p) - k).norm ^ 2 - δ ^ 2| < eps * (2 * U * V) := by
  have hUp : 0 < U := lt_of_le_of_ne (by rw [hU]; exact norm_nonneg _) (Ne.symm hU0)
  have hVp : 0 < V := lt_of_le_of_ne (by rw [hV]; exact norm_nonneg _) (Ne.symm hV0)
  have hUV : 0 < 2 * U * V := by positivity
  set b := (U ^ 2 + V ^ 2 - (δ ^ 2 - dot e.axis (H.act p - k) ^ 2)) / (2 * U * V) with hb
  have hb1 : |b - 1| < eps := by
    have h1 : b - 1 = -((δ ^ 2 - dot e.axis (H.act p - k) ^ 2) - (U - V) ^ 2) / (2 * U * V) := by
      rw [hb]; field_simp; ring
    rw [h1, abs_div, abs_neg, abs_of_pos hUV, div_lt_iff₀ hUV]; exact hreach
  have hbp : 0 < b := by
    have := (abs_lt.mp hb1).1
    have : eps < 1 := by norm_num [eps]
    linarith
  have heq : EqualR |b| 1 := by rw [EqualR, abs_of_pos hbp]; exact hb1
  set α := angleAbout e.axis (axisRej e.axis (H.act p - e.origin)) (axisRej e.axis (k - e.origin))
    with hα
  refine ⟨_, α, ?_, normalizeAngle_same _, ?_⟩
  · simp only [pk3]
    rw [← hU, ← hV, ← hδ, if_neg hUV.ne', ← hα, ← hb, if_neg (fun h => h.1 heq),
      decide_eq_true heq]
  · have := dist_sq_rotated hm he (H.act p) k α
    rw [← hU, ← hV, ← hα, sub_self, cos_zero] at this
    rw [this, abs_sub_comm]
    convert hreach using 2
    ring

/-- Distances beyond the attainable range, with a relative margin `eps`, are reported as failure. -/
theorem C10_pk3_unreachable (id : ℕ) (e : MatrixExp) (p k : Vec3) (rhs H : Frame)
    (U V δ : ℝ) (hU : U = (axisRej e.axis (H.act p - e.origin)).norm)
    (hV : V = (axisRej e.axis (k - e.origin)).norm) (hδ : δ = (rhs.act p - k).norm)
    (hfar : (1 + eps) * (2 * U * V)
      ≤ |U ^ 2 + V ^ 2 - (δ ^ 2 - dot e.axis (H.act p - k) ^ 2)|) :
    ∃ s, pk3 id e p k rhs H = some (false, s) := by
  have hUp : 0 ≤ U := by rw [hU]; exact norm_nonneg _
  have hVp : 0 ≤ V := by rw [hV]; exact norm_nonneg _
  simp only [pk3]
  rw [← hU, ← hV, ← hδ]
  by_cases h0 : 2 * U * V = 0
  · rw [if_pos h0]; exact ⟨_, rfl⟩
  · rw [if_neg h0]
    have hUV : 0 < 2 * U * V := lt_of_le_of_ne (by positivity) (Ne.symm h0)
    set b := (U ^ 2 + V ^ 2 - (δ ^ 2 - dot e.axis (H.act p - k) ^ 2)) / (2 * U * V) with hb
    have hbabs : 1 + eps ≤ |b| := by
      rw [hb, abs_div, abs_of_pos hUV, le_div_iff₀ hUV]; exact hfar
    have hpos := eps_pos
    rw [if_neg (by rintro ⟨-, h⟩; linarith)]
    have hne : ¬ EqualR |b| 1 := by
      rw [EqualR, not_lt]
      exact le_trans (by linarith) (le_abs_self _)
    rw [decide_eq_false hne]
    exact ⟨_, rfl⟩

/-- Missing part of C10 (why the soundness theorem is partial), first half: at the far tangency,
the largest attainable distance, success is reported with the angle of the *smallest* distance.
Here the only correct answer is half a turn (distance 3) and the code answers 0 (distance 1). -/
theorem C10_pk3_far_tangent_counterexample :
    ∃ (e : MatrixExp) (p k : Vec3) (rhs H : Frame), e.motion = .rotation ∧ e.Unit ∧
      (∃ θ, ((e.asFrame θ).act (H.act p) - k).norm = (rhs.act p - k).norm) ∧
      ∃ φ, pk3 0 e p k rhs H = some (true, [[(0, φ)], [(0, φ)]]) ∧
        ((e.asFrame φ).act (H.act p) - k).norm = 1 ∧ (rhs.act p - k).norm = 3 := by
  have nrm : ∀ x : ℝ, Vec3.norm ⟨x, 0, 0⟩ = |x| := by
    intro x; rw [Vec3.norm, show dot ⟨x, 0, 0⟩ ⟨x, 0, 0⟩ = x ^ 2 by simp [dot]; ring, sqrt_sq_eq_abs]
  have rej : ∀ x : ℝ, axisRej ⟨0, 0, 1⟩ ⟨x, 0, 0⟩ = ⟨x, 0, 0⟩ := by
    intro x; rw [axisRej_eq]; ext <;> simp [dot]
  have h1 : (⟨1, 0, 0⟩ : Vec3) - ⟨0, 0, 0⟩ = ⟨1, 0, 0⟩ := by ext <;> simp
  have h2 : (⟨2, 0, 0⟩ : Vec3) - ⟨0, 0, 0⟩ = ⟨2, 0, 0⟩ := by ext <;> simp
  have h3 : (Frame.trans ⟨-2, 0, 0⟩).act ⟨1, 0, 0⟩ = ⟨-1, 0, 0⟩ := by
    ext <;> simp [Frame.act]; norm_num
  have h4 : (⟨-1, 0, 0⟩ : Vec3) - ⟨2, 0, 0⟩ = ⟨-3, 0, 0⟩ := by ext <;> simp; norm_num
  have h5 : (⟨1, 0, 0⟩ : Vec3) - ⟨2, 0, 0⟩ = ⟨-1, 0, 0⟩ := by ext <;> simp; norm_num
  have hU : MatrixExp.Unit ⟨.rotation, ⟨0, 0, 1⟩, ⟨0, 0, 0⟩⟩ := by norm_num [MatrixExp.Unit, dot]
  have hang : angleAbout ⟨0, 0, 1⟩ ⟨1, 0, 0⟩ ⟨2, 0, 0⟩ = 0 := by
    rw [angleAbout, atan2]
    simp only [dot, cross]
    norm_num
    rw [Complex.arg_eq_zero_iff]
    norm_num
  have hna : normalizeAngle 0 = 0 := by
    have := two_le_pi
    simp only [normalizeAngle]
    rw [if_neg, if_neg, if_neg]
    · linarith
    · linarith
    · rw [EqualR, abs_zero, zero_sub, abs_neg, abs_of_pos pi_pos, not_lt, eps]; linarith
  refine ⟨⟨.rotation, ⟨0, 0, 1⟩, ⟨0, 0, 0⟩⟩, ⟨1, 0, 0⟩, ⟨2, 0, 0⟩, Frame.trans ⟨-2, 0, 0⟩, 1, rfl, hU,
    ⟨π, ?_⟩, 0, ?_, ?_, ?_⟩
  · rw [act_rot rfl hU, Mat3.rot2_mulVec, Frame.act_one, h3, h4]
    congr 1
    ext <;> simp [dot]; norm_num
  · simp only [pk3, Frame.act_one, h1, h2, h3, h4, h5, rej, nrm, hang, hna]
    have e0 : dot (⟨0, 0, 1⟩ : Vec3) ⟨-1, 0, 0⟩ = 0 := by simp [dot]
    rw [e0]
    have e1 : EqualR |(|(1 : ℝ)| ^ 2 + |(2 : ℝ)| ^ 2 - (|(-3 : ℝ)| ^ 2 - 0 ^ 2)) / (2 * |(1 : ℝ)| * |(2 : ℝ)|)| 1 := by
      norm_num [EqualR, eps]
    rw [if_neg (by norm_num), if_neg (fun h => h.1 e1), decide_eq_true e1]
  · rw [act_rot rfl hU, Mat3.rot2_mulVec, Frame.act_one]
    simp [dot, Vec3.norm]
    norm_num
  · rw [h3, h4, nrm]; norm_num

/-- Second half of what is missing: when the point lies on the axis (its distance to `k` does not
depend on the angle), failure is reported even if the requested distance is exactly met. -/
theorem C10_pk3_on_axis_reports_failure (id : ℕ) (e : MatrixExp) (p k : Vec3) (rhs H : Frame)
    (hon : (axisRej e.axis (H.act p - e.origin)).norm = 0 ∨
      (axisRej e.axis (k - e.origin)).norm = 0) :
    ∃ s, pk3 id e p k rhs H = some (false, s) := by
  simp only [pk3]
  rw [if_pos]
  · exact ⟨_, rfl⟩
  · rcases hon with h | h <;> rw [h] <;> ring

/-- Non-vacuity: unit circle about z, k at distance 1 from the axis, requested distance √2. -/
example : ∃ (e : MatrixExp) (p k : Vec3) (rhs H : Frame) (U V δ : ℝ),
    e.motion = .rotation ∧ e.Unit ∧ U = (axisRej e.axis (H.act p - e.origin)).norm ∧
    V = (axisRej e.axis (k - e.origin)).norm ∧ δ = (rhs.act p - k).norm ∧ U ≠ 0 ∧ V ≠ 0 ∧
    |U ^ 2 + V ^ 2 - (δ ^ 2 - dot e.axis (H.act p - k) ^ 2)| ≤ (1 - eps) * (2 * U * V) := by
  refine ⟨⟨.rotation, ⟨0, 0, 1⟩, ⟨0, 0, 0⟩⟩, ⟨1, 0, 0⟩, ⟨0, 1, 0⟩, 1, 1, 1, 1, √2, rfl, ?_, ?_, ?_,
    ?_, one_ne_zero, one_ne_zero, ?_⟩
  · norm_num [MatrixExp.Unit, dot]
  · rw [axisRej_eq, Vec3.norm]; norm_num [dot]
  · rw [axisRej_eq, Vec3.norm]; norm_num [dot]
  · rw [Vec3.norm]; norm_num [dot]
  · rw [sq_sqrt (by norm_num)]; norm_num [dot, eps]

end KD
