import Verif.Screw.SubproblemLemmas

/-!
# Properties C11-C13: Pardos-Gotor subproblems on translations

Vocabulary as in `Verif.Props.PadenKahan`: `f = H.act p` is the starting point and
`k = rhs.act p` the target.
-/

namespace KD

open Real Vec3
open scoped Classical

/-! ## C11 -/

/-- A reachable target: success and the one and only displacement that reaches it. -/
theorem C11_pg1_sound_partial (id : ℕ) (e : MatrixExp) (p : Vec3) (rhs H : Frame)
    (hm : e.motion = .translation) (he : e.Unit) (θ : ℝ)
    (hreach : (e.asFrame θ).act (H.act p) = rhs.act p) :
    pg1 id e p rhs H = some (true, [[(id, θ)]]) := by
  rw [act_trans hm] at hreach
  have ha : dot e.axis e.axis = 1 := he
  simp only [pg1]
  rw [← hreach, add_sub_cancel_left, dot_smul_right, ha, mul_one]

/-- Reachable or not, no other displacement comes closer to the target. -/
theorem C11_pg1_closest (id : ℕ) (e : MatrixExp) (p : Vec3) (rhs H : Frame)
    (hm : e.motion = .translation) (he : e.Unit) :
    ∃ θ, pg1 id e p rhs H = some (true, [[(id, θ)]]) ∧
      ∀ θ', ((e.asFrame θ).act (H.act p) - rhs.act p).norm
        ≤ ((e.asFrame θ').act (H.act p) - rhs.act p).norm := by
  refine ⟨_, rfl, fun θ' => ?_⟩
  have ha : dot e.axis e.axis = 1 := he
  rw [act_trans hm, act_trans hm]
  set d := rhs.act p - H.act p with hd
  have hx : ∀ t : ℝ, H.act p + t • e.axis - rhs.act p = t • e.axis - d := by
    intro t; rw [hd]; abel
  rw [hx, hx]
  refine abs_le_of_sq_le_sq' (a := (_ : ℝ)) ?_ (norm_nonneg _) |>.2
  rw [norm_sq, norm_sq]
  simp only [dot_sub_left, dot_sub_right, dot_smul_left, dot_smul_right, ha, dot_comm d e.axis]
  nlinarith [sq_nonneg (θ' - dot e.axis d)]

/-- Missing part of C11: success is reported for targets off the line of motion too. -/
theorem C11_pg1_unreachable_counterexample :
    ∃ (e : MatrixExp) (p : Vec3) (rhs H : Frame), e.motion = .translation ∧ e.Unit ∧
      (∃ s, pg1 0 e p rhs H = some (true, s)) ∧
      ∀ θ, 1 ≤ ((e.asFrame θ).act (H.act p) - rhs.act p).norm := by
  refine ⟨⟨.translation, ⟨1, 0, 0⟩, 0⟩, ⟨0, 0, 0⟩, Frame.trans ⟨0, 1, 0⟩, 1, rfl, ?_, ⟨_, rfl⟩, ?_⟩
  · norm_num [MatrixExp.Unit, dot]
  · intro θ
    rw [act_trans rfl, Vec3.norm]
    refine Real.le_sqrt_of_sq_le ?_
    simp [dot, Frame.act]
    nlinarith [sq_nonneg θ]

/-- Non-vacuity: a displacement of 3 along z. -/
example : ∃ (e : MatrixExp) (p : Vec3) (rhs H : Frame), e.motion = .translation ∧ e.Unit ∧
    (e.asFrame 3).act (H.act p) = rhs.act p ∧ H.act p ≠ rhs.act p := by
  refine ⟨⟨.translation, ⟨0, 0, 1⟩, 0⟩, ⟨1, 2, 3⟩, Frame.trans ⟨0, 0, 3⟩, 1, rfl, ?_, ?_, ?_⟩
  · norm_num [MatrixExp.Unit, dot]
  · rw [act_trans rfl]; ext <;> simp [Frame.act]
  · intro h
    have := congrArg Vec3.z h
    simp [Frame.act] at this

/-! ## C12 -/

/-- A target in the plane of two non-parallel translations: the reported displacements are the one
and only pair that reaches it. -/
theorem C12_pg2_sound (id1 id2 : ℕ) (e1 e2 : MatrixExp) (p : Vec3) (rhs H : Frame)
    (m1 : e1.motion = .translation) (m2 : e2.motion = .translation) (h1 : e1.Unit) (h2 : e2.Unit)
    (hpar : cross e1.axis e2.axis ≠ 0) (x1 x2 : ℝ)
    (hreach : (e1.asFrame x1).act ((e2.asFrame x2).act (H.act p)) = rhs.act p) :
    pg2 id1 id2 e1 e2 p rhs H = some (true, [[(id1, x1), (id2, x2)]]) := by
  rw [act_trans m1, act_trans m2] at hreach
  have ha1 : dot e1.axis e1.axis = 1 := h1
  have ha2 : dot e2.axis e2.axis = 1 := h2
  set a1 := e1.axis with d1
  set a2 := e2.axis with d2
  set f := H.act p with hf
  have hN : (cross a2 a1).norm ≠ 0 := by
    intro h
    apply hpar
    have h0 := Vec3.norm_eq_zero h
    have : cross a1 a2 = -cross a2 a1 := by ext <;> simp <;> ring
    rw [this, h0, neg_zero]
  have hNp : 0 < (cross a2 a1).norm := lt_of_le_of_ne (norm_nonneg _) (Ne.symm hN)
  have hc1 : cross a2 (f - rhs.act p) = (-x1) • cross a2 a1 := by
    rw [← hreach]
    ext <;> simp <;> ring
  have hn1 : (cross a2 (f - rhs.act p)).norm = |x1| * (cross a2 a1).norm := by
    rw [hc1, Vec3.norm_smul, abs_neg]
  have hdot : dot (cross a2 (f - rhs.act p)) (cross a2 a1) = -x1 * (cross a2 a1).norm ^ 2 := by
    rw [hc1, dot_smul_left, norm_sq]
  have hc : (if dot (cross a2 (f - rhs.act p)) (cross a2 a1)
        ≥ (cross a2 (f - rhs.act p)).norm * (cross a2 a1).norm
      then rhs.act p + ((cross a2 (f - rhs.act p)).norm / (cross a2 a1).norm) • a1
      else rhs.act p - ((cross a2 (f - rhs.act p)).norm / (cross a2 a1).norm) • a1)
      = rhs.act p - x1 • a1 := by
    rw [hdot, hn1, mul_div_cancel_right₀ _ hN]
    rcases le_or_gt x1 0 with hx | hx
    · rw [if_pos, abs_of_nonpos hx, neg_smul, sub_eq_add_neg]
      rw [abs_of_nonpos hx]
      apply le_of_eq; ring
    · rw [if_neg, abs_of_pos hx]
      rw [abs_of_pos hx, not_le]
      nlinarith [mul_pos hx (pow_pos hNp 2)]
  simp only [pg2, ← d1, ← d2, ← hf]
  rw [if_neg hN, hc, sub_sub_cancel, dot_smul_right, ha1, mul_one, ← hreach]
  have : f + x2 • a2 + x1 • a1 - x1 • a1 - f = x2 • a2 := by abel
  rw [this, dot_smul_right, ha2, mul_one]

/-- Outside the plane the answer is not merely approximate: an arbitrarily small offset makes
the first displacement change sign, and success is still reported. Start at the origin, target
at (-1, 0, ε): the answer sends the point beyond (1, 0, 0). -/
theorem C12_pg2_off_plane_instability (ε : ℝ) (hε : ε ≠ 0) :
    ∃ (e1 e2 : MatrixExp) (p : Vec3) (rhs H : Frame), e1.motion = .translation ∧
      e2.motion = .translation ∧ e1.Unit ∧ e2.Unit ∧ cross e1.axis e2.axis ≠ 0 ∧
      ((e1.asFrame (-1)).act ((e2.asFrame 0).act (H.act p)) - rhs.act p).norm = |ε| ∧
      ∃ θ1 θ2, pg2 0 1 e1 e2 p rhs H = some (true, [[(0, θ1), (1, θ2)]]) ∧
        2 < ((e1.asFrame θ1).act ((e2.asFrame θ2).act (H.act p)) - rhs.act p).norm := by
  refine ⟨⟨.translation, ⟨1, 0, 0⟩, 0⟩, ⟨.translation, ⟨0, 1, 0⟩, 0⟩, ⟨0, 0, 0⟩,
    Frame.trans ⟨-1, 0, ε⟩, 1, rfl, rfl, ?_, ?_, ?_, ?_, √(1 + ε ^ 2), 0, ?_, ?_⟩
  · norm_num [MatrixExp.Unit, dot]
  · norm_num [MatrixExp.Unit, dot]
  · intro h
    have := congrArg Vec3.z h
    simp at this
  · rw [act_trans rfl, act_trans rfl, Vec3.norm, ← sqrt_sq_eq_abs]
    congr 1
    simp [dot, Frame.act]; ring
  · have hk : (Frame.trans ⟨-1, 0, ε⟩).act ⟨0, 0, 0⟩ = ⟨-1, 0, ε⟩ := by ext <;> simp [Frame.act]
    have hc1 : cross (⟨0, 1, 0⟩ : Vec3) (⟨0, 0, 0⟩ - ⟨-1, 0, ε⟩) = ⟨-ε, 0, -1⟩ := by
      ext <;> simp
    have hc2 : cross (⟨0, 1, 0⟩ : Vec3) ⟨1, 0, 0⟩ = ⟨0, 0, -1⟩ := by ext <;> simp
    have n1 : Vec3.norm ⟨-ε, 0, -1⟩ = √(1 + ε ^ 2) := by
      rw [Vec3.norm]; congr 1; simp [dot]; ring
    have n2 : Vec3.norm ⟨0, 0, -1⟩ = 1 := by rw [Vec3.norm]; norm_num [dot]
    have hgt : 1 < √(1 + ε ^ 2) := by
      rw [Real.lt_sqrt (by norm_num)]
      have : 0 < ε ^ 2 := by positivity
      linarith
    simp only [pg2, hk, Frame.act_one, hc1, hc2, n1, n2]
    rw [if_neg one_ne_zero, if_neg]
    · simp [dot]
    · have e0 : dot (⟨-ε, 0, -1⟩ : Vec3) ⟨0, 0, -1⟩ = 1 := by simp [dot]
      rw [e0, mul_one, ge_iff_le, not_le]; exact hgt
  · rw [act_trans rfl, act_trans rfl, Vec3.norm]
    refine Real.lt_sqrt_of_sq_lt ?_
    have hs : √(1 + ε ^ 2) ^ 2 = 1 + ε ^ 2 := sq_sqrt (by positivity)
    have hgt : 1 < √(1 + ε ^ 2) := by
      rw [Real.lt_sqrt (by norm_num)]
      have : 0 < ε ^ 2 := by positivity
      linarith
    simp [dot, Frame.act]
    nlinarith [sq_nonneg ε]

/-- Non-vacuity: oblique axes x and (3/5, 4/5, 0), displacements -2 and 5. -/
example : ∃ (e1 e2 : MatrixExp) (p : Vec3) (rhs H : Frame), e1.motion = .translation ∧
    e2.motion = .translation ∧ e1.Unit ∧ e2.Unit ∧ cross e1.axis e2.axis ≠ 0 ∧
    (e1.asFrame (-2)).act ((e2.asFrame 5).act (H.act p)) = rhs.act p := by
  refine ⟨⟨.translation, ⟨1, 0, 0⟩, 0⟩, ⟨.translation, ⟨3 / 5, 4 / 5, 0⟩, 0⟩, ⟨0, 0, 1⟩,
    Frame.trans ⟨1, 4, 0⟩, 1, rfl, rfl, ?_, ?_, ?_, ?_⟩
  · norm_num [MatrixExp.Unit, dot]
  · norm_num [MatrixExp.Unit, dot]
  · intro h
    have := congrArg Vec3.z h
    simp at this
  · rw [act_trans rfl, act_trans rfl]; ext <;> simp [Frame.act] <;> norm_num

/-! ## C13 -/

/-- Squared distance to `k` along the line. -/
theorem dist_sq_translated {e : MatrixExp} (hm : e.motion = .translation) (he : e.Unit)
    (f k : Vec3) (θ : ℝ) : ((e.asFrame θ).act f - k).norm ^ 2
      = (θ - dot e.axis (k - f)) ^ 2 + (k - f).norm ^ 2 - dot e.axis (k - f) ^ 2 := by
  have ha : dot e.axis e.axis = 1 := he
  rw [act_trans hm]
  have : f + θ • e.axis - k = θ • e.axis - (k - f) := by abel
  rw [this, norm_sq, norm_sq]
  simp only [dot_sub_left, dot_sub_right, dot_smul_left, dot_smul_right, ha, dot_comm _ e.axis]
  ring

/-- The discriminant is at least `eps`: success, both reported displacements attain the requested
distance exactly, and there are no others. The hypothesis says that the requested squared distance
exceeds by `eps` the squared distance from `k` to the line of motion. -/
theorem C13_pg3_sound_partial (id : ℕ) (e : MatrixExp) (p k : Vec3) (rhs H : Frame)
    (hm : e.motion = .translation) (he : e.Unit)
    (hreach : (axisRej e.axis (k - H.act p)).norm ^ 2 + eps ≤ (rhs.act p - k).norm ^ 2) :
    ∃ θ1 θ2, pg3 id e p k rhs H = some (true, [[(id, θ1)], [(id, θ2)]]) ∧ θ2 < θ1 ∧
      ∀ θ, ((e.asFrame θ).act (H.act p) - k).norm = (rhs.act p - k).norm ↔ θ = θ1 ∨ θ = θ2 := by
  have ha : dot e.axis e.axis = 1 := he
  set f := H.act p with hf
  set δ := (rhs.act p - k).norm with hδ
  set d := dot e.axis (k - f) with hd
  set sq2 := d ^ 2 - (k - f).norm ^ 2 + δ ^ 2 with hsq2
  rw [axisRej_norm_sq ha, ← norm_sq, ← hd] at hreach
  have hge : eps ≤ sq2 := by rw [hsq2]; linarith
  have hpos : 0 < sq2 := lt_of_lt_of_le eps_pos hge
  have hcond : ¬ EqualR sq2 0 ∧ sq2 > 0 := by
    refine ⟨?_, hpos⟩
    rw [EqualR, sub_zero, abs_of_pos hpos]; exact not_lt.mpr hge
  have hs0 : 0 < √sq2 := sqrt_pos.mpr hpos
  refine ⟨d + √sq2, d - √sq2, ?_, by linarith, fun θ => ?_⟩
  · simp only [pg3, ← hf, ← hδ, ← hd, ← hsq2]
    rw [if_pos hcond, abs_of_pos hpos]
  · have hδ0 : 0 ≤ δ := norm_nonneg _
    rw [← pow_left_inj₀ (norm_nonneg _) hδ0 two_ne_zero, dist_sq_translated hm he, ← hd]
    have hs : √sq2 ^ 2 = sq2 := sq_sqrt hpos.le
    constructor
    · intro h
      have h2 : (θ - d) ^ 2 = √sq2 ^ 2 := by rw [hs, hsq2]; linarith
      rcases sq_eq_sq_iff_eq_or_eq_neg.mp h2 with h | h
      · left; linarith
      · right; linarith
    · rintro (rfl | rfl)
      · rw [add_sub_cancel_left, hs, hsq2]; ring
      · rw [sub_sub_cancel_left, neg_sq, hs, hsq2]; ring

/-- Tangency with the closest point ahead on the axis: success and the squared distance is met
within `eps`. -/
theorem C13_pg3_tangent (id : ℕ) (e : MatrixExp) (p k : Vec3) (rhs H : Frame)
    (hm : e.motion = .translation) (he : e.Unit)
    (htan : |(rhs.act p - k).norm ^ 2 - (axisRej e.axis (k - H.act p)).norm ^ 2| < eps)
    (hahead : 0 ≤ dot e.axis (k - H.act p)) :
    ∃ θ, pg3 id e p k rhs H = some (true, [[(id, θ)], [(id, θ)]]) ∧
      |((e.asFrame θ).act (H.act p) - k).norm ^ 2 - (rhs.act p - k).norm ^ 2| < eps := by
  have ha : dot e.axis e.axis = 1 := he
  set f := H.act p with hf
  set δ := (rhs.act p - k).norm with hδ
  set d := dot e.axis (k - f) with hd
  set sq2 := d ^ 2 - (k - f).norm ^ 2 + δ ^ 2 with hsq2
  rw [axisRej_norm_sq ha, ← norm_sq, ← hd] at htan
  have hz : EqualR sq2 0 := by
    rw [EqualR, sub_zero, hsq2]; convert htan using 2; ring
  refine ⟨d, ?_, ?_⟩
  · simp only [pg3, ← hf, ← hδ, ← hd, ← hsq2]
    rw [if_neg (fun h => h.1 hz), decide_eq_true hz, axisProj_eq, ← hd, Vec3.norm_smul,
      abs_of_nonneg hahead]
    have : e.axis.norm = 1 := by rw [Vec3.norm, ha, sqrt_one]
    rw [this, mul_one]
  · rw [dist_sq_translated hm he, ← hd, abs_sub_comm]
    convert htan using 2
    ring

/-- Distances shorter than the distance to the line are reported as failure. -/
theorem C13_pg3_unreachable (id : ℕ) (e : MatrixExp) (p k : Vec3) (rhs H : Frame) (he : e.Unit)
    (hfar : (rhs.act p - k).norm ^ 2 + eps ≤ (axisRej e.axis (k - H.act p)).norm ^ 2) :
    ∃ s, pg3 id e p k rhs H = some (false, s) := by
  have ha : dot e.axis e.axis = 1 := he
  set f := H.act p with hf
  set δ := (rhs.act p - k).norm with hδ
  set d := dot e.axis (k - f) with hd
  set sq2 := d ^ 2 - (k - f).norm ^ 2 + δ ^ 2 with hsq2
  rw [axisRej_norm_sq ha, ← norm_sq, ← hd] at hfar
  have hle : sq2 ≤ -eps := by rw [hsq2]; linarith
  have hpos := eps_pos
  have hz : ¬ EqualR sq2 0 := by
    rw [EqualR, sub_zero, abs_of_nonpos (by linarith)]; linarith
  simp only [pg3, ← hf, ← hδ, ← hd, ← hsq2]
  rw [if_neg (by rintro ⟨-, h⟩; linarith), decide_eq_false hz]
  exact ⟨_, rfl⟩

/-- Missing part of C13: at tangency with the closest point *behind*, success is reported with
the sign of the displacement lost. Here the answer is +1 instead of -1, which leaves the point at
distance 2 when distance 0 was requested. -/
theorem C13_pg3_tangent_counterexample :
    ∃ (e : MatrixExp) (p k : Vec3) (rhs H : Frame), e.motion = .translation ∧ e.Unit ∧
      (∃ θ, ((e.asFrame θ).act (H.act p) - k).norm = (rhs.act p - k).norm) ∧
      (rhs.act p - k).norm = 0 ∧
      ∃ θ, pg3 0 e p k rhs H = some (true, [[(0, θ)], [(0, θ)]]) ∧
        ((e.asFrame θ).act (H.act p) - k).norm = 2 := by
  have hk : (Frame.trans ⟨-1, 0, 0⟩).act ⟨0, 0, 0⟩ = ⟨-1, 0, 0⟩ := by ext <;> simp [Frame.act]
  have h0 : (⟨-1, 0, 0⟩ : Vec3) - ⟨-1, 0, 0⟩ = ⟨0, 0, 0⟩ := by ext <;> simp
  have h1 : (⟨-1, 0, 0⟩ : Vec3) - ⟨0, 0, 0⟩ = ⟨-1, 0, 0⟩ := by ext <;> simp
  have nrm : ∀ x : ℝ, Vec3.norm ⟨x, 0, 0⟩ = |x| := by
    intro x; rw [Vec3.norm, show dot ⟨x, 0, 0⟩ ⟨x, 0, 0⟩ = x ^ 2 by simp [dot]; ring, sqrt_sq_eq_abs]
  refine ⟨⟨.translation, ⟨1, 0, 0⟩, 0⟩, ⟨0, 0, 0⟩, ⟨-1, 0, 0⟩, Frame.trans ⟨-1, 0, 0⟩, 1, rfl, ?_,
    ⟨-1, ?_⟩, ?_, 1, ?_, ?_⟩
  · norm_num [MatrixExp.Unit, dot]
  · rw [act_trans rfl, hk, Frame.act_one, h0, nrm]
    have : (⟨0, 0, 0⟩ : Vec3) + (-1 : ℝ) • ⟨1, 0, 0⟩ - ⟨-1, 0, 0⟩ = ⟨0, 0, 0⟩ := by ext <;> simp
    rw [this, nrm]
  · rw [hk, h0, nrm, abs_zero]
  · have hpr : axisProj ⟨1, 0, 0⟩ ⟨-1, 0, 0⟩ = ⟨-1, 0, 0⟩ := by
      rw [axisProj_eq]; ext <;> simp [dot]
    have hd : dot (⟨1, 0, 0⟩ : Vec3) ⟨-1, 0, 0⟩ = -1 := by simp [dot]
    simp only [pg3, hk, Frame.act_one, h0, h1, nrm, hpr, hd]
    have hz : EqualR ((-1 : ℝ) ^ 2 - |(-1 : ℝ)| ^ 2 + |(0 : ℝ)| ^ 2) 0 := by
      norm_num [EqualR, eps]
    rw [if_neg (fun h => h.1 hz), decide_eq_true hz]
    norm_num
  · rw [act_trans rfl, Frame.act_one]
    have : (⟨0, 0, 0⟩ : Vec3) + (1 : ℝ) • ⟨1, 0, 0⟩ - ⟨-1, 0, 0⟩ = ⟨2, 0, 0⟩ := by
      ext <;> simp; norm_num
    rw [this, nrm]; norm_num

/-- Non-vacuity: move along x from the origin, reference (1, 1, 0), distance 2. -/
example : ∃ (e : MatrixExp) (p k : Vec3) (rhs H : Frame), e.motion = .translation ∧ e.Unit ∧
    (axisRej e.axis (k - H.act p)).norm ^ 2 + eps ≤ (rhs.act p - k).norm ^ 2 := by
  refine ⟨⟨.translation, ⟨1, 0, 0⟩, 0⟩, ⟨0, 0, 0⟩, ⟨1, 1, 0⟩, Frame.trans ⟨1, 3, 0⟩, 1, rfl, ?_, ?_⟩
  · norm_num [MatrixExp.Unit, dot]
  · rw [norm_sq, norm_sq, axisRej_eq]; norm_num [dot, Frame.act, eps]

end KD
