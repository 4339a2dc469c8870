import Verif.Kdl.Trajectory
import Verif.Kdl.Jacobian
import Verif.Kdl.RotVec
import Mathlib.Analysis.Calculus.Deriv.Pow
import Mathlib.Analysis.Calculus.Deriv.MeanValue

/-!
# Lemmas about trajectories
-/

namespace KD

/-! ### Trapezoidal profile -/

/-- The square of the positive part has a derivative. -/
theorem hasDerivAt_posPart_sq (x : ℝ) : HasDerivAt (fun y : ℝ => max y 0 ^ 2) (2 * max x 0) x := by
  rcases lt_trichotomy x 0 with h | h | h
  · rw [max_eq_right h.le, mul_zero]
    refine (hasDerivAt_const x (0 : ℝ)).congr_of_eventuallyEq ?_
    filter_upwards [gt_mem_nhds h] with y hy
    rw [max_eq_right hy.le]
    norm_num
  · subst h
    rw [max_self, mul_zero, ← hasDerivWithinAt_univ, ← Set.Iic_union_Ici (a := (0 : ℝ))]
    refine HasDerivWithinAt.union ?_ ?_
    · refine ((hasDerivAt_const (0 : ℝ) (0 : ℝ)).hasDerivWithinAt).congr (fun y hy => ?_) ?_
      · rw [max_eq_right hy]; norm_num
      · norm_num
    · have := ((hasDerivAt_pow 2 (0 : ℝ)).hasDerivWithinAt (s := Set.Ici 0))
      simp only [Nat.cast_ofNat, Nat.add_one_sub_one, pow_one, mul_zero] at this
      refine this.congr (fun y hy => ?_) ?_
      · rw [max_eq_left hy]
      · norm_num
  · rw [max_eq_left h.le]
    refine (by simpa using hasDerivAt_pow 2 x : HasDerivAt (fun y : ℝ => y ^ 2) (2 * x) x).congr_of_eventuallyEq ?_
    filter_upwards [lt_mem_nhds h] with y hy
    rw [max_eq_left hy.le]

namespace Trap

/-- The shape of a trapezoidal motion with acceleration `A` until `t1` and braking from `t2` to `t1 + t2`. -/
noncomputable def shape (A t1 t2 t : ℝ) : ℝ :=
  A / 2 * (max t 0 ^ 2 - max (t - t1) 0 ^ 2 - max (t - t2) 0 ^ 2 + max (t - (t1 + t2)) 0 ^ 2)

/-- Its speed. -/
noncomputable def speed (A t1 t2 t : ℝ) : ℝ :=
  A * (max t 0 - max (t - t1) 0 - max (t - t2) 0 + max (t - (t1 + t2)) 0)

theorem shape_deriv (A t1 t2 t : ℝ) : HasDerivAt (shape A t1 t2) (speed A t1 t2 t) t := by
  have h := fun c : ℝ => (hasDerivAt_posPart_sq (t - c)).comp t ((hasDerivAt_id t).sub_const c)
  have h0 := hasDerivAt_posPart_sq t
  have := ((((h0.sub (h t1)).sub (h t2)).add (h (t1 + t2))).const_mul (A / 2))
  refine (this.congr_deriv ?_)
  unfold speed
  ring

theorem speed_eq {A t1 t2 : ℝ} (h1 : 0 ≤ t1) (h2 : t1 ≤ t2) (t : ℝ) :
    speed A t1 t2 t = A * max 0 (min t1 (min t (t1 + t2 - t))) := by
  unfold speed
  congr 1
  rcases le_total t 0 with a | a
  · rw [max_eq_right a, max_eq_right (by linarith : t - t1 ≤ 0), max_eq_right (by linarith : t - t2 ≤ 0),
      max_eq_right (by linarith : t - (t1 + t2) ≤ 0), max_eq_left]
    · ring
    · exact (min_le_right _ _).trans ((min_le_left _ _).trans a)
  rcases le_total t t1 with b | b
  · rw [max_eq_left a, max_eq_right (by linarith : t - t1 ≤ 0), max_eq_right (by linarith : t - t2 ≤ 0),
      max_eq_right (by linarith : t - (t1 + t2) ≤ 0), min_eq_left (by linarith : t ≤ t1 + t2 - t), min_eq_right b, max_eq_right a]
    ring
  rcases le_total t t2 with c | c
  · rw [max_eq_left a, max_eq_left (by linarith : 0 ≤ t - t1), max_eq_right (by linarith : t - t2 ≤ 0),
      max_eq_right (by linarith : t - (t1 + t2) ≤ 0), min_eq_left (a := t1) (le_min b (by linarith)), max_eq_right h1]
    ring
  rcases le_total t (t1 + t2) with d | d
  · rw [max_eq_left a, max_eq_left (by linarith : 0 ≤ t - t1), max_eq_left (by linarith : 0 ≤ t - t2),
      max_eq_right (by linarith : t - (t1 + t2) ≤ 0), min_eq_right (by linarith : t1 + t2 - t ≤ t),
      min_eq_right (by linarith : t1 + t2 - t ≤ t1), max_eq_right (by linarith)]
    ring
  · rw [max_eq_left a, max_eq_left (by linarith : 0 ≤ t - t1), max_eq_left (by linarith : 0 ≤ t - t2),
      max_eq_left (by linarith : 0 ≤ t - (t1 + t2)), max_eq_left]
    · ring
    · exact (min_le_right _ _).trans ((min_le_right _ _).trans (by linarith))

/-- Polynomials in pieces are the shape. -/
theorem poly_pos {A t1 t2 : ℝ} (h1 : 0 ≤ t1) (h2 : t1 ≤ t2) (t : ℝ) :
    (poly A 1 0 (A * t1 * t2) t1 t2 (t1 + t2)).pos t = shape A t1 t2 t := by
  unfold pos shape poly
  simp only
  split_ifs with a b c d
  · rw [max_eq_right a.le, max_eq_right (by linarith : t - t1 ≤ 0), max_eq_right (by linarith : t - t2 ≤ 0),
      max_eq_right (by linarith : t - (t1 + t2) ≤ 0)]
    ring
  · push Not at a
    rw [max_eq_left a, max_eq_right (by linarith : t - t1 ≤ 0), max_eq_right (by linarith : t - t2 ≤ 0),
      max_eq_right (by linarith : t - (t1 + t2) ≤ 0)]
    ring
  · push Not at a b
    rw [max_eq_left a, max_eq_left (by linarith : 0 ≤ t - t1), max_eq_right (by linarith : t - t2 ≤ 0),
      max_eq_right (by linarith : t - (t1 + t2) ≤ 0)]
    ring
  · push Not at a b c
    rw [max_eq_left a, max_eq_left (by linarith : 0 ≤ t - t1), max_eq_left (by linarith : 0 ≤ t - t2),
      max_eq_right (by linarith : t - (t1 + t2) ≤ 0)]
    ring
  · push Not at a b c d
    rw [max_eq_left a, max_eq_left (by linarith : 0 ≤ t - t1), max_eq_left (by linarith : 0 ≤ t - t2),
      max_eq_left (by linarith : 0 ≤ t - (t1 + t2))]
    ring

theorem poly_vel {A t1 t2 : ℝ} (h1 : 0 ≤ t1) (h2 : t1 ≤ t2) (x t : ℝ) :
    (poly A 1 0 x t1 t2 (t1 + t2)).vel t = speed A t1 t2 t := by
  unfold vel speed poly
  simp only
  split_ifs with a b c d
  · rw [max_eq_right a.le, max_eq_right (by linarith : t - t1 ≤ 0), max_eq_right (by linarith : t - t2 ≤ 0),
      max_eq_right (by linarith : t - (t1 + t2) ≤ 0)]
    ring
  · push Not at a
    rw [max_eq_left a, max_eq_right (by linarith : t - t1 ≤ 0), max_eq_right (by linarith : t - t2 ≤ 0),
      max_eq_right (by linarith : t - (t1 + t2) ≤ 0)]
    ring
  · push Not at a b
    rw [max_eq_left a, max_eq_left (by linarith : 0 ≤ t - t1), max_eq_right (by linarith : t - t2 ≤ 0),
      max_eq_right (by linarith : t - (t1 + t2) ≤ 0)]
    ring
  · push Not at a b c
    rw [max_eq_left a, max_eq_left (by linarith : 0 ≤ t - t1), max_eq_left (by linarith : 0 ≤ t - t2),
      max_eq_right (by linarith : t - (t1 + t2) ≤ 0)]
    ring
  · push Not at a b c d
    rw [max_eq_left a, max_eq_left (by linarith : 0 ≤ t - t1), max_eq_left (by linarith : 0 ≤ t - t2),
      max_eq_left (by linarith : 0 ≤ t - (t1 + t2))]
    ring

/-- The times that `SetProfile` finds. -/
theorem set_times {V A L : ℝ} (hV : 0 < V) (hA : 0 < A) (hL : 0 ≤ L) :
    ∃ t1 t2, 0 ≤ t1 ∧ t1 ≤ t2 ∧ A * t1 * t2 = L ∧ A * t1 ≤ V ∧ set V A 0 L = poly A 1 0 L t1 t2 (t1 + t2) ∧
      (0 < L → 0 < t1) ∧ (t1 = V / A ∨ t1 = t2) := by
  unfold set
  simp only [sub_zero, if_neg (not_lt.mpr hL), one_mul, div_one]
  by_cases hd : (L - 2 * (A * (V / A * (V / A)) / 2)) / V > 0
  · rw [if_pos hd]
    have h0 : 0 < V / A := div_pos hV hA
    refine ⟨V / A, V / A + (L - 2 * (A * (V / A * (V / A)) / 2)) / V, h0.le, by linarith, ?_, ?_, ?_, fun _ => h0,
      Or.inl rfl⟩
    · field_simp
      ring
    · rw [mul_div_cancel₀ _ hA.ne']
    · congr 1 <;> ring
  · rw [if_neg hd]
    refine ⟨√(L / A), √(L / A), Real.sqrt_nonneg _, le_refl _, ?_, ?_, ?_, fun h => Real.sqrt_pos.mpr (by positivity),
      Or.inr rfl⟩
    · rw [mul_assoc, Real.mul_self_sqrt (by positivity), mul_div_cancel₀ _ hA.ne']
    · push Not at hd
      have h1 : L - 2 * (A * (V / A * (V / A)) / 2) ≤ 0 := by
        by_contra h
        push Not at h
        exact absurd (div_pos h hV) (not_lt.mpr hd)
      have h2 : L ≤ V ^ 2 / A := by
        have : 2 * (A * (V / A * (V / A)) / 2) = V ^ 2 / A := by field_simp
        linarith
      have h3 : (A * √(L / A)) ^ 2 ≤ V ^ 2 := by
        rw [mul_pow, Real.sq_sqrt (by positivity)]
        rw [le_div_iff₀ hA] at h2
        field_simp
        linarith
      exact abs_le_of_sq_le_sq' h3 hV.le |>.2
    · congr 1
      ring

/-- Slower by a factor. -/
theorem scale_pos {p : Trap} {f : ℝ} (hf : 0 < f) (T : ℝ) (hT : T = p.duration / f) (t : ℝ) :
    (p.scale f T).pos t = p.pos (f * t) := by
  unfold pos scale
  simp only [hT, lt_div_iff₀ hf, le_div_iff₀ hf, mul_comm t f]
  have : f * t < 0 ↔ t < 0 := by
    constructor
    · intro h; by_contra hn; push Not at hn; nlinarith
    · intro h; nlinarith
  simp only [this]
  congr 1
  congr 1
  · ring
  congr 1
  · ring
  congr 1
  ring

theorem scale_vel {p : Trap} {f : ℝ} (hf : 0 < f) (T : ℝ) (hT : T = p.duration / f) (t : ℝ) :
    (p.scale f T).vel t = f * p.vel (f * t) := by
  unfold vel scale
  simp only [hT, lt_div_iff₀ hf, le_div_iff₀ hf, mul_comm t f]
  have : f * t < 0 ↔ t < 0 := by
    constructor
    · intro h; by_contra hn; push Not at hn; nlinarith
    · intro h; nlinarith
  simp only [this]
  split_ifs <;> ring

/-- Where and how fast a motion is, from `0` to `L`, from rest to rest between the times `0` and `D`, with limited
speed and acceleration. -/
structure Motion (V A L D : ℝ) (x v : ℝ → ℝ) : Prop where
  deriv : ∀ t, HasDerivAt x (v t) t
  slow : ∀ t, |v t| ≤ V
  soft : ∀ s t, |v t - v s| ≤ A * |t - s|
  before : ∀ t ≤ 0, x t = 0 ∧ v t = 0
  after : ∀ t, D ≤ t → x t = L ∧ v t = 0

theorem speed_nonneg {A t1 t2 : ℝ} (hA : 0 < A) (h1 : 0 ≤ t1) (h2 : t1 ≤ t2) (t : ℝ) : 0 ≤ speed A t1 t2 t := by
  rw [speed_eq h1 h2]
  positivity

theorem shape_motion {V A t1 t2 : ℝ} (hA : 0 < A) (h1 : 0 ≤ t1) (h2 : t1 ≤ t2) (hV : A * t1 ≤ V) :
    Motion V A (A * t1 * t2) (t1 + t2) (shape A t1 t2) (speed A t1 t2) := by
  refine ⟨shape_deriv A t1 t2, fun t => ?_, fun s t => ?_, fun t ht => ⟨?_, ?_⟩, fun t ht => ⟨?_, ?_⟩⟩
  · rw [abs_of_nonneg (speed_nonneg hA h1 h2 t), speed_eq h1 h2]
    refine le_trans ?_ hV
    exact mul_le_mul_of_nonneg_left (max_le h1 (min_le_left _ _)) hA.le
  · rw [speed_eq h1 h2, speed_eq h1 h2, ← mul_sub, abs_mul, abs_of_pos hA]
    refine mul_le_mul_of_nonneg_left ?_ hA.le
    refine (abs_max_sub_max_le_max _ _ _ _).trans ?_
    refine max_le (by simp) ?_
    refine (abs_min_sub_min_le_max _ _ _ _).trans ?_
    refine max_le (by simp) ?_
    refine (abs_min_sub_min_le_max _ _ _ _).trans ?_
    refine max_le (le_refl _) ?_
    rw [show t1 + t2 - t - (t1 + t2 - s) = -(t - s) by ring, abs_neg]
  · unfold shape
    rw [max_eq_right ht, max_eq_right (by linarith : t - t1 ≤ 0), max_eq_right (by linarith : t - t2 ≤ 0),
      max_eq_right (by linarith : t - (t1 + t2) ≤ 0)]
    ring
  · unfold speed
    rw [max_eq_right ht, max_eq_right (by linarith : t - t1 ≤ 0), max_eq_right (by linarith : t - t2 ≤ 0),
      max_eq_right (by linarith : t - (t1 + t2) ≤ 0)]
    ring
  · unfold shape
    rw [max_eq_left (by linarith), max_eq_left (by linarith : 0 ≤ t - t1), max_eq_left (by linarith : 0 ≤ t - t2),
      max_eq_left (by linarith : 0 ≤ t - (t1 + t2))]
    ring
  · unfold speed
    rw [max_eq_left (by linarith), max_eq_left (by linarith : 0 ≤ t - t1), max_eq_left (by linarith : 0 ≤ t - t2),
      max_eq_left (by linarith : 0 ≤ t - (t1 + t2))]
    ring

/-- No motion is faster than the shape of its duration. -/
theorem Motion.bounded {V A L D : ℝ} {x v : ℝ → ℝ} (hA : 0 < A) (h : Motion V A L D x v) {t1 t2 : ℝ}
    (h1 : 0 ≤ t1) (h2 : t1 ≤ t2) (hD : t1 + t2 = D) (ht : t1 = V / A ∨ t1 = t2) : L ≤ A * t1 * t2 := by
  have hV : 0 ≤ V := (abs_nonneg _).trans (h.slow 0)
  have key : ∀ t, v t ≤ speed A t1 t2 t := by
    intro t
    rw [speed_eq h1 h2]
    rcases le_total t 0 with a | a
    · rw [(h.before t a).2]; positivity
    rcases le_total D t with b | b
    · rw [(h.after t b).2]; positivity
    have e1 : v t ≤ V := (le_abs_self _).trans (h.slow t)
    have e2 : v t ≤ A * t := by
      have := (le_abs_self _).trans (h.soft 0 t)
      rwa [(h.before 0 (le_refl _)).2, sub_zero, sub_zero, abs_of_nonneg a] at this
    have e3 : v t ≤ A * (t1 + t2 - t) := by
      have := (le_abs_self _).trans (h.soft D t)
      rw [(h.after D (le_refl _)).2, sub_zero, abs_sub_comm, abs_of_nonneg (by linarith)] at this
      rwa [hD]
    have e4 : v t ≤ A * t1 := by
      rcases ht with ht | ht
      · rw [ht, mul_div_cancel₀ _ hA.ne']; exact e1
      · rw [← ht] at e3
        linarith
    have : A * min t1 (min t (t1 + t2 - t)) ≤ A * max 0 (min t1 (min t (t1 + t2 - t))) :=
      mul_le_mul_of_nonneg_left (le_max_right _ _) hA.le
    refine le_trans ?_ this
    rcases min_choice t1 (min t (t1 + t2 - t)) with hm | hm
    · rwa [hm]
    · rw [hm]
      rcases min_choice t (t1 + t2 - t) with hm | hm <;> rwa [hm]
  have mono : Monotone (fun t => shape A t1 t2 t - x t) := by
    refine monotone_of_hasDerivAt_nonneg (f' := fun t => speed A t1 t2 t - v t) (fun t => (shape_deriv A t1 t2 t).sub (h.deriv t)) fun t => ?_
    have := key t
    simp only [Pi.zero_apply]
    linarith
  have hs := shape_motion (V := A * t1) hA h1 h2 (le_refl _)
  have := mono (a := 0) (b := D) (by linarith)
  simp only [(hs.before 0 (le_refl _)).1, (h.before 0 (le_refl _)).1, (hs.after D hD.le).1,
    (h.after D (le_refl _)).1] at this
  linarith

/-- The times of `SetProfile` are the shortest ones. -/
theorem set_shortest {V A L D : ℝ} (hV : 0 < V) (hA : 0 < A) (hL : 0 < L) (hD : 0 ≤ D) {x v : ℝ → ℝ}
    (h : Motion V A L D x v) : (set V A 0 L).duration ≤ D := by
  obtain ⟨t1, t2, h1, h2, h3, h4, h5, h6, h7⟩ := set_times hV hA hL.le
  have h6 := h6 hL
  have e : (set V A 0 L).duration = t1 + t2 := by rw [h5]; rfl
  rw [e]
  by_contra hlt
  push Not at hlt
  have hVA : 0 < V / A := div_pos hV hA
  have hle : t1 ≤ V / A := by rw [le_div_iff₀ hA]; linarith
  by_cases hc : D / 2 ≤ V / A
  · have := h.bounded hA (t1 := D / 2) (t2 := D / 2) (by linarith) (le_refl _) (by ring) (Or.inr rfl)
    have hm : D / 2 * (D / 2) < t1 * t2 := by
      rcases h7 with h7 | h7
      · rw [h7] at h2 h6 hlt ⊢
        nlinarith
      · rw [← h7] at hlt ⊢
        nlinarith
    have : A * (D / 2 * (D / 2)) < A * (t1 * t2) := mul_lt_mul_of_pos_left hm hA
    nlinarith
  · push Not at hc
    have := h.bounded hA (t1 := V / A) (t2 := D - V / A) hVA.le (by linarith) (by ring) (Or.inl rfl)
    have h8 : t1 = V / A := by
      rcases h7 with h7 | h7
      · exact h7
      · linarith
    rw [← h8] at this
    have hm : t1 * (D - t1) < t1 * t2 := mul_lt_mul_of_pos_left (by linarith) h6
    have : A * (t1 * (D - t1)) < A * (t1 * t2) := mul_lt_mul_of_pos_left hm hA
    nlinarith

/-- What `SetProfileDuration` gives for a distance that is not null. -/
theorem setDuration_motion {V A L T : ℝ} (hV : 0 < V) (hA : 0 < A) (hL : 0 < L) (hT : 0 < T) :
    ∃ p, setDuration V A 0 L T = some p ∧ Motion V A L p.duration p.pos p.vel ∧ (∀ t, 0 ≤ p.vel t) ∧
      0 < p.duration ∧ p.duration = max T (set V A 0 L).duration := by
  obtain ⟨t1, t2, h1, h2, h3, h4, h5, h6, h7⟩ := set_times hV hA hL.le
  have h6 := h6 hL
  have hm := shape_motion (V := V) hA h1 h2 h4
  have hp : ∀ t, (set V A 0 L).pos t = shape A t1 t2 t := by
    intro t; rw [h5, ← h3]; exact poly_pos h1 h2 t
  have hv : ∀ t, (set V A 0 L).vel t = speed A t1 t2 t := by
    intro t; rw [h5]; exact poly_vel h1 h2 L t
  have hd : (set V A 0 L).duration = t1 + t2 := by rw [h5]; rfl
  have hd0 : 0 < t1 + t2 := by linarith
  unfold setDuration
  simp only
  rw [if_neg hT.ne']
  by_cases hf : (set V A 0 L).duration / T > 1
  · rw [if_pos hf]
    refine ⟨_, rfl, ?_, ?_, by rw [hd]; exact hd0, ?_⟩
    · rw [funext hp, funext hv, hd, ← h3]
      exact hm
    · intro t; rw [hv]; exact speed_nonneg hA h1 h2 t
    · have : T < (set V A 0 L).duration := by
        rw [gt_iff_lt, lt_div_iff₀ hT, one_mul] at hf; exact hf
      rw [max_eq_right this.le]
  · rw [if_neg hf]
    push Not at hf
    have hle : (set V A 0 L).duration ≤ T := by rwa [div_le_one hT] at hf
    set f := (set V A 0 L).duration / T with hfd
    have hf0 : 0 < f := by rw [hfd, hd]; positivity
    have hTf : T = (set V A 0 L).duration / f := by
      rw [hfd, hd]
      field_simp
    have ep : ((set V A 0 L).scale f T).pos = fun t => shape A t1 t2 (f * t) := by
      funext t; rw [scale_pos hf0 T hTf, hp]
    have ev : ((set V A 0 L).scale f T).vel = fun t => f * speed A t1 t2 (f * t) := by
      funext t; rw [scale_vel hf0 T hTf, hv]
    refine ⟨_, rfl, ?_, ?_, hT, ?_⟩
    · rw [ep, ev]
      have hTm : f * T = t1 + t2 := by
        rw [hfd, hd]; field_simp
      refine ⟨fun t => ?_, fun t => ?_, fun s t => ?_, fun t ht => ?_, fun t ht => ?_⟩
      · have := (hm.deriv (f * t)).comp t ((hasDerivAt_id t).const_mul f)
        exact this.congr_deriv (by simp [mul_comm])
      · rw [abs_mul, abs_of_pos hf0]
        have := hm.slow (f * t)
        have h0 := abs_nonneg (speed A t1 t2 (f * t))
        nlinarith
      · rw [← mul_sub, abs_mul, abs_of_pos hf0]
        have := hm.soft (f * s) (f * t)
        rw [← mul_sub, abs_mul, abs_of_pos hf0] at this
        have h0 : 0 ≤ A * |t - s| := by positivity
        have h9 : |speed A t1 t2 (f * t) - speed A t1 t2 (f * s)| ≤ A * |t - s| := by nlinarith
        have := abs_nonneg (speed A t1 t2 (f * t) - speed A t1 t2 (f * s))
        nlinarith
      · obtain ⟨g1, g2⟩ := hm.before (f * t) (by nlinarith)
        simp only [g1, g2, mul_zero, and_self]
      · have ht : T ≤ t := ht
        obtain ⟨g1, g2⟩ := hm.after (f * t) (by rw [← hTm]; exact mul_le_mul_of_nonneg_left ht hf0.le)
        simp only [g1, g2, mul_zero, h3, and_self]
    · intro t
      rw [ev]
      exact mul_nonneg hf0.le (speed_nonneg hA h1 h2 _)
    · rw [max_eq_left hle]
      rfl

/-- Nowhere to go. -/
theorem setDuration_still {V A T : ℝ} (hV : 0 < V) (hA : 0 < A) (hT : 0 < T) :
    ∃ p, setDuration V A 0 0 T = some p ∧ (∀ t, p.pos t = 0 ∧ p.vel t = 0) ∧ p.duration = T := by
  obtain ⟨t1, t2, h1, h2, h3, h4, h5, h6, h7⟩ := set_times hV hA (le_refl 0)
  have ht : t1 = 0 ∧ t2 = 0 := by
    rcases h7 with h7 | h7
    · have : 0 < t1 := by rw [h7]; exact div_pos hV hA
      have : 0 < A * t1 * t2 := by
        have : 0 < t2 := by linarith
        positivity
      linarith
    · rw [← h7] at h3
      have : t1 * t1 = 0 := by
        rcases mul_eq_zero.mp (show A * (t1 * t1) = 0 by linarith) with h | h
        · exact absurd h hA.ne'
        · exact h
      have := mul_self_eq_zero.mp this
      exact ⟨this, h7 ▸ this⟩
  rw [ht.1, ht.2] at h5
  have hd : (set V A 0 0).duration = 0 := by rw [h5]; simp [poly]
  unfold setDuration
  simp only
  rw [if_neg hT.ne', hd, zero_div, if_neg (by norm_num)]
  refine ⟨_, rfl, fun t => ?_, rfl⟩
  rw [h5]
  simp only [pos, vel, scale, poly, zero_div]
  constructor <;> split_ifs <;> first
    | ring
    | contradiction

end Trap

end KD
