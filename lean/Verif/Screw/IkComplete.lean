import Verif.Screw.IkReach
import Verif.Screw.BuilderSearch
import Verif.Props.PadenKahan
import Verif.Props.PadenKahanThree
import Verif.Props.PardosGotor
import Verif.Props.PardosGotorFour

/-! What the local calls of `ScrewTheoryIkProblem::solve` receive on the branch that follows given
joint values, and which of those values they find. -/

namespace KD

open Real Vec3

/-! ### The calls -/

namespace IkProblem

theorem productWithout_between {es : List MatrixExp} {x : List ℝ} {C : List ℕ} {c n' : ℕ}
    (h : x.length = es.length) (hC : ∀ j, j < es.length → (j ∈ C ↔ j < c ∨ n' ≤ j)) :
    productWithout es x C = seg es (fun j => x.getD j 0) c n' := by
  unfold seg productWithout
  rw [mapIdx_zip h]
  have key : ∀ (L : List (MatrixExp × ℝ)) (i0 : ℕ),
      (∀ j, j < L.length → (i0 + j ∈ C ↔ i0 + j < c ∨ n' ≤ i0 + j)) →
      ((L.zipIdx i0).filter fun p => p.2 ∉ C).map (fun p => p.1.1.asFrame p.1.2) =
        ((L.map fun p => p.1.asFrame p.2).take (n' - i0)).drop (c - i0) := by
    intro L
    induction L with
    | nil => intro i0 _; simp
    | cons a L ih =>
      intro i0 hj
      have h0 := hj 0 (by simp)
      rw [Nat.add_zero] at h0
      have hrec := ih (i0 + 1) (fun j hjl => by
        have := hj (j + 1) (by simpa using hjl)
        rwa [show i0 + (j + 1) = i0 + 1 + j by omega] at this)
      rw [List.zipIdx_cons]
      by_cases h1 : n' ≤ i0
      · rw [List.filter_cons_of_neg (by simpa using h0.mpr (Or.inr h1)), hrec,
          show n' - i0 = 0 by omega, show n' - (i0 + 1) = 0 by omega]
        simp
      · have e1 : n' - i0 = n' - (i0 + 1) + 1 := by omega
        by_cases h2 : i0 < c
        · rw [List.filter_cons_of_neg (by simpa using h0.mpr (Or.inl h2)), hrec, e1,
            show c - i0 = c - (i0 + 1) + 1 by omega]
          simp
        · rw [List.filter_cons_of_pos (by
              have : i0 ∉ C := fun hc => by rcases h0.mp hc with h | h <;> omega
              simpa using this), List.map_cons, hrec, e1, show c - i0 = 0 by omega,
            show c - (i0 + 1) = 0 by omega]
          simp
  have := key (es.zip x) 0 (fun j hj => by
    simp only [Nat.zero_add]
    exact hC j (by simp [h] at hj; exact hj))
  simp only [Nat.sub_zero] at this
  rw [← this]

/-- Joints `c, ..., M` are unsolved, everything to the left is solved, to the right the solved joints
are `M + 1, ..., b - 1`, and maybe the last one: `n'` is the number of joints without it, if
solved. -/
structure Tidy (n : ℕ) (before : List ℕ) (c M b n' : ℕ) : Prop where
  le : c ≤ M
  lt : M < b
  le' : b ≤ n'
  last : (n' = n ∧ n - 1 ∉ before) ∨ (n' + 1 = n ∧ n' ∈ before)
  left : ∀ j, j < c → j ∈ before
  fresh : ∀ j, c ≤ j → j ≤ M → j ∉ before
  right : ∀ j, M < j → j < n' → (j ∈ before ↔ j < b)

/-- On a branch that agrees with `x` on the joints solved before, the call for the joints `m, ..., M`
is made with the products of the exponentials at `x`. -/
theorem call_exact {pb : IkProblem} {subs : List Subproblem} {T : Frame} {ks : List ℕ} {q : List ℝ} {i : ℕ}
    {flag : Bool} {F H : Frame} {ls : List LocalSol} {l : LocalSol} {C : List ℕ}
    (hc : LocalCall pb subs T ks q i flag F H ls l C) (hq : q.length = pb.poe.exps.length)
    {c m M b n' : ℕ} (hcm : c ≤ m) (hmM : m ≤ M)
    (ht : Tidy pb.poe.exps.length ((subs.take i).flatMap Subproblem.ids) c M b n')
    (hids : ∀ s, subs[i]? = some s → ∀ j, j ∈ s.ids ↔ m ≤ j ∧ j ≤ M)
    {x : List ℝ} (hx : x.length = pb.poe.exps.length)
    (hgoal : Poe.expProd pb.poe.exps x = pb.goal T * pb.poe.tool.inv)
    (hagree : ∀ j ∈ (subs.take i).flatMap Subproblem.ids, ∀ e, pb.poe.exps[j]? = some e →
      e.asFrame (pb.val q j) = e.asFrame (x.getD j 0)) :
    F = seg pb.poe.exps (fun j => x.getD j 0) c n' ∧
      H = seg pb.poe.exps (fun j => x.getD j 0) (M + 1) b := by
  set n := pb.poe.exps.length with hn
  set before := (subs.take i).flatMap Subproblem.ids with hbef
  obtain ⟨hcM, hMb, hbn, hlast, hleft, hfresh, hright⟩ := ht
  have hn'n : n' ≤ n := by rcases hlast with h | h <;> omega
  have hCc : ∀ j, j < c → j ∈ C := by
    intro j
    induction j using Nat.strong_induction_on with
    | _ j ih =>
      intro hj
      by_contra hnC
      exact hc.leading j (by omega) (fun j' hj' => ih j' hj' (by omega)) hnC (hleft j hj)
  have hC : ∀ j, j < n → (j ∈ C ↔ j < c ∨ n' ≤ j) := by
    intro j hj
    refine ⟨fun hjC => ?_, ?_⟩
    · by_contra hge
      push Not at hge
      rcases hc.shape j hjC with h | h
      · have hjn : j = n - 1 := by omega
        rcases hlast with ⟨_, h'⟩ | ⟨h', _⟩
        · exact h' (hjn ▸ hc.moved _ hjC)
        · omega
      · have hm : c ∈ C := by
          by_cases hjm : j = c
          · rw [← hjm]; exact hjC
          · exact h c (by omega)
        exact hfresh c le_rfl hcM (hc.moved _ hm)
    · rintro (h | h)
      · exact hCc j h
      · rcases hlast with ⟨h', _⟩ | ⟨h', h''⟩
        · omega
        · have : j = n - 1 := by omega
          rw [this]
          apply hc.trailing
          rw [show pb.poe.exps.length - 1 = n' by omega]
          exact h''
  obtain ⟨A, B, hA, _, hF, _, hprod⟩ := hc.equation
  -- the values of the branch on the joints solved before, those of `x` elsewhere
  let y : List ℝ := (List.range n).map fun j => if j ∈ before then pb.val q j else x.getD j 0
  have hyl : y.length = n := by simp [y]
  have hyget : ∀ j, j < n → y.getD j 0 = if j ∈ before then pb.val q j else x.getD j 0 := by
    intro j hj
    simp [y, List.getD, hj]
  have hfr : ∀ (j : ℕ) (e : MatrixExp), pb.poe.exps[j]? = some e → e.asFrame (y.getD j 0) = e.asFrame (x.getD j 0) := by
    intro j e he
    have hj := (List.getElem?_eq_some_iff.mp he).1
    rw [hyget j hj]
    split
    · rename_i hb
      exact hagree j hb e he
    · rfl
  have hmap : (pb.poe.exps.mapIdx fun j e => e.asFrame (y.getD j 0)) =
      pb.poe.exps.mapIdx fun j e => e.asFrame (x.getD j 0) := by
    apply List.ext_getElem?
    intro j
    simp only [List.getElem?_mapIdx]
    cases he : pb.poe.exps[j]? with
    | none => rfl
    | some e => simp only [Option.map_some]; rw [hfr j e he]
  have hseg : ∀ a b, seg pb.poe.exps (fun j => y.getD j 0) a b = seg pb.poe.exps (fun j => x.getD j 0) a b := by
    intro a b
    unfold seg
    rw [hmap]
  have hp := hprod y hyl (fun j hj => by
    have hjb := hc.moved j hj
    have hjn : j < n := by
      by_contra hge
      rcases hc.shape j hj with h | h
      · omega
      · exact hfresh c le_rfl hcM (hc.moved c (h c (by omega)))
    have h1 : y[j]? = some (pb.val q j) := by
      simp only [y, List.getElem?_map, List.getElem?_range hjn, Option.map_some]
      rw [if_pos hjb]
    rw [h1, ← values_get hq hjn, List.getElem?_eq_getElem (by rw [values_length]; omega), val, List.getD,
      List.getElem?_eq_getElem (by rw [values_length]; omega)]
    rfl)
  rw [productWithout_between hyl hC, hseg, expProd_seg hyl, hseg, ← expProd_seg hx, hgoal, ← hF] at hp
  refine ⟨hp.symm, ?_⟩
  obtain ⟨a', b', hab, hb', v, hH, hv1, hv2, S, hS, h1, h2, h3, h4, h8⟩ := hc.point
  have hH' : H = seg pb.poe.exps v a' b' := hH
  have hval : ∀ a, M < a → seg pb.poe.exps v a b = seg pb.poe.exps (fun j => x.getD j 0) a b := by
    intro a ha
    rw [← hseg]
    refine seg_congr fun j h5 h6 => ?_
    have hjb := (hright j (by omega) (by omega)).mpr h6
    rw [hyget j (by omega), if_pos hjb]
    exact (val_eq hq (by omega) (hv1 j (by omega) hjb)).symm
  have hbelow : ∀ j, j < n → j ∈ before → j ∉ C → M < j ∧ j < b := by
    intro j hj hjb hjC
    have h5 : ¬ (j < c ∨ n' ≤ j) := fun h => hjC ((hC j hj).mpr h)
    push Not at h5
    have hjM : M < j := by
      by_contra hle
      exact hfresh j h5.1 (by omega) hjb
    exact ⟨hjM, (hright j hjM h5.2).mp hjb⟩
  have hnotC : ∀ j, M < j → j < b → j ∉ C := by
    intro j h5 h6 hjC
    rcases (hC j (by omega)).mp hjC with h | h <;> omega
  have hempty : a' = b' → b ≤ b' → False := by
    intro he hbb
    obtain ⟨j, hj1, hj2, hj3⟩ := h8 he (by omega)
    have := (hC (a' - 1) (by omega)).mp (h4 he (a' - 1) (by omega))
    rcases hlast with h | h <;> omega
  rcases hS with hS | ⟨_, hS⟩
  · subst hS
    by_cases hbM : b = M + 1
    · have : a' = b' := by
        by_contra hne
        obtain ⟨k1, k2⟩ := h1 a' le_rfl (by omega)
        have := hbelow a' (by omega) k1 k2
        omega
      rw [hH', seg_nil (by omega), seg_nil (by omega)]
    · have hb1 : b - 1 ∈ before := (hright (b - 1) (by omega) (by omega)).mpr (by omega)
      have hbb : b ≤ b' := by
        by_contra hlt
        exact hnotC (b - 1) (by omega) (by omega) (h2 (b - 1) (by omega) (by omega) hb1)
      have hne : a' ≠ b' := fun he => hempty he hbb
      have hbe : b' = b := by
        obtain ⟨k1, k2⟩ := h1 (b' - 1) (by omega) (by omega)
        have := hbelow (b' - 1) (by omega) k1 k2
        omega
      have hae : a' = M + 1 := by
        obtain ⟨k1, k2⟩ := h1 a' le_rfl (by omega)
        have h5 := hbelow a' (by omega) k1 k2
        by_contra hne'
        have hm1 : a' - 1 ∈ before := (hright (a' - 1) (by omega) (by omega)).mpr (by omega)
        exact hnotC (a' - 1) (by omega) (by omega) (h3 (a' - 1) (by omega) hm1)
      rw [hH', hbe, hae]
      exact hval _ (by omega)
  · have hi : i < subs.length := by
      obtain ⟨s, hs, _⟩ := hc.solved
      exact (List.getElem?_eq_some_iff.mp hs).1
    have hS' : ∀ j, j ∈ S ↔ j ∈ before ∨ (m ≤ j ∧ j ≤ M) := by
      intro j
      rw [hS, List.take_succ_eq_append_getElem hi, List.flatMap_append, List.mem_append]
      simp only [List.flatMap_cons, List.flatMap_nil, List.append_nil]
      rw [hids _ (List.getElem?_eq_getElem hi)]
    have hin : ∀ j, m ≤ j → j < b → j ∈ S ∧ j ∉ C := by
      intro j h5 h6
      refine ⟨?_, fun hjC => ?_⟩
      · rw [hS']
        by_cases hjM : j ≤ M
        · exact Or.inr ⟨h5, hjM⟩
        · exact Or.inl ((hright j (by omega) (by omega)).mpr h6)
      · rcases (hC j (by omega)).mp hjC with h | h <;> omega
    have hout : ∀ j, j < n → j ∈ S → j ∉ C → m ≤ j ∧ j < b := by
      intro j hj hjS hjC
      rcases (hS' j).mp hjS with h | h
      · have := hbelow j hj h hjC
        omega
      · omega
    have hbb : b ≤ b' := by
      by_contra hlt
      obtain ⟨k1, k2⟩ := hin (b - 1) (by omega) (by omega)
      exact k2 (h2 (b - 1) (by omega) (by omega) k1)
    have hne : a' ≠ b' := fun he => hempty he hbb
    have hbe : b' = b := by
      obtain ⟨k1, k2⟩ := h1 (b' - 1) (by omega) (by omega)
      have := hout _ (by omega) k1 k2
      omega
    have hae : a' = m := by
      obtain ⟨k1, k2⟩ := h1 a' le_rfl (by omega)
      have := hout _ (by omega) k1 k2
      by_contra hne'
      obtain ⟨k3, k4⟩ := hin (a' - 1) (by omega) (by omega)
      exact k4 (h3 (a' - 1) (by omega) k3)
    rw [hH', hbe, hae, seg_split (b := M + 1) (by omega) (by omega),
      seg_zero (fun j h5 h6 => hv2 j (by omega) (hfresh j (by omega) (by omega))) (by omega), one_mul]
    exact hval _ (by omega)

end IkProblem

/-! ### Angles -/

/-- The line of points that the screw keeps in place. -/
def OnAxis (e : MatrixExp) (p : Vec3) : Prop := ∃ t : ℝ, p = e.origin + t • e.axis

/-- Distance to the axis. -/
noncomputable def axisDist (e : MatrixExp) (p : Vec3) : ℝ := (axisRej e.axis (p - e.origin)).norm

/-- Equal up to full turns. -/
def Turns (φ θ : ℝ) : Prop := ∃ n : ℤ, φ = θ + 2 * π * n

/-- Half a turn exactly, or farther than the tolerance from it. -/
def OffHalfTurn (θ : ℝ) : Prop := ∀ n : ℤ, |θ - (π + 2 * π * n)| < eps → θ = π + 2 * π * n

/-- The same value of a joint: up to full turns if it rotates. -/
def SameValue (e : MatrixExp) (φ θ : ℝ) : Prop :=
  match e.motion with
  | .rotation => Turns φ θ
  | .translation => φ = θ

theorem Turns.symm {φ θ : ℝ} (h : Turns φ θ) : Turns θ φ := by
  obtain ⟨n, rfl⟩ := h
  exact ⟨-n, by push_cast; ring⟩

theorem Turns.trans {φ θ ψ : ℝ} (h : Turns φ θ) (h' : Turns θ ψ) : Turns φ ψ := by
  obtain ⟨n, rfl⟩ := h
  obtain ⟨m, rfl⟩ := h'
  exact ⟨n + m, by push_cast; ring⟩

theorem Turns.neg {φ θ : ℝ} (h : Turns φ θ) : Turns (-φ) (-θ) := by
  obtain ⟨n, rfl⟩ := h
  exact ⟨-n, by push_cast; ring⟩

theorem SameValue.neg {e : MatrixExp} {φ θ : ℝ} (h : SameValue e φ θ) : SameValue e (-φ) (-θ) := by
  unfold SameValue at *
  split
  · rename_i he
    rw [he] at h
    exact Turns.neg h
  · rename_i he
    rw [he] at h
    rw [show φ = θ from h]

theorem SameValue.asFrame {e : MatrixExp} {φ θ : ℝ} (h : SameValue e φ θ) : e.asFrame φ = e.asFrame θ := by
  unfold SameValue at h
  split at h
  · rename_i he
    obtain ⟨n, rfl⟩ := h
    exact asFrame_periodic he θ n
  · rw [h]

theorem sameValue_rotation {e : MatrixExp} (hm : e.motion = .rotation) {φ θ : ℝ} (h : Turns φ θ) :
    SameValue e φ θ := by
  unfold SameValue; rw [hm]; exact h

theorem sameValue_translation {e : MatrixExp} (hm : e.motion = .translation) (φ : ℝ) :
    SameValue e φ φ := by
  unfold SameValue; rw [hm]

/-- The value reported for an angle. -/
theorem SameAngle.turns {φ ψ x : ℝ} (h : SameAngle φ ψ) (hx : Turns ψ x) (ho : OffHalfTurn x) : Turns φ x := by
  obtain ⟨k, h1, h2⟩ := h
  obtain ⟨n, rfl⟩ := hx
  by_cases hφ : φ = π
  · have := ho (-(n + k)) (by
      rw [← abs_neg]
      convert h1 using 2
      rw [hφ]; push_cast; ring)
    exact ⟨n + k, by rw [hφ, this]; push_cast; ring⟩
  · exact ⟨n + k, by rw [h2 hφ]; push_cast; ring⟩

theorem turns_of_rot2 {a u : Vec3} (ha : dot a a = 1) (hu : axisRej a u ≠ 0) {θ ψ : ℝ}
    (h : (Mat3.rot2 a θ).mulVec u = (Mat3.rot2 a ψ).mulVec u) : Turns θ ψ := by
  rw [rot_decomp ha, rot_decomp ha ψ, add_left_inj] at h
  set w := axisRej a u with hw
  have haw : dot a w = 0 := dot_axisRej ha u
  have hww : dot w w ≠ 0 := by
    intro h0
    apply hu
    apply Vec3.norm_eq_zero
    have := norm_sq w
    rw [h0] at this
    exact pow_eq_zero_iff two_ne_zero |>.mp this
  rw [Mat3.rot2_mulVec, Mat3.rot2_mulVec, haw] at h
  have h1 := congrArg (dot w) h
  have h2 := congrArg (dot (cross a w)) h
  have k1 : dot w (cross a w) = 0 := by simp [dot]; ring
  have k2 : dot (cross a w) w = 0 := by simp [dot]; ring
  have k3 : dot (cross a w) (cross a w) = dot w w := by
    have : dot (cross a w) (cross a w) = dot a a * dot w w - dot a w ^ 2 := by simp [dot]; ring
    rw [this, ha, haw]; ring
  simp only [mul_zero, zero_smul, add_zero, dot_add_right, dot_smul_right, k1, k2, k3, zero_add] at h1 h2
  have hc : cos θ = cos ψ := mul_right_cancel₀ hww h1
  have hs : sin θ = sin ψ := mul_right_cancel₀ hww h2
  obtain ⟨n, hn⟩ := Real.Angle.angle_eq_iff_two_pi_dvd_sub.mp (Real.Angle.cos_sin_inj hc hs)
  exact ⟨n, by linarith⟩

theorem turns_of_act {e : MatrixExp} (hm : e.motion = .rotation) (he : e.Unit) {f : Vec3} (hf : 0 < axisDist e f)
    {θ ψ : ℝ} (h : (e.asFrame θ).act f = (e.asFrame ψ).act f) : Turns θ ψ := by
  rw [act_rot hm he, act_rot hm he, add_right_inj] at h
  refine turns_of_rot2 he (fun h0 => ?_) h
  rw [axisDist, h0, Vec3.norm_zero] at hf
  exact lt_irrefl _ hf

/-! ### Which postures a step tells apart -/

/-- The first point of a subproblem: the one that is moved. -/
def Subproblem.point : Subproblem → Vec3
  | .pk1 _ _ p => p
  | .pk2 _ _ _ _ p _ => p
  | .pk3 _ _ p _ => p
  | .pg1 _ _ p => p
  | .pg2 _ _ _ _ p => p
  | .pg3 _ _ p _ => p
  | .pg4 _ _ _ _ p => p

/-- The point distances are measured to, if any. -/
def Subproblem.center : Subproblem → Option Vec3
  | .pk3 _ _ _ k => some k
  | .pg3 _ _ _ k => some k
  | _ => none

/-- The geometry of a subproblem is not singular (and not within tolerance of being so) for the joint
values `x`, if its point has been moved to `f` by the joints to its right. -/
def Clear (x : ℕ → ℝ) (f : Vec3) : Subproblem → Prop
  | .pk1 i e _ => e.motion = .rotation ∧ OffHalfTurn (x i) ∧ 0 < axisDist e f
  | .pk2 i j e1 e2 _ r => e1.motion = .rotation ∧ e2.motion = .rotation ∧
      OffHalfTurn (x i) ∧ OffHalfTurn (x j) ∧ OnAxis e1 r ∧ OnAxis e2 r ∧ cross e1.axis e2.axis ≠ 0 ∧
      0 < axisDist e2 f ∧ 0 < axisDist e1 ((e2.asFrame (x j)).act f) ∧
      eps ≤ (dot ((e2.asFrame (x j)).act f - r) (cross e1.axis e2.axis) / (cross e1.axis e2.axis).norm ^ 2) ^ 2
  | .pk3 i e _ k => e.motion = .rotation ∧ OffHalfTurn (x i) ∧ 0 < axisDist e f ∧ 0 < axisDist e k ∧
      |dot (axisRej e.axis ((e.asFrame (x i)).act f - e.origin)) (axisRej e.axis (k - e.origin))| ≤
        (1 - eps) * (axisDist e f * axisDist e k)
  | .pg1 _ e _ => e.motion = .translation
  | .pg2 _ _ e1 e2 _ => e1.motion = .translation ∧ e2.motion = .translation ∧ cross e1.axis e2.axis ≠ 0
  | .pg3 i e _ k => e.motion = .translation ∧ eps ≤ dot e.axis ((e.asFrame (x i)).act f - k) ^ 2
  | .pg4 i j e1 e2 _ => e1.motion = .rotation ∧ e2.motion = .rotation ∧
      OffHalfTurn (x i) ∧ OffHalfTurn (x j) ∧ (e2.axis = e1.axis ∨ e2.axis = -e1.axis) ∧
      eps ≤ axisDist e1 e2.origin ∧ 0 < axisDist e2 f ∧ 0 < axisDist e1 ((e2.asFrame (x j)).act f) ∧
      eps ≤ axisDist e2 f + axisDist e1 ((e2.asFrame (x j)).act f) - axisDist e1 e2.origin

/-- The product of the exponentials of the joints of a subproblem, in order. -/
noncomputable def Subproblem.motion (x : ℕ → ℝ) : Subproblem → Frame
  | .pk1 i e _ => e.asFrame (x i)
  | .pk2 i j e1 e2 _ _ => e1.asFrame (x i) * e2.asFrame (x j)
  | .pk3 i e _ _ => e.asFrame (x i)
  | .pg1 i e _ => e.asFrame (x i)
  | .pg2 i j e1 e2 _ => e1.asFrame (x i) * e2.asFrame (x j)
  | .pg3 i e _ _ => e.asFrame (x i)
  | .pg4 i j e1 e2 _ => e1.asFrame (x i) * e2.asFrame (x j)

/-- One of the local solutions has the values `x`. -/
def Found (es : List MatrixExp) (x : ℕ → ℝ) (F H : Frame) (s : Subproblem) : Prop :=
  ∃ flag ls k l, s.solve F H = some (flag, ls) ∧ k < s.count ∧ ls[k]? = some l ∧
    ∀ j ∈ s.ids, ∃ v e, (j, v) ∈ l ∧ es[j]? = some e ∧ SameValue e v (x j)

theorem sq_dist_axis {a : Vec3} (ha : dot a a = 1) (u v : Vec3) :
    2 * dot (axisRej a u) (axisRej a v) =
      (axisRej a u).norm ^ 2 + (axisRej a v).norm ^ 2 - ((u - v).norm ^ 2 - dot a (u - v) ^ 2) := by
  have h := axisRej_norm_sq ha (u - v)
  rw [norm_sq (u - v), ← h, axisRej_sub, norm_sq, norm_sq, norm_sq]
  simp only [dot_sub_left, dot_sub_right, dot_comm (axisRej a v) (axisRej a u)]
  ring

theorem axisDist_act {e : MatrixExp} (hm : e.motion = .rotation) (he : e.Unit) (θ : ℝ) (f : Vec3) :
    axisDist e ((e.asFrame θ).act f) = axisDist e f := by
  have hr : e.origin = e.origin + (0 : ℝ) • e.axis := by rw [zero_smul, add_zero]
  exact axisRej_norm_congr he (rot_height hm he hr θ f) (rot_dist hm he hr θ f)

theorem found_of_clear {es : List MatrixExp} (hu : ∀ e ∈ es, e.Unit) {x : ℕ → ℝ} {F H : Frame} {s : Subproblem}
    (hs : Builder.Subproblem.Uses es s) (hc : Clear x (H.act s.point) s)
    (h : match s.center with
      | none => F.act s.point = (s.motion x).act (H.act s.point)
      | some k => (F.act s.point - k).norm = ((s.motion x).act (H.act s.point) - k).norm) :
    Found es x F H s := by
  cases s with
  | pk1 i e p =>
    dsimp only [Subproblem.point, Subproblem.center, Subproblem.motion] at h hc
    obtain ⟨hm, ho, hd⟩ := hc
    have he := hu e (List.mem_of_getElem? hs)
    obtain ⟨φ, θ, h1, h2, h3⟩ := C08_pk1_sound i e p F H hm he ⟨x i, h.symm⟩
    refine ⟨_, _, 0, _, h1, by simp [Subproblem.count], rfl, fun j hj => ?_⟩
    simp only [Subproblem.ids, List.mem_singleton] at hj
    subst hj
    refine ⟨φ, e, by simp, hs, sameValue_rotation hm (h3.turns ?_ ho)⟩
    exact turns_of_act hm he hd (h2.trans h)
  | pk2 i j e1 e2 p r =>
    dsimp only [Subproblem.point, Subproblem.center, Subproblem.motion] at h hc
    obtain ⟨m1, m2, o1, o2, ⟨t1, hr1⟩, ⟨t2, hr2⟩, hpar, d2, d1, hp⟩ := hc
    obtain ⟨g1, g2⟩ := hs
    have u1 := hu e1 (List.mem_of_getElem? g1)
    have u2 := hu e2 (List.mem_of_getElem? g2)
    have h' : (e1.asFrame (x i)).act ((e2.asFrame (x j)).act (H.act p)) = F.act p := by
      rw [← Frame.act_mul]; exact h.symm
    obtain ⟨φ11, φ21, φ12, φ22, ψ11, ψ21, ψ12, ψ22, k1, k2, k3, k4, k5, k6, k7, k8⟩ :=
      C09_pk2_sound i j e1 e2 p r F H m1 m2 u1 u2 t1 t2 hr1 hr2 hpar (x i) (x j) h' hp
    rcases k8 _ _ h' with h0 | h0
    · refine ⟨_, _, 0, _, k1, by simp [Subproblem.count], rfl, fun j' hj => ?_⟩
      simp only [Subproblem.ids, List.mem_cons, List.not_mem_nil, or_false] at hj
      rcases hj with rfl | rfl
      · refine ⟨φ11, e1, by simp, g1, sameValue_rotation m1 (k3.turns ?_ o1)⟩
        refine turns_of_act m1 u1 d1 ?_
        rw [h', ← k2, ← h0]
      · exact ⟨φ21, e2, by simp, g2, sameValue_rotation m2 (k4.turns (turns_of_act m2 u2 d2 h0.symm) o2)⟩
    · refine ⟨_, _, 1, _, k1, by simp [Subproblem.count], rfl, fun j' hj => ?_⟩
      simp only [Subproblem.ids, List.mem_cons, List.not_mem_nil, or_false] at hj
      rcases hj with rfl | rfl
      · refine ⟨φ12, e1, by simp, g1, sameValue_rotation m1 (k6.turns ?_ o1)⟩
        refine turns_of_act m1 u1 d1 ?_
        rw [h', ← k5, ← h0]
      · exact ⟨φ22, e2, by simp, g2, sameValue_rotation m2 (k7.turns (turns_of_act m2 u2 d2 h0.symm) o2)⟩
  | pk3 i e p k =>
    dsimp only [Subproblem.point, Subproblem.center, Subproblem.motion] at h hc
    obtain ⟨hm, ho, hd, hdk, hb⟩ := hc
    have he := hu e (List.mem_of_getElem? hs)
    have hr : e.origin = e.origin + (0 : ℝ) • e.axis := by rw [zero_smul, add_zero]
    have h' : (F.act p - k).norm = ((e.asFrame (x i)).act (H.act p) - k).norm := h
    have hsq := sq_dist_axis he ((e.asFrame (x i)).act (H.act p) - e.origin) (k - e.origin)
    have hda := axisDist_act hm he (x i) (H.act p)
    have hh : dot e.axis ((e.asFrame (x i)).act (H.act p) - k) = dot e.axis (H.act p - k) := by
      have := rot_height hm he hr (x i) (H.act p)
      have e1 : ∀ y : Vec3, dot e.axis (y - k) = dot e.axis (y - e.origin) - dot e.axis (k - e.origin) := by
        intro y
        rw [← dot_sub_right]
        congr 1; abel
      rw [e1, e1 (H.act p), this]
    rw [sub_sub_sub_cancel_right, hh, ← h', show (axisRej e.axis ((e.asFrame (x i)).act (H.act p) - e.origin)).norm =
      axisDist e (H.act p) from hda] at hsq
    have hk : (axisRej e.axis (k - e.origin)).norm = axisDist e k := rfl
    rw [hk] at hsq
    obtain ⟨φ1, φ2, ψ1, ψ2, k1, k2, k3, k4, k5, k6⟩ := C10_pk3_sound_partial i e p k F H hm he
      (axisDist e (H.act p)) (axisDist e k) _ rfl rfl rfl hd.ne' hdk.ne' (by
        rw [← hsq, abs_mul, abs_of_pos (by norm_num : (0 : ℝ) < 2)]
        linarith)
    have key : ∀ {φ ψ : ℝ}, SameAngle φ ψ → e.asFrame (x i) = e.asFrame ψ → SameValue e φ (x i) := by
      intro φ ψ hs he'
      exact sameValue_rotation hm (hs.turns (turns_of_act hm he hd (by rw [he'])) ho)
    rcases k6 (x i) h'.symm with h0 | h0
    · refine ⟨_, _, 0, _, k1, by simp [Subproblem.count], rfl, fun j hj => ?_⟩
      simp only [Subproblem.ids, List.mem_singleton] at hj
      subst hj
      exact ⟨φ1, e, by simp, hs, key k3 h0⟩
    · refine ⟨_, _, 1, _, k1, by simp [Subproblem.count], rfl, fun j hj => ?_⟩
      simp only [Subproblem.ids, List.mem_singleton] at hj
      subst hj
      exact ⟨φ2, e, by simp, hs, key k5 h0⟩
  | pg1 i e p =>
    dsimp only [Subproblem.point, Subproblem.center, Subproblem.motion] at h hc
    have hm : e.motion = .translation := hc
    have he := hu e (List.mem_of_getElem? hs)
    refine ⟨_, _, 0, _, C11_pg1_sound_partial i e p F H hm he (x i) h.symm, by simp [Subproblem.count], rfl,
      fun j hj => ?_⟩
    simp only [Subproblem.ids, List.mem_singleton] at hj
    subst hj
    exact ⟨_, e, by simp, hs, sameValue_translation hm _⟩
  | pg2 i j e1 e2 p =>
    dsimp only [Subproblem.point, Subproblem.center, Subproblem.motion] at h hc
    obtain ⟨m1, m2, hpar⟩ := hc
    obtain ⟨g1, g2⟩ := hs
    have u1 := hu e1 (List.mem_of_getElem? g1)
    have u2 := hu e2 (List.mem_of_getElem? g2)
    have h' : (e1.asFrame (x i)).act ((e2.asFrame (x j)).act (H.act p)) = F.act p := by
      rw [← Frame.act_mul]; exact h.symm
    refine ⟨_, _, 0, _, C12_pg2_sound i j e1 e2 p F H m1 m2 u1 u2 hpar (x i) (x j) h', by simp [Subproblem.count], rfl,
      fun j' hj => ?_⟩
    simp only [Subproblem.ids, List.mem_cons, List.not_mem_nil, or_false] at hj
    rcases hj with rfl | rfl
    · exact ⟨_, e1, by simp, g1, sameValue_translation m1 _⟩
    · exact ⟨_, e2, by simp, g2, sameValue_translation m2 _⟩
  | pg3 i e p k =>
    dsimp only [Subproblem.point, Subproblem.center, Subproblem.motion] at h hc
    obtain ⟨hm, hb⟩ := hc
    have he := hu e (List.mem_of_getElem? hs)
    have h' : (F.act p - k).norm = ((e.asFrame (x i)).act (H.act p) - k).norm := h
    have hd := dist_sq_translated hm he (H.act p) k (x i)
    obtain ⟨θ1, θ2, k1, _, k2⟩ := C13_pg3_sound_partial i e p k F H hm he (by
      have e1 : dot e.axis ((e.asFrame (x i)).act (H.act p) - k) = x i - dot e.axis (k - H.act p) := by
        rw [act_trans hm]
        have e1 : dot e.axis e.axis = 1 := he
        have : H.act p + x i • e.axis - k = x i • e.axis - (k - H.act p) := by abel
        rw [this, dot_sub_right, dot_smul_right, e1, mul_one]
      rw [e1] at hb
      rw [h', hd, axisRej_norm_sq he, ← norm_sq]
      linarith)
    rcases (k2 (x i)).mp h'.symm with h0 | h0
    · refine ⟨_, _, 0, _, k1, by simp [Subproblem.count], rfl, fun j hj => ?_⟩
      simp only [Subproblem.ids, List.mem_singleton] at hj
      subst hj
      exact ⟨θ1, e, by simp, hs, h0 ▸ sameValue_translation hm _⟩
    · refine ⟨_, _, 1, _, k1, by simp [Subproblem.count], rfl, fun j hj => ?_⟩
      simp only [Subproblem.ids, List.mem_singleton] at hj
      subst hj
      exact ⟨θ2, e, by simp, hs, h0 ▸ sameValue_translation hm _⟩
  | pg4 i j e1 e2 p =>
    dsimp only [Subproblem.point, Subproblem.center, Subproblem.motion] at h hc
    obtain ⟨m1, m2, o1, o2, hpar, hN, d2, d1, hp⟩ := hc
    obtain ⟨g1, g2⟩ := hs
    have u1 := hu e1 (List.mem_of_getElem? g1)
    have u2 := hu e2 (List.mem_of_getElem? g2)
    have h' : (e1.asFrame (x i)).act ((e2.asFrame (x j)).act (H.act p)) = F.act p := by
      rw [← Frame.act_mul]; exact h.symm
    have hV : axisDist e1 ((e2.asFrame (x j)).act (H.act p)) = (axisRej e1.axis (F.act p - e1.origin)).norm := by
      rw [← axisDist_act m1 u1 (x i), h']; rfl
    obtain ⟨φ11, φ21, φ12, φ22, ψ11, ψ21, ψ12, ψ22, k1, k2, k3, k4, k5, k6, k7, k8⟩ :=
      C14_pg4_sound_partial i j e1 e2 p F H m1 m2 u1 hpar _ _ _ rfl rfl rfl hN (by
        rw [← hV]; exact hp) (x i) (x j) h'
    rcases k8 _ _ h' with h0 | h0
    · refine ⟨_, _, 0, _, k1, by simp [Subproblem.count], rfl, fun j' hj => ?_⟩
      simp only [Subproblem.ids, List.mem_cons, List.not_mem_nil, or_false] at hj
      rcases hj with rfl | rfl
      · refine ⟨φ11, e1, by simp, g1, sameValue_rotation m1 (k3.turns ?_ o1)⟩
        refine turns_of_act m1 u1 d1 ?_
        rw [h', ← k2, ← h0]
      · exact ⟨φ21, e2, by simp, g2, sameValue_rotation m2 (k4.turns (turns_of_act m2 u2 d2 h0.symm) o2)⟩
    · refine ⟨_, _, 1, _, k1, by simp [Subproblem.count], rfl, fun j' hj => ?_⟩
      simp only [Subproblem.ids, List.mem_cons, List.not_mem_nil, or_false] at hj
      rcases hj with rfl | rfl
      · refine ⟨φ12, e1, by simp, g1, sameValue_rotation m1 (k6.turns ?_ o1)⟩
        refine turns_of_act m1 u1 d1 ?_
        rw [h', ← k5, ← h0]
      · exact ⟨φ22, e2, by simp, g2, sameValue_rotation m2 (k7.turns (turns_of_act m2 u2 d2 h0.symm) o2)⟩

/-! ### All the steps -/

open IkProblem

theorem seg_fix {es : List MatrixExp} (hu : ∀ e ∈ es, e.Unit) (v : ℕ → ℝ) {p : Vec3} {a b : ℕ}
    (h : ∀ j e, a ≤ j → j < b → es[j]? = some e → e.motion = .rotation ∧ OnAxis e p) :
    (seg es v a b).act p = p := by
  have key : ∀ b, b ≤ es.length → (∀ j e, a ≤ j → j < b → es[j]? = some e → e.motion = .rotation ∧ OnAxis e p) →
      (seg es v a b).act p = p := by
    clear h b
    intro b hb h
    induction hd : b - a generalizing a with
    | zero => rw [seg_nil (by omega), Frame.act_one]
    | succ d ih =>
      have hlt : a < es.length := by omega
      rw [seg_step (by omega) hb, Frame.act_mul, ih (fun j e h1 h2 => h j e (by omega) h2) (by omega)]
      obtain ⟨hm, t, ht⟩ := h a _ le_rfl (by omega) (List.getElem?_eq_getElem hlt)
      rw [act_rot_at hm (hu _ (List.getElem_mem hlt)) ht, sub_self, Mat3.mulVec_zero, add_zero]
  by_cases hb : b ≤ es.length
  · exact key b hb h
  · have : seg es v a b = seg es v a es.length := by
      unfold seg
      rw [List.take_of_length_le (by simp; omega), List.take_of_length_le (by simp)]
    rw [this]
    exact key _ le_rfl (fun j e h1 h2 => h j e h1 (by omega))

/-- A step solves for consecutive joints, finds the joints solved before well placed, and can tell the
posture `x` apart: the unsolved joints at the end do not move its point, those at the beginning (only
where distances to a center are used) do not move the center, and the geometry is clear. -/
def Poised (es : List MatrixExp) (before : List ℕ) (x : ℕ → ℝ) (s : Subproblem) : Prop :=
  ∃ c m M b n', c ≤ m ∧ m ≤ M ∧ s.ids = List.range' m (M + 1 - m) ∧ Tidy es.length before c M b n' ∧
    (∀ j e, b ≤ j → j < n' → es[j]? = some e → e.motion = .rotation ∧ OnAxis e s.point) ∧
    (∀ j e, c ≤ j → j < m → es[j]? = some e → e.motion = .rotation ∧ ∃ k, s.center = some k ∧ OnAxis e k) ∧
    Clear x ((seg es x (M + 1) b).act s.point) s

theorem motion_eq {es : List MatrixExp} {s : Subproblem} (hs : Builder.Subproblem.Uses es s) (x : ℕ → ℝ) {m M : ℕ} (hmM : m ≤ M)
    (hids : s.ids = List.range' m (M + 1 - m)) : seg es x m (M + 1) = s.motion x := by
  have one : ∀ i : ℕ, [i] = List.range' m (M + 1 - m) → i = m ∧ M = m := by
    intro i h
    have hl := congrArg List.length h
    simp at hl
    have : M = m := by omega
    subst this
    simp at h
    exact ⟨h, rfl⟩
  have two : ∀ i j : ℕ, [i, j] = List.range' m (M + 1 - m) → i = m ∧ j = m + 1 ∧ M = m + 1 := by
    intro i j h
    have hl := congrArg List.length h
    simp at hl
    have : M = m + 1 := by omega
    subst this
    rw [show m + 1 + 1 - m = 2 by omega] at h
    simp [List.range'] at h
    exact ⟨h.1, h.2, rfl⟩
  have pair : ∀ {e1 e2 : MatrixExp}, es[m]? = some e1 → es[m + 1]? = some e2 →
      seg es x m (m + 1 + 1) = e1.asFrame (x m) * e2.asFrame (x (m + 1)) := by
    intro e1 e2 h1 h2
    rw [seg_split (b := m + 1) (by omega) (by omega), seg_one h1, seg_one h2]
  cases s with
  | pk1 i e p => obtain ⟨rfl, rfl⟩ := one i hids; exact seg_one hs
  | pk3 i e p k => obtain ⟨rfl, rfl⟩ := one i hids; exact seg_one hs
  | pg1 i e p => obtain ⟨rfl, rfl⟩ := one i hids; exact seg_one hs
  | pg3 i e p k => obtain ⟨rfl, rfl⟩ := one i hids; exact seg_one hs
  | pk2 i j e1 e2 p r => obtain ⟨rfl, rfl, rfl⟩ := two i j hids; exact pair hs.1 hs.2
  | pg2 i j e1 e2 p => obtain ⟨rfl, rfl, rfl⟩ := two i j hids; exact pair hs.1 hs.2
  | pg4 i j e1 e2 p => obtain ⟨rfl, rfl, rfl⟩ := two i j hids; exact pair hs.1 hs.2

/-- With the right-hand side and the point transform of the posture `x`, a poised step finds `x`. -/
theorem found_of_poised {es : List MatrixExp} (hu : ∀ e ∈ es, e.Unit) {x : ℕ → ℝ} {s : Subproblem} (hs : Builder.Subproblem.Uses es s)
    {c m M b n' : ℕ} (hcm : c ≤ m) (hmM : m ≤ M) (hMb : M < b) (hbn : b ≤ n')
    (hids : s.ids = List.range' m (M + 1 - m))
    (h1 : ∀ j e, b ≤ j → j < n' → es[j]? = some e → e.motion = .rotation ∧ OnAxis e s.point)
    (h2 : ∀ j e, c ≤ j → j < m → es[j]? = some e → e.motion = .rotation ∧ ∃ k, s.center = some k ∧ OnAxis e k)
    (hml : m ≤ es.length)
    (hc : Clear x ((seg es x (M + 1) b).act s.point) s) : Found es x (seg es x c n') (seg es x (M + 1) b) s := by
  have hF : (seg es x c n').act s.point =
      (seg es x c m).act ((s.motion x).act ((seg es x (M + 1) b).act s.point)) := by
    rw [seg_split (b := b) (by omega) (by omega), Frame.act_mul, seg_fix hu x h1,
      seg_split (a := c) (b := m) (c := b) (by omega) (by omega), Frame.act_mul,
      seg_split (a := m) (b := M + 1) (c := b) (by omega) (by omega), Frame.act_mul, motion_eq hs x hmM hids]
  refine found_of_clear hu hs hc ?_
  by_cases hcm' : c = m
  · rw [seg_nil (a := c) (b := m) (by omega), Frame.act_one] at hF
    rw [hF]
    split <;> rfl
  · obtain ⟨_, k, hk, _⟩ := h2 c _ le_rfl (by omega) (List.getElem?_eq_getElem (by omega))
    rw [hk, hF]
    have hfix : (seg es x c m).act k = k := seg_fix hu x (fun j e j1 j2 j3 => by
      obtain ⟨hm, k', hk', ho⟩ := h2 j e j1 j2 j3
      rw [hk] at hk'
      rw [Option.some.inj hk']
      exact ⟨hm, ho⟩)
    show ((seg es x c m).act _ - k).norm = _
    conv_lhs => rw [← hfix]
    exact (seg_rigid hu x c m).dist _ _

/-- If every step is poised at the joint values `x`, which reach the target, `x` is among the
solutions. -/
theorem solve_finds {pb : IkProblem} {subs : List Subproblem} (hwf : pb.WellFormed subs)
    (huses : ∀ s ∈ subs, Builder.Subproblem.Uses pb.poe.exps s) {T : Frame} {out : List (List ℝ)} {ok : Bool} {sols : List (List ℝ)}
    (hs : pb.solve T out = some (ok, sols)) {x : List ℝ} (hx : x.length = pb.poe.exps.length)
    (hgoal : Poe.expProd pb.poe.exps x = pb.goal T * pb.poe.tool.inv)
    (hp : ∀ i s, subs[i]? = some s →
      Poised pb.poe.exps ((subs.take i).flatMap Subproblem.ids) (fun j => x.getD j 0) s) :
    ∃ q ∈ sols, q.length = pb.poe.exps.length ∧ ∀ j ∈ subs.flatMap Subproblem.ids, ∀ e, pb.poe.exps[j]? = some e →
      SameValue e (pb.val q j) (x.getD j 0) := by
  -- what every step is asked on the branch of `x`, and which local solution to follow
  have hstep : ∀ i (hi : i < subs.length), ∃ k, k < (subs[i]).count ∧ ∃ c m M b n', c ≤ m ∧ m ≤ M ∧
      (subs[i]).ids = List.range' m (M + 1 - m) ∧
      Tidy pb.poe.exps.length ((subs.take i).flatMap Subproblem.ids) c M b n' ∧
      ∃ flag ls l, (subs[i]).solve (seg pb.poe.exps (fun j => x.getD j 0) c n')
          (seg pb.poe.exps (fun j => x.getD j 0) (M + 1) b) = some (flag, ls) ∧ ls[k]? = some l ∧
        ∀ j ∈ (subs[i]).ids, ∃ v e, (j, v) ∈ l ∧ pb.poe.exps[j]? = some e ∧ SameValue e v (x.getD j 0) := by
    intro i hi
    obtain ⟨c, m, M, b, n', hcm, hmM, hids, ht, h1, h2, hc⟩ := hp i _ (List.getElem?_eq_getElem hi)
    have hmem : subs[i] ∈ subs := List.getElem_mem hi
    have hml : m ≤ pb.poe.exps.length :=
      (hwf.ids _ hmem m (by rw [hids, List.mem_range']; exact ⟨0, by omega, by omega⟩)).le
    obtain ⟨flag, ls, k, l, g1, g2, g3, g4⟩ := found_of_poised hwf.unit (huses _ hmem) hcm hmM ht.lt ht.le' hids h1 h2
      hml hc
    exact ⟨k, g2, c, m, M, b, n', hcm, hmM, hids, ht, flag, ls, l, g1, g3, g4⟩
  choose! kf hkc hrest using hstep
  let ks := (List.range subs.length).map kf
  have hsel : Selects subs ks := by
    unfold Selects
    rw [List.forall₂_iff_get]
    refine ⟨by simp [ks], fun i h1 h2 => ?_⟩
    simp only [ks, List.get_eq_getElem, List.getElem_map, List.getElem_range]
    exact hkc i h1
  obtain ⟨flag, _, hacc⟩ := solve_account hwf hs
  obtain ⟨q, hq, hcalls, _⟩ := hacc ks hsel
  have hqmem : q ∈ sols := List.mem_of_getElem? hq
  have hlen : q.length = pb.poe.exps.length := by
    obtain ⟨ok', sols', g1, g2, g3, _⟩ := solve_eq hwf.stepsPair hwf.stepsOK T out
    rw [hs, Option.some.injEq, Prod.mk.injEq] at g1
    obtain ⟨rfl, rfl⟩ := g1
    rw [counts_eq] at g2 g3
    obtain ⟨oks, q2, _, e2, e3⟩ := g3 ks ((selects_iff subs ks).mp hsel)
    rw [position] at hq
    rw [hq] at e3
    rw [Option.some.inj e3]; exact e2
  refine ⟨q, hqmem, hlen, ?_⟩
  -- by induction over the steps, the branch agrees with `x`
  have hall : ∀ i (hi : i < subs.length), ∀ j ∈ (subs[i]).ids, ∀ e, pb.poe.exps[j]? = some e →
      SameValue e (pb.val q j) (x.getD j 0) := by
    intro i
    induction i using Nat.strong_induction_on with
    | _ i ih =>
      intro hi j hj e he
      obtain ⟨c, m, M, b, n', hcm, hmM, hids, ht, fl, ls, l, g1, g2, g3⟩ := hrest i hi
      obtain ⟨F, H, ls', l', C, hc⟩ := hcalls i hi
      have hagree : ∀ j ∈ (subs.take i).flatMap Subproblem.ids, ∀ e, pb.poe.exps[j]? = some e →
          e.asFrame (pb.val q j) = e.asFrame (x.getD j 0) := by
        intro j hj e he
        obtain ⟨s, hs1, hs2⟩ := List.mem_flatMap.mp hj
        obtain ⟨i', hi', rfl⟩ := List.mem_iff_getElem.mp hs1
        rw [List.length_take] at hi'
        rw [List.getElem_take] at hs2
        exact (ih i' (by omega) (by omega) j hs2 e he).asFrame
      obtain ⟨hF, hH⟩ := call_exact hc hlen hcm hmM ht (by
        intro s hs' j
        rw [List.getElem?_eq_getElem hi] at hs'
        rw [← Option.some.inj hs', hids, List.mem_range']
        constructor
        · rintro ⟨k, hk, rfl⟩; omega
        · intro h; exact ⟨j - m, by omega, by omega⟩) hx hgoal hagree
      obtain ⟨s, hs1, hs2⟩ := hc.solved
      rw [List.getElem?_eq_getElem hi] at hs1
      rw [← Option.some.inj hs1, hF, hH, g1, Option.some.injEq, Prod.mk.injEq] at hs2
      obtain ⟨k, hk1, hk2⟩ := hc.selected
      have hkk : k = kf i := by
        simp only [ks, List.getElem?_map, List.getElem?_range hi, Option.map_some, Option.some.injEq] at hk1
        exact hk1.symm
      rw [hkk, ← hs2.2, g2] at hk2
      have hll := Option.some.inj hk2
      obtain ⟨v, e', hv, he', hsame⟩ := g3 j hj
      rw [he] at he'
      obtain rfl := Option.some.inj he'
      have hst := hc.stored (j, v) (hll ▸ hv)
      have hjn := (List.getElem?_eq_some_iff.mp he).1
      rw [val_eq hlen hjn (y := v) (by
        unfold termValue
        split
        · rename_i hrev
          rw [if_pos hrev, if_pos hrev] at hst
          rw [hst]; simp
        · rename_i hrev
          rw [if_neg hrev, if_neg hrev] at hst
          exact hst)]
      exact hsame
  intro j hj e he
  obtain ⟨s, hs1, hs2⟩ := List.mem_flatMap.mp hj
  obtain ⟨i, hi, rfl⟩ := List.mem_iff_getElem.mp hs1
  exact hall i hi j hs2 e he

end KD
