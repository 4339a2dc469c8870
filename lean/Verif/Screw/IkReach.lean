import Verif.Screw.BuilderPlaced
import Verif.Props.IkProblem
import Verif.Props.PadenKahan

/-! From the local calls of `ScrewTheoryIkProblem::solve` to the forward kinematics. -/

namespace KD

open Vec3

namespace IkProblem

/-- Product of the exponentials `a, ..., b - 1`. -/
noncomputable def seg (es : List MatrixExp) (v : ℕ → ℝ) (a b : ℕ) : Frame :=
  (((es.mapIdx fun j e => e.asFrame (v j)).take b).drop a).prod

theorem seg_nil {es : List MatrixExp} {v : ℕ → ℝ} {a b : ℕ} (h : b ≤ a) : seg es v a b = 1 := by
  unfold seg
  rw [List.drop_eq_nil_of_le (by simp; omega)]
  rfl

theorem seg_split {es : List MatrixExp} {v : ℕ → ℝ} {a b c : ℕ} (h1 : a ≤ b) (h2 : b ≤ c) :
    seg es v a c = seg es v a b * seg es v b c := by
  unfold seg
  rw [← List.prod_append]
  congr 1
  set L := es.mapIdx fun j e => e.asFrame (v j)
  have : L.take c = L.take b ++ (L.take c).drop b := by
    have := (List.take_append_drop b (L.take c)).symm
    rwa [List.take_take, min_eq_left h2] at this
  by_cases hb : b ≤ L.length
  · conv_lhs => rw [this]
    rw [List.drop_append_of_le_length (by simp; omega)]
  · rw [List.take_of_length_le (l := L) (i := c) (by omega), List.take_of_length_le (l := L) (i := b) (by omega),
      List.drop_eq_nil_of_le (as := L) (i := b) (by omega)]
    simp

theorem seg_one {es : List MatrixExp} {v : ℕ → ℝ} {a : ℕ} {e : MatrixExp} (h : es[a]? = some e) :
    seg es v a (a + 1) = e.asFrame (v a) := by
  unfold seg
  have hlt : a < es.length := (List.getElem?_eq_some_iff.mp h).1
  have : ((es.mapIdx fun j e => e.asFrame (v j)).take (a + 1)).drop a = [e.asFrame (v a)] := by
    apply List.ext_getElem?
    intro i
    rw [List.getElem?_drop, List.getElem?_take]
    cases i with
    | zero => simp [h]
    | succ i => simp
  rw [this]; simp

theorem seg_congr {es : List MatrixExp} {v w : ℕ → ℝ} {a b : ℕ} (h : ∀ j, a ≤ j → j < b → v j = w j) :
    seg es v a b = seg es w a b := by
  unfold seg
  congr 1
  apply List.ext_getElem?
  intro i
  simp only [List.getElem?_drop, List.getElem?_take, List.getElem?_mapIdx]
  split
  · rename_i hi
    rw [h (a + i) (by omega) hi]
  · rfl

theorem seg_step {es : List MatrixExp} {v : ℕ → ℝ} {a b : ℕ} (h : a < b) (hb : b ≤ es.length) :
    seg es v a b = (es[a]'(by omega)).asFrame (v a) * seg es v (a + 1) b := by
  rw [seg_split (b := a + 1) (by omega) (by omega), seg_one (List.getElem?_eq_getElem (by omega))]

theorem seg_zero {es : List MatrixExp} {v : ℕ → ℝ} {a b : ℕ} (h : ∀ j, a ≤ j → j < b → v j = 0)
    (hb : b ≤ es.length) : seg es v a b = 1 := by
  induction hd : b - a generalizing a with
  | zero => exact seg_nil (by omega)
  | succ d ih =>
    rw [seg_step (by omega) hb, h a le_rfl (by omega), MatrixExp.asFrame_zero, one_mul]
    exact ih (fun j h1 h2 => h j (by omega) h2) (by omega)

theorem seg_rigid {es : List MatrixExp} (hu : ∀ e ∈ es, e.Unit) (v : ℕ → ℝ) (a b : ℕ) :
    (seg es v a b).IsRigid := by
  unfold seg
  have : ∀ L : List Frame, (∀ F ∈ L, F.IsRigid) → L.prod.IsRigid := by
    intro L
    induction L with
    | nil => intro _; simpa using Frame.IsRigid.one
    | cons F L ih =>
      intro h
      rw [List.prod_cons]
      exact (h F List.mem_cons_self).mul (ih fun G hG => h G (List.mem_cons_of_mem _ hG))
  apply this
  intro F hF
  have hF' := List.mem_of_mem_take (List.mem_of_mem_drop hF)
  obtain ⟨i, hi, rfl⟩ := List.mem_mapIdx.mp hF'
  exact MatrixExp.asFrame_rigid (hu _ (List.getElem_mem _)) _

/-- Rotations about axes next to a point hardly move it. -/
theorem seg_near {es : List MatrixExp} (hu : ∀ e ∈ es, e.Unit) (v : ℕ → ℝ) {p : Vec3} {δ : ℝ} {a b : ℕ}
    (hb : b ≤ es.length)
    (h : ∀ j e, a ≤ j → j < b → es[j]? = some e → e.motion = .rotation ∧ (cross (p - e.origin) e.axis).norm ≤ δ) :
    ((seg es v a b).act p - p).norm ≤ (b - a : ℕ) * (2 * δ) := by
  induction hd : b - a generalizing a with
  | zero => rw [seg_nil (by omega)]; simp
  | succ d ih =>
    have hlt : a < es.length := by omega
    obtain ⟨hm, hn⟩ := h a es[a] le_rfl (by omega) (List.getElem?_eq_getElem hlt)
    have he := hu es[a] (List.getElem_mem hlt)
    have h1 := ih (a := a + 1) (fun j e h1 h2 h3 => h j e (by omega) h2 h3) (by omega)
    have h2 := Builder.rot_near hm he (v a) p
    rw [seg_step (by omega) hb, Frame.act_mul]
    have h3 := Vec3.norm_sub_le ((es[a].asFrame (v a)).act ((seg es v (a + 1) b).act p)) ((es[a].asFrame (v a)).act p) p
    have h4 : ((es[a].asFrame (v a)).act ((seg es v (a + 1) b).act p) - (es[a].asFrame (v a)).act p).norm =
        ((seg es v (a + 1) b).act p - p).norm := (MatrixExp.asFrame_rigid he _).dist _ _
    push_cast
    linarith

/-- Rotations keep a point within reach. -/
theorem seg_reach {es : List MatrixExp} (hu : ∀ e ∈ es, e.Unit) (hrot : ∀ e ∈ es, e.motion = .rotation)
    (v : ℕ → ℝ) {p : Vec3} {R : ℝ} (hp : ∀ e ∈ es, (p - e.origin).norm ≤ R)
    (ho : ∀ e ∈ es, ∀ e' ∈ es, (e.origin - e'.origin).norm ≤ R) {a b : ℕ} (hb : b ≤ es.length) :
    ∀ e ∈ es, ((seg es v a b).act p - e.origin).norm ≤ ((b - a : ℕ) + 1) * R := by
  induction hd : b - a generalizing a with
  | zero =>
    intro e he
    rw [seg_nil (by omega)]
    simpa using hp e he
  | succ d ih =>
    intro e he
    have hlt : a < es.length := by omega
    have hm := List.getElem_mem hlt
    have h1 := ih (a := a + 1) (by omega) es[a] hm
    rw [seg_step (by omega) hb, Frame.act_mul]
    have h3 := Vec3.norm_sub_le ((es[a].asFrame (v a)).act ((seg es v (a + 1) b).act p)) es[a].origin e.origin
    have h4 : ((es[a].asFrame (v a)).act ((seg es v (a + 1) b).act p) - es[a].origin).norm =
        ((seg es v (a + 1) b).act p - es[a].origin).norm := by
      have h := rot_dist (hrot _ hm) (hu _ hm) (r := es[a].origin) (t := 0) (by rw [zero_smul, add_zero]) (v a)
        ((seg es v (a + 1) b).act p)
      exact norm_eq_of_sq h
    have h5 := ho es[a] hm e he
    push_cast
    linarith

theorem mapIdx_zip {es : List MatrixExp} {x : List ℝ} (h : x.length = es.length) :
    (es.mapIdx fun j e => e.asFrame (x.getD j 0)) = (es.zip x).map fun p => p.1.asFrame p.2 := by
  apply List.ext_getElem
  · simp [h]
  · intro i h1 h2
    simp at h1
    have : i < x.length := by omega
    simp [List.getD, this]

theorem expProd_seg {es : List MatrixExp} {x : List ℝ} (h : x.length = es.length) :
    Poe.expProd es x = seg es (fun j => x.getD j 0) 0 es.length := by
  unfold seg
  rw [mapIdx_zip h, List.take_of_length_le (by simp), List.drop_zero, Poe.expProd, List.zip, List.map_zipWith]

theorem productWithout_seg {es : List MatrixExp} {x : List ℝ} {C : List ℕ} {m : ℕ} (h : x.length = es.length)
    (hC : ∀ j, j < es.length → (j ∈ C ↔ j < m)) :
    productWithout es x C = seg es (fun j => x.getD j 0) m es.length := by
  unfold seg productWithout
  rw [mapIdx_zip h, List.take_of_length_le (by simp)]
  have key : ∀ (L : List (MatrixExp × ℝ)) (i0 : ℕ), (∀ j, j < L.length → (i0 + j ∈ C ↔ i0 + j < m)) →
      ((L.zipIdx i0).filter fun p => p.2 ∉ C).map (fun p => p.1.1.asFrame p.1.2) =
        (L.map fun p => p.1.asFrame p.2).drop (m - i0) := by
    intro L
    induction L with
    | nil => intro i0 _; simp
    | cons a L ih =>
      intro i0 hj
      have h0 := hj 0 (by simp)
      rw [Nat.add_zero] at h0
      have hr := ih (i0 + 1) (fun j hl => by
        have := hj (j + 1) (by simpa using hl)
        rwa [show i0 + 1 + j = i0 + (j + 1) by omega])
      rw [List.zipIdx_cons]
      by_cases hm : i0 < m
      · rw [List.filter_cons_of_neg (by simpa using h0.mpr hm), hr, show m - i0 = (m - (i0 + 1)) + 1 by omega,
          List.map_cons, List.drop_succ_cons]
      · rw [List.filter_cons_of_pos (by simpa using fun hc => hm (h0.mp hc)), List.map_cons, hr,
          show m - i0 = 0 by omega, show m - (i0 + 1) = 0 by omega, List.drop_zero, List.drop_zero, List.map_cons]
  rw [key (es.zip x) 0 (fun j hj => by
    rw [Nat.zero_add]; exact hC j (by simpa [h] using hj)), Nat.sub_zero]

/-- Values of the POE terms in a joint array: reversed problems store them negated and mirrored. -/
def values (pb : IkProblem) (q : List ℝ) : List ℝ := if pb.reversed then (q.map fun θ => -θ).reverse else q

theorem values_length (pb : IkProblem) (q : List ℝ) : (pb.values q).length = q.length := by
  unfold values; split <;> simp

theorem values_get {pb : IkProblem} {q : List ℝ} (hq : q.length = pb.poe.exps.length) {j : ℕ}
    (hj : j < pb.poe.exps.length) : (pb.values q)[j]? = pb.termValue q j := by
  unfold values termValue
  split
  · rw [List.getElem?_reverse (by simp; omega)]
    simp [hq]
  · rfl

/-- Value of the POE term `j`. -/
def val (pb : IkProblem) (q : List ℝ) (j : ℕ) : ℝ := (pb.values q).getD j 0

theorem val_eq {pb : IkProblem} {q : List ℝ} (hq : q.length = pb.poe.exps.length) {j : ℕ}
    (hj : j < pb.poe.exps.length) {y : ℝ} (h : pb.termValue q j = some y) : pb.val q j = y := by
  rw [val, List.getD, values_get hq hj, h]; rfl

/-- A call for the joints `m, ..., M` in a tidy state: everything to the left is solved, to the
right the solved joints are `M + 1, ..., b - 1`. -/
theorem call_view {pb : IkProblem} {subs : List Subproblem} {T : Frame} {ks : List ℕ} {q : List ℝ} {i : ℕ}
    {flag : Bool} {F H : Frame} {ls : List LocalSol} {l : LocalSol} {C : List ℕ}
    (hc : LocalCall pb subs T ks q i flag F H ls l C) (hq : q.length = pb.poe.exps.length)
    {m M b : ℕ} (hmM : m ≤ M) (hMb : M < b) (hb : b ≤ pb.poe.exps.length)
    (hids : ∀ s, subs[i]? = some s → ∀ j, j ∈ s.ids ↔ m ≤ j ∧ j ≤ M)
    (hfresh : ∀ j, m ≤ j → j ≤ M → j ∉ (subs.take i).flatMap Subproblem.ids)
    (hleft : ∀ j, j < m → j ∈ (subs.take i).flatMap Subproblem.ids)
    (hlast : pb.poe.exps.length - 1 ∉ (subs.take i).flatMap Subproblem.ids)
    (hright : ∀ j, M < j → j < pb.poe.exps.length → (j ∈ (subs.take i).flatMap Subproblem.ids ↔ j < b)) :
    ∃ A : Frame, A.IsRigid ∧ F = A * (pb.goal T * pb.poe.tool.inv) ∧
      A * Poe.expProd pb.poe.exps (pb.values q) = seg pb.poe.exps (pb.val q) m pb.poe.exps.length ∧
      H = seg pb.poe.exps (pb.val q) (M + 1) b := by
  set n := pb.poe.exps.length with hn
  set before := (subs.take i).flatMap Subproblem.ids with hbef
  have hCm : ∀ j, j < m → j ∈ C := by
    intro j
    induction j using Nat.strong_induction_on with
    | _ j ih =>
      intro hj
      by_contra hnC
      exact hc.leading j (by omega) (fun j' hj' => ih j' hj' (by omega)) hnC (hleft j hj)
  have hC : ∀ j, j < n → (j ∈ C ↔ j < m) := by
    intro j hj
    refine ⟨fun hjC => ?_, hCm j⟩
    by_contra hge
    rcases hc.shape j hjC with h | h
    · have : j = n - 1 := by omega
      rw [this] at hjC
      exact hlast (hc.moved _ hjC)
    · have hm : m ∈ C := by
        by_cases hjm : j = m
        · rw [← hjm]; exact hjC
        · exact h m (by omega)
      exact hfresh m le_rfl hmM (hc.moved _ hm)
  obtain ⟨A, B, hA, _, hF, hB, hprod⟩ := hc.equation
  have hB1 : B = 1 := hB fun h => by
    have := (hC (n - 1) (by omega)).mp h
    omega
  rw [hB1, mul_one] at hF
  have hvl : (pb.values q).length = n := by rw [values_length, hq]
  have hp := hprod (pb.values q) hvl (fun c hcC => by
    have := hc.moved c hcC
    apply values_get hq
    by_contra hge
    rcases hc.shape c hcC with h | h
    · omega
    · exact hfresh m le_rfl hmM (hc.moved m (h m (by omega))))
  rw [hB1, mul_one, productWithout_seg hvl hC] at hp
  refine ⟨A, hA, hF, hp.symm, ?_⟩
  obtain ⟨a', b', hab, hb', v, hH, hv1, hv2, S, hS, h1, h2, h3, h4, _⟩ := hc.point
  have hH' : H = seg pb.poe.exps v a' b' := hH
  have hval : ∀ j, M < j → j < b → v j = pb.val q j := by
    intro j h5 h6
    exact (val_eq hq (by omega) (hv1 j (by omega) ((hright j h5 (by omega)).mpr h6))).symm
  have hbelow : ∀ j, j < n → j ∈ before → j < m ∨ (M < j ∧ j < b) := by
    intro j hj hjb
    by_cases hjm : j < m
    · exact Or.inl hjm
    · by_cases hjM : j ≤ M
      · exact absurd hjb (hfresh j (by omega) hjM)
      · exact Or.inr ⟨by omega, (hright j (by omega) hj).mp hjb⟩
  rcases hS with hS | ⟨_, hS⟩
  · subst hS
    by_cases hbM : b = M + 1
    · have : a' = b' := by
        by_contra hne
        obtain ⟨k1, k2⟩ := h1 a' le_rfl (by omega)
        rcases hbelow a' (by omega) k1 with h | h
        · exact k2 (hCm a' h)
        · omega
      rw [hH', seg_nil (by omega), seg_nil (by omega)]
    · have hb1 : b - 1 ∈ before := (hright (b - 1) (by omega) (by omega)).mpr (by omega)
      have hbb : b ≤ b' := by
        by_contra hlt
        have := h2 (b - 1) (by omega) (by omega) hb1
        have := (hC (b - 1) (by omega)).mp this
        omega
      have hne : a' ≠ b' := by
        intro he
        have := h4 he (a' - 1) (by omega)
        have := (hC (a' - 1) (by omega)).mp this
        omega
      have hbe : b' = b := by
        obtain ⟨k1, k2⟩ := h1 (b' - 1) (by omega) (by omega)
        rcases hbelow (b' - 1) (by omega) k1 with h | h
        · exact absurd (hCm _ h) k2
        · omega
      have hae : a' = M + 1 := by
        obtain ⟨k1, k2⟩ := h1 a' le_rfl (by omega)
        rcases hbelow a' (by omega) k1 with h | h
        · exact absurd (hCm _ h) k2
        · by_contra hne'
          have hm1 : a' - 1 ∈ before := (hright (a' - 1) (by omega) (by omega)).mpr (by omega)
          have := (hC (a' - 1) (by omega)).mp (h3 (a' - 1) (by omega) hm1)
          omega
      rw [hH', hbe, hae]
      exact seg_congr fun j h5 h6 => hval j (by omega) h6
  · have hi : i < subs.length := by
      obtain ⟨s, hs, _⟩ := hc.solved
      exact (List.getElem?_eq_some_iff.mp hs).1
    have hS' : ∀ j, j ∈ S ↔ j ∈ before ∨ (m ≤ j ∧ j ≤ M) := by
      intro j
      rw [hS, List.take_succ_eq_append_getElem hi, List.flatMap_append, List.mem_append]
      simp only [List.flatMap_cons, List.flatMap_nil, List.append_nil]
      rw [hids _ (List.getElem?_eq_getElem hi)]
    have hin : ∀ j, m ≤ j → j < b → j ∈ S := by
      intro j h5 h6
      rw [hS']
      by_cases hjM : j ≤ M
      · exact Or.inr ⟨h5, hjM⟩
      · exact Or.inl ((hright j (by omega) (by omega)).mpr h6)
    have hout : ∀ j, j < n → j ∈ S → j ∉ C → m ≤ j ∧ j < b := by
      intro j hj hjS hjC
      rcases (hS' j).mp hjS with h | h
      · rcases hbelow j hj h with h | h
        · exact absurd (hCm j h) hjC
        · omega
      · omega
    have hbb : b ≤ b' := by
      by_contra hlt
      have := (hC (b - 1) (by omega)).mp (h2 (b - 1) (by omega) (by omega) (hin _ (by omega) (by omega)))
      omega
    have hne : a' ≠ b' := by
      intro he
      have := (hC (a' - 1) (by omega)).mp (h4 he (a' - 1) (by omega))
      omega
    have hbe : b' = b := by
      obtain ⟨k1, k2⟩ := h1 (b' - 1) (by omega) (by omega)
      have := hout _ (by omega) k1 k2
      omega
    have hae : a' = m := by
      obtain ⟨k1, k2⟩ := h1 a' le_rfl (by omega)
      have := hout _ (by omega) k1 k2
      by_contra hne'
      have := (hC (a' - 1) (by omega)).mp (h3 (a' - 1) (by omega) (hin _ (by omega) (by omega)))
      omega
    rw [hH', hbe, hae, seg_split (b := M + 1) (by omega) (by omega),
      seg_zero (fun j h5 h6 => hv2 j (by omega) (hfresh j h5 (by omega))) (by omega), one_mul]
    exact seg_congr fun j h5 h6 => hval j (by omega) h6

/-- The error of the whole chain is the error of the local call, up to the drift of the joints
whose axes go through the point. -/
theorem chain_error {es : List MatrixExp} (hu : ∀ e ∈ es, e.Unit) {v : ℕ → ℝ} {A E G F H : Frame} {p : Vec3}
    {m M b : ℕ} (hmM : m ≤ M) (hMb : M < b) (hb : b ≤ es.length) (hA : A.IsRigid) (hF : F = A * G)
    (hE : A * E = seg es v m es.length) (hH : H = seg es v (M + 1) b)
    (hnear : ∀ j e, b ≤ j → es[j]? = some e → e.motion = .rotation ∧ Builder.liesOnAxis e p) :
    (E.act p - G.act p).norm ≤
      ((seg es v m (M + 1)).act (H.act p) - F.act p).norm + es.length * (2 * (√3 * eps)) := by
  have h1 : (E.act p - G.act p).norm = ((seg es v m es.length).act p - F.act p).norm := by
    rw [← hE, hF, Frame.act_mul, Frame.act_mul, hA.dist]
  have h2 : seg es v m es.length = seg es v m (M + 1) * (H * seg es v b es.length) := by
    rw [seg_split (b := M + 1) (by omega) (by omega), seg_split (a := M + 1) (b := b) (by omega) hb, hH]
  rw [h1, h2, Frame.act_mul, Frame.act_mul]
  have h3 := Vec3.norm_sub_le ((seg es v m (M + 1)).act (H.act ((seg es v b es.length).act p)))
    ((seg es v m (M + 1)).act (H.act p)) (F.act p)
  have hHr : H.IsRigid := by rw [hH]; exact seg_rigid hu _ _ _
  rw [(seg_rigid hu _ _ _).dist, hHr.dist] at h3
  have h4 := seg_near hu v (p := p) (δ := √3 * eps) (a := b) (b := es.length) le_rfl (by
    intro j e h5 _ h6
    obtain ⟨k1, k2⟩ := hnear j e h5 h6
    refine ⟨k1, ?_⟩
    have := norm_le_of_equal k2
    rwa [sub_zero] at this)
  have h5 : ((es.length - b : ℕ) : ℝ) * (2 * (√3 * eps)) ≤ es.length * (2 * (√3 * eps)) := by
    apply mul_le_mul_of_nonneg_right
    · exact_mod_cast Nat.sub_le _ _
    · have := eps_pos; positivity
  linarith

/-- Displacing the origin of a rotation displaces the result by at most twice as much. -/
theorem origin_shift {e : MatrixExp} (hm : e.motion = .rotation) (he : e.Unit) (o : Vec3) (θ : ℝ) (y : Vec3) :
    ((e.asFrame θ).act y - (MatrixExp.asFrame ⟨e.motion, e.axis, o⟩ θ).act y).norm ≤ 2 * (o - e.origin).norm := by
  have he' : dot e.axis e.axis = 1 := he
  rw [act_rot hm he, act_rot (e := ⟨e.motion, e.axis, o⟩) hm he]
  have : e.origin + (Mat3.rot2 e.axis θ).mulVec (y - e.origin) -
      (o + (Mat3.rot2 e.axis θ).mulVec (y - o)) =
      (Mat3.rot2 e.axis θ).mulVec (o - e.origin) - (o - e.origin) := by
    ext <;> simp [Mat3.mulVec] <;> ring
  rw [this]
  have h := Vec3.norm_add_le ((Mat3.rot2 e.axis θ).mulVec (o - e.origin)) (-(o - e.origin))
  rw [(Mat3.rot2_isRot he' θ).norm, Vec3.norm_neg, ← sub_eq_add_neg] at h
  linarith

theorem axisRej_le {a : Vec3} (ha : dot a a = 1) (v : Vec3) : (axisRej a v).norm ≤ v.norm := by
  have h := axisRej_norm_sq ha v
  rw [← norm_sq] at h
  refine (sq_le_sq₀ (Vec3.norm_nonneg _) (Vec3.norm_nonneg _)).mp (by nlinarith [sq_nonneg (dot a v)])

/-- Tolerance on the points reached by an arm with `n` joints, with axes and points within
`R` of each other. -/
noncomputable def reachTol (n : ℕ) (R : ℝ) : ℝ := √eps + (5 + 4 * n + (2 * n + 1) * R) * eps

theorem sqrt3_le : √3 ≤ 2 := by
  rw [Real.sqrt_le_left (by norm_num)]; norm_num

/-- Error of a call of the first subproblem. -/
theorem pk1_error {e : MatrixExp} {p : Vec3} {F H : Frame} {id : ℕ} (hm : e.motion = .rotation) (he : e.Unit)
    {ls : List LocalSol} (h : pk1 id e p F H = some (true, ls)) {l : LocalSol} (hl : l ∈ ls) {D : ℝ}
    (hD : (H.act p - e.origin).norm ≤ D) :
    ∃ φ, l = [(id, φ)] ∧ ((e.asFrame φ).act (H.act p) - F.act p).norm ≤ (3 + D) * eps := by
  obtain ⟨φ, hs, hb⟩ := C08_pk1_success_bound id e p F H hm he ls h
  rw [hs] at hl
  refine ⟨φ, by simpa using hl, hb.trans ?_⟩
  have h1 := (axisRej_le he (H.act p - e.origin)).trans hD
  have := sqrt3_le
  exact mul_le_mul_of_nonneg_right (by linarith) eps_pos.le

/-- Error of a call of the second subproblem. -/
theorem pk2_error {e1 e2 : MatrixExp} {p r : Vec3} {F H : Frame} {id1 id2 : ℕ} (m1 : e1.motion = .rotation)
    (m2 : e2.motion = .rotation) (u1 : e1.Unit) (u2 : e2.Unit) (hpar : ¬ Builder.parallelAxes e2 e1)
    (hr : Builder.intersectingAxes e2 e1 = some r)
    {ls : List LocalSol} (h : pk2 id1 id2 e1 e2 p r F H = some (true, ls)) {l : LocalSol} (hl : l ∈ ls) {D R : ℝ}
    (hD : (H.act p - e2.origin).norm ≤ D) (hR : (e2.origin - e1.origin).norm ≤ R) :
    ∃ φ1 φ2, l = [(id1, φ1), (id2, φ2)] ∧
      ((e1.asFrame φ1).act ((e2.asFrame φ2).act (H.act p)) - F.act p).norm ≤ √eps + (5 + 2 * D + R) * eps := by
  -- a first axis that meets the second one exactly
  have hx : ∃ (o : Vec3) (s t : ℝ), r = o + s • e1.axis ∧ r = e2.origin + t • e2.axis ∧ (o - e1.origin).norm ≤ √3 * eps := by
    unfold Builder.intersectingAxes at hr
    simp only [] at hr
    split at hr
    · rename_i heq
      have hr' := Option.some.inj hr
      set t := dot (cross e2.axis e1.axis) (cross (e1.origin - e2.origin) e1.axis) / (cross e2.axis e1.axis).norm ^ 2
      set s := dot (cross e2.axis e1.axis) (cross (e1.origin - e2.origin) e2.axis) / (cross e2.axis e1.axis).norm ^ 2
      refine ⟨r - s • e1.axis, s, t, by rw [sub_add_cancel], hr'.symm, ?_⟩
      have h1 := norm_le_of_equal heq
      rw [hr'] at h1
      rwa [show r - s • e1.axis - e1.origin = r - (e1.origin + s • e1.axis) by rw [sub_sub, add_comm]]
    · cases hr
  obtain ⟨o, s, t, ho, ht, hoe⟩ := hx
  have hne : cross e1.axis e2.axis ≠ 0 := by
    intro hc
    apply hpar
    unfold Builder.parallelAxes
    have : cross e2.axis e1.axis = 0 := by
      have h0 := congrArg (fun v : Vec3 => -v) hc
      ext
      · have := congrArg Vec3.x hc; simp [cross] at this ⊢; linarith
      · have := congrArg Vec3.y hc; simp [cross] at this ⊢; linarith
      · have := congrArg Vec3.z hc; simp [cross] at this ⊢; linarith
    rw [this]; exact Vec3.Equal.refl 0
  have h' : pk2 id1 id2 ⟨e1.motion, e1.axis, o⟩ e2 p r F H = some (true, ls) := h
  obtain ⟨φ11, φ21, φ12, φ22, ψ11, ψ21, ψ12, ψ22, hs, a11, a21, a12, a22, b1, b2⟩ :=
    C09_pk2_success_bound id1 id2 ⟨e1.motion, e1.axis, o⟩ e2 p r F H m1 m2 u1 u2 s t ho ht hne ls h'
  have key : ∀ φ1 φ2 ψ1 ψ2 : ℝ, SameAngle φ1 ψ1 → SameAngle φ2 ψ2 →
      ((MatrixExp.asFrame ⟨e1.motion, e1.axis, o⟩ ψ1).act ((e2.asFrame ψ2).act (H.act p)) - F.act p).norm
        < √eps + eps →
      ((e1.asFrame φ1).act ((e2.asFrame φ2).act (H.act p)) - F.act p).norm ≤ √eps + (5 + 2 * D + R) * eps := by
    intro φ1 φ2 ψ1 ψ2 h1 h2 h3
    set y := H.act p with hy
    have k2 := (h2.act m2 u2 y).1
    have k1 := (h1.act m1 u1 ((e2.asFrame ψ2).act y)).1
    have k3 := origin_shift m1 u1 o ψ1 ((e2.asFrame ψ2).act y)
    have d2 := (axisRej_le u2 (y - e2.origin)).trans hD
    have d1 : (axisRej e1.axis ((e2.asFrame ψ2).act y - e1.origin)).norm ≤ D + R := by
      refine (axisRej_le u1 _).trans ?_
      refine (Vec3.norm_sub_le _ e2.origin _).trans ?_
      have : ((e2.asFrame ψ2).act y - e2.origin).norm = (y - e2.origin).norm :=
        norm_eq_of_sq (rot_dist m2 u2 (r := e2.origin) (t := 0) (by rw [zero_smul, add_zero]) ψ2 y)
      linarith
    have k2' := mul_le_mul_of_nonneg_left d2 eps_pos.le
    have k1' := mul_le_mul_of_nonneg_left d1 eps_pos.le
    have t1 := Vec3.norm_sub_le ((e1.asFrame φ1).act ((e2.asFrame φ2).act y))
      ((e1.asFrame φ1).act ((e2.asFrame ψ2).act y)) (F.act p)
    rw [(MatrixExp.asFrame_rigid u1 φ1).dist] at t1
    have t2 := Vec3.norm_sub_le ((e1.asFrame φ1).act ((e2.asFrame ψ2).act y))
      ((e1.asFrame ψ1).act ((e2.asFrame ψ2).act y)) (F.act p)
    have t3 := Vec3.norm_sub_le ((e1.asFrame ψ1).act ((e2.asFrame ψ2).act y))
      ((MatrixExp.asFrame ⟨e1.motion, e1.axis, o⟩ ψ1).act ((e2.asFrame ψ2).act y)) (F.act p)
    have hs3 : √3 * eps ≤ 2 * eps := mul_le_mul_of_nonneg_right sqrt3_le eps_pos.le
    nlinarith
  rw [hs] at hl
  simp only [List.mem_cons, List.not_mem_nil, or_false] at hl
  rcases hl with rfl | rfl
  · exact ⟨φ11, φ21, rfl, key _ _ _ _ a11 a21 b1⟩
  · exact ⟨φ12, φ22, rfl, key _ _ _ _ a12 a22 b2⟩

theorem cross_norm_le (a b : Vec3) : (cross a b).norm ≤ a.norm * b.norm := by
  refine (sq_le_sq₀ (Vec3.norm_nonneg _) (mul_nonneg (Vec3.norm_nonneg _) (Vec3.norm_nonneg _))).mp ?_
  rw [norm_sq, lagrange, mul_pow, norm_sq, norm_sq]
  nlinarith [sq_nonneg (dot a b)]

theorem abs_dot_le (a b : Vec3) : |dot a b| ≤ a.norm * b.norm := by
  rw [abs_le]
  constructor
  · have := dot_le_norm_mul (-a) b
    rw [dot_neg_left, Vec3.norm_neg] at this
    linarith
  · exact dot_le_norm_mul a b

/-- Rigid transforms that nearly agree on three points not in a line nearly agree on directions. -/
theorem three_points {E G : Frame} (hE : E.IsRigid) (hG : G.IsRigid) {p0 p1 p2 : Vec3} {δ : ℝ}
    (h0 : (E.act p0 - G.act p0).norm ≤ δ) (h1 : (E.act p1 - G.act p1).norm ≤ δ)
    (h2 : (E.act p2 - G.act p2).norm ≤ δ) (hc : cross (p1 - p0) (p2 - p0) ≠ 0) (d : Vec3) :
    (E.M.mulVec d - G.M.mulVec d).norm ≤
      4 * δ * (((p1 - p0).norm + (p2 - p0).norm) / (cross (p1 - p0) (p2 - p0)).norm) * d.norm := by
  set u := p1 - p0 with hu
  set v := p2 - p0 with hv
  set c := cross u v with hcd
  have hc0 : 0 < c.norm := by
    rcases (Vec3.norm_nonneg c).lt_or_eq with h | h
    · exact h
    · exact absurd (Vec3.norm_eq_zero h.symm) hc
  have hδ : 0 ≤ δ := (Vec3.norm_nonneg _).trans h0
  have hdiff : ∀ p, (E.act p - G.act p).norm ≤ δ →
      (E.M.mulVec (p - p0) - G.M.mulVec (p - p0)).norm ≤ 2 * δ := by
    intro p hp
    rw [← Frame.act_sub, ← Frame.act_sub]
    have : E.act p - E.act p0 - (G.act p - G.act p0) = (E.act p - G.act p) + -(E.act p0 - G.act p0) := by abel
    rw [this]
    refine (Vec3.norm_add_le _ _).trans ?_
    rw [Vec3.norm_neg]; linarith
  have du := hdiff p1 h1
  have dv := hdiff p2 h2
  rw [← hu] at du
  rw [← hv] at dv
  have dc : (E.M.mulVec c - G.M.mulVec c).norm ≤ 2 * δ * (u.norm + v.norm) := by
    rw [hcd, ← Mat3.IsRot.cross hE, ← Mat3.IsRot.cross hG]
    have : cross (E.M.mulVec u) (E.M.mulVec v) - cross (G.M.mulVec u) (G.M.mulVec v) =
        cross (E.M.mulVec u - G.M.mulVec u) (E.M.mulVec v) +
          cross (G.M.mulVec u) (E.M.mulVec v - G.M.mulVec v) := by
      ext <;> simp only [cross_x, cross_y, cross_z, sub_x, sub_y, sub_z, add_x, add_y, add_z] <;> ring
    rw [this]
    refine (Vec3.norm_add_le _ _).trans ?_
    have a1 := cross_norm_le (E.M.mulVec u - G.M.mulVec u) (E.M.mulVec v)
    have a2 := cross_norm_le (G.M.mulVec u) (E.M.mulVec v - G.M.mulVec v)
    rw [Mat3.IsRot.norm hE] at a1
    rw [Mat3.IsRot.norm hG] at a2
    have b1 := mul_le_mul_of_nonneg_right du (Vec3.norm_nonneg v)
    have b2 := mul_le_mul_of_nonneg_left dv (Vec3.norm_nonneg u)
    linarith
  have hdec : dot c c • d = dot d (cross v c) • u + (dot d (cross c u) • v + dot d c • c) := by
    rw [hcd]
    ext <;> simp only [dot, cross_x, cross_y, cross_z, add_x, add_y, add_z, smul_x, smul_y, smul_z] <;> ring
  have hlin : dot c c • (E.M.mulVec d - G.M.mulVec d) =
      dot d (cross v c) • (E.M.mulVec u - G.M.mulVec u) +
        (dot d (cross c u) • (E.M.mulVec v - G.M.mulVec v) + dot d c • (E.M.mulVec c - G.M.mulVec c)) := by
    rw [smul_sub, ← Mat3.mulVec_smul, ← Mat3.mulVec_smul, hdec]
    simp only [Mat3.mulVec_add, Mat3.mulVec_smul, smul_sub]
    abel
  have hn := congrArg Vec3.norm hlin
  rw [Vec3.norm_smul, abs_of_nonneg (dot_self_nonneg c), ← norm_sq] at hn
  have t1 := Vec3.norm_add_le (dot d (cross v c) • (E.M.mulVec u - G.M.mulVec u))
    (dot d (cross c u) • (E.M.mulVec v - G.M.mulVec v) + dot d c • (E.M.mulVec c - G.M.mulVec c))
  have t2 := Vec3.norm_add_le (dot d (cross c u) • (E.M.mulVec v - G.M.mulVec v))
    (dot d c • (E.M.mulVec c - G.M.mulVec c))
  rw [Vec3.norm_smul] at t1
  rw [Vec3.norm_smul, Vec3.norm_smul] at t2
  have nd := Vec3.norm_nonneg d
  have nu := Vec3.norm_nonneg u
  have nv := Vec3.norm_nonneg v
  have s1 : |dot d (cross v c)| * (E.M.mulVec u - G.M.mulVec u).norm ≤ d.norm * (v.norm * c.norm) * (2 * δ) :=
    mul_le_mul ((abs_dot_le _ _).trans (mul_le_mul_of_nonneg_left (cross_norm_le v c) nd)) du
      (Vec3.norm_nonneg _) (by positivity)
  have s2 : |dot d (cross c u)| * (E.M.mulVec v - G.M.mulVec v).norm ≤ d.norm * (c.norm * u.norm) * (2 * δ) :=
    mul_le_mul ((abs_dot_le _ _).trans (mul_le_mul_of_nonneg_left (cross_norm_le c u) nd)) dv
      (Vec3.norm_nonneg _) (by positivity)
  have s3 : |dot d c| * (E.M.mulVec c - G.M.mulVec c).norm ≤ d.norm * c.norm * (2 * δ * (u.norm + v.norm)) :=
    mul_le_mul (abs_dot_le _ _) dc (Vec3.norm_nonneg _) (by positivity)
  have hfin : c.norm ^ 2 * (E.M.mulVec d - G.M.mulVec d).norm ≤
      c.norm ^ 2 * (4 * δ * ((u.norm + v.norm) / c.norm) * d.norm) := by
    have : c.norm ^ 2 * (4 * δ * ((u.norm + v.norm) / c.norm) * d.norm) =
        4 * δ * (u.norm + v.norm) * c.norm * d.norm := by field_simp
    rw [this]
    nlinarith
  exact le_of_mul_le_mul_left hfin (by positivity)

end IkProblem

end KD
