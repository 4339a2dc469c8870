import Verif.Screw.BuilderLemmas
import Verif.Screw.SubproblemLemmas

/-! # Lemmas on the simplification of POE terms by the IK problem builder -/

namespace KD

open Vec3

open scoped Classical

/-- Product of the exponentials of the terms that have not been simplified, in order. -/
noncomputable def kept : List (MatrixExp × Builder.PoeTerm) → List ℝ → Frame
  | (e, t) :: l, θ :: x => if t.simplified then kept l x else e.asFrame θ * kept l x
  | _, _ => 1

namespace Builder

theorem kept_append {l1 l2 : List (MatrixExp × PoeTerm)} {x1 x2 : List ℝ}
    (h : l1.length = x1.length) : kept (l1 ++ l2) (x1 ++ x2) = kept l1 x1 * kept l2 x2 := by
  induction l1 generalizing x1 with
  | nil =>
    cases x1 with
    | nil => simp [kept]
    | cons => simp at h
  | cons a l1 ih =>
    cases x1 with
    | nil => simp at h
    | cons θ x1 =>
      have := ih (x1 := x1) (by simpa using h)
      simp only [List.cons_append, kept]
      split
      · exact this
      · rw [this, mul_assoc]

theorem kept_split {l : List (MatrixExp × PoeTerm)} {x : List ℝ} (h : l.length = x.length) (a : ℕ) :
    kept l x = kept (l.take a) (x.take a) * kept (l.drop a) (x.drop a) := by
  conv_lhs => rw [← List.take_append_drop a l, ← List.take_append_drop a x]
  exact kept_append (by simp [h])

theorem kept_simplified {l : List (MatrixExp × PoeTerm)} (h : ∀ a ∈ l, a.2.simplified = true)
    (x : List ℝ) : kept l x = 1 := by
  induction l generalizing x with
  | nil => simp [kept]
  | cons a l ih =>
    cases x with
    | nil => simp [kept]
    | cons θ x =>
      simp only [kept]
      rw [if_pos (h a List.mem_cons_self)]
      exact ih (fun b hb => h b (List.mem_cons_of_mem _ hb)) x

theorem kept_rigid {l : List (MatrixExp × PoeTerm)} (h : ∀ a ∈ l, a.1.Unit) (x : List ℝ) :
    (kept l x).IsRigid := by
  induction l generalizing x with
  | nil => simpa [kept] using Frame.IsRigid.one
  | cons a l ih =>
    cases x with
    | nil => simpa [kept] using Frame.IsRigid.one
    | cons θ x =>
      simp only [kept]
      have := ih (fun b hb => h b (List.mem_cons_of_mem _ hb)) x
      split
      · exact this
      · exact (MatrixExp.asFrame_rigid (h a List.mem_cons_self) θ).mul this

/-- How far a rotation moves a point next to its axis. -/
theorem rot_near {e : MatrixExp} (hm : e.motion = .rotation) (he : e.Unit) (θ : ℝ) (p : Vec3) :
    ((e.asFrame θ).act p - p).norm ≤ 2 * (cross (p - e.origin) e.axis).norm := by
  have he' : dot e.axis e.axis = 1 := he
  rw [act_rot hm he]
  set v := p - e.origin with hv
  have h1 : e.origin + (Mat3.rot2 e.axis θ).mulVec v - p =
      (Mat3.rot2 e.axis θ).mulVec (axisRej e.axis v) - axisRej e.axis v := by
    rw [rot_decomp he' θ v]
    have : p = e.origin + (axisRej e.axis v + dot e.axis v • e.axis) := by
      rw [← axisRej_decomp, hv]; abel
    conv_lhs => rw [this]
    abel
  have h2 : (axisRej e.axis v).norm = (cross v e.axis).norm := by
    apply norm_eq_of_sq
    rw [← norm_sq, axisRej_norm_sq he', lagrange, he', dot_comm v e.axis]; ring
  rw [h1, ← h2]
  have := Vec3.norm_add_le ((Mat3.rot2 e.axis θ).mulVec (axisRej e.axis v)) (-axisRej e.axis v)
  rw [(Mat3.rot2_isRot he' θ).norm, Vec3.norm_neg, ← sub_eq_add_neg] at this
  linarith

/-- The same for a product of such rotations. -/
theorem kept_near {l : List (MatrixExp × PoeTerm)} {p : Vec3} {δ : ℝ} (hδ : 0 ≤ δ)
    (h : ∀ a ∈ l, a.1.motion = .rotation ∧ a.1.Unit ∧ (cross (p - a.1.origin) a.1.axis).norm ≤ δ)
    (x : List ℝ) : ((kept l x).act p - p).norm ≤ l.length * (2 * δ) := by
  induction l generalizing x with
  | nil => simp [kept]
  | cons a l ih =>
    cases x with
    | nil =>
      simp only [kept, Frame.act_one, sub_self, Vec3.norm_zero]
      positivity
    | cons θ x =>
      obtain ⟨h1, h2, h3⟩ := h a List.mem_cons_self
      have ih' := ih (fun b hb => h b (List.mem_cons_of_mem _ hb)) x
      have hlen : ((a :: l).length : ℝ) = l.length + 1 := by simp
      rw [hlen]
      simp only [kept]
      split
      · linarith
      · rw [Frame.act_mul]
        have t1 := Vec3.norm_sub_le ((a.1.asFrame θ).act ((kept l x).act p)) ((a.1.asFrame θ).act p) p
        rw [(MatrixExp.asFrame_rigid h2 θ).dist] at t1
        have t2 := rot_near h1 h2 θ p
        linarith

theorem markFromUnknown_split (p : Vec3) (l : List (MatrixExp × PoeTerm)) :
    ∃ l1 l2 l3, l = l1 ++ (l2 ++ l3) ∧ (∀ a ∈ l1, a.2.known = true) ∧
      (∀ a ∈ l2, a.1.motion = .rotation ∧ liesOnAxis a.1 p) ∧
      markFromUnknown p l =
        l1.map Prod.snd ++ (l2.map (fun a => ⟨a.2.known, true⟩) ++ l3.map Prod.snd) := by
  have hw : ∀ l, ∃ l2 l3, l = l2 ++ l3 ∧ (∀ a ∈ l2, a.1.motion = .rotation ∧ liesOnAxis a.1 p) ∧
      markWhileOnAxis p l = l2.map (fun a => ⟨a.2.known, true⟩) ++ l3.map Prod.snd := by
    intro l
    induction l with
    | nil => exact ⟨[], [], rfl, by simp, rfl⟩
    | cons a l ih =>
      obtain ⟨l2, l3, h1, h2, h3⟩ := ih
      simp only [markWhileOnAxis]
      split
      · rename_i hc
        refine ⟨a :: l2, l3, by simp [h1], ?_, by simp [h3]⟩
        intro b hb
        rcases List.mem_cons.mp hb with rfl | hb
        · exact hc
        · exact h2 b hb
      · exact ⟨[], a :: l, rfl, by simp, by simp⟩
  induction l with
  | nil => exact ⟨[], [], [], rfl, by simp, by simp, rfl⟩
  | cons a l ih =>
    obtain ⟨l1, l2, l3, h1, h2, h3, h4⟩ := ih
    simp only [markFromUnknown]
    split
    · obtain ⟨m2, m3, g1, g2, g3⟩ := hw (a :: l)
      exact ⟨[], m2, m3, by simpa using g1, by simp, g2, by simpa using g3⟩
    · rename_i hc
      refine ⟨a :: l1, l2, l3, by simp [h1], ?_, h3, by simp [h4]⟩
      intro b hb
      rcases List.mem_cons.mp hb with rfl | hb
      · simpa [PoeTerm.isUnknown] using hc
      · exact h2 b hb

theorem zip_eq_map {es : List MatrixExp} {ts : List PoeTerm} (h : ts.length = es.length) :
    es = (es.zip ts).map Prod.fst := by
  rw [List.map_fst_zip (by omega)]

/-- What the simplification from the right does: known terms, then a run of rotations about axes
through the point, then the rest. -/
theorem simplifyPK1_split {es : List MatrixExp} {ts : List PoeTerm} (h : ts.length = es.length)
    (p : Vec3) :
    ∃ l3 l2 l1, es.zip ts = l3 ++ (l2 ++ l1) ∧ (∀ a ∈ l1, a.2.known = true) ∧
      (∀ a ∈ l2, a.1.motion = .rotation ∧ liesOnAxis a.1 p) ∧
      es.zip (simplifyPK1 es p ts) = l3 ++ (l2.map (fun a => (a.1, ⟨a.2.known, true⟩)) ++ l1) ∧
      simplifyPK1 es p ts = l3.map Prod.snd ++ (l2.map (fun a => ⟨a.2.known, true⟩) ++ l1.map Prod.snd) := by
  obtain ⟨l1, l2, l3, h1, h2, h3, h4⟩ := markFromUnknown_split p (es.zip ts).reverse
  have hz : es.zip ts = l3.reverse ++ (l2.reverse ++ l1.reverse) := by
    have := congrArg List.reverse h1
    simpa using this
  have hs : simplifyPK1 es p ts = l3.reverse.map Prod.snd ++
      (l2.reverse.map (fun a => ⟨a.2.known, true⟩) ++ l1.reverse.map Prod.snd) := by
    simp [simplifyPK1, h4]
  refine ⟨l3.reverse, l2.reverse, l1.reverse, hz, by simpa using h2, by simpa using h3, ?_, hs⟩
  have he : es = l3.reverse.map Prod.fst ++ (l2.reverse.map Prod.fst ++ l1.reverse.map Prod.fst) := by
    conv_lhs => rw [zip_eq_map h, hz]
    simp
  have hmap : ∀ l : List (MatrixExp × PoeTerm), (l.map Prod.fst).zip (l.map Prod.snd) = l := by
    intro l; rw [List.zip_map']; simp
  rw [hs]
  conv_lhs => rw [he]
  rw [List.zip_append (by simp), List.zip_append (by simp), hmap, hmap, List.zip_map']

theorem simplifyPK3_split {es : List MatrixExp} {ts : List PoeTerm} (h : ts.length = es.length)
    (p : Vec3) :
    ∃ l1 l2 l3, es.zip ts = l1 ++ (l2 ++ l3) ∧ (∀ a ∈ l1, a.2.known = true) ∧
      (∀ a ∈ l2, a.1.motion = .rotation ∧ liesOnAxis a.1 p) ∧
      es.zip (simplifyPK3 es p ts) = l1 ++ (l2.map (fun a => (a.1, ⟨a.2.known, true⟩)) ++ l3) := by
  obtain ⟨l1, l2, l3, h1, h2, h3, h4⟩ := markFromUnknown_split p (es.zip ts)
  refine ⟨l1, l2, l3, h1, h2, h3, ?_⟩
  have he : es = l1.map Prod.fst ++ (l2.map Prod.fst ++ l3.map Prod.fst) := by
    conv_lhs => rw [zip_eq_map h, h1]
    simp
  have hmap : ∀ l : List (MatrixExp × PoeTerm), (l.map Prod.fst).zip (l.map Prod.snd) = l := by
    intro l; rw [List.zip_map']; simp
  unfold simplifyPK3
  rw [h4]
  conv_lhs => rw [he]
  rw [List.zip_append (by simp), List.zip_append (by simp), hmap, hmap, List.zip_map']

theorem markLeading_append {a b : List PoeTerm} (h : ∀ t ∈ a, t.known = true) :
    markLeading (a ++ b) = a.map (fun t => ⟨t.known, true⟩) ++ markLeading b := by
  induction a with
  | nil => rfl
  | cons t a ih =>
    simp only [List.cons_append, markLeading, h t List.mem_cons_self, if_true, List.map_cons]
    rw [ih (fun u hu => h u (List.mem_cons_of_mem _ hu))]

theorem markLeading_mono {ts : List PoeTerm} {i : ℕ} {t t' : PoeTerm} (h : ts[i]? = some t)
    (h' : (markLeading ts)[i]? = some t') (hs : t.simplified = true) : t'.simplified = true := by
  induction ts generalizing i with
  | nil => simp at h
  | cons u ts ih =>
    simp only [markLeading] at h'
    split at h'
    · cases i with
      | zero => simp at h'; rw [← h']
      | succ i => exact ih (by simpa using h) (by simpa using h')
    · rw [h] at h'; cases h'; exact hs

theorem markLeading_length (ts : List PoeTerm) : (markLeading ts).length = ts.length := by
  have := congrArg List.length (markLeading_knowns ts)
  simpa [knowns] using this

theorem known_of_knowns {a b : List PoeTerm} (h : knowns a = knowns b)
    (hb : ∀ t ∈ b, t.known = true) : ∀ t ∈ a, t.known = true := by
  intro t ht
  have : t.known ∈ knowns a := List.mem_map.mpr ⟨t, ht, rfl⟩
  rw [h] at this
  obtain ⟨u, hu, he⟩ := List.mem_map.mp this
  rw [← he]; exact hb u hu

/-- Known terms at the right end are marked by `refresh`. -/
theorem refresh_trailing {ts A B : List PoeTerm} (h : refresh ts = A ++ B)
    (hB : ∀ t ∈ B, t.known = true) : ∀ t ∈ B, t.simplified = true := by
  set M := markLeading (ts.map fun t => (⟨t.known, false⟩ : PoeTerm)) with hM
  have h1 : markLeading M.reverse = B.reverse ++ A.reverse := by
    have := congrArg List.reverse h
    rw [refresh, List.reverse_reverse, List.reverse_append] at this
    exact this
  have hsplit := (List.take_append_drop B.length M.reverse).symm
  have hk : knowns (M.reverse.take B.length) = knowns B.reverse := by
    have := congrArg (List.take B.length) ((markLeading_knowns M.reverse).symm.trans (congrArg knowns h1))
    rw [knowns, knowns, List.map_append, List.take_append_of_le_length (by simp),
      ← List.map_take] at this
    rw [knowns, this, knowns]
    simp
  have hkn := known_of_knowns hk (by simpa using hB)
  rw [hsplit, markLeading_append hkn] at h1
  have hlen : (M.reverse.take B.length).length = B.reverse.length := by
    have := congrArg List.length hk
    simpa [knowns] using this
  have := List.append_inj_left h1 (by simpa using hlen)
  intro t ht
  have ht' : t ∈ B.reverse := by simpa using ht
  rw [← this] at ht'
  obtain ⟨u, _, rfl⟩ := List.mem_map.mp ht'
  rfl

/-- Known terms at the left end are marked by `refresh`. -/
theorem refresh_leading {ts A B : List PoeTerm} (h : refresh ts = A ++ B)
    (hA : ∀ t ∈ A, t.known = true) : ∀ t ∈ A, t.simplified = true := by
  set T := ts.map fun t => (⟨t.known, false⟩ : PoeTerm) with hT
  have hlen : (refresh ts).length = T.length := by
    have := congrArg List.length (refresh_knowns ts)
    simpa [knowns, hT] using this
  have hlA : A.length ≤ T.length := by rw [← hlen, h]; simp
  have hkT : knowns T = knowns ts := by simp [hT, knowns]
  have hk : knowns (T.take A.length) = knowns A := by
    have := (refresh_knowns ts).symm.trans (congrArg knowns h)
    rw [← hkT] at this
    have := congrArg (List.take A.length) this
    rw [knowns, knowns, List.map_append, List.take_append_of_le_length (by simp),
      ← List.map_take] at this
    rw [knowns, this, knowns]
    simp
  have hkn := known_of_knowns hk hA
  have hM : markLeading T = (T.take A.length).map (fun t => ⟨t.known, true⟩) ++
      markLeading (T.drop A.length) := by
    conv_lhs => rw [← List.take_append_drop A.length T]
    exact markLeading_append hkn
  intro t ht
  obtain ⟨i, hi, rfl⟩ := List.getElem_of_mem ht
  have hr : (refresh ts)[i]? = some A[i] := by
    rw [h, List.getElem?_append_left hi, List.getElem?_eq_getElem hi]
  have hml := markLeading_length T
  have hmi : ∃ u, (markLeading T)[i]? = some u ∧ u.simplified = true := by
    rw [hM, List.getElem?_append_left (by simp; omega), List.getElem?_map]
    have : i < (T.take A.length).length := by simp; omega
    rw [List.getElem?_eq_getElem this]
    exact ⟨_, rfl, rfl⟩
  obtain ⟨u, hu, hus⟩ := hmi
  have hlast : i < (markLeading T).reverse.length := by simp; omega
  have hrev : (markLeading T).reverse[T.length - 1 - i]? = some u := by
    rw [List.getElem?_reverse (by omega), hml, ← hu]
    congr 1
    omega
  have hrev' : (markLeading (markLeading T).reverse)[T.length - 1 - i]? = some A[i] := by
    rw [← hr, refresh, ← hT, List.getElem?_reverse (by rw [markLeading_length]; simpa using hlast),
      markLeading_length, List.length_reverse, hml]
  exact markLeading_mono hrev hrev' hus

/-- In the refreshed state only known terms are marked. -/
theorem refresh_simplified_known {ts : List PoeTerm} : ∀ t ∈ refresh ts, t.simplified = true →
    t.known = true := by
  have key : ∀ l : List PoeTerm, (∀ t ∈ l, t.simplified = true → t.known = true) →
      ∀ t ∈ markLeading l, t.simplified = true → t.known = true := by
    intro l
    induction l with
    | nil => intro _ t ht; simp [markLeading] at ht
    | cons u l ih =>
      intro h t ht hs
      simp only [markLeading] at ht
      split at ht
      · rename_i hu
        rcases List.mem_cons.mp ht with rfl | ht
        · exact hu
        · exact ih (fun v hv => h v (List.mem_cons_of_mem _ hv)) t ht hs
      · exact h t ht hs
  intro t ht
  rw [refresh, List.mem_reverse] at ht
  refine key _ ?_ t ht
  intro u hu
  rw [List.mem_reverse] at hu
  refine key _ ?_ u hu
  intro v hv
  obtain ⟨w, _, rfl⟩ := List.mem_map.mp hv
  intro h; simp at h

theorem refresh_length (ts : List PoeTerm) : (refresh ts).length = ts.length := by
  have := congrArg List.length (refresh_knowns ts)
  simpa [knowns] using this

theorem simplifyPK1_length {es : List MatrixExp} {ts : List PoeTerm} (p : Vec3)
    (h : ts.length = es.length) : (simplifyPK1 es p ts).length = ts.length := by
  have := congrArg List.length (simplifyPK1_knowns p h)
  simpa [knowns] using this

/-- Left of an open term everything is as `refresh` left it; if none of that is open, all of
it is simplified. -/
theorem left_simplified {es : List MatrixExp} {ts : List PoeTerm} (h : ts.length = es.length)
    (p : Vec3) {s : ℕ} {t : PoeTerm} (hs : (simplifyPK1 es p (refresh ts))[s]? = some t)
    (ho : t.open_ = true)
    (hl : ∀ j u, j < s → (simplifyPK1 es p (refresh ts))[j]? = some u → u.open_ = false) :
    ∀ j u, j < s → (simplifyPK1 es p (refresh ts))[j]? = some u → u.simplified = true := by
  have hr : (refresh ts).length = es.length := by rw [refresh_length, h]
  obtain ⟨l3, l2, l1, h1, h2, h3, h4, h5⟩ := simplifyPK1_split hr p
  have hlt : s < l3.length := by
    by_contra hge
    have hmem : t ∈ (l2.map (fun a => (⟨a.2.known, true⟩ : PoeTerm)) ++ l1.map Prod.snd) := by
      rw [h5, List.getElem?_append_right (by simpa using hge)] at hs
      exact List.mem_of_getElem? hs
    rcases List.mem_append.mp hmem with hm | hm
    · obtain ⟨a, _, rfl⟩ := List.mem_map.mp hm
      simp [PoeTerm.open_] at ho
    · obtain ⟨a, ha, rfl⟩ := List.mem_map.mp hm
      simp [PoeTerm.open_, h2 a ha] at ho
  have hsame : ∀ j, j < l3.length → (simplifyPK1 es p (refresh ts))[j]? = (refresh ts)[j]? := by
    intro j hj
    have hrs : refresh ts = (l3 ++ (l2 ++ l1)).map Prod.snd := by
      rw [← h1, List.map_snd_zip (by omega)]
    rw [h5, List.getElem?_append_left (by simpa using hj), hrs, List.map_append,
      List.getElem?_append_left (by simpa using hj)]
  have hall : ∀ u ∈ (refresh ts).take s, u.known = true := by
    intro u hu
    obtain ⟨j, hj, rfl⟩ := List.getElem_of_mem hu
    have hjs : j < s := by simp at hj; omega
    have hjr : (refresh ts)[j]? = some ((refresh ts).take s)[j] := by
      rw [← List.getElem?_eq_getElem hj, List.getElem?_take, if_pos hjs]
    have hno := hl j _ hjs ((hsame j (by omega)).trans hjr)
    cases hk : (((refresh ts).take s)[j]).known with
    | true => rfl
    | false =>
      have hsim : (((refresh ts).take s)[j]).simplified = true := by
        cases hsi : (((refresh ts).take s)[j]).simplified with
        | true => rfl
        | false => rw [PoeTerm.open_, hk, hsi] at hno; simp at hno
      have := refresh_simplified_known _ (List.mem_of_getElem? hjr) hsim
      rw [hk] at this; exact this
  have hlead := refresh_leading (List.take_append_drop s (refresh ts)).symm hall
  intro j u hj hu
  rw [hsame j (by omega)] at hu
  apply hlead
  have : ((refresh ts).take s)[j]? = some u := by rw [List.getElem?_take, if_pos hj, hu]
  exact List.mem_of_getElem? this

/-! ### Motions along a plane -/

/-- The motion keeps the height of points over the planes normal to `a`. -/
def Along (a : Vec3) (e : MatrixExp) : Prop :=
  match e.motion with
  | .rotation => cross a e.axis = 0
  | .translation => dot a e.axis = 0

theorem parallel_eq {a b : Vec3} (hb : dot b b = 1) (h : cross a b = 0) : a = dot a b • b := by
  have := cross_cross b a b
  rw [h, cross_zero, hb, dot_comm b a] at this
  have hx := congrArg Vec3.x this
  have hy := congrArg Vec3.y this
  have hz := congrArg Vec3.z this
  ext <;> simp at hx hy hz ⊢ <;> linarith

theorem along_act {a : Vec3} {e : MatrixExp} (he : e.Unit) (h : Along a e) (θ : ℝ) (y : Vec3) :
    dot a ((e.asFrame θ).act y) = dot a y := by
  unfold Along at h
  cases hm : e.motion with
  | rotation =>
    rw [hm] at h
    rw [act_rot hm he]
    have he' : dot e.axis e.axis = 1 := he
    have hp := parallel_eq he' h
    have h1 : dot a ((Mat3.rot2 e.axis θ).mulVec (y - e.origin)) = dot a (y - e.origin) := by
      rw [hp, dot_smul_left, dot_smul_left, dot_axis_rot he']
    rw [dot_add_right, h1, dot_sub_right]; ring
  | translation =>
    rw [hm] at h
    rw [act_trans hm, dot_add_right, dot_smul_right, h]; ring

theorem kept_along {a : Vec3} {l : List (MatrixExp × PoeTerm)}
    (h : ∀ b ∈ l, b.1.Unit ∧ (b.2.simplified = false → Along a b.1)) (x : List ℝ) (y : Vec3) :
    dot a ((kept l x).act y) = dot a y := by
  induction l generalizing x with
  | nil => simp [kept]
  | cons b l ih =>
    cases x with
    | nil => simp [kept]
    | cons θ x =>
      have ih' := ih (fun c hc => h c (List.mem_cons_of_mem _ hc)) x
      obtain ⟨h1, h2⟩ := h b List.mem_cons_self
      simp only [kept]
      split
      · exact ih'
      · rename_i hs
        rw [Frame.act_mul, along_act h1 (h2 (by simpa using hs)), ih']

theorem markRange_getElem? (a b : ℕ) (ts : List PoeTerm) (i : ℕ) :
    (markRange a b ts)[i]? = ts[i]?.map fun t => if a ≤ i ∧ i < b then ⟨t.known, true⟩ else t := by
  rw [markRange, List.getElem?_mapIdx]

/-- The terms marked in a range disappear from the product. -/
theorem kept_markRange {es : List MatrixExp} {ts : List PoeTerm} {x : List ℝ}
    (h : ts.length = es.length) (hx : x.length = es.length) {a b : ℕ} (hab : a ≤ b) :
    kept (es.zip (markRange a b ts)) x =
      kept ((es.zip ts).take a) (x.take a) * kept ((es.zip ts).drop b) (x.drop b) := by
  have hl : (markRange a b ts).length = ts.length := by simp [markRange]
  rw [kept_split (l := es.zip (markRange a b ts)) (by simp [hl, h, hx]) a,
    kept_split (l := (es.zip (markRange a b ts)).drop a) (by simp [hl, h, hx]) (b - a),
    List.drop_drop, List.drop_drop, Nat.add_sub_cancel' hab]
  have h1 : (es.zip (markRange a b ts)).take a = (es.zip ts).take a := by
    apply List.ext_getElem?
    intro i
    simp only [List.getElem?_take]
    split
    · rename_i hi
      simp only [List.zip, List.getElem?_zipWith, markRange_getElem?]
      have : ¬ (a ≤ i ∧ i < b) := by omega
      simp [this]
    · rfl
  have h3 : (es.zip (markRange a b ts)).drop b = (es.zip ts).drop b := by
    apply List.ext_getElem?
    intro i
    simp only [List.getElem?_drop]
    simp only [List.zip, List.getElem?_zipWith, markRange_getElem?]
    have : ¬ (a ≤ b + i ∧ b + i < b) := by omega
    simp [this]
  have h2 : ∀ c ∈ ((es.zip (markRange a b ts)).drop a).take (b - a), c.2.simplified = true := by
    intro c hc
    obtain ⟨i, hi, rfl⟩ := List.getElem_of_mem hc
    have hi' : i < b - a := by simp at hi; omega
    have hg : (es.zip (markRange a b ts))[a + i]? =
        some (((es.zip (markRange a b ts)).drop a).take (b - a))[i] := by
      rw [← List.getElem?_eq_getElem hi, List.getElem?_take, if_pos hi', List.getElem?_drop]
    have := (List.getElem?_zip_eq_some.mp hg).2
    rw [markRange_getElem?] at this
    obtain ⟨t, _, ht⟩ := Option.map_eq_some_iff.mp this
    rw [if_pos (by omega)] at ht
    rw [← ht]
  rw [h1, h3, kept_simplified h2, one_mul]

theorem planarDown_spec {es : List MatrixExp} {s k : ℕ} (h : planarDown es s k = true) :
    rel es normalPlaneMovement s (s + 1) = true ∧
    ∀ m, m < k → rel es planarMovement (s + m + 1) (s + m + 2) = true := by
  induction k with
  | zero => exact ⟨h, by intro m hm; omega⟩
  | succ k ih =>
    simp only [planarDown, Bool.and_eq_true] at h
    obtain ⟨h1, h2⟩ := ih h.2
    refine ⟨h1, fun m hm => ?_⟩
    by_cases hmk : m = k
    · rw [hmk]; exact h.1
    · exact h2 m (by omega)

theorem planarUp_spec {es : List MatrixExp} {e k : ℕ} (h : planarUp es e k = true) :
    rel es normalPlaneMovement (e - 1) e = true ∧
    ∀ m, m < k → rel es planarMovement (e - (m + 1) - 1) (e - (m + 1)) = true := by
  induction k with
  | zero => exact ⟨h, by intro m hm; omega⟩
  | succ k ih =>
    simp only [planarUp, Bool.and_eq_true] at h
    obtain ⟨h1, h2⟩ := ih h.2
    refine ⟨h1, fun m hm => ?_⟩
    by_cases hmk : m = k
    · rw [hmk]; exact h.1
    · exact h2 m (by omega)

theorem rel_spec {es : List MatrixExp} {r : MatrixExp → MatrixExp → Prop} {i j : ℕ}
    (h : rel es r i j = true) : ∃ a b, es[i]? = some a ∧ es[j]? = some b ∧ r a b := by
  unfold rel at h
  split at h
  · rename_i a b ha hb
    exact ⟨a, b, ha, hb, by simpa using h⟩
  · simp at h

end Builder

end KD
