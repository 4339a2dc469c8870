import Verif.Screw.SimplifyLemmas

/-!
# Property C20: simplified terms do not alter the equation

`kept (es.zip ts) x` is the product of the exponentials of the terms not marked as
simplified, in order, for joint values `x`. `refresh ts` marks the known terms at both ends, which
are moved to the other side of the equation (C17).
-/

namespace KD

open Builder

open scoped Classical

/-! ## Trailing rotations -/

theorem trailing_bound {es : List MatrixExp} (hu : ∀ e ∈ es, e.Unit) {ts : List PoeTerm}
    (h : ts.length = es.length) {x : List ℝ} (hx : x.length = es.length) (p : Vec3) {δ : ℝ}
    (hδ : 0 ≤ δ) (hax : ∀ e ∈ es, e.motion = .rotation → liesOnAxis e p →
      (Vec3.cross (p - e.origin) e.axis).norm ≤ δ) :
    ((kept (es.zip (refresh ts)) x).act p -
      (kept (es.zip (simplifyPK1 es p (refresh ts))) x).act p).norm ≤ es.length * (2 * δ) := by
  have hr : (refresh ts).length = es.length := by rw [refresh_length, h]
  obtain ⟨l3, l2, l1, h1, h2, h3, h4, h5⟩ := simplifyPK1_split hr p
  have hlen : l3.length + (l2.length + l1.length) = es.length := by
    have := congrArg List.length h1
    simp [hr] at this
    omega
  have hmem : ∀ a ∈ l3 ++ (l2 ++ l1), a.1 ∈ es := by
    intro a ha
    rw [← h1] at ha
    exact (List.of_mem_zip ha).1
  -- the known terms at the end are simplified
  have hsim : ∀ a ∈ l1, a.2.simplified = true := by
    have hrs : refresh ts = (l3 ++ l2).map Prod.snd ++ l1.map Prod.snd := by
      rw [← List.map_append, List.append_assoc, ← h1, List.map_snd_zip (by omega)]
    have := refresh_trailing hrs (by
      intro t ht
      obtain ⟨a, ha, rfl⟩ := List.mem_map.mp ht
      exact h2 a ha)
    intro a ha
    exact this _ (List.mem_map.mpr ⟨a, ha, rfl⟩)
  set x3 := x.take l3.length with hx3
  set x2 := (x.drop l3.length).take l2.length with hx2
  set x1 := (x.drop l3.length).drop l2.length with hx1
  have hxs : x = x3 ++ (x2 ++ x1) := by
    rw [hx2, hx1, List.take_append_drop, hx3, List.take_append_drop]
  have e3 : l3.length = x3.length := by rw [hx3]; simp; omega
  have e2 : l2.length = x2.length := by rw [hx2]; simp; omega
  rw [h1, h4, hxs, kept_append e3, kept_append e3, kept_append e2, kept_append (by simpa using e2),
    kept_simplified hsim, kept_simplified (l := l2.map _) (by
      intro a ha
      obtain ⟨b, _, rfl⟩ := List.mem_map.mp ha
      rfl)]
  simp only [mul_one]
  rw [Frame.act_mul, (kept_rigid (fun a ha => hu _ (hmem a (by simp [ha]))) x3).dist]
  have hk := kept_near (l := l2) (p := p) hδ (fun a ha => by
    have hm := hmem a (by simp [ha])
    exact ⟨(h3 a ha).1, hu _ hm, hax _ hm (h3 a ha).1 (h3 a ha).2⟩) x2
  refine hk.trans ?_
  have : (l2.length : ℝ) ≤ es.length := by exact_mod_cast (by omega : l2.length ≤ es.length)
  nlinarith

/-- Dropping the trailing rotations whose axis holds the characteristic point (within the
tolerance) displaces the image of that point, for all joint values, by no more than
`2 √3 eps` per term. -/
theorem C20_trailing_rotations (es : List MatrixExp) (hu : ∀ e ∈ es, e.Unit) (ts : List PoeTerm)
    (h : ts.length = es.length) (x : List ℝ) (hx : x.length = es.length) (p : Vec3) :
    ((kept (es.zip (refresh ts)) x).act p -
      (kept (es.zip (simplifyPK1 es p (refresh ts))) x).act p).norm ≤
      es.length * (2 * (√3 * eps)) := by
  refine trailing_bound hu h hx p (by have := eps_pos; positivity) fun e _ _ hl => ?_
  have := norm_le_of_equal hl
  rwa [sub_zero] at this

/-- If the axes that pass the test hold the point exactly, its image does not change at all. -/
theorem C20_trailing_rotations_exact (es : List MatrixExp) (hu : ∀ e ∈ es, e.Unit)
    (ts : List PoeTerm) (h : ts.length = es.length) (x : List ℝ) (hx : x.length = es.length)
    (p : Vec3) (hax : ∀ e ∈ es, e.motion = .rotation → liesOnAxis e p →
      ∃ t : ℝ, p = e.origin + t • e.axis) :
    (kept (es.zip (refresh ts)) x).act p =
      (kept (es.zip (simplifyPK1 es p (refresh ts))) x).act p := by
  have := trailing_bound hu h hx p le_rfl (fun e he hr hl => by
    obtain ⟨t, ht⟩ := hax e he hr hl
    have : p - e.origin = t • e.axis := by rw [ht]; abel
    rw [this, Vec3.cross_smul_left, Vec3.cross_self, smul_zero, Vec3.norm_zero])
  simp only [mul_zero] at this
  have h0 := Vec3.norm_eq_zero (le_antisymm this (Vec3.norm_nonneg _))
  exact sub_eq_zero.mp h0

/-! ## Leading rotations in a distance equation -/

theorem leading_bound {es : List MatrixExp} (hu : ∀ e ∈ es, e.Unit) {ts : List PoeTerm}
    (h : ts.length = es.length) {x : List ℝ} (hx : x.length = es.length) (p k y : Vec3) {δ : ℝ}
    (hδ : 0 ≤ δ) (hax : ∀ e ∈ es, e.motion = .rotation → liesOnAxis e k →
      (Vec3.cross (k - e.origin) e.axis).norm ≤ δ) :
    |((kept (es.zip (simplifyPK1 es p (refresh ts))) x).act y - k).norm -
      ((kept (es.zip (simplifyPK3 es k (simplifyPK1 es p (refresh ts)))) x).act y - k).norm| ≤
      es.length * (2 * δ) := by
  have hr : (refresh ts).length = es.length := by rw [refresh_length, h]
  set ts1 := simplifyPK1 es p (refresh ts) with hts1
  have hl1 : ts1.length = es.length := by rw [hts1, simplifyPK1_length p hr, hr]
  obtain ⟨l1, l2, l3, h1, h2, h3, h4⟩ := simplifyPK3_split hl1 k
  have hlen : l1.length + (l2.length + l3.length) = es.length := by
    have := congrArg List.length h1
    simp [hl1] at this
    omega
  have hmem : ∀ a ∈ l1 ++ (l2 ++ l3), a.1 ∈ es := by
    intro a ha
    rw [← h1] at ha
    exact (List.of_mem_zip ha).1
  have hsnd : ts1 = l1.map Prod.snd ++ (l2 ++ l3).map Prod.snd := by
    rw [← List.map_append, ← h1, List.map_snd_zip (by omega)]
  -- the known terms at the beginning are simplified
  have hsim : ∀ a ∈ l1, a.2.simplified = true := by
    have hkn : knowns (refresh ts) = knowns ts1 := (simplifyPK1_knowns p hr).symm
    have hk2 : knowns ((refresh ts).take l1.length) = knowns (l1.map Prod.snd) := by
      have := congrArg (List.take l1.length) hkn
      rw [hsnd] at this
      simp only [knowns, List.map_append] at this
      rw [List.take_append_of_le_length (by simp), ← List.map_take] at this
      rw [knowns, this, knowns]
      simp
    have hknown : ∀ t ∈ l1.map Prod.snd, t.known = true := by
      intro t ht
      obtain ⟨a, ha, rfl⟩ := List.mem_map.mp ht
      exact h2 a ha
    have hlead := refresh_leading (List.take_append_drop l1.length (refresh ts)).symm
      (known_of_knowns hk2 hknown)
    -- the simplification from the right keeps marks
    intro a ha
    obtain ⟨i, hi, rfl⟩ := List.getElem_of_mem ha
    obtain ⟨m3, m2, m1, g1, g2, g3, g4, g5⟩ := simplifyPK1_split hr p
    have hri : i < (refresh ts).length := by omega
    obtain ⟨r, hri'⟩ : ∃ r, (refresh ts)[i]? = some r := ⟨_, List.getElem?_eq_getElem hri⟩
    have hrt : r.simplified = true := by
      apply hlead
      have : ((refresh ts).take l1.length)[i]? = some r := by
        rw [List.getElem?_take, if_pos hi, hri']
      exact List.mem_of_getElem? this
    have hti : ts1[i]? = some l1[i].2 := by
      rw [hsnd, List.getElem?_append_left (by simpa using hi), List.getElem?_map,
        List.getElem?_eq_getElem hi]
      rfl
    have hrs : refresh ts = m3.map Prod.snd ++ (m2.map Prod.snd ++ m1.map Prod.snd) := by
      rw [← List.map_append, ← List.map_append, ← g1, List.map_snd_zip (by omega)]
    rw [← hts1] at g5
    rw [g5] at hti
    by_cases c1 : i < m3.length
    · rw [List.getElem?_append_left (by simpa using c1)] at hti
      rw [hrs, List.getElem?_append_left (by simpa using c1)] at hri'
      have he := hti.symm.trans hri'
      simp only [Option.some.injEq] at he
      rw [he]; exact hrt
    · rw [List.getElem?_append_right (by simpa using c1)] at hti
      rw [hrs, List.getElem?_append_right (by simpa using c1)] at hri'
      by_cases c2 : i - m3.length < m2.length
      · rw [List.getElem?_append_left (by simpa using c2), List.getElem?_map] at hti
        obtain ⟨b, _, hb⟩ := Option.map_eq_some_iff.mp hti
        rw [← hb]
      · rw [List.getElem?_append_right (by simpa using c2)] at hti hri'
        simp only [List.length_map] at hti hri'
        have he := hti.symm.trans hri'
        simp only [Option.some.injEq] at he
        rw [he]; exact hrt
  set x1 := x.take l1.length with hx1
  set x2 := (x.drop l1.length).take l2.length with hx2
  set x3 := (x.drop l1.length).drop l2.length with hx3
  have hxs : x = x1 ++ (x2 ++ x3) := by
    rw [hx2, hx3, List.take_append_drop, hx1, List.take_append_drop]
  have e1 : l1.length = x1.length := by rw [hx1]; simp; omega
  have e2 : l2.length = x2.length := by rw [hx2]; simp; omega
  rw [h1, h4, hxs, kept_append e1, kept_append e1, kept_append e2, kept_append (by simpa using e2),
    kept_simplified hsim, kept_simplified (l := l2.map _) (by
      intro a ha
      obtain ⟨b, _, rfl⟩ := List.mem_map.mp ha
      rfl)]
  simp only [one_mul]
  rw [Frame.act_mul]
  have hrig := kept_rigid (l := l2) (fun a ha => hu _ (hmem a (by simp [ha]))) x2
  have hk := kept_near (l := l2) (p := k) hδ (fun a ha => by
    have hm := hmem a (by simp [ha])
    exact ⟨(h3 a ha).1, hu _ hm, hax _ hm (h3 a ha).1 (h3 a ha).2⟩) x2
  set z := (kept l3 x3).act y
  have t1 := Vec3.norm_sub_le ((kept l2 x2).act z) ((kept l2 x2).act k) k
  have t2 := Vec3.norm_sub_le ((kept l2 x2).act z) k ((kept l2 x2).act k)
  rw [hrig.dist] at t1 t2
  have t3 : (k - (kept l2 x2).act k).norm = ((kept l2 x2).act k - k).norm := by
    rw [← Vec3.norm_neg]; congr 1; abel
  have hle : (l2.length : ℝ) * (2 * δ) ≤ es.length * (2 * δ) := by
    have : (l2.length : ℝ) ≤ es.length := by exact_mod_cast (by omega : l2.length ≤ es.length)
    nlinarith
  rw [abs_le]
  constructor <;> linarith

/-- Dropping the leading rotations whose axis holds the reference point `k` (within the tolerance)
changes the distance from `k` to any transformed point, for all joint values, by no more than
`2 √3 eps` per term. -/
theorem C20_leading_rotations (es : List MatrixExp) (hu : ∀ e ∈ es, e.Unit) (ts : List PoeTerm)
    (h : ts.length = es.length) (x : List ℝ) (hx : x.length = es.length) (p k y : Vec3) :
    |((kept (es.zip (simplifyPK1 es p (refresh ts))) x).act y - k).norm -
      ((kept (es.zip (simplifyPK3 es k (simplifyPK1 es p (refresh ts)))) x).act y - k).norm| ≤
      es.length * (2 * (√3 * eps)) := by
  refine leading_bound hu h hx p k y (by have := eps_pos; positivity) fun e _ _ hl => ?_
  have := norm_le_of_equal hl
  rwa [sub_zero] at this

/-- If the axes that pass the test hold `k` exactly, the distance does not change at all. -/
theorem C20_leading_rotations_exact (es : List MatrixExp) (hu : ∀ e ∈ es, e.Unit)
    (ts : List PoeTerm) (h : ts.length = es.length) (x : List ℝ) (hx : x.length = es.length)
    (p k y : Vec3) (hax : ∀ e ∈ es, e.motion = .rotation → liesOnAxis e k →
      ∃ t : ℝ, k = e.origin + t • e.axis) :
    ((kept (es.zip (simplifyPK1 es p (refresh ts))) x).act y - k).norm =
      ((kept (es.zip (simplifyPK3 es k (simplifyPK1 es p (refresh ts)))) x).act y - k).norm := by
  have := leading_bound hu h hx p k y le_rfl (fun e he hr hl => by
    obtain ⟨t, ht⟩ := hax e he hr hl
    have : k - e.origin = t • e.axis := by rw [ht]; abel
    rw [this, Vec3.cross_smul_left, Vec3.cross_self, smul_zero, Vec3.norm_zero])
  simp only [mul_zero] at this
  exact sub_eq_zero.mp (abs_eq_zero.mp (le_antisymm this (abs_nonneg _)))

/-! ## Motions along a plane -/

/-- Term `i` is dropped when going from `ts` to `ts'`. -/
def DroppedAt (ts ts' : List PoeTerm) (i : ℕ) : Prop :=
  (∃ t, ts[i]? = some t ∧ t.simplified = false) ∧ ∃ t, ts'[i]? = some t ∧ t.simplified = true

theorem plane_core (es : List MatrixExp) (hu : ∀ e ∈ es, e.Unit) (ts : List PoeTerm)
    (h : ts.length = es.length) (p : Vec3) (ts1 ts2 : List PoeTerm)
    (h1 : ts1 = simplifyPK1 es p (refresh ts)) (h2 : ts2 = simplifyPG1 es ts1) (hne : ts2 ≠ ts1) :
    ∃ (i : ℕ) (e : MatrixExp) (t : PoeTerm), es[i]? = some e ∧ e.motion = .translation ∧ ts2[i]? = some t ∧ t.open_ = true ∧
      ((∃ b, i < b ∧ b < es.length ∧ ts2 = markRange (i + 1) (b + 1) ts1 ∧
          planarDown es i (b - 1 - i) = true) ∨
        (∃ a, a < i ∧ ts2 = markRange a i ts1 ∧ planarUp es i (i - (a + 1)) = true)) ∧
      ((∀ (j : ℕ) (f : MatrixExp), es[j]? = some f → DroppedAt ts1 ts2 j → Along e.axis f) →
        ∀ x : List ℝ, x.length = es.length → ∀ y,
          Vec3.dot e.axis ((kept (es.zip ts1) x).act y) =
          Vec3.dot e.axis ((kept (es.zip ts2) x).act y)) := by
  have hr : (refresh ts).length = es.length := by rw [refresh_length, h]
  have hl1 : ts1.length = es.length := by rw [h1, simplifyPK1_length p hr, hr]
  unfold simplifyPG1 at h2
  simp only [] at h2
  set s := ts1.findIdx PoeTerm.open_ with hs
  by_cases hle : lastOpen ts1 ≤ s + 1
  · rw [if_pos hle] at h2; exact absurd h2 hne
  rw [if_neg hle] at h2
  have hllen : lastOpen ts1 ≤ ts1.length := by unfold lastOpen; omega
  have hslt : s < ts1.length := by omega
  obtain ⟨ts_s, hts_s⟩ : ∃ t, ts1[s]? = some t := ⟨_, List.getElem?_eq_getElem hslt⟩
  have hso : ts_s.open_ = true := by
    have := List.findIdx_getElem (xs := ts1) (p := PoeTerm.open_) (w := hslt)
    rw [List.getElem?_eq_getElem hslt] at hts_s
    cases hts_s
    exact this
  have hcount : ts1.countP PoeTerm.open_ ≠ 0 := by
    intro h0
    rw [List.countP_eq_zero] at h0
    exact h0 _ (List.mem_of_getElem? hts_s) hso
  obtain ⟨_, hle0, ⟨tl, htl, hlo⟩, _⟩ := lastOpen_spec hcount
  have hbefore : ∀ (j : ℕ) (u : PoeTerm), j < s → ts1[j]? = some u → u.open_ = false := by
    intro j u hj hu'
    have hjl : j < ts1.length := by omega
    rw [List.getElem?_eq_getElem hjl] at hu'
    cases hu'
    have := List.not_of_lt_findIdx (p := PoeTerm.open_) (xs := ts1) (i := j) (by rw [← hs]; exact hj)
    simpa using this
  -- everything on the left is simplified
  have hleft : ∀ (j : ℕ) (u : PoeTerm), j < s → ts1[j]? = some u → u.simplified = true := by
    rw [h1] at hts_s hbefore ⊢
    exact left_simplified h p hts_s hso hbefore
  have hleft1 : ∀ (m : ℕ), m ≤ s → ∀ x : List ℝ, kept ((es.zip ts1).take m) x = 1 := by
    intro m hm x
    apply kept_simplified
    intro a ha
    obtain ⟨j, hj, rfl⟩ := List.getElem_of_mem ha
    have hjm : j < m := by simp at hj; omega
    have : (es.zip ts1)[j]? = some ((es.zip ts1).take m)[j] := by
      rw [← List.getElem?_eq_getElem hj, List.getElem?_take, if_pos hjm]
    exact hleft j _ (by omega) (List.getElem?_zip_eq_some.mp this).2
  -- terms in a range that is marked move along the plane
  have hrange : ∀ (a b : ℕ) (v : Vec3), (∀ (j : ℕ) (f : MatrixExp), es[j]? = some f →
      DroppedAt ts1 (markRange a b ts1) j → Along v f) →
      ∀ x y, Vec3.dot v ((kept (((es.zip ts1).drop a).take (b - a)) x).act y) = Vec3.dot v y := by
    intro a b v hv x y
    apply kept_along
    intro c hc
    obtain ⟨i, hi, rfl⟩ := List.getElem_of_mem hc
    have hi' : i < b - a := by simp at hi; omega
    have hg : (es.zip ts1)[a + i]? = some (((es.zip ts1).drop a).take (b - a))[i] := by
      rw [← List.getElem?_eq_getElem hi, List.getElem?_take, if_pos hi', List.getElem?_drop]
    obtain ⟨g1, g2⟩ := List.getElem?_zip_eq_some.mp hg
    refine ⟨hu _ (List.mem_of_getElem? g1), fun hsf => hv (a + i) _ g1 ⟨⟨_, g2, hsf⟩, ?_⟩⟩
    rw [markRange_getElem?, g2]
    exact ⟨_, rfl, by simp only []; rw [if_pos (by omega)]⟩
  set e0 := lastOpen ts1 - 1 with he0
  match hes : es[s]?, hee : es[e0]? with
  | none, _ => rw [List.getElem?_eq_none_iff] at hes; omega
  | some _, none => rw [List.getElem?_eq_none_iff] at hee; omega
  | some first, some last =>
    simp only [hes, hee] at h2
    by_cases hf : first.motion = .translation
    · rw [if_pos hf] at h2
      by_cases hpd : planarDown es s (e0 - 1 - s) = true
      · rw [if_pos hpd] at h2
        refine ⟨s, first, ts_s, hes, hf, ?_, hso, Or.inl ⟨e0, by omega, by omega, h2, hpd⟩, ?_⟩
        · rw [h2, markRange_getElem?, hts_s]
          simp
        · intro hal x hx y
          rw [h2] at hal
          rw [h2, kept_markRange hl1 hx (by omega),
            kept_split (l := es.zip ts1) (by simp [hl1, hx]) (s + 1),
            kept_split (l := (es.zip ts1).drop (s + 1)) (by simp [hl1, hx]) (e0 + 1 - (s + 1)),
            List.drop_drop, List.drop_drop, Nat.add_sub_cancel' (by omega : s + 1 ≤ e0 + 1)]
          -- the bounding translation comes first
          have hone : kept ((es.zip ts1).take (s + 1)) (x.take (s + 1)) =
              first.asFrame (x[s]'(by omega)) := by
            have ht1 : (es.zip ts1).take (s + 1) = (es.zip ts1).take s ++ [(first, ts_s)] := by
              rw [List.take_add_one]
              congr 1
              rw [List.getElem?_zip_eq_some.mpr (⟨hes, hts_s⟩ : es[s]? = some (first, ts_s).1 ∧ ts1[s]? = some (first, ts_s).2)]
              rfl
            have ht2 : x.take (s + 1) = x.take s ++ [x[s]'(by omega)] := by
              rw [List.take_add_one, List.getElem?_eq_getElem (by omega)]
              rfl
            rw [ht1, ht2, kept_append (by simp; omega), hleft1 s le_rfl, one_mul]
            have : ts_s.simplified = false := by
              revert hso; unfold PoeTerm.open_; cases ts_s.known <;> cases ts_s.simplified <;> simp
            simp [kept, this]
          rw [hone, Frame.act_mul, Frame.act_mul, Frame.act_mul, act_trans hf, act_trans hf,
            Vec3.dot_add_right, Vec3.dot_add_right, hrange (s + 1) (e0 + 1) first.axis hal]
      · rw [if_neg hpd] at h2; exact absurd h2 hne
    · rw [if_neg hf] at h2
      by_cases hla : last.motion = .translation
      · rw [if_pos hla] at h2
        by_cases hpu : planarUp es e0 (e0 - (s + 1)) = true
        · rw [if_pos hpu] at h2
          have htl' : ts1[e0]? = some tl := htl
          refine ⟨e0, last, tl, hee, hla, ?_, hlo, Or.inr ⟨s, by omega, h2, hpu⟩, ?_⟩
          · rw [h2, markRange_getElem?, htl']
            simp
          · intro hal x hx y
            rw [h2] at hal
            rw [h2, kept_markRange hl1 hx (by omega),
              kept_split (l := es.zip ts1) (by simp [hl1, hx]) s,
              kept_split (l := (es.zip ts1).drop s) (by simp [hl1, hx]) (e0 - s),
              List.drop_drop, List.drop_drop, Nat.add_sub_cancel' (by omega : s ≤ e0),
              hleft1 s le_rfl, one_mul, one_mul, Frame.act_mul, hrange s e0 last.axis hal]
        · rw [if_neg hpu] at h2; exact absurd h2 hne
      · rw [if_neg hla] at h2; exact absurd h2 hne

/-- Full statement: dropping terms next to a translation along `a` does not alter the height of
any point over the planes normal to `a`. What is missing: the code only compares neighbouring
terms, so it may drop a rotation about another direction; the dropped terms must actually
be rotations about axes parallel to `a` or translations normal to it. See
`C20_plane_test_not_transitive` and `C20_plane_neighbours_partial`. -/
theorem C20_plane_partial (es : List MatrixExp) (hu : ∀ e ∈ es, e.Unit) (ts : List PoeTerm)
    (h : ts.length = es.length) (p : Vec3) (ts1 ts2 : List PoeTerm)
    (h1 : ts1 = simplifyPK1 es p (refresh ts)) (h2 : ts2 = simplifyPG1 es ts1) (hne : ts2 ≠ ts1) :
    ∃ (i : ℕ) (e : MatrixExp) (t : PoeTerm), es[i]? = some e ∧ e.motion = .translation ∧ ts2[i]? = some t ∧ t.open_ = true ∧
      ((∀ (j : ℕ) (f : MatrixExp), es[j]? = some f → DroppedAt ts1 ts2 j → Along e.axis f) →
        ∀ x : List ℝ, x.length = es.length → ∀ y,
          Vec3.dot e.axis ((kept (es.zip ts1) x).act y) =
          Vec3.dot e.axis ((kept (es.zip ts2) x).act y)) := by
  obtain ⟨i, e, t, g1, g2, g3, g4, _, g5⟩ := plane_core es hu ts h p ts1 ts2 h1 h2 hne
  exact ⟨i, e, t, g1, g2, g3, g4, g5⟩

/-- If a term keeps the height and the next one passes the comparison, so does the next one,
unless it is a rotation following a translation. -/
theorem along_step {a : Vec3} {e f : MatrixExp} (he : e.Unit) (hf : f.Unit)
    (hp : parallelAxes e f ∨ parallelAxes f e → Vec3.cross e.axis f.axis = 0)
    (hq : perpendicularAxes e f ∨ perpendicularAxes f e → Vec3.dot e.axis f.axis = 0)
    (hpl : planarMovement e f ∨ planarMovement f e)
    (hno : ¬ (e.motion = .translation ∧ f.motion = .rotation))
    (h : Along a e) : Along a f := by
  have he' : Vec3.dot e.axis e.axis = 1 := he
  have hf' : Vec3.dot f.axis f.axis = 1 := hf
  unfold Along at h ⊢
  unfold planarMovement at hpl
  cases hme : e.motion <;> cases hmf : f.motion <;> simp only [hme, hmf] at h hpl hno ⊢
  · have hc := hp (by simpa using hpl)
    have h1 := parallel_eq he' h
    rw [h1, Vec3.cross_smul_left, hc, smul_zero]
  · have hd := hq (by simpa using hpl)
    have h1 := parallel_eq he' h
    rw [h1, Vec3.dot_smul_left, hd, mul_zero]
  · exact absurd ⟨trivial, trivial⟩ hno
  · have hc := hp (by simpa using hpl)
    have h1 := parallel_eq hf' hc
    rw [h1, Vec3.dot_smul_right] at h
    have : Vec3.dot e.axis f.axis ≠ 0 := by
      intro h0
      rw [h0, zero_smul] at h1
      rw [h1] at he'
      simp at he'
    exact (mul_eq_zero.mp h).resolve_left this

/-- The comparison of neighbouring terms is enough, provided that the tolerance tests
decide exact parallelism and perpendicularity and that, going away from the kept translation,
no rotation comes right after another translation. -/
theorem C20_plane_neighbours_partial (es : List MatrixExp) (hu : ∀ e ∈ es, e.Unit)
    (ts : List PoeTerm) (h : ts.length = es.length) (p : Vec3) (ts1 ts2 : List PoeTerm)
    (h1 : ts1 = simplifyPK1 es p (refresh ts)) (h2 : ts2 = simplifyPG1 es ts1) (hne : ts2 ≠ ts1)
    (hpar : ∀ e ∈ es, ∀ f ∈ es, parallelAxes e f → Vec3.cross e.axis f.axis = 0)
    (hperp : ∀ e ∈ es, ∀ f ∈ es, perpendicularAxes e f → Vec3.dot e.axis f.axis = 0) :
    ∃ (i : ℕ) (e : MatrixExp) (t : PoeTerm), es[i]? = some e ∧ e.motion = .translation ∧
      ts2[i]? = some t ∧ t.open_ = true ∧
      ((∀ (j : ℕ) (f g : MatrixExp), es[j]? = some f → es[j + 1]? = some g →
          (i < j → ¬ (f.motion = .translation ∧ g.motion = .rotation)) ∧
          (j + 1 < i → ¬ (g.motion = .translation ∧ f.motion = .rotation))) →
        ∀ x : List ℝ, x.length = es.length → ∀ y,
          Vec3.dot e.axis ((kept (es.zip ts1) x).act y) =
          Vec3.dot e.axis ((kept (es.zip ts2) x).act y)) := by
  obtain ⟨i, e, t, g1, g2, g3, g4, g5, g6⟩ := plane_core es hu ts h p ts1 ts2 h1 h2 hne
  have hcomm : ∀ a b : Vec3, Vec3.cross a b = 0 → Vec3.cross b a = 0 := by
    intro a b hab
    have hx := congrArg Vec3.x hab
    have hy := congrArg Vec3.y hab
    have hz := congrArg Vec3.z hab
    ext <;> simp at hx hy hz ⊢ <;> linarith
  have hp' : ∀ e ∈ es, ∀ f ∈ es, parallelAxes e f ∨ parallelAxes f e →
      Vec3.cross e.axis f.axis = 0 := by
    rintro e he f hf (hh | hh)
    · exact hpar e he f hf hh
    · exact hcomm _ _ (hpar f hf e he hh)
  have hq' : ∀ e ∈ es, ∀ f ∈ es, perpendicularAxes e f ∨ perpendicularAxes f e →
      Vec3.dot e.axis f.axis = 0 := by
    rintro e he f hf (hh | hh)
    · exact hperp e he f hf hh
    · rw [Vec3.dot_comm]; exact hperp f hf e he hh
  have hbase : ∀ f ∈ es, normalPlaneMovement e f ∨ normalPlaneMovement f e → Along e.axis f := by
    intro f hf hn
    have hem := List.mem_of_getElem? g1
    unfold normalPlaneMovement at hn
    unfold Along
    cases hmf : f.motion <;> simp only [g2, hmf] at hn ⊢
    · exact hp' e hem f hf (by simpa using hn)
    · exact hq' e hem f hf (by simpa using hn)
  refine ⟨i, e, t, g1, g2, g3, g4, fun hno => g6 ?_⟩
  rcases g5 with ⟨b, hib, hbl, hm, hpd⟩ | ⟨a, hai, hm, hpu⟩
  · obtain ⟨s1, s2⟩ := planarDown_spec hpd
    have hall : ∀ m, i + m + 1 ≤ b → ∀ f, es[i + m + 1]? = some f → Along e.axis f := by
      intro m
      induction m with
      | zero =>
        intro _ f hf
        obtain ⟨e', f', q1, q2, q3⟩ := rel_spec s1
        rw [g1] at q1
        cases q1
        rw [show i + 0 + 1 = i + 1 from rfl, q2] at hf
        cases hf
        exact hbase _ (List.mem_of_getElem? q2) (Or.inl q3)
      | succ m ih =>
        intro hmb f hf
        obtain ⟨c, d, q1, q2, q3⟩ := rel_spec (s2 m (by omega))
        rw [show i + (m + 1) + 1 = i + m + 2 by omega, q2] at hf
        cases hf
        have hc := List.mem_of_getElem? q1
        have hd := List.mem_of_getElem? q2
        exact along_step (hu _ hc) (hu _ hd) (hp' c hc _ hd) (hq' c hc _ hd) (Or.inl q3)
          ((hno (i + m + 1) c _ q1 q2).1 (by omega)) (ih (by omega) c q1)
    intro j f hf hd
    obtain ⟨⟨t1, ht1, hs1⟩, t2, ht2, hs2⟩ := hd
    rw [hm, markRange_getElem?, ht1] at ht2
    simp only [Option.map_some, Option.some.injEq] at ht2
    split at ht2
    · rename_i hr
      obtain ⟨m, rfl⟩ : ∃ m, j = i + m + 1 := ⟨j - i - 1, by omega⟩
      exact hall m (by omega) f hf
    · rw [← ht2, hs1] at hs2; simp at hs2
  · obtain ⟨s1, s2⟩ := planarUp_spec hpu
    have hall : ∀ m, a + m + 1 ≤ i → ∀ f, es[i - (m + 1)]? = some f → Along e.axis f := by
      intro m
      induction m with
      | zero =>
        intro _ f hf
        obtain ⟨f', e', q1, q2, q3⟩ := rel_spec s1
        rw [g1] at q2
        cases q2
        rw [show i - (0 + 1) = i - 1 from rfl, q1] at hf
        cases hf
        exact hbase _ (List.mem_of_getElem? q1) (Or.inr q3)
      | succ m ih =>
        intro hmb f hf
        obtain ⟨c, d, q1, q2, q3⟩ := rel_spec (s2 m (by omega))
        rw [show i - (m + 1 + 1) = i - (m + 1) - 1 by omega, q1] at hf
        cases hf
        have hc := List.mem_of_getElem? q1
        have hd := List.mem_of_getElem? q2
        refine along_step (hu _ hd) (hu _ hc) (hp' d hd _ hc) (hq' d hd _ hc) (Or.inr q3)
          ?_ (ih (by omega) d q2)
        exact (hno (i - (m + 1) - 1) _ d q1 (by rw [← q2]; congr 1; omega)).2 (by omega)
    intro j f hf hd
    obtain ⟨⟨t1, ht1, hs1⟩, t2, ht2, hs2⟩ := hd
    rw [hm, markRange_getElem?, ht1] at ht2
    simp only [Option.map_some, Option.some.injEq] at ht2
    split at ht2
    · rename_i hr
      obtain ⟨m, hm', hmi⟩ : ∃ m, j = i - (m + 1) ∧ m + 1 ≤ i := ⟨i - j - 1, by omega, by omega⟩
      subst hm'
      exact hall m (by omega) f hf
    · rw [← ht2, hs1] at hs2; simp at hs2

/-! ## A wrong simplification -/

/-- A gantry: two linear axes (`z`, then `x`) and a rotation about `y` through `(1, 0, 0)`. -/
def gantry : List MatrixExp :=
  [⟨.translation, ⟨0, 0, 1⟩, 0⟩, ⟨.translation, ⟨1, 0, 0⟩, 0⟩, ⟨.rotation, ⟨0, 1, 0⟩, ⟨1, 0, 0⟩⟩]

theorem gantry_pass : trySolve gantry 0 0 0 (simplify gantry 0 0 0
      (refresh [⟨false, false⟩, ⟨false, false⟩, ⟨false, false⟩])) =
    some (.pg1 0 ⟨.translation, ⟨0, 0, 1⟩, 0⟩ 0, [⟨true, false⟩, ⟨false, true⟩, ⟨false, true⟩]) := by
  have hl : ¬ liesOnAxis ⟨.rotation, ⟨0, 1, 0⟩, ⟨1, 0, 0⟩⟩ 0 := by
    norm_num [liesOnAxis, Vec3.Equal, EqualR, eps]
  have hn : normalPlaneMovement ⟨.translation, ⟨0, 0, 1⟩, 0⟩ ⟨.translation, ⟨1, 0, 0⟩, 0⟩ := by
    norm_num [normalPlaneMovement, perpendicularAxes, Vec3.dot, EqualR, eps]
  have hp : planarMovement ⟨.translation, ⟨1, 0, 0⟩, 0⟩ ⟨.rotation, ⟨0, 1, 0⟩, ⟨1, 0, 0⟩⟩ := by
    norm_num [planarMovement, perpendicularAxes, Vec3.dot, EqualR, eps]
    intro hc; cases hc
  have h1 : simplifyPK1 gantry 0 [⟨false, false⟩, ⟨false, false⟩, ⟨false, false⟩] =
      [⟨false, false⟩, ⟨false, false⟩, ⟨false, false⟩] := by
    simp [simplifyPK1, gantry, markFromUnknown, markWhileOnAxis, PoeTerm.isUnknown, hl]
  have h2 : simplifyPG1 gantry [⟨false, false⟩, ⟨false, false⟩, ⟨false, false⟩] =
      [⟨false, false⟩, ⟨false, true⟩, ⟨false, true⟩] := by
    simp [simplifyPG1, gantry, lastOpen, List.findIdx_cons, PoeTerm.open_, planarDown, rel, hn, hp, markRange]
  have h0 : refresh [⟨false, false⟩, ⟨false, false⟩, ⟨false, false⟩] =
      [⟨false, false⟩, ⟨false, false⟩, ⟨false, false⟩] := by simp [refresh, markLeading]
  have h3 : ∃ e ∈ gantry, e.motion = .translation := ⟨_, List.mem_cons_self, rfl⟩
  simp only [simplify, h0, h1, h2, h3]
  simp [trySolve, PoeTerm.open_, lastOpen, List.findIdx_cons, gantry, setKnown]

/-- The planarity test compares neighbours only, and that relation is not transitive: for the
gantry the rotation about `y` is dropped along with the `x` axis, and the `z` axis is solved
as if the rotation did not change heights, which it does. -/
theorem C20_plane_test_not_transitive :
    ∃ ts' x, trySolve gantry 0 0 0 (simplify gantry 0 0 0
        (refresh [⟨false, false⟩, ⟨false, false⟩, ⟨false, false⟩])) =
      some (.pg1 0 ⟨.translation, ⟨0, 0, 1⟩, 0⟩ 0, ts') ∧ x.length = gantry.length ∧
      Vec3.dot ⟨0, 0, 1⟩ ((Poe.expProd gantry x).act 0) ≠
        Vec3.dot ⟨0, 0, 1⟩
          ((MatrixExp.asFrame ⟨.translation, ⟨0, 0, 1⟩, 0⟩ (x.getD 0 0)).act 0) := by
  refine ⟨_, [0, 0, Real.pi / 2], gantry_pass, rfl, ?_⟩
  simp [Poe.expProd, gantry, MatrixExp.asFrame, Frame.act, Vec3.dot, Mat3.rot2]

/-! ## The hypotheses are met -/

/-- A rotation about `z`, a translation along `x` and a translation along `z`. -/
def crane : List MatrixExp :=
  [⟨.rotation, ⟨0, 0, 1⟩, 0⟩, ⟨.translation, ⟨1, 0, 0⟩, 0⟩, ⟨.translation, ⟨0, 0, 1⟩, 0⟩]

theorem crane_unit : ∀ e ∈ crane, e.Unit := by
  intro e he
  simp only [crane, List.mem_cons, List.not_mem_nil, or_false] at he
  rcases he with rfl | rfl | rfl <;> norm_num [MatrixExp.Unit, Vec3.dot]

/-- Something is dropped for the crane, and all hypotheses of the theorems above hold. -/
example : (∀ e ∈ crane, e.Unit) ∧
    simplifyPG1 crane (simplifyPK1 crane 0 (refresh [⟨false, false⟩, ⟨false, false⟩, ⟨false, false⟩]))
      = [⟨false, true⟩, ⟨false, true⟩, ⟨false, false⟩] ∧
    (∀ e ∈ crane, ∀ f ∈ crane, parallelAxes e f → Vec3.cross e.axis f.axis = 0) ∧
    (∀ e ∈ crane, ∀ f ∈ crane, perpendicularAxes e f → Vec3.dot e.axis f.axis = 0) := by
  refine ⟨crane_unit, ?_, ?_, ?_⟩
  · have hn : normalPlaneMovement ⟨.translation, ⟨1, 0, 0⟩, 0⟩ ⟨.translation, ⟨0, 0, 1⟩, 0⟩ := by
      norm_num [normalPlaneMovement, perpendicularAxes, Vec3.dot, EqualR, eps]
    have hp : planarMovement ⟨.rotation, ⟨0, 0, 1⟩, 0⟩ ⟨.translation, ⟨1, 0, 0⟩, 0⟩ := by
      norm_num [planarMovement, perpendicularAxes, Vec3.dot, EqualR, eps]
      intro hc; cases hc
    simp [simplifyPG1, simplifyPK1, refresh, markLeading, markFromUnknown, markWhileOnAxis, crane,
      lastOpen, List.findIdx_cons, PoeTerm.open_, PoeTerm.isUnknown, planarUp, rel, hn, hp, markRange]
  · intro e he f hf hpar
    simp only [crane, List.mem_cons, List.not_mem_nil, or_false] at he hf
    rcases he with rfl | rfl | rfl <;> rcases hf with rfl | rfl | rfl <;>
      first
      | (exfalso; norm_num [parallelAxes, Vec3.Equal, EqualR, eps] at hpar; done)
      | (ext <;> simp)
  · intro e he f hf hperp
    simp only [crane, List.mem_cons, List.not_mem_nil, or_false] at he hf
    rcases he with rfl | rfl | rfl <;> rcases hf with rfl | rfl | rfl <;>
      first
      | (exfalso; norm_num [perpendicularAxes, Vec3.dot, EqualR, eps] at hperp; done)
      | simp [Vec3.dot]

/-- A rotation whose axis holds the point is dropped. -/
example : simplifyPK1 [⟨.rotation, ⟨0, 0, 1⟩, ⟨1, 0, 0⟩⟩, ⟨.rotation, ⟨0, 0, 1⟩, 0⟩] 0
    (refresh [⟨false, false⟩, ⟨false, false⟩]) = [⟨false, false⟩, ⟨false, true⟩] := by
  have h1 : ¬ liesOnAxis ⟨.rotation, ⟨0, 0, 1⟩, ⟨1, 0, 0⟩⟩ 0 := by
    norm_num [liesOnAxis, Vec3.Equal, EqualR, eps]
  have h2 : liesOnAxis ⟨.rotation, ⟨0, 0, 1⟩, 0⟩ 0 := by
    norm_num [liesOnAxis, Vec3.Equal, EqualR, eps]
  simp [simplifyPK1, refresh, markLeading, markFromUnknown, markWhileOnAxis, PoeTerm.isUnknown, h1, h2]

end KD
