import Verif.Programs.ReachableCuboid
import Mathlib.Tactic.Linarith
import Mathlib.Tactic.FieldSimp
import Mathlib.Tactic.Ring
import Mathlib.Algebra.Order.Floor.Ring

/-!
# Lemmas on the search for a reachable cuboid
-/

namespace KD.Cuboid

/-- Rows from `a` on, merged. -/
def merged {ρ : Type} (meet : ρ → ρ → ρ) (row : ℕ → ρ) (acc : ρ) (a len : ℕ) : ρ :=
  (List.range' a len).foldl (fun acc k => meet acc (row k)) acc

theorem inner_spec {ρ σ : Type} {i k0 n : ℕ} {meet : ρ → ρ → ρ} {row : ℕ → ρ} {attempt : ρ → ℕ → ℕ → σ → σ}
    {I : σ → Prop} {m : σ → ℕ}
    (h : ∀ acc k s, I s → k0 ≤ k → i ≤ k → k < n → I (attempt acc k0 k s) ∧ m s ≤ m (attempt acc k0 k s)) :
    ∀ (l a : ℕ) (acc : ρ) (s : σ), k0 ≤ a → a + l ≤ n → I s →
      I (inner i k0 meet row attempt (List.range' a l) acc s) ∧
      m s ≤ m (inner i k0 meet row attempt (List.range' a l) acc s) ∧
      ∀ k, a ≤ k → k < a + l → i ≤ k → ∃ t, I t ∧
        m (attempt (merged meet row acc a (k + 1 - a)) k0 k t) ≤ m (inner i k0 meet row attempt (List.range' a l) acc s) := by
  intro l
  induction l with
  | zero =>
    intro a acc s _ _ hs
    refine ⟨hs, le_rfl, fun k h1 h2 => ?_⟩
    omega
  | succ l ih =>
    intro a acc s h0 hl hs
    rw [List.range'_succ]
    simp only [inner]
    have hm : ∀ k, a + 1 ≤ k → merged meet row (meet acc (row a)) (a + 1) (k + 1 - (a + 1)) = merged meet row acc a (k + 1 - a) := by
      intro k hk
      rw [show k + 1 - a = (k + 1 - (a + 1)) + 1 by omega]
      unfold merged
      rw [List.range'_succ, List.foldl_cons]
    split
    · rename_i hai
      obtain ⟨g1, g2, g3⟩ := ih (a + 1) (meet acc (row a)) s (by omega) (by omega) hs
      refine ⟨g1, g2, fun k h1 h2 h3 => ?_⟩
      have := g3 k (by omega) (by omega) h3
      rwa [hm k (by omega)] at this
    · rename_i hai
      obtain ⟨e1, e2⟩ := h (meet acc (row a)) a s hs h0 (by omega) (by omega)
      obtain ⟨g1, g2, g3⟩ := ih (a + 1) (meet acc (row a)) (attempt (meet acc (row a)) k0 a s) (by omega) (by omega) e1
      refine ⟨g1, e2.trans g2, fun k h1 h2 h3 => ?_⟩
      rcases Nat.eq_or_lt_of_le h1 with rfl | h1
      · refine ⟨s, hs, ?_⟩
        rw [show a + 1 - a = 1 by omega]
        exact g2
      · have := g3 k (by omega) (by omega) h3
        rwa [hm k (by omega)] at this

theorem search_spec {ρ σ : Type} {i n : ℕ} {top : ρ} {meet : ρ → ρ → ρ} {row : ℕ → ρ} {attempt : ρ → ℕ → ℕ → σ → σ}
    {I : σ → Prop} {m : σ → ℕ}
    (h : ∀ acc k0 k s, I s → k0 < i → i ≤ k → k < n → I (attempt acc k0 k s) ∧ m s ≤ m (attempt acc k0 k s))
    {s : σ} (hs : I s) :
    I (search n i top meet row attempt s) ∧ m s ≤ m (search n i top meet row attempt s) ∧
      ∀ k0 k, k0 < i → i ≤ k → k < n → ∃ t, I t ∧
        m (attempt (merged meet row top k0 (k + 1 - k0)) k0 k t) ≤ m (search n i top meet row attempt s) := by
  unfold search
  have key : ∀ (L : List ℕ) (s : σ), (∀ k0 ∈ L, k0 < i) → I s →
      I (L.foldl (fun s k0 => inner i k0 meet row attempt (List.range' k0 (n - k0)) top s) s) ∧
      m s ≤ m (L.foldl (fun s k0 => inner i k0 meet row attempt (List.range' k0 (n - k0)) top s) s) ∧
      ∀ k0 ∈ L, ∀ k, i ≤ k → k < n → ∃ t, I t ∧ m (attempt (merged meet row top k0 (k + 1 - k0)) k0 k t) ≤
        m (L.foldl (fun s k0 => inner i k0 meet row attempt (List.range' k0 (n - k0)) top s) s) := by
    intro L
    induction L with
    | nil => intro s _ hs; exact ⟨hs, le_rfl, by simp⟩
    | cons a L ih =>
      intro s hL hs
      rw [List.foldl_cons]
      have ha := hL a (by simp)
      by_cases hn : a ≤ n
      · obtain ⟨e1, e2, e3⟩ := inner_spec (meet := meet) (row := row) (n := n)
          (fun acc k s hs _ h2 h3 => h acc a k s hs ha h2 h3) (n - a) a top s le_rfl (by omega) hs
        obtain ⟨g1, g2, g3⟩ := ih _ (fun k hk => hL k (by simp [hk])) e1
        refine ⟨g1, e2.trans g2, fun k0 hk0 k h1 h2 => ?_⟩
        rcases List.mem_cons.mp hk0 with rfl | hk0
        · obtain ⟨t, t1, t2⟩ := e3 k (by omega) (by omega) h1
          exact ⟨t, t1, t2.trans g2⟩
        · exact g3 k0 hk0 k h1 h2
      · rw [show n - a = 0 by omega]
        obtain ⟨g1, g2, g3⟩ := ih s (fun k hk => hL k (by simp [hk])) hs
        refine ⟨g1, g2, fun k0 hk0 k h1 h2 => ?_⟩
        rcases List.mem_cons.mp hk0 with rfl | hk0
        · omega
        · exact g3 k0 hk0 k h1 h2
  obtain ⟨g1, g2, g3⟩ := key (List.range i) s (by simp) hs
  exact ⟨g1, g2, fun k0 k h1 h2 h3 => g3 k0 (by simpa using h1) k h2 h3⟩

theorem keep_snd {β : Type} (c : β) (m : ℕ) (s : β × ℕ) : (keep c m s).2 = max m s.2 := by
  unfold keep
  split
  · exact (max_eq_left (by omega)).symm
  · exact (max_eq_right (by omega)).symm

theorem keep_inv {β : Type} {P : β → ℕ → Prop} {c : β} {m : ℕ} {s : β × ℕ} (hc : P c m) (hs : P s.1 s.2) :
    P (keep c m s).1 (keep c m s).2 := by
  unfold keep
  split
  · exact hc
  · exact hs

/-! ## Merged rows -/

theorem merged_bool (row : ℕ → Bool) (a : ℕ) : ∀ l, merged (fun a b => a && b) row true a l = true ↔
    ∀ k, a ≤ k → k < a + l → row k = true := by
  have : ∀ (l a : ℕ) (acc : Bool), merged (fun a b => a && b) row acc a l = true ↔
      acc = true ∧ ∀ k, a ≤ k → k < a + l → row k = true := by
    intro l
    induction l with
    | zero =>
      intro a acc
      simp only [merged, List.range'_zero, List.foldl_nil]
      refine ⟨fun h => ⟨h, fun k _ _ => by omega⟩, fun h => h.1⟩
    | succ l ih =>
      intro a acc
      have : merged (fun a b => a && b) row acc a (l + 1) = merged (fun a b => a && b) row (acc && row a) (a + 1) l := by
        unfold merged; rw [List.range'_succ, List.foldl_cons]
      rw [this, ih, Bool.and_eq_true, and_assoc]
      refine and_congr_right fun _ => ⟨fun ⟨h1, h2⟩ k h3 h4 => ?_, fun h => ⟨h a le_rfl (by omega), fun k _ _ => h k (by omega) (by omega)⟩⟩
      rcases Nat.eq_or_lt_of_le h3 with rfl | h3
      · exact h1
      · exact h2 k (by omega) (by omega)
  intro l
  rw [this]
  simp

theorem merged_line (row : ℕ → ℕ → Bool) (a l z : ℕ) :
    merged (fun a b z => a z && b z) row (fun _ => true) a l z = merged (fun a b => a && b) (fun y => row y z) true a l := by
  have : ∀ (l a : ℕ) (acc : ℕ → Bool), merged (fun a b z => a z && b z) row acc a l z =
      merged (fun a b => a && b) (fun y => row y z) (acc z) a l := by
    intro l
    induction l with
    | zero => intro a acc; rfl
    | succ l ih =>
      intro a acc
      have h1 : merged (fun a b z => a z && b z) row acc a (l + 1) = merged (fun a b z => a z && b z) row (fun z => acc z && row a z) (a + 1) l := by
        unfold merged; rw [List.range'_succ, List.foldl_cons]
      have h2 : merged (fun a b => a && b) (fun y => row y z) (acc z) a (l + 1) =
          merged (fun a b => a && b) (fun y => row y z) (acc z && row a z) (a + 1) l := by
        unfold merged; rw [List.range'_succ, List.foldl_cons]
      rw [h1, h2, ih]
  exact this l a _

theorem merged_plane (row : ℕ → ℕ → ℕ → Bool) (a l y z : ℕ) :
    merged (fun a b y z => a y z && b y z) row (fun _ _ => true) a l y z =
      merged (fun a b => a && b) (fun x => row x y z) true a l := by
  have : ∀ (l a : ℕ) (acc : ℕ → ℕ → Bool), merged (fun a b y z => a y z && b y z) row acc a l y z =
      merged (fun a b => a && b) (fun x => row x y z) (acc y z) a l := by
    intro l
    induction l with
    | zero => intro a acc; rfl
    | succ l ih =>
      intro a acc
      have h1 : merged (fun a b y z => a y z && b y z) row acc a (l + 1) =
          merged (fun a b y z => a y z && b y z) row (fun y z => acc y z && row a y z) (a + 1) l := by
        unfold merged; rw [List.range'_succ, List.foldl_cons]
      have h2 : merged (fun a b => a && b) (fun x => row x y z) (acc y z) a (l + 1) =
          merged (fun a b => a && b) (fun x => row x y z) (acc y z && row a y z) (a + 1) l := by
        unfold merged; rw [List.range'_succ, List.foldl_cons]
      rw [h1, h2, ih]
  exact this l a _

/-! ## Ranges around the initial index -/

/-- A range that contains the initial index, within the grid except perhaps for that index. -/
def Around (n i : ℕ) (r : ℕ × ℕ) : Prop := r.1 ≤ i ∧ i ≤ r.2 ∧ (r.2 < n ∨ r.2 = i)

theorem Around.self (n i : ℕ) : Around n i (i, i) := ⟨le_rfl, le_rfl, Or.inr rfl⟩

theorem len_pos (r : ℕ × ℕ) : 1 ≤ len r := by unfold len; omega

/-- The segment found contains the initial index, and is not shorter than any other one that starts before it, unless
there is none. -/
theorem segment_spec {n i : ℕ} {best : ℕ × ℕ} (hb : Around n i best) (v : ℕ → Bool) :
    Around n i (segment n i best v) ∧
      ∀ a b, a < i → i ≤ b → b < n → (∀ z, a ≤ z → z ≤ b → v z = true) → b - a + 1 ≤ len (segment n i best v) := by
  obtain ⟨h1, h2, h3⟩ := search_spec (n := n) (i := i) (top := true) (meet := fun a b => a && b) (row := v)
    (attempt := trySegment) (I := fun s => Around n i s.1 ∧ s.2 ≤ len s.1) (m := Prod.snd) (s := (best, 1))
    (fun acc k0 k s hs g1 g2 g3 => by
      unfold trySegment
      split
      · refine ⟨keep_inv (P := fun r m => Around n i r ∧ m ≤ len r) ⟨⟨g1.le, g2, Or.inl g3⟩, le_rfl⟩ hs, ?_⟩
        rw [keep_snd]
        exact le_max_right _ _
      · exact ⟨hs, le_rfl⟩) ⟨hb, len_pos _⟩
  refine ⟨h1.1, fun a b ha hi hn hall => ?_⟩
  obtain ⟨t, -, ht⟩ := h3 a b ha hi hn
  have hm : merged (fun a b => a && b) v true a (b + 1 - a) = true :=
    (merged_bool v a _).mpr fun k g1 g2 => hall k g1 (by omega)
  rw [hm] at ht
  simp only [trySegment, if_true, keep_snd] at ht
  exact ((le_max_left _ _).trans ht).trans h1.2

/-- The rectangle found contains the initial indices, and is not smaller than any other one that starts before them on
both axes. Whatever the array, it is not smaller than any range of the first axis times the range given for the second. -/
theorem area_spec {ny nz iy iz : ℕ} {best : (ℕ × ℕ) × (ℕ × ℕ)} (hy : Around ny iy best.1) (hz : Around nz iz best.2)
    (g : ℕ → ℕ → Bool) :
    Around ny iy (area ny nz iy iz best g).1 ∧ Around nz iz (area ny nz iy iz best g).2 ∧
      ∀ a b, a < iy → iy ≤ b → b < ny →
        b - a + 1 ≤ len (area ny nz iy iz best g).1 * len (area ny nz iy iz best g).2 ∧
        ∀ c d, c < iz → iz ≤ d → d < nz → (∀ y z, a ≤ y → y ≤ b → c ≤ z → z ≤ d → g y z = true) →
          (b - a + 1) * (d - c + 1) ≤ len (area ny nz iy iz best g).1 * len (area ny nz iy iz best g).2 := by
  obtain ⟨h1, h2, h3⟩ := search_spec (n := ny) (i := iy) (top := fun _ => true) (meet := fun a b z => a z && b z) (row := g)
    (attempt := tryArea nz iz best.2)
    (I := fun s => (Around ny iy s.1.1 ∧ Around nz iz s.1.2) ∧ s.2 ≤ len s.1.1 * len s.1.2) (m := Prod.snd) (s := (best, 1))
    (fun acc k0 k s hs g1 g2 g3 => by
      unfold tryArea
      refine ⟨keep_inv (P := fun (r : (ℕ × ℕ) × (ℕ × ℕ)) m => (Around ny iy r.1 ∧ Around nz iz r.2) ∧ m ≤ len r.1 * len r.2)
        ⟨⟨⟨g1.le, g2, Or.inl g3⟩, (segment_spec hz acc).1⟩, le_rfl⟩ hs, ?_⟩
      rw [keep_snd]
      exact le_max_right _ _) ⟨⟨hy, hz⟩, Nat.mul_pos (len_pos _) (len_pos _)⟩
  refine ⟨h1.1.1, h1.1.2, fun a b ha hi hn => ?_⟩
  obtain ⟨t, -, ht⟩ := h3 a b ha hi hn
  simp only [tryArea, keep_snd] at ht
  have ht' := ((le_max_left _ _).trans ht).trans h1.2
  refine ⟨(Nat.le_mul_of_pos_right _ (len_pos _)).trans ht', fun c d hc hiz hd hall => ?_⟩
  refine (Nat.mul_le_mul_left _ ?_).trans ht'
  refine (segment_spec hz _).2 c d hc hiz hd fun z z1 z2 => ?_
  rw [merged_line]
  exact (merged_bool _ a _).mpr fun k g1 g2 => hall k z g1 (by omega) z1 z2

/-- A cuboid that contains the initial point. -/
def Box.Around (n i : Cell) (b : Box) : Prop := Cuboid.Around n.x i.x b.x ∧ Cuboid.Around n.y i.y b.y ∧ Cuboid.Around n.z i.z b.z

theorem largest_spec (n i : Cell) (g : ℕ → ℕ → ℕ → Bool) :
    (largest n i g).Around n i ∧
      ∀ a b, a < i.x → i.x ≤ b → b < n.x → ∀ c d, c < i.y → i.y ≤ d → d < n.y →
        (b - a + 1) * (d - c + 1) ≤ (largest n i g).volume ∧
        ∀ e f, e < i.z → i.z ≤ f → f < n.z →
          (∀ x y z, a ≤ x → x ≤ b → c ≤ y → y ≤ d → e ≤ z → z ≤ f → g x y z = true) →
          (b - a + 1) * (d - c + 1) * (f - e + 1) ≤ (largest n i g).volume := by
  obtain ⟨h1, h2, h3⟩ := search_spec (n := n.x) (i := i.x) (top := fun _ _ => true)
    (meet := fun a b y z => a y z && b y z) (row := g)
    (attempt := tryCuboid n i) (I := fun s => s.1.Around n i ∧ s.2 ≤ s.1.volume) (m := Prod.snd)
    (s := (⟨(i.x, i.x), (i.y, i.y), (i.z, i.z)⟩, 1))
    (fun acc k0 k s hs g1 g2 g3 => by
      unfold tryCuboid
      obtain ⟨e1, e2, -⟩ := area_spec hs.1.2.1 hs.1.2.2 acc (best := (s.1.y, s.1.z))
      refine ⟨keep_inv (P := fun (r : Box) m => r.Around n i ∧ m ≤ r.volume) ⟨⟨⟨g1.le, g2, Or.inl g3⟩, e1, e2⟩, le_rfl⟩ hs, ?_⟩
      rw [keep_snd]
      exact le_max_right _ _)
    ⟨⟨Around.self _ _, Around.self _ _, Around.self _ _⟩, by simp [Box.volume, len]⟩
  refine ⟨h1.1, fun a b ha hi hn c d hc hy hd => ?_⟩
  obtain ⟨t, t1, ht⟩ := h3 a b ha hi hn
  simp only [tryCuboid, keep_snd] at ht
  have ht' := ((le_max_left _ _).trans ht).trans h1.2
  obtain ⟨-, -, e3⟩ := area_spec t1.1.2.1 t1.1.2.2 (best := (t.1.y, t.1.z))
    (merged (fun a b y z => a y z && b y z) g (fun _ _ => true) a (b + 1 - a))
  obtain ⟨e4, e5⟩ := e3 c d hc hy hd
  simp only [Box.volume, len, mul_assoc] at ht' e4 e5 ⊢
  refine ⟨(Nat.mul_le_mul_left _ e4).trans ht', fun e f he hz hf hall => ?_⟩
  refine (Nat.mul_le_mul_left _ (e5 e f he hz hf fun y z g1 g2 g3 g4 => ?_)).trans ht'
  rw [merged_plane]
  exact (merged_bool _ a _).mpr fun k k1 k2 => hall k y z k1 (by omega) g1 g2 g3 g4

/-! ## What was merged when a candidate is tried -/

theorem merged_snoc {ρ : Type} (meet : ρ → ρ → ρ) (row : ℕ → ρ) (top : ρ) (a l : ℕ) :
    meet (merged meet row top a l) (row (a + l)) = merged meet row top a (l + 1) := by
  unfold merged
  rw [List.range'_concat, List.foldl_append]
  simp

theorem search_keeps {ρ σ : Type} {i n : ℕ} {top : ρ} {meet : ρ → ρ → ρ} {row : ℕ → ρ} {attempt : ρ → ℕ → ℕ → σ → σ}
    {I : σ → Prop}
    (h : ∀ k0 k s, I s → k0 < i → i ≤ k → k < n → I (attempt (merged meet row top k0 (k + 1 - k0)) k0 k s))
    {s : σ} (hs : I s) : I (search n i top meet row attempt s) := by
  have inner_keeps : ∀ k0, k0 < i → ∀ (l d : ℕ) (s : σ), k0 + d + l ≤ n → I s →
      I (inner i k0 meet row attempt (List.range' (k0 + d) l) (merged meet row top k0 d) s) := by
    intro k0 hk l
    induction l with
    | zero => intro d s _ hs; exact hs
    | succ l ih =>
      intro d s hl hs
      rw [List.range'_succ]
      simp only [inner]
      rw [merged_snoc meet row top k0 d]
      split
      · exact ih (d + 1) s (by omega) hs
      · refine ih (d + 1) _ (by omega) ?_
        have := h k0 (k0 + d) s hs hk (by omega) (by omega)
        rwa [show k0 + d + 1 - k0 = d + 1 by omega] at this
  unfold search
  have key : ∀ (L : List ℕ) (s : σ), (∀ k0 ∈ L, k0 < i) → I s →
      I (L.foldl (fun s k0 => inner i k0 meet row attempt (List.range' k0 (n - k0)) top s) s) := by
    intro L
    induction L with
    | nil => intro s _ hs; exact hs
    | cons a L ih =>
      intro s hL hs
      rw [List.foldl_cons]
      refine ih _ (fun k hk => hL k (by simp [hk])) ?_
      by_cases hn : a ≤ n
      · exact inner_keeps a (hL a (by simp)) (n - a) 0 s (by omega) hs
      · rw [show n - a = 0 by omega]
        exact hs
  exact key _ s (by simp) hs

theorem segment_reach (n i : ℕ) (best : ℕ × ℕ) (v : ℕ → Bool) : segment n i best v = best ∨
    ∀ z, (segment n i best v).1 ≤ z → z ≤ (segment n i best v).2 → v z = true := by
  unfold segment
  refine search_keeps (I := fun (s : (ℕ × ℕ) × ℕ) => s.1 = best ∨ ∀ z, s.1.1 ≤ z → z ≤ s.1.2 → v z = true) (fun k0 k s hs h1 h2 h3 => ?_)
    (Or.inl rfl)
  unfold trySegment
  split
  · rename_i hm
    refine keep_inv (P := fun (r : ℕ × ℕ) _ => r = best ∨ ∀ z, r.1 ≤ z → z ≤ r.2 → v z = true) (Or.inr ?_) hs
    intro z z1 z2
    exact (merged_bool v k0 _).mp hm z z1 (by simp only at z2; omega)
  · exact hs

theorem area_reach (ny nz iy iz : ℕ) (best : (ℕ × ℕ) × (ℕ × ℕ)) (g : ℕ → ℕ → Bool) :
    (area ny nz iy iz best g).2 = best.2 ∨ ∃ a b, a < iy ∧ iy ≤ b ∧ b < ny ∧
      ∀ y z, a ≤ y → y ≤ b → (area ny nz iy iz best g).2.1 ≤ z → z ≤ (area ny nz iy iz best g).2.2 → g y z = true := by
  unfold area
  refine search_keeps (I := fun (s : ((ℕ × ℕ) × (ℕ × ℕ)) × ℕ) => s.1.2 = best.2 ∨ ∃ a b, a < iy ∧ iy ≤ b ∧ b < ny ∧
      ∀ y z, a ≤ y → y ≤ b → s.1.2.1 ≤ z → z ≤ s.1.2.2 → g y z = true) (fun k0 k s hs h1 h2 h3 => ?_) (Or.inl rfl)
  unfold tryArea
  refine keep_inv (P := fun (r : (ℕ × ℕ) × (ℕ × ℕ)) _ => r.2 = best.2 ∨ ∃ a b, a < iy ∧ iy ≤ b ∧ b < ny ∧
      ∀ y z, a ≤ y → y ≤ b → r.2.1 ≤ z → z ≤ r.2.2 → g y z = true) ?_ hs
  rcases segment_reach nz iz best.2 (merged (fun a b z => a z && b z) g (fun _ => true) k0 (k + 1 - k0)) with h | h
  · exact Or.inl h
  · refine Or.inr ⟨k0, k, h1, h2, h3, fun y z y1 y2 z1 z2 => ?_⟩
    have := h z z1 z2
    rw [merged_line] at this
    exact (merged_bool _ k0 _).mp this y y1 (by omega)

theorem largest_reach (n i : Cell) (g : ℕ → ℕ → ℕ → Bool) :
    (largest n i g).z = (i.z, i.z) ∨ ∃ a b c d, (a < i.x ∧ i.x ≤ b ∧ b < n.x) ∧ (c < i.y ∧ i.y ≤ d ∧ d < n.y) ∧
      ∀ x y z, a ≤ x → x ≤ b → c ≤ y → y ≤ d → (largest n i g).z.1 ≤ z → z ≤ (largest n i g).z.2 → g x y z = true := by
  unfold largest
  refine search_keeps (I := fun (s : Box × ℕ) => s.1.z = (i.z, i.z) ∨ ∃ a b c d, (a < i.x ∧ i.x ≤ b ∧ b < n.x) ∧
      (c < i.y ∧ i.y ≤ d ∧ d < n.y) ∧
      ∀ x y z, a ≤ x → x ≤ b → c ≤ y → y ≤ d → s.1.z.1 ≤ z → z ≤ s.1.z.2 → g x y z = true)
    (fun k0 k s hs h1 h2 h3 => ?_) (Or.inl rfl)
  unfold tryCuboid
  refine keep_inv (P := fun (r : Box) _ => r.z = (i.z, i.z) ∨ ∃ a b c d, (a < i.x ∧ i.x ≤ b ∧ b < n.x) ∧
      (c < i.y ∧ i.y ≤ d ∧ d < n.y) ∧
      ∀ x y z, a ≤ x → x ≤ b → c ≤ y → y ≤ d → r.z.1 ≤ z → z ≤ r.z.2 → g x y z = true) ?_ hs
  rcases area_reach n.y n.z i.y i.z (s.1.y, s.1.z)
    (merged (fun a b y z => a y z && b y z) g (fun _ _ => true) k0 (k + 1 - k0)) with h | ⟨c, d, c1, c2, c3, h⟩
  · simp only at h ⊢
    rw [h]
    exact hs
  · refine Or.inr ⟨k0, k, c, d, ⟨h1, h2, h3⟩, ⟨c1, c2, c3⟩, fun x y z x1 x2 y1 y2 z1 z2 => ?_⟩
    have := h y z y1 y2 z1 z2
    rw [merged_plane] at this
    exact (merged_bool _ k0 _).mp this x x1 (by omega)

/-! ## Walks -/

theorem walk_iff {ok : ℝ → Prop} {diff c r : ℝ} : Walk ok diff c r ↔
    ∃ k : ℕ, r = c + k * diff ∧ (∀ j : ℕ, 1 ≤ j → j ≤ k → ok (c + j * diff)) ∧ ¬ ok (c + (k + 1 : ℕ) * diff) := by
  constructor
  · intro h
    induction h with
    | @stop c h => exact ⟨0, by simp, by omega, by simpa using h⟩
    | @go c r h1 _ ih =>
      obtain ⟨k, rfl, k2, k3⟩ := ih
      refine ⟨k + 1, by push_cast; ring, fun j j1 j2 => ?_, ?_⟩
      · rcases Nat.eq_or_lt_of_le j1 with rfl | j1
        · simpa using h1
        · have := k2 (j - 1) (by omega) (by omega)
          rw [Nat.cast_sub (by omega)] at this
          convert this using 1
          push_cast
          ring
      · convert k3 using 2
        push_cast
        ring
  · rintro ⟨k, rfl, k2, k3⟩
    induction k generalizing c with
    | zero =>
      have := Walk.stop (ok := ok) (diff := diff) (c := c) (by simpa using k3)
      simpa using this
    | succ k ih =>
      have h1 : ok (c + diff) := by simpa using k2 1 le_rfl (by omega)
      refine Walk.go h1 ?_
      have := ih (c := c + diff) (fun j j1 j2 => ?_) ?_
      · convert this using 1
        push_cast
        ring
      · have := k2 (j + 1) (by omega) (by omega)
        convert this using 1
        push_cast
        ring
      · convert k3 using 2
        push_cast
        ring

theorem toInt_nat (k : ℕ) : toInt k = k := by simp [toInt]

/-- The outer box has whole numbers of steps on both sides of the initial position. -/
theorem bounds_form {o : Args} (hs : 0 < o.step) {reach : Vec3 → Bool} {start : Vec3} {b : Outer} (h : Bounds o reach start b) (a : Axis) :
    ∃ k l : ℕ, b.lo a = coord start a - k * o.step ∧ b.hi a = coord start a + l * o.step ∧
      b.index o start a = k ∧ b.size o a = k + l ∧
      (∀ j : ℕ, 1 ≤ j → j ≤ k → Fine o reach start a (coord start a - j * o.step)) ∧
      ¬ Fine o reach start a (coord start a - (k + 1 : ℕ) * o.step) ∧
      (∀ j : ℕ, 1 ≤ j → j ≤ l → Fine o reach start a (coord start a + j * o.step)) ∧
      ¬ Fine o reach start a (coord start a + (l + 1 : ℕ) * o.step) := by
  obtain ⟨h1, h2⟩ := h a
  obtain ⟨k, k1, k2, k3⟩ := walk_iff.mp h1
  obtain ⟨l, l1, l2, l3⟩ := walk_iff.mp h2
  have e1 : ∀ j : ℕ, coord start a + j * (o.step * -1) = coord start a - j * o.step := fun j => by ring
  have e2 : ∀ j : ℕ, coord start a + j * (o.step * 1) = coord start a + j * o.step := fun j => by ring
  simp only [e1, e2] at k1 k2 k3 l1 l2 l3
  refine ⟨k, l, k1, l1, ?_, ?_, k2, k3, l2, l3⟩
  · unfold Outer.index
    rw [k1, show (coord start a - (coord start a - k * o.step)) / o.step = (k : ℕ) by field_simp; ring, toInt_nat]
  · unfold Outer.size
    rw [k1, l1, show (coord start a + l * o.step - (coord start a - k * o.step)) / o.step = ((k + l : ℕ) : ℝ) by
      push_cast; field_simp; ring, toInt_nat]

end KD.Cuboid
