import Verif.Programs.DhTable
import Mathlib.Data.List.Basic
import Mathlib.Tactic.Linarith
import Mathlib.Tactic.Ring
import Mathlib.Tactic.FieldSimp
import Mathlib.Tactic.NormNum

/-!
# Words of a text, and numbers in decimals

What a reader of a cell takes for its words, and for the value of a number.
-/

namespace KD.DhTable

open KdlConfig

/-! ## Specification -/

/-- The characters of names and numbers. -/
def wordChar (c : Char) : Bool := c.isAlphanum || c == '_'

/-- A text is made of words and of the characters between them. -/
inductive Piece
  | other (c : Char)
  | word (w : Text)

/-- The pieces of a text; words are as long as they can be. -/
def pieces : Text → List Piece
  | [] => []
  | c :: s =>
    if wordChar c then
      match pieces s with
      | .word w :: ps => .word (c :: w) :: ps
      | ps => .word [c] :: ps
    else .other c :: pieces s

/-- The words of a text. -/
def words (s : Text) : List Text := (pieces s).filterMap fun
  | .word w => some w
  | .other _ => none

/-- The text with every word changed. -/
def mapWords (f : Text → Text) (s : Text) : Text := (pieces s).flatMap fun
  | .word w => f w
  | .other c => [c]

/-- The text that a dictionary has for a word, or the word itself. -/
def meaning (d : Dict) (w : Text) : Text := (d.lookup w).getD w

/-- A dictionary can be used to replace the names in a text one after another: names are words, and are not repeated;
no name is a part of a text put in; and a name that is a part of a longer word of the text comes after that word. -/
structure Clear (d : Dict) (s : Text) : Prop where
  names : ∀ n ∈ d.map Prod.fst, n ≠ [] ∧ n.all wordChar
  once : (d.map Prod.fst).Nodup
  values : ∀ n ∈ d.map Prod.fst, ∀ v ∈ d.map Prod.snd, ¬ n <:+: v
  order : ∀ w ∈ words s, ∀ n ∈ d.map Prod.fst, n <:+: w → n = w ∨ [w, n].Sublist (d.map Prod.fst)

/-- The number of a text of digits. -/
def numeral (t : Text) : ℕ := t.foldl (fun a c => 10 * a + (c.toNat - 48)) 0

/-- The value of a number in decimals without a sign. -/
def unsigned (t : Text) : Option ℚ :=
  let i := t.takeWhile Char.isDigit
  if i = [] then none
  else match t.dropWhile Char.isDigit with
    | [] => some (numeral i)
    | '.' :: f => if f ≠ [] ∧ f.all Char.isDigit then some (numeral i + numeral f / 10 ^ f.length) else none
    | _ => none

/-- The value of a number in decimals. -/
def decimal : Text → Option ℚ
  | '-' :: t => (unsigned t).map fun v => -v
  | t => unsigned t

/-! ## Replacing words -/

/-- The pieces with the present text of every word. -/
def render (g : Text → Text) (ps : List Piece) : Text := ps.flatMap fun
  | .word w => g w
  | .other c => [c]

/-- No two words in a row, and the characters between words are not of words. -/
def Apart : List Piece → Prop
  | [] => True
  | .other c :: ps => wordChar c = false ∧ Apart ps
  | .word _ :: ps => Apart ps ∧ ∀ w ps', ps ≠ .word w :: ps'

theorem pieces_apart : ∀ s, Apart (pieces s)
  | [] => trivial
  | c :: s => by
    have ih := pieces_apart s
    unfold pieces
    split
    · next h =>
      split
      · next w ps hp => rw [hp] at ih; exact ih
      · next hp => exact ⟨ih, fun w ps' e => hp w ps' e⟩
    · next h => exact ⟨by simpa using h, ih⟩

theorem render_id : ∀ s, render id (pieces s) = s
  | [] => rfl
  | c :: s => by
    have ih := render_id s
    unfold pieces
    split
    · split
      · next w ps hp => rw [hp] at ih; simpa [render] using ih
      · next hp => simpa [render] using ih
    · simpa [render] using ih

/-- What follows a word does not go on with it. -/
def Ends (r : Text) : Prop := ∀ c r', r = c :: r' → wordChar c = false

theorem prefix_inside {n t r : Text} (hn : n.all wordChar) (hr : Ends r) (h : n <+: t ++ r) : n <+: t := by
  induction t generalizing n with
  | nil =>
    cases n with
    | nil => exact List.nil_prefix
    | cons c n =>
      obtain ⟨u, hu⟩ := h
      have := hr c _ (by simpa using hu.symm)
      simp only [List.all_cons, Bool.and_eq_true] at hn
      rw [hn.1] at this
      cases this
  | cons d t ih =>
    cases n with
    | nil => exact List.nil_prefix
    | cons c n =>
      simp only [List.all_cons, Bool.and_eq_true] at hn
      rw [List.cons_append, List.cons_prefix_cons] at h
      exact List.cons_prefix_cons.mpr ⟨h.1, ih hn.2 h.2⟩

theorem replaceFrom_skip (n v t r : Text) : replaceFrom n v t.length (t ++ r) = replaceFrom n v 0 r := by
  induction t with
  | nil => rfl
  | cons c t ih => exact ih

theorem replaceFrom_keep {n v t r : Text} (hn : n.all wordChar) (hr : Ends r) (h : ¬ n <:+: t) :
    replaceFrom n v 0 (t ++ r) = t ++ replaceFrom n v 0 r := by
  induction t with
  | nil => rfl
  | cons c t ih =>
    have h1 : ¬ n <+: c :: t := fun p => h p.isInfix
    have h2 : ¬ n <+: c :: (t ++ r) := fun p => h1 (prefix_inside hn hr p)
    have h3 : n.isPrefixOf (c :: (t ++ r)) = false := by
      rw [← Bool.not_eq_true, List.isPrefixOf_iff_prefix]; exact h2
    rw [List.cons_append, replaceFrom, h3, ih fun p => h (p.trans (List.suffix_cons c t).isInfix)]
    rfl

theorem replaceFrom_word {n v r : Text} (hn : n ≠ []) : replaceFrom n v 0 (n ++ r) = v ++ replaceFrom n v 0 r := by
  cases n with
  | nil => exact absurd rfl hn
  | cons c n =>
    have h : (c :: n).isPrefixOf (c :: (n ++ r)) = true := by
      rw [List.isPrefixOf_iff_prefix]; exact ⟨r, rfl⟩
    rw [List.cons_append, replaceFrom, h]
    simp only [if_true, List.length_cons, Nat.add_sub_cancel]
    rw [← replaceFrom_skip (c :: n) v n r]

theorem replace_render {n v : Text} (hn : n ≠ []) (hw : n.all wordChar) (g : Text → Text) :
    ∀ ps, Apart ps → (∀ w, Piece.word w ∈ ps → n = g w ∨ ¬ n <:+: g w) →
      replaceFrom n v 0 (render g ps) = render (fun w => if g w = n then v else g w) ps := by
  intro ps
  induction ps with
  | nil => exact fun _ _ => rfl
  | cons p ps ih =>
    intro ha h
    have hs := fun w hm => h w (List.mem_cons_of_mem _ hm)
    cases p with
    | other c =>
      have h1 := ih ha.2 hs
      have h2 : replaceFrom n v 0 ([c] ++ render g ps) = [c] ++ replaceFrom n v 0 (render g ps) := by
        cases n with
        | nil => exact absurd rfl hn
        | cons d n =>
          have h3 : (d :: n).isPrefixOf (c :: render g ps) = false := by
            rw [← Bool.not_eq_true, List.isPrefixOf_iff_prefix]
            intro hp
            simp only [List.all_cons, Bool.and_eq_true] at hw
            rw [List.cons_prefix_cons] at hp
            rw [hp.1, ha.1] at hw
            cases hw.1
          rw [List.singleton_append, replaceFrom, h3]
          rfl
      show replaceFrom n v 0 ([c] ++ render g ps) = [c] ++ render _ ps
      rw [h2, h1]
    | word w =>
      have h1 := ih ha.1 hs
      have hr : Ends (render g ps) := by
        intro c r' hc
        cases ps with
        | nil => cases hc
        | cons q ps =>
          cases q with
          | other d =>
            have : d = c := by
              have : d :: render g ps = c :: r' := hc
              exact (List.cons.inj this).1
            rw [← this]
            exact ha.1.1
          | word u => exact absurd rfl (ha.2 u ps)
      show replaceFrom n v 0 (g w ++ render g ps) = (if g w = n then v else g w) ++ render _ ps
      rcases h w List.mem_cons_self with h2 | h2
      · rw [if_pos h2.symm, ← h2, replaceFrom_word hn, h1]
      · have : g w ≠ n := fun e => h2 (e ▸ List.infix_rfl)
        rw [if_neg this, replaceFrom_keep hw hr h2, h1]

theorem render_congr {g g' : Text → Text} {ps : List Piece} (h : ∀ w, Piece.word w ∈ ps → g w = g' w) :
    render g ps = render g' ps := by
  induction ps with
  | nil => rfl
  | cons p ps ih =>
    have h1 := ih fun w hm => h w (List.mem_cons_of_mem _ hm)
    cases p with
    | other c => exact congrArg (fun l => [c] ++ l) h1
    | word w =>
      show g w ++ render g ps = g' w ++ render g' ps
      rw [h1, h w List.mem_cons_self]

open Classical in
theorem fold_render {V : List Text} {ps : List Piece} (ha : Apart ps) :
    ∀ (d : Dict) (g : Text → Text), (∀ n ∈ d.map Prod.fst, n ≠ [] ∧ n.all wordChar) → (d.map Prod.fst).Nodup →
      (∀ n ∈ d.map Prod.fst, ∀ v ∈ V, ¬ n <:+: v) → (∀ v ∈ d.map Prod.snd, v ∈ V) →
      (∀ w, Piece.word w ∈ ps → g w ∈ V ∨ g w = w) →
      (∀ w, Piece.word w ∈ ps → g w ∉ V → ∀ n ∈ d.map Prod.fst, n <:+: w → n = w ∨ [w, n].Sublist (d.map Prod.fst)) →
      replaceAll d (render g ps) = render (fun w => if g w ∈ V then g w else meaning d w) ps := by
  intro d
  induction d with
  | nil =>
    intro g _ _ _ _ hg _
    refine render_congr fun w hw => ?_
    show g w = if g w ∈ V then g w else w
    rcases hg w hw with h | h
    · rw [if_pos h]
    · split
      · rfl
      · exact h
  | cons nv d ih =>
    obtain ⟨n, v⟩ := nv
    intro g hn hu hv hV hg ho
    simp only [List.map_cons, List.mem_cons, List.nodup_cons] at hn hu hv hV ho
    have hn1 := hn n (Or.inl rfl)
    have hstep : ∀ w, Piece.word w ∈ ps → n = g w ∨ ¬ n <:+: g w := by
      intro w hw
      by_cases hgV : g w ∈ V
      · exact Or.inr (hv n (Or.inl rfl) _ hgV)
      · rcases hg w hw with h | h
        · exact absurd h hgV
        · rw [h]
          by_cases hi : n <:+: w
          · rcases ho w hw hgV n (Or.inl rfl) hi with h2 | h2
            · exact Or.inl h2
            · cases h2 with
              | cons _ h3 => exact absurd (h3.subset (by simp)) hu.1
              | cons_cons _ h3 => exact Or.inl rfl
          · exact Or.inr hi
    have h1 := replace_render (v := v) hn1.1 hn1.2 g ps ha hstep
    have h2 := ih (fun w => if g w = n then v else g w) (fun m hm => hn m (Or.inr hm)) hu.2
      (fun m hm => hv m (Or.inr hm)) (fun x hx => hV x (Or.inr hx))
      (fun w hw => by
        show (if g w = n then v else g w) ∈ V ∨ (if g w = n then v else g w) = w
        by_cases h : g w = n
        · rw [if_pos h]; exact Or.inl (hV v (Or.inl rfl))
        · rw [if_neg h]; exact hg w hw)
      (fun w hw hm m hd hi => by
        have hm' : (if g w = n then v else g w) ∉ V := hm
        by_cases h : g w = n
        · rw [if_pos h] at hm'; exact absurd (hV v (Or.inl rfl)) hm'
        · rw [if_neg h] at hm'
          have hgw : g w = w := (hg w hw).resolve_left hm'
          rcases ho w hw hm' m (Or.inr hd) hi with h3 | h3
          · exact Or.inl h3
          · cases h3 with
            | cons _ h4 => exact Or.inr h4
            | cons_cons _ h4 => exact absurd hgw h)
    show replaceAll d (replace n v (render g ps)) = _
    rw [replace, if_neg hn1.1, h1, h2]
    refine render_congr fun w hw => ?_
    show (if (if g w = n then v else g w) ∈ V then (if g w = n then v else g w) else meaning d w) =
      if g w ∈ V then g w else meaning ((n, v) :: d) w
    by_cases hgV : g w ∈ V
    · have : g w ≠ n := fun e => hv n (Or.inl rfl) _ hgV (e ▸ List.infix_rfl)
      simp only [if_neg this, if_pos hgV]
    · have hgw : g w = w := (hg w hw).resolve_left hgV
      by_cases h : g w = n
      · simp only [if_pos h, if_neg hgV, if_pos (hV v (Or.inl rfl))]
        rw [hgw] at h
        simp [meaning, List.lookup, h]
      · simp only [if_neg h, if_neg hgV]
        rw [hgw] at h
        have : (w == n) = false := by simpa using h
        simp [meaning, List.lookup, this]

theorem mem_words {s w : Text} : w ∈ words s ↔ Piece.word w ∈ pieces s := by
  unfold words
  rw [List.mem_filterMap]
  constructor
  · rintro ⟨p, hp, h⟩
    cases p with
    | other c => cases h
    | word u => cases h; exact hp
  · exact fun h => ⟨_, h, rfl⟩

/-- Replacing the names one after another changes the words and nothing else. -/
theorem replaceAll_clear {d : Dict} {s : Text} (h : Clear d s) : replaceAll d s = mapWords (meaning d) s := by
  classical
  by_cases hd : d = []
  · subst hd
    exact (render_id s).symm
  have h1 := fold_render (V := d.map Prod.snd) (pieces_apart s) d id h.names h.once h.values (fun _ hv => hv)
    (fun _ _ => Or.inr rfl) (fun w hw _ => h.order w (mem_words.mpr hw))
  rw [render_id] at h1
  rw [h1]
  refine render_congr fun w hw => ?_
  show (if w ∈ d.map Prod.snd then w else meaning d w) = meaning d w
  split
  · next hm =>
    have : d.lookup w = none := by
      rw [List.lookup_eq_none_iff]
      intro p hp
      have h2 := h.values p.1 (List.mem_map_of_mem hp) w hm
      have : w ≠ p.1 := fun e => h2 (e ▸ List.infix_rfl)
      simpa using this
    simp [meaning, this]
  · rfl

theorem replaceAll_append (d e : Dict) (s : Text) : replaceAll (d ++ e) s = replaceAll e (replaceAll d s) :=
  List.foldl_append

/-! ## Numbers in decimals -/

theorem numeral_from (t : Text) (a : ℕ) :
    t.foldl (fun a c => 10 * a + (c.toNat - 48)) a = a * 10 ^ t.length + numeral t := by
  induction t generalizing a with
  | nil => simp [numeral]
  | cons c t ih =>
    unfold numeral
    rw [List.foldl_cons, List.foldl_cons, ih, ih, List.length_cons, pow_succ]
    ring

theorem numeral_append (s t : Text) : numeral (s ++ t) = numeral s * 10 ^ t.length + numeral t := by
  rw [← numeral_from]
  exact List.foldl_append

theorem digit_cases (n : ℕ) : (digit n).isDigit = true ∧ (digit n).toNat - 48 = n % 10 := by
  unfold digit
  have h : n % 10 < 10 := Nat.mod_lt _ (by decide)
  generalize n % 10 = k at h
  have : ∀ k < 10, (Char.ofNat (48 + k)).isDigit = true ∧ (Char.ofNat (48 + k)).toNat - 48 = k := by decide
  exact this k h

theorem padded_length (k n : ℕ) : (padded k n).length = k := by
  induction k generalizing n with
  | zero => rfl
  | succ k ih => simp [padded, ih]

theorem padded_digits (k n : ℕ) : ∀ c ∈ padded k n, c.isDigit = true := by
  induction k generalizing n with
  | zero => intro c hc; cases hc
  | succ k ih =>
    intro c hc
    rw [padded, List.mem_append] at hc
    rcases hc with h | h
    · exact ih _ c h
    · rw [List.mem_singleton] at h
      rw [h]; exact (digit_cases n).1

theorem padded_numeral (k n : ℕ) : numeral (padded k n) = n % 10 ^ k := by
  induction k generalizing n with
  | zero => simp [padded, numeral, Nat.mod_one]
  | succ k ih =>
    rw [padded, numeral_append, ih]
    have h1 : numeral [digit n] = n % 10 := by
      show 10 * 0 + ((digit n).toNat - 48) = n % 10
      rw [(digit_cases n).2]; omega
    rw [h1, List.length_singleton, pow_one, pow_succ, Nat.mul_comm (10 ^ k) 10, Nat.mod_mul]
    ring

theorem whole_digits (n : ℕ) : ∀ c ∈ whole n, c.isDigit = true := padded_digits _ _

theorem whole_ne (n : ℕ) : whole n ≠ [] := fun h => by
  have := padded_length (Nat.log 10 n + 1) n
  rw [show padded (Nat.log 10 n + 1) n = [] from h] at this
  cases this

theorem whole_numeral (n : ℕ) : numeral (whole n) = n := by
  unfold whole
  rw [padded_numeral]
  exact Nat.mod_eq_of_lt (Nat.lt_pow_succ_log_self (by decide) n)

theorem rstrip_end (c x : Char) (s : Text) : rstrip c (s ++ [x]) = if x = c then rstrip c s else s ++ [x] := by
  unfold rstrip
  rw [List.reverse_append, List.reverse_singleton, List.singleton_append, List.dropWhile_cons]
  by_cases h : x = c
  · simp [h]
  · have : (x == c) = false := by simpa using h
    simp [this, h]

theorem rstrip_none {c : Char} {s : Text} (h : ∀ t x, s = t ++ [x] → x ≠ c) : rstrip c s = s := by
  rcases List.eq_nil_or_concat s with e | ⟨t, x, e⟩
  · rw [e]; rfl
  · rw [List.concat_eq_append] at e
    rw [e, rstrip_end, if_neg (h t x e)]

theorem strip {a : Text} (ha : ∀ t x, a = t ++ [x] → x ≠ '.') : ∀ f : Text, (∀ c ∈ f, c.isDigit = true) →
    ∃ f' k, f = f' ++ List.replicate k '0' ∧
      rstrip '.' (rstrip '0' (a ++ '.' :: f)) = if f' = [] then a else a ++ '.' :: f' := by
  intro f
  induction f using List.reverseRecOn with
  | nil =>
    intro _
    refine ⟨[], 0, rfl, ?_⟩
    rw [rstrip_end, if_neg (by decide), rstrip_end, if_pos rfl, rstrip_none ha, if_pos rfl]
  | append_singleton f x ih =>
    intro hf
    have h1 : a ++ '.' :: (f ++ [x]) = (a ++ '.' :: f) ++ [x] := by simp
    by_cases hx : x = '0'
    · obtain ⟨f', k, e1, e2⟩ := ih fun c hc => hf c (by simp [hc])
      refine ⟨f', k + 1, ?_, ?_⟩
      · rw [e1, hx, List.replicate_succ', List.append_assoc]
      · rw [h1, rstrip_end, if_pos hx, e2]
    · refine ⟨f ++ [x], 0, by simp, ?_⟩
      have hd : x ≠ '.' := fun e => by
        have := hf x (by simp)
        rw [e] at this
        exact absurd this (by decide)
      rw [h1, rstrip_end, if_neg hx, rstrip_end, if_neg hd, if_neg (by simp)]

theorem digits_end {a : Text} (h : ∀ c ∈ a, c.isDigit = true) : ∀ t x, a = t ++ [x] → x ≠ '.' := by
  intro t x e hx
  have := h x (by simp [e])
  rw [hx] at this
  exact absurd this (by decide)

theorem numeral_zeros (f : Text) (k : ℕ) :
    (numeral (f ++ List.replicate k '0') : ℚ) / 10 ^ (f ++ List.replicate k '0').length =
      numeral f / 10 ^ f.length := by
  have h : numeral (List.replicate k '0') = 0 := by
    induction k with
    | zero => rfl
    | succ k ih =>
      rw [List.replicate_succ', numeral_append, ih]
      rfl
  rw [numeral_append, h, List.length_append, List.length_replicate, pow_add]
  push_cast
  field_simp
  ring

theorem unsigned_whole {i : Text} (h0 : i ≠ []) (h : ∀ c ∈ i, c.isDigit = true) :
    unsigned i = some (numeral i : ℚ) := by
  have h1 : i.takeWhile Char.isDigit = i := by
    have := List.takeWhile_append_of_pos (l₂ := []) h
    simpa using this
  have h2 : i.dropWhile Char.isDigit = [] := by
    have := List.dropWhile_append_of_pos (l₂ := []) h
    simpa using this
  unfold unsigned
  rw [h1, h2, if_neg h0]

theorem unsigned_point {i f : Text} (h0 : i ≠ []) (h : ∀ c ∈ i, c.isDigit = true) (g0 : f ≠ [])
    (g : ∀ c ∈ f, c.isDigit = true) :
    unsigned (i ++ '.' :: f) = some (numeral i + numeral f / 10 ^ f.length : ℚ) := by
  have h1 : (i ++ '.' :: f).takeWhile Char.isDigit = i := by
    rw [List.takeWhile_append_of_pos h, List.takeWhile_cons_of_neg (by decide), List.append_nil]
  have h2 : (i ++ '.' :: f).dropWhile Char.isDigit = '.' :: f := by
    rw [List.dropWhile_append_of_pos h, List.dropWhile_cons_of_neg (by decide)]
  unfold unsigned
  rw [h1, h2, if_neg h0]
  exact if_pos ⟨g0, List.all_eq_true.mpr g⟩

theorem unsigned_stripped {p i f : Text} (hp : ∀ c ∈ p, c ≠ '.') (h0 : i ≠ []) (h : ∀ c ∈ i, c.isDigit = true)
    (g : ∀ c ∈ f, c.isDigit = true) :
    ∃ t, rstrip '.' (rstrip '0' (p ++ i ++ '.' :: f)) = p ++ t ∧
      unsigned t = some (numeral i + numeral f / 10 ^ f.length : ℚ) ∧ ∃ c r, t = c :: r ∧ c.isDigit = true := by
  obtain ⟨c, r, hi⟩ := List.exists_cons_of_ne_nil h0
  have hc : c.isDigit = true := h c (by simp [hi])
  have hpi : ∀ t x, p ++ i = t ++ [x] → x ≠ '.' := by
    intro t x e hx
    have hm : x ∈ p ++ i := by simp [e]
    rcases List.mem_append.mp hm with hm | hm
    · exact hp x hm hx
    · have := h x hm
      rw [hx] at this
      exact absurd this (by decide)
  obtain ⟨f', k, e1, e2⟩ := strip hpi f g
  by_cases hf : f' = []
  · refine ⟨i, by rw [e2, if_pos hf], ?_, c, r, hi, hc⟩
    rw [unsigned_whole h0 h, e1, numeral_zeros, hf]
    simp [numeral]
  · refine ⟨i ++ '.' :: f', by rw [e2, if_neg hf, List.append_assoc], ?_, c, r ++ '.' :: f', by rw [hi]; rfl, hc⟩
    rw [unsigned_point h0 h hf fun c hc => g c (by rw [e1]; simp [hc]), e1, numeral_zeros]

theorem decimal_digit {t : Text} (h : ∃ c r, t = c :: r ∧ c.isDigit = true) : decimal t = unsigned t := by
  obtain ⟨c, r, e, hc⟩ := h
  have : c ≠ '-' := fun e => by rw [e] at hc; exact absurd hc (by decide)
  rw [e]
  unfold decimal
  split
  · next h => exact absurd (List.cons.inj h).1 this
  · rfl

/-- A printed number is the number to fifteen decimals. -/
theorem number_decimal (x : ℝ) : ∃ v : ℚ, decimal (number x) = some v ∧ |(v : ℝ) - x| ≤ 1 / 2 / 10 ^ 15 := by
  classical
  set n := (round (|x| * 10 ^ 15)).toNat with hn
  have hr : 0 ≤ round (|x| * 10 ^ 15) := by
    rw [round_eq]
    exact Int.floor_nonneg.mpr (by positivity)
  have hnr : (n : ℝ) = round (|x| * 10 ^ 15) := by
    have : (n : ℤ) = round (|x| * 10 ^ 15) := Int.toNat_of_nonneg hr
    exact_mod_cast this
  have hclose : |(n : ℝ) / 10 ^ 15 - (|x|)| ≤ 1 / 2 / 10 ^ 15 := by
    have h1 := abs_sub_round (|x| * 10 ^ 15)
    rw [← hnr, abs_sub_comm] at h1
    have h2 : (n : ℝ) / 10 ^ 15 - |x| = (n - |x| * 10 ^ 15) / 10 ^ 15 := by field_simp
    rw [h2, abs_div, abs_of_pos (show (0 : ℝ) < 10 ^ 15 by positivity)]
    exact div_le_div_of_nonneg_right h1 (by positivity)
  have hp : ∀ c ∈ (if x < 0 then ['-'] else []), c ≠ '.' := by
    intro c hc
    split at hc
    · rw [List.mem_singleton] at hc; rw [hc]; decide
    · cases hc
  obtain ⟨t, e1, e2, e3⟩ := unsigned_stripped (p := if x < 0 then ['-'] else []) (i := whole (n / 10 ^ 15))
    (f := padded 15 (n % 10 ^ 15)) hp (whole_ne _) (whole_digits _) (padded_digits _ _)
  have hval : (numeral (whole (n / 10 ^ 15)) + numeral (padded 15 (n % 10 ^ 15)) /
      10 ^ (padded 15 (n % 10 ^ 15)).length : ℚ) = n / 10 ^ 15 := by
    rw [whole_numeral, padded_numeral, padded_length, Nat.mod_mod]
    have := Nat.div_add_mod n (10 ^ 15)
    have h2 : (n : ℚ) = 10 ^ 15 * (n / 10 ^ 15 : ℕ) + (n % 10 ^ 15 : ℕ) := by exact_mod_cast this.symm
    rw [eq_div_iff (by positivity), add_mul, div_mul_cancel₀ _ (by positivity)]
    rw [h2]
    ring_nf
  rw [hval] at e2
  have htmp : rstrip '.' (rstrip '0' (fixed15 x)) = (if x < 0 then ['-'] else []) ++ t := by
    unfold fixed15
    simp only
    rw [← hn]
    convert e1 using 6
  by_cases hx : x < 0
  · rw [if_pos hx] at htmp
    refine ⟨-(n / 10 ^ 15), ?_, ?_⟩
    · unfold number
      simp only
      rw [htmp]
      split
      · next h =>
        have ht : t = ['0'] := (List.cons.inj h).2
        rw [ht] at e2
        have hz : unsigned ['0'] = some ((0 : ℕ) : ℚ) := unsigned_whole (i := ['0']) (by decide) (by decide)
        rw [hz] at e2
        rw [← Option.some.inj e2]
        exact hz.trans (by norm_num)
      · show (unsigned t).map (fun v => -v) = _
        rw [e2]; rfl
    · rw [abs_of_neg hx] at hclose
      push_cast
      rw [← abs_neg]
      convert hclose using 2
      ring
  · rw [if_neg hx, List.nil_append] at htmp
    refine ⟨n / 10 ^ 15, ?_, ?_⟩
    · unfold number
      simp only
      rw [htmp]
      split
      · next h =>
        obtain ⟨c, r, e, hc⟩ := e3
        rw [h] at e
        rw [← (List.cons.inj e).1] at hc
        exact absurd hc (by decide)
      · rw [decimal_digit e3, e2]
    · rw [abs_of_nonneg (not_lt.mp hx)] at hclose
      push_cast
      exact hclose

end KD.DhTable
