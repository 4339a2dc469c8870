import Verif.Programs.DhTableLemmas
import Verif.Kdl.ChainLemmas

/-!
# C93: The scripts for DH tables read the arm of the table

A cell of the table means its text with the joints at zero and with every length in metres, evaluated. The script
prints the pose of the arm with these parameters to fifteen decimals, ready for a configuration, and the viewer gets the
segments of that arm, as long as no name is a part of a longer one that comes later. Otherwise the shorter name is
replaced inside the longer one: with `l1` before `l10` the length `l10` is read as that of `l1` with a zero behind, and
joint 28 is taken for an offset of 0.08.
-/

namespace KD.DhTable

open KdlConfig

/-! ## Specification -/

/-- The names of the joints, from `q1` to `q27`. -/
def jointNames : List Text := (List.range' 1 27).map fun i => 'q' :: Nat.toDigits 10 i

/-- A word with the joints at zero. -/
def atZero (w : Text) : Text := if w ∈ jointNames then ['0', '.', '0'] else w

/-- A word with the joints at zero and the lengths in metres. -/
def inMetres (ls : Dict) (w : Text) : Text := if w ∈ jointNames then ['0', '.', '0'] else meaning ls w

/-- What a row of the table means: offset and D may have joints, D and A lengths, and alpha none of them. -/
structure Means (py : Python) (ls : Dict) (row : List Text) (l : Dh) : Prop where
  offset : ∃ t, row[1]? = some t ∧ py.eval (mapWords atZero t) = some l.offset
  d : ∃ t, row[2]? = some t ∧ py.eval (mapWords (inMetres ls) t) = some l.d
  a : ∃ t, row[3]? = some t ∧ py.eval (mapWords (meaning ls) t) = some l.a
  alpha : ∃ t, row[4]? = some t ∧ py.eval t = some l.alpha

/-- The names that the script knows, in the order in which it replaces them. -/
def names (ls : Dict) : Dict := twoDigits ++ oneDigit ++ ls

/-- The names in the cells of a row can be told apart. -/
structure ClearRow (ls : Dict) (row : List Text) : Prop where
  offset : ∀ t, row[1]? = some t → Clear (twoDigits ++ oneDigit) t
  d : ∀ t, row[2]? = some t → Clear (names ls) t
  a : ∀ t, row[3]? = some t → Clear ls t

/-- The pose of an arm: each link is a turn of its joint about z followed by the transform of its DH parameters. -/
noncomputable def armPose : List Dh → List ℝ → Frame
  | l :: ls, q :: qs => ⟨Mat3.rotZ q, 0⟩ * (dhFrame l.a (degToRad l.alpha) l.d (degToRad l.offset) * armPose ls qs)
  | _, _ => 1

/-- The elements of a pose, in rows. -/
def entries (f : Frame) : List ℝ :=
  [f.M.xx, f.M.xy, f.M.xz, f.p.x, f.M.yx, f.M.yy, f.M.yz, f.p.y, f.M.zx, f.M.zy, f.M.zz, f.p.z, 0, 0, 0, 1]

/-- A text is a number to fifteen decimals. -/
def Shows (t : Text) (x : ℝ) : Prop := ∃ v : ℚ, decimal t = some v ∧ |(v : ℝ) - x| ≤ 1 / 2 / 10 ^ 15

/-! ## Proofs -/

theorem joint_names_replaced : ∀ w ∈ jointNames, (twoDigits ++ oneDigit).lookup w = some ['0', '.', '0'] := by decide

theorem mem_jointNames : ∀ w, w ∈ jointNames ↔ w ∈ (twoDigits ++ oneDigit).map Prod.fst := by
  have h1 : ∀ w ∈ jointNames, w ∈ (twoDigits ++ oneDigit).map Prod.fst := by decide
  have h2 : ∀ w ∈ (twoDigits ++ oneDigit).map Prod.fst, w ∈ jointNames := by decide
  exact fun w => ⟨h1 w, h2 w⟩

theorem lookup_other {w : Text} (h : w ∉ jointNames) : (twoDigits ++ oneDigit).lookup w = none := by
  rw [List.lookup_eq_none_iff]
  intro p hp
  have : w ≠ p.1 := fun e => h (by rw [mem_jointNames, e]; exact List.mem_map_of_mem hp)
  simpa using this

theorem meaning_joints : meaning (twoDigits ++ oneDigit) = atZero := by
  funext w
  unfold meaning atZero
  split
  · next h => rw [joint_names_replaced w h]; rfl
  · next h => rw [lookup_other h]; rfl

theorem meaning_names (ls : Dict) : meaning (names ls) = inMetres ls := by
  funext w
  unfold meaning inMetres names
  rw [List.lookup_append]
  split
  · next h => rw [joint_names_replaced w h]; rfl
  · next h => rw [lookup_other h]; rfl

theorem readRow_iff {py : Python} {ls : Dict} {row : List Text} (h : ClearRow ls row) (l : Dh) :
    readRow py ls row = some l ↔ Means py ls row l := by
  have e1 : ∀ t, row[1]? = some t → replaceAll oneDigit (replaceAll twoDigits t) = mapWords atZero t := by
    intro t ht
    rw [← replaceAll_append, replaceAll_clear (h.offset t ht), meaning_joints]
  have e2 : ∀ t, row[2]? = some t →
      replaceAll ls (replaceAll oneDigit (replaceAll twoDigits t)) = mapWords (inMetres ls) t := by
    intro t ht
    rw [← replaceAll_append, ← replaceAll_append]
    show replaceAll (names ls) t = _
    rw [replaceAll_clear (h.d t ht), meaning_names]
  have e3 : ∀ t, row[3]? = some t → replaceAll ls t = mapWords (meaning ls) t := fun t ht => replaceAll_clear (h.a t ht)
  unfold readRow
  simp only [Option.bind_eq_bind, Option.bind_eq_some_iff, Option.pure_def, Option.some.injEq]
  constructor
  · rintro ⟨t1, h1, o, ho, t2, h2, d, hd, t3, h3, a, ha, t4, h4, al, hal, rfl⟩
    exact ⟨⟨t1, h1, by rw [← e1 t1 h1]; exact ho⟩, ⟨t2, h2, by rw [← e2 t2 h2]; exact hd⟩,
      ⟨t3, h3, by rw [← e3 t3 h3]; exact ha⟩, ⟨t4, h4, hal⟩⟩
  · rintro ⟨⟨t1, h1, ho⟩, ⟨t2, h2, hd⟩, ⟨t3, h3, ha⟩, ⟨t4, h4, hal⟩⟩
    exact ⟨t1, h1, l.offset, by rw [e1 t1 h1]; exact ho, t2, h2, l.d, by rw [e2 t2 h2]; exact hd, t3, h3, l.a,
      by rw [e3 t3 h3]; exact ha, t4, h4, l.alpha, hal, rfl⟩

theorem mapM_iff {α β : Type} {f : α → Option β} {R : α → β → Prop} : ∀ {rows : List α} {ds : List β},
    (∀ r ∈ rows, ∀ d, f r = some d ↔ R r d) → (rows.mapM f = some ds ↔ List.Forall₂ R rows ds) := by
  intro rows
  induction rows with
  | nil =>
    intro ds _
    rw [List.mapM_nil, List.forall₂_nil_left_iff]
    exact ⟨fun h => (Option.some.inj h).symm, fun h => by rw [h]; rfl⟩
  | cons r rows ih =>
    intro ds h
    have ih' := fun ds => ih (ds := ds) fun r hr => h r (List.mem_cons_of_mem _ hr)
    rw [List.mapM_cons]
    simp only [Option.bind_eq_bind, Option.bind_eq_some_iff, Option.pure_def, Option.some.injEq]
    constructor
    · rintro ⟨d, hd, ds', hds, rfl⟩
      exact List.Forall₂.cons ((h r List.mem_cons_self d).mp hd) ((ih' ds').mp hds)
    · intro hf
      cases hf with
      | cons h1 h2 => exact ⟨_, (h r List.mem_cons_self _).mpr h1, _, (ih' _).mpr h2, rfl⟩

theorem segment_pose (l : Dh) (q : ℝ) :
    l.segment.pose q = ⟨Mat3.rotZ q, 0⟩ * dhFrame l.a (degToRad l.alpha) l.d (degToRad l.offset) := by
  unfold Dh.segment Dh.frame Segment.make Segment.pose joint Joint.pose
  simp only [mul_zero, add_zero, one_mul]
  ext <;> simp [Frame.inv, Frame.act, Mat3.rotZ]

theorem segment_moves (l : Dh) : l.segment.joint.type ≠ .none := by
  show JointType.rotZ ≠ .none
  decide

theorem segments_joints (ds : List Dh) : Chain.nJoints (ds.map Dh.segment) = ds.length := by
  induction ds with
  | nil => rfl
  | cons d ds ih =>
    unfold Chain.nJoints at ih ⊢
    rw [List.map_cons, List.filter_cons_of_pos (by simpa using segment_moves d), List.length_cons, ih,
      List.length_cons]

theorem segments_fk (ds : List Dh) : ∀ q : List ℝ, q.length = ds.length →
    Chain.fk (ds.map Dh.segment) q = some (armPose ds q) := by
  induction ds with
  | nil =>
    intro q hq
    rw [List.length_eq_zero_iff.mp hq]
    rfl
  | cons d ds ih =>
    intro q hq
    cases q with
    | nil => cases hq
    | cons x q =>
      have h := ih q (by simpa using hq)
      unfold Chain.fk at h ⊢
      rw [List.map_cons, Chain.fkLoop, if_pos (segment_moves d)]
      rw [Chain.fkLoop_acc, h, segment_pose, one_mul, armPose]
      exact congrArg some (mul_assoc _ _ _)

theorem shows_number (x : ℝ) : Shows (number x) x := number_decimal x

theorem shows_printed (f : Frame) : List.Forall₂ Shows (printed f) (entries f) := by
  have h0 : Shows ['0'] 0 := ⟨0, by decide, by norm_num⟩
  have h1 : Shows ['1'] 1 := ⟨1, by decide, by norm_num⟩
  unfold printed entries
  iterate 12 refine List.Forall₂.cons (shows_number _) ?_
  exact .cons h0 (.cons h0 (.cons h0 (.cons h1 .nil)))

theorem script_eq {py : Python} {L R : List (List Text)} {ds : List Dh} (h : links py L R = some ds) :
    script py L R = some (printed (armPose ds (List.replicate ds.length 0))) := by
  unfold script
  simp only [h, Option.bind_eq_bind, Option.bind_some, segments_joints, Option.pure_def]
  rw [segments_fk ds _ (List.length_replicate ..)]
  rfl

/-! ## Theorems -/

/-- Replacing the names of a dictionary one after another in a text changes every word that is a name into its value
and leaves the rest of the text, if no name is a part of a value or of a longer word that does not come before it. -/
theorem C93_words_replaced {d : Dict} {s : Text} (h : Clear d s) : replaceAll d s = mapWords (meaning d) s :=
  replaceAll_clear h

/-- The dictionary of lengths has for each name the length in metres of the last row with that name. -/
theorem C93_lengths {py : Python} {L : List (List Text)} {ls : Dict} (h : lengths py L = some ls) (n : Text) :
    ls.lookup n = (((L.drop 1).reverse.find? fun row => row[0]? == some n).bind (·[1]?)).bind py.metres := by
  unfold lengths at h
  generalize L.drop 1 = rows at h
  induction rows using List.reverseRecOn generalizing ls with
  | nil => rw [← Option.some.inj h]; rfl
  | append_singleton rows row ih =>
    rw [List.foldlM_append] at h
    simp only [Option.bind_eq_bind, Option.bind_eq_some_iff, List.foldlM_cons, List.foldlM_nil, Option.pure_def,
      addLength, Option.some.injEq] at h
    obtain ⟨d, hd, d', ⟨name, h0, mm, h1, v, hv, hd'⟩, rfl⟩ := h
    have hl : ∀ d : Dict, (assign name v d).lookup n = if n = name then some v else d.lookup n := by
      intro d
      induction d with
      | nil =>
        by_cases e : n = name
        · simp [assign, e]
        · have : (n == name) = false := by simpa using e
          simp [assign, List.lookup, e, this]
      | cons kv d ih =>
        obtain ⟨k, w⟩ := kv
        unfold assign
        by_cases e : k = name
        · rw [if_pos e]
          by_cases e2 : n = name
          · simp [List.lookup, e2]
          · have h3 : (n == name) = false := by simpa using e2
            simp [List.lookup, e2, h3, e]
        · rw [if_neg e]
          by_cases e2 : n = name
          · have h3 : (n == k) = false := by
              rw [e2]; simpa using fun h => e h.symm
            rw [List.lookup, h3, ih, if_pos e2, if_pos e2]
          · rw [if_neg e2] at ih ⊢
            by_cases e3 : n = k
            · simp [List.lookup, e3]
            · have h3 : (n == k) = false := by simpa using e3
              simp [List.lookup, h3, ih]
    rw [← hd', hl, List.reverse_append, List.reverse_singleton, List.singleton_append, List.find?_cons, h0]
    by_cases e : n = name
    · simp [e, h1, hv]
    · have h3 : (some name == some n) = false := by simpa using fun h => e h.symm
      rw [h3, if_neg e]
      exact ih hd

/-- The cells of joints are clear as soon as every word with a joint in it is a joint from 1 to 27. -/
theorem C93_joints_clear {t : Text} (h : ∀ w ∈ words t, ∀ n ∈ jointNames, n <:+: w → w ∈ jointNames) :
    Clear (twoDigits ++ oneDigit) t := by
  refine ⟨by decide, by decide, by decide, fun w hw n hn hi => ?_⟩
  have h1 := (mem_jointNames w).mp (h w hw n ((mem_jointNames n).mpr hn) hi)
  have h2 : ∀ w ∈ (twoDigits ++ oneDigit).map Prod.fst, ∀ n ∈ (twoDigits ++ oneDigit).map Prod.fst, n <:+: w →
      n = w ∨ [w, n].Sublist ((twoDigits ++ oneDigit).map Prod.fst) := by decide
  exact h2 w h1 n hn hi

/-- The script prints the pose of the arm of the table with its joints at zero, to fifteen decimals, whenever the cells
of the table mean something and the names in them can be told apart; it prints nothing else. -/
theorem C93_prints_pose_partial {py : Python} {L R : List (List Text)} {ls : Dict} (hls : lengths py L = some ls)
    (hc : ∀ row ∈ R.drop 1, ClearRow ls row) :
    (∀ ds, List.Forall₂ (Means py ls) (R.drop 1) ds → ∃ out, script py L R = some out ∧
      List.Forall₂ Shows out (entries (armPose ds (List.replicate ds.length 0)))) ∧
    (∀ out, script py L R = some out → ∃ ds, List.Forall₂ (Means py ls) (R.drop 1) ds ∧
      List.Forall₂ Shows out (entries (armPose ds (List.replicate ds.length 0)))) := by
  have hiff : ∀ ds, links py L R = some ds ↔ List.Forall₂ (Means py ls) (R.drop 1) ds := by
    intro ds
    unfold links
    simp only [hls, Option.bind_eq_bind, Option.bind_some]
    exact mapM_iff fun row hr d => readRow_iff (hc row hr) d
  refine ⟨fun ds h => ?_, fun out h => ?_⟩
  · exact ⟨_, script_eq ((hiff ds).mpr h), shows_printed _⟩
  · cases hl : links py L R with
    | none =>
      unfold script at h
      simp [hl] at h
    | some ds =>
      rw [script_eq hl] at h
      rw [← Option.some.inj h]
      exact ⟨ds, (hiff ds).mp hl, shows_printed _⟩

/-- What is printed can be put in the configuration of the solver as `H0` or `HN`: the solver gets a frame whose
elements are those of the pose, to fifteen decimals. -/
theorem C93_goes_to_configuration {f : Frame} {vs : List ℝ} {g : Group} {tag : String}
    (hv : List.Forall₂ (fun t v => ∃ q : ℚ, decimal t = some q ∧ (q : ℝ) = v) (printed f) vs)
    (hg : g tag = some (.list vs)) :
    List.Forall₂ (fun x y => |x - y| ≤ 1 / 2 / 10 ^ 15) (entries (matrix g tag)) (entries f) := by
  have hs := shows_printed f
  generalize printed f = ts at hv hs
  have hvs : List.Forall₂ (fun x y => |x - y| ≤ 1 / 2 / 10 ^ 15) vs (entries f) := by
    clear hg
    generalize entries f = xs at hs
    induction hv generalizing xs with
    | nil => cases hs; exact .nil
    | cons h1 h2 ih =>
      cases hs with
      | cons h3 h4 =>
        obtain ⟨q, hq, rfl⟩ := h1
        obtain ⟨q', hq', hb⟩ := h3
        rw [hq] at hq'
        rw [← Option.some.inj hq'] at hb
        exact .cons hb (ih _ h4)
  unfold entries at hvs ⊢
  obtain _ | ⟨h0, hvs⟩ := hvs
  obtain _ | ⟨h1, hvs⟩ := hvs
  obtain _ | ⟨h2, hvs⟩ := hvs
  obtain _ | ⟨h3, hvs⟩ := hvs
  obtain _ | ⟨h4, hvs⟩ := hvs
  obtain _ | ⟨h5, hvs⟩ := hvs
  obtain _ | ⟨h6, hvs⟩ := hvs
  obtain _ | ⟨h7, hvs⟩ := hvs
  obtain _ | ⟨h8, hvs⟩ := hvs
  obtain _ | ⟨h9, hvs⟩ := hvs
  obtain _ | ⟨h10, hvs⟩ := hvs
  obtain _ | ⟨h11, hvs⟩ := hvs
  obtain _ | ⟨h12, hvs⟩ := hvs
  obtain _ | ⟨h13, hvs⟩ := hvs
  obtain _ | ⟨h14, hvs⟩ := hvs
  obtain _ | ⟨h15, hvs⟩ := hvs
  cases hvs
  unfold matrix
  rw [hg]
  have z0 : |(0 : ℝ) - 0| ≤ 1 / 2 / 10 ^ 15 := by norm_num
  have z1 : |(1 : ℝ) - 1| ≤ 1 / 2 / 10 ^ 15 := by norm_num
  exact .cons h0 (.cons h1 (.cons h2 (.cons h3 (.cons h4 (.cons h5 (.cons h6 (.cons h7 (.cons h8 (.cons h9 (.cons h10 (.cons h11 (.cons z0 (.cons z0 (.cons z0 (.cons z1 .nil)))))))))))))))

/-- The viewer gets segments that are the arm of the table in any posture, with joints from -π to π. -/
theorem C93_viewer_partial {py : Python} {L R : List (List Text)} {ls : Dict} (hls : lengths py L = some ls)
    (hc : ∀ row ∈ R.drop 1, ClearRow ls row) {segs : List Segment} {lo hi : List ℝ}
    (h : roboview py L R = some (segs, lo, hi)) :
    ∃ ds, List.Forall₂ (Means py ls) (R.drop 1) ds ∧
      (∀ q : List ℝ, q.length = ds.length → Chain.fk segs q = some (armPose ds q)) ∧
      lo = List.replicate ds.length (-Real.pi) ∧ hi = List.replicate ds.length Real.pi := by
  cases hl : links py L R with
  | none =>
    unfold roboview at h
    simp [hl] at h
  | some ds =>
    unfold roboview at h
    simp only [hl, Option.bind_eq_bind, Option.bind_some, Option.pure_def, Option.some.injEq, Prod.mk.injEq,
      List.length_map, List.map_replicate] at h
    obtain ⟨rfl, rfl, rfl⟩ := h
    refine ⟨ds, ?_, fun q hq => segments_fk ds q hq, ?_, ?_⟩
    · unfold links at hl
      simp only [hls, Option.bind_eq_bind, Option.bind_some] at hl
      exact (mapM_iff fun row hr d => readRow_iff (hc row hr) d).mp hl
    · congr 1; unfold degToRad; ring
    · congr 1; unfold degToRad; ring

/-! ## Names that are parts of others -/

/-- A Python that knows numbers in decimals, and two lengths. -/
noncomputable def literals : Python where
  metres t := if t = ['3', '0', '0'] then some ['0', '.', '3'] else if t = ['5', '0'] then some ['0', '.', '0', '5']
    else none
  eval t := (decimal t).map fun v => (v : ℝ)

/-- Two lengths: `l1` is 300 mm and `l10` is 50 mm. -/
def twoLengths : List (List Text) := [[], [['l', '1'], ['3', '0', '0']], [['l', '1', '0'], ['5', '0']]]

/-- An arm with one link along `l10`. -/
def oneLink : List (List Text) := [[], [['1'], ['q', '1'], ['l', '1', '0'], ['0'], ['0']]]

theorem twoLengths_read :
    lengths literals twoLengths = some [(['l', '1'], ['0', '.', '3']), (['l', '1', '0'], ['0', '.', '0', '5'])] := by
  simp [lengths, twoLengths, addLength, literals, assign]

/-- A length whose name begins with that of an earlier one is not the length used: the link is 50 mm long, and the
script prints 0.3 m. -/
theorem C93_longer_names : ∃ ls, lengths literals twoLengths = some ls ∧
    List.Forall₂ (Means literals ls) (oneLink.drop 1) [⟨0, 5 / 100, 0, 0⟩] ∧
    links literals twoLengths oneLink = some [⟨0, 3 / 10, 0, 0⟩] ∧
    ∃ out t, script literals twoLengths oneLink = some out ∧ out[11]? = some t ∧ Shows t (3 / 10) ∧
      ¬ Shows t (5 / 100) := by
  have d0 : decimal ['0'] = some 0 := by decide +kernel
  have d1 : decimal ['0', '.', '0'] = some 0 := by decide +kernel
  have d2 : decimal ['0', '.', '0', '5'] = some (5 / 100) := by decide +kernel
  have d3 : decimal ['0', '.', '3', '0'] = some (3 / 10) := by decide +kernel
  have hlinks : links literals twoLengths oneLink = some [⟨0, 3 / 10, 0, 0⟩] := by
    unfold links
    simp only [twoLengths_read, Option.bind_eq_bind, Option.bind_some]
    rw [mapM_iff (R := fun row d => readRow literals [(['l', '1'], ['0', '.', '3']),
      (['l', '1', '0'], ['0', '.', '0', '5'])] row = some d) fun _ _ _ => Iff.rfl]
    refine .cons ?_ .nil
    unfold readRow
    have e1 : replaceAll oneDigit (replaceAll twoDigits ['q', '1']) = ['0', '.', '0'] := by decide
    have e2 : replaceAll [(['l', '1'], ['0', '.', '3']), (['l', '1', '0'], ['0', '.', '0', '5'])]
        (replaceAll oneDigit (replaceAll twoDigits ['l', '1', '0'])) = ['0', '.', '3', '0'] := by decide
    have e3 : replaceAll [(['l', '1'], ['0', '.', '3']), (['l', '1', '0'], ['0', '.', '0', '5'])] ['0'] = ['0'] := by
      decide
    simp [e1, e2, e3, literals, d0, d1, d3]
  refine ⟨_, twoLengths_read, ?_, hlinks, ?_⟩
  · refine .cons ⟨⟨_, rfl, ?_⟩, ⟨_, rfl, ?_⟩, ⟨_, rfl, ?_⟩, ⟨_, rfl, ?_⟩⟩ .nil
    · rw [show mapWords atZero ['q', '1'] = ['0', '.', '0'] by decide]
      simp [literals, d1]
    · rw [show mapWords (inMetres [(['l', '1'], ['0', '.', '3']), (['l', '1', '0'], ['0', '.', '0', '5'])])
        ['l', '1', '0'] = ['0', '.', '0', '5'] by decide]
      simp [literals, d2]
    · rw [show mapWords (meaning [(['l', '1'], ['0', '.', '3']), (['l', '1', '0'], ['0', '.', '0', '5'])])
        ['0'] = ['0'] by decide]
      simp [literals, d0]
    · simp [literals, d0]
  · have h11 : Shows (number (armPose [⟨0, 3 / 10, 0, 0⟩] [0]).p.z) (3 / 10) := by
      have : (armPose [⟨0, 3 / 10, 0, 0⟩] [0]).p.z = 3 / 10 := by
        simp [armPose, dhFrame, Mat3.rotZ]
      rw [this]
      exact shows_number _
    refine ⟨_, _, script_eq hlinks, rfl, h11, ?_⟩
    rintro ⟨v, hv, hb⟩
    obtain ⟨v', hv', hb'⟩ := h11
    rw [show number (armPose [⟨0, 3 / 10, 0, 0⟩] [0]).p.z = number (armPose [⟨0, 3 / 10, 0, 0⟩]
      (List.replicate 1 0)).p.z from rfl] at hv'
    have : decimal (number (armPose [⟨0, 3 / 10, 0, 0⟩] (List.replicate 1 0)).p.z) = some v := hv
    rw [this] at hv'
    rw [← Option.some.inj hv'] at hb'
    rw [abs_le] at hb hb'
    norm_num at hb hb'
    linarith [hb.2, hb'.1]

/-- Joint 28 and the following ones are not put at zero: `q28` is evaluated as 0.08. -/
theorem C93_joint_28 : replaceAll oneDigit (replaceAll twoDigits ['q', '2', '8']) = ['0', '.', '0', '8'] := by decide

/-! ## Examples -/

/-- With the longer name first, as with different names, the names can be told apart. -/
example : Clear (names [(['l', '1', '0'], ['0', '.', '0', '5']), (['l', '1'], ['0', '.', '3'])])
    ['q', '1', '2', '+', 'l', '1', '0', '-', 'l', '1'] :=
  ⟨by decide, by decide, by decide, by decide⟩

/-- What is printed always has values to put in a configuration. -/
example (f : Frame) : ∃ vs : List ℝ,
    List.Forall₂ (fun t v => ∃ q : ℚ, decimal t = some q ∧ (q : ℝ) = v) (printed f) vs := by
  have h := shows_printed f
  generalize printed f = ts at h
  generalize entries f = xs at h
  induction h with
  | nil => exact ⟨[], .nil⟩
  | cons h1 _ ih =>
    obtain ⟨v, hv, -⟩ := h1
    obtain ⟨vs, hvs⟩ := ih
    exact ⟨v :: vs, .cons ⟨v, hv, rfl⟩ hvs⟩

/-- A table for which the script works: the link is along `l1`. -/
example : ∃ ls, lengths literals twoLengths = some ls ∧
    ClearRow ls [['1'], ['q', '1'], ['l', '1', '+', '1'], ['0'], ['0']] := by
  refine ⟨_, twoLengths_read, ?_, ?_, ?_⟩
  · intro t ht
    rw [← Option.some.inj ht]
    exact ⟨by decide, by decide, by decide, by decide⟩
  · intro t ht
    rw [← Option.some.inj ht]
    exact ⟨by decide, by decide, by decide, by decide⟩
  · intro t ht
    rw [← Option.some.inj ht]
    exact ⟨by decide, by decide, by decide, by decide⟩

end KD.DhTable
