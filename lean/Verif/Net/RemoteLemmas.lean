import Verif.Net.Remote

/-!
# Lemmas about the messages of the client and the server
-/

namespace KD.Net

open KD.Ctrl (toInt)

/-- The value of a parameter that travels as a number of 32 bits if the key asks for one (the reference
frame and the streaming command), any number otherwise. -/
def Fits (key : ℤ) (value : ℝ) : Prop :=
  key = vFrame ∨ key = vStreaming → ∃ n : ℤ, -2147483648 ≤ n ∧ n ≤ 2147483647 ∧ value = n

/-- The entries of a `std::map`: keys in ascending order. -/
def IsMap (ps : List (ℤ × ℝ)) : Prop := ps.Pairwise fun p q => p.1 < q.1

/-! ## Lemmas -/

theorem toInt_int {n : ℤ} (h : -2147483648 ≤ n) (h' : n ≤ 2147483647) : toInt (n : ℝ) = some n := by
  unfold toInt
  simp [h, h']

/-- A value that fits arrives as it was sent. -/
theorem addValue_fits {k : ℤ} {v : ℝ} (h : Fits k v) :
    ∃ w, addValue k v = some w ∧ asValue k w = v ∧
      (w.isVocab = true → (k = vFrame ∨ k = vStreaming) ∧ (w.asVocab : ℝ) = v) := by
  unfold addValue
  by_cases hk : k = vFrame ∨ k = vStreaming
  · obtain ⟨n, h1, h2, rfl⟩ := h hk
    rw [if_pos hk, toInt_int h1 h2]
    exact ⟨.vocab n, rfl, by simp [asValue, hk, Val.asVocab], fun _ => ⟨hk, rfl⟩⟩
  · rw [if_neg hk]
    exact ⟨.float v, rfl, by simp [asValue, hk, Val.asFloat], by simp [Val.isVocab]⟩

theorem map_asFloat (x : List ℝ) : (x.map Val.float).map Val.asFloat = x := by
  rw [List.map_map]; exact List.map_id' _

theorem checkSuccess_verdict (b : Bool) : checkSuccess (verdict b) = b := by
  cases b <;> simp [checkSuccess, verdict, get, Val.isVocab, Val.asVocab, show vOk ≠ vFailed by decide]

theorem emplace_last {k : ℤ} {v : ℝ} : ∀ {acc : List (ℤ × ℝ)}, (∀ p ∈ acc, p.1 < k) →
    emplace k v acc = acc ++ [(k, v)]
  | [], _ => rfl
  | (k', v') :: rest, h => by
    have h1 : k' < k := h (k', v') (by simp)
    rw [emplace, if_neg (by omega), if_neg (by omega), emplace_last fun p hp => h p (by simp [hp])]
    rfl

/-- The entries of a map as values. -/
theorem addEntries {ps : List (ℤ × ℝ)} (h : ∀ p ∈ ps, Fits p.1 p.2) :
    ∃ vs, ps.mapM addEntry = some vs ∧ vs.length = ps.length ∧
      ∀ acc, IsMap (acc ++ ps) → readEntries vs acc = some (acc ++ ps) ∧
        readParams vs acc = some (acc ++ ps) := by
  induction ps with
  | nil => exact ⟨[], rfl, rfl, by simp [readEntries, readParams]⟩
  | cons p ps ih =>
    obtain ⟨vs, h1, hl, h2⟩ := ih fun q hq => h q (by simp [hq])
    obtain ⟨w, e1, e2, -⟩ := addValue_fits (h p (by simp))
    refine ⟨.list [.vocab p.1, w] :: vs, ?_, by simp [hl], ?_⟩
    · simp [List.mapM_cons, addEntry, e1, h1]
    · intro acc hs
      have hlast : ∀ q ∈ acc, q.1 < p.1 := by
        intro q hq
        exact (List.pairwise_append.mp hs).2.2 q hq p (by simp)
      have hs' : IsMap (acc ++ [p] ++ ps) := by simpa using hs
      obtain ⟨r1, r2⟩ := h2 (acc ++ [p]) hs'
      constructor
      · rw [readEntries]
        simp only [Val.asVocab, e2]
        rw [emplace_last hlast, r1]; simp
      · rw [readParams]
        simp only [get, List.getD_cons_zero, List.getD_cons_succ, Val.asVocab, e2]
        rw [emplace_last hlast, r2]; simp

/-- The reply with a map is not taken for a failure. -/
theorem addEntries_first {ps : List (ℤ × ℝ)} {vs : Bottle} (h : ps.mapM addEntry = some vs) :
    checkSuccess vs = true := by
  cases ps with
  | nil =>
    simp at h; subst h; rfl
  | cons p ps =>
    rw [List.mapM_cons] at h
    obtain ⟨a, ha, h⟩ := Option.bind_eq_some_iff.mp h
    obtain ⟨b, -, h⟩ := Option.bind_eq_some_iff.mp h
    obtain ⟨w, -, hw⟩ := Option.bind_eq_some_iff.mp ha
    cases hw; cases h
    rfl

/-! ## Dispatch -/

section

variable {σ : Type} (B : Backend σ) (P : Port) (s : σ) (rest : Bottle)

theorem respond_stat : respond B P s (.vocab vStat :: rest) = handleStat B P s := by
  simp [respond, get, Val.asVocab]

theorem respond_inv :
    respond B P s (.vocab vInv :: rest) = handleFunction B P s (.vocab vInv :: rest) := by
  simp [respond, get, Val.asVocab, show vInv ≠ vStat by decide]

theorem respond_vec (c : VecCmd) :
    respond B P s (.vocab c.vocab :: rest) = handleConsumer B P c s (.vocab c.vocab :: rest) := by
  cases c <;> simp only [respond, get, List.getD_cons_zero, Val.asVocab, VecCmd.vocab] <;>
    simp only [reduceIte, show vMovj ≠ vStat by decide, show vMovj ≠ vInv by decide,
      show vRelj ≠ vStat by decide, show vRelj ≠ vInv by decide, show vRelj ≠ vMovj by decide,
      show vMovl ≠ vStat by decide, show vMovl ≠ vInv by decide, show vMovl ≠ vMovj by decide,
      show vMovl ≠ vRelj by decide,
      show vMovv ≠ vStat by decide, show vMovv ≠ vInv by decide, show vMovv ≠ vMovj by decide,
      show vMovv ≠ vRelj by decide, show vMovv ≠ vMovl by decide,
      show vForc ≠ vStat by decide, show vForc ≠ vInv by decide, show vForc ≠ vMovj by decide,
      show vForc ≠ vRelj by decide, show vForc ≠ vMovl by decide, show vForc ≠ vMovv by decide,
      show vForc ≠ vGcmp by decide,
      show vTool ≠ vStat by decide, show vTool ≠ vInv by decide, show vTool ≠ vMovj by decide,
      show vTool ≠ vRelj by decide, show vTool ≠ vMovl by decide, show vTool ≠ vMovv by decide,
      show vTool ≠ vGcmp by decide, show vTool ≠ vForc by decide, show vTool ≠ vStop by decide,
      show vTool ≠ vWait by decide]

theorem respond_run (c : RunCmd) :
    respond B P s (.vocab c.vocab :: rest) = handleRunnable B c s := by
  cases c <;> simp only [respond, get, List.getD_cons_zero, Val.asVocab, RunCmd.vocab] <;>
    simp only [reduceIte, show vGcmp ≠ vStat by decide, show vGcmp ≠ vInv by decide,
      show vGcmp ≠ vMovj by decide, show vGcmp ≠ vRelj by decide, show vGcmp ≠ vMovl by decide,
      show vGcmp ≠ vMovv by decide,
      show vStop ≠ vStat by decide, show vStop ≠ vInv by decide, show vStop ≠ vMovj by decide,
      show vStop ≠ vRelj by decide, show vStop ≠ vMovl by decide, show vStop ≠ vMovv by decide,
      show vStop ≠ vGcmp by decide, show vStop ≠ vForc by decide]

theorem respond_wait :
    respond B P s (.vocab vWait :: rest) = handleWait B s (.vocab vWait :: rest) := by
  simp only [respond, get, List.getD_cons_zero, Val.asVocab, reduceIte, show vWait ≠ vStat by decide,
    show vWait ≠ vInv by decide, show vWait ≠ vMovj by decide, show vWait ≠ vRelj by decide,
    show vWait ≠ vMovl by decide, show vWait ≠ vMovv by decide, show vWait ≠ vGcmp by decide,
    show vWait ≠ vForc by decide, show vWait ≠ vStop by decide]

theorem respond_act :
    respond B P s (.vocab vAct :: rest) = handleAct B s (.vocab vAct :: rest) := by
  simp only [respond, get, List.getD_cons_zero, Val.asVocab, reduceIte, show vAct ≠ vStat by decide,
    show vAct ≠ vInv by decide, show vAct ≠ vMovj by decide, show vAct ≠ vRelj by decide,
    show vAct ≠ vMovl by decide, show vAct ≠ vMovv by decide, show vAct ≠ vGcmp by decide,
    show vAct ≠ vForc by decide, show vAct ≠ vStop by decide, show vAct ≠ vWait by decide,
    show vAct ≠ vTool by decide]

theorem respond_set :
    respond B P s (.vocab vSet :: rest) = if isGroup (.vocab vSet :: rest) = true
      then handleSetAll B s (.vocab vSet :: rest) else handleSet B s (.vocab vSet :: rest) := by
  simp only [respond, get, List.getD_cons_zero, Val.asVocab, reduceIte, show vSet ≠ vStat by decide,
    show vSet ≠ vInv by decide, show vSet ≠ vMovj by decide, show vSet ≠ vRelj by decide,
    show vSet ≠ vMovl by decide, show vSet ≠ vMovv by decide, show vSet ≠ vGcmp by decide,
    show vSet ≠ vForc by decide, show vSet ≠ vStop by decide, show vSet ≠ vWait by decide,
    show vSet ≠ vTool by decide, show vSet ≠ vAct by decide]

theorem respond_get :
    respond B P s (.vocab vGet :: rest) = if isGroup (.vocab vGet :: rest) = true
      then handleGetAll B s (.vocab vGet :: rest) else handleGet B s (.vocab vGet :: rest) := by
  simp only [respond, get, List.getD_cons_zero, Val.asVocab, reduceIte, show vGet ≠ vStat by decide,
    show vGet ≠ vInv by decide, show vGet ≠ vMovj by decide, show vGet ≠ vRelj by decide,
    show vGet ≠ vMovl by decide, show vGet ≠ vMovv by decide, show vGet ≠ vGcmp by decide,
    show vGet ≠ vForc by decide, show vGet ≠ vStop by decide, show vGet ≠ vWait by decide,
    show vGet ≠ vTool by decide, show vGet ≠ vAct by decide, show vGet ≠ vSet by decide]

end

end KD.Net
