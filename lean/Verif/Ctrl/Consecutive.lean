import Verif.Props.Stopping
import Verif.Programs.ClientExample

/-!
# Movements one after another, beside the control loop
-/

namespace KD.Ctrl

open Prog (Step Writes Run can can_run)
open scoped Classical

/-! ## What is expected (specification) -/

/-- The robot answers something that makes the control loop give up a joint movement: joints cannot be read or are
out of their range, the control modes cannot be read or are not the one for positions, or the robot does not tell
whether it is done. (A few failures to read the joints are tolerated.) -/
def Trouble (cfg : Cfg) : Ev → Prop
  | .getEncoders none | .getEncoderSpeeds none | .getEncoderAccelerations none => True
  | .getEncoders (some q) => ¬InLimits cfg q
  | .getControlModes none | .checkMotionDone none => True
  | .getControlModes (some m) => ∃ x ∈ m, x ≠ .position
  | _ => False

/-- The robot tells that it is done, or there is trouble. -/
def EndsIt (cfg : Cfg) (e : Ev) : Prop := e = .checkMotionDone (some true) ∨ Trouble cfg e

/-- Between a joint movement that the user's thread orders and the next one, the control loop hears that the robot is
done, or that there is trouble. -/
def Spaced (cfg : Cfg) (tr : List (Who × Ev)) : Prop :=
  ∀ (a b c : List (Who × Ev)) (t1 t2 : List ℝ) (r : Bool),
    tr = a ++ (Who.user, Ev.positionMove t1 true) :: (b ++ (Who.user, Ev.positionMove t2 r) :: c) →
    ∃ e, (Who.loop, e) ∈ b ∧ EndsIt cfg e

/-- The control loop has met trouble. -/
def Troubled (cfg : Cfg) (tr : List (Who × Ev)) : Prop := ∃ e, (Who.loop, e) ∈ tr ∧ Trouble cfg e

/-! ## Traces -/

/-- A movement was ordered and has not ended. -/
def Open (cfg : Cfg) (tr : List (Who × Ev)) : Prop :=
  ∃ (a b : List (Who × Ev)) (t : List ℝ), tr = a ++ (Who.user, Ev.positionMove t true) :: b ∧
    ∀ e, (Who.loop, e) ∈ b → ¬EndsIt cfg e

/-- The user's thread orders a movement. -/
def IsMove (x : Who × Ev) : Prop := ∃ t r, x = (Who.user, Ev.positionMove t r)

variable {cfg : Cfg} {tr : List (Who × Ev)}

theorem spaced_nil : Spaced cfg [] := by
  intro a b c t1 t2 r h
  simp at h

theorem open_nil : ¬Open cfg [] := by
  rintro ⟨a, b, t, h, -⟩
  simp at h

theorem open_snoc {x : Who × Ev} (hx : ¬IsMove x) (h : Open cfg (tr ++ [x])) :
    Open cfg tr ∧ ∀ e, x = (Who.loop, e) → ¬EndsIt cfg e := by
  obtain ⟨a, b, t, h, hb⟩ := h
  rcases List.eq_nil_or_concat b with rfl | ⟨b, y, rfl⟩
  · rw [List.append_inj_right' h rfl |> List.singleton_inj.mp] at hx
    exact absurd ⟨_, _, rfl⟩ hx
  · rw [List.concat_eq_append, ← List.cons_append, ← List.append_assoc] at h
    have h1 := List.append_inj_left' h rfl
    have h2 := List.singleton_inj.mp (List.append_inj_right' h rfl)
    subst h2
    refine ⟨⟨a, b, t, h1, fun e he => hb e (by simp [he])⟩, fun e he => hb e (by simp [he])⟩

theorem spaced_snoc {x : Who × Ev} (h : Spaced cfg tr) (hx : IsMove x → ¬Open cfg tr) : Spaced cfg (tr ++ [x]) := by
  intro a b c t1 t2 r he
  rcases List.eq_nil_or_concat c with rfl | ⟨c, y, rfl⟩
  · rw [← List.cons_append, ← List.append_assoc] at he
    have h1 := List.append_inj_left' he rfl
    have h2 := List.singleton_inj.mp (List.append_inj_right' he rfl)
    by_contra hn
    push Not at hn
    exact hx ⟨_, _, h2⟩ ⟨a, b, t1, h1, hn⟩
  · refine h a b c t1 t2 r ?_
    rw [List.concat_eq_append, ← List.cons_append, ← List.append_assoc, ← List.cons_append, ← List.append_assoc] at he
    have := List.append_inj_left' he rfl
    simpa using this

/-! ## A cycle of a joint movement -/

/-- Phases of a cycle. -/
inductive Stage
  | live
  | done
  | bad
  | overDone
  | overBad

/-- A cycle of a joint movement. -/
noncomputable def stages (cfg : Cfg) : Ghost Stage where
  ok g e := g ≠ .overBad → ∀ r, e ≠ .stop r
  next g e := if g = .live then (if Trouble cfg e then .bad else if e = .checkMotionDone (some true) then .done else .live) else g
  inv g s := g = .live ∨ g = .done ∨ g = .bad → s.state = .movj
  write g f g' := match g with
    | .live => g' = .live ∧ ∀ s, (f s).state = s.state
    | .done => g' = .overDone ∧ ∀ s, (f s).state = .notControlling
    | .bad => (g' = .bad ∧ ∀ s, (f s).state = s.state) ∨ (g' = .overBad ∧ ∀ s, (f s).state = .notControlling)
    | .overDone => False
    | .overBad => g' = .overBad ∧ ∀ s, (f s).state = s.state

/-- All paths are allowed. -/
abbrev Within' (cfg : Cfg) (lp : P Unit) (g : Stage) : Prop := (stages cfg).wpi lp (fun _ _ => True) g

theorem next_live {e : Ev} (h : ¬Trouble cfg e) (h' : e ≠ .checkMotionDone (some true)) :
    (stages cfg).next .live e = .live := by simp [stages, h, h']

theorem next_bad {e : Ev} (h : Trouble cfg e) : (stages cfg).next .live e = .bad := by simp [stages, h]

theorem next_other {e : Ev} {g : Stage} (hg : g ≠ .live) : (stages cfg).next g e = g := by simp [stages, hg]

theorem stage_fail : Within' cfg (Prog.set (fun s => { s with cmcSuccess := false })
    (Prog.bind stopControl fun _ => Prog.pure ())) .bad := by
  refine ⟨.bad, Or.inl ⟨rfl, fun _ => rfl⟩, ?_⟩
  have hw : (stages cfg).write .overBad (fun s => { s with trajectories := [] }) .overBad := ⟨rfl, fun _ => rfl⟩
  have hw' : (stages cfg).write .bad (fun s => { s with state := .notControlling, streaming := vocabNotSet }) .overBad :=
    Or.inr ⟨rfl, fun _ => rfl⟩
  refine wpi_stop (T := stages cfg) (g1 := .overBad) hw' ⟨?_, ?_, ?_⟩ ?_ hw trivial
  all_goals intros; exact ⟨fun h => absurd rfl h, next_other (by simp)⟩

theorem stage_run : Within' cfg (run cfg) .live := by
  have hfin : ∀ g, Within' cfg (Prog.pure ()) g := fun _ => trivial
  have hf : ∃ g', (stages cfg).write .bad (fun s => { s with encoderErrors := s.encoderErrors + 1 }) g' ∧
      ∀ s : Ctl, (stages cfg).inv g' s →
        ¬decide (s.encoderErrors ≤ maxEncoderErrors) = true →
        ∃ g'', (stages cfg).write g' (fun s => { s with cmcSuccess := false }) g'' ∧
          (stages cfg).wpi (Prog.bind stopControl fun _ => Prog.pure ()) (fun _ _ => True) g'' :=
    ⟨.bad, Or.inl ⟨rfl, fun _ => rfl⟩, fun s _ _ => stage_fail⟩
  have hok : ∀ g e, (∀ r, e ≠ .stop r) → (stages cfg).ok g e := fun g e h _ => h
  unfold run getCurrentState runBody readEncoders
  gi_simp
  intro s hs _
  have hst : s.state = .movj := hs (Or.inl rfl)
  rw [hst]
  have hq : ∀ q, (stages cfg).next .live (.getEncoders (some q)) = .bad ∧ ¬InLimits cfg q ∨
      (stages cfg).next .live (.getEncoders (some q)) = .live ∧ InLimits cfg q := by
    intro q
    by_cases h : InLimits cfg q
    · exact Or.inr ⟨next_live (by simpa [Trouble] using h) (by simp), h⟩
    · exact Or.inl ⟨next_bad h, h⟩
  refine ⟨⟨hok _ _ (by simp), ?_⟩, fun q => ⟨hok _ _ (by simp), ⟨hok _ _ (by simp), ?_⟩, fun v =>
    ⟨hok _ _ (by simp), ⟨hok _ _ (by simp), ?_⟩, fun a => ⟨hok _ _ (by simp), ?_⟩⟩⟩⟩
  · rw [next_bad (by simp [Trouble])]
    exact hf
  · rcases hq q with ⟨h, -⟩ | ⟨h, -⟩ <;> rw [h]
    · rw [next_other (by simp)]
      exact hf
    · rw [next_bad (by simp [Trouble])]
      exact hf
  · rcases hq q with ⟨h, -⟩ | ⟨h, -⟩ <;> rw [h]
    · rw [next_other (g := .bad) (by simp), next_other (by simp)]
      exact hf
    · rw [next_live (by simp [Trouble]) (by simp), next_bad (by simp [Trouble])]
      exact hf
  · rcases hq q with ⟨h, hl⟩ | ⟨h, hl⟩ <;> rw [h]
    · rw [next_other (g := .bad) (by simp), next_other (by simp)]
      refine ⟨.bad, Or.inl ⟨rfl, fun _ => rfl⟩, fun ok hc => ⟨fun ht => ?_, fun _ => ?_⟩⟩
      · subst ht
        exact absurd ((checkJointLimits_iff _ _).mp hc) hl
      · exact fun _ => stage_fail
    · rw [next_live (by simp [Trouble]) (by simp), next_live (by simp [Trouble]) (by simp)]
      refine ⟨.live, ⟨rfl, fun _ => rfl⟩, fun ok hc => ⟨fun ht => ?_, fun hn => ?_⟩⟩
      · unfold dispatch handleMovj checkControlModes setCurrentState
        gi_simp
        refine ⟨⟨hok _ _ (by simp), ?_⟩, fun m => ⟨hok _ _ (by simp), fun hm => ?_, fun hm => ?_⟩⟩
        · rw [next_bad (by simp [Trouble])]
          exact ⟨by simp, fun _ _ => stage_fail⟩
        · rw [next_live (by simpa [Trouble] using hm) (by simp)]
          refine ⟨⟨hok _ _ (by simp), ?_⟩, fun d => ⟨hok _ _ (by simp), fun hd => ?_, fun _ => by simp⟩⟩
          · rw [next_bad (by simp [Trouble])]
            exact fun _ => stage_fail
          · subst hd
            rw [show (stages cfg).next .live (.checkMotionDone (some true)) = .done by simp [stages, Trouble]]
            refine ⟨.overDone, ⟨rfl, fun _ => rfl⟩, fun s _ w _ b => ⟨hok _ _ (by simp), fun hn => absurd trivial hn⟩⟩
        · rw [next_bad (by simpa [Trouble] using hm)]
          exact fun _ => stage_fail
      · exact absurd ((checkJointLimits_iff _ _).mpr hl ▸ hc) (by simpa using hn)

/-! ## Both threads -/

/-- What is known of the calls so far. -/
def Sound (cfg : Cfg) (tr : List (Who × Ev)) : Prop :=
  Spaced cfg tr ∧ (Troubled cfg tr ∨ ∀ w r, (w, Ev.stop r) ∉ tr)

/-- What is left of a cycle that is over. -/
def Rest (cfg : Cfg) (lp : P Unit) (tr : List (Who × Ev)) : Prop :=
  Within' cfg lp .overDone ∨ (Within' cfg lp .overBad ∧ Troubled cfg tr)

/-- Nothing is controlled; `b`: no movement is open. -/
def Still (cfg : Cfg) (b : Prop) (s : Ctl) (lp : P Unit) (tr : List (Who × Ev)) : Prop :=
  Sound cfg tr ∧ (b → ¬Open cfg tr) ∧ s.state = .notControlling ∧ (Rest cfg lp tr ∨ lp = run cfg)

/-- A joint movement was ordered. -/
def Going (cfg : Cfg) (s : Ctl) (lp : P Unit) (tr : List (Who × Ev)) : Prop :=
  Still cfg True s lp tr ∨
  (Sound cfg tr ∧ s.state = .movj ∧ (Rest cfg lp tr ∨ Within' cfg lp .live ∨
    (¬Open cfg tr ∧ (Within' cfg lp .done ∨ (Within' cfg lp .bad ∧ Troubled cfg tr)))))

theorem troubled_append {x : List (Who × Ev)} (h : Troubled cfg tr) : Troubled cfg (tr ++ x) := by
  obtain ⟨e, he, ht⟩ := h
  exact ⟨e, List.mem_append_left _ he, ht⟩

theorem rest_append {lp : P Unit} {x : List (Who × Ev)} (h : Rest cfg lp tr) : Rest cfg lp (tr ++ x) :=
  h.imp id fun h => ⟨h.1, troubled_append h.2⟩

theorem sound_loop {e : Ev} (h : Sound cfg tr) (hs : Troubled cfg tr ∨ ∀ r, e ≠ .stop r) :
    Sound cfg (tr ++ [(Who.loop, e)]) := by
  refine ⟨spaced_snoc h.1 (by rintro ⟨_, _, ⟨⟩⟩), ?_⟩
  rcases h.2 with ht | hn
  · exact Or.inl (troubled_append ht)
  · rcases hs with ht | hs
    · exact Or.inl (troubled_append ht)
    · refine Or.inr fun w r hm => ?_
      rcases List.mem_append.mp hm with hm | hm
      · exact hn w r hm
      · simp only [List.mem_singleton, Prod.mk.injEq] at hm
        exact hs r hm.2.symm

theorem sound_user {e : Ev} (h : Sound cfg tr) (hs : ∀ r, e ≠ .stop r) (hm : IsMove (Who.user, e) → ¬Open cfg tr) :
    Sound cfg (tr ++ [(Who.user, e)]) := by
  refine ⟨spaced_snoc h.1 hm, ?_⟩
  rcases h.2 with ht | hn
  · exact Or.inl (troubled_append ht)
  · refine Or.inr fun w r hm => ?_
    rcases List.mem_append.mp hm with hm | hm
    · exact hn w r hm
    · simp only [List.mem_singleton, Prod.mk.injEq] at hm
      exact hs r hm.2.symm

theorem open_loop {e : Ev} (h : ¬Open cfg tr) : ¬Open cfg (tr ++ [(Who.loop, e)]) :=
  fun hc => h (open_snoc (by rintro ⟨_, _, ⟨⟩⟩) hc).1

theorem open_user {e : Ev} (h : ¬Open cfg tr) (he : ∀ t r, e ≠ .positionMove t r) : ¬Open cfg (tr ++ [(Who.user, e)]) :=
  fun hc => h (open_snoc (by rintro ⟨t, r, h⟩; exact he t r (Prod.mk.inj h).2) hc).1

theorem open_ends {e : Ev} (h : EndsIt cfg e) : ¬Open cfg (tr ++ [(Who.loop, e)]) :=
  fun hc => (open_snoc (by rintro ⟨_, _, ⟨⟩⟩) hc).2 e rfl h

/-- A step of what is left of a cycle that is over. -/
theorem rest_step {s s1 : Ctl} {lp lp1 : P Unit} {l : Option Ev} (hr : Rest cfg lp tr) (h : Sound cfg tr)
    (hs : Step (robot cfg) lp s l lp1 s1) :
    Sound cfg (tr ++ byLoop l.toList) ∧ (¬Open cfg tr → ¬Open cfg (tr ++ byLoop l.toList)) ∧ s1.state = s.state ∧
      Rest cfg lp1 (tr ++ byLoop l.toList) := by
  rcases hr with hr | ⟨hr, ht⟩
  · rcases Ghost.step hr (by simp [stages]) hs with ⟨rfl, rfl, h1⟩ | ⟨f, g', rfl, rfl, hw, h1⟩ | ⟨e, rfl, rfl, ho, h1⟩
    · simpa [byLoop] using ⟨h, Or.inl h1⟩
    · exact hw.elim
    · rw [next_other (by simp)] at h1
      exact ⟨sound_loop h (Or.inr (ho (by simp))), open_loop, rfl, Or.inl h1⟩
  · rcases Ghost.step hr (by simp [stages]) hs with ⟨rfl, rfl, h1⟩ | ⟨f, g', rfl, rfl, ⟨rfl, hw⟩, h1⟩ | ⟨e, rfl, rfl, ho, h1⟩
    · simpa [byLoop] using ⟨h, Or.inr ⟨h1, ht⟩⟩
    · simpa [byLoop, hw] using ⟨h, Or.inr ⟨h1, ht⟩⟩
    · rw [next_other (by simp)] at h1
      exact ⟨sound_loop h (Or.inl ht), open_loop, rfl, Or.inr ⟨h1, troubled_append ht⟩⟩

theorem stable_still (b : Prop) : Stable cfg (Still cfg b) := by
  rintro s lp tr l s1 lp1 ⟨h, hb, hi, hl⟩ hstep
  cases hstep with
  | again => simpa [byLoop] using ⟨h, hb, hi, Or.inr rfl⟩
  | step hstep =>
    rcases hl with hl | rfl
    · obtain ⟨h1, h2, h3, h4⟩ := rest_step hl h hstep
      exact ⟨h1, fun hb' => h2 (hb hb'), h3.trans hi, Or.inl h4⟩
    · obtain ⟨rfl, rfl, rfl⟩ := run_idle_step hi hstep
      simpa [byLoop] using ⟨h, hb, hi, Or.inl (Or.inl trivial)⟩

theorem stable_going : Stable cfg (Going cfg) := by
  rintro s lp tr l s1 lp1 (h | ⟨h, hst, hl⟩) hstep
  · exact Or.inl (stable_still _ _ _ _ _ _ _ h hstep)
  · cases hstep with
    | again => exact Or.inr ⟨by simpa [byLoop] using h, hst, Or.inr (Or.inl stage_run)⟩
    | step hstep =>
      rcases hl with hl | hl | ⟨ho, hl | ⟨hl, ht⟩⟩
      · obtain ⟨h1, h2, h3, h4⟩ := rest_step hl h hstep
        exact Or.inr ⟨h1, h3.trans hst, Or.inl h4⟩
      · rcases Ghost.step hl (fun _ => hst) hstep with ⟨rfl, rfl, h1⟩ | ⟨f, g', rfl, rfl, ⟨rfl, hw⟩, h1⟩ | ⟨e, rfl, rfl, ho, h1⟩
        · exact Or.inr ⟨by simpa [byLoop] using h, hst, Or.inr (Or.inl h1)⟩
        · exact Or.inr ⟨by simpa [byLoop] using h, (hw s).trans hst, Or.inr (Or.inl h1)⟩
        · refine Or.inr ⟨sound_loop h (Or.inr (ho (by simp))), hst, Or.inr ?_⟩
          by_cases ht : Trouble cfg e
          · rw [next_bad ht] at h1
            exact Or.inr ⟨open_ends (Or.inr ht), Or.inr ⟨h1, e, by simp [byLoop], ht⟩⟩
          · by_cases hd : e = .checkMotionDone (some true)
            · rw [show (stages cfg).next .live e = .done by simp only [stages, if_pos, if_neg ht, if_pos hd]] at h1
              exact Or.inr ⟨open_ends (Or.inl hd), Or.inl h1⟩
            · rw [next_live ht hd] at h1
              exact Or.inl h1
      · rcases Ghost.step hl (fun _ => hst) hstep with ⟨rfl, rfl, h1⟩ | ⟨f, g', rfl, rfl, ⟨rfl, hw⟩, h1⟩ | ⟨e, rfl, rfl, ho', h1⟩
        · exact Or.inr ⟨by simpa [byLoop] using h, hst, Or.inr (Or.inr ⟨by simpa [byLoop] using ho, Or.inl h1⟩)⟩
        · exact Or.inl ⟨by simpa [byLoop] using h, fun _ => by simpa [byLoop] using ho, hw s, Or.inl (Or.inl h1)⟩
        · rw [next_other (by simp)] at h1
          exact Or.inr ⟨sound_loop h (Or.inr (ho' (by simp))), hst, Or.inr (Or.inr ⟨open_loop ho, Or.inl h1⟩)⟩
      · rcases Ghost.step hl (fun _ => hst) hstep with ⟨rfl, rfl, h1⟩ | ⟨f, g', rfl, rfl, hw, h1⟩ | ⟨e, rfl, rfl, ho', h1⟩
        · exact Or.inr ⟨by simpa [byLoop] using h, hst,
            Or.inr (Or.inr ⟨by simpa [byLoop] using ho, Or.inr ⟨h1, troubled_append ht⟩⟩)⟩
        · rcases hw with ⟨rfl, hw⟩ | ⟨rfl, hw⟩
          · exact Or.inr ⟨by simpa [byLoop] using h, (hw s).trans hst,
              Or.inr (Or.inr ⟨by simpa [byLoop] using ho, Or.inr ⟨h1, troubled_append ht⟩⟩)⟩
          · exact Or.inl ⟨by simpa [byLoop] using h, fun _ => by simpa [byLoop] using ho, hw s,
              Or.inl (Or.inr ⟨h1, troubled_append ht⟩)⟩
        · rw [next_other (by simp)] at h1
          exact Or.inr ⟨sound_loop h (Or.inr (ho' (by simp))), hst,
            Or.inr (Or.inr ⟨open_loop ho, Or.inr ⟨h1, troubled_append ht⟩⟩)⟩

/-- A call of the user's thread that neither moves nor stops. -/
def Mild (e : Ev) : Prop := (∀ t r, e ≠ .positionMove t r) ∧ ∀ r, e ≠ .stop r

theorem still_user {b : Prop} {s : Ctl} {lp : P Unit} {e : Ev} (h : Still cfg b s lp tr) (he : Mild e) :
    Still cfg b s lp (tr ++ [(Who.user, e)]) := by
  obtain ⟨h1, h2, h3, h4⟩ := h
  refine ⟨sound_user h1 he.2 ?_, fun hb => open_user (h2 hb) he.1, h3, h4.imp rest_append id⟩
  rintro ⟨t, r, h⟩
  exact absurd (Prod.mk.inj h).2 (he.1 t r)

theorem going_user {s : Ctl} {lp : P Unit} {e : Ev} (h : Going cfg s lp tr) (he : Mild e) :
    Going cfg s lp (tr ++ [(Who.user, e)]) := by
  rcases h with h | ⟨h1, h2, h3⟩
  · exact Or.inl (still_user h he)
  · refine Or.inr ⟨sound_user h1 he.2 ?_, h2, ?_⟩
    · rintro ⟨t, r, h⟩
      exact absurd (Prod.mk.inj h).2 (he.1 t r)
    · rcases h3 with h | h | ⟨h, h'⟩
      · exact Or.inl (rest_append h)
      · exact Or.inr (Or.inl h)
      · exact Or.inr (Or.inr ⟨open_user h he.1, h'.imp id fun h => ⟨h.1, troubled_append h.2⟩⟩)

section

variable {α : Type} {Q : α → Ctl → P Unit → List (Who × Ev) → Prop}

theorem still_call {b : Prop} {c : Call} {k : c.Resp → P α} {s : Ctl} {lp : P Unit} (h0 : Still cfg b s lp tr)
    (hc : ∀ r, Mild (record c r)) (h : ∀ r s lp tr, Still cfg b s lp tr → wps cfg (k r) Q s lp tr) :
    wps cfg (.call c k) Q s lp tr :=
  wps_call (stable_still b) h0 fun _ _ _ r hs => h r _ _ _ (still_user hs (hc r))

theorem still_set {b : Prop} {f : Ctl → Ctl} {k : P α} {s : Ctl} {lp : P Unit} (h0 : Still cfg b s lp tr)
    (hf : ∀ s, (f s).state = s.state) (h : ∀ s lp tr, Still cfg b s lp tr → wps cfg k Q s lp tr) :
    wps cfg (.set f k) Q s lp tr :=
  wps_set (stable_still b) h0 fun s _ _ hs => h _ _ _ ⟨hs.1, hs.2.1, (hf s).trans hs.2.2.1, hs.2.2.2⟩

theorem still_retry {b : Prop} {mode : Mode} {n : ℕ} {k : Bool → P α} {s : Ctl} {lp : P Unit}
    (h0 : Still cfg b s lp tr) (h : ∀ r s lp tr, Still cfg b s lp tr → wps cfg (k r) Q s lp tr) :
    wps cfg (Prog.bind (retryModes mode n) k) Q s lp tr := by
  induction n generalizing s lp tr with
  | zero => exact h _ _ _ _ h0
  | succ n ih =>
    unfold retryModes checkControlModes
    refine still_call (c := .delay _) h0 (fun r => ⟨by simp [record], by simp [record]⟩) fun _ s lp tr h0 => ?_
    refine still_call (c := .getControlModes) h0 (fun r => ⟨by simp [record], by simp [record]⟩) fun r s lp tr h0 => ?_
    rcases r with _ | m
    · exact ih h0
    · show wps cfg (Prog.bind (if m.all (· = mode) = true then _ else _) k) _ _ _ _
      split
      · exact h _ _ _ _ h0
      · exact ih h0

theorem still_modes {b : Prop} {mode : Mode} {k : Bool → P α} {s : Ctl} {lp : P Unit}
    (h0 : Still cfg b s lp tr) (h : ∀ r s lp tr, Still cfg b s lp tr → wps cfg (k r) Q s lp tr) :
    wps cfg (Prog.bind (setControlModes mode) k) Q s lp tr := by
  unfold setControlModes
  refine still_call (c := .getControlModes) h0 (fun r => ⟨by simp [record], by simp [record]⟩) fun r s lp tr h0 => ?_
  rcases r with _ | m
  · exact h _ _ _ _ h0
  · show wps cfg (Prog.bind (if jointsNotIn mode m = [] then _ else _) k) _ _ _ _
    split
    · exact still_retry h0 h
    · refine still_call (c := .setControlModes _ _) h0 (fun r => ⟨by simp [record], by simp [record]⟩) fun r s lp tr h0 => ?_
      rcases r with _ | _
      · exact h _ _ _ _ h0
      · exact still_retry h0 h

/-- Either nothing is going on or the movement is. -/
theorem movj_going {x : List ℝ} {s : Ctl} {lp : P Unit} (h0 : Still cfg True s lp tr) :
    wps cfg (movj cfg x) (fun a s lp tr => if a = true then Going cfg s lp tr else Still cfg False s lp tr) s lp tr := by
  have stay : ∀ (b : Bool) (s : Ctl) (lp : P Unit) (tr : List (Who × Ev)), Still cfg True s lp tr →
      wps cfg (Prog.pure b) (fun a s lp tr => if a = true then Going cfg s lp tr else Still cfg False s lp tr) s lp tr :=
    fun b s lp tr h => wps_pure (stable_still _) h fun s lp tr h => by
      cases b
      · exact ⟨h.1, False.elim, h.2.2⟩
      · exact Or.inl h
  unfold movj
  refine still_call (c := .getEncoders) h0 (fun r => ⟨by simp [record], by simp [record]⟩) fun r s lp tr h0 => ?_
  rcases r with _ | q
  · exact stay _ _ _ _ h0
  refine wps_get (stable_still _) h0 fun s lp tr h0 => ?_
  refine still_call (c := .invKin _ _ _) h0 (fun r => ⟨by simp [record], by simp [record]⟩) fun r s lp tr h0 => ?_
  rcases r with _ | qd
  · exact stay _ _ _ _ h0
  show wps cfg (Prog.bind (Prog.lift (computeIsocronousSpeeds cfg q qd)) _) _ _ _ _
  rcases computeIsocronousSpeeds cfg q qd with _ | ⟨vmo, m⟩
  · trivial
  cases m
  · exact stay _ _ _ _ h0
  refine still_set h0 (fun _ => rfl) fun s lp tr h0 => ?_
  refine still_call (c := .getRefSpeeds) h0 (fun r => ⟨by simp [record], by simp [record]⟩) fun r s lp tr h0 => ?_
  rcases r with _ | refs
  · exact stay _ _ _ _ h0
  refine still_set h0 (fun _ => rfl) fun s lp tr h0 => ?_
  refine still_call (c := .setRefSpeeds _) h0 (fun r => ⟨by simp [record], by simp [record]⟩) fun r s lp tr h0 => ?_
  rcases r with _ | _
  · exact stay _ _ _ _ h0
  refine still_modes h0 fun r s lp tr h0 => ?_
  rcases r with _ | _
  · exact stay _ _ _ _ h0
  show wps cfg (Prog.bind (Prog.lift (buffer cfg qd)) _) _ _ _ _
  rcases buffer cfg qd with _ | target
  · trivial
  refine wps_call (stable_still True) h0 fun s lp tr r h0 => ?_
  have h1 : Still cfg False s lp (tr ++ [(Who.user, record (.positionMove target) r)]) :=
    ⟨sound_user h0.1 (by simp [record]) fun _ => h0.2.1 trivial, False.elim, h0.2.2.1, h0.2.2.2.imp rest_append id⟩
  generalize tr ++ [(Who.user, record (.positionMove target) r)] = tr at h1 ⊢
  clear h0
  rcases r with _ | _
  · exact wps_pure (stable_still _) h1 fun s lp tr h => h
  refine still_set h1 (fun _ => rfl) fun s lp tr h1 => ?_
  refine wps_set (stable_still _) h1 fun s lp tr h1 => ?_
  refine wps_pure stable_going (Or.inr ⟨h1.1, rfl, ?_⟩) fun s lp tr h => h
  rcases h1.2.2.2 with h | rfl
  · exact Or.inl h
  · exact Or.inr (Or.inl stage_run)

/-- Once `wait` ends, the movement has ended. -/
theorem wait_still {n : ℕ} {s : Ctl} {lp : P Unit} (h0 : Going cfg s lp tr) :
    wps cfg (wait 0 n) (fun a s lp tr => if a = none then Going cfg s lp tr else Still cfg True s lp tr) s lp tr := by
  have idle : ∀ {s lp tr}, Going cfg s lp tr → s.state ≠ .movj → Still cfg True s lp tr := by
    rintro s lp tr (h | h) hn
    · exact h
    · exact absurd h.2.1 hn
  have loop : ∀ (n : ℕ) (st : CState) (start : ℝ) (s : Ctl) (lp : P Unit) (tr : List (Who × Ev)), Going cfg s lp tr →
      (st = .notControlling → Still cfg True s lp tr) → wps cfg (waitLoop 0 start n st)
        (fun a s lp tr => if a = none then Going cfg s lp tr else Still cfg True s lp tr) s lp tr := by
    intro n
    induction n with
    | zero =>
      intro st start s lp tr h0 _
      refine wps_pure stable_going h0 fun s lp tr h => h
    | succ n ih =>
      intro st start s lp tr h0 hs
      rw [waitLoop]
      split
      · rename_i hi
        refine wps_get (stable_still _) (hs hi) fun s lp tr h => ?_
        exact wps_pure (stable_still _) h fun s lp tr h => h
      · dsimp only
        rw [if_neg (by simp)]
        refine wps_get stable_going h0 fun s lp tr h => ?_
        refine wps_call stable_going h fun s lp tr r h => ?_
        refine wps_get stable_going (going_user h ⟨by simp [record], by simp [record]⟩) fun s lp tr h => ?_
        exact ih _ _ _ _ _ h fun hi => idle h (by rw [hi]; simp)
  unfold wait getCurrentState
  refine wps_get stable_going h0 fun s lp tr h => ?_
  show wps cfg (if s.state ≠ .movj ∧ s.state ≠ .movl then _ else _) _ _ _ _
  split
  · rename_i hn
    exact wps_pure (stable_still _) (idle h hn.1) fun s lp tr h => h
  · rename_i hn
    refine wps_call stable_going h fun s1 lp tr r h => ?_
    refine loop _ _ _ _ _ _ (going_user h ⟨by simp [record], by simp [record]⟩) fun hi => ?_
    exact absurd ⟨by rw [hi]; simp, by rw [hi]; simp⟩ hn

theorem moves_sound (l : List (List ℝ × ℕ)) : ∀ {s : Ctl} {lp : P Unit} {tr : List (Who × Ev)}, Still cfg True s lp tr →
    wps cfg (moves cfg l) (fun _ _ _ tr => Sound cfg tr) s lp tr := by
  induction l with
  | nil => exact fun h => wps_pure (stable_still _) h fun _ _ _ h => h.1
  | cons p l ih =>
    intro s lp tr h
    unfold moves
    refine wps_bind (wps_mono (fun a s lp tr h => ?_) (movj_going h))
    cases a
    · exact wps_pure (stable_still _) h fun _ _ _ h => h.1
    · refine wps_bind (wps_mono (fun a s lp tr h => ?_) (wait_still h))
      cases a
      · refine wps_pure stable_going h fun _ _ _ h => ?_
        rcases h with h | h <;> exact h.1
      · exact ih h

end

end KD.Ctrl
