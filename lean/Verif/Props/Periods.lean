import Verif.Props.OpenController
import Verif.Props.Parameters

/-!
# C81: how often the controller runs, and which period it reports
-/

namespace KD.Ctrl

open KdlConfig (Config)
open Prog (wp wp_bind wp_of_run wp_sound can can_bind can_run Run Writes run_keeps)

/-- The reported period is that of the thread in whole milliseconds. -/
def Timed (s : Ctl) : Prop := (s.cmcPeriodMs : ℝ) = storedValue .cmcPeriod (1000 * s.period)

theorem timed_setParameter (cfg : Cfg) (k : Key) (v : ℝ) (s : Ctl) (hs : Timed s) :
    wp (robot cfg) (setParameter k v) (fun o s' _ => ∀ b, o = .ok b → Timed s') s [] := by
  unfold setParameter getCurrentState presetStreamingCommand setCurrentState
  cases k <;> dev_simp
  case gain => exact ⟨fun _ _ _ => hs, fun _ => ⟨fun _ _ _ => hs, fun _ _ _ => hs⟩⟩
  case duration => exact ⟨fun _ _ _ => hs, fun _ => ⟨fun _ _ _ => hs, fun _ _ _ => hs⟩⟩
  case cmcPeriod =>
    refine ⟨fun _ _ _ => hs, fun _ r => ⟨fun _ => ⟨by simp, fun i hi => ?_⟩, fun _ _ _ => hs⟩⟩
    intro b _
    show (i : ℝ) = storedValue .cmcPeriod (1000 * (v * (1 / 1000)))
    rw [show 1000 * (v * (1 / 1000)) = v by ring]
    exact toInt_some hi
  case waitPeriod => exact ⟨fun _ _ _ => hs, fun _ => ⟨fun _ _ _ => hs, fun _ => ⟨by simp, fun _ _ _ _ => hs⟩⟩⟩
  case frame => exact ⟨fun _ _ _ => hs, fun _ => ⟨fun _ _ _ => hs, fun _ _ _ => hs⟩⟩
  case streaming =>
    refine ⟨fun _ _ _ => hs, fun hst => ⟨by simp, fun i hi => ?_⟩⟩
    have key : ∀ (b : Bool) tr, wp (robot cfg) (if b = true then
          Prog.set (fun s => { s with streaming := i }) (Prog.pure true) else Prog.pure false)
        (fun o s' _ => ∀ b, o = .ok b → Timed s') { s with state := .notControlling, streaming := vocabNotSet } tr := by
      intro b tr
      dev_simp
      exact ⟨fun _ _ _ => hs, fun _ _ _ => hs⟩
    exact ⟨fun _ => wp_setModes fun b es _ _ => key b _, fun _ => ⟨fun _ => wp_setModes
      fun b es _ _ => key b _, fun _ => ⟨fun _ => wp_setModes fun b es _ _ => key b _, fun _ => ⟨by simp, fun _ _ _ => hs⟩⟩⟩⟩
  case unknown => exact ⟨fun _ _ _ => hs, fun _ _ _ => hs⟩

theorem timed_setAll {cfg : Cfg} {ps : List (Key × ℝ)} {ok : Bool} {s s' : Ctl} {tr : List Ev} {b : Bool}
    (h : Exec cfg (setAll ps ok) s tr (.ok b) s') (hs : Timed s) : Timed s' := by
  induction ps generalizing ok s tr with
  | nil => cases h; exact hs
  | cons p ps ih =>
    obtain ⟨k', v⟩ := p
    unfold setAll at h
    rcases Prog.run_bind.mp h with ⟨b1, s1, t1, t2, h1, h2, rfl⟩ | ⟨-, h⟩
    · exact ih h2 (wp_sound (timed_setParameter cfg k' v s hs) h1 b1 rfl)
    · simp at h

/-- Writes that leave both periods alone. -/
def NotPeriod (f : Ctl → Ctl) : Prop := ∀ s, (f s).period = s.period ∧ (f s).cmcPeriodMs = s.cmcPeriodMs

theorem timed_hist {cfg : Cfg} {s s' : Ctl} {ds : List Done} (h : Hist cfg s ds s') (hs : Timed s) : Timed s' := by
  induction h with
  | nil => exact hs
  | @cons s op tr b s1 ds s' hx _ ih =>
    refine ih ?_
    by_cases h1 : ∃ k' v, op = .setParameter k' v
    · obtain ⟨k', v, rfl⟩ := h1
      rcases Prog.run_bind.mp hx with ⟨b1, s2, t1, t2, h1, h2, rfl⟩ | ⟨-, h⟩
      · cases h2
        exact wp_sound (timed_setParameter cfg k' v s hs) h1 b1 rfl
      · simp at h
    by_cases h2 : ∃ ps, op = .setParameters ps
    · obtain ⟨ps, rfl⟩ := h2
      rcases Prog.run_bind.mp hx with ⟨b1, s2, t1, t2, h1, h2, rfl⟩ | ⟨-, h⟩
      · cases h2
        refine wp_sound (Q := fun o s' _ => ∀ b, o = .ok b → Timed s') ?_ h1 b1 rfl
        unfold setParameters getCurrentState
        dev_simp
        refine ⟨fun _ _ _ => hs, fun _ => wp_of_run fun tr o s' hr b hb => ?_⟩
        subst hb
        exact timed_setAll hr hs
      · simp at h
    · refine run_keeps (W := NotPeriod) (I := Timed)
        (fun f hf t ht => by unfold Timed; rw [(hf t).1, (hf t).2]; exact ht) hx ?_ hs
      have hcmd : CommandWrites NotPeriod := by
        constructor <;> intros <;> intro s <;> exact ⟨rfl, rfl⟩
      by_cases hc : op = .cycle
      · subst hc
        refine writes_cycle ?_ cfg
        constructor <;> intro s <;> exact ⟨rfl, rfl⟩
      · cases op
        case setParameter k' v => exact absurd ⟨k', v, rfl⟩ h1
        case setParameters ps => exact absurd ⟨ps, rfl⟩ h2
        case cycle => exact absurd rfl hc
        case movj => exact Prog.writes_bind (writes_movj hcmd fun f s => ⟨rfl, rfl⟩) fun _ => True.intro
        case relj => exact Prog.writes_bind (writes_relj hcmd fun f s => ⟨rfl, rfl⟩) fun _ => True.intro
        case stat => exact Prog.writes_bind writes_stat fun _ => True.intro
        case inv => exact Prog.writes_bind writes_inv fun _ => True.intro
        case movl => exact Prog.writes_bind (writes_movl hcmd) fun _ => True.intro
        case movv => exact Prog.writes_bind (writes_movv hcmd) fun _ => True.intro
        case gcmp => exact Prog.writes_bind (writes_gcmp hcmd) fun _ => True.intro
        case forc => exact Prog.writes_bind (writes_forc hcmd) fun _ => True.intro
        case stopControl =>
          exact Prog.writes_bind (writes_stopControl (hcmd.state _) (hcmd.trajectories _)) fun _ => True.intro
        case wait => exact writes_wait hcmd
        case tool => exact Prog.writes_bind writes_tool fun _ => True.intro
        case pose => exact Prog.writes_bind writes_pose fun _ => True.intro
        case twist => exact Prog.writes_bind writes_twist fun _ => True.intro
        case wrench => exact Prog.writes_bind writes_wrench fun _ => True.intro
        case getParameter => exact Prog.writes_bind writes_getParameter fun _ => True.intro

/-- C81: the loop of a controller that opened runs with the period of the configuration; whatever is done
afterwards, the period that is reported is the one it runs with, in whole milliseconds. Partial: of a period that is set
to a fraction of milliseconds only the whole part is reported. -/
theorem C81_period_partial {w : World} {c : Config} {cfg : Cfg} {s : Ctl} (h : openController w c = some (some (cfg, s))) :
    (∀ m, HasWhole c "cmcPeriodMs" 50 m → s.period = m / 1000) ∧
    ∀ ds s' tr v s'', Hist cfg s ds s' → Exec cfg (getParameter .cmcPeriod) s' tr (.ok (some v)) s'' →
      v = storedValue .cmcPeriod (1000 * s'.period) ∧ ∀ n : ℤ, 1000 * s'.period = n → v = n := by
  obtain ⟨frame, r, n, refs, ls, options, tcps, -, -, -, -, -, -, -, -, -, h10⟩ := open_steps h
  obtain ⟨rfl, rfl⟩ := Prod.mk.inj h10
  refine ⟨fun m hm => ?_, fun ds s' tr v s'' hh hg => ?_⟩
  · show (((c.top.check "cmcPeriodMs" (.int 50)).asInt : ℤ) : ℝ) * (1 / 1000) = m / 1000
    rw [check_whole hm]
    ring
  · have h0 : Timed (opened w c frame n tcps refs ls).2 := by
      show (((c.top.check "cmcPeriodMs" (.int 50)).asInt : ℤ) : ℝ) = storedValue .cmcPeriod
        (1000 * (((c.top.check "cmcPeriodMs" (.int 50)).asInt : ℤ) * (1 / 1000)))
      rw [show ∀ x : ℝ, 1000 * (x * (1 / 1000)) = x from fun x => by ring, C36_whole_numbers_kept]
    have h1 := timed_hist hh h0
    have h2 : some v = param s' .cmcPeriod := by
      refine wp_sound (Q := fun o _ _ => ∀ r, o = .ok r → r = param s' .cmcPeriod) ?_ hg _ rfl
      unfold getParameter
      dev_simp
      rintro r ⟨⟩
      rfl
    have h3 : v = s'.cmcPeriodMs := Option.some.inj h2
    have h4 : v = storedValue .cmcPeriod (1000 * s'.period) := h3.trans h1
    refine ⟨h4, fun n hn => ?_⟩
    rw [h4, hn, C36_whole_numbers_kept]

/-- A controller that opens with a period of 20 ms and gets another one of 10 ms. -/
example : ∃ c cfg s s' ds, openController simWorld c = some (some (cfg, s)) ∧ HasWhole c "cmcPeriodMs" 50 20 ∧
    Hist cfg s ds s' ∧ s'.period = 1 / 100 ∧ Exec cfg (getParameter .cmcPeriod) s' [] (.ok (some 10)) s' := by
  obtain ⟨cfg, s, h, -⟩ := sim_opens (c := plain [("cmcPeriodMs", .int 20)]) rfl rfl rfl rfl rfl
  have hidle : s.state = .notControlling := by
    obtain ⟨_, _, _, -, -, -, -, -, -, -, -, -, g, -⟩ := C81_opened h (Or.inr ⟨rfl, rfl⟩) (Or.inr ⟨rfl, rfl⟩)
    exact g
  have hc : can (robot cfg) (Op.prog cfg (.setParameter .cmcPeriod 10)) (fun o s' _ => o = .ok (some true) ∧
      s'.period = 1 / 100 ∧ s'.cmcPeriodMs = 10) s [] := by
    show can (robot cfg) (Prog.bind (setParameter .cmcPeriod _) _) _ _ _
    unfold setParameter getCurrentState
    can_simp
    refine Or.inr ⟨by simp [hidle], true, Or.inl ⟨rfl, Or.inr ⟨10, by norm_num [toInt], ?_⟩⟩⟩
    norm_num
  obtain ⟨tr, _, s', hr, rfl, h1, h2⟩ := can_run hc
  refine ⟨_, cfg, s, s', _, h, Or.inl rfl, .cons hr (.nil _), h1, ?_⟩
  have : some (10 : ℝ) = param s' .cmcPeriod := by
    show _ = some (s'.cmcPeriodMs : ℝ)
    rw [h2]
    norm_num
  rw [this]
  exact .get (.pure _ _)

/-- What is missing: the loop runs every half millisecond, and the period that is reported is zero. -/
theorem C81_fraction_counterexample : ∃ c cfg s s' ds, openController simWorld c = some (some (cfg, s)) ∧
    Hist cfg s ds s' ∧ (∃ d ∈ ds, d.op = .setParameter .cmcPeriod (1 / 2) ∧ d.answer = some true) ∧
    s'.period = 1 / 2000 ∧ Exec cfg (getParameter .cmcPeriod) s' [] (.ok (some 0)) s' := by
  obtain ⟨cfg, s, h, -⟩ := sim_opens (c := plain []) rfl rfl rfl rfl rfl
  have hidle : s.state = .notControlling := by
    obtain ⟨_, _, _, -, -, -, -, -, -, -, -, -, g, -⟩ := C81_opened h (Or.inr ⟨rfl, rfl⟩) (Or.inr ⟨rfl, rfl⟩)
    exact g
  have hc : can (robot cfg) (Op.prog cfg (.setParameter .cmcPeriod (1 / 2))) (fun o s' _ => o = .ok (some true) ∧
      s'.period = 1 / 2000 ∧ s'.cmcPeriodMs = 0) s [] := by
    show can (robot cfg) (Prog.bind (setParameter .cmcPeriod _) _) _ _ _
    unfold setParameter getCurrentState
    can_simp
    refine Or.inr ⟨by simp [hidle], true, Or.inl ⟨rfl, Or.inr ⟨0, ?_, ?_⟩⟩⟩
    · have : ⌊(2⁻¹ : ℝ)⌋ = 0 := by norm_num
      simp only [toInt, one_div, this]
      norm_num
    · norm_num
  obtain ⟨tr, _, s', hr, rfl, h1, h2⟩ := can_run hc
  refine ⟨_, cfg, s, s', _, h, .cons hr (.nil _), ⟨_, List.mem_cons_self, rfl, rfl⟩, h1, ?_⟩
  have : some (0 : ℝ) = param s' .cmcPeriod := by
    show _ = some (s'.cmcPeriodMs : ℝ)
    rw [h2]
    norm_num
  rw [this]
  exact .get (.pure _ _)

end KD.Ctrl
