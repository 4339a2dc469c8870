import Verif.Programs.StreamingConfigure
import Verif.Props.Sessions
import Verif.Props.Proximity
import Mathlib.Tactic.Linarith
import Mathlib.Tactic.NormNum

/-!
# C95: how the streaming device controller starts

What must hold so that the program starts, how it is then set up, and what it has changed if it does not start.
-/

namespace KD.Sdc

open scoped Classical

/-! ## What must hold to start -/

/-- The name of the device, after its default. -/
def Opts.name (o : Opts) : String := o.device.getD "SpaceNavigator"

/-- The number of values the sensor of the Leap device must give. -/
def fullReading (l : List ℝ) : Prop := l.length = 6 ∨ l.length = 8

/-- The device can be set up with these options. -/
def deviceReady (o : Opts) (w : World) : Prop :=
  (o.name = "SpaceNavigator" ∧ (o.pose = true ∨ o.movi = true → 0 < o.gain.getD 0)) ∨
  (o.name = "LeapMotionSensor" ∧ o.group.leapFrameRPY ≠ some none ∧ w.stat ≠ none ∧ fullReading w.read) ∨
  (o.name = "WiimoteSensor" ∧ (o.pose = true ∨ o.movi = true → 0 < o.group.step.getD (1 / 100)))

/-- The controller answers as it should. -/
def controllerReady (w : World) : Prop :=
  w.client = true ∧ w.params ≠ none ∧ (w.params = some true → w.setStreaming = true) ∧ w.setFrame = true

/-- The ports that are asked for, and the options that come with them. -/
def extrasReady (o : Opts) (w : World) : Prop :=
  (o.sensorsPort = true → w.sensors = true) ∧
  (o.remoteCentroid = true → o.name = "SpaceNavigator" ∧ (∀ l, o.centroidRPY = some (some l) → l.length = 3) ∧
    0 ≤ o.centroidPermTime.getD 0 ∧ w.centroid = true) ∧
  (o.syncPort = true → w.sync = true)

theorem rpyOf_isSome (l : List ℝ) : (rpyOf l).isSome = true ↔ l.length = 3 := by
  match l with
  | [] => simp [rpyOf]
  | [_] => simp [rpyOf]
  | [_, _] => simp [rpyOf]
  | [_, _, _] => simp [rpyOf]
  | _ :: _ :: _ :: _ :: _ => simp [rpyOf]

theorem cameraRot_isSome (v : Option (Option (List ℝ))) :
    (cameraRot v).isSome = true ↔ ∀ l, v = some (some l) → l.length = 3 := by
  match v with
  | none => simp [cameraRot]
  | some none => simp [cameraRot]
  | some (some l) => simp [cameraRot, rpyOf_isSome]

theorem leap_acquire_isSome (d : Leap) (l : List ℝ) : (d.acquire l).isSome = true ↔ fullReading l := by
  unfold fullReading
  match l with
  | [] => simp [Leap.acquire]
  | [_] => simp [Leap.acquire]
  | [_, _] => simp [Leap.acquire]
  | [_, _, _] => simp [Leap.acquire]
  | [_, _, _, _] => simp [Leap.acquire]
  | [_, _, _, _, _] => simp [Leap.acquire]
  | [_, _, _, _, _, _] => simp [Leap.acquire]
  | [_, _, _, _, _, _, _] => simp [Leap.acquire]
  | [_, _, _, _, _, _, _, _] => simp [Leap.acquire]
  | _ :: _ :: _ :: _ :: _ :: _ :: _ :: _ :: _ :: _ => simp [Leap.acquire]

theorem leap_init_isSome (u : Bool) (ax : Option (List String)) (r : Option (ℝ × ℝ × ℝ)) (st : Option Six)
    (l : List ℝ) : (Leap.init u ax r st l).isSome = true ↔ st ≠ none ∧ fullReading l := by
  cases st with
  | none => simp [Leap.init]
  | some x => simp [Leap.init, leap_acquire_isSome]

theorem usingPose_iff (o : Opts) : o.usingPose = true ↔ o.pose = true ∨ o.movi = true := by
  simp [Opts.usingPose]

theorem setParams_ok (w : World) (preset pose tcp : Bool) :
    (setParams w preset pose tcp).2 = true ↔ (preset = true → w.setStreaming = true) ∧ w.setFrame = true := by
  unfold setParams
  cases preset <;> cases w.setStreaming <;> simp

/-- The calls if all goes well. -/
def wanted (preset pose tcp : Bool) : List Param :=
  (if preset then [.streaming pose] else []) ++ [.frame tcp]

theorem setParams_calls {w : World} {preset pose tcp : Bool} (h : (setParams w preset pose tcp).2 = true) :
    (setParams w preset pose tcp).1 = wanted preset pose tcp := by
  unfold setParams at h ⊢
  unfold wanted
  cases preset <;> cases hs : w.setStreaming <;> simp_all

/-- The device as it is set up, from its name. -/
noncomputable def deviceFor (o : Opts) (w : World) : Option Device :=
  if o.name = "SpaceNavigator" then
    (Spnav.init o.usingPose (o.gain.getD 0) o.group.fixedAxes w.stat).map .spnav
  else if o.name = "LeapMotionSensor" then
    (Leap.init o.usingPose o.group.fixedAxes ((o.group.leapFrameRPY.getD none).bind rpyOf) w.stat w.read).map .leap
  else (Wiimote.init o.usingPose (o.group.step.getD (1 / 100)) o.group.fixedAxes).map .wiimote

theorem initDevice_some (o : Opts) (w : World) (preset : Bool) (d : Device) :
    (initDevice o w preset o.name).2 = some d ↔
      deviceFor o w = some d ∧ (preset = true → w.setStreaming = true) ∧ w.setFrame = true := by
  unfold initDevice deviceFor
  by_cases h1 : o.name = "SpaceNavigator"
  · simp only [if_pos h1]
    cases hs : Spnav.init o.usingPose (o.gain.getD 0) o.group.fixedAxes w.stat with
    | none => simp
    | some x =>
      simp only [Option.map_some, Option.some.injEq]
      rw [← setParams_ok w preset o.usingPose false]
      cases (setParams w preset o.usingPose false).2 <;> simp
  · simp only [if_neg h1]
    by_cases h2 : o.name = "LeapMotionSensor"
    · simp only [if_pos h2]
      rw [← setParams_ok w preset o.usingPose false]
      cases (setParams w preset o.usingPose false).2 <;> simp
    · simp only [if_neg h2]
      cases hs : Wiimote.init o.usingPose (o.group.step.getD (1 / 100)) o.group.fixedAxes with
      | none => simp
      | some x =>
        simp only [Option.map_some, Option.some.injEq]
        rw [← setParams_ok w preset o.usingPose true]
        cases (setParams w preset o.usingPose true).2 <;> simp

theorem initDevice_calls {o : Opts} {w : World} {preset : Bool} {d : Device}
    (h : (initDevice o w preset o.name).2 = some d) :
    (initDevice o w preset o.name).1 =
      wanted preset o.usingPose (decide (o.name ≠ "SpaceNavigator" ∧ o.name ≠ "LeapMotionSensor")) := by
  unfold initDevice at h ⊢
  by_cases h1 : o.name = "SpaceNavigator"
  · simp only [if_pos h1] at h ⊢
    cases hs : Spnav.init o.usingPose (o.gain.getD 0) o.group.fixedAxes w.stat with
    | none => rw [hs] at h; simp at h
    | some x =>
      rw [hs] at h
      simp only at h ⊢
      rw [setParams_calls (by by_contra hc; simp [hc] at h)]
      simp [h1]
  · simp only [if_neg h1] at h ⊢
    by_cases h2 : o.name = "LeapMotionSensor"
    · simp only [if_pos h2] at h ⊢
      rw [setParams_calls (by by_contra hc; simp [hc] at h)]
      simp [h2]
    · simp only [if_neg h2] at h ⊢
      cases hs : Wiimote.init o.usingPose (o.group.step.getD (1 / 100)) o.group.fixedAxes with
      | none => rw [hs] at h; simp at h
      | some x =>
        rw [hs] at h
        simp only at h ⊢
        rw [setParams_calls (by by_contra hc; simp [hc] at h)]
        simp [h1, h2]

/-- Everything a started program went through. -/
theorem started_iff (o : Opts) (w : World) (c : Ctl) (b : Bool) (ps : List Param) :
    configure o w = .started c b ps ↔
      constructorCrashes o o.name = false ∧ knownDevice o.name = true ∧ w.opens = true ∧ w.views = true ∧
      w.client = true ∧ (o.syncPort = true → w.sync = true) ∧
      ∃ preset d p q, w.params = some preset ∧ (initDevice o w preset o.name).2 = some d ∧
        startSensors o w = some p ∧ startCentroid o w d = some q ∧
        c = ⟨d, o.scaling.getD 10, p, q, true⟩ ∧ b = o.syncPort ∧ ps = (initDevice o w preset o.name).1 := by
  unfold configure
  simp only
  rw [show o.device.getD "SpaceNavigator" = o.name from rfl]
  cases h1 : constructorCrashes o o.name
  swap
  · simp
  cases h2 : knownDevice o.name
  · simp
  cases h3 : w.opens
  · simp
  cases h4 : w.views
  · simp
  cases h5 : w.client
  · simp
  cases h6 : w.params with
  | none => simp
  | some preset =>
    cases h7 : (initDevice o w preset o.name).2 with
    | none => simp [h7]
    | some d =>
      cases h8 : startSensors o w with
      | none => simp [h7]
      | some p =>
        cases h9 : startCentroid o w d with
        | none => simp [h7, h9]
        | some q =>
          cases h10 : o.syncPort <;> cases h11 : w.sync <;> simp [h7, h9, eq_comm]

theorem deviceFor_isSome {o : Opts} {w : World} (hk : knownDevice o.name = true) :
    (deviceFor o w).isSome = true ∧ constructorCrashes o o.name = false ↔ deviceReady o w := by
  have hne : ¬("LeapMotionSensor" = "SpaceNavigator") := by decide
  have hne2 : ¬("WiimoteSensor" = "SpaceNavigator") := by decide
  have hne3 : ¬("WiimoteSensor" = "LeapMotionSensor") := by decide
  have hcr : constructorCrashes o o.name = false ↔
      ¬(o.name = "LeapMotionSensor" ∧ o.group.leapFrameRPY = some none) := by
    unfold constructorCrashes
    match o.group.leapFrameRPY with
    | none => simp
    | some none => simp
    | some (some l) => simp
  rw [hcr]
  unfold deviceFor deviceReady
  simp only [knownDevice, Bool.or_eq_true, decide_eq_true_eq] at hk
  rcases hk with (hn | hn) | hn
  · simp only [hn, if_true, true_and, Option.isSome_map]
    rw [← usingPose_iff]
    unfold Spnav.init
    cases o.usingPose
    · simp
    · by_cases hg : o.gain.getD 0 ≤ 0
      · simp [hg]
      · simp [hg, lt_of_not_ge hg]
  · simp only [hn, if_neg hne, if_true, true_and, Option.isSome_map, leap_init_isSome]
    simp only [hne, false_and, false_or]
    constructor
    · rintro ⟨⟨a, b⟩, c⟩; exact Or.inl ⟨c, a, b⟩
    · rintro (⟨c, a, b⟩ | ⟨h, -⟩)
      · exact ⟨⟨a, b⟩, c⟩
      · exact absurd h (by decide)
  · simp only [hn, if_neg hne2, if_neg hne3, true_and, Option.isSome_map]
    simp only [hne2, hne3, false_and, false_or, not_false_eq_true, and_true]
    rw [← usingPose_iff]
    unfold Wiimote.init
    cases o.usingPose
    · simp
    · by_cases hg : o.group.step.getD (1 / 100) ≤ 0
      · simp [hg]
      · simp only [hg, decide_false, Bool.and_false, Bool.false_eq_true, if_false]
        exact ⟨fun _ _ => lt_of_not_ge hg, fun _ => rfl⟩

theorem knownDevice_of_ready {o : Opts} {w : World} (h : deviceReady o w) : knownDevice o.name = true := by
  rcases h with ⟨h, -⟩ | ⟨h, -⟩ | ⟨h, -⟩ <;> simp [knownDevice, h]

theorem deviceFor_spnav {o : Opts} {w : World} {d : Device} (h : deviceFor o w = some d) :
    (∃ s, d = .spnav s) ↔ o.name = "SpaceNavigator" := by
  unfold deviceFor at h
  by_cases h1 : o.name = "SpaceNavigator"
  · rw [if_pos h1] at h
    obtain ⟨s, -, rfl⟩ := Option.map_eq_some_iff.1 h
    simp [h1]
  · rw [if_neg h1] at h
    by_cases h2 : o.name = "LeapMotionSensor"
    · rw [if_pos h2] at h
      obtain ⟨s, -, rfl⟩ := Option.map_eq_some_iff.1 h
      simp [h1]
    · rw [if_neg h2] at h
      obtain ⟨s, -, rfl⟩ := Option.map_eq_some_iff.1 h
      simp [h1]

theorem startSensors_isSome (o : Opts) (w : World) :
    (startSensors o w).isSome = true ↔ (o.sensorsPort = true → w.sensors = true) := by
  unfold startSensors
  cases o.sensorsPort <;> cases w.sensors <;> simp

theorem startCentroid_isSome {o : Opts} {w : World} {d : Device} (h : deviceFor o w = some d) :
    (startCentroid o w d).isSome = true ↔
      (o.remoteCentroid = true → o.name = "SpaceNavigator" ∧ (∀ l, o.centroidRPY = some (some l) → l.length = 3) ∧
        0 ≤ o.centroidPermTime.getD 0 ∧ w.centroid = true) := by
  rw [← deviceFor_spnav h, ← cameraRot_isSome]
  unfold startCentroid
  cases o.remoteCentroid
  · simp
  cases d with
  | leap d => simp
  | wiimote d => simp
  | spnav d =>
    simp only [if_true]
    cases hc : cameraRot o.centroidRPY with
    | none => simp
    | some r =>
      by_cases hp : o.centroidPermTime.getD 0 < 0
      · simp [hp]
      · cases hw : w.centroid
        · simp [hp]
        · simp [hp, not_lt.1 hp]

/-- **C95.** The program starts exactly if the device is one of the three known ones, opens and is set up with usable
options, the controller answers, and each port that is asked for connects. -/
theorem C95_starts_iff (o : Opts) (w : World) :
    (∃ c b ps, configure o w = .started c b ps) ↔
      deviceReady o w ∧ w.opens = true ∧ w.views = true ∧ controllerReady w ∧ extrasReady o w := by
  constructor
  · rintro ⟨c, b, ps, h⟩
    obtain ⟨h1, h2, h3, h4, h5, h6, preset, d, p, q, k1, k2, k3, k4, -⟩ := (started_iff o w c b ps).1 h
    obtain ⟨m1, m2, m3⟩ := (initDevice_some o w preset d).1 k2
    refine ⟨(deviceFor_isSome h2).1 ⟨by rw [m1]; rfl, h1⟩, h3, h4, ⟨h5, by simp [k1], ?_, m3⟩,
      (startSensors_isSome o w).1 (by rw [k3]; rfl), (startCentroid_isSome m1).1 (by rw [k4]; rfl), h6⟩
    intro hp
    rw [k1] at hp
    exact m2 (Option.some.inj hp)
  · rintro ⟨h1, h3, h4, ⟨h5, hp, m2, m3⟩, e1, e2, e3⟩
    have hk := knownDevice_of_ready h1
    obtain ⟨hs, hc⟩ := (deviceFor_isSome hk).2 h1
    obtain ⟨d, hd⟩ := Option.isSome_iff_exists.1 hs
    obtain ⟨preset, hpre⟩ := Option.ne_none_iff_exists'.1 hp
    obtain ⟨p, hp⟩ := Option.isSome_iff_exists.1 ((startSensors_isSome o w).2 e1)
    obtain ⟨q, hq⟩ := Option.isSome_iff_exists.1 ((startCentroid_isSome hd).2 e2)
    exact ⟨_, _, _, (started_iff o w _ _ _).2 ⟨hc, hk, h3, h4, h5, e3, preset, d, p, q, hpre,
      (initDevice_some o w preset d).2 ⟨hd, fun hpt => m2 (by rw [hpre, hpt]), m3⟩, hp, hq, rfl, rfl, rfl⟩⟩

/-! ## How a started program is set up -/

/-- The call of the controller that a parameter stands for. -/
noncomputable def Param.op : Param → Ctrl.Op
  | .streaming pose => .setParameter .streaming ((if pose then Ctrl.vocabPose else Ctrl.vocabTwist : ℤ) : ℝ)
  | .frame tcp => .setParameter .frame (((if tcp then .tcp else .base : Ctrl.RefFrame).vocab : ℤ) : ℝ)

/-- The axes the device holds. -/
def Device.fixedAxes : Device → Fin 6 → Bool
  | .spnav d => d.fixed
  | .leap d => d.fixed
  | .wiimote d => d.fixed

theorem deviceFor_kind {o : Opts} {w : World} {d : Device} (h : deviceFor o w = some d) :
    d.usesPose = o.usingPose ∧ d.fixedAxes = configureFixedAxes o.group.fixedAxes ∧
      d.frame = (if o.name = "SpaceNavigator" ∨ o.name = "LeapMotionSensor" then .base else .tcp : Ctrl.RefFrame) := by
  unfold deviceFor at h
  by_cases h1 : o.name = "SpaceNavigator"
  · rw [if_pos h1] at h
    obtain ⟨s, hs, rfl⟩ := Option.map_eq_some_iff.1 h
    unfold Spnav.init at hs
    split_ifs at hs <;> (cases hs; simp [Device.usesPose, Device.fixedAxes, Device.frame, h1])
  · rw [if_neg h1] at h
    by_cases h2 : o.name = "LeapMotionSensor"
    · rw [if_pos h2] at h
      obtain ⟨s, hs, rfl⟩ := Option.map_eq_some_iff.1 h
      unfold Leap.init at hs
      cases hst : w.stat with
      | none => rw [hst] at hs; simp at hs
      | some x =>
        rw [hst] at hs
        obtain ⟨a, ha, rfl⟩ := Option.map_eq_some_iff.1 hs
        simp only [Leap.acquire] at ha
        split at ha <;> first | (cases ha; simp [Device.usesPose, Device.fixedAxes, Device.frame, h2]) | simp at ha
    · rw [if_neg h2] at h
      obtain ⟨s, hs, rfl⟩ := Option.map_eq_some_iff.1 h
      unfold Wiimote.init at hs
      split_ifs at hs <;> (cases hs; simp [Device.usesPose, Device.fixedAxes, Device.frame, h1, h2])

/-- **C95.** A started program is at rest and does what its options say: it sends the kind of command that was asked
for, holds exactly the axes that the group of the device names, divides by the scaling that was asked for, and looks at
proximity sensors and at the camera only if it was told to. -/
theorem C95_started_as_asked {o : Opts} {w : World} {c : Ctl} {b : Bool} {ps : List Param}
    (h : configure o w = .started c b ps) :
    c.isStopped = true ∧ c.scaling = o.scaling.getD 10 ∧ c.device.usesPose = (o.pose || o.movi) ∧
      c.device.fixedAxes = configureFixedAxes o.group.fixedAxes ∧
      (c.proximity.isSome = o.sensorsPort) ∧ (c.centroid.isSome = o.remoteCentroid) ∧ b = o.syncPort := by
  obtain ⟨h1, h2, h3, h4, h5, h6, preset, d, p, q, k1, k2, k3, k4, rfl, rfl, -⟩ := (started_iff o w c b ps).1 h
  obtain ⟨m1, m2, m3⟩ := (initDevice_some o w preset d).1 k2
  obtain ⟨n1, n2, -⟩ := deviceFor_kind m1
  refine ⟨rfl, rfl, n1, n2, ?_, ?_, rfl⟩
  · show p.isSome = _
    unfold startSensors at k3
    cases hsp : o.sensorsPort
    · rw [hsp] at k3
      simp only [Bool.false_eq_true, if_false, Option.some.injEq] at k3
      rw [← k3]; rfl
    · rw [hsp] at k3
      simp only [if_true] at k3
      split_ifs at k3
      rw [← Option.some.inj k3]; rfl
  · show q.isSome = _
    unfold startCentroid at k4
    cases hsp : o.remoteCentroid
    · rw [hsp] at k4
      simp only [Bool.false_eq_true, if_false, Option.some.injEq] at k4
      rw [← k4]; rfl
    · rw [hsp] at k4
      simp only [if_true] at k4
      cases d with
      | leap d => simp at k4
      | wiimote d => simp at k4
      | spnav d =>
        simp only at k4
        cases hc : cameraRot o.centroidRPY with
        | none => rw [hc] at k4; simp at k4
        | some r =>
          rw [hc] at k4
          simp only at k4
          split_ifs at k4
          rw [← Option.some.inj k4]; rfl

/-- What a program that starts has changed in the controller: the kind of command, if the controller has that
parameter, and the frame. -/
theorem started_calls {o : Opts} {w : World} {c : Ctl} {b : Bool} {ps : List Param}
    (h : configure o w = .started c b ps) :
    ps.map Param.op = if w.params = some true then c.device.start else c.device.start.drop 1 := by
  obtain ⟨h1, h2, h3, h4, h5, h6, preset, d, p, q, k1, k2, k3, k4, rfl, rfl, rfl⟩ := (started_iff o w c b ps).1 h
  obtain ⟨m1, m2, m3⟩ := (initDevice_some o w preset d).1 k2
  obtain ⟨n1, n2, n3⟩ := deviceFor_kind m1
  rw [initDevice_calls k2, k1]
  unfold Device.start wanted
  simp only
  rw [n1, n3]
  by_cases a1 : o.name = "SpaceNavigator"
  · cases preset <;> simp [a1, Param.op]
  · by_cases a2 : o.name = "LeapMotionSensor"
    · cases preset <;> simp [a2, Param.op]
    · cases preset <;> simp [a1, a2, Param.op]

/-- **C95.** Once the program has started in front of a controller that can be preset, whatever the hand does, every
message the program sends reaches the joints: the changes made at the start are those the messages need. What is
missing is what C83 leaves out, other programs that use the same controller. -/
theorem C95_obeyed_partial {o : Opts} {w : World} {c c' : Ctl} {b : Bool} {ps : List Param} {cfg : Ctrl.Cfg}
    {s0 s1 s' : Ctrl.Ctl} {prep ds : List Ctrl.Done} {l : List Cycle} {es : List (List Ev)}
    (h : configure o w = .started c b ps) (hw : w.params = some true)
    (h0 : s0.state = .notControlling) (h1 : Ctrl.Hist cfg s0 prep s1) (hprep : Ctrl.commandsOf prep = ps.map Param.op)
    (hok : ∀ d ∈ prep, d.op.asks = false → d.answer = some true)
    (hr : run c l = some (c', es)) (h2 : Ctrl.Hist cfg s1 ds s') (hds : Ctrl.commandsOf ds = (sent es).map Cmd.op) :
    ∀ d ∈ ds, d.op.asks = false →
      Ctrl.CarriedOut cfg (if o.name = "WiimoteSensor" then .tcp else .base) d := by
  have hp := started_calls h
  rw [if_pos hw] at hp
  have hf : c.device.frame = (if o.name = "WiimoteSensor" then .tcp else .base : Ctrl.RefFrame) := by
    obtain ⟨h1, h2, h3, h4, h5, h6, preset, d, p, q, k1, k2, k3, k4, rfl, rfl, rfl⟩ := (started_iff o w c b ps).1 h
    obtain ⟨m1, m2, m3⟩ := (initDevice_some o w preset d).1 k2
    obtain ⟨n1, n2, n3⟩ := deviceFor_kind m1
    rw [n3]
    simp only [knownDevice, Bool.or_eq_true, decide_eq_true_eq] at h2
    rcases h2 with (hn | hn) | hn <;> simp [hn]
  rw [← hf]
  exact C83_device_obeyed_partial h0 h1 (hprep.trans hp) hok hr h2 hds

/-- **C95.** The rotations are those that were asked for, in degrees about the fixed axes: the camera is turned with
respect to the tool, and followed for the time asked for; and the Leap sensor is set up as C60 and C72 take it. -/
theorem C95_rotations_as_asked {o : Opts} {w : World} {c : Ctl} {b : Bool} {ps : List Param} {r p y : ℝ}
    (h : configure o w = .started c b ps) :
    (o.remoteCentroid = true → o.centroidRPY = some (some [r, p, y]) → ∃ q, c.centroid = some q ∧
      q.rot = Mat3.rotZ (y * (Real.pi / 180)) * Mat3.rotY (p * (Real.pi / 180)) * Mat3.rotX (r * (Real.pi / 180)) ∧
      q.permanenceTime = o.centroidPermTime.getD 0) ∧
    (o.remoteCentroid = true → o.centroidRPY = none → ∃ q, c.centroid = some q ∧ q.rot = 1 ∧
      q.permanenceTime = o.centroidPermTime.getD 0) ∧
    (o.name = "LeapMotionSensor" → o.group.leapFrameRPY = some (some [r, p, y]) → ∃ d, c.device = .leap d ∧
      Leap.init (o.pose || o.movi) o.group.fixedAxes
        (some (r * (Real.pi / 180), p * (Real.pi / 180), y * (Real.pi / 180))) w.stat w.read = some d) := by
  have hdeg : ∀ x : ℝ, x * Real.pi / 180 = x * (Real.pi / 180) := fun x => mul_div_assoc _ _ _
  obtain ⟨h1, h2, h3, h4, h5, h6, preset, d, q0, q, k1, k2, k3, k4, rfl, rfl, rfl⟩ := (started_iff o w c b ps).1 h
  obtain ⟨m1, m2, m3⟩ := (initDevice_some o w preset d).1 k2
  have hcam : ∀ m, o.remoteCentroid = true → cameraRot o.centroidRPY = some m →
      q = some ⟨m, o.centroidPermTime.getD 0, (0, 0), 0⟩ := by
    intro m hr hm
    unfold startCentroid at k4
    rw [hr] at k4
    simp only [if_true] at k4
    cases d with
    | leap d => simp at k4
    | wiimote d => simp at k4
    | spnav d =>
      simp only [hm] at k4
      split_ifs at k4
      exact (Option.some.inj k4).symm
  refine ⟨fun hr hv => ?_, fun hr hv => ?_, fun hn hv => ?_⟩
  · have := hcam (Mat3.rpy (r * Real.pi / 180) (p * Real.pi / 180) (y * Real.pi / 180)) hr (by rw [hv]; rfl)
    refine ⟨_, this, ?_, rfl⟩
    show Mat3.rpy _ _ _ = _
    rw [hdeg, hdeg, hdeg]
    rfl
  · exact ⟨_, hcam 1 hr (by rw [hv]; rfl), rfl, rfl⟩
  · unfold deviceFor at m1
    rw [if_neg (by rw [hn]; decide), if_pos hn, hv] at m1
    obtain ⟨s, hs, rfl⟩ := Option.map_eq_some_iff.1 m1
    refine ⟨s, rfl, ?_⟩
    rw [← hs]
    simp only [Option.getD_some, Option.bind_some, rpyOf, hdeg]
    rfl

/-! ## Numbers that are not checked -/

/-- The device is a Leap sensor. -/
def Device.isLeap : Device → Bool
  | .leap _ => true
  | _ => false

theorem Device.acquire_leap {d d' : Device} {l : List ℝ} (h : d.acquire l = some d') : d'.isLeap = d.isLeap := by
  cases d <;> (obtain ⟨a, -, rfl⟩ := Option.map_eq_some_iff.1 h; rfl)

theorem Device.actuator_leap (d : Device) : d.actuator.1.isLeap = d.isLeap := by
  cases d with
  | leap d => unfold Device.actuator; simp only; split <;> rfl
  | _ => rfl

theorem Device.transform_leap {d d' : Device} {s : ℝ} (h : d.transform s = some d') : d'.isLeap = d.isLeap := by
  cases d <;> (obtain ⟨a, -, rfl⟩ := Option.map_eq_some_iff.1 h; rfl)

theorem applyCentroid_leap (c : Option Centroid) (y : Cycle) (d : Device) :
    (applyCentroid c y d).2.isLeap = d.isLeap := by
  unfold applyCentroid
  split
  · simp only
    split_ifs
    · split <;> rfl
    · rfl
  · rfl

theorem Device.send_leap {d d' : Device} {t : ℝ} {m : List Cmd} (h : d.send t = some (d', m)) :
    d'.isLeap = d.isLeap := by
  cases d with
  | spnav d => simp only [Device.send, Option.some.injEq, Prod.mk.injEq] at h; rw [← h.1]; rfl
  | leap d =>
    simp only [Device.send, Option.map_eq_some_iff, Prod.mk.injEq] at h
    obtain ⟨r, -, rfl, -⟩ := h; rfl
  | wiimote d => simp only [Device.send, Option.some.injEq, Prod.mk.injEq] at h; rw [← h.1]

theorem Device.transform_defined (d : Device) {s : ℝ} (hs : s ≠ 0) : ∃ d', d.transform s = some d' := by
  cases d with
  | spnav d => unfold Device.transform Spnav.transform baseTransform; cases hp : d.usingPose <;> simp [hs, hp]
  | leap d => unfold Device.transform Leap.transform; simp [hs]
  | wiimote d =>
    unfold Device.transform Wiimote.transform
    simp only [hs, if_false]
    split_ifs <;> exact ⟨_, rfl⟩

theorem Device.send_defined (d : Device) (t : ℝ) (hd : d.isLeap = true → d.usesPose = true) :
    ∃ r, d.send t = some r := by
  cases d with
  | spnav d => exact ⟨_, rfl⟩
  | leap d =>
    have : d.usingPose = true := hd rfl
    simp [Device.send, Leap.send, this]
  | wiimote d => exact ⟨_, rfl⟩

theorem proceed_defined (c : Ctl) (y : Cycle) (d : Device) {s : ℝ} (hs : s ≠ 0)
    (hd : d.isLeap = true → d.usesPose = true) : ∃ r, proceed c y d s = some r := by
  obtain ⟨d', ht⟩ := Device.transform_defined d.actuator.1 hs
  unfold proceed
  rw [ht]
  simp only
  have hg : (applyCentroid c.centroid y d').2.isLeap = true → (applyCentroid c.centroid y d').2.usesPose = true := by
    rw [applyCentroid_leap, applyCentroid_kind, Device.transform_leap ht, Device.transform_kind ht,
      Device.actuator_leap, Device.actuator_kind]
    exact hd
  unfold finish
  obtain ⟨r, hr⟩ := Device.send_defined _ y.now hg
  cases hv : (applyCentroid c.centroid y d').2.valid
  · simp
  · simp [hr]

theorem update_defined (c : Ctl) (y : Cycle) (hs : c.scaling ≠ 0)
    (hd : c.device.isLeap = true → c.device.usesPose = true) : ∃ c' e, update c y = some (c', e) ∧
      c'.scaling ≠ 0 ∧ (c'.device.isLeap = true → c'.device.usesPose = true) := by
  have hex : ∃ r, update c y = some r := by
    cases ha : c.device.acquire y.sensor with
    | none => exact ⟨_, update_none ha⟩
    | some d =>
      have hd' : d.isLeap = true → d.usesPose = true := by
        rw [Device.acquire_leap ha, Device.acquire_kind ha]; exact hd
      cases hal : alert c.proximity y.proximity with
      | high => exact ⟨_, update_high ha hal⟩
      | low =>
        rw [update_low ha hal]
        exact proceed_defined c y d (mul_ne_zero hs (by norm_num)) hd'
      | clear =>
        rw [update_clear ha hal]
        exact proceed_defined c y d hs hd'
  obtain ⟨⟨c', e⟩, hu⟩ := hex
  refine ⟨c', e, hu, ?_⟩
  have hk := (update_kind hu).1
  rw [hk]
  rcases update_cases hu with ⟨-, rfl, rfl⟩ | ⟨d, ha, ⟨-, rfl, rfl⟩ | ⟨-, s, -, hp⟩⟩
  · exact ⟨hs, hd⟩
  · refine ⟨hs, ?_⟩
    show d.isLeap = true → _
    rw [Device.acquire_leap ha]; exact hd
  · obtain ⟨d', e', ht, hf, rfl⟩ := proceed_cases hp
    have hl : (applyCentroid c.centroid y d').2.isLeap = c.device.isLeap := by
      rw [applyCentroid_leap, Device.transform_leap ht, Device.actuator_leap, Device.acquire_leap ha]
    rcases finish_cases hf with ⟨-, d'', m, hsd, rfl, rfl⟩ | ⟨-, rfl, rfl⟩
    · refine ⟨hs, ?_⟩
      show d''.isLeap = true → _
      rw [Device.send_leap hsd, hl]; exact hd
    · refine ⟨hs, ?_⟩
      show (applyCentroid c.centroid y d').2.isLeap = true → _
      rw [hl]; exact hd

theorem run_defined (l : List Cycle) : ∀ (c : Ctl), c.scaling ≠ 0 →
    (c.device.isLeap = true → c.device.usesPose = true) → ∃ r, run c l = some r := by
  induction l with
  | nil => exact fun c _ _ => ⟨_, rfl⟩
  | cons y l ih =>
    intro c hs hd
    obtain ⟨c', e, hu, hs', hd'⟩ := update_defined c y hs hd
    obtain ⟨r, hr⟩ := ih c' hs' hd'
    unfold run
    rw [hu]
    simp only
    rw [hr]
    exact ⟨_, rfl⟩

/-- **C95.** If the scaling that was asked for is not zero, a started program never divides by zero, whatever it
reads and for however long. What is missing: the Leap sensor with velocities, which divides by the time between two
readings (C72), and a scaling of zero, which is accepted (`C95_scaling_unchecked`). -/
theorem C95_never_divides_partial {o : Opts} {w : World} {c : Ctl} {b : Bool} {ps : List Param}
    (h : configure o w = .started c b ps) (hs : o.scaling ≠ some 0)
    (hl : o.name = "LeapMotionSensor" → o.pose = true ∨ o.movi = true) (l : List Cycle) :
    ∃ c' es, run c l = some (c', es) := by
  obtain ⟨-, k2, k3, -⟩ := C95_started_as_asked h
  have hsc : c.scaling ≠ 0 := by
    rw [k2]
    cases hsc : o.scaling with
    | none => norm_num
    | some x => rw [hsc] at hs; intro hx; exact hs (by rw [show x = 0 from hx])
  have hleap : c.device.isLeap = true → c.device.usesPose = true := by
    intro hleap
    rw [k3, Bool.or_eq_true]
    refine hl ?_
    obtain ⟨h1, h2, h3, h4, h5, h6, preset, d, p, q, m1, m2, m3, m4, rfl, rfl, rfl⟩ := (started_iff o w c b ps).1 h
    have hd := ((initDevice_some o w preset d).1 m2).1
    by_contra hn
    unfold deviceFor at hd
    rw [if_neg hn] at hd
    split_ifs at hd <;> (obtain ⟨s, -, rfl⟩ := Option.map_eq_some_iff.1 hd; simp [Device.isLeap] at hleap)
  obtain ⟨⟨c', es⟩, hr⟩ := run_defined l c hsc hleap
  exact ⟨c', es, hr⟩

/-- **C95, what the code does.** A scaling of zero is accepted, and the first full reading of the SpaceNavigator is
then divided by zero. -/
theorem C95_scaling_unchecked {o : Opts} {w : World} {c : Ctl} {b : Bool} {ps : List Param}
    (h : configure o w = .started c b ps) (hn : o.name = "SpaceNavigator") (hs : o.scaling = some 0)
    (x1 x2 x3 x4 x5 x6 : ℝ) (l : List Cycle) :
    run c ({ sensor := [x1, x2, x3, x4, x5, x6] } :: l) = none := by
  obtain ⟨h1, h2, h3, h4, h5, h6, preset, d, p, q, m1, m2, m3, m4, rfl, rfl, rfl⟩ := (started_iff o w c b ps).1 h
  have hd := ((initDevice_some o w preset d).1 m2).1
  obtain ⟨s, rfl⟩ := (deviceFor_spnav hd).2 hn
  have hu : update ⟨.spnav s, o.scaling.getD 10, p, q, true⟩ { sensor := [x1, x2, x3, x4, x5, x6] } = none := by
    rw [update_clear (d := .spnav { s with data := ![x1, x2, x3, x4, x5, x6] }) rfl (by simp [alert])]
    unfold proceed
    rw [show (o.scaling.getD 10) = 0 by rw [hs]; rfl]
    simp only [Device.actuator, Device.transform, Spnav.transform, baseTransform]
    cases s.usingPose <;> simp
  unfold run
  rw [hu]

/-- **C95, what the code does.** A rotation of the Leap sensor that is not a list ends the program at once, whatever
else is given; and a list of the wrong length is taken as if nothing had been given. -/
theorem C95_leap_frame_unchecked (o : Opts) (w : World) (hn : o.name = "LeapMotionSensor") :
    (o.group.leapFrameRPY = some none → configure o w = .crash) ∧
    (∀ r, o.group.leapFrameRPY = some (some r) → r.length ≠ 3 →
      configure o w = configure { o with group := { o.group with leapFrameRPY := none } } w) := by
  have hne : ¬("LeapMotionSensor" = "SpaceNavigator") := by decide
  constructor
  · intro h
    unfold configure
    simp only
    rw [show o.device.getD "SpaceNavigator" = o.name from rfl, hn]
    simp [constructorCrashes, h]
  · intro r h hr
    have hz : rpyOf r = none := by
      cases hz : rpyOf r with
      | none => rfl
      | some a => exact absurd ((rpyOf_isSome r).1 (by rw [hz]; rfl)) hr
    have hi : ∀ preset, initDevice { o with group := { o.group with leapFrameRPY := none } } w preset
        "LeapMotionSensor" = initDevice o w preset "LeapMotionSensor" := by
      intro preset
      unfold initDevice
      simp only [if_neg hne, if_true, h, Option.getD_some, Option.getD_none, Option.bind_some, Option.bind_none, hz]
      rfl
    unfold configure
    simp only
    rw [show o.device.getD "SpaceNavigator" = o.name from rfl, hn]
    simp only [hi, constructorCrashes, h]
    rfl

/-! ## Thresholds -/

theorem toInt_le {r : ℝ} (h : 0 ≤ r) : (toInt r : ℝ) ≤ r ∧ r < toInt r + 1 ∧ 0 ≤ toInt r := by
  unfold toInt
  rw [if_pos h]
  exact ⟨Int.floor_le r, Int.lt_floor_add_one r, Int.floor_nonneg.2 h⟩

theorem started_proximity {o : Opts} {w : World} {c : Ctl} {b : Bool} {ps : List Param}
    (h : configure o w = .started c b ps) (hs : o.sensorsPort = true) :
    c.proximity = some (toInt (o.thresholdAlertHigh.getD 800), toInt (o.thresholdAlertLow.getD 100),
      o.disableSensorsLowLevel) := by
  obtain ⟨h1, h2, h3, h4, h5, h6, preset, d, p, q, m1, m2, m3, m4, rfl, rfl, rfl⟩ := (started_iff o w c b ps).1 h
  unfold startSensors at m3
  rw [hs] at m3
  simp only [if_true] at m3
  split_ifs at m3
  exact (Option.some.inj m3).symm

/-- **C95.** The robot does not move while a sensor reports more than the high threshold that was asked for: such a
cycle sends no movement and no gripper command. What is missing: below the threshold it may be stopped as well,
`C95_threshold_cut`; and a cycle without a new message is not stopped (C61). -/
theorem C95_threshold_kept_partial {o : Opts} {w : World} {c0 c c' : Ctl} {b : Bool} {ps : List Param} {y : Cycle}
    {e : List Ev} {msg : List ℝ} {x : ℝ} (h : configure o w = .started c0 b ps) (hs : o.sensorsPort = true)
    (h0 : 0 ≤ o.thresholdAlertHigh.getD 800) (hc : c.proximity = c0.proximity) (hy : y.proximity = some msg)
    (hx : x ∈ msg) (hhi : o.thresholdAlertHigh.getD 800 < x) (hu : update c y = some (c', e)) :
    ∀ v ∈ e, ∃ m, v = .stop m := by
  have hp := hc.trans (started_proximity h hs)
  obtain ⟨t1, t2, t3⟩ := toInt_le h0
  by_cases ha : c.device.acquire y.sensor = none
  · rw [(C61_no_reading ha hu).1]; simp
  · obtain ⟨-, k1, k2⟩ := C61_high_alert hp hy t3 ⟨x, hx, lt_of_le_of_lt t1 hhi⟩ ha hu
    intro v hv
    cases hst : c.isStopped
    · rw [k2 hst] at hv
      exact ⟨_, List.mem_singleton.1 hv⟩
    · rw [k1 hst] at hv
      simp at hv

theorem alertLevel_single {x : ℝ} (h : 0 < x) : alertLevel [x] = x := by
  simp [alertLevel, h]

/-- **C95, what the code does.** The thresholds lose their fractions: with sensors that report numbers from zero to
one and a threshold below one, any reading above zero stops the robot. -/
theorem C95_threshold_cut {o : Opts} {w : World} {c : Ctl} {b : Bool} {ps : List Param} {t x : ℝ}
    (h : configure o w = .started c b ps) (hs : o.sensorsPort = true) (ht : o.thresholdAlertHigh = some t)
    (h0 : 0 ≤ t) (h1 : t < 1) (hx : 0 < x) {y : Cycle} {c' : Ctl} {e : List Ev} (hy : y.proximity = some [x])
    (hu : update c y = some (c', e)) : e = [] := by
  have hp := started_proximity h hs
  rw [ht, Option.getD_some] at hp
  have hz : toInt t = 0 := by
    unfold toInt
    rw [if_pos h0]
    exact Int.floor_eq_zero_iff.2 ⟨h0, h1⟩
  rw [hz] at hp
  by_cases ha : c.device.acquire y.sensor = none
  · exact (C61_no_reading ha hu).1
  · exact (C61_high_alert hp hy le_rfl ⟨x, by simp, by simpa using hx⟩ ha hu).2.1 (C95_started_as_asked h).1

/-! ## Starts that are refused -/

/-- **C95.** A program that refuses to start because the device is not known or does not open, because the controller
does not answer, or because the step or gain is of no use, has changed nothing in the controller. What is missing: other
refusals come too late, `C95_refused_too_late`. -/
theorem C95_refused_unchanged_partial {o : Opts} {w : World} {ps : List Param} (h : configure o w = .refused ps)
    (hb : knownDevice o.name = false ∨ w.opens = false ∨ w.views = false ∨ w.client = false ∨ w.params = none ∨
      (o.usingPose = true ∧ ((o.name = "SpaceNavigator" ∧ o.gain.getD 0 ≤ 0) ∨
        (o.name = "WiimoteSensor" ∧ o.group.step.getD (1 / 100) ≤ 0)))) : ps = [] := by
  unfold configure at h
  simp only at h
  rw [show o.device.getD "SpaceNavigator" = o.name from rfl] at h
  have hinj : ∀ {a b : List Param}, Start.refused a = .refused b → b = a := fun h => by cases h; rfl
  by_cases h1 : constructorCrashes o o.name = true
  · rw [if_pos h1] at h; cases h
  rw [if_neg h1] at h
  by_cases h2 : (!knownDevice o.name || !w.opens) = true
  · rw [if_pos h2] at h; exact hinj h
  rw [if_neg h2] at h
  by_cases h3 : (!w.views) = true
  · rw [if_pos h3] at h; exact hinj h
  rw [if_neg h3] at h
  by_cases h4 : (!w.client) = true
  · rw [if_pos h4] at h; exact hinj h
  rw [if_neg h4] at h
  cases h5 : w.params with
  | none => rw [h5] at h; exact hinj h
  | some preset =>
    rw [h5] at h
    simp only at h
    have hi : initDevice o w preset o.name = ([], none) := by
      rcases hb with hb | hb | hb | hb | hb | ⟨hp, ⟨hn, hg⟩ | ⟨hn, hg⟩⟩
      · simp [hb] at h2
      · simp [hb] at h2
      · simp [hb] at h3
      · simp [hb] at h4
      · rw [h5] at hb; cases hb
      · unfold initDevice
        simp only [hn, if_true]
        simp [Spnav.init, hp, hg]
      · unfold initDevice
        simp only [hn, if_neg (show ¬("WiimoteSensor" = "SpaceNavigator") by decide),
          if_neg (show ¬("WiimoteSensor" = "LeapMotionSensor") by decide)]
        unfold Wiimote.init
        rw [if_pos (by simp only [hp, hg, decide_true, Bool.and_self])]
    rw [hi] at h
    exact hinj h

/-- **C95, what the code does.** Options that alone rule a start out are looked at last. Whoever asks for the camera
with a Wiimote, or for a negative time, is told that the program cannot start, but the frame of the controller and the
kind of command it waits for are changed by then, and stay so for all other programs. -/
theorem C95_refused_too_late (o : Opts) (w : World) (hr : o.remoteCentroid = true)
    (hw : w.opens = true ∧ w.views = true ∧ controllerReady w) (hd : deviceReady o w) (hs : o.sensorsPort = false)
    (hbad : o.name ≠ "SpaceNavigator" ∨ o.centroidPermTime.getD 0 < 0) :
    configure o w = .refused (wanted (w.params.getD false) (o.pose || o.movi) (decide (o.name = "WiimoteSensor"))) := by
  obtain ⟨h3, h4, h5, hp, m2, m3⟩ := hw
  have hk := knownDevice_of_ready hd
  obtain ⟨hsome, hc⟩ := (deviceFor_isSome hk).2 hd
  obtain ⟨d, hdf⟩ := Option.isSome_iff_exists.1 hsome
  obtain ⟨preset, hpre⟩ := Option.ne_none_iff_exists'.1 hp
  have hi := (initDevice_some o w preset d).2 ⟨hdf, fun hpt => m2 (by rw [hpre, hpt]), m3⟩
  have hnone : startCentroid o w d = none := by
    cases hq : startCentroid o w d with
    | none => rfl
    | some q =>
      obtain ⟨n1, -, n3, -⟩ := (startCentroid_isSome hdf).1 (by rw [hq]; rfl) hr
      rcases hbad with hb | hb
      · exact absurd n1 hb
      · exact absurd n3 (not_le.2 hb)
  have hcalls := initDevice_calls hi
  have hname : decide (o.name ≠ "SpaceNavigator" ∧ o.name ≠ "LeapMotionSensor") =
      decide (o.name = "WiimoteSensor") := by
    simp only [knownDevice, Bool.or_eq_true, decide_eq_true_eq] at hk
    rcases hk with (hn | hn) | hn <;> simp [hn]
  unfold configure
  simp only
  rw [show o.device.getD "SpaceNavigator" = o.name from rfl, hc, hk, h3, h4, h5, hpre]
  simp only [hi, startSensors, hs, hnone, hcalls, hname]
  rfl

/-! ## Where the robot is -/

/-- **C95, what the code does.** If the controller cannot tell where the robot is, the SpaceNavigator with poses takes
it to be at the origin, and starts: the first pose it sends is as close to the origin as the hand moved, wherever the
robot is. -/
theorem C95_pose_assumed {o : Opts} {w : World} {c : Ctl} {b : Bool} {ps : List Param}
    (h : configure o w = .started c b ps) (hn : o.name = "SpaceNavigator") (hp : o.pose = true)
    (hf : o.group.fixedAxes = none) (hst : w.stat = none) (hc : o.remoteCentroid = false)
    (hs : o.scaling = none) {g x : ℝ} (hg : o.gain = some g) (hx : x ≠ 0) :
    ∃ c', run c [{ sensor := [x, 0, 0, 0, 0, 0] }] =
      some (c', [[.move [.pose fun i => if i = 0 then g / 10 * x else 0]]]) := by
  have hready : deviceReady o w := ((C95_starts_iff o w).1 ⟨c, b, ps, h⟩).1
  have hgpos : 0 < g := by
    rcases hready with ⟨-, hr⟩ | ⟨hr, -⟩ | ⟨hr, -⟩
    · simpa [hg] using hr (Or.inl hp)
    · rw [hn] at hr; exact absurd hr (by decide)
    · rw [hn] at hr; exact absurd hr (by decide)
  obtain ⟨h1, h2, h3, h4, h5, h6, preset, d, p, q, m1, m2, m3, m4, rfl, rfl, rfl⟩ := (started_iff o w c b ps).1 h
  have hd := ((initDevice_some o w preset d).1 m2).1
  unfold deviceFor at hd
  rw [if_pos hn] at hd
  have hup : o.usingPose = true := by simp [Opts.usingPose, hp]
  unfold Spnav.init at hd
  rw [hup, hg, hst, hf, Option.getD_some, if_neg (by simp [hgpos])] at hd
  simp only [Option.map_some, Option.some.injEq, if_true, Option.getD_none] at hd
  subst hd
  have hq : q = none := by
    unfold startCentroid at m4
    rw [hc] at m4
    simpa using m4.symm
  subst hq
  have hu : ∃ c', update ⟨.spnav ⟨true, g, configureFixedAxes none, fun _ => 0, .none, fun _ => 0, false, false⟩,
      o.scaling.getD 10, p, none, true⟩ { sensor := [x, 0, 0, 0, 0, 0] } =
      some (c', [.move [.pose fun i => if i = 0 then g / 10 * x else 0]]) := by
    rw [hs, Option.getD_none, update_clear (d := .spnav ⟨true, g, configureFixedAxes none, ![x, 0, 0, 0, 0, 0], .none,
      fun _ => 0, false, false⟩) rfl (by simp [alert])]
    have hdata : (fun i : Fin 6 => g / 10 * (![x, 0, 0, 0, 0, 0] : Six) i) =
        fun i => if i = 0 then g / 10 * x else 0 := by
      funext i
      fin_cases i <;> simp
    have hvalid : ∃ i : Fin 6, ¬ (if i = 0 then g / 10 * x else 0) = (0 : ℝ) :=
      ⟨0, by simp [hx, hgpos.ne']⟩
    unfold proceed
    simp only [Device.actuator, nextGrip, Device.transform, Spnav.transform, configureFixedAxes, Bool.false_eq_true,
      if_false, if_true, applyCentroid, finish, Device.valid, Spnav.valid, Device.send, Spnav.send, Bool.not_false,
      zero_add, show ¬((10 : ℝ) = 0) by norm_num, Option.map_some, hdata]
    have hv : decide (∃ i : Fin 6, True ∧ (if i = 0 then g / 10 * x else 0) ≠ 0) = true := by
      simpa only [true_and, decide_eq_true_eq, ne_eq] using hvalid
    simp only [hv, if_true]
    exact ⟨_, rfl⟩
  obtain ⟨c', hu⟩ := hu
  refine ⟨c', ?_⟩
  unfold run
  rw [hu]
  rfl

/-! ## The hypotheses can be met -/

/-- A SpaceNavigator with poses, proximity sensors and a camera. -/
noncomputable def someOpts : Opts where
  pose := true
  gain := some (1 / 2)
  sensorsPort := true
  remoteCentroid := true
  centroidRPY := some (some [0, 0, 90])

/-- A world in which everything works; the controller does not tell where the robot is. -/
def someWorld : World := { }

example : ∃ c b ps, configure someOpts someWorld = .started c b ps :=
  (C95_starts_iff _ _).2 ⟨Or.inl ⟨rfl, fun _ => by norm_num [someOpts]⟩, rfl, rfl,
    ⟨rfl, by simp [someWorld], fun _ => rfl, rfl⟩, fun _ => rfl,
    fun _ => ⟨rfl, fun l hl => by
      simp only [someOpts, Option.some.injEq] at hl
      rw [← hl]; rfl, by norm_num [someOpts], rfl⟩, fun h => by simp [someOpts] at h⟩

/-- A Wiimote, by the tool. -/
noncomputable def wiiOpts : Opts where
  device := some "WiimoteSensor"
  sensorsPort := true
  thresholdAlertHigh := some (4 / 5)

theorem wii_starts : ∃ c b ps, configure wiiOpts someWorld = .started c b ps :=
  (C95_starts_iff _ _).2 ⟨Or.inr (Or.inr ⟨rfl, fun h => by simp [wiiOpts] at h⟩), rfl, rfl,
    ⟨rfl, by simp [someWorld], fun _ => rfl, rfl⟩, fun _ => rfl, fun h => by simp [wiiOpts] at h,
    fun h => by simp [wiiOpts] at h⟩

/-- The Wiimote never divides by zero, and its threshold of 0.8 stops the robot already at 0.1. -/
example : ∃ c b ps, configure wiiOpts someWorld = .started c b ps ∧ (∀ l, ∃ c' es, run c l = some (c', es)) ∧
    ∀ c' e, update c { sensor := [0, 0, 1, 0, 0], proximity := some [1 / 10] } = some (c', e) → e = [] := by
  obtain ⟨c, b, ps, h⟩ := wii_starts
  refine ⟨c, b, ps, h, fun l => C95_never_divides_partial h (by simp [wiiOpts])
    (fun hn => absurd hn (by decide)) l, fun c' e hu => ?_⟩
  exact C95_threshold_cut (t := 4 / 5) (x := 1 / 10) h rfl rfl (by norm_num) (by norm_num) (by norm_num) rfl hu

/-- A Wiimote with a camera: refused, but the controller waits for twists in the frame of the tool from then on. -/
example : configure { wiiOpts with sensorsPort := false, remoteCentroid := true } someWorld =
    .refused [.streaming false, .frame true] :=
  C95_refused_too_late _ _ rfl ⟨rfl, rfl, rfl, by simp [someWorld], fun _ => rfl, rfl⟩
    (Or.inr (Or.inr ⟨rfl, fun h => by simp [wiiOpts] at h⟩)) rfl (Or.inl (by decide))

/-- A SpaceNavigator with poses and no gain: refused, and nothing is changed. -/
example : configure { pose := true } someWorld = .refused [] := by
  simp [configure, constructorCrashes, knownDevice, someWorld, initDevice, Spnav.init, Opts.usingPose]

/-- A scaling of zero. -/
example : ∃ c b ps, configure { scaling := some 0 } someWorld = .started c b ps ∧
    run c [{ sensor := [1, 0, 0, 0, 0, 0] }] = none := by
  obtain ⟨c, b, ps, h⟩ := (C95_starts_iff { scaling := some 0 } someWorld).2 ⟨Or.inl ⟨rfl, fun h => by simp at h⟩,
    rfl, rfl, ⟨rfl, by simp [someWorld], fun _ => rfl, rfl⟩, fun h => by simp at h, fun h => by simp at h,
    fun h => by simp at h⟩
  exact ⟨c, b, ps, h, C95_scaling_unchecked h rfl rfl 1 0 0 0 0 0 []⟩

/-- The robot jumps to the origin. -/
example : ∃ c b ps c', configure { pose := true, gain := some 1 } someWorld = .started c b ps ∧
    run c [{ sensor := [1, 0, 0, 0, 0, 0] }] = some (c', [[.move [.pose fun i => if i = 0 then 1 / 10 * 1 else 0]]]) := by
  obtain ⟨c, b, ps, h⟩ := (C95_starts_iff { pose := true, gain := some 1 } someWorld).2
    ⟨Or.inl ⟨rfl, fun _ => by norm_num⟩,
    rfl, rfl, ⟨rfl, by simp [someWorld], fun _ => rfl, rfl⟩, fun h => by simp at h, fun h => by simp at h,
    fun h => by simp at h⟩
  obtain ⟨c', hc⟩ := C95_pose_assumed h rfl rfl rfl rfl rfl rfl rfl one_ne_zero
  exact ⟨c, b, ps, c', h, hc⟩

/-- The camera of the first example is turned by a quarter of a turn about the axis of the tool. -/
example {c : Ctl} {b : Bool} {ps : List Param} (h : configure someOpts someWorld = .started c b ps) :
    ∃ q, c.centroid = some q ∧ q.rot = Mat3.rotZ (90 * (Real.pi / 180)) * Mat3.rotY (0 * (Real.pi / 180)) *
      Mat3.rotX (0 * (Real.pi / 180)) := by
  obtain ⟨q, h1, h2, -⟩ := (C95_rotations_as_asked h).1 rfl rfl
  exact ⟨q, h1, h2⟩

/-- The Leap sensor with a number instead of a list. -/
example (w : World) : configure { device := some "LeapMotionSensor", group := { leapFrameRPY := some none } } w =
    .crash := (C95_leap_frame_unchecked _ w rfl).1 rfl

end KD.Sdc
