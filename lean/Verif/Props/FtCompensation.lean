import Verif.Programs.FtCompensation
import Verif.Props.FixedAxes
import Verif.Screw.PlaneLemmas

/-!
# C63, C66, C67, C68: force and torque compensation
-/

namespace KD.Ft

open scoped Classical
open KdlVectorConverter

/-! ## What is expected (specification) -/

/-- `u` is `v` after a deadband: nothing inside, and outside the direction of `v` with the part beyond the
deadband as size, times the gain. -/
def Softened (db gain : ℝ) (v u : Vec3) : Prop :=
  (v.norm ≤ db → u = 0) ∧ (db < v.norm → u = (gain * (v.norm - db) / v.norm) • v)

/-- The force and the torque that the weight of the tool exerts on the TCP of a robot at pose `x`, in the
axes of the TCP: the weight turned into those axes, and the lever from the TCP to the centre of mass times
it. -/
noncomputable def toolForce (c : Cfg) (x : List ℝ) : Vec3 :=
  match c.tool with
  | none => 0
  | some (_, weight) => (vectorToFrame x).M.transpose.mulVec weight

/-- See `toolForce`. -/
noncomputable def toolTorque (c : Cfg) (x : List ℝ) : Vec3 :=
  match c.tool with
  | none => 0
  | some (com, _) => com.cross (toolForce c x)

/-- The sensor of a robot at pose `x` measures, in its own axes, the sum of its bias, of the weight of the
tool, and of the contact. -/
def Measures (c : Cfg) (bias contact : Wrench) (x m : List ℝ) : Prop :=
  ∃ f t : Vec3, m = [f.x, f.y, f.z, t.x, t.y, t.z] ∧
    c.sensorRot.mulVec f = bias.force + toolForce c x + contact.force ∧
    c.sensorRot.mulVec t = bias.torque + toolTorque c x + contact.torque

/-- The commands of a cycle: one in the configured mode with the softened force and torque, or nothing in a
dry run. -/
def Sends (c : Cfg) (contact : Wrench) (e : List Cmd) : Prop :=
  ∃ f t, Softened c.forceDeadband c.linGain contact.force f ∧
    Softened c.torqueDeadband c.rotGain contact.torque t ∧
    e = if c.dryRun then [] else
      [if c.wrenchMode then .wrench [f.x, f.y, f.z, t.x, t.y, t.z]
        else .twist [f.x, f.y, f.z, t.x, t.y, t.z]]

/-! ## The deadband -/

theorem deadband_softened {db gain : ℝ} (h : 0 ≤ db) (v : Vec3) :
    ∃ u, deadband db gain v = some u ∧ Softened db gain v u := by
  unfold deadband
  by_cases hv : v.norm > db
  · have h0 : v.norm ≠ 0 := by linarith [h]
    rw [if_pos hv, if_neg h0]
    refine ⟨_, rfl, fun hle => absurd hle (not_le.mpr hv), fun _ => ?_⟩
    ext <;> simp <;> field_simp
  · rw [if_neg hv]
    exact ⟨0, rfl, fun _ => rfl, fun hlt => absurd hlt hv⟩

theorem Softened.unique {db gain : ℝ} {v u u' : Vec3} (h : Softened db gain v u) (h' : Softened db gain v u') :
    u = u' := by
  rcases le_or_gt v.norm db with hv | hv
  · rw [h.1 hv, h'.1 hv]
  · rw [h.2 hv, h'.2 hv]

/-- **C63.** Outside the deadband the size is the gain times the part beyond it, and the direction that of
the contact. -/
theorem C63_size {db gain : ℝ} {v u : Vec3} (hg : 0 ≤ gain) (hdb : 0 ≤ db) (h : Softened db gain v u)
    (hv : db < v.norm) :
    u.norm = gain * (v.norm - db) ∧ ∃ k : ℝ, 0 ≤ k ∧ u = k • v := by
  have h0 : 0 < v.norm := lt_of_le_of_lt hdb hv
  have hk : 0 ≤ gain * (v.norm - db) / v.norm := div_nonneg (mul_nonneg hg (by linarith)) h0.le
  rw [h.2 hv]
  refine ⟨?_, _, hk, rfl⟩
  rw [Vec3.norm_smul, abs_of_nonneg hk]
  field_simp

theorem softened_step {a b c d : ℝ} (ha : d < a) (hb : d < b) (hd : 0 ≤ d) (hc : c ≤ a * b) :
    (a - d) ^ 2 + (b - d) ^ 2 - 2 * ((a - d) / a) * ((b - d) / b) * c ≤ a ^ 2 + b ^ 2 - 2 * c := by
  have ha0 : 0 < a := lt_of_le_of_lt hd ha
  have hb0 : 0 < b := lt_of_le_of_lt hd hb
  have h1 : (a - d) / a ≤ 1 := by rw [div_le_one ha0]; linarith
  have h2 : (b - d) / b ≤ 1 := by rw [div_le_one hb0]; linarith
  have h3 : 0 ≤ (a - d) / a := div_nonneg (by linarith) ha0.le
  have h4 : 0 ≤ (b - d) / b := div_nonneg (by linarith) hb0.le
  have h5 : ((a - d) / a) * ((b - d) / b) ≤ 1 := by nlinarith
  have h6 : (1 - ((a - d) / a) * ((b - d) / b)) * c ≤ (1 - ((a - d) / a) * ((b - d) / b)) * (a * b) :=
    mul_le_mul_of_nonneg_left hc (by linarith)
  have h7 : ((a - d) / a) * ((b - d) / b) * (a * b) = (a - d) * (b - d) := by field_simp
  nlinarith

theorem softened_lipschitz_sq {db gain : ℝ} {v w u u' : Vec3} (hdb : 0 ≤ db) (hv : db < v.norm)
    (hw : db < w.norm) (h : Softened db gain v u) (h' : Softened db gain w u') :
    Vec3.dot (u - u') (u - u') ≤ gain ^ 2 * Vec3.dot (v - w) (v - w) := by
  have hv0 : 0 < v.norm := lt_of_le_of_lt hdb hv
  have hw0 : 0 < w.norm := lt_of_le_of_lt hdb hw
  rw [h.2 hv, h'.2 hw]
  have e1 : Vec3.dot (v - w) (v - w) = v.norm ^ 2 + w.norm ^ 2 - 2 * Vec3.dot v w := by
    rw [Vec3.norm_sq, Vec3.norm_sq]; simp [Vec3.dot]; ring
  have e2 : ∀ k l : ℝ, Vec3.dot (k • v - l • w) (k • v - l • w) =
      k ^ 2 * v.norm ^ 2 + l ^ 2 * w.norm ^ 2 - 2 * k * l * Vec3.dot v w := by
    intro k l
    rw [Vec3.norm_sq, Vec3.norm_sq]; simp [Vec3.dot]; ring
  rw [e2, e1]
  have key := softened_step hv hw hdb (Vec3.dot_le_norm_mul v w)
  have e3 : (gain * (v.norm - db) / v.norm) ^ 2 * v.norm ^ 2 = gain ^ 2 * (v.norm - db) ^ 2 := by field_simp
  have e4 : (gain * (w.norm - db) / w.norm) ^ 2 * w.norm ^ 2 = gain ^ 2 * (w.norm - db) ^ 2 := by field_simp
  rw [e3, e4]
  have : 2 * (gain * (v.norm - db) / v.norm) * (gain * (w.norm - db) / w.norm) * Vec3.dot v w =
      gain ^ 2 * (2 * ((v.norm - db) / v.norm) * ((w.norm - db) / w.norm) * Vec3.dot v w) := by ring
  rw [this]
  nlinarith [mul_le_mul_of_nonneg_left key (sq_nonneg gain)]

theorem softened_lipschitz_in {db gain : ℝ} {v w u u' : Vec3} (hdb : 0 ≤ db) (hv : db < v.norm)
    (hw : w.norm ≤ db) (h : Softened db gain v u) (h' : Softened db gain w u') :
    (u - u').norm ≤ |gain| * (v - w).norm := by
  have hv0 : 0 < v.norm := lt_of_le_of_lt hdb hv
  rw [h'.1 hw, h.2 hv]
  have e : ∀ a : Vec3, a - 0 = a := by intro a; ext <;> simp
  rw [e, Vec3.norm_smul, abs_div, abs_mul, abs_of_pos hv0, abs_of_pos (by linarith : 0 < v.norm - db)]
  have h1 : v.norm ≤ (v - w).norm + w.norm := by
    have := Vec3.norm_add_le (v - w) w
    have e2 : v - w + w = v := by ext <;> simp
    rwa [e2] at this
  have h2 : |gain| * (v.norm - db) / v.norm * v.norm = |gain| * (v.norm - db) := by field_simp
  rw [h2]
  exact mul_le_mul_of_nonneg_left (by linarith) (abs_nonneg _)

/-- **C63.** The command never changes by more than the gain times the change of the contact; in
particular it grows continuously from zero at the edge of the deadband. -/
theorem C63_continuous {db gain : ℝ} {v w u u' : Vec3} (hdb : 0 ≤ db) (h : Softened db gain v u)
    (h' : Softened db gain w u') : (u - u').norm ≤ |gain| * (v - w).norm := by
  rcases le_or_gt v.norm db with hv | hv <;> rcases le_or_gt w.norm db with hw | hw
  · rw [h.1 hv, h'.1 hw]
    have : (0 : Vec3) - 0 = 0 := by ext <;> simp
    rw [this, Vec3.norm_zero]
    exact mul_nonneg (abs_nonneg _) (Vec3.norm_nonneg _)
  · have := softened_lipschitz_in hdb hw hv h' h
    have e : ∀ a b : Vec3, (a - b).norm = (b - a).norm := by
      intro a b
      rw [← Vec3.norm_neg (b - a)]
      congr 1
      ext <;> simp
    rwa [e u' u, e w v] at this
  · exact softened_lipschitz_in hdb hv hw h h'
  · have := softened_lipschitz_sq hdb hv hw h h'
    rw [← Vec3.norm_sq, ← Vec3.norm_sq, ← sq_abs gain, ← mul_pow] at this
    exact le_of_sq_le_sq this (mul_nonneg (abs_nonneg _) (Vec3.norm_nonneg _))

/-! ## Contacts -/

theorem readSensor_measures {c : Cfg} {bias contact : Wrench} {x m : List ℝ} (h : Measures c bias contact x m) :
    readSensor c (some m) = some (some ⟨bias.force + toolForce c x + contact.force,
      bias.torque + toolTorque c x + contact.torque⟩) := by
  obtain ⟨f, t, rfl, hf, ht⟩ := h
  simp only [readSensor, rotWrench]
  rw [← hf, ← ht]

theorem compensate_spec (c : Cfg) (x : List ℝ) (w : Wrench) :
    compensate c (some x) w = some ⟨w.force - toolForce c x, w.torque - toolTorque c x⟩ := by
  unfold compensate toolTorque toolForce
  split
  · rename_i h
    simp only [h]
    congr 1
    ext <;> simp
  · rename_i com weight h
    simp only [h, compensateTool, Option.map_some, subWrench, refPoint, rotWrench]
    congr 1
    ext <;> simp [Mat3.mulVec] <;> ring

theorem command_eq (c : Cfg) (f t : Vec3) : command c ⟨f, t⟩ = if c.dryRun then [] else
      [if c.wrenchMode then .wrench [f.x, f.y, f.z, t.x, t.y, t.z]
        else .twist [f.x, f.y, f.z, t.x, t.y, t.z]] := by
  unfold command wrenchToVector
  cases c.dryRun <;> cases c.wrenchMode <;> rfl

theorem configure_offset {c : Cfg} {e : Start} {s : St} {bias : Wrench} {x m : List ℝ}
    (h : configure c e = some (some s)) (he : e.sensor = some m) (hx : e.statTool = some x)
    (hm : Measures c bias ⟨0, 0⟩ x m) :
    s.initialOffset = bias ∧ s.running = true ∧
      (c.impedance = true → ∃ x', e.statImpedance = some x' ∧ s.initialPose = vectorToFrame x' ∧
        s.previousPose = vectorToFrame x') := by
  unfold configure at h
  rw [he, hx, readSensor_measures hm] at h
  simp only [compensate_spec] at h
  have hb : (⟨bias.force + toolForce c x + 0 - toolForce c x,
      bias.torque + toolTorque c x + 0 - toolTorque c x⟩ : Wrench) = bias := by
    ext <;> simp
  rw [hb] at h
  split_ifs at h with h1 h2 h3
  · cases h
  · cases h
  · revert h
    cases e.statImpedance with
    | none => intro h; cases h
    | some y =>
      intro h
      cases h
      exact ⟨rfl, rfl, fun _ => ⟨y, rfl, rfl, rfl⟩⟩
  · cases h
    exact ⟨rfl, rfl, fun h => absurd h h3⟩

theorem cycle_contact {c : Cfg} {s : St} {bias contact : Wrench} {x m : List ℝ} {i : Input}
    (hi : c.impedance = false) (hF : 0 ≤ c.forceDeadband) (hT : 0 ≤ c.torqueDeadband)
    (hb : s.initialOffset = bias) (hs : i.sensor = some m) (hx : i.statTool = some x)
    (hm : Measures c bias contact x m) :
    ∃ e, cycle c s i = some (s, e) ∧ Sends c contact e := by
  obtain ⟨f, hf, hf'⟩ := deadband_softened (gain := c.linGain) hF contact.force
  obtain ⟨t, ht, ht'⟩ := deadband_softened (gain := c.rotGain) hT contact.torque
  refine ⟨command c ⟨f, t⟩, ?_, f, t, hf', ht', command_eq c f t⟩
  unfold cycle
  rw [hs, hx, readSensor_measures hm]
  simp only [compensate_spec, hb, subWrench]
  have e1 : bias.force + toolForce c x + contact.force - toolForce c x - bias.force = contact.force := by
    ext <;> simp <;> ring
  have e2 : bias.torque + toolTorque c x + contact.torque - toolTorque c x - bias.torque = contact.torque := by
    ext <;> simp <;> ring
  rw [e1, e2, hf, ht]
  simp only [impede, hi, Bool.false_eq_true, if_false]

/-- A cycle in which the robot is at a pose, and touches something. -/
structure Situation where
  pose : List ℝ
  contact : Wrench
  measurement : List ℝ

/-- **C63.** The program is started without contact, whatever the bias of the sensor, its mounting, the tool
and the pose of the robot. From then on, over every sequence of poses and contacts, each cycle sends one
command in the configured mode (none in a dry run): the contact force and the contact torque, each after
its deadband and times its gain. Neither the bias nor the weight of the tool leaves any trace, however the
robot turns. Impedance is supposed to be disabled; see `C67_command` for the other case. -/
theorem C63_contact {c : Cfg} {e : Start} {s : St} {bias : Wrench} {x0 m0 : List ℝ} {l : List Situation}
    (hi : c.impedance = false) (hF : 0 ≤ c.forceDeadband) (hT : 0 ≤ c.torqueDeadband)
    (h : configure c e = some (some s)) (he : e.sensor = some m0) (hx : e.statTool = some x0)
    (hm : Measures c bias ⟨0, 0⟩ x0 m0) (hl : ∀ y ∈ l, Measures c bias y.contact y.pose y.measurement) :
    ∃ es, run c s (l.map fun y => { sensor := some y.measurement, statTool := some y.pose }) = some (s, es) ∧
      List.Forall₂ (fun y e => Sends c y.contact e) l es := by
  obtain ⟨hb, hr, -⟩ := configure_offset h he hx hm
  clear h he hx hm
  induction l with
  | nil => exact ⟨[], rfl, .nil⟩
  | cons y l ih =>
    obtain ⟨es, h1, h2⟩ := ih fun z hz => hl z (List.mem_cons_of_mem _ hz)
    obtain ⟨e1, h3, h4⟩ := cycle_contact (i := { sensor := some y.measurement, statTool := some y.pose })
      hi hF hT hb rfl rfl (hl y List.mem_cons_self)
    refine ⟨e1 :: es, ?_, .cons h4 h2⟩
    rw [List.map_cons, run, if_pos hr, h3]
    simp only [Option.bind_eq_bind, Option.bind_some]
    rw [h1]
    rfl

/-- A configuration with a tool of 10 N half a metre ahead of the TCP. -/
noncomputable def demo : Cfg where
  wrenchMode := false
  dryRun := false
  impedance := false
  linGain := 1 / 100
  rotGain := 1 / 5
  linStiffness := 0
  rotStiffness := 0
  linDamping := 0
  rotDamping := 0
  forceDeadband := 1
  torqueDeadband := 1
  period := 1 / 50
  sensorRot := 1
  tool := some (⟨0, 0, 1 / 2⟩, ⟨0, 0, -10⟩)

/-- Where it is started: the base and the TCP have the same axes, and the sensor has a bias of 3 N. -/
noncomputable def demoStart : Start where
  ok := fun _ => true
  sensor := some [3, 0, -10, 0, 0, 0]
  statTool := some [0, 0, 0, 0, 0, 0]

theorem demo_frame : (vectorToFrame [0, 0, 0, 0, 0, 0]).M = 1 := by
  simp only [vectorToFrame]
  have : (⟨0, 0, 0⟩ : Vec3) = 0 := rfl
  rw [this]
  rw [Mat3.rot_norm (Or.inl rfl)]
  exact Mat3.expRot_zero

theorem demo_measures : Measures demo ⟨⟨3, 0, 0⟩, 0⟩ ⟨0, 0⟩ [0, 0, 0, 0, 0, 0] [3, 0, -10, 0, 0, 0] := by
  refine ⟨⟨3, 0, -10⟩, ⟨0, 0, 0⟩, rfl, ?_, ?_⟩ <;>
  · simp only [toolForce, toolTorque, demo, demo_frame]
    ext <;> simp [Mat3.mulVec]

theorem demo_configure : ∃ s, configure demo demoStart = some (some s) := by
  have h : retries (fun _ => true) 0 = 0 := by rw [retries]; rfl
  unfold configure
  simp only [demoStart, h]
  rw [readSensor_measures demo_measures]
  simp only [compensate_spec]
  exact ⟨_, rfl⟩

/-- Non-vacuity: a push of 5 N sideways, in the pose of the start, makes the robot move sideways with a
hundredth of the 4 N beyond the deadband. -/
theorem demo_pushed : ∃ s es, configure demo demoStart = some (some s) ∧
    run demo s [{ sensor := some [3, 5, -10, 0, 0, 0], statTool := some [0, 0, 0, 0, 0, 0] }] = some (s, es) ∧
    es = [[.twist [0, 4 / 100, 0, 0, 0, 0]]] := by
  obtain ⟨s, hs⟩ := demo_configure
  have hm : Measures demo ⟨⟨3, 0, 0⟩, 0⟩ ⟨⟨0, 5, 0⟩, 0⟩ [0, 0, 0, 0, 0, 0] [3, 5, -10, 0, 0, 0] := by
    refine ⟨⟨3, 5, -10⟩, ⟨0, 0, 0⟩, rfl, ?_, ?_⟩ <;>
    · simp only [toolForce, toolTorque, demo, demo_frame]
      ext <;> simp [Mat3.mulVec]
  obtain ⟨es, h1, h2⟩ := C63_contact (l := [⟨[0, 0, 0, 0, 0, 0], ⟨⟨0, 5, 0⟩, 0⟩, [3, 5, -10, 0, 0, 0]⟩])
    (by rfl) (by norm_num [demo]) (by norm_num [demo]) hs rfl rfl demo_measures (by
      intro y hy
      rw [List.mem_singleton] at hy
      subst hy
      exact hm)
  refine ⟨s, es, hs, h1, ?_⟩
  cases h2 with
  | cons h h' =>
    cases h'
    obtain ⟨f, t, hf, ht, rfl⟩ := h
    have n1 : (⟨0, 5, 0⟩ : Vec3).norm = 5 := by
      rw [Vec3.norm]; simp [Vec3.dot]
    have hf' := hf.2 (by rw [n1]; norm_num [demo])
    have ht' := ht.1 (by rw [Vec3.norm_zero]; norm_num [demo])
    rw [n1] at hf'
    subst hf' ht'
    simp [demo]
    norm_num

theorem frameDiff_self {f : Frame} (h : f.M.IsRot) : frameDiff f f = ⟨0, 0⟩ := by
  have : f.M.transpose * f.M = 1 := h.left
  simp only [frameDiff, this, getRot_one]
  ext <;> simp [Mat3.mulVec]

/-- **C63.** While reading and pose stay what they were at the start, nothing is commanded: every cycle
sends zeros, for ever, with a tool and with impedance too. -/
theorem C63_unchanged {c : Cfg} {e : Start} {s : St} {m x x' : List ℝ}
    (hF : 0 ≤ c.forceDeadband) (hT : 0 ≤ c.torqueDeadband)
    (h : configure c e = some (some s)) (he : e.sensor = some m) (hx : e.statTool = some x)
    (hx' : e.statImpedance = some x') (n : ℕ) :
    run c s (List.replicate n { sensor := some m, statTool := some x, statImpedance := some x' }) =
      some (s, List.replicate n (if c.dryRun then [] else
        [if c.wrenchMode then .wrench [0, 0, 0, 0, 0, 0] else .twist [0, 0, 0, 0, 0, 0]])) := by
  have key : s.running = true ∧ cycle c s { sensor := some m, statTool := some x, statImpedance := some x' } =
      some (s, command c ⟨0, 0⟩) := by
    unfold configure at h
    rw [he, hx, hx'] at h
    unfold cycle
    revert h
    cases hr : readSensor c (some m) with
    | none => intro h; split_ifs at h <;> cases h
    | some r =>
      cases r with
      | none => intro h; split_ifs at h <;> cases h
      | some w =>
        simp only [compensate_spec]
        intro h
        have d0 : ∀ g : ℝ, deadband c.forceDeadband g 0 = some 0 := by
          intro g
          unfold deadband
          rw [Vec3.norm_zero, if_neg (not_lt.mpr hF)]
        have d1 : ∀ g : ℝ, deadband c.torqueDeadband g 0 = some 0 := by
          intro g
          unfold deadband
          rw [Vec3.norm_zero, if_neg (not_lt.mpr hT)]
        have z : ∀ a : Vec3, a - a = 0 := by intro a; ext <;> simp
        split_ifs at h with h1 h2 h3
        · cases h
        · cases h
        · cases h
          refine ⟨rfl, ?_⟩
          simp only [subWrench, z, d0, d1, impede, h3, if_true, applyImpedance, Option.map_some,
            frameDiffDt, frameDiff_self (Sdc.vectorToFrame_isRigid x')]
          have e1 : ∀ a b c : ℝ, (0 : Vec3) - (a • (0 : Vec3) + b • c • (0 : Vec3)) = 0 := by
            intro a b c; ext <;> simp
          rw [e1, e1]
        · cases h
          refine ⟨rfl, ?_⟩
          have h3' : c.impedance = false := by cases h : c.impedance <;> simp_all
          simp only [subWrench, z, d0, d1, impede, h3', Bool.false_eq_true, if_false]
  have := command_eq c 0 0
  simp only [Vec3.zero_x, Vec3.zero_y, Vec3.zero_z] at this
  rw [← this]
  induction n with
  | zero => rfl
  | succ n ih =>
    rw [List.replicate_succ, run, if_pos key.1, key.2]
    simp only [Option.bind_eq_bind, Option.bind_some]
    rw [ih]
    rfl

/-- Non-vacuity: `demo` with stiffness. -/
example : ∃ s, configure { demo with wrenchMode := true, impedance := true, linStiffness := 10 }
    { demoStart with statImpedance := some [0, 0, 0, 0, 0, 0] } = some (some s) := by
  have h : retries (fun _ => true) 0 = 0 := by rw [retries]; rfl
  unfold configure
  simp only [demoStart, h]
  rw [readSensor]
  simp only [compensate_spec]
  exact ⟨_, rfl⟩

/-- Why the deadbands must not be negative (the program does not check it): without any contact, the
division by the null norm gives NaN. -/
theorem C63_negative_deadband :
    ∃ s, configure { demo with forceDeadband := -1 } demoStart = some (some s) ∧
      cycle { demo with forceDeadband := -1 } s
        { sensor := some [3, 0, -10, 0, 0, 0], statTool := some [0, 0, 0, 0, 0, 0] } = none := by
  have h : retries (fun _ => true) 0 = 0 := by rw [retries]; rfl
  unfold configure cycle
  simp only [demoStart, h]
  rw [readSensor]
  simp only [compensate_spec]
  refine ⟨_, rfl, ?_⟩
  have z : ∀ a : Vec3, a - a = 0 := by intro a; ext <;> simp
  simp only [subWrench, z]
  have : ∀ g : ℝ, deadband (-1) g 0 = none := by
    intro g
    unfold deadband
    rw [Vec3.norm_zero, if_pos (by norm_num), if_pos rfl]
  rw [this]

/-! ## C66: start-up -/

theorem retries_found {ok : ℕ → Bool} {n : ℕ} (h : ok n = true) :
    ∀ d k, k + d = n → n ≤ 10 → (∀ i, k ≤ i → i < n → ok i = false) → retries ok k = n := by
  intro d
  induction d with
  | zero =>
    intro k hk _ _
    have : k = n := by omega
    subst this
    rw [retries, if_pos h]
  | succ d ih =>
    intro k hk hn hf
    have : ok k = false := hf k (le_refl _) (by omega)
    rw [retries, this, if_neg (by simp), if_pos (by omega)]
    exact ih (k + 1) (by omega) hn fun i hi hi' => hf i (by omega) hi'

theorem retries_never {ok : ℕ → Bool} (h : ∀ i, i ≤ 10 → ok i = false) :
    ∀ d k, k + d = 10 → retries ok k = 11 := by
  intro d
  induction d with
  | zero =>
    intro k hk
    have : k = 10 := by omega
    subst this
    rw [retries, h 10 (le_refl _), if_neg (by simp), if_neg (by simp)]
  | succ d ih =>
    intro k hk
    rw [retries, h k (by omega), if_neg (by simp), if_pos (by omega)]
    exact ih (k + 1) (by omega)

/-- **C66.** If the sensor is ready for the first query, or for one of the first nine retries, the program
starts exactly as if it had been ready from the beginning. Partial: see the two theorems below. -/
theorem C66_ready_partial {c : Cfg} {e : Start} {n : ℕ} (hn : n < 10) (h : e.ok n = true) :
    configure c e = configure c { e with ok := fun _ => true } := by
  have h1 : ∃ m, m < 10 ∧ retries e.ok 0 = m := by
    have hex : ∃ k, e.ok k = true := ⟨n, h⟩
    refine ⟨Nat.find hex, lt_of_le_of_lt (Nat.find_min' hex h) hn, ?_⟩
    refine retries_found (Nat.find_spec hex) _ 0 (Nat.zero_add _) ?_ ?_
    · exact le_trans (Nat.find_min' hex h) hn.le
    · intro i _ hi
      have := Nat.find_min hex hi
      simpa using this
  have h2 : retries (fun _ => true) 0 = 0 := by rw [retries]; rfl
  obtain ⟨m, hm, hr⟩ := h1
  unfold configure
  simp only [hr, h2]
  rw [if_neg (show ¬m = 10 by omega), if_neg (show ¬(0 : ℕ) = 10 by omega)]

/-- **C66 fails when the sensor is never ready.** After eleven queries without success the program does not
give up: it takes what the sensor that is not ready reports as its zero, and starts. -/
theorem C66_never_ready {c : Cfg} {e : Start} (h : ∀ i, i ≤ 10 → e.ok i = false) :
    configure c e = configure c { e with ok := fun _ => true } := by
  have h2 : retries (fun _ => true) 0 = 0 := by rw [retries]; rfl
  unfold configure
  simp only [retries_never h 10 0 rfl, h2]
  rw [if_neg (show ¬(11 : ℕ) = 10 by omega), if_neg (show ¬(0 : ℕ) = 10 by omega)]

/-- **C66 fails when the sensor is ready at the last retry.** The program gives up although the sensor is
ready by then. -/
theorem C66_ready_at_last {c : Cfg} {e : Start} (h : ∀ i, i < 10 → e.ok i = false) (h' : e.ok 10 = true) :
    configure c e = some none := by
  have := retries_found h' 10 0 rfl (le_refl _) fun i _ hi => h i hi
  unfold configure
  simp only [this, if_true]
  split_ifs <;> rfl

/-- Non-vacuity: the tool of `demo`, ready at the third query, never, and at the eleventh. -/
example : (∃ s, configure demo { demoStart with ok := fun k => decide (k = 2) } = some (some s)) ∧
    (∃ s, configure demo { demoStart with ok := fun _ => false } = some (some s)) ∧
    configure demo { demoStart with ok := fun k => decide (k = 10) } = some none := by
  refine ⟨?_, ?_, ?_⟩
  · rw [C66_ready_partial (n := 2) (by omega) (by rfl)]
    exact demo_configure
  · rw [C66_never_ready (by intros; rfl)]
    exact demo_configure
  · exact C66_ready_at_last (by intro i hi; simp; omega) (by rfl)

/-! ## C67: impedance -/

/-- `r` is a rotation vector, in the axes of the base, that takes the orientation `a` to `b`. Nothing is
said for half turns and for turns that KDL takes for none; see `Mat3.Regular`. -/
def IsTurn (a b : Mat3) (r : Vec3) : Prop :=
  (a.transpose * b).Regular → Mat3.expRot r * a = b ∧ r.norm ≤ Real.pi

theorem expRot_conj {m : Mat3} (hm : m.IsRot) (r : Vec3) :
    Mat3.expRot (m.mulVec r) * m = m * Mat3.expRot r := by
  apply Mat3.ext_mulVec
  intro v
  rw [Mat3.mulVec_mul, Mat3.mulVec_mul]
  unfold Mat3.expRot
  rw [hm.norm]
  have : (1 / r.norm) • m.mulVec r = m.mulVec ((1 / r.norm) • r) := by
    ext <;> simp [Mat3.mulVec] <;> ring
  rw [this, ← Mat3.rot2_conj hm]

theorem frameDiff_turn {f g : Frame} (hf : f.M.IsRot) (hg : g.M.IsRot) : IsTurn f.M g.M (frameDiff f g).rot := by
  intro hr
  have hm : (f.M.transpose * g.M).IsRot := hf.transpose.mul hg
  constructor
  · show Mat3.expRot (f.M.mulVec _) * f.M = _
    rw [expRot_conj hf, hm.expRot_getRot hr, ← mul_assoc, hf.right, one_mul]
  · show (f.M.mulVec _).norm ≤ _
    rw [hf.norm]
    exact hm.norm_getRot_le hr

/-- The expected commands of a compensation with impedance started at the pose `start`, the last cycle
having found the robot at `prev`: from the softened contact force subtract the stiffness times the way from
the start and the damping times the velocity since the last cycle, likewise for torques. The components of
the way and of the velocity are those along the axes of the base. -/
def Impeded (c : Cfg) (start : Frame) : Frame → List Situation → List (List Cmd) → Prop
  | _, [], [] => True
  | prev, y :: l, e :: es =>
    (∃ f t r ρ, Softened c.forceDeadband c.linGain y.contact.force f ∧
      Softened c.torqueDeadband c.rotGain y.contact.torque t ∧
      IsTurn start.M (vectorToFrame y.pose).M r ∧ IsTurn prev.M (vectorToFrame y.pose).M ρ ∧
      e = if c.dryRun then [] else
        [.wrench (wrenchToVector
          ⟨f - (c.linStiffness • ((vectorToFrame y.pose).p - start.p) +
              c.linDamping • (1 / c.period) • ((vectorToFrame y.pose).p - prev.p)),
           t - (c.rotStiffness • r + c.rotDamping • (1 / c.period) • ρ)⟩)]) ∧
      Impeded c start (vectorToFrame y.pose) l es
  | _, _, _ => False

theorem impeded_run {c : Cfg} {bias : Wrench} (hi : c.impedance = true) (hw : c.wrenchMode = true)
    (hF : 0 ≤ c.forceDeadband) (hT : 0 ≤ c.torqueDeadband) : ∀ {l : List Situation} {s : St},
    s.initialOffset = bias → s.running = true → s.initialPose.M.IsRot → s.previousPose.M.IsRot →
    (∀ y ∈ l, Measures c bias y.contact y.pose y.measurement) →
    ∃ s' es, run c s (l.map fun y =>
        { sensor := some y.measurement, statTool := some y.pose, statImpedance := some y.pose }) =
        some (s', es) ∧
      Impeded c s.initialPose s.previousPose l es := by
  intro l
  induction l with
  | nil => intro s _ _ _ _ _; exact ⟨s, [], rfl, trivial⟩
  | cons y l ih =>
    intro s hb hr h1 h2 hl
    have hy := hl y List.mem_cons_self
    have hrot := Sdc.vectorToFrame_isRigid y.pose
    obtain ⟨s', es, h3, h4⟩ := ih (s := { s with previousPose := vectorToFrame y.pose }) hb hr h1 hrot
      fun z hz => hl z (List.mem_cons_of_mem _ hz)
    obtain ⟨f, hf, hf'⟩ := deadband_softened (gain := c.linGain) hF y.contact.force
    obtain ⟨t, ht, ht'⟩ := deadband_softened (gain := c.rotGain) hT y.contact.torque
    have e1 : bias.force + toolForce c y.pose + y.contact.force - toolForce c y.pose - bias.force =
        y.contact.force := by
      ext <;> simp <;> ring
    have e2 : bias.torque + toolTorque c y.pose + y.contact.torque - toolTorque c y.pose - bias.torque =
        y.contact.torque := by
      ext <;> simp <;> ring
    have hc : ∃ E, cycle c s
        { sensor := some y.measurement, statTool := some y.pose, statImpedance := some y.pose } =
        some ({ s with previousPose := vectorToFrame y.pose }, E) ∧ E = command c
          ⟨f - (c.linStiffness • ((vectorToFrame y.pose).p - s.initialPose.p) +
              c.linDamping • (1 / c.period) • ((vectorToFrame y.pose).p - s.previousPose.p)),
           t - (c.rotStiffness • (frameDiff s.initialPose (vectorToFrame y.pose)).rot +
              c.rotDamping • (1 / c.period) • (frameDiff s.previousPose (vectorToFrame y.pose)).rot)⟩ := by
      refine ⟨_, ?_, rfl⟩
      unfold cycle
      rw [readSensor_measures hy]
      simp only [compensate_spec, hb, subWrench, e1, e2, hf, ht, impede, hi, if_true, applyImpedance,
        Option.map_some]
      rfl
    obtain ⟨E, hc, hE⟩ := hc
    refine ⟨s', E :: es, ?_, ⟨f, t, _, _, hf', ht', frameDiff_turn h1 hrot, frameDiff_turn h2 hrot, ?_⟩, h4⟩
    · rw [List.map_cons, run, if_pos hr, hc]
      simp only [Option.bind_eq_bind, Option.bind_some]
      rw [h3]
      rfl
    · rw [hE]
      unfold command
      rw [hw]
      cases c.dryRun <;> rfl

/-- **C67.** What is commanded with impedance, over every sequence of poses and contacts. -/
theorem C67_command {c : Cfg} {e : Start} {s : St} {bias : Wrench} {x0 x1 m0 : List ℝ} {l : List Situation}
    (hi : c.impedance = true) (hF : 0 ≤ c.forceDeadband) (hT : 0 ≤ c.torqueDeadband)
    (h : configure c e = some (some s)) (he : e.sensor = some m0) (hx : e.statTool = some x0)
    (hx' : e.statImpedance = some x1)
    (hm : Measures c bias ⟨0, 0⟩ x0 m0) (hl : ∀ y ∈ l, Measures c bias y.contact y.pose y.measurement) :
    ∃ s' es, run c s (l.map fun y =>
        { sensor := some y.measurement, statTool := some y.pose, statImpedance := some y.pose }) =
        some (s', es) ∧
      Impeded c (vectorToFrame x1) (vectorToFrame x1) l es := by
  obtain ⟨hb, hr, hp⟩ := configure_offset h he hx hm
  obtain ⟨x, hx1, hp1, hp2⟩ := hp hi
  rw [hx'] at hx1
  cases hx1
  have hw : c.wrenchMode = true := by
    cases hw : c.wrenchMode
    · unfold configure at h
      rw [if_pos (by rw [hi, hw]; rfl)] at h
      cases h
    · rfl
  have := impeded_run hi hw hF hT (l := l) hb hr (by rw [hp1]; exact Sdc.vectorToFrame_isRigid _)
    (by rw [hp2]; exact Sdc.vectorToFrame_isRigid _) hl
  rwa [hp1, hp2] at this

/-- The force of a command with six components. -/
def Cmd.force : Cmd → Vec3
  | .wrench [a, b, d, _, _, _] => ⟨a, b, d⟩
  | .twist [a, b, d, _, _, _] => ⟨a, b, d⟩
  | _ => 0

/-- **C67.** Without contact, and resting since the last cycle, the force commanded is along the axes of
the TCP. Turned into the axes of the base, it pulls the robot back to where it started if the TCP has the
axes of the base: it is opposite to the way from the start, with the stiffness as factor. Partial: for
other orientations it may push the robot away; see `C67_pushes_away`. -/
theorem C67_pull_partial {c : Cfg} {start : Frame} {y z : Situation} {es : List (List Cmd)}
    (hd : c.dryRun = false) (hF : 0 ≤ c.forceDeadband)
    (hz : z.contact.force = 0) (hrest : z.pose = y.pose) (hM : (vectorToFrame z.pose).M = 1)
    (h : Impeded c start start [y, z] es) :
    ∃ e1 cmd, es = [e1, [cmd]] ∧
      (vectorToFrame z.pose).M.mulVec cmd.force = -(c.linStiffness • ((vectorToFrame z.pose).p - start.p)) := by
  match es, h with
  | [e1, e2], ⟨_, ⟨f, t, r, ρ, hf, ht, hr, hρ, he⟩, _⟩ =>
    rw [hd] at he
    refine ⟨e1, _, by rw [he]; rfl, ?_⟩
    have hf0 : f = 0 := hf.1 (by rw [hz, Vec3.norm_zero]; exact hF)
    rw [hM, hf0, hrest]
    simp only [Cmd.force, wrenchToVector]
    ext <;> simp [Mat3.mulVec]

theorem frame_half (a : ℝ) :
    vectorToFrame [a, 0, 0, 0, 0, Real.pi] = ⟨⟨-1, 0, 0, 0, -1, 0, 0, 0, 1⟩, ⟨a, 0, 0⟩⟩ := by
  have hn : (⟨0, 0, Real.pi⟩ : Vec3).norm = Real.pi := by
    rw [Vec3.norm]; simp [Vec3.dot, Real.sqrt_mul_self Real.pi_pos.le]
  have h0 : (⟨0, 0, Real.pi⟩ : Vec3).normalize = ⟨0, 0, 1⟩ := by
    unfold Vec3.normalize
    rw [hn, if_neg (not_lt.mpr (le_trans (by norm_num [eps]) Real.two_le_pi))]
    ext <;> simp [Real.pi_ne_zero]
  simp only [vectorToFrame, Mat3.rot, hn, h0]
  congr 1
  ext <;> simp [Mat3.rot2]

/-- Stiffness 10, no damping, no tool. -/
noncomputable def stiff : Cfg :=
  { demo with wrenchMode := true, impedance := true, linStiffness := 10, tool := none }

/-- Where it is started: the TCP is turned by half around the vertical axis. -/
noncomputable def stiffStart : Start where
  ok := fun _ => true
  sensor := some [0, 0, 0, 0, 0, 0]
  statTool := some [0, 0, 0, 0, 0, Real.pi]
  statImpedance := some [0, 0, 0, 0, 0, Real.pi]

theorem stiff_measures (x : List ℝ) : Measures stiff ⟨0, 0⟩ ⟨0, 0⟩ x [0, 0, 0, 0, 0, 0] := by
  refine ⟨⟨0, 0, 0⟩, ⟨0, 0, 0⟩, rfl, ?_, ?_⟩ <;>
  · simp only [toolForce, toolTorque, stiff, demo]
    ext <;> simp [Mat3.mulVec]

theorem stiff_configure : ∃ s, configure stiff stiffStart = some (some s) := by
  have h : retries (fun _ => true) 0 = 0 := by rw [retries]; rfl
  unfold configure
  simp only [stiffStart, h]
  rw [readSensor]
  simp only [compensate_spec]
  exact ⟨_, rfl⟩

/-- The robot has been brought one metre ahead. -/
noncomputable def stiffInput : Input where
  sensor := some [0, 0, 0, 0, 0, 0]
  statTool := some [1, 0, 0, 0, 0, Real.pi]
  statImpedance := some [1, 0, 0, 0, 0, Real.pi]

/-- **C67 fails if the TCP is turned.** The TCP is turned by half around the vertical axis, as at the start;
the robot has been brought one metre ahead, and rests there without contact. The force commanded, turned
into the axes of the base, pushes the robot further ahead. -/
theorem C67_pushes_away : ∃ s s' e1 cmd, configure stiff stiffStart = some (some s) ∧
    run stiff s [stiffInput, stiffInput] = some (s', [e1, [cmd]]) ∧
    (vectorToFrame [1, 0, 0, 0, 0, Real.pi]).M.mulVec cmd.force = ⟨10, 0, 0⟩ ∧
    (vectorToFrame [1, 0, 0, 0, 0, Real.pi]).p - (vectorToFrame [0, 0, 0, 0, 0, Real.pi]).p = ⟨1, 0, 0⟩ := by
  obtain ⟨s, hs⟩ := stiff_configure
  obtain ⟨s', es, h1, h2⟩ := C67_command (l := List.replicate 2
      ⟨[1, 0, 0, 0, 0, Real.pi], ⟨0, 0⟩, [0, 0, 0, 0, 0, 0]⟩)
    rfl (by norm_num [stiff, demo]) (by norm_num [stiff, demo]) hs rfl rfl rfl (stiff_measures _) (by
      intro y hy
      rw [List.mem_replicate] at hy
      rw [hy.2]
      exact stiff_measures _)
  match es, h2 with
  | [e1, e2], ⟨_, ⟨f, t, r, ρ, hf, ht, hr, hρ, he⟩, _⟩ =>
    have hf0 : f = 0 := hf.1 (by rw [Vec3.norm_zero]; norm_num [stiff, demo])
    have hd : stiff.dryRun = false := rfl
    rw [hd] at he
    simp only [Bool.false_eq_true, if_false] at he
    subst he
    refine ⟨s, s', e1, _, hs, h1, ?_, ?_⟩
    · simp only [Cmd.force, wrenchToVector, hf0, frame_half]
      ext <;> simp [Mat3.mulVec, stiff, demo]
    · rw [frame_half, frame_half]; ext <;> simp

/-- Where a robot with the axes of its TCP along those of its base is started. -/
noncomputable def straightStart : Start where
  ok := fun _ => true
  sensor := some [0, 0, 0, 0, 0, 0]
  statTool := some [0, 0, 0, 0, 0, 0]
  statImpedance := some [0, 0, 0, 0, 0, 0]

/-- The robot has been brought one metre ahead. -/
noncomputable def straightInput : Input where
  sensor := some [0, 0, 0, 0, 0, 0]
  statTool := some [1, 0, 0, 0, 0, 0]
  statImpedance := some [1, 0, 0, 0, 0, 0]

/-- Non-vacuity of `C67_pull_partial`: the robot has been brought one metre ahead and rests there; it is
pulled back with ten newtons. -/
example : ∃ s s' e1 cmd, configure stiff straightStart = some (some s) ∧
    run stiff s [straightInput, straightInput] = some (s', [e1, [cmd]]) ∧ cmd.force = ⟨-10, 0, 0⟩ := by
  have hs : ∃ s, configure stiff straightStart = some (some s) := by
    have h : retries (fun _ => true) 0 = 0 := by rw [retries]; rfl
    unfold configure
    simp only [straightStart, h]
    rw [readSensor]
    simp only [compensate_spec]
    exact ⟨_, rfl⟩
  obtain ⟨s, hs⟩ := hs
  obtain ⟨s', es, h1, h2⟩ := C67_command (l := List.replicate 2
      ⟨[1, 0, 0, 0, 0, 0], ⟨0, 0⟩, [0, 0, 0, 0, 0, 0]⟩)
    rfl (by norm_num [stiff, demo]) (by norm_num [stiff, demo]) hs rfl rfl rfl (stiff_measures _) (by
      intro y hy
      rw [List.mem_replicate] at hy
      rw [hy.2]
      exact stiff_measures _)
  have hM : ∀ a, (vectorToFrame [a, 0, 0, 0, 0, 0]).M = 1 := by
    intro a
    have hn : (⟨0, 0, 0⟩ : Vec3).norm = 0 := Vec3.norm_zero
    simp only [vectorToFrame, Mat3.rot, hn]
    ext <;> simp [Mat3.rot2]
  obtain ⟨e1, cmd, h3, h4⟩ := C67_pull_partial (by rfl) (by norm_num [stiff, demo]) rfl rfl (hM _) h2
  refine ⟨s, s', e1, cmd, hs, ?_, ?_⟩
  · rw [← h3]; exact h1
  · have h5 : (1 : Mat3).mulVec cmd.force = cmd.force := by ext <;> simp [Mat3.mulVec]
    rw [hM, h5] at h4
    rw [h4]
    ext <;> simp [vectorToFrame, stiff, demo]

/-! ## C68: losing the sensor or the robot -/

/-- The sensor, or a call the configuration makes necessary, does not answer. -/
def Lost (c : Cfg) (i : Input) : Prop :=
  i.sensor = none ∨ ((∃ w, readSensor c i.sensor = some (some w)) ∧
    ((c.tool.isSome = true ∧ i.statTool = none) ∨ (c.impedance = true ∧ i.statImpedance = none)))

/-- **C68.** Whenever the sensor or the robot does not answer, nothing is commanded in that cycle, and
nothing ever after. -/
theorem C68_silent {c : Cfg} {s : St} {i : Input} {l : List Input}
    (hF : 0 ≤ c.forceDeadband) (hT : 0 ≤ c.torqueDeadband) (hr : s.running = true) (h : Lost c i) :
    run c s (i :: l) = some ({ s with running := false }, [[]]) := by
  have hc : cycle c s i = some ({ s with running := false }, []) := by
    unfold cycle
    rcases h with h | ⟨⟨w, hw⟩, h⟩
    · rw [h]; rfl
    · rw [hw]
      simp only
      cases hcomp : compensate c i.statTool w with
      | none => rfl
      | some w' =>
        rcases h with ⟨h1, h2⟩ | ⟨h1, h2⟩
        · rw [Option.isSome_iff_exists] at h1
          obtain ⟨⟨a, b⟩, hab⟩ := h1
          unfold compensate at hcomp
          rw [hab, h2] at hcomp
          cases hcomp
        · obtain ⟨f, hf, -⟩ := deadband_softened (gain := c.linGain) hF (subWrench w' s.initialOffset).force
          obtain ⟨t, ht, -⟩ := deadband_softened (gain := c.rotGain) hT (subWrench w' s.initialOffset).torque
          simp only [hf, ht, impede, h1, h2, if_true, applyImpedance, Option.map_none]
  rw [run, if_pos hr, hc]
  simp only [Option.bind_eq_bind, Option.bind_some]
  cases l with
  | nil => rfl
  | cons j l => rfl

/-- **C68.** When the program is interrupted control is stopped (unless in a dry run), and nothing is
commanded any more. -/
theorem C68_interrupt {c : Cfg} {s : St} {l : List Input} (h : c.dryRun = false) :
    (interrupt c s).2 = [.stopControl] ∧ run c (interrupt c s).1 l = some ((interrupt c s).1, []) := by
  constructor
  · simp [interrupt, h]
  · cases l <;> rfl

/-- Whether a command stops the robot: `stopControl`, or a null velocity. -/
def Cmd.stops : Cmd → Prop
  | .stopControl => True
  | .twist v => ∀ a ∈ v, a = 0
  | .wrench _ => False

/-- A push of 5 N sideways on `demo`, then the sensor is lost. -/
noncomputable def pushed : Input where
  sensor := some [3, 5, -10, 0, 0, 0]
  statTool := some [0, 0, 0, 0, 0, 0]

/-- **C68 fails when the sensor is lost.** The robot is moving sideways because somebody pushes it; then the
sensor does not answer any more. No command that would stop the robot follows: it is left with the last
velocity. (The main loop of the program ends then, without calling `interruptModule`.) -/
theorem C68_not_stopped (l : List Input) : ∃ s s' es, configure demo demoStart = some (some s) ∧
    run demo s (pushed :: { sensor := none } :: l) = some (s', es) ∧
    es = [[.twist [0, 4 / 100, 0, 0, 0, 0]], []] ∧ ∀ e ∈ es, ∀ cmd ∈ e, ¬ cmd.stops := by
  obtain ⟨s, hs⟩ := demo_configure
  obtain ⟨hb, hr, -⟩ := configure_offset hs rfl rfl demo_measures
  have hm : Measures demo ⟨⟨3, 0, 0⟩, 0⟩ ⟨⟨0, 5, 0⟩, 0⟩ [0, 0, 0, 0, 0, 0] [3, 5, -10, 0, 0, 0] := by
    refine ⟨⟨3, 5, -10⟩, ⟨0, 0, 0⟩, rfl, ?_, ?_⟩ <;>
    · simp only [toolForce, toolTorque, demo, demo_frame]
      ext <;> simp [Mat3.mulVec]
  obtain ⟨e, h1, f, t, hf, ht, he⟩ := cycle_contact (i := pushed) rfl (by norm_num [demo])
    (by norm_num [demo]) hb rfl rfl hm
  have n1 : (⟨0, 5, 0⟩ : Vec3).norm = 5 := by
    rw [Vec3.norm]; simp [Vec3.dot]
  have hf' := hf.2 (by rw [n1]; norm_num [demo])
  have ht' := ht.1 (by rw [Vec3.norm_zero]; norm_num [demo])
  rw [n1] at hf'
  have he' : e = [.twist [0, 4 / 100, 0, 0, 0, 0]] := by
    rw [he, hf', ht']
    simp [demo]
    norm_num
  have h2 := C68_silent (c := demo) (s := s) (i := { sensor := none }) (l := l) (by norm_num [demo])
    (by norm_num [demo]) hr (Or.inl rfl)
  refine ⟨s, { s with running := false }, [e, []], hs, ?_, by rw [he'], ?_⟩
  · rw [run, if_pos hr, h1]
    simp only [Option.bind_eq_bind, Option.bind_some]
    rw [h2]
    rfl
  · intro e' h cmd hc
    rcases List.mem_cons.mp h with rfl | h
    · rw [he', List.mem_singleton] at hc
      subst hc
      intro hz
      have := hz (4 / 100) (by simp)
      norm_num at this
    · rw [List.mem_singleton] at h
      subst h
      cases hc

end KD.Ft
