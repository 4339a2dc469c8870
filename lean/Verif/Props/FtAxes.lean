import Verif.Props.FtCompensation
import Verif.Kdl.RotVec
import Verif.Solver.KdlSolver

/-!
# C102: the axes of the tip in force and torque compensation
-/

namespace KD

open KdlVectorConverter

namespace Ft

/-! ## What is expected (specification) -/

/-- Two configurations for the same sensor, tool and arm. For the second one, the axes of the TCP are turned by `R`
beforehand: the rotation of the sensor and the centre of mass are written in the new axes. The rest is the same. -/
structure Turned (R : Mat3) (c c' : Cfg) : Prop where
  rest : c = { c' with sensorRot := c.sensorRot, tool := c.tool }
  sensor : c.sensorRot = R * c'.sensorRot
  tool : c.tool = c'.tool.map fun t => (R.mulVec t.1, t.2)

/-- Answers to the question where the TCP is: both failed, or the same point with axes turned by `R`. -/
def SamePoint (R : Mat3) : Option (List ℝ) → Option (List ℝ) → Prop
  | none, none => True
  | some x, some x' => (vectorToFrame x').p = (vectorToFrame x).p ∧ (vectorToFrame x').M = (vectorToFrame x).M * R
  | _, _ => False

/-- What the world answers to both programs at the start. -/
def SameStart (R : Mat3) (e e' : Start) : Prop :=
  e.ok = e'.ok ∧ e.sensor = e'.sensor ∧ SamePoint R e.statTool e'.statTool ∧
    SamePoint R e.statImpedance e'.statImpedance

/-- What the world answers to both programs in a cycle: the sensor measures the same. -/
def SameInput (R : Mat3) (i i' : Input) : Prop :=
  i.sensor = i'.sensor ∧ SamePoint R i.statTool i'.statTool ∧ SamePoint R i.statImpedance i'.statImpedance

/-- Two commands that mean the same movement: of the same kind, and one is the other one turned by `R`. -/
inductive SameCmd (R : Mat3) : Cmd → Cmd → Prop
  | twist (f t : Vec3) : SameCmd R
      (.twist (wrenchToVector ⟨R.mulVec f, R.mulVec t⟩)) (.twist (wrenchToVector ⟨f, t⟩))
  | wrench (f t : Vec3) : SameCmd R
      (.wrench (wrenchToVector ⟨R.mulVec f, R.mulVec t⟩)) (.wrench (wrenchToVector ⟨f, t⟩))

/-- The program from its start: what it sends in each cycle. The outer `none` is undefined behaviour, the inner one a
refusal to start. -/
noncomputable def session (c : Cfg) (e : Start) (l : List Input) : Option (Option (List (List Cmd))) :=
  match configure c e with
  | none => none
  | some none => some none
  | some (some s) => (run c s l).map fun r => some r.2

/-! ## Proof -/

theorem deadband_turned {R : Mat3} (hR : R.IsRot) (db gain : ℝ) (v : Vec3) :
    deadband db gain (R.mulVec v) = (deadband db gain v).map R.mulVec := by
  simp only [deadband, hR.norm]
  split_ifs
  · rfl
  · simp [Mat3.mulVec_smul, Mat3.mulVec_sub]
  · simp

theorem rotWrench_mul (a b : Mat3) (w : Wrench) : rotWrench (a * b) w = rotWrench a (rotWrench b w) := by
  simp [rotWrench, Mat3.mulVec_mul]

theorem subWrench_turned (R : Mat3) (a b : Wrench) :
    subWrench (rotWrench R a) (rotWrench R b) = rotWrench R (subWrench a b) := by
  simp [subWrench, rotWrench, Mat3.mulVec_sub]

theorem readSensor_turned {R : Mat3} {c c' : Cfg} (h : Turned R c c') (m : Option (List ℝ)) :
    readSensor c m = (readSensor c' m).map (·.map (rotWrench R)) := by
  rcases m with _ | _ | ⟨a, _ | ⟨b, _ | ⟨d, _ | ⟨e, _ | ⟨f, _ | ⟨g, l⟩⟩⟩⟩⟩⟩ <;>
    simp [readSensor, h.sensor, rotWrench_mul]

theorem compensate_turned {R : Mat3} (hR : R.IsRot) {c c' : Cfg} (h : Turned R c c') {x x' : Option (List ℝ)}
    (hx : SamePoint R x x') (w : Wrench) :
    compensate c x (rotWrench R w) = (compensate c' x' w).map (rotWrench R) := by
  unfold compensate
  rw [h.tool]
  rcases c'.tool with _ | ⟨com, weight⟩
  · rfl
  · rcases x with _ | x <;> rcases x' with _ | x' <;> simp only [SamePoint] at hx
    · rfl
    · obtain ⟨-, hM⟩ := hx
      simp only [compensateTool, Option.map_some, ← subWrench_turned]
      congr 2
      simp only [hM, Mat3.transpose_mul, rotWrench_mul]
      generalize rotWrench (vectorToFrame x).M.transpose ⟨weight, 0⟩ = u
      simp only [refPoint, rotWrench, Mat3.mulVec_add, hR.mulVec_transpose]
      congr 2
      rw [← hR.cross, hR.mulVec_transpose, Mat3.mulVec_neg]

theorem configure_turned {R : Mat3} (hR : R.IsRot) {c c' : Cfg} (h : Turned R c c') (hi : c'.impedance = false)
    {e e' : Start} (he : SameStart R e e') :
    configure c e = (configure c' e').map (·.map fun s => { s with initialOffset := rotWrench R s.initialOffset }) := by
  obtain ⟨h1, h2, h3, h4⟩ := he
  have hc : c.impedance = false := by rw [h.rest]; exact hi
  unfold configure
  simp only [hc, hi, h1, h2, readSensor_turned h, Bool.false_and, Bool.false_eq_true, if_false]
  split_ifs
  · rfl
  · rcases readSensor c' e'.sensor with _ | _ | w
    · rfl
    · rfl
    · simp only [Option.map_some, compensate_turned hR h h3]
      rcases compensate c' e'.statTool w with _ | w' <;> rfl

theorem command_turned {R : Mat3} {c c' : Cfg} (h : Turned R c c') (w : Wrench) :
    List.Forall₂ (SameCmd R) (command c (rotWrench R w)) (command c' w) := by
  have h1 : c.dryRun = c'.dryRun := by rw [h.rest]
  have h2 : c.wrenchMode = c'.wrenchMode := by rw [h.rest]
  unfold command
  rw [h1, h2]
  split_ifs
  · exact .nil
  · exact .cons (.wrench _ _) .nil
  · exact .cons (.twist _ _) .nil

/-- The outcomes of a cycle. -/
inductive SameCycle (R : Mat3) : Option (St × List Cmd) → Option (St × List Cmd) → Prop
  | undefined : SameCycle R none none
  | done (s : St) {es es' : List Cmd} : List.Forall₂ (SameCmd R) es es' →
      SameCycle R (some ({ s with initialOffset := rotWrench R s.initialOffset }, es)) (some (s, es'))

theorem cycle_turned {R : Mat3} (hR : R.IsRot) {c c' : Cfg} (h : Turned R c c') (hi : c'.impedance = false)
    {i i' : Input} (he : SameInput R i i') (s : St) :
    SameCycle R (cycle c { s with initialOffset := rotWrench R s.initialOffset } i) (cycle c' s i') := by
  obtain ⟨h1, h2, -⟩ := he
  have hc : c.impedance = false := by rw [h.rest]; exact hi
  have d1 : c.forceDeadband = c'.forceDeadband := by rw [h.rest]
  have d2 : c.torqueDeadband = c'.torqueDeadband := by rw [h.rest]
  have d3 : c.linGain = c'.linGain := by rw [h.rest]
  have d4 : c.rotGain = c'.rotGain := by rw [h.rest]
  unfold cycle
  simp only [h1, readSensor_turned h]
  rcases readSensor c' i'.sensor with _ | _ | w
  · exact .undefined
  · exact .done { s with running := false } .nil
  · simp only [Option.map_some, compensate_turned hR h h2]
    rcases compensate c' i'.statTool w with _ | w'
    · exact .done { s with running := false } .nil
    · simp only [Option.map_some, subWrench_turned, d1, d2, d3, d4]
      rw [show (rotWrench R (subWrench w' s.initialOffset)).force = R.mulVec (subWrench w' s.initialOffset).force from rfl,
        show (rotWrench R (subWrench w' s.initialOffset)).torque = R.mulVec (subWrench w' s.initialOffset).torque from rfl,
        deadband_turned hR, deadband_turned hR]
      rcases deadband c'.forceDeadband c'.linGain (subWrench w' s.initialOffset).force with _ | f
      · exact .undefined
      · rcases deadband c'.torqueDeadband c'.rotGain (subWrench w' s.initialOffset).torque with _ | t
        · exact .undefined
        · simp only [Option.map_some, impede, hc, hi, Bool.false_eq_true, if_false]
          exact .done s (command_turned h ⟨f, t⟩)

theorem run_turned {R : Mat3} (hR : R.IsRot) {c c' : Cfg} (h : Turned R c c') (hi : c'.impedance = false)
    {l l' : List Input} (hl : List.Forall₂ (SameInput R) l l') : ∀ s : St,
    Option.Rel (List.Forall₂ (List.Forall₂ (SameCmd R)))
      ((run c { s with initialOffset := rotWrench R s.initialOffset } l).map (·.2)) ((run c' s l').map (·.2)) := by
  induction hl with
  | nil => intro s; exact .some .nil
  | @cons i i' l l' he _ ih =>
    intro s
    have hc := cycle_turned hR h hi he s
    unfold run
    by_cases hr : s.running = true
    · dsimp only
      rw [if_pos hr, if_pos hr]
      generalize cycle c { s with initialOffset := rotWrench R s.initialOffset } i = a at hc
      generalize cycle c' s i' = b at hc
      cases hc with
      | undefined => exact .none
      | done s1 hes =>
        have hs := ih s1
        simp only [Option.bind_eq_bind, Option.bind_some]
        generalize run c { s1 with initialOffset := rotWrench R s1.initialOffset } l = a at hs
        generalize run c' s1 l' = b at hs
        rcases a with _ | ⟨s2, es2⟩ <;> rcases b with _ | ⟨s3, es3⟩
        · exact .none
        · cases hs
        · cases hs
        · cases hs with
          | some hs => exact .some (.cons hes hs)
    · simp only [hr]
      exact .some .nil

end Ft

open Ft

/-! ## C102 -/

/-- Without impedance, for every rotation: the program behaves alike for both descriptions from its start on, whatever
the sensor measures and wherever the arm goes. It starts for both or for none, and in every cycle the movements sent
are the same once they are turned into the axes of the arm. -/
theorem C102_same_movement_partial (R : Mat3) (hR : R.IsRot) (c c' : Cfg) (h : Turned R c c')
    (hi : c.impedance = false) (e e' : Start) (he : SameStart R e e') (l l' : List Input)
    (hl : List.Forall₂ (SameInput R) l l') :
    Option.Rel (Option.Rel (List.Forall₂ (List.Forall₂ (SameCmd R)))) (session c e l) (session c' e' l') := by
  have hi' : c'.impedance = false := by rw [h.rest] at hi; exact hi
  unfold session
  rw [configure_turned hR h hi' he]
  rcases configure c' e' with _ | _ | s
  · exact .none
  · exact .some .none
  · have := run_turned hR h hi' hl s
    simp only [Option.map_some]
    generalize run c { s with initialOffset := rotWrench R s.initialOffset } l = a at this
    generalize run c' s l' = b at this
    rcases a with _ | a <;> rcases b with _ | b
    · exact .none
    · cases this
    · cases this
    · cases this with
      | some h => exact .some (.some h)

namespace Ft

/-- Both ways to describe the stump, with the values of the program where the file gives none.
/repo/share/contexts/ftCompensation-stump.ini:12-33 and /repo/programs/ftCompensation/FtCompensation.cpp:24-33. -/
noncomputable def stump (wrenchMode dryRun : Bool) (sensorRot : Mat3) : Cfg where
  wrenchMode := wrenchMode
  dryRun := dryRun
  impedance := false
  linGain := 1 / 100
  rotGain := 1 / 5
  linStiffness := 1 / 10
  rotStiffness := 1 / 10
  linDamping := 1 / 10
  rotDamping := 1 / 10
  forceDeadband := 1
  torqueDeadband := 1
  period := 1 / 50
  sensorRot := sensorRot
  tool := none

/-- `sensorFrameRPY (90 0 -90)`, /repo/share/contexts/ftCompensation-stump.ini:14. -/
noncomputable def stumpRot : Mat3 := Mat3.rpy (90 * deg2rad) (0 * deg2rad) (-90 * deg2rad)

/-- `HN (1 0 0 -0.09  0 1 0 0  0 0 1 0  0 0 0 1)`, /repo/share/contexts/ftCompensation-stump.ini:13. -/
noncomputable def straightHN : Frame := ⟨1, ⟨-9 / 100, 0, 0⟩⟩

/-- `HN (0 0 -1 -0.09  -1 0 0 0    0 1 0 0    0 0 0 1)`, /repo/share/contexts/ftCompensation-stump.ini:16. -/
noncomputable def turnedHN : Frame := ⟨⟨0, 0, -1, -1, 0, 0, 0, 1, 0⟩, ⟨-9 / 100, 0, 0⟩⟩

theorem stumpRot_eq : stumpRot = turnedHN.M := by
  have h : (90 : ℝ) * deg2rad = Real.pi / 2 := by unfold deg2rad; ring
  have h' : (-90 : ℝ) * deg2rad = -(Real.pi / 2) := by unfold deg2rad; ring
  unfold stumpRot
  rw [h, h', zero_mul]
  ext <;> simp [Mat3.rpy, Mat3.rotX, Mat3.rotY, Mat3.rotZ, turnedHN]

end Ft

/-- The two ways that the file of the stump offers are the same: with the frame of the hand straight and the sensor
turned, or with the frame of the hand turned and the sensor along it, the robot is moved alike by every measurement,
wherever the arm is. -/
theorem C102_stump_options (wrenchMode dryRun : Bool) (ok : ℕ → Bool) (m : Option (List ℝ))
    (l : List (Option (List ℝ))) :
    stumpRot.IsRot ∧
    (∀ (arm : Frame) (x x' : List ℝ), vectorToFrame x = arm * straightHN → vectorToFrame x' = arm * turnedHN →
      SamePoint stumpRot (some x) (some x')) ∧
    Option.Rel (Option.Rel (List.Forall₂ (List.Forall₂ (SameCmd stumpRot))))
      (session (stump wrenchMode dryRun stumpRot) { ok := ok, sensor := m } (l.map fun y => { sensor := y }))
      (session (stump wrenchMode dryRun 1) { ok := ok, sensor := m } (l.map fun y => { sensor := y })) := by
  have hR : stumpRot.IsRot := Mat3.rpy_isRot _ _ _
  refine ⟨hR, ?_, ?_⟩
  · intro arm x x' h h'
    refine ⟨?_, ?_⟩
    · rw [h, h']; rfl
    · rw [h, h', stumpRot_eq]
      show arm.M * _ = arm.M * _ * _
      rw [show straightHN.M = 1 from rfl, mul_one]
  · refine C102_same_movement_partial stumpRot hR _ _ ⟨rfl, ?_, rfl⟩ rfl (e := { ok := ok, sensor := m }) (e' := { ok := ok, sensor := m })
      ⟨rfl, rfl, trivial, trivial⟩ _ _ ?_
    · show stumpRot = stumpRot * 1
      rw [mul_one]
    · rw [List.forall₂_map_left_iff, List.forall₂_map_right_iff, List.forall₂_same]
      exact fun _ _ => ⟨rfl, trivial, trivial⟩

/-- A push of three newtons is answered, along the axis of the arm it comes from. -/
example : session (stump false false 1) { ok := fun _ => true, sensor := some [0, 0, 0, 0, 0, 0] }
      [{ sensor := some [0, 0, 3, 0, 0, 0] }] = some (some [[.twist [0, 0, 2 / 100, 0, 0, 0]]]) ∧
    stumpRot.mulVec ⟨0, 0, 1⟩ = ⟨-1, 0, 0⟩ := by
  constructor
  · have h : retries (fun _ => true) 0 = 0 := by rw [retries]; rfl
    have n3 : (⟨0, 0, 3⟩ : Vec3).norm = 3 := by
      rw [Vec3.norm]; simp [Vec3.dot]
    have n0 : (⟨0, 0, 0⟩ : Vec3).norm = 0 := Vec3.norm_zero
    have sub0 : ∀ v : Vec3, v - ⟨0, 0, 0⟩ = v := fun v => by ext <;> simp
    simp [session, configure, stump, h, readSensor, compensate, run, cycle, impede, command, deadband, rotWrench, subWrench,
      sub0, n3, n0, wrenchToVector]
    norm_num
  · rw [stumpRot_eq]
    ext <;> simp [turnedHN, Mat3.mulVec]

namespace Ft

/-- Stiffness 10, no damping, no tool, and some rotation of the sensor. -/
noncomputable def springy (S : Mat3) : Cfg := { stiff with sensorRot := S }

theorem springy_session (S : Mat3) (x0 x1 : List ℝ)
    (h : (vectorToFrame x1).p - (vectorToFrame x0).p = ⟨1, 0, 0⟩) :
    session (springy S)
      { ok := fun _ => true, sensor := some [0, 0, 0, 0, 0, 0], statTool := some x0, statImpedance := some x0 }
      [{ sensor := some [0, 0, 0, 0, 0, 0], statTool := some x1, statImpedance := some x1 }] =
      some (some [[.wrench [-10, 0, 0, 0, 0, 0]]]) := by
  have hr : retries (fun _ => true) 0 = 0 := by rw [retries]; rfl
  have hS : S.mulVec ⟨0, 0, 0⟩ = 0 := Mat3.mulVec_zero S
  have s0 : (0 : Vec3) - 0 = 0 := by ext <;> simp
  have hx : (vectorToFrame x1).p.x - (vectorToFrame x0).p.x = 1 := congrArg Vec3.x h
  have hy : (vectorToFrame x1).p.y - (vectorToFrame x0).p.y = 0 := congrArg Vec3.y h
  have hz : (vectorToFrame x1).p.z - (vectorToFrame x0).p.z = 0 := congrArg Vec3.z h
  have n1 : ¬(1 : ℝ) < 0 := by norm_num
  simp [session, configure, springy, stiff, demo, hr, readSensor, compensate, run, cycle, impede, command, deadband, rotWrench,
    subWrench, hS, s0, wrenchToVector, applyImpedance, frameDiff, frameDiffDt, hx, hy, hz, n1]

theorem frame_straight (a : ℝ) : vectorToFrame [a, 0, 0, 0, 0, 0] = ⟨1, ⟨a, 0, 0⟩⟩ := by
  have hn : (⟨0, 0, 0⟩ : Vec3).norm = 0 := Vec3.norm_zero
  simp only [vectorToFrame, Mat3.rot, hn]
  ext <;> simp [Mat3.rot2]

end Ft

/-- Not with impedance: the axes of the TCP turned by half a turn about the vertical one, and everything described
accordingly. The arm is brought one metre ahead of where it was. Both programs send the same numbers, and so forces that
are opposite to one another: the displacement is written in the axes of the base, whatever the axes of the TCP. -/
theorem C102_impedance_counterexample :
    let R : Mat3 := ⟨-1, 0, 0, 0, -1, 0, 0, 0, 1⟩
    let start (x : List ℝ) : Start :=
      { ok := fun _ => true, sensor := some [0, 0, 0, 0, 0, 0], statTool := some x, statImpedance := some x }
    let input (x : List ℝ) : Input :=
      { sensor := some [0, 0, 0, 0, 0, 0], statTool := some x, statImpedance := some x }
    R.IsRot ∧ Turned R (springy R) (springy 1) ∧
      SameStart R (start [0, 0, 0, 0, 0, 0]) (start [0, 0, 0, 0, 0, Real.pi]) ∧
      SameInput R (input [1, 0, 0, 0, 0, 0]) (input [1, 0, 0, 0, 0, Real.pi]) ∧
      session (springy R) (start [0, 0, 0, 0, 0, 0]) [input [1, 0, 0, 0, 0, 0]] =
        some (some [[.wrench [-10, 0, 0, 0, 0, 0]]]) ∧
      session (springy 1) (start [0, 0, 0, 0, 0, Real.pi]) [input [1, 0, 0, 0, 0, Real.pi]] =
        some (some [[.wrench [-10, 0, 0, 0, 0, 0]]]) ∧
      ¬SameCmd R (.wrench [-10, 0, 0, 0, 0, 0]) (.wrench [-10, 0, 0, 0, 0, 0]) := by
  intro R start input
  have hp : ∀ a : ℝ, SamePoint R (some [a, 0, 0, 0, 0, 0]) (some [a, 0, 0, 0, 0, Real.pi]) := fun a => by
    refine ⟨by rw [frame_half, frame_straight], ?_⟩
    rw [frame_half, frame_straight, one_mul]
  refine ⟨⟨?_, ?_, ?_⟩, ⟨rfl, ?_, rfl⟩, ⟨rfl, rfl, hp 0, hp 0⟩, ⟨rfl, hp 1, hp 1⟩, ?_, ?_, ?_⟩
  · ext <;> simp [R]
  · ext <;> simp [R]
  · simp [R, Mat3.det]
  · show R = R * 1
    rw [mul_one]
  · exact springy_session R _ _ (by rw [frame_straight, frame_straight]; ext <;> simp)
  · exact springy_session 1 _ _ (by rw [frame_half, frame_half]; ext <;> simp)
  · have key : ∀ a b, SameCmd R a b → Cmd.wrench [-10, 0, 0, 0, 0, 0] = a → Cmd.wrench [-10, 0, 0, 0, 0, 0] = b →
        False := by
      intro a b h ha hb
      cases h with
      | twist f t => cases ha
      | wrench f t =>
        simp only [wrenchToVector, Cmd.wrench.injEq, List.cons.injEq] at ha hb
        have h1 := ha.1
        have h2 := hb.1
        simp [R] at h1
        linarith
    exact fun h => key _ _ h rfl rfl

end KD
