import Verif.Props.FixedAxes
import Verif.Props.FtCompensation
import Verif.Props.Proximity

/-!
# C72: streaming devices command what the hand does

The SpaceNavigator is covered by C60: its commands are given there in full.
-/

namespace KD.Sdc

open scoped Classical
open KD.Ft (IsTurn frameDiff_turn)

/-! ## Leap Motion -/

/-- The pose that a Leap device makes out of a reading, with the scaling factor `s`: what it sends in pose
mode; see `C60_leap_partial` for its coordinates. -/
noncomputable def Leap.poseOf (d : Leap) (s : ℝ) (reading : List ℝ) : Option Frame :=
  ((d.acquire reading).bind fun a => a.transform s).map fun a => KdlVectorConverter.vectorToFrame a.data.toList

/-- The messages sent to move the robot. -/
def Ev.moves : List Ev → List Cmd
  | [] => []
  | .move m :: l => m ++ Ev.moves l
  | _ :: l => Ev.moves l

/-- The twists commanded over some cycles take the pose `p` of the time `t`, in the time that passes from each
one to the next, through the poses of the hand to the pose `q`: positions by the linear velocity, orientations
by the angular velocity. -/
def Follows (d : Leap) (scaling : ℝ) : Frame → ℝ → List (Cycle × List Ev) → Frame → Prop
  | p, _, [], q => q = p
  | p, t, (y, e) :: l, q =>
    (Ev.moves e = [] ∧ Follows d scaling p t l q) ∨
    ∃ (x : Six) (h : Frame) (s : ℝ), Ev.moves e = [.twist x] ∧ (s = scaling ∨ s = scaling * 2) ∧
      d.poseOf s y.sensor = some h ∧
      (y.now - t) • (⟨x 0, x 1, x 2⟩ : Vec3) = h.p - p.p ∧
      IsTurn p.M h.M ((y.now - t) • (⟨x 3, x 4, x 5⟩ : Vec3)) ∧
      Follows d scaling h y.now l q

/-- Two states of one device: what was set up at the start is the same. -/
structure SameSetup (d d' : Leap) : Prop where
  pose : d'.usingPose = d.usingPose
  fixed : d'.fixed = d.fixed
  initial : d'.initial = d.initial
  base : d'.baseLeap = d.baseLeap
  ee : d'.leapEe = d.leapEe

/-- The six coordinates that `transformData` makes out of those acquired. -/
noncomputable def leapData (fixed : Fin 6 → Bool) (initial : Six) (base ee : Frame) (s : ℝ) (data : Six) : Six :=
  let x : Six := fun i => if fixed i then 0 else if i.val < 3 then (data i - initial i) / s else data i - initial i
  let rot := if !fixed 3 && !fixed 4 && !fixed 5 then Mat3.rpy (x 3) (x 4) (x 5) else 1
  sixOfFrame (base * ⟨rot, ⟨x 0, x 1, x 2⟩⟩ * ee)

theorem transform_eq (d : Leap) (s : ℝ) : d.transform s =
    if s = 0 ∧ ∃ i : Fin 6, i.val < 3 ∧ d.fixed i = false then none
    else some { d with data := leapData d.fixed d.initial d.baseLeap d.leapEe s d.data } := rfl

theorem acquire_setup {d a : Leap} {l : List ℝ} (h : d.acquire l = some a) :
    SameSetup d a ∧ a.previousPose = d.previousPose ∧ a.previousTimestamp = d.previousTimestamp := by
  unfold Leap.acquire at h
  split at h
  · rw [← Option.some.inj h]; exact ⟨⟨rfl, rfl, rfl, rfl, rfl⟩, rfl, rfl⟩
  · rw [← Option.some.inj h]; exact ⟨⟨rfl, rfl, rfl, rfl, rfl⟩, rfl, rfl⟩
  · cases h

theorem transform_setup {d a : Leap} {s : ℝ} (h : d.transform s = some a) :
    SameSetup d a ∧ a.previousPose = d.previousPose ∧ a.previousTimestamp = d.previousTimestamp := by
  rw [transform_eq] at h
  split_ifs at h
  rw [← Option.some.inj h]
  exact ⟨⟨rfl, rfl, rfl, rfl, rfl⟩, rfl, rfl⟩

theorem acquire_data (d d' : Leap) (l : List ℝ) :
    (d'.acquire l).map Leap.data = (d.acquire l).map Leap.data := by
  unfold Leap.acquire
  split <;> rfl

theorem poseOf_eq (d : Leap) (s : ℝ) (l : List ℝ) : d.poseOf s l =
    ((d.acquire l).map Leap.data).bind fun x =>
      if s = 0 ∧ ∃ i : Fin 6, i.val < 3 ∧ d.fixed i = false then none
      else some (KdlVectorConverter.vectorToFrame (leapData d.fixed d.initial d.baseLeap d.leapEe s x).toList) := by
  unfold Leap.poseOf
  cases h : d.acquire l with
  | none => rfl
  | some a =>
    obtain ⟨h0, h1, h2, h3, h4⟩ := (acquire_setup h).1
    simp only [Option.bind_some, Option.map_some, transform_eq, h1, h2, h3, h4]
    split_ifs <;> rfl

theorem SameSetup.poseOf {d d' : Leap} (h : SameSetup d d') (s : ℝ) (l : List ℝ) :
    d'.poseOf s l = d.poseOf s l := by
  obtain ⟨h0, h1, h2, h3, h4⟩ := h
  rw [poseOf_eq, poseOf_eq, acquire_data d d', h1, h2, h3, h4]

theorem moves_append (a b : List Ev) : Ev.moves (a ++ b) = Ev.moves a ++ Ev.moves b := by
  induction a with
  | nil => rfl
  | cons x a ih => cases x <;> simp [Ev.moves, ih]

theorem moves_act (g : Grip) : Ev.moves (actEvents g) = [] := by
  unfold actEvents
  split_ifs <;> rfl

theorem SameSetup.trans {a b c : Leap} (h : SameSetup a b) (h' : SameSetup b c) : SameSetup a c :=
  ⟨h'.pose.trans h.pose, h'.fixed.trans h.fixed, h'.initial.trans h.initial, h'.base.trans h.base,
    h'.ee.trans h.ee⟩

theorem transform_grip {d : Leap} {g : Grip} {s : ℝ} :
    ({ d with grip := g } : Leap).transform s = (d.transform s).map fun a => { a with grip := g } := by
  rw [transform_eq, transform_eq]
  split_ifs <;> rfl

theorem smul_inv {k : ℝ} (hk : k ≠ 0) (v : Vec3) :
    k • (⟨1 / k * v.x, 1 / k * v.y, 1 / k * v.z⟩ : Vec3) = v := by
  ext <;> simp <;> field_simp

/-- What one sending does. -/
theorem leap_send {d r : Leap} {t : ℝ} {m : List Cmd} (hv : d.usingPose = false) (ht : d.previousTimestamp ≠ 0)
    (hp : d.previousPose.M.IsRot) (h : d.send t = some (r, m)) :
    r = { d with previousPose := KdlVectorConverter.vectorToFrame d.data.toList, previousTimestamp := t } ∧
    ∃ x : Six, m = [.twist x] ∧
      (t - d.previousTimestamp) • (⟨x 0, x 1, x 2⟩ : Vec3) = r.previousPose.p - d.previousPose.p ∧
      IsTurn d.previousPose.M r.previousPose.M ((t - d.previousTimestamp) • (⟨x 3, x 4, x 5⟩ : Vec3)) := by
  unfold Leap.send at h
  simp only [hv, Bool.false_eq_true, if_false] at h
  rw [if_pos ht] at h
  by_cases hte : t = d.previousTimestamp
  · rw [if_pos hte] at h; cases h
  rw [if_neg hte] at h
  have hk : t - d.previousTimestamp ≠ 0 := sub_ne_zero.2 hte
  obtain ⟨h1, h2⟩ := Prod.mk.inj (Option.some.inj h)
  refine ⟨by rw [← h1, hv], _, h2.symm, ?_, ?_⟩
  · rw [← h1]
    exact smul_inv hk _
  · rw [← h1]
    have := smul_inv hk (frameDiff d.previousPose (KdlVectorConverter.vectorToFrame d.data.toList)).rot
    refine Eq.mpr (congrArg (IsTurn _ _) ?_) (frameDiff_turn hp (vectorToFrame_isRigid _))
    exact this

/-- One cycle. -/
theorem leap_update {c c' : Ctl} {d : Leap} {y : Cycle} {e : List Ev} (hd : c.device = .leap d)
    (hv : d.usingPose = false) (ht : d.previousTimestamp ≠ 0) (hp : d.previousPose.M.IsRot)
    (h : update c y = some (c', e)) :
    ∃ d', c'.device = .leap d' ∧ SameSetup d d' ∧ c'.scaling = c.scaling ∧
      ((Ev.moves e = [] ∧ d'.previousPose = d.previousPose ∧ d'.previousTimestamp = d.previousTimestamp) ∨
       ∃ (x : Six) (s : ℝ), Ev.moves e = [.twist x] ∧ (s = c.scaling ∨ s = c.scaling * 2) ∧
        d.poseOf s y.sensor = some d'.previousPose ∧ d'.previousPose.M.IsRot ∧ d'.previousTimestamp = y.now ∧
        (y.now - d.previousTimestamp) • (⟨x 0, x 1, x 2⟩ : Vec3) = d'.previousPose.p - d.previousPose.p ∧
        IsTurn d.previousPose.M d'.previousPose.M
          ((y.now - d.previousTimestamp) • (⟨x 3, x 4, x 5⟩ : Vec3))) := by
  unfold update at h
  rw [hd] at h
  simp only [Device.acquire] at h
  cases ha : d.acquire y.sensor with
  | none =>
    rw [ha] at h
    obtain ⟨rfl, rfl⟩ := Prod.mk.inj (Option.some.inj h)
    exact ⟨d, hd, ⟨rfl, rfl, rfl, rfl, rfl⟩, rfl, Or.inl ⟨rfl, rfl, rfl⟩⟩
  | some a =>
    rw [ha] at h
    simp only [Option.map_some] at h
    obtain ⟨ha1, ha2, ha3⟩ := acquire_setup ha
    have go : ∀ s : ℝ, (s = c.scaling ∨ s = c.scaling * 2) →
        (match (Device.leap a).actuator.1.transform s with
          | none => none
          | some d' =>
            let r := applyCentroid c.centroid y d'
            (finish { c with device := r.2, centroid := r.1 } y.now).map fun z =>
              (z.1, actEvents (Device.leap a).actuator.2 ++ z.2)) = some (c', e) →
        ∃ d', c'.device = .leap d' ∧ SameSetup d d' ∧ c'.scaling = c.scaling ∧
          ((Ev.moves e = [] ∧ d'.previousPose = d.previousPose ∧ d'.previousTimestamp = d.previousTimestamp) ∨
           ∃ (x : Six) (s : ℝ), Ev.moves e = [.twist x] ∧ (s = c.scaling ∨ s = c.scaling * 2) ∧
            d.poseOf s y.sensor = some d'.previousPose ∧ d'.previousPose.M.IsRot ∧ d'.previousTimestamp = y.now ∧
            (y.now - d.previousTimestamp) • (⟨x 0, x 1, x 2⟩ : Vec3) = d'.previousPose.p - d.previousPose.p ∧
            IsTurn d.previousPose.M d'.previousPose.M
              ((y.now - d.previousTimestamp) • (⟨x 3, x 4, x 5⟩ : Vec3))) := by
      intro s hs hg
      obtain ⟨g, b, hb, hact⟩ : ∃ g : Grip, ∃ b : Grip,
          (Device.leap a).actuator.1 = .leap { a with grip := b } ∧ (Device.leap a).actuator.2 = g := by
        unfold Device.actuator
        dsimp only
        split_ifs
        · exact ⟨.none, a.grip, rfl, rfl⟩
        · exact ⟨_, _, rfl, rfl⟩
      rw [hb, hact] at hg
      simp only [Device.transform, transform_grip] at hg
      cases htr : a.transform s with
      | none => rw [htr] at hg; simp at hg
      | some w =>
        rw [htr] at hg
        simp only [Option.map_some] at hg
        obtain ⟨hw1, hw2, hw3⟩ := transform_setup htr
        have hpo : d.poseOf s y.sensor = some (KdlVectorConverter.vectorToFrame w.data.toList) := by
          unfold Leap.poseOf
          rw [ha]
          simp only [Option.bind_some, htr, Option.map_some]
        have hcen : applyCentroid c.centroid y (.leap { w with grip := b }) =
            (c.centroid, .leap { w with grip := b }) := by
          unfold applyCentroid
          split
          · rename_i h1 h2; cases h2
          · rfl
        rw [hcen] at hg
        dsimp only at hg
        obtain ⟨z, hz, hze⟩ := Option.map_eq_some_iff.1 hg
        obtain ⟨hz1, hz2⟩ := Prod.mk.inj hze
        have hset := ha1.trans hw1
        unfold finish at hz
        dsimp only at hz
        by_cases hval : (Device.leap { w with grip := b }).valid = true
        · rw [if_pos hval] at hz
          simp only [Device.send] at hz
          obtain ⟨r, hr, hrz⟩ := Option.map_eq_some_iff.1 hz
          obtain ⟨q, hq, hqr⟩ := Option.map_eq_some_iff.1 hr
          obtain ⟨q1, q2⟩ := q
          have hgu : ({ w with grip := b } : Leap).usingPose = false := hset.pose.trans hv
          have hgt : ({ w with grip := b } : Leap).previousTimestamp ≠ 0 := by
            show w.previousTimestamp ≠ 0
            rw [hw3, ha3]; exact ht
          have hgp : ({ w with grip := b } : Leap).previousPose.M.IsRot := by
            show w.previousPose.M.IsRot
            rw [hw2, ha2]; exact hp
          obtain ⟨hq1, x, hq2, hx1, hx2⟩ := leap_send hgu hgt hgp hq
          have e1 : ({ w with grip := b } : Leap).previousPose = d.previousPose := hw2.trans ha2
          have e2 : ({ w with grip := b } : Leap).previousTimestamp = d.previousTimestamp := hw3.trans ha3
          rw [e1, e2] at hx1 hx2
          have hpp : q1.previousPose = KdlVectorConverter.vectorToFrame w.data.toList := by rw [hq1]
          refine ⟨q1, ?_, ?_, ?_, Or.inr ⟨x, s, ?_, hs, ?_, ?_, ?_, hx1, hx2⟩⟩
          · rw [← hz1, ← hrz, ← hqr]
          · rw [hq1]; exact ⟨hset.pose, hset.fixed, hset.initial, hset.base, hset.ee⟩
          · rw [← hz1, ← hrz]
          · rw [← hz2, ← hrz, ← hqr, moves_append, moves_act, hq2]; rfl
          · rw [hpo, hpp]
          · rw [hpp]; exact vectorToFrame_isRigid _
          · rw [hq1]
        · rw [if_neg hval] at hz
          have hz' := Option.some.inj hz
          refine ⟨{ w with grip := b }, ?_, ⟨hset.pose, hset.fixed, hset.initial, hset.base, hset.ee⟩, ?_,
            Or.inl ⟨?_, hw2.trans ha2, hw3.trans ha3⟩⟩
          · rw [← hz1, ← hz']
          · rw [← hz1, ← hz']
          · rw [← hz2, ← hz', moves_append, moves_act]
            dsimp only
            split_ifs <;> rfl
    split at h
    · obtain ⟨h1, h2⟩ := Prod.mk.inj (Option.some.inj h)
      refine ⟨a, ?_, ha1, ?_, Or.inl ⟨?_, ha2, ha3⟩⟩
      · rw [← h1]
      · rw [← h1]
      · rw [← h2]; split_ifs <;> rfl
    · exact go _ (Or.inr rfl) h
    · exact go _ (Or.inl rfl) h

theorem Follows.same {d d' : Leap} (h : SameSetup d d') {scaling : ℝ} : ∀ {l : List (Cycle × List Ev)} {p q : Frame}
    {t : ℝ}, Follows d' scaling p t l q → Follows d scaling p t l q
  | [], _, _, _, hf => hf
  | (y, e) :: l, p, q, t, hf => by
    unfold Follows at hf ⊢
    rcases hf with ⟨h1, h2⟩ | ⟨x, g, s, h1, h2, h3, h4, h5, h6⟩
    · exact Or.inl ⟨h1, Follows.same h h2⟩
    · exact Or.inr ⟨x, g, s, h1, h2, (h.poseOf _ _) ▸ h3, h4, h5, Follows.same h h6⟩

/-- C72, Leap in velocity mode: over any history of cycles, with alerts and the gripper, each twist takes the
robot in the time since the last one from the pose that the hand had then to the pose that it has now. -/
theorem C72_leap_velocity {l : List Cycle} (hnow : ∀ y ∈ l, y.now ≠ 0) : ∀ {c c' : Ctl} {d : Leap}
    {es : List (List Ev)}, c.device = .leap d → d.usingPose = false → d.previousTimestamp ≠ 0 →
    d.previousPose.M.IsRot → run c l = some (c', es) →
    ∃ d', c'.device = .leap d' ∧ Follows d c.scaling d.previousPose d.previousTimestamp (l.zip es) d'.previousPose := by
  induction l with
  | nil =>
    intro c c' d es hd _ _ _ h
    obtain ⟨rfl, rfl⟩ := Prod.mk.inj (Option.some.inj h)
    exact ⟨d, hd, rfl⟩
  | cons y l ih =>
    intro c c' d es hd hv ht hp h
    unfold run at h
    cases hu : update c y with
    | none => rw [hu] at h; cases h
    | some r =>
      obtain ⟨c1, e⟩ := r
      rw [hu] at h
      obtain ⟨w, hw, hwe⟩ := Option.map_eq_some_iff.1 h
      obtain ⟨rfl, rfl⟩ := Prod.mk.inj hwe
      obtain ⟨d1, hd1, hs, hsc, hc⟩ := leap_update hd hv ht hp hu
      rcases hc with ⟨h1, h2, h3⟩ | ⟨x, s, h1, h2, h3, h4, h5, h6, h7⟩
      · obtain ⟨d', hd', hf⟩ := ih (fun y hy => hnow y (List.mem_cons_of_mem _ hy)) hd1 (hs.pose.trans hv)
          (h3 ▸ ht) (h2 ▸ hp) (es := w.2) hw
        refine ⟨d', hd', Or.inl ⟨h1, ?_⟩⟩
        rw [h2, h3, hsc] at hf
        exact hf.same hs
      · obtain ⟨d', hd', hf⟩ := ih (fun y hy => hnow y (List.mem_cons_of_mem _ hy)) hd1 (hs.pose.trans hv)
          (h5 ▸ hnow y List.mem_cons_self) h4 (es := w.2) hw
        refine ⟨d', hd', Or.inr ⟨x, d1.previousPose, s, h1, h2, h3, h6, h7, ?_⟩⟩
        rw [h5, hsc] at hf
        exact hf.same hs

/-- The way made by the velocities commanded, each held until the next one. -/
noncomputable def travel : ℝ → List (Cycle × List Ev) → Vec3
  | _, [] => 0
  | t, (y, e) :: l => match Ev.moves e with
    | [.twist x] => (y.now - t) • (⟨x 0, x 1, x 2⟩ : Vec3) + travel y.now l
    | _ => travel t l

/-- C72: the way made by the robot is the one between the first and the last pose of the hand. -/
theorem C72_leap_travel {l : List Cycle} (hnow : ∀ y ∈ l, y.now ≠ 0) {c c' : Ctl} {d : Leap}
    {es : List (List Ev)} (hd : c.device = .leap d) (hv : d.usingPose = false) (ht : d.previousTimestamp ≠ 0)
    (hp : d.previousPose.M.IsRot) (h : run c l = some (c', es)) :
    ∃ d', c'.device = .leap d' ∧ travel d.previousTimestamp (l.zip es) = d'.previousPose.p - d.previousPose.p := by
  obtain ⟨d', hd', hf⟩ := C72_leap_velocity hnow hd hv ht hp h
  refine ⟨d', hd', ?_⟩
  have key : ∀ (l : List (Cycle × List Ev)) (p q : Frame) (t : ℝ), Follows d c.scaling p t l q →
      travel t l = q.p - p.p := by
    intro l
    induction l with
    | nil =>
      rintro p q t rfl
      show (0 : Vec3) = _
      ext <;> simp
    | cons a l ih =>
      obtain ⟨y, e⟩ := a
      rintro p q t (⟨h1, h2⟩ | ⟨x, g, s, h1, -, -, h4, -, h6⟩)
      · unfold travel
        rw [h1]
        exact ih _ _ _ h2
      · unfold travel
        rw [h1]
        show _ + travel y.now l = _
        rw [h4, ih _ _ _ h6]
        ext <;> simp
  exact key _ _ _ _ hf

/-- A Leap in velocity mode. -/
noncomputable def velDemo (x : Six) (p : Frame) (t : ℝ) (b : Bool) : Ctl :=
  { device := .leap ⟨false, fun _ => false, x, .none, fun _ => 0, 1, 1, p, t, false, false, false⟩
    scaling := 10, isStopped := b }

theorem velDemo_update (x : Six) (p : Frame) (t : ℝ) (b : Bool) (k : ℝ) (y : Cycle) (hk : k ≠ 0) (ht : t ≠ 0)
    (hne : y.now ≠ t) (hy : y.sensor = [k, 0, 0, 0, 0, 0]) : ∃ z p', ∃ tw : Six,
      update (velDemo x p t b) y = some (velDemo z p' y.now false, [.move [.twist tw]]) := by
  have h1 : Mat3.rpy 0 0 0 = 1 := by simp [Mat3.rpy, Mat3.rotX, Mat3.rotY, Mat3.rotZ]; ext <;> simp
  have h2 := sixOfFrame_shift (k * (1 / 1000) / 10)
  have ha : (velDemo x p t b).device.acquire y.sensor =
      some (velDemo ![k * (1 / 1000), 0, 0, 0, 0, 0] p t b).device := by
    rw [hy]; simp [velDemo, Device.acquire, Leap.acquire]
  have htr : Leap.transform ⟨false, fun _ => false, ![k * (1 / 1000), 0, 0, 0, 0, 0], .none, fun _ => 0, 1, 1, p, t,
      false, false, false⟩ 10 = some ⟨false, fun _ => false, ![k * (1 / 1000) / 10, 0, 0, 0, 0, 0], .none,
        fun _ => 0, 1, 1, p, t, false, false, false⟩ := by
    simp at h2
    simp [Leap.transform, h1, h2]
  have hv : baseValid .none ![k * (1 / 1000) / 10, 0, 0, 0, 0, 0] = true := by
    simp only [baseValid, ne_eq, not_true, if_false, decide_eq_true_eq]
    exact ⟨0, by simpa using hk⟩
  have hal : alert (velDemo x p t b).proximity y.proximity = .clear := by
    unfold alert
    simp [velDemo]
  rw [update_clear ha hal]
  let q := KdlVectorConverter.vectorToFrame (Six.toList ![k * (1 / 1000) / 10, 0, 0, 0, 0, 0])
  let w := frameDiff p q
  let r := 1 / (y.now - t)
  refine ⟨![k * (1 / 1000) / 10, 0, 0, 0, 0, 0], q,
    ![r * w.vel.x, r * w.vel.y, r * w.vel.z, r * w.rot.x, r * w.rot.y, r * w.rot.z], ?_⟩
  simp only [proceed, velDemo, Device.actuator, Device.transform, htr, Option.map_some,
    applyCentroid, Bool.not_false, if_true, finish, Device.valid, hv, Device.send, Leap.send, actEvents]
  simp only [Bool.false_eq_true, if_false, ne_eq, ht, not_false_eq_true, if_true, hne, Option.map_some]
  rfl

/-- The hand moves by a metre in one second and by two more in two seconds: the hypotheses of the theorem hold
and twists are sent. -/
example : ∃ c' e1 e2, run (velDemo (fun _ => 0) 1 1 true)
      [{ sensor := [1000, 0, 0, 0, 0, 0], now := 2 }, { sensor := [3000, 0, 0, 0, 0, 0], now := 4 }] =
        some (c', [[.move [.twist e1]], [.move [.twist e2]]]) ∧ (1 : Frame).M.IsRot := by
  obtain ⟨z, p, e1, h1⟩ := velDemo_update (fun _ => 0) 1 1 true 1000 { sensor := [1000, 0, 0, 0, 0, 0], now := 2 }
    (by norm_num) (by norm_num) (by norm_num) rfl
  obtain ⟨z', p', e2, h2⟩ := velDemo_update z p 2 false 3000 { sensor := [3000, 0, 0, 0, 0, 0], now := 4 }
    (by norm_num) (by norm_num) (by norm_num) rfl
  refine ⟨velDemo z' p' 4 false, e1, e2, ?_, Mat3.IsRot.one⟩
  simp only [run]
  rw [h1]
  simp only
  rw [h2]
  rfl

/-- The first reading in velocity mode moves nothing and is the reference of the next one. -/
theorem C72_leap_first {d r : Leap} {t : ℝ} {m : List Cmd} (hv : d.usingPose = false) (h0 : d.previousTimestamp = 0)
    (h : d.send t = some (r, m)) :
    m = [] ∧ r.previousTimestamp = t ∧ r.previousPose = KdlVectorConverter.vectorToFrame d.data.toList := by
  unfold Leap.send at h
  simp only [hv, Bool.false_eq_true, if_false, h0, ne_eq, not_true] at h
  obtain ⟨h1, h2⟩ := Prod.mk.inj (Option.some.inj h)
  rw [← h1]
  exact ⟨h2.symm, rfl, rfl⟩

/-! ## Wiimote -/

/-- The six coordinates commanded with the Wiimote inclined by `u` and `v`: `z` along the tool axis. -/
noncomputable def wiiCommand (pose yaw : Bool) (u v s z : ℝ) : Cmd :=
  let x : Six := if yaw then ![0, 0, z, 0, -v / s, u / s] else ![0, 0, z, u / s, -v / s, 0]
  if pose then .pose x else .twist x

/-- C72, Wiimote: the first button advances by the step, the second one goes back by it, both only turn, and
without buttons nothing moves; the inclinations, divided by the scaling factor, turn around x (or around z, with
the third button) and around y. With a near obstacle nothing is commanded, see C61. -/
theorem C72_wiimote {c c' : Ctl} {d : Wiimote} {y : Cycle} {e : List Ev} {u v a b w : ℝ} (hd : c.device = .wiimote d)
    (hy : y.sensor = [u, v, a, b, w]) (hal : alert c.proximity y.proximity ≠ .high)
    (h : update c y = some (c', e)) :
    ∃ s, (s = c.scaling ∨ s = c.scaling * 2) ∧
      (a = 1 → b ≠ 1 → e = [.move [wiiCommand d.usingPose (decide (w = 1)) u v s d.step]]) ∧
      (a ≠ 1 → b = 1 → e = [.move [wiiCommand d.usingPose (decide (w = 1)) u v s (-d.step)]]) ∧
      (a = 1 → b = 1 → e = [.move [wiiCommand d.usingPose (decide (w = 1)) u v s 0]]) ∧
      (a ≠ 1 → b ≠ 1 → e = if c.isStopped then [] else [.stop d.stop]) := by
  have ha : c.device.acquire y.sensor = some (.wiimote { d with buffer := ![u, v, a, b, w] }) := by
    rw [hd, hy]; rfl
  have go : ∀ s, proceed c y (.wiimote { d with buffer := ![u, v, a, b, w] }) s = some (c', e) →
      (a = 1 → b ≠ 1 → e = [.move [wiiCommand d.usingPose (decide (w = 1)) u v s d.step]]) ∧
      (a ≠ 1 → b = 1 → e = [.move [wiiCommand d.usingPose (decide (w = 1)) u v s (-d.step)]]) ∧
      (a = 1 → b = 1 → e = [.move [wiiCommand d.usingPose (decide (w = 1)) u v s 0]]) ∧
      (a ≠ 1 → b ≠ 1 → e = if c.isStopped then [] else [.stop d.stop]) := by
    intro s hg
    have hcen : ∀ q, applyCentroid c.centroid y (.wiimote q) = (c.centroid, .wiimote q) := by
      intro q
      unfold applyCentroid
      split
      · rename_i h1 h2; cases h2
      · rfl
    by_cases h1 : a = 1 <;> by_cases h2 : b = 1 <;> by_cases hs : s = 0 <;> by_cases hw : w = 1 <;>
      cases hp : d.usingPose <;> cases hst : c.isStopped <;>
      simp [proceed, Device.actuator, Device.transform, Wiimote.transform, h1, h2, hs, hw, hcen, finish,
        Device.valid, Device.send, Device.stop, Wiimote.stop, Wiimote.send, actEvents, hp, hst, wiiCommand] at hg ⊢ <;>
      first
        | exact hg.2.symm
        | exact hg.2
  cases hA : alert c.proximity y.proximity with
  | high => exact absurd hA hal
  | low =>
    rw [update_low ha hA] at h
    exact ⟨_, Or.inr rfl, go _ h⟩
  | clear =>
    rw [update_clear ha hA] at h
    exact ⟨_, Or.inl rfl, go _ h⟩

/-- Both buttons pressed, with an inclination of a tenth around each axis: only turns. -/
example : ∃ c', update { device := .wiimote ⟨false, 1 / 100, fun _ => false, .none, fun _ => 0, fun _ => 0⟩, scaling := 10 }
    { sensor := [1 / 10, 1 / 10, 1, 1, 0] } =
      some (c', [.move [wiiCommand false false (1 / 10) (1 / 10) 10 0]]) := by
  rw [update_clear (d := .wiimote ⟨false, 1 / 100, fun _ => false, .none, fun _ => 0, ![1 / 10, 1 / 10, 1, 1, 0]⟩) rfl rfl]
  simp [proceed, Device.actuator, Device.transform, Wiimote.transform, applyCentroid, finish,
    Device.valid, Device.send, Wiimote.send, actEvents, wiiCommand]

/-- **C72 with a step that is not positive.** In velocity mode any step is accepted; with a negative one the
button to advance goes back. -/
theorem C72_wiimote_negative_step : ∃ d, Wiimote.init false (-1) none = some d ∧
    ∃ c', update { device := .wiimote d, scaling := 1 } { sensor := [0, 0, 1, 0, 0] } =
      some (c', [.move [.twist ![0, 0, -1, 0, 0, 0]]]) := by
  refine ⟨⟨false, -1, configureFixedAxes none, .none, fun _ => 0, fun _ => 0⟩, rfl, ?_⟩
  rw [update_clear (d := .wiimote ⟨false, -1, configureFixedAxes none, .none, fun _ => 0, ![0, 0, 1, 0, 0]⟩) rfl rfl]
  simp [proceed, Device.actuator, Device.transform, Wiimote.transform, applyCentroid, finish,
    Device.valid, Device.send, Wiimote.send, actEvents]

end KD.Sdc
