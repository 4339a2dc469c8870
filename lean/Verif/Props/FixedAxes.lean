import Verif.Props.Proximity

/-!
# C60: fixed axes of the streaming devices
-/

namespace KD.Sdc

open scoped Classical

/-- The labels of the six axes. -/
def axisLabel : Fin 6 → String := ![ "x", "y", "z", "rotx", "roty", "rotz" ]

theorem fold_fixed (l : List String) : ∀ (f : Fin 6 → Bool) (i : Fin 6), l.foldl (fun f s =>
      if s = "x" then Function.update f 0 true
      else if s = "y" then Function.update f 1 true
      else if s = "z" then Function.update f 2 true
      else if s = "rotx" then Function.update f 3 true
      else if s = "roty" then Function.update f 4 true
      else if s = "rotz" then Function.update f 5 true
      else f) f i = true ↔ f i = true ∨ axisLabel i ∈ l := by
  induction l with
  | nil => intro f i; simp
  | cons s l ih =>
    intro f i
    rw [List.foldl_cons, ih, List.mem_cons]
    have key : ((if s = "x" then Function.update f 0 true
      else if s = "y" then Function.update f 1 true
      else if s = "z" then Function.update f 2 true
      else if s = "rotx" then Function.update f 3 true
      else if s = "roty" then Function.update f 4 true
      else if s = "rotz" then Function.update f 5 true
      else f) i = true) ↔ (f i = true ∨ axisLabel i = s) := by
      split_ifs with h0 h1 h2 h3 h4 h5
      · subst h0; fin_cases i <;> simp [axisLabel, Function.update]
      · subst h1; fin_cases i <;> simp [axisLabel, Function.update]
      · subst h2; fin_cases i <;> simp [axisLabel, Function.update]
      · subst h3; fin_cases i <;> simp [axisLabel, Function.update]
      · subst h4; fin_cases i <;> simp [axisLabel, Function.update]
      · subst h5; fin_cases i <;> simp [axisLabel, Function.update]
      · have : axisLabel i ≠ s := by
          intro h
          fin_cases i <;> simp [axisLabel] at h <;> subst h <;> contradiction
        simp [this]
    rw [key, or_assoc]

/-- **C60.** Exactly the axes whose label is in the configured list are fixed, in any order and with any
unknown labels in between. -/
theorem C60_labels (l : List String) (i : Fin 6) :
    (configureFixedAxes (some l) i = true ↔ axisLabel i ∈ l) ∧ configureFixedAxes none i = false := by
  refine ⟨?_, rfl⟩
  rw [show configureFixedAxes (some l) i = l.foldl _ (fun _ => false) i from rfl, fold_fixed]
  simp

example : axisLabel 1 ∈ ["rotz", "y", "w"] ∧ axisLabel 0 ∉ ["rotz", "y", "w"] := by
  constructor <;> simp [axisLabel]

/-- What a reading says about an axis. -/
noncomputable def Cycle.axis (y : Cycle) (i : Fin 6) : ℝ := y.sensor.getD i.val 0

theorem Spnav.acquire_eq {d a : Spnav} {y : Cycle} (h : d.acquire y.sensor = some a) :
    a.usingPose = d.usingPose ∧ a.gain = d.gain ∧ a.fixed = d.fixed ∧ a.currentX = d.currentX ∧
    ∀ i, a.data i = y.axis i := by
  unfold Spnav.acquire at h
  split at h
  · rename_i hs
    cases h
    refine ⟨rfl, rfl, rfl, rfl, ?_⟩
    intro i
    fin_cases i <;> simp [Cycle.axis, hs]
  · rename_i hs
    cases h
    refine ⟨rfl, rfl, rfl, rfl, ?_⟩
    intro i
    fin_cases i <;> simp [Cycle.axis, hs]
  · cases h

/-- One cycle with the SpaceNavigator, without the centroid transform. -/
theorem spnav_step {c c' : Ctl} {y : Cycle} {e : List Ev} {d : Spnav} (hd : c.device = .spnav d)
    (hc : c.centroid = none) (h : update c y = some (c', e)) :
    c'.centroid = none ∧ c'.scaling = c.scaling ∧
    ((∃ d', c'.device = .spnav d' ∧ d'.usingPose = d.usingPose ∧ d'.gain = d.gain ∧ d'.fixed = d.fixed ∧
      d'.currentX = d.currentX ∧ ∀ m, Ev.move m ∉ e) ∨
     (∃ d' a x s m e', (s = c.scaling ∨ s = c.scaling * 2) ∧ a.usingPose = d.usingPose ∧ a.gain = d.gain ∧
      a.fixed = d.fixed ∧ a.currentX = d.currentX ∧ (∀ i, a.data i = y.axis i) ∧
      Spnav.transform a s = some x ∧ x.send = (d', m) ∧ c'.device = .spnav d' ∧ e = e' ++ [.move m] ∧
      ∀ m, Ev.move m ∉ e')) := by
  rcases update_cases h with ⟨-, rfl, rfl⟩ | ⟨a, ha, ⟨-, rfl, rfl⟩ | ⟨-, s, hs, hp⟩⟩
  · exact ⟨hc, rfl, Or.inl ⟨d, hd, rfl, rfl, rfl, rfl, by simp⟩⟩
  · rw [hd] at ha
    obtain ⟨a', ha', rfl⟩ := Option.map_eq_some_iff.1 ha
    obtain ⟨k1, k2, k3, k4, -⟩ := Spnav.acquire_eq ha'
    refine ⟨hc, rfl, Or.inl ⟨a', rfl, k1, k2, k3, k4, ?_⟩⟩
    intro m
    cases c.isStopped <;> simp
  · rw [hd] at ha
    obtain ⟨a', ha', rfl⟩ := Option.map_eq_some_iff.1 ha
    obtain ⟨k1, k2, k3, k4, k5⟩ := Spnav.acquire_eq ha'
    obtain ⟨d', e', h1, h2, rfl⟩ := proceed_cases hp
    obtain ⟨x, hx, rfl⟩ := Option.map_eq_some_iff.1 h1
    have hac : ∀ m, Ev.move m ∉ actEvents (Device.actuator (.spnav a')).2 := by
      intro m; unfold actEvents; split_ifs <;> simp
    have happ : applyCentroid c.centroid y (.spnav x) = (none, .spnav x) := by rw [hc]; rfl
    rw [happ] at h2
    rcases finish_cases h2 with ⟨-, d'', m, hsend, rfl, rfl⟩ | ⟨-, rfl, rfl⟩
    · refine ⟨rfl, rfl, Or.inr ⟨x.send.1,
        { a' with grip := nextGrip a'.buttonClose a'.buttonOpen a'.grip }, x, s, x.send.2, _, hs, k1, k2, k3, k4,
        k5, hx, rfl, ?_, ?_, hac⟩⟩
      · simp only [Device.send, Option.some.injEq, Prod.mk.injEq] at hsend
        exact hsend.1.symm
      · simp only [Device.send, Option.some.injEq, Prod.mk.injEq] at hsend
        rw [hsend.2]
    · refine ⟨rfl, rfl, Or.inl ⟨x, rfl, ?_⟩⟩
      have hx' := Spnav.transform_eq hx
      rw [hx']
      refine ⟨k1, k2, k3, k4, ?_⟩
      intro m hm
      rcases List.mem_append.1 hm with hm | hm
      · exact hac m hm
      · cases c.isStopped <;> simp at hm

/-- **C60, velocities.** The SpaceNavigator is started with a list of fixed axes and commands velocities.
Over every history, each motion command is one velocity that is zero along the fixed axes and the
reading of that cycle divided by the scaling factor along all others; the factor is the configured one,
or its double during a low alert. Partial: without the centroid transform, and for this device; see
`C60_centroid_wrong`, `C60_leap_partial` and `C60_wiimote_wrong`. -/
theorem C60_velocity_partial {c c' : Ctl} {d : Spnav} {axes : List String} {stat : Option Six} {gain : ℝ}
    {l : List Cycle} {es : List (List Ev)}
    (hi : Spnav.init false gain (some axes) stat = some d) (hd : c.device = .spnav d)
    (hc : c.centroid = none) (h : run c l = some (c', es)) :
    List.Forall₂ (fun y e => ∀ m, Ev.move m ∈ e → ∃ x s, m = [.twist x] ∧
      (s = c.scaling ∨ s = c.scaling * 2) ∧
      ∀ i, x i = if axisLabel i ∈ axes then 0 else y.axis i / s) l es := by
  have hpose : d.usingPose = false := by
    simp only [Spnav.init, Bool.false_and, Bool.false_eq_true, if_false, Option.some.injEq] at hi
    rw [← hi]
  have hfix : ∀ i, d.fixed i = true ↔ axisLabel i ∈ axes := by
    simp only [Spnav.init, Bool.false_and, Bool.false_eq_true, if_false, Option.some.injEq] at hi
    rw [← hi]
    exact fun i => (C60_labels axes i).1
  clear hi
  generalize hsc : c.scaling = sc
  induction l generalizing c d es with
  | nil => cases h; exact List.Forall₂.nil
  | cons y l ih =>
    obtain ⟨c1, e, es', h1, h2, rfl⟩ := run_cons h
    obtain ⟨g1, g2, g3⟩ := spnav_step hd hc h1
    rcases g3 with ⟨d', k1, k2, k3, k4, k5, k6⟩ | ⟨d', a, x, s, m, e', k1, k2, k3, k4, k5, k6, k7, k8, k9, rfl, k10⟩
    · exact List.Forall₂.cons (fun m hm => absurd hm (k6 m))
        (ih k1 g1 h2 (k2.trans hpose) (k4 ▸ hfix) (g2.trans hsc))
    · have hap : a.usingPose = false := k2.trans hpose
      have hxp := Spnav.transform_eq k7
      have hxpose : x.usingPose = false := by rw [hxp]; exact hap
      unfold Spnav.send at k8
      rw [hxpose, if_neg (by simp)] at k8
      simp only [Prod.mk.injEq] at k8
      obtain ⟨rfl, rfl⟩ := k8
      refine List.Forall₂.cons ?_ (ih k9 g1 h2 hxpose ?_ (g2.trans hsc))
      · intro m hm
        rcases List.mem_append.1 hm with hm | hm
        · exact absurd hm (k10 m)
        · simp only [List.mem_singleton, Ev.move.injEq] at hm
          refine ⟨x.data, s, hm, hsc ▸ k1, ?_⟩
          intro i
          unfold Spnav.transform baseTransform at k7
          rw [hap, if_neg (by simp)] at k7
          split_ifs at k7 with hs0
          · simp at k7
          · simp only [Option.map_some, Option.some.injEq] at k7
            rw [← k7]
            simp only [k4, k6]
            by_cases hf : d.fixed i = true
            · rw [hf, if_pos ((hfix i).1 hf)]; rfl
            · rw [if_neg fun hh => hf ((hfix i).2 hh)]
              simp [hf]
      · rw [hxp]
        show ∀ i, a.fixed i = true ↔ _
        rw [k4]; exact hfix

/-- The last pose commanded during a cycle, or the one before. -/
noncomputable def lastPose (p : Six) (e : List Ev) : Six :=
  e.foldl (fun p ev => match ev with
    | .move [.pose x] => x
    | _ => p) p

theorem lastPose_no_move {e : List Ev} (h : ∀ m, Ev.move m ∉ e) (p : Six) : lastPose p e = p := by
  induction e with
  | nil => rfl
  | cons a e ih =>
    have ha : ∀ m, a ≠ .move m := fun m hm => h m (by rw [hm]; exact List.mem_cons_self)
    have ih' := ih fun m hm => h m (List.mem_cons_of_mem _ hm)
    cases a with
    | move m => exact absurd rfl (ha m)
    | act g => exact ih'
    | stop m => exact ih'

/-- Specification: the poses commanded cycle by cycle, each a step from the one before. `p` is the pose
commanded last. -/
def PoseSteps (axes : List String) (gain scaling : ℝ) : Six → List Cycle → List (List Ev) → Prop
  | _, [], [] => True
  | p, y :: l, e :: es =>
    (∀ m, Ev.move m ∈ e → ∃ x s, m = [.pose x] ∧ (s = scaling ∨ s = scaling * 2) ∧
      ∀ i, x i = if axisLabel i ∈ axes then p i else p i + gain * y.axis i / s) ∧
    PoseSteps axes gain scaling (lastPose p e) l es
  | _, _, _ => False

/-- **C60, poses.** The SpaceNavigator is started with a list of fixed axes and commands poses. Over every
history, each motion command is one pose: along the fixed axes it equals the pose commanded before, along
all others it is that pose plus the gain times the reading divided by the scaling factor. The first pose
counts from where the robot was at the start. Partial as `C60_velocity_partial`. -/
theorem C60_pose_partial {c c' : Ctl} {d : Spnav} {axes : List String} {x0 : Six} {gain : ℝ}
    {l : List Cycle} {es : List (List Ev)}
    (hi : Spnav.init true gain (some axes) (some x0) = some d) (hd : c.device = .spnav d)
    (hc : c.centroid = none) (h : run c l = some (c', es)) :
    PoseSteps axes gain c.scaling x0 l es := by
  have hpose : d.usingPose = true ∧ d.gain = gain ∧ d.currentX = x0 ∧
      ∀ i, d.fixed i = true ↔ axisLabel i ∈ axes := by
    unfold Spnav.init at hi
    split_ifs at hi with _ hh
    · cases hi
      exact ⟨rfl, rfl, rfl, fun i => (C60_labels axes i).1⟩
    · exact absurd rfl hh
  clear hi
  obtain ⟨hpose, hgain, hx0, hfix⟩ := hpose
  generalize hsc : c.scaling = sc
  induction l generalizing c d es x0 with
  | nil => cases h; trivial
  | cons y l ih =>
    obtain ⟨c1, e, es', h1, h2, rfl⟩ := run_cons h
    obtain ⟨g1, g2, g3⟩ := spnav_step hd hc h1
    rcases g3 with ⟨d', k1, k2, k3, k4, k5, k6⟩ | ⟨d', a, x, s, m, e', k1, k2, k3, k4, k5, k6, k7, k8, k9, rfl, k10⟩
    · refine ⟨fun m hm => absurd hm (k6 m), ?_⟩
      rw [lastPose_no_move k6]
      exact ih k1 g1 h2 (k2.trans hpose) (k3.trans hgain) (k5.trans hx0) (k4 ▸ hfix) (g2.trans hsc)
    · have hap : a.usingPose = true := k2.trans hpose
      have hxp := Spnav.transform_eq k7
      have hxpose : x.usingPose = true := by rw [hxp]; exact hap
      unfold Spnav.send at k8
      rw [hxpose, if_pos rfl] at k8
      simp only [Prod.mk.injEq] at k8
      obtain ⟨rfl, rfl⟩ := k8
      have hlast : lastPose x0 (e' ++ [.move [.pose x.data]]) = x.data := by
        simp [lastPose]
      refine ⟨?_, ?_⟩
      · intro m hm
        rcases List.mem_append.1 hm with hm | hm
        · exact absurd hm (k10 m)
        · simp only [List.mem_singleton, Ev.move.injEq] at hm
          refine ⟨x.data, s, hm, hsc ▸ k1, ?_⟩
          intro i
          unfold Spnav.transform at k7
          rw [hap, if_pos rfl] at k7
          split_ifs at k7 with hs0
          simp only [Option.some.injEq] at k7
          rw [← k7]
          simp only [k4, k6, k5, k3, hgain, hx0]
          by_cases hf : d.fixed i = true
          · rw [hf, if_pos ((hfix i).1 hf)]; rfl
          · rw [if_neg fun hh => hf ((hfix i).2 hh)]
            simp only [hf]
            simp; ring
      · rw [hlast]
        refine ih k9 g1 h2 rfl ?_ rfl ?_ (g2.trans hsc)
        · rw [hxp]; exact k3.trans hgain
        · rw [hxp]
          show ∀ i, a.fixed i = true ↔ _
          rw [k4]; exact hfix

/-- **C60.** So a fixed axis keeps for ever the value the robot had at the start. -/
theorem C60_fixed_for_ever_partial {axes : List String} {gain sc : ℝ} {i : Fin 6} (hi : axisLabel i ∈ axes) :
    ∀ {l : List Cycle} {p : Six} {es : List (List Ev)}, PoseSteps axes gain sc p l es →
    ∀ e ∈ es, ∀ m, Ev.move m ∈ e → ∃ x, m = [.pose x] ∧ x i = p i := by
  intro l
  induction l with
  | nil =>
    intro p es h e he
    cases es with
    | nil => simp at he
    | cons => exact h.elim
  | cons y l ih =>
    intro p es h e he m hm
    cases es with
    | nil => exact h.elim
    | cons f es =>
      obtain ⟨h1, h2⟩ := h
      have hlast : lastPose p f i = p i := by
        have : ∀ (f : List Ev) (q : Six), q i = p i →
            (∀ m, Ev.move m ∈ f → ∃ x, m = [.pose x] ∧ x i = p i) → lastPose q f i = p i := by
          intro f
          induction f with
          | nil => intro q hq _; exact hq
          | cons a f ihf =>
            intro q hq hf
            refine ihf _ ?_ fun m hm => hf m (List.mem_cons_of_mem _ hm)
            cases a with
            | move m =>
              obtain ⟨x, rfl, hx⟩ := hf m List.mem_cons_self
              exact hx
            | act g => exact hq
            | stop m => exact hq
        refine this f p rfl fun m hm => ?_
        obtain ⟨x, s, rfl, -, hx⟩ := h1 m hm
        exact ⟨x, rfl, by rw [hx i, if_pos hi]⟩
      rcases List.mem_cons.1 he with rfl | he
      · obtain ⟨x, s, rfl, -, hx⟩ := h1 m hm
        exact ⟨x, rfl, by rw [hx i, if_pos hi]⟩
      · obtain ⟨x, rfl, hx⟩ := ih h2 e he m hm
        exact ⟨x, rfl, hx.trans hlast⟩

/-- A SpaceNavigator with the axes y and rotz fixed, and a reading that would move all of them. -/
noncomputable def axesDemo (pose : Bool) : Spnav :=
  ⟨pose, 1, configureFixedAxes (some ["y", "rotz"]), fun _ => 0, .none, fun _ => 0, false, false⟩

/-- The hypotheses of `C60_velocity_partial` and `C60_pose_partial` are met over three cycles, the
second of them near something. -/
example : ∀ pose, Spnav.init pose 1 (some ["y", "rotz"]) (some fun _ => 0) = some (axesDemo pose) ∧
    ∃ c' es, run { device := .spnav (axesDemo pose), scaling := 10, proximity := some (800, 100, false) }
      [{ sensor := [1, 2, 3, 4, 5, 6] }, { sensor := [1, 2, 3, 4, 5, 6], proximity := some [200] },
       { sensor := [1, 2, 3, 4, 5, 6] }] = some (c', es) := by
  intro pose
  refine ⟨?_, spnav_run_defined _ _ _ rfl (by norm_num)⟩
  cases pose <;> simp [Spnav.init, axesDemo]

/-! ## Leap Motion -/

theorem Mat3.rot_isRot (a : Vec3) (θ : ℝ) : (Mat3.rot a θ).IsRot := by
  unfold Mat3.rot
  refine Mat3.rot2_isRot ?_ θ
  unfold Vec3.normalize
  split_ifs with h
  · simp [Vec3.dot]
  · refine Mat3.dir_unit ?_
    intro h0
    rw [h0] at h
    exact h (by norm_num [eps])

theorem vectorToFrame_isRigid (x : List ℝ) : (KdlVectorConverter.vectorToFrame x).M.IsRot := by
  unfold KdlVectorConverter.vectorToFrame
  split
  · exact Mat3.rot_isRot _ _
  · exact Mat3.IsRot.one

theorem leap_out {V ee : Frame} (hV : V.M.IsRot) (he : ee.M.IsRot) (hp : ee.p = 0) (R : Mat3) (v : Vec3) :
    (V * ee).M.transpose.mulVec (⟨sixOfFrame ((V * ee) * ⟨R, v⟩ * ee.inv) 0,
      sixOfFrame ((V * ee) * ⟨R, v⟩ * ee.inv) 1, sixOfFrame ((V * ee) * ⟨R, v⟩ * ee.inv) 2⟩ - (V * ee).p) = v ∧
    (R = 1 → (⟨sixOfFrame ((V * ee) * ⟨R, v⟩ * ee.inv) 3, sixOfFrame ((V * ee) * ⟨R, v⟩ * ee.inv) 4,
      sixOfFrame ((V * ee) * ⟨R, v⟩ * ee.inv) 5⟩ : Vec3) = V.M.getRot) := by
  constructor
  · show (V * ee).M.transpose.mulVec (((V * ee) * ⟨R, v⟩ * ee.inv).p - (V * ee).p) = v
    have h1 : ((V * ee) * ⟨R, v⟩ * ee.inv).p = (V * ee).M.mulVec v + (V * ee).p := by
      have : ee.inv.p = 0 := by
        show -(ee.M.transpose.mulVec ee.p) = 0
        rw [hp]; ext <;> simp
      show ((V * ee) * ⟨R, v⟩).M.mulVec ee.inv.p + _ = _
      rw [this]
      ext <;> simp
    rw [h1]
    have h2 : (V * ee).M.mulVec v + (V * ee).p - (V * ee).p = (V * ee).M.mulVec v := by
      ext <;> simp
    rw [h2]
    exact (hV.mul he).transpose_mulVec v
  · rintro rfl
    show ((V * ee) * ⟨1, v⟩ * ee.inv).M.getRot = _
    congr 1
    show V.M * ee.M * 1 * ee.M.transpose = V.M
    rw [mul_one, mul_assoc, he.right, mul_one]

/-- **C60, Leap.** The Leap is started with a list of fixed axes. Whatever the reading, the position sent,
seen from the frame the Leap had at the start, is zero along the fixed axes, and the way of the hand
since the start divided by the scaling factor along the others. If one of the rotations is fixed, the
orientation stays the one of the start. Partial: the axes are those of the Leap and not those of the
base, rotations are not scaled, and fixing one of them fixes all; see `C60_leap_rotation_wrong`. -/
theorem C60_leap_partial {d a d' : Leap} {axes : List String} {rpy : Option (ℝ × ℝ × ℝ)} {x0 : Six}
    {first : List ℝ} {pose : Bool} {y : Cycle} {s : ℝ}
    (hi : Leap.init pose (some axes) rpy (some x0) first = some d) (ha : d.acquire y.sensor = some a)
    (ht : a.transform s = some d') :
    let f0 := KdlVectorConverter.vectorToFrame x0.toList * leapFrame rpy
    let seen := f0.M.transpose.mulVec (⟨d'.data 0, d'.data 1, d'.data 2⟩ - f0.p)
    (∀ i : Fin 6, i.val < 3 →
      ![seen.x, seen.y, seen.z, 0, 0, 0] i =
        if axisLabel i ∈ axes then 0 else (y.axis i - first.getD i.val 0) / 1000 / s) ∧
    ((∃ i : Fin 6, 3 ≤ i.val ∧ axisLabel i ∈ axes) →
      (⟨d'.data 3, d'.data 4, d'.data 5⟩ : Vec3) =
        (KdlVectorConverter.vectorToFrame x0.toList).M.getRot) := by
  have hax : ∀ i, configureFixedAxes (some axes) i = true ↔ axisLabel i ∈ axes := fun i => (C60_labels axes i).1
  intro f0 seen
  obtain ⟨hee2, hee3⟩ : (leapFrame rpy).M.IsRot ∧ (leapFrame rpy).p = 0 := by
    match rpy with
    | none => exact ⟨Mat3.IsRot.one, rfl⟩
    | some (r, p, w) => exact ⟨Mat3.rpy_isRot _ _ _, rfl⟩
  have hfR : f0.M.IsRot := (vectorToFrame_isRigid _).mul hee2
  have hd : d.fixed = configureFixedAxes (some axes) ∧ d.baseLeap = f0 ∧ d.leapEe = (leapFrame rpy).inv ∧
      (∀ i : Fin 6, i.val < 3 → d.initial i = first.getD i.val 0 / 1000) := by
    unfold Leap.init at hi
    simp only at hi
    obtain ⟨b, hb, rfl⟩ := Option.map_eq_some_iff.1 hi
    unfold Leap.acquire at hb
    split at hb
    · cases hb
      refine ⟨rfl, rfl, rfl, ?_⟩
      intro i h3
      fin_cases i <;> simp at h3 ⊢ <;> ring
    · cases hb
      refine ⟨rfl, rfl, rfl, ?_⟩
      intro i h3
      fin_cases i <;> simp at h3 ⊢ <;> ring
    · cases hb
  obtain ⟨hd1, hd2, hd3, hd4⟩ := hd
  have hA : a.fixed = d.fixed ∧ a.baseLeap = d.baseLeap ∧ a.leapEe = d.leapEe ∧ a.initial = d.initial ∧
      (∀ i : Fin 6, i.val < 3 → a.data i = y.axis i / 1000) := by
    unfold Leap.acquire at ha
    split at ha
    · rename_i hs
      cases ha
      refine ⟨rfl, rfl, rfl, rfl, ?_⟩
      intro i h3
      fin_cases i <;> simp [Cycle.axis, hs] at h3 ⊢ <;> ring
    · rename_i hs
      cases ha
      refine ⟨rfl, rfl, rfl, rfl, ?_⟩
      intro i h3
      fin_cases i <;> simp [Cycle.axis, hs] at h3 ⊢ <;> ring
    · cases ha
  obtain ⟨ha1, ha2, ha3, ha4, ha5⟩ := hA
  unfold Leap.transform at ht
  rw [ha1, ha2, ha3, hd1, hd2, hd3, ha4] at ht
  by_cases hs : s = 0 ∧ ∃ i : Fin 6, i.val < 3 ∧ configureFixedAxes (some axes) i = false
  · rw [if_pos hs] at ht; cases ht
  rw [if_neg hs] at ht
  simp only [Option.some.injEq] at ht
  subst ht
  constructor
  · intro i h3
    have hseen := (leap_out (vectorToFrame_isRigid x0.toList) hee2 hee3 (if (!configureFixedAxes (some axes) 3 &&
        !configureFixedAxes (some axes) 4 && !configureFixedAxes (some axes) 5) = true then
        Mat3.rpy (if configureFixedAxes (some axes) 3 then 0 else a.data 3 - d.initial 3)
          (if configureFixedAxes (some axes) 4 then 0 else a.data 4 - d.initial 4)
          (if configureFixedAxes (some axes) 5 then 0 else a.data 5 - d.initial 5) else 1)
        ⟨if configureFixedAxes (some axes) 0 then 0 else (a.data 0 - d.initial 0) / s,
          if configureFixedAxes (some axes) 1 then 0 else (a.data 1 - d.initial 1) / s,
          if configureFixedAxes (some axes) 2 then 0 else (a.data 2 - d.initial 2) / s⟩).1
    have hseen' : seen = _ := hseen
    rw [hseen']
    have hx : ∀ i : Fin 6, i.val < 3 →
        (if configureFixedAxes (some axes) i then 0 else (a.data i - d.initial i) / s) =
          if axisLabel i ∈ axes then 0 else (y.axis i - first.getD i.val 0) / 1000 / s := by
      intro i h3
      rw [ha5 i h3, hd4 i h3]
      by_cases hf : configureFixedAxes (some axes) i = true
      · rw [if_pos hf, if_pos ((hax i).1 hf)]
      · rw [if_neg hf, if_neg fun h => hf ((hax i).2 h)]; ring
    match i, h3 with
    | 0, h3 => exact hx 0 h3
    | 1, h3 => exact hx 1 h3
    | 2, h3 => exact hx 2 h3
  · rintro ⟨i, h3, hi'⟩
    have hf := (hax i).2 hi'
    have hR : ¬ (!configureFixedAxes (some axes) 3 && !configureFixedAxes (some axes) 4 &&
        !configureFixedAxes (some axes) 5) = true := by
      match i, h3 with
      | 3, _ => simp [hf]
      | 4, _ => simp [hf]
      | 5, _ => simp [hf]
    rw [if_neg hR]
    exact (leap_out (vectorToFrame_isRigid x0.toList) hee2 hee3 1 _).2 rfl

/-- A Leap that starts at the origin with the robot at the identity, one or no rotation fixed. -/
noncomputable def turnDemo (axes : List String) : Leap :=
  ⟨true, configureFixedAxes (some axes), ![0, 0, 0, 0, 0, 0], .none, ![0, 0, 0, 0, 0, 0], 1, 1, 1, 0, false, false,
    false⟩

theorem turnDemo_init (axes : List String) :
    Leap.init true (some axes) none (some fun _ => 0) [0, 0, 0, 0, 0, 0] = some (turnDemo axes) := by
  have h0 : KdlVectorConverter.vectorToFrame (Six.toList fun _ => 0) = 1 := by
    have h := Mat3.rot_norm (v := 0) (Or.inl rfl)
    rw [Mat3.expRot_zero] at h
    show (⟨Mat3.rot 0 (Vec3.norm 0), 0⟩ : Frame) = 1
    rw [h]; rfl
  have h1 : (1 : Frame) * 1 = 1 := mul_one 1
  have h2 : (1 : Frame).inv = 1 := by ext <;> simp [Frame.inv]
  simp [Leap.init, h0, leapFrame, h1, h2, Leap.acquire, turnDemo]

/-- **C60 fails for the rotations of the Leap.** The hand turns by a quarter around z, with scaling factor
10. If only the rotation around x is fixed the pose sent has no rotation at all; if none is fixed it has
the whole quarter turn, not the tenth of it. -/
theorem C60_leap_rotation_wrong :
    (∃ a d', (turnDemo ["rotx"]).acquire [0, 0, 0, 0, 0, Real.pi / 2] = some a ∧ a.transform 10 = some d' ∧
      axisLabel 5 ∉ ["rotx"] ∧ d'.data 5 = 0) ∧
    (∃ a d', (turnDemo []).acquire [0, 0, 0, 0, 0, Real.pi / 2] = some a ∧ a.transform 10 = some d' ∧
      d'.data 5 = Real.pi / 2) := by
  constructor
  · have ha : (turnDemo ["rotx"]).acquire [0, 0, 0, 0, 0, Real.pi / 2] =
        some { turnDemo ["rotx"] with data := ![0 * (1 / 1000), 0 * (1 / 1000), 0 * (1 / 1000), 0, 0, Real.pi / 2] } := rfl
    obtain ⟨d', hd'⟩ : ∃ d', Leap.transform { turnDemo ["rotx"] with
        data := ![0 * (1 / 1000), 0 * (1 / 1000), 0 * (1 / 1000), 0, 0, Real.pi / 2] } 10 = some d' := by
      unfold Leap.transform
      rw [if_neg (by norm_num)]
      exact ⟨_, rfl⟩
    refine ⟨_, d', ha, hd', by simp [axisLabel], ?_⟩
    have key := (C60_leap_partial (turnDemo_init ["rotx"]) (y := { sensor := [0, 0, 0, 0, 0, Real.pi / 2] }) ha hd').2
      ⟨3, by norm_num, by simp [axisLabel]⟩
    have h0 : (KdlVectorConverter.vectorToFrame (Six.toList fun _ => 0)).M = 1 := by
      have h := Mat3.rot_norm (v := 0) (Or.inl rfl)
      rw [Mat3.expRot_zero] at h
      exact h
    rw [h0, getRot_one] at key
    exact congrArg Vec3.z key
  · have ha : (turnDemo []).acquire [0, 0, 0, 0, 0, Real.pi / 2] =
        some { turnDemo [] with data := ![0 * (1 / 1000), 0 * (1 / 1000), 0 * (1 / 1000), 0, 0, Real.pi / 2] } := rfl
    refine ⟨_, _, ha, by unfold Leap.transform; rw [if_neg (by norm_num)], ?_⟩
    have h1 : Mat3.rpy 0 0 (Real.pi / 2) = Mat3.rotZ (Real.pi / 2) := by
      simp [Mat3.rpy, Mat3.rotX, Mat3.rotY, Mat3.rotZ]; ext <;> simp
    have h2 : (Mat3.rotZ (Real.pi / 2)).getRot = ⟨0, 0, Real.pi / 2⟩ := by
      have hn : (⟨0, 0, Real.pi / 2⟩ : Vec3).norm = Real.pi / 2 := by
        simp only [Vec3.norm, Vec3.dot, mul_zero, zero_add]
        exact Real.sqrt_mul_self (by positivity)
      have hpi := Real.two_le_pi
      have h := C31_pose_vector_round_trip_partial 0 0 0 ⟨0, 0, Real.pi / 2⟩ (Or.inr ⟨by rw [hn]; linarith,
        by rw [hn]; norm_num [eps]; linarith, by rw [hn]; norm_num [eps], by rw [hn]; norm_num [eps]⟩)
      have h3 : (KdlVectorConverter.vectorToFrame [0, 0, 0, 0, 0, Real.pi / 2]).M = Mat3.rotZ (Real.pi / 2) := by
        show Mat3.rot ⟨0, 0, Real.pi / 2⟩ (Vec3.norm ⟨0, 0, Real.pi / 2⟩) = _
        rw [Mat3.rot_norm (Or.inr (by rw [hn]; norm_num [eps]; linarith)), Mat3.expRot, hn, Mat3.rotZ_eq]
        congr 1
        have : Real.pi ≠ 0 := Real.pi_ne_zero
        ext <;> simp [this]
      simp only [KdlVectorConverter.frameToVector, h3, List.cons.injEq, and_true] at h
      obtain ⟨-, -, -, e1, e2, e3⟩ := h
      exact Vec3.ext e1 e2 e3
    simp [turnDemo, configureFixedAxes, sixOfFrame, h1, h2, Frame.mul_M]

/-! ## Wiimote and centroid transform -/

/-- A Wiimote with all axes fixed. -/
noncomputable def wiiFixed : Ctl :=
  { device := .wiimote ⟨false, 1, configureFixedAxes (some ["x", "y", "z", "rotx", "roty", "rotz"]), .none,
      fun _ => 0, fun _ => 0⟩
    scaling := 10 }

/-- **C60 fails for the Wiimote.** All six axes are fixed; with button A pressed the robot is told to
advance and to turn all the same. -/
theorem C60_wiimote_wrong :
    Wiimote.init false 1 (some ["x", "y", "z", "rotx", "roty", "rotz"]) =
      some ⟨false, 1, configureFixedAxes (some ["x", "y", "z", "rotx", "roty", "rotz"]), .none, fun _ => 0,
        fun _ => 0⟩ ∧
    (update wiiFixed { sensor := [5, 0, 1, 0, 0] }).map Prod.snd =
      some [.move [.twist ![0, 0, 1, 1 / 2, 0, 0]]] := by
  refine ⟨by simp [Wiimote.init], ?_⟩
  have hacq : wiiFixed.device.acquire [5, 0, 1, 0, 0] =
      some (.wiimote ⟨false, 1, configureFixedAxes (some ["x", "y", "z", "rotx", "roty", "rotz"]), .none,
        fun _ => 0, ![5, 0, 1, 0, 0]⟩) := rfl
  rw [update_clear (c := wiiFixed) (y := { sensor := [5, 0, 1, 0, 0] }) hacq rfl]
  have ht : Wiimote.transform ⟨false, 1, configureFixedAxes (some ["x", "y", "z", "rotx", "roty", "rotz"]), .none,
      fun _ => 0, ![5, 0, 1, 0, 0]⟩ 10 =
      some ⟨false, 1, configureFixedAxes (some ["x", "y", "z", "rotx", "roty", "rotz"]), .fwd, ![1 / 2, 0, 0],
        ![5, 0, 1, 0, 0]⟩ := by
    simp [Wiimote.transform]
    norm_num
  simp only [proceed, wiiFixed, Device.actuator, Device.transform, ht, Option.map_some, applyCentroid, finish,
    Device.valid, Device.send, Wiimote.send]
  rw [if_pos (by decide)]
  simp [actEvents]

/-- A SpaceNavigator with y fixed and a camera that looks half way between x and y. -/
noncomputable def lookDemo : Ctl :=
  { device := .spnav ⟨false, 1, configureFixedAxes (some ["y"]), fun _ => 0, .none, fun _ => 0, false, false⟩
    scaling := 1
    centroid := some ⟨Mat3.rpy 0 (Real.pi / 2) (Real.pi / 4), 0, (0, 0), 0⟩ }

/-- A cycle of it: the device moves along x, the target is in the middle of the image. -/
noncomputable def lookCycle : Cycle where
  sensor := [1, 0, 0, 0, 0, 0]
  centroid := some [0, 0]
  stat := some [0, 0, 0, 0, 0, 0]

/-- **C60 fails with the centroid transform.** The axis y is fixed and the device moves along x only; a
target straight ahead of the camera makes the robot move along y as well. -/
theorem C60_centroid_wrong :
    (update lookDemo lookCycle).map Prod.snd = some [.move [.twist ![1 / 2, 1 / 2, 0, 0, 0, 0]]] := by
  have hacq : lookDemo.device.acquire [1, 0, 0, 0, 0, 0] =
      some (.spnav ⟨false, 1, configureFixedAxes (some ["y"]), ![1, 0, 0, 0, 0, 0], .none, fun _ => 0, false, false⟩) :=
    rfl
  rw [update_clear (c := lookDemo) (y := lookCycle) hacq rfl]
  have ht : Spnav.transform ⟨false, 1, configureFixedAxes (some ["y"]), ![1, 0, 0, 0, 0, 0], .none, fun _ => 0,
      false, false⟩ 1 =
      some ⟨false, 1, configureFixedAxes (some ["y"]), ![1, 0, 0, 0, 0, 0], .none, fun _ => 0, false, false⟩ := by
    simp only [Spnav.transform, baseTransform, Bool.false_eq_true, if_false, one_ne_zero, Option.map_some,
      Option.some.injEq, Spnav.mk.injEq, true_and, and_true]
    funext i
    fin_cases i <;> simp [configureFixedAxes]
  have h0 : Mat3.rot 0 (Vec3.norm 0) = 1 := by
    rw [Mat3.rot_norm (v := 0) (Or.inl rfl), Mat3.expRot_zero]
  have hid : KdlVectorConverter.vectorToFrame [0, 0, 0, 0, 0, 0] = 1 := by
    show (⟨Mat3.rot 0 (Vec3.norm 0), 0⟩ : Frame) = 1
    rw [h0]; rfl
  have hid' : (KdlVectorConverter.vectorToFrame (Six.toList ![1, 0, 0, 0, 0, 0])).p = ⟨1, 0, 0⟩ := rfl
  have hv : (Mat3.rpy 0 (Real.pi / 2) (Real.pi / 4)).mulVec ⟨0, 0, 1⟩ = ⟨√2 / 2, √2 / 2, 0⟩ := by
    simp [Mat3.rpy, Mat3.rotX, Mat3.rotY, Mat3.rotZ, Mat3.mulVec]
  have hzero : (Mat3.rpy 0 (Real.pi / 2) (Real.pi / 4)).mulVec ((Mat3.rotZ (Real.pi / 2)).mulVec ⟨0, 0, 0⟩) = 0 := by
    ext <;> simp [Mat3.mulVec]
  have hpos : (0 : ℝ) < √2 := by positivity
  have hrot : Mat3.rot 0 ((⟨0, 0, 0⟩ : Vec3).norm * (1 / 10)) = 1 := by
    have : (⟨0, 0, 0⟩ : Vec3).norm = 0 := Vec3.norm_zero
    rw [this, zero_mul]
    rw [← Vec3.norm_zero]; exact h0
  have hproc : Centroid.process ⟨Mat3.rpy 0 (Real.pi / 2) (Real.pi / 4), 0, (0, 0), 0⟩ (some [0, 0, 0, 0, 0, 0])
      ![1, 0, 0, 0, 0, 0] = some ![1 / 2, 1 / 2, 0, 0, 0, 0] := by
    simp only [Centroid.process, hid, hid']
    have h1 : (1 : Frame).M = 1 := rfl
    rw [h1, one_mul, hv, hzero, hrot]
    have hdot : Vec3.dot ⟨1, 0, 0⟩ ⟨√2 / 2, √2 / 2, 0⟩ = √2 / 2 := by simp [Vec3.dot]
    rw [hdot, if_neg (by linarith)]
    have hsq : √2 / 2 * (√2 / 2) = 1 / 2 := by
      have := Real.mul_self_sqrt (show (0 : ℝ) ≤ 2 by norm_num)
      linear_combination this / 4
    simp [sixOfFrame, getRot_one, hsq]
  have hval : Spnav.valid ⟨false, 1, configureFixedAxes (some ["y"]), ![1 / 2, 1 / 2, 0, 0, 0, 0], .none,
      fun _ => 0, false, false⟩ = true := by
    simp only [Spnav.valid, baseValid, Bool.false_eq_true, if_false, ne_eq, not_true, decide_eq_true_eq]
    exact ⟨0, by norm_num⟩
  have hg : nextGrip false false .none = .none := rfl
  simp only [proceed, lookDemo, lookCycle, Device.actuator, hg, Device.transform, ht, Option.map_some, applyCentroid,
    Centroid.accept, if_true, hproc, finish, Device.valid, hval, Device.send, Spnav.send, Bool.false_eq_true,
    if_false, actEvents]
  simp

end KD.Sdc
