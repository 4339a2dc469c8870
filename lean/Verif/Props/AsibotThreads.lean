import Verif.Solver.AsibotThreads
import Verif.Props.Asibot

/-!
# C98: calls of the ASIBOT solver from several threads

The specification is a solver that does all of a call at once, at some moment between its beginning and its return:
`Req.atOnce` is what a call does to the tool and what it answers, by the functions of `Verif.Solver.Asibot`, which know
nothing of threads. An execution is right if the calls and returns that are seen are those of some execution of that
solver.
-/

namespace KD

namespace Asibot

open Real KinRepr

/-! ## A solver that does each call at once -/

/-- A call without interruption: the tool afterwards, and the answer. -/
noncomputable def Req.atOnce (svd : Mat3 → Vec3) (pinv : Pinv) (s : Solver) (r : Req) (t : Tool) : Tool × Answer :=
  let s := s.withTool t
  match r with
  | .append x =>
    match s.appendLink x with
    | none => (t, none)
    | some s' => (s'.tool, some (some []))
  | .restore => (s.restore.tool, some (some []))
  | .origin a b => (t, (changeOrigin svd a b).map some)
  | .fwd q => (t, (fwdKin svd s q).map some)
  | .diff a b => (t, (poseDiff svd a b).map some)
  | .inv xd g f => (t, invKin svd s xd g f)
  | .diffInv q xdot f => (t, (diffInvKin svd pinv s q xdot f).map fun a => a.map Joints.toList)

/-- A thread of that solver: a call has begun, or was done. -/
inductive Turn
  | begun (r : Req)
  | done (a : Answer)

/-- That solver, with the calls that have begun and not returned. -/
structure Ideal where
  tool : Tool
  threads : ℕ → Option Turn

/-- A call begins, is done at once, or returns. -/
inductive Ideal.Step (svd : Mat3 → Vec3) (pinv : Pinv) (s : Solver) : Ideal → Option Seen → Ideal → Prop
  | call {t th i r} : th i = none →
      Ideal.Step svd pinv s ⟨t, th⟩ (some (.call i r)) ⟨t, Function.update th i (some (.begun r))⟩
  | act {t th i r} : th i = some (.begun r) →
      Ideal.Step svd pinv s ⟨t, th⟩ none
        ⟨(r.atOnce svd pinv s t).1, Function.update th i (some (.done (r.atOnce svd pinv s t).2))⟩
  | ret {t th i a} : th i = some (.done a) →
      Ideal.Step svd pinv s ⟨t, th⟩ (some (.ret i a)) ⟨t, Function.update th i none⟩

/-- Any number of steps, with what is seen. -/
inductive Ideal.Steps (svd : Mat3 → Vec3) (pinv : Pinv) (s : Solver) : Ideal → List Seen → Ideal → Prop
  | refl (x) : Ideal.Steps svd pinv s x [] x
  | step {x l y es z} : Ideal.Step svd pinv s x l y → Ideal.Steps svd pinv s y es z →
      Ideal.Steps svd pinv s x (l.toList ++ es) z

theorem Ideal.Steps.trans {svd : Mat3 → Vec3} {pinv : Pinv} {s : Solver} {x y z : Ideal} {a b : List Seen}
    (h1 : Ideal.Steps svd pinv s x a y) (h2 : Ideal.Steps svd pinv s y b z) : Ideal.Steps svd pinv s x (a ++ b) z := by
  induction h1 with
  | refl => exact h2
  | step h _ ih => rw [List.append_assoc]; exact .step h (ih h2)

/-! ## One call alone -/

/-- All accesses one after another, nobody else using the solver. -/
def Code.alone : Code → Tool → Tool × Answer
  | .done a, t => (t, a)
  | .read k, t => (k t).alone t
  | .write t' k, _ => k.alone t'

/-- A call that nobody interrupts does what it should. -/
theorem C98_alone (svd : Mat3 → Vec3) (pinv : Pinv) (s : Solver) (r : Req) (t : Tool) :
    (r.code svd pinv s).alone t = r.atOnce svd pinv s t := by
  cases r with
  | append x =>
    simp only [Req.code, Req.atOnce, Solver.appendLink]
    cases vectorToMatrix x <;> rfl
  | restore => rfl
  | origin => rfl
  | fwd => rfl
  | diff => rfl
  | inv xd g f =>
    cases f with
    | base => rfl
    | other => rfl
    | tcp =>
      simp only [Req.code, Req.atOnce, Code.alone, invKin, Option.bind_eq_bind]
      cases hx : fwdKin svd (s.withTool t) g with
      | none =>
        cases Joints.read g <;> simp [Code.alone]
      | some x =>
        cases hy : changeOrigin svd xd x with
        | none => cases Joints.read g <;> simp [Code.alone, hy]
        | some y => cases Joints.read g <;> simp [Code.alone, hy]
  | diffInv q xdot f =>
    simp only [Req.code, Req.atOnce, diffInvKin, jacobian, Option.bind_eq_bind]
    cases hq : Joints.read q with
    | none => rfl
    | some qd =>
      cases f with
      | other => rfl
      | base =>
        cases ht : t.hasFrame
        · simp [Code.alone, ht, Solver.withTool, Joints.toList, baseJacobian]
        · simp only [Code.alone, ht, if_true, Option.bind_some, Solver.withTool]
          cases hx : fwdKin svd { s with hasFrame := true, frameTcp := t.frame } q with
          | none => simp [Code.alone]
          | some x =>
            cases hm : vectorToMatrix x <;>
              simp [Code.alone, hm, Joints.toList, baseJacobian]
      | tcp =>
        cases ht : t.hasFrame
        · simp [Code.alone, ht, Solver.withTool, Joints.toList, tcpJacobian]
        · simp only [Code.alone, ht, if_true, Option.bind_some, Solver.withTool]
          cases hx : fwdKin svd { s with hasFrame := true, frameTcp := t.frame } q with
          | none => simp [Code.alone]
          | some x =>
            cases hm : vectorToMatrix x <;>
              simp [Code.alone, hm, Joints.toList, tcpJacobian]

/-! ## One thread changes the tool, all others only look -/

/-- Calls that look at the tool at most once and do not change it. -/
def Req.looksOnce : Req → Prop
  | .origin .. | .diff .. | .fwd _ => True
  | .inv _ _ f => f ≠ .tcp
  | _ => False

/-- Thread `w` makes any calls, the others only look. -/
def oneChanges (w i : ℕ) (r : Req) : Prop := i = w ∨ r.looksOnce

/-- At most one write, which is the last access. -/
def Code.writesLast : Code → Prop
  | .done _ => True
  | .read k => ∀ t, (k t).writesLast
  | .write _ k => ∃ a, k = .done a

theorem code_writesLast (svd : Mat3 → Vec3) (pinv : Pinv) (s : Solver) (r : Req) : (r.code svd pinv s).writesLast := by
  cases r with
  | append x =>
    simp only [Req.code]
    cases vectorToMatrix x
    · trivial
    · exact fun _ => ⟨_, rfl⟩
  | restore => exact fun _ => ⟨_, rfl⟩
  | origin => trivial
  | fwd => exact fun _ => trivial
  | diff => trivial
  | inv xd g f =>
    cases f with
    | base => exact fun _ => trivial
    | other => trivial
    | tcp =>
      intro t
      dsimp only
      split
      · trivial
      · exact fun _ => trivial
  | diffInv q xdot f =>
    simp only [Req.code]
    split
    · trivial
    · split
      · trivial
      · intro t
        dsimp only
        split
        · intro t'
          dsimp only
          split <;> trivial
        · trivial

/-- A thread that only looks, and where the other solver is with its call. -/
def lookerAt (svd : Mat3 → Vec3) (pinv : Pinv) (s : Solver) : Option Code → Option Turn → Prop
  | none, none => True
  | some p, some (.begun r) => (∀ t, p.alone t = r.atOnce svd pinv s t) ∧
      ((∃ a, p = .done a) ∨ ∃ (k : Tool → Code) (a : Tool → Answer), p = .read k ∧ ∀ t, k t = .done (a t))
  | some p, some (.done a) => p = .done a
  | _, _ => False

/-- The same for the thread that changes the tool. -/
def changerAt (svd : Mat3 → Vec3) (pinv : Pinv) (s : Solver) (t : Tool) : Option Code → Option Turn → Prop
  | none, none => True
  | some p, some (.begun r) => p.alone t = r.atOnce svd pinv s t ∧ p.writesLast
  | some p, some (.done a) => p = .done a
  | _, _ => False

/-- The two solvers agree. -/
structure Agree (svd : Mat3 → Vec3) (pinv : Pinv) (s : Solver) (w : ℕ) (x : Busy) (y : Ideal) : Prop where
  tool : x.tool = y.tool
  others : ∀ i, i ≠ w → lookerAt svd pinv s (x.threads i) (y.threads i)
  changer : changerAt svd pinv s x.tool (x.threads w) (y.threads w)

theorem looksOnce_code (svd : Mat3 → Vec3) (pinv : Pinv) (s : Solver) {r : Req} (h : r.looksOnce) :
    (∃ a, r.code svd pinv s = .done a) ∨
    ∃ (k : Tool → Code) (a : Tool → Answer), r.code svd pinv s = .read k ∧ ∀ t, k t = .done (a t) := by
  cases r with
  | append => exact h.elim
  | restore => exact h.elim
  | origin => exact Or.inl ⟨_, rfl⟩
  | fwd => exact Or.inr ⟨_, _, rfl, fun _ => rfl⟩
  | diff => exact Or.inl ⟨_, rfl⟩
  | inv xd g f =>
    cases f with
    | base => exact Or.inr ⟨_, _, rfl, fun _ => rfl⟩
    | other => exact Or.inl ⟨_, rfl⟩
    | tcp => exact absurd rfl h
  | diffInv => exact h.elim

theorem update_agree {svd : Mat3 → Vec3} {pinv : Pinv} {s : Solver} {w i : ℕ} {t : Tool} {th : ℕ → Option Code}
    {th' : ℕ → Option Turn} {p : Option Code} {u : Option Turn} (h : Agree svd pinv s w ⟨t, th⟩ ⟨t, th'⟩)
    (hl : i ≠ w → lookerAt svd pinv s p u) (hc : i = w → changerAt svd pinv s t p u) :
    Agree svd pinv s w ⟨t, Function.update th i p⟩ ⟨t, Function.update th' i u⟩ := by
  refine ⟨rfl, fun j hj => ?_, ?_⟩
  · by_cases hji : j = i
    · subst hji
      simpa only [Function.update_self] using hl hj
    · simpa only [Function.update_of_ne hji] using h.others j hj
  · by_cases hwi : w = i
    · subst hwi
      simpa only [Function.update_self] using hc rfl
    · simpa only [Function.update_of_ne hwi] using h.changer

/-- Each step of the solver is some steps of the other one, with the same seen. -/
theorem step_agree {svd : Mat3 → Vec3} {pinv : Pinv} {s : Solver} {w : ℕ} {x x' : Busy} {y : Ideal} {l : Option Seen}
    (h : Agree svd pinv s w x y) (hs : Busy.Step svd pinv s (oneChanges w) x l x') :
    ∃ y', Ideal.Steps svd pinv s y l.toList y' ∧ Agree svd pinv s w x' y' := by
  obtain ⟨t0, th'⟩ := y
  cases hs with
  | @call t th i r hi ha =>
    obtain rfl : t = t0 := h.tool
    have hidle : th' i = none := by
      by_cases hw : i = w
      · subst hw
        have := h.changer
        dsimp only at this
        rw [hi] at this
        cases hu : th' i with
        | none => rfl
        | some u => rw [hu] at this; exact this.elim
      · have := h.others i hw
        dsimp only at this
        rw [hi] at this
        cases hu : th' i with
        | none => rfl
        | some u => rw [hu] at this; exact this.elim
    refine ⟨_, .step (.call hidle) (.refl _), update_agree h (fun hw => ?_) fun _ => ?_⟩
    · rcases ha with ha | ha
      · exact absurd ha hw
      · exact ⟨C98_alone svd pinv s r, looksOnce_code svd pinv s ha⟩
    · exact ⟨C98_alone svd pinv s r t, code_writesLast svd pinv s r⟩
  | @read t th i k hi =>
    obtain rfl : t = t0 := h.tool
    by_cases hw : i = w
    · subst hw
      have hc := h.changer
      dsimp only at hc
      rw [hi] at hc
      cases hu : th' i with
      | none => rw [hu] at hc; exact hc.elim
      | some u =>
        rw [hu] at hc
        cases u with
        | done a => cases hc
        | begun r =>
          refine ⟨⟨t, th'⟩, .refl _, ?_⟩
          have := update_agree (i := i) (p := some (k t)) (u := some (.begun r)) h (fun hn => absurd rfl hn)
            (fun _ => ⟨hc.1, hc.2 t⟩)
          rwa [← hu, Function.update_eq_self] at this
    · have hc := h.others i hw
      dsimp only at hc
      rw [hi] at hc
      cases hu : th' i with
      | none => rw [hu] at hc; exact hc.elim
      | some u =>
        rw [hu] at hc
        cases u with
        | done a => cases hc
        | begun r =>
          obtain ⟨h1, h2⟩ := hc
          rcases h2 with ⟨a, ha⟩ | ⟨k', a, hk, ha⟩
          · cases ha
          · cases hk
            have e : (t, a t) = r.atOnce svd pinv s t := by
              rw [← h1 t]
              show _ = (k t).alone t
              rw [ha t]; rfl
            have e1 : (r.atOnce svd pinv s t).1 = t := by rw [← e]
            have e2 : (r.atOnce svd pinv s t).2 = a t := by rw [← e]
            have hst := Ideal.Step.act (svd := svd) (pinv := pinv) (s := s) (t := t) hu
            rw [e1, e2] at hst
            exact ⟨_, .step (l := none) hst (.refl _), update_agree h (fun _ => ha t) fun hn => absurd hn hw⟩
  | @write t th i t' k hi =>
    obtain rfl : t = t0 := h.tool
    by_cases hw : i = w
    · subst hw
      have hc := h.changer
      dsimp only at hc
      rw [hi] at hc
      cases hu : th' i with
      | none => rw [hu] at hc; exact hc.elim
      | some u =>
        rw [hu] at hc
        cases u with
        | done a => cases hc
        | begun r =>
          obtain ⟨h1, a, rfl⟩ := hc
          have e : (t', a) = r.atOnce svd pinv s t := h1
          have e1 : (r.atOnce svd pinv s t).1 = t' := by rw [← e]
          have e2 : (r.atOnce svd pinv s t).2 = a := by rw [← e]
          have hst := Ideal.Step.act (svd := svd) (pinv := pinv) (s := s) (t := t) hu
          rw [e1, e2] at hst
          refine ⟨_, .step (l := none) hst (.refl _), rfl, fun j hj => ?_, ?_⟩
          · simpa only [Function.update_of_ne hj] using h.others j hj
          · simp only [Function.update_self]
            rfl
    · exfalso
      have hc := h.others i hw
      dsimp only at hc
      rw [hi] at hc
      cases hu : th' i with
      | none => rw [hu] at hc; exact hc
      | some u =>
        rw [hu] at hc
        cases u with
        | done a => cases hc
        | begun r =>
          rcases hc.2 with ⟨a, ha⟩ | ⟨k', a, hk, -⟩
          · cases ha
          · cases hk
  | @ret t th i a hi =>
    obtain rfl : t = t0 := h.tool
    -- the answer is the one of the call done at once, now or before
    have key : ∃ th'', Ideal.Steps svd pinv s ⟨t, th'⟩ [] ⟨t, th''⟩ ∧ th'' i = some (.done a) ∧
        ∀ j, j ≠ i → th'' j = th' j := by
      have now : ∀ r, th' i = some (.begun r) → (t, a) = r.atOnce svd pinv s t →
          ∃ th'', Ideal.Steps svd pinv s ⟨t, th'⟩ [] ⟨t, th''⟩ ∧ th'' i = some (.done a) ∧
            ∀ j, j ≠ i → th'' j = th' j := by
        intro r hu e
        have e1 : (r.atOnce svd pinv s t).1 = t := by rw [← e]
        have e2 : (r.atOnce svd pinv s t).2 = a := by rw [← e]
        have hst := Ideal.Step.act (svd := svd) (pinv := pinv) (s := s) (t := t) hu
        rw [e1, e2] at hst
        exact ⟨_, .step (l := none) hst (.refl _), Function.update_self .., fun j hj => Function.update_of_ne hj ..⟩
      by_cases hw : i = w
      · subst hw
        have hc := h.changer
        dsimp only at hc
        rw [hi] at hc
        cases hu : th' i with
        | none => rw [hu] at hc; exact hc.elim
        | some u =>
          rw [hu] at hc
          cases u with
          | done b => cases hc; exact ⟨th', .refl _, hu, fun _ _ => rfl⟩
          | begun r => exact now r hu hc.1
      · have hc := h.others i hw
        dsimp only at hc
        rw [hi] at hc
        cases hu : th' i with
        | none => rw [hu] at hc; exact hc.elim
        | some u =>
          rw [hu] at hc
          cases u with
          | done b => cases hc; exact ⟨th', .refl _, hu, fun _ _ => rfl⟩
          | begun r => exact now r hu (hc.1 t)
    obtain ⟨th'', hst, hd, hrest⟩ := key
    refine ⟨_, hst.trans (.step (l := some _) (.ret hd) (.refl _)), rfl, fun j hj => ?_, ?_⟩
    · by_cases hji : j = i
      · subst hji
        simp only [Function.update_self]
        trivial
      · simp only [Function.update_of_ne hji, hrest j hji]
        exact h.others j hj
    · by_cases hwi : w = i
      · subst hwi
        simp only [Function.update_self]
        trivial
      · simp only [Function.update_of_ne hwi, hrest w hwi]
        exact h.changer

/-- **C98**, what holds of it: any number of threads ask for poses, joints for poses in the base frame, changes of origin
and differences, while one thread changes the tool and asks for anything. Then what is seen is what could be seen if
each call was done at once between its beginning and its return, and the solver has the tool it would have. Missing:
`C98_tool_lost` and `C98_unreachable_halfway`. -/
theorem C98_at_once_partial {svd : Mat3 → Vec3} {pinv : Pinv} {s : Solver} {w : ℕ} {t : Tool} {es : List Seen} {x : Busy}
    (h : Busy.Steps svd pinv s (oneChanges w) ⟨t, fun _ => none⟩ es x) :
    ∃ y, Ideal.Steps svd pinv s ⟨t, fun _ => none⟩ es y ∧ y.tool = x.tool := by
  have key : ∀ {x x' : Busy} {es : List Seen}, Busy.Steps svd pinv s (oneChanges w) x es x' →
      ∀ y, Agree svd pinv s w x y → ∃ y', Ideal.Steps svd pinv s y es y' ∧ Agree svd pinv s w x' y' := by
    intro x x' es h
    induction h with
    | refl => exact fun y hy => ⟨y, .refl _, hy⟩
    | step hs _ ih =>
      intro y hy
      obtain ⟨y1, h1, h2⟩ := step_agree hy hs
      obtain ⟨y2, h3, h4⟩ := ih y1 h2
      exact ⟨y2, h1.trans h3, h4⟩
  obtain ⟨y, h1, h2⟩ := key h ⟨t, fun _ => none⟩ ⟨rfl, fun _ _ => trivial, trivial⟩
  exact ⟨y, h1, h2.tool.symm⟩

/-! ## What does not hold -/

/-- The hand straight up, at a height. -/
def upright (z : ℝ) : List ℝ := [0, 0, z, 0, 0, 0]

/-- Only a translation. -/
def lifted (z : ℝ) : Frame := ⟨1, ⟨0, 0, z⟩⟩

theorem upright_six (z : ℝ) : upright z = sixOf ⟨0, 0, z⟩ 0 := rfl

theorem vectorToMatrix_upright (z : ℝ) : vectorToMatrix (upright z) = some (lifted z) := by
  rw [upright_six, vectorToMatrix_six (Or.inl rfl), Mat3.expRot_zero]; rfl

theorem matrixToVector_lifted (svd : Mat3 → Vec3) (z : ℝ) : matrixToVector svd (lifted z) = upright z := by
  have h : rotVector svd 1 = 0 := by
    have e : atan2 0 (1 / 2 * (1 + 1 + 1 - 1)) = 0 := atan2_pos (by norm_num)
    unfold rotVector
    simp [Vec3.norm, Vec3.dot] at e ⊢
    exact Or.inl e
  simp only [matrixToVector, lifted, h]
  rfl

theorem lifted_mul (a b : ℝ) : lifted a * lifted b = lifted (a + b) := by
  refine Frame.ext ?_ ?_
  · simp [lifted]
  · ext <;> simp [lifted, add_comm]

theorem lifted_inv (a : ℝ) : (lifted a).inv = lifted (-a) := by
  refine Frame.ext ?_ ?_
  · ext <;> simp [lifted, Frame.inv, Mat3.transpose]
  · ext <;> simp [lifted, Frame.inv, Mat3.transpose]

/-- All joints at zero. -/
def zeros : List ℝ := [0, 0, 0, 0, 0]

theorem demo_hand (t : Tool) : sixOf (arm (demo.withTool t) (Joints.mk 0 0 0 0 0).inRadians).p
    (codedRot (demo.withTool t) ⟨0, 0, 0, 0, 0⟩).getRot = upright 3 := by
  have hz : (⟨0, 0, 0, 0, 0⟩ : Joints).inRadians = ⟨0, 0, 0, 0, 0⟩ := by simp [Joints.inRadians, degToRad]
  have hr : radial (demo.withTool t) ⟨0, 0, 0, 0, 0⟩ = 0 := by simp [radial]
  have hh : height (demo.withTool t) ⟨0, 0, 0, 0, 0⟩ = 3 := by
    simp [height, demo, Solver.withTool]; norm_num
  rw [arm_p, codedRot, hz, hr, hh, upright_six]
  have h1 : atan2 0 0 = 0 := Complex.arg_zero
  have : Mat3.eulerZYZ (atan2 (0 * sin 0) (0 * cos 0)) (0 + 0 + 0) 0 = 1 := by
    simp only [zero_mul, h1]
    ext <;> simp [Mat3.eulerZYZ, Mat3.rotZ, Mat3.rotY]
  simp only
  rw [this, getRot_one]
  simp [demo, Solver.withTool]

theorem demo_fwd (svd : Mat3 → Vec3) : fwdKin svd (demo.withTool ⟨false, 1⟩) zeros = some (upright 3) := by
  have hq : Joints.read zeros = some ⟨0, 0, 0, 0, 0⟩ := rfl
  rw [fwdKin_no_tool svd rfl hq, demo_hand]

theorem upright_standard (z : ℝ) : standard (upright z) = lifted z := by
  rw [upright_six, standard_six, Mat3.expRot_zero]; rfl

theorem upright_rot (z : ℝ) : rotOf (upright z) = 0 := by
  rw [upright_six, rotOf_six]

theorem lifted_euler (z : ℝ) : (lifted z).M.getEulerZYZ.2 = (0, 0) := by
  unfold Mat3.getEulerZYZ
  norm_num [Mat3.singEps, lifted]

theorem demo_solve (t : Tool) : solve (demo.withTool t) (upright 3) ⟨0, 0, 0, 0, 0⟩ = some (some zeros) := by
  rw [solve_eq _ (by simp [upright]) (Or.inl (upright_rot 3)), upright_standard, lifted_euler]
  unfold solveDecoded
  simp only [lifted, cos_zero, sin_zero]
  have e1 : √(0 * 0 + 0 * 0 : ℝ) = 0 := by norm_num
  rw [e1, if_neg, if_neg]
  · have hp : planeAngles (demo.withTool t).A1 (demo.withTool t).A2 (0 - (demo.withTool t).A3 * 0)
        (3 - (demo.withTool t).A0 - (demo.withTool t).A3 * 1) = some ⟨0, 0, 0⟩ := by
      simp only [demo, Solver.withTool]
      unfold planeAngles
      norm_num
      rw [atan2_zero_one]
    have h1 : atan2 0 0 = 0 := Complex.arg_zero
    rw [hp]
    simp only [Option.bind_some, h1, sub_zero, add_zero, radToDeg_zero]
    have hc : configure (demo.withTool t) 0 0 0 0 0 0 0 = some
        [⟨⟨0, 0, 0, 0, 0⟩, .forward, .up, true⟩, ⟨⟨0, 0, 0, 0, 0⟩, .forward, .down, true⟩,
         ⟨⟨180, 0, 0, 0, 180⟩, .reversed, .up, true⟩,
         ⟨⟨180, 0, 0, 0, 180⟩, .reversed, .down, true⟩] := by
      norm_num [configure, storeAngles, normalizeAngle, degEps, jointsInLimits, inLimits, demo, Solver.withTool]
    rw [hc]
    norm_num [findOptimal, fillMap, insertMap, total, diffs, Joints.toList, zeros]
    rw [if_neg (by simp)]
    exact ⟨_, rfl, rfl, rfl, rfl, rfl, rfl⟩
  · simp only [demo, Solver.withTool]
    rw [gt_iff_lt, not_lt]
    apply sqrt_le_iff.mpr
    norm_num
  · simp only [demo, Solver.withTool]
    rw [gt_iff_lt, not_lt]
    apply sqrt_le_iff.mpr
    norm_num

theorem demo_far (t : Tool) : solve (demo.withTool t) (upright (-7)) ⟨0, 0, 0, 0, 0⟩ = some none := by
  rw [solve_eq _ (by simp [upright]) (Or.inl (upright_rot (-7))), upright_standard, lifted_euler]
  unfold solveDecoded
  rw [if_pos]
  have e1 : √(0 * 0 + 0 * 0 : ℝ) = 0 := by norm_num
  simp only [demo, Solver.withTool, lifted, e1]
  rw [gt_iff_lt, lt_sqrt (by norm_num)]
  norm_num

/-- No tool. -/
def noTool : Tool := ⟨false, 1⟩

/-- A long tool, straight ahead of the hand. -/
def longTool : Tool := ⟨true, lifted 10⟩

theorem append_code (svd : Mat3 → Vec3) (pinv : Pinv) (s : Solver) : (Req.append (upright 10)).code svd pinv s =
    .read fun t => .write ⟨true, t.frame * lifted 10⟩ (.done (some (some []))) := by
  simp only [Req.code, vectorToMatrix_upright]

theorem append_atOnce (svd : Mat3 → Vec3) (pinv : Pinv) (s : Solver) (t : Tool) :
    (Req.append (upright 10)).atOnce svd pinv s t = (⟨true, t.frame * lifted 10⟩, some (some [])) := by
  simp only [Req.atOnce, Solver.appendLink, vectorToMatrix_upright]
  rfl

theorem lifted_zero : lifted 0 = 1 := rfl

/-- What is seen of two tools that are attached at the same time. -/
def twoTools : List Seen :=
  [.call 0 (.append (upright 10)), .call 1 (.append (upright 10)), .ret 0 (some (some [])), .ret 1 (some (some []))]

/-- The first event of an execution that shows one. -/
theorem Ideal.Steps.first {svd : Mat3 → Vec3} {pinv : Pinv} {s : Solver} {x z : Ideal} {e : Seen} {es : List Seen}
    (h : Ideal.Steps svd pinv s x (e :: es) z) : ∃ x1 x2, Ideal.Steps svd pinv s x [] x1 ∧
      Ideal.Step svd pinv s x1 (some e) x2 ∧ Ideal.Steps svd pinv s x2 es z := by
  generalize hes : e :: es = es' at h
  induction h with
  | refl => cases hes
  | @step x l y es' z hs h ih =>
    cases l with
    | some e' =>
      simp only [Option.toList_some, List.singleton_append, List.cons.injEq] at hes
      obtain ⟨rfl, rfl⟩ := hes
      exact ⟨x, y, .refl _, hs, h⟩
    | none =>
      obtain ⟨x1, x2, h1, h2, h3⟩ := ih hes
      exact ⟨x1, x2, .step (l := none) hs h1, h2, h3⟩

/-- What holds before and after each silent step holds at the end. -/
theorem Ideal.Steps.silent {svd : Mat3 → Vec3} {pinv : Pinv} {s : Solver} {I : Ideal → Prop}
    (hI : ∀ t th i r, I ⟨t, th⟩ → th i = some (.begun r) →
      I ⟨(r.atOnce svd pinv s t).1, Function.update th i (some (.done (r.atOnce svd pinv s t).2))⟩)
    {x z : Ideal} (h : Ideal.Steps svd pinv s x [] z) (hx : I x) : I z := by
  generalize hes : ([] : List Seen) = es at h
  induction h with
  | refl => exact hx
  | @step x l y es' z hs h ih =>
    cases hs with
    | act hi => exact ih (hI _ _ _ _ hx hi) hes
    | call => simp at hes
    | ret => simp at hes

/-- How many tools a thread has attached that attaches one: `b` tells if its call has returned. -/
def attached (b : Bool) : Option Turn → ℝ
  | none => if b then 1 else 0
  | some (.begun _) => 0
  | some (.done _) => 1

/-- The tool is what both threads have attached. -/
structure Counted (b0 b1 : Bool) (x : Ideal) : Prop where
  begun : ∀ i r, x.threads i = some (.begun r) → r = .append (upright 10) ∧ (i = 0 ∨ i = 1)
  tool : x.tool.frame = lifted (10 * (attached b0 (x.threads 0) + attached b1 (x.threads 1)))
  back0 : b0 = true → x.threads 0 = none
  back1 : b1 = true → x.threads 1 = none

theorem counted_silent {svd : Mat3 → Vec3} {pinv : Pinv} {s : Solver} {b0 b1 : Bool} {x z : Ideal}
    (h : Ideal.Steps svd pinv s x [] z) (hx : Counted b0 b1 x) : Counted b0 b1 z := by
  refine h.silent (fun t th i r hx hi => ?_) hx
  obtain ⟨rfl, h01⟩ := hx.begun i r hi
  refine ⟨fun j r' hj => ?_, ?_, fun hb => ?_, fun hb => ?_⟩
  · by_cases hji : j = i
    · subst hji
      simp only [Function.update_self] at hj
      cases hj
    · simp only [Function.update_of_ne hji] at hj
      exact hx.begun j r' hj
  rotate_left
  · have h0 := hx.back0 hb
    have : (0 : ℕ) ≠ i := by rintro rfl; simp only [hi] at h0; cases h0
    simpa only [Function.update_of_ne this] using h0
  · have h0 := hx.back1 hb
    have : (1 : ℕ) ≠ i := by rintro rfl; simp only [hi] at h0; cases h0
    simpa only [Function.update_of_ne this] using h0
  · have ht := hx.tool
    simp only [append_atOnce] at ht ⊢
    rcases h01 with rfl | rfl
    · rw [ht, lifted_mul, Function.update_self, Function.update_of_ne (by decide), hi]
      simp only [attached]
      congr 1; ring
    · rw [ht, lifted_mul, Function.update_self, Function.update_of_ne (by decide), hi]
      simp only [attached]
      congr 1; ring

/-- C98 fails for two threads that attach tools at the same time: both are told that it was done, and one of the tools
is lost. -/
theorem C98_tool_lost (svd : Mat3 → Vec3) (pinv : Pinv) : ∃ x,
    Busy.Steps svd pinv demo (fun _ _ => True) ⟨noTool, fun _ => none⟩ twoTools x ∧ x.tool = longTool ∧
    ∀ y, Ideal.Steps svd pinv demo ⟨noTool, fun _ => none⟩ twoTools y → y.tool.frame = lifted 20 ∧ y.tool ≠ x.tool := by
  have hne : lifted 20 ≠ lifted 10 := by
    intro h
    have := congrArg (fun f => f.p.z) h
    norm_num [lifted] at this
  obtain ⟨x, hx, hxt⟩ : ∃ x, Busy.Steps svd pinv demo (fun _ _ => True) ⟨noTool, fun _ => none⟩ twoTools x ∧
      x.tool = longTool := by
    suffices h : ∃ th, Busy.Steps svd pinv demo (fun _ _ => True) ⟨noTool, fun _ => none⟩ twoTools ⟨longTool, th⟩ by
      obtain ⟨th, h⟩ := h
      exact ⟨_, h, rfl⟩
    refine ⟨?_, ?_⟩
    swap
    · refine .step (l := some _) (.call (i := 0) rfl trivial) ?_
      rw [append_code]
      refine .step (l := some _) (.call (i := 1) rfl trivial) ?_
      rw [append_code]
      refine .step (l := none) (.read (i := 0) rfl) ?_
      refine .step (l := none) (.read (i := 1) rfl) ?_
      refine .step (l := none) (.write (i := 0) rfl) ?_
      refine .step (l := none) (.write (i := 1) rfl) ?_
      refine .step (l := some _) (.ret (i := 0) rfl) ?_
      refine .step (l := some _) (.ret (i := 1) rfl) ?_
      have : (⟨true, noTool.frame * lifted 10⟩ : Tool) = longTool := by
        simp [noTool, longTool]
      rw [this]
      exact .refl _
  refine ⟨x, hx, hxt, fun y hy => ?_⟩
  have hy : Counted true true y := by
    have h0 : Counted false false ⟨noTool, fun _ => none⟩ := by
      refine ⟨fun i r h => (by cases h), ?_, fun h => (by cases h), fun h => (by cases h)⟩
      simp [attached, noTool, lifted_zero]
    obtain ⟨x1, x2, h1, h2, hy⟩ := hy.first
    have c1 := counted_silent h1 h0
    have c2 : Counted false false x2 := by
      cases h2 with
      | @call t th i r hi =>
        refine ⟨fun j r' hj => ?_, ?_, fun h => (by cases h), fun h => (by cases h)⟩
        · by_cases hj0 : j = 0
          · subst hj0
            simp only [Function.update_self, Option.some.injEq, Turn.begun.injEq] at hj
            exact ⟨hj.symm, Or.inl rfl⟩
          · simp only [Function.update_of_ne hj0] at hj
            exact c1.begun j r' hj
        · have := c1.tool
          simp only [hi] at this
          simpa [attached] using this
    obtain ⟨x3, x4, h3, h4, hy⟩ := hy.first
    have c3 := counted_silent h3 c2
    have c4 : Counted false false x4 := by
      cases h4 with
      | @call t th i r hi =>
        refine ⟨fun j r' hj => ?_, ?_, fun h => (by cases h), fun h => (by cases h)⟩
        · by_cases hj0 : j = 1
          · subst hj0
            simp only [Function.update_self, Option.some.injEq, Turn.begun.injEq] at hj
            exact ⟨hj.symm, Or.inr rfl⟩
          · simp only [Function.update_of_ne hj0] at hj
            exact c3.begun j r' hj
        · have := c3.tool
          simp only [hi] at this
          simpa [attached] using this
    obtain ⟨x5, x6, h5, h6, hy⟩ := hy.first
    have c5 := counted_silent h5 c4
    have c6 : Counted true false x6 := by
      cases h6 with
      | @ret t th i a hi =>
        refine ⟨fun j r' hj => ?_, ?_, fun _ => by simp, fun h => (by cases h)⟩
        · by_cases hj0 : j = 0
          · subst hj0
            simp only [Function.update_self] at hj
            cases hj
          · simp only [Function.update_of_ne hj0] at hj
            exact c5.begun j r' hj
        · have := c5.tool
          simp only [hi] at this
          simpa [attached] using this
    obtain ⟨x7, x8, h7, h8, hy⟩ := hy.first
    have c7 := counted_silent h7 c6
    have c8 : Counted true true x8 := by
      cases h8 with
      | @ret t th i a hi =>
        refine ⟨fun j r' hj => ?_, ?_, fun _ => by simpa using c7.back0 rfl, fun _ => by simp⟩
        · by_cases hj0 : j = 1
          · subst hj0
            simp only [Function.update_self] at hj
            cases hj
          · simp only [Function.update_of_ne hj0] at hj
            exact c7.begun j r' hj
        · have := c7.tool
          simp only [hi] at this
          simpa [attached] using this
    exact counted_silent hy c8
  have ht : y.tool.frame = lifted 20 := by
    rw [hy.tool, hy.back0 rfl, hy.back1 rfl]
    simp only [attached]
    norm_num
  refine ⟨ht, fun h => hne ?_⟩
  rw [← ht, h, hxt]
  rfl

theorem demo_fwd_long (svd : Mat3 → Vec3) : fwdKin svd (demo.withTool longTool) zeros = some (upright 13) := by
  have hq : Joints.read zeros = some ⟨0, 0, 0, 0, 0⟩ := rfl
  rw [fwdKin_tool svd rfl hq, demo_hand, vectorToMatrix_upright]
  have : lifted 3 * (demo.withTool longTool).frameTcp = lifted 13 := by
    show lifted 3 * lifted 10 = _
    rw [lifted_mul]; norm_num
  simp only [Option.bind_some, this, matrixToVector_lifted]

theorem demo_origin (svd : Mat3 → Vec3) (z : ℝ) : changeOrigin svd (upright 0) (upright z) = some (upright z) := by
  simp only [changeOrigin, vectorToMatrix_upright, Option.bind_eq_bind, Option.bind_some, Option.pure_def, lifted_mul,
    matrixToVector_lifted, add_zero]

theorem demo_stay (svd : Mat3 → Vec3) : invKin svd (demo.withTool noTool) (upright 0) zeros .tcp = some (some zeros) := by
  have hq : Joints.read zeros = some ⟨0, 0, 0, 0, 0⟩ := rfl
  have hf : fwdKin svd (demo.withTool noTool) zeros = some (upright 3) := demo_fwd svd
  simp only [invKin, hq, Option.bind_eq_bind, Option.bind_some, hf, demo_origin]
  rw [if_neg (by simp [noTool, Solver.withTool])]
  exact demo_solve noTool

theorem demo_base_long (svd : Mat3 → Vec3) (z : ℝ) : invKin svd (demo.withTool longTool) (upright z) zeros .base =
    solve (demo.withTool longTool) (upright (z - 10)) ⟨0, 0, 0, 0, 0⟩ := by
  have hq : Joints.read zeros = some ⟨0, 0, 0, 0, 0⟩ := rfl
  simp only [invKin, hq, Option.bind_eq_bind, Option.bind_some, vectorToMatrix_upright]
  rw [if_pos (show (demo.withTool longTool).hasFrame = true from rfl)]
  have : lifted z * (demo.withTool longTool).frameTcp.inv = lifted (z - 10) := by
    show lifted z * (lifted 10).inv = _
    rw [lifted_inv, lifted_mul]; rfl
  rw [this, matrixToVector_lifted]

theorem demo_stay_long (svd : Mat3 → Vec3) :
    invKin svd (demo.withTool longTool) (upright 0) zeros .tcp = some (some zeros) := by
  have hq : Joints.read zeros = some ⟨0, 0, 0, 0, 0⟩ := rfl
  have hb := demo_base_long svd 13
  simp only [invKin, hq, Option.bind_eq_bind, Option.bind_some] at hb
  simp only [invKin, hq, Option.bind_eq_bind, Option.bind_some, demo_fwd_long, demo_origin]
  rw [hb, show (13 : ℝ) - 10 = 3 by norm_num]
  exact demo_solve longTool

/-- One more event at the end. -/
theorem Busy.Steps.snoc {svd : Mat3 → Vec3} {pinv : Pinv} {s : Solver} {A : ℕ → Req → Prop} {x y z : Busy} {es : List Seen}
    {e : Seen} (h : Busy.Steps svd pinv s A x es y) (hs : Busy.Step svd pinv s A y (some e) z) :
    Busy.Steps svd pinv s A x (es ++ [e]) z := by
  induction h with
  | refl => exact .step (l := some e) hs (.refl _)
  | step h1 _ ih =>
    rw [List.append_assoc]
    exact .step h1 (ih hs)

/-- A thread asks how to stay where the hand is. Meanwhile another attaches a tool. The first is told that this cannot be
reached. -/
def cannotStay : List Seen :=
  [.call 0 (.inv (upright 0) zeros .tcp), .call 1 (.append (upright 10)), .ret 1 (some (some [])), .ret 0 (some none)]

/-- The thread that asks how to stay is told it can, and the other attaches the tool once: `b` tells if it has begun. -/
structure Stays (b : Bool) (x : Ideal) : Prop where
  asks : x.threads 0 = none ∨ x.threads 0 = some (.begun (.inv (upright 0) zeros .tcp)) ∨
    x.threads 0 = some (.done (some (some zeros)))
  tool : x.tool = noTool ∨ (x.tool = longTool ∧ b = true ∧ ∀ r, x.threads 1 ≠ some (.begun r))
  attaches : ∀ r, x.threads 1 = some (.begun r) → r = .append (upright 10) ∧ b = true
  others : ∀ i r, x.threads i = some (.begun r) → i = 0 ∨ i = 1

theorem stays_silent {svd : Mat3 → Vec3} {pinv : Pinv} {b : Bool} {x z : Ideal}
    (h : Ideal.Steps svd pinv demo x [] z) (hx : Stays b x) : Stays b z := by
  refine h.silent (fun t th i r hx hi => ?_) hx
  rcases hx.others i r hi with rfl | rfl
  · have hr : r = .inv (upright 0) zeros .tcp := by
      rcases hx.asks with h | h | h <;> simp only [hi] at h <;> cases h
      rfl
    subst hr
    have ha : (Req.inv (upright 0) zeros .tcp).atOnce svd pinv demo t = (t, some (some zeros)) := by
      rcases hx.tool with h | ⟨h, _⟩
      · simp only at h
        subst h
        simp only [Req.atOnce, demo_stay]
      · simp only at h
        subst h
        simp only [Req.atOnce, demo_stay_long]
    rw [ha]
    refine ⟨Or.inr (Or.inr (by simp)), ?_, ?_, ?_⟩
    · simpa only [Function.update_of_ne (show (1 : ℕ) ≠ 0 by decide)] using hx.tool
    · simpa only [Function.update_of_ne (show (1 : ℕ) ≠ 0 by decide)] using hx.attaches
    · intro j r hj
      by_cases hj0 : j = 0
      · exact Or.inl hj0
      · simp only [Function.update_of_ne hj0] at hj
        exact hx.others j r hj
  · obtain ⟨rfl, hb⟩ := hx.attaches r hi
    have ht : t = noTool := by
      rcases hx.tool with h | ⟨_, _, h⟩
      · exact h
      · exact absurd hi (h _)
    subst ht
    rw [append_atOnce]
    refine ⟨by simpa using hx.asks, Or.inr ⟨?_, hb, by simp⟩, by simp, ?_⟩
    · simp [noTool, longTool]
    · intro j r hj
      by_cases hj0 : j = 1
      · exact Or.inr hj0
      · simp only [Function.update_of_ne hj0] at hj
        exact hx.others j r hj

/-- C98 fails for a pose in the frame of the tool while another thread attaches a tool: with the tool before and with the
tool after, the answer is to stay. The answer given is that the pose cannot be reached, and no solver that does each call
at once gives it. -/
theorem C98_unreachable_halfway (svd : Mat3 → Vec3) (pinv : Pinv) :
    (∃ x, Busy.Steps svd pinv demo (fun _ _ => True) ⟨noTool, fun _ => none⟩ cannotStay x) ∧
    invKin svd (demo.withTool noTool) (upright 0) zeros .tcp = some (some zeros) ∧
    invKin svd (demo.withTool longTool) (upright 0) zeros .tcp = some (some zeros) ∧
    ∀ y, ¬ Ideal.Steps svd pinv demo ⟨noTool, fun _ => none⟩ cannotStay y := by
  refine ⟨?_, demo_stay svd, demo_stay_long svd, fun y hy => ?_⟩
  · have hc : (Req.inv (upright 0) zeros .tcp).code svd pinv demo = .read fun t =>
        match (fwdKin svd (demo.withTool t) zeros).bind fun x => changeOrigin svd (upright 0) x with
        | none => .done none
        | some y => .read fun t' => .done (invKin svd (demo.withTool t') y zeros .base) := rfl
    have hl : (⟨true, noTool.frame * lifted 10⟩ : Tool) = longTool := by
      simp [noTool, longTool]
    have hf : fwdKin svd (demo.withTool noTool) zeros = some (upright 3) := demo_fwd svd
    suffices h : ∃ th : ℕ → Option Code, th 0 = some (.done (some none)) ∧
        Busy.Steps svd pinv demo (fun _ _ => True) ⟨noTool, fun _ => none⟩
          [.call 0 (.inv (upright 0) zeros .tcp), .call 1 (.append (upright 10)), .ret 1 (some (some []))]
          ⟨longTool, th⟩ by
      obtain ⟨th, h1, h2⟩ := h
      exact ⟨_, h2.snoc (.ret h1)⟩
    refine ⟨?_, ?_, ?_⟩
    rotate_left 2
    · refine .step (l := some _) (.call (i := 0) rfl trivial) ?_
      rw [hc]
      refine .step (l := none) (.read (i := 0) rfl) ?_
      simp only [hf, Option.bind_some, demo_origin]
      refine .step (l := some _) (.call (i := 1) rfl trivial) ?_
      rw [append_code]
      refine .step (l := none) (.read (i := 1) rfl) ?_
      refine .step (l := none) (.write (i := 1) rfl) ?_
      refine .step (l := some _) (.ret (i := 1) rfl) ?_
      rw [hl]
      refine .step (l := none) (.read (i := 0) rfl) ?_
      rw [demo_base_long, show (3 : ℝ) - 10 = -7 by norm_num, demo_far]
      exact .refl _
    · rfl
  · have h0 : Stays false ⟨noTool, fun _ => none⟩ :=
      ⟨Or.inl rfl, Or.inl rfl, fun r h => (by cases h), fun i r h => (by cases h)⟩
    have h10 : (1 : ℕ) ≠ 0 := by decide
    have h01 : (0 : ℕ) ≠ 1 := by decide
    obtain ⟨x1, x2, h1, h2, hy⟩ := hy.first
    have c1 := stays_silent h1 h0
    have c2 : Stays false x2 := by
      cases h2 with
      | @call t th i r hi =>
        refine ⟨Or.inr (Or.inl (by simp)), by simpa only [Function.update_of_ne h10] using c1.tool,
          by simpa only [Function.update_of_ne h10] using c1.attaches, fun j r hj => ?_⟩
        by_cases hj0 : j = 0
        · exact Or.inl hj0
        · simp only [Function.update_of_ne hj0] at hj
          exact c1.others j r hj
    obtain ⟨x3, x4, h3, h4, hy⟩ := hy.first
    have c3 := stays_silent h3 c2
    have c4 : Stays true x4 := by
      cases h4 with
      | @call t th i r hi =>
        refine ⟨by simpa only [Function.update_of_ne h01] using c3.asks, ?_, fun r hr => ?_, fun j r hj => ?_⟩
        · rcases c3.tool with h | ⟨_, h, _⟩
          · exact Or.inl h
          · cases h
        · simp only [Function.update_self, Option.some.injEq, Turn.begun.injEq] at hr
          exact ⟨hr.symm, rfl⟩
        · by_cases hj0 : j = 1
          · exact Or.inr hj0
          · simp only [Function.update_of_ne hj0] at hj
            exact c3.others j r hj
    obtain ⟨x5, x6, h5, h6, hy⟩ := hy.first
    have c5 := stays_silent h5 c4
    have c6 : Stays true x6 := by
      cases h6 with
      | @ret t th i a hi =>
        refine ⟨by simpa only [Function.update_of_ne h01] using c5.asks, ?_, fun r hr => ?_, fun j r hj => ?_⟩
        · rcases c5.tool with h | ⟨h, _, _⟩
          · exact Or.inl h
          · exact Or.inr ⟨h, rfl, by simp⟩
        · simp only [Function.update_self] at hr
          cases hr
        · by_cases hj0 : j = 1
          · exact Or.inr hj0
          · simp only [Function.update_of_ne hj0] at hj
            exact c5.others j r hj
    obtain ⟨x7, x8, h7, h8, hy⟩ := hy.first
    have c7 := stays_silent h7 c6
    cases h8 with
    | @ret t th i a hi =>
      rcases c7.asks with h | h | h <;> simp only [hi] at h <;> cases h

/-- `C98_at_once_partial` at work: a thread asks for the pose, another attaches a tool meanwhile, and the pose is that of
the tool. -/
example (svd : Mat3 → Vec3) (pinv : Pinv) : ∃ y, Ideal.Steps svd pinv demo ⟨noTool, fun _ => none⟩
    [.call 1 (.fwd zeros), .call 0 (.append (upright 10)), .ret 0 (some (some [])), .ret 1 (some (some (upright 13)))] y ∧
    y.tool = longTool := by
  have hl : (⟨true, noTool.frame * lifted 10⟩ : Tool) = longTool := by
    simp [noTool, longTool]
  have hc : (Req.fwd zeros).code svd pinv demo =
      .read fun t => .done ((fwdKin svd (demo.withTool t) zeros).map some) := rfl
  suffices h : ∃ th : ℕ → Option Code, th 1 = some (.done (some (some (upright 13)))) ∧
      Busy.Steps svd pinv demo (oneChanges 0) ⟨noTool, fun _ => none⟩
        [.call 1 (.fwd zeros), .call 0 (.append (upright 10)), .ret 0 (some (some []))] ⟨longTool, th⟩ by
    obtain ⟨th, h1, h2⟩ := h
    exact C98_at_once_partial (h2.snoc (.ret h1))
  refine ⟨?_, ?_, ?_⟩
  rotate_left 2
  · refine .step (l := some _) (.call (i := 1) rfl (Or.inr trivial)) ?_
    rw [hc]
    refine .step (l := some _) (.call (i := 0) rfl (Or.inl rfl)) ?_
    rw [append_code]
    refine .step (l := none) (.read (i := 0) rfl) ?_
    refine .step (l := none) (.write (i := 0) rfl) ?_
    refine .step (l := some _) (.ret (i := 0) rfl) ?_
    rw [hl]
    refine .step (l := none) (.read (i := 1) rfl) ?_
    rw [demo_fwd_long]
    exact .refl _
  · rfl

end Asibot

end KD
