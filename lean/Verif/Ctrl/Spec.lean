import Verif.Ctrl.CtlLemmas

/-!
# What the statements about the controller speak of
-/

namespace KD.Ctrl

/-- Calls that make the robot move. -/
def IsMotion : Ev → Prop
  | .positionMove _ _ => True
  | .setPositions _ _ => True
  | .velocityMove _ _ => True
  | .setRefTorques _ _ => True
  | _ => False

/-- No motion command was sent. -/
def NoMotion (tr : List Ev) : Prop := ∀ e ∈ tr, ¬IsMotion e

/-- All three encoder reads of the cycle succeeded. -/
def EncodersRead (tr : List Ev) : Prop :=
  ∃ q qdot qdotdot, Ev.getEncoders (some q) ∈ tr ∧ Ev.getEncoderSpeeds (some qdot) ∈ tr ∧
    Ev.getEncoderAccelerations (some qdotdot) ∈ tr

/-- The control mode of each state. -/
def neededMode (cfg : Cfg) : CState → Option Mode
  | .notControlling => none
  | .movj => some .position
  | .movl => some (if cfg.usePosdMovl then .positionDirect else .velocity)
  | .movv => some .velocity
  | .gcmp => some .torque
  | .forc => some .torque

/-- The answer to the first question about control modes. -/
def firstModes : List Ev → Option (Option (List Mode))
  | [] => none
  | .getControlModes r :: _ => some r
  | _ :: es => firstModes es

/-- What makes a cycle fail, once the joint positions are known to be good: a joint in another control
mode (or no answer about it), a failing query to the robot or the solver, or a joint speed out of its
limits. -/
def HandlerFails (cfg : Cfg) (st : CState) (tr : List Ev) : Prop :=
  (∃ r, firstModes tr = some r ∧ ∀ modes, r = some modes → ∃ m ∈ modes, neededMode cfg st ≠ some m) ∨
  Ev.checkMotionDone none ∈ tr ∨
  (∃ q, Ev.fwdKin q none ∈ tr) ∨
  (∃ x q f, Ev.invKin x q f none ∈ tr) ∨
  (∃ q x f, Ev.diffInvKin q x f none ∈ tr) ∨
  (∃ q, Ev.invDynStatic q none ∈ tr) ∨
  (∃ q v a w f, Ev.invDyn q v a w f none ∈ tr) ∨
  (∃ q x f v, Ev.diffInvKin q x f (some v) ∈ tr ∧ ¬InVelLimits cfg v)

/-- What makes a cycle fail: a joint near or out of its limits, or one of the above. -/
def CycleFails (cfg : Cfg) (st : CState) (tr : List Ev) : Prop :=
  (∃ q, Ev.getEncoders (some q) ∈ tr ∧ ¬InLimits cfg q) ∨ HandlerFails cfg st tr

/-- The movement has been given up: the controller is idle, has told the robot to stop as the last
thing, has sent no motion command, and remembers the failure. -/
def Aborted (s' : Ctl) (tr : List Ev) : Prop :=
  s'.state = .notControlling ∧ s'.cmcSuccess = false ∧ (∃ pre r, tr = pre ++ [Ev.stop r]) ∧ NoMotion tr

end KD.Ctrl
