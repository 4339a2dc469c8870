import Verif.Screw.MatrixExponential
import Verif.Kdl.Chain

/-! # /repo/libraries/ScrewTheoryLib/ProductOfExponentials.{hpp,cpp} -/

namespace KD

/-- `PoeExpression`: the terms and the base-to-tool transform
(/repo/libraries/ScrewTheoryLib/ProductOfExponentials.hpp, private members). -/
@[ext]
structure Poe where
  exps : List MatrixExp
  tool : Frame

namespace Poe

/-- `PoeExpression(H_S_T)`, /repo/libraries/ScrewTheoryLib/ProductOfExponentials.hpp:35. -/
def empty (H : Frame) : Poe := ⟨[], H⟩

/-- `append(exp, H_new_old)`, /repo/libraries/ScrewTheoryLib/ProductOfExponentials.hpp:47-48. -/
def appendExp (poe : Poe) (e : MatrixExp) (H : Frame) : Poe :=
  ⟨poe.exps ++ [e.changeBase H], poe.tool⟩

/-- `append(poe, H_new_old)`, /repo/libraries/ScrewTheoryLib/ProductOfExponentials.cpp:58-66. -/
def append (poe other : Poe) (H : Frame) : Poe :=
  { other.exps.foldl (fun acc e => acc.appendExp e H) poe with tool := H * other.tool }

/-- `changeBaseFrame`, /repo/libraries/ScrewTheoryLib/ProductOfExponentials.cpp:70-78. -/
def changeBaseFrame (poe : Poe) (H : Frame) : Poe :=
  ⟨poe.exps.map (·.changeBase H), H * poe.tool⟩

/-- `changeToolFrame`, /repo/libraries/ScrewTheoryLib/ProductOfExponentials.hpp:104-105. -/
def changeToolFrame (poe : Poe) (H : Frame) : Poe := ⟨poe.exps, poe.tool * H⟩

/-- Loop of `evaluate`, /repo/libraries/ScrewTheoryLib/ProductOfExponentials.cpp:92-95. The
sizes agree when it is called. -/
noncomputable def evalLoop : List MatrixExp → List ℝ → Frame → Frame
  | e :: es, q :: qs, H => evalLoop es qs (H * e.asFrame q)
  | _, _, H => H

/-- `evaluate(q, H)`, /repo/libraries/ScrewTheoryLib/ProductOfExponentials.cpp:82-100. Takes
the previous value of the output argument; returns the flag and its new value. -/
noncomputable def evaluate (poe : Poe) (q : List ℝ) (H : Frame) : Bool × Frame :=
  if poe.exps.length ≠ q.length then (false, H)
  else (true, evalLoop poe.exps q 1 * poe.tool)

/-- `reverseSelf`, /repo/libraries/ScrewTheoryLib/ProductOfExponentials.cpp:104-114. -/
def reverseSelf (poe : Poe) : Poe :=
  let H := poe.tool.inv
  ⟨(poe.exps.map (·.changeBase H)).reverse, H⟩

/-- `makeReverse`, /repo/libraries/ScrewTheoryLib/ProductOfExponentials.cpp:118-134. -/
def makeReverse (poe : Poe) : Poe :=
  let r := poe.exps.foldl (fun acc e => acc.appendExp e acc.tool) (empty poe.tool.inv)
  ⟨r.exps.reverse, r.tool⟩

/-- `motionToJointType`, /repo/libraries/ScrewTheoryLib/ProductOfExponentials.cpp:22-33. -/
def motionToJointType : Motion → JointType
  | .rotation => .rotAxis
  | .translation => .transAxis

/-- `jointTypeToMotionId`, /repo/libraries/ScrewTheoryLib/ProductOfExponentials.cpp:35-53;
`none` stands for `UNKNOWN_OR_STATIC_JOINT`. -/
def jointTypeToMotion : JointType → Option Motion
  | .rotAxis | .rotX | .rotY | .rotZ => some .rotation
  | .transAxis | .transX | .transY | .transZ => some .translation
  | .none => none

/-- Loop of `toChain`, /repo/libraries/ScrewTheoryLib/ProductOfExponentials.cpp:143-156;
returns the segments and the last `H_S_prev`. -/
noncomputable def toChainLoop : List MatrixExp → Frame → Chain × Frame
  | [], prev => ([], prev)
  | e :: es, prev =>
    let j := Joint.ofAxis (prev.inv.act e.origin) e.axis (motionToJointType e.motion)
    let s := Segment.make j (Frame.trans j.jointOrigin)
    let r := toChainLoop es (Frame.trans e.origin)
    (s :: r.1, r.2)

/-- `toChain`, /repo/libraries/ScrewTheoryLib/ProductOfExponentials.cpp:138-163. -/
noncomputable def toChain (poe : Poe) : Chain :=
  let r := toChainLoop poe.exps 1
  r.1 ++ [Segment.make Joint.fixed (r.2.inv * poe.tool)]

/-- Loop of `fromChain`, /repo/libraries/ScrewTheoryLib/ProductOfExponentials.cpp:174-188;
returns the terms and the last `H_S_prev`. -/
noncomputable def fromChainLoop : Chain → Frame → List MatrixExp × Frame
  | [], prev => ([], prev)
  | s :: c, prev =>
    let r := fromChainLoop c (prev * s.pose 0)
    match jointTypeToMotion s.joint.type with
    | some m =>
      ((MatrixExp.make m (prev.M.mulVec s.joint.jointAxis)
        (prev.act s.joint.jointOrigin)).changeBase 1 :: r.1, r.2)
    | none => r

/-- `fromChain`, /repo/libraries/ScrewTheoryLib/ProductOfExponentials.cpp:167-193. -/
noncomputable def fromChain (c : Chain) : Poe :=
  let r := fromChainLoop c 1
  ⟨r.1, r.2⟩

end Poe

end KD
