import Verif.Ctrl.Controller
import Verif.Repr.KinRepresentation

/-!
# The client and the server of the controller

Model of /repo/libraries/YarpPlugins/CartesianControlClient and
/repo/libraries/YarpPlugins/CartesianControlServer. A message is a `yarp::os::Bottle`: a list of values,
which the network transports unchanged. What a `yarp::os::Value` gives when asked for another type is that
of YARP 3, which is not part of the repository.
-/

namespace KD.Net

open KD.Ctrl (vocab toInt)

/-! ## Messages -/

/-- A `yarp::os::Value`. Of a string only the number that `asVocab32` makes of it is kept.
External: what a `yarp::os::Bottle` carries. -/
inductive Val
  | null
  | vocab (v : ℤ)
  | int (n : ℤ)
  | float (x : ℝ)
  | str (code : ℤ)
  | list (vs : List Val)

/-- A `yarp::os::Bottle`. External: `yarp::os::Bottle`. -/
abbrev Bottle := List Val

/-- `Value::asVocab32`.
Used at /repo/libraries/YarpPlugins/CartesianControlServer/RpcResponder.cpp:52-495 and /repo/libraries/YarpPlugins/CartesianControlClient/ICartesianControlImpl.cpp:48-380. -/
def Val.asVocab : Val → ℤ
  | .vocab v => v
  | .int n => n
  | .str c => c
  | _ => 0

/-- `Value::asFloat64`.
Used at /repo/libraries/YarpPlugins/CartesianControlServer/RpcResponder.cpp:312-449 and /repo/libraries/YarpPlugins/CartesianControlClient/ICartesianControlImpl.cpp:76-376. -/
noncomputable def Val.asFloat : Val → ℝ
  | .vocab v => v
  | .int n => n
  | .float x => x
  | _ => 0

/-- `Value::isVocab32`. Used at /repo/libraries/YarpPlugins/CartesianControlClient/ICartesianControlImpl.cpp. -/
def Val.isVocab : Val → Bool
  | .vocab _ => true
  | _ => false

/-- `Bottle::get`: a null value past the end.
`Bottle::get`, used in /repo/libraries/YarpPlugins/CartesianControlServer/RpcResponder.cpp and /repo/libraries/YarpPlugins/CartesianControlClient/ICartesianControlImpl.cpp. -/
def get (b : Bottle) (i : ℕ) : Val := b.getD i .null

/-! The vocabularies of /repo/libraries/YarpPlugins/ICartesianControl.h:35-135. -/

/-- `VOCAB_CC_OK`. /repo/libraries/YarpPlugins/ICartesianControl.h:35. -/
def vOk : ℤ := vocab 'o' 'k' '\x00' '\x00'
/-- `VOCAB_CC_FAILED`. /repo/libraries/YarpPlugins/ICartesianControl.h:36. -/
def vFailed : ℤ := vocab 'f' 'a' 'i' 'l'
/-- `VOCAB_CC_SET`. /repo/libraries/YarpPlugins/ICartesianControl.h:37. -/
def vSet : ℤ := vocab 's' 'e' 't' '\x00'
/-- `VOCAB_CC_GET`. /repo/libraries/YarpPlugins/ICartesianControl.h:38. -/
def vGet : ℤ := vocab 'g' 'e' 't' '\x00'
/-- `VOCAB_CC_STAT`. /repo/libraries/YarpPlugins/ICartesianControl.h:52. -/
def vStat : ℤ := vocab 's' 't' 'a' 't'
/-- `VOCAB_CC_INV`. /repo/libraries/YarpPlugins/ICartesianControl.h:53. -/
def vInv : ℤ := vocab 'i' 'n' 'v' '\x00'
/-- `VOCAB_CC_MOVJ`. /repo/libraries/YarpPlugins/ICartesianControl.h:54. -/
def vMovj : ℤ := vocab 'm' 'o' 'v' 'j'
/-- `VOCAB_CC_RELJ`. /repo/libraries/YarpPlugins/ICartesianControl.h:55. -/
def vRelj : ℤ := vocab 'r' 'e' 'l' 'j'
/-- `VOCAB_CC_MOVL`. /repo/libraries/YarpPlugins/ICartesianControl.h:56. -/
def vMovl : ℤ := vocab 'm' 'o' 'v' 'l'
/-- `VOCAB_CC_MOVV`. /repo/libraries/YarpPlugins/ICartesianControl.h:57. -/
def vMovv : ℤ := vocab 'm' 'o' 'v' 'v'
/-- `VOCAB_CC_GCMP`. /repo/libraries/YarpPlugins/ICartesianControl.h:58. -/
def vGcmp : ℤ := vocab 'g' 'c' 'm' 'p'
/-- `VOCAB_CC_FORC`. /repo/libraries/YarpPlugins/ICartesianControl.h:59. -/
def vForc : ℤ := vocab 'f' 'o' 'r' 'c'
/-- `VOCAB_CC_STOP`. /repo/libraries/YarpPlugins/ICartesianControl.h:60. -/
def vStop : ℤ := vocab 's' 't' 'o' 'p'
/-- `VOCAB_CC_WAIT`. /repo/libraries/YarpPlugins/ICartesianControl.h:61. -/
def vWait : ℤ := vocab 'w' 'a' 'i' 't'
/-- `VOCAB_CC_TOOL`. /repo/libraries/YarpPlugins/ICartesianControl.h:62. -/
def vTool : ℤ := vocab 't' 'o' 'o' 'l'
/-- `VOCAB_CC_ACT`. /repo/libraries/YarpPlugins/ICartesianControl.h:63. -/
def vAct : ℤ := vocab 'a' 'c' 't' '\x00'
/-- `VOCAB_CC_POSE`. /repo/libraries/YarpPlugins/ICartesianControl.h:76. -/
def vPose : ℤ := vocab 'p' 'o' 's' 'e'
/-- `VOCAB_CC_MOVI`. /repo/libraries/YarpPlugins/ICartesianControl.h:79. -/
def vMovi : ℤ := vocab 'm' 'o' 'v' 'i'
/-- `VOCAB_CC_TWIST`. /repo/libraries/YarpPlugins/ICartesianControl.h:81. -/
def vTwist : ℤ := vocab 't' 'w' 's' 't'
/-- `VOCAB_CC_WRENCH`. /repo/libraries/YarpPlugins/ICartesianControl.h:82. -/
def vWrench : ℤ := vocab 'w' 'r' 'n' 'c'
/-- `VOCAB_CC_CONFIG_PARAMS`. /repo/libraries/YarpPlugins/ICartesianControl.h:129. -/
def vParams : ℤ := vocab 'p' 'r' 'm' 's'
/-- `VOCAB_CC_CONFIG_FRAME`. /repo/libraries/YarpPlugins/ICartesianControl.h:134. -/
def vFrame : ℤ := vocab 'c' 'p' 'f' '\x00'
/-- `VOCAB_CC_CONFIG_STREAMING_CMD`. /repo/libraries/YarpPlugins/ICartesianControl.h:135. -/
def vStreaming : ℤ := vocab 'c' 'p' 's' 'c'
/-- The word `help`.
Answered by the `DeviceResponder` of YARP that /repo/libraries/YarpPlugins/CartesianControlServer/RpcResponder.cpp:52-95 falls back to. -/
def vHelp : ℤ := vocab 'h' 'e' 'l' 'p'
/-- The word `many`.
Answered by the `DeviceResponder` of YARP that /repo/libraries/YarpPlugins/CartesianControlServer/RpcResponder.cpp:52-95 falls back to. -/
def vMany : ℤ := vocab 'm' 'a' 'n' 'y'

/-! ## The interface -/

/-- The commands that take a vector.
/repo/libraries/YarpPlugins/CartesianControlClient/ICartesianControlImpl.cpp:195-262. -/
inductive VecCmd | movj | relj | movl | movv | forc | tool
  deriving DecidableEq

/-- The commands without arguments.
/repo/libraries/YarpPlugins/CartesianControlClient/ICartesianControlImpl.cpp:223-241. -/
inductive RunCmd | gcmp | stop
  deriving DecidableEq

/-- The streaming commands. /repo/libraries/YarpPlugins/CartesianControlClient/ICartesianControlImpl.cpp:279-296. -/
inductive StreamCmd | pose | twist | wrench
  deriving DecidableEq

/-- The calls of `ICartesianControl`, /repo/libraries/YarpPlugins/ICartesianControl.h:175-428. A
`std::map` is the list of its entries. -/
inductive Req
  | stat
  | inv (xd : List ℝ)
  | vec (c : VecCmd) (x : List ℝ)
  | run (c : RunCmd)
  | wait (timeout : ℝ)
  | act (command : ℤ)
  | set (key : ℤ) (value : ℝ)
  | get (key : ℤ)
  | setAll (params : List (ℤ × ℝ))
  | getAll
  | stream (c : StreamCmd) (x : List ℝ)

/-- What they return; `none` is a false result. `stat` gives the pose, the state and the time stamp,
`getAll` the entries it adds to an empty map.
/repo/libraries/YarpPlugins/CartesianControlClient/ICartesianControlImpl.cpp:141-380. -/
def Req.Ans : Req → Type
  | stat => Option (List ℝ × ℤ × ℝ)
  | inv _ => Option (List ℝ)
  | vec _ _ => Bool
  | run _ => Bool
  | wait _ => Bool
  | act _ => Bool
  | set _ _ => Bool
  | get _ => Option ℝ
  | setAll _ => Bool
  | getAll => Option (List (ℤ × ℝ))
  | stream _ _ => Unit

/-- An implementation of `ICartesianControl`: any state machine.
The `ICartesianControl` behind /repo/libraries/YarpPlugins/CartesianControlServer/. -/
structure Backend (σ : Type) where
  call : σ → (r : Req) → r.Ans × σ

/-! ## Values of parameters -/

/-- `addValue`, /repo/libraries/YarpPlugins/CartesianControlClient/ICartesianControlImpl.cpp:21-31 and
/repo/libraries/YarpPlugins/CartesianControlServer/RpcResponder.cpp:24-34: the value as a message value, undefined if
it does not fit
in an integer. -/
noncomputable def addValue (key : ℤ) (value : ℝ) : Option Val :=
  if key = vFrame ∨ key = vStreaming then (toInt value).map .vocab else some (.float value)

/-- `asValue`, /repo/libraries/YarpPlugins/CartesianControlClient/ICartesianControlImpl.cpp:33-43 and
/repo/libraries/YarpPlugins/CartesianControlServer/RpcResponder.cpp:36-46. -/
noncomputable def asValue (key : ℤ) (v : Val) : ℝ :=
  if key = vFrame ∨ key = vStreaming then (v.asVocab : ℝ) else v.asFloat

/-- The list of one entry of a map: `b.addVocab32(key); addValue(b, key, value)`.
/repo/libraries/YarpPlugins/CartesianControlClient/ICartesianControlImpl.cpp:344-348 and /repo/libraries/YarpPlugins/CartesianControlServer/RpcResponder.cpp:481-486. -/
noncomputable def addEntry (kv : ℤ × ℝ) : Option Val := do
  let v ← addValue kv.1 kv.2
  some (.list [.vocab kv.1, v])

/-- `std::map::emplace` on the sorted entries: a key that is there keeps its value.
`std::map::emplace`, /repo/libraries/YarpPlugins/CartesianControlServer/RpcResponder.cpp:446 and /repo/libraries/YarpPlugins/CartesianControlClient/ICartesianControlImpl.cpp:376. -/
def emplace (k : ℤ) (v : ℝ) : List (ℤ × ℝ) → List (ℤ × ℝ)
  | [] => [(k, v)]
  | (k', v') :: rest =>
    if k < k' then (k, v) :: (k', v') :: rest
    else if k = k' then (k', v') :: rest
    else (k', v') :: emplace k v rest

/-! ## The server -/

/-- `transformIncomingData` and `transformOutgoingData` of an RPC port; undefined if the conversion is.
/repo/libraries/YarpPlugins/CartesianControlServer/CartesianControlServer.hpp:76-140. -/
structure Port where
  incoming : List ℝ → Option (Bool × List ℝ)
  outgoing : List ℝ → Option (Bool × List ℝ)

/-- The plain port, /repo/libraries/YarpPlugins/CartesianControlServer/CartesianControlServer.hpp:92-96. -/
def Port.plain : Port := ⟨fun v => some (true, v), fun v => some (true, v)⟩

/-- The transform port, /repo/libraries/YarpPlugins/CartesianControlServer/RpcResponder.cpp:499-509; the conversion is
in place. -/
noncomputable def Port.transform (c : KinRepr.Coord) (o : KinRepr.Orient) (u : KinRepr.Units) : Port where
  incoming v := (KinRepr.encodePose c o u ⟨[], v, true⟩).map fun r => (r.1, r.2.dst)
  outgoing v := (KinRepr.decodePose c o u ⟨[], v, true⟩).map fun r => (r.1, r.2.dst)

section

variable {σ : Type} (B : Backend σ) (P : Port)

/-- `VOCAB_CC_OK` or `VOCAB_CC_FAILED`. /repo/libraries/YarpPlugins/CartesianControlServer/RpcResponder.cpp:57-461. -/
def verdict (b : Bool) : Bottle := [.vocab (if b then vOk else vFailed)]

/-- `handleStatMsg`, /repo/libraries/YarpPlugins/CartesianControlServer/RpcResponder.cpp:209-239. -/
noncomputable def handleStat (s : σ) : Option (Bottle × σ) :=
  match B.call s .stat with
  | (some (x, state, time), s') => do
    let (ok, x') ← P.outgoing x
    if ok then some (.vocab state :: x'.map .float ++ [.float time], s') else some (verdict false, s')
  | (none, s') => some (verdict false, s')

/-- `handleWaitMsg`, /repo/libraries/YarpPlugins/CartesianControlServer/RpcResponder.cpp:243-265; no argument is
`wait(0.0)`,
/repo/libraries/YarpPlugins/ICartesianControl.h:291. -/
noncomputable def handleWait (s : σ) (msg : Bottle) : Option (Bottle × σ) :=
  let t := if msg.length > 1 then (get msg 1).asFloat else 0
  match B.call s (.wait t) with
  | (b, s') => some (verdict b, s')

/-- `handleActMsg`, /repo/libraries/YarpPlugins/CartesianControlServer/RpcResponder.cpp:269-292. -/
def handleAct (s : σ) (msg : Bottle) : Option (Bottle × σ) :=
  if msg.length > 1 then
    match B.call s (.act (get msg 1).asVocab) with
    | (b, s') => some (verdict b, s')
  else some (verdict false, s)

/-- `handleRunnableCmdMsg`, /repo/libraries/YarpPlugins/CartesianControlServer/RpcResponder.cpp:296-308. -/
def handleRunnable (c : RunCmd) (s : σ) : Option (Bottle × σ) :=
  match B.call s (.run c) with
  | (b, s') => some (verdict b, s')

/-- The numbers of a message after the command.
/repo/libraries/YarpPlugins/CartesianControlServer/RpcResponder.cpp:312-370. -/
noncomputable def args (msg : Bottle) : List ℝ := msg.tail.map Val.asFloat

/-- `handleConsumerCmdMsg`, /repo/libraries/YarpPlugins/CartesianControlServer/RpcResponder.cpp:312-338. -/
noncomputable def handleConsumer (c : VecCmd) (s : σ) (msg : Bottle) : Option (Bottle × σ) :=
  if msg.length > 1 then do
    let (ok, v) ← P.incoming (args msg)
    if ok then
      match B.call s (.vec c v) with
      | (b, s') => some (verdict b, s')
    else some (verdict false, s)
  else some (verdict false, s)

/-- `handleFunctionCmdMsg`, /repo/libraries/YarpPlugins/CartesianControlServer/RpcResponder.cpp:342-372. -/
noncomputable def handleFunction (s : σ) (msg : Bottle) : Option (Bottle × σ) :=
  if msg.length > 1 then do
    let (ok, v) ← P.incoming (args msg)
    if ok then
      match B.call s (.inv v) with
      | (some q, s') => some (q.map .float, s')
      | (none, s') => some (verdict false, s')
    else some (verdict false, s)
  else some (verdict false, s)

/-- `handleParameterSetter`, /repo/libraries/YarpPlugins/CartesianControlServer/RpcResponder.cpp:376-398. -/
noncomputable def handleSet (s : σ) (msg : Bottle) : Option (Bottle × σ) :=
  if msg.length > 2 then
    let key := (get msg 1).asVocab
    match B.call s (.set key (asValue key (get msg 2))) with
    | (b, s') => some (verdict b, s')
  else some (verdict false, s)

/-- `handleParameterGetter`, /repo/libraries/YarpPlugins/CartesianControlServer/RpcResponder.cpp:402-424. -/
noncomputable def handleGet (s : σ) (msg : Bottle) : Option (Bottle × σ) :=
  if msg.length > 1 then
    let key := (get msg 1).asVocab
    match B.call s (.get key) with
    | (some value, s') => do
      let v ← addValue key value
      some ([v], s')
    | (none, s') => some (verdict false, s')
  else some (verdict false, s)

/-- The loop of `handleParameterSetterGroup`,
/repo/libraries/YarpPlugins/CartesianControlServer/RpcResponder.cpp:434-447: the map, or
`none` after a value that is not a list of two. -/
noncomputable def readEntries : Bottle → List (ℤ × ℝ) → Option (List (ℤ × ℝ))
  | [], ps => some ps
  | .list [k, v] :: rest, ps => readEntries rest (emplace k.asVocab (asValue k.asVocab v) ps)
  | _ :: _, _ => none

/-- `handleParameterSetterGroup`, /repo/libraries/YarpPlugins/CartesianControlServer/RpcResponder.cpp:428-464. -/
noncomputable def handleSetAll (s : σ) (msg : Bottle) : Option (Bottle × σ) :=
  if msg.length > 2 then
    match readEntries (msg.drop 2) [] with
    | none => some (verdict false, s)
    | some ps =>
      match B.call s (.setAll ps) with
      | (b, s') => some (verdict b, s')
  else some (verdict false, s)

/-- `handleParameterGetterGroup`, /repo/libraries/YarpPlugins/CartesianControlServer/RpcResponder.cpp:468-495. -/
noncomputable def handleGetAll (s : σ) (msg : Bottle) : Option (Bottle × σ) :=
  if msg.length = 2 then
    match B.call s .getAll with
    | (some ps, s') => do
      let vs ← ps.mapM addEntry
      some (vs, s')
    | (none, s') => some (verdict false, s')
  else some (verdict false, s)

/-- `isGroupParam`, /repo/libraries/YarpPlugins/CartesianControlServer/RpcResponder.cpp:19-22. -/
def isGroup (msg : Bottle) : Bool := decide (msg.length > 1) && decide ((get msg 1).asVocab = vParams)

/-- `RpcResponder::respond`, /repo/libraries/YarpPlugins/CartesianControlServer/RpcResponder.cpp:52-94, once there is a
controller.
The default is `yarp::dev::DeviceResponder::respond` of YARP: a list of the commands, or a remark. -/
noncomputable def respond (s : σ) (msg : Bottle) : Option (Bottle × σ) :=
  let v := (get msg 0).asVocab
  if v = vStat then handleStat B P s
  else if v = vInv then handleFunction B P s msg
  else if v = vMovj then handleConsumer B P .movj s msg
  else if v = vRelj then handleConsumer B P .relj s msg
  else if v = vMovl then handleConsumer B P .movl s msg
  else if v = vMovv then handleConsumer B P .movv s msg
  else if v = vGcmp then handleRunnable B .gcmp s
  else if v = vForc then handleConsumer B P .forc s msg
  else if v = vStop then handleRunnable B .stop s
  else if v = vWait then handleWait B s msg
  else if v = vTool then handleConsumer B P .tool s msg
  else if v = vAct then handleAct B s msg
  else if v = vSet then if isGroup msg then handleSetAll B s msg else handleSet B s msg
  else if v = vGet then if isGroup msg then handleGetAll B s msg else handleGet B s msg
  else if v = vHelp then some ([.vocab vMany, .str 0], s)
  else some ([.str 0], s)

/-- `StreamResponder::handleConsumerCmdMsg`,
/repo/libraries/YarpPlugins/CartesianControlServer/StreamResponder.cpp:45-62. -/
noncomputable def handleStream (c : StreamCmd) (s : σ) (msg : Bottle) : σ :=
  if msg.length > 1 then (B.call s (.stream c (args msg))).2 else s

/-- `StreamResponder::onRead`, /repo/libraries/YarpPlugins/CartesianControlServer/StreamResponder.cpp:15-41, once there
is a
controller. -/
noncomputable def onRead (s : σ) (msg : Bottle) : σ :=
  let v := (get msg 0).asVocab
  if v = vPose ∨ v = vMovi then handleStream B .pose s msg
  else if v = vTwist then handleStream B .twist s msg
  else if v = vWrench then handleStream B .wrench s msg
  else s

/-- `CartesianControlServer::run`, /repo/libraries/YarpPlugins/CartesianControlServer/PeriodicThreadImpl.cpp:9-34, once
there is a
controller: the published message, if any. -/
noncomputable def publish (s : σ) : Option Bottle × σ :=
  match B.call s .stat with
  | (some (x, state, time), s') => (some (.vocab state :: x.map .float ++ [.float time]), s')
  | (none, s') => (none, s')

end

/-! ## The client -/

/-- The command of each call with a vector.
/repo/libraries/YarpPlugins/CartesianControlClient/ICartesianControlImpl.cpp:195-262. -/
def VecCmd.vocab : VecCmd → ℤ
  | movj => vMovj
  | relj => vRelj
  | movl => vMovl
  | movv => vMovv
  | forc => vForc
  | tool => vTool

/-- The command of each call without arguments.
/repo/libraries/YarpPlugins/CartesianControlClient/ICartesianControlImpl.cpp:223-241. -/
def RunCmd.vocab : RunCmd → ℤ
  | gcmp => vGcmp
  | stop => vStop

/-- The command of each streaming call.
/repo/libraries/YarpPlugins/CartesianControlClient/ICartesianControlImpl.cpp:279-296. -/
def StreamCmd.vocab : StreamCmd → ℤ
  | pose => vPose
  | twist => vTwist
  | wrench => vWrench

/-- The message that the client sends,
/repo/libraries/YarpPlugins/CartesianControlClient/ICartesianControlImpl.cpp:48-380; undefined
if a value does not fit in an integer. -/
noncomputable def request : Req → Option Bottle
  | .stat => some [.vocab vStat]
  | .inv xd => some (.vocab vInv :: xd.map .float)
  | .vec c x => some (.vocab c.vocab :: x.map .float)
  | .run c => some [.vocab c.vocab]
  | .wait t => some [.vocab vWait, .float t]
  | .act c => some [.vocab vAct, .vocab c]
  | .set k v => do
    let x ← addValue k v
    some [.vocab vSet, .vocab k, x]
  | .get k => some [.vocab vGet, .vocab k]
  | .setAll ps => do
    let vs ← ps.mapM addEntry
    some (.vocab vSet :: .vocab vParams :: vs)
  | .getAll => some [.vocab vGet, .vocab vParams]
  | .stream c x => some (.vocab c.vocab :: x.map .float)

/-- `checkSuccess`, /repo/libraries/YarpPlugins/CartesianControlClient/ICartesianControlImpl.cpp:16-19. -/
def checkSuccess (r : Bottle) : Bool := !(get r 0).isVocab || decide ((get r 0).asVocab ≠ vFailed)

/-- The loop of `getParameters`, /repo/libraries/YarpPlugins/CartesianControlClient/ICartesianControlImpl.cpp:371-377,
on an empty map;
undefined if a value is not a list (null pointer). -/
noncomputable def readParams : Bottle → List (ℤ × ℝ) → Option (List (ℤ × ℝ))
  | [], ps => some ps
  | .list l :: rest, ps =>
    let k := (get l 0).asVocab
    readParams rest (emplace k (asValue k (get l 1)) ps)
  | _ :: _, _ => none

/-- What the client makes of the response,
/repo/libraries/YarpPlugins/CartesianControlClient/ICartesianControlImpl.cpp:48-380; `none`
is an exception (a vector of negative size) or undefined behaviour. `stat` is the part without the
stream, lines 154-183. Streaming calls have no response. -/
noncomputable def interpret : (r : Req) → Bottle → Option r.Ans
  | .stat, b =>
    if checkSuccess b then
      if b.length < 2 then none
      else some (some ((b.tail.dropLast).map Val.asFloat, (get b 0).asVocab, (get b (b.length - 1)).asFloat))
    else some (none : Option (List ℝ × ℤ × ℝ))
  | .inv _, b => if checkSuccess b then some (some (b.map Val.asFloat)) else some (none : Option (List ℝ))
  | .vec _ _, b => some (checkSuccess b)
  | .run _, b => some (checkSuccess b)
  | .wait _, b => some (checkSuccess b)
  | .act _, b => some (checkSuccess b)
  | .set _ _, b => some (checkSuccess b)
  | .get k, b => if checkSuccess b then some (some (asValue k (get b 0))) else some (none : Option ℝ)
  | .setAll _, b => some (checkSuccess b)
  | .getAll, b =>
    if checkSuccess b then (readParams b []).map some else some (none : Option (List (ℤ × ℝ)))
  | .stream _ _, _ => some ()

/-- A call through the client and the server over a working network.
/repo/libraries/YarpPlugins/CartesianControlClient/ICartesianControlImpl.cpp:141-380 against /repo/libraries/YarpPlugins/CartesianControlServer/RpcResponder.cpp:52-495. -/
noncomputable def remote {σ : Type} (B : Backend σ) (P : Port) (s : σ) (r : Req) : Option (r.Ans × σ) := do
  let msg ← request r
  let (out, s') ← respond B P s msg
  let a ← interpret r out
  some (a, s')

/-- A call through the client when the request is lost, or the reply is: the response stays empty.
/repo/libraries/YarpPlugins/CartesianControlClient/ICartesianControlImpl.cpp:141-380. -/
noncomputable def lost (r : Req) : Option r.Ans := do
  let _ ← request r
  interpret r []

end KD.Net
