import Verif.Net.Remote

/-!
# The stream of states between the server and the client

Model of /repo/libraries/YarpPlugins/CartesianControlClient/FkStreamResponder.cpp and of the first part of
`stat`, /repo/libraries/YarpPlugins/CartesianControlClient/ICartesianControlImpl.cpp:141-184. Reading and writing the
stored message
are each atomic: both hold the mutex of the responder from the first line to the last.
-/

namespace KD.Net

/-- `FkStreamResponder`, /repo/libraries/YarpPlugins/CartesianControlClient/CartesianControlClient.hpp:33-49. -/
structure Fk where
  arrival : ℝ
  x : List ℝ
  state : ℤ
  time : ℝ

/-- The constructor, /repo/libraries/YarpPlugins/CartesianControlClient/FkStreamResponder.cpp:11-15. -/
def Fk.init : Fk := ⟨0, [], 0, 0⟩

/-- `FkStreamResponder::onRead`, /repo/libraries/YarpPlugins/CartesianControlClient/FkStreamResponder.cpp:19-33, at
time `now`; a
message of fewer than two values throws (`x.resize` with a negative size). -/
noncomputable def Fk.onRead (now : ℝ) (b : Bottle) (_ : Fk) : Option Fk :=
  if b.length < 2 then none
  else some ⟨now, b.tail.dropLast.map Val.asFloat, (get b 0).asVocab, (get b (b.length - 1)).asFloat⟩

/-- `FkStreamResponder::getLastStatData`,
/repo/libraries/YarpPlugins/CartesianControlClient/FkStreamResponder.cpp:37-53, at time
`now`: the result and what is written to the outputs. -/
noncomputable def Fk.last (now timeout : ℝ) (f : Fk) : Bool × (List ℝ × ℤ × ℝ) :=
  (decide (now - f.arrival ≤ timeout), (f.x, f.state, f.time))

/-- `CartesianControlClient::stat`,
/repo/libraries/YarpPlugins/CartesianControlClient/ICartesianControlImpl.cpp:141-184: the stream if
its port is open and the stored message is recent, a request over RPC otherwise. `rpc` is the outcome of
that request. The result comes with the values of the outputs that were written, if any. -/
noncomputable def clientStat (portOpen : Bool) (timeout now : ℝ) (f : Fk)
    (rpc : Option (Option (List ℝ × ℤ × ℝ))) : Option (Bool × Option (List ℝ × ℤ × ℝ)) :=
  if portOpen then
    if (f.last now timeout).1 then some (true, some (f.last now timeout).2)
    else
      match rpc with
      | none => none
      | some none => some (false, some (f.last now timeout).2)
      | some (some a) => some (true, some a)
  else
    match rpc with
    | none => none
    | some none => some (false, none)
    | some (some a) => some (true, some a)

/-- The messages that arrived, oldest first, each with its time of arrival.
/repo/libraries/YarpPlugins/CartesianControlClient/CartesianControlClient.hpp and /repo/libraries/YarpPlugins/CartesianControlClient/FkStreamResponder.cpp. -/
noncomputable def Fk.receive : Fk → List (ℝ × Bottle) → Option Fk
  | f, [] => some f
  | f, (now, b) :: rest => do
    let f' ← f.onRead now b
    Fk.receive f' rest

end KD.Net
