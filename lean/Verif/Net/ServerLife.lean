import Mathlib.Data.List.Basic
import Mathlib.Tactic.Common

/-!
# Opening, attaching and detaching the server

Model of /repo/libraries/YarpPlugins/CartesianControlServer/DeviceDriverImpl.cpp:20-150 and
/repo/libraries/YarpPlugins/CartesianControlServer/IWrapperImpl.cpp. Ports are taken to open. `κ` names the
controllers there are.
-/

namespace KD.Net

/-- A pointer to a controller: never written, null, or set.
/repo/libraries/YarpPlugins/CartesianControlServer/DeviceDriverImpl.cpp:22-56. -/
inductive Handle (κ : Type)
  | uninit
  | null
  | to (k : κ)
  deriving DecidableEq

/-- An option that names a representation: missing, one of the known names, or another text.
/repo/libraries/YarpPlugins/CartesianControlServer/DeviceDriverImpl.cpp:99-140. -/
inductive Rep | absent | known | unknown
  deriving DecidableEq

/-- The options that matter here; a subdevice is a valid controller.
/repo/libraries/YarpPlugins/CartesianControlServer/DeviceDriverImpl.cpp:20-150. -/
structure Config (κ : Type) where
  subdevice : Option κ
  publishes : Bool
  coordRepr : Rep
  angleRepr : Rep
  angularUnits : Rep

/-- The members of the server, /repo/libraries/YarpPlugins/CartesianControlServer/CartesianControlServer.hpp:60-70, and
the handles of
its responders. -/
structure Server (κ : Type) where
  own : Option κ
  rpc : Handle κ
  transform : Option (Handle κ)
  stream : Handle κ
  portOpen : Bool
  running : Bool

variable {κ : Type}

/-- `configureHandle`, /repo/libraries/YarpPlugins/CartesianControlServer/IWrapperImpl.cpp:39-61; starting the thread
is taken to
succeed. -/
def Server.configureHandle (s : Server κ) : Server κ × Bool :=
  match s.own with
  | none => (s, false)
  | some k =>
    ({ s with
        rpc := .to k
        stream := .to k
        transform := s.transform.map fun _ => .to k
        running := s.running || s.portOpen }, true)

/-- `open`, /repo/libraries/YarpPlugins/CartesianControlServer/DeviceDriverImpl.cpp:20-150. The constructor of
`RpcResponder`,
/repo/libraries/YarpPlugins/CartesianControlServer/CartesianControlServer.hpp:79-83 and 113, leaves its pointer unset,
`StreamResponder` starts with a null
pointer (line 162). -/
def Server.openWith (c : Config κ) : Server κ × Bool :=
  let s : Server κ := ⟨c.subdevice, .uninit, none, .null, c.publishes, false⟩
  if c.angleRepr = .unknown then (s, true)
  else if c.angularUnits = .unknown then (s, true)
  else
    let s : Server κ :=
      if c.coordRepr = .known ∨ c.angleRepr = .known ∨ c.angularUnits = .known then
        { s with transform := some .uninit }
      else s
    if c.subdevice.isSome then s.configureHandle else (s, true)

/-- What happens to an open server. `attach none` is a device that is missing or invalid, `attach (some none)`
one that is no controller. `rpc`, `transform` and `stream` are messages at the three ports, `tick` is the
periodic thread.
/repo/libraries/YarpPlugins/CartesianControlServer/DeviceDriverImpl.cpp and /repo/libraries/YarpPlugins/CartesianControlServer/PeriodicThreadImpl.cpp. -/
inductive Event (κ : Type)
  | attach (device : Option (Option κ))
  | detach
  | rpc
  | transform
  | stream
  | tick

/-- Which controller a message is passed to.
/repo/libraries/YarpPlugins/CartesianControlServer/RpcResponder.cpp, /repo/libraries/YarpPlugins/CartesianControlServer/StreamResponder.cpp and /repo/libraries/YarpPlugins/CartesianControlServer/PeriodicThreadImpl.cpp. -/
inductive Use (κ : Type)
  | undefined
  | nobody
  | controller (k : κ)
  deriving DecidableEq

/-- The null check before a responder uses its pointer,
/repo/libraries/YarpPlugins/CartesianControlServer/RpcResponder.cpp:54-60 and
/repo/libraries/YarpPlugins/CartesianControlServer/StreamResponder.cpp:19-23; reading a pointer that was never written
is undefined. -/
def Handle.use : Handle κ → Use κ
  | .uninit => .undefined
  | .null => .nobody
  | .to k => .controller k

/-- One event: `attach` and `detach`, /repo/libraries/YarpPlugins/CartesianControlServer/IWrapperImpl.cpp:13-35 and
65-70, the responders
and `run`, /repo/libraries/YarpPlugins/CartesianControlServer/PeriodicThreadImpl.cpp:9-34. -/
def Server.step (s : Server κ) : Event κ → Server κ × Use κ
  | .attach none => (s, .nobody)
  | .attach (some k) => (({ s with own := k } : Server κ).configureHandle.1, .nobody)
  | .detach => ({ s with own := none, running := false }, .nobody)
  | .rpc => (s, s.rpc.use)
  | .transform => (s, match s.transform with | some h => h.use | none => .nobody)
  | .stream => (s, s.stream.use)
  | .tick =>
    (s, if s.running then match s.own with | some k => .controller k | none => .nobody else .nobody)

/-- The server after a history. -/
def Server.after (s : Server κ) (es : List (Event κ)) : Server κ := es.foldl (fun s e => (s.step e).1) s

end KD.Net
