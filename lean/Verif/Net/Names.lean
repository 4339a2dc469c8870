import Verif.Net.ServerLife
import Mathlib.Data.Int.Notation
import Mathlib.Data.Nat.Notation

/-!
# Names of ports

How client and server find each other: the ports that
/repo/libraries/YarpPlugins/CartesianControlServer/DeviceDriverImpl.cpp and
/repo/libraries/YarpPlugins/CartesianControlClient/DeviceDriverImpl.cpp open and connect. The network itself is
YARP, which is not part of /repo. What is taken from it: a name belongs to one port at a time; two ports can be
connected if both are open; a connection ends when one of its ports is closed, and does not come back by itself.
-/

namespace KD.Net

/-- The network: the open ports, each one with the device that opened it, and the connections.
External: the name server of YARP. -/
structure Wires where
  ports : List (String × ℕ)
  links : List (String × String)

/-- `yarp::os::Network::exists`.
`yarp::os::Network::exists`, /repo/libraries/YarpPlugins/CartesianControlClient/DeviceDriverImpl.cpp:51. -/
def Wires.has (n : Wires) (x : String) : Bool := decide (x ∈ n.ports.map Prod.fst)

/-- `open` of several ports, which fails if a name is in use.
The `open` of a port, /repo/libraries/YarpPlugins/CartesianControlServer/DeviceDriverImpl.cpp:60-148 and /repo/libraries/YarpPlugins/CartesianControlClient/DeviceDriverImpl.cpp:28-53. -/
def Wires.open (dev : ℕ) : List String → Wires → Option Wires
  | [], n => some n
  | x :: l, n => if n.has x then none else Wires.open dev l { n with ports := (x, dev) :: n.ports }

/-- `addOutput` and `Network::connect`.
`addOutput` and `connect`, /repo/libraries/YarpPlugins/CartesianControlClient/DeviceDriverImpl.cpp:34-59. -/
def Wires.connect (a b : String) (n : Wires) : Option Wires :=
  if n.has a && n.has b then some { n with links := (a, b) :: n.links } else none

/-- The ports of a device are closed.
The ports closed by /repo/libraries/YarpPlugins/CartesianControlServer/DeviceDriverImpl.cpp and /repo/libraries/YarpPlugins/CartesianControlClient/DeviceDriverImpl.cpp. -/
def Wires.close (dev : ℕ) (n : Wires) : Wires where
  ports := n.ports.filter fun p => p.2 ≠ dev
  links := n.links.filter fun l => decide (∀ p ∈ n.ports, p.2 = dev → l.1 ≠ p.1 ∧ l.2 ≠ p.1)

/-- Options of the server; `none` stands for an option that is not given.
/repo/libraries/YarpPlugins/CartesianControlServer/DeviceDriverImpl.cpp:58-148. -/
structure ServerCfg where
  name : Option String := none
  fkPeriod : Option ℤ := none
  coordRepr : Rep := .absent
  angleRepr : Rep := .absent
  angularUnits : Rep := .absent

/-- /repo/libraries/YarpPlugins/CartesianControlServer/DeviceDriverImpl.cpp:15 and 56. -/
def ServerCfg.prefixed (c : ServerCfg) : String := c.name.getD "/CartesianServer"

/-- /repo/libraries/YarpPlugins/CartesianControlServer/DeviceDriverImpl.cpp:16, 76 and 78: the state is published. -/
def ServerCfg.publishes (c : ServerCfg) : Bool := decide (c.fkPeriod.getD 20 > 0)

/-- /repo/libraries/YarpPlugins/CartesianControlServer/DeviceDriverImpl.cpp:95-140: the port for other representations
is opened. -/
def ServerCfg.transforms (c : ServerCfg) : Bool :=
  if c.angleRepr = .unknown then false
  else if c.angularUnits = .unknown then false
  else decide (c.coordRepr = .known ∨ c.angleRepr = .known ∨ c.angularUnits = .known)

/-- The ports that `open` opens, /repo/libraries/YarpPlugins/CartesianControlServer/DeviceDriverImpl.cpp:58-68, 82 and
145. -/
def ServerCfg.ports (c : ServerCfg) : List String :=
  [c.prefixed ++ "/rpc:s", c.prefixed ++ "/command:i"] ++
    (if c.publishes then [c.prefixed ++ "/state:o"] else []) ++
    (if c.transforms then [c.prefixed ++ "/rpc_transform:s"] else [])

/-- Options of the client. /repo/libraries/YarpPlugins/CartesianControlClient/DeviceDriverImpl.cpp:23-48. -/
structure ClientCfg where
  cartesianLocal : Option String := none
  cartesianRemote : Option String := none

/-- /repo/libraries/YarpPlugins/CartesianControlClient/DeviceDriverImpl.cpp:15 and 23. -/
def ClientCfg.here (c : ClientCfg) : String := c.cartesianLocal.getD "/CartesianControlClient"

/-- /repo/libraries/YarpPlugins/CartesianControlClient/DeviceDriverImpl.cpp:16 and 25. -/
def ClientCfg.there (c : ClientCfg) : String := c.cartesianRemote.getD "/CartesianControl"

/-- `open` of the client, /repo/libraries/YarpPlugins/CartesianControlClient/DeviceDriverImpl.cpp:21-75, on the
network; and whether it
reads the published state. -/
def ClientCfg.open (c : ClientCfg) (dev : ℕ) (n : Wires) : Option (Wires × Bool) := do
  let n ← n.open dev [c.here ++ "/rpc:c", c.here ++ "/command:o"]
  let n ← n.connect (c.here ++ "/rpc:c") (c.there ++ "/rpc:s")
  let n ← n.connect (c.here ++ "/command:o") (c.there ++ "/command:i")
  if n.has (c.there ++ "/state:o") then
    let n ← n.open dev [c.here ++ "/state:i"]
    let n ← n.connect (c.there ++ "/state:o") (c.here ++ "/state:i")
    return (n, true)
  else return (n, false)

/-- Servers and clients that are open, each one with its number, and the network. Numbers are given in the
order of opening and not used again. -/
structure Site where
  wires : Wires := ⟨[], []⟩
  next : ℕ := 0
  servers : List (ℕ × ServerCfg) := []
  clients : List (ℕ × ClientCfg × Bool) := []

/-- A device is opened or closed (or its program ends):
/repo/libraries/YarpPlugins/CartesianControlServer/DeviceDriverImpl.cpp:20 and 160,
/repo/libraries/YarpPlugins/CartesianControlClient/DeviceDriverImpl.cpp:21 and 80. -/
inductive Deed
  | openServer (c : ServerCfg)
  | openClient (c : ClientCfg)
  | close (dev : ℕ)

/-- A device that does not open is destroyed, and the ports it may have opened are closed. The calls of `Deed`,
/repo/libraries/YarpPlugins/CartesianControlServer/DeviceDriverImpl.cpp:20 and 160,
/repo/libraries/YarpPlugins/CartesianControlClient/DeviceDriverImpl.cpp:21 and 80. -/
def Site.step (s : Site) : Deed → Site
  | .openServer c =>
    match s.wires.open s.next c.ports with
    | none => s
    | some w => { s with wires := w, next := s.next + 1, servers := (s.next, c) :: s.servers }
  | .openClient c =>
    match c.open s.next s.wires with
    | none => s
    | some (w, b) => { s with wires := w, next := s.next + 1, clients := (s.next, c, b) :: s.clients }
  | .close dev =>
    { s with
      wires := s.wires.close dev
      servers := s.servers.filter fun p => p.1 ≠ dev
      clients := s.clients.filter fun p => p.1 ≠ dev }

/-- After a history. -/
def Site.after (s : Site) (ds : List Deed) : Site := ds.foldl Site.step s

end KD.Net
