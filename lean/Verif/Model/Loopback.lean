import Verif.Model.Enter
import Verif.Spec.NetDevices
/-! `config_net_loopback`, and what the requests of `minijail_enter` do to network devices. -/
set_option autoImplicit false
namespace Minijail.Loopback
open Spec (NetState newNet setDev)

/-- Requests that the kernel refuses, whatever its reasons, system.c:239-243, 250-253, 257-260. -/
structure Refused where
  socket : Bool := false
  get : Bool := false
  set : Bool := false

/-- `IFF_UP | IFF_RUNNING` (linux/if.h), system.c:256. -/
def UP_RUNNING : BitVec 16 := 1#16 ||| 0x40#16

/-- `SIOCGIFFLAGS`, system.c:250: refused, also if there is no device of this name. -/
def getIfFlags (no : Refused) (s : NetState) (name : BStr) : Option (BitVec 16) := if no.get then none else s.dev s.own name

/-- `SIOCSIFFLAGS`, system.c:257. -/
def setIfFlags (no : Refused) (s : NetState) (name : BStr) (f : BitVec 16) : Option NetState :=
  if no.set ∨ s.dev s.own name = none then none else some (setDev s name f)

/-- `config_net_loopback` with an open socket, system.c:249-262. -/
def raiseLoopback (no : Refused) (s : NetState) : Int × NetState :=
  match getIfFlags no s (bstr "lo") with
  | none => (-1, s)
  | some f =>
    match setIfFlags no s (bstr "lo") (f ||| UP_RUNNING) with
    | none => (-1, s)
    | some s => (0, s)

/-- `config_net_loopback`, system.c:230-263. The socket is closed on every path (`attribute_cleanup_fd`, system.c:233). The warnings are left out. -/
def configNetLoopback (no : Refused) (s : NetState) : Int × NetState :=
  if no.socket then (-1, s)
  else
    let r := raiseLoopback no { s with socks := s.socks + 1 }
    (r.1, { r.2 with socks := r.2.socks - 1 })

/-- What a request of `minijail_enter` does to network devices, libminijail.c:2877-2886: making a namespace, joining one, and `config_net_loopback`. Hooks are programs of the caller; what
they do to devices is not counted here. -/
def NetStep (s : NetState) (e : Ev) (s' : NetState) : Prop :=
  match e.1 with
  | .unshare .net => s' = if e.2 = 0 then newNet s else s
  | .setns _ .net => if e.2 = 0 then ∃ n < s.next, s' = { s with own := n } else s' = s
  | .loopback => ∃ no, configNetLoopback no s = (e.2, s')
  | _ => s' = s

/-- The same for all requests of a run of `minijail_enter`, libminijail.c:2801-2993. -/
def NetRun : NetState → List Ev → NetState → Prop
  | s, [], s' => s' = s
  | s, e :: t, s' => ∃ m, NetStep s e m ∧ NetRun m t s'

end Minijail.Loopback
