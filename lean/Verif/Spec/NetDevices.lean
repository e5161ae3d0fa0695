import Verif.Model.Api
/-! Network devices, kept by the kernel for each network namespace. -/
set_option autoImplicit false
namespace Minijail.Spec

/-- The namespaces are numbered in the order they were made: `own` is the one of the process, `next` the number of the next one. `dev n name` are the flags of the device with this name in
namespace `n`, if there is one. `socks` counts the open sockets of the process. -/
structure NetState where
  own : Nat
  next : Nat
  dev : Nat → BStr → Option (BitVec 16)
  socks : Nat := 0

/-- The device works. -/
def isUp (f : BitVec 16) : Prop := f.getLsbD 0 = true

/-- Is the device of this name in the namespace of the process up? -/
def Works (s : NetState) (name : BStr) : Prop := ∃ f, s.dev s.own name = some f ∧ isUp f

/-- A new namespace has one device, the loopback device (8), and it is down. -/
def newNet (s : NetState) : NetState :=
  { s with own := s.next, next := s.next + 1, dev := fun n name => if n = s.next then (if name = bstr "lo" then some 8#16 else none) else s.dev n name }

/-- Sets the flags of a device in the namespace of the process. -/
def setDev (s : NetState) (name : BStr) (f : BitVec 16) : NetState := { s with dev := fun n x => if n = s.own ∧ x = name then some f else s.dev n x }

end Minijail.Spec
