import Verif.Spec.SignalState
import Verif.Spec.Wait
/-! What an `init` gets to know of its children and of SIGTERM, depending on its signals (wait(2) NOTES, pid_namespaces(7)). -/
set_option autoImplicit false
namespace Minijail.Sigs
open Minijail Spec

/-- The children die one after the other. If SIGCHLD is ignored none of them is reaped: `wait` fails when the last one is gone. -/
def initSees (s : Sig) (l : List (Int × Fate)) : List InitEv := if s.does CHLD = .ignored then [.failed] else deaths l

/-- SIGTERM reaches a process 1: only if it catches it and does not block it. -/
def TermReaches (s : Sig) : Prop := s.does TERM = .caught ∧ s.blocked TERM = false

end Minijail.Sigs
