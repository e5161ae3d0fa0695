import Verif.Spec.SignalState
/-! What SIGTERM does to a process when it is sent (signal(7), pid_namespaces(7)). -/
set_option autoImplicit false
namespace Minijail.Sigs

/-- The process dies, runs its handler, or goes on as if nothing had been sent (now at least). -/
inductive Struck where
  | dies
  | handles
  | goesOn
  deriving DecidableEq, Repr

/-- What is blocked waits; what is ignored is dropped; a process 1 gets only what it catches. -/
def struck (pid1 : Bool) (s : Sig) : Struck :=
  if s.blocked TERM then .goesOn
  else match s.does TERM with
    | .ignored => .goesOn
    | .caught => .handles
    | .standard => if pid1 then .goesOn else .dies

end Minijail.Sigs
