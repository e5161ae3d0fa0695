import Verif.Spec.KillSignal
import Verif.Model.SignalState
/-! What `minijail_kill` (libminijail.c:4155-4164) does to the process that `minijail_run_internal` has started and noted as `initpid` (3792). -/
set_option autoImplicit false
namespace Minijail.Sigs

/-- Who has the number that is noted (libminijail.c:3792), and its signals: the process that is `init` for the program, if there is one (3640, 3989-4013), or the program. -/
inductive Noted where
  | init (s : Sig)
  | program (pid1 : Bool) (s : Sig)

/-- Who is noted: `do_init` (libminijail.c:3640) and `pid_namespace` decide at 3989. The signals of the program are those with which it starts. -/
def noted (env : EnterEnv) (w : SigLibc) (preload : Bool) (j : Jail) (caller : Sig) : Option Noted :=
  if j.flags.pids && (j.flags.do_init && !j.flags.run_as_init) then (initSignals env w preload j caller).map .init
  else (programSignals env w preload j caller).map (.program j.flags.pids)

/-- `kill(j->initpid, SIGTERM)`, libminijail.c:4160: whether it ends the program. The handler of `init` exits (`init_term`, 2998-3001), and with process 1 its whole namespace ends. -/
def Noted.killEnds : Noted → Bool
  | .init s => struck true s == .handles
  | .program pid1 s => struck pid1 s == .dies

end Minijail.Sigs
