import Verif.Spec.SignalState
import Verif.Model.Run
/-!
The signals of the processes that `minijail_run_internal` deals with (libminijail.c:3628-4062): what the child does to its own before the program runs (3872-3895, `set_seccomp_filter` 2662-2699),
and what the caller does with SIGPIPE while it sends the jail (3821-3860).
-/
set_option autoImplicit false
namespace Minijail.Sigs

/-- What the C library answers: the number `SIGRTMAX`, the error of `signal` and `sigaction` for each signal (nothing if they work; signal.h), and whether `sigprocmask` works.
Used at libminijail.c:3877, 3888, 2697 and signal_handler.c:73-79. -/
structure SigLibc where
  rtmax : Nat
  error : Nat → Option Int
  mask : Bool

/-- `signal(signum, SIG_DFL)`, libminijail.c:3888, 2697. -/
def Sig.toStandard (s : Sig) (n : Nat) : Sig := { s with does := fun m => if m = n then .standard else s.does m }

/-- libminijail.c:3873-3879: the child empties its mask, or dies (nothing). -/
def resetSignalMask (w : SigLibc) (s : Sig) : Option Sig := if w.mask then some { s with blocked := fun _ => false } else none

/-- One turn of the loop at libminijail.c:3883-3893. -/
def resetOne (w : SigLibc) (s : Sig) (n : Nat) : Option Sig :=
  match w.error n with
  | none => some (s.toStandard n)
  | some e => if e ≠ EINVAL then none else some s

/-- libminijail.c:3881-3895: all signals from 0 to `SIGRTMAX`. -/
def resetSignalHandlers (w : SigLibc) (s : Sig) : Option Sig := (List.range (w.rtmax + 1)).foldlM (resetOne w) s

/-- `install_sigsys_handler`, signal_handler.c:60-82, and its use at libminijail.c:2687-2689. -/
def catchSigsys (w : SigLibc) (s : Sig) : Option Sig :=
  match w.error SYS with
  | some _ => none
  | none => if w.mask then some ⟨fun n => if n = SYS then false else s.blocked n, fun n => if n = SYS then .caught else s.does n⟩ else none

/-- What `minijail_enter` does to signals: `set_seccomp_filter`, libminijail.c:2674-2699 (`setSeccompFilter` has the same cases: `C90_entered`). The rest of `minijail_enter` leaves them alone, except
for hooks of the caller, which are left out. -/
def enterSignals (env : EnterEnv) (w : SigLibc) (j : Jail) (s : Sig) : Option Sig :=
  if j.flags.seccomp_filter && !env.asan then
    if env.defaultRetLog || j.flags.seccomp_filter_logging then (if !env.retLogAvailable then catchSigsys w s else some s)
    else if j.flags.seccomp_filter_tsync then
      match w.error SYS with
      | some _ => none
      | none => some (s.toStandard SYS)
    else some s
  else some s

/-- What a request of `minijail_enter` does to signals if it succeeds: `install_sigsys_handler` (signal_handler.c:60-82, libminijail.c:2687) and `signal(SIGSYS, SIG_DFL)` (2697). -/
def requestSignals (s : Sig) : Sys → Sig
  | .sigsysHandler => ⟨fun n => if n = SYS then false else s.blocked n, fun n => if n = SYS then .caught else s.does n⟩
  | .sigsysDefault => s.toStandard SYS
  | _ => s

/-- The child of `minijail_run_internal` from its beginning (libminijail.c:3872-3895) until it has entered the jail (3987), given the signals of the caller. `childJail` is what it enters. -/
def jailedSignals (env : EnterEnv) (w : SigLibc) (preload : Bool) (j : Jail) (caller : Sig) : Option Sig :=
  (if j.flags.reset_signal_mask then resetSignalMask w caller.fork else some caller.fork).bind fun s =>
  (if j.flags.reset_signal_handlers then resetSignalHandlers w s else some s).bind fun s =>
  enterSignals env w (childJail preload j) s

/-- The signals of the program when its `main` is called: the child, or a child of it if it is to be `init` (libminijail.c:3989-4013), executes the program (4043-4051). With the library, the rest
of the jail is entered before `main` (libminijailpreload.c:85-87). -/
def programSignals (env : EnterEnv) (w : SigLibc) (preload : Bool) (j : Jail) (caller : Sig) : Option Sig := do
  let s ← jailedSignals env w preload j caller
  if preload then enterSignals env w (minijailPreenter j) s.fork.exec else some s.fork.exec

/-- The signals of the process that is `init` for the program: `init` catches SIGTERM, libminijail.c:3008; the result of `signal` is ignored. -/
def initSignals (env : EnterEnv) (w : SigLibc) (preload : Bool) (j : Jail) (caller : Sig) : Option Sig := do
  let s ← jailedSignals env w preload j caller
  pure (if (w.error TERM).isSome then s else { s with does := fun n => if n = TERM then .caught else s.does n })

/-- What happens while the caller accepts what is pending (libminijail.c:3844-3856): `sigtimedwait` is called, or interrupted; another process sends SIGPIPE. -/
inductive PipeEv where
  | called
  | interrupted
  | arrives
  deriving DecidableEq, Repr

/-- The loop at libminijail.c:3844-3856. A call takes what waits for the thread first; if nothing waits it fails with EAGAIN, and the loop ends. Nothing while it still runs. -/
def acceptPipe : List PipeEv → Waiting → Option Waiting
  | [], _ => none
  | .arrives :: l, w => acceptPipe l { w with process := fun n => if n = PIPE then true else w.process n }
  | .interrupted :: l, w => acceptPipe l w
  | .called :: l, w =>
    if w.thread PIPE then acceptPipe l { w with thread := fun n => if n = PIPE then false else w.thread n }
    else if w.process PIPE then acceptPipe l { w with process := fun n => if n = PIPE then false else w.process n }
    else some w

/-- The caller while it sends the jail, libminijail.c:3821-3860: `sigprocmask` and the sets work. `broken` is whether a write to the pipe found no reader, which raises SIGPIPE for the thread. The
first result is the mask while the jail is sent. -/
def sendSignals (broken : Bool) (l : List PipeEv) (s : Sig) (w : Waiting) : Option ((Nat → Bool) × Sig × Waiting) :=
  let during : Sig := { s with blocked := fun n => if n = PIPE then true else s.blocked n }
  let w : Waiting := if broken then { w with thread := fun n => if n = PIPE then true else w.thread n } else w
  (acceptPipe l w).map fun w => (during.blocked, { during with blocked := s.blocked }, w)

end Minijail.Sigs
