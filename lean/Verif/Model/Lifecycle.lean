import Verif.Model.Wait
/-!
Programs that are started, waited for and killed, among all the other processes of a system that uses process numbers again: `minijail_run_internal`'s part of it
(libminijail.c:3791-3797), `minijail_wait`, `minijail_kill` (4103-4169) and the forwarding of signals (2728-2761).
-/
set_option autoImplicit false
namespace Minijail

/-- A process: which one it is (numbers of processes are used again, this is not), whether the caller is its parent, and the status with which it has ended. -/
structure Task where
  who : Nat
  child : Bool
  ended : Option (BitVec 32)
  deriving DecidableEq, Repr

/-- What a signal does to the caller, libminijail.c:2743-2760. -/
inductive Disposition where
  | original
  | standard
  | forwards
  deriving DecidableEq, Repr

/-- What has happened, as seen from outside. -/
inductive Note where
  | ran (jail : Nat) (who : Nat) (forwards : Bool)
  | ended (who : Nat) (st : BitVec 32)
  | killed (jail : Nat) (target : Nat)
  | forwarded (sig : Nat) (target : Nat)
  | reported (jail : Nat) (who : Nat) (value : Int)
  | refused (jail : Nat) (value : Int)
  | taken (who : Nat)
  deriving DecidableEq, Repr

/-- All processes by their number, the jails (`initpid`, libminijail.c:3792), `forward_pid` (2728), what signals do, and what has happened, newest first. -/
structure System where
  tasks : Nat → Option Task
  next : Nat
  initpid : Nat → Int
  forward : Int
  disposition : Nat → Disposition
  log : List Note

/-- Before anything is started: `forward_pid` is -1 (libminijail.c:2728), a new jail's `initpid` 0 (`calloc`, 483-490). -/
def System.start : System :=
  { tasks := fun _ => none, next := 0, initpid := fun _ => 0, forward := -1, disposition := fun _ => .original, log := [] }

/-- `NSIG`, the real-time signals, and the signals for which `sigaction` fails (signal.h; libminijail.c:2747-2760). -/
structure Signals where
  nsig : Nat
  rtmin : Nat
  rtmax : Nat
  refused : Nat → Bool

/-- `SIGCHLD` (signal.h), libminijail.c:2755. -/
def SIGCHLD : Nat := 17

/-- `SIGTERM` (signal.h), libminijail.c:4160. -/
def SIGTERM : Nat := 15

/-- `ESRCH` (errno.h): what `kill` answers if there is no such process, libminijail.c:4160-4161. -/
def ESRCH : Nat := 3

/-- `EPERM` (errno.h): what `kill` answers if it is not permitted, libminijail.c:4160-4161. -/
def KILL_EPERM : Nat := 1

/-- One call of `sigaction(sig, &act, NULL)`, libminijail.c:2752, 2759; a failure is ignored. -/
def sigactionForward (s : Signals) (d : Nat → Disposition) (sig : Nat) : Nat → Disposition :=
  if s.refused sig then d else fun x => if x = sig then .forwards else d x

/-- `install_signal_handlers`, libminijail.c:2738-2761. -/
def installSignalHandlers (s : Signals) (d : Nat → Disposition) : Nat → Disposition :=
  let d := ((List.range s.nsig).drop 1).foldl (sigactionForward s) d
  let d := fun x => if x = SIGCHLD then .standard else d x
  ((List.range (s.rtmax + 1)).drop s.rtmin).foldl (sigactionForward s) d

/-- What happens: a jail is run, and its program gets a number that is free; another process is started by the caller or by someone else; a process ends; it is reaped by
its parent (the caller only for what it started itself); the caller reaps a program by other means than minijail (or by ignoring SIGCHLD); the caller
calls `minijail_wait`, or is still in it; or `minijail_kill`, which the system may not permit; a signal reaches the caller. -/
inductive LifeEv where
  | run (jail : Nat) (forwards : Bool) (pid : Nat)
  | starts (child : Bool) (pid : Nat)
  | ends (pid : Nat) (st : BitVec 32)
  | vanishes (pid : Nat)
  | takes (pid : Nat)
  | wait (jail : Nat)
  | kill (jail : Nat) (permitted : Bool)
  | signal (sig : Nat)
  deriving DecidableEq, Repr

/-- Which of the processes are programs of jails is known by what has happened. -/
def Note.starts (who : Nat) : Note → Bool
  | .ran _ w _ => w = who
  | _ => false

/-- What `waitpid(pid, &st, 0)` answers, libminijail.c:4110: nothing while it waits, the status of a child that has ended, or an error if there is no such child. -/
def waitpidAnswer (t : Option Task) : Option WaitAns :=
  match t with
  | some { who := _, child := true, ended := none } => none
  | some { who := _, child := true, ended := some st } => some (.status st)
  | _ => some (.err ECHILD)

/-- One thing happens. What the system cannot do (to give out a number that is in use, or zero; to end a process that has ended) does not happen. `minijail_kill`
(libminijail.c:4155-4164) is its first half; the second is `minijail_wait_internal`, an event of its own. -/
def lifeStep (sg : Signals) (s : System) : LifeEv → System
  | .run j fwd pid =>
    if pid = 0 ∨ (s.tasks pid).isSome then s
    else { s with
      tasks := fun p => if p = pid then some ⟨s.next, true, none⟩ else s.tasks p
      next := s.next + 1
      initpid := fun k => if k = j then pid else s.initpid k
      forward := if fwd then pid else s.forward
      disposition := if fwd then installSignalHandlers sg s.disposition else s.disposition
      log := .ran j s.next fwd :: s.log }
  | .starts child pid =>
    if pid = 0 ∨ (s.tasks pid).isSome then s
    else { s with tasks := fun p => if p = pid then some ⟨s.next, child, none⟩ else s.tasks p, next := s.next + 1 }
  | .ends pid st =>
    match s.tasks pid with
    | some ⟨w, c, none⟩ => { s with tasks := fun p => if p = pid then some ⟨w, c, some st⟩ else s.tasks p, log := .ended w st :: s.log }
    | _ => s
  | .vanishes pid =>
    match s.tasks pid with
    | some ⟨w, _, some _⟩ => if s.log.any (Note.starts w) then s else { s with tasks := fun p => if p = pid then none else s.tasks p }
    | _ => s
  | .takes pid =>
    match s.tasks pid with
    | some ⟨w, true, some _⟩ => { s with tasks := fun p => if p = pid then none else s.tasks p, log := .taken w :: s.log }
    | _ => s
  | .wait j =>
    let pid := s.initpid j
    if pid ≤ 0 then { s with log := .refused j (-ECHILD) :: s.log }
    else
      match waitpidAnswer (s.tasks pid.toNat), s.tasks pid.toNat with
      | none, _ => s
      | some (.status st), some t =>
        { s with
          tasks := fun p => if p = pid.toNat then none else s.tasks p
          log := .reported j t.who (((minijailWait pid [.status st]).map (·.1)).getD 0) :: s.log }
      | some a, _ => { s with log := .refused j (((minijailWait pid [a]).map (·.1)).getD 0) :: s.log }
  | .kill j permitted =>
    let pid := s.initpid j
    if pid ≤ 0 then { s with log := .refused j (-ECHILD) :: s.log }
    else
      match s.tasks pid.toNat with
      | none => { s with log := .refused j (-ESRCH) :: s.log }
      | some t => if permitted then { s with log := .killed j t.who :: s.log } else { s with log := .refused j (-KILL_EPERM) :: s.log }
  | .signal sig =>
    if s.disposition sig ≠ .forwards then s
    else if s.forward = -1 then s
    else
      match s.tasks s.forward.toNat with
      | none => s
      | some t => { s with log := .forwarded sig t.who :: s.log }

/-- Many things, one after the other. -/
def lifeRun (sg : Signals) (evs : List LifeEv) : System := evs.foldl (lifeStep sg) .start

end Minijail
