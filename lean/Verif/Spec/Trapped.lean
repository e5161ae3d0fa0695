import Verif.Model.BpfMachine
/-! What the kernel does with a system call of a filtered process, and with the signal SIGSYS (seccomp(2), signal(7), sigaction(2)). -/
set_option autoImplicit false
namespace Minijail.Blocked

/-- The actions of seccomp(2). -/
inductive Outcome where
  /-- SECCOMP_RET_ALLOW: the call is made. -/
  | allowed
  /-- SECCOMP_RET_LOG: the call is made, and the kernel has an audit record of it. -/
  | recorded
  /-- SECCOMP_RET_ERRNO, and SECCOMP_RET_TRACE without a tracer: the call is not made, the program goes on. -/
  | refused
  /-- SECCOMP_RET_TRAP: the call is not made, SIGSYS is sent to the thread. -/
  | trapped
  /-- SECCOMP_RET_KILL_PROCESS, SECCOMP_RET_KILL_THREAD and unknown actions; no usable program gives no word. -/
  | ends
  deriving DecidableEq, Repr

/-- The action is in the upper 16 bits of the word (SECCOMP_RET_ACTION_FULL). -/
def outcome : Verdict → Outcome
  | .ret w =>
    if w.toNat / 65536 = 0x7fff then .allowed
    else if w.toNat / 65536 = 0x7ffc then .recorded
    else if w.toNat / 65536 = 0x0005 ∨ w.toNat / 65536 = 0x7ff0 then .refused
    else if w.toNat / 65536 = 0x0003 then .trapped
    else .ends
  | .bad => .ends

/-- What the kernel knows of a thread and SIGSYS: whether the reporting handler is installed, and whether the signal is blocked. -/
structure Thread where
  handler : Bool
  blocked : Bool
  deriving DecidableEq, Repr

/-- Where a line can go: the system log or a descriptor. -/
inductive Sink where
  | syslog
  | fd (n : Int)
  deriving DecidableEq, Repr

/-- What is seen of a program: the calls that the kernel recorded, what was written about it, the calls that were made, and whether it was ended. -/
structure Story where
  records : List SeccompData := []
  lines : List (Sink × List Char) := []
  made : List SeccompData := []
  ended : Bool := false
  deriving DecidableEq, Repr

/-- A program that makes the given calls one after the other under a filter. A trapped call runs the handler; a signal that is blocked, or that has
no handler, ends the process. `handle d` is what the handler writes about the call `d`; it does not return. -/
def story (filter : SeccompData → Verdict) (handle : SeccompData → List (Sink × List Char)) (th : Thread) : List SeccompData → Story
  | [] => {}
  | d :: rest =>
    match outcome (filter d) with
    | .allowed => let s := story filter handle th rest; { s with made := d :: s.made }
    | .recorded => let s := story filter handle th rest; { s with made := d :: s.made, records := d :: s.records }
    | .refused => story filter handle th rest
    | .trapped => if th.handler && !th.blocked then { lines := handle d, ended := true } else { ended := true }
    | .ends => { ended := true }

/-- `execve` gives every signal that has a handler its default action again, and keeps the mask. -/
def Thread.exec (th : Thread) : Thread := { th with handler := false }

/-- The line about a blocked call, of the process `pid`, that calls it `what`. -/
def line (pid : Int) (what : List Char) : List Char :=
  "libminijail[".toList ++ (toString pid).toList ++ "]: blocked syscall: ".toList ++ what

/-- What a line should call the call number `nr`: its name in the table, or the number if it has none. -/
def CalledBy (table : List (List Char × Nat)) (nr : BitVec 32) (what : List Char) : Prop :=
  (∃ n, (what, n) ∈ table ∧ (n : Int) = nr.toInt) ∨ ((∀ e ∈ table, (e.2 : Int) ≠ nr.toInt) ∧ what = (toString nr.toInt).toList)

/-- The words of the `siginfo_t` of a SIGSYS signal as the kernel gives it to a handler: the number of the signal, `si_errno` (the data of the filter's action), `si_code` (SYS_SECCOMP is 1), the
address of the instruction, the number of the system call and the architecture. With 64-bit pointers the address has two words and is aligned. -/
def sigsysWords (wide : Bool) (data ipLow ipHigh : BitVec 32) (d : SeccompData) : List (BitVec 32) :=
  if wide then [31, data, 1, 0, ipLow, ipHigh, d.nr, d.arch] else [31, data, 1, ipLow, d.nr, d.arch]

end Minijail.Blocked
