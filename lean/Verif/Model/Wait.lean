import Verif.Model.Jail
/-! Waiting for the jailed program: `minijail_wait_internal`, `minijail_wait`, `minijail_kill` and the `init` of a new pid namespace. -/
set_option autoImplicit false
namespace Minijail

/-- `WIFEXITED` (sys/wait.h), used at libminijail.c:3018, 4117. -/
def wifexited (st : BitVec 32) : Bool := st &&& 0x7f#32 == 0#32

/-- `WEXITSTATUS` (sys/wait.h), used at libminijail.c:3020, 4146. -/
def wexitstatus (st : BitVec 32) : Int := ((st &&& 0xff00#32) >>> 8).toNat

/-- `WTERMSIG` (sys/wait.h), used at libminijail.c:4123. -/
def wtermsig (st : BitVec 32) : Int := (st &&& 0x7f#32).toNat

/-- `WIFSIGNALED` (sys/wait.h), used at libminijail.c:4119: `((signed char)((status & 0x7f) + 1) >> 1) > 0`. -/
def wifsignaled (st : BitVec 32) : Bool := decide (((((st &&& 0x7f#32) + 1#32).setWidth 8).sshiftRight 1).toInt > 0)

/-- `SIGSYS` (signal.h), libminijail.c:4131. -/
def SIGSYS : Int := 31
/-- `MINIJAIL_ERR_JAIL`, libminijail.h:48-64, used at libminijail.c:4136. -/
def ERR_JAIL : Int := 253
/-- `MINIJAIL_ERR_SIG_BASE`, libminijail.h:48-64, used at libminijail.c:4142. -/
def ERR_SIG_BASE : Int := 128
/-- `MINIJAIL_ERR_INIT`, libminijail.h:48-64, used at libminijail.c:3019. -/
def ERR_INIT : Int := 254
/-- `ECHILD` (errno.h), libminijail.c:4106. -/
def ECHILD : Nat := 10
/-- `EINTR` (errno.h), libminijail.c:4113. -/
def EINTR : Nat := 4

/-- What `waitpid` returns: a status, or -1 with `errno` (libminijail.c:4110-4114). -/
inductive WaitAns where
  | status (st : BitVec 32)
  | err (errno : Nat)
  deriving DecidableEq, Repr

/-- The part of `minijail_wait_internal` after the loop, libminijail.c:4117-4152. Warnings are left out, and with them
`expected_signal`, which only decides about one. -/
def waitResult (st : BitVec 32) : Int :=
  if !wifexited st then
    if !wifsignaled st then st.toInt
    else if wtermsig st = SIGSYS then ERR_JAIL
    else ERR_SIG_BASE + wtermsig st
  else wexitstatus st

/-- The loop at libminijail.c:4109-4115 and what follows. The list holds the answers to the calls of `waitpid` to come; the result is the
return value and the answers that were not needed, or nothing when the list is used up, i.e. the call still waits. -/
def waitLoop : List WaitAns → Option (Int × List WaitAns)
  | [] => none
  | .status st :: l => some (waitResult st, l)
  | .err e :: l => if e ≠ EINTR then some (-e, l) else waitLoop l

/-- `minijail_wait_internal`, libminijail.c:4103-4153, and `minijail_wait`, 4166-4169. -/
def minijailWait (initpid : Int) (l : List WaitAns) : Option (Int × List WaitAns) :=
  if initpid ≤ 0 then some (-ECHILD, l) else waitLoop l

/-- `minijail_kill`, libminijail.c:4155-4164, with the answer of `kill` (0 or `errno`): the process it signals, and its result. -/
def minijailKill (initpid : Int) (killErrno : Nat) (l : List WaitAns) : Option Int × Option (Int × List WaitAns) :=
  if initpid ≤ 0 then (none, some (-ECHILD, l))
  else if killErrno ≠ 0 then (some initpid, some (-killErrno, l))
  else (some initpid, minijailWait initpid l)

/-- What happens to the `init` process while it sits in `wait` (libminijail.c:3011): a child is reaped, `wait` fails, or SIGTERM
arrives. -/
inductive InitEv where
  | reaped (pid : Int) (st : BitVec 32)
  | failed
  | sigterm
  deriving DecidableEq, Repr

/-- The end of `init`, libminijail.c:3018-3020: the argument of `_exit`. -/
def initEnd (exitstatus : BitVec 32) : Int := if !wifexited exitstatus then ERR_INIT else wexitstatus exitstatus

/-- The loop of `init`, libminijail.c:3011-3020, and `init_term`, 2998-3001: the argument of `_exit`, or nothing while it still waits.
`exitstatus` is the static variable at 2996. -/
def initLoop (rootpid : Int) : BitVec 32 → List InitEv → Option Int
  | _, [] => none
  | s, .reaped pid st :: l => if pid > 0 then initLoop rootpid (if pid = rootpid then st else s) l else some (initEnd s)
  | s, .failed :: _ => some (initEnd s)
  | s, .sigterm :: _ => some s.toInt

/-- `init`, libminijail.c:3003-3021. -/
def minijailInit (rootpid : Int) (l : List InitEv) : Option Int := initLoop rootpid 0#32 l

end Minijail
