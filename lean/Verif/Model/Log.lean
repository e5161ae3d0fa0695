import Verif.Model.Report
import Verif.Model.Fds
/-! Messages: `do_log` and `do_fatal_log` of util.c, and what they do to files. -/
set_option autoImplicit false
namespace Minijail.Logs
open Blocked

/-- What logging asks of the system: a message to syslog, or one write(2). -/
inductive Effect where
  | syslog (priority : Int) (text : List Char)
  | write (fd : Int) (data : List Char)
  deriving DecidableEq, Repr

/-- `vdprintf`, as called at util.c:153 and 187: the C library may write a text in several pieces. `pieces` says which. (Simplified: every write is complete or
fails, and none is tried again.) -/
def vdprintf (pieces : List Char → List (List Char)) (fd : Int) (text : List Char) : List Effect := (pieces text).map (.write fd)

/-- `do_log`, util.c:172-190. `text` is the formatted message. -/
def doLog (pieces : List Char → List (List Char)) (cfg : Logging) (priority : Int) (text : List Char) : List Effect :=
  match cfg.logger with
  | .syslog => [.syslog priority text]
  | .fd fd => if cfg.minPriority < priority then [] else vdprintf pieces fd text ++ vdprintf pieces fd ['\n']

/-- `do_fatal_log`, util.c:145-170, up to `do_abort`. The copy of the message on the stack is left out. -/
def doFatalLog (pieces : List Char → List (List Char)) (cfg : Logging) (priority : Int) (text : List Char) : List Effect :=
  match cfg.logger with
  | .syslog => [.syslog priority text]
  | .fd fd => vdprintf pieces fd text ++ vdprintf pieces fd ['\n']

/-- What a process does that concerns its messages: `minijail_log_to_fd` (libminijail.c:4215-4218), the macros of util.h:134-149 that report something and go on,
and those that report something and end the process. -/
inductive LogAct where
  | logToFd (fd minPriority : Int)
  | log (priority : Int) (text : List Char)
  | fatal (priority : Int) (text : List Char)
  deriving DecidableEq, Repr

/-- The text of a message of process `pid`, util.h:134-149. The errno text of `pdie` and `pwarn` is part of `msg`. -/
def message (pid : Nat) (msg : List Char) : List Char := "libminijail[".toList ++ (toString pid).toList ++ "]: ".toList ++ msg

/-- `die` and `pdie`, util.h:135-139; LOG_ERR is 3. -/
def LogAct.die (pid : Nat) (msg : List Char) : LogAct := .fatal 3 (message pid msg)

/-- `warn` and `pwarn`, util.h:141-145; LOG_WARNING is 4. -/
def LogAct.warn (pid : Nat) (msg : List Char) : LogAct := .log 4 (message pid msg)

/-- `info`, util.h:147-148; LOG_INFO is 6. -/
def LogAct.info (pid : Nat) (msg : List Char) : LogAct := .log 6 (message pid msg)

/-- The effects of a sequence of these, util.c:113-190, 531-536. Nothing happens behind `do_abort` (util.c:169). -/
def effects (pieces : List Char → List (List Char)) : Logging → List LogAct → List Effect
  | _, [] => []
  | _, .logToFd fd min :: rest => effects pieces (Blocked.logToFd fd min) rest
  | cfg, .log p text :: rest => doLog pieces cfg p text ++ effects pieces cfg rest
  | cfg, .fatal p text :: _ => doFatalLog pieces cfg p text

/-- The contents of files, and the system's log. -/
structure Media where
  files : Nat → List Char
  syslog : List (Int × List Char)

/-- The kernel's part of util.c:150-155 and 174-189: what is written to a descriptor is appended to its file (simplified: files, pipes and terminals alike); a
descriptor that is not open takes nothing, and nobody looks at the error. -/
def take (t : FdTable) (m : Media) : Effect → Media
  | .syslog p text => { m with syslog := m.syslog ++ [(p, text)] }
  | .write fd data =>
    if fd < 0 then m
    else match t fd.toNat with
      | none => m
      | some f => { m with files := fun i => if i = f.file then m.files i ++ data else m.files i }

/-- All effects of a process with the descriptors `t`, util.c:145-190. -/
def takeAll (t : FdTable) (m : Media) (es : List Effect) : Media := es.foldl (take t) m

end Minijail.Logs
