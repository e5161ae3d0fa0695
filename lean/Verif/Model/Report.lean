import Verif.Spec.Trapped
/-! How a blocked system call is reported: signal_handler.c, and the parts of util.c that it uses. -/
set_option autoImplicit false
namespace Minijail.Blocked

/-- `lookup_syscall_name`, util.c:213-220: the first entry with that number. The table is given up to its terminator (see `Ctx.syscalls`). -/
def lookupSyscallName : List (List Char × Nat) → Int → Option (List Char)
  | [], _ => none
  | e :: rest, nr => if (e.2 : Int) = nr then some e.1 else lookupSyscallName rest nr

/-- `minijail_syscall_name`, libminijail.c:4220-4225: `alt` is whether there is a jail with the flag `alt_syscall`. -/
def minijailSyscallName (table : List (List Char × Nat)) (alt : Bool) (placeholder : List Char) (nr : Int) : Option (List Char) :=
  if alt then some placeholder else lookupSyscallName table nr

/-- `struct logging_config_t`, util.c:113-125, with its initial value. The field `fd` matters only when the logger is a descriptor. -/
structure Logging where
  logger : Sink := .syslog
  minPriority : Int := 0
  deriving DecidableEq, Repr

/-- `init_logging`, util.c:531-536, as called by `minijail_log_to_fd`, libminijail.c:4215-4218. -/
def logToFd (fd minPriority : Int) : Logging := { logger := .fd fd, minPriority }

/-- The system calls that functions of the C library make: `getpid` (util.h:136), `vsyslog` and `vdprintf` (util.c:151, 153, 154). They differ
between C libraries and between their versions. -/
structure Libc where
  getpid : List SeccompData
  syslog : List Char → List SeccompData
  write : Int → List Char → List SeccompData

/-- Whether calls made inside the handler of SIGSYS get through: there SIGSYS is blocked (signal_handler.c:67, no SA_NODEFER), so a trapped call
ends the process. Simplified: a call that the policy refuses with an error number counts as one that does not get through. -/
def gets (filter : SeccompData → Verdict) (calls : List SeccompData) : Bool :=
  calls.all fun d => decide (outcome (filter d) = .allowed ∨ outcome (filter d) = .recorded)

/-- What `do_fatal_log` writes, util.c:145-170. It ends with `abort` or `exit`, whatever was written. -/
def fatalLog (filter : SeccompData → Verdict) (libc : Libc) (cfg : Logging) (text : List Char) : List (Sink × List Char) :=
  match cfg.logger with
  | .syslog => if gets filter (libc.syslog text) then [(.syslog, text)] else []
  | .fd n =>
    if gets filter (libc.write n text) then
      (.fd n, text) :: (if gets filter (libc.write n ['\n']) then [(.fd n, ['\n'])] else [])
    else []

/-- `get_si_syscall`, signal_handler.c:19-38, on the words of a `siginfo_t`: `field` is whether the C library's headers define `si_syscall` (21-22). If not, the `siginfo_t` itself is read
as a pointer, an `int` and an `unsigned int` (24-36). -/
def getSiSyscall (field wide : Bool) (words : List (BitVec 32)) : Option (BitVec 32) :=
  if field then words[if wide then 6 else 4]?
  else words[if wide then 2 else 1]?

/-- `log_sigsys_handler`, signal_handler.c:40-58, with the macro `die`, util.h:135-136: `getpid` is called for the prefix of the line before
`do_fatal_log`. `nr` is `si_syscall`, an `int`: for what `get_si_syscall` makes of it see `getSiSyscall`. -/
def logSigsysHandler (filter : SeccompData → Verdict) (libc : Libc) (cfg : Logging) (table : List (List Char × Nat)) (pid : Int)
    (d : SeccompData) : List (Sink × List Char) :=
  let nr := d.nr.toInt
  let text := "libminijail[".toList ++ (toString pid).toList ++ "]: ".toList ++ "blocked syscall: ".toList ++
    (match lookupSyscallName table nr with
     | some name => name
     | none => (toString nr).toList)
  if gets filter libc.getpid then fatalLog filter libc cfg text else []

/-- `install_sigsys_handler`, signal_handler.c:60-82: the result and the thread after it. `action` and `mask` are what `sigaction` and
`sigprocmask` return. -/
def installSigsysHandler (action mask : Int) (th : Thread) : Int × Thread :=
  if action < 0 then (action, th)
  else
    let th := { th with handler := true }
    if mask < 0 then (mask, th) else (0, { th with blocked := false })

end Minijail.Blocked
