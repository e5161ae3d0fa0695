import Verif.Model.Api
import Verif.Model.Wait
import Verif.Model.Fds
/-! The Rust interface, rust/minijail/src/lib.rs, on top of the C library. -/
set_option autoImplicit false
namespace Minijail

/-- `Error`, rust/minijail/src/lib.rs:164-236, without the paths and names that variants repeat. Variants that no modelled function
makes (all but `SeccompViolation`) are left out. -/
inductive RustError where
  | bindMount (rc : Int)
  | mount (rc : Int)
  | checkingMultiThreaded
  | forkingMinijail (rc : Int)
  | forkingWhileMultiThreaded
  | seccompPath
  | strToCString
  | pathToCString
  | openDevNull
  | readProgram
  | setAltSyscallTable (rc : Int)
  | setRlimit (rc : Int)
  | settingChrootDirectory (rc : Int)
  | settingPivotRootDirectory (rc : Int)
  | preservingFd (rc : Int)
  | programTooLarge
  | wrongProgramAlignment
  | wrongProgramSize
  | noCommand
  | noAccess
  | seccompViolation (n : Int)
  | killed (signal : Nat)
  | returnCode (code : Nat)
  | wait (rc : Int)
  deriving DecidableEq, Repr

/-- What a method of `Minijail` finds: what the C library finds, which paths are valid UTF-8 (`to_str`, e.g.
rust/minijail/src/lib.rs:567-571) and name files (532, 564), what they contain (536), and whether a buffer begins at a multiple of the
alignment of `sock_filter` (547). -/
structure RustEnv where
  api : ApiEnv := {}
  utf8 : BStr → Bool := fun _ => true
  isFile : BStr → Bool := fun _ => true
  read : BStr → Option Bytes := fun _ => none
  aligned : Bool := true

/-- A configuration method of `Minijail`, rust/minijail/src/lib.rs:465-843, but for `log_to_fd`, which does not touch the jail.
Strings and paths are their bytes. -/
inductive RustMethod where
  | changeUid (uid : BitVec 32)
  | changeGid (gid : BitVec 32)
  | changeUser (user : BStr)
  | changeGroup (group : BStr)
  | setSupplementaryGids (ids : List (BitVec 32))
  | keepSupplementaryGids
  | setRlimit (kind : BitVec 32) (cur max : BitVec 64)
  | useSeccomp
  | noNewPrivs
  | useSeccompFilter
  | setSeccompFilterTsync
  | parseSeccompProgram (path : BStr)
  | parseSeccompBytes (buffer : Bytes)
  | parseSeccompFilters (path : BStr)
  | logSeccompFilterFailures
  | useCaps (mask : BitVec 64)
  | capbsetDrop (mask : BitVec 64)
  | setAmbientCaps
  | resetSignalMask
  | runAsInit
  | namespacePids
  | namespaceUser
  | namespaceUserDisableSetgroups
  | namespaceVfs
  | newSessionKeyring
  | skipRemountPrivate
  | namespaceIpc
  | namespaceNet
  | namespaceCgroups
  | remountProcReadonly
  | setRemountMode (mode : BitVec 64)
  | uidmap (map : BStr)
  | gidmap (map : BStr)
  | inheritUsergroups
  | useAltSyscall (table : BStr)
  | enterChroot (dir : BStr)
  | enterPivotRoot (dir : BStr)
  | mount (src dest fstype : BStr) (flags : BitVec 64)
  | mountWithData (src dest fstype : BStr) (flags : BitVec 64) (data : BStr)
  | mountDev
  | mountTmp
  | mountTmpSize (size : BitVec 64)
  | mountBind (src dest : BStr) (writable : Bool)
  deriving DecidableEq, Repr

/-- The outcome of a method: it returns, leaving the jail as given, or the C library ends the process. `Ok(())` also stands for methods that
return nothing (rust/minijail/src/lib.rs:465). -/
inductive RustRes where
  | ret (r : Except RustError Unit) (j : Jail)
  | die

/-- A call whose result is dropped, as at rust/minijail/src/lib.rs:477-480. -/
def RustRes.ignoring : ApiRes → RustRes
  | .die => .die
  | .ret _ j => .ret (.ok ()) j

/-- A call whose result is an error when negative, as at rust/minijail/src/lib.rs:714-718. -/
def RustRes.checked (e : Int → RustError) : ApiRes → RustRes
  | .die => .die
  | .ret rc j => .ret (if rc < 0 then .error (e rc) else .ok ()) j

/-- `CString::new(s).map_err(|_| e)?`, as at rust/minijail/src/lib.rs:476: a string with a NUL is refused. -/
def cstringNew (j : Jail) (s : BStr) (e : RustError) (k : RustRes) : RustRes :=
  if s.contains 0#8 then .ret (.error e) j else k

/-- `to_str().ok_or_else(PathToCString)?` and `CString::new(..)`, as at rust/minijail/src/lib.rs:707-713 and 754-759; `e` is the error of the
latter. -/
def pathNew (env : RustEnv) (j : Jail) (p : BStr) (e : RustError) (k : RustRes) : RustRes :=
  if !env.utf8 p then .ret (.error .pathToCString) j else cstringNew j p e k

/-- The `sock_filter`s of a buffer, rust/minijail/src/lib.rs:553-556: the memory is read as an array (rust/minijail/src/lib.rs:553-556), on a
little-endian machine. The last incomplete one, which does not occur there, is dropped. -/
def castFilters : Bytes → List Insn
  | a :: b :: c :: d :: e :: f :: g :: h :: r => ⟨decLE 16 [a, b], c, d, decLE 32 [e, f, g, h]⟩ :: castFilters r
  | _ => []

/-- `parse_seccomp_bytes`, rust/minijail/src/lib.rs:539-562. -/
def parseSeccompBytes (env : RustEnv) (j : Jail) (buffer : Bytes) : RustRes :=
  if buffer.length % 8 ≠ 0 then .ret (.error .wrongProgramSize) j
  else if buffer.length / 8 > 65535 then .ret (.error .programTooLarge) j
  else if !env.aligned then .ret (.error .wrongProgramAlignment) j
  else .ignoring (call env.api j (.setSeccompFilters (castFilters buffer)))

/-- `mount_with_data`, rust/minijail/src/lib.rs:746-791. -/
def rustMount (env : RustEnv) (j : Jail) (src dest fstype : BStr) (flags : BitVec 64) (data : BStr) : RustRes :=
  pathNew env j src .strToCString <| pathNew env j dest .strToCString <| cstringNew j fstype .strToCString <|
    cstringNew j data .strToCString <| .checked .mount (call env.api j (.mountWithData src dest fstype flags (some data)))

/-- A configuration method, rust/minijail/src/lib.rs:465-843. -/
def rustCall (env : RustEnv) (j : Jail) : RustMethod → RustRes
  | .changeUid u => .ignoring (call env.api j (.changeUid u))
  | .changeGid g => .ignoring (call env.api j (.changeGid g))
  | .changeUser u => cstringNew j u .strToCString (.ignoring (call env.api j (.changeUser u)))
  | .changeGroup g => cstringNew j g .strToCString (.ignoring (call env.api j (.changeGroup g)))
  | .setSupplementaryGids l => .ignoring (call env.api j (.setSupplementaryGids l))
  | .keepSupplementaryGids => .ignoring (call env.api j .keepSupplementaryGids)
  | .setRlimit k c m =>
    match call env.api j (.rlimit k c m) with
    | .die => .die
    | .ret rc j => .ret (if rc = 0 then .ok () else .error (.setRlimit rc)) j
  | .useSeccomp => .ignoring (call env.api j .useSeccomp)
  | .noNewPrivs => .ignoring (call env.api j .noNewPrivs)
  | .useSeccompFilter => .ignoring (call env.api j .useSeccompFilter)
  | .setSeccompFilterTsync => .ignoring (call env.api j .setSeccompFilterTsync)
  | .parseSeccompProgram p =>
    if !env.isFile p then .ret (.error .seccompPath) j
    else
      match env.read p with
      | none => .ret (.error .readProgram) j
      | some b => parseSeccompBytes env j b
  | .parseSeccompBytes b => parseSeccompBytes env j b
  | .parseSeccompFilters p =>
    if !env.isFile p then .ret (.error .seccompPath) j
    else pathNew env j p .pathToCString (.ignoring (call env.api j (.parseSeccompFilters p)))
  | .logSeccompFilterFailures => .ignoring (call env.api j .logSeccompFilterFailures)
  | .useCaps m => .ignoring (call env.api j (.useCaps m))
  | .capbsetDrop m => .ignoring (call env.api j (.capbsetDrop m))
  | .setAmbientCaps => .ignoring (call env.api j .setAmbientCaps)
  | .resetSignalMask => .ignoring (call env.api j .resetSignalMask)
  | .runAsInit => .ignoring (call env.api j .runAsInit)
  | .namespacePids => .ignoring (call env.api j .namespacePids)
  | .namespaceUser => .ignoring (call env.api j .namespaceUser)
  | .namespaceUserDisableSetgroups => .ignoring (call env.api j .namespaceUserDisableSetgroups)
  | .namespaceVfs => .ignoring (call env.api j .namespaceVfs)
  | .newSessionKeyring => .ignoring (call env.api j .newSessionKeyring)
  | .skipRemountPrivate => .ignoring (call env.api j .skipRemountPrivate)
  | .namespaceIpc => .ignoring (call env.api j .namespaceIpc)
  | .namespaceNet => .ignoring (call env.api j .namespaceNet)
  | .namespaceCgroups => .ignoring (call env.api j .namespaceCgroups)
  | .remountProcReadonly => .ignoring (call env.api j .remountProcReadonly)
  | .setRemountMode m => .ignoring (call env.api j (.remountMode m))
  | .uidmap m => cstringNew j m .strToCString (.ignoring (call env.api j (.uidmap m)))
  | .gidmap m => cstringNew j m .strToCString (.ignoring (call env.api j (.gidmap m)))
  | .inheritUsergroups => .ignoring (call env.api j .inheritUsergroups)
  | .useAltSyscall t => cstringNew j t .strToCString (.checked .setAltSyscallTable (call env.api j (.useAltSyscall t)))
  | .enterChroot d => pathNew env j d .pathToCString (.checked .settingChrootDirectory (call env.api j (.enterChroot d)))
  | .enterPivotRoot d => pathNew env j d .pathToCString (.checked .settingPivotRootDirectory (call env.api j (.enterPivotRoot d)))
  | .mount s d t f => rustMount env j s d t f []
  | .mountWithData s d t f x => rustMount env j s d t f x
  | .mountDev => .ignoring (call env.api j .mountDev)
  | .mountTmp => .ignoring (call env.api j .mountTmp)
  | .mountTmpSize s => .ignoring (call env.api j (.mountTmpSize s))
  | .mountBind s d w =>
    pathNew env j s .strToCString <| pathNew env j d .strToCString <| .checked .bindMount (call env.api j (.bind s d w))

/-- Methods of rust/minijail/src/lib.rs:465-843 called one after the other whatever they return; `none`: the process ended. -/
def rustCalls (j : Jail) : List (RustEnv × RustMethod) → Option Jail
  | [] => some j
  | (env, m) :: ms =>
    match rustCall env j m with
    | .die => none
    | .ret _ j => rustCalls j ms

/-- `Minijail::new` and `minijail_copy_jail` in `try_clone`, rust/minijail/src/lib.rs:439-460. That logging is redirected again is in `Model/RustLog`.
An error of `minijail_copy_jail` is always -1 or `-EINVAL`; the number is not modelled. -/
def tryClone (a : Addrs) (k : LandlockKernel) (j : Jail) : Option Jail :=
  match copyJail a k j with
  | .ok j' => some j'
  | _ => none

/-- The loop at rust/minijail/src/lib.rs:924-929 and 999-1004. -/
def preserveAll (env : ApiEnv) : Jail → List (BitVec 32 × BitVec 32) → RustRes
  | j, [] => .ret (.ok ()) j
  | j, p :: ps =>
    match call env j (.preserveFd p.1 p.2) with
    | .die => .die
    | .ret rc j => if rc < 0 then .ret (.error (.preservingFd rc)) j else preserveAll env j ps

/-- The part that `run_internal` and `fork_remap` share, rust/minijail/src/lib.rs:924-949, 999-1024: the descriptors are to be kept, and
`/dev/null` (opened as `devNull`, if it can be opened) is to take the place of those of 0, 1, 2 that nothing else takes; the rest is to be closed. -/
def preserveStd (env : ApiEnv) (j : Jail) (fds : List (BitVec 32 × BitVec 32)) (devNull : Option (BitVec 32)) : RustRes :=
  match preserveAll env j fds with
  | .die => .die
  | .ret (.error e) j => .ret (.error e) j
  | .ret (.ok _) j =>
    match devNull with
    | none => .ret (.error .openDevNull) j
    | some n =>
      let missing := [0#32, 1#32, 2#32].filter fun io => !fds.any fun p => p.2 == io
      match preserveAll env j (missing.map fun io => (n, io)) with
      | .die => .die
      | .ret (.error e) j => .ret (.error e) j
      | .ret (.ok _) j => .ignoring (call env j .closeOpenFds)

/-- `Program`, rust/minijail/src/lib.rs:19-22. -/
inductive RustProgram where
  | filename (path : BStr)
  | fileDescriptor (fd : BitVec 32)
  deriving DecidableEq, Repr

/-- The outcome of `run_internal`, rust/minijail/src/lib.rs:923-956, up to the call of the C library. -/
inductive RustRun where
  | err (e : RustError) (j : Jail)
  | die
  /-- `minijail_run_env_pid_pipes` or `minijail_run_fd_env_pid_pipes` is called, without pipes for the standard streams. -/
  | starts (j : Jail)

/-- `run_internal`, rust/minijail/src/lib.rs:923-956, with the first lines of `run_command`, 114-119. -/
def rustRun (env : RustEnv) (j : Jail) (fds : List (BitVec 32 × BitVec 32)) (devNull : Option (BitVec 32)) (program : RustProgram) : RustRun :=
  match preserveStd env.api j fds devNull with
  | .die => .die
  | .ret (.error e) j => .err e j
  | .ret (.ok _) j =>
    match program with
    | .filename p => if !env.utf8 p then .err .pathToCString j else if p.contains 0#8 then .err .strToCString j else .starts j
    | .fileDescriptor _ => .starts j

/-- `fork_remap`, rust/minijail/src/lib.rs:987-1024, up to the call of `minijail_fork`. `threads`: what `num_threads` (1073-1083) counts. -/
def rustFork (env : RustEnv) (disableCheck : Bool) (threads : Option Nat) (j : Jail) (fds : List (BitVec 32 × BitVec 32))
    (devNull : Option (BitVec 32)) : RustRun :=
  let go : RustRun :=
    match preserveStd env.api j fds devNull with
    | .die => .die
    | .ret (.error e) j => .err e j
    | .ret (.ok _) j => .starts j
  if disableCheck then go
  else
    match threads with
    | none => .err .checkingMultiThreaded j
    | some n => if n = 1 then go else .err .forkingWhileMultiThreaded j

/-- `num_threads`, rust/minijail/src/lib.rs:1073-1083: the tasks that are no kernel threads, if all can be read. -/
def numThreads (tasks : List (Option Bool)) : Option Nat :=
  tasks.foldl (fun n kthread => match n, kthread with
    | some n, some k => some (if k then n else n + 1)
    | _, _ => none) (some 0)

/-- The descriptors to keep that the C library finds in the jail, libminijail.c:3236-3251, as numbers; they are not negative
(libminijail.c:1323). -/
def preservedMaps (j : Jail) : List FdMap :=
  (j.preserved_fds.take j.preserved_fd_count).map fun p => ⟨p.parent_fd.toNat, p.child_fd.toNat⟩

/-- `to_execve_cstring_array`, rust/minijail/src/lib.rs:1089-1108: the array of pointers, `none` for the null pointer. -/
def execveArray : List BStr → Except RustError (List (Option BStr))
  | [] => .ok [none]
  | s :: l =>
    if s.contains 0#8 then .error .strToCString
    else
      match execveArray l with
      | .error e => .error e
      | .ok r => .ok (some s :: r)

/-- What waiting yields: `Ok(())`, an error, or a panic. -/
inductive RustWaited where
  | ok
  | err (e : RustError)
  | panic
  deriving DecidableEq, Repr

/-- `__libc_current_sigrtmax()` at rust/minijail/src/lib.rs:407, of a program that reserved no signals. -/
def SIGRTMAX : Int := 64
/-- `MINIJAIL_ERR_NO_COMMAND`, libminijail.h:48-64, used at rust/minijail/src/lib.rs:400. -/
def ERR_NO_COMMAND : Int := 127
/-- `MINIJAIL_ERR_NO_ACCESS`, libminijail.h:48-64, used at rust/minijail/src/lib.rs:403. -/
def ERR_NO_ACCESS : Int := 126

/-- `translate_wait_error`, rust/minijail/src/lib.rs:393-417. -/
def translateWaitError (ret : Int) : RustWaited :=
  if ret = 0 then .ok
  else if ret < 0 then .err (.wait ret)
  else if ret = ERR_NO_COMMAND then .err .noCommand
  else if ret = ERR_NO_ACCESS then .err .noAccess
  else if ret > ERR_SIG_BASE ∧ ret ≤ SIGRTMAX + ERR_SIG_BASE then .err (.killed ((ret - ERR_SIG_BASE) % 256).toNat)
  else if ret > 0 ∧ ret ≤ 0xff then .err (.returnCode (ret % 256).toNat)
  else .panic

/-- `Minijail::wait`, rust/minijail/src/lib.rs:1034-1041; `none`: it still waits. -/
def rustWait (initpid : Int) (l : List WaitAns) : Option (RustWaited × List WaitAns) :=
  (minijailWait initpid l).map fun r => (translateWaitError r.1, r.2)

/-- `Minijail::kill`, rust/minijail/src/lib.rs:1044-1051: the process signalled, and the result. -/
def rustKill (initpid : Int) (killErrno : Nat) (l : List WaitAns) : Option Int × Option (RustWaited × List WaitAns) :=
  let r := minijailKill initpid killErrno l
  (r.1, r.2.map fun x => (translateWaitError x.1, x.2))

end Minijail
