import Verif.Model.Sync
/-!
What the parent writes for the child (libminijail.c:2385-2443, system.c:151-184, 265-285), call by call.
-/
set_option autoImplicit false
namespace Minijail

/-- What has happened outside the process: a file was opened for writing (and emptied, or created), bytes were written to it, a limit was set
(`prlimit`), a signal was sent. -/
inductive Deed where
  | opened (path : BStr) (emptied : Bool)
  | wrote (path : BStr) (bytes : BStr)
  | limited (pid : Nat) (r : Rlimit)
  | killed (pid : Nat)
  deriving DecidableEq, Repr

/-- What the system answers, after what has happened (`List Deed`): the error of `open`, if any (system.c:166, 267); whether `fprintf` works (273); for `fclose`
(279) after how many bytes it fails, and the error; for `write` (173) how many bytes are taken, or the error; whether `prlimit` works (libminijail.c:2414). `errnoAfter` is what
`errno` is after `pwarn` when it was `e` before: neither vsyslog(3) nor vdprintf(3), which `do_log` calls (util.c:172-190), promises to keep it. -/
structure SetupEnv where
  open_ : List Deed → BStr → Option Nat
  print : List Deed → BStr → Bool
  flush : List Deed → BStr → Option (Nat × Nat)
  write : List Deed → BStr → Nat ⊕ Nat
  limit : List Deed → Rlimit → Bool
  errnoAfter : List Deed → Nat → Nat

/-- "%d" for a process id, system.c:160, 273; process ids are positive. -/
def decimalOf (pid : Nat) : BStr := (Nat.toDigits 10 pid).map fun c => BitVec.ofNat 8 c.toNat

/-- `write_pid_to_path`, system.c:265-285: what it returns. `fclose` writes what `fprintf` has left in the buffer. -/
def writePidToPath (env : SetupEnv) (pid : Nat) (path : BStr) (d : List Deed) : Int × List Deed :=
  match env.open_ d path with
  | some e => (-(env.errnoAfter d e : Int), d)
  | none =>
    let d := d ++ [.opened path true]
    if env.print d path = false then (-1, d)
    else
      let text := decimalOf pid ++ [0x0a#8]
      match env.flush d path with
      | some (n, e) => (-(env.errnoAfter (d ++ [.wrote path (text.take n)]) e : Int), d ++ [.wrote path (text.take n)])
      | none => (0, d ++ [.wrote path text])

/-- `sizeof(filename)`, system.c:157-159. -/
def PROC_FILENAME_SIZE : Nat := 32

/-- `write_proc_file`, system.c:151-184: what it returns. -/
def writeProcFile (env : SetupEnv) (pid : Nat) (content : BStr) (basename : String) (d : List Deed) : Int × List Deed :=
  let filename := bstr "/proc/" ++ decimalOf pid ++ bstr "/" ++ bstr basename
  if filename.length ≥ PROC_FILENAME_SIZE then (-1, d)
  else
    match env.open_ d filename with
    | some e => (-(env.errnoAfter d e : Int), d)
    | none =>
      let d := d ++ [.opened filename false]
      match env.write d filename with
      | .inl n =>
        let d := d ++ [.wrote filename (content.take n)]
        if n < content.length then (-1, d) else (0, d)
      | .inr e => (-(env.errnoAfter d e : Int), d)

/-- The parent goes on, or it has died. -/
inductive SetupEnd where
  | goesOn
  | died
  deriving DecidableEq, Repr

/-- `kill_child_and_die`, libminijail.c:2385-2389. -/
def killChildAndDie (pid : Nat) (d : List Deed) : SetupEnd × List Deed := (.died, d ++ [.killed pid])

/-- `write_pid_file_or_die`, libminijail.c:2391-2395. `path` NULL would be undefined; `pid_file` is only set together with a path (1024-1031). -/
def writePidFileOrDie (env : SetupEnv) (pid : Nat) (path : BStr) (d : List Deed) : SetupEnd × List Deed :=
  let r := writePidToPath env pid path d
  if r.1 ≠ 0 then killChildAndDie pid r.2 else (.goesOn, r.2)

/-- `add_to_cgroups_or_die`, libminijail.c:2397-2405. -/
def addToCgroupsOrDie (env : SetupEnv) (pid : Nat) : List BStr → List Deed → SetupEnd × List Deed
  | [], d => (.goesOn, d)
  | c :: cs, d =>
    let r := writePidToPath env pid c d
    if r.1 ≠ 0 then killChildAndDie pid r.2 else addToCgroupsOrDie env pid cs r.2

/-- `set_rlimits_or_die`, libminijail.c:2407-2418. -/
def setRlimitsOrDie (env : SetupEnv) (pid : Nat) : List Rlimit → List Deed → SetupEnd × List Deed
  | [], d => (.goesOn, d)
  | l :: ls, d => if env.limit d l = false then killChildAndDie pid d else setRlimitsOrDie env pid ls (d ++ [.limited pid l])

/-- `ENOENT` (errno.h), libminijail.c:2431. -/
def ENOENT : Nat := 2

/-- The uid part of `write_ugid_maps_or_die`, libminijail.c:2422-2423. -/
def writeUidMapOrDie (env : SetupEnv) (pid : Nat) (j : Jail) (d : List Deed) : SetupEnd × List Deed :=
  match j.uidmap with
  | none => (.goesOn, d)
  | some m =>
    let r := writeProcFile env pid m "uid_map" d
    if r.1 ≠ 0 then killChildAndDie pid r.2 else (.goesOn, r.2)

/-- `setgroups` in `write_ugid_maps_or_die`, libminijail.c:2424-2440. -/
def denySetgroupsOrDie (env : SetupEnv) (pid : Nat) (j : Jail) (d : List Deed) : SetupEnd × List Deed :=
  if j.gidmap.isSome && j.flags.disable_setgroups then
    let r := writeProcFile env pid (bstr "deny") "setgroups" d
    if r.1 ≠ 0 then (if r.1 = -(ENOENT : Int) then (.goesOn, r.2) else killChildAndDie pid r.2) else (.goesOn, r.2)
  else (.goesOn, d)

/-- The gid part of `write_ugid_maps_or_die`, libminijail.c:2441-2442. -/
def writeGidMapOrDie (env : SetupEnv) (pid : Nat) (j : Jail) (d : List Deed) : SetupEnd × List Deed :=
  match j.gidmap with
  | none => (.goesOn, d)
  | some m =>
    let r := writeProcFile env pid m "gid_map" d
    if r.1 ≠ 0 then killChildAndDie pid r.2 else (.goesOn, r.2)

/-- One step after the other; `die` ends them. -/
def SetupEnd.andThen (r : SetupEnd × List Deed) (f : List Deed → SetupEnd × List Deed) : SetupEnd × List Deed :=
  match r.1 with
  | .goesOn => f r.2
  | .died => r

/-- `write_ugid_maps_or_die`, libminijail.c:2420-2443. -/
def writeUgidMapsOrDie (env : SetupEnv) (pid : Nat) (j : Jail) (d : List Deed) : SetupEnd × List Deed :=
  SetupEnd.andThen (writeUidMapOrDie env pid j d) fun d => SetupEnd.andThen (denySetgroupsOrDie env pid j d) fun d => writeGidMapOrDie env pid j d

/-- The steps of the parent for the child `pid`, libminijail.c:3799-3809. -/
def setupChild (env : SetupEnv) (pid : Nat) (j : Jail) (d : List Deed) : SetupEnd × List Deed :=
  SetupEnd.andThen (if j.flags.pid_file then writePidFileOrDie env pid (j.pid_file_path.getD []) d else (.goesOn, d)) fun d =>
    SetupEnd.andThen (if j.flags.cgroups then addToCgroupsOrDie env pid (j.cgroups.take j.cgroup_count) d else (.goesOn, d)) fun d =>
      SetupEnd.andThen (if j.rlimit_count ≠ 0 then setRlimitsOrDie env pid (j.rlimits.take j.rlimit_count) d else (.goesOn, d)) fun d =>
        if j.flags.userns then writeUgidMapsOrDie env pid j d else (.goesOn, d)

end Minijail
