/-! File descriptors of the child between `fork` and `minijail_enter`. -/
set_option autoImplicit false
namespace Minijail

/-- An entry of a process's descriptor table: the open file description and the close-on-exec flag. -/
structure OpenFile where
  file : Nat
  cloexec : Bool
  deriving DecidableEq, Repr

/-- A descriptor table. Descriptors are natural numbers: -1 is modelled by `Option`. -/
abbrev FdTable := Nat → Option OpenFile

/-- What the model does not determine: which `dup2` calls the kernel refuses although the source is open (limits,
interruption), and what writing a log message does to the table (libminijail.c:3215: "warn() opens a file descriptor"). -/
structure FdEnv where
  dup2Fails : Nat → Nat → Bool
  warn : FdTable → FdTable

/-- Setting one entry. -/
def FdTable.set (t : FdTable) (n : Nat) (o : Option OpenFile) : FdTable := fun m => if m = n then o else t m

/-- `dup2(2)`; `none` is -1. -/
def dup2 (env : FdEnv) (t : FdTable) (old new : Nat) : Option FdTable :=
  match t old with
  | none => none
  | some f =>
    if env.dup2Fails old new then none
    else if old = new then some t
    else some (t.set new (some ⟨f.file, false⟩))

/-- `close(2)`. -/
def closeFd (t : FdTable) (n : Nat) : FdTable := t.set n none

/-- `minijail_fd_is_open`, libminijail.c:3172-3175. -/
def fdIsOpen (t : FdTable) (n : Nat) : Bool := (t n).isSome

/-- An entry of `preserved_fds` (libminijail.c:117-120, 225). Both numbers are not negative (libminijail.c:1323). -/
structure FdMap where
  parent : Nat
  child : Nat
  deriving DecidableEq, Repr

/-- `is_preserved_child_fd`, libminijail.c:3180-3190, over the list of child fds (which no function changes). -/
def isPreservedChildFd (children : List Nat) (fd maxIndex : Nat) : Bool :=
  (children.take (min maxIndex children.length)).contains fd

/-- The search for an unused number from `fd` downwards, libminijail.c:3205-3212; `none` is the `die`. -/
def findUnused (children : List Nat) (t : FdTable) : Nat → Option Nat
  | 0 => if isPreservedChildFd children 0 children.length || fdIsOpen t 0 then none else some 0
  | n + 1 =>
    if isPreservedChildFd children (n + 1) children.length || fdIsOpen t (n + 1) then findUnused children t n else some (n + 1)

/-- `ensure_no_fd_conflict`, libminijail.c:3193-3230. `none`: the process dies, there or in the caller, all of which
(libminijail.c:3246 through 3943, 3276-3285 through 3946, 3951-3953) die on -1. -/
def ensureNoFdConflict (env : FdEnv) (children : List Nat) (t : FdTable) (child : Option Nat) (parent maxIndex : Nat) :
    Option (FdTable × Nat) :=
  if !isPreservedChildFd children parent maxIndex then some (t, parent)
  else
    let fd := match child with
      | some c => if fdIsOpen t c then findUnused children t 1023 else some c
      | none => findUnused children t 1023
    match fd with
    | none => none
    | some fd =>
      match dup2 env t parent fd with
      | none => none
      | some t => some (env.warn t, fd)

/-- `prepare_preserved_fds`, libminijail.c:3236-3251, from index `i` on; the result has the new parent fds. -/
def prepareFrom (env : FdEnv) (children : List Nat) : FdTable → Nat → List FdMap → Option (FdTable × List FdMap)
  | t, _, [] => some (t, [])
  | t, i, e :: es =>
    if isPreservedChildFd children e.child i then none
    else
      match ensureNoFdConflict env children t (some e.child) e.parent i with
      | none => none
      | some (t, p) =>
        match prepareFrom env children t (i + 1) es with
        | none => none
        | some (t, es) => some (t, ⟨p, e.child⟩ :: es)

/-- `prepare_preserved_fds`, libminijail.c:3236-3251. -/
def preparePreservedFds (env : FdEnv) (t : FdTable) (es : List FdMap) : Option (FdTable × List FdMap) :=
  prepareFrom env (es.map (·.child)) t 0 es

/-- `avoid_pipe_conflicts`, libminijail.c:3269-3289, over the pipe ends in order (`none` is -1). -/
def avoidPipeConflicts (env : FdEnv) (children : List Nat) : FdTable → List (Option Nat) → Option (FdTable × List (Option Nat))
  | t, [] => some (t, [])
  | t, none :: ps =>
    match avoidPipeConflicts env children t ps with
    | none => none
    | some (t, ps) => some (t, none :: ps)
  | t, some p :: ps =>
    match ensureNoFdConflict env children t none p children.length with
    | none => none
    | some (t, p) =>
      match avoidPipeConflicts env children t ps with
      | none => none
      | some (t, ps) => some (t, some p :: ps)

/-- The first loop of `redirect_fds`, libminijail.c:3299-3326. -/
def redirectDup (env : FdEnv) : FdTable → List FdMap → Option FdTable
  | t, [] => some t
  | t, e :: es =>
    if e.parent = e.child then
      match t e.child with
      | none => redirectDup env t es
      | some f => redirectDup env (t.set e.child (some ⟨f.file, false⟩)) es
    else
      match dup2 env t e.parent e.child with
      | none => none
      | some t => redirectDup env t es

/-- The second loop of `redirect_fds`, libminijail.c:3328-3337. -/
def redirectClose (children : List Nat) : FdTable → List FdMap → FdTable
  | t, [] => t
  | t, e :: es =>
    redirectClose children (if isPreservedChildFd children e.parent children.length then t else closeFd t e.parent) es

/-- `redirect_fds`, libminijail.c:3297-3339. -/
def redirectFds (env : FdEnv) (t : FdTable) (es : List FdMap) : Option FdTable :=
  match redirectDup env t es with
  | none => none
  | some t => some (redirectClose (es.map (·.child)) t es)

/-- The outcome of setting up descriptors in the child. -/
structure ChildFds where
  table : FdTable
  pipes : List (Option Nat)
  elf : Option Nat

/-- The part of `minijail_run_internal` that sets up descriptors in the child, libminijail.c:3942-3956. `pipes` are the
ten pipe ends in the order of libminijail.c:3272-3275; `none` as result: the process dies. -/
def setupChildFds (env : FdEnv) (t : FdTable) (es : List FdMap) (pipes : List (Option Nat)) (elf : Option Nat) : Option ChildFds :=
  match preparePreservedFds env t es with
  | none => none
  | some (t, es) =>
    let children := es.map (·.child)
    match avoidPipeConflicts env children t pipes with
    | none => none
    | some (t, pipes) =>
      match (match elf with
        | none => some (t, none)
        | some p => (ensureNoFdConflict env children t none p children.length).map fun r => (r.1, some r.2)) with
      | none => none
      | some (t, elf) =>
        match redirectFds env t es with
        | none => none
        | some t => some ⟨t, pipes, elf⟩

/-- The loop of `close_open_fds`, libminijail.c:3144-3165, over the entries of `/proc/self/fd` as numbers (`none` for
`.` and `..`, which `strtol` does not consume). -/
def closeEntries (inheritable : List Nat) (dirFd : Nat) : FdTable → List (Option Nat) → FdTable
  | t, [] => t
  | t, none :: es => closeEntries inheritable dirFd t es
  | t, some fd :: es =>
    closeEntries inheritable dirFd (if !inheritable.contains fd && fd != dirFd then closeFd t fd else t) es

/-- `close_open_fds`, libminijail.c:3134-3169. `entries` is what `readdir` returns, `dirFd` the descriptor `opendir`
opened; `none`: `opendir` failed. `closedir` closes `dirFd`. -/
def closeOpenFds (t : FdTable) (dir : Option (Nat × OpenFile)) (entries : List (Option Nat)) (inheritable : List Nat) :
    Option FdTable :=
  match dir with
  | none => none
  | some (dirFd, f) => some (closeFd (closeEntries inheritable dirFd (t.set dirFd (some f)) entries) dirFd)

/-- The list that `minijail_run_internal` passes to `close_open_fds`, libminijail.c:3896-3936: the pipe ends that exist, the
parent fds (those of namespaces to enter were added to `es` before, 3921-3924), and the program's fd. -/
def inheritableFds (pipes : List (Option Nat)) (es : List FdMap) (elf : Option Nat) : List Nat :=
  pipes.filterMap id ++ es.map (·.parent) ++ elf.toList

/-- Closing both ends of a pipe, `close_and_reset` (libminijail.c:301-306). -/
def closeEnd (t : FdTable) : Option Nat → FdTable
  | none => t
  | some n => closeFd t n

/-- One entry of `fd_map`, libminijail.c:3371-3376; `none` is the `die`. -/
def stdDup (env : FdEnv) (t : FdTable) (src : Option Nat) (dst : Nat) : Option FdTable :=
  match src with
  | none => some t
  | some n => if n = dst then some t else dup2 env t n dst

/-- The descriptor part of `setup_child_std_fds`, libminijail.c:3357-3385: the three pipes as (read end, write end). -/
def setupChildStdFds (env : FdEnv) (t : FdTable) (pin pout perr : Option Nat × Option Nat) : Option FdTable :=
  match stdDup env t pin.1 0 with
  | none => none
  | some t =>
    match stdDup env t pout.2 1 with
    | none => none
    | some t =>
      match stdDup env t perr.2 2 with
      | none => none
      | some t => some ([pin.1, pin.2, pout.1, pout.2, perr.1, perr.2].foldl closeEnd t)

/-- The ends of the five pipes of a run, libminijail.c:3256-3264; `none` is -1. -/
structure RunPipes where
  config : Option Nat × Option Nat
  sync : Option Nat × Option Nat
  stdin : Option Nat × Option Nat
  stdout : Option Nat × Option Nat
  stderr : Option Nat × Option Nat

/-- The pipe ends in the order of libminijail.c:3272-3275 and 3901-3905. -/
def RunPipes.ends (s : RunPipes) : List (Option Nat) :=
  [s.config.1, s.config.2, s.sync.1, s.sync.2, s.stdin.1, s.stdin.2, s.stdout.1, s.stdout.2, s.stderr.1, s.stderr.2]

/-- The descriptors that `execve` finds in the child of `minijail_run_internal`, from libminijail.c:3942 on: descriptors are redirected, the sync pipe is
closed (libminijail.c:2466-2479), the standard streams are set up, and all pipe ends but the read end of the configuration pipe are
closed (libminijail.c:4024-4027). What `minijail_enter` opens and closes is left out, as are pipes already closed. -/
def childFdsSetup (env : FdEnv) (t : FdTable) (es : List FdMap) (s : RunPipes) (elf : Option Nat) : Option ChildFds :=
  match setupChildFds env t es s.ends elf with
  | some ⟨t, [c0, c1, s0, s1, i0, i1, o0, o1, e0, e1], elf⟩ =>
    match setupChildStdFds env (closeEnd (closeEnd t s1) s0) (i0, i1) (o0, o1) (e0, e1) with
    | none => none
    | some t => some ⟨closeEnd t c1, [c0], elf⟩
  | _ => none

/-- The same when `close_open_fds` was asked for, libminijail.c:3896-4035. -/
def childFdsAtExec (env : FdEnv) (t : FdTable) (dir : Option (Nat × OpenFile)) (entries : List (Option Nat)) (es : List FdMap)
    (s : RunPipes) (elf : Option Nat) : Option ChildFds :=
  match closeOpenFds t dir entries (inheritableFds s.ends es elf) with
  | none => none
  | some t => childFdsSetup env t es s elf

/-- The number that `setup_pipe` writes into the child's environment, libminijail.c:3122-3132, called before `fork`
(libminijail.c:3675-3677): the read end as `pipe` returned it. -/
def announcedConfigFd (s : RunPipes) : Option Nat := s.config.1

end Minijail
