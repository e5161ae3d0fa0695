import Verif.Model.Api
import Verif.Model.Fds
import Verif.Model.Preload
import Verif.Model.Sync
/-! The calling process in `minijail_run*` and `minijail_fork`: what it opens, closes, starts and hands out. -/
set_option autoImplicit false
namespace Minijail

/-- `struct minijail_run_config`, libminijail.c:3430-3441. Pointers to results are addresses; `none` is NULL. -/
structure RunConfig where
  filename : Option CStr := none
  elfFd : Int
  argv : List CStr := []
  envp : Option Env := none
  usePreload : Bool := false
  execInChild : Bool := false
  pstdin : Option Nat := none
  pstdout : Option Nat := none
  pstderr : Option Nat := none
  pchildPid : Option Nat := none

/-- The functions that start a program or fork, libminijail.h:502-632, with their arguments (without the jail). -/
inductive RunCall where
  | run (filename : CStr) (argv : List CStr)
  | runEnv (filename : CStr) (argv : List CStr) (envp : Option Env)
  | runPid (filename : CStr) (argv : List CStr) (pchildPid : Option Nat)
  | runPipe (filename : CStr) (argv : List CStr) (pstdin : Option Nat)
  | runPidPipes (filename : CStr) (argv : List CStr) (pchildPid pstdin pstdout pstderr : Option Nat)
  | runEnvPidPipes (filename : CStr) (argv : List CStr) (envp : Option Env) (pchildPid pstdin pstdout pstderr : Option Nat)
  | runFdEnvPidPipes (elfFd : Int) (argv : List CStr) (envp : Option Env) (pchildPid pstdin pstdout pstderr : Option Nat)
  | runNoPreload (filename : CStr) (argv : List CStr)
  | runPidPipesNoPreload (filename : CStr) (argv : List CStr) (pchildPid pstdin pstdout pstderr : Option Nat)
  | runEnvPidPipesNoPreload (filename : CStr) (argv : List CStr) (envp : Option Env) (pchildPid pstdin pstdout pstderr : Option Nat)
  | fork

/-- What each function passes on, libminijail.c:3446-3626. -/
def RunCall.config : RunCall → RunConfig
  | .run f a => { filename := some f, elfFd := -1, argv := a, usePreload := true, execInChild := true }
  | .runEnv f a e => { filename := some f, elfFd := -1, argv := a, envp := e, usePreload := true, execInChild := true }
  | .runPid f a p => { filename := some f, elfFd := -1, argv := a, usePreload := true, execInChild := true, pchildPid := p }
  | .runPipe f a i => { filename := some f, elfFd := -1, argv := a, usePreload := true, execInChild := true, pstdin := i }
  | .runPidPipes f a p i o e =>
    { filename := some f, elfFd := -1, argv := a, usePreload := true, execInChild := true, pstdin := i, pstdout := o, pstderr := e, pchildPid := p }
  | .runEnvPidPipes f a v p i o e =>
    { filename := some f, elfFd := -1, argv := a, envp := v, usePreload := true, execInChild := true, pstdin := i, pstdout := o, pstderr := e, pchildPid := p }
  | .runFdEnvPidPipes d a v p i o e =>
    { filename := none, elfFd := d, argv := a, envp := v, usePreload := true, execInChild := true, pstdin := i, pstdout := o, pstderr := e, pchildPid := p }
  | .runNoPreload f a => { filename := some f, elfFd := -1, argv := a, usePreload := false, execInChild := true }
  | .runPidPipesNoPreload f a p i o e =>
    { filename := some f, elfFd := -1, argv := a, usePreload := false, execInChild := true, pstdin := i, pstdout := o, pstderr := e, pchildPid := p }
  | .runEnvPidPipesNoPreload f a v p i o e =>
    { filename := some f, elfFd := -1, argv := a, envp := v, usePreload := false, execInChild := true, pstdin := i, pstdout := o, pstderr := e, pchildPid := p }
  | .fork => { elfFd := -1 }

/-- What `pipe(2)` made: the two numbers and the two open files. -/
structure NewPipe where
  r : Nat
  w : Nat
  fr : Nat
  fw : Nat
  deriving DecidableEq, Repr

/-- What the system answers in `minijail_run_internal` (libminijail.c:3628-3872): whether there is memory for the environment and its variables, the pipe that
`pipe` makes (`none`: it fails), what `clone` or `fork` returns, what `landlock_create_ruleset` returns and the file behind it, whether the steps for
the child (3793-3809) succeed, whether `sigprocmask` does, whether the reader of the configuration is gone before all of it is written,
what `minijail_to_fd` returns. `environ` is the caller's environment, `library` the path of PRELOADPATH (3089). -/
structure RunEnv where
  copyEnv : Bool := true
  setPolicyEnv : Bool := true
  setPreloadEnv : Bool := true
  setFdEnv : Bool := true
  pipe : FdTable → Option NewPipe
  clone : Int
  landlock : FdTable → LandlockKernel
  rulesetFile : Nat
  setup : Bool := true
  sigprocmask : Bool := true
  readerGone : Bool := false
  send : Int := 0
  environ : Env := []
  library : CStr := "/lib/libminijailpreload.so".toList

/-- The process that was started: its number, its descriptors and the jail as they are in it (behind libminijail.c:3790), the pipes, and what it executes:
the program (3650, 4043-4051), its arguments and environment (`none`: nothing, it returns to the caller, 4014). -/
structure Started where
  pid : Int
  fds : FdTable
  jail : Jail
  pipes : RunPipes
  exec : Option (Option CStr × Int × List CStr × Env)

/-- The calling process: descriptors, memory, the jail, which signals are blocked, whether SIGPIPE is pending, the process to which signals are
forwarded (libminijail.c:2728-2761), the process that was started, the processes to which SIGKILL was sent. -/
structure Caller where
  fds : FdTable
  mem : Nat → Int
  jail : Jail
  blocked : Nat → Bool
  pipeSignal : Bool := false
  forwards : Option Int := none
  started : Option Started := none
  killed : List Int := []

/-- How the call ends for the caller: `die` (util.h:135; also in the functions that start with `pdie`), the default action of SIGPIPE, or a return value. -/
inductive RunRes where
  | die
  | killedByPipe
  | ret (code : Int) (s : Caller)

/-- `EFAULT` (errno.h), libminijail.c:3663. -/
def EFAULT : Int := 14
/-- `SIGPIPE` (signal.h), libminijail.c:3832. -/
def SIGPIPE : Nat := 13

/-- `pipe(2)`, libminijail.c:3124. -/
def openPipe (t : FdTable) (p : NewPipe) : FdTable := (t.set p.r (some ⟨p.fr, false⟩)).set p.w (some ⟨p.fw, false⟩)

/-- No pipes yet, libminijail.c:4062-4070. -/
def noPipes : RunPipes := ⟨(none, none), (none, none), (none, none), (none, none), (none, none)⟩

/-- Why the preparations end: the value to return (libminijail.c:3659, 3663, 3677, 3699, 3712), or the process dies (3667, 3669, 3681). -/
inductive Stop where
  | code (n : Int)
  | die
  deriving DecidableEq, Repr

/-- Where the preparations are: descriptors, pipes, and whether they ended. -/
structure Prep where
  fds : FdTable
  pipes : RunPipes
  stop : Option Stop := none

/-- One of the calls of `pipe`, libminijail.c:3124, 3696-3699, 3711: skipped if not wanted or if something failed before. -/
def pipeStage (env : RunEnv) (want : Bool) (put : RunPipes → Option Nat × Option Nat → RunPipes) (code : Int) (x : Prep) : Prep :=
  if x.stop.isSome ∨ want = false then x
  else match env.pipe x.fds with
    | none => { x with stop := some (.code code) }
    | some p => { x with fds := openPipe x.fds p, pipes := put x.pipes (some p.r, some p.w) }

/-- A step that opens nothing and may end the preparations, libminijail.c:3658, 3661-3669, 3675-3683. -/
def plainStage (bad : Bool) (stop : Stop) (x : Prep) : Prep :=
  if x.stop.isSome ∨ bad = false then x else { x with stop := some stop }

/-- Everything before the process is made, libminijail.c:3654-3713. -/
def prepareRun (env : RunEnv) (c : RunConfig) (j : Jail) (t : FdTable) : Prep :=
  let x : Prep := ⟨t, noPipes, none⟩
  let x := plainStage ((c.usePreload || j.seccomp_policy_path.isSome) && !env.copyEnv) (.code ENOMEM) x
  let x := plainStage (j.seccomp_policy_path.isSome && !env.setPolicyEnv) (.code (-EFAULT)) x
  let x := plainStage (c.usePreload && (!j.hooks.isEmpty || !c.execInChild)) .die x
  let x := plainStage (c.usePreload && !env.setPreloadEnv) (.code (-EFAULT)) x
  let x := pipeStage env c.usePreload (fun s p => { s with config := p }) (-EFAULT) x
  let x := plainStage (c.usePreload && !env.setFdEnv) (.code (-EFAULT)) x
  let x := plainStage (!c.usePreload && j.flags.use_caps && j.caps != 0#64 && !j.flags.set_ambient_caps) .die x
  let x := pipeStage env c.pstdin.isSome (fun s p => { s with stdin := p }) EFAULT x
  let x := pipeStage env c.pstdout.isSome (fun s p => { s with stdout := p }) EFAULT x
  let x := pipeStage env c.pstderr.isSome (fun s p => { s with stderr := p }) EFAULT x
  pipeStage env (syncChild j) (fun s p => { s with sync := p }) (-EFAULT) x

/-- `if (j->fs_rules_head)`, libminijail.c:3785-3788: in both processes; the result of `minijail_preserve_fd` is ignored. -/
def rulesetStage (env : RunEnv) (x : FdTable × Jail) : FdTable × Jail :=
  if x.2.fs_rules.isEmpty then x
  else
    let k := env.landlock x.1
    let j := setupFsRulesFd k x.2
    let t := if k.ruleset.toInt < 0 then x.1 else x.1.set k.ruleset.toNat (some ⟨env.rulesetFile, true⟩)
    (t, match preserveFd j j.fs_rules_fd j.fs_rules_fd with
      | .ret _ j => j
      | .die => j)

/-- `close` of a descriptor of a namespace, libminijail.c:3811-3815; closing a negative number does nothing. -/
def closeNs (on : Bool) (fd : BitVec 32) (t : FdTable) : FdTable := if on && decide (fd.toInt ≥ 0) then closeFd t fd.toNat else t

/-- `close_and_reset` of both ends, libminijail.c:301-306, over the table. -/
def closeBoth (t : FdTable) (p : Option Nat × Option Nat) : FdTable := closeEnd (closeEnd t p.1) p.2

/-- Sending the jail, libminijail.c:3820-3869. SIGPIPE is blocked; the pending one is accepted; the mask is put back. -/
def sendStage (env : RunEnv) (pid : Int) (pipes : RunPipes) (s : Caller) : RunRes :=
  if !env.sigprocmask then .die
  else
    let before := s.blocked
    let s := { s with blocked := fun n => n == SIGPIPE || s.blocked n }
    let s := { s with fds := closeEnd s.fds pipes.config.1 }
    if env.readerGone && !s.blocked SIGPIPE then .killedByPipe
    else
      let s := { s with pipeSignal := s.pipeSignal || env.readerGone, fds := closeEnd s.fds pipes.config.2 }
      let s := { s with pipeSignal := false, blocked := before }
      .ret 0 { s with killed := s.killed ++ if env.send ≠ 0 then [pid] else [] }

/-- `minijail_free_run_state`, libminijail.c:3341-3354, over the table. -/
def freeRunState (pipes : RunPipes) (t : FdTable) : FdTable :=
  [pipes.config, pipes.stdin, pipes.stdout, pipes.stderr, pipes.sync].foldl closeBoth t

/-- `*p = v`, unless `p` is NULL, libminijail.c:4074-4093. -/
def store (p : Option Nat) (v : Int) (m : Nat → Int) : Nat → Int :=
  match p with
  | none => m
  | some a => fun b => if b = a then v else m b

/-- A number for the caller, -1 for none (libminijail.c:4062-4070). -/
def fdValue : Option Nat → Int
  | none => -1
  | some n => n

/-- The end of `minijail_run_config_internal` behind a return value of 0, libminijail.c:4073-4099: what is handed out is not closed. -/
def handOut (c : RunConfig) (pid : Int) (pipes : RunPipes) (s : Caller) : RunRes :=
  let mem := store c.pchildPid pid s.mem
  let mem := store c.pstdin (fdValue pipes.stdin.2) mem
  let mem := store c.pstdout (fdValue pipes.stdout.1) mem
  let mem := store c.pstderr (fdValue pipes.stderr.1) mem
  let rest : RunPipes := { pipes with
    stdin := (pipes.stdin.1, if c.pstdin.isSome then none else pipes.stdin.2)
    stdout := (if c.pstdout.isSome then none else pipes.stdout.1, pipes.stdout.2)
    stderr := (if c.pstderr.isSome then none else pipes.stderr.1, pipes.stderr.2) }
  .ret (if c.execInChild then 0 else pid) { s with mem, fds := freeRunState rest s.fds }

/-- The environment for `execve`, libminijail.c:3656-3677, 4047-4048: the caller's array itself, or an edited copy. -/
def runChildEnv (env : RunEnv) (c : RunConfig) (j : Jail) (pipes : RunPipes) : Env :=
  let given := c.envp.getD env.environ
  let policy := j.seccomp_policy_path.map fun s => s.map fun b => Char.ofNat b.toNat
  if c.usePreload then
    childEnv policy (some ((j.preload_path.map fun s => s.map fun b => Char.ofNat b.toNat).getD env.library, pipes.config.1.getD 0)) given
  else childEnv policy none given

/-- The parent behind `fork`, libminijail.c:3790-3872. A step that fails kills the child and the process (2385-2389). -/
def runParent (env : RunEnv) (c : RunConfig) (pid : Int) (pipes : RunPipes) (s : Caller) : RunRes :=
  let s := { s with jail := { s.jail with initpid := BitVec.ofInt 32 pid } }
  let s := { s with forwards := if s.jail.flags.forward_signals then some pid else s.forwards }
  if !env.setup && !(parentPlan s.jail).isEmpty then .die
  else
    let s := { s with fds := closeNs s.jail.flags.enter_vfs s.jail.mountns_fd s.fds }
    let s := { s with fds := closeNs s.jail.flags.enter_net s.jail.netns_fd s.fds }
    let s := { s with fds := closeBoth s.fds pipes.sync }
    let pipes := { pipes with sync := (none, none) }
    if c.usePreload then
      match sendStage env pid pipes s with
      | .ret _ s => handOut c pid { pipes with config := (none, none) } s
      | r => r
    else handOut c pid pipes s

/-- `j->filename = strdup(config->filename)`, libminijail.c:3650-3652. -/
def namedJail (c : RunConfig) (j : Jail) : Jail :=
  match c.filename with
  | some f => { j with filename := some (f.map fun ch => BitVec.ofNat 8 ch.toNat) }
  | none => j

/-- `minijail_run_config_internal` in the calling process, libminijail.c:4058-4100 with 3628-3872. -/
def minijailRun (env : RunEnv) (call : RunCall) (s : Caller) : RunRes :=
  let c := call.config
  if c.filename.isSome && c.elfFd != -1 then .die
  else
    let j := namedJail c s.jail
    let x := prepareRun env c j s.fds
    match x.stop with
    | some .die => .die
    | some (.code n) => .ret n { s with jail := j, fds := freeRunState x.pipes x.fds }
    | none =>
      if j.flags.userns && !j.flags.pids then .die -- libminijail.c:3763-3765
      else if env.clone ≤ 0 then .die -- in the calling process `clone` does not return 0
      else
        let y := rulesetStage env (x.fds, j)
        let exec := if c.execInChild then some (c.filename, c.elfFd, c.argv, runChildEnv env c j x.pipes) else none
        runParent env c env.clone x.pipes
          { s with fds := y.1, jail := y.2, started := some ⟨env.clone, y.1, y.2, x.pipes, exec⟩ }

end Minijail
