import Verif.Model.StartedFds
/-! Starting programs through the Rust interface: from the arguments of `run` and its variants, and of `fork`, to what they return. -/
set_option autoImplicit false
namespace Minijail

/-- `Command`, rust/minijail/src/lib.rs:25-36. The arrays of pointers are given by the strings they point to, `none` for the null pointer. -/
structure RustCommand where
  program : RustProgram
  preserve_fds : List (BitVec 32 × BitVec 32) := []
  args_cptr : List (Option BStr) := []
  env_cptr : Option (List (Option BStr)) := none

/-- `Command::new`, rust/minijail/src/lib.rs:57-66. -/
def RustCommand.new (program : RustProgram) : RustCommand := { program }

/-- `Command::keep_fds`, rust/minijail/src/lib.rs:68-74. -/
def RustCommand.keepFds (c : RustCommand) (fds : List (BitVec 32)) : RustCommand := { c with preserve_fds := fds.map fun a => (a, a) }

/-- `Command::remap_fds`, rust/minijail/src/lib.rs:76-79. -/
def RustCommand.remapFds (c : RustCommand) (fds : List (BitVec 32 × BitVec 32)) : RustCommand := { c with preserve_fds := fds }

/-- `Command::args`, rust/minijail/src/lib.rs:81-86. -/
def RustCommand.args (c : RustCommand) (args : List BStr) : Except RustError RustCommand :=
  match execveArray args with
  | .error e => .error e
  | .ok a => .ok { c with args_cptr := a }

/-- `Command::envs`, rust/minijail/src/lib.rs:88-93. -/
def RustCommand.envs (c : RustCommand) (vars : List BStr) : Except RustError RustCommand :=
  match execveArray vars with
  | .error e => .error e
  | .ok a => .ok { c with env_cptr := some a }

/-- `Command::new_for_path`, rust/minijail/src/lib.rs:41-55. -/
def RustCommand.newForPath (path : BStr) (keep : List (BitVec 32)) (args : List BStr) (envs : Option (List BStr)) : Except RustError RustCommand :=
  match ((RustCommand.new (.filename path)).keepFds keep).args args with
  | .error e => .error e
  | .ok c =>
    match envs with
    | none => .ok c
    | some vars => c.envs vars

/-- The methods that start a program, rust/minijail/src/lib.rs:861-921; the last is `run_command` with a `Command::new_for_path`. -/
inductive RustStart where
  | run (path : BStr) (inheritable : List (BitVec 32)) (args : List BStr)
  | runRemap (path : BStr) (inheritable : List (BitVec 32 × BitVec 32)) (args : List BStr)
  | runFd (fd : BitVec 32) (inheritable : List (BitVec 32)) (args : List BStr)
  | runFdRemap (fd : BitVec 32) (inheritable : List (BitVec 32 × BitVec 32)) (args : List BStr)
  | runCommand (path : BStr) (keep : List (BitVec 32)) (args : List BStr) (envs : Option (List BStr))

/-- The command that each of them makes, rust/minijail/src/lib.rs:861-921. -/
def RustStart.command : RustStart → Except RustError RustCommand
  | .run p l a => ((RustCommand.new (.filename p)).keepFds l).args a
  | .runRemap p l a => ((RustCommand.new (.filename p)).remapFds l).args a
  | .runFd d l a => ((RustCommand.new (.fileDescriptor d)).keepFds l).args a
  | .runFdRemap d l a => ((RustCommand.new (.fileDescriptor d)).remapFds l).args a
  | .runCommand p l a v => RustCommand.newForPath p l a v

/-- The bytes of a string as the characters that the model of the C library has (`char`, util.c:550). -/
def charsOf (s : BStr) : CStr := s.map fun b => Char.ofNat b.toNat

/-- What the C library reads from an array of pointers (`execve` at libminijail.c:4043-4051, util.c:559-571): the strings before the null pointer.
`none`: there is no null pointer, and what is read is beyond the array. -/
def readArray : List (Option BStr) → Option (List CStr)
  | [] => none
  | none :: _ => some []
  | some s :: l => (readArray l).map (charsOf s :: ·)

/-- How a method ends: it returns, it ends the process, or the behaviour is undefined. -/
inductive RustOut where
  | die
  | ub
  | ret (r : Except RustError Int) (s : Caller)

/-- What is found by a method that starts a process (rust/minijail/src/lib.rs:923-1032): what the other methods find, what the C library finds, the number and file with which
`/dev/null` is opened (`none`: it cannot be), and the address of the variable `pid` of rust/minijail/src/lib.rs:121 and 144. -/
structure RustStartEnv where
  rust : RustEnv := {}
  run : RunEnv
  null : FdTable → Option (Nat × Nat)
  addr : Nat

/-- The call of the C library, rust/minijail/src/lib.rs:122-133 and 145-156; `none`: an array has no end. -/
def rustRunCall (env : RustStartEnv) (c : RustCommand) : Option RunCall :=
  match readArray c.args_cptr, c.env_cptr.map readArray with
  | none, _ => none
  | _, some none => none
  | some a, v =>
    let v : Option Env := match v with
      | some (some v) => some v
      | _ => none
    match c.program with
    | .filename p => some (.runEnvPidPipes (charsOf p) a v (some env.addr) none none none)
    | .fileDescriptor d => some (.runFdEnvPidPipes d.toInt a v (some env.addr) none none none)

/-- `run_internal` and `run_command`, rust/minijail/src/lib.rs:923-956, 112-161: `/dev/null` is opened close-on-exec, and closed when the method returns. (When the
list of descriptors is refused it is not opened at all.) The variable `pid` is 0 at first. -/
def rustRunInternal (env : RustStartEnv) (c : RustCommand) (s : Caller) : RustOut :=
  let null := env.null s.fds
  match rustRun env.rust s.jail c.preserve_fds (null.map fun p => BitVec.ofNat 32 p.1) c.program with
  | .die => .die
  | .err e j => .ret (.error e) { s with jail := j }
  | .starts j =>
    match null, rustRunCall env c with
    | none, _ => .ub -- does not happen: it was opened
    | _, none => .ub
    | some (n, file), some rc =>
      let s := { s with jail := j, fds := s.fds.set n (some ⟨file, true⟩), mem := store (some env.addr) 0 s.mem }
      match minijailRun env.run rc s with
      | .die => .die
      | .killedByPipe => .die
      | .ret code s =>
        let s := { s with fds := closeFd s.fds n }
        if code < 0 then .ret (.error (.forkingMinijail code)) s else .ret (.ok (s.mem env.addr)) s

/-- A method that starts a program, rust/minijail/src/lib.rs:861-921. -/
def rustStart (env : RustStartEnv) (m : RustStart) (s : Caller) : RustOut :=
  match m.command with
  | .error e => .ret (.error e) s
  | .ok c => rustRunInternal env c s

/-- `fork_remap` in the calling process, rust/minijail/src/lib.rs:987-1032. -/
def rustForkRemap (env : RustStartEnv) (disableCheck : Bool) (threads : Option Nat) (fds : List (BitVec 32 × BitVec 32)) (s : Caller) : RustOut :=
  let null := env.null s.fds
  match rustFork env.rust disableCheck threads s.jail fds (null.map fun p => BitVec.ofNat 32 p.1) with
  | .die => .die
  | .err e j => .ret (.error e) { s with jail := j }
  | .starts j =>
    match null with
    | none => .ub -- does not happen: it was opened
    | some (n, file) =>
      match minijailRun env.run .fork { s with jail := j, fds := s.fds.set n (some ⟨file, true⟩) } with
      | .die => .die
      | .killedByPipe => .die
      | .ret code s =>
        let s := { s with fds := closeFd s.fds n }
        if code < 0 then .ret (.error (.forkingMinijail code)) s else .ret (.ok code) s

/-- `fork`, rust/minijail/src/lib.rs:974-981: the list may be missing. -/
def rustForkCall (env : RustStartEnv) (disableCheck : Bool) (threads : Option Nat) (fds : Option (List (BitVec 32))) (s : Caller) : RustOut :=
  rustForkRemap env disableCheck threads ((fds.getD []).map fun a => (a, a)) s

end Minijail
