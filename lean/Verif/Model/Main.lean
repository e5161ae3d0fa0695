import Verif.Model.Cli
import Verif.Model.Preload
import Verif.Model.Wait
/-! minijail0.c: the front end from its command line to its exit status. -/
set_option autoImplicit false
namespace Minijail

/-- What `main` finds: what `parse_args` finds, PRELOADPATH (Makefile:9), the `errno` of `setpgid` (0: success; minijail0.c:42), and which libraries can be loaded
(minijail0.c:60; NULL can). -/
structure MainEnv where
  cli : CliEnv := {}
  preloadPath : CStr := "/lib/libminijailpreload.so".toList
  setpgid : Nat := 0
  loads : CStr → Bool := fun _ => true

/-- A call of `minijail_run`, `minijail_run_env` or `minijail_run_no_preload` (libminijail.c:3446-3474, 3563-3575) by `main` (minijail0.c:52, 67, 69), and whether `main` waits behind it
(minijail0.c:75-78). -/
structure Start where
  jail : Jail
  usePreload : Bool
  filename : CStr
  argv : List CStr
  envp : Option Env
  wait : Bool

/-- How `main` gets on before it waits. -/
inductive MainOut where
  | start (s : Start)
  | exit (code : Nat)
  | die
  | ub

/-- `EPERM` (errno.h), minijail0.c:43. -/
def EPERM : Nat := 1

/-- `main` behind `parse_args`, minijail0.c:30-73. -/
def mainRun (env : MainEnv) (c : Cli) (args : List CStr) : MainOut :=
  if env.setpgid ≠ 0 ∧ env.setpgid ≠ EPERM then .exit 1
  else match args with
    | [] => .ub -- `parse_args` sees to it that there is a program
    | filename :: _ =>
      match c.elftype with
      | some .static => .start ⟨c.j, false, filename, args, none, !c.exit_immediately⟩
      | some .dynamic =>
        match c.preload_path.getD (some env.preloadPath) with
        | none => .ub -- `strdup(NULL)`, libminijail.c:1337
        | some path =>
          if !env.loads path then .exit 1
          else match call env.cli.api c.j (.setPreloadPath (bytesOf path)) with
            | .die => .die
            | .ret _ j => .start ⟨j, true, filename, args, c.envp, !c.exit_immediately⟩
      | _ => .exit 1

/-- `main`, minijail0.c:20-73. `opts` is what `getopt_long` returns, `args` what follows the options. (A written configuration file ends the program,
minijail0_cli.c:1367.) -/
def mainStart (env : MainEnv) (opts : List (Nat × Option CStr)) (args : List CStr) : MainOut :=
  match parseArgs env.cli minijailNew opts args.head? with
  | .ok (.run c) => mainRun env c args
  | .ok (.wrote _ _) => .exit 0
  | .exit n => .exit n
  | .die => .die
  | .ub => .ub

/-- The end of `main`, minijail0.c:75-82: its return value, once it returns. `initpid` is the process that was started (0: none was, a result that `main`
ignores), the list are the answers to `waitpid`. -/
def mainEnd (s : Start) (initpid : Int) (l : List WaitAns) : Option Int :=
  if !s.wait then some 0 else (minijailWait initpid l).map (·.1)

/-- The characters of a string of bytes (the reverse of `optarg` as bytes, e.g. minijail0_cli.c:965). -/
def textOf (s : BStr) : CStr := s.map fun b => Char.ofNat b.toNat

/-- The library that is preloaded, libminijail.c:3089: the one of the jail or the built-in one. -/
def usedLibrary (env : MainEnv) (s : Start) : CStr := (s.jail.preload_path.map textOf).getD env.preloadPath

/-- The environment of the program's `main`, libminijail.c:3654-3677, 4047-4048 and libminijailpreload.c:81-83: `fd` is the read end of the pipe, `environ` the
caller's own environment. -/
def startEnv (env : MainEnv) (s : Start) (fd : Nat) : Env :=
  programEnv (s.jail.seccomp_policy_path.map textOf) (if s.usePreload then some (usedLibrary env s, fd) else none) (s.envp.getD env.cli.environ)

end Minijail
