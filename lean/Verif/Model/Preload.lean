import Verif.Model.Env
/-! The environment handed to a program that is run with the preload library (libminijail.c), and what the library does to it before `main`
(libminijailpreload.c). -/
set_option autoImplicit false
namespace Minijail

/-- `kFdEnvVar`, libminijail-private.h:24. -/
def kFdEnvVar : CStr := "__MINIJAIL_FD".toList

/-- `kLdPreloadEnvVar`, libminijail-private.h:25. -/
def kLdPreloadEnvVar : CStr := "LD_PRELOAD".toList

/-- `kSeccompPolicyPathEnvVar`, libminijail-private.h:26. -/
def kSeccompPolicyPathEnvVar : CStr := "SECCOMP_POLICY_PATH".toList

/-- `setup_preload`, libminijail.c:3082-3107, with the path of the library (`j->preload_path` or the built-in one, line 3089). Exhausted memory is
not modelled. -/
def setupPreload (preloadPath : CStr) (env : Env) : Env :=
  let oldenv := (minijailGetenv (some env) (some kLdPreloadEnvVar)).getD []
  let newenv := oldenv ++ (if oldenv ≠ [] then [' '] else []) ++ preloadPath
  (minijailSetenv (some env) (some kLdPreloadEnvVar) (some newenv) true).2.getD env

/-- `setup_seccomp_policy_path`, libminijail.c:3113-3120; called only if there is a path (libminijail.c:3661). -/
def setupSeccompPolicyPath (path : CStr) (env : Env) : Env :=
  (minijailSetenv (some env) (some kSeccompPolicyPathEnvVar) (some path) true).2.getD env

/-- The part of `setup_pipe` (libminijail.c:3122-3132) that announces the read end of the pipe; a descriptor is not negative. -/
def setupPipeEnv (fd : Nat) (env : Env) : Env :=
  (minijailSetenv (some env) (some kFdEnvVar) (some (Nat.toDigits 10 fd)) true).2.getD env

/-- The variable for the policy in `minijail_run_internal`, libminijail.c:3661-3663. -/
def policyEnv (policyPath : Option CStr) (env : Env) : Env :=
  match policyPath with
  | some p => setupSeccompPolicyPath p env
  | none => env

/-- The environment in `minijail_run_internal`, libminijail.c:3654-3677: a copy of the given one (or of the caller's own) is edited. `preload` is the
path of the library and the read end of the pipe, if the library is used. -/
def childEnv (policyPath : Option CStr) (preload : Option (CStr × Nat)) (env : Env) : Env :=
  match preload with
  | some (lib, fd) => setupPipeEnv fd (setupPreload lib (policyEnv policyPath (minijailCopyEnv (some env))))
  | none => policyEnv policyPath (minijailCopyEnv (some env))

/-- `strrchr(s, ' ')`: the index of the last space. -/
def lastSpace : CStr → Option Nat
  | [] => none
  | c :: s => match lastSpace s with
    | some i => some (i + 1)
    | none => if c = ' ' then some 0 else none

/-- `truncate_preload_env`, libminijailpreload.c:27-45. The value is cut in place: the entry of the array ends at the last space of the value. -/
def truncatePreloadEnv (env : Env) (name : CStr) : Env :=
  match getenvIndex env name with
  | none => env
  | some i =>
    let e := (env[i]?).getD []
    match lastSpace (e.drop (name.length + 1)) with
    | some k => env.set i (e.take (name.length + 1 + k))
    | none => (minijailUnsetenv (some env) (some name)).2.getD env

/-- What `fake_main` (libminijailpreload.c:81-83) does to the environment before it enters the jail and calls the program's `main`. -/
def fakeMainEnv (env : Env) : Env :=
  truncatePreloadEnv ((minijailUnsetenv (some env) (some kFdEnvVar)).2.getD env) kLdPreloadEnvVar

/-- The environment that the program's `main` is given: directly, or after the preload library ran. -/
def programEnv (policyPath : Option CStr) (preload : Option (CStr × Nat)) (env : Env) : Env :=
  match preload with
  | some p => fakeMainEnv (childEnv policyPath (some p) env)
  | none => childEnv policyPath none env

end Minijail
