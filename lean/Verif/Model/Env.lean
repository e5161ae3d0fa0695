import Verif.Model.CString
/-! util.c: editing an environment array for the child. -/
set_option autoImplicit false
namespace Minijail

/-- A NULL-terminated array of strings (the `char **env` of util.c:550-711). -/
abbrev Env := List CStr

/-- `minijail_copy_env`, util.c:550-572; `none` is NULL. -/
def minijailCopyEnv : Option Env → Env
  | none => []
  | some env => env

/-- `getenv_index`, util.c:579-599: the index of the first entry that starts with the name and then has a `=`
(an entry shorter than the name differs from it in `strncmp`). `none`: not found. -/
def getenvIndex (envp : Env) (name : CStr) : Option Nat :=
  envp.findIdx? fun e => e.take name.length == name && e[name.length]? == some '='

/-- `minijail_getenv`, util.c:680-691. `none` is NULL. -/
def minijailGetenv (envp : Option Env) (name : Option CStr) : Option CStr :=
  match envp, name with
  | some envp, some name =>
    match getenvIndex envp name with
    | none => none
    | some i => (envp[i]?).map fun e => e.drop (name.length + 1)
  | _, _ => none

/-- The return values of `minijail_setenv` (util.c:605, 614): 0 and EINVAL. ENOMEM is not modelled. -/
inductive SetenvRet where
  | ok
  | einval
  deriving DecidableEq, Repr

/-- `minijail_setenv`, util.c:601-639: the return value and `*env` afterwards. `none` arguments are NULL. -/
def minijailSetenv (env : Option Env) (name value : Option CStr) (overwrite : Bool) : SetenvRet × Option Env :=
  match env, name, value with
  | some envp, some name, some value =>
    if name = [] then (.einval, env)
    else match getenvIndex envp name with
      | some i => if !overwrite then (.ok, env) else (.ok, some (envp.set i (name ++ '=' :: value)))
      | none => (.ok, some (envp ++ [name ++ '=' :: value]))
  | _, _, _ => (.einval, env)

/-- `minijail_unsetenv`, util.c:693-711: whether the name was found, and the array afterwards: the entry is replaced
by the last one, which is removed from its place. -/
def minijailUnsetenv (envp : Option Env) (name : Option CStr) : Bool × Option Env :=
  match envp, name with
  | some envp, some name =>
    match getenvIndex envp name with
    | none => (false, some envp)
    | some i =>
      match envp.getLast? with
      | none => (true, some envp) -- cannot happen: there is an entry
      | some last => (true, some ((envp.set i last).dropLast))
  | _, _ => (false, envp)

end Minijail
