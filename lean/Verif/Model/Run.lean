import Verif.Model.Enter
import Verif.Model.Pipe
/-! Starting a program: what the child does before `execve` and, with the preload library, in the program before its `main`. -/
set_option autoImplicit false
namespace Minijail

/-- `minijail_preexec`, libminijail.c:435-479: what is left of the jail for the child before `execve` when the library does the rest. Freed strings are NULL
afterwards. -/
def minijailPreexec (j : Jail) : Jail :=
  { j with
    user := none, suppl_gid_list := none, preload_path := none, mounts := [], fs_rules := []
    flags := {
      vfs := j.flags.vfs, enter_vfs := j.flags.enter_vfs, ns_cgroups := j.flags.ns_cgroups, net := j.flags.net, net_loopback := j.flags.net_loopback
      uts := j.flags.uts, remount_proc_ro := j.flags.remount_proc_ro, userns := j.flags.userns
      using_minimalistic_mountns := j.flags.using_minimalistic_mountns, enable_fs_restrictions := j.flags.enable_fs_restrictions
      enable_profile_fs_restrictions := j.flags.enable_profile_fs_restrictions, enable_default_runtime := j.flags.enable_default_runtime
      enable_new_sessions := j.flags.enable_new_sessions } }

/-- `minijail_preenter`, libminijail.c:314-335: what is left for the library. -/
def minijailPreenter (j : Jail) : Jail :=
  { j with
    remount_mode := 0#64, remounts := []
    flags := { j.flags with
      vfs := false, enter_vfs := false, ns_cgroups := false, net := false, net_loopback := false, uts := false, remount_proc_ro := false, pids := false
      do_init := false, run_as_init := false, pid_file := false, cgroups := false, forward_signals := false, setsid := false
      using_minimalistic_mountns := false, enable_profile_fs_restrictions := false, enable_default_runtime := false, enable_new_sessions := false } }

/-- `enter_user_namespace`, libminijail.c:2445-2457. -/
def enterUserNamespace (j : Jail) : EnterM Unit := do
  whenM j.gidmap.isSome (must (.setresgid (if j.flags.gid then j.gid else 0#32)))
  whenM j.uidmap.isSome (must (.setresuid (if j.flags.uid then j.uid else 0#32)))

/-- `MINIJAIL_HOOK_EVENT_PRE_EXECVE`, libminijail.h:89. -/
def PRE_EXECVE : Nat := 1

/-- The jail that the child enters, libminijail.c:3966-3980: a program that is process 1 itself mounts its own /proc; with the library the rest is left
to it. -/
def childJail (usePreload : Bool) (j : Jail) : Jail :=
  let doInit := j.flags.do_init && !j.flags.run_as_init
  let j := if j.flags.pids && !doInit then { j with flags := { j.flags with remount_proc_ro := false } } else j
  if usePreload then minijailPreexec j else { j with flags := { j.flags with pids := false } }

/-- The child of `minijail_run_internal` behind the setup of its descriptors, libminijail.c:3664-3685 (the checks the parent made) and 3961-4015, up to
`execve`. The standard streams and the session (3964, C46), and the process that is left as process 1 (3989-4013, C32) are not part of it. -/
def runChild (env : EnterEnv) (usePreload : Bool) (j : Jail) : EnterM Unit := do
  dieIf ((usePreload && !j.hooks.isEmpty) = true)
  dieIf ((!usePreload && j.flags.use_caps && j.caps != 0#64 && !j.flags.set_ambient_caps) = true)
  whenM j.flags.userns (enterUserNamespace j)
  minijailEnter env (childJail usePreload j)
  runHooks j PRE_EXECVE

/-- How the library comes by a jail, libminijailpreload.c:57-84. -/
inductive FakeMain where
  | enter (j : Jail)
  | die
  | exit (code : Nat)
  | ub
  deriving DecidableEq, Repr

/-- `MINIJAIL_ERR_PRELOAD`, libminijail.h:48-64, used at libminijailpreload.c:71. -/
def ERR_PRELOAD : Nat := 252

/-- `fake_main` up to `minijail_enter`, libminijailpreload.c:57-87: `setid` if effective and real ids differ, `announced` the number in the environment, then
what the two reads do and what is in the pipe. Returning a code in place of `main` ends the program. -/
def fakeMain (setid : Bool) (announced : Option Int) (r1 r2 : ReadEv) (kl : LandlockKernel) (pipe : Bytes) : FakeMain :=
  if setid then .exit ERR_PRELOAD
  else match announced with
    | none => .exit ERR_PRELOAD
    | some fd =>
      if fd < 0 then .exit ERR_PRELOAD
      else match fromFd r1 r2 kl pipe with
        | .errno _ => .die
        | .unmarshal (.ok j) => .enter (minijailPreenter j)
        | .unmarshal (.err _) => .die
        | .unmarshal .ub => .ub

end Minijail
