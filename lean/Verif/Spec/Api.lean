import Verif.Model.Api
import Verif.Spec.Transfer
/-! What a sequence of configuration calls guarantees about the jail. -/
set_option autoImplicit false
namespace Minijail.Spec

/-- The configuration rules of the API: bounded tables, distinct rlimit types, no negative preserved descriptor,
run-time capabilities and a separate bounding set exclude each other, chroot and pivot_root exclude each other and come
with a directory, mounts and a pid namespace come with a mount namespace. -/
structure Consistent (j : Jail) : Prop where
  rlimits : j.rlimit_count ≤ 32 ∧ ((j.rlimits.take j.rlimit_count).map (·.type)).Nodup
  cgroups : j.cgroups.length ≤ 10
  preserved : j.preserved_fd_count ≤ 128 ∧
    ∀ p ∈ j.preserved_fds.take j.preserved_fd_count, 0 ≤ p.parent_fd.toInt ∧ 0 ≤ p.child_fd.toInt
  caps : ¬ (j.flags.use_caps = true ∧ j.flags.capbset_drop = true)
  root : ¬ (j.flags.chroot = true ∧ j.flags.pivot_root = true)
  rootDir : (j.flags.chroot = true ∨ j.flags.pivot_root = true) ↔ j.chrootdir ≠ none
  mounts : j.mounts ≠ [] → j.flags.vfs = true ∨ j.flags.enter_vfs = true
  pids : j.flags.pids = true → j.flags.vfs = true ∧ j.flags.do_init = true

/-- No two preserved descriptors are to appear under the same number. -/
def DistinctChildFds (j : Jail) : Prop := ((j.preserved_fds.take j.preserved_fd_count).map (·.child_fd)).Nodup

/-- The arguments of a call are C strings, programs have a length that fits `sock_fprog`, and a failed lookup reports an
error. -/
def GoodCall (env : ApiEnv) : Call → Prop
  | .changeUser s => CString s ∧ ∀ rc, env.userDb s = .error rc → rc ≠ 0
  | .changeGroup s => ∀ rc, env.groupDb s = .error rc → rc ≠ 0
  | .namespaceSetHostname s | .enterChroot s | .enterPivotRoot s | .addToCgroup s | .useAltSyscall s
  | .addFsRestrictionRx s | .addFsRestrictionRo s | .addFsRestrictionRw s | .addFsRestrictionAdvancedRw s
  | .addFsRestrictionEdit s | .addFsRestrictionAccessRights s _ => CString s
  | .mountWithData s d t _ x => CString s ∧ CString d ∧ CString t ∧ OptCString x
  | .mount s d t _ => CString s ∧ CString d ∧ CString t
  | .bind s d _ => CString s ∧ CString d
  | .parseSeccompFilters s => CString s ∧ ∀ p ∈ env.compiled (some s), p.length ≤ 65535
  | .parseSeccompFiltersFromFd => OptCString env.realpath ∧ ∀ p ∈ env.compiled none, p.length ≤ 65535
  | .setSeccompFilters p => p.length ≤ 65535
  | _ => True

/-- The counters fit a machine word. -/
def Words (j : Jail) : Prop := j.suppl_gid_count < 2 ^ 64 ∧ j.mounts_count < 2 ^ 64 ∧ j.fs_rules_count < 2 ^ 64

/-- The calls that add a path rule; they return 1 when they succeed, all others 0. -/
def addsRule : Call → Bool
  | .addFsRestrictionRx _ | .addFsRestrictionRo _ | .addFsRestrictionRw _ | .addFsRestrictionAdvancedRw _
  | .addFsRestrictionEdit _ | .addFsRestrictionAccessRights _ _ => true
  | _ => false

/-- The value a call returns when it accepts its arguments. -/
def success (c : Call) : Int := if addsRule c then 1 else 0

/-- The restriction a call asks for is recorded in the jail. Calls that relax or merely tune the jail ask for nothing. -/
def InForce (j : Jail) : Call → Prop
  | .changeUid _ | .changeUser _ => j.flags.uid = true
  | .changeGid _ | .changeGroup _ => j.flags.gid = true
  | .setSupplementaryGids _ => j.flags.set_suppl_gids = true
  | .useSeccomp => j.flags.seccomp = true
  | .noNewPrivs => j.flags.no_new_privs = true
  | .useSeccompFilter => j.flags.seccomp_filter = true
  | .setSeccompFilterTsync => j.flags.seccomp_filter_tsync = true
  | .useCaps _ => j.flags.use_caps = true
  | .capbsetDrop _ => j.flags.capbset_drop = true ∨ j.flags.use_caps = true
  | .resetSignalMask => j.flags.reset_signal_mask = true
  | .resetSignalHandlers => j.flags.reset_signal_handlers = true
  | .namespaceVfs => j.flags.vfs = true
  | .namespaceEnterVfs _ => j.flags.enter_vfs = true
  | .newSessionKeyring => j.flags.new_session_keyring = true
  | .namespacePids =>
    j.flags.pids = true ∧ j.flags.vfs = true ∧ j.flags.remount_proc_ro = true ∧ j.flags.do_init = true
  | .namespacePidsRwProc => j.flags.pids = true ∧ j.flags.vfs = true ∧ j.flags.do_init = true
  | .namespaceIpc => j.flags.ipc = true
  | .namespaceUts => j.flags.uts = true
  | .namespaceSetHostname n => j.flags.uts = true ∧ j.hostname = some n
  | .namespaceNetLoopback _ | .namespaceNet => j.flags.net = true
  | .namespaceEnterNet _ => j.flags.enter_net = true
  | .namespaceCgroups => j.flags.ns_cgroups = true
  | .closeOpenFds => j.flags.close_open_fds = true
  | .remountProcReadonly => j.flags.vfs = true ∧ j.flags.remount_proc_ro = true
  | .namespaceUser => j.flags.userns = true
  | .namespaceUserDisableSetgroups => j.flags.disable_setgroups = true
  | .enterChroot d => j.flags.chroot = true ∧ j.chrootdir = some d
  | .enterPivotRoot d => j.flags.pivot_root = true ∧ j.chrootdir = some d
  | .mountDev => j.flags.mount_dev = true
  | .mountTmp | .mountTmpSize _ => j.flags.mount_tmp = true
  | .writePidFile _ => j.flags.pid_file = true
  | .addToCgroup p => j.flags.cgroups = true ∧ p ∈ j.cgroups
  | .rlimit t c m => ⟨t, c, m⟩ ∈ j.rlimits.take j.rlimit_count
  | .createSession => j.flags.setsid = true
  | .forwardSignals => j.flags.forward_signals = true
  | .mountWithData s d t _ _ | .mount s d t _ => ∃ m ∈ j.mounts, m.src = s ∧ m.dest = d ∧ m.type = t ∧ m.flags ≠ 0#64
  | .bind s d w => ∃ m ∈ j.mounts, m.src = s ∧ m.dest = d ∧ m.flags = if w then 0x1000#64 else 0x1001#64
  | .addRemount n m => ⟨m, n⟩ ∈ j.remounts
  | .addHook h p e => ⟨h, p, e⟩ ∈ j.hooks
  | .preserveFd p c => ⟨p, c⟩ ∈ j.preserved_fds.take j.preserved_fd_count
  | .setPreloadPath p => j.preload_path = some p
  | .useAltSyscall _ => j.flags.alt_syscall = true
  | .addFsRestrictionRx p | .addFsRestrictionRo p | .addFsRestrictionRw p | .addFsRestrictionAdvancedRw p
  | .addFsRestrictionEdit p | .addFsRestrictionAccessRights p _ => ∃ r ∈ j.fs_rules, r.path = p
  | _ => True

end Minijail.Spec
