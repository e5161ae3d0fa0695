import Verif.Model.Cli
import Verif.Spec.CliValues
/-! What each call of the library and each option of the front end is documented to turn on (libminijail.h, minijail0.1). -/
set_option autoImplicit false
namespace Minijail.Spec

/-- What a jail can be told to do; one for each setting that is on or off. -/
inductive Feature where
  | uid | gid | inherit_suppl_gids | set_suppl_gids | keep_suppl_gids | use_caps | capbset_drop | set_ambient_caps | vfs | enter_vfs | pids | ipc
  | uts | net | net_loopback | enter_net | ns_cgroups | userns | disable_setgroups | seccomp | remount_proc_ro | no_new_privs | seccomp_filter
  | seccomp_filter_tsync | seccomp_filter_logging | seccomp_filter_allow_speculation | chroot | pivot_root | mount_dev | mount_tmp | do_init
  | run_as_init | pid_file | cgroups | alt_syscall | reset_signal_mask | reset_signal_handlers | close_open_fds | new_session_keyring
  | forward_signals | setsid | using_minimalistic_mountns | enable_fs_restrictions | enable_profile_fs_restrictions | enable_default_runtime
  | enable_new_sessions
  deriving DecidableEq, Repr

/-- The jail does it. -/
def On (f : Feature) (j : Jail) : Prop :=
  match f with
  | .uid => j.flags.uid = true
  | .gid => j.flags.gid = true
  | .inherit_suppl_gids => j.flags.inherit_suppl_gids = true
  | .set_suppl_gids => j.flags.set_suppl_gids = true
  | .keep_suppl_gids => j.flags.keep_suppl_gids = true
  | .use_caps => j.flags.use_caps = true
  | .capbset_drop => j.flags.capbset_drop = true
  | .set_ambient_caps => j.flags.set_ambient_caps = true
  | .vfs => j.flags.vfs = true
  | .enter_vfs => j.flags.enter_vfs = true
  | .pids => j.flags.pids = true
  | .ipc => j.flags.ipc = true
  | .uts => j.flags.uts = true
  | .net => j.flags.net = true
  | .net_loopback => j.flags.net_loopback = true
  | .enter_net => j.flags.enter_net = true
  | .ns_cgroups => j.flags.ns_cgroups = true
  | .userns => j.flags.userns = true
  | .disable_setgroups => j.flags.disable_setgroups = true
  | .seccomp => j.flags.seccomp = true
  | .remount_proc_ro => j.flags.remount_proc_ro = true
  | .no_new_privs => j.flags.no_new_privs = true
  | .seccomp_filter => j.flags.seccomp_filter = true
  | .seccomp_filter_tsync => j.flags.seccomp_filter_tsync = true
  | .seccomp_filter_logging => j.flags.seccomp_filter_logging = true
  | .seccomp_filter_allow_speculation => j.flags.seccomp_filter_allow_speculation = true
  | .chroot => j.flags.chroot = true
  | .pivot_root => j.flags.pivot_root = true
  | .mount_dev => j.flags.mount_dev = true
  | .mount_tmp => j.flags.mount_tmp = true
  | .do_init => j.flags.do_init = true
  | .run_as_init => j.flags.run_as_init = true
  | .pid_file => j.flags.pid_file = true
  | .cgroups => j.flags.cgroups = true
  | .alt_syscall => j.flags.alt_syscall = true
  | .reset_signal_mask => j.flags.reset_signal_mask = true
  | .reset_signal_handlers => j.flags.reset_signal_handlers = true
  | .close_open_fds => j.flags.close_open_fds = true
  | .new_session_keyring => j.flags.new_session_keyring = true
  | .forward_signals => j.flags.forward_signals = true
  | .setsid => j.flags.setsid = true
  | .using_minimalistic_mountns => j.flags.using_minimalistic_mountns = true
  | .enable_fs_restrictions => j.flags.enable_fs_restrictions = true
  | .enable_profile_fs_restrictions => j.flags.enable_profile_fs_restrictions = true
  | .enable_default_runtime => j.flags.enable_default_runtime = true
  | .enable_new_sessions => j.flags.enable_new_sessions = true

instance (f : Feature) (j : Jail) : Decidable (On f j) := by unfold On; cases f <;> exact inferInstance

/-- What a call turns on (libminijail.h); mounts are made in a mount namespace. -/
def turnsOn : Call → List Feature
  | .changeUid _ | .changeUser _ => [.uid]
  | .changeGid _ | .changeGroup _ => [.gid]
  | .setSupplementaryGids _ => [.set_suppl_gids]
  | .keepSupplementaryGids => [.keep_suppl_gids]
  | .inheritUsergroups => [.inherit_suppl_gids]
  | .useSeccomp => [.seccomp]
  | .noNewPrivs => [.no_new_privs]
  | .useSeccompFilter => [.seccomp_filter]
  | .setSeccompFilterTsync => [.seccomp_filter_tsync]
  | .setSeccompFilterAllowSpeculation => [.seccomp_filter_allow_speculation]
  | .logSeccompFilterFailures => [.seccomp_filter_logging]
  | .setUsingMinimalisticMountns => [.using_minimalistic_mountns]
  | .setEnableNewSessions b => if b then [.enable_new_sessions] else []
  | .setEnableDefaultRuntime b => if b then [.enable_default_runtime] else []
  | .setEnableProfileFsRestrictions => [.enable_profile_fs_restrictions]
  | .useCaps _ => [.use_caps]
  | .capbsetDrop _ => [.capbset_drop]
  | .setAmbientCaps => [.set_ambient_caps]
  | .resetSignalMask => [.reset_signal_mask]
  | .resetSignalHandlers => [.reset_signal_handlers]
  | .namespaceVfs => [.vfs]
  | .namespaceEnterVfs _ => [.enter_vfs]
  | .newSessionKeyring => [.new_session_keyring]
  | .namespacePids => [.pids, .vfs, .remount_proc_ro, .do_init]
  | .namespacePidsRwProc => [.pids, .vfs, .do_init]
  | .namespaceIpc => [.ipc]
  | .namespaceUts | .namespaceSetHostname _ => [.uts]
  | .namespaceNet => [.net, .net_loopback]
  | .namespaceNetLoopback b => if b then [.net, .net_loopback] else [.net]
  | .namespaceEnterNet _ => [.enter_net]
  | .namespaceCgroups => [.ns_cgroups]
  | .closeOpenFds => [.close_open_fds]
  | .remountProcReadonly => [.remount_proc_ro, .vfs]
  | .namespaceUser => [.userns]
  | .namespaceUserDisableSetgroups => [.disable_setgroups]
  | .runAsInit => [.run_as_init]
  | .enterChroot _ => [.chroot]
  | .enterPivotRoot _ => [.pivot_root]
  | .mountDev => [.mount_dev]
  | .mountTmp | .mountTmpSize _ => [.mount_tmp]
  | .writePidFile _ => [.pid_file]
  | .addToCgroup _ => [.cgroups]
  | .forwardSignals => [.forward_signals]
  | .createSession => [.setsid]
  | .useAltSyscall _ => [.alt_syscall]
  | .mountWithData .. | .mount .. | .bind .. => [.vfs]
  | _ => []

/-- What a call turns off (libminijail.h): a set of capabilities takes the place of those to drop. Where filters may be left out (`soft`), giving one turns off
what goes with filters; and speculation is left as it is where the kernel does not know of it. -/
def turnsOff (soft : Bool) : Call → List Feature
  | .setEnableNewSessions b => if b then [] else [.enable_new_sessions]
  | .setEnableDefaultRuntime b => if b then [] else [.enable_default_runtime]
  | .disableFsRestrictions => [.enable_fs_restrictions]
  | .useCaps _ => [.capbset_drop]
  | .namespaceNetLoopback b => if b then [] else [.net_loopback]
  | .parseSeccompFilters _ | .parseSeccompFiltersFromFd | .setSeccompFilters _ =>
    if soft then [.seccomp_filter, .seccomp_filter_tsync, .seccomp_filter_logging, .seccomp_filter_allow_speculation, .no_new_privs]
    else [.seccomp_filter_allow_speculation]
  | _ => []

/-- What an option with a letter asks for, with what the manual says it implies. A pid namespace has a process 1 that minijail provides. -/
def letterAsks : List (Char × List Feature) :=
  [('a', [.alt_syscall]), ('c', [.use_caps]), ('C', [.chroot]), ('b', [.vfs]), ('k', [.vfs]), ('d', [.mount_dev, .vfs]), ('f', [.pid_file]),
   ('g', [.gid]), ('G', [.inherit_suppl_gids]), ('I', [.run_as_init, .pids, .vfs, .remount_proc_ro, .do_init]), ('l', [.ipc]), ('L', [.seccomp_filter_logging]),
   ('m', [.userns, .pids, .vfs, .remount_proc_ro, .do_init]), ('M', [.userns, .disable_setgroups, .pids, .vfs, .remount_proc_ro, .do_init]),
   ('n', [.no_new_privs]), ('N', [.ns_cgroups]), ('p', [.pids, .vfs, .remount_proc_ro, .do_init]), ('P', [.pivot_root, .vfs]),
   ('r', [.remount_proc_ro, .vfs]), ('s', [.seccomp]), ('S', [.seccomp_filter]), ('t', [.mount_tmp, .vfs]), ('u', [.uid]),
   ('U', [.userns, .pids, .vfs, .remount_proc_ro, .do_init]), ('v', [.vfs]), ('V', [.enter_vfs]), ('w', [.new_session_keyring]), ('y', [.keep_suppl_gids]),
   ('Y', [.seccomp_filter_tsync])]

/-- What a long option asks for. -/
def longAsks : List (String × List Feature) :=
  [("ambient", [.set_ambient_caps]), ("uts", [.uts]), ("profile", [.vfs, .pivot_root, .mount_tmp, .remount_proc_ro, .using_minimalistic_mountns]),
   ("seccomp-bpf-binary", [.seccomp_filter]), ("add-suppl-group", [.set_suppl_gids]), ("allow-speculative-execution", [.seccomp_filter_allow_speculation])]

/-- The option asks for it. With -e, a network namespace is entered or made; one of the profiles has a /dev of its own. -/
def Asks (p : Nat × Option CStr) (f : Feature) : Prop :=
  (∃ ch fs, (ch, fs) ∈ letterAsks ∧ letter ch p.1 ∧ f ∈ fs) ∨ (∃ name fs, (name, fs) ∈ longAsks ∧ long name p.1 ∧ f ∈ fs) ∨
  (letter 'e' p.1 ∧ p.2 = none ∧ (f = .net ∨ f = .net_loopback)) ∨ (letter 'e' p.1 ∧ p.2 ≠ none ∧ f = .enter_net) ∨
  (long "profile" p.1 ∧ p.2 = some "minimalistic-mountns".toList ∧ f = .mount_dev)

/-- On without an option: file system rules apply, sessions are new, and the default runtime is used; signals are forwarded, and without a filter the default
runtime asks for no new privileges and, where there is a default policy, for its filter. -/
def Default (env : CliEnv) (opts : Options) : Feature → Prop
  | .enable_fs_restrictions | .enable_profile_fs_restrictions | .enable_new_sessions | .enable_default_runtime => True
  | .forward_signals => Without opts (letter 'z')
  | .no_new_privs => Without opts (letter 'S') ∧ Without opts (long "seccomp-bpf-binary") ∧ Without opts (long "no-default-runtime-environment")
  | .seccomp_filter => Without opts (letter 'S') ∧ Without opts (long "seccomp-bpf-binary") ∧ Without opts (long "no-default-runtime-environment") ∧ env.defaultPolicy = true
  | _ => False

/-- The settings an option with a letter gives a value. -/
def letterSets : List (Char × List Setting) :=
  [('u', [.uid, .user]), ('g', [.gid]), ('c', [.caps, .bounding]), ('B', [.skipMask]), ('C', [.root]), ('P', [.root]), ('b', [.mounts]), ('k', [.mounts]),
   ('v', [.propagation]), ('K', [.propagation]), ('V', [.mountNs]), ('e', [.netNs, .loopback]), ('f', [.pidFile]), ('a', [.table]), ('R', [.limits]),
   ('m', [.uidmap]), ('M', [.gidmap]), ('S', [.filter]), ('t', [.tmpSize])]

/-- The settings a long option gives a value. -/
def longSets : List (String × List Setting) :=
  [("profile", [.mounts, .root, .tmpSize, .rules]), ("uts", [.hostname]), ("preserve-fd", [.preserved]), ("fs-default-paths", [.rules]), ("fs-path-rx", [.rules]),
   ("fs-path-ro", [.rules]), ("fs-path-rw", [.rules]), ("fs-path-advanced-rw", [.rules]), ("no-default-runtime-environment", [.runtime]),
   ("no-new-sessions", [.sessions]), ("seccomp-bpf-binary", [.filter]), ("add-suppl-group", [.groups]), ("logging", [.preserved])]

/-- The option gives the setting a value. -/
def Gives (n : Nat) (s : Setting) : Prop :=
  (∃ ch ss, (ch, ss) ∈ letterSets ∧ letter ch n ∧ s ∈ ss) ∨ (∃ name ss, (name, ss) ∈ longSets ∧ long name n ∧ s ∈ ss)

/-- Settings that have a value without an option: standard error is kept where messages go there, and the default runtime may bring a filter. -/
def DefaultSetting (env : CliEnv) (opts : Options) : Setting → Prop
  | .preserved => env.tty = true
  | .filter => Without opts (letter 'S') ∧ Without opts (long "seccomp-bpf-binary") ∧ Without opts (long "no-default-runtime-environment") ∧ env.defaultPolicy = true
  | _ => False

/-- What the front end does unless an option says otherwise. -/
def mayRefuse : List (Feature × String) :=
  [(.enable_fs_restrictions, "no-fs-restrictions"), (.enable_new_sessions, "no-new-sessions"), (.enable_default_runtime, "no-default-runtime-environment")]

end Minijail.Spec
