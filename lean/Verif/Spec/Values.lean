import Verif.Spec.Api
/-! The settings that carry a value, and which calls give them one. -/
set_option autoImplicit false
namespace Minijail.Spec

/-- A setting with a value. -/
inductive Setting where
  | uid | user | gid | groups | caps | bounding | skipMask | propagation | tmpSize | filter | uidmap | gidmap | pidFile
  | table | mountNs | netNs | runtime | sessions | loopback | root | hostname | preload | mounts | remounts | hooks | limits | preserved | cgroups | rules
  deriving DecidableEq, Repr

/-- Two jails agree on a setting. -/
def Agree (j j' : Jail) : Setting → Prop
  | .uid => j'.uid = j.uid
  | .user => j'.user = j.user ∧ j'.usergid = j.usergid
  | .gid => j'.gid = j.gid
  | .groups => j'.suppl_gid_list = j.suppl_gid_list ∧ j'.suppl_gid_count = j.suppl_gid_count
  | .caps => j'.caps = j.caps
  | .bounding => j'.cap_bset = j.cap_bset
  | .skipMask => j'.securebits_skip_mask = j.securebits_skip_mask
  | .propagation => j'.remount_mode = j.remount_mode
  | .tmpSize => j'.tmpfs_size = j.tmpfs_size
  | .filter => j'.filter_prog = j.filter_prog ∧ j'.filter_len = j.filter_len
  | .uidmap => j'.uidmap = j.uidmap
  | .gidmap => j'.gidmap = j.gidmap
  | .pidFile => j'.pid_file_path = j.pid_file_path
  | .table => j'.alt_syscall_table = j.alt_syscall_table
  | .mountNs => j'.mountns_fd = j.mountns_fd
  | .netNs => j'.netns_fd = j.netns_fd
  | .runtime => j'.flags.enable_default_runtime = j.flags.enable_default_runtime
  | .sessions => j'.flags.enable_new_sessions = j.flags.enable_new_sessions
  | .loopback => j'.flags.net_loopback = j.flags.net_loopback
  | .root => j'.chrootdir = j.chrootdir
  | .hostname => j'.hostname = j.hostname
  | .preload => j'.preload_path = j.preload_path
  | .mounts => j'.mounts = j.mounts
  | .remounts => j'.remounts = j.remounts
  | .hooks => j'.hooks = j.hooks
  | .limits => j'.rlimits = j.rlimits ∧ j'.rlimit_count = j.rlimit_count
  | .preserved => j'.preserved_fds = j.preserved_fds ∧ j'.preserved_fd_count = j.preserved_fd_count
  | .cgroups => j'.cgroups = j.cgroups ∧ j'.cgroup_count = j.cgroup_count
  | .rules => j'.fs_rules = j.fs_rules

/-- The settings a call may give a value. -/
def gives : Call → List Setting
  | .changeUid _ => [.uid]
  | .changeUser _ => [.uid, .user]
  | .changeGid _ | .changeGroup _ => [.gid]
  | .setSupplementaryGids _ => [.groups]
  | .useCaps _ => [.caps, .bounding]
  | .capbsetDrop _ => [.bounding]
  | .skipSettingSecurebits _ => [.skipMask]
  | .remountMode _ | .skipRemountPrivate => [.propagation]
  | .mountTmp | .mountTmpSize _ => [.tmpSize]
  | .parseSeccompFilters _ | .parseSeccompFiltersFromFd | .setSeccompFilters _ => [.filter]
  | .uidmap _ => [.uidmap]
  | .gidmap _ => [.gidmap]
  | .writePidFile _ => [.pidFile]
  | .useAltSyscall _ => [.table]
  | .namespaceEnterVfs _ => [.mountNs]
  | .namespaceEnterNet _ => [.netNs]
  | .setEnableDefaultRuntime _ => [.runtime]
  | .setEnableNewSessions _ => [.sessions]
  | .namespaceNet | .namespaceNetLoopback _ => [.loopback]
  | .enterChroot _ | .enterPivotRoot _ => [.root]
  | .namespaceSetHostname _ => [.hostname]
  | .setPreloadPath _ => [.preload]
  | .bind .. | .mount .. | .mountWithData .. => [.mounts]
  | .addRemount .. => [.remounts]
  | .addHook .. => [.hooks]
  | .rlimit .. => [.limits]
  | .preserveFd .. => [.preserved]
  | .addToCgroup _ => [.cgroups]
  | .addFsRestrictionRx _ | .addFsRestrictionRo _ | .addFsRestrictionRw _ | .addFsRestrictionAdvancedRw _ | .addFsRestrictionEdit _
  | .addFsRestrictionAccessRights .. | .addMinimalisticMountnsFsRules | .enableDefaultFsRestrictions => [.rules]
  | _ => []

/-- An id map as the kernel wants it: lines instead of commas. -/
def mapLines (m : BStr) : BStr := m.map fun c => if c = 44#8 then 10#8 else c

/-- The value a call asks for is the one recorded. Filters: unless missing seccomp support is tolerated. -/
def Holds (env : ApiEnv) (j : Jail) : Call → Prop
  | .changeUid u => j.uid = u
  | .changeUser n => j.user = some n ∧ env.userDb n = .ok (j.uid, j.usergid)
  | .changeGid g => j.gid = g
  | .changeGroup n => env.groupDb n = .ok j.gid
  | .setSupplementaryGids l => j.suppl_gid_list.getD [] = l ∧ j.suppl_gid_count = l.length
  | .useCaps m => j.caps = m
  | .capbsetDrop m => j.cap_bset = m
  | .skipSettingSecurebits m => j.securebits_skip_mask = m
  | .remountMode m => j.remount_mode = m
  | .skipRemountPrivate => j.remount_mode = 0#64
  | .mountTmp => j.tmpfs_size = 67108864#64
  | .mountTmpSize s => j.tmpfs_size = s
  | .parseSeccompFilters p => env.softfail = false → j.filter_prog = env.compiled (some p) ∧ j.filter_prog.map (·.length) = some j.filter_len
  | .parseSeccompFiltersFromFd => env.softfail = false → j.filter_prog = env.compiled none ∧ j.filter_prog.map (·.length) = some j.filter_len
  | .setSeccompFilters p => env.softfail = false → j.filter_prog = some p ∧ j.filter_len = p.length
  | .uidmap m => j.uidmap = some (mapLines m)
  | .gidmap m => j.gidmap = some (mapLines m)
  | .writePidFile p => j.pid_file_path = some p
  | .useAltSyscall t => j.alt_syscall_table = some t
  | .namespaceEnterVfs p => env.openNs p = some j.mountns_fd
  | .namespaceEnterNet p => env.openNs p = some j.netns_fd
  | .setEnableDefaultRuntime b => j.flags.enable_default_runtime = b
  | .setEnableNewSessions b => j.flags.enable_new_sessions = b
  | .namespaceNet => j.flags.net_loopback = true
  | .namespaceNetLoopback b => j.flags.net_loopback = b
  | .enterChroot d | .enterPivotRoot d => j.chrootdir = some d
  | .namespaceSetHostname n => j.hostname = some n
  | .setPreloadPath p => j.preload_path = some p
  | _ => True

end Minijail.Spec
