import Verif.Model.Marshal
/-! libminijail.c: the configuration calls of the API. -/
set_option autoImplicit false
namespace Minijail

/-- The outcome of a call of libminijail.c:499-1585: it returns a value (0 for `void`) leaving the jail as given, or the
process dies (`die`, util.h). -/
inductive ApiRes where
  | ret (rc : Int) (j : Jail)
  | die
  deriving DecidableEq, Repr

/-- What a call finds in its environment. `oom`: the allocations of the call fail. `userDb`, `groupDb`: the answers of
`lookup_user`, `lookup_group` (system.c:437-529), `Except.error` with the (non-zero) error code. `openNs`: the answer of
`open` (libminijail.c:790, 870). `validBind`: `is_valid_bind_path` (libminijail.c:1124-1159). The rest are build options and
kernel features (libminijail.c:235, 597, 627, 640, 1358-1413) and the outcome of compiling the policy of a path, or of a file
descriptor (`none`) (libminijail.c:1495). -/
structure ApiEnv where
  oom : Bool := false
  userDb : BStr → Except Int (BitVec 32 × BitVec 32) := fun _ => .error (-2)
  groupDb : BStr → Except Int (BitVec 32) := fun _ => .error (-2)
  openNs : BStr → Option (BitVec 32) := fun _ => none
  validBind : BStr → Bool := fun _ => true
  landlock : LandlockKernel := ⟨-1#32, -1#32⟩
  defaultRetLog : Bool := false
  retLogAvailable : Bool := true
  debugLogging : Bool := false
  softfail : Bool := false
  modeFilterErrno : Option Nat := some 14
  tsyncErrno : Option Nat := some 14
  specAllow : Bool := true
  compiled : Option BStr → Option (List Insn) := fun _ => none
  realpath : Option BStr := none

/-- `ENOMEM`, `EINVAL`, `EEXIST`, `ELOOP`, `ENOSYS` (errno.h), as returned e.g. at libminijail.c:1036, 1163, 1054, 1251, 1385. -/
def ENOMEM : Int := 12
/-- errno.h, libminijail.c:1163. -/
def EINVAL : Int := 22
/-- errno.h, libminijail.c:1054. -/
def EEXIST : Int := 17
/-- errno.h, libminijail.c:1251. -/
def ELOOP : Int := 40
/-- errno.h, libminijail.c:1385. -/
def ENOSYS : Int := 38

/-- `MS_RDONLY`, `MS_BIND`, `MS_SLAVE`, `MS_SHARED` (sys/mount.h), libminijail.c:416-433, 1242-1260. -/
def MS_RDONLY : BitVec 64 := 1#64
/-- sys/mount.h, libminijail.c:1242. -/
def MS_BIND : BitVec 64 := 4096#64
/-- sys/mount.h, libminijail.c:428. -/
def MS_SLAVE : BitVec 64 := 0x80000#64
/-- sys/mount.h, libminijail.c:428. -/
def MS_SHARED : BitVec 64 := 0x100000#64

/-- `LANDLOCK_ACCESS_FS_EXECUTE` (landlock.h), used in landlock_util.h:39-41. -/
def LL_EXECUTE : BitVec 64 := 1#64
/-- `LANDLOCK_ACCESS_FS_WRITE_FILE` (landlock.h), used in landlock_util.h:44. -/
def LL_WRITE_FILE : BitVec 64 := 2#64
/-- `LANDLOCK_ACCESS_FS_READ_FILE` (landlock.h), used in landlock_util.h:37. -/
def LL_READ_FILE : BitVec 64 := 4#64
/-- `LANDLOCK_ACCESS_FS_READ_DIR` (landlock.h), used in landlock_util.h:37. -/
def LL_READ_DIR : BitVec 64 := 8#64
/-- `LANDLOCK_ACCESS_FS_REMOVE_DIR` (landlock.h), used in landlock_util.h:44. -/
def LL_REMOVE_DIR : BitVec 64 := 0x10#64
/-- `LANDLOCK_ACCESS_FS_REMOVE_FILE` (landlock.h), used in landlock_util.h:45. -/
def LL_REMOVE_FILE : BitVec 64 := 0x20#64
/-- `LANDLOCK_ACCESS_FS_MAKE_CHAR` (landlock.h), used in landlock_util.h:54. -/
def LL_MAKE_CHAR : BitVec 64 := 0x40#64
/-- `LANDLOCK_ACCESS_FS_MAKE_DIR` (landlock.h), used in landlock_util.h:45. -/
def LL_MAKE_DIR : BitVec 64 := 0x80#64
/-- `LANDLOCK_ACCESS_FS_MAKE_REG` (landlock.h), used in landlock_util.h:46. -/
def LL_MAKE_REG : BitVec 64 := 0x100#64
/-- `LANDLOCK_ACCESS_FS_MAKE_SOCK` (landlock.h), used in landlock_util.h:56. -/
def LL_MAKE_SOCK : BitVec 64 := 0x200#64
/-- `LANDLOCK_ACCESS_FS_MAKE_FIFO` (landlock.h), used in landlock_util.h:56. -/
def LL_MAKE_FIFO : BitVec 64 := 0x400#64
/-- `LANDLOCK_ACCESS_FS_MAKE_BLOCK` (landlock.h), used in landlock_util.h:57. -/
def LL_MAKE_BLOCK : BitVec 64 := 0x800#64
/-- `LANDLOCK_ACCESS_FS_MAKE_SYM` (landlock.h), used in landlock_util.h:57. -/
def LL_MAKE_SYM : BitVec 64 := 0x1000#64
/-- `LANDLOCK_ACCESS_FS_REFER` (landlock.h), used in libminijail.c:1099. -/
def LL_REFER : BitVec 64 := 0x2000#64

/-- `ACCESS_FS_ROUGHLY_READ`, landlock_util.h:36-37. -/
def ACCESS_READ : BitVec 64 := LL_READ_FILE ||| LL_READ_DIR
/-- `ACCESS_FS_ROUGHLY_READ_EXECUTE`, landlock_util.h:39-41. -/
def ACCESS_READ_EXECUTE : BitVec 64 := LL_EXECUTE ||| LL_READ_FILE ||| LL_READ_DIR
/-- `ACCESS_FS_ROUGHLY_BASIC_WRITE`, landlock_util.h:43-46. -/
def ACCESS_BASIC_WRITE : BitVec 64 := LL_WRITE_FILE ||| LL_REMOVE_DIR ||| LL_REMOVE_FILE ||| LL_MAKE_DIR ||| LL_MAKE_REG
/-- `ACCESS_FS_ROUGHLY_EDIT`, landlock_util.h:48-50. -/
def ACCESS_EDIT : BitVec 64 := LL_WRITE_FILE ||| LL_REMOVE_DIR ||| LL_REMOVE_FILE
/-- `ACCESS_FS_ROUGHLY_FULL_WRITE`, landlock_util.h:52-57. -/
def ACCESS_FULL_WRITE : BitVec 64 :=
  LL_WRITE_FILE ||| LL_REMOVE_DIR ||| LL_REMOVE_FILE ||| LL_MAKE_CHAR ||| LL_MAKE_DIR ||| LL_MAKE_REG ||| LL_MAKE_SOCK |||
    LL_MAKE_FIFO ||| LL_MAKE_BLOCK ||| LL_MAKE_SYM
/-- `HANDLED_ACCESS_TYPES`, landlock_util.h:63-64. -/
def HANDLED_ACCESS_TYPES : BitVec 64 := ACCESS_READ_EXECUTE ||| ACCESS_FULL_WRITE

/-- A call of the configuration API, libminijail.h. Calls that only read the jail, and those that run it, are left out.
`gid_t` arrays and C strings are lists. -/
inductive Call where
  | changeUid (uid : BitVec 32)
  | changeGid (gid : BitVec 32)
  | setSupplementaryGids (list : List (BitVec 32))
  | keepSupplementaryGids
  | changeUser (user : BStr)
  | changeGroup (group : BStr)
  | useSeccomp
  | noNewPrivs
  | useSeccompFilter
  | setSeccompFilterTsync
  | setSeccompFilterAllowSpeculation
  | logSeccompFilterFailures
  | setUsingMinimalisticMountns
  | setEnableNewSessions (b : Bool)
  | setEnableDefaultRuntime (b : Bool)
  | disableFsRestrictions
  | setEnableProfileFsRestrictions
  | addMinimalisticMountnsFsRules
  | enableDefaultFsRestrictions
  | useCaps (mask : BitVec 64)
  | capbsetDrop (mask : BitVec 64)
  | setAmbientCaps
  | resetSignalMask
  | resetSignalHandlers
  | namespaceVfs
  | namespaceEnterVfs (path : BStr)
  | newSessionKeyring
  | skipSettingSecurebits (mask : BitVec 64)
  | remountMode (mode : BitVec 64)
  | skipRemountPrivate
  | namespacePids
  | namespacePidsRwProc
  | namespaceIpc
  | namespaceUts
  | namespaceSetHostname (name : BStr)
  | namespaceNetLoopback (b : Bool)
  | namespaceNet
  | namespaceEnterNet (path : BStr)
  | namespaceCgroups
  | closeOpenFds
  | remountProcReadonly
  | namespaceUser
  | namespaceUserDisableSetgroups
  | uidmap (map : BStr)
  | gidmap (map : BStr)
  | inheritUsergroups
  | runAsInit
  | enterChroot (dir : BStr)
  | enterPivotRoot (dir : BStr)
  | mountDev
  | mountTmp
  | mountTmpSize (size : BitVec 64)
  | writePidFile (path : BStr)
  | addToCgroup (path : BStr)
  | rlimit (type : BitVec 32) (cur max : BitVec 64)
  | forwardSignals
  | createSession
  | addFsRestrictionRx (path : BStr)
  | addFsRestrictionRo (path : BStr)
  | addFsRestrictionRw (path : BStr)
  | addFsRestrictionAdvancedRw (path : BStr)
  | addFsRestrictionEdit (path : BStr)
  | addFsRestrictionAccessRights (path : BStr) (flags : BitVec 16)
  | mountWithData (src dest type : BStr) (flags : BitVec 64) (data : Option BStr)
  | mount (src dest type : BStr) (flags : BitVec 64)
  | bind (src dest : BStr) (writeable : Bool)
  | addRemount (name : BStr) (mode : BitVec 64)
  | addHook (hook payload event : Nat)
  | preserveFd (parent child : BitVec 32)
  | setPreloadPath (path : BStr)
  | parseSeccompFilters (path : BStr)
  | parseSeccompFiltersFromFd
  | setSeccompFilters (prog : List Insn)
  | useAltSyscall (table : BStr)
  deriving DecidableEq, Repr

/-- A call that changes the jail and returns 0 (or nothing), as libminijail.c:499-505. -/
def ApiRes.ok (j : Jail) : ApiRes := .ret 0 j

/-- A call that only sets flags, as libminijail.c:545-548. -/
def setFlags (j : Jail) (f : Flags → Flags) : ApiRes := .ok { j with flags := f j.flags }

/-- `minijail_change_uid`, libminijail.c:499-505. -/
def changeUid (j : Jail) (uid : BitVec 32) : ApiRes :=
  if uid = 0#32 then .die else .ok { j with uid := uid, flags := { j.flags with uid := true } }

/-- `minijail_change_gid`, libminijail.c:507-513. -/
def changeGid (j : Jail) (gid : BitVec 32) : ApiRes :=
  if gid = 0#32 then .die else .ok { j with gid := gid, flags := { j.flags with gid := true } }

/-- `minijail_set_supplementary_gids`, libminijail.c:515-543. -/
def setSupplementaryGids (env : ApiEnv) (j : Jail) (list : List (BitVec 32)) : ApiRes :=
  if j.flags.inherit_suppl_gids then .die
  else if j.flags.keep_suppl_gids then .die
  else if list.length = 0 then
    .ok { j with suppl_gid_list := none, suppl_gid_count := 0, flags := { j.flags with set_suppl_gids := true } }
  else if env.oom then .die
  else .ok { j with suppl_gid_list := some list, suppl_gid_count := list.length, flags := { j.flags with set_suppl_gids := true } }

/-- `minijail_change_user`, libminijail.c:550-563. -/
def changeUser (env : ApiEnv) (j : Jail) (user : BStr) : ApiRes :=
  match env.userDb user with
  | .error rc => .ret rc j
  | .ok (uid, gid) =>
    match changeUid j uid with
    | .die => .die
    | .ret _ j =>
      if env.oom then .ret (-ENOMEM) { j with user := none }
      else .ok { j with user := some user, usergid := gid }

/-- `minijail_change_group`, libminijail.c:565-573. -/
def changeGroup (env : ApiEnv) (j : Jail) (group : BStr) : ApiRes :=
  match env.groupDb group with
  | .error rc => .ret rc j
  | .ok gid => changeGid j gid

/-- `seccomp_is_logging_allowed`, libminijail.c:233-236. -/
def loggingAllowed (env : ApiEnv) (j : Jail) : Bool := env.defaultRetLog || j.flags.seccomp_filter_logging

/-- A filter is installed: the test at libminijail.c:592, 612, 622. -/
def hasFilter (j : Jail) : Bool := decide (j.filter_len > 0) && j.filter_prog.isSome

/-- `minijail_set_seccomp_filter_tsync`, libminijail.c:590-608. -/
def setSeccompFilterTsync (env : ApiEnv) (j : Jail) : ApiRes :=
  if hasFilter j then .die
  else if loggingAllowed env j && !env.retLogAvailable then .die
  else setFlags j fun f => { f with seccomp_filter_tsync := true }

/-- `minijail_set_seccomp_filter_allow_speculation`, libminijail.c:610-618. -/
def setSeccompFilterAllowSpeculation (j : Jail) : ApiRes :=
  if hasFilter j then .die else setFlags j fun f => { f with seccomp_filter_allow_speculation := true }

/-- `minijail_log_seccomp_filter_failures`, libminijail.c:620-643. -/
def logSeccompFilterFailures (env : ApiEnv) (j : Jail) : ApiRes :=
  if hasFilter j then .die
  else if j.flags.seccomp_filter_tsync && !env.retLogAvailable then .die
  else if env.debugLogging then setFlags j fun f => { f with seccomp_filter_logging := true }
  else .ok j

/-- `minijail_add_fs_restriction_path` as the public functions call it, libminijail.c:1076-1116: they return `!rc`, so 1 on
success and 0 when memory is exhausted (libminijail.c:385-386; a failing `strdup` at 387 is not modelled). -/
def addRule (env : ApiEnv) (j : Jail) (path : BStr) (flags : BitVec 64) : ApiRes :=
  if env.oom then .ret 0 j else .ret 1 (addFsRestrictionPath env.landlock j path flags)

/-- `minijail_add_fs_restriction_advanced_rw`, libminijail.c:1093-1103. -/
def addRuleAdvancedRw (env : ApiEnv) (j : Jail) (path : BStr) : ApiRes :=
  let r := fsReferSupported env.landlock j
  let flags := ACCESS_READ ||| ACCESS_FULL_WRITE
  addRule env r.2 path (if r.1 then flags ||| LL_REFER else flags)

/-- One rule, its result ignored (e.g. libminijail.c:697). -/
def ruleIgnoring (env : ApiEnv) (j : Jail) (path : BStr) (flags : BitVec 64) : Jail :=
  if env.oom then j else addFsRestrictionPath env.landlock j path flags

/-- `minijail_enable_default_fs_restrictions`, libminijail.c:714-729. -/
def enableDefaultFsRestrictions (env : ApiEnv) (j : Jail) : Jail :=
  let j := ruleIgnoring env j (bstr "/lib") ACCESS_READ_EXECUTE
  let j := ruleIgnoring env j (bstr "/lib64") ACCESS_READ_EXECUTE
  let j := ruleIgnoring env j (bstr "/usr/lib") ACCESS_READ_EXECUTE
  let j := ruleIgnoring env j (bstr "/usr/lib64") ACCESS_READ_EXECUTE
  let j := ruleIgnoring env j (bstr "/bin") ACCESS_READ_EXECUTE
  let j := ruleIgnoring env j (bstr "/sbin") ACCESS_READ_EXECUTE
  let j := ruleIgnoring env j (bstr "/usr/sbin") ACCESS_READ_EXECUTE
  let j := ruleIgnoring env j (bstr "/usr/bin") ACCESS_READ_EXECUTE
  let j := ruleIgnoring env j (bstr "/etc/group") ACCESS_READ
  ruleIgnoring env j (bstr "/etc/passwd") ACCESS_READ

/-- The rules for one mount, libminijail.c:695-704, with `mount_has_readonly_flag` and `mount_events_allowed`
(libminijail.c:421-433). -/
def rulesForMount (env : ApiEnv) (j : Jail) (m : Mountpoint) : Jail :=
  let j := ruleIgnoring env j m.dest ACCESS_READ_EXECUTE
  if m.flags &&& MS_RDONLY = 0#64 ∨ m.flags &&& MS_SHARED ≠ 0#64 ∨ m.flags &&& MS_SLAVE ≠ 0#64 then
    let r := fsReferSupported env.landlock j
    let flags := ACCESS_READ ||| ACCESS_FULL_WRITE
    ruleIgnoring env r.2 m.dest (if r.1 then flags ||| LL_REFER else flags)
  else j

/-- `minijail_add_minimalistic_mountns_fs_rules`, libminijail.c:685-712. -/
def addMinimalisticMountnsFsRules (env : ApiEnv) (j : Jail) : Jail :=
  if !j.flags.using_minimalistic_mountns || !j.flags.enable_profile_fs_restrictions then j
  else
    let ms := j.mounts
    let j := ms.foldl (rulesForMount env) j
    if ms.isEmpty then j
    else
      let j := enableDefaultFsRestrictions env j
      let j := ruleIgnoring env j (bstr "/dev") (ACCESS_READ ||| ACCESS_EDIT)
      let j := ruleIgnoring env j (bstr "/proc") ACCESS_READ
      if j.flags.vfs then ruleIgnoring env j (bstr "/tmp") (ACCESS_READ ||| ACCESS_BASIC_WRITE) else j

/-- `minijail_use_caps`, libminijail.c:731-748. -/
def useCaps (j : Jail) (mask : BitVec 64) : ApiRes :=
  let j := if j.flags.capbset_drop then { j with cap_bset := 0#64, flags := { j.flags with capbset_drop := false } } else j
  .ok { j with caps := mask, flags := { j.flags with use_caps := true } }

/-- `minijail_capbset_drop`, libminijail.c:750-765. -/
def capbsetDrop (j : Jail) (mask : BitVec 64) : ApiRes :=
  if j.flags.use_caps then .die else .ok { j with cap_bset := mask, flags := { j.flags with capbset_drop := true } }

/-- `minijail_namespace_enter_vfs`, libminijail.c:787-796. -/
def namespaceEnterVfs (env : ApiEnv) (j : Jail) (path : BStr) : ApiRes :=
  match env.openNs path with
  | none => .die
  | some fd => .ok { j with mountns_fd := fd, flags := { j.flags with enter_vfs := true } }

/-- `minijail_namespace_enter_net`, libminijail.c:867-876. -/
def namespaceEnterNet (env : ApiEnv) (j : Jail) (path : BStr) : ApiRes :=
  match env.openNs path with
  | none => .die
  | some fd => .ok { j with netns_fd := fd, flags := { j.flags with enter_net := true } }

/-- `minijail_namespace_set_hostname`, libminijail.c:844-853. -/
def namespaceSetHostname (env : ApiEnv) (j : Jail) (name : BStr) : ApiRes :=
  if j.hostname.isSome then .ret (-EINVAL) j
  else
    let j := { j with flags := { j.flags with uts := true } }
    if env.oom then .ret (-ENOMEM) j else .ok { j with hostname := some name }

/-- Commas become line ends, libminijail.c:909-913. -/
def commasToLines (s : BStr) : BStr := s.map fun c => if c = 0x2c#8 then 0x0a#8 else c

/-- `minijail_uidmap`, libminijail.c:904-915. -/
def setUidmap (env : ApiEnv) (j : Jail) (map : BStr) : ApiRes :=
  if env.oom then .ret (-ENOMEM) { j with uidmap := none } else .ok { j with uidmap := some (commasToLines map) }

/-- `minijail_gidmap`, libminijail.c:917-928. -/
def setGidmap (env : ApiEnv) (j : Jail) (map : BStr) : ApiRes :=
  if env.oom then .ret (-ENOMEM) { j with gidmap := none } else .ok { j with gidmap := some (commasToLines map) }

/-- `minijail_enter_chroot`, libminijail.c:944-953. -/
def enterChrootCall (env : ApiEnv) (j : Jail) (dir : BStr) : ApiRes :=
  if j.chrootdir.isSome then .ret (-EINVAL) j
  else if env.oom then .ret (-ENOMEM) j
  else .ok { j with chrootdir := some dir, flags := { j.flags with chroot := true } }

/-- `minijail_enter_pivot_root`, libminijail.c:955-964. -/
def enterPivotRootCall (env : ApiEnv) (j : Jail) (dir : BStr) : ApiRes :=
  if j.chrootdir.isSome then .ret (-EINVAL) j
  else if env.oom then .ret (-ENOMEM) j
  else .ok { j with chrootdir := some dir, flags := { j.flags with pivot_root := true } }

/-- `minijail_write_pid_file`, libminijail.c:1024-1031. -/
def writePidFile (env : ApiEnv) (j : Jail) (path : BStr) : ApiRes :=
  if env.oom then .ret (-ENOMEM) { j with pid_file_path := none }
  else .ok { j with pid_file_path := some path, flags := { j.flags with pid_file := true } }

/-- `minijail_add_to_cgroup`, libminijail.c:1033-1043. -/
def addToCgroup (env : ApiEnv) (j : Jail) (path : BStr) : ApiRes :=
  if j.cgroup_count ≥ MAX_CGROUPS then .ret (-ENOMEM) j
  else if env.oom then .ret (-ENOMEM) j
  else .ok { j with
    cgroups := j.cgroups ++ [path], cgroup_count := j.cgroup_count + 1, flags := { j.flags with cgroups := true } }

/-- `minijail_rlimit`, libminijail.c:1045-1062. -/
def setRlimit (j : Jail) (type : BitVec 32) (cur max : BitVec 64) : ApiRes :=
  if j.rlimit_count ≥ MAX_RLIMITS then .ret (-ENOMEM) j
  else if (j.rlimits.take j.rlimit_count).any (fun r => r.type == type) then .ret (-EEXIST) j
  else .ok { j with rlimits := j.rlimits.set j.rlimit_count ⟨type, cur, max⟩, rlimit_count := j.rlimit_count + 1 }

/-- `minijail_mount_with_data`, libminijail.c:1161-1231, with exhausted memory. -/
def mountCall (env : ApiEnv) (j : Jail) (src dest type : BStr) (flags : BitVec 64) (data : Option BStr) : ApiRes :=
  match mountWithData j src dest type flags data with
  | none => .ret (-EINVAL) j
  | some j' => if env.oom then .ret (-ENOMEM) j else .ok j'

/-- `minijail_bind`, libminijail.c:1239-1268. -/
def bindCall (env : ApiEnv) (j : Jail) (src dest : BStr) (writeable : Bool) : ApiRes :=
  if !env.validBind src then .ret (-ELOOP) j
  else mountCall env j src dest (bstr "minijail_bind") (if writeable then MS_BIND else MS_BIND ||| MS_RDONLY) none

/-- `minijail_add_remount`, libminijail.c:1270-1295. -/
def addRemount (env : ApiEnv) (j : Jail) (name : BStr) (mode : BitVec 64) : ApiRes :=
  if name.head? ≠ some 0x2f#8 then .ret (-EINVAL) j
  else if env.oom then .ret (-ENOMEM) j
  else .ok { j with remounts := j.remounts ++ [⟨mode, name⟩] }

/-- `MINIJAIL_HOOK_EVENT_MAX`, libminijail.h:84-96. -/
def HOOK_EVENT_MAX : Nat := 3

/-- `minijail_add_hook`, libminijail.c:1297-1319. -/
def addHook (env : ApiEnv) (j : Jail) (hook payload event : Nat) : ApiRes :=
  if event ≥ HOOK_EVENT_MAX then .ret (-EINVAL) j
  else if env.oom then .ret (-ENOMEM) j
  else .ok { j with hooks := j.hooks ++ [⟨hook, payload, event⟩] }

/-- `minijail_preserve_fd`, libminijail.c:1321-1331. -/
def preserveFd (j : Jail) (parent child : BitVec 32) : ApiRes :=
  if parent.toInt < 0 ∨ child.toInt < 0 then .ret (-EINVAL) j
  else if j.preserved_fd_count ≥ MAX_PRESERVED_FDS then .ret (-ENOMEM) j
  else .ok { j with
    preserved_fds := j.preserved_fds.set j.preserved_fd_count ⟨parent, child⟩, preserved_fd_count := j.preserved_fd_count + 1 }

/-- `minijail_set_preload_path`, libminijail.c:1333-1341. -/
def setPreloadPath (env : ApiEnv) (j : Jail) (path : BStr) : ApiRes :=
  if j.preload_path.isSome then .ret (-EINVAL) j
  else if env.oom then .ret (-ENOMEM) j
  else .ok { j with preload_path := some path }

/-- `clear_seccomp_options`, libminijail.c:1343-1356. -/
def clearSeccompOptions (j : Jail) : Jail :=
  { j with
    flags := { j.flags with
      seccomp_filter := false, seccomp_filter_tsync := false, seccomp_filter_logging := false,
      seccomp_filter_allow_speculation := false, no_new_privs := false }
    filter_len := 0, filter_prog := none, seccomp_policy_path := none }

/-- `seccomp_should_use_filters`, libminijail.c:1358-1413: whether to go on, and the jail. -/
def shouldUseFilters (env : ApiEnv) (j : Jail) : Bool × Jail :=
  if env.modeFilterErrno = some 22 ∧ env.softfail then (false, clearSeccompOptions j)
  else if j.flags.seccomp_filter_tsync ∧ (env.tsyncErrno = some 38 ∨ env.tsyncErrno = some 22) ∧ env.softfail then
    (false, clearSeccompOptions j)
  else if j.flags.seccomp_filter_allow_speculation ∧ !env.specAllow then
    (true, { j with flags := { j.flags with seccomp_filter_allow_speculation := false } })
  else (true, j)

/-- `set_seccomp_filters_internal`, libminijail.c:1415-1449; `len` is an `unsigned short`. -/
def installFilter (j : Jail) (prog : List Insn) : Jail := { j with filter_len := prog.length, filter_prog := some prog }

/-- `minijail_parse_seccomp_filters` and `minijail_parse_seccomp_filters_from_fd`, libminijail.c:1507-1555 with 1451-1505.
`from_` is what is compiled, `path` what is recorded. `none` in `env.compiled`: the file cannot be opened or compiled, or memory is exhausted. `compile_filter` returns at most
4096 instructions (syscall_filter.c:851), so its length fits the `unsigned short`. A failing `strdup` of the path
(libminijail.c:1524) is not modelled. -/
def parseSeccompFilters (env : ApiEnv) (j : Jail) (from_ path : Option BStr) : ApiRes :=
  let r := shouldUseFilters env j
  if !r.1 then .ok r.2
  else
    match env.compiled from_ with
    | none => .die
    | some prog => .ok { installFilter r.2 prog with seccomp_policy_path := path }

/-- `minijail_set_seccomp_filters`, libminijail.c:1557-1576. -/
def setSeccompFilters (env : ApiEnv) (j : Jail) (prog : List Insn) : ApiRes :=
  let r := shouldUseFilters env j
  if !r.1 then .ok r.2
  else if loggingAllowed env r.2 then .die
  else if env.oom then .die
  else .ok (installFilter r.2 prog)

/-- `minijail_use_alt_syscall`, libminijail.c:1578-1585. -/
def useAltSyscall (env : ApiEnv) (j : Jail) (table : BStr) : ApiRes :=
  if env.oom then .ret (-ENOMEM) { j with alt_syscall_table := none }
  else .ok { j with alt_syscall_table := some table, flags := { j.flags with alt_syscall := true } }

/-- A configuration call, libminijail.c:499-1585. The calls that set one flag are at libminijail.c:545-588, 645-683,
767-785, 798-842, 855-865, 878-902, 930-942, 1008-1022, 1064-1074. -/
def call (env : ApiEnv) (j : Jail) : Call → ApiRes
  | .changeUid uid => changeUid j uid
  | .changeGid gid => changeGid j gid
  | .setSupplementaryGids l => setSupplementaryGids env j l
  | .keepSupplementaryGids => setFlags j fun f => { f with keep_suppl_gids := true }
  | .changeUser u => changeUser env j u
  | .changeGroup g => changeGroup env j g
  | .useSeccomp => setFlags j fun f => { f with seccomp := true }
  | .noNewPrivs => setFlags j fun f => { f with no_new_privs := true }
  | .useSeccompFilter => setFlags j fun f => { f with seccomp_filter := true }
  | .setSeccompFilterTsync => setSeccompFilterTsync env j
  | .setSeccompFilterAllowSpeculation => setSeccompFilterAllowSpeculation j
  | .logSeccompFilterFailures => logSeccompFilterFailures env j
  | .setUsingMinimalisticMountns => setFlags j fun f => { f with using_minimalistic_mountns := true }
  | .setEnableNewSessions b => setFlags j fun f => { f with enable_new_sessions := b }
  | .setEnableDefaultRuntime b => setFlags j fun f => { f with enable_default_runtime := b }
  | .disableFsRestrictions => setFlags j fun f => { f with enable_fs_restrictions := false }
  | .setEnableProfileFsRestrictions => setFlags j fun f => { f with enable_profile_fs_restrictions := true }
  | .addMinimalisticMountnsFsRules => .ok (addMinimalisticMountnsFsRules env j)
  | .enableDefaultFsRestrictions => .ok (enableDefaultFsRestrictions env j)
  | .useCaps m => useCaps j m
  | .capbsetDrop m => capbsetDrop j m
  | .setAmbientCaps => setFlags j fun f => { f with set_ambient_caps := true }
  | .resetSignalMask => setFlags j fun f => { f with reset_signal_mask := true }
  | .resetSignalHandlers => setFlags j fun f => { f with reset_signal_handlers := true }
  | .namespaceVfs => .ok (namespaceVfs j)
  | .namespaceEnterVfs p => namespaceEnterVfs env j p
  | .newSessionKeyring => setFlags j fun f => { f with new_session_keyring := true }
  | .skipSettingSecurebits m => .ok { j with securebits_skip_mask := m }
  | .remountMode m => .ok { j with remount_mode := m }
  | .skipRemountPrivate => .ok { j with remount_mode := 0#64 }
  | .namespacePids => setFlags j fun f => { f with vfs := true, remount_proc_ro := true, pids := true, do_init := true }
  | .namespacePidsRwProc => setFlags j fun f => { f with vfs := true, pids := true, do_init := true }
  | .namespaceIpc => setFlags j fun f => { f with ipc := true }
  | .namespaceUts => setFlags j fun f => { f with uts := true }
  | .namespaceSetHostname n => namespaceSetHostname env j n
  | .namespaceNetLoopback b => setFlags j fun f => { f with net := true, net_loopback := b }
  | .namespaceNet => setFlags j fun f => { f with net := true, net_loopback := true }
  | .namespaceEnterNet p => namespaceEnterNet env j p
  | .namespaceCgroups => setFlags j fun f => { f with ns_cgroups := true }
  | .closeOpenFds => setFlags j fun f => { f with close_open_fds := true }
  | .remountProcReadonly => setFlags j fun f => { f with vfs := true, remount_proc_ro := true }
  | .namespaceUser => setFlags j fun f => { f with userns := true }
  | .namespaceUserDisableSetgroups => setFlags j fun f => { f with disable_setgroups := true }
  | .uidmap m => setUidmap env j m
  | .gidmap m => setGidmap env j m
  | .inheritUsergroups => setFlags j fun f => { f with inherit_suppl_gids := true }
  | .runAsInit => setFlags j fun f => { f with run_as_init := true }
  | .enterChroot d => enterChrootCall env j d
  | .enterPivotRoot d => enterPivotRootCall env j d
  | .mountDev => setFlags j fun f => { f with mount_dev := true }
  | .mountTmp => .ok { j with tmpfs_size := BitVec.ofNat 64 (64 * 1024 * 1024), flags := { j.flags with mount_tmp := true } }
  | .mountTmpSize s => .ok { j with tmpfs_size := s, flags := { j.flags with mount_tmp := true } }
  | .writePidFile p => writePidFile env j p
  | .addToCgroup p => addToCgroup env j p
  | .rlimit t c m => setRlimit j t c m
  | .forwardSignals => setFlags j fun f => { f with forward_signals := true }
  | .createSession => setFlags j fun f => { f with setsid := true }
  | .addFsRestrictionRx p => addRule env j p ACCESS_READ_EXECUTE
  | .addFsRestrictionRo p => addRule env j p ACCESS_READ
  | .addFsRestrictionRw p => addRule env j p (ACCESS_READ ||| ACCESS_BASIC_WRITE)
  | .addFsRestrictionAdvancedRw p => addRuleAdvancedRw env j p
  | .addFsRestrictionEdit p => addRule env j p (ACCESS_READ ||| ACCESS_EDIT)
  | .addFsRestrictionAccessRights p f => addRule env j p (f.zeroExtend 64)
  | .mountWithData s d t f x => mountCall env j s d t f x
  | .mount s d t f => mountCall env j s d t f none
  | .bind s d w => bindCall env j s d w
  | .addRemount n m => addRemount env j n m
  | .addHook h p e => addHook env j h p e
  | .preserveFd p c => preserveFd j p c
  | .setPreloadPath p => setPreloadPath env j p
  | .parseSeccompFilters p => parseSeccompFilters env j (some p) (some p)
  | .parseSeccompFiltersFromFd => parseSeccompFilters env j none env.realpath
  | .setSeccompFilters p => setSeccompFilters env j p
  | .useAltSyscall t => useAltSyscall env j t

/-- A sequence of calls of libminijail.c:499-1585 on one jail, ignoring what they return; `none`: one of them made the
process die. -/
def calls (j : Jail) : List (ApiEnv × Call) → Option Jail
  | [] => some j
  | (env, c) :: cs =>
    match call env j c with
    | .die => none
    | .ret _ j => calls j cs

end Minijail
