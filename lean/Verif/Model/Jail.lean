import Verif.Model.BpfMachine
import Verif.Model.Res
/-! libminijail.c: `struct minijail`, its creation, and the two list-building functions that deserialisation uses. -/
set_option autoImplicit false
namespace Minijail

/-- A byte string: the contents of a C string without its terminating NUL (`char *` fields, libminijail.c:127-229). -/
abbrev BStr := List (BitVec 8)

/-- A C string literal as bytes (e.g. libminijail.c:1191 `"tmpfs"`); only used on ASCII literals. -/
def bstr (s : String) : BStr := s.toList.map fun c => BitVec.ofNat 8 c.toNat

/-- The flag bits of `struct minijail`, libminijail.c:134-181, in declaration order. -/
structure Flags where
  uid : Bool := false
  gid : Bool := false
  inherit_suppl_gids : Bool := false
  set_suppl_gids : Bool := false
  keep_suppl_gids : Bool := false
  use_caps : Bool := false
  capbset_drop : Bool := false
  set_ambient_caps : Bool := false
  vfs : Bool := false
  enter_vfs : Bool := false
  pids : Bool := false
  ipc : Bool := false
  uts : Bool := false
  net : Bool := false
  net_loopback : Bool := false
  enter_net : Bool := false
  ns_cgroups : Bool := false
  userns : Bool := false
  disable_setgroups : Bool := false
  seccomp : Bool := false
  remount_proc_ro : Bool := false
  no_new_privs : Bool := false
  seccomp_filter : Bool := false
  seccomp_filter_tsync : Bool := false
  seccomp_filter_logging : Bool := false
  seccomp_filter_allow_speculation : Bool := false
  chroot : Bool := false
  pivot_root : Bool := false
  mount_dev : Bool := false
  mount_tmp : Bool := false
  do_init : Bool := false
  run_as_init : Bool := false
  pid_file : Bool := false
  cgroups : Bool := false
  alt_syscall : Bool := false
  reset_signal_mask : Bool := false
  reset_signal_handlers : Bool := false
  close_open_fds : Bool := false
  new_session_keyring : Bool := false
  forward_signals : Bool := false
  setsid : Bool := false
  using_minimalistic_mountns : Bool := false
  enable_fs_restrictions : Bool := false
  enable_profile_fs_restrictions : Bool := false
  enable_default_runtime : Bool := false
  enable_new_sessions : Bool := false
  deriving DecidableEq, Repr

/-- `struct minijail_rlimit`, libminijail.c:83-87. -/
structure Rlimit where
  type : BitVec 32
  cur : BitVec 64
  max : BitVec 64
  deriving DecidableEq, Repr

/-- `struct mountpoint`, libminijail.c:89-97; `has_data` is set exactly with `data` (libminijail.c:1199-1204). -/
structure Mountpoint where
  src : BStr
  dest : BStr
  type : BStr
  data : Option BStr
  flags : BitVec 64
  deriving DecidableEq, Repr

/-- `struct minijail_remount`, libminijail.c:99-103. -/
structure Remount where
  remount_mode : BitVec 64
  mount_name : BStr
  deriving DecidableEq, Repr

/-- `struct hook`, libminijail.c:105-110: function and payload are only names here, the event is its number. -/
structure Hook where
  hook : Nat
  payload : Nat
  event : Nat
  deriving DecidableEq, Repr

/-- `struct fs_rule`, libminijail.c:112-116. -/
structure FsRule where
  path : BStr
  landlock_flags : BitVec 64
  deriving DecidableEq, Repr

/-- `struct preserved_fd`, libminijail.c:118-121. -/
structure PreservedFd where
  parent_fd : BitVec 32
  child_fd : BitVec 32
  deriving DecidableEq, Repr

/-- `MAX_CGROUPS`, libminijail.c:57. -/
def MAX_CGROUPS : Nat := 10
/-- `MAX_RLIMITS`, libminijail.c:59. -/
def MAX_RLIMITS : Nat := 32
/-- `MAX_PRESERVED_FDS`, libminijail.c:61. -/
def MAX_PRESERVED_FDS : Nat := 128

/-- `struct minijail`, libminijail.c:127-229. Linked lists are lists, NULL strings are `none`, `size_t` counters are
natural numbers (assumed below 2^64). The arrays `rlimits` and `preserved_fds` are lists of all their 32 and 128
slots, as in C; of `cgroups` only the used slots are kept. -/
structure Jail where
  flags : Flags := {}
  uid : BitVec 32 := 0#32
  gid : BitVec 32 := 0#32
  usergid : BitVec 32 := 0#32
  user : Option BStr := none
  suppl_gid_count : Nat := 0
  suppl_gid_list : Option (List (BitVec 32)) := none
  caps : BitVec 64 := 0#64
  cap_bset : BitVec 64 := 0#64
  initpid : BitVec 32 := 0#32
  mountns_fd : BitVec 32 := 0#32
  netns_fd : BitVec 32 := 0#32
  fs_rules_fd : BitVec 32 := 0#32
  fs_rules_landlock_abi : BitVec 32 := 0#32
  chrootdir : Option BStr := none
  pid_file_path : Option BStr := none
  uidmap : Option BStr := none
  gidmap : Option BStr := none
  hostname : Option BStr := none
  preload_path : Option BStr := none
  filename : Option BStr := none
  filter_len : Nat := 0
  filter_prog : Option (List Insn) := none
  alt_syscall_table : Option BStr := none
  mounts : List Mountpoint := []
  mounts_count : Nat := 0
  remount_mode : BitVec 64 := 0#64
  remounts : List Remount := []
  tmpfs_size : BitVec 64 := 0#64
  fs_rules : List FsRule := []
  fs_rules_count : Nat := 0
  cgroups : List BStr := []
  cgroup_count : Nat := 0
  rlimits : List Rlimit := List.replicate MAX_RLIMITS ⟨0#32, 0#64, 0#64⟩
  rlimit_count : Nat := 0
  securebits_skip_mask : BitVec 64 := 0#64
  hooks : List Hook := []
  preserved_fds : List PreservedFd := List.replicate MAX_PRESERVED_FDS ⟨0#32, 0#32⟩
  preserved_fd_count : Nat := 0
  seccomp_policy_path : Option BStr := none
  deriving DecidableEq, Repr

/-- `MS_PRIVATE` (sys/mount.h), used in libminijail.c:487. -/
def MS_PRIVATE : BitVec 64 := 0x40000#64

/-- `minijail_new`, libminijail.c:483-497 (the allocation is assumed to succeed). -/
def minijailNew : Jail :=
  { remount_mode := MS_PRIVATE
    fs_rules_fd := -1#32
    fs_rules_landlock_abi := -1#32
    flags := { using_minimalistic_mountns := false
               enable_fs_restrictions := true
               enable_profile_fs_restrictions := true
               enable_default_runtime := true
               enable_new_sessions := true } }

/-- `MS_NOSUID`, `MS_NODEV`, `MS_NOEXEC` (sys/mount.h), libminijail.c:1208. -/
def MS_NOSUID : BitVec 64 := 2#64
/-- `MS_NODEV` (sys/mount.h), libminijail.c:1208. -/
def MS_NODEV : BitVec 64 := 4#64
/-- `MS_NOEXEC` (sys/mount.h), libminijail.c:1208. -/
def MS_NOEXEC : BitVec 64 := 8#64

/-- `minijail_namespace_vfs`, libminijail.c:782-785. -/
def namespaceVfs (j : Jail) : Jail := { j with flags := { j.flags with vfs := true } }

/-- The data recorded for a mount, libminijail.c:1184-1204. -/
def mountData (type : BStr) (data : Option BStr) : Option BStr :=
  if (data = none ∨ data = some []) ∧ type = bstr "tmpfs" then some (bstr "mode=0755,size=10M") else data

/-- `minijail_mount_with_data`, libminijail.c:1161-1231. `none` is -EINVAL (ENOMEM is not modelled). -/
def mountWithData (j : Jail) (src dest type : BStr) (flags : BitVec 64) (data : Option BStr) : Option Jail :=
  if dest.head? ≠ some 0x2f#8 then none
  else
    let data := mountData type data
    let flags := if flags = 0#64 then MS_NODEV ||| MS_NOEXEC ||| MS_NOSUID else flags
    let j := if !j.flags.enter_vfs then namespaceVfs j else j
    some { j with mounts := j.mounts ++ [⟨src, dest, type, data, flags⟩], mounts_count := j.mounts_count + 1 }

/-- What the kernel answers to `landlock_create_ruleset` (libminijail.c:340, 361): the version query, and the file
descriptor of a new ruleset or -1. -/
structure LandlockKernel where
  abi : BitVec 32
  ruleset : BitVec 32
  deriving DecidableEq, Repr

/-- `LANDLOCK_ABI_FS_REFER_SUPPORTED`, landlock_util.h. -/
def LANDLOCK_ABI_FS_REFER_SUPPORTED : Int := 2

/-- `fs_refer_restriction_supported`, libminijail.c:337-353. -/
def fsReferSupported (k : LandlockKernel) (j : Jail) : Bool × Jail :=
  let j := if j.fs_rules_landlock_abi.toInt < 0 ∧ k.abi.toInt > 0 then { j with fs_rules_landlock_abi := k.abi } else j
  (decide (j.fs_rules_landlock_abi.toInt ≥ LANDLOCK_ABI_FS_REFER_SUPPORTED), j)

/-- `setup_fs_rules_fd`, libminijail.c:356-378 (the return value is ignored by all callers; the handled access set is
modelled with the landlock rules). -/
def setupFsRulesFd (k : LandlockKernel) (j : Jail) : Jail :=
  let r := fsReferSupported k j
  { r.2 with fs_rules_fd := k.ruleset }

/-- `add_fs_restriction_path`, libminijail.c:381-414 (ENOMEM is not modelled). -/
def addFsRestrictionPath (k : LandlockKernel) (j : Jail) (path : BStr) (landlock_flags : BitVec 64) : Jail :=
  let j := { j with fs_rules := j.fs_rules ++ [⟨path, landlock_flags⟩] }
  let j := if j.fs_rules_count = 0 then setupFsRulesFd k j else j
  { j with fs_rules_count := j.fs_rules_count + 1 }

end Minijail
