import Verif.Model.Jail
/-! What a jail configuration built through the API looks like, and what the receiver of a serialised jail gets. -/
set_option autoImplicit false
namespace Minijail.Spec

/-- A C string: no NUL inside. -/
def CString (s : BStr) : Prop := 0#8 ∉ s

instance (s : BStr) : Decidable (CString s) := inferInstanceAs (Decidable (0#8 ∉ s))

/-- An optional C string. -/
def OptCString (s : Option BStr) : Prop := ∀ t ∈ s, CString t

instance (s : Option BStr) : Decidable (OptCString s) := inferInstanceAs (Decidable (∀ t ∈ s, CString t))

/-- A mount as the API records it: absolute destination, non-zero flags, never a tmpfs without data. -/
structure GoodMount (m : Mountpoint) : Prop where
  src : CString m.src
  dest : CString m.dest
  type : CString m.type
  data : OptCString m.data
  absolute : m.dest.head? = some 0x2f#8
  flags : m.flags ≠ 0#64
  tmpfs : m.type = bstr "tmpfs" → m.data ≠ none ∧ m.data ≠ some []

instance (m : Mountpoint) : Decidable (GoodMount m) :=
  decidable_of_iff (CString m.src ∧ CString m.dest ∧ CString m.type ∧ OptCString m.data ∧ m.dest.head? = some 0x2f#8 ∧
      m.flags ≠ 0#64 ∧ (m.type = bstr "tmpfs" → m.data ≠ none ∧ m.data ≠ some []))
    ⟨fun ⟨a, b, c, d, e, f, g⟩ => ⟨a, b, c, d, e, f, g⟩, fun ⟨a, b, c, d, e, f, g⟩ => ⟨a, b, c, d, e, f, g⟩⟩

/-- A jail as the API calls leave it: lists agree with their counters, fixed arrays have their sizes, strings are C
strings, counters are machine words, mounts are recorded with their defaults and need a mount namespace. -/
structure GoodJail (j : Jail) : Prop where
  strings : OptCString j.user ∧ OptCString j.chrootdir ∧ OptCString j.hostname ∧ OptCString j.alt_syscall_table ∧
    OptCString j.seccomp_policy_path
  gids : j.suppl_gid_count = (j.suppl_gid_list.getD []).length ∧ j.suppl_gid_list ≠ some []
  filter : j.filter_len = (j.filter_prog.getD []).length ∧ j.filter_len ≤ 65535
  mounts : ∀ m ∈ j.mounts, GoodMount m
  mountsCount : j.mounts_count = j.mounts.length
  mountsNs : j.mounts ≠ [] → j.flags.vfs = true ∨ j.flags.enter_vfs = true
  cgroups : ∀ c ∈ j.cgroups, CString c
  cgroupCount : j.cgroup_count = j.cgroups.length
  cgroupMax : j.cgroup_count ≤ 10
  fsRules : ∀ r ∈ j.fs_rules, CString r.path
  fsRulesCount : j.fs_rules_count = j.fs_rules.length
  rlimits : j.rlimits.length = 32
  rlimitCount : j.rlimit_count ≤ 32
  preserved : j.preserved_fds.length = 128
  preservedCount : j.preserved_fd_count ≤ 128
  words : j.suppl_gid_count < 2 ^ 64 ∧ j.mounts_count < 2 ^ 64 ∧ j.fs_rules_count < 2 ^ 64

/-- The conditions of a successful transfer that the API does not guarantee: every path rule grants something, the
ruleset descriptor is not 0, and there are at most 65536 supplementary groups. -/
structure Transferable (j : Jail) : Prop where
  rights : ∀ r ∈ j.fs_rules, r.landlock_flags ≠ 0#64
  rulesFd : j.fs_rules_fd ≠ 0#32
  groups : j.suppl_gid_count ≤ 65536

/-- The jail at the receiver: everything except the remount list, the hooks, the id maps, the pid file, the preload
path and the program name, which are not sent, and a filter that is not in use. The landlock version is looked up
again when it was unknown. -/
def received (k : LandlockKernel) (j : Jail) : Jail :=
  { j with
    remounts := [], hooks := [], uidmap := none, gidmap := none, pid_file_path := none, preload_path := none,
    filename := none,
    filter_prog := if j.flags.seccomp_filter ∧ j.filter_len > 0 then j.filter_prog else none
    fs_rules_landlock_abi :=
      if j.fs_rules ≠ [] ∧ j.fs_rules_landlock_abi.toInt < 0 ∧ k.abi.toInt > 0 then k.abi else j.fs_rules_landlock_abi }

end Minijail.Spec
