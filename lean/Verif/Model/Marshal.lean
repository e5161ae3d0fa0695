import Verif.Model.Jail
/-! libminijail.c: serialising and deserialising a jail (`minijail_size`, `minijail_marshal`, `minijail_unmarshal`,
`minijail_to_fd`, `minijail_from_fd`, `minijail_copy_jail`), and util.c: `consumebytes`, `consumestr`.

Integers are laid out as on a little-endian LP64 machine (x86-64, arm64). -/
set_option autoImplicit false
namespace Minijail

/-- A byte buffer (`char *serialized` with its `length`, libminijail.c:1696). -/
abbrev Bytes := List (BitVec 8)

/-- The bytes of a 16-bit integer in memory (memcpy of the struct, libminijail.c:1648). -/
def enc16 (x : BitVec 16) : Bytes := [x.extractLsb' 0 8, x.extractLsb' 8 8]

/-- The bytes of a 32-bit integer in memory (memcpy of the struct, libminijail.c:1648). -/
def enc32 (x : BitVec 32) : Bytes :=
  [x.extractLsb' 0 8, x.extractLsb' 8 8, x.extractLsb' 16 8, x.extractLsb' 24 8]

/-- The bytes of a 64-bit integer in memory (memcpy of the struct, libminijail.c:1648). -/
def enc64 (x : BitVec 64) : Bytes :=
  [x.extractLsb' 0 8, x.extractLsb' 8 8, x.extractLsb' 16 8, x.extractLsb' 24 8,
   x.extractLsb' 32 8, x.extractLsb' 40 8, x.extractLsb' 48 8, x.extractLsb' 56 8]

/-- Reading an integer of `8 * l.length` bits from memory (libminijail.c:1705 `memcpy`). -/
def decLE (w : Nat) : Bytes → BitVec w
  | [] => 0#w
  | b :: bs => b.zeroExtend w ||| (decLE w bs <<< 8)

/-- The forty-six flags as the bits of the first six bytes, in declaration order (libminijail.c:134-181). -/
def Flags.bits (f : Flags) : List Bool :=
  [f.uid, f.gid, f.inherit_suppl_gids, f.set_suppl_gids, f.keep_suppl_gids, f.use_caps, f.capbset_drop,
   f.set_ambient_caps, f.vfs, f.enter_vfs, f.pids, f.ipc, f.uts, f.net, f.net_loopback, f.enter_net, f.ns_cgroups,
   f.userns, f.disable_setgroups, f.seccomp, f.remount_proc_ro, f.no_new_privs, f.seccomp_filter,
   f.seccomp_filter_tsync, f.seccomp_filter_logging, f.seccomp_filter_allow_speculation, f.chroot, f.pivot_root,
   f.mount_dev, f.mount_tmp, f.do_init, f.run_as_init, f.pid_file, f.cgroups, f.alt_syscall, f.reset_signal_mask,
   f.reset_signal_handlers, f.close_open_fds, f.new_session_keyring, f.forward_signals, f.setsid,
   f.using_minimalistic_mountns, f.enable_fs_restrictions, f.enable_profile_fs_restrictions,
   f.enable_default_runtime, f.enable_new_sessions]

/-- Bits packed into a word, lowest first: the layout of the bit field (libminijail.c:134-181). -/
def packBits : List Bool → Nat
  | [] => 0
  | b :: bs => b.toNat + 2 * packBits bs

/-- The flag word: 46 bits and 18 bits of padding (libminijail.c:134-181). -/
def Flags.word (f : Flags) : BitVec 64 := BitVec.ofNat 64 (packBits f.bits)

/-- Reading the flags back from the word (libminijail.c:134-181). -/
def Flags.ofWord (w : BitVec 64) : Flags :=
  { uid := w.getLsbD 0, gid := w.getLsbD 1, inherit_suppl_gids := w.getLsbD 2, set_suppl_gids := w.getLsbD 3,
    keep_suppl_gids := w.getLsbD 4, use_caps := w.getLsbD 5, capbset_drop := w.getLsbD 6,
    set_ambient_caps := w.getLsbD 7, vfs := w.getLsbD 8, enter_vfs := w.getLsbD 9, pids := w.getLsbD 10,
    ipc := w.getLsbD 11, uts := w.getLsbD 12, net := w.getLsbD 13, net_loopback := w.getLsbD 14,
    enter_net := w.getLsbD 15, ns_cgroups := w.getLsbD 16, userns := w.getLsbD 17, disable_setgroups := w.getLsbD 18,
    seccomp := w.getLsbD 19, remount_proc_ro := w.getLsbD 20, no_new_privs := w.getLsbD 21,
    seccomp_filter := w.getLsbD 22, seccomp_filter_tsync := w.getLsbD 23, seccomp_filter_logging := w.getLsbD 24,
    seccomp_filter_allow_speculation := w.getLsbD 25, chroot := w.getLsbD 26, pivot_root := w.getLsbD 27,
    mount_dev := w.getLsbD 28, mount_tmp := w.getLsbD 29, do_init := w.getLsbD 30, run_as_init := w.getLsbD 31,
    pid_file := w.getLsbD 32, cgroups := w.getLsbD 33, alt_syscall := w.getLsbD 34, reset_signal_mask := w.getLsbD 35,
    reset_signal_handlers := w.getLsbD 36, close_open_fds := w.getLsbD 37, new_session_keyring := w.getLsbD 38,
    forward_signals := w.getLsbD 39, setsid := w.getLsbD 40, using_minimalistic_mountns := w.getLsbD 41,
    enable_fs_restrictions := w.getLsbD 42, enable_profile_fs_restrictions := w.getLsbD 43,
    enable_default_runtime := w.getLsbD 44, enable_new_sessions := w.getLsbD 45 }

/-- The raw contents of `struct minijail` (libminijail.c:127-229): pointers are addresses. -/
structure Image where
  flags : Flags
  uid : BitVec 32
  gid : BitVec 32
  usergid : BitVec 32
  user : BitVec 64
  suppl_gid_count : BitVec 64
  suppl_gid_list : BitVec 64
  caps : BitVec 64
  cap_bset : BitVec 64
  initpid : BitVec 32
  mountns_fd : BitVec 32
  netns_fd : BitVec 32
  fs_rules_fd : BitVec 32
  fs_rules_landlock_abi : BitVec 32
  chrootdir : BitVec 64
  pid_file_path : BitVec 64
  uidmap : BitVec 64
  gidmap : BitVec 64
  hostname : BitVec 64
  preload_path : BitVec 64
  filename : BitVec 64
  filter_len : BitVec 64
  filter_prog : BitVec 64
  alt_syscall_table : BitVec 64
  mounts_head : BitVec 64
  mounts_tail : BitVec 64
  mounts_count : BitVec 64
  remount_mode : BitVec 64
  remounts_head : BitVec 64
  remounts_tail : BitVec 64
  tmpfs_size : BitVec 64
  fs_rules_head : BitVec 64
  fs_rules_tail : BitVec 64
  fs_rules_count : BitVec 64
  cgroups : List (BitVec 64)
  cgroup_count : BitVec 64
  rlimits : List Rlimit
  rlimit_count : BitVec 64
  securebits_skip_mask : BitVec 64
  hooks_head : BitVec 64
  hooks_tail : BitVec 64
  preserved_fds : List PreservedFd
  preserved_fd_count : BitVec 64
  seccomp_policy_path : BitVec 64

/-- `struct minijail_rlimit` in memory, libminijail.c:83-87, with its padding. -/
def encRlimit (r : Rlimit) : Bytes := enc32 r.type ++ (enc32 0#32 ++ (enc64 r.cur ++ enc64 r.max))

/-- `struct preserved_fd` in memory, libminijail.c:118-121. -/
def encPreservedFd (p : PreservedFd) : Bytes := enc32 p.parent_fd ++ enc32 p.child_fd

/-- `struct minijail` in memory, libminijail.c:127-229, field by field with padding (zero from `calloc`). -/
def encImage (i : Image) : Bytes :=
  enc64 i.flags.word ++ enc32 i.uid ++ enc32 i.gid ++ enc32 i.usergid ++ enc32 0#32 ++ enc64 i.user ++
  enc64 i.suppl_gid_count ++ enc64 i.suppl_gid_list ++ enc64 i.caps ++ enc64 i.cap_bset ++ enc32 i.initpid ++
  enc32 i.mountns_fd ++ enc32 i.netns_fd ++ enc32 i.fs_rules_fd ++ enc32 i.fs_rules_landlock_abi ++ enc32 0#32 ++
  enc64 i.chrootdir ++ enc64 i.pid_file_path ++ enc64 i.uidmap ++ enc64 i.gidmap ++ enc64 i.hostname ++
  enc64 i.preload_path ++ enc64 i.filename ++ enc64 i.filter_len ++ enc64 i.filter_prog ++
  enc64 i.alt_syscall_table ++ enc64 i.mounts_head ++ enc64 i.mounts_tail ++ enc64 i.mounts_count ++
  enc64 i.remount_mode ++ enc64 i.remounts_head ++ enc64 i.remounts_tail ++ enc64 i.tmpfs_size ++
  enc64 i.fs_rules_head ++ enc64 i.fs_rules_tail ++ enc64 i.fs_rules_count ++ i.cgroups.flatMap enc64 ++
  enc64 i.cgroup_count ++ i.rlimits.flatMap encRlimit ++ enc64 i.rlimit_count ++ enc64 i.securebits_skip_mask ++
  enc64 i.hooks_head ++ enc64 i.hooks_tail ++ i.preserved_fds.flatMap encPreservedFd ++
  enc64 i.preserved_fd_count ++ enc64 i.seccomp_policy_path

/-- `sizeof(struct minijail)` for this layout (libminijail.c:1648, 1703). -/
def SIZEOF_MINIJAIL : Nat := 2176

/-- `consumebytes`, util.c:512-520: the bytes and the rest of the buffer; `none` is NULL. -/
def consumebytes (length : Nat) (buf : Bytes) : Option (Bytes × Bytes) :=
  if length > buf.length then none else some (buf.take length, buf.drop length)

/-- `strnlen(buf, buflen)` (util.c:524): the number of bytes in front of the first NUL, at most the buffer's length. -/
def strnlen (buf : Bytes) : Nat := (buf.takeWhile (· ≠ 0#8)).length

/-- `consumestr`, util.c:522-529: the string (without NUL) and the rest of the buffer; `none` is NULL. -/
def consumestr (buf : Bytes) : Option (BStr × Bytes) :=
  if strnlen buf = buf.length then none
  else (consumebytes (strnlen buf + 1) buf).map fun r => (r.1.dropLast, r.2)

/-- A reader of consecutive fields of the copied struct (libminijail.c:1705). -/
abbrev Rd (α : Type) : Type := Bytes → Option (α × Bytes)

/-- Reading the field fields one after the other (libminijail.c:1705). -/
def Rd.bind {α β : Type} (x : Rd α) (f : α → Rd β) : Rd β := fun b =>
  match x b with
  | none => none
  | some (a, b') => f a b'

/-- Reading an integer field of `n` bytes (libminijail.c:1705). -/
def rdInt (n w : Nat) : Rd (BitVec w) := fun b => (consumebytes n b).map fun r => (decLE w r.1, r.2)

/-- Reading an array of `n` elements (libminijail.c:1705). -/
def rdArray {α : Type} (x : Rd α) : Nat → Rd (List α)
  | 0 => fun b => some ([], b)
  | n + 1 => Rd.bind x fun a => Rd.bind (rdArray x n) fun as => fun b => some (a :: as, b)

/-- Reading a `struct minijail_rlimit`, libminijail.c:83-87. -/
def rdRlimit : Rd Rlimit :=
  Rd.bind (rdInt 4 32) fun t => Rd.bind (rdInt 4 32) fun _ => Rd.bind (rdInt 8 64) fun c =>
  Rd.bind (rdInt 8 64) fun m => fun b => some (⟨t, c, m⟩, b)

/-- Reading a `struct preserved_fd`, libminijail.c:118-121. -/
def rdPreservedFd : Rd PreservedFd :=
  Rd.bind (rdInt 4 32) fun p => Rd.bind (rdInt 4 32) fun c => fun b => some (⟨p, c⟩, b)

/-- `memcpy((void *)j, serialized, sizeof(*j))`, libminijail.c:1703-1707; `none` when the buffer is too short. -/
def rdImage : Rd Image :=
  Rd.bind (rdInt 8 64) fun flags => Rd.bind (rdInt 4 32) fun uid => Rd.bind (rdInt 4 32) fun gid =>
  Rd.bind (rdInt 4 32) fun usergid => Rd.bind (rdInt 4 32) fun _ => Rd.bind (rdInt 8 64) fun user =>
  Rd.bind (rdInt 8 64) fun suppl_gid_count => Rd.bind (rdInt 8 64) fun suppl_gid_list =>
  Rd.bind (rdInt 8 64) fun caps => Rd.bind (rdInt 8 64) fun cap_bset => Rd.bind (rdInt 4 32) fun initpid =>
  Rd.bind (rdInt 4 32) fun mountns_fd => Rd.bind (rdInt 4 32) fun netns_fd => Rd.bind (rdInt 4 32) fun fs_rules_fd =>
  Rd.bind (rdInt 4 32) fun fs_rules_landlock_abi => Rd.bind (rdInt 4 32) fun _ => Rd.bind (rdInt 8 64) fun chrootdir =>
  Rd.bind (rdInt 8 64) fun pid_file_path => Rd.bind (rdInt 8 64) fun uidmap => Rd.bind (rdInt 8 64) fun gidmap =>
  Rd.bind (rdInt 8 64) fun hostname => Rd.bind (rdInt 8 64) fun preload_path => Rd.bind (rdInt 8 64) fun filename =>
  Rd.bind (rdInt 8 64) fun filter_len => Rd.bind (rdInt 8 64) fun filter_prog =>
  Rd.bind (rdInt 8 64) fun alt_syscall_table => Rd.bind (rdInt 8 64) fun mounts_head =>
  Rd.bind (rdInt 8 64) fun mounts_tail => Rd.bind (rdInt 8 64) fun mounts_count =>
  Rd.bind (rdInt 8 64) fun remount_mode => Rd.bind (rdInt 8 64) fun remounts_head =>
  Rd.bind (rdInt 8 64) fun remounts_tail => Rd.bind (rdInt 8 64) fun tmpfs_size =>
  Rd.bind (rdInt 8 64) fun fs_rules_head => Rd.bind (rdInt 8 64) fun fs_rules_tail =>
  Rd.bind (rdInt 8 64) fun fs_rules_count => Rd.bind (rdArray (rdInt 8 64) MAX_CGROUPS) fun cgroups =>
  Rd.bind (rdInt 8 64) fun cgroup_count => Rd.bind (rdArray rdRlimit MAX_RLIMITS) fun rlimits =>
  Rd.bind (rdInt 8 64) fun rlimit_count => Rd.bind (rdInt 8 64) fun securebits_skip_mask =>
  Rd.bind (rdInt 8 64) fun hooks_head => Rd.bind (rdInt 8 64) fun hooks_tail =>
  Rd.bind (rdArray rdPreservedFd MAX_PRESERVED_FDS) fun preserved_fds =>
  Rd.bind (rdInt 8 64) fun preserved_fd_count => Rd.bind (rdInt 8 64) fun seccomp_policy_path => fun b =>
  some ({ flags := Flags.ofWord flags, uid, gid, usergid, user, suppl_gid_count, suppl_gid_list, caps, cap_bset,
          initpid, mountns_fd, netns_fd, fs_rules_fd, fs_rules_landlock_abi, chrootdir, pid_file_path, uidmap, gidmap,
          hostname, preload_path, filename, filter_len, filter_prog, alt_syscall_table, mounts_head, mounts_tail,
          mounts_count, remount_mode, remounts_head, remounts_tail, tmpfs_size, fs_rules_head, fs_rules_tail,
          fs_rules_count, cgroups, cgroup_count, rlimits, rlimit_count, securebits_skip_mask, hooks_head, hooks_tail,
          preserved_fds, preserved_fd_count, seccomp_policy_path }, b)

/-- Where the allocations of a jail lie (the addresses that end up in the copied struct, libminijail.c:1648): the
address held by the `n`-th pointer field when it is not NULL. -/
abbrev Addrs := Nat → BitVec 64

/-- A pointer field (libminijail.c:127-229): NULL or the address. -/
def ptr (present : Bool) (a : BitVec 64) : BitVec 64 := if present then a else 0#64

/-- The raw struct of a jail (libminijail.c:1648), given the addresses of its allocations. -/
def Jail.image (a : Addrs) (j : Jail) : Image :=
  { flags := j.flags, uid := j.uid, gid := j.gid, usergid := j.usergid, user := ptr j.user.isSome (a 0),
    suppl_gid_count := BitVec.ofNat 64 j.suppl_gid_count, suppl_gid_list := ptr j.suppl_gid_list.isSome (a 1),
    caps := j.caps, cap_bset := j.cap_bset, initpid := j.initpid, mountns_fd := j.mountns_fd, netns_fd := j.netns_fd,
    fs_rules_fd := j.fs_rules_fd, fs_rules_landlock_abi := j.fs_rules_landlock_abi,
    chrootdir := ptr j.chrootdir.isSome (a 2), pid_file_path := ptr j.pid_file_path.isSome (a 3),
    uidmap := ptr j.uidmap.isSome (a 4), gidmap := ptr j.gidmap.isSome (a 5), hostname := ptr j.hostname.isSome (a 6),
    preload_path := ptr j.preload_path.isSome (a 7), filename := ptr j.filename.isSome (a 8),
    filter_len := BitVec.ofNat 64 j.filter_len, filter_prog := ptr j.filter_prog.isSome (a 9),
    alt_syscall_table := ptr j.alt_syscall_table.isSome (a 10), mounts_head := ptr (!j.mounts.isEmpty) (a 11),
    mounts_tail := ptr (!j.mounts.isEmpty) (a 12), mounts_count := BitVec.ofNat 64 j.mounts_count,
    remount_mode := j.remount_mode, remounts_head := ptr (!j.remounts.isEmpty) (a 13),
    remounts_tail := ptr (!j.remounts.isEmpty) (a 14), tmpfs_size := j.tmpfs_size,
    fs_rules_head := ptr (!j.fs_rules.isEmpty) (a 15), fs_rules_tail := ptr (!j.fs_rules.isEmpty) (a 16),
    fs_rules_count := BitVec.ofNat 64 j.fs_rules_count,
    cgroups := (List.range MAX_CGROUPS).map fun i => ptr (i < j.cgroups.length) (a (20 + i)),
    cgroup_count := BitVec.ofNat 64 j.cgroup_count, rlimits := j.rlimits,
    rlimit_count := BitVec.ofNat 64 j.rlimit_count, securebits_skip_mask := j.securebits_skip_mask,
    hooks_head := ptr (!j.hooks.isEmpty) (a 17), hooks_tail := ptr (!j.hooks.isEmpty) (a 18),
    preserved_fds := j.preserved_fds, preserved_fd_count := BitVec.ofNat 64 j.preserved_fd_count,
    seccomp_policy_path := ptr j.seccomp_policy_path.isSome (a 19) }

/-- `struct marshal_state`, libminijail.c:1587-1591; `buf` is what has been written so far. -/
structure MarshalState where
  available : Nat
  total : Nat
  buf : Bytes
  deriving DecidableEq, Repr

/-- `marshal_append`, libminijail.c:1601-1614. -/
def marshalAppend (state : MarshalState) (src : Bytes) : MarshalState :=
  let copyLen := min state.available src.length
  { available := state.available - copyLen
    total := state.total + src.length
    buf := state.buf ++ src.take copyLen }

/-- A string with its terminating NUL (libminijail.c:1618 `strlen(src) + 1`). -/
def cstring (s : BStr) : Bytes := s ++ [0#8]

/-- `struct sock_filter` in memory (linux/filter.h), libminijail.c:1664-1666. -/
def encInsn (i : Insn) : Bytes := enc16 i.code ++ ([i.jt, i.jf] ++ enc32 i.k)

/-- `marshal_mount`, libminijail.c:1621-1631: the pieces appended. -/
def marshalMount (m : Mountpoint) : List Bytes :=
  [cstring m.src, cstring m.dest, cstring m.type, enc32 (if m.data.isSome then 1#32 else 0#32)] ++
    (match m.data with | some d => [cstring d] | none => []) ++ [enc64 m.flags]

/-- `marshal_fs_rule`, libminijail.c:1633-1639: the pieces appended. -/
def marshalFsRule (r : FsRule) : List Bytes := [cstring r.path, enc64 r.landlock_flags]

/-- An optional string field, e.g. libminijail.c:1649-1650. -/
def marshalOpt : Option BStr → List Bytes
  | some s => [cstring s]
  | none => []

/-- The supplementary group list, libminijail.c:1651-1654. -/
def marshalGids : Option (List (BitVec 32)) → List Bytes
  | some l => [l.flatMap enc32]
  | none => []

/-- The filter program, libminijail.c:1663-1667. -/
def marshalFilter (seccompFilter : Bool) : Option (List Insn) → List Bytes
  | some p => if seccompFilter then [p.flatMap encInsn] else []
  | none => []

/-- The pieces that `minijail_marshal_helper`, libminijail.c:1641-1678, appends, in order. -/
def marshalPieces (a : Addrs) (j : Jail) : List Bytes :=
  [encImage (j.image a)] ++ marshalOpt j.user ++
  marshalGids j.suppl_gid_list ++
  marshalOpt j.chrootdir ++ marshalOpt j.hostname ++ marshalOpt j.alt_syscall_table ++
  marshalFilter j.flags.seccomp_filter j.filter_prog ++
  j.mounts.flatMap marshalMount ++ j.cgroups.map cstring ++ j.fs_rules.flatMap marshalFsRule ++
  [enc32 j.fs_rules_fd] ++ marshalOpt j.seccomp_policy_path

/-- `minijail_marshal_helper`, libminijail.c:1641-1678. -/
def marshalHelper (a : Addrs) (j : Jail) (state : MarshalState) : MarshalState :=
  (marshalPieces a j).foldl marshalAppend state

/-- `minijail_size`, libminijail.c:1680-1686. -/
def minijailSize (a : Addrs) (j : Jail) : Nat := (marshalHelper a j ⟨0, 0, []⟩).total

/-- `minijail_marshal`, libminijail.c:1688-1694, into a buffer of `available` bytes: the return value (non-zero means
that the buffer is too small) and the bytes written. -/
def minijailMarshal (a : Addrs) (j : Jail) (available : Nat) : Bool × Bytes :=
  let s := marshalHelper a j ⟨available, 0, []⟩
  (decide (s.total > available), s.buf)

/-- What a pointer field of the jail refers to during `minijail_unmarshal`: nothing, an address of the sending process
(libminijail.c:1725 "stale pointer"), a heap object that the jail owns, or a heap object that was freed. For a list:
the heap objects of the list. -/
inductive Ptr where
  | null
  | stale
  | live
  | freed
  deriving DecidableEq, Repr

/-- The pointer fields that `minijail_unmarshal` fills and frees (libminijail.c:1725-1924), `filter` being both
`filter_prog` and its instructions. -/
structure Ptrs where
  user : Ptr
  gids : Ptr
  chrootdir : Ptr
  hostname : Ptr
  alt : Ptr
  filter : Ptr
  mounts : Ptr
  cgroups : Ptr
  fsRules : Ptr
  policy : Ptr
  deriving DecidableEq, Repr

/-- The labels of `minijail_unmarshal`, libminijail.c:1881-1924. `bad_filter_prog_instrs` is reached by jumps only when
an allocation fails. -/
inductive Label where
  | bad_cgroups
  | bad_fs_rules
  | bad_mounts
  | bad_filters
  | bad_syscall_table
  | bad_hostname
  | bad_chrootdir
  | bad_gid_list
  | clear_pointers
  | out
  deriving DecidableEq, Repr

/-- A `goto` on error: the label and the pointer fields at that moment. -/
structure Failure where
  label : Label
  ptrs : Ptrs
  deriving DecidableEq, Repr

/-- The outcome of (a step of) `minijail_unmarshal`: success, a `goto` to a cleanup label, or undefined behaviour (NULL
passed to `memcpy`, or a write past `cgroups`). -/
inductive Unm (α : Type) where
  | ok (a : α)
  | err (f : Failure)
  | ub
  deriving DecidableEq, Repr

/-- Sequencing of the steps of `minijail_unmarshal` (`goto` on error, e.g. libminijail.c:1728). -/
def Unm.bind {α β : Type} (x : Unm α) (f : α → Unm β) : Unm β :=
  match x with
  | .ok a => f a
  | .err d => .err d
  | .ub => .ub

/-- A step that fails by `goto` to a cleanup label (libminijail.c:1881-1924). -/
def Unm.ofOption {α : Type} (f : Failure) : Option α → Unm α
  | some a => .ok a
  | none => .err f

/-- `NGROUPS_MAX` (linux/limits.h), libminijail.c:1735. -/
def NGROUPS_MAX : Nat := 65536
/-- `USHRT_MAX`, libminijail.c:1781 and 3031. -/
def USHRT_MAX : Nat := 65535

/-- An optional string whose presence is signalled by a stale pointer, e.g. libminijail.c:1725-1732. -/
def unmarshalOpt (pointer : BitVec 64) : Rd (Option BStr) := fun b =>
  if pointer ≠ 0#64 then (consumestr b).map fun r => (some r.1, r.2) else some (none, b)

/-- The supplementary group list, libminijail.c:1734-1749. -/
def unmarshalGids (pointer count : BitVec 64) : Rd (Option (List (BitVec 32))) := fun b =>
  if pointer ≠ 0#64 then
    if count.toNat > NGROUPS_MAX then none
    else match rdArray (rdInt 4 32) count.toNat b with
      | none => none
      | some (l, b) => some (some l, b)
  else some (none, b)

/-- One instruction, libminijail.c:1785, 1798. -/
def rdInsn : Rd Insn :=
  Rd.bind (rdInt 2 16) fun code => Rd.bind (rdInt 1 8) fun jt => Rd.bind (rdInt 1 8) fun jf =>
  Rd.bind (rdInt 4 32) fun k => fun b => some (⟨code, jt, jf, k⟩, b)

/-- The filter program, libminijail.c:1778-1799. -/
def unmarshalFilter (seccompFilter : Bool) (filterLen : BitVec 64) : Rd (Option (List Insn)) := fun b =>
  if seccompFilter ∧ filterLen.toNat > 0 then
    if filterLen.toNat > USHRT_MAX then none
    else match rdArray rdInsn filterLen.toNat b with
      | none => none
      | some (l, b) => some (some l, b)
  else some (none, b)

/-- One iteration of the loop over mounts, libminijail.c:1803-1832. -/
def unmarshalMount (j : Jail) : Rd Jail :=
  Rd.bind consumestr fun src => Rd.bind consumestr fun dest => Rd.bind consumestr fun type =>
  Rd.bind (rdInt 4 32) fun hasData =>
  Rd.bind (fun b => if hasData ≠ 0#32 then (consumestr b).map fun r => (some r.1, r.2) else some (none, b)) fun data =>
  Rd.bind (rdInt 8 64) fun flags => fun b =>
  (mountWithData j src dest type flags data).map fun j => (j, b)

/-- The loop over mounts, libminijail.c:1801-1832. -/
def unmarshalMounts : Nat → Jail → Rd Jail
  | 0, j => fun b => some (j, b)
  | n + 1, j => Rd.bind (unmarshalMount j) fun j => unmarshalMounts n j

/-- The loop over cgroups, libminijail.c:1834-1844: `j->cgroups[i]` for `i ≥ MAX_CGROUPS` is outside the array. -/
def unmarshalCgroups (p : Ptrs) : Nat → Jail → Bytes → Unm (Jail × Bytes)
  | 0, j, b => .ok (j, b)
  | n + 1, j, b =>
    match consumestr b with
    | none => .err ⟨.bad_cgroups, p⟩
    | some (s, b) =>
      if j.cgroup_count ≥ MAX_CGROUPS then .ub
      else unmarshalCgroups p n { j with cgroups := j.cgroups ++ [s], cgroup_count := j.cgroup_count + 1 } b

/-- The loop over path rules, libminijail.c:1847-1863: the result of `consumebytes` is passed to `memcpy` without a
test for NULL. -/
def unmarshalFsRules (k : LandlockKernel) (p : Ptrs) : Nat → Jail → Bytes → Unm (Jail × Bytes)
  | 0, j, b => .ok (j, b)
  | n + 1, j, b =>
    match consumestr b with
    | none => .err ⟨.bad_fs_rules, p⟩
    | some (path, b) =>
      match rdInt 8 64 b with
      | none => .ub
      | some (landlockFlags, b) =>
        if landlockFlags = 0#64 then .err ⟨.bad_fs_rules, p⟩
        else unmarshalFsRules k p n (addFsRestrictionPath k j path landlockFlags) b

/-- The ruleset descriptor and the policy path, libminijail.c:1864-1878: the result of `consumebytes` is passed to
`memcpy` without a test for NULL. -/
def unmarshalTail (p : Ptrs) (policyPath : BitVec 64) (j : Jail) (b : Bytes) : Unm (Jail × Bytes) :=
  match rdInt 4 32 b with
  | none => .ub
  | some (fd, b) =>
    if fd = 0#32 then .err ⟨.bad_cgroups, p⟩
    else Unm.bind (Unm.ofOption ⟨.bad_cgroups, p⟩ (unmarshalOpt policyPath b)) fun r =>
      .ok ({ j with fs_rules_fd := fd, seccomp_policy_path := r.1 }, r.2)

/-- The jail after the copy of the struct and the resetting of stale pointers, libminijail.c:1705-1723; the fields
that the later steps fill are left empty. -/
def Image.toJail (i : Image) : Jail :=
  { flags := i.flags, uid := i.uid, gid := i.gid, usergid := i.usergid,
    suppl_gid_count := i.suppl_gid_count.toNat, caps := i.caps, cap_bset := i.cap_bset, initpid := i.initpid,
    mountns_fd := i.mountns_fd, netns_fd := i.netns_fd, fs_rules_fd := i.fs_rules_fd,
    fs_rules_landlock_abi := i.fs_rules_landlock_abi, filter_len := i.filter_len.toNat,
    remount_mode := i.remount_mode, tmpfs_size := i.tmpfs_size, rlimits := i.rlimits,
    rlimit_count := i.rlimit_count.toNat, securebits_skip_mask := i.securebits_skip_mask,
    preserved_fds := i.preserved_fds, preserved_fd_count := i.preserved_fd_count.toNat }

/-- The pointer fields of the fresh jail that the caller passes (libminijail.c:483-497, 2999, 4061). -/
def freshPtrs : Ptrs := ⟨.null, .null, .null, .null, .null, .null, .null, .null, .null, .null⟩

/-- A pointer copied from the sender, libminijail.c:1725 and others. -/
def sent (p : BitVec 64) : Ptr := if p = 0#64 then .null else .stale

/-- A pointer after its object was received, libminijail.c:1729 and others. -/
def got {α : Type} (o : Option α) : Ptr := if o.isSome then .live else .null

/-- The pointer fields after libminijail.c:1723. The cgroup array still holds the sender's pointers. -/
def Image.ptrs (i : Image) : Ptrs :=
  { user := sent i.user, gids := sent i.suppl_gid_list, chrootdir := sent i.chrootdir, hostname := sent i.hostname,
    alt := sent i.alt_syscall_table, filter := .null, mounts := .null, cgroups := .stale, fsRules := .null,
    policy := sent i.seccomp_policy_path }

/-- `minijail_unmarshal`, libminijail.c:1696-1927. Allocation failures are not modelled, nor is the alignment of the
buffer (libminijail.c:1822, 1830 read integers through possibly misaligned pointers). The second component is the
part of the buffer that was not consumed. -/
def unmarshalBuffer (k : LandlockKernel) (b : Bytes) : Unm (Jail × Bytes) :=
  Unm.bind (Unm.ofOption ⟨.out, freshPtrs⟩ (rdImage b)) fun (i, b) =>
  let p := i.ptrs
  Unm.bind (Unm.ofOption ⟨.clear_pointers, p⟩ (unmarshalOpt i.user b)) fun (user, b) =>
  let p := { p with user := got user }
  Unm.bind (Unm.ofOption ⟨.bad_gid_list, p⟩ (unmarshalGids i.suppl_gid_list i.suppl_gid_count b)) fun (gids, b) =>
  let p := { p with gids := got gids }
  Unm.bind (Unm.ofOption ⟨.bad_chrootdir, p⟩ (unmarshalOpt i.chrootdir b)) fun (chrootdir, b) =>
  let p := { p with chrootdir := got chrootdir }
  Unm.bind (Unm.ofOption ⟨.bad_hostname, p⟩ (unmarshalOpt i.hostname b)) fun (hostname, b) =>
  let p := { p with hostname := got hostname }
  Unm.bind (Unm.ofOption ⟨.bad_syscall_table, p⟩ (unmarshalOpt i.alt_syscall_table b)) fun (alt, b) =>
  let p := { p with alt := got alt }
  Unm.bind (Unm.ofOption ⟨.bad_filters, p⟩ (unmarshalFilter i.flags.seccomp_filter i.filter_len b)) fun (filter, b) =>
  let p := { p with filter := got filter }
  let j := { i.toJail with
    user := user, suppl_gid_list := gids, chrootdir := chrootdir, hostname := hostname, alt_syscall_table := alt,
    filter_prog := filter }
  let p := { p with mounts := .live }
  Unm.bind (Unm.ofOption ⟨.bad_mounts, p⟩ (unmarshalMounts i.mounts_count.toNat j b)) fun (j, b) =>
  let p := { p with cgroups := .live }
  Unm.bind (unmarshalCgroups p i.cgroup_count.toNat j b) fun (j, b) =>
  let p := { p with fsRules := .live }
  Unm.bind (unmarshalFsRules k p i.fs_rules_count.toNat j b) fun (j, b) =>
  unmarshalTail p i.seccomp_policy_path j b

/-- `minijail_unmarshal`, libminijail.c:1696-1927: bytes after the last field are ignored. -/
def minijailUnmarshal (k : LandlockKernel) (b : Bytes) : Unm Jail :=
  Unm.bind (unmarshalBuffer k b) fun r => .ok r.1

/-- `minijail_copy_jail`, libminijail.c:3065-3080 (the jail that is written is fresh). -/
def copyJail (a : Addrs) (k : LandlockKernel) (j : Jail) : Unm Jail :=
  let sz := minijailSize a j
  if sz = 0 then .err ⟨.out, freshPtrs⟩
  else
    let r := minijailMarshal a j sz
    if r.1 then .err ⟨.out, freshPtrs⟩ else minijailUnmarshal k r.2

end Minijail
