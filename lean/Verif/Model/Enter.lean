import Verif.Model.Api
/-! `minijail_enter`: the system calls it makes, one after the other, and when it gives up. -/
set_option autoImplicit false
namespace Minijail

/-- The namespaces of `unshare` and `setns`, libminijail.c:2824-2888. -/
inductive Ns where
  | mount | ipc | uts | net | cgroup
  deriving DecidableEq, Repr

/-- What `minijail_enter` asks of the system (libminijail.c:1987-2993). Closing descriptors, logging and freeing memory are left
out. `lastCap` is `get_last_valid_cap`, `setupDest` is `setup_mount_destination`, `mountFlags` is `get_mount_flags`, `validBind`
is `is_valid_bind_path`, `loopback` is `config_net_loopback`; each counts as one request here. -/
inductive Sys where
  | lastCap
  | setns (fd : BitVec 32) (ns : Ns)
  | unshare (ns : Ns)
  | mount (src : Option BStr) (dest : BStr) (type : Option BStr) (flags : BitVec 64) (data : Option BStr)
  | umount (path : BStr)
  | sethostname (name : BStr)
  | loopback
  | keyring
  | mkdtemp (path : BStr)
  | rmdir (path : BStr)
  | openDir (path : Option BStr)
  | mknod (name : BStr) (mode major minor : Nat)
  | symlink (target name : BStr)
  | mkdirat (name : BStr) (mode : Nat)
  | setupDest (src dest : BStr) (uid gid : BitVec 32) (bind : Bool)
  | mountFlags (src : BStr)
  | validBind (src : BStr)
  | hook (hook payload : Nat)
  | chroot (path : Option BStr)
  | chdir (path : Option BStr)
  | fchdirOld
  | fchdirNew
  | pivotRoot
  | dropBound (cap : Nat)
  | getSecurebits
  | setSecurebits (bits : BitVec 64)
  | initgroups (user : Option BStr) (gid : BitVec 32)
  | setgroups (groups : List (BitVec 32))
  | setresgid (gid : BitVec 32)
  | setresuid (uid : BitVec 32)
  | capget
  | capset (eff perm inh : BitVec 64)
  | ambientSupported
  | ambientClear
  | ambientRaise (cap : Nat)
  | noNewPrivs
  | landlockAvailable
  | landlockRule (path : BStr) (rights : BitVec 64)
  | landlockRestrict (fd : BitVec 32)
  | sigsysHandler
  | sigsysDefault
  | seccompFilter (tsync spec : Bool) (prog : Option (List Insn))
  | altSyscall (table : Option BStr)
  | seccompStrict
  deriving DecidableEq, Repr

/-- A request and the answer to it: for calls that only succeed or fail 0 or -errno, else a value. -/
abbrev Ev := Sys × Int

/-- The system answers each request as it likes, knowing everything that happened before (libminijail.c:2801-2993 makes no
other assumption). -/
abbrev Kernel := List Ev → Sys → Int

/-- How a part of `minijail_enter` ends (libminijail.c:2801-2993): with a value, by `die`, or by `_exit`. -/
inductive Out (α : Type) where
  | ok (a : α)
  | die
  | exit (code : Nat)
  deriving DecidableEq, Repr

/-- A program that makes requests: from the kernel and what happened so far to the end and what happened in all
(libminijail.c:2801-2993). -/
def EnterM (α : Type) := Kernel → List Ev → Out α × List Ev

/-- Sequencing of C statements (libminijail.c:2801-2993). -/
instance : Monad EnterM where
  pure a := fun _ h => (.ok a, h)
  bind p f := fun k h =>
    match p k h with
    | (.ok a, h') => f a k h'
    | (.die, h') => (.die, h')
    | (.exit c, h') => (.exit c, h')

/-- One request, e.g. libminijail.c:2825. -/
def sys (c : Sys) : EnterM Int := fun k h => (.ok (k h c), h ++ [(c, k h c)])

/-- `die` and `pdie`, e.g. libminijail.c:2815. -/
def dieNow {α : Type} : EnterM α := fun _ h => (.die, h)

/-- `_exit`, e.g. libminijail.c:2230. -/
def exitNow {α : Type} (code : Nat) : EnterM α := fun _ h => (.exit code, h)

/-- `die` under a condition, e.g. libminijail.c:2825-2826. -/
def dieIf (p : Prop) [Decidable p] : EnterM Unit := if p then dieNow else pure ()

/-- One of two programs, e.g. libminijail.c:2850-2857. -/
def ifM {α : Type} (p : Prop) [Decidable p] (a b : EnterM α) : EnterM α := if p then a else b

/-- A request that must be answered with 0, e.g. libminijail.c:2825-2826. -/
def must (c : Sys) : EnterM Unit := do
  let r ← sys c
  dieIf (r ≠ 0)

/-- A statement under a condition, e.g. libminijail.c:2823. -/
def whenM (b : Bool) (p : EnterM Unit) : EnterM Unit := if b then p else pure ()

/-- A loop over a list, e.g. libminijail.c:2787-2798. -/
def forM' {α : Type} (f : α → EnterM Unit) : List α → EnterM Unit
  | [] => pure ()
  | x :: xs => do
    f x
    forM' f xs

/-- Requests one after the other up to the first that is not answered with 0; its answer (e.g. libminijail.c:2035-2055). -/
def firstFailing : List Sys → EnterM Int
  | [] => pure 0
  | c :: cs => do
    let r ← sys c
    ifM (r ≠ 0) (pure r) (firstFailing cs)

/-- What is fixed when the library is built or run: ASan (util.h:207), tolerated missing seccomp (libminijail.c:2986), logging as the
default action (util.h:227), availability of `SECCOMP_RET_LOG` (libminijail.c:2683), the flag for symbolic links in /tmp (util.h:245),
the name `mkdtemp` makes (libminijail.c:2016), the securebits known to the headers (system.c:94). -/
structure EnterEnv where
  asan : Bool := false
  softfail : Bool := false
  defaultRetLog : Bool := false
  retLogAvailable : Bool := true
  noSymfollow : Bool := false
  devPath : BStr := bstr "/tmp/minijail.dev.AAAAAA"
  secureAllBits : BitVec 64 := 0x555#64

/-- `MS_REMOUNT` (sys/mount.h), libminijail.c:2109. -/
def MS_REMOUNT : BitVec 64 := 32#64
/-- `MS_REC` (sys/mount.h), libminijail.c:2839. -/
def MS_REC : BitVec 64 := 0x4000#64
/-- `MS_MOVE` (sys/mount.h), libminijail.c:2085. -/
def MS_MOVE : BitVec 64 := 0x2000#64
/-- `MS_NOSYMFOLLOW` (sys/mount.h), libminijail.c:2333. -/
def MS_NOSYMFOLLOW : BitVec 64 := 256#64
/-- `MS_USER_SETTABLE_MASK & ~MS_RDONLY`, libminijail.c:70-72, 2166: nosuid, nodev, noexec, noatime, nodiratime, relatime. -/
def KEPT_MOUNT_FLAGS : BitVec 64 := 2#64 ||| 4#64 ||| 8#64 ||| 1024#64 ||| 2048#64 ||| 0x200000#64

/-- `run_hooks_or_die`, libminijail.c:2782-2799. -/
def runHooks (j : Jail) (event : Nat) : EnterM Unit :=
  forM' (fun h => must (.hook h.hook h.payload)) (j.hooks.filter fun h => h.event == event)

/-- `MINIJAIL_HOOK_EVENT_PRE_DROP_CAPS`, libminijail.h:86. -/
def PRE_DROP_CAPS : Nat := 0
/-- `MINIJAIL_HOOK_EVENT_PRE_CHROOT`, libminijail.h:92. -/
def PRE_CHROOT : Nat := 2

/-- `device_nodes`, libminijail.c:1936-1957, as requests (mode includes `S_IFCHR`). -/
def deviceNodes : List Sys :=
  [.mknod (bstr "null") 0o20666 1 3, .mknod (bstr "zero") 0o20666 1 5, .mknod (bstr "full") 0o20666 1 7,
   .mknod (bstr "urandom") 0o20444 1 9, .mknod (bstr "tty") 0o20666 5 0]

/-- `device_symlinks`, libminijail.c:1964-1985, as requests. -/
def deviceSymlinks : List Sys :=
  [.symlink (bstr "pts/ptmx") (bstr "ptmx"), .symlink (bstr "/proc/self/fd") (bstr "fd"), .symlink (bstr "fd/0") (bstr "stdin"),
   .symlink (bstr "fd/1") (bstr "stdout"), .symlink (bstr "fd/2") (bstr "stderr")]

/-- `mount_dev_cleanup`, libminijail.c:1991-1996. -/
def mountDevCleanup (env : EnterEnv) : EnterM Unit := do
  let _ ← sys (.umount env.devPath)
  let _ ← sys (.rmdir env.devPath)
  pure ()

/-- `mount_dev`, libminijail.c:2002-2066. The file mode mask is not modelled. -/
def mountDev (env : EnterEnv) : EnterM Int := do
  must (.mkdtemp env.devPath)
  let ret ← sys (.mount (some (bstr "minijail-devfs")) env.devPath (some (bstr "tmpfs")) (MS_NOEXEC ||| MS_NOSUID)
    (some (bstr "size=5M,mode=755")))
  ifM (ret ≠ 0)
    (do
      let _ ← sys (.rmdir env.devPath)
      pure ret)
    (do
      let fd ← sys (.openDir (some env.devPath))
      let ret ← ifM (fd < 0) (pure 1) (firstFailing (deviceNodes ++ deviceSymlinks ++ [.mkdirat (bstr "shm") 0o1777]))
      ifM (ret ≠ 0)
        (do
          mountDevCleanup env
          pure ret)
        (pure 0))

/-- `mount_dev_finalize`, libminijail.c:2073-2094. -/
def mountDevFinalize (env : EnterEnv) (j : Jail) : EnterM Int := do
  let ret ← firstFailing [.umount (bstr "/dev"),
    .mount (some env.devPath) (j.chrootdir.getD [] ++ bstr "/dev") none MS_MOVE none]
  mountDevCleanup env
  pure (if ret ≠ 0 then -1 else 0)

/-- Where a mount goes before the root directory changes, libminijail.c:2113-2123. -/
def mountDest (j : Jail) (dev : Option BStr) (m : Mountpoint) : BStr :=
  match dev with
  | some d => if m.dest.take 5 = bstr "/dev/" then d ++ m.dest.drop 4 else j.chrootdir.getD [] ++ m.dest
  | none => j.chrootdir.getD [] ++ m.dest

/-- `mount_one` up to its end, libminijail.c:2103-2212: its return value and whether it goes on with the next mount (2204-2206). The
two checks at 2150 and 2178 jump to `error` while `ret` is still 0. -/
def mountStep (j : Jail) (dev : Option BStr) (m : Mountpoint) : EnterM (Int × Bool) := do
  let hasBind := m.flags &&& MS_BIND ≠ 0#64
  let hasRemount := m.flags &&& MS_REMOUNT ≠ 0#64
  let dest := mountDest j dev m
  let ret ← sys (.setupDest m.src dest j.uid j.gid hasBind)
  ifM (ret ≠ 0) (pure (ret, false)) do
    let original ← ifM (hasBind ∧ m.type = bstr "minijail_bind" ∧ ¬ hasRemount) (sys (.mountFlags m.src)) (pure 0)
    ifM (original < 0) (pure (0, false)) do
      let original := BitVec.ofInt 64 original
      let doRemount := hasBind ∧ m.type = bstr "minijail_bind" ∧ ¬ hasRemount ∧ m.flags &&& MS_RDONLY ≠ original &&& MS_RDONLY
      let valid ← ifM (hasBind ∧ ¬ hasRemount) (sys (.validBind m.src)) (pure 1)
      ifM (valid = 0) (pure (0, false)) do
        let ret ← sys (.mount (some m.src) dest (some m.type) m.flags m.data)
        ifM (ret ≠ 0) (pure (ret, false)) do
          let ret ← ifM doRemount
            (sys (.mount (some m.src) dest none (m.flags ||| original &&& KEPT_MOUNT_FLAGS ||| MS_REMOUNT) m.data)) (pure 0)
          ifM (ret ≠ 0) (pure (ret, false)) (pure (0, true))

/-- `mount_one` as a whole, libminijail.c:2103-2212: the recursion over the list of mounts. -/
def mountOne (j : Jail) (dev : Option BStr) : List Mountpoint → EnterM Int
  | [] => pure 0
  | m :: ms => do
    let r ← mountStep j dev m
    ifM (r.2 = true) (mountOne j dev ms) (pure r.1)

/-- `MINIJAIL_ERR_MOUNT`, libminijail.h:48-64, used at libminijail.c:2230. -/
def ERR_MOUNT : Nat := 251

/-- `process_mounts_or_die`, libminijail.c:2214-2239. -/
def processMounts (env : EnterEnv) (j : Jail) : EnterM Unit := do
  whenM j.flags.mount_dev do
    let ret ← mountDev env
    dieIf (ret ≠ 0)
  let ret ← mountOne j (if j.flags.mount_dev then some env.devPath else none) j.mounts
  whenM (ret ≠ 0) do
    whenM j.flags.mount_dev (mountDevCleanup env)
    exitNow ERR_MOUNT
  whenM j.flags.mount_dev do
    let ret ← mountDevFinalize env j
    dieIf (ret ≠ 0)

/-- `enter_chroot`, libminijail.c:2241-2252, and its use at 2872: every failure ends the process. -/
def enterChroot (j : Jail) : EnterM Unit := do
  runHooks j PRE_CHROOT
  must (.chroot j.chrootdir)
  must (.chdir (some (bstr "/")))

/-- `open` of a directory that must succeed, libminijail.c:2265-2270. -/
def mustOpen (p : Option BStr) : EnterM Unit := do
  let fd ← sys (.openDir p)
  dieIf (fd < 0)

/-- `enter_pivot_root`, libminijail.c:2254-2314, and its use at 2875: every failure ends the process. -/
def enterPivotRoot (j : Jail) : EnterM Unit := do
  runHooks j PRE_CHROOT
  mustOpen (some (bstr "/"))
  mustOpen j.chrootdir
  must (.mount j.chrootdir (j.chrootdir.getD []) (some (bstr "bind")) (MS_BIND ||| MS_REC) (some []))
  must (.chdir j.chrootdir)
  must .pivotRoot
  must .fchdirOld
  must (.mount none (bstr ".") none (MS_REC ||| MS_PRIVATE) none)
  must (.umount (bstr "."))
  must .fchdirNew
  must (.chroot (some (bstr "/")))
  must (.chdir (some (bstr "/")))

/-- `mount_tmp`, libminijail.c:2316-2337, and its use at 2878. The buffer for the size is large enough for every size. -/
def mountTmp (env : EnterEnv) (j : Jail) : EnterM Unit :=
  must (.mount (some (bstr "none")) (bstr "/tmp") (some (bstr "tmpfs"))
    (MS_NODEV ||| MS_NOEXEC ||| MS_NOSUID ||| if env.noSymfollow then MS_NOSYMFOLLOW else 0#64)
    (some (bstr ("size=" ++ toString j.tmpfs_size.toNat ++ ",mode=1777"))))

/-- `remount_proc_readonly`, libminijail.c:2339-2383, and its use at 2881. -/
def remountProcReadonly (j : Jail) : EnterM Unit := do
  whenM (!j.flags.userns) (must (.umount (bstr "/proc")))
  must (.mount (some (bstr "proc")) (bstr "/proc") (some (bstr "proc")) (MS_NODEV ||| MS_NOEXEC ||| MS_NOSUID ||| MS_RDONLY) (some []))

/-- The number of true flags, as C adds them at libminijail.c:2483-2485. -/
def countTrue (l : List Bool) : Nat := (l.filter id).length

/-- `drop_ugid`, libminijail.c:2481-2512. -/
def dropUgid (j : Jail) : EnterM Unit := do
  dieIf (countTrue [j.flags.inherit_suppl_gids, j.flags.keep_suppl_gids, j.flags.set_suppl_gids] > 1)
  ifM (j.flags.inherit_suppl_gids = true) (must (.initgroups j.user j.usergid))
    (ifM (j.flags.set_suppl_gids = true) (must (.setgroups ((j.suppl_gid_list.getD []).take j.suppl_gid_count)))
      (whenM (!j.flags.keep_suppl_gids && !j.flags.disable_setgroups && (j.flags.uid || j.flags.gid)) (must (.setgroups []))))
  whenM j.flags.gid (must (.setresgid j.gid))
  whenM j.flags.uid (must (.setresuid j.uid))

/-- The capabilities both loops at libminijail.c:2518 and 2543 visit. -/
def validCaps (last : Nat) : List Nat := (List.range 64).filter fun i => i ≤ last

/-- `drop_capbset`, libminijail.c:2514-2524. -/
def dropCapbset (keep : BitVec 64) (last : Nat) : EnterM Unit :=
  forM' (fun i => must (.dropBound i)) ((validCaps last).filter fun i => !keep.getLsbD i)

/-- `CAP_SETPCAP` (linux/capability.h), libminijail.c:2545. -/
def CAP_SETPCAP : Nat := 8

/-- A capability set from the bits that are raised one by one, libminijail.c:2543-2554. -/
def capSet (l : List Nat) : BitVec 64 := l.foldl (fun s i => s ||| BitVec.twoPow 64 i) 0#64

/-- `secure_noroot_set_and_locked`, system.c:85-89: bits 0 and 1. -/
def noroot (mask : BitVec 64) : Bool := mask &&& 3#64 == 3#64

/-- `drop_caps`, libminijail.c:2526-2621. Changing the `cap_t` in memory (`cap_clear`, `cap_set_flag`) is taken to succeed. -/
def dropCaps (j : Jail) (last : Nat) : EnterM Unit :=
  whenM j.flags.use_caps do
    must .capget
    let s := capSet ((validCaps last).filter fun i => i == CAP_SETPCAP || j.caps.getLsbD i)
    must (.capset s s s)
    whenM (noroot (~~~j.securebits_skip_mask)) (dropCapbset j.caps last)
    let s := if j.caps.getLsbD CAP_SETPCAP then s else s &&& ~~~BitVec.twoPow 64 CAP_SETPCAP
    must (.capset s s s)
    whenM j.flags.set_ambient_caps do
      let r ← sys .ambientSupported
      dieIf (r < 0)
      must .ambientClear
      forM' (fun i => must (.ambientRaise i)) ((validCaps last).filter fun i => j.caps.getLsbD i)

/-- `lock_securebits`, system.c:91-149, and its use at libminijail.c:2906. Bits: NOROOT 0, NO_SETUID_FIXUP 2, KEEP_CAPS 4,
NO_CAP_AMBIENT_RAISE 6, EXEC_RESTRICT_FILE 8, EXEC_DENY_INTERACTIVE 10, each followed by its lock. -/
def lockSecurebits (env : EnterEnv) (skip : BitVec 64) (requireKeepCaps : Bool) : EnterM Unit := do
  let bits := env.secureAllBits ||| env.secureAllBits <<< 1
  let bits ← ifM (requireKeepCaps = true) (pure bits) do
    let cur ← sys .getSecurebits
    dieIf (cur < 0)
    let cur := BitVec.ofInt 64 cur
    pure (if cur.getLsbD 5 && !cur.getLsbD 4 then bits &&& ~~~0x10#64 else bits)
  let bits := bits &&& ~~~0xc0#64
  let bits := bits &&& ~~~skip
  ifM (bits = 0#64) (pure ()) do
    let r ← sys (.setSecurebits bits)
    let r ← ifM (r < 0 ∧ r = -1 ∧ bits &&& 0xf00#64 ≠ 0#64) (sys (.setSecurebits (bits &&& ~~~0xf00#64))) (pure r)
    dieIf (r < 0)

/-- `apply_landlock_restrictions`, libminijail.c:2624-2651; `Model/Landlock.lean` has the effect of the rules. -/
def landlock (j : Jail) : EnterM Unit :=
  ifM ((!j.flags.enable_fs_restrictions || j.fs_rules.isEmpty) = true) (pure ()) do
    let available ← sys .landlockAvailable
    whenM (available ≠ 0) (forM' (fun r => do let _ ← sys (.landlockRule r.path r.landlock_flags); pure ()) j.fs_rules)
    whenM (decide (j.fs_rules_fd.toInt ≥ 0)) (must (.landlockRestrict j.fs_rules_fd))

/-- `set_seccomp_filter`, libminijail.c:2662-2726. -/
def setSeccompFilter (env : EnterEnv) (j : Jail) : EnterM Unit :=
  whenM (j.flags.seccomp_filter && !env.asan) do
    ifM ((env.defaultRetLog || j.flags.seccomp_filter_logging) = true) (whenM (!env.retLogAvailable) (must .sigsysHandler))
      (whenM j.flags.seccomp_filter_tsync (must .sigsysDefault))
    must (.seccompFilter j.flags.seccomp_filter_tsync j.flags.seccomp_filter_allow_speculation j.filter_prog)

/-- Namespaces and the propagation of mounts, libminijail.c:2823-2866. -/
def enterNamespaces (j : Jail) : EnterM Unit := do
  whenM j.flags.enter_vfs (must (.setns j.mountns_fd .mount))
  whenM j.flags.vfs do
    must (.unshare .mount)
    whenM (j.remount_mode ≠ 0#64) do
      must (.mount none (bstr "/") none (MS_REC ||| j.remount_mode) none)
      forM' (fun t => do
        dieIf (t.remount_mode < j.remount_mode)
        must (.mount none t.mount_name none (MS_REC ||| t.remount_mode) none)) j.remounts
  whenM j.flags.ipc (must (.unshare .ipc))
  whenM j.flags.uts do
    must (.unshare .uts)
    whenM j.hostname.isSome (must (.sethostname (j.hostname.getD [])))
  ifM (j.flags.enter_net = true) (must (.setns j.netns_fd .net)) (whenM j.flags.net do
    must (.unshare .net)
    whenM j.flags.net_loopback do
      let _ ← sys .loopback
      pure ())
  whenM j.flags.ns_cgroups (must (.unshare .cgroup))
  whenM j.flags.new_session_keyring do
    let r ← sys .keyring
    dieIf (r < 0)

/-- Privileges, path rules and the filter, libminijail.c:2912-2960. -/
def dropPrivileges (env : EnterEnv) (j : Jail) (last : Nat) : EnterM Unit :=
  ifM (j.flags.no_new_privs = true)
    (do
      dropUgid j
      dropCaps j last
      must .noNewPrivs
      landlock j
      setSeccompFilter env j)
    (do
      landlock j
      setSeccompFilter env j
      dropUgid j
      dropCaps j last)

/-- `get_last_valid_cap` when it is needed, libminijail.c:2807-2809; more than 64 ends the process (system.c:218). -/
def getLastCap (j : Jail) : EnterM Nat :=
  ifM ((j.flags.capbset_drop || j.flags.use_caps) = true)
    (do
      let r ← sys .lastCap
      dieIf (r < 0 ∨ r > 64)
      pure r.toNat)
    (pure 0)

/-- Strict mode, libminijail.c:2980-2992. `-22` is -EINVAL. -/
def enterStrict (env : EnterEnv) : EnterM Unit := do
  let r ← sys .seccompStrict
  dieIf (r ≠ 0 ∧ ¬ (r = -22 ∧ env.softfail))

/-- `minijail_enter`, libminijail.c:2801-2993. -/
def minijailEnter (env : EnterEnv) (j : Jail) : EnterM Unit := do
  let last ← getLastCap j
  dieIf (j.flags.pids = true)
  dieIf ((j.flags.inherit_suppl_gids && j.user.isNone) = true)
  enterNamespaces j
  processMounts env j
  whenM j.flags.chroot (enterChroot j)
  whenM j.flags.pivot_root (enterPivotRoot j)
  whenM j.flags.mount_tmp (mountTmp env j)
  whenM j.flags.remount_proc_ro (remountProcReadonly j)
  runHooks j PRE_DROP_CAPS
  whenM j.flags.capbset_drop (dropCapbset j.cap_bset last)
  whenM j.flags.use_caps (lockSecurebits env j.securebits_skip_mask (!j.flags.set_ambient_caps))
  dropPrivileges env j last
  whenM j.flags.alt_syscall (must (.altSyscall j.alt_syscall_table))
  whenM j.flags.seccomp (enterStrict env)

end Minijail
