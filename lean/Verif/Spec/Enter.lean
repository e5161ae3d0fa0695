import Verif.Model.Enter
/-! What it means that a jail was entered, in terms of the requests made to the kernel and its answers. -/
set_option autoImplicit false
namespace Minijail.Spec
open Minijail

/-- `minijail_enter` returned; `t` are the requests it made and the answers it got from the system `k`. -/
def Entered (env : EnterEnv) (j : Jail) (k : Kernel) (t : List Ev) : Prop := minijailEnter env j k [] = (.ok (), t)

/-- The number of the last capability the system knows, as it was read at the start. -/
@[reducible] def LastCap (t : List Ev) (n : Nat) : Prop := t.head? = some (.lastCap, (n : Int))

/-- The request was made and succeeded. -/
def Happened (t : List Ev) (c : Sys) : Prop := (c, (0 : Int)) ∈ t

/-- The requests were made one right after the other and succeeded. -/
def Sequence (t : List Ev) (cs : List Sys) : Prop := cs.map (fun c => (c, (0 : Int))) <:+: t

/-- Every restriction asked for was put in place. -/
structure Applied (env : EnterEnv) (j : Jail) (t : List Ev) : Prop where
  enterMountNs : j.flags.enter_vfs = true → Happened t (.setns j.mountns_fd .mount)
  newMountNs : j.flags.vfs = true → Happened t (.unshare .mount)
  propagation : j.flags.vfs = true → j.remount_mode ≠ 0#64 → Happened t (.mount none (bstr "/") none (MS_REC ||| j.remount_mode) none)
  ownPropagation : j.flags.vfs = true → j.remount_mode ≠ 0#64 → ∀ m ∈ j.remounts,
    Happened t (.mount none m.mount_name none (MS_REC ||| m.remount_mode) none)
  newIpcNs : j.flags.ipc = true → Happened t (.unshare .ipc)
  newUtsNs : j.flags.uts = true → Happened t (.unshare .uts)
  hostname : j.flags.uts = true → ∀ n, j.hostname = some n → Happened t (.sethostname n)
  enterNetNs : j.flags.enter_net = true → Happened t (.setns j.netns_fd .net)
  newNetNs : j.flags.net = true → j.flags.enter_net = false → Happened t (.unshare .net)
  newCgroupNs : j.flags.ns_cgroups = true → Happened t (.unshare .cgroup)
  newKeyring : j.flags.new_session_keyring = true → ∃ r : Int, 0 ≤ r ∧ (Sys.keyring, r) ∈ t
  devTmpfs : j.flags.mount_dev = true → Happened t (.mount (some (bstr "minijail-devfs")) env.devPath (some (bstr "tmpfs"))
    (MS_NOEXEC ||| MS_NOSUID) (some (bstr "size=5M,mode=755")))
  devMoved : j.flags.mount_dev = true →
    Happened t (.mount (some env.devPath) (j.chrootdir.getD [] ++ bstr "/dev") none MS_MOVE none)
  devNodes : j.flags.mount_dev = true → ∀ x ∈ [("null", 1, 3), ("zero", 1, 5), ("full", 1, 7), ("urandom", 1, 9), ("tty", 5, 0)],
    ∃ mode, Happened t (.mknod (bstr x.1) mode x.2.1 x.2.2)
  chroot : j.flags.chroot = true → Sequence t [.chroot j.chrootdir, .chdir (some (bstr "/"))]
  pivotRoot : j.flags.pivot_root = true → Sequence t [.mount j.chrootdir (j.chrootdir.getD []) (some (bstr "bind")) (MS_BIND ||| MS_REC) (some []),
    .chdir j.chrootdir, .pivotRoot, .fchdirOld, .mount none (bstr ".") none (MS_REC ||| MS_PRIVATE) none, .umount (bstr "."), .fchdirNew,
    .chroot (some (bstr "/")), .chdir (some (bstr "/"))]
  tmp : j.flags.mount_tmp = true → ∃ flags data, flags &&& (MS_NODEV ||| MS_NOEXEC ||| MS_NOSUID) = MS_NODEV ||| MS_NOEXEC ||| MS_NOSUID ∧
    Happened t (.mount (some (bstr "none")) (bstr "/tmp") (some (bstr "tmpfs")) flags data)
  proc : j.flags.remount_proc_ro = true → Happened t (.mount (some (bstr "proc")) (bstr "/proc") (some (bstr "proc"))
    (MS_NODEV ||| MS_NOEXEC ||| MS_NOSUID ||| MS_RDONLY) (some []))
  hooks : ∀ h ∈ j.hooks, (h.event = 0 ∨ (h.event = 2 ∧ (j.flags.chroot = true ∨ j.flags.pivot_root = true))) →
    Happened t (.hook h.hook h.payload)
  groupsSet : j.flags.set_suppl_gids = true → Happened t (.setgroups ((j.suppl_gid_list.getD []).take j.suppl_gid_count))
  groupsInherited : j.flags.inherit_suppl_gids = true → Happened t (.initgroups j.user j.usergid)
  gid : j.flags.gid = true → Happened t (.setresgid j.gid)
  uid : j.flags.uid = true → Happened t (.setresuid j.uid)
  noNewPrivs : j.flags.no_new_privs = true → Happened t .noNewPrivs
  landlock : j.flags.enable_fs_restrictions = true → j.fs_rules ≠ [] → 0 ≤ j.fs_rules_fd.toInt → Happened t (.landlockRestrict j.fs_rules_fd)
  filter : j.flags.seccomp_filter = true → env.asan = false →
    Happened t (.seccompFilter j.flags.seccomp_filter_tsync j.flags.seccomp_filter_allow_speculation j.filter_prog)
  altSyscall : j.flags.alt_syscall = true → Happened t (.altSyscall j.alt_syscall_table)
  strict : j.flags.seccomp = true → Happened t .seccompStrict ∨ (env.softfail = true ∧ (Sys.seccompStrict, -22) ∈ t)

/-- A request that may fail without ending the process: bringing up the loopback device, a path rule (the path stays forbidden), the
check whether path rules are available, strict mode where the platform tolerates it, the first of two attempts at the securebits,
and cleaning up after /dev is in place. -/
def Tolerated (env : EnterEnv) (c : Sys) (r : Int) : Prop :=
  c = .loopback ∨ (∃ p m, c = .landlockRule p m) ∨ c = .landlockAvailable ∨ (c = .seccompStrict ∧ r = -22 ∧ env.softfail = true) ∨
  ((∃ b, c = .setSecurebits b) ∧ r = -1) ∨ c = .umount env.devPath ∨ c = .rmdir env.devPath

/-- The two checks on the source of a bind mount. -/
def MountCheck (c : Sys) (r : Int) : Prop := ((∃ p, c = .mountFlags p) ∧ r < 0) ∨ ((∃ p, c = .validBind p) ∧ r = 0)

/-- Requests answered with a value; the rest are answered with 0 when they succeed. -/
def hasValue : Sys → Bool
  | .lastCap | .keyring | .openDir _ | .mountFlags _ | .getSecurebits | .setSecurebits _ | .ambientSupported => true
  | _ => false

/-- The check of a bind source is the one request for which 0 means failure. -/
def isCheck : Sys → Bool
  | .validBind _ => true
  | _ => false

/-- The request failed. -/
def Failed (c : Sys) (r : Int) : Prop := if isCheck c then r = 0 else if hasValue c then r < 0 else r ≠ 0

/-- The order of the steps; requests that may come at several places have none. -/
def stage (nnp : Bool) : Sys → Option Nat
  | .setns _ _ | .unshare _ | .keyring => some 0
  | .setupDest _ _ _ _ _ => some 1
  | .chroot _ | .pivotRoot => some 2
  | .setSecurebits _ => some 3
  | .initgroups _ _ | .setgroups _ => some (if nnp then 4 else 6)
  | .setresgid _ => some (if nnp then 5 else 7)
  | .setresuid _ => some (if nnp then 6 else 8)
  | .capset _ _ _ => some (if nnp then 7 else 9)
  | .noNewPrivs => some 8
  | .landlockRestrict _ => some (if nnp then 9 else 4)
  | .seccompFilter _ _ _ => some (if nnp then 10 else 5)
  | .altSyscall _ => some 11
  | .seccompStrict => some 12
  | _ => none

/-- No step comes after a later one. -/
def InOrder (nnp : Bool) (t : List Ev) : Prop :=
  t.Pairwise fun x y => ∀ a b, stage nnp x.1 = some a → stage nnp y.1 = some b → a ≤ b

/-- Where a mount goes while the old root is still in place: under the new root, except that with a private /dev what belongs below it goes
below the directory that becomes /dev. -/
def target (env : EnterEnv) (j : Jail) (m : Mountpoint) : BStr :=
  if j.flags.mount_dev = true ∧ bstr "/dev/" <+: m.dest then env.devPath ++ m.dest.drop 4 else j.chrootdir.getD [] ++ m.dest

/-- The request for a configured mount, granted. -/
def mounted (env : EnterEnv) (j : Jail) (m : Mountpoint) : Ev := (.mount (some m.src) (target env j m) (some m.type) m.flags m.data, 0)

/-- A request for a mount of some type (changes to a mount have none). -/
def isNewMount (e : Ev) : Bool :=
  match e.1 with
  | .mount _ _ (some _) _ _ => true
  | _ => false

/-- The root directory changes. -/
def ChangesRoot (c : Sys) : Prop := c = .pivotRoot ∨ ∃ p, c = .chroot p

/-- A target is prepared for a configured mount. -/
def Prepares (c : Sys) : Prop := ∃ s d u g b, c = .setupDest s d u g b

/-- The options of a mount: rdonly 1, nosuid 2, nodev 4, noexec 8, noatime, nodiratime, relatime. -/
def mountOptions : BitVec 64 := 1#64 ||| 2#64 ||| 4#64 ||| 8#64 ||| 1024#64 ||| 2048#64 ||| 0x200000#64

/-- The options of what is mounted at a place after a granted request for that place (mount(2)): a bind mount (0x1000) has those of its source
and the other flags are ignored, a change (0x20) sets them, else they are those asked for. -/
def optionsAfter (source now : BitVec 64) : Sys → BitVec 64
  | .mount _ _ _ f _ => if f &&& 0x20#64 ≠ 0#64 then f &&& mountOptions else if f &&& 0x1000#64 ≠ 0#64 then source else f &&& mountOptions
  | _ => now

/-- The request changes what is mounted where, or files. -/
def TouchesFiles : Sys → Prop
  | .mount _ _ _ _ _ | .umount _ | .mkdtemp _ | .rmdir _ | .mknod _ _ _ _ | .symlink _ _ | .mkdirat _ _ | .setupDest _ _ _ _ _ | .pivotRoot => True
  | _ => False

end Minijail.Spec
