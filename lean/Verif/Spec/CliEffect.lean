import Verif.Spec.Cli
/-! What the manual (minijail0.1) says the options do, as far as the jail keeps a record of it. -/
set_option autoImplicit false
namespace Minijail.Spec

/-- The option was given with this argument. -/
def Gave (opts : Options) (letter : Char) (arg : Option CStr) : Prop := (letter.toNat, arg) ∈ opts

/-- The long option was given with this argument. -/
def GaveLong (opts : Options) (name : String) (arg : Option CStr) : Prop := ∃ n, (name.toList, n) ∈ longOptions ∧ (n, arg) ∈ opts

/-- A mount namespace, as -v asks for. -/
def MountNs (j : Jail) : Prop := j.flags.vfs = true

/-- The jail does what the options say and what the manual says they imply. `soft`: missing seccomp support is tolerated. -/
structure TakesEffect (soft : Bool) (opts : Options) (j : Jail) : Prop where
  a : ∀ t, Gave opts 'a' t → j.flags.alt_syscall = true
  b : ∀ t, Gave opts 'b' t → j.mounts ≠ []
  c : ∀ t, Gave opts 'c' t → j.flags.use_caps = true
  C : ∀ d, Gave opts 'C' (some d) → j.flags.chroot = true ∧ j.chrootdir = some (bytesOf d)
  d : ∀ t, Gave opts 'd' t → j.flags.mount_dev = true ∧ MountNs j
  e_new : Gave opts 'e' none → j.flags.net = true
  e_enter : ∀ p, Gave opts 'e' (some p) → j.flags.enter_net = true
  f : ∀ t, Gave opts 'f' t → j.flags.pid_file = true
  g : ∀ t, Gave opts 'g' t → j.flags.gid = true
  G : ∀ t, Gave opts 'G' t → j.flags.inherit_suppl_gids = true
  I : ∀ t, Gave opts 'I' t → j.flags.run_as_init = true ∧ j.flags.pids = true ∧ j.flags.remount_proc_ro = true ∧ MountNs j
  k : ∀ t, Gave opts 'k' t → j.mounts ≠ []
  l : ∀ t, Gave opts 'l' t → j.flags.ipc = true
  m : ∀ t, Gave opts 'm' t → j.flags.userns = true ∧ j.flags.pids = true ∧ j.uidmap ≠ none
  M : ∀ t, Gave opts 'M' t → j.flags.userns = true ∧ j.flags.pids = true ∧ j.gidmap ≠ none
  n : ∀ t, Gave opts 'n' t → soft = false → j.flags.no_new_privs = true
  N : ∀ t, Gave opts 'N' t → j.flags.ns_cgroups = true
  p : ∀ t, Gave opts 'p' t → j.flags.pids = true ∧ j.flags.remount_proc_ro = true ∧ MountNs j
  P : ∀ d, Gave opts 'P' (some d) → j.flags.pivot_root = true ∧ j.chrootdir = some (bytesOf d) ∧ MountNs j
  r : ∀ t, Gave opts 'r' t → j.flags.remount_proc_ro = true ∧ MountNs j
  R : ∀ t, Gave opts 'R' t → j.rlimit_count ≠ 0
  s : ∀ t, Gave opts 's' t → j.flags.seccomp = true
  S : ∀ t, Gave opts 'S' t → soft = false → j.flags.seccomp_filter = true
  t : ∀ t, Gave opts 't' t → MountNs j
  u : ∀ t, Gave opts 'u' t → j.flags.uid = true
  U : ∀ t, Gave opts 'U' t → j.flags.userns = true ∧ j.flags.pids = true ∧ j.flags.remount_proc_ro = true ∧ MountNs j
  v : ∀ t, Gave opts 'v' t → MountNs j
  V : ∀ t, Gave opts 'V' t → j.flags.enter_vfs = true
  w : ∀ t, Gave opts 'w' t → j.flags.new_session_keyring = true
  y : ∀ t, Gave opts 'y' t → j.flags.keep_suppl_gids = true
  Y : ∀ t, Gave opts 'Y' t → soft = false → j.flags.seccomp_filter_tsync = true
  z : (∀ t, ¬ Gave opts 'z' t) → j.flags.forward_signals = true
  ambient : ∀ t, GaveLong opts "ambient" t → j.flags.set_ambient_caps = true
  uts : ∀ t, GaveLong opts "uts" t → j.flags.uts = true
  profile : ∀ t, GaveLong opts "profile" t → j.flags.pivot_root = true ∧ j.flags.remount_proc_ro = true ∧ j.flags.using_minimalistic_mountns = true ∧ MountNs j
  binary : ∀ t, GaveLong opts "seccomp-bpf-binary" t → soft = false → j.flags.seccomp_filter = true
  groups : ∀ t, GaveLong opts "add-suppl-group" t → j.flags.set_suppl_gids = true

end Minijail.Spec
