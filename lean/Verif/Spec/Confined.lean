import Verif.Spec.Forever
import Verif.Spec.Enter
import Verif.Spec.CliEffect
import Verif.Spec.CliValues
/-! What the options of a command line mean for the process that runs the program (minijail0.1): what was asked of the system and granted on its
behalf (`t`), and what it is (`q`) and may ever become (`r`). -/
set_option autoImplicit false
namespace Minijail.Spec
open Minijail

/-- One of these options was given. -/
def AnyOf (opts : Options) (letters : List Char) : Prop := ∃ ch ∈ letters, Given opts ch

/-- The options that the manual says come with a mount namespace; mounts do, unless -V says to enter one. -/
def AsksMountNs (opts : Options) : Prop :=
  AnyOf opts ['v', 'd', 'p', 'r', 't', 'U', 'I', 'm', 'M'] ∨ (∃ d, Gave opts 'P' (some d)) ∨ GivenLong opts "profile" ∨ (AnyOf opts ['b', 'k'] ∧ Without opts (letter 'V'))

/-- The directory that becomes the root. -/
structure RootOf (opts : Options) (root : BStr) : Prop where
  C : ∀ d, Gave opts 'C' (some d) → root = bytesOf d
  P : ∀ d, Gave opts 'P' (some d) → root = bytesOf d
  none : Without opts (letter 'C') → Without opts (letter 'P') → Without opts (long "profile") → root = []

/-- The propagation of mounts: what the last -K says; otherwise slave with -v and private without. -/
structure PropagationIs (opts : Options) (m : BitVec 64) : Prop where
  K : ∀ a, Last opts (letter 'K') a → PropagationOf a m
  slave : Without opts (letter 'K') → Given opts 'v' → m = 0x80000#64
  private_ : Without opts (letter 'K') → Without opts (letter 'v') → m = 0x40000#64

/-- Where a mount goes while the old root is still in place: below the new root, or below the directory that becomes /dev. -/
def placed (devPath root : BStr) (dev : Bool) (dest : BStr) : BStr :=
  if dev = true ∧ bstr "/dev/" <+: dest then devPath ++ dest.drop 4 else root ++ dest

/-- What was asked of the system for the options, and granted. -/
structure Requested (env : CliEnv) (enter : EnterEnv) (opts : Options) (t : List Ev) : Prop where
  mountNs : AsksMountNs opts → Happened t (.unshare .mount) ∧
    ∃ m, PropagationIs opts m ∧ (m ≠ 0#64 → Happened t (.mount none (bstr "/") none (MS_REC ||| m) none))
  V : ∀ a, LastArg opts (letter 'V') a → ∃ fd, env.api.openNs (bytesOf a) = some fd ∧ Happened t (.setns fd .mount)
  C : ∀ d, Gave opts 'C' (some d) → Sequence t [.chroot (some (bytesOf d)), .chdir (some (bstr "/"))]
  P : ∀ d, Gave opts 'P' (some d) → Sequence t [.mount (some (bytesOf d)) (bytesOf d) (some (bstr "bind")) (MS_BIND ||| MS_REC) (some []),
    .chdir (some (bytesOf d)), .pivotRoot, .fchdirOld, .mount none (bstr ".") none (MS_REC ||| MS_PRIVATE) none, .umount (bstr "."), .fchdirNew,
    .chroot (some (bstr "/")), .chdir (some (bstr "/"))]
  d : Given opts 'd' → ∃ root, RootOf opts root ∧
    Happened t (.mount (some (bstr "minijail-devfs")) enter.devPath (some (bstr "tmpfs")) (MS_NOEXEC ||| MS_NOSUID) (some (bstr "size=5M,mode=755"))) ∧
    (∀ x ∈ [("null", 1, 3), ("zero", 1, 5), ("full", 1, 7), ("urandom", 1, 9), ("tty", 5, 0)], ∃ mode, Happened t (.mknod (bstr x.1) mode x.2.1 x.2.2)) ∧
    Happened t (.mount (some enter.devPath) (root ++ bstr "/dev") none MS_MOVE none)
  mounts : (∀ e ∈ t, ¬ MountCheck e.1 e.2) → ∃ parts root dev, List.Forall₂ (MountsOf env.consts.named) opts parts ∧ RootOf opts root ∧
    (Given opts 'd' → dev = true) ∧ (Without opts (letter 'd') → Without opts (long "profile") → dev = false) ∧
    ∃ during, during <:+: t ∧
      during.filter isNewMount = parts.flatten.map fun m => (.mount (some m.src) (placed enter.devPath root dev m.dest) (some m.type) m.flags m.data, 0)
  tmp : Given opts 't' ∨ GivenLong opts "profile" → (∀ a n, Gave opts 't' (some a) → SizeText a n → n ≠ 0) →
    ∃ flags data, flags &&& (MS_NODEV ||| MS_NOEXEC ||| MS_NOSUID) = MS_NODEV ||| MS_NOEXEC ||| MS_NOSUID ∧
      Happened t (.mount (some (bstr "none")) (bstr "/tmp") (some (bstr "tmpfs")) flags data)
  proc : AnyOf opts ['r', 'p', 'U'] ∨ GivenLong opts "profile" → Without opts (letter 'I') →
    Happened t (.mount (some (bstr "proc")) (bstr "/proc") (some (bstr "proc")) (MS_NODEV ||| MS_NOEXEC ||| MS_NOSUID ||| MS_RDONLY) (some []))
  e : Gave opts 'e' none → (∀ a, ¬ Gave opts 'e' (some a)) → Happened t (.unshare .net)
  enterNet : ∀ a, LastArg opts (letter 'e') a → ∃ fd, env.api.openNs (bytesOf a) = some fd ∧ Happened t (.setns fd .net)
  l : Given opts 'l' → Happened t (.unshare .ipc)
  N : Given opts 'N' → Happened t (.unshare .cgroup)
  w : Given opts 'w' → ∃ r : Int, 0 ≤ r ∧ (Sys.keyring, r) ∈ t
  uts : GivenLong opts "uts" → Happened t (.unshare .uts)
  hostname : env.api.oom = false → ∀ a, FirstArg opts (long "uts") a → Happened t (.sethostname (bytesOf a))
  a : ∀ x, LastArg opts (letter 'a') x → Happened t (.altSyscall (some (bytesOf x)))
  s : Given opts 's' → Happened t .seccompStrict ∨ (enter.softfail = true ∧ (Sys.seccompStrict, -22) ∈ t)

/-- The user, groups, capabilities and filters of the process when the program is started. `n` is the last capability of the system. -/
structure Identity (env : CliEnv) (asan : Bool) (groupsOf : Option BStr → BitVec 32 → List (BitVec 32)) (opts : Options) (n : Nat) (q : Proc) : Prop where
  u : ∀ a, Gave opts 'u' (some a) → ∃ id, IdOf (fun n => (env.api.userDb n).toOption.map (·.1)) a id ∧ (id ≠ 4294967295#32 → q.uid = id)
  g : ∀ a, Gave opts 'g' (some a) → ∃ id, IdOf (lookupGroup env) a id ∧ (id ≠ 4294967295#32 → q.gid = id)
  groups : ∀ as, Args (long "add-suppl-group") opts as → as ≠ [] → ∃ ids, List.Forall₂ (IdOf (lookupGroup env)) as ids ∧ q.groups = ids
  G : ∀ a, Given opts 'G' → Gave opts 'u' (some a) → (∀ i, ¬ Decimal a i) →
    ∃ uid gid, env.api.userDb (bytesOf a) = .ok (uid, gid) ∧ q.groups = groupsOf (some (bytesOf a)) gid
  noGroups : AnyOf opts ['u', 'g'] → Without opts (letter 'G') → Without opts (letter 'y') → Without opts (long "add-suppl-group") →
    Without opts (letter 'M') → q.groups = []
  c : ∀ a, LastArg opts (letter 'c') a → ∃ m, CapsOf env.capText env.lastCap a m ∧
    (∀ i, q.eff.getLsbD i = (m.getLsbD i && decide (i ≤ n)) ∧ q.perm.getLsbD i = (m.getLsbD i && decide (i ≤ n)) ∧
      q.inh.getLsbD i = (m.getLsbD i && decide (i ≤ n)) ∧ (q.amb.getLsbD i = true → m.getLsbD i = true ∧ i ≤ n)) ∧
    (GivenLong opts "ambient" → ∀ i, q.amb.getLsbD i = (m.getLsbD i && decide (i ≤ n))) ∧
    (Without opts (letter 'B') → ∀ i ≤ n, m.getLsbD i = false → q.bound.getLsbD i = false)
  nnp : env.api.softfail = false → Given opts 'n' → q.noNewPrivs = true
  S : env.api.softfail = false → asan = false → ∀ a, LastArg opts (letter 'S') a → q.filters.head? = some (env.api.compiled (some (bytesOf a)))
  binary : env.api.softfail = false → asan = false → ∀ a, LastArg opts (long "seccomp-bpf-binary") a →
    ∃ f, FileFilter env.bpfFile a f ∧ q.filters.head? = some f

/-- What the program may ever become, whatever it does: `r` is the process at any later time. -/
structure Lasting (env : CliEnv) (asan : Bool) (opts : Options) (n : Nat) (r : Proc) : Prop where
  c : ∀ a, LastArg opts (letter 'c') a → Without opts (letter 'B') → ∃ m, CapsOf env.capText env.lastCap a m ∧ ∀ i ≤ n, m.getLsbD i = false →
    r.eff.getLsbD i = false ∧ r.perm.getLsbD i = false ∧ r.inh.getLsbD i = false ∧ r.amb.getLsbD i = false ∧ r.bound.getLsbD i = false
  nnp : env.api.softfail = false → Given opts 'n' → r.noNewPrivs = true
  S : env.api.softfail = false → asan = false → ∀ a, LastArg opts (letter 'S') a → env.api.compiled (some (bytesOf a)) ∈ r.filters
  binary : env.api.softfail = false → asan = false → ∀ a, LastArg opts (long "seccomp-bpf-binary") a → ∃ f, FileFilter env.bpfFile a f ∧ f ∈ r.filters
  u : env.api.softfail = false → Given opts 'n' → Without opts (letter 'B') → capSetuid ≤ n → ∀ a b, LastArg opts (letter 'c') a →
    Gave opts 'u' (some b) → ∃ m id, CapsOf env.capText env.lastCap a m ∧ IdOf (fun n => (env.api.userDb n).toOption.map (·.1)) b id ∧
      (m.getLsbD capSetuid = false → id ≠ 4294967295#32 → r.uid = id)
  g : env.api.softfail = false → Given opts 'n' → Without opts (letter 'B') → capSetgid ≤ n → ∀ a b, LastArg opts (letter 'c') a →
    Gave opts 'g' (some b) → ∃ m id, CapsOf env.capText env.lastCap a m ∧ IdOf (lookupGroup env) b id ∧
      (m.getLsbD capSetgid = false → id ≠ 4294967295#32 → r.gid = id)

end Minijail.Spec
