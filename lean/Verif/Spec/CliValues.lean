import Verif.Spec.CliEffect
import Verif.Spec.Const
import Verif.Spec.Size
import Verif.Spec.Text
import Verif.Spec.Values
import Verif.Spec.CtxLang
import Mathlib.Data.List.Forall2
/-! What the arguments of the options mean (minijail0.1), as far as the jail keeps a record of it. -/
set_option autoImplicit false
namespace Minijail.Spec

/-- The number of an option with a letter. -/
def letter (ch : Char) (n : Nat) : Prop := n = ch.toNat

/-- The number of a long option. -/
def long (name : String) (n : Nat) : Prop := (name.toList, n) ∈ longOptions

/-- The last time the option was given, it was with this argument (or none). -/
def Last (opts : Options) (opt : Nat → Prop) (a : Option CStr) : Prop :=
  ∃ before n after, opts = before ++ (n, a) :: after ∧ opt n ∧ ∀ p ∈ after, ¬ opt p.1

/-- The last argument the option was given. -/
def LastArg (opts : Options) (opt : Nat → Prop) (a : CStr) : Prop :=
  ∃ before n after, opts = before ++ (n, some a) :: after ∧ opt n ∧ ∀ p ∈ after, opt p.1 → p.2 = none

/-- The first argument the option was given. -/
def FirstArg (opts : Options) (opt : Nat → Prop) (a : CStr) : Prop :=
  ∃ before n after, opts = before ++ (n, some a) :: after ∧ opt n ∧ ∀ p ∈ before, opt p.1 → p.2 = none

/-- The option was not given. -/
def Without (opts : Options) (opt : Nat → Prop) : Prop := ∀ p ∈ opts, ¬ opt p.1

/-- A decimal number. -/
def Decimal (a : CStr) (i : Int) : Prop := Signed (fun s n => s ≠ [] ∧ Digits 10 s n) a i

/-- Hexadecimal digits, with or without "0x". -/
def HexDigits (s : CStr) (n : Nat) : Prop := ∃ ds, ds ≠ [] ∧ Digits 16 ds n ∧ (s = ds ∨ s = '0' :: 'x' :: ds ∨ s = '0' :: 'X' :: ds)

/-- The id an argument stands for: the number, or what the name is looked up as. Nothing is said of numbers that are no ids. -/
def IdOf (lookup : BStr → Option (BitVec 32)) (a : CStr) (id : BitVec 32) : Prop :=
  (∀ n : Nat, Decimal a n → n < 2 ^ 32 → id.toNat = n) ∧ ((∀ i, ¬ Decimal a i) → lookup (bytesOf a) = some id)

/-- The mask a hexadecimal argument stands for. Nothing is said of numbers that do not fit. -/
def MaskOf (a : CStr) (m : BitVec 64) : Prop := ∀ n : Nat, Signed HexDigits a n → n < 2 ^ 64 → m.toNat = n

/-- The capabilities an argument of -c stands for: names, as `cap_from_text(3)` reads them, or a mask. -/
def CapsOf (capText : CStr → Option (Nat → Option Bool)) (lastCap : Nat) (a : CStr) (m : BitVec 64) : Prop :=
  (∀ has, capText a = some has → ∀ i, m.getLsbD i = true ↔ i ≤ lastCap ∧ has i = some true) ∧ (capText a = none → MaskOf a m)

/-- The words of -K and the propagation they stand for (mount(2)); no word: nothing is changed. -/
def PropagationOf (a : Option CStr) (m : BitVec 64) : Prop :=
  (a = none ∧ m = 0#64) ∨
  ∃ w f, a = some w ∧ m = f ∧ (w, f) ∈ [("shared".toList, 0x100000#64), ("private".toList, 0x40000#64), ("slave".toList, 0x80000#64), ("unbindable".toList, 0x20000#64)]

/-- A limit of -R. Nothing is said of numbers that do not fit. -/
def LimitOf (a : CStr) (v : BitVec 64) : Prop :=
  (a = "unlimited".toList → v = BitVec.allOnes 64) ∧ ∀ n : Nat, Signed Literal a n → n < 2 ^ 64 → v.toNat = n

/-- An argument of -R: type, soft and hard limit. -/
def RlimitOf (named : List Char → Option Nat) (a : CStr) (r : Rlimit) : Prop :=
  ∃ type cur max t, fields ',' a = [type, cur, max] ∧ Single named 64 type t ∧ r.type.toNat = t % 2 ^ 32 ∧ LimitOf cur r.cur ∧ LimitOf max r.max

/-- MS_BIND and MS_RDONLY, mount(2). -/
def bindFlags (writeable : Bool) : BitVec 64 := if writeable then 0x1000#64 else 0x1001#64

/-- A bind mount as the jail keeps it. -/
def bindMount (src dest : BStr) (writeable : Bool) : Mountpoint := ⟨src, dest, bstr "minijail_bind", none, bindFlags writeable⟩

/-- The third field of -b. -/
def Writeable (f : Option CStr) (w : Bool) : Prop := (f = some "1".toList ∧ w = true) ∨ (f ∈ [none, some [], some "0".toList] ∧ w = false)

/-- An argument of -b: source, destination (the same if it is left out) and whether it can be written. -/
def BindOf (a : CStr) (m : Mountpoint) : Prop :=
  ∃ src more w, fields ',' a = src :: more ∧ more.length ≤ 2 ∧ src ≠ [] ∧ Writeable more[1]? w ∧
    ((more.headD [] = [] ∧ m = bindMount (bytesOf src) (bytesOf src) w) ∨
     (more.headD [] ≠ [] ∧ m = bindMount (bytesOf src) (bytesOf (more.headD [])) w))

/-- The flags of -k: an expression; left out or 0, then MS_NODEV, MS_NOEXEC and MS_NOSUID. -/
def MountFlagsOf (named : List Char → Option Nat) (f : Option CStr) (v : BitVec 64) : Prop :=
  (f.getD [] = [] ∧ v = 0xe#64) ∨ ∃ n, ConstExpr named 64 (f.getD []) n ∧ v.toNat = if n = 0 then 0xe else n

/-- The data of -k: what follows the fourth comma; a tmpfs has data in any case. -/
def mountDataOf (type : CStr) (data : List CStr) : Option BStr :=
  if bytesOf type = bstr "tmpfs" ∧ (data = [] ∨ data = [[]]) then some (bstr "mode=0755,size=10M")
  else if data = [] then none else some (bytesOf (List.intercalate [','] data))

/-- An argument of -k: source, destination, type, flags and data. -/
def MountOf (named : List Char → Option Nat) (a : CStr) (m : Mountpoint) : Prop :=
  ∃ src dest type more, fields ',' a = src :: dest :: type :: more ∧ src ≠ [] ∧ dest ≠ [] ∧ type ≠ [] ∧ m.src = bytesOf src ∧ m.dest = bytesOf dest ∧
    m.type = bytesOf type ∧ MountFlagsOf named more.head? m.flags ∧ m.data = mountDataOf type more.tail

/-- The mounts of a profile. -/
def ProfileMounts (name : CStr) (ms : List Mountpoint) : Prop :=
  (name = "minimalistic-mountns".toList ∧ ms = [bindMount (bstr "/") (bstr "/") false, bindMount (bstr "/proc") (bstr "/proc") false, bindMount (bstr "/dev/log") (bstr "/dev/log") false]) ∨
  (name = "minimalistic-mountns-nodev".toList ∧ ms = [bindMount (bstr "/") (bstr "/") false, bindMount (bstr "/proc") (bstr "/proc") false])

/-- The mounts an option asks for. -/
def MountsOf (named : List Char → Option Nat) (p : Nat × Option CStr) (ms : List Mountpoint) : Prop :=
  (letter 'b' p.1 → ∃ a m, p.2 = some a ∧ BindOf a m ∧ ms = [m]) ∧
  (letter 'k' p.1 → ∃ a m, p.2 = some a ∧ MountOf named a m ∧ ms = [m]) ∧
  (long "profile" p.1 → ∃ a, p.2 = some a ∧ ProfileMounts a ms) ∧
  (¬ letter 'b' p.1 → ¬ letter 'k' p.1 → ¬ long "profile" p.1 → ms = [])

/-- The arguments the option was given, in order. -/
inductive Args (opt : Nat → Prop) : Options → List CStr → Prop where
  | nil : Args opt [] []
  | given {n : Nat} {a : CStr} {rest : Options} {as : List CStr} (h : opt n) (r : Args opt rest as) : Args opt ((n, some a) :: rest) (a :: as)
  | bare {n : Nat} {rest : Options} {as : List CStr} (h : opt n) (r : Args opt rest as) : Args opt ((n, none) :: rest) as
  | other {p : Nat × Option CStr} {rest : Options} {as : List CStr} (h : ¬ opt p.1) (r : Args opt rest as) : Args opt (p :: rest) as

/-- The program of a compiled filter. -/
def FileFilter (file : CStr → Option (List Insn × Nat)) (a : CStr) (p : Option (List Insn)) : Prop :=
  ∃ prog, file a = some (prog, 0) ∧ (prog.length ≤ 65535 → p = some prog)

/-- The groups, as they are looked up. -/
def lookupGroup (env : CliEnv) (name : BStr) : Option (BitVec 32) := (env.api.groupDb name).toOption

/-- The values in the jail are those the options ask for. -/
structure Values (env : CliEnv) (opts : Options) (j : Jail) : Prop where
  user : ∀ a, Gave opts 'u' (some a) → IdOf (fun n => (env.api.userDb n).toOption.map (·.1)) a j.uid ∧
    ((∀ i, ¬ Decimal a i) → j.user = some (bytesOf a) ∧ env.api.userDb (bytesOf a) = .ok (j.uid, j.usergid))
  group : ∀ a, Gave opts 'g' (some a) → IdOf (lookupGroup env) a j.gid
  groups : ∀ as, Args (long "add-suppl-group") opts as → as ≠ [] → ∃ ids, List.Forall₂ (IdOf (lookupGroup env)) as ids ∧ j.suppl_gid_list = some ids ∧
    j.suppl_gid_count = ids.length
  caps : ∀ a, LastArg opts (letter 'c') a → CapsOf env.capText env.lastCap a j.caps
  securebits : ∀ a, LastArg opts (letter 'B') a → MaskOf a j.securebits_skip_mask
  propagation : ∀ a, Last opts (letter 'K') a → PropagationOf a j.remount_mode
  slave : Without opts (letter 'K') → Given opts 'v' → j.remount_mode = 0x80000#64
  private_ : Without opts (letter 'K') → Without opts (letter 'v') → j.remount_mode = 0x40000#64
  tmp : ∀ a, LastArg opts (letter 't') a → ∃ n, SizeText a n ∧ (n ≠ 0 → j.tmpfs_size.toNat = n)
  tmp_default : (∀ a, ¬ Gave opts 't' (some a)) → Gave opts 't' none ∨ GivenLong opts "profile" → j.tmpfs_size.toNat = 64 * 1024 * 1024
  pid_file : ∀ a, LastArg opts (letter 'f') a → j.pid_file_path = some (bytesOf a)
  table : ∀ a, LastArg opts (letter 'a') a → j.alt_syscall_table = some (bytesOf a)
  mount_ns : ∀ a, LastArg opts (letter 'V') a → env.api.openNs (bytesOf a) = some j.mountns_fd
  net_ns : ∀ a, LastArg opts (letter 'e') a → env.api.openNs (bytesOf a) = some j.netns_fd
  hostname : env.api.oom = false → ∀ a, FirstArg opts (long "uts") a → j.hostname = some (bytesOf a)
  filter : env.api.softfail = false → ∀ a, LastArg opts (letter 'S') a → j.filter_prog = env.api.compiled (some (bytesOf a))
  binary : env.api.softfail = false → ∀ a, LastArg opts (long "seccomp-bpf-binary") a → FileFilter env.bpfFile a j.filter_prog
  limits : ∀ as, Args (letter 'R') opts as → List.Forall₂ (RlimitOf env.consts.named) as (j.rlimits.take j.rlimit_count)
  fds : ∀ as, Args (long "preserve-fd") opts as → as.length < 128 → (∀ a ∈ as, ∃ n : Nat, Decimal a n ∧ n < 2 ^ 31) → ∃ fds more,
    List.Forall₂ (fun a (p : PreservedFd) => ∀ n : Nat, Decimal a n → p.parent_fd.toNat = n ∧ p.child_fd.toNat = n) as fds ∧
    j.preserved_fds.take j.preserved_fd_count = fds ++ more ∧ more ∈ [[], [⟨2#32, 2#32⟩]]
  mounts : ∃ parts, List.Forall₂ (MountsOf env.consts.named) opts parts ∧ j.mounts = parts.flatten

end Minijail.Spec
