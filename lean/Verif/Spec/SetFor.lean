import Verif.Spec.IdMap
import Verif.Spec.ParentSetup
/-! What the caller of minijail0 may expect to be written and set for the program's process before it runs, said of the options (minijail0.1). For C56. -/
set_option autoImplicit false
namespace Minijail.Spec

/-- A text that stands for these entries is written to one of the process's files, all at once. -/
def MapDeeds (pid : Nat) (file : String) (es : List (Nat × Nat × Nat)) (part : List Deed) : Prop :=
  ∃ t, MapText t es ∧ part = givenTo (procPath pid file) false (bytesOf t)

/-- -f: the file holds the process's number. -/
structure PidFilePart (pid : Nat) (opts : Options) (part : List Deed) : Prop where
  given : ∀ a, LastArg opts (letter 'f') a → part = givenTo (bytesOf a) true (line pid)
  none : Without opts (letter 'f') → part = []

/-- -R: each limit, in the order given. -/
def LimitsPart (env : CliEnv) (pid : Nat) (opts : Options) (part : List Deed) : Prop :=
  ∀ as, Args (letter 'R') opts as → ∃ rs, List.Forall₂ (RlimitOf env.consts.named) as rs ∧ part = rs.map (Deed.limited pid)

/-- -m: the entries given; without any, the id chosen with -u, or root, stands for the caller. -/
structure UidMapPart (env : CliEnv) (pid : Nat) (opts : Options) (part : List Deed) : Prop where
  given : ∀ a es, Last opts (letter 'm') (some a) → List.Forall₂ MapLine (fields ',' a) es → MapDeeds pid "uid_map" es part
  chosen : Last opts (letter 'm') none → ∀ a, Gave opts 'u' (some a) → ∃ id, IdOf (fun n => (env.api.userDb n).toOption.map (·.1)) a id ∧
    (id.toNat < 2 ^ 31 → env.uid.toNat < 2 ^ 31 → MapDeeds pid "uid_map" [(id.toNat, env.uid.toNat, 1)] part)
  root : Last opts (letter 'm') none → ¬ Given opts 'u' → env.uid.toNat < 2 ^ 31 → MapDeeds pid "uid_map" [(0, env.uid.toNat, 1)] part
  none : Without opts (letter 'm') → part = []

/-- -M: `setgroups` is denied where the caller may not set groups, unless the kernel has no such file. -/
structure SetgroupsPart (env : CliEnv) (pid : Nat) (opts : Options) (hasFile : Prop) (part : List Deed) : Prop where
  denied : Given opts 'M' → env.setgidCap = false → hasFile → part = givenTo (procPath pid "setgroups") false (bstr "deny")
  only : part = givenTo (procPath pid "setgroups") false (bstr "deny") ∨ part = []
  none : Without opts (letter 'M') → part = []

/-- -M: the entries given; without any, the group chosen with -g, that of the user named with -u, or root, stands for the caller's. -/
structure GidMapPart (env : CliEnv) (pid : Nat) (opts : Options) (part : List Deed) : Prop where
  given : ∀ a es, Last opts (letter 'M') (some a) → List.Forall₂ MapLine (fields ',' a) es → MapDeeds pid "gid_map" es part
  chosen : Last opts (letter 'M') none → GroupLast opts → ∀ a, Gave opts 'g' (some a) → ∃ id, IdOf (lookupGroup env) a id ∧
    (id.toNat < 2 ^ 31 → env.gid.toNat < 2 ^ 31 → MapDeeds pid "gid_map" [(id.toNat, env.gid.toNat, 1)] part)
  user : Last opts (letter 'M') none → UserLast opts → ∀ a, Gave opts 'u' (some a) → (∀ i, ¬ Decimal a i) → ∃ uid gid, env.api.userDb (bytesOf a) = .ok (uid, gid) ∧
    (gid.toNat < 2 ^ 31 → env.gid.toNat < 2 ^ 31 → MapDeeds pid "gid_map" [(gid.toNat, env.gid.toNat, 1)] part)
  root : Last opts (letter 'M') none → ¬ Given opts 'g' → (∀ p ∈ opts, ¬ NamedUser p) → env.gid.toNat < 2 ^ 31 →
    MapDeeds pid "gid_map" [(0, env.gid.toNat, 1)] part
  none : Without opts (letter 'M') → part = []

/-- These parts, one after the other, and nothing else. -/
def SetFor (env : CliEnv) (pid : Nat) (opts : Options) (hasFile : Prop) (done : List Deed) : Prop :=
  ∃ f r u s g, done = f ++ r ++ u ++ s ++ g ∧ PidFilePart pid opts f ∧ LimitsPart env pid opts r ∧ UidMapPart env pid opts u ∧
    SetgroupsPart env pid opts hasFile s ∧ GidMapPart env pid opts g

end Minijail.Spec
