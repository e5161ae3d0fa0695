import Verif.Spec.CliValues
/-! The maps of ids of a user namespace, as user_namespaces(7) reads them and as minijail0.1 says -m and -M choose them. -/
set_option autoImplicit false
namespace Minijail.Spec

/-- A line of /proc/pid/uid_map: first id inside, first id outside and how many. The kernel takes digits only. -/
def MapLine (line : CStr) (e : Nat × Nat × Nat) : Prop :=
  ∃ a b c, words ' ' line = [a, b, c] ∧ Digits 10 a e.1 ∧ Digits 10 b e.2.1 ∧ Digits 10 c e.2.2

/-- The text of a map. -/
def MapText (text : CStr) (es : List (Nat × Nat × Nat)) : Prop := List.Forall₂ MapLine (fields '\n' text) es

/-- The map of a jail stands for these entries. -/
def MapsTo (m : Option BStr) (es : List (Nat × Nat × Nat)) : Prop := ∃ t, m = some (bytesOf t) ∧ MapText t es

/-- A user given by name. -/
def NamedUser (p : Nat × Option CStr) : Prop := letter 'u' p.1 ∧ ∃ a, p.2 = some a ∧ ∀ i, ¬ Decimal a i

/-- A group was given, and no user by name behind it. -/
def GroupLast (opts : Options) : Prop := ∃ before p after, opts = before ++ p :: after ∧ letter 'g' p.1 ∧ ∀ q ∈ after, ¬ NamedUser q

/-- A user was given by name, and no group behind it. -/
def UserLast (opts : Options) : Prop := ∃ before p after, opts = before ++ p :: after ∧ NamedUser p ∧ ∀ q ∈ after, ¬ letter 'g' q.1

/-- The maps in the jail are those the options ask for. -/
structure Maps (env : CliEnv) (opts : Options) (j : Jail) : Prop where
  /-- Entries that are given are used as they are. -/
  uid_given : ∀ a es, Last opts (letter 'm') (some a) → List.Forall₂ MapLine (fields ',' a) es → MapsTo j.uidmap es
  /-- Without entries, the id chosen with -u stands for the id of the caller. -/
  uid_chosen : Last opts (letter 'm') none → Given opts 'u' → j.uid.toNat < 2 ^ 31 → env.uid.toNat < 2 ^ 31 → MapsTo j.uidmap [(j.uid.toNat, env.uid.toNat, 1)]
  /-- Without entries and without -u, root stands for the caller. -/
  uid_root : Last opts (letter 'm') none → ¬ Given opts 'u' → env.uid.toNat < 2 ^ 31 → MapsTo j.uidmap [(0, env.uid.toNat, 1)]
  uid_none : Without opts (letter 'm') → j.uidmap = none
  gid_given : ∀ a es, Last opts (letter 'M') (some a) → List.Forall₂ MapLine (fields ',' a) es → MapsTo j.gidmap es
  /-- The group chosen with -g. -/
  gid_chosen : Last opts (letter 'M') none → GroupLast opts → j.gid.toNat < 2 ^ 31 → env.gid.toNat < 2 ^ 31 → MapsTo j.gidmap [(j.gid.toNat, env.gid.toNat, 1)]
  /-- The group of the user chosen with -u. -/
  gid_user : Last opts (letter 'M') none → UserLast opts → j.usergid.toNat < 2 ^ 31 → env.gid.toNat < 2 ^ 31 → MapsTo j.gidmap [(j.usergid.toNat, env.gid.toNat, 1)]
  gid_root : Last opts (letter 'M') none → ¬ Given opts 'g' → (∀ p ∈ opts, ¬ NamedUser p) → env.gid.toNat < 2 ^ 31 → MapsTo j.gidmap [(0, env.gid.toNat, 1)]
  gid_none : Without opts (letter 'M') → j.gidmap = none
  /-- A caller that may not set groups gives them up, as user_namespaces(7) asks for. -/
  setgroups : Given opts 'M' → env.setgidCap = false → j.flags.disable_setgroups = true
  /-- Maps need a user namespace. -/
  userns : Given opts 'm' ∨ Given opts 'M' → j.flags.userns = true ∧ j.flags.pids = true

end Minijail.Spec
