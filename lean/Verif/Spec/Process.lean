import Verif.Model.Enter
/-! The identity and the privileges of a process, and what the system's answers to its requests do to them. -/
set_option autoImplicit false
namespace Minijail.Spec
open Minijail

/-- The kernel's record of a process. The three user ids of a process are one field here, as are its three group ids: the code only
sets all three at once. -/
structure Proc where
  uid : BitVec 32
  gid : BitVec 32
  groups : List (BitVec 32)
  eff : BitVec 64
  perm : BitVec 64
  inh : BitVec 64
  amb : BitVec 64
  bound : BitVec 64
  securebits : BitVec 64
  noNewPrivs : Bool
  filters : List (Option (List Insn))
  deriving DecidableEq

/-- An id after the request to change it: -1 leaves it as it is (setresuid(2)). -/
def changedId (old new : BitVec 32) : BitVec 32 := if new = -1#32 then old else new

/-- What a request that was granted does (credentials(7), capabilities(7), prctl(2), seccomp(2)). `groupsOf u g` are the groups of user `u` in
the group database together with `g` (initgroups(3)). Leaving user 0 may take capabilities away (capabilities(7)): all that is assumed of a
change of user is that the rest stays. A hook is the caller's own code and may change anything. -/
def Granted (groupsOf : Option BStr → BitVec 32 → List (BitVec 32)) (p : Proc) : Sys → Proc → Prop
  | .setresuid u, q => ∃ e pm a, q = { p with uid := changedId p.uid u, eff := e, perm := pm, amb := a }
  | .setresgid g, q => q = { p with gid := changedId p.gid g }
  | .setgroups l, q => q = { p with groups := l }
  | .initgroups u g, q => q = { p with groups := groupsOf u g }
  | .capset e pm i, q => q = { p with eff := e, perm := pm, inh := i, amb := p.amb &&& pm &&& i }
  | .dropBound i, q => q = { p with bound := p.bound &&& ~~~BitVec.twoPow 64 i }
  | .ambientClear, q => q = { p with amb := 0#64 }
  | .ambientRaise i, q => q = { p with amb := p.amb ||| BitVec.twoPow 64 i }
  | .setSecurebits b, q => q = { p with securebits := b }
  | .noNewPrivs, q => q = { p with noNewPrivs := true }
  | .seccompFilter _ _ f, q => q = { p with filters := f :: p.filters }
  | .hook _ _, _ => True
  | _, q => q = p

/-- What an answered request does: a refusal changes nothing, except that a hook may have changed anything before it failed. -/
def Answered (groupsOf : Option BStr → BitVec 32 → List (BitVec 32)) (p : Proc) (e : Ev) (q : Proc) : Prop :=
  (0 ≤ e.2 ∧ Granted groupsOf p e.1 q) ∨ (e.2 < 0 ∧ (q = p ∨ ∃ a b, e.1 = .hook a b))

/-- The process goes from `p` to `q` while the requests in `t` are answered. -/
inductive Evolves (groupsOf : Option BStr → BitVec 32 → List (BitVec 32)) : Proc → List Ev → Proc → Prop
  | nil (p : Proc) : Evolves groupsOf p [] p
  | cons {p q r : Proc} {e : Ev} {t : List Ev} (h : Answered groupsOf p e q) (ht : Evolves groupsOf q t r) : Evolves groupsOf p (e :: t) r

end Minijail.Spec
