import Verif.Spec.Policy
/-! How many instructions of the kernel's filter machine the rules of a policy take. Nothing here refers to a model. -/
set_option autoImplicit false
namespace Minijail.Spec

/-- An order of numbers, rather than of bits. -/
def Cmp.ordered : Cmp → Bool
  | .lt | .le | .gt | .ge => true
  | _ => false

/-- A comparison: on a machine of 32 bits the argument is loaded, compared, and there is a jump. On one of 64 bits the two halves are loaded and kept, both
are compared, and for an order the upper halves are compared twice, unless that of the constant is 0. -/
def Atom.size (bits : Nat) (a : Atom) : Nat :=
  if bits = 32 then 3 else if a.cmp.ordered ∧ 2 ^ 32 ≤ a.const then 9 else 8

/-- A rule: the test of the number with what follows it, and the block of rules that look at arguments or return something. Each group of comparisons ends in a
jump and a place to jump to. -/
def Rule.size (bits : Nat) : Rule → Nat
  | .allow => 2
  | .block _ => 4
  | .filter f _ => 6 + (f.map fun g => 2 + (g.map (Atom.size bits)).sum).sum

/-- A policy: the test of the architecture, the number of the system call, the rules, the action for the others. -/
def policySize (bits : Nat) (rules : List (BitVec 32 × Rule)) : Nat := 5 + (rules.map fun x => x.2.size bits).sum

/-- No system call has two rules other than `1`. -/
def OneBlock (rules : List (BitVec 32 × Rule)) : Prop := ((rules.filter fun x => x.2 ≠ .allow).map Prod.fst).Nodup

end Minijail.Spec
