import Verif.Spec.Policy
/-! How many labels the rules of a policy need: one for the entry of each rule with a block of its own, one for the end
of each conjunction, one for success. -/
set_option autoImplicit false
namespace Minijail.Spec

/-- The labels of one rule. -/
def Rule.labels : Rule → Nat
  | .allow => 0
  | .block _ => 1
  | .filter f _ => 2 + f.length

/-- The labels of a list of rules. -/
def labelDemand (rules : List (BitVec 32 × Rule)) : Nat := (rules.map fun x => x.2.labels).sum

end Minijail.Spec
