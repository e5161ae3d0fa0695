import Verif.Spec.Text
/-! Paths as lists of components. -/
set_option autoImplicit false
namespace Minijail.Spec

/-- A path without one trailing slash. -/
def chopSlash (p : List Char) : List Char := if p.getLast? = some '/' then p.dropLast else p

/-- `c` lies below `p`: it is another path, and its components are those of `p` (a trailing slash of `p` counts
for nothing) and then at least one more. -/
def Below (p c : List Char) : Prop :=
  c ≠ p ∧ ∃ more, more ≠ [] ∧ fields '/' c = fields '/' (chopSlash p) ++ more

end Minijail.Spec
